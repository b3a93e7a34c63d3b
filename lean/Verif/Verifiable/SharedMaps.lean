import Verif.Verifiable.Fields
/-!
# verifiable: credentials and the JSON objects they share with the program (C130)

A `Credential` keeps its JSON object (a Go map) by reference.  `ParseCredentialJSON` keeps the map it is given and
`CreateDisplayCredentialMap` hands it out; all other functions copy it (the first level only: values inside are never
written by the library, and writes by the program into objects inside are not modelled).  The model keeps maps at
addresses, and follows histories over any number of credentials and maps.
-/

namespace VC.Vfy.Shr

open GoMap

/-! ## Model -/

/-- What a variable of the program is: a credential, a map of its own, or a map it has given to or got from the
library by reference. -/
inductive Kind where
  | cred
  | free
  | lent
  deriving DecidableEq, Repr

/-- A variable: a reference to a map, and (for a credential) the field `ldProofs`. -/
structure Var where
  addr : Nat
  proofs : List JObj
  kind : Kind

/-- All maps and the variables of the program, numbered in the order they are made. -/
structure Mem where
  heap : Nat → JObj
  next : Nat
  vars : List Var

/-- What a program does. -/
inductive Op where
  /-- the program makes a map -/
  | newMap (m : JObj)
  /-- the program writes into a map it has -/
  | put (i : Nat) (k : String) (v : Json)
  /-- `ParseCredentialJSON` of a map of the program, credential.go:1436-1480, with the proofs found there -/
  | parse (i : Nat) (ps : List JObj)
  /-- `ParseCredential` of bytes, credential_parser.go:32-113, 156-222, or
  `CreateCredential(WithProofs)`, credential.go:1404-1433 -/
  | load (m : JObj) (ps : List JObj)
  /-- `SetCustomField`, credential.go:2819-2821 -/
  | field (i : Nat) (k : String) (v : Json)
  /-- `ResetProofs`, credential_ldp.go:25-28 -/
  | reset (i : Nat) (ps : List JObj)
  /-- `AddLinkedDataProof`, credential_ldp.go:13-22: did-go writes the member `proof`, then the proofs are read from it -/
  | ldProof (i : Nat) (v : Json) (ps : List JObj)
  /-- `AddDataIntegrityProof`, data_integrity_proof.go:31-50 -/
  | diProof (i : Nat) (ps : List JObj)
  /-- `WithModifiedID` and the other such methods, credential.go:2634-2817: `f` is the change to the copy -/
  | modify (i : Nat) (f : JObj → JObj)
  /-- `CreateSignedJWTVC` and `CreateUnsecuredJWTVC`, credential.go:2362-2387, 2417-2436 -/
  | envelope (i : Nat)
  /-- `CreateSignedCOSEVC`, credential.go:2390-2414 (credential_cwt.go:50) -/
  | cose (i : Nat)
  /-- `ToRawJSON`, credential.go:933-942, kept by the program -/
  | raw (i : Nat)
  /-- `CreateDisplayCredentialMap` of a credential that is no SD-JWT, credential_sdjwt.go:545-547 -/
  | display (i : Nat)

/-- The map at one address replaced. -/
def upd (h : Nat → JObj) (a : Nat) (m : JObj) : Nat → JObj := fun x => if x = a then m else h x

/-- A new map, and a variable for it. -/
def Mem.alloc (s : Mem) (m : JObj) (ps : List JObj) (k : Kind) : Mem :=
  ⟨upd s.heap s.next m, s.next + 1, s.vars ++ [⟨s.next, ps, k⟩]⟩

/-- The map of variable `i` changed in place, and its proofs. -/
def Mem.store (s : Mem) (i : Nat) (v : Var) (m : JObj) (ps : List JObj) : Mem :=
  ⟨upd s.heap v.addr m, s.next, s.vars.set i { v with proofs := ps }⟩

/-- The object `ToRawJSON` makes, credential.go:935-939. -/
def rawOf (m : JObj) (ps : List JObj) : JObj := if ps = [] then m else set m "proof" (proofsToRaw ps)

/-- One step; a step on a variable that does not exist or has another kind is none. -/
def step (s : Mem) : Op → Mem
  | .newMap m => s.alloc m [] .free
  | .load m ps => s.alloc m ps .cred
  | .put i k v => match s.vars[i]? with
    | some x => if x.kind = .cred then s else s.store i x (set (s.heap x.addr) k v) []
    | none => s
  | .parse i ps => match s.vars[i]? with
    | some x => if x.kind = .cred then s else
        { s with vars := s.vars.set i { x with kind := .lent } ++ [⟨x.addr, ps, .cred⟩] }
    | none => s
  | .field i k v => match s.vars[i]? with
    | some x => if x.kind = .cred then s.store i x (set (s.heap x.addr) k v) x.proofs else s
    | none => s
  | .reset i ps => match s.vars[i]? with
    | some x => if x.kind = .cred then s.store i x (set (s.heap x.addr) "proof" (proofsToRaw ps)) ps else s
    | none => s
  | .ldProof i v ps => match s.vars[i]? with
    | some x => if x.kind = .cred then s.store i x (set (s.heap x.addr) "proof" v) ps else s
    | none => s
  | .diProof i ps => match s.vars[i]? with
    | some x => if x.kind = .cred then
        s.store i x (if ps = [] then s.heap x.addr else set (s.heap x.addr) "proof" (proofsToRaw ps)) ps else s
    | none => s
  | .modify i f => match s.vars[i]? with
    | some x => if x.kind = .cred then s.alloc (f (del (s.heap x.addr) "proof")) [] .cred else s
    | none => s
  | .envelope i => match s.vars[i]? with
    | some x => if x.kind = .cred then s.alloc (rawOf (s.heap x.addr) x.proofs) x.proofs .cred else s
    | none => s
  | .cose i => match s.vars[i]? with
    | some x => if x.kind = .cred then s.alloc (s.heap x.addr) x.proofs .cred else s
    | none => s
  | .raw i => match s.vars[i]? with
    | some x => if x.kind = .cred then s.alloc (rawOf (s.heap x.addr) x.proofs) [] .free else s
    | none => s
  | .display i => match s.vars[i]? with
    | some x => if x.kind = .cred then { s with vars := s.vars ++ [⟨x.addr, [], .lent⟩] } else s
    | none => s

/-- A history, from nothing. -/
def run (ops : List Op) : Mem := ops.foldl step ⟨fun _ => [], 0, []⟩

/-- What the program sees in variable `i`: `ToRawJSON` of a credential, or the map. -/
def Mem.look (s : Mem) (i : Nat) : Option JObj :=
  (s.vars[i]?).map fun x => rawOf (s.heap x.addr) x.proofs

/-! ## Specification: every variable has an object of its own -/

/-- A variable with its own object. -/
structure Own where
  obj : JObj
  proofs : List JObj
  kind : Kind

/-- Change variable `i`. -/
def change (o : List Own) (i : Nat) (f : Own → Own) : List Own :=
  match o[i]? with
  | some x => o.set i (f x)
  | none => o

/-- A new variable made from credential `i`. -/
def derive (o : List Own) (i : Nat) (f : Own → Own) : List Own :=
  match o[i]? with
  | some x => if x.kind = .cred then o ++ [f x] else o
  | none => o

/-- What each operation should do. -/
def ownStep (o : List Own) : Op → List Own
  | .newMap m => o ++ [⟨m, [], .free⟩]
  | .load m ps => o ++ [⟨m, ps, .cred⟩]
  | .put i k v => change o i fun x => if x.kind = .cred then x else ⟨set x.obj k v, [], x.kind⟩
  | .parse i ps => match o[i]? with
    | some x => if x.kind = .cred then o else o.set i { x with kind := .lent } ++ [⟨x.obj, ps, .cred⟩]
    | none => o
  | .field i k v => change o i fun x => if x.kind = .cred then ⟨set x.obj k v, x.proofs, .cred⟩ else x
  | .reset i ps => change o i fun x =>
      if x.kind = .cred then ⟨set x.obj "proof" (proofsToRaw ps), ps, .cred⟩ else x
  | .ldProof i v ps => change o i fun x => if x.kind = .cred then ⟨set x.obj "proof" v, ps, .cred⟩ else x
  | .diProof i ps => change o i fun x => if x.kind = .cred then
      ⟨if ps = [] then x.obj else set x.obj "proof" (proofsToRaw ps), ps, .cred⟩ else x
  | .modify i f => derive o i fun x => ⟨f (del x.obj "proof"), [], .cred⟩
  | .envelope i => derive o i fun x => ⟨rawOf x.obj x.proofs, x.proofs, .cred⟩
  | .cose i => derive o i fun x => ⟨x.obj, x.proofs, .cred⟩
  | .raw i => derive o i fun x => ⟨rawOf x.obj x.proofs, [], .free⟩
  | .display i => derive o i fun x => ⟨x.obj, [], .lent⟩

/-- What a history should lead to. -/
def own (ops : List Op) : List Own := ops.foldl ownStep []

/-- The program neither writes nor parses a map that it has given to `ParseCredentialJSON` or got from
`CreateDisplayCredentialMap`. -/
def Careful : List Own → List Op → Prop
  | _, [] => True
  | o, op :: ops =>
    (∀ i x, ((∃ k v, op = .put i k v) ∨ ∃ ps, op = .parse i ps) → o[i]? = some x → x.kind ≠ .lent) ∧
      Careful (ownStep o op) ops

/-! ## Proofs -/

theorem upd_self (h : Nat → JObj) (a : Nat) (m : JObj) : upd h a m a = m := by simp [upd]

theorem upd_ne (h : Nat → JObj) {a b : Nat} (m : JObj) (e : b ≠ a) : upd h a m b = h b := by simp [upd, e]

/-- Variables that are not lent have maps of their own, with the right contents. -/
structure Good (s : Mem) (o : List Own) : Prop where
  size : s.vars.length = o.length
  bound : ∀ (i : Nat) (x : Var), s.vars[i]? = some x → x.addr < s.next
  kind : ∀ (i : Nat) (x : Var) (y : Own), s.vars[i]? = some x → o[i]? = some y → x.kind = y.kind
  shows : ∀ (i : Nat) (x : Var) (y : Own), s.vars[i]? = some x → o[i]? = some y → x.kind ≠ .lent →
    s.heap x.addr = y.obj ∧ x.proofs = y.proofs
  apart : ∀ (i j : Nat) (x x' : Var), s.vars[i]? = some x → s.vars[j]? = some x' → i ≠ j → x.kind ≠ .lent →
    x'.kind ≠ .lent → x.addr ≠ x'.addr

theorem Good.get {s : Mem} {o : List Own} (g : Good s o) {i : Nat} {x : Var} (h : s.vars[i]? = some x) :
    ∃ y, o[i]? = some y :=
  ⟨_, List.getElem?_eq_getElem (g.size ▸ (List.getElem?_eq_some_iff.mp h).1)⟩

theorem Good.none {s : Mem} {o : List Own} (g : Good s o) {i : Nat} (h : s.vars[i]? = none) : o[i]? = none := by
  rw [List.getElem?_eq_none_iff] at h ⊢; rw [← g.size]; exact h

theorem look_append {β : Type} {l : List β} {x y : β} {i : Nat} (h : (l ++ [x])[i]? = some y) :
    (i = l.length ∧ y = x) ∨ (i < l.length ∧ l[i]? = some y) := by
  rcases Nat.lt_trichotomy i l.length with hl | rfl | hl
  · rw [List.getElem?_append_left hl] at h; exact Or.inr ⟨hl, h⟩
  · simp at h; exact Or.inl ⟨rfl, h.symm⟩
  · rw [List.getElem?_eq_none_iff.mpr (by simp; omega)] at h; cases h

theorem look_set {β : Type} {l : List β} {x y : β} {i j : Nat} (h : (l.set i x)[j]? = some y) :
    (i = j ∧ i < l.length ∧ y = x) ∨ (i ≠ j ∧ l[j]? = some y) := by
  by_cases e : i = j
  · subst e
    have hl := (List.getElem?_eq_some_iff.mp h).1
    rw [List.length_set] at hl
    rw [List.getElem?_set_self hl] at h
    exact Or.inl ⟨rfl, hl, (Option.some.inj h).symm⟩
  · rw [List.getElem?_set_ne e] at h; exact Or.inr ⟨e, h⟩

theorem good_alloc {s : Mem} {o : List Own} (g : Good s o) (m : JObj) (ps : List JObj) (k : Kind) :
    Good (s.alloc m ps k) (o ++ [⟨m, ps, k⟩]) := by
  have hl := g.size
  refine ⟨by simp [Mem.alloc, hl], ?_, ?_, ?_, ?_⟩
  · intro i x h
    change x.addr < s.next + 1
    rcases look_append h with ⟨-, rfl⟩ | ⟨-, h⟩
    · exact Nat.lt_succ_self _
    · have := g.bound i x h; omega
  · intro i x y h h'
    rcases look_append h with ⟨e, rfl⟩ | ⟨e, h⟩ <;> rcases look_append h' with ⟨e', rfl⟩ | ⟨e', h'⟩
    · rfl
    · omega
    · omega
    · exact g.kind i x y h h'
  · intro i x y h h' hk
    rcases look_append h with ⟨e, rfl⟩ | ⟨e, h⟩ <;> rcases look_append h' with ⟨e', rfl⟩ | ⟨e', h'⟩
    · exact ⟨upd_self _ _ _, rfl⟩
    · omega
    · omega
    · have hb := g.bound i x h
      exact ⟨(upd_ne _ _ (by omega)).trans (g.shows i x y h h' hk).1, (g.shows i x y h h' hk).2⟩
  · intro i j x x' h h' hij hk hk'
    rcases look_append h with ⟨e, rfl⟩ | ⟨e, h⟩ <;> rcases look_append h' with ⟨e', rfl⟩ | ⟨e', h'⟩
    · omega
    · have := g.bound j x' h'; dsimp only; omega
    · have := g.bound i x h; dsimp only; omega
    · exact g.apart i j x x' h h' hij hk hk'

theorem good_store {s : Mem} {o : List Own} (g : Good s o) {i : Nat} {x : Var} {y : Own} (hx : s.vars[i]? = some x)
    (hy : o[i]? = some y) (hk : x.kind ≠ .lent) (m : JObj) (ps : List JObj) :
    Good (s.store i x m ps) (o.set i ⟨m, ps, y.kind⟩) := by
  have hkk := g.kind i x y hx hy
  refine ⟨by simp [Mem.store, g.size], ?_, ?_, ?_, ?_⟩
  · intro j x' h
    change x'.addr < s.next
    rcases look_set h with ⟨rfl, -, rfl⟩ | ⟨-, h⟩
    · exact g.bound i x hx
    · exact g.bound j x' h
  · intro j x' y' h h'
    rcases look_set h with ⟨rfl, -, rfl⟩ | ⟨e, h⟩ <;> rcases look_set h' with ⟨e', -, rfl⟩ | ⟨e', h'⟩
    · exact hkk
    · exact absurd rfl e'
    · exact absurd e' e
    · exact g.kind j x' y' h h'
  · intro j x' y' h h' hk'
    rcases look_set h with ⟨rfl, -, rfl⟩ | ⟨e, h⟩ <;> rcases look_set h' with ⟨e', -, rfl⟩ | ⟨e', h'⟩
    · exact ⟨upd_self _ _ _, rfl⟩
    · exact absurd rfl e'
    · exact absurd e' e
    · exact ⟨(upd_ne _ _ (fun q => g.apart i j x x' hx h e hk hk' q.symm)).trans (g.shows j x' y' h h' hk').1,
        (g.shows j x' y' h h' hk').2⟩
  · intro a b x' x'' h h' hab hk' hk''
    rcases look_set h with ⟨rfl, -, rfl⟩ | ⟨e, h⟩ <;> rcases look_set h' with ⟨e', -, rfl⟩ | ⟨e', h'⟩
    · exact absurd e' hab
    · exact g.apart i b x x'' hx h' e' hk hk''
    · subst e'; exact g.apart a i x' x h hx hab hk' hk
    · exact g.apart a b x' x'' h h' hab hk' hk''

/-- A lent variable for a map some credential has. -/
theorem good_lend {s : Mem} {o : List Own} (g : Good s o) (a : Nat) (ha : a < s.next) (m : JObj) :
    Good { s with vars := s.vars ++ [⟨a, [], .lent⟩] } (o ++ [⟨m, [], .lent⟩]) := by
  have hl := g.size
  refine ⟨by simp [hl], ?_, ?_, ?_, ?_⟩
  · intro i x h
    rcases look_append h with ⟨-, rfl⟩ | ⟨-, h⟩
    · exact ha
    · exact g.bound i x h
  · intro i x y h h'
    rcases look_append h with ⟨e, rfl⟩ | ⟨e, h⟩ <;> rcases look_append h' with ⟨e', rfl⟩ | ⟨e', h'⟩
    · rfl
    · omega
    · omega
    · exact g.kind i x y h h'
  · intro i x y h h' hk
    rcases look_append h with ⟨e, rfl⟩ | ⟨e, h⟩ <;> rcases look_append h' with ⟨e', rfl⟩ | ⟨e', h'⟩
    · exact absurd rfl hk
    · omega
    · omega
    · exact g.shows i x y h h' hk
  · intro i j x x' h h' hij hk hk'
    rcases look_append h with ⟨e, rfl⟩ | ⟨e, h⟩ <;> rcases look_append h' with ⟨e', rfl⟩ | ⟨e', h'⟩
    · omega
    · exact absurd rfl hk
    · exact absurd rfl hk'
    · exact g.apart i j x x' h h' hij hk hk'

theorem good_parse {s : Mem} {o : List Own} (g : Good s o) {i : Nat} {x : Var} {y : Own} (hx : s.vars[i]? = some x)
    (hy : o[i]? = some y) (hk : x.kind ≠ .lent) (ps : List JObj) :
    Good { s with vars := s.vars.set i { x with kind := .lent } ++ [⟨x.addr, ps, .cred⟩] }
      (o.set i { y with kind := .lent } ++ [⟨y.obj, ps, .cred⟩]) := by
  have hl := g.size
  have hil := (List.getElem?_eq_some_iff.mp hx).1
  refine ⟨by simp [hl], ?_, ?_, ?_, ?_⟩
  · intro j x' h
    rcases look_append h with ⟨-, rfl⟩ | ⟨-, h⟩
    · exact g.bound i x hx
    · rcases look_set h with ⟨rfl, -, rfl⟩ | ⟨-, h⟩
      · exact g.bound i x hx
      · exact g.bound j x' h
  · intro j x' y' h h'
    rcases look_append h with ⟨e, rfl⟩ | ⟨e, h⟩ <;> rcases look_append h' with ⟨e', rfl⟩ | ⟨e', h'⟩
    · rfl
    · simp only [List.length_set] at e e'; omega
    · simp only [List.length_set] at e e'; omega
    · rcases look_set h with ⟨rfl, -, rfl⟩ | ⟨e, h⟩ <;> rcases look_set h' with ⟨e', -, rfl⟩ | ⟨e', h'⟩
      · rfl
      · exact absurd rfl e'
      · exact absurd e' e
      · exact g.kind j x' y' h h'
  · intro j x' y' h h' hk'
    rcases look_append h with ⟨e, rfl⟩ | ⟨e, h⟩ <;> rcases look_append h' with ⟨e', rfl⟩ | ⟨e', h'⟩
    · exact ⟨(g.shows i x y hx hy hk).1, rfl⟩
    · simp only [List.length_set] at e e'; omega
    · simp only [List.length_set] at e e'; omega
    · rcases look_set h with ⟨rfl, -, rfl⟩ | ⟨e, h⟩ <;> rcases look_set h' with ⟨e', -, rfl⟩ | ⟨e', h'⟩
      · exact absurd rfl hk'
      · exact absurd rfl e'
      · exact absurd e' e
      · exact g.shows j x' y' h h' hk'
  · intro a b x' x'' h h' hab hk' hk''
    have other : ∀ (j : Nat) (z : Var), (s.vars.set i { x with kind := .lent })[j]? = some z → z.kind ≠ .lent →
        s.vars[j]? = some z ∧ i ≠ j := by
      intro j z hz hkz
      rcases look_set hz with ⟨rfl, -, rfl⟩ | ⟨e, hz⟩
      · exact absurd rfl hkz
      · exact ⟨hz, e⟩
    rcases look_append h with ⟨e, rfl⟩ | ⟨e, h⟩ <;> rcases look_append h' with ⟨e', rfl⟩ | ⟨e', h'⟩
    · omega
    · obtain ⟨h', e⟩ := other b x'' h' hk''
      exact g.apart i b x x'' hx h' e hk hk''
    · obtain ⟨h, e⟩ := other a x' h hk'
      exact g.apart a i x' x h hx (Ne.symm e) hk' hk
    · exact g.apart a b x' x'' (other a x' h hk').1 (other b x'' h' hk'').1 hab hk' hk''

theorem set_self {β : Type} {l : List β} {i : Nat} {x : β} (h : l[i]? = some x) : l.set i x = l := by
  apply List.ext_getElem?
  intro j
  by_cases e : i = j
  · subst e; rw [List.getElem?_set_self (List.getElem?_eq_some_iff.mp h).1, h]
  · rw [List.getElem?_set_ne e]

theorem good_step {s : Mem} {o : List Own} (g : Good s o) (op : Op)
    (hc : ∀ i x, ((∃ k v, op = .put i k v) ∨ ∃ ps, op = .parse i ps) → o[i]? = some x → x.kind ≠ .lent) :
    Good (step s op) (ownStep o op) := by
  -- a change of a credential
  have chg : ∀ (i : Nat) (fm : Var → JObj) (fp : Var → List JObj) (f : Own → Own),
      (∀ (x : Var) (y : Own), s.heap x.addr = y.obj → x.proofs = y.proofs → y.kind = .cred →
        f y = ⟨fm x, fp x, .cred⟩) → (∀ y : Own, y.kind ≠ .cred → f y = y) →
      Good (match s.vars[i]? with
        | some x => if x.kind = .cred then s.store i x (fm x) (fp x) else s
        | none => s) (change o i f) := by
    intro i fm fp f h1 h2
    unfold change
    cases hx : s.vars[i]? with
    | none => rw [g.none hx]; exact g
    | some x =>
      obtain ⟨y, hy⟩ := g.get hx
      rw [hy]
      dsimp only
      have hkk := g.kind i x y hx hy
      by_cases hk : x.kind = .cred
      · rw [if_pos hk]
        have hnl : x.kind ≠ .lent := by rw [hk]; decide
        obtain ⟨a, b⟩ := g.shows i x y hx hy hnl
        rw [h1 x y a b (hkk ▸ hk)]
        have := good_store g hx hy hnl (fm x) (fp x)
        rwa [← hkk, hk] at this
      · rw [if_neg hk, h2 y (hkk ▸ hk), set_self hy]; exact g
  -- a new variable from a credential
  have drv : ∀ (i : Nat) (fm : Var → JObj) (fp : Var → List JObj) (k : Kind) (f : Own → Own),
      (∀ (x : Var) (y : Own), s.heap x.addr = y.obj → x.proofs = y.proofs → f y = ⟨fm x, fp x, k⟩) →
      Good (match s.vars[i]? with
        | some x => if x.kind = .cred then s.alloc (fm x) (fp x) k else s
        | none => s) (derive o i f) := by
    intro i fm fp k f h1
    unfold derive
    cases hx : s.vars[i]? with
    | none => rw [g.none hx]; exact g
    | some x =>
      obtain ⟨y, hy⟩ := g.get hx
      rw [hy]
      dsimp only
      have hkk := g.kind i x y hx hy
      by_cases hk : x.kind = .cred
      · rw [if_pos hk, if_pos (hkk ▸ hk)]
        obtain ⟨a, b⟩ := g.shows i x y hx hy (by rw [hk]; decide)
        rw [h1 x y a b]
        exact good_alloc g _ _ _
      · rw [if_neg hk, if_neg (hkk ▸ hk)]; exact g
  cases op with
  | newMap m => exact good_alloc g m [] .free
  | load m ps => exact good_alloc g m ps .cred
  | put i k v =>
    change Good (match s.vars[i]? with
      | some x => if x.kind = .cred then s else s.store i x (set (s.heap x.addr) k v) []
      | none => s) (change o i _)
    unfold change
    cases hx : s.vars[i]? with
    | none => rw [g.none hx]; exact g
    | some x =>
      obtain ⟨y, hy⟩ := g.get hx
      rw [hy]
      dsimp only
      have hkk := g.kind i x y hx hy
      by_cases hk : x.kind = .cred
      · rw [if_pos hk, if_pos (hkk ▸ hk), set_self hy]; exact g
      · rw [if_neg hk, if_neg (hkk ▸ hk)]
        have hnl : x.kind ≠ .lent := hkk ▸ hc i y (Or.inl ⟨k, v, rfl⟩) hy
        have := good_store g hx hy hnl (set (s.heap x.addr) k v) []
        rwa [(g.shows i x y hx hy hnl).1] at this ⊢
  | parse i ps =>
    change Good (match s.vars[i]? with
      | some x => if x.kind = .cred then s else
          { s with vars := s.vars.set i { x with kind := .lent } ++ [⟨x.addr, ps, .cred⟩] }
      | none => s) (match o[i]? with
      | some x => if x.kind = .cred then o else o.set i { x with kind := .lent } ++ [⟨x.obj, ps, .cred⟩]
      | none => o)
    cases hx : s.vars[i]? with
    | none => rw [g.none hx]; exact g
    | some x =>
      obtain ⟨y, hy⟩ := g.get hx
      rw [hy]
      dsimp only
      have hkk := g.kind i x y hx hy
      by_cases hk : x.kind = .cred
      · rw [if_pos hk, if_pos (hkk ▸ hk)]; exact g
      · rw [if_neg hk, if_neg (hkk ▸ hk)]
        exact good_parse g hx hy (hkk ▸ hc i y (Or.inr ⟨ps, rfl⟩) hy) ps
  | field i k v =>
    exact chg i (fun x => set (s.heap x.addr) k v) (fun x => x.proofs) _
      (fun x y a b hk => by rw [if_pos hk, a, b]) (fun y hk => by rw [if_neg hk])
  | reset i ps =>
    exact chg i (fun x => set (s.heap x.addr) "proof" (proofsToRaw ps)) (fun _ => ps) _
      (fun x y a b hk => by rw [if_pos hk, a]) (fun y hk => by rw [if_neg hk])
  | ldProof i v ps =>
    exact chg i (fun x => set (s.heap x.addr) "proof" v) (fun _ => ps) _
      (fun x y a b hk => by rw [if_pos hk, a]) (fun y hk => by rw [if_neg hk])
  | diProof i ps =>
    exact chg i (fun x => if ps = [] then s.heap x.addr else set (s.heap x.addr) "proof" (proofsToRaw ps))
      (fun _ => ps) _
      (fun x y a b hk => by rw [if_pos hk, a]) (fun y hk => by rw [if_neg hk])
  | modify i f =>
    exact drv i (fun x => f (del (s.heap x.addr) "proof")) (fun _ => []) .cred _
      (fun x y a b => by rw [a])
  | envelope i =>
    exact drv i (fun x => rawOf (s.heap x.addr) x.proofs) (fun x => x.proofs) .cred _
      (fun x y a b => by rw [a, b])
  | cose i =>
    exact drv i (fun x => s.heap x.addr) (fun x => x.proofs) .cred _ (fun x y a b => by rw [a, b])
  | raw i =>
    exact drv i (fun x => rawOf (s.heap x.addr) x.proofs) (fun _ => []) .free _
      (fun x y a b => by rw [a, b])
  | display i =>
    change Good (match s.vars[i]? with
      | some x => if x.kind = .cred then { s with vars := s.vars ++ [⟨x.addr, [], .lent⟩] } else s
      | none => s) (derive o i _)
    unfold derive
    cases hx : s.vars[i]? with
    | none => rw [g.none hx]; exact g
    | some x =>
      obtain ⟨y, hy⟩ := g.get hx
      rw [hy]
      dsimp only
      have hkk := g.kind i x y hx hy
      by_cases hk : x.kind = .cred
      · rw [if_pos hk, if_pos (hkk ▸ hk)]; exact good_lend g _ (g.bound i x hx) _
      · rw [if_neg hk, if_neg (hkk ▸ hk)]; exact g

theorem good_run (ops : List Op) : ∀ (s : Mem) (o : List Own), Good s o → Careful o ops →
    Good (ops.foldl step s) (ops.foldl ownStep o) := by
  induction ops with
  | nil => intro s o g _; exact g
  | cons op ops ih => intro s o g h; exact ih _ _ (good_step g op h.1) h.2

theorem good_nil : Good ⟨fun _ => [], 0, []⟩ [] :=
  ⟨rfl, fun _ _ h => by simp at h, fun _ _ _ h => by simp at h, fun _ _ _ h => by simp at h,
    fun _ _ _ _ h => by simp at h⟩

/-! ## Theorems -/

/-- **C130 (partial).**  In every history in which the program leaves alone the maps it has given to
`ParseCredentialJSON` and got from `CreateDisplayCredentialMap`, every credential and every map of its own shows exactly
what was done to it: nothing done to another credential or map changes it. -/
theorem credentials_independent_partial (ops : List Op) (h : Careful [] ops) {i : Nat} {y : Own}
    (hy : (own ops)[i]? = some y) (hk : y.kind ≠ .lent) :
    (run ops).look i = some (rawOf y.obj y.proofs) := by
  have g := good_run ops _ _ good_nil h
  have hl := (List.getElem?_eq_some_iff.mp hy).1
  obtain ⟨x, hx⟩ : ∃ x, (run ops).vars[i]? = some x :=
    ⟨_, List.getElem?_eq_getElem (by have := g.size; unfold run; unfold own at hl; omega)⟩
  have hkk := g.kind i x y hx hy
  obtain ⟨a, b⟩ := g.shows i x y hx hy (hkk ▸ hk)
  unfold Mem.look
  rw [hx, Option.map_some, ← b]
  unfold run
  rw [a]

/-- What a map with these proofs is written as, in words: no proofs, the map; else the member `proof` is the one proof or
the list of them and every other member is the map's. -/
def WrittenAs (m : JObj) (ps : List JObj) (w : JObj) : Prop :=
  (ps = [] ∧ w = m) ∨ ((∀ k, k ≠ "proof" → get? w k = get? m k) ∧
    ((∃ p, ps = [p] ∧ get? w "proof" = some (.obj p)) ∨
     (2 ≤ ps.length ∧ get? w "proof" = some (.arr (ps.map Json.obj)))))

theorem writtenAs_rawOf (m : JObj) (ps : List JObj) : WrittenAs m ps (rawOf m ps) := by
  unfold rawOf WrittenAs
  match ps with
  | [] => exact .inl ⟨rfl, rfl⟩
  | [p] =>
    refine .inr ⟨fun k hk => by rw [if_neg (by simp), get?_set_ne _ _ (Ne.symm hk)], .inl ⟨p, rfl, ?_⟩⟩
    rw [if_neg (by simp), get?_set_self]; rfl
  | p :: q :: r =>
    refine .inr ⟨fun k hk => by rw [if_neg (by simp), get?_set_ne _ _ (Ne.symm hk)], .inr ⟨by simp, ?_⟩⟩
    rw [if_neg (by simp), get?_set_self]; rfl

/-- **C130 (partial)**, what is shown in words: the credential's own members and its own proofs. -/
theorem credentials_show_partial (ops : List Op) (h : Careful [] ops) {i : Nat} {y : Own}
    (hy : (own ops)[i]? = some y) (hk : y.kind ≠ .lent) :
    ∃ w, (run ops).look i = some w ∧ WrittenAs y.obj y.proofs w :=
  ⟨_, credentials_independent_partial ops h hy hk, writtenAs_rawOf _ _⟩

/-- Which variable an operation writes into. -/
def Op.writesTo : Op → Option Nat
  | .put i _ _ => some i
  | .field i _ _ => some i
  | .reset i _ => some i
  | .ldProof i _ _ => some i
  | .diProof i _ => some i
  | _ => none

theorem bound_step {s : Mem} (h : ∀ x ∈ s.vars, x.addr < s.next) (op : Op) :
    ∀ x ∈ (step s op).vars, x.addr < (step s op).next := by
  have al : ∀ m ps k, ∀ x ∈ (s.alloc m ps k).vars, x.addr < (s.alloc m ps k).next := by
    intro m ps k x hx
    change x.addr < s.next + 1
    rcases List.mem_append.mp hx with hx | hx
    · have := h x hx; omega
    · rw [List.mem_singleton] at hx; subst hx; exact Nat.lt_succ_self _
  have sto : ∀ (i : Nat) (v : Var) (m : JObj) (ps : List JObj), s.vars[i]? = some v →
      ∀ x ∈ (s.store i v m ps).vars, x.addr < (s.store i v m ps).next := by
    intro i v m ps hv x hx
    change x.addr < s.next
    rcases List.mem_or_eq_of_mem_set hx with hx | rfl
    · exact h x hx
    · exact h v (List.mem_of_getElem? hv)
  cases op with
  | newMap m => exact al _ _ _
  | load m ps => exact al _ _ _
  | put i k v =>
    simp only [step]; split
    · rename_i x hx; split
      · exact h
      · exact sto _ _ _ _ hx
    · exact h
  | parse i ps =>
    simp only [step]; split
    · rename_i x hx; split
      · exact h
      · intro y hy
        rcases List.mem_append.mp hy with hy | hy
        · rcases List.mem_or_eq_of_mem_set hy with hy | rfl
          · exact h y hy
          · exact h x (List.mem_of_getElem? hx)
        · rw [List.mem_singleton] at hy; subst hy; exact h x (List.mem_of_getElem? hx)
    · exact h
  | display i =>
    simp only [step]; split
    · rename_i x hx; split
      · intro y hy
        rcases List.mem_append.mp hy with hy | hy
        · exact h y hy
        · rw [List.mem_singleton] at hy; subst hy; exact h x (List.mem_of_getElem? hx)
      · exact h
    · exact h
  | modify i f =>
    simp only [step]; split
    · split
      · exact al _ _ _
      · exact h
    · exact h
  | envelope i =>
    simp only [step]; split
    · split
      · exact al _ _ _
      · exact h
    · exact h
  | cose i =>
    simp only [step]; split
    · split
      · exact al _ _ _
      · exact h
    · exact h
  | raw i =>
    simp only [step]; split
    · split
      · exact al _ _ _
      · exact h
    · exact h
  | field i k v =>
    simp only [step]; split
    · rename_i x hx; split
      · exact sto _ _ _ _ hx
      · exact h
    · exact h
  | reset i ps =>
    simp only [step]; split
    · rename_i x hx; split
      · exact sto _ _ _ _ hx
      · exact h
    · exact h
  | ldProof i v ps =>
    simp only [step]; split
    · rename_i x hx; split
      · exact sto _ _ _ _ hx
      · exact h
    · exact h
  | diProof i ps =>
    simp only [step]; split
    · rename_i x hx; split
      · exact sto _ _ _ _ hx
      · exact h
    · exact h

theorem bound_run (ops : List Op) : ∀ (s : Mem), (∀ x ∈ s.vars, x.addr < s.next) →
    ∀ x ∈ (ops.foldl step s).vars, x.addr < (ops.foldl step s).next := by
  induction ops with
  | nil => intro s h; exact h
  | cons op ops ih => intro s h; exact ih _ (bound_step h op)

/-- **C130.**  In every history, careful or not: an operation changes nothing but the variable it writes into and
those that refer to the same map. In particular making copies, signed credentials and JSON objects of a credential
changes nothing. -/
theorem only_sharers (ops : List Op) (op : Op) {j : Nat} {x : Var} (hx : (run ops).vars[j]? = some x)
    (h : ∀ i t, op.writesTo = some i → (run ops).vars[i]? = some t → i ≠ j ∧ t.addr ≠ x.addr) :
    (step (run ops) op).look j = (run ops).look j := by
  have hb := bound_run ops ⟨fun _ => [], 0, []⟩ (by simp) x (List.mem_of_getElem? hx)
  change x.addr < (run ops).next at hb
  have hl := (List.getElem?_eq_some_iff.mp hx).1
  generalize run ops = s at *
  have al : ∀ m ps k, (s.alloc m ps k).look j = s.look j := by
    intro m ps k
    unfold Mem.look Mem.alloc
    rw [List.getElem?_append_left hl, hx, Option.map_some, Option.map_some]
    dsimp only
    rw [upd_ne _ _ (by omega)]
  have sto : ∀ (i : Nat) (v : Var) (m : JObj) (ps : List JObj), op.writesTo = some i → s.vars[i]? = some v →
      (s.store i v m ps).look j = s.look j := by
    intro i v m ps hw hv
    obtain ⟨e1, e2⟩ := h i v hw hv
    unfold Mem.look Mem.store
    rw [List.getElem?_set_ne e1, hx, Option.map_some, Option.map_some]
    dsimp only
    rw [upd_ne _ _ (Ne.symm e2)]
  cases op with
  | newMap m => exact al _ _ _
  | load m ps => exact al _ _ _
  | put i k v =>
    simp only [step]; split
    · rename_i x hx; split
      · rfl
      · exact sto _ _ _ _ rfl hx
    · rfl
  | parse i ps =>
    simp only [step]; split
    · rename_i y hy; split
      · rfl
      · unfold Mem.look
        rw [List.getElem?_append_left (by simpa using hl)]
        by_cases e : i = j
        · subst e
          rw [List.getElem?_set_self hl, hx]
          rw [hx] at hy; cases hy; rfl
        · rw [List.getElem?_set_ne e]
    · rfl
  | display i =>
    simp only [step]; split
    · rename_i y hy; split
      · unfold Mem.look
        rw [List.getElem?_append_left hl]
      · rfl
    · rfl
  | modify i f =>
    simp only [step]; split
    · split
      · exact al _ _ _
      · rfl
    · rfl
  | envelope i =>
    simp only [step]; split
    · split
      · exact al _ _ _
      · rfl
    · rfl
  | cose i =>
    simp only [step]; split
    · split
      · exact al _ _ _
      · rfl
    · rfl
  | raw i =>
    simp only [step]; split
    · split
      · exact al _ _ _
      · rfl
    · rfl
  | field i k v =>
    simp only [step]; split
    · rename_i x hx; split
      · exact sto _ _ _ _ rfl hx
      · rfl
    · rfl
  | reset i ps =>
    simp only [step]; split
    · rename_i x hx; split
      · exact sto _ _ _ _ rfl hx
      · rfl
    · rfl
  | ldProof i v ps =>
    simp only [step]; split
    · rename_i x hx; split
      · exact sto _ _ _ _ rfl hx
      · rfl
    · rfl
  | diProof i ps =>
    simp only [step]; split
    · rename_i x hx; split
      · exact sto _ _ _ _ rfl hx
      · rfl
    · rfl

/-- A credential as the program of the examples has it. -/
def shObj : JObj := [("id", .str "urn:1"), ("issuer", .str "did:a")]

/-- **C130, the code violates it.**  Two credentials parsed from one map: a field set on the first shows in the
second (and in the map of the program). -/
theorem parsed_twice_shared : ∃ ops : List Op,
    (run ops).look 2 = some (set shObj "x" (.bool true)) ∧ (run ops).look 0 = some (set shObj "x" (.bool true)) ∧
    ((own ops)[2]?).map Own.obj = some shObj :=
  ⟨[.newMap shObj, .parse 0 [], .parse 0 [], .field 1 "x" (.bool true)], rfl, rfl, rfl⟩

/-- **C130, the code violates it.**  The map `CreateDisplayCredentialMap` returns for a credential that is no SD-JWT is
the credential's own: writing into it changes the credential, and a proof added to the credential shows in it. -/
theorem display_is_live : ∃ ops : List Op,
    (run ops).look 0 = some (set shObj "issuer" (.str "did:b")) ∧ ((own ops)[0]?).map Own.obj = some shObj :=
  ⟨[.load shObj [], .display 0, .put 1 "issuer" (.str "did:b")], rfl, rfl⟩

/-! ## Examples -/

/-- A map is parsed, the credential gets a proof, is modified and enveloped; its raw JSON is edited and parsed again. -/
def shOps : List Op := [.newMap shObj, .parse 0 [], .ldProof 1 (.obj []) [[]], .modify 1 (fun m => set m "id" (.str "urn:2")),
  .envelope 1, .raw 1, .put 4 "x" .null, .parse 4 [], .field 5 "y" .null, .reset 1 []]

theorem sh_careful : Careful [] shOps := by
  have none' : ∀ (o : List Own) (op : Op), op.writesTo = none → (∀ i ps, op ≠ .parse i ps) →
      ∀ i x, ((∃ k v, op = .put i k v) ∨ ∃ ps, op = .parse i ps) → o[i]? = some x → x.kind ≠ .lent := by
    rintro o op h h' i x (⟨k, v, rfl⟩ | ⟨ps, rfl⟩) _
    · cases h
    · exact absurd rfl (h' i ps)
  refine ⟨none' _ _ rfl (by simp), ?_, ?_, none' _ _ rfl (by simp), none' _ _ rfl (by simp), none' _ _ rfl (by simp), ?_,
    ?_, ?_, ?_, trivial⟩
  · rintro i x (⟨k, v, h⟩ | ⟨ps, h⟩) e <;> cases h
    cases e; decide
  · rintro i x (⟨k, v, h⟩ | ⟨ps, h⟩) e <;> cases h
  · rintro i x (⟨k, v, h⟩ | ⟨ps, h⟩) e <;> cases h
    cases e; decide
  · rintro i x (⟨k, v, h⟩ | ⟨ps, h⟩) e <;> cases h
    cases e; decide
  · rintro i x (⟨k, v, h⟩ | ⟨ps, h⟩) e <;> cases h
  · rintro i x (⟨k, v, h⟩ | ⟨ps, h⟩) e <;> cases h

-- the modified copy, and the credential whose proofs were reset
example : (run shOps).look 2 = some [("id", .str "urn:2"), ("issuer", .str "did:a")] :=
  credentials_independent_partial shOps sh_careful (i := 2) (y := ⟨_, _, _⟩) rfl (by decide)
example : (run shOps).look 1 = some (set shObj "proof" .null) :=
  credentials_independent_partial shOps sh_careful (i := 1) (y := ⟨_, _, _⟩) rfl (by decide)
-- resetting the proofs of the first leaves the enveloped one alone
example : (run shOps).look 3 = (run (shOps.take 9)).look 3 :=
  only_sharers (shOps.take 9) (.reset 1 []) (j := 3) (x := ⟨2, [[]], .cred⟩) rfl (by
    intro i t h1 h2
    cases h1
    have : t = ⟨0, [[]], .cred⟩ := (Option.some.inj h2).symm
    subst this
    exact ⟨by decide, by decide⟩)

end VC.Vfy.Shr
