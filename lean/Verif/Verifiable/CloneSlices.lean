import Verif.Base.GoMap
/-!
# verifiable: presentations that share their credentials' slice (C128)

`Presentation.Clone` (verifiable/presentation.go:543-556) "returns an exact copy"; `CreateJWTVP` and `CreateCWTVP`
return such copies.  The copy has the same slice of credentials, so `AddCredentials` (presentation.go:468-473) on one
may write into the array of the other.  Slices are modelled with their arrays: a slice is an array and a length, the
capacity is the size of the array, and `append` writes in place while there is room.
-/

namespace VC.Vfy.Slc

variable {α : Type}

/-! ## Model -/

/-- A `[]*Credential`: its array and its length (slices here always start at the beginning of the array). A nil
slice is one of an array without cells. -/
structure Slice where
  arr : Nat
  len : Nat
  deriving DecidableEq, Repr

/-- The arrays; unused cells are nil pointers (`none`). -/
abbrev Arrays (α : Type) := List (List (Option α))

/-- The cells of an array. -/
def cells (h : Arrays α) (a : Nat) : List (Option α) := (h[a]?).getD []

/-- `append(s, c)` (Go's built-in function): in place if there is room, else a new array with the old elements,
the new one and some spare cells, whose number `spare` is up to the Go runtime. -/
def push (spare : Nat → Nat) (h : Arrays α) (s : Slice) (c : α) : Arrays α × Slice :=
  if s.len < (cells h s.arr).length then
    (h.set s.arr ((cells h s.arr).set s.len (some c)), ⟨s.arr, s.len + 1⟩)
  else
    (h ++ [(cells h s.arr).take s.len ++ [some c] ++ List.replicate (spare s.len) none], ⟨h.length, s.len + 1⟩)

/-- The loop of `AddCredentials`, presentation.go:469-472, and of `WithCredentials`, presentation.go:374-376. -/
def pushAll (spare : Nat → Nat) (h : Arrays α) (s : Slice) : List α → Arrays α × Slice
  | [] => (h, s)
  | c :: cs => pushAll spare (push spare h s c).1 (push spare h s c).2 cs

/-- What a program does with presentations, which it numbers in the order they are made. -/
inductive Op (α : Type) where
  /-- `NewPresentation(WithCredentials(cs...))`, presentation.go:354-380 -/
  | create (cs : List α)
  /-- `AddCredentials(cs...)`, presentation.go:468-473 -/
  | add (i : Nat) (cs : List α)
  /-- `Clone()`, presentation.go:543-556, and with it `CreateJWTVP` (presentation_jwt.go:113) and `CreateCWTVP`
  (presentation_cwt.go:68) -/
  | clone (i : Nat)

/-- All arrays and the slices of all presentations. -/
structure State (α : Type) where
  heap : Arrays α
  pres : List Slice

/-- One step. (A presentation that does not exist: nothing.) -/
def step (spare : Nat → Nat) (st : State α) : Op α → State α
  | .create cs =>
    let r := pushAll spare (st.heap ++ [[]]) ⟨st.heap.length, 0⟩ cs
    ⟨r.1, st.pres ++ [r.2]⟩
  | .add i cs =>
    match st.pres[i]? with
    | none => st
    | some s =>
      let r := pushAll spare st.heap s cs
      ⟨r.1, st.pres.set i r.2⟩
  | .clone i =>
    match st.pres[i]? with
    | none => st
    | some s => ⟨st.heap, st.pres ++ [s]⟩

/-- A history, from no presentations. -/
def run (spare : Nat → Nat) (ops : List (Op α)) : State α := ops.foldl (step spare) ⟨[], []⟩

/-- `Credentials()`, presentation.go:464-466. -/
def State.shown (st : State α) (i : Nat) : Option (List (Option α)) :=
  (st.pres[i]?).map fun s => (cells st.heap s.arr).take s.len

/-! ## Specification -/

/-- Presentations with lists of their own. The number says which ones are copies of each other. -/
abbrev Own (α : Type) := List (Nat × List α)

/-- What an operation should do. -/
def ownStep (o : Own α) : Op α → Own α
  | .create cs => o ++ [(o.length, cs)]
  | .add i cs => match o[i]? with
    | none => o
    | some p => o.set i (p.1, p.2 ++ cs)
  | .clone i => match o[i]? with
    | none => o
    | some p => o ++ [p]

/-- What a history should lead to. -/
def own (ops : List (Op α)) : Own α := ops.foldl ownStep []

/-- Credentials are only added to a presentation that has at least as many as each of its copies, originals, copies
of copies and so on. -/
def LongestOnly : Own α → List (Op α) → Prop
  | _, [] => True
  | o, op :: ops =>
    (∀ i cs, op = .add i cs → ∀ (p q : Nat × List α) (j : Nat), o[i]? = some p → o[j]? = some q → p.1 = q.1 →
      q.2.length ≤ p.2.length) ∧ LongestOnly (ownStep o op) ops

/-! ## Proofs -/

theorem cells_append_lt {h : Arrays α} {x : List (Option α)} {a : Nat} (ha : a < h.length) :
    cells (h ++ [x]) a = cells h a := by
  unfold cells; rw [List.getElem?_append_left ha]

theorem cells_append_last {h : Arrays α} {x : List (Option α)} : cells (h ++ [x]) h.length = x := by
  simp [cells]

theorem cells_set_self {h : Arrays α} {x : List (Option α)} {a : Nat} (ha : a < h.length) :
    cells (h.set a x) a = x := by
  simp [cells, ha]

theorem cells_set_ne {h : Arrays α} {x : List (Option α)} {a b : Nat} (e : a ≠ b) :
    cells (h.set a x) b = cells h b := by
  simp [cells, List.getElem?_set_ne e]

theorem take_set {β : Type} (l : List β) (n : Nat) (x : β) (h : n < l.length) :
    (l.set n x).take (n + 1) = l.take n ++ [x] := by
  induction l generalizing n with
  | nil => simp at h
  | cons y l ih =>
    cases n with
    | zero => simp
    | succ n => simp [ih n (by simpa using h)]

/-- The slice lies in the heap. -/
structure SliceOk (h : Arrays α) (s : Slice) : Prop where
  arr : s.arr < h.length
  len : s.len ≤ (cells h s.arr).length

/-- The presentation itself always shows what was added to it. -/
theorem push_self (spare : Nat → Nat) {h : Arrays α} {s : Slice} (hs : SliceOk h s) (c : α) :
    SliceOk (push spare h s c).1 (push spare h s c).2 ∧
    (cells (push spare h s c).1 (push spare h s c).2.arr).take (push spare h s c).2.len =
      (cells h s.arr).take s.len ++ [some c] := by
  unfold push
  split
  · rename_i hl
    refine ⟨⟨by simpa using hs.arr, ?_⟩, ?_⟩
    · dsimp only; rw [cells_set_self hs.arr, List.length_set]; omega
    · dsimp only; rw [cells_set_self hs.arr, take_set _ _ _ hl]
  · rename_i hl
    have e : ((cells h s.arr).take s.len).length = s.len := by rw [List.length_take]; have := hs.len; omega
    refine ⟨⟨by simp, ?_⟩, ?_⟩
    · dsimp only; rw [cells_append_last]; simp only [List.length_append, e, List.length_singleton]; omega
    · dsimp only
      rw [cells_append_last]
      have : s.len + 1 = ((cells h s.arr).take s.len ++ [some c]).length := by simp [e]
      rw [this, List.take_left']
      rfl

/-- What another slice shows afterwards: the same, unless it is a longer slice of the same array and there was
room. -/
theorem push_other (spare : Nat → Nat) {h : Arrays α} {s t : Slice} (hs : SliceOk h s) (ht : SliceOk h t) (c : α) :
    SliceOk (push spare h s c).1 t ∧
    (cells (push spare h s c).1 t.arr).take t.len =
      if t.arr = s.arr ∧ s.len < t.len then ((cells h t.arr).take t.len).set s.len (some c)
      else (cells h t.arr).take t.len := by
  unfold push
  split
  · rename_i hl
    by_cases e : s.arr = t.arr
    · refine ⟨⟨by simpa using ht.arr, ?_⟩, ?_⟩
      · dsimp only; rw [← e, cells_set_self hs.arr, List.length_set, e]; exact ht.len
      · dsimp only
        rw [← e, cells_set_self hs.arr]
        by_cases hlt : s.len < t.len
        · rw [if_pos ⟨rfl, hlt⟩, List.take_set]
        · rw [if_neg (fun x => hlt x.2), List.take_set, List.set_eq_of_length_le]
          rw [List.length_take]; omega
    · refine ⟨⟨by simpa using ht.arr, ?_⟩, ?_⟩
      · dsimp only; rw [cells_set_ne e]; exact ht.len
      · dsimp only; rw [cells_set_ne e, if_neg (fun x => e x.1.symm)]
  · rename_i hl
    refine ⟨⟨by have := ht.arr; simp; omega, ?_⟩, ?_⟩
    · dsimp only; rw [cells_append_lt ht.arr]; exact ht.len
    · dsimp only
      rw [cells_append_lt ht.arr]
      have hn : ¬ (t.arr = s.arr ∧ s.len < t.len) := by
        rintro ⟨e, hlt⟩
        have := ht.len
        rw [e] at this
        omega
      rw [if_neg hn]

theorem push_len (spare : Nat → Nat) (h : Arrays α) (s : Slice) (c : α) : (push spare h s c).2.len = s.len + 1 := by
  unfold push; split <;> rfl

theorem push_arr (spare : Nat → Nat) (h : Arrays α) (s : Slice) (c : α) :
    (push spare h s c).2.arr = s.arr ∨ (push spare h s c).2.arr = h.length := by
  unfold push; split
  · exact .inl rfl
  · exact .inr rfl

theorem push_heap_len (spare : Nat → Nat) (h : Arrays α) (s : Slice) (c : α) :
    h.length ≤ (push spare h s c).1.length := by
  unfold push; split <;> simp

theorem pushAll_self (spare : Nat → Nat) (cs : List α) {h : Arrays α} {s : Slice} (hs : SliceOk h s) :
    SliceOk (pushAll spare h s cs).1 (pushAll spare h s cs).2 ∧
    (cells (pushAll spare h s cs).1 (pushAll spare h s cs).2.arr).take (pushAll spare h s cs).2.len =
      (cells h s.arr).take s.len ++ cs.map some := by
  induction cs generalizing h s with
  | nil => simpa [pushAll] using hs
  | cons c cs ih =>
    obtain ⟨h1, h2⟩ := push_self spare hs c
    obtain ⟨h3, h4⟩ := ih h1
    rw [pushAll]
    exact ⟨h3, by rw [h4, h2]; simp⟩

/-- A slice that is not longer, or of another array, shows the same after any number of appends. -/
theorem pushAll_other (spare : Nat → Nat) (cs : List α) {h : Arrays α} {s t : Slice} (hs : SliceOk h s)
    (ht : SliceOk h t) (hn : t.arr = s.arr → t.len ≤ s.len) :
    SliceOk (pushAll spare h s cs).1 t ∧
    (cells (pushAll spare h s cs).1 t.arr).take t.len = (cells h t.arr).take t.len := by
  induction cs generalizing h s with
  | nil => exact ⟨ht, rfl⟩
  | cons c cs ih =>
    obtain ⟨h1, h2⟩ := push_other spare hs ht c
    rw [if_neg (fun x => by have := hn x.1; omega)] at h2
    have := ih (push_self spare hs c).1 h1 (by
      intro e
      rw [push_len]
      rcases push_arr spare h s c with e' | e'
      · have := hn (e.trans e'); omega
      · have := ht.arr; rw [e, e'] at this; omega)
    rw [pushAll]
    exact ⟨this.1, this.2.trans h2⟩

theorem pushAll_arr (spare : Nat → Nat) (cs : List α) (h : Arrays α) (s : Slice) :
    h.length ≤ (pushAll spare h s cs).1.length ∧
      ((pushAll spare h s cs).2.arr = s.arr ∨ h.length ≤ (pushAll spare h s cs).2.arr) := by
  induction cs generalizing h s with
  | nil => exact ⟨Nat.le_refl _, .inl rfl⟩
  | cons c cs ih =>
    rw [pushAll]
    have h1 := push_heap_len spare h s c
    obtain ⟨h2, h3⟩ := ih (push spare h s c).1 (push spare h s c).2
    refine ⟨by omega, ?_⟩
    rcases h3 with e | e
    · rcases push_arr spare h s c with e' | e'
      · exact .inl (e.trans e')
      · exact .inr (by omega)
    · exact .inr (by omega)

/-- What the histories keep. -/
structure Good (st : State α) (o : Own α) : Prop where
  size : st.pres.length = o.length
  ok : ∀ (i : Nat) (s : Slice), st.pres[i]? = some s → SliceOk st.heap s
  shows : ∀ (i : Nat) (s : Slice) (p : Nat × List α), st.pres[i]? = some s → o[i]? = some p →
    (cells st.heap s.arr).take s.len = p.2.map some
  family : ∀ (i j : Nat) (s t : Slice) (p q : Nat × List α), st.pres[i]? = some s → st.pres[j]? = some t →
    o[i]? = some p → o[j]? = some q → s.arr = t.arr → p.1 = q.1

theorem Good.len {st : State α} {o : Own α} (g : Good st o) {i : Nat} {s : Slice} {p : Nat × List α}
    (hs : st.pres[i]? = some s) (hp : o[i]? = some p) : s.len = p.2.length := by
  have := congrArg List.length (g.shows i s p hs hp)
  rw [List.length_take, List.length_map] at this
  have := (g.ok i s hs).len
  omega

theorem good_add (spare : Nat → Nat) {st : State α} {o : Own α} (g : Good st o) (i : Nat) (cs : List α)
    (hl : ∀ (p q : Nat × List α) (j : Nat), o[i]? = some p → o[j]? = some q → p.1 = q.1 → q.2.length ≤ p.2.length) :
    Good (step spare st (.add i cs)) (ownStep o (.add i cs)) := by
  cases hs : st.pres[i]? with
  | none =>
    have : o[i]? = none := by
      rw [List.getElem?_eq_none_iff] at hs ⊢; rw [← g.size]; exact hs
    simpa [step, ownStep, hs, this] using g
  | some s =>
    have hil := (List.getElem?_eq_some_iff.mp hs).1
    obtain ⟨p, hp⟩ : ∃ p, o[i]? = some p := ⟨_, List.getElem?_eq_getElem (g.size ▸ hil)⟩
    have hio : i < o.length := g.size ▸ hil
    have e1 : step spare st (.add i cs) =
        ⟨(pushAll spare st.heap s cs).1, st.pres.set i (pushAll spare st.heap s cs).2⟩ := by simp [step, hs]
    have e2 : ownStep o (.add i cs) = o.set i (p.1, p.2 ++ cs) := by simp [ownStep, hp]
    rw [e1, e2]
    obtain ⟨k1, k2⟩ := pushAll_self spare cs (g.ok i s hs)
    have others : ∀ (j : Nat) (t : Slice), st.pres[j]? = some t →
        SliceOk (pushAll spare st.heap s cs).1 t ∧
          (cells (pushAll spare st.heap s cs).1 t.arr).take t.len = (cells st.heap t.arr).take t.len := by
      intro j t ht
      have hjl := (List.getElem?_eq_some_iff.mp ht).1
      obtain ⟨q, hq⟩ : ∃ q, o[j]? = some q := ⟨_, List.getElem?_eq_getElem (g.size ▸ hjl)⟩
      refine pushAll_other spare cs (g.ok i s hs) (g.ok j t ht) (fun e => ?_)
      rw [g.len ht hq, g.len hs hp]
      exact hl p q j hp hq (g.family i j s t p q hs ht hp hq e.symm)
    have look : ∀ (j : Nat) (t : Slice), (st.pres.set i (pushAll spare st.heap s cs).2)[j]? = some t →
        (j = i ∧ t = (pushAll spare st.heap s cs).2) ∨ (j ≠ i ∧ st.pres[j]? = some t) := by
      intro j t h
      by_cases e : j = i
      · subst e; rw [List.getElem?_set_self hil] at h; exact .inl ⟨rfl, (Option.some.inj h).symm⟩
      · rw [List.getElem?_set_ne (Ne.symm e)] at h; exact .inr ⟨e, h⟩
    have lookO : ∀ (j : Nat) (q : Nat × List α), (o.set i (p.1, p.2 ++ cs))[j]? = some q →
        (j = i ∧ q = (p.1, p.2 ++ cs)) ∨ (j ≠ i ∧ o[j]? = some q) := by
      intro j q h
      by_cases e : j = i
      · subst e; rw [List.getElem?_set_self hio] at h; exact .inl ⟨rfl, (Option.some.inj h).symm⟩
      · rw [List.getElem?_set_ne (Ne.symm e)] at h; exact .inr ⟨e, h⟩
    obtain ⟨grow, harr⟩ := pushAll_arr spare cs st.heap s
    -- the family of whatever shares the new array
    have fam : ∀ (j : Nat) (t : Slice) (q : Nat × List α), st.pres[j]? = some t → o[j]? = some q →
        (pushAll spare st.heap s cs).2.arr = t.arr → p.1 = q.1 := by
      intro j t q ht hq e
      rcases harr with e' | e'
      · exact g.family i j s t p q hs ht hp hq (e'.symm.trans e)
      · have := (g.ok j t ht).arr; omega
    refine ⟨by simp [g.size], ?_, ?_, ?_⟩
    · intro j t h
      rcases look j t h with ⟨-, rfl⟩ | ⟨-, ht⟩
      · exact k1
      · exact (others j t ht).1
    · intro j t q h hq
      rcases look j t h with ⟨rfl, rfl⟩ | ⟨hne, ht⟩
      · rcases lookO _ q hq with ⟨-, rfl⟩ | ⟨hne, -⟩
        · dsimp only; rw [k2, g.shows _ s p hs hp, List.map_append]
        · exact absurd rfl hne
      · rcases lookO _ q hq with ⟨e, -⟩ | ⟨-, hq⟩
        · exact absurd e hne
        · dsimp only; rw [(others j t ht).2, g.shows j t q ht hq]
    · intro j k t u q r hj hk hq hr e
      rcases look j t hj with ⟨rfl, rfl⟩ | ⟨hne, ht⟩ <;> rcases look k u hk with ⟨rfl, rfl⟩ | ⟨hne', hu⟩
      · rw [hq] at hr; exact congrArg Prod.fst (Option.some.inj hr)
      · rcases lookO _ q hq with ⟨-, rfl⟩ | ⟨x, -⟩
        · rcases lookO _ r hr with ⟨x, -⟩ | ⟨-, hr⟩
          · exact absurd x hne'
          · exact fam k u r hu hr e
        · exact absurd rfl x
      · rcases lookO _ r hr with ⟨-, rfl⟩ | ⟨x, -⟩
        · rcases lookO _ q hq with ⟨x, -⟩ | ⟨-, hq⟩
          · exact absurd x hne
          · exact (fam j t q ht hq e.symm).symm
        · exact absurd rfl x
      · rcases lookO _ q hq with ⟨x, -⟩ | ⟨-, hq⟩
        · exact absurd x hne
        rcases lookO _ r hr with ⟨x, -⟩ | ⟨-, hr⟩
        · exact absurd x hne'
        exact g.family j k t u q r ht hu hq hr e

theorem lookAppend {β : Type} {l : List β} {x y : β} {j : Nat} (h : (l ++ [x])[j]? = some y) :
    (j = l.length ∧ y = x) ∨ (j < l.length ∧ l[j]? = some y) := by
  rcases Nat.lt_or_ge j l.length with hl | hl
  · rw [List.getElem?_append_left hl] at h; exact .inr ⟨hl, h⟩
  · have := (List.getElem?_eq_some_iff.mp h).1
    rw [List.length_append, List.length_singleton] at this
    obtain rfl : j = l.length := by omega
    simp at h
    exact .inl ⟨rfl, h.symm⟩

theorem own_family_lt (ops : List (Op α)) : ∀ (o : Own α), (∀ p ∈ o, p.1 < o.length) →
    ∀ p ∈ ops.foldl ownStep o, p.1 < (ops.foldl ownStep o).length := by
  induction ops with
  | nil => intro o h; exact h
  | cons op ops ih =>
    intro o h
    rw [List.foldl_cons]
    refine ih _ ?_
    intro p hp
    cases op with
    | create cs =>
      simp only [ownStep, List.mem_append, List.mem_singleton, List.length_append, List.length_singleton] at hp ⊢
      rcases hp with hp | rfl
      · have := h p hp; omega
      · simp
    | add i cs =>
      simp only [ownStep] at hp ⊢
      split at hp
      · exact h p hp
      · rename_i q hq
        rw [List.length_set]
        rcases List.mem_or_eq_of_mem_set hp with hp | rfl
        · exact h p hp
        · exact h q (List.mem_of_getElem? hq)
    | clone i =>
      simp only [ownStep] at hp ⊢
      split at hp
      · exact h p hp
      · rename_i q hq
        rw [List.length_append, List.length_singleton]
        rcases List.mem_append.mp hp with hp | hp
        · have := h p hp; omega
        · rw [List.mem_singleton] at hp; subst hp
          have := h p (List.mem_of_getElem? hq); omega

theorem good_create (spare : Nat → Nat) {st : State α} {o : Own α} (g : Good st o) (cs : List α) :
    Good (step spare st (.create cs)) (ownStep o (.create cs)) := by
  have e1 : step spare st (.create cs) =
      ⟨(pushAll spare (st.heap ++ [[]]) ⟨st.heap.length, 0⟩ cs).1,
        st.pres ++ [(pushAll spare (st.heap ++ [[]]) ⟨st.heap.length, 0⟩ cs).2]⟩ := rfl
  have e2 : ownStep o (.create cs) = o ++ [(o.length, cs)] := rfl
  rw [e1, e2]
  have h0 : SliceOk (st.heap ++ [[]]) ⟨st.heap.length, 0⟩ := ⟨by simp, Nat.zero_le _⟩
  obtain ⟨k1, k2⟩ := pushAll_self spare cs h0
  have others : ∀ (j : Nat) (t : Slice), st.pres[j]? = some t →
      SliceOk (pushAll spare (st.heap ++ [[]]) ⟨st.heap.length, 0⟩ cs).1 t ∧
        (cells (pushAll spare (st.heap ++ [[]]) ⟨st.heap.length, 0⟩ cs).1 t.arr).take t.len =
          (cells st.heap t.arr).take t.len := by
    intro j t ht
    have ok := g.ok j t ht
    have ok' : SliceOk (st.heap ++ [[]]) t := ⟨by have := ok.arr; simp; omega, by
      rw [cells_append_lt ok.arr]; exact ok.len⟩
    have := pushAll_other spare cs h0 ok' (fun e => by have := ok.arr; simp only at e; omega)
    rw [cells_append_lt ok.arr] at this
    exact this
  have fresh : ∀ (j : Nat) (t : Slice), st.pres[j]? = some t →
      t.arr ≠ (pushAll spare (st.heap ++ [[]]) ⟨st.heap.length, 0⟩ cs).2.arr := by
    intro j t ht e
    have := (g.ok j t ht).arr
    rcases (pushAll_arr spare cs (st.heap ++ [[]]) ⟨st.heap.length, 0⟩).2 with e' | e'
    · rw [e'] at e; simp only at e; omega
    · simp only [List.length_append, List.length_singleton] at e'; omega
  refine ⟨by simp [g.size], ?_, ?_, ?_⟩
  · intro j t h
    rcases lookAppend h with ⟨-, rfl⟩ | ⟨-, ht⟩
    · exact k1
    · exact (others j t ht).1
  · intro j t q h hq
    rcases lookAppend h with ⟨rfl, rfl⟩ | ⟨hl, ht⟩
    · rcases lookAppend hq with ⟨-, rfl⟩ | ⟨hl, -⟩
      · dsimp only; rw [k2]; simp
      · rw [g.size] at hl; omega
    · rcases lookAppend hq with ⟨e, -⟩ | ⟨-, hq⟩
      · rw [g.size] at hl; omega
      · dsimp only; rw [(others j t ht).2, g.shows j t q ht hq]
  · intro j k t u q r hj hk hq hr e
    rcases lookAppend hj with ⟨rfl, rfl⟩ | ⟨hl, ht⟩ <;> rcases lookAppend hk with ⟨rfl, rfl⟩ | ⟨hl', hu⟩
    · rw [hq] at hr; exact congrArg Prod.fst (Option.some.inj hr)
    · exact absurd e.symm (fresh k u hu)
    · exact absurd e (fresh j t ht)
    · rcases lookAppend hq with ⟨x, -⟩ | ⟨-, hq⟩
      · rw [g.size] at hl; omega
      rcases lookAppend hr with ⟨x, -⟩ | ⟨-, hr⟩
      · rw [g.size] at hl'; omega
      exact g.family j k t u q r ht hu hq hr e

theorem good_clone (spare : Nat → Nat) {st : State α} {o : Own α} (g : Good st o) (i : Nat) :
    Good (step spare st (.clone i)) (ownStep o (.clone i)) := by
  cases hs : st.pres[i]? with
  | none =>
    have : o[i]? = none := by
      rw [List.getElem?_eq_none_iff] at hs ⊢; rw [← g.size]; exact hs
    simpa [step, ownStep, hs, this] using g
  | some s =>
    have hil := (List.getElem?_eq_some_iff.mp hs).1
    obtain ⟨p, hp⟩ : ∃ p, o[i]? = some p := ⟨_, List.getElem?_eq_getElem (g.size ▸ hil)⟩
    have e1 : step spare st (.clone i) = ⟨st.heap, st.pres ++ [s]⟩ := by simp [step, hs]
    have e2 : ownStep o (.clone i) = o ++ [p] := by simp [ownStep, hp]
    rw [e1, e2]
    -- the clone looks like presentation i
    have orig : ∀ (j : Nat) (t : Slice) (q : Nat × List α), (st.pres ++ [s])[j]? = some t → (o ++ [p])[j]? = some q →
        ∃ j' : Nat, st.pres[j']? = some t ∧ o[j']? = some q := by
      intro j t q h hq
      rcases lookAppend h with ⟨rfl, rfl⟩ | ⟨hl, ht⟩
      · rcases lookAppend hq with ⟨-, rfl⟩ | ⟨hl, -⟩
        · exact ⟨i, hs, hp⟩
        · rw [g.size] at hl; omega
      · rcases lookAppend hq with ⟨e, -⟩ | ⟨-, hq⟩
        · rw [g.size] at hl; omega
        · exact ⟨j, ht, hq⟩
    refine ⟨by simp [g.size], ?_, ?_, ?_⟩
    · intro j t h
      rcases lookAppend h with ⟨-, rfl⟩ | ⟨-, ht⟩
      · exact g.ok i _ hs
      · exact g.ok j t ht
    · intro j t q h hq
      obtain ⟨j', h1, h2⟩ := orig j t q h hq
      exact g.shows j' t q h1 h2
    · intro j k t u q r hj hk hq hr e
      obtain ⟨j', h1, h2⟩ := orig j t q hj hq
      obtain ⟨k', h3, h4⟩ := orig k u r hk hr
      exact g.family j' k' t u q r h1 h3 h2 h4 e

theorem good_run (spare : Nat → Nat) (ops : List (Op α)) : ∀ (st : State α) (o : Own α), Good st o →
    LongestOnly o ops → Good (ops.foldl (step spare) st) (ops.foldl ownStep o) := by
  induction ops with
  | nil => intro st o g _; exact g
  | cons op ops ih =>
    intro st o g hl
    rw [List.foldl_cons, List.foldl_cons]
    refine ih _ _ ?_ hl.2
    cases op with
    | create cs => exact good_create spare g cs
    | add i cs => exact good_add spare g i cs (fun p q j => hl.1 i cs rfl p q j)
    | clone i => exact good_clone spare g i

theorem good_nil : Good (⟨[], []⟩ : State α) [] :=
  ⟨rfl, fun _ _ h => by simp at h, fun _ _ _ h => by simp at h, fun _ _ _ _ _ _ h => by simp at h⟩

theorem shown_good {st : State α} {o : Own α} (g : Good st o) (i : Nat) :
    st.shown i = (o[i]?).map fun p => p.2.map some := by
  unfold State.shown
  cases hs : st.pres[i]? with
  | none =>
    have : o[i]? = none := by
      rw [List.getElem?_eq_none_iff] at hs ⊢; rw [← g.size]; exact hs
    rw [this]; rfl
  | some s =>
    have hil := (List.getElem?_eq_some_iff.mp hs).1
    obtain ⟨p, hp⟩ : ∃ p, o[i]? = some p := ⟨_, List.getElem?_eq_getElem (g.size ▸ hil)⟩
    rw [hp, Option.map_some, Option.map_some, g.shows i s p hs hp]

/-! ## Theorems -/

/-- **C128 (partial).**  As long as credentials are only added to a presentation with at least as many as its
copies have, every presentation shows exactly the credentials put into it, whatever room the runtime leaves. -/
theorem copies_independent_partial (spare : Nat → Nat) (ops : List (Op α)) (h : LongestOnly [] ops) (i : Nat) :
    (run spare ops).shown i = ((own ops)[i]?).map fun p => p.2.map some :=
  shown_good (good_run spare ops _ _ good_nil h) i

/-- Any reachable state has slices inside its arrays. -/
theorem run_ok (spare : Nat → Nat) (ops : List (Op α)) : ∀ (st : State α), (∀ s ∈ st.pres, SliceOk st.heap s) →
    ∀ s ∈ (ops.foldl (step spare) st).pres, SliceOk (ops.foldl (step spare) st).heap s := by
  have keep : ∀ (cs : List α) (h : Arrays α) (s t : Slice), SliceOk h s → SliceOk h t →
      SliceOk (pushAll spare h s cs).1 t := by
    intro cs
    induction cs with
    | nil => intro h s t _ ht; exact ht
    | cons c cs ih =>
      intro h s t hs ht
      rw [pushAll]
      exact ih _ _ _ (push_self spare hs c).1 (push_other spare hs ht c).1
  induction ops with
  | nil => intro st h; exact h
  | cons op ops ih =>
    intro st h
    rw [List.foldl_cons]
    refine ih _ ?_
    cases op with
    | create cs =>
      have h0 : SliceOk (st.heap ++ [[]]) ⟨st.heap.length, 0⟩ := ⟨by simp, Nat.zero_le _⟩
      intro s hs
      have hs' : s ∈ st.pres ++ [(pushAll spare (st.heap ++ [[]]) ⟨st.heap.length, 0⟩ cs).2] := hs
      rcases List.mem_append.mp hs' with hs | hs
      · have ok := h s hs
        exact keep cs _ _ s h0 ⟨by have := ok.arr; simp; omega, by rw [cells_append_lt ok.arr]; exact ok.len⟩
      · rw [List.mem_singleton] at hs; subst hs; exact (pushAll_self spare cs h0).1
    | add i cs =>
      cases hi : st.pres[i]? with
      | none => simpa [step, hi] using h
      | some x =>
        have ok := h x (List.mem_of_getElem? hi)
        intro s hs
        simp only [step, hi] at hs ⊢
        rcases List.mem_or_eq_of_mem_set hs with hs | rfl
        · exact keep cs _ _ s ok (h s hs)
        · exact (pushAll_self spare cs ok).1
    | clone i =>
      cases hi : st.pres[i]? with
      | none => simpa [step, hi] using h
      | some x =>
        intro s hs
        simp only [step, hi] at hs ⊢
        rcases List.mem_append.mp hs with hs | hs
        · exact h s hs
        · rw [List.mem_singleton] at hs; subst hs; exact h s (List.mem_of_getElem? hi)

/-- **C128.**  In every history: a presentation shows, right after `AddCredentials`, what it showed before and the new
credentials. -/
theorem added_shown (spare : Nat → Nat) (ops : List (Op α)) (i : Nat) (cs : List α) {l : List (Option α)}
    (h : (run spare ops).shown i = some l) :
    (step spare (run spare ops) (.add i cs)).shown i = some (l ++ cs.map some) := by
  unfold State.shown at h
  obtain ⟨s, hs, rfl⟩ := Option.map_eq_some_iff.mp h
  have ok := run_ok spare ops ⟨[], []⟩ (by simp) s (List.mem_of_getElem? hs)
  have hil := (List.getElem?_eq_some_iff.mp hs).1
  have := (pushAll_self spare cs (h := (run spare ops).heap) ok).2
  unfold State.shown
  simp only [step, hs]
  rw [List.getElem?_set_self hil, Option.map_some, this]

/-- **C128.**  In every history: a copy shows what the original shows, and making it changes no presentation. -/
theorem clone_exact (spare : Nat → Nat) (ops : List (Op α)) (i : Nat) {l : List (Option α)}
    (h : (run spare ops).shown i = some l) :
    (step spare (run spare ops) (.clone i)).shown (run spare ops).pres.length = some l ∧
    ∀ j < (run spare ops).pres.length, (step spare (run spare ops) (.clone i)).shown j = (run spare ops).shown j := by
  unfold State.shown at h
  obtain ⟨s, hs, rfl⟩ := Option.map_eq_some_iff.mp h
  constructor
  · unfold State.shown
    simp [step, hs]
  · intro j hj
    unfold State.shown
    simp only [step, hs]
    rw [List.getElem?_append_left hj]

/-- **C128.**  In every history: exactly what adding one credential to presentation `i` does to another presentation
`j`.  It is unchanged, or (if both use one array and `j` has more credentials than `i`) its credential at the place
after the last of `i` is replaced by the new one. -/
theorem add_changes (spare : Nat → Nat) (ops : List (Op α)) {i j : Nat} (hij : i ≠ j) (c : α) {s t : Slice}
    (hs : (run spare ops).pres[i]? = some s) (ht : (run spare ops).pres[j]? = some t) {l : List (Option α)}
    (hl : (run spare ops).shown j = some l) :
    (step spare (run spare ops) (.add i [c])).shown j =
      some (if t.arr = s.arr ∧ s.len < l.length then l.set s.len (some c) else l) := by
  have oks := run_ok spare ops ⟨[], []⟩ (by simp) s (List.mem_of_getElem? hs)
  have okt := run_ok spare ops ⟨[], []⟩ (by simp) t (List.mem_of_getElem? ht)
  have := (push_other spare (h := (run spare ops).heap) oks okt c).2
  unfold State.shown at hl
  rw [ht] at hl
  cases hl
  have e : ((cells (run spare ops).heap t.arr).take t.len).length = t.len := by
    have := okt.len
    rw [List.length_take]
    exact Nat.min_eq_left this
  unfold State.shown
  simp only [step, hs, pushAll]
  rw [List.getElem?_set_ne hij, ht, Option.map_some, this, e]

/-- Go's `append` on a full array of up to 256 pointers doubles it (runtime/slice.go). -/
def goSpare (n : Nat) : Nat := n - 1

/-- **C128, the code violates it.**  Three credentials, a copy (as `Clone` or `CreateJWTVP` makes), one credential added
to the copy, another to the original: the copy now shows the original's. -/
theorem clone_overwritten : ∃ (ops : List (Op Nat)) (i : Nat),
    (run goSpare ops).shown i = some [some 1, some 2, some 3, some 5] ∧
    ((own ops)[i]?).map Prod.snd = some [1, 2, 3, 4] :=
  ⟨[.create [1, 2, 3], .clone 0, .add 1 [4], .add 0 [5]], 1, by decide, by decide⟩

/-! ## Examples -/

/-- The copy is kept as it is while credentials are added to the original, then a copy of a copy grows. -/
def slOps : List (Op Nat) := [.create [1, 2, 3], .clone 0, .add 0 [4], .clone 1, .create [7], .add 0 [5, 6], .add 3 [8]]

theorem sl_longest : LongestOnly [] slOps := by
  have key : ∀ (o : Own Nat) (i : Nat) (cs : List Nat),
      (∀ j < o.length, ∀ p ∈ o[i]?, ∀ q ∈ o[j]?, p.1 = q.1 → q.2.length ≤ p.2.length) →
      ∀ i' cs', Op.add i cs = .add i' cs' → ∀ (p q : Nat × List Nat) (j : Nat), o[i']? = some p → o[j]? = some q →
        p.1 = q.1 → q.2.length ≤ p.2.length := by
    intro o i cs h i' cs' e p q j hp hq
    cases e
    exact h j (List.getElem?_eq_some_iff.mp hq).1 p hp q hq
  refine ⟨fun _ _ e => (nomatch e), fun _ _ e => (nomatch e), key _ _ _ (by decide), fun _ _ e => (nomatch e),
    fun _ _ e => (nomatch e), key _ _ _ (by decide), key _ _ _ (by decide), trivial⟩

example : (run goSpare slOps).shown 1 = some [some 1, some 2, some 3] ∧
    (run goSpare slOps).shown 0 = some [some 1, some 2, some 3, some 4, some 5, some 6] ∧
    (run goSpare slOps).shown 3 = some [some 7, some 8] :=
  ⟨copies_independent_partial goSpare slOps sl_longest 1, copies_independent_partial goSpare slOps sl_longest 0,
    copies_independent_partial goSpare slOps sl_longest 3⟩

/-- In the violating history the credential that is overwritten is the one `add_changes` names. -/
example : (step goSpare (run goSpare [.create [1, 2, 3], .clone 0, .add 1 [4]]) (.add 0 [5])).shown 1 =
    some [some 1, some 2, some 3, some 5] :=
  add_changes (α := Nat) goSpare [.create [1, 2, 3], .clone 0, .add 1 [4]] (i := 0) (j := 1) (by decide) 5
    (s := ⟨3, 3⟩) (t := ⟨3, 4⟩) (l := [some 1, some 2, some 3, some 4]) (by decide) (by decide) (by decide)

end VC.Vfy.Slc
