import Verif.SDJWT.Hiding
/-!
# C137: an SD-JWT tells nothing about the claims that are not disclosed (V5)
-/

namespace VC.SDJWT

namespace Spec

/-- Neither an object, an array nor null. -/
def Prim : Json → Prop
  | .str _ => True
  | .num _ => True
  | .bool _ => True
  | _ => False

/-- The path of an array element. -/
def element (path : String) (i : Nat) : String := path ++ "[" ++ toString i ++ "]"

/-- How many of the elements from the `i`-th on are hidden. -/
def hiddenElements (E : IEnv) (path : String) : Nat → List Json → Nat
  | _, [] => 0
  | i, _ :: l => (if E.nonSD (element path i) then 0 else 1) + hiddenElements E path (i + 1) l

/-- Whether the object at the path takes a salt of its own. -/
def ownSalt (E : IEnv) (path : String) : Nat :=
  if E.recursive path then 1 else if E.always path || E.structured then 0 else 1

/-- Whether plain members of the object at the path stay as they are inside its disclosure. -/
def inClear (E : IEnv) (path : String) : Bool := !(E.recursive path || E.always path || E.structured)

/-- Issuing the members takes the salts from the `n`-th to before the `n'`-th. -/
inductive Takes (E : IEnv) : Bool → String → Nat → JObj → Nat → Prop
  | nil (ign : Bool) (path : String) (n : Nat) : Takes E ign path n [] n
  | clear {ign : Bool} {path k : String} {v : Json} {m : JObj} {n n' : Nat} :
      v ≠ .null → (E.nonSD (sub path k) = true ∨ Prim v ∧ ign = true) → Takes E ign path n m n' →
      Takes E ign path n ((k, v) :: m) n'
  | plain {path k : String} {v : Json} {m : JObj} {n n' : Nat} :
      Prim v → E.nonSD (sub path k) = false → Takes E false path (n + 1) m n' →
      Takes E false path n ((k, v) :: m) n'
  | array {ign : Bool} {path k : String} {l : List Json} {m : JObj} {n n' : Nat} :
      E.nonSD (sub path k) = false →
      Takes E ign path (n + hiddenElements E (sub path k) 0 l +
        (if E.always (sub path k) || E.structured then 0 else 1)) m n' →
      Takes E ign path n ((k, .arr l) :: m) n'
  | object {ign : Bool} {path k : String} {o m : JObj} {n n1 n' : Nat} :
      E.nonSD (sub path k) = false →
      Takes E (inClear E (sub path k)) (sub path k) (n + decoyCount E n) o n1 →
      Takes E ign path (n1 + ownSalt E (sub path k)) m n' → Takes E ign path n ((k, .obj o) :: m) n'

/-- The member with this path and value is hidden as a whole: neither its name nor anything of its value is
in clear. -/
def Whole (E : IEnv) (ign : Bool) (path : String) : Json → Prop
  | .null => False
  | .arr _ => E.nonSD path = false ∧ E.always path = false ∧ E.structured = false
  | .obj _ => E.nonSD path = false ∧ E.always path = false ∧ (E.recursive path = true ∨ E.structured = false)
  | _ => E.nonSD path = false ∧ ign = false

/-- Two arrays at the path are the same but for hidden elements whose salt is secret. -/
inductive AlikeElems (E : IEnv) (secret : Nat → Prop) (path : String) : Nat → Nat → List Json → List Json → Nat → Prop
  | nil (i n : Nat) : AlikeElems E secret path i n [] [] n
  | clear {i n n' : Nat} {v : Json} {l1 l2 : List Json} : E.nonSD (element path i) = true →
      AlikeElems E secret path (i + 1) n l1 l2 n' → AlikeElems E secret path i n (v :: l1) (v :: l2) n'
  | hidden {i n n' : Nat} {v1 v2 : Json} {l1 l2 : List Json} : E.nonSD (element path i) = false →
      (v1 = v2 ∨ secret n) →
      AlikeElems E secret path (i + 1) (n + 1) l1 l2 n' → AlikeElems E secret path i n (v1 :: l1) (v2 :: l2) n'

/-- Two objects issued with the salts from the `n`-th to before the `n'`-th are the same but for hidden
claims, objects, arrays and array elements whose salts are secret. -/
inductive Alike5 (E : IEnv) (secret : Nat → Prop) : Bool → String → Nat → JObj → JObj → Nat → Prop
  | nil (ign : Bool) (path : String) (n : Nat) : Alike5 E secret ign path n [] [] n
  /-- a claim may be the same -/
  | same {ign : Bool} {path k : String} {v : Json} {m1 m2 : JObj} {n n1 n' : Nat} :
      Takes E ign path n [(k, v)] n1 → Alike5 E secret ign path n1 m1 m2 n' →
      Alike5 E secret ign path n ((k, v) :: m1) ((k, v) :: m2) n'
  /-- a claim hidden as a whole may be any other, if all its salts are secret -/
  | other {ign : Bool} {path k1 k2 : String} {v1 v2 : Json} {m1 m2 : JObj} {n n1 n' : Nat} :
      (∀ i, n ≤ i → i < n1 → secret i) → Whole E ign (sub path k1) v1 → Whole E ign (sub path k2) v2 →
      Takes E ign path n [(k1, v1)] n1 → Takes E ign path n [(k2, v2)] n1 →
      Alike5 E secret ign path n1 m1 m2 n' →
      Alike5 E secret ign path n ((k1, v1) :: m1) ((k2, v2) :: m2) n'
  /-- an object, in clear or hidden, may differ inside -/
  | object {ign : Bool} {path k : String} {o1 o2 m1 m2 : JObj} {n n1 n' : Nat} :
      E.nonSD (sub path k) = false →
      Alike5 E secret (inClear E (sub path k)) (sub path k) (n + decoyCount E n) o1 o2 n1 →
      Alike5 E secret ign path (n1 + ownSalt E (sub path k)) m1 m2 n' →
      Alike5 E secret ign path n ((k, .obj o1) :: m1) ((k, .obj o2) :: m2) n'
  /-- an array, in clear or hidden, may differ inside -/
  | array {ign : Bool} {path k : String} {l1 l2 : List Json} {m1 m2 : JObj} {n n1 n' : Nat} :
      E.nonSD (sub path k) = false → AlikeElems E secret (sub path k) 0 n l1 l2 n1 →
      Alike5 E secret ign path (n1 + (if E.always (sub path k) || E.structured then 0 else 1)) m1 m2 n' →
      Alike5 E secret ign path n ((k, .arr l1) :: m1) ((k, .arr l2) :: m2) n'

/-- The text tells a secret salt: it is one, or a disclosure with one. -/
def Tells (E : IEnv) (secret : Nat → Prop) (text : String) : Prop :=
  ∃ i, secret i ∧ (Carries E text (E.salt i) ∨ text = E.salt i)

end Spec

open Spec

/-! ## Proofs -/

theorem v5Disclosure_drawn (E : IEnv) (n : Nat) (k : String) (v : Json) : Drawn E n (v5Disclosure E n k v) := by
  unfold v5Disclosure
  by_cases h : k ≠ ""
  · exact ⟨[.str k, v], by simp only [if_pos h], rfl⟩
  · exact ⟨[v], by simp only [if_neg h], rfl⟩

theorem decoys_fresh (E : IEnv) (n : Nat) : Fresh E n (n + (createDecoys E n).length) (createDecoys E n) := by
  unfold createDecoys
  split
  · generalize E.intn n % 4 + 1 = c
    refine ⟨Nat.le_add_right _ _, (List.range c).map (fun i => n + i), ?_, ?_, ?_⟩
    · exact List.Nodup.map (f := fun i => n + i) (fun a b h => by simpa using h) List.nodup_range
    · intro i hi
      obtain ⟨j, hj, rfl⟩ := List.mem_map.mp hi
      have := List.mem_range.mp hj
      simp only [List.length_map, List.length_range]
      omega
    · generalize List.range c = l
      induction l with
      | nil => exact .nil
      | cons x l ih => exact .cons (Or.inr rfl) ih
  · exact Fresh.nil E n

theorem v5Elems_fresh (E : IEnv) (path : String) : ∀ (l : List Json) (i n : Nat),
    Fresh E n (v5Elems E path i n l).2.2 (v5Elems E path i n l).2.1
  | [], i, n => Fresh.nil E n
  | v :: l, i, n => by
    unfold v5Elems
    split
    · exact v5Elems_fresh E path l (i + 1) n
    · exact (Fresh.one (v5Disclosure_drawn E n "" v)).append (v5Elems_fresh E path l (i + 1) (n + 1))

/-- All entries of an accumulator. -/
def Acc.all (a : Acc) : List Ent := a.level ++ a.nested

theorem reorder4 {α : Type} (a b c d : List α) : ((a ++ b) ++ (c ++ d)).Perm ((a ++ c) ++ (b ++ d)) := by
  simp only [List.append_assoc]
  apply List.Perm.append_left
  rw [← List.append_assoc, ← List.append_assoc]
  exact List.perm_append_comm.append_right _

theorem all_join (a b : Acc) : (a.all ++ b.all).Perm (a.join b).all := reorder4 _ _ _ _

mutual
theorem v5Member_fresh (E : IEnv) (ign : Bool) (cur k : String) (n : Nat) : ∀ (v : Json) (a : Acc),
    v5Member E ign cur k n v = some a → Fresh E n a.next a.all
  | .null, a, h => by simp only [v5Member] at h; exact nomatch h
  | .str s, a, h => by
    simp only [v5Member, Option.some.injEq] at h
    subst h
    unfold v5Prim
    split
    · exact Fresh.nil E n
    · exact Fresh.one (v5Disclosure_drawn E n k _)
  | .num s, a, h => by
    simp only [v5Member, Option.some.injEq] at h
    subst h
    unfold v5Prim
    split
    · exact Fresh.nil E n
    · exact Fresh.one (v5Disclosure_drawn E n k _)
  | .bool s, a, h => by
    simp only [v5Member, Option.some.injEq] at h
    subst h
    unfold v5Prim
    split
    · exact Fresh.nil E n
    · exact Fresh.one (v5Disclosure_drawn E n k _)
  | .arr l, a, h => by
    simp only [v5Member, Option.some.injEq] at h
    subst h
    unfold v5Array
    split
    · exact Fresh.nil E n
    · dsimp only
      have hf := v5Elems_fresh E cur l 0 n
      split
      · exact hf
      · exact (hf.append (Fresh.one (v5Disclosure_drawn E _ k _))).perm List.perm_append_comm
  | .obj o, a, h => by
    simp only [v5Member] at h
    split at h
    · simp only [Option.some.injEq] at h; subst h; exact Fresh.nil E n
    · obtain ⟨r, hr, rfl⟩ := Option.map_eq_some_iff.mp h
      have hf := (decoys_fresh E n).append (v5Loop_fresh E _ cur _ o r hr)
      have hf2 : Fresh E n r.next (v5Finish E (createDecoys E n) r).1 := by
        simp only [v5Finish, List.append_assoc]; exact hf
      unfold v5Nested
      have hone : ∀ v, Fresh E n (r.next + 1) ([v5Disclosure E r.next k v] ++ (v5Finish E (createDecoys E n) r).1) :=
        fun v => (hf2.append (Fresh.one (v5Disclosure_drawn E r.next k v))).perm List.perm_append_comm
      split
      · split
        · obtain ⟨h1, is, h2, h3, h4⟩ := hf2
          exact ⟨Nat.le_succ_of_le h1, is, h2, fun i hi => ⟨(h3 i hi).1, Nat.lt_succ_of_lt (h3 i hi).2⟩, h4⟩
        · exact hone _
      · split
        · exact hf2
        · exact hone _
theorem v5Loop_fresh (E : IEnv) (ign : Bool) (path : String) (n : Nat) : ∀ (m : List (String × Json)) (a : Acc),
    v5Loop E ign path n m = some a → Fresh E n a.next a.all
  | [], a, h => by
    simp only [v5Loop, Option.some.injEq] at h; subst h; exact Fresh.nil E n
  | (k, v) :: m, a, h => by
    simp only [v5Loop] at h
    split at h
    · exact nomatch h
    · rename_i b hb
      split at h
      · exact nomatch h
      · rename_i c hc
        simp only [Option.some.injEq] at h
        subst h
        exact ((v5Member_fresh E ign _ k n v b hb).append (v5Loop_fresh E ign path b.next m c hc)).perm (all_join b c)
end

/-! ### Entries that hash as before -/

/-- The other hash function agrees on the entries. -/
def Agrees (E : IEnv) (h : String → String → String) (es : List Ent) : Prop :=
  ∀ e ∈ es, h E.alg e.result = E.env.hash E.alg e.result

theorem Agrees.left {E : IEnv} {h : String → String → String} {a b : List Ent} (hx : Agrees E h (a ++ b)) : Agrees E h a :=
  fun e he => hx e (List.mem_append_left _ he)

theorem Agrees.right {E : IEnv} {h : String → String → String} {a b : List Ent} (hx : Agrees E h (a ++ b)) : Agrees E h b :=
  fun e he => hx e (List.mem_append_right _ he)

theorem agrees_digests {E : IEnv} {h : String → String → String} {es : List Ent} (hx : Agrees E h es) (n : Nat) :
    createDigests (E.withHash h) n es = createDigests E n es := by
  unfold createDigests
  have : es.map (fun e => (E.withHash h).digest e.result) = es.map (fun e => E.digest e.result) :=
    List.map_congr_left (fun e he => hx e he)
  rw [this]
  rfl

theorem v5Elems_agrees {E : IEnv} {h : String → String → String} (path : String) : ∀ (l : List Json) (i n : Nat),
    Agrees E h (v5Elems E path i n l).2.1 → v5Elems (E.withHash h) path i n l = v5Elems E path i n l
  | [], i, n, _ => rfl
  | v :: l, i, n, hx => by
    unfold v5Elems at hx ⊢
    have hn : (E.withHash h).nonSD = E.nonSD := rfl
    rw [hn]
    split at hx
    · rename_i hc
      simp only [hc, if_true]
      rw [v5Elems_agrees path l (i + 1) n hx]
    · rename_i hc
      simp only [hc, if_neg Bool.false_ne_true]
      have h1 : v5Elems (E.withHash h) path (i + 1) (n + 1) l = v5Elems E path (i + 1) (n + 1) l :=
        v5Elems_agrees path l (i + 1) (n + 1) (fun e he => hx e (List.mem_cons_of_mem _ he))
      have h2 := hx _ (List.mem_cons_self ..)
      have hd : v5Disclosure (E.withHash h) n "" v = v5Disclosure E n "" v := rfl
      rw [h1, hd]
      have h3 : (E.withHash h).digest (v5Disclosure E n "" v).result = E.digest (v5Disclosure E n "" v).result := h2
      rw [h3]

theorem v5Nested_withHash (E : IEnv) (h : String → String → String) (cur k : String) (out : List Ent × JObj × Nat) :
    v5Nested (E.withHash h) cur k out = v5Nested E cur k out := rfl

theorem v5Nested_sub (E : IEnv) (cur k : String) (out : List Ent × JObj × Nat) :
    ∀ e ∈ out.1, e ∈ (v5Nested E cur k out).all := by
  intro e he
  unfold v5Nested
  split <;> split <;> exact List.mem_append_right _ he

mutual
theorem v5Member_agrees {E : IEnv} {h : String → String → String} (ign : Bool) (cur k : String) (n : Nat) :
    ∀ (v : Json) (a : Acc), v5Member E ign cur k n v = some a → Agrees E h a.all →
      v5Member (E.withHash h) ign cur k n v = some a
  | .null, a, ha, _ => by simp only [v5Member] at ha; exact nomatch ha
  | .str s, a, ha, _ => by simp only [v5Member] at ha ⊢; exact ha
  | .num s, a, ha, _ => by simp only [v5Member] at ha ⊢; exact ha
  | .bool s, a, ha, _ => by simp only [v5Member] at ha ⊢; exact ha
  | .arr l, a, ha, hx => by
    simp only [v5Member, Option.some.injEq] at ha ⊢
    subst ha
    unfold v5Array at hx ⊢
    have hn : (E.withHash h).nonSD = E.nonSD := rfl
    rw [hn]
    split at hx
    · rename_i hc; simp only [hc, if_true]
    · rename_i hc
      simp only [hc, if_neg Bool.false_ne_true]
      have h1 : v5Elems (E.withHash h) cur 0 n l = v5Elems E cur 0 n l := by
        apply v5Elems_agrees
        dsimp only at hx
        split at hx <;> exact hx.right
      rw [h1]
      rfl
  | .obj o, a, ha, hx => by
    simp only [v5Member] at ha ⊢
    have hn : (E.withHash h).nonSD = E.nonSD := rfl
    rw [hn]
    split at ha
    · rename_i hc; simp only [hc, if_true]; exact ha
    · rename_i hc
      simp only [hc, if_neg Bool.false_ne_true]
      obtain ⟨r, hr, rfl⟩ := Option.map_eq_some_iff.mp ha
      have hout : Agrees E h (v5Finish E (createDecoys E n) r).1 := fun e he => hx e (v5Nested_sub E cur k _ e he)
      have hr' := v5Loop_agrees (h := h) _ cur _ o r hr (by
        unfold v5Finish at hout
        dsimp only at hout
        rw [List.append_assoc] at hout
        exact hout.right)
      rw [createDecoys_withHash]
      have hig : v5Ignore (E.withHash h) cur = v5Ignore E cur := rfl
      rw [hig, hr', Option.map_some, v5Nested_withHash]
      have hfin : v5Finish (E.withHash h) (createDecoys E n) r = v5Finish E (createDecoys E n) r := by
        have hd : createDigests (E.withHash h) r.next (createDecoys E n ++ r.level) =
            createDigests E r.next (createDecoys E n ++ r.level) := by
          apply agrees_digests
          unfold v5Finish at hout
          exact hout.left
        unfold v5Finish
        rw [hd]
      rw [hfin]
theorem v5Loop_agrees {E : IEnv} {h : String → String → String} (ign : Bool) (path : String) (n : Nat) :
    ∀ (m : List (String × Json)) (a : Acc), v5Loop E ign path n m = some a → Agrees E h a.all →
      v5Loop (E.withHash h) ign path n m = some a
  | [], a, ha, _ => by simp only [v5Loop] at ha ⊢; exact ha
  | (k, v) :: m, a, ha, hx => by
    simp only [v5Loop] at ha ⊢
    split at ha
    · exact nomatch ha
    · rename_i b hb
      split at ha
      · exact nomatch ha
      · rename_i c hc
        simp only [Option.some.injEq] at ha
        subst ha
        have hx' : Agrees E h (b.all ++ c.all) := fun e he => hx e ((all_join b c).mem_iff.mp he)
        rw [v5Member_agrees ign _ k n v b hb hx'.left]
        dsimp only
        rw [v5Loop_agrees ign path b.next m c hc hx'.right]
end

/-! ### What the specification says of the salts and of hidden members -/

theorem v5Elems_next (E : IEnv) (path : String) : ∀ (l : List Json) (i n : Nat),
    (v5Elems E path i n l).2.2 = n + hiddenElements E path i l
  | [], i, n => rfl
  | v :: l, i, n => by
    have he : elemPath path i = element path i := rfl
    unfold v5Elems hiddenElements
    rw [he]
    split
    · rw [Nat.zero_add]; exact v5Elems_next E path l (i + 1) n
    · dsimp only
      rw [v5Elems_next E path l (i + 1) (n + 1)]
      omega

theorem v5Array_next (E : IEnv) (cur k : String) (n : Nat) (l : List Json) (hn : E.nonSD cur = false) :
    (v5Array E cur k n l).next = n + hiddenElements E cur 0 l + (if E.always cur || E.structured then 0 else 1) := by
  unfold v5Array
  rw [hn, if_neg Bool.false_ne_true]
  dsimp only
  rw [v5Elems_next]
  split <;> rfl

theorem v5Nested_next (E : IEnv) (cur k : String) (out : List Ent × JObj × Nat) :
    (v5Nested E cur k out).next = out.2.2 + ownSalt E cur := by
  unfold v5Nested ownSalt
  split
  · split <;> rfl
  · split <;> rfl

theorem v5Member_prim (E : IEnv) (ign : Bool) (cur k : String) (n : Nat) {v : Json} (hp : Prim v) :
    v5Member E ign cur k n v = some (v5Prim E ign cur k n v) := by
  cases v with
  | null => exact hp.elim
  | arr => exact hp.elim
  | obj => exact hp.elim
  | _ => simp only [v5Member]

theorem v5Member_clear (E : IEnv) (ign : Bool) (cur k : String) (n : Nat) {v : Json} (hn : v ≠ .null)
    (hc : E.nonSD cur = true ∨ Prim v ∧ ign = true) : v5Member E ign cur k n v = some ⟨[], [], [(k, v)], n⟩ := by
  by_cases hp : Prim v
  · rw [v5Member_prim E ign cur k n hp]
    have : (E.nonSD cur || ign) = true := by
      rcases hc with h | h
      · rw [h]; rfl
      · rw [h.2, Bool.or_true]
    simp only [v5Prim, this, if_true]
  · have hc' : E.nonSD cur = true := hc.resolve_right (fun h => hp h.1)
    cases v with
    | null => exact absurd rfl hn
    | arr l => simp only [v5Member, v5Array, hc', if_true]
    | obj o => simp only [v5Member, hc', if_true]
    | _ => exact absurd trivial hp

/-- The issuer takes the salts the specification says. -/
theorem takes_loop {E : IEnv} {ign : Bool} {path : String} {n n' : Nat} {m : JObj} (h : Takes E ign path n m n') :
    ∃ a, v5Loop E ign path n m = some a ∧ a.next = n' := by
  induction h with
  | nil ign path n => exact ⟨⟨[], [], [], n⟩, by simp only [v5Loop], rfl⟩
  | @clear ign path k v m n n' hn hc _ ih =>
    obtain ⟨a, ha, hnext⟩ := ih
    simp only [v5Loop, curPath_sub, v5Member_clear E ign _ k n hn hc, ha]
    exact ⟨_, rfl, hnext⟩
  | @plain path k v m n n' hp hn _ ih =>
    obtain ⟨a, ha, hnext⟩ := ih
    simp only [v5Loop, curPath_sub, v5Member_prim E false _ k n hp, v5Prim, hn, Bool.or_false,
      if_neg Bool.false_ne_true, ha]
    exact ⟨_, rfl, hnext⟩
  | @array ign path k l m n n' hn _ ih =>
    obtain ⟨a, ha, hnext⟩ := ih
    simp only [v5Loop, curPath_sub, v5Member, v5Array_next E _ k n l hn, ha]
    exact ⟨_, rfl, hnext⟩
  | @object ign path k o m n n1 n' hn _ _ ih1 ih2 =>
    obtain ⟨r, hr, hnext1⟩ := ih1
    obtain ⟨a, ha, hnext⟩ := ih2
    have hig : v5Ignore E (Spec.sub path k) = inClear E (Spec.sub path k) := rfl
    simp only [v5Loop, curPath_sub, v5Member, hn, if_neg Bool.false_ne_true, decoys_length, hig, hr, Option.map_some,
      v5Nested_next, v5Finish, hnext1, ha]
    exact ⟨_, rfl, hnext⟩

theorem takes_withHash {E : IEnv} {ign : Bool} {path : String} {n n' : Nat} {m : JObj} (h : Takes E ign path n m n')
    (hash : String → String → String) : Takes (E.withHash hash) ign path n m n' := by
  have hh : ∀ (path : String) (l : List Json) (i : Nat),
      hiddenElements (E.withHash hash) path i l = hiddenElements E path i l := by
    intro path l
    induction l with
    | nil => intro i; rfl
    | cons v l ih => intro i; simp only [hiddenElements, ih]; rfl
  induction h with
  | nil ign path n => exact .nil ign path n
  | clear h1 h2 _ ih => exact .clear h1 h2 ih
  | plain h1 h2 _ ih => exact .plain h1 h2 ih
  | @array ign path k l m n n' h1 _ ih => exact .array h1 (by rw [hh]; exact ih)
  | object h1 _ _ ih1 ih2 => exact .object h1 ih1 ih2

theorem takes_member {E : IEnv} {ign : Bool} {path k : String} {n n' : Nat} {v : Json}
    (h : Takes E ign path n [(k, v)] n') :
    ∃ a, v5Member E ign (Spec.sub path k) k n v = some a ∧ a.next = n' := by
  obtain ⟨a, ha, hn⟩ := takes_loop h
  simp only [v5Loop, curPath_sub] at ha
  split at ha
  · exact nomatch ha
  · rename_i b hb
    simp only [Option.some.injEq] at ha
    subst ha
    exact ⟨b, hb, hn⟩

/-- A member hidden as a whole leaves one disclosure, with its last salt, and nothing in clear. -/
theorem whole_member {E : IEnv} {ign : Bool} {cur k : String} {n : Nat} {v : Json} {a : Acc}
    (hw : Whole E ign cur v) (ha : v5Member E ign cur k n v = some a) :
    a.fields = [] ∧ ∃ i e, a.next = i + 1 ∧ n ≤ i ∧ a.level = [e] ∧ Drawn E i e := by
  have hprim : Prim v → E.nonSD cur = false ∧ ign = false →
      a.fields = [] ∧ ∃ i e, a.next = i + 1 ∧ n ≤ i ∧ a.level = [e] ∧ Drawn E i e := by
    intro hp hc
    rw [v5Member_prim E ign cur k n hp, Option.some.injEq] at ha
    subst ha
    simp only [v5Prim, hc.1, hc.2, Bool.or_false, if_neg Bool.false_ne_true]
    exact ⟨trivial, n, _, rfl, Nat.le_refl _, rfl, v5Disclosure_drawn E n k v⟩
  cases v with
  | null => exact hw.elim
  | str s => exact hprim trivial hw
  | num s => exact hprim trivial hw
  | bool s => exact hprim trivial hw
  | arr l =>
    obtain ⟨h1, h2, h3⟩ := hw
    simp only [v5Member, Option.some.injEq] at ha
    subst ha
    simp only [v5Array, h1, h2, h3, Bool.or_false, if_neg Bool.false_ne_true]
    exact ⟨trivial, _, _, rfl, (v5Elems_fresh E cur l 0 n).1, rfl, v5Disclosure_drawn ..⟩
  | obj o =>
    obtain ⟨h1, h2, h3⟩ := hw
    simp only [v5Member, h1, if_neg Bool.false_ne_true] at ha
    obtain ⟨r, hr, rfl⟩ := Option.map_eq_some_iff.mp ha
    have hle : n ≤ r.next := Nat.le_trans (Nat.le_add_right _ _) (v5Loop_fresh E _ _ _ o r hr).1
    by_cases hrec : E.recursive cur = true
    · simp only [v5Nested, hrec, h2, if_true, if_neg Bool.false_ne_true]
      exact ⟨trivial, _, _, rfl, hle, rfl, v5Disclosure_drawn ..⟩
    · have h3' := h3.resolve_left hrec
      simp only [v5Nested, hrec, h2, h3', Bool.or_false, if_neg Bool.false_ne_true]
      exact ⟨trivial, _, _, rfl, hle, rfl, v5Disclosure_drawn ..⟩

/-- The disclosures for the `_sd` of a level are proper ones. -/
theorem level_drawn {E : IEnv} {ign : Bool} {cur k : String} {n : Nat} {v : Json} {a : Acc}
    (ha : v5Member E ign cur k n v = some a) : ∀ e ∈ a.level, ∃ i, Drawn E i e := by
  have hone : ∀ {n : Nat} {v : Json} (e : Ent), e ∈ [v5Disclosure E n k v] → ∃ i, Drawn E i e :=
    fun e he => ⟨_, List.mem_singleton.mp he ▸ v5Disclosure_drawn ..⟩
  have hprim : Prim v → ∀ e ∈ a.level, ∃ i, Drawn E i e := by
    intro hp
    rw [v5Member_prim E ign cur k n hp, Option.some.injEq] at ha
    subst ha
    unfold v5Prim
    split
    · intro e he; exact nomatch he
    · exact hone
  cases v with
  | null => simp only [v5Member] at ha; exact nomatch ha
  | str s => exact hprim trivial
  | num s => exact hprim trivial
  | bool s => exact hprim trivial
  | arr l =>
    simp only [v5Member, Option.some.injEq] at ha
    subst ha
    unfold v5Array
    split
    · intro e he; exact nomatch he
    · dsimp only
      split
      · intro e he; exact nomatch he
      · exact hone
  | obj o =>
    simp only [v5Member] at ha
    split at ha
    · simp only [Option.some.injEq] at ha; subst ha; intro e he; exact nomatch he
    · obtain ⟨r, hr, rfl⟩ := Option.map_eq_some_iff.mp ha
      unfold v5Nested
      split <;> split
      · intro e he; exact nomatch he
      · exact hone
      · intro e he; exact nomatch he
      · exact hone

/-- Every entry tells its salt. -/
theorem fresh_tells {E : IEnv} (hg : GoodSalts E) {secret : Nat → Prop} {n n' : Nat} {es : List Ent}
    (hf : Fresh E n n' es) (hs : ∀ i, n ≤ i → i < n' → secret i) : ∀ e ∈ es, Tells E secret e.result := by
  obtain ⟨_, is, -, h2, h3⟩ := hf
  induction h3 with
  | nil => intro e he; exact nomatch he
  | @cons i e is es h1 _ ih =>
    intro x hx
    rcases List.mem_cons.mp hx with rfl | hx
    · have hb := h2 i (List.mem_cons_self ..)
      refine ⟨i, hs i hb.1 hb.2, ?_⟩
      rcases h1 with h1 | h1
      · exact Or.inl (h1.carries hg)
      · exact Or.inr h1
    · exact ih (fun i hi => h2 i (List.mem_cons_of_mem _ hi)) x hx

/-! ### Alike claims -/

/-- What the issuer has for the second claims, compared to the first. -/
structure Corr (E : IEnv) (secret : Nat → Prop) (a1 a2 : Acc) : Prop where
  next : a2.next = a1.next
  fields : a2.fields = a1.fields
  level : List.Forall₂ (Match E secret) a1.level a2.level
  kept : ∀ e ∈ a1.nested, e ∈ a2.nested ∨ Tells E secret e.result
  none : a1.all = [] ↔ a2.all = []

theorem forall₂_nil_iff {α β : Type} {R : α → β → Prop} {a : List α} {b : List β} (h : List.Forall₂ R a b) :
    a = [] ↔ b = [] := by
  cases h with
  | nil => simp
  | cons => simp

theorem level_kept {E : IEnv} {secret : Nat → Prop} {l1 l2 : List Ent} (hf : List.Forall₂ (Match E secret) l1 l2) :
    ∀ e ∈ l1, e ∈ l2 ∨ Tells E secret e.result := by
  induction hf with
  | nil => intro e hx; exact nomatch hx
  | @cons a b l1 l2 hab _ ih =>
    intro e hx
    rcases List.mem_cons.mp hx with rfl | hx
    · obtain ⟨i, c1, _, rfl | hs⟩ := hab
      · exact Or.inl (List.mem_cons_self ..)
      · exact Or.inr ⟨i, hs, Or.inl c1⟩
    · exact (ih e hx).imp (List.mem_cons_of_mem _) id

theorem join_all_nil (a b : Acc) : (a.join b).all = [] ↔ a.all = [] ∧ b.all = [] := by
  simp only [Acc.join, Acc.all, List.append_eq_nil_iff]
  tauto

theorem Corr.join {E : IEnv} {secret : Nat → Prop} {a1 a2 b1 b2 : Acc} (ha : Corr E secret a1 a2)
    (hb : Corr E secret b1 b2) : Corr E secret (a1.join b1) (a2.join b2) where
  next := hb.next
  fields := by simp only [Acc.join, ha.fields, hb.fields]
  level := forall₂_append ha.level hb.level
  kept := by
    intro e he
    rcases List.mem_append.mp he with he | he
    · exact (ha.kept e he).imp (List.mem_append_left _) id
    · exact (hb.kept e he).imp (List.mem_append_right _) id
  none := by rw [join_all_nil, join_all_nil, ha.none, hb.none]

theorem Corr.refl {E : IEnv} (hg : GoodSalts E) {secret : Nat → Prop} {a : Acc}
    (hd : ∀ e ∈ a.level, ∃ i, Drawn E i e) : Corr E secret a a where
  next := rfl
  fields := rfl
  level := by
    generalize a.level = l at hd
    induction l with
    | nil => exact .nil
    | cons e l ih =>
      obtain ⟨i, hi⟩ := hd e (List.mem_cons_self ..)
      exact .cons ⟨i, hi.carries hg, hi.carries hg, Or.inl rfl⟩ (ih (fun e he => hd e (List.mem_cons_of_mem _ he)))
  kept := fun e he => Or.inl he
  none := Iff.rfl

theorem alike_elems {E : IEnv} (hg : GoodSalts E) {secret : Nat → Prop} {h : String → String → String} {es : List Ent}
    (hm : ∀ e1 ∈ es, ∀ e2, Match E secret e1 e2 → h E.alg e2.result = E.env.hash E.alg e1.result)
    {path : String} {i n n' : Nat} {l1 l2 : List Json} (ha : AlikeElems E secret path i n l1 l2 n') :
    (∀ e ∈ (v5Elems E path i n l1).2.1, e ∈ es) →
      (v5Elems E path i n l1).2.2 = n' ∧ (v5Elems (E.withHash h) path i n l2).2.2 = n' ∧
      (v5Elems (E.withHash h) path i n l2).1 = (v5Elems E path i n l1).1 ∧
      (∀ e ∈ (v5Elems E path i n l1).2.1, e ∈ (v5Elems (E.withHash h) path i n l2).2.1 ∨ Tells E secret e.result) ∧
      ((v5Elems E path i n l1).2.1 = [] ↔ (v5Elems (E.withHash h) path i n l2).2.1 = []) := by
  induction ha with
  | nil i n => intro _; exact ⟨rfl, rfl, rfl, fun e he => (nomatch he), Iff.rfl⟩
  | @clear i n n' v l1 l2 hn _ ih =>
    have hn1 : E.nonSD (elemPath path i) = true := hn
    have hn2 : (E.withHash h).nonSD (elemPath path i) = true := hn
    simp only [v5Elems, hn1, hn2, if_true]
    intro hx
    obtain ⟨a, b, c, d, e⟩ := ih hx
    exact ⟨a, b, by rw [c], d, e⟩
  | @hidden i n n' v1 v2 l1 l2 hn hv _ ih =>
    have hn1 : E.nonSD (elemPath path i) = false := hn
    have hn2 : (E.withHash h).nonSD (elemPath path i) = false := hn
    simp only [v5Elems, hn1, hn2, if_neg Bool.false_ne_true]
    intro hx
    obtain ⟨a, b, c, d, _⟩ := ih (fun e he => hx e (List.mem_cons_of_mem _ he))
    have hd1 := (v5Disclosure_drawn E n "" v1).carries hg
    have hd2 := (v5Disclosure_drawn E n "" v2).carries hg
    have hdig : (E.withHash h).digest (v5Disclosure (E.withHash h) n "" v2).result =
        E.digest (v5Disclosure E n "" v1).result := by
      refine hm _ (hx _ (List.mem_cons_self ..)) (v5Disclosure E n "" v2) ⟨n, hd1, hd2, ?_⟩
      exact hv.imp (fun h => by rw [h]) id
    refine ⟨a, b, by rw [c, hdig], ?_, by simp⟩
    intro e he
    rcases List.mem_cons.mp he with rfl | he
    · rcases hv with rfl | hs
      · exact Or.inl (List.mem_cons_self ..)
      · exact Or.inr ⟨n, hs, Or.inl hd1⟩
    · exact (d e he).imp (List.mem_cons_of_mem _) id

/-- What the loop makes of two alike objects. -/
theorem alike5_loop {E : IEnv} (hg : GoodSalts E) {secret : Nat → Prop} {h : String → String → String} {es : List Ent}
    (hm : ∀ e1 ∈ es, ∀ e2, Match E secret e1 e2 → h E.alg e2.result = E.env.hash E.alg e1.result)
    (hag : Agrees E h es)
    {ign : Bool} {path : String} {n n' : Nat} {m1 m2 : JObj} (ha : Alike5 E secret ign path n m1 m2 n') :
    ∀ a1, v5Loop E ign path n m1 = some a1 → (∀ e ∈ a1.all, e ∈ es) →
      ∃ a2, v5Loop (E.withHash h) ign path n m2 = some a2 ∧ Corr E secret a1 a2 ∧ a1.next = n' := by
  induction ha with
  | nil ign path n =>
    intro a1 h1 _
    simp only [v5Loop, Option.some.injEq] at h1 ⊢
    subst h1
    exact ⟨_, rfl, Corr.refl hg (fun e he => (nomatch he)), rfl⟩
  | @same ign path k v m1 m2 n n1 n' ht _ ih =>
    intro a1 h1 hall
    obtain ⟨b, hb, hnext⟩ := takes_member ht
    simp only [v5Loop, curPath_sub, hb] at h1 ⊢
    split at h1
    · exact nomatch h1
    · rename_i c hc
      simp only [Option.some.injEq] at h1
      subst h1
      have hall' : ∀ e ∈ b.all ++ c.all, e ∈ es := fun e he => hall e ((all_join b c).mem_iff.mp he)
      rw [hnext] at hc
      obtain ⟨c2, hc2, hcorr, hn'⟩ := ih c hc (fun e he => hall' e (List.mem_append_right _ he))
      rw [v5Member_agrees ign _ k n v b hb (fun e he => hag e (hall' e (List.mem_append_left _ he)))]
      dsimp only
      rw [hnext, hc2]
      exact ⟨_, rfl, (Corr.refl hg (level_drawn hb)).join hcorr, hn'⟩
  | @other ign path k1 k2 v1 v2 m1 m2 n n1 n' hsec hw1 hw2 ht1 ht2 _ ih =>
    intro a1 h1 hall
    obtain ⟨b, hb, hnext⟩ := takes_member ht1
    obtain ⟨b2, hb2, hnext2⟩ := takes_member (takes_withHash ht2 h)
    simp only [v5Loop, curPath_sub, hb, hb2] at h1 ⊢
    split at h1
    · exact nomatch h1
    · rename_i c hc
      simp only [Option.some.injEq] at h1
      subst h1
      have hall' : ∀ e ∈ b.all ++ c.all, e ∈ es := fun e he => hall e ((all_join b c).mem_iff.mp he)
      rw [hnext] at hc
      obtain ⟨c2, hc2, hcorr, hn'⟩ := ih c hc (fun e he => hall' e (List.mem_append_right _ he))
      rw [hnext2, hc2]
      refine ⟨_, rfl, Corr.join ?_ hcorr, hn'⟩
      obtain ⟨f1, i1, e1, x1, y1, l1, d1⟩ := whole_member hw1 hb
      have hw2' : Whole (E.withHash h) ign (Spec.sub path k2) v2 := by
        cases v2 <;> exact hw2
      obtain ⟨f2, i2, e2, x2, y2, l2, d2⟩ := whole_member hw2' hb2
      have hi : i2 = i1 := by omega
      subst hi
      have d2' : Drawn E i2 e2 := d2
      refine ⟨by rw [hnext, hnext2], by rw [f1, f2], ?_, ?_, ?_⟩
      · rw [l1, l2]
        exact .cons ⟨i2, d1.carries hg, d2'.carries hg, Or.inr (hsec i2 y1 (by omega))⟩ .nil
      · intro e he
        have hf := v5Member_fresh E ign _ k1 n v1 b hb
        rw [hnext] at hf
        exact Or.inr (fresh_tells hg hf hsec e (List.mem_append_right _ he))
      · simp only [Acc.all, l1, l2, List.cons_append, List.cons_ne_nil]
  | @object ign path k o1 o2 m1 m2 n n1 n' hn _ _ ih1 ih2 =>
    intro a1 h1 hall
    have hn2 : (E.withHash h).nonSD (Spec.sub path k) = false := hn
    have hig : v5Ignore E (Spec.sub path k) = inClear E (Spec.sub path k) := rfl
    have hig2 : v5Ignore (E.withHash h) (Spec.sub path k) = inClear E (Spec.sub path k) := rfl
    simp only [v5Loop, curPath_sub, v5Member, hn, hn2, if_neg Bool.false_ne_true, hig, hig2,
      createDecoys_withHash, decoys_length] at h1 ⊢
    cases hr : v5Loop E (inClear E (Spec.sub path k)) (Spec.sub path k) (n + decoyCount E n) o1 with
    | none => rw [hr, Option.map_none] at h1; exact nomatch h1
    | some r =>
      rw [hr, Option.map_some] at h1
      dsimp only at h1
      split at h1
      · exact nomatch h1
      · rename_i c hc
        simp only [Option.some.injEq] at h1
        subst h1
        have hall' := fun e he => hall e ((all_join _ c).mem_iff.mp he)
        have hout : ∀ e ∈ (v5Finish E (createDecoys E n) r).1, e ∈ es := fun e he =>
          hall' e (List.mem_append_left _ (v5Nested_sub E _ k _ e he))
        have hout' : ∀ e ∈ createDecoys E n ++ r.level ++ r.nested, e ∈ es := hout
        obtain ⟨r2, hr2, hcorr, hrn⟩ := ih1 r hr (fun e he => hout' e (by
          rw [List.append_assoc]; exact List.mem_append_right _ he))
        have hdig : createDigests (E.withHash h) r2.next (createDecoys E n ++ r2.level) =
            createDigests E r.next (createDecoys E n ++ r.level) := by
          unfold createDigests
          rw [List.map_append, List.map_append, hcorr.next,
            digests_match hm hcorr.level (fun e he => hout' e
              (List.mem_append_left _ (List.mem_append_right _ he)))]
          have : (createDecoys E n).map (fun e => (E.withHash h).digest e.result) =
              (createDecoys E n).map (fun e => E.digest e.result) :=
            List.map_congr_left (fun e he => hag e (hout' e (List.mem_append_left _ (List.mem_append_left _ he))))
          rw [this]
          rfl
        have hobj : (v5Finish (E.withHash h) (createDecoys E n) r2).2.1 = (v5Finish E (createDecoys E n) r).2.1 := by
          unfold v5Finish
          dsimp only
          rw [hdig, hcorr.fields]
        have hnx : (v5Finish (E.withHash h) (createDecoys E n) r2).2.2 = (v5Finish E (createDecoys E n) r).2.2 :=
          hcorr.next
        have hkept : ∀ e ∈ (v5Finish E (createDecoys E n) r).1,
            e ∈ (v5Finish (E.withHash h) (createDecoys E n) r2).1 ∨ Tells E secret e.result := by
          intro e he
          have he' : e ∈ createDecoys E n ++ r.level ++ r.nested := he
          rcases List.mem_append.mp he' with he | he
          · rcases List.mem_append.mp he with he | he
            · exact Or.inl (List.mem_append_left _ (List.mem_append_left _ he))
            · exact (level_kept hcorr.level e he).imp (fun h => List.mem_append_left _ (List.mem_append_right _ h)) id
          · exact (hcorr.kept e he).imp (List.mem_append_right _) id
        have hnil : (v5Finish E (createDecoys E n) r).1 = [] ↔
            (v5Finish (E.withHash h) (createDecoys E n) r2).1 = [] := by
          have hx := hcorr.none
          simp only [Acc.all, List.append_eq_nil_iff] at hx
          simp only [v5Finish, List.append_assoc, List.append_eq_nil_iff, hx]
        have hcn : Corr E secret (v5Nested E (Spec.sub path k) k (v5Finish E (createDecoys E n) r))
            (v5Nested (E.withHash h) (Spec.sub path k) k (v5Finish (E.withHash h) (createDecoys E n) r2)) := by
          rw [v5Nested_withHash]
          have hdisc := (v5Disclosure_drawn E (v5Finish E (createDecoys E n) r).2.2 k
            (.obj (v5Finish E (createDecoys E n) r).2.1)).carries hg
          unfold v5Nested
          rw [hobj, hnx]
          split <;> split
          · exact ⟨rfl, rfl, .nil, hkept, hnil⟩
          · exact ⟨rfl, rfl, .cons ⟨_, hdisc, hdisc, Or.inl rfl⟩ .nil, hkept, by simp [Acc.all]⟩
          · exact ⟨rfl, rfl, .nil, hkept, hnil⟩
          · exact ⟨rfl, rfl, .cons ⟨_, hdisc, hdisc, Or.inl rfl⟩ .nil, hkept, by simp [Acc.all]⟩
        have hnn : (v5Nested E (Spec.sub path k) k (v5Finish E (createDecoys E n) r)).next =
            n1 + ownSalt E (Spec.sub path k) := by
          rw [v5Nested_next]
          congr 1
        rw [hnn] at hc
        obtain ⟨c2, hc2, hcorr2, hn'⟩ := ih2 c hc (fun e he => hall' e (List.mem_append_right _ he))
        rw [hr2, Option.map_some]
        dsimp only
        rw [hcn.next, hnn, hc2]
        exact ⟨_, rfl, hcn.join hcorr2, hn'⟩
  | @array ign path k l1 l2 m1 m2 n n1 n' hn hel _ ih =>
    intro a1 h1 hall
    have hn2 : (E.withHash h).nonSD (Spec.sub path k) = false := hn
    simp only [v5Loop, curPath_sub, v5Member] at h1 ⊢
    split at h1
    · exact nomatch h1
    · rename_i c hc
      simp only [Option.some.injEq] at h1
      subst h1
      have hall' := fun e he => hall e ((all_join _ c).mem_iff.mp he)
      have hes : ∀ e ∈ (v5Elems E (Spec.sub path k) 0 n l1).2.1, e ∈ es := by
        intro e he
        refine hall' e (List.mem_append_left _ ?_)
        unfold v5Array
        rw [hn, if_neg Bool.false_ne_true]
        dsimp only
        split <;> exact List.mem_append_right _ he
      obtain ⟨q1, q2, q3, q4, q5⟩ := alike_elems hg hm hel hes
      have hcn : Corr E secret (v5Array E (Spec.sub path k) k n l1) (v5Array (E.withHash h) (Spec.sub path k) k n l2) := by
        unfold v5Array
        rw [hn, hn2, if_neg Bool.false_ne_true, if_neg Bool.false_ne_true]
        dsimp only
        rw [q1, q2, q3]
        have hal : (E.withHash h).always = E.always := rfl
        have hst : (E.withHash h).structured = E.structured := rfl
        rw [hal, hst]
        have hdisc := (v5Disclosure_drawn E n1 k (elemsJson (v5Elems E (Spec.sub path k) 0 n l1).1)).carries hg
        split
        · exact ⟨rfl, rfl, .nil, q4, by simpa [Acc.all] using q5⟩
        · exact ⟨rfl, rfl, .cons ⟨n1, hdisc, hdisc, Or.inl rfl⟩ .nil, q4, by simp [Acc.all]⟩
      have hnn : (v5Array E (Spec.sub path k) k n l1).next =
          n1 + (if E.always (Spec.sub path k) || E.structured then 0 else 1) := by
        rw [v5Array_next E _ k n l1 hn, ← q1, v5Elems_next]
      rw [hnn] at hc
      obtain ⟨c2, hc2, hcorr2, hn'⟩ := ih c hc (fun e he => hall' e (List.mem_append_right _ he))
      rw [hcn.next, hnn, hc2]
      exact ⟨_, rfl, hcn.join hcorr2, hn'⟩

/-- C137 (V5).  Two sets of claims that are alike but for secret ones: there is a hash function, different
from the real one only on disclosures with a secret salt, for which the issuer publishes for the second
exactly the payload it publishes for the first; and every disclosure of the first that tells no secret salt
is one of the second. -/
theorem hides_v5 {E : IEnv} (hg : GoodSalts E) {secret : Nat → Prop} {o : BaseOpts} {c1 c2 : JObj} {n' : Nat}
    (ha : Alike5 E secret false "" (decoyCount E 0) c1 c2 n') (hc : keyExists "_sd" c2 = false)
    {es1 : List Ent} {payload : JObj} (h1 : newV5 E o c1 = .ok (es1, payload)) :
    ∃ h es2, SameHash E secret h ∧ newV5 (E.withHash h) o c2 = .ok (es2, payload) ∧
      (∀ e ∈ es1, ¬ Tells E secret e.result → e ∈ es2) ∧ (es1 = [] ↔ es2 = []) := by
  unfold newV5 v5Build at h1
  rw [decoys_length] at h1
  split at h1
  · exact nomatch h1
  · cases hr : v5Loop E false "" (decoyCount E 0) c1 with
    | none => rw [hr] at h1; exact nomatch h1
    | some r =>
      rw [hr, Option.map_some] at h1
      simp only [Except.ok.injEq, Prod.mk.injEq] at h1
      obtain ⟨h1, h2⟩ := h1
      have hes : createDecoys E 0 ++ r.level ++ r.nested = es1 := h1
      have hfr : Fresh E 0 r.next es1 := by
        rw [← hes, List.append_assoc]
        have hd := decoys_fresh E 0
        rw [decoys_length, Nat.zero_add] at hd
        exact hd.append (v5Loop_fresh E false "" _ c1 r hr)
      have hm := fun e1 he e2 (hm : Match E secret e1 e2) => blindHash_match hg hfr E.alg he hm
      have hag : Agrees E (blindHash E secret es1) es1 := by
        intro e he
        obtain ⟨_, is, -, -, h3⟩ := hfr
        have mem : ∀ {is : List Nat} {es : List Ent}, List.Forall₂ (DrawnBy E) is es → e ∈ es → ∃ i, DrawnBy E i e := by
          intro is es hx
          induction hx with
          | nil => intro h; exact nomatch h
          | cons h _ ih =>
            intro hx
            rcases List.mem_cons.mp hx with rfl | hx
            · exact ⟨_, h⟩
            · exact ih hx
        obtain ⟨i, hi | hi⟩ := mem h3 he
        · exact hm e he e ⟨i, hi.carries hg, hi.carries hg, Or.inl rfl⟩
        · rw [hi]; exact blindHash_salt hg secret es1 E.alg i
      obtain ⟨r2, hr2, hcorr, _⟩ := alike5_loop hg hm hag ha r hr (fun e he => by
        rw [← hes, List.append_assoc]; exact List.mem_append_right _ he)
      have hin : ∀ e ∈ createDecoys E 0 ++ r.level, e ∈ es1 := fun e he => by
        rw [← hes]; exact List.mem_append_left _ he
      have hdig : createDigests (E.withHash (blindHash E secret es1)) r2.next (createDecoys E 0 ++ r2.level) =
          createDigests E r.next (createDecoys E 0 ++ r.level) := by
        unfold createDigests
        rw [List.map_append, List.map_append, hcorr.next,
          digests_match hm hcorr.level (fun e he => hin e (List.mem_append_right _ he))]
        have : (createDecoys E 0).map (fun e => (E.withHash (blindHash E secret es1)).digest e.result) =
            (createDecoys E 0).map (fun e => E.digest e.result) :=
          List.map_congr_left (fun e he => hag e (hin e (List.mem_append_left _ he)))
        rw [this]
        rfl
      have hobj : (v5Finish (E.withHash (blindHash E secret es1)) (createDecoys E 0) r2).2.1 =
          (v5Finish E (createDecoys E 0) r).2.1 := by
        unfold v5Finish
        dsimp only
        rw [hdig, hcorr.fields]
      refine ⟨blindHash E secret es1, createDecoys E 0 ++ r2.level ++ r2.nested, blindHash_same E secret es1, ?_, ?_, ?_⟩
      · unfold newV5 v5Build
        rw [hc, if_neg Bool.false_ne_true, createDecoys_withHash, decoys_length, hr2, Option.map_some]
        dsimp only
        rw [hobj, ← h2]
        rfl
      · intro e he ht
        rw [← hes] at he
        rcases List.mem_append.mp he with he | he
        · rcases List.mem_append.mp he with he | he
          · exact List.mem_append_left _ (List.mem_append_left _ he)
          · exact List.mem_append_left _ (List.mem_append_right _ ((level_kept hcorr.level e he).resolve_right ht))
        · exact List.mem_append_right _ ((hcorr.kept e he).resolve_right ht)
      · have hx := hcorr.none
        simp only [Acc.all, List.append_eq_nil_iff] at hx
        rw [← hes]
        simp only [List.append_assoc, List.append_eq_nil_iff, hx]

/-- The entries of V5 are disclosures or salts. -/
theorem newV5_drawn {E : IEnv} {o : BaseOpts} {c : JObj} {es : List Ent} {p : JObj}
    (h : newV5 E o c = .ok (es, p)) : ∀ e ∈ es, (∃ a, e.result = E.encode a) ∨ ∃ i, e.result = E.salt i := by
  unfold newV5 v5Build at h
  split at h
  · exact nomatch h
  · cases hr : v5Loop E false "" (createDecoys E 0).length c with
    | none => rw [hr] at h; exact nomatch h
    | some r =>
      rw [hr, Option.map_some] at h
      simp only [Except.ok.injEq, Prod.mk.injEq] at h
      have hes : createDecoys E 0 ++ r.level ++ r.nested = es := h.1
      have hfr : Fresh E 0 r.next es := by
        rw [← hes, List.append_assoc]
        have hd := decoys_fresh E 0
        rw [Nat.zero_add] at hd
        exact hd.append (v5Loop_fresh E false "" _ c r hr)
      obtain ⟨_, is, -, -, h3⟩ := hfr
      clear h hes hr
      induction h3 with
      | nil => intro e he; exact nomatch he
      | cons h _ ih =>
        intro e hx
        rcases List.mem_cons.mp hx with rfl | hx
        · rcases h with ⟨_, _, h⟩ | h
          · exact Or.inl ⟨_, h⟩
          · exact Or.inr ⟨_, h⟩
        · exact ih e hx

/-- C137 (the verifier's view, V5). -/
theorem presentation_hides_v5 {E : IEnv} (hg : GoodSalts E) {secret : Nat → Prop} {o : BaseOpts} {c1 c2 : JObj}
    {n' : Nat} (ha : Alike5 E secret false "" (decoyCount E 0) c1 c2 n') (hc : keyExists "_sd" c2 = false)
    {es1 : List Ent} {payload : JObj} (h1 : newV5 E o c1 = .ok (es1, payload))
    (sign : JObj → String) (hsign : ∀ p, NoChar '~' (sign p)) (hno : ∀ a, NoChar '~' (E.encode a))
    (hnos : ∀ i, NoChar '~' (E.salt i))
    {chosen : List String} (hch : ∀ d ∈ chosen, ¬ Tells E secret d)
    (hb : Option (Except Unit String)) {text : String}
    (hp : createPresentation (Issuance.serialize ⟨sign payload, es1.map Ent.result⟩) chosen hb = .ok text) :
    ∃ h es2, SameHash E secret h ∧ newV5 (E.withHash h) o c2 = .ok (es2, payload) ∧
      createPresentation (Issuance.serialize ⟨sign payload, es2.map Ent.result⟩) chosen hb = .ok text := by
  obtain ⟨h, es2, hs, h2, hk, hnil⟩ := hides_v5 hg ha hc h1
  refine ⟨h, es2, hs, h2, ?_⟩
  have good : ∀ {E : IEnv} {c : JObj} {es : List Ent} {p : JObj}, (∀ a, NoChar '~' (E.encode a)) →
      (∀ i, NoChar '~' (E.salt i)) → newV5 E o c = .ok (es, p) →
      parseIssuance (Issuance.serialize ⟨sign p, es.map Ent.result⟩) = ⟨sign p, es.map Ent.result⟩ := by
    intro E c es p hno hnos hx
    refine issuance_round_trip _ (hsign _) ?_
    intro d hd
    obtain ⟨e, he, rfl⟩ := List.mem_map.mp hd
    rcases newV5_drawn hx e he with ⟨a, ha⟩ | ⟨i, hi⟩
    · rw [ha]; exact hno a
    · rw [hi]; exact hnos i
  have r1 := good hno hnos h1
  have r2 := good (E := E.withHash h) hno hnos h2
  unfold createPresentation at hp ⊢
  rw [r1] at hp
  rw [r2]
  dsimp only at hp ⊢
  split at hp
  · exact nomatch hp
  · split at hp
    · exact nomatch hp
    · rename_i hx0 hx1
      rw [if_neg, if_neg]
      · exact hp
      · intro hx
        apply hx1
        rw [List.any_eq_true] at hx ⊢
        obtain ⟨d, hd, hdn⟩ := hx
        refine ⟨d, hd, ?_⟩
        simp only [Bool.not_eq_true', ← Bool.not_eq_true, List.contains_iff_mem, List.mem_map] at hdn ⊢
        rintro ⟨e, he, rfl⟩
        exact hdn ⟨e, hk e he (hch _ hd), rfl⟩
      · intro hx
        apply hx0
        simp only [List.length_map, List.length_eq_zero_iff] at hx ⊢
        exact hnil.mpr hx

end VC.SDJWT
