import Verif.Presexch.Requirement
import Mathlib.Data.Nat.Bitwise
import Mathlib.Tactic.Ring
import Mathlib.Tactic.Linarith
import Mathlib.Data.List.Sublists
/-!
# The solution iterator: C20, C21
-/

namespace VC.PE

/-! ## Bit sets and subsets -/

/-- The bit set of the subset `P` of `ds`. -/
def mask (P : String → Bool) : List String → Nat
  | [] => 0
  | d :: ds => (if P d then 1 else 0) + 2 * mask P ds

/-- The subset of `ds` with bit set `n`. -/
def pick : List String → Nat → List String
  | [], _ => []
  | d :: ds, n => if n % 2 = 1 then d :: pick ds (n / 2) else pick ds (n / 2)

theorem currentFrom_eq (ds : List String) : ∀ (n i : Nat),
    currentFrom n i ds = pick ds (n / 2 ^ i) := by
  induction ds with
  | nil => intro n i; rfl
  | cons d ds ih =>
    intro n i
    have h1 : n.testBit i = true ↔ n / 2 ^ i % 2 = 1 := by
      simp [Nat.testBit, Nat.shiftRight_eq_div_pow]
    have h2 : n / 2 ^ i / 2 = n / 2 ^ (i + 1) := by rw [Nat.div_div_eq_div_mul, pow_succ]
    simp only [currentFrom, pick, ih, h2]
    by_cases h : n / 2 ^ i % 2 = 1
    · simp [h, h1.mpr h]
    · simp [h, (not_congr h1).mpr h]

theorem current_eq (ds : List String) (n : Nat) : current ds n = pick ds n := by
  simp [current, currentFrom_eq]

theorem mask_lt (P : String → Bool) (ds : List String) : mask P ds < 2 ^ ds.length := by
  induction ds with
  | nil => simp [mask]
  | cons d ds ih =>
    simp only [mask, List.length_cons, pow_succ]
    split <;> omega

theorem pick_mask (P : String → Bool) (ds : List String) : pick ds (mask P ds) = ds.filter P := by
  induction ds with
  | nil => rfl
  | cons d ds ih =>
    simp only [mask, pick, List.filter_cons]
    by_cases h : P d = true
    · simp only [h, if_true]
      rw [if_pos (by omega), show (1 + 2 * mask P ds) / 2 = mask P ds by omega, ih]
    · simp only [h, if_false, Bool.false_eq_true]
      rw [if_neg (by omega), show (0 + 2 * mask P ds) / 2 = mask P ds by omega, ih]

theorem pick_sublist (ds : List String) : ∀ n, (pick ds n).Sublist ds := by
  induction ds with
  | nil => intro n; exact List.Sublist.refl _
  | cons d ds ih =>
    intro n
    simp only [pick]
    split
    · exact (ih _).cons_cons d
    · exact (ih _).cons d

theorem mask_congr {P Q : String → Bool} {ds : List String} (h : ∀ d ∈ ds, P d = Q d) :
    mask P ds = mask Q ds := by
  induction ds with
  | nil => rfl
  | cons d ds ih =>
    simp only [mask, h d (by simp)]
    rw [ih (fun e he => h e (by simp [he]))]

theorem mask_pick {ds : List String} (hn : ds.Nodup) : ∀ n, n < 2 ^ ds.length →
    mask (fun d => (pick ds n).contains d) ds = n := by
  induction ds with
  | nil => intro n h; simp at h; subst h; rfl
  | cons d ds ih =>
    intro n h
    rw [List.nodup_cons] at hn
    have hlt : n / 2 < 2 ^ ds.length := by
      simp only [List.length_cons, pow_succ] at h; omega
    have hc : ∀ e ∈ ds, e ≠ d := fun e he h => hn.1 (h ▸ he)
    have hnd : d ∉ pick ds (n / 2) := fun h => hn.1 ((pick_sublist _ _).subset h)
    simp only [mask, pick]
    by_cases hb : n % 2 = 1
    · simp only [hb, if_true]
      rw [mask_congr (Q := fun d => (pick ds (n / 2)).contains d), ih hn.2 _ hlt]
      · simp only [List.contains_cons, beq_self_eq_true, Bool.true_or, if_true]; omega
      · intro e he
        have := hc e he
        simp [List.contains_cons, this]
    · simp only [hb, if_false]
      rw [ih hn.2 _ hlt]
      simp only [List.contains_iff_mem, hnd, if_false]
      omega

theorem pick_filter_mem {ds : List String} (hn : ds.Nodup) {S : List String} (h : S.Sublist ds) :
    ds.filter (fun d => S.contains d) = S := by
  induction h with
  | slnil => rfl
  | @cons l₁ l₂ a h ih =>
    rw [List.nodup_cons] at hn
    have : a ∉ l₁ := fun ha => hn.1 (h.subset ha)
    rw [List.filter_cons_of_neg (by simpa using this)]
    exact ih hn.2
  | @cons_cons l₁ l₂ a h ih =>
    rw [List.nodup_cons] at hn
    rw [List.filter_cons_of_pos (by simp)]
    congr 1
    rw [← ih hn.2]
    refine List.filter_congr ?_
    intro x hx
    have : x ≠ a := fun e => hn.1 (e ▸ hx)
    rw [ih hn.2]
    simp [List.contains_cons, this]

theorem pick_eq_nil {ds : List String} : ∀ n, n < 2 ^ ds.length → (pick ds n = [] ↔ n = 0) := by
  induction ds with
  | nil => intro n h; simp at h; subst h; simp [pick]
  | cons d ds ih =>
    intro n h
    have hlt : n / 2 < 2 ^ ds.length := by
      simp only [List.length_cons, pow_succ] at h; omega
    simp only [pick]
    split
    · simp; omega
    · rw [ih _ hlt]; omega

theorem pick_pow (ds : List String) : pick ds (2 ^ ds.length) = [] := by
  induction ds with
  | nil => rfl
  | cons d ds ih =>
    simp only [pick, List.length_cons, pow_succ]
    rw [if_neg (by omega), show 2 ^ ds.length * 2 / 2 = 2 ^ ds.length by omega, ih]

theorem mask_append (P : String → Bool) (a b : List String) :
    mask P (a ++ b) = mask P a + 2 ^ a.length * mask P b := by
  induction a with
  | nil => simp [mask]
  | cons d a ih =>
    simp only [List.cons_append, mask, ih, List.length_cons, pow_succ]
    ring

/-! ## The search for the next solution -/

/-- `incrementUntilValid`: the first satisfying subset from `st` on, if there is one. -/
theorem scan_spec (req : Logic) (ds : List String) : ∀ (fuel st : Nat), 1 ≤ st →
    st ≤ 2 ^ ds.length → 2 ^ ds.length + 1 ≤ st + fuel →
    ((scan req ds fuel st).2 = [] ∧
      ∀ i, st ≤ i → i < 2 ^ ds.length → req.sat (pick ds i) = false) ∨
    (∃ n, scan req ds fuel st = (n, pick ds n) ∧ st ≤ n ∧ n < 2 ^ ds.length ∧ pick ds n ≠ [] ∧
      req.sat (pick ds n) = true ∧ ∀ i, st ≤ i → i < n → req.sat (pick ds i) = false) := by
  intro fuel
  induction fuel with
  | zero => intro st h1 h2 h3; omega
  | succ fuel ih =>
    intro st h1 h2 h3
    simp only [scan, current_eq]
    by_cases he : st = 2 ^ ds.length
    · left
      subst he
      rw [pick_pow]
      simp only [List.isEmpty_nil, if_true, true_and]
      intro i g1 g2; omega
    · have hlt : st < 2 ^ ds.length := by omega
      have hne : pick ds st ≠ [] := by
        rw [Ne, pick_eq_nil st hlt]; omega
      rw [if_neg (by simpa using hne)]
      by_cases hs : req.sat (pick ds st) = true
      · right
        rw [if_pos hs]
        exact ⟨st, rfl, Nat.le_refl _, hlt, hne, hs, fun i g1 g2 => by omega⟩
      · rw [if_neg hs]
        rcases ih (st + 1) (by omega) (by omega) (by omega) with ⟨g1, g2⟩ | ⟨n, g1, g2, g3, g4, g5, g6⟩
        · left
          refine ⟨g1, fun i hi hi' => ?_⟩
          by_cases e : i = st
          · subst e; simpa using hs
          · exact g2 i (by omega) hi'
        · right
          refine ⟨n, g1, by omega, g3, g4, g5, fun i hi hi' => ?_⟩
          by_cases e : i = st
          · subst e; simpa using hs
          · exact g6 i (by omega) hi'

/-! ## Excluding descriptors -/

theorem ldiff_pow (st k : Nat) : Nat.ldiff st (2 ^ k - 1) = 2 ^ k * (st / 2 ^ k) := by
  apply Nat.eq_of_testBit_eq
  intro i
  rw [Nat.testBit_ldiff, Nat.testBit_two_pow_sub_one]
  rw [Nat.testBit_two_pow_mul, Nat.testBit_div_two_pow]
  by_cases h : k ≤ i
  · simp [h, Nat.not_lt.mpr h, Nat.sub_add_cancel h]
  · simp [h, Nat.lt_of_not_le h]

theorem foldl_largest (l : List Nat) : ∀ a, (∀ i ∈ l, a ≤ i) → l.Pairwise (· < ·) → l ≠ [] →
    l.foldl (fun a i => if i > a then i else a) a = l.getLast?.getD 0 := by
  induction l with
  | nil => intro a _ _ h; exact absurd rfl h
  | cons x l ih =>
    intro a h hp _
    rw [List.pairwise_cons] at hp
    simp only [List.foldl_cons]
    have hx := h x (by simp)
    have e : (if x > a then x else a) = x := by split <;> omega
    rw [e]
    cases l with
    | nil => simp
    | cons y l =>
      rw [ih x (fun i hi => Nat.le_of_lt (hp.1 i hi)) hp.2 (by simp)]
      simp

theorem excludeIdx_ge (ex : List String) (ds : List String) : ∀ i, ∀ j ∈ excludeIdx ex i ds, i ≤ j := by
  induction ds with
  | nil => intro i j h; simp [excludeIdx] at h
  | cons d ds ih =>
    intro i j h
    simp only [excludeIdx] at h
    split at h
    · rcases List.mem_cons.mp h with rfl | h
      · exact Nat.le_refl _
      · have := ih _ _ h; omega
    · have := ih _ _ h; omega

theorem excludeIdx_pairwise (ex : List String) (ds : List String) : ∀ i,
    (excludeIdx ex i ds).Pairwise (· < ·) := by
  induction ds with
  | nil => intro i; simp [excludeIdx]
  | cons d ds ih =>
    intro i
    simp only [excludeIdx]
    split
    · rw [List.pairwise_cons]
      exact ⟨fun j hj => by have := excludeIdx_ge ex ds _ j hj; omega, ih _⟩
    · exact ih _

theorem removeIdx_eq (ex : List String) (ds : List String) : ∀ (pre : List Nat) (i : Nat),
    (∀ j ∈ pre, j < i) →
    removeIdx (pre ++ excludeIdx ex i ds) i ds = ds.filter (fun d => !ex.contains d) := by
  induction ds with
  | nil => intro pre i _; rfl
  | cons d ds ih =>
    intro pre i hpre
    simp only [excludeIdx, removeIdx]
    by_cases h : ex.contains d = true
    · simp only [h, if_true]
      rw [if_pos (by simp), List.filter_cons_of_neg (by simp at h; simp [h])]
      have := ih (pre ++ [i]) (i + 1) (by
        intro j hj
        rcases List.mem_append.mp hj with hj | hj
        · have := hpre j hj; omega
        · simp at hj; omega)
      simpa using this
    · simp only [h, if_false, Bool.false_eq_true]
      rw [if_neg, List.filter_cons_of_pos (by simp at h; simp [h])]
      · congr 1
        exact ih pre (i + 1) (fun j hj => by have := hpre j hj; omega)
      · intro hc
        rw [List.contains_iff_mem, List.mem_append] at hc
        rcases hc with hc | hc
        · have := hpre i hc; omega
        · have := excludeIdx_ge ex ds _ i hc; omega

theorem removeIdx_filter (ex ds : List String) :
    removeIdx (excludeIdx ex 0 ds) 0 ds = ds.filter (fun d => !ex.contains d) := by
  simpa using removeIdx_eq ex ds [] 0 (by simp)

/-- Split at the last excluded descriptor. -/
theorem exclude_split (ex : List String) (ds : List String) : ∀ i, excludeIdx ex i ds ≠ [] →
    ∃ a d b, ds = a ++ d :: b ∧ ex.contains d = true ∧ (∀ e ∈ b, ex.contains e = false) ∧
      (excludeIdx ex i ds).getLast?.getD 0 = i + a.length ∧
      (excludeIdx ex i ds).length = ((a ++ [d]).filter (fun e => ex.contains e)).length := by
  induction ds with
  | nil => intro i h; simp [excludeIdx] at h
  | cons x ds ih =>
    intro i h
    simp only [excludeIdx] at h ⊢
    by_cases hl : excludeIdx ex (i + 1) ds = []
    · have hnone : ∀ e ∈ ds, ex.contains e = false := by
        have : ∀ (ds : List String) (j : Nat), excludeIdx ex j ds = [] →
            ∀ e ∈ ds, ex.contains e = false := by
          intro ds
          induction ds with
          | nil => intro j _ e he; cases he
          | cons y ds ih' =>
            intro j hj e he
            simp only [excludeIdx] at hj
            split at hj
            · cases hj
            · next hy =>
              rcases List.mem_cons.mp he with rfl | he
              · simpa using hy
              · exact ih' _ hj e he
        exact this ds (i + 1) hl
      by_cases hx : ex.contains x = true
      · refine ⟨[], x, ds, rfl, hx, hnone, ?_, ?_⟩
        · rw [if_pos hx, hl]; simp
        · rw [if_pos hx, hl, List.nil_append, List.filter_cons_of_pos hx]; simp
      · rw [if_neg hx, hl] at h; exact absurd rfl h
    · obtain ⟨a, d, b, rfl, h1, h2, h3, h4⟩ := ih (i + 1) hl
      refine ⟨x :: a, d, b, rfl, h1, h2, ?_, ?_⟩
      · split
        · rw [List.getLast?_cons_of_ne_nil hl, h3]
          simp; omega
        · rw [h3]; simp; omega
      · split
        · next hx => simp only [List.cons_append, List.length_cons, h4,
            List.filter_cons_of_pos hx]
        · next hx => simp only [List.cons_append, h4, List.filter_cons_of_neg hx]

theorem mask_zero_of {P : String → Bool} {ds : List String} (h : ∀ d ∈ ds, P d = false) :
    mask P ds = 0 := by
  induction ds with
  | nil => rfl
  | cons d ds ih => simp [mask, h d (by simp), ih (fun e he => h e (by simp [he]))]

theorem pick_mem_bit {ds : List String} (hn : ds.Nodup) {a b : List String} {d : String}
    (hds : ds = a ++ d :: b) {n : Nat} (hlt : n < 2 ^ ds.length) (h : d ∈ pick ds n) :
    n / 2 ^ a.length % 2 = 1 := by
  have hm := mask_pick hn n hlt
  rw [hds, mask_append, mask] at hm
  rw [← hds] at hm
  simp only [List.contains_iff_mem, h, if_true] at hm
  rw [← hm]
  have := mask_lt (fun d => (pick ds n).contains d) a
  rw [Nat.add_mul_div_left _ _ (Nat.two_pow_pos _), Nat.div_eq_of_lt this]
  omega

theorem filter_length_add (q : String → Bool) (l : List String) :
    (l.filter q).length + (l.filter (fun e => !q e)).length = l.length := by
  induction l with
  | nil => rfl
  | cons x l ih =>
    cases hx : q x
    · rw [List.filter_cons_of_neg (by simp [hx]), List.filter_cons_of_pos (by simp [hx])]
      simp only [List.length_cons]; omega
    · rw [List.filter_cons_of_pos hx, List.filter_cons_of_neg (by simp [hx])]
      simp only [List.length_cons]; omega

/-- The heart of the exclusion: a subset of the remaining descriptors was passed before exactly when
its new bit set is below the new state. -/
theorem exclude_order {ex ds : List String} (hn : ds.Nodup) {st : Nat} (hst : st < 2 ^ ds.length)
    (hex : ∀ d ∈ ex, d ∈ ds → d ∈ pick ds st) (hne : excludeIdx ex 0 ds ≠ []) :
    1 ≤ excludeState st (excludeIdx ex 0 ds) ∧
    excludeState st (excludeIdx ex 0 ds) ≤ 2 ^ (ds.filter (fun d => !ex.contains d)).length ∧
    ∀ P : String → Bool, (∀ d ∈ ex, P d = false) →
      (mask P ds ≤ st ↔
        mask P (ds.filter (fun d => !ex.contains d)) < excludeState st (excludeIdx ex 0 ds)) := by
  obtain ⟨a, d, b, hds, h1, h2, h3, h4⟩ := exclude_split ex ds 0 hne
  have hlarge : largest (excludeIdx ex 0 ds) = a.length := by
    unfold largest
    rw [foldl_largest _ 0 (fun _ _ => Nat.zero_le _) (excludeIdx_pairwise ex ds 0) hne, h3]
    omega
  have hdm : d ∈ ds := by rw [hds]; simp
  have hbit := pick_mem_bit hn hds hst (hex d (by simpa using h1) hdm)
  -- sizes
  have hcount := filter_length_add (fun e => ex.contains e)
  have hm := hcount (a ++ [d])
  rw [← h4] at hm
  generalize hA' : (a ++ [d]).filter (fun e => !ex.contains e) = A' at hm
  have hfb : b.filter (fun e => !ex.contains e) = b := by
    rw [List.filter_eq_self]; intro e he; simp only [h2 e he, Bool.not_false]
  have hds' : ds.filter (fun e => !ex.contains e) = A' ++ b := by
    rw [hds, show a ++ d :: b = (a ++ [d]) ++ b by simp, List.filter_append, hA', hfb]
  -- the new state
  have hstate : excludeState st (excludeIdx ex 0 ds) =
      2 ^ A'.length * (st / 2 ^ (a.length + 1) + 1) := by
    unfold excludeState
    rw [hlarge, ldiff_pow, Nat.shiftRight_eq_div_pow]
    have e1 : st / 2 ^ a.length = 2 * (st / 2 ^ (a.length + 1)) + 1 := by
      rw [pow_succ, ← Nat.div_div_eq_div_mul]; omega
    have e2 : 2 ^ a.length * (st / 2 ^ a.length) + 2 ^ a.length =
        2 ^ (a.length + 1) * (st / 2 ^ (a.length + 1) + 1) := by
      rw [e1, pow_succ]; ring
    rw [e2]
    have e3 : 2 ^ (a.length + 1) = 2 ^ (excludeIdx ex 0 ds).length * 2 ^ A'.length := by
      rw [← pow_add]
      congr 1
      simp at hm
      omega
    rw [e3, Nat.mul_assoc, Nat.mul_div_cancel_left _ (Nat.two_pow_pos _)]
  have hblen : ds.length = a.length + 1 + b.length := by rw [hds]; simp; omega
  have hq : st / 2 ^ (a.length + 1) < 2 ^ b.length := by
    rw [Nat.div_lt_iff_lt_mul (Nat.two_pow_pos _), ← pow_add, Nat.add_comm b.length, ← hblen]
    exact hst
  rw [hstate, hds']
  refine ⟨?_, ?_, ?_⟩
  · have := Nat.two_pow_pos A'.length
    exact Nat.mul_pos this (Nat.succ_pos _)
  · rw [List.length_append, pow_add 2 A'.length]
    exact Nat.mul_le_mul_left _ hq
  · intro P hP
    have hPd : P d = false := hP d (by simpa using h1)
    rw [hds, mask_append, mask_append, mask, hPd]
    simp only [Bool.false_eq_true, if_false, Nat.zero_add]
    have l1 := mask_lt P a
    have l2 := mask_lt P A'
    have e4 : st = st % 2 ^ a.length + 2 ^ a.length * (2 * (st / 2 ^ (a.length + 1)) + 1) := by
      have := Nat.mod_add_div st (2 ^ a.length)
      have e1 : st / 2 ^ a.length = 2 * (st / 2 ^ (a.length + 1)) + 1 := by
        rw [pow_succ, ← Nat.div_div_eq_div_mul]; omega
      rw [← e1]; omega
    generalize st / 2 ^ (a.length + 1) = H at *
    generalize mask P b = hi at *
    have l3 := Nat.mod_lt st (Nat.two_pow_pos a.length)
    generalize st % 2 ^ a.length = r at *
    generalize 2 ^ a.length = K at *
    generalize 2 ^ A'.length = K' at *
    generalize mask P a = lo at *
    generalize mask P A' = lo' at *
    constructor
    · intro h
      have : hi ≤ H := by
        by_contra hc
        have h5 : 2 * (H + 1) ≤ 2 * hi := by omega
        have h6 : K * (2 * (H + 1)) ≤ K * (2 * hi) := Nat.mul_le_mul_left _ h5
        have h7 : K * (2 * H + 1) + K = K * (2 * (H + 1)) := by ring
        omega
      calc lo' + K' * hi < K' + K' * hi := by omega
        _ = K' * (hi + 1) := by ring
        _ ≤ K' * (H + 1) := Nat.mul_le_mul_left _ (by omega)
    · intro h
      have : hi ≤ H := by
        by_contra hc
        have h5 : K' * (H + 1) ≤ K' * hi := Nat.mul_le_mul_left _ (by omega)
        omega
      have h6 : K * (2 * hi) ≤ K * (2 * H) := Nat.mul_le_mul_left _ (by omega)
      have h7 : K * (2 * H + 1) = K * (2 * H) + K := by ring
      omega

/-! ## Histories of calls -/

/-- The iterator over the descriptors `D`. -/
def Iter.fresh (req : Logic) (D : List String) : Iter := ⟨req, 0, D, false⟩

/-- A caller respects the contract of `Next` if every descriptor of `D` it excludes was in the set
returned last (or has been excluded before). -/
def Respects (D : List String) (Y : List (List String)) (X ex : List String) : Prop :=
  ∀ d ∈ ex, d ∈ D → d ∈ Y.getLast?.getD [] ∨ d ∈ X

/-- `Trace req D it Y X`: the iterator over `D` has been called any number of times, has returned
the sets `Y`, has been told to exclude `X`, and is now `it`. -/
inductive Trace (req : Logic) (D : List String) : Iter → List (List String) → List String → Prop
  | start : Trace req D (Iter.fresh req D) [] []
  | next {it it' Y X ex S} : Trace req D it Y X → Respects D Y X ex → it.next ex = (S, it') →
      S ≠ [] → Trace req D it' (Y ++ [S]) (X ++ ex)

/-- Invariant of the iterator. -/
structure Inv (L : Logic) (D : List String) (it : Iter) (Y : List (List String))
    (X : List String) : Prop where
  req : it.req = L
  notdone : it.done = false
  descs : it.descs = D.filter (fun d => !X.contains d)
  bound : it.state < 2 ^ it.descs.length
  last : Y.getLast?.getD [] = pick it.descs it.state
  seen : ∀ P : String → Bool, it.descs.filter P ≠ [] →
    (it.descs.filter P ∈ Y ↔ L.sat (it.descs.filter P) = true ∧ mask P it.descs ≤ it.state)

/-- What `next` does before it searches. -/
theorem advance_spec {req : Logic} {D : List String} (hD : D.Nodup) {it : Iter}
    {Y : List (List String)} {X ex : List String} (h : Inv req D it Y X)
    (hr : Respects D Y X ex) :
    (advance it ex).2 = D.filter (fun d => !(X ++ ex).contains d) ∧ 1 ≤ (advance it ex).1 ∧
    (advance it ex).1 ≤ 2 ^ (advance it ex).2.length ∧
    ∀ P : String → Bool, (advance it ex).2.filter P ≠ [] →
      ((advance it ex).2.filter P ∈ Y ↔
        req.sat ((advance it ex).2.filter P) = true ∧ mask P (advance it ex).2 < (advance it ex).1) := by
  have hn : it.descs.Nodup := by rw [h.descs]; exact hD.filter _
  have hfil : it.descs.filter (fun d => !ex.contains d) = D.filter (fun d => !(X ++ ex).contains d) := by
    rw [h.descs, List.filter_filter]
    refine List.filter_congr ?_
    intro d _
    by_cases h1 : d ∈ X <;> by_cases h2 : d ∈ ex <;> simp [h1, h2]
  unfold advance
  dsimp only
  by_cases he : excludeIdx ex 0 it.descs = []
  · rw [if_pos (by simp [he])]
    have hsame : it.descs.filter (fun d => !ex.contains d) = it.descs := by
      rw [← removeIdx_filter, he]
      have : ∀ (l : List String) i, removeIdx [] i l = l := by
        intro l
        induction l with
        | nil => intro i; rfl
        | cons x l ih => intro i; simp [removeIdx, ih]
      exact this _ _
    dsimp only
    refine ⟨by rw [← hfil, hsame], by omega, by have := h.bound; omega, fun P hP => ?_⟩
    rw [h.seen P hP]
    constructor <;> rintro ⟨a, b⟩ <;> exact ⟨a, by omega⟩
  · rw [if_neg (by simpa using he)]
    dsimp only
    rw [removeIdx_filter]
    have hex : ∀ d ∈ ex, d ∈ it.descs → d ∈ pick it.descs it.state := by
      intro d hd hm
      rw [h.descs, List.mem_filter] at hm
      rcases hr d hd hm.1 with h1 | h1
      · rw [h.last] at h1; exact h1
      · have := hm.2; simp [h1] at this
    obtain ⟨g1, g2, g3⟩ := exclude_order hn h.bound hex he
    refine ⟨hfil, g1, g2, fun P hP => ?_⟩
    -- restrict the predicate to the remaining descriptors
    let Q : String → Bool := fun d => P d && !ex.contains d
    have hQ : ∀ d ∈ ex, Q d = false := by intro d hd; simp [Q, hd]
    have e1 : it.descs.filter Q = (it.descs.filter (fun d => !ex.contains d)).filter P := by
      rw [List.filter_filter]
    have e2 : mask Q (it.descs.filter (fun d => !ex.contains d)) =
        mask P (it.descs.filter (fun d => !ex.contains d)) := by
      refine mask_congr ?_
      intro d hd
      have := (List.mem_filter.mp hd).2
      simp only [Q, this, Bool.and_true]
    have := h.seen Q (by rw [e1]; exact hP)
    rw [e1, g3 Q hQ, e2] at this
    exact this

theorem subset_is_pick {ds : List String} (hn : ds.Nodup) {n : Nat} (hlt : n < 2 ^ ds.length) :
    ds.filter (fun d => (pick ds n).contains d) = pick ds n := by
  exact pick_filter_mem hn (pick_sublist ds n)

/-- Bit sets and subsets determine each other. -/
theorem filter_eq_pick_iff {ds : List String} (hn : ds.Nodup) {n : Nat} (hlt : n < 2 ^ ds.length)
    (P : String → Bool) : ds.filter P = pick ds n ↔ mask P ds = n := by
  constructor
  · intro h
    have : mask P ds = mask (fun d => (pick ds n).contains d) ds := by
      refine mask_congr ?_
      intro d hd
      rw [← h]
      by_cases hp : P d = true
      · simp [hd, hp]
      · simp [hp]
    rw [this, mask_pick hn n hlt]
  · rintro rfl
    exact (pick_mask P ds).symm

theorem trace_inv {req : Logic} {D : List String} (hD : D.Nodup) {it : Iter}
    {Y : List (List String)} {X : List String} (h : Trace req D it Y X) : Inv req D it Y X := by
  induction h with
  | start =>
    refine ⟨rfl, rfl, by simp [Iter.fresh], by simp [Iter.fresh, Nat.two_pow_pos], ?_, ?_⟩
    · have := (pick_eq_nil (ds := D) 0 (Nat.two_pow_pos _)).mpr rfl
      simpa [Iter.fresh] using this.symm
    · intro P hP
      simp only [Iter.fresh, List.not_mem_nil, false_iff, not_and, Nat.le_zero]
      intro _ h0
      apply hP
      have : pick D (mask P D) = D.filter P := pick_mask P D
      rw [h0, (pick_eq_nil (ds := D) 0 (Nat.two_pow_pos _)).mpr rfl] at this
      exact this.symm
  | @next it it' Y X ex S ht hr hnext hS ih =>
    obtain ⟨a1, a2, a3, a4⟩ := advance_spec hD ih hr
    have hn : (advance it ex).2.Nodup := by rw [a1]; exact hD.filter _
    unfold Iter.next at hnext
    rw [ih.notdone] at hnext
    simp only [Bool.false_eq_true, if_false, Prod.mk.injEq] at hnext
    obtain ⟨h1, h2⟩ := hnext
    rw [ih.req] at h1 h2
    rcases scan_spec req (advance it ex).2 (2 ^ (advance it ex).2.length + 1) _ a2 a3 (by omega) with
      ⟨g1, _⟩ | ⟨n, g1, g2, g3, g4, g5, g6⟩
    · rw [g1] at h1; exact absurd h1.symm hS
    · rw [g1] at h1 h2
      subst h1
      subst h2
      refine ⟨rfl, by simpa using g4, a1, g3, by simp, ?_⟩
      intro P hP
      dsimp only at hP ⊢
      rw [List.mem_append, List.mem_singleton, a4 P hP, filter_eq_pick_iff hn g3]
      have hp := pick_mask P (advance it ex).2
      constructor
      · rintro (⟨b1, b2⟩ | rfl)
        · exact ⟨b1, by omega⟩
        · rw [← hp]; exact ⟨g5, Nat.le_refl _⟩
      · rintro ⟨b1, b2⟩
        by_cases hlt : mask P (advance it ex).2 < (advance it ex).1
        · exact Or.inl ⟨b1, hlt⟩
        · by_cases e : mask P (advance it ex).2 = n
          · exact Or.inr e
          · have := g6 _ (by omega) (by omega : mask P (advance it ex).2 < n)
            rw [hp] at this
            rw [this] at b1; cases b1

/-- A successful call, spelled out. -/
theorem next_ok {req : Logic} {D : List String} (hD : D.Nodup) {it it' : Iter}
    {Y : List (List String)} {X ex S : List String} (h : Trace req D it Y X)
    (hr : Respects D Y X ex) (hnext : it.next ex = (S, it')) (hS : S ≠ []) :
    req.sat S = true ∧ S.Sublist D ∧ (∀ d ∈ X ++ ex, d ∉ S) ∧ S ∉ Y := by
  have ih := trace_inv hD h
  obtain ⟨a1, a2, a3, a4⟩ := advance_spec hD ih hr
  have hn : (advance it ex).2.Nodup := by rw [a1]; exact hD.filter _
  unfold Iter.next at hnext
  rw [ih.notdone] at hnext
  simp only [Bool.false_eq_true, if_false, Prod.mk.injEq] at hnext
  obtain ⟨h1, h2⟩ := hnext
  rw [ih.req] at h1 h2
  rcases scan_spec req (advance it ex).2 (2 ^ (advance it ex).2.length + 1) _ a2 a3 (by omega) with
    ⟨g1, _⟩ | ⟨n, g1, g2, g3, g4, g5, g6⟩
  · rw [g1] at h1; exact absurd h1.symm hS
  · rw [g1] at h1
    subst h1
    have hsub := pick_sublist (advance it ex).2 n
    have hmem : ∀ d ∈ pick (advance it ex).2 n, d ∈ D.filter (fun d => !(X ++ ex).contains d) := by
      intro d hd; rw [← a1]; exact hsub.subset hd
    refine ⟨g5, ?_, ?_, ?_⟩
    · exact hsub.trans (by rw [a1]; exact List.filter_sublist)
    · intro d hd hm
      have := (List.mem_filter.mp (hmem d hm)).2
      rw [List.contains_iff_mem.mpr hd] at this
      cases this
    · intro hY
      have hf := subset_is_pick hn g3
      have := a4 (fun d => (pick (advance it ex).2 n).contains d) (by rw [hf]; exact g4)
      rw [hf, mask_pick hn n g3] at this
      have := (this.mp hY).2
      omega

/-- **C21**, soundness: whatever the history of calls and exclusions, every set returned satisfies
the requirement, is a non-empty subset of the descriptors, and is returned once. -/
theorem yields_sound {req : Logic} {D : List String} (hD : D.Nodup) {it : Iter}
    {Y : List (List String)} {X : List String} (h : Trace req D it Y X) :
    Y.Nodup ∧ ∀ S ∈ Y, S ≠ [] ∧ S.Sublist D ∧ req.sat S = true := by
  induction h with
  | start => simp
  | @next it it' Y X ex S ht hr hnext hS ih =>
    obtain ⟨h1, h2, _, h4⟩ := next_ok hD ht hr hnext hS
    refine ⟨?_, ?_⟩
    · rw [List.nodup_append]
      refine ⟨ih.1, by simp, ?_⟩
      intro a ha b hb e
      simp only [List.mem_singleton] at hb
      subst hb; subst e
      exact h4 ha
    · intro S' hS'
      rcases List.mem_append.mp hS' with hm | hm
      · exact ih.2 S' hm
      · simp only [List.mem_singleton] at hm
        subst hm
        exact ⟨hS, h2, h1⟩

/-- **C21**, nothing comes back: a set returned after an exclusion contains none of the descriptors
excluded so far. -/
theorem excluded_never_yielded {req : Logic} {D : List String} (hD : D.Nodup) {it it' : Iter}
    {Y : List (List String)} {X ex S : List String} (h : Trace req D it Y X)
    (hr : Respects D Y X ex) (hnext : it.next ex = (S, it')) : ∀ d ∈ X ++ ex, d ∉ S := by
  by_cases hS : S = []
  · subst hS; simp
  · exact (next_ok hD h hr hnext hS).2.2.1

/-- **C21**, nothing is lost: when the iterator ends, every non-empty satisfying subset of the
descriptors that avoids all excluded ones has been returned; and the iterator stays at its end. -/
theorem end_complete {req : Logic} {D : List String} (hD : D.Nodup) {it it' : Iter}
    {Y : List (List String)} {X ex : List String} (h : Trace req D it Y X)
    (hr : Respects D Y X ex) (hnext : it.next ex = ([], it')) :
    (∀ S, S.Sublist D → S ≠ [] → req.sat S = true → (∀ d ∈ X ++ ex, d ∉ S) → S ∈ Y) ∧
    ∀ ex', it'.next ex' = ([], it') := by
  have ih := trace_inv hD h
  obtain ⟨a1, a2, a3, a4⟩ := advance_spec hD ih hr
  have hn : (advance it ex).2.Nodup := by rw [a1]; exact hD.filter _
  unfold Iter.next at hnext
  rw [ih.notdone] at hnext
  simp only [Bool.false_eq_true, if_false, Prod.mk.injEq] at hnext
  obtain ⟨h1, h2⟩ := hnext
  rw [ih.req] at h1 h2
  have hdone : it'.done = true := by rw [← h2]; simp [h1]
  refine ⟨?_, fun ex' => by unfold Iter.next; rw [hdone]; simp⟩
  rcases scan_spec req (advance it ex).2 (2 ^ (advance it ex).2.length + 1) _ a2 a3 (by omega) with
    ⟨g1, g2⟩ | ⟨n, g1, _, _, g4, _, _⟩
  · intro S hsub hne hsat hav
    have hsub' : S.Sublist (advance it ex).2 := by
      rw [a1]
      have := hsub.filter (fun d => !(X ++ ex).contains d)
      rw [List.filter_eq_self.mpr] at this
      · exact this
      · intro d hd
        have : d ∉ X ++ ex := fun hx => hav d hx hd
        simpa using this
    have hf := pick_filter_mem hn hsub'
    have := a4 (fun d => S.contains d) (by rw [hf]; exact hne)
    rw [hf] at this
    refine this.mpr ⟨hsat, ?_⟩
    by_contra hge
    have hm := mask_lt (fun d => S.contains d) (advance it ex).2
    have := g2 _ (by omega) hm
    rw [pick_mask, hf, hsat] at this
    cases this
  · rw [g1] at h1; exact absurd h1 g4

/-- The iterator ends: at most one call per subset of the descriptors returns a set. -/
theorem yields_bounded {req : Logic} {D : List String} (hD : D.Nodup) {it : Iter}
    {Y : List (List String)} {X : List String} (h : Trace req D it Y X) :
    Y.length < 2 ^ D.length := by
  obtain ⟨h1, h2⟩ := yields_sound hD h
  have : ([] :: Y).Nodup := List.nodup_cons.mpr ⟨fun hm => (h2 [] hm).1 rfl, h1⟩
  have hs : ([] :: Y) ⊆ D.sublists := by
    intro S hS
    rw [List.mem_sublists]
    rcases List.mem_cons.mp hS with rfl | hS
    · exact List.nil_sublist _
    · exact (h2 S hS).2.1
  have hl := (this.subperm hs).length_le
  rw [List.length_sublists] at hl
  simp only [List.length_cons] at hl
  omega

/-- All the sets returned by repeated calls without exclusion. -/
def Iter.collect : Nat → Iter → List (List String)
  | 0, _ => []
  | n + 1, it =>
    if (it.next []).1.isEmpty then [] else (it.next []).1 :: Iter.collect n (it.next []).2

/-- **C20.** Without exclusions, the iterator returns every non-empty satisfying subset exactly once,
and then ends (in at most `2 ^ D.length` calls). -/
theorem iterator_exhaustive {req : Logic} {D : List String} (hD : D.Nodup) {n : Nat}
    (hnum : 2 ^ D.length ≤ n) :
    (Iter.collect n (Iter.fresh req D)).Nodup ∧
    ∀ S, S ∈ Iter.collect n (Iter.fresh req D) ↔ S.Sublist D ∧ S ≠ [] ∧ req.sat S = true := by
  have key : ∀ (n : Nat) (it : Iter) (Y : List (List String)) (X : List String),
      Trace req D it Y X → X = [] → 2 ^ D.length ≤ Y.length + n →
      (Y ++ it.collect n).Nodup ∧
      ∀ S, S ∈ Y ++ it.collect n ↔ S.Sublist D ∧ S ≠ [] ∧ req.sat S = true := by
    intro n
    induction n with
    | zero =>
      intro it Y X ht _ hl
      have := yields_bounded hD ht
      omega
    | succ n ih =>
      intro it Y X ht hX hl
      subst hX
      have hr : Respects D Y [] [] := by intro d hd; cases hd
      obtain ⟨s1, s2⟩ := yields_sound hD ht
      simp only [Iter.collect]
      split
      · next he =>
        have he : (it.next []).1 = [] := by simpa using he
        have hc := (end_complete hD ht hr (it' := (it.next []).2) (Prod.ext he rfl)).1
        refine ⟨by simpa using s1, fun S => ?_⟩
        rw [List.append_nil]
        constructor
        · intro hS
          obtain ⟨b1, b2, b3⟩ := s2 S hS
          exact ⟨b2, b1, b3⟩
        · rintro ⟨b1, b2, b3⟩
          exact hc S b1 b2 b3 (by simp)
      · next he =>
        have he : (it.next []).1 ≠ [] := by simpa using he
        have ht' := Trace.next ht hr (S := (it.next []).1) (it' := (it.next []).2) rfl he
        have := ih (it.next []).2 (Y ++ [(it.next []).1]) _ ht' rfl (by simp; omega)
        simpa using this
  have := key n _ [] [] Trace.start rfl (by simpa using hnum)
  simpa using this

/-- When the descriptors of a definition have different IDs and cover those of the requirement, the
iterator runs over the descriptors of the requirement. -/
theorem newIter_fresh {req : Logic} {descs : List String} (hn : descs.Nodup)
    (hcov : ∀ d ∈ req.allDescs, d ∈ descs) :
    newIter req descs = some (Iter.fresh req (descs.filter (fun d => req.allDescs.contains d))) := by
  have hp : (descs.filter (fun d => req.allDescs.contains d)).Perm req.allDescs.dedup := by
    rw [List.perm_ext_iff_of_nodup (hn.filter _) (List.nodup_dedup _)]
    intro d
    simp only [List.mem_filter, List.contains_iff_mem, List.mem_dedup]
    exact ⟨fun h => h.2, fun h => ⟨hcov d h, h⟩⟩
  have hl := hp.length_eq
  unfold newIter
  dsimp only
  rw [hl, if_neg (by omega), Nat.sub_self]
  simp [Iter.fresh]

/-- Duplicate descriptor IDs make the constructor panic. -/
example : (newIter (.mk ["a"] [] 1 0 0) ["a", "a"]).isNone = true := by decide +kernel

/-! ## Examples -/

/-- One of three descriptors. -/
def exLogic : Logic := .mk ["a", "b", "c"] [] 1 0 0

example : ["a", "b", "c"].Nodup ∧
    Iter.collect 8 (Iter.fresh exLogic ["a", "b", "c"]) = [["a"], ["b"], ["c"]] := by decide +kernel

/-- The first two calls of a history: `a` is returned and excluded, `b` follows. -/
def exIt1 : Iter := ((Iter.fresh exLogic ["a", "b", "c"]).next []).2

example : Trace exLogic ["a", "b", "c"] (exIt1.next ["a"]).2 [["a"], ["b"]] ["a"] := by
  have h1 : Trace exLogic ["a", "b", "c"] exIt1 ([] ++ [["a"]]) ([] ++ []) :=
    .next .start (by simp [Respects]) (S := ["a"]) (Prod.ext (by decide +kernel) rfl) (by simp)
  have h2 : Trace exLogic ["a", "b", "c"] (exIt1.next ["a"]).2 (([] ++ [["a"]]) ++ [["b"]])
      (([] ++ []) ++ ["a"]) :=
    .next h1 (by simp [Respects]) (S := ["b"]) (Prod.ext (by decide +kernel) rfl) (by simp)
  exact h2

/-- **The contract of `Next` is needed**: a descriptor that was not in the last set is excluded, and
solutions are lost. With any non-empty set satisfying, after `{a}` the caller excludes `d`; the
iterator continues with `{c}` and never returns `{b}` or `{a, b}`. -/
theorem exclusion_contract_needed :
    ∃ (req : Logic) (D : List String), D.Nodup ∧ req.sat ["b"] = true ∧
      ∃ it it2, Trace req D it [["a"]] [] ∧ it.next ["d"] = (["c"], it2) ∧
        ["b"] ∉ it2.collect 16 ∧ (it2.collect 16).length < 16 := by
  refine ⟨.mk ["a", "b", "c", "d"] [] 0 0 0, ["a", "b", "c", "d"], by decide +kernel,
    by decide +kernel,
    ((Iter.fresh (.mk ["a", "b", "c", "d"] [] 0 0 0) ["a", "b", "c", "d"]).next []).2,
    (((Iter.fresh (.mk ["a", "b", "c", "d"] [] 0 0 0) ["a", "b", "c", "d"]).next []).2.next ["d"]).2,
    Trace.next (Y := []) (X := []) .start (ex := []) (by simp [Respects]) (S := ["a"])
      (Prod.ext (by decide +kernel) rfl) (by simp),
    Prod.ext (by decide +kernel) rfl, ?_, ?_⟩ <;> decide +kernel

end VC.PE
