import Mathlib.Data.Nat.Choose.Basic
import Batteries.Data.List.Perm
import Mathlib.Data.List.Nodup
import Mathlib.Tactic.Ring
/-!
# presexch: enumeration of combinations (C26)

Models `presexch/internal/requirementlogic/combinatorics.go`.  `int` values are natural numbers: the
theorems show the exact results, so no subtraction underflows.
-/

namespace VC.PE

/-- `rangeInt`, combinatorics.go:36-46. -/
def rangeInt (start stop : Nat) : List Nat := List.range' start (stop - start)

/-- The state of the loop: `comb`, `gapStack` (top first), `shiftingFirstElement`,
combinatorics.go:153-161. -/
structure CState where
  comb : List Nat
  gaps : List Nat
  shift : Bool

/-- Subtraction of `start` from the first `k` elements, combinatorics.go:190-192. -/
def subFirst (start : Nat) : Nat → List Nat → List Nat
  | 0, l => l
  | _ + 1, [] => []
  | k + 1, c :: cs => (c - start) :: subFirst start k cs

/-- One pass of the loop with the top `g` of a stack `g :: gs`, combinatorics.go:164-200. -/
def combStep (m n : Nat) (comb : List Nat) (g : Nat) (gs : List Nat) (shift : Bool) : CState :=
  let cg := comb.getD g 0
  let gs1 := if n ≤ cg + 2 ∨ (g + 1 < m ∧ comb.getD (g + 1) 0 ≤ cg + 2) then gs else g :: gs
  let gs2 := if 0 < g ∧ comb.getD (g - 1) 0 + 1 = cg then (g - 1) :: gs1 else gs1
  let comb1 := comb.set g (cg + 1)
  if g = 0 then ⟨comb1, gs2, true⟩
  else if shift then ⟨subFirst (comb1.getD 0 0) g comb1, gs2, false⟩
  else ⟨comb1, gs2, shift⟩

/-- The loop, combinatorics.go:163-205: the combinations appended to `out`.  `fuel` bounds the number
of passes. -/
def combLoop (m n : Nat) : Nat → CState → List (List Nat)
  | 0, _ => []
  | fuel + 1, st =>
    match st.gaps with
    | [] => []
    | g :: gs =>
      let st' := combStep m n st.comb g gs st.shift
      st'.comb :: combLoop m n fuel st'

/-- `getMCombinationsOfN`, combinatorics.go:143-201 (with enough fuel). -/
def mCombinations (m n : Nat) : List (List Nat) :=
  if m > n then []
  else if m = 0 then [[]]
  else if m = n then [rangeInt 0 n]
  else rangeInt 0 m :: combLoop m n (2 ^ n) ⟨rangeInt 0 m, [m - 1], false⟩

/-- `nChooseM`, combinatorics.go:85-110, the loop: `i` of `m` factors (without overflow). -/
def chooseLoop (n : Nat) : Nat → Nat → Nat
  | 0, p => p
  | k + 1, p => let i := k; let q := chooseLoop n i p; q * (n - i) / (i + 1)

/-- `nChooseM`, combinatorics.go:85-110. -/
def nChooseM (n m : Nat) : Nat :=
  if m > n ∨ n = 0 then 0
  else if m = n ∨ m = 0 then 1
  else if m > n - m then chooseLoop n (n - m) 1
  else chooseLoop n m 1

/-- `allCombinationsInLengthRange`, combinatorics.go:13-33. -/
def allCombinations (min max len : Nat) : List (List Nat) :=
  (List.range' min (Nat.min max len + 1 - min)).flatMap (fun k => mCombinations k len)

/-- The loop of `complement`, combinatorics.go:58-66: `rest` is what is left of the sorted set. -/
def complementLoop : List Nat → List Nat → List Nat
  | [], _ => []
  | i :: is, [] => i :: complementLoop is []
  | i :: is, s :: ss => if i ≠ s then i :: complementLoop is (s :: ss) else complementLoop is ss

/-- `complement`, combinatorics.go:48-69. -/
def complement (set : List Nat) (n : Nat) : List Nat :=
  if set.length = 0 then rangeInt 0 n else complementLoop (List.range n) set

/-! ## The expected enumeration -/

/-- All `m`-element subsets of `{0..n-1}` as ascending lists, in colexicographic order. -/
def colex : Nat → Nat → List (List Nat)
  | 0, _ => [[]]
  | _ + 1, 0 => []
  | m + 1, n + 1 => colex (m + 1) n ++ (colex m n).map (fun c => c ++ [n])

theorem colex_mem (m n : Nat) (c : List Nat) :
    c ∈ colex m n ↔ c.length = m ∧ c.Pairwise (· < ·) ∧ ∀ x ∈ c, x < n := by
  induction n generalizing m c with
  | zero =>
    cases m with
    | zero =>
      simp only [colex, List.mem_singleton]
      constructor
      · rintro rfl; simp
      · rintro ⟨h, _⟩; exact List.length_eq_zero_iff.mp h
    | succ m =>
      simp only [colex, List.not_mem_nil, false_iff]
      rintro ⟨h, _, h3⟩
      cases c with
      | nil => simp at h
      | cons x xs => exact absurd (h3 x (by simp)) (by simp)
  | succ n ih =>
    cases m with
    | zero =>
      simp only [colex, List.mem_singleton]
      constructor
      · rintro rfl; simp
      · rintro ⟨h, _⟩; exact List.length_eq_zero_iff.mp h
    | succ m =>
      simp only [colex, List.mem_append, List.mem_map, ih]
      constructor
      · rintro (⟨h1, h2, h3⟩ | ⟨d, ⟨h1, h2, h3⟩, rfl⟩)
        · exact ⟨h1, h2, fun x hx => Nat.lt_succ_of_lt (h3 x hx)⟩
        · refine ⟨by simp [h1], ?_, ?_⟩
          · rw [List.pairwise_append]
            exact ⟨h2, by simp, by simpa using h3⟩
          · intro x hx
            rcases List.mem_append.mp hx with hx | hx
            · exact Nat.lt_succ_of_lt (h3 x hx)
            · simp at hx; omega
      · rintro ⟨h1, h2, h3⟩
        rcases List.eq_nil_or_concat c with rfl | ⟨d, x, rfl⟩
        · simp at h1
        · rw [List.concat_eq_append] at *
          rw [List.pairwise_append] at h2
          obtain ⟨p1, _, p3⟩ := h2
          have p3 : ∀ a ∈ d, a < x := fun a ha => p3 a ha x (by simp)
          have hx := h3 x (by simp)
          by_cases hxn : x = n
          · right
            subst hxn
            exact ⟨d, ⟨by simpa using h1, p1, p3⟩, rfl⟩
          · left
            refine ⟨h1, ?_, ?_⟩
            · rw [List.pairwise_append]
              exact ⟨p1, by simp, by simpa using p3⟩
            · intro y hy
              rcases List.mem_append.mp hy with hy | hy
              · have := p3 y hy; omega
              · simp at hy; omega

theorem colex_nodup (m n : Nat) : (colex m n).Nodup := by
  induction n generalizing m with
  | zero => cases m <;> simp [colex]
  | succ n ih =>
    cases m with
    | zero => simp [colex]
    | succ m =>
      simp only [colex]
      rw [List.nodup_append]
      refine ⟨ih _, ?_, ?_⟩
      · exact (ih m).map (fun a b h => List.append_cancel_right h)
      · intro a ha b hb e
        subst e
        obtain ⟨d, _, rfl⟩ := List.mem_map.mp hb
        have := ((colex_mem _ _ _).mp ha).2.2 n (by simp)
        omega

theorem colex_length (m n : Nat) : (colex m n).length = n.choose m := by
  induction n generalizing m with
  | zero => cases m <;> simp [colex]
  | succ n ih =>
    cases m with
    | zero => simp [colex]
    | succ m =>
      simp only [colex, List.length_append, List.length_map, ih]
      rw [Nat.choose_succ_succ', Nat.add_comm]

/-! ## The loop follows it -/

/-- The upper bound on the element before `s`. -/
def bound (n : Nat) : List Nat → Nat
  | [] => n
  | c :: _ => c

/-- The gap positions of a combination, counted from `i`. -/
def gapsOf (n : Nat) : Nat → List Nat → List Nat
  | _, [] => []
  | i, c :: cs => if c + 1 < bound n cs then i :: gapsOf n (i + 1) cs else gapsOf n (i + 1) cs

/-- What the loop keeps: the stack holds the gap positions, and the combination starts with 0 unless
the flag is set. -/
structure CGood (m n : Nat) (st : CState) : Prop where
  len : st.comb.length = m
  gaps : st.gaps = gapsOf n 0 st.comb
  zero : st.shift = false → st.comb.getD 0 0 = 0

theorem gapsOf_run (n : Nat) (s : List Nat) : ∀ (k i a : Nat),
    gapsOf n i (List.range' a (k + 1) ++ s) =
      if a + k + 1 < bound n s then (i + k) :: gapsOf n (i + k + 1) s else gapsOf n (i + k + 1) s := by
  intro k
  induction k with
  | zero => intro i a; simp [gapsOf]
  | succ k ih =>
    intro i a
    rw [List.range'_succ, List.cons_append, gapsOf]
    have hb : bound n (List.range' (a + 1) (k + 1) ++ s) = a + 1 := by
      rw [List.range'_succ]; rfl
    rw [hb, if_neg (by omega), ih]
    have e1 : a + 1 + k + 1 = a + (k + 1) + 1 := by omega
    have e2 : i + 1 + k = i + (k + 1) := by omega
    rw [e1, e2]

theorem gapsOf_run' (n : Nat) (s : List Nat) (k i a : Nat) :
    gapsOf n i (List.range' a k ++ s) =
      if 0 < k ∧ a + k < bound n s then (i + k - 1) :: gapsOf n (i + k) s else gapsOf n (i + k) s := by
  cases k with
  | zero => simp
  | succ k =>
    rw [gapsOf_run]
    simp only [Nat.zero_lt_succ, true_and, ← Nat.add_assoc, Nat.add_sub_cancel]

theorem getD_run (a k : Nat) (s : List Nat) (i : Nat) (h : i < k) :
    (List.range' a k ++ s).getD i 0 = a + i := by
  rw [List.getD_eq_getElem?_getD, List.getElem?_append_left (by simpa using h)]
  simp [h]

theorem subFirst_run (a : Nat) (s : List Nat) : ∀ (k b : Nat), a ≤ b →
    subFirst a k (List.range' b k ++ s) = List.range' (b - a) k ++ s := by
  intro k
  induction k with
  | zero => intro b _; simp [subFirst]
  | succ k ih =>
    intro b h
    rw [List.range'_succ, List.cons_append, subFirst, ih (b + 1) (by omega), List.range'_succ]
    have : b + 1 - a = b - a + 1 := by omega
    rw [this]
    rfl

/-- One pass of the loop on a combination that starts with a run of `j + 1` numbers followed by a gap:
the last of the run moves up by one and the others go back to `0..j-1`. -/
theorem combStep_run {m n a j : Nat} {s : List Nat} {st : CState} (hg : CGood m n st)
    (hc : st.comb = List.range' a (j + 1) ++ s) (hgap : a + j + 1 < bound n s)
    (hle : bound n s ≤ n) :
    st.gaps = j :: gapsOf n (j + 1) s ∧
    (combStep m n st.comb j (gapsOf n (j + 1) s) st.shift).comb =
      List.range' 0 j ++ (a + j + 1) :: s ∧
    CGood m n (combStep m n st.comb j (gapsOf n (j + 1) s) st.shift) := by
  have h1 : st.gaps = j :: gapsOf n (j + 1) s := by
    rw [hg.gaps, hc, gapsOf_run, if_pos hgap]
    simp
  have hm : m = j + 1 + s.length := by rw [← hg.len, hc]; simp
  have hcg : st.comb.getD j 0 = a + j := by rw [hc]; exact getD_run a (j + 1) s j (by omega)
  have hset : st.comb.set j (a + j + 1) = List.range' a j ++ (a + j + 1) :: s := by
    rw [hc, List.range'_concat, List.append_assoc, List.set_append]
    simp
  -- does the moved element stay a gap?
  have hstay : (n ≤ a + j + 2 ∨ (j + 1 < m ∧ st.comb.getD (j + 1) 0 ≤ a + j + 2)) ↔
      ¬ (a + j + 2 < bound n s) := by
    cases s with
    | nil => simp [bound, hm]
    | cons x xs =>
      have hx : st.comb.getD (j + 1) 0 = x := by
        rw [hc, List.getD_eq_getElem?_getD, List.getElem?_append_right (by simp)]
        simp
      rw [hx]
      simp only [bound] at hle ⊢
      simp only [List.length_cons] at hm
      omega
  have hpush : (0 < j ∧ st.comb.getD (j - 1) 0 + 1 = a + j) ↔ 0 < j := by
    constructor
    · exact fun h => h.1
    · intro h
      refine ⟨h, ?_⟩
      rw [hc, getD_run a (j + 1) s (j - 1) (by omega)]
      omega
  -- the gaps of the new combination
  have hnew : gapsOf n 0 (List.range' 0 j ++ (a + j + 1) :: s) =
      (if 0 < j then [j - 1] else []) ++
        ((if a + j + 2 < bound n s then [j] else []) ++ gapsOf n (j + 1) s) := by
    rw [gapsOf_run']
    rw [show bound n ((a + j + 1) :: s) = a + j + 1 from rfl]
    simp only [Nat.zero_add, gapsOf]
    have e : (0 < j ∧ j < a + j + 1) ↔ 0 < j := ⟨fun h => h.1, fun h => ⟨h, by omega⟩⟩
    simp only [e]
    rw [show a + j + 1 + 1 = a + j + 2 from rfl]
    by_cases hj : 0 < j <;> by_cases hb : a + j + 2 < bound n s <;> simp [hj, hb]
  refine ⟨h1, ?_⟩
  unfold combStep
  dsimp only
  rw [hcg, hset]
  have hgs : (if 0 < j ∧ st.comb.getD (j - 1) 0 + 1 = a + j then
      (j - 1) :: (if n ≤ a + j + 2 ∨ (j + 1 < m ∧ st.comb.getD (j + 1) 0 ≤ a + j + 2) then
        gapsOf n (j + 1) s else j :: gapsOf n (j + 1) s)
      else if n ≤ a + j + 2 ∨ (j + 1 < m ∧ st.comb.getD (j + 1) 0 ≤ a + j + 2) then
        gapsOf n (j + 1) s else j :: gapsOf n (j + 1) s) =
      gapsOf n 0 (List.range' 0 j ++ (a + j + 1) :: s) := by
    rw [hnew]
    simp only [hstay, hpush]
    by_cases hj : 0 < j <;> by_cases hb : a + j + 2 < bound n s <;> simp [hj, hb]
  rw [hgs]
  have hlen : (List.range' 0 j ++ (a + j + 1) :: s).length = m := by
    simp [hm]; omega
  by_cases hj : j = 0
  · subst hj
    rw [if_pos rfl]
    refine ⟨by simp, by simpa using hlen, by simp, by simp⟩
  · rw [if_neg hj]
    have hrun : (List.range' a j ++ (a + j + 1) :: s).getD 0 0 = a := by
      rw [getD_run a j _ 0 (by omega)]; simp
    cases hsh : st.shift
    · -- the flag is clear: the run starts with 0
      have ha : a = 0 := by
        have := hg.zero hsh
        rw [hc, getD_run a (j + 1) s 0 (by omega)] at this
        omega
      subst ha
      rw [if_neg (by simp)]
      refine ⟨by simp, ⟨by simpa using hlen, by simp, fun _ => by simpa using hrun⟩⟩
    · rw [if_pos rfl, hrun, subFirst_run a _ j a (le_refl _), Nat.sub_self]
      refine ⟨rfl, hlen, rfl, fun _ => ?_⟩
      rw [getD_run 0 j _ 0 (by omega)]

/-- `Emits m n st L st'`: passes of the loop from `st` lead to `st'` and append `L`. -/
inductive Emits (m n : Nat) : CState → List (List Nat) → CState → Prop
  | refl (st) : Emits m n st [] st
  | step {st g gs L st'} : st.gaps = g :: gs → Emits m n (combStep m n st.comb g gs st.shift) L st' →
      Emits m n st ((combStep m n st.comb g gs st.shift).comb :: L) st'

theorem Emits.trans {m n : Nat} {a b c : CState} {L L' : List (List Nat)} (h : Emits m n a L b)
    (h' : Emits m n b L' c) : Emits m n a (L ++ L') c := by
  induction h with
  | refl => exact h'
  | step hg _ ih => exact .step hg (ih h')

/-- From the first combination below a bound `b`, in front of `s`, the loop goes through all of them. -/
theorem emits_colex {M n : Nat} : ∀ (b m : Nat) (s : List Nat) (st : CState), m ≤ b → b ≤ bound n s →
    bound n s ≤ n → CGood M n st → st.comb = List.range' 0 m ++ s →
    ∃ L st', Emits M n st L st' ∧ CGood M n st' ∧ st'.comb = List.range' (b - m) m ++ s ∧
      st.comb :: L = (colex m b).map (fun c => c ++ s) := by
  intro b
  induction b with
  | zero =>
    intro m s st hm _ _ hg hc
    obtain rfl : m = 0 := by omega
    exact ⟨[], st, .refl _, hg, by simpa using hc, by simpa [colex] using hc⟩
  | succ b ih =>
    intro m s st hm hb hn hg hc
    cases m with
    | zero => exact ⟨[], st, .refl _, hg, by simpa using hc, by simpa [colex] using hc⟩
    | succ m =>
      by_cases he : m = b
      · -- only one combination is left
        subst he
        refine ⟨[], st, .refl _, hg, by simpa using hc, ?_⟩
        have hone : ∀ k, colex k k = [List.range' 0 k] := by
          intro k
          induction k with
          | zero => rfl
          | succ k ihk =>
            have hz : colex (k + 1) k = [] := by
              rw [← List.length_eq_zero_iff, colex_length]
              exact Nat.choose_succ_self k
            simp only [colex, hz, ihk, List.nil_append, List.map_cons, List.map_nil]
            rw [List.range'_concat]
            simp
        rw [hone]
        simpa using hc
      · obtain ⟨L1, st1, e1, g1, c1, l1⟩ := ih (m + 1) s st (by omega) (by omega) hn hg hc
        -- the step over the bound
        have hgap : (b - (m + 1)) + m + 1 < bound n s := by omega
        obtain ⟨k1, k2, k3⟩ := combStep_run g1 c1 hgap hn
        have hb' : (b - (m + 1)) + m + 1 = b := by omega
        rw [hb'] at k2
        obtain ⟨L2, st2, e2, g2, c2, l2⟩ := ih m (b :: s) _ (by omega) (by simp [bound])
          (by simp only [bound]; omega) k3 k2
        refine ⟨L1 ++ (combStep M n st1.comb m (gapsOf n (m + 1) s) st1.shift).comb :: L2, st2,
          e1.trans (.step k1 e2), g2, ?_, ?_⟩
        · rw [c2]
          have : b + 1 - (m + 1) = b - m := by omega
          rw [this, List.range'_concat, List.append_assoc]
          simp
          omega
        · rw [← List.cons_append, l1, l2]
          simp [colex, Function.comp_def]

theorem combLoop_emits {m n : Nat} {st st' : CState} {L : List (List Nat)} (h : Emits m n st L st')
    (hend : st'.gaps = []) : ∀ fuel, L.length ≤ fuel → combLoop m n fuel st = L := by
  induction h with
  | refl st =>
    intro fuel _
    cases fuel with
    | zero => rfl
    | succ f => simp [combLoop, hend]
  | step hg _ ih =>
    intro fuel hf
    cases fuel with
    | zero => simp at hf
    | succ f =>
      simp only [combLoop, hg]
      rw [ih hend f (by simpa using hf)]

theorem choose_le_two_pow : ∀ n m : Nat, n.choose m ≤ 2 ^ n := by
  intro n
  induction n with
  | zero => intro m; cases m <;> simp
  | succ n ih =>
    intro m
    cases m with
    | zero => simpa using Nat.one_le_two_pow
    | succ m =>
      have h1 := ih m
      have h2 := ih (m + 1)
      rw [Nat.choose_succ_succ', Nat.pow_succ]
      omega

theorem colex_lt {m n : Nat} (h : n < m) : colex m n = [] := by
  rw [← List.length_eq_zero_iff, colex_length]
  exact Nat.choose_eq_zero_of_lt h

/-- The loop produces the colexicographic enumeration. -/
theorem mCombinations_eq (m n : Nat) : mCombinations m n = colex m n := by
  unfold mCombinations
  by_cases h1 : m > n
  · rw [if_pos h1, colex_lt h1]
  rw [if_neg h1]
  by_cases h2 : m = 0
  · rw [if_pos h2, h2]; cases n <;> rfl
  rw [if_neg h2]
  obtain ⟨k, rfl⟩ : ∃ k, m = k + 1 := ⟨m - 1, by omega⟩
  have hstart : CGood (k + 1) n ⟨rangeInt 0 (k + 1), gapsOf n 0 (rangeInt 0 (k + 1)), false⟩ := by
    refine ⟨by simp [rangeInt], rfl, fun _ => ?_⟩
    simp [rangeInt]
  obtain ⟨L, st', e, g, c, l⟩ := emits_colex n (k + 1) [] _ (by omega) (by simp [bound])
    (by simp [bound]) hstart (by simp [rangeInt])
  simp only [List.append_nil, List.map_id'] at l
  by_cases h3 : k + 1 = n
  · rw [if_pos h3]
    subst h3
    have hL : L = [] := by
      have := congrArg List.length l
      rw [colex_length, Nat.choose_self] at this
      simpa using this
    rw [hL] at l
    rw [← l]
  · rw [if_neg h3, ← l]
    congr 1
    have hgs : gapsOf n 0 (rangeInt 0 (k + 1)) = [k + 1 - 1] := by
      have := gapsOf_run n [] k 0 0
      rw [if_pos (by simp only [bound]; omega), List.append_nil] at this
      rw [rangeInt, Nat.sub_zero, this]
      simp [gapsOf]
    rw [← hgs]
    apply combLoop_emits e
    · rw [g.gaps, c]
      have := gapsOf_run n [] k 0 (n - (k + 1))
      rw [this, if_neg (by simp only [bound]; omega)]
      rfl
    · have hlen := congrArg List.length l
      rw [colex_length] at hlen
      have := VC.PE.choose_le_two_pow n (k + 1)
      simp only [List.length_cons] at hlen
      omega

/-- **C26.** The helper returns every `m`-element subset of `{0..n-1}`, as an ascending list, exactly
once. -/
theorem mCombinations_exact (m n : Nat) :
    (mCombinations m n).Nodup ∧
    ∀ c, c ∈ mCombinations m n ↔ c.length = m ∧ c.Pairwise (· < ·) ∧ ∀ x ∈ c, x < n := by
  rw [mCombinations_eq]
  exact ⟨colex_nodup m n, colex_mem m n⟩

/-- Their number is the binomial coefficient. -/
theorem mCombinations_length (m n : Nat) : (mCombinations m n).length = n.choose m := by
  rw [mCombinations_eq, colex_length]

theorem chooseLoop_eq (n : Nat) : ∀ k, chooseLoop n k 1 = n.choose k := by
  intro k
  induction k with
  | zero => simp [chooseLoop]
  | succ k ih =>
    simp only [chooseLoop]
    rw [ih, Nat.choose_succ_right_eq .. |>.symm, Nat.mul_div_cancel _ (by omega)]

/-- `nChooseM` is the binomial coefficient (for `n > 0`; it returns 0 for `n = 0`). -/
theorem nChooseM_eq (n m : Nat) (hn : 0 < n) : nChooseM n m = n.choose m := by
  unfold nChooseM
  split
  · next h => rw [Nat.choose_eq_zero_of_lt (by omega)]
  · split
    · next h =>
      rcases h with rfl | rfl
      · simp
      · simp
    · split
      · rw [chooseLoop_eq, Nat.choose_symm (by omega)]
      · rw [chooseLoop_eq]

/-- **C26**, sizes in a range: all subsets of `{0..len-1}` with between `min` and `max` elements, once. -/
theorem allCombinations_exact (min max len : Nat) :
    (allCombinations min max len).Nodup ∧
    ∀ c, c ∈ allCombinations min max len ↔
      min ≤ c.length ∧ c.length ≤ max ∧ c.Pairwise (· < ·) ∧ ∀ x ∈ c, x < len := by
  unfold allCombinations
  constructor
  · rw [List.nodup_flatMap]
    refine ⟨fun k _ => (mCombinations_exact k len).1, ?_⟩
    have := List.nodup_range' (s := min) (n := Nat.min max len + 1 - min) (step := 1)
    refine this.imp ?_
    intro a b hab c h1 h2
    have e1 := ((mCombinations_exact a len).2 c).mp h1
    have e2 := ((mCombinations_exact b len).2 c).mp h2
    exact hab (e1.1.symm.trans e2.1)
  · intro c
    simp only [List.mem_flatMap, List.mem_range'_1, (mCombinations_exact _ len).2]
    constructor
    · rintro ⟨k, ⟨h1, h2⟩, rfl, h3, h4⟩
      have : Nat.min max len ≤ max := Nat.min_le_left _ _
      exact ⟨h1, by omega, h3, h4⟩
    · rintro ⟨h1, h2, h3, h4⟩
      refine ⟨c.length, ⟨h1, ?_⟩, rfl, h3, h4⟩
      have hle : c.length ≤ len := by
        have hn : c.Nodup := h3.imp (fun h => Nat.ne_of_lt h)
        have hs : c ⊆ List.range len := fun x hx => List.mem_range.mpr (h4 x hx)
        have := (List.subperm_of_subset hn hs).length_le
        simpa using this
      have : c.length ≤ Nat.min max len := Nat.le_min.mpr ⟨h2, hle⟩
      omega

/-- `complement` of a sorted set of numbers below `n`. -/
theorem complement_exact {set : List Nat} {n : Nat} (hs : set.Pairwise (· < ·)) (hb : ∀ x ∈ set, x < n) :
    complement set n = (List.range n).filter (fun i => !set.contains i) := by
  have key : ∀ (k a : Nat) (ss : List Nat), ss.Pairwise (· < ·) → (∀ x ∈ ss, a ≤ x ∧ x < a + k) →
      complementLoop (List.range' a k) ss = (List.range' a k).filter (fun i => !ss.contains i) := by
    intro k
    induction k with
    | zero => intro a ss _ _; simp [complementLoop]
    | succ k ih =>
      intro a ss hp hx
      rw [List.range'_succ]
      cases ss with
      | nil =>
        simp only [complementLoop]
        rw [ih (a + 1) [] (by simp) (by simp)]
        simp
      | cons x xs =>
        rw [List.pairwise_cons] at hp
        simp only [complementLoop]
        by_cases e : a = x
        · subst e
          rw [if_neg (by simp), ih (a + 1) xs hp.2 (fun y hy => ⟨hp.1 y hy, by
            have := (hx y (List.mem_cons_of_mem _ hy)).2; omega⟩)]
          rw [List.filter_cons_of_neg (by simp)]
          apply List.filter_congr
          intro y hy
          have : y ≠ a := by have := (List.mem_range'_1.mp hy).1; omega
          simp [this]
        · have hax := (hx x (by simp)).1
          rw [if_pos e, ih (a + 1) (x :: xs) (by rw [List.pairwise_cons]; exact hp) (by
            intro y hy
            have hy2 := hx y hy
            refine ⟨?_, by omega⟩
            rcases List.mem_cons.mp hy with rfl | hy
            · omega
            · have := hp.1 y hy; omega)]
          rw [List.filter_cons_of_pos]
          have h1 : a ∉ xs := fun hm => by have := hp.1 a hm; omega
          simp [e, h1]
  unfold complement
  split
  · next h =>
    have : set = [] := List.length_eq_zero_iff.mp h
    subst this
    simp [rangeInt, List.range_eq_range']
  · rw [List.range_eq_range', key n 0 set hs (fun x hx => ⟨Nat.zero_le _, by simpa using hb x hx⟩)]

/-- Three of five. -/
example : mCombinations 3 5 = [[0,1,2],[0,1,3],[0,2,3],[1,2,3],[0,1,4],[0,2,4],[1,2,4],[0,3,4],[1,3,4],[2,3,4]] := by
  decide +kernel

end VC.PE
