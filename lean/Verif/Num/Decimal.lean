import Verif.Num.Float
/-!
# C140: numbers written in decimal and read as float64

When a number is too large to be read, which numbers are kept when they are read and written again, and
which are not.
-/

namespace VC.Num

open Spec

/-! ## Too large -/

theorem halfEven_neg (x : Rat) : halfEven (-x) = -halfEven x := by
  have h1 := Int.floor_le x
  have h2 := Int.lt_floor_add_one x
  by_cases hx : x = ⌊x⌋
  · rw [hx, ← Int.cast_neg, halfEven_int, halfEven_int]
  · have hlt : (⌊x⌋ : Rat) < x := lt_of_le_of_ne h1 (Ne.symm hx)
    have hf : ⌊-x⌋ = -⌊x⌋ - 1 := by
      rw [Int.floor_eq_iff]
      push_cast
      constructor <;> linarith
    unfold halfEven
    rw [hf]
    push_cast
    by_cases a : x - ⌊x⌋ < 1 / 2
    · rw [if_pos a, if_neg (by linarith), if_pos (by linarith)]
      ring
    · rw [if_neg a]
      by_cases b : 1 / 2 < x - ⌊x⌋
      · rw [if_pos b, if_pos (by linarith)]
        ring
      · rw [if_neg b, if_neg (by linarith), if_neg (by linarith)]
        by_cases c : ⌊x⌋ % 2 = 0
        · rw [if_pos c, if_neg (by omega)]
          ring
        · rw [if_neg c, if_pos (by omega)]
          ring

theorem rounded_neg (q : Rat) : rounded (-q) = -rounded q := by
  unfold rounded lastBit
  rw [abs_neg, neg_div, halfEven_neg]
  push_cast
  ring

theorem lastBit_of {q : Rat} {k : Int} (hk : -1022 ≤ k) (h1 : 2 ^ k ≤ q) (h2 : q < 2 ^ (k + 1)) : lastBit q = k - 52 := by
  have hq : 0 < q := lt_of_lt_of_le (two_zpow_pos k) h1
  have hq' : q ≠ 0 := ne_of_gt hq
  have a := log_le hq'
  have b := lt_log q
  rw [abs_of_pos hq] at a b
  have c := (zpow_lt_zpow_iff_right₀ (by norm_num : (1 : Rat) < 2)).1 (lt_of_le_of_lt a h2)
  have d := (zpow_lt_zpow_iff_right₀ (by norm_num : (1 : Rat) < 2)).1 (lt_of_le_of_lt h1 b)
  unfold lastBit
  rw [abs_of_pos hq]
  omega

theorem top_half : (2 : Rat) ^ 1024 - 2 ^ 970 = (2 ^ 53 - 1 / 2) * 2 ^ (971 : Int) := by
  have h1 : (2 : Rat) ^ (971 : Int) = 2 ^ 970 * 2 := by
    rw [show (2 : Rat) ^ (971 : Int) = 2 ^ 971 from zpow_natCast 2 971]
    exact pow_succ _ _
  have h2 : (2 : Rat) ^ 1024 = 2 ^ 970 * 2 ^ 54 := by rw [← pow_add]
  rw [h1, h2]
  generalize (2 : Rat) ^ 970 = y
  ring

theorem top_full : (2 : Rat) ^ 1024 = 2 ^ 53 * 2 ^ (971 : Int) := by
  rw [show (2 : Rat) ^ (971 : Int) = 2 ^ 971 from zpow_natCast 2 971, ← pow_add]

theorem rounded_big_pos {q : Rat} (hq : 0 < q) : 2 ^ 53 * 2 ^ (971 : Int) ≤ rounded q ↔ (2 ^ 53 - 1 / 2) * 2 ^ (971 : Int) ≤ q := by
  have hu := two_zpow_pos (lastBit q)
  have hL := two_zpow_pos 971
  have h1024 : (2 : Rat) ^ 53 * 2 ^ (971 : Int) = 2 ^ (1024 : Int) := by
    rw [show (1024 : Int) = 53 + 971 by norm_num, zpow_add₀ (by norm_num)]
    rfl
  have h1023 : (2 : Rat) ^ 52 * 2 ^ (971 : Int) = 2 ^ (1023 : Int) := by
    rw [show (1023 : Int) = 52 + 971 by norm_num, zpow_add₀ (by norm_num)]
    rfl
  by_cases hbig : (2 : Rat) ^ 53 * 2 ^ (971 : Int) ≤ q
  · refine ⟨fun _ => le_trans (mul_le_mul_of_nonneg_right (by norm_num) hL.le) hbig, fun _ => ?_⟩
    rcases le_or_gt (lastBit q) 1024 with he | he
    · obtain ⟨n, hn⟩ := multiple he 1
      rw [Int.cast_one, one_mul, ← h1024] at hn
      have : n ≤ halfEven (q / 2 ^ lastBit q) := le_halfEven (by rw [le_div_iff₀ hu, ← hn]; exact hbig)
      have : (n : Rat) ≤ halfEven (q / 2 ^ lastBit q) := by exact_mod_cast this
      unfold rounded
      rw [hn]
      exact mul_le_mul_of_nonneg_right this hu.le
    · have h2 := lastBit_le hq.ne' (by omega)
      rw [abs_of_pos hq] at h2
      have : (1 : Int) ≤ halfEven (q / 2 ^ lastBit q) := le_halfEven (by
        push_cast
        rw [le_div_iff₀ hu]
        refine le_trans (mul_le_mul_of_nonneg_right ?_ hu.le) h2
        norm_num)
      have h3 : (1 : Rat) ≤ halfEven (q / 2 ^ lastBit q) := by exact_mod_cast this
      rw [h1024]
      unfold rounded
      calc (2 : Rat) ^ (1024 : Int) ≤ 2 ^ lastBit q := zpow_le_zpow_right₀ (by norm_num) he.le
        _ = 1 * 2 ^ lastBit q := (one_mul _).symm
        _ ≤ _ := mul_le_mul_of_nonneg_right h3 hu.le
  · have hlt := not_le.1 hbig
    by_cases hmid : (2 : Rat) ^ 52 * 2 ^ (971 : Int) ≤ q
    · have hl : lastBit q = 971 := lastBit_of (k := 1023) (by norm_num) (h1023 ▸ hmid) (by
        rw [show (1023 : Int) + 1 = 1024 by norm_num, ← h1024]; exact hlt)
      unfold rounded
      rw [hl]
      have hx : q / 2 ^ (971 : Int) < 2 ^ 53 := by
        rw [div_lt_iff₀ hL]; exact hlt
      rw [← le_div_iff₀ (c := (2 : Rat) ^ (971 : Int)) (b := q) hL]
      generalize q / 2 ^ (971 : Int) = x at hx
      generalize (2 : Rat) ^ (971 : Int) = L at hL
      have hc : 2 ^ 53 * L ≤ (halfEven x : Rat) * L ↔ (2 ^ 53 : Rat) ≤ halfEven x :=
        ⟨fun h => le_of_mul_le_mul_right h hL, fun h => mul_le_mul_of_nonneg_right h hL.le⟩
      rw [hc]
      constructor
      · intro h
        have := (abs_le.1 (halfEven_near x)).1
        linarith
      · intro h
        have hf : ⌊x⌋ = 2 ^ 53 - 1 := by
          rw [Int.floor_eq_iff]
          push_cast
          constructor <;> linarith
        have hh : halfEven x = 2 ^ 53 := by
          unfold halfEven
          rw [hf]
          push_cast
          rw [if_neg (by linarith)]
          norm_num
        rw [hh]
        norm_num
    · have hlt2 := not_le.1 hmid
      have hf : IsFloat ((2 : Rat) ^ 52 * 2 ^ (971 : Int)) :=
        ⟨2 ^ 52, 971, by norm_num, by norm_num, by norm_num, by push_cast; rfl⟩
      have := rounded_nearest hq.ne' hf
      clear h1024 h1023 hf hbig hmid
      generalize (2 : Rat) ^ (971 : Int) = L at *
      constructor
      · intro h
        rw [abs_of_nonpos (by linarith), abs_of_nonpos (by linarith)] at this
        linarith
      · intro h
        linarith

/-- **C140** (too large): a number is not read exactly if it is at least half a last bit beyond the largest
float64 number. -/
theorem toFloat_none_iff (q : Rat) : toFloat q = none ↔ 2 ^ 1024 - 2 ^ 970 ≤ |q| := by
  have key : ∀ {q : Rat}, 0 < q → (2 ^ 53 * 2 ^ (971 : Int) ≤ |rounded q| ↔ (2 ^ 53 - 1 / 2) * 2 ^ (971 : Int) ≤ |q|) := by
    intro q hq
    have hu := two_zpow_pos (lastBit q)
    have hr0 : 0 ≤ rounded q := by
      unfold rounded
      have : (0 : Int) ≤ halfEven (q / 2 ^ lastBit q) := le_halfEven (by push_cast; positivity)
      have : (0 : Rat) ≤ halfEven (q / 2 ^ lastBit q) := by exact_mod_cast this
      exact mul_nonneg this hu.le
    rw [abs_of_pos hq, abs_of_nonneg hr0]
    exact rounded_big_pos hq
  have hL := two_zpow_pos 971
  unfold toFloat
  rw [top_half, top_full]
  by_cases h0 : q = 0
  · rw [if_pos h0, h0]
    simp only [reduceCtorEq, false_iff, abs_zero, not_le]
    exact mul_pos (by norm_num) hL
  · rw [if_neg h0]
    have : 2 ^ 53 * 2 ^ (971 : Int) ≤ |rounded q| ↔ (2 ^ 53 - 1 / 2) * 2 ^ (971 : Int) ≤ |q| := by
      rcases lt_or_gt_of_ne h0 with h | h
      · have := key (q := -q) (by linarith)
        rwa [rounded_neg, abs_neg, abs_neg] at this
      · exact key h
    rw [← this]
    generalize (2 : Rat) ^ (971 : Int) = L
    by_cases h : |rounded q| < 2 ^ 53 * L
    · rw [if_pos h]
      exact ⟨nofun, fun h' => absurd h (not_lt.2 h')⟩
    · rw [if_neg h]
      exact ⟨fun _ => not_lt.1 h, fun _ => rfl⟩

/-! ## Decimal numbers -/

/-- How far a number moves when it is read. -/
theorem toFloat_error {q x : Rat} (h : toFloat q = some x) : |q - x| ≤ max |q| (2 ^ (-1022 : Int)) * 2 ^ (-53 : Int) := by
  have hp := two_zpow_pos (-1022)
  have hp2 := two_zpow_pos (-53)
  unfold toFloat at h
  split at h
  · rename_i h0
    cases h
    subst h0
    simp only [sub_zero, abs_zero]
    exact mul_nonneg (le_max_left _ _) hp2.le
  · rename_i h0
    split at h
    · cases h
      refine le_trans (rounded_near q) ?_
      have hh : (2 : Rat) ^ lastBit q / 2 = 2 ^ (lastBit q + 52) * 2 ^ (-53 : Int) := by
        rw [← zpow_add₀ (by norm_num), show lastBit q + 52 + -53 = lastBit q - 1 by ring, zpow_sub_one₀ (by norm_num)]
        ring
      rw [hh]
      refine mul_le_mul_of_nonneg_right ?_ hp2.le
      by_cases he : -1074 < lastBit q
      · have := lastBit_le h0 he
        rw [← zpow_add₀ (by norm_num), add_comm] at this
        exact le_trans this (le_max_left _ _)
      · have : lastBit q = -1074 := by have := le_lastBit q; omega
        rw [this]
        exact le_max_right _ _
    · cases h

theorem decimal_mono {n n' : Nat} (h : n ≤ n') {q : Rat} (hq : Decimal n q) : Decimal n' q := by
  obtain ⟨m, k, hm, hx⟩ := hq
  exact ⟨m, k, lt_of_lt_of_le hm (pow_le_pow_right₀ (by norm_num) h), hx⟩

/-- The difference of two decimal numbers is not small compared with one of them. -/
theorem decimal_gap {n : Nat} {a b : Rat} (ha : Decimal n a) (hb : Decimal n b) (hne : a ≠ b) :
    |a| ≤ 10 ^ n * |a - b| ∨ |b| ≤ 10 ^ n * |a - b| := by
  have key : ∀ {m k m' k' : Int}, k ≤ k' → |m| < 10 ^ n → (m : Rat) * 10 ^ k ≠ m' * 10 ^ k' →
      |(m : Rat) * 10 ^ k| ≤ 10 ^ n * |(m : Rat) * 10 ^ k - m' * 10 ^ k'| := by
    intro m k m' k' hk hm hne
    obtain ⟨j, hj⟩ := Int.eq_ofNat_of_zero_le (sub_nonneg.2 hk)
    have hp : (0 : Rat) < 10 ^ k := zpow_pos (by norm_num) k
    have e : (m : Rat) * 10 ^ k - m' * 10 ^ k' = ((m - m' * 10 ^ j : Int) : Rat) * 10 ^ k := by
      rw [show k' = j + k by omega, zpow_add₀ (by norm_num), zpow_natCast]
      push_cast
      ring
    have hnz : m - m' * 10 ^ j ≠ 0 := by
      intro h0
      rw [h0, Int.cast_zero, zero_mul] at e
      exact hne (sub_eq_zero.1 e)
    have h1 : (1 : Rat) ≤ |((m - m' * 10 ^ j : Int) : Rat)| := by
      have := Int.one_le_abs hnz
      exact_mod_cast this
    have h2 : |(m : Rat)| ≤ 10 ^ n := by exact_mod_cast hm.le
    rw [e, abs_mul, abs_mul, abs_of_pos hp]
    calc |(m : Rat)| * 10 ^ k ≤ 10 ^ n * 10 ^ k := mul_le_mul_of_nonneg_right h2 hp.le
      _ = 10 ^ n * (1 * 10 ^ k) := by ring
      _ ≤ _ := mul_le_mul_of_nonneg_left (mul_le_mul_of_nonneg_right h1 hp.le) (by positivity)
  obtain ⟨m, k, hm, rfl⟩ := ha
  obtain ⟨m', k', hm', rfl⟩ := hb
  rcases le_total k k' with h | h
  · exact Or.inl (key h hm hne)
  · refine Or.inr ?_
    rw [abs_sub_comm]
    exact key h hm' hne.symm

/-- **C140** (15 digits): two numbers of at most 15 significant digits that are read as the same float64
number are the same (unless they are smaller than the smallest normal float64 number). -/
theorem decimal_unique {a b x : Rat} (ha : Decimal 15 a) (hb : Decimal 15 b) (hs : 2 ^ (-1022 : Int) ≤ |a|)
    (hax : toFloat a = some x) (hbx : toFloat b = some x) : a = b := by
  by_contra hne
  have h1 := toFloat_error hax
  have h2 := toFloat_error hbx
  rw [max_eq_left hs] at h1
  have hmax : max |b| (2 ^ (-1022 : Int)) ≤ max |b| |a| := max_le_max (le_refl _) hs
  have hp2 := two_zpow_pos (-53)
  have h2' := le_trans h2 (mul_le_mul_of_nonneg_right hmax hp2.le)
  have hd : 0 < |a - b| := abs_pos.2 (sub_ne_zero.2 hne)
  have htri : |a - b| ≤ |a - x| + |b - x| := by
    have := abs_sub_le a x b
    rw [abs_sub_comm x b] at this
    exact this
  have hab : |a| ≤ |b| + |a - b| := by
    have := abs_sub_abs_le_abs_sub a b
    linarith
  have hba : |b| ≤ |a| + |a - b| := by
    have := abs_sub_abs_le_abs_sub b a
    rw [abs_sub_comm b a] at this
    linarith
  have hbound : |a| ≤ (10 ^ 15 + 1) * |a - b| ∧ |b| ≤ (10 ^ 15 + 1) * |a - b| := by
    rcases decimal_gap ha hb hne with h | h
    · constructor <;> linarith
    · constructor <;> linarith
  have h3 : max |b| |a| ≤ (10 ^ 15 + 1) * |a - b| := max_le hbound.2 hbound.1
  have h4 := mul_le_mul_of_nonneg_right h3 hp2.le
  have h5 := mul_le_mul_of_nonneg_right hbound.1 hp2.le
  have h6 : (2 : Rat) ^ (-53 : Int) = 1 / 9007199254740992 := by norm_num
  rw [h6] at h1 h2' h4 h5
  linarith

end VC.Num
