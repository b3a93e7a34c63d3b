import Mathlib.Data.Int.Log
import Mathlib.Tactic.Linarith
import Mathlib.Tactic.Ring
import Mathlib.Tactic.Positivity
import Mathlib.Tactic.NormNum
import Mathlib.Tactic.FieldSimp
import Mathlib.Data.Rat.Floor
/-!
# C140: numbers are float64

`encoding/json` reads a number into an `interface{}` as a `float64`: the nearest one, ties to even
(`strconv.ParseFloat`).  Here: the rounding, and what is certain about it.
-/

namespace VC.Num

/-! ## Model -/

/-- Rounding to an integer, ties to even. -/
def halfEven (x : Rat) : Int :=
  if x - ⌊x⌋ < 1 / 2 then ⌊x⌋
  else if 1 / 2 < x - ⌊x⌋ then ⌊x⌋ + 1
  else if ⌊x⌋ % 2 = 0 then ⌊x⌋ else ⌊x⌋ + 1

/-- The exponent of the last bit of the float64 numbers around `q`: 53 bits, not below `2^(-1074)`. -/
def lastBit (q : Rat) : Int := max (Int.log 2 |q| - 52) (-1074)

/-- `q` rounded to 53 bits, with no upper limit. -/
def rounded (q : Rat) : Rat := halfEven (q / 2 ^ lastBit q) * 2 ^ lastBit q

/-- `strconv.ParseFloat(s, 64)` for a number `s` of value `q`, as used by `json.Unmarshal` into an
`interface{}` (verifiable/credential.go:1596-1606, presentation.go:1004-1014, sdjwt/common/common.go and
others): `none` is the range error.  (Zero has a sign in float64, which is left out.) -/
def toFloat (q : Rat) : Option Rat :=
  if q = 0 then some 0 else if |rounded q| < 2 ^ 1024 then some (rounded q) else none

/-! ## Specification -/

namespace Spec

/-- The finite float64 numbers (IEEE 754 binary64). -/
def IsFloat (x : Rat) : Prop :=
  ∃ m e : Int, |m| < 2 ^ 53 ∧ -1074 ≤ e ∧ e ≤ 971 ∧ x = m * 2 ^ e

/-- A decimal number with at most `n` significant digits. -/
def Decimal (n : Nat) (q : Rat) : Prop := ∃ m k : Int, |m| < 10 ^ n ∧ q = m * 10 ^ k

end Spec

open Spec

/-! ## Rounding to an integer -/

theorem halfEven_near (x : Rat) : |x - halfEven x| ≤ 1 / 2 := by
  have h1 := Int.floor_le x
  have h2 := Int.lt_floor_add_one x
  unfold halfEven
  split_ifs <;> push_cast <;> rw [abs_le] <;> constructor <;> linarith

theorem halfEven_nearest (x : Rat) (n : Int) : |x - halfEven x| ≤ |x - n| := by
  have h1 := Int.floor_le x
  have h2 := Int.lt_floor_add_one x
  rcases le_or_gt n ⌊x⌋ with h | h
  · have h3 : (n : Rat) ≤ ⌊x⌋ := by exact_mod_cast h
    have h4 : x - ⌊x⌋ ≤ |x - n| := le_trans (by linarith) (le_abs_self _)
    refine le_trans ?_ h4
    unfold halfEven
    split_ifs <;> push_cast <;> rw [abs_le] <;> constructor <;> linarith
  · have h3 : (⌊x⌋ : Rat) + 1 ≤ n := by exact_mod_cast h
    have h4 : ⌊x⌋ + 1 - x ≤ |x - n| := le_trans (by linarith) (neg_le_abs _)
    refine le_trans ?_ h4
    unfold halfEven
    split_ifs <;> push_cast <;> rw [abs_le] <;> constructor <;> linarith

theorem halfEven_tie {x : Rat} {n : Int} (h : |x - halfEven x| = |x - n|) (hne : n ≠ halfEven x) :
    halfEven x % 2 = 0 ∧ |n - halfEven x| = 1 := by
  have hn := halfEven_near x
  have h1 := Int.floor_le x
  have h2 := Int.lt_floor_add_one x
  have htri : |(n : Rat) - halfEven x| ≤ |x - halfEven x| + |x - n| := by
    have := abs_sub_le (n : Rat) x (halfEven x)
    rw [abs_sub_comm (n : Rat) x] at this
    linarith
  have hone : (1 : Rat) ≤ |(n : Rat) - halfEven x| := by
    have := Int.one_le_abs (sub_ne_zero.2 hne)
    exact_mod_cast this
  have hhalf : |x - halfEven x| = 1 / 2 := by linarith
  refine ⟨?_, ?_⟩
  · unfold halfEven at hhalf ⊢
    split_ifs at hhalf ⊢ with a b c
    · rw [abs_of_nonneg (by linarith)] at hhalf
      linarith
    · push_cast at hhalf
      rw [abs_of_nonpos (by linarith)] at hhalf
      linarith
    · exact c
    · omega
  · have : |(n : Rat) - halfEven x| = 1 := le_antisymm (by linarith) hone
    exact_mod_cast this

theorem halfEven_int (n : Int) : halfEven (n : Rat) = n := by
  unfold halfEven
  simp

theorem halfEven_le {x : Rat} {n : Int} (h : x ≤ n) : halfEven x ≤ n := by
  by_contra hc
  have h1 : (n : Rat) + 1 ≤ halfEven x := by exact_mod_cast (not_le.1 hc)
  have h2 := (abs_le.1 (halfEven_near x)).1
  linarith

theorem le_halfEven {x : Rat} {n : Int} (h : n ≤ x) : n ≤ halfEven x := by
  by_contra hc
  have h1 : (halfEven x : Rat) + 1 ≤ n := by exact_mod_cast (not_le.1 hc)
  have h2 := (abs_le.1 (halfEven_near x)).2
  linarith

/-! ## The last bit -/

theorem two_zpow_pos (e : Int) : (0 : Rat) < 2 ^ e := zpow_pos (by norm_num) e

theorem log_le {q : Rat} (h : q ≠ 0) : (2 : Rat) ^ Int.log 2 |q| ≤ |q| := by
  have := Int.zpow_log_le_self (b := 2) (r := |q|) (by norm_num) (abs_pos.2 h)
  exact_mod_cast this

theorem lt_log (q : Rat) : |q| < (2 : Rat) ^ (Int.log 2 |q| + 1) := by
  have := Int.lt_zpow_succ_log_self (b := 2) (by norm_num) |q|
  exact_mod_cast this

theorem lt_lastBit (q : Rat) : |q| < 2 ^ (53 : Int) * 2 ^ lastBit q := by
  rw [← zpow_add₀ (by norm_num)]
  refine lt_of_lt_of_le (lt_log q) (zpow_le_zpow_right₀ (by norm_num) ?_)
  unfold lastBit
  have := le_max_left (Int.log 2 |q| - 52) (-1074)
  omega

theorem lastBit_le {q : Rat} (h : q ≠ 0) (he : -1074 < lastBit q) : 2 ^ (52 : Int) * 2 ^ lastBit q ≤ |q| := by
  have : lastBit q = Int.log 2 |q| - 52 := by
    unfold lastBit at he ⊢
    omega
  rw [← zpow_add₀ (by norm_num), this]
  have := log_le h
  rwa [show (52 : Int) + (Int.log 2 |q| - 52) = Int.log 2 |q| by ring]

theorem le_lastBit (q : Rat) : -1074 ≤ lastBit q := le_max_right _ _

/-! ## Rounding -/

theorem rounded_near (q : Rat) : |q - rounded q| ≤ 2 ^ lastBit q / 2 := by
  have hu := two_zpow_pos (lastBit q)
  have h := halfEven_near (q / 2 ^ lastBit q)
  have e : q - rounded q = (q / 2 ^ lastBit q - halfEven (q / 2 ^ lastBit q)) * 2 ^ lastBit q := by
    unfold rounded
    field_simp
  rw [e, abs_mul, abs_of_pos hu]
  have := mul_le_mul_of_nonneg_right h hu.le
  linarith

/-- A multiple of a higher power of two is a multiple of a lower one. -/
theorem multiple {e f : Int} (h : e ≤ f) (m : Int) : ∃ n : Int, (m : Rat) * 2 ^ f = n * 2 ^ e := by
  obtain ⟨k, hk⟩ := Int.eq_ofNat_of_zero_le (sub_nonneg.2 h)
  refine ⟨m * 2 ^ k, ?_⟩
  rw [show f = k + e by omega, zpow_add₀ (by norm_num), zpow_natCast]
  push_cast
  ring

theorem rounded_nearest_multiple (q : Rat) (n : Int) : |q - rounded q| ≤ |q - n * 2 ^ lastBit q| := by
  have hu := two_zpow_pos (lastBit q)
  have h := halfEven_nearest (q / 2 ^ lastBit q) n
  have e : ∀ k : Int, q - k * 2 ^ lastBit q = (q / 2 ^ lastBit q - k) * 2 ^ lastBit q := by
    intro k; field_simp
  unfold rounded
  rw [e, e, abs_mul, abs_mul, abs_of_pos hu]
  exact mul_le_mul_of_nonneg_right h hu.le

theorem small_float {q y : Rat} (hq : q ≠ 0) {m f : Int} (hm : |m| < 2 ^ 53) (hf : -1074 ≤ f) (hy : y = m * 2 ^ f)
    (hlt : f < lastBit q) : |y| < 2 ^ (52 : Int) * 2 ^ lastBit q ∧ 2 ^ (52 : Int) * 2 ^ lastBit q ≤ |q| := by
  refine ⟨?_, lastBit_le hq (by omega)⟩
  have h1 : (|m| : Rat) < 2 ^ 53 := by exact_mod_cast hm
  have hfp := two_zpow_pos f
  have h2 : (2 : Rat) ^ f * 2 ≤ 2 ^ lastBit q := by
    rw [← zpow_add_one₀ (by norm_num)]
    exact zpow_le_zpow_right₀ (by norm_num) (by omega)
  rw [hy, abs_mul, abs_of_pos hfp]
  have h3 : (2 : Rat) ^ (52 : Int) = 2 ^ 52 := by norm_cast
  rw [h3]
  have h4 := mul_lt_mul_of_pos_right h1 hfp
  have h5 : (2 : Rat) ^ 53 * 2 ^ f = 2 ^ 52 * (2 ^ f * 2) := by ring
  have h6 : (2 : Rat) ^ 52 * (2 ^ f * 2) ≤ 2 ^ 52 * 2 ^ lastBit q := by
    exact mul_le_mul_of_nonneg_left h2 (by positivity)
  linarith

theorem rounded_self {x : Rat} (h0 : x ≠ 0) (h : IsFloat x) : rounded x = x := by
  obtain ⟨m, f, hm, hf, -, hx⟩ := h
  rcases le_or_gt (lastBit x) f with hle | hlt
  · obtain ⟨n, hn⟩ := multiple hle m
    have hu := two_zpow_pos (lastBit x)
    have e : x / 2 ^ lastBit x = n := by
      rw [div_eq_iff hu.ne']
      exact hx.trans hn
    unfold rounded
    rw [e, halfEven_int, ← hn, ← hx]
  · obtain ⟨a, b⟩ := small_float h0 hm hf hx hlt
    linarith

theorem rounded_nearest {q : Rat} (hq : q ≠ 0) {y : Rat} (hy : IsFloat y) : |q - rounded q| ≤ |q - y| := by
  obtain ⟨m, f, hm, hf, -, rfl⟩ := hy
  rcases le_or_gt (lastBit q) f with hle | hlt
  · obtain ⟨n, hn⟩ := multiple hle m
    rw [hn]
    exact rounded_nearest_multiple q n
  · obtain ⟨a, b⟩ := small_float hq hm hf rfl hlt
    have h3 : (2 : Rat) ^ (52 : Int) = 2 ^ 52 := by norm_cast
    rw [h3] at a b
    rcases le_or_gt 0 q with hs | hs
    · rw [abs_of_nonneg hs] at b
      refine le_trans (rounded_nearest_multiple q (2 ^ 52)) ?_
      push_cast
      rw [abs_of_nonneg (by linarith)]
      have := (abs_lt.1 a).2
      exact le_trans (by linarith) (le_abs_self _)
    · rw [abs_of_neg hs] at b
      refine le_trans (rounded_nearest_multiple q (-2 ^ 52)) ?_
      push_cast
      rw [abs_of_nonpos (by linarith)]
      have := (abs_lt.1 a).1
      exact le_trans (by linarith) (neg_le_abs _)

theorem isFloat_rounded {q : Rat} (hq : q ≠ 0) (h : |rounded q| < 2 ^ 1024) : IsFloat (rounded q) := by
  have hu := two_zpow_pos (lastBit q)
  have hb := lt_lastBit q
  have h53 : (2 : Rat) ^ (53 : Int) = 2 ^ 53 := by norm_cast
  have h52 : (2 : Rat) ^ (52 : Int) = 2 ^ 52 := by norm_cast
  rw [h53] at hb
  have hd : |q / 2 ^ lastBit q| < 2 ^ 53 := by
    rw [abs_div, abs_of_pos hu, div_lt_iff₀ hu]
    exact hb
  have hM : |halfEven (q / 2 ^ lastBit q)| ≤ 2 ^ 53 := by
    rw [abs_le]
    exact ⟨le_halfEven (by push_cast; exact (abs_lt.1 hd).1.le), halfEven_le (by push_cast; exact (abs_lt.1 hd).2.le)⟩
  have hr : |rounded q| = |(halfEven (q / 2 ^ lastBit q) : Rat)| * 2 ^ lastBit q := by
    unfold rounded
    rw [abs_mul, abs_of_pos hu]
  have h1024 : (2 : Rat) ^ 1024 = 2 ^ (1024 : Int) := (zpow_natCast 2 1024).symm
  -- the exponent is not too large
  have hbig : (2 : Rat) ^ 52 * 2 ^ lastBit q < 2 ^ (1024 : Int) ∨ lastBit q = -1074 := by
    by_cases he : -1074 < lastBit q
    · left
      have h2 := lastBit_le hq he
      rw [h52] at h2
      have h3 : (2 : Rat) ^ 52 ≤ |(halfEven (q / 2 ^ lastBit q) : Rat)| := by
        rcases le_or_gt 0 q with hs | hs
        · rw [abs_of_nonneg hs] at h2
          have : (2 ^ 52 : Int) ≤ halfEven (q / 2 ^ lastBit q) := le_halfEven (by
            push_cast
            rw [le_div_iff₀ hu]; exact h2)
          have : (2 ^ 52 : Rat) ≤ halfEven (q / 2 ^ lastBit q) := by exact_mod_cast this
          exact le_trans this (le_abs_self _)
        · rw [abs_of_neg hs] at h2
          have : halfEven (q / 2 ^ lastBit q) ≤ -2 ^ 52 := halfEven_le (by
            push_cast
            rw [div_le_iff₀ hu]; linarith)
          have : (halfEven (q / 2 ^ lastBit q) : Rat) ≤ -2 ^ 52 := by exact_mod_cast this
          exact le_trans (by linarith) (neg_le_abs _)
      rw [← h1024]
      exact lt_of_le_of_lt (by rw [hr]; exact mul_le_mul_of_nonneg_right h3 hu.le) h
    · right
      have := le_lastBit q
      omega
  have he : lastBit q ≤ 971 := by
    rcases hbig with h' | h'
    · rw [← h52, ← zpow_add₀ (by norm_num)] at h'
      have := (zpow_lt_zpow_iff_right₀ (by norm_num : (1 : Rat) < 2)).1 h'
      omega
    · omega
  rcases lt_or_eq_of_le hM with hM | hM
  · exact ⟨_, _, hM, le_lastBit q, he, rfl⟩
  · -- the next power of two
    have he' : lastBit q + 1 ≤ 971 := by
      have hM' : |(halfEven (q / 2 ^ lastBit q) : Rat)| = 2 ^ 53 := by exact_mod_cast hM
      rw [hr, hM', h1024, ← h53, ← zpow_add₀ (by norm_num)] at h
      have := (zpow_lt_zpow_iff_right₀ (by norm_num : (1 : Rat) < 2)).1 h
      omega
    have hb := le_lastBit q
    rcases (abs_eq (by positivity)).1 hM with hM | hM
    · refine ⟨2 ^ 52, lastBit q + 1, by norm_num, by omega, he', ?_⟩
      unfold rounded
      rw [hM, zpow_add_one₀ (by norm_num)]
      push_cast
      ring
    · refine ⟨-2 ^ 52, lastBit q + 1, by norm_num, by omega, he', ?_⟩
      unfold rounded
      rw [hM, zpow_add_one₀ (by norm_num)]
      push_cast
      ring

theorem isFloat_zero : IsFloat 0 := ⟨0, 0, by norm_num, by norm_num, by norm_num, by norm_num⟩

theorem isFloat_lt {x : Rat} (h : IsFloat x) : |x| < 2 ^ 1024 := by
  obtain ⟨m, e, hm, -, he, rfl⟩ := h
  have hu := two_zpow_pos e
  have h1 : |(m : Rat)| < 2 ^ 53 := by exact_mod_cast hm
  rw [abs_mul, abs_of_pos hu]
  have h2 : (2 : Rat) ^ e ≤ 2 ^ (971 : Int) := zpow_le_zpow_right₀ (by norm_num) he
  calc |(m : Rat)| * 2 ^ e < 2 ^ 53 * 2 ^ e := mul_lt_mul_of_pos_right h1 hu
    _ ≤ 2 ^ 53 * 2 ^ (971 : Int) := mul_le_mul_of_nonneg_left h2 (by positivity)
    _ = 2 ^ 1024 := by
      rw [show (2 : Rat) ^ (971 : Int) = 2 ^ 971 from zpow_natCast 2 971, ← pow_add]

/-! ## Reading a number -/

/-- **C140** (a float64 is read): what is read is a float64 number. -/
theorem toFloat_isFloat {q x : Rat} (h : toFloat q = some x) : IsFloat x := by
  unfold toFloat at h
  split at h
  · cases h; exact isFloat_zero
  · split at h
    · rename_i h0 hlt
      cases h
      exact isFloat_rounded h0 hlt
    · cases h

/-- **C140** (the nearest is read): no float64 number is nearer. -/
theorem toFloat_nearest {q x : Rat} (h : toFloat q = some x) {y : Rat} (hy : IsFloat y) : |q - x| ≤ |q - y| := by
  unfold toFloat at h
  split at h
  · rename_i h0
    cases h
    subst h0
    simp
  · split at h
    · rename_i h0 hlt
      cases h
      exact rounded_nearest h0 hy
    · cases h

/-- **C140** (ties): if another float64 number is as near, the one that is read is an even multiple of their
distance, which is a power of two. -/
theorem toFloat_tie {q x : Rat} (h : toFloat q = some x) {y : Rat} (hy : IsFloat y) (hne : y ≠ x)
    (ht : |q - x| = |q - y|) : ∃ m e : Int, x = (2 * m : Int) * 2 ^ e ∧ |y - x| = 2 ^ e := by
  unfold toFloat at h
  split at h
  · rename_i h0
    cases h
    subst h0
    rw [sub_zero, abs_zero, eq_comm, abs_eq_zero, zero_sub, neg_eq_zero] at ht
    exact absurd ht hne
  · rename_i h0
    split at h
    · cases h
      obtain ⟨m, f, hm, hf, -, hyx⟩ := hy
      have hu := two_zpow_pos (lastBit q)
      rcases le_or_gt (lastBit q) f with hle | hlt
      · obtain ⟨n, hn⟩ := multiple hle m
        rw [hn] at hyx
        subst hyx
        have e : ∀ k : Int, q - k * 2 ^ lastBit q = (q / 2 ^ lastBit q - k) * 2 ^ lastBit q := by
          intro k; field_simp
        have ht' := ht
        unfold rounded at ht'
        rw [e, e, abs_mul, abs_mul, abs_of_pos hu] at ht'
        have ht2 := mul_right_cancel₀ hu.ne' ht'
        obtain ⟨k1, k2⟩ := halfEven_tie ht2 (by
          rintro rfl
          exact hne rfl)
        refine ⟨halfEven (q / 2 ^ lastBit q) / 2, lastBit q, ?_, ?_⟩
        · unfold rounded
          rw [show 2 * (halfEven (q / 2 ^ lastBit q) / 2) = halfEven (q / 2 ^ lastBit q) by omega]
        · unfold rounded
          rw [← sub_mul, abs_mul, abs_of_pos hu]
          have : |(n : Rat) - halfEven (q / 2 ^ lastBit q)| = 1 := by exact_mod_cast k2
          rw [this, one_mul]
      · exfalso
        obtain ⟨a, b⟩ := small_float h0 hm hf hyx hlt
        have h3 : (2 : Rat) ^ (52 : Int) = 2 ^ 52 := by norm_cast
        rw [h3] at a b
        rcases le_or_gt 0 q with hs | hs
        · rw [abs_of_nonneg hs] at b
          have c := rounded_nearest_multiple q (2 ^ 52)
          push_cast at c
          rw [abs_of_nonneg (a := q - 4503599627370496 * 2 ^ lastBit q) (by linarith)] at c
          have := (abs_lt.1 a).2
          have d := le_abs_self (q - y)
          linarith
        · rw [abs_of_neg hs] at b
          have c := rounded_nearest_multiple q (-2 ^ 52)
          push_cast at c
          rw [abs_of_nonpos (a := q - -4503599627370496 * 2 ^ lastBit q) (by linarith)] at c
          have := (abs_lt.1 a).1
          have d := neg_le_abs (q - y)
          linarith
    · cases h

/-- **C140** (a float64 number is read as it is). -/
theorem toFloat_self {x : Rat} (h : IsFloat x) : toFloat x = some x := by
  unfold toFloat
  by_cases h0 : x = 0
  · rw [if_pos h0, h0]
  · rw [if_neg h0, rounded_self h0 h, if_pos (isFloat_lt h)]

/-- **C140** (order): reading never turns an order around (it may make different numbers equal). -/
theorem toFloat_mono {a b x y : Rat} (ha : toFloat a = some x) (hb : toFloat b = some y) (h : a ≤ b) : x ≤ y := by
  rcases eq_or_lt_of_le h with rfl | h
  · rw [ha] at hb; cases hb; exact le_refl _
  by_contra hc
  have hc := not_le.1 hc
  have h1 := toFloat_nearest ha (toFloat_isFloat hb)
  have h2 := toFloat_nearest hb (toFloat_isFloat ha)
  rcases le_or_gt a y with g | g
  · rw [abs_of_nonpos (by linarith), abs_of_nonpos (by linarith)] at h1
    linarith
  · rcases le_or_gt x b with g' | g'
    · rw [abs_of_nonneg (a := b - y) (by linarith), abs_of_nonneg (a := b - x) (by linarith)] at h2
      linarith
    · rw [abs_of_nonpos (a := a - x) (by linarith), abs_of_nonneg (a := a - y) (by linarith)] at h1
      rw [abs_of_nonneg (a := b - y) (by linarith), abs_of_nonpos (a := b - x) (by linarith)] at h2
      linarith

end VC.Num
