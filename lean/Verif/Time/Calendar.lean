/-!
# The calendar behind dates (C121)

Go's `time` package, which `util/time/time.go` calls, counts days and converts them to dates with
fixed arithmetic (`absDate` and `daysSinceEpoch` of time/time.go in Go's library, not part of the
repository).  Modelled here with unbounded integers; days are counted from 1 January of year 1.
-/

namespace VC.Tm

/-- `isLeap`, Go library. -/
def isLeap (y : Int) : Bool := y % 4 == 0 && (y % 100 != 0 || y % 400 == 0)

/-- `daysBefore`, Go library: days of a common year before month `m` (1 to 13). -/
def daysBefore : Int → Int
  | 1 => 0 | 2 => 31 | 3 => 59 | 4 => 90 | 5 => 120 | 6 => 151 | 7 => 181 | 8 => 212 | 9 => 243
  | 10 => 273 | 11 => 304 | 12 => 334 | _ => 365

/-- `daysIn`, Go library. -/
def daysIn (m y : Int) : Int :=
  if m = 2 && isLeap y then 29 else daysBefore (m + 1) - daysBefore m

/-- Days before 1 January of a year, `daysSinceEpoch`, Go library. -/
def yearStart (year : Int) : Int :=
  let y := year - 1
  let n4 := y / 400
  let y1 := y - 400 * n4
  let n1 := y1 / 100
  let y2 := y1 - 100 * n1
  let n0 := y2 / 4
  let y3 := y2 - 4 * n0
  146097 * n4 + 36524 * n1 + 1461 * n0 + 365 * y3

/-- The number of a day, `Date`, Go library. -/
def dayNo (y m d : Int) : Int :=
  yearStart y + daysBefore m + (if isLeap y && m ≥ 3 then 1 else 0) + (d - 1)

/-- The month and day of a day of a common year (counted from 0), `absDate`, Go library. -/
def monthDay (yday : Int) : Int × Int :=
  let m := yday / 31
  if yday ≥ daysBefore (m + 2) then (m + 2, yday - daysBefore (m + 2) + 1)
  else (m + 1, yday - daysBefore (m + 1) + 1)

/-- Year and day of the year (counted from 0), `absDate`, Go library. -/
def yearDay (z : Int) : Int × Int :=
  let n4 := z / 146097
  let d4 := z - 146097 * n4
  let a := d4 / 36524
  let n1 := a - a / 4
  let d1 := d4 - 36524 * n1
  let n0 := d1 / 1461
  let d0 := d1 - 1461 * n0
  let b := d0 / 365
  let n := b - b / 4
  (1 + 400 * n4 + 100 * n1 + 4 * n0 + n, d0 - 365 * n)

/-- The date of a day, `absDate`, Go library. -/
def civil (z : Int) : Int × Int × Int :=
  let y := (yearDay z).1
  let yd := (yearDay z).2
  if isLeap y then
    if yd > 59 then (y, monthDay (yd - 1))
    else if yd = 59 then (y, 2, 29)
    else (y, monthDay yd)
  else (y, monthDay yd)

/-! ## Specification: the calendar by counting -/

/-- The Gregorian rule. -/
def Leap (y : Int) : Prop := (4 ∣ y ∧ ¬ 100 ∣ y) ∨ 400 ∣ y

/-- Lengths of the months. -/
inductive Length (y : Int) : Int → Int → Prop
  | long {m : Int} : m ∈ [1, 3, 5, 7, 8, 10, 12] → Length y m 31
  | short {m : Int} : m ∈ [4, 6, 9, 11] → Length y m 30
  | february : ¬ Leap y → Length y 2 28
  | leapFebruary : Leap y → Length y 2 29

/-- A date of the calendar. -/
def Valid (y m d : Int) : Prop := ∃ n, Length y m n ∧ 1 ≤ d ∧ d ≤ n

/-- The day after. -/
inductive Next : Int × Int × Int → Int × Int × Int → Prop
  | day {y m d n : Int} : Length y m n → d < n → Next (y, m, d) (y, m, d + 1)
  | month {y m n : Int} : Length y m n → m < 12 → Next (y, m, n) (y, m + 1, 1)
  | year {y : Int} : Next (y, 12, 31) (y + 1, 1, 1)

/-! ## Proofs -/

theorem leap_iff (y : Int) : isLeap y = true ↔ Leap y := by
  unfold isLeap Leap
  simp only [Bool.and_eq_true, Bool.or_eq_true, beq_iff_eq, bne_iff_ne]
  omega

theorem length_daysIn {y m n : Int} : Length y m n ↔ (1 ≤ m ∧ m ≤ 12) ∧ n = daysIn m y := by
  constructor
  · intro h
    cases h with
    | long h =>
      simp only [List.mem_cons, List.not_mem_nil, or_false] at h
      rcases h with rfl | rfl | rfl | rfl | rfl | rfl | rfl <;> exact ⟨by decide, rfl⟩
    | short h =>
      simp only [List.mem_cons, List.not_mem_nil, or_false] at h
      rcases h with rfl | rfl | rfl | rfl <;> exact ⟨by decide, rfl⟩
    | february h =>
      have : isLeap y = false := by
        cases hl : isLeap y with
        | false => rfl
        | true => exact absurd ((leap_iff y).1 hl) h
      exact ⟨by decide, by simp [daysIn, this, daysBefore]⟩
    | leapFebruary h => exact ⟨by decide, by simp [daysIn, (leap_iff y).2 h]⟩
  · rintro ⟨⟨h1, h2⟩, rfl⟩
    have : m = 1 ∨ m = 2 ∨ m = 3 ∨ m = 4 ∨ m = 5 ∨ m = 6 ∨ m = 7 ∨ m = 8 ∨ m = 9 ∨ m = 10 ∨ m = 11 ∨
        m = 12 := by omega
    rcases this with rfl | rfl | rfl | rfl | rfl | rfl | rfl | rfl | rfl | rfl | rfl | rfl
    · exact .long (by simp)
    · cases hl : isLeap y with
      | false =>
        have e : daysIn 2 y = 28 := by simp [daysIn, hl, daysBefore]
        rw [e]; exact .february (fun h => by rw [(leap_iff y).2 h] at hl; cases hl)
      | true =>
        have e : daysIn 2 y = 29 := by simp [daysIn, hl]
        rw [e]; exact .leapFebruary ((leap_iff y).1 hl)
    · exact .long (by simp)
    · exact .short (by simp)
    · exact .long (by simp)
    · exact .short (by simp)
    · exact .long (by simp)
    · exact .long (by simp)
    · exact .short (by simp)
    · exact .long (by simp)
    · exact .short (by simp)
    · exact .long (by simp)

theorem valid_iff (y m d : Int) : Valid y m d ↔ 1 ≤ m ∧ m ≤ 12 ∧ 1 ≤ d ∧ d ≤ daysIn m y := by
  constructor
  · rintro ⟨n, h, h1, h2⟩
    obtain ⟨⟨a, b⟩, rfl⟩ := length_daysIn.1 h
    exact ⟨a, b, h1, h2⟩
  · rintro ⟨a, b, h1, h2⟩
    exact ⟨_, length_daysIn.2 ⟨⟨a, b⟩, rfl⟩, h1, h2⟩

theorem yearStart_eq (y : Int) :
    yearStart y = 365 * (y - 1) + (y - 1) / 4 - (y - 1) / 100 + (y - 1) / 400 := by
  unfold yearStart
  dsimp only
  omega

theorem yearStart_succ (y : Int) :
    yearStart (y + 1) = yearStart y + (if isLeap y then 366 else 365) := by
  rw [yearStart_eq, yearStart_eq]
  unfold isLeap
  by_cases h : y % 4 = 0 <;> by_cases h1 : y % 100 = 0 <;> by_cases h2 : y % 400 = 0 <;>
    simp [h, h1, h2] <;> omega

theorem yearStart_parts (n4 n1 n0 n : Int) (h1 : 0 ≤ n1) (h1' : n1 ≤ 3) (h0 : 0 ≤ n0)
    (h0' : n0 ≤ 24) (hn : 0 ≤ n) (hn' : n ≤ 3) :
    yearStart (1 + 400 * n4 + 100 * n1 + 4 * n0 + n) = 146097 * n4 + 36524 * n1 + 1461 * n0 + 365 * n := by
  rw [yearStart_eq]
  omega

theorem leap_parts (n4 n1 n0 n : Int) (h1 : 0 ≤ n1) (h1' : n1 ≤ 3) (h0 : 0 ≤ n0)
    (h0' : n0 ≤ 24) (hn : 0 ≤ n) (hn' : n ≤ 3) :
    isLeap (1 + 400 * n4 + 100 * n1 + 4 * n0 + n) = true ↔ n = 3 ∧ (n0 = 24 → n1 = 3) := by
  unfold isLeap
  simp only [Bool.and_eq_true, Bool.or_eq_true, beq_iff_eq, bne_iff_ne]
  omega

/-- Year and day of the year are right. -/
theorem yearDay_spec (z : Int) :
    z = yearStart (yearDay z).1 + (yearDay z).2 ∧ 0 ≤ (yearDay z).2 ∧
      (yearDay z).2 < (if isLeap (yearDay z).1 then 366 else 365) := by
  have key : ∀ n4 a n1 n0 b n : Int, z / 146097 = n4 → (z - 146097 * n4) / 36524 = a →
      a - a / 4 = n1 → (z - 146097 * n4 - 36524 * n1) / 1461 = n0 →
      (z - 146097 * n4 - 36524 * n1 - 1461 * n0) / 365 = b → b - b / 4 = n →
      z = yearStart (1 + 400 * n4 + 100 * n1 + 4 * n0 + n) +
          (z - 146097 * n4 - 36524 * n1 - 1461 * n0 - 365 * n) ∧
        0 ≤ z - 146097 * n4 - 36524 * n1 - 1461 * n0 - 365 * n ∧
        z - 146097 * n4 - 36524 * n1 - 1461 * n0 - 365 * n <
          (if isLeap (1 + 400 * n4 + 100 * n1 + 4 * n0 + n) then 366 else 365) := by
    intro n4 a n1 n0 b n e4 ea e1 e0 eb en
    have ha : 0 ≤ a ∧ a ≤ 4 := by omega
    have h1 : 0 ≤ n1 ∧ n1 ≤ 3 := by omega
    have hd1 : 0 ≤ z - 146097 * n4 - 36524 * n1 ∧ z - 146097 * n4 - 36524 * n1 ≤ 36524 ∧
        (z - 146097 * n4 - 36524 * n1 = 36524 → n1 = 3) := by omega
    have h0 : 0 ≤ n0 ∧ n0 ≤ 24 := by omega
    have hd0 : 0 ≤ z - 146097 * n4 - 36524 * n1 - 1461 * n0 ∧
        z - 146097 * n4 - 36524 * n1 - 1461 * n0 ≤ 1460 := by omega
    have hb : 0 ≤ b ∧ b ≤ 4 := by omega
    have hn : 0 ≤ n ∧ n ≤ 3 := by omega
    rw [yearStart_parts n4 n1 n0 n h1.1 h1.2 h0.1 h0.2 hn.1 hn.2]
    refine ⟨by omega, by omega, ?_⟩
    split
    · omega
    · rename_i hl
      rw [leap_parts n4 n1 n0 n h1.1 h1.2 h0.1 h0.2 hn.1 hn.2] at hl
      omega
  exact key _ _ _ _ _ _ rfl rfl rfl rfl rfl rfl

theorem monthDay_spec (d : Int) (h : 0 ≤ d) (h' : d < 365) :
    1 ≤ (monthDay d).1 ∧ (monthDay d).1 ≤ 12 ∧ 1 ≤ (monthDay d).2 ∧
      (monthDay d).2 ≤ daysBefore ((monthDay d).1 + 1) - daysBefore (monthDay d).1 ∧
      d = daysBefore (monthDay d).1 + (monthDay d).2 - 1 := by
  unfold monthDay
  dsimp only
  have : d / 31 = 0 ∨ d / 31 = 1 ∨ d / 31 = 2 ∨ d / 31 = 3 ∨ d / 31 = 4 ∨ d / 31 = 5 ∨ d / 31 = 6 ∨
      d / 31 = 7 ∨ d / 31 = 8 ∨ d / 31 = 9 ∨ d / 31 = 10 ∨ d / 31 = 11 := by omega
  rcases this with e | e | e | e | e | e | e | e | e | e | e | e <;> rw [e] <;>
    simp only [daysBefore, Int.reduceAdd] <;> split <;> simp only [daysBefore, Int.reduceAdd] <;> omega

theorem daysBefore_mono {m m' : Int} (h1 : 1 ≤ m) (h : m < m') (h2 : m' ≤ 13) :
    daysBefore (m + 1) ≤ daysBefore m' := by
  have a : m = 1 ∨ m = 2 ∨ m = 3 ∨ m = 4 ∨ m = 5 ∨ m = 6 ∨ m = 7 ∨ m = 8 ∨ m = 9 ∨ m = 10 ∨ m = 11 ∨
      m = 12 := by omega
  have b : m' = 2 ∨ m' = 3 ∨ m' = 4 ∨ m' = 5 ∨ m' = 6 ∨ m' = 7 ∨ m' = 8 ∨ m' = 9 ∨ m' = 10 ∨ m' = 11 ∨
      m' = 12 ∨ m' = 13 := by omega
  rcases a with rfl | rfl | rfl | rfl | rfl | rfl | rfl | rfl | rfl | rfl | rfl | rfl <;>
  rcases b with rfl | rfl | rfl | rfl | rfl | rfl | rfl | rfl | rfl | rfl | rfl | rfl <;>
    first | decide | omega

/-- The date of a day is a date of the calendar and has that day's number. -/
theorem civil_spec (z : Int) :
    Valid (civil z).1 (civil z).2.1 (civil z).2.2 ∧
      dayNo (civil z).1 (civil z).2.1 (civil z).2.2 = z := by
  obtain ⟨hz, h0, hlt⟩ := yearDay_spec z
  unfold civil
  dsimp only
  generalize (yearDay z).1 = y at *
  generalize (yearDay z).2 = yd at *
  rw [valid_iff]
  unfold dayNo
  cases hl : isLeap y with
  | false =>
    rw [hl] at hlt
    obtain ⟨a, b, c, d, e⟩ := monthDay_spec yd h0 (by simpa using hlt)
    simp only [Bool.false_eq_true, if_false, Bool.false_and]
    refine ⟨⟨a, b, c, ?_⟩, by simp only [hl, Bool.false_and, Bool.false_eq_true, if_false]; omega⟩
    unfold daysIn
    simp only [hl, Bool.and_false, Bool.false_eq_true, if_false]
    exact d
  | true =>
    rw [hl] at hlt
    simp only [if_true] at hlt
    simp only [if_true, Bool.true_and]
    by_cases h59 : yd > 59
    · simp only [h59, if_true]
      obtain ⟨a, b, c, d, e⟩ := monthDay_spec (yd - 1) (by omega) (by omega)
      have hm : (monthDay (yd - 1)).1 ≥ 3 := by
        by_cases hm : (monthDay (yd - 1)).1 ≥ 3
        · exact hm
        · exfalso
          have := daysBefore_mono (m' := 3) a (by omega) (by omega)
          rw [show daysBefore 3 = 59 from rfl] at this
          omega
      refine ⟨⟨a, b, c, ?_⟩, ?_⟩
      · unfold daysIn
        have : (monthDay (yd - 1)).1 ≠ 2 := by omega
        simp only [this, decide_false, Bool.false_and, Bool.false_eq_true, if_false]
        exact d
      · simp only [hl, hm, decide_true, Bool.and_self, if_true]; omega
    · by_cases h' : yd = 59
      · rw [if_neg h59, if_pos h']
        refine ⟨⟨by dsimp only; omega, by dsimp only; omega, by dsimp only; omega, ?_⟩, ?_⟩
        · simp [daysIn, hl]
        · dsimp only
          rw [show daysBefore 2 = 31 from rfl, hl]
          simp only [show ¬ (2 : Int) ≥ 3 from by omega, decide_false, Bool.and_false, Bool.false_eq_true,
            if_false]
          omega
      · simp only [h59, h', if_false]
        obtain ⟨a, b, c, d, e⟩ := monthDay_spec yd (by omega) (by omega)
        have hm : ¬ (monthDay yd).1 ≥ 3 := by
          intro hm
          have := daysBefore_mono (m := 2) (m' := (monthDay yd).1 ) (by decide) (by omega) (by omega)
          rw [show daysBefore (2 + 1) = 59 from rfl] at this
          omega
        refine ⟨⟨a, b, c, ?_⟩, ?_⟩
        · unfold daysIn
          by_cases h2 : (monthDay yd).1 = 2
          · rw [h2] at d; simp only [daysBefore, Int.reduceAdd] at d
            simp only [h2, hl, decide_true, Bool.and_self, if_true]; omega
          · simp only [h2, decide_false, Bool.false_and, Bool.false_eq_true, if_false]; exact d
        · simp only [hl, hm, decide_false, Bool.and_false, Bool.false_eq_true, if_false]; omega

theorem dayNo_bounds {y m d : Int} (h : Valid y m d) :
    yearStart y ≤ dayNo y m d ∧ dayNo y m d < yearStart (y + 1) := by
  rw [valid_iff] at h
  obtain ⟨h1, h2, h3, h4⟩ := h
  rw [yearStart_succ]
  unfold dayNo daysIn at *
  have : m = 1 ∨ m = 2 ∨ m = 3 ∨ m = 4 ∨ m = 5 ∨ m = 6 ∨ m = 7 ∨ m = 8 ∨ m = 9 ∨ m = 10 ∨ m = 11 ∨
      m = 12 := by omega
  cases isLeap y <;>
  rcases this with rfl | rfl | rfl | rfl | rfl | rfl | rfl | rfl | rfl | rfl | rfl | rfl <;>
    simp [daysBefore] at h4 ⊢ <;> omega

theorem yearStart_mono {y y' : Int} (h : y ≤ y') : yearStart y ≤ yearStart y' := by
  rw [yearStart_eq, yearStart_eq]; omega

/-- Different dates have different numbers. -/
theorem dayNo_inj {y m d y' m' d' : Int} (h : Valid y m d) (h' : Valid y' m' d')
    (e : dayNo y m d = dayNo y' m' d') : y = y' ∧ m = m' ∧ d = d' := by
  have b := dayNo_bounds h
  have b' := dayNo_bounds h'
  have hy : y = y' := by
    rcases Int.lt_trichotomy y y' with hlt | heq | hgt
    · have := yearStart_mono (y := y + 1) (y' := y') (by omega); omega
    · exact heq
    · have := yearStart_mono (y := y' + 1) (y' := y) (by omega); omega
  subst hy
  rw [valid_iff] at h h'
  obtain ⟨h1, h2, h3, h4⟩ := h
  obtain ⟨h1', h2', h3', h4'⟩ := h'
  have key : ∀ m d : Int, 1 ≤ m → m ≤ 12 → 1 ≤ d → d ≤ daysIn m y → ∀ m' d' : Int, m' ≤ 12 → 1 ≤ d' →
      m < m' → daysBefore m + (if isLeap y && m ≥ 3 then 1 else 0) + (d - 1) <
        daysBefore m' + (if isLeap y && m' ≥ 3 then 1 else 0) + (d' - 1) := by
    intro m d h1 h2 h3 h4 m' d' h2' h3' hlt
    have hb := daysBefore_mono h1 hlt (by omega)
    unfold daysIn at h4
    cases hl : isLeap y with
    | false => simp only [hl, Bool.and_false, Bool.false_eq_true, if_false, Bool.false_and] at *; omega
    | true =>
      simp only [hl, Bool.and_true, Bool.true_and] at *
      by_cases hm2 : m = 2
      · subst hm2
        simp only [daysBefore, Int.reduceAdd] at *
        have : m' ≥ 3 := by omega
        simp [this] at *
        omega
      · simp only [hm2, decide_false, Bool.false_eq_true, if_false] at h4
        by_cases hm3 : m ≥ 3
        · have : m' ≥ 3 := by omega
          simp only [hm3, this, decide_true, if_true]; omega
        · simp only [hm3, decide_false, Bool.false_eq_true, if_false]
          split <;> omega
  have hm : m = m' := by
    rcases Int.lt_trichotomy m m' with hlt | heq | hgt
    · have := key m d h1 h2 h3 h4 m' d' h2' h3' hlt; unfold dayNo at e; omega
    · exact heq
    · have := key m' d' h1' h2' h3' h4' m d h2 h3 hgt; unfold dayNo at e; omega
  subst hm
  refine ⟨rfl, rfl, ?_⟩
  unfold dayNo at e; omega

/-- The date of the day with a date's number is that date. -/
theorem civil_dayNo {y m d : Int} (h : Valid y m d) : civil (dayNo y m d) = (y, m, d) := by
  obtain ⟨hv, he⟩ := civil_spec (dayNo y m d)
  obtain ⟨a, b, c⟩ := dayNo_inj hv h he
  generalize civil (dayNo y m d) = x at *
  obtain ⟨x1, x2, x3⟩ := x
  dsimp only at a b c
  rw [a, b, c]

/-- The next date has the next number. -/
theorem dayNo_next {x x' : Int × Int × Int} (hx : Valid x.1 x.2.1 x.2.2) (h : Next x x') :
    dayNo x'.1 x'.2.1 x'.2.2 = dayNo x.1 x.2.1 x.2.2 + 1 ∧ Valid x'.1 x'.2.1 x'.2.2 := by
  cases h with
  | @day y m d n hl hd =>
    obtain ⟨n', hl', h1, h2⟩ := hx
    exact ⟨by dsimp only [dayNo]; omega, ⟨n, hl, by dsimp only at *; omega, by dsimp only at *; omega⟩⟩
  | @month y m n hl hm =>
    obtain ⟨⟨h1, h2⟩, rfl⟩ := length_daysIn.1 hl
    constructor
    · dsimp only [dayNo]
      unfold daysIn
      have : m = 1 ∨ m = 2 ∨ m = 3 ∨ m = 4 ∨ m = 5 ∨ m = 6 ∨ m = 7 ∨ m = 8 ∨ m = 9 ∨ m = 10 ∨ m = 11 := by
        omega
      cases isLeap y <;>
      rcases this with rfl | rfl | rfl | rfl | rfl | rfl | rfl | rfl | rfl | rfl | rfl <;>
        simp [daysBefore] <;> omega
    · rw [valid_iff]
      refine ⟨by dsimp only; omega, by dsimp only; omega, by dsimp only; omega, ?_⟩
      dsimp only
      unfold daysIn
      have : m = 1 ∨ m = 2 ∨ m = 3 ∨ m = 4 ∨ m = 5 ∨ m = 6 ∨ m = 7 ∨ m = 8 ∨ m = 9 ∨ m = 10 ∨ m = 11 := by
        omega
      cases isLeap y <;>
      rcases this with rfl | rfl | rfl | rfl | rfl | rfl | rfl | rfl | rfl | rfl | rfl <;>
        simp [daysBefore]
  | @year y =>
    constructor
    · dsimp only [dayNo]
      rw [yearStart_succ]
      cases isLeap y <;> simp [daysBefore] <;> omega
    · exact ⟨31, .long (by simp), by dsimp only; omega, by dsimp only; omega⟩

/-- **C121, calendar.** Day after day the dates go through the calendar, and 1 January 1970 is day
719162. -/
theorem civil_next (z : Int) : Next (civil z) (civil (z + 1)) ∧ civil 719162 = (1970, 1, 1) := by
  refine ⟨?_, by decide⟩
  obtain ⟨hv, he⟩ := civil_spec z
  generalize hx : civil z = x at *
  have ex : ∃ x', Next x x' := by
    obtain ⟨y, m, d⟩ := x
    obtain ⟨n, hl, h1, h2⟩ := hv
    dsimp only at *
    by_cases hd : d < n
    · exact ⟨_, .day hl hd⟩
    · have : d = n := by omega
      subst this
      by_cases hm : m < 12
      · exact ⟨_, .month hl hm⟩
      · obtain ⟨⟨a, b⟩, e⟩ := length_daysIn.1 hl
        have : m = 12 := by omega
        subst this
        have : d = 31 := by rw [e]; rfl
        subst this
        exact ⟨_, .year⟩
  obtain ⟨x', hn⟩ := ex
  obtain ⟨hd, hv'⟩ := dayNo_next hv hn
  have := civil_dayNo hv'
  rw [hd, he] at this
  rw [this]
  exact hn

example : Next (2024, 2, 28) (2024, 2, 29) ∧ Next (2023, 2, 28) (2023, 3, 1) ∧
    Next (1900, 2, 28) (1900, 3, 1) :=
  ⟨.day (.leapFebruary (by unfold Leap; omega)) (by decide),
   .month (.february (by unfold Leap; omega)) (by decide),
   .month (.february (by unfold Leap; omega)) (by decide)⟩

example : civil 738944 = (2024, 2, 29) := by decide

end VC.Tm
