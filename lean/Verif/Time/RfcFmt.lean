import Verif.Time.RfcProps
/-!
# C121: printed times are read back
-/

namespace VC.Tm

theorem digit_spec : ∀ n, n < 10 → (digit n).isDigit = true ∧ val (digit n) = n := by decide

theorem pad2_num {n : Nat} (h : n < 100) : Num 2 n (pad2 n) := by
  obtain ⟨a1, a2⟩ := digit_spec (n / 10) (by omega)
  obtain ⟨b1, b2⟩ := digit_spec (n % 10) (by omega)
  have := num2_mk a1 b1
  rw [a2, b2] at this
  have e : 10 * (n / 10) + n % 10 = n := by omega
  rw [e] at this
  exact this

theorem num_append {i j a b : Nat} {l l' : List Char} (h : Num i a l) (h' : Num j b l') :
    Num (i + j) (a * 10 ^ j + b) (l ++ l') := by
  obtain ⟨h1, h2, h3⟩ := h
  obtain ⟨g1, g2, g3⟩ := h'
  refine ⟨by simp [h1, g1], ?_, by rw [base10_append, h3, g3, g1]⟩
  intro c hc
  rcases List.mem_append.1 hc with hc | hc
  · exact h2 c hc
  · exact g2 c hc

theorem pad4_small {n : Nat} (h : n < 10000) : Num 4 n (pad4 n) := by
  unfold pad4
  rw [dif_pos h]
  have := num_append (pad2_num (n := n / 100) (by omega)) (pad2_num (n := n % 100) (by omega))
  have e : n / 100 * 10 ^ 2 + n % 100 = n := by omega
  rw [e] at this
  exact this

/-- Five or more digits are printed for years after 9999. -/
theorem pad4_big (n : Nat) (h : 10000 ≤ n) : ∃ a b c d e r, pad4 n = a :: b :: c :: d :: e :: r ∧
    e.isDigit = true := by
  induction n using Nat.strongRecOn with
  | ind n ih =>
    unfold pad4
    rw [dif_neg (by omega)]
    by_cases h' : n / 10 < 10000
    · unfold pad4
      rw [dif_pos h']
      exact ⟨_, _, _, _, _, _, rfl, (digit_spec (n % 10) (by omega)).1⟩
    · obtain ⟨a, b, c, d, e, r, he, hd⟩ := ih (n / 10) (by omega) (by omega)
      rw [he]
      exact ⟨a, b, c, d, e, _, rfl, hd⟩

theorem nine_num {n : Nat} (h : n < 1000000000) : Num 9 n (nine n) := by
  have a := pad2_num (n := n / 10000000) (by omega)
  have b := pad2_num (n := n / 100000 % 100) (by omega)
  have c := pad2_num (n := n / 1000 % 100) (by omega)
  have d := pad2_num (n := n / 10 % 100) (by omega)
  obtain ⟨e1, e2⟩ := digit_spec (n % 10) (by omega)
  have e := num1_mk e1
  rw [e2] at e
  have := num_append (num_append (num_append (num_append a b) c) d) e
  have eq : (((n / 10000000 * 10 ^ 2 + n / 100000 % 100) * 10 ^ 2 + n / 1000 % 100) * 10 ^ 2 +
      n / 10 % 100) * 10 ^ 1 + n % 10 = n := by omega
  rw [eq] at this
  exact this

theorem trim_split (l : List Char) :
    ∃ k, l = (l.reverse.dropWhile (· == '0')).reverse ++ List.replicate k '0' := by
  have h := List.takeWhile_append_dropWhile (p := (· == '0')) (l := l.reverse)
  have hz : l.reverse.takeWhile (· == '0') =
      List.replicate (l.reverse.takeWhile (· == '0')).length '0' := by
    rw [List.eq_replicate_iff]
    refine ⟨rfl, fun c hc => ?_⟩
    have := List.all_eq_true.mp (List.all_takeWhile (p := (· == '0')) (l := l.reverse)) c hc
    simpa using this
  refine ⟨(l.reverse.takeWhile (· == '0')).length, ?_⟩
  have := congrArg List.reverse h
  rw [List.reverse_append, List.reverse_reverse] at this
  rw [hz, List.reverse_replicate] at this
  exact this.symm

theorem base10_zeros (k : Nat) : base10 (List.replicate k '0') = 0 := by
  induction k with
  | zero => rfl
  | succ k ih => rw [List.replicate_succ, base10, ih]; simp

theorem fracText_of {n : Nat} (h : n < 1000000000) : FracOf (fracText n) n := by
  unfold fracText
  split
  · rename_i e; subst e; exact .none
  · rename_i hn
    obtain ⟨hl, hd, hb⟩ := nine_num h
    obtain ⟨k, hk⟩ := trim_split (nine n)
    generalize ht : ((nine n).reverse.dropWhile (· == '0')).reverse = t at hk
    rw [hk] at hl hd hb
    rw [base10_append, base10_zeros, List.length_replicate, Nat.add_zero] at hb
    simp only [List.length_append, List.length_replicate] at hl
    have hdt : ∀ c ∈ t, '0' ≤ c ∧ c ≤ '9' := fun c hc => hd c (List.mem_append.2 (Or.inl hc))
    refine .some (Or.inl rfl) ?_ ⟨rfl, hdt, rfl⟩ ?_
    · rintro rfl
      rw [base10, Nat.zero_mul] at hb
      exact hn hb.symm
    · have e : (1000000000 : Nat) = 10 ^ k * 10 ^ t.length := by
        rw [← Nat.pow_add]
        have : k + t.length = 9 := by omega
        rw [this]
      rw [e, ← Nat.mul_assoc, Nat.mul_div_cancel _ (Nat.pow_pos (by decide)), hb]

theorem zoneText_of {off : Int} (h : 60 ∣ off) (h' : off.natAbs < 90000) : ZoneOf (zoneText off) off := by
  unfold zoneText
  split
  · rename_i e; subst e; exact .utc
  · have a := pad2_num (n := off.natAbs / 60 / 60) (by omega)
    have b := pad2_num (n := off.natAbs / 60 % 60) (by omega)
    split
    · rename_i hneg
      have := ZoneOf.west a b (by omega) (by omega)
      have e : -(((off.natAbs / 60 / 60 : Nat) : Int) * 3600 + ((off.natAbs / 60 % 60 : Nat) : Int) * 60) = off := by
        omega
      rw [e] at this
      exact this
    · rename_i hneg
      have := ZoneOf.east a b (by omega) (by omega)
      have e : ((off.natAbs / 60 / 60 : Nat) : Int) * 3600 + ((off.natAbs / 60 % 60 : Nat) : Int) * 60 = off := by
        omega
      rw [e] at this
      exact this

/-- The year of local seconds. -/
def yearOf (loc : Int) : Int := (civil (loc / 86400 + 719162)).1

/-- The years 0 to 9999 in seconds. -/
theorem yearOf_range (loc : Int) :
    (0 ≤ yearOf loc ∧ yearOf loc ≤ 9999) ↔ -62167219200 ≤ loc ∧ loc ≤ 253402300799 := by
  unfold yearOf
  obtain ⟨hv, he⟩ := civil_spec (loc / 86400 + 719162)
  have hb := dayNo_bounds hv
  generalize hy : (civil (loc / 86400 + 719162)).1 = y at *
  rw [he] at hb
  have y0 : yearStart 0 = -366 := by decide
  have y1 : yearStart 10000 = 3652059 := by decide
  constructor
  · rintro ⟨h1, h2⟩
    have a := yearStart_mono h1
    have b := yearStart_mono (y := y + 1) (y' := 10000) (by omega)
    omega
  · rintro ⟨h1, h2⟩
    constructor
    · have : ¬ y < 0 := fun hlt => by
        have := yearStart_mono (y := y + 1) (y' := 0) (by omega)
        omega
      omega
    · have : ¬ y > 9999 := fun hgt => by
        have := yearStart_mono (y := 10000) (y' := y) (by omega)
        omega
      omega

/-- **C121, printing.** A time whose local year is between 0 and 9999 and whose offset is made of
minutes and less than 25 hours is printed (with nanoseconds) as a text that is read as that time. -/
theorem fmtNano_parse (t : Time) (hn : t.nsec < 1000000000) (ho : 60 ∣ t.off) (ho' : t.off.natAbs < 90000)
    (h1 : -62167219200 ≤ t.sec + t.off) (h2 : t.sec + t.off ≤ 253402300799) :
    parse (fmtNano t) = some t := by
  rw [parse_iff]
  unfold fmtNano clockText
  rw [String.toList_ofList]
  have hy := (yearOf_range (t.sec + t.off)).2 ⟨h1, h2⟩
  unfold yearOf at hy
  generalize hloc : t.sec + t.off = loc at *
  obtain ⟨hv, he⟩ := civil_spec (loc / 86400 + 719162)
  generalize civil (loc / 86400 + 719162) = c at *
  obtain ⟨y, m, d⟩ := c
  dsimp only at *
  have hv' := (valid_iff _ _ _).1 hv
  have hd31 : daysIn m y ≤ 31 := by
    unfold daysIn
    have : m = 1 ∨ m = 2 ∨ m = 3 ∨ m = 4 ∨ m = 5 ∨ m = 6 ∨ m = 7 ∨ m = 8 ∨ m = 9 ∨ m = 10 ∨ m = 11 ∨
      m = 12 := by omega
    cases isLeap y <;>
    rcases this with rfl | rfl | rfl | rfl | rfl | rfl | rfl | rfl | rfl | rfl | rfl | rfl <;>
      simp [daysBefore]
  have hpy : padYear y = pad4 y.toNat := by unfold padYear; rw [if_neg (by omega)]
  rw [hpy]
  have W := Written.mk (pad4_small (n := y.toNat) (by omega)) (pad2_num (n := m.toNat) (by omega))
    (pad2_num (n := d.toNat) (by omega))
    (Or.inl (pad2_num (n := (loc % 86400).toNat / 3600) (by omega)))
    (pad2_num (n := (loc % 86400).toNat / 60 % 60) (by omega))
    (pad2_num (n := (loc % 86400).toNat % 60) (by omega))
    (fracText_of hn) (zoneText_of ho ho')
    (by
      have e1 : ((y.toNat : Nat) : Int) = y := by omega
      have e2 : ((m.toNat : Nat) : Int) = m := by omega
      have e3 : ((d.toNat : Nat) : Int) = d := by omega
      rw [e1, e2, e3]; exact hv)
    (by omega) (by omega) (by omega)
  have e1 : ((y.toNat : Nat) : Int) = y := by omega
  have e2 : ((m.toNat : Nat) : Int) = m := by omega
  have e3 : ((d.toNat : Nat) : Int) = d := by omega
  rw [e1, e2, e3] at W
  unfold unixOf at W
  rw [he] at W
  have es : (loc / 86400 + 719162 - 719162) * 86400 + (((loc % 86400).toNat / 3600 : Nat) : Int) * 3600 +
      (((loc % 86400).toNat / 60 % 60 : Nat) : Int) * 60 + (((loc % 86400).toNat % 60 : Nat) : Int) - t.off =
      t.sec := by omega
  rw [es] at W
  exact W

theorem fmtSec_eq (t : Time) : fmtSec t = fmtNano ⟨t.sec, 0, t.off⟩ := by
  unfold fmtSec fmtNano fracText
  simp

/-- **C121, claims.** Seconds of the years 0 to 9999 are printed and read back. -/
theorem fmtUnix_parse {n : Int} (h1 : -62167219200 ≤ n) (h2 : n ≤ 253402300799) :
    parse (fmtUnix n) = some ⟨n, 0, 0⟩ := by
  unfold fmtUnix
  rw [fmtSec_eq]
  exact fmtNano_parse ⟨n, 0, 0⟩ (by simp) ⟨0, rfl⟩ (by simp) (by simpa using h1) (by simpa using h2)

/-- Text that starts like a year outside 0 to 9999 is not read. -/
theorem parseL_year {y : Int} (hy : y < 0 ∨ 9999 < y) (r : List Char) : parseL (padYear y ++ r) = none := by
  unfold padYear
  rcases hy with hy | hy
  · rw [if_pos hy]
    have : getYear ('-' :: pad4 (-y).toNat ++ r) = none := by
      unfold getYear
      split
      · rename_i a b c d r' e
        simp only [List.cons_append, List.cons.injEq] at e
        obtain ⟨rfl, -⟩ := e
        rfl
      · rfl
    unfold parseL
    rw [this]
    rfl
  · rw [if_neg (by omega)]
    obtain ⟨a, b, c, d, e, r', he, hd⟩ := pad4_big y.toNat (by omega)
    rw [he]
    unfold parseL
    cases hg : getYear (a :: b :: c :: d :: e :: r' ++ r) with
    | none => rfl
    | some p =>
      obtain ⟨n, l⟩ := p
      have : l = e :: (r' ++ r) := by
        simp only [List.cons_append, getYear] at hg
        split at hg
        · simp only [Option.some.injEq, Prod.mk.injEq] at hg; exact hg.2.symm
        · cases hg
      subst this
      have hs : skip '-' (e :: (r' ++ r)) = none := by
        unfold skip
        have : e ≠ '-' := by rintro rfl; revert hd; decide
        simp [this]
      simp only [Option.bind_eq_bind, Option.bind_some, hs, Option.bind_none]

/-- **C121, claims.** Seconds of other years are printed as texts that are not times, with or without a
`Z` at the end. -/
theorem fmtUnix_unreadable {n : Int} (h : n < -62167219200 ∨ 253402300799 < n) :
    parse (fmtUnix n) = none ∧ parse (fmtUnix n ++ "Z") = none := by
  have hy : yearOf n < 0 ∨ 9999 < yearOf n := by
    have := yearOf_range n
    by_cases a : 0 ≤ yearOf n
    · by_cases b : yearOf n ≤ 9999
      · have := this.1 ⟨a, b⟩; omega
      · omega
    · omega
  unfold yearOf at hy
  have e : ∃ r, (fmtUnix n).toList = padYear (civil (n / 86400 + 719162)).1 ++ r := by
    refine ⟨'-' :: pad2 (civil (n / 86400 + 719162)).2.1.toNat ++ '-' ::
      pad2 (civil (n / 86400 + 719162)).2.2.toNat ++ 'T' :: pad2 ((n % 86400).toNat / 3600) ++
      ':' :: pad2 ((n % 86400).toNat / 60 % 60) ++ ':' :: pad2 ((n % 86400).toNat % 60) ++ ['Z'], ?_⟩
    unfold fmtUnix fmtSec clockText zoneText
    rw [String.toList_ofList]
    simp
  obtain ⟨r, e⟩ := e
  constructor
  · unfold parse
    rw [e]
    exact parseL_year hy r
  · unfold parse
    rw [String.toList_append, e, List.append_assoc]
    exact parseL_year hy _

/-! ## Times that were read -/

theorem read_bounds {s : String} {t : Time} (h : parse s = some t) :
    t.nsec < 1000000000 ∧ 60 ∣ t.off ∧ t.off.natAbs ≤ 90000 ∧
      -62167219200 ≤ t.sec + t.off ∧ t.sec + t.off ≤ 253402300799 := by
  rw [parse_iff] at h
  generalize s.toList = l at h
  cases h with
  | @mk ty tm td th tmi ts tf tz y m d hh mi s f o hy htm htd hth htmi hts hf hz hv h1 h2 h3 =>
    dsimp only
    have hy' : y < 10000 := by
      have := base10_lt ty hy.2.1
      rw [hy.2.2, hy.1] at this
      exact this
    refine ⟨?_, ?_, ?_, ?_, ?_⟩
    · cases hf with
      | none => decide
      | @some sep ds n _ hs hne hnum hk =>
        subst hk
        have := base10_lt ds hnum.2.1
        rw [hnum.2.2] at this
        rw [Nat.div_lt_iff_lt_mul (Nat.pow_pos (by decide)), Nat.mul_comm]
        exact Nat.mul_lt_mul_of_pos_left this (by decide)
    · cases hz with
      | utc => exact ⟨0, rfl⟩
      | east => omega
      | west => omega
    · cases hz with
      | utc => decide
      | east => omega
      | west => omega
    · have b := dayNo_bounds hv
      have a := yearStart_mono (y := 0) (y' := y) (by omega)
      have y0 : yearStart 0 = -366 := by decide
      unfold unixOf
      omega
    · have b := dayNo_bounds hv
      have a := yearStart_mono (y := (y : Int) + 1) (y' := 10000) (by omega)
      have y1 : yearStart 10000 = 3652059 := by decide
      unfold unixOf
      omega

/-- **C121, reprinting.** Every time that was read, but for the offsets of 25 hours, is printed as a
text that is read as the same time. -/
theorem reprint_partial {s : String} {t : Time} (h : parse s = some t) (ho : t.off.natAbs ≠ 90000) :
    parse (fmtNano t) = some t := by
  obtain ⟨h1, h2, h3, h4, h5⟩ := read_bounds h
  exact fmtNano_parse t h1 h2 (by omega) h4 h5

/-- **C121 is violated at one offset.** `+24:60` is read, but printed as `+25:00`, which is not. -/
theorem reprint_fails : ∃ s t, parse s = some t ∧ parse (fmtNano t) = none :=
  ⟨"2020-01-01T00:00:00+24:60", ⟨1577746800, 0, 90000⟩, by decide +kernel, by decide +kernel⟩

-- a time with a fraction and an offset, the first second of the year 0, the last of 9999
example : parse "2024-02-29T12:34:56.7891+01:30" = some ⟨1709204696, 789100000, 5400⟩ := by decide +kernel
example : parse (fmtUnix 253402300799) = some ⟨253402300799, 0, 0⟩ := fmtUnix_parse (by decide) (by decide)
example : fmtUnix (-62167219200) = "0000-01-01T00:00:00Z" := by decide +kernel
example : parse (fmtUnix 253402300800) = none := (fmtUnix_unreadable (Or.inr (by decide))).1
-- a lenient text: one digit for the hour, a comma
example : Written "2024-02-29T2:34:56,1Z".toList ⟨1709174096, 100000000, 0⟩ :=
  (parse_iff _ _).1 (by decide +kernel)

end VC.Tm
