import Verif.Time.Clock
import Verif.Base.Json
/-!
# Dates as JSON: `TimeWrapper` (C129)

`util/time/time.go` wraps Go's `time.Time` with the text it was read from.  Its methods `MarshalJSON` and
`UnmarshalJSON` are modelled on JSON values (encoding/json reads and writes the text of a string as in C02), with
Go 1.23's `Time.MarshalJSON`, which refuses some times.  A program may also assign the embedded `Time` itself.
-/

namespace VC.Tm

/-! ## Model -/

/-- `TimeWrapper`, util/time/time.go:24-29. -/
structure Wrapped where
  time : Time
  text : String
  deriving DecidableEq, Repr

/-- The check of `appendStrictRFC3339`, Go time/format_rfc3339.go, on the printed text: a dash after four characters,
and the end is `Z`, or there is no digit in the place of the sign and the hours of the zone are below 24. (Printed
texts always have more than six characters.) -/
def strict (l : List Char) : Bool :=
  decide (l[4]? = some '-') &&
    match l.reverse with
    | z :: _ :: _ :: h2 :: h1 :: c :: _ =>
      decide (z = 'Z') || (!c.isDigit && decide (10 * val h1 + val h2 < 24))
    | _ => false

/-- `NewTime`, util/time/time.go:33-35, and `NewTimeWithTrailingZeroMsec`, 41-45. -/
def newTime (t : Time) : Wrapped := ⟨t, ""⟩

/-- `parse`, util/time/time.go:87-101: the new value, `none` an error. -/
def readText (s : String) : Option Wrapped :=
  match parse s with
  | some t => some ⟨t, s⟩
  | none => (parse (s ++ "Z")).map fun t => ⟨t, s⟩

/-- `FormatToString`, util/time/time.go:105-111. -/
def Wrapped.format (w : Wrapped) : String := if w.text ≠ "" then w.text else fmtNano w.time

/-- `MarshalJSON`, util/time/time.go:50-62: `none` is an error. -/
def Wrapped.marshal (w : Wrapped) : Option Json :=
  if strict (fmtNano w.time).toList then
    if w.text ≠ "" then some (.str w.text) else some (.str w.format)
  else none

/-- `UnmarshalJSON`, util/time/time.go:67-85: the new value, `none` an error (nothing is changed). -/
def Wrapped.unmarshal (w : Wrapped) : Json → Option Wrapped
  | .null => some w
  | .str s => readText s
  | _ => none

/-- What a program does with one wrapper. -/
inductive WOp where
  /-- `w := NewTime(t)`, util/time/time.go:33 -/
  | make (t : Time)
  /-- `w, err := ParseTimeWrapper(s)`, util/time/time.go:121-130, kept if there is no error -/
  | read (s : String)
  /-- `json.Unmarshal(b, w)`, util/time/time.go:67-85 -/
  | load (j : Json)
  /-- `w.Time = t`: the embedded field is exported, util/time/time.go:24-29 -/
  | assign (t : Time)

/-- One step. -/
def WOp.step (w : Wrapped) : WOp → Wrapped
  | .make t => newTime t
  | .read s => (readText s).getD w
  | .load j => (w.unmarshal j).getD w
  | .assign t => { w with time := t }

/-- A history; it starts with Go's zero `TimeWrapper`, the first second of year 1. -/
def history (ops : List WOp) : Wrapped := ops.foldl WOp.step ⟨⟨-62135596800, 0, 0⟩, ""⟩

/-! ## Specification -/

/-- The text stands for the time: written with its zone, or without one and in UTC. -/
def StandsFor (s : String) (t : Time) : Prop := Written s.toList t ∨ Written (s.toList ++ ['Z']) t

/-- A time of Go: less than a second of nanoseconds, an offset of less than 100 hours. -/
def Sane (t : Time) : Prop := t.nsec < 1000000000 ∧ t.off.natAbs < 360000

/-- JSON can carry the time: its year has four digits, its zone is less than 24 hours away. -/
def Carried (t : Time) : Prop :=
  (-62167219200 ≤ t.sec + t.off ∧ t.sec + t.off ≤ 253402300799) ∧ t.off.natAbs < 86400

/-- Nothing is assigned, and new times have zones of whole minutes. -/
def Plain : WOp → Prop
  | .make t => Sane t ∧ 60 ∣ t.off
  | .assign _ => False
  | _ => True

/-! ## Proofs -/

theorem pad4_digits (n : Nat) : ∃ a b c d r, pad4 n = a :: b :: c :: d :: r ∧ d.isDigit = true := by
  induction n using Nat.strongRecOn with
  | ind n ih =>
    unfold pad4
    split
    · exact ⟨_, _, _, _, _, rfl, (digit_spec (n % 100 % 10) (by omega)).1⟩
    · obtain ⟨a, b, c, d, r, e, h⟩ := ih (n / 10) (by omega)
      exact ⟨a, b, c, d, r ++ [digit (n % 10)], by rw [e]; rfl, h⟩

theorem digit_ne_dash {c : Char} (h : c.isDigit = true) : c ≠ '-' := by
  rintro rfl; revert h; decide

/-- The character after four of the printed time is a dash exactly for the years 0 to 9999. -/
theorem dash_iff (loc : Int) (r : List Char) : (clockText loc ++ r)[4]? = some '-' ↔
    -62167219200 ≤ loc ∧ loc ≤ 253402300799 := by
  rw [← yearOf_range]
  unfold clockText yearOf
  generalize civil (loc / 86400 + 719162) = c
  obtain ⟨y, m, d⟩ := c
  dsimp only
  unfold padYear
  by_cases hy : y < 0
  · rw [if_pos hy]
    obtain ⟨a, b, c, d', r', e, h⟩ := pad4_digits (-y).toNat
    rw [e]
    have : d' ≠ '-' := digit_ne_dash h
    simp only [List.cons_append, List.getElem?_cons_succ, List.getElem?_cons_zero, Option.some.injEq, this, false_iff]
    omega
  · rw [if_neg hy]
    by_cases hy' : y ≤ 9999
    · obtain ⟨h4, -, -⟩ := pad4_small (n := y.toNat) (by omega)
      have : (0 ≤ y ∧ y ≤ 9999) := ⟨by omega, hy'⟩
      simp only [this, and_self, iff_true]
      match hl : pad4 y.toNat, h4 with
      | [a, b, c, e], _ => rfl
    · obtain ⟨a, b, c, d', e', r', e, h⟩ := pad4_big y.toNat (by omega)
      rw [e]
      have : e' ≠ '-' := digit_ne_dash h
      simp only [List.cons_append, List.getElem?_cons_succ, List.getElem?_cons_zero, Option.some.injEq, this,
        false_iff]
      omega

/-- **C129.**  Which times Go's JSON accepts. -/
theorem strict_iff (t : Time) (hs : t.off.natAbs < 360000) :
    strict (fmtNano t).toList = true ↔ Carried t := by
  unfold strict fmtNano
  rw [String.toList_ofList, Bool.and_eq_true, decide_eq_true_eq, List.append_assoc, dash_iff]
  unfold Carried
  refine and_congr_right fun _ => ?_
  rw [← List.append_assoc]
  -- the clock has at least six characters
  have hlen : ∃ p e1 e2 e3 e4 e5, clockText (t.sec + t.off) ++ fracText t.nsec = p ++ [e1, e2, e3, e4, e5] := by
    have : 5 ≤ (clockText (t.sec + t.off) ++ fracText t.nsec).length := by
      simp only [clockText, List.length_append, List.length_cons, pad2, List.length_nil]; omega
    generalize clockText (t.sec + t.off) ++ fracText t.nsec = l at this
    have e := List.take_append_drop (l.length - 5) l
    have h5 : (l.drop (l.length - 5)).length = 5 := by rw [List.length_drop]; omega
    match hd : l.drop (l.length - 5), h5 with
    | [a, b, c, d, x], _ => exact ⟨_, a, b, c, d, x, by rw [← hd]; exact e.symm⟩
  obtain ⟨p, e1, e2, e3, e4, e5, hp⟩ := hlen
  rw [hp]
  unfold zoneText
  by_cases h0 : t.off = 0
  · rw [if_pos h0, h0]
    simp
  · rw [if_neg h0]
    have hd1 := digit_spec (t.off.natAbs / 60 / 60 / 10) (by omega)
    have hd2 := digit_spec (t.off.natAbs / 60 / 60 % 10) (by omega)
    have hm2 := digit_spec (t.off.natAbs / 60 % 60 % 10) (by omega)
    have hz : digit (t.off.natAbs / 60 % 60 % 10) ≠ 'Z' := by
      intro e; have := hm2.1; rw [e] at this; revert this; decide
    have hsg : ∀ c : Char, c = '-' ∨ c = '+' → c.isDigit = false := by rintro c (rfl | rfl) <;> decide
    generalize hc : (if t.off ≤ -60 then '-' else '+') = sg
    have hsd := hsg sg (by rw [← hc]; split <;> simp)
    simp only [pad2, List.cons_append, List.nil_append, List.append_assoc, List.reverse_append, List.reverse_cons,
      List.reverse_nil, hz, decide_false, hsd, Bool.not_false, Bool.false_or, Bool.true_and, decide_eq_true_eq, hd1.2,
      hd2.2]
    omega

theorem readText_stands {s : String} {w : Wrapped} (h : readText s = some w) :
    w.text = s ∧ StandsFor s w.time := by
  unfold readText at h
  cases h1 : parse s with
  | some t => rw [h1] at h; cases h; exact ⟨rfl, Or.inl ((parse_iff _ _).1 h1)⟩
  | none =>
    rw [h1] at h
    obtain ⟨t, ht, rfl⟩ := Option.map_eq_some_iff.1 h
    refine ⟨rfl, Or.inr ?_⟩
    have := (parse_iff _ _).1 ht
    rwa [String.toList_append] at this

theorem stands_bounds {s : String} {t : Time} (h : StandsFor s t) : t.nsec < 1000000000 ∧ 60 ∣ t.off ∧
    t.off.natAbs ≤ 90000 := by
  rcases h with h | h
  · obtain ⟨a, b, c, -⟩ := read_bounds ((parse_iff s t).2 h); exact ⟨a, b, c⟩
  · obtain ⟨a, b, c, -⟩ := read_bounds (s := s ++ "Z") ((parse_iff _ t).2 (by rw [String.toList_append]; exact h))
    exact ⟨a, b, c⟩

theorem stands_ne {s : String} {t : Time} (h : StandsFor s t) : s ≠ "" := by
  rintro rfl
  rcases h with h | h
  · have := (parse_iff "" _).2 h
    rw [show parse "" = none by decide +kernel] at this; cases this
  · have := (parse_iff "Z" _).2 h
    rw [show parse "Z" = none by decide +kernel] at this; cases this

/-- What is written is the text `FormatToString` gives. -/
theorem marshal_str {w : Wrapped} {s : String} (h : strict (fmtNano w.time).toList = true) (e : w.format = s) :
    w.marshal = some (.str s) := by
  subst e
  unfold Wrapped.marshal
  rw [if_pos h]
  unfold Wrapped.format
  by_cases hne : w.text ≠ ""
  · rw [if_pos hne, if_pos hne]
  · rw [if_neg hne]

/-- The invariant of plain histories. -/
def Honest (w : Wrapped) : Prop := (Sane w.time ∧ 60 ∣ w.time.off) ∧ (w.text ≠ "" → StandsFor w.text w.time)

theorem honest_read {s : String} {w : Wrapped} (h : readText s = some w) : Honest w := by
  obtain ⟨e, hs⟩ := readText_stands h
  obtain ⟨a, b, c⟩ := stands_bounds hs
  exact ⟨⟨⟨a, by omega⟩, b⟩, fun _ => e ▸ hs⟩

theorem honest_step {w : Wrapped} (h : Honest w) {op : WOp} (hp : Plain op) : Honest (op.step w) := by
  have rd : ∀ s, Honest ((readText s).getD w) := by
    intro s
    cases hr : readText s with
    | none => exact h
    | some w' => exact honest_read hr
  cases op with
  | make t => exact ⟨hp, fun e => absurd rfl e⟩
  | read s => exact rd s
  | assign t => exact hp.elim
  | load j =>
    cases j with
    | str s => exact rd s
    | _ => exact h

theorem honest_history (ops : List WOp) (hp : ∀ op ∈ ops, Plain op) : Honest (history ops) := by
  unfold history
  have : Honest ⟨⟨-62135596800, 0, 0⟩, ""⟩ := ⟨⟨⟨by simp, by simp⟩, ⟨0, rfl⟩⟩, fun e => absurd rfl e⟩
  generalize (⟨⟨-62135596800, 0, 0⟩, ""⟩ : Wrapped) = w at *
  induction ops generalizing w with
  | nil => exact this
  | cons op ops ih =>
    exact ih (fun x hx => hp x (List.mem_cons_of_mem _ hx)) _ (honest_step this (hp op (by simp)))

/-! ## Theorems -/

/-- **C129.**  A wrapper can be written as JSON exactly if its time has a year of four digits and a zone less than
24 hours away. -/
theorem marshal_iff (w : Wrapped) (h : Sane w.time) : (∃ j, w.marshal = some j) ↔ Carried w.time := by
  rw [← strict_iff _ h.2]
  unfold Wrapped.marshal
  split
  · rename_i e; rw [e]; split <;> simp
  · rename_i e; simp [e]

/-- **C129 (partial).**  After any history without assignments (new times with zones of whole minutes), what is
written as JSON is a text that stands for the time of the wrapper. -/
theorem marshal_means_partial (ops : List WOp) (hp : ∀ op ∈ ops, Plain op) {j : Json}
    (h : (history ops).marshal = some j) : ∃ s, j = .str s ∧ StandsFor s (history ops).time := by
  have ho := honest_history ops hp
  have hc : Carried (history ops).time := (marshal_iff _ ho.1.1).1 ⟨j, h⟩
  generalize history ops = w at *
  unfold Wrapped.marshal at h
  split at h
  · split at h
    · rename_i hne; cases h; exact ⟨_, rfl, ho.2 hne⟩
    · rename_i hne
      cases h
      refine ⟨_, rfl, Or.inl ?_⟩
      unfold Wrapped.format
      rw [if_neg hne]
      obtain ⟨h1, h2⟩ := hc
      exact (parse_iff _ _).1 (fmtNano_parse w.time ho.1.1.1 ho.1.2 (by omega) h1.1 h1.2)
  · cases h

theorem readText_marshal {w : Wrapped} (ho : Honest w) {j : Json} (h : w.marshal = some j) :
    ∃ s, j = .str s ∧ readText s = some ⟨w.time, s⟩ := by
  have hc : Carried w.time := (marshal_iff _ ho.1.1).1 ⟨j, h⟩
  unfold Wrapped.marshal at h
  split at h
  · split at h
    · rename_i hne
      cases h
      refine ⟨_, rfl, ?_⟩
      obtain hs | hs := ho.2 hne
      · unfold readText; rw [(parse_iff _ _).2 hs]
      · have h' : parse (w.text ++ "Z") = some w.time := (parse_iff _ _).2 (by rw [String.toList_append]; exact hs)
        unfold readText
        cases hp : parse w.text with
        | none => rw [h']; rfl
        | some t =>
          -- two `Z`, or a `Z` after an offset, is no zone
          exact absurd hp (by rw [(zoneless _ _ h').1]; simp)
    · rename_i hne
      cases h
      refine ⟨_, rfl, ?_⟩
      unfold Wrapped.format readText
      rw [if_neg hne, fmtNano_parse w.time ho.1.1.1 ho.1.2 (by have := hc.2; omega) hc.1.1 hc.1.2]
  · cases h

/-- **C129 (partial).**  After any such history, the JSON is read back into any wrapper as the same time with that
text, which is written as the same JSON again. -/
theorem marshal_roundtrip_partial (ops : List WOp) (hp : ∀ op ∈ ops, Plain op) {j : Json}
    (h : (history ops).marshal = some j) (w : Wrapped) :
    ∃ s, j = .str s ∧ w.unmarshal j = some ⟨(history ops).time, s⟩ ∧
      (⟨(history ops).time, s⟩ : Wrapped).marshal = some j := by
  have ho := honest_history ops hp
  obtain ⟨s, rfl, hr⟩ := readText_marshal ho h
  refine ⟨s, rfl, hr, ?_⟩
  have hs := (readText_stands hr).2
  have hne := stands_ne hs
  unfold Wrapped.marshal at h ⊢
  split at h
  · rename_i e
    dsimp only
    rw [if_pos e, if_pos hne]
  · cases h

/-- **C129.**  A date of any JSON is read exactly if it is a text that stands for a time; the text is kept.  `null`
changes nothing. -/
theorem unmarshal_iff (w w' : Wrapped) (j : Json) : w.unmarshal j = some w' ↔
    (j = .null ∧ w' = w) ∨ (∃ s, j = .str s ∧ w'.text = s ∧ StandsFor s w'.time) := by
  constructor
  · intro h
    cases j with
    | null => cases h; exact Or.inl ⟨rfl, rfl⟩
    | str s => obtain ⟨a, b⟩ := readText_stands h; exact Or.inr ⟨s, rfl, a, b⟩
    | _ => cases h
  · rintro (⟨rfl, rfl⟩ | ⟨s, rfl, e, hs⟩)
    · rfl
    · obtain ⟨t, tx⟩ := w'
      cases e
      change readText tx = _
      unfold readText
      rcases hs with hs | hs
      · rw [(parse_iff _ _).2 hs]
      · have h' : parse (tx ++ "Z") = some t := (parse_iff _ _).2 (by rw [String.toList_append]; exact hs)
        rw [(zoneless _ _ h').1, h']; rfl

/-- **C129.**  What was read from JSON and can be written is written as it was. -/
theorem unmarshal_marshal (w w' : Wrapped) (s : String) (h : w.unmarshal (.str s) = some w')
    (hz : w'.time.off.natAbs < 86400) : w'.marshal = some (.str s) := by
  obtain ⟨e, hs⟩ := readText_stands h
  obtain ⟨a, b, c⟩ := stands_bounds hs
  have hne := stands_ne hs
  have hb : -62167219200 ≤ w'.time.sec + w'.time.off ∧ w'.time.sec + w'.time.off ≤ 253402300799 := by
    rcases hs with hs | hs
    · exact (read_bounds ((parse_iff s _).2 hs)).2.2.2
    · exact (read_bounds (s := s ++ "Z") ((parse_iff _ _).2 (by rw [String.toList_append]; exact hs))).2.2.2
  have := (strict_iff w'.time (by omega)).2 ⟨hb, hz⟩
  unfold Wrapped.marshal
  rw [if_pos this, e, if_pos hne]

/-- **C129, the code violates it.**  A time assigned to a wrapper that was read is not what is written. -/
theorem assigned_time_lost : ∃ (ops : List WOp) (s : String) (t : Time), (history ops).time = t ∧
    (history ops).marshal = some (.str s) ∧ ¬ StandsFor s t := by
  refine ⟨[.read "2020-01-01T00:00:00Z", .assign ⟨1700000000, 0, 0⟩], "2020-01-01T00:00:00Z", ⟨1700000000, 0, 0⟩,
    by decide +kernel, marshal_str (by decide +kernel) (by decide +kernel), ?_⟩
  rintro (h | h)
  · have := (parse_iff "2020-01-01T00:00:00Z" _).2 h; revert this; decide +kernel
  · have := (parse_iff "2020-01-01T00:00:00ZZ" _).2 h; revert this; decide +kernel

/-- **C129, the code violates it.**  A new time in a zone with seconds (local mean time) is written as another
instant. -/
theorem zone_seconds_lost : ∃ (t t' : Time) (s : String), Sane t ∧ (history [.make t]).marshal = some (.str s) ∧
    StandsFor s t' ∧ t'.sec ≠ t.sec := by
  refine ⟨⟨0, 0, 3208⟩, ⟨28, 0, 3180⟩, "1970-01-01T00:53:28+00:53", ⟨by decide, by decide⟩,
    marshal_str (by decide +kernel) (by decide +kernel),
    Or.inl ((parse_iff "1970-01-01T00:53:28+00:53" _).1 (by decide +kernel)), by decide⟩

/-- **C129, the code violates it.**  A date that was read from JSON but cannot be written. -/
theorem read_not_written : ∃ (s : String) (w : Wrapped), (newTime ⟨0, 0, 0⟩).unmarshal (.str s) = some w ∧
    w.marshal = none :=
  ⟨"2020-01-01T00:00:00+24:00", ⟨⟨1577750400, 0, 86400⟩, "2020-01-01T00:00:00+24:00"⟩, by decide +kernel,
    by decide +kernel⟩

/-! ## Examples -/

/-- A wrapper made, loaded with a date without a zone, with `null` and with a number (refused). -/
def wrOps : List WOp := [.make ⟨1700000000, 250000000, 7200⟩, .load (.str "2024-02-29T12:34:56.50"), .load .null,
  .load (.num 3)]

theorem wr_plain : ∀ op ∈ wrOps, Plain op := by
  intro op h
  simp only [wrOps, List.mem_cons, List.not_mem_nil, or_false] at h
  rcases h with rfl | rfl | rfl | rfl
  · exact ⟨⟨by decide, by decide⟩, ⟨120, rfl⟩⟩
  · trivial
  · trivial
  · trivial

example : (history wrOps).marshal = some (.str "2024-02-29T12:34:56.50") ∧
    (newTime ⟨0, 0, 0⟩).unmarshal (.str "2024-02-29T12:34:56.50") =
      some ⟨⟨1709210096, 500000000, 0⟩, "2024-02-29T12:34:56.50"⟩ :=
  ⟨marshal_str (by decide +kernel) (by decide +kernel), by decide +kernel⟩
example := marshal_roundtrip_partial wrOps wr_plain (j := .str "2024-02-29T12:34:56.50")
  (marshal_str (by decide +kernel) (by decide +kernel))
  (newTime ⟨0, 0, 0⟩)
example := marshal_means_partial [.make ⟨1700000000, 250000000, 7200⟩]
  (by simp only [List.mem_singleton, forall_eq]; exact ⟨⟨by decide, by decide⟩, ⟨120, rfl⟩⟩)
  (j := .str "2023-11-15T00:13:20.25+02:00") (marshal_str (by decide +kernel) (by decide +kernel))
example : ¬ ∃ j, (newTime ⟨253402300800, 0, 0⟩).marshal = some j := fun h =>
  absurd ((marshal_iff _ ⟨by decide, by decide⟩).1 h) (by unfold Carried newTime; decide)
example := unmarshal_marshal (newTime ⟨0, 0, 0⟩) ⟨⟨1709210096, 500000000, 0⟩, "2024-02-29T12:34:56.50"⟩
  "2024-02-29T12:34:56.50" (by decide +kernel) (by decide)

end VC.Tm
