import Verif.Num.Decimal
import Verif.Base.Json
import Mathlib.Algebra.Order.Archimedean.Basic
/-!
# C140: which numbers of a document survive reading and writing

A document is read with `json.Unmarshal` into maps of `interface{}` and written with `json.Marshal`.
-/

namespace VC.Num

open Spec

/-! ## Model -/

/-- The law of `strconv.FormatFloat(x, _, -1, 64)`, as `json.Marshal` uses it for a `float64`: the number
written is read back as `x`, and no number with fewer digits is.  `print x` is the value of the text. -/
structure Shortest (print : Rat → Rat) : Prop where
  back : ∀ x, IsFloat x → toFloat (print x) = some x
  short : ∀ x, IsFloat x → ∀ n q, toFloat q = some x → Decimal n q → Decimal n (print x)

mutual
/-- `json.Unmarshal` into an `interface{}` (verifiable/credential.go:1596-1606 and others), on the value of the
text: numbers become float64, one that is too large is an error (`UnmarshalTypeError`). -/
def readNums : Json → Option Json
  | .num q => (toFloat q).map .num
  | .arr l => (readElems l).map .arr
  | .obj m => (readMembers m).map .obj
  | .null => some .null
  | .bool b => some (.bool b)
  | .str s => some (.str s)
/-- The elements of an array. -/
def readElems : List Json → Option (List Json)
  | [] => some []
  | v :: l => (readNums v).bind fun v' => (readElems l).map (v' :: ·)
/-- The members of an object. -/
def readMembers : List (String × Json) → Option (List (String × Json))
  | [] => some []
  | (k, v) :: m => (readNums v).bind fun v' => (readMembers m).map ((k, v') :: ·)
end

mutual
/-- `json.Marshal` of an `interface{}` (verifiable/credential.go:2585-2607 and others): the value of the text. -/
def writeNums (print : Rat → Rat) : Json → Json
  | .num q => .num (print q)
  | .arr l => .arr (writeElems print l)
  | .obj m => .obj (writeMembers print m)
  | .null => .null
  | .bool b => .bool b
  | .str s => .str s
/-- The elements of an array. -/
def writeElems (print : Rat → Rat) : List Json → List Json
  | [] => []
  | v :: l => writeNums print v :: writeElems print l
/-- The members of an object. -/
def writeMembers (print : Rat → Rat) : List (String × Json) → List (String × Json)
  | [] => []
  | (k, v) :: m => (k, writeNums print v) :: writeMembers print m
end

/-! ## Specification -/

namespace Spec

/-- The number `q` stands somewhere in the value. -/
inductive Holds (q : Rat) : Json → Prop
  | num : Holds q (.num q)
  | arr {l : List Json} {v : Json} : v ∈ l → Holds q v → Holds q (.arr l)
  | obj {m : List (String × Json)} {k : String} {v : Json} : (k, v) ∈ m → Holds q v → Holds q (.obj m)

/-- A number that is safe from float64: a decimal number with at most 15 significant digits that is zero or
not below the smallest normal float64 number, or an integer below `2^53`. -/
inductive Safe (q : Rat) : Prop
  | zero : q = 0 → Safe q
  | digits : Decimal 15 q → 2 ^ (-1022 : Int) ≤ |q| → Safe q
  | int (n : Int) : |n| < 2 ^ 53 → q = n → Safe q

end Spec

/-! ## Numbers -/

theorem isFloat_int {n : Int} (h : |n| ≤ 2 ^ 53) : IsFloat n := by
  rcases lt_or_eq_of_le h with h | h
  · exact ⟨n, 0, h, by norm_num, by norm_num, by simp⟩
  · rcases (abs_eq (by positivity)).1 h with h | h
    · exact ⟨2 ^ 52, 1, by norm_num, by norm_num, by norm_num, by rw [h]; norm_num⟩
    · exact ⟨-2 ^ 52, 1, by norm_num, by norm_num, by norm_num, by rw [h]; norm_num⟩

/-- A safe number that can be read is written as it was. -/
theorem safe_kept {print : Rat → Rat} (hp : Shortest print) {q x : Rat} (hs : Safe q) (h : toFloat q = some x) :
    print x = q := by
  have hf := toFloat_isFloat h
  have hb := hp.back x hf
  have zero : q = 0 → print x = q := by
    rintro rfl
    obtain ⟨m, k, hm, he⟩ := hp.short x hf 0 0 h ⟨0, 0, by norm_num, by norm_num⟩
    rw [pow_zero, Int.abs_lt_one_iff] at hm
    rw [he, hm]
    simp
  have digits : Decimal 15 q → 2 ^ (-1022 : Int) ≤ |q| → print x = q := by
    intro hd hn
    exact (decimal_unique hd (hp.short x hf 15 q h hd) hn h hb).symm
  cases hs with
  | zero h0 => exact zero h0
  | digits hd hn => exact digits hd hn
  | int n hn hq =>
    subst hq
    have hx : toFloat (n : Rat) = some (n : Rat) := toFloat_self (isFloat_int hn.le)
    rw [hx] at h
    cases h
    by_cases h0 : n = 0
    · exact zero (by rw [h0]; rfl)
    have h1 : (1 : Rat) ≤ |(n : Rat)| := by
      have := Int.one_le_abs h0
      exact_mod_cast this
    have hsmall : (2 : Rat) ^ (-1022 : Int) ≤ |(n : Rat)| :=
      le_trans (zpow_le_one_of_nonpos₀ (by norm_num) (by norm_num)) h1
    by_cases hle : |n| ≤ 10 ^ 15
    · refine digits ?_ hsmall
      rcases lt_or_eq_of_le hle with hl | hl
      · exact ⟨n, 0, hl, by simp⟩
      · rcases (abs_eq (by positivity)).1 hl with hl | hl
        · exact ⟨1, 15, by norm_num, by rw [hl]; norm_num⟩
        · exact ⟨-1, 15, by norm_num, by rw [hl]; norm_num⟩
    · -- sixteen digits: an integer is written
      obtain ⟨m, k, hm, hq⟩ := hp.short n hf 16 n hx ⟨n, 0, lt_trans hn (by norm_num), by simp⟩
      have big : ∀ {c : Int}, |c| ≤ 2 ^ 53 → toFloat (c : Rat) = some (c : Rat) := fun h => toFloat_self (isFloat_int h)
      rcases le_or_gt 0 k with hk | hk
      · obtain ⟨j, rfl⟩ := Int.eq_ofNat_of_zero_le hk
        have hint : print n = ((m * 10 ^ j : Int) : Rat) := by
          rw [hq]
          push_cast
          simp
        rw [hint] at hb ⊢
        generalize m * 10 ^ j = c at hb
        by_cases hc : |c| ≤ 2 ^ 53
        · rw [big hc] at hb
          exact Option.some.inj hb
        · exfalso
          rw [abs_lt] at hn
          rw [abs_le, not_and_or, not_le, not_le] at hc
          rcases hc with hc | hc
          · have := toFloat_mono hb (big (c := -2 ^ 53) (by norm_num)) (by exact_mod_cast hc.le)
            have : n ≤ -2 ^ 53 := by exact_mod_cast this
            omega
          · have := toFloat_mono (big (c := 2 ^ 53) (by norm_num)) hb (by exact_mod_cast hc.le)
            have : 2 ^ 53 ≤ n := by exact_mod_cast this
            omega
      · exfalso
        have h10 : (10 : Rat) ^ k ≤ 10 ^ (-1 : Int) := zpow_le_zpow_right₀ (by norm_num) (by omega)
        have hkp : (0 : Rat) < 10 ^ k := zpow_pos (by norm_num) k
        have hm' : |(m : Rat)| ≤ 10 ^ 16 := by exact_mod_cast hm.le
        have hb1 : |print n| ≤ ((10 ^ 15 : Int) : Rat) := by
          rw [hq, abs_mul, abs_of_pos hkp]
          calc |(m : Rat)| * 10 ^ k ≤ 10 ^ 16 * 10 ^ (-1 : Int) := mul_le_mul hm' h10 hkp.le (by positivity)
            _ = _ := by norm_num
        rw [abs_le] at hb1
        have a1 := toFloat_mono hb (big (c := 10 ^ 15) (by norm_num)) hb1.2
        have a2 := toFloat_mono (big (c := -10 ^ 15) (by norm_num)) hb (by push_cast at hb1 ⊢; linarith [hb1.1])
        apply hle
        rw [abs_le]
        exact ⟨by exact_mod_cast a2, by exact_mod_cast a1⟩

theorem shortest_exists : ∃ print, Shortest print := by
  classical
  have key : ∀ x, ∃ p, IsFloat x → toFloat p = some x ∧ ∀ n q, toFloat q = some x → Decimal n q → Decimal n p := by
    intro x
    by_cases hx : IsFloat x
    · have hex : ∃ n, ∃ q, toFloat q = some x ∧ Decimal n q := by
        obtain ⟨m, e, hm, -, -, he⟩ := id hx
        rcases le_or_gt 0 e with h | h
        · obtain ⟨j, rfl⟩ := Int.eq_ofNat_of_zero_le h
          obtain ⟨n, hn⟩ := pow_unbounded_of_one_lt (|m * 2 ^ j| : Int) (by norm_num : (1 : Int) < 10)
          refine ⟨n, x, toFloat_self hx, m * 2 ^ j, 0, hn, ?_⟩
          rw [he]
          push_cast
          simp
        · obtain ⟨j, hj⟩ := Int.eq_ofNat_of_zero_le (show 0 ≤ -e by omega)
          obtain ⟨n, hn⟩ := pow_unbounded_of_one_lt (|m * 5 ^ j| : Int) (by norm_num : (1 : Int) < 10)
          refine ⟨n, x, toFloat_self hx, m * 5 ^ j, e, hn, ?_⟩
          rw [he, show e = -(j : Int) by omega]
          push_cast
          rw [zpow_neg, zpow_neg, zpow_natCast, zpow_natCast, show (10 : Rat) = 5 * 2 by norm_num, mul_pow]
          field_simp
      obtain ⟨p, hp1, hp2⟩ := Nat.find_spec hex
      refine ⟨p, fun _ => ⟨hp1, ?_⟩⟩
      intro n q h1 h2
      exact decimal_mono (Nat.find_min' hex ⟨q, h1, h2⟩) hp2
    · exact ⟨0, fun h => absurd h hx⟩
  choose print hp using key
  exact ⟨print, fun x hx => (hp x hx).1, fun x hx => (hp x hx).2⟩

/-! ## Documents -/

mutual
theorem write_read {print : Rat → Rat} (hp : Shortest print) : ∀ (v w : Json), readNums v = some w →
    readNums (writeNums print w) = some w
  | .num q, w, h => by
    simp only [readNums, Option.map_eq_some_iff] at h
    obtain ⟨x, hx, rfl⟩ := h
    simp only [writeNums, readNums]
    rw [hp.back x (toFloat_isFloat hx)]
    rfl
  | .arr l, w, h => by
    simp only [readNums, Option.map_eq_some_iff] at h
    obtain ⟨l', hl, rfl⟩ := h
    simp only [writeNums, readNums]
    rw [write_read_elems hp l l' hl]
    rfl
  | .obj m, w, h => by
    simp only [readNums, Option.map_eq_some_iff] at h
    obtain ⟨m', hm, rfl⟩ := h
    simp only [writeNums, readNums]
    rw [write_read_members hp m m' hm]
    rfl
  | .null, w, h => by simp only [readNums, Option.some.injEq] at h; subst h; rfl
  | .bool b, w, h => by simp only [readNums, Option.some.injEq] at h; subst h; rfl
  | .str s, w, h => by simp only [readNums, Option.some.injEq] at h; subst h; rfl
theorem write_read_elems {print : Rat → Rat} (hp : Shortest print) : ∀ (l l' : List Json), readElems l = some l' →
    readElems (writeElems print l') = some l'
  | [], l', h => by simp only [readElems, Option.some.injEq] at h; subst h; rfl
  | v :: l, l', h => by
    simp only [readElems, Option.bind_eq_some_iff, Option.map_eq_some_iff] at h
    obtain ⟨v', hv, l2, hl, rfl⟩ := h
    simp only [writeElems, readElems]
    rw [write_read hp v v' hv, write_read_elems hp l l2 hl]
    rfl
theorem write_read_members {print : Rat → Rat} (hp : Shortest print) : ∀ (m m' : List (String × Json)),
    readMembers m = some m' → readMembers (writeMembers print m') = some m'
  | [], m', h => by simp only [readMembers, Option.some.injEq] at h; subst h; rfl
  | (k, v) :: m, m', h => by
    simp only [readMembers, Option.bind_eq_some_iff, Option.map_eq_some_iff] at h
    obtain ⟨v', hv, m2, hm, rfl⟩ := h
    simp only [writeMembers, readMembers]
    rw [write_read hp v v' hv, write_read_members hp m m2 hm]
    rfl
end

mutual
theorem kept {print : Rat → Rat} (hp : Shortest print) : ∀ (v w : Json), (∀ q, Holds q v → Safe q) →
    readNums v = some w → writeNums print w = v
  | .num q, w, hs, h => by
    simp only [readNums, Option.map_eq_some_iff] at h
    obtain ⟨x, hx, rfl⟩ := h
    simp only [writeNums]
    rw [safe_kept hp (hs q .num) hx]
  | .arr l, w, hs, h => by
    simp only [readNums, Option.map_eq_some_iff] at h
    obtain ⟨l', hl, rfl⟩ := h
    simp only [writeNums]
    rw [kept_elems hp l l' (fun q v hv hq => hs q (.arr hv hq)) hl]
  | .obj m, w, hs, h => by
    simp only [readNums, Option.map_eq_some_iff] at h
    obtain ⟨m', hm, rfl⟩ := h
    simp only [writeNums]
    rw [kept_members hp m m' (fun q k v hv hq => hs q (.obj hv hq)) hm]
  | .null, w, _, h => by simp only [readNums, Option.some.injEq] at h; subst h; rfl
  | .bool b, w, _, h => by simp only [readNums, Option.some.injEq] at h; subst h; rfl
  | .str s, w, _, h => by simp only [readNums, Option.some.injEq] at h; subst h; rfl
theorem kept_elems {print : Rat → Rat} (hp : Shortest print) : ∀ (l l' : List Json),
    (∀ q v, v ∈ l → Holds q v → Safe q) → readElems l = some l' → writeElems print l' = l
  | [], l', _, h => by simp only [readElems, Option.some.injEq] at h; subst h; rfl
  | v :: l, l', hs, h => by
    simp only [readElems, Option.bind_eq_some_iff, Option.map_eq_some_iff] at h
    obtain ⟨v', hv, l2, hl, rfl⟩ := h
    simp only [writeElems]
    rw [kept hp v v' (fun q hq => hs q v List.mem_cons_self hq) hv,
      kept_elems hp l l2 (fun q w hw hq => hs q w (List.mem_cons_of_mem _ hw) hq) hl]
theorem kept_members {print : Rat → Rat} (hp : Shortest print) : ∀ (m m' : List (String × Json)),
    (∀ q k v, (k, v) ∈ m → Holds q v → Safe q) → readMembers m = some m' → writeMembers print m' = m
  | [], m', _, h => by simp only [readMembers, Option.some.injEq] at h; subst h; rfl
  | (k, v) :: m, m', hs, h => by
    simp only [readMembers, Option.bind_eq_some_iff, Option.map_eq_some_iff] at h
    obtain ⟨v', hv, m2, hm, rfl⟩ := h
    simp only [writeMembers]
    rw [kept hp v v' (fun q hq => hs q k v List.mem_cons_self hq) hv,
      kept_members hp m m2 (fun q k' w hw hq => hs q k' w (List.mem_cons_of_mem _ hw) hq) hm]
end

mutual
theorem read_none : ∀ v : Json, readNums v = none ↔ ∃ q, Holds q v ∧ toFloat q = none
  | .num q => by
    simp only [readNums, Option.map_eq_none_iff]
    constructor
    · exact fun h => ⟨q, .num, h⟩
    · rintro ⟨q', h, h'⟩
      cases h
      exact h'
  | .arr l => by
    simp only [readNums, Option.map_eq_none_iff]
    rw [read_none_elems l]
    constructor
    · rintro ⟨v, hv, q, h1, h2⟩
      exact ⟨q, .arr hv h1, h2⟩
    · rintro ⟨q, h1, h2⟩
      cases h1 with
      | arr hv h => exact ⟨_, hv, q, h, h2⟩
  | .obj m => by
    simp only [readNums, Option.map_eq_none_iff]
    rw [read_none_members m]
    constructor
    · rintro ⟨k, v, hv, q, h1, h2⟩
      exact ⟨q, .obj hv h1, h2⟩
    · rintro ⟨q, h1, h2⟩
      cases h1 with
      | obj hv h => exact ⟨_, _, hv, q, h, h2⟩
  | .null => by simp only [readNums, reduceCtorEq, false_iff]; rintro ⟨q, h, -⟩; cases h
  | .bool b => by simp only [readNums, reduceCtorEq, false_iff]; rintro ⟨q, h, -⟩; cases h
  | .str s => by simp only [readNums, reduceCtorEq, false_iff]; rintro ⟨q, h, -⟩; cases h
theorem read_none_elems : ∀ l : List Json, readElems l = none ↔ ∃ v, v ∈ l ∧ ∃ q, Holds q v ∧ toFloat q = none
  | [] => by simp [readElems]
  | v :: l => by
    have h1 := read_none v
    have h2 := read_none_elems l
    simp only [readElems, List.mem_cons, exists_eq_or_imp]
    rw [← h1, ← h2]
    cases readNums v with
    | none => simp
    | some w => cases readElems l <;> simp
theorem read_none_members : ∀ m : List (String × Json), readMembers m = none ↔
    ∃ k v, (k, v) ∈ m ∧ ∃ q, Holds q v ∧ toFloat q = none
  | [] => by simp [readMembers]
  | (k, v) :: m => by
    have h1 := read_none v
    have h2 := read_none_members m
    have h3 : (∃ k' v', (k', v') ∈ (k, v) :: m ∧ ∃ q, Holds q v' ∧ toFloat q = none) ↔
        (∃ q, Holds q v ∧ toFloat q = none) ∨ ∃ k' v', (k', v') ∈ m ∧ ∃ q, Holds q v' ∧ toFloat q = none := by
      constructor
      · rintro ⟨k', v', hm, hq⟩
        rcases List.mem_cons.1 hm with e | hm
        · cases e; exact Or.inl hq
        · exact Or.inr ⟨k', v', hm, hq⟩
      · rintro (hq | ⟨k', v', hm, hq⟩)
        · exact ⟨k, v, List.mem_cons_self, hq⟩
        · exact ⟨k', v', List.mem_cons_of_mem _ hm, hq⟩
    rw [h3, ← h1, ← h2]
    simp only [readMembers]
    cases readNums v with
    | none => simp
    | some w => cases readMembers m <;> simp
end

/-! ## The property -/

/-- **C140** (which documents are read): one is refused for its numbers exactly if a number in it is too large. -/
theorem document_refused_iff (v : Json) : readNums v = none ↔ ∃ q, Holds q v ∧ 2 ^ 1024 - 2 ^ 970 ≤ |q| := by
  rw [read_none]
  simp only [toFloat_none_iff]

/-- **C140** (once read, always the same): a document that was read, written and read again is the same as
it was when read first. -/
theorem document_stable {print : Rat → Rat} (hp : Shortest print) {v w : Json} (h : readNums v = some w) :
    readNums (writeNums print w) = some w := write_read hp v w h

/-- **C140** (safe numbers): a document all of whose numbers are safe is written as it was read. -/
theorem document_kept {print : Rat → Rat} (hp : Shortest print) {v : Json} (hs : ∀ q, Holds q v → Safe q)
    {w : Json} (h : readNums v = some w) : writeNums print w = v := kept hp v w hs h

/-- **C140** (fails beyond): the number 9007199254740993 is read as 9007199254740992: two documents with
different numbers are read as the same document. -/
theorem number_changed : toFloat 9007199254740993 = some 9007199254740992 ∧
    readNums (.obj [("account", .num 9007199254740993)]) = readNums (.obj [("account", .num 9007199254740992)]) := by
  have h1 : toFloat 9007199254740993 = some 9007199254740992 := by
    have hl : lastBit 9007199254740993 = 1 := lastBit_of (k := 53) (by norm_num) (by norm_num) (by norm_num)
    have hr : rounded 9007199254740993 = 9007199254740992 := by
      unfold rounded
      rw [hl]
      have hf : ⌊(9007199254740993 : Rat) / 2 ^ (1 : Int)⌋ = 4503599627370496 := by
        rw [Int.floor_eq_iff]; norm_num
      have : halfEven ((9007199254740993 : Rat) / 2 ^ (1 : Int)) = 4503599627370496 := by
        unfold halfEven
        rw [hf]
        norm_num
      rw [this]
      norm_num
    unfold toFloat
    rw [if_neg (by norm_num), hr, if_pos]
    rw [top_full]
    have hL : (1 : Rat) < 2 ^ (971 : Int) := one_lt_zpow₀ (by norm_num) (by norm_num)
    generalize (2 : Rat) ^ (971 : Int) = L at hL
    rw [abs_of_pos (by norm_num)]
    have := mul_lt_mul_of_pos_left hL (show (0 : Rat) < 2 ^ 53 by norm_num)
    linarith
  refine ⟨h1, ?_⟩
  have h2 : toFloat 9007199254740992 = some 9007199254740992 := by
    have := toFloat_self (isFloat_int (n := 9007199254740992) (by norm_num))
    exact_mod_cast this
  simp only [readNums, readMembers, h1, h2]

/-! ## Examples -/

/-- `document_kept`, `document_stable`: a price, a count and a large integer. -/
example : ∃ print w, Shortest print ∧
    readNums (.obj [("price", .num (1999 / 100)), ("n", .arr [.num 0, .num 9007199254740991])]) = some w ∧
    writeNums print w = .obj [("price", .num (1999 / 100)), ("n", .arr [.num 0, .num 9007199254740991])] ∧
    readNums (writeNums print w) = some w := by
  obtain ⟨print, hp⟩ := shortest_exists
  have safe : ∀ q, Holds q (.obj [("price", .num (1999 / 100)), ("n", .arr [.num 0, .num 9007199254740991])]) →
      q = 1999 / 100 ∨ q = 0 ∨ q = 9007199254740991 := by
    intro q h
    cases h with
    | obj hm hv =>
      simp only [List.mem_cons, Prod.mk.injEq, List.not_mem_nil, or_false] at hm
      rcases hm with ⟨-, rfl⟩ | ⟨-, rfl⟩
      · cases hv; exact Or.inl rfl
      · cases hv with
        | arr hm hv =>
          simp only [List.mem_cons, List.not_mem_nil, or_false] at hm
          rcases hm with rfl | rfl
          · cases hv; exact Or.inr (Or.inl rfl)
          · cases hv; exact Or.inr (Or.inr rfl)
  have hsome : readNums (.obj [("price", .num (1999 / 100)), ("n", .arr [.num 0, .num 9007199254740991])]) ≠ none := by
    rw [Ne, document_refused_iff]
    rintro ⟨q, hq, hbig⟩
    rw [top_half] at hbig
    have hL : (1 : Rat) < 2 ^ (971 : Int) := one_lt_zpow₀ (by norm_num) (by norm_num)
    generalize (2 : Rat) ^ (971 : Int) = L at hL hbig
    rcases safe q hq with rfl | rfl | rfl
    · rw [abs_of_pos (by norm_num)] at hbig; linarith
    · rw [abs_zero] at hbig; linarith
    · rw [abs_of_pos (by norm_num)] at hbig; linarith
  obtain ⟨w, hw⟩ := Option.ne_none_iff_exists'.1 hsome
  refine ⟨print, w, hp, hw, document_kept hp ?_ hw, document_stable hp hw⟩
  intro q hq
  rcases safe q hq with rfl | rfl | rfl
  · refine .digits ⟨1999, -2, by norm_num, by norm_num⟩ ?_
    refine le_trans (zpow_le_one_of_nonpos₀ (by norm_num) (by norm_num)) ?_
    rw [abs_of_pos (by norm_num)]; norm_num
  · exact .zero rfl
  · exact .int 9007199254740991 (by norm_num) (by norm_num)

/-- `toFloat_nearest`, `toFloat_mono`, `toFloat_tie`, `decimal_unique`: 9007199254740993 lies between two
float64 numbers, of which the even one is read. -/
example : |(9007199254740993 : Rat) - 9007199254740992| ≤ |9007199254740993 - 9007199254740994| ∧
    (∃ m e : Int, (9007199254740992 : Rat) = (2 * m : Int) * 2 ^ e ∧ |(9007199254740994 : Rat) - 9007199254740992| = 2 ^ e) := by
  have hf : IsFloat 9007199254740994 :=
    ⟨4503599627370497, 1, by norm_num, by norm_num, by norm_num, by norm_num⟩
  refine ⟨toFloat_nearest number_changed.1 hf, toFloat_tie number_changed.1 hf (by norm_num) ?_⟩
  rw [abs_of_pos (by norm_num), abs_of_neg (by norm_num)]
  norm_num

/-- `document_refused_iff`: ten to the power of 400. -/
example : readNums (.arr [.num (10 ^ 400)]) = none := by
  rw [document_refused_iff]
  refine ⟨10 ^ 400, .arr List.mem_cons_self .num, ?_⟩
  have h : (2 : Rat) ^ 1024 ≤ 10 ^ 400 := by
    calc (2 : Rat) ^ 1024 ≤ 2 ^ (3 * 400) := pow_le_pow_right₀ (by norm_num) (by norm_num)
      _ = (2 ^ 3) ^ 400 := pow_mul _ _ _
      _ ≤ 10 ^ 400 := pow_le_pow_left₀ (by norm_num) (by norm_num) 400
  rw [abs_of_pos (pow_pos (by norm_num) _)]
  have h2 : (0 : Rat) < 2 ^ 970 := pow_pos (by norm_num) _
  exact le_trans (sub_le_self _ h2.le) h

end VC.Num
