import Verif.Base.Str
/-!
# Base64, as the library uses it

The code encodes and decodes with Go's `encoding/base64`: `RawURLEncoding` (sdjwt/common/common.go:197,
sdjwt/common/verification.go:318, sdjwt/issuer/issuer.go:593, v2.go:133, v5.go:326, jwt/jwt.go:303,
status/internal/bitstring/bitstring.go:44,92, verifiable/lddocument/signer.go:132) and `StdEncoding`
(status/resolver/resolver.go:188, status/internal/identityhub/identityhub.go:95,
verifiable/bbs_selective_disclosure.go:122,126).  The standard library's source is not part of /repo; this
models its documented behaviour: carriage returns and line feeds are skipped when reading, and the unused
bits of the last digit are ignored (neither encoding is `Strict`).
-/

namespace VC.B64

abbrev Bytes := List UInt8

/-! ## Model -/

/-- `base64.Encoding`: the last two characters of the alphabet, and whether texts are padded with `=`. -/
structure Enc where
  c62 : Char
  c63 : Char
  pad : Bool

/-- `base64.RawURLEncoding`. -/
def rawURL : Enc := ⟨'-', '_', false⟩

/-- `base64.StdEncoding`. -/
def std : Enc := ⟨'+', '/', true⟩

/-- The 64 characters of the alphabet, in order. -/
def alphabet (e : Enc) : List Char :=
  "ABCDEFGHIJKLMNOPQRSTUVWXYZabcdefghijklmnopqrstuvwxyz0123456789".toList ++ [e.c62, e.c63]

/-- The character of a six-bit value. -/
def digit (e : Enc) (n : Nat) : Char := (alphabet e).getD n '='

/-- The value of a character: `decodeMap`. -/
def value (e : Enc) (c : Char) : Option Nat := (List.range 64).find? fun n => digit e n == c

/-- The padding written, or not. -/
def padding (e : Enc) (n : Nat) : List Char := if e.pad then List.replicate n '=' else []

/-- `Encoding.Encode`, three bytes at a time. -/
def encL (e : Enc) : Bytes → List Char
  | [] => []
  | [a] =>
    let v := a.toNat * 65536
    digit e (v / 262144) :: digit e (v / 4096 % 64) :: padding e 2
  | [a, b] =>
    let v := a.toNat * 65536 + b.toNat * 256
    digit e (v / 262144) :: digit e (v / 4096 % 64) :: digit e (v / 64 % 64) :: padding e 1
  | a :: b :: c :: t =>
    let v := a.toNat * 65536 + b.toNat * 256 + c.toNat
    digit e (v / 262144) :: digit e (v / 4096 % 64) :: digit e (v / 64 % 64) :: digit e (v % 64) :: encL e t

/-- `EncodeToString`. -/
def encode (e : Enc) (x : Bytes) : String := String.ofList (encL e x)

/-- The last two digits of a text: one byte. -/
def last2 (e : Enc) (a b : Char) : Option Bytes :=
  match value e a, value e b with
  | some a, some b => some [UInt8.ofNat ((a * 262144 + b * 4096) / 65536)]
  | _, _ => none

/-- The last three digits of a text: two bytes. -/
def last3 (e : Enc) (a b c : Char) : Option Bytes :=
  match value e a, value e b, value e c with
  | some a, some b, some c =>
    let v := a * 262144 + b * 4096 + c * 64
    some [UInt8.ofNat (v / 65536), UInt8.ofNat (v / 256 % 256)]
  | _, _, _ => none

/-- Four digits: three bytes. -/
def full4 (e : Enc) (a b c d : Char) : Option Bytes :=
  match value e a, value e b, value e c, value e d with
  | some a, some b, some c, some d =>
    let v := a * 262144 + b * 4096 + c * 64 + d
    some [UInt8.ofNat (v / 65536), UInt8.ofNat (v / 256 % 256), UInt8.ofNat (v % 256)]
  | _, _, _, _ => none

/-- `Encoding.Decode`, four characters at a time, line breaks having been skipped. -/
def decL (e : Enc) : List Char → Option Bytes
  | [] => some []
  | [_] => none
  | [a, b] => if e.pad then none else last2 e a b
  | [a, b, c] => if e.pad then none else last3 e a b c
  | a :: b :: c :: d :: t =>
    if e.pad = true ∧ d = '=' then
      if t = [] then (if c = '=' then last2 e a b else last3 e a b c) else none
    else
      match full4 e a b c d, decL e t with
      | some x, some y => some (x ++ y)
      | _, _ => none

/-- The characters skipped when reading. -/
def notBreak (c : Char) : Bool := c != '\n' && c != '\r'

/-- `DecodeString`. -/
def decode (e : Enc) (s : String) : Option Bytes := decL e (s.toList.filter notBreak)

/-! ## Specification

RFC 4648: the bytes are written out as bits, the bits cut in groups of six, the last group filled up. -/

namespace Spec

/-- The `n` low bits of a number, the highest first. -/
def bitsOf : Nat → Nat → List Bool
  | 0, _ => []
  | n + 1, v => decide (v / 2 ^ n % 2 = 1) :: bitsOf n v

/-- The bits of bytes. -/
def bits8 (x : Bytes) : List Bool := x.flatMap fun b => bitsOf 8 b.toNat

/-- The bits of six-bit digits. -/
def bits6 (ds : List Nat) : List Bool := ds.flatMap (bitsOf 6)

/-- The digits `ds` carry the bytes `x`, with fewer than six bits `rest` left over. -/
structure Carries (ds : List Nat) (x : Bytes) (rest : List Bool) : Prop where
  small : ∀ d ∈ ds, d < 64
  bits : bits6 ds = bits8 x ++ rest
  few : rest.length < 6

/-- The characters of an alphabet: distinct, and neither padding nor line breaks. -/
structure Alphabet (e : Enc) : Prop where
  nodup : (alphabet e).Nodup
  noPad : '=' ∉ alphabet e
  noBreak : ∀ c ∈ alphabet e, c ≠ '\n' ∧ c ≠ '\r'

/-- The padding that fills a text of `n` digits up to a multiple of four. -/
def Filled (e : Enc) (n : Nat) (p : List Char) : Prop :=
  (∀ c ∈ p, c = '=') ∧ if e.pad = true then (n + p.length) % 4 = 0 ∧ p.length < 4 else p = []

end Spec
open Spec

variable {e : Enc}

theorem rawURL_alphabet : Alphabet rawURL := ⟨by decide +kernel, by decide +kernel, by decide +kernel⟩
theorem std_alphabet : Alphabet std := ⟨by decide +kernel, by decide +kernel, by decide +kernel⟩

/-! ## Digits -/

theorem alphabet_length (e : Enc) : (alphabet e).length = 64 := by
  unfold alphabet
  rw [List.length_append]
  rfl

theorem digit_mem (e : Enc) {n : Nat} (h : n < 64) : digit e n ∈ alphabet e := by
  have hl : n < (alphabet e).length := by rw [alphabet_length]; exact h
  unfold digit
  rw [List.getD_eq_getElem?_getD, List.getElem?_eq_getElem hl]
  exact List.getElem_mem _

theorem digit_inj (he : Alphabet e) {m n : Nat} (hm : m < 64) (hn : n < 64) (h : digit e m = digit e n) :
    m = n := by
  have hl := alphabet_length e
  unfold digit at h
  rw [List.getD_eq_getElem?_getD, List.getD_eq_getElem?_getD,
    List.getElem?_eq_getElem (by omega), List.getElem?_eq_getElem (by omega)] at h
  refine (List.getElem?_inj (by omega) he.nodup).1 ?_
  rw [List.getElem?_eq_getElem (by omega), List.getElem?_eq_getElem (by omega)]
  exact congrArg _ h

theorem value_some {c : Char} {n : Nat} (h : value e c = some n) : n < 64 ∧ digit e n = c := by
  unfold value at h
  exact ⟨List.mem_range.1 (List.mem_of_find?_eq_some h), by
    have := List.find?_some (p := fun n => digit e n == c) h
    exact eq_of_beq this⟩

theorem value_digit (he : Alphabet e) {n : Nat} (h : n < 64) : value e (digit e n) = some n := by
  cases hv : value e (digit e n) with
  | none =>
    unfold value at hv
    rw [List.find?_eq_none] at hv
    exact absurd (beq_self_eq_true _) (hv n (List.mem_range.2 h))
  | some m =>
    obtain ⟨h1, h2⟩ := value_some hv
    rw [digit_inj he h1 h h2]

theorem value_pad (he : Alphabet e) : value e '=' = none := by
  cases hv : value e '=' with
  | none => rfl
  | some m =>
    obtain ⟨h1, h2⟩ := value_some hv
    exact absurd (h2 ▸ digit_mem e h1) he.noPad

theorem digit_notBreak (he : Alphabet e) {n : Nat} (h : n < 64) : notBreak (digit e n) = true := by
  obtain ⟨h1, h2⟩ := he.noBreak _ (digit_mem e h)
  simp [notBreak, h1, h2]

theorem digit_notPad (he : Alphabet e) {n : Nat} (h : n < 64) : digit e n ≠ '=' := fun hd =>
  he.noPad (hd ▸ digit_mem e h)

/-! ## Bits -/

theorem bitsOf_length (n v : Nat) : (bitsOf n v).length = n := by
  induction n with
  | zero => rfl
  | succ n ih => simp [bitsOf, ih]

theorem bits8_length (x : Bytes) : (bits8 x).length = 8 * x.length := by
  induction x with
  | nil => rfl
  | cons b x ih =>
    unfold bits8 at *
    rw [List.flatMap_cons, List.length_append, ih, bitsOf_length, List.length_cons]
    omega

theorem bits6_length (ds : List Nat) : (bits6 ds).length = 6 * ds.length := by
  induction ds with
  | nil => rfl
  | cons b x ih =>
    unfold bits6 at *
    rw [List.flatMap_cons, List.length_append, ih, bitsOf_length, List.length_cons]
    omega

theorem bitsOf_inj {n v w : Nat} (hv : v < 2 ^ n) (hw : w < 2 ^ n) (h : bitsOf n v = bitsOf n w) : v = w := by
  have key : ∀ n v w, bitsOf n v = bitsOf n w → v % 2 ^ n = w % 2 ^ n := by
    intro n
    induction n with
    | zero => intro v w _; simp [Nat.mod_one]
    | succ n ih =>
      intro v w h
      unfold bitsOf at h
      obtain ⟨h1, h2⟩ := List.cons.inj h
      have h3 := ih v w h2
      have h4 : (v / 2 ^ n) % 2 = (w / 2 ^ n) % 2 := by
        have := decide_eq_decide.1 h1
        omega
      rw [Nat.pow_succ, Nat.mod_mul, Nat.mod_mul, h3, h4]
  have := key n v w h
  rwa [Nat.mod_eq_of_lt hv, Nat.mod_eq_of_lt hw] at this

theorem bits8_inj {x y : Bytes} (hl : x.length = y.length) {r s : List Bool}
    (h : bits8 x ++ r = bits8 y ++ s) : x = y ∧ r = s := by
  induction x generalizing y with
  | nil =>
    cases y with
    | nil => exact ⟨rfl, h⟩
    | cons _ _ => cases hl
  | cons a x ih =>
    cases y with
    | nil => cases hl
    | cons b y =>
      unfold bits8 at h
      rw [List.flatMap_cons, List.flatMap_cons, List.append_assoc, List.append_assoc] at h
      obtain ⟨h1, h2⟩ := List.append_inj h (by rw [bitsOf_length, bitsOf_length])
      obtain ⟨h3, h4⟩ := ih (Nat.succ.inj hl) h2
      have : a = b := UInt8.toNat_inj.1 (bitsOf_inj a.toNat_lt b.toNat_lt h1)
      exact ⟨by rw [this, h3], h4⟩

theorem bits6_inj {x y : List Nat} (hx : ∀ d ∈ x, d < 64) (hy : ∀ d ∈ y, d < 64)
    (h : bits6 x = bits6 y) : x = y := by
  induction x generalizing y with
  | nil =>
    cases y with
    | nil => rfl
    | cons a y =>
      have := congrArg List.length h
      rw [bits6_length, bits6_length] at this
      simp at this
  | cons a x ih =>
    cases y with
    | nil =>
      have := congrArg List.length h
      rw [bits6_length, bits6_length] at this
      simp at this
    | cons b y =>
      unfold bits6 at h
      rw [List.flatMap_cons, List.flatMap_cons] at h
      obtain ⟨h1, h2⟩ := List.append_inj h (by rw [bitsOf_length, bitsOf_length])
      have e1 : a = b := bitsOf_inj (n := 6) (hx a (by simp)) (hy b (by simp)) h1
      rw [e1, ih (fun d hd => hx d (by simp [hd])) (fun d hd => hy d (by simp [hd])) h2]

/-- What given digits carry is determined. -/
theorem carries_unique {ds : List Nat} {x y : Bytes} {r s : List Bool} (h : Carries ds x r)
    (h' : Carries ds y s) : x = y ∧ r = s := by
  have hb := h.bits.symm.trans h'.bits
  refine bits8_inj ?_ hb
  have := congrArg List.length hb
  rw [List.length_append, List.length_append, bits8_length, bits8_length] at this
  have := h.few
  have := h'.few
  omega

theorem ofNat_toNat {n : Nat} (h : n < 256) : (UInt8.ofNat n).toNat = n := by
  rw [UInt8.toNat_ofNat', Nat.mod_eq_of_lt h]

theorem bits4 {a b c d : Nat} (_ : a < 64) (_ : b < 64) (_ : c < 64) (_ : d < 64) :
    bitsOf 6 a ++ (bitsOf 6 b ++ (bitsOf 6 c ++ bitsOf 6 d)) =
      bitsOf 8 ((a * 262144 + b * 4096 + c * 64 + d) / 65536) ++
      (bitsOf 8 ((a * 262144 + b * 4096 + c * 64 + d) / 256 % 256) ++
        bitsOf 8 ((a * 262144 + b * 4096 + c * 64 + d) % 256)) := by
  simp only [bitsOf, List.cons_append, List.nil_append, List.cons.injEq, decide_eq_decide, and_true]
  omega

theorem bits3 {a b c : Nat} (_ : a < 64) (_ : b < 64) (_ : c < 64) :
    bitsOf 6 a ++ (bitsOf 6 b ++ bitsOf 6 c) =
      bitsOf 8 ((a * 262144 + b * 4096 + c * 64) / 65536) ++
      (bitsOf 8 ((a * 262144 + b * 4096 + c * 64) / 256 % 256) ++ bitsOf 2 (c % 4)) := by
  simp only [bitsOf, List.cons_append, List.nil_append, List.cons.injEq, decide_eq_decide, and_true]
  omega

theorem bits2 {a b : Nat} (_ : a < 64) (_ : b < 64) :
    bitsOf 6 a ++ bitsOf 6 b =
      bitsOf 8 ((a * 262144 + b * 4096) / 65536) ++ bitsOf 4 (b % 16) := by
  simp only [bitsOf, List.cons_append, List.nil_append, List.cons.injEq, decide_eq_decide, and_true]
  omega

/-! ## Reading -/

theorem last2_eq (he : Alphabet e) {a b : Nat} (ha : a < 64) (hb : b < 64) :
    ∃ x, last2 e (digit e a) (digit e b) = some x ∧ Carries [a, b] x (bitsOf 4 (b % 16)) := by
  unfold last2
  rw [value_digit he ha, value_digit he hb]
  refine ⟨_, rfl, by simp; omega, ?_, by rw [bitsOf_length]; omega⟩
  simp only [bits6, bits8, List.flatMap_cons, List.flatMap_nil, List.append_nil]
  rw [ofNat_toNat (by omega)]
  exact bits2 ha hb

theorem last3_eq (he : Alphabet e) {a b c : Nat} (ha : a < 64) (hb : b < 64) (hc : c < 64) :
    ∃ x, last3 e (digit e a) (digit e b) (digit e c) = some x ∧ Carries [a, b, c] x (bitsOf 2 (c % 4)) := by
  unfold last3
  rw [value_digit he ha, value_digit he hb, value_digit he hc]
  refine ⟨_, rfl, by simp; omega, ?_, by rw [bitsOf_length]; omega⟩
  simp only [bits6, bits8, List.flatMap_cons, List.flatMap_nil, List.append_nil]
  rw [ofNat_toNat (by omega), ofNat_toNat (by omega), List.append_assoc]
  exact bits3 ha hb hc

theorem full4_eq (he : Alphabet e) {a b c d : Nat} (ha : a < 64) (hb : b < 64) (hc : c < 64) (hd : d < 64) :
    ∃ x, full4 e (digit e a) (digit e b) (digit e c) (digit e d) = some x ∧
      Carries [a, b, c, d] x [] := by
  unfold full4
  rw [value_digit he ha, value_digit he hb, value_digit he hc, value_digit he hd]
  refine ⟨_, rfl, by simp; omega, ?_, by simp⟩
  simp only [bits6, bits8, List.flatMap_cons, List.flatMap_nil, List.append_nil]
  rw [ofNat_toNat (by omega), ofNat_toNat (by omega), ofNat_toNat (by omega)]
  exact bits4 ha hb hc hd

theorem carries_append {ds ds' : List Nat} {x y : Bytes} {r : List Bool} (h : Carries ds x [])
    (h' : Carries ds' y r) : Carries (ds ++ ds') (x ++ y) r := by
  refine ⟨?_, ?_, h'.few⟩
  · intro d hd
    rcases List.mem_append.1 hd with hd | hd
    · exact h.small d hd
    · exact h'.small d hd
  · have h1 := h.bits
    have h2 := h'.bits
    unfold bits6 bits8 at *
    rw [List.flatMap_append, List.flatMap_append, h1, h2]
    simp

theorem filled_full {n m : Nat} {p : List Char} (h : Filled e n p) (hm : n % 4 = m % 4) : Filled e m p := by
  refine ⟨h.1, ?_⟩
  have := h.2
  split at this
  · rename_i hp
    rw [if_pos hp]
    omega
  · rename_i hp
    rw [if_neg hp]
    exact this

/-- The paddings there are. -/
theorem filled_cases {n : Nat} {p : List Char} (h : Filled e n p) :
    (e.pad = false ∧ p = []) ∨
    (e.pad = true ∧ ((n % 4 = 0 ∧ p = []) ∨ (n % 4 = 3 ∧ p = ['=']) ∨ (n % 4 = 2 ∧ p = ['=', '=']) ∨
      n % 4 = 1)) := by
  obtain ⟨h1, h2⟩ := h
  cases hp : e.pad with
  | false => rw [hp] at h2; exact Or.inl ⟨rfl, h2⟩
  | true =>
    rw [hp, if_pos rfl] at h2
    refine Or.inr ⟨rfl, ?_⟩
    match p, h1, h2 with
    | [], _, h2 => left; exact ⟨by simpa using h2.1, rfl⟩
    | [a], h1, h2 =>
      right; left
      exact ⟨by have := h2.1; simp at this; omega, by rw [h1 a (by simp)]⟩
    | [a, b], h1, h2 =>
      right; right; left
      exact ⟨by have := h2.1; simp at this; omega, by rw [h1 a (by simp), h1 b (by simp)]⟩
    | [a, b, c], _, h2 =>
      right; right; right
      have := h2.1
      simp at this
      omega
    | a :: b :: c :: d :: p, _, h2 =>
      have := h2.2
      simp at this
      omega

/-- Digits whose number does not leave one over, with their padding, are read. -/
theorem decL_some (he : Alphabet e) : ∀ (ds : List Nat) (p : List Char), (∀ d ∈ ds, d < 64) →
    ds.length % 4 ≠ 1 → Filled e ds.length p →
    ∃ x r, decL e (ds.map (digit e) ++ p) = some x ∧ Carries ds x r
  | [], p, _, _, hf => by
    rcases filled_cases hf with ⟨_, rfl⟩ | ⟨_, ⟨_, rfl⟩ | ⟨h, _⟩ | ⟨h, _⟩ | h⟩
    · exact ⟨[], [], rfl, by simp, rfl, by simp⟩
    · exact ⟨[], [], rfl, by simp, rfl, by simp⟩
    all_goals simp at h
  | [a], _, _, h1, _ => absurd rfl h1
  | [a, b], p, hs, _, hf => by
    have ha := hs a (by simp)
    have hb := hs b (by simp)
    obtain ⟨x, hx, hc⟩ := last2_eq he ha hb
    refine ⟨x, _, ?_, hc⟩
    rcases filled_cases hf with ⟨hp, rfl⟩ | ⟨hp, ⟨h, _⟩ | ⟨h, _⟩ | ⟨_, rfl⟩ | h⟩
    · simp [decL, hp, hx]
    · simp at h
    · simp at h
    · simp [decL, hp, hx]
    · simp at h
  | [a, b, c], p, hs, _, hf => by
    have ha := hs a (by simp)
    have hb := hs b (by simp)
    have hc' := hs c (by simp)
    obtain ⟨x, hx, hc⟩ := last3_eq he ha hb hc'
    refine ⟨x, _, ?_, hc⟩
    rcases filled_cases hf with ⟨hp, rfl⟩ | ⟨hp, ⟨h, _⟩ | ⟨_, rfl⟩ | ⟨h, _⟩ | h⟩
    · simp [decL, hp, hx]
    · simp at h
    · simp [decL, hp, hx, digit_notPad he hc']
    · simp at h
    · simp at h
  | a :: b :: c :: d :: t, p, hs, h1, hf => by
    have ha := hs a (by simp)
    have hb := hs b (by simp)
    have hc' := hs c (by simp)
    have hd := hs d (by simp)
    obtain ⟨x, hx, hc⟩ := full4_eq he ha hb hc' hd
    have hl : (a :: b :: c :: d :: t).length % 4 = t.length % 4 := by simp; omega
    obtain ⟨y, r, hy, hcy⟩ := decL_some he t p (fun d hd => hs d (by simp [hd])) (by omega)
      (filled_full hf hl)
    refine ⟨x ++ y, r, ?_, carries_append hc hcy⟩
    simp only [List.map_cons, List.cons_append, decL]
    rw [if_neg (fun h => digit_notPad he hd h.2), hx, hy]

/-- What is read is digits with their padding. -/
theorem decL_inv : ∀ (l : List Char) (x : Bytes), decL e l = some x →
    ∃ (ds : List Nat) (p : List Char), (∀ d ∈ ds, d < 64) ∧ ds.length % 4 ≠ 1 ∧ Filled e ds.length p ∧
      l = ds.map (digit e) ++ p
  | [], _, _ => ⟨[], [], by simp, by simp, ⟨by simp, by split <;> simp⟩, rfl⟩
  | [_], _, h => by cases h
  | [a, b], x, h => by
    unfold decL at h
    cases hp : e.pad with
    | true => rw [hp] at h; cases h
    | false =>
      rw [hp, if_neg (by simp)] at h
      unfold last2 at h
      split at h
      · rename_i va vb h1 h2
        obtain ⟨h1, h1'⟩ := value_some h1
        obtain ⟨h2, h2'⟩ := value_some h2
        exact ⟨[va, vb], [], by simp; omega, by simp, ⟨by simp, by rw [hp]; simp⟩, by simp [h1', h2']⟩
      · cases h
  | [a, b, c], x, h => by
    unfold decL at h
    cases hp : e.pad with
    | true => rw [hp] at h; cases h
    | false =>
      rw [hp, if_neg (by simp)] at h
      unfold last3 at h
      split at h
      · rename_i va vb vc h1 h2 h3
        obtain ⟨h1, h1'⟩ := value_some h1
        obtain ⟨h2, h2'⟩ := value_some h2
        obtain ⟨h3, h3'⟩ := value_some h3
        exact ⟨[va, vb, vc], [], by simp; omega, by simp, ⟨by simp, by rw [hp]; simp⟩,
          by simp [h1', h2', h3']⟩
      · cases h
  | a :: b :: c :: d :: t, x, h => by
    unfold decL at h
    split at h
    · rename_i hpd
      obtain ⟨hp, rfl⟩ := hpd
      split at h
      · rename_i ht
        subst ht
        split at h
        · rename_i hc
          subst hc
          unfold last2 at h
          split at h
          · rename_i va vb h1 h2
            obtain ⟨h1, h1'⟩ := value_some h1
            obtain ⟨h2, h2'⟩ := value_some h2
            exact ⟨[va, vb], ['=', '='], by simp; omega, by simp, ⟨by simp, by rw [hp]; simp⟩,
              by simp [h1', h2']⟩
          · cases h
        · unfold last3 at h
          split at h
          · rename_i va vb vc h1 h2 h3
            obtain ⟨h1, h1'⟩ := value_some h1
            obtain ⟨h2, h2'⟩ := value_some h2
            obtain ⟨h3, h3'⟩ := value_some h3
            exact ⟨[va, vb, vc], ['='], by simp; omega, by simp, ⟨by simp, by rw [hp]; simp⟩,
              by simp [h1', h2', h3']⟩
          · cases h
      · cases h
    · split at h
      · rename_i y z hy hz
        obtain ⟨ds, p, h1, h2, h3, h4⟩ := decL_inv t z hz
        unfold full4 at hy
        split at hy
        · rename_i va vb vc vd g1 g2 g3 g4
          obtain ⟨g1, g1'⟩ := value_some g1
          obtain ⟨g2, g2'⟩ := value_some g2
          obtain ⟨g3, g3'⟩ := value_some g3
          obtain ⟨g4, g4'⟩ := value_some g4
          have hl : ds.length % 4 = (va :: vb :: vc :: vd :: ds).length % 4 := by simp; omega
          refine ⟨va :: vb :: vc :: vd :: ds, p, ?_, by omega, filled_full h3 hl, ?_⟩
          · intro n hn
            simp only [List.mem_cons] at hn
            rcases hn with rfl | rfl | rfl | rfl | hn
            · exact g1
            · exact g2
            · exact g3
            · exact g4
            · exact h1 n hn
          · simp [g1', g2', g3', g4', h4]
        · cases hy
      · cases h

theorem carries_mod {ds : List Nat} {x : Bytes} {r : List Bool} (h : Carries ds x r) : ds.length % 4 ≠ 1 := by
  have := congrArg List.length h.bits
  rw [List.length_append, bits6_length, bits8_length] at this
  have := h.few
  omega

/-- **What is read**: a text is read as `x` exactly when, line breaks apart, it is a sequence of digits
carrying `x`, with the padding that fills it up. -/
theorem decode_iff (he : Alphabet e) (s : String) (x : Bytes) :
    decode e s = some x ↔ ∃ ds r p, Carries ds x r ∧ Filled e ds.length p ∧
      s.toList.filter notBreak = ds.map (digit e) ++ p := by
  unfold decode
  constructor
  · intro h
    obtain ⟨ds, p, h1, h2, h3, h4⟩ := decL_inv _ _ h
    obtain ⟨y, r, hy, hc⟩ := decL_some he ds p h1 h2 h3
    rw [← h4, h] at hy
    cases hy
    exact ⟨ds, r, p, hc, h3, h4⟩
  · rintro ⟨ds, r, p, hc, hf, hl⟩
    obtain ⟨y, r', hy, hc'⟩ := decL_some he ds p hc.small (carries_mod hc) hf
    rw [hl, hy, (carries_unique hc hc').1]

/-! ## Writing -/

theorem toNat_bounds (a : UInt8) : a.toNat < 256 := a.toNat_lt

theorem encL_spec (e : Enc) : ∀ x : Bytes, ∃ ds r p, Carries ds x r ∧ (∀ b ∈ r, b = false) ∧
    Filled e ds.length p ∧ encL e x = ds.map (digit e) ++ p
  | [] => ⟨[], [], [], ⟨by simp, rfl, by simp⟩, by simp, ⟨by simp, by split <;> simp⟩, rfl⟩
  | [a] => by
    have ha := toNat_bounds a
    have h1 : a.toNat * 65536 / 262144 < 64 := by omega
    have h2 : a.toNat * 65536 / 4096 % 64 < 64 := by omega
    refine ⟨[a.toNat * 65536 / 262144, a.toNat * 65536 / 4096 % 64], [false, false, false, false],
      padding e 2, ⟨by simp; omega, ?_, by simp⟩, by simp, ?_, rfl⟩
    · simp only [bits6, bits8, List.flatMap_cons, List.flatMap_nil, List.append_nil]
      simp only [bitsOf, List.cons_append, List.nil_append, List.cons.injEq, decide_eq_decide,
        decide_eq_false_iff_not, and_true]
      omega
    · unfold Filled padding
      cases e.pad <;> simp
  | [a, b] => by
    have ha := toNat_bounds a
    have hb := toNat_bounds b
    refine ⟨[(a.toNat * 65536 + b.toNat * 256) / 262144, (a.toNat * 65536 + b.toNat * 256) / 4096 % 64,
      (a.toNat * 65536 + b.toNat * 256) / 64 % 64], [false, false],
      padding e 1, ⟨by simp; omega, ?_, by simp⟩, by simp, ?_, rfl⟩
    · simp only [bits6, bits8, List.flatMap_cons, List.flatMap_nil, List.append_nil]
      simp only [bitsOf, List.cons_append, List.nil_append, List.cons.injEq, decide_eq_decide,
        decide_eq_false_iff_not, and_true]
      omega
    · unfold Filled padding
      cases e.pad <;> simp
  | a :: b :: c :: t => by
    have ha := toNat_bounds a
    have hb := toNat_bounds b
    have hc := toNat_bounds c
    obtain ⟨ds, r, p, h1, h2, h3, h4⟩ := encL_spec e t
    have hq : Carries [(a.toNat * 65536 + b.toNat * 256 + c.toNat) / 262144,
        (a.toNat * 65536 + b.toNat * 256 + c.toNat) / 4096 % 64,
        (a.toNat * 65536 + b.toNat * 256 + c.toNat) / 64 % 64,
        (a.toNat * 65536 + b.toNat * 256 + c.toNat) % 64] [a, b, c] [] := by
      refine ⟨by simp; omega, ?_, by simp⟩
      simp only [bits6, bits8, List.flatMap_cons, List.flatMap_nil, List.append_nil]
      simp only [bitsOf, List.cons_append, List.nil_append, List.cons.injEq, decide_eq_decide, and_true]
      omega
    refine ⟨_, r, p, carries_append hq h1, h2, filled_full h3 ?_, ?_⟩
    · simp
      omega
    · simp only [encL, h4]
      rfl

/-- A text is the digits that carry `x` with nothing but zeros left over, and the padding. -/
theorem filled_unique {n : Nat} {p q : List Char} (hp : Filled e n p) (hq : Filled e n q)
    (h1 : n % 4 ≠ 1) : p = q := by
  rcases filled_cases hp with ⟨h, rfl⟩ | ⟨h, ⟨g, rfl⟩ | ⟨g, rfl⟩ | ⟨g, rfl⟩ | g⟩ <;>
  rcases filled_cases hq with ⟨h', rfl⟩ | ⟨h', ⟨g', rfl⟩ | ⟨g', rfl⟩ | ⟨g', rfl⟩ | g'⟩ <;>
  first | rfl | omega | (rw [h] at h'; cases h')

theorem zeros_eq {r s : List Bool} (hr : ∀ b ∈ r, b = false) (hs : ∀ b ∈ s, b = false)
    (hl : r.length = s.length) : r = s := by
  rw [List.eq_replicate_of_mem hr, List.eq_replicate_of_mem hs, hl]

/-- **What is written**: the digits that carry `x` and are filled up with zeros, and the padding. -/
theorem encode_iff (x : Bytes) (s : String) :
    encode e x = s ↔ ∃ ds r p, Carries ds x r ∧ (∀ b ∈ r, b = false) ∧ Filled e ds.length p ∧
      s.toList = ds.map (digit e) ++ p := by
  constructor
  · rintro rfl
    obtain ⟨ds, r, p, h1, h2, h3, h4⟩ := encL_spec e x
    exact ⟨ds, r, p, h1, h2, h3, by rw [encode, String.toList_ofList, h4]⟩
  · rintro ⟨ds, r, p, h1, h2, h3, h4⟩
    obtain ⟨ds', r', p', g1, g2, g3, g4⟩ := encL_spec e x
    have hl := congrArg List.length h1.bits
    have hl' := congrArg List.length g1.bits
    rw [List.length_append, bits6_length, bits8_length] at hl hl'
    have f1 := h1.few
    have f2 := g1.few
    have hr : r = r' := zeros_eq h2 g2 (by omega)
    have hd : ds = ds' := bits6_inj h1.small g1.small (by rw [h1.bits, g1.bits, hr])
    subst hd
    have hp : p = p' := filled_unique h3 g3 (carries_mod h1)
    rw [encode, g4, ← hp, ← h4, String.ofList_toList]

/-- **Round trip.** -/
theorem decode_encode (he : Alphabet e) (x : Bytes) : decode e (encode e x) = some x := by
  obtain ⟨ds, r, p, h1, -, h3, h4⟩ := encL_spec e x
  refine (decode_iff he _ _).2 ⟨ds, r, p, h1, h3, ?_⟩
  rw [encode, String.toList_ofList, h4, List.filter_eq_self]
  intro c hc
  rcases List.mem_append.1 hc with hc | hc
  · obtain ⟨d, hd, rfl⟩ := List.mem_map.1 hc
    exact digit_notBreak he (h1.small d hd)
  · rw [h3.1 c hc]; rfl

theorem encode_inj (he : Alphabet e) {x y : Bytes} (h : encode e x = encode e y) : x = y := by
  have := decode_encode he x
  rw [h, decode_encode he y] at this
  exact (Option.some.inj this).symm

/-- The characters of what is written. -/
theorem encode_chars (x : Bytes) : ∀ c ∈ (encode e x).toList, c ∈ alphabet e ∨ (e.pad = true ∧ c = '=') := by
  obtain ⟨ds, r, p, h1, -, h3, h4⟩ := encL_spec e x
  intro c hc
  rw [encode, String.toList_ofList, h4] at hc
  rcases List.mem_append.1 hc with hc | hc
  · obtain ⟨d, hd, rfl⟩ := List.mem_map.1 hc
    exact Or.inl (digit_mem e (h1.small d hd))
  · rcases filled_cases h3 with ⟨_, rfl⟩ | ⟨hp, _⟩
    · cases hc
    · exact Or.inr ⟨hp, h3.1 c hc⟩

/-- The characters of what can be read. -/
theorem decode_chars (he : Alphabet e) {s : String} {x : Bytes} (h : decode e s = some x) :
    ∀ c ∈ s.toList, c ∈ alphabet e ∨ (e.pad = true ∧ c = '=') ∨ c = '\n' ∨ c = '\r' := by
  obtain ⟨ds, r, p, h1, h3, h4⟩ := (decode_iff he _ _).1 h
  intro c hc
  by_cases hb : notBreak c = true
  · have : c ∈ s.toList.filter notBreak := List.mem_filter.2 ⟨hc, hb⟩
    rw [h4] at this
    rcases List.mem_append.1 this with hc | hc
    · obtain ⟨d, hd, rfl⟩ := List.mem_map.1 hc
      exact Or.inl (digit_mem e (h1.small d hd))
    · rcases filled_cases h3 with ⟨_, rfl⟩ | ⟨hp, _⟩
      · cases hc
      · exact Or.inr (Or.inl ⟨hp, h3.1 c hc⟩)
  · right; right
    simp only [notBreak, Bool.and_eq_true, bne_iff_ne, not_and, Classical.not_not] at hb
    by_cases hn : c = '\n'
    · exact Or.inl hn
    · exact Or.inr (hb hn)

theorem encode_nil : encode e [] = "" := rfl

theorem encode_eq_empty (he : Alphabet e) {x : Bytes} (h : encode e x = "") : x = [] :=
  encode_inj he (h.trans encode_nil.symm)

/-! ## How many texts are read as the same bytes -/

theorem six_bits : ∀ a b c d f g : Bool,
    bitsOf 6 (a.toNat * 32 + b.toNat * 16 + c.toNat * 8 + d.toNat * 4 + f.toNat * 2 + g.toNat) =
      [a, b, c, d, f, g] ∧
    a.toNat * 32 + b.toNat * 16 + c.toNat * 8 + d.toNat * 4 + f.toNat * 2 + g.toNat < 64 := by
  decide +kernel

theorem bits6_surj : ∀ (n : Nat) (l : List Bool), l.length = 6 * n →
    ∃ ds, (∀ d ∈ ds, d < 64) ∧ bits6 ds = l ∧ ds.length = n
  | 0, l, h => ⟨[], by simp, by
      have : l = [] := List.length_eq_zero_iff.1 (by omega)
      rw [this]; rfl, rfl⟩
  | n + 1, a :: b :: c :: d :: f :: g :: l, h => by
    obtain ⟨ds, h1, h2, h3⟩ := bits6_surj n l (by simp at h; omega)
    obtain ⟨g1, g2⟩ := six_bits a b c d f g
    refine ⟨(a.toNat * 32 + b.toNat * 16 + c.toNat * 8 + d.toNat * 4 + f.toNat * 2 + g.toNat) :: ds,
      ?_, ?_, by rw [List.length_cons, h3]⟩
    · intro d hd
      rcases List.mem_cons.1 hd with rfl | hd
      · exact g2
      · exact h1 d hd
    · unfold bits6 at *
      rw [List.flatMap_cons, g1, h2]
      rfl
  | _ + 1, [], h => by simp at h
  | _ + 1, [_], h => by simp at h; omega
  | _ + 1, [_, _], h => by simp at h; omega
  | _ + 1, [_, _, _], h => by simp at h; omega
  | _ + 1, [_, _, _, _], h => by simp at h; omega
  | _ + 1, [_, _, _, _, _], h => by simp at h; omega

theorem filter_self_of {s : String} (h : ∀ c ∈ s.toList, notBreak c = true) :
    s.toList.filter notBreak = s.toList := List.filter_eq_self.2 h

theorem digits_notBreak (he : Alphabet e) {ds : List Nat} {p : List Char} (hs : ∀ d ∈ ds, d < 64)
    (hp : ∀ c ∈ p, c = '=') : ∀ c ∈ ds.map (digit e) ++ p, notBreak c = true := by
  intro c hc
  rcases List.mem_append.1 hc with hc | hc
  · obtain ⟨d, hd, rfl⟩ := List.mem_map.1 hc
    exact digit_notBreak he (hs d hd)
  · rw [hp c hc]; rfl

theorem map_digit_inj (he : Alphabet e) : ∀ {x y : List Nat}, (∀ d ∈ x, d < 64) → (∀ d ∈ y, d < 64) →
    x.map (digit e) = y.map (digit e) → x = y
  | [], [], _, _, _ => rfl
  | [], _ :: _, _, _, h => by cases h
  | _ :: _, [], _, _, h => by cases h
  | a :: x, b :: y, hx, hy, h => by
    obtain ⟨h1, h2⟩ := List.cons.inj h
    rw [digit_inj he (hx a (by simp)) (hy b (by simp)) h1,
      map_digit_inj he (fun d hd => hx d (by simp [hd])) (fun d hd => hy d (by simp [hd])) h2]

/-- Bytes whose number is a multiple of three have one text, line breaks apart; all others have more. -/
theorem only_text_iff (he : Alphabet e) (x : Bytes) :
    (∀ s : String, (∀ c ∈ s.toList, c ≠ '\n' ∧ c ≠ '\r') → decode e s = some x → s = encode e x) ↔
      x.length % 3 = 0 := by
  constructor
  · intro h
    apply Classical.byContradiction
    intro hx
    obtain ⟨ds, r, p, h1, h2, h3, h4⟩ := encL_spec e x
    have hl := congrArg List.length h1.bits
    rw [List.length_append, bits6_length, bits8_length] at hl
    have hf := h1.few
    have hr : r.length ≠ 0 := by omega
    obtain ⟨ds', g1, g2, g3⟩ := bits6_surj ds.length (bits8 x ++ List.replicate r.length true) (by
      rw [List.length_append, List.length_replicate, bits8_length]; omega)
    have hc : Carries ds' x (List.replicate r.length true) := ⟨g1, g2, by rw [List.length_replicate]; exact hf⟩
    have hb := digits_notBreak he g1 h3.1
    have hs := h (String.ofList (ds'.map (digit e) ++ p)) (by
        intro c hc
        rw [String.toList_ofList] at hc
        have := hb c hc
        simpa [notBreak] using this)
      ((decode_iff he _ _).2 ⟨ds', _, p, hc, by rw [g3]; exact h3, by
        rw [String.toList_ofList, List.filter_eq_self.2 hb]⟩)
    have hs' := congrArg String.toList hs
    rw [encode, String.toList_ofList, String.toList_ofList, h4] at hs'
    have hd := map_digit_inj he g1 h1.small (List.append_cancel_right hs')
    rw [hd, h1.bits] at g2
    have hr' := List.append_cancel_left g2
    cases r with
    | nil => exact hr rfl
    | cons b r =>
      have := h2 b (by simp)
      rw [this, List.length_cons, List.replicate_succ] at hr'
      cases hr'
  · intro hx s hs hd
    obtain ⟨ds, r, p, h1, h3, h4⟩ := (decode_iff he _ _).1 hd
    have hl := congrArg List.length h1.bits
    rw [List.length_append, bits6_length, bits8_length] at hl
    have hf := h1.few
    have hr : r = [] := List.length_eq_zero_iff.1 (by omega)
    symm
    refine (encode_iff x s).2 ⟨ds, r, p, h1, by simp [hr], h3, ?_⟩
    rw [← h4, List.filter_eq_self.2]
    intro c hc
    have := hs c hc
    simp [notBreak, this]

/-- A line break anywhere is not seen. -/
theorem decode_break (s t : String) (c : Char) (hc : c = '\n' ∨ c = '\r') :
    decode e (s ++ String.singleton c ++ t) = decode e (s ++ t) := by
  unfold decode
  have : notBreak c = false := by rcases hc with rfl | rfl <;> rfl
  simp [String.toList_append, this]

/-! ## Cases -/

/-- Texts in `base64url` are written without padding, in letters, digits, `-` and `_`. -/
theorem rawURL_text (x : Bytes) : ∀ c ∈ (encode rawURL x).toList, c.isAlphanum ∨ c = '-' ∨ c = '_' := by
  intro c hc
  rcases encode_chars (e := rawURL) x c hc with h | h
  · have key : ∀ c ∈ alphabet rawURL, c.isAlphanum ∨ c = '-' ∨ c = '_' := by decide +kernel
    exact key c h
  · exact absurd h.1 (by decide)

/-- Standard texts are written in letters, digits, `+` and `/`, filled up with `=` to a multiple of four. -/
theorem std_text (x : Bytes) :
    ∀ c ∈ (encode std x).toList, c.isAlphanum ∨ c = '+' ∨ c = '/' ∨ c = '=' := by
  intro c hc
  rcases encode_chars (e := std) x c hc with h | h
  · have key : ∀ c ∈ alphabet std, c.isAlphanum ∨ c = '+' ∨ c = '/' ∨ c = '=' := by decide +kernel
    exact key c h
  · exact .inr (.inr (.inr h.2))

/-- "Man", "Ma", "M" (RFC 4648, section 10, and Wikipedia). -/
example : encode rawURL [77, 97, 110] = "TWFu" ∧ encode rawURL [77, 97] = "TWE" ∧ encode std [77, 97] = "TWE=" ∧
    encode std [77] = "TQ==" ∧ encode rawURL [255, 239] = "_-8" ∧ encode std [255, 239] = "/+8=" := by
  decide +kernel

/-- Other texts read as the same byte, and texts that are not read. -/
example : decode rawURL "TQ" = some [77] ∧ decode rawURL "TR" = some [77] ∧ decode rawURL "T\nR" = some [77] ∧
    decode rawURL "TQ==" = none ∧ decode rawURL "T" = none ∧ decode rawURL "T+" = none ∧
    decode std "TQ" = none ∧ decode std "TR==" = some [77] ∧ decode std "TQ=\n=" = some [77] ∧
    decode std "TQ==TQ==" = none ∧ decode std "TQ=a" = none := by decide +kernel

end VC.B64
