import Verif.Cwt.Cbor
import Verif.Cwt.CborSpec
import Mathlib.Data.List.Induction
/-!
# Deterministic byte strings and the bytes a COSE signature covers

C88.  Proofs: `deterministic` maps every encoding of a byte string to its one shortest encoding, and
the signed bytes are exactly the RFC 9052 structure, so they determine the protected headers and the
payload.
-/

namespace VC.Cwt

open VC.Vfy (Out)
open VC.Proof (Bytes)
open Spec

/-! ## Big-endian numbers -/

theorem beNat_nil : beNat [] = 0 := rfl

theorem beNat_snoc (a : Bytes) (b : UInt8) : beNat (a ++ [b]) = beNat a * 256 + b.toNat := by
  simp [beNat, List.foldl_append]

theorem be_beNat (a : Bytes) : BE a (beNat a) := by
  induction a using List.reverseRecOn with
  | nil => exact .nil
  | append_singleton a b ih => rw [beNat_snoc]; exact .snoc b ih

theorem beNat_of_be {a : Bytes} {n : Nat} (h : BE a n) : beNat a = n := by
  induction h with
  | nil => rfl
  | snoc b _ ih => rw [beNat_snoc, ih]

theorem be_iff (a : Bytes) (n : Nat) : BE a n ↔ beNat a = n :=
  ⟨beNat_of_be, fun h => h ▸ be_beNat a⟩

theorem beNat_lt (a : Bytes) : beNat a < 256 ^ a.length := by
  induction a using List.reverseRecOn with
  | nil => simp [beNat]
  | append_singleton a b ih =>
    rw [beNat_snoc, List.length_append, List.length_singleton, Nat.pow_succ]
    have := b.toNat_lt
    omega

theorem beBytes_length (k n : Nat) : (beBytes k n).length = k := by
  induction k generalizing n with
  | zero => rfl
  | succ k ih => simp [beBytes, ih]

theorem beNat_beBytes (k n : Nat) (h : n < 256 ^ k) : beNat (beBytes k n) = n := by
  induction k generalizing n with
  | zero => simp at h; subst h; rfl
  | succ k ih =>
    have h1 : n / 256 < 256 ^ k := by
      rw [Nat.pow_succ] at h
      exact Nat.div_lt_of_lt_mul (by omega)
    rw [beBytes, beNat_snoc, ih _ h1]
    have h2 : (UInt8.ofNat (n % 256)).toNat = n % 256 := by
      rw [UInt8.toNat_ofNat']; omega
    rw [h2]; omega

/-- Numbers of the same width are equal only if their bytes are. -/
theorem beNat_inj {a a' : Bytes} (hl : a.length = a'.length) (h : beNat a = beNat a') : a = a' := by
  induction a using List.reverseRecOn generalizing a' with
  | nil => exact (List.length_eq_zero_iff.1 hl.symm).symm
  | append_singleton a b ih =>
    rcases List.eq_nil_or_concat a' with rfl | ⟨x, y, rfl⟩
    · simp at hl
    · simp only [List.concat_eq_append] at *
      rw [beNat_snoc, beNat_snoc] at h
      have hb := b.toNat_lt
      have hy := y.toNat_lt
      have h1 : beNat a = beNat x := by omega
      have h2 : b.toNat = y.toNat := by omega
      simp only [List.length_append, List.length_singleton] at hl
      rw [ih (by omega) h1, UInt8.toNat_inj.1 h2]

theorem beNat_cons (b : UInt8) (a : Bytes) :
    beNat (b :: a) = b.toNat * 256 ^ a.length + beNat a := by
  induction a using List.reverseRecOn with
  | nil => simp [beNat]
  | append_singleton a c ih =>
    rw [← List.cons_append, beNat_snoc, beNat_snoc, ih, List.length_append, List.length_singleton,
      Nat.pow_succ, Nat.add_mul, Nat.mul_assoc]
    omega

/-! ## Encodings of a byte string -/

theorem toNat_short {n : Nat} (h : n < 24) : (UInt8.ofNat (64 + n)).toNat = 64 + n := by
  rw [UInt8.toNat_ofNat']; omega

theorem toNat_long {i : Nat} (h : i < 4) : (UInt8.ofNat (88 + i)).toNat = 88 + i := by
  rw [UInt8.toNat_ofNat']; omega

theorem argLen_eq {ai k : Nat} (h : argLen ai = some k) : ∃ i, i < 4 ∧ ai = 24 + i ∧ k = 2 ^ i := by
  unfold argLen at h
  split at h
  · exact ⟨0, by omega, by omega, by simpa using h.symm⟩
  split at h
  · exact ⟨1, by omega, by omega, by simpa using h.symm⟩
  split at h
  · exact ⟨2, by omega, by omega, by simpa using h.symm⟩
  split at h
  · exact ⟨3, by omega, by omega, by simpa using h.symm⟩
  cases h

theorem argLen_long {i : Nat} (h : i < 4) : argLen (24 + i) = some (2 ^ i) := by
  have : i = 0 ∨ i = 1 ∨ i = 2 ∨ i = 3 := by omega
  rcases this with rfl | rfl | rfl | rfl <;> rfl

theorem bstrHead_cons (b : UInt8) (r : Bytes) : bstrHead (b :: r) =
    if b.toNat % 32 < 24 then some (b.toNat % 32, r)
    else match argLen (b.toNat % 32) with
      | none => none
      | some k => if r.length < k then none else some (beNat (r.take k), r.drop k) := rfl

/-- Reading a byte string accepts exactly its encodings. -/
theorem decodeBstr_iff (b : UInt8) (r s : Bytes) :
    (b.toNat / 32 = 2 ∧ decodeBstr (b :: r) = some s) ↔ BstrOf (b :: r) s := by
  constructor
  · rintro ⟨hm, h⟩
    unfold decodeBstr at h
    rw [bstrHead_cons] at h
    by_cases hs : b.toNat % 32 < 24
    · rw [if_pos hs] at h
      dsimp only at h
      split at h
      · rename_i hl
        cases h
        have : b = UInt8.ofNat (64 + r.length) := by
          apply UInt8.toNat_inj.1
          rw [toNat_short (by omega)]; omega
        rw [this]
        exact .short r (by omega)
      · cases h
    · rw [if_neg hs] at h
      cases hk : argLen (b.toNat % 32) with
      | none => rw [hk] at h; cases h
      | some k =>
        rw [hk] at h
        dsimp only at h
        obtain ⟨i, hi, ha, rfl⟩ := argLen_eq hk
        by_cases hr : r.length < 2 ^ i
        · rw [if_pos hr] at h; cases h
        · rw [if_neg hr] at h
          dsimp only at h
          split at h
          · rename_i hl
            cases h
            have hb : b = UInt8.ofNat (88 + i) := by
              apply UInt8.toNat_inj.1
              rw [toNat_long hi]; omega
            have ht : r = r.take (2 ^ i) ++ r.drop (2 ^ i) := (List.take_append_drop _ _).symm
            have hlen : (r.take (2 ^ i)).length = 2 ^ i := by rw [List.length_take]; omega
            have hbe : BE (r.take (2 ^ i)) (r.drop (2 ^ i)).length := (be_iff _ _).2 hl.symm
            have := BstrOf.long i _ _ hi hlen hbe
            rw [← ht] at this
            rw [hb]; exact this
          · cases h
  · intro h
    generalize hd : b :: r = d at h
    cases h with
    | short _ hl =>
      cases hd
      have h1 := toNat_short hl
      refine ⟨by rw [h1]; omega, ?_⟩
      unfold decodeBstr
      rw [bstrHead_cons, if_pos (by rw [h1]; omega), h1]
      dsimp only
      rw [if_pos (by omega)]
    | long i a _ hi ha hbe =>
      cases hd
      have h1 := toNat_long hi
      refine ⟨by rw [h1]; omega, ?_⟩
      have h2 : (88 + i) % 32 = 24 + i := by omega
      unfold decodeBstr
      rw [bstrHead_cons, h1, h2, if_neg (by omega), argLen_long hi]
      dsimp only
      rw [if_neg (by rw [List.length_append]; omega)]
      dsimp only
      rw [← ha, List.take_left, List.drop_left, beNat_of_be hbe, if_pos rfl]

theorem bstrOf_ne_nil {d s : Bytes} (h : BstrOf d s) : d ≠ [] := by cases h <;> simp

theorem validBstr_iff (d : Bytes) : validBstr d = true ↔ ∃ s, decodeBstr d = some s := by
  unfold validBstr decodeBstr
  cases bstrHead d with
  | none => simp
  | some p =>
    obtain ⟨n, rest⟩ := p
    by_cases h : rest.length = n <;> simp [h]

/-- An encoding has one content. -/
theorem bstrOf_functional {d s s' : Bytes} (h : BstrOf d s) (h' : BstrOf d s') : s = s' := by
  cases d with
  | nil => exact absurd rfl (bstrOf_ne_nil h)
  | cons b r =>
    have h1 := ((decodeBstr_iff b r s).2 h).2
    have h2 := ((decodeBstr_iff b r s').2 h').2
    rw [h1] at h2; exact Option.some.inj h2

/-- The content of an encoding fits in 64 bits. -/
theorem bstrOf_bound {d s : Bytes} (h : BstrOf d s) : s.length < 2 ^ 64 := by
  cases h with
  | short _ hl => exact Nat.lt_trans hl (by decide)
  | long i a _ hi ha hbe =>
    have h1 := beNat_lt a
    rw [beNat_of_be hbe, ha] at h1
    have : i = 0 ∨ i = 1 ∨ i = 2 ∨ i = 3 := by omega
    rcases this with rfl | rfl | rfl | rfl <;> · simp at h1; omega

/-- The canonical writer writes an encoding. -/
theorem encodeBstr_bstrOf (s : Bytes) (h : s.length < 2 ^ 64) : BstrOf (encodeBstr s) s := by
  unfold encodeBstr
  split
  · rename_i h1; exact .short s h1
  split
  · rename_i h1
    exact .long 0 _ s (by omega) (beBytes_length _ _) ((be_iff _ _).2 (beNat_beBytes _ _ (by omega)))
  split
  · rename_i h1
    exact .long 1 _ s (by omega) (beBytes_length _ _) ((be_iff _ _).2 (beNat_beBytes _ _ (by omega)))
  split
  · rename_i h1
    exact .long 2 _ s (by omega) (beBytes_length _ _) ((be_iff _ _).2 (beNat_beBytes _ _ (by omega)))
  · exact .long 3 _ s (by omega) (beBytes_length _ _) ((be_iff _ _).2 (beNat_beBytes _ _ (by omega)))

theorem encodeBstr_length (s : Bytes) : (encodeBstr s).length = s.length +
    (if s.length < 24 then 1 else if s.length < 256 then 2 else if s.length < 65536 then 3
      else if s.length < 4294967296 then 5 else 9) := by
  unfold encodeBstr
  split
  · simp
  split
  · simp [beBytes_length]; omega
  split
  · simp [beBytes_length]; omega
  split
  · simp [beBytes_length]; omega
  · simp [beBytes_length]; omega

/-- The canonical writer writes the shortest encoding. -/
theorem encodeBstr_shortest (s : Bytes) (h : s.length < 2 ^ 64) : Shortest (encodeBstr s) s := by
  refine ⟨encodeBstr_bstrOf s h, fun d' hd => ?_⟩
  rw [encodeBstr_length]
  cases hd with
  | short _ hl => rw [if_pos hl]; simp
  | long i a _ hi ha hbe =>
    have h1 := beNat_lt a
    rw [beNat_of_be hbe, ha] at h1
    have hi4 : i = 0 ∨ i = 1 ∨ i = 2 ∨ i = 3 := by omega
    rw [List.length_cons, List.length_append, ha]
    rcases hi4 with rfl | rfl | rfl | rfl <;> simp at h1 ⊢ <;> (repeat' split) <;> omega

/-- The shortest encoding is unique. -/
theorem shortest_unique {d d' s : Bytes} (h : Shortest d s) (h' : Shortest d' s) : d = d' := by
  have hl : d.length = d'.length := Nat.le_antisymm (h.2 _ h'.1) (h'.2 _ h.1)
  cases h.1 with
  | short _ hs =>
    cases h'.1 with
    | short _ _ => rfl
    | long i a _ hi ha hbe =>
      rw [List.length_cons, List.length_cons, List.length_append, ha] at hl
      have : 0 < 2 ^ i := Nat.pow_pos (by omega)
      omega
  | long i a _ hi ha hbe =>
    cases h'.1 with
    | short _ hs =>
      rw [List.length_cons, List.length_cons, List.length_append, ha] at hl
      have : 0 < 2 ^ i := Nat.pow_pos (by omega)
      omega
    | long i' a' _ hi' ha' hbe' =>
      rw [List.length_cons, List.length_cons, List.length_append, List.length_append] at hl
      have h2 : a.length = a'.length := by omega
      have h3 : a = a' := beNat_inj h2 (by rw [beNat_of_be hbe, beNat_of_be hbe'])
      have h4 : i = i' := by
        rw [ha, ha'] at h2
        exact (Nat.pow_right_inj (by omega)).1 h2
      rw [h3, h4]

theorem shortest_encode {d s : Bytes} (h : Shortest d s) : d = encodeBstr s :=
  shortest_unique h (encodeBstr_shortest s (bstrOf_bound h.1))

/-! ## `deterministicBinaryString` -/

theorem index_ok {d : Bytes} {i : Nat} (h : i < d.length) : index d i = .ok d[i] := by
  unfold index; rw [List.getElem?_eq_getElem h]

/-- With the argument bytes in range, the test never panics and says whether one of them is not
zero. -/
theorem anyNonzero_ok (a r : Bytes) (p : Bytes) :
    anyNonzero (p ++ a ++ r) p.length a.length = .ok (decide (beNat a ≠ 0)) := by
  induction a generalizing p with
  | nil => simp [anyNonzero, beNat]
  | cons c a ih =>
    have hlt : p.length < (p ++ c :: a ++ r).length := by simp
    rw [List.length_cons, anyNonzero, index_ok hlt]
    have hc : (p ++ c :: a ++ r)[p.length] = c := by simp
    rw [hc]
    simp only [Out.bind]
    by_cases h0 : c ≠ 0
    · rw [if_pos h0]
      have : c.toNat ≠ 0 := fun e => h0 (UInt8.toNat_inj.1 (by simpa using e))
      have hb : beNat (c :: a) ≠ 0 := by
        rw [beNat_cons]
        have : 0 < c.toNat * 256 ^ a.length := Nat.mul_pos (by omega) (Nat.pow_pos (by omega))
        omega
      simp [hb]
    · rw [if_neg h0]
      have hz : c = 0 := Decidable.not_not.1 h0
      have := ih (p ++ [c])
      simp only [List.length_append, List.length_singleton, List.append_assoc, List.singleton_append]
        at this ⊢
      rw [this, beNat_cons, hz]
      simp

/-- The `switch`: a long head is kept exactly when no shorter one would do. -/
theorem alreadyShort_spec (i : Nat) (hi : i < 4) (a s : Bytes) (ha : a.length = 2 ^ i)
    (hbe : BE a s.length) :
    ∃ sh, alreadyShort (UInt8.ofNat (88 + i) :: (a ++ s)) (24 + i) = .ok sh ∧
      (sh = true ↔ UInt8.ofNat (88 + i) :: (a ++ s) = encodeBstr s) := by
  have hv := beNat_of_be hbe
  have hlt := beNat_lt a
  rw [ha, hv] at hlt
  have key : (UInt8.ofNat (88 + i) :: (a ++ s) = encodeBstr s) ↔
      (encodeBstr s).length = 1 + 2 ^ i + s.length := by
    constructor
    · intro h; rw [← h]; simp [ha]; omega
    · intro h
      have hb := encodeBstr_shortest s (bstrOf_bound (.long i a s hi ha hbe))
      refine shortest_unique (s := s) ⟨.long i a s hi ha hbe, fun d' hd => ?_⟩ hb
      have := hb.2 d' hd
      rw [h] at this
      simp only [List.length_cons, List.length_append, ha]; omega
  have hi4 : i = 0 ∨ i = 1 ∨ i = 2 ∨ i = 3 := by omega
  rw [key, encodeBstr_length]
  have nz : ∀ (p q : Bytes), beNat (p ++ q) = beNat p * 256 ^ q.length + beNat q := by
    intro p q
    induction p using List.reverseRecOn generalizing q with
    | nil => simp [beNat]
    | append_singleton p c ih =>
      rw [List.append_assoc, ih, beNat_snoc, List.singleton_append, beNat_cons, List.length_cons,
        Nat.pow_succ, Nat.add_mul]
      rw [Nat.mul_assoc, Nat.mul_comm 256]; omega
  have half : ∀ (k m : Nat), a.length = k + m → ∀ ai, 
      alreadyShort (UInt8.ofNat (88 + i) :: (a ++ s)) ai =
        anyNonzero (UInt8.ofNat (88 + i) :: (a ++ s)) 1 k →
      ∃ sh, alreadyShort (UInt8.ofNat (88 + i) :: (a ++ s)) ai = .ok sh ∧
        (sh = true ↔ 256 ^ m ≤ s.length) := by
    intro k m hkm ai hal
    have hsplit : a = a.take k ++ a.drop k := (List.take_append_drop _ _).symm
    have htl : (a.take k).length = k := by rw [List.length_take]; omega
    have hdl : (a.drop k).length = m := by rw [List.length_drop]; omega
    have h1 := anyNonzero_ok (a.take k) (a.drop k ++ s) [UInt8.ofNat (88 + i)]
    rw [htl] at h1
    have h2 : [UInt8.ofNat (88 + i)] ++ a.take k ++ (a.drop k ++ s) =
        UInt8.ofNat (88 + i) :: (a ++ s) := by
      rw [List.append_assoc, ← List.append_assoc (a.take k), List.take_append_drop]; rfl
    rw [h2] at h1
    refine ⟨_, hal.trans h1, ?_⟩
    have h3 := nz (a.take k) (a.drop k)
    rw [List.take_append_drop, hv, hdl] at h3
    have h4 := beNat_lt (a.drop k)
    rw [hdl] at h4
    simp only [decide_eq_true_eq]
    constructor
    · intro hne
      have : 256 ^ m ≤ beNat (a.take k) * 256 ^ m := Nat.le_mul_of_pos_left _ (by omega)
      omega
    · intro hle h0
      rw [h0] at h3; omega
  rcases hi4 with rfl | rfl | rfl | rfl
  · match a, ha with
    | [c], _ =>
      refine ⟨decide (24 ≤ c.toNat), rfl, ?_⟩
      have : s.length = c.toNat := by rw [← hv]; simp [beNat]
      have hc := c.toNat_lt
      simp only [decide_eq_true_eq]
      rw [this]
      repeat' split <;> simp <;> omega
  · obtain ⟨sh, h1, h2⟩ := half 1 1 ha 25 rfl
    refine ⟨sh, h1, h2.trans ?_⟩
    simp at hlt
    (repeat' split) <;> simp <;> omega
  · obtain ⟨sh, h1, h2⟩ := half 2 2 ha 26 rfl
    refine ⟨sh, h1, h2.trans ?_⟩
    simp at hlt
    (repeat' split) <;> simp <;> omega
  · obtain ⟨sh, h1, h2⟩ := half 4 4 ha 27 rfl
    refine ⟨sh, h1, h2.trans ?_⟩
    simp at hlt
    (repeat' split) <;> simp <;> omega

theorem deterministic_cons (b : UInt8) (r : Bytes) : deterministic (b :: r) =
    if b.toNat / 32 ≠ 2 then .err
    else if !validBstr (b :: r) then .err
    else if b.toNat % 32 < 24 then .ok (b :: r)
    else (alreadyShort (b :: r) (b.toNat % 32)).bind fun short =>
      if short then .ok (b :: r)
      else match decodeBstr (b :: r) with
        | none => .err
        | some s => .ok (encodeBstr s) := rfl

/-- `deterministicBinaryString` of an encoding of `s` is the shortest encoding of `s`. -/
theorem deterministic_of_bstr {d s : Bytes} (h : BstrOf d s) :
    deterministic d = .ok (encodeBstr s) := by
  cases d with
  | nil => exact absurd rfl (bstrOf_ne_nil h)
  | cons b r =>
    obtain ⟨hm, hd⟩ := (decodeBstr_iff b r s).2 h
    have hv : validBstr (b :: r) = true := (validBstr_iff _).2 ⟨s, hd⟩
    have hunf : deterministic (b :: r) = if b.toNat % 32 < 24 then .ok (b :: r)
        else (alreadyShort (b :: r) (b.toNat % 32)).bind fun short =>
          if short then .ok (b :: r) else .ok (encodeBstr s) := by
      have hc : ¬ (b.toNat / 32 ≠ 2) := fun h => h hm
      rw [deterministic_cons, if_neg hc, hv, hd]
      rfl
    rw [hunf]
    generalize hx : b :: r = x at h
    cases h with
    | short _ hl =>
      cases hx
      have h1 := toNat_short hl
      rw [if_pos (by rw [h1]; omega)]
      unfold encodeBstr
      rw [if_pos hl]
    | long i a _ hi ha hbe =>
      have hb : b = UInt8.ofNat (88 + i) := (List.cons.inj hx).1
      have h1 := toNat_long hi
      have h2 : b.toNat % 32 = 24 + i := by rw [hb, h1]; omega
      rw [h2, if_neg (by omega)]
      obtain ⟨sh, e1, e2⟩ := alreadyShort_spec i hi a s ha hbe
      rw [e1]
      simp only [Out.bind]
      cases sh with
      | true => rw [← e2.1 rfl]; rfl
      | false => simp

theorem deterministic_not_bstr {d : Bytes} (h : ¬ ∃ s, BstrOf d s) : deterministic d = .err := by
  cases d with
  | nil => rfl
  | cons b r =>
    rw [deterministic_cons]
    by_cases hm : b.toNat / 32 = 2
    · have hc : ¬ (b.toNat / 32 ≠ 2) := fun h => h hm
      rw [if_neg hc]
      have : validBstr (b :: r) = false := by
        cases hv : validBstr (b :: r) with
        | false => rfl
        | true =>
          obtain ⟨s, hs⟩ := (validBstr_iff _).1 hv
          exact absurd ⟨s, (decodeBstr_iff b r s).1 ⟨hm, hs⟩⟩ h
      rw [this]; rfl
    · rw [if_pos hm]

/-- **C88** (canonical form): the result is the shortest encoding of the same byte string, and there
is one exactly when the input is a definite-length byte string with nothing after it. -/
theorem deterministic_spec (d out : Bytes) :
    deterministic d = .ok out ↔ ∃ s, BstrOf d s ∧ Shortest out s := by
  constructor
  · intro h
    by_cases hb : ∃ s, BstrOf d s
    · obtain ⟨s, hs⟩ := hb
      rw [deterministic_of_bstr hs] at h
      cases h
      exact ⟨s, hs, encodeBstr_shortest s (bstrOf_bound hs)⟩
    · rw [deterministic_not_bstr hb] at h; cases h
  · rintro ⟨s, hs, ho⟩
    rw [deterministic_of_bstr hs, ← shortest_encode ho]

/-- **C88**: anything else is an error. -/
theorem deterministic_err (d : Bytes) : deterministic d = .err ↔ ¬ ∃ s, BstrOf d s := by
  refine ⟨fun h hb => ?_, deterministic_not_bstr⟩
  obtain ⟨s, hs⟩ := hb
  rw [deterministic_of_bstr hs] at h; cases h

/-- **C88**: no input makes it index out of range. -/
theorem deterministic_no_panic (d : Bytes) : deterministic d ≠ .panic := by
  by_cases hb : ∃ s, BstrOf d s
  · obtain ⟨s, hs⟩ := hb
    rw [deterministic_of_bstr hs]; simp
  · rw [deterministic_not_bstr hb]; simp

/-- **C88**: canonicalising twice changes nothing more. -/
theorem deterministic_idem {d out : Bytes} (h : deterministic d = .ok out) :
    deterministic out = .ok out := by
  obtain ⟨s, _, ho⟩ := (deterministic_spec d out).1 h
  exact (deterministic_spec out out).2 ⟨s, ho.1, ho⟩

/-- **C88**: two inputs have the same canonical form exactly when they carry the same bytes. -/
theorem deterministic_eq_iff {d d' s s' : Bytes} (h : BstrOf d s) (h' : BstrOf d' s') :
    deterministic d = deterministic d' ↔ s = s' := by
  rw [deterministic_of_bstr h, deterministic_of_bstr h']
  constructor
  · intro e
    injection e with e
    have h1 := encodeBstr_bstrOf s (bstrOf_bound h)
    rw [e] at h1
    exact bstrOf_functional h1 (encodeBstr_bstrOf s' (bstrOf_bound h'))
  · rintro rfl; rfl

/-! ## The signed bytes -/

/-- An encoding says where it ends. -/
theorem bstrOf_prefix {d s d' s' x y : Bytes} (h : BstrOf d s) (h' : BstrOf d' s')
    (e : d ++ x = d' ++ y) : d = d' ∧ x = y := by
  cases h with
  | short _ hl =>
    cases h' with
    | short _ hl' =>
      simp only [List.cons_append, List.cons.injEq] at e
      have h1 : s.length = s'.length := by
        have := congrArg UInt8.toNat e.1
        rw [toNat_short hl, toNat_short hl'] at this; omega
      obtain ⟨rfl, rfl⟩ := List.append_inj e.2 h1
      exact ⟨rfl, rfl⟩
    | long i a _ hi ha hbe =>
      simp only [List.cons_append, List.cons.injEq] at e
      have := congrArg UInt8.toNat e.1
      rw [toNat_short hl, toNat_long hi] at this; omega
  | long i a _ hi ha hbe =>
    cases h' with
    | short _ hl' =>
      simp only [List.cons_append, List.cons.injEq] at e
      have := congrArg UInt8.toNat e.1
      rw [toNat_short hl', toNat_long hi] at this; omega
    | long i' a' _ hi' ha' hbe' =>
      simp only [List.cons_append, List.cons.injEq, List.append_assoc] at e
      have hii : i = i' := by
        have := congrArg UInt8.toNat e.1
        rw [toNat_long hi, toNat_long hi'] at this; omega
      subst hii
      obtain ⟨rfl, e2⟩ := List.append_inj e.2 (by rw [ha, ha'])
      have h1 : s.length = s'.length := by rw [← beNat_of_be hbe, ← beNat_of_be hbe']
      obtain ⟨rfl, rfl⟩ := List.append_inj e2 h1
      exact ⟨rfl, rfl⟩

theorem sig1_text : (0x6a :: "Signature1".toUTF8.data.toList : Bytes) = sig1Text := by decide +kernel

theorem encodePayload_spec {q : Bytes} {p : Option Bytes} (hp : ∀ b, p = some b → b.length < 2 ^ 64) :
    PayloadOf q p ↔ q = encodePayload p := by
  cases p with
  | none =>
    constructor
    · intro h; cases h; rfl
    · rintro rfl; exact .null
  | some b =>
    constructor
    · intro h; cases h with | bytes hs => exact shortest_encode hs
    · rintro rfl; exact .bytes (encodeBstr_shortest b (hp b rfl))

/-- **C88** (what is signed): the bytes are the `Sig_structure` of RFC 9052 over the content of the
protected header and the payload, and there are such bytes exactly when the protected header can be
written as a byte string. -/
theorem proofValue_spec (prot payload : Option Bytes) (msg : Bytes)
    (hp : ∀ b, payload = some b → b.length < 2 ^ 64) :
    getProofValue prot payload = .ok msg ↔
      ∃ d s, prot = some d ∧ BstrOf d s ∧ SigStructure msg s payload := by
  unfold getProofValue SigStructure
  rw [sig1_text]
  cases prot with
  | none => simp
  | some d =>
    dsimp only
    by_cases hb : ∃ s, BstrOf d s
    · obtain ⟨s, hs⟩ := hb
      rw [deterministic_of_bstr hs]
      simp only [Out.bind]
      constructor
      · intro h
        cases h
        exact ⟨d, s, rfl, hs, encodeBstr s, encodePayload payload,
          encodeBstr_shortest s (bstrOf_bound hs), (encodePayload_spec hp).2 rfl, by simp⟩
      · rintro ⟨_, s', hd, hs', d2, q, h2, hq, rfl⟩
        cases hd
        have := bstrOf_functional hs hs'
        subst this
        rw [shortest_encode h2, (encodePayload_spec hp).1 hq]
        simp
    · rw [deterministic_not_bstr hb]
      simp only [Out.bind]
      constructor
      · intro h; cases h
      · rintro ⟨_, s', hd, hs', -⟩
        cases hd
        exact absurd ⟨s', hs'⟩ hb

/-- **C88**: `GetProofValue` never panics. -/
theorem proofValue_no_panic (prot payload : Option Bytes) : getProofValue prot payload ≠ .panic := by
  unfold getProofValue
  cases prot with
  | none => simp
  | some d =>
    dsimp only
    have := deterministic_no_panic d
    cases h : deterministic d with
    | ok x => simp [Out.bind]
    | err => simp [Out.bind]
    | panic => exact absurd h this

theorem payloadOf_inj {q : Bytes} {p p' : Option Bytes} (h : PayloadOf q p) (h' : PayloadOf q p') :
    p = p' := by
  generalize hx : q = x at h'
  cases h with
  | null =>
    cases h' with
    | null => rfl
    | @bytes d s hs =>
      subst hx
      have := hs.1
      generalize hy : ([0xf6] : Bytes) = y at this
      cases this with
      | short _ hl =>
        have e := congrArg UInt8.toNat (List.cons.inj hy).1
        rw [toNat_short hl] at e; simp at e; omega
      | long i a _ hi ha hbe =>
        have e := congrArg UInt8.toNat (List.cons.inj hy).1
        rw [toNat_long hi] at e; simp at e; omega
  | @bytes d s hs =>
    cases h' with
    | null =>
      subst hx
      have := hs.1
      generalize hy : ([0xf6] : Bytes) = y at this
      cases this with
      | short _ hl =>
        have e := congrArg UInt8.toNat (List.cons.inj hy).1
        rw [toNat_short hl] at e; simp at e; omega
      | long i a _ hi ha hbe =>
        have e := congrArg UInt8.toNat (List.cons.inj hy).1
        rw [toNat_long hi] at e; simp at e; omega
    | bytes hs' =>
      subst hx
      rw [bstrOf_functional hs.1 hs'.1]

/-- The signature structure determines its parts. -/
theorem sigStructure_inj {msg prot prot' : Bytes} {p p' : Option Bytes}
    (h : SigStructure msg prot p) (h' : SigStructure msg prot' p') : prot = prot' ∧ p = p' := by
  obtain ⟨d, q, hd, hq, rfl⟩ := h
  obtain ⟨d', q', hd', hq', e⟩ := h'
  simp only [List.append_assoc] at e
  have e1 := List.append_cancel_left (List.append_cancel_left e)
  obtain ⟨rfl, e2⟩ := bstrOf_prefix hd.1 hd'.1 e1
  have e3 := List.append_cancel_left e2
  subst e3
  exact ⟨bstrOf_functional hd.1 hd'.1, payloadOf_inj hq hq'⟩

/-- **C88** (binding): two messages have the same signed bytes only if their protected headers have
the same content and their payloads are the same; a signature cannot be moved to another payload or
another set of protected headers. -/
theorem proofValue_binds (prot prot' payload payload' : Option Bytes) (msg : Bytes)
    (hp : ∀ b, payload = some b → b.length < 2 ^ 64) (hp' : ∀ b, payload' = some b → b.length < 2 ^ 64)
    (h : getProofValue prot payload = .ok msg) (h' : getProofValue prot' payload' = .ok msg) :
    payload = payload' ∧ ∃ d d' s, prot = some d ∧ prot' = some d' ∧ BstrOf d s ∧ BstrOf d' s := by
  obtain ⟨d, s, rfl, hs, hm⟩ := (proofValue_spec prot payload msg hp).1 h
  obtain ⟨d', s', rfl, hs', hm'⟩ := (proofValue_spec prot' payload' msg hp').1 h'
  obtain ⟨rfl, rfl⟩ := sigStructure_inj hm hm'
  exact ⟨rfl, d, d', s, rfl, rfl, hs, hs'⟩

/-- **C88**: re-encoding the protected header by a relay (a longer head) does not change what is
signed. -/
theorem proofValue_canonical (d d' s : Bytes) (payload : Option Bytes) (h : BstrOf d s)
    (h' : BstrOf d' s) : getProofValue (some d) payload = getProofValue (some d') payload := by
  simp only [getProofValue, deterministic_of_bstr h, deterministic_of_bstr h']

/-! ## Examples -/

/-- Three encodings of the bytes `a1 01 26` (the header `{alg: ES256}`), one canonical form. -/
example : deterministic [0x58, 3, 0xa1, 1, 0x26] = .ok [0x43, 0xa1, 1, 0x26] := by rfl
example : deterministic [0x5b, 0, 0, 0, 0, 0, 0, 0, 3, 0xa1, 1, 0x26] = .ok [0x43, 0xa1, 1, 0x26] := by
  rfl
example : BstrOf [0x59, 0, 3, 0xa1, 1, 0x26] [0xa1, 1, 0x26] :=
  .long 1 [0, 3] [0xa1, 1, 0x26] (by omega) rfl ((be_iff _ _).2 rfl)
/-- A cut-off string, a string with a byte too many and a text are refused. -/
example : deterministic [0x58, 4, 0xa1, 1, 0x26] = .err := by rfl
example : deterministic [0x43, 0xa1, 1, 0x26, 0] = .err := by rfl
example : deterministic [0x63, 0x61, 0x62, 0x63] = .err := by rfl
example : deterministic [0x5b, 0] = .err := by rfl
/-- The signed bytes of a message with that header and the payload `01`; detached. -/
example : getProofValue (some [0x58, 3, 0xa1, 1, 0x26]) (some [1]) =
    .ok ([0x84, 0x6a, 83, 105, 103, 110, 97, 116, 117, 114, 101, 49] ++ [0x43, 0xa1, 1, 0x26, 0x40, 0x41, 1]) := by
  rfl
example : getProofValue (some [0x43, 0xa1, 1, 0x26]) none =
    .ok ([0x84, 0x6a, 83, 105, 103, 110, 97, 116, 117, 114, 101, 49] ++ [0x43, 0xa1, 1, 0x26, 0x40, 0xf6]) := by
  rfl

end VC.Cwt
