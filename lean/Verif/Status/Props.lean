import Verif.Status.Spec
import Mathlib.Tactic.Linarith
/-!
# status: theorems (C01 - C04)
-/

namespace VC.Status
open Spec

/-! ## C01 -/

theorem bits_length (bs : List (BitVec 8)) : (bits bs).length = 8 * bs.length := by
  induction bs with
  | nil => rfl
  | cons b bs ih => simp [bits] at ih ⊢; omega

theorem bits_get (bs : List (BitVec 8)) (q r : Nat) (hr : r < 8) :
    (bits bs)[8 * q + r]? = bs[q]?.map (fun b => b.getLsbD r) := by
  induction bs generalizing q with
  | nil => simp [bits]
  | cons b bs ih =>
    have hc : bits (b :: bs) = (List.range 8).map (fun j => b.getLsbD j) ++ bits bs := by
      simp [bits]
    rw [hc]
    cases q with
    | zero =>
      rw [List.getElem?_append_left (by simpa using hr)]
      simp [hr]
    | succ q =>
      rw [List.getElem?_append_right (by simp; omega)]
      have : 8 * (q + 1) + r - ((List.range 8).map (fun j => b.getLsbD j)).length = 8 * q + r := by
        simp; omega
      rw [this, ih]; simp

theorem and_shift_ne_zero (b : BitVec 8) (r : Nat) (hr : r < 8) :
    ((b &&& (1#8 <<< r)) != 0) = b.getLsbD r := by
  have : r = 0 ∨ r = 1 ∨ r = 2 ∨ r = 3 ∨ r = 4 ∨ r = 5 ∨ r = 6 ∨ r = 7 := by omega
  rcases this with h | h | h | h | h | h | h | h <;> subst h <;> revert b <;> decide

/-- C01.  Looking up index `i`: error exactly when `i < 0` or `i ≥ 8 * len`; otherwise exactly bit
number `i` of the list, least significant bit first. -/
theorem bitAt_spec (bs : List (BitVec 8)) (i : Int) :
    bitAt bs i = if 0 ≤ i then (bits bs)[i.toNat]? else none := by
  unfold bitAt
  by_cases h0 : 0 ≤ i
  · obtain ⟨n, rfl⟩ := Int.eq_ofNat_of_zero_le h0
    have hq : (n : Int).tdiv 8 = ((n / 8 : Nat) : Int) := by
      rw [Int.tdiv_eq_ediv]; simp
    have hr : (n : Int).tmod 8 = ((n % 8 : Nat) : Int) := by
      rw [Int.tmod_eq_emod]; simp
    have hn : n = 8 * (n / 8) + n % 8 := by omega
    simp only [h0, if_true, hq, hr, Int.toNat_natCast]
    by_cases hl : n / 8 < bs.length
    · have : ¬ ((n : Int) < 0 ∨ ((n / 8 : Nat) : Int) ≥ bs.length) := by omega
      rw [if_neg this, and_shift_ne_zero _ _ (Nat.mod_lt _ (by decide))]
      conv => rhs; rw [hn]
      rw [bits_get _ _ _ (Nat.mod_lt _ (by decide))]
      simp [List.getElem?_eq_getElem hl]
    · have : ((n : Int) < 0 ∨ ((n / 8 : Nat) : Int) ≥ bs.length) := by omega
      rw [if_pos this]
      symm
      rw [List.getElem?_eq_none_iff, bits_length]; omega
  · simp [h0, show i < 0 by omega]

/-- C01, error part in the words of the property. -/
theorem bitAt_error_iff (bs : List (BitVec 8)) (i : Int) :
    bitAt bs i = none ↔ i < 0 ∨ i ≥ 8 * bs.length := by
  rw [bitAt_spec]
  split
  · rw [List.getElem?_eq_none_iff, bits_length]; omega
  · simp; omega

example : bitAt [0x02#8, 0x80#8] 1 = some true ∧ bitAt [0x02#8, 0x80#8] 15 = some true ∧
    bitAt [0x02#8, 0x80#8] 16 = none ∧ bitAt [0x02#8, 0x80#8] (-1) = none ∧
    bitAt [0x02#8, 0x80#8] 0 = some false := by decide

/-! ## C04 -/

theorem present_iff (e : Entry) (f : String) :
    (JObj.at e.custom f).isNull = false ↔ Present e f := by
  unfold JObj.at Present
  cases h : GoMap.get? e.custom f with
  | none => simp [Json.isNull]
  | some v => cases v <;> simp [Json.isNull]

theorem checkFields_ok (e : Entry) (fs : List String) :
    checkFields e fs = .ok () ↔ ∀ f ∈ fs, Present e f := by
  induction fs with
  | nil => simp [checkFields]
  | cons f fs ih =>
    unfold checkFields isMissingField
    have := present_iff e f
    cases hn : (JObj.at e.custom f).isNull with
    | true => simp [hn] at this ⊢; simp [this]
    | false => simp [hn] at this ⊢; simp [this, ih]

theorem checkFields_ok' (e : Entry) :
    checkFields e ["statusListCredential", "statusListIndex", "statusPurpose"] = .ok () ↔
      HasFields e := by
  rw [checkFields_ok]; simp [HasFields]

theorem float64ToInt_pos (q : Rat) (n : Nat) (hn : 0 < n) (hb : n < 2 ^ 63) :
    float64ToInt q = n ↔ (n : Rat) ≤ q ∧ q < n + 1 := by
  have hfl : ∀ m : Int, 0 < m → (q.num.tdiv q.den = m ↔ q.floor = m) := by
    intro m hm
    rw [Rat.floor_def, Int.tdiv_eq_ediv]
    by_cases hq : 0 ≤ q.num
    · simp [hq]
    · have hd : (0:Int) < q.den := by exact_mod_cast q.den_pos
      have h1 : q.num / (q.den : Int) < 0 := Int.ediv_neg_of_neg_of_pos (by omega) hd
      have h2 : (q.den : Int).sign = 1 := Int.sign_eq_one_of_pos hd
      rw [h2]
      split <;> omega
  have h1 : (float64ToInt q = n) ↔ q.num.tdiv q.den = n := by
    unfold float64ToInt
    simp only
    split <;> omega
  rw [h1, hfl n (by omega)]
  have a : (n : Int) ≤ q.floor ↔ (n : Rat) ≤ q := by
    have := @Rat.le_floor_iff (n : Int) q; simpa using this
  have b : q.floor < (n : Int) + 1 ↔ q < (n : Rat) + 1 := by
    have := @Rat.floor_lt_iff q ((n : Int) + 1)
    simpa using this
  rw [← a, ← b]; omega

theorem possible_spec (n : Nat) (len : Nat) (hl : len < 2 ^ 63) (hn : 0 < n) :
    (len : Int) = possibleStatusSizes n ↔ len = 2 ^ n - 1 := by
  unfold possibleStatusSizes
  rw [Int.toNat_natCast]
  by_cases h : n < 64
  · have h64 : 2 ^ n < 2 ^ 64 := Nat.pow_lt_pow_right (by decide) h
    have h63 : 2 ^ n ≤ 2 ^ 63 := Nat.pow_le_pow_right (by decide) (by omega)
    have hp : 0 < 2 ^ n := Nat.pow_pos (by decide)
    have : ((1#64 <<< n) - 1#64).toNat = 2 ^ n - 1 := by
      rw [BitVec.toNat_sub, BitVec.toNat_shiftLeft]
      simp only [BitVec.toNat_ofNat, Nat.shiftLeft_eq]
      rw [show 1 % 2 ^ 64 = 1 from rfl, Nat.one_mul, Nat.mod_eq_of_lt h64]
      omega
    rw [BitVec.toInt_eq_toNat_cond, this, if_pos (by omega)]
    omega
  · have hz : (1#64 <<< n) = 0#64 := BitVec.shiftLeft_eq_zero (by omega)
    rw [hz]
    have : (0#64 - 1#64).toInt = -1 := by decide
    rw [this]
    have : 2 ^ 64 ≤ 2 ^ n := Nat.pow_le_pow_right (by decide) (by omega)
    omega

/-- Number of status messages carried by the entry. -/
def msgCount (e : Entry) : Nat :=
  match GoMap.get? e.custom "statusMessage" with
  | some (.arr ms) => ms.length
  | _ => 0

theorem checkStatusSize_ok (e : Entry) (hl : msgCount e < 2 ^ 63) :
    checkStatusSize e = .ok () ↔ SizeOK e := by
  unfold checkStatusSize SizeOK JObj.at
  cases hs : GoMap.get? e.custom "statusSize" with
  | none => simp
  | some v =>
    cases v with
    | null => simp
    | bool b => simp
    | str s => simp
    | arr l => simp
    | obj o => simp
    | num q =>
      simp only [Option.getD_some]
      have hrange : float64ToInt q < 2 ^ 63 := by unfold float64ToInt; simp only; split <;> omega
      by_cases h0 : float64ToInt q ≤ 0
      · simp only [h0, if_true]
        constructor
        · intro h; cases h
        · rintro (h | ⟨q', n, hq, h1, h2, h3⟩)
          · exact absurd (h _ rfl) (by simp)
          · cases hq
            exfalso
            by_cases hb : n < 2 ^ 63
            · have hn : 0 < n := by omega
              have := (float64ToInt_pos q n hn hb).mpr ⟨h1, h2⟩
              omega
            · rcases h3 with h3 | ⟨_, ms, hms, hlen⟩
              · omega
              · simp only [msgCount, hms] at hl
                have : 2 ^ 63 ≤ 2 ^ n - 1 := by
                  have : 2 ^ 64 ≤ 2 ^ n := Nat.pow_le_pow_right (by decide) (by omega)
                  omega
                omega
      · obtain ⟨n, hn⟩ := Int.eq_ofNat_of_zero_le (show 0 ≤ float64ToInt q by omega)
        have hn' : float64ToInt q = (n : Int) := hn
        have hn0 : 0 < n := by omega
        have hnb : n < 2 ^ 63 := by omega
        have hq := (float64ToInt_pos q n hn0 hnb).mp hn'
        have huniq : ∀ m : Nat, (m : Rat) ≤ q → q < m + 1 → m = n := by
          intro m h1 h2
          have a : (m : Rat) < n + 1 := lt_of_le_of_lt h1 hq.2
          have b : (n : Rat) < m + 1 := lt_of_le_of_lt hq.1 h2
          have a' : m < n + 1 := by exact_mod_cast a
          have b' : n < m + 1 := by exact_mod_cast b
          omega
        rw [hn'] at h0
        simp only [hn', h0, if_false]
        by_cases h1 : n = 1
        · subst h1
          simp only [Nat.cast_one, if_true, true_iff]
          exact Or.inr ⟨q, 1, rfl, by simpa using hq.1, by simpa using hq.2, Or.inl rfl⟩
        · have h1' : ¬ ((n : Int) = 1) := by omega
          simp only [h1', if_false]
          have key : ∀ R : Prop, (R ↔ ∃ ms, GoMap.get? e.custom "statusMessage" = some (.arr ms) ∧
              ms.length = 2 ^ n - 1) → (R ↔ ((∀ v, some (Json.num q) = some v → v = Json.null) ∨
              ∃ q' : Rat, ∃ n : Nat, some (Json.num q) = some (Json.num q') ∧ (n : Rat) ≤ q' ∧
                q' < n + 1 ∧ (n = 1 ∨ (1 < n ∧ ∃ ms,
                  GoMap.get? e.custom "statusMessage" = some (.arr ms) ∧
                  ms.length = 2 ^ n - 1)))) := by
            intro R hR
            rw [hR]
            constructor
            · intro h
              exact Or.inr ⟨q, n, rfl, hq.1, hq.2, Or.inr ⟨by omega, h⟩⟩
            · rintro (h | ⟨q', m, he, h2, h3, h4⟩)
              · exact absurd (h _ rfl) (by simp)
              · cases he
                have := huniq m h2 h3
                subst this
                rcases h4 with h4 | h4
                · exact absurd h4 h1
                · exact h4.2
          apply key
          cases hm : GoMap.get? e.custom "statusMessage" with
          | none => simp
          | some mv =>
            cases mv with
            | arr ms =>
              simp only [Option.getD_some]
              have hl' : ms.length < 2 ^ 63 := by simpa [msgCount, hm] using hl
              have := possible_spec n ms.length hl' hn0
              by_cases hc : (ms.length : Int) = possibleStatusSizes n
              · rw [if_neg (by simpa using hc)]
                simpa using this.mp hc
              · rw [if_pos (by simpa using hc)]
                simpa using fun x => hc (this.mpr x)
            | null => simp
            | bool b => simp
            | str s => simp
            | num q => simp
            | obj o => simp

/-- C04, StatusList2021Entry. -/
theorem validate2021_iff (e : Entry) : validateStatus .statusList2021 e = .ok () ↔ WF2021 e := by
  unfold validateStatus WF2021
  by_cases h : e.type = "StatusList2021Entry"
  · simp [h, checkFields_ok']
  · simp [h]

/-- C04, BitstringStatusListEntry (an in-memory Go slice is shorter than 2^63). -/
theorem validateBitstring_iff (e : Entry) (hl : msgCount e < 2 ^ 63) :
    validateStatus .bitstring e = .ok () ↔ WFBitstring e := by
  unfold validateStatus WFBitstring
  by_cases h : e.type = "BitstringStatusListEntry"
  · simp only [h, ne_eq, not_true_eq_false, if_false, true_and]
    rw [← checkStatusSize_ok e hl, ← checkFields_ok']
    cases hc : checkFields e ["statusListCredential", "statusListIndex", "statusPurpose"] with
    | error x => simp
    | ok u => simp
  · simp [h]

/-- A sample BitstringStatusListEntry with statusSize 2 and three messages. -/
def exEntry : Entry where
  id := "https://example.com/status/3#94567"
  type := "BitstringStatusListEntry"
  custom := [("statusPurpose", .str "revocation"), ("statusListIndex", .str "9"),
    ("statusListCredential", .str "https://example.com/status/3"), ("statusSize", .num 2),
    ("statusMessage", .arr [.null, .null, .null])]

example : msgCount exEntry < 2 ^ 63 ∧ WFBitstring exEntry := by
  refine ⟨by decide, rfl, ⟨⟨_, rfl, by simp⟩, ⟨_, rfl, by simp⟩, ⟨_, rfl, by simp⟩⟩, Or.inr
    ⟨2, 2, rfl, by norm_num, by norm_num, Or.inr ⟨by decide, _, rfl, by decide⟩⟩⟩

/-! ## C02, C03 -/

theorem asStr_field (o : JObj) (f s : String) :
    (JObj.at o f).asStr? = some s ↔ StrField o f s := by
  unfold JObj.at StrField
  cases h : GoMap.get? o f with
  | none => simp [Json.asStr?]
  | some v => cases v <;> simp [Json.asStr?]

/-- Entry-level validity of both types at once, as `verifyStatus` establishes it. -/
theorem validated_iff (e : Entry) (hl : msgCount e < 2 ^ 63) :
    (∃ v, getValidator e.type = .ok v ∧ validateStatus v e = .ok ()) ↔
      (WF2021 e ∨ WFBitstring e) := by
  constructor
  · rintro ⟨v, -, h2⟩
    cases v with
    | statusList2021 => exact Or.inl ((validate2021_iff e).mp h2)
    | bitstring => exact Or.inr ((validateBitstring_iff e hl).mp h2)
  · rintro (h | h)
    · exact ⟨.statusList2021, by simp [getValidator, h.1], (validate2021_iff e).mpr h⟩
    · exact ⟨.bitstring, by simp [getValidator, h.1], (validateBitstring_iff e hl).mpr h⟩

/-- The part of `verifyEntry` after validation, as the bit it finds. -/
theorem verifyEntry_points (env : Env) (iss : Option String) (e : Entry)
    (hl : msgCount e < 2 ^ 63) :
    (Points env iss e false ∧ verifyEntry env iss e = .ok ()) ∨
    (Points env iss e true ∧ verifyEntry env iss e = .error (purposeError e)) ∨
    ((∀ b, ¬ Points env iss e b) ∧
      (verifyEntry env iss e = .error .panic ∨ ∃ t, verifyEntry env iss e = .error (.other t))) := by
  have hV := validated_iff e hl
  unfold verifyEntry
  cases hg : getValidator e.type with
  | error x =>
    right; right
    have hx : ∃ t, x = Err.other t := by
      unfold getValidator at hg
      split at hg
      · cases hg
      · split at hg <;> cases hg
        exact ⟨_, rfl⟩
    obtain ⟨t, rfl⟩ := hx
    refine ⟨fun b hP => ?_, Or.inr ⟨t, rfl⟩⟩
    obtain ⟨v, h1, _⟩ := hV.mpr hP.1
    rw [hg] at h1; cases h1
  | ok v =>
    simp only
    cases hv : validateStatus v e with
    | error x =>
      right; right
      have hx : ∃ t, x = Err.other t := by
        have hcf : ∀ fs y, checkFields e fs = .error y → ∃ t, y = Err.other t := by
          intro fs
          induction fs with
          | nil => intro y h; cases h
          | cons f fs ih =>
            intro y h
            unfold checkFields isMissingField at h
            split at h
            · next h' => split at h' <;> cases h'; cases h; exact ⟨_, rfl⟩
            · exact ih y h
        unfold validateStatus at hv
        cases v with
        | statusList2021 =>
          simp only at hv
          split at hv
          · cases hv; exact ⟨_, rfl⟩
          · exact hcf _ _ hv
        | bitstring =>
          simp only at hv
          split at hv
          · cases hv; exact ⟨_, rfl⟩
          · split at hv
            · next h' => cases hv; exact hcf _ _ h'
            · unfold checkStatusSize at hv
              split at hv
              · cases hv
              · simp only at hv
                split at hv
                · cases hv; exact ⟨_, rfl⟩
                · split at hv
                  · cases hv
                  · split at hv
                    · split at hv
                      · cases hv; exact ⟨_, rfl⟩
                      · cases hv
                    · cases hv; exact ⟨_, rfl⟩
              · cases hv; exact ⟨_, rfl⟩
      obtain ⟨t, rfl⟩ := hx
      refine ⟨fun b hP => ?_, Or.inr ⟨t, rfl⟩⟩
      obtain ⟨v', h1, h2⟩ := hV.mpr hP.1
      rw [hg] at h1; cases h1; rw [hv] at h2; cases h2
    | ok u =>
      have hwf : WF2021 e ∨ WFBitstring e := hV.mp ⟨v, hg, by rw [hv]⟩
      have hmb : multiBaseEncoding v = decide (e.type = "BitstringStatusListEntry") := by
        unfold getValidator at hg
        split at hg
        · next h => cases hg; simp [multiBaseEncoding, h]
        · split at hg
          · next h => cases hg; simp [multiBaseEncoding, h]
          · cases hg
      simp only
      -- index
      unfold getStatusListIndex
      cases hi : (JObj.at e.custom "statusListIndex").asStr? with
      | none =>
        right; right
        refine ⟨?_, Or.inr ⟨_, rfl⟩⟩
        rintro b ⟨_, idx, i, uri, vc, is', subj, enc, bytes, h1, _⟩
        have := (asStr_field _ _ _).mpr h1
        rw [hi] at this; cases this
      | some idx =>
        have hidx := (asStr_field _ _ _).mp hi
        simp only
        cases ha : atoi idx with
        | none =>
          right; right
          refine ⟨?_, Or.inr ⟨_, rfl⟩⟩
          rintro b ⟨_, idx', i, uri, vc, is', subj, enc, bytes, h1, h2, _⟩
          have e1 : some (Json.str idx) = some (Json.str idx') := hidx.symm.trans h1
          cases e1; rw [ha] at h2; cases h2
        | some z =>
          simp only
          unfold getStatusVCURI
          cases hu : (JObj.at e.custom "statusListCredential").asStr? with
          | none =>
            right; right
            refine ⟨?_, Or.inr ⟨_, rfl⟩⟩
            rintro b ⟨_, idx, i, uri, vc, is', subj, enc, bytes, _, _, h1, _⟩
            have := (asStr_field _ _ _).mpr h1
            rw [hu] at this; cases this
          | some uri =>
            have huri := (asStr_field _ _ _).mp hu
            simp only
            cases hr : env.resolve uri with
            | none =>
              right; right
              refine ⟨?_, Or.inr ⟨_, rfl⟩⟩
              rintro b ⟨_, idx, i, uri', vc, is', subj, enc, bytes, _, _, h1, h2, _⟩
              have e1 : some (Json.str uri) = some (Json.str uri') := huri.symm.trans h1
              cases e1; rw [hr] at h2; cases h2
            | some lvc =>
              have huq : ∀ uri' vc', StrField e.custom "statusListCredential" uri' →
                  env.resolve uri' = some vc' → vc' = lvc := by
                intro uri' vc' h1 h2
                have e1 : some (Json.str uri) = some (Json.str uri') := huri.symm.trans h1
                cases e1; rw [hr] at h2; cases h2; rfl
              simp only
              cases hli : lvc.issuer with
              | none =>
                right; right
                refine ⟨?_, Or.inr ⟨_, rfl⟩⟩
                rintro b ⟨_, idx, i, uri', vc, is', subj, enc, bytes, _, _, h1, h2, h3, _⟩
                have := huq _ _ h1 h2
                subst this; rw [hli] at h3; cases h3
              | some a =>
                cases hci : iss with
                | none =>
                  right; right
                  refine ⟨?_, Or.inr ⟨_, rfl⟩⟩
                  rintro b ⟨_, idx, i, uri', vc, is', subj, enc, bytes, _, _, _, _, _, h4, _⟩
                  cases h4
                | some b' =>
                  simp only
                  by_cases hab : a = b'
                  · subst hab
                    simp only [ne_eq, not_true_eq_false, if_false]
                    cases hs : lvc.subjects with
                    | nil =>
                      right; right
                      refine ⟨?_, Or.inl rfl⟩
                      rintro b ⟨_, idx, i, uri', vc, is', subj, enc, bytes, _, _, h1, h2, _, _, h5, _⟩
                      have := huq _ _ h1 h2
                      subst this; rw [hs] at h5; cases h5
                    | cons s0 ss =>
                      simp only
                      cases he : (JObj.at s0 "encodedList").asStr? with
                      | none =>
                        right; right
                        refine ⟨?_, Or.inr ⟨_, rfl⟩⟩
                        rintro b ⟨_, idx, i, uri', vc, is', subj, enc, bytes, _, _, h1, h2, _, _, h5, h6, _⟩
                        have := huq _ _ h1 h2
                        subst this; rw [hs] at h5; cases h5
                        have := (asStr_field _ _ _).mpr h6
                        rw [he] at this; cases this
                      | some enc =>
                        have henc := (asStr_field _ _ _).mp he
                        simp only [hmb]
                        cases hd : env.decode (decide (e.type = "BitstringStatusListEntry")) enc with
                        | none =>
                          right; right
                          refine ⟨?_, Or.inr ⟨_, rfl⟩⟩
                          rintro b ⟨_, idx, i, uri', vc, is', subj, enc', bytes, _, _, h1, h2, _, _, h5, h6, h7, _⟩
                          have := huq _ _ h1 h2
                          subst this; rw [hs] at h5; cases h5
                          have e1 : some (Json.str enc) = some (Json.str enc') := henc.symm.trans h6
                          cases e1; rw [hd] at h7; cases h7
                        | some bs =>
                          have hPiff : ∀ b, Points env (some a) e b ↔ bitAt bs z = some b := by
                            intro b
                            constructor
                            · rintro ⟨_, idx', i, uri', vc, is', subj, enc', bytes, h1a, h1b, h1, h2, _, _, h5, h6, h7, h8⟩
                              have := huq _ _ h1 h2
                              subst this; rw [hs] at h5; cases h5
                              have e1 : some (Json.str enc) = some (Json.str enc') := henc.symm.trans h6
                              cases e1; rw [hd] at h7; cases h7
                              have e2 : some (Json.str idx) = some (Json.str idx') := hidx.symm.trans h1a
                              cases e2; rw [ha] at h1b; cases h1b
                              rw [bitAt_spec]; simpa using h8
                            · intro h
                              have hz : 0 ≤ z := by
                                apply Classical.byContradiction
                                intro hz
                                rw [bitAt_spec, if_neg hz] at h; cases h
                              obtain ⟨n, rfl⟩ := Int.eq_ofNat_of_zero_le hz
                              rw [bitAt_spec] at h
                              exact ⟨hwf, idx, n, uri, lvc, a, s0, enc, bs, hidx, ha, huri, hr, hli,
                                rfl, by rw [hs]; rfl, henc, hd, by simpa using h⟩
                          simp only
                          cases hb : bitAt bs z with
                          | none =>
                            right; right
                            refine ⟨fun b hP => ?_, Or.inr ⟨_, rfl⟩⟩
                            rw [hPiff, hb] at hP
                            cases hP
                          | some bb =>
                            cases bb with
                            | true => right; left; exact ⟨(hPiff _).mpr hb, rfl⟩
                            | false => left; exact ⟨(hPiff _).mpr hb, rfl⟩
                  · right; right
                    simp only [ne_eq, hab, not_false_eq_true, if_true]
                    refine ⟨?_, Or.inr ⟨_, rfl⟩⟩
                    rintro b ⟨_, idx, i, uri', vc, is', subj, enc, bytes, _, _, h1, h2, h3, h4, _⟩
                    have := huq _ _ h1 h2
                    subst this; rw [hli] at h3; cases h3; cases h4; exact hab rfl

theorem points_unique {env : Env} {iss : Option String} {e : Entry} {a b : Bool}
    (h1 : Points env iss e a) (h2 : Points env iss e b) : a = b := by
  obtain ⟨_, x1, i, u1, v1, s1, j1, n1, y1, p1, p2, p3, p4, p5, p6, p7, p8, p9, p10⟩ := h1
  obtain ⟨_, x2, j, u2, v2, s2, j2, n2, y2, q1, q2, q3, q4, q5, q6, q7, q8, q9, q10⟩ := h2
  unfold StrField at *
  have : some (Json.str x1) = some (Json.str x2) := p1.symm.trans q1
  cases this
  rw [p2] at q2
  have hij : i = j := by injection q2 with h; omega
  subst hij
  have : some (Json.str u1) = some (Json.str u2) := p3.symm.trans q3
  cases this
  rw [p4] at q4; cases q4
  rw [p7] at q7; cases q7
  have : some (Json.str n1) = some (Json.str n2) := p8.symm.trans q8
  cases this
  rw [p9] at q9; cases q9
  rw [p10] at q10; exact Option.some.inj q10

theorem verifyEntry_ok_iff (env : Env) (iss : Option String) (e : Entry)
    (hl : msgCount e < 2 ^ 63) : verifyEntry env iss e = .ok () ↔ Points env iss e false := by
  rcases verifyEntry_points env iss e hl with ⟨h1, h2⟩ | ⟨h1, h2⟩ | ⟨h1, h2⟩
  · simp [h1, h2]
  · simp only [h2, reduceCtorEq, false_iff]
    intro h; cases points_unique h h1
  · constructor
    · intro h; rcases h2 with h2 | ⟨t, h2⟩ <;> rw [h2] at h <;> cases h
    · intro h; exact absurd h (h1 _)

theorem verifyLoop_ok_iff (env : Env) (iss : Option String) (es : List Entry)
    (hl : ∀ e ∈ es, msgCount e < 2 ^ 63) :
    verifyLoop env iss es = .ok () ↔ ∀ e ∈ es, Points env iss e false := by
  induction es with
  | nil => simp [verifyLoop]
  | cons e es ih =>
    have h1 := verifyEntry_ok_iff env iss e (hl e (by simp))
    have h2 := ih (fun x hx => hl x (by simp [hx]))
    unfold verifyLoop
    cases hv : verifyEntry env iss e with
    | error x => simp [hv] at h1 ⊢; simp [h1]
    | ok u => simp [hv] at h1 ⊢; simp [h1, h2]

/-- C02.  `VerifyStatus` returns nil iff the credential lists a status and every entry points, in a
list issued by the credential's issuer, at a cleared bit. -/
theorem verifyStatus_ok_iff (env : Env) (c : Cred) (hl : ∀ e ∈ c.status, msgCount e < 2 ^ 63) :
    verifyStatus env c = .ok () ↔
      c.status ≠ [] ∧ ∀ e ∈ c.status, Points env c.issuer e false := by
  unfold verifyStatus
  by_cases h : c.status = []
  · simp [h]
  · have : c.status.isEmpty = false := by simpa using h
    rw [this, if_neg (by simp), verifyLoop_ok_iff env c.issuer c.status hl]; simp [h]

/-- The verdict "accepted" does not depend on the order of the entries. -/
theorem verifyStatus_perm (env : Env) (iss : Option String) (es es' : List Entry)
    (hp : es.Perm es') (hl : ∀ e ∈ es, msgCount e < 2 ^ 63) :
    verifyStatus env ⟨iss, es⟩ = .ok () ↔ verifyStatus env ⟨iss, es'⟩ = .ok () := by
  rw [verifyStatus_ok_iff env ⟨iss, es⟩ hl,
    verifyStatus_ok_iff env ⟨iss, es'⟩ (fun e he => hl e (hp.mem_iff.mpr he))]
  constructor
  · rintro ⟨h1, h2⟩
    exact ⟨fun h => h1 (by simp only at h; subst h; exact hp.eq_nil),
      fun e he => h2 e (hp.mem_iff.mpr he)⟩
  · rintro ⟨h1, h2⟩
    exact ⟨fun h => h1 (by simp only at h; subst h; exact hp.symm.eq_nil),
      fun e he => h2 e (hp.mem_iff.mp he)⟩

/-- C03, first half.  An entry whose bit is set, or that cannot be evaluated, always makes
`VerifyStatus` fail, whatever the other entries and their order. -/
theorem revoked_never_masked (env : Env) (c : Cred) (hl : ∀ e ∈ c.status, msgCount e < 2 ^ 63)
    (e : Entry) (he : e ∈ c.status)
    (hbad : Points env c.issuer e true ∨ ∀ b, ¬ Points env c.issuer e b) :
    ∃ x, verifyStatus env c = .error x := by
  cases h : verifyStatus env c with
  | error x => exact ⟨x, rfl⟩
  | ok u =>
    have := ((verifyStatus_ok_iff env c hl).mp h).2 e he
    rcases hbad with hb | hb
    · cases points_unique this hb
    · exact absurd this (hb _)

theorem verifyLoop_error (env : Env) (iss : Option String) (es : List Entry)
    (hl : ∀ e ∈ es, msgCount e < 2 ^ 63) (x : Err) (h : verifyLoop env iss es = .error x) :
    ∃ e ∈ es, verifyEntry env iss e = .error x := by
  induction es with
  | nil => cases h
  | cons e es ih =>
    unfold verifyLoop at h
    cases hv : verifyEntry env iss e with
    | error y => rw [hv] at h; cases h; exact ⟨e, by simp, hv⟩
    | ok u =>
      rw [hv] at h
      obtain ⟨e', h1, h2⟩ := ih (fun x hx => hl x (by simp [hx])) h
      exact ⟨e', by simp [h1], h2⟩

/-- C03, second half.  "revoked" ("suspended") is returned only if some entry whose purpose is
"revocation" ("suspension") really has its bit set in a list issued by the credential's issuer. -/
theorem revoked_sound (env : Env) (c : Cred) (hl : ∀ e ∈ c.status, msgCount e < 2 ^ 63) :
    (verifyStatus env c = .error .revoked → ∃ e ∈ c.status, Points env c.issuer e true ∧
      StrField e.custom "statusPurpose" "revocation") ∧
    (verifyStatus env c = .error .suspended → ∃ e ∈ c.status, Points env c.issuer e true ∧
      StrField e.custom "statusPurpose" "suspension") := by
  have main : ∀ x, (x = Err.revoked ∨ x = Err.suspended) → verifyStatus env c = .error x →
      ∃ e ∈ c.status, Points env c.issuer e true ∧ purposeError e = x := by
    intro x hx h
    unfold verifyStatus at h
    split at h
    · cases h; rcases hx with hx | hx <;> cases hx
    · obtain ⟨e, he, hv⟩ := verifyLoop_error env c.issuer c.status hl x h
      refine ⟨e, he, ?_⟩
      rcases verifyEntry_points env c.issuer e (hl e he) with ⟨h1, h2⟩ | ⟨h1, h2⟩ | ⟨h1, h2⟩
      · rw [h2] at hv; cases hv
      · rw [h2] at hv; cases hv; exact ⟨h1, rfl⟩
      · rcases h2 with h2 | ⟨t, h2⟩
        · rw [h2] at hv; cases hv
          rcases hx with hx | hx <;> cases hx
        · rw [h2] at hv; cases hv
          rcases hx with hx | hx <;> cases hx
  have purp : ∀ e, (purposeError e = .revoked → StrField e.custom "statusPurpose" "revocation") ∧
      (purposeError e = .suspended → StrField e.custom "statusPurpose" "suspension") := by
    intro e
    unfold purposeError getStatusPurpose
    cases h : (JObj.at e.custom "statusPurpose").asStr? with
    | none => simp
    | some s =>
      have hs := (asStr_field _ _ _).mp h
      simp only
      by_cases h1 : s = "revocation"
      · subst h1; simpa using hs
      · by_cases h2 : s = "suspension"
        · subst h2; simpa [h1] using hs
        · simp [h1, h2]
  constructor
  · intro h
    obtain ⟨e, he, h1, h2⟩ := main _ (Or.inl rfl) h
    exact ⟨e, he, h1, (purp e).1 h2⟩
  · intro h
    obtain ⟨e, he, h1, h2⟩ := main _ (Or.inr rfl) h
    exact ⟨e, he, h1, (purp e).2 h2⟩

/-- Completeness of the "revoked" verdict for a single entry: a well-formed entry with purpose
revocation and its bit set is reported as revoked. -/
theorem single_revoked (env : Env) (iss : Option String) (e : Entry) (hl : msgCount e < 2 ^ 63)
    (hP : Points env iss e true) :
    (StrField e.custom "statusPurpose" "revocation" →
      verifyStatus env ⟨iss, [e]⟩ = .error .revoked) ∧
    (StrField e.custom "statusPurpose" "suspension" →
      verifyStatus env ⟨iss, [e]⟩ = .error .suspended) := by
  have h : verifyStatus env ⟨iss, [e]⟩ = .error (purposeError e) := by
    rcases verifyEntry_points env iss e hl with ⟨h1, h2⟩ | ⟨h1, h2⟩ | ⟨h1, h2⟩
    · cases points_unique h1 hP
    · simp [verifyStatus, verifyLoop, h2]
    · exact absurd hP (h1 _)
  rw [h]
  constructor <;> intro hs <;> have := (asStr_field _ _ _).mpr hs <;>
    simp [purposeError, getStatusPurpose, this]

/-- Environment for the non-vacuity examples: index 9 of the list is cleared, 8 is set. -/
def exEnv : Env where
  resolve u := if u = "https://example.com/status/3" then
      some ⟨some "did:ex:1", [[("encodedList", .str "uX")]]⟩ else none
  decode mb s := if mb = true ∧ s = "uX" then some [0#8, 1#8] else none

/-- exEntry pointing at bit 8. -/
def exEntryRevoked : Entry := { exEntry with
  custom := GoMap.set exEntry.custom "statusListIndex" (.str "8") }

example : (∀ e ∈ [exEntry], msgCount e < 2 ^ 63) ∧ Points exEnv (some "did:ex:1") exEntry false ∧
    verifyStatus exEnv ⟨some "did:ex:1", [exEntry]⟩ = .ok () := by
  have h1 : ∀ e ∈ [exEntry], msgCount e < 2 ^ 63 := by simp [msgCount, exEntry, GoMap.get?]
  have h2 : verifyStatus exEnv ⟨some "did:ex:1", [exEntry]⟩ = .ok () := by decide +kernel
  exact ⟨h1, ((verifyStatus_ok_iff exEnv ⟨some "did:ex:1", [exEntry]⟩ h1).mp h2).2 _ (by simp), h2⟩

example : (∀ e ∈ [exEntry, exEntryRevoked], msgCount e < 2 ^ 63) ∧
    verifyStatus exEnv ⟨some "did:ex:1", [exEntry, exEntryRevoked]⟩ = .error .revoked ∧
    verifyStatus exEnv ⟨some "did:ex:2", [exEntry]⟩ = .error (.other "issuer mismatch") := by
  refine ⟨by simp [msgCount, exEntry, exEntryRevoked, GoMap.get?, GoMap.set], by decide +kernel,
    by decide +kernel⟩

end VC.Status
