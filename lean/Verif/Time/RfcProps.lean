import Verif.Time.Rfc
/-!
# C121: which texts are times
-/

namespace VC.Tm

theorem isDigit_iff (c : Char) : c.isDigit = true ↔ '0' ≤ c ∧ c ≤ '9' := by
  unfold Char.isDigit
  simp only [Bool.and_eq_true, decide_eq_true_eq]
  exact Iff.rfl

theorem base10_append (l l' : List Char) :
    base10 (l ++ l') = base10 l * 10 ^ l'.length + base10 l' := by
  induction l with
  | nil => simp [base10]
  | cons c l ih =>
    simp only [List.cons_append, base10, ih, List.length_append, Nat.pow_add, Nat.add_mul, Nat.mul_assoc]
    omega

theorem atoi_eq (l : List Char) : atoi l = base10 l := by
  have gen : ∀ (l : List Char) (n : Nat), l.foldl (fun n c => 10 * n + val c) n = n * 10 ^ l.length + base10 l := by
    intro l
    induction l with
    | nil => intro n; simp [base10]
    | cons c l ih =>
      intro n
      rw [List.foldl_cons, ih, base10, List.length_cons, Nat.pow_succ, Nat.add_mul]
      have e : 10 * n * 10 ^ l.length = n * (10 ^ l.length * 10) := by
        rw [Nat.mul_comm 10 n, Nat.mul_assoc, Nat.mul_comm 10]
      rw [e]
      simp only [val, show '0'.toNat = 48 from rfl]
      omega
  have := gen l 0
  unfold atoi
  omega

theorem base10_lt (l : List Char) (h : ∀ c ∈ l, '0' ≤ c ∧ c ≤ '9') : base10 l < 10 ^ l.length := by
  induction l with
  | nil => simp [base10]
  | cons c l ih =>
    have hc := h c (by simp)
    have := ih fun x hx => h x (List.mem_cons_of_mem _ hx)
    have hv : c.toNat - '0'.toNat ≤ 9 := by
      have : c.toNat ≤ 57 := hc.2
      show c.toNat - 48 ≤ 9
      omega
    rw [base10, List.length_cons, Nat.pow_succ]
    have := Nat.mul_le_mul_right (10 ^ l.length) hv
    omega

theorem getYear_iff (l r : List Char) (y : Nat) :
    getYear l = some (y, r) ↔ ∃ t, Num 4 y t ∧ l = t ++ r := by
  constructor
  · intro h
    unfold getYear at h
    split at h
    · rename_i a b c d r'
      split at h
      · rename_i hd
        simp only [Bool.and_eq_true] at hd
        simp only [Option.some.injEq, Prod.mk.injEq] at h
        obtain ⟨h1, rfl⟩ := h
        refine ⟨[a, b, c, d], ⟨rfl, ?_, ?_⟩, rfl⟩
        · intro x hx
          simp only [List.mem_cons, List.not_mem_nil, or_false] at hx
          rw [← isDigit_iff]
          rcases hx with rfl | rfl | rfl | rfl
          · exact hd.1.1.1
          · exact hd.1.1.2
          · exact hd.1.2
          · exact hd.2
        · simp only [base10, List.length_cons, List.length_nil]
          simp only [val] at h1
          simp only [show '0'.toNat = 48 from rfl]
          omega
      · cases h
    · cases h
  · rintro ⟨t, ⟨hl, hd, hb⟩, rfl⟩
    match t, hl with
    | [a, b, c, d], _ =>
      have ha := (isDigit_iff a).2 (hd a (by simp))
      have hb' := (isDigit_iff b).2 (hd b (by simp))
      have hc := (isDigit_iff c).2 (hd c (by simp))
      have hd' := (isDigit_iff d).2 (hd d (by simp))
      simp only [getYear, List.cons_append, List.nil_append, ha, hb', hc, hd', Bool.and_self, if_true,
        Option.some.injEq, Prod.mk.injEq, and_true]
      simp only [base10, List.length_cons, List.length_nil, show '0'.toNat = 48 from rfl] at hb
      simp only [val]
      omega

theorem num2 {n : Nat} {t : List Char} (h : Num 2 n t) :
    ∃ a b, t = [a, b] ∧ a.isDigit = true ∧ b.isDigit = true ∧ n = 10 * val a + val b := by
  obtain ⟨hl, hd, hb⟩ := h
  match t, hl with
  | [a, b], _ =>
    refine ⟨a, b, rfl, (isDigit_iff a).2 (hd a (by simp)), (isDigit_iff b).2 (hd b (by simp)), ?_⟩
    simp only [base10, List.length_cons, List.length_nil, show '0'.toNat = 48 from rfl] at hb
    simp only [val]
    omega

theorem num2_mk {a b : Char} (ha : a.isDigit = true) (hb : b.isDigit = true) :
    Num 2 (10 * val a + val b) [a, b] := by
  refine ⟨rfl, ?_, ?_⟩
  · intro x hx
    simp only [List.mem_cons, List.not_mem_nil, or_false] at hx
    rcases hx with rfl | rfl
    · exact (isDigit_iff x).1 ha
    · exact (isDigit_iff x).1 hb
  · simp only [base10, List.length_cons, List.length_nil, show '0'.toNat = 48 from rfl, val]
    omega

theorem num1 {n : Nat} {t : List Char} (h : Num 1 n t) :
    ∃ a, t = [a] ∧ a.isDigit = true ∧ n = val a := by
  obtain ⟨hl, hd, hb⟩ := h
  match t, hl with
  | [a], _ =>
    refine ⟨a, rfl, (isDigit_iff a).2 (hd a (by simp)), ?_⟩
    simp only [base10, List.length_nil, show '0'.toNat = 48 from rfl] at hb
    simp only [val]
    omega

theorem num1_mk {a : Char} (ha : a.isDigit = true) : Num 1 (val a) [a] := by
  refine ⟨rfl, ?_, ?_⟩
  · intro x hx
    simp only [List.mem_cons, List.not_mem_nil, or_false] at hx
    subst hx
    exact (isDigit_iff x).1 ha
  · simp only [base10, List.length_nil, show '0'.toNat = 48 from rfl, val]
    omega

theorem getnum_true_iff (l r : List Char) (n : Nat) :
    getnum true l = some (n, r) ↔ ∃ t, Num 2 n t ∧ l = t ++ r := by
  constructor
  · intro h
    match l with
    | [] => cases h
    | [a] => simp [getnum] at h
    | a :: b :: l =>
      simp only [getnum] at h
      cases ha : a.isDigit <;> simp only [ha, Bool.not_false, Bool.not_true, if_true, Bool.false_eq_true, if_false] at h
      · cases h
      cases hb : b.isDigit <;> simp only [hb, if_true, Bool.false_eq_true, if_false] at h
      · cases h
      simp only [Option.some.injEq, Prod.mk.injEq] at h
      obtain ⟨rfl, rfl⟩ := h
      exact ⟨[a, b], num2_mk ha hb, rfl⟩
  · rintro ⟨t, ht, rfl⟩
    obtain ⟨a, b, rfl, ha, hb, rfl⟩ := num2 ht
    simp [getnum, ha, hb]

theorem skip_iff (c : Char) (l r : List Char) : skip c l = some r ↔ l = c :: r := by
  unfold skip
  split
  · simp
  · split
    · rename_i h; subst h; simp
    · rename_i h; simp [h]

theorem getHour_iff (l r : List Char) (n : Nat) :
    (getnum false l = some (n, ':' :: r)) ↔ ∃ t, (Num 2 n t ∨ Num 1 n t) ∧ l = t ++ ':' :: r := by
  constructor
  · intro h
    match l with
    | [] => cases h
    | [a] =>
      simp only [getnum] at h
      split at h
      · cases h
      · simp at h
    | a :: b :: l =>
      simp only [getnum] at h
      cases ha : a.isDigit <;> simp only [ha, Bool.not_false, Bool.not_true, if_true, Bool.false_eq_true, if_false] at h
      · cases h
      cases hb : b.isDigit <;> simp only [hb, if_true, Bool.false_eq_true, if_false, Option.some.injEq, Prod.mk.injEq] at h
      · obtain ⟨rfl, h⟩ := h
        exact ⟨[a], Or.inr (num1_mk ha), by rw [← h]; rfl⟩
      · obtain ⟨rfl, rfl⟩ := h
        exact ⟨[a, b], Or.inl (num2_mk ha hb), rfl⟩
  · rintro ⟨t, ht | ht, rfl⟩
    · obtain ⟨a, b, rfl, ha, hb, rfl⟩ := num2 ht
      simp [getnum, ha, hb]
    · obtain ⟨a, rfl, ha, rfl⟩ := num1 ht
      simp [getnum, ha, show (':' : Char).isDigit = false from rfl]

theorem nanos_eq (ds : List Char) (h : ∀ c ∈ ds, '0' ≤ c ∧ c ≤ '9') :
    nanos ds = base10 ds * 1000000000 / 10 ^ ds.length := by
  unfold nanos
  rw [atoi_eq]
  by_cases hl : ds.length ≤ 9
  · rw [List.take_of_length_le hl]
    have e : (1000000000 : Nat) = 10 ^ (9 - ds.length) * 10 ^ ds.length := by
      rw [← Nat.pow_add]
      have : 9 - ds.length + ds.length = 9 := by omega
      rw [this]
    rw [e, ← Nat.mul_assoc, Nat.mul_div_cancel _ (Nat.pow_pos (by decide))]
  · have hk : ds.length = (ds.drop 9).length + 9 := by simp; omega
    have hb : base10 ds = base10 (ds.take 9) * 10 ^ (ds.drop 9).length + base10 (ds.drop 9) := by
      rw [← base10_append, List.take_append_drop]
    have hlt := base10_lt (ds.drop 9) fun c hc => h c (List.mem_of_mem_drop hc)
    have h9 : (ds.take 9).length = 9 := by simp; omega
    rw [hb, hk, h9, Nat.pow_add, show (10 : Nat) ^ 9 = 1000000000 from rfl,
      Nat.mul_div_mul_right _ _ (by decide)]
    generalize (ds.drop 9).length = k at *
    rw [Nat.mul_comm (base10 _) (10 ^ k), Nat.mul_add_div (Nat.pow_pos (by decide)),
      Nat.div_eq_of_lt hlt]
    simp

theorem zone_head {tz : List Char} {o : Int} (h : ZoneOf tz o) :
    ∃ c r, tz = c :: r ∧ (c = 'Z' ∨ c = '+' ∨ c = '-') := by
  cases h with
  | utc => exact ⟨_, _, rfl, Or.inl rfl⟩
  | east => exact ⟨_, _, rfl, Or.inr (Or.inl rfl)⟩
  | west => exact ⟨_, _, rfl, Or.inr (Or.inr rfl)⟩

theorem getZone_iff (l : List Char) (o : Int) : getZone l = some (o, []) ↔ ZoneOf l o := by
  constructor
  · intro h
    match l with
    | [] => cases h
    | s :: r =>
      simp only [getZone] at h
      split at h
      · rename_i hs
        subst hs
        simp only [Option.some.injEq, Prod.mk.injEq] at h
        obtain ⟨rfl, rfl⟩ := h
        exact .utc
      split at h
      · rename_i _ h1 h2 k m1 m2 r
        split at h
        · rename_i hd
          simp only [Bool.and_eq_true, decide_eq_true_eq] at hd
          obtain ⟨⟨⟨⟨rfl, d1⟩, d2⟩, d3⟩, d4⟩ := hd
          split at h
          · cases h
          rename_i hr
          simp only [Bool.or_eq_true, decide_eq_true_eq, not_or, Nat.not_lt, gt_iff_lt] at hr
          have a := num2_mk d1 d2
          have b := num2_mk d3 d4
          split at h
          · rename_i hs
            simp only [Option.some.injEq, Prod.mk.injEq] at h
            obtain ⟨rfl, rfl⟩ := h
            subst hs
            have := ZoneOf.east a b hr.1 hr.2
            simp only [List.cons_append, List.nil_append] at this
            have e : (((10 * val h1 + val h2 : Nat) : Int) * 60 + ((10 * val m1 + val m2 : Nat) : Int)) * 60 =
                ((10 * val h1 + val h2 : Nat) : Int) * 3600 + ((10 * val m1 + val m2 : Nat) : Int) * 60 := by
              omega
            rw [e]
            exact this
          · split at h
            · rename_i hs
              simp only [Option.some.injEq, Prod.mk.injEq] at h
              obtain ⟨rfl, rfl⟩ := h
              subst hs
              have := ZoneOf.west a b hr.1 hr.2
              simp only [List.cons_append, List.nil_append] at this
              have e : -((((10 * val h1 + val h2 : Nat) : Int) * 60 + ((10 * val m1 + val m2 : Nat) : Int)) * 60) =
                  -(((10 * val h1 + val h2 : Nat) : Int) * 3600 + ((10 * val m1 + val m2 : Nat) : Int) * 60) := by
                omega
              rw [e]
              exact this
            · cases h
        · cases h
      · cases h
  · intro h
    cases h with
    | utc => rfl
    | east ha hb h1 h2 =>
      obtain ⟨a, b, rfl, da, db, rfl⟩ := num2 ha
      obtain ⟨c, d, rfl, dc, dd, rfl⟩ := num2 hb
      have n1 : ¬ 24 < 10 * val a + val b := by omega
      have n2 : ¬ 60 < 10 * val c + val d := by omega
      simp only [List.cons_append, List.nil_append, getZone, da, db, dc, dd, decide_true, show ('+' : Char) ≠ 'Z' from by decide, show ('-' : Char) ≠ 'Z' from by decide, Bool.and_self, if_true, gt_iff_lt,
        n1, n2, decide_false, Bool.or_self, Bool.false_eq_true, if_false, Option.some.injEq, Prod.mk.injEq, and_true]
      omega
    | west ha hb h1 h2 =>
      obtain ⟨a, b, rfl, da, db, rfl⟩ := num2 ha
      obtain ⟨c, d, rfl, dc, dd, rfl⟩ := num2 hb
      have n1 : ¬ 24 < 10 * val a + val b := by omega
      have n2 : ¬ 60 < 10 * val c + val d := by omega
      simp only [List.cons_append, List.nil_append, getZone, da, db, dc, dd, decide_true, show ('+' : Char) ≠ 'Z' from by decide, show ('-' : Char) ≠ 'Z' from by decide, Bool.and_self, if_true, gt_iff_lt,
        n1, n2, decide_false, Bool.or_self, Bool.false_eq_true, if_false, Option.some.injEq, Prod.mk.injEq, and_true,
        show ('-' : Char) ≠ '+' from by decide]
      omega

theorem span_digits (l : List Char) : ∀ c ∈ l.takeWhile Char.isDigit, '0' ≤ c ∧ c ≤ '9' := by
  intro c hc
  rw [← isDigit_iff]
  exact List.all_eq_true.mp (List.all_takeWhile) c hc

theorem getFrac_iff (l : List Char) (f : Nat) (o : Int) :
    ((getFrac l).1 = f ∧ getZone (getFrac l).2 = some (o, [])) ↔
      ∃ tf tz, FracOf tf f ∧ ZoneOf tz o ∧ l = tf ++ tz := by
  constructor
  · rintro ⟨h1, h2⟩
    rw [getZone_iff] at h2
    unfold getFrac at h1 h2
    split at h1
    · rename_i c d r
      dsimp only at h2
      split at h1
      · rename_i hc
        rw [if_pos hc] at h2
        simp only [Bool.and_eq_true, Bool.or_eq_true, decide_eq_true_eq] at hc
        dsimp only at h1 h2
        refine ⟨c :: (d :: r).takeWhile Char.isDigit, _, ?_, h2, ?_⟩
        · refine .some hc.1 ?_ ⟨rfl, span_digits _, rfl⟩ ?_
          · simp [List.takeWhile_cons, hc.2]
          · rw [← nanos_eq _ (span_digits _), h1]
        · simp [List.takeWhile_append_dropWhile]
      · rename_i hc
        rw [if_neg hc] at h2
        dsimp only at h1 h2
        exact ⟨[], _, h1 ▸ .none, h2, rfl⟩
    · rename_i x
      dsimp only at h1
      refine ⟨[], l, h1 ▸ .none, ?_, rfl⟩
      split at h2
      · rename_i c d r
        exact absurd rfl (x c d r)
      · exact h2
  · rintro ⟨tf, tz, hf, hz, rfl⟩
    obtain ⟨c, r, rfl, hc⟩ := zone_head hz
    cases hf with
    | none =>
      have hn : (getFrac (c :: r)) = (0, c :: r) := by
        unfold getFrac
        split
        · rename_i c' d r' e
          simp only [List.cons.injEq] at e
          obtain ⟨rfl, rfl⟩ := e
          have : ¬ (c = '.' ∨ c = ',') := by
            rcases hc with rfl | rfl | rfl <;> decide
          simp [this]
        · rfl
      simp only [List.nil_append, hn, true_and]
      rw [getZone_iff]
      exact hz
    | @some sep ds n k hs hne hnum hk =>
      obtain ⟨_, hd, hb⟩ := hnum
      have hcd : c.isDigit = false := by rcases hc with rfl | rfl | rfl <;> rfl
      have hall : ∀ x ∈ ds, x.isDigit = true := fun x hx => (isDigit_iff x).2 (hd x hx)
      have ht : (ds ++ c :: r).takeWhile Char.isDigit = ds := by
        rw [List.takeWhile_append_of_pos hall]; simp [hcd]
      have hdr : (ds ++ c :: r).dropWhile Char.isDigit = c :: r := by
        rw [List.dropWhile_append_of_pos hall]; simp [hcd]
      obtain ⟨d, ds', rfl⟩ : ∃ d ds', ds = d :: ds' := by
        cases ds with
        | nil => exact absurd rfl hne
        | cons d ds' => exact ⟨d, ds', rfl⟩
      have hdd := hall d (by simp)
      have e : getFrac (sep :: (d :: ds') ++ c :: r) =
          (nanos (d :: ds'), c :: r) := by
        simp only [List.cons_append] at ht hdr ⊢
        simp only [getFrac]
        rw [ht, hdr]
        have : (decide (sep = '.') || decide (sep = ',')) = true := by
          rcases hs with rfl | rfl <;> rfl
        simp [this, hdd]
      rw [e]
      refine ⟨?_, (getZone_iff _ _).2 hz⟩
      dsimp only
      rw [nanos_eq _ hd, hb, hk]

theorem req_iff (p : Prop) [Decidable p] (u : Unit) : req p = some u ↔ p := by
  unfold req; split <;> simp [*]

/-- **C121, reading.** The texts read as times, and the times read, are exactly the written ones. -/
theorem parse_iff (s : String) (t : Time) : parse s = some t ↔ Written s.toList t := by
  unfold parse
  generalize s.toList = l
  unfold parseL
  simp only [Option.bind_eq_bind, Option.bind_eq_some_iff, Option.pure_def, Option.some.injEq, req_iff,
    skip_iff, Prod.exists, getYear_iff, getnum_true_iff, exists_const]
  constructor
  · rintro ⟨y, l1, ⟨ty, hy, rfl⟩, l2, rfl, m, l3, ⟨tm, htm, rfl⟩, hm, l4, rfl, d, l5, ⟨td, htd, rfl⟩, l6,
      rfl, h, l7, h7, hh, l8, rfl, mi, l9, ⟨tmi, htmi, rfl⟩, hmi, l10, rfl, se, l11, ⟨ts, hts, rfl⟩, hse, o, r,
      h12, rfl, hd, rfl⟩
    obtain ⟨tf, tz, hf, hz, e⟩ := (getFrac_iff l11 _ o).1 ⟨rfl, h12⟩
    obtain ⟨th, hth, rfl⟩ := (getHour_iff _ _ _).1 h7
    have hv : Valid y m d := by
      rw [valid_iff]; omega
    have := Written.mk hy htm htd hth htmi hts hf hz hv hh hmi hse
    rw [e] at this ⊢
    simpa using this
  · intro h
    cases h with
    | @mk ty tm td th tmi ts tf tz y m d hh mi s f o hy htm htd hth htmi hts hf hz hv h1 h2 h3 =>
      rw [valid_iff] at hv
      obtain ⟨e1, e2⟩ := (getFrac_iff (tf ++ tz) f o).2 ⟨tf, tz, hf, hz, rfl⟩
      refine ⟨y, _, ⟨ty, hy, by simp only [List.append_assoc, List.cons_append]⟩, _, rfl, m, _, ⟨tm, htm, rfl⟩, by omega, _,
        rfl, d, _, ⟨td, htd, rfl⟩, _, rfl, hh, _, (getHour_iff _ _ _).2 ⟨th, hth, rfl⟩, h1, _, rfl,
        mi, _, ⟨tmi, htmi, rfl⟩, h2, _, rfl, s, _, ⟨ts, hts, rfl⟩, h3, o, [], e2, rfl, by omega, ?_⟩
      rw [e1]

end VC.Tm
