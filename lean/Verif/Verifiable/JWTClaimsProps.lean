import Verif.Verifiable.JWTClaims
/-!
# verifiable: credential ↔ JWT claims — properties (C40, C41, C67)
-/

namespace VC.Vfy

open GoMap

/-! ## Data model version -/

/-- The document declares data model 2.0: its context is, or starts with, the 2.0 context. -/
def IsV2 (o : JObj) : Prop :=
  get? o "@context" = some (.str v2ContextURI) ∨
    ∃ l, get? o "@context" = some (.arr (.str v2ContextURI :: l))

theorem get?_ofWire' (o : JObj) (k : String) : get? (ofWire o) k = (get? o k).map .json := by
  unfold ofWire
  rw [GoMap.get?_map o (fun _ v => GVal.json v) k]

/-- `HasBaseContext` looks at the first context only. -/
theorem hasBaseContext_iff (o : JObj) : hasBaseContext (ofWire o) v2ContextURI = true ↔ IsV2 o := by
  unfold hasBaseContext IsV2
  rw [get?_ofWire']
  cases h : get? o "@context" with
  | none => simp
  | some v =>
    cases v with
    | str s => simp [decodeContext, isBaseContext]
    | arr l =>
      cases l with
      | nil => simp [decodeContext, splitContext, isBaseContext]
      | cons j l => cases j <;> simp [decodeContext, splitContext, isBaseContext]
    | _ => simp [decodeContext]

theorem isV2_congr {o o' : JObj} (h : get? o "@context" = get? o' "@context") :
    IsV2 o ↔ IsV2 o' := by
  unfold IsV2; rw [h]

variable (env : JEnv)

/-! ## The effect of the signed claims on the credential object -/

/-- The `vc` issuer cannot be reconciled with the signed `iss`: both are DIDs and they differ, or the
issuer object has an id that is not a string. -/
def IssuerConflict (iss : String) (vc : JObj) : Prop :=
  (∃ id, (get? vc "issuer" = some (.str id) ∨
      ∃ o, get? vc "issuer" = some (.obj o) ∧ get? o "id" = some (.str id)) ∧
    hasPrefix iss "did:" = true ∧ hasPrefix id "did:" = true ∧ iss ≠ id) ∨
  (∃ o v, get? vc "issuer" = some (.obj o) ∧ get? o "id" = some v ∧ v.isNull = false ∧
    ∀ s, v ≠ .str s)

/-- The issuer of the refined object, given the issuer of the `vc` claim and the signed `iss`. -/
structure IssuerRefined (iss : String) (v v' : Option Json) : Prop where
  unsigned : iss = "" → v' = v
  absent : iss ≠ "" → v = Option.none → v' = some (.str iss)
  string : ∀ s, iss ≠ "" → v = some (.str s) → v' = some (.str iss)
  object : ∀ o, iss ≠ "" → v = some (.obj o) → v' = some (.obj (set o "id" (.str iss)))
  other : ∀ j, (∀ s, j ≠ .str s) → (∀ o, j ≠ .obj o) → v = some j → v' = some j

/-- What the credential object looks like after the signed claims were applied. -/
structure Refined (r : Claims) (vc o : JObj) : Prop where
  rest : ∀ k, k ∉ ["issuer", "id", "issuanceDate", "validFrom", "expirationDate", "validUntil"] →
    get? o k = get? vc k
  id : get? o "id" = if r.jti = "" then get? vc "id" else some (.str r.jti)
  issuer : IssuerRefined r.iss (get? vc "issuer") (get? o "issuer")
  v2 : IsV2 vc →
    get? o "validFrom" =
      ((r.iat.or r.nbf).map (fun n => Json.str (env.fmtUnix n))).or (get? vc "validFrom") ∧
    get? o "validUntil" = (r.exp.map (fun n => Json.str (env.fmtUnix n))).or (get? vc "validUntil") ∧
    get? o "issuanceDate" = get? vc "issuanceDate" ∧
    get? o "expirationDate" = get? vc "expirationDate"
  v1 : ¬ IsV2 vc →
    get? o "issuanceDate" =
      ((r.iat.or r.nbf).map (fun n => Json.str (env.fmtUnix n))).or (get? vc "issuanceDate") ∧
    get? o "expirationDate" =
      (r.exp.map (fun n => Json.str (env.fmtUnix n))).or (get? vc "expirationDate") ∧
    get? o "validFrom" = get? vc "validFrom" ∧
    get? o "validUntil" = get? vc "validUntil"

theorem refineDate_some (vc : JObj) (a b : String) (n : Option Int) (ha : a ≠ "@context")
    (hb : b ≠ "@context") :
    ∃ o, refineDate env (some vc) a b n = .ok (some o) ∧ (IsV2 o ↔ IsV2 vc) ∧
      (∀ k, k ≠ a → k ≠ b → get? o k = get? vc k) ∧
      (a ≠ b → IsV2 vc → get? o a = (n.map (fun n => Json.str (env.fmtUnix n))).or (get? vc a) ∧
        get? o b = get? vc b) ∧
      (a ≠ b → ¬ IsV2 vc → get? o b = (n.map (fun n => Json.str (env.fmtUnix n))).or (get? vc b) ∧
        get? o a = get? vc a) := by
  cases n with
  | none => exact ⟨vc, rfl, Iff.rfl, fun _ _ _ => rfl, fun _ _ => ⟨by simp, rfl⟩,
      fun _ _ => ⟨by simp, rfl⟩⟩
  | some n =>
    by_cases h : IsV2 vc
    · have hb2 := (hasBaseContext_iff vc).mpr h
      refine ⟨set vc a (.str (env.fmtUnix n)), ?_, ?_, ?_, ?_, ?_⟩
      · simp [refineDate, hb2, assign]
      · apply isV2_congr; rw [get?_set]; simp [ha]
      · intro k h1 _; rw [get?_set]; simp [Ne.symm h1]
      · intro hab _; rw [get?_set, get?_set]; simp [hab]
      · intro _ h'; exact absurd h h'
    · have hb2 : hasBaseContext (ofWire vc) v2ContextURI = false := by
        rw [Bool.eq_false_iff]; intro e; exact h ((hasBaseContext_iff vc).mp e)
      refine ⟨set vc b (.str (env.fmtUnix n)), ?_, ?_, ?_, ?_, ?_⟩
      · simp [refineDate, hb2, assign]
      · apply isV2_congr; rw [get?_set]; simp [hb]
      · intro k _ h1; rw [get?_set]; simp [Ne.symm h1]
      · intro _ h'; exact absurd h' h
      · intro hab _; rw [get?_set, get?_set]; simp [Ne.symm hab]

theorem refineIssuer_some (vc : JObj) (iss : String) (hi : iss ≠ "") :
    (IssuerConflict iss vc ∧ refineIssuer (some vc) iss = .err) ∨
    (¬ IssuerConflict iss vc ∧ ∃ o, refineIssuer (some vc) iss = .ok (some o) ∧
      (∀ k, k ≠ "issuer" → get? o k = get? vc k) ∧
      IssuerRefined iss (get? vc "issuer") (get? o "issuer")) := by
  unfold refineIssuer
  simp only [Option.getD_some, assign]
  cases h : get? vc "issuer" with
  | none =>
    right
    refine ⟨?_, _, rfl, ?_, ?_⟩
    · simp [IssuerConflict, h]
    · intro k hk; rw [get?_set]; simp [Ne.symm hk]
    · rw [get?_set]
      exact ⟨fun e => absurd e hi, fun _ _ => by simp, by simp, by simp, by simp⟩
  | some v =>
    cases v with
    | str s =>
      simp only [vcIssuerID, newIssuer]
      by_cases hc : (hasPrefix iss "did:" && hasPrefix s "did:" && iss != s) = true
      · left
        simp only [hc, if_true, and_true]
        simp only [Bool.and_eq_true, bne_iff_ne, ne_eq] at hc
        exact .inl ⟨s, .inl h, hc.1.1, hc.1.2, hc.2⟩
      · right
        simp only [hc]
        refine ⟨?_, _, rfl, ?_, ?_⟩
        · rintro (⟨id, hid, h1, h2, h3⟩ | ⟨o, v, ho, -⟩)
          · rcases hid with hid | ⟨o, ho, -⟩
            · rw [h] at hid; cases hid; apply hc; simp [h1, h2, h3]
            · rw [h] at ho; cases ho
          · rw [h] at ho; cases ho
        · intro k hk; rw [get?_set]; simp [Ne.symm hk]
        · rw [get?_set]
          exact ⟨fun e => absurd e hi, by simp, by simp, by simp, fun j h1 _ h3 => by
            cases h3; exact absurd rfl (h1 s)⟩
    | obj o =>
      simp only [vcIssuerID, newIssuer, parseStringFld, JObj.at]
      cases hid : get? o "id" with
      | none =>
        right
        simp only [Option.getD_none]
        have : hasPrefix "" "did:" = false := by decide
        simp only [this, Bool.and_false, Bool.false_and, Bool.false_eq_true, if_false]
        refine ⟨?_, _, rfl, ?_, ?_⟩
        · rintro (⟨id, h0 | ⟨o', ho, h0⟩, -⟩ | ⟨o', v, ho, h0, -⟩)
          · rw [h] at h0; cases h0
          · rw [h] at ho; cases ho; rw [hid] at h0; cases h0
          · rw [h] at ho; cases ho; rw [hid] at h0; cases h0
        · intro k hk; rw [get?_set]; simp [Ne.symm hk]
        · rw [get?_set]
          refine ⟨fun e => absurd e hi, by simp, by simp, ?_, fun j _ h1 h3 => by
            cases h3; exact absurd rfl (h1 o)⟩
          intro o1 _ e; cases e; simp
      | some w =>
        cases w with
        | str s =>
          simp only [Option.getD_some]
          by_cases hc : (hasPrefix iss "did:" && hasPrefix s "did:" && iss != s) = true
          · left
            simp only [hc, if_true, and_true]
            simp only [Bool.and_eq_true, bne_iff_ne, ne_eq] at hc
            exact .inl ⟨s, .inr ⟨o, h, hid⟩, hc.1.1, hc.1.2, hc.2⟩
          · right
            simp only [hc]
            refine ⟨?_, _, rfl, ?_, ?_⟩
            · rintro (⟨id, h0 | ⟨o', ho, h0⟩, h1, h2, h3⟩ | ⟨o', v, ho, h0, h1, h2⟩)
              · rw [h] at h0; cases h0
              · rw [h] at ho; cases ho; rw [hid] at h0; cases h0; apply hc; simp [h1, h2, h3]
              · rw [h] at ho; cases ho; rw [hid] at h0; cases h0; exact h2 s rfl
            · intro k hk; rw [get?_set]; simp [Ne.symm hk]
            · rw [get?_set]
              refine ⟨fun e => absurd e hi, by simp, by simp, ?_, fun j _ h1 h3 => by
                cases h3; exact absurd rfl (h1 o)⟩
              intro o1 _ e; cases e; simp
        | null =>
          right
          simp only [Option.getD_some]
          have : hasPrefix "" "did:" = false := by decide
          simp only [this, Bool.and_false, Bool.false_and, Bool.false_eq_true, if_false]
          refine ⟨?_, _, rfl, ?_, ?_⟩
          · rintro (⟨id, h0 | ⟨o', ho, h0⟩, -⟩ | ⟨o', v, ho, h0, h1, -⟩)
            · rw [h] at h0; cases h0
            · rw [h] at ho; cases ho; rw [hid] at h0; cases h0
            · rw [h] at ho; cases ho; rw [hid] at h0; cases h0; simp [Json.isNull] at h1
          · intro k hk; rw [get?_set]; simp [Ne.symm hk]
          · rw [get?_set]
            refine ⟨fun e => absurd e hi, by simp, by simp, ?_, fun j _ h1 h3 => by
              cases h3; exact absurd rfl (h1 o)⟩
            intro o1 _ e; cases e; simp
        | _ =>
          left
          simp only [Option.getD_some, and_true]
          exact .inr ⟨o, _, h, hid, rfl, by simp⟩
    | _ =>
      right
      have : hasPrefix "" "did:" = false := by decide
      simp only [vcIssuerID, newIssuer, this, Bool.and_false, Bool.false_and, Bool.false_eq_true,
        if_false]
      refine ⟨?_, _, rfl, ?_, ?_⟩
      · simp [IssuerConflict, h]
      · intro k hk; rw [get?_set]; simp [Ne.symm hk]
      · rw [get?_set]
        exact ⟨fun e => absurd e hi, by simp, by simp, by simp, fun j _ _ e => by simp_all⟩

/-- **C41.** Applying the signed claims to a `vc` object fails exactly when the issuers conflict, and
otherwise gives the object described by `Refined`: signed `iss`, `jti`, `iat`/`nbf` and `exp`
overwrite what the `vc` claim says, everything else is untouched. -/
theorem refine_spec (r : Claims) (vc : JObj) :
    (r.iss ≠ "" ∧ IssuerConflict r.iss vc ∧ refine env ⟨some r, some vc⟩ = .err) ∨
    ((r.iss ≠ "" → ¬ IssuerConflict r.iss vc) ∧
      ∃ o, refine env ⟨some r, some vc⟩ = .ok (some o) ∧ Refined env r vc o) := by
  have key : ∀ vc1, (if r.iss ≠ "" then refineIssuer (some vc) r.iss else .ok (some vc)) =
      .ok (some vc1) → (∀ k, k ≠ "issuer" → get? vc1 k = get? vc k) →
      IssuerRefined r.iss (get? vc "issuer") (get? vc1 "issuer") →
      ∃ o, refine env ⟨some r, some vc⟩ = .ok (some o) ∧ Refined env r vc o := by
    intro vc1 e1 r1 i1
    obtain ⟨vc2, e2, v2, r2, a2, b2⟩ :=
      refineDate_some env vc1 "validFrom" "issuanceDate" r.nbf (by decide) (by decide)
    have hj : ∃ vc3, (if r.jti ≠ "" then assign (some vc2) "id" (.str r.jti) else .ok (some vc2)) =
        .ok (some vc3) ∧ (∀ k, k ≠ "id" → get? vc3 k = get? vc2 k) ∧
        get? vc3 "id" = if r.jti = "" then get? vc2 "id" else some (.str r.jti) := by
      by_cases hj : r.jti = ""
      · exact ⟨vc2, by simp [hj], fun _ _ => rfl, by simp [hj]⟩
      · refine ⟨set vc2 "id" (.str r.jti), by simp [hj, assign], ?_, ?_⟩
        · intro k hk; rw [get?_set]; simp [Ne.symm hk]
        · rw [get?_set]; simp [hj]
    obtain ⟨vc3, e3, r3, d3⟩ := hj
    obtain ⟨vc4, e4, v4, r4, a4, b4⟩ :=
      refineDate_some env vc3 "validFrom" "issuanceDate" r.iat (by decide) (by decide)
    obtain ⟨vc5, e5, v5, r5, a5, b5⟩ :=
      refineDate_some env vc4 "validUntil" "expirationDate" r.exp (by decide) (by decide)
    have w1 : IsV2 vc1 ↔ IsV2 vc := isV2_congr (r1 _ (by decide))
    have w3 : IsV2 vc3 ↔ IsV2 vc := (isV2_congr (r3 _ (by decide))).trans (v2.trans w1)
    have w4 : IsV2 vc4 ↔ IsV2 vc := v4.trans w3
    refine ⟨vc5, ?_, ?_⟩
    · unfold refine
      simp only [e1, e2, e3, e4, e5, Out.bind]
    · constructor
      · intro k hk
        simp only [List.mem_cons, List.not_mem_nil, or_false, not_or] at hk
        obtain ⟨k1, k2, k3, k4, k5, k6⟩ := hk
        rw [r5 k k6 k5, r4 k k4 k3, r3 k k2, r2 k k4 k3, r1 k k1]
      · rw [r5 _ (by decide) (by decide), r4 _ (by decide) (by decide), d3,
          r2 _ (by decide) (by decide), r1 _ (by decide)]
      · rw [r5 _ (by decide) (by decide), r4 _ (by decide) (by decide), r3 _ (by decide),
          r2 _ (by decide) (by decide)]
        exact i1
      · intro h
        have A2 := a2 (by decide) (w1.mpr h)
        have A4 := a4 (by decide) (w3.mpr h)
        have A5 := a5 (by decide) (w4.mpr h)
        refine ⟨?_, ?_, ?_, ?_⟩
        · rw [r5 _ (by decide) (by decide), A4.1, r3 _ (by decide), A2.1, r1 _ (by decide)]
          cases r.iat <;> simp
        · rw [A5.1, r4 _ (by decide) (by decide), r3 _ (by decide), r2 _ (by decide) (by decide),
            r1 _ (by decide)]
        · rw [r5 _ (by decide) (by decide), A4.2, r3 _ (by decide), A2.2, r1 _ (by decide)]
        · rw [A5.2, r4 _ (by decide) (by decide), r3 _ (by decide), r2 _ (by decide) (by decide),
            r1 _ (by decide)]
      · intro h
        have A2 := b2 (by decide) (fun e => h (w1.mp e))
        have A4 := b4 (by decide) (fun e => h (w3.mp e))
        have A5 := b5 (by decide) (fun e => h (w4.mp e))
        refine ⟨?_, ?_, ?_, ?_⟩
        · rw [r5 _ (by decide) (by decide), A4.1, r3 _ (by decide), A2.1, r1 _ (by decide)]
          cases r.iat <;> simp
        · rw [A5.1, r4 _ (by decide) (by decide), r3 _ (by decide), r2 _ (by decide) (by decide),
            r1 _ (by decide)]
        · rw [r5 _ (by decide) (by decide), A4.2, r3 _ (by decide), A2.2, r1 _ (by decide)]
        · rw [A5.2, r4 _ (by decide) (by decide), r3 _ (by decide), r2 _ (by decide) (by decide),
            r1 _ (by decide)]
  by_cases hi : r.iss = ""
  · right
    refine ⟨fun h => absurd hi h, key vc (by simp [hi]) (fun _ _ => rfl) ?_⟩
    exact ⟨fun _ => rfl, fun h => absurd hi h, fun _ h => absurd hi h, fun _ h => absurd hi h,
      fun _ _ _ h => h⟩
  · rcases refineIssuer_some vc r.iss hi with ⟨hc, he⟩ | ⟨hc, o, he, hr, hri⟩
    · left
      refine ⟨hi, hc, ?_⟩
      unfold refine
      simp [hi, he, Out.bind]
    · right
      exact ⟨fun _ => hc, key o (by simp [hi, he]) hr hri⟩

/-! ## Decoding a payload -/

/-- The registered claims of a payload as decoded: each one is read from its own member. -/
theorem decodeClaims_some {p : JObj} {r : Claims} (h : decodeClaims p = some (some r)) :
    strOf (JObj.at p "iss") = some r.iss ∧ strOf (JObj.at p "sub") = some r.sub ∧
    audOf (get? p "aud") = some r.aud ∧ dateOf (JObj.at p "exp") = some r.exp ∧
    dateOf (JObj.at p "nbf") = some r.nbf ∧ dateOf (JObj.at p "iat") = some r.iat ∧
    strOf (JObj.at p "jti") = some r.jti := by
  unfold decodeClaims at h
  split at h
  · simp only [Option.bind_eq_bind, Option.bind_eq_some_iff, Option.pure_def, Option.some.injEq] at h
    obtain ⟨a1, h1, a2, h2, a3, h3, a4, h4, a5, h5, a6, h6, a7, h7, h8⟩ := h
    subst h8
    exact ⟨h1, h2, h3, h4, h5, h6, h7⟩
  · simp at h

theorem unmarshalCred_claims {p : JObj} {c : CredClaims} (h : unmarshalCred p = some c) :
    decodeClaims p = some c.claims := by
  unfold unmarshalCred at h
  split at h
  · rename_i c' v hc _
    split at h <;> · cases h; exact hc
  · cases h

theorem refine_panic_iff (c : CredClaims) :
    refine env c = .panic ↔ c.claims = none ∨ (c.vc = none ∧ ∃ r, c.claims = some r ∧
      (r.iss ≠ "" ∨ r.jti ≠ "" ∨ r.nbf.isSome ∨ r.iat.isSome ∨ r.exp.isSome)) := by
  obtain ⟨cl, vc⟩ := c
  cases cl with
  | none => simp [refine]
  | some r =>
    cases vc with
    | some vc =>
      constructor
      · intro h
        rcases refine_spec env r vc with ⟨-, -, h'⟩ | ⟨-, o, h', -⟩ <;>
          · rw [h'] at h; cases h
      · rintro (h | ⟨h, -⟩) <;> simp at h
    | none =>
      simp only [refine, refineIssuer, refineDate, assign, Option.getD_none, get?, true_and,
        Option.some.injEq, exists_eq_left', reduceCtorEq, false_or]
      have hb : hasBaseContext (ofWire []) v2ContextURI = false := rfl
      obtain ⟨iss, sub, aud, exp, nbf, iat, jti⟩ := r
      by_cases h1 : iss = "" <;> by_cases h2 : jti = "" <;> cases exp <;> cases nbf <;> cases iat <;>
        simp [h1, h2, Out.bind, hb]

/-- **C67.** Exactly which payloads crash the decoder: those that decode and carry no registered
claim at all (the embedded pointer is nil), or that carry nothing but registered claims (the
credential map is nil) of which one has to be written into the credential. -/
theorem decode_panics_iff (p : JObj) :
    decodeCredPayload env p = .panic ↔ ∃ c, unmarshalCred p = some c ∧
      (c.claims = none ∨ (c.vc = none ∧ ∃ r, c.claims = some r ∧
        (r.iss ≠ "" ∨ r.jti ≠ "" ∨ r.nbf.isSome ∨ r.iat.isSome ∨ r.exp.isSome))) := by
  unfold decodeCredPayload
  cases h : unmarshalCred p with
  | none => simp
  | some c => simp [refine_panic_iff]

/-- **C67 (violated).** Every payload without a registered claim whose `vc` is an object crashes the
decoder, in particular `{"vc": {...}}`. -/
theorem decode_panics_without_registered (p : JObj) (hk : ∀ k ∈ keys p, k ∉ registered)
    (o : JObj) (hv : get? p "vc" = some (.obj o)) : decodeCredPayload env p = .panic := by
  have hc : decodeClaims p = some none := by
    unfold decodeClaims
    rw [if_neg]
    simp only [List.any_eq_true, List.contains_iff_mem, not_exists, not_and]
    intro e he
    exact hk e.1 (List.mem_map_of_mem (f := Prod.fst) he)
  have hd : decodeVCField (JObj.at p "vc") = some (some o) := by simp [JObj.at, hv, decodeVCField]
  have : ∃ c, unmarshalCred p = some c ∧ c.claims = none := by
    unfold unmarshalCred
    rw [hc, hd]
    dsimp only
    split
    · exact ⟨_, rfl, rfl⟩
    · exact ⟨_, rfl, rfl⟩
  obtain ⟨c, h1, h2⟩ := this
  exact (decode_panics_iff env p).mpr ⟨c, h1, .inl h2⟩

/-- **C67 (violated).** The smallest payloads that crash the decoder of an unverified JWT. -/
theorem decode_panics_examples :
    decodeCredPayload env [("vc", .obj [("type", .str "VerifiableCredential")])] = .panic ∧
    decodeCredPayload env [] = .panic ∧
    decodeCredPayload env [("iss", .str "did:example:a")] = .panic ∧
    decodeCredPayload env [("exp", .num 1)] = .panic := by
  refine ⟨rfl, rfl, rfl, rfl⟩

/-- **C67, what holds.** A payload with at least one registered claim and a non-empty `vc` object
never crashes the decoder. -/
theorem decode_no_panic_partial (p : JObj) (k : String) (hk : k ∈ registered) (hp : k ∈ keys p)
    (o : JObj) (ho : o ≠ []) (hv : get? p "vc" = some (.obj o)) :
    decodeCredPayload env p ≠ .panic := by
  rw [Ne, decode_panics_iff]
  rintro ⟨c, hc, h⟩
  have hcl := unmarshalCred_claims hc
  have hany : p.any (fun e => registered.contains e.1) = true := by
    simp only [keys, List.mem_map] at hp
    obtain ⟨e, he, rfl⟩ := hp
    simp only [List.any_eq_true, List.contains_iff_mem]
    exact ⟨e, he, hk⟩
  have hne : c.claims ≠ none := by
    intro e
    rw [e] at hcl
    unfold decodeClaims at hcl
    rw [if_pos hany] at hcl
    simp [Option.bind_eq_some_iff] at hcl
  rcases h with h | ⟨h, -⟩
  · exact hne h
  · unfold unmarshalCred at hc
    have hd : decodeVCField (JObj.at p "vc") = some (some o) := by
      simp [JObj.at, hv, decodeVCField]
    rw [hcl, hd] at hc
    dsimp only at hc
    have he : emptyMap (some o) = false := by
      cases o with
      | nil => exact absurd rfl ho
      | cons _ _ => rfl
    rw [he, Bool.and_false] at hc
    simp only [Bool.false_eq_true, if_false, Option.some.injEq] at hc
    rw [← hc] at h
    simp at h

example : decodeCredPayload env [("iss", .str "x"), ("vc", .obj [("a", .null)])] =
    .ok (some [("a", .null), ("issuer", .str "x")]) := rfl

/-! ## C41: the decoded credential carries the signed claims -/

theorem issuerRefined_id {iss : String} (hi : iss ≠ "") {v v' : Option Json}
    (h : IssuerRefined iss v v') {i : Issuer}
    (hp : parseIssuer (.json (v'.getD .null)) = some (some i)) : i.id = iss := by
  have hstr : v' = some (.str iss) → i.id = iss := by
    intro e
    rw [e] at hp
    simp only [Option.getD_some, parseIssuer, hi, if_false, Option.some.injEq] at hp
    rw [← hp]
  cases v with
  | none => exact hstr (h.absent hi rfl)
  | some j =>
    cases j with
    | str s => exact hstr (h.string s hi rfl)
    | obj o =>
      rw [h.object o hi rfl] at hp
      simp only [Option.getD_some, parseIssuer, Option.map_eq_some_iff, Option.some.injEq] at hp
      obtain ⟨i', hi', rfl⟩ := hp
      simp only [issuerFromJSON, Option.bind_eq_bind, Option.bind_eq_some_iff] at hi'
      obtain ⟨id, hid, e⟩ := hi'
      split at e
      · cases e
      · cases e
        rw [parseStringFld_split] at hid
        · have := parseStringFld_of_get (o := set o "id" (.str iss)) (k := "id") (s := iss)
            (by rw [get?_set]; simp)
          rw [this] at hid
          cases hid; rfl
        all_goals decide
    | null => rw [h.other .null (by simp) (by simp) rfl] at hp; simp [parseIssuer] at hp
    | bool b => rw [h.other (.bool b) (by simp) (by simp) rfl] at hp; simp [parseIssuer] at hp
    | num q => rw [h.other (.num q) (by simp) (by simp) rfl] at hp; simp [parseIssuer] at hp
    | arr l => rw [h.other (.arr l) (by simp) (by simp) rfl] at hp; simp [parseIssuer] at hp

end VC.Vfy
