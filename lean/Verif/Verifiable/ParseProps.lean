import Verif.Verifiable.ParseSpec
import Verif.Verifiable.JWTClaimsProps
/-!
# verifiable: parsing a credential (theorems)

`parse_iff`: what parsing accepts is exactly what parsing without checks accepts and satisfies each
enabled check.  `parse_verified_partial`: the soundness half, for any external contexts.
-/

namespace VC.Vfy

open GoMap
open VC.Vfy.Spec
open VC.Proof (Bytes CwtReq LdProof)

/-! ## Outcomes -/

theorem Res.bind_ok {α β : Type _} {r : Res α} {f : α → Res β} {b : β} :
    r.bind f = .ok b ↔ ∃ a, r = .ok a ∧ f a = .ok b := by
  cases r <;> simp [Res.bind]

theorem Res.bind_unsupported {α β : Type _} {r : Res α} {f : α → Res β} :
    r.bind f = .unsupported ↔ r = .unsupported ∨ ∃ a, r = .ok a ∧ f a = .unsupported := by
  cases r <;> simp [Res.bind]

theorem Res.ofOut_ok {α : Type _} {r : Out α} {a : α} : Res.ofOut r = .ok a ↔ r = .ok a := by
  cases r <;> simp [Res.ofOut]

theorem Res.ofOption_ok {α : Type _} {r : Option α} {a : α} :
    Res.ofOption r = .ok a ↔ r = some a := by
  cases r <;> simp [Res.ofOption]

theorem orNext_ok {α : Type _} {a b : Res α} {v : α} :
    orNext a b = .ok v ↔ a = .ok v ∨ (a = .unsupported ∧ b = .ok v) := by
  cases a <;> simp [orNext]

variable (env : PEnv)

/-! ## Validation -/

theorem getBaseContext_iff (cs : List String) (b : String) :
    getBaseContext cs = some b ↔
      b ∈ [v1ContextURI, v2ContextURI] ∧ cs.head? = some b := by
  cases cs with
  | nil => simp [getBaseContext]
  | cons c cs =>
    simp only [getBaseContext, List.head?_cons, Option.some.injEq, List.mem_cons, List.not_mem_nil,
      or_false]
    split
    · rename_i h
      simp only [Option.some.injEq]
      exact ⟨fun e => e ▸ ⟨h, rfl⟩, fun e => e.2⟩
    · rename_i h
      simp only [reduceCtorEq, false_iff]
      rintro ⟨h1, rfl⟩
      exact h h1

theorem validateJSONLD_iff (o : ParseOpts env) (json : JObj) (c : Contents env.T) :
    validateJSONLD env o json c = true ↔
      ∃ b ∈ ["https://www.w3.org/2018/credentials/v1", "https://www.w3.org/ns/credentials/v2"],
        c.context.head? = some b ∧ env.ldOK json b = true ∧
        (o.ldTypesCheck = true → env.ldTypesOK json b = true) := by
  unfold validateJSONLD
  cases h : getBaseContext c.context with
  | none =>
    simp only [Bool.false_eq_true, false_iff]
    rintro ⟨b, hb, hc, -⟩
    have := (getBaseContext_iff c.context b).2 ⟨hb, hc⟩
    rw [h] at this; cases this
  | some b =>
    have hb := (getBaseContext_iff c.context b).1 h
    simp only [Bool.and_eq_true, Bool.or_eq_true, Bool.not_eq_eq_eq_not, Bool.not_true]
    constructor
    · rintro ⟨h1, h2⟩
      refine ⟨b, hb.1, hb.2, h1, fun h3 => ?_⟩
      rcases h2 with h2 | h2
      · rw [h2] at h3; cases h3
      · exact h2
    · rintro ⟨b', -, h2, h3, h4⟩
      have : b' = b := by
        have e := hb.2
        rw [h2] at e; exact Option.some.inj e
      subst this
      refine ⟨h3, ?_⟩
      cases ht : o.ldTypesCheck with
      | false => exact Or.inl rfl
      | true => exact Or.inr (h4 ht)

theorem validate_iff (o : ParseOpts env) (vc : PCred env.T) :
    validateCredential env o vc.json vc.contents = .ok () ↔ Valid env o vc := by
  unfold validateCredential Valid
  dsimp only
  cases hm : o.mode with
  | combined =>
    simp only [← validateJSONLD_iff, true_and, reduceCtorEq, false_and, or_false]
    cases env.schemaOK vc.json vc.contents <;> cases validateJSONLD env o vc.json vc.contents <;> simp
  | jsonld =>
    simp only [← validateJSONLD_iff, true_and, reduceCtorEq, false_and, or_false, false_or]
    cases validateJSONLD env o vc.json vc.contents <;> simp
  | baseContext =>
    simp only [true_and, reduceCtorEq, false_and, or_false, false_or, validateBaseContext]
    rcases vc.contents.types with _ | ⟨t, _ | ⟨t', ts⟩⟩
    · simp
    · simp only [List.cons.injEq, and_true]
      by_cases ht : t = "VerifiableCredential"
      · simp only [ht, ne_eq, not_true_eq_false, if_false, true_and]
        rcases vc.contents.context with _ | ⟨x, _ | ⟨y, xs⟩⟩
        · simp
        · by_cases hx : x ∈ o.allowedContexts
          · cases env.schemaOK vc.json vc.contents <;> simp [hx]
          · simp [hx]
        · simp
      · simp [ht]
    · simp
  | baseContextExtended =>
    have hite : ∀ b : Bool, (if b = true then Out.ok () else Out.err) = Out.ok () ↔ b = true := by
      intro b; cases b <;> simp
    rw [hite]
    simp only [true_and, reduceCtorEq, false_and, false_or, validateExtended, Bool.and_eq_true,
      List.all_eq_true, List.contains_iff_mem]
    exact ⟨fun h => ⟨h.2, h.1.1, h.1.2⟩, fun h => ⟨⟨h.2.1, h.2.2⟩, h.1⟩⟩
  | other => simp

/-! ## Parsers with and without validation -/

theorem finishJSON_iff (o : ParseOpts env) (jws : Option (JwsParts × JObj)) (json : JObj)
    (vc : PCred env.T) :
    finishJSON env o jws json = .ok vc ↔
      finishJSON env (unchecked env o) jws json = .ok vc ∧
      (o.disableValidation = false → vc.jwt = none → Valid env o vc) := by
  unfold finishJSON
  cases parseContents env.toCEnv (ofWire json) (jws.elim false (fun p => p.1.isSDJWT)) with
  | none => simp
  | some c =>
    dsimp only
    cases parseLDProof (GObj.at (ofWire json) "proof") with
    | none => simp
    | some ps =>
      dsimp only
      cases jws with
      | none =>
        have e : (unchecked env o).disableValidation = true := rfl
        simp only [e, Option.isNone_none, Bool.not_true, Bool.and_false, Bool.true_and,
          Bool.false_eq_true, if_false]
        cases hv : o.disableValidation with
        | true => simp
        | false =>
          simp only [Bool.not_false, if_true, true_implies]
          constructor
          · intro h
            obtain ⟨⟨⟩, h1, h2⟩ := Res.bind_ok.1 h
            have h2' := Res.ok.inj h2
            refine ⟨h2, fun _ => ?_⟩
            rw [← h2']
            exact (validate_iff env o ⟨json, c, ps, none, none⟩).1 (Res.ofOut_ok.1 h1)
          · rintro ⟨h1, h2⟩
            have h1' := Res.ok.inj h1
            refine Res.bind_ok.2 ⟨(), ?_, h1⟩
            have h3 := h2 (by rw [← h1'])
            rw [← h1'] at h3
            exact Res.ofOut_ok.2 ((validate_iff env o ⟨json, c, ps, none, none⟩).2 h3)
      | some q =>
        obtain ⟨p, hs⟩ := q
        simp only [Option.isNone_some, Bool.false_and, Bool.false_eq_true, if_false, Res.bind]
        cases parseDisclosures env p.disclosures c.sdAlg with
        | none => simp
        | some dm =>
          simp only [Res.ok.injEq]
          constructor
          · intro h
            refine ⟨h, fun _ hj => ?_⟩
            rw [← h] at hj; cases hj
          · exact fun h => h.1

theorem finishJSON_not_unsupported (o : ParseOpts env) (jws : Option (JwsParts × JObj))
    (json : JObj) : finishJSON env o jws json ≠ .unsupported := by
  unfold finishJSON
  split
  · simp
  · split
    · simp
    · intro h
      rw [Res.bind_unsupported] at h
      rcases h with h | ⟨_, -, h⟩
      · split at h
        · revert h
          cases validateCredential env o json ‹_› <;> simp [Res.ofOut]
        · cases h
      · split at h
        · cases h
        · split at h <;> cases h

theorem parseJSON_iff (o : ParseOpts env) (data : String) (vc : PCred env.T) :
    parseJSON env o data = .ok vc ↔
      parseJSON env (unchecked env o) data = .ok vc ∧
      (o.disableValidation = false → vc.jwt = none → Valid env o vc) := by
  unfold parseJSON
  split
  · simp only [Res.bind_ok]
    constructor
    · rintro ⟨r, h1, h2⟩
      have := (finishJSON_iff env o _ _ vc).1 h2
      exact ⟨⟨r, h1, this.1⟩, this.2⟩
    · rintro ⟨⟨r, h1, h2⟩, h3⟩
      exact ⟨r, h1, (finishJSON_iff env o _ _ vc).2 ⟨h2, h3⟩⟩
  · simp only [Res.bind_ok]
    constructor
    · rintro ⟨r, h1, h2⟩
      have := (finishJSON_iff env o _ _ vc).1 h2
      exact ⟨⟨r, h1, this.1⟩, this.2⟩
    · rintro ⟨⟨r, h1, h2⟩, h3⟩
      exact ⟨r, h1, (finishJSON_iff env o _ _ vc).2 ⟨h2, h3⟩⟩

theorem parseJSON_unsupported (o o' : ParseOpts env) (data : String)
    (h : parseJSON env o data = .unsupported) : parseJSON env o' data = .unsupported := by
  unfold parseJSON at h ⊢
  split at h
  · rw [Res.bind_unsupported] at h
    rcases h with h | ⟨r, -, h⟩
    · rw [h]; rfl
    · exact absurd h (finishJSON_not_unsupported env o _ _)
  · rw [Res.bind_unsupported] at h
    rcases h with h | ⟨r, -, h⟩
    · rw [h]; rfl
    · exact absurd h (finishJSON_not_unsupported env o _ _)

theorem parseCBOR_iff (o : ParseOpts env) (data : String) (vc : PCred env.T) :
    parseCBOR env o data = .ok vc ↔
      parseCBOR env (unchecked env o) data = .ok vc ∧
      (o.disableValidation = false → vc.jwt = none → Valid env o vc) := by
  unfold parseCBOR
  cases openCOSE env data with
  | unsupported => simp [Res.bind]
  | err => simp [Res.bind]
  | panic => simp [Res.bind]
  | ok e =>
    simp only [Res.bind]
    cases env.cwtVC e.message.payload with
    | none => simp
    | some json =>
      dsimp only
      cases parseContents env.toCEnv (ofWire json) false with
      | none => simp
      | some c =>
        dsimp only
        have e1 : (unchecked env o).disableValidation = true := rfl
        simp only [e1, Bool.not_true, Bool.false_eq_true, if_false]
        cases hv : o.disableValidation with
        | true => simp
        | false =>
          simp only [Bool.not_false, if_true, true_implies]
          constructor
          · intro h
            cases hv : validateCredential env o json c with
            | ok u =>
              rw [hv] at h
              refine ⟨h, fun _ => ?_⟩
              have h' := Res.ok.inj h
              rw [← h']
              exact (validate_iff env o ⟨json, c, [], none, some e⟩).1 hv
            | err => rw [hv] at h; cases h
            | panic => rw [hv] at h; cases h
          · rintro ⟨h1, h2⟩
            have h' := Res.ok.inj h1
            have h3 := h2 (by rw [← h'])
            rw [← h'] at h3
            rw [(validate_iff env o ⟨json, c, [], none, some e⟩).2 h3]
            exact h1

theorem parseCBOR_unsupported (o o' : ParseOpts env) (data : String)
    (h : parseCBOR env o data = .unsupported) : parseCBOR env o' data = .unsupported := by
  unfold parseCBOR at h ⊢
  rw [Res.bind_unsupported] at h
  rcases h with h | ⟨e, -, h⟩
  · rw [h]; rfl
  · exfalso
    split at h
    · cases h
    · split at h
      · cases h
      · rw [Res.bind_unsupported] at h
        rcases h with h | ⟨_, -, h⟩
        · split at h
          · revert h
            cases validateCredential env o ‹_› ‹_› <;> simp [Res.ofOut]
          · cases h
        · cases h

/-! ## Proof checking -/

theorem objs_iff (l : List Json) (ps : List JObj) : objs l = some ps ↔ l = ps.map .obj := by
  induction l generalizing ps with
  | nil => cases ps <;> simp [objs]
  | cons j l ih =>
    cases j with
    | obj o =>
      simp only [objs, Option.map_eq_some_iff]
      constructor
      · rintro ⟨qs, h1, rfl⟩
        rw [(ih qs).1 h1]; rfl
      · intro h
        cases ps with
        | nil => cases h
        | cons p ps =>
          simp only [List.map_cons, List.cons.injEq, Json.obj.injEq] at h
          exact ⟨ps, (ih ps).2 h.2, by rw [h.1]⟩
    | _ =>
      simp only [objs, reduceCtorEq, false_iff]
      intro h
      cases ps with
      | nil => cases h
      | cons p ps => simp at h

theorem getProofs_iff (doc : JObj) (l : List JObj) :
    (JObj.at doc "proof" ≠ .null ∧ getProofs (JObj.at doc "proof") = some l) ↔
      ProofMember doc l := by
  unfold ProofMember JObj.at
  cases h : get? doc "proof" with
  | none => simp [getProofs]
  | some j =>
    cases j with
    | obj o => simp [getProofs, eq_comm]
    | arr a =>
      simp only [Option.getD_some, ne_eq, reduceCtorEq, not_false_eq_true, true_and, getProofs,
        objs_iff, Option.some.injEq, false_and, exists_false, false_or, Json.arr.injEq]
    | _ => simp [getProofs]

theorem isDataIntegrity_iff (l : List JObj) : isDataIntegrity l = true ↔ DIFirst l := by
  unfold DIFirst
  cases l with
  | nil => simp [isDataIntegrity]
  | cons p ps =>
    simp only [isDataIntegrity, List.cons.injEq]
    constructor
    · intro h
      refine ⟨p, ps, ⟨rfl, rfl⟩, ?_⟩
      split at h
      · rename_i t ht
        rw [ht, beq_iff_eq.1 h]
      · cases h
    · rintro ⟨q, qs, ⟨rfl, rfl⟩, h⟩
      rw [h]; simp

theorem checkDataIntegrity_iff (o : ParseOpts env) (doc : JObj) :
    checkDataIntegrity env o doc = true ↔ ∃ suites, o.diVerifier = some suites ∧
      (DI.verifyProof env.di suites doc
        (DI.freshOpts env.di o.diPurpose o.diDomain o.diChallenge)).1 = .ok () := by
  unfold checkDataIntegrity
  cases o.diVerifier with
  | none => simp
  | some s =>
    simp only [Option.some.injEq, exists_eq_left']
    cases (DI.verifyProof env.di s doc (DI.freshOpts env.di o.diPurpose o.diDomain o.diChallenge)).1 with
    | ok u => simp
    | error e => simp

theorem checkLDOne_iff (pc : LdProof → String → Bytes → Bytes → Bool) (i : String) (doc : JObj)
    (p : LdPrf) : checkLDOne env pc (some i) doc p = true ↔ LdSigned env pc i doc p := by
  unfold checkLDOne LdSigned
  cases env.verifyData doc p with
  | none => simp
  | some msg =>
    cases env.verifyValue p with
    | none => simp
    | some sig => simp

theorem verifyObject_iff (pc : LdProof → String → Bytes → Bytes → Bool) (i : String) (doc : JObj) :
    verifyObject env pc (some i) doc = true ↔
      ∃ ps, env.ldProofs doc = some ps ∧ ∀ p ∈ ps, LdSigned env pc i doc p := by
  unfold verifyObject
  cases env.ldProofs doc with
  | none => simp
  | some ps => simp [List.all_eq_true, checkLDOne_iff]

/-- The embedded-proof branch of `Secured`, before the contexts are added to the document. -/
theorem checkEmbedded_iff (o : ParseOpts env) (i : String) (doc doc' : JObj) :
    checkEmbedded env o (some i) doc = some doc' ↔
      doc' = withExternal env o doc ∧ ∃ l, ProofMember doc l ∧
        ((DIFirst l ∧ ∃ suites, o.diVerifier = some suites ∧
            (DI.verifyProof env.di suites doc'
              (DI.freshOpts env.di o.diPurpose o.diDomain o.diChallenge)).1 = .ok ()) ∨
         (¬ DIFirst l ∧ ∃ pc ps, o.ldChecker = some pc ∧ env.ldProofs doc' = some ps ∧
            ∀ p ∈ ps, LdSigned env pc i doc' p)) := by
  unfold checkEmbedded
  constructor
  · intro h
    split at h
    · cases h
    · rename_i hne
      split at h
      · cases h
      · rename_i ps hps
        have hm : ProofMember doc ps := (getProofs_iff doc ps).1 ⟨hne, hps⟩
        split at h
        · rename_i hd
          split at h
          · rename_i hc
            cases h
            exact ⟨rfl, ps, hm, Or.inl ⟨(isDataIntegrity_iff ps).1 hd,
              (checkDataIntegrity_iff env o _).1 hc⟩⟩
          · cases h
        · rename_i hd
          split at h
          · cases h
          · rename_i pc hpc
            split at h
            · rename_i hv
              cases h
              obtain ⟨qs, h1, h2⟩ := (verifyObject_iff env pc i _).1 hv
              exact ⟨rfl, ps, hm, Or.inr ⟨fun hx => hd ((isDataIntegrity_iff ps).2 hx), pc, qs, hpc, h1, h2⟩⟩
            · cases h
  · rintro ⟨rfl, l, hm, h⟩
    obtain ⟨h1, h2⟩ := (getProofs_iff doc l).2 hm
    split
    · rename_i hn; exact absurd hn h1
    · rw [h2]
      dsimp only
      rcases h with ⟨hd, hs⟩ | ⟨hd, pc, ps, hpc, hl, hs⟩
      · rw [if_pos ((isDataIntegrity_iff l).2 hd), if_pos ((checkDataIntegrity_iff env o _).2 hs)]
      · rw [if_neg (fun hx => hd ((isDataIntegrity_iff l).1 hx)), hpc]
        dsimp only
        rw [if_pos ((verifyObject_iff env pc i _).2 ⟨ps, hl, hs⟩)]

theorem proofMember_withExternal (o : ParseOpts env) (doc : JObj) (l : List JObj) :
    ProofMember (withExternal env o doc) l ↔ ProofMember doc l := by
  have : get? (withExternal env o doc) "proof" = get? doc "proof" := by
    unfold withExternal
    split
    · rfl
    · rw [GoMap.get?_set_ne _ _ (by decide)]
  unfold ProofMember
  rw [this]

theorem jwtCheck_iff (pc : JWT.ProofChecker) (i s : String) :
    JWT.checkProof env.lib pc (some i) none s = .ok () ↔ ∃ j, env.lib.parseJWS none s = some j ∧
      pc j.headers i j.signingInput j.signature = true := by
  unfold JWT.checkProof
  cases env.lib.parseJWS none s with
  | none => simp
  | some j => simp [JWT.joseVerify]

theorem didPart_iff (kid e : String) : (split '#' kid).headD "" = e ↔ DidPart kid e := by
  constructor
  · intro h
    have hn := split_noChar '#' kid
    have hj := joinC_split '#' kid
    cases hs : split '#' kid with
    | nil => exact absurd hs (split_ne_nil _ _)
    | cons a l =>
      rw [hs] at h hj hn
      have ha : a = e := h
      subst ha
      refine ⟨hn a (by simp), ?_⟩
      cases l with
      | nil => exact Or.inl (by rw [← hj]; rfl)
      | cons b l => exact Or.inr ⟨joinC '#' (b :: l), by rw [← hj]; rfl⟩
  · rintro ⟨hn, rfl | ⟨f, rfl⟩⟩
    · rw [split_none '#' kid hn]; rfl
    · rw [show e ++ "#" ++ f = e ++ String.singleton '#' ++ f from rfl, split_append '#' e f hn]; rfl

theorem cwtIssuer_iff (i kid e : String) : cwtIssuer i kid = e ↔ CwtIssuer i kid e := by
  unfold cwtIssuer CwtIssuer
  by_cases hi : i = ""
  · by_cases hk : kid = ""
    · simp [hi, hk, eq_comm]
    · rw [if_pos ⟨hi, hk⟩, didPart_iff]; simp [hi, hk]
  · simp [hi, eq_comm]

theorem checkCWT_iff (pc : CwtReq → String → Bytes → Bytes → Bool) (i : String) (m : Sign1) :
    checkCWT pc i m = true ↔ ∃ msg a x, proofValue m = some msg ∧ m.alg = some a ∧
      CwtIssuer i m.kid x ∧ pc ⟨m.kid, m.coseKey.getD "", a⟩ x msg m.signature = true := by
  unfold checkCWT
  cases proofValue m with
  | none => simp
  | some msg =>
    cases m.alg with
    | none => simp
    | some a => simp [← cwtIssuer_iff]

/-- What `checkProof` accepts and leaves behind. -/
theorem checkProof_iff (o : ParseOpts env) (vc vc' : PCred env.T) :
    checkProof env o vc = some vc' ↔
      Secured env o vc' ∧ vc' = (if vc.jwt.isNone && vc.cwt.isNone
        then { vc with json := withExternal env o vc.json } else vc) := by
  unfold checkProof
  cases hi : vc.contents.issuer with
  | none =>
    simp only [reduceCtorEq, false_iff, not_and]
    intro hs he
    have hc : vc'.contents = vc.contents := by rw [he]; split <;> rfl
    cases hs <;> rename_i h _ _ _ _ <;> simp_all
  | some i =>
    dsimp only
    cases hj : vc.jwt with
    | some e =>
      simp only [Option.isNone_some, Bool.false_and, Bool.false_eq_true, if_false]
      constructor
      · intro h
        split at h
        · cases h
        · rename_i pc hpc
          split at h
          · rename_i hk
            cases h
            obtain ⟨j, h1, h2⟩ := (jwtCheck_iff env pc i.id e.jwt).1 hk
            exact ⟨.jwt i e pc j hi hj hpc h1 h2, rfl⟩
          · cases h
      · rintro ⟨hs, rfl⟩
        cases hs with
        | jwt i' e' pc j hi' he' hc hj' hs =>
          rw [hi] at hi'; cases hi'
          rw [hj] at he'; cases he'
          rw [hc]
          dsimp only
          rw [(jwtCheck_iff env pc i.id e.jwt).2 ⟨j, hj', hs⟩]
        | cwt i' e' pc msg a x hi' hn => rw [hj] at hn; cases hn
        | ld i' l pc ps hi' hn => rw [hj] at hn; cases hn
        | di i' l s hi' hn => rw [hj] at hn; cases hn
    | none =>
      dsimp only
      cases hw : vc.cwt with
      | some e =>
        simp only [Option.isNone_some, Bool.and_false, Bool.false_eq_true, if_false]
        constructor
        · intro h
          split at h
          · cases h
          · rename_i pc hpc
            split at h
            · rename_i hk
              cases h
              obtain ⟨msg, a, x, h1, h2, h3, h4⟩ := (checkCWT_iff pc i.id e.message).1 hk
              exact ⟨.cwt i e pc msg a x hi hj hw hpc h1 h2 h3 h4, rfl⟩
            · cases h
        · rintro ⟨hs, rfl⟩
          cases hs with
          | jwt i' e' pc j hi' he' => rw [hj] at he'; cases he'
          | cwt i' e' pc msg a x hi' hn he' hc hm ha hx hs =>
            rw [hi] at hi'; cases hi'
            rw [hw] at he'; cases he'
            rw [hc]
            dsimp only
            rw [if_pos ((checkCWT_iff pc i.id e.message).2 ⟨msg, a, x, hm, ha, hx, hs⟩)]
          | ld i' l pc ps hi' hn hn' => rw [hw] at hn'; cases hn'
          | di i' l s hi' hn hn' => rw [hw] at hn'; cases hn'
      | none =>
        simp only [Option.isNone_none, Bool.and_self, if_true]
        constructor
        · intro h
          split at h
          · rename_i d hd
            cases h
            obtain ⟨h1, l, h2, h3⟩ := (checkEmbedded_iff env o i.id vc.json d).1 hd
            subst h1
            have hm : ProofMember (withExternal env o vc.json) l :=
              (proofMember_withExternal env o vc.json l).2 h2
            refine ⟨?_, rfl⟩
            rcases h3 with ⟨h3, s, h4, h5⟩ | ⟨h3, pc, ps, h4, h5, h6⟩
            · exact .di i l s hi rfl rfl hm h3 h4 h5
            · exact .ld i l pc ps hi rfl rfl hm h3 h4 h5 h6
          · cases h
        · rintro ⟨hs, he⟩
          have hjs : vc'.json = withExternal env o vc.json := by rw [he]
          have hct : vc'.contents = vc.contents := by rw [he]
          have : checkEmbedded env o (some i.id) vc.json = some (withExternal env o vc.json) := by
            rw [checkEmbedded_iff]
            refine ⟨rfl, ?_⟩
            cases hs with
            | jwt i' e' pc j hi' he' => rw [he] at he'; simp [hj] at he'
            | cwt i' e' pc msg a x hi' hn he' => rw [he] at he'; simp [hw] at he'
            | ld i' l pc ps hi' hn hn' hp hd hc hl hs =>
              rw [hct, hi] at hi'; cases hi'
              rw [hjs] at hp hl hs
              exact ⟨l, (proofMember_withExternal env o vc.json l).1 hp, Or.inr ⟨hd, pc, ps, hc, hl, hs⟩⟩
            | di i' l s hi' hn hn' hp hd hc hs =>
              rw [hjs] at hp hs
              exact ⟨l, (proofMember_withExternal env o vc.json l).1 hp, Or.inl ⟨hd, s, hc, hs⟩⟩
          rw [this, he]

end VC.Vfy
