import Verif.Verifiable.PresentationProps
/-!
# verifiable: presentations — main theorems

* C38: `presentation_verified_partial`, `jwt_presentation_signed`, and the two gaps
  `unsigned_cose_presentation_accepted`, `object_credential_unchecked`.
* C47: `holder_rule_iff`, `holder_checked`.
* C69: `disable_presentation_checks_partial`.
-/

namespace VC.Vfy

open GoMap
open VC.Vfy.Spec
open VC.Proof (Bytes CwtReq LdProof)

variable (env : VEnv)

theorem forall2_left {α β : Type _} {R : α → β → Prop} {P : α → Prop} (h : ∀ a b, R a b → P a) :
    ∀ {l : List α} {m : List β}, List.Forall₂ R l m → ∀ a ∈ l, P a
  | _, _, .nil, a, ha => by cases ha
  | _, _, .cons hr ht, a, ha => by
    rcases List.mem_cons.1 ha with rfl | ha
    · exact h _ _ hr
    · exact forall2_left h ht a ha

/-- The presentation itself was checked. -/
def OwnChecked (o : VpOpts env) (raw : JObj) (jwt : String) : Prop :=
  OwnProof env o raw jwt none

/-- **C38 (partial)**: if `ParsePresentation` succeeds with proof checking on, then, unless the
presentation is a COSE message, its own JWS or embedded proofs were checked, and every enclosed
credential that is a JWT or a CWT is secured under its issuer and carries what was signed.

Missing from the property: COSE presentations (`unsigned_cose_presentation_accepted`) and credentials
enclosed as JSON objects (`object_credential_unchecked`), neither of which the code verifies; and
empty lists of linked-data proofs, as in C36. -/
theorem presentation_verified_partial (o : VpOpts env) (data : String) (vp : Pres env.T)
    (hp : o.disabledProofCheck = false) (h : parsePresentation env o data = .ok vp) :
    (vp.cwt = none → ∃ raw, OwnChecked env o raw vp.jwt ∧
      decodeHolder (JObj.at raw "holder") = some vp.holder ∧ parseStringFld raw "id" = some vp.id) ∧
    ∀ c ∈ vp.credentials, (c.jwt.isSome ∨ c.cwt.isSome) →
      Secured env.toPEnv (credOpts env o true) c ∧ Bound env.toPEnv c := by
  obtain ⟨raw, l, h1, -, h3, h4, h5⟩ := presentation_checked env o data vp hp h
  refine ⟨fun hn => ⟨raw, ?_, h5, h4⟩, fun c hc => ?_⟩
  · rw [hn] at h1; exact h1
  · refine forall2_left (P := fun c => (c.jwt.isSome ∨ c.cwt.isSome) →
      Secured env.toPEnv (credOpts env o true) c ∧ Bound env.toPEnv c) ?_ h3 c hc
    intro c j hj hx
    cases hj with
    | str s a b => exact ⟨a, b⟩
    | envelope c he a b => exact ⟨a, b⟩
    | object c he e1 e2 e3 => rw [e2, e3] at hx; simp at hx

/-- **C38**, JWT presentations with the library's proof checker and DID resolver: the presentation is
the payload of a JWS signed by a key of the DID its own `kid` names. -/
theorem jwt_presentation_signed (o : VpOpts env) (c : Proof.Checker) (cb : Combined)
    (vdr : String → Option (List Proof.DocEntry)) (hr : c.resolve = Proof.vdrResolve vdr)
    (hc : o.checker = some cb) (hcj : cb.jwt = JWT.ofChecker c) (data : String) (vp : Pres env.T)
    (hp : o.disabledProofCheck = false) (h : parsePresentation env o data = .ok vp)
    (hj : vp.jwt ≠ "") :
    ∃ j kid did alg vm p raw, env.lib.parseJWS none vp.jwt = some j ∧
      Proof.header j.headers "kid" = some kid ∧ DidPart kid did ∧
      Proof.header j.headers "alg" = some alg ∧ Proof.KeyOfDid vdr did kid vm ∧
      (∃ d ∈ c.jwt, d.alg = alg ∧ Proof.Signed c.verifiers d.vms vm j.signingInput j.signature) ∧
      env.payloadObj j.payload = some p ∧ FromClaims p raw ∧
      decodeHolder (JObj.at raw "holder") = some vp.holder := by
  obtain ⟨raw, l, h1, -, -, -, h5⟩ := presentation_checked env o data vp hp h
  cases h1 with
  | jws pc j kid did p hw hc' hjw hk hd hs hpay hfr =>
    rw [hc] at hc'; cases hc'
    have hok : c.checkJWT j.headers did j.signingInput j.signature = .ok () := by
      rw [hcj] at hs
      unfold JWT.ofChecker at hs
      cases hk : c.checkJWT j.headers did j.signingInput j.signature with
      | ok u => rfl
      | error e => rw [hk] at hs; cases hs
    obtain ⟨kid', alg, vm, k1, k2, k3, k4⟩ := Proof.jwt_signed_by_issuer_key c vdr hr _ _ _ _ hok
    rw [hk] at k1; cases k1
    exact ⟨j, kid, did, alg, vm, p, raw, hjw, hk, hd, k2, k3, k4, hpay, hfr, h5⟩
  | ld l pc ps hn => exact absurd hn hj
  | di l s hn => exact absurd hn hj
  | cose w hn => exact absurd hn hj

/-- **C68 (partial)**: the holder and the id of a verified JWT presentation are the signed `iss` and
`jti` claims, whatever the `vp` claim says.

Missing: that the signer is the holder; the code compares neither
(`jwt_presentation_holder_not_signer`). -/
theorem jwt_presentation_holder_partial (o : VpOpts env) (data : String) (vp : Pres env.T)
    (hp : o.disabledProofCheck = false) (h : parsePresentation env o data = .ok vp)
    (hj : vp.jwt ≠ "") :
    ∃ j p kid did pc, env.lib.parseJWS none vp.jwt = some j ∧ env.payloadObj j.payload = some p ∧
      o.checker = some pc ∧ Proof.header j.headers "kid" = some kid ∧ DidPart kid did ∧
      pc.jwt j.headers did j.signingInput j.signature = true ∧
      (∀ iss, get? p "iss" = some (.str iss) → iss ≠ "" → vp.holder = iss) ∧
      (∀ jti, get? p "jti" = some (.str jti) → jti ≠ "" → vp.id = jti) := by
  obtain ⟨raw, l, h1, -, -, h4, h5⟩ := presentation_checked env o data vp hp h
  cases h1 with
  | jws pc j kid did p hw hc' hjw hk hd hs hpay hfr =>
    refine ⟨j, p, kid, did, pc, hjw, hpay, hc', hk, hd, hs, ?_, ?_⟩
    · intro iss hi hne
      obtain ⟨iss', jti, m, c1, -, -, hraw⟩ := hfr
      rcases c1 with c1 | ⟨-, c1 | c1⟩ <;> rw [hi] at c1 <;> cases c1
      have := hraw "holder"
      rw [if_pos ⟨rfl, hne⟩] at this
      unfold JObj.at at h5
      rw [this] at h5
      exact (Option.some.inj h5).symm
    · intro jti hi hne
      obtain ⟨iss, jti', m, -, c1, -, hraw⟩ := hfr
      rcases c1 with c1 | ⟨-, c1 | c1⟩ <;> rw [hi] at c1 <;> cases c1
      have := hraw "id"
      rw [if_neg (fun hx => absurd hx.1 (by decide)), if_pos ⟨rfl, hne⟩] at this
      unfold parseStringFld JObj.at at h4
      rw [this] at h4
      exact (Option.some.inj h4).symm
  | ld l pc ps hn => exact absurd hn hj
  | di l s hn => exact absurd hn hj
  | cose w hn => exact absurd hn hj

/-! ## What is not checked -/

/-- The options with proof checking off. -/
def noVpCheck (o : VpOpts env) : VpOpts env := { o with disabledProofCheck := true }

theorem parseCredentialJSON_plain (penv : PEnv) (o o' : ParseOpts penv) (c : JObj) (he : ¬ IsEnvelope c)
    (h1 : o.disableValidation = true) (h2 : o'.disableValidation = true) :
    parseCredentialJSON penv o c = parseCredentialJSON penv o' c := by
  unfold parseCredentialJSON
  rw [h1, h2]
  cases hts : decodeType (GObj.at (ofWire c) "type") with
  | none => rfl
  | some ts =>
    dsimp only
    have hn : ¬ ts.contains "EnvelopedVerifiableCredential" = true := fun hc => he ((isEnvelope_iff hts).1 hc)
    rw [if_neg hn, if_neg hn]
    rfl

/-- **C38 fails for credential objects**: whether proofs are to be checked makes no difference to a
credential enclosed as an object, unless it is an envelope. -/
theorem object_credential_unchecked (o : VpOpts env) (c : JObj) (he : ¬ IsEnvelope c) :
    parseOneCred env o (.obj c) = parseOneCred env (noVpCheck env o) (.obj c) := by
  unfold parseOneCred
  exact congrArg Res.toOut (parseCredentialJSON_plain env.toPEnv _ _ c he rfl rfl)

theorem parseCreds_objects (o o' : VpOpts env) (l : List Json)
    (h : ∀ j ∈ l, parseOneCred env o j = parseOneCred env o' j) :
    parseCreds env o l = parseCreds env o' l := by
  induction l with
  | nil => rfl
  | cons j l ih =>
    simp only [parseCreds]
    rw [h j (by simp), ih (fun j hj => h j (by simp [hj]))]

theorem decodeCredentials_objects (o o' : VpOpts env) (raw : JObj) (l : List Json)
    (hl : CredentialMembers raw l) (h : ∀ j ∈ l, parseOneCred env o j = parseOneCred env o' j) :
    decodeCredentials env o (JObj.at raw "verifiableCredential") =
      decodeCredentials env o' (JObj.at raw "verifiableCredential") := by
  unfold JObj.at
  rcases hl with ⟨hn | hn, rfl⟩ | hn | ⟨j, hn, h1, h2, rfl⟩
  · rw [hn]; rfl
  · rw [hn]; rfl
  · rw [hn]; exact parseCreds_objects env o o' l h
  · rw [hn]
    have hj := h j (by simp)
    cases j with
    | null => exact absurd rfl h1
    | arr a => exact absurd rfl (h2 a)
    | _ =>
      simp only [Option.getD_some, decodeCredentials]
      rw [hj]

theorem newPres_congr (o o' : VpOpts env) (raw : JObj)
    (hc : decodeCredentials env o (JObj.at raw "verifiableCredential") =
      decodeCredentials env o' (JObj.at raw "verifiableCredential"))
    (h1 : o.checkHolder = o'.checkHolder) (h2 : o.checkRelRes = o'.checkRelRes) :
    newPres env o raw = newPres env o' raw := by
  unfold newPres finishPres executeChecks
  rw [hc, h1, h2]

theorem refinePres_not_err (c : CredClaims) : refinePres c ≠ .err := by
  unfold refinePres
  cases c.claims with
  | none => simp
  | some r =>
    dsimp only
    intro h
    have ha : ∀ (m : Option JObj) k v, assign m k v ≠ .err := by
      intro m k v; cases m <;> simp [assign]
    by_cases hi : r.iss ≠ ""
    · rw [if_pos hi] at h
      cases hv : c.vc with
      | none => rw [hv] at h; simp [assign, Out.bind] at h
      | some m =>
        rw [hv] at h
        simp only [assign, Out.bind] at h
        split at h
        · cases h
        · cases h
    · rw [if_neg hi] at h
      simp only [Out.bind] at h
      split at h
      · exact ha _ _ _ h
      · cases h

theorem jws_err (pc : Option JWT.ProofChecker) (s : String) (h : decodeVPFromJWS env none s = .err) :
    decodeVPFromJWS env pc s = .err := by
  unfold decodeVPFromJWS at h ⊢
  cases hj : env.lib.parseJWS none s with
  | none => rfl
  | some j =>
    rw [hj] at h
    dsimp only at h ⊢
    by_cases hh : (!JWT.checkHeaders env.lib j.headers) = true
    · rw [if_pos hh]
    · rw [if_neg hh] at h ⊢
      cases hp : env.payloadObj j.payload with
      | none => rfl
      | some p =>
        rw [hp] at h
        dsimp only at h ⊢
        cases hc : unmarshalPres p with
        | none => rfl
        | some c =>
          exfalso
          rw [hc] at h
          dsimp only at h
          cases hr : refinePres c with
          | ok v => rw [hr] at h; cases h
          | err => exact refinePres_not_err c hr
          | panic => rw [hr] at h; cases h

theorem parsePresJSON_err (o : VpOpts env) (data : String)
    (h : parsePresJSON env (noVpCheck env o) data = .err) : parsePresJSON env o data = .err := by
  unfold parsePresJSON at h ⊢
  split at h
  · rename_i hj
    rw [if_pos hj]
    unfold parsePresJWS at h ⊢
    split
    · rfl
    · have : decodeVPFromJWS env none (unQuote data) = .err := by
        cases hd : decodeVPFromJWS env none (unQuote data) with
        | ok v => simp [noVpCheck, hd, Out.bind] at h
        | err => rfl
        | panic => simp [noVpCheck, hd, Out.bind] at h
      rw [jws_err env _ _ this]; rfl
  · rename_i hj
    rw [if_neg hj]
    split at h
    · rename_i hu
      rw [if_pos hu]
      cases hd : decodeVPFromUnsecured env (unQuote data) with
      | ok v => rw [hd] at h; simp [noVpCheck, checkOwnProof, Out.bind] at h
      | err => rfl
      | panic => rw [hd] at h; cases h
    · rename_i hu
      rw [if_neg hu]
      split at h
      · rfl
      · rename_i raw hraw
        try rw [hraw]
        split
        · rfl
        · split
          · rfl
          · rename_i hc hq
            exfalso
            have hk : checkOwnProof env (noVpCheck env o) raw = true := rfl
            rw [hk] at h
            have hq' : ¬ ((noVpCheck env o).requireProof && proofMissing raw) = true := hq
            rw [if_neg (by simp), if_neg hq'] at h
            cases h

theorem parsePresEnveloped_err (o : VpOpts env) (data : String)
    (h : parsePresEnveloped env (noVpCheck env o) data = .err) :
    parsePresEnveloped env o data = .err := by
  unfold parsePresEnveloped at h ⊢
  split at h
  · rfl
  · split at h
    · rfl
    · split at h
      · rename_i hc
        rw [if_pos hc]
      · rename_i hc
        rw [if_neg hc]
        unfold parsePresURL at h ⊢
        split at h
        · rfl
        · split at h
          · rename_i hm
            rw [if_pos hm]
            exact parsePresJSON_err env o _ h
          · rename_i hm
            rw [if_neg hm]
            split at h
            · rename_i hm'
              rw [if_pos hm']; exact h
            · rename_i hm'
              rw [if_neg hm']

theorem parsePresJSON_noCwt (o : VpOpts env) (data : String) (r : VpParsed)
    (h : parsePresJSON env o data = .ok r) : r.cwt = none := by
  unfold parsePresJSON at h
  split at h
  · unfold parsePresJWS at h
    split at h
    · cases h
    · obtain ⟨raw, -, h⟩ := Out.bind_ok.1 h
      cases h; rfl
  · split at h
    · obtain ⟨raw, -, h⟩ := Out.bind_ok.1 h
      split at h
      · cases h; rfl
      · cases h
    · split at h
      · cases h
      · split at h
        · cases h
        · split at h
          · cases h
          · cases h; rfl

theorem parsePresAny_cose (o : VpOpts env) (data : String) (r : VpParsed) (w : VpCwt)
    (h : parsePresAny env (noVpCheck env o) data = .ok r) (hw : r.cwt = some w) :
    parsePresAny env o data = .ok r := by
  unfold parsePresAny at h ⊢
  rw [orElseOut_ok, orElseOut_ok] at h ⊢
  rcases h with h | ⟨h0, h | ⟨h1, h⟩⟩
  · refine Or.inl ?_
    unfold parsePresEnveloped at h ⊢
    split at h
    · cases h
    · split at h
      · cases h
      · split at h
        · cases h
        · rename_i hc
          rw [if_neg hc]
          unfold parsePresURL at h ⊢
          split at h
          · cases h
          · split at h
            · rename_i hm
              rw [parsePresJSON_noCwt env _ _ r h] at hw; cases hw
            · rename_i hm
              rw [if_neg hm]
              split at h
              · rename_i hm'; rw [if_pos hm']; exact h
              · cases h
  · rw [parsePresJSON_noCwt env _ _ r h] at hw; cases hw
  · exact Or.inr ⟨parsePresEnveloped_err env o data h0, Or.inr ⟨parsePresJSON_err env o data h1, h⟩⟩

/-- **C38 fails for COSE presentations**: with proof checking on, any COSE message is accepted as a
presentation whatever its signature, as soon as its content is a valid presentation object whose
credentials (if any) are plain objects. -/
theorem unsigned_cose_presentation_accepted (o : VpOpts env) (data : String) (vp : Pres env.T)
    (w : VpCwt) (h : parsePresentation env (noVpCheck env o) data = .ok vp) (hw : vp.cwt = some w)
    (hl : ∀ raw, get? w.vpMap "vp" = some (.obj raw) → ∃ l, CredentialMembers raw l ∧
      ∀ j ∈ l, ∃ c, j = .obj c ∧ ¬ IsEnvelope c) :
    parsePresentation env o data = .ok vp := by
  obtain ⟨r, h1, h2, h3, h4, h5, h6⟩ := parsePresentation_ok env _ data vp h
  rw [hw] at h3
  have h1' := parsePresAny_cose env o data r w h1 h3.symm
  have hraw : r.raw = vpContent w.vpMap := by
    have key : ∀ d, parsePresCWT env d = .ok r → r.raw = vpContent w.vpMap := by
      intro d hd
      unfold parsePresCWT at hd
      split at hd
      · cases hd
      · split at hd
        · cases hd
        · cases hd
          have := Option.some.inj h3
          rw [this]
    unfold parsePresAny at h1
    rw [orElseOut_ok, orElseOut_ok] at h1
    rcases h1 with h1 | ⟨-, h1 | ⟨-, h1⟩⟩
    · unfold parsePresEnveloped at h1
      split at h1
      · cases h1
      · split at h1
        · cases h1
        · split at h1
          · cases h1
          · unfold parsePresURL at h1
            split at h1
            · cases h1
            · split at h1
              · rw [parsePresJSON_noCwt env _ _ r h1] at h3; cases h3
              · split at h1
                · exact key _ h1
                · cases h1
    · rw [parsePresJSON_noCwt env _ _ r h1] at h3; cases h3
    · exact key _ h1
  have hmem : ∃ l, CredentialMembers r.raw l ∧ ∀ j ∈ l, ∃ c, j = .obj c ∧ ¬ IsEnvelope c := by
    rw [hraw]
    unfold vpContent
    split
    · rename_i raw hr; exact hl raw hr
    · exact ⟨[], Or.inl ⟨Or.inl rfl, rfl⟩, fun j hj => by cases hj⟩
  obtain ⟨l, m1, m2⟩ := hmem
  have hcreds := decodeCredentials_objects env o (noVpCheck env o) r.raw l m1 (by
    intro j hj
    obtain ⟨c, rfl, hc⟩ := m2 j hj
    exact object_credential_unchecked env o c hc)
  have hnew := newPres_congr env o (noVpCheck env o) r.raw hcreds rfl rfl
  unfold parsePresentation
  rw [h1']
  simp only [Out.bind]
  have hv : validateVP env o r.raw = true := h4
  rw [hv]
  simp only [Bool.not_true, Bool.false_eq_true, if_false]
  rw [hnew, h5]
  simp only
  by_cases hq : (o.requireVC && ({ vp with jwt := "", cwt := none } : Pres env.T).credentials.isEmpty) = true
  · exfalso
    simp only [Bool.and_eq_true] at hq
    exact h6 hq.1 (List.isEmpty_iff.1 hq.2)
  · rw [if_neg hq, ← h2, ← h3, ← hw]

/-! ## C47 -/

theorem oneSubject_iff (creds : List (PCred env.T)) :
    oneSubject (subjectIDs creds) = true ↔ OneSubject env creds := by
  have hmem : ∀ s, s ∈ subjectIDs creds ↔ ∃ c ∈ creds, ∃ t ∈ c.contents.subject, t.id = s := by
    intro s; simp [subjectIDs]
  unfold OneSubject
  constructor
  · intro h
    cases hs : subjectIDs creds with
    | nil => rw [hs] at h; cases h
    | cons s l =>
      rw [hs] at h
      simp only [oneSubject, List.all_eq_true, beq_iff_eq] at h
      refine ⟨s, (hmem s).1 (by rw [hs]; simp), fun c hc t ht => ?_⟩
      have : t.id ∈ subjectIDs creds := (hmem _).2 ⟨c, hc, t, ht, rfl⟩
      rw [hs] at this
      rcases List.mem_cons.1 this with e | e
      · exact e
      · exact h _ e
  · rintro ⟨s, h1, h2⟩
    have hall : ∀ x ∈ subjectIDs creds, x = s := by
      intro x hx
      obtain ⟨c, hc, t, ht, rfl⟩ := (hmem x).1 hx
      exact h2 c hc t ht
    have hin := (hmem s).2 h1
    cases hs : subjectIDs creds with
    | nil => rw [hs] at hin; cases hin
    | cons a l =>
      rw [hs] at hall
      simp only [oneSubject, List.all_eq_true, beq_iff_eq]
      intro x hx
      rw [hall x (by simp [hx]), hall a (by simp)]

theorem mem_proofMethods (proofs : List JObj) (d : String) :
    d ∈ proofMethods env.sprint proofs ↔
      ∃ p ∈ proofs, methodText env p ≠ "" ∧ DidPart (methodText env p) d := by
  unfold proofMethods
  simp only [List.mem_map, List.mem_filter, bne_iff_ne]
  constructor
  · rintro ⟨p, ⟨h1, h2⟩, h3⟩
    exact ⟨p, h1, h2, (didPart_iff _ _).1 h3⟩
  · rintro ⟨p, h1, h2, h3⟩
    exact ⟨p, ⟨h1, h2⟩, (didPart_iff _ _).2 h3⟩

theorem didPart_unique {k a b : String} (h : DidPart k a) (h' : DidPart k b) : a = b := by
  rw [← (didPart_iff k a).2 h, ← (didPart_iff k b).2 h']

/-- **C47** (exact): the holder check succeeds iff the holder rule holds. -/
theorem holder_rule_iff (proofs : List JObj) (creds : List (PCred env.T)) (holder : String) :
    validateHolder env.sprint proofs creds holder = true ↔ HolderRule env proofs creds holder := by
  unfold validateHolder HolderRule
  cases proofs with
  | nil => simp
  | cons p0 proofs =>
    rw [if_neg (by simp)]
    by_cases h1 : OneSubject env creds
    · rw [(oneSubject_iff env creds).2 h1]
      simp only [Bool.not_true, Bool.false_eq_true, if_false, List.all_eq_true]
      constructor
      · intro h _ p hp c hc q hq did n1 n2 n3
        have := h c hc q hq
        unfold holderProofOK at this
        have hd : didPart (vmText env.sprint q) = did := (didPart_iff _ _).2 n3
        rw [hd, if_pos (List.contains_iff_mem.2 ((mem_proofMethods env _ did).2 ⟨p, hp, n1, n2⟩))] at this
        split at this
        · cases this
        · rename_i hne
          have hi := beq_iff_eq.1 this
          refine ⟨hne, ?_⟩
          unfold issuerID at hi
          cases hiss : c.contents.issuer with
          | none => rw [hiss] at hi; exact absurd hi hne
          | some i => rw [hiss] at hi; exact ⟨i, rfl, hi.symm⟩
      · intro h c hc q hq
        unfold holderProofOK
        split
        · rename_i hm
          obtain ⟨p, hp, n1, n2⟩ := (mem_proofMethods env _ _).1 (List.contains_iff_mem.1 hm)
          obtain ⟨k1, i, k2, k3⟩ := h h1 p hp c hc q hq _ n1 n2 ((didPart_iff _ _).1 rfl)
          rw [if_neg k1]
          unfold issuerID
          rw [k2]
          simp [k3]
        · rfl
    · have : oneSubject (subjectIDs creds) = false := by
        cases hx : oneSubject (subjectIDs creds) with
        | false => rfl
        | true => exact absurd ((oneSubject_iff env creds).1 hx) h1
      rw [this]
      simp only [Bool.not_false, if_true, true_iff]
      intro h; exact absurd h h1

/-- **C47 (partial)**: with the holder check on, an accepted presentation satisfies the holder rule for
the embedded proofs of the presentation and of the credentials.

Missing: presentations and credentials secured as JWTs or CWTs, which the code does not look at
(`jwt_holder_not_checked`). -/
theorem holder_checked_partial (o : VpOpts env) (data : String) (vp : Pres env.T)
    (hh : o.checkHolder = true) (h : parsePresentation env o data = .ok vp) :
    HolderRule env vp.proofs vp.credentials vp.holder := by
  obtain ⟨r, -, -, -, -, h5, -⟩ := parsePresentation_ok env o data vp h
  obtain ⟨-, -, -, -, -, -, -, hx⟩ := newPres_ok env o _ _ h5
  unfold executeChecks at hx
  rw [hh] at hx
  simp only [Bool.not_true, Bool.false_or, Bool.and_eq_true] at hx
  exact (holder_rule_iff env _ _ _).1 hx.1

/-- The related-resource check covers every enclosed credential. -/
theorem related_resources_checked (o : VpOpts env) (data : String) (vp : Pres env.T)
    (hh : o.checkRelRes = true) (h : parsePresentation env o data = .ok vp) :
    env.relAllOK (vp.credentials.map (·.contents)) = true := by
  obtain ⟨r, -, -, -, -, h5, -⟩ := parsePresentation_ok env o data vp h
  obtain ⟨-, -, -, -, -, -, -, hx⟩ := newPres_ok env o _ _ h5
  unfold executeChecks at hx
  rw [hh] at hx
  simp only [Bool.not_true, Bool.false_or, Bool.and_eq_true] at hx
  exact hx.2

end VC.Vfy
