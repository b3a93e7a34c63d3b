import Verif.Issue.CredProps
import Verif.Verifiable.SdMake
/-!
# C109: `MakeSDJWT`, `ParseCredential`, `CreateDisplayCredential`

The SD-JWT made of a credential is read back as that credential, its subject known by its id, with every
disclosure; displaying all of it gives the credential back, displaying nothing the claims left in clear.
-/

namespace VC.Iss

open GoMap (get? keys del WF)
open VC.Vfy
open VC.Vfy.Spec
open VC.Proof (Bytes)
open VC.SDJWT (IEnv Ver Ent Codec DistinctDigests SolidObj)
open Spec

variable (lib : JwsLib)

/-! ## Model -/

/-- The headers `makeSDJWT` hands to the issuer, credential_sdjwt.go:394-400. -/
def sdHeaders : Ver → String → JObj
  | .v2, kid => [("kid", .str kid)]
  | .v5, kid => [("kid", .str kid), ("typ", .str "vc+sd-jwt")]

/-- `makeSDJWT`, credential_sdjwt.go:353-438, with `NewFromVC`, issuer.go:415-468: the signed token and the
disclosures.  `ver` is the version of the options or of the envelope, `hs` and `sign` the `jose.Signer`. -/
def makeSdToken (E : IEnv) (env : JEnv) (ver : Ver) (non : List String) (kid : String) (hs : JObj)
    (sign : Bytes → Option Bytes) (vc : Cred env.T) : Out (Tok × List Ent) :=
  (newJWTCredClaims env vc false).bind fun c =>
  match SDJWT.makeSDJWT E ver non (makeClaims ver c.1 (wireObj c.2)) with
  | .error _ => .err
  | .ok (es, payload) =>
    match newJoseSigned lib payload (sdHeaders ver kid) hs sign with
    | none => .err
    | some t => .ok (t, es)

/-- `MakeSDJWT`, credential_sdjwt.go:335-350, with `Serialize`, issuer.go:566-582: the combined format for
issuance. -/
def makeSdText (E : IEnv) (env : JEnv) (ver : Ver) (non : List String) (kid : String) (hs : JObj)
    (sign : Bytes → Option Bytes) (vc : Cred env.T) : Out String :=
  (makeSdToken lib E env ver non kid hs sign vc).bind fun r =>
  .ok (SDJWT.Issuance.serialize ⟨serialize lib false r.1, r.2.map Ent.result⟩)

/-! ## Specification -/

namespace Spec

/-- The texts of the disclosures: not empty, and without the separators of SD-JWT and JWS (base64url uses
neither). -/
def CleanTexts (ds : List String) : Prop := ∀ d ∈ ds, d ≠ "" ∧ NoChar '~' d ∧ NoChar '.' d

end Spec

/-! ## Reading the text -/

theorem notJWS_of_noDot (env : PEnv) {s : String} (h : NoChar '.' s) : isJWS env s = false := by
  unfold isJWS
  rw [split_none _ _ h]

theorem issuance_parts (env : PEnv) {jwt : String} {ds : List String} (hj : NoChar '~' jwt)
    (hd : CleanTexts ds) (hne : ds ≠ []) :
    jwsParts env (SDJWT.Issuance.serialize ⟨jwt, ds⟩) = ⟨true, jwt, ds, ""⟩ := by
  have hall : ∀ s ∈ jwt :: ds, NoChar '~' s := by
    intro s hs
    rcases List.mem_cons.1 hs with rfl | h
    · exact hj
    · exact (hd s h).2.1
  have hsplit : split SDJWT.sep (SDJWT.Issuance.serialize ⟨jwt, ds⟩) = jwt :: ds := by
    unfold SDJWT.Issuance.serialize
    rw [SDJWT.appendDisclosures_eq]
    exact split_joinC SDJWT.sep (jwt :: ds) (by simp) hall
  have hmem : SDJWT.sep ∈ (SDJWT.Issuance.serialize ⟨jwt, ds⟩).toList := by
    by_contra hn
    have := split_none SDJWT.sep _ hn
    rw [hsplit] at this
    cases ds with
    | nil => exact hne rfl
    | cons d ds => simp at this
  have hlast : (jwt :: ds).getLastD "" ∈ ds := by
    cases ds with
    | nil => exact absurd rfl hne
    | cons d ds =>
      have : (jwt :: d :: ds).getLastD "" = (d :: ds).getLast (by simp) := by
        simp [List.getLastD, List.getLast_cons]
      rw [this]
      exact List.getLast_mem _
  obtain ⟨c1, -, c3⟩ := hd _ hlast
  unfold jwsParts
  rw [if_pos hmem]
  unfold splitCombined
  rw [hsplit, if_neg (by
    rintro (h | h)
    · exact c1 h
    · rw [notJWS_of_noDot env c3] at h; cases h),
    SDJWT.issuance_round_trip ⟨jwt, ds⟩ hj (fun d h => (hd d h).2.1)]

/-! ## What is made -/

theorem makeSdToken_inv {E : IEnv} {env : JEnv} {ver : Ver} {non : List String} {kid : String} {hs : JObj}
    {sign : Bytes → Option Bytes} {vc : Cred env.T} {t : Tok} {es : List Ent}
    (h : makeSdToken lib E env ver non kid hs sign vc = .ok (t, es)) :
    ∃ c m, newJWTCredClaims env vc false = .ok (c, m) ∧
      SDJWT.makeSDJWT E ver non (makeClaims ver c (wireObj m)) = .ok (es, t.payload) ∧
      newJoseSigned lib t.payload (sdHeaders ver kid) hs sign = some t := by
  unfold makeSdToken at h
  obtain ⟨⟨c, m⟩, h1, h2⟩ := Out.bind_ok.1 h
  dsimp only at h2
  cases hx : SDJWT.makeSDJWT E ver non (makeClaims ver c (wireObj m)) with
  | error e => rw [hx] at h2; cases h2
  | ok r =>
    obtain ⟨es', payload⟩ := r
    rw [hx] at h2
    dsimp only at h2
    cases hy : newJoseSigned lib payload (sdHeaders ver kid) hs sign with
    | none => rw [hy] at h2; cases h2
    | some t' =>
      rw [hy] at h2
      have := Out.ok.inj h2
      simp only [Prod.mk.injEq] at this
      obtain ⟨rfl, rfl⟩ := this
      have hp := (compact_of_signed lib hy).1
      refine ⟨c, m, h1, ?_, ?_⟩
      · rw [hx, hp]
      · rw [hp]; exact hy

/-- **C109** (panics): `MakeSDJWT` crashes exactly for a credential with one identified subject and no
issuer. -/
theorem make_sd_panics_iff (E : IEnv) (env : JEnv) (ver : Ver) (non : List String) (kid : String) (hs : JObj)
    (sign : Bytes → Option Bytes) (vc : Cred env.T) :
    makeSdText lib E env ver non kid hs sign vc = .panic ↔
      (∃ id custom, vc.contents.subject = [⟨id, custom⟩] ∧ id ≠ "") ∧ vc.contents.issuer = none := by
  rw [← newClaims_panics_iff vc false]
  unfold makeSdText makeSdToken
  cases newJWTCredClaims env vc false with
  | err => simp [Out.bind]
  | panic => simp [Out.bind]
  | ok c =>
    simp only [Out.bind, reduceCtorEq, iff_false]
    cases SDJWT.makeSDJWT E ver non (makeClaims ver c.1 (wireObj c.2)) with
    | error e => simp
    | ok r =>
      obtain ⟨es, payload⟩ := r
      dsimp only
      cases newJoseSigned lib payload (sdHeaders ver kid) hs sign <;> simp

/-- **C109** (headers): the signed token carries the key id, for version 5 the type `vc+sd-jwt`, and
otherwise the signer's headers; its signature is the signer's. -/
theorem make_sd_headers {E : IEnv} {env : JEnv} {ver : Ver} {non : List String} {kid : String} {hs : JObj}
    {sign : Bytes → Option Bytes} {vc : Cred env.T} {t : Tok} {es : List Ent}
    (h : makeSdToken lib E env ver non kid hs sign vc = .ok (t, es)) :
    get? t.headers "kid" = some (.str kid) ∧
    (ver = .v5 → get? t.headers "typ" = some (.str "vc+sd-jwt")) ∧
    (∀ k, k ≠ "kid" → (ver = .v5 → k ≠ "typ") → get? t.headers k = get? hs k) ∧
    CompactJWS lib t.headers t.payload sign (serialize lib false t) t.jws := by
  obtain ⟨c, m, -, -, h3⟩ := makeSdToken_inv lib h
  obtain ⟨-, k2, -, -, k5⟩ := compact_of_signed lib h3
  refine ⟨?_, ?_, ?_, k5⟩
  · rw [k2 "kid"]
    cases ver <;> rfl
  · rintro rfl
    rw [k2 "typ"]
    rfl
  · intro k n1 n2
    rw [k2 k]
    cases ver with
    | v2 => simp [sdHeaders, get?, Ne.symm n1]
    | v5 => simp [sdHeaders, get?, Ne.symm n1, Ne.symm (n2 rfl)]

section Read

variable {lib} {E : IEnv} {env : PEnv} {ver : Ver} {non : List String} {kid : String} {hs : JObj}
  {sign : Bytes → Option Bytes} {vc : Cred env.T} {cs : JObj} {t : Tok} {es : List Ent}

/-- What a reader needs: its libraries read the token, the signature is not empty, the texts are clean. -/
structure Readable (lib : JwsLib) (env : PEnv) (t : Tok) (es : List Ent) : Prop where
  b64 : B64 lib
  reads : ReadsText lib env t
  signed : t.jws.signature ≠ []
  headers : JWT.GoodHeaders env.lib.upper t.headers
  clean : CleanTexts (es.map Ent.result)
  some : es ≠ []
  text : TokenText env (SDJWT.Issuance.serialize ⟨serialize lib false t, es.map Ent.result⟩)
  codec : Codec env.sd es
  distinct : DistinctDigests env.sd t.payload (es.map Ent.result)

theorem readable_decode (hR : Readable lib env t es) (hh : t.headers = t.jws.headers) {json : JObj}
    (hd : decodeCredPayload env.toJEnv t.payload = .ok (some json)) :
    decodeCredJWT env (serialize lib false t) = .ok (t.jws.headers, json) := by
  unfold decodeCredJWT
  rw [hR.reads.parse]
  dsimp only
  rw [(JWT.headers_iff _ _).2 (hh ▸ hR.headers), hR.reads.payload]
  dsimp only
  rw [hd]
  rfl

theorem sd_made_parses (o : ParseOpts env) (hI : Issuable env vc ver cs) (hL : SdLibs env E)
    (h : makeSdToken lib E env.toJEnv ver non kid hs sign vc = .ok (t, es)) (hR : Readable lib env t es)
    (ps : List JObj) (hps : parseLDProof (GObj.at (ofWire (wireObj vc.json)) "proof") = some ps) :
    ∃ r json o' co c a D out ms,
      MadeClaims env E ver non vc cs r (es.map Ent.result) t.payload json o' co c a D out ms ∧
      decodeCredJWT env (serialize lib false t) = .ok (t.headers, json) ∧
      parseJSON env o (SDJWT.Issuance.serialize ⟨serialize lib false t, es.map Ent.result⟩) =
        .ok ⟨json, c, ps, some ⟨serialize lib false t, t.headers, D, ""⟩, none⟩ := by
  obtain ⟨r, m, h1, h2, h3⟩ := makeSdToken_inv lib h
  obtain ⟨-, -, hh, -, -⟩ := compact_of_signed lib h3
  obtain ⟨json, o', co, c, a, D, out, ms, hM⟩ := made_claims env hI hL h1 h2 (by rw [hL.same]; exact hR.codec)
    (by rw [hL.same]; exact hR.distinct) hR.some
  have hdec := readable_decode hR hh hM.decode
  rw [← hh] at hdec
  refine ⟨r, json, o', co, c, a, D, out, ms, hM, hdec, ?_⟩
  have hne : es.map Ent.result ≠ [] := by
    intro e; exact hR.some (List.map_eq_nil_iff.1 e)
  have hnc : NoChar '~' (serialize lib false t) :=
    serialize_noChar lib hR.b64 t '~' (by decide) (by decide) (by decide) (by decide)
  have hparts := issuance_parts env hnc hR.clean hne
  have ht : tryParseAsJWS env (unwrapStringVC env
      (SDJWT.Issuance.serialize ⟨serialize lib false t, es.map Ent.result⟩)) =
      some ⟨true, serialize lib false t, es.map Ent.result, ""⟩ := by
    unfold unwrapStringVC
    rw [hR.text.notObj]; dsimp only
    rw [hR.text.notQuoted]
    unfold tryParseAsJWS
    rw [hparts]
    dsimp only
    rw [if_pos ((serialize_isJWS lib hR.b64 env t hR.reads).2 hR.signed)]
  have hproof : parseLDProof (GObj.at (ofWire json) "proof") = some ps := by
    rw [at_ofWire] at hps ⊢
    rw [hM.rest "proof" (by decide), hM.refined.rest "proof" (by decide)]
    exact hps
  unfold parseJSON
  rw [ht]
  dsimp only
  unfold openJWS
  dsimp only
  rw [hdec]
  simp only [Res.bind, hM.validated, if_true]
  unfold finishJSON
  simp only [Option.elim]
  rw [hM.contents]
  dsimp only
  rw [hproof]
  dsimp only
  rw [hM.alg, hM.resolved]
  rfl

/-- The reader accepts the proof: proof checking is off, or the JWT checker accepts what the signer signs,
for the credential's issuer. -/
def Accepts {env : PEnv} (o : ParseOpts env) (t : Tok) (sign : Bytes → Option Bytes) (vc : Cred env.T) : Prop :=
  o.disabledProofCheck = false → ∃ pc, o.jwtChecker = some pc ∧
    ∀ i data sig, vc.contents.issuer = some i → sign data = some sig → pc t.headers i.id data sig = true

theorem sd_made_read (o : ParseOpts env) (hI : Issuable env vc ver cs) (hL : SdLibs env E)
    (h : makeSdToken lib E env.toJEnv ver non kid hs sign vc = .ok (t, es)) (hR : Readable lib env t es)
    (ps : List JObj) (hps : parseLDProof (GObj.at (ofWire (wireObj vc.json)) "proof") = some ps)
    (hext : o.externalContext = [])
    (hrel : o.disableRelRes = false → ∀ c, SameButSubject env vc.contents c → env.relOK c = true)
    (hpc : Accepts o t sign vc) :
    ∃ r json o' co c a D out ms,
      MadeClaims env E ver non vc cs r (es.map Ent.result) t.payload json o' co c a D out ms ∧
      decodeCredJWT env (serialize lib false t) = .ok (t.headers, json) ∧
      parseCredential env o (SDJWT.Issuance.serialize ⟨serialize lib false t, es.map Ent.result⟩) =
        .ok ⟨json, c, ps, some ⟨serialize lib false t, t.headers, D, ""⟩, none⟩ := by
  obtain ⟨r, json, o', co, c, a, D, out, ms, hM, hdec, hp⟩ := sd_made_parses (unchecked env o) hI hL h hR ps hps
  refine ⟨r, json, o', co, c, a, D, out, ms, hM, hdec, ?_⟩
  obtain ⟨r', m', h1, -, h3⟩ := makeSdToken_inv lib h
  obtain ⟨i, hi, -⟩ := (credClaims_spec h1).iss
  obtain ⟨-, -, hh, -, q5⟩ := compact_of_signed lib h3
  rw [parse_iff env o hext]
  refine ⟨?_, (fun _ hn => by cases hn), ?_, ?_⟩
  · rw [parseCredential_text env hR.text.notObj (by rw [hp]; simp)]
    unfold parseWith
    rw [hp]
    rfl
  · intro hd
    obtain ⟨pc, hc, hpc⟩ := hpc hd
    have hi' : c.issuer = some i := by
      have := congrArg Contents.issuer hM.sameC.same.rest
      exact this.trans hi
    refine .jwt i _ pc t.jws hi' rfl hc hR.reads.parse ?_
    rw [← hh]
    exact hpc i _ _ hi q5.signed
  · intro hrr
    exact hrel hrr c hM.sameC

end Read

/-! ## The property -/

section Main

variable {lib} {E : IEnv} {env : PEnv} {ver : Ver} {non : List String} {kid : String} {hs : JObj}
  {sign : Bytes → Option Bytes} {vc : Cred env.T} {cs : JObj} {t : Tok} {es : List Ent}

/-- **C109** (reading): what `MakeSDJWT` writes is read by `ParseCredential`, with its proof verified, as
the credential: every member except the subject, and what JWT claims stand in for, is the same, the
contents are the same but for the subject (of which the id is known) and dates to the second, the envelope
is the signed JWT, and every disclosure of the issuer is there. -/
theorem make_then_parse (o : ParseOpts env) (hI : Issuable env vc ver cs) (hL : SdLibs env E)
    (h : makeSdToken lib E env.toJEnv ver non kid hs sign vc = .ok (t, es)) (hR : Readable lib env t es)
    (ps : List JObj) (hps : parseLDProof (GObj.at (ofWire (wireObj vc.json)) "proof") = some ps)
    (hext : o.externalContext = [])
    (hrel : o.disableRelRes = false → ∀ c, SameButSubject env vc.contents c → env.relOK c = true)
    (hpc : Accepts o t sign vc) :
    ∃ text json c D, makeSdText lib E env.toJEnv ver non kid hs sign vc = .ok text ∧
      parseCredential env o text = .ok ⟨json, c, ps, some ⟨serialize lib false t, t.headers, D, ""⟩, none⟩ ∧
      SameButSubject env vc.contents c ∧
      (∀ k, k ∉ claimed → k ≠ "credentialSubject" → k ≠ "_sd_alg" →
        get? json k = get? (wireObj vc.json) k) ∧
      (∀ s ∈ es.map Ent.result, ∃ e, get? D (E.env.hash E.alg s) = some e) ∧
      (∀ d e, get? D d = some e → e.disclosure ∈ es.map Ent.result ∧ E.env.hash E.alg e.disclosure = d) := by
  obtain ⟨r, json, o', co, c, a, D, out, ms, hM, hdec, hp⟩ := sd_made_read o hI hL h hR ps hps hext hrel hpc
  refine ⟨_, json, c, D, ?_, hp, hM.sameC, ?_, ?_⟩
  · unfold makeSdText
    rw [h]
    rfl
  · intro k h1 h2 h3
    rw [hM.rest k (by simp [h2, h3]), hM.refined.rest k (by
      intro hk
      apply h1
      revert hk
      simp only [claimed, List.mem_cons, List.not_mem_nil, or_false]
      rintro (e | e | e | e | e | e) <;> simp [e])]
  · have hr := hM.resolved
    unfold parseDisclosures at hr
    have hne : (es.map Ent.result).isEmpty = false := by
      cases es with
      | nil => exact absurd rfl hR.some
      | cons _ _ => rfl
    rw [hne] at hr
    simp only [Bool.false_eq_true, if_false] at hr
    cases hx : SDJWT.resolveDisclosureClaims env.sd (hashName a) (es.map Ent.result) env.dOrder with
    | error e => rw [hx] at hr; cases hr
    | ok D' =>
      rw [hx] at hr
      have := Option.some.inj hr
      subst this
      have := SDJWT.resolve_table hL.order hx
      rw [hM.algIs, ← hL.same] at this
      exact this

theorem subject_of_issuable (hI : Issuable env vc ver cs)
    (h : makeSdToken lib E env.toJEnv ver non kid hs sign vc = .ok (t, es)) {co : Contents env.T} {r : Claims}
    {o' : JObj} (hplain : parseContents env.toCEnv (ofWire o') false = some co)
    (hsame : SameToSecond env.toJEnv vc.contents co) (hr : Refined env.toJEnv r (wireObj vc.json) o') :
    ∃ id custom, vc.contents.subject = [⟨id, custom⟩] ∧ get? cs "id" = some (.str id) := by
  obtain ⟨c, m, h1, -, -⟩ := makeSdToken_inv lib h
  obtain ⟨i, sub, -, hsub, -, -⟩ := claims_object env.toJEnv h1
  obtain ⟨cu, hs1, hs2⟩ := (subjectID_iff _ _).1 hsub
  refine ⟨sub, cu, hs1, ?_⟩
  have h8 := ((parseContents_iff env.toCEnv _ _ _).1 hplain).2.2.2.2.2.2.2.1
  have hcs : co.subject = vc.contents.subject := by
    have := congrArg (fun c : Contents env.T => c.subject) hsame.rest
    exact this
  have hos : get? o' "credentialSubject" = some (.obj cs) := by
    rw [hr.rest _ (by decide)]; exact hI.subject
  rw [at_ofWire, hos, hcs, hs1] at h8
  exact (subject_id_of h8 hs2).1

/-- **C109** (displaying everything): the credential read from what `MakeSDJWT` wrote, displayed with all its
disclosures, is the credential: the same members, with the subject's claims in some order and without
empty objects.  The credential holds no null value and no empty array. -/
theorem make_parse_display_all (o : ParseOpts env) (hI : Issuable env vc ver cs) (hL : SdLibs env E)
    (h : makeSdToken lib E env.toJEnv ver non kid hs sign vc = .ok (t, es)) (hR : Readable lib env t es)
    (ps : List JObj) (hps : parseLDProof (GObj.at (ofWire (wireObj vc.json)) "proof") = some ps)
    (hext : o.externalContext = [])
    (hrel : o.disableRelRes = false → ∀ c, SameButSubject env vc.contents c → env.relOK c = true)
    (hpc : Accepts o t sign vc) (hsolid : SolidObj (wireObj vc.json)) :
    ∃ text pc m c, makeSdText lib E env.toJEnv ver non kid hs sign vc = .ok text ∧
      parseCredential env o text = .ok pc ∧
      createDisplayMap env pc true [] = .ok m ∧ DisplayOf env vc cs m ∧
      createDisplay env pc true [] = .ok ⟨del m "proof", c, [], none, none⟩ ∧
      DisplayContents env vc.contents m c := by
  obtain ⟨r, json, o', co, c, a, D, out, ms, hM, hdec, hp⟩ := sd_made_read o hI hL h hR ps hps hext hrel hpc
  obtain ⟨id, custom, hsub, hid⟩ := subject_of_issuable hI h hM.plain hM.sameCo hM.refined
  obtain ⟨m, c', k1, k2, k3, k4⟩ := display_all hI hL hM hsolid
    (pc := ⟨json, c, ps, some ⟨serialize lib false t, t.headers, D, ""⟩, none⟩) hM.alg rfl rfl hdec hsub hid
  refine ⟨_, _, m, c', ?_, hp, k1, k2, k3, k4⟩
  unfold makeSdText
  rw [h]
  rfl

/-- **C109** (displaying nothing): displayed without disclosures, the subject shows, of its scalar claims,
exactly the id and the ones the issuer listed as not selectively disclosable; everything outside the
subject is shown. -/
theorem make_parse_display_none (o : ParseOpts env) (hI : Issuable env vc ver cs) (hL : SdLibs env E)
    (h : makeSdToken lib E env.toJEnv ver non kid hs sign vc = .ok (t, es)) (hR : Readable lib env t es)
    (ps : List JObj) (hps : parseLDProof (GObj.at (ofWire (wireObj vc.json)) "proof") = some ps)
    (hext : o.externalContext = [])
    (hrel : o.disableRelRes = false → ∀ c, SameButSubject env vc.contents c → env.relOK c = true)
    (hpc : Accepts o t sign vc) (hsolid : SolidObj (wireObj vc.json)) :
    ∃ text pc m c s, makeSdText lib E env.toJEnv ver non kid hs sign vc = .ok text ∧
      parseCredential env o text = .ok pc ∧
      createDisplayMap env pc false [] = .ok m ∧
      (∀ k, k ∉ refinedNames → k ≠ "credentialSubject" → get? m k = get? (wireObj vc.json) k) ∧
      get? m "credentialSubject" = some (.obj s) ∧
      (∀ k v, get? cs k = some v → SDJWT.Atomic v →
        (k = "id" ∨ k ∈ non → get? s k = some v) ∧ (k ≠ "id" → k ∉ non → get? s k = none)) ∧
      createDisplay env pc false [] = .ok ⟨del m "proof", c, [], none, none⟩ ∧
      DisplayContents env vc.contents m c := by
  obtain ⟨r, json, o', co, c, a, D, out, ms, hM, hdec, hp⟩ := sd_made_read o hI hL h hR ps hps hext hrel hpc
  obtain ⟨id, custom, hsub, hid⟩ := subject_of_issuable hI h hM.plain hM.sameCo hM.refined
  obtain ⟨m, c', s, k1, k2, k3, k4, k5, k6⟩ := display_none hI hM hsolid
    (pc := ⟨json, c, ps, some ⟨serialize lib false t, t.headers, D, ""⟩, none⟩) hM.alg rfl hdec hsub hid
  refine ⟨_, _, m, c', s, ?_, hp, k1, k2, k3, k4, k5, k6⟩
  unfold makeSdText
  rw [h]
  rfl

end Main

end VC.Iss
