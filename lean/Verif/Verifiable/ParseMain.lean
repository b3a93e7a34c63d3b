import Verif.Verifiable.ParseProps
import Verif.Proof.Props
/-!
# verifiable: what `ParseCredential` accepts

* `parse_iff` — exact: acceptance is parsing without checks plus every enabled check.
* `parse_verified_partial` — with proof checking on, a returned credential is secured and is what was
  signed.
* `disable_*` — switching checks off only widens acceptance.
-/

namespace VC.Vfy

open GoMap
open VC.Vfy.Spec
open VC.Proof (Bytes CwtReq LdProof)

variable (env : PEnv)

/-- Every check that is switched on holds. -/
def AllChecks (o : ParseOpts env) (vc : PCred env.T) : Prop :=
  (o.disableValidation = false → vc.jwt = none → Valid env o vc) ∧
  (o.disabledProofCheck = false → Secured env o vc) ∧
  (o.disableRelRes = false → env.relOK vc.contents = true)

theorem parseWith_unsupported (parser : ParseOpts env → String → Res (PCred env.T))
    (o : ParseOpts env) (d : String) :
    parseWith env parser o d = .unsupported ↔ parser o d = .unsupported := by
  unfold parseWith
  rw [Res.bind_unsupported]
  constructor
  · rintro (h | ⟨vc, -, h⟩)
    · exact h
    · exfalso
      rw [Res.bind_unsupported] at h
      rcases h with h | ⟨vc', -, h⟩
      · split at h
        · cases h
        · revert h; cases checkProof env o vc <;> simp [Res.ofOption]
      · split at h <;> cases h
  · exact Or.inl

theorem withExternal_nil (o : ParseOpts env) (he : o.externalContext = []) (doc : JObj) :
    withExternal env o doc = doc := by
  unfold withExternal; rw [he]; rfl

theorem checkProof_plain (o : ParseOpts env) (he : o.externalContext = []) (vc vc' : PCred env.T) :
    checkProof env o vc = some vc' ↔ vc' = vc ∧ Secured env o vc := by
  rw [checkProof_iff, withExternal_nil env o he]
  have : (if (vc.jwt.isNone && vc.cwt.isNone) = true then { vc with json := vc.json } else vc) = vc := by
    split <;> rfl
  rw [this]
  constructor
  · rintro ⟨h, rfl⟩; exact ⟨rfl, h⟩
  · rintro ⟨rfl, h⟩; exact ⟨h, rfl⟩

theorem parseWith_plain (parser : ParseOpts env → String → Res (PCred env.T)) (o : ParseOpts env)
    (he : o.externalContext = []) (d : String) (vc : PCred env.T) :
    parseWith env parser o d = .ok vc ↔ parser o d = .ok vc ∧
      (o.disabledProofCheck = false → Secured env o vc) ∧
      (o.disableRelRes = false → env.relOK vc.contents = true) := by
  unfold parseWith
  simp only [Res.bind_ok]
  constructor
  · rintro ⟨v, h1, w, h2, h3⟩
    have hw : w = vc ∧ (o.disableRelRes = false → env.relOK vc.contents = true) := by
      split at h3
      · rename_i hb
        have hw : w = vc := Res.ok.inj h3
        subst hw
        refine ⟨rfl, fun hr => ?_⟩
        rw [hr] at hb; simpa using hb
      · cases h3
    obtain ⟨rfl, hr⟩ := hw
    split at h2
    · rename_i hp
      cases h2
      refine ⟨h1, fun hf => ?_, hr⟩
      rw [hp] at hf; cases hf
    · obtain ⟨rfl, hs⟩ := (checkProof_plain env o he v w).1 (Res.ofOption_ok.1 h2)
      exact ⟨h1, fun _ => hs, hr⟩
  · rintro ⟨h1, h2, h3⟩
    refine ⟨vc, h1, vc, ?_, ?_⟩
    · split
      · rfl
      · rename_i hp
        rw [(checkProof_plain env o he vc vc).2 ⟨rfl, h2 (by simpa using hp)⟩]
        rfl
    · rw [if_pos]
      cases hr : o.disableRelRes with
      | true => rfl
      | false => simpa using h3 hr

theorem parseWith_unchecked (parser : ParseOpts env → String → Res (PCred env.T)) (o : ParseOpts env)
    (d : String) :
    parseWith env parser (unchecked env o) d = parser (unchecked env o) d := by
  unfold parseWith
  cases h : parser (unchecked env o) d <;> rfl

/-- A parser with the validation it performs. -/
theorem parseWith_iff (parser : ParseOpts env → String → Res (PCred env.T)) (o : ParseOpts env)
    (he : o.externalContext = []) (d : String) (vc : PCred env.T)
    (hp : parser o d = .ok vc ↔ parser (unchecked env o) d = .ok vc ∧
      (o.disableValidation = false → vc.jwt = none → Valid env o vc)) :
    parseWith env parser o d = .ok vc ↔
      parseWith env parser (unchecked env o) d = .ok vc ∧ AllChecks env o vc := by
  rw [parseWith_plain env parser o he, parseWith_unchecked, hp]
  unfold AllChecks
  exact ⟨fun ⟨⟨a, b⟩, c, d⟩ => ⟨a, b, c, d⟩, fun ⟨a, b, c, d⟩ => ⟨⟨a, b⟩, c, d⟩⟩

theorem parseCredDataURL_iff (o : ParseOpts env) (he : o.externalContext = []) (url : String)
    (vc : PCred env.T) :
    parseCredDataURL env o url = .ok vc ↔
      parseCredDataURL env (unchecked env o) url = .ok vc ∧ AllChecks env o vc := by
  unfold parseCredDataURL
  split
  · simp
  · split
    · exact parseWith_iff env _ o he _ vc (parseJSON_iff env o _ vc)
    · split
      · exact parseWith_iff env _ o he _ vc (parseCBOR_iff env o _ vc)
      · simp

theorem parseEnveloped_iff (o : ParseOpts env) (he : o.externalContext = []) (d : String)
    (vc : PCred env.T) :
    parseEnveloped env o d = .ok vc ↔
      parseEnveloped env (unchecked env o) d = .ok vc ∧ AllChecks env o vc := by
  unfold parseEnveloped
  split
  · simp
  · split
    · simp
    · split
      · simp
      · split
        · exact parseCredDataURL_iff env o he _ vc
        · simp

theorem parseCredDataURL_unsupported (o o' : ParseOpts env) (url : String)
    (h : parseCredDataURL env o url = .unsupported) :
    parseCredDataURL env o' url = .unsupported := by
  unfold parseCredDataURL at h ⊢
  split at h
  · cases h
  · split at h
    · rename_i hm
      rw [if_pos hm]
      rw [parseWith_unsupported] at h ⊢
      exact parseJSON_unsupported env o o' _ h
    · rename_i hm
      rw [if_neg hm]
      split at h
      · rename_i hm'
        rw [if_pos hm']
        rw [parseWith_unsupported] at h ⊢
        exact parseCBOR_unsupported env o o' _ h
      · cases h

theorem parseEnveloped_unsupported (o o' : ParseOpts env) (d : String)
    (h : parseEnveloped env o d = .unsupported) : parseEnveloped env o' d = .unsupported := by
  unfold parseEnveloped at h ⊢
  split at h
  · rfl
  · split at h
    · rfl
    · split at h
      · rename_i hc
        rw [if_pos hc]
      · rename_i hc
        rw [if_neg hc]
        split at h
        · exact parseCredDataURL_unsupported env o o' _ h
        · cases h

theorem allChecks_idem (o : ParseOpts env) (vc : PCred env.T) (A : Prop) :
    ((A ∧ AllChecks env o vc) ∧ (o.disabledProofCheck = false → Secured env o vc) ∧
      (o.disableRelRes = false → env.relOK vc.contents = true)) ↔ A ∧ AllChecks env o vc := by
  unfold AllChecks
  exact ⟨fun h => h.1, fun h => ⟨h, h.2.2⟩⟩

/-- **C36, C39** (exact form, without external contexts): `ParseCredential` returns a credential
exactly when it returns that credential with all checks switched off and every check that is switched
on holds of it. -/
theorem parse_iff (o : ParseOpts env) (he : o.externalContext = []) (data : String)
    (vc : PCred env.T) :
    parseCredential env o data = .ok vc ↔
      parseCredential env (unchecked env o) data = .ok vc ∧
      (o.disableValidation = false → vc.jwt = none → Valid env o vc) ∧
      (o.disabledProofCheck = false → Secured env o vc) ∧
      (o.disableRelRes = false → env.relOK vc.contents = true) := by
  have e1 : parseWith env (parseEnveloped env) o data = .ok vc ↔
      parseWith env (parseEnveloped env) (unchecked env o) data = .ok vc ∧ AllChecks env o vc := by
    rw [parseWith_plain env _ o he, parseEnveloped_iff env o he, parseWith_unchecked, allChecks_idem]
  have e2 := parseWith_iff env (parseJSON env) o he data vc (parseJSON_iff env o data vc)
  have e3 := parseWith_iff env (parseCBOR env) o he data vc (parseCBOR_iff env o data vc)
  have u1 : parseWith env (parseEnveloped env) o data = .unsupported ↔
      parseWith env (parseEnveloped env) (unchecked env o) data = .unsupported := by
    rw [parseWith_unsupported, parseWith_unsupported]
    exact ⟨parseEnveloped_unsupported env _ _ data, parseEnveloped_unsupported env _ _ data⟩
  have u2 : parseWith env (parseJSON env) o data = .unsupported ↔
      parseWith env (parseJSON env) (unchecked env o) data = .unsupported := by
    rw [parseWith_unsupported, parseWith_unsupported]
    exact ⟨parseJSON_unsupported env _ _ data, parseJSON_unsupported env _ _ data⟩
  change _ ↔ _ ∧ AllChecks env o vc
  unfold parseCredential
  rw [orNext_ok, orNext_ok, orNext_ok, orNext_ok, e1, e2, e3, u1, u2]
  constructor
  · rintro (⟨h1, h2⟩ | ⟨h0, ⟨h1, h2⟩ | ⟨h1, h2, h3⟩⟩)
    · exact ⟨Or.inl h1, h2⟩
    · exact ⟨Or.inr ⟨h0, Or.inl h1⟩, h2⟩
    · exact ⟨Or.inr ⟨h0, Or.inr ⟨h1, h2⟩⟩, h3⟩
  · rintro ⟨h1 | ⟨h0, h1 | ⟨h1, h2⟩⟩, h3⟩
    · exact Or.inl ⟨h1, h3⟩
    · exact Or.inr ⟨h0, Or.inl ⟨h1, h3⟩⟩
    · exact Or.inr ⟨h0, Or.inr ⟨h1, h2, h3⟩⟩

/-! ## Binding -/

theorem decodeCredJWT_ok {s : String} {r : JObj × JObj} (h : decodeCredJWT env s = .ok r) :
    ∃ j p m, env.lib.parseJWS none s = some j ∧ r.1 = j.headers ∧
      env.payloadObj j.payload = some p ∧ decodeCredPayload env.toJEnv p = .ok m ∧ r.2 = m.getD [] := by
  unfold decodeCredJWT at h
  split at h
  · cases h
  · rename_i j hj
    split at h
    · cases h
    · split at h
      · cases h
      · rename_i p hp
        obtain ⟨m, h1, h2⟩ := Res.bind_ok.1 h
        cases h2
        exact ⟨j, p, m, hj, rfl, hp, Res.ofOut_ok.1 h1, rfl⟩

theorem finishJSON_shape {o : ParseOpts env} {jws : Option (JwsParts × JObj)} {json : JObj}
    {vc : PCred env.T} (h : finishJSON env o jws json = .ok vc) :
    vc.json = json ∧ vc.cwt = none ∧ (∃ b, parseContents env.toCEnv (ofWire json) b = some vc.contents) ∧
    parseLDProof (GObj.at (ofWire json) "proof") = some vc.proofs ∧
    (jws = none → vc.jwt = none) ∧
    (∀ q, jws = some q → ∃ dm, parseDisclosures env q.1.disclosures vc.contents.sdAlg = some dm ∧
      vc.jwt = some ⟨q.1.jwt, q.2, dm, q.1.holderBinding⟩) := by
  unfold finishJSON at h
  split at h
  · cases h
  · rename_i c hc
    split at h
    · cases h
    · rename_i ps hps
      obtain ⟨-, -, h⟩ := Res.bind_ok.1 h
      split at h
      · cases h
        exact ⟨rfl, rfl, ⟨_, hc⟩, hps, fun _ => rfl, fun q hq => by cases hq⟩
      · split at h
        · cases h
        · rename_i dm hdm
          cases h
          exact ⟨rfl, rfl, ⟨_, hc⟩, hps, fun hq => (by cases hq), fun q hq => (by cases hq; exact ⟨dm, hdm, rfl⟩)⟩

theorem parseJSON_bound {o : ParseOpts env} {data : String} {vc : PCred env.T}
    (h : parseJSON env o data = .ok vc) : Bound env vc := by
  unfold parseJSON at h
  split at h
  · rename_i p hp
    obtain ⟨r, h1, h2⟩ := Res.bind_ok.1 h
    obtain ⟨g1, g2, ⟨b, g3⟩, -, -, g4⟩ := finishJSON_shape env h2
    obtain ⟨dm, -, g4⟩ := g4 _ rfl
    refine ⟨fun e he => ?_, fun e he => ?_, ⟨_, b, g3, fun _ _ => by rw [g1]⟩⟩
    · rw [g4] at he
      have he' := Option.some.inj he
      unfold openJWS at h1
      obtain ⟨r', k1, k2⟩ := Res.bind_ok.1 h1
      split at k2
      · cases k2
        obtain ⟨j, p', m, q1, q2, q3, q4, q5⟩ := decodeCredJWT_ok env k1
        rw [← he']
        exact ⟨j, p', m, q1, q2, q3, q4, by rw [g1, q5]⟩
      · cases k2
    · rw [g2] at he; cases he
  · obtain ⟨r, h1, h2⟩ := Res.bind_ok.1 h
    obtain ⟨g1, g2, ⟨b, g3⟩, -, g4, -⟩ := finishJSON_shape env h2
    refine ⟨fun e he => ?_, fun e he => ?_, ⟨_, b, g3, fun _ _ => by rw [g1]⟩⟩
    · rw [g4 rfl] at he; cases he
    · rw [g2] at he; cases he

theorem openCOSE_ok {data : String} {e : CwtEnvelope} (h : openCOSE env data = .ok e) :
    env.parseCOSE e.raw = some e.message ∧ (e.raw = data ∨ env.hexDecode (unQuote data) = some e.raw) := by
  unfold openCOSE at h
  split at h
  · rename_i m hm
    cases h; exact ⟨hm, Or.inl rfl⟩
  · split at h
    · cases h
    · rename_i raw hraw
      split at h
      · cases h
      · rename_i m hm
        cases h; exact ⟨hm, Or.inr hraw⟩

theorem parseCBOR_bound {o : ParseOpts env} {data : String} {vc : PCred env.T}
    (h : parseCBOR env o data = .ok vc) : Bound env vc := by
  unfold parseCBOR at h
  obtain ⟨e, h1, h⟩ := Res.bind_ok.1 h
  split at h
  · cases h
  · rename_i json hj
    split at h
    · cases h
    · rename_i c hc
      obtain ⟨-, -, h⟩ := Res.bind_ok.1 h
      cases h
      exact ⟨fun e he => (by cases he), fun e' he => (by cases he; exact ⟨hj, (openCOSE_ok env h1).1⟩),
        ⟨json, false, hc, fun _ _ => rfl⟩⟩

theorem checkProof_bound {o : ParseOpts env} {vc vc' : PCred env.T} (hb : Bound env vc)
    (h : checkProof env o vc = some vc') : Bound env vc' := by
  obtain ⟨-, h⟩ := (checkProof_iff env o vc vc').1 h
  split at h
  · rename_i hn
    simp only [Bool.and_eq_true, Option.isNone_iff_eq_none] at hn
    rw [h]
    obtain ⟨json, b, h1, h2⟩ := hb.contents
    refine ⟨fun e he => ?_, fun e he => ?_, ⟨json, b, h1, fun k hk => ?_⟩⟩
    · rw [show vc.jwt = some e from he] at hn; cases hn.1
    · rw [show vc.cwt = some e from he] at hn; cases hn.2
    · rw [h2 k hk]
      unfold withExternal
      split
      · rfl
      · exact (GoMap.get?_set_ne _ _ (Ne.symm hk)).symm
  · rw [h]; exact hb

theorem parseWith_bound {parser : ParseOpts env → String → Res (PCred env.T)} {o : ParseOpts env}
    {d : String} {vc : PCred env.T} (hp : ∀ v, parser o d = .ok v → Bound env v)
    (h : parseWith env parser o d = .ok vc) :
    Bound env vc ∧ (o.disabledProofCheck = false → Secured env o vc) := by
  unfold parseWith at h
  obtain ⟨v, h1, h⟩ := Res.bind_ok.1 h
  obtain ⟨w, h2, h3⟩ := Res.bind_ok.1 h
  split at h3
  · cases h3
    split at h2
    · rename_i hd
      cases h2
      refine ⟨hp _ h1, fun hf => ?_⟩
      rw [hd] at hf; cases hf
    · have h2 := Res.ofOption_ok.1 h2
      exact ⟨checkProof_bound env (hp _ h1) h2, fun _ => ((checkProof_iff env o v vc).1 h2).1⟩
  · cases h3

theorem parseCredDataURL_bound {o : ParseOpts env} {url : String} {vc : PCred env.T}
    (h : parseCredDataURL env o url = .ok vc) :
    Bound env vc ∧ (o.disabledProofCheck = false → Secured env o vc) := by
  unfold parseCredDataURL at h
  split at h
  · cases h
  · split at h
    · exact parseWith_bound env (fun v hv => parseJSON_bound env hv) h
    · split at h
      · exact parseWith_bound env (fun v hv => parseCBOR_bound env hv) h
      · cases h

theorem parseEnveloped_bound {o : ParseOpts env} {d : String} {vc : PCred env.T}
    (h : parseEnveloped env o d = .ok vc) : Bound env vc := by
  unfold parseEnveloped at h
  split at h
  · cases h
  · split at h
    · cases h
    · split at h
      · cases h
      · split at h
        · exact (parseCredDataURL_bound env h).1
        · cases h

/-- **C36** (partial): whatever the format and options, a credential returned with proof checking on
is secured (see `Secured`: its JWS, COSE message or every embedded linked-data proof was checked for
its issuer, or its data integrity proofs were accepted) and its content is what the envelope carries.

Missing from the property: an empty list of linked-data proofs counts as checked
(`empty_proof_array_accepted`). -/
theorem parse_verified_partial (o : ParseOpts env) (data : String) (vc : PCred env.T)
    (hp : o.disabledProofCheck = false) (h : parseCredential env o data = .ok vc) :
    Secured env o vc ∧ Bound env vc := by
  unfold parseCredential at h
  rw [orNext_ok, orNext_ok] at h
  rcases h with h | ⟨-, h | ⟨-, h⟩⟩
  · have := parseWith_bound env (fun v hv => parseEnveloped_bound env hv) h
    exact ⟨this.2 hp, this.1⟩
  · have := parseWith_bound env (fun v hv => parseJSON_bound env hv) h
    exact ⟨this.2 hp, this.1⟩
  · have := parseWith_bound env (fun v hv => parseCBOR_bound env hv) h
    exact ⟨this.2 hp, this.1⟩

/-- **C36**, JWT credentials with the library's proof checker and DID resolver: the credential
content is the payload of a JWS signed by a key of the credential's issuer. -/
theorem jwt_credential_signed_by_issuer (o : ParseOpts env) (c : Proof.Checker)
    (vdr : String → Option (List Proof.DocEntry)) (hr : c.resolve = Proof.vdrResolve vdr)
    (hc : o.jwtChecker = some (JWT.ofChecker c)) (data : String) (vc : PCred env.T)
    (e : JwtEnvelope) (hp : o.disabledProofCheck = false)
    (h : parseCredential env o data = .ok vc) (he : vc.jwt = some e) :
    ∃ i j kid alg vm p m, vc.contents.issuer = some i ∧ env.lib.parseJWS none e.jwt = some j ∧
      Proof.header j.headers "kid" = some kid ∧ Proof.header j.headers "alg" = some alg ∧
      Proof.KeyOfDid vdr i.id kid vm ∧
      (∃ d ∈ c.jwt, d.alg = alg ∧ Proof.Signed c.verifiers d.vms vm j.signingInput j.signature) ∧
      env.payloadObj j.payload = some p ∧ decodeCredPayload env.toJEnv p = .ok m ∧
      vc.json = m.getD [] := by
  obtain ⟨hs, hb⟩ := parse_verified_partial env o data vc hp h
  cases hs with
  | jwt i e' pc j hi he' hc' hj hs =>
    rw [he] at he'; cases he'
    rw [hc] at hc'; cases hc'
    obtain ⟨j', p, m, b1, -, b3, b4, b5⟩ := hb.jwt e he
    rw [hj] at b1; cases b1
    have hok : c.checkJWT j.headers i.id j.signingInput j.signature = .ok () := by
      unfold JWT.ofChecker at hs
      cases hk : c.checkJWT j.headers i.id j.signingInput j.signature with
      | ok u => rfl
      | error e => rw [hk] at hs; cases hs
    obtain ⟨kid, alg, vm, k1, k2, k3, k4⟩ := Proof.jwt_signed_by_issuer_key c vdr hr _ _ _ _ hok
    exact ⟨i, j, kid, alg, vm, p, m, hi, hj, k1, k2, k3, k4, b3, b4, b5⟩
  | cwt i e' pc msg a x hi hn => rw [he] at hn; cases hn
  | ld i l pc ps hi hn => rw [he] at hn; cases hn
  | di i l s hi hn => rw [he] at hn; cases hn

/-- The issuer of a parsed credential is never the empty string. -/
theorem bound_issuer {vc : PCred env.T} (hb : Bound env vc) (i : Issuer)
    (hi : vc.contents.issuer = some i) : i.id ≠ "" := by
  obtain ⟨json, b, h, -⟩ := hb.contents
  have := (parseContents_inv env.toCEnv h).2.2.1
  rw [hi] at this
  exact (parseIssuer_ok this).1

/-- `ProofChecker.CheckCWTProof` as a callback. -/
def cwtChecker (c : Proof.Checker) (coseKey : String → Option (Proof.Jwk × Proof.KeyType)) :
    CwtReq → String → Bytes → Bytes → Bool := fun r i m s => (c.checkCWT coseKey r i m s).toBool

/-- `ProofChecker.CheckLDProof` as a callback. -/
def ldChecker (c : Proof.Checker) : LdProof → String → Bytes → Bytes → Bool :=
  fun p i m s => (c.checkLD p i m s).toBool

theorem toBool_ok {ε : Type _} {x : Except ε Unit} (h : x.toBool = true) : x = .ok () := by
  cases x with
  | ok u => rfl
  | error e => cases h

/-- **C36**, CWT credentials with the library's proof checker and DID resolver: the credential is the
`vc` claim of a COSE message signed by a key of the credential's issuer. -/
theorem cwt_credential_signed_by_issuer (o : ParseOpts env) (c : Proof.Checker)
    (coseKey : String → Option (Proof.Jwk × Proof.KeyType))
    (vdr : String → Option (List Proof.DocEntry)) (hr : c.resolve = Proof.vdrResolve vdr)
    (hc : o.cwtChecker = some (cwtChecker c coseKey)) (data : String) (vc : PCred env.T)
    (e : CwtEnvelope) (hp : o.disabledProofCheck = false)
    (h : parseCredential env o data = .ok vc) (hj : vc.jwt = none) (he : vc.cwt = some e) :
    ∃ i msg vm, vc.contents.issuer = some i ∧ i.id ≠ "" ∧ proofValue e.message = some msg ∧
      Proof.KeyOfDid vdr i.id e.message.kid vm ∧
      (∃ d ∈ c.cwt, e.message.alg = some d.cwtAlg ∧
        Proof.Signed c.verifiers d.vms vm msg e.message.signature) ∧
      env.cwtVC e.message.payload = some vc.json ∧ env.parseCOSE e.raw = some e.message := by
  obtain ⟨hs, hb⟩ := parse_verified_partial env o data vc hp h
  cases hs with
  | jwt i e' pc j hi he' => rw [hj] at he'; cases he'
  | cwt i e' pc msg a x hi hn he' hc' hm ha hx hs =>
    rw [he] at he'; cases he'
    rw [hc] at hc'; cases hc'
    have hne := bound_issuer env hb i hi
    have hxi : x = i.id := by
      rcases hx with ⟨-, hx⟩ | ⟨hx, -⟩ | ⟨hx, -⟩
      · exact hx
      · exact absurd hx hne
      · exact absurd hx hne
    subst hxi
    obtain ⟨-, d, hd, hda, hk⟩ := Proof.cwt_proof_sound c coseKey _ _ _ _ (toBool_ok hs)
    rcases hk with ⟨-, vm, hv, hsig⟩ | ⟨-, -, hx, -⟩
    · rw [hr] at hv
      exact ⟨i, msg, vm, hi, hne, hm, (Proof.resolver_sound vdr _ _).1 vm hv,
        ⟨d, hd, by rw [ha, hda], hsig⟩, (hb.cwt e he).1, (hb.cwt e he).2⟩
    · exact absurd hx hne
  | ld i l pc ps hi hn hn' => rw [he] at hn'; cases hn'
  | di i l s hi hn hn' => rw [he] at hn'; cases hn'

/-- **C36**, credentials with embedded linked-data proofs, with the library's proof checker and DID
resolver: each of the document's proofs is a signature over its verify data by a key of the
credential's issuer. -/
theorem ld_credential_signed_by_issuer (o : ParseOpts env) (c : Proof.Checker)
    (vdr : String → Option (List Proof.DocEntry)) (hr : c.resolve = Proof.vdrResolve vdr)
    (hc : o.ldChecker = some (ldChecker c)) (data : String) (vc : PCred env.T)
    (hp : o.disabledProofCheck = false) (h : parseCredential env o data = .ok vc)
    (hj : vc.jwt = none) (hw : vc.cwt = none)
    (hd : ∀ l, ProofMember vc.json l → ¬ DIFirst l) :
    ∃ i ps, vc.contents.issuer = some i ∧ i.id ≠ "" ∧ env.ldProofs vc.json = some ps ∧
      ∀ p ∈ ps, ∃ kid vm msg sig, p.view.publicKeyID = some kid ∧ Proof.KeyOfDid vdr i.id kid vm ∧
        env.verifyData vc.json p = some msg ∧ env.verifyValue p = some sig ∧
        ∃ d ∈ c.ld, d.proofType = p.view.type ∧
          ((d.ex = none ∧ Proof.Signed c.verifiers d.vms vm msg sig) ∨
           ∃ ex kt, d.ex = some ex ∧ Proof.Allowed d.vms vm kt ∧
             ex sig msg ⟨kt, Proof.keyOf vm⟩ p.view.nonce = true) := by
  obtain ⟨hs, hb⟩ := parse_verified_partial env o data vc hp h
  cases hs with
  | jwt i e' pc j hi he' => rw [hj] at he'; cases he'
  | cwt i e' pc msg a x hi hn he' => rw [hw] at he'; cases he'
  | ld i l pc ps hi hn hn' hpm hdi hc' hl hs =>
    rw [hc] at hc'; cases hc'
    refine ⟨i, ps, hi, bound_issuer env hb i hi, hl, fun p hp => ?_⟩
    obtain ⟨msg, sig, h1, h2, h3⟩ := hs p hp
    obtain ⟨kid, vm, k1, k2, k3⟩ := Proof.ld_proof_sound c _ _ _ _ (toBool_ok h3)
    rw [hr] at k2
    exact ⟨kid, vm, msg, sig, k1, (Proof.resolver_sound vdr _ _).1 vm k2, h1, h2, k3⟩
  | di i l s hi hn hn' hpm hdi => exact absurd hdi (hd l hpm)

/-! ## Switching checks off -/

/-- The options with other settings of the three switches. -/
def switches (o : ParseOpts env) (v p r : Bool) : ParseOpts env :=
  { o with disableValidation := v, disabledProofCheck := p, disableRelRes := r }

/-- **C39** (partial, without external contexts): switching off any of the three checks keeps every
accepted input accepted, with the same credential. -/
theorem disable_same_partial (o : ParseOpts env) (he : o.externalContext = []) (v p r : Bool)
    (hv : o.disableValidation = true → v = true) (hp : o.disabledProofCheck = true → p = true)
    (hr : o.disableRelRes = true → r = true) (data : String) (vc : PCred env.T)
    (h : parseCredential env o data = .ok vc) :
    parseCredential env (switches env o v p r) data = .ok vc := by
  obtain ⟨h0, h1, h2, h3⟩ := (parse_iff env o he data vc).1 h
  refine (parse_iff env (switches env o v p r) he data vc).2 ⟨h0, fun hv' => ?_, fun hp' => ?_, fun hr' => ?_⟩
  · refine h1 ?_
    cases e : o.disableValidation with
    | false => rfl
    | true => rw [show v = false from hv'] at hv; exact absurd (hv e) (by simp)
  · have := h2 (by
      cases e : o.disabledProofCheck with
      | false => rfl
      | true => rw [show p = false from hp'] at hp; exact absurd (hp e) (by simp))
    cases this with
    | jwt i e pc j a b c d f => exact .jwt i e pc j a b c d f
    | cwt i e pc msg a x b c d f g k l m => exact .cwt i e pc msg a x b c d f g k l m
    | ld i l pc ps a b c d f g k m => exact .ld i l pc ps a b c d f g k m
    | di i l s a b c d f g k => exact .di i l s a b c d f g k
  · refine h3 ?_
    cases e : o.disableRelRes with
    | false => rfl
    | true => rw [show r = false from hr'] at hr; exact absurd (hr e) (by simp)

theorem switch_parser {parser : ParseOpts env → String → Res (PCred env.T)} {o : ParseOpts env}
    {d : String} {vc : PCred env.T} (v p r : Bool) (hv : o.disableValidation = true → v = true)
    (hp : ∀ o', parser o' d = .ok vc ↔ parser (unchecked env o') d = .ok vc ∧
      (o'.disableValidation = false → vc.jwt = none → Valid env o' vc))
    (h : parser o d = .ok vc) : parser (switches env o v p r) d = .ok vc := by
  obtain ⟨h1, h2⟩ := (hp o).1 h
  refine (hp _).2 ⟨h1, fun hf => ?_⟩
  refine h2 ?_
  cases e : o.disableValidation with
  | false => rfl
  | true => rw [show v = false from hf] at hv; exact absurd (hv e) (by simp)

theorem parseWith_ok {parser : ParseOpts env → String → Res (PCred env.T)} {o : ParseOpts env}
    {d : String} {vc : PCred env.T} :
    parseWith env parser o d = .ok vc ↔ ∃ v, parser o d = .ok v ∧
      (o.disabledProofCheck = true → vc = v) ∧
      (o.disabledProofCheck = false → checkProof env o v = some vc) ∧
      (o.disableRelRes = false → env.relOK vc.contents = true) := by
  unfold parseWith
  simp only [Res.bind_ok]
  constructor
  · rintro ⟨v, h1, w, h2, h3⟩
    split at h3
    · rename_i hb
      cases h3
      refine ⟨v, h1, fun hd => ?_, fun hd => ?_, fun hr => ?_⟩
      · rw [if_pos hd] at h2; exact (Res.ok.inj h2).symm
      · rw [hd] at h2; exact Res.ofOption_ok.1 h2
      · rw [hr] at hb; simpa using hb
    · cases h3
  · rintro ⟨v, h1, h2, h3, h4⟩
    refine ⟨v, h1, vc, ?_, ?_⟩
    · cases hd : o.disabledProofCheck with
      | true => rw [if_pos rfl, h2 hd]
      | false => rw [h3 hd]; rfl
    · rw [if_pos]
      cases hr : o.disableRelRes with
      | true => rfl
      | false => simpa using h4 hr

theorem switch_parseWith {parser : ParseOpts env → String → Res (PCred env.T)} {o : ParseOpts env}
    {d : String} {vc : PCred env.T} (v r : Bool) (hr : o.disableRelRes = true → r = true)
    (hp : ∀ w, parser o d = .ok w → parser (switches env o v o.disabledProofCheck r) d = .ok w)
    (h : parseWith env parser o d = .ok vc) :
    parseWith env parser (switches env o v o.disabledProofCheck r) d = .ok vc := by
  obtain ⟨w, h1, h2, h3, h4⟩ := (parseWith_ok env).1 h
  refine (parseWith_ok env).2 ⟨w, hp w h1, h2, h3, fun hf => ?_⟩
  refine h4 ?_
  cases e : o.disableRelRes with
  | false => rfl
  | true => rw [show r = false from hf] at hr; exact absurd (hr e) (by simp)

theorem switch_dataURL {o : ParseOpts env} {url : String} {vc : PCred env.T} (v r : Bool)
    (hv : o.disableValidation = true → v = true) (hr : o.disableRelRes = true → r = true)
    (h : parseCredDataURL env o url = .ok vc) :
    parseCredDataURL env (switches env o v o.disabledProofCheck r) url = .ok vc := by
  unfold parseCredDataURL at h ⊢
  split at h
  · cases h
  · split at h
    · rename_i hm
      rw [if_pos hm]
      exact switch_parseWith env v r hr (fun w hw => switch_parser env v _ r hv
        (fun o' => parseJSON_iff env o' _ w) hw) h
    · rename_i hm
      rw [if_neg hm]
      split at h
      · rename_i hm'
        rw [if_pos hm']
        exact switch_parseWith env v r hr (fun w hw => switch_parser env v _ r hv
          (fun o' => parseCBOR_iff env o' _ w) hw) h
      · cases h

theorem switch_enveloped {o : ParseOpts env} {d : String} {vc : PCred env.T} (v r : Bool)
    (hv : o.disableValidation = true → v = true) (hr : o.disableRelRes = true → r = true)
    (h : parseEnveloped env o d = .ok vc) :
    parseEnveloped env (switches env o v o.disabledProofCheck r) d = .ok vc := by
  unfold parseEnveloped at h ⊢
  split at h
  · cases h
  · split at h
    · cases h
    · split at h
      · cases h
      · rename_i hc
        rw [if_neg hc]
        split at h
        · exact switch_dataURL env v r hv hr h
        · cases h

/-- **C39** for validation and the related-resource check, with any external contexts: switching
them off keeps every accepted input accepted, with the same credential. -/
theorem disable_validation_same (o : ParseOpts env) (v r : Bool)
    (hv : o.disableValidation = true → v = true) (hr : o.disableRelRes = true → r = true)
    (data : String) (vc : PCred env.T) (h : parseCredential env o data = .ok vc) :
    parseCredential env (switches env o v o.disabledProofCheck r) data = .ok vc := by
  unfold parseCredential at h ⊢
  rw [orNext_ok, orNext_ok] at h ⊢
  have u1 := fun h => (parseWith_unsupported env _ (switches env o v o.disabledProofCheck r) data).2
    (parseEnveloped_unsupported env o _ data ((parseWith_unsupported env _ o data).1 h))
  have u2 := fun h => (parseWith_unsupported env _ (switches env o v o.disabledProofCheck r) data).2
    (parseJSON_unsupported env o _ data ((parseWith_unsupported env _ o data).1 h))
  rcases h with h | ⟨h0, h | ⟨h1, h⟩⟩
  · exact Or.inl (switch_parseWith env v r hr (fun w hw => switch_enveloped env v r hv hr hw) h)
  · exact Or.inr ⟨u1 h0, Or.inl (switch_parseWith env v r hr (fun w hw => switch_parser env v _ r hv
      (fun o' => parseJSON_iff env o' _ w) hw) h)⟩
  · exact Or.inr ⟨u1 h0, Or.inr ⟨u2 h1, switch_parseWith env v r hr
      (fun w hw => switch_parser env v _ r hv (fun o' => parseCBOR_iff env o' _ w) hw) h⟩⟩

/-- Equal except for the `@context` member of the JSON. -/
structure SameButContext {T : Type} (a b : PCred T) : Prop where
  contents : a.contents = b.contents
  proofs : a.proofs = b.proofs
  jwt : a.jwt = b.jwt
  cwt : a.cwt = b.cwt
  json : ∀ k, k ≠ "@context" → get? a.json k = get? b.json k

theorem SameButContext.trans {T : Type} {a b c : PCred T} (h : SameButContext a b)
    (h' : SameButContext b c) : SameButContext a c :=
  ⟨h.contents.trans h'.contents, h.proofs.trans h'.proofs, h.jwt.trans h'.jwt, h.cwt.trans h'.cwt,
    fun k hk => (h.json k hk).trans (h'.json k hk)⟩

theorem checkProof_same {o : ParseOpts env} {vc vc' : PCred env.T}
    (h : checkProof env o vc = some vc') : SameButContext vc vc' := by
  obtain ⟨-, h⟩ := (checkProof_iff env o vc vc').1 h
  rw [h]
  split
  · refine ⟨rfl, rfl, rfl, rfl, fun k hk => ?_⟩
    change get? vc.json k = get? (withExternal env o vc.json) k
    unfold withExternal
    split
    · rfl
    · exact (GoMap.get?_set_ne _ _ (Ne.symm hk)).symm
  · exact ⟨rfl, rfl, rfl, rfl, fun _ _ => rfl⟩

/-- The options with proof checking off. -/
def noProofCheck (o : ParseOpts env) : ParseOpts env := { o with disabledProofCheck := true }

theorem noProof_parseWith {parser : ParseOpts env → String → Res (PCred env.T)} {o : ParseOpts env}
    {d : String} {vc : PCred env.T}
    (hp : ∀ w, parser o d = .ok w → ∃ w', parser (noProofCheck env o) d = .ok w' ∧
      SameButContext w' w)
    (h : parseWith env parser o d = .ok vc) :
    ∃ vc', parseWith env parser (noProofCheck env o) d = .ok vc' ∧ SameButContext vc' vc := by
  obtain ⟨w, h1, h2, h3, h4⟩ := (parseWith_ok env).1 h
  obtain ⟨w', g1, g2⟩ := hp w h1
  have hw : SameButContext w vc := by
    cases hd : o.disabledProofCheck with
    | true => rw [h2 hd]; exact ⟨rfl, rfl, rfl, rfl, fun _ _ => rfl⟩
    | false => exact checkProof_same env (h3 hd)
  have hs := g2.trans hw
  exact ⟨w', (parseWith_ok env).2 ⟨w', g1, fun _ => rfl, fun hf => (by cases hf),
    fun hr => (by rw [hs.contents]; exact h4 hr)⟩, hs⟩

theorem SameButContext.refl {T : Type} (a : PCred T) : SameButContext a a :=
  ⟨rfl, rfl, rfl, rfl, fun _ _ => rfl⟩

theorem noProof_dataURL {o : ParseOpts env} {url : String} {vc : PCred env.T}
    (h : parseCredDataURL env o url = .ok vc) :
    ∃ vc', parseCredDataURL env (noProofCheck env o) url = .ok vc' ∧ SameButContext vc' vc := by
  unfold parseCredDataURL at h ⊢
  split at h
  · cases h
  · split at h
    · rename_i hm
      rw [if_pos hm]
      refine noProof_parseWith env (fun w hw => ⟨w, ?_, .refl w⟩) h
      exact (parseJSON_iff env _ _ w).2 ((parseJSON_iff env o _ w).1 hw)
    · rename_i hm
      rw [if_neg hm]
      split at h
      · rename_i hm'
        rw [if_pos hm']
        refine noProof_parseWith env (fun w hw => ⟨w, ?_, .refl w⟩) h
        exact (parseCBOR_iff env _ _ w).2 ((parseCBOR_iff env o _ w).1 hw)
      · cases h

theorem noProof_enveloped {o : ParseOpts env} {d : String} {vc : PCred env.T}
    (h : parseEnveloped env o d = .ok vc) :
    ∃ vc', parseEnveloped env (noProofCheck env o) d = .ok vc' ∧ SameButContext vc' vc := by
  unfold parseEnveloped at h ⊢
  split at h
  · cases h
  · split at h
    · cases h
    · split at h
      · cases h
      · rename_i hc
        rw [if_neg hc]
        split at h
        · exact noProof_dataURL env h
        · cases h

/-- **C39** (partial) for the proof check, with any external contexts: switching it off keeps every
accepted input accepted; the credential is the same except possibly for the `@context` of its JSON
(which really can differ, `proof_check_changes_context`). -/
theorem disable_proof_check_accepts_partial (o : ParseOpts env) (data : String) (vc : PCred env.T)
    (h : parseCredential env o data = .ok vc) :
    ∃ vc', parseCredential env (noProofCheck env o) data = .ok vc' ∧ SameButContext vc' vc := by
  unfold parseCredential at h ⊢
  rw [orNext_ok, orNext_ok] at h
  have u1 := fun h => (parseWith_unsupported env _ (noProofCheck env o) data).2
    (parseEnveloped_unsupported env o _ data ((parseWith_unsupported env _ o data).1 h))
  have u2 := fun h => (parseWith_unsupported env _ (noProofCheck env o) data).2
    (parseJSON_unsupported env o _ data ((parseWith_unsupported env _ o data).1 h))
  rcases h with h | ⟨h0, h | ⟨h1, h⟩⟩
  · obtain ⟨vc', g1, g2⟩ := noProof_parseWith env (fun w hw => noProof_enveloped env hw) h
    exact ⟨vc', orNext_ok.2 (Or.inl g1), g2⟩
  · obtain ⟨vc', g1, g2⟩ := noProof_parseWith env (fun w hw => ⟨w, (parseJSON_iff env
      (noProofCheck env o) _ w).2 ((parseJSON_iff env o _ w).1 hw), .refl w⟩) h
    exact ⟨vc', orNext_ok.2 (Or.inr ⟨u1 h0, orNext_ok.2 (Or.inl g1)⟩), g2⟩
  · obtain ⟨vc', g1, g2⟩ := noProof_parseWith env (fun w hw => ⟨w, (parseCBOR_iff env
      (noProofCheck env o) _ w).2 ((parseCBOR_iff env o _ w).1 hw), .refl w⟩) h
    exact ⟨vc', orNext_ok.2 (Or.inr ⟨u1 h0, orNext_ok.2 (Or.inr ⟨u2 h1, g1⟩)⟩), g2⟩

end VC.Vfy
