import Verif.Verifiable.SdMarshal
import Verif.Verifiable.ParseExamples
/-!
# verifiable: writing and reading SD-JWT credentials — concrete instances and a counterexample (C108)
-/

namespace VC.Vfy

open GoMap
open VC.SDJWT (Disc DMap JWF EnvWF Committed)
open Spec

/-- Toy disclosures: `d1` discloses `outer`, whose value hides `inner`, disclosed by `d2`. -/
def smSd : SDJWT.Env :=
  ⟨fun s => if s = "d1" then some [.str "salt", .str "outer", .obj [("_sd", .arr [.str "d2"])]]
     else if s = "d2" then some [.str "salt", .str "inner", .str "secret"] else none,
   fun _ s => s, exCEnv.upper⟩

/-- The toy libraries of the parser with these disclosures. -/
def smEnv : PEnv := { pxEnv with sd := smSd }

/-- Default options with the default checkers. -/
def smOpts : ParseOpts smEnv where
  mode := .combined
  allowedContexts := []
  allowedTypes := []
  ldTypesCheck := false
  disableValidation := false
  disabledProofCheck := false
  disableRelRes := false
  externalContext := []
  jwtChecker := some (JWT.ofChecker pxChecker)
  cwtChecker := some (cwtChecker pxChecker (fun _ => none))
  ldChecker := some (ldChecker pxChecker)
  diVerifier := some DI.exSuites
  diPurpose := ""
  diDomain := ""
  diChallenge := ""

/-- The disclosure names of a result. -/
def smView (r : Res (PCred smEnv.T)) : Option (List String) :=
  match r with
  | .ok vc => vc.jwt.map (fun e => e.disclosures.map (fun p => p.2.name))
  | _ => none

/-- Options: all, required names. -/
def smAll : DiscloseOpts := ⟨[], [], true, none, false⟩
def smReq (l : List String) : DiscloseOpts := ⟨[], l, false, none, false⟩

set_option maxHeartbeats 4000000 in
theorem sm_accepts :
    smView (parseCredential smEnv smOpts "h.p.s~d1~d2~") = some ["outer", "inner"] ∧
    smView (parseCredential smEnv smOpts "h.p.s~d1~") = some ["outer"] ∧
    smView (parseCredential smEnv smOpts "h.p.s~d2~") = none := by decide +kernel

/-- Whether a credential is returned. -/
def smOk (r : Res (PCred smEnv.T)) : Bool :=
  match r with
  | .ok _ => true
  | _ => false

set_option maxHeartbeats 4000000 in
theorem sm_refuses : smOk (parseCredential smEnv smOpts "h.p.s~d2~") = false := by decide +kernel

theorem smSd_wf : EnvWF smSd := by
  intro s arr h
  simp only [smSd] at h
  split at h
  · cases h; simp [SDJWT.JWFArr, SDJWT.JWF, SDJWT.JWFObj, GoMap.keys]
  · split at h
    · cases h; simp [SDJWT.JWFArr, SDJWT.JWF]
    · cases h

/-- The document of the toy credential. -/
def smJson : JObj := pxDoc "did:ex:a" [("_sd_alg", .str "sha-256"), ("_sd", .arr [.str "d1"])]

theorem sm_setting {vc : PCred smEnv.T} (h : vc.json = smJson) : SdSetting smEnv vc := by
  refine ⟨smSd_wf, fun D d hd => hd, rfl, ?_, ?_⟩
  · rw [h]
    simp [smJson, pxDoc, SDJWT.JWF, SDJWT.JWFObj, SDJWT.JWFArr, GoMap.keys]
  · rw [h]
    exact Or.inl ⟨"sha-256", by decide, rfl⟩

theorem sm_text (s : String) (h : pxDecode s = none) (hq : unQuote s = s) : TokenText smEnv s := ⟨h, hq⟩

/-- What the credential that is read from `data` is written as; its algorithm and issuer JWT. -/
def smWrite (o : DiscloseOpts) (data : String) : Option (String × Option Hash × String) :=
  match parseCredential smEnv smOpts data with
  | .ok vc => vc.jwt.bind fun e =>
      (marshalWithDisclosure id id (some (e.jwt, e.holderBinding, e.disclosures.map (·.2))) none o).map
        fun t => (t, vc.contents.sdAlg, e.jwt)
  | _ => none

theorem sm_written {o : DiscloseOpts} {data text jwt : String} {a : Hash}
    (h : smWrite o data = some (text, some a, jwt)) :
    ∃ (vc : PCred smEnv.T) (e : JwtEnvelope), parseCredential smEnv smOpts data = .ok vc ∧ vc.jwt = some e ∧
      vc.contents.sdAlg = some a ∧ e.jwt = jwt ∧
      marshalWithDisclosure id id (some (e.jwt, e.holderBinding, e.disclosures.map (·.2))) none o = some text := by
  unfold smWrite at h
  split at h
  · rename_i vc hvc
    obtain ⟨e, he, h⟩ := Option.bind_eq_some_iff.1 h
    obtain ⟨t, ht, h⟩ := Option.map_eq_some_iff.1 h
    simp only [Prod.mk.injEq] at h
    exact ⟨vc, e, hvc, he, h.2.1, h.2.2, by rw [ht, h.1]⟩
  · cases h

set_option maxHeartbeats 4000000 in
theorem sm_writes_all :
    smWrite smAll "h.p.s~d1~d2~" = some ("h.p.s~d1~d2~", some .sha256, "h.p.s") ∧
    smWrite (smReq ["outer"]) "h.p.s~d1~d2~" = some ("h.p.s~d1~", some .sha256, "h.p.s") ∧
    smWrite (smReq ["inner"]) "h.p.s~d1~d2~" = some ("h.p.s~d2~", some .sha256, "h.p.s") ∧
    smWrite (smReq []) "h.p.s~d1~d2~" = some ("h.p.s", some .sha256, "h.p.s") := by decide +kernel

/-- The document behind the toy JWT. -/
theorem sm_json {vc : PCred smEnv.T} {e : JwtEnvelope} {a : Hash} {data : String}
    (h : parseCredential smEnv smOpts data = .ok vc) (hj : vc.jwt = some e) (ha : vc.contents.sdAlg = some a)
    (he : e.jwt = "h.p.s") : vc.json = smJson := by
  obtain ⟨⟨ds, hor⟩, -, -⟩ := parseCredential_sd smEnv h hj (by rw [ha]; simp)
  have hd := hor.decode
  rw [he] at hd
  have : decodeCredJWT smEnv "h.p.s" = .ok ([("alg", .str "EdDSA"), ("kid", .str "did:ex:a#k1")], smJson) := rfl
  rw [this] at hd
  exact (Prod.mk.inj (Res.ok.inj hd)).2.symm

/-- The hypotheses of `disclose_all_roundtrip`: the credential with both disclosures, written with all of them. -/
example : ∃ (vc : PCred smEnv.T) (e : JwtEnvelope) (a : Hash),
    parseCredential smEnv smOpts "h.p.s~d1~d2~" = .ok vc ∧ vc.jwt = some e ∧ vc.contents.sdAlg = some a ∧
    SdSetting smEnv vc ∧
    marshalWithDisclosure id id (some (e.jwt, e.holderBinding, e.disclosures.map (·.2))) none smAll =
      some "h.p.s~d1~d2~" ∧ "h.p.s~d1~d2~" ≠ e.jwt ∧ TokenText smEnv "h.p.s~d1~d2~" := by
  obtain ⟨vc, e, h1, h2, h3, h4, h5⟩ := sm_written sm_writes_all.1
  exact ⟨vc, e, _, h1, h2, h3, sm_setting (sm_json h1 h2 h3 h4), h5, by rw [h4]; decide, sm_text _ (by decide) (by decide)⟩

/-- The hypotheses of `disclose_some_roundtrip`: written with the outer disclosure only. -/
example : ∃ (vc : PCred smEnv.T) (e : JwtEnvelope) (a : Hash),
    parseCredential smEnv smOpts "h.p.s~d1~d2~" = .ok vc ∧ vc.jwt = some e ∧ vc.contents.sdAlg = some a ∧
    SdSetting smEnv vc ∧
    marshalWithDisclosure id id (some (e.jwt, e.holderBinding, e.disclosures.map (·.2))) none (smReq ["outer"]) =
      some "h.p.s~d1~" ∧ "h.p.s~d1~" ≠ e.jwt ∧ TokenText smEnv "h.p.s~d1~" ∧
    (∃ vc', parseCredential smEnv smOpts "h.p.s~d1~" = .ok vc') := by
  obtain ⟨vc, e, h1, h2, h3, h4, h5⟩ := sm_written sm_writes_all.2.1
  refine ⟨vc, e, _, h1, h2, h3, sm_setting (sm_json h1 h2 h3 h4), h5, by rw [h4]; decide,
    sm_text _ (by decide) (by decide), ?_⟩
  have h6 := sm_accepts.2.1
  unfold smView at h6
  split at h6
  · rename_i vc' hv
    exact ⟨vc', hv⟩
  · cases h6

/-- The hypotheses of `disclose_nothing_forgets`. -/
example : ∃ (vc : PCred smEnv.T) (e : JwtEnvelope) (a : Hash),
    parseCredential smEnv smOpts "h.p.s~d1~d2~" = .ok vc ∧ vc.jwt = some e ∧ vc.contents.sdAlg = some a ∧
    marshalWithDisclosure id id (some (e.jwt, e.holderBinding, e.disclosures.map (·.2))) none (smReq []) =
      some e.jwt ∧ TokenText smEnv e.jwt ∧ smEnv.relOK { vc.contents with sdAlg := none } = true := by
  obtain ⟨vc, e, h1, h2, h3, h4, h5⟩ := sm_written sm_writes_all.2.2.2
  exact ⟨vc, e, _, h1, h2, h3, by rw [h5, h4], by rw [h4]; exact sm_text _ (by decide) (by decide), rfl⟩

/-- **C108 fails for a nested disclosure alone**: `MarshalWithDisclosure` asked for `inner` alone answers with a
text, without an error, which `ParseCredential` with the options that accepted the credential refuses. -/
theorem child_alone_refused : ∃ (vc : PCred smEnv.T) (e : JwtEnvelope) (text : String),
    parseCredential smEnv smOpts "h.p.s~d1~d2~" = .ok vc ∧ vc.jwt = some e ∧
    marshalWithDisclosure id id (some (e.jwt, e.holderBinding, e.disclosures.map (·.2))) none (smReq ["inner"]) =
      some text ∧ ∀ vc', parseCredential smEnv smOpts text ≠ .ok vc' := by
  obtain ⟨vc, e, h1, h2, h3, h4, h5⟩ := sm_written sm_writes_all.2.2.1
  refine ⟨vc, e, _, h1, h2, h5, fun vc' h => ?_⟩
  have hc := sm_refuses
  rw [h] at hc
  cases hc

end VC.Vfy
