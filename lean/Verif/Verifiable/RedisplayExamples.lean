import Verif.Verifiable.Redisplay
import Verif.Verifiable.ParseExamples
/-!
# C134: a credential that is displayed, and what changes
-/

namespace VC.Vfy

open GoMap
open VC.SDJWT (Disc DMap JWF)
open Spec

/-- The claims of the toy credential: the address of the subject is a disclosure. -/
def rdClaims : JObj :=
  [("@context", .arr [.str "https://www.w3.org/2018/credentials/v1"]),
   ("type", .arr [.str "VerifiableCredential"]), ("issuer", .str "did:ex:a"), ("_sd_alg", .str "sha-256"),
   ("credentialSubject", .obj [("id", .str "did:ex:s"), ("_sd", .arr [.str "d1"])])]

/-- The toy libraries of the parser, with this credential and its disclosure. -/
def rdEnv : PEnv := { pxEnv with
  sd := ⟨fun s => if s = "d1" then
      some [.str "salt", .str "address", .obj [("town", .str "X"), ("street", .obj [("part", .obj [])])]] else none,
    fun _ s => s, fun s => if s = "sha-256" then "SHA-256" else s⟩
  payloadObj := fun b => if b = [9] then some [("iss", .str "did:ex:a"), ("vc", .obj rdClaims)] else none }

/-- Default options with the default checkers. -/
def rdOpts : ParseOpts rdEnv where
  mode := .combined
  allowedContexts := []
  allowedTypes := []
  ldTypesCheck := false
  disableValidation := false
  disabledProofCheck := false
  disableRelRes := false
  externalContext := []
  jwtChecker := some (JWT.ofChecker pxChecker)
  cwtChecker := some (cwtChecker pxChecker (fun _ => none))
  ldChecker := some (ldChecker pxChecker)
  diVerifier := some DI.exSuites
  diPurpose := ""
  diDomain := ""
  diChallenge := ""

/-- The disclosure before and after. -/
def rdDisc (v : Json) : DMap := [("d1", ⟨"d1", 3, "address", v, true⟩)]
def rdBefore : DMap := rdDisc (.obj [("town", .str "X"), ("street", .obj [("part", .obj [])])])
def rdAfter : DMap := rdDisc (.obj [("town", .str "X")])

set_option maxHeartbeats 4000000 in
/-- The credential is accepted, with its disclosure. -/
theorem rd_parsed : ∃ vc e, parseJSON rdEnv rdOpts "h.p.s~d1~" = .ok vc ∧ vc.jwt = some e ∧ e.jwt = "h.p.s" ∧
    e.disclosures = rdBefore ∧ vc.contents.sdAlg = some .sha256 :=
  ⟨_, _, rfl, rfl, rfl, rfl, rfl⟩

theorem rd_decode : ∃ h, decodeCredJWT rdEnv "h.p.s" = .ok (h, rdClaims) := ⟨_, rfl⟩

theorem rd_claims_wf : ∀ s r, decodeCredJWT rdEnv s = .ok r → JWF (.obj r.2) := by
  intro s r h
  have hw : JWF (.obj rdClaims) := by simp [rdClaims, SDJWT.JWF, SDJWT.JWFObj, SDJWT.JWFArr, GoMap.keys]
  by_cases hs : s = "h.p.s" ∨ s = "h.p."
  · rcases hs with rfl | rfl
    · have e : ∃ x, decodeCredJWT rdEnv "h.p.s" = .ok (x, rdClaims) := ⟨_, rfl⟩
      obtain ⟨x, e⟩ := e
      rw [e] at h; cases h; exact hw
    · have e : ∃ x, decodeCredJWT rdEnv "h.p." = .ok (x, rdClaims) := ⟨_, rfl⟩
      obtain ⟨x, e⟩ := e
      rw [e] at h; cases h; exact hw
  · have e : decodeCredJWT rdEnv s = .err := by
      unfold decodeCredJWT
      have : rdEnv.lib.parseJWS none s = none := if_neg hs
      rw [this]
    rw [e] at h; cases h

theorem rd_shown {vc : PCred rdEnv.T} {e : JwtEnvelope} (h1 : vc.jwt = some e) (h2 : e.jwt = "h.p.s")
    (h3 : e.disclosures = rdBefore) (h4 : vc.contents.sdAlg = some .sha256) :
    createDisplayMap rdEnv vc true [] = .ok
      [("@context", .arr [.str "https://www.w3.org/2018/credentials/v1"]),
       ("type", .arr [.str "VerifiableCredential"]), ("issuer", .str "did:ex:a"),
       ("credentialSubject", .obj [("address", .obj [("town", .str "X")]), ("id", .str "did:ex:s")])] := by
  unfold createDisplayMap
  rw [h1, h4]
  dsimp only
  rw [h2, h3]
  rfl

theorem rd_step : Redisplayed rdClaims true [] rdBefore rdAfter := by
  refine .cons ⟨rfl, ⟨rfl, rfl, rfl, rfl⟩, fun _ => rfl⟩ .nil

/-- **C134**, the other side: a display changes the values of the disclosures of the credential itself:
empty objects in them are gone. -/
theorem display_changes : ∃ (env : PEnv) (o : ParseOpts env) (data : String) (vc0 vc : PCred env.T) (e0 e : JwtEnvelope),
    parseJSON env o data = .ok vc0 ∧ Displays env vc0 vc ∧ vc0.jwt = some e0 ∧ vc.jwt = some e ∧
    e0.disclosures = rdBefore ∧ e.disclosures = rdAfter ∧ rdBefore ≠ rdAfter := by
  obtain ⟨vc, e, h1, h2, h3, h4, h5⟩ := rd_parsed
  obtain ⟨hd, h6⟩ := rd_decode
  refine ⟨rdEnv, rdOpts, _, vc, { vc with jwt := some { e with disclosures := rdAfter } }, e,
    { e with disclosures := rdAfter }, h1, ?_, h2, rfl, h4, rfl, ?_⟩
  · exact .step vc .sha256 e (hd, rdClaims) true [] _ rdAfter .refl h5 h2 (h3 ▸ h6) (rd_shown h2 h3 h4 h5)
      (h4 ▸ rd_step)
  · intro h
    simp [rdBefore, rdAfter, rdDisc] at h

/-- The theorems apply to it: after the display that changes the disclosure, the display is the same. -/
example : ∃ vc0 vc : PCred rdEnv.T, parseJSON rdEnv rdOpts "h.p.s~d1~" = .ok vc0 ∧ Displays rdEnv vc0 vc ∧
    (∃ e0 e, vc0.jwt = some e0 ∧ vc.jwt = some e ∧ e0.disclosures = rdBefore ∧ e.disclosures = rdAfter) ∧
    ∀ all given, createDisplayMap rdEnv vc all given = createDisplayMap rdEnv vc0 all given := by
  obtain ⟨vc, e, h1, h2, h3, h4, h5⟩ := rd_parsed
  obtain ⟨hd, h6⟩ := rd_decode
  have hD : Displays rdEnv vc { vc with jwt := some { e with disclosures := rdAfter } } :=
    .step vc .sha256 e (hd, rdClaims) true [] _ rdAfter .refl h5 h2 (h3 ▸ h6) (rd_shown h2 h3 h4 h5) (h4 ▸ rd_step)
  exact ⟨vc, _, h1, hD, ⟨e, _, h2, rfl, h4, rfl⟩,
    parsed_display_again rdOpts (fun D d hd => hd) rd_claims_wf _ vc _ h1 hD⟩

/-- The digest of the address is in the subject, and the transition clears it only if it is shown. -/
example : subjectDigests rdClaims rdBefore = ["d1"] ∧
    (afterDisplay rdClaims false ["name"] rdBefore).map (·.2.value.isNull) = [false] ∧
    afterDisplay rdClaims false ["address"] rdBefore = rdAfter ∧
    afterDisplay rdClaims false ["name"] rdBefore = rdBefore := ⟨rfl, rfl, rfl, rfl⟩

/-- The document shown is unchanged by the earlier display of nothing. -/
example : ∃ vc0 : PCred rdEnv.T, parseJSON rdEnv rdOpts "h.p.s~d1~" = .ok vc0 ∧
    (∀ e, vc0.jwt = some e → ∀ p ∈ e.disclosures, p.2.parsed = true) ∧ Displays rdEnv vc0 vc0 := by
  obtain ⟨vc, e, h1, h2, _⟩ := rd_parsed
  exact ⟨vc, h1, fun e' he => (parsed_disclosures rdOpts (fun D d hd => hd) _ vc e' h1 he).2, .refl⟩

end VC.Vfy
