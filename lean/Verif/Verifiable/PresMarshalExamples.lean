import Verif.Verifiable.PresMarshalMain
import Verif.Verifiable.PresentationExamples
/-!
# verifiable: writing presentations — concrete instances and counterexamples
-/

namespace VC.Vfy

open GoMap
open VC.Vfy.Spec
open VC.Proof (Bytes)

/-- A presentation of data model 2. -/
def mxVP2 (more : JObj) : JObj :=
  [("@context", .arr [.str "https://www.w3.org/ns/credentials/v2"]),
   ("type", .str "VerifiablePresentation")] ++ more

/-- What `{m-ld}` stands for: the presentation `{vp-ld}` as it is written. -/
def mxLD : JObj :=
  [("@context", .arr [.str "https://www.w3.org/2018/credentials/v1"]),
   ("type", .str "VerifiablePresentation"), ("holder", .str "did:ex:a"), ("proof", vxProof),
   ("verifiableCredential", .arr [.obj (pxDoc "did:ex:a" [("proof", vxProof)])])]

/-- A presentation with a custom context. -/
def mxCustom : JObj :=
  [("@context", .arr [.str "https://www.w3.org/2018/credentials/v1", .obj [("name", .str "urn:name")]]),
   ("type", .str "VerifiablePresentation"), ("proof", vxProof)]

/-- The toy JSON texts. -/
def mxDecode (s : String) : Option JObj :=
  if s = "{m-jwt}" then some (vpEnvelope "data:application/vp-ld+jwt,h.p.2")
  else if s = "{m-cose}" then some (vpEnvelope "data:application/vp-ld+cose,3236")
  else if s = "{m-ld}" then some mxLD
  else if s = "{m-custom}" then some mxCustom
  else vxDecode s

/-- The toy JWSs: `h.p.2` is a presentation of data model 2, `h.p.` is unsecured. -/
def mxLib : JWT.Lib := { vxLib with
  parseJWS := fun b s =>
    if s = "h.p.2" then
      some ⟨[("alg", .str "EdDSA"), ("kid", .str "did:ex:a#k1")], [13], [1, 2], [1, 2] ++ Proof.exKey⟩
    else if s = "h.p." then some ⟨[("alg", .str "none")], [14], [], []⟩
    else vxLib.parseJWS b s
  payloadToMap := fun b => if b = [14] then some [("vp", .obj (vxVP []))] else none }

/-- The toy payloads. -/
def mxPayload (b : Bytes) : Option JObj :=
  if b = [13] then some [("iss", .str "did:ex:a"), ("vp", .obj (mxVP2 []))] else vxPayload b

/-- The toy libraries. -/
def mxEnv : VEnv := { vxEnv with
  lib := mxLib
  decodeObj := mxDecode
  payloadObj := mxPayload
  hexDecode := fun s => if s = "3236" then some "vp2" else vxEnv.hexDecode s
  parseCOSE := fun s => if s = "vp2" then some ⟨some (-8), none, "did:ex:a#k1", some [67, 161, 1, 39], [21], []⟩
    else vxEnv.parseCOSE s
  cwtMap := fun b => if b = [21] then some [("vp", .obj (mxVP2 [("holder", .str "did:ex:a")]))]
    else vxEnv.cwtMap b }

/-- Options with every check on. -/
def mxOpts : VpOpts mxEnv where
  checker := some vxChecker
  disabledProofCheck := false
  strict := true
  requireVC := false
  requireProof := true
  disableJSONLD := false
  checkHolder := true
  checkRelRes := true
  diVerifier := some DI.exSuites
  diPurpose := ""
  diDomain := ""
  diChallenge := ""

/-- Hexadecimal, for two messages. -/
def mxHex (s : String) : String := if s = "vp2" then "3236" else "6465"

open Classical in
/-- The JSON encoder, for three documents. -/
noncomputable def mxEnc (o : JObj) : String :=
  if o = vpEnvelope "data:application/vp-ld+jwt,h.p.2" then "{m-jwt}"
  else if o = vpEnvelope "data:application/vp-ld+cose,3236" then "{m-cose}"
  else if o = mxLD then "{m-ld}"
  else if o = mxCustom then "{m-custom}"
  else "?"

theorem mxEnc_faithful (s : String) (hs : s ≠ "?") (doc : JObj) (h : s = mxEnc doc) : mxEnv.decodeObj s = some doc := by
  unfold mxEnc at h
  split at h
  · rename_i e; rw [h, e]; rfl
  · split at h
    · rename_i e; rw [h, e]; rfl
    · split at h
      · rename_i e; rw [h, e]; rfl
      · split at h
        · rename_i e; rw [h, e]; rfl
        · exact absurd h hs

/-- How credentials are written. -/
def mxU : PCred mxEnv.T → Option Json := universalForm mxHex (fun _ => none)

set_option maxHeartbeats 4000000 in
/-- The hypotheses of `jwt_marshal_roundtrip`, data model 1. -/
example : ∃ vp, parsePresentation mxEnv mxOpts "h.p.v" = .ok vp ∧ vp.jwt ≠ "" ∧ JwsText mxEnv vp.jwt ∧
    marshalPres mxEnc mxHex mxU vp = some "\"h.p.v\"" ∧
    (∀ doc, "\"h.p.v\"" = mxEnc doc → mxEnv.decodeObj "\"h.p.v\"" = some doc) ∧
    mxEnv.decodeObj ("\"" ++ vp.jwt ++ "\"") = none :=
  ⟨_, rfl, by decide, ⟨rfl, by decide +kernel⟩, by rfl, mxEnc_faithful _ (by decide), by rfl⟩

theorem mxEnc_jwt : mxEnc (vpEnvelope "data:application/vp-ld+jwt,h.p.2") = "{m-jwt}" := by
  unfold mxEnc; rw [if_pos rfl]

theorem mxEnc_cose : mxEnc (vpEnvelope "data:application/vp-ld+cose,3236") = "{m-cose}" := by
  unfold mxEnc
  rw [if_neg (by intro h; simp [vpEnvelope] at h), if_pos rfl]

theorem mxEnc_ld : mxEnc mxLD = "{m-ld}" := by
  unfold mxEnc
  rw [if_neg (by intro h; simp [vpEnvelope, mxLD, v2ContextURI] at h),
    if_neg (by intro h; simp [vpEnvelope, mxLD, v2ContextURI] at h), if_pos rfl]

set_option maxHeartbeats 4000000 in
/-- The hypotheses of `jwt_marshal_roundtrip`, data model 2: the JWT is enveloped. -/
example : ∃ vp, parsePresentation mxEnv mxOpts "h.p.2" = .ok vp ∧ vp.jwt ≠ "" ∧ JwsText mxEnv vp.jwt ∧
    marshalPres mxEnc mxHex mxU vp = some "{m-jwt}" ∧
    (∀ doc, "{m-jwt}" = mxEnc doc → mxEnv.decodeObj "{m-jwt}" = some doc) ∧
    mxEnv.decodeObj ("\"" ++ vp.jwt ++ "\"") = none :=
  ⟨_, rfl, by decide, ⟨rfl, by decide +kernel⟩, by rw [← mxEnc_jwt]; rfl, mxEnc_faithful _ (by decide), by rfl⟩

set_option maxHeartbeats 4000000 in
/-- The hypotheses of `cose_marshal_roundtrip_partial`. -/
example : ∃ vp w, parsePresentation mxEnv mxOpts "vp2" = .ok vp ∧ vp.cwt = some w ∧ w.raw ≠ "" ∧
    vp.context.head? = some v2ContextURI ∧ HexText mxEnv mxHex w.raw ∧
    marshalPres mxEnc mxHex mxU vp = some "{m-cose}" ∧
    (∀ doc, "{m-cose}" = mxEnc doc → mxEnv.decodeObj "{m-cose}" = some doc) :=
  ⟨_, _, rfl, rfl, by decide, rfl, ⟨rfl, rfl, rfl, by decide +kernel⟩, by rw [← mxEnc_cose]; rfl,
    mxEnc_faithful _ (by decide)⟩

set_option maxHeartbeats 4000000 in
/-- The hypotheses of `json_marshal_roundtrip_partial`, every check on. -/
example : ∃ vp, parsePresentation mxEnv mxOpts "{vp-ld}" = .ok vp ∧ vp.jwt = "" ∧ vp.cwt = none ∧
    vp.customContext = [] ∧ vp.context ≠ [] ∧ vp.types ≠ [] ∧ "EnvelopedVerifiablePresentation" ∉ vp.types ∧
    WF vp.custom ∧ (∀ c ∈ vp.credentials, Rewritable mxEnv mxHex (fun _ => none) c) ∧ vp.credentials.length = 1 ∧
    marshalPres mxEnc mxHex mxU vp = some "{m-ld}" ∧
    (∀ doc, "{m-ld}" = mxEnc doc → mxEnv.decodeObj "{m-ld}" = some doc) ∧
    isJWS mxEnv.toPEnv (unQuote "{m-ld}") = false ∧ isJWTUnsecured mxEnv.toPEnv (unQuote "{m-ld}") = false ∧
    (∀ doc, mxEnv.decodeObj "{m-ld}" = some doc → checkOwnProof mxEnv mxOpts doc = true) ∧
    vp.proofs ≠ [] ∧
    (∀ doc, mxEnv.decodeObj "{m-ld}" = some doc → validateVP mxEnv mxOpts doc = true) := by
  refine ⟨_, rfl, rfl, rfl, rfl, (by intro h; cases h), by simp, by decide, wf_nil, ?_, rfl, ?_,
    mxEnc_faithful _ (by decide), rfl, rfl, ?_, by simp, ?_⟩
  · intro c hc
    rw [List.mem_singleton] at hc
    refine ⟨fun _ _ => ?_, fun e he => ?_, fun e he => ?_, fun e he => ?_⟩
    · rw [hc]
      rintro (h | ⟨l, h, hl⟩)
      · cases h
      · have h := Json.arr.inj (Option.some.inj h)
        rw [← h] at hl
        rw [List.mem_singleton] at hl
        exact absurd (Json.str.inj hl) (by decide)
    · rw [hc] at he; cases he
    · rw [hc] at he; cases he
    · rw [hc] at he; cases he
  · rw [← mxEnc_ld]; rfl
  · intro doc h; rw [← Option.some.inj h]; rfl
  · intro doc h; rw [← Option.some.inj h]; rfl

set_option maxHeartbeats 4000000 in
/-- **C71 fails for custom contexts**: the JSON-LD context object of a presentation is not written. -/
theorem custom_context_dropped : ∃ vp vp', parsePresentation mxEnv mxOpts "{m-custom}" = .ok vp ∧
    vp.customContext = [.obj [("name", .str "urn:name")]] ∧
    (rawPres mxU vp).bind (fun raw => match newPres mxEnv mxOpts raw with | .ok p => some p | _ => none) = some vp' ∧
    vp'.customContext = [] :=
  ⟨_, _, rfl, rfl, rfl, rfl⟩

set_option maxHeartbeats 4000000 in
/-- **C71 fails for COSE presentations of data model 1**: they are marshalled as plain JSON, without the
COSE message and its signature. -/
theorem cose_v1_signature_dropped : ∃ vp w raw, parsePresentation mxEnv mxOpts "6465" = .ok vp ∧
    vp.cwt = some w ∧ rawPres mxU vp = some raw ∧ marshalPres mxEnc mxHex mxU vp = some (mxEnc raw) ∧
    get? raw "proof" = none :=
  ⟨_, _, _, rfl, rfl, rfl, rfl, rfl⟩

/-- A presentation with a holder, an id and a JWT credential. -/
def mxPres : Pres Unit :=
  ⟨["https://www.w3.org/2018/credentials/v1"], [], "urn:vp", ["VerifiablePresentation"],
    [], "did:ex:a", [], "", none, [("note", .str "n")]⟩

/-- The hypotheses of `jwt_pres_claims_roundtrip` and `marshal_document`, and what the minimized claims look like. -/
example : CustomClean mxPres ∧ mxPres.context ≠ [] ∧ mxPres.holder ≠ "" ∧
    (newPresClaims (fun _ => none) mxPres ["aud"] true).map marshalPresClaims =
      some [("iss", .str "did:ex:a"), ("aud", .arr [.str "aud"]), ("jti", .str "urn:vp"),
        ("vp", .obj [("@context", .arr [.str "https://www.w3.org/2018/credentials/v1"]),
          ("type", .str "VerifiablePresentation"), ("note", .str "n")])] := by
  refine ⟨⟨by simp [WF, keys, mxPres], ?_⟩, by simp [mxPres], by decide, by rfl⟩
  intro k hk
  simp only [presMembers, List.mem_cons, List.not_mem_nil, or_false] at hk
  rcases hk with rfl | rfl | rfl | rfl | rfl | rfl <;> rfl

set_option maxHeartbeats 4000000 in
/-- **C72, C73 fail together**: a presentation without holder, id and audience can be written as JWT claims, and
reading these claims panics. -/
theorem bare_presentation_panics : ∃ c, newPresClaims (fun _ => none) { mxPres with holder := "", id := "" } [] false = some c ∧
    decodePresPayload (marshalPresClaims c) = .panic :=
  ⟨_, rfl, rfl⟩

set_option maxHeartbeats 4000000 in
/-- The hypotheses of `unsecured_presentation_panics` are met. -/
example : ∃ t, mxEnv.decodeObj "h.p." = none ∧ isJWS mxEnv.toPEnv (unQuote "h.p.") = false ∧
    isJWTUnsecured mxEnv.toPEnv (unQuote "h.p.") = true ∧
    JWT.parse mxEnv.lib none (unQuote "h.p.") = .ok t ∧ (∀ k ∈ keys t.1.payload, k ∉ registered) ∧
    (∃ m, get? t.1.payload "vp" = some (.obj m)) ∧ parsePresentation mxEnv mxOpts "h.p." = .panic := by
  refine ⟨_, rfl, rfl, rfl, rfl, ?_, ⟨_, rfl⟩, rfl⟩
  intro k hk
  have hk : k ∈ ["vp"] := hk
  rw [List.mem_singleton.1 hk]
  decide

/-- A payload as in `pres_payload_no_panic_partial`. -/
example : "iss" ∈ registered ∧ "iss" ∈ keys ([("iss", .str "a"), ("vp", .obj [])] : JObj) ∧
    get? ([("iss", .str "a"), ("vp", .obj [])] : JObj) "vp" = some (.obj []) := ⟨by decide, by decide, rfl⟩

end VC.Vfy
