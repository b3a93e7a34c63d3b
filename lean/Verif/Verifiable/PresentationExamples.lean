import Verif.Verifiable.PresentationRelax
import Verif.Verifiable.ParseExamples
/-!
# verifiable: presentations — concrete instances and counterexamples
-/

namespace VC.Vfy

open GoMap
open VC.Vfy.Spec
open VC.Proof (Bytes CwtReq LdProof)

/-- A presentation object. -/
def vxVP (more : JObj) : JObj :=
  [("@context", .arr [.str "https://www.w3.org/2018/credentials/v1"]),
   ("type", .str "VerifiablePresentation")] ++ more

/-- A proof member of `did:ex:a`. -/
def vxProof : Json :=
  .obj [("type", .str "Ed25519Signature2018"), ("verificationMethod", .str "did:ex:a#k1")]

/-- The toy JSON texts of presentations. -/
def vxDecode (s : String) : Option JObj :=
  if s = "{vp-ld}" then some (vxVP [("holder", .str "did:ex:a"), ("proof", vxProof),
    ("verifiableCredential", .arr [.obj (pxDoc "did:ex:a" [("proof", vxProof)])])])
  else if s = "{vp-bad}" then some (vxVP [("holder", .str "did:ex:b"), ("proof", vxProof),
    ("verifiableCredential", .arr [.obj (pxDoc "did:ex:a" [("proof", vxProof)])])])
  else if s = "{vp-mix}" then some [("@context", .arr [.str "https://www.w3.org/2018/credentials/v1"]),
    ("type", .arr [.str "VerifiablePresentation", .str "EnvelopedVerifiablePresentation"]),
    ("id", .str "data:application/vp-ld+jwt,h.p.bad"), ("holder", .str "did:ex:outer"), ("proof", vxProof)]
  else if s = "{vp-none}" then some (vxVP [])
  else if s = "{vp-di}" then some (vxVP [("holder", .str "did:a"),
    ("proof", DI.exProof "did:a#k" DI.exSigA)])
  else if s = "{vp-env}" then
    some [("type", .arr [.str "EnvelopedVerifiablePresentation"]),
      ("id", .str "data:application/vp-ld+jwt,h.p.v")]
  else pxDecode s

/-- The toy JWSs: `v` encloses a JWT credential, `w` an unsigned object credential, `x` names another
holder. -/
def vxLib : JWT.Lib := { pxLib with
  parseJWS := fun b s =>
    if s = "h.p.v" then
      some ⟨[("alg", .str "EdDSA"), ("kid", .str "did:ex:a#k1")], [10], [1, 2], [1, 2] ++ Proof.exKey⟩
    else if s = "h.p.w" then
      some ⟨[("alg", .str "EdDSA"), ("kid", .str "did:ex:a#k1")], [11], [1, 2], [1, 2] ++ Proof.exKey⟩
    else if s = "h.p.x" then
      some ⟨[("alg", .str "EdDSA"), ("kid", .str "did:ex:a#k1")], [12], [1, 2], [1, 2] ++ Proof.exKey⟩
    else if s = "h.p.bad" then
      some ⟨[("alg", .str "EdDSA"), ("kid", .str "did:ex:a#k1")], [10], [1, 2], [1, 2]⟩
    else pxLib.parseJWS b s }

/-- The toy payloads. -/
def vxPayload (b : Bytes) : Option JObj :=
  if b = [10] then some [("iss", .str "did:ex:a"), ("jti", .str "urn:vp"),
    ("vp", .obj (vxVP [("verifiableCredential", .arr [.str "h.p.s"])]))]
  else if b = [11] then some [("iss", .str "did:ex:a"),
    ("vp", .obj (vxVP [("verifiableCredential", .arr [.obj (pxDoc "did:ex:victim" [])])]))]
  else if b = [12] then some [("iss", .str "did:ex:victim"),
    ("vp", .obj (vxVP [("verifiableCredential", .arr [.str "h.p.s"])]))]
  else pxEnv.payloadObj b

/-- `fmt.Sprint`, for strings and `nil`. -/
def vxSprint : Json → String
  | .str s => s
  | _ => "<nil>"

/-- The toy libraries. -/
def vxEnv : VEnv := { pxEnv with
  sprint := vxSprint
  lib := vxLib
  decodeObj := vxDecode
  payloadObj := vxPayload
  hexDecode := fun s => if s = "6465" then some "vpcwt" else none
  parseCOSE := fun s => if s = "vpcwt" then some ⟨some (-8), none, "did:ex:a#k1", some [67, 161, 1, 39], [20], []⟩
    else pxEnv.parseCOSE s
  cwtMap := fun b => if b = [20] then
    some [("vp", .obj (vxVP [("holder", .str "did:ex:victim"),
      ("verifiableCredential", .arr [.obj (pxDoc "did:ex:victim" [])])]))] else none
  vpSchema1 := fun _ => true
  vpSchema2 := fun _ => true
  vpLdOK := fun _ _ => true
  relAllOK := fun _ => true }

/-- The library's default checker. -/
def vxChecker : Combined :=
  ⟨JWT.ofChecker pxChecker, cwtChecker pxChecker (fun _ => none), ldChecker pxChecker⟩

/-- Options with every check on. -/
def vxOpts : VpOpts vxEnv where
  checker := some vxChecker
  disabledProofCheck := false
  strict := true
  requireVC := false
  requireProof := true
  disableJSONLD := false
  checkHolder := true
  checkRelRes := true
  diVerifier := some DI.exSuites
  diPurpose := ""
  diDomain := ""
  diChallenge := ""

/-- Holder, JWT and number of credentials of a result. -/
def vxView (r : Out (Pres vxEnv.T)) : Option (String × String × String × Nat) :=
  match r with
  | .ok vp => some (vp.holder, vp.id, vp.jwt, vp.credentials.length)
  | _ => none

set_option maxHeartbeats 4000000 in
/-- Every format is accepted with its own proof; a bad signature, a holder that is not the issuer of a
self-asserted credential and a missing proof are refused. -/
theorem presentation_examples :
    vxView (parsePresentation vxEnv vxOpts "h.p.v") = some ("did:ex:a", "urn:vp", "h.p.v", 1) ∧
    vxView (parsePresentation vxEnv vxOpts "{vp-env}") = some ("did:ex:a", "urn:vp", "h.p.v", 1) ∧
    vxView (parsePresentation vxEnv vxOpts "{vp-ld}") = some ("did:ex:a", "", "", 1) ∧
    vxView (parsePresentation vxEnv vxOpts "{vp-di}") = some ("did:a", "", "", 0) ∧
    vxView (parsePresentation vxEnv vxOpts "6465") = some ("did:ex:victim", "", "", 1) ∧
    vxView (parsePresentation vxEnv vxOpts "h.p.bad") = none ∧
    vxView (parsePresentation vxEnv (noVpCheck vxEnv vxOpts) "h.p.bad") = some ("did:ex:a", "urn:vp", "h.p.bad", 1) ∧
    vxView (parsePresentation vxEnv vxOpts "{vp-bad}") = none ∧
    vxView (parsePresentation vxEnv { vxOpts with checkHolder := false } "{vp-bad}") =
      some ("did:ex:b", "", "", 1) ∧
    vxView (parsePresentation vxEnv vxOpts "{vp-none}") = none :=
  ⟨rfl, rfl, rfl, rfl, rfl, rfl, rfl, rfl, rfl, rfl⟩

set_option maxHeartbeats 4000000 in
/-- The hypotheses of `presentation_verified_partial` and `jwt_presentation_signed` are met, by a
presentation with a JWT credential. -/
example : ∃ vp c, vxOpts.disabledProofCheck = false ∧ vxOpts.checker = some vxChecker ∧
    vxChecker.jwt = JWT.ofChecker pxChecker ∧ pxChecker.resolve = Proof.vdrResolve Proof.exVdr ∧
    parsePresentation vxEnv vxOpts "h.p.v" = .ok vp ∧ vp.jwt ≠ "" ∧ vp.cwt = none ∧
    vp.credentials = [c] ∧ c.jwt.isSome = true ∧ vp.holder = "did:ex:a" :=
  ⟨_, _, rfl, rfl, rfl, rfl, rfl, by decide, rfl, rfl, rfl, rfl⟩

/-! ## Gaps -/

set_option maxHeartbeats 4000000 in
/-- **C38 fails**: a presentation properly signed by `did:ex:a` delivers, with every check on, a
credential of `did:ex:victim` that nobody signed. -/
theorem unsigned_object_credential_accepted : ∃ vp c,
    vxOpts.disabledProofCheck = false ∧ vxOpts.checker = some vxChecker ∧
    parsePresentation vxEnv vxOpts "h.p.w" = .ok vp ∧ vp.credentials = [c] ∧
    c.jwt = none ∧ c.cwt = none ∧ c.proofs = [] ∧
    c.contents.issuer.map (·.id) = some "did:ex:victim" :=
  ⟨_, _, rfl, rfl, rfl, rfl, rfl, rfl, rfl, rfl⟩

set_option maxHeartbeats 4000000 in
/-- **C38 fails**: a COSE presentation with an empty signature is accepted with every check on
(the hypotheses of `unsigned_cose_presentation_accepted` hold as well). -/
theorem unsigned_cose_example : ∃ vp w,
    vxOpts.disabledProofCheck = false ∧ vxOpts.requireProof = true ∧
    parsePresentation vxEnv (noVpCheck vxEnv vxOpts) "vpcwt" = .ok vp ∧
    parsePresentation vxEnv vxOpts "vpcwt" = .ok vp ∧ vp.cwt = some w ∧ w.message.signature = [] ∧
    vp.holder = "did:ex:victim" ∧
    ∀ raw, get? w.vpMap "vp" = some (.obj raw) → ∃ l, CredentialMembers raw l ∧
      ∀ j ∈ l, ∃ c, j = .obj c ∧ ¬ IsEnvelope c := by
  refine ⟨_, _, rfl, rfl, rfl, rfl, rfl, rfl, rfl, ?_⟩
  intro raw hr
  have hr := Json.obj.inj (Option.some.inj hr)
  rw [← hr]
  refine ⟨_, Or.inr (Or.inl rfl), ?_⟩
  intro j hj
  rw [List.mem_singleton] at hj
  refine ⟨_, hj, ?_⟩
  rintro (h | ⟨l, h, hl⟩)
  · cases h
  · have h := Json.arr.inj (Option.some.inj h)
    rw [← h] at hl
    rw [List.mem_singleton] at hl
    exact absurd (Json.str.inj hl) (by decide)

set_option maxHeartbeats 4000000 in
/-- **C47 fails for JWTs**: with the holder check on, a JWT presentation by `did:ex:a` with a JWT
credential of `did:ex:a` may name another holder. -/
theorem jwt_holder_not_checked : ∃ vp c,
    vxOpts.checkHolder = true ∧ parsePresentation vxEnv vxOpts "h.p.x" = .ok vp ∧
    vp.credentials = [c] ∧ c.contents.issuer.map (·.id) = some "did:ex:a" ∧ c.jwt.isSome = true ∧
    vp.jwt = "h.p.x" ∧ vp.holder = "did:ex:victim" :=
  ⟨_, _, rfl, rfl, rfl, rfl, rfl, rfl, rfl⟩

set_option maxHeartbeats 4000000 in
/-- **C68 fails**: the holder of a verified JWT presentation need not be its signer: `iss` is
`did:ex:victim`, the key is one of `did:ex:a`. -/
theorem jwt_presentation_holder_not_signer : ∃ vp j,
    vxOpts.disabledProofCheck = false ∧ vxOpts.checker = some vxChecker ∧
    parsePresentation vxEnv vxOpts "h.p.x" = .ok vp ∧ vxEnv.lib.parseJWS none vp.jwt = some j ∧
    Proof.header j.headers "kid" = some "did:ex:a#k1" ∧ DidPart "did:ex:a#k1" "did:ex:a" ∧
    vp.holder = "did:ex:victim" :=
  ⟨_, _, rfl, rfl, rfl, rfl, rfl, (didPart_iff _ _).1 (by decide), rfl⟩

/-! ## C47: the rule bites -/

set_option maxHeartbeats 4000000 in
/-- The self-asserted presentation meets the premises of the holder rule. -/
example : ∃ vp p c q, vxOpts.checkHolder = true ∧ parsePresentation vxEnv vxOpts "{vp-ld}" = .ok vp ∧
    p ∈ vp.proofs ∧ c ∈ vp.credentials ∧ q ∈ c.proofs ∧ OneSubject vxEnv vp.credentials ∧
    methodText vxEnv p ≠ "" ∧ DidPart (methodText vxEnv p) "did:ex:a" ∧
    DidPart (methodText vxEnv q) "did:ex:a" := by
  refine ⟨_, _, _, _, rfl, rfl, List.mem_singleton.2 rfl, List.mem_singleton.2 rfl,
    List.mem_singleton.2 rfl, ?_, by decide, (didPart_iff _ _).1 (by decide), (didPart_iff _ _).1 (by decide)⟩
  exact (oneSubject_iff vxEnv _).1 rfl

/-! ## C69 -/

set_option maxHeartbeats 4000000 in
/-- Two option sets and an input as in `relax_same_partial`. -/
example : Weaker vxEnv vxOpts (noVpCheck vxEnv vxOpts) ∧ OneFormat vxEnv "{vp-ld}" ∧
    (∃ vp, parsePresentation vxEnv vxOpts "{vp-ld}" = .ok vp) := by
  refine ⟨⟨rfl, rfl, rfl, rfl, rfl, rfl, fun _ => rfl, id, id, id, id, id⟩, ⟨?_, fun _ => rfl, ?_⟩, _, rfl⟩
  · intro h; exact absurd h (by decide)
  · intro doc l h1 h2 h3
    rw [← Option.some.inj h1] at h2
    cases h2

set_option maxHeartbeats 4000000 in
/-- **C69 fails in general**: an object that is both an envelope (of a badly signed JWT) and a
presentation with a proof is read as the latter with proof checking on, as the former with it off. -/
theorem envelope_with_proof_read_twice :
    Weaker vxEnv vxOpts (noVpCheck vxEnv vxOpts) ∧
    vxView (parsePresentation vxEnv vxOpts "{vp-mix}") =
      some ("did:ex:outer", "data:application/vp-ld+jwt,h.p.bad", "", 0) ∧
    vxView (parsePresentation vxEnv (noVpCheck vxEnv vxOpts) "{vp-mix}") =
      some ("did:ex:a", "urn:vp", "h.p.bad", 1) :=
  ⟨⟨rfl, rfl, rfl, rfl, rfl, rfl, fun _ => rfl, id, id, id, id, id⟩, rfl, rfl⟩

end VC.Vfy
