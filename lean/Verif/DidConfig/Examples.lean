import Verif.DidConfig.Props
import Verif.Verifiable.ParseExamples
/-!
# didconfig: concrete instances and counterexamples
-/

namespace VC.DidCfg

open GoMap
open VC.Vfy
open VC.DidCfg.Spec

/-- A domain linkage credential of a DID for `https://a.example`, with further members. -/
def dcDoc (did : String) (more : JObj) : JObj :=
  [("@context", .arr [.str "https://www.w3.org/2018/credentials/v1"]),
   ("type", .arr [.str "VerifiableCredential", .str "DomainLinkageCredential"]),
   ("issuanceDate", .str "+1Z"), ("expirationDate", .str "+11Z"),
   ("credentialSubject", .obj [("id", .str did), ("origin", .str "https://a.example")])] ++ more

/-- With a linked-data proof. -/
def dcLd : JObj := dcDoc "did:ex:a" [("issuer", .str "did:ex:a"),
  ("proof", .obj [("type", .str "Ed25519Signature2018")])]

/-- With an empty array of proofs, in the name of another DID. -/
def dcEmpty : JObj := dcDoc "did:ex:victim" [("issuer", .str "did:ex:victim"), ("proof", .arr [])]

/-- The payload of a JWT with a wrong `sub`. -/
def dcPayload : JObj := [("iss", .str "did:ex:a"), ("sub", .str "did:ex:someone-else"),
  ("vc", .obj (dcDoc "did:ex:a" []))]

/-- The payload of a JWT without any issuer. -/
def dcNoIss : JObj := [("sub", .str "did:ex:a"), ("vc", .obj (dcDoc "did:ex:a" []))]

/-- A configuration with these linked credentials. -/
def dcConfig (l : List Json) : JObj := [("@context", .str "ctx"), ("linked_dids", .arr l)]

/-- The toy JSON texts. -/
def dcDecode (s : String) : Option JObj :=
  if s = "{ld}" then some dcLd
  else if s = "{empty}" then some dcEmpty
  else if s = "[ld]" then some (dcConfig [.str "junk", .obj dcLd])
  else if s = "[jwt]" then some (dcConfig [.str "h.p.s"])
  else if s = "[empty]" then some (dcConfig [.obj dcEmpty])
  else if s = "[noiss]" then some (dcConfig [.str "h.q.s"])
  else if s = "[num]" then some (dcConfig [.obj dcLd, .num 1])
  else if s = "[more]" then some (("x", .null) :: dcConfig [.obj dcLd])
  else none

/-- The toy JWTs. -/
def dcLib : JWT.Lib where
  parseJWS := fun _ s =>
    if s = "h.p.s" then
      some ⟨[("alg", .str "EdDSA"), ("kid", .str "did:ex:a#k1")], [9], [1, 2], [1, 2] ++ Proof.exKey⟩
    else if s = "h.q.s" then
      some ⟨[("alg", .str "EdDSA"), ("kid", .str "did:ex:a#k1")], [8], [1, 2], [1, 2] ++ Proof.exKey⟩
    else none
  payloadToMap := fun b => if b = [9] then some dcPayload else if b = [8] then some dcNoIss else none
  upper := id
  jsonString := fun _ => ""

/-- The toy libraries. -/
def dcEnv : DEnv := { pxEnv with
  lib := dcLib
  decodeObj := dcDecode
  jsonPart := fun s => s == "h" || s == "p" || s == "q"
  payloadObj := fun b => if b = [9] then some dcPayload else if b = [8] then some dcNoIss else none
  encObj := fun o => match get? o "proof" with
    | some (.arr _) => "{empty}"
    | _ => "{ld}"
  isDID := fun s => hasPrefix s "did:"
  parseURL := fun s => if s = "https://a.example" ∨ s = "https://a.example/path" then
    some ⟨"https", "a.example", ""⟩ else if s = "https://b.example" then some ⟨"https", "b.example", ""⟩
    else none }

/-- The library's default checker with the toy keys. -/
def dcChecker : Checkers := ofChecker pxChecker (fun _ => none)

/-- Which outcome. -/
def dcKind (r : Out Unit) : Nat :=
  match r with
  | .ok _ => 0
  | .err => 1
  | .panic => 2

set_option maxHeartbeats 4000000 in
/-- Linked-data and JWT credentials are accepted, another domain or DID, an entry of another type and
an extra member are not. -/
theorem didconfig_examples :
    dcKind (verifyDIDAndDomain dcEnv dcChecker "[ld]" "did:ex:a" "https://a.example/path") = 0 ∧
    dcKind (verifyDIDAndDomain dcEnv dcChecker "[jwt]" "did:ex:a" "https://a.example") = 0 ∧
    dcKind (verifyDIDAndDomain dcEnv dcChecker "[ld]" "did:ex:a" "https://b.example") = 1 ∧
    dcKind (verifyDIDAndDomain dcEnv dcChecker "[ld]" "did:ex:b" "https://a.example") = 1 ∧
    dcKind (verifyDIDAndDomain dcEnv dcChecker "[num]" "did:ex:a" "https://a.example") = 1 ∧
    dcKind (verifyDIDAndDomain dcEnv dcChecker "[more]" "did:ex:a" "https://a.example") = 1 := by
  decide +kernel

/-- The hypotheses of the theorems on accepted configurations are met. -/
example : pxChecker.resolve = Proof.vdrResolve Proof.exVdr ∧
    verifyDIDAndDomain dcEnv dcChecker "[ld]" "did:ex:a" "https://a.example" = .ok () := ⟨rfl, rfl⟩

/-- **C53 fails**: a configuration that links `did:ex:victim` to the domain with a credential nobody
signed is accepted, with the library's own checker and resolver. -/
theorem empty_proof_links :
    verifyDIDAndDomain dcEnv dcChecker "[empty]" "did:ex:victim" "https://a.example" = .ok () ∧
    Proof.exVdr "did:ex:victim" = none ∧ Config dcEnv "[empty]" [.obj dcEmpty] ∧
    get? dcEmpty "proof" = some (.arr []) ∧ dcEnv.ldProofs dcEmpty = some [] :=
  ⟨rfl, rfl, (decodeConfig_iff dcEnv _ _).1 rfl, rfl, rfl⟩

/-- **C76 fails**: a JWT credential without issuer crashes the verifier. -/
theorem issuerless_jwt_panics :
    verifyDIDAndDomain dcEnv dcChecker "[noiss]" "did:ex:a" "https://a.example" = .panic ∧
    Config dcEnv "[noiss]" [.str "h.q.s"] ∧ Crashes dcEnv "h.q.s" :=
  ⟨rfl, (decodeConfig_iff dcEnv _ _).1 rfl, Or.inr ⟨_, rfl, rfl⟩⟩

/-- **C77 fails**: a domain linkage JWT whose signed `sub` is somebody else is accepted. -/
theorem sub_not_checked :
    verifyDIDAndDomain dcEnv dcChecker "[jwt]" "did:ex:a" "https://a.example" = .ok () ∧
    Config dcEnv "[jwt]" [.str "h.p.s"] ∧
    (∃ j, dcEnv.lib.parseJWS none "h.p.s" = some j ∧ dcEnv.payloadObj j.payload = some dcPayload) ∧
    get? dcPayload "sub" = some (.str "did:ex:someone-else") :=
  ⟨rfl, (decodeConfig_iff dcEnv _ _).1 rfl, ⟨_, rfl, rfl⟩, rfl⟩

/-- A JWT that meets the hypotheses of `linked_jwt_iss_partial`, with an `iss`. -/
example : ∃ vc e, parseCredential dcEnv.toPEnv (proofOpts dcEnv dcChecker) "h.p.s" = .ok vc ∧
    vc.jwt = some e ∧ Linkage dcEnv "did:ex:a" "https://a.example" vc.contents ∧
    get? dcPayload "iss" = some (.str "did:ex:a") :=
  ⟨_, _, rfl, rfl, (linkageOK_iff dcEnv _ _ _ ⟨"did:ex:a", []⟩ rfl rfl).1 rfl, rfl⟩

/-- Every rule matters for the toy credential: dropping the type, a date or the origin, or adding an
id, is refused. -/
example :
    linkageOK dcEnv "did:ex:a" "https://a.example"
      ⟨[], [], "", ["DomainLinkageCredential"], [⟨"did:ex:a", [("origin", .str "https://a.example")]⟩],
        none, some ⟨(1 : Int), ""⟩, some ⟨(2 : Int), ""⟩, [], [], .null, [], none, none, []⟩ = true ∧
    linkageOK dcEnv "did:ex:a" "https://a.example"
      ⟨[], [], "x", ["DomainLinkageCredential"], [⟨"did:ex:a", [("origin", .str "https://a.example")]⟩],
        none, some ⟨(1 : Int), ""⟩, some ⟨(2 : Int), ""⟩, [], [], .null, [], none, none, []⟩ = false ∧
    linkageOK dcEnv "did:ex:a" "https://a.example"
      ⟨[], [], "", ["DomainLinkageCredential"], [⟨"did:ex:a", []⟩],
        none, some ⟨(1 : Int), ""⟩, some ⟨(2 : Int), ""⟩, [], [], .null, [], none, none, []⟩ = false :=
  ⟨rfl, rfl, rfl⟩

end VC.DidCfg
