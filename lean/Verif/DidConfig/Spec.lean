import Verif.DidConfig.Model
import Verif.Proof.Props
/-!
# didconfig: specification

What a DID configuration and a domain linkage credential have to be, in terms of the decoded
document, the parsed credential and the library parameters.
-/

namespace VC.DidCfg.Spec

open GoMap
open VC.Vfy (PCred Contents JwtEnvelope)

variable (env : DEnv)

/-- The text is a JSON object with exactly the members `@context` (a string or null) and
`linked_dids` (an array, or null for none) holding `l`. -/
def Config (text : String) (l : List Json) : Prop :=
  ∃ o, env.decodeObj text = some o ∧ (∀ k v, (k, v) ∈ o → k = "@context" ∨ k = "linked_dids") ∧
    (get? o "@context" = some .null ∨ ∃ s, get? o "@context" = some (.str s)) ∧
    (get? o "linked_dids" = some (.arr l) ∨ get? o "linked_dids" = some .null ∧ l = [])

/-- An entry of `linked_dids`: the text itself, or an object whose encoding is the text. -/
def Entry (j : Json) (t : String) : Prop := j = .str t ∨ ∃ o, j = .obj o ∧ t = env.encObj o

/-- Same scheme, host and port. -/
def SameOrigin (a b : String) : Prop := ∃ u, env.parseURL a = some u ∧ env.parseURL b = some u

/-- A domain linkage credential of a DID for an origin. -/
structure Linkage (did origin : String) (c : Contents env.T) : Prop where
  issuer : ∃ i, c.issuer = some i ∧ i.id = did
  type : "DomainLinkageCredential" ∈ c.types
  noId : c.id = ""
  issued : ∃ d, c.issued = some d
  expires : ∃ d, c.expired = some d
  subject : ∃ s o, c.subject = [s] ∧ s.id = did ∧ get? s.custom "origin" = some (.str o) ∧
    SameOrigin env o origin
  isDID : env.isDID did = true ∧ did ≠ ""

/-- The rules for a credential in a JWT: the members of header and payload. -/
structure JwtRules (e : JwtEnvelope) : Prop where
  form : ∃ j p alg kid, env.lib.parseJWS none e.jwt = some j ∧
    env.lib.payloadToMap j.payload = some p ∧ JWT.checkHeaders env.lib j.headers = true ∧
    get? j.headers "alg" = some (.str alg) ∧ get? j.headers "kid" = some (.str kid) ∧
    (∀ t, get? j.headers "typ" = some (.str t) → t = "JWT") ∧
    (∀ k v, (k, v) ∈ j.headers → k ∈ ["alg", "kid", "typ"]) ∧
    (∀ k v, (k, v) ∈ p → k ∈ ["exp", "iss", "nbf", "sub", "vc", "iat"])

/-- The credential is carried by something a key of the DID signed: its JWT, its COSE message, or
each of its embedded proofs (of which there may be none, see `empty_proof_links`). -/
inductive SignedBy (ch : Proof.Checker) (vdr : String → Option (List Proof.DocEntry)) (did : String)
    (vc : PCred env.T) : Prop
  | jwt (e : JwtEnvelope) (j : JWT.Jws) (kid alg : String) (vm : Proof.VM) (d : Proof.JwtDesc)
      (he : vc.jwt = some e) (hj : env.lib.parseJWS none e.jwt = some j)
      (hk : get? j.headers "kid" = some (.str kid)) (ha : get? j.headers "alg" = some (.str alg))
      (hv : Proof.KeyOfDid vdr did kid vm) (hd : d ∈ ch.jwt) (hda : d.alg = alg)
      (hs : Proof.Signed ch.verifiers d.vms vm j.signingInput j.signature)
  | cwt (e : Vfy.CwtEnvelope) (msg : Proof.Bytes) (vm : Proof.VM) (d : Proof.JwtDesc)
      (he : vc.cwt = some e) (hm : Vfy.proofValue e.message = some msg)
      (hv : Proof.KeyOfDid vdr did e.message.kid vm) (hd : d ∈ ch.cwt)
      (hda : e.message.alg = some d.cwtAlg)
      (hs : Proof.Signed ch.verifiers d.vms vm msg e.message.signature)
  | ld (ps : List Vfy.LdPrf) (hj : vc.jwt = none) (hc : vc.cwt = none)
      (hp : env.ldProofs vc.json = some ps)
      (hs : ∀ p ∈ ps, ∃ kid vm msg sig, p.view.publicKeyID = some kid ∧ Proof.KeyOfDid vdr did kid vm ∧
        env.verifyData vc.json p = some msg ∧ env.verifyValue p = some sig ∧
        ∃ d ∈ ch.ld, d.proofType = p.view.type ∧
          ((d.ex = none ∧ Proof.Signed ch.verifiers d.vms vm msg sig) ∨
           ∃ ex kt, d.ex = some ex ∧ Proof.Allowed d.vms vm kt ∧
             ex sig msg ⟨kt, Proof.keyOf vm⟩ p.view.nonce = true))

end VC.DidCfg.Spec
