import Verif.Verifiable.Parse
/-!
# verifiable: parsing a credential (specification)

What it means for a returned credential to be secured, bound to what was signed, and valid; stated
on the returned credential and the library parameters only.
-/

namespace VC.Vfy.Spec

open GoMap
open VC.Vfy (PEnv ParseOpts PCred LdPrf Sign1 Contents)
open VC.Proof (Bytes CwtReq LdProof)

variable (env : PEnv)

/-- The `proof` member is one object or an array of objects. -/
def ProofMember (doc : JObj) (l : List JObj) : Prop :=
  (∃ o, get? doc "proof" = some (.obj o) ∧ l = [o]) ∨ get? doc "proof" = some (.arr (l.map .obj))

/-- The first of the proofs is a data integrity proof. -/
def DIFirst (l : List JObj) : Prop :=
  ∃ p rest, l = p :: rest ∧ get? p "type" = some (.str "DataIntegrityProof")

/-- A linked-data proof of the document was checked for an issuer. -/
def LdSigned (pc : LdProof → String → Bytes → Bytes → Bool) (issuer : String) (doc : JObj)
    (p : LdPrf) : Prop :=
  ∃ msg sig, env.verifyData doc p = some msg ∧ env.verifyValue p = some sig ∧
    pc p.view issuer msg sig = true

/-- `e` is the part of a key id before `#`. -/
def DidPart (kid e : String) : Prop :=
  '#' ∉ e.toList ∧ (kid = e ∨ ∃ f : String, kid = e ++ "#" ++ f)

/-- The issuer a CWT is checked for: the credential's, or the key's DID if that is empty. -/
def CwtIssuer (issuer kid e : String) : Prop :=
  (issuer ≠ "" ∧ e = issuer) ∨ (issuer = "" ∧ kid = "" ∧ e = "") ∨
  (issuer = "" ∧ kid ≠ "" ∧ DidPart kid e)

/-- The credential has an issuer and the proof that comes with it verified. -/
inductive Secured (o : ParseOpts env) (vc : PCred env.T) : Prop
  /-- a JWS whose signature was checked for the issuer -/
  | jwt (i : Issuer) (e : JwtEnvelope) (pc : JWT.ProofChecker) (j : JWT.Jws)
      (hi : vc.contents.issuer = some i) (he : vc.jwt = some e) (hc : o.jwtChecker = some pc)
      (hj : env.lib.parseJWS none e.jwt = some j)
      (hs : pc j.headers i.id j.signingInput j.signature = true)
  /-- a COSE message whose signature was checked -/
  | cwt (i : Issuer) (e : CwtEnvelope) (pc : CwtReq → String → Bytes → Bytes → Bool) (msg : Bytes)
      (a : Int) (x : String)
      (hi : vc.contents.issuer = some i) (hn : vc.jwt = none) (he : vc.cwt = some e)
      (hc : o.cwtChecker = some pc) (hm : proofValue e.message = some msg)
      (ha : e.message.alg = some a) (hx : CwtIssuer i.id e.message.kid x)
      (hs : pc ⟨e.message.kid, e.message.coseKey.getD "", a⟩ x msg e.message.signature = true)
  /-- embedded linked-data proofs, each checked for the issuer -/
  | ld (i : Issuer) (l : List JObj) (pc : LdProof → String → Bytes → Bytes → Bool) (ps : List LdPrf)
      (hi : vc.contents.issuer = some i) (hn : vc.jwt = none) (hn' : vc.cwt = none)
      (hp : ProofMember vc.json l) (hd : ¬ DIFirst l) (hc : o.ldChecker = some pc)
      (hl : env.ldProofs vc.json = some ps) (hs : ∀ p ∈ ps, LdSigned env pc i.id vc.json p)
  /-- data integrity proofs accepted by the data integrity verifier: no issuer is involved -/
  | di (i : Issuer) (l : List JObj) (suites : GoMap (DI.Suite env.di))
      (hi : vc.contents.issuer = some i) (hn : vc.jwt = none) (hn' : vc.cwt = none)
      (hp : ProofMember vc.json l) (hd : DIFirst l) (hc : o.diVerifier = some suites)
      (hs : (DI.verifyProof env.di suites vc.json
        (DI.freshOpts env.di o.diPurpose o.diDomain o.diChallenge)).1 = .ok ())

/-- The content of the credential is what its envelope carries. -/
structure Bound (vc : PCred env.T) : Prop where
  /-- a JWT credential is the signed payload, refined by the registered claims -/
  jwt : ∀ e, vc.jwt = some e → ∃ j p m, env.lib.parseJWS none e.jwt = some j ∧
    e.headers = j.headers ∧ env.payloadObj j.payload = some p ∧
    decodeCredPayload env.toJEnv p = .ok m ∧ vc.json = m.getD []
  /-- a CWT credential is the `vc` claim of the signed payload of its message -/
  cwt : ∀ e, vc.cwt = some e → env.cwtVC e.message.payload = some vc.json ∧
    env.parseCOSE e.raw = some e.message
  /-- the fields are those of the JSON, up to the context -/
  contents : ∃ json b, parseContents env.toCEnv (ofWire json) b = some vc.contents ∧
    ∀ k, k ≠ "@context" → get? json k = get? vc.json k

/-- What model validation requires in each mode; the last two modes of failure (an unknown mode, an
empty list that panics) are never valid. -/
def Valid (o : ParseOpts env) (vc : PCred env.T) : Prop :=
  let ld : Prop := ∃ b ∈ ["https://www.w3.org/2018/credentials/v1", "https://www.w3.org/ns/credentials/v2"],
    vc.contents.context.head? = some b ∧ env.ldOK vc.json b = true ∧
    (o.ldTypesCheck = true → env.ldTypesOK vc.json b = true)
  let schema : Prop := env.schemaOK vc.json vc.contents = true
  (o.mode = .combined ∧ schema ∧ ld) ∨ (o.mode = .jsonld ∧ ld) ∨
  (o.mode = .baseContext ∧ schema ∧ vc.contents.types = ["VerifiableCredential"] ∧
    ∃ c ∈ o.allowedContexts, vc.contents.context = [c]) ∨
  (o.mode = .baseContextExtended ∧ schema ∧ (∀ c ∈ vc.contents.context, c ∈ o.allowedContexts) ∧
    ∀ t ∈ vc.contents.types, t ∈ o.allowedTypes)

/-- The options with every check switched off. -/
def unchecked (o : ParseOpts env) : ParseOpts env :=
  { o with disableValidation := true, disabledProofCheck := true, disableRelRes := true }

end VC.Vfy.Spec
