import Verif.Proof.Props
/-!
# Linked-data proofs: signing and verifying documents (model)

verifiable/lddocument/signer.go, verifiable/lddocument/verifier.go, proof/creator/creator.go and the
linked-data part of proof/checker/checker.go.

Parameters (`Env`): did-go's proof package (`CreateVerifyData`, `AddProof`, `GetProofs`,
`CreateDetachedJWTHeader`, `GetJWTSignature`, `Proof.PublicKeyID`), base64url, and the clock. A suite's
`GetCanonicalDocument` and `GetDigest` are fields of the suite; JSON-LD processor options are the only
ones the callers set: drop invalid RDF, or reject it (linked_data_proof.go:60-75).

Simplified: `time.Time` is an abstract type `T`; the calls that change the caller's map return a new
object; error texts are dropped.
-/

namespace VC.LDP

open VC.Proof

/-- `proof.SignatureRepresentation` (did-go), linked_data_proof.go:22-30. -/
inductive SigRepr where
  | proofValue
  | jws
  | other (n : Nat)
  deriving DecidableEq, Repr

/-- did-go `proof.Proof` (the fields the repository sets or reads). -/
structure Prf (T : Type) where
  type : String
  repr : SigRepr
  creator : String
  created : T
  domain : String
  nonce : Bytes
  vm : String
  challenge : String
  purpose : String
  capChain : List Json
  proofValue : Bytes
  jws : String

/-- `SigningContext`, signer.go:41-54. -/
structure Ctx (T : Type) where
  sigType : String
  creator : String
  keyType : KeyType
  repr : SigRepr
  created : Option T
  domain : String
  nonce : Bytes
  vm : String
  challenge : String
  purpose : String
  capChain : List Json

/-- `LDProofDescriptor`, proof/descriptor.go:33-44; `canon` gets the processor option: drop invalid RDF
instead of rejecting it. -/
structure Suite where
  proofType : String
  vms : List Supported
  canon : Bool → JObj → Option Bytes
  digest : Bytes → Bytes

/-- Library parameters. -/
structure Env (T : Type) where
  now : T
  /-- `proof.CreateVerifyData` with the suite's two functions -/
  verifyData : (JObj → Option Bytes) → (Bytes → Bytes) → JObj → Prf T → Option Bytes
  /-- `proof.CreateDetachedJWTHeader` -/
  detachedHeader : String → String
  /-- `base64.RawURLEncoding.EncodeToString` -/
  b64 : Bytes → String
  /-- `proof.GetJWTSignature` -/
  jwtSignature : String → Option Bytes
  /-- `proof.AddProof` -/
  addProof : JObj → Prf T → Option JObj
  /-- `proof.GetProofs` -/
  readProofs : JObj → Option (List (Prf T))
  /-- `Proof.PublicKeyID` -/
  publicKeyID : Prf T → Option String

variable {T : Type} (env : Env T)

/-! ## ProofCreator -/

/-- `ldProofCreateDescriptor`, creator.go:29-32. -/
structure LdCreate where
  suite : Suite
  sign : Bytes → Option Bytes

/-- `jwtProofCreateDescriptor`, creator.go:34-37. -/
structure JwtCreate where
  desc : JwtDesc
  sign : Bytes → Option Bytes

/-- `ProofCreator`, creator.go:24-27. -/
structure Creator where
  ld : List LdCreate
  jwt : List JwtCreate

/-- `getSupportedProof`, creator.go:196-204. -/
def ldCreate : List LdCreate → String → Option LdCreate
  | [], _ => none
  | d :: ds, t => if d.suite.proofType = t then some d else ldCreate ds t

/-- `filterSupportedMethodsByKeyType`, creator.go:138-149. -/
def filterMethods (kt : KeyType) (vms : List Supported) : List Supported :=
  vms.filter (fun s => s.keyType == kt)

/-- `SignLinkedDocument`, creator.go:79-93. -/
def Creator.signLinked (c : Creator) (type : String) (kt : KeyType) (doc : Bytes) : Option Bytes :=
  match ldCreate c.ld type with
  | none => none
  | some d => if (filterMethods kt d.suite.vms).isEmpty then none else d.sign doc

/-- `findJWTAlgByKeyType`, creator.go:151-161: the empty string if there is none. -/
def findJWTAlg : List JwtCreate → KeyType → String
  | [], _ => ""
  | d :: ds, kt => if (filterMethods kt d.desc.vms).isEmpty then findJWTAlg ds kt else d.desc.alg

/-- `LDPJWTAlg`, creator.go:117-136. -/
def Creator.ldpJWTAlg (c : Creator) (type : String) (kt : KeyType) : Option String :=
  match ldCreate c.ld type with
  | none => none
  | some d =>
    if (filterMethods kt d.suite.vms).isEmpty then none
    else if findJWTAlg c.jwt kt = "" then none
    else some (findJWTAlg c.jwt kt)

/-- `GetLDPCanonicalDocument`, creator.go:96-104. -/
def Creator.canon (c : Creator) (type : String) (drop : Bool) (doc : JObj) : Option Bytes :=
  (ldCreate c.ld type).bind fun d => d.suite.canon drop doc

/-- `GetLDPDigest`, creator.go:107-114, through `signatureSuiteWrapper.GetDigest`,
lddocument/verifier.go:128-133: an error gives no bytes. -/
def Creator.digest (c : Creator) (type : String) (doc : Bytes) : Bytes :=
  match ldCreate c.ld type with
  | none => []
  | some d => d.suite.digest doc

/-- `getSupportedProofByAlg`, creator.go:216-224. -/
def jwtCreate : List JwtCreate → String → Option JwtCreate
  | [], _ => none
  | d :: ds, a => if d.desc.alg = a then some d else jwtCreate ds a

/-- `getSupportedProofByCwtAlg`, creator.go:206-214. -/
def cwtCreate : List JwtCreate → Int → Option JwtCreate
  | [], _ => none
  | d :: ds, a => if d.desc.cwtAlg = a then some d else cwtCreate ds a

/-- `SignJWT`, creator.go:164-171. -/
def Creator.signJWT (c : Creator) (alg : String) (data : Bytes) : Option Bytes :=
  (jwtCreate c.jwt alg).bind fun d => d.sign data

/-- `SignCWT`, creator.go:174-181. -/
def Creator.signCWT (c : Creator) (alg : Int) (data : Bytes) : Option Bytes :=
  (cwtCreate c.jwt alg).bind fun d => d.sign data

/-- `CreateJWTHeaders`, creator.go:184-194. -/
def jwtHeaders (alg kid : String) : JObj :=
  if kid = "" then [("alg", .str alg)] else [("alg", .str alg), ("kid", .str kid)]

/-! ## DocumentSigner -/

/-- The proof before signing, signer.go:83-98. -/
def proofOf (ctx : Ctx T) : Prf T where
  type := ctx.sigType
  repr := ctx.repr
  creator := ctx.creator
  created := ctx.created.getD env.now
  domain := ctx.domain
  nonce := ctx.nonce
  vm := ctx.vm
  challenge := ctx.challenge
  purpose := if ctx.purpose = "" then "assertionMethod" else ctx.purpose
  capChain := ctx.capChain
  proofValue := []
  jws := ""

/-- With the detached JWT header, signer.go:100-107. -/
def withHeader (c : Creator) (ctx : Ctx T) (p : Prf T) : Option (Prf T) :=
  if ctx.repr = .jws then
    (c.ldpJWTAlg p.type ctx.keyType).map fun alg => { p with jws := env.detachedHeader alg ++ ".." }
  else some p

/-- `applySignatureValue`, signer.go:127-135. -/
def applySignature (ctx : Ctx T) (p : Prf T) (s : Bytes) : Prf T :=
  match ctx.repr with
  | .proofValue => { p with proofValue := s }
  | .jws => { p with jws := p.jws ++ env.b64 s }
  | .other _ => p

/-- `signObject`, signer.go:71-125: the signed document. -/
def sign (c : Creator) (ctx : Ctx T) (doc : JObj) : Option JObj :=
  if ctx.sigType = "" then none
  else (withHeader env c ctx (proofOf env ctx)).bind fun p =>
    (env.verifyData (c.canon p.type false) (c.digest p.type) doc p).bind fun msg =>
    (c.signLinked p.type ctx.keyType msg).bind fun s =>
    env.addProof doc (applySignature env ctx p s)

/-! ## DocumentVerifier -/

/-- `ldCheckDescriptor`, checker.go:43-46. -/
structure LdCheck where
  suite : Suite
  ex : Option (Bytes → Bytes → PubKey → Bytes → Bool)

/-- The linked-data part of `ProofChecker`, checker.go:67-79. -/
structure LdChecker where
  ld : List LdCheck
  verifiers : List SigVerifier
  resolve : String → String → Except Unit VM

/-- `getSupportedProof`, checker.go:409-417. -/
def ldCheck : List LdCheck → String → Option LdCheck
  | [], _ => none
  | d :: ds, t => if d.suite.proofType = t then some d else ldCheck ds t

/-- `GetLDPCanonicalDocument`, checker.go:182-190. -/
def LdChecker.canon (k : LdChecker) (type : String) (drop : Bool) (doc : JObj) : Option Bytes :=
  (ldCheck k.ld type).bind fun d => d.suite.canon drop doc

/-- `GetLDPDigest`, checker.go:193-200, through `signatureSuiteWrapper.GetDigest`. -/
def LdChecker.digest (k : LdChecker) (type : String) (doc : Bytes) : Bytes :=
  match ldCheck k.ld type with
  | none => []
  | some d => d.suite.digest doc

/-- The descriptor as `Verif.Proof` has it. -/
def LdCheck.desc (d : LdCheck) : LdDesc := ⟨d.suite.proofType, d.suite.vms, d.ex⟩

/-- `CheckLDProof`, checker.go:148-179: the model of `Verif.Proof`. -/
def LdChecker.check (k : LdChecker) (p : LdProof) (issuer : String) (msg sig : Bytes) : Bool :=
  match Checker.checkLD ⟨k.ld.map LdCheck.desc, [], [], k.verifiers, k.resolve⟩ p issuer msg sig with
  | .ok _ => true
  | .error _ => false

/-- `getProofVerifyValue`, lddocument/verifier.go:98-107. -/
def verifyValue (p : Prf T) : Option Bytes :=
  match p.repr with
  | .proofValue => some p.proofValue
  | .jws => env.jwtSignature p.jws
  | .other _ => none

/-- The expected issuer, lddocument/verifier.go:77-88. -/
def expectedIssuer (issuer : Option String) (p : Prf T) : Option String :=
  match issuer with
  | some i => some i
  | none => (env.publicKeyID p).map fun kid => (split '#' kid).headD ""

/-- One round of the loop, lddocument/verifier.go:62-94. -/
def verifyOne (k : LdChecker) (drop : Bool) (issuer : Option String) (doc : JObj) (p : Prf T) : Bool :=
  match env.verifyData (k.canon p.type drop) (k.digest p.type) doc p with
  | none => false
  | some msg =>
    match verifyValue env p with
    | none => false
    | some sig =>
      match expectedIssuer env issuer p with
      | none => false
      | some i => k.check ⟨p.type, env.publicKeyID p, p.nonce⟩ i msg sig

/-- `VerifyObject`, lddocument/verifier.go:54-97. -/
def verifyObject (k : LdChecker) (drop : Bool) (issuer : Option String) (doc : JObj) : Bool :=
  match env.readProofs doc with
  | none => false
  | some ps => ps.all (verifyOne env k drop issuer doc)

end VC.LDP
