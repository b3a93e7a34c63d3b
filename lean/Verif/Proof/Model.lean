import Verif.Base.Json
import Verif.Base.Str
/-!
# Proof checker (model)

Models `proof/checker/checker.go`, `vermethod/vdrkeyresolver.go`, `crypto-ext/verifiers/*`,
`proof/jwtproofs/*`, `proof/ldproofs/*` (only the tables of supported verification methods) and
`proof/defaults/all.go`.  The cryptographic primitives are parameters (`Prim`).
-/

namespace VC.Proof

/-- `[]byte`. -/
abbrev Bytes := List UInt8

/-- `kms.KeyType` constants used by the tables. -/
inductive KeyType where
  | ed25519 | bls12381g2 | rsaPS256 | rsaRS256
  | secp256k1P1363 | secp256k1DER | p256P1363 | p256DER | p384P1363 | p384DER | p521P1363 | p521DER
  | other (name : String)
  deriving DecidableEq, Repr

/-- Dynamic type and value of `jwk.JWK.Key`. -/
inductive KeyMat where
  | ed25519 (b : Bytes)
  | ecdsa (id : Bytes)     -- *ecdsa.PublicKey (its own curve is inside)
  | rsa (id : Bytes)
  | other (b : Bytes)
  deriving DecidableEq, Repr

/-- `jwk.JWK`: declared key type, curve, and the parsed key. -/
structure Jwk where
  kty : String
  crv : String
  key : KeyMat
  deriving DecidableEq, Repr

/-- `vermethod.VerificationMethod`, vermethod/vermethod.go. -/
structure VM where
  type : String
  value : Bytes
  jwk : Option Jwk
  deriving DecidableEq, Repr

/-- `pubkey.PublicKey`, crypto-ext/pubkey/pubkey.go:14-25: key type plus either a JWK or raw bytes. -/
structure PubKey where
  type : KeyType
  key : Bytes ⊕ Jwk
  deriving DecidableEq, Repr

/-- `signatureVerifier` interface, checker.go:31-36 (`verify sig msg key = true`: nil error). -/
structure SigVerifier where
  supports : KeyType → Bool
  verify : Bytes → Bytes → PubKey → Bool

/-- `SupportedVerificationMethod`, proof/descriptor.go:23-29. -/
structure Supported where
  vmType : String
  keyType : KeyType
  kty : String
  crv : String
  requireJWK : Bool

/-- `JWTProofDescriptor`, proof/descriptor.go. -/
structure JwtDesc where
  alg : String
  cwtAlg : Int
  vms : List Supported

/-- `ldCheckDescriptor`, checker.go:43-46; `ex` is the optional extended verifier (signature,
message, key, proof nonce). -/
structure LdDesc where
  proofType : String
  vms : List Supported
  ex : Option (Bytes → Bytes → PubKey → Bytes → Bool)

/-- Errors (texts abstracted). -/
inductive Err where
  | noKid | noAlg | resolve | unsupportedAlg | badMethod | noVerifier | signature | noPublicKeyID
  | coseIssuer | coseKey | noKidNoKey
  deriving DecidableEq, Repr

/-- `ProofChecker`, checker.go:67-79. -/
structure Checker where
  ld : List LdDesc
  jwt : List JwtDesc
  cwt : List JwtDesc
  verifiers : List SigVerifier
  resolve : String → String → Except Unit VM

/-- `headers.KeyID()` / `headers.Algorithm()` / `headers.Type()` (kms-go jose): a string member. -/
def header (h : JObj) (k : String) : Option String := (GoMap.get? h k).bind Json.asStr?

/-- `createPublicKey`, checker.go:401-407. -/
def createPublicKey (vm : VM) (kt : KeyType) : PubKey :=
  match vm.jwk with
  | some j => ⟨kt, .inr j⟩
  | none => ⟨kt, .inl vm.value⟩

/-- The body of the loop in `convertToPublicKey`, checker.go:373-385: does this entry match? -/
def methodMatches (s : Supported) (vm : VM) : Bool :=
  if s.vmType ≠ vm.type then false
  else if vm.jwk.isNone && s.requireJWK then false
  else match vm.jwk with
    | some j => !(s.kty ≠ j.kty || s.crv ≠ j.crv)
    | none => true

/-- `convertToPublicKey`, checker.go:369-399. -/
def convertToPublicKey : List Supported → VM → Option PubKey
  | [], _ => none
  | s :: ss, vm => if methodMatches s vm then some (createPublicKey vm s.keyType)
                   else convertToPublicKey ss vm

/-- `getSignatureVerifier`, checker.go:439-447. -/
def getSignatureVerifier : List SigVerifier → KeyType → Option SigVerifier
  | [], _ => none
  | v :: vs, kt => if v.supports kt then some v else getSignatureVerifier vs kt

/-- `getSupportedProofByAlg`, checker.go:419-427. -/
def byAlg : List JwtDesc → String → Option JwtDesc
  | [], _ => none
  | d :: ds, a => if d.alg = a then some d else byAlg ds a

/-- `getSupportedCWTProofByAlg`, checker.go:429-437. -/
def byCwtAlg : List JwtDesc → Int → Option JwtDesc
  | [], _ => none
  | d :: ds, a => if d.cwtAlg = a then some d else byCwtAlg ds a

/-- `getSupportedProof`, checker.go:409-417. -/
def byType : List LdDesc → String → Option LdDesc
  | [], _ => none
  | d :: ds, t => if d.proofType = t then some d else byType ds t

/-- Common tail: convert the key, find the verifier, verify (checker.go:223-234, 255-266,
466-477). -/
def verifyWith (verifiers : List SigVerifier) (vms : List Supported) (vm : VM) (msg sig : Bytes) :
    Except Err Unit :=
  match convertToPublicKey vms vm with
  | none => .error .badMethod
  | some pk =>
    match getSignatureVerifier verifiers pk.type with
    | none => .error .noVerifier
    | some v => if v.verify sig msg pk then .ok () else .error .signature

/-- `CheckJWTProof`, checker.go:203-235. -/
def Checker.checkJWT (c : Checker) (headers : JObj) (issuer : String) (msg sig : Bytes) :
    Except Err Unit :=
  match header headers "kid" with
  | none => .error .noKid
  | some kid =>
    match header headers "alg" with
    | none => .error .noAlg
    | some alg =>
      match c.resolve kid issuer with
      | .error _ => .error .resolve
      | .ok vm =>
        match byAlg c.jwt alg with
        | none => .error .unsupportedAlg
        | some d => verifyWith c.verifiers d.vms vm msg sig

/-- `CheckCWTProofRequest`, types.go, with the decoding of the COSE key (checker.go:280-301)
abstracted: `coseKey` is the JWK and its `KeyType()` when decoding succeeds. -/
structure CwtReq where
  keyID : String
  keyMaterial : String
  algo : Int

/-- `checkCWTProofByKeyID`, checker.go:237-264. -/
def Checker.checkCWTByKeyID (c : Checker) (r : CwtReq) (issuer : String) (msg sig : Bytes) :
    Except Err Unit :=
  match c.resolve r.keyID issuer with
  | .error _ => .error .resolve
  | .ok vm =>
    match byCwtAlg c.cwt r.algo with
    | none => .error .unsupportedAlg
    | some d => verifyWith c.verifiers d.vms vm msg sig

/-- `checkCWTProofByCOSEKey`, checker.go:266-322; the verifier is chosen by the JWK's own key
type. -/
def Checker.checkCWTByCOSEKey (c : Checker) (coseKey : String → Option (Jwk × KeyType))
    (r : CwtReq) (issuer : String) (msg sig : Bytes) : Except Err Unit :=
  if issuer ≠ "" then .error .coseIssuer
  else match coseKey r.keyMaterial with
    | none => .error .coseKey
    | some (j, kt) =>
      match byCwtAlg c.cwt r.algo with
      | none => .error .unsupportedAlg
      | some d =>
        match convertToPublicKey d.vms ⟨"JsonWebKey2020", [], some j⟩ with
        | none => .error .badMethod
        | some pk =>
          match getSignatureVerifier c.verifiers kt with
          | none => .error .noVerifier
          | some v => if v.verify sig msg pk then .ok () else .error .signature

/-- `CheckCWTProof`, checker.go:330-354. -/
def Checker.checkCWT (c : Checker) (coseKey : String → Option (Jwk × KeyType)) (r : CwtReq)
    (issuer : String) (msg sig : Bytes) : Except Err Unit :=
  if r.keyID = "" ∧ r.keyMaterial = "" then .error .noKidNoKey
  else if r.algo = 0 then .error .noAlg
  else if r.keyID ≠ "" then c.checkCWTByKeyID r issuer msg sig
  else c.checkCWTByCOSEKey coseKey r issuer msg sig

/-- A linked-data proof as the checker sees it: type, public key id (`proof.PublicKeyID()`, did-go),
nonce. -/
structure LdProof where
  type : String
  publicKeyID : Option String
  nonce : Bytes

/-- `CheckLDProof`, checker.go:148-179. -/
def Checker.checkLD (c : Checker) (p : LdProof) (issuer : String) (msg sig : Bytes) :
    Except Err Unit :=
  match p.publicKeyID with
  | none => .error .noPublicKeyID
  | some kid =>
    match c.resolve kid issuer with
    | .error _ => .error .resolve
    | .ok vm =>
      match byType c.ld p.type with
      | none => .error .unsupportedAlg
      | some d =>
        match convertToPublicKey d.vms vm with
        | none => .error .badMethod
        | some pk =>
          match d.ex with
          | some ex => if ex sig msg pk p.nonce then .ok () else .error .signature
          | none =>
            match getSignatureVerifier c.verifiers pk.type with
            | none => .error .noVerifier
            | some v => if v.verify sig msg pk then .ok () else .error .signature

/-- `EmbeddedVMProofChecker.CheckJWTProof`, checker.go:456-478. -/
def checkEmbedded (jwt : List JwtDesc) (verifiers : List SigVerifier) (vm : VM) (headers : JObj)
    (msg sig : Bytes) : Except Err Unit :=
  match header headers "alg" with
  | none => .error .noAlg
  | some alg =>
    match byAlg jwt alg with
    | none => .error .unsupportedAlg
    | some d => verifyWith verifiers d.vms vm msg sig

/-- `FindIssuer`, checker.go:357-367, possibleIssuerPath 58-64: gjson path lookup of a non-empty
string. -/
def findIssuer (payload : JObj) : String :=
  let sub (o : Option Json) (k : String) : Option Json := (o.bind Json.asObj?).bind (GoMap.get? · k)
  let str (o : Option Json) : String := (o.bind Json.asStr?).getD ""
  let top (k : String) := GoMap.get? payload k
  let cands := [str (sub (sub (top "vc") "issuer") "id"), str (sub (top "vc") "issuer"),
    str (sub (top "issuer") "id"), str (top "issuer"), str (top "iss")]
  (cands.find? (· ≠ "")).getD ""

/-! ### Verification methods from DID documents -/

/-- `did.VerificationRelationship` (did-go). -/
inductive Relationship where
  | general | authentication | assertionMethod | capabilityDelegation | capabilityInvocation
  | keyAgreement
  deriving DecidableEq, Repr

/-- A `did.Verification`: the method, its id and its relationship. -/
structure DocEntry where
  id : String
  rel : Relationship
  vm : VM
  deriving DecidableEq, Repr

/-- The search in `ResolveVerificationMethod`, vdrkeyresolver.go:42-54, over the entries of the
document in the (unspecified) order of Go's map iteration. -/
def findVM : List DocEntry → String → Option VM
  | [], _ => none
  | e :: es, kid => if e.id = kid ∧ e.rel ≠ .keyAgreement then some e.vm else findVM es kid

/-- `VDRResolver.ResolveVerificationMethod`, vdrkeyresolver.go:32-57. -/
def vdrResolve (vdr : String → Option (List DocEntry)) (kid controller : String) :
    Except Unit VM :=
  match vdr controller with
  | none => .error ()
  | some doc => match findVM doc kid with
    | none => .error ()
    | some vm => .ok vm

/-! ### Signature verifiers -/

/-- Elliptic curves of `crypto-ext/verifiers/ecdsa`. -/
inductive Curve where
  | secp256k1 | p256 | p384 | p521
  deriving DecidableEq, Repr

/-- Cryptographic primitives (Go standard library, btcec, bbs-signature-go, x509, asn1). -/
structure Prim where
  ed25519 : Bytes → Bytes → Bytes → Bool            -- key, message, signature
  /-- `ecdsa.Verify` on an `*ecdsa.PublicKey`, with the hash of the curve, r and s. -/
  ecdsa : Curve → Bytes → Bytes → Nat → Nat → Bool  -- hash choice, key, message, r, s
  /-- `elliptic.Unmarshal` of raw public key bytes. -/
  ecPoint : Curve → Bytes → Option Bytes
  /-- `asn1.Unmarshal` of an ECDSA signature. -/
  asn1 : Bytes → Option (Nat × Nat)
  pss : Bytes → Bytes → Bytes → Bool
  pkcs1v15 : Bytes → Bytes → Bytes → Bool
  /-- `x509.ParsePKCS1PublicKey`. -/
  pkcs1Key : Bytes → Option Bytes
  bbs : Bytes → Bytes → Bytes → Bool                -- key, message, signature
  bbsProof : Bytes → Bytes → Bytes → Bytes → Bool   -- key, message, nonce, signature
  /-- `JWK.PublicKeyBytes`. -/
  jwkBytes : Jwk → Option Bytes

/-- Coordinate size in bytes, ecdsa/verifier.go:24-29. -/
def Curve.keySize : Curve → Nat
  | .secp256k1 => 32 | .p256 => 32 | .p384 => 48 | .p521 => 66

/-- Supported key types of the ECDSA verifiers, ecdsa/verifier.go:143-195. -/
def Curve.keyTypes : Curve → List KeyType
  | .secp256k1 => [.secp256k1P1363, .secp256k1DER]
  | .p256 => [.p256P1363, .p256DER]
  | .p384 => [.p384P1363, .p384DER]
  | .p521 => [.p521P1363, .p521DER]

/-- `big.NewInt(0).SetBytes`: big-endian value. -/
def beVal (b : Bytes) : Nat := b.foldl (fun a x => a * 256 + x.toNat) 0

/-- The key bytes an ECDSA verifier uses, ecdsa/verifier.go:47-73. -/
def ecdsaKey (p : Prim) (c : Curve) : Bytes ⊕ Jwk → Option Bytes
  | .inl b => p.ecPoint c b
  | .inr j => match j.key with
    | .ecdsa k => some k
    | _ => none

/-- The key bytes the Ed25519 verifier uses, ed25519/verifier.go:38-51. -/
def ed25519Key : Bytes ⊕ Jwk → Option Bytes
  | .inl b => some b
  | .inr j => match j.key with
    | .ed25519 k => some k
    | _ => none

/-- The key bytes an RSA verifier uses, rsa/verifier.go:44-64. -/
def rsaPubKey (p : Prim) : Bytes ⊕ Jwk → Option Bytes
  | .inl b => p.pkcs1Key b
  | .inr j => match j.key with
    | .rsa k => some k
    | _ => none

/-- The ECDSA verifier, ecdsa/verifier.go:47-126. -/
def ecdsaVerifier (p : Prim) (c : Curve) : SigVerifier where
  supports := fun kt => c.keyTypes.contains kt
  verify := fun sig msg pk =>
    if !c.keyTypes.contains pk.type then false
    else match ecdsaKey p c pk.key with
      | none => false
      | some k =>
        if sig.length < 2 * c.keySize then false
        else if sig.length > 2 * c.keySize then
          match p.asn1 sig with
          | none => false
          | some (r, s) => p.ecdsa c k msg r s
        else p.ecdsa c k msg (beVal (sig.take c.keySize)) (beVal (sig.drop c.keySize))

/-- ed25519/verifier.go:18-66. -/
def ed25519Verifier (p : Prim) : SigVerifier where
  supports := fun kt => kt == .ed25519
  verify := fun sig msg pk =>
    if pk.type ≠ .ed25519 then false
    else match ed25519Key pk.key with
      | none => false
      | some k => if k.length ≠ 32 then false else p.ed25519 k msg sig

/-- rsa/verifier.go (both verifiers have the same structure): key type, primitive. -/
def rsaVerifier (p : Prim) (kt : KeyType) (prim : Bytes → Bytes → Bytes → Bool) : SigVerifier where
  supports := fun t => t == kt
  verify := fun sig msg pk =>
    if pk.type ≠ kt then false
    else match rsaPubKey p pk.key with
      | none => false
      | some k => prim k msg sig

/-- bbs/verifier.go:22-62 (the splitting of the message into lines is inside the primitive). -/
def bbsVerifier (p : Prim) : SigVerifier where
  supports := fun kt => kt == .bls12381g2
  verify := fun sig msg pk =>
    if pk.type ≠ .bls12381g2 then false
    else
      let key? : Option Bytes := match pk.key with
        | .inl b => some b
        | .inr j => p.jwkBytes j
      match key? with
      | none => false
      | some k => p.bbs k msg sig

/-- bbs/verifier.go:64-92 (the extended verifier does not look at the key type). -/
def bbsProofVerifier (p : Prim) (sig msg : Bytes) (pk : PubKey) (nonce : Bytes) : Bool :=
  let key? : Option Bytes := match pk.key with
    | .inl b => some b
    | .inr j => p.jwkBytes j
  match key? with
  | none => false
  | some k => p.bbsProof k msg nonce sig

/-! ### Tables -/

/-- proof/jwtproofs/eddsa/proof.go:21-67. -/
def eddsaDesc : JwtDesc := ⟨"EdDSA", -8,
  [⟨"Ed25519VerificationKey2018", .ed25519, "OKP", "Ed25519", false⟩,
   ⟨"JsonWebKey2020", .ed25519, "OKP", "Ed25519", true⟩]⟩
/-- proof/jwtproofs/es256/proof.go:21-66. -/
def es256Desc : JwtDesc := ⟨"ES256", -7,
  [⟨"JsonWebKey2020", .p256P1363, "EC", "P-256", true⟩,
   ⟨"JsonWebKey2020", .p256DER, "EC", "P-256", true⟩]⟩
/-- proof/jwtproofs/es256k/proof.go:22-78 (CWTAlgorithm returns 0). -/
def es256kDesc : JwtDesc := ⟨"ES256K", 0,
  [⟨"EcdsaSecp256k1VerificationKey2019", .secp256k1P1363, "EC", "secp256k1", false⟩,
   ⟨"JsonWebKey2020", .secp256k1P1363, "EC", "secp256k1", true⟩,
   ⟨"EcdsaSecp256k1VerificationKey2019", .secp256k1DER, "EC", "secp256k1", false⟩,
   ⟨"JsonWebKey2020", .secp256k1DER, "EC", "secp256k1", true⟩]⟩
/-- proof/jwtproofs/es384/proof.go:21-66. -/
def es384Desc : JwtDesc := ⟨"ES384", -35,
  [⟨"JsonWebKey2020", .p384P1363, "EC", "P-384", true⟩,
   ⟨"JsonWebKey2020", .p384DER, "EC", "P-384", true⟩]⟩
/-- proof/jwtproofs/es521/proof.go:21-66 (CWTAlgorithm returns 0). -/
def es521Desc : JwtDesc := ⟨"ES521", 0,
  [⟨"JsonWebKey2020", .p521P1363, "EC", "P-521", true⟩,
   ⟨"JsonWebKey2020", .p521DER, "EC", "P-521", true⟩]⟩
/-- proof/jwtproofs/rs256/proof.go:21-61 (cose.AlgorithmRS256 = -257). -/
def rs256Desc : JwtDesc := ⟨"RS256", -257,
  [⟨"RsaVerificationKey2018", .rsaRS256, "RSA", "", false⟩,
   ⟨"JsonWebKey2020", .rsaRS256, "RSA", "", true⟩]⟩
/-- proof/jwtproofs/ps256/proof.go:21-61 (cose.AlgorithmPS256 = -37). -/
def ps256Desc : JwtDesc := ⟨"PS256", -37,
  [⟨"RsaVerificationKey2018", .rsaPS256, "RSA", "", false⟩,
   ⟨"JsonWebKey2020", .rsaPS256, "RSA", "", true⟩]⟩

/-- proof/defaults/all.go:38-40, sdjwt/verifier/verifier.go:302. -/
def defaultJwt : List JwtDesc :=
  [eddsaDesc, es256Desc, es256kDesc, es384Desc, es521Desc, rs256Desc, ps256Desc]

/-- The tables of proof/ldproofs in the order of proof/defaults/all.go:46-53:
bbsblssignature2020/proof.go:30-72, ecdsasecp256k1signature2019/proof.go:29-84, ed25519signature2018/proof.go:29-71,
ed25519signature2020/proof.go:29-79, jsonwebsignature2020/proof.go:38-147, bbsblssignatureproof2020/proof.go:32-61. -/
def defaultLd (p : Prim) : List LdDesc := [
  ⟨"BbsBlsSignature2020",
    [⟨"Bls12381G2Key2020", .bls12381g2, "EC", "BLS12381_G2", false⟩,
     ⟨"JsonWebKey2020", .bls12381g2, "EC", "BLS12381_G2", true⟩], none⟩,
  ⟨"EcdsaSecp256k1Signature2019", es256kDesc.vms, none⟩,
  ⟨"Ed25519Signature2018", eddsaDesc.vms, none⟩,
  ⟨"Ed25519Signature2020",
    [⟨"Ed25519VerificationKey2020", .ed25519, "OKP", "Ed25519", false⟩,
     ⟨"Ed25519VerificationKey2018", .ed25519, "OKP", "Ed25519", false⟩,
     ⟨"JsonWebKey2020", .ed25519, "OKP", "Ed25519", true⟩], none⟩,
  ⟨"JsonWebSignature2020",
    [⟨"JsonWebKey2020", .ed25519, "OKP", "Ed25519", true⟩,
     ⟨"JsonWebKey2020", .secp256k1P1363, "EC", "secp256k1", true⟩,
     ⟨"JsonWebKey2020", .secp256k1DER, "EC", "secp256k1", true⟩,
     ⟨"JsonWebKey2020", .rsaPS256, "RSA", "", true⟩,
     ⟨"JsonWebKey2020", .p256P1363, "EC", "P-256", true⟩,
     ⟨"JsonWebKey2020", .p256DER, "EC", "P-256", true⟩,
     ⟨"JsonWebKey2020", .p384P1363, "EC", "P-384", true⟩,
     ⟨"JsonWebKey2020", .p384DER, "EC", "P-384", true⟩,
     ⟨"JsonWebKey2020", .p521P1363, "EC", "P-521", true⟩,
     ⟨"JsonWebKey2020", .p521DER, "EC", "P-521", true⟩], none⟩,
  ⟨"BbsBlsSignatureProof2020",
    [⟨"Bls12381G2Key2020", .bls12381g2, "", "", false⟩], some (bbsProofVerifier p)⟩]

/-- proof/defaults/all.go:43-45. -/
def defaultVerifiers (p : Prim) : List SigVerifier :=
  [ed25519Verifier p, bbsVerifier p, rsaVerifier p .rsaPS256 p.pss,
   rsaVerifier p .rsaRS256 p.pkcs1v15, ecdsaVerifier p .secp256k1, ecdsaVerifier p .p256,
   ecdsaVerifier p .p384, ecdsaVerifier p .p521]

/-- `NewDefaultProofChecker`, proof/defaults/all.go:37-57. -/
def defaultChecker (p : Prim) (resolve : String → String → Except Unit VM) : Checker :=
  ⟨defaultLd p, defaultJwt, defaultJwt, defaultVerifiers p, resolve⟩

/-- The verifiers used for the holder's key, sdjwt/verifier/verifier.go:297-302 (no BBS). -/
def holderVerifiers (p : Prim) : List SigVerifier :=
  [ed25519Verifier p, rsaVerifier p .rsaPS256 p.pss, rsaVerifier p .rsaRS256 p.pkcs1v15,
   ecdsaVerifier p .secp256k1, ecdsaVerifier p .p256, ecdsaVerifier p .p384, ecdsaVerifier p .p521]

end VC.Proof
