import Verif.Base.Json
import Verif.Base.Str
/-!
# Data integrity proofs (model)

Models `dataintegrity/verifier.go`, `dataintegrity/signer.go`, `dataintegrity/models/models.go`,
`dataintegrity/suite/ecdsa2019/ecdsa2019.go` and `dataintegrity/suite/eddsa2022/eddsa2022.go`.

Parameters (`Env`): the clock, `time.Parse`/`Format` with RFC3339, JSON-LD canonicalisation, hashing,
multibase, point decompression, the signature primitives and the DID resolver.

Simplifications: a document is its decoded top-level JSON object (`gjson`/`sjson`/`encoding/json`
agree on objects without repeated member names); `encoding/json`'s case-insensitive matching of
member names is not modelled; the texts of errors are dropped.
-/

namespace VC.DI

open VC (Json JObj GoMap)

/-- `[]byte`. -/
abbrev Bytes := List UInt8

/-- `jwk.JWK`: the curve and the key material. -/
structure Jwk where
  crv : String
  key : Bytes
  deriving DecidableEq, Repr

/-- `did.VerificationMethod`: the fields the suites read (`ID`, `JSONWebKey()`, `Value`). -/
structure VM where
  id : String
  jwk : Option Jwk
  value : Bytes
  deriving DecidableEq, Repr

/-- `did.Doc`: `VerificationMethods(r)[r]` for the five relationships signer.go:165-198 reads. -/
structure DidDoc where
  assertion : List VM
  general : List VM
  authentication : List VM
  delegation : List VM
  invocation : List VM

/-- Signature algorithm of a suite (`kms.KeyType`). -/
inductive Kind where
  | ed25519 | p256 | p384
  deriving DecidableEq, Repr

/-- Digest used for hashing and canonicalisation. -/
inductive HashAlg where
  | sha256 | sha384
  deriving DecidableEq, Repr

/-- `pubkey.PublicKey`: type plus a JWK or raw bytes. -/
structure PubKey where
  kind : Kind
  key : Jwk ⊕ Bytes
  deriving DecidableEq, Repr

/-- Library parameters. -/
structure Env where
  /-- `time.Time`. -/
  T : Type
  /-- the zero `time.Time`. -/
  zeroT : T
  /-- `Time.IsZero`. -/
  isZero : T → Bool
  /-- `time.Parse(time.RFC3339, s)`. -/
  parseT : String → Option T
  /-- `t.Format(time.RFC3339)`. -/
  fmtT : T → String
  /-- `time.Now().After(t)` at the moment of the call. -/
  past : T → Bool
  /-- `GetCanonicalDocument` with the given digest. -/
  canon : HashAlg → JObj → Option Bytes
  /-- the digest. -/
  hash : HashAlg → Bytes → Bytes
  /-- `multibase.Decode` (encoding dropped). -/
  mbDecode : String → Option Bytes
  /-- `multibase.Encode(Base58BTC, ·)`. -/
  mbEncode : Bytes → String
  /-- `unmarshalECKey`, ecdsa2019.go:229-243. -/
  ecKey : Kind → Bytes → Bytes
  /-- `Verifier.Verify(signature, msg, key) == nil`. -/
  verify : Bytes → Bytes → PubKey → Bool
  /-- `signerGetter(jwk)` followed by `Sign(msg)`. -/
  sign : Option Jwk → Bytes → Option Bytes
  /-- the configured `didResolver` (`none`: not configured). -/
  resolver : Option (String → Option DidDoc)

/-- `models.ProofOptions`, models.go:51-62 (`CustomFields` is never read). -/
structure Opts (T : Type) where
  purpose : String
  vmID : String
  vm : Option VM
  proofType : String
  suiteType : String
  domain : String
  challenge : String
  created : T
  expires : T

/-- `models.Proof`, models.go:35-47. -/
structure Prf where
  id : String
  type : String
  cryptosuite : String
  purpose : String
  vm : String
  created : String
  expires : String
  domain : String
  challenge : String
  value : String
  previous : String
  deriving DecidableEq, Repr

/-- Errors (texts dropped). -/
inductive Err where
  | missing | malformed | wrongType | unsupportedSuite | outOfDate | purpose | noResolver | vmResolution
  | domain | challenge | suite | generation
  deriving DecidableEq, Repr

/-- A string member of a JSON object decoded into a struct field by `encoding/json`: absent and
`null` leave the zero value, other types are an error. -/
def strField (m : JObj) (k : String) : Option String :=
  match GoMap.get? m k with
  | none => some ""
  | some .null => some ""
  | some (.str s) => some s
  | some _ => none

/-- `json.Unmarshal(proofRaw, &models.Proof{})`, verifier.go:117-122. -/
def parseProof : Json → Option Prf
  | .null => some ⟨"", "", "", "", "", "", "", "", "", "", ""⟩
  | .obj m => do
    let id ← strField m "id"
    let type ← strField m "type"
    let cs ← strField m "cryptosuite"
    let pp ← strField m "proofPurpose"
    let vm ← strField m "verificationMethod"
    let cr ← strField m "created"
    let ex ← strField m "expires"
    let dm ← strField m "domain"
    let ch ← strField m "challenge"
    let pv ← strField m "proofValue"
    let pr ← strField m "previousProof"
    some ⟨id, type, cs, pp, vm, cr, ex, dm, ch, pv, pr⟩
  | _ => none

/-- One member written by `json.Marshal` for a field tagged `omitempty`. -/
def optMember (k s : String) : JObj := if s = "" then [] else [(k, .str s)]

/-- `json.Marshal(proof)`, signer.go:123, with the tags of models.go:35-47. -/
def marshalProof (p : Prf) : JObj :=
  optMember "id" p.id ++ [("type", .str p.type)] ++ optMember "cryptosuite" p.cryptosuite ++
  [("proofPurpose", .str p.purpose), ("verificationMethod", .str p.vm)] ++
  optMember "created" p.created ++ optMember "expires" p.expires ++ optMember "domain" p.domain ++
  optMember "challenge" p.challenge ++ [("proofValue", .str p.value)] ++
  optMember "previousProof" p.previous

/-- `vmIDFragmentOnly`, signer.go:216-223. -/
def fragmentOnly (vmID : String) : String :=
  match VC.split '#' vmID with
  | [] => ""
  | [w] => w
  | _ :: f :: _ => f

/-- `getVM`, signer.go:206-214. -/
def getVM (frag : String) : List VM → Option VM
  | [] => none
  | v :: vs => if frag = fragmentOnly v.id then some v else getVM frag vs

/-- `getVMByPurpose`, signer.go:165-204. -/
def getVMByPurpose (purpose vmID : String) (d : DidDoc) : Option VM :=
  if purpose = "assertionMethod" then
    match getVM (fragmentOnly vmID) d.assertion with
    | some v => some v
    | none => getVM (fragmentOnly vmID) d.general
  else if purpose = "authentication" then getVM (fragmentOnly vmID) d.authentication
  else if purpose = "capabilityDelegation" then getVM (fragmentOnly vmID) d.delegation
  else if purpose = "capabilityInvocation" then getVM (fragmentOnly vmID) d.invocation
  else none

/-- `getDIDFromVerificationMethod`, signer.go:239-246. -/
def didOf (vmID : String) : Option String :=
  match VC.split '#' vmID with
  | [d, _] => some d
  | _ => none

/-- `getDIDDocFromVerificationMethod` and `getVMByPurpose`, signer.go:165-204, 225-237. -/
def lookupVM (resolve : String → Option DidDoc) (purpose vmID : String) : Option VM :=
  match didOf vmID with
  | none => none
  | some d =>
    match resolve d with
    | none => none
    | some doc => getVMByPurpose purpose vmID doc

variable (env : Env)

/-- Default of `VerificationMethodID`, signer.go:139-141. -/
def withVMID (o : Opts env.T) (vmID : String) : Opts env.T :=
  if o.vmID = "" then { o with vmID := vmID } else o

/-- `resolveVM`, signer.go:137-163. -/
def resolveVM (o : Opts env.T) (vmID : String) : Except Err (Opts env.T) :=
  match o.vm with
  | some _ => .ok o
  | none =>
    match env.resolver with
    | none => .error .noResolver
    | some r =>
      match lookupVM r o.purpose (withVMID env o vmID).vmID with
      | none => .error .vmResolution
      | some v => .ok { withVMID env o vmID with vm := some v }

/-! ## Suites -/

/-- `proofConfig`, ecdsa2019.go:402-428 and eddsa2022.go:309-340.  `suiteType` is the suite name
after defaulting (eddsa2022.go:310-313). -/
def proofConfig (ctx : Json) (suiteType : String) (o : Opts env.T) : JObj :=
  [("@context", ctx), ("type", .str "DataIntegrityProof"), ("cryptosuite", .str suiteType),
   ("verificationMethod", .str o.vmID), ("proofPurpose", .str o.purpose)] ++
  (if env.isZero o.created then [] else [("created", .str (env.fmtT o.created))]) ++
  (if env.isZero o.expires then [] else [("expires", .str (env.fmtT o.expires))]) ++
  (if o.challenge = "" then [] else [("challenge", .str o.challenge)]) ++
  (if o.domain = "" then [] else [("domain", .str o.domain)])

/-- `canonicalize` twice and `hashData`, ecdsa2019.go:333-345, 377-400: the digest of the
configuration followed by the digest of the document. -/
def hashAll (h : HashAlg) (doc conf : JObj) : Option Bytes :=
  match env.canon h doc with
  | none => none
  | some cd =>
    match env.canon h conf with
    | none => none
    | some cc => some (env.hash h cc ++ env.hash h cd)

/-- Key selection of the ecdsa suite, ecdsa2019.go:264-326. -/
def ecdsaKey (v : VM) : Option (PubKey × HashAlg) :=
  match v.jwk with
  | some j =>
    if j.crv = "P-256" then some (⟨.p256, .inl j⟩, .sha256)
    else if j.crv = "P-384" then some (⟨.p384, .inl j⟩, .sha384)
    else none
  | none =>
    match v.value with
    | a :: b :: k :: ks =>
      if (a = 0x80 ∧ b = 0x24) ∨ (a = 0x12 ∧ b = 0x00) then
        some (⟨.p256, .inr (env.ecKey .p256 (k :: ks))⟩, .sha256)
      else if (a = 0x81 ∧ b = 0x24) ∨ (a = 0x12 ∧ b = 0x01) then
        some (⟨.p384, .inr (env.ecKey .p384 (k :: ks))⟩, .sha384)
      else none
    | _ => none

/-- Key selection of the eddsa suite, eddsa2022.go:227-238. -/
def eddsaKey (v : VM) : Option (PubKey × HashAlg) :=
  match v.jwk with
  | some j => some (⟨.ed25519, .inl j⟩, .sha256)
  | none =>
    match v.value with
    | [] => none
    | b :: bs => some (⟨.ed25519, .inr (b :: bs)⟩, .sha256)

/-- `transformAndHash` of the ecdsa suite, ecdsa2019.go:246-348: message and key.  A nil
`VerificationMethod` (impossible after `resolveVM`) is reported as an error. -/
def ecdsaTransform (doc : JObj) (o : Opts env.T) : Option (Bytes × PubKey) :=
  match o.vm with
  | none => none
  | some v =>
    match ecdsaKey env v with
    | none => none
    | some (pk, h) =>
      if o.proofType ≠ "DataIntegrityProof" then none
      else if o.suiteType ≠ "ecdsa-2019" ∧ o.suiteType ≠ "ecdsa-rdfc-2019" then none
      else (hashAll env h doc (proofConfig env (JObj.at doc "@context") o.suiteType o)).map (·, pk)

/-- `if opts.SuiteType == "" { opts.SuiteType = SuiteType }`, ecdsa2019.go:190-192, 247-249. -/
def ecdsaDefault (o : Opts env.T) : Opts env.T :=
  if o.suiteType = "" then { o with suiteType := "ecdsa-2019" } else o

/-- `transformAndHash` of the eddsa suite, eddsa2022.go:213-260.  The default of the suite name in
`proofConfig` (310-313) is unreachable: an empty suite name is refused at 242-245. -/
def eddsaTransform (doc : JObj) (o : Opts env.T) : Option (Bytes × PubKey) :=
  match o.vm with
  | none => none
  | some v =>
    match eddsaKey v with
    | none => none
    | some (pk, h) =>
      if o.proofType ≠ "DataIntegrityProof" then none
      else if o.suiteType ≠ "eddsa-rdfc-2022" ∧ o.suiteType ≠ "eddsa-2022" then none
      else (hashAll env h doc (proofConfig env (JObj.at doc "@context") o.suiteType o)).map (·, pk)

/-- Tail of `VerifyProof`, ecdsa2019.go:352-369, eddsa2022.go:264-281. -/
def verifySig (r : Option (Bytes × PubKey)) (p : Prf) : Bool :=
  match r with
  | none => false
  | some (msg, pk) =>
    match env.mbDecode p.value with
    | none => false
    | some sig => env.verify sig msg pk

/-- The key handed to `signerGetter`: `vmKey.JWK`. -/
def jwkOf (pk : PubKey) : Option Jwk :=
  match pk.key with
  | .inl j => some j
  | .inr _ => none

/-- Tail of `CreateProof`, ecdsa2019.go:199-226, eddsa2022.go:182-209. -/
def createFrom (r : Option (Bytes × PubKey)) (cryptosuite : String) (o : Opts env.T) : Option Prf :=
  match r with
  | none => none
  | some (msg, pk) =>
    match env.sign (jwkOf pk) msg with
    | none => none
    | some sig =>
      some { id := "", type := "DataIntegrityProof", cryptosuite := cryptosuite, purpose := o.purpose,
             vm := (o.vm.map VM.id).getD "", created := env.fmtT o.created,
             expires := if env.isZero o.expires then "" else env.fmtT o.expires,
             domain := o.domain, challenge := o.challenge, value := env.mbEncode sig, previous := "" }

/-- `suite.Suite`, suite/suite.go:25-48. -/
structure Suite where
  requiresCreated : Bool
  create : JObj → Opts env.T → Option Prf
  verify : JObj → Prf → Opts env.T → Bool

/-- The ecdsa-2019 suite, ecdsa2019.go:189-227, 352-375. -/
def ecdsaSuite : Suite env where
  requiresCreated := false
  create doc o := createFrom env (ecdsaTransform env doc (ecdsaDefault env o)) (ecdsaDefault env o).suiteType o
  verify doc p o := verifySig env (ecdsaTransform env doc (ecdsaDefault env o)) p

/-- The eddsa-2022 suite, eddsa2022.go:176-210, 264-287: `CryptoSuite` is always the first name. -/
def eddsaSuite : Suite env where
  requiresCreated := false
  create doc o := createFrom env (eddsaTransform env doc o) "eddsa-rdfc-2022" o
  verify doc p o := verifySig env (eddsaTransform env doc o) p

/-- `initializer.Type()`, ecdsa2019.go:137-139. -/
def ecdsaTypes : List String := ["ecdsa-2019", "ecdsa-rdfc-2019"]

/-- `initializer.Type()`, eddsa2022.go:131-133. -/
def eddsaTypes : List String := ["eddsa-rdfc-2022", "eddsa-2022"]

/-- The inner loop of `NewVerifier`/`NewSigner`, verifier.go:44-57, signer.go:58-71: a name already
registered is kept. -/
def register {S : Type} (s : S) : GoMap S → List String → GoMap S
  | m, [] => m
  | m, t :: ts => if (GoMap.get? m t).isSome then register s m ts else register s (GoMap.set m t s) ts

/-- `NewVerifier` / `NewSigner`, verifier.go:34-60, signer.go:48-74 (initialisers that fail are not
modelled). -/
def newSuites {S : Type} : GoMap S → List (List String × S) → GoMap S
  | m, [] => m
  | m, (ts, s) :: is => newSuites (register s m ts) is

/-! ## Verifier -/

/-- `opts.SuiteType` default, verifier.go:136-138. -/
def withSuite (o : Opts env.T) (p : Prf) : Opts env.T :=
  if o.suiteType = "" then { o with suiteType := p.cryptosuite } else o

/-- `opts.Created`, verifier.go:144-153. -/
def withCreated (o : Opts env.T) (p : Prf) : Except Err (Opts env.T) :=
  if env.isZero o.created ∧ p.created ≠ "" then
    match env.parseT p.created with
    | none => .error .malformed
    | some t => .ok { o with created := t }
  else .ok o

/-- `opts.Expires`, verifier.go:155-168. -/
def withExpires (o : Opts env.T) (p : Prf) : Except Err (Opts env.T) :=
  if p.expires ≠ "" then
    match env.parseT p.expires with
    | none => .error .malformed
    | some t => if env.past t then .error .outOfDate else .ok { o with expires := t }
  else .ok o

/-- The checks after the suite ran, verifier.go:181-190. -/
def postChecks (s : Suite env) (doc : JObj) (p : Prf) (o : Opts env.T) : Except Err Unit :=
  if o.domain ≠ "" ∧ o.domain ≠ p.domain then .error .domain
  else if o.challenge ≠ "" ∧ o.challenge ≠ p.challenge then .error .challenge
  else if s.verify doc p o then .ok () else .error .suite

/-- verifier.go:140-190, after the suite was chosen.  The options are shared by pointer, so every
outcome also returns them as mutated so far. -/
def verifyWithSuite (s : Suite env) (doc : JObj) (p : Prf) (o : Opts env.T) :
    Except Err Unit × Opts env.T :=
  if s.requiresCreated && p.created = "" then (.error .malformed, o)
  else match withCreated env o p with
  | .error e => (.error e, o)
  | .ok o1 =>
    match withExpires env o1 p with
    | .error e => (.error e, o1)
    | .ok o2 =>
      if p.purpose ≠ o2.purpose then (.error .purpose, o2)
      else match resolveVM env o2 p.vm with
      | .error e => (.error e, withVMID env o2 p.vm)
      | .ok o3 => (postChecks env s doc p o3, o3)

/-- `verifyProof`, verifier.go:112-190. -/
def verifyOne (suites : GoMap (Suite env)) (doc : JObj) (raw : Json) (o : Opts env.T) :
    Except Err Unit × Opts env.T :=
  match parseProof raw with
  | none => (.error .malformed, o)
  | some p =>
    if p.type = "" ∨ p.vm = "" ∨ p.purpose = "" then (.error .malformed, o)
    else if p.type ≠ "DataIntegrityProof" then (.error .wrongType, o)
    else match GoMap.get? suites p.cryptosuite with
    | none => (.error .unsupportedSuite, o)
    | some s => verifyWithSuite env s doc p (withSuite env o p)

/-- The loop of `VerifyProof`, verifier.go:103-107. -/
def verifyLoop (suites : GoMap (Suite env)) (doc : JObj) : List Json → Opts env.T →
    Except Err Unit × Opts env.T
  | [], o => (.ok (), o)
  | r :: rs, o =>
    match verifyOne env suites doc r o with
    | (.error e, o') => (.error e, o')
    | (.ok _, o') => verifyLoop suites doc rs o'

/-- `proofRaw.Array()` (gjson): `null` has no elements, a non-array is its own only element. -/
def proofArray : Json → List Json
  | .null => []
  | .arr l => l
  | j => [j]

/-- `Verifier.VerifyProof`, verifier.go:91-110. -/
def verifyProof (suites : GoMap (Suite env)) (doc : JObj) (o : Opts env.T) :
    Except Err Unit × Opts env.T :=
  match GoMap.get? doc "proof" with
  | none => (.error .missing, o)
  | some raw => verifyLoop env suites (GoMap.del doc "proof") (proofArray raw) o

/-! ## Signer -/

/-- The checks on a created proof, signer.go:107-121. -/
def createdOK (s : Suite env) (p : Prf) (o : Opts env.T) : Bool :=
  !(p.type = "" ∨ p.purpose = "" ∨ p.vm = "") && !(p.created = "" ∧ s.requiresCreated = true) &&
  !(o.domain ≠ "" ∧ o.domain ≠ p.domain) && !(o.challenge ≠ "" ∧ o.challenge ≠ p.challenge)

/-- `Signer.AddProof`, signer.go:90-135: the new document. -/
def addProof (suites : GoMap (Suite env)) (doc : JObj) (o : Opts env.T) : Except Err JObj :=
  match GoMap.get? suites o.suiteType with
  | none => .error .unsupportedSuite
  | some s =>
    match resolveVM env o "" with
    | .error e => .error e
    | .ok o1 =>
      match s.create doc o1 with
      | none => .error .generation
      | some p =>
        if createdOK env s p o1 then .ok (GoMap.set doc "proof" (.obj (marshalProof p)))
        else .error .generation

/-! ## Callers in the verifiable package -/

/-- The options `checkDataIntegrityProof` builds, verifiable/data_integrity_proof.go:131-146. -/
def freshOpts (purpose domain challenge : String) : Opts env.T where
  purpose := if purpose = "" then "assertionMethod" else purpose
  vmID := ""
  vm := none
  proofType := "DataIntegrityProof"
  suiteType := ""
  domain := domain
  challenge := challenge
  created := env.zeroT
  expires := env.zeroT

end VC.DI
