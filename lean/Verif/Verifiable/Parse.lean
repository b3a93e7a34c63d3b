import Verif.Cwt.Cbor
import Verif.Verifiable.JWTClaims
import Verif.Verifiable.DataURL
import Verif.SDJWT.Combined
import Verif.SDJWT.DiscloseModel
import Verif.JWT.Model
import Verif.DataIntegrity.Model
/-!
# verifiable: parsing a credential (model)

`ParseCredential`, `ParseCredentialJSON`, the three credential parsers, validation dispatch and
`checkProof`: verifiable/credential.go:1436-1709, 1952-2190, verifiable/credential_parser.go,
verifiable/embedded_proof.go, verifiable/lddocument/verifier.go, cwt/cwt.go:100-134,
cwt/wrappers.go, jwt/jwt.go:283-312.

Parameters (`PEnv`): JSON, base64url, hex and CBOR decoding, `jose.ParseJWS`, JSON schema and JSON-LD
validation, did-go's linked-data proof functions, the related-resource validator, and the
environments of the SD-JWT and data-integrity models.

Simplified: byte strings are strings; a nil JSON object is an empty one (every parse of it fails
because it has no type); the CBOR credential map is a JSON object; error texts are dropped, but an
error that `errors.Is` finds to be `errUnsupportedCredentialFormat` is kept apart, and run-time
panics are an outcome.  The related-resource validator is a function of the credential (its HTTP
client and cache are not part of this file).
-/

namespace VC.Vfy

open GoMap
open VC.Proof (Bytes CwtReq LdProof)

/-- The outcome of a parser. -/
inductive Res (α : Type _) where
  | ok : α → Res α
  /-- an error that wraps `errUnsupportedCredentialFormat` -/
  | unsupported : Res α
  | err : Res α
  | panic : Res α

namespace Res

/-- Sequencing: errors return early, panics unwind. -/
def bind {α β : Type _} : Res α → (α → Res β) → Res β
  | ok a, f => f a
  | unsupported, _ => unsupported
  | err, _ => err
  | panic, _ => panic

/-- An error-returning Go call. -/
def ofOption {α : Type _} : Option α → Res α
  | some a => ok a
  | none => err

/-- A Go call that may panic. -/
def ofOut {α : Type _} : Out α → Res α
  | .ok a => ok a
  | .err => err
  | .panic => panic

/-- A check: nil error or an error. -/
def check : Bool → Res Unit
  | true => ok ()
  | false => err

end Res

/-- `cose.Sign1Message`: what the code reads of the protected headers, the payload and the
signature. -/
structure Sign1 where
  /-- `Headers.Protected.Algorithm()` (`none`: an error) -/
  alg : Option Int
  /-- the `COSE_Key` header if it is there and a string -/
  coseKey : Option String
  /-- the `kid` header (label 4) if it is a byte string, else "" -/
  kid : String
  /-- `Headers.MarshalProtected()`: the protected header as encoded (`none`: an error) -/
  prot : Option Bytes
  payload : Bytes
  signature : Bytes

/-- A parsed linked-data proof (did-go `proof.Proof`): its source and what `CheckLDProof` reads. -/
structure LdPrf where
  raw : JObj
  view : LdProof

/-- `JWTEnvelope`, credential.go:885-892 (the SD-JWT version is a constant). -/
structure JwtEnvelope where
  jwt : String
  headers : JObj
  disclosures : SDJWT.DMap
  holderBinding : String

/-- `CWTEnvelope`, credential.go:895-898. -/
structure CwtEnvelope where
  raw : String
  message : Sign1

/-- `Credential`, credential.go:873-882. -/
structure PCred (T : Type) where
  json : JObj
  contents : Contents T
  proofs : List JObj
  jwt : Option JwtEnvelope
  cwt : Option CwtEnvelope

/-- Library parameters. -/
structure PEnv extends JEnv where
  lib : JWT.Lib
  sd : SDJWT.Env
  di : DI.Env
  /-- iteration order of the disclosure map -/
  dOrder : SDJWT.DMap → List String
  /-- `json.Unmarshal` of bytes into a `map[string]interface{}` -/
  decodeObj : String → Option JObj
  /-- `isValidJSON`, jwt.go:302-312: base64url of a JSON object -/
  jsonPart : String → Bool
  /-- `json.Unmarshal` of a JWS payload as an object -/
  payloadObj : Bytes → Option JObj
  hexDecode : String → Option String
  /-- `cbor.Unmarshal` into a `cose.Sign1Message` -/
  parseCOSE : String → Option Sign1
  /-- the converted `vc` map of a CBOR payload, credential_parser.go:184-195 -/
  cwtVC : Bytes → Option JObj
  /-- `validateCredentialUsingJSONSchema` -/
  schemaOK : JObj → Contents T → Bool
  /-- `docjsonld.ValidateJSONLDMap` with the base context -/
  ldOK : JObj → String → Bool
  /-- `docjsonld.ValidateJSONLDTypes` -/
  ldTypesOK : JObj → String → Bool
  /-- did-go `proof.GetProofs` -/
  ldProofs : JObj → Option (List LdPrf)
  /-- did-go `proof.CreateVerifyData` -/
  verifyData : JObj → LdPrf → Option Bytes
  /-- `getProofVerifyValue`, lddocument/verifier.go:98-107 -/
  verifyValue : LdPrf → Option Bytes
  /-- did-go `jsonld.AppendExternalContexts` -/
  appendCtx : Json → List String → Json
  /-- `DefaultRelatedResourceValidator.Validate` of one credential -/
  relOK : Contents T → Bool

/-- `vcModelValidationMode`, credential.go:617-656. -/
inductive Mode where
  | combined | jsonld | baseContext | baseContextExtended | other
  deriving DecidableEq

variable (env : PEnv)

/-- `credentialOpts`, credential.go:1108-1127 (the fields that decide parsing; those that only
configure validation libraries are inside `PEnv`). -/
structure ParseOpts where
  mode : Mode
  allowedContexts : List String
  allowedTypes : List String
  ldTypesCheck : Bool
  disableValidation : Bool
  disabledProofCheck : Bool
  disableRelRes : Bool
  externalContext : List String
  jwtChecker : Option JWT.ProofChecker
  cwtChecker : Option (CwtReq → String → Bytes → Bytes → Bool)
  ldChecker : Option (LdProof → String → Bytes → Bytes → Bool)
  diVerifier : Option (GoMap (DI.Suite env.di))
  diPurpose : String
  diDomain : String
  diChallenge : String

/-! ## Recognising the format -/

/-- `unQuote`, credential.go:1954-1964. -/
def unQuote (s : String) : String :=
  match s.toList with
  | '"' :: l => if l.getLast? = some '"' then String.ofList l.dropLast else s
  | _ => s

/-- `unwrapStringVC`, credential.go:1966-1978. -/
def unwrapStringVC (data : String) : String :=
  match env.decodeObj data with
  | none => unQuote data
  | some o =>
    match get? o "jwt" with
    | some (.str s) => if s ≠ "" then s else unQuote data
    | _ => unQuote data

/-- `IsJWS`, jwt.go:283-290. -/
def isJWS (s : String) : Bool :=
  match split '.' s with
  | [a, b, c] => env.jsonPart a && env.jsonPart b && c != ""
  | _ => false

/-- `IsJWTUnsecured`, jwt.go:293-300. -/
def isJWTUnsecured (s : String) : Bool :=
  match split '.' s with
  | [a, b, c] => env.jsonPart a && env.jsonPart b && c == ""
  | _ => false

/-- `jwsVCParseResult` of a JWS, credential.go:1980-1987. -/
structure JwsParts where
  isSDJWT : Bool
  jwt : String
  disclosures : List String
  holderBinding : String
  deriving DecidableEq

/-- The combined-format branch of `tryParseAsJWSVC`, credential.go:1998-2016. -/
def splitCombined (s : String) : JwsParts :=
  if (split SDJWT.sep s).getLastD "" = "" ∨ isJWS env ((split SDJWT.sep s).getLastD "") = true then
    ⟨true, (SDJWT.parsePresentation s).sdJWT, (SDJWT.parsePresentation s).disclosures,
      (SDJWT.parsePresentation s).holderVerification⟩
  else ⟨true, (SDJWT.parseIssuance s).sdJWT, (SDJWT.parseIssuance s).disclosures, ""⟩

/-- The parts of the string, credential.go:1990-2016. -/
def jwsParts (s : String) : JwsParts :=
  if SDJWT.sep ∈ s.toList then splitCombined env s else ⟨false, s, [], ""⟩

/-- `tryParseAsJWSVC`, credential.go:1989-2034 (`none`: not a JWS). -/
def tryParseAsJWS (s : String) : Option JwsParts :=
  if isJWS env (jwsParts env s).jwt then some (jwsParts env s) else none

/-! ## Opening the envelopes -/

/-- `decodeCredJWT`, credential_jwt.go:160-180, `unmarshalJWT` jws.go:42-52 (`jwt.Parse` without
decoding the claims map): headers and credential object. -/
def decodeCredJWT (s : String) : Res (JObj × JObj) :=
  match env.lib.parseJWS none s with
  | none => .err
  | some j =>
    if !JWT.checkHeaders env.lib j.headers then .err
    else match env.payloadObj j.payload with
    | none => .err
    | some p => (Res.ofOut (decodeCredPayload env.toJEnv p)).bind fun vc => .ok (j.headers, vc.getD [])

/-- The payload `validateDisclosures` checks, credential.go:1576-1586. -/
def disclosurePayload (o : JObj) : Option JObj :=
  match get? o "_sd_alg" with
  | some _ => some o
  | none =>
    match get? o "credentialSubject" with
    | some (.obj cs) =>
      match get? cs "_sd_alg" with
      | some a => some (set o "_sd_alg" a)
      | none => some o
    | _ => none

/-- `validateDisclosures`, credential.go:1563-1594. -/
def validateDisclosures (o : JObj) (ds : List String) : Bool :=
  if ds.isEmpty then true
  else match disclosurePayload o with
  | none => false
  | some p =>
    match SDJWT.verifyDisclosures env.sd ds p with
    | .ok _ => true
    | .error _ => false

/-- The name of a hash as the SD-JWT model uses it. -/
def hashName : Hash → String
  | .sha256 => "SHA-256"
  | .sha384 => "SHA-384"
  | .sha512 => "SHA-512"
  | .other _ => ""

/-- `parseDisclosures`, credential.go:1933-1948. -/
def parseDisclosures (ds : List String) (h : Option Hash) : Option SDJWT.DMap :=
  if ds.isEmpty then some []
  else match h with
  | none => none
  | some a =>
    match SDJWT.resolveDisclosureClaims env.sd (hashName a) ds env.dOrder with
    | .ok m => some m
    | .error _ => none

/-- `decodeLDVC`, credential.go:2098-2111, with `parseCredentialJSON` 1596-1606: raw bytes that are
not an object are an unsupported format. -/
def decodeLD (data vcStr : String) : Res JObj :=
  if isJWTUnsecured env vcStr then (decodeCredJWT env vcStr).bind fun r => .ok r.2
  else match env.decodeObj data with
  | none => .unsupported
  | some o => .ok o

/-! ## Validation -/

/-- `validateJSONLD`, credential.go:1672-1709. -/
def validateJSONLD (o : ParseOpts env) (json : JObj) (c : Contents env.T) : Bool :=
  match getBaseContext c.context with
  | none => false
  | some b => env.ldOK json b && (!o.ldTypesCheck || env.ldTypesOK json b)

/-- `validateBaseContext`, credential.go:1643-1653: indexing an empty list panics. -/
def validateBaseContext (o : ParseOpts env) (json : JObj) (c : Contents env.T) : Out Unit :=
  match c.types with
  | [] => .panic
  | [t] =>
    if t ≠ "VerifiableCredential" then .err
    else match c.context with
    | [] => .panic
    | [x] => if !o.allowedContexts.contains x then .err
             else if env.schemaOK json c then .ok () else .err
    | _ => .err
  | _ => .err

/-- `validateBaseContextWithExtendedValidation`, credential.go:1655-1670. -/
def validateExtended (o : ParseOpts env) (json : JObj) (c : Contents env.T) : Bool :=
  c.context.all (fun x => o.allowedContexts.contains x) &&
  c.types.all (fun t => o.allowedTypes.contains t) && env.schemaOK json c

/-- `validateCredential`, credential.go:1615-1641. -/
def validateCredential (o : ParseOpts env) (json : JObj) (c : Contents env.T) : Out Unit :=
  match o.mode with
  | .combined => if env.schemaOK json c && validateJSONLD env o json c then .ok () else .err
  | .jsonld => if validateJSONLD env o json c then .ok () else .err
  | .baseContext => validateBaseContext env o json c
  | .baseContextExtended => if validateExtended env o json c then .ok () else .err
  | .other => .err

/-! ## Parsers -/

/-- The JWS branch of the JSON parser, credential_parser.go:47-58. -/
def openJWS (p : JwsParts) : Res (JObj × JObj) :=
  (decodeCredJWT env p.jwt).bind fun r =>
  if validateDisclosures env r.2 p.disclosures then .ok r else .err

/-- The rest of the JSON parser, credential_parser.go:67-110: contents, proofs, validation (not for a
JWS), disclosures. -/
def finishJSON (o : ParseOpts env) (jws : Option (JwsParts × JObj)) (json : JObj) :
    Res (PCred env.T) :=
  match parseContents env.toCEnv (ofWire json) (jws.elim false (fun p => p.1.isSDJWT)) with
  | none => .err
  | some c =>
    match parseLDProof (GObj.at (ofWire json) "proof") with
    | none => .err
    | some ps =>
      (if jws.isNone && !o.disableValidation then Res.ofOut (validateCredential env o json c)
       else .ok ()).bind fun _ =>
      match jws with
      | none => .ok ⟨json, c, ps, none, none⟩
      | some (p, hs) =>
        match parseDisclosures env p.disclosures c.sdAlg with
        | none => .err
        | some dm => .ok ⟨json, c, ps, some ⟨p.jwt, hs, dm, p.holderBinding⟩, none⟩

/-- `CredentialJSONParser.Parse`, credential_parser.go:32-111. -/
def parseJSON (o : ParseOpts env) (data : String) : Res (PCred env.T) :=
  match tryParseAsJWS env (unwrapStringVC env data) with
  | some p => (openJWS env p).bind fun r => finishJSON env o (some (p, r.1)) r.2
  | none => (decodeLD env data (unwrapStringVC env data)).bind fun json => finishJSON env o none json

/-- Reading the COSE message, credential_parser.go:160-183: raw bytes, else (quoted) hex. -/
def openCOSE (data : String) : Res CwtEnvelope :=
  match env.parseCOSE data with
  | some m => .ok ⟨data, m⟩
  | none =>
    match env.hexDecode (unQuote data) with
    | none => .unsupported
    | some raw =>
      match env.parseCOSE raw with
      | none => .err
      | some m => .ok ⟨raw, m⟩

/-- `CredentialCBORParser.Parse`, credential_parser.go:156-217. -/
def parseCBOR (o : ParseOpts env) (data : String) : Res (PCred env.T) :=
  (openCOSE env data).bind fun e =>
  match env.cwtVC e.message.payload with
  | none => .err
  | some json =>
    match parseContents env.toCEnv (ofWire json) false with
    | none => .err
    | some c =>
      (if !o.disableValidation then Res.ofOut (validateCredential env o json c) else .ok ()).bind
        fun _ => .ok ⟨json, c, [], none, some e⟩

/-! ## Proof checking -/

/-- `cwt.CheckProof` and `Verifier.Verify`, cwt/cwt.go:100-134, cwt/wrappers.go: an empty expected
issuer is replaced by the DID part of the key id. -/
def cwtIssuer (expected kid : String) : String :=
  if expected = "" ∧ kid ≠ "" then (split '#' kid).headD "" else expected

/-- `cwt2.GetProofValue` of a message, verifiable/cwt/cwt.go:14-42, with `Verif.Cwt.Cbor`; the payload
of a message that was parsed as a credential is not nil. -/
def proofValue (m : Sign1) : Option Bytes :=
  match Cwt.getProofValue m.prot (some m.payload) with
  | .ok b => some b
  | _ => none

/-- The CWT branch of `checkProof`, credential.go:2061-2084. -/
def checkCWT (pc : CwtReq → String → Bytes → Bytes → Bool) (issuer : String) (m : Sign1) : Bool :=
  match proofValue m with
  | none => false
  | some msg =>
    match m.alg with
    | none => false
    | some a => pc ⟨m.kid, m.coseKey.getD "", a⟩ (cwtIssuer issuer m.kid) msg m.signature

/-- One round of the loop of `VerifyObject`, lddocument/verifier.go:65-96. -/
def checkLDOne (pc : LdProof → String → Bytes → Bytes → Bool) (issuer : Option String)
    (doc : JObj) (p : LdPrf) : Bool :=
  match env.verifyData doc p with
  | none => false
  | some msg =>
    match env.verifyValue p with
    | none => false
    | some sig =>
      match issuer with
      | some i => pc p.view i msg sig
      | none =>
        match p.view.publicKeyID with
        | none => false
        | some kid => pc p.view ((split '#' kid).headD "") msg sig

/-- `VerifyObject`, lddocument/verifier.go:54-96, called by `checkLinkedDataProof`. -/
def verifyObject (pc : LdProof → String → Bytes → Bytes → Bool) (issuer : Option String)
    (doc : JObj) : Bool :=
  match env.ldProofs doc with
  | none => false
  | some ps => ps.all (checkLDOne env pc issuer doc)

/-- The objects of an array, `none` if some element is not an object. -/
def objs : List Json → Option (List JObj)
  | [] => some []
  | .obj o :: l => (objs l).map (o :: ·)
  | _ :: _ => none

/-- `getProofs`, embedded_proof.go:90-111. -/
def getProofs : Json → Option (List JObj)
  | .obj o => some [o]
  | .arr l => objs l
  | _ => none

/-- `typeStr == models.DataIntegrityProof` on the first proof, embedded_proof.go:65-67. -/
def isDataIntegrity : List JObj → Bool
  | p :: _ =>
    match get? p "type" with
    | some (.str t) => t == "DataIntegrityProof"
    | _ => false
  | [] => false

/-- `checkDataIntegrityProof`, data_integrity_proof.go:131-146. -/
def checkDataIntegrity (o : ParseOpts env) (doc : JObj) : Bool :=
  match o.diVerifier with
  | none => false
  | some suites =>
    match (DI.verifyProof env.di suites doc
      (DI.freshOpts env.di o.diPurpose o.diDomain o.diChallenge)).1 with
    | .ok _ => true
    | .error _ => false

/-- The external contexts are written into the document that is checked,
embedded_proof.go:59-62. -/
def withExternal (o : ParseOpts env) (doc : JObj) : JObj :=
  if o.externalContext.isEmpty then doc
  else set doc "@context" (env.appendCtx (JObj.at doc "@context") o.externalContext)

/-- `checkEmbeddedProof`, embedded_proof.go:46-88: the document as it is afterwards, `none` for an
error. -/
def checkEmbedded (o : ParseOpts env) (issuer : Option String) (doc : JObj) : Option JObj :=
  match JObj.at doc "proof" with
  | .null => none
  | el =>
    match getProofs el with
    | none => none
    | some ps =>
      if isDataIntegrity ps then
        if checkDataIntegrity env o (withExternal env o doc) then some (withExternal env o doc) else none
      else match o.ldChecker with
      | none => none
      | some pc =>
        if verifyObject env pc issuer (withExternal env o doc) then some (withExternal env o doc)
        else none

/-- `checkProof`, credential.go:2041-2087: the credential as it is afterwards. -/
def checkProof (o : ParseOpts env) (vc : PCred env.T) : Option (PCred env.T) :=
  match vc.contents.issuer with
  | none => none
  | some i =>
    match vc.jwt with
    | some e =>
      match o.jwtChecker with
      | none => none
      | some pc =>
        match JWT.checkProof env.lib pc (some i.id) none e.jwt with
        | .ok _ => some vc
        | .error _ => none
    | none =>
      match vc.cwt with
      | some e =>
        match o.cwtChecker with
        | none => none
        | some pc => if checkCWT pc i.id e.message then some vc else none
      | none =>
        match checkEmbedded env o (some i.id) vc.json with
        | some j => some { vc with json := j }
        | none => none

/-- `parseCredential`, credential.go:1541-1561. -/
def parseWith (parser : ParseOpts env → String → Res (PCred env.T)) (o : ParseOpts env)
    (data : String) : Res (PCred env.T) :=
  (parser o data).bind fun vc =>
  (if o.disabledProofCheck then .ok vc else Res.ofOption (checkProof env o vc)).bind fun vc =>
  if o.disableRelRes || env.relOK vc.contents then .ok vc else .err

/-- `parseCredentialDataURL`, credential.go:1515-1539. -/
def parseCredDataURL (o : ParseOpts env) (url : String) : Res (PCred env.T) :=
  match parseDataURL url with
  | none => .err
  | some (m, _, d) =>
    if m = "application/vc-ld+jwt" ∨ m = "application/vc-ld+sd-jwt" then
      parseWith env (parseJSON env) o d
    else if m = "application/vc-ld+cose" then parseWith env (parseCBOR env) o d
    else .err

/-- `EnvelopedCredentialParser.Parse`, credential_parser.go:225-251. -/
def parseEnveloped (o : ParseOpts env) (data : String) : Res (PCred env.T) :=
  match env.decodeObj data with
  | none => .unsupported
  | some json =>
    match decodeType (GObj.at (ofWire json) "type") with
    | none => .unsupported
    | some ts =>
      if !ts.contains "EnvelopedVerifiableCredential" then .unsupported
      else match get? json "id" with
      | some (.str id) => parseCredDataURL env o id
      | _ => .err

/-- Go on to the next parser after an unsupported-format error, credential.go:1496-1509. -/
def orNext {α : Type _} : Res α → Res α → Res α
  | .unsupported, r => r
  | r, _ => r

/-- `ParseCredential`, credential.go:1485-1510. -/
def parseCredential (o : ParseOpts env) (data : String) : Res (PCred env.T) :=
  orNext (parseWith env (parseEnveloped env) o data)
    (orNext (parseWith env (parseJSON env) o data) (parseWith env (parseCBOR env) o data))

/-- `ParseCredentialJSON`, credential.go:1436-1480: no proof is checked unless the object is an
envelope. -/
def parseCredentialJSON (o : ParseOpts env) (json : JObj) : Res (PCred env.T) :=
  match decodeType (GObj.at (ofWire json) "type") with
  | none => .err
  | some ts =>
    if ts.contains "EnvelopedVerifiableCredential" then
      match get? json "id" with
      | some (.str id) => parseCredDataURL env o id
      | _ => .err
    else match parseLDProof (GObj.at (ofWire json) "proof") with
    | none => .err
    | some ps =>
      match parseContents env.toCEnv (ofWire json) false with
      | none => .err
      | some c =>
        (if !o.disableValidation then Res.ofOut (validateCredential env o json c) else .ok ()).bind
          fun _ => .ok ⟨json, c, ps, none, none⟩

end VC.Vfy
