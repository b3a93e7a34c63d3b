import Verif.Verifiable.Parse
import Verif.Util.JsonUtil
/-!
# verifiable: parsing a presentation (model)

`ParsePresentation`, its three parsers, `newPresentation`, `decodeCredentials`, `validateHolder` and
`executeChecks`: verifiable/presentation.go, verifiable/presentation_parser.go,
verifiable/presentation_jwt.go, verifiable/presentation_jws.go, verifiable/presentation_jwt_unsecured.go.

Parameters (`VEnv`): those of credential parsing, decoding of a CBOR payload, the two presentation
schemas, JSON-LD validation and the related-resource validator.

Simplified: as in `Parse`; no presentation option sets external contexts, so there are none here; the
decoded bytes are kept as the object they decode to.
-/

namespace VC.Vfy

open GoMap
open VC.Proof (Bytes CwtReq LdProof)

/-- Library parameters of presentation parsing. -/
structure VEnv extends PEnv where
  /-- `cbor.Unmarshal` of a payload into a map and `convertToStringMap` -/
  cwtMap : Bytes → Option JObj
  /-- the v1 schema -/
  vpSchema1 : JObj → Bool
  /-- the v2 schema -/
  vpSchema2 : JObj → Bool
  /-- `docjsonld.ValidateJSONLDMap`, strict or not -/
  vpLdOK : Bool → JObj → Bool
  /-- `DefaultRelatedResourceValidator.Validate` -/
  relAllOK : List (Contents T) → Bool

/-- `CombinedProofChecker`, interfaces.go. -/
structure Combined where
  jwt : JWT.ProofChecker
  cwt : CwtReq → String → Bytes → Bytes → Bool
  ld : LdProof → String → Bytes → Bytes → Bool

variable (env : VEnv)

/-- `presentationOpts`, presentation.go:571-584. -/
structure VpOpts where
  checker : Option Combined
  disabledProofCheck : Bool
  strict : Bool
  requireVC : Bool
  requireProof : Bool
  disableJSONLD : Bool
  checkHolder : Bool
  checkRelRes : Bool
  diVerifier : Option (GoMap (DI.Suite env.di))
  diPurpose : String
  diDomain : String
  diChallenge : String

/-- The options for an enclosed credential, presentation.go:896-914 on the defaults of
credential.go:2130-2134: all three checkers, no data integrity verifier, validation as said. -/
def credOpts (o : VpOpts env) (noValidation : Bool) : ParseOpts env.toPEnv where
  mode := .combined
  allowedContexts := []
  allowedTypes := []
  ldTypesCheck := false
  disableValidation := noValidation
  disabledProofCheck := o.disabledProofCheck
  disableRelRes := false
  externalContext := []
  jwtChecker := o.checker.map (·.jwt)
  cwtChecker := o.checker.map (·.cwt)
  ldChecker := o.checker.map (·.ld)
  diVerifier := none
  diPurpose := ""
  diDomain := ""
  diChallenge := ""

/-- `embeddedProofCheckOpts` of the presentation itself, presentation_parser.go:65-70. -/
def ownOpts (o : VpOpts env) : ParseOpts env.toPEnv :=
  { credOpts env o false with
    diVerifier := o.diVerifier, diPurpose := o.diPurpose, diDomain := o.diDomain,
    diChallenge := o.diChallenge }

/-- `VpCWT`, presentation_parser.go:110-114. -/
structure VpCwt where
  raw : String
  message : Sign1
  vpMap : JObj

/-- `parsePresentationResponse`, presentation_parser.go:22-27. -/
structure VpParsed where
  raw : JObj
  jwt : String
  cwt : Option VpCwt

/-- `Presentation`, presentation.go:341-353. -/
structure Pres (T : Type) where
  context : List String
  customContext : List Json
  id : String
  types : List String
  credentials : List (PCred T)
  holder : String
  proofs : List JObj
  jwt : String
  cwt : Option VpCwt
  custom : JObj

/-! ## JWT presentations -/

/-- `json.Unmarshal` into `JWTPresClaims`, presentation_jwt.go:16-20: the registered claims (nil if
none occurs) and the `vp` map. -/
def unmarshalPres (p : JObj) : Option CredClaims :=
  match decodeClaims p, decodeVCField (JObj.at p "vp") with
  | some c, some v => some ⟨c, v⟩
  | _, _ => none

/-- `refineFromJWTClaims`, presentation_jwt.go:22-32: the issuer becomes the holder, the JWT id the
id; nil pointers and maps panic. -/
def refinePres (c : CredClaims) : Out (Option JObj) :=
  match c.claims with
  | none => .panic
  | some r =>
    (if r.iss ≠ "" then assign c.vc "holder" (.str r.iss) else .ok c.vc).bind fun vp =>
    if r.jti ≠ "" then assign vp "id" (.str r.jti) else .ok vp

/-- `decodePresJWT` on a payload, presentation_jwt.go:76-93. -/
def decodePresPayload (p : JObj) : Out JObj :=
  match unmarshalPres p with
  | none => .err
  | some c => (refinePres c).bind fun vp => .ok (vp.getD [])

/-- `decodeVPFromJWS`, presentation_jws.go:20-42 with `unmarshalJWT`, jws.go:42-52: the claims are
decoded, the proof is checked (if there is a checker), then the claims are applied. -/
def decodeVPFromJWS (pc : Option JWT.ProofChecker) (s : String) : Out JObj :=
  match env.lib.parseJWS none s with
  | none => .err
  | some j =>
    if !JWT.checkHeaders env.lib j.headers then .err
    else match env.payloadObj j.payload with
    | none => .err
    | some p =>
      match unmarshalPres p with
      | none => .err
      | some c =>
        match pc with
        | none => (refinePres c).bind fun vp => .ok (vp.getD [])
        | some k =>
          match JWT.checkProof env.lib k none none s with
          | .error _ => .err
          | .ok _ => (refinePres c).bind fun vp => .ok (vp.getD [])

/-- `decodeVPFromUnsecuredJWT`, presentation_jwt_unsecured.go:17-30 with `unmarshalUnsecuredJWT`,
jwt_unsecured.go:26-33. -/
def decodeVPFromUnsecured (s : String) : Out JObj :=
  match JWT.parse env.lib none s with
  | .error _ => .err
  | .ok (t, _) => decodePresPayload t.payload

/-! ## Parsers -/

/-- `checkEmbeddedProofBytes`, embedded_proof.go:29-43, on the decoded document: the `jwt` member is
left out, no issuer is expected. -/
def checkOwnProof (o : VpOpts env) (doc : JObj) : Bool :=
  o.disabledProofCheck || (checkEmbedded env.toPEnv (ownOpts env o) none (del doc "jwt")).isSome

/-- `vpRaw[vpFldProof] == nil`, presentation_parser.go:101. -/
def proofMissing (raw : JObj) : Bool :=
  match JObj.at raw "proof" with
  | .null => true
  | _ => false

/-- The JWS branch, presentation_parser.go:43-63. -/
def parsePresJWS (o : VpOpts env) (s : String) : Out VpParsed :=
  if !o.disabledProofCheck && o.checker.isNone then .err
  else (decodeVPFromJWS env (if o.disabledProofCheck then none else o.checker.map (·.jwt)) s).bind
    fun raw => .ok ⟨raw, s, none⟩

/-- `PresentationJSONParser.parse`, presentation_parser.go:40-110. -/
def parsePresJSON (o : VpOpts env) (data : String) : Out VpParsed :=
  if isJWS env.toPEnv (unQuote data) then parsePresJWS env o (unQuote data)
  else if isJWTUnsecured env.toPEnv (unQuote data) then
    (decodeVPFromUnsecured env (unQuote data)).bind fun raw =>
    if checkOwnProof env o raw then .ok ⟨raw, "", none⟩ else .err
  else match env.decodeObj data with
  | none => .err
  | some raw =>
    if !checkOwnProof env o raw then .err
    else if o.requireProof && proofMissing raw then .err
    else .ok ⟨raw, "", none⟩

/-- Reading the COSE message, presentation_parser.go:125-142: raw bytes, else (quoted) hex. -/
def openPresCOSE (data : String) : Option (String × Sign1) :=
  match env.parseCOSE data with
  | some m => some (data, m)
  | none =>
    match env.hexDecode (unQuote data) with
    | none => none
    | some raw => (env.parseCOSE raw).map fun m => (raw, m)

/-- `convertedMap["vp"].(map[string]interface{})`, presentation_parser.go:151-154: anything else is a
nil map. -/
def vpContent (m : JObj) : JObj :=
  match get? m "vp" with
  | some (.obj o) => o
  | _ => []

/-- `PresentationCWTParser.parse`, presentation_parser.go:122-166: no proof is checked. -/
def parsePresCWT (data : String) : Out VpParsed :=
  match openPresCOSE env data with
  | none => .err
  | some (raw, m) =>
    match env.cwtMap m.payload with
    | none => .err
    | some vm => .ok ⟨vpContent vm, "", some ⟨raw, m, vm⟩⟩

/-- `json.Unmarshal` into a `[]string`: null is nil, a null element is "". -/
def strElems : List Json → Option (List String)
  | [] => some []
  | j :: l => (strOf j).bind fun s => (strElems l).map (s :: ·)

/-- `json.Unmarshal` into a `[]string`. -/
def strList : Json → Option (List String)
  | .null => some []
  | .arr l => strElems l
  | _ => none

/-- `json.Unmarshal` into an `Envelope`, credential.go:902-906: id and types. -/
def decodeEnvelope (o : JObj) : Option (String × List String) :=
  match strOf (JObj.at o "id"), strList (JObj.at o "type"), strList (JObj.at o "@context") with
  | some i, some t, some _ => some (i, t)
  | _, _, _ => none

/-- The media types, presentation_parser.go:199-208. -/
def parsePresURL (o : VpOpts env) (url : String) : Out VpParsed :=
  match parseDataURL url with
  | none => .err
  | some (m, _, d) =>
    if m = "application/vp-ld+jwt" then parsePresJSON env o d
    else if m = "application/vp-ld+cose" then parsePresCWT env d
    else .err

/-- `presentationEnvelopedParser.parse`, presentation_parser.go:182-209. -/
def parsePresEnveloped (o : VpOpts env) (data : String) : Out VpParsed :=
  match env.decodeObj data with
  | none => .err
  | some doc =>
    match decodeEnvelope doc with
    | none => .err
    | some (i, ts) =>
      if !ts.contains "EnvelopedVerifiablePresentation" then .err else parsePresURL env o i

/-- Try the next parser after any error, presentation.go:678-692; a panic unwinds. -/
def orElseOut {α : Type _} : Out α → Out α → Out α
  | .err, r => r
  | r, _ => r

/-! ## Contents -/

/-- `validateVPJSONSchema`, presentation.go:972-1002. -/
def vpSchemaOK (raw : JObj) : Bool :=
  match get? raw "@context" with
  | none => false
  | some c =>
    match decodeContext (.json c) with
    | none => false
    | some (cs, _) =>
      match getBaseContext cs with
      | none => false
      | some b => if b = v1ContextURI then env.vpSchema1 raw else env.vpSchema2 raw

/-- `validateVP`, presentation.go:951-962. -/
def validateVP (o : VpOpts env) (raw : JObj) : Bool :=
  vpSchemaOK env raw && (o.disableJSONLD || env.vpLdOK o.strict raw)

/-- A credential parser's outcome inside a presentation. -/
def Res.toOut {α : Type _} : Res α → Out α
  | .ok a => .ok a
  | .panic => .panic
  | _ => .err

/-- `unmarshalSingleCredFn`, presentation.go:895-920. -/
def parseOneCred (o : VpOpts env) : Json → Out (PCred env.T)
  | .str s => (parseCredential env.toPEnv (credOpts env o false) s).toOut
  | .obj c => (parseCredentialJSON env.toPEnv (credOpts env o true) c).toOut
  | _ => .err

/-- The loop of `decodeCredentials`, presentation.go:930-937. -/
def parseCreds (o : VpOpts env) : List Json → Out (List (PCred env.T))
  | [] => .ok []
  | j :: l => (parseOneCred env o j).bind fun c => (parseCreds o l).bind fun cs => .ok (c :: cs)

/-- `decodeCredentials`, presentation.go:889-949. -/
def decodeCredentials (o : VpOpts env) : Json → Out (List (PCred env.T))
  | .null => .ok []
  | .arr l => parseCreds env o l
  | j => (parseOneCred env o j).bind fun c => .ok [c]

/-- `decodeHolder`, presentation.go:729-740. -/
def decodeHolder : Json → Option String
  | .null => some ""
  | .str s => some s
  | .obj o => parseStringFld o "id"
  | _ => none

/-! ## Holder check -/

/-- `fmt.Sprint(proof["verificationMethod"])`. -/
def vmText (sprint : Json → String) (p : JObj) : String := sprint (JObj.at p "verificationMethod")

/-- `strings.Split(verMethod, "#")[0]`. -/
def didPart (s : String) : String := (split '#' s).headD ""

/-- The controllers of the presentation's proofs, presentation.go:752-762. -/
def proofMethods (sprint : Json → String) (proofs : List JObj) : List String :=
  (proofs.filter (fun p => vmText sprint p != "")).map (fun p => didPart (vmText sprint p))

/-- The subject ids of the credentials, presentation.go:764-770. -/
def subjectIDs {T : Type} (creds : List (PCred T)) : List String :=
  creds.flatMap (fun c => c.contents.subject.map (·.id))

/-- `len(subjects) == 1` for the set of subject ids. -/
def oneSubject : List String → Bool
  | [] => false
  | s :: l => l.all (· == s)

/-- The issuer id of a credential, presentation.go:777-782. -/
def issuerID {T : Type} (c : PCred T) : String := (c.contents.issuer.map (·.id)).getD ""

/-- One proof of a credential, presentation.go:784-804. -/
def holderProofOK (sprint : Json → String) (methods : List String) (holder issuer : String)
    (p : JObj) : Bool :=
  if methods.contains (didPart (vmText sprint p)) then
    if holder = "" then false else holder == issuer
  else true

/-- `validateHolder`, presentation.go:743-806. -/
def validateHolder {T : Type} (sprint : Json → String) (proofs : List JObj) (creds : List (PCred T))
    (holder : String) : Bool :=
  if proofs.isEmpty then true
  else if !oneSubject (subjectIDs creds) then true
  else creds.all (fun c => c.proofs.all
    (holderProofOK sprint (proofMethods sprint proofs) holder (issuerID c)))

/-- `executeChecks`, presentation.go:808-827. -/
def executeChecks (o : VpOpts env) (proofs : List JObj) (creds : List (PCred env.T))
    (holder : String) : Bool :=
  (!o.checkHolder || validateHolder env.sprint proofs creds holder) &&
  (!o.checkRelRes || env.relAllOK (creds.map (·.contents)))

/-- The members of a presentation that are not custom fields, presentation.go:879-886. -/
def vpFields : List String := ["@context", "id", "type", "verifiableCredential", "holder", "proof"]

/-- The part of `newPresentation` after the credentials, presentation.go:845-888. -/
def finishPres (o : VpOpts env) (raw : JObj) (types : List String) (ctx : List String × List Json)
    (creds : List (PCred env.T)) : Out (Pres env.T) :=
  match parseLDProof (.json (JObj.at raw "proof")), parseStringFld raw "id",
    decodeHolder (JObj.at raw "holder") with
  | some ps, some i, some h =>
    if executeChecks env o ps creds h then
      .ok ⟨ctx.1, ctx.2, i, types, creds, h, ps, "", none, JsonUtil.copyExcept raw vpFields⟩
    else .err
  | _, _, _ => .err

/-- `newPresentation`, presentation.go:829-888. -/
def newPres (o : VpOpts env) (raw : JObj) : Out (Pres env.T) :=
  match decodeType (.json (JObj.at raw "type")) with
  | none => .err
  | some types =>
    match decodeContext (.json (JObj.at raw "@context")) with
    | none => .err
    | some ctx =>
      (decodeCredentials env o (JObj.at raw "verifiableCredential")).bind fun creds =>
      finishPres env o raw types ctx creds

/-- The parsers in turn, presentation.go:666-692. -/
def parsePresAny (o : VpOpts env) (data : String) : Out VpParsed :=
  orElseOut (parsePresEnveloped env o data)
    (orElseOut (parsePresJSON env o data) (parsePresCWT env data))

/-- `ParsePresentation`, presentation.go:663-717. -/
def parsePresentation (o : VpOpts env) (data : String) : Out (Pres env.T) :=
  (parsePresAny env o data).bind fun r =>
  if !validateVP env o r.raw then .err
  else (newPres env o r.raw).bind fun p =>
  if o.requireVC && p.credentials.isEmpty then .err
  else .ok { p with jwt := r.jwt, cwt := r.cwt }

end VC.Vfy
