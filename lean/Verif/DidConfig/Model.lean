import Verif.Verifiable.ParseMain
/-!
# didconfig: verifying a DID configuration (model)

`VerifyDIDAndDomain` and everything it calls in didconfig/verifier/didconfig.go.

Parameters (`DEnv`): those of the credential parser, `json.Marshal` of an object, did-go's
`did.Parse`, `net/url`.

Simplified: the DID resolver and the JSON-LD loader are inside the checker and the parser's
parameters; `NewDefaultProofChecker` is any checker `c`; logging is dropped.  Parsing a linked
credential can panic, and reading the issuer id of a credential without issuer panics.
-/

namespace VC.DidCfg

open GoMap
open VC.Vfy

/-- What `validateOrigin` reads of a parsed URL. -/
structure Url where
  scheme : String
  host : String
  port : String
  deriving DecidableEq

/-- Library parameters. -/
structure DEnv extends PEnv where
  /-- `json.Marshal` of a `map[string]interface{}` that came out of `json.Unmarshal` -/
  encObj : JObj → String
  /-- `diddoc.Parse` succeeds -/
  isDID : String → Bool
  /-- `url.Parse` with `Host`, `Scheme` and `Port()` -/
  parseURL : String → Option Url

/-- `defaults.NewDefaultProofChecker(vermethod.NewVDRResolver(...))`: its three entry points. -/
structure Checkers where
  jwt : JWT.ProofChecker
  cwt : Proof.CwtReq → String → Proof.Bytes → Proof.Bytes → Bool
  ld : Proof.LdProof → String → Proof.Bytes → Proof.Bytes → Bool

variable (env : DEnv)

/-- `getParseCredentialOptions(true, _)`, didconfig.go:439-455, over the defaults of
`getCredentialOpts` (credential.go:1110-1133): proof checking off. -/
def scanOpts : ParseOpts env.toPEnv where
  mode := .combined
  allowedContexts := []
  allowedTypes := []
  ldTypesCheck := false
  disableValidation := false
  disabledProofCheck := true
  disableRelRes := false
  externalContext := []
  jwtChecker := none
  cwtChecker := none
  ldChecker := none
  diVerifier := none
  diPurpose := ""
  diDomain := ""
  diChallenge := ""

/-- `getParseCredentialOptions(false, _)`, didconfig.go:439-455: the default proof checker. -/
def proofOpts (c : Checkers) : ParseOpts env.toPEnv where
  mode := .combined
  allowedContexts := []
  allowedTypes := []
  ldTypesCheck := false
  disableValidation := false
  disabledProofCheck := false
  disableRelRes := false
  externalContext := []
  jwtChecker := some c.jwt
  cwtChecker := some c.cwt
  ldChecker := some c.ld
  diVerifier := none
  diPurpose := ""
  diDomain := ""
  diChallenge := ""

/-! ## The document -/

/-- `contains`, didconfig.go:303-311. -/
def containsStr (v : String) : List String → Bool
  | [] => false
  | x :: l => if v = x then true else containsStr v l

/-- `verifyRequiredProperties`, didconfig.go:168-176. -/
def requiredOK (o : JObj) : List String → Bool
  | [] => true
  | k :: l => if (get? o k).isSome then requiredOK o l else false

/-- `verifyAllowedProperties`, didconfig.go:178-186. -/
def allowedOK (allowed : List String) : JObj → Bool
  | [] => true
  | (k, _) :: o => if containsStr k allowed then allowedOK allowed o else false

/-- `json.Unmarshal` of the member `@context` into a Go string, didconfig.go:83-86: absent or null
leaves it empty. -/
def contextOK : Json → Bool
  | .null => true
  | .str _ => true
  | _ => false

/-- `json.Unmarshal` of the member `linked_dids` into `[]interface{}`, didconfig.go:83-86. -/
def linkedOf : Json → Option (List Json)
  | .null => some []
  | .arr l => some l
  | _ => none

/-- `verifyDidConfigurationProperties` and the decoding of `rawDoc`, didconfig.go:83-105, 148-166. -/
def decodeConfig (data : String) : Option (List Json) :=
  match env.decodeObj data with
  | none => none
  | some o =>
    if !requiredOK o ["@context", "linked_dids"] then none
    else if !allowedOK ["@context", "linked_dids"] o then none
    else if !contextOK (JObj.at o "@context") then none
    else linkedOf (JObj.at o "linked_dids")

/-! ## Domain linkage rules -/

/-- `validateOrigin`, didconfig.go:363-383. -/
def originOK (a b : String) : Bool :=
  match env.parseURL a with
  | none => false
  | some u =>
    match env.parseURL b with
    | none => false
    | some v => !(u.host != v.host || u.scheme != v.scheme || u.port != v.port)

/-- `validateSubject`, didconfig.go:313-361; the list is not empty (didconfig.go:217-219: the parser
returns a nil slice for no subject). -/
def subjectOK (did origin : String) : List Subject → Bool
  | [s] =>
    if s.id = "" then false
    else if !env.isDID s.id then false
    else match get? s.custom "origin" with
    | some (.str o) => if s.id ≠ did then false else originOK env o origin
    | _ => false
  | _ => false

/-- `validateDomainLinkageCredential`, didconfig.go:200-222. -/
def linkageOK (did origin : String) (c : Contents env.T) : Bool :=
  if !containsStr "DomainLinkageCredential" c.types then false
  else if c.id ≠ "" then false
  else if c.issued.isNone then false
  else if c.expired.isNone then false
  else subjectOK env did origin c.subject

/-- The `typ` clause of `validateJWTHeader`, didconfig.go:259-262: a value that is no string counts
as absent. -/
def typOK (h : JObj) : Bool :=
  match Proof.header h "typ" with
  | some t => t == "JWT"
  | none => true

/-- `validateJWTHeader`, didconfig.go:247-272. -/
def headerOK (h : JObj) : Bool :=
  if (Proof.header h "alg").isNone then false
  else if (Proof.header h "kid").isNone then false
  else if !typOK h then false
  else allowedOK ["alg", "kid", "typ"] h

/-- `validateJWTClaims`, didconfig.go:286-301: the claims are made from the credential
(`vc.JWTClaims(false)`), not taken from the token. -/
def claimsOK (did : String) (vc : PCred env.T) : Out Bool :=
  match newJWTCredClaims env.toJEnv ⟨ofWire vc.json, vc.contents, vc.proofs, none, none⟩ false with
  | .panic => .panic
  | .err => .ok false
  | .ok (c, _) => .ok (c.iss == did && c.sub == did)

/-- `validateJWT` with `validateJWTPayload`, didconfig.go:224-245, 274-284. -/
def jwtOK (did origin : String) (vc : PCred env.T) (e : JwtEnvelope) : Out Bool :=
  match JWT.parse env.lib none e.jwt with
  | .error _ => .ok false
  | .ok (tok, _) =>
    if !headerOK tok.headers then .ok false
    else if !allowedOK ["exp", "iss", "nbf", "sub", "vc", "iat"] tok.payload then .ok false
    else (claimsOK env did vc).bind fun b =>
      .ok (b && linkageOK env did origin vc.contents)

/-- `isValidDomainLinkageCredential`, didconfig.go:188-198. -/
def validLinkage (did origin : String) (vc : PCred env.T) : Out Bool :=
  match vc.jwt with
  | some e => jwtOK env did origin vc e
  | none => .ok (linkageOK env did origin vc.contents)

/-! ## Searching -/

/-- The bytes of one linked DID, didconfig.go:397-409. -/
def linkedText : Json → Option String
  | .str s => some s
  | .obj o => some (env.encObj o)
  | _ => none

/-- One round of the loop of `getCredentials` after the bytes are known, didconfig.go:411-431:
whether the bytes are kept. -/
def keep (did domain : String) (text : String) : Out Bool :=
  match parseCredential env.toPEnv (scanOpts env) text with
  | .panic => .panic
  | .unsupported => .ok false
  | .err => .ok false
  | .ok vc =>
    match vc.contents.issuer with
    | none => .panic
    | some i => if i.id ≠ did then .ok false else validLinkage env did domain vc

/-- The loop of `getCredentials`, didconfig.go:392-431. -/
def collect (did domain : String) : List Json → Out (List String)
  | [] => .ok []
  | j :: l =>
    match linkedText env j with
    | none => .err
    | some t =>
      (keep env did domain t).bind fun b =>
      (collect did domain l).bind fun ts =>
      .ok (if b then t :: ts else ts)

/-- The second loop of `VerifyDIDAndDomain`, didconfig.go:115-131. -/
def checkAny (c : Checkers) : List String → Out Unit
  | [] => .err
  | t :: ts =>
    match parseCredential env.toPEnv (proofOpts env c) t with
    | .panic => .panic
    | .ok _ => .ok ()
    | .unsupported => checkAny c ts
    | .err => checkAny c ts

/-- `VerifyDIDAndDomain`, didconfig.go:90-133, with the emptiness check of `getCredentials`
(didconfig.go:433-435). -/
def verifyDIDAndDomain (c : Checkers) (data did domain : String) : Out Unit :=
  match decodeConfig env data with
  | none => .err
  | some l =>
    (collect env did domain l).bind fun ts =>
    if ts.isEmpty then .err else checkAny env c ts

end VC.DidCfg
