import Verif.Proof.Model
/-!
# JWT parsing and proof checking (model)

Models `jwt/jwt.go` (Parse, ParseAndCheckProof, CheckProof, CheckHeaders) and
`jwt/jose_wrappers.go` (joseVerifier).  kms-go's `jose.ParseJWS` is a parameter: it yields the
protected headers, payload, signing input and signature of a compact JWS; its `verifier.Verify`
call is modelled in `checkProof`.
-/

namespace VC.JWT

open VC.Proof (Bytes header)

/-- A parsed compact JWS. -/
structure Jws where
  headers : JObj
  payload : Bytes
  signingInput : Bytes
  signature : Bytes

/-- Libraries: `jose.ParseJWS` with an optional detached payload (including `IsCompactJWS`),
`PayloadToMap` on bytes (go-jose JSON, which rejects duplicate members), `strings.ToUpper`, and
gjson's `String()` on a JSON value. -/
structure Lib where
  parseJWS : Option Bytes → String → Option Jws
  payloadToMap : Bytes → Option JObj
  upper : String → String
  jsonString : Json → String

/-- Errors. -/
inductive Err where
  | parse | headers | payload | noIss | noKid | proof
  deriving DecidableEq, Repr

/-- `checkTypHeader`, jwt.go:335-359 (`true`: nil error). -/
def checkTyp (lib : Lib) : Json → Bool
  | .str t =>
    match split '+' t with
    | _ :: e :: _ => lib.upper e == "JWT" || lib.upper e == "SD-JWT"
    | _ => t == "JWT"
  | _ => false

/-- The `typ` clause of `CheckHeaders`, jwt.go:320-325. -/
def checkTypHdr (lib : Lib) (h : JObj) : Bool :=
  match GoMap.get? h "typ" with
  | some t => checkTyp lib t
  | none => true

/-- `CheckHeaders`, jwt.go:315-333 (`true`: nil error). -/
def checkHeaders (lib : Lib) (h : JObj) : Bool :=
  if (GoMap.get? h "alg").isNone then false
  else if !checkTypHdr lib h then false
  else match GoMap.get? h "cty" with
    | some (.str c) => c != "JWT"
    | _ => true

/-- `JSONWebToken`, jwt.go:89-95. -/
structure Token where
  headers : JObj
  payload : JObj

/-- `Parse`, jwt.go:98-110 with parseJWT 195-208, mapJWSToJWT 210-240 (default options: the payload map is
decoded). -/
def parse (lib : Lib) (detached : Option Bytes) (s : String) : Except Err (Token × Bytes) :=
  match lib.parseJWS detached s with
  | none => .error .parse
  | some j =>
    if !checkHeaders lib j.headers then .error .headers
    else match lib.payloadToMap j.payload with
      | none => .error .payload
      | some m => .ok (⟨j.headers, m⟩, j.payload)

/-- A `ProofChecker` as seen by the jwt package: headers, expected issuer, message, signature. -/
abbrev ProofChecker := JObj → String → Bytes → Bytes → Bool

/-- `joseVerifier.Verify`, jose_wrappers.go:52-69. -/
def joseVerify (pc : ProofChecker) (expected : Option String) (j : Jws) : Except Err Unit :=
  let go (iss : String) : Except Err Unit :=
    if pc j.headers iss j.signingInput j.signature then .ok () else .error .proof
  match expected with
  | some iss => go iss
  | none =>
    match header j.headers "kid" with
    | none => .error .noKid
    | some kid => go ((split '#' kid).headD "")

/-- `CheckProof`, jwt.go:151-163. -/
def checkProof (lib : Lib) (pc : ProofChecker) (expected : Option String) (detached : Option Bytes)
    (s : String) : Except Err Unit :=
  match lib.parseJWS detached s with
  | none => .error .parse
  | some j => joseVerify pc expected j

/-- `ParseAndCheckProof`, jwt.go:114-148.  `parsed.Get("iss")` (gjson) on the payload equals the
member of the decoded map because the decoder rejects duplicate members. -/
def parseAndCheckProof (lib : Lib) (pc : ProofChecker) (checkIssuer : Bool)
    (detached : Option Bytes) (s : String) : Except Err (Token × Bytes) :=
  match parse lib detached s with
  | .error e => .error e
  | .ok (tok, payload) =>
    let expected : Except Err (Option String) :=
      if checkIssuer then
        match GoMap.get? tok.payload "iss" with
        | none => .error .noIss
        | some v => .ok (some (lib.jsonString v))
      else .ok none
    match expected with
    | .error e => .error e
    | .ok exp =>
      match checkProof lib pc exp detached s with
      | .error e => .error e
      | .ok _ => .ok (tok, payload)

/-- `ProofChecker.CheckJWTProof` as a jwt proof checker. -/
def ofChecker (c : Proof.Checker) : ProofChecker := fun h iss msg sig =>
  match c.checkJWT h iss msg sig with
  | .ok _ => true
  | .error _ => false

/-- `EmbeddedVMProofChecker` as a jwt proof checker (the issuer is ignored). -/
def ofEmbedded (jwt : List Proof.JwtDesc) (vs : List Proof.SigVerifier) (vm : Proof.VM) :
    ProofChecker := fun h _ msg sig =>
  match Proof.checkEmbedded jwt vs vm h msg sig with
  | .ok _ => true
  | .error _ => false

end VC.JWT
