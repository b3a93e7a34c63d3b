import Verif.JWT.Model
import Verif.SDJWT.Combined
import Verif.SDJWT.DiscloseModel
/-!
# SD-JWT verifier and holder parsing (model)

Models `sdjwt/verifier/verifier.go`, `keybidning.go`, `holderbidning.go`, the checks of
`sdjwt/common/verification.go` (VerifySigningAlg, VerifyJWT, VerifyTyp) and `Parse` of
`sdjwt/holder/holder.go`.  Parameters: the JWT library, disclosure decoding and hashing, the
cryptographic primitives, mapstructure decoding of the registered claims, JWK parsing, and the
clock readings.
-/

namespace VC.SDJWT

open VC.Proof (Bytes header)

/-- The registered time claims, in seconds (`jwt.Claims` of go-jose, filled by mapstructure with the
`JSONNumberToJwtNumericDate` hook, util/maphelpers). -/
structure Times where
  nbf : Option Int
  exp : Option Int
  iat : Option Int
  deriving Repr

/-- Libraries used by the verifier. -/
structure VLib where
  jwt : JWT.Lib
  env : Env
  prim : Proof.Prim
  /-- mapstructure decoding of a payload into `jwt.Claims`; `none` = error -/
  times : JObj → Option Times
  /-- mapstructure decoding into `keyBindingPayload`/`holderBindingPayload`: nonce and audience -/
  binding : JObj → Option (String × String)
  /-- `jwk.JWK.UnmarshalJSON` of the marshalled value -/
  jwk : Json → Option Proof.Jwk
  /-- `isValidJSON`, jwt.go:302-312 -/
  validJSON : String → Bool

/-- Errors (texts abstracted). -/
inductive VErr where
  | jwt (e : JWT.Err)
  | missingAlg | algNone | algNotAllowed
  | claims | notValidYet | expired | issuedInFuture
  | duplicates
  | disclosures (e : Err)
  | typ
  | holderRequired | cnf | jwk | holderProof | holderPayload | nonce | audience
  | keyBindingSupplied
  deriving DecidableEq, Repr

/-- `VerifySigningAlg`, verification.go:28-53. -/
def verifySigningAlg (headers : JObj) (algs : List String) : Except VErr Unit :=
  match header headers "alg" with
  | none => .error .missingAlg
  | some a =>
    if a = "none" then .error .algNone
    else if !algs.contains a then .error .algNotAllowed
    else .ok ()

/-- Nanoseconds per second. -/
def ns : Int := 1000000000

/-- `Before`/`After` of an optional claim: absent claims are not checked. -/
def failsWith (t : Option Int) (p : Int → Bool) : Bool :=
  match t with
  | none => false
  | some x => p (x * ns)

/-- `Claims.ValidateWithLeeway` of go-jose v3 with an empty `Expected` (time `now` and leeway in
nanoseconds). -/
def validateWithLeeway (now leeway : Int) (t : Times) : Except VErr Unit :=
  if failsWith t.nbf (fun x => now + leeway < x) then .error .notValidYet
  else if failsWith t.exp (fun x => now - leeway > x) then .error .expired
  else if failsWith t.iat (fun x => now + leeway < x) then .error .issuedInFuture
  else .ok ()

/-- `VerifyJWT`, verification.go:58-86. -/
def verifyJWT (lib : VLib) (now leeway : Int) (payload : JObj) : Except VErr Unit :=
  match lib.times payload with
  | none => .error .claims
  | some t => validateWithLeeway now leeway t

/-- `VerifyTyp`, verification.go:88-99. -/
def verifyTyp (headers : JObj) (expected : String) : Except VErr Unit :=
  match header headers "typ" with
  | none => .error .typ
  | some t => if t ≠ expected then .error .typ else .ok ()

/-- The scan of `checkForDuplicates`, verifier.go:243-261: some value was met before. -/
def hasDuplicate : List String → List String → Bool
  | _, [] => false
  | seen, v :: vs => seen.contains v || hasDuplicate (v :: seen) vs

/-- Options of `Parse`, verifier.go:30-143, and the two clock readings. -/
structure VOpts where
  pc : JWT.ProofChecker
  detached : Option Bytes
  issuerAlgs : List String
  holderAlgs : List String
  leeway : Int
  holderRequired : Bool
  expectedNonce : String
  expectedAud : String
  expectedTyp : String
  /-- `time.Now()` in the check of the issuer-signed JWT -/
  now : Int
  /-- `time.Now()` in the check of the holder's JWT -/
  nowHolder : Int

/-- The default algorithm list, verifier.go:163. -/
def defaultAlgs : List String := ["EdDSA", "RS256"]

/-- `validateIssuerSignedSDJWT`, verifier.go:211-241. -/
def validateIssuerSigned (lib : VLib) (o : VOpts) (sdjwt : String) (ds : List String) :
    Except VErr JWT.Token :=
  match JWT.parseAndCheckProof lib.jwt o.pc true o.detached sdjwt with
  | .error e => .error (.jwt e)
  | .ok (tok, _) =>
    match verifySigningAlg tok.headers o.issuerAlgs with
    | .error e => .error e
    | .ok _ =>
      match verifyJWT lib o.now o.leeway tok.payload with
      | .error e => .error e
      | .ok _ => if hasDuplicate [] ds then .error .duplicates else .ok tok

/-- `GetCNF`, common.go:297-312. -/
def getCNF (claims : JObj) : Option JObj :=
  match getKeyFromVC "cnf" claims with
  | some (.obj c) => some c
  | _ => none

/-- `getSignatureVerifier` and `getSignatureVerifierFromCNF`, verifier.go:263-306. -/
def holderChecker (lib : VLib) (claims : JObj) : Except VErr JWT.ProofChecker :=
  match getCNF claims with
  | none => .error .cnf
  | some cnf =>
    match GoMap.get? cnf "jwk" with
    | none => .error .jwk
    | some v =>
      match lib.jwk v with
      | none => .error .jwk
      | some k => .ok (JWT.ofEmbedded Proof.defaultJwt (Proof.holderVerifiers lib.prim)
          ⟨"JsonWebKey2020", [], some k⟩)

/-- `verifyKeyBindingJWT` and `verifyHolderBindingJWT` (identical bodies), keybidning.go:24-54,
holderbidning.go:24-55. -/
def verifyBinding (lib : VLib) (o : VOpts) (payload : JObj) : Except VErr Unit :=
  match lib.binding payload with
  | none => .error .holderPayload
  | some (nonce, aud) =>
    if o.expectedNonce ≠ "" ∧ o.expectedNonce ≠ nonce then .error .nonce
    else if o.expectedAud ≠ "" ∧ o.expectedAud ≠ aud then .error .audience
    else .ok ()

/-- `verifyHolderVerificationJWT`, verifier.go:364-390 (both versions run the same check). -/
def verifyHolderJWT (lib : VLib) (o : VOpts) (tok : JWT.Token) : Except VErr Unit :=
  match verifySigningAlg tok.headers o.holderAlgs with
  | .error e => .error e
  | .ok _ =>
    match verifyJWT lib o.nowHolder o.leeway tok.payload with
    | .error e => .error e
    | .ok _ => verifyBinding lib o tok.payload

/-- `runHolderVerification`, verifier.go:326-361. -/
def runHolderVerification (lib : VLib) (o : VOpts) (payload : JObj) (hv : String) :
    Except VErr Unit :=
  if o.holderRequired && hv == "" then .error .holderRequired
  else if hv = "" then .ok ()
  else
    match holderChecker lib payload with
    | .error e => .error e
    | .ok pc =>
      match JWT.parse lib.jwt none hv with
      | .error e => .error (.jwt e)
      | .ok (tok, _) =>
        match JWT.checkProof lib.jwt pc (some "") none hv with
        | .error _ => .error .holderProof
        | .ok _ => verifyHolderJWT lib o tok

/-- The optional `typ` check, verifier.go:187-192. -/
def checkExpectedTyp (o : VOpts) (headers : JObj) : Except VErr Unit :=
  if o.expectedTyp ≠ "" then verifyTyp headers o.expectedTyp else .ok ()

/-- `Parse`, verifier.go:162-209.  `order`: the iteration order of the Go map of disclosures. -/
def verifierParse (lib : VLib) (o : VOpts) (order : DMap → List String) (s : String) :
    Except VErr JObj :=
  let cfp := parsePresentation s
  match validateIssuerSigned lib o cfp.sdJWT cfp.disclosures with
  | .error e => .error e
  | .ok tok =>
    match verifyDisclosures lib.env cfp.disclosures tok.payload with
    | .error e => .error (.disclosures e)
    | .ok _ =>
      match checkExpectedTyp o tok.headers with
      | .error e => .error e
      | .ok _ =>
        match runHolderVerification lib o tok.payload cfp.holderVerification with
        | .error e => .error e
        | .ok _ =>
          match disclosedClaims lib.env cfp.disclosures tok.payload order with
          | .error e => .error (.disclosures e)
          | .ok c => .ok c

/-! ## Holder -/

/-- Options of the holder's `Parse`, holder.go:30-90 (the default proof checker accepts
everything). -/
structure HOpts where
  pc : JWT.ProofChecker
  detached : Option Bytes
  v5 : Bool
  issuerAlgs : List String
  leeway : Int
  expectedTyp : String
  now : Int

/-- `Claim`, holder.go. -/
structure Claim where
  disclosure : String
  name : String
  value : Json

/-- `IsJWS || IsJWTUnsecured`, jwt.go:283-300. -/
def looksLikeJWT (lib : VLib) (s : String) : Bool :=
  match split '.' s with
  | [h, p, _] => lib.validJSON h && lib.validJSON p
  | _ => false

/-- `applySDJWTV5Validation`, holder.go:169-206. -/
def applyV5 (lib : VLib) (o : HOpts) (tok : JWT.Token) (ds : List String) : Except VErr Unit :=
  if looksLikeJWT lib (ds.getLast?.getD "") then .error .keyBindingSupplied
  else
    match (if o.expectedTyp ≠ "" then verifyTyp tok.headers o.expectedTyp else .ok ()) with
    | .error e => .error e
    | .ok _ =>
      match verifySigningAlg tok.headers o.issuerAlgs with
      | .error e => .error e
      | .ok _ => verifyJWT lib o.now o.leeway tok.payload

/-- `Parse`, holder.go:106-143, with `getClaims` 145-165. -/
def holderParse (lib : VLib) (o : HOpts) (order : DMap → List String) (s : String) :
    Except VErr (List Claim) :=
  let cfi := parseIssuance s
  match JWT.parseAndCheckProof lib.jwt o.pc true o.detached cfi.sdJWT with
  | .error e => .error (.jwt e)
  | .ok (tok, _) =>
    match (if o.v5 then applyV5 lib o tok cfi.disclosures else .ok ()) with
    | .error e => .error e
    | .ok _ =>
      match verifyDisclosures lib.env cfi.disclosures tok.payload with
      | .error e => .error (.disclosures e)
      | .ok _ =>
        match getHashAlg lib.env tok.payload with
        | none => .error (.disclosures .sdAlg)
        | some alg =>
          match resolveDisclosureClaims lib.env alg cfi.disclosures order with
          | .error e => .error (.disclosures e)
          | .ok D => .ok (D.map (fun p => ⟨p.2.disclosure, p.2.name, p.2.value⟩))

end VC.SDJWT
