import Verif.Cwt.CborProps
import Verif.Cwt.ConvertProps
import Verif.Verifiable.PresMarshalMain
import Verif.LDP.Examples
/-!
# CWT credentials and presentations (model)

`marshalCOSE` (verifiable/cose.go:21-66), `newCWTCredClaims` (verifiable/credential_cwt.go:26-58),
`CreateSignedCOSEVC` (verifiable/credential.go:2390-2416), `CreateCWTVP`
(verifiable/presentation_cwt.go:44-80), the reading of the payload in `CredentialCBORParser.Parse`
(verifiable/credential_parser.go:184-195) and `PresentationCWTParser.parse`
(verifiable/presentation_parser.go:144-154), and `ParseAndCheckProof`, `CheckProof` of package cwt
(cwt/cwt.go:30-134, cwt/wrappers.go).

Parameters: the CBOR codec for whole payloads and messages, go-cose's protected header encoding.
-/

namespace VC.Cwt

open GoMap (get?)
open VC.Vfy (Out Sign1 JEnv PEnv VEnv GObj Cred Contents wireObj CwtEnvelope VpCwt Pres PCred CredClaims)
open VC.Proof (Bytes CwtReq)

/-- The library functions used. -/
structure Lib where
  /-- `fmt.Sprintf("%v", ·)` -/
  sprint : Cv → String
  ord : Order
  /-- `cbor.Marshal` of claims, given as the map they are written as -/
  encode : List (Cv × Cv) → Option Bytes
  /-- `cbor.Unmarshal` into a `map[interface{}]interface{}` -/
  decode : Bytes → Option (List (Cv × Cv))
  /-- `MarshalProtected` of the header `{alg: a, kid: []byte(k)}` -/
  encodeProtected : Int → String → Option Bytes
  /-- `cbor.Marshal` of a message -/
  encodeMsg : Sign1 → Option String

variable (lib : Lib)

/-- A string key. -/
def isStrKey : Cv → Bool
  | .str _ => true
  | _ => false

/-- An integer key. -/
def isIntKey : Cv → Bool
  | .int _ => true
  | _ => false

/-- `m[k]` for a string key of a decoded map. -/
def strMember : List (Cv × Cv) → String → Option Cv
  | [], _ => none
  | (.str k', v) :: m, k => if k' = k then some v else strMember m k
  | _ :: m, k => strMember m k

/-- `m[n]` for an integer key of a decoded map. -/
def intMember : List (Cv × Cv) → Int → Option Cv
  | [], _ => none
  | (.int k', v) :: m, k => if k' = k then some v else intMember m k
  | _ :: m, k => intMember m k

/-- The `vc` claim, credential_parser.go:184-195: the payload must have string keys only
(`map[string]interface{}`) and `vc` must be a map; the result is its JSON view.  Simplified: a claim
that holds a byte string or another value without JSON counterpart has no view. -/
def vcClaim (payload : Bytes) : Option JObj :=
  match lib.decode payload with
  | none => none
  | some m =>
    if m.all (fun e => isStrKey e.1) then
      match strMember m "vc" with
      | some (.imap l) => toJsonM (convertToStringMap lib.sprint lib.ord l)
      | _ => none
    else none

/-- The converted payload of a presentation, presentation_parser.go:144-149: any keys. -/
def vpMap (payload : Bytes) : Option JObj :=
  match lib.decode payload with
  | none => none
  | some m => toJsonM (convertToStringMap lib.sprint lib.ord m)

/-! ## Creating -/

/-- The message before signing, cose.go:32-43: algorithm and key id in the protected header, no
COSE_Key. -/
def unsigned (alg : Int) (keyID : String) (payload : Bytes) : Sign1 :=
  ⟨some alg, none, keyID, lib.encodeProtected alg keyID, payload, []⟩

/-- `marshalCOSE`, cose.go:21-66. -/
def marshalCOSE (sign : String → Int → Bytes → Option Bytes) (claims : List (Cv × Cv)) (alg : Int)
    (keyID : String) : Option (String × Sign1) :=
  match lib.encode claims with
  | none => none
  | some payload =>
    match Vfy.proofValue (unsigned lib alg keyID payload) with
    | none => none
    | some data =>
      match sign keyID alg data with
      | none => none
      | some sig =>
        match lib.encodeMsg { unsigned lib alg keyID payload with signature := sig } with
        | none => none
        | some raw => some (raw, { unsigned lib alg keyID payload with signature := sig })

/-- A string claim with `omitempty`. -/
def strEntry (k s : String) : List (Cv × Cv) := if s = "" then [] else [(.str k, .str s)]

/-- A date claim with `omitempty`; a `NumericDate` is an `int64`. -/
def dateEntry (k : String) (n : Option Int) : List (Cv × Cv) :=
  match n with
  | none => []
  | some n => [(.str k, .int n)]

/-- A map claim with `omitempty`. -/
def mapEntry (k : String) (m : JObj) : List (Cv × Cv) :=
  if m.isEmpty then [] else [(.str k, .imap (ofJsonM m))]

/-- `CWTCredClaims`, credential_jwt.go:40-55, with the members it is written with: `jti` is not
(`json:"-"`), `aud` and `cti` are never set. -/
structure CwtClaims where
  iss : String
  sub : String
  exp : Option Int
  nbf : Option Int
  iat : Option Int
  vc : JObj

/-- The map the claims are written as. -/
def CwtClaims.entries (c : CwtClaims) : List (Cv × Cv) :=
  strEntry "iss" c.iss ++ strEntry "sub" c.sub ++ dateEntry "exp" c.exp ++ dateEntry "nbf" c.nbf ++
  dateEntry "iat" c.iat ++ mapEntry "vc" c.vc

section Credential
variable (env : JEnv)

/-- `newCWTCredClaims`, credential_cwt.go:26-58: the issuer and the issue date are read through
pointers that may be nil (lines 36-37; the test of line 46 comes too late). -/
def newCWTCredClaims (vc : Cred env.T) : Out CwtClaims :=
  match Vfy.subjectID vc.contents.subject with
  | none => .err
  | some sub =>
    match vc.contents.issuer with
    | none => .panic
    | some i =>
      match vc.contents.issued with
      | none => .panic
      | some w =>
        .ok ⟨i.id, sub, Vfy.dateClaim env vc.contents.expired, Vfy.numericDate env w.t,
          Vfy.numericDate env w.t, wireObj vc.json⟩

/-- The credential `CreateSignedCOSEVC` returns. -/
structure CoseCred (T : Type) where
  json : GObj
  contents : Contents T
  proofs : List JObj
  cwt : CwtEnvelope

/-- `CreateSignedCOSEVC`, credential.go:2390-2416. -/
def createSignedCOSE (sign : String → Int → Bytes → Option Bytes) (alg : Int) (keyID : String)
    (vc : Cred env.T) : Out (CoseCred env.T) :=
  (newCWTCredClaims env vc).bind fun c =>
  match marshalCOSE lib sign c.entries alg keyID with
  | none => .err
  | some (raw, m) => .ok ⟨vc.json, vc.contents, vc.proofs, ⟨raw, m⟩⟩

end Credential

/-- The claims of a presentation as a map, presentation_cwt.go:31-34 and jwt/jwt.go: only issuer,
audience and id are ever set. -/
def presEntries (c : CredClaims) : List (Cv × Cv) :=
  (c.claims.elim [] fun k => strEntry "iss" k.iss ++
    (if k.aud.isEmpty then [] else [(.str "aud", .arr (k.aud.map .str))]) ++ strEntry "jti" k.jti) ++
  mapEntry "vp" (c.vc.getD [])

/-- `CreateCWTVP`, presentation_cwt.go:44-80. -/
def createCWTVP {T : Type} (u : PCred T → Option Json) (sign : String → Int → Bytes → Option Bytes)
    (alg : Int) (keyID : String) (vp : Pres T) (aud : List String) (minimize : Bool) :
    Option (Pres T) :=
  match Vfy.newPresClaims u vp aud minimize with
  | none => none
  | some c =>
    match marshalCOSE lib sign (presEntries c) alg keyID with
    | none => none
    | some (raw, m) =>
      match vpMap lib m.payload with
      | none => none
      | some vm => some { vp with cwt := some ⟨raw, m, vm⟩, jwt := "" }

/-! ## Package cwt -/

/-- `Verifier.Verify`, cwt/wrappers.go:23-46. -/
def verify (pc : CwtReq → String → Bytes → Bytes → Bool) (expected : Option String)
    (keyMaterial keyID : String) (alg : Int) (msg sig : Bytes) : Bool :=
  if expected.getD "" = "" ∧ keyID ≠ "" then pc ⟨keyID, keyMaterial, alg⟩ ((split '#' keyID).headD "") msg sig
  else pc ⟨keyID, keyMaterial, alg⟩ (expected.getD "") msg sig

/-- `CheckProof`, cwt/cwt.go:91-120. -/
def checkProof (pc : CwtReq → String → Bytes → Bytes → Bool) (expected : Option String) (m : Sign1)
    (msg sig : Bytes) : Bool :=
  match m.alg with
  | none => false
  | some a => verify pc expected (m.coseKey.getD "") m.kid a msg sig

/-- The issuer of the payload, cwt/cwt.go:43-59: a `map[int]interface{}` with the string claim 1. -/
def payloadIssuer (payload : Bytes) : Option String :=
  match lib.decode payload with
  | none => none
  | some m =>
    if m.all (fun e => isIntKey e.1) then
      match intMember m 1 with
      | some (.str s) => some s
      | _ => none
    else none

/-- The issuer to expect, cwt/cwt.go:41-60; the outer `none` is an error. -/
def expectedIssuer (checkIssuer : Bool) (payload : Bytes) : Option (Option String) :=
  if checkIssuer then (payloadIssuer lib payload).map some else some none

/-- `ParseAndCheckProof`, cwt/cwt.go:30-77; `parse` is `Sign1Message.UnmarshalCBOR`. -/
def parseAndCheckProof (parse : String → Option Sign1) (pc : CwtReq → String → Bytes → Bytes → Bool)
    (checkIssuer : Bool) (data : String) : Option (Sign1 × Bytes) :=
  match parse data with
  | none => none
  | some m =>
    match expectedIssuer lib checkIssuer m.payload with
    | none => none
    | some e =>
      if m.coseKey.isSome then
        match Vfy.proofValue m with
        | none => none
        | some msg => if checkProof pc e m msg m.signature then some (m, m.payload) else none
      else none

end VC.Cwt
