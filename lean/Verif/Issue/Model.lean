import Verif.Verifiable.PresMarshalMain
import Verif.JWT.Props
import Verif.LDP.Props
import Verif.LDP.Algo
/-!
# Issuing JWTs, JWT credentials and JWT presentations (model)

`NewSigned`, `NewUnsecured`, `NewJoseSigned`, `Serialize`, `LookupStringHeader` (jwt/jwt.go:76-86, 174-196,
243-280), `NewJOSESigner` (jwt/jose_wrappers.go:17-46), `marshalJWS` (verifiable/jws.go:17-40),
`marshalUnsecuredJWT` (verifiable/jwt_unsecured.go:16-23), `CreateSignedJWTVC`, `CreateUnsecuredJWTVC`
(verifiable/credential.go:2362-2387, 2417-2436) and `CreateJWTVP` (verifiable/presentation_jwt.go:96-118).

kms-go's `jose.NewJWS` and `SerializeCompact` are not in the repository; they are modelled after RFC 7515
(sections 3.1 and 5.1): the signature is over `b64(header) . b64(payload)` and the compact form appends
`. b64(signature)`; the given headers win over the signer's and `alg` has to be there.

Parameters: base64url, JSON encoding of a map, and the signer.

Simplified: claims are given as the JSON object they are marshalled to, so `PayloadToMap`
(jwt/jwt.go:362-399) is the identity.
-/

namespace VC.Iss

open GoMap (get?)
open VC.Vfy (Out JEnv Cred Contents GObj wireObj Pres PCred)
open VC.Proof (Bytes)
open VC.JWT (Jws)

/-- The library functions used. -/
structure JwsLib where
  /-- `base64.RawURLEncoding.EncodeToString` -/
  b64 : Bytes → String
  /-- `json.Marshal` of a map -/
  enc : JObj → Option Bytes
  /-- the bytes of a text -/
  utf8 : String → Bytes

/-- `SignParameters`, jwt/signer.go:14-18. -/
structure SignParams where
  keyID : String
  alg : String
  extra : JObj

/-- `ProofCreator`, jwt/signer.go:21-24: headers and signature for given parameters. -/
structure Signer where
  headers : SignParams → Option JObj
  sign : SignParams → Bytes → Option Bytes

/-- The library's own `ProofCreator`, proof/creator/creator.go:164-171, 184-194. -/
def ofCreator (c : LDP.Creator) : Signer where
  headers := fun p => some (LDP.jwtHeaders p.alg p.keyID)
  sign := fun p data => c.signJWT p.alg data

/-- `JSONWebToken`, jwt/jwt.go:88-95, with the encoded header the JWS is built from. -/
structure Tok where
  headers : JObj
  payload : JObj
  jws : Jws
  hdr : Bytes

variable (lib : JwsLib)

/-- The headers of the JWS: given ones win over the signer's. -/
def mergeHeaders (extra hs : JObj) : JObj :=
  extra ++ hs.filter (fun e => (get? extra e.1).isNone)

/-- The text that is signed. -/
def signingText (hdr payload : Bytes) : String := lib.b64 hdr ++ "." ++ lib.b64 payload

/-- `jose.NewJWS`: the encoded header and the JWS. -/
def newJWS (headers : JObj) (payload : Bytes) (sign : Bytes → Option Bytes) : Option (Bytes × Jws) :=
  match get? headers "alg" with
  | none => none
  | some _ =>
    match lib.enc headers with
    | none => none
    | some hdr =>
      match sign (lib.utf8 (signingText lib hdr payload)) with
      | none => none
      | some sig => some (hdr, ⟨headers, payload, lib.utf8 (signingText lib hdr payload), sig⟩)

/-- `NewJoseSigned`, jwt/jwt.go:257-280. -/
def newJoseSigned (claims extra hs : JObj) (sign : Bytes → Option Bytes) : Option Tok :=
  match lib.enc claims with
  | none => none
  | some payload =>
    match newJWS lib (mergeHeaders extra hs) payload sign with
    | none => none
    | some (hdr, jws) => some ⟨jws.headers, claims, jws, hdr⟩

/-- `NewSigned`, jwt/jwt.go:243-250 with `NewJOSESigner`, jose_wrappers.go:17-46. -/
def newSigned (claims : JObj) (p : SignParams) (s : Signer) : Option Tok :=
  match s.headers p with
  | none => none
  | some hs => newJoseSigned lib claims p.extra hs (s.sign p)

/-- `NewUnsecured`, jwt/jwt.go:253-255 with `unsecuredJWTSigner`, 76-86. -/
def newUnsecured (claims : JObj) : Option Tok :=
  newJoseSigned lib claims [] [("alg", .str "none")] (fun _ => some [])

/-- `Serialize`, jwt/jwt.go:187-194, with `SerializeCompact`. -/
def serialize (detached : Bool) (t : Tok) : String :=
  lib.b64 t.hdr ++ "." ++ (if detached then "" else lib.b64 t.jws.payload) ++ "." ++ lib.b64 t.jws.signature

/-- `LookupStringHeader`, jwt/jwt.go:176-184. -/
def lookupStringHeader (t : Tok) (name : String) : String :=
  match get? t.headers name with
  | some (.str s) => s
  | _ => ""

/-! ## Package verifiable -/

/-- `marshalJWS`, verifiable/jws.go:17-40: no additional headers. -/
def marshalJWS (s : Signer) (claims : JObj) (alg : LDP.JwsAlg) (kid : String) : Option (String × Tok) :=
  match alg.name with
  | none => none
  | some a =>
    match newSigned lib claims ⟨kid, a, []⟩ s with
    | none => none
    | some t => some (serialize lib false t, t)

/-- `marshalUnsecuredJWT`, verifiable/jwt_unsecured.go:16-23. -/
def marshalUnsecured (claims : JObj) : Option (String × Tok) :=
  (newUnsecured lib claims).map fun t => (serialize lib false t, t)

/-- The credential `CreateSignedJWTVC` and `CreateUnsecuredJWTVC` return: the envelope's headers are
unset for an unsecured JWT. -/
structure JwtCred (T : Type) where
  json : GObj
  contents : Contents T
  proofs : List JObj
  jwt : String
  headers : Option JObj

/-- `CreateSignedJWTVC`, credential.go:2362-2387. -/
def createSignedJWT (env : JEnv) (s : Signer) (min : Bool) (alg : LDP.JwsAlg) (kid : String)
    (vc : Cred env.T) : Out (JwtCred env.T) :=
  (Vfy.newJWTCredClaims env vc min).bind fun c =>
  match marshalJWS lib s (Vfy.marshalCred ⟨some c.1, some (wireObj c.2)⟩) alg kid with
  | none => .err
  | some (text, t) => .ok ⟨vc.toRawJSON, vc.contents, vc.proofs, text, some t.headers⟩

/-- `CreateUnsecuredJWTVC`, credential.go:2417-2436. -/
def createUnsecuredJWT (env : JEnv) (min : Bool) (vc : Cred env.T) : Out (JwtCred env.T) :=
  (Vfy.newJWTCredClaims env vc min).bind fun c =>
  match marshalUnsecured lib (Vfy.marshalCred ⟨some c.1, some (wireObj c.2)⟩) with
  | none => .err
  | some (text, _) => .ok ⟨vc.toRawJSON, vc.contents, vc.proofs, text, none⟩

/-- `CreateJWTVP`, presentation_jwt.go:96-118. -/
def createJWTVP {T : Type} (u : PCred T → Option Json) (s : Signer) (alg : LDP.JwsAlg) (kid : String)
    (vp : Pres T) (aud : List String) (min : Bool) : Option (Pres T) :=
  match Vfy.newPresClaims u vp aud min with
  | none => none
  | some c =>
    match marshalJWS lib s (Vfy.marshalPresClaims c) alg kid with
    | none => none
    | some (text, _) => some { vp with jwt := text, cwt := none }

end VC.Iss
