import Verif.Verifiable.Modified
import Verif.Base.Str
/-!
# verifiable: credential ↔ JWT claims (model)

`newJWTCredClaims`, `JWTCredClaims.UnmarshalJSON`, `ToSDJWTV5CredentialPayload`, `decodeCredJWT` and
`refineFromJWTClaims`, verifiable/credential_jwt.go.

A function that can crash the calling goroutine returns `Out.panic`: writing to a nil map and reading
through a nil pointer.

Simplified: JSON object keys match struct tags exactly (Go also matches them ignoring case); numbers
are exact rationals, so a `NumericDate` is the number cut to an integer; the JWT envelope (base64,
signature, headers) is not part of this file, see `Verif.JWT`.
-/

namespace VC.Vfy

open GoMap

/-- The outcome of a Go call: a value, an error, or a run-time panic. -/
inductive Out (α : Type _) where
  | ok : α → Out α
  | err : Out α
  | panic : Out α

namespace Out

/-- Sequencing: errors return early, panics unwind. -/
def bind {α β : Type _} : Out α → (α → Out β) → Out β
  | ok a, f => f a
  | err, _ => err
  | panic, _ => panic

/-- An error-returning Go call. -/
def ofOption {α : Type _} : Option α → Out α
  | some a => ok a
  | none => err

end Out

/-- `jwt.Claims` (jwt/jwt.go, a copy of go-jose's `jwt.Claims`).  Times are whole seconds. -/
structure Claims where
  iss : String
  sub : String
  aud : List String
  exp : Option Int
  nbf : Option Int
  iat : Option Int
  jti : String

/-- `JWTCredClaims`, credential_jwt.go:34-37: an embedded pointer and a map, each possibly nil. -/
structure CredClaims where
  claims : Option Claims
  vc : Option JObj

/-- `map[k] = v`: panics on a nil map. -/
def assign (m : Option JObj) (k : String) (v : Json) : Out (Option JObj) :=
  match m with
  | none => .panic
  | some o => .ok (some (set o k v))

/-! ## From a credential to claims -/

/-- What the conversions need from the libraries: `time.Time.IsZero` in addition to `CEnv`. -/
structure JEnv extends CEnv where
  /-- `t.IsZero()`. -/
  zeroT : T → Bool

variable (env : JEnv)

/-- `josejwt.NewNumericDate`: nil for the zero time, else whole seconds. -/
def numericDate (t : env.T) : Option Int := if env.zeroT t then none else some (env.unixT t)

/-- The dates of the claims, credential_jwt.go:119-126: absent without a date. -/
def dateClaim (w : Option (TW env.T)) : Option Int := w.bind (fun w => numericDate env w.t)

/-- The minimized credential object, credential_jwt.go:130-147: the dates and the id are deleted and
the issuer is written back without its id. -/
def minimizeVC (m : GObj) : Option GObj :=
  let m := del (del (del (del (del m "expirationDate") "issuanceDate") "validUntil") "validFrom") "id"
  match parseIssuer (GObj.at m "issuer") with
  | none => none
  | some none => some m
  | some (some i) => some (set m "issuer" (.json (serializeIssuer { i with id := "" })))

/-- `newJWTCredClaims`, credential_jwt.go:102-153.  The result is the claim set with the credential
object still in its in-memory form; a nil issuer is dereferenced at line 113. -/
def newJWTCredClaims (vc : Cred env.T) (minimize : Bool) : Out (Claims × GObj) :=
  match subjectID vc.contents.subject with
  | none => .err
  | some sub =>
    match vc.contents.issuer with
    | none => .panic
    | some i =>
      match (if minimize then minimizeVC vc.json else some vc.json) with
      | none => .err
      | some m =>
        .ok (⟨i.id, sub, [], dateClaim env vc.contents.expired, dateClaim env vc.contents.issued,
              dateClaim env vc.contents.issued, vc.contents.id⟩, m)

/-- A string claim with `omitempty`. -/
def strClaim (k s : String) : JObj := if s = "" then [] else [(k, .str s)]

/-- A date claim with `omitempty`. -/
def dateField (k : String) (n : Option Int) : JObj :=
  match n with
  | none => []
  | some n => [(k, .num n)]

/-- `json.Marshal` of `jwt.Claims` (go-jose `jwt.Claims` tags, all `omitempty`). -/
def marshalClaims (c : Claims) : JObj :=
  strClaim "iss" c.iss ++ strClaim "sub" c.sub ++
  (if c.aud = [] then [] else [("aud", .arr (c.aud.map .str))]) ++
  dateField "exp" c.exp ++ dateField "nbf" c.nbf ++ dateField "iat" c.iat ++ strClaim "jti" c.jti

/-- `json.Marshal` of `JWTCredClaims` (credential_jwt.go:34-37): a nil embedded pointer contributes
nothing, an empty `vc` map is omitted. -/
def marshalCred (c : CredClaims) : JObj :=
  (match c.claims with
   | none => []
   | some r => marshalClaims r) ++
  (match c.vc with
   | none => []
   | some [] => []
   | some (p :: o) => [("vc", .obj (p :: o))])

/-- `ToSDJWTV5CredentialPayload`, credential_jwt.go:62-77: the credential's fields next to the
registered claims, which win. -/
def payloadV5 (c : Claims) (vc : JObj) : JObj :=
  JsonUtil.addCustomFields (marshalCred ⟨some c, none⟩) vc

/-! ## From a payload to claims -/

/-- A JSON string into a Go `string`: null leaves it empty. -/
def strOf : Json → Option String
  | .null => some ""
  | .str s => some s
  | _ => none

/-- go-jose `NumericDate.UnmarshalJSON` behind a pointer: null is nil, a number is cut to an
integer. -/
def dateOf : Json → Option (Option Int)
  | .null => some none
  | .num q => some (some (q.num.tdiv q.den))
  | _ => none

/-- go-jose `Audience.UnmarshalJSON`; an absent key leaves it empty, an explicit null is an error. -/
def audOf : Option Json → Option (List String)
  | none => some []
  | some (.str s) => some [s]
  | some (.arr l) => stringSlice l
  | some _ => none

/-- The names of the registered claims. -/
def registered : List String := ["iss", "sub", "aud", "exp", "nbf", "iat", "jti"]

/-- `json.Unmarshal` into the embedded `*jwt.Claims`: the pointer stays nil unless one of its fields
occurs in the document. -/
def decodeClaims (p : JObj) : Option (Option Claims) :=
  if p.any (fun e => registered.contains e.1) then do
    let iss ← strOf (JObj.at p "iss")
    let sub ← strOf (JObj.at p "sub")
    let aud ← audOf (get? p "aud")
    let exp ← dateOf (JObj.at p "exp")
    let nbf ← dateOf (JObj.at p "nbf")
    let iat ← dateOf (JObj.at p "iat")
    let jti ← strOf (JObj.at p "jti")
    return some ⟨iss, sub, aud, exp, nbf, iat, jti⟩
  else some none

/-- `json.Unmarshal` into the `vc` map. -/
def decodeVCField : Json → Option (Option JObj)
  | .null => some none
  | .obj o => some (some o)
  | _ => none

/-- `len(m) == 0` for a possibly nil map. -/
def emptyMap : Option JObj → Bool
  | none => true
  | some o => o.isEmpty

/-- `JWTCredClaims.UnmarshalJSON`, credential_jwt.go:81-98: without a `vc` claim all fields that are
not registered claims are the credential. -/
def unmarshalCred (p : JObj) : Option CredClaims :=
  match decodeClaims p, decodeVCField (JObj.at p "vc") with
  | some c, some v =>
    if !(JsonUtil.collectCustom (marshalCred ⟨c, v⟩) p []).isEmpty && emptyMap v then
      some ⟨c, some (JsonUtil.collectCustom (marshalCred ⟨c, v⟩) p [])⟩
    else some ⟨c, v⟩
  | _, _ => none

/-! ## Refining -/

/-- The issuer id in the `vc` claim, credential_jwt.go:234-246. -/
def vcIssuerID : Json → Option String
  | .str s => some s
  | .obj o => parseStringFld o "id"
  | _ => some ""

/-- The new issuer value, credential_jwt.go:252-257: an issuer of another type stays as it is. -/
def newIssuer (iss : String) : Json → Json
  | .str _ => .str iss
  | .obj o => .obj (set o "id" (.str iss))
  | v => v

/-- `refineVCIssuerFromJWTClaims`, credential_jwt.go:227-260.  Reading a nil map finds nothing. -/
def refineIssuer (vc : Option JObj) (iss : String) : Out (Option JObj) :=
  match get? (vc.getD []) "issuer" with
  | none => assign vc "issuer" (.str iss)
  | some v =>
    match vcIssuerID v with
    | none => .err
    | some id =>
      if hasPrefix iss "did:" && hasPrefix id "did:" && iss != id then .err
      else assign vc "issuer" (newIssuer iss v)

/-- Writing a date under the name that belongs to the data model version,
credential_jwt.go:193-200, 206-213, 215-222. -/
def refineDate (vc : Option JObj) (v2 v1 : String) : Option Int → Out (Option JObj)
  | none => .ok vc
  | some n =>
    if hasBaseContext (ofWire (vc.getD [])) v2ContextURI then assign vc v2 (.str (env.fmtUnix n))
    else assign vc v1 (.str (env.fmtUnix n))

/-- `refineFromJWTClaims`, credential_jwt.go:182-225. -/
def refine (c : CredClaims) : Out (Option JObj) :=
  match c.claims with
  | none => .panic
  | some r =>
    (if r.iss ≠ "" then refineIssuer c.vc r.iss else .ok c.vc).bind fun vc =>
    (refineDate env vc "validFrom" "issuanceDate" r.nbf).bind fun vc =>
    (if r.jti ≠ "" then assign vc "id" (.str r.jti) else .ok vc).bind fun vc =>
    (refineDate env vc "validFrom" "issuanceDate" r.iat).bind fun vc =>
    refineDate env vc "validUntil" "expirationDate" r.exp

/-- `decodeCredJWT` after the envelope is opened, credential_jwt.go:160-180: the credential object
that is marshalled (`none` is a nil map, i.e. `null`). -/
def decodeCredPayload (p : JObj) : Out (Option JObj) :=
  match unmarshalCred p with
  | none => .err
  | some c => refine env c

end VC.Vfy
