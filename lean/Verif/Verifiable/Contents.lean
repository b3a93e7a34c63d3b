import Verif.Verifiable.FieldsProps
/-!
# verifiable: credential contents (model)

`parseCredentialContents` (credential.go:1711-1817) and `serializeCredentialContents`
(credential.go:2456-2545), with `CreateCredential` (credential.go:1404-1433), `ToRawJSON`
(credential.go:933-942) and the `WithModified*` family (credential.go:2633-2828).

Parameters (`CEnv`): RFC 3339 parsing and printing of times, `strings.ToUpper`, `fmt.Sprint`.
Simplified: nil and empty slices are the same list; a nil `*TypedID` inside `Status` (which would
panic) does not occur; Go's aliasing of nested maps is not modelled, values are copied.
-/

namespace VC.Vfy

open GoMap

/-- Library functions the codec calls. -/
structure CEnv where
  /-- `time.Time`. -/
  T : Type
  /-- `time.Parse(time.RFC3339, s)`. -/
  parseT : String → Option T
  /-- `t.Format(time.RFC3339Nano)`. -/
  fmtT : T → String
  /-- `t.Unix()`. -/
  unixT : T → Int
  /-- `time.Unix(s, 0).UTC().Format(time.RFC3339)`. -/
  fmtUnix : Int → String
  /-- `strings.ToUpper`. -/
  upper : String → String
  /-- `fmt.Sprint` of a decoded JSON value. -/
  sprint : Json → String

variable (env : CEnv)

/-- `TimeWrapper`, util/time/time.go:18-21. -/
structure TW (T : Type) where
  t : T
  str : String

/-- `ParseTimeWrapper`, util/time/time.go:87-100, 121-130: the string, else the string with `Z`. -/
def parseTW (s : String) : Option (TW env.T) :=
  match env.parseT s with
  | some t => some ⟨t, s⟩
  | none => (env.parseT (s ++ "Z")).map (fun t => ⟨t, s⟩)

/-- `FormatToString`, util/time/time.go:105-111. -/
def fmtTW (w : TW env.T) : String := if w.str ≠ "" then w.str else env.fmtT w.t

/-- `parseStringFld` on a value of a credential object, common.go:352-366. -/
def parseStr : GVal → Option String
  | .json .null => some ""
  | .json (.str s) => some s
  | _ => none

/-- `parseTimeFld`, common.go:368-387. -/
def parseTime : GVal → Option (Option (TW env.T))
  | .json .null => some none
  | .json (.str s) => (parseTW env s).map some
  | _ => none

/-- The two-step reading of issuance and expiration dates, credential.go:1771-1793. -/
def parseTime2 (raw : GObj) (k k' : String) : Option (Option (TW env.T)) :=
  match parseTime env (GObj.at raw k) with
  | none => none
  | some (some w) => some (some w)
  | some none => parseTime env (GObj.at raw k')

/-- The hash algorithms of Go's `crypto` package that SD-JWT accepts, and the rest. -/
inductive Hash where
  | sha256 | sha384 | sha512
  | other (n : Nat)
  deriving DecidableEq

/-- `ParseCryptoHashAlg`, sdjwt/common/common.go:215-235. -/
def parseHashAlg (s : String) : Option Hash :=
  if env.upper s = "SHA-256" then some .sha256
  else if env.upper s = "SHA-384" then some .sha384
  else if env.upper s = "SHA-512" then some .sha512
  else none

/-- `FormatCryptoHashAlg`, sdjwt/common/common.go:238-249. -/
def formatHashAlg : Hash → Option String
  | .sha256 => some "sha-256"
  | .sha384 => some "sha-384"
  | .sha512 => some "sha-512"
  | .other _ => none

/-- `GetKeyFromVC`, sdjwt/common/common.go:273-294. -/
def getKeyFromVC (k : String) (claims : JObj) : Option Json :=
  match get? claims k with
  | some v => some v
  | none =>
    match get? claims "vc" with
    | some (.obj vc) => get? vc k
    | _ => none

/-- `GetCryptoHashFromClaims`, sdjwt/common/common.go:201-212 with `GetSDAlg` 252-270. -/
def hashFromClaims (claims : JObj) : Option Hash :=
  match getKeyFromVC "_sd_alg" claims with
  | some (.str s) => parseHashAlg env s
  | _ => none

/-- `parseSDAlgValue`, credential.go:1923-1931: without a value the first subject's custom fields
are searched, if it has any. -/
def parseSDAlgValue (s : String) (subjects : List Subject) : Option Hash :=
  match s == "", subjects with
  | true, ⟨_, p :: custom⟩ :: _ => hashFromClaims env (p :: custom)
  | _, _ => parseHashAlg env s

/-- `parseSDAlg`, credential.go:1905-1921. -/
def parseSDAlg (raw : GObj) (subjects : List Subject) (isSDJWT : Bool) : Option (Option Hash) :=
  if isSDJWT then
    match parseStr (GObj.at raw "_sd_alg") with
    | none => none
    | some s => (parseSDAlgValue env s subjects).map some
  else some none

/-- `CredentialContents`, credential.go:844-860. -/
structure Contents (T : Type) where
  context : List String
  customContext : List Json
  id : String
  types : List String
  subject : List Subject
  issuer : Option Issuer
  issued : Option (TW T)
  expired : Option (TW T)
  status : List TypedID
  schemas : List TypedID
  evidence : Json
  termsOfUse : List TypedID
  refreshService : Option TypedID
  sdAlg : Option Hash
  relRes : List RelRes

/-- `raw[jsonFldEvidence]`, credential.go:1811: any value; a typed slice stays what it prints as. -/
def evidenceOf (v : GVal) : Json := v.wire

/-- `parseCredentialContents`, credential.go:1711-1817, with `parseRefreshService` 1819-1830. -/
def parseContents (raw : GObj) (isSDJWT : Bool) : Option (Contents env.T) := do
  let schemas ← parseTypedID (GObj.at raw "credentialSchema")
  let types ← decodeType (GObj.at raw "type")
  let issuer ← parseIssuer (GObj.at raw "issuer")
  let ctx ← decodeContext (GObj.at raw "@context")
  let termsOfUse ← parseTypedID (GObj.at raw "termsOfUse")
  let refresh ← parseTypedID (GObj.at raw "refreshService")
  let relRes ← parseRelatedResources env.sprint (GObj.at raw "relatedResource")
  let subject ← parseSubject (GObj.at raw "credentialSubject")
  let sdAlg ← parseSDAlg env raw subject isSDJWT
  let id ← parseStr (GObj.at raw "id")
  let issued ← parseTime2 env raw "issuanceDate" "validFrom"
  let expired ← parseTime2 env raw "expirationDate" "validUntil"
  let status ← newTypedIDArray (GObj.at raw "credentialStatus")
  return { context := ctx.1, customContext := ctx.2, id, types, subject, issuer, issued, expired,
           status, schemas, evidence := evidenceOf (GObj.at raw "evidence"), termsOfUse,
           refreshService := refresh.head?, sdAlg, relRes }

/-- `vcJSON[k] = v` under a condition. -/
def setOpt (m : GObj) (k : String) : Option GVal → GObj
  | none => m
  | some v => set m k v

/-- The status value, credential.go:2481-2493. -/
def statusVal : List TypedID → Option GVal
  | [] => none
  | [s] => some (.json (.obj (serializeTypedIDObj s)))
  | ss => some (.objs (ss.map serializeTypedIDObj))

/-- A value that is stored only if the list is non-empty. -/
def ifNonempty {α : Type _} (l : List α) (v : GVal) : Option GVal :=
  if l.isEmpty then none else some v

/-- A date value. -/
def timeVal (w : Option (TW env.T)) : Option GVal :=
  w.map (fun w => .json (.str (fmtTW env w)))

/-- `serializeCredentialContents` up to the dates, credential.go:2457-2533. -/
def serializeBody (c : Contents env.T) (proofs : List JObj) : GObj :=
  let m := setOpt [] "@context"
    (ifNonempty (contextToRaw c.context c.customContext)
      (.json (.arr (contextToRaw c.context c.customContext))))
  let m := setOpt m "id" (if c.id = "" then none else some (.json (.str c.id)))
  let m := setOpt m "type" (ifNonempty c.types (.json (serializeTypes c.types)))
  let m := setOpt m "credentialSubject" (ifNonempty c.subject (serializeSubject c.subject))
  let m := setOpt m "proof" (ifNonempty proofs (.json (proofsToRaw proofs)))
  let m := setOpt m "credentialStatus" (statusVal c.status)
  let m := setOpt m "issuer" (c.issuer.map (fun i => .json (serializeIssuer i)))
  let m := setOpt m "credentialSchema" (ifNonempty c.schemas (typedIDsToRaw c.schemas))
  let m := setOpt m "evidence" (if c.evidence.isNull then none else some (.json c.evidence))
  let m := setOpt m "refreshService"
    (c.refreshService.map (fun r => .json (.obj (serializeTypedIDObj r))))
  let m := setOpt m "relatedResource" (ifNonempty c.relRes (.rrs c.relRes))
  let m := setOpt m "termsOfUse" (ifNonempty c.termsOfUse (typedIDsToRaw c.termsOfUse))
  if isBaseContext c.context v2ContextURI then
    setOpt (setOpt m "validFrom" (timeVal env c.issued)) "validUntil" (timeVal env c.expired)
  else
    setOpt (setOpt m "issuanceDate" (timeVal env c.issued)) "expirationDate"
      (timeVal env c.expired)

/-- `serializeCredentialContents`, credential.go:2456-2545, with the hash algorithm 2535-2542. -/
def serializeContents (c : Contents env.T) (proofs : List JObj) : Option GObj :=
  match c.sdAlg with
  | none => some (serializeBody env c proofs)
  | some h =>
    match formatHashAlg h with
    | none => none
    | some s => some (set (serializeBody env c proofs) "_sd_alg" (.json (.str s)))

/-! ## The credential -/

/-- `Credential`, credential.go:873-882.  The envelopes are their serialized strings (JWT) and raw
bytes (CWT). -/
structure Cred (T : Type) where
  json : GObj
  contents : Contents T
  proofs : List JObj
  jwt : Option String
  cwt : Option String

/-- `CreateCredentialWithProofs`, credential.go:1419-1433; `CreateCredential` (1404-1416) is the case
of no proofs.  The custom fields are plain JSON values. -/
def createCredential (c : Contents env.T) (custom : JObj) (proofs : List JObj) :
    Option (Cred env.T) :=
  (serializeContents env c proofs).map (fun m =>
    ⟨JsonUtil.addCustomFields m (ofWire custom), c, proofs, none, none⟩)

/-- `ToRawJSON`, credential.go:933-942. -/
def Cred.toRawJSON {T : Type} (vc : Cred T) : GObj :=
  if vc.proofs.isEmpty then vc.json else set vc.json "proof" (.json (proofsToRaw vc.proofs))

/-- `CustomField`, credential.go:1061-1063. -/
def Cred.customField {T : Type} (vc : Cred T) (k : String) : GVal := GObj.at vc.json k

/-- `copyCredentialJSONWithoutProofs`, credential.go:2823-2828. -/
def withoutProofs (json : GObj) : GObj := del json "proof"

/-- The modification each `WithModified*` makes to its field: set it or delete it. -/
def putOrDel (m : GObj) (k : String) : Option GVal → GObj
  | none => del m k
  | some v => set m k v

/-- `WithModifiedID`, credential.go:2634-2650. -/
def Cred.withID {T : Type} (vc : Cred T) (id : String) : Cred T :=
  ⟨putOrDel (withoutProofs vc.json) "id" (if id ≠ "" then some (.json (.str id)) else none),
   { vc.contents with id := id }, [], none, none⟩

/-- `WithModifiedIssued`, credential.go:2653-2664. -/
def Cred.withIssued (vc : Cred env.T) (w : TW env.T) : Cred env.T :=
  ⟨set (withoutProofs vc.json) "issuanceDate" (.json (.str (fmtTW env w))),
   { vc.contents with issued := some w }, [], none, none⟩

/-- `WithModifiedExpired`, credential.go:2667-2678. -/
def Cred.withExpired (vc : Cred env.T) (w : TW env.T) : Cred env.T :=
  ⟨set (withoutProofs vc.json) "expirationDate" (.json (.str (fmtTW env w))),
   { vc.contents with expired := some w }, [], none, none⟩

/-- `WithModifiedValidFrom`, credential.go:2681-2692. -/
def Cred.withValidFrom (vc : Cred env.T) (w : TW env.T) : Cred env.T :=
  ⟨set (withoutProofs vc.json) "validFrom" (.json (.str (fmtTW env w))),
   { vc.contents with issued := some w }, [], none, none⟩

/-- `WithModifiedValidUntil`, credential.go:2695-2706. -/
def Cred.withValidUntil (vc : Cred env.T) (w : TW env.T) : Cred env.T :=
  ⟨set (withoutProofs vc.json) "validUntil" (.json (.str (fmtTW env w))),
   { vc.contents with expired := some w }, [], none, none⟩

/-- `WithModifiedContext`, credential.go:2709-2726. -/
def Cred.withContext {T : Type} (vc : Cred T) (ctx : List String) : Cred T :=
  ⟨putOrDel (withoutProofs vc.json) "@context"
     (ifNonempty (contextToRaw ctx vc.contents.customContext)
       (.json (.arr (contextToRaw ctx vc.contents.customContext)))),
   { vc.contents with context := ctx }, [], none, none⟩

/-- `WithModifiedStatus`, credential.go:2729-2759: nil statuses are dropped, several are stored as
`[]interface{}`. -/
def Cred.withStatus {T : Type} (vc : Cred T) (status : List (Option TypedID)) : Cred T :=
  ⟨putOrDel (withoutProofs vc.json) "credentialStatus"
     (match status.filterMap id with
      | [] => none
      | [s] => some (.json (.obj (serializeTypedIDObj s)))
      | ss => some (.json (.arr (ss.map (fun s => .obj (serializeTypedIDObj s)))))),
   { vc.contents with status := status.filterMap id }, [], none, none⟩

/-- `WithModifiedRefreshService`, credential.go:2762-2778. -/
def Cred.withRefreshService {T : Type} (vc : Cred T) (r : Option TypedID) : Cred T :=
  ⟨putOrDel (withoutProofs vc.json) "refreshService"
     (r.map (fun r => .json (.obj (serializeTypedIDObj r)))),
   { vc.contents with refreshService := r }, [], none, none⟩

/-- `WithModifiedIssuer`, credential.go:2781-2797. -/
def Cred.withIssuer {T : Type} (vc : Cred T) (i : Option Issuer) : Cred T :=
  ⟨putOrDel (withoutProofs vc.json) "issuer" (i.map (fun i => .json (serializeIssuer i))),
   { vc.contents with issuer := i }, [], none, none⟩

/-- `WithModifiedSubject`, credential.go:2800-2816. -/
def Cred.withSubject {T : Type} (vc : Cred T) (s : List Subject) : Cred T :=
  ⟨putOrDel (withoutProofs vc.json) "credentialSubject" (ifNonempty s (serializeSubject s)),
   { vc.contents with subject := s }, [], none, none⟩

end VC.Vfy
