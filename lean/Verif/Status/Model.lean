import Verif.Base.Json
import Verif.Base.Strconv
/-!
# status: credential status checking (model)

Models `status/status.go`, `status/validator/**`, `status/internal/bitstring/bitstring.go`.
Abstract parameters: the status-list VC resolver (network) and the byte decoding
(multibase / base64url + gzip).
-/

namespace VC.Status

/-- `bitstring.BitAt`, status/internal/bitstring/bitstring.go:66-77.  Bytes are 8-bit vectors; Go's
truncating `/` and `%` are `Int.tdiv`/`Int.tmod`; `none` is the "position is invalid" error. -/
def bitAt (bs : List (BitVec 8)) (idx : Int) : Option Bool :=
  let nByte := idx.tdiv 8
  let nBit := idx.tmod 8
  if idx < 0 ∨ nByte ≥ bs.length then none
  else some ((bs.getD nByte.toNat 0 &&& (1#8 <<< nBit.toNat)) != 0)

/-- `verifiable.TypedID` as used here: verifiable/common.go (type TypedID): ID, Type, CustomFields. -/
structure Entry where
  id : String
  type : String
  custom : JObj

/-- Results of `VerifyStatus`: the two sentinel errors, any other error (tagged, texts are
abstracted), or a run-time panic (status/status.go:91 indexes `credSubject[0]`). -/
inductive Err where
  | revoked
  | suspended
  | other (tag : String)
  | panic
  deriving DecidableEq, Repr

/-- The two registered validators, status/validator/validator.go:20-29. -/
inductive Validator where
  | statusList2021
  | bitstring
  deriving DecidableEq, Repr

/-- `GetValidator`, status/validator/validator.go:20-29. -/
def getValidator (ty : String) : Except Err Validator :=
  if ty = "StatusList2021Entry" then .ok .statusList2021
  else if ty = "BitstringStatusListEntry" then .ok .bitstring
  else .error (.other "unsupported VCStatusListType")

/-- `isMissingField`, statuslist2021.go:63-69 and bitstringstatus.go:73-79. -/
def isMissingField (e : Entry) (f : String) : Except Err Unit :=
  if (JObj.at e.custom f).isNull then .error (.other "missing field") else .ok ()

/-- `int(f)` for a float64 on amd64: truncation toward zero, out-of-range values give MinInt64. -/
def float64ToInt (q : Rat) : Int :=
  let t := q.num.tdiv q.den
  if -(2:Int)^63 ≤ t ∧ t < (2:Int)^63 then t else -(2:Int)^63

/-- `1<<n - 1` computed in a 64-bit `int` (bitstringstatus.go:103); n is known positive. -/
def possibleStatusSizes (n : Int) : Int := ((1#64 <<< n.toNat) - 1#64).toInt

/-- `checkStatusSize`, bitstringstatus.go:81-115. -/
def checkStatusSize (e : Entry) : Except Err Unit :=
  match JObj.at e.custom "statusSize" with
  | .null => .ok ()
  | .num q =>
    let n := float64ToInt q
    if n ≤ 0 then .error (.other "statusSize must be greater than 0")
    else if n = 1 then .ok ()
    else
      match JObj.at e.custom "statusMessage" with
      | .arr ms =>
        if (ms.length : Int) ≠ possibleStatusSizes n then .error (.other "statusMessage length")
        else .ok ()
      | _ => .error (.other "statusMessage must be an array")
  | _ => .error (.other "statusSize must be an integer")

/-- The field loop of both `ValidateStatus` methods, in the code's order. -/
def checkFields (e : Entry) : List String → Except Err Unit
  | [] => .ok ()
  | f :: fs => match isMissingField e f with
    | .error x => .error x
    | .ok _ => checkFields e fs

/-- `ValidateStatus`: statuslist2021.go:51-69, bitstringstatus.go:50-71 (the nil case cannot arise
from `Contents().Status`). -/
def validateStatus (v : Validator) (e : Entry) : Except Err Unit :=
  match v with
  | .statusList2021 =>
    if e.type ≠ "StatusList2021Entry" then .error (.other "type not supported")
    else checkFields e ["statusListCredential", "statusListIndex", "statusPurpose"]
  | .bitstring =>
    if e.type ≠ "BitstringStatusListEntry" then .error (.other "type not supported")
    else match checkFields e ["statusListCredential", "statusListIndex", "statusPurpose"] with
      | .error x => .error x
      | .ok _ => checkStatusSize e

/-- `GetStatusVCURI`, statuslist2021.go:72-79, bitstringstatus.go:118-125. -/
def getStatusVCURI (e : Entry) : Except Err String :=
  match (JObj.at e.custom "statusListCredential").asStr? with
  | some s => .ok s
  | none => .error (.other "failed to cast URI")

/-- `GetStatusListIndex`, statuslist2021.go:82-94, bitstringstatus.go:128-140. -/
def getStatusListIndex (e : Entry) : Except Err Int :=
  match (JObj.at e.custom "statusListIndex").asStr? with
  | some s => match atoi s with
    | some i => .ok i
    | none => .error (.other "unable to get statusListIndex")
  | none => .error (.other "statusListIndex must be a string")

/-- `GetStatusPurpose`, statuslist2021.go:97-104, bitstringstatus.go:143-150. -/
def getStatusPurpose (e : Entry) : Except Err String :=
  match (JObj.at e.custom "statusPurpose").asStr? with
  | some s => .ok s
  | none => .error (.other "statusPurpose must be a string")

/-- `MultiBaseEncoding`, statuslist2021.go:107-109 (false), bitstringstatus.go:154-156 (true). -/
def multiBaseEncoding : Validator → Bool
  | .statusList2021 => false
  | .bitstring => true

/-- What `verifyStatus` reads of the resolved status-list VC: issuer id (nil issuer = none) and the
custom fields of each subject. -/
structure ListVC where
  issuer : Option String
  subjects : List JObj

/-- The environment: `Client.Resolver.Resolve` and `bitstring.Decode` (bitstring.go:27-61; first
argument: multibase?).  `none` = error.  Simplification: the resolver answers the same URI the same
way during one `VerifyStatus` call. -/
structure Env where
  resolve : String → Option ListVC
  decode : Bool → String → Option (List (BitVec 8))

/-- What `VerifyStatus` reads of the credential. -/
structure Cred where
  issuer : Option String
  status : List Entry

/-- status/status.go:110-127, the verdict for a set bit. -/
def purposeError (e : Entry) : Err :=
  match getStatusPurpose e with
  | .error x => x
  | .ok p =>
    if p = "revocation" then .revoked
    else if p = "suspension" then .suspended
    else .other "unsupported status purpose"

/-- `Client.verifyStatus`, status/status.go:59-128. -/
def verifyEntry (env : Env) (issuer : Option String) (e : Entry) : Except Err Unit :=
  match getValidator e.type with
  | .error x => .error x
  | .ok v =>
  match validateStatus v e with
  | .error x => .error x
  | .ok _ =>
  match getStatusListIndex e with
  | .error x => .error x
  | .ok idx =>
  match getStatusVCURI e with
  | .error x => .error x
  | .ok uri =>
  match env.resolve uri with
  | none => .error (.other "resolve")
  | some lvc =>
  match lvc.issuer, issuer with
  | some a, some b =>
    if a ≠ b then .error (.other "issuer mismatch")
    else match lvc.subjects with
    | [] => .error .panic
    | s0 :: _ =>
      match (JObj.at s0 "encodedList").asStr? with
      | none => .error (.other "encodedList must be a string")
      | some enc =>
        match env.decode (multiBaseEncoding v) enc with
        | none => .error (.other "failed to decode bits")
        | some bs =>
          match bitAt bs idx with
          | none => .error (.other "position is invalid")
          | some true => .error (purposeError e)
          | some false => .ok ()
  | _, _ => .error (.other "issuer mismatch")

/-- The loop of `VerifyStatus`, status/status.go:50-54. -/
def verifyLoop (env : Env) (issuer : Option String) : List Entry → Except Err Unit
  | [] => .ok ()
  | e :: es => match verifyEntry env issuer e with
    | .error x => .error x
    | .ok _ => verifyLoop env issuer es

/-- `Client.VerifyStatus`, status/status.go:44-57. -/
def verifyStatus (env : Env) (c : Cred) : Except Err Unit :=
  if c.status.isEmpty then .error (.other "vc missing status list field")
  else verifyLoop env c.issuer c.status

end VC.Status
