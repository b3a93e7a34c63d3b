import Verif.Base.Json
/-!
# identity hub client and status-list VC resolver (model)

Models `status/internal/identityhub/identityhub.go` and `status/resolver/resolver.go`.
Abstract: Unicode case folding (`strings.EqualFold a b` is `fold a = fold b`), base64, HTTP, DID
resolution, URL query parsing and JSON (un)marshalling.
-/

namespace VC.IdentityHub

/-- `Message`, identityhub.go:46-49. -/
structure Message where
  descriptor : JObj
  data : String

/-- `MessageResult`, identityhub.go:39-43 (only the status code of `Status`). -/
structure Reply where
  code : Int
  entries : List Message

/-- `Response`, identityhub.go:32-36 (`Status` may be nil). -/
structure Response where
  status : Option Int
  replies : List Reply

/-- `CheckStatus`, identityhub.go:64-84: `true` = nil error. -/
def checkStatus (r : Response) : Bool :=
  if r.status.isSome && r.status != some 200 then false
  else loop r.replies
where
  loop : List Reply → Bool
    | [] => true
    | m :: ms => if m.code ≠ 200 then false else loop ms

/-- `GetObjectID`, identityhub.go:108-112. -/
def getObjectID (m : Message) : Option String := (JObj.at m.descriptor "objectId").asStr?

/-- `IsMethod`, identityhub.go:115-119. -/
def isMethod (fold : String → String) (m : Message) (method : String) : Bool :=
  match (JObj.at m.descriptor "method").asStr? with
  | some v => fold v == fold method
  | none => false

/-- Outcome of `GetMessageData`. -/
inductive Data where
  | ok (bytes : List UInt8)
  | decodeError
  | notFound
  deriving DecidableEq

/-- Inner loop of `GetMessageData`, identityhub.go:89-101; `none` = fell through. -/
def scanEntries (fold : String → String) (b64 : String → Option (List UInt8)) (oid : String) :
    List Message → Option Data
  | [] => none
  | m :: ms =>
    match getObjectID m with
    | none => scanEntries fold b64 oid ms
    | some o =>
      if fold o ≠ fold oid then scanEntries fold b64 oid ms
      else match b64 m.data with
        | none => some .decodeError
        | some d => some (.ok d)

/-- Outer loop of `GetMessageData`, identityhub.go:87-105. -/
def getMessageData (fold : String → String) (b64 : String → Option (List UInt8)) (oid : String) :
    List Reply → Data
  | [] => .notFound
  | r :: rs => match scanEntries fold b64 oid r.entries with
    | some d => d
    | none => getMessageData fold b64 oid rs

/-- `firstValidMessage`, identityhub.go:144-160. -/
def firstValidMessage (fold : String → String) (method : String) :
    List JObj → Option (String × Message)
  | [] => none
  | d :: ds =>
    let msg : Message := ⟨d, ""⟩
    if !isMethod fold msg method then firstValidMessage fold method ds
    else match getObjectID msg with
      | none => firstValidMessage fold method ds
      | some o => some (o, msg)

/-- The environment of `Resolver.Resolve`: HTTP GET (status code and body), DID resolution of the
part before '?', extraction of the queries, HTTP POST to the DID document's hub endpoint with the
selected message, and unmarshalling of the response. -/
structure Env where
  fold : String → String
  b64 : String → Option (List UInt8)
  httpGet : String → Option (Int × List UInt8)
  resolveDID : String → Option String          -- didURL ↦ didDoc.ID (resolver.go:88-93)
  getQueries : String → Option (List JObj)     -- resolver.go:172-201
  endpoint : String → Option String            -- ServiceEndpoint(didDoc), identityhub.go:163-189
  httpPost : String → Message → Option (Int × List UInt8)
  unmarshal : List UInt8 → Option Response

/-- `sendHTTPRequest` success condition, resolver.go:143-170. -/
def expectOK : Option (Int × List UInt8) → Option (List UInt8)
  | some (200, b) => some b
  | _ => none

/-- `resolveDIDRelativeURL`, resolver.go:87-141. -/
def resolveDIDRelativeURL (env : Env) (url : String) : Option (List UInt8) := do
  let did ← env.resolveDID url
  let queries ← env.getQueries url
  let (oid, msg) ← firstValidMessage env.fold "CollectionsQuery" queries
  let ep ← env.endpoint did
  let body ← expectOK (env.httpPost ep msg)
  let resp ← env.unmarshal body
  if checkStatus resp then
    match getMessageData env.fold env.b64 oid resp.replies with
    | .ok d => some d
    | _ => none
  else none

/-- `Resolve` up to the (proof-less) credential parsing, resolver.go:46-69. -/
def fetch (env : Env) (uri : String) : Option (List UInt8) :=
  if uri.startsWith "did:" then resolveDIDRelativeURL env uri
  else expectOK (env.httpGet uri)

end VC.IdentityHub
