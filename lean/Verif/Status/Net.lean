import Verif.Status.Spec
import Verif.IdentityHub.Queries
/-!
# C135: what a status check sends over the network (model)

Models `Client.VerifyStatus` (status/status.go) together with `Resolver.Resolve`
(status/resolver/resolver.go) as a program that talks to the outside: every HTTP request and every
DID look-up is a step, and the answer to it is arbitrary - the same address may answer differently
the next time.  `Verif.Status.Model` and `Verif.IdentityHub.Model` have the same code with the
outside as a fixed function.
-/

namespace VC.Net

open VC.Status (Entry Err Validator ListVC)
open VC.IdentityHub (Message Response)

/-- A service endpoint of a DID document as did-go presents it (did-go is not part of /repo):
`isDIDComm` is "its `Type()` is DIDCommV1 or DIDCommV2", `uri` is what `URI()` returns, `fields` is
`MarshalJSON` followed by `json.Unmarshal` into a map; `none` = error. -/
structure Endpoint where
  isDIDComm : Bool
  uri : Option String
  fields : Option JObj

/-- did-go `did.Service`, the two fields read by identityhub.go:163-189. -/
structure Service where
  type : String
  endpoint : Endpoint

/-- did-go `did.Doc`, the two fields read by resolver.go:87-141. -/
structure Doc where
  id : String
  services : List Service

/-- `identityhub.Request`, identityhub.go:25-29. -/
structure HubRequest where
  requestID : String
  target : String
  messages : List Message

/-- An HTTP request as handed to `client.Do`, resolver.go:148: method, URL, the `Authorization` and
`Content-Type` headers, and the JSON body.  What the HTTP client does with it (redirects, cookies,
proxies) is not modelled. -/
structure HTTPReq where
  method : String
  url : String
  authorization : Option String
  contentType : Option String
  body : Option HubRequest

/-- What the other side answers to an HTTP request: status code and body, `none` when the transport or
the reading of the body fails. -/
abbrev HTTPAns := Option (Int × List UInt8)

/-- A program that talks to the outside. -/
inductive Prog (α : Type) where
  | ret (a : α)
  | http (r : HTTPReq) (k : HTTPAns → Prog α)
  | lookup (did : String) (k : Option Doc → Prog α)
  /-- Go's `range` over a map: the order of the visits is not determined. -/
  | range (m : JObj) (k : List (String × Json) → Prog α)

/-- Doing one program after another. -/
def Prog.bind {α β : Type} : Prog α → (α → Prog β) → Prog β
  | .ret a, f => f a
  | .http r k, f => .http r fun x => (k x).bind f
  | .lookup d k, f => .lookup d fun x => (k x).bind f
  | .range m k, f => .range m fun x => (k x).bind f

/-- One exchange: what was sent and what came back. -/
inductive Event where
  | http (r : HTTPReq) (a : HTTPAns)
  | lookup (did : String) (d : Option Doc)

/-- The program can run with these exchanges and end with this result. -/
inductive Runs {α : Type} : Prog α → List Event → α → Prop where
  | ret (a : α) : Runs (.ret a) [] a
  | http (r : HTTPReq) (k : HTTPAns → Prog α) (x : HTTPAns) {l : List Event} {a : α} :
      Runs (k x) l a → Runs (.http r k) (.http r x :: l) a
  | lookup (did : String) (k : Option Doc → Prog α) (x : Option Doc) {l : List Event} {a : α} :
      Runs (k x) l a → Runs (.lookup did k) (.lookup did x :: l) a
  | range (m : JObj) (k : List (String × Json) → Prog α) (x : List (String × Json)) {l : List Event} {a : α} :
      x.Perm m → Runs (k x) l a → Runs (.range m k) l a

/-- The resolver's settings and the library functions it calls. -/
structure Params where
  /-- `Resolver.bearerToken`, resolver.go:32 -/
  token : String
  /-- `strings.EqualFold a b` is `fold a = fold b` -/
  fold : String → String
  /-- base64 -/
  b64 : String → Option (List UInt8)
  /-- `json.Unmarshal` of the queries, resolver.go:195 -/
  unmQueries : B64.Bytes → Option (List JObj)
  /-- `json.Unmarshal` of the hub's answer, resolver.go:130 -/
  unmResponse : List UInt8 → Option Response
  /-- `ParseCredential` without proof check and validation, resolver.go:71-75 -/
  parse : List UInt8 → Option ListVC
  /-- `bitstring.Decode`, bitstring.go:27-61 -/
  decode : Bool → String → Option (List (BitVec 8))
  /-- `http.NewRequestWithContext` accepts the URL -/
  validURL : String → Bool
  /-- `NewDIDCoreEndpoint(v).URI()`, identityhub.go:208-210 -/
  coreURI : Json → Option String
  /-- `uuid.NewString()`, identityhub.go:129; the same for all requests of one run -/
  requestID : String

/-- `getDIDCoreServiceEndpoint`, the loop, identityhub.go:207-214. -/
def firstURI (coreURI : Json → Option String) : List (String × Json) → Option String
  | [] => none
  | kv :: kvs => match coreURI kv.2 with
    | some u => some u
    | none => firstURI coreURI kvs

/-- `getDIDCoreServiceEndpoint`, identityhub.go:191-217. -/
def coreEndpoint (p : Params) (e : Endpoint) : Prog (Option String) :=
  match e.uri with
  | some u => .ret (some u)
  | none => match e.fields with
    | none => .ret none
    | some m => .range m fun kvs => .ret (firstURI p.coreURI kvs)

/-- `ServiceEndpoint`, identityhub.go:163-189. -/
def serviceEndpoint (p : Params) (d : Doc) : Prog (Option String) :=
  match d.services.find? (fun s => s.type == "IdentityHub") with
  | none => .ret none
  | some s => if s.endpoint.isDIDComm then .ret s.endpoint.uri else coreEndpoint p s.endpoint

/-- `sendHTTPRequest`, resolver.go:143-170, for status 200: the token is added to whatever request. -/
def send (token : String) (r : HTTPReq) : Prog (Option (List UInt8)) :=
  let r' : HTTPReq := if token = "" then r else { r with authorization := some ("Bearer " ++ token) }
  .http r' fun
    | none => .ret none
    | some (code, body) => if code = 200 then .ret (some body) else .ret none

/-- `GetRequest`, identityhub.go:124-142. -/
def getRequest (p : Params) (hub method : String) (qs : List JObj) : Option (String × HubRequest) :=
  match IdentityHub.firstValidMessage p.fold method qs with
  | none => none
  | some (o, m) => some (o, ⟨p.requestID, hub, [m]⟩)

/-- The end of `resolveDIDRelativeURL`, resolver.go:128-140. -/
def readHub (p : Params) (oid : String) (body : List UInt8) : Option (List UInt8) :=
  match p.unmResponse body with
  | none => none
  | some resp =>
    if IdentityHub.checkStatus resp then
      match IdentityHub.getMessageData p.fold p.b64 oid resp.replies with
      | .ok d => some d
      | _ => none
    else none

/-- `resolveDIDRelativeURL`, resolver.go:87-141. -/
def viaHub (p : Params) (url : String) : Prog (Option (List UInt8)) :=
  .lookup ((split '?' url).headD "") fun
    | none => .ret none
    | some doc =>
      match IdentityHub.getQueries p.unmQueries url with
      | none => .ret none
      | some qs =>
        match getRequest p doc.id "CollectionsQuery" qs with
        | none => .ret none
        | some (oid, req) =>
          (serviceEndpoint p doc).bind fun
            | none => .ret none
            | some ep =>
              if p.validURL ep then
                (send p.token ⟨"POST", ep, none, some "application/json", some req⟩).bind fun
                  | none => .ret none
                  | some body => .ret (readHub p oid body)
              else .ret none

/-- `Resolve`, resolver.go:46-80. -/
def resolve (p : Params) (uri : String) : Prog (Option ListVC) :=
  (if hasPrefix uri "did:" then viaHub p uri
   else if p.validURL uri then send p.token ⟨"GET", uri, none, none, none⟩
   else .ret none).bind fun
    | none => .ret none
    | some bytes => .ret (p.parse bytes)

/-- status/status.go:85-127: what is done with the resolved list. -/
def judge (p : Params) (issuer : Option String) (e : Entry) (v : Validator) (idx : Int) (lvc : ListVC) :
    Except Err Unit :=
  match lvc.issuer, issuer with
  | some a, some b =>
    if a ≠ b then .error (.other "issuer mismatch")
    else match lvc.subjects with
    | [] => .error .panic
    | s0 :: _ =>
      match (JObj.at s0 "encodedList").asStr? with
      | none => .error (.other "encodedList must be a string")
      | some enc =>
        match p.decode (Status.multiBaseEncoding v) enc with
        | none => .error (.other "failed to decode bits")
        | some bs =>
          match Status.bitAt bs idx with
          | none => .error (.other "position is invalid")
          | some true => .error (Status.purposeError e)
          | some false => .ok ()
  | _, _ => .error (.other "issuer mismatch")

/-- `Client.verifyStatus`, status/status.go:59-128. -/
def checkEntry (p : Params) (issuer : Option String) (e : Entry) : Prog (Except Err Unit) :=
  match Status.getValidator e.type with
  | .error x => .ret (.error x)
  | .ok v =>
    match Status.validateStatus v e with
    | .error x => .ret (.error x)
    | .ok _ =>
      match Status.getStatusListIndex e with
      | .error x => .ret (.error x)
      | .ok idx =>
        match Status.getStatusVCURI e with
        | .error x => .ret (.error x)
        | .ok uri =>
          (resolve p uri).bind fun
            | none => .ret (.error (.other "resolve"))
            | some lvc => .ret (judge p issuer e v idx lvc)

/-- The loop of `VerifyStatus`, status/status.go:50-54. -/
def checkLoop (p : Params) (issuer : Option String) : List Entry → Prog (Except Err Unit)
  | [] => .ret (.ok ())
  | e :: es => (checkEntry p issuer e).bind fun
    | .error x => .ret (.error x)
    | .ok _ => checkLoop p issuer es

/-- `Client.VerifyStatus`, status/status.go:44-57. -/
def check (p : Params) (c : Status.Cred) : Prog (Except Err Unit) :=
  if c.status.isEmpty then .ret (.error (.other "vc missing status list field"))
  else checkLoop p c.issuer c.status

/-! ## Specification -/

namespace Spec

open VC.Status.Spec (StrField WF2021 WFBitstring Points)

/-- The entry names this location. -/
def Names (e : Entry) (u : String) : Prop := StrField e.custom "statusListCredential" u

/-- The text starts with "did:". -/
def IsDID (u : String) : Prop := ∃ r, u = "did:" ++ r

/-- `d` is the part of the URL before its first question mark. -/
def DIDPart (u d : String) : Prop := NoChar '?' d ∧ (u = d ∨ ∃ q, u = d ++ "?" ++ q)

/-- `x` is the first of `l` with the property. -/
def FirstOf {α : Type} (P : α → Prop) (l : List α) (x : α) : Prop :=
  P x ∧ ∃ a b, l = a ++ x :: b ∧ ∀ y ∈ a, ¬ P y

/-- An address of the document's (first) identity hub service. -/
def HubAddress (coreURI : Json → Option String) (doc : Doc) (u : String) : Prop :=
  ∃ s, FirstOf (fun s : Service => s.type = "IdentityHub") doc.services s ∧
    (s.endpoint.uri = some u ∨
      s.endpoint.isDIDComm = false ∧ s.endpoint.uri = none ∧ ∃ m k v, s.endpoint.fields = some m ∧ (k, v) ∈ m ∧ coreURI v = some u)

/-- The object id a collection query asks for. -/
def AsksFor (fold : String → String) (q : JObj) (oid : String) : Prop :=
  (∃ m, StrField q "method" m ∧ fold m = fold "CollectionsQuery") ∧ StrField q "objectId" oid

/-- The first usable query of the URL: `q`, asking for `oid`. -/
def Query (p : Params) (u : String) (q : JObj) (oid : String) : Prop :=
  ∃ qs, IdentityHub.getQueries p.unmQueries u = some qs ∧ AsksFor p.fold q oid ∧
    FirstOf (fun q => ∃ o, AsksFor p.fold q o) qs q

/-- What the `Authorization` header must be. -/
def Auth (token : String) (a : Option String) : Prop :=
  token = "" ∧ a = none ∨ token ≠ "" ∧ a = some ("Bearer " ++ token)

/-- The GET request for a location. -/
def IsGet (p : Params) (u : String) (r : HTTPReq) : Prop :=
  r.method = "GET" ∧ r.url = u ∧ Auth p.token r.authorization ∧ r.contentType = none ∧ r.body = none

/-- The POST request to a hub of `doc`, asking the query `q`. -/
def IsPost (p : Params) (doc : Doc) (q : JObj) (r : HTTPReq) : Prop :=
  r.method = "POST" ∧ HubAddress p.coreURI doc r.url ∧ Auth p.token r.authorization ∧
    r.contentType = some "application/json" ∧
    ∃ b, r.body = some b ∧ b.requestID = p.requestID ∧ b.target = doc.id ∧ b.messages = [⟨q, ""⟩]

/-- What one entry of the credential may cause to be sent: nothing; a GET of the location it names; a
look-up of the DID it names; or this look-up and then one POST to the hub of the document found. -/
inductive Sent (p : Params) (e : Entry) : List Event → Prop where
  | nothing : Sent p e []
  | get {u : String} {r : HTTPReq} (a : HTTPAns) :
      Names e u → ¬ IsDID u → IsGet p u r → Sent p e [.http r a]
  | lookup {u d : String} (a : Option Doc) :
      Names e u → IsDID u → DIDPart u d → Sent p e [.lookup d a]
  | post {u d oid : String} {doc : Doc} {q : JObj} {r : HTTPReq} (a : HTTPAns) :
      Names e u → IsDID u → DIDPart u d → Query p u q oid → IsPost p doc q r →
      Sent p e [.lookup d (some doc), .http r a]

/-- The hub's answer hands out `data` for the object id. -/
def HubGives (p : Params) (oid : String) (body data : List UInt8) : Prop :=
  ∃ resp, p.unmResponse body = some resp ∧ (∀ s, resp.status = some s → s = 200) ∧
    (∀ m ∈ resp.replies, m.code = 200) ∧
    ∃ m, FirstOf (fun m : Message => ∃ o, StrField m.descriptor "objectId" o ∧ p.fold o = p.fold oid)
      (resp.replies.flatMap (·.entries)) m ∧ p.b64 m.data = some data

/-- With these exchanges the entry's status list is `vc`. -/
inductive Gives (p : Params) (e : Entry) : List Event → ListVC → Prop where
  | get {u : String} {r : HTTPReq} {body : List UInt8} {vc : ListVC} :
      Names e u → ¬ IsDID u → p.validURL u = true → IsGet p u r → p.parse body = some vc →
      Gives p e [.http r (some (200, body))] vc
  | post {u d oid : String} {doc : Doc} {q : JObj} {r : HTTPReq} {body data : List UInt8} {vc : ListVC} :
      Names e u → IsDID u → DIDPart u d → Query p u q oid → IsPost p doc q r → p.validURL r.url = true →
      HubGives p oid body data → p.parse data = some vc →
      Gives p e [.lookup d (some doc), .http r (some (200, body))] vc

/-- With these exchanges the entry is well formed and the bit it points to, in the list given for it in
these exchanges, is `b`. -/
def Shows (p : Params) (issuer : Option String) (b : Bool) (e : Entry) (l : List Event) : Prop :=
  ∃ vc, Gives p e l vc ∧ Points ⟨fun _ => some vc, p.decode⟩ issuer e b

end Spec

end VC.Net
