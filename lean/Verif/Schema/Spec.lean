import Verif.Schema.Model
/-!
# What the built-in schemas ask of a document

Stated on JSON values only: no schema tree, no evaluator.
-/

namespace VC.Schema

open GoMap

namespace Spec

/-- A string. -/
def Str (v : Json) : Prop := ∃ s, v = .str s
/-- An object. -/
def Obj (v : Json) : Prop := ∃ o, v = .obj o
/-- An array. -/
def Arr (v : Json) : Prop := ∃ l, v = .arr l

/-- The member, if there, satisfies `P`. -/
def Opt (o : JObj) (k : String) (P : Json → Prop) : Prop := ∀ v, get? o k = some v → P v
/-- The member is there and satisfies `P`. -/
def Has (o : JObj) (k : String) (P : Json → Prop) : Prop := ∃ v, get? o k = some v ∧ P v
/-- One value or an array of at least one. -/
def OneOrMore (P : Json → Prop) (v : Json) : Prop :=
  P v ∨ ∃ l, v = .arr l ∧ l ≠ [] ∧ ∀ x ∈ l, P x

variable (E : SEnv)

/-- A string that passes a format check. -/
def Fmt (f : String) (v : Json) : Prop := ∃ s, v = .str s ∧ E.format f s = true

/-- A string in which the date-time pattern of the v2 documents is found. -/
def DateLike (pat : String) (v : Json) : Prop := ∃ s, v = .str s ∧ E.regex pat s = true

/-- The type member: the name, or an array with the name among its elements. -/
def Typed (name : String) (v : Json) : Prop :=
  v = .str name ∨ ∃ l, v = .arr l ∧ Json.str name ∈ l

/-- The v1 context member: the v1 URI, or an array that starts with it (or is empty), continues with
strings and objects, and holds nothing twice. -/
def V1Context (v : Json) : Prop :=
  v = .str "https://www.w3.org/2018/credentials/v1" ∨
  ∃ l, v = .arr l ∧ (∀ x, l.head? = some x → x = .str "https://www.w3.org/2018/credentials/v1") ∧
    (∀ x ∈ l.tail, Obj x ∨ Str x) ∧ (l.map E.text).Nodup

/-- The v2 context member: an array with the v2 URI somewhere. -/
def V2Context (v : Json) : Prop := ∃ l, v = .arr l ∧ Json.str "https://www.w3.org/ns/credentials/v2" ∈ l

/-! ## Credentials, v1 -/

/-- An object with a URI as `id` and one or more strings as `type`. -/
def TypedId (v : Json) : Prop := ∃ o, v = .obj o ∧ Has o "id" (Fmt E "uri") ∧
  Has o "type" (fun t => Str t ∨ ∃ l, t = .arr l ∧ ∀ x ∈ l, Str x)

/-- An object with a string as `type`. -/
def Proof1 (v : Json) : Prop := ∃ o, v = .obj o ∧ Has o "type" Str

/-- The v1 credential schema, with the given names required. -/
structure CredV1 (req : List String) (j : JObj) : Prop where
  context : Has j "@context" (V1Context E)
  required : ∀ k ∈ req, ∃ v, get? j k = some v
  id : Opt j "id" Str
  type : Opt j "type" (Typed "VerifiableCredential")
  subject : Opt j "credentialSubject" (fun v => Arr v ∨ Obj v ∨ Str v)
  issuer : Opt j "issuer" (fun v => Fmt E "uri" v ∨ ∃ o, v = .obj o ∧ Has o "id" (Fmt E "uri"))
  issued : Opt j "issuanceDate" (Fmt E "date-time")
  proof : Opt j "proof" (fun v => v = .null ∨ Proof1 v ∨ ∃ l, v = .arr l ∧ ∀ x ∈ l, Proof1 x)
  expires : Opt j "expirationDate" (fun v => v = .null ∨ Fmt E "date-time" v)
  status : Opt j "credentialStatus" (fun v => v = .null ∨ TypedId E v)
  schema : Opt j "credentialSchema" (fun v => v = .null ∨ TypedId E v ∨
    ∃ l, v = .arr l ∧ ∀ x ∈ l, x = .null ∨ TypedId E x)
  evidence : Opt j "evidence" (fun v => v = .null ∨ TypedId E v ∨
    ∃ l, v = .arr l ∧ ∀ x ∈ l, x = .null ∨ TypedId E x)
  refresh : Opt j "refreshService" (fun v => v = .null ∨ TypedId E v)

/-! ## Credentials, v2 -/

/-- A string or a non-empty array. -/
def SomeType (v : Json) : Prop := Str v ∨ ∃ l, v = .arr l ∧ l ≠ []

/-- An object with a string as `id` and a type. -/
def Named2 (v : Json) : Prop := ∃ o, v = .obj o ∧ Has o "id" Str ∧ Has o "type" SomeType

/-- An object with a type; its `id`, if any, a string. -/
def Typed2 (v : Json) : Prop := ∃ o, v = .obj o ∧ Opt o "id" Str ∧ Has o "type" SomeType

/-- A non-empty object; its `id`, if any, a string. -/
def Subject2 (v : Json) : Prop := ∃ o, v = .obj o ∧ o ≠ [] ∧ Opt o "id" Str

/-- A verification method: a string, or an array of at least one described method. -/
def Method2 (v : Json) : Prop := Str v ∨ ∃ l, v = .arr l ∧ l ≠ [] ∧
  ∀ x ∈ l, ∃ o, x = .obj o ∧ Has o "id" Str ∧ Has o "type" Str ∧ Has o "controller" Str

/-- The v2 proof object; `created` is what is asked of that member. -/
structure IsProof2 (created : JObj → Prop) (o : JObj) : Prop where
  type : Has o "type" SomeType
  purpose : Has o "proofPurpose" Str
  method : Has o "verificationMethod" Method2
  created : created o
  domain : Opt o "domain" Str
  challenge : Opt o "challenge" Str
  value : Opt o "proofValue" Str

/-- A v2 proof. -/
def Proof2 (created : JObj → Prop) (v : Json) : Prop := ∃ o, v = .obj o ∧ IsProof2 created o

/-- The v2 credential schema, with the given names required; `pat` is the date-time pattern. -/
structure CredV2 (pat : String) (req : List String) (j : JObj) : Prop where
  context : Has j "@context" V2Context
  required : ∀ k ∈ req, ∃ v, get? j k = some v
  id : Opt j "id" Str
  type : Opt j "type" (Typed "VerifiableCredential")
  issuer : Opt j "issuer" (fun v => Str v ∨ ∃ o, v = .obj o ∧ Has o "id" Str)
  validFrom : Opt j "validFrom" (DateLike E pat)
  validUntil : Opt j "validUntil" (DateLike E pat)
  subject : Opt j "credentialSubject" (OneOrMore Subject2)
  status : Opt j "credentialStatus" (OneOrMore Named2)
  schema : Opt j "credentialSchema" (OneOrMore Named2)
  refresh : Opt j "refreshService" (OneOrMore Named2)
  terms : Opt j "termsOfUse" (OneOrMore Typed2)
  evidence : Opt j "evidence" (OneOrMore Typed2)
  proof : Opt j "proof" (OneOrMore (Proof2 (fun o => Opt o "created" Str)))
  chain : Opt j "proofChain" (fun v => ∃ l, v = .arr l ∧ l ≠ [] ∧
    ∀ x ∈ l, Proof2 (fun o => Opt o "created" Str) x)

/-! ## Presentations -/

/-- The v1 presentation schema.  Of an array of proofs only the first is looked at. -/
structure PresV1 (j : JObj) : Prop where
  context : Has j "@context" (V1Context E)
  id : Opt j "id" Str
  type : Has j "type" (Typed "VerifiablePresentation")
  credentials : Opt j "verifiableCredential" (fun v => v = .null ∨ Arr v ∨ Obj v ∨ Str v)
  proof : Opt j "proof" (fun v => Proof1 v ∨ ∃ l, v = .arr l ∧ ∀ x, l.head? = some x → Proof1 x)
  refresh : Opt j "refreshService" (TypedId E)

/-- The v2 presentation schema; `pat` is the date-time pattern. -/
structure PresV2 (pat : String) (j : JObj) : Prop where
  context : Has j "@context" V2Context
  id : Opt j "id" Str
  type : Has j "type" (Typed "VerifiablePresentation")
  credentials : Opt j "verifiableCredential" (fun v => v = .null ∨ Arr v ∨ Obj v ∨ Str v)
  proof : Opt j "proof" (OneOrMore (Proof2 (fun o => Has o "created" (DateLike E pat))))
  chain : Opt j "proofChain" (fun v => ∃ l, v = .arr l ∧ l ≠ [] ∧
    ∀ x ∈ l, Proof2 (fun o => Has o "created" (DateLike E pat)) x)

end Spec

/-- What is assumed of the libraries: a string prints like nothing else, and an anchored literal
pattern matches just that text. -/
structure Laws (E : SEnv) : Prop where
  text : ∀ v s, E.text v = E.text (.str s) ↔ v = .str s
  vc : ∀ s, E.regex "^VerifiableCredential$" s = true ↔ s = "VerifiableCredential"
  vp : ∀ s, E.regex "^VerifiablePresentation$" s = true ↔ s = "VerifiablePresentation"

end VC.Schema
