import Verif.Schema.DefRead
import Verif.Presexch.Report
/-!
# presexch: `PresentationDefinition.ValidateSchema` (model and specification, C113)

The presentation definition as the Go structs have it (definition.go:85-216), its JSON, and the check
against the two schema documents of presexch/schema.go.  A nil pointer is `none` (for a requirement
`Requirement.null`), a nil or empty slice, map or string is the empty one: all of them are left out of
the JSON (`omitempty`).  Values of type `interface{}` are JSON values.

Not modelled: values that `encoding/json` cannot write, cyclic requirements (neither can be read from
JSON).
-/

namespace VC.PD

open GoMap VC.Schema

/-- `FilterItem`, definition.go:202-216. -/
structure FilterItem where
  typ : Option String := none
  format : String := ""
  pattern : String := ""
  minimum : Option Json := none
  maximum : Option Json := none
  minLength : Int := 0
  maxLength : Int := 0
  exclusiveMinimum : Option Json := none
  exclusiveMaximum : Option Json := none
  const : Option Json := none
  enum : List Json := []
  not : JObj := []
  contains : JObj := []

/-- `Filter`, definition.go:196-199: the embedded item and `allOf`. -/
structure Filter extends FilterItem where
  allOf : List (Option FilterItem) := []

/-- `Field`, definition.go:185-193. -/
structure Field where
  path : List String
  id : String := ""
  purpose : String := ""
  filter : Option Filter := none
  predicate : Option String := none
  intentToRetain : Bool := false
  optional : Bool := false

/-- `Holder`, definition.go:171-174. -/
structure Holder where
  fieldID : List String
  directive : Option String

/-- `Constraints`, definition.go:177-182. -/
structure Constraints where
  limitDisclosure : Option String := none
  subjectIsIssuer : Option String := none
  isHolder : List (Option Holder) := []
  fields : List (Option Field) := []

/-- `InputDescriptor`, definition.go:153-162; `schema` is `none` if the slice is nil. -/
structure Descriptor where
  id : String
  group : List String := []
  name : String := ""
  purpose : String := ""
  metadata : JObj := []
  schema : Option (List (Option PE.Schema)) := none
  constraints : Option Constraints := none
  format : Option PE.Format := none

/-- `*SubmissionRequirement`, definition.go:141-150. -/
inductive Requirement where
  | null
  | mk (name purpose rule : String) (count min max : Int) (src : String) (nested : List Requirement)

/-- `PresentationDefinition`, definition.go:120-137; `frame` is `none` if the map is nil. -/
structure Definition where
  id : String
  name : String := ""
  purpose : String := ""
  locale : String := ""
  format : Option PE.Format := none
  frame : Option JObj := none
  reqs : List Requirement := []
  descs : List (Option Descriptor)

/-! ## JSON -/

/-- A struct field: its name, and its value unless it is left out. -/
abbrev Member := String × Option Json

/-- `encoding/json` on a struct: the members that are not left out, in order. -/
def structJSON : List Member → JObj
  | [] => []
  | (_, none) :: l => structJSON l
  | (k, some v) :: l => (k, v) :: structJSON l

/-- `omitempty` on a string. -/
def strM (s : String) : Option Json := if s = "" then none else some (.str s)
/-- `omitempty` on an int. -/
def intM (n : Int) : Option Json := if n = 0 then none else some (.num n)
/-- `omitempty` on a bool. -/
def boolM (b : Bool) : Option Json := if b then some (.bool true) else none
/-- `omitempty` on a slice, its elements written by `f`. -/
def listM (f : α → Json) (l : List α) : Option Json := if l.isEmpty then none else some (.arr (l.map f))
/-- `omitempty` on a map. -/
def mapM (m : JObj) : Option Json := if m.isEmpty then none else some (.obj m)
/-- A pointer as an element of a slice. -/
def ptr (f : α → Json) : Option α → Json
  | none => .null
  | some x => f x

/-- The members of a `FilterItem`, definition.go:202-216. -/
def itemMembers (i : FilterItem) : List Member :=
  [("type", i.typ.map .str), ("format", strM i.format), ("pattern", strM i.pattern), ("minimum", i.minimum),
   ("maximum", i.maximum), ("minLength", intM i.minLength), ("maxLength", intM i.maxLength),
   ("exclusiveMinimum", i.exclusiveMinimum), ("exclusiveMaximum", i.exclusiveMaximum), ("const", i.const),
   ("enum", listM (fun v => v) i.enum), ("not", mapM i.not), ("contains", mapM i.contains)]

/-- JSON of a `FilterItem`. -/
def itemJSON (i : FilterItem) : Json := .obj (structJSON (itemMembers i))

/-- The members of a `Filter` (`encoding/json` writes the embedded members first),
definition.go:196-199. -/
def filterMembers (f : Filter) : List Member :=
  itemMembers f.toFilterItem ++ [("allOf", listM (ptr itemJSON) f.allOf)]

/-- JSON of a `Filter`, definition.go:196-199. -/
def filterJSON (f : Filter) : Json := .obj (structJSON (filterMembers f))

/-- The members of a `Field`, definition.go:185-193. -/
def fieldMembers (f : Field) : List Member :=
  [("path", listM .str f.path), ("id", strM f.id), ("purpose", strM f.purpose),
   ("filter", f.filter.map filterJSON), ("predicate", f.predicate.map .str),
   ("intent_to_retain", boolM f.intentToRetain), ("optional", boolM f.optional)]

/-- JSON of a `Field`, definition.go:185-193. -/
def fieldJSON (f : Field) : Json := .obj (structJSON (fieldMembers f))

/-- The members of a `Holder`, definition.go:171-174. -/
def holderMembers (h : Holder) : List Member :=
  [("field_id", listM .str h.fieldID), ("directive", h.directive.map .str)]

/-- JSON of a `Holder`, definition.go:171-174. -/
def holderJSON (h : Holder) : Json := .obj (structJSON (holderMembers h))

/-- The members of a `Constraints`, definition.go:177-182. -/
def constraintsMembers (c : Constraints) : List Member :=
  [("limit_disclosure", c.limitDisclosure.map .str), ("subject_is_issuer", c.subjectIsIssuer.map .str),
   ("is_holder", listM (ptr holderJSON) c.isHolder), ("fields", listM (ptr fieldJSON) c.fields)]

/-- JSON of `Constraints`, definition.go:177-182. -/
def constraintsJSON (c : Constraints) : Json := .obj (structJSON (constraintsMembers c))

/-- The members of a `Schema`, definition.go:165-168. -/
def schemaMembers (s : PE.Schema) : List Member :=
  [("uri", strM s.uri), ("required", boolM s.required)]

/-- JSON of a `Schema`, definition.go:165-168. -/
def schemaJSON (s : PE.Schema) : Json := .obj (structJSON (schemaMembers s))

/-- JSON of a `JwtType`, `LdpType` or `CwtType`, definition.go:105-117. -/
def algJSON (k : String) (l : List String) : Json := .obj (structJSON [(k, listM .str l)])

/-- The members of a `Format`, definition.go:86-97. -/
def formatMembers (f : PE.Format) : List Member :=
  [("jwt", f.jwt.map (algJSON "alg")), ("jwt_vc", f.jwtVC.map (algJSON "alg")),
   ("jwt_vp", f.jwtVP.map (algJSON "alg")), ("ldp", f.ldp.map (algJSON "proof_type")),
   ("ldp_vc", f.ldpVC.map (algJSON "proof_type")), ("ldp_vp", f.ldpVP.map (algJSON "proof_type")),
   ("cwt_vc", f.cwtVC.map (algJSON "alg")), ("cwt_vp", f.cwtVP.map (algJSON "alg"))]

/-- JSON of a `Format`, definition.go:86-97. -/
def formatJSON (f : PE.Format) : Json := .obj (structJSON (formatMembers f))

/-- The members of a `Descriptor`, definition.go:153-162. -/
def descriptorMembers (d : Descriptor) : List Member :=
  [("id", strM d.id), ("group", listM .str d.group), ("name", strM d.name), ("purpose", strM d.purpose),
   ("metadata", mapM d.metadata), ("schema", listM (ptr schemaJSON) (d.schema.getD [])),
   ("constraints", d.constraints.map constraintsJSON), ("format", d.format.map formatJSON)]

/-- JSON of an `InputDescriptor`, definition.go:153-162. -/
def descriptorJSON (d : Descriptor) : Json := .obj (structJSON (descriptorMembers d))

/-- The members of a `SubmissionRequirement`, definition.go:141-150; `nested` is the JSON of the nested
ones. -/
def requirementMembers (name purpose rule : String) (count min max : Int) (src : String)
    (nested : List Json) : List Member :=
  [("name", strM name), ("purpose", strM purpose), ("rule", strM rule), ("count", intM count),
   ("min", intM min), ("max", intM max), ("from", strM src), ("from_nested", listM (fun v => v) nested)]

mutual
/-- JSON of a `*SubmissionRequirement`, definition.go:141-150. -/
def requirementJSON : Requirement → Json
  | .null => .null
  | .mk name purpose rule count min max src nested =>
    .obj (structJSON (requirementMembers name purpose rule count min max src (requirementsJSON nested)))
/-- JSON of a list of them. -/
def requirementsJSON : List Requirement → List Json
  | [] => []
  | r :: rs => requirementJSON r :: requirementsJSON rs
end

/-- The members of a `Definition`, definition.go:120-137. -/
def definitionMembers (d : Definition) : List Member :=
  [("id", strM d.id), ("name", strM d.name), ("purpose", strM d.purpose), ("locale", strM d.locale),
   ("format", d.format.map formatJSON), ("frame", mapM (d.frame.getD [])),
   ("submission_requirements", listM requirementJSON d.reqs),
   ("input_descriptors", listM (ptr descriptorJSON) d.descs)]

/-- JSON of a `PresentationDefinition`, definition.go:120-137. -/
def definitionJSON (d : Definition) : Json := .obj (structJSON (definitionMembers d))

/-- The value that is checked, definition.go:283-285. -/
def wrapped (pd : Option Definition) : Json := .obj [("presentation_definition", ptr definitionJSON pd)]

/-! ## Checking -/

mutual
/-- How deep a value nests. -/
def depth : Json → Nat
  | .arr l => depths l + 1
  | .obj o => depthsObj o + 1
  | _ => 1
/-- The deepest of a list. -/
def depths : List Json → Nat
  | [] => 0
  | v :: l => max (depth v) (depths l)
/-- The deepest member. -/
def depthsObj : List (String × Json) → Nat
  | [] => 0
  | (_, v) :: l => max (depth v) (depthsObj l)
end

/-- Following the recursive reference `r`, which names `s`, at most `n` times; other references are
`E.refs`. -/
def follow (E : SEnv) (r : String) (s : Sch) : Nat → String → Json → Bool
  | 0, x, v => if x = r then false else E.refs x v
  | n + 1, x, v => if x = r then ok { E with refs := follow E r s n } s v else E.refs x v

/-- `gojsonschema.Validate` with one of the documents; `r` is its recursive reference.  Every time it is
followed the value at hand is a part of the one before, so the depth of the value bounds it. -/
def passes (E : SEnv) (doc : Json) (r : String) (v : Json) : Bool :=
  match readKeep keptRefs doc, readRef keptRefs doc r with
  | some s, some q => ok { E with refs := follow E r q (depth v) } s v
  | _, _ => false

/-- `ValidateSchema`, definition.go:280-313: does it return nil? -/
def validateSchema (E : SEnv) (pd : Option Definition) : Bool :=
  if passes E pdV1Doc "#/definitions/submission_requirements" (wrapped pd) then true
  else passes E pdV2Doc "#/definitions/submission_requirement" (wrapped pd)

/-! ## Specification -/

namespace Spec

/-- A preference is `required` or `preferred`. -/
def Pref (p : Option String) : Prop := ∀ s, p = some s → s = "required" ∨ s = "preferred"

/-- A number or a string. -/
def NumOrStr : Json → Prop
  | .num _ | .str _ => True
  | _ => False

/-- An optional value that is a number or a string. -/
def OptNumOrStr (v : Option Json) : Prop := ∀ x, v = some x → NumOrStr x

/-- The library functions behave: names are told apart by the two patterns, texts of strings
determine them. -/
structure PatternLaws (E : SEnv) : Prop where
  jwt : ∀ k, E.regex "^jwt$|^jwt_vc$|^jwt_vp$" k = true ↔ k = "jwt" ∨ k = "jwt_vc" ∨ k = "jwt_vp"
  ldp : ∀ k, E.regex "^ldp_vc$|^ldp_vp$|^ldp$" k = true ↔ k = "ldp_vc" ∨ k = "ldp_vp" ∨ k = "ldp"
  /-- the third "pattern" of the first document, unanchored -/
  other : ∀ k ∈ ["jwt", "jwt_vc", "jwt_vp", "ldp", "ldp_vc", "ldp_vp", "cwt_vc", "cwt_vp"],
    E.regex "additionalProperties" k = false
  text : ∀ a b : String, E.text (.str a) = E.text (.str b) → a = b

/-- A filter a v1 definition may have: a type, and bounds and values that are numbers or strings. -/
structure FilterV1 (f : Filter) : Prop where
  typ : f.typ ≠ none
  minimum : OptNumOrStr f.minimum
  maximum : OptNumOrStr f.maximum
  exclusiveMinimum : OptNumOrStr f.exclusiveMinimum
  exclusiveMaximum : OptNumOrStr f.exclusiveMaximum
  const : OptNumOrStr f.const
  enum : ∀ v ∈ f.enum, NumOrStr v

/-- A field of a v1 definition. -/
structure FieldV1 (f : Field) : Prop where
  path : f.path ≠ []
  filter : ∀ x, f.filter = some x → FilterV1 x
  predicate : Pref f.predicate
  needsFilter : f.predicate ≠ none → f.filter ≠ none
  notOptional : f.optional = false
  notRetained : f.intentToRetain = false

/-- A field of a v2 definition; `Meta` are the filters that are JSON schemas. -/
structure FieldV2 (Meta : Filter → Prop) (f : Field) : Prop where
  path : f.path ≠ []
  filter : ∀ x, f.filter = some x → Meta x
  predicate : Pref f.predicate
  needsFilter : f.predicate ≠ none → f.filter ≠ none ∧ f.optional = false

/-- Constraints, given which fields are allowed. -/
structure ConstraintsOk (F : Field → Prop) (c : Constraints) : Prop where
  limitDisclosure : Pref c.limitDisclosure
  subjectIsIssuer : Pref c.subjectIsIssuer
  isHolder : ∀ h ∈ c.isHolder, ∃ x, h = some x ∧ x.fieldID ≠ [] ∧ x.directive ≠ none ∧ Pref x.directive
  fields : ∀ f ∈ c.fields, ∃ x, f = some x ∧ F x

/-- No CWT format. -/
def NoCwt (f : PE.Format) : Prop := f.cwtVC = none ∧ f.cwtVP = none

/-- Every format of a v1 definition lists an algorithm or a proof type. -/
def FormatV1 (f : PE.Format) : Prop :=
  NoCwt f ∧ ∀ x ∈ [f.jwt, f.jwtVC, f.jwtVP, f.ldp, f.ldpVC, f.ldpVP], x ≠ some []

/-- A descriptor of a v1 definition: schemas, and no format of its own. -/
structure DescriptorV1 (d : Descriptor) : Prop where
  id : d.id ≠ ""
  metadata : d.metadata = []
  schema : ∃ l, d.schema = some l ∧ l ≠ [] ∧ ∀ s ∈ l, ∃ x, s = some x ∧ x.uri ≠ ""
  format : d.format = none
  constraints : ∀ c, d.constraints = some c → ConstraintsOk FieldV1 c

/-- A descriptor of a v2 definition: no schemas. -/
structure DescriptorV2 (Meta : Filter → Prop) (d : Descriptor) : Prop where
  id : d.id ≠ ""
  metadata : d.metadata = []
  schema : ∀ l, d.schema = some l → l = []
  format : ∀ f, d.format = some f → NoCwt f
  constraints : ∀ c, d.constraints = some c → ConstraintsOk (FieldV2 Meta) c

/-- A submission requirement: a known rule, no negative numbers, and either a group or nested
requirements. -/
inductive RequirementOk : Requirement → Prop
  | group {name purpose rule : String} {count min max : Int} {src : String} :
    (rule = "all" ∨ rule = "pick") → 0 ≤ count → 0 ≤ min → 0 ≤ max → src ≠ "" →
    RequirementOk (.mk name purpose rule count min max src [])
  | nested {name purpose rule : String} {count min max : Int} {l : List Requirement} :
    (rule = "all" ∨ rule = "pick") → 0 ≤ count → 0 ≤ min → 0 ≤ max → l ≠ [] →
    (∀ r ∈ l, RequirementOk r) → RequirementOk (.mk name purpose rule count min max "" l)

/-- What both versions ask of a definition. -/
structure Common (D : Descriptor → Prop) (pd : Definition) : Prop where
  id : pd.id ≠ ""
  locale : pd.locale = ""
  reqs : ∀ r ∈ pd.reqs, RequirementOk r
  nonempty : pd.descs ≠ []
  descs : ∀ d ∈ pd.descs, ∃ x, d = some x ∧ D x

/-- A v1 definition. -/
structure V1 (pd : Definition) : Prop extends Common DescriptorV1 pd where
  format : ∀ f, pd.format = some f → FormatV1 f
  frame : ∀ m, pd.frame = some m → m = []

/-- A v2 definition. -/
structure V2 (Meta : Filter → Prop) (pd : Definition) : Prop extends Common (DescriptorV2 Meta) pd where
  format : ∀ f, pd.format = some f → NoCwt f

end Spec

end VC.PD
