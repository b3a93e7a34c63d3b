import Verif.Util.JsonUtil
/-!
# verifiable: field codecs (C46, C58)

Parsers and serializers for the fields of a credential: strings, `type`, `@context`, typed ids,
issuer, subject and proofs (`verifiable/common.go`, `verifiable/credential.go`).

Go distinguishes `[]interface{}` from `[]map[string]interface{}`, `[]string` and
`[]RelatedResource`; a type switch sees the difference.  `GVal` keeps it for the values a credential
object can hold at its top level.  `GVal.wire` is `json.Unmarshal ∘ json.Marshal`.

Errors carry no message: a failing parser is `none`.
-/

namespace VC.Vfy

open GoMap

/-! ## Values -/

/-- `RelatedResource`, credential.go:862-867. -/
structure RelRes where
  id : String
  digestSRI : String
  digestMultibase : String
  mediaType : String
  deriving DecidableEq, Repr

/-- The object `json.Marshal` writes for a `RelatedResource`: four `omitempty` strings,
credential.go:862-867. -/
def RelRes.toJson (r : RelRes) : JObj :=
  (if r.id = "" then [] else [("id", .str r.id)]) ++
  (if r.digestSRI = "" then [] else [("digestSRI", .str r.digestSRI)]) ++
  (if r.digestMultibase = "" then [] else [("digestMultibase", .str r.digestMultibase)]) ++
  (if r.mediaType = "" then [] else [("mediaType", .str r.mediaType)])

/-- A Go value stored under a key of a credential object: a decoded JSON value, or one of the typed
slices the serializers store (`[]map[string]interface{}` credential.go:2165,2485,2580; `[]string`
common.go:266; `[]RelatedResource` credential.go:2512). -/
inductive GVal where
  | json : Json → GVal
  | objs : List JObj → GVal
  | strs : List String → GVal
  | rrs : List RelRes → GVal

/-- A credential object as it lives in memory. -/
abbrev GObj := GoMap GVal

/-- `json.Unmarshal(json.Marshal(v))`: typed slices come back as `[]interface{}`. -/
def GVal.wire : GVal → Json
  | .json j => j
  | .objs l => .arr (l.map .obj)
  | .strs l => .arr (l.map .str)
  | .rrs l => .arr (l.map (fun r => .obj r.toJson))

/-- A whole object through `json.Marshal` and `json.Unmarshal`. -/
def wireObj (o : GObj) : JObj := o.map (fun p => (p.1, p.2.wire))

/-- A freshly unmarshalled object: every value is a plain JSON value. -/
def ofWire (o : JObj) : GObj := o.map (fun p => (p.1, .json p.2))

/-- `obj[k]` on a credential object: nil when absent. -/
def GObj.at (o : GObj) (k : String) : GVal := (get? o k).getD (.json .null)

/-! ## Strings -/

/-- `parseStringFld`, common.go:352-366: nil gives the empty string, a non-string is an error. -/
def parseStringFld (o : JObj) (k : String) : Option String :=
  match JObj.at o k with
  | .null => some ""
  | .str s => some s
  | _ => none

/-- `stringSlice`, common.go:237-250. -/
def stringSlice : List Json → Option (List String)
  | [] => some []
  | .str s :: l => (stringSlice l).map (s :: ·)
  | _ :: _ => none

/-- `decodeType`, common.go:255-271. -/
def decodeType : GVal → Option (List String)
  | .json (.str s) => some [s]
  | .json (.arr l) => stringSlice l
  | .strs l => some l
  | _ => none

/-- The loop of `decodeContext`, common.go:286-296: strings up to the first non-string, then the
remaining slice unchanged. -/
def splitContext : List Json → List String × List Json
  | .str s :: l => (s :: (splitContext l).1, (splitContext l).2)
  | l => ([], l)

/-- `decodeContext`, common.go:279-302. -/
def decodeContext : GVal → Option (List String × List Json)
  | .json (.str s) => some ([s], [])
  | .json (.arr l) => some (splitContext l)
  | .strs l => some (l, [])
  | _ => none

/-- `serializeTypes`, credential.go:2551-2561. -/
def serializeTypes : List String → Json
  | [t] => .str t
  | ts => .arr (ts.map .str)

/-- `contextToRaw`, credential.go:2563-2573. -/
def contextToRaw (context : List String) (custom : List Json) : List Json :=
  context.map .str ++ custom

/-! ## Base context -/

/-- `V1ContextURI`, jsonld.go:15. -/
def v1ContextURI : String := "https://www.w3.org/2018/credentials/v1"
/-- `V2ContextURI`, jsonld.go:19. -/
def v2ContextURI : String := "https://www.w3.org/ns/credentials/v2"

/-- `IsBaseContext`, jsonld.go:62-68. -/
def isBaseContext (contexts : List String) (ctx : String) : Bool :=
  match contexts with
  | [] => false
  | c :: _ => c == ctx

/-- `GetBaseContext`, jsonld.go:27-39. -/
def getBaseContext : List String → Option String
  | [] => none
  | c :: _ => if c = v1ContextURI ∨ c = v2ContextURI then some c else none

/-- `HasBaseContext`, jsonld.go:71-83. -/
def hasBaseContext (doc : GObj) (ctx : String) : Bool :=
  match get? doc "@context" with
  | none => false
  | some raw =>
    match decodeContext raw with
    | none => false
    | some (cs, _) => isBaseContext cs ctx

/-! ## Typed ids -/

/-- `TypedID`, common.go:142-147. -/
structure TypedID where
  id : String
  type : String
  custom : JObj

/-- `parseTypedIDObj`, common.go:149-167. -/
def parseTypedIDObj (o : JObj) : Option TypedID := do
  let id ← parseStringFld (JsonUtil.splitObj ["id", "type"] o).1 "id"
  let t ← parseStringFld (JsonUtil.splitObj ["id", "type"] o).1 "type"
  return ⟨id, t, (JsonUtil.splitObj ["id", "type"] o).2⟩

/-- `serializeTypedIDObj`, common.go:169-176. -/
def serializeTypedIDObj (t : TypedID) : JObj :=
  set (set t.custom "id" (.str t.id)) "type" (.str t.type)

/-- The loops of `parseTypedID` (credential.go:1885-1897) and `newTypedIDArray`
(common.go:204-223): every element must be an object that parses. -/
def parseTypedIDs : List Json → Option (List TypedID)
  | [] => some []
  | .obj o :: l => do
    let t ← parseTypedIDObj o
    let ts ← parseTypedIDs l
    return t :: ts
  | _ :: _ => none

/-- `parseTypedID`, credential.go:1869-1903.  A typed slice matches no case of the type switch. -/
def parseTypedID : GVal → Option (List TypedID)
  | .json .null => some []
  | .json (.obj o) => (parseTypedIDObj o).map ([·])
  | .json (.arr l) => parseTypedIDs l
  | _ => none

/-- `newTypedIDArray`, common.go:178-226: unlike `parseTypedID` it accepts `[]JSONObject`. -/
def newTypedIDArray : GVal → Option (List TypedID)
  | .json .null => some []
  | .json (.obj o) => (parseTypedIDObj o).map ([·])
  | .json (.arr l) => parseTypedIDs l
  | .objs l => parseTypedIDs (l.map .obj)
  | _ => none

/-- `typedIDsToRaw`, credential.go:2575-2582. -/
def typedIDsToRaw : List TypedID → GVal
  | [t] => .json (.obj (serializeTypedIDObj t))
  | ts => .objs (ts.map serializeTypedIDObj)

/-! ## Issuer -/

/-- `Issuer`, credential.go:770-774. -/
structure Issuer where
  id : String
  custom : JObj

/-- `IssuerToJSON`, credential.go:777-785. -/
def issuerToJSON (i : Issuer) : JObj :=
  if i.id ≠ "" then set i.custom "id" (.str i.id) else i.custom

/-- `IssuerFromJSON`, credential.go:788-804. -/
def issuerFromJSON (o : JObj) : Option Issuer := do
  let id ← parseStringFld (JsonUtil.splitObj ["id"] o).1 "id"
  if id = "" then none else some ⟨id, (JsonUtil.splitObj ["id"] o).2⟩

/-- `parseIssuer`, credential.go:1328-1345 (`some none` is `nil, nil`). -/
def parseIssuer : GVal → Option (Option Issuer)
  | .json .null => some none
  | .json (.str s) => if s = "" then none else some (some ⟨s, []⟩)
  | .json (.obj o) => (issuerFromJSON o).map some
  | _ => none

/-- `serializeIssuer`, credential.go:1347-1353. -/
def serializeIssuer (i : Issuer) : Json :=
  if i.custom.isEmpty then .str i.id else .obj (issuerToJSON i)

/-! ## Subject -/

/-- `Subject`, credential.go:811-815. -/
structure Subject where
  id : String
  custom : JObj

/-- `SubjectToJSON`, credential.go:818-826. -/
def subjectToJSON (s : Subject) : JObj :=
  if s.id ≠ "" then set s.custom "id" (.str s.id) else s.custom

/-- `SubjectFromJSON`, credential.go:829-841. -/
def subjectFromJSON (o : JObj) : Option Subject := do
  let id ← parseStringFld (JsonUtil.splitObj ["id"] o).1 "id"
  return ⟨id, (JsonUtil.splitObj ["id"] o).2⟩

/-- The loop of `parseSubject`, credential.go:1376-1388. -/
def parseSubjects : List Json → Option (List Subject)
  | [] => some []
  | .obj o :: l => do
    let t ← subjectFromJSON o
    let ts ← parseSubjects l
    return t :: ts
  | _ :: _ => none

/-- `parseSubject`, credential.go:1358-1394.  `[]map[string]interface{}` matches no case. -/
def parseSubject : GVal → Option (List Subject)
  | .json .null => some []
  | .json (.str s) => some [⟨s, []⟩]
  | .json (.obj o) => (subjectFromJSON o).map ([·])
  | .json (.arr l) => parseSubjects l
  | _ => none

/-- `SerializeSubject`, credential.go:2156-2166, for a non-nil slice. -/
def serializeSubject : List Subject → GVal
  | [s] => .json (.obj (subjectToJSON s))
  | ss => .objs (ss.map subjectToJSON)

/-- `SubjectID`, credential.go:2440-2454. -/
def subjectID : List Subject → Option String
  | [s] => if s.id = "" then none else some s.id
  | _ => none

/-! ## Proofs -/

/-- The loop in `parseLDProof`, common.go:339-346. -/
def parseLDProofs : List Json → Option (List JObj)
  | [] => some []
  | .obj o :: l => (parseLDProofs l).map (o :: ·)
  | _ :: _ => none

/-- `parseLDProof`, common.go:330-350. -/
def parseLDProof : GVal → Option (List JObj)
  | .json .null => some []
  | .json (.obj o) => some [o]
  | .json (.arr l) => parseLDProofs l
  | _ => none

/-- `proofsToRaw`, common.go:317-328. -/
def proofsToRaw : List JObj → Json
  | [] => .null
  | [p] => .obj p
  | ps => .arr (ps.map .obj)

/-! ## Related resources -/

/-- `stringify`, credential.go:1861-1867, on the values it can print exactly: nil and strings.  The
text `fmt.Sprint` produces for any other value is the parameter `sprint`. -/
def stringify (sprint : Json → String) : Json → String
  | .null => ""
  | .str s => s
  | v => sprint v

/-- The loop of `parseRelatedResources`, credential.go:1844-1856. -/
def parseRelRess (sprint : Json → String) : List Json → Option (List RelRes)
  | [] => some []
  | .obj o :: l =>
    (parseRelRess sprint l).map
      (⟨stringify sprint (JObj.at o "id"), stringify sprint (JObj.at o "digestSRI"),
        stringify sprint (JObj.at o "digestMultibase"),
        stringify sprint (JObj.at o "mediaType")⟩ :: ·)
  | _ :: _ => none

/-- `parseRelatedResources`, credential.go:1832-1859. -/
def parseRelatedResources (sprint : Json → String) : GVal → Option (List RelRes)
  | .json .null => some []
  | .json (.arr l) => parseRelRess sprint l
  | _ => none

end VC.Vfy
