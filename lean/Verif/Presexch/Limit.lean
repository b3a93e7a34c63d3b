import Verif.Presexch.LimitSpec
import Verif.Presexch.Constraints
import Verif.Base.Strconv
import Verif.Util.JsonUtil
import Verif.Verifiable.Fields
/-!
# presexch: the contents of a limited credential (model)

Models `limitDisclosure` (the template), `copyOnlySubjectIDs`, `createNewCredential`,
`compactArrayPaths`, `getPath`, `splitLast`, `enhanceRevealDoc`, `enhanceRevealField` of
`presexch/definition.go`.

Libraries.  `jsonpathkeys` (parsing and evaluating JSON paths) is a parameter `eval` that returns the
places of the matches.  `gjson.GetBytes` (v1.14.3) and `sjson.SetBytes` (v1.1.4) are modelled for paths
that are dotted lists of plain components: the characters `\ * ? # | @ ! { [ :` of their path language
have no special meaning here, and a component `-1` is an ordinary one.  A component that consists of
digits is an array position when it meets an array or has to create a container.  Documents are decoded
JSON values; the rounding of numbers is not modelled.
-/

namespace VC.PE

open GoMap

/-- The array position that a path component denotes (`parseUint` in gjson, `atoui` in sjson). -/
def compIdx (c : String) : Option Nat := parseUDigits c.toList

/-- One component of `gjson.Get`. -/
def child : Json → String → Option Json
  | .obj o, c => get? o c
  | .arr l, c => (compIdx c).bind (fun n => l[n]?)
  | _, _ => none

/-- `gjson.Get` along the components of a path. -/
def ggetC : Json → List String → Option Json
  | j, [] => some j
  | j, c :: cs => (child j c).bind (fun x => ggetC x cs)

/-- `gjson.GetBytes(src, path)`; `none` is a result that does not exist. -/
def gget (src : Json) (path : String) : Option Json := ggetC src (split '.' path)

/-- `appendBuild` of sjson: the containers for components that do not exist yet. -/
def build (v : Json) : List String → Json
  | [] => v
  | c :: cs =>
    match compIdx c with
    | some n => .arr (List.replicate n .null ++ [build v cs])
    | none => .obj [(c, build v cs)]

/-- `appendRawPaths` of sjson; `none` is its error for a name that meets an array. -/
def ssetC (v : Json) : List String → Json → Option Json
  | [], _ => some v
  | c :: cs, .obj o =>
    match get? o c with
    | some x => (ssetC v cs x).map (fun y => .obj (set o c y))
    | none => some (.obj (set o c (build v cs)))
  | c :: cs, .arr l =>
    match compIdx c with
    | none => none
    | some n =>
      match l[n]? with
      | some x => (ssetC v cs x).map (fun y => .arr (l.set n y))
      | none => some (.arr (l ++ (List.replicate (n - l.length) .null ++ [build v cs])))
  | c :: cs, _ => some (build v (c :: cs))

/-- `sjson.SetBytes(doc, path, v)`; the empty path is an error. -/
def sset (doc : Json) (path : String) (v : Json) : Option Json :=
  if path = "" then none else ssetC v (split '.' path) doc

/-- `pathTransform`, definition.go:1649-1652. -/
structure PathPair where
  newPath : String
  oldPath : String

/-- The counter map after an array position was met, definition.go:1664-1671. -/
def bump (m : GoMap Nat) (counterKey mapperKey : String) : GoMap Nat :=
  if (get? m mapperKey).isSome then m
  else
    let m1 := set m mapperKey ((get? m counterKey).getD 0)
    set m1 counterKey ((get? m1 counterKey).getD 0 + 1)

/-- The loop of `getPath`, definition.go:1660-1677: `orig` and `new` are the components so far. -/
def getPathLoop (orig new : List String) (m : GoMap Nat) : List Step → PathPair × GoMap Nat
  | [] => (⟨joinC '.' new, joinC '.' orig⟩, m)
  | .idx n :: ks =>
    let orig' := orig ++ [toString n]
    let m' := bump m (joinC '.' orig) (joinC '.' orig')
    getPathLoop orig' (new ++ [toString ((get? m' (joinC '.' orig')).getD 0)]) m' ks
  | .name k :: ks => getPathLoop (orig ++ [k]) (new ++ [k]) m ks

/-- `getPath`, definition.go:1654-1680. -/
def getPath (keys : List Step) (m : GoMap Nat) : PathPair × GoMap Nat := getPathLoop [] [] m keys

/-- The loop of `compactArrayPaths`, definition.go:1354-1361. -/
def compactLoop (m : GoMap Nat) : List (List Step) → List PathPair
  | [] => []
  | ks :: rest => (getPath ks m).1 :: compactLoop (getPath ks m).2 rest

/-- `compactArrayPaths`, definition.go:1339-1364; `eval` is `ParsePaths` and `EvalPathsInReader`. -/
def compactArrayPaths (eval : List String → Json → Option (List (List Step))) (keys : List String)
    (src : Json) : Option (List PathPair) :=
  (eval keys src).map (compactLoop [])

/-- One path of `createNewCredential`, definition.go:1282-1306 (without the explicit paths). -/
def setPath (src : Json) (predicate : Bool) (doc : Json) (p : PathPair) : Option Json :=
  if contains p.newPath "credentialSchema" then some doc
  else sset doc p.newPath (if predicate then .bool true else (gget src p.oldPath).getD .null)

/-- The paths of a field, definition.go:1282-1306. -/
def setPaths (src : Json) (predicate : Bool) (doc : Json) : List PathPair → Option Json
  | [] => some doc
  | p :: ps => (setPath src predicate doc p).bind (fun d => setPaths src predicate d ps)

/-- The field loop of `createNewCredential`, definition.go:1276-1307. -/
def setFields (eval : List String → Json → Option (List (List Step))) (src : Json) (doc : Json) :
    List Field → Option Json
  | [] => some doc
  | f :: fs =>
    (compactArrayPaths eval f.path src).bind (fun ps =>
      (setPaths src f.predicateReq doc ps).bind (fun d => setFields eval src d fs))

/-- `copyOnlySubjectIDs`, definition.go:1244-1260 (a nil slice is written as null). -/
def copyOnlySubjectIDs : List Vfy.Subject → Json
  | [] => .null
  | [s] => if s.custom.isEmpty then .str s.id else .obj (Vfy.subjectToJSON ⟨s.id, []⟩)
  | ss => .arr (ss.map (fun s => .obj (Vfy.subjectToJSON ⟨s.id, []⟩)))

/-- The template of `limitDisclosure`, definition.go:1058-1083: `raw` is `ToRawJSON()`. -/
def template (limitReq : Bool) (raw : JObj) (subjects : List Vfy.Subject) : JObj :=
  if limitReq then
    set (JsonUtil.select raw ["id", "type", "@context", "issuer", "issuanceDate"])
      "credentialSubject" (copyOnlySubjectIDs subjects)
  else raw

/-- The document that `createNewCredential` hands to `ParseCredential` (or, for a BBS+ credential,
enhances to a reveal document), definition.go:1058-1089 and 1276-1307.  For a credential that is not an
SD-JWT `credentialSrc` is `ToRawJSON()` too (definition.go:978). -/
def limitedDoc (eval : List String → Json → Option (List (List Step))) (k : Constraints) (raw : JObj)
    (subjects : List Vfy.Subject) : Option Json :=
  setFields eval (.obj raw) (.obj (template k.limitReq raw subjects)) k.fields

end VC.PE
