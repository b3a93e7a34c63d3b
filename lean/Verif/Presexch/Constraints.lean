import Verif.Base.Json
import Verif.Base.Str
import Mathlib.Data.List.Perm.Basic
/-!
# presexch: which credentials match a descriptor (model)

Models `filterConstraints`, `filterField`, `filterFormat`, `filterSchema`, `limitDisclosure` of
`presexch/definition.go`.  JSON path parsing and evaluation, JSON schema validation, RFC 3339 parsing
and JSON-LD context loading are libraries and are parameters (`PEnv`).
-/

namespace VC.PE

/-- `Filter`, definition.go:195-216: the parts the Go code looks at; `rest` stands for the other
keywords, which only the schema validator reads. -/
structure Filter where
  typ : Option String
  format : String
  minimum : Option Json
  allOf : List Json
  rest : Json

/-- `Field`, definition.go:185-193. -/
structure Field where
  path : List String
  filter : Option Filter
  optional : Bool
  predicateReq : Bool

/-- `Constraints`, definition.go:176-182; the preferences are kept as "is `required`". -/
structure Constraints where
  limitReq : Bool
  subjectIsIssuerReq : Bool
  fields : List Field

/-- What matching reads of a `verifiable.Credential`.  `display` is the credential as JSON with all
disclosures shown (definition.go:968-984), `none` if that fails. -/
structure Cred where
  id : String
  contexts : List String
  types : List String
  issuer : Option String
  subjects : List String
  isJWT : Bool
  alg : Option String
  proofTypes : List String
  isSDJWT : Bool
  hasBBS : Bool
  display : Option JObj

/-- A schema handed to the validator: the (adapted) filter itself or one of its `allOf` members. -/
inductive Sch where
  | main (f : Filter)
  | sub (j : Json)

/-- Libraries; `order` is the iteration order of the map of path replacements (any permutation). -/
structure PEnv where
  Path : Type
  parse : String → Option Path
  select : Path → JObj → List Json
  valid : Sch → Json → Bool
  rfc3339 : String → Option Int
  order : List (String × String)

/-- What `checkPathValue` and `filterField` return: nil, an error that is `errPathNotApplicable`,
another error, or a nil dereference. -/
inductive FRes where
  | ok
  | na
  | hard
  | panic
  deriving DecidableEq

/-- `strings.Replace(s, old, new, 1)` for non-empty `old`. -/
def replaceL (old new : List Char) : List Char → List Char
  | [] => []
  | c :: cs =>
    if old.isPrefixOf (c :: cs) then new ++ (c :: cs).drop old.length else c :: replaceL old new cs

/-- `strings.Replace(s, old, new, 1)`. -/
def replaceOnce (s old new : String) : String :=
  String.ofList (replaceL old.toList new.toList s.toList)

/-- `strings.Contains`. -/
def containsL (sub : List Char) : List Char → Bool
  | [] => sub.isEmpty
  | c :: cs => sub.isPrefixOf (c :: cs) || containsL sub cs

/-- `strings.Contains(s, sub)`. -/
def contains (s sub : String) : Bool := containsL sub.toList s.toList

/-- Unicode simple case folding on the characters that occur in "$.issuer" (`ſ` folds to `s`). -/
def foldC (c : Char) : Char := if c = 'ſ' then 's' else if c.isUpper then c.toLower else c

/-- `strings.EqualFold(path, "$.issuer")`, definition.go:1533. -/
def isIssuerPath (path : String) : Bool := path.toList.map foldC == "$.issuer".toList

/-- `replacements`, definition.go:1521-1525. -/
def replacements : List (String × String) := [("$.vc.", "$."), ("$.vc[", "$["), ("$['vc']", "$")]

/-- The compatibility rewriting of paths for JWT credentials, definition.go:1520-1541. -/
def rewritePath (order : List (String × String)) (isJWT : Bool) (cred : JObj) (path : String) :
    String :=
  if isJWT then
    let p := order.foldl (fun p r => replaceOnce p r.1 r.2) path
    if isIssuerPath p then
      match JObj.at cred "issuer" with
      | .obj o => if (GoMap.get? o "id").isSome then "$.issuer.id" else p
      | _ => p
    else p
  else path

/-- A segment of `convertToRFC9535Format`, definition.go:1496-1507. -/
def convSegs : Bool → List String → String
  | _, [] => ""
  | first, s :: ss =>
    (if contains s "-" && !contains s "['" then "['" ++ s ++ "']"
     else (if first then "" else ".") ++ s) ++ convSegs false ss

/-- `convertToRFC9535Format`, definition.go:1490-1510. -/
def convertPath (path : String) : String := convSegs true (split '.' path)

/-- The first of the two spellings that parses, definition.go:1547-1570. -/
def parsePath (E : PEnv) (path : String) : Option E.Path :=
  match E.parse path with
  | some p => some p
  | none => E.parse (convertPath path)

/-- `isDateField`, definition.go:1635-1647. -/
def isDateField (paths : List String) : Bool :=
  paths.any (fun p => [".expirationDate", ".issuanceDate", ".validFrom", ".validUntil"].any
    (fun k => contains p k))

/-- Conversion of a date to a Unix timestamp, definition.go:1601-1608. -/
def dateValue (E : PEnv) (isJWT : Bool) (f : Field) (v : Json) : Json :=
  if isJWT && isDateField f.path then
    match v with
    | .str s =>
      match E.rfc3339 s with
      | some t => .num t
      | none => v
    | _ => v
  else v

/-- The schema of a filter, definition.go:1458-1474 (the type is known not to be nil). -/
def adaptFilter (E : PEnv) (fl : Filter) : Filter :=
  if fl.typ = some "string" ∧ fl.format = "date-time" then
    match fl.minimum with
    | some (.str v) =>
      if v ≠ "" then
        match E.rfc3339 v with
        | some t => { fl with typ := some "number", format := "", minimum := some (.num t) }
        | none => fl
      else fl
    | _ => fl
  else fl

/-- The schemas to run, definition.go:1615-1623. -/
def schemasOf (E : PEnv) (fl : Filter) : List Sch :=
  if fl.allOf.isEmpty then [.main (adaptFilter E fl)] else fl.allOf.map .sub

/-- `validatePath`, definition.go:1596-1633. -/
def validatePath (E : PEnv) (f : Field) (isJWT : Bool) (v : Json) : FRes :=
  match f.filter with
  | none => .ok
  | some fl => if (schemasOf E fl).all (fun s => E.valid s (dateValue E isJWT f v)) then .ok else .na

/-- One value or the array of values, definition.go:1581-1591. -/
def packValues : List Json → Json
  | [v] => v
  | vs => .arr vs

/-- `checkPathValue`, definition.go:1513-1594.  Line 1543 has the arguments of the second `HasPrefix`
swapped. -/
def checkPathValue (E : PEnv) (isJWT : Bool) (cred : JObj) (f : Field) (path : String) : FRes :=
  let p := rewritePath E.order isJWT cred path
  if !hasPrefix p "$" && !hasPrefix "@" p then .hard
  else
    match parsePath E p with
    | none => .hard
    | some q =>
      if (E.select q cred).isEmpty then (if f.optional then .ok else .na)
      else validatePath E f isJWT (packValues (E.select q cred))

/-- The loop over the paths, definition.go:1476-1487: `lastErr` is nil, or an error that may contain
`errPathNotApplicable`. -/
def fieldLoop (check : String → FRes) : List String → FRes → FRes
  | [], last => last
  | p :: ps, last =>
    match check p with
    | .ok => .ok
    | .panic => .panic
    | .na => fieldLoop check ps .na
    | .hard => fieldLoop check ps (if last = .na then .na else .hard)

/-- `filterField`, definition.go:1457-1488. -/
def filterField (E : PEnv) (isJWT : Bool) (cred : JObj) (f : Field) : FRes :=
  match f.filter with
  | some ⟨none, _, _, _, _⟩ => .panic
  | _ => fieldLoop (checkPathValue E isJWT cred f) f.path .ok

/-- `subjectIsIssuer`, definition.go:924-936. -/
def subjectIsIssuer (c : Cred) : Bool :=
  match c.issuer with
  | none => false
  | some i => c.subjects.any (fun s => s ≠ "" && s == i)

/-- Result of filtering: credentials, an error, or a panic. -/
inductive FilterOut (β : Type) where
  | ok (v : β)
  | error
  | panic
  deriving DecidableEq

/-- The loop over the fields of one credential, definition.go:990-1003; `some b`: `applicable = b`. -/
def fieldsLoop (check : Field → FRes) : List Field → Bool → FilterOut Bool
  | [], applicable => .ok applicable
  | f :: fs, _ =>
    match check f with
    | .na => .ok false
    | .hard => .error
    | .panic => .panic
    | .ok => fieldsLoop check fs true

/-- One credential of `filterConstraints`, definition.go:958-1008. -/
def constraintsOne (E : PEnv) (k : Constraints) (c : Cred) : FilterOut Bool :=
  if k.subjectIsIssuerReq && !subjectIsIssuer c then .ok false
  else
    match c.display with
    | none => .ok false
    | some m => fieldsLoop (filterField E c.isJWT m) k.fields false

/-- The loop over the credentials, definition.go:958-1018. -/
def filterLoop (one : Cred → FilterOut Bool) : List Cred → FilterOut (List Cred)
  | [] => .ok []
  | c :: cs =>
    match one c with
    | .error => .error
    | .panic => .panic
    | .ok b =>
      match filterLoop one cs with
      | .ok r => .ok (if b then c :: r else r)
      | .error => .error
      | .panic => .panic

/-- `filterConstraints`, definition.go:939-1021. -/
def filterConstraints (E : PEnv) (k : Option Constraints) (cs : List Cred) : FilterOut (List Cred) :=
  match k with
  | none => .ok cs
  | some k => filterLoop (constraintsOne E k) cs

/-! ## Formats -/

/-- `Format`, definition.go:86-97: proof types and algorithms; `cwt*` are parsed but never read. -/
structure Format where
  jwt : Option (List String)
  jwtVC : Option (List String)
  jwtVP : Option (List String)
  ldp : Option (List String)
  ldpVC : Option (List String)
  ldpVP : Option (List String)
  cwtVC : Option (List String)
  cwtVP : Option (List String)

/-- `notNil`, definition.go:99-102. -/
def Format.notNil (f : Format) : Bool :=
  f.jwt.isSome || f.jwtVC.isSome || f.jwtVP.isSome || f.ldp.isSome || f.ldpVC.isSome || f.ldpVP.isSome

/-- `credByProof`, definition.go:1837-1849. -/
def credByProof (c : Cred) : Option (List String) → Bool
  | none => false
  | some pts => pts.any (fun t => c.proofTypes.contains t)

/-- `algMatch` with the `IsJWT` guard, definition.go:1775-1796, 1823-1835; `fold` is case folding
(`strings.EqualFold a b` iff the foldings are equal). -/
def credByAlg (fold : String → String) (c : Cred) : Option (List String) → Bool
  | none => false
  | some algs => c.isJWT && (match c.alg with | none => false | some a => algs.any (fun b => fold a == fold b))

/-- `filterFormat`, definition.go:1758-1821. -/
def filterFormat (fold : String → String) (f : Format) (cs : List Cred) : String × List Cred :=
  let ldp := cs.filter (fun c => credByProof c f.ldp)
  let ldpVC := cs.filter (fun c => credByProof c f.ldpVC)
  let ldpVP := cs.filter (fun c => credByProof c f.ldpVP)
  let jwt := cs.filter (fun c => credByAlg fold c f.jwt)
  let jwtVC := cs.filter (fun c => credByAlg fold c f.jwtVC)
  let jwtVP := cs.filter (fun c => credByAlg fold c f.jwtVP)
  if ldp ≠ [] then ("ldp", ldp)
  else if ldpVC ≠ [] then ("ldp_vc", ldpVC)
  else if ldpVP ≠ [] then ("ldp_vp", ldpVP)
  else if jwt ≠ [] then ("jwt", jwt)
  else if jwtVC ≠ [] then ("jwt_vc", jwtVC)
  else if jwtVP ≠ [] then ("jwt_vp", jwtVP)
  else ("", [])

/-! ## Schemas -/

/-- `Schema`, definition.go:165-168. -/
structure Schema where
  uri : String
  required : Bool

/-- The schema URIs of a credential, definition.go:1858-1883.  `load ctx` gives, for a context URI,
the IDs of each type in it (`typeFoundInContext`), or fails. -/
def schemaIDs (load : String → Option (String → List String)) (types : List String) :
    List String → Option (List String)
  | [] => some []
  | ctx :: ctxs =>
    match load ctx with
    | none => none
    | some ids => (schemaIDs load types ctxs).map (fun r => types.flatMap ids ++ r)

/-- The loop over the schemas, definition.go:1885-1895. -/
def schemaLoop (sat : List String) : List Schema → Bool → Bool
  | [], a => a
  | s :: ss, a =>
    if sat.contains s.uri then schemaLoop sat ss true
    else if s.required then false
    else schemaLoop sat ss a

/-- `filterSchema`, definition.go:1852-1904; `none`: a context cannot be loaded. -/
def filterSchema (load : String → Option (String → List String)) (schemas : List Schema) :
    List Cred → Option (List Cred)
  | [] => some []
  | c :: cs =>
    match schemaIDs load c.types c.contexts with
    | none => none
    | some sat => (filterSchema load schemas cs).map
        (fun r => if schemaLoop sat schemas false then c :: r else r)

/-! ## A whole descriptor -/

/-- `InputDescriptor`, definition.go:153-162, as far as matching one descriptor goes. -/
structure MDesc where
  schema : Option (List Schema)
  constraints : Option Constraints
  format : Option Format

/-- Libraries of `filterCredentialsThatMatchDescriptor`. -/
structure MEnv extends PEnv where
  fold : String → String
  load : String → Option (String → List String)

/-- The format to apply: `notNil` of the descriptor's, else of the definition's,
definition.go:846-856. -/
def effFormat (pdFormat dFormat : Option Format) : Option Format :=
  if (dFormat.map Format.notNil).getD false then dFormat
  else if (pdFormat.map Format.notNil).getD false then pdFormat
  else none

/-- `filterCredentialsThatMatchDescriptor`, definition.go:841-872. -/
def filterDescriptor (E : MEnv) (pdFormat : Option Format) (d : MDesc) (cs : List Cred) :
    FilterOut (String × List Cred) :=
  let r := match effFormat pdFormat d.format with
    | some f => filterFormat E.fold f cs
    | none => ("", cs)
  match (match d.schema with | none => some r.2 | some ss => filterSchema E.load ss r.2) with
  | none => .error
  | some cs2 =>
    match filterConstraints E.toPEnv d.constraints cs2 with
    | .ok cs3 => .ok (r.1, cs3)
    | .error => .error
    | .panic => .panic

/-! ## Limited disclosure -/

/-- `limitDisclosure` for one credential that passed, definition.go:1028-1125.  `derive` is
`createNewCredential` (and the unsecured JWT made of it), `restrict` is `getLimitedDisclosures` with
`SetSDJWTDisclosures`, both for the given constraints; `tmp` is `tmpID`.  Outer `none`: error; inner `none`: the credential is
left out. -/
def limitOne (derive restrict : Constraints → Cred → Option Cred) (tmp : String → String)
    (k : Option Constraints) (c : Cred) : Option (Option (String × Cred)) :=
  match k with
  | none => some (some (c.id, c))
  | some k =>
    let predicate := k.fields.any Field.predicateReq
    if k.limitReq && !(predicate || (c.isSDJWT || c.hasBBS) || subjectIsIssuer c) then some none
    else if (k.limitReq || predicate) && !c.isSDJWT then
      match derive k c with
      | none => none
      | some c' => some (some (tmp c.id, c'))
    else if k.limitReq && c.isSDJWT then
      match restrict k c with
      | none => none
      | some c' => some (some (c.id, c'))
    else some (some (c.id, c))

/-- `limitDisclosure`, definition.go:1024-1129.  `tmpID`, 1262-1264, appends a random identifier: `tmp n`
is what it does for the `n`-th credential. -/
def limitDisclosure (derive restrict : Constraints → Cred → Option Cred) :
    (tmp : Nat → String → String) → (k : Option Constraints) → List Cred → Option (List (String × Cred))
  | _, _, [] => some []
  | tmp, k, c :: cs =>
    match limitOne derive restrict (tmp 0) k c with
    | none => none
    | some r => (limitDisclosure derive restrict (fun n => tmp (n + 1)) k cs).map
        (fun rs => match r with | none => rs | some w => w :: rs)

end VC.PE
