import Verif.Presexch.Merge
import Verif.Presexch.Apply
import Verif.Verifiable.Fields
/-!
# presexch: from `CreateVP` to `Match` (model and specification, C101)

The holder side of `presexch/definition.go` put together (`CreateVP`, `CreateVPArray`,
`presentationData`, `presentation`), the JSON of the submission it writes, and what it means that the
verifier gets the presentation.  The credentials are frames-applied already (`frameCreds` is part of
the input); the sharing of SD-JWT credentials between descriptors is in `ApplyState.lean`.
-/

namespace VC.PE

/-- `InputDescriptor`, definition.go:153-162. -/
structure FDesc where
  id : String
  group : List String
  schema : Option (List Schema)
  constraints : Option Constraints
  format : Option Format

/-- `PresentationDefinition`, definition.go:120-137, the parts that are read. -/
structure Definition where
  format : Option Format
  reqs : List SubReq
  descs : List FDesc

/-- The descriptor as the submission requirements see it. -/
def FDesc.toDesc (d : FDesc) : Desc := ⟨d.id, d.group⟩

/-- The descriptor as `filterCredentialsThatMatchDescriptor` sees it. -/
def FDesc.toM (d : FDesc) : MDesc := ⟨d.schema, d.constraints, d.format⟩

/-- The descriptor as `Match` sees it (a nil slice of schemas is an empty one). -/
def FDesc.toI (d : FDesc) : IDesc := ⟨d.id, d.schema.getD [], d.constraints⟩

/-- Libraries of the holder: those of matching, deriving a credential, restricting disclosures, the
temporary unique ID, the two sorts, and random IDs (`uuid`). -/
structure HolderEnv extends MEnv where
  derive : Constraints → Cred → Option Cred
  restrict : Constraints → Cred → Option Cred
  /-- by descriptor and position -/
  tmp : String → Nat → String → String
  sortKeys : List String → List String
  sortMaps : List MapOut → List MapOut
  uuid : Nat → String

/-- How evaluating a descriptor fails. -/
inductive Fail where
  | error
  | panic
  deriving DecidableEq

/-- Evaluating a descriptor, definition.go:786-796 (`descs[descID]` is nil for an unknown ID). -/
def evalDesc (H : HolderEnv) (pd : Definition) (creds : List Cred) (id : String) :
    Except Fail (String × List (String × Cred)) :=
  match pd.descs.find? (fun d => d.id == id) with
  | none => .error .panic
  | some d =>
    match filterDescriptor H.toMEnv pd.format d.toM creds with
    | .error => .error .error
    | .panic => .error .panic
    | .ok (f, cs) =>
      match limitDisclosure H.derive H.restrict (H.tmp d.id) d.constraints cs with
      | none => .error .error
      | some ws => .ok (f, ws)

/-- A presentation as the holder makes it: context, type, ID and credentials. -/
structure Created where
  id : String
  contexts : List String
  types : List String
  creds : List Cred

/-- The loop of `getBaseContext`, definition.go:1971-1986; `acc` is `baseContext`, empty at first. -/
def baseContextLoop : String → List Cred → Option String
  | acc, [] => some acc
  | acc, c :: cs =>
    match Vfy.getBaseContext c.contexts with
    | none => none
    | some b => if acc = "" then baseContextLoop b cs else if acc ≠ b then none else baseContextLoop acc cs

/-- `getBaseContext`, definition.go:1971-1992. -/
def presBaseContext (cs : List Cred) : Option String :=
  match baseContextLoop "" cs with
  | none => none
  | some b => if b = "" then none else some b

/-- `lo.Contains` and `append`, definition.go:588-594. -/
def addMissing (l : List String) (x : String) : List String := if l.contains x then l else l ++ [x]

/-- `presentation`, definition.go:575-600 with `NewPresentation`, `WithCredentials` and
`WithBaseContext`, presentation.go:355-389. -/
def makePresentation (id : String) (cs : List Cred) : Option Created :=
  match presBaseContext cs with
  | none => none
  | some b => some ⟨id,
      addMissing [b] "https://identity.foundation/presentation-exchange/submission/v1",
      addMissing ["VerifiablePresentation"] "PresentationSubmission", cs⟩

/-- The merged credentials and mappings of a result, definition.go:561 (keys and mappings sorted). -/
def mergedOf (H : HolderEnv) (sep : Bool) (fmt : String) (m : GoMap (List (String × Cred))) :
    List Cred × List MapOut :=
  let st := merge Cred.isJWT sep fmt m (H.sortKeys (GoMap.keys m))
  (st.result, H.sortMaps st.out)

/-- `presentationData` without `ValidateSchema`, definition.go:540-573. -/
def presentationData (H : HolderEnv) (dflt : String) (pd : Definition) (creds : List Cred) :
    Option (Outcome Fail (String × GoMap (List (String × Cred)))) :=
  solveDefinition (evalDesc H pd creds) dflt pd.reqs (pd.descs.map FDesc.toDesc)

/-- What a call returns. -/
inductive CreateOut (β : Type) where
  | ok (v : β)
  | error
  | noCredentials
  | panic

/-- `CreateVP`, definition.go:480-506. -/
def createVP (H : HolderEnv) (dflt : String) (pd : Definition) (creds : List Cred) :
    CreateOut (Created × List MapOut) :=
  match presentationData H dflt pd creds with
  | some (.ok (fmt, m)) =>
    match makePresentation (H.uuid 0) (mergedOf H false fmt m).1 with
    | none => .error
    | some vp => .ok (vp, (mergedOf H false fmt m).2)
  | some .noCredentials => .noCredentials
  | some (.fail .error) => .error
  | none => .error
  | _ => .panic

/-- The loop of `CreateVPArray`, definition.go:528-535; `n` counts the random IDs. -/
def makeEach (H : HolderEnv) : Nat → List Cred → Option (List Created)
  | _, [] => some []
  | n, c :: cs =>
    match makePresentation (H.uuid n) [c] with
    | none => none
    | some vp => (makeEach H (n + 1) cs).map (fun vps => vp :: vps)

/-- `CreateVPArray`, definition.go:510-538. -/
def createVPArray (H : HolderEnv) (dflt : String) (pd : Definition) (creds : List Cred) :
    CreateOut (List Created × List MapOut) :=
  match presentationData H dflt pd creds with
  | some (.ok (fmt, m)) =>
    match makeEach H 0 (mergedOf H true fmt m).1 with
    | none => .error
    | some vps => .ok (vps, (mergedOf H true fmt m).2)
  | some .noCredentials => .noCredentials
  | some (.fail .error) => .error
  | none => .error
  | _ => .panic

/-! ## The submission as JSON -/

/-- A string member with `omitempty`. -/
def omitEmpty (k s : String) : JObj := if s = "" then [] else [(k, .str s)]

/-- `json.Marshal` of the mappings the holder writes, api.go:52-57 (two levels). -/
def encodeMapping (o : MapOut) : Json :=
  .obj (omitEmpty "id" o.id ++ omitEmpty "format" o.format ++ omitEmpty "path" o.path ++
    [("path_nested", .obj (omitEmpty "id" o.id ++ omitEmpty "format" o.vcFormat ++
      omitEmpty "path" o.nestedPath))])

/-- `json.Marshal` of a `PresentationSubmission`, api.go:42-49 (no locale). -/
def encodeSubmission (id defID : String) (os : List MapOut) : Json :=
  .obj (omitEmpty "id" id ++ omitEmpty "definition_id" defID ++
    [("descriptor_map", .arr (os.map encodeMapping))])

/-- A string field of `json.Unmarshal`. -/
def strField : Option Json → Option String
  | none => some ""
  | some .null => some ""
  | some (.str s) => some s
  | some _ => none

/-- `json.Unmarshal` of an `InputDescriptorMapping` pointer, api.go:52-57; the inner `none` is nil.
The first argument is the nesting allowed by `encoding/json` (member names are matched exactly). -/
def decodeMapping : Nat → Json → Option (Option Mapping)
  | _, .null => some none
  | 0, _ => none
  | n + 1, .obj o =>
    match strField (GoMap.get? o "id"), strField (GoMap.get? o "format"), strField (GoMap.get? o "path") with
    | some i, some _, some p =>
      match GoMap.get? o "path_nested" with
      | none => some (some (.mk i p none))
      | some j => (decodeMapping n j).map (fun m => some (.mk i p m))
    | _, _, _ => none
  | _, _ => none

/-- `json.Unmarshal` of the list of mappings, api.go:381-385. -/
def decodeMappings : List Json → Option (List (Option Mapping))
  | [] => some []
  | j :: js =>
    match decodeMapping 10000 j, decodeMappings js with
    | some m, some ms => some (m :: ms)
    | _, _ => none

/-- `getDescriptorMapping`, api.go:369-388, of a submission in its JSON form (a map). -/
def submissionMappings : Json → Option (List (Option Mapping))
  | .obj o =>
    match GoMap.get? o "descriptor_map" with
    | some (.arr l) => decodeMappings l
    | _ => none
  | _ => none

/-! ## Specification -/

/-- The JSON paths of submissions, as the path library evaluates them. -/
structure PathLib (sel : Json → String → Option Json) : Prop where
  root : ∀ v, sel v "$" = some v
  vc : ∀ (o : JObj) l (i : Nat), GoMap.get? o "verifiableCredential" = some (.arr l) →
    sel (.obj o) ("$.verifiableCredential[" ++ toString i ++ "]") = l[i]?
  noVC : ∀ (o : JObj) (i : Nat), GoMap.get? o "verifiableCredential" = none →
    sel (.obj o) ("$.verifiableCredential[" ++ toString i ++ "]") = none
  vp : ∀ (o o' : JObj) l (i : Nat), GoMap.get? o "vp" = some (.obj o') →
    GoMap.get? o' "verifiableCredential" = some (.arr l) →
    sel (.obj o) ("$.vp.verifiableCredential[" ++ toString i ++ "]") = l[i]?
  item : ∀ l (i : Nat), sel (.arr l) ("$[" ++ toString i ++ "]") = l[i]?

/-- The document of a presentation holds the credentials `cs`, each in a form that reads back (with
the verifier's options) as `read` says: in `verifiableCredential`, or, for a JWT, in that member of
its claim `vp`. -/
inductive Holds (parse : Json → Option Cred) (read : Cred → Option Cred) (cs : List Cred) : Bool → Json → Prop
  | plain {o : JObj} {l : List Json} : GoMap.get? o "verifiableCredential" = some (.arr l) →
      List.Forall₂ (fun c j => parse j = read c) cs l → Holds parse read cs false (.obj o)
  | jwt {o o' : JObj} {l : List Json} : GoMap.get? o "verifiableCredential" = none →
      GoMap.get? o "vp" = some (.obj o') → GoMap.get? o' "verifiableCredential" = some (.arr l) →
      List.Forall₂ (fun c j => parse j = read c) cs l → Holds parse read cs true (.obj o)

/-- The verifier's view `vp` of a presentation the holder made, sent as a JWT if `jwt`. -/
structure Sent (parse : Json → Option Cred) (read : Cred → Option Cred) (jwt : Bool) (made : Created)
    (vp : VP) : Prop where
  id : vp.id = made.id
  contexts : ∀ x ∈ made.contexts, x ∈ vp.contexts
  types : ∀ x ∈ made.types, x ∈ vp.types
  doc : ∃ raw, vp.typeless = some raw ∧ Holds parse read made.creds jwt raw

/-- A credential is good for a descriptor: its contexts load, it has the schemas (unless they are not
checked) and it meets the constraints. -/
structure GoodFor (E : MEnv) (disable : Bool) (d : FDesc) (c : Cred) : Prop where
  loads : ∀ ctx ∈ c.contexts, ∃ ids, E.load ctx = some ids
  schema : disable = false → ∃ ss, d.schema = some ss ∧
    (∀ s ∈ ss, s.required = true → HasSchema E.load c s.uri) ∧ ∃ s ∈ ss, HasSchema E.load c s.uri
  constraints : ∀ k, d.constraints = some k → ConstraintsOk E.toPEnv k c

/-- Every descriptor got credentials, and each of them, as the verifier reads it, is good for the
descriptor. -/
def Acceptable (E : MEnv) (read : Cred → Option Cred) (disable : Bool) (pd : Definition)
    (m : GoMap (List (String × Cred))) : Prop :=
  ∀ d ∈ pd.descs, ∃ ws, GoMap.get? m d.id = some ws ∧ ws ≠ [] ∧
    ∀ u c, (u, c) ∈ ws → ∃ c', read c = some c' ∧ GoodFor E disable d c'

/-- The verifier's answer says what the holder meant: it lists exactly the pairs of a descriptor and
a credential chosen for it (as read back). -/
def SameAnswer (read : Cred → Option Cred) (m : GoMap (List (String × Cred))) (r : List MatchValue) : Prop :=
  (∀ v ∈ r, ∃ ws u c, GoMap.get? m v.descriptorID = some ws ∧ (u, c) ∈ ws ∧ read c = some v.cred) ∧
  (∀ d ws u c, GoMap.get? m d = some ws → (u, c) ∈ ws → ∃ v ∈ r, v.descriptorID = d ∧ read c = some v.cred)

end VC.PE
