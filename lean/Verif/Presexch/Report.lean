import Verif.Presexch.EndToEndShape
/-!
# presexch: `MatchSubmissionRequirement` (C103, C104)

The wallet's question "which of my credentials match": model and specification.
-/

namespace VC.PE

/-! ## Model -/

/-- `SubmissionRequirement`, definition.go:141-150, with the parts that are only carried along. -/
inductive NSub where
  | mk (name purpose rule : String) (count min max : Int) (src : String) (fromNested : List NSub)

/-- `requirement`, definition.go:321-330. -/
inductive FullReq where
  | mk (name purpose rule : String) (count min max : Int) (descs : List FDesc) (nested : List FullReq)

/-- `MatchedInputDescriptor`, definition.go:231-238 (its name and purpose are left out). -/
structure MatchedDesc where
  id : String
  constraints : Option Constraints
  schemas : Option (List Schema)
  vcs : List Cred

/-- `MatchedSubmissionRequirement`, definition.go:219-228. -/
inductive MReq where
  | mk (name purpose rule : String) (count min max : Int) (descs : List MatchedDesc) (nested : List MReq)

mutual
/-- `toRequirement`, definition.go:405-453. -/
def fullReq (ds : List FDesc) : NSub → Option FullReq
  | .mk name purpose rule count min max src fromNested =>
    if src ≠ "" then
      let inD := ds.filter (fun d => d.group.contains src)
      if inD.length = 0 then none
      else some (.mk name purpose rule (if rule = "all" then inD.length else count) min max inD [])
    else
      (fullReqs ds fromNested).map (fun nested =>
        .mk name purpose rule (if rule = "all" then nested.length else count) min max [] nested)
/-- The loops of definition.go:424-431 and definition.go:615-624. -/
def fullReqs (ds : List FDesc) : List NSub → Option (List FullReq)
  | [] => some []
  | s :: ss =>
    match fullReq ds s with
    | none => none
    | some r => (fullReqs ds ss).map (fun rs => r :: rs)
end

/-- `makeRequirementsForMatch`, definition.go:602-627. -/
def requirementsForMatch (srs : List NSub) (ds : List FDesc) : Option (List FullReq) :=
  if srs.length = 0 then some [.mk "" "" "all" ds.length 0 0 ds []] else fullReqs ds srs

/-- The credentials reported for a descriptor, definition.go:677-706; `apply` is
`applySelectiveDisclosure` (the frame is applied to `creds` already). -/
def matchedVCs (H : HolderEnv) (apply : Bool) (pd : Definition) (creds : List Cred) (d : FDesc) :
    FilterOut (List Cred) :=
  match filterDescriptor H.toMEnv pd.format d.toM creds with
  | .error => .error
  | .panic => .panic
  | .ok (_, cs) =>
    if apply then
      match limitDisclosure H.derive H.restrict (H.tmp d.id) d.constraints cs with
      | none => .error
      | some ws => .ok (ws.map (fun w => w.2))
    else .ok cs

/-- The loop over the descriptors of a requirement, definition.go:676-716. -/
def matchDescs (H : HolderEnv) (apply : Bool) (pd : Definition) (creds : List Cred) :
    List FDesc → FilterOut (List MatchedDesc)
  | [] => .ok []
  | d :: ds =>
    match matchedVCs H apply pd creds d with
    | .error => .error
    | .panic => .panic
    | .ok vcs =>
      match matchDescs H apply pd creds ds with
      | .error => .error
      | .panic => .panic
      | .ok ms => .ok (⟨d.id, d.constraints, d.schema, vcs⟩ :: ms)

mutual
/-- `matchRequirement`, definition.go:664-732. -/
def matchReq (H : HolderEnv) (apply : Bool) (pd : Definition) (creds : List Cred) : FullReq → FilterOut MReq
  | .mk name purpose rule count min max descs nested =>
    match matchDescs H apply pd creds descs with
    | .error => .error
    | .panic => .panic
    | .ok ms =>
      match matchReqs H apply pd creds nested with
      | .error => .error
      | .panic => .panic
      | .ok ns => .ok (.mk name purpose rule count min max ms ns)
/-- The loops over requirements, definition.go:649-656 and definition.go:718-725. -/
def matchReqs (H : HolderEnv) (apply : Bool) (pd : Definition) (creds : List Cred) :
    List FullReq → FilterOut (List MReq)
  | [] => .ok []
  | r :: rs =>
    match matchReq H apply pd creds r with
    | .error => .error
    | .panic => .panic
    | .ok m =>
      match matchReqs H apply pd creds rs with
      | .error => .error
      | .panic => .panic
      | .ok ms => .ok (m :: ms)
end

mutual
/-- The same requirement as `CreateVP` reads it (name and purpose are not used). -/
def NSub.toSub : NSub → SubReq
  | .mk _ _ rule count min max src ns => .mk (rule == "all") count min max src (toSubs ns)
/-- A list of them. -/
def toSubs : List NSub → List SubReq
  | [] => []
  | s :: ss => s.toSub :: toSubs ss
end

/-- `MatchSubmissionRequirement` without `ValidateSchema`, definition.go:630-658; `pd.reqs` is not
looked at, as `srs` are the same requirements with their names. -/
def matchSubmissionRequirement (H : HolderEnv) (apply : Bool) (pd : Definition) (srs : List NSub)
    (creds : List Cred) : FilterOut (List MReq) :=
  match requirementsForMatch srs pd.descs with
  | none => .error
  | some rs => matchReqs H apply pd creds rs

/-! ## Specification -/

/-- The credential meets the descriptor, `fmt` being the name of the format that applies. -/
structure Meets (E : MEnv) (pdFormat : Option Format) (d : FDesc) (fmt : String) (c : Cred) : Prop where
  format : ∀ f, FormatOf pdFormat d.format f → Admits E.fold f fmt c
  schema : ∀ ss, d.schema = some ss → (∀ s ∈ ss, s.required = true → HasSchema E.load c s.uri) ∧
    ∃ s ∈ ss, HasSchema E.load c s.uri
  constraints : ∀ k, d.constraints = some k → ConstraintsOk E.toPEnv k c

/-- What is reported for a descriptor: its data, and without selective disclosure exactly the
credentials of the wallet that meet it (under one format), in their order; with it, only credentials made
from those. -/
structure DescReported (H : HolderEnv) (apply : Bool) (pd : Definition) (creds : List Cred) (d : FDesc)
    (r : MatchedDesc) : Prop where
  id : r.id = d.id
  constraints : r.constraints = d.constraints
  schemas : r.schemas = d.schema
  plain : apply = false → r.vcs.Sublist creds ∧ ∃ fmt, ∀ c, c ∈ r.vcs ↔ c ∈ creds ∧ Meets H.toMEnv pd.format d fmt c
  limited : apply = true → ∃ fmt, ∀ v ∈ r.vcs, ∃ c ∈ creds, Meets H.toMEnv pd.format d fmt c ∧
    (v = c ∧ (∀ k, d.constraints = some k → k.limitReq = false) ∨
      ∃ k, d.constraints = some k ∧ (H.derive k c = some v ∨ c.isSDJWT = true ∧ H.restrict k c = some v))

/-- The report mirrors a submission requirement. -/
inductive Mirrors (ds : List FDesc) (R : FDesc → MatchedDesc → Prop) : NSub → MReq → Prop
  | group {name purpose rule : String} {count min max : Int} {src : String} {ns : List NSub} {ms : List MatchedDesc} :
      src ≠ "" → List.Forall₂ R (ds.filter (fun d => decide (src ∈ d.group))) ms → ms ≠ [] →
      Mirrors ds R (.mk name purpose rule count min max src ns)
        (.mk name purpose rule (if rule = "all" then (ms.length : Int) else count) min max ms [])
  | nested {name purpose rule : String} {count min max : Int} {ns : List NSub} {rs : List MReq} :
      List.Forall₂ (Mirrors ds R) ns rs →
      Mirrors ds R (.mk name purpose rule count min max "" ns)
        (.mk name purpose rule (if rule = "all" then (rs.length : Int) else count) min max [] rs)

/-- A report on a whole definition: one entry for each submission requirement; without any, one that
asks for all descriptors. -/
inductive ReportOf (ds : List FDesc) (R : FDesc → MatchedDesc → Prop) : List NSub → List MReq → Prop
  | every {ms : List MatchedDesc} : List.Forall₂ R ds ms → ReportOf ds R [] [.mk "" "" "all" ds.length 0 0 ms []]
  | each {srs : List NSub} {rs : List MReq} : srs ≠ [] → List.Forall₂ (Mirrors ds R) srs rs → ReportOf ds R srs rs

/-- A descriptor's entry occurs in the report. -/
inductive Reports : MReq → MatchedDesc → Prop
  | here {name purpose rule : String} {count min max : Int} {ms : List MatchedDesc} {rs : List MReq} {m : MatchedDesc} :
      m ∈ ms → Reports (.mk name purpose rule count min max ms rs) m
  | inside {name purpose rule : String} {count min max : Int} {ms : List MatchedDesc} {rs : List MReq} {r : MReq}
      {m : MatchedDesc} : r ∈ rs → Reports r m → Reports (.mk name purpose rule count min max ms rs) m

end VC.PE
