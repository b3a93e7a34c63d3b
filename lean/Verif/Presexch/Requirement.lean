import Verif.Base.Json
import Mathlib.Data.List.Dedup
import Mathlib.Data.Nat.Bitwise
/-!
# presexch: submission requirements and the solution iterator (model)

Models `presexch/internal/requirementlogic/requirementlogic.go` and the conversion of submission
requirements in `presexch/definition.go`.  Sets of descriptor IDs are lists read as sets; `int` is
`Int`; `*big.Int` bit sets are `Nat`.
-/

namespace VC.PE

/-- `RequirementLogic`, requirementlogic.go:14-20. -/
inductive Logic where
  | mk (ids : List String) (nested : List Logic) (count min max : Int)

/-- `isLenApplicable`, requirementlogic.go:77-91. -/
def lenOk (count min max : Int) (val : Nat) : Bool :=
  if 0 < count ∧ (val : Int) ≠ count then false
  else if 0 < min ∧ min > val then false
  else if 0 < max ∧ max < val then false
  else true

mutual
/-- `IsSatisfiedBy`, requirementlogic.go:33-55. -/
def Logic.sat (S : List String) : Logic → Bool
  | .mk ids nested c mi ma =>
    if nested.isEmpty then lenOk c mi ma (ids.filter (fun i => S.contains i)).dedup.length
    else lenOk c mi ma (countSat S nested)
/-- `numChildrenSatisfied`, requirementlogic.go:46-52. -/
def countSat (S : List String) : List Logic → Nat
  | [] => 0
  | l :: ls => (if l.sat S then 1 else 0) + countSat S ls
end

mutual
/-- `GetAllDescriptors`, requirementlogic.go:58-70 (as a list, to be read as a set). -/
def Logic.allDescs : Logic → List String
  | .mk ids nested _ _ _ => if nested.isEmpty then ids else allDescsL nested
/-- `MergeAll` of the children, requirementlogic.go:63-69. -/
def allDescsL : List Logic → List String
  | [] => []
  | l :: ls => l.allDescs ++ allDescsL ls
end

/-- `BitsetSolutionIterator`, requirementlogic.go:110-116 (`idxMap` is never read). -/
structure Iter where
  req : Logic
  state : Nat
  descs : List String
  done : Bool

/-- `NewBitsetIterator`, requirementlogic.go:120-143; `none`: the index-out-of-range panic when more
positions of `descs` name a descriptor of the requirement than it has descriptors. -/
def newIter (req : Logic) (descs : List String) : Option Iter :=
  let use := descs.filter (fun d => req.allDescs.contains d)
  let n := req.allDescs.dedup.length
  if n < use.length then none
  else some ⟨req, 0, use ++ List.replicate (n - use.length) "", false⟩

/-- `current`, requirementlogic.go:277-287 (positions counted from `i`). -/
def currentFrom (state : Nat) : Nat → List String → List String
  | _, [] => []
  | i, d :: ds =>
    if state.testBit i then d :: currentFrom state (i + 1) ds else currentFrom state (i + 1) ds

/-- `current`, requirementlogic.go:277-287. -/
def current (descs : List String) (state : Nat) : List String := currentFrom state 0 descs

/-- `incrementUntilValid`, requirementlogic.go:257-275: the new state and the solution (`[]` is nil).
`fuel` bounds the loop; `scan_spec` shows that `2 ^ descs.length + 1` steps always suffice. -/
def scan (req : Logic) (descs : List String) : Nat → Nat → Nat × List String
  | 0, state => (state, [])
  | fuel + 1, state =>
    let curr := current descs state
    if curr.isEmpty then (state, [])
    else if req.sat curr then (state, curr)
    else scan req descs fuel (state + 1)

/-- Indices to exclude, requirementlogic.go:153-161, in increasing order, from position `i`. -/
def excludeIdx (ex : List String) : Nat → List String → List Nat
  | _, [] => []
  | i, d :: ds => if ex.contains d then i :: excludeIdx ex (i + 1) ds else excludeIdx ex (i + 1) ds

/-- `largestExcludeIdx`, requirementlogic.go:214-221. -/
def largest (l : List Nat) : Nat := l.foldl (fun a i => if i > a then i else a) 0

/-- The new bit set of `excludeDescriptors`, requirementlogic.go:223-236. -/
def excludeState (state : Nat) (idx : List Nat) : Nat :=
  (Nat.ldiff state (2 ^ largest idx - 1) + 2 ^ largest idx) >>> idx.length

/-- The remaining descriptors, requirementlogic.go:238-247, from position `i`. -/
def removeIdx (idx : List Nat) : Nat → List String → List String
  | _, [] => []
  | i, d :: ds =>
    if idx.contains i then removeIdx idx (i + 1) ds else d :: removeIdx idx (i + 1) ds

/-- `next`, requirementlogic.go:170-178: bit set and descriptors before the search for a solution. -/
def advance (it : Iter) (ex : List String) : Nat × List String :=
  let idx := excludeIdx ex 0 it.descs
  if idx.isEmpty then (it.state + 1, it.descs)
  else (excludeState it.state idx, removeIdx idx 0 it.descs)

/-- `Next`, requirementlogic.go:146-168. -/
def Iter.next (it : Iter) (ex : List String) : List String × Iter :=
  if it.done then ([], it)
  else
    let a := advance it ex
    let r := scan it.req a.2 (2 ^ a.2.length + 1) a.1
    (r.2, ⟨it.req, r.1, a.2, r.2.isEmpty⟩)

/-! ## Submission requirements, definition.go -/

/-- `InputDescriptor` as far as requirements look at it (definition.go:115-126). -/
structure Desc where
  id : String
  group : List String

/-- `SubmissionRequirement`, definition.go:68-75, 141-150; `all` is `Rule == All`. -/
inductive SubReq where
  | mk (all : Bool) (count min max : Int) (src : String) (fromNested : List SubReq)

/-- `requirement`, definition.go:321-330 (the rule is only carried along). -/
inductive Req where
  | mk (count min max : Int) (descs : List Desc) (nested : List Req)

mutual
/-- `toRequirement`, definition.go:405-453; `none`: the error "no descriptors for from". -/
def toReq (ds : List Desc) : SubReq → Option Req
  | .mk all count min max src fromNested =>
    if src ≠ "" then
      let inD := ds.filter (fun d => d.group.contains src)
      if inD.length = 0 then none
      else some (.mk (if all then inD.length else count) min max inD [])
    else
      (toReqs ds fromNested).map (fun nested =>
        .mk (if all then nested.length else count) min max [] nested)
/-- The loop over the nested requirements, definition.go:424-431. -/
def toReqs (ds : List Desc) : List SubReq → Option (List Req)
  | [] => some []
  | s :: ss =>
    match toReq ds s with
    | none => none
    | some r => (toReqs ds ss).map (fun rs => r :: rs)
end

/-- `makeRequirement`, definition.go:455-477. -/
def makeReq (srs : List SubReq) (ds : List Desc) : Option Req :=
  if srs.length = 0 then some (.mk ds.length 0 0 ds [])
  else (toReqs ds srs).map (fun nested => .mk srs.length 0 0 [] nested)

/-- The upper bound set by `toLogic`, definition.go:359-361. -/
def logicMax (count max : Int) (total : Nat) : Int :=
  if count = 0 ∧ max = 0 then total else max

mutual
/-- `toLogic`, definition.go:332-364. -/
def Req.toLogic : Req → Logic
  | .mk count min max descs nested =>
    .mk (descs.map Desc.id) (toLogics nested) count min
      (logicMax count max (if nested.isEmpty then descs.length else nested.length))
/-- The loop over the nested requirements, definition.go:351-356. -/
def toLogics : List Req → List Logic
  | [] => []
  | r :: rs => r.toLogic :: toLogics rs
end

end VC.PE
