import Verif.Status.Model
/-!
# status: declarative specification

Written from the English properties.  From the model only the data types and the abstract
environment are used, plus `atoi` (strconv) and JSON lookup.
-/

namespace VC.Status.Spec

/-- The bits of a byte string, least significant bit of the first byte first. -/
def bits (bs : List (BitVec 8)) : List Bool :=
  bs.flatMap (fun b => (List.range 8).map (fun j => b.getLsbD j))

/-- A custom field is present and not JSON null. -/
def Present (e : Entry) (f : String) : Prop := ∃ v, GoMap.get? e.custom f = some v ∧ v ≠ .null

/-- A custom field is a given string. -/
def StrField (o : JObj) (f s : String) : Prop := GoMap.get? o f = some (.str s)

/-- The three mandatory fields. -/
def HasFields (e : Entry) : Prop :=
  Present e "statusListCredential" ∧ Present e "statusListIndex" ∧ Present e "statusPurpose"

/-- statusSize is absent/null, or truncates to 1, or truncates to n > 1 and there are 2^n - 1
status messages. -/
def SizeOK (e : Entry) : Prop :=
  (∀ v, GoMap.get? e.custom "statusSize" = some v → v = .null) ∨
  ∃ q : Rat, ∃ n : Nat, GoMap.get? e.custom "statusSize" = some (.num q) ∧
    (n : Rat) ≤ q ∧ q < n + 1 ∧
    (n = 1 ∨ (1 < n ∧ ∃ ms, GoMap.get? e.custom "statusMessage" = some (.arr ms) ∧
      ms.length = 2 ^ n - 1))

/-- A well-formed StatusList2021Entry. -/
def WF2021 (e : Entry) : Prop := e.type = "StatusList2021Entry" ∧ HasFields e

/-- A well-formed BitstringStatusListEntry. -/
def WFBitstring (e : Entry) : Prop := e.type = "BitstringStatusListEntry" ∧ HasFields e ∧ SizeOK e

/-- The entry is well-formed, and the bit it points to, in a list that resolves, was issued by
`issuer` and decodes, is `b`. -/
def Points (env : Env) (issuer : Option String) (e : Entry) (b : Bool) : Prop :=
  (WF2021 e ∨ WFBitstring e) ∧
  ∃ idx : String, ∃ i : Nat, ∃ uri : String, ∃ vc : ListVC, ∃ iss : String, ∃ subj : JObj,
    ∃ enc : String, ∃ bytes,
    StrField e.custom "statusListIndex" idx ∧ atoi idx = some (i : Int) ∧
    StrField e.custom "statusListCredential" uri ∧ env.resolve uri = some vc ∧
    vc.issuer = some iss ∧ issuer = some iss ∧
    vc.subjects.head? = some subj ∧ StrField subj "encodedList" enc ∧
    env.decode (decide (e.type = "BitstringStatusListEntry")) enc = some bytes ∧
    (bits bytes)[i]? = some b

end VC.Status.Spec
