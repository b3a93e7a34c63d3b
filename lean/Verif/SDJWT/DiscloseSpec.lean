import Verif.SDJWT.DiscloseModel
/-!
# Resolving disclosures: declarative specification

* `digests cl v` — the digests written directly in `v` (at the places that are processed);
* `Reach` — digests reachable from the payload through the values of disclosures;
* `Resolves cl D v w` — `w` is the value `v` with digests replaced by the disclosures `D`
  (`cl`: whether unmatched digests and SD bookkeeping members are removed).

None of these uses the model's functions on state (only the data types).
-/

namespace VC.SDJWT

/-- An object member that is not a claim: `_sd`, and `_sd_alg` when cleaning up. -/
def Hidden (cl : Bool) (k : String) : Prop := k = "_sd" ∨ (k = "_sd_alg" ∧ cl = true)

instance (cl : Bool) (k : String) : Decidable (Hidden cl k) := by unfold Hidden; infer_instance

/-- The digest carried by an array element placeholder `{"...": d}`. -/
def placeholder? : Json → Option Json
  | .obj m => GoMap.get? m "..."
  | _ => none

/-- String elements of a JSON value that is a list. -/
def strElems : Json → List String
  | .arr l => l.filterMap Json.asStr?
  | _ => []

/-- Digests of the array element placeholders of a list. -/
def arrDigests (l : List Json) : List String :=
  l.filterMap (fun v => (placeholder? v).bind Json.asStr?)

/-- Digests in the `_sd` member of an object. -/
def sdDigests (m : JObj) : List String :=
  match GoMap.get? m "_sd" with
  | some v => strElems v
  | none => []

mutual
/-- The digests written in `v`, outermost first, excluding what disclosures add. Objects are
entered through their visible members; array elements are not entered (the code does not process
objects inside arrays other than placeholders). -/
def digests (cl : Bool) : Json → List String
  | .arr l => arrDigests l
  | .obj o => sdDigests o ++ fieldDigests cl o
  | _ => []
/-- Digests in the visible members. -/
def fieldDigests (cl : Bool) : List (String × Json) → List String
  | [] => []
  | (k, v) :: o => (if Hidden cl k then [] else digests cl v) ++ fieldDigests cl o
end

/-- `d` is a digest in the payload, or in the value of a disclosure whose digest is reachable. -/
inductive Reach (cl : Bool) (D : DMap) (ds : List String) : String → Prop
  | root {d} : d ∈ ds → Reach cl D ds d
  | step {d c d'} : Reach cl D ds d → GoMap.get? D d = some c → c.parsed = false →
      d' ∈ digests cl c.value → Reach cl D ds d'

/-- What is being resolved. -/
inductive Task where
  | val (v : Json)
  | disc (d : String)
  | elems (l : List Json)
  | sds (l : List String)
  | fields (m : JObj)

/-- Result of resolving a task. -/
inductive Out where
  | val (v : Json)
  | list (l : List Json)
  | sds (claims : JObj) (missing : List String)
  | fields (m : JObj)

/-- Neither array nor object. -/
def Scalar : Json → Prop
  | .arr _ => False
  | .obj _ => False
  | _ => True

/-- Assemble an object: disclosed claims, left-over digests (when not cleaning up), and the visible
members whose resolved value is not null. -/
def assemble (cl : Bool) (claims : JObj) (missing : List String) (fs : JObj) : JObj :=
  (if cl = false ∧ missing ≠ [] then GoMap.set claims "_sd" (.arr (missing.map .str)) else claims) ++
    fs.filter (fun p => !p.2.isNull)

/-- Resolution of digests against the disclosures `D`. -/
inductive Resolve (cl : Bool) (D : DMap) : Task → Out → Prop
  /-- scalars stay -/
  | scalar {v} : Scalar v → Resolve cl D (.val v) (.val v)
  /-- arrays: element-wise; an empty result becomes null -/
  | arr {l out} : Resolve cl D (.elems l) (.list out) →
      Resolve cl D (.val (.arr l)) (.val (if out = [] then .null else .arr out))
  /-- objects: claims disclosed by `_sd`, and the visible members; names must not collide -/
  | obj {m sd claims missing fs} :
      ((GoMap.get? m "_sd" = none ∧ sd = []) ∨
        ∃ v, GoMap.get? m "_sd" = some v ∧ stringArray v = some sd) →
      Resolve cl D (.sds sd) (.sds claims missing) →
      Resolve cl D (.fields m) (.fields fs) →
      (GoMap.keys claims).Nodup → (∀ p ∈ fs, p.1 ∉ GoMap.keys claims) →
      Resolve cl D (.val (.obj m)) (.val (.obj (assemble cl claims missing fs)))
  /-- a disclosure that is already resolved -/
  | done {d c} : GoMap.get? D d = some c → c.parsed = true →
      Resolve cl D (.disc d) (.val c.value)
  /-- a disclosure: its value, resolved -/
  | disc {d c w} : GoMap.get? D d = some c → c.parsed = false →
      Resolve cl D (.val c.value) (.val w) → Resolve cl D (.disc d) (.val w)
  | enil : Resolve cl D (.elems []) (.list [])
  /-- an element that is not a placeholder is kept as it is -/
  | eplain {v l out} : placeholder? v = none → Resolve cl D (.elems l) (.list out) →
      Resolve cl D (.elems (v :: l)) (.list (v :: out))
  /-- a placeholder without disclosure is dropped when cleaning up, else kept -/
  | emiss {v d l out} : placeholder? v = some (.str d) → GoMap.get? D d = none →
      Resolve cl D (.elems l) (.list out) →
      Resolve cl D (.elems (v :: l)) (.list (if cl = true then out else v :: out))
  /-- a placeholder with a two-element disclosure is replaced -/
  | edisc {v d c w l out} : placeholder? v = some (.str d) → GoMap.get? D d = some c →
      c.elems = 2 → Resolve cl D (.disc d) (.val w) → Resolve cl D (.elems l) (.list out) →
      Resolve cl D (.elems (v :: l)) (.list (w :: out))
  | snil : Resolve cl D (.sds []) (.sds [] [])
  | smiss {d dl claims missing} : GoMap.get? D d = none →
      Resolve cl D (.sds dl) (.sds claims missing) →
      Resolve cl D (.sds (d :: dl)) (.sds claims (d :: missing))
  /-- a digest with a three-element disclosure yields the claim it names -/
  | sdisc {d c w dl claims missing} : GoMap.get? D d = some c → c.elems = 3 →
      Resolve cl D (.disc d) (.val w) → Resolve cl D (.sds dl) (.sds claims missing) →
      Resolve cl D (.sds (d :: dl)) (.sds ((c.name, w) :: claims) missing)
  | fnil : Resolve cl D (.fields []) (.fields [])
  | fskip {k v m fs} : Hidden cl k → Resolve cl D (.fields m) (.fields fs) →
      Resolve cl D (.fields ((k, v) :: m)) (.fields fs)
  | fcons {k v w m fs} : ¬ Hidden cl k → Resolve cl D (.val v) (.val w) →
      Resolve cl D (.fields m) (.fields fs) →
      Resolve cl D (.fields ((k, v) :: m)) (.fields ((k, w) :: fs))

/-- `w` is `v` with the digests resolved against `D`. -/
abbrev Resolves (cl : Bool) (D : DMap) (v w : Json) : Prop := Resolve cl D (.val v) (.val w)

end VC.SDJWT
