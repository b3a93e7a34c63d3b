import Verif.Base.GoMap
/-!
# JSON values

The value space of `encoding/json` decoded into `interface{}`: nil, bool, float64, string,
`[]interface{}`, `map[string]interface{}`.  Numbers are modelled as rationals (all finite float64
values are rational).
-/

namespace VC

/-- A decoded JSON value (`interface{}` in Go). -/
inductive Json where
  | null : Json
  | bool : Bool → Json
  | num : Rat → Json
  | str : String → Json
  | arr : List Json → Json
  | obj : List (String × Json) → Json
  deriving Inhabited

/-- `JSONObject = map[string]interface{}`. -/
abbrev JObj := GoMap Json

namespace Json

/-- `v.(string)` with the comma-ok form. -/
def asStr? : Json → Option String
  | str s => some s
  | _ => none

/-- `v.(map[string]interface{})`. -/
def asObj? : Json → Option JObj
  | obj o => some o
  | _ => none

/-- `v.([]interface{})`. -/
def asArr? : Json → Option (List Json)
  | arr l => some l
  | _ => none

/-- `v == nil`. -/
def isNull : Json → Bool
  | null => true
  | _ => false

end Json

/-- `m[k]` for a `map[string]interface{}`: the zero value (`nil`) when absent. -/
def JObj.at (m : JObj) (k : String) : Json := (GoMap.get? m k).getD .null

end VC
