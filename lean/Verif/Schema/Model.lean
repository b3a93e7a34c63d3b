import Verif.Base.Json
import Verif.Base.Str
/-!
# JSON Schema: documents and their meaning

The built-in schemas of the library (verifiable/credential.go:53-242, 247-575,
verifiable/presentation.go:44-173, 176-324, presexch/schema.go:12-473, 476-707) are JSON documents handed
to gojsonschema.  This file
models what gojsonschema v1.2.0 does with the keywords those documents use: a document is read into a
tree of checks (`compile`), and a value is checked against the tree (`ok`).

gojsonschema itself is not in /repo: the meaning of the keywords here is that of JSON Schema draft 7 (in
its hybrid mode an unknown `$schema`, such as the 2020-12 one of the v2 documents, selects nothing
else).  A keyword or a form of a keyword not used by the built-in documents makes `compile` fail, so
nothing is claimed about it.  Regular expressions, the formats and the printing of JSON
(used by `const`, `enum` and `uniqueItems`) are parameters.
-/

namespace VC.Schema

open GoMap

/-- Library functions gojsonschema uses. -/
structure SEnv where
  /-- `regexp.MatchString` -/
  regex : String → String → Bool
  /-- the format checkers -/
  format : String → String → Bool
  /-- `marshalWithoutNumber` -/
  text : Json → String
  /-- what the schema behind a reference that is not expanded accepts (recursive references and other
  documents) -/
  refs : String → Json → Bool := fun _ _ => false

/-- A check. -/
inductive Sch where
  /-- all the keywords of a schema object -/
  | all (l : List Sch)
  | types (ks : List String)
  | const (v : Json)
  | enum (vs : List Json)
  | pattern (p : String)
  | format (f : String)
  | required (ks : List String)
  | props (l : List (String × Sch))
  | items (s : Sch)
  | tuple (l : List Sch) (rest : Sch)
  | minItems (n : Nat)
  | minProps (n : Nat)
  | unique
  | contains (s : Sch)
  | anyOf (l : List Sch)
  | oneOf (l : List Sch)
  /-- the type `integer` -/
  | integer
  | minimum (r : Rat)
  /-- `patternProperties` -/
  | patProps (l : List (String × Sch))
  /-- `additionalProperties: false`, with the names and the patterns of the schema object -/
  | closed (names pats : List String)
  /-- the schema `false` -/
  | never
  /-- a reference that is not expanded -/
  | ref (r : String)

/-- The JSON Schema type of a value (`integer` is the check `Sch.integer`). -/
def kind : Json → String
  | .null => "null"
  | .bool _ => "boolean"
  | .num _ => "number"
  | .str _ => "string"
  | .arr _ => "array"
  | .obj _ => "object"

/-- No text occurs twice. -/
def distinct : List String → Bool
  | [] => true
  | x :: l => !l.contains x && distinct l

variable (E : SEnv)

mutual
/-- gojsonschema `validateRecursive`: does the value pass the check? -/
def ok : Sch → Json → Bool
  | .all l, v => okAll l v
  | .types ks, v => ks.contains (kind v)
  | .const c, v => E.text v == E.text c
  | .enum cs, v => cs.any (fun c => E.text v == E.text c)
  | .pattern p, .str s => E.regex p s
  | .pattern _, _ => true
  | .format f, .str s => E.format f s
  | .format _, _ => true
  | .required ks, .obj o => ks.all (fun k => (get? o k).isSome)
  | .required _, _ => true
  | .props ps, .obj o => okProps ps o
  | .props _, _ => true
  | .items s, .arr vs => vs.all (ok s)
  | .items _, _ => true
  | .tuple l rest, .arr vs => okTuple l (ok rest) vs
  | .tuple _ _, _ => true
  | .minItems n, .arr vs => decide (n ≤ vs.length)
  | .minItems _, _ => true
  | .minProps n, .obj o => decide (n ≤ o.length)
  | .minProps _, _ => true
  | .unique, .arr vs => distinct (vs.map E.text)
  | .unique, _ => true
  | .contains s, .arr vs => vs.any (ok s)
  | .contains _, _ => true
  | .anyOf l, v => okAny l v
  | .oneOf l, v => okCount l v == 1
  | .integer, .num r => r.isInt
  | .integer, _ => false
  | .minimum m, .num r => decide (m ≤ r)
  | .minimum _, _ => true
  | .patProps l, .obj o => okPats l o
  | .patProps _, _ => true
  | .closed names pats, .obj o =>
    o.all (fun kv => names.contains kv.1 || pats.any (fun p => E.regex p kv.1))
  | .closed _ _, _ => true
  | .never, _ => false
  | .ref r, v => E.refs r v
/-- Every check of a list. -/
def okAll : List Sch → Json → Bool
  | [], _ => true
  | s :: l, v => ok s v && okAll l v
/-- Some check of a list. -/
def okAny : List Sch → Json → Bool
  | [], _ => false
  | s :: l, v => ok s v || okAny l v
/-- How many checks of a list pass. -/
def okCount : List Sch → Json → Nat
  | [], _ => 0
  | s :: l, v => (if ok s v then 1 else 0) + okCount l v
/-- The members named in `properties`. -/
def okProps : List (String × Sch) → List (String × Json) → Bool
  | [], _ => true
  | (k, s) :: l, o => (match get? o k with | none => true | some v => ok s v) && okProps l o
/-- The members whose names match a pattern of `patternProperties`. -/
def okPats : List (String × Sch) → List (String × Json) → Bool
  | [], _ => true
  | (p, s) :: l, o => o.all (fun kv => !E.regex p kv.1 || ok s kv.2) && okPats l o
/-- `items` with a list of schemas: position by position, the others against `additionalItems`. -/
def okTuple : List Sch → (Json → Bool) → List Json → Bool
  | _, _, [] => true
  | [], r, vs => vs.all r
  | s :: l, r, v :: vs => ok s v && okTuple l r vs
end

/-! ## Reading a schema document -/

/-- The strings of a list. -/
def strs? : List Json → Option (List String)
  | [] => some []
  | .str s :: l => (strs? l).map (s :: ·)
  | _ :: _ => none

/-- A number of elements. -/
def nat? : Json → Option Nat
  | .num r => if r.isInt && decide (0 ≤ r) then some r.num.toNat else none
  | _ => none

/-- Keywords without a check of their own. -/
def passive : List String :=
  ["$id", "$schema", "title", "description", "$defs", "definitions", "additionalItems"]

/-- Read a list with `f`. -/
def all? (f : Json → Option Sch) : List Json → Option (List Sch)
  | [] => some []
  | v :: l => match f v, all? f l with
    | some s, some r => some (s :: r)
    | _, _ => none

/-- Read the members of an object with `f`. -/
def props? (f : Json → Option Sch) : List (String × Json) → Option (List (String × Sch))
  | [] => some []
  | (k, v) :: l => match f v, props? f l with
    | some s, some r => some ((k, s) :: r)
    | _, _ => none

/-- The names in a member of the schema object. -/
def namesIn (whole : JObj) (k : String) : List String :=
  match get? whole k with
  | some (.obj o) => keys o
  | _ => []

/-- One keyword; `rec` reads a nested schema, `whole` is the schema object.  `some none` is a keyword
without a check. -/
def keyword (rec : Json → Option Sch) (whole : JObj) : String → Json → Option (Option Sch)
  | "type", .str "integer" => some (some .integer)
  | "type", .str t => some (some (.types [t]))
  | "type", .arr l => (strs? l).map (fun ks => some (.types ks))
  | "const", v => some (some (.const v))
  | "enum", .arr l => some (some (.enum l))
  | "pattern", .str p => some (some (.pattern p))
  | "format", .str f => some (some (.format f))
  | "required", .arr l => (strs? l).map (fun ks => some (.required ks))
  | "properties", .obj ps => (props? rec ps).map (fun l => some (.props l))
  | "items", .arr l =>
    match all? rec l, get? whole "additionalItems" with
    | some ss, none => some (some (.tuple ss (.all [])))
    | some ss, some a => (rec a).map (fun r => some (.tuple ss r))
    | none, _ => none
  | "items", .obj o => (rec (.obj o)).map (fun s => some (.items s))
  | "minItems", n => (nat? n).map (fun n => some (.minItems n))
  | "minProperties", n => (nat? n).map (fun n => some (.minProps n))
  | "uniqueItems", .bool true => some (some .unique)
  | "contains", v => (rec v).map (fun s => some (.contains s))
  | "anyOf", .arr l => (all? rec l).map (fun ss => some (.anyOf ss))
  | "oneOf", .arr l => (all? rec l).map (fun ss => some (.oneOf ss))
  | "additionalProperties", .bool true => some none
  | "additionalProperties", .bool false =>
    some (some (.closed (namesIn whole "properties") (namesIn whole "patternProperties")))
  | "patternProperties", .obj ps => (props? rec ps).map (fun l => some (.patProps l))
  | "minimum", .num r => some (some (.minimum r))
  | k, _ => if passive.contains k then some none else none

/-- All the keywords of a schema object. -/
def keywords (rec : Json → Option Sch) (whole : JObj) : List (String × Json) → Option (List Sch)
  | [] => some []
  | (k, v) :: l =>
    match keyword rec whole k v, keywords rec whole l with
    | some (some s), some r => some (s :: r)
    | some none, some r => some r
    | _, _ => none

/-- What a local reference `#/a/b` names. -/
def resolveRef (root : JObj) (ref : String) : Option Json :=
  match split '/' ref with
  | ["#", a, b] =>
    match get? root a with
    | some (.obj o) => get? o b
    | _ => none
  | _ => none

/-- Read a schema; `$ref` replaces the whole object.  References in `keep` are not expanded.  The number
bounds nesting and references. -/
def compile (keep : List String) (root : JObj) : Nat → Json → Option Sch
  | 0, _ => none
  | n + 1, .obj o =>
    match get? o "$ref" with
    | some (.str r) =>
      if keep.contains r then some (.ref r) else (resolveRef root r).bind (compile keep root n)
    | some _ => none
    | none => (keywords (compile keep root n) o o).map Sch.all
  | _ + 1, .bool b => some (if b then .all [] else .never)
  | _ + 1, _ => none

/-- Read a document, keeping some references. -/
def readKeep (keep : List String) : Json → Option Sch
  | .obj o => compile keep o 20 (.obj o)
  | _ => none

/-- Read a document. -/
def read : Json → Option Sch := readKeep []

end VC.Schema
