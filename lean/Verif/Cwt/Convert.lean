import Verif.Base.Json
import Verif.Proof.Model
/-!
# verifiable: CBOR values to string-keyed maps (model)

`convertToStringMap` and `convertElement`, verifiable/credential_parser.go:116-143.

A Go value decoded by the CBOR library into `interface{}` is a `Cv`.  Go iterates over a map in an
unspecified order that may differ from map to map and from run to run; the model takes the order of
each map, named by its path, as an argument.

Simplified: converting a slice in place (credential_parser.go:135) is not distinguished from
returning a new one, since the only caller drops the decoded value.
-/

namespace VC.Cwt

open VC.Proof (Bytes)

/-- A value decoded from CBOR into `interface{}`, or converted. -/
inductive Cv where
  | nil : Cv
  | bool : Bool → Cv
  /-- `uint64` or `int64` -/
  | int : Int → Cv
  | float : Rat → Cv
  | str : String → Cv
  /-- `[]byte`, and `cbor.ByteString` as a map key -/
  | bytes : Bytes → Cv
  /-- anything else: tags, big numbers, times, simple values -/
  | other : String → Cv
  | arr : List Cv → Cv
  /-- `map[interface{}]interface{}` -/
  | imap : List (Cv × Cv) → Cv
  /-- `map[string]interface{}` -/
  | smap : List (String × Cv) → Cv
  deriving Inhabited

/-- The order in which the members of the map at a path are visited. -/
abbrev Order := List Nat → List (String × Cv) → List (String × Cv)

variable (sprint : Cv → String) (ord : Order)

/-- `out[key] = …` for the members in turn, credential_parser.go:119-125: a later one replaces an
earlier one with the same key. -/
def assignAll (l : List (String × Cv)) : GoMap Cv := l.foldl (fun m p => GoMap.set m p.1 p.2) []

mutual
/-- `convertElement`, credential_parser.go:130-143; a map is `convertToStringMap`,
credential_parser.go:116-128, with `fmt.Sprintf("%v", k)` for the key. -/
def conv : List Nat → Cv → Cv
  | p, .imap l => .smap (assignAll (ord p (convEntries p 0 l)))
  | p, .arr l => .arr (convList p 0 l)
  | _, .nil => .nil
  | _, .bool b => .bool b
  | _, .int n => .int n
  | _, .float q => .float q
  | _, .str s => .str s
  | _, .bytes b => .bytes b
  | _, .other s => .other s
  | _, .smap m => .smap m
/-- The members of a map, each converted. -/
def convEntries : List Nat → Nat → List (Cv × Cv) → List (String × Cv)
  | _, _, [] => []
  | p, n, (k, v) :: l => (sprint k, conv (n :: p) v) :: convEntries p (n + 1) l
/-- The elements of a slice, each converted. -/
def convList : List Nat → Nat → List Cv → List Cv
  | _, _, [] => []
  | p, n, v :: l => conv (n :: p) v :: convList p (n + 1) l
end

/-- `convertToStringMap`, credential_parser.go:116-128. -/
def convertToStringMap (l : List (Cv × Cv)) : GoMap Cv := assignAll (ord [] (convEntries sprint ord [] 0 l))

end VC.Cwt
