import Verif.Base.GoMap
import Verif.Base.Str
/-!
# The in-memory store (model)

Models `legacy/mem/mem.go`.  A `[]byte` is an `Option β`: `none` is nil.  The store keeps the slice it
is given, it does not copy it; `β` is therefore also used for references to buffers (see `Alias`).
The order of a Go map is the order of the association list; results whose order depends on it are
stated as sets.  Errors carry no text.
-/

namespace VC.Mem

open VC

/-- `spi.Tag`. -/
structure Tag where
  name : String
  value : String
  deriving DecidableEq

/-- `dbEntry`, mem.go:151-154; `value` is not nil by construction (Put and Batch reject/delete nil). -/
structure Entry (β : Type) where
  value : β
  tags : List Tag
  deriving DecidableEq

/-- `memStore.db`, mem.go:153. -/
abbrev Db (β : Type) := GoMap (Entry β)

/-- Errors of the store. -/
inductive Err where
  | emptyKey
  | nilValue
  | badTag
  | notFound
  | noKeys
  | noOps
  | badQuery
  | unsupported
  | emptyName
  | noStore
  deriving DecidableEq

/-- `spi.Operation`: `value = none` is a delete. -/
structure Oper (β : Type) where
  key : String
  value : Option β
  tags : List Tag

/-- `strings.Contains(s, ":")`. -/
def hasColon (s : String) : Bool := s.toList.contains ':'

/-- `Put`, mem.go:165-192. -/
def put (db : Db β) (key : String) (value : Option β) (tags : List Tag) : Except Err (Db β) :=
  if key = "" then .error .emptyKey
  else
    match value with
    | none => .error .nilValue
    | some v =>
      if tags.any (fun t => hasColon t.name || hasColon t.value) then .error .badTag
      else .ok (GoMap.set db key ⟨v, tags⟩)

/-- `Get`, mem.go:197-211. -/
def get (db : Db β) (key : String) : Except Err β :=
  if key = "" then .error .emptyKey
  else
    match GoMap.get? db key with
    | none => .error .notFound
    | some e => .ok e.value

/-- `GetTags`, mem.go:216-230. -/
def getTags (db : Db β) (key : String) : Except Err (List Tag) :=
  if key = "" then .error .emptyKey
  else
    match GoMap.get? db key with
    | none => .error .notFound
    | some e => .ok e.tags

/-- `GetBulk`, mem.go:235-256: nil for a missing key. -/
def getBulk (db : Db β) (keys : List String) : Except Err (List (Option β)) :=
  if keys.length = 0 then .error .noKeys
  else if keys.any (fun k => k == "") then .error .emptyKey
  else .ok (keys.map (fun k => (GoMap.get? db k).map Entry.value))

/-- `Delete`, mem.go:310-320. -/
def delete (db : Db β) (key : String) : Except Err (Db β) :=
  if key = "" then .error .emptyKey else .ok (GoMap.del db key)

/-- One operation of a batch, mem.go:335-345. -/
def applyOp (db : Db β) (o : Oper β) : Db β :=
  match o.value with
  | none => GoMap.del db o.key
  | some v => GoMap.set db o.key ⟨v, o.tags⟩

/-- `Batch`, mem.go:324-351. -/
def batch (db : Db β) (ops : List (Oper β)) : Except Err (Db β) :=
  if ops.length = 0 then .error .noOps
  else if ops.any (fun o => o.key == "") then .error .emptyKey
  else .ok (ops.foldl applyOp db)

/-! ## Query -/

/-- `strings.Split(s, "&&")` on characters. -/
def splitAmpL : List Char → List (List Char)
  | [] => [[]]
  | [c] => [[c]]
  | c :: d :: cs =>
    if c = '&' ∧ d = '&' then [] :: splitAmpL cs
    else
      match splitAmpL (d :: cs) with
      | [] => [[c]]
      | p :: ps => (c :: p) :: ps

/-- `strings.Split(expression, "&&")`, mem.go:278. -/
def splitAmp (s : String) : List String := (splitAmpL s.toList).map String.ofList

/-- One criterion of an expression: tag name and value (`""`: any value), mem.go:279-297. -/
def criterion (exp : String) : Option (String × String) :=
  match split ':' exp with
  | [n] => some (n, "")
  | [n, v] => some (n, v)
  | _ => none

/-- All criteria of an expression; `none`: a malformed one, mem.go:278-299. -/
def criteria : List String → Option (List (String × String))
  | [] => some []
  | e :: es =>
    match criterion e with
    | none => none
    | some c => (criteria es).map (fun cs => c :: cs)

/-- Does an entry match a criterion, mem.go:377-384. -/
def tagMatch (name value : String) (e : Entry β) : Bool :=
  e.tags.any (fun t => t.name == name && (value == "" || t.value == value))

/-- `getMatchingKeysAndDBEntries`, mem.go:365-390. -/
def matching (db : Db β) (name value : String) : List (String × Entry β) :=
  db.filter (fun p => tagMatch name value p.2)

/-- `queryResults` after the loop, mem.go:276-300: a map keyed by tag name.  `dbs` are the contents of
the store at each of the separate read locks, one per criterion. -/
def collect : List (Db β × (String × String)) → GoMap (List (String × Entry β)) →
    GoMap (List (String × Entry β))
  | [], m => m
  | (db, c) :: r, m => collect r (GoMap.set m c.1 (matching db c.1 c.2))

/-- Counting and last value, mem.go:479-485. -/
def countStep (st : GoMap Nat × Db β) (p : String × Entry β) : GoMap Nat × Db β :=
  (GoMap.set st.1 p.1 ((GoMap.get? st.1 p.1).getD 0 + 1), GoMap.set st.2 p.1 p.2)

/-- `commonDBEntries`, mem.go:477-503. -/
def common (results : GoMap (List (String × Entry β))) : List (String × Entry β) :=
  let st := results.foldl (fun st r => r.2.foldl countStep st) (([] : GoMap Nat), ([] : Db β))
  st.1.filterMap (fun p =>
    if p.2 = results.length then (GoMap.get? st.2 p.1).map (fun e => (p.1, e)) else none)

/-- `Query`, mem.go:270-306, when the criteria see the contents `dbs` of the store (with no writes in
between they are all equal, see `query`).  `opts`: an unsupported option is set. -/
def queryAt (dbs : List (Db β)) (opts : Bool) (expression : String) :
    Except Err (List (String × Entry β)) :=
  if opts then .error .unsupported
  else if expression = "" then .error .badQuery
  else
    match criteria (splitAmp expression) with
    | none => .error .badQuery
    | some cs => .ok (common (collect (dbs.zip cs) []))

/-- `Query` without concurrent writes. -/
def query (db : Db β) (opts : Bool) (expression : String) : Except Err (List (String × Entry β)) :=
  queryAt (List.replicate (splitAmp expression).length db) opts expression

/-! ## Iterator -/

/-- `memIterator`, mem.go:392-398; `entries` is the slice `dbEntries`. -/
structure It (β : Type) where
  index : Nat
  current : Option (String × Entry β)
  keys : List String
  entries : List (Entry β)

/-- The iterator of a query result, mem.go:304. -/
def It.of (l : List (String × Entry β)) : It β := ⟨0, none, l.map Prod.fst, l.map Prod.snd⟩

/-- `Next`, mem.go:401-412; `none`: index out of range. -/
def It.next (it : It β) : Option (Bool × It β) :=
  if it.entries.length = it.index ∨ it.entries.length = 0 then some (false, { it with entries := [] })
  else
    match it.keys[it.index]?, it.entries[it.index]? with
    | some k, some e => some (true, { it with index := it.index + 1, current := some (k, e) })
    | _, _ => none

/-- `Key`, `Value` and `Tags` together, mem.go:415-439: the current entry (`none` inside: the zero
value before the first `Next`), or an error. -/
def It.get (it : It β) : Option (Option (String × Entry β)) :=
  if it.entries.length = 0 then none else some it.current

/-- `TotalItems`, mem.go:441-443. -/
def It.total (it : It β) : Nat := it.keys.length

/-! ## Provider -/

/-- A `*memStore` is a number; `heap` holds its contents and `names` its name.  `dbs` is
`Provider.dbs`, mem.go:34-37.  Store configurations are only stored and returned. -/
structure Prov (β γ : Type) where
  dbs : GoMap Nat
  heap : Nat → Db β
  names : Nat → String
  config : Nat → Option γ
  next : Nat

/-- `NewProvider`, mem.go:42-44. -/
def Prov.new : Prov β γ := ⟨[], fun _ => [], fun _ => "", fun _ => none, 0⟩

/-- Calls on the provider and on store handles. -/
inductive Call (β γ : Type) where
  | openStore (name : String)
  | setConfig (name : String) (tagNames : List String) (c : γ)
  | closeAll
  | closeStore (h : Nat)
  | put (h : Nat) (key : String) (value : Option β) (tags : List Tag)
  | delete (h : Nat) (key : String)
  | batch (h : Nat) (ops : List (Oper β))

/-- Update of a function. -/
def upd (f : Nat → α) (h : Nat) (v : α) : Nat → α := fun x => if x = h then v else f x

/-- `OpenStore`, mem.go:48-69; `lower` is `strings.ToLower`. -/
def Prov.openStore (lower : String → String) (p : Prov β γ) (name : String) :
    Except Err (Nat × Prov β γ) :=
  if name = "" then .error .emptyName
  else
    match GoMap.get? p.dbs (lower name) with
    | some h => .ok (h, p)
    | none => .ok (p.next, { dbs := GoMap.set p.dbs (lower name) p.next, heap := upd p.heap p.next [],
                             names := upd p.names p.next (lower name), config := upd p.config p.next none,
                             next := p.next + 1 })

/-- `SetStoreConfig`, mem.go:72-92. -/
def Prov.setConfig (lower : String → String) (p : Prov β γ) (name : String) (tagNames : List String)
    (c : γ) : Except Err (Prov β γ) :=
  if tagNames.any hasColon then .error .badTag
  else
    match GoMap.get? p.dbs (lower name) with
    | none => .error .noStore
    | some h => .ok { p with config := upd p.config h (some c) }

/-- `GetStoreConfig`, mem.go:97-106 (the zero configuration is `none`). -/
def Prov.getConfig (lower : String → String) (p : Prov β γ) (name : String) : Except Err (Option γ) :=
  match GoMap.get? p.dbs (lower name) with
  | none => .error .noStore
  | some h => .ok (p.config h)

/-- `removeStore`, mem.go:141-149, called by `memStore.Close`, mem.go:354-358: by name. -/
def Prov.closeStore (p : Prov β γ) (h : Nat) : Prov β γ := { p with dbs := GoMap.del p.dbs (p.names h) }

/-- A write on a store: an error leaves it as it is. -/
def Prov.write (p : Prov β γ) (h : Nat) (r : Except Err (Db β)) : Prov β γ :=
  match r with
  | .error _ => p
  | .ok db => { p with heap := upd p.heap h db }

/-- The state after a call. -/
def Prov.step (lower : String → String) (p : Prov β γ) : Call β γ → Prov β γ
  | .openStore name => match p.openStore lower name with | .ok (_, q) => q | .error _ => p
  | .setConfig name ts c => match p.setConfig lower name ts c with | .ok q => q | .error _ => p
  | .closeAll => { p with dbs := [] }
  | .closeStore h => p.closeStore h
  | .put h k v ts => p.write h (VC.Mem.put (p.heap h) k v ts)
  | .delete h k => p.write h (VC.Mem.delete (p.heap h) k)
  | .batch h ops => p.write h (VC.Mem.batch (p.heap h) ops)

end VC.Mem
