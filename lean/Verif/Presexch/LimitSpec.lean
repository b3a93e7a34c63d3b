import Verif.Base.Json
/-!
# Places in a JSON document (specification)

What the theorems about limited disclosure say is stated with places: a place is a list of member
names and array positions.
-/

namespace VC.PE

/-- One step down a JSON document: a member of an object or a position of an array.  The keys that the
JSON path library reports for a match are of this form. -/
inductive Step where
  | name (k : String)
  | idx (n : Nat)
  deriving DecidableEq

/-- The value at a place, `none` if the document has no such place. -/
def gat : Json → List Step → Option Json
  | j, [] => some j
  | .obj o, .name k :: p => (GoMap.get? o k).bind (fun x => gat x p)
  | .arr l, .idx n :: p => (l[n]?).bind (fun x => gat x p)
  | _, _ :: _ => none

/-- A value without parts: a scalar, an empty array or an empty object. -/
inductive Leaf : Json → Prop
  | null : Leaf .null
  | bool (b : Bool) : Leaf (.bool b)
  | num (n : Rat) : Leaf (.num n)
  | str (s : String) : Leaf (.str s)
  | emptyArr : Leaf (.arr [])
  | emptyObj : Leaf (.obj [])

/-- How the step is written in a dotted path. -/
def Step.text : Step → String
  | .name k => k
  | .idx n => toString n

/-- A step that a dotted path can express: a member name that is not empty, has no dot and does not
consist of digits; an array position always. -/
def Step.Plain : Step → Prop
  | .name k => k ≠ "" ∧ '.' ∉ k.toList ∧ ¬ (∀ c ∈ k.toList, '0' ≤ c ∧ c ≤ '9')
  | .idx _ => True

/-- Both steps go into an object, or both into an array. -/
def Step.SameKind : Step → Step → Prop
  | .name _, .name _ => True
  | .idx _, .idx _ => True
  | _, _ => False

/-- Same names, and an array position for an array position. -/
inductive SameShape : List Step → List Step → Prop
  | nil : SameShape [] []
  | name (k : String) {p q : List Step} : SameShape p q → SameShape (.name k :: p) (.name k :: q)
  | idx (n m : Nat) {p q : List Step} : SameShape p q → SameShape (.idx n :: p) (.idx m :: q)

/-- The place does not go through an array that is directly inside an array, `[ [ … ] ]`. -/
def NoNest (p : List Step) : Prop := ∀ s a b t, p ≠ s ++ .idx a :: .idx b :: t

/-- Following the place down the document, as far as it exists, a member name does not meet an array and
an array position does not meet an object. -/
def Fits : Json → List Step → Prop
  | _, [] => True
  | .obj o, .name k :: p => ∀ x, GoMap.get? o k = some x → Fits x p
  | .obj _, .idx _ :: _ => False
  | .arr l, .idx n :: p => ∀ x, l[n]? = some x → Fits x p
  | .arr _, .name _ :: _ => False
  | _, _ :: _ => True

/-- The two places part: a common beginning, then different steps into the same container. -/
inductive Div : List Step → List Step → Prop
  | head (a b : Step) (s t : List Step) : a ≠ b → a.SameKind b → Div (a :: s) (b :: t)
  | tail (a : Step) (s t : List Step) : Div s t → Div (a :: s) (a :: t)

/-- No member name on the way contains `credentialSchema`. -/
def NoSchema (p : List Step) : Prop :=
  ∀ k, Step.name k ∈ p → ¬ "credentialSchema".toList <:+: k.toList

/-- All steps are member names: no array on the way. -/
def Names (p : List Step) : Prop := ∀ s ∈ p, ∃ k, s = Step.name k

/-- Every array that the first place goes through parts from the second place: the second neither
contains the array nor lies in it. -/
def ArraysApart (p q : List Step) : Prop :=
  ∀ c a s, p = c ++ Step.idx a :: s → ¬ c <+: q ∧ ¬ q <+: c

end VC.PE
