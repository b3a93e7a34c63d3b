/-!
# strconv.Atoi

Model of Go's `strconv.Atoi` (base 10, 64-bit `int`): optional sign, at least one decimal digit,
nothing else, and a result inside the `int64` range; anything else is an error.
-/

namespace VC

/-- Value of a non-empty digit string, `none` if a non-digit occurs (digits only, no underscore). -/
def digitsVal : List Char → Nat → Option Nat
  | [], acc => some acc
  | c :: cs, acc => if '0' ≤ c ∧ c ≤ '9' then digitsVal cs (acc * 10 + (c.toNat - 48)) else none

/-- Unsigned part of Atoi: at least one digit. -/
def parseUDigits (cs : List Char) : Option Nat :=
  if cs.isEmpty then none else digitsVal cs 0

/-- `strconv.Atoi` on a 64-bit platform. -/
def atoi (s : String) : Option Int :=
  let signed : Option Int :=
    match s.toList with
    | '-' :: cs => (parseUDigits cs).map (fun n => - (n : Int))
    | '+' :: cs => (parseUDigits cs).map (fun n => (n : Int))
    | cs => (parseUDigits cs).map (fun n => (n : Int))
  match signed with
  | some i => if -(2:Int)^63 ≤ i ∧ i < (2:Int)^63 then some i else none
  | none => none

end VC
