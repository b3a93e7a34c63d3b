import Verif.Time.Calendar
/-!
# RFC 3339 texts as Go reads and prints them (C121)

`util/time/time.go:87-111` calls `time.Parse(time.RFC3339, s)` and `t.Format(time.RFC3339Nano)`;
`verifiable/credential_jwt.go:187-220` prints with `time.RFC3339`.  The model follows `parse`, `getnum`,
`parseNanoseconds` and `appendFormat` of Go 1.23's time/format.go for these layouts (the library's fast
path for RFC 3339 accepts fewer texts, with the same results).  Go reads bytes, the model characters:
the two agree because every text with a character outside ASCII is refused.
-/

namespace VC.Tm

/-- `time.Time`: seconds since 1970, nanoseconds and the offset of its location in seconds. -/
structure Time where
  sec : Int
  nsec : Nat
  off : Int
  deriving DecidableEq, Repr

/-- The value of a digit. -/
def val (c : Char) : Nat := c.toNat - 48

/-- `getnum`, Go time/format.go: two digits, or one when not `fixed`. -/
def getnum (fixed : Bool) : List Char → Option (Nat × List Char)
  | [] => none
  | c :: r =>
    if !c.isDigit then none
    else match r with
      | [] => if fixed then none else some (val c, [])
      | c' :: r' => if c'.isDigit then some (10 * val c + val c', r') else
          if fixed then none else some (val c, c' :: r')

/-- The year of `parse`, Go time/format.go: four digits. -/
def getYear : List Char → Option (Nat × List Char)
  | a :: b :: c :: d :: r =>
    if a.isDigit && b.isDigit && c.isDigit && d.isDigit then
      some (1000 * val a + 100 * val b + 10 * val c + val d, r)
    else none
  | _ => none

/-- `skip`, Go time/format.go, for one character that is not a space. -/
def skip (c : Char) : List Char → Option (List Char)
  | [] => none
  | x :: r => if x = c then some r else none

/-- `atoi` of a list of digits. -/
def atoi (l : List Char) : Nat := l.foldl (fun n c => 10 * n + val c) 0

/-- `parseNanoseconds`, Go time/format.go, on the digits after the separator: at most nine count. -/
def nanos (ds : List Char) : Nat := atoi (ds.take 9) * 10 ^ (9 - (ds.take 9).length)

/-- The fraction of `parse`, Go time/format.go: a period or comma followed by a digit. -/
def getFrac : List Char → Nat × List Char
  | c :: d :: r =>
    if (c = '.' || c = ',') && d.isDigit then
      (nanos ((d :: r).takeWhile Char.isDigit), (d :: r).dropWhile Char.isDigit)
    else (0, c :: d :: r)
  | l => (0, l)

/-- The zone of `parse`, Go time/format.go: `Z`, or a sign, hours up to 24 and minutes up to 60. -/
def getZone : List Char → Option (Int × List Char)
  | [] => none
  | s :: r =>
    if s = 'Z' then some (0, r)
    else match r with
      | h1 :: h2 :: k :: m1 :: m2 :: r =>
        if k = ':' && h1.isDigit && h2.isDigit && m1.isDigit && m2.isDigit then
          if 10 * val h1 + val h2 > 24 || 10 * val m1 + val m2 > 60 then none
          else if s = '+' then
            some (((10 * val h1 + val h2 : Nat) * 60 + (10 * val m1 + val m2 : Nat)) * 60, r)
          else if s = '-' then
            some (-(((10 * val h1 + val h2 : Nat) * 60 + (10 * val m1 + val m2 : Nat)) * 60), r)
          else none
        else none
      | _ => none

/-- The seconds of a date and time of day in UTC, `Date`, Go time/time.go. -/
def unixOf (y m d h mi s : Int) : Int := (dayNo y m d - 719162) * 86400 + h * 3600 + mi * 60 + s

/-- A range check. -/
def req (p : Prop) [Decidable p] : Option Unit := if p then some () else none

/-- `parse` for the layout `time.RFC3339`, Go time/format.go. -/
def parseL (l : List Char) : Option Time := do
  let (y, l) ← getYear l
  let l ← skip '-' l
  let (m, l) ← getnum true l
  req (1 ≤ m ∧ m ≤ 12)
  let l ← skip '-' l
  let (d, l) ← getnum true l
  let l ← skip 'T' l
  let (h, l) ← getnum false l
  req (h < 24)
  let l ← skip ':' l
  let (mi, l) ← getnum true l
  req (mi < 60)
  let l ← skip ':' l
  let (s, l) ← getnum true l
  req (s < 60)
  let (off, r) ← getZone (getFrac l).2
  req (r = [])
  req (1 ≤ d ∧ d ≤ daysIn m y)
  return ⟨unixOf y m d h mi s - off, (getFrac l).1, off⟩

/-- `time.Parse(time.RFC3339, s)`. -/
def parse (s : String) : Option Time := parseL s.toList

/-- A digit. -/
def digit (n : Nat) : Char := Char.ofNat (48 + n)

/-- `appendInt(_, n, 2)`, Go time/format.go, for numbers below 100. -/
def pad2 (n : Nat) : List Char := [digit (n / 10), digit (n % 10)]

/-- `appendInt(_, n, 4)`, Go time/format.go. -/
def pad4 (n : Nat) : List Char :=
  if _h : n < 10000 then pad2 (n / 100) ++ pad2 (n % 100)
  else pad4 (n / 10) ++ [digit (n % 10)]
  termination_by n
  decreasing_by omega

/-- `appendInt(_, year, 4)`, Go time/format.go. -/
def padYear (y : Int) : List Char := if y < 0 then '-' :: pad4 (-y).toNat else pad4 y.toNat

/-- The digits of the nanoseconds. -/
def nine (n : Nat) : List Char :=
  pad2 (n / 10000000) ++ pad2 (n / 100000 % 100) ++ pad2 (n / 1000 % 100) ++ pad2 (n / 10 % 100) ++
    [digit (n % 10)]

/-- `appendNano` for `.999999999`, Go time/format.go: trailing zeros are left out. -/
def fracText (n : Nat) : List Char :=
  if n = 0 then [] else '.' :: ((nine n).reverse.dropWhile (· == '0')).reverse

/-- The zone, `appendFormat` for `Z07:00`, Go time/format.go: the sign is that of the whole minutes. -/
def zoneText (off : Int) : List Char :=
  if off = 0 then ['Z']
  else (if off ≤ -60 then '-' else '+') :: (pad2 (off.natAbs / 60 / 60) ++ ':' :: pad2 (off.natAbs / 60 % 60))

/-- Date and time of day of local seconds, `appendFormat`, Go time/format.go. -/
def clockText (loc : Int) : List Char :=
  let c := civil (loc / 86400 + 719162)
  let r := (loc % 86400).toNat
  padYear c.1 ++ '-' :: pad2 c.2.1.toNat ++ '-' :: pad2 c.2.2.toNat ++ 'T' :: pad2 (r / 3600) ++
    ':' :: pad2 (r / 60 % 60) ++ ':' :: pad2 (r % 60)

/-- `t.Format(time.RFC3339Nano)`. -/
def fmtNano (t : Time) : String :=
  String.ofList (clockText (t.sec + t.off) ++ fracText t.nsec ++ zoneText t.off)

/-- `t.Format(time.RFC3339)`. -/
def fmtSec (t : Time) : String := String.ofList (clockText (t.sec + t.off) ++ zoneText t.off)

/-- `time.Unix(n, 0).UTC().Format(time.RFC3339)`, credential_jwt.go:187-220. -/
def fmtUnix (n : Int) : String := fmtSec ⟨n, 0, 0⟩

/-! ## Specification -/

/-- The number a text of digits stands for. -/
def base10 : List Char → Nat
  | [] => 0
  | c :: l => (c.toNat - '0'.toNat) * 10 ^ l.length + base10 l

/-- The text `l` consists of `k` digits and reads `n` in base ten. -/
def Num (k n : Nat) (l : List Char) : Prop :=
  l.length = k ∧ (∀ c ∈ l, '0' ≤ c ∧ c ≤ '9') ∧ base10 l = n

/-- The fraction of a second: none, or a separator and digits; nanoseconds below the ninth digit are
cut off. -/
inductive FracOf : List Char → Nat → Prop
  | none : FracOf [] 0
  | some {sep : Char} {ds : List Char} {n k : Nat} : sep = '.' ∨ sep = ',' → ds ≠ [] →
      Num ds.length n ds → k = n * 1000000000 / 10 ^ ds.length → FracOf (sep :: ds) k

/-- The offset from UTC in seconds. -/
inductive ZoneOf : List Char → Int → Prop
  | utc : ZoneOf ['Z'] 0
  | east {a b : List Char} {h m : Nat} : Num 2 h a → Num 2 m b → h ≤ 24 → m ≤ 60 →
      ZoneOf ('+' :: a ++ ':' :: b) (h * 3600 + m * 60)
  | west {a b : List Char} {h m : Nat} : Num 2 h a → Num 2 m b → h ≤ 24 → m ≤ 60 →
      ZoneOf ('-' :: a ++ ':' :: b) (-(h * 3600 + m * 60))

/-- Which texts are times, and which: date, `T`, time of day, fraction, zone.  The hour may have one
digit. -/
inductive Written : List Char → Time → Prop
  | mk {ty tm td th tmi ts tf tz : List Char} {y m d h mi s f : Nat} {o : Int} :
      Num 4 y ty → Num 2 m tm → Num 2 d td → (Num 2 h th ∨ Num 1 h th) → Num 2 mi tmi → Num 2 s ts →
      FracOf tf f → ZoneOf tz o → Valid y m d → h < 24 → mi < 60 → s < 60 →
      Written (ty ++ '-' :: tm ++ '-' :: td ++ 'T' :: th ++ ':' :: tmi ++ ':' :: ts ++ tf ++ tz)
        ⟨unixOf y m d h mi s - o, f, o⟩

end VC.Tm
