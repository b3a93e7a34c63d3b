import Verif.Verifiable.JWTClaims
import Verif.Proof.Model
/-!
# verifiable/cwt: the signed bytes of a COSE message (model)

`deterministicBinaryString`, verifiable/cwt/cbor.go:53-101, and `GetProofValue`,
verifiable/cwt/cwt.go:14-42, byte by byte.  Indexing a slice out of range is `Out.panic`.

The CBOR library (fxamacker/cbor) is modelled only where these two functions use it: `Valid` and
`Unmarshal` of one definite-length byte string, `Marshal` of a byte slice, of a text of ten
characters and of an array of four.  go-cose's `Headers.MarshalProtected` is a parameter.
-/

namespace VC.Cwt

open VC.Vfy (Out)
open VC.Proof (Bytes)

/-- Big-endian number, as the CBOR library reads an argument. -/
def beNat (l : Bytes) : Nat := l.foldl (fun n b => n * 256 + b.toNat) 0

/-- `k` big-endian bytes of a number, as the CBOR library writes an argument. -/
def beBytes : Nat → Nat → Bytes
  | 0, _ => []
  | k + 1, n => beBytes k (n / 256) ++ [UInt8.ofNat (n % 256)]

/-- How many argument bytes follow an initial byte with this additional information (`data[0] &
0x1f`): none for 28-30 (reserved) and 31 (indefinite length, forbidden by the decoding mode,
cbor.go:36-41). -/
def argLen (ai : Nat) : Option Nat :=
  if ai = 24 then some 1
  else if ai = 25 then some 2
  else if ai = 26 then some 4
  else if ai = 27 then some 8
  else none

/-- The length and the bytes after the head of a byte string: fxamacker's `parseHead` for major
type 2. -/
def bstrHead : Bytes → Option (Nat × Bytes)
  | [] => none
  | b :: r =>
    if b.toNat % 32 < 24 then some (b.toNat % 32, r)
    else match argLen (b.toNat % 32) with
      | none => none
      | some k => if r.length < k then none else some (beNat (r.take k), r.drop k)

/-- `decModeWithTagsForbidden.Valid(data)` for major type 2: the content has the announced length
and nothing follows it. -/
def validBstr (data : Bytes) : Bool :=
  match bstrHead data with
  | none => false
  | some (n, rest) => rest.length == n

/-- `decModeWithTagsForbidden.Unmarshal(data, &s)` for a `[]byte`. -/
def decodeBstr (data : Bytes) : Option Bytes :=
  match bstrHead data with
  | none => none
  | some (n, rest) => if rest.length = n then some rest else none

/-- `encMode.Marshal(s)` / `cbor.Marshal` of a non-nil `[]byte`: the shortest head. -/
def encodeBstr (s : Bytes) : Bytes :=
  if s.length < 24 then UInt8.ofNat (64 + s.length) :: s
  else if s.length < 256 then 88 :: (beBytes 1 s.length ++ s)
  else if s.length < 65536 then 89 :: (beBytes 2 s.length ++ s)
  else if s.length < 4294967296 then 90 :: (beBytes 4 s.length ++ s)
  else 91 :: (beBytes 8 s.length ++ s)

/-- `data[i]`: panics out of range. -/
def index (data : Bytes) (i : Nat) : Out UInt8 :=
  match data[i]? with
  | none => .panic
  | some b => .ok b

/-- `data[i] != 0 || data[i+1] != 0 || …` over `n` bytes from `i`, short-circuiting. -/
def anyNonzero (data : Bytes) : Nat → Nat → Out Bool
  | _, 0 => .ok false
  | i, n + 1 => (index data i).bind fun b => if b ≠ 0 then .ok true else anyNonzero data (i + 1) n

/-- The `switch ai` of cbor.go:71-88: is the head already the shortest one? -/
def alreadyShort (data : Bytes) (ai : Nat) : Out Bool :=
  if ai = 24 then (index data 1).bind fun b => .ok (decide (24 ≤ b.toNat))
  else if ai = 25 then anyNonzero data 1 1
  else if ai = 26 then anyNonzero data 1 2
  else if ai = 27 then anyNonzero data 1 4
  else .ok false

/-- `deterministicBinaryString`, cbor.go:53-102. -/
def deterministic : Bytes → Out Bytes
  | [] => .err
  | b :: r =>
    if b.toNat / 32 ≠ 2 then .err
    else if !validBstr (b :: r) then .err
    else if b.toNat % 32 < 24 then .ok (b :: r)
    else (alreadyShort (b :: r) (b.toNat % 32)).bind fun short =>
      if short then .ok (b :: r)
      else match decodeBstr (b :: r) with
        | none => .err
        | some s => .ok (encodeBstr s)

/-- `cbor.Marshal` of a possibly nil `[]byte`: nil is null. -/
def encodePayload : Option Bytes → Bytes
  | none => [246]
  | some p => encodeBstr p

/-- `"Signature1"`, cwt.go:28, as a CBOR text. -/
def sig1Text : Bytes := [106, 83, 105, 103, 110, 97, 116, 117, 114, 101, 49]

/-- `GetProofValue`, cwt.go:14-42: an array of four, the raw message copied as it is; `protected` is
the result of `MarshalProtected`. -/
def getProofValue (prot : Option Bytes) (payload : Option Bytes) : Out Bytes :=
  match prot with
  | none => .err
  | some p =>
    (deterministic p).bind fun d =>
      .ok (132 :: (sig1Text ++ d ++ [64] ++ encodePayload payload))

end VC.Cwt
