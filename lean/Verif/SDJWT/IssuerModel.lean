import Verif.SDJWT.IssuerBlind
import Verif.Util.JsonUtil
/-!
# sdjwt/issuer (model)

Models `sdjwt/issuer/issuer.go` (New, NewFromVC, createPayload, createDigests,
createDecoyDisclosures) and the builders `v2.go` and `v5.go`.

Simplifications: salts, shuffles and the number of decoys are functions of the number of salts drawn
so far (so every sequence of random choices is covered); JSON marshalling of a disclosure, salt
generation and hashing do not fail (failures: `IssueFail`); signing is left out (the payload handed to the signer is the
result).  The list order of an object is the iteration order of the Go map.
-/

namespace VC.SDJWT

/-- `DisclosureEntity`, issuer.go: the encoded disclosure and the array it encodes (`DebugArr`;
empty for decoys). -/
structure Ent where
  result : String
  debugArr : List Json

/-- Options and random choices of `New`, issuer.go:85-110, 343-365. -/
structure IEnv where
  env : Env
  /-- `HashAlg.String()` -/
  alg : String
  /-- `strings.ToLower` -/
  lower : String → String
  /-- JSON and base64url encoding of a disclosure -/
  encode : List Json → String
  /-- successive results of `getSalt` -/
  salt : Nat → String
  /-- `mr.Shuffle` -/
  shuffle : Nat → List String → List String
  /-- `mr.Intn` -/
  intn : Nat → Nat
  addDecoys : Bool
  structured : Bool
  nonSD : String → Bool
  always : String → Bool
  recursive : String → Bool

/-- `createDigest`, issuer.go:513-522. -/
def IEnv.digest (E : IEnv) (s : String) : String := E.env.hash E.alg s

/-- `createDigests`, issuer.go:494-511. -/
def createDigests (E : IEnv) (n : Nat) (es : List Ent) : List String :=
  E.shuffle n (es.map (fun e => E.digest e.result))

/-- `createDecoyDisclosures`, issuer.go:524-547: between one and four salts. -/
def createDecoys (E : IEnv) (n : Nat) : List Ent :=
  if E.addDecoys then (List.range (E.intn n % 4 + 1)).map (fun i => ⟨E.salt (n + i), []⟩) else []

/-- `curPath`, v2.go:73-76, v5.go:113-116. -/
def curPath (path key : String) : String := if path ≠ "" then path ++ "." ++ key else key

/-- The `[]string` of digests as JSON (nil slice: null). -/
def digestsJson (l : List String) : Json := if l.isEmpty then .null else .arr (l.map .str)

/-! ## V2 -/

/-- `createDisclosure`, v2.go:115-135. -/
def v2Disclosure (E : IEnv) (n : Nat) (k : String) (v : Json) : Ent :=
  ⟨E.encode [.str (E.salt n), .str k, v], [.str (E.salt n), .str k, v]⟩

/-- State of the member loop: `disclosures`, `levelDisclosures`, `digestsMap`, next salt. -/
structure Acc where
  nested : List Ent
  level : List Ent
  fields : JObj
  next : Nat

/-- The end of `CreateDisclosuresAndDigests`, v2.go:101-111. -/
def v2Finish (E : IEnv) (decoys : List Ent) (r : Acc) : List Ent × JObj × Nat :=
  (r.nested ++ r.level,
    r.fields ++ [("_sd", digestsJson (createDigests E r.next (r.level ++ decoys)))], r.next)

/-- The branch for a member that is not processed recursively, v2.go:87-99. -/
def v2Leaf (E : IEnv) (cur k : String) (n : Nat) (v : Json) : Acc :=
  if E.nonSD cur then ⟨[], [], [(k, v)], n⟩ else ⟨[], [v2Disclosure E n k v], [], n + 1⟩

/-- What the loop has after one more member. -/
def Acc.join (a b : Acc) : Acc := ⟨a.nested ++ b.nested, a.level ++ b.level, a.fields ++ b.fields, b.next⟩

mutual
/-- One iteration of the loop of `CreateDisclosuresAndDigests`, v2.go:72-100. -/
def v2Member (E : IEnv) (cur k : String) (n : Nat) : Json → Acc
  | .obj o =>
    if E.structured then
      let decoys := createDecoys E n
      let out := v2Finish E decoys (v2Loop E cur (n + decoys.length) o)
      ⟨out.1, [], [(k, .obj out.2.1)], out.2.2⟩
    else v2Leaf E cur k n (.obj o)
  | .arr l => v2Leaf E cur k n (.arr l)
  | .str s => v2Leaf E cur k n (.str s)
  | .num q => v2Leaf E cur k n (.num q)
  | .bool b => v2Leaf E cur k n (.bool b)
  | .null => v2Leaf E cur k n .null
/-- The loop of `CreateDisclosuresAndDigests`, v2.go:72-100. -/
def v2Loop (E : IEnv) (path : String) (n : Nat) : List (String × Json) → Acc
  | [] => ⟨[], [], [], n⟩
  | (k, v) :: m =>
    (v2Member E (curPath path k) k n v).join
      (v2Loop E path (v2Member E (curPath path k) k n v).next m)
end

/-- `CreateDisclosuresAndDigests` of V2 at the top level, v2.go:55-111. -/
def v2Build (E : IEnv) (claims : JObj) : List Ent × JObj × Nat :=
  v2Finish E (createDecoys E 0) (v2Loop E "" (createDecoys E 0).length claims)

/-! ## V5 -/

/-- `createDisclosure`, v5.go:293-334: an empty key is left out. -/
def v5Disclosure (E : IEnv) (n : Nat) (k : String) (v : Json) : Ent :=
  let arr := if k ≠ "" then [.str (E.salt n), .str k, v] else [.str (E.salt n), v]
  ⟨E.encode arr, arr⟩

/-- `fmt.Sprintf("%v[%v]", path, i)`. -/
def elemPath (path : String) (i : Nat) : String := path ++ "[" ++ toString i ++ "]"

/-- `processArrayElements`, v5.go:253-291: the elements, the disclosures, the next salt. -/
def v5Elems (E : IEnv) (path : String) : Nat → Nat → List Json → List Json × List Ent × Nat
  | _, n, [] => ([], [], n)
  | i, n, v :: l =>
    if E.nonSD (elemPath path i) then
      let r := v5Elems E path (i + 1) n l
      (v :: r.1, r.2)
    else
      let e := v5Disclosure E n "" v
      let r := v5Elems E path (i + 1) (n + 1) l
      (.obj [("...", .str (E.digest e.result))] :: r.1, e :: r.2.1, r.2.2)

/-- `digestArr` as JSON: a nil slice is null. -/
def elemsJson (l : List Json) : Json := if l.isEmpty then .null else .arr l

/-- The array case, v5.go:187-212. -/
def v5Array (E : IEnv) (cur k : String) (n : Nat) (l : List Json) : Acc :=
  if E.nonSD cur then ⟨[], [], [(k, .arr l)], n⟩
  else
    let r := v5Elems E cur 0 n l
    if E.always cur || E.structured then ⟨r.2.1, [], [(k, elemsJson r.1)], r.2.2⟩
    else ⟨r.2.1, [v5Disclosure E r.2.2 k (elemsJson r.1)], [], r.2.2 + 1⟩

/-- The default case, v5.go:213-227. -/
def v5Prim (E : IEnv) (ign : Bool) (cur k : String) (n : Nat) (v : Json) : Acc :=
  if E.nonSD cur || ign then ⟨[], [], [(k, v)], n⟩ else ⟨[], [v5Disclosure E n k v], [], n + 1⟩

/-- The end of `createDisclosuresAndDigestsInternal`, v5.go:230-247: the disclosures returned
include the decoys; `level` of the accumulator is `finalSDDigest` without the decoys. -/
def v5Finish (E : IEnv) (decoys : List Ent) (r : Acc) : List Ent × JObj × Nat :=
  let digests := createDigests E r.next (decoys ++ r.level)
  (decoys ++ r.level ++ r.nested,
    r.fields ++ (if digests.isEmpty then [] else [("_sd", digestsJson digests)]), r.next)

/-- Whether the members of a nested object are processed with `ignorePrimitives`, v5.go:124-186. -/
def v5Ignore (E : IEnv) (cur : String) : Bool := !(E.recursive cur || E.always cur || E.structured)

/-- The map case after the nested object has been processed, v5.go:127-186. -/
def v5Nested (E : IEnv) (cur k : String) (out : List Ent × JObj × Nat) : Acc :=
  if E.recursive cur then
    if E.always cur then ⟨out.1, [], [(k, .obj out.2.1)], out.2.2 + 1⟩
    else ⟨out.1, [v5Disclosure E out.2.2 k (.obj out.2.1)], [], out.2.2 + 1⟩
  else if E.always cur || E.structured then ⟨out.1, [], [(k, .obj out.2.1)], out.2.2⟩
  else ⟨out.1, [v5Disclosure E out.2.2 k (.obj out.2.1)], [], out.2.2 + 1⟩

mutual
/-- One iteration of the loop, v5.go:112-228; `none`: the panic of `reflect.TypeOf(nil).Kind()`. -/
def v5Member (E : IEnv) (ign : Bool) (cur k : String) (n : Nat) : Json → Option Acc
  | .obj o =>
    if E.nonSD cur then some ⟨[], [], [(k, .obj o)], n⟩
    else
      let decoys := createDecoys E n
      (v5Loop E (v5Ignore E cur) cur (n + decoys.length) o).map
        (fun r => v5Nested E cur k (v5Finish E decoys r))
  | .arr l => some (v5Array E cur k n l)
  | .str s => some (v5Prim E ign cur k n (.str s))
  | .num q => some (v5Prim E ign cur k n (.num q))
  | .bool b => some (v5Prim E ign cur k n (.bool b))
  | .null => none
/-- The loop of `createDisclosuresAndDigestsInternal`, v5.go:112-228. -/
def v5Loop (E : IEnv) (ign : Bool) (path : String) (n : Nat) : List (String × Json) → Option Acc
  | [] => some ⟨[], [], [], n⟩
  | (k, v) :: m =>
    match v5Member E ign (curPath path k) k n v with
    | none => none
    | some a =>
      match v5Loop E ign path a.next m with
      | none => none
      | some b => some (a.join b)
end

/-- `CreateDisclosuresAndDigests` of V5, v5.go:82-89. -/
def v5Build (E : IEnv) (claims : JObj) : Option (List Ent × JObj × Nat) :=
  (v5Loop E false "" (createDecoys E 0).length claims).map (v5Finish E (createDecoys E 0))

/-! ## New -/

/-- Claims set by options, issuer.go:597-613 (`cnf`: the public key under `jwk`). -/
structure BaseOpts where
  iss : String
  sub : String
  aud : String
  jti : String
  id : String
  exp : Option Rat
  nbf : Option Rat
  iat : Option Rat
  cnf : Option Json

/-- A string field with `omitempty`. -/
def strField (k v : String) : JObj := if v = "" then [] else [(k, .str v)]

/-- A date field with `omitempty`. -/
def numField (k : String) (v : Option Rat) : JObj :=
  match v with
  | none => []
  | some q => [(k, .num q)]

/-- The holder's key, issuer.go:471-476. -/
def cnfField (v : Option Json) : JObj :=
  match v with
  | none => []
  | some j => [("cnf", .obj [("jwk", j)])]

/-- `createPayload` without `_sd_alg`, issuer.go:470-492, as converted by `ToMap`. -/
def basePayload (o : BaseOpts) : JObj :=
  strField "iss" o.iss ++ strField "sub" o.sub ++ strField "aud" o.aud ++ strField "jti" o.jti ++
    numField "exp" o.exp ++ numField "nbf" o.nbf ++ numField "iat" o.iat ++ strField "id" o.id ++
    cnfField o.cnf

/-- Why `New` fails. -/
inductive IErr where
  | sdPresent
  | panic
  deriving DecidableEq, Repr

/-- `MergeCustomFields(createPayload(…), digests)`, issuer.go:387. -/
def mkPayload (E : IEnv) (o : BaseOpts) (digests : JObj) : JObj :=
  JsonUtil.addCustomFields (basePayload o ++ strField "_sd_alg" (E.lower E.alg)) digests

/-- `New` for V2, issuer.go:352-402, up to signing: disclosures and payload. -/
def newV2 (E : IEnv) (o : BaseOpts) (claims : JObj) : Except IErr (List Ent × JObj) :=
  if keyExists "_sd" claims then .error .sdPresent
  else .ok ((v2Build E claims).1, mkPayload E o (v2Build E claims).2.1)

/-- `New` for V5, issuer.go:352-402, up to signing. -/
def newV5 (E : IEnv) (o : BaseOpts) (claims : JObj) : Except IErr (List Ent × JObj) :=
  if keyExists "_sd" claims then .error .sdPresent
  else match v5Build E claims with
    | none => .error .panic
    | some r => .ok (r.1, mkPayload E o r.2.1)

end VC.SDJWT
