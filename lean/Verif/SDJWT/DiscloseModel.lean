import Verif.Base.Json
/-!
# sdjwt/common: resolving disclosures (model)

Models `sdjwt/common/verification.go` (VerifyDisclosuresInSDJWT, setDisclosureClaimValue,
discloseClaimValue, getDisclosureClaim(s)) and the parts of `sdjwt/common/common.go` they use
(GetDisclosureClaims, GetDisclosedClaims, GetSDAlg, ParseCryptoHashAlg, stringArray, KeyExistsInMap).

The Go code mutates `recData` (the list of digests met so far and the disclosure objects); here the
state is passed explicitly.  The Go recursion is not structural (a digest leads into a disclosure's
value), so the function takes fuel; `Disclose*` theorems show that the fuel used by the top-level
functions always suffices, i.e. that the Go recursion terminates.
-/

namespace VC.SDJWT

/-- Error tags (texts are abstracted). `fuel` is not a Go error: it marks an unfinished computation
of the model and is proved unreachable from the top-level functions. -/
inductive Err where
  | fuel
  | badArray          -- verification.go:179
  | dupDigest         -- verification.go:184, 235
  | badElems          -- verification.go:203, 249
  | collision         -- verification.go:258, 285
  | badSd             -- verification.go:227
  | decode            -- verification.go:320, 327
  | arraySize         -- verification.go:331
  | salt              -- verification.go:337
  | name              -- verification.go:375
  | sdAlg             -- common.go:205-211
  | notIncluded       -- verification.go:132
  | outputType        -- common.go:378
  deriving DecidableEq, Repr

/-- `DisclosureClaim`, common.go:65-75, without the fields `Salt`, `Type` and `Version`, which
disclosure resolution never reads. -/
structure Disc where
  disclosure : String
  elems : Nat
  name : String
  value : Json
  parsed : Bool

/-- `map[string]*DisclosureClaim` (digest → disclosure). -/
abbrev DMap := GoMap Disc

/-- `recursiveData`: `nestedSD` and `disclosures` (`cleanupDigestsClaims` is a separate
parameter). -/
structure St where
  seen : List String
  ds : DMap

/-- `stringArray`, common.go:390-415 (nil gives the empty list). -/
def strings? : List Json → Option (List String)
  | [] => some []
  | .str s :: l => (strings? l).map (s :: ·)
  | _ :: _ => none

/-- `stringArray`, common.go:390-415. -/
def stringArray : Json → Option (List String)
  | .null => some []
  | .arr l => strings? l
  | _ => none

/-- `setDisclosureClaimValue`, verification.go:139-153, followed by reading
`disclosureClaim.Value`; `rec` is discloseClaimValue. -/
def setValue (rec : St → Json → Except Err (Json × St)) (st : St) (d : String) (c : Disc) :
    Except Err (Json × St) :=
  if c.parsed then .ok (c.value, st)
  else match rec st c.value with
    | .error e => .error e
    | .ok (w, st') => .ok (w, { st' with ds := GoMap.set st'.ds d { c with value := w, parsed := true } })

/-- The array case of discloseClaimValue, verification.go:158-213. -/
def arrLoop (rec : St → Json → Except Err (Json × St)) (cleanup : Bool) :
    St → List Json → Except Err (List Json × St)
  | st, [] => .ok ([], st)
  | st, v :: vs =>
    let keep (st : St) : Except Err (List Json × St) :=
      match arrLoop rec cleanup st vs with
      | .error e => .error e
      | .ok (out, st') => .ok (v :: out, st')
    match v with
    | .obj m =>
      match GoMap.get? m "..." with
      | none => keep st
      | some (.str d) =>
        if st.seen.contains d then .error .dupDigest
        else
          let st1 : St := { st with seen := st.seen ++ [d] }
          match GoMap.get? st1.ds d with
          | none => if cleanup then arrLoop rec cleanup st1 vs else keep st1
          | some c =>
            if c.elems ≠ 2 then .error .badElems
            else match setValue rec st1 d c with
              | .error e => .error e
              | .ok (w, st2) =>
                match arrLoop rec cleanup st2 vs with
                | .error e => .error e
                | .ok (out, st') => .ok (w :: out, st')
      | some _ => .error .badArray
    | _ => keep st

/-- The `_sd` loop of the object case, verification.go:232-262; accumulators: `newValues`,
`missingSDs`. -/
def sdLoop (rec : St → Json → Except Err (Json × St)) :
    St → JObj → List String → List String → Except Err (JObj × List String × St)
  | st, nv, miss, [] => .ok (nv, miss, st)
  | st, nv, miss, d :: dl =>
    if st.seen.contains d then .error .dupDigest
    else
      let st1 : St := { st with seen := st.seen ++ [d] }
      match GoMap.get? st1.ds d with
      | none => sdLoop rec st1 nv (miss ++ [d]) dl
      | some c =>
        if c.elems ≠ 3 then .error .badElems
        else match setValue rec st1 d c with
          | .error e => .error e
          | .ok (w, st2) =>
            if (GoMap.get? nv c.name).isSome then .error .collision
            else sdLoop rec st2 (GoMap.set nv c.name w) miss dl

/-- `k` is skipped by the member loop, verification.go:270-276. -/
def skipKey (cleanup : Bool) (k : String) : Bool := k == "_sd" || (k == "_sd_alg" && cleanup)

/-- The member loop of the object case, verification.go:269-291. -/
def fieldLoop (rec : St → Json → Except Err (Json × St)) (cleanup : Bool) :
    St → JObj → JObj → Except Err (JObj × St)
  | st, nv, [] => .ok (nv, st)
  | st, nv, (k, v) :: fs =>
    if skipKey cleanup k then fieldLoop rec cleanup st nv fs
    else match rec st v with
      | .error e => .error e
      | .ok (w, st') =>
        if (GoMap.get? nv k).isSome then .error .collision
        else if w.isNull then fieldLoop rec cleanup st' nv fs
        else fieldLoop rec cleanup st' (GoMap.set nv k w) fs

/-- The object case of discloseClaimValue, verification.go:220-293. -/
def objCase (rec : St → Json → Except Err (Json × St)) (cleanup : Bool) (st : St) (m : JObj) :
    Except Err (Json × St) :=
  let afterSd : Except Err (JObj × St) :=
    match GoMap.get? m "_sd" with
    | none => .ok ([], st)
    | some sdv =>
      match stringArray sdv with
      | none => .error .badSd
      | some dl =>
        match sdLoop rec st [] [] dl with
        | .error e => .error e
        | .ok (nv, miss, st') =>
          .ok (if !cleanup && !miss.isEmpty then GoMap.set nv "_sd" (.arr (miss.map .str)) else nv,
            st')
  match afterSd with
  | .error e => .error e
  | .ok (nv, st') =>
    match fieldLoop rec cleanup st' nv m with
    | .error e => .error e
    | .ok (nv', st'') => .ok (.obj nv', st'')

/-- `discloseClaimValue`, verification.go:156-297. -/
def disclose (cleanup : Bool) : Nat → St → Json → Except Err (Json × St)
  | 0, _, _ => .error .fuel
  | n + 1, st, claim =>
    match claim with
    | .arr l =>
      match arrLoop (disclose cleanup n) cleanup st l with
      | .error e => .error e
      | .ok (out, st') => .ok (if out.isEmpty then .null else .arr out, st')
    | .obj m => objCase (disclose cleanup n) cleanup st m
    | v => .ok (v, st)

mutual
/-- Nesting depth of a JSON value (used only as a fuel bound). -/
def Json.depth : Json → Nat
  | .arr l => depthArr l + 1
  | .obj o => depthObj o + 1
  | _ => 0
/-- Maximal depth of the elements. -/
def depthArr : List Json → Nat
  | [] => 0
  | v :: l => max (Json.depth v) (depthArr l)
/-- Maximal depth of the members. -/
def depthObj : List (String × Json) → Nat
  | [] => 0
  | (_, v) :: l => max (Json.depth v) (depthObj l)
end

/-- Sum over all disclosures of (depth of the value + 1). -/
def weight : DMap → Nat
  | [] => 0
  | (_, c) :: ds => Json.depth c.value + 1 + weight ds

/-- Fuel used by the top-level functions; `disclose_terminates` shows it suffices. -/
def fuelFor (ds : DMap) (v : Json) : Nat := Json.depth v + weight ds + 1

/-- The cryptographic environment: base64url+JSON decoding of a disclosure string, the supported
hash functions (keyed by the upper-cased `_sd_alg`), Go's `strings.ToUpper`. -/
structure Env where
  decode : String → Option (List Json)
  hash : String → String → String
  upper : String → String

/-- `getDisclosureClaim`, verification.go:317-392. `alg` is the selected hash. -/
def getDisclosureClaim (env : Env) (alg : String) (disclosure : String) :
    Except Err (String × Disc) :=
  match env.decode disclosure with
  | none => .error .decode
  | some arr =>
    if arr.length < 2 then .error .arraySize
    else match arr with
      | .str _ :: rest =>
        let digest := env.hash alg disclosure
        match rest with
        | [v] => .ok (digest, ⟨disclosure, 2, "", v, false⟩)
        | [.str nm, v] => .ok (digest, ⟨disclosure, 3, nm, v, false⟩)
        | [_, _] => .error .name
        | r => .ok (digest, ⟨disclosure, r.length + 1, "", .null, false⟩)
      | _ => .error .salt

/-- `getDisclosureClaims`, verification.go:301-314. -/
def getDisclosureClaims (env : Env) (alg : String) : List String → DMap → Except Err DMap
  | [], acc => .ok acc
  | s :: ss, acc =>
    match getDisclosureClaim env alg s with
    | .error e => .error e
    | .ok (d, c) => getDisclosureClaims env alg ss (GoMap.set acc d c)

/-- `GetKeyFromVC`, common.go:273-294. -/
def getKeyFromVC (key : String) (claims : JObj) : Option Json :=
  match GoMap.get? claims key with
  | some v => some v
  | none => match GoMap.get? claims "vc" with
    | some (.obj vc) => GoMap.get? vc key
    | _ => none

/-- `GetSDAlg`, common.go:252-270, and `GetCryptoHashFromClaims`/`ParseCryptoHashAlg`,
common.go:201-235: the upper-cased name of the hash. -/
def getHashAlg (env : Env) (claims : JObj) : Option String :=
  match getKeyFromVC "_sd_alg" claims with
  | some (.str a) =>
    let u := env.upper a
    if u = "SHA-256" ∨ u = "SHA-384" ∨ u = "SHA-512" then some u else none
  | _ => none

/-- `VerifyDisclosuresInSDJWT`, verification.go:103-137. -/
def verifyDisclosures (env : Env) (disclosures : List String) (payload : JObj) :
    Except Err Unit :=
  match getHashAlg env payload with
  | none => .error .sdAlg
  | some alg =>
    match getDisclosureClaims env alg disclosures [] with
    | .error e => .error e
    | .ok D =>
      match disclose false (fuelFor D (.obj payload)) ⟨[], D⟩ (.obj payload) with
      | .error e => .error e
      | .ok (_, st) => if st.ds.all (fun p => p.2.parsed) then .ok () else .error .notIncluded

/-- The loop of `GetDisclosureClaims`, common.go:135-139, over the digests in some order. -/
def setAll (cleanup : Bool) (fuel : Nat) : St → List String → Except Err St
  | st, [] => .ok st
  | st, d :: dl =>
    match GoMap.get? st.ds d with
    | none => setAll cleanup fuel st dl
    | some c =>
      match setValue (disclose cleanup fuel) st d c with
      | .error e => .error e
      | .ok (_, st') => setAll cleanup fuel st' dl

/-- `GetDisclosureClaims`, common.go:121-148.  Go iterates over the map in an unspecified order:
`order` is that order (a permutation of the digests). -/
def resolveDisclosureClaims (env : Env) (alg : String) (disclosures : List String)
    (order : DMap → List String) : Except Err DMap :=
  match getDisclosureClaims env alg disclosures [] with
  | .error e => .error e
  | .ok D =>
    match setAll true (2 * weight D + 1) ⟨[], D⟩ (order D) with
    | .error e => .error e
    | .ok st => .ok st.ds

/-- `GetDisclosedClaims`, common.go:354-382. -/
def getDisclosedClaims (env : Env) (D : DMap) (claims : JObj) : Except Err JObj :=
  match getHashAlg env claims with
  | none => .error .sdAlg
  | some _ =>
    match disclose true (fuelFor D (.obj claims)) ⟨[], D⟩ (.obj claims) with
    | .error e => .error e
    | .ok (.obj o, _) => .ok o
    | .ok _ => .error .outputType

/-- The processing of disclosures after verification: `getDisclosedClaims`,
sdjwt/verifier/verifier.go:308-324 (`order`: the unspecified iteration order of the Go map). -/
def disclosedClaims (env : Env) (disclosures : List String) (payload : JObj)
    (order : DMap → List String) : Except Err JObj :=
  match getHashAlg env payload with
  | none => .error .sdAlg
  | some alg =>
    match resolveDisclosureClaims env alg disclosures order with
    | .error e => .error e
    | .ok D => getDisclosedClaims env D payload

mutual
/-- `KeyExistsInMap`, common.go:429-444: recursion through objects only. -/
def keyExists (key : String) : List (String × Json) → Bool
  | [] => false
  | (k, v) :: m => k == key || keyExistsVal key v || keyExists key m
/-- The nested-object test inside `KeyExistsInMap`. -/
def keyExistsVal (key : String) : Json → Bool
  | .obj o => keyExists key o
  | _ => false
end

end VC.SDJWT
