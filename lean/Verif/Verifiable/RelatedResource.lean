import Verif.Verifiable.Fields
import Verif.Verifiable.JWTClaims
import Verif.Proof.Model
import Verif.Base.Str
/-!
# verifiable: related resources (C52, C75; model)

verifiable/related_resource.go. `Validate` starts one goroutine for each related resource; every
goroutine looks the URL up in a shared cache, fetches it if needed, adds it to the cache and compares
digests; the caller then receives from the channels in order. `Step` is a small-step semantics of one
call of `Validate`: any interleaving, with other users of the same cache adding and evicting entries.

Parameters: the hash functions, multibase decoding, `strings.ToLower`, and the servers (a relation, so
that the same URL may answer differently each time).

Simplified: the goroutines exist from the start, which allows more schedules than spawning them one by
one; error texts are dropped; a request that cannot be built, fails or has another status than 200 is
one kind of failed response.
-/

namespace VC.Vfy.Rel

open VC
open VC.Proof (Bytes)

/-- Library functions. -/
structure Lib where
  sha256 : Bytes → Bytes
  sha384 : Bytes → Bytes
  sha512 : Bytes → Bytes
  /-- go-multibase `Decode`: whether the encoding is base64url without padding, and the bytes -/
  multibase : String → Option (Bool × Bytes)
  /-- `Decode("")` is an error -/
  multibase_empty : multibase "" = none
  /-- `strings.ToLower` -/
  lower : String → String
  /-- lower-case ASCII is unchanged -/
  lower_sha256 : lower "sha256" = "sha256"

/-- `CachedResource`, related_resource.go:30-34. -/
structure Hashes where
  h256 : Bytes
  h384 : Bytes
  h512 : Bytes
  deriving DecidableEq

variable (lib : Lib)

/-- `calculateHashes`, related_resource.go:212-222. -/
def hashes (d : Bytes) : Hashes := ⟨lib.sha256 d, lib.sha384 d, lib.sha512 d⟩

/-- The switch over the algorithm, related_resource.go:200-209. -/
def pickHash (alg : String) (c : Hashes) : Option Bytes :=
  if lib.lower alg = "sha256" then some c.h256
  else if lib.lower alg = "sha384" then some c.h384
  else if lib.lower alg = "sha512" then some c.h512
  else none

/-- The header test, related_resource.go:211-214: both bytes are indexed without a length check. -/
def stripHeader (base64url : Bool) (digest : Bytes) : Out Bytes :=
  if base64url then
    match digest with
    | [] => .panic
    | [b] => if b = 0x12 then .panic else .ok [b]
    | b :: c :: l => if b = 0x12 ∧ c = 0x20 then .ok l else .ok (b :: c :: l)
  else .ok digest

/-- `validateHash`, related_resource.go:176-210. -/
def validateHash (hash alg : String) (c : Hashes) : Out Unit :=
  match lib.multibase hash with
  | none => .err
  | some (u, digest) =>
    match pickHash lib alg c with
    | none => .err
    | some raw => (stripHeader u digest).bind fun dg => if raw = dg then .ok () else .err

/-- `validateSingleResource`, related_resource.go:151-174. -/
def validateSingle (r : RelRes) (c : Hashes) : Out Unit :=
  if r.digestSRI ≠ "" then
    match split '-' r.digestSRI with
    | [alg, hash] => validateHash lib hash alg c
    | _ => .err
  else if r.digestMultibase ≠ "" then validateHash lib r.digestMultibase "sha256" c
  else validateHash lib "" "" c

/-! ## One call of `Validate` -/

/-- Where a goroutine is, related_resource.go:131-144 with `Fetch`, 69-112. -/
inductive G where
  /-- before the cache lookup -/
  | start
  /-- the lookup missed, the request is not yet answered -/
  | miss
  /-- answered, not yet added to the cache -/
  | fetched (h : Hashes)
  /-- `Fetch` returned the hashes -/
  | ready (h : Hashes)
  /-- blocked on sending an error -/
  | failing
  /-- finished, channel closed -/
  | done

/-- The shared cache, the goroutines, the number of channels received from, and whether an error came. -/
structure St where
  cache : GoMap Hashes
  gs : List G
  k : Nat
  bad : Bool

/-- A panic in a goroutine ends the process. -/
inductive Cfg where
  | run (s : St)
  | crashed

/-- The start of a call. -/
def St.init (cache : GoMap Hashes) (rs : List RelRes) : St := ⟨cache, rs.map (fun _ => .start), 0, false⟩

/-- One step; `serves url r` says that a request for `url` may get the response `r` (`none` for any
failure). The flag is set for steps of the call itself. -/
inductive Step (serves : String → Option Bytes → Prop) (rs : List RelRes) : Bool → Cfg → Cfg → Prop
  /-- cache hit, related_resource.go:70-72 -/
  | hit {s : St} {i : Nat} {r : RelRes} {h : Hashes} : s.gs[i]? = some .start → rs[i]? = some r →
      GoMap.get? s.cache r.id = some h →
      Step serves rs true (.run s) (.run { s with gs := s.gs.set i (.ready h) })
  /-- cache miss -/
  | miss {s : St} {i : Nat} {r : RelRes} : s.gs[i]? = some .start → rs[i]? = some r →
      GoMap.get? s.cache r.id = none →
      Step serves rs true (.run s) (.run { s with gs := s.gs.set i .miss })
  /-- failed or empty response, related_resource.go:74-106 and 135-138 -/
  | fail {s : St} {i : Nat} {r : RelRes} : s.gs[i]? = some .miss → rs[i]? = some r →
      (serves r.id none ∨ serves r.id (some [])) →
      Step serves rs true (.run s) (.run { s with gs := s.gs.set i .failing })
  /-- response with a body, related_resource.go:98-108 -/
  | fetch {s : St} {i : Nat} {r : RelRes} {d : Bytes} : s.gs[i]? = some .miss → rs[i]? = some r →
      serves r.id (some d) → d ≠ [] →
      Step serves rs true (.run s) (.run { s with gs := s.gs.set i (.fetched (hashes lib d)) })
  /-- `Cache.Add`, related_resource.go:109 -/
  | add {s : St} {i : Nat} {r : RelRes} {h : Hashes} : s.gs[i]? = some (.fetched h) → rs[i]? = some r →
      Step serves rs true (.run s)
        (.run { s with cache := GoMap.set s.cache r.id h, gs := s.gs.set i (.ready h) })
  /-- the digest matches -/
  | valid {s : St} {i : Nat} {r : RelRes} {h : Hashes} : s.gs[i]? = some (.ready h) → rs[i]? = some r →
      validateSingle lib r h = .ok () →
      Step serves rs true (.run s) (.run { s with gs := s.gs.set i .done })
  /-- it does not, related_resource.go:140-143 -/
  | invalid {s : St} {i : Nat} {r : RelRes} {h : Hashes} : s.gs[i]? = some (.ready h) → rs[i]? = some r →
      validateSingle lib r h = .err →
      Step serves rs true (.run s) (.run { s with gs := s.gs.set i .failing })
  /-- index out of range -/
  | crash {s : St} {i : Nat} {r : RelRes} {h : Hashes} : s.gs[i]? = some (.ready h) → rs[i]? = some r →
      validateSingle lib r h = .panic → Step serves rs true (.run s) .crashed
  /-- the caller receives an error, related_resource.go:151-153 -/
  | recvErr {s : St} : s.gs[s.k]? = some .failing →
      Step serves rs true (.run s) (.run { s with gs := s.gs.set s.k .done, k := s.k + 1, bad := true })
  /-- the caller sees a closed channel -/
  | recvDone {s : St} : s.gs[s.k]? = some .done →
      Step serves rs true (.run s) (.run { s with k := s.k + 1 })
  /-- an entry expires or is evicted -/
  | evict {s : St} {u : String} : Step serves rs false (.run s) (.run { s with cache := GoMap.del s.cache u })
  /-- another call adds an entry -/
  | other {s : St} {u : String} {d : Bytes} : serves u (some d) → d ≠ [] →
      Step serves rs false (.run s) (.run { s with cache := GoMap.set s.cache u (hashes lib d) })

/-- Executions, with the number of steps of the call itself. -/
inductive Run (serves : String → Option Bytes → Prop) (rs : List RelRes) : Nat → Cfg → Cfg → Prop
  | refl {c : Cfg} : Run serves rs 0 c c
  | own {n : Nat} {a b c : Cfg} : Run serves rs n a b → Step lib serves rs true b c → Run serves rs (n + 1) a c
  | env {n : Nat} {a b c : Cfg} : Run serves rs n a b → Step lib serves rs false b c → Run serves rs n a c

/-- The call has returned: every channel was received from. -/
def St.returned (s : St) (rs : List RelRes) : Prop := s.k = rs.length

/-! ## Specification -/

namespace Spec

/-- The digest a resource declares: the lower-cased name of the algorithm and the encoded digest. -/
inductive Declares (r : RelRes) : String → String → Prop
  | sri (alg txt : String) (h : r.digestSRI = alg ++ "-" ++ txt) (h1 : '-' ∉ alg.toList) (h2 : '-' ∉ txt.toList) :
      Declares r (lib.lower alg) txt
  | multibase (h : r.digestSRI = "") (h' : r.digestMultibase ≠ "") : Declares r "sha256" r.digestMultibase

/-- The digest of some content under an algorithm. -/
inductive Digest (d : Bytes) : String → Bytes → Prop
  | sha256 : Digest d "sha256" (lib.sha256 d)
  | sha384 : Digest d "sha384" (lib.sha384 d)
  | sha512 : Digest d "sha512" (lib.sha512 d)

/-- `txt` is a multibase encoding of the digest `x`, in base64url with the multihash header `12 20`. -/
def Encodes (txt : String) (x : Bytes) : Prop :=
  ∃ u b, lib.multibase txt = some (u, b) ∧
    ((u = true ∧ b = 0x12 :: 0x20 :: x) ∨ (b = x ∧ (u = true → ¬ [0x12, 0x20] <+: x)))

/-- The content has the digest the resource declares. -/
def Matches (r : RelRes) (d : Bytes) : Prop :=
  ∃ alg txt x, Declares lib r alg txt ∧ Digest lib d alg x ∧ Encodes lib txt x

/-- The declared digest is in base64url and decodes to nothing, or to the single byte `12`. -/
def Malformed (r : RelRes) : Prop :=
  ∃ alg txt b, Declares lib r alg txt ∧ alg ∈ ["sha256", "sha384", "sha512"] ∧
    lib.multibase txt = some (true, b) ∧ (b = [] ∨ b = [0x12])

/-- Every entry of the cache has the hashes of something its URL served. -/
def Coherent (serves : String → Option Bytes → Prop) (cache : GoMap Hashes) : Prop :=
  ∀ u h, GoMap.get? cache u = some h → ∃ d, d ≠ [] ∧ serves u (some d) ∧ h = hashes lib d

/-- The resource can be fetched and what is fetched has the declared digest. -/
def Intact (serves : String → Option Bytes → Prop) (r : RelRes) : Prop :=
  ∃ d, d ≠ [] ∧ serves r.id (some d) ∧ Matches lib r d

/-- Every URL has one answer. -/
def Stable (serves : String → Option Bytes → Prop) : Prop :=
  (∀ u, ∃ a, serves u a) ∧ ∀ u a b, serves u a → serves u b → a = b

end Spec

end VC.Vfy.Rel
