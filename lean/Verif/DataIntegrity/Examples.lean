import Verif.DataIntegrity.ProofSet
/-!
# Data integrity: concrete instances and counterexamples

A toy instantiation of the parameters: times are integers (`0` is the zero time, written in a toy
notation), canonicalisation keeps the lengths of two members of a configuration, a signature is the
key bytes followed by the message.
-/

namespace VC.DI

open VC (Json JObj GoMap NoChar)
open VC.DI.Spec

/-- Length of a string member. -/
def exLen (m : JObj) (k : String) : UInt8 :=
  match GoMap.get? m k with
  | some (.str s) => UInt8.ofNat s.length
  | _ => 0

/-- Toy canonical form: `1` for a document (`3` if it has a proof), the lengths of the method and
suite names for a configuration. -/
def exCanon (_ : HashAlg) (m : JObj) : Option Bytes :=
  if (GoMap.get? m "verificationMethod").isSome then
    some [2, exLen m "verificationMethod", exLen m "cryptosuite"]
  else if (GoMap.get? m "proof").isSome then some [3]
  else some [1]

/-- Bytes of a key. -/
def exKeyBytes (pk : PubKey) : Bytes :=
  match pk.key with
  | .inl j => j.key
  | .inr b => b

/-- The only DID that resolves is `did:a`; its method `did:a#k` is listed for assertions. -/
def exResolve (d : String) : Option DidDoc :=
  if d = "did:a" then some ⟨[⟨"did:a#k", some ⟨"P-256", [7]⟩, []⟩], [⟨"did:a#g", none, [0x80, 0x24, 9]⟩], [], [], []⟩
  else if d = "did:bb" then some ⟨[⟨"did:bb#k", some ⟨"P-256", [8]⟩, []⟩], [], [], [], []⟩
  else none

/-- Toy signature. -/
def exSign (j : Option Jwk) (msg : Bytes) : Option Bytes := j.map (fun j => j.key ++ msg)

/-- Toy multibase: characters as bytes. -/
def exDec (s : String) : Option Bytes := some (s.toList.map (fun c => UInt8.ofNat c.toNat))

/-- Inverse of `exDec` on bytes. -/
def exEnc (b : Bytes) : String := String.ofList (b.map (fun x => Char.ofNat x.toNat))

/-- The toy environment. -/
def exE : Env where
  T := Int
  zeroT := 0
  isZero t := t == (0 : Int)
  parseT s := if s = "z" then some (0 : Int) else if s = "old" then some (-5 : Int) else if s = "new" then some (5 : Int) else none
  fmtT t := if t = (0 : Int) then "z" else if t = (5 : Int) then "new" else "old"
  past t := decide (t < (1 : Int))
  canon := exCanon
  hash _ b := b
  mbDecode := exDec
  mbEncode := exEnc
  ecKey _ b := b
  verify sig msg pk := sig == exKeyBytes pk ++ msg
  sign := exSign
  resolver := some exResolve

/-- The verifier of the examples: both suites. -/
def exSuites : GoMap (Suite exE) := newSuites [] [(ecdsaTypes, ecdsaSuite exE), (eddsaTypes, eddsaSuite exE)]

theorem exSuites_std : Standard exE exSuites :=
  newSuites_standard exE _ (by
    intro i hi
    simp only [List.mem_cons, List.not_mem_nil, or_false] at hi
    exact hi)

theorem exE_ext : CanonExt exE := by
  intro h m m' hs
  show exCanon h m = exCanon h m'
  unfold exCanon exLen
  rw [hs, hs, hs]

/-- A proof object naming `vm`, with the given signature text. -/
def exProof (vm value : String) : Json := .obj [("type", .str "DataIntegrityProof"),
  ("cryptosuite", .str "ecdsa-rdfc-2019"), ("proofPurpose", .str "assertionMethod"),
  ("verificationMethod", .str vm), ("expires", .str "new"), ("proofValue", .str value)]

/-- A document. -/
def exDoc (proof : Json) : JObj := [("@context", .str "ctx"), ("name", .str "n"), ("proof", proof)]

/-- Signature of `did:a#k` over a configuration naming `did:a#k` (7 characters). -/
def exSigA : String := exEnc [7, 2, 7, 15, 1]

/-- Signature of `did:bb#k` over a configuration naming `did:bb#k` (8 characters). -/
def exSigB : String := exEnc [8, 2, 8, 15, 1]

/-- C48 is met by an accepted document, with the proof alone or in a list. -/
theorem ex_accepted : (verifyProof exE exSuites (exDoc (exProof "did:a#k" exSigA)) (freshOpts exE "" "" "")).1 = .ok () := by
  rfl

example : (verifyProof exE exSuites (exDoc (.arr [exProof "did:a#k" exSigA])) (freshOpts exE "" "" "")).1 = .ok () := by
  rfl

/-- The hypotheses of `verify_single_iff` hold here, and its right-hand side follows. -/
example : ∃ p, IsProof (exProof "did:a#k" exSigA) p ∧ (GoMap.get? exSuites p.cryptosuite).isSome ∧
    Valid exE (GoMap.del (exDoc (exProof "did:a#k" exSigA)) "proof") "assertionMethod" "" "" p :=
  (verify_single_iff exE exSuites_std rfl exE_ext (Or.inr ⟨rfl, by simp [exProof], by simp [exProof]⟩)
    (freshOpts_fresh exE "" "" "")).1 ex_accepted

/-- Other outcomes of the decision procedure. -/
example :
    (verifyProof exE exSuites (exDoc (exProof "did:a#k" exSigB)) (freshOpts exE "" "" "")).1 = .error .suite ∧
    (verifyProof exE exSuites (exDoc (exProof "did:c#k" exSigA)) (freshOpts exE "" "" "")).1 = .error .vmResolution ∧
    (verifyProof exE exSuites (exDoc (exProof "did:a#k" exSigA)) (freshOpts exE "authentication" "" "")).1 = .error .purpose ∧
    (verifyProof exE exSuites (exDoc (exProof "did:a#k" exSigA)) (freshOpts exE "" "d" "")).1 = .error .domain ∧
    (verifyProof exE exSuites (exDoc (exProof "did:a#k" exSigA)) (freshOpts exE "" "" "c")).1 = .error .challenge := by
  refine ⟨rfl, rfl, rfl, rfl, rfl⟩

/-- **C49 fails**: a document whose `proof` is `null` or `[]` verifies although no proof exists. -/
theorem empty_proof_list_verifies : ∃ (doc : JObj), ProofList doc [] ∧
    (verifyProof exE exSuites doc (freshOpts exE "" "" "")).1 = .ok () :=
  ⟨exDoc (.arr []), rfl, rfl⟩

theorem null_proof_verifies : ∃ (doc : JObj), GoMap.get? doc "proof" = some .null ∧
    (verifyProof exE exSuites doc (freshOpts exE "" "" "")).1 = .ok () :=
  ⟨exDoc .null, rfl, rfl⟩

/-- **C50 fails**: the second proof names a method of a DID that does not even resolve, and would be
rejected on its own; the set is accepted because it is verified under the first proof's method. -/
theorem second_proof_not_checked : ∃ (doc : JObj) (r0 r1 : Json) (p1 : Prf), ProofList doc [r0, r1] ∧
    (verifyProof exE exSuites doc (freshOpts exE "" "" "")).1 = .ok () ∧
    IsProof r1 p1 ∧ p1.vm = "did:victim#key" ∧ (exE.resolver.bind (fun r => r "did:victim")).isNone ∧
    (verifyProof exE exSuites (GoMap.set doc "proof" r1) (freshOpts exE "" "" "")).1 ≠ .ok () := by
  refine ⟨exDoc (.arr [exProof "did:a#k" exSigA, exProof "did:victim#key" exSigA]), _, _,
    ⟨"", "DataIntegrityProof", "ecdsa-rdfc-2019", "assertionMethod", "did:victim#key", "", "new", "", "", exSigA, ""⟩,
    rfl, rfl, ?_, rfl, rfl, ?_⟩
  · exact (parseProof_iff _ _ (by decide)).1 rfl
  · intro h
    have : (verifyProof exE exSuites (exDoc (exProof "did:victim#key" exSigA)) (freshOpts exE "" "" "")).1 =
        .error .vmResolution := rfl
    have h' : (verifyProof exE exSuites (exDoc (exProof "did:victim#key" exSigA)) (freshOpts exE "" "" "")).1 = .ok () := h
    rw [this] at h'
    cases h'

/-- Conversely, two proofs that are valid on their own are rejected together when they name different
methods. -/
theorem valid_pair_rejected :
    (verifyProof exE exSuites (exDoc (exProof "did:a#k" exSigA)) (freshOpts exE "" "" "")).1 = .ok () ∧
    (verifyProof exE exSuites (exDoc (exProof "did:bb#k" exSigB)) (freshOpts exE "" "" "")).1 = .ok () ∧
    (verifyProof exE exSuites (exDoc (.arr [exProof "did:a#k" exSigA, exProof "did:bb#k" exSigB]))
      (freshOpts exE "" "" "")).1 = .error .suite :=
  ⟨rfl, rfl, rfl⟩

/-- Non-vacuity of `proof_set_own_key_partial`: an accepted set of two proofs with one method. -/
example : ∀ raw ∈ [exProof "did:a#k" exSigA, exProof "did:a#k" exSigA], ∃ p, IsProof raw p ∧ p.purpose = "assertionMethod" := by
  intro raw hraw
  obtain ⟨p, h1, _, h2, _⟩ := proof_set_own_key_partial exE exSuites_std rfl exE_ext (id := "did:a#k")
    (doc := exDoc (.arr [exProof "did:a#k" exSigA, exProof "did:a#k" exSigA])) rfl (freshOpts_fresh exE "" "" "")
    (by
      intro raw hraw p hp
      simp only [List.mem_cons, List.not_mem_nil, or_false, or_self] at hraw
      subst hraw
      obtain ⟨m, hm, hall⟩ := hp.fields
      cases hm
      have := hall ("verificationMethod", p.vm) (by simp)
      simp [GoMap.get?] at this
      exact this.symm) rfl raw hraw
  exact ⟨p, h1, h2⟩

/-- Options reused after verifying a document of `did:a` accept a document whose proof names another
DID. -/
theorem reused_options_example :
    (verifyProof exE exSuites (exDoc (exProof "did:victim#key" exSigA))
      (verifyProof exE exSuites (exDoc (exProof "did:a#k" exSigA)) (freshOpts exE "" "" "")).2).1 = .ok () := by
  rfl

end VC.DI
