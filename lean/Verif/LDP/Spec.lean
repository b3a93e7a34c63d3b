import Verif.LDP.Model
/-!
# Linked-data proofs (specification)
-/

namespace VC.LDP

open VC.Proof

variable {T : Type} (env : Env T)

/-- `x` is the first element of the list with the given key. -/
def FirstWith {α : Type _} (key : α → String) (l : List α) (a : String) (x : α) : Prop :=
  ∃ pre post, l = pre ++ x :: post ∧ key x = a ∧ ∀ y ∈ pre, key y ≠ a

/-- The suite has a verification method for keys of the type. -/
def Supports (s : Suite) (kt : KeyType) : Prop := ∃ m ∈ s.vms, m.keyType = kt

/-- The DID that must have signed: the expected issuer, or the part of the proof's key id before `#`. -/
inductive Signer (issuer : Option String) (kid : String) : String → Prop
  | given {i} : issuer = some i → Signer issuer kid i
  | fragment {d f} : issuer = none → NoChar '#' d → kid = d ++ "#" ++ f → Signer issuer kid d
  | whole : issuer = none → NoChar '#' kid → Signer issuer kid kid

/-- The signature a proof carries. -/
inductive Signature (p : Prf T) : Bytes → Prop
  | proofValue : p.repr = .proofValue → Signature p p.proofValue
  | jws {s} : p.repr = .jws → env.jwtSignature p.jws = some s → Signature p s

/-- One proof of the document is good: the suite of its type makes a message of the whole document and
the proof, its key is a key of the DID that must have signed, and the signature verifies. -/
structure ProofGood (k : LdChecker) (drop : Bool) (issuer : Option String) (doc : JObj) (p : Prf T) :
    Prop where
  good : ∃ d msg sig kid did vm,
    FirstWith (fun d : LdCheck => d.suite.proofType) k.ld p.type d ∧
    env.verifyData (d.suite.canon drop) d.suite.digest doc p = some msg ∧
    Signature env p sig ∧ env.publicKeyID p = some kid ∧ Signer issuer kid did ∧
    k.resolve kid did = .ok vm ∧
    ((d.ex = none ∧ Signed k.verifiers d.suite.vms vm msg sig) ∨
      ∃ ex kt, d.ex = some ex ∧ Allowed d.suite.vms vm kt ∧ ex sig msg ⟨kt, keyOf vm⟩ p.nonce = true)

/-- Whatever key type the suite reads the key `vm` as, the signature verifies. -/
structure KeyAccepts (k : LdChecker) (d : LdCheck) (vm : VM) (nonce msg sig : Bytes) : Prop where
  key : ∃ kt, Allowed d.suite.vms vm kt
  ex : ∀ kt f, Allowed d.suite.vms vm kt → d.ex = some f → f sig msg ⟨kt, keyOf vm⟩ nonce = true
  known : ∀ kt, Allowed d.suite.vms vm kt → d.ex = none → ∃ v ∈ k.verifiers, v.supports kt = true
  all : ∀ kt, Allowed d.suite.vms vm kt → d.ex = none → ∀ v ∈ k.verifiers, v.supports kt = true →
    v.verify sig msg ⟨kt, keyOf vm⟩ = true

/-- The fields a new proof takes from the signing context. -/
structure FromContext (ctx : Ctx T) (p : Prf T) : Prop where
  type : p.type = ctx.sigType
  repr : p.repr = ctx.repr
  creator : p.creator = ctx.creator
  created : ∀ t, ctx.created = some t → p.created = t
  createdNow : ctx.created = none → p.created = env.now
  domain : p.domain = ctx.domain
  nonce : p.nonce = ctx.nonce
  vm : p.vm = ctx.vm
  challenge : p.challenge = ctx.challenge
  purpose : ctx.purpose ≠ "" → p.purpose = ctx.purpose
  purposeDefault : ctx.purpose = "" → p.purpose = "assertionMethod"
  capChain : p.capChain = ctx.capChain

/-- What the new proof carries: the message `msg` that was signed and the signature `sig`. -/
inductive Carries (c : Creator) (ctx : Ctx T) (p : Prf T) (sig : Bytes) : Prop
  | proofValue : ctx.repr = .proofValue → p.proofValue = sig → p.jws = "" → Carries c ctx p sig
  | jws {a alg} : ctx.repr = .jws → a ∈ c.jwt → a.desc.alg = alg →
      (∃ m ∈ a.desc.vms, m.keyType = ctx.keyType) →
      p.jws = env.detachedHeader alg ++ ".." ++ env.b64 sig → p.proofValue = [] → Carries c ctx p sig

/-- `p'` says the same as `p` to a verifier. -/
structure Same (p p' : Prf T) : Prop where
  type : p'.type = p.type
  nonce : p'.nonce = p.nonce
  repr : p'.repr = p.repr
  proofValue : p'.proofValue = p.proofValue
  jws : p'.jws = p.jws
  kid : env.publicKeyID p' = env.publicKeyID p
  data : ∀ canon digest doc, env.verifyData canon digest doc p' = env.verifyData canon digest doc p

/-- What did-go's proof package is assumed to do. -/
structure LibOk (env : Env T) : Prop where
  /-- the signed message does not depend on the document's own `proof` -/
  noProof : ∀ canon digest doc doc' p, (∀ k, k ≠ "proof" → GoMap.get? doc' k = GoMap.get? doc k) →
    env.verifyData canon digest doc' p = env.verifyData canon digest doc p
  /-- nor on the proof value -/
  noValue : ∀ canon digest doc (p : Prf T) s, env.verifyData canon digest doc { p with proofValue := s } =
    env.verifyData canon digest doc p
  /-- nor on the signature part of a detached JWS -/
  noJws : ∀ canon digest doc (p : Prf T) alg s,
    env.verifyData canon digest doc { p with jws := env.detachedHeader alg ++ ".." ++ env.b64 s } =
    env.verifyData canon digest doc { p with jws := env.detachedHeader alg ++ ".." }
  /-- the signature of a detached JWS is read back -/
  jwsBack : ∀ alg s, env.jwtSignature (env.detachedHeader alg ++ ".." ++ env.b64 s) = some s
  /-- only two signature representations have a message -/
  repr : ∀ canon digest doc (p : Prf T) n, p.repr = .other n → env.verifyData canon digest doc p = none
  /-- a document without `proof` gets a list with the proof -/
  first : ∀ doc p doc', GoMap.get? doc "proof" = none → env.addProof doc p = some doc' →
    ∃ p', env.readProofs doc' = some [p'] ∧ Same env p p'
  /-- otherwise the proof is appended -/
  appended : ∀ doc p doc' ps, env.readProofs doc = some ps → env.addProof doc p = some doc' →
    ∃ p', env.readProofs doc' = some (ps ++ [p']) ∧ Same env p p'
  /-- no other member changes -/
  rest : ∀ doc p doc' k, env.addProof doc p = some doc' → k ≠ "proof" →
    GoMap.get? doc' k = GoMap.get? doc k

end VC.LDP
