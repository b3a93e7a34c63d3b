import Verif.DataIntegrity.Model
/-!
# What a valid data integrity proof is

Specification of C48–C51, written without the model's own functions: relations on the fields of a
proof, the DID document and the bytes that are signed.  Only the data types and the library
parameters of the model are shared.
-/

namespace VC.DI.Spec

open VC (Json JObj GoMap NoChar)
open VC.DI

/-- `vmID` is `did#frag`, with exactly one `#`. -/
def Names (vmID did frag : String) : Prop :=
  vmID = did ++ "#" ++ frag ∧ NoChar '#' did ∧ NoChar '#' frag

/-- The fragment under which a DID document lists a method: what follows the first `#` (up to a
second one), or the whole id if there is no `#`. -/
def ListedAs (v : VM) (frag : String) : Prop :=
  (v.id = frag ∧ NoChar '#' frag) ∨
  ∃ d, NoChar '#' d ∧ NoChar '#' frag ∧ (v.id = d ++ "#" ++ frag ∨ ∃ r, v.id = d ++ "#" ++ (frag ++ "#" ++ r))

/-- `v` is the first method of the list with this fragment. -/
def FirstAs (frag : String) (l : List VM) (v : VM) : Prop :=
  ∃ pre post, l = pre ++ v :: post ∧ ListedAs v frag ∧ ∀ u ∈ pre, ¬ ListedAs u frag

/-- `v` is the method with this fragment that the document authorises for the purpose: the four
relationships, with the unqualified list as a fallback for assertions. -/
def Authorised (d : DidDoc) (purpose frag : String) (v : VM) : Prop :=
  (purpose = "assertionMethod" ∧
    (FirstAs frag d.assertion v ∨ (FirstAs frag d.general v ∧ ∀ u ∈ d.assertion, ¬ ListedAs u frag))) ∨
  (purpose = "authentication" ∧ FirstAs frag d.authentication v) ∨
  (purpose = "capabilityDelegation" ∧ FirstAs frag d.delegation v) ∨
  (purpose = "capabilityInvocation" ∧ FirstAs frag d.invocation v)

/-- The method a `verificationMethod` value names, resolved for a purpose. -/
def Resolves (r : String → Option DidDoc) (purpose vmID : String) (v : VM) : Prop :=
  ∃ did frag d, Names vmID did frag ∧ r did = some d ∧ Authorised d purpose frag v

/-- The public key and digest of a verification method under a suite name. -/
inductive KeyFor (env : Env) : String → VM → PubKey → HashAlg → Prop
  | jwk256 {cs v j} : (cs = "ecdsa-2019" ∨ cs = "ecdsa-rdfc-2019") → v.jwk = some j → j.crv = "P-256" →
      KeyFor env cs v ⟨.p256, .inl j⟩ .sha256
  | jwk384 {cs v j} : (cs = "ecdsa-2019" ∨ cs = "ecdsa-rdfc-2019") → v.jwk = some j → j.crv = "P-384" →
      KeyFor env cs v ⟨.p384, .inl j⟩ .sha384
  | multi256 {cs v h k} : (cs = "ecdsa-2019" ∨ cs = "ecdsa-rdfc-2019") → v.jwk = none → k ≠ [] →
      (h = [0x80, 0x24] ∨ h = [0x12, 0x00]) → v.value = h ++ k →
      KeyFor env cs v ⟨.p256, .inr (env.ecKey .p256 k)⟩ .sha256
  | multi384 {cs v h k} : (cs = "ecdsa-2019" ∨ cs = "ecdsa-rdfc-2019") → v.jwk = none → k ≠ [] →
      (h = [0x81, 0x24] ∨ h = [0x12, 0x01]) → v.value = h ++ k →
      KeyFor env cs v ⟨.p384, .inr (env.ecKey .p384 k)⟩ .sha384
  | edJwk {cs v j} : (cs = "eddsa-rdfc-2022" ∨ cs = "eddsa-2022") → v.jwk = some j →
      KeyFor env cs v ⟨.ed25519, .inl j⟩ .sha256
  | edBytes {cs v} : (cs = "eddsa-rdfc-2022" ∨ cs = "eddsa-2022") → v.jwk = none → v.value ≠ [] →
      KeyFor env cs v ⟨.ed25519, .inr v.value⟩ .sha256

/-- The value of a date member of the signed configuration: absent when the date is the zero time,
else its RFC3339 form. -/
def dateMember (env : Env) (t : env.T) : Option Json :=
  if env.isZero t then none else some (.str (env.fmtT t))

/-- A member that is left out when empty. -/
def optStr (s : String) : Option Json := if s = "" then none else some (.str s)

/-- The signed proof configuration, member by member. -/
structure Config (env : Env) (ctx : Json) (suite vmID purpose domain challenge : String)
    (created expires : env.T) (c : JObj) : Prop where
  context : GoMap.get? c "@context" = some ctx
  type : GoMap.get? c "type" = some (.str "DataIntegrityProof")
  cryptosuite : GoMap.get? c "cryptosuite" = some (.str suite)
  verificationMethod : GoMap.get? c "verificationMethod" = some (.str vmID)
  proofPurpose : GoMap.get? c "proofPurpose" = some (.str purpose)
  created : GoMap.get? c "created" = dateMember env created
  expires : GoMap.get? c "expires" = dateMember env expires
  challenge : GoMap.get? c "challenge" = optStr challenge
  domain : GoMap.get? c "domain" = optStr domain
  only : ∀ k, k ∉ ["@context", "type", "cryptosuite", "verificationMethod", "proofPurpose", "created",
    "expires", "challenge", "domain"] → GoMap.get? c k = none

/-- The time a date member of the proof stands for (`""`: the zero time). -/
def DateOf (env : Env) (s : String) (t : env.T) : Prop :=
  (s = "" ∧ t = env.zeroT) ∨ (s ≠ "" ∧ env.parseT s = some t)

/-- The multibase signature `value` verifies under `pk` over the digest of the configuration
followed by the digest of the document. -/
def Signed (env : Env) (pk : PubKey) (h : HashAlg) (doc conf : JObj) (value : String) : Prop :=
  ∃ sig cd cc, env.mbDecode value = some sig ∧ env.canon h doc = some cd ∧ env.canon h conf = some cc ∧
    env.verify sig (env.hash h cc ++ env.hash h cd) pk = true

/-- `p` is a valid proof of `doc` (the document without its proof) for the expected purpose, domain
and challenge. -/
structure Valid (env : Env) (doc : JObj) (purpose domain challenge : String) (p : Prf) : Prop where
  isType : p.type = "DataIntegrityProof"
  hasPurpose : p.purpose = purpose
  unexpired : p.expires = "" ∨ ∃ t, env.parseT p.expires = some t ∧ env.past t = false
  hasDomain : domain = "" ∨ p.domain = domain
  hasChallenge : challenge = "" ∨ p.challenge = challenge
  signature : ∃ r v pk h tc te conf, env.resolver = some r ∧ Resolves r p.purpose p.vm v ∧
    KeyFor env p.cryptosuite v pk h ∧ DateOf env p.created tc ∧ DateOf env p.expires te ∧
    Config env (JObj.at doc "@context") p.cryptosuite p.vm p.purpose domain challenge tc te conf ∧
    Signed env pk h doc conf p.value

/-- The proof object `raw` has the string members of `p` (absent and `null` members are empty). -/
structure IsProof (raw : Json) (p : Prf) : Prop where
  fields : ∃ m, raw = .obj m ∧ ∀ kv ∈ [("id", p.id), ("type", p.type), ("cryptosuite", p.cryptosuite),
    ("proofPurpose", p.purpose), ("verificationMethod", p.vm), ("created", p.created),
    ("expires", p.expires), ("domain", p.domain), ("challenge", p.challenge), ("proofValue", p.value),
    ("previousProof", p.previous)],
    GoMap.get? m kv.1 = some (.str kv.2) ∨
      (kv.2 = "" ∧ (GoMap.get? m kv.1 = none ∨ GoMap.get? m kv.1 = some .null))

/-- The document carries exactly one proof, alone or in a list of one. -/
def OnlyProof (doc : JObj) (r : Json) : Prop :=
  GoMap.get? doc "proof" = some (.arr [r]) ∨
  (GoMap.get? doc "proof" = some r ∧ r ≠ .null ∧ ∀ l, r ≠ .arr l)

/-- The document carries the list of proofs `rs`. -/
def ProofList (doc : JObj) (rs : List Json) : Prop := GoMap.get? doc "proof" = some (.arr rs)

/-- The verifier was configured with the two suites of this repository, under their own names. -/
def Standard (env : Env) (suites : GoMap (Suite env)) : Prop :=
  ∀ n s, GoMap.get? suites n = some s →
    ((n = "ecdsa-2019" ∨ n = "ecdsa-rdfc-2019") ∧ s = ecdsaSuite env) ∨
    ((n = "eddsa-rdfc-2022" ∨ n = "eddsa-2022") ∧ s = eddsaSuite env)

/-- Canonicalisation sees a Go map: it depends only on the bindings. -/
def CanonExt (env : Env) : Prop := ∀ h m m', GoMap.Same m m' → env.canon h m = env.canon h m'

end VC.DI.Spec
