import Verif.Proof.Model
/-!
# Proof checker: specification and theorems (C33, C34)
-/

namespace VC.Proof

/-! ## Specification -/

/-- The method is one the table allows, as a key of type `kt`: same method type, a JWK if one is
required, and if there is a JWK its declared key type and curve are those of the entry. -/
def Allowed (vms : List Supported) (vm : VM) (kt : KeyType) : Prop :=
  ∃ s ∈ vms, s.vmType = vm.type ∧ s.keyType = kt ∧ (s.requireJWK = true → vm.jwk ≠ none) ∧
    ∀ j, vm.jwk = some j → j.kty = s.kty ∧ j.crv = s.crv

/-- The key carried by the method: its JWK if present, else its raw bytes. -/
def keyOf (vm : VM) : Bytes ⊕ Jwk :=
  match vm.jwk with
  | some j => .inr j
  | none => .inl vm.value

/-- A registered verifier for the key type accepted the signature over the message. -/
def Signed (vs : List SigVerifier) (vms : List Supported) (vm : VM) (msg sig : Bytes) : Prop :=
  ∃ kt, Allowed vms vm kt ∧ ∃ v ∈ vs, v.supports kt = true ∧ v.verify sig msg ⟨kt, keyOf vm⟩ = true

/-- `vm` is listed under `kid` in the DID document of `controller`, not merely for key agreement. -/
def KeyOfDid (vdr : String → Option (List DocEntry)) (controller kid : String) (vm : VM) : Prop :=
  ∃ doc, vdr controller = some doc ∧ ∃ e ∈ doc, e.id = kid ∧ e.rel ≠ .keyAgreement ∧ e.vm = vm

/-! ## General soundness -/

theorem createPublicKey_eq (vm : VM) (kt : KeyType) : createPublicKey vm kt = ⟨kt, keyOf vm⟩ := by
  unfold createPublicKey keyOf
  cases vm.jwk <;> rfl

theorem methodMatches_iff (s : Supported) (vm : VM) : methodMatches s vm = true ↔
    s.vmType = vm.type ∧ (s.requireJWK = true → vm.jwk ≠ none) ∧
    ∀ j, vm.jwk = some j → j.kty = s.kty ∧ j.crv = s.crv := by
  unfold methodMatches
  by_cases h : s.vmType = vm.type
  · rw [if_neg (by simp [h])]
    cases hj : vm.jwk with
    | none => cases s.requireJWK <;> simp [h]
    | some j =>
      by_cases h1 : s.kty = j.kty <;> by_cases h2 : s.crv = j.crv
      · simp [h, h1, h2]
      · have : ¬ j.crv = s.crv := fun e => h2 e.symm
        simp [h1, h2, this]
      · have : ¬ j.kty = s.kty := fun e => h1 e.symm
        simp [h1, h2, this]
      · have : ¬ j.kty = s.kty := fun e => h1 e.symm
        simp [h1, h2, this]
  · simp [h]

theorem convert_sound {vms : List Supported} {vm : VM} {pk : PubKey}
    (h : convertToPublicKey vms vm = some pk) : Allowed vms vm pk.type ∧ pk.key = keyOf vm := by
  induction vms with
  | nil => simp [convertToPublicKey] at h
  | cons s ss ih =>
    unfold convertToPublicKey at h
    split at h
    · rename_i hm
      rw [createPublicKey_eq] at h
      cases h
      obtain ⟨h1, h2, h3⟩ := (methodMatches_iff s vm).mp hm
      exact ⟨⟨s, by simp, h1, rfl, h2, h3⟩, rfl⟩
    · obtain ⟨⟨t, ht, h1⟩, h2⟩ := ih h
      exact ⟨⟨t, by simp [ht], h1⟩, h2⟩

theorem convert_complete {vms : List Supported} {vm : VM} {kt : KeyType} (h : Allowed vms vm kt) :
    ∃ pk, convertToPublicKey vms vm = some pk := by
  induction vms with
  | nil => obtain ⟨s, hs, _⟩ := h; cases hs
  | cons s ss ih =>
    unfold convertToPublicKey
    split
    · exact ⟨_, rfl⟩
    · rename_i hm
      apply ih
      obtain ⟨t, ht, h1, h2, h3, h4⟩ := h
      rcases List.mem_cons.mp ht with e | e
      · subst e; exact absurd ((methodMatches_iff _ vm).mpr ⟨h1, h3, h4⟩) hm
      · exact ⟨t, e, h1, h2, h3, h4⟩

theorem getVerifier_sound {vs : List SigVerifier} {kt : KeyType} {v : SigVerifier}
    (h : getSignatureVerifier vs kt = some v) : v ∈ vs ∧ v.supports kt = true := by
  induction vs with
  | nil => simp [getSignatureVerifier] at h
  | cons w ws ih =>
    unfold getSignatureVerifier at h
    split at h
    · cases h; exact ⟨by simp, by assumption⟩
    · exact ⟨List.mem_cons_of_mem _ (ih h).1, (ih h).2⟩

theorem byAlg_sound {ds : List JwtDesc} {a : String} {d : JwtDesc} (h : byAlg ds a = some d) :
    d ∈ ds ∧ d.alg = a := by
  induction ds with
  | nil => simp [byAlg] at h
  | cons e es ih =>
    unfold byAlg at h
    split at h
    · cases h; exact ⟨by simp, by assumption⟩
    · exact ⟨List.mem_cons_of_mem _ (ih h).1, (ih h).2⟩

theorem byCwtAlg_sound {ds : List JwtDesc} {a : Int} {d : JwtDesc} (h : byCwtAlg ds a = some d) :
    d ∈ ds ∧ d.cwtAlg = a := by
  induction ds with
  | nil => simp [byCwtAlg] at h
  | cons e es ih =>
    unfold byCwtAlg at h
    split at h
    · cases h; exact ⟨by simp, by assumption⟩
    · exact ⟨List.mem_cons_of_mem _ (ih h).1, (ih h).2⟩

theorem byType_sound {ds : List LdDesc} {a : String} {d : LdDesc} (h : byType ds a = some d) :
    d ∈ ds ∧ d.proofType = a := by
  induction ds with
  | nil => simp [byType] at h
  | cons e es ih =>
    unfold byType at h
    split at h
    · cases h; exact ⟨by simp, by assumption⟩
    · exact ⟨List.mem_cons_of_mem _ (ih h).1, (ih h).2⟩

theorem verifyWith_sound {vs vms vm msg sig} (h : verifyWith vs vms vm msg sig = .ok ()) :
    Signed vs vms vm msg sig := by
  unfold verifyWith at h
  split at h
  · cases h
  · rename_i pk hpk
    split at h
    · cases h
    · rename_i v hv
      split at h
      · rename_i hok
        obtain ⟨h1, h2⟩ := convert_sound hpk
        obtain ⟨h3, h4⟩ := getVerifier_sound hv
        refine ⟨pk.type, h1, v, h3, h4, ?_⟩
        rw [← h2]; exact hok
      · cases h

/-- C33 (JWT): an accepted JWT proof names a key id and a supported algorithm, the key id resolves
for the expected issuer, and a verifier registered for a key type the algorithm allows for that
method accepted exactly this signature over exactly this message with that key. -/
theorem jwt_proof_sound (c : Checker) (headers : JObj) (issuer : String) (msg sig : Bytes)
    (h : c.checkJWT headers issuer msg sig = .ok ()) :
    ∃ kid alg vm, header headers "kid" = some kid ∧ header headers "alg" = some alg ∧
      c.resolve kid issuer = .ok vm ∧
      ∃ d ∈ c.jwt, d.alg = alg ∧ Signed c.verifiers d.vms vm msg sig := by
  unfold Checker.checkJWT at h
  split at h
  · cases h
  rename_i kid hk
  split at h
  · cases h
  rename_i alg ha
  split at h
  · cases h
  rename_i vm hv
  split at h
  · cases h
  rename_i d hd
  obtain ⟨h1, h2⟩ := byAlg_sound hd
  exact ⟨kid, alg, vm, hk, ha, hv, d, h1, h2, verifyWith_sound h⟩

/-- C33 (CWT): an accepted CWT proof either names a key id that resolves for the expected issuer,
or (no key id) carries its own key and no issuer was expected; in both cases a verifier accepted
the signature under a key the algorithm allows. -/
theorem cwt_proof_sound (c : Checker) (coseKey : String → Option (Jwk × KeyType)) (r : CwtReq)
    (issuer : String) (msg sig : Bytes) (h : c.checkCWT coseKey r issuer msg sig = .ok ()) :
    r.algo ≠ 0 ∧ ∃ d ∈ c.cwt, d.cwtAlg = r.algo ∧
    ((r.keyID ≠ "" ∧ ∃ vm, c.resolve r.keyID issuer = .ok vm ∧ Signed c.verifiers d.vms vm msg sig) ∨
     (r.keyID = "" ∧ r.keyMaterial ≠ "" ∧ issuer = "" ∧ ∃ j kt, coseKey r.keyMaterial = some (j, kt) ∧
       ∃ kt', Allowed d.vms ⟨"JsonWebKey2020", [], some j⟩ kt' ∧
       ∃ v ∈ c.verifiers, v.supports kt = true ∧ v.verify sig msg ⟨kt', .inr j⟩ = true)) := by
  unfold Checker.checkCWT at h
  split at h
  · cases h
  rename_i h0
  split at h
  · cases h
  rename_i ha
  refine ⟨ha, ?_⟩
  split at h
  · rename_i hk
    unfold Checker.checkCWTByKeyID at h
    split at h
    · cases h
    rename_i vm hv
    split at h
    · cases h
    rename_i d hd
    obtain ⟨h1, h2⟩ := byCwtAlg_sound hd
    exact ⟨d, h1, h2, Or.inl ⟨hk, vm, hv, verifyWith_sound h⟩⟩
  · rename_i hk
    have hk' : r.keyID = "" := Decidable.not_not.mp hk
    unfold Checker.checkCWTByCOSEKey at h
    split at h
    · cases h
    rename_i hi
    split at h
    · cases h
    rename_i j kt hj
    split at h
    · cases h
    rename_i d hd
    split at h
    · cases h
    rename_i pk hpk
    split at h
    · cases h
    rename_i v hv
    split at h
    · rename_i hok
      obtain ⟨h1, h2⟩ := byCwtAlg_sound hd
      obtain ⟨h3, h4⟩ := convert_sound hpk
      obtain ⟨h5, h6⟩ := getVerifier_sound hv
      have hpk' : pk = ⟨pk.type, .inr j⟩ := by
        cases pk; simp only [PubKey.mk.injEq, true_and]; exact h4
      exact ⟨d, h1, h2, Or.inr ⟨hk', fun e => h0 ⟨hk', e⟩, Decidable.not_not.mp hi, j, kt, hj,
        pk.type, h3, v, h5, h6, hpk' ▸ hok⟩⟩
    · cases h

/-- C33 (linked data proofs): the verification method resolves for the expected issuer, the proof
type is supported, its key is one the type allows, and the (extended or registered) verifier
accepted the signature. -/
theorem ld_proof_sound (c : Checker) (p : LdProof) (issuer : String) (msg sig : Bytes)
    (h : c.checkLD p issuer msg sig = .ok ()) :
    ∃ kid vm, p.publicKeyID = some kid ∧ c.resolve kid issuer = .ok vm ∧
      ∃ d ∈ c.ld, d.proofType = p.type ∧
        ((d.ex = none ∧ Signed c.verifiers d.vms vm msg sig) ∨
         ∃ ex kt, d.ex = some ex ∧ Allowed d.vms vm kt ∧ ex sig msg ⟨kt, keyOf vm⟩ p.nonce = true) := by
  unfold Checker.checkLD at h
  split at h
  · cases h
  rename_i kid hk
  split at h
  · cases h
  rename_i vm hv
  split at h
  · cases h
  rename_i d hd
  split at h
  · cases h
  rename_i pk hpk
  obtain ⟨h1, h2⟩ := byType_sound hd
  obtain ⟨h3, h4⟩ := convert_sound hpk
  have hpk' : pk = ⟨pk.type, keyOf vm⟩ := by cases pk; simp only [PubKey.mk.injEq, true_and]; exact h4
  refine ⟨kid, vm, hk, hv, d, h1, h2, ?_⟩
  split at h
  · rename_i ex hex
    split at h
    · rename_i hok
      exact Or.inr ⟨ex, pk.type, hex, h3, hpk' ▸ hok⟩
    · cases h
  · rename_i hex
    split at h
    · cases h
    rename_i v hv'
    split at h
    · rename_i hok
      obtain ⟨h5, h6⟩ := getVerifier_sound hv'
      exact Or.inl ⟨hex, pk.type, h3, v, h5, h6, hpk' ▸ hok⟩
    · cases h

/-! ## DID documents -/

theorem findVM_sound {doc : List DocEntry} {kid : String} {vm : VM} (h : findVM doc kid = some vm) :
    ∃ e ∈ doc, e.id = kid ∧ e.rel ≠ .keyAgreement ∧ e.vm = vm := by
  induction doc with
  | nil => simp [findVM] at h
  | cons e es ih =>
    unfold findVM at h
    split at h
    · rename_i he; cases h; exact ⟨e, by simp, he.1, he.2, rfl⟩
    · obtain ⟨e', h1, h2⟩ := ih h; exact ⟨e', by simp [h1], h2⟩

theorem findVM_complete {doc : List DocEntry} {kid : String}
    (h : ∃ e ∈ doc, e.id = kid ∧ e.rel ≠ .keyAgreement) : ∃ vm, findVM doc kid = some vm := by
  induction doc with
  | nil => obtain ⟨e, he, _⟩ := h; cases he
  | cons e es ih =>
    unfold findVM
    split
    · exact ⟨_, rfl⟩
    · rename_i hn
      obtain ⟨e', h1, h2⟩ := h
      rcases List.mem_cons.mp h1 with e1 | e1
      · subst e1; exact absurd h2 hn
      · exact ih ⟨e', e1, h2⟩

/-- C33/C35: the resolver returns only keys of the controller's DID document that are listed under
that id for something other than key agreement, and fails exactly when there is none. -/
theorem resolver_sound (vdr : String → Option (List DocEntry)) (kid controller : String) :
    (∀ vm, vdrResolve vdr kid controller = .ok vm → KeyOfDid vdr controller kid vm) ∧
    ((∃ vm, vdrResolve vdr kid controller = .ok vm) ↔ ∃ vm, KeyOfDid vdr controller kid vm) := by
  have s : ∀ vm, vdrResolve vdr kid controller = .ok vm → KeyOfDid vdr controller kid vm := by
    intro vm h
    unfold vdrResolve at h
    split at h
    · cases h
    rename_i doc hd
    split at h
    · cases h
    rename_i vm' hf
    cases h
    exact ⟨doc, hd, findVM_sound hf⟩
  refine ⟨s, fun ⟨vm, h⟩ => ⟨vm, s vm h⟩, ?_⟩
  rintro ⟨vm, doc, hd, e, he, h1, h2, _⟩
  obtain ⟨vm', hf⟩ := findVM_complete (kid := kid) ⟨e, he, h1, h2⟩
  exact ⟨vm', by simp [vdrResolve, hd, hf]⟩

/-- The order in which the document's methods are visited does not matter when an id denotes one
method. -/
theorem resolver_order_independent (doc doc' : List DocEntry) (hp : doc.Perm doc') (kid : String)
    (huniq : ∀ e ∈ doc, ∀ e' ∈ doc, e.id = kid → e'.id = kid → e.rel ≠ .keyAgreement →
      e'.rel ≠ .keyAgreement → e.vm = e'.vm) : findVM doc kid = findVM doc' kid := by
  cases h : findVM doc kid with
  | none =>
    cases h' : findVM doc' kid with
    | none => rfl
    | some vm =>
      obtain ⟨e, he, h1, h2, _⟩ := findVM_sound h'
      obtain ⟨vm', hf⟩ := findVM_complete (kid := kid) ⟨e, hp.mem_iff.mpr he, h1, h2⟩
      rw [h] at hf; cases hf
  | some vm =>
    obtain ⟨e, he, h1, h2, h3⟩ := findVM_sound h
    obtain ⟨vm', hf⟩ := findVM_complete (kid := kid) ⟨e, hp.mem_iff.mp he, h1, h2⟩
    obtain ⟨e', he', h1', h2', h3'⟩ := findVM_sound hf
    rw [hf, ← h3, ← h3', huniq e he e' (hp.mem_iff.mpr he') h1 h1' h2 h2']

/-- C33 with DID resolution: an accepted JWT was signed by a key of the expected issuer's DID
document named by `kid`. -/
theorem jwt_signed_by_issuer_key (c : Checker) (vdr : String → Option (List DocEntry))
    (hr : c.resolve = vdrResolve vdr) (headers : JObj) (issuer : String) (msg sig : Bytes)
    (h : c.checkJWT headers issuer msg sig = .ok ()) :
    ∃ kid alg vm, header headers "kid" = some kid ∧ header headers "alg" = some alg ∧
      KeyOfDid vdr issuer kid vm ∧
      ∃ d ∈ c.jwt, d.alg = alg ∧ Signed c.verifiers d.vms vm msg sig := by
  obtain ⟨kid, alg, vm, h1, h2, h3, h4⟩ := jwt_proof_sound c headers issuer msg sig h
  rw [hr] at h3
  exact ⟨kid, alg, vm, h1, h2, (resolver_sound vdr kid issuer).1 vm h3, h4⟩

/-! ## The default tables (C34) -/

/-- A JWK method with this key type and curve. -/
def JwkMethod (kty crv : String) (vm : VM) : Prop :=
  vm.type = "JsonWebKey2020" ∧ ∃ j, vm.jwk = some j ∧ j.kty = kty ∧ j.crv = crv

/-- A method of the given dedicated type (whose JWK, if any, has this key type and curve), or a JWK
method. -/
def TypedMethod (ty kty crv : String) (vm : VM) : Prop :=
  (vm.type = ty ∧ ∀ j, vm.jwk = some j → j.kty = kty ∧ j.crv = crv) ∨ JwkMethod kty crv vm

/-- The Ed25519 key of a method. -/
def edKey (vm : VM) : Option Bytes :=
  match keyOf vm with
  | .inl b => some b
  | .inr j => match j.key with
    | .ed25519 k => some k
    | _ => none

/-- The ECDSA key of a method. -/
def ecKey (p : Prim) (c : Curve) (vm : VM) : Option Bytes :=
  match keyOf vm with
  | .inl b => p.ecPoint c b
  | .inr j => match j.key with
    | .ecdsa k => some k
    | _ => none

/-- The RSA key of a method. -/
def rsaKey (p : Prim) (vm : VM) : Option Bytes :=
  match keyOf vm with
  | .inl b => p.pkcs1Key b
  | .inr j => match j.key with
    | .rsa k => some k
    | _ => none

/-- The length in bits of the order of the curve (SEC 2, FIPS 186-4). -/
def fieldBits : Curve → Nat
  | .secp256k1 => 256
  | .p256 => 256
  | .p384 => 384
  | .p521 => 521

/-- As many bytes as such a number needs. -/
def coordBytes (c : Curve) : Nat := (fieldBits c + 7) / 8

/-- The number that big-endian bytes stand for: the first byte counts `256 ^ (number of bytes after it)`. -/
def bigEndian : Bytes → Nat
  | [] => 0
  | x :: l => x.toNat * 256 ^ l.length + bigEndian l

/-- An ECDSA signature: `r ‖ s` of exactly twice the coordinate size, or a longer ASN.1 encoding. -/
def EcSig (p : Prim) (c : Curve) (k msg sig : Bytes) : Prop :=
  (sig.length = 2 * coordBytes c ∧
    p.ecdsa c k msg (bigEndian (sig.take (coordBytes c))) (bigEndian (sig.drop (coordBytes c))) = true) ∨
  (sig.length > 2 * coordBytes c ∧ ∃ r s, p.asn1 sig = some (r, s) ∧ p.ecdsa c k msg r s = true)

theorem keySize_eq (c : Curve) : c.keySize = coordBytes c := by cases c <;> rfl

theorem beVal_from (b : Bytes) (a : Nat) :
    b.foldl (fun a x => a * 256 + x.toNat) a = a * 256 ^ b.length + bigEndian b := by
  induction b generalizing a with
  | nil => simp [bigEndian]
  | cons x l ih =>
    rw [List.foldl_cons, ih, bigEndian, List.length_cons, Nat.pow_succ, Nat.add_mul, Nat.mul_assoc,
      Nat.mul_comm 256, Nat.add_assoc]

theorem beVal_eq (b : Bytes) : beVal b = bigEndian b := by
  unfold beVal
  rw [beVal_from]
  simp

/-- What each JWT algorithm means: which methods it allows and which primitive must accept. -/
inductive AlgAccepts (p : Prim) (vm : VM) (msg sig : Bytes) : String → Prop
  | eddsa {k} : TypedMethod "Ed25519VerificationKey2018" "OKP" "Ed25519" vm → edKey vm = some k →
      k.length = 32 → p.ed25519 k msg sig = true → AlgAccepts p vm msg sig "EdDSA"
  | es256 {k} : JwkMethod "EC" "P-256" vm → ecKey p .p256 vm = some k → EcSig p .p256 k msg sig →
      AlgAccepts p vm msg sig "ES256"
  | es256k {k} : TypedMethod "EcdsaSecp256k1VerificationKey2019" "EC" "secp256k1" vm →
      ecKey p .secp256k1 vm = some k → EcSig p .secp256k1 k msg sig →
      AlgAccepts p vm msg sig "ES256K"
  | es384 {k} : JwkMethod "EC" "P-384" vm → ecKey p .p384 vm = some k → EcSig p .p384 k msg sig →
      AlgAccepts p vm msg sig "ES384"
  | es521 {k} : JwkMethod "EC" "P-521" vm → ecKey p .p521 vm = some k → EcSig p .p521 k msg sig →
      AlgAccepts p vm msg sig "ES521"
  | rs256 {k} : TypedMethod "RsaVerificationKey2018" "RSA" "" vm → rsaKey p vm = some k →
      p.pkcs1v15 k msg sig = true → AlgAccepts p vm msg sig "RS256"
  | ps256 {k} : TypedMethod "RsaVerificationKey2018" "RSA" "" vm → rsaKey p vm = some k →
      p.pss k msg sig = true → AlgAccepts p vm msg sig "PS256"

theorem ecKey_eq (p : Prim) (c : Curve) (vm : VM) : ecKey p c vm = ecdsaKey p c (keyOf vm) := by
  unfold ecKey ecdsaKey
  cases keyOf vm with
  | inl b => rfl
  | inr j => cases j with | mk a b k => cases k <;> rfl

theorem edKey_eq (vm : VM) : edKey vm = ed25519Key (keyOf vm) := by
  unfold edKey ed25519Key
  cases keyOf vm with
  | inl b => rfl
  | inr j => cases j with | mk a b k => cases k <;> rfl

theorem rsaKey_eq (p : Prim) (vm : VM) : rsaKey p vm = rsaPubKey p (keyOf vm) := by
  unfold rsaKey rsaPubKey
  cases keyOf vm with
  | inl b => rfl
  | inr j => cases j with | mk a b k => cases k <;> rfl

theorem ecdsa_iff (p : Prim) (c : Curve) (kt : KeyType) (hk : kt ∈ c.keyTypes) (vm : VM)
    (sig msg : Bytes) : (ecdsaVerifier p c).verify sig msg ⟨kt, keyOf vm⟩ = true ↔
      ∃ k, ecKey p c vm = some k ∧ EcSig p c k msg sig := by
  unfold ecdsaVerifier EcSig
  simp only [← beVal_eq, ← keySize_eq]
  have hk' : c.keyTypes.contains kt = true := by simpa using hk
  rw [ecKey_eq]
  simp only [hk', Bool.not_true, Bool.false_eq_true, if_false]
  cases ecdsaKey p c (keyOf vm) with
  | none => simp
  | some k =>
    simp only [Option.some.injEq, exists_eq_left']
    by_cases h1 : sig.length < 2 * c.keySize
    · simp only [h1, if_true, Bool.false_eq_true, false_iff, not_or, not_and]
      exact ⟨fun e => by omega, fun e => by omega⟩
    · by_cases h2 : sig.length > 2 * c.keySize
      · simp only [h1, h2, if_true, if_false]
        have : sig.length ≠ 2 * c.keySize := by omega
        simp only [this, false_and, false_or, true_and]
        cases p.asn1 sig with
        | none => simp
        | some rs =>
          obtain ⟨r, s⟩ := rs
          simp only [Option.some.injEq, Prod.mk.injEq]
          constructor
          · intro h; exact ⟨r, s, ⟨rfl, rfl⟩, h⟩
          · rintro ⟨r', s', ⟨rfl, rfl⟩, h⟩; exact h
      · have : sig.length = 2 * c.keySize := by omega
        simp [this]

theorem ed_iff (p : Prim) (vm : VM) (sig msg : Bytes) :
    (ed25519Verifier p).verify sig msg ⟨.ed25519, keyOf vm⟩ = true ↔
      ∃ k, edKey vm = some k ∧ k.length = 32 ∧ p.ed25519 k msg sig = true := by
  unfold ed25519Verifier
  rw [edKey_eq]
  simp only [ne_eq, not_true_eq_false, if_false]
  cases ed25519Key (keyOf vm) with
  | none => simp
  | some k =>
    simp only [Option.some.injEq, exists_eq_left']
    by_cases h1 : List.length k = 32 <;> simp [h1]

theorem rsa_iff (p : Prim) (kt : KeyType) (prim : Bytes → Bytes → Bytes → Bool) (vm : VM)
    (sig msg : Bytes) : (rsaVerifier p kt prim).verify sig msg ⟨kt, keyOf vm⟩ = true ↔
      ∃ k, rsaKey p vm = some k ∧ prim k msg sig = true := by
  unfold rsaVerifier
  rw [rsaKey_eq]
  simp only [ne_eq, not_true_eq_false, if_false]
  cases rsaPubKey p (keyOf vm) <;> simp

/-- `verifyWith` when every entry of the table that matches has a key type handled the same way. -/
theorem verifyWith_iff (vs : List SigVerifier) (vms : List Supported) (vm : VM) (msg sig : Bytes)
    (M : VM → Prop) (K : List KeyType) (P : Prop)
    (hM : M vm ↔ ∃ s ∈ vms, methodMatches s vm = true)
    (hK : ∀ s ∈ vms, s.keyType ∈ K)
    (hv : ∀ kt ∈ K, ∃ v, getSignatureVerifier vs kt = some v ∧
      (v.verify sig msg ⟨kt, keyOf vm⟩ = true ↔ P)) :
    verifyWith vs vms vm msg sig = .ok () ↔ M vm ∧ P := by
  unfold verifyWith
  cases hc : convertToPublicKey vms vm with
  | none =>
    simp only [reduceCtorEq, false_iff, not_and]
    intro hm
    obtain ⟨s, hs, hmm⟩ := hM.mp hm
    obtain ⟨h1, h2, h3⟩ := (methodMatches_iff s vm).mp hmm
    obtain ⟨pk, hpk⟩ := convert_complete (kt := s.keyType) ⟨s, hs, h1, rfl, h2, h3⟩
    rw [hc] at hpk; cases hpk
  | some pk =>
    obtain ⟨⟨s, hs, h1, h2, h3, h4⟩, h5⟩ := convert_sound hc
    have hm : M vm := hM.mpr ⟨s, hs, (methodMatches_iff s vm).mpr ⟨h1, h3, h4⟩⟩
    obtain ⟨v, hv1, hv2⟩ := hv pk.type (h2 ▸ hK s hs)
    have hpk : pk = ⟨pk.type, keyOf vm⟩ := by
      cases pk; simp only [PubKey.mk.injEq, true_and]; exact h5
    simp only [hv1]
    rw [← hpk] at hv2
    by_cases hp : P
    · simp [hv2.mpr hp, hm, hp]
    · have : ¬ v.verify sig msg pk = true := fun e => hp (hv2.mp e)
      simp [this, hp]

theorem typed_iff (ty kty crv : String) (kts : List (String × KeyType × Bool)) (vm : VM)
    (h : ∀ x ∈ kts, (x.1 = ty ∧ x.2.2 = false) ∨ (x.1 = "JsonWebKey2020" ∧ x.2.2 = true))
    (h1 : ∃ x ∈ kts, x.1 = ty ∧ x.2.2 = false)
    (h2 : ∃ x ∈ kts, x.1 = "JsonWebKey2020" ∧ x.2.2 = true) :
    TypedMethod ty kty crv vm ↔
      ∃ s ∈ kts.map (fun x => (⟨x.1, x.2.1, kty, crv, x.2.2⟩ : Supported)), methodMatches s vm = true := by
  unfold TypedMethod JwkMethod
  constructor
  · rintro (⟨a, b⟩ | ⟨a, j, b, c, d⟩)
    · obtain ⟨x, hx, e1, e2⟩ := h1
      exact ⟨_, List.mem_map.mpr ⟨x, hx, rfl⟩, (methodMatches_iff _ _).mpr
        ⟨by simp [e1, a], by simp [e2], fun j hj => b j hj⟩⟩
    · obtain ⟨x, hx, e1, e2⟩ := h2
      exact ⟨_, List.mem_map.mpr ⟨x, hx, rfl⟩, (methodMatches_iff _ _).mpr
        ⟨by simp [e1, a], by simp [b], fun j' hj' => by rw [b] at hj'; cases hj'; exact ⟨c, d⟩⟩⟩
  · rintro ⟨s, hs, hm⟩
    obtain ⟨x, hx, rfl⟩ := List.mem_map.mp hs
    obtain ⟨a, b, c⟩ := (methodMatches_iff _ _).mp hm
    simp only at a b c
    rcases h x hx with ⟨e1, e2⟩ | ⟨e1, e2⟩
    · exact Or.inl ⟨by rw [← a, e1], c⟩
    · right
      refine ⟨by rw [← a, e1], ?_⟩
      cases hj : vm.jwk with
      | none => exact absurd hj (b e2)
      | some j => exact ⟨j, rfl, c j hj⟩

theorem jwk_iff (kty crv : String) (kts : List KeyType) (vm : VM) (hne : kts ≠ []) :
    JwkMethod kty crv vm ↔
      ∃ s ∈ kts.map (fun x => (⟨"JsonWebKey2020", x, kty, crv, true⟩ : Supported)),
        methodMatches s vm = true := by
  unfold JwkMethod
  constructor
  · rintro ⟨a, j, b, c, d⟩
    obtain ⟨k, hk⟩ := List.exists_mem_of_ne_nil kts hne
    exact ⟨_, List.mem_map.mpr ⟨k, hk, rfl⟩, (methodMatches_iff _ _).mpr
      ⟨a.symm, by simp [b], fun j' hj' => by rw [b] at hj'; cases hj'; exact ⟨c, d⟩⟩⟩
  · rintro ⟨s, hs, hm⟩
    obtain ⟨x, hx, rfl⟩ := List.mem_map.mp hs
    obtain ⟨a, b, c⟩ := (methodMatches_iff _ _).mp hm
    refine ⟨a.symm, ?_⟩
    cases hj : vm.jwk with
    | none => exact absurd hj (b rfl)
    | some j => exact ⟨j, rfl, c j hj⟩

/-- The two default verifier lists find, for the key types of the JWT tables, the verifier of that
family. -/
def Standard (p : Prim) (vs : List SigVerifier) : Prop :=
  getSignatureVerifier vs .ed25519 = some (ed25519Verifier p) ∧
  getSignatureVerifier vs .rsaPS256 = some (rsaVerifier p .rsaPS256 p.pss) ∧
  getSignatureVerifier vs .rsaRS256 = some (rsaVerifier p .rsaRS256 p.pkcs1v15) ∧
  ∀ c : Curve, ∀ kt ∈ c.keyTypes, getSignatureVerifier vs kt = some (ecdsaVerifier p c)

theorem standard_default (p : Prim) : Standard p (defaultVerifiers p) := by
  refine ⟨rfl, rfl, rfl, ?_⟩
  intro c kt hk
  cases c <;> simp only [Curve.keyTypes, List.mem_cons, List.not_mem_nil, or_false] at hk <;>
    rcases hk with rfl | rfl <;> rfl

theorem standard_holder (p : Prim) : Standard p (holderVerifiers p) := by
  refine ⟨rfl, rfl, rfl, ?_⟩
  intro c kt hk
  cases c <;> simp only [Curve.keyTypes, List.mem_cons, List.not_mem_nil, or_false] at hk <;>
    rcases hk with rfl | rfl <;> rfl

/-- The verification step for an algorithm, with the default tables. -/
def checkAlg (vs : List SigVerifier) (alg : String) (vm : VM) (msg sig : Bytes) : Except Err Unit :=
  match byAlg defaultJwt alg with
  | none => .error .unsupportedAlg
  | some d => verifyWith vs d.vms vm msg sig

theorem ec_step (p : Prim) (vs : List SigVerifier) (hs : Standard p vs) (c : Curve) (vm : VM)
    (msg sig : Bytes) : ∀ kt ∈ c.keyTypes, ∃ v, getSignatureVerifier vs kt = some v ∧
      (v.verify sig msg ⟨kt, keyOf vm⟩ = true ↔ ∃ k, ecKey p c vm = some k ∧ EcSig p c k msg sig) :=
  fun kt hk => ⟨_, hs.2.2.2 c kt hk, ecdsa_iff p c kt hk vm sig msg⟩

/-- C34: with the default tables the verification step accepts exactly according to `AlgAccepts`;
in particular each algorithm is bound to its key type and verifier and any other algorithm string
(including "none") is rejected. -/
theorem default_alg_iff (p : Prim) (vs : List SigVerifier) (hs : Standard p vs) (alg : String)
    (vm : VM) (msg sig : Bytes) :
    checkAlg vs alg vm msg sig = .ok () ↔ AlgAccepts p vm msg sig alg := by
  unfold checkAlg
  by_cases h1 : alg = "EdDSA"
  · subst h1
    change verifyWith vs eddsaDesc.vms vm msg sig = .ok () ↔ _
    refine Iff.trans (verifyWith_iff vs _ vm msg sig (TypedMethod "Ed25519VerificationKey2018" "OKP" "Ed25519")
      [.ed25519] (∃ k, edKey vm = some k ∧ k.length = 32 ∧ p.ed25519 k msg sig = true)
      (typed_iff _ _ _ [("Ed25519VerificationKey2018", .ed25519, false), ("JsonWebKey2020", .ed25519, true)]
        vm (by simp) (by simp) (by simp)) (by simp [eddsaDesc])
      (by
        intro kt hk
        simp only [List.mem_cons, List.not_mem_nil, or_false] at hk
        subst hk
        exact ⟨_, hs.1, ed_iff p vm sig msg⟩)) ?_
    constructor
    · rintro ⟨a, k, b, c, d⟩; exact .eddsa a b c d
    · intro h; generalize e : "EdDSA" = a at h
      cases h <;> first | (simp at e; done) | exact ⟨by assumption, _, by assumption, by assumption, by assumption⟩
  by_cases h2 : alg = "ES256"
  · subst h2
    change verifyWith vs es256Desc.vms vm msg sig = .ok () ↔ _
    refine Iff.trans (verifyWith_iff vs _ vm msg sig (JwkMethod "EC" "P-256") Curve.p256.keyTypes _
      (jwk_iff _ _ [.p256P1363, .p256DER] vm (by simp)) (by simp [es256Desc, Curve.keyTypes])
      (ec_step p vs hs .p256 vm msg sig)) ?_
    constructor
    · rintro ⟨a, k, b, c⟩; exact .es256 a b c
    · intro h; generalize e : "ES256" = a at h
      cases h <;> first | (simp at e; done) | exact ⟨by assumption, _, by assumption, by assumption⟩
  by_cases h3 : alg = "ES256K"
  · subst h3
    change verifyWith vs es256kDesc.vms vm msg sig = .ok () ↔ _
    refine Iff.trans (verifyWith_iff vs _ vm msg sig (TypedMethod "EcdsaSecp256k1VerificationKey2019" "EC" "secp256k1")
      Curve.secp256k1.keyTypes _
      (typed_iff _ _ _ [("EcdsaSecp256k1VerificationKey2019", .secp256k1P1363, false),
        ("JsonWebKey2020", .secp256k1P1363, true),
        ("EcdsaSecp256k1VerificationKey2019", .secp256k1DER, false),
        ("JsonWebKey2020", .secp256k1DER, true)] vm (by simp) (by simp) (by simp))
      (by simp [es256kDesc, Curve.keyTypes]) (ec_step p vs hs .secp256k1 vm msg sig)) ?_
    constructor
    · rintro ⟨a, k, b, c⟩; exact .es256k a b c
    · intro h; generalize e : "ES256K" = a at h
      cases h <;> first | (simp at e; done) | exact ⟨by assumption, _, by assumption, by assumption⟩
  by_cases h4 : alg = "ES384"
  · subst h4
    change verifyWith vs es384Desc.vms vm msg sig = .ok () ↔ _
    refine Iff.trans (verifyWith_iff vs _ vm msg sig (JwkMethod "EC" "P-384") Curve.p384.keyTypes _
      (jwk_iff _ _ [.p384P1363, .p384DER] vm (by simp)) (by simp [es384Desc, Curve.keyTypes])
      (ec_step p vs hs .p384 vm msg sig)) ?_
    constructor
    · rintro ⟨a, k, b, c⟩; exact .es384 a b c
    · intro h; generalize e : "ES384" = a at h
      cases h <;> first | (simp at e; done) | exact ⟨by assumption, _, by assumption, by assumption⟩
  by_cases h5 : alg = "ES521"
  · subst h5
    change verifyWith vs es521Desc.vms vm msg sig = .ok () ↔ _
    refine Iff.trans (verifyWith_iff vs _ vm msg sig (JwkMethod "EC" "P-521") Curve.p521.keyTypes _
      (jwk_iff _ _ [.p521P1363, .p521DER] vm (by simp)) (by simp [es521Desc, Curve.keyTypes])
      (ec_step p vs hs .p521 vm msg sig)) ?_
    constructor
    · rintro ⟨a, k, b, c⟩; exact .es521 a b c
    · intro h; generalize e : "ES521" = a at h
      cases h <;> first | (simp at e; done) | exact ⟨by assumption, _, by assumption, by assumption⟩
  by_cases h6 : alg = "RS256"
  · subst h6
    change verifyWith vs rs256Desc.vms vm msg sig = .ok () ↔ _
    refine Iff.trans (verifyWith_iff vs _ vm msg sig (TypedMethod "RsaVerificationKey2018" "RSA" "")
      [.rsaRS256] (∃ k, rsaKey p vm = some k ∧ p.pkcs1v15 k msg sig = true)
      (typed_iff _ _ _ [("RsaVerificationKey2018", .rsaRS256, false), ("JsonWebKey2020", .rsaRS256, true)]
        vm (by simp) (by simp) (by simp)) (by simp [rs256Desc])
      (by
        intro kt hk
        simp only [List.mem_cons, List.not_mem_nil, or_false] at hk
        subst hk
        exact ⟨_, hs.2.2.1, rsa_iff p _ _ vm sig msg⟩)) ?_
    constructor
    · rintro ⟨a, k, b, c⟩; exact .rs256 a b c
    · intro h; generalize e : "RS256" = a at h
      cases h <;> first | (simp at e; done) | exact ⟨by assumption, _, by assumption, by assumption⟩
  by_cases h7 : alg = "PS256"
  · subst h7
    change verifyWith vs ps256Desc.vms vm msg sig = .ok () ↔ _
    refine Iff.trans (verifyWith_iff vs _ vm msg sig (TypedMethod "RsaVerificationKey2018" "RSA" "")
      [.rsaPS256] (∃ k, rsaKey p vm = some k ∧ p.pss k msg sig = true)
      (typed_iff _ _ _ [("RsaVerificationKey2018", .rsaPS256, false), ("JsonWebKey2020", .rsaPS256, true)]
        vm (by simp) (by simp) (by simp)) (by simp [ps256Desc])
      (by
        intro kt hk
        simp only [List.mem_cons, List.not_mem_nil, or_false] at hk
        subst hk
        exact ⟨_, hs.2.1, rsa_iff p _ _ vm sig msg⟩)) ?_
    constructor
    · rintro ⟨a, k, b, c⟩; exact .ps256 a b c
    · intro h; generalize e : "PS256" = a at h
      cases h <;> first | (simp at e; done) | exact ⟨by assumption, _, by assumption, by assumption⟩
  have hn : byAlg defaultJwt alg = none := by
    have e : ∀ {a b : String}, ¬ a = b → ¬ b = a := fun h h' => h h'.symm
    simp [defaultJwt, byAlg, eddsaDesc, es256Desc, es256kDesc, es384Desc, es521Desc, rs256Desc,
      ps256Desc, e h1, e h2, e h3, e h4, e h5, e h6, e h7]
  rw [hn]
  simp only [reduceCtorEq, false_iff]
  intro h
  cases h <;> simp_all

/-- C34: the default proof checker accepts a JWT exactly when its kid resolves for the expected
issuer and its alg accepts the signature with that key. -/
theorem default_jwt_iff (p : Prim) (resolve : String → String → Except Unit VM) (headers : JObj)
    (issuer : String) (msg sig : Bytes) :
    (defaultChecker p resolve).checkJWT headers issuer msg sig = .ok () ↔
      ∃ kid alg vm, header headers "kid" = some kid ∧ header headers "alg" = some alg ∧
        resolve kid issuer = .ok vm ∧ AlgAccepts p vm msg sig alg := by
  unfold Checker.checkJWT defaultChecker
  simp only
  cases hk : header headers "kid" with
  | none => simp
  | some kid =>
    cases ha : header headers "alg" with
    | none => simp
    | some alg =>
      simp only
      cases hr : resolve kid issuer with
      | error e =>
        simp only [reduceCtorEq, Option.some.injEq, false_iff]
        rintro ⟨kid', alg', vm, rfl, rfl, h, _⟩
        rw [hr] at h; cases h
      | ok vm =>
        have := default_alg_iff p (defaultVerifiers p) (standard_default p) alg vm msg sig
        unfold checkAlg at this
        simp only [Option.some.injEq]
        constructor
        · intro h; exact ⟨kid, alg, vm, rfl, rfl, hr, this.mp h⟩
        · rintro ⟨kid', alg', vm', rfl, rfl, h, ha⟩
          rw [hr] at h; cases h
          exact this.mpr ha

/-- C34 (holder keys): the embedded-JWK checker used for key binding accepts exactly by
`AlgAccepts`. -/
theorem embedded_jwt_iff (p : Prim) (vm : VM) (headers : JObj) (msg sig : Bytes) :
    checkEmbedded defaultJwt (holderVerifiers p) vm headers msg sig = .ok () ↔
      ∃ alg, header headers "alg" = some alg ∧ AlgAccepts p vm msg sig alg := by
  unfold checkEmbedded
  cases ha : header headers "alg" with
  | none => simp
  | some alg =>
    have := default_alg_iff p (holderVerifiers p) (standard_holder p) alg vm msg sig
    unfold checkAlg at this
    simp only [Option.some.injEq, exists_eq_left']
    exact this

/-- No token whose alg is "none" (or any other unlisted string) is ever accepted. -/
theorem alg_none_rejected (p : Prim) (vm : VM) (msg sig : Bytes) :
    ¬ AlgAccepts p vm msg sig "none" := by
  intro h; generalize e : "none" = a at h; cases h <;> simp at e

/-- Algorithm confusion is impossible: a JWK method can only be used with the algorithms of its
declared key type and curve. -/
theorem no_algorithm_confusion (p : Prim) (vm : VM) (j : Jwk) (hj : vm.jwk = some j) (msg sig : Bytes)
    (alg : String) (h : AlgAccepts p vm msg sig alg) :
    (alg = "EdDSA" ∧ j.kty = "OKP" ∧ j.crv = "Ed25519") ∨
    (alg = "ES256" ∧ j.kty = "EC" ∧ j.crv = "P-256") ∨
    (alg = "ES256K" ∧ j.kty = "EC" ∧ j.crv = "secp256k1") ∨
    (alg = "ES384" ∧ j.kty = "EC" ∧ j.crv = "P-384") ∨
    (alg = "ES521" ∧ j.kty = "EC" ∧ j.crv = "P-521") ∨
    ((alg = "RS256" ∨ alg = "PS256") ∧ j.kty = "RSA" ∧ j.crv = "") := by
  have jm : ∀ {kty crv}, JwkMethod kty crv vm → j.kty = kty ∧ j.crv = crv := by
    rintro kty crv ⟨_, j', h1, h2, h3⟩
    rw [hj] at h1; cases h1; exact ⟨h2, h3⟩
  have tm : ∀ {ty kty crv}, TypedMethod ty kty crv vm → j.kty = kty ∧ j.crv = crv := by
    rintro ty kty crv (⟨_, h⟩ | h)
    · exact h j hj
    · exact jm h
  cases h <;> first
    | (rename_i h _ _ _; simp [tm h]; done)
    | (rename_i h _ _; simp [tm h]; done)
    | (rename_i h _ _; simp [jm h]; done)

/-! ### A concrete accepted token -/

/-- Toy primitives: an Ed25519 signature is the message followed by the key. -/
def exPrim : Prim where
  ed25519 := fun k m s => s == m ++ k
  ecdsa := fun _ _ _ _ _ => false
  ecPoint := fun _ _ => none
  asn1 := fun _ => none
  pss := fun _ _ _ => false
  pkcs1v15 := fun _ _ _ => false
  pkcs1Key := fun _ => none
  bbs := fun _ _ _ => false
  bbsProof := fun _ _ _ _ => false
  jwkBytes := fun _ => none

/-- A 32-byte key. -/
def exKey : Bytes := List.replicate 32 7

/-- A document with the key under two relationships and another key for key agreement only. -/
def exVdr : String → Option (List DocEntry) := fun d =>
  if d = "did:ex:a" then some
    [⟨"did:ex:a#k2", .keyAgreement, ⟨"Ed25519VerificationKey2018", exKey, none⟩⟩,
     ⟨"did:ex:a#k1", .general, ⟨"Ed25519VerificationKey2018", exKey, none⟩⟩,
     ⟨"did:ex:a#k1", .assertionMethod, ⟨"Ed25519VerificationKey2018", exKey, none⟩⟩]
  else none

example : (defaultChecker exPrim (vdrResolve exVdr)).checkJWT
    [("kid", .str "did:ex:a#k1"), ("alg", .str "EdDSA")] "did:ex:a" [1, 2] ([1, 2] ++ exKey) = .ok () := by
  rfl

example : (defaultChecker exPrim (vdrResolve exVdr)).checkJWT
    [("kid", .str "did:ex:a#k2"), ("alg", .str "EdDSA")] "did:ex:a" [1, 2] ([1, 2] ++ exKey) =
      .error .resolve := by rfl

example : (defaultChecker exPrim (vdrResolve exVdr)).checkJWT
    [("kid", .str "did:ex:a#k1"), ("alg", .str "ES256")] "did:ex:a" [1, 2] ([1, 2] ++ exKey) =
      .error .badMethod := by rfl

example : (defaultChecker exPrim (vdrResolve exVdr)).checkCWT (fun _ => none)
    ⟨"did:ex:a#k1", "", -8⟩ "did:ex:a" [1, 2] ([1, 2] ++ exKey) = .ok () := by rfl

example : (defaultChecker exPrim (vdrResolve exVdr)).checkLD
    ⟨"Ed25519Signature2018", some "did:ex:a#k1", []⟩ "did:ex:a" [1, 2] ([1, 2] ++ exKey) = .ok () := by
  rfl

end VC.Proof
