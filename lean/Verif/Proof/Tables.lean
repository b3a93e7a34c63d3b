import Verif.Proof.Props
/-!
# The default proof checker on linked data proofs and COSE messages (C118)

`default_jwt_iff` (C34) says exactly which JWTs the default checker accepts.  This file says the
same for linked data proofs (`CheckLDProof`) and for COSE messages (`CheckCWTProof`), and what
`FindIssuer` reads from a payload.
-/

namespace VC.Proof

/-! ## Specification -/

/-- The BBS+ public key bytes of a method: its raw bytes, or the bytes of its JWK. -/
def blsKey (p : Prim) (vm : VM) : Option Bytes :=
  match vm.jwk with
  | some j => p.jwkBytes j
  | none => some vm.value

/-- What each linked data proof type means: which verification methods it allows and which
primitive must accept. -/
inductive LdAccepts (p : Prim) (vm : VM) (nonce msg sig : Bytes) : String → Prop
  | bbs {k : Bytes} : TypedMethod "Bls12381G2Key2020" "EC" "BLS12381_G2" vm →
      blsKey p vm = some k → p.bbs k msg sig = true →
      LdAccepts p vm nonce msg sig "BbsBlsSignature2020"
  | bbsDerived {k : Bytes} : vm.type = "Bls12381G2Key2020" →
      (∀ j, vm.jwk = some j → j.kty = "" ∧ j.crv = "") →
      blsKey p vm = some k → p.bbsProof k msg nonce sig = true →
      LdAccepts p vm nonce msg sig "BbsBlsSignatureProof2020"
  | secp256k1 {k : Bytes} :
      TypedMethod "EcdsaSecp256k1VerificationKey2019" "EC" "secp256k1" vm →
      ecKey p .secp256k1 vm = some k → EcSig p .secp256k1 k msg sig →
      LdAccepts p vm nonce msg sig "EcdsaSecp256k1Signature2019"
  | ed2018 {k : Bytes} : TypedMethod "Ed25519VerificationKey2018" "OKP" "Ed25519" vm →
      edKey vm = some k → k.length = 32 → p.ed25519 k msg sig = true →
      LdAccepts p vm nonce msg sig "Ed25519Signature2018"
  | ed2020 {k : Bytes} : TypedMethod "Ed25519VerificationKey2020" "OKP" "Ed25519" vm ∨
        TypedMethod "Ed25519VerificationKey2018" "OKP" "Ed25519" vm →
      edKey vm = some k → k.length = 32 → p.ed25519 k msg sig = true →
      LdAccepts p vm nonce msg sig "Ed25519Signature2020"
  | jwsEd {k : Bytes} : JwkMethod "OKP" "Ed25519" vm → edKey vm = some k → k.length = 32 →
      p.ed25519 k msg sig = true → LdAccepts p vm nonce msg sig "JsonWebSignature2020"
  | jwsEc {crv : String} {c : Curve} {k : Bytes} :
      (crv, c) ∈ [("secp256k1", Curve.secp256k1), ("P-256", .p256), ("P-384", .p384),
        ("P-521", .p521)] →
      JwkMethod "EC" crv vm → ecKey p c vm = some k → EcSig p c k msg sig →
      LdAccepts p vm nonce msg sig "JsonWebSignature2020"
  | jwsRsa {k : Bytes} : JwkMethod "RSA" "" vm → rsaKey p vm = some k → p.pss k msg sig = true →
      LdAccepts p vm nonce msg sig "JsonWebSignature2020"

/-- The COSE algorithm numbers the default checker knows, with the JOSE names of the same
algorithms. -/
inductive CoseAlg : Int → String → Prop
  | eddsa : CoseAlg (-8) "EdDSA"
  | es256 : CoseAlg (-7) "ES256"
  | es384 : CoseAlg (-35) "ES384"
  | rs256 : CoseAlg (-257) "RS256"
  | ps256 : CoseAlg (-37) "PS256"

/-- The key types that belong to an algorithm. -/
def algKeyTypes (alg : String) : List KeyType :=
  if alg = "EdDSA" then [.ed25519]
  else if alg = "ES256" then [.p256P1363, .p256DER]
  else if alg = "ES384" then [.p384P1363, .p384DER]
  else if alg = "RS256" then [.rsaRS256]
  else if alg = "PS256" then [.rsaPS256]
  else []

/-- A value lies under a path of object members. -/
inductive Under : Json → List String → Json → Prop
  | here (v : Json) : Under v [] v
  | step {o : JObj} {k : String} {v w : Json} {ks : List String} : GoMap.get? o k = some v →
      Under v ks w → Under (.obj o) (k :: ks) w

/-- The places an issuer may be written, in the order they are looked at. -/
def issuerPaths : List (List String) :=
  [["vc", "issuer", "id"], ["vc", "issuer"], ["issuer", "id"], ["issuer"], ["iss"]]

/-! ## Tables in general -/

/-- The tail of the linked data check when the entries of the table may have different verifiers:
`R s` is what acceptance means for the entry `s`. -/
theorem tail_iff (vs : List SigVerifier) (vms : List Supported) (vm : VM) (msg sig : Bytes)
    (R : Supported → Prop)
    (hv : ∀ s ∈ vms, methodMatches s vm = true →
      ∃ v, getSignatureVerifier vs s.keyType = some v ∧
      (v.verify sig msg ⟨s.keyType, keyOf vm⟩ = true ↔ R s))
    (hR : ∀ s ∈ vms, ∀ t ∈ vms, methodMatches s vm = true → methodMatches t vm = true →
      R s → R t) :
    verifyWith vs vms vm msg sig = .ok () ↔ ∃ s ∈ vms, methodMatches s vm = true ∧ R s := by
  unfold verifyWith
  induction vms with
  | nil => simp [convertToPublicKey]
  | cons s ss ih =>
    unfold convertToPublicKey
    by_cases hm : methodMatches s vm = true
    · obtain ⟨v, h1, h2⟩ := hv s List.mem_cons_self hm
      simp only [hm, if_true, createPublicKey_eq, h1]
      by_cases hr : R s
      · simp only [h2.mpr hr, if_true, true_iff]
        exact ⟨s, List.mem_cons_self, hm, hr⟩
      · have hf : ¬ v.verify sig msg ⟨s.keyType, keyOf vm⟩ = true := fun e => hr (h2.mp e)
        simp only [hf, Bool.false_eq_true, if_false, reduceCtorEq, false_iff]
        rintro ⟨t, ht, htm, htr⟩
        exact hr (hR t ht s List.mem_cons_self htm hm htr)
    · simp only [hm, Bool.false_eq_true, if_false]
      refine (ih (fun t ht => hv t (List.mem_cons_of_mem _ ht))
        (fun a ha b hb => hR a (List.mem_cons_of_mem _ ha) b (List.mem_cons_of_mem _ hb))).trans ?_
      constructor
      · rintro ⟨t, ht, h⟩; exact ⟨t, List.mem_cons_of_mem _ ht, h⟩
      · rintro ⟨t, ht, h⟩
        rcases List.mem_cons.mp ht with rfl | ht
        · exact absurd h.1 hm
        · exact ⟨t, ht, h⟩

theorem blsKey_eq (p : Prim) (vm : VM) : blsKey p vm =
    (match keyOf vm with | .inl b => some b | .inr j => p.jwkBytes j) := by
  unfold blsKey keyOf
  cases vm.jwk <;> rfl

theorem bbs_iff (p : Prim) (vm : VM) (sig msg : Bytes) :
    (bbsVerifier p).verify sig msg ⟨.bls12381g2, keyOf vm⟩ = true ↔
      ∃ k, blsKey p vm = some k ∧ p.bbs k msg sig = true := by
  unfold bbsVerifier
  rw [blsKey_eq]
  simp only [ne_eq, not_true_eq_false, if_false]
  cases keyOf vm with
  | inl b => simp
  | inr j => simp only; cases p.jwkBytes j <;> simp

theorem bbsProof_iff (p : Prim) (vm : VM) (sig msg nonce : Bytes) (kt : KeyType) :
    bbsProofVerifier p sig msg ⟨kt, keyOf vm⟩ nonce = true ↔
      ∃ k, blsKey p vm = some k ∧ p.bbsProof k msg nonce sig = true := by
  unfold bbsProofVerifier
  rw [blsKey_eq]
  cases keyOf vm with
  | inl b => simp
  | inr j => simp only; cases p.jwkBytes j <;> simp

/-- The step after the lookup of the proof type (checker.go:160-178). -/
def ldTail (vs : List SigVerifier) (d : LdDesc) (vm : VM) (nonce msg sig : Bytes) :
    Except Err Unit :=
  match convertToPublicKey d.vms vm with
  | none => .error .badMethod
  | some pk =>
    match d.ex with
    | some ex => if ex sig msg pk nonce then .ok () else .error .signature
    | none =>
      match getSignatureVerifier vs pk.type with
      | none => .error .noVerifier
      | some v => if v.verify sig msg pk then .ok () else .error .signature

theorem ldTail_none (vs : List SigVerifier) (ty : String) (vms : List Supported) (vm : VM)
    (nonce msg sig : Bytes) :
    ldTail vs ⟨ty, vms, none⟩ vm nonce msg sig = verifyWith vs vms vm msg sig := rfl

/-- The rows of `JsonWebSignature2020`: what each means. -/
theorem jws_rows (p : Prim) (vm : VM) (nonce msg sig : Bytes) (d : LdDesc)
    (hd : byType (defaultLd p) "JsonWebSignature2020" = some d) :
    verifyWith (defaultVerifiers p) d.vms vm msg sig = .ok () ↔
      LdAccepts p vm nonce msg sig "JsonWebSignature2020" := by
  have hs := standard_default p
  have hd' : d = ⟨"JsonWebSignature2020",
    [⟨"JsonWebKey2020", .ed25519, "OKP", "Ed25519", true⟩,
     ⟨"JsonWebKey2020", .secp256k1P1363, "EC", "secp256k1", true⟩,
     ⟨"JsonWebKey2020", .secp256k1DER, "EC", "secp256k1", true⟩,
     ⟨"JsonWebKey2020", .rsaPS256, "RSA", "", true⟩,
     ⟨"JsonWebKey2020", .p256P1363, "EC", "P-256", true⟩,
     ⟨"JsonWebKey2020", .p256DER, "EC", "P-256", true⟩,
     ⟨"JsonWebKey2020", .p384P1363, "EC", "P-384", true⟩,
     ⟨"JsonWebKey2020", .p384DER, "EC", "P-384", true⟩,
     ⟨"JsonWebKey2020", .p521P1363, "EC", "P-521", true⟩,
     ⟨"JsonWebKey2020", .p521DER, "EC", "P-521", true⟩], none⟩ := (Option.some.inj hd).symm
  subst hd'
  let E : Prop := ∃ k, edKey vm = some k ∧ k.length = 32 ∧ p.ed25519 k msg sig = true
  let C : Curve → Prop := fun c => ∃ k, ecKey p c vm = some k ∧ EcSig p c k msg sig
  let A : Prop := ∃ k, rsaKey p vm = some k ∧ p.pss k msg sig = true
  -- meaning of a row, by its curve
  let R : Supported → Prop := fun s =>
    (s.crv = "Ed25519" → E) ∧ (s.crv = "secp256k1" → C .secp256k1) ∧ (s.crv = "" → A) ∧
    (s.crv = "P-256" → C .p256) ∧ (s.crv = "P-384" → C .p384) ∧ (s.crv = "P-521" → C .p521)
  refine (tail_iff (defaultVerifiers p) _ vm msg sig R ?_ ?_).trans ?_
  · intro s hs' hm
    simp only [List.mem_cons, List.not_mem_nil, or_false] at hs'
    have ed : ∃ v, getSignatureVerifier (defaultVerifiers p) .ed25519 = some v ∧
        (v.verify sig msg ⟨.ed25519, keyOf vm⟩ = true ↔ E) := ⟨_, hs.1, ed_iff p vm sig msg⟩
    have rs : ∃ v, getSignatureVerifier (defaultVerifiers p) .rsaPS256 = some v ∧
        (v.verify sig msg ⟨.rsaPS256, keyOf vm⟩ = true ↔ A) :=
      ⟨_, hs.2.1, rsa_iff p _ _ vm sig msg⟩
    have ec := fun c kt h => ec_step p (defaultVerifiers p) hs c vm msg sig kt h
    have conv : ∀ {kt : KeyType} {P Q : Prop}, (P ↔ Q) →
        (∃ v, getSignatureVerifier (defaultVerifiers p) kt = some v ∧
          (v.verify sig msg ⟨kt, keyOf vm⟩ = true ↔ P)) →
        ∃ v, getSignatureVerifier (defaultVerifiers p) kt = some v ∧
          (v.verify sig msg ⟨kt, keyOf vm⟩ = true ↔ Q) :=
      fun h ⟨v, a, b⟩ => ⟨v, a, b.trans h⟩
    rcases hs' with rfl | rfl | rfl | rfl | rfl | rfl | rfl | rfl | rfl | rfl
    · exact conv (by simp [R]) ed
    · exact conv (by simp [R, C]) (ec .secp256k1 _ (by simp [Curve.keyTypes]))
    · exact conv (by simp [R, C]) (ec .secp256k1 _ (by simp [Curve.keyTypes]))
    · exact conv (by simp [R]) rs
    · exact conv (by simp [R, C]) (ec .p256 _ (by simp [Curve.keyTypes]))
    · exact conv (by simp [R, C]) (ec .p256 _ (by simp [Curve.keyTypes]))
    · exact conv (by simp [R, C]) (ec .p384 _ (by simp [Curve.keyTypes]))
    · exact conv (by simp [R, C]) (ec .p384 _ (by simp [Curve.keyTypes]))
    · exact conv (by simp [R, C]) (ec .p521 _ (by simp [Curve.keyTypes]))
    · exact conv (by simp [R, C]) (ec .p521 _ (by simp [Curve.keyTypes]))
  · intro s hs1 t ht1 h1 h2 h
    have e1 := (methodMatches_iff s vm).mp h1
    have e2 := (methodMatches_iff t vm).mp h2
    have req : ∀ u : Supported, u ∈ ([⟨"JsonWebKey2020", .ed25519, "OKP", "Ed25519", true⟩,
     ⟨"JsonWebKey2020", .secp256k1P1363, "EC", "secp256k1", true⟩,
     ⟨"JsonWebKey2020", .secp256k1DER, "EC", "secp256k1", true⟩,
     ⟨"JsonWebKey2020", .rsaPS256, "RSA", "", true⟩,
     ⟨"JsonWebKey2020", .p256P1363, "EC", "P-256", true⟩,
     ⟨"JsonWebKey2020", .p256DER, "EC", "P-256", true⟩,
     ⟨"JsonWebKey2020", .p384P1363, "EC", "P-384", true⟩,
     ⟨"JsonWebKey2020", .p384DER, "EC", "P-384", true⟩,
     ⟨"JsonWebKey2020", .p521P1363, "EC", "P-521", true⟩,
     ⟨"JsonWebKey2020", .p521DER, "EC", "P-521", true⟩] : List Supported) →
        u.requireJWK = true := by
      intro u hu
      simp only [List.mem_cons, List.not_mem_nil, or_false] at hu
      rcases hu with rfl | rfl | rfl | rfl | rfl | rfl | rfl | rfl | rfl | rfl <;> rfl
    cases hj : vm.jwk with
    | none => exact absurd hj (e1.2.1 (req s hs1))
    | some j =>
      have c1 := (e1.2.2 j hj).2
      have c2 := (e2.2.2 j hj).2
      have e : t.crv = s.crv := c2.symm.trans c1
      simp only [R] at h ⊢
      rw [e]; exact h
  · constructor
    · rintro ⟨s, hs', hm, hr⟩
      obtain ⟨a, b, c⟩ := (methodMatches_iff _ _).mp hm
      have jm : s.vmType = "JsonWebKey2020" → s.requireJWK = true → JwkMethod s.kty s.crv vm := by
        intro e1 e2
        refine ⟨by rw [← a, e1], ?_⟩
        cases hj : vm.jwk with
        | none => exact absurd hj (b e2)
        | some j => exact ⟨j, rfl, c j hj⟩
      simp only [List.mem_cons, List.not_mem_nil, or_false] at hs'
      rcases hs' with rfl | rfl | rfl | rfl | rfl | rfl | rfl | rfl | rfl | rfl
      · obtain ⟨k, h1, h2, h3⟩ := hr.1 rfl
        exact .jwsEd (jm rfl rfl) h1 h2 h3
      · obtain ⟨k, h1, h2⟩ := hr.2.1 rfl
        exact .jwsEc (by simp) (jm rfl rfl) h1 h2
      · obtain ⟨k, h1, h2⟩ := hr.2.1 rfl
        exact .jwsEc (by simp) (jm rfl rfl) h1 h2
      · obtain ⟨k, h1, h2⟩ := hr.2.2.1 rfl
        exact .jwsRsa (jm rfl rfl) h1 h2
      · obtain ⟨k, h1, h2⟩ := hr.2.2.2.1 rfl
        exact .jwsEc (by simp) (jm rfl rfl) h1 h2
      · obtain ⟨k, h1, h2⟩ := hr.2.2.2.1 rfl
        exact .jwsEc (by simp) (jm rfl rfl) h1 h2
      · obtain ⟨k, h1, h2⟩ := hr.2.2.2.2.1 rfl
        exact .jwsEc (by simp) (jm rfl rfl) h1 h2
      · obtain ⟨k, h1, h2⟩ := hr.2.2.2.2.1 rfl
        exact .jwsEc (by simp) (jm rfl rfl) h1 h2
      · obtain ⟨k, h1, h2⟩ := hr.2.2.2.2.2 rfl
        exact .jwsEc (by simp) (jm rfl rfl) h1 h2
      · obtain ⟨k, h1, h2⟩ := hr.2.2.2.2.2 rfl
        exact .jwsEc (by simp) (jm rfl rfl) h1 h2
    · intro h
      have mm : ∀ (kt : KeyType) (kty crv : String), JwkMethod kty crv vm →
          methodMatches ⟨"JsonWebKey2020", kt, kty, crv, true⟩ vm = true := by
        rintro kt kty crv ⟨a, j, b, c, d⟩
        exact (methodMatches_iff _ _).mpr ⟨a.symm, by simp [b], fun j' hj' => by
          rw [b] at hj'; cases hj'; exact ⟨c, d⟩⟩
      generalize e : "JsonWebSignature2020" = ty at h
      cases h with
      | bbs | bbsDerived | secp256k1 | ed2018 | ed2020 => exact absurd e (by decide)
      | jwsEd a b c d =>
        exact ⟨⟨"JsonWebKey2020", .ed25519, "OKP", "Ed25519", true⟩, by simp, mm _ _ _ a,
          by simp only [R]; exact ⟨fun _ => ⟨_, b, c, d⟩, by simp, by simp, by simp, by simp, by simp⟩⟩
      | jwsRsa a b c =>
        exact ⟨⟨"JsonWebKey2020", .rsaPS256, "RSA", "", true⟩, by simp, mm _ _ _ a,
          by simp only [R]; exact ⟨by simp, by simp, fun _ => ⟨_, b, c⟩, by simp, by simp, by simp⟩⟩
      | jwsEc hc a b c =>
        simp only [List.mem_cons, List.not_mem_nil, or_false, Prod.mk.injEq] at hc
        rcases hc with ⟨rfl, rfl⟩ | ⟨rfl, rfl⟩ | ⟨rfl, rfl⟩ | ⟨rfl, rfl⟩
        · exact ⟨⟨"JsonWebKey2020", .secp256k1P1363, "EC", "secp256k1", true⟩, by simp, mm _ _ _ a,
            by simp only [R]; exact ⟨by simp, fun _ => ⟨_, b, c⟩, by simp, by simp, by simp, by simp⟩⟩
        · exact ⟨⟨"JsonWebKey2020", .p256P1363, "EC", "P-256", true⟩, by simp, mm _ _ _ a,
            by simp only [R]; exact ⟨by simp, by simp, by simp, fun _ => ⟨_, b, c⟩, by simp, by simp⟩⟩
        · exact ⟨⟨"JsonWebKey2020", .p384P1363, "EC", "P-384", true⟩, by simp, mm _ _ _ a,
            by simp only [R]; exact ⟨by simp, by simp, by simp, by simp, fun _ => ⟨_, b, c⟩, by simp⟩⟩
        · exact ⟨⟨"JsonWebKey2020", .p521P1363, "EC", "P-521", true⟩, by simp, mm _ _ _ a,
            by simp only [R]; exact ⟨by simp, by simp, by simp, by simp, by simp, fun _ => ⟨_, b, c⟩⟩⟩

theorem ldTail_iff (p : Prim) (ty : String) (vm : VM) (nonce msg sig : Bytes) :
    (∃ d, byType (defaultLd p) ty = some d ∧
      ldTail (defaultVerifiers p) d vm nonce msg sig = .ok ()) ↔
      LdAccepts p vm nonce msg sig ty := by
  have hs := standard_default p
  by_cases h1 : ty = "BbsBlsSignature2020"
  · subst h1
    refine Iff.trans (b := verifyWith (defaultVerifiers p)
      [⟨"Bls12381G2Key2020", .bls12381g2, "EC", "BLS12381_G2", false⟩,
       ⟨"JsonWebKey2020", .bls12381g2, "EC", "BLS12381_G2", true⟩] vm msg sig = .ok ()) ?_ ?_
    · exact ⟨fun ⟨d, hd, h⟩ => by cases hd; exact h, fun h => ⟨_, rfl, h⟩⟩
    refine (verifyWith_iff _ _ vm msg sig (TypedMethod "Bls12381G2Key2020" "EC" "BLS12381_G2")
      [.bls12381g2] (∃ k, blsKey p vm = some k ∧ p.bbs k msg sig = true)
      (typed_iff _ _ _ [("Bls12381G2Key2020", .bls12381g2, false),
        ("JsonWebKey2020", .bls12381g2, true)] vm (by simp) (by simp) (by simp)) (by simp)
      (by
        intro kt hk
        simp only [List.mem_cons, List.not_mem_nil, or_false] at hk
        subst hk
        exact ⟨bbsVerifier p, rfl, bbs_iff p vm sig msg⟩)).trans ?_
    constructor
    · rintro ⟨a, k, b, c⟩; exact .bbs a b c
    · intro h; generalize e : "BbsBlsSignature2020" = a at h
      cases h with
      | bbs a b c => exact ⟨a, _, b, c⟩
      | _ => exact absurd e (by decide)
  by_cases h2 : ty = "BbsBlsSignatureProof2020"
  · subst h2
    constructor
    · rintro ⟨d, hd, h⟩
      cases hd
      simp only [ldTail] at h
      cases hc : convertToPublicKey [⟨"Bls12381G2Key2020", .bls12381g2, "", "", false⟩] vm with
      | none => rw [hc] at h; cases h
      | some pk =>
        rw [hc] at h
        dsimp only at h
        obtain ⟨⟨s, hs', a, b, _, d⟩, e⟩ := convert_sound hc
        simp only [List.mem_cons, List.not_mem_nil, or_false] at hs'
        subst hs'
        have hpk : pk = ⟨pk.type, keyOf vm⟩ := by
          cases pk; simp only [PubKey.mk.injEq, true_and]; exact e
        by_cases hv : bbsProofVerifier p sig msg pk nonce = true
        · rw [hpk] at hv
          obtain ⟨k, k1, k2⟩ := (bbsProof_iff p vm sig msg nonce pk.type).mp hv
          exact .bbsDerived a.symm d k1 k2
        · rw [if_neg hv] at h; cases h
    · intro h
      generalize e : "BbsBlsSignatureProof2020" = a at h
      cases h with
      | bbsDerived a b c d =>
        refine ⟨_, rfl, ?_⟩
        simp only [ldTail]
        have hm : methodMatches ⟨"Bls12381G2Key2020", .bls12381g2, "", "", false⟩ vm = true :=
          (methodMatches_iff _ _).mpr ⟨a.symm, by simp, b⟩
        have hc : convertToPublicKey [⟨"Bls12381G2Key2020", .bls12381g2, "", "", false⟩] vm =
            some ⟨.bls12381g2, keyOf vm⟩ := by
          unfold convertToPublicKey
          rw [if_pos hm, createPublicKey_eq]
        rw [hc]
        dsimp only
        rw [if_pos ((bbsProof_iff p vm sig msg nonce _).mpr ⟨_, c, d⟩)]
      | _ => exact absurd e (by decide)
  by_cases h3 : ty = "EcdsaSecp256k1Signature2019"
  · subst h3
    refine Iff.trans (b := verifyWith (defaultVerifiers p) es256kDesc.vms vm msg sig = .ok ()) ?_ ?_
    · exact ⟨fun ⟨d, hd, h⟩ => by cases hd; exact h, fun h => ⟨_, rfl, h⟩⟩
    refine (default_alg_iff p _ hs "ES256K" vm msg sig).trans ?_
    constructor
    · intro h; generalize e : "ES256K" = a at h
      cases h with
      | es256k a b c => exact .secp256k1 a b c
      | _ => exact absurd e (by decide)
    · intro h; generalize e : "EcdsaSecp256k1Signature2019" = a at h
      cases h with
      | secp256k1 a b c => exact .es256k a b c
      | _ => exact absurd e (by decide)
  by_cases h4 : ty = "Ed25519Signature2018"
  · subst h4
    refine Iff.trans (b := verifyWith (defaultVerifiers p) eddsaDesc.vms vm msg sig = .ok ()) ?_ ?_
    · exact ⟨fun ⟨d, hd, h⟩ => by cases hd; exact h, fun h => ⟨_, rfl, h⟩⟩
    refine (default_alg_iff p _ hs "EdDSA" vm msg sig).trans ?_
    constructor
    · intro h; generalize e : "EdDSA" = a at h
      cases h with
      | eddsa a b c d => exact .ed2018 a b c d
      | _ => exact absurd e (by decide)
    · intro h; generalize e : "Ed25519Signature2018" = a at h
      cases h with
      | ed2018 a b c d => exact .eddsa a b c d
      | _ => exact absurd e (by decide)
  by_cases h5 : ty = "Ed25519Signature2020"
  · subst h5
    let vms : List Supported := [⟨"Ed25519VerificationKey2020", .ed25519, "OKP", "Ed25519", false⟩,
     ⟨"Ed25519VerificationKey2018", .ed25519, "OKP", "Ed25519", false⟩,
     ⟨"JsonWebKey2020", .ed25519, "OKP", "Ed25519", true⟩]
    refine Iff.trans (b := verifyWith (defaultVerifiers p) vms vm msg sig = .ok ()) ?_ ?_
    · exact ⟨fun ⟨d, hd, h⟩ => by cases hd; exact h, fun h => ⟨_, rfl, h⟩⟩
    refine (verifyWith_iff _ _ vm msg sig
      (fun vm => TypedMethod "Ed25519VerificationKey2020" "OKP" "Ed25519" vm ∨
        TypedMethod "Ed25519VerificationKey2018" "OKP" "Ed25519" vm)
      [.ed25519] (∃ k, edKey vm = some k ∧ k.length = 32 ∧ p.ed25519 k msg sig = true)
      ?_ (by simp [vms])
      (by
        intro kt hk
        simp only [List.mem_cons, List.not_mem_nil, or_false] at hk
        subst hk
        exact ⟨_, hs.1, ed_iff p vm sig msg⟩)).trans ?_
    · have t1 := typed_iff "Ed25519VerificationKey2020" "OKP" "Ed25519"
        [("Ed25519VerificationKey2020", .ed25519, false), ("JsonWebKey2020", .ed25519, true)] vm
        (by simp) (by simp) (by simp)
      have t2 := typed_iff "Ed25519VerificationKey2018" "OKP" "Ed25519"
        [("Ed25519VerificationKey2018", .ed25519, false), ("JsonWebKey2020", .ed25519, true)] vm
        (by simp) (by simp) (by simp)
      constructor
      · rintro (h | h)
        · obtain ⟨s, hs', hm⟩ := t1.mp h
          refine ⟨s, ?_, hm⟩
          simp only [List.map_cons, List.map_nil, List.mem_cons, List.not_mem_nil, or_false] at hs'
          rcases hs' with rfl | rfl <;> simp [vms]
        · obtain ⟨s, hs', hm⟩ := t2.mp h
          refine ⟨s, ?_, hm⟩
          simp only [List.map_cons, List.map_nil, List.mem_cons, List.not_mem_nil, or_false] at hs'
          rcases hs' with rfl | rfl <;> simp [vms]
      · rintro ⟨s, hs', hm⟩
        simp only [vms, List.mem_cons, List.not_mem_nil, or_false] at hs'
        rcases hs' with rfl | rfl | rfl
        · exact Or.inl (t1.mpr ⟨_, by simp, hm⟩)
        · exact Or.inr (t2.mpr ⟨⟨"Ed25519VerificationKey2018", .ed25519, "OKP", "Ed25519", false⟩,
            by simp, hm⟩)
        · exact Or.inl (t1.mpr ⟨⟨"JsonWebKey2020", .ed25519, "OKP", "Ed25519", true⟩,
            by simp, hm⟩)
    · constructor
      · rintro ⟨a, k, b, c, d⟩; exact .ed2020 a b c d
      · intro h; generalize e : "Ed25519Signature2020" = a at h
        cases h with
        | ed2020 a b c d => exact ⟨a, _, b, c, d⟩
        | _ => exact absurd e (by decide)
  by_cases h6 : ty = "JsonWebSignature2020"
  · subst h6
    refine Iff.trans ?_ (jws_rows p vm nonce msg sig _ rfl)
    exact ⟨fun ⟨d, hd, h⟩ => by cases hd; exact h, fun h => ⟨_, rfl, h⟩⟩
  constructor
  · rintro ⟨d, hd, _⟩
    obtain ⟨hm, ht⟩ := byType_sound hd
    simp only [defaultLd, List.mem_cons, List.not_mem_nil, or_false] at hm
    rcases hm with rfl | rfl | rfl | rfl | rfl | rfl
    · exact absurd ht.symm h1
    · exact absurd ht.symm h3
    · exact absurd ht.symm h4
    · exact absurd ht.symm h5
    · exact absurd ht.symm h6
    · exact absurd ht.symm h2
  · intro h
    cases h with
    | bbs => exact absurd rfl h1
    | bbsDerived => exact absurd rfl h2
    | secp256k1 => exact absurd rfl h3
    | ed2018 => exact absurd rfl h4
    | ed2020 => exact absurd rfl h5
    | jwsEd | jwsEc | jwsRsa => exact absurd rfl h6

/-! ## C118: linked data proofs -/

/-- C118: the default proof checker accepts a linked data proof exactly when the proof names a key,
the key resolves for the expected issuer, and the proof type accepts the signature with that key;
any other proof type is refused. -/
theorem default_ld_iff (p : Prim) (resolve : String → String → Except Unit VM) (pr : LdProof)
    (issuer : String) (msg sig : Bytes) :
    (defaultChecker p resolve).checkLD pr issuer msg sig = .ok () ↔
      ∃ kid vm, pr.publicKeyID = some kid ∧ resolve kid issuer = .ok vm ∧
        LdAccepts p vm pr.nonce msg sig pr.type := by
  unfold Checker.checkLD
  cases hk : pr.publicKeyID with
  | none => simp
  | some kid =>
    cases hr : resolve kid issuer with
    | error e =>
      simp only [defaultChecker, hr, reduceCtorEq, false_iff]
      rintro ⟨kid', vm, h1, h2, _⟩
      cases h1; rw [hr] at h2; cases h2
    | ok vm =>
      have key := ldTail_iff p pr.type vm pr.nonce msg sig
      simp only [defaultChecker, hr]
      constructor
      · intro h
        refine ⟨kid, vm, rfl, hr, key.mp ?_⟩
        cases hb : byType (defaultLd p) pr.type with
        | none => rw [hb] at h; cases h
        | some d => rw [hb] at h; exact ⟨d, rfl, h⟩
      · rintro ⟨kid', vm', h1, h2, h3⟩
        cases h1; rw [hr] at h2; cases h2
        obtain ⟨d, hd, h⟩ := key.mpr h3
        rw [hd]; exact h

/-- C118, consequence: a `JsonWebSignature2020` proof by an RSA key is accepted only with a PSS
signature; a PKCS#1 v1.5 signature (the `RS256` of JWTs) never is. -/
theorem jws2020_rsa_only_pss (p : Prim) (vm : VM) (j : Jwk) (hj : vm.jwk = some j)
    (hk : j.kty = "RSA") (nonce msg sig : Bytes)
    (h : LdAccepts p vm nonce msg sig "JsonWebSignature2020") :
    ∃ k, rsaKey p vm = some k ∧ p.pss k msg sig = true := by
  generalize e : "JsonWebSignature2020" = ty at h
  have no : ∀ {kty crv : String}, JwkMethod kty crv vm → kty = "RSA" := by
    rintro kty crv ⟨_, j', h1, h2, _⟩
    rw [hj] at h1; cases h1; rw [← h2, hk]
  cases h with
  | jwsEd a => exact absurd (no a) (by decide)
  | jwsEc _ a => exact absurd (no a) (by decide)
  | jwsRsa _ b c => exact ⟨_, b, c⟩
  | _ => exact absurd e (by decide)

/-- C118, consequence (a limitation of the code): a derived BBS+ proof is never accepted under a
verification method of type `JsonWebKey2020`, nor under one whose JWK declares the BLS curve,
although the signature it was derived from is accepted under both. -/
theorem derived_refuses_jwk (p : Prim) (vm : VM) (nonce msg sig : Bytes)
    (h : LdAccepts p vm nonce msg sig "BbsBlsSignatureProof2020") :
    vm.type ≠ "JsonWebKey2020" ∧ ∀ j, vm.jwk = some j → j.crv ≠ "BLS12381_G2" := by
  generalize e : "BbsBlsSignatureProof2020" = ty at h
  cases h with
  | bbsDerived a b =>
    refine ⟨by rw [a]; decide, fun j hj => ?_⟩
    rw [(b j hj).2]; decide
  | _ => exact absurd e (by decide)

/-! ## C118: COSE messages -/

theorem byCwtAlg_iff (a : Int) (h0 : a ≠ 0) (d : JwtDesc) :
    byCwtAlg defaultJwt a = some d ↔ (∃ alg, CoseAlg a alg ∧ byAlg defaultJwt alg = some d) := by
  constructor
  · intro h
    obtain ⟨hm, rfl⟩ := byCwtAlg_sound h
    simp only [defaultJwt, List.mem_cons, List.not_mem_nil, or_false] at hm
    rcases hm with rfl | rfl | rfl | rfl | rfl | rfl | rfl
    · exact ⟨_, .eddsa, rfl⟩
    · exact ⟨_, .es256, rfl⟩
    · exact absurd rfl h0
    · exact ⟨_, .es384, rfl⟩
    · exact absurd rfl h0
    · exact ⟨_, .rs256, rfl⟩
    · exact ⟨_, .ps256, rfl⟩
  · rintro ⟨alg, hc, hd⟩
    cases hc <;> (rw [← hd]; rfl)

/-- C118: the default proof checker accepts a COSE message that names a key id exactly when the key
resolves for the expected issuer and the algorithm is one of the five known ones and accepts the
signature with that key. -/
theorem default_cwt_kid_iff (p : Prim) (resolve : String → String → Except Unit VM)
    (coseKey : String → Option (Jwk × KeyType)) (r : CwtReq) (hk : r.keyID ≠ "")
    (issuer : String) (msg sig : Bytes) :
    (defaultChecker p resolve).checkCWT coseKey r issuer msg sig = .ok () ↔
      ∃ vm alg, resolve r.keyID issuer = .ok vm ∧ CoseAlg r.algo alg ∧
        AlgAccepts p vm msg sig alg := by
  unfold Checker.checkCWT
  rw [if_neg (fun h => hk h.1)]
  by_cases h0 : r.algo = 0
  · rw [if_pos h0]
    simp only [reduceCtorEq, false_iff]
    rintro ⟨vm, alg, _, h, _⟩
    rw [h0] at h; generalize e : (0 : Int) = z at h; cases h <;> exact absurd e (by decide)
  rw [if_neg h0, if_pos hk]
  unfold Checker.checkCWTByKeyID
  simp only [defaultChecker]
  cases hr : resolve r.keyID issuer with
  | error e => simp
  | ok vm =>
    have acc := fun alg => default_alg_iff p (defaultVerifiers p) (standard_default p) alg vm msg sig
    simp only [checkAlg] at acc
    simp only
    constructor
    · intro h
      cases hb : byCwtAlg defaultJwt r.algo with
      | none => rw [hb] at h; cases h
      | some d =>
        rw [hb] at h
        obtain ⟨alg, hc, hd⟩ := (byCwtAlg_iff _ h0 d).mp hb
        refine ⟨vm, alg, rfl, hc, (acc alg).mp ?_⟩
        rw [hd]; exact h
    · rintro ⟨vm', alg, h1, hc, ha⟩
      cases h1
      have h := (acc alg).mpr ha
      cases hd : byAlg defaultJwt alg with
      | none => rw [hd] at h; cases h
      | some d =>
        rw [hd] at h
        rw [(byCwtAlg_iff _ h0 d).mpr ⟨alg, hc, hd⟩]
        exact h

/-- The table of an algorithm contains only key types of that algorithm, and for them the default
verifiers have one verifier. -/
theorem cose_family (p : Prim) {a : Int} {alg : String} (hc : CoseAlg a alg) {d : JwtDesc}
    (hd : byAlg defaultJwt alg = some d) :
    ∃ v, (∀ kt ∈ algKeyTypes alg, getSignatureVerifier (defaultVerifiers p) kt = some v) ∧
      (∀ s ∈ d.vms, s.keyType ∈ algKeyTypes alg) ∧
      ∀ kt ∉ algKeyTypes alg, ∀ v', getSignatureVerifier (defaultVerifiers p) kt = some v' →
        ∀ kt' ∈ algKeyTypes alg, ∀ sig msg key, v'.verify sig msg ⟨kt', key⟩ = false := by
  have gen : ∀ (kt kt' : KeyType) (v' : SigVerifier),
      getSignatureVerifier (defaultVerifiers p) kt = some v' → v'.supports kt' = false →
      ∀ sig msg key, v'.verify sig msg ⟨kt', key⟩ = false := by
    intro kt kt' v' h hn sig msg key
    have hm := (getVerifier_sound h).1
    simp only [defaultVerifiers, List.mem_cons, List.not_mem_nil, or_false] at hm
    have ecn : ∀ c : Curve, (ecdsaVerifier p c).supports kt' = false →
        (ecdsaVerifier p c).verify sig msg ⟨kt', key⟩ = false := by
      intro c hs
      simp only [ecdsaVerifier] at hs ⊢
      rw [if_pos (by rw [hs]; rfl)]
    have rsn : ∀ kt0 prim, (rsaVerifier p kt0 prim).supports kt' = false →
        (rsaVerifier p kt0 prim).verify sig msg ⟨kt', key⟩ = false := by
      intro kt0 prim hs
      simp only [rsaVerifier, beq_eq_false_iff_ne] at hs ⊢
      rw [if_pos hs]
    rcases hm with rfl | rfl | rfl | rfl | rfl | rfl | rfl | rfl
    · simp only [ed25519Verifier, beq_eq_false_iff_ne] at hn ⊢
      rw [if_pos hn]
    · simp only [bbsVerifier, beq_eq_false_iff_ne] at hn ⊢
      rw [if_pos hn]
    · exact rsn _ _ hn
    · exact rsn _ _ hn
    · exact ecn _ hn
    · exact ecn _ hn
    · exact ecn _ hn
    · exact ecn _ hn
  -- a verifier found for a key type outside the family supports nothing of the family
  have sep : ∀ (kt kt' : KeyType) (v' : SigVerifier), kt' ∈ algKeyTypes alg →
      kt ∉ algKeyTypes alg → getSignatureVerifier (defaultVerifiers p) kt = some v' →
      v'.supports kt' = false := by
    intro kt kt' v' h1 h2 h3
    obtain ⟨hm, hsup⟩ := getVerifier_sound h3
    simp only [defaultVerifiers, List.mem_cons, List.not_mem_nil, or_false] at hm
    rcases hm with rfl | rfl | rfl | rfl | rfl | rfl | rfl | rfl <;>
      simp only [ed25519Verifier, bbsVerifier, rsaVerifier, ecdsaVerifier, beq_iff_eq,
        List.contains_iff_mem, Curve.keyTypes, List.mem_cons, List.not_mem_nil, or_false]
        at hsup ⊢ <;>
      (cases hc <;> simp only [algKeyTypes, String.reduceEq, if_true, if_false, List.mem_cons,
        List.not_mem_nil, or_false] at h1 h2 <;>
        (first
          | (subst hsup; rcases h1 with rfl | rfl <;> first | rfl | (exfalso; revert h2; decide))
          | (rcases hsup with rfl | rfl <;> rcases h1 with rfl | rfl <;>
              first | rfl | (exfalso; revert h2; decide))
          | (subst hsup; subst h1; first | rfl | (exfalso; revert h2; decide))
          | (rcases hsup with rfl | rfl <;> subst h1 <;>
              first | rfl | (exfalso; revert h2; decide))))
  have fin : ∀ v, (∀ kt ∈ algKeyTypes alg, getSignatureVerifier (defaultVerifiers p) kt = some v) →
      (∀ s ∈ d.vms, s.keyType ∈ algKeyTypes alg) → ∃ v,
      (∀ kt ∈ algKeyTypes alg, getSignatureVerifier (defaultVerifiers p) kt = some v) ∧
      (∀ s ∈ d.vms, s.keyType ∈ algKeyTypes alg) ∧
      ∀ kt ∉ algKeyTypes alg, ∀ v', getSignatureVerifier (defaultVerifiers p) kt = some v' →
        ∀ kt' ∈ algKeyTypes alg, ∀ sig msg key, v'.verify sig msg ⟨kt', key⟩ = false :=
    fun v h1 h2 => ⟨v, h1, h2, fun kt hk v' hv kt' hk' => gen kt kt' v' hv (sep kt kt' v' hk' hk hv)⟩
  cases hc
  · cases hd
    exact fin (ed25519Verifier p) (by simp [algKeyTypes]; rfl) (by simp [algKeyTypes, eddsaDesc])
  · cases hd
    exact fin (ecdsaVerifier p .p256) (by simp [algKeyTypes]; exact ⟨rfl, rfl⟩)
      (by simp [algKeyTypes, es256Desc])
  · cases hd
    exact fin (ecdsaVerifier p .p384) (by simp [algKeyTypes]; exact ⟨rfl, rfl⟩)
      (by simp [algKeyTypes, es384Desc])
  · cases hd
    exact fin (rsaVerifier p .rsaRS256 p.pkcs1v15) (by simp [algKeyTypes]; rfl)
      (by simp [algKeyTypes, rs256Desc])
  · cases hd
    exact fin (rsaVerifier p .rsaPS256 p.pss) (by simp [algKeyTypes]; rfl)
      (by simp [algKeyTypes, ps256Desc])

/-- C118: the default proof checker accepts a COSE message that carries its key instead of naming it
exactly when no issuer is expected, the key can be read, the key's own type belongs to the algorithm
and the algorithm accepts the signature with that key. -/
theorem default_cwt_key_iff (p : Prim) (resolve : String → String → Except Unit VM)
    (coseKey : String → Option (Jwk × KeyType)) (r : CwtReq) (hk : r.keyID = "")
    (hm : r.keyMaterial ≠ "") (issuer : String) (msg sig : Bytes) :
    (defaultChecker p resolve).checkCWT coseKey r issuer msg sig = .ok () ↔
      issuer = "" ∧ ∃ j kt alg, coseKey r.keyMaterial = some (j, kt) ∧ CoseAlg r.algo alg ∧
        kt ∈ algKeyTypes alg ∧ AlgAccepts p ⟨"JsonWebKey2020", [], some j⟩ msg sig alg := by
  unfold Checker.checkCWT
  rw [if_neg (fun h => hm h.2)]
  by_cases h0 : r.algo = 0
  · rw [if_pos h0]
    simp only [reduceCtorEq, false_iff]
    rintro ⟨_, j, kt, alg, _, h, _⟩
    rw [h0] at h; generalize e : (0 : Int) = z at h; cases h <;> exact absurd e (by decide)
  rw [if_neg h0, if_neg (fun h => h hk)]
  unfold Checker.checkCWTByCOSEKey
  by_cases hne : issuer ≠ ""
  · rw [if_pos hne]; simp [hne]
  rw [if_neg hne]
  have hi : issuer = "" := Classical.not_not.mp hne
  cases hck : coseKey r.keyMaterial with
  | none => simp
  | some jk =>
    obtain ⟨j, kt⟩ := jk
    simp only [defaultChecker, hi, true_and]
    let vm : VM := ⟨"JsonWebKey2020", [], some j⟩
    have acc := fun alg => default_alg_iff p (defaultVerifiers p) (standard_default p) alg vm msg sig
    simp only [checkAlg] at acc
    constructor
    · intro h
      cases hb : byCwtAlg defaultJwt r.algo with
      | none => rw [hb] at h; cases h
      | some d =>
        rw [hb] at h
        dsimp only at h
        obtain ⟨alg, hc, hd⟩ := (byCwtAlg_iff _ h0 d).mp hb
        obtain ⟨v, hv1, hv2, hv3⟩ := cose_family p hc hd
        cases hcv : convertToPublicKey d.vms vm with
        | none => rw [hcv] at h; cases h
        | some pk =>
          rw [hcv] at h
          dsimp only at h
          obtain ⟨⟨s, hs, _, hs2, _⟩, _⟩ := convert_sound hcv
          have hpk : pk.type ∈ algKeyTypes alg := hs2 ▸ hv2 s hs
          cases hg : getSignatureVerifier (defaultVerifiers p) kt with
          | none => rw [hg] at h; cases h
          | some v' =>
            rw [hg] at h
            dsimp only at h
            by_cases hkt : kt ∈ algKeyTypes alg
            · have hvv : v' = v := by
                have := hv1 kt hkt
                rw [hg] at this; exact Option.some.inj this
              subst hvv
              refine ⟨j, kt, alg, rfl, hc, hkt, (acc alg).mp ?_⟩
              rw [hd]
              simp only [verifyWith, hcv, hv1 _ hpk]
              exact h
            · have := hv3 kt hkt v' hg pk.type hpk sig msg pk.key
              rw [if_neg (by rw [this]; decide)] at h
              cases h
    · rintro ⟨j', kt', alg, h1, hc, hkt, ha⟩
      cases h1
      have h := (acc alg).mpr ha
      cases hd : byAlg defaultJwt alg with
      | none => rw [hd] at h; cases h
      | some d =>
        rw [hd] at h
        rw [(byCwtAlg_iff _ h0 d).mpr ⟨alg, hc, hd⟩]
        obtain ⟨v, hv1, hv2, hv3⟩ := cose_family p hc hd
        dsimp only at h ⊢
        unfold verifyWith at h
        cases hcv : convertToPublicKey d.vms vm with
        | none => rw [hcv] at h; cases h
        | some pk =>
          rw [hcv] at h
          dsimp only at h ⊢
          obtain ⟨⟨s, hs, _, hs2, _⟩, _⟩ := convert_sound hcv
          have hpk : pk.type ∈ algKeyTypes alg := hs2 ▸ hv2 s hs
          rw [hv1 _ hpk] at h
          rw [hv1 _ hkt]
          exact h

/-- C118, consequence: a message with neither a key id nor a key, or with no algorithm, is never
accepted. -/
theorem default_cwt_missing (p : Prim) (resolve : String → String → Except Unit VM)
    (coseKey : String → Option (Jwk × KeyType)) (r : CwtReq) (issuer : String) (msg sig : Bytes)
    (h : (r.keyID = "" ∧ r.keyMaterial = "") ∨ r.algo = 0) :
    (defaultChecker p resolve).checkCWT coseKey r issuer msg sig ≠ .ok () := by
  unfold Checker.checkCWT
  by_cases h1 : r.keyID = "" ∧ r.keyMaterial = ""
  · rw [if_pos h1]; simp
  · rw [if_neg h1]
    rcases h with h | h
    · exact absurd h h1
    · rw [if_pos h]; simp

/-- C118, consequence (a limitation of the code): whatever the key type a COSE key is given, it can
not be used both for `RS256` and for `PS256`; and no COSE message is accepted with `ES256K` or
`ES512`, whose numbers (-47, -36) are not registered, under any key. -/
theorem cose_limits (p : Prim) (resolve : String → String → Except Unit VM)
    (coseKey : String → Option (Jwk × KeyType)) (m issuer : String) (hm : m ≠ "")
    (msg sig msg' sig' : Bytes) :
    ¬ ((defaultChecker p resolve).checkCWT coseKey ⟨"", m, -257⟩ issuer msg sig = .ok () ∧
      (defaultChecker p resolve).checkCWT coseKey ⟨"", m, -37⟩ issuer msg' sig' = .ok ()) ∧
    ∀ (r : CwtReq), r.algo = -47 ∨ r.algo = -36 →
      (defaultChecker p resolve).checkCWT coseKey r issuer msg sig ≠ .ok () := by
  constructor
  · rintro ⟨h1, h2⟩
    obtain ⟨_, j, kt, alg, a1, a2, a3, _⟩ :=
      (default_cwt_key_iff p resolve coseKey _ rfl hm issuer msg sig).mp h1
    obtain ⟨_, j', kt', alg', b1, b2, b3, _⟩ :=
      (default_cwt_key_iff p resolve coseKey _ rfl hm issuer msg' sig').mp h2
    simp only at a1 a2 b1 b2
    rw [a1] at b1; cases b1
    have e1 : alg = "RS256" := by generalize e : (-257 : Int) = z at a2; cases a2 <;> first | rfl | exact absurd e (by decide)
    have e2 : alg' = "PS256" := by generalize e : (-37 : Int) = z at b2; cases b2 <;> first | rfl | exact absurd e (by decide)
    subst e1; subst e2
    have : kt = .rsaRS256 := by simpa [algKeyTypes] using a3
    subst this
    simp [algKeyTypes] at b3
  · intro r hr h
    have no : ∀ alg, ¬ CoseAlg r.algo alg := by
      intro alg hc
      rcases hr with e | e <;> rw [e] at hc
      · generalize e : (-47 : Int) = z at hc; cases hc <;> exact absurd e (by decide)
      · generalize e : (-36 : Int) = z at hc; cases hc <;> exact absurd e (by decide)
    by_cases hk : r.keyID = ""
    · by_cases hm' : r.keyMaterial = ""
      · exact default_cwt_missing p resolve coseKey r issuer msg sig (Or.inl ⟨hk, hm'⟩) h
      · obtain ⟨_, _, _, alg, _, hc, _⟩ :=
          (default_cwt_key_iff p resolve coseKey r hk hm' issuer msg sig).mp h
        exact no alg hc
    · obtain ⟨_, alg, _, hc, _⟩ :=
        (default_cwt_kid_iff p resolve coseKey r hk issuer msg sig).mp h
      exact no alg hc

/-! ## C118: where the issuer is read -/

theorem under_nil {v w : Json} : Under v [] w ↔ w = v :=
  ⟨fun h => by cases h; rfl, fun h => h ▸ .here v⟩

theorem under_cons {v w : Json} {k : String} {ks : List String} :
    Under v (k :: ks) w ↔ ∃ o x, v = .obj o ∧ GoMap.get? o k = some x ∧ Under x ks w :=
  ⟨fun h => by cases h with | step a b => exact ⟨_, _, rfl, a, b⟩,
   fun ⟨_, _, e, a, b⟩ => e ▸ .step a b⟩

/-- C118: `FindIssuer` returns the string at the first of the five places that holds a non-empty
string, and the empty string when none does. -/
theorem findIssuer_iff (payload : JObj) (s : String) (hs : s ≠ "") :
    findIssuer payload = s ↔ ∃ before path after, issuerPaths = before ++ path :: after ∧
      Under (.obj payload) path (.str s) ∧
      ∀ q ∈ before, ∀ t, Under (.obj payload) q (.str t) → t = "" := by
  -- what one lookup returns
  let look : List String → String := fun q => ((q.foldl (fun (o : Option Json) k =>
    (o.bind Json.asObj?).bind (GoMap.get? · k)) (some (.obj payload))).bind Json.asStr?).getD ""
  have fold : ∀ (q : List String) (v : Json) (t : String),
      ((q.foldl (fun (o : Option Json) k => (o.bind Json.asObj?).bind (GoMap.get? · k))
        (some v)).bind Json.asStr? = some t) ↔ Under v q (.str t) := by
    intro q
    induction q with
    | nil =>
      intro v t
      rw [under_nil]
      simp only [List.foldl_nil, Option.bind_some]
      cases v <;> simp [Json.asStr?, eq_comm]
    | cons k ks ih =>
      intro v t
      rw [under_cons, List.foldl_cons]
      have nn : ∀ l : List String, l.foldl (fun (o : Option Json) k =>
          (o.bind Json.asObj?).bind (GoMap.get? · k)) none = none := by
        intro l; induction l with
        | nil => rfl
        | cons a l ih => simpa using ih
      cases v with
      | obj o =>
        simp only [Option.bind_some, Json.asObj?]
        cases hg : GoMap.get? o k with
        | none =>
          rw [nn]
          simp only [Option.bind_none, reduceCtorEq, false_iff]
          rintro ⟨o', x, e, h, _⟩
          cases e; rw [hg] at h; cases h
        | some x =>
          rw [ih]
          constructor
          · intro h; exact ⟨o, x, rfl, hg, h⟩
          · rintro ⟨o', x', e, h, hu⟩
            cases e; rw [hg] at h; cases h; exact hu
      | _ =>
        simp only [Option.bind_some, Json.asObj?, Option.bind_none, nn, reduceCtorEq, false_iff]
        rintro ⟨o', x, e, _⟩
        cases e
  have lk : ∀ q t, t ≠ "" → (look q = t ↔ Under (.obj payload) q (.str t)) := by
    intro q t ht
    rw [← fold]
    simp only [look]
    cases (q.foldl (fun (o : Option Json) k => (o.bind Json.asObj?).bind (GoMap.get? · k))
        (some (.obj payload))).bind Json.asStr? with
    | none => simp only [Option.getD_none, reduceCtorEq, iff_false]; exact fun e => ht e.symm
    | some u => simp
  have le : ∀ q, look q = "" ↔ ∀ t, Under (.obj payload) q (.str t) → t = "" := by
    intro q
    constructor
    · intro h t hu
      apply Classical.byContradiction
      intro ht
      exact ht (((lk q t ht).mpr hu).symm.trans h)
    · intro h
      apply Classical.byContradiction
      intro ht
      exact ht (h _ ((lk q _ ht).mp rfl))
  have e : findIssuer payload = (((issuerPaths.map look).find? (· ≠ "")).getD "") := rfl
  rw [e]
  generalize issuerPaths = ps
  induction ps with
  | nil =>
    simp only [List.map_nil, List.find?_nil, Option.getD_none]
    constructor
    · intro h; exact absurd h.symm hs
    · rintro ⟨b, q, a, h, _⟩; cases b <;> cases h
  | cons q qs ih =>
    rw [List.map_cons, List.find?_cons]
    by_cases hq : look q = ""
    · simp only [hq, ne_eq, not_true_eq_false, decide_false]
      refine ih.trans ?_
      constructor
      · rintro ⟨b, r, a, h, hu, hb⟩
        refine ⟨q :: b, r, a, by rw [h]; rfl, hu, ?_⟩
        intro x hx
        rcases List.mem_cons.mp hx with rfl | hx
        · exact (le x).mp hq
        · exact hb x hx
      · rintro ⟨b, r, a, h, hu, hb⟩
        cases b with
        | nil => cases h; exact absurd ((le q).mp hq s hu) hs
        | cons x b =>
          cases h
          exact ⟨b, r, a, rfl, hu, fun y hy => hb y (List.mem_cons_of_mem _ hy)⟩
    · simp only [hq, ne_eq, not_false_eq_true, decide_true, Option.getD_some]
      constructor
      · intro h; exact ⟨[], q, qs, rfl, (lk q s hs).mp h, by simp⟩
      · rintro ⟨b, r, a, h, hu, hb⟩
        cases b with
        | nil => cases h; exact (lk _ s hs).mpr hu
        | cons x b =>
          cases h
          exact absurd ((le _).mpr (hb _ List.mem_cons_self)) hq

/-- C118: `FindIssuer` finds nothing exactly when none of the places holds a non-empty string. -/
theorem findIssuer_empty_iff (payload : JObj) : findIssuer payload = "" ↔
    ∀ q ∈ issuerPaths, ∀ t, Under (.obj payload) q (.str t) → t = "" := by
  have first : ∀ (l : List (List String)) (P : List String → Prop), (∃ q ∈ l, P q) →
      ∃ b q a, l = b ++ q :: a ∧ P q ∧ ∀ x ∈ b, ¬ P x := by
    intro l P
    induction l with
    | nil => rintro ⟨q, h, _⟩; cases h
    | cons y l ih =>
      intro h
      by_cases hy : P y
      · exact ⟨[], y, l, rfl, hy, by simp⟩
      · have : ∃ q ∈ l, P q := by
          obtain ⟨q, hq, hp⟩ := h
          rcases List.mem_cons.mp hq with rfl | hq
          · exact absurd hp hy
          · exact ⟨q, hq, hp⟩
        obtain ⟨b, q, a, e, hp, hb⟩ := ih this
        refine ⟨y :: b, q, a, by rw [e]; rfl, hp, ?_⟩
        intro x hx
        rcases List.mem_cons.mp hx with rfl | hx
        · exact hy
        · exact hb x hx
  constructor
  · intro h
    apply Classical.byContradiction
    intro hn
    obtain ⟨b, q, a, e, ⟨t, hu, ht⟩, hb⟩ := first issuerPaths
      (fun q => ∃ t, Under (.obj payload) q (.str t) ∧ t ≠ "") (by
        apply Classical.byContradiction
        intro h2
        exact hn fun q hq t hu => Classical.byContradiction fun ht => h2 ⟨q, hq, t, hu, ht⟩)
    have := (findIssuer_iff payload t ht).mpr ⟨b, q, a, e, hu, fun x hx u hxu =>
      Classical.byContradiction fun hu' => hb x hx ⟨u, hxu, hu'⟩⟩
    exact ht (this.symm.trans h)
  · intro h
    apply Classical.byContradiction
    intro hn
    obtain ⟨b, q, a, e, hu, _⟩ := (findIssuer_iff payload _ hn).mp rfl
    exact hn (h q (by rw [e]; simp) _ hu)

/-! ## Concrete cases -/

/-- Toy primitives in which every family accepts something: a signature is the message followed by
the key. -/
def tbPrim : Prim where
  ed25519 := fun k m s => s == m ++ k
  ecdsa := fun _ k m r _ => r == beVal (m ++ k)
  ecPoint := fun _ b => some b
  asn1 := fun _ => none
  pss := fun k m s => s == m ++ k
  pkcs1v15 := fun k m s => s == k ++ m
  pkcs1Key := some
  bbs := fun k m s => s == m ++ k
  bbsProof := fun k m n s => s == m ++ k ++ n
  jwkBytes := fun _ => some [5]

/-- One method per kind of key. -/
def tbResolve : String → String → Except Unit VM := fun kid _ =>
  if kid = "bls" then .ok ⟨"Bls12381G2Key2020", [5], none⟩
  else if kid = "blsjwk" then .ok ⟨"JsonWebKey2020", [], some ⟨"EC", "BLS12381_G2", .other [5]⟩⟩
  else if kid = "rsa" then .ok ⟨"JsonWebKey2020", [], some ⟨"RSA", "", .rsa [5]⟩⟩
  else if kid = "ed" then .ok ⟨"Ed25519VerificationKey2020", exKey, none⟩
  else .error ()

/-- Outcome of a linked data check, for the examples. -/
def tbLd (ty kid : String) (msg sig : Bytes) : Except Err Unit :=
  (defaultChecker tbPrim tbResolve).checkLD ⟨ty, some kid, [9]⟩ "did:ex:a" msg sig

-- each suite accepts a signature of its own kind
example : tbLd "BbsBlsSignature2020" "bls" [1] [1, 5] = .ok () := by rfl
example : tbLd "BbsBlsSignature2020" "blsjwk" [1] [1, 5] = .ok () := by rfl
example : tbLd "BbsBlsSignatureProof2020" "bls" [1] [1, 5, 9] = .ok () := by rfl
example : tbLd "Ed25519Signature2020" "ed" [1] (1 :: exKey) = .ok () := by rfl
example : tbLd "JsonWebSignature2020" "rsa" [1] [1, 5] = .ok () := by rfl
-- the limitations are real: same key, JWK form, derived proof; PKCS#1 v1.5 signature
example : tbLd "BbsBlsSignatureProof2020" "blsjwk" [1] [1, 5, 9] = .error .badMethod := by rfl
example : tbLd "JsonWebSignature2020" "rsa" [1] [5, 1] = .error .signature := by rfl
-- a 2020 key is not one of the 2018 suite
example : tbLd "Ed25519Signature2018" "ed" [1] (1 :: exKey) = .error .badMethod := by rfl
-- COSE: a key in the message, of the type of the algorithm, or not
example : (defaultChecker tbPrim tbResolve).checkCWT
    (fun _ => some (⟨"RSA", "", .rsa [5]⟩, .rsaPS256)) ⟨"", "k", -37⟩ "" [1] [1, 5] = .ok () := by rfl
example : (defaultChecker tbPrim tbResolve).checkCWT
    (fun _ => some (⟨"RSA", "", .rsa [5]⟩, .rsaPS256)) ⟨"", "k", -257⟩ "" [1] [5, 1] =
      .error .signature := by rfl
example : (defaultChecker tbPrim tbResolve).checkCWT
    (fun _ => some (⟨"RSA", "", .rsa [5]⟩, .rsaPS256)) ⟨"", "k", -37⟩ "did:ex:a" [1] [1, 5] =
      .error .coseIssuer := by rfl
example : (defaultChecker tbPrim tbResolve).checkCWT (fun _ => none) ⟨"rsa", "", -257⟩ "did:ex:a"
    [1] [5, 1] = .ok () := by rfl
-- the issuer of the vc claim wins over `iss`; an empty one does not count
example : findIssuer [("iss", .str "b"), ("vc", .obj [("issuer", .obj [("id", .str "a")])])] = "a" := by
  rfl
example : findIssuer [("iss", .str "b"), ("vc", .obj [("issuer", .str "")])] = "b" := by rfl

end VC.Proof
