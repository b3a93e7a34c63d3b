import Verif.Proof.Registry
import Verif.LDP.Spec
/-!
# proof/creator: which signer a creator built from any options uses (C127)
-/

namespace VC.LDP

open VC.Proof

/-! ## Model -/

/-- `creator.Opt`, creator.go:44-66. -/
inductive MakeOpt where
  /-- `WithLDProofType`, creator.go:48-55 -/
  | ldType (suite : Suite) (sign : Bytes → Option Bytes)
  /-- `WithJWTAlg`, creator.go:58-65 -/
  | jwtAlg (desc : JwtDesc) (sign : Bytes → Option Bytes)

/-- What an option does, creator.go:48-65: it appends. -/
def MakeOpt.apply (c : Creator) : MakeOpt → Creator
  | .ldType s f => { c with ld := c.ld ++ [⟨s, f⟩] }
  | .jwtAlg d f => { c with jwt := c.jwt ++ [⟨d, f⟩] }

/-- `creator.New`, creator.go:68-76. -/
def newCreator (opts : List MakeOpt) : Creator := opts.foldl MakeOpt.apply ⟨[], []⟩

/-! ## Specification -/

/-- The linked-data registrations, in order. -/
def ldMakers : List MakeOpt → List LdCreate
  | [] => []
  | .ldType s f :: os => ⟨s, f⟩ :: ldMakers os
  | _ :: os => ldMakers os

/-- The JWT registrations, in order. -/
def jwtMakers : List MakeOpt → List JwtCreate
  | [] => []
  | .jwtAlg d f :: os => ⟨d, f⟩ :: jwtMakers os
  | _ :: os => jwtMakers os

/-! ## Proofs -/

theorem fold_makers (opts : List MakeOpt) (c : Creator) :
    opts.foldl MakeOpt.apply c = ⟨c.ld ++ ldMakers opts, c.jwt ++ jwtMakers opts⟩ := by
  induction opts generalizing c with
  | nil => simp [ldMakers, jwtMakers]
  | cons o opts ih => rw [List.foldl_cons, ih]; cases o <;> simp [MakeOpt.apply, ldMakers, jwtMakers]

/-- **C127.**  A creator has what its options registered, in order, and nothing else. -/
theorem creator_regs (opts : List MakeOpt) : newCreator opts = ⟨ldMakers opts, jwtMakers opts⟩ := by
  unfold newCreator
  rw [fold_makers]
  rfl

theorem makers_append (a b : List MakeOpt) :
    ldMakers (a ++ b) = ldMakers a ++ ldMakers b ∧ jwtMakers (a ++ b) = jwtMakers a ++ jwtMakers b := by
  induction a with
  | nil => simp [ldMakers, jwtMakers]
  | cons o a ih => cases o <;> simp [ldMakers, jwtMakers, ih.1, ih.2]

theorem ldCreate_first {ds : List LdCreate} {t : String} {d : LdCreate} :
    ldCreate ds t = some d ↔ FirstThat (fun d : LdCreate => d.suite.proofType = t) ds d := by
  induction ds with
  | nil => simp [ldCreate, firstThat_nil]
  | cons x ds ih =>
    rw [ldCreate, firstThat_cons, ← ih]
    by_cases h : x.suite.proofType = t <;> simp [h, eq_comm]

theorem jwtCreate_first {ds : List JwtCreate} {a : String} {d : JwtCreate} :
    jwtCreate ds a = some d ↔ FirstThat (fun d : JwtCreate => d.desc.alg = a) ds d := by
  induction ds with
  | nil => simp [jwtCreate, firstThat_nil]
  | cons x ds ih =>
    rw [jwtCreate, firstThat_cons, ← ih]
    by_cases h : x.desc.alg = a <;> simp [h, eq_comm]

theorem cwtCreate_first {ds : List JwtCreate} {a : Int} {d : JwtCreate} :
    cwtCreate ds a = some d ↔ FirstThat (fun d : JwtCreate => d.desc.cwtAlg = a) ds d := by
  induction ds with
  | nil => simp [cwtCreate, firstThat_nil]
  | cons x ds ih =>
    rw [cwtCreate, firstThat_cons, ← ih]
    by_cases h : x.desc.cwtAlg = a <;> simp [h, eq_comm]

theorem filterMethods_ne (kt : KeyType) (vms : List Supported) :
    (filterMethods kt vms).isEmpty = false ↔ ∃ m ∈ vms, m.keyType = kt := by
  unfold filterMethods
  rw [← Bool.not_eq_true, List.isEmpty_iff, ← ne_eq, List.ne_nil_iff_exists_cons]
  constructor
  · rintro ⟨b, l, h⟩
    have : b ∈ vms.filter (fun s => s.keyType == kt) := by rw [h]; simp
    obtain ⟨h1, h2⟩ := List.mem_filter.mp this
    exact ⟨b, h1, by simpa using h2⟩
  · rintro ⟨m, hm, rfl⟩
    have : m ∈ vms.filter (fun s => s.keyType == m.keyType) := List.mem_filter.mpr ⟨hm, by simp⟩
    exact List.ne_nil_iff_exists_cons.mp (List.ne_nil_of_mem this)

theorem findJWTAlg_first {ds : List JwtCreate} {kt : KeyType} {a : String} (ha : a ≠ "") :
    findJWTAlg ds kt = a ↔
      ∃ d, FirstThat (fun d : JwtCreate => ∃ m ∈ d.desc.vms, m.keyType = kt) ds d ∧ d.desc.alg = a := by
  induction ds with
  | nil => simp [findJWTAlg, firstThat_nil, ha.symm]
  | cons x ds ih =>
    rw [findJWTAlg]
    cases h : (filterMethods kt x.desc.vms).isEmpty with
    | true =>
      have hn : ¬ ∃ m ∈ x.desc.vms, m.keyType = kt := by
        intro he
        rw [(filterMethods_ne kt _).mpr he] at h
        cases h
      rw [if_pos rfl, ih]
      constructor
      · rintro ⟨d, hd, he⟩; exact ⟨d, firstThat_cons.mpr (.inr ⟨hn, hd⟩), he⟩
      · rintro ⟨d, hd, he⟩
        rcases firstThat_cons.mp hd with ⟨hx, -⟩ | ⟨-, hd⟩
        · exact absurd hx hn
        · exact ⟨d, hd, he⟩
    | false =>
      have hy := (filterMethods_ne kt _).mp h
      rw [if_neg (by simp)]
      constructor
      · intro he; exact ⟨x, firstThat_cons.mpr (.inl ⟨hy, rfl⟩), he⟩
      · rintro ⟨d, hd, he⟩
        rcases firstThat_cons.mp hd with ⟨-, rfl⟩ | ⟨hn, -⟩
        · exact he
        · exact absurd hy hn

/-! ## Theorems -/

/-- **C127.**  A JWT is signed by the signer of the first registration of the algorithm, and by no other. -/
theorem custom_sign_jwt_iff (opts : List MakeOpt) (alg : String) (data s : Bytes) :
    (newCreator opts).signJWT alg data = some s ↔
      ∃ d, FirstThat (fun d : JwtCreate => d.desc.alg = alg) (jwtMakers opts) d ∧ d.sign data = some s := by
  rw [creator_regs]
  unfold Creator.signJWT
  rw [Option.bind_eq_some_iff]
  constructor <;> rintro ⟨d, h, hs⟩
  · exact ⟨d, jwtCreate_first.mp h, hs⟩
  · exact ⟨d, jwtCreate_first.mpr h, hs⟩

/-- **C127.**  The same for a CWT and the COSE algorithm. -/
theorem custom_sign_cwt_iff (opts : List MakeOpt) (alg : Int) (data s : Bytes) :
    (newCreator opts).signCWT alg data = some s ↔
      ∃ d, FirstThat (fun d : JwtCreate => d.desc.cwtAlg = alg) (jwtMakers opts) d ∧ d.sign data = some s := by
  rw [creator_regs]
  unfold Creator.signCWT
  rw [Option.bind_eq_some_iff]
  constructor <;> rintro ⟨d, h, hs⟩
  · exact ⟨d, cwtCreate_first.mp h, hs⟩
  · exact ⟨d, cwtCreate_first.mpr h, hs⟩

/-- **C127.**  A linked document is signed by the signer of the first registration of the proof type, if that
type has a row for keys of the given type. -/
theorem custom_sign_linked_iff (opts : List MakeOpt) (type : String) (kt : KeyType) (doc s : Bytes) :
    (newCreator opts).signLinked type kt doc = some s ↔
      ∃ d, FirstThat (fun d : LdCreate => d.suite.proofType = type) (ldMakers opts) d ∧ Supports d.suite kt ∧
        d.sign doc = some s := by
  rw [creator_regs]
  unfold Creator.signLinked Supports
  constructor
  · intro h
    split at h
    · cases h
    · rename_i d hd
      split at h
      · cases h
      · rename_i hf
        exact ⟨d, ldCreate_first.mp hd, (filterMethods_ne kt _).mp (by simpa using hf), h⟩
  · rintro ⟨d, hd, hk, hs⟩
    rw [ldCreate_first.mpr hd]
    dsimp only
    rw [(filterMethods_ne kt _).mpr hk]
    exact hs

/-- **C127.**  The algorithm named in the header of a detached JWS: that of the first JWT registration with a row
for keys of the given type. -/
theorem custom_ldp_alg_iff (opts : List MakeOpt) (type : String) (kt : KeyType) (alg : String) :
    (newCreator opts).ldpJWTAlg type kt = some alg ↔
      alg ≠ "" ∧
      (∃ d, FirstThat (fun d : LdCreate => d.suite.proofType = type) (ldMakers opts) d ∧ Supports d.suite kt) ∧
      ∃ j, FirstThat (fun d : JwtCreate => ∃ m ∈ d.desc.vms, m.keyType = kt) (jwtMakers opts) j ∧ j.desc.alg = alg := by
  rw [creator_regs]
  unfold Creator.ldpJWTAlg Supports
  constructor
  · intro h
    split at h
    · cases h
    · rename_i d hd
      split at h
      · cases h
      · rename_i hf
        split at h
        · cases h
        · rename_i hne
          cases h
          exact ⟨hne, ⟨d, ldCreate_first.mp hd, (filterMethods_ne kt _).mp (by simpa using hf)⟩,
            (findJWTAlg_first hne).mp rfl⟩
  · rintro ⟨hne, ⟨d, hd, hk⟩, hj⟩
    rw [ldCreate_first.mpr hd]
    dsimp only
    rw [(filterMethods_ne kt _).mpr hk]
    rw [if_neg (by simp), (findJWTAlg_first hne).mpr hj, if_neg hne]

/-- **C127.**  Registering more after the other options never changes which signer is used. -/
theorem more_sign_jwt (opts more : List MakeOpt) (alg : String) (data : Bytes)
    (h : ∃ d ∈ jwtMakers opts, d.desc.alg = alg) :
    (newCreator (opts ++ more)).signJWT alg data = (newCreator opts).signJWT alg data := by
  obtain ⟨d, hd⟩ : ∃ d, jwtCreate (jwtMakers opts) alg = some d := by
    revert h
    induction jwtMakers opts with
    | nil => rintro ⟨d, hd, -⟩; cases hd
    | cons x l ih =>
      rintro ⟨d, hd, ha⟩
      rw [jwtCreate]
      split
      · exact ⟨x, rfl⟩
      · rename_i hx
        rcases List.mem_cons.mp hd with rfl | hd
        · exact absurd ha hx
        · exact ih ⟨d, hd, ha⟩
  rw [creator_regs, creator_regs, (makers_append opts more).2]
  unfold Creator.signJWT
  dsimp only
  rw [hd, jwtCreate_first.mpr (firstThat_append (jwtCreate_first.mp hd) _)]

/-- **C127.**  What a creator signs, a checker accepts: if the checker's first rows and verifier for the algorithm
accept the signatures of the signer registered first for it, every JWT signed with it under that key id is
accepted. -/
theorem custom_sign_then_check (mk : List MakeOpt) (resolve : String → String → Except Unit VM) (ck : List RegOpt)
    {alg kid issuer : String} (hkid : kid ≠ "") {vm : VM} (hr : resolve kid issuer = .ok vm) {j : JwtCreate}
    (hj : FirstThat (fun d : JwtCreate => d.desc.alg = alg) (jwtMakers mk) j) {d : JwtDesc}
    (hd : FirstThat (fun d : JwtDesc => d.alg = alg) (jwtRegs ck) d) {s : Supported}
    (hs : FirstThat (RowFor vm) d.vms s) {v : SigVerifier}
    (hv : FirstThat (fun v : SigVerifier => v.supports s.keyType = true) (verRegs ck) v)
    (hok : ∀ m sg, j.sign m = some sg → v.verify sg m ⟨s.keyType, keyOf vm⟩ = true) {msg sig : Bytes}
    (h : (newCreator mk).signJWT alg msg = some sig) :
    (newChecker resolve ck).checkJWT (jwtHeaders alg kid) issuer msg sig = .ok () := by
  obtain ⟨j', hj', hsig⟩ := (custom_sign_jwt_iff mk alg msg sig).mp h
  cases firstThat_unique hj hj'
  rw [custom_jwt_iff]
  unfold jwtHeaders
  rw [if_neg hkid]
  exact ⟨kid, alg, vm, d, rfl, rfl, hr, hd, s, v, hs, hv, hok _ _ hsig⟩

/-! ## Examples -/

/-- Two signers for one algorithm: the first is used. -/
def rgMake : List MakeOpt := [.jwtAlg es256Desc fun _ => none, .jwtAlg eddsaDesc fun m => some (m ++ exKey),
  .jwtAlg eddsaDesc fun _ => some []]

/-- A checker for EdDSA only; a second descriptor for it, without rows, and an accepting verifier come too late. -/
def rgCheck : List RegOpt := [.verifiers [ed25519Verifier exPrim], .jwtAlg [eddsaDesc],
  .jwtAlg [⟨"EdDSA", -8, []⟩], .verifiers [⟨fun _ => true, fun _ _ _ => true⟩]]

theorem rg_signed : (newCreator rgMake).signJWT "EdDSA" [1, 2] = some ([1, 2] ++ exKey) := rfl

example : (newChecker (vdrResolve exVdr) rgCheck).checkJWT (jwtHeaders "EdDSA" "did:ex:a#k1") "did:ex:a" [1, 2]
    ([1, 2] ++ exKey) = .ok () :=
  custom_sign_then_check rgMake (vdrResolve exVdr) rgCheck (vm := ⟨"Ed25519VerificationKey2018", exKey, none⟩)
    (by decide) rfl (j := ⟨eddsaDesc, fun m => some (m ++ exKey)⟩)
    (jwtCreate_first.mp rfl) (byAlg_first.mp rfl)
    (s := ⟨"Ed25519VerificationKey2018", .ed25519, "OKP", "Ed25519", false⟩)
    (v := ed25519Verifier exPrim)
    ⟨[], _, rfl, ⟨rfl, (nomatch ·), fun _ h => (nomatch h)⟩, by simp⟩ (verifier_first.mp rfl)
    (by
      intro m sg h
      cases h
      simp [ed25519Verifier, keyOf, exPrim, exKey, ed25519Key]) rg_signed

/-- A wrong signature stays refused although a later verifier would accept everything. -/
example : (newChecker (vdrResolve exVdr) rgCheck).checkJWT (jwtHeaders "EdDSA" "did:ex:a#k1") "did:ex:a" [1, 2] [3] =
    .error .signature :=
  (more_jwt (vdrResolve exVdr) [.verifiers [ed25519Verifier exPrim], .jwtAlg [eddsaDesc]]
    [.jwtAlg [⟨"EdDSA", -8, []⟩], .verifiers [⟨fun _ => true, fun _ _ _ => true⟩]]
    (jwtHeaders "EdDSA" "did:ex:a#k1") "did:ex:a" [1, 2] [3] (by
      have : (newChecker (vdrResolve exVdr) [.verifiers [ed25519Verifier exPrim], .jwtAlg [eddsaDesc]]).checkJWT
        (jwtHeaders "EdDSA" "did:ex:a#k1") "did:ex:a" [1, 2] [3] = .error .signature := rfl
      rw [this]
      rintro (h | h) <;> cases h)).trans rfl

/-- Registering a verifier can turn an undecided case into an accepted one. -/
example : Open ((newChecker (vdrResolve exVdr) [.jwtAlg [eddsaDesc]]).checkJWT (jwtHeaders "EdDSA" "did:ex:a#k1")
      "did:ex:a" [1, 2] [3]) ∧
    (newChecker (vdrResolve exVdr) ([.jwtAlg [eddsaDesc]] ++ [.verifiers [⟨fun _ => true, fun _ _ _ => true⟩]])).checkJWT
      (jwtHeaders "EdDSA" "did:ex:a#k1") "did:ex:a" [1, 2] [3] = .ok () := ⟨.inr rfl, rfl⟩

/-- A linked-data proof and a CWT with the same registrations. -/
def rgAll : List RegOpt := [.cwtAlg [eddsaDesc], .ldTypes [("Ed25519Signature2018", eddsaDesc.vms)],
  .ldTypeEx "Own" eddsaDesc.vms (some fun sig _ _ nonce => sig == nonce), .verifiers [ed25519Verifier exPrim]]

example : (newChecker (vdrResolve exVdr) rgAll).checkLD ⟨"Ed25519Signature2018", some "did:ex:a#k1", []⟩ "did:ex:a"
    [1, 2] ([1, 2] ++ exKey) = .ok () := rfl

example : (newChecker (vdrResolve exVdr) rgAll).checkLD ⟨"Own", some "did:ex:a#k1", [5]⟩ "did:ex:a" [1, 2] [5] = .ok () :=
  rfl

example : (newChecker (vdrResolve exVdr) rgAll).checkCWT (fun _ => none) ⟨"did:ex:a#k1", "", -8⟩ "did:ex:a" [1, 2]
    ([1, 2] ++ exKey) = .ok () := rfl

example : (newChecker (vdrResolve exVdr) rgAll).checkCWT (fun _ => some (⟨"OKP", "Ed25519", .ed25519 exKey⟩, .ed25519))
    ⟨"", "a5", -8⟩ "" [1, 2] ([1, 2] ++ exKey) = .ok () := rfl

example : embeddedCheck ⟨"Ed25519VerificationKey2018", exKey, none⟩ rgCheck [("alg", .str "EdDSA")] [1, 2]
    ([1, 2] ++ exKey) = .ok () := rfl

/-- A suite for RSA keys. -/
def rgSuite : Suite where
  proofType := "JsonWebSignature2020"
  vms := [⟨"JsonWebKey2020", .rsaPS256, "RSA", "", true⟩, ⟨"JsonWebKey2020", .ed25519, "OKP", "Ed25519", true⟩]
  canon := fun _ _ => some []
  digest := id

/-- The algorithm in the header of a detached JWS is that of the first JWT registration for the key type, whoever
signs: here the JWT registration's own signer is never called for linked documents. -/
theorem jws_header_not_of_signer : ∃ (opts : List MakeOpt) (kt : KeyType) (alg : String) (doc s s' : Bytes),
    (newCreator opts).ldpJWTAlg "JsonWebSignature2020" kt = some alg ∧
    (newCreator opts).signLinked "JsonWebSignature2020" kt doc = some s ∧
    (newCreator opts).signJWT alg doc = some s' ∧ s ≠ s' :=
  ⟨[.ldType rgSuite fun _ => some [1], .jwtAlg eddsaDesc fun _ => some [2]], .ed25519, "EdDSA", [0], [1], [2],
    rfl, rfl, rfl, by decide⟩

example : (newCreator [.ldType rgSuite fun _ => some [1], .jwtAlg eddsaDesc fun _ => some [2]]).signCWT (-8) [0] =
    some [2] := rfl

end VC.LDP
