import Verif.Proof.Tables

/-!
# proof/checker, proof/creator: what a checker or creator built from any options does (C127)

`checker.New`, `NewEmbeddedVMProofChecker` and `creator.New` take a list of options that register proof types,
algorithms, signature verifiers and signers.  The theorems say exactly which proofs a checker built from any list
of options accepts, that registering more never changes what was decided before, and which signer a creator uses.
-/

namespace VC.Proof

/-! ## Model -/

/-- `checker.Opt`, checker.go:81-134. -/
inductive RegOpt where
  /-- `WithLDProofTypes`, checker.go:84-92: proof type and verification methods of each descriptor -/
  | ldTypes (ds : List (String × List Supported))
  /-- `WithLDProofTypeEx`, checker.go:95-102; a nil verifier is possible -/
  | ldTypeEx (type : String) (vms : List Supported) (ex : Option (Bytes → Bytes → PubKey → Bytes → Bool))
  /-- `WithJWTAlg`, checker.go:105-113 -/
  | jwtAlg (ds : List JwtDesc)
  /-- `WithCWTAlg`, checker.go:116-124 -/
  | cwtAlg (ds : List JwtDesc)
  /-- `WithSignatureVerifiers`, checker.go:127-131 -/
  | verifiers (vs : List SigVerifier)

/-- What an option does, checker.go:84-131: it appends. -/
def RegOpt.apply (c : Checker) : RegOpt → Checker
  | .ldTypes ds => { c with ld := c.ld ++ ds.map fun d => ⟨d.1, d.2, none⟩ }
  | .ldTypeEx t vms ex => { c with ld := c.ld ++ [⟨t, vms, ex⟩] }
  | .jwtAlg ds => { c with jwt := c.jwt ++ ds }
  | .cwtAlg ds => { c with cwt := c.cwt ++ ds }
  | .verifiers vs => { c with verifiers := c.verifiers ++ vs }

/-- `checker.New`, checker.go:134-145. -/
def newChecker (resolve : String → String → Except Unit VM) (opts : List RegOpt) : Checker :=
  opts.foldl RegOpt.apply ⟨[], [], [], [], resolve⟩

/-- `NewEmbeddedVMProofChecker(vm, opts...).CheckJWTProof`, checker.go:456-478, 486-496. (The embedded base has no
resolver.) -/
def embeddedCheck (vm : VM) (opts : List RegOpt) (headers : JObj) (msg sig : Bytes) : Except Err Unit :=
  checkEmbedded (newChecker (fun _ _ => .error ()) opts).jwt (newChecker (fun _ _ => .error ()) opts).verifiers vm
    headers msg sig

/-! ## Specification -/

/-- `x` is the first member of the list with property `P`. -/
def FirstThat {α : Type _} (P : α → Prop) (l : List α) (x : α) : Prop :=
  ∃ a b, l = a ++ x :: b ∧ P x ∧ ∀ y ∈ a, ¬ P y

/-- What the options register for JWTs, in order. -/
def jwtRegs : List RegOpt → List JwtDesc
  | [] => []
  | .jwtAlg ds :: os => ds ++ jwtRegs os
  | _ :: os => jwtRegs os

/-- What the options register for CWTs, in order. -/
def cwtRegs : List RegOpt → List JwtDesc
  | [] => []
  | .cwtAlg ds :: os => ds ++ cwtRegs os
  | _ :: os => cwtRegs os

/-- The signature verifiers the options register, in order. -/
def verRegs : List RegOpt → List SigVerifier
  | [] => []
  | .verifiers vs :: os => vs ++ verRegs os
  | _ :: os => verRegs os

/-- The linked-data proof types the options register, in order. -/
def ldRegs : List RegOpt → List LdDesc
  | [] => []
  | .ldTypes ds :: os => ds.map (fun d => ⟨d.1, d.2, none⟩) ++ ldRegs os
  | .ldTypeEx t vms ex :: os => ⟨t, vms, ex⟩ :: ldRegs os
  | _ :: os => ldRegs os

/-- The row of a table is for this verification method: its type, a JWK if one is needed, and the JWK's declared
type and curve. -/
structure RowFor (vm : VM) (s : Supported) : Prop where
  type : s.vmType = vm.type
  jwk : s.requireJWK = true → vm.jwk ≠ none
  key : ∀ j, vm.jwk = some j → j.kty = s.kty ∧ j.crv = s.crv

/-- The method's key, read as a key of the type of the first row for it, has signed: the first registered verifier
of that key type accepts. -/
def SignedBy (verifiers : List SigVerifier) (rows : List Supported) (vm : VM) (msg sig : Bytes) : Prop :=
  ∃ s v, FirstThat (RowFor vm) rows s ∧ FirstThat (fun v : SigVerifier => v.supports s.keyType = true) verifiers v ∧
    v.verify sig msg ⟨s.keyType, keyOf vm⟩ = true

/-! ## Lists -/

theorem firstThat_cons {α : Type _} {P : α → Prop} {y : α} {l : List α} {x : α} :
    FirstThat P (y :: l) x ↔ (P y ∧ x = y) ∨ (¬ P y ∧ FirstThat P l x) := by
  constructor
  · rintro ⟨a, b, he, hx, ha⟩
    cases a with
    | nil => simp only [List.nil_append, List.cons.injEq] at he; exact .inl ⟨he.1 ▸ hx, he.1.symm⟩
    | cons z a =>
      simp only [List.cons_append, List.cons.injEq] at he
      obtain ⟨rfl, rfl⟩ := he
      exact .inr ⟨ha _ (by simp), a, b, rfl, hx, fun w hw => ha w (by simp [hw])⟩
  · rintro (⟨h, rfl⟩ | ⟨h, a, b, rfl, hx, ha⟩)
    · exact ⟨[], l, rfl, h, by simp⟩
    · refine ⟨y :: a, b, rfl, hx, fun w hw => ?_⟩
      rcases List.mem_cons.mp hw with rfl | hw
      · exact h
      · exact ha w hw

theorem firstThat_nil {α : Type _} {P : α → Prop} {x : α} : ¬ FirstThat P [] x := by
  rintro ⟨a, b, he, -⟩
  cases a <;> simp at he

/-- There is at most one first member. -/
theorem firstThat_unique {α : Type _} {P : α → Prop} {l : List α} {x y : α} (hx : FirstThat P l x)
    (hy : FirstThat P l y) : x = y := by
  induction l with
  | nil => exact absurd hx firstThat_nil
  | cons z l ih =>
    rcases firstThat_cons.mp hx with ⟨h, rfl⟩ | ⟨h, hx⟩ <;> rcases firstThat_cons.mp hy with ⟨h', rfl⟩ | ⟨h', hy⟩
    · rfl
    · exact absurd h h'
    · exact absurd h' h
    · exact ih hx hy

theorem firstThat_append {α : Type _} {P : α → Prop} {l : List α} {x : α} (h : FirstThat P l x) (m : List α) :
    FirstThat P (l ++ m) x := by
  obtain ⟨a, b, rfl, hx, ha⟩ := h
  exact ⟨a, b ++ m, by simp, hx, ha⟩

theorem find_iff {α : Type _} (p : α → Bool) (l : List α) (x : α) :
    l.find? p = some x ↔ FirstThat (fun y => p y = true) l x := by
  induction l with
  | nil => simp [firstThat_nil]
  | cons y l ih =>
    rw [firstThat_cons, List.find?_cons, ← ih]
    cases hp : p y <;> simp [eq_comm]

theorem byAlg_find (ds : List JwtDesc) (a : String) : byAlg ds a = ds.find? (fun d => decide (d.alg = a)) := by
  induction ds with
  | nil => rfl
  | cons d ds ih =>
    rw [byAlg, List.find?_cons, ih]
    by_cases h : d.alg = a <;> simp [h]

theorem byCwtAlg_find (ds : List JwtDesc) (a : Int) : byCwtAlg ds a = ds.find? (fun d => decide (d.cwtAlg = a)) := by
  induction ds with
  | nil => rfl
  | cons d ds ih =>
    rw [byCwtAlg, List.find?_cons, ih]
    by_cases h : d.cwtAlg = a <;> simp [h]

theorem byType_find (ds : List LdDesc) (a : String) : byType ds a = ds.find? (fun d => decide (d.proofType = a)) := by
  induction ds with
  | nil => rfl
  | cons d ds ih =>
    rw [byType, List.find?_cons, ih]
    by_cases h : d.proofType = a <;> simp [h]

theorem verifier_find (vs : List SigVerifier) (kt : KeyType) :
    getSignatureVerifier vs kt = vs.find? (fun v => v.supports kt) := by
  induction vs with
  | nil => rfl
  | cons v vs ih =>
    rw [getSignatureVerifier, List.find?_cons, ih]
    cases h : v.supports kt <;> simp

theorem convert_find (rows : List Supported) (vm : VM) :
    convertToPublicKey rows vm =
      (rows.find? (fun s => methodMatches s vm)).map fun s => (⟨s.keyType, keyOf vm⟩ : PubKey) := by
  induction rows with
  | nil => rfl
  | cons s rows ih =>
    rw [convertToPublicKey, List.find?_cons, ih, createPublicKey_eq]
    cases h : methodMatches s vm <;> simp

theorem byAlg_first {ds : List JwtDesc} {a : String} {d : JwtDesc} :
    byAlg ds a = some d ↔ FirstThat (fun d : JwtDesc => d.alg = a) ds d := by
  rw [byAlg_find, find_iff]; simp

theorem byCwtAlg_first {ds : List JwtDesc} {a : Int} {d : JwtDesc} :
    byCwtAlg ds a = some d ↔ FirstThat (fun d : JwtDesc => d.cwtAlg = a) ds d := by
  rw [byCwtAlg_find, find_iff]; simp

theorem byType_first {ds : List LdDesc} {a : String} {d : LdDesc} :
    byType ds a = some d ↔ FirstThat (fun d : LdDesc => d.proofType = a) ds d := by
  rw [byType_find, find_iff]; simp

theorem verifier_first {vs : List SigVerifier} {kt : KeyType} {v : SigVerifier} :
    getSignatureVerifier vs kt = some v ↔ FirstThat (fun v : SigVerifier => v.supports kt = true) vs v := by
  rw [verifier_find, find_iff]

theorem rowFor_iff {s : Supported} {vm : VM} : methodMatches s vm = true ↔ RowFor vm s :=
  (methodMatches_iff s vm).trans ⟨fun h => ⟨h.1, h.2.1, h.2.2⟩, fun h => ⟨h.type, h.jwk, h.key⟩⟩

theorem convert_first {rows : List Supported} {vm : VM} {pk : PubKey} :
    convertToPublicKey rows vm = some pk ↔ ∃ s, FirstThat (RowFor vm) rows s ∧ pk = ⟨s.keyType, keyOf vm⟩ := by
  have e : (fun s => methodMatches s vm = true) = RowFor vm := funext fun s => propext rowFor_iff
  rw [convert_find, Option.map_eq_some_iff]
  constructor
  · rintro ⟨s, h, rfl⟩
    rw [find_iff, e] at h
    exact ⟨s, h, rfl⟩
  · rintro ⟨s, h, rfl⟩
    rw [← e, ← find_iff] at h
    exact ⟨s, h, rfl⟩

theorem verifyWith_signed {vs : List SigVerifier} {rows : List Supported} {vm : VM} {msg sig : Bytes} :
    verifyWith vs rows vm msg sig = .ok () ↔ SignedBy vs rows vm msg sig := by
  unfold verifyWith
  constructor
  · intro h
    cases hc : convertToPublicKey rows vm with
    | none => rw [hc] at h; cases h
    | some pk =>
      rw [hc] at h
      obtain ⟨s, hs, rfl⟩ := convert_first.mp hc
      dsimp only at h
      cases hv : getSignatureVerifier vs s.keyType with
      | none => rw [hv] at h; cases h
      | some v =>
        rw [hv] at h
        dsimp only at h
        split at h
        · exact ⟨s, v, hs, verifier_first.mp hv, by assumption⟩
        · cases h
  · rintro ⟨s, v, hs, hv, hok⟩
    rw [convert_first.mpr ⟨s, hs, rfl⟩]
    dsimp only
    rw [verifier_first.mpr hv]
    dsimp only
    rw [if_pos hok]

/-! ## What the options register -/

theorem fold_regs (opts : List RegOpt) (c : Checker) : opts.foldl RegOpt.apply c =
    ⟨c.ld ++ ldRegs opts, c.jwt ++ jwtRegs opts, c.cwt ++ cwtRegs opts, c.verifiers ++ verRegs opts, c.resolve⟩ := by
  induction opts generalizing c with
  | nil => simp [ldRegs, jwtRegs, cwtRegs, verRegs]
  | cons o opts ih =>
    rw [List.foldl_cons, ih]
    cases o <;> simp [RegOpt.apply, ldRegs, jwtRegs, cwtRegs, verRegs]

/-- **C127.**  A checker has what its options registered, in order, and nothing else. -/
theorem checker_regs (resolve : String → String → Except Unit VM) (opts : List RegOpt) :
    newChecker resolve opts = ⟨ldRegs opts, jwtRegs opts, cwtRegs opts, verRegs opts, resolve⟩ := by
  unfold newChecker
  rw [fold_regs]
  simp

theorem regs_append (a b : List RegOpt) : ldRegs (a ++ b) = ldRegs a ++ ldRegs b ∧
    jwtRegs (a ++ b) = jwtRegs a ++ jwtRegs b ∧ cwtRegs (a ++ b) = cwtRegs a ++ cwtRegs b ∧
    verRegs (a ++ b) = verRegs a ++ verRegs b := by
  induction a with
  | nil => simp [ldRegs, jwtRegs, cwtRegs, verRegs]
  | cons o a ih => obtain ⟨h1, h2, h3, h4⟩ := ih; cases o <;> simp [ldRegs, jwtRegs, cwtRegs, verRegs, h1, h2, h3, h4]

/-! ## Theorems: what is accepted -/

/-- **C127.**  A JWT is accepted exactly if its header has a key id and an algorithm, the key id resolves for the
expected issuer to a method, and the method has signed by the rows of the first descriptor registered for that
algorithm. -/
theorem custom_jwt_iff (resolve : String → String → Except Unit VM) (opts : List RegOpt) (headers : JObj)
    (issuer : String) (msg sig : Bytes) :
    (newChecker resolve opts).checkJWT headers issuer msg sig = .ok () ↔
      ∃ kid alg vm d, GoMap.get? headers "kid" = some (.str kid) ∧ GoMap.get? headers "alg" = some (.str alg) ∧
        resolve kid issuer = .ok vm ∧ FirstThat (fun d : JwtDesc => d.alg = alg) (jwtRegs opts) d ∧
        SignedBy (verRegs opts) d.vms vm msg sig := by
  have hh : ∀ k s, header headers k = some s ↔ GoMap.get? headers k = some (.str s) := by
    intro k s
    unfold header
    cases GoMap.get? headers k with
    | none => simp
    | some j => cases j <;> simp [Json.asStr?]
  rw [checker_regs]
  unfold Checker.checkJWT
  constructor
  · intro h
    cases hk : header headers "kid" with
    | none => rw [hk] at h; cases h
    | some kid =>
      rw [hk] at h; dsimp only at h
      cases ha : header headers "alg" with
      | none => rw [ha] at h; cases h
      | some alg =>
        rw [ha] at h; dsimp only at h
        cases hr : resolve kid issuer with
        | error _ => rw [hr] at h; cases h
        | ok vm =>
          rw [hr] at h; dsimp only at h
          cases hb : byAlg (jwtRegs opts) alg with
          | none => rw [hb] at h; cases h
          | some d =>
            rw [hb] at h; dsimp only at h
            exact ⟨kid, alg, vm, d, (hh _ _).mp hk, (hh _ _).mp ha, hr, byAlg_first.mp hb, verifyWith_signed.mp h⟩
  · rintro ⟨kid, alg, vm, d, hk, ha, hr, hb, hs⟩
    rw [(hh _ _).mpr hk]; dsimp only
    rw [(hh _ _).mpr ha]; dsimp only
    rw [hr]; dsimp only
    rw [byAlg_first.mpr hb]
    exact verifyWith_signed.mpr hs

/-- **C127.**  A checker with an embedded key accepts exactly what that key has signed with a registered algorithm;
the key id and the issuer play no part. -/
theorem custom_embedded_iff (vm : VM) (opts : List RegOpt) (headers : JObj) (msg sig : Bytes) :
    embeddedCheck vm opts headers msg sig = .ok () ↔
      ∃ alg d, GoMap.get? headers "alg" = some (.str alg) ∧
        FirstThat (fun d : JwtDesc => d.alg = alg) (jwtRegs opts) d ∧ SignedBy (verRegs opts) d.vms vm msg sig := by
  have hh : ∀ k s, header headers k = some s ↔ GoMap.get? headers k = some (.str s) := by
    intro k s
    unfold header
    cases GoMap.get? headers k with
    | none => simp
    | some j => cases j <;> simp [Json.asStr?]
  unfold embeddedCheck
  rw [checker_regs]
  dsimp only
  unfold checkEmbedded
  constructor
  · intro h
    cases ha : header headers "alg" with
    | none => rw [ha] at h; cases h
    | some alg =>
      rw [ha] at h; dsimp only at h
      cases hb : byAlg (jwtRegs opts) alg with
      | none => rw [hb] at h; cases h
      | some d =>
        rw [hb] at h; dsimp only at h
        exact ⟨alg, d, (hh _ _).mp ha, byAlg_first.mp hb, verifyWith_signed.mp h⟩
  · rintro ⟨alg, d, ha, hb, hs⟩
    rw [(hh _ _).mpr ha]; dsimp only
    rw [byAlg_first.mpr hb]
    exact verifyWith_signed.mpr hs

/-- **C127.**  A linked-data proof is accepted exactly if its key id resolves for the expected issuer, and the first
registration of its proof type has a row for the method, and either that registration brought its own verifier,
which accepts (with the proof's nonce), or it brought none and the first registered verifier of the key type does. -/
theorem custom_ld_iff (resolve : String → String → Except Unit VM) (opts : List RegOpt) (p : LdProof)
    (issuer : String) (msg sig : Bytes) :
    (newChecker resolve opts).checkLD p issuer msg sig = .ok () ↔
      ∃ kid vm d s, p.publicKeyID = some kid ∧ resolve kid issuer = .ok vm ∧
        FirstThat (fun d : LdDesc => d.proofType = p.type) (ldRegs opts) d ∧ FirstThat (RowFor vm) d.vms s ∧
        ((∃ ex, d.ex = some ex ∧ ex sig msg ⟨s.keyType, keyOf vm⟩ p.nonce = true) ∨
         (d.ex = none ∧ ∃ v, FirstThat (fun v : SigVerifier => v.supports s.keyType = true) (verRegs opts) v ∧
            v.verify sig msg ⟨s.keyType, keyOf vm⟩ = true)) := by
  rw [checker_regs]
  unfold Checker.checkLD
  constructor
  · intro h
    cases hk : p.publicKeyID with
    | none => rw [hk] at h; cases h
    | some kid =>
      rw [hk] at h; dsimp only at h
      cases hr : resolve kid issuer with
      | error _ => rw [hr] at h; cases h
      | ok vm =>
        rw [hr] at h; dsimp only at h
        cases hb : byType (ldRegs opts) p.type with
        | none => rw [hb] at h; cases h
        | some d =>
          rw [hb] at h; dsimp only at h
          cases hc : convertToPublicKey d.vms vm with
          | none => rw [hc] at h; cases h
          | some pk =>
            rw [hc] at h
            obtain ⟨s, hs, rfl⟩ := convert_first.mp hc
            dsimp only at h
            refine ⟨kid, vm, d, s, rfl, hr, byType_first.mp hb, hs, ?_⟩
            cases he : d.ex with
            | some ex =>
              rw [he] at h; dsimp only at h
              split at h
              · exact .inl ⟨ex, rfl, by assumption⟩
              · cases h
            | none =>
              rw [he] at h; dsimp only at h
              cases hv : getSignatureVerifier (verRegs opts) s.keyType with
              | none => rw [hv] at h; cases h
              | some v =>
                rw [hv] at h; dsimp only at h
                split at h
                · exact .inr ⟨rfl, v, verifier_first.mp hv, by assumption⟩
                · cases h
  · rintro ⟨kid, vm, d, s, hk, hr, hb, hs, hcase⟩
    rw [hk]; dsimp only
    rw [hr]; dsimp only
    rw [byType_first.mpr hb]; dsimp only
    rw [convert_first.mpr ⟨s, hs, rfl⟩]; dsimp only
    rcases hcase with ⟨ex, he, hok⟩ | ⟨he, v, hv, hok⟩
    · rw [he]; dsimp only; rw [if_pos hok]
    · rw [he]; dsimp only; rw [verifier_first.mpr hv]; dsimp only; rw [if_pos hok]

/-- **C127.**  A CWT that names a key id is accepted exactly as a JWT is, by the descriptors registered for CWTs and
the COSE algorithm number. -/
theorem custom_cwt_kid_iff (resolve : String → String → Except Unit VM)
    (coseKey : String → Option (Jwk × KeyType)) (opts : List RegOpt) (r : CwtReq) (hk : r.keyID ≠ "")
    (issuer : String) (msg sig : Bytes) :
    (newChecker resolve opts).checkCWT coseKey r issuer msg sig = .ok () ↔
      r.algo ≠ 0 ∧ ∃ vm d, resolve r.keyID issuer = .ok vm ∧
        FirstThat (fun d : JwtDesc => d.cwtAlg = r.algo) (cwtRegs opts) d ∧ SignedBy (verRegs opts) d.vms vm msg sig := by
  rw [checker_regs]
  unfold Checker.checkCWT Checker.checkCWTByKeyID
  rw [if_neg (fun h => hk h.1)]
  by_cases h0 : r.algo = 0
  · simp [h0]
  rw [if_neg h0, if_pos hk]
  constructor
  · intro h
    refine ⟨h0, ?_⟩
    cases hr : resolve r.keyID issuer with
    | error _ => simp only [hr] at h; cases h
    | ok vm =>
      simp only [hr] at h
      cases hb : byCwtAlg (cwtRegs opts) r.algo with
      | none => rw [hb] at h; cases h
      | some d =>
        rw [hb] at h
        exact ⟨vm, d, rfl, byCwtAlg_first.mp hb, verifyWith_signed.mp h⟩
  · rintro ⟨-, vm, d, hr, hb, hs⟩
    simp only [hr]
    rw [byCwtAlg_first.mpr hb]
    exact verifyWith_signed.mpr hs

/-- **C127.**  A CWT that brings its own COSE key is accepted exactly if no issuer is expected, the key can be read,
the first descriptor registered for the algorithm has a row for it as a JsonWebKey2020, and the first verifier of
the key's own type accepts the signature. -/
theorem custom_cwt_cose_iff (resolve : String → String → Except Unit VM)
    (coseKey : String → Option (Jwk × KeyType)) (opts : List RegOpt) (r : CwtReq) (hk : r.keyID = "")
    (issuer : String) (msg sig : Bytes) :
    (newChecker resolve opts).checkCWT coseKey r issuer msg sig = .ok () ↔
      r.keyMaterial ≠ "" ∧ r.algo ≠ 0 ∧ issuer = "" ∧ ∃ j kt d s v, coseKey r.keyMaterial = some (j, kt) ∧
        FirstThat (fun d : JwtDesc => d.cwtAlg = r.algo) (cwtRegs opts) d ∧
        FirstThat (RowFor ⟨"JsonWebKey2020", [], some j⟩) d.vms s ∧
        FirstThat (fun v : SigVerifier => v.supports kt = true) (verRegs opts) v ∧
        v.verify sig msg ⟨s.keyType, .inr j⟩ = true := by
  rw [checker_regs]
  unfold Checker.checkCWT Checker.checkCWTByCOSEKey
  by_cases hm : r.keyMaterial = ""
  · rw [if_pos ⟨hk, hm⟩]; simp [hm]
  rw [if_neg (fun h => hm h.2)]
  by_cases h0 : r.algo = 0
  · simp [h0]
  rw [if_neg h0, if_neg (fun h => h hk)]
  by_cases hi : issuer = ""
  case neg => simp [hi]
  rw [if_neg (fun h => h hi)]
  constructor
  · intro h
    refine ⟨hm, h0, hi, ?_⟩
    cases hc : coseKey r.keyMaterial with
    | none => rw [hc] at h; cases h
    | some x =>
      obtain ⟨j, kt⟩ := x
      rw [hc] at h; dsimp only at h
      cases hb : byCwtAlg (cwtRegs opts) r.algo with
      | none => rw [hb] at h; cases h
      | some d =>
        rw [hb] at h; dsimp only at h
        cases hp : convertToPublicKey d.vms ⟨"JsonWebKey2020", [], some j⟩ with
        | none => rw [hp] at h; cases h
        | some pk =>
          rw [hp] at h
          obtain ⟨s, hs, rfl⟩ := convert_first.mp hp
          dsimp only at h
          cases hv : getSignatureVerifier (verRegs opts) kt with
          | none => rw [hv] at h; cases h
          | some v =>
            rw [hv] at h; dsimp only at h
            split at h
            · exact ⟨j, kt, d, s, v, rfl, byCwtAlg_first.mp hb, hs, verifier_first.mp hv, by assumption⟩
            · cases h
  · rintro ⟨-, -, -, j, kt, d, s, v, hc, hb, hs, hv, hok⟩
    rw [hc]; dsimp only
    rw [byCwtAlg_first.mpr hb]; dsimp only
    rw [convert_first.mpr ⟨s, hs, rfl⟩]; dsimp only
    rw [verifier_first.mpr hv]; dsimp only
    exact if_pos hok

/-! ## Theorems: registering more -/

/-- The outcomes that a further registration can change: nothing is registered for the algorithm or proof type, or
no verifier for the key type. -/
def Open (r : Except Err Unit) : Prop := r = .error .unsupportedAlg ∨ r = .error .noVerifier

theorem find_append {α : Type _} {p : α → Bool} {l m : List α} {x : α} (h : l.find? p = some x) :
    (l ++ m).find? p = some x := by
  rw [find_iff] at h ⊢
  exact firstThat_append h m

theorem verifyWith_more {vs ws : List SigVerifier} {rows : List Supported} {vm : VM} {msg sig : Bytes}
    (h : ¬ Open (verifyWith vs rows vm msg sig)) :
    verifyWith (vs ++ ws) rows vm msg sig = verifyWith vs rows vm msg sig := by
  unfold verifyWith at h ⊢
  cases hc : convertToPublicKey rows vm with
  | none => rfl
  | some pk =>
    rw [hc] at h
    dsimp only at h ⊢
    cases hv : getSignatureVerifier vs pk.type with
    | none => rw [hv] at h; exact absurd (.inr rfl) h
    | some v =>
      have : getSignatureVerifier (vs ++ ws) pk.type = some v := by
        rw [verifier_find] at hv ⊢; exact find_append hv
      rw [this]

/-- **C127.**  Registering more after the other options never changes a decision on a JWT: what was accepted stays
accepted, a refused signature stays refused, unless nothing was registered to decide by. -/
theorem more_jwt (resolve : String → String → Except Unit VM) (opts more : List RegOpt) (headers : JObj)
    (issuer : String) (msg sig : Bytes) (h : ¬ Open ((newChecker resolve opts).checkJWT headers issuer msg sig)) :
    (newChecker resolve (opts ++ more)).checkJWT headers issuer msg sig =
      (newChecker resolve opts).checkJWT headers issuer msg sig := by
  rw [checker_regs] at h
  rw [checker_regs, checker_regs, (regs_append opts more).2.1, (regs_append opts more).2.2.2]
  unfold Checker.checkJWT at h ⊢
  cases hk : header headers "kid" with
  | none => rfl
  | some kid =>
    rw [hk] at h; dsimp only at h ⊢
    cases ha : header headers "alg" with
    | none => rfl
    | some alg =>
      rw [ha] at h; dsimp only at h ⊢
      cases hr : resolve kid issuer with
      | error _ => rfl
      | ok vm =>
        rw [hr] at h; dsimp only at h ⊢
        cases hb : byAlg (jwtRegs opts) alg with
        | none => rw [hb] at h; exact absurd (.inl rfl) h
        | some d =>
          rw [hb] at h
          have : byAlg (jwtRegs opts ++ jwtRegs more) alg = some d := by
            rw [byAlg_find] at hb ⊢; exact find_append hb
          rw [this]
          exact verifyWith_more h

/-- **C127.**  The same for a checker with an embedded key. -/
theorem more_embedded (vm : VM) (opts more : List RegOpt) (headers : JObj) (msg sig : Bytes)
    (h : ¬ Open (embeddedCheck vm opts headers msg sig)) :
    embeddedCheck vm (opts ++ more) headers msg sig = embeddedCheck vm opts headers msg sig := by
  unfold embeddedCheck at h ⊢
  rw [checker_regs] at h
  rw [checker_regs, checker_regs, (regs_append opts more).2.1, (regs_append opts more).2.2.2]
  dsimp only at h ⊢
  unfold checkEmbedded at h ⊢
  cases ha : header headers "alg" with
  | none => rfl
  | some alg =>
    rw [ha] at h; dsimp only at h ⊢
    cases hb : byAlg (jwtRegs opts) alg with
    | none => rw [hb] at h; exact absurd (.inl rfl) h
    | some d =>
      rw [hb] at h
      have : byAlg (jwtRegs opts ++ jwtRegs more) alg = some d := by
        rw [byAlg_find] at hb ⊢; exact find_append hb
      rw [this]
      exact verifyWith_more h

/-- **C127.**  The same for linked-data proofs. -/
theorem more_ld (resolve : String → String → Except Unit VM) (opts more : List RegOpt) (p : LdProof)
    (issuer : String) (msg sig : Bytes) (h : ¬ Open ((newChecker resolve opts).checkLD p issuer msg sig)) :
    (newChecker resolve (opts ++ more)).checkLD p issuer msg sig =
      (newChecker resolve opts).checkLD p issuer msg sig := by
  rw [checker_regs] at h
  rw [checker_regs, checker_regs, (regs_append opts more).1, (regs_append opts more).2.2.2]
  unfold Checker.checkLD at h ⊢
  cases hk : p.publicKeyID with
  | none => rfl
  | some kid =>
    rw [hk] at h; dsimp only at h ⊢
    cases hr : resolve kid issuer with
    | error _ => rfl
    | ok vm =>
      rw [hr] at h; dsimp only at h ⊢
      cases hb : byType (ldRegs opts) p.type with
      | none => rw [hb] at h; exact absurd (.inl rfl) h
      | some d =>
        rw [hb] at h
        have : byType (ldRegs opts ++ ldRegs more) p.type = some d := by
          rw [byType_find] at hb ⊢; exact find_append hb
        rw [this]
        dsimp only at h ⊢
        cases hc : convertToPublicKey d.vms vm with
        | none => rfl
        | some pk =>
          rw [hc] at h; dsimp only at h ⊢
          cases he : d.ex with
          | some ex => rfl
          | none =>
            rw [he] at h; dsimp only at h ⊢
            cases hv : getSignatureVerifier (verRegs opts) pk.type with
            | none => rw [hv] at h; exact absurd (.inr rfl) h
            | some v =>
              have : getSignatureVerifier (verRegs opts ++ verRegs more) pk.type = some v := by
                rw [verifier_find] at hv ⊢; exact find_append hv
              rw [this]

/-- **C127.**  The same for CWTs. -/
theorem more_cwt (resolve : String → String → Except Unit VM) (coseKey : String → Option (Jwk × KeyType))
    (opts more : List RegOpt) (r : CwtReq) (issuer : String) (msg sig : Bytes)
    (h : ¬ Open ((newChecker resolve opts).checkCWT coseKey r issuer msg sig)) :
    (newChecker resolve (opts ++ more)).checkCWT coseKey r issuer msg sig =
      (newChecker resolve opts).checkCWT coseKey r issuer msg sig := by
  rw [checker_regs] at h
  rw [checker_regs, checker_regs, (regs_append opts more).2.2.1, (regs_append opts more).2.2.2]
  unfold Checker.checkCWT at h ⊢
  split
  · rfl
  · rename_i h1
    rw [if_neg h1] at h
    split
    · rfl
    · rename_i h2
      rw [if_neg h2] at h
      split
      · rename_i h3
        rw [if_pos h3] at h
        unfold Checker.checkCWTByKeyID at h ⊢
        dsimp only at h ⊢
        cases hr : resolve r.keyID issuer with
        | error _ => rfl
        | ok vm =>
          rw [hr] at h; dsimp only at h ⊢
          cases hb : byCwtAlg (cwtRegs opts) r.algo with
          | none => rw [hb] at h; exact absurd (.inl rfl) h
          | some d =>
            rw [hb] at h
            have : byCwtAlg (cwtRegs opts ++ cwtRegs more) r.algo = some d := by
              rw [byCwtAlg_find] at hb ⊢; exact find_append hb
            rw [this]
            exact verifyWith_more h
      · rename_i h3
        rw [if_neg h3] at h
        unfold Checker.checkCWTByCOSEKey at h ⊢
        split
        · rfl
        · rename_i h4
          rw [if_neg h4] at h
          dsimp only at h ⊢
          cases hc : coseKey r.keyMaterial with
          | none => rfl
          | some x =>
            obtain ⟨j, kt⟩ := x
            rw [hc] at h; dsimp only at h ⊢
            cases hb : byCwtAlg (cwtRegs opts) r.algo with
            | none => rw [hb] at h; exact absurd (.inl rfl) h
            | some d =>
              rw [hb] at h
              have : byCwtAlg (cwtRegs opts ++ cwtRegs more) r.algo = some d := by
                rw [byCwtAlg_find] at hb ⊢; exact find_append hb
              rw [this]
              dsimp only at h ⊢
              cases hp : convertToPublicKey d.vms ⟨"JsonWebKey2020", [], some j⟩ with
              | none => rfl
              | some pk =>
                rw [hp] at h; dsimp only at h ⊢
                cases hv : getSignatureVerifier (verRegs opts) kt with
                | none => rw [hv] at h; exact absurd (.inr rfl) h
                | some v =>
                  have : getSignatureVerifier (verRegs opts ++ verRegs more) kt = some v := by
                    rw [verifier_find] at hv ⊢; exact find_append hv
                  rw [this]

/-- **C127.**  Only what is registered for its own kind matters: options in any order that register the same lists
make the same checker. -/
theorem same_regs (resolve : String → String → Except Unit VM) {a b : List RegOpt} (h1 : ldRegs a = ldRegs b)
    (h2 : jwtRegs a = jwtRegs b) (h3 : cwtRegs a = cwtRegs b) (h4 : verRegs a = verRegs b) :
    newChecker resolve a = newChecker resolve b := by
  rw [checker_regs, checker_regs, h1, h2, h3, h4]

/-- The options of `NewDefaultProofChecker`, defaults/all.go:37-57. -/
def defaultOpts (p : Prim) : List RegOpt :=
  [.verifiers (defaultVerifiers p), .ldTypes (((defaultLd p).take 5).map fun d => (d.proofType, d.vms)),
   .ldTypeEx "BbsBlsSignatureProof2020" [⟨"Bls12381G2Key2020", .bls12381g2, "", "", false⟩] (some (bbsProofVerifier p)),
   .jwtAlg defaultJwt, .cwtAlg defaultJwt]

/-- The default checker (C33, C34) is the one these options make. -/
theorem default_is_new (p : Prim) (resolve : String → String → Except Unit VM) :
    newChecker resolve (defaultOpts p) = defaultChecker p resolve := by
  rw [checker_regs]
  rfl

/-- The checker for the holder's key (C34) is the one these options make, sdjwt/verifier/verifier.go:297-302. -/
theorem holder_is_new (p : Prim) (vm : VM) (headers : JObj) (msg sig : Bytes) :
    embeddedCheck vm [.verifiers (holderVerifiers p), .jwtAlg defaultJwt] headers msg sig =
      checkEmbedded defaultJwt (holderVerifiers p) vm headers msg sig := by
  unfold embeddedCheck
  rw [checker_regs]
  rfl

end VC.Proof
