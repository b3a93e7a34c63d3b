import Verif.SDJWT.FromVCMake
/-!
# Concrete SD-JWT credentials: the hypotheses of C80 and C81 are met, and where claims leak
-/

namespace VC.SDJWT
open List

/-- The subject of the examples. -/
def fvSubject : JObj :=
  [("id", .str "did:ex:ann"), ("name", .str "Ann"),
   ("addr", .obj [("city", .str "Ulm"), ("zip", .num 89073)])]

/-- The credential of the examples. -/
def fvCred : JObj := [("type", .str "VC"), ("credentialSubject", .obj fvSubject)]

/-- The claims of a JWT credential. -/
def fvClaims : JObj := [("iss", .str "did:ex:issuer"), ("vc", .obj fvCred)]

def fvSalts (n : Nat) : String := if n = 0 then "s0" else "s1"

def fvE : IEnv := isIEnv true false fvSalts

/-- What is issued (V2): the identifier and the postcode in clear. -/
def fvV2 : List Ent × JObj :=
  ([⟨"ds1", [.str "s1", .str "city", .str "Ulm"]⟩, ⟨"ds0", [.str "s0", .str "name", .str "Ann"]⟩],
   [("iss", .str "did:ex:issuer"),
    ("vc", .obj
      [("type", .str "VC"),
       ("credentialSubject", .obj
         [("id", .str "did:ex:ann"),
          ("addr", .obj [("zip", .num 89073), ("_sd", .arr [.str "hds1"])]),
          ("_sd", .arr [.str "hds0"])]),
       ("_sd_alg", .str "sha-256")])])

/-- What is issued (V5). -/
def fvV5 : List Ent × JObj :=
  ([⟨"ds0", [.str "s0", .str "name", .str "Ann"]⟩, ⟨"ds1", [.str "s1", .str "city", .str "Ulm"]⟩],
   [("type", .str "VC"),
    ("credentialSubject", .obj
      [("id", .str "did:ex:ann"),
       ("addr", .obj [("zip", .num 89073), ("_sd", .arr [.str "hds1"])]),
       ("_sd", .arr [.str "hds0"])]),
    ("_sd_alg", .str "sha-256")])

theorem fvV2_issued : makeSDJWT fvE .v2 ["addr.zip"] fvClaims = .ok (fvV2.1, fvV2.2) := rfl

theorem fvV5_issued : makeSDJWT fvE .v5 ["addr.zip"] fvCred = .ok (fvV5.1, fvV5.2) := rfl

theorem fvV2_codec : Codec fvE.env fvV2.1 := by
  intro e he
  simp only [fvV2, List.mem_cons, List.not_mem_nil, or_false] at he
  rcases he with rfl | rfl <;> rfl

theorem fvV5_codec : Codec fvE.env fvV5.1 := by
  intro e he
  simp only [fvV5, List.mem_cons, List.not_mem_nil, or_false] at he
  rcases he with rfl | rfl <;> rfl

theorem fvV2_digests : DistinctDigests fvE.env fvV2.2 (fvV2.1.map Ent.result) := by
  unfold DistinctDigests; decide +kernel

theorem fvV5_digests : DistinctDigests fvE.env fvV5.2 (fvV5.1.map Ent.result) := by
  unfold DistinctDigests; decide +kernel

theorem fv_claims2 : CredClaims .v2 fvClaims fvSubject := by
  refine ⟨?_, ?_, .nested (v := fvCred) rfl rfl, ?_, fun _ => rfl, fun h => by cases h⟩
  · simp [fvClaims, fvCred, fvSubject, JWF, JWFObj, GoMap.keys]
  · simp [fvClaims, fvCred, fvSubject, UnreservedObj, Unreserved]
  · simp [fvSubject, GoMap.keys]

theorem fv_claims5 : CredClaims .v5 fvCred fvSubject := by
  refine ⟨?_, ?_, .flat rfl, ?_, (fun h => by cases h), (fun _ v h => ?_)⟩
  · simp [fvCred, fvSubject, JWF, JWFObj, GoMap.keys]
  · simp [fvCred, fvSubject, UnreservedObj, Unreserved]
  · simp [fvSubject, GoMap.keys]
  · rw [show GoMap.get? fvCred "vc" = none from rfl] at h; cases h

theorem fv_named : NamedKeysObj fvSubject := by simp [fvSubject, NamedKeysObj, NamedKeys]

/-- `make_shows_listed` applies (V2): presenting only the name, the identifier is seen. -/
example : ∃ out cs', disclosedClaims fvE.env ["ds0"] fvV2.2 GoMap.keys = .ok out ∧
    SubjectIn .v2 out cs' ∧ GoMap.get? cs' "id" = some (.str "did:ex:ann") :=
  make_shows_listed isEnv_wf (isIEnv_shuffles _ _ _) (isIEnv_alg _ _ _) fv_claims2
    (fun h => by cases h) fvV2_issued fvV2_codec fvV2_digests (Or.inl rfl) rfl trivial
    (by decide +kernel) (by decide +kernel) (fun _ _ h => h)

/-- `make_shows_listed` applies (V5). -/
example : ∃ out cs', disclosedClaims fvE.env [] fvV5.2 GoMap.keys = .ok out ∧
    SubjectIn .v5 out cs' ∧ GoMap.get? cs' "id" = some (.str "did:ex:ann") :=
  make_shows_listed isEnv_wf (isIEnv_shuffles _ _ _) (isIEnv_alg _ _ _) fv_claims5
    (fun _ => fv_named) fvV5_issued fvV5_codec fvV5_digests (Or.inl rfl) rfl trivial
    (by decide +kernel) (by decide +kernel) (fun _ _ h => h)

/-- `make_hides_unlisted` applies (V2 and V5): the name is hidden. -/
example : ∃ d ∈ fvV2.1.map Ent.result, ∀ (S : List String) (order : DMap → List String),
    (∀ s ∈ S, s ∈ fvV2.1.map Ent.result) → S.Nodup → (∀ D, ∀ d ∈ GoMap.keys D, d ∈ order D) → d ∉ S →
    ∃ out cs', disclosedClaims fvE.env S fvV2.2 order = .ok out ∧ SubjectIn .v2 out cs' ∧
      GoMap.get? cs' "name" = none :=
  make_hides_unlisted isEnv_wf (isIEnv_shuffles _ _ _) (isIEnv_alg _ _ _) fv_claims2
    (fun h => by cases h) fvV2_issued fvV2_codec fvV2_digests (by decide) (by decide)
    (show GoMap.get? fvSubject "name" = some (.str "Ann") from rfl) trivial

example : ∃ d ∈ fvV5.1.map Ent.result, ∀ (S : List String) (order : DMap → List String),
    (∀ s ∈ S, s ∈ fvV5.1.map Ent.result) → S.Nodup → (∀ D, ∀ d ∈ GoMap.keys D, d ∈ order D) → d ∉ S →
    ∃ out cs', disclosedClaims fvE.env S fvV5.2 order = .ok out ∧ SubjectIn .v5 out cs' ∧
      GoMap.get? cs' "name" = none :=
  make_hides_unlisted isEnv_wf (isIEnv_shuffles _ _ _) (isIEnv_alg _ _ _) fv_claims5
    (fun _ => fv_named) fvV5_issued fvV5_codec fvV5_digests (by decide) (by decide)
    (show GoMap.get? fvSubject "name" = some (.str "Ann") from rfl) trivial

/-- `make_keeps_objects` applies. -/
example : ∃ out cs' m', disclosedClaims fvE.env [] fvV5.2 GoMap.keys = .ok out ∧
    SubjectIn .v5 out cs' ∧ GoMap.get? cs' "addr" = some (.obj m') :=
  make_keeps_objects isEnv_wf (isIEnv_shuffles _ _ _) (isIEnv_alg _ _ _) fv_claims5
    (fun _ => fv_named) fvV5_issued fvV5_codec fvV5_digests rfl (fun _ => rfl)
    (by decide +kernel) (by decide +kernel) (fun _ _ h => h)

theorem fv_vcok : VCOk noOpts fvClaims fvCred fvSubject :=
  ⟨fv_claims2.wf, fv_claims2.unreserved, by simp [CnfOk, noOpts], rfl,
    fun k hk => ⟨by simp [noOpts, basePayload, strField, numField, cnfField, GoMap.keys],
      fun e => fv_claims2.noCnf (e ▸ hk)⟩, by simp [noOpts]⟩

theorem fv_vcok5 : VCOk noOpts fvCred fvCred fvSubject :=
  ⟨fv_claims5.wf, fv_claims5.unreserved, by simp [CnfOk, noOpts], rfl,
    fun k hk => ⟨by simp [noOpts, basePayload, strField, numField, cnfField, GoMap.keys],
      fun e => fv_claims2.noCnf (e ▸ hk)⟩, by simp [noOpts]⟩

/-- `v2_from_vc` and `v2_from_vc_full` apply. -/
example : (∃ ms : Members, ms.erase = fvSubject ∧ (∀ S, ms.Closed S) ∧
      ms.discs.Perm (fvV2.1.map Ent.result)) ∧
    verifyDisclosures fvE.env (fvV2.1.map Ent.result) fvV2.2 = .ok () ∧
    ∃ out, disclosedClaims fvE.env (fvV2.1.map Ent.result) fvV2.2 GoMap.keys = .ok out ∧
      OEq out fvClaims := by
  constructor
  · obtain ⟨ms, h1, -, h3, h4, -⟩ := v2_from_vc (E := makeEnv fvE ["addr.zip"]) isEnv_wf
      (isIEnv_shuffles false false fvSalts) (isIEnv_alg false false fvSalts) fv_vcok rfl rfl
      fvV2_issued fvV2_codec fvV2_digests
    exact ⟨ms, h1, h4, h3⟩
  · exact v2_from_vc_full (E := makeEnv fvE ["addr.zip"]) isEnv_wf
      (isIEnv_shuffles false false fvSalts) (isIEnv_alg false false fvSalts) noOpts_ok fv_vcok rfl rfl
      (by simp [fvClaims, fvCred, fvSubject, SolidObj, Solid]) fvV2_issued fvV2_codec
      (by decide +kernel) fvV2_digests (fun _ _ h => h)

/-- With a holder key, expiry and subject: the key moves next to the subject, the rest into it. -/
def fvBase : BaseOpts :=
  { noOpts with
    cnf := some (.obj [("kty", .str "OKP")])
    exp := some 9 }

/-- `v2_from_vc` applies with options. -/
example : VCOk fvBase fvClaims fvCred fvSubject ∧
    newFromVC (makeEnv fvE ["addr.zip"]) .v2 fvBase fvClaims = .ok (fvV2.1,
      [("iss", .str "did:ex:issuer"),
       ("vc", .obj
         [("type", .str "VC"),
          ("credentialSubject", .obj
            [("exp", .num 9), ("id", .str "did:ex:ann"),
             ("addr", .obj [("zip", .num 89073), ("_sd", .arr [.str "hds1"])]),
             ("_sd", .arr [.str "hds0"])]),
          ("_sd_alg", .str "sha-256"),
          ("cnf", .obj [("jwk", .obj [("kty", .str "OKP")])])])]) := by
  refine ⟨⟨fv_claims2.wf, fv_claims2.unreserved, ?_, rfl, fun k hk => ⟨?_, ?_⟩, fun _ => rfl⟩, rfl⟩
  · simp [CnfOk, fvBase, Unreserved, UnreservedObj, JWF, JWFObj, GoMap.keys]
  · simp only [fvSubject, GoMap.keys, List.map_cons, List.map_nil, List.mem_cons, List.not_mem_nil,
      or_false] at hk
    rcases hk with rfl | rfl | rfl <;> decide +kernel
  · exact fun e => fv_claims2.noCnf (e ▸ hk)

/-- `v5_from_vc` applies. -/
example : ∃ ms : Members, ms.erase = fvSubject ∧ ms.discs.Perm (fvV5.1.map Ent.result) := by
  obtain ⟨ms, h1, -, h3, -⟩ := v5_from_vc (E := makeEnv fvE ["addr.zip"]) isEnv_wf
      (isIEnv_shuffles false false fvSalts) (isIEnv_alg false false fvSalts) fv_vcok5 fv_named
      (fun v h => fv_claims5.only5 rfl v h) fvV5_issued fvV5_codec fvV5_digests
  exact ⟨ms, h1, h3⟩

/-- `v5_from_nested_vc` applies: V5 from claims with a `vc` object. -/
example : ∃ es p, newFromVC (makeEnv fvE ["addr.zip"]) .v5 noOpts fvClaims = .ok (es, p) ∧
    es = fvV5.1 ∧ p = fvV2.2 ∧
    ∃ ms : Members, ms.erase = fvSubject ∧ ms.discs.Perm (es.map Ent.result) := by
  refine ⟨fvV5.1, fvV2.2, rfl, rfl, rfl, ?_⟩
  obtain ⟨ms, h1, -, h3, -⟩ := v5_from_nested_vc (E := makeEnv fvE ["addr.zip"]) isEnv_wf
      (isIEnv_shuffles false false fvSalts) (isIEnv_alg false false fvSalts) fv_vcok fv_named
      (payload := fvV2.2) (es := fvV5.1) rfl rfl rfl fvV5_codec
      (by unfold DistinctDigests; decide +kernel)
  exact ⟨ms, h1, h3⟩

/-! ## A leak -/

/-- **C80 fails for claims with a subject at the top and an object `vc`**: the subject at the top is
made selectively disclosable, but the result replaces the one inside `vc`; the subject at the top is
signed in clear, with every claim that was to be hidden. (Both versions; with V5 any credential with a
custom object member `vc` is affected.) -/
theorem from_vc_leaks :
    ∃ (E : IEnv) (claims cs : JObj), Shuffles E ∧ AlgOk E ∧ E.nonSD "name" = false ∧
      GoMap.get? claims "credentialSubject" = some (.obj cs) ∧
      GoMap.get? cs "name" = some (.str "Ann") ∧
      ∀ ver, ∃ es payload, newFromVC E ver noOpts claims = .ok (es, payload) ∧ es ≠ [] ∧
        GoMap.get? payload "credentialSubject" = some (.obj cs) ∧
        ∃ out, disclosedClaims E.env [] payload GoMap.keys = .ok out ∧
          GoMap.get? out "credentialSubject" = some (.obj cs) := by
  refine ⟨makeEnv fvE ["addr.zip"], fvCred ++ [("vc", .obj [])], fvSubject,
    isIEnv_shuffles false false fvSalts, isIEnv_alg false false fvSalts, by decide +kernel, rfl, rfl,
    fun ver => ?_⟩
  cases ver
  · exact ⟨fvV2.1, fvCred ++ [("vc", .obj [("_sd_alg", .str "sha-256"), ("credentialSubject", .obj
      [("id", .str "did:ex:ann"), ("addr", .obj [("zip", .num 89073), ("_sd", .arr [.str "hds1"])]),
       ("_sd", .arr [.str "hds0"])])])], rfl, by simp [fvV2], rfl, fvCred ++ [("vc", .obj
        [("credentialSubject", .obj [("id", .str "did:ex:ann"), ("addr", .obj [("zip", .num 89073)])])])],
      rfl, rfl⟩
  · exact ⟨fvV5.1, fvCred ++ [("vc", .obj [("_sd_alg", .str "sha-256"), ("credentialSubject", .obj
      [("id", .str "did:ex:ann"), ("addr", .obj [("zip", .num 89073), ("_sd", .arr [.str "hds1"])]),
       ("_sd", .arr [.str "hds0"])])])], rfl, by simp [fvV5], rfl, fvCred ++ [("vc", .obj
        [("credentialSubject", .obj [("id", .str "did:ex:ann"), ("addr", .obj [("zip", .num 89073)])])])],
      rfl, rfl⟩

/-! ## Errors -/

/-- `NewFromVC` fails exactly if there is no subject, the subject is not an object (an array of
subjects, for example), issuance of the subject fails, or (V2) there is no object `vc`. -/
theorem from_vc_fails_iff (E : IEnv) (ver : Ver) (o : BaseOpts) (vc : JObj) :
    (∃ e, newFromVC E ver o vc = .error e) ↔
      (∀ cs, getKeyFromVC "credentialSubject" vc ≠ some (.obj cs)) ∨
      (∃ cs e, getKeyFromVC "credentialSubject" vc = some (.obj cs) ∧ newWith E ver o cs = .error e) ∨
      (ver = .v2 ∧ ∀ v, GoMap.get? vc "vc" ≠ some (.obj v)) := by
  unfold newFromVC
  cases hk : getKeyFromVC "credentialSubject" vc with
  | none => simp
  | some j =>
    cases j with
    | obj cs =>
      dsimp only
      cases hn : newWith E ver o cs with
      | error e => simp [hn]
      | ok r =>
        obtain ⟨es, p⟩ := r
        dsimp only
        unfold credentialClaims
        cases hv : GoMap.get? vc "vc" with
        | none => cases ver <;> simp [hn]
        | some w => cases w <;> cases ver <;> simp [hn]
    | _ => simp

example : newFromVC fvE .v2 noOpts [("vc", .obj [("credentialSubject", .arr [.obj fvSubject])])] =
    .error .badSubject := rfl

end VC.SDJWT
