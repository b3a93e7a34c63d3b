import Verif.SDJWT.HolderBinding
/-!
# C147: what issuing does to the caller's claims

`NewFromVC` (sdjwt/issuer/issuer.go:415-468) writes into the map it is given.  `FromVC.lean` models what is signed; here
the caller's map is followed through calls.
-/

namespace VC.SDJWT
open VC

/-! ## Model -/

/-- A call of `NewFromVC`, issuer.go:415-468, with the caller's map afterwards.  The members are written (440-455) before
the token is signed (458-461); `sign` is `NewJoseSigned`.  Nothing is written when something fails before (428-438), and
no disclosures are returned when signing fails. -/
def newFromVCCall (E : IEnv) (ver : Ver) (o : BaseOpts) (sign : JObj → Option String) (vc : JObj) :
    Option (List Ent × String) × JObj :=
  match newFromVC E ver o vc with
  | .error _ => (none, vc)
  | .ok (es, claims) =>
    match sign claims with
    | none => (none, claims)
    | some text => (some (es, text), claims)

/-! ## Specification -/

namespace Spec

/-- Two maps agree but for three members. -/
def SameBut (m m' : JObj) : Prop :=
  ∀ k, k ≠ "_sd_alg" → k ≠ "cnf" → k ≠ "credentialSubject" → GoMap.get? m' k = GoMap.get? m k

/-- The maps agree, but for three members of the credential claims: the map under `vc` if there is one, else the map. -/
def CredentialRewritten (m m' : JObj) : Prop :=
  (∃ v v', GoMap.get? m "vc" = some (.obj v) ∧ GoMap.get? m' "vc" = some (.obj v') ∧ SameBut v v' ∧
    ∀ k, k ≠ "vc" → GoMap.get? m' k = GoMap.get? m k) ∨
  ((∀ v, GoMap.get? m "vc" ≠ some (.obj v)) ∧ SameBut m m')

/-- The subject stands in the credential claims only. -/
def OneSubject (m : JObj) : Prop :=
  (∃ v, GoMap.get? m "vc" = some (.obj v)) → GoMap.get? m "credentialSubject" = none

end Spec
open Spec

/-! ## Proofs -/

theorem sameBut_selective (v payload : JObj) : SameBut v (withSelective v payload) := by
  intro k h1 h2 h3
  unfold withSelective moveCnf
  rw [GoMap.get?_set_ne _ _ (Ne.symm h3)]
  split
  · rw [GoMap.get?_set_ne _ _ (Ne.symm h2), GoMap.get?_set_ne _ _ (Ne.symm h1)]
  · rw [GoMap.get?_set_ne _ _ (Ne.symm h1)]

theorem newFromVC_cases {E : IEnv} {ver : Ver} {o : BaseOpts} {vc : JObj} {es : List Ent} {claims : JObj}
    (h : newFromVC E ver o vc = .ok (es, claims)) : ∃ cs payload, getKeyFromVC "credentialSubject" vc = some (.obj cs) ∧
      newWith E ver o cs = .ok (es, payload) ∧
      ((∃ v, GoMap.get? vc "vc" = some (.obj v) ∧ claims = GoMap.set vc "vc" (.obj (withSelective v payload))) ∨
       ((∀ v, GoMap.get? vc "vc" ≠ some (.obj v)) ∧ ver = .v5 ∧ claims = withSelective vc payload)) := by
  unfold newFromVC at h
  split at h
  · cases h
  · next cs hcs =>
    split at h
    · cases h
    · next es' pl hn =>
      split at h
      · cases h
      · next v hc =>
        cases h
        refine ⟨cs, pl, hcs, hn, .inl ⟨v, ?_, rfl⟩⟩
        unfold credentialClaims at hc
        split at hc
        · next w hw' => cases hc; exact hw'
        · cases ver <;> cases hc
      · next hc =>
        cases h
        refine ⟨cs, pl, hcs, hn, .inr ⟨?_, ?_, rfl⟩⟩
        · intro v hv
          unfold credentialClaims at hc
          rw [hv] at hc
          cases hc
        · unfold credentialClaims at hc
          split at hc
          · cases hc
          · cases ver
            · cases hc
            · rfl
  · cases h

/-- **C147** (partial: what does hold).  A call changes nothing in the caller's claims but `_sd_alg`, `cnf` and
`credentialSubject` of the credential claims, and nothing at all when it fails before signing. -/
theorem caller_claims_partial (E : IEnv) (ver : Ver) (o : BaseOpts) (sign : JObj → Option String) (vc : JObj) :
    (∀ e, newFromVC E ver o vc = .error e → newFromVCCall E ver o sign vc = (none, vc)) ∧
    ∀ es claims, newFromVC E ver o vc = .ok (es, claims) →
      CredentialRewritten vc claims ∧ newFromVCCall E ver o sign vc = ((sign claims).map (fun t => (es, t)), claims) := by
  constructor
  · intro e h
    unfold newFromVCCall
    rw [h]
  · intro es claims h
    obtain ⟨cs, pl, -, -, hc⟩ := newFromVC_cases h
    refine ⟨?_, ?_⟩
    · rcases hc with ⟨v, hv, rfl⟩ | ⟨hv, -, rfl⟩
      · exact .inl ⟨v, _, hv, GoMap.get?_set_self _ _ _, sameBut_selective _ _,
          fun k hk => GoMap.get?_set_ne _ _ (Ne.symm hk)⟩
      · exact .inr ⟨hv, sameBut_selective _ _⟩
    · unfold newFromVCCall
      rw [h]
      dsimp only
      cases sign claims <;> rfl

theorem addCustom_has : ∀ {cf obj : JObj} {k : String}, GoMap.get? obj k ≠ none ∨ GoMap.get? cf k ≠ none →
    GoMap.get? (JsonUtil.addCustomFields obj cf) k ≠ none := by
  intro cf
  induction cf with
  | nil =>
    intro obj k h
    rcases h with h | h
    · exact h
    · exact absurd rfl h
  | cons e cf ih =>
    obtain ⟨k', v'⟩ := e
    intro obj k h
    unfold JsonUtil.addCustomFields
    apply ih
    by_cases hk : k' = k
    · subst hk
      left
      split
      · next hs => intro hn; rw [hn] at hs; cases hs
      · rw [GoMap.get?_set_self]; simp
    · rcases h with h | h
      · left
        split
        · exact h
        · rw [GoMap.get?_set_ne _ _ hk]; exact h
      · right
        rw [GoMap.get?_cons, if_neg hk] at h
        exact h

/-- The subject of the rewritten claims. -/
theorem rewritten_subject {E : IEnv} {ver : Ver} {o : BaseOpts} {vc : JObj} {es : List Ent} {claims : JObj}
    (h : newFromVC E ver o vc = .ok (es, claims)) (h1 : OneSubject vc) : ∃ cs payload,
      getKeyFromVC "credentialSubject" vc = some (.obj cs) ∧ newWith E ver o cs = .ok (es, payload) ∧
      getKeyFromVC "credentialSubject" claims = some (.obj (GoMap.del (GoMap.del payload "_sd_alg") "cnf")) := by
  obtain ⟨cs, pl, h2, h3, h4⟩ := newFromVC_cases h
  refine ⟨cs, pl, h2, h3, ?_⟩
  rcases h4 with ⟨v, hv, rfl⟩ | ⟨hv, -, rfl⟩
  · unfold getKeyFromVC
    rw [GoMap.get?_set_ne _ _ (by decide), h1 ⟨v, hv⟩, GoMap.get?_set_self]
    unfold withSelective
    exact GoMap.get?_set_self _ _ _
  · unfold getKeyFromVC withSelective
    rw [GoMap.get?_set_self]

theorem call_map {E : IEnv} {ver : Ver} {o : BaseOpts} (sign : JObj → Option String) {vc : JObj} {es : List Ent}
    {claims : JObj} (h : newFromVC E ver o vc = .ok (es, claims)) : (newFromVCCall E ver o sign vc).2 = claims := by
  unfold newFromVCCall
  rw [h]
  dsimp only
  cases sign claims <;> rfl

/-- **C147**, a hazard.  Once claims have been made an SD-JWT, or signing them has failed, with any claim hidden at any
depth of the subject's objects, they can never be made one again, whatever the options, version and signer. -/
theorem reissue_refused (E : IEnv) (ver : Ver) (o : BaseOpts) (sign : JObj → Option String) (vc : JObj) (es : List Ent)
    (claims s : JObj) (h : newFromVC E ver o vc = .ok (es, claims))
    (hs : getKeyFromVC "credentialSubject" claims = some (.obj s)) (hk : HasKey "_sd" s)
    (E' : IEnv) (ver' : Ver) (o' : BaseOpts) (sign' : JObj → Option String) :
    newFromVC E' ver' o' (newFromVCCall E ver o sign vc).2 = .error (.issue .sdPresent) ∧
    (newFromVCCall E' ver' o' sign' (newFromVCCall E ver o sign vc).2).1 = none := by
  rw [call_map sign h]
  have hk' := (keyExists_iff "_sd" s).2 hk
  have hn : newWith E' ver' o' s = .error .sdPresent := by
    cases ver'
    · simp only [newWith, newV2, hk', if_true]
    · simp only [newWith, newV5, hk', if_true]
  have hr : newFromVC E' ver' o' claims = .error (.issue .sdPresent) := by
    unfold newFromVC
    rw [hs]
    dsimp only
    rw [hn]
  exact ⟨hr, by unfold newFromVCCall; rw [hr]⟩

/-- **C147**, a hazard.  In version 2 that is always so, even if nothing is hidden. -/
theorem reissue_refused_v2 (E : IEnv) (o : BaseOpts) (sign : JObj → Option String) (vc : JObj) (es : List Ent)
    (claims : JObj) (h : newFromVC E .v2 o vc = .ok (es, claims)) (h1 : OneSubject vc)
    (E' : IEnv) (ver' : Ver) (o' : BaseOpts) (sign' : JObj → Option String) :
    newFromVC E' ver' o' (newFromVCCall E .v2 o sign vc).2 = .error (.issue .sdPresent) ∧
    (newFromVCCall E' ver' o' sign' (newFromVCCall E .v2 o sign vc).2).1 = none := by
  obtain ⟨cs, pl, -, h3, h4⟩ := rewritten_subject h h1
  refine reissue_refused E .v2 o sign vc es claims _ h h4 ?_ E' ver' o' sign'
  have hs : GoMap.get? pl "_sd" ≠ none := by
    simp only [newWith, newV2] at h3
    split at h3
    · cases h3
    · cases h3
      apply addCustom_has
      right
      unfold v2Build v2Finish
      intro hn
      rw [GoMap.get?_eq_none_iff] at hn
      exact hn (by simp [GoMap.keys])
  cases hg : GoMap.get? (GoMap.del (GoMap.del pl "_sd_alg") "cnf") "_sd" with
  | some v => exact .here (GoMap.mem_of_get? hg)
  | none =>
    rw [GoMap.get?_del_ne _ (by decide), GoMap.get?_del_ne _ (by decide)] at hg
    exact absurd hg hs

/-! ## Concrete cases -/

/-- The claims of a credential. -/
def rvClaims : JObj := [("iss", .str "did:ex:a"), ("vc", .obj [("type", .str "T"),
  ("credentialSubject", .obj [("name", .str "Ann")])])]

/-- **C147**, witness: when the signer fails, the caller gets no disclosures, and the name is no longer in the claims. -/
theorem failed_signing_loses : ∃ v, newFromVCCall (isIEnv false false isSalts) .v2 isBase (fun _ => none) rvClaims =
      (none, [("iss", .str "did:ex:a"), ("vc", .obj v)]) ∧ (∃ s, GoMap.get? v "credentialSubject" = some (.obj s) ∧
        GoMap.get? s "name" = none) ∧ GoMap.get? v "type" = some (.str "T") := ⟨_, rfl, ⟨_, rfl, rfl⟩, rfl⟩

/-- The hypotheses of `reissue_refused_v2` are met. -/
example : (∃ r, newFromVC (isIEnv false false isSalts) .v2 isBase rvClaims = .ok r) ∧ OneSubject rvClaims :=
  ⟨⟨_, rfl⟩, fun _ => rfl⟩

/-- The hypotheses of `reissue_refused` are met, in version 5. -/
example : ∃ es claims s v, newFromVC (isIEnv false false isSalts5) .v5 isBase rvClaims = .ok (es, claims) ∧
    getKeyFromVC "credentialSubject" claims = some (.obj s) ∧ GoMap.get? s "_sd" = some v :=
  ⟨_, _, _, _, rfl, rfl, rfl⟩

/-- A call that fails earlier leaves the claims alone. -/
example : newFromVCCall (isIEnv false false isSalts) .v2 isBase (fun _ => some "t")
    [("vc", .obj [("credentialSubject", .str "x")])] = (none, [("vc", .obj [("credentialSubject", .str "x")])]) := rfl

end VC.SDJWT
