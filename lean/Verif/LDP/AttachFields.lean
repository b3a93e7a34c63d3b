import Verif.LDP.AttachProps
import Verif.DataIntegrity.RoundTrip
/-!
# The proofs that are added to credentials and presentations (C86)
-/

namespace VC.LDP

open VC.Proof VC.Vfy GoMap Spec VC.Vfy.Spec

variable {T : Type} (env : Env T)

namespace Spec

/-- The fields a proof takes from the options of `AddLinkedDataProof`. -/
structure Requested (env : Env T) (ctx : PCtx T) (p : Prf T) : Prop where
  type : p.type = ctx.sigType
  repr : p.repr = ctx.repr
  created : ∀ t, ctx.created = some t → p.created = t
  createdNow : ctx.created = none → p.created = env.now
  domain : p.domain = ctx.domain
  vm : p.vm = ctx.vm
  challenge : p.challenge = ctx.challenge
  purpose : ctx.purpose ≠ "" → p.purpose = ctx.purpose
  purposeDefault : ctx.purpose = "" → p.purpose = "assertionMethod"
  capChain : p.capChain = ctx.capChain
  nonce : p.nonce = []
  creator : p.creator = ""

end Spec

theorem requested {ctx : PCtx T} {p : Prf T} (h : FromContext env (mapContext ctx) p) : Requested env ctx p :=
  ⟨h.type, h.repr, h.created, h.createdNow, h.domain, h.vm, h.challenge, h.purpose, h.purposeDefault,
    h.capChain, h.nonce, h.creator⟩

/-- **C86** (credential): the proof that is added has the fields asked for and the signature of the
creator's suite over the credential's document. -/
theorem credential_new_proof (lib : ProofLib env) {S : Type} {c : Creator} {ctx : PCtx T} {vc vc' : PCred S}
    (h : addToCred env c ctx vc = (vc', true)) :
    ∃ (d : LdCreate) (p : Prf T) (msg sig : Bytes),
      FirstWith (fun d : LdCreate => d.suite.proofType) c.ld ctx.sigType d ∧ Supports d.suite ctx.keyType ∧
      Requested env ctx p ∧ env.verifyData (d.suite.canon false) d.suite.digest vc.json p = some msg ∧
      d.sign msg = some sig ∧ Carries env c (mapContext ctx) p sig ∧ env.addProof vc.json p = some vc'.json := by
  unfold addToCred addLinked at h
  cases hs : sign env c (mapContext ctx) vc.json with
  | none => rw [hs] at h; cases h
  | some doc' =>
    rw [hs] at h
    dsimp only at h
    obtain ⟨d, p, msg, sig, _, h1, h2, h3, h4, h5, h6, h7⟩ := sign_spec env lib.toLibOk hs
    have hj : vc'.json = doc' := by
      split at h
      · cases h
      · rename_i e; cases h; exact (congrArg Prod.fst e).symm
    exact ⟨d, p, msg, sig, h1, h2, requested env h3, h4, h5, h6, by rw [hj]; exact h7⟩

/-- **C86** (presentation): likewise, over the document the presentation is written as. -/
theorem presentation_new_proof (lib : ProofLib env) {S : Type} {u : PCred S → Option Json} {c : Creator}
    {ctx : PCtx T} {vp vp' : Pres S} (h : addToPres env u c ctx vp = some vp') :
    ∃ (d : LdCreate) (p : Prf T) (msg sig : Bytes) (raw doc' : JObj),
      FirstWith (fun d : LdCreate => d.suite.proofType) c.ld ctx.sigType d ∧ Supports d.suite ctx.keyType ∧
      rawPres u vp = some raw ∧
      Requested env ctx p ∧ env.verifyData (d.suite.canon false) d.suite.digest raw p = some msg ∧
      d.sign msg = some sig ∧ Carries env c (mapContext ctx) p sig ∧ env.addProof raw p = some doc' ∧
      parseLDProof (.json (JObj.at doc' "proof")) = some vp'.proofs := by
  unfold addToPres at h
  obtain ⟨raw, hr, h⟩ := Option.bind_eq_some_iff.1 h
  unfold addLinked at h
  cases hs : sign env c (mapContext ctx) raw with
  | none => rw [hs] at h; cases h
  | some doc' =>
    rw [hs] at h
    dsimp only at h
    obtain ⟨d, p, msg, sig, _, h1, h2, h3, h4, h5, h6, h7⟩ := sign_spec env lib.toLibOk hs
    obtain ⟨ps, hp, rfl⟩ := Option.map_eq_some_iff.1 h
    exact ⟨d, p, msg, sig, raw, doc', h1, h2, hr, requested env h3, h4, h5, h6, h7, hp⟩

/-! ## Data Integrity -/

namespace Spec

/-- The fields of a Data Integrity proof made with the given options. -/
structure DIRequested (di : DI.Env) (now : di.T) (c : DICtx di.T) (p : DI.Prf) : Prop where
  type : p.type = "DataIntegrityProof"
  purpose : c.purpose ≠ "" → p.purpose = c.purpose
  purposeDefault : c.purpose = "" → p.purpose = "assertionMethod"
  key : ∃ r v, di.resolver = some r ∧ DI.Spec.Resolves r p.purpose c.key v ∧ p.vm = v.id
  suite : p.cryptosuite = c.suite ∨ (c.suite = "eddsa-2022" ∧ p.cryptosuite = "eddsa-rdfc-2022")
  domain : p.domain = c.domain
  challenge : p.challenge = c.challenge
  created : ∀ t, c.created = some t → p.created = di.fmtT t
  createdNow : c.created = none → p.created = di.fmtT now
  expires : ∀ t, c.expires = some t → di.isZero t = false → p.expires = di.fmtT t
  noExpiry : c.expires = none → di.isZero di.zeroT = true → p.expires = ""

end Spec

/-- **C86** (Data Integrity): the fields of the new proof. -/
theorem di_new_proof {S : Type} {di : DI.Env} {suites : GoMap (DI.Suite di)} (std : DI.Spec.Standard di suites)
    {now : di.T} {c : DICtx di.T} {vc vc' : PCred S} (h : addDIToCred di suites now c vc = some vc') :
    ∃ o p, vc'.proofs = [o] ∧ DI.Spec.IsProof (.obj o) p ∧ DIRequested di now c p := by
  unfold addDIToCred at h
  obtain ⟨ps, h1, h2⟩ := Option.map_eq_some_iff.1 h
  obtain ⟨o, rfl, ho⟩ := addDI_one h1
  rw [if_neg (by simp)] at h2
  cases h2
  obtain ⟨s, r, v, p, o1, _, hr, hv, _, _, hd, t1, t2, t3, t4, t5, t6, t7, t8⟩ :=
    DI.addProof_ok di std (o := diOpts di now c) rfl ho
  have ho : o = DI.marshalProof p := by
    have := congrArg (fun m => get? m "proof") hd
    simpa [get?_set_self] using this
  refine ⟨o, p, rfl, ?_, ⟨t1, fun hp => ?_, fun hp => ?_, ⟨r, v, hr, ?_, t3⟩, ?_, t4, t5, fun t ht => ?_,
    fun hn => ?_, fun t ht hz => ?_, fun hn hz => ?_⟩⟩
  · rw [ho]
    exact (DI.parseProof_obj_iff _ _).1 (DI.parse_marshal p)
  · rw [t2]; simp [diOpts, hp]
  · rw [t2]; simp [diOpts, hp]
  · rw [t2]; exact hv
  · rw [t8]
    by_cases e : (diOpts di now c).suiteType = "eddsa-2022"
    · rw [if_pos e]; exact .inr ⟨e, rfl⟩
    · rw [if_neg e]; exact .inl rfl
  · rw [t6]; simp [diOpts, ht]
  · rw [t6]; simp [diOpts, hn]
  · rw [t7]; simp [diOpts, ht, hz]
  · rw [t7]; simp [diOpts, hn, hz]

theorem set_set {α : Type} (m : GoMap α) (k : String) (v : α) : set (set m k v) k v = set m k v := by
  induction m with
  | nil => simp [GoMap.set]
  | cons p m ih =>
    obtain ⟨k', v'⟩ := p
    by_cases h : k' = k
    · simp [GoMap.set, h]
    · simp [GoMap.set, h, ih]

/-- **C86** (Data Integrity): a credential without a proof, after `AddDataIntegrityProof` and written,
passes the Data Integrity check that credentials are parsed with, under the assumptions of C51. -/
theorem di_add_then_verify_partial {S : Type} {di : DI.Env} {suites vs : GoMap (DI.Suite di)}
    (std : DI.Spec.Standard di suites) (vstd : DI.Spec.Standard di vs) (hz : di.isZero di.zeroT = true)
    (mb : ∀ b, di.mbDecode (di.mbEncode b) = some b) {now : di.T} {c : DICtx di.T} {vc vc' : PCred S}
    (hreg : ∀ n, DI.SameFamily n c.suite → (get? vs n).isSome)
    (hkey : ∀ r v pu, (c.purpose ≠ "" ∧ pu = c.purpose) ∨ (c.purpose = "" ∧ pu = "assertionMethod") →
      di.resolver = some r → DI.Spec.Resolves r pu c.key v → v.id = c.key ∧ DI.SignsFor di c.suite v)
    (hcr : DI.Survives di (c.created.getD now)) (hex : DI.NotExpired di (c.expires.getD di.zeroT))
    (hs : c.suite ≠ "eddsa-2022") (hp : vc.proofs = []) (hdoc : get? vc.json "proof" = none)
    (h : addDIToCred di suites now c vc = some vc') :
    (DI.verifyProof di vs (toRawJSON vc') (DI.freshOpts di c.purpose c.domain c.challenge)).1 = .ok () := by
  obtain ⟨o, h1, _, _, _, h4⟩ := credential_adds_di_partial hp h
  have hj : toRawJSON vc' = set vc.json "proof" (.obj o) := by
    rw [hp] at h1
    unfold addDIToCred at h
    obtain ⟨ps, g1, g2⟩ := Option.map_eq_some_iff.1 h
    obtain ⟨o', rfl, go⟩ := addDI_one g1
    rw [if_neg (by simp)] at g2
    cases g2
    simp only [List.nil_append, List.cons.injEq, and_true] at h1
    subst h1
    unfold toRawJSON
    dsimp only
    rw [if_neg (by simp)]
    exact set_set _ _ _
  rw [hj]
  refine DI.sign_verify_roundtrip_partial di (o := diOpts di now c) std vstd hz mb rfl rfl hreg
    (fun r v hr hv => hkey r v _ (by
      by_cases e : c.purpose = ""
      · right; simp [diOpts, e]
      · left; simp [diOpts, e]) hr hv) hcr hex hdoc ⟨rfl, rfl, rfl, rfl, rfl, rfl, rfl, rfl, .inr ⟨rfl, hs⟩⟩ h4

end VC.LDP
