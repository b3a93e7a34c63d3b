import Verif.SDJWT.FromVC
import Verif.SDJWT.Forge
/-!
# NewFromVC: the subject can be disclosed selectively, everything else is signed as it is
-/

namespace VC.SDJWT
open List

/-! ## Specification -/

/-- The claims of a credential `v` (with the holder's key, if the issuer binds one) whose subject is
`subject`. -/
def VCWith (o : BaseOpts) (v subject : JObj) : JObj :=
  tidyMembers (GoMap.del v "credentialSubject" ++ cnfField o.cnf) ++
    [("credentialSubject", .obj (tidyMembers (basePayload o.noCnf) ++ subject))]

/-- The claims handed to `NewFromVC`: JSON without names reserved by SD-JWT; the subject `cs` does not
use the names of claims set by options, nor `cnf`; if a holder key is bound, the credential has no
`cnf` of its own. -/
structure VCOk (o : BaseOpts) (vc v cs : JObj) : Prop where
  wf : JWF (.obj vc)
  unreserved : UnreservedObj vc
  cnfKey : CnfOk o
  subject : GoMap.get? v "credentialSubject" = some (.obj cs)
  fresh : ∀ k ∈ GoMap.keys cs, k ∉ GoMap.keys (basePayload o) ∧ k ≠ "cnf"
  cnf : o.cnf ≠ none → GoMap.get? v "cnf" = none

/-- What a relying party gets for every choice `S` of disclosures `ds`: the signed claims `payload`
show `shown S`; the disclosures are accepted if `S` has, with every nested disclosure, those around
it. -/
def Presents (env : Env) (payload : JObj) (ms : Members) (ds : List String) (shown : List String → JObj) :
    Prop :=
  ∀ (S : List String) (order : DMap → List String), (∀ s ∈ S, s ∈ ds) → S.Nodup →
    (∀ D, ∀ d ∈ GoMap.keys D, d ∈ order D) →
    (ms.Closed S → verifyDisclosures env S payload = .ok ()) ∧
    ∃ out, disclosedClaims env S payload order = .ok out ∧ OEq out (shown S)

/-! ## Proofs -/

theorem jwf_get {m : JObj} (h : JWF (.obj m)) {k : String} {v : Json} (hg : GoMap.get? m k = some v) :
    JWF v := by
  simp only [JWF] at h
  exact (jwfObj_iff m).1 h.2 _ (GoMap.mem_of_get? hg)

theorem unreserved_get {m : JObj} (h : UnreservedObj m) {k : String} {v : Json}
    (hg : GoMap.get? m k = some v) : Unreserved v :=
  ((unreservedObj_iff m).1 h _ (GoMap.mem_of_get? hg)).2

theorem VCOk.claims {o : BaseOpts} {vc v cs : JObj} (h : VCOk o vc v cs) (hj : JWF (.obj v))
    (hu : UnreservedObj v) : ClaimsOk o cs ∧ "cnf" ∉ GoMap.keys cs ∧ AroundOk o v := by
  refine ⟨⟨jwf_get hj h.subject, ?_, fun k hk => (h.fresh k hk).1⟩, fun hk => (h.fresh _ hk).2 rfl,
    ⟨hj, hu, h.cnf⟩⟩
  have := unreserved_get hu h.subject
  simpa [Unreserved] using this

theorem vcTree_reveal (S : List String) (o : BaseOpts) (v : JObj) (ms : Members) :
    (vcTree o v ms).reveal S = VCWith o v (ms.reveal S) := by
  unfold vcTree VCWith
  rw [wrap_reveal, Members.reveal_append, clear_reveal]

theorem vcTree_closed (S : List String) (o : BaseOpts) (v : JObj) (ms : Members) :
    (vcTree o v ms).Closed S ↔ ms.Closed S := by
  unfold vcTree
  rw [wrap_closed, Members.closed_append]
  simp [clear_closed]

theorem vcTree_discs (o : BaseOpts) (v : JObj) (ms : Members) : (vcTree o v ms).discs = ms.discs := by
  unfold vcTree
  rw [wrap_discs, Members.discs_append, clear_discs]
  rfl

/-- Claims under `vc`. -/
theorem nested_presents {E : IEnv} (he : EnvWF E.env) (halg : AlgOk E) {o : BaseOpts} {vc v : JObj}
    {ms : Members} {g : JObj} {decs ds : List String} (hok : VCOk o vc v ms.erase)
    (hvc : GoMap.get? vc "vc" = some (.obj v)) (hb : Blinded E ms g decs) (hds : ms.discs.Perm ds)
    (hn : DistinctDigests E.env (GoMap.set vc "vc" (.obj (withSelective v (mkPayload E o g)))) ds) :
    Presents E.env (GoMap.set vc "vc" (.obj (withSelective v (mkPayload E o g)))) ms ds
      (fun S => tidyMembers (GoMap.del vc "vc") ++ [("vc", .obj (VCWith o v (ms.reveal S)))]) := by
  have hj := jwf_get hok.wf hvc
  have hu : UnreservedObj v := by
    have := unreserved_get hok.unreserved hvc
    simpa [Unreserved] using this
  obtain ⟨c1, c2, c3⟩ := hok.claims hj hu
  have key := nested_shows he halg hok.cnfKey hb c1 c2 c3 hok.wf hok.unreserved hds hn
  intro S order hS hnS ho
  have := key S order (by
    rw [wrap_discs, vcTree_discs]; exact fun s hs => hds.mem_iff.mpr (hS s hs)) hnS ho
  dsimp only at this
  rw [wrap_reveal, wrap_closed, vcTree_closed, vcTree_reveal] at this
  exact ⟨this.2, this.1⟩

/-- Claims at the top. -/
theorem flat_presents {E : IEnv} (he : EnvWF E.env) (halg : AlgOk E) {o : BaseOpts} {vc : JObj}
    {ms : Members} {g : JObj} {decs ds : List String} (hok : VCOk o vc vc ms.erase)
    (hb : Blinded E ms g decs) (hds : ms.discs.Perm ds)
    (hn : DistinctDigests E.env (withSelective vc (mkPayload E o g)) ds) :
    Presents E.env (withSelective vc (mkPayload E o g)) ms ds (fun S => VCWith o vc (ms.reveal S)) := by
  obtain ⟨c1, c2, c3⟩ := hok.claims hok.wf hok.unreserved
  have key := flat_shows he halg hok.cnfKey hb c1 c2 c3 hds hn
  intro S order hS hnS ho
  have := key S order (by
    rw [vcTree_discs]; exact fun s hs => hds.mem_iff.mpr (hS s hs)) hnS ho
  dsimp only at this
  rw [vcTree_closed, vcTree_reveal] at this
  exact ⟨this.2, this.1⟩

theorem getKey_nested {vc v : JObj} {cs : Json} (htop : GoMap.get? vc "credentialSubject" = none)
    (hvc : GoMap.get? vc "vc" = some (.obj v)) (hs : GoMap.get? v "credentialSubject" = some cs) :
    getKeyFromVC "credentialSubject" vc = some cs := by
  simp only [getKeyFromVC, htop, hvc, hs]

theorem getKey_flat {vc : JObj} {cs : Json} (hs : GoMap.get? vc "credentialSubject" = some cs) :
    getKeyFromVC "credentialSubject" vc = some cs := by
  simp only [getKeyFromVC, hs]

/-- V2: the annotated tree of the subject, and the digests in what is signed. -/
theorem newV2_own {E : IEnv} (hsh : Shuffles E) {o : BaseOpts} {claims payload : JObj} {es : List Ent}
    (hnew : newV2 E o claims = .ok (es, payload)) (hcodec : Codec E.env es) :
    ∃ ms g decs, ms.erase = claims ∧ V2Policy E.structured E.nonSD "" ms ∧
      ms.discs.Perm (es.map Ent.result) ∧ Blinded E ms g decs ∧ payload = mkPayload E o g ∧
      (E.addDecoys = false → UnreservedObj claims → OwnDigests E es g) := by
  unfold newV2 at hnew
  split at hnew
  · cases hnew
  · simp only [Except.ok.injEq, Prod.mk.injEq] at hnew
    obtain ⟨rfl, rfl⟩ := hnew
    obtain ⟨ms, dn, h1, h2, h3, h4⟩ := v2_loop_ok hsh "" (createDecoys E 0).length claims hcodec
    obtain ⟨decs, hb⟩ := v2_finish_ok hsh (decoys := createDecoys E 0) h3
    exact ⟨ms, _, decs, h1, h2, h4, hb, rfl, fun hd hu => v2Build_own hsh hd hu⟩

/-- V5: the annotated tree of the subject, and the digests in what is signed. -/
theorem newV5_own {E : IEnv} (hsh : Shuffles E) {o : BaseOpts}
    {claims payload : JObj} (hnk : NamedKeysObj claims) {es : List Ent}
    (hnew : newV5 E o claims = .ok (es, payload)) (hcodec : Codec E.env (reals es)) :
    ∃ ms g decs, ms.erase = claims ∧ V5Policy E.v5 false "" ms ∧
      ms.discs.Perm ((reals es).map Ent.result) ∧ Blinded E ms g decs ∧ payload = mkPayload E o g ∧
      (E.addDecoys = false → UnreservedObj claims → OwnDigests E es g) := by
  unfold newV5 at hnew
  split at hnew
  · cases hnew
  · unfold v5Build at hnew
    cases hl : v5Loop E false "" (createDecoys E 0).length claims with
    | none => rw [hl] at hnew; simp at hnew
    | some r =>
      rw [hl] at hnew
      simp only [Option.map_some, Except.ok.injEq, Prod.mk.injEq] at hnew
      obtain ⟨rfl, rfl⟩ := hnew
      have hfin : reals (v5Finish E (createDecoys E 0) r).1 = reals (r.level ++ r.nested) := by
        simp only [v5Finish, reals_append, reals_decoys, List.nil_append]
      have hown := fun hu => v5Build_own hsh (claims := claims) hu (r := v5Finish E (createDecoys E 0) r)
        (by unfold v5Build; rw [hl]; rfl)
      rw [hfin] at hcodec ⊢
      obtain ⟨ms, dn, h1, h2, h3, h4⟩ := v5_loop_ok hsh false "" _ claims hnk r hl hcodec
      obtain ⟨decs, hb⟩ := v5_finish_ok hsh (decoys := createDecoys E 0) h3
      exact ⟨ms, _, decs, h1, h2, h4, hb, rfl, fun _ hu => hown hu⟩

/-- V2: the annotated tree of the subject. -/
theorem newV2_tree {E : IEnv} (hsh : Shuffles E) {o : BaseOpts} {claims payload : JObj} {es : List Ent}
    (hnew : newV2 E o claims = .ok (es, payload)) (hcodec : Codec E.env es) :
    ∃ ms g decs, ms.erase = claims ∧ V2Policy E.structured E.nonSD "" ms ∧
      ms.discs.Perm (es.map Ent.result) ∧ Blinded E ms g decs ∧ payload = mkPayload E o g :=
  let ⟨ms, g, decs, h1, h2, h3, h4, h5, _⟩ := newV2_own hsh hnew hcodec
  ⟨ms, g, decs, h1, h2, h3, h4, h5⟩

/-- V5: the annotated tree of the subject. -/
theorem newV5_tree {E : IEnv} (hsh : Shuffles E) {o : BaseOpts}
    {claims payload : JObj} (hnk : NamedKeysObj claims) {es : List Ent}
    (hnew : newV5 E o claims = .ok (es, payload)) (hcodec : Codec E.env (reals es)) :
    ∃ ms g decs, ms.erase = claims ∧ V5Policy E.v5 false "" ms ∧
      ms.discs.Perm ((reals es).map Ent.result) ∧ Blinded E ms g decs ∧ payload = mkPayload E o g :=
  let ⟨ms, g, decs, h1, h2, h3, h4, h5, _⟩ := newV5_own hsh hnk hnew hcodec
  ⟨ms, g, decs, h1, h2, h3, h4, h5⟩

theorem newFromVC_nested {E : IEnv} {ver : Ver} {o : BaseOpts} {vc v cs payload : JObj} {es : List Ent}
    (htop : GoMap.get? vc "credentialSubject" = none) (hvc : GoMap.get? vc "vc" = some (.obj v))
    (hs : GoMap.get? v "credentialSubject" = some (.obj cs))
    (h : newFromVC E ver o vc = .ok (es, payload)) :
    ∃ p, newWith E ver o cs = .ok (es, p) ∧ payload = GoMap.set vc "vc" (.obj (withSelective v p)) := by
  unfold newFromVC at h
  rw [getKey_nested htop hvc hs] at h
  dsimp only at h
  split at h
  · cases h
  · rename_i es' p hp
    simp only [credentialClaims, hvc, Except.ok.injEq, Prod.mk.injEq] at h
    obtain ⟨rfl, rfl⟩ := h
    exact ⟨p, hp, rfl⟩

theorem newFromVC_flat {E : IEnv} {o : BaseOpts} {vc cs payload : JObj} {es : List Ent}
    (hvc : ∀ v, GoMap.get? vc "vc" ≠ some (.obj v))
    (hs : GoMap.get? vc "credentialSubject" = some (.obj cs))
    (h : newFromVC E .v5 o vc = .ok (es, payload)) :
    ∃ p, newV5 E o cs = .ok (es, p) ∧ payload = withSelective vc p := by
  unfold newFromVC at h
  rw [getKey_flat hs] at h
  dsimp only at h
  have hc : credentialClaims .v5 vc = some none := by
    unfold credentialClaims
    split
    · rename_i v hv; exact absurd hv (hvc v)
    · rfl
  rw [hc] at h
  split at h
  · cases h
  · rename_i es' p hp
    simp only [Except.ok.injEq, Prod.mk.injEq] at h
    obtain ⟨rfl, rfl⟩ := h
    exact ⟨p, hp, rfl⟩

/-- **C80** (V2): an SD-JWT made of a credential. The disclosures are exactly those of an annotated
tree of the *subject* that follows the options; for every choice of disclosures the relying party
accepts it and sees the credential's other claims as given, and of the subject exactly the claims in
clear and those disclosed. -/
theorem v2_from_vc {E : IEnv} (he : EnvWF E.env) (hsh : Shuffles E) (halg : AlgOk E) {o : BaseOpts}
    {vc v cs payload : JObj} {es : List Ent} (hok : VCOk o vc v cs)
    (hvc : GoMap.get? vc "vc" = some (.obj v)) (htop : GoMap.get? vc "credentialSubject" = none)
    (hnew : newFromVC E .v2 o vc = .ok (es, payload)) (hcodec : Codec E.env es)
    (hn : DistinctDigests E.env payload (es.map Ent.result)) :
    ∃ ms : Members, ms.erase = cs ∧ V2Policy E.structured E.nonSD "" ms ∧
      ms.discs.Perm (es.map Ent.result) ∧ (∀ S, ms.Closed S) ∧
      Presents E.env payload ms (es.map Ent.result) (fun S =>
        tidyMembers (GoMap.del vc "vc") ++ [("vc", .obj (VCWith o v (ms.reveal S)))]) := by
  obtain ⟨p, h1, rfl⟩ := newFromVC_nested htop hvc hok.subject hnew
  obtain ⟨ms, g, decs, rfl, g2, g3, g4, rfl⟩ := newV2_tree hsh h1 hcodec
  exact ⟨ms, rfl, g2, g3, fun S => V2Policy.closed S "" ms g2, nested_presents he halg hok hvc g4 g3 hn⟩

/-- **C80** (V5, claims at the top): for every choice of the disclosures that are no decoys. -/
theorem v5_from_vc {E : IEnv} (he : EnvWF E.env) (hsh : Shuffles E) (halg : AlgOk E)
    {o : BaseOpts} {vc cs payload : JObj} {es : List Ent}
    (hok : VCOk o vc vc cs) (hnk : NamedKeysObj cs) (hvc : ∀ v, GoMap.get? vc "vc" ≠ some (.obj v))
    (hnew : newFromVC E .v5 o vc = .ok (es, payload)) (hcodec : Codec E.env (reals es))
    (hn : DistinctDigests E.env payload (es.map Ent.result)) :
    ∃ ms : Members, ms.erase = cs ∧ V5Policy E.v5 false "" ms ∧
      ms.discs.Perm ((reals es).map Ent.result) ∧
      Presents E.env payload ms ((reals es).map Ent.result) (fun S => VCWith o vc (ms.reveal S)) := by
  obtain ⟨p, h1, rfl⟩ := newFromVC_flat hvc hok.subject hnew
  obtain ⟨ms, g, decs, rfl, g2, g3, g4, rfl⟩ := newV5_tree hsh hnk h1 hcodec
  exact ⟨ms, rfl, g2, g3, flat_presents he halg hok g4 g3 (hn.sub (List.Sublist.map _ List.filter_sublist))⟩

/-- **C80** (V5, claims under `vc`): for every choice of the disclosures that are no decoys. -/
theorem v5_from_nested_vc {E : IEnv} (he : EnvWF E.env) (hsh : Shuffles E) (halg : AlgOk E)
    {o : BaseOpts} {vc v cs payload : JObj} {es : List Ent}
    (hok : VCOk o vc v cs) (hnk : NamedKeysObj cs) (hvc : GoMap.get? vc "vc" = some (.obj v))
    (htop : GoMap.get? vc "credentialSubject" = none)
    (hnew : newFromVC E .v5 o vc = .ok (es, payload)) (hcodec : Codec E.env (reals es))
    (hn : DistinctDigests E.env payload (es.map Ent.result)) :
    ∃ ms : Members, ms.erase = cs ∧ V5Policy E.v5 false "" ms ∧
      ms.discs.Perm ((reals es).map Ent.result) ∧
      Presents E.env payload ms ((reals es).map Ent.result) (fun S =>
        tidyMembers (GoMap.del vc "vc") ++ [("vc", .obj (VCWith o v (ms.reveal S)))]) := by
  obtain ⟨p, h1, rfl⟩ := newFromVC_nested htop hvc hok.subject hnew
  obtain ⟨ms, g, decs, rfl, g2, g3, g4, rfl⟩ := newV5_tree hsh hnk h1 hcodec
  exact ⟨ms, rfl, g2, g3, nested_presents he halg hok hvc g4 g3 (hn.sub (List.Sublist.map _ List.filter_sublist))⟩

/-! ## Everything disclosed -/

/-- The options set no claim at all (as for credentials turned into SD-JWTs). -/
def NoOpts (o : BaseOpts) : Prop := basePayload o = [] ∧ o.cnf = none

theorem solid_iff (m : JObj) : SolidObj m ↔ ∀ p ∈ m, Solid p.2 := by
  induction m with
  | nil => simp [SolidObj]
  | cons p m ih => obtain ⟨k, v⟩ := p; simp [SolidObj, ih]

theorem solid_del {m : JObj} (h : SolidObj m) (k : String) : SolidObj (GoMap.del m k) := by
  rw [solid_iff] at h ⊢
  exact fun p hp => h p (List.mem_filter.1 hp).1

theorem vcWith_same {o : BaseOpts} (ho : NoOpts o) {v cs : JObj} (hs : SolidObj v)
    (hg : GoMap.get? v "credentialSubject" = some (.obj cs)) (wf : GoMap.WF v) :
    OEq (VCWith o v cs) v := by
  obtain ⟨h1, h2⟩ := ho
  have hb : basePayload o.noCnf = [] := by
    rw [base_split] at h1
    exact (List.append_eq_nil_iff.1 h1).1
  unfold VCWith
  rw [hb, h2]
  simp only [cnfField, List.append_nil, tidyMembers, List.nil_append]
  rw [tidyMembers_solid _ (solid_del hs _)]
  refine OEq.symm' (OEq.of_perm ?_ wf)
  exact (perm_del wf hg).trans (List.perm_append_singleton _ _).symm
where
  OEq.symm' {a b : JObj} (h : OEq a b) : OEq b a := JE.symm h

/-- **C80** (V2): with all disclosures, and if the credential has no null and no empty array, the
relying party sees exactly the credential. -/
theorem v2_from_vc_full {E : IEnv} (he : EnvWF E.env) (hsh : Shuffles E) (halg : AlgOk E) {o : BaseOpts}
    (hno : NoOpts o) {vc v cs payload : JObj} {es : List Ent} (hok : VCOk o vc v cs)
    (hvc : GoMap.get? vc "vc" = some (.obj v)) (htop : GoMap.get? vc "credentialSubject" = none)
    (hsolid : SolidObj vc)
    (hnew : newFromVC E .v2 o vc = .ok (es, payload)) (hcodec : Codec E.env es)
    (hnd : (es.map Ent.result).Nodup) (hn : DistinctDigests E.env payload (es.map Ent.result))
    {order : DMap → List String} (ho : ∀ D, ∀ d ∈ GoMap.keys D, d ∈ order D) :
    verifyDisclosures E.env (es.map Ent.result) payload = .ok () ∧
    ∃ out, disclosedClaims E.env (es.map Ent.result) payload order = .ok out ∧ OEq out vc := by
  obtain ⟨ms, h1, h2, h3, h4, h5⟩ := v2_from_vc he hsh halg hok hvc htop hnew hcodec hn
  obtain ⟨g1, out, g2, g3⟩ := h5 (es.map Ent.result) order (fun _ h => h) hnd ho
  refine ⟨g1 (h4 _), out, g2, .trans g3 ?_⟩
  have hsv : SolidObj v := by
    have := (solid_iff vc).1 hsolid _ (GoMap.mem_of_get? hvc)
    simpa [Solid] using this
  have hsc : SolidObj cs := by
    have := (solid_iff v).1 hsv _ (GoMap.mem_of_get? hok.subject)
    simpa [Solid] using this
  have hwf := hok.wf
  have hwv := jwf_get hok.wf hvc
  simp only [JWF] at hwf hwv
  dsimp only
  rw [Members.reveal_all _ ms (h1 ▸ hsc) (fun s hs => h3.mem_iff.mp hs), h1,
    tidyMembers_solid _ (solid_del hsolid _)]
  refine .trans (JE.append .refl (.fcons (.obj (vcWith_same hno hsv hok.subject hwv.1)) .refl)) ?_
  refine JE.symm (OEq.of_perm ?_ hwf.1)
  exact (perm_del hwf.1 hvc).trans (List.perm_append_singleton _ _).symm

end VC.SDJWT
