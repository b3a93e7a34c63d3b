import Verif.SDJWT.FromVCMake
/-!
# MakeSDJWT, read through other claims

The signed claims of an SD-JWT credential are not what a reader resolves the disclosures in: the
reader first rewrites them (the issuer, the id and the dates come from the registered claims).  Here: what
any object with the same selective subject and hash algorithm shows.
-/

namespace VC.SDJWT
open List

/-! ## The tree of the subject -/

/-- What `makeSDJWT` signs: the subject's tree `ms`, blinded as `g`. -/
theorem make_shape {E : IEnv} (hsh : Shuffles E) {ver : Ver} {non : List String} {claims cs payload : JObj}
    {es : List Ent} (hok : CredClaims ver claims cs) (hnk : ver = .v5 → NamedKeysObj cs)
    (hnew : makeSDJWT E ver non claims = .ok (es, payload)) (hcodec : Codec E.env es) (hus : UnreservedObj cs) :
    ∃ (ms : Members) (g : JObj) (decs : List String), ms.erase = cs ∧
      Policy (makeEnv E non) ver ms ∧ ms.discs.Perm (es.map Ent.result) ∧
      Blinded (makeEnv E non) ms g decs ∧ OwnDigests (makeEnv E non) es g ∧
      (∀ v, ver = .v2 → GoMap.get? claims "vc" = some (.obj v) →
        payload = GoMap.set claims "vc" (.obj (withSelective v (mkPayload (makeEnv E non) noOpts g)))) ∧
      (ver = .v5 → payload = withSelective claims (mkPayload (makeEnv E non) noOpts g)) := by
  have hsh' : Shuffles (makeEnv E non) := hsh
  have hcodec' : Codec (makeEnv E non).env es := hcodec
  obtain ⟨wf, un, sub, nc, only2, only5⟩ := hok
  cases sub with
  | @nested _ v _ hvc hs =>
    obtain ⟨p, h1, h2⟩ := newFromVC_nested (only2 rfl) hvc hs hnew
    obtain ⟨ms, g, decs, rfl, g2, g3, g4, rfl, g5⟩ := newV2_own hsh' h1 hcodec'
    refine ⟨ms, g, decs, rfl, g2, g3, g4, g5 rfl hus, ?_, by intro h; cases h⟩
    intro v' _ hv'
    rw [hvc] at hv'
    cases hv'
    exact h2
  | flat hs =>
    obtain ⟨p, h1, h2⟩ := newFromVC_flat (only5 rfl) hs hnew
    obtain ⟨ms, g, decs, rfl, g2, g3, g4, rfl, g5⟩ := newV5_own hsh' (hnk rfl) h1
      (by rw [newV5_real rfl h1]; exact hcodec')
    rw [newV5_real rfl h1] at g3
    exact ⟨ms, g, decs, rfl, g2, g3, g4, g5 rfl hus, (by intro _ h; cases h), fun _ => h2⟩

/-- The digests of an issued token are distinct exactly if those of its tree are. -/
theorem distinct_tree {env : Env} {alg : String} {ms : Members} {p q : JObj} {decs ds : List String}
    (hb : Bl env (env.hash alg) (.obj ms) (.obj q) decs) (hu : UnreservedObj ms.erase) (hpq : OEq q p)
    (hds : ms.discs.Perm ds) :
    DistinctDigests env p ds ↔ (ms.discs.map (env.hash alg) ++ decs).Nodup := by
  have hun : Unreserved (Node.obj ms).erase := by simpa [Node.erase, Unreserved] using hu
  have hdig := hb.digests false (.obj ms) hun
  have h1 : (digests false (.obj q)).Perm (digests false (.obj p)) := JE.digests_perm false (JE.obj hpq)
  have h2 := (h1.append_right (ms.discs.flatMap (valueDigests env false))).trans
    (Perm.append_left _ (hds.flatMap_right (valueDigests env false)))
  exact (h2.symm.trans hdig).nodup_iff

section
variable {E : IEnv} {ms : Members} {g : JObj} {decs : List String}

/-- Claims with the selective subject, in the order of the tree. -/
theorem selective_bl (halg : AlgOk E) {v : JObj} (hb : Blinded E ms g decs) (hc : ClaimsOk noOpts ms.erase)
    (hk : "cnf" ∉ GoMap.keys ms.erase) (hv : AroundOk noOpts v) :
    Bl E.env (E.env.hash E.alg) (.obj (vcTree noOpts v ms)) (.obj (selectiveOrdered E noOpts v g)) decs ∧
    UnreservedObj (vcTree noOpts v ms).erase ∧ JWF (.obj (vcTree noOpts v ms).erase) ∧
    JWF (.obj (selectiveOrdered E noOpts v g)) ∧
    GoMap.get? (selectiveOrdered E noOpts v g) "_sd_alg" = some (.str (E.lower E.alg)) := by
  obtain ⟨-, -, -, hbl⟩ := selective_subject halg hb hc hk
  obtain ⟨hu, hj⟩ := vcTree_wf (by simp [CnfOk, noOpts]) hc hv
  have hq : Bl E.env (E.env.hash E.alg) (.obj (vcTree noOpts v ms)) (.obj (selectiveOrdered E noOpts v g)) decs :=
    wrap_bl _ _ hbl (hid_alg _)
  have hjq := hq.jwf _ (by simpa [Node.erase, Unreserved] using hu) hj
  refine ⟨hq, hu, hj, hjq, ?_⟩
  simp only [JWF] at hjq
  exact GoMap.get?_of_mem hjq.1 (by simp [selectiveOrdered])

/-- The digests of the tree are distinct if those of the signed claims are, whether the credential is
under `vc` or at the top. -/
theorem distinct_of_nested (halg : AlgOk E) {vc v : JObj} {ds : List String} (hb : Blinded E ms g decs)
    (hc : ClaimsOk noOpts ms.erase) (hk : "cnf" ∉ GoMap.keys ms.erase) (hv : AroundOk noOpts v)
    (hwf : GoMap.WF vc) (huc : UnreservedObj vc) (hds : ms.discs.Perm ds)
    (hn : DistinctDigests E.env (GoMap.set vc "vc" (.obj (withSelective v (mkPayload E noOpts g)))) ds) :
    (ms.discs.map (E.env.hash E.alg) ++ decs).Nodup := by
  obtain ⟨hq1, hu, hj, hjq1, -⟩ := selective_bl halg hb hc hk hv
  obtain ⟨hsame, hw⟩ := selective_same halg hb hc hk hv
  have hq : Bl E.env (E.env.hash E.alg) (.obj (wrapTree (GoMap.del vc "vc") "vc" (vcTree noOpts v ms)))
      (.obj (GoMap.del vc "vc" ++ [("vc", .obj (selectiveOrdered E noOpts v g))] ++ [])) decs :=
    wrap_bl _ _ hq1 hid_nil
  rw [List.append_nil] at hq
  have hu2 : UnreservedObj (wrapTree (GoMap.del vc "vc") "vc" (vcTree noOpts v ms)).erase := by
    rw [wrap_erase, unreservedObj_append]
    refine ⟨unreserved_del huc _, ?_⟩
    simp only [UnreservedObj, Unreserved]
    exact ⟨by simp, hu, trivial⟩
  have hwq : GoMap.WF (GoMap.del vc "vc" ++ [("vc", Json.obj (selectiveOrdered E noOpts v g))]) := by
    unfold GoMap.WF
    rw [keys_append, List.nodup_append]
    refine ⟨GoMap.wf_del hwf _, by simp [GoMap.keys], ?_⟩
    rintro a ha b hb rfl
    simp only [GoMap.keys, List.map_cons, List.map_nil, List.mem_singleton] at hb
    subst hb
    exact (mem_keys_del ha).2 rfl
  simp only [JWF] at hjq1
  have hoe : OEq (GoMap.del vc "vc" ++ [("vc", .obj (selectiveOrdered E noOpts v g))])
      (GoMap.set vc "vc" (.obj (withSelective v (mkPayload E noOpts g)))) := by
    refine OEq.of_lookup hwq (GoMap.wf_set hwf _ _) (fun k => ?_)
    by_cases e : k = "vc"
    · subst e
      refine Or.inr ⟨_, _, GoMap.get?_of_mem hwq (List.mem_append_right _ (List.mem_singleton.2 rfl)),
        GoMap.get?_set_self _ _ _, .obj ?_⟩
      exact OEq.of_same hjq1.1 hw hsame
    · rw [GoMap.get?_append, GoMap.get?_del_ne _ (Ne.symm e), GoMap.get?_set_ne _ _ (Ne.symm e),
        GoMap.get?_cons, if_neg (Ne.symm e)]
      cases GoMap.get? vc k with
      | none => exact Or.inl ⟨rfl, rfl⟩
      | some x => exact Or.inr ⟨x, x, rfl, rfl, .refl⟩
  have := (distinct_tree hq hu2 hoe (ds := ds) (by
    rw [wrap_discs, vcTree_discs]; exact hds)).1 hn
  rwa [wrap_discs, vcTree_discs] at this

theorem distinct_of_flat (halg : AlgOk E) {v : JObj} {ds : List String} (hb : Blinded E ms g decs)
    (hc : ClaimsOk noOpts ms.erase) (hk : "cnf" ∉ GoMap.keys ms.erase) (hv : AroundOk noOpts v)
    (hds : ms.discs.Perm ds)
    (hn : DistinctDigests E.env (withSelective v (mkPayload E noOpts g)) ds) :
    (ms.discs.map (E.env.hash E.alg) ++ decs).Nodup := by
  obtain ⟨hq, hu, hj, hjq, -⟩ := selective_bl halg hb hc hk hv
  obtain ⟨hsame, hw⟩ := selective_same halg hb hc hk hv
  simp only [JWF] at hjq
  have := (distinct_tree hq hu (OEq.of_same hjq.1 hw hsame) (ds := ds) (by rw [vcTree_discs]; exact hds)).1 hn
  rwa [vcTree_discs] at this

/-- What claims show whose members are those of `v`, except for the selective subject and the hash
algorithm. -/
theorem selective_presents (he : EnvWF E.env) (halg : AlgOk E) {v json : JObj} {ds : List String}
    (hb : Blinded E ms g decs) (hc : ClaimsOk noOpts ms.erase) (hk : "cnf" ∉ GoMap.keys ms.erase)
    (hv : AroundOk noOpts v) (hds : ms.discs.Perm ds) (hnd : (ms.discs.map (E.env.hash E.alg) ++ decs).Nodup)
    (hwf : GoMap.WF json)
    (hj : ∀ k, GoMap.get? json k = GoMap.get? (withSelective v (mkPayload E noOpts g)) k) :
    JWF (.obj json) ∧ getHashAlg E.env json = some E.alg ∧
    Presents E.env json ms ds (fun S => VCWith noOpts v (ms.reveal S)) := by
  obtain ⟨hq, hu, hjt, hjq, hg⟩ := selective_bl halg hb hc hk hv
  obtain ⟨hsame, hw⟩ := selective_same halg hb hc hk hv
  simp only [JWF] at hjq
  have hs : ∀ k, GoMap.get? (selectiveOrdered E noOpts v g) k = GoMap.get? json k :=
    fun k => (hsame k).trans (hj k).symm
  have hoe := OEq.of_same hjq.1 hwf hs
  have hjj := jwf_same hwf hs hjq.2
  have hds' : (vcTree noOpts v ms).discs.Perm ds := by rw [vcTree_discs]; exact hds
  have key := shows_of_perm he hq hu hjt (alg_of halg hg) hoe hjj hds'
    ((distinct_tree hq hu hoe hds').2 (by rw [vcTree_discs]; exact hnd))
  refine ⟨hjj, alg_of halg (by rw [← hs]; exact hg), ?_⟩
  intro S order hS hnS ho
  have := key S order (by
    rw [vcTree_discs]; exact fun s hs => hds.mem_iff.mpr (hS s hs)) hnS ho
  dsimp only at this
  rw [vcTree_closed, vcTree_reveal] at this
  exact ⟨this.2, this.1⟩

/-- The subject of those claims and the rest of them. -/
theorem selective_lookup (halg : AlgOk E) {v : JObj} (hb : Blinded E ms g decs)
    (hc : ClaimsOk noOpts ms.erase) (hk : "cnf" ∉ GoMap.keys ms.erase) :
    GoMap.get? (withSelective v (mkPayload E noOpts g)) "credentialSubject" = some (.obj g) ∧
    GoMap.get? (withSelective v (mkPayload E noOpts g)) "_sd_alg" = some (.str (E.lower E.alg)) ∧
    ∀ k, k ≠ "credentialSubject" → k ≠ "_sd_alg" →
      GoMap.get? (withSelective v (mkPayload E noOpts g)) k = GoMap.get? v k := by
  obtain ⟨h1, h2, h3, -⟩ := selective_subject halg hb hc hk
  have h3' : GoMap.get? (mkPayload E noOpts g) "cnf" = none := by rw [h3]; rfl
  have hb' : basePayload noOpts.noCnf = [] := rfl
  unfold withSelective moveCnf
  rw [h3', h1, JObj.at, h2, hb']
  dsimp only [Option.getD_some, List.nil_append]
  refine ⟨GoMap.get?_set_self _ _ _, ?_, ?_⟩
  · rw [GoMap.get?_set_ne _ _ (by decide), GoMap.get?_set_self]
  · intro k a b
    rw [GoMap.get?_set_ne _ _ (Ne.symm a), GoMap.get?_set_ne _ _ (Ne.symm b)]

end

/-! ## Clear members are shown as they are -/

theorem unreservedArr_iff (l : List Json) : UnreservedArr l ↔ ∀ v ∈ l, Unreserved v := by
  induction l with
  | nil => simp [UnreservedArr]
  | cons v l ih => simp [UnreservedArr, ih]

theorem solidArr_iff (l : List Json) : SolidArr l ↔ ∀ v ∈ l, Solid v := by
  induction l with
  | nil => simp [SolidArr]
  | cons v l ih => simp [SolidArr, ih]

theorem elems_clear {cl : Bool} {D : DMap} (l : List Json) (h : ∀ v ∈ l, Unreserved v) :
    Resolve cl D (.elems l) (.list l) := by
  induction l with
  | nil => exact .enil
  | cons v l ih =>
    refine .eplain ?_ (ih (fun w hw => h w (List.mem_cons_of_mem _ hw)))
    have hv := h v List.mem_cons_self
    cases v with
    | obj m =>
      simp only [Unreserved] at hv
      exact GoMap.get?_eq_none_iff.2 (fun hk => (unreserved_key hv hk).2.2 rfl)
    | _ => rfl

theorem solid_notNull {v : Json} (h : Solid v) : v.isNull = false := by
  cases v <;> simp_all [Solid, Json.isNull]

mutual
/-- A value without digests, nulls and empty arrays resolves to itself. -/
theorem resolve_clear {cl : Bool} {D : DMap} : ∀ v : Json, Unreserved v → Solid v → Resolves cl D v v
  | .null, _, h => by simp [Solid] at h
  | .bool _, _, _ => .scalar trivial
  | .num _, _, _ => .scalar trivial
  | .str _, _, _ => .scalar trivial
  | .arr l, hu, hs => by
    simp only [Unreserved] at hu
    simp only [Solid] at hs
    have := Resolve.arr (elems_clear (cl := cl) (D := D) l ((unreservedArr_iff l).1 hu))
    rwa [if_neg hs.1] at this
  | .obj m, hu, hs => by
    simp only [Unreserved] at hu
    simp only [Solid] at hs
    have h1 : GoMap.get? m "_sd" = none := GoMap.get?_eq_none_iff.2 (fun hk => (unreserved_key hu hk).1 rfl)
    have := Resolve.obj (Or.inl ⟨h1, rfl⟩) .snil (fields_clear (cl := cl) (D := D) m hu hs) List.nodup_nil
      (by intro p _ h; cases h)
    have e : assemble cl [] [] m = m := by
      unfold assemble
      simp only [ne_eq, not_true_eq_false, and_false, if_false, List.nil_append]
      apply List.filter_eq_self.2
      intro p hp
      rw [solid_notNull ((solid_iff m).1 hs p hp)]
      rfl
    rwa [e] at this
/-- All members. -/
theorem fields_clear {cl : Bool} {D : DMap} : ∀ m : JObj, UnreservedObj m → SolidObj m →
    Resolve cl D (.fields m) (.fields m)
  | [], _, _ => .fnil
  | (k, v) :: m, hu, hs => by
    simp only [UnreservedObj] at hu
    simp only [SolidObj] at hs
    refine .fcons ?_ (resolve_clear v hu.2.1 hs.1) (fields_clear m hu.2.2 hs.2)
    rintro (h | ⟨h, -⟩)
    · exact hu.1.1 h
    · exact hu.1.2.1 h
end

theorem resolve_fields_get {D : DMap} : ∀ (m fs : JObj), Resolve true D (.fields m) (.fields fs) →
    ∀ k, k ≠ "_sd" → k ≠ "_sd_alg" →
      (GoMap.get? m k = none ∧ GoMap.get? fs k = none) ∨
      ∃ v w, GoMap.get? m k = some v ∧ GoMap.get? fs k = some w ∧ Resolves true D v w
  | [], fs, h, k, _, _ => by cases h; exact Or.inl ⟨rfl, rfl⟩
  | (k', v) :: m, fs, h, k, h1, h2 => by
    cases h with
    | fskip hh hr =>
      have ne : k' ≠ k := by
        rintro rfl
        rcases hh with e | ⟨e, -⟩
        · exact h1 e
        · exact h2 e
      rw [GoMap.get?_cons, if_neg ne]
      exact resolve_fields_get m fs hr k h1 h2
    | @fcons _ _ w _ fs' hh hv hr =>
      rw [GoMap.get?_cons, GoMap.get?_cons]
      by_cases e : k' = k
      · rw [if_pos e, if_pos e]; exact Or.inr ⟨v, w, rfl, rfl, hv⟩
      · rw [if_neg e, if_neg e]; exact resolve_fields_get m fs' hr k h1 h2

theorem resolve_fields_keys {D : DMap} : ∀ (m fs : JObj), Resolve true D (.fields m) (.fields fs) →
    (GoMap.keys fs).Sublist (GoMap.keys m) ∧ ∀ k ∈ GoMap.keys fs, k ≠ "_sd" ∧ k ≠ "_sd_alg"
  | [], fs, h => by cases h; exact ⟨.slnil, by simp [GoMap.keys]⟩
  | (k', v) :: m, fs, h => by
    cases h with
    | fskip hh hr =>
      obtain ⟨a, b⟩ := resolve_fields_keys m fs hr
      exact ⟨a.cons _, b⟩
    | @fcons _ _ w _ fs' hh hv hr =>
      obtain ⟨a, b⟩ := resolve_fields_keys m fs' hr
      refine ⟨a.cons_cons _, ?_⟩
      intro k hk
      simp only [GoMap.keys, List.map_cons, List.mem_cons] at hk
      rcases hk with rfl | hk
      · exact ⟨fun e => hh (Or.inl e), fun e => hh (Or.inr ⟨e, rfl⟩)⟩
      · exact b k hk

/-- Members of claims without digests at the top that have nothing to resolve are shown unchanged; the
hash algorithm is not shown. -/
theorem clear_shown {env : Env} {ds : List String} {json out : JObj} {order : DMap → List String}
    (ho : ∀ D, ∀ d ∈ GoMap.keys D, d ∈ order D) (hwf : GoMap.WF json) (hno : GoMap.get? json "_sd" = none)
    (h : disclosedClaims env ds json order = .ok out) :
    GoMap.WF out ∧ GoMap.get? out "_sd" = none ∧ GoMap.get? out "_sd_alg" = none ∧
    (∀ k, k ≠ "_sd_alg" → (∀ v, GoMap.get? json k = some v → Unreserved v ∧ Solid v) →
      GoMap.get? out k = GoMap.get? json k) := by
  obtain ⟨alg, D, -, -, -, hr⟩ := disclosedClaims_core ho h
  cases hr with
  | scalar hs => exact absurd hs (by simp [Scalar])
  | @obj _ sd claims missing fs hsd hsds hf _ _ =>
    have e : sd = [] := by
      rcases hsd with ⟨-, e⟩ | ⟨v, hv, -⟩
      · exact e
      · rw [hno] at hv; cases hv
    subst e
    cases hsds
    obtain ⟨k1, k2⟩ := resolve_fields_keys json fs hf
    have e : assemble true [] [] fs = fs.filter (fun p => !p.2.isNull) := by
      unfold assemble; simp
    rw [e]
    have hwfs : GoMap.WF fs := (show (GoMap.keys json).Nodup from hwf).sublist k1
    have hwo : GoMap.WF (fs.filter (fun p => !p.2.isNull)) := by
      unfold GoMap.WF GoMap.keys
      exact (show (GoMap.keys fs).Nodup from hwfs).sublist ((List.filter_sublist).map _)
    have hsubk : ∀ k, k ∈ GoMap.keys (fs.filter (fun p => !p.2.isNull)) → k ∈ GoMap.keys fs := by
      intro k hk
      exact ((List.filter_sublist).map _).subset hk
    have hget : ∀ k v, GoMap.get? fs k = some v → v.isNull = false →
        GoMap.get? (fs.filter (fun p => !p.2.isNull)) k = some v := by
      intro k v hg hn
      exact GoMap.get?_of_mem hwo (List.mem_filter.2 ⟨GoMap.mem_of_get? hg, by simp [hn]⟩)
    refine ⟨hwo, ?_, ?_, ?_⟩
    · exact GoMap.get?_eq_none_iff.2 (fun hk => (k2 _ (hsubk _ hk)).1 rfl)
    · exact GoMap.get?_eq_none_iff.2 (fun hk => (k2 _ (hsubk _ hk)).2 rfl)
    · intro k hk hv
      by_cases hks : k = "_sd"
      · subst hks
        rw [hno]
        exact GoMap.get?_eq_none_iff.2 (fun hk => (k2 _ (hsubk _ hk)).1 rfl)
      · rcases resolve_fields_get json fs hf k hks hk with ⟨a, b⟩ | ⟨v, w, a, b, c⟩
        · rw [a]
          exact GoMap.get?_eq_none_iff.2 (fun hk => GoMap.get?_eq_none_iff.1 b (hsubk _ hk))
        · obtain ⟨u, s⟩ := hv v a
          have := resolve_det (resolve_clear (cl := true) (D := D) v u s) _ c
          have hw : v = w := by injection this
          subst hw
          rw [a]
          exact hget k v b (solid_notNull s)

/-- The revealed members carry distinct names whenever the whole tree does. -/
theorem reveal_wf (S : List String) : ∀ (ms : Members), GoMap.WF ms.erase → GoMap.WF (ms.reveal S)
  | .nil, h => h
  | .cons k none t ms, h => by
    simp only [Members.erase] at h
    have w := GoMap.wf_cons.1 h
    simp only [Members.reveal]
    split
    · exact reveal_wf S ms w.2
    · exact GoMap.wf_cons.2 ⟨fun hk => w.1 (reveal_keys S ms k hk), reveal_wf S ms w.2⟩
  | .cons k (some s) t ms, h => by
    simp only [Members.erase] at h
    have w := GoMap.wf_cons.1 h
    simp only [Members.reveal]
    split
    · exact GoMap.wf_cons.2 ⟨fun hk => w.1 (reveal_keys S ms k hk), reveal_wf S ms w.2⟩
    · exact reveal_wf S ms w.2

/-- The resolved table has an entry for every disclosure, and no other. -/
theorem resolve_table {env : Env} {ds : List String} {alg : String} {order : DMap → List String}
    (ho : ∀ D, ∀ d ∈ GoMap.keys D, d ∈ order D) {M : DMap}
    (h : resolveDisclosureClaims env alg ds order = .ok M) :
    (∀ s ∈ ds, ∃ c, GoMap.get? M (env.hash alg s) = some c) ∧
    (∀ d c, GoMap.get? M d = some c → c.disclosure ∈ ds ∧ env.hash alg c.disclosure = d) := by
  unfold resolveDisclosureClaims at h
  cases hD : getDisclosureClaims env alg ds [] with
  | error e => rw [hD] at h; cases h
  | ok D =>
    rw [hD] at h
    dsimp only at h
    have hDec := decoded_of_ok hD
    cases hs : setAll true (2 * weight D + 1) ⟨[], D⟩ (order D) with
    | error e => rw [hs] at h; cases h
    | ok st =>
      rw [hs] at h
      have := Except.ok.inj h
      subst this
      obtain ⟨hk, hr⟩ := setAll_result hDec.unparsed (ho D) hs
      constructor
      · intro s hs
        obtain ⟨r, hc⟩ := hDec.all s hs
        obtain ⟨c, hc', -⟩ := hr _ _ hc
        exact ⟨c, hc'⟩
      · intro d c hc
        have hd : d ∈ GoMap.keys D := by
          rw [← hk, ← GoMap.get?_isSome_iff, hc]; rfl
        obtain ⟨r, hr'⟩ := Option.isSome_iff_exists.1 (GoMap.get?_isSome_iff.2 hd)
        obtain ⟨c', g1, -, -, -, g5, -⟩ := hr d r hr'
        rw [hc] at g1
        have := Option.some.inj g1
        subst this
        obtain ⟨s, hs1, hs2⟩ := hDec.from_list d r hr'
        rw [g5, hs2.2.1]
        exact ⟨hs1, hs2.1.symm⟩

end VC.SDJWT
