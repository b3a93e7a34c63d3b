import Verif.SDJWT.DiscloseProps
/-!
# Verified presentations can always be processed; examples and counterexamples for C07–C12
-/

namespace VC.SDJWT
open List

/-! ## Verified ⇒ processed -/

theorem hidden_mono {k : String} (h : Hidden false k) : Hidden true k := by
  rcases h with h | h
  · exact Or.inl h
  · cases h.2

mutual
theorem digests_sublist : ∀ v : Json, (digests true v).Sublist (digests false v)
  | .arr l => by simp [digests]
  | .obj o => by
    simp only [digests]
    exact List.Sublist.append (List.Sublist.refl _) (fieldDigests_sublist o)
  | .null => by simp [digests]
  | .bool _ => by simp [digests]
  | .num _ => by simp [digests]
  | .str _ => by simp [digests]
theorem fieldDigests_sublist : ∀ o : List (String × Json),
    (fieldDigests true o).Sublist (fieldDigests false o)
  | [] => by simp [fieldDigests]
  | (k, v) :: o => by
    simp only [fieldDigests]
    refine List.Sublist.append ?_ (fieldDigests_sublist o)
    by_cases h : Hidden true k
    · rw [if_pos h]; exact List.nil_sublist _
    · rw [if_neg h, if_neg (fun h' => h (hidden_mono h'))]; exact digests_sublist v
end

theorem resolve_cleanup {D : DMap} (hU : AllUnparsed D) {t : Task} {o : Out}
    (h : Resolve false D t o) :
    match o with
    | .val _ => ∃ w, Resolve true D t (.val w)
    | .list _ => ∃ l, Resolve true D t (.list l)
    | .sds claims miss => ∃ c', Resolve true D t (.sds c' miss) ∧ GoMap.keys c' = GoMap.keys claims
    | .fields fs => ∃ f', Resolve true D t (.fields f') ∧ ∀ k ∈ GoMap.keys f', k ∈ GoMap.keys fs := by
  induction h with
  | scalar hs => exact ⟨_, .scalar hs⟩
  | arr _ ih => obtain ⟨l, hl⟩ := ih; exact ⟨_, .arr hl⟩
  | @obj m sd claims missing fs h1 h2 h3 h4 h5 ih2 ih3 =>
    obtain ⟨c', g1, g2⟩ := ih2
    obtain ⟨f', g3, g4⟩ := ih3
    refine ⟨_, .obj h1 g1 g3 (by rw [g2]; exact h4) ?_⟩
    intro p hp
    have := g4 p.1 (List.mem_map.mpr ⟨p, hp, rfl⟩)
    obtain ⟨q, hq, he⟩ := List.mem_map.mp this
    rw [g2, ← he]
    exact h5 q hq
  | done h1 h2 => rw [hU _ _ h1] at h2; cases h2
  | disc h1 h2 _ ih => obtain ⟨w, hw⟩ := ih; exact ⟨w, .disc h1 h2 hw⟩
  | enil => exact ⟨_, .enil⟩
  | eplain h1 _ ih => obtain ⟨l, hl⟩ := ih; exact ⟨_, .eplain h1 hl⟩
  | emiss h1 h2 _ ih => obtain ⟨l, hl⟩ := ih; exact ⟨_, .emiss h1 h2 hl⟩
  | edisc h1 h2 h3 _ _ ih1 ih2 =>
    obtain ⟨w, hw⟩ := ih1
    obtain ⟨l, hl⟩ := ih2
    exact ⟨_, .edisc h1 h2 h3 hw hl⟩
  | snil => exact ⟨_, .snil, rfl⟩
  | smiss h1 _ ih => obtain ⟨c', g1, g2⟩ := ih; exact ⟨c', .smiss h1 g1, g2⟩
  | sdisc h1 h2 _ _ ih1 ih2 =>
    obtain ⟨w, hw⟩ := ih1
    obtain ⟨c', g1, g2⟩ := ih2
    refine ⟨_, .sdisc h1 h2 hw g1, ?_⟩
    simp only [GoMap.keys] at g2
    simp [GoMap.keys, g2]
  | fnil => exact ⟨_, .fnil, fun _ h => h⟩
  | fskip h1 _ ih => obtain ⟨f', g1, g2⟩ := ih; exact ⟨f', .fskip (hidden_mono h1) g1, g2⟩
  | @fcons k v w m fs h1 _ _ ih1 ih2 =>
    obtain ⟨w', hw⟩ := ih1
    obtain ⟨f', g1, g2⟩ := ih2
    by_cases hk : Hidden true k
    · refine ⟨f', .fskip hk g1, ?_⟩
      intro x hx
      have := g2 x hx
      simp only [GoMap.keys] at this ⊢
      simp only [List.map_cons, List.mem_cons]
      exact Or.inr this
    · refine ⟨_, .fcons hk hw g1, ?_⟩
      intro x hx
      simp only [GoMap.keys, List.map_cons, List.mem_cons] at hx ⊢
      rcases hx with rfl | hx
      · exact Or.inl rfl
      · exact Or.inr (g2 x hx)

/-- Sufficient condition for processing to succeed, with its result. -/
theorem disclosedClaims_ok_of {env : Env} (he : EnvWF env) {ds : List String} {payload : JObj}
    (hp : JWF (.obj payload)) {order : DMap → List String}
    (ho : ∀ D, ∀ d ∈ GoMap.keys D, d ∈ order D) {alg : String} {D : DMap}
    (ha : getHashAlg env payload = some alg) (hg : getDisclosureClaims env alg ds [] = .ok D)
    (hR : ∀ d ∈ GoMap.keys D, ∃ w, Resolve true D (.disc d) (.val w))
    (hN : ((GoMap.keys D).flatMap (digOf true D)).Nodup)
    (hN' : (digests true (.obj payload)).Nodup) {w : Json} (hw : Resolves true D (.obj payload) w) :
    ∃ out, w = .obj out ∧ disclosedClaims env ds payload order = .ok out := by
  have hD := decoded_of_ok hg
  obtain ⟨st, hs⟩ := (setAll_iff (hD.dwf he) hD.wf hD.unparsed (ho D)).mpr ⟨hR, hN⟩
  obtain ⟨k1, k2⟩ := setAll_result hD.unparsed (ho D) hs
  have hM : ResolvedMap true D st.ds := by
    intro d
    cases hd : GoMap.get? D d with
    | none =>
      left
      refine ⟨rfl, ?_⟩
      rw [GoMap.get?_eq_none_iff, k1, ← GoMap.get?_eq_none_iff]; exact hd
    | some r =>
      right
      obtain ⟨c, c1, c2, c3, c4, _, c6⟩ := k2 d r hd
      exact ⟨r, c, rfl, c1, hD.unparsed d r hd, c2, c3, c4, c6⟩
  have hparsed : ∀ d c, GoMap.get? st.ds d = some c → c.parsed = true := by
    intro d c hc
    rcases hM d with ⟨_, h⟩ | ⟨r, c', _, h2, _, h4, _⟩
    · rw [h] at hc; cases hc
    · rw [hc] at h2; cases h2; exact h4
  have hwf : GoMap.WF st.ds := by unfold GoMap.WF; rw [k1]; exact hD.wf
  have hempty : reachSet true st.ds (digests true (.obj payload)) = [] := by
    rw [List.eq_nil_iff_forall_not_mem]
    intro d hd
    obtain ⟨_, c, hc, hpp⟩ := mem_reachSet.mp hd
    rw [show (St.mk [] st.ds).ds = st.ds from rfl] at hc
    rw [hparsed d c hc] at hpp; cases hpp
  -- values of resolved disclosures need not be well-formed for the run: they are not entered
  have hw' := resolved_of_resolve hM hw
  cases hdis : disclose true (fuelFor st.ds (.obj payload)) ⟨[], st.ds⟩ (.obj payload) with
  | error e =>
    exfalso
    have hDW : DWF st.ds := by
      intro d c hc hpp
      rw [hparsed d c hc] at hpp; cases hpp
    have hB : Budget true st.ds ⟨[], st.ds⟩ (digests true (.obj payload) ++ []) [] := by
      refine ⟨by simp, by simp, ?_, by simpa using hN'⟩
      rintro d _ ⟨c, hc, hpp⟩
      rw [show (St.mk [] st.ds).ds = st.ds from rfl] at hc
      rw [hparsed d c hc] at hpp; cases hpp
    have := disclose_complete hDW _ _ _ _ _ _ _ hdis Ext.refl hp hw' hB
    subst this
    exact disclose_no_fuel _ _ (Nat.le_refl _) hdis
  | ok q =>
    obtain ⟨w2, s2⟩ := q
    have hr := (disclose_sound _ _ _ _ _ hdis Ext.refl (by simp)).1
    have := resolve_det hw' _ hr
    cases this
    have hobj : ∃ out, w = .obj out := by
      cases hw with
      | scalar h => exact absurd h (by simp [Scalar])
      | obj => exact ⟨_, rfl⟩
    obtain ⟨out, rfl⟩ := hobj
    refine ⟨out, rfl, ?_⟩
    unfold disclosedClaims resolveDisclosureClaims getDisclosedClaims
    simp only [ha, hg, hs, hdis]

/-- A verified list of disclosures can always be processed, whatever the map iteration order. -/
theorem verified_can_be_processed {env : Env} (he : EnvWF env) {ds : List String} {payload : JObj}
    (hp : JWF (.obj payload)) {order : DMap → List String}
    (ho : ∀ D, ∀ d ∈ GoMap.keys D, d ∈ order D)
    (h : verifyDisclosures env ds payload = .ok ()) :
    ∃ out, disclosedClaims env ds payload order = .ok out := by
  obtain ⟨alg, D, w, st, h1, h2, h2', h3, h4⟩ := verify_core h
  obtain ⟨a1, a2, a3⟩ := disclose_sound _ _ _ _ _ h3 Ext.refl (by simp)
  obtain ⟨w', hw'⟩ := resolve_cleanup h2.unparsed a1
  have hperm := (step_perm h2.wf a3).nodup_iff.mp a3.nodup
  have hall : ∀ d ∈ GoMap.keys D, ∃ r c, GoMap.get? D d = some r ∧ GoMap.get? st.ds d = some c ∧
      r.parsed = false ∧ Resolves false D r.value c.value := by
    intro d hd
    have hs := GoMap.get?_isSome_iff.mpr hd
    obtain ⟨r, hr⟩ := Option.isSome_iff_exists.mp hs
    have hnu := h4 d hs
    rcases a2 d with ⟨hn, _⟩ | ⟨r', c, e1, e2, _, _, _, e3⟩
    · rw [hr] at hn; cases hn
    · rw [hr] at e1; cases e1
      refine ⟨r, c, hr, e2, h2.unparsed d r hr, ?_⟩
      rcases e3 with rfl | ⟨_, _, e3⟩
      · exact absurd ⟨c, e2, h2.unparsed d c hr⟩ hnu
      · exact e3
  have hdig : ∀ d, (digOf true D d).Sublist (digOf false D d) := by
    intro d
    unfold digOf
    split
    · exact digests_sublist _
    · exact List.Sublist.refl _
  have hreach : ∀ d ∈ GoMap.keys D, d ∈ reachSet false D (digests false (.obj payload)) := by
    intro d hd
    obtain ⟨r, c, hr, hc, hu, _⟩ := hall d hd
    rw [mem_reachSet]
    refine ⟨?_, r, hr, hu⟩
    have hnu := h4 d (by rw [hr]; rfl)
    obtain ⟨N, n1, n2, n3, n4, n5, n6, n7, n8⟩ := a3
    by_cases hN : d ∈ N
    · exact (n7 d hN).1
    · exact absurd ⟨r, by rw [n3 d hN]; exact hr, hu⟩ hnu
  rw [List.nodup_append] at hperm
  have hN0 : ((GoMap.keys D).flatMap (digOf false D)).Nodup :=
    nodup_flatMap_sub hperm.2.1 (nodup_reachSet h2.wf) h2.wf hreach
  have hN : ((GoMap.keys D).flatMap (digOf true D)).Nodup := by
    refine hN0.sublist ?_
    generalize GoMap.keys D = l
    induction l with
    | nil => exact List.Sublist.refl _
    | cons a l ih => simp only [List.flatMap_cons]; exact List.Sublist.append (hdig a) ih
  obtain ⟨out, _, ho'⟩ := disclosedClaims_ok_of he hp ho h1 h2' (by
      intro d hd
      obtain ⟨r, c, hr, hc, hu, hres⟩ := hall d hd
      obtain ⟨w2, hw2⟩ := resolve_cleanup h2.unparsed hres
      exact ⟨w2, .disc hr hu hw2⟩) hN (hperm.1.sublist (digests_sublist _)) hw'
  exact ⟨out, ho'⟩

/-! ## Examples -/

/-- A toy environment: a few strings decode to disclosures; the digest of `s` is `"h" ++ s`. -/
def exEnv : Env where
  decode := fun s =>
    if s = "A" then some [.str "salt1", .str "name", .str "Ann"]
    else if s = "B" then some [.str "salt2", .str "addr", .obj [("_sd", .arr [.str "hC", .str "hX"])]]
    else if s = "C" then some [.str "salt3", .str "city", .str "Oslo"]
    else if s = "E" then some [.str "salt4", .str "DE"]
    else if s = "R" then some [.str "salt5", .str "_sd", .arr [.str "hidden"]]
    else if s = "L" then some [.str "salt6", .str "loop", .obj [("_sd", .arr [.str "hL"])]]
    else if s = "I" then some [.str "salt7", .str "iss", .str "other"]
    else none
  hash := fun _ s => "h" ++ s
  upper := fun s => s

/-- A payload with `_sd`, an array with placeholders and a clear claim. -/
def exPayload : JObj :=
  [("_sd_alg", .str "SHA-256"), ("_sd", .arr [.str "hA", .str "hB", .str "hY"]),
   ("nat", .arr [.obj [("...", .str "hE")], .obj [("...", .str "hF")]]), ("iss", .str "i")]

/-- C07, C09: the hypotheses are met by a nested presentation. -/
example : verifyDisclosures exEnv ["A", "B", "C", "E"] exPayload = .ok () ∧
    (["A", "B", "C", "E"] : List String).Nodup := ⟨by rfl, by decide⟩

/-- C07, C10: presenting "C" without its parent, a foreign disclosure, a self-referring disclosure,
or one colliding with a clear claim, is rejected. -/
example : verifyDisclosures exEnv ["A", "C"] exPayload = .error .notIncluded ∧
    verifyDisclosures exEnv ["A", "Z"] exPayload = .error .decode ∧
    verifyDisclosures exEnv ["L"] [("_sd_alg", .str "SHA-256"), ("_sd", .arr [.str "hL"])]
      = .error .dupDigest ∧
    verifyDisclosures exEnv ["I"] [("_sd_alg", .str "SHA-256"), ("_sd", .arr [.str "hI"]),
      ("iss", .str "i")] = .error .collision := ⟨by rfl, by rfl, by rfl, by rfl⟩

/-- C10, C12: the processed claims of the nested presentation. -/
theorem exProcessed : disclosedClaims exEnv ["A", "B", "C", "E"] exPayload GoMap.keys =
    .ok [("name", .str "Ann"), ("addr", .obj [("city", .str "Oslo")]), ("nat", .arr [.str "DE"]),
      ("iss", .str "i")] := by rfl

/-- C12: the hypotheses of `processed_claims_tidy_partial` are met. -/
example : Tidy (.obj [("name", .str "Ann"), ("addr", .obj [("city", .str "Oslo")]),
    ("nat", .arr [.str "DE"]), ("iss", .str "i")]) := by
  refine processed_claims_tidy_partial (fun D d hd => hd) ?_ exProcessed
  intro s hs salt rest hdec
  simp only [List.mem_cons, List.not_mem_nil, or_false] at hs
  rcases hs with rfl | rfl | rfl | rfl <;>
    (simp [exEnv] at hdec; obtain ⟨_, rfl⟩ := hdec; simp [placeholder?, GoMap.get?])

/-- **C12 is violated** for reserved names: a committed disclosure named `_sd` puts an `_sd` member
into the claims returned to the relying party (the draft requires rejecting it). -/
theorem reserved_name_leaks : ∃ env ds payload out,
    verifyDisclosures env ds payload = .ok () ∧
    disclosedClaims env ds payload GoMap.keys = .ok out ∧
    GoMap.get? out "_sd" = some (.arr [.str "hidden"]) ∧ ¬ Tidy (.obj out) :=
  ⟨exEnv, ["R"], [("_sd_alg", .str "SHA-256"), ("_sd", .arr [.str "hR"])],
    [("_sd", .arr [.str "hidden"])], by rfl, by rfl, by rfl, by simp [Tidy, TidyObj, Hidden]⟩

end VC.SDJWT
