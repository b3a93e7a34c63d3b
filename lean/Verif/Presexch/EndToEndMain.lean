import Verif.Presexch.EndToEndProps
/-!
# presexch: the verifier accepts what the holder makes (C101)
-/

namespace VC.PE

/-! ## Specification -/

/-- The two credentials look the same to the matching code. -/
structure Alike (c c' : Cred) : Prop where
  contexts : c'.contexts = c.contexts
  types : c'.types = c.types
  issuer : c'.issuer = c.issuer
  subjects : c'.subjects = c.subjects
  isJWT : c'.isJWT = c.isJWT
  display : c'.display = c.display

/-- The descriptor neither limits disclosure nor asks for a predicate. -/
def PlainDesc (d : FDesc) : Prop :=
  ∀ k, d.constraints = some k → k.limitReq = false ∧ ∀ f ∈ k.fields, f.predicateReq = false

/-- The verifier and the holder use the same libraries and see the same credentials. -/
structure Faithful (H : HolderEnv) (E : MatchEnv) (read : Cred → Option Cred) (creds : List Cred) : Prop where
  same : E.toMEnv = H.toMEnv
  paths : PathLib E.selectPath
  keys : ∀ l, (H.sortKeys l).Perm l
  maps : ∀ l, (H.sortMaps l).Perm l
  read : ∀ c ∈ creds, ∃ c', read c = some c' ∧ Alike c c'
  ids : ∀ c ∈ creds, ∀ c' ∈ creds, c.id = c'.id → c = c'
  loads : ∀ c ∈ creds, ∀ ctx ∈ c.contexts, ∃ ids, H.load ctx = some ids

/-- The answer of `Match` for a definition: each matched credential is one of the holder's, as the
verifier reads it, and met its descriptor on the holder's side; and all that met a descriptor are
there. -/
structure Answers (H : HolderEnv) (pd : Definition) (creds : List Cred) (read : Cred → Option Cred)
    (r : List MatchValue) : Prop where
  sound : ∀ v ∈ r, ∃ d ∈ pd.descs, d.id = v.descriptorID ∧ ∃ f cs c,
    filterDescriptor H.toMEnv pd.format d.toM creds = .ok (f, cs) ∧ c ∈ cs ∧ read c = some v.cred
  complete : ∀ d ∈ pd.descs, ∃ f cs, filterDescriptor H.toMEnv pd.format d.toM creds = .ok (f, cs) ∧ cs ≠ [] ∧
    ∀ c ∈ cs, ∃ v ∈ r, v.descriptorID = d.id ∧ read c = some v.cred

/-! ## Proofs -/

theorem limit_plain {d : FDesc} (h : PlainDesc d) (derive restrict : Constraints → Cred → Option Cred) :
    ∀ (tmp : Nat → String → String) (cs : List Cred), limitDisclosure derive restrict tmp d.constraints cs = some (cs.map (fun c => (c.id, c)))
  | _, [] => rfl
  | tmp, c :: cs => by
    have h1 : limitOne derive restrict (tmp 0) d.constraints c = some (some (c.id, c)) := by
      cases hk : d.constraints with
      | none => rfl
      | some k =>
        obtain ⟨a, b⟩ := h k hk
        have hp : k.fields.any Field.predicateReq = false := by
          rw [List.any_eq_false]
          intro f hf
          simp [b f hf]
        simp [limitOne, a, hp]
    simp only [limitDisclosure, h1, limit_plain h derive restrict _ cs, Option.map_some, List.map_cons]

theorem alike_good {E : MEnv} {dis : Bool} {d : FDesc} {c c' : Cred} (h : Alike c c') (hg : GoodFor E dis d c) :
    GoodFor E dis d c' := by
  have hs : ∀ u, HasSchema E.load c u → HasSchema E.load c' u := by
    rintro u ⟨ctx, h1, ids, h2, t, h3, h4⟩
    exact ⟨ctx, by rw [h.contexts]; exact h1, ids, h2, t, by rw [h.types]; exact h3, h4⟩
  refine ⟨by rw [h.contexts]; exact hg.loads, ?_, ?_⟩
  · intro hd
    obtain ⟨ss, h1, h2, s, h3, h4⟩ := hg.schema hd
    exact ⟨ss, h1, fun s hm hr => hs _ (h2 s hm hr), s, h3, hs _ h4⟩
  · intro k hk
    obtain ⟨h1, h2, h3⟩ := hg.constraints k hk
    unfold ConstraintsOk
    rw [h.issuer, h.subjects, h.display, h.isJWT]
    exact ⟨h1, h2, h3⟩

/-- What evaluating a plain descriptor gives. -/
theorem evalDesc_plain {H : HolderEnv} {pd : Definition}
    (hp : ∀ d ∈ pd.descs, PlainDesc d) {creds : List Cred} {id : String} {f : String} {ws : List (String × Cred)}
    (h : evalDesc H pd creds id = .ok (f, ws)) : ∃ d ∈ pd.descs, d.id = id ∧ ∃ cs,
      filterDescriptor H.toMEnv pd.format d.toM creds = .ok (f, cs) ∧ ws = cs.map (fun c => (c.id, c)) := by
  unfold evalDesc at h
  split at h
  · cases h
  · next d hf =>
    have hd := List.mem_of_find?_eq_some hf
    have he : d.id = id := by simpa using List.find?_some hf
    refine ⟨d, hd, he, ?_⟩
    split at h
    · cases h
    · cases h
    · next f' cs hfd =>
      rw [limit_plain (hp d hd)] at h
      simp only [Except.ok.injEq, Prod.mk.injEq] at h
      obtain ⟨rfl, rfl⟩ := h
      exact ⟨cs, hfd, rfl⟩

/-- The facts about a result of the holder's search that both ways of sending it need. -/
theorem result_facts {H : HolderEnv} {E : MatchEnv} {read : Cred → Option Cred} {creds : List Cred}
    (hF : Faithful H E read creds) {pd : Definition} (hn : (pd.descs.map FDesc.id).Nodup)
    (ht : ∀ d ∈ pd.descs, ∀ k, d.constraints = some k → Typed k) (hp : ∀ d ∈ pd.descs, PlainDesc d)
    {dis : Bool} (hs : dis = true ∨ ∀ d ∈ pd.descs, d.schema ≠ none) {dflt fmt : String}
    {m : GoMap (List (String × Cred))} (h : presentationData H dflt pd creds = some (.ok (fmt, m))) :
    IDsIdentify m ∧ (∀ d ∈ GoMap.keys m, d ∈ pd.descs.map FDesc.id) ∧
    (∀ d ∈ GoMap.keys m, ∃ ws, GoMap.get? m d = some ws ∧ ws ≠ []) ∧ GoMap.keys m ≠ [] ∧
    (Acceptable E.toMEnv read dis pd m ↔ ∀ d ∈ pd.descs, d.id ∈ GoMap.keys m) ∧
    ∀ r, SameAnswer read m r → (∀ d ∈ pd.descs, d.id ∈ GoMap.keys m) → Answers H pd creds read r := by
  have hnd : ((pd.descs.map FDesc.toDesc).map Desc.id).Nodup := by
    rw [List.map_map]; exact hn
  have hsol : Solution (evalDesc H pd creds) pd.reqs (pd.descs.map FDesc.toDesc) (GoMap.keys m) ∧
      ∀ d cs, GoMap.get? m d = some cs → Matched (evalDesc H pd creds) d cs := by
    rcases solveDefinition_ok hnd (evalDesc H pd creds) dflt h with ⟨f, m', e, h1, _, h3, _⟩ | ⟨e, d, e', _⟩ | ⟨e, _⟩
    · cases e
      exact ⟨h1, h3⟩
    · cases e'
    · cases e
  obtain ⟨hsol, hmat⟩ := hsol
  -- what a descriptor of the result looks like
  have hinv : ∀ d ws, GoMap.get? m d = some ws → ws ≠ [] ∧ ∃ fd ∈ pd.descs, fd.id = d ∧ ∃ f cs,
      filterDescriptor H.toMEnv pd.format fd.toM creds = .ok (f, cs) ∧ ws = cs.map (fun c => (c.id, c)) := by
    intro d ws hg
    obtain ⟨f, h1, h2⟩ := hmat d ws hg
    obtain ⟨fd, h3, h4, cs, h5, h6⟩ := evalDesc_plain hp h1
    exact ⟨h2, fd, h3, h4, f, cs, h5, h6⟩
  have hin : ∀ d ws u c, GoMap.get? m d = some ws → (u, c) ∈ ws → u = c.id ∧ c ∈ creds ∧
      ∀ fd ∈ pd.descs, fd.id = d → GoodFor E.toMEnv dis fd c := by
    intro d ws u c hg hm
    obtain ⟨_, fd, h1, h2, f, cs, h3, rfl⟩ := hinv d ws hg
    simp only [List.mem_map, Prod.mk.injEq] at hm
    obtain ⟨c', hc', rfl, rfl⟩ := hm
    obtain ⟨g1, _, g3, g4⟩ := filterDescriptor_sound H.toMEnv pd.format fd.toM (ht fd h1) h3 c' hc'
    refine ⟨rfl, g1, ?_⟩
    intro fd' hfd' he
    have : fd' = fd := List.inj_on_of_nodup_map hn hfd' h1 (by rw [he, h2])
    subst this
    rw [hF.same]
    refine ⟨hF.loads c' g1, ?_, g4⟩
    intro hd
    rcases hs with hs | hs
    · rw [hs] at hd; cases hd
    · cases hsc : fd'.schema with
      | none => exact absurd hsc (hs fd' h1)
      | some ss => exact ⟨ss, rfl, g3 ss hsc⟩
  have hkey : ∀ d ∈ GoMap.keys m, ∃ ws, GoMap.get? m d = some ws ∧ ws ≠ [] := by
    intro d hd
    obtain ⟨ws, hw⟩ := Option.isSome_iff_exists.mp (GoMap.get?_isSome_iff.mpr hd)
    exact ⟨ws, hw, (hinv d ws hw).1⟩
  refine ⟨?_, ?_, hkey, hsol.nonempty, ⟨?_, ?_⟩, ?_⟩
  · intro k k' ws ws' u c c' h1 h2 h3 h4
    obtain ⟨a1, a2, _⟩ := hin k ws u c h1 h3
    obtain ⟨b1, b2, _⟩ := hin k' ws' u c' h2 h4
    exact hF.ids c a2 c' b2 (by rw [← a1, ← b1])
  · intro d hd
    obtain ⟨ws, hw, _⟩ := hkey d hd
    obtain ⟨_, fd, h1, h2, _⟩ := hinv d ws hw
    exact List.mem_map.mpr ⟨fd, h1, h2⟩
  · intro hacc d hd
    obtain ⟨ws, h1, _, _⟩ := hacc d hd
    exact GoMap.get?_isSome_iff.mp (by rw [h1]; rfl)
  · intro hall d hd
    obtain ⟨ws, h1, h2⟩ := hkey d.id (hall d hd)
    refine ⟨ws, h1, h2, ?_⟩
    intro u c hm
    obtain ⟨_, b, c3⟩ := hin d.id ws u c h1 hm
    obtain ⟨c', hr, hal⟩ := hF.read c b
    exact ⟨c', hr, alike_good hal (c3 d hd rfl)⟩
  · intro r hag hall
    constructor
    · intro v hv
      obtain ⟨ws, u, c, h1, h2, h3⟩ := hag.1 v hv
      obtain ⟨_, fd, g1, g2, f, cs, g3, rfl⟩ := hinv _ ws h1
      simp only [List.mem_map, Prod.mk.injEq] at h2
      obtain ⟨c', hc', _, rfl⟩ := h2
      exact ⟨fd, g1, g2, f, cs, c', g3, hc', h3⟩
    · intro d hd
      obtain ⟨ws, h1, _⟩ := hkey d.id (hall d hd)
      obtain ⟨hne, fd, g1, g2, f, cs, g3, rfl⟩ := hinv _ ws h1
      have : fd = d := List.inj_on_of_nodup_map hn g1 hd g2
      subst this
      refine ⟨f, cs, g3, by rintro rfl; exact hne rfl, ?_⟩
      intro c hc
      exact hag.2 fd.id _ c.id c h1 (List.mem_map.mpr ⟨c, hc, rfl⟩)

/-- The mappings name exactly the descriptors of the result, and carry its format. -/
theorem names_of {H : HolderEnv} (hk : ∀ l, (H.sortKeys l).Perm l) (hs : ∀ l, (H.sortMaps l).Perm l)
    (sep : Bool) (fmt : String) {m : GoMap (List (String × Cred))} (hid : IDsIdentify m)
    (hne : ∀ d ∈ GoMap.keys m, ∃ ws, GoMap.get? m d = some ws ∧ ws ≠ []) :
    (∀ d, d ∈ GoMap.keys m ↔ ∃ o ∈ (mergedOf H sep fmt m).2, o.id = d) ∧
    ∀ o ∈ (mergedOf H sep fmt m).2, o.format = fmt := by
  have hM := mergedOf_mapped hk hs sep fmt hid
  refine ⟨fun d => ⟨?_, ?_⟩, ?_⟩
  · intro hd
    obtain ⟨ws, h1, h2⟩ := hne d hd
    obtain ⟨⟨u, c⟩, hc⟩ := List.exists_mem_of_ne_nil ws h2
    obtain ⟨o, ho, he, _⟩ := hM.all d ws u c h1 hc
    exact ⟨o, ho, he⟩
  · rintro ⟨o, ho, rfl⟩
    obtain ⟨ws, _, _, h, _⟩ := hM.only o ho
    exact GoMap.get?_isSome_iff.mp (by rw [h]; rfl)
  · intro o ho
    unfold mergedOf at ho
    exact (merge_all Cred.isJWT sep fmt m _).2 o ((hs _).mem_iff.mp ho)

theorem createVP_ok {H : HolderEnv} {dflt : String} {pd : Definition} {creds : List Cred} {made : Created}
    {os : List MapOut} (h : createVP H dflt pd creds = .ok (made, os)) : ∃ fmt m,
      presentationData H dflt pd creds = some (.ok (fmt, m)) ∧
      makePresentation (H.uuid 0) (mergedOf H false fmt m).1 = some made ∧ os = (mergedOf H false fmt m).2 := by
  unfold createVP at h
  split at h
  · next fmt m he =>
    split at h
    · cases h
    · next vp hv =>
      cases h
      exact ⟨fmt, m, he, hv, rfl⟩
  · cases h
  · cases h
  · cases h
  · cases h

theorem createVPArray_ok {H : HolderEnv} {dflt : String} {pd : Definition} {creds : List Cred} {made : List Created}
    {os : List MapOut} (h : createVPArray H dflt pd creds = .ok (made, os)) : ∃ fmt m,
      presentationData H dflt pd creds = some (.ok (fmt, m)) ∧
      makeEach H 0 (mergedOf H true fmt m).1 = some made ∧ os = (mergedOf H true fmt m).2 := by
  unfold createVPArray at h
  split at h
  · next fmt m he =>
    split at h
    · cases h
    · next vp hv =>
      cases h
      exact ⟨fmt, m, he, hv, rfl⟩
  · cases h
  · cases h
  · cases h
  · cases h

/-- **C101** (`_partial`: for descriptors without limited disclosure and predicates, with schemas or
schema validation switched off, and credentials with different IDs).  The presentation that `CreateVP`
makes for a definition, sent as it says (as a JWT if it says `jwt_vp`), is accepted by `Match` for the
same definition exactly when its submission names every descriptor; and then `Match` returns, for every
descriptor, exactly the holder's credentials that met it. -/
theorem createVP_then_match_partial {H : HolderEnv} {E : MatchEnv} {read : Cred → Option Cred} {creds : List Cred}
    (hF : Faithful H E read creds) {pd : Definition} (hn : (pd.descs.map FDesc.id).Nodup)
    (ht : ∀ d ∈ pd.descs, ∀ k, d.constraints = some k → Typed k) (hp : ∀ d ∈ pd.descs, PlainDesc d)
    {dis : Bool} (hs : dis = true ∨ ∀ d ∈ pd.descs, d.schema ≠ none) {dflt : String}
    {made : Created} {os : List MapOut} (h : createVP H dflt pd creds = .ok (made, os))
    {jwt : Bool} (hj : ∀ o ∈ os, o.format = "jwt_vp" → jwt = true) {vp : VP}
    (hsent : Sent E.parseCred read jwt made vp) {subID defID : String}
    (hsub : vp.submission = submissionMappings (encodeSubmission subID defID os)) :
    ((∃ r, matchSubmission E (pd.descs.map FDesc.toI) ⟨dis, none⟩ [vp] = .ok r) ↔
      ∀ d ∈ pd.descs, ∃ o ∈ os, o.id = d.id) ∧
    ∀ r, matchSubmission E (pd.descs.map FDesc.toI) ⟨dis, none⟩ [vp] = .ok r →
      Answers H pd creds read r ∧ ∀ v ∈ r, v.presentationID = made.id := by
  obtain ⟨fmt, m, h1, h2, rfl⟩ := createVP_ok h
  obtain ⟨hid, hm, hne, hnn, hacc, hans⟩ := result_facts hF hn ht hp hs h1
  obtain ⟨hnames, hfmt⟩ := names_of hF.keys hF.maps false fmt hid hne
  have hj' : fmt = "jwt_vp" → jwt = true := by
    intro e
    obtain ⟨d, hd⟩ := List.exists_mem_of_ne_nil _ hnn
    obtain ⟨o, ho, _⟩ := (hnames d).mp hd
    exact hj o ho (by rw [hfmt o ho, e])
  obtain ⟨g1, g2⟩ := match_created_iff hF.keys hF.maps hF.paths hn ht hid hm h2 hj' hsent hsub dis
  rw [hacc] at g1
  have hiff : (∀ d ∈ pd.descs, ∃ o ∈ (mergedOf H false fmt m).2, o.id = d.id) ↔
      ∀ d ∈ pd.descs, d.id ∈ GoMap.keys m := forall₂_congr fun d _ => (hnames d.id).symm
  refine ⟨by rw [hiff]; exact g1, fun r hr => ⟨?_, (g2 r hr).2⟩⟩
  exact hans r (g2 r hr).1 (g1.mp ⟨r, hr⟩)

/-- **C101** for `CreateVPArray` (`_partial`, as above). -/
theorem createVPArray_then_match_partial {H : HolderEnv} {E : MatchEnv} {read : Cred → Option Cred}
    {creds : List Cred} (hF : Faithful H E read creds) {pd : Definition} (hn : (pd.descs.map FDesc.id).Nodup)
    (ht : ∀ d ∈ pd.descs, ∀ k, d.constraints = some k → Typed k) (hp : ∀ d ∈ pd.descs, PlainDesc d)
    {dis : Bool} (hs : dis = true ∨ ∀ d ∈ pd.descs, d.schema ≠ none) {dflt : String}
    {made : List Created} {os : List MapOut} (h : createVPArray H dflt pd creds = .ok (made, os))
    (hlen : made.length < 2 ^ 63)
    {jwt : Bool} (hj : ∀ o ∈ os, o.format = "jwt_vp" → jwt = true) {vps : List VP}
    (hsent : List.Forall₂ (fun a vp => Sent E.parseCred read jwt a vp) made vps) {subID defID : String}
    {merged : Option (List (Option Mapping))}
    (hsub : merged = submissionMappings (encodeSubmission subID defID os)) :
    ((∃ r, matchSubmission E (pd.descs.map FDesc.toI) ⟨dis, some merged⟩ vps = .ok r) ↔
      ∀ d ∈ pd.descs, ∃ o ∈ os, o.id = d.id) ∧
    ∀ r, matchSubmission E (pd.descs.map FDesc.toI) ⟨dis, some merged⟩ vps = .ok r →
      Answers H pd creds read r ∧ ∀ v ∈ r, ∃ a ∈ made, ∃ c, a.creds = [c] ∧ read c = some v.cred ∧
        v.presentationID = a.id := by
  obtain ⟨fmt, m, h1, h2, rfl⟩ := createVPArray_ok h
  obtain ⟨hid, hm, hne, hnn, hacc, hans⟩ := result_facts hF hn ht hp hs h1
  obtain ⟨hnames, hfmt⟩ := names_of hF.keys hF.maps true fmt hid hne
  have hj' : fmt = "jwt_vp" → jwt = true := by
    intro e
    obtain ⟨d, hd⟩ := List.exists_mem_of_ne_nil _ hnn
    obtain ⟨o, ho, _⟩ := (hnames d).mp hd
    exact hj o ho (by rw [hfmt o ho, e])
  obtain ⟨g1, g2⟩ := match_created_array_iff hF.keys hF.maps hF.paths hn ht hid hm h2 hlen hj' hsent hsub dis
  rw [hacc] at g1
  have hiff : (∀ d ∈ pd.descs, ∃ o ∈ (mergedOf H true fmt m).2, o.id = d.id) ↔
      ∀ d ∈ pd.descs, d.id ∈ GoMap.keys m := forall₂_congr fun d _ => (hnames d.id).symm
  refine ⟨by rw [hiff]; exact g1, fun r hr => ⟨?_, (g2 r hr).2⟩⟩
  exact hans r (g2 r hr).1 (g1.mp ⟨r, hr⟩)

/-- Without submission requirements a result has all the descriptors. -/
theorem result_all {H : HolderEnv} {pd : Definition} (hn : (pd.descs.map FDesc.id).Nodup) (hr : pd.reqs = [])
    {dflt fmt : String} {creds : List Cred} {m : GoMap (List (String × Cred))}
    (h : presentationData H dflt pd creds = some (.ok (fmt, m))) : ∀ d ∈ pd.descs, d.id ∈ GoMap.keys m := by
  have hnd : ((pd.descs.map FDesc.toDesc).map Desc.id).Nodup := by
    rw [List.map_map]; exact hn
  intro d hd
  rcases solveDefinition_ok hnd (evalDesc H pd creds) dflt h with ⟨f, m', e, g1, _⟩ | ⟨e, d, e', _⟩ | ⟨e, _⟩
  · cases e
    exact g1.sat.1 hr d.toDesc (List.mem_map_of_mem hd)
  · cases e'
  · cases e

/-- **C101** (`_partial`, as above): for a definition without submission requirements, what `CreateVP`
makes is accepted. -/
theorem createVP_accepted_partial {H : HolderEnv} {E : MatchEnv} {read : Cred → Option Cred} {creds : List Cred}
    (hF : Faithful H E read creds) {pd : Definition} (hn : (pd.descs.map FDesc.id).Nodup)
    (ht : ∀ d ∈ pd.descs, ∀ k, d.constraints = some k → Typed k) (hp : ∀ d ∈ pd.descs, PlainDesc d)
    (hr : pd.reqs = []) {dis : Bool} (hs : dis = true ∨ ∀ d ∈ pd.descs, d.schema ≠ none) {dflt : String}
    {made : Created} {os : List MapOut} (h : createVP H dflt pd creds = .ok (made, os))
    {jwt : Bool} (hj : ∀ o ∈ os, o.format = "jwt_vp" → jwt = true) {vp : VP}
    (hsent : Sent E.parseCred read jwt made vp) {subID defID : String}
    (hsub : vp.submission = submissionMappings (encodeSubmission subID defID os)) :
    ∃ r, matchSubmission E (pd.descs.map FDesc.toI) ⟨dis, none⟩ [vp] = .ok r ∧ Answers H pd creds read r ∧
      ∀ v ∈ r, v.presentationID = made.id := by
  obtain ⟨g1, g2⟩ := createVP_then_match_partial hF hn ht hp hs h hj hsent hsub
  obtain ⟨r, hr'⟩ := g1.mpr (by
    obtain ⟨fmt, m, h1, h2, rfl⟩ := createVP_ok h
    obtain ⟨hid, hm, hne, hnn, hacc, hans⟩ := result_facts hF hn ht hp hs h1
    exact fun d hd => ((names_of hF.keys hF.maps false fmt hid hne).1 d.id).mp (result_all hn hr h1 d hd))
  exact ⟨r, hr', g2 r hr'⟩

/-- **C101** (`_partial`, as above): the same for `CreateVPArray`. -/
theorem createVPArray_accepted_partial {H : HolderEnv} {E : MatchEnv} {read : Cred → Option Cred}
    {creds : List Cred} (hF : Faithful H E read creds) {pd : Definition} (hn : (pd.descs.map FDesc.id).Nodup)
    (ht : ∀ d ∈ pd.descs, ∀ k, d.constraints = some k → Typed k) (hp : ∀ d ∈ pd.descs, PlainDesc d)
    (hr : pd.reqs = []) {dis : Bool} (hs : dis = true ∨ ∀ d ∈ pd.descs, d.schema ≠ none) {dflt : String}
    {made : List Created} {os : List MapOut} (h : createVPArray H dflt pd creds = .ok (made, os))
    (hlen : made.length < 2 ^ 63)
    {jwt : Bool} (hj : ∀ o ∈ os, o.format = "jwt_vp" → jwt = true) {vps : List VP}
    (hsent : List.Forall₂ (fun a vp => Sent E.parseCred read jwt a vp) made vps) {subID defID : String}
    {merged : Option (List (Option Mapping))}
    (hsub : merged = submissionMappings (encodeSubmission subID defID os)) :
    ∃ r, matchSubmission E (pd.descs.map FDesc.toI) ⟨dis, some merged⟩ vps = .ok r ∧ Answers H pd creds read r ∧
      ∀ v ∈ r, ∃ a ∈ made, ∃ c, a.creds = [c] ∧ read c = some v.cred ∧ v.presentationID = a.id := by
  obtain ⟨g1, g2⟩ := createVPArray_then_match_partial hF hn ht hp hs h hlen hj hsent hsub
  obtain ⟨r, hr'⟩ := g1.mpr (by
    obtain ⟨fmt, m, h1, h2, rfl⟩ := createVPArray_ok h
    obtain ⟨hid, hm, hne, hnn, hacc, hans⟩ := result_facts hF hn ht hp hs h1
    exact fun d hd => ((names_of hF.keys hF.maps true fmt hid hne).1 d.id).mp (result_all hn hr h1 d hd))
  exact ⟨r, hr', g2 r hr'⟩

end VC.PE
