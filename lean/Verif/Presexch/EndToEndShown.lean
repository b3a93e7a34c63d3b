import Verif.Presexch.EndToEndLimit
import Verif.Presexch.LimitShow
/-!
# presexch: derived credentials still meet their descriptor (C101 with C97)
-/

namespace VC.PE

open GoMap

variable {eval : List String → Json → Option (List (List Step))}

/-! ## Specification -/

/-- The paths of the fields are lists of member names (`place`), and both path libraries read them so:
the one of matching reads the value there, the one of limited disclosure reports the place if it
exists.  Paths are not rewritten for JWT credentials. -/
structure NamedFields (E : PEnv) (eval : List String → Json → Option (List (List Step))) (k : Constraints)
    (place : String → List Step) (jwt : Bool) : Prop where
  names : ∀ f ∈ k.fields, ∀ x ∈ f.path, Names (place x)
  starts : ∀ f ∈ k.fields, ∀ x ∈ f.path, hasPrefix x "$" = true
  reads : ∀ f ∈ k.fields, ∀ x ∈ f.path, ∃ q, parsePath E x = some q ∧
    ∀ o, E.select q o = (gat (.obj o) (place x)).toList
  kept : ∀ f ∈ k.fields, ∀ x ∈ f.path, ∀ o, rewritePath E.order jwt o x = x
  evals : ∀ f ∈ k.fields, ∀ raw ps, eval f.path (.obj raw) = some ps →
    ∀ p, p ∈ ps ↔ ∃ x ∈ f.path, p = place x ∧ (gat (.obj raw) p).isSome

/-- The verifier reads a derived credential as the document made by limiting disclosure (C96, C97):
members are where they are in that document, and the rest is as in the original. -/
structure ReadsDerived (eval : List String → Json → Option (List (List Step))) (read : Cred → Option Cred)
    (k : Constraints) (c w : Cred) (raw : JObj) (subjects : List Vfy.Subject) (c' : Cred) : Prop where
  read : read w = some c'
  source : c.display = some raw
  doc : ∃ L D, limitedDoc eval k raw subjects = some L ∧ c'.display = some D ∧
    ∀ p, Names p → gat (.obj D) p = gat L p
  contexts : c'.contexts = c.contexts
  types : c'.types = c.types
  issuer : c'.issuer = c.issuer
  subjects : c'.subjects = c.subjects
  isJWT : c'.isJWT = c.isJWT

/-- Limiting is faithful for these fields: the cases of C97, the template shows nothing new at a place
of a field, and the filter of a required predicate accepts `true`. -/
structure FaithfulLimit (E : PEnv) (eval : List String → Json → Option (List (List Step))) (k : Constraints)
    (jwt : Bool) (raw : JObj) (subjects : List Vfy.Subject) : Prop where
  named : ∃ place, NamedFields E eval k place jwt ∧
    ∀ f ∈ k.fields, ∀ x ∈ f.path, (gat (.obj (template k.limitReq raw subjects)) (place x)).isSome →
      (gat (.obj raw) (place x)).isSome
  simple : Simple eval raw (.obj (template k.limitReq raw subjects)) k.fields
  predicate : ∀ f ∈ k.fields, f.predicateReq = true → ValueOk E f jwt (.bool true)

/-! ## Proofs -/

theorem build_adds (w : Json) : ∀ (p q : List Step), (∀ s ∈ p, s.Plain) → Names p → Names q →
    (gat (build w (p.map Step.text)) q).isSome → q <+: p ∨ ∃ r, q = p ++ r ∧ (gat w r).isSome
  | [], q, _, _, _, h => .inr ⟨q, rfl, h⟩
  | s :: p, [], _, _, _, _ => .inl (List.nil_prefix)
  | s :: p, t :: q, hpl, hp, hq, h => by
    obtain ⟨k, rfl⟩ := hp s (List.mem_cons_self ..)
    obtain ⟨k', rfl⟩ := hq t (List.mem_cons_self ..)
    simp only [List.map_cons, build, compIdx_text_name (hpl _ (List.mem_cons_self ..))] at h
    rw [gat_name] at h
    simp only [Step.text, get?] at h
    by_cases e : k = k'
    · subst e
      simp only [if_pos] at h
      rcases build_adds w p q (fun s hs => hpl s (List.mem_cons_of_mem _ hs))
        (fun s hs => hp s (List.mem_cons_of_mem _ hs)) (fun s hs => hq s (List.mem_cons_of_mem _ hs)) (by simpa using h) with h | ⟨r, e, h⟩
      · exact .inl (List.cons_prefix_cons.mpr ⟨rfl, h⟩)
      · exact .inr ⟨r, by rw [e]; rfl, h⟩
    · simp [e] at h

theorem ssetC_adds (w : Json) : ∀ (p q : List Step) (j j' : Json), (∀ s ∈ p, s.Plain) → Names p → Names q →
    ssetC w (p.map Step.text) j = some j' → (gat j' q).isSome →
    (gat j q).isSome ∨ q <+: p ∨ ∃ r, q = p ++ r ∧ (gat w r).isSome
  | [], q, j, j', _, _, _, h, hg => by
    simp only [List.map_nil, ssetC, Option.some.injEq] at h
    subst h
    exact .inr (.inr ⟨q, rfl, hg⟩)
  | s :: p, [], _, _, _, _, _, _, _ => .inr (.inl List.nil_prefix)
  | s :: p, t :: q, j, j', hpl, hp, hq, h, hg => by
    obtain ⟨k, rfl⟩ := hp s (List.mem_cons_self ..)
    obtain ⟨k', rfl⟩ := hq t (List.mem_cons_self ..)
    have hpl' : ∀ s ∈ p, s.Plain := fun s hs => hpl s (List.mem_cons_of_mem _ hs)
    have hp' : Names p := fun s hs => hp s (List.mem_cons_of_mem _ hs)
    have hq' : Names q := fun s hs => hq s (List.mem_cons_of_mem _ hs)
    have viaBuild : j' = build w ((Step.name k :: p).map Step.text) →
        (gat j (.name k' :: q)).isSome ∨ (.name k' :: q) <+: (.name k :: p) ∨
          ∃ r, (Step.name k' :: q) = (.name k :: p) ++ r ∧ (gat w r).isSome := by
      rintro rfl
      exact .inr (build_adds w (.name k :: p) (.name k' :: q) hpl hp hq hg)
    cases j with
    | obj o =>
      simp only [List.map_cons, ssetC] at h
      cases ho : get? o (Step.text (.name k)) with
      | some x =>
        rw [ho] at h
        obtain ⟨y, hy, rfl⟩ := Option.map_eq_some_iff.mp h
        rw [gat_name] at hg ⊢
        by_cases e : k = k'
        · subst e
          rw [Step.text, get?_set_self] at hg
          rcases ssetC_adds w p q x y hpl' hp' hq' hy (by simpa using hg) with h | h | ⟨r, e, h⟩
          · left
            rw [show get? o k = some x from ho]
            simpa using h
          · exact .inr (.inl (List.cons_prefix_cons.mpr ⟨rfl, h⟩))
          · exact .inr (.inr ⟨r, by rw [e]; rfl, h⟩)
        · left
          rw [Step.text, get?_set_ne _ _ e] at hg
          exact hg
      | none =>
        rw [ho] at h
        simp only [Option.some.injEq] at h
        subst h
        rw [gat_name] at hg ⊢
        by_cases e : k = k'
        · subst e
          rw [Step.text, get?_set_self] at hg
          rcases build_adds w p q hpl' hp' hq' (by simpa using hg) with h | ⟨r, e, h⟩
          · exact .inr (.inl (List.cons_prefix_cons.mpr ⟨rfl, h⟩))
          · exact .inr (.inr ⟨r, by rw [e]; rfl, h⟩)
        · left
          rw [Step.text, get?_set_ne _ _ e] at hg
          exact hg
    | arr l =>
      simp only [List.map_cons, ssetC, compIdx_text_name (hpl _ (List.mem_cons_self ..))] at h
      cases h
    | null => exact viaBuild (by simpa [ssetC] using h.symm)
    | bool b => exact viaBuild (by simpa [ssetC] using h.symm)
    | num n => exact viaBuild (by simpa [ssetC] using h.symm)
    | str s => exact viaBuild (by simpa [ssetC] using h.symm)

theorem writeAll_adds {src : Json} : ∀ (ws : List (List Step × Json)) (doc out : Json),
    (∀ a ∈ ws, (∀ s ∈ a.1, s.Plain) ∧ Names a.1 ∧ (gat src a.1).isSome ∧
      ∀ r, (gat a.2 r).isSome → (gat src (a.1 ++ r)).isSome) →
    writeAll doc ws = some out → ∀ q, Names q → (gat out q).isSome → (gat doc q).isSome ∨ (gat src q).isSome
  | [], doc, out, _, h, q, _, hg => by
    simp only [writeAll, Option.some.injEq] at h
    subst h
    exact .inl hg
  | a :: ws, doc, out, ha, h, q, hq, hg => by
    simp only [writeAll] at h
    obtain ⟨d, h1, h2⟩ := Option.bind_eq_some_iff.mp h
    rcases writeAll_adds ws d out (fun b hb => ha b (List.mem_cons_of_mem _ hb)) h2 q hq hg with h | h
    · obtain ⟨b1, b2, b3, b4⟩ := ha a (List.mem_cons_self ..)
      rcases ssetC_adds a.2 a.1 q doc d b1 b2 hq h1 h with h | ⟨r, e⟩ | ⟨r, e, h⟩
      · exact .inl h
      · right
        rw [← e, gat_append] at b3
        cases hx : gat src q with
        | none => rw [hx] at b3; cases b3
        | some x => rfl
      · right
        rw [e]
        exact b4 r h
    · exact .inr h

/-- A limited document has, at places of names, only what the template or the source has. -/
theorem limited_adds_nothing {raw : JObj} {T L : Json} {fields : List Field} (h : Simple eval raw T fields)
    (hnames : ∀ f ∈ fields, ∀ ps, eval f.path (.obj raw) = some ps → ∀ p ∈ ps, Names p)
    (hL : setFields eval (.obj raw) T fields = some L) {q : List Step} (hq : Names q)
    (hg : (gat L q).isSome) : (gat T q).isSome ∨ (gat (.obj raw) q).isSome := by
  obtain ⟨wss, hw, he⟩ := fields_writes fields (fun f hf => field_writes h hf)
  rw [he] at hL
  refine writeAll_adds wss.flatten T L ?_ hL q hq hg
  intro a ha
  obtain ⟨ws, hws, ha⟩ := List.mem_flatten.mp ha
  obtain ⟨f, hf, ps, m, hps, _, _, _, rfl⟩ := f2_right hw hws
  obtain ⟨p, hp, rfl⟩ := List.mem_map.mp ha
  have hn := hnames f hf ps hps p hp
  obtain ⟨_, h2, h3, _⟩ := h.place f hf ps hps p hp
  dsimp only
  rw [rho_names m p [] hn]
  refine ⟨h3, hn, h2, ?_⟩
  intro r hr
  rw [gat_append]
  obtain ⟨x, hx⟩ := Option.isSome_iff_exists.mp h2
  rw [hx]
  unfold shown at hr
  split at hr
  · cases r with
    | nil => simp
    | cons s r => cases s <;> simp [gat] at hr
  · rw [hx] at hr
    simpa using hr

/-- **C101 with C97.**  A derived credential meets the descriptor that the original met. -/
theorem derived_good_partial {E : MEnv} {read : Cred → Option Cred} {dis : Bool} {d : FDesc} {k : Constraints}
    (hk : d.constraints = some k) {c w c' : Cred} {raw : JObj} {subjects : List Vfy.Subject}
    (hr : ReadsDerived eval read k c w raw subjects c') (hl : FaithfulLimit E.toPEnv eval k c.isJWT raw subjects)
    (hg : GoodFor E dis d c) : GoodFor E dis d c' := by
  have hs : ∀ u, HasSchema E.load c u → HasSchema E.load c' u := by
    rintro u ⟨ctx, h1, ids, h2, t, h3, h4⟩
    exact ⟨ctx, by rw [hr.contexts]; exact h1, ids, h2, t, by rw [hr.types]; exact h3, h4⟩
  refine ⟨by rw [hr.contexts]; exact hg.loads, ?_, ?_⟩
  · intro hd
    obtain ⟨ss, h1, h2, s, h3, h4⟩ := hg.schema hd
    exact ⟨ss, h1, fun s hm hr => hs _ (h2 s hm hr), s, h3, hs _ h4⟩
  · intro k' hk'
    rw [hk] at hk'
    cases hk'
    obtain ⟨h1, h2, m, h3, h4⟩ := hg.constraints k hk
    rw [hr.source] at h3
    cases h3
    obtain ⟨L, D, hdoc, hD, hsame⟩ := hr.doc
    refine ⟨by rw [hr.issuer, hr.subjects]; exact h1, h2, D, hD, ?_⟩
    obtain ⟨place, hnm, htm⟩ := hl.named
    obtain ⟨L', hL', hshow⟩ := limited_shows_selected_partial hl.simple
    have hL'' : L' = L := Option.some.inj (hL'.symm.trans hdoc)
    subst hL''
    intro f hf
    rw [hr.isJWT]
    rcases h4 f hf with h5 | ⟨x, hx, vs, ⟨hpre, q, hq, hsel⟩, hval⟩
    · exact .inl h5
    right
    refine ⟨x, hx, ?_⟩
    obtain ⟨q', hq', hrd⟩ := hnm.reads f hf x hx
    rw [hnm.kept f hf x hx] at hpre hq
    rw [hq'] at hq
    cases hq
    rw [hrd] at hsel
    have hNx := hnm.names f hf x hx
    have reads : ∀ vs', vs' = (gat (.obj D) (place x)).toList → Reads E.toPEnv c.isJWT D x vs' := by
      rintro vs' rfl
      refine ⟨?_, q, ?_, hrd D⟩
      · rw [hnm.kept f hf x hx]; exact hpre
      · rw [hnm.kept f hf x hx]; exact hq'
    cases hx0 : gat (.obj raw) (place x) with
    | none =>
      rw [hx0] at hsel
      subst hsel
      have hno : gat (.obj D) (place x) = none := by
        rw [hsame _ hNx]
        cases hgL : gat L' (place x) with
        | none => rfl
        | some v =>
          rcases limited_adds_nothing hl.simple (fun f hf ps hps p hp => by
              obtain ⟨y, hy, rfl, _⟩ := (hnm.evals f hf raw ps hps p).mp hp
              exact hnm.names f hf y hy) hL' hNx (by rw [hgL]; rfl) with h | h
          · have := htm f hf x hx h
            rw [hx0] at this
            cases this
          · rw [hx0] at h
            cases h
      refine ⟨[], reads [] (by rw [hno]; rfl), ?_⟩
      rcases hval with ⟨_, ho⟩ | ⟨v, hfd, _⟩
      · exact .inl ⟨rfl, ho⟩
      · rcases hfd with h | ⟨h, _⟩
        · cases h
        · simp at h
    | some v =>
      rw [hx0] at hsel
      simp only [Option.toList_some] at hsel
      subst hsel
      have hv : ValueOk E.toPEnv f c.isJWT v := by
        rcases hval with ⟨h, _⟩ | ⟨v', hfd, hv⟩
        · cases h
        · rcases hfd with h | ⟨h, _⟩
          · cases h; exact hv
          · simp at h
      obtain ⟨ps, hps⟩ := Option.isSome_iff_exists.mp (hl.simple.parsed f hf)
      have hmem : place x ∈ ps := (hnm.evals f hf raw ps hps _).mpr ⟨x, hx, rfl, by rw [hx0]; rfl⟩
      obtain ⟨ρ, _, hρ, _, _, hfin⟩ := hshow f hf ps hps
      have hat := hfin _ hmem
      rw [hρ _ hmem hNx, ← hsame _ hNx] at hat
      cases hpr : f.predicateReq with
      | true =>
        rw [hpr] at hat
        exact ⟨[.bool true], reads _ (by rw [hat]; rfl), .inr ⟨_, .inl rfl, hl.predicate f hf hpr⟩⟩
      | false =>
        rw [hpr, hx0] at hat
        exact ⟨[v], reads _ (by rw [hat]; rfl), .inr ⟨_, .inl rfl, hv⟩⟩

/-- For a wallet without SD-JWT credentials: if originals are read as they are and derived ones as the
limited document, and limiting is faithful, what is sent still meets its descriptor. -/
theorem derived_still_good_partial {H : HolderEnv} {E : MatchEnv} {read : Cred → Option Cred} {creds : List Cred}
    {pd : Definition} (hsame : E.toMEnv = H.toMEnv)
    (ht : ∀ d ∈ pd.descs, ∀ k, d.constraints = some k → Typed k)
    {dis : Bool} (hs : dis = true ∨ ∀ d ∈ pd.descs, d.schema ≠ none)
    (hloads : ∀ c ∈ creds, ∀ ctx ∈ c.contexts, ∃ ids, H.load ctx = some ids)
    (hsd : ∀ c ∈ creds, c.isSDJWT = false)
    (hread : ∀ c ∈ creds, ∃ c', read c = some c' ∧ Alike c c')
    (hder : ∀ d ∈ pd.descs, ∀ k, d.constraints = some k → ∀ c ∈ creds, ∀ w, H.derive k c = some w →
      ∃ raw subjects c', ReadsDerived eval read k c w raw subjects c' ∧
        FaithfulLimit H.toPEnv eval k c.isJWT raw subjects) :
    StillGood H E read dis pd creds := by
  intro d hd n c u w hc ⟨f, cs, h1, h2⟩ hsent
  have hgood : GoodFor E.toMEnv dis d c := by
    obtain ⟨g1, _, g3, g4⟩ := filterDescriptor_sound H.toMEnv pd.format d.toM (ht d hd) h1 c (List.mem_of_getElem? h2)
    rw [hsame]
    refine ⟨hloads c g1, ?_, g4⟩
    intro hdis
    rcases hs with hs | hs
    · rw [hs] at hdis; cases hdis
    · cases hsc : d.schema with
      | none => exact absurd hsc (hs d hd)
      | some ss => exact ⟨ss, rfl, g3 ss hsc⟩
  rcases sentFor_cases hsent with ⟨_, rfl, _⟩ | ⟨k, _, _, _, h, _⟩ | ⟨k, _, hk, hw⟩
  · obtain ⟨c', h3, h4⟩ := hread w hc
    exact ⟨c', h3, alike_good h4 hgood⟩
  · rw [hsd c hc] at h; cases h
  · obtain ⟨raw, subjects, c', h3, h4⟩ := hder d hd k hk c hc w hw
    refine ⟨c', h3.read, derived_good_partial hk h3 ?_ hgood⟩
    have : E.toPEnv = H.toPEnv := congrArg MEnv.toPEnv hsame
    rw [this]
    exact h4

end VC.PE
