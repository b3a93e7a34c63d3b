import Verif.Presexch.ValidatedExamples
import Verif.Presexch.EndToEndLimit
/-!
# presexch: what the holder sends, by the preferences of the definition (C123)
-/

namespace VC.PD

open GoMap

/-! ## Specification -/

/-- Some field of the constraints has the preference `predicate: required`. -/
def WantsPredicate (k : Constraints) : Prop := ∃ f, some f ∈ k.fields ∧ f.predicate = some "required"

/-- The issuer is one of the subjects. -/
def SelfIssued (c : PE.Cred) : Prop := ∃ i, c.issuer = some i ∧ i ≠ "" ∧ i ∈ c.subjects

/-- What may be sent for a credential `c` by the preferences in the constraints of a descriptor:

* with `subject_is_issuer: required` the credential is self-issued;
* with `limit_disclosure: required` a restricted SD-JWT, or a derived credential, the latter only of a
  BBS+ or self-issued credential or with a required predicate;
* without it, a derived credential if a predicate is required (not of an SD-JWT), else itself. -/
structure SentBy (H : PE.HolderEnv) (k : Constraints) (c v : PE.Cred) : Prop where
  selfIssued : k.subjectIsIssuer = some "required" → SelfIssued c
  limited : k.limitDisclosure = some "required" →
    (c.isSDJWT = true ∧ H.restrict k.toPE c = some v) ∨
    (c.isSDJWT = false ∧ H.derive k.toPE c = some v ∧ (c.hasBBS = true ∨ SelfIssued c ∨ WantsPredicate k))
  predicate : k.limitDisclosure ≠ some "required" → WantsPredicate k → c.isSDJWT = false → H.derive k.toPE c = some v
  whole : k.limitDisclosure ≠ some "required" → (c.isSDJWT = true ∨ ¬ WantsPredicate k) → v = c

/-! ## Proofs -/

theorem wants_toPE (k : Constraints) : (∃ f ∈ k.toPE.fields, f.predicateReq = true) ↔ WantsPredicate k := by
  simp only [Constraints.toPE, List.mem_map, List.mem_filterMap, WantsPredicate]
  constructor
  · rintro ⟨f, ⟨g, ⟨o, ho, e⟩, rfl⟩, h⟩
    have e : o = some g := e
    subst e
    exact ⟨g, ho, by simpa [Field.toPE] using h⟩
  · rintro ⟨g, hg, h⟩
    exact ⟨g.toPE, ⟨g, ⟨_, hg, rfl⟩, rfl⟩, by simp [Field.toPE, h]⟩

theorem sentBy_of {H : PE.HolderEnv} {x : Descriptor} {n : Nat} {c v : PE.Cred} {u : String}
    (h : PE.SentFor H x.toPE n c u v) {k : Constraints} (hk : x.constraints = some k)
    (hok : PE.ConstraintsOk H.toPEnv k.toPE c) : SentBy H k c v := by
  have hk' : x.toPE.constraints = some k.toPE := by simp [Descriptor.toPE, hk]
  have hl : k.toPE.limitReq = true ↔ k.limitDisclosure = some "required" := by simp [Constraints.toPE]
  have hl' : k.toPE.limitReq = false ↔ k.limitDisclosure ≠ some "required" := by
    rw [Ne, ← hl]; simp
  have hself : k.subjectIsIssuer = some "required" → SelfIssued c := by
    intro e
    exact hok.1 (by simp [Constraints.toPE, e])
  have hnar : PE.Narrows x.toPE ↔ k.limitDisclosure = some "required" ∨ WantsPredicate k := by
    unfold PE.Narrows
    rw [hk']
    simp only [Option.some.injEq, exists_eq_left', wants_toPE, hl]
  cases h with
  | same a1 a2 =>
    have h1 := hl'.mp (a1 _ hk')
    refine ⟨hself, fun e => absurd e h1, ?_, fun _ _ => rfl⟩
    intro _ hw hs
    exact absurd (hnar.mpr (.inr hw)) (a2 hs)
  | restricted b1 b2 b3 b4 =>
    rw [hk'] at b1
    cases b1
    exact ⟨hself, fun _ => .inl ⟨b3, b4⟩, fun e => absurd (hl.mp b2) e, fun e => absurd (hl.mp b2) e⟩
  | derived b1 b2 b3 b4 b5 =>
    rw [hk'] at b1
    cases b1
    refine ⟨hself, ?_, fun _ _ _ => b5, ?_⟩
    · intro e
      refine .inr ⟨b3, b5, ?_⟩
      rcases b4 (hl.mpr e) with h | h | h
      · exact .inl h
      · exact .inr (.inl h)
      · exact .inr (.inr ((wants_toPE k).mp h))
    · intro e hs
      rcases hnar.mp b2 with h | h
      · exact absurd h e
      · rcases hs with hs | hs
        · rw [b3] at hs; cases hs
        · exact absurd h hs

/-- Where a merged credential comes from. -/
theorem merged_sent {d : Definition} {H : PE.HolderEnv}
    (hk : ∀ l, (H.sortKeys l).Perm l) (hn : (d.toPE.descs.map PE.FDesc.id).Nodup) (ht : TypedFilters d)
    {dflt : String} {cs : List PE.Cred} {sep : Bool} {fmt : String} {q : GoMap (List (String × PE.Cred))}
    (hp : PE.presentationData H dflt d.toPE cs = some (.ok (fmt, q))) :
    ∀ v ∈ (PE.mergedOf H sep fmt q).1, ∃ x, some x ∈ d.descs ∧ ∃ c ∈ cs,
      (x.constraints = none → v = c) ∧ ∀ k, x.constraints = some k →
        PE.ConstraintsOk H.toPEnv k.toPE c ∧ SentBy H k c v := by
  have hm : (d.toPE.descs.map PE.FDesc.toDesc).map PE.Desc.id = d.toPE.descs.map PE.FDesc.id := by
    rw [List.map_map]; rfl
  intro v hv
  obtain ⟨i, ws, u, hw, hu⟩ := (PE.merged_from hk sep fmt q).1 v hv
  rcases PE.solveDefinition_ok (by rw [hm]; exact hn) (PE.evalDesc H d.toPE cs) dflt hp with
    ⟨f, q', e, _, _, hmt, _⟩ | ⟨e, i, e', _⟩ | ⟨e, _⟩
  · cases e
    obtain ⟨f', he, _⟩ := hmt i ws hw
    obtain ⟨y, hy, _, hs, _⟩ := PE.evalDesc_limit he
    obtain ⟨n, c, hmet, hsent⟩ := hs u v hu
    have hty := typed_toPE ht y hy
    have hc := PE.metAt_mem hty hmet
    obtain ⟨f2, cs2, h1, h2⟩ := hmet
    have hok := (PE.filterDescriptor_sound H.toMEnv d.toPE.format y.toM hty h1 c (List.mem_of_getElem? h2)).2.2.2
    simp only [Definition.toPE, List.mem_map, List.mem_filterMap] at hy
    obtain ⟨x, ⟨o, ho, e⟩, rfl⟩ := hy
    have e : o = some x := e
    subst e
    refine ⟨x, ho, c, hc, ?_, ?_⟩
    · intro hnone
      have hno : x.toPE.constraints = none := by simp [Descriptor.toPE, hnone]
      rcases PE.sentFor_cases hsent with ⟨_, h, _⟩ | ⟨k, _, h, _⟩ | ⟨k, _, h, _⟩
      · exact h
      · rw [hno] at h; cases h
      · rw [hno] at h; cases h
    · intro k hxk
      have h := hok k.toPE (by simp [Descriptor.toPE, PE.FDesc.toM, hxk])
      exact ⟨h, sentBy_of hsent hxk h⟩
  · cases e'
  · cases e

variable {E : Schema.SEnv} {G : Framer}

/-- **C123.**  Every credential of a presentation made for a definition, be it one or one each, was sent
for a credential of the (framed) wallet that meets the constraints of one of the descriptors, in the way
the preferences in those constraints say. -/
theorem made_as_preferred {d : Definition} {H : PE.HolderEnv}
    (hk : ∀ l, (H.sortKeys l).Perm l) (hn : (d.toPE.descs.map PE.FDesc.id).Nodup) (ht : TypedFilters d)
    {dflt : String} {creds : List PE.Cred} {v : PE.Cred}
    (h : (∃ made os, createVP E G H dflt (some d) creds = .ok (made, os) ∧ v ∈ made.creds) ∨
      ∃ mades os, createVPArray E G H dflt (some d) creds = .ok (mades, os) ∧ ∃ made ∈ mades, v ∈ made.creds) :
    ∃ cs, frameCreds G d.frame creds = some cs ∧ ∃ x, some x ∈ d.descs ∧ ∃ c ∈ cs,
      (x.constraints = none → v = c) ∧ ∀ k, x.constraints = some k →
        PE.ConstraintsOk H.toPEnv k.toPE c ∧ SentBy H k c v := by
  rcases h with ⟨made, os, h, hv⟩ | ⟨mades, os, h, made, hmd, hv⟩
  · unfold createVP at h
    split at h
    swap
    · cases h
    dsimp only at h
    split at h
    swap
    · split at h <;> cases h
    next cs hcs =>
    obtain ⟨fmt, q, hp, hmk, -⟩ := PE.createVP_ok h
    rw [(PE.made_creds hmk).1] at hv
    exact ⟨cs, hcs, merged_sent hk hn ht hp v hv⟩
  · unfold createVPArray at h
    split at h
    swap
    · cases h
    dsimp only at h
    split at h
    swap
    · split at h <;> cases h
    next cs hcs =>
    obtain ⟨fmt, q, hp, hmk, -⟩ := PE.createVPArray_ok h
    obtain ⟨x, hx, _, he⟩ := PE.forall₂_right (PE.makeEach_forall _ _ _ hmk) made hmd
    rw [he, List.mem_singleton] at hv
    subst hv
    exact ⟨cs, hcs, merged_sent hk hn ht hp v hx⟩

/-! ## Example -/

/-- A definition that wants limited disclosure. -/
def pvLimited : Definition := { pvFramed with
  frame := none
  descs := [some { id := "any", constraints := some { limitDisclosure := some "required", fields :=
    [some { path := ["$.name"] }] } }] }

theorem pvLimited_accepted : validateSchema pvE (some pvLimited) = true := by
  refine (validate_iff pvE_laws _).2 (.inr { pvV2_ok with id := by decide, descs := ?_, nonempty := by simp [pvLimited] })
  intro d hd
  rw [List.mem_singleton.1 hd]
  refine ⟨_, rfl, by decide, rfl, ?_, ?_, ?_⟩
  · intro l hl; cases hl
  · intro f hf; cases hf
  · intro c hc
    cases hc
    refine ⟨(by intro s h; cases h; exact Or.inl rfl), (by intro s h; cases h), (by simp), ?_⟩
    intro f hf
    rw [List.mem_singleton.1 hf]
    exact ⟨_, rfl, by simp, (fun x hx => by cases hx), (by intro s h; cases h), fun h => absurd rfl h⟩

/-- Non-vacuity: of a BBS+ credential and a plain one, only the first is sent, derived. -/
example : ∃ made os v, createVP pvE none PE.etHolder "ldp_vp" (some pvLimited)
    [pvBBS "c1", PE.etCred "c2" "Degree" "Ann"] = .ok (made, os) ∧ made.creds = [v] ∧
    ∃ x, some x ∈ pvLimited.descs ∧ ∃ c ∈ [pvBBS "c1", PE.etCred "c2" "Degree" "Ann"],
      ∀ k, x.constraints = some k → PE.ConstraintsOk PE.etHolder.toPEnv k.toPE c ∧ SentBy PE.etHolder k c v := by
  have h : ((createVP pvE none PE.etHolder "ldp_vp" (some pvLimited)
      [pvBBS "c1", PE.etCred "c2" "Degree" "Ann"]).get?.map (fun r => r.1.creds.map PE.Cred.id)) = some ["c1"] := by
    rw [(accepted_everywhere (G := none) (cs := [pvBBS "c1", PE.etCred "c2" "Degree" "Ann"])
      pvLimited_accepted rfl PE.etHolder "ldp_vp").1]
    decide +kernel
  obtain ⟨⟨made, os⟩, h1, h2⟩ := Option.map_eq_some_iff.mp h
  have h1 := PE.get?_ok h1
  have hlen : made.creds.length = 1 := by simpa using congrArg List.length h2
  obtain ⟨v, hv⟩ := List.length_eq_one_iff.mp hlen
  obtain ⟨cs, hcs, x, hx, c, hc, _, hk⟩ := made_as_preferred (E := pvE) (G := none) (H := PE.etHolder)
    (fun l => List.Perm.refl _) (by decide)
    (by
      intro x hx c hc f hf fl hfl
      have e := Option.some.inj (List.mem_singleton.1 hx)
      subst e
      cases hc
      have e := Option.some.inj (List.mem_singleton.1 hf)
      subst e
      cases hfl) (.inl ⟨made, os, h1, by rw [hv]; exact List.mem_singleton.mpr rfl⟩)
  cases hcs
  exact ⟨made, os, v, h1, hv, x, hx, c, hc, hk⟩

end VC.PD
