import Verif.Presexch.Validated
import Verif.Presexch.ReportExamples
/-!
# presexch: examples and witnesses for C113 and C114

`pv*`: toy libraries that satisfy `PatternLaws`, definitions that are accepted, definitions that are
accepted and crash the holder.
-/

namespace VC.PD

open VC.Schema Spec

/-- Toy libraries: the two patterns, and an encoding of strings; every filter is a schema. -/
def pvE : SEnv where
  regex := fun p k =>
    if p = "^jwt$|^jwt_vc$|^jwt_vp$" then k == "jwt" || k == "jwt_vc" || k == "jwt_vp"
    else if p = "^ldp_vc$|^ldp_vp$|^ldp$" then k == "ldp_vc" || k == "ldp_vp" || k == "ldp"
    else false
  format := fun _ _ => true
  text := fun v => match v with
    | .str s => s
    | _ => ""
  refs := fun _ _ => true

theorem pvE_laws : PatternLaws pvE where
  jwt := by intro k; simp only [pvE, if_true, Bool.or_eq_true, beq_iff_eq, or_assoc]
  ldp := by
    intro k
    have h : ("^ldp_vc$|^ldp_vp$|^ldp$" : String) ≠ "^jwt$|^jwt_vc$|^jwt_vp$" := by decide
    simp only [pvE, h, if_false, if_true, Bool.or_eq_true, beq_iff_eq, or_assoc]
  other := by
    intro k _
    have h1 : ("additionalProperties" : String) ≠ "^jwt$|^jwt_vc$|^jwt_vp$" := by decide
    have h2 : ("additionalProperties" : String) ≠ "^ldp_vc$|^ldp_vp$|^ldp$" := by decide
    simp only [pvE, h1, h2, if_false]
  text := fun _ _ h => h

/-- The name has to be "Ann". -/
def pvFilter : Filter := { typ := some "string", const := some (.str "Ann") }

/-- The name, disclosed as a predicate. -/
def pvField : Field := { path := ["$.name"], filter := some pvFilter, predicate := some "preferred" }

/-- A v1 descriptor. -/
def pvDesc (id : String) : Descriptor where
  id := id
  group := ["A"]
  schema := some [some ⟨"urn:Degree", true⟩]
  constraints := some { fields := [some pvField] }

/-- A v1 definition: nested requirements, a format, constraints. -/
def pvV1 : Definition where
  id := "d1"
  format := some ⟨some ["EdDSA"], none, none, none, some ["Ed25519Signature2018"], none, none, none⟩
  reqs := [.mk "n" "" "all" 0 0 0 "" [.mk "" "" "pick" 1 0 2 "A" []]]
  descs := [some (pvDesc "deg"), some (pvDesc "lic")]

theorem pvFilter_ok : FilterV1 pvFilter where
  typ := by decide
  minimum := by intro x h; cases h
  maximum := by intro x h; cases h
  exclusiveMinimum := by intro x h; cases h
  exclusiveMaximum := by intro x h; cases h
  const := by intro x h; cases h; trivial
  enum := by intro v h; cases h

theorem pvDesc_ok {i : String} (h : i ≠ "") : DescriptorV1 (pvDesc i) where
  id := h
  metadata := rfl
  schema := ⟨_, rfl, by simp, by
    intro s hs
    rw [List.mem_singleton.1 hs]
    exact ⟨_, rfl, by decide⟩⟩
  format := rfl
  constraints := by
    intro c hc
    cases hc
    refine ⟨(by intro s h; cases h), (by intro s h; cases h), (by simp), ?_⟩
    intro f hf
    rw [List.mem_singleton.1 hf]
    refine ⟨_, rfl, by simp [pvField], ?_, ?_, fun _ => by simp [pvField], rfl, rfl⟩
    · intro x hx; cases hx; exact pvFilter_ok
    · intro s hs; cases hs; exact Or.inr rfl

theorem pvV1_ok : V1 pvV1 where
  id := by decide
  locale := rfl
  reqs := by
    intro r hr
    rw [List.mem_singleton.1 hr]
    refine .nested (.inl rfl) (by decide) (by decide) (by decide) (by simp) ?_
    intro r hr
    rw [List.mem_singleton.1 hr]
    exact .group (.inr rfl) (by decide) (by decide) (by decide) (by decide)
  nonempty := by simp [pvV1]
  descs := by
    intro d hd
    simp only [pvV1, List.mem_cons, List.not_mem_nil, or_false] at hd
    rcases hd with rfl | rfl
    · exact ⟨_, rfl, pvDesc_ok (by decide)⟩
    · exact ⟨_, rfl, pvDesc_ok (by decide)⟩
  format := by
    intro f hf
    cases hf
    exact ⟨⟨rfl, rfl⟩, by simp⟩
  frame := fun m h => nomatch h

/-- It is accepted. -/
example : validateSchema pvE (some pvV1) = true := (validate_iff pvE_laws _).2 (.inl pvV1_ok)

/-- It does not crash the holder. -/
example : createVP pvE none PE.etHolder "ldp_vp" (some pvV1) PE.etWallet ≠ .panic :=
  (v1_no_crash pvV1_ok (by decide +kernel) PE.etHolder "ldp_vp" true PE.etWallet).1

/-- The same with a locale is refused. -/
example : createVP pvE none PE.etHolder "ldp_vp" (some { pvV1 with locale := "en" }) PE.etWallet = .error :=
  (refused_everywhere (refused_locale pvE_laws (by decide)) PE.etHolder "ldp_vp" true PE.etWallet).1

/-- So is one with a CWT format. -/
example : validateSchema pvE (some { pvV1 with
    format := some ⟨none, none, none, none, none, none, some ["EdDSA"], none⟩ }) = false :=
  refused_cwt pvE_laws (.inl rfl) (.inl (by simp))

/-- A v2 definition with a filter without a type: any JSON schema will do. -/
def pvV2 : Definition where
  id := "d2"
  descs := [some { id := "any", constraints := some { fields :=
    [some { path := ["$.name"], filter := some { const := some (.bool true) }, optional := true }] } }]

theorem pvV2_ok : V2 (IsSchema pvE) pvV2 where
  id := by decide
  locale := rfl
  reqs := by intro r hr; cases hr
  nonempty := by simp [pvV2]
  descs := by
    intro d hd
    rw [List.mem_singleton.1 hd]
    refine ⟨_, rfl, by decide, rfl, ?_, ?_, ?_⟩
    · intro l hl; cases hl
    · intro f hf; cases hf
    · intro c hc
      cases hc
      refine ⟨(by intro s h; cases h), (by intro s h; cases h), (by simp), ?_⟩
      intro f hf
      rw [List.mem_singleton.1 hf]
      exact ⟨_, rfl, by simp, fun x hx => rfl, (by intro s h; cases h), fun h => absurd rfl h⟩
  format := by intro f hf; cases hf

/-- It is accepted, and is not a v1 definition. -/
theorem pvV2_accepted : validateSchema pvE (some pvV2) = true := (validate_iff pvE_laws _).2 (.inr pvV2_ok)

example : ¬ V1 pvV2 := fun h => by
  obtain ⟨x, e, hx⟩ := h.descs _ List.mem_cons_self
  cases e
  obtain ⟨l, hl, _⟩ := hx.schema
  cases hl

/-- It crashes the wallet's question which credentials match. -/
theorem untyped_crashes_match : matchSubmission pvE none PE.etHolder false (some pvV2) PE.etWallet = .panic :=
  untyped_crashes pvV2_accepted rfl rfl rfl rfl rfl rfl rfl (by decide) rfl rfl PE.etHolder false (fun h => nomatch h) _ _
    (by unfold PE.etCred; simp)

/-- It crashes making a presentation. -/
theorem untyped_crashes_create : createVP pvE none PE.etHolder "ldp_vp" (some pvV2) PE.etWallet = .panic := by
  rw [(accepted_everywhere (G := none) (creds := PE.etWallet) (cs := PE.etWallet) pvV2_accepted rfl
    PE.etHolder "ldp_vp").1]
  rfl

/-- A v1 definition with two descriptors of the same ID: accepted, crashes on an empty wallet. -/
def pvDup : Definition := { pvV1 with reqs := [], descs := [some (pvDesc "deg"), some (pvDesc "deg")] }

theorem pvDup_ok : V1 pvDup := { pvV1_ok with
  reqs := by intro r hr; cases hr
  nonempty := by simp [pvDup]
  descs := by
    intro d hd
    simp only [pvDup, List.mem_cons, List.not_mem_nil, or_false, or_self] at hd
    subst hd
    exact ⟨_, rfl, pvDesc_ok (by decide)⟩ }

theorem duplicate_crashes_create : createVP pvE none PE.etHolder "ldp_vp" (some pvDup) [] = .panic :=
  (duplicate_crashes (i := "deg") ((validate_iff pvE_laws _).2 (.inl pvDup_ok))
    (List.duplicate_iff_two_le_count.2 (by decide +kernel))
    ⟨⟨"deg", ["A"]⟩, by simp [pvDup, pvDesc, Definition.toPE, Descriptor.toPE, PE.FDesc.toDesc], rfl, .inl rfl⟩
    (fun h => nomatch h) PE.etHolder "ldp_vp" []).1

/-- A descriptor with an empty list of schemas: accepted by the check of v2 definitions, matches nothing. -/
example : validateSchema pvE (some { pvV2 with descs := [some { id := "x", schema := some [] }] }) = true := by
  refine (validate_iff pvE_laws _).2 (.inr { pvV2_ok with nonempty := by simp, descs := ?_ })
  intro d hd
  rw [List.mem_singleton.1 hd]
  refine ⟨_, rfl, by decide, rfl, ?_, ?_, ?_⟩
  · intro l hl; cases hl; rfl
  · intro f hf; cases hf
  · intro c hc; cases hc

example : PE.filterDescriptor PE.etHolder.toMEnv none
    (({ id := "x", schema := some [] } : Descriptor).toPE.toM) PE.etWallet = .ok ("", []) := by rfl

/-! ## Frames -/

/-- A v2 definition with a frame. -/
def pvFramed : Definition where
  id := "d3"
  frame := some [("@context", .str "urn:ctx")]
  descs := [some { id := "any", constraints := some { fields :=
    [some { path := ["$.name"] }] } }]

theorem pvFramed_accepted : validateSchema pvE (some pvFramed) = true := by
  refine (validate_iff pvE_laws _).2 (.inr { pvV2_ok with id := by decide, descs := ?_, nonempty := by simp [pvFramed] })
  intro d hd
  rw [List.mem_singleton.1 hd]
  refine ⟨_, rfl, by decide, rfl, ?_, ?_, ?_⟩
  · intro l hl; cases hl
  · intro f hf; cases hf
  · intro c hc
    cases hc
    refine ⟨(by intro s h; cases h), (by intro s h; cases h), (by simp), ?_⟩
    intro f hf
    rw [List.mem_singleton.1 hf]
    exact ⟨_, rfl, by simp, (fun x hx => by cases hx), (by intro s h; cases h), fun h => absurd rfl h⟩

/-- A credential with a BBS+ proof. -/
def pvBBS (id : String) : PE.Cred := { PE.etCred id "Degree" "Ann" with
  proofTypes := ["BbsBlsSignature2020"], hasBBS := true }

/-- Deriving marks the ID. -/
def pvG : Framer := some (fun _ c => some { c with id := c.id ++ "-derived" })

/-- With BBS+ credentials only, the presentation holds what was derived. -/
example : ((createVP pvE pvG PE.etHolder "ldp_vp" (some pvFramed) [pvBBS "c1"]).get?.map
    (fun r => r.1.creds.map PE.Cred.id)) = some ["c1-derived"] := by
  rw [(accepted_everywhere (G := pvG) (creds := [pvBBS "c1"]) (cs := [{ pvBBS "c1" with id := "c1-derived" }])
    pvFramed_accepted rfl PE.etHolder "ldp_vp").1]
  decide +kernel

/-- The hypotheses of `framed_only` hold of it. -/
example : (∀ l, (PE.etHolder.sortKeys l).Perm l) ∧ (pvFramed.toPE.descs.map PE.FDesc.id).Nodup ∧
    TypedFilters pvFramed := by
  refine ⟨fun l => List.Perm.refl _, by decide, ?_⟩
  intro x hx c hc f hf fl hfl
  have e := Option.some.inj (List.mem_singleton.1 hx)
  subst e
  cases hc
  have e := Option.some.inj (List.mem_singleton.1 hf)
  subst e
  cases hfl

/-- A credential of another kind beside it spoils it, though the wallet's question still names both. -/
theorem frame_report_differs : createVP pvE pvG PE.etHolder "ldp_vp" (some pvFramed)
      [pvBBS "c1", PE.etCred "c2" "Degree" "Ann"] = .error ∧
    ((matchSubmission pvE pvG PE.etHolder false (some pvFramed)
      [pvBBS "c1", PE.etCred "c2" "Degree" "Ann"]).get?.map (fun rs => rs.map PE.etRow)) =
      some [("", "all", 1, [("any", ["c1", "c2"])])] := by
  constructor
  · unfold createVP
    rw [if_pos pvFramed_accepted]
    rfl
  · unfold matchSubmission
    rw [if_pos pvFramed_accepted]
    rfl

end VC.PD
