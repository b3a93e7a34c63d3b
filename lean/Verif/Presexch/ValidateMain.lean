import Verif.Presexch.ValidateExact
/-!
# presexch: `ValidateSchema` accepts exactly the v1 and the v2 definitions (C113)
-/

namespace VC.PD

open GoMap VC.Schema Spec

variable {E : SEnv}

/-! ## Depth -/

theorem depth_mem {l : List Json} {v : Json} (h : v ∈ l) : depth v ≤ depths l := by
  induction l with
  | nil => cases h
  | cons w l ih =>
    simp only [depths]
    rcases List.mem_cons.1 h with rfl | h
    · exact Nat.le_max_left _ _
    · exact Nat.le_trans (ih h) (Nat.le_max_right _ _)

theorem depth_member {o : List (String × Json)} {k : String} {v : Json} (h : (k, v) ∈ o) :
    depth v ≤ depthsObj o := by
  induction o with
  | nil => cases h
  | cons w l ih =>
    obtain ⟨a, w⟩ := w
    simp only [depthsObj]
    rcases List.mem_cons.1 h with e | h
    · cases e; exact Nat.le_max_left _ _
    · exact Nat.le_trans (ih h) (Nat.le_max_right _ _)

theorem depth_pos (v : Json) : 1 ≤ depth v := by
  cases v with
  | arr l => simp only [depth]; omega
  | obj o => simp only [depth]; omega
  | null => simp only [depth]; omega
  | bool b => simp only [depth]; omega
  | num r => simp only [depth]; omega
  | str s => simp only [depth]; omega

theorem depth_item {o : JObj} {k : String} {l : List Json} {v : Json} (h : get? o k = some (.arr l))
    (hv : v ∈ l) : depth v + 2 ≤ depth (.obj o) := by
  have h1 := depth_member (mem_of_get? h)
  have h2 := depth_mem hv
  simp only [depth] at h1 ⊢
  omega

/-! ## Submission requirements -/

theorem requirementsJSON_map (l : List Requirement) : requirementsJSON l = l.map requirementJSON := by
  induction l with
  | nil => rfl
  | cons r l ih => simp only [requirementsJSON, ih, List.map_cons]

/-- The schema of a requirement; `r` is the reference to it. -/
def reqSch (r : String) : Sch :=
  .all [.types ["object"], .oneOf [
      .all [.props [
          ("name", .all [.types ["string"]]),
          ("purpose", .all [.types ["string"]]),
          ("rule", .all [.types ["string"], .enum [.str "all", .str "pick"]]),
          ("count", .all [.integer, .minimum 1]),
          ("min", .all [.integer, .minimum 0]),
          ("max", .all [.integer, .minimum 0]),
          ("from", .all [.types ["string"]])], .required ["rule", "from"],
          .closed ["name", "purpose", "rule", "count", "min", "max", "from"] []],
      .all [.props [
          ("name", .all [.types ["string"]]),
          ("purpose", .all [.types ["string"]]),
          ("rule", .all [.types ["string"], .enum [.str "all", .str "pick"]]),
          ("count", .all [.integer, .minimum 1]),
          ("min", .all [.integer, .minimum 0]),
          ("max", .all [.integer, .minimum 0]),
          ("from_nested", .all [.types ["array"], .minItems 1, .items (.ref r)])],
          .required ["rule", "from_nested"],
          .closed ["name", "purpose", "rule", "count", "min", "max", "from_nested"] []]]]

theorem reqSch_v1 : pdV1SubmissionRequirements = reqSch "#/definitions/submission_requirements" := rfl
theorem reqSch_v2 : pdV2SubmissionRequirement = reqSch "#/definitions/submission_requirement" := rfl

theorem rule_ok (L : PatternLaws E) (s : String) :
    ((∀ v, strM s = some v → ok E (.all [.types ["string"], .enum [.str "all", .str "pick"]]) v = true) ∧
      s ≠ "") ↔ s = "all" ∨ s = "pick" := by
  rw [str_all, rule_str L]
  constructor
  · exact fun h => h.1 h.2
  · intro h
    refine ⟨fun _ => h, ?_⟩
    rcases h with rfl | rfl <;> decide

theorem count_ok (n : Int) : (∀ v, intM n = some v → ok E (.all [.integer, .minimum 1]) v = true) ↔ 0 ≤ n := by
  rw [int_all]
  have := count_num (E := E) 1 n
  rw [show ((1 : Int) : Rat) = 1 from rfl] at this
  rw [this]
  omega

theorem bound_ok (n : Int) : (∀ v, intM n = some v → ok E (.all [.integer, .minimum 0]) v = true) ↔ 0 ≤ n := by
  rw [int_all]
  have := count_num (E := E) 0 n
  rw [show ((0 : Int) : Rat) = 0 from rfl] at this
  rw [this]
  omega

theorem items_ok (r : String) (l : List Json) :
    (∀ v, listM (fun v => v) l = some v →
      ok E (.all [.types ["array"], .minItems 1, .items (.ref r)]) v = true) ↔
    ∀ v ∈ l, E.refs r v = true := by
  rw [list_all, List.map_id', array_min_items]
  simp only [Json.arr.injEq, exists_eq_left', ref_ok]
  exact ⟨fun h v hv => (h (List.ne_nil_of_mem hv)).2 v hv, fun h e => ⟨e, h⟩⟩

theorem requirement_step (L : PatternLaws E) (r name purpose rule : String) (count min max : Int) (src : String)
    (ns : List Json) :
    ok E (reqSch r) (.obj (structJSON (requirementMembers name purpose rule count min max src ns))) = true ↔
      (rule = "all" ∨ rule = "pick") ∧ 0 ≤ count ∧ 0 ≤ min ∧ 0 ≤ max ∧
        (src ≠ "" ∧ ns = [] ∨ src = "" ∧ ns ≠ [] ∧ ∀ v ∈ ns, E.refs r v = true) := by
  unfold reqSch
  rw [object_one, alt_prc, alt_prc, requirement_closed, requirement_closedN, ← rule_ok L]
  simp only [okProps_cons, okProps_nil, List.mem_cons, List.not_mem_nil, or_false, forall_eq_or_imp, forall_eq,
    requirement_name, requirement_purpose, requirement_rule, requirement_count, requirement_min,
    requirement_max, requirement_from, requirement_from_nested, str_ok, count_ok, bound_ok, items_ok, true_and,
    and_true, strM_isSome, listM_isSome, strM_none, listM_none]
  by_cases hs : src = ""
  · simp only [hs, ne_eq, not_true_eq_false, and_false, false_and, not_false_eq_true, true_and, false_or,
      and_true]
    constructor
    · rintro ⟨⟨h1, h2, h3, h4, h5⟩, h6, h7⟩; exact ⟨⟨h1, h6⟩, h2, h3, h4, h7, h5⟩
    · rintro ⟨⟨h1, h6⟩, h2, h3, h4, h7, h5⟩; exact ⟨⟨h1, h2, h3, h4, h5⟩, h6, h7⟩
  · simp only [hs, ne_eq, not_false_eq_true, and_true, and_false, true_and, or_false, false_and]
    constructor
    · rintro ⟨⟨h1, h2, h3, h4⟩, h6, h7⟩; exact ⟨⟨h1, h6⟩, h2, h3, h4, h7⟩
    · rintro ⟨⟨h1, h6⟩, h2, h3, h4, h7⟩; exact ⟨⟨h1, h2, h3, h4⟩, h6, h7⟩

theorem follow_ref (r : String) (s : Sch) (n : Nat) (v : Json) :
    follow E r s (n + 1) r v = ok { E with refs := follow E r s n } s v := by
  simp only [follow, if_true]

theorem follow_other {r x : String} (s : Sch) (n : Nat) (v : Json) (h : x ≠ r) :
    follow E r s n x v = E.refs x v := by
  cases n <;> simp only [follow, if_neg h]

theorem requirement_exact (L : PatternLaws E) (r : String) (n : Nat) :
    ∀ x, depth (requirementJSON x) ≤ n →
      (follow E r (reqSch r) n r (requirementJSON x) = true ↔ RequirementOk x) := by
  induction n with
  | zero =>
    intro x h
    have := depth_pos (requirementJSON x)
    omega
  | succ n ih =>
    intro x h
    rw [follow_ref]
    cases x with
    | null =>
      constructor
      · intro a; exact absurd a (not_null _)
      · intro a; cases a
    | mk name purpose rule count min max src nested =>
      simp only [requirementJSON] at h ⊢
      rw [requirement_step (refs_laws L _), requirementsJSON_map]
      have hc : ∀ y ∈ nested, depth (requirementJSON y) ≤ n := by
        intro y hy
        have hg := requirement_from_nested name purpose rule count min max src (requirementsJSON nested)
        have hm : listM (fun v => v) (requirementsJSON nested) = some (.arr (requirementsJSON nested)) := by
          rw [listM_some, List.map_id']
          refine ⟨?_, rfl⟩
          rw [requirementsJSON_map]
          simpa using List.ne_nil_of_mem hy
        rw [hm] at hg
        have := depth_item hg (v := requirementJSON y)
          (by rw [requirementsJSON_map]; exact List.mem_map_of_mem hy)
        omega
      constructor
      · rintro ⟨h1, h2, h3, h4, h5 | h5⟩
        · obtain ⟨a, b⟩ := h5
          have : nested = [] := by simpa using b
          subst this
          exact .group h1 h2 h3 h4 a
        · obtain ⟨a, b, c⟩ := h5
          subst a
          refine .nested h1 h2 h3 h4 (by simpa using b) ?_
          intro y hy
          exact (ih y (hc y hy)).1 (c _ (List.mem_map_of_mem hy))
      · intro a
        cases a with
        | group h1 h2 h3 h4 h5 => exact ⟨h1, h2, h3, h4, .inl ⟨h5, rfl⟩⟩
        | nested h1 h2 h3 h4 h5 h6 =>
          refine ⟨h1, h2, h3, h4, .inr ⟨rfl, by simpa using h5, ?_⟩⟩
          intro v hv
          obtain ⟨y, hy, rfl⟩ := List.mem_map.1 hv
          exact (ih y (hc y hy)).2 (h6 y hy)

/-! ## Definitions -/

theorem reqs_ok (r : String) (l : List Requirement) :
    (∀ v, listM requirementJSON l = some v → ok E (.all [.types ["array"], .items (.ref r)]) v = true) ↔
      ∀ x ∈ l, E.refs r (requirementJSON x) = true := by
  rw [list_all, array_of]
  simp only [List.mem_map, forall_exists_index, and_imp, forall_apply_eq_imp_iff₂, ref_ok]
  exact ⟨fun h v hv => h (List.ne_nil_of_mem hv) v hv, fun h _ => h⟩

theorem descs1_ok (L : PatternLaws E) (l : List (Option Descriptor)) :
    (∀ v, listM (ptr descriptorJSON) l = some v →
      ok E (.all [.types ["array"], .items pdV1InputDescriptors]) v = true) ↔
      ∀ x ∈ l, ∃ y, x = some y ∧ DescriptorV1 y := ptrs_list (descriptor_exact1 L)

theorem descs2_ok (L : PatternLaws E) (l : List (Option Descriptor)) :
    (∀ v, listM (ptr descriptorJSON) l = some v →
      ok E (.all [.types ["array"], .items pdV2InputDescriptor]) v = true) ↔
      ∀ x ∈ l, ∃ y, x = some y ∧ DescriptorV2 (IsSchema E) y := ptrs_list (descriptor_exact2 L)

/-- A check of the member of the wrapper. -/
theorem wrapped_ok (s : Sch) (v : Json) :
    ok E (.all [.types ["object"], .props [("presentation_definition", s)]])
      (.obj [("presentation_definition", v)]) = true ↔ ok E s v = true := by
  rw [ok_all, okAll_cons, okAll_cons, types_one, props_obj, okProps_cons]
  simp only [kind_o, okAll_nil, okProps_nil, and_true, true_and, get?_cons, if_true, Option.some.injEq,
    forall_eq']

theorem definition_exact1 (L : PatternLaws E) (d : Definition)
    (R : ∀ x ∈ d.reqs, (E.refs "#/definitions/submission_requirements" (requirementJSON x) = true ↔
      RequirementOk x)) :
    ok E pdV1Sch (wrapped (some d)) = true ↔ V1 d := by
  have hfr : d.frame.getD [] = [] ↔ ∀ m, d.frame = some m → m = [] := by
    cases d.frame <;> simp
  have hr : (∀ x ∈ d.reqs, E.refs "#/definitions/submission_requirements" (requirementJSON x) = true) ↔
      ∀ x ∈ d.reqs, RequirementOk x :=
    ⟨fun h x hx => (R x hx).1 (h x hx), fun h x hx => (R x hx).2 (h x hx)⟩
  unfold pdV1Sch wrapped
  rw [wrapped_ok]
  unfold ptr definitionJSON
  rw [object_prc, definition_closed]
  simp only [okProps_cons, okProps_nil, List.mem_cons, List.not_mem_nil, or_false, forall_eq_or_imp, forall_eq,
    definition_id, definition_name, definition_purpose, definition_format, definition_submission_requirements,
    definition_input_descriptors, str_ok, opt_all, format_exact1 L, reqs_ok, hr, descs1_ok L, true_and,
    and_true, strM_isSome, listM_isSome, strM_none, mapM_none]
  constructor
  · rintro ⟨⟨h1, h2, h3⟩, ⟨h4, h5⟩, h6, h7⟩
    exact ⟨⟨h4, h6, h2, h5, h3⟩, h1, hfr.1 h7⟩
  · rintro ⟨⟨h4, h6, h2, h5, h3⟩, h1, h7⟩
    exact ⟨⟨h1, h2, h3⟩, ⟨h4, h5⟩, h6, hfr.2 h7⟩

theorem definition_exact2 (L : PatternLaws E) (d : Definition)
    (R : ∀ x ∈ d.reqs, (E.refs "#/definitions/submission_requirement" (requirementJSON x) = true ↔
      RequirementOk x)) :
    ok E pdV2Sch (wrapped (some d)) = true ↔ V2 (IsSchema E) d := by
  have hr : (∀ x ∈ d.reqs, E.refs "#/definitions/submission_requirement" (requirementJSON x) = true) ↔
      ∀ x ∈ d.reqs, RequirementOk x :=
    ⟨fun h x hx => (R x hx).1 (h x hx), fun h x hx => (R x hx).2 (h x hx)⟩
  have hf : ∀ f, ok E fmtV2 (formatJSON f) = true ↔ NoCwt f := format_exact2 L
  unfold fmtV2 pdV2InputDescriptor at hf
  dsimp only at hf
  have hm : (∀ v, mapM (d.frame.getD []) = some v → ok E (.all [.types ["object"]]) v = true) ↔ True := by
    rw [map_all]
    simp only [ok_all, okAll_cons, okAll_nil, types_one, kind_o, and_self, implies_true]
  unfold pdV2Sch wrapped
  rw [wrapped_ok]
  unfold ptr definitionJSON pdV2PresentationDefinition
  rw [object_prc, definition_closed2]
  simp only [okProps_cons, okProps_nil, List.mem_cons, List.not_mem_nil, or_false, forall_eq_or_imp, forall_eq,
    definition_id, definition_name, definition_purpose, definition_format, definition_frame,
    definition_submission_requirements,
    definition_input_descriptors, str_ok, opt_all, hf, hm, reqs_ok, hr, descs2_ok L, true_and,
    and_true, strM_isSome, listM_isSome, strM_none]
  constructor
  · rintro ⟨⟨h1, h2, h3⟩, ⟨h4, h5⟩, h6⟩
    exact ⟨⟨h4, h6, h2, h5, h3⟩, h1⟩
  · rintro ⟨⟨h4, h6, h2, h5, h3⟩, h1⟩
    exact ⟨⟨h1, h2, h3⟩, ⟨h4, h5⟩, h6⟩

theorem null_refused1 : ¬ ok E pdV1Sch (wrapped none) = true := by
  unfold pdV1Sch wrapped
  rw [wrapped_ok]
  exact not_null _

theorem null_refused2 : ¬ ok E pdV2Sch (wrapped none) = true := by
  unfold pdV2Sch wrapped
  rw [wrapped_ok]
  exact not_null _

/-- The depth of the wrapped definition bounds that of its requirements. -/
theorem depth_req (d : Definition) {x : Requirement} (hx : x ∈ d.reqs) :
    depth (requirementJSON x) ≤ depth (wrapped (some d)) := by
  have hg := definition_submission_requirements d
  have hm : listM requirementJSON d.reqs = some (.arr (d.reqs.map requirementJSON)) :=
    listM_some.2 ⟨List.ne_nil_of_mem hx, rfl⟩
  rw [hm] at hg
  have h1 := depth_item hg (List.mem_map_of_mem hx)
  have h2 : depth (.obj (structJSON (definitionMembers d))) ≤ depthsObj [("presentation_definition", ptr definitionJSON (some d))] :=
    depth_member (List.mem_singleton.2 rfl)
  unfold wrapped
  simp only [depth] at h1 h2 ⊢
  omega

theorem passes_v1 (L : PatternLaws E) (d : Definition) :
    passes E pdV1Doc "#/definitions/submission_requirements" (wrapped (some d)) = true ↔ V1 d := by
  unfold passes
  rw [pdV1_read, pdV1_req_read, reqSch_v1]
  dsimp only
  refine definition_exact1 (refs_laws L _) d ?_
  intro x hx
  exact requirement_exact L _ _ x (depth_req d hx)

theorem passes_v2 (L : PatternLaws E) (d : Definition) :
    passes E pdV2Doc "#/definitions/submission_requirement" (wrapped (some d)) = true ↔ V2 (IsSchema E) d := by
  unfold passes
  rw [pdV2_read, pdV2_req_read, reqSch_v2]
  dsimp only
  rw [definition_exact2 (refs_laws L _) d (fun x hx => requirement_exact L _ _ x (depth_req d hx))]
  have : ∀ n, IsSchema ({ E with
      refs := follow E "#/definitions/submission_requirement"
        (reqSch "#/definitions/submission_requirement") n }) = IsSchema E := by
    intro n
    funext f
    unfold IsSchema
    dsimp only
    rw [follow_other _ _ _ (by decide)]
  rw [this]

/-- **C113.** `ValidateSchema` accepts a definition iff it is a v1 definition or a v2 definition. -/
theorem validate_iff (L : PatternLaws E) (d : Definition) :
    validateSchema E (some d) = true ↔ V1 d ∨ V2 (IsSchema E) d := by
  unfold validateSchema
  rw [← passes_v1 L, ← passes_v2 L]
  cases passes E pdV1Doc "#/definitions/submission_requirements" (wrapped (some d)) <;> simp

/-- No definition at all is refused. -/
theorem validate_null : validateSchema E none = false := by
  unfold validateSchema passes
  rw [pdV1_read, pdV1_req_read, pdV2_read, pdV2_req_read]
  dsimp only
  rw [if_neg null_refused1]
  exact Bool.eq_false_iff.2 null_refused2

end VC.PD
