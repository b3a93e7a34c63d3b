import Verif.Presexch.ValidateProps
/-!
# presexch: the schema of each struct, exactly (C113)
-/

namespace VC.PD

open GoMap VC.Schema Spec

variable {E : SEnv}

theorem schema_exact (s : PE.Schema) : ok E pdV1Schema (schemaJSON s) = true ↔ s.uri ≠ "" := by
  unfold pdV1Schema schemaJSON
  rw [object_prc, schema_closed]
  simp only [okProps_cons, okProps_nil, List.mem_singleton, forall_eq, schema_uri, schema_required, str_ok,
    bool_ok, true_and, and_true, strM_isSome]

theorem map_isSome {f : α → Json} {o : Option α} : (o.map f).isSome = true ↔ o ≠ none := by
  cases o <;> simp

theorem holder_exact (L : PatternLaws E) (h : Holder) :
    ok E (.all [.types ["object"], .props [
      ("field_id", .all [.types ["array"], .items (.all [.types ["string"]])]),
      ("directive", .all [.types ["string"], .enum [.str "required", .str "preferred"]])],
      .required ["field_id", "directive"], .closed ["field_id", "directive"] []]) (holderJSON h) = true ↔
    h.fieldID ≠ [] ∧ h.directive ≠ none ∧ Pref h.directive := by
  unfold holderJSON
  rw [object_prc, holder_closed]
  simp only [okProps_cons, okProps_nil, List.mem_cons, List.not_mem_nil, or_false, forall_eq_or_imp, forall_eq,
    holder_field_id, holder_directive, strs_ok, pref_all L, true_and, and_true, listM_isSome, map_isSome]
  exact ⟨fun ⟨a, b, c⟩ => ⟨b, c, a⟩, fun ⟨a, b, c⟩ => ⟨c, a, b⟩⟩

theorem holder_exact2 (L : PatternLaws E) (h : Holder) :
    ok E (.all [.types ["object"], .closed ["field_id", "directive"] [], .props [
      ("field_id", .all [.types ["array"], .items (.all [.types ["string"]])]),
      ("directive", .all [.types ["string"], .enum [.str "required", .str "preferred"]])],
      .required ["field_id", "directive"]]) (holderJSON h) = true ↔
    h.fieldID ≠ [] ∧ h.directive ≠ none ∧ Pref h.directive := by
  rw [← holder_exact L]
  unfold holderJSON
  rw [object_prc, object_cpr]

/-! ## Filters and fields -/

theorem filter_exact (f : Filter) : ok E pdV1Filter (filterJSON f) = true ↔ FilterV1 f := by
  unfold pdV1Filter filterJSON
  rw [object_pr]
  simp only [Json.obj.injEq, exists_eq_left']
  have ht : (∀ v, Option.map Json.str f.typ = some v → ok E (.all [.types ["string"]]) v = true) ↔ True := by
    simp only [opt_all, string_str, implies_true]
  have he : (∀ v, listM (fun v => v) f.enum = some v →
      ok E (.all [.types ["array"], .items (.all [.types ["number", "string"]])]) v = true) ↔
      ∀ v ∈ f.enum, NumOrStr v := by
    rw [list_all, List.map_id', array_of]
    simp only [numOrStr]
    exact ⟨fun a v hv => a (List.ne_nil_of_mem hv) v hv, fun a _ => a⟩
  have hn : (∀ v, mapM f.not = some v → ok E (.all [.types ["object"], .minProps 1]) v = true) ↔ True := by
    rw [map_all]
    simp only [ok_all, okAll_cons, okAll_nil, types_one, kind_o, true_and, and_true, iff_true]
    intro h
    simp only [ok, decide_eq_true_eq]
    exact List.length_pos_of_ne_nil h
  simp only [okProps_cons, okProps_nil, List.mem_singleton, forall_eq, filter_type, filter_format,
    filter_pattern, filter_minimum, filter_maximum, filter_minLength, filter_maxLength,
    filter_exclusiveMinimum, filter_exclusiveMaximum, filter_const, filter_enum, filter_not, str_ok, int_ok,
    num_ok, ht, he, hn, true_and, and_true, map_isSome]
  constructor
  · rintro ⟨h1, h2, h3, h4, h5, h6, h7⟩
    exact ⟨h1, h2, h5, h3, h4, h6, h7⟩
  · rintro ⟨h1, h2, h3, h4, h5, h6, h7⟩
    exact ⟨h1, h2, h4, h5, h3, h6, h7⟩

theorem field_exact (L : PatternLaws E) (f : Field) : ok E pdV1Field (fieldJSON f) = true ↔ FieldV1 f := by
  unfold pdV1Field fieldJSON
  rw [object_one, alt_prc, alt_prc, field_closed, field_closedP]
  simp only [okProps_cons, okProps_nil, List.mem_cons, List.not_mem_nil, or_false, forall_eq_or_imp, forall_eq,
    field_path, field_id, field_purpose, field_filter, field_predicate, str_ok, strs_ok, pref_all L, opt_all,
    filter_exact, true_and, and_true, listM_isSome, map_isSome, Option.map_eq_none_iff, boolM_none]
  constructor
  · rintro (⟨⟨h1, h2, h3, h4, h5⟩, _⟩ | ⟨_, ⟨h1, h2⟩, ⟨h3, h4, h5⟩, h6, h7⟩)
    · exact ⟨h2, h1, by simp [Pref, h3], fun h => absurd h3 h, h5, h4⟩
    · exact ⟨h3, h1, h2, fun _ => h4, h7, h6⟩
  · rintro ⟨h1, h2, h3, h4, h5, h6⟩
    by_cases hp : f.predicate = none
    · exact .inl ⟨⟨h2, h1, hp, h6, h5⟩, fun h => h.2.1.2.2 hp⟩
    · exact .inr ⟨fun h => hp h.2.2.1, ⟨h2, h3⟩, ⟨h1, h4 hp, hp⟩, h6, h5⟩

theorem ref_ok (r : String) (v : Json) : ok E (.ref r) v = E.refs r v := by simp only [ok]

/-- The filters that are JSON schemas. -/
abbrev IsSchema (E : SEnv) (f : Filter) : Prop :=
  E.refs "http://json-schema.org/draft-07/schema#" (filterJSON f) = true

theorem field_exact2 (L : PatternLaws E) (f : Field) :
    ok E pdV2Field (fieldJSON f) = true ↔ FieldV2 (IsSchema E) f := by
  unfold pdV2Field fieldJSON
  rw [object_one, alt_prc, alt_prc, field_closed2, field_closedP2]
  simp only [okProps_cons, okProps_nil, List.mem_cons, List.not_mem_nil, or_false, forall_eq_or_imp, forall_eq,
    field_path, field_id, field_purpose, field_filter, field_predicate, field_intent_to_retain, field_optional,
    str_ok, strs_ok, bool_ok, pref_all L, opt_all,
    ref_ok, true_and, and_true, listM_isSome, map_isSome, Option.map_eq_none_iff, boolM_none]
  constructor
  · rintro (⟨⟨h1, h2, h3⟩, _⟩ | ⟨_, ⟨h1, h2⟩, ⟨h3, h4, h5⟩, h6⟩)
    · exact ⟨h2, h1, by simp [Pref, h3], fun h => absurd h3 h⟩
    · exact ⟨h3, h1, h2, fun _ => ⟨h4, h6⟩⟩
  · rintro ⟨h1, h2, h3, h4⟩
    by_cases hp : f.predicate = none
    · exact .inl ⟨⟨h2, h1, hp⟩, fun h => h.2.1.2.2 hp⟩
    · exact .inr ⟨fun h => hp h.2.2, ⟨h2, h3⟩, ⟨h1, (h4 hp).1, hp⟩, (h4 hp).2⟩

/-! ## Constraints -/

theorem fields_ok {F : Field → Prop} {cs : List Sch}
    (h : ∀ f, ok E (.all (.types ["object"] :: cs)) (fieldJSON f) = true ↔ F f) (l : List (Option Field)) :
    (∀ v, listM (ptr fieldJSON) l = some v →
      ok E (.all [.types ["array"], .items (.all (.types ["object"] :: cs))]) v = true) ↔
      ∀ x ∈ l, ∃ y, x = some y ∧ F y := ptrs_list h

/-- The schema of constraints, v1. -/
def consV1 : Sch := match pdV1InputDescriptors with
  | .all [_, .props [_, _, _, _, _, (_, c)], _, _] => c
  | _ => .never

theorem constraints_exact (L : PatternLaws E) (c : Constraints) :
    ok E consV1 (constraintsJSON c) = true ↔ ConstraintsOk FieldV1 c := by
  unfold constraintsJSON consV1 pdV1InputDescriptors
  dsimp only
  rw [object_pc, constraints_closed]
  have hf : (∀ v, listM (ptr fieldJSON) c.fields = some v →
      ok E (.all [.types ["array"], .items pdV1Field]) v = true) ↔
      ∀ x ∈ c.fields, ∃ y, x = some y ∧ FieldV1 y := fields_ok (field_exact L) _
  simp only [okProps_cons, okProps_nil, constraints_limit_disclosure, constraints_statuses, constraints_fields,
    constraints_subject_is_issuer, constraints_is_holder, constraints_same_subject, none_all, pref_all L, hf,
    ptrs_list (holder_exact L), true_and, and_true]
  constructor
  · rintro ⟨h1, h2, h3, h4⟩
    exact ⟨h1, h3, h4, h2⟩
  · rintro ⟨h1, h2, h3, h4⟩
    exact ⟨h1, h4, h2, h3⟩

/-- The schema of constraints, v2. -/
def consV2 : Sch := match pdV2InputDescriptor with
  | .all [_, _, .props [_, _, _, _, _, (_, c)], _] => c
  | _ => .never

theorem constraints_exact2 (L : PatternLaws E) (c : Constraints) :
    ok E consV2 (constraintsJSON c) = true ↔ ConstraintsOk (FieldV2 (IsSchema E)) c := by
  unfold constraintsJSON consV2 pdV2InputDescriptor
  dsimp only
  rw [object_cp, constraints_closed]
  have hf : (∀ v, listM (ptr fieldJSON) c.fields = some v →
      ok E (.all [.types ["array"], .items pdV2Field]) v = true) ↔
      ∀ x ∈ c.fields, ∃ y, x = some y ∧ FieldV2 (IsSchema E) y := fields_ok (field_exact2 L) _
  simp only [okProps_cons, okProps_nil, constraints_limit_disclosure, constraints_statuses, constraints_fields,
    constraints_subject_is_issuer, constraints_is_holder, constraints_same_subject, none_all, pref_all L, hf,
    ptrs_list (holder_exact2 L), true_and, and_true]
  constructor
  · rintro ⟨h1, h2, h3, h4⟩
    exact ⟨h1, h3, h4, h2⟩
  · rintro ⟨h1, h2, h3, h4⟩
    exact ⟨h1, h4, h2, h3⟩

/-! ## Formats -/

theorem alg_get (k : String) (l : List String) : get? (structJSON [(k, listM Json.str l)]) k =
    listM Json.str l := by
  rw [get?_structJSON (by simp)]
  simp [look]

theorem alg_closed (k : String) (l : List String) :
    ok E (.closed [k] []) (.obj (structJSON [(k, listM Json.str l)])) = true := by
  rw [closed_in _ _ (List.mem_singleton.2 rfl)]
  exact closed_nil _ _

theorem alg_exact1 (k : String) (l : List String) :
    ok E (.all [.types ["object"], .props [
      (k, .all [.types ["array"], .minItems 1, .items (.all [.types ["string"]])])],
      .required [k], .closed [k] []]) (algJSON k l) = true ↔ l ≠ [] := by
  unfold algJSON
  rw [object_prc]
  simp only [okProps_cons, okProps_nil, List.mem_singleton, forall_eq, alg_get, alg_closed, listM_isSome,
    list_all, and_true]
  exact ⟨fun h => h.2, fun h => ⟨fun _ => strings_min l h, h⟩⟩

theorem alg_exact2 (k : String) (l : List String) :
    ok E (.all [.types ["object"], .closed [k] [], .props [
      (k, .all [.types ["array"], .minItems 1, .items (.all [.types ["string"]])])]]) (algJSON k l) = true := by
  unfold algJSON
  rw [object_cp]
  simp only [okProps_cons, okProps_nil, alg_get, alg_closed, list_all, and_true]
  exact strings_min l

theorem each_nil {P : String × Json → Prop} : (∀ kv ∈ structJSON [], P kv) ↔ True := by
  simp only [structJSON, List.not_mem_nil, IsEmpty.forall_iff, implies_true]

theorem each_cons {P : String × Json → Prop} {f : α → Json} (k : String) (o : Option α) (l : List Member) :
    (∀ kv ∈ structJSON ((k, o.map f) :: l), P kv) ↔
      (∀ x, o = some x → P (k, f x)) ∧ ∀ kv ∈ structJSON l, P kv := by
  cases o with
  | none => simp [structJSON]
  | some x => simp [structJSON]

theorem each_format {P : String × Json → Prop} (f : PE.Format) :
    (∀ kv ∈ structJSON (formatMembers f), P kv) ↔
      (∀ x, f.jwt = some x → P ("jwt", algJSON "alg" x)) ∧
      (∀ x, f.jwtVC = some x → P ("jwt_vc", algJSON "alg" x)) ∧
      (∀ x, f.jwtVP = some x → P ("jwt_vp", algJSON "alg" x)) ∧
      (∀ x, f.ldp = some x → P ("ldp", algJSON "proof_type" x)) ∧
      (∀ x, f.ldpVC = some x → P ("ldp_vc", algJSON "proof_type" x)) ∧
      (∀ x, f.ldpVP = some x → P ("ldp_vp", algJSON "proof_type" x)) ∧
      (∀ x, f.cwtVC = some x → P ("cwt_vc", algJSON "alg" x)) ∧
      (∀ x, f.cwtVP = some x → P ("cwt_vp", algJSON "alg" x)) := by
  unfold formatMembers
  rw [each_cons, each_cons, each_cons, each_cons, each_cons, each_cons, each_cons, each_cons, each_nil]
  simp only [and_true]

theorem closed_pats (ps : List String) (o : JObj) :
    ok E (.closed [] ps) (.obj o) = true ↔ ∀ kv ∈ o, ∃ p ∈ ps, E.regex p kv.1 = true := by
  simp only [ok, List.all_eq_true, List.contains_nil, Bool.false_or, List.any_eq_true]

/-- The names of the two patterns. -/
structure Names (E : SEnv) : Prop where
  jwt : ∀ k ∈ ["jwt", "jwt_vc", "jwt_vp"], E.regex "^jwt$|^jwt_vc$|^jwt_vp$" k = true ∧
    E.regex "^ldp_vc$|^ldp_vp$|^ldp$" k = false ∧ E.regex "additionalProperties" k = false
  ldp : ∀ k ∈ ["ldp", "ldp_vc", "ldp_vp"], E.regex "^jwt$|^jwt_vc$|^jwt_vp$" k = false ∧
    E.regex "^ldp_vc$|^ldp_vp$|^ldp$" k = true ∧ E.regex "additionalProperties" k = false
  cwt : ∀ k ∈ ["cwt_vc", "cwt_vp"], E.regex "^jwt$|^jwt_vc$|^jwt_vp$" k = false ∧
    E.regex "^ldp_vc$|^ldp_vp$|^ldp$" k = false ∧ E.regex "additionalProperties" k = false

theorem pattern_names (L : PatternLaws E) : Names E := by
  have f1 : ∀ k, k ∉ ["jwt", "jwt_vc", "jwt_vp"] → E.regex "^jwt$|^jwt_vc$|^jwt_vp$" k = false := by
    intro k h
    rw [Bool.eq_false_iff]
    intro e
    apply h
    simpa using (L.jwt k).1 e
  have f2 : ∀ k, k ∉ ["ldp_vc", "ldp_vp", "ldp"] → E.regex "^ldp_vc$|^ldp_vp$|^ldp$" k = false := by
    intro k h
    rw [Bool.eq_false_iff]
    intro e
    apply h
    simpa using (L.ldp k).1 e
  refine ⟨fun k hk => ?_, fun k hk => ?_, fun k hk => ?_⟩
  · refine ⟨(L.jwt k).2 (by simpa using hk), f2 k ?_, L.other k ?_⟩
    · revert k; decide
    · revert k; decide
  · refine ⟨f1 k ?_, (L.ldp k).2 ?_, L.other k ?_⟩
    · revert k; decide
    · revert k; decide
    · revert k; decide
  · refine ⟨f1 k ?_, f2 k ?_, L.other k ?_⟩
    · revert k; decide
    · revert k; decide
    · revert k; decide

theorem format_exact1 (L : PatternLaws E) (f : PE.Format) :
    ok E pdV1Format (formatJSON f) = true ↔ FormatV1 f := by
  have N := pattern_names L
  have j1 := N.jwt "jwt" (by decide)
  have j2 := N.jwt "jwt_vc" (by decide)
  have j3 := N.jwt "jwt_vp" (by decide)
  have l1 := N.ldp "ldp" (by decide)
  have l2 := N.ldp "ldp_vc" (by decide)
  have l3 := N.ldp "ldp_vp" (by decide)
  have c1 := N.cwt "cwt_vc" (by decide)
  have c2 := N.cwt "cwt_vp" (by decide)
  unfold pdV1Format formatJSON
  rw [ok_all, okAll_cons, okAll_cons, okAll_cons, types_one, patProps_obj, okPats_cons, okPats_cons,
    okPats_cons, closed_pats, each_format, each_format, each_format, each_format]
  simp only [kind_o, okAll_nil, okPats_nil, List.mem_cons, List.not_mem_nil, or_false, exists_eq_or_imp,
    exists_eq_left, j1, j2, j3, l1, l2, l3, c1, c2, alg_exact1, Bool.false_eq_true, or_true, true_or,
    IsEmpty.forall_iff, forall_const, implies_true, true_and, and_true, or_self]
  unfold FormatV1 NoCwt
  simp only [List.mem_cons, List.not_mem_nil, or_false, forall_eq_or_imp, forall_eq]
  have e : ∀ o : Option (List String), (∀ x, o = some x → x ≠ []) ↔ o ≠ some [] := by
    intro o; cases o <;> simp
  have e' : ∀ o : Option (List String), (∀ x, o = some x → False) ↔ o = none := by
    intro o; cases o <;> simp
  simp only [e, e']
  constructor
  · rintro ⟨⟨⟨h1, h2, h3⟩, h4, h5, h6⟩, h7⟩
    exact ⟨h7, h1, h2, h3, h4, h5, h6⟩
  · rintro ⟨h7, h1, h2, h3, h4, h5, h6⟩
    exact ⟨⟨⟨h1, h2, h3⟩, h4, h5, h6⟩, h7⟩

/-- The schema of formats, v2. -/
def fmtV2 : Sch := match pdV2InputDescriptor with
  | .all [_, _, .props [_, _, _, (_, c), _, _], _] => c
  | _ => .never

theorem format_exact2 (L : PatternLaws E) (f : PE.Format) :
    ok E fmtV2 (formatJSON f) = true ↔ NoCwt f := by
  have N := pattern_names L
  have j1 := N.jwt "jwt" (by decide)
  have j2 := N.jwt "jwt_vc" (by decide)
  have j3 := N.jwt "jwt_vp" (by decide)
  have l1 := N.ldp "ldp" (by decide)
  have l2 := N.ldp "ldp_vc" (by decide)
  have l3 := N.ldp "ldp_vp" (by decide)
  have c1 := N.cwt "cwt_vc" (by decide)
  have c2 := N.cwt "cwt_vp" (by decide)
  unfold fmtV2 pdV2InputDescriptor formatJSON
  dsimp only
  rw [ok_all, okAll_cons, okAll_cons, okAll_cons, types_one, patProps_obj, okPats_cons, okPats_cons,
    closed_pats, each_format, each_format, each_format]
  simp only [kind_o, okAll_nil, okPats_nil, List.mem_cons, List.not_mem_nil, or_false, exists_eq_or_imp,
    exists_eq_left, j1, j2, j3, l1, l2, l3, c1, c2, alg_exact2, Bool.false_eq_true, or_true, true_or,
    IsEmpty.forall_iff, forall_const, implies_true, true_and, and_true, or_self]
  unfold NoCwt
  have e' : ∀ o : Option (List String), (∀ x, o = some x → False) ↔ o = none := by
    intro o; cases o <;> simp
  simp only [e']

/-! ## Descriptors -/

theorem schemas_ok (l : List (Option PE.Schema)) :
    (∀ v, listM (ptr schemaJSON) l = some v → ok E (.all [.types ["array"], .items pdV1Schema]) v = true) ↔
      ∀ x ∈ l, ∃ y, x = some y ∧ y.uri ≠ "" := ptrs_list schema_exact

theorem descriptor_exact1 (L : PatternLaws E) (d : Descriptor) :
    ok E pdV1InputDescriptors (descriptorJSON d) = true ↔ DescriptorV1 d := by
  have hc : ∀ c, ok E consV1 (constraintsJSON c) = true ↔ ConstraintsOk FieldV1 c := constraints_exact L
  unfold consV1 pdV1InputDescriptors at hc
  dsimp only at hc
  unfold pdV1InputDescriptors descriptorJSON
  rw [object_prc, descriptor_closed]
  simp only [okProps_cons, okProps_nil, List.mem_cons, List.not_mem_nil, or_false, forall_eq_or_imp, forall_eq,
    descriptor_id, descriptor_name, descriptor_purpose, descriptor_group, descriptor_schema,
    descriptor_constraints, str_ok, strs_ok, schemas_ok, opt_all, hc, true_and, and_true, strM_isSome,
    listM_isSome, mapM_none, Option.map_eq_none_iff]
  constructor
  · rintro ⟨⟨h1, h2⟩, ⟨h3, h4⟩, h5, h6⟩
    refine ⟨h3, h5, ?_, h6, h2⟩
    cases hs : d.schema with
    | none => rw [hs] at h4; exact absurd rfl h4
    | some l => rw [hs] at h1 h4; exact ⟨l, rfl, h4, h1⟩
  · rintro ⟨h1, h2, ⟨l, hl, h3, h4⟩, h5, h6⟩
    rw [hl]
    exact ⟨⟨h4, h6⟩, ⟨h1, h3⟩, h2, h5⟩

theorem descriptor_exact2 (L : PatternLaws E) (d : Descriptor) :
    ok E pdV2InputDescriptor (descriptorJSON d) = true ↔ DescriptorV2 (IsSchema E) d := by
  have hc : ∀ c, ok E consV2 (constraintsJSON c) = true ↔ ConstraintsOk (FieldV2 (IsSchema E)) c :=
    constraints_exact2 L
  have hf : ∀ f, ok E fmtV2 (formatJSON f) = true ↔ NoCwt f := format_exact2 L
  unfold consV2 pdV2InputDescriptor at hc
  unfold fmtV2 pdV2InputDescriptor at hf
  dsimp only at hc hf
  unfold pdV2InputDescriptor descriptorJSON
  rw [object_cpr, descriptor_closed2]
  simp only [okProps_cons, okProps_nil, List.mem_cons, List.not_mem_nil, or_false, forall_eq_or_imp, forall_eq,
    descriptor_id, descriptor_name, descriptor_purpose, descriptor_group, descriptor_format,
    descriptor_constraints, str_ok, strs_ok, opt_all, hc, hf, true_and, and_true, strM_isSome,
    mapM_none, listM_none]
  have hs : d.schema.getD [] = [] ↔ ∀ l, d.schema = some l → l = [] := by
    cases d.schema <;> simp
  rw [hs]
  constructor
  · rintro ⟨⟨h1, h2⟩, h3, h4, h5⟩
    exact ⟨h3, h4, h5, h1, h2⟩
  · rintro ⟨h1, h2, h3, h4, h5⟩
    exact ⟨⟨h4, h5⟩, h1, h2, h3⟩

end VC.PD
