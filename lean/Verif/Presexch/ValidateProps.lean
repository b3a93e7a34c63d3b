import Verif.Presexch.Validate
import Verif.Schema.Props
/-!
# presexch: `ValidateSchema` accepts exactly the v1 and the v2 definitions (proofs, C113)
-/

namespace VC.PD

open GoMap VC.Schema Spec

/-! ## Structs as objects -/

/-- The value of a field. -/
def look : List Member → String → Option Json
  | [], _ => none
  | (a, v) :: l, k => if a = k then v else look l k

theorem structJSON_none (k : String) (l : List Member) : structJSON ((k, none) :: l) = structJSON l := rfl

theorem look_absent {fs : List Member} {k : String} (h : k ∉ fs.map Prod.fst) : look fs k = none := by
  induction fs with
  | nil => rfl
  | cons m l ih =>
    obtain ⟨a, v⟩ := m
    simp only [List.map_cons, List.mem_cons, not_or] at h
    simp only [look, if_neg (Ne.symm h.1), ih h.2]

theorem get?_structJSON {fs : List Member} (h : (fs.map Prod.fst).Nodup) (k : String) :
    get? (structJSON fs) k = look fs k := by
  induction fs with
  | nil => rfl
  | cons m l ih =>
    obtain ⟨a, v⟩ := m
    simp only [List.map_cons, List.nodup_cons] at h
    cases v with
    | none =>
      rw [structJSON_none, ih h.2]
      simp only [look]
      by_cases e : a = k
      · subst e; rw [if_pos rfl, look_absent h.1]
      · rw [if_neg e]
    | some v =>
      simp only [structJSON, get?_cons, look, ih h.2]

/-! ## Checks on objects and arrays -/

variable {E : SEnv}

theorem required_obj (ks : List String) (o : JObj) :
    ok E (.required ks) (.obj o) = true ↔ ∀ k ∈ ks, (get? o k).isSome = true := by
  simp only [ok, List.all_eq_true]

theorem props_obj (ps : List (String × Sch)) (o : JObj) :
    ok E (.props ps) (.obj o) = okProps E ps o := by simp only [ok]

theorem types_one (t : String) (v : Json) : ok E (.types [t]) v = true ↔ kind v = t := by
  simp only [ok, List.contains_cons, List.contains_nil, Bool.or_false, beq_iff_eq]

theorem kind_o (o : JObj) : kind (.obj o) = "object" := rfl
theorem kind_a (l : List Json) : kind (.arr l) = "array" := rfl
theorem kind_s (s : String) : kind (.str s) = "string" := rfl
theorem kind_b (b : Bool) : kind (.bool b) = "boolean" := rfl

theorem closed_nil (ns ps : List String) : ok E (.closed ns ps) (.obj (structJSON [])) = true := by
  simp only [ok, structJSON, List.all_nil]

theorem closed_cons (ns ps : List String) (k : String) (o : Option Json) (l : List Member) :
    ok E (.closed ns ps) (.obj (structJSON ((k, o) :: l))) = true ↔
      ((k ∈ ns ∨ ∃ p ∈ ps, E.regex p k = true) ∨ o = none) ∧
        ok E (.closed ns ps) (.obj (structJSON l)) = true := by
  cases o with
  | none => simp only [structJSON, or_true, true_and]
  | some v =>
    simp only [ok, structJSON, List.all_cons, Bool.and_eq_true, Bool.or_eq_true, List.contains_iff_mem,
      List.any_eq_true, reduceCtorEq, or_false]

theorem items_arr (s : Sch) (l : List Json) :
    ok E (.items s) (.arr l) = true ↔ ∀ v ∈ l, ok E s v = true := by
  simp only [ok, List.all_eq_true]

theorem patProps_obj (l : List (String × Sch)) (o : JObj) :
    ok E (.patProps l) (.obj o) = okPats E l o := by simp only [ok]

theorem okPats_nil (o : JObj) : okPats E [] o = true := rfl

theorem okPats_cons (p : String) (s : Sch) (l : List (String × Sch)) (o : JObj) :
    okPats E ((p, s) :: l) o = true ↔ (∀ kv ∈ o, E.regex p kv.1 = true → ok E s kv.2 = true) ∧
      okPats E l o = true := by
  simp only [okPats, Bool.and_eq_true, List.all_eq_true, Bool.or_eq_true, Bool.not_eq_true']
  constructor
  · rintro ⟨h, r⟩
    refine ⟨fun kv hkv hr => ?_, r⟩
    rcases h kv hkv with h | h
    · rw [hr] at h; cases h
    · exact h
  · rintro ⟨h, r⟩
    refine ⟨fun kv hkv => ?_, r⟩
    cases hr : E.regex p kv.1 with
    | false => exact .inl rfl
    | true => exact .inr (h kv hkv hr)

theorem mem_structJSON {fs : List Member} {k : String} {v : Json} :
    (k, v) ∈ structJSON fs ↔ (k, some v) ∈ fs := by
  induction fs with
  | nil => simp [structJSON]
  | cons m l ih =>
    obtain ⟨a, o⟩ := m
    cases o with
    | none => simp [structJSON, ih]
    | some w => simp [structJSON, ih]

theorem oneOf_count (a b : Sch) (v : Json) : ok E (.oneOf [a, b]) v = true ↔
    (ok E a v = true ∧ ¬ ok E b v = true) ∨ (¬ ok E a v = true ∧ ok E b v = true) := by
  simp only [ok, okCount]
  cases ha : ok E a v <;> cases hb : ok E b v <;> simp_all

/-! ## Members -/

theorem strM_some {s : String} {v : Json} : strM s = some v ↔ s ≠ "" ∧ v = .str s := by
  unfold strM
  by_cases h : s = ""
  · simp [h]
  · simp [h, eq_comm]

theorem strM_none {s : String} : strM s = none ↔ s = "" := by
  unfold strM; by_cases h : s = "" <;> simp [h]

theorem strM_isSome {s : String} : (strM s).isSome = true ↔ s ≠ "" := by
  unfold strM; by_cases h : s = "" <;> simp [h]

theorem intM_some {n : Int} {v : Json} : intM n = some v ↔ n ≠ 0 ∧ v = .num n := by
  unfold intM
  by_cases h : n = 0
  · simp [h]
  · simp [h, eq_comm]

theorem boolM_some {b : Bool} {v : Json} : boolM b = some v ↔ b = true ∧ v = .bool true := by
  unfold boolM; cases b <;> simp [eq_comm]

theorem boolM_none {b : Bool} : boolM b = none ↔ b = false := by
  unfold boolM; cases b <;> simp

theorem listM_some {f : α → Json} {l : List α} {v : Json} :
    listM f l = some v ↔ l ≠ [] ∧ v = .arr (l.map f) := by
  unfold listM; cases l <;> simp [eq_comm]

theorem listM_none {f : α → Json} {l : List α} : listM f l = none ↔ l = [] := by
  unfold listM; cases l <;> simp

theorem listM_isSome {f : α → Json} {l : List α} : (listM f l).isSome = true ↔ l ≠ [] := by
  unfold listM; cases l <;> simp

theorem mapM_some {m : JObj} {v : Json} : mapM m = some v ↔ m ≠ [] ∧ v = .obj m := by
  unfold mapM; cases m <;> simp [eq_comm]

theorem mapM_none {m : JObj} : mapM m = none ↔ m = [] := by
  unfold mapM; cases m <;> simp

/-! ### A member that is present passes a check -/

theorem str_all {s : String} {P : Json → Prop} :
    (∀ v, strM s = some v → P v) ↔ (s ≠ "" → P (.str s)) := by
  constructor
  · exact fun h e => h _ (strM_some.2 ⟨e, rfl⟩)
  · intro h v hv; obtain ⟨e, rfl⟩ := strM_some.1 hv; exact h e

theorem int_all {n : Int} {P : Json → Prop} :
    (∀ v, intM n = some v → P v) ↔ (n ≠ 0 → P (.num n)) := by
  constructor
  · exact fun h e => h _ (intM_some.2 ⟨e, rfl⟩)
  · intro h v hv; obtain ⟨e, rfl⟩ := intM_some.1 hv; exact h e

theorem bool_all {b : Bool} {P : Json → Prop} :
    (∀ v, boolM b = some v → P v) ↔ (b = true → P (.bool true)) := by
  constructor
  · exact fun h e => h _ (boolM_some.2 ⟨e, rfl⟩)
  · intro h v hv; obtain ⟨e, rfl⟩ := boolM_some.1 hv; exact h e

theorem list_all {f : α → Json} {l : List α} {P : Json → Prop} :
    (∀ v, listM f l = some v → P v) ↔ (l ≠ [] → P (.arr (l.map f))) := by
  constructor
  · exact fun h e => h _ (listM_some.2 ⟨e, rfl⟩)
  · intro h v hv; obtain ⟨e, rfl⟩ := listM_some.1 hv; exact h e

theorem map_all {m : JObj} {P : Json → Prop} :
    (∀ v, mapM m = some v → P v) ↔ (m ≠ [] → P (.obj m)) := by
  constructor
  · exact fun h e => h _ (mapM_some.2 ⟨e, rfl⟩)
  · intro h v hv; obtain ⟨e, rfl⟩ := mapM_some.1 hv; exact h e

theorem opt_all {f : α → Json} {o : Option α} {P : Json → Prop} :
    (∀ v, o.map f = some v → P v) ↔ ∀ x, o = some x → P (f x) := by
  cases o <;> simp

theorem none_all {P : Json → Prop} : (∀ v, (none : Option Json) = some v → P v) ↔ True := by simp

theorem string_str (s : String) : ok E (.all [.types ["string"]]) (.str s) = true := by
  simp only [ok_all, okAll_cons, okAll_nil, types_one, kind_s, and_self]

theorem bool_bool (b : Bool) : ok E (.all [.types ["boolean"]]) (.bool b) = true := by
  simp only [ok_all, okAll_cons, okAll_nil, types_one, kind_b, and_self]

theorem strings_arr (l : List String) :
    ok E (.all [.types ["array"], .items (.all [.types ["string"]])]) (.arr (l.map .str)) = true := by
  simp only [ok_all, okAll_cons, okAll_nil, types_one, kind_a, items_arr, List.mem_map,
    forall_exists_index, and_imp, forall_apply_eq_imp_iff₂, kind_s, implies_true, and_self]

theorem strings_min (l : List String) (h : l ≠ []) :
    ok E (.all [.types ["array"], .minItems 1, .items (.all [.types ["string"]])])
      (.arr (l.map .str)) = true := by
  rw [array_min_items]
  refine ⟨_, rfl, by simpa using h, ?_⟩
  simp only [List.mem_map, forall_exists_index, and_imp, forall_apply_eq_imp_iff₂, string_str,
    implies_true]

theorem enum_str (L : PatternLaws E) (s : String) (l : List String) :
    ok E (.all [.types ["string"], .enum (l.map .str)]) (.str s) = true ↔ s ∈ l := by
  simp only [ok_all, okAll_cons, okAll_nil, types_one, kind_s, and_true, true_and]
  simp only [ok, List.any_map, List.any_eq_true, Function.comp_apply, beq_iff_eq]
  constructor
  · rintro ⟨x, hx, e⟩; rw [L.text _ _ e]; exact hx
  · exact fun h => ⟨s, h, rfl⟩

theorem pref_str (L : PatternLaws E) (s : String) :
    ok E (.all [.types ["string"], .enum [.str "required", .str "preferred"]]) (.str s) = true ↔
      s = "required" ∨ s = "preferred" := by
  have := enum_str L s ["required", "preferred"]
  simpa using this

theorem rule_str (L : PatternLaws E) (s : String) :
    ok E (.all [.types ["string"], .enum [.str "all", .str "pick"]]) (.str s) = true ↔
      s = "all" ∨ s = "pick" := by
  have := enum_str L s ["all", "pick"]
  simpa using this

theorem count_num (m n : Int) :
    ok E (.all [.integer, .minimum (m : Rat)]) (.num (n : Rat)) = true ↔ m ≤ n := by
  simp only [ok_all, okAll_cons, okAll_nil, and_true]
  simp only [ok, decide_eq_true_eq]
  constructor
  · intro h; exact_mod_cast h.2
  · intro h; exact ⟨rfl, by exact_mod_cast h⟩

theorem integer_num (n : Int) : ok E (.all [.integer]) (.num (n : Rat)) = true := by
  simp only [ok_all, okAll_cons, okAll_nil, and_true]
  simp only [ok]
  rfl

theorem numOrStr (v : Json) : ok E (.all [.types ["number", "string"]]) v = true ↔ NumOrStr v := by
  cases v <;> simp [ok, okAll, kind, NumOrStr]

/-! ## Preferences, schemas, holders, formats -/

theorem pref_all (L : PatternLaws E) (p : Option String) :
    (∀ v, p.map Json.str = some v →
      ok E (.all [.types ["string"], .enum [.str "required", .str "preferred"]]) v = true) ↔ Pref p := by
  rw [opt_all]
  unfold Pref
  simp only [pref_str L]

theorem refs_laws (L : PatternLaws E) (r : String → Json → Bool) :
    PatternLaws { E with refs := r } := ⟨L.jwt, L.ldp, L.other, L.text⟩

/-! ### Object schemas -/

theorem object_prc (ps : List (String × Sch)) (ks ns pats : List String) (o : JObj) :
    ok E (.all [.types ["object"], .props ps, .required ks, .closed ns pats]) (.obj o) = true ↔
      okProps E ps o = true ∧ (∀ k ∈ ks, (get? o k).isSome = true) ∧
        ok E (.closed ns pats) (.obj o) = true := by
  simp only [ok_all, okAll_cons, okAll_nil, types_one, kind_o, props_obj, required_obj, true_and, and_true]

theorem object_cpr (ps : List (String × Sch)) (ks ns pats : List String) (o : JObj) :
    ok E (.all [.types ["object"], .closed ns pats, .props ps, .required ks]) (.obj o) = true ↔
      okProps E ps o = true ∧ (∀ k ∈ ks, (get? o k).isSome = true) ∧
        ok E (.closed ns pats) (.obj o) = true := by
  simp only [ok_all, okAll_cons, okAll_nil, types_one, kind_o, props_obj, required_obj, true_and, and_true]
  exact ⟨fun ⟨a, b, c⟩ => ⟨b, c, a⟩, fun ⟨a, b, c⟩ => ⟨c, a, b⟩⟩

theorem object_pc (ps : List (String × Sch)) (ns pats : List String) (o : JObj) :
    ok E (.all [.types ["object"], .props ps, .closed ns pats]) (.obj o) = true ↔
      okProps E ps o = true ∧ ok E (.closed ns pats) (.obj o) = true := by
  simp only [ok_all, okAll_cons, okAll_nil, types_one, kind_o, props_obj, true_and, and_true]

theorem object_cp (ps : List (String × Sch)) (ns pats : List String) (o : JObj) :
    ok E (.all [.types ["object"], .closed ns pats, .props ps]) (.obj o) = true ↔
      okProps E ps o = true ∧ ok E (.closed ns pats) (.obj o) = true := by
  simp only [ok_all, okAll_cons, okAll_nil, types_one, kind_o, props_obj, true_and, and_true]
  exact and_comm

theorem alt_prc (ps : List (String × Sch)) (ks ns pats : List String) (o : JObj) :
    ok E (.all [.props ps, .required ks, .closed ns pats]) (.obj o) = true ↔
      okProps E ps o = true ∧ (∀ k ∈ ks, (get? o k).isSome = true) ∧
        ok E (.closed ns pats) (.obj o) = true := by
  simp only [ok_all, okAll_cons, okAll_nil, props_obj, required_obj, and_true]

theorem object_one (a b : Sch) (o : JObj) :
    ok E (.all [.types ["object"], .oneOf [a, b]]) (.obj o) = true ↔
      (ok E a (.obj o) = true ∧ ¬ ok E b (.obj o) = true) ∨
        (¬ ok E a (.obj o) = true ∧ ok E b (.obj o) = true) := by
  simp only [ok_all, okAll_cons, okAll_nil, types_one, kind_o, oneOf_count, true_and, and_true]

theorem array_of (s : Sch) (l : List Json) :
    ok E (.all [.types ["array"], .items s]) (.arr l) = true ↔ ∀ v ∈ l, ok E s v = true := by
  simp only [ok_all, okAll_cons, okAll_nil, types_one, kind_a, items_arr, true_and, and_true]

theorem not_null (l : List Sch) : ¬ ok E (.all (.types ["object"] :: l)) .null = true := by
  rw [ok_all, okAll_cons, types_one]
  rintro ⟨h, _⟩
  exact absurd h (by decide)

/-- An array of pointers to structs, each with an object schema. -/
theorem ptrs_all {f : α → Json} {l : List (Option α)} {cs : List Sch} {P : α → Prop}
    (h : ∀ x, ok E (.all (.types ["object"] :: cs)) (f x) = true ↔ P x) :
    ok E (.all [.types ["array"], .items (.all (.types ["object"] :: cs))]) (.arr (l.map (ptr f))) = true ↔
      ∀ x ∈ l, ∃ y, x = some y ∧ P y := by
  rw [array_of]
  simp only [List.mem_map, forall_exists_index, and_imp, forall_apply_eq_imp_iff₂]
  constructor
  · intro hl x hx
    have := hl x hx
    cases x with
    | none => exact absurd this (not_null cs)
    | some y => exact ⟨y, rfl, (h y).1 this⟩
  · intro hl x hx
    obtain ⟨y, rfl, hy⟩ := hl x hx
    exact (h y).2 hy

/-- The same, the empty array being left out. -/
theorem ptrs_list {f : α → Json} {l : List (Option α)} {cs : List Sch} {P : α → Prop}
    (h : ∀ x, ok E (.all (.types ["object"] :: cs)) (f x) = true ↔ P x) :
    (∀ v, listM (ptr f) l = some v →
      ok E (.all [.types ["array"], .items (.all (.types ["object"] :: cs))]) v = true) ↔
      ∀ x ∈ l, ∃ y, x = some y ∧ P y := by
  rw [list_all, ptrs_all h]
  constructor
  · intro a x hx; exact a (List.ne_nil_of_mem hx) x hx
  · intro a _; exact a

theorem str_ok (s : String) :
    (∀ v, strM s = some v → ok E (.all [.types ["string"]]) v = true) ↔ True := by
  simp only [str_all, string_str, implies_true]

theorem strs_ok (l : List String) : (∀ v, listM Json.str l = some v →
    ok E (.all [.types ["array"], .items (.all [.types ["string"]])]) v = true) ↔ True := by
  simp only [list_all, strings_arr, implies_true]

theorem bool_ok (b : Bool) :
    (∀ v, boolM b = some v → ok E (.all [.types ["boolean"]]) v = true) ↔ True := by
  simp only [bool_all, bool_bool, implies_true]

theorem int_ok (n : Int) :
    (∀ v, intM n = some v → ok E (.all [.integer]) v = true) ↔ True := by
  simp only [int_all, integer_num, implies_true]

theorem num_ok (v : Option Json) :
    (∀ x, v = some x → ok E (.all [.types ["number", "string"]]) x = true) ↔ OptNumOrStr v := by
  simp only [numOrStr, OptNumOrStr]

theorem look_mem {fs : List Member} (nd : (fs.map Prod.fst).Nodup) {k : String} {v : Option Json}
    (h : (k, v) ∈ fs) : look fs k = v := by
  induction fs with
  | nil => cases h
  | cons m l ih =>
    obtain ⟨a, w⟩ := m
    simp only [List.map_cons, List.nodup_cons] at nd
    simp only [look]
    rcases List.mem_cons.1 h with e | h
    · cases e; rw [if_pos rfl]
    · rw [if_neg, ih nd.2 h]
      rintro rfl
      exact nd.1 (List.mem_map.2 ⟨_, h, rfl⟩)

theorem get_mem {fs : List Member} (nd : (fs.map Prod.fst).Nodup) {k : String} {v : Option Json}
    (h : (k, v) ∈ fs) : get? (structJSON fs) k = v := by
  rw [get?_structJSON nd, look_mem nd h]

theorem get_absent {fs : List Member} (nd : (fs.map Prod.fst).Nodup) {k : String}
    (h : k ∉ fs.map Prod.fst) : get? (structJSON fs) k = none := by
  rw [get?_structJSON nd, look_absent h]

theorem closed_in {ns : List String} {k : String} (o : Option Json) (l : List Member) (h : k ∈ ns) :
    ok E (.closed ns []) (.obj (structJSON ((k, o) :: l))) = true ↔
      ok E (.closed ns []) (.obj (structJSON l)) = true := by
  rw [closed_cons]
  exact ⟨fun a => a.2, fun a => ⟨.inl (.inl h), a⟩⟩

theorem closed_out {ns : List String} {k : String} (o : Option Json) (l : List Member) (h : k ∉ ns) :
    ok E (.closed ns []) (.obj (structJSON ((k, o) :: l))) = true ↔
      o = none ∧ ok E (.closed ns []) (.obj (structJSON l)) = true := by
  rw [closed_cons]
  constructor
  · rintro ⟨(h' | ⟨p, hp, _⟩) | h', a⟩
    · exact absurd h' h
    · cases hp
    · exact ⟨h', a⟩
  · exact fun a => ⟨.inr a.1, a.2⟩

theorem closed_last (ns : List String) : ok E (.closed ns []) (.obj (structJSON [])) = true ↔ True := by
  simp only [closed_nil]

/-! ### The members of the structs -/

theorem field_names (f : Field) : ((fieldMembers f).map Prod.fst).Nodup := by
  show (["path", "id", "purpose", "filter", "predicate", "intent_to_retain", "optional"] :
    List String).Nodup
  decide

theorem field_path (f : Field) : get? (structJSON (fieldMembers f)) "path" =
    listM Json.str f.path :=
  get_mem (field_names f)
    (.head _)

theorem field_id (f : Field) : get? (structJSON (fieldMembers f)) "id" =
    strM f.id :=
  get_mem (field_names f)
    (.tail _ (.head _))

theorem field_purpose (f : Field) : get? (structJSON (fieldMembers f)) "purpose" =
    strM f.purpose :=
  get_mem (field_names f)
    (.tail _ (.tail _ (.head _)))

theorem field_filter (f : Field) : get? (structJSON (fieldMembers f)) "filter" =
    f.filter.map filterJSON :=
  get_mem (field_names f)
    (.tail _ (.tail _ (.tail _ (.head _))))

theorem field_predicate (f : Field) : get? (structJSON (fieldMembers f)) "predicate" =
    f.predicate.map Json.str :=
  get_mem (field_names f)
    (.tail _ (.tail _ (.tail _ (.tail _ (.head _)))))

theorem field_intent_to_retain (f : Field) : get? (structJSON (fieldMembers f)) "intent_to_retain" =
    boolM f.intentToRetain :=
  get_mem (field_names f)
    (.tail _ (.tail _ (.tail _ (.tail _ (.tail _ (.head _))))))

theorem field_optional (f : Field) : get? (structJSON (fieldMembers f)) "optional" =
    boolM f.optional :=
  get_mem (field_names f)
    (.tail _ (.tail _ (.tail _ (.tail _ (.tail _ (.tail _ (.head _)))))))

theorem holder_names (h : Holder) : ((holderMembers h).map Prod.fst).Nodup := by
  show (["field_id", "directive"] :
    List String).Nodup
  decide

theorem holder_field_id (h : Holder) : get? (structJSON (holderMembers h)) "field_id" =
    listM Json.str h.fieldID :=
  get_mem (holder_names h)
    (.head _)

theorem holder_directive (h : Holder) : get? (structJSON (holderMembers h)) "directive" =
    h.directive.map Json.str :=
  get_mem (holder_names h)
    (.tail _ (.head _))

theorem constraints_names (c : Constraints) : ((constraintsMembers c).map Prod.fst).Nodup := by
  show (["limit_disclosure", "subject_is_issuer", "is_holder", "fields"] :
    List String).Nodup
  decide

theorem constraints_limit_disclosure (c : Constraints) : get? (structJSON (constraintsMembers c)) "limit_disclosure" =
    c.limitDisclosure.map Json.str :=
  get_mem (constraints_names c)
    (.head _)

theorem constraints_subject_is_issuer (c : Constraints) : get? (structJSON (constraintsMembers c)) "subject_is_issuer" =
    c.subjectIsIssuer.map Json.str :=
  get_mem (constraints_names c)
    (.tail _ (.head _))

theorem constraints_is_holder (c : Constraints) : get? (structJSON (constraintsMembers c)) "is_holder" =
    listM (ptr holderJSON) c.isHolder :=
  get_mem (constraints_names c)
    (.tail _ (.tail _ (.head _)))

theorem constraints_fields (c : Constraints) : get? (structJSON (constraintsMembers c)) "fields" =
    listM (ptr fieldJSON) c.fields :=
  get_mem (constraints_names c)
    (.tail _ (.tail _ (.tail _ (.head _))))

theorem constraints_statuses (c : Constraints) : get? (structJSON (constraintsMembers c)) "statuses" = none :=
  get_absent (constraints_names c) (by
    show "statuses" ∉ (["limit_disclosure", "subject_is_issuer", "is_holder", "fields"] : List String)
    decide)

theorem constraints_same_subject (c : Constraints) : get? (structJSON (constraintsMembers c)) "same_subject" = none :=
  get_absent (constraints_names c) (by
    show "same_subject" ∉ (["limit_disclosure", "subject_is_issuer", "is_holder", "fields"] : List String)
    decide)

theorem schema_names (s : PE.Schema) : ((schemaMembers s).map Prod.fst).Nodup := by
  show (["uri", "required"] :
    List String).Nodup
  decide

theorem schema_uri (s : PE.Schema) : get? (structJSON (schemaMembers s)) "uri" =
    strM s.uri :=
  get_mem (schema_names s)
    (.head _)

theorem schema_required (s : PE.Schema) : get? (structJSON (schemaMembers s)) "required" =
    boolM s.required :=
  get_mem (schema_names s)
    (.tail _ (.head _))

theorem filter_names (f : Filter) : ((filterMembers f).map Prod.fst).Nodup := by
  show (["type", "format", "pattern", "minimum", "maximum", "minLength", "maxLength",
    "exclusiveMinimum", "exclusiveMaximum", "const", "enum", "not", "contains", "allOf"] :
    List String).Nodup
  decide

theorem filter_type (f : Filter) : get? (structJSON (filterMembers f)) "type" =
    f.typ.map Json.str :=
  get_mem (filter_names f)
    (.head _)

theorem filter_format (f : Filter) : get? (structJSON (filterMembers f)) "format" =
    strM f.format :=
  get_mem (filter_names f)
    (.tail _ (.head _))

theorem filter_pattern (f : Filter) : get? (structJSON (filterMembers f)) "pattern" =
    strM f.pattern :=
  get_mem (filter_names f)
    (.tail _ (.tail _ (.head _)))

theorem filter_minimum (f : Filter) : get? (structJSON (filterMembers f)) "minimum" =
    f.minimum :=
  get_mem (filter_names f)
    (.tail _ (.tail _ (.tail _ (.head _))))

theorem filter_maximum (f : Filter) : get? (structJSON (filterMembers f)) "maximum" =
    f.maximum :=
  get_mem (filter_names f)
    (.tail _ (.tail _ (.tail _ (.tail _ (.head _)))))

theorem filter_minLength (f : Filter) : get? (structJSON (filterMembers f)) "minLength" =
    intM f.minLength :=
  get_mem (filter_names f)
    (.tail _ (.tail _ (.tail _ (.tail _ (.tail _ (.head _))))))

theorem filter_maxLength (f : Filter) : get? (structJSON (filterMembers f)) "maxLength" =
    intM f.maxLength :=
  get_mem (filter_names f)
    (.tail _ (.tail _ (.tail _ (.tail _ (.tail _ (.tail _ (.head _)))))))

theorem filter_exclusiveMinimum (f : Filter) : get? (structJSON (filterMembers f)) "exclusiveMinimum" =
    f.exclusiveMinimum :=
  get_mem (filter_names f)
    (.tail _ (.tail _ (.tail _ (.tail _ (.tail _ (.tail _ (.tail _ (.head _))))))))

theorem filter_exclusiveMaximum (f : Filter) : get? (structJSON (filterMembers f)) "exclusiveMaximum" =
    f.exclusiveMaximum :=
  get_mem (filter_names f)
    (.tail _ (.tail _ (.tail _ (.tail _ (.tail _ (.tail _ (.tail _ (.tail _ (.head _)))))))))

theorem filter_const (f : Filter) : get? (structJSON (filterMembers f)) "const" =
    f.const :=
  get_mem (filter_names f)
    (.tail _ (.tail _ (.tail _ (.tail _ (.tail _ (.tail _ (.tail _ (.tail _ (.tail _ (.head _))))))))))

theorem filter_enum (f : Filter) : get? (structJSON (filterMembers f)) "enum" =
    listM (fun v => v) f.enum :=
  get_mem (filter_names f)
    (.tail _ (.tail _ (.tail _ (.tail _ (.tail _ (.tail _ (.tail _ (.tail _ (.tail _ (.tail _ (.head _)))))))))))

theorem filter_not (f : Filter) : get? (structJSON (filterMembers f)) "not" =
    mapM f.not :=
  get_mem (filter_names f)
    (.tail _ (.tail _ (.tail _ (.tail _ (.tail _ (.tail _ (.tail _ (.tail _ (.tail _ (.tail _ (.tail _ (.head _))))))))))))

theorem filter_contains (f : Filter) : get? (structJSON (filterMembers f)) "contains" =
    mapM f.contains :=
  get_mem (filter_names f)
    (.tail _ (.tail _ (.tail _ (.tail _ (.tail _ (.tail _ (.tail _ (.tail _ (.tail _ (.tail _ (.tail _ (.tail _ (.head _)))))))))))))

theorem filter_allOf (f : Filter) : get? (structJSON (filterMembers f)) "allOf" =
    listM (ptr itemJSON) f.allOf :=
  get_mem (filter_names f)
    (.tail _ (.tail _ (.tail _ (.tail _ (.tail _ (.tail _ (.tail _ (.tail _ (.tail _ (.tail _ (.tail _ (.tail _ (.tail _ (.head _))))))))))))))

theorem descriptor_names (d : Descriptor) : ((descriptorMembers d).map Prod.fst).Nodup := by
  show (["id", "group", "name", "purpose", "metadata", "schema", "constraints", "format"] :
    List String).Nodup
  decide

theorem descriptor_id (d : Descriptor) : get? (structJSON (descriptorMembers d)) "id" =
    strM d.id :=
  get_mem (descriptor_names d)
    (.head _)

theorem descriptor_group (d : Descriptor) : get? (structJSON (descriptorMembers d)) "group" =
    listM Json.str d.group :=
  get_mem (descriptor_names d)
    (.tail _ (.head _))

theorem descriptor_name (d : Descriptor) : get? (structJSON (descriptorMembers d)) "name" =
    strM d.name :=
  get_mem (descriptor_names d)
    (.tail _ (.tail _ (.head _)))

theorem descriptor_purpose (d : Descriptor) : get? (structJSON (descriptorMembers d)) "purpose" =
    strM d.purpose :=
  get_mem (descriptor_names d)
    (.tail _ (.tail _ (.tail _ (.head _))))

theorem descriptor_metadata (d : Descriptor) : get? (structJSON (descriptorMembers d)) "metadata" =
    mapM d.metadata :=
  get_mem (descriptor_names d)
    (.tail _ (.tail _ (.tail _ (.tail _ (.head _)))))

theorem descriptor_schema (d : Descriptor) : get? (structJSON (descriptorMembers d)) "schema" =
    listM (ptr schemaJSON) (d.schema.getD []) :=
  get_mem (descriptor_names d)
    (.tail _ (.tail _ (.tail _ (.tail _ (.tail _ (.head _))))))

theorem descriptor_constraints (d : Descriptor) : get? (structJSON (descriptorMembers d)) "constraints" =
    d.constraints.map constraintsJSON :=
  get_mem (descriptor_names d)
    (.tail _ (.tail _ (.tail _ (.tail _ (.tail _ (.tail _ (.head _)))))))

theorem descriptor_format (d : Descriptor) : get? (structJSON (descriptorMembers d)) "format" =
    d.format.map formatJSON :=
  get_mem (descriptor_names d)
    (.tail _ (.tail _ (.tail _ (.tail _ (.tail _ (.tail _ (.tail _ (.head _))))))))

theorem requirement_names (name purpose rule : String) (count min max : Int) (src : String) (ns : List Json) : ((requirementMembers name purpose rule count min max src ns).map Prod.fst).Nodup := by
  show (["name", "purpose", "rule", "count", "min", "max", "from", "from_nested"] :
    List String).Nodup
  decide

theorem requirement_name (name purpose rule : String) (count min max : Int) (src : String) (ns : List Json) : get? (structJSON (requirementMembers name purpose rule count min max src ns)) "name" =
    strM name :=
  get_mem (requirement_names name purpose rule count min max src ns)
    (.head _)

theorem requirement_purpose (name purpose rule : String) (count min max : Int) (src : String) (ns : List Json) : get? (structJSON (requirementMembers name purpose rule count min max src ns)) "purpose" =
    strM purpose :=
  get_mem (requirement_names name purpose rule count min max src ns)
    (.tail _ (.head _))

theorem requirement_rule (name purpose rule : String) (count min max : Int) (src : String) (ns : List Json) : get? (structJSON (requirementMembers name purpose rule count min max src ns)) "rule" =
    strM rule :=
  get_mem (requirement_names name purpose rule count min max src ns)
    (.tail _ (.tail _ (.head _)))

theorem requirement_count (name purpose rule : String) (count min max : Int) (src : String) (ns : List Json) : get? (structJSON (requirementMembers name purpose rule count min max src ns)) "count" =
    intM count :=
  get_mem (requirement_names name purpose rule count min max src ns)
    (.tail _ (.tail _ (.tail _ (.head _))))

theorem requirement_min (name purpose rule : String) (count min max : Int) (src : String) (ns : List Json) : get? (structJSON (requirementMembers name purpose rule count min max src ns)) "min" =
    intM min :=
  get_mem (requirement_names name purpose rule count min max src ns)
    (.tail _ (.tail _ (.tail _ (.tail _ (.head _)))))

theorem requirement_max (name purpose rule : String) (count min max : Int) (src : String) (ns : List Json) : get? (structJSON (requirementMembers name purpose rule count min max src ns)) "max" =
    intM max :=
  get_mem (requirement_names name purpose rule count min max src ns)
    (.tail _ (.tail _ (.tail _ (.tail _ (.tail _ (.head _))))))

theorem requirement_from (name purpose rule : String) (count min max : Int) (src : String) (ns : List Json) : get? (structJSON (requirementMembers name purpose rule count min max src ns)) "from" =
    strM src :=
  get_mem (requirement_names name purpose rule count min max src ns)
    (.tail _ (.tail _ (.tail _ (.tail _ (.tail _ (.tail _ (.head _)))))))

theorem requirement_from_nested (name purpose rule : String) (count min max : Int) (src : String) (ns : List Json) : get? (structJSON (requirementMembers name purpose rule count min max src ns)) "from_nested" =
    listM (fun v => v) ns :=
  get_mem (requirement_names name purpose rule count min max src ns)
    (.tail _ (.tail _ (.tail _ (.tail _ (.tail _ (.tail _ (.tail _ (.head _))))))))

theorem definition_names (d : Definition) : ((definitionMembers d).map Prod.fst).Nodup := by
  show (["id", "name", "purpose", "locale", "format", "frame", "submission_requirements",
    "input_descriptors"] :
    List String).Nodup
  decide

theorem definition_id (d : Definition) : get? (structJSON (definitionMembers d)) "id" =
    strM d.id :=
  get_mem (definition_names d)
    (.head _)

theorem definition_name (d : Definition) : get? (structJSON (definitionMembers d)) "name" =
    strM d.name :=
  get_mem (definition_names d)
    (.tail _ (.head _))

theorem definition_purpose (d : Definition) : get? (structJSON (definitionMembers d)) "purpose" =
    strM d.purpose :=
  get_mem (definition_names d)
    (.tail _ (.tail _ (.head _)))

theorem definition_locale (d : Definition) : get? (structJSON (definitionMembers d)) "locale" =
    strM d.locale :=
  get_mem (definition_names d)
    (.tail _ (.tail _ (.tail _ (.head _))))

theorem definition_format (d : Definition) : get? (structJSON (definitionMembers d)) "format" =
    d.format.map formatJSON :=
  get_mem (definition_names d)
    (.tail _ (.tail _ (.tail _ (.tail _ (.head _)))))

theorem definition_frame (d : Definition) : get? (structJSON (definitionMembers d)) "frame" =
    mapM (d.frame.getD []) :=
  get_mem (definition_names d)
    (.tail _ (.tail _ (.tail _ (.tail _ (.tail _ (.head _))))))

theorem definition_submission_requirements (d : Definition) : get? (structJSON (definitionMembers d)) "submission_requirements" =
    listM requirementJSON d.reqs :=
  get_mem (definition_names d)
    (.tail _ (.tail _ (.tail _ (.tail _ (.tail _ (.tail _ (.head _)))))))

theorem definition_input_descriptors (d : Definition) : get? (structJSON (definitionMembers d)) "input_descriptors" =
    listM (ptr descriptorJSON) d.descs :=
  get_mem (definition_names d)
    (.tail _ (.tail _ (.tail _ (.tail _ (.tail _ (.tail _ (.tail _ (.head _))))))))

theorem schema_closed (s : PE.Schema) :
    ok E (.closed ["uri", "required"] [])
      (.obj (structJSON (schemaMembers s))) = true ↔ True := by
  unfold schemaMembers
  rw [closed_in _ _ (by decide), closed_in _ _ (by decide), closed_last]

theorem holder_closed (h : Holder) :
    ok E (.closed ["field_id", "directive"] [])
      (.obj (structJSON (holderMembers h))) = true ↔ True := by
  unfold holderMembers
  rw [closed_in _ _ (by decide), closed_in _ _ (by decide), closed_last]

theorem field_closed (f : Field) :
    ok E (.closed ["id", "path", "purpose", "filter"] [])
      (.obj (structJSON (fieldMembers f))) = true ↔ f.predicate.map Json.str = none ∧ boolM f.intentToRetain = none ∧ boolM f.optional = none := by
  unfold fieldMembers
  rw [closed_in _ _ (by decide), closed_in _ _ (by decide), closed_in _ _ (by decide),
    closed_in _ _ (by decide), closed_out _ _ (by decide), closed_out _ _ (by decide),
    closed_out _ _ (by decide), closed_last]
  simp only [and_true]

theorem field_closedP (f : Field) :
    ok E (.closed ["id", "path", "purpose", "filter", "predicate"] [])
      (.obj (structJSON (fieldMembers f))) = true ↔ boolM f.intentToRetain = none ∧ boolM f.optional = none := by
  unfold fieldMembers
  rw [closed_in _ _ (by decide), closed_in _ _ (by decide), closed_in _ _ (by decide),
    closed_in _ _ (by decide), closed_in _ _ (by decide), closed_out _ _ (by decide),
    closed_out _ _ (by decide), closed_last]
  simp only [and_true]

theorem field_closed2 (f : Field) :
    ok E (.closed ["id", "path", "purpose", "intent_to_retain", "optional", "filter"] [])
      (.obj (structJSON (fieldMembers f))) = true ↔ f.predicate.map Json.str = none := by
  unfold fieldMembers
  rw [closed_in _ _ (by decide), closed_in _ _ (by decide), closed_in _ _ (by decide),
    closed_in _ _ (by decide), closed_out _ _ (by decide), closed_in _ _ (by decide),
    closed_in _ _ (by decide), closed_last]
  simp only [and_true]

theorem field_closedP2 (f : Field) :
    ok E (.closed ["id", "path", "purpose", "intent_to_retain", "filter", "predicate"] [])
      (.obj (structJSON (fieldMembers f))) = true ↔ boolM f.optional = none := by
  unfold fieldMembers
  rw [closed_in _ _ (by decide), closed_in _ _ (by decide), closed_in _ _ (by decide),
    closed_in _ _ (by decide), closed_in _ _ (by decide), closed_in _ _ (by decide),
    closed_out _ _ (by decide), closed_last]
  simp only [and_true]

theorem constraints_closed (c : Constraints) :
    ok E (.closed ["limit_disclosure", "statuses", "fields", "subject_is_issuer", "is_holder", "same_subject"] [])
      (.obj (structJSON (constraintsMembers c))) = true ↔ True := by
  unfold constraintsMembers
  rw [closed_in _ _ (by decide), closed_in _ _ (by decide), closed_in _ _ (by decide),
    closed_in _ _ (by decide), closed_last]

theorem descriptor_closed (d : Descriptor) :
    ok E (.closed ["id", "name", "purpose", "group", "schema", "constraints"] [])
      (.obj (structJSON (descriptorMembers d))) = true ↔ mapM d.metadata = none ∧ d.format.map formatJSON = none := by
  unfold descriptorMembers
  rw [closed_in _ _ (by decide), closed_in _ _ (by decide), closed_in _ _ (by decide),
    closed_in _ _ (by decide), closed_out _ _ (by decide), closed_in _ _ (by decide),
    closed_in _ _ (by decide), closed_out _ _ (by decide), closed_last]
  simp only [and_true]

theorem descriptor_closed2 (d : Descriptor) :
    ok E (.closed ["id", "name", "purpose", "format", "group", "constraints"] [])
      (.obj (structJSON (descriptorMembers d))) = true ↔ mapM d.metadata = none ∧ listM (ptr schemaJSON) (d.schema.getD []) = none := by
  unfold descriptorMembers
  rw [closed_in _ _ (by decide), closed_in _ _ (by decide), closed_in _ _ (by decide),
    closed_in _ _ (by decide), closed_out _ _ (by decide), closed_out _ _ (by decide),
    closed_in _ _ (by decide), closed_in _ _ (by decide), closed_last]
  simp only [and_true]

theorem requirement_closed (name purpose rule : String) (count min max : Int) (src : String) (ns : List Json) :
    ok E (.closed ["name", "purpose", "rule", "count", "min", "max", "from"] [])
      (.obj (structJSON (requirementMembers name purpose rule count min max src ns))) = true ↔ listM (fun v => v) ns = none := by
  unfold requirementMembers
  rw [closed_in _ _ (by decide), closed_in _ _ (by decide), closed_in _ _ (by decide),
    closed_in _ _ (by decide), closed_in _ _ (by decide), closed_in _ _ (by decide),
    closed_in _ _ (by decide), closed_out _ _ (by decide), closed_last]
  simp only [and_true]

theorem requirement_closedN (name purpose rule : String) (count min max : Int) (src : String) (ns : List Json) :
    ok E (.closed ["name", "purpose", "rule", "count", "min", "max", "from_nested"] [])
      (.obj (structJSON (requirementMembers name purpose rule count min max src ns))) = true ↔ strM src = none := by
  unfold requirementMembers
  rw [closed_in _ _ (by decide), closed_in _ _ (by decide), closed_in _ _ (by decide),
    closed_in _ _ (by decide), closed_in _ _ (by decide), closed_in _ _ (by decide),
    closed_out _ _ (by decide), closed_in _ _ (by decide), closed_last]
  simp only [and_true]

theorem definition_closed (d : Definition) :
    ok E (.closed ["id", "name", "purpose", "format", "submission_requirements", "input_descriptors"] [])
      (.obj (structJSON (definitionMembers d))) = true ↔ strM d.locale = none ∧ mapM (d.frame.getD []) = none := by
  unfold definitionMembers
  rw [closed_in _ _ (by decide), closed_in _ _ (by decide), closed_in _ _ (by decide),
    closed_out _ _ (by decide), closed_in _ _ (by decide), closed_out _ _ (by decide),
    closed_in _ _ (by decide), closed_in _ _ (by decide), closed_last]
  simp only [and_true]

theorem definition_closed2 (d : Definition) :
    ok E (.closed ["id", "name", "purpose", "format", "frame", "submission_requirements", "input_descriptors"] [])
      (.obj (structJSON (definitionMembers d))) = true ↔ strM d.locale = none := by
  unfold definitionMembers
  rw [closed_in _ _ (by decide), closed_in _ _ (by decide), closed_in _ _ (by decide),
    closed_out _ _ (by decide), closed_in _ _ (by decide), closed_in _ _ (by decide),
    closed_in _ _ (by decide), closed_in _ _ (by decide), closed_last]
  simp only [and_true]

end VC.PD
