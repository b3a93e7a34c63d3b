import Verif.Base.Json
/-!
# util/json: custom field helpers (C57)

Models `util/json/json.go`.  Iteration over a Go map is modelled by the list order; the theorems
below describe the results by lookups, so they hold for every order.
-/

namespace VC.JsonUtil

variable {α : Type _}

/-- The loop of `MergeCustomFields` (json.go:65-79) and `AddCustomFields` (82-89): custom fields
are added unless the object has a field of that name. -/
def addCustomFields (obj : GoMap α) : GoMap α → GoMap α
  | [] => obj
  | (k, v) :: cf =>
    addCustomFields (if (GoMap.get? obj k).isSome then obj else GoMap.set obj k v) cf

/-- `SplitJSONObj`, json.go:92-105. -/
def splitObj (flds : List String) : GoMap α → GoMap α × GoMap α
  | [] => ([], [])
  | (k, v) :: m =>
    let r := splitObj flds m
    if flds.contains k then ((k, v) :: r.1, r.2) else (r.1, (k, v) :: r.2)

/-- `CopyExcept`, json.go:119-127. -/
def copyExcept (m : GoMap α) : List String → GoMap α
  | [] => m
  | f :: fs => copyExcept (GoMap.del m f) fs

/-- `Select`, json.go:130-138 (a missing field is copied as nil). -/
def selectFrom (m : JObj) (acc : JObj) : List String → JObj
  | [] => acc
  | f :: fs => selectFrom m (GoMap.set acc f (JObj.at m f)) fs

/-- `Select`, json.go:130-138. -/
def select (m : JObj) (flds : List String) : JObj := selectFrom m [] flds

/-- The custom fields collected by `UnmarshalWithCustomFields`, json.go:54-58: the fields of the
document `af` that do not occur in the re-marshalled value `vf`. -/
def collectCustom (vf : GoMap α) : GoMap α → GoMap α → GoMap α
  | [], cf => cf
  | (k, v) :: af, cf =>
    collectCustom vf af (if (GoMap.get? vf k).isSome then cf else GoMap.set cf k v)

/-! ## Properties -/

/-- **C57.** Merging custom fields never changes a field of the object, and adds every other custom
field: the lookup in the result is that of the object, else that of the custom fields. -/
theorem merge_lookup (cf : GoMap α) (hcf : GoMap.WF cf) (obj : GoMap α) (k : String) :
    GoMap.get? (addCustomFields obj cf) k = (GoMap.get? obj k).or (GoMap.get? cf k) := by
  induction cf generalizing obj with
  | nil => simp [addCustomFields]
  | cons p cf ih =>
    obtain ⟨k', v⟩ := p
    obtain ⟨hk, hw⟩ := GoMap.wf_cons.mp hcf
    rw [addCustomFields, ih hw, GoMap.get?_cons]
    cases ho : GoMap.get? obj k' with
    | some w =>
      simp only [Option.isSome_some, if_true]
      by_cases e : k' = k
      · subst e; simp [ho]
      · simp [e]
    | none =>
      simp only [Option.isSome_none, Bool.false_eq_true, if_false, GoMap.get?_set]
      by_cases e : k' = k
      · subst e; simp [ho]
      · simp [e]

/-- Merging keeps the representation invariant of Go maps. -/
theorem merge_wf (cf : GoMap α) (obj : GoMap α) (h : GoMap.WF obj) :
    GoMap.WF (addCustomFields obj cf) := by
  induction cf generalizing obj with
  | nil => exact h
  | cons p cf ih =>
    obtain ⟨k, v⟩ := p
    rw [addCustomFields]
    split
    · exact ih obj h
    · exact ih _ (GoMap.wf_set h k v)

/-- A value of the merged object does not depend on the order in which the custom fields are
visited. -/
theorem merge_order {cf cf' : GoMap α} (hcf : GoMap.WF cf) (hp : cf.Perm cf') (obj : GoMap α) :
    GoMap.Same (addCustomFields obj cf) (addCustomFields obj cf') := by
  intro k
  have hcf' : GoMap.WF cf' := (hp.map Prod.fst).nodup_iff.mp hcf
  rw [merge_lookup cf hcf, merge_lookup cf' hcf', GoMap.get?_perm hcf hp k]

theorem set_absent (m : GoMap α) (k : String) (v : α) (h : GoMap.get? m k = none) :
    GoMap.set m k v = m ++ [(k, v)] := by
  induction m with
  | nil => rfl
  | cons p m ih =>
    obtain ⟨k', v'⟩ := p
    rw [GoMap.get?_cons] at h
    by_cases e : k' = k
    · rw [if_pos e] at h; cases h
    · rw [if_neg e] at h
      simp [GoMap.set, e, ih h]

/-- When no name is shared, merging is concatenation. -/
theorem merge_disjoint (cf : GoMap α) (hcf : GoMap.WF cf) (obj : GoMap α)
    (h : ∀ k ∈ GoMap.keys cf, k ∉ GoMap.keys obj) : addCustomFields obj cf = obj ++ cf := by
  induction cf generalizing obj with
  | nil => simp [addCustomFields]
  | cons p cf ih =>
    obtain ⟨k, v⟩ := p
    obtain ⟨hk, hw⟩ := GoMap.wf_cons.mp hcf
    have hn : GoMap.get? obj k = none := GoMap.get?_eq_none_iff.mpr (h k (by simp [GoMap.keys]))
    rw [addCustomFields, hn]
    simp only [Option.isSome_none, Bool.false_eq_true, if_false]
    rw [set_absent obj k v hn, ih hw]
    · simp
    · intro k' hk' hc
      simp only [GoMap.keys, List.map_append, List.mem_append, List.map_cons, List.map_nil,
        List.mem_cons, List.not_mem_nil, or_false] at hc
      rcases hc with hc | hc
      · exact h k' (by simp only [GoMap.keys, List.map_cons, List.mem_cons]; exact Or.inr hk') hc
      · subst hc; exact hk hk'

/-- **C57.** Splitting an object: each field goes to exactly one part, unchanged. -/
theorem split_lookup (flds : List String) (m : GoMap α) (k : String) :
    GoMap.get? (splitObj flds m).1 k = (if k ∈ flds then GoMap.get? m k else none) ∧
      GoMap.get? (splitObj flds m).2 k = (if k ∈ flds then none else GoMap.get? m k) := by
  induction m with
  | nil => simp [splitObj]
  | cons p m ih =>
    obtain ⟨k', v⟩ := p
    by_cases hc : k' ∈ flds
    · have : flds.contains k' = true := by simpa using hc
      simp only [splitObj, this, if_true, GoMap.get?_cons, ih.1, ih.2]
      by_cases e : k' = k
      · subst e; simp [hc]
      · simp [e]
    · have : flds.contains k' = false := by simpa using hc
      simp only [splitObj, this, Bool.false_eq_true, if_false, GoMap.get?_cons, ih.1, ih.2]
      by_cases e : k' = k
      · subst e; simp [hc]
      · simp [e]

/-- **C57.** `CopyExcept` removes exactly the named fields. -/
theorem copyExcept_lookup (flds : List String) (m : GoMap α) (k : String) :
    GoMap.get? (copyExcept m flds) k = if k ∈ flds then none else GoMap.get? m k := by
  induction flds generalizing m with
  | nil => simp [copyExcept]
  | cons f fs ih =>
    rw [copyExcept, ih, GoMap.get?_del]
    by_cases h1 : k ∈ fs
    · simp [h1]
    · by_cases e : f = k
      · subst e; simp
      · have e' : ¬ k = f := fun h => e h.symm
        simp [h1, e, e']

theorem selectFrom_lookup (m : JObj) (flds : List String) (acc : JObj) (k : String) :
    GoMap.get? (selectFrom m acc flds) k =
      if k ∈ flds then some (JObj.at m k) else GoMap.get? acc k := by
  induction flds generalizing acc with
  | nil => simp [selectFrom]
  | cons f fs ih =>
    rw [selectFrom, ih, GoMap.get?_set]
    by_cases h1 : k ∈ fs
    · simp [h1]
    · by_cases e : f = k
      · subst e; simp
      · have e' : ¬ k = f := fun h => e h.symm
        simp [h1, e, e']

/-- **C57.** `Select` has exactly the named fields; one that is missing in the source is null. -/
theorem select_lookup (m : JObj) (flds : List String) (k : String) :
    GoMap.get? (select m flds) k = if k ∈ flds then some ((GoMap.get? m k).getD .null) else none := by
  rw [select, selectFrom_lookup]; rfl

theorem collect_lookup (vf af : GoMap α) (haf : GoMap.WF af) (cf : GoMap α) (k : String) :
    GoMap.get? (collectCustom vf af cf) k =
      if (GoMap.get? vf k).isSome then GoMap.get? cf k
      else (GoMap.get? af k).or (GoMap.get? cf k) := by
  induction af generalizing cf with
  | nil => simp [collectCustom]
  | cons p af ih =>
    obtain ⟨k', v⟩ := p
    obtain ⟨hk, hw⟩ := GoMap.wf_cons.mp haf
    rw [collectCustom, ih hw, GoMap.get?_cons]
    by_cases e : k' = k
    · subst e
      have hn := GoMap.get?_eq_none_iff.mpr hk
      cases hv : (GoMap.get? vf k').isSome <;> simp [hn]
    · cases hv' : (GoMap.get? vf k').isSome <;> cases hv : (GoMap.get? vf k).isSome <;>
        simp [e, GoMap.get?_set]

/-- **C57.** Unmarshalling then marshalling with custom fields keeps every field: the fields of the
value `vf` (as re-marshalled) and, unchanged, every other field of the document `af`. -/
theorem unmarshal_marshal_custom (vf af : GoMap α) (haf : GoMap.WF af) (k : String) :
    GoMap.get? (addCustomFields vf (collectCustom vf af [])) k =
      (GoMap.get? vf k).or (GoMap.get? af k) := by
  have hw : GoMap.WF (collectCustom vf af []) := by
    have : ∀ (af cf : GoMap α), GoMap.WF cf → GoMap.WF (collectCustom vf af cf) := by
      intro af
      induction af with
      | nil => intro cf h; exact h
      | cons p af ih =>
        obtain ⟨k, v⟩ := p
        intro cf h
        rw [collectCustom]
        split
        · exact ih cf h
        · exact ih _ (GoMap.wf_set h k v)
    exact this af [] GoMap.wf_nil
  rw [merge_lookup _ hw, collect_lookup vf af haf]
  cases hv : GoMap.get? vf k <;> simp

/-! ## Examples -/

example : GoMap.get? (addCustomFields [("iss", Json.str "A")] [("iss", .str "B"), ("x", .null)]) "iss"
    = some (.str "A") := by
  rw [merge_lookup _ (by simp [GoMap.WF, GoMap.keys])]; rfl

example : GoMap.get? (select [("a", .str "1")] ["a", "b"]) "b" = some .null := by
  rw [select_lookup]; rfl

example : GoMap.WF [("iss", Json.str "B"), ("x", Json.null)] := by simp [GoMap.WF, GoMap.keys]

end VC.JsonUtil
