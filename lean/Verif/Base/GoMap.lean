/-!
# Go maps as association lists

Go's `map[string]T` is modelled by an association list.  A lookup takes the first binding.
Iteration order of a Go map is unspecified; theorems about order quantify over permutations.
-/

namespace VC

/-- A Go `map[string]α`: association list, first binding wins. -/
abbrev GoMap (α : Type _) := List (String × α)

namespace GoMap

variable {α β : Type _}

/-- `v, ok := m[k]`. -/
def get? : GoMap α → String → Option α
  | [], _ => none
  | (k', v) :: m, k => if k' = k then some v else get? m k

/-- `m[k] = v` (in place if bound, otherwise appended). -/
def set : GoMap α → String → α → GoMap α
  | [], k, v => [(k, v)]
  | (k', v') :: m, k, v => if k' = k then (k, v) :: m else (k', v') :: set m k v

/-- `delete(m, k)`. -/
def del (m : GoMap α) (k : String) : GoMap α := m.filter (fun p => !(p.1 == k))

/-- Keys in list order. -/
def keys (m : GoMap α) : List String := m.map Prod.fst

/-- No key bound twice: the representation invariant of a Go map. -/
def WF (m : GoMap α) : Prop := (keys m).Nodup

/-- Extensional equality: two maps with the same lookups. -/
def Same (m m' : GoMap α) : Prop := ∀ k, get? m k = get? m' k

@[simp] theorem get?_nil (k : String) : get? ([] : GoMap α) k = none := rfl

theorem get?_cons (k' : String) (v : α) (m : GoMap α) (k : String) :
    get? ((k', v) :: m) k = if k' = k then some v else get? m k := rfl

@[simp] theorem get?_set_self (m : GoMap α) (k : String) (v : α) : get? (set m k v) k = some v := by
  induction m with
  | nil => simp [set, get?]
  | cons p m ih =>
    obtain ⟨k', v'⟩ := p
    by_cases h : k' = k <;> simp [set, get?, h, ih]

theorem get?_set_ne (m : GoMap α) {k k' : String} (v : α) (h : k ≠ k') :
    get? (set m k v) k' = get? m k' := by
  induction m with
  | nil => simp [set, get?, h]
  | cons p m ih =>
    obtain ⟨k1, v1⟩ := p
    by_cases h1 : k1 = k
    · subst h1; simp [set, get?, h]
    · simp only [set, h1, if_false, get?, ih]

theorem get?_set (m : GoMap α) (k k' : String) (v : α) :
    get? (set m k v) k' = if k = k' then some v else get? m k' := by
  by_cases h : k = k'
  · subst h; simp
  · simp [h, get?_set_ne m v h]

@[simp] theorem get?_del_self (m : GoMap α) (k : String) : get? (del m k) k = none := by
  induction m with
  | nil => rfl
  | cons p m ih =>
    obtain ⟨k', v'⟩ := p
    by_cases h : k' = k
    · simpa [del, h] using ih
    · simp only [del] at ih ⊢
      simp [h, get?, ih]

theorem get?_del_ne (m : GoMap α) {k k' : String} (h : k ≠ k') :
    get? (del m k) k' = get? m k' := by
  induction m with
  | nil => rfl
  | cons p m ih =>
    obtain ⟨k1, v1⟩ := p
    simp only [del] at ih ⊢
    by_cases h1 : k1 = k
    · subst h1; simp [get?, h, ih]
    · simp [h1, get?, ih]

theorem get?_del (m : GoMap α) (k k' : String) :
    get? (del m k) k' = if k = k' then none else get? m k' := by
  by_cases h : k = k'
  · subst h; simp
  · simp [h, get?_del_ne m h]

theorem mem_of_get? {m : GoMap α} {k : String} {v : α} (h : get? m k = some v) : (k, v) ∈ m := by
  induction m with
  | nil => simp at h
  | cons p m ih =>
    obtain ⟨k', v'⟩ := p
    rw [get?_cons] at h
    by_cases h1 : k' = k
    · rw [if_pos h1] at h; cases h; subst h1; exact List.mem_cons_self
    · rw [if_neg h1] at h; exact List.mem_cons_of_mem _ (ih h)

theorem get?_eq_none_iff {m : GoMap α} {k : String} : get? m k = none ↔ k ∉ keys m := by
  induction m with
  | nil => simp [keys]
  | cons p m ih =>
    obtain ⟨k', v'⟩ := p
    rw [get?_cons]
    by_cases h1 : k' = k
    · simp [h1, keys]
    · simp only [h1, if_false, ih, keys, List.map_cons, List.mem_cons, not_or]
      constructor
      · intro h; exact ⟨fun e => h1 e.symm, h⟩
      · exact fun h => h.2

theorem get?_isSome_iff {m : GoMap α} {k : String} : (get? m k).isSome ↔ k ∈ keys m := by
  have := @get?_eq_none_iff _ m k
  cases h : get? m k with
  | none => simp [this.mp h]
  | some v =>
    simp only [Option.isSome_some, true_iff]
    exact Classical.byContradiction fun hc => by simp [this.mpr hc] at h

theorem get?_of_mem {m : GoMap α} (wf : WF m) {k : String} {v : α} (h : (k, v) ∈ m) :
    get? m k = some v := by
  induction m with
  | nil => cases h
  | cons p m ih =>
    obtain ⟨k', v'⟩ := p
    have wf' : k' ∉ keys m ∧ WF m := by simpa [WF, keys] using wf
    rw [get?_cons]
    rcases List.mem_cons.mp h with e | e
    · cases e; simp
    · have : k' ≠ k := fun e' => wf'.1 (by subst e'; exact List.mem_map.mpr ⟨_, e, rfl⟩)
      simp [this, ih wf'.2 e]

theorem mem_iff_get? {m : GoMap α} (wf : WF m) {k : String} {v : α} :
    (k, v) ∈ m ↔ get? m k = some v := ⟨get?_of_mem wf, mem_of_get?⟩

theorem wf_nil : WF ([] : GoMap α) := by simp [WF, keys]

theorem wf_cons {k : String} {v : α} {m : GoMap α} :
    WF ((k, v) :: m) ↔ k ∉ keys m ∧ WF m := by simp [WF, keys]

theorem keys_set (m : GoMap α) (k : String) (v : α) :
    keys (set m k v) = if k ∈ keys m then keys m else keys m ++ [k] := by
  induction m with
  | nil => simp [set, keys]
  | cons p m ih =>
    obtain ⟨k', v'⟩ := p
    by_cases h : k' = k
    · simp [set, h, keys]
    · have h' : ¬ k = k' := fun e => h e.symm
      simp only [keys] at ih
      simp only [set, h, if_false, keys, List.map_cons, ih, List.mem_cons, h', false_or]
      split <;> simp_all

theorem wf_set {m : GoMap α} (wf : WF m) (k : String) (v : α) : WF (set m k v) := by
  unfold WF
  rw [keys_set]
  split
  · exact wf
  · next h =>
    rw [List.nodup_append]
    refine ⟨wf, by simp, ?_⟩
    intro a ha b hb e
    simp at hb
    subst hb; subst e; exact h ha

theorem wf_filter {m : GoMap α} (wf : WF m) (p : String × α → Bool) : WF (m.filter p) := by
  unfold WF keys at *
  exact List.Nodup.sublist (List.Sublist.map _ List.filter_sublist) wf

theorem wf_del {m : GoMap α} (wf : WF m) (k : String) : WF (del m k) := wf_filter wf _

theorem get?_perm {m m' : GoMap α} (wf : WF m) (h : m.Perm m') : Same m m' := by
  have wf' : WF m' := (h.map Prod.fst).nodup_iff.mp wf
  intro k
  cases h1 : get? m k with
  | some v =>
    exact (get?_of_mem wf' (h.mem_iff.mp (mem_of_get? h1))).symm
  | none =>
    cases h2 : get? m' k with
    | none => rfl
    | some v =>
      have := get?_of_mem wf (h.mem_iff.mpr (mem_of_get? h2))
      simp [h1] at this

theorem get?_append (m m' : GoMap α) (k : String) :
    get? (m ++ m') k = (get? m k).or (get? m' k) := by
  induction m with
  | nil => simp
  | cons p m ih =>
    obtain ⟨k', v'⟩ := p
    by_cases h : k' = k <;> simp [get?, h, ih]

theorem get?_filter_key (m : GoMap α) (p : String → Bool) (k : String) :
    get? (m.filter (fun x => p x.1)) k = if p k then get? m k else none := by
  induction m with
  | nil => simp
  | cons q m ih =>
    obtain ⟨k', v'⟩ := q
    by_cases hp : p k'
    · simp only [List.filter_cons, hp, if_true, get?_cons, ih]
      by_cases h : k' = k
      · subst h; simp [hp]
      · simp [h]
    · simp only [List.filter_cons, hp, get?_cons, Bool.false_eq_true, if_false, ih]
      by_cases h : k' = k
      · subst h; simp [hp]
      · simp [h]

theorem get?_map (m : GoMap α) (f : String → α → β) (k : String) :
    get? (m.map (fun x => (x.1, f x.1 x.2))) k = (get? m k).map (f k) := by
  induction m with
  | nil => simp
  | cons q m ih =>
    obtain ⟨k', v'⟩ := q
    by_cases h : k' = k
    · subst h; simp [get?]
    · simp [get?, h, ih]

end GoMap
end VC
