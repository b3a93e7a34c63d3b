/-!
# Go string functions

`strings.Split` with a one-character separator, `strings.HasPrefix`, on Lean strings.  (Go strings
are byte sequences; the separators used by the code are ASCII, for which splitting bytes and
splitting characters agree on valid UTF-8.)
-/

namespace VC

/-- `strings.Split(s, sep)` for a one-character separator, on character lists. -/
def splitL (c : Char) : List Char → List (List Char)
  | [] => [[]]
  | x :: xs =>
    if x = c then [] :: splitL c xs
    else match splitL c xs with
      | [] => [[x]]
      | p :: ps => (x :: p) :: ps

/-- `strings.Split(s, sep)` for a one-character separator. -/
def split (c : Char) (s : String) : List String := (splitL c s.toList).map String.ofList

/-- `strings.HasPrefix(s, p)`. -/
def hasPrefix (s p : String) : Bool := p.toList.isPrefixOf s.toList

/-- The character does not occur in the string. -/
def NoChar (c : Char) (s : String) : Prop := c ∉ s.toList

instance (c : Char) (s : String) : Decidable (NoChar c s) := by unfold NoChar; infer_instance

theorem splitL_ne_nil (c : Char) (l : List Char) : splitL c l ≠ [] := by
  cases l with
  | nil => simp [splitL]
  | cons x xs =>
    unfold splitL
    split
    · simp
    · split <;> simp

theorem splitL_append (c : Char) (l r : List Char) (h : c ∉ l) :
    splitL c (l ++ c :: r) = l :: splitL c r := by
  induction l with
  | nil => simp [splitL]
  | cons x xs ih =>
    have hx : x ≠ c := fun e => h (by simp [e])
    have := ih (fun hm => h (List.mem_cons_of_mem _ hm))
    simp [splitL, hx, this]

theorem splitL_none (c : Char) (l : List Char) (h : c ∉ l) : splitL c l = [l] := by
  induction l with
  | nil => simp [splitL]
  | cons x xs ih =>
    have hx : x ≠ c := fun e => h (by simp [e])
    have := ih (fun hm => h (List.mem_cons_of_mem _ hm))
    simp [splitL, hx, this]

theorem split_ne_nil (c : Char) (s : String) : split c s ≠ [] := by
  simp [split, splitL_ne_nil]

/-- A first part without the separator is split off. -/
theorem split_append (c : Char) (s t : String) (h : NoChar c s) :
    split c (s ++ String.singleton c ++ t) = s :: split c t := by
  unfold split
  have : (s ++ String.singleton c ++ t).toList = s.toList ++ c :: t.toList := by
    simp [String.toList_append]
  rw [this, splitL_append c _ _ h]
  simp

/-- A string without the separator is its only part. -/
theorem split_none (c : Char) (s : String) (h : NoChar c s) : split c s = [s] := by
  unfold split
  rw [splitL_none c _ h]
  simp

theorem splitL_noChar (c : Char) (l : List Char) : ∀ p ∈ splitL c l, c ∉ p := by
  induction l with
  | nil => simp [splitL]
  | cons x xs ih =>
    intro p hp
    unfold splitL at hp
    split at hp
    · rcases List.mem_cons.mp hp with h | h
      · simp [h]
      · exact ih p h
    · rename_i hx
      split at hp
      · rename_i h; exact absurd h (splitL_ne_nil c xs)
      · rename_i q qs h
        rcases List.mem_cons.mp hp with h' | h'
        · subst h'
          simp only [List.mem_cons, not_or]
          exact ⟨fun e => hx e.symm, ih q (by rw [h]; simp)⟩
        · exact ih p (by rw [h]; exact List.mem_cons_of_mem _ h')

/-- Parts never contain the separator. -/
theorem split_noChar (c : Char) (s : String) : ∀ p ∈ split c s, NoChar c p := by
  intro p hp
  unfold split at hp
  obtain ⟨q, hq, rfl⟩ := List.mem_map.mp hp
  unfold NoChar
  simpa using splitL_noChar c _ q hq

/-- Join parts with a separator, `strings.Join`. -/
def joinC (c : Char) : List String → String
  | [] => ""
  | [s] => s
  | s :: t :: l => s ++ String.singleton c ++ joinC c (t :: l)

theorem split_joinC (c : Char) : ∀ (l : List String), l ≠ [] → (∀ s ∈ l, NoChar c s) →
    split c (joinC c l) = l := by
  intro l
  induction l with
  | nil => intro h; exact absurd rfl h
  | cons s l ih =>
    intro _ h
    cases l with
    | nil => exact split_none c s (h s (by simp))
    | cons t l =>
      rw [joinC, split_append c _ _ (h s (by simp)), ih (by simp) (fun x hx => h x (by simp at hx ⊢; right; exact hx))]

theorem joinL_splitL (c : Char) (l : List Char) : [c].intercalate (splitL c l) = l := by
  induction l with
  | nil => simp [splitL, List.intercalate]
  | cons x xs ih =>
    unfold splitL
    split
    · rename_i hx
      have := splitL_ne_nil c xs
      cases h : splitL c xs with
      | nil => exact absurd h this
      | cons p ps =>
        rw [h] at ih
        simp [List.intercalate, List.intersperse] at ih ⊢
        simp [hx, ih]
    · split
      · rename_i h; exact absurd h (splitL_ne_nil c xs)
      · rename_i q qs h
        rw [h] at ih
        cases qs with
        | nil => simp [List.intercalate] at ih ⊢; exact ih
        | cons r rs => simp [List.intercalate] at ih ⊢; exact ih

theorem toList_joinC (c : Char) : ∀ (l : List String),
    (joinC c l).toList = [c].intercalate (l.map String.toList) := by
  intro l
  induction l with
  | nil => simp [joinC, List.intercalate]
  | cons s l ih =>
    cases l with
    | nil => simp [joinC, List.intercalate]
    | cons t l =>
      rw [joinC]
      simp [String.toList_append, ih, List.intercalate]

/-- Joining the parts gives the string back. -/
theorem joinC_split (c : Char) (s : String) : joinC c (split c s) = s := by
  apply String.toList_inj.mp
  rw [toList_joinC]
  unfold split
  simp only [List.map_map]
  have : (String.toList ∘ String.ofList) = id := by funext x; simp
  rw [this, List.map_id, joinL_splitL]

example : split '~' "a~b~" = ["a", "b", ""] := by decide +kernel
example : split '~' "" = [""] := by decide +kernel

end VC
