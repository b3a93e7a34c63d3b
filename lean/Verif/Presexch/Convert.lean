import Verif.Presexch.Constraints
/-!
The second spelling of a path, definition.go:1490-1510: it names the same members.
-/
namespace VC.PE
open VC

/-- A path that names one member after another from the root: `$.a.b.c`. -/
def dotted : List String → String
  | [] => ""
  | n :: ns => "." ++ n ++ dotted ns

/-- The member name is written between brackets and quotes: it has a hyphen and is not written so already. -/
def Quoted (n : String) : Prop := '-' ∈ n.toList ∧ ¬ ['[', '\''] <:+: n.toList

open Classical in
/-- The same members, those with a hyphen between brackets and quotes: `$.a['b-c'].d`. -/
noncomputable def quotedPath : List String → String
  | [] => ""
  | n :: ns => (if Quoted n then "['" ++ n ++ "']" else "." ++ n) ++ quotedPath ns

theorem conv_containsL (sub : List Char) : ∀ l : List Char, containsL sub l = true ↔ sub <:+: l
  | [] => by
    unfold containsL
    rw [List.isEmpty_iff]
    exact List.infix_nil.symm
  | c :: cs => by
    unfold containsL
    rw [Bool.or_eq_true, conv_containsL sub cs, List.infix_cons_iff, List.isPrefixOf_iff_prefix]

theorem quoted_iff (n : String) : (contains n "-" && !contains n "['") = true ↔ Quoted n := by
  unfold Quoted contains
  rw [Bool.and_eq_true, Bool.not_eq_true', ← Bool.not_eq_true, conv_containsL, conv_containsL]
  refine and_congr ?_ Iff.rfl
  show ['-'] <:+: n.toList ↔ _
  constructor
  · rintro ⟨a, b, h⟩
    rw [← h]; simp
  · intro h
    obtain ⟨a, b, h⟩ := List.append_of_mem h
    exact ⟨a, b, by rw [h]; simp⟩

theorem convSegs_quoted : ∀ ns : List String, convSegs false ns = quotedPath ns
  | [] => rfl
  | n :: ns => by
    unfold convSegs quotedPath
    rw [convSegs_quoted ns]
    by_cases h : Quoted n
    · rw [if_pos h, if_pos ((quoted_iff n).mpr h)]
    · rw [if_neg h, if_neg (fun e => h ((quoted_iff n).mp e))]
      rfl

theorem split_dotted : ∀ (r : String) (ns : List String), NoChar '.' r → (∀ n ∈ ns, NoChar '.' n) →
    split '.' (r ++ dotted ns) = r :: ns
  | r, [], hr, _ => by
    show split '.' (r ++ "") = [r]
    rw [String.append_empty]
    exact split_none _ _ hr
  | r, n :: ns, hr, h => by
    have e : r ++ dotted (n :: ns) = r ++ String.singleton '.' ++ (n ++ dotted ns) := by
      show r ++ ("." ++ n ++ dotted ns) = _
      rw [String.append_assoc, String.append_assoc, show String.singleton '.' = "." from by decide +kernel]
    rw [e, split_append _ _ _ hr, split_dotted n ns (h n (by simp)) (fun x hx => h x (by simp [hx]))]

/-- **C25.**  The spelling a path is tried under when it does not parse as it is written names the same members in the
same order: only those with a hyphen are put between brackets and quotes. -/
theorem second_spelling (ns : List String) (h : ∀ n ∈ ns, NoChar '.' n) :
    convertPath ("$" ++ dotted ns) = "$" ++ quotedPath ns := by
  unfold convertPath
  rw [split_dotted "$" ns (by unfold NoChar; decide +kernel) h]
  unfold convSegs
  rw [convSegs_quoted, if_neg (by decide +kernel), if_pos rfl]
  rfl

/-- **C25.**  A path without a hyphen has no second spelling: it is read as it is written or not at all. -/
theorem no_second_spelling (E : PEnv) (p : String) (h : '-' ∉ p.toList) : parsePath E p = E.parse p := by
  have key : ∀ (ns : List String) (b : Bool), (∀ n ∈ ns, '-' ∉ n.toList) → ns ≠ [] →
      convSegs b ns = (if b then "" else ".") ++ joinC '.' ns := by
    intro ns
    induction ns with
    | nil => intro _ _ h; exact absurd rfl h
    | cons n ns ih =>
      intro b hn _
      unfold convSegs
      have hq : ¬ (contains n "-" && !contains n "['") = true := fun e => hn n (by simp) ((quoted_iff n).mp e).1
      rw [if_neg hq]
      cases ns with
      | nil => exact String.append_empty
      | cons m ms =>
        rw [ih false (fun x hx => hn x (by simp [hx])) (by simp)]
        show _ = _ ++ (n ++ String.singleton '.' ++ joinC '.' (m :: ms))
        rw [String.append_assoc, String.append_assoc, show String.singleton '.' = "." from by decide +kernel]
        rfl
  have e : convertPath p = p := by
    unfold convertPath
    rw [key _ true ?_ (split_ne_nil '.' p)]
    · show "" ++ joinC '.' (split '.' p) = p
      rw [joinC_split, String.empty_append]
    · intro n hn hm
      have : ∀ (ls : List (List Char)), n.toList ∈ ls → '-' ∈ ['.'].intercalate ls := by
        intro ls
        induction ls with
        | nil => simp
        | cons a as ih =>
          intro ha
          cases as with
          | nil =>
            rw [List.mem_singleton] at ha
            simp [List.intercalate, ← ha, hm]
          | cons b bs =>
            rcases List.mem_cons.mp ha with ha | ha
            · simp [List.intercalate, ← ha, hm]
            · have := ih ha
              simp [List.intercalate] at this ⊢
              tauto
      refine h ?_
      rw [← joinC_split '.' p, toList_joinC]
      exact this _ (List.mem_map_of_mem hn)
  unfold parsePath
  rw [e]
  cases E.parse p <;> rfl

/-- Three members, the second with a hyphen. -/
example : convertPath "$.a.b-c.d" = "$.a['b-c'].d" ∧ (∀ n ∈ ["a", "b-c", "d"], NoChar '.' n) ∧
    "$" ++ dotted ["a", "b-c", "d"] = "$.a.b-c.d" := by
  refine ⟨by decide +kernel, ?_, by decide +kernel⟩
  unfold NoChar
  decide +kernel

end VC.PE
