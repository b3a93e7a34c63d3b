import Verif.Presexch.Match
import Mathlib.Data.List.Perm.Basic
/-!
# presexch: building the presentation submission, `merge` (C23, C63)

The keys of the map are visited in some order `keys` (the code sorts them) and the mappings are
sorted at the end; the theorems hold for every order.
-/

namespace VC.PE

variable {α : Type}

/-- A descriptor mapping with its nested mapping, definition.go:1724-1741. -/
structure MapOut where
  id : String
  format : String
  path : String
  vcFormat : String
  nestedPath : String

/-- State of the loop: `setOfCreds`, `result`, `descriptors`, definition.go:1688-1693. -/
structure MState (α : Type) where
  index : GoMap Nat
  result : List α
  out : List MapOut

/-- The paths of a credential at position `i`, definition.go:1735-1741. -/
def outPaths (sep : Bool) (format : String) (i : Nat) : String × String :=
  let vp := if format = "jwt_vp" then ".vp" else ""
  if sep then ("$[" ++ toString i ++ "]", "$" ++ vp ++ ".verifiableCredential[0]")
  else ("$", "$" ++ vp ++ ".verifiableCredential[" ++ toString i ++ "]")

/-- One credential of one descriptor, definition.go:1713-1744. -/
def mergeOne (isJWT : α → Bool) (sep : Bool) (format descID : String) (st : MState α)
    (w : String × α) : MState α :=
  let st1 : MState α :=
    match GoMap.get? st.index w.1 with
    | some _ => st
    | none => ⟨GoMap.set st.index w.1 st.result.length, st.result ++ [w.2], st.out⟩
  let i := (GoMap.get? st1.index w.1).getD 0
  { st1 with out := st1.out ++ [⟨descID, format, (outPaths sep format i).1,
      if isJWT w.2 then "jwt_vc" else "ldp_vc", (outPaths sep format i).2⟩] }

/-- `merge`, definition.go:1683-1749, before the final sort of the mappings. -/
def merge (isJWT : α → Bool) (sep : Bool) (format : String) (m : GoMap (List (String × α)))
    (keys : List String) : MState α :=
  keys.foldl (fun st k => ((GoMap.get? m k).getD []).foldl (mergeOne isJWT sep format k) st) ⟨[], [], []⟩

/-! ## Specification -/

/-- The mapping `o` points at credential number `i`: the `i`-th credential of the one presentation, or
the only credential of the `i`-th presentation; JWT presentations have their contents under `vp`. -/
def PointsAt (sep : Bool) (format : String) (o : MapOut) (i : Nat) : Prop :=
  ∃ vp : String, ((format = "jwt_vp" ∧ vp = "$.vp") ∨ (format ≠ "jwt_vp" ∧ vp = "$")) ∧
  ((sep = true ∧ o.path = "$[" ++ toString i ++ "]" ∧ o.nestedPath = vp ++ ".verifiableCredential[0]") ∨
   (sep = false ∧ o.path = "$" ∧ o.nestedPath = vp ++ ".verifiableCredential[" ++ toString i ++ "]"))

theorem pointsAt_outPaths {sep : Bool} {format : String} {o : MapOut} {i : Nat}
    (h : o.path = (outPaths sep format i).1) (h' : o.nestedPath = (outPaths sep format i).2) :
    PointsAt sep format o i := by
  unfold PointsAt
  rw [h, h']
  by_cases hf : format = "jwt_vp"
  · refine ⟨"$.vp", .inl ⟨hf, rfl⟩, ?_⟩
    cases sep
    · right; refine ⟨rfl, ?_, ?_⟩ <;> simp [outPaths, hf]; try rfl
    · left; refine ⟨rfl, ?_, ?_⟩ <;> simp [outPaths, hf]; try rfl
  · refine ⟨"$", .inr ⟨hf, rfl⟩, ?_⟩
    cases sep
    · right; refine ⟨rfl, ?_, ?_⟩ <;> simp [outPaths, hf]
    · left; refine ⟨rfl, ?_, ?_⟩ <;> simp [outPaths, hf]

/-- The format a mapping names for its credential: `jwt_vc` for one that is a JWT, else `ldp_vc`. -/
def ClaimsFormat (jwt : Bool) (o : MapOut) : Prop :=
  (jwt = true ∧ o.vcFormat = "jwt_vc") ∨ (jwt = false ∧ o.vcFormat = "ldp_vc")

theorem claimsFormat_made (jwt : Bool) (a b c d : String) :
    ClaimsFormat jwt ⟨a, b, c, if jwt then "jwt_vc" else "ldp_vc", d⟩ := by
  cases jwt
  · exact .inr ⟨rfl, rfl⟩
  · exact .inl ⟨rfl, rfl⟩

/-- Equal unique IDs mean the same credential. -/
def IDsIdentify (m : GoMap (List (String × α))) : Prop :=
  ∀ k k' ws ws' u c c', GoMap.get? m k = some ws → GoMap.get? m k' = some ws' →
    (u, c) ∈ ws → (u, c') ∈ ws' → c = c'

/-! ## Proofs -/

/-- Invariant of the loop; `P` are the pairs of descriptor and credential visited. -/
structure MInv (isJWT : α → Bool) (sep : Bool) (format : String) (P : List (String × String × α)) (st : MState α) :
    Prop where
  index : ∀ u i, GoMap.get? st.index u = some i → ∃ d c, (d, u, c) ∈ P ∧ st.result[i]? = some c
  known : ∀ d u c, (d, u, c) ∈ P → ∃ i, GoMap.get? st.index u = some i
  out : List.Forall₂ (fun (p : String × String × α) (o : MapOut) => o.id = p.1 ∧ o.format = format ∧
    ∃ i, GoMap.get? st.index p.2.1 = some i ∧ PointsAt sep format o i ∧ ClaimsFormat (isJWT p.2.2) o) P st.out

theorem mergeOne_inv (isJWT : α → Bool) {sep : Bool} {format : String}
    {P : List (String × String × α)} {st : MState α} (h : MInv isJWT sep format P st) (d : String)
    (w : String × α) : MInv isJWT sep format (P ++ [(d, w.1, w.2)]) (mergeOne isJWT sep format d st w) := by
  obtain ⟨u, c⟩ := w
  unfold mergeOne
  dsimp only
  cases hg : GoMap.get? st.index u with
  | some i =>
    dsimp only
    rw [hg, Option.getD_some]
    refine ⟨?_, ?_, ?_⟩
    · intro u' i' h'
      obtain ⟨d', c', a, b⟩ := h.index u' i' h'
      exact ⟨d', c', List.mem_append_left _ a, b⟩
    · intro d' u' c' hm
      rcases List.mem_append.mp hm with hm | hm
      · exact h.known d' u' c' hm
      · simp only [List.mem_singleton, Prod.mk.injEq] at hm
        obtain ⟨-, rfl, -⟩ := hm
        exact ⟨i, hg⟩
    · refine List.rel_append h.out (List.Forall₂.cons ⟨rfl, rfl, i, hg, pointsAt_outPaths rfl rfl, claimsFormat_made _ _ _ _ _⟩ List.Forall₂.nil)
  | none =>
    dsimp only
    rw [GoMap.get?_set_self, Option.getD_some]
    refine ⟨?_, ?_, ?_⟩
    · intro u' i' h'
      dsimp only at h' ⊢
      rw [GoMap.get?_set] at h'
      split at h'
      · next e =>
        cases h'
        subst e
        exact ⟨d, c, by simp, by simp⟩
      · obtain ⟨d', c', a, b⟩ := h.index u' i' h'
        refine ⟨d', c', List.mem_append_left _ a, ?_⟩
        rw [List.getElem?_append_left]
        · exact b
        · exact (List.getElem?_eq_some_iff.mp b).1
    · intro d' u' c' hm
      dsimp only
      rw [GoMap.get?_set]
      split
      · exact ⟨_, rfl⟩
      · next hne =>
        rcases List.mem_append.mp hm with hm | hm
        · exact h.known d' u' c' hm
        · simp only [List.mem_singleton, Prod.mk.injEq] at hm
          exact absurd hm.2.1.symm hne
    · refine List.rel_append ?_
        (List.Forall₂.cons ⟨rfl, rfl, _, GoMap.get?_set_self _ _ _, pointsAt_outPaths rfl rfl, claimsFormat_made _ _ _ _ _⟩ List.Forall₂.nil)
      refine h.out.imp ?_
      rintro p o ⟨h1, h2, i, h3, h4⟩
      refine ⟨h1, h2, i, ?_, h4⟩
      dsimp only
      rw [GoMap.get?_set_ne]
      · exact h3
      · rintro rfl; rw [hg] at h3; cases h3

/-- The pairs visited for a list of keys. -/
def visited (m : GoMap (List (String × α))) (keys : List String) : List (String × String × α) :=
  keys.flatMap (fun k => ((GoMap.get? m k).getD []).map (fun w => (k, w.1, w.2)))

theorem merge_inv (isJWT : α → Bool) (sep : Bool) (format : String) (m : GoMap (List (String × α)))
    (keys : List String) : MInv isJWT sep format (visited m keys) (merge isJWT sep format m keys) := by
  have inner : ∀ (d : String) (ws : List (String × α)) (P : List (String × String × α)) (st : MState α),
      MInv isJWT sep format P st →
      MInv isJWT sep format (P ++ ws.map (fun w => (d, w.1, w.2))) (ws.foldl (mergeOne isJWT sep format d) st) := by
    intro d ws
    induction ws with
    | nil => intro P st h; simpa using h
    | cons w ws ih =>
      intro P st h
      have := ih _ _ (mergeOne_inv isJWT h d w)
      simpa using this
  have outer : ∀ (keys : List String) (P : List (String × String × α)) (st : MState α),
      MInv isJWT sep format P st → MInv isJWT sep format (P ++ visited m keys)
        (keys.foldl (fun st k => ((GoMap.get? m k).getD []).foldl (mergeOne isJWT sep format k) st) st) := by
    intro keys
    induction keys with
    | nil => intro P st h; simpa [visited] using h
    | cons k ks ih =>
      intro P st h
      have := ih _ _ (inner k ((GoMap.get? m k).getD []) P st h)
      simpa [visited] using this
  have := outer keys [] ⟨[], [], []⟩ ⟨by simp, by simp, by simp⟩
  simpa [merge] using this

theorem mem_visited {m : GoMap (List (String × α))} {keys : List String} {d u : String} {c : α} :
    (d, u, c) ∈ visited m keys ↔ d ∈ keys ∧ ∃ ws, GoMap.get? m d = some ws ∧ (u, c) ∈ ws := by
  unfold visited
  simp only [List.mem_flatMap, List.mem_map, Prod.mk.injEq, Prod.exists]
  constructor
  · rintro ⟨k, hk, u', c', h, rfl, rfl, rfl⟩
    cases hg : GoMap.get? m k with
    | none => rw [hg] at h; simp at h
    | some ws => rw [hg] at h; exact ⟨hk, ws, rfl, by simpa using h⟩
  · rintro ⟨hk, ws, hg, h⟩
    exact ⟨d, hk, u, c, by rw [hg]; simpa using h, rfl, rfl, rfl⟩

/-- **C23** (`_partial`: for credentials with distinct unique IDs).  Whatever the order of the keys and
of the mappings, every mapping points at a credential of the presentation that matched the mapping's
own descriptor, and names the format of that credential. -/
theorem merge_points_partial (isJWT : α → Bool) (sep : Bool) (format : String)
    (m : GoMap (List (String × α))) (keys : List String) (hid : IDsIdentify m)
    {out : List MapOut} (hp : out.Perm (merge isJWT sep format m keys).out) :
    ∀ o ∈ out, ∃ i c ws u, PointsAt sep format o i ∧
      (merge isJWT sep format m keys).result[i]? = some c ∧
      GoMap.get? m o.id = some ws ∧ (u, c) ∈ ws ∧ ClaimsFormat (isJWT c) o := by
  have hi := merge_inv isJWT sep format m keys
  intro o ho
  have ho := hp.mem_iff.mp ho
  obtain ⟨p, hpm, h1, h2, i, h3, h4, h7⟩ : ∃ p ∈ visited m keys, o.id = p.1 ∧ o.format = format ∧
      ∃ i, GoMap.get? (merge isJWT sep format m keys).index p.2.1 = some i ∧ PointsAt sep format o i ∧
        ClaimsFormat (isJWT p.2.2) o := by
    have : ∀ {P : List (String × String × α)} {os : List MapOut} {R : (String × String × α) → MapOut → Prop},
        List.Forall₂ R P os → ∀ o ∈ os, ∃ p ∈ P, R p o := by
      intro P os R hf
      induction hf with
      | nil => simp
      | cons hr _ ih =>
        intro o ho
        rcases List.mem_cons.mp ho with rfl | ho
        · exact ⟨_, by simp, hr⟩
        · obtain ⟨p, hp, h⟩ := ih o ho
          exact ⟨p, List.mem_cons_of_mem _ hp, h⟩
    exact this hi.out o ho
  obtain ⟨d, u, c⟩ := p
  dsimp only at h1 h3
  obtain ⟨d', c', h5, h6⟩ := hi.index u i h3
  obtain ⟨_, ws, hg, hm⟩ := mem_visited.mp hpm
  obtain ⟨_, ws', hg', hm'⟩ := mem_visited.mp h5
  have := hid d d' ws ws' u c c' hg hg' hm hm'
  subst this
  exact ⟨i, c, ws, u, h4, h6, by rw [h1]; exact hg, hm, h7⟩

/-- **C23**, nothing is left out: each credential of each descriptor has its mapping, in order, and no
others. -/
theorem merge_all (isJWT : α → Bool) (sep : Bool) (format : String)
    (m : GoMap (List (String × α))) (keys : List String) :
    (merge isJWT sep format m keys).out.map MapOut.id = (visited m keys).map Prod.fst ∧
    ∀ o ∈ (merge isJWT sep format m keys).out, o.format = format := by
  have hi := (merge_inv isJWT sep format m keys).out
  constructor
  · have : ∀ {P : List (String × String × α)} {os : List MapOut},
        List.Forall₂ (fun (p : String × String × α) (o : MapOut) => o.id = p.1) P os →
        os.map MapOut.id = P.map Prod.fst := by
      intro P os hf
      induction hf with
      | nil => rfl
      | cons hr _ ih => simp [hr, ih]
    exact this (hi.imp (fun p o h => h.1))
  · intro o ho
    have : ∀ {P : List (String × String × α)} {os : List MapOut},
        List.Forall₂ (fun (_ : String × String × α) (o : MapOut) => o.format = format) P os →
        ∀ o ∈ os, o.format = format := by
      intro P os hf
      induction hf with
      | nil => simp
      | cons hr _ ih =>
        intro o ho
        rcases List.mem_cons.mp ho with rfl | ho
        · exact hr
        · exact ih o ho
    exact this (hi.imp (fun p o h => h.2.1)) o ho

/-- **C23 violated**: credentials without an `id`.  Descriptor `b` was matched by credential 2 only,
but its mapping points at credential 1, and credential 2 is not in the presentation at all. -/
theorem merge_wrong_credential :
    let r := merge (fun _ : Nat => false) false "ldp_vp" [("a", [("", 1)]), ("b", [("", 2)])] ["a", "b"]
    r.result = [1] ∧ r.out.map (fun o => (o.id, o.nestedPath)) =
      [("a", "$.verifiableCredential[0]"), ("b", "$.verifiableCredential[0]")] := by
  decide +kernel

/-- With different IDs: two descriptors, one shared credential. -/
example : IDsIdentify [("a", [("u", 1), ("v", 2)]), ("b", [("v", 2)])] ∧
    let r := merge (fun _ : Nat => false) true "jwt_vp" [("a", [("u", 1), ("v", 2)]), ("b", [("v", 2)])]
      ["a", "b"]
    r.result = [1, 2] ∧ r.out.map (fun o => (o.id, o.path, o.nestedPath)) =
      [("a", "$[0]", "$.vp.verifiableCredential[0]"), ("a", "$[1]", "$.vp.verifiableCredential[0]"),
       ("b", "$[1]", "$.vp.verifiableCredential[0]")] := by
  constructor
  · intro k k' ws ws' u c c' h h' hm hm'
    have key : ∀ k ws, GoMap.get? [("a", [("u", 1), ("v", 2)]), ("b", [("v", 2)])] k = some ws →
        ∀ u c, (u, c) ∈ ws → (u = "u" ∧ c = 1) ∨ (u = "v" ∧ c = 2) := by
      intro k ws h u c hm
      simp only [GoMap.get?] at h
      split at h
      · cases h; simpa using hm
      · split at h
        · cases h; exact Or.inr (by simpa using hm)
        · cases h
    rcases key k ws h u c hm with ⟨rfl, rfl⟩ | ⟨rfl, rfl⟩ <;>
      rcases key k' ws' h' _ c' hm' with ⟨e, rfl⟩ | ⟨e, rfl⟩ <;> simp_all
  · decide +kernel

/-! ## The verifier's reading of the paths (C63) -/

theorem digitsVal_eq : ∀ (l : List Char) (acc : Nat), (∀ c ∈ l, c.isDigit = true) →
    digitsVal l acc = some (Nat.ofDigitChars 10 l acc)
  | [], acc, _ => by simp [digitsVal]
  | c :: cs, acc, h => by
    have hc := h c (by simp)
    have hr : '0' ≤ c ∧ c ≤ '9' := by
      simpa [Char.isDigit, Char.le_def] using hc
    rw [digitsVal, if_pos hr, digitsVal_eq cs _ (fun x hx => h x (List.mem_cons_of_mem _ hx)),
      Nat.ofDigitChars_cons, Nat.mul_comm]
    rfl

theorem digits_toString (n : Nat) : ∀ c ∈ (toString n).toList, c.isDigit = true := by
  intro c hc
  rw [Nat.toString_eq_repr, Nat.toList_repr] at hc
  exact Nat.isDigit_of_mem_toDigits (by decide) (by decide) hc

/-- `strconv.Atoi(strconv.Itoa(n))`. -/
theorem atoi_toString (n : Nat) (h : n < 2 ^ 63) : atoi (toString n) = some (n : Int) := by
  have hd := digits_toString n
  have hne : (toString n).toList ≠ [] := by
    rw [Nat.toString_eq_repr, Nat.toList_repr]; exact Nat.toDigits_ne_nil
  have hv : parseUDigits (toString n).toList = some n := by
    unfold parseUDigits
    rw [if_neg (by simpa using hne), digitsVal_eq _ _ hd, Nat.toString_eq_repr, Nat.toList_repr,
      Nat.ofDigitChars_ten_toDigits]
  unfold atoi
  dsimp only
  split
  · next i hi =>
    have : i = (n : Int) := by
      split at hi
      · next cs hcs => rw [hcs] at hd; exact absurd (hd '-' (by simp)) (by decide)
      · next cs hcs => rw [hcs] at hd; exact absurd (hd '+' (by simp)) (by decide)
      · rw [hv] at hi; simp at hi; exact hi.symm
    subst this
    rw [if_pos (by constructor <;> [omega; exact_mod_cast h])]
  · next hi =>
    exfalso
    split at hi
    · next cs hcs => rw [hcs] at hd; exact absurd (hd '-' (by simp)) (by decide)
    · next cs hcs => rw [hcs] at hd; exact absurd (hd '+' (by simp)) (by decide)
    · rw [hv] at hi; simp at hi

/-- **C63.** A mapping that the holder wrote for the `i`-th of several presentations is grouped by the
verifier with the `i`-th presentation, and is evaluated on the list of presentations. -/
theorem presentationIndex_of_merge (format : String) (i : Nat) (h : i < 2 ^ 63) (d : String)
    (nested : Option Mapping) :
    presentationIndex (.mk d (outPaths true format i).1 nested) = i ∧
    expectsVPList (.mk d (outPaths true format i).1 nested) = true := by
  have hl : (outPaths true format i).1.toList = '$' :: '[' :: ((toString i).toList ++ [']']) := by
    simp [outPaths]
  have hp : hasPrefix (outPaths true format i).1 "$[" = true := by
    unfold hasPrefix
    rw [hl]
    rfl
  have hr : rootIndex (outPaths true format i).1 = (i : Int) := by
    unfold rootIndex
    rw [hp]
    simp only [Bool.not_true, Bool.false_eq_true, if_false]
    have hno : (']' : Char) ∉ (toString i).toList := by
      intro hm
      exact absurd (digits_toString i _ hm) (by decide)
    have hs : split ']' (String.ofList ((outPaths true format i).1.toList.drop 2)) = [toString i, ""] := by
      rw [hl]
      simp only [List.drop_succ_cons, List.drop_zero]
      unfold split
      rw [String.toList_ofList, splitL_append _ _ _ hno]
      simp [splitL, Nat.repr_eq_ofList_toDigits]
    rw [hs]
    dsimp only
    have hne : toString i ≠ "" := by
      intro e
      have h1 : (toString i).toList = [] := by rw [e]; rfl
      rw [Nat.toString_eq_repr, Nat.toList_repr] at h1
      exact Nat.toDigits_ne_nil h1
    rw [if_neg hne, atoi_toString i h]
    rfl
  refine ⟨?_, ?_⟩
  · unfold presentationIndex
    rw [hr, if_pos (by omega)]
  · unfold expectsVPList
    rw [hp]
    simp

/-- **C63** for the path as a string: whatever mapping says `$[i]` is attributed to presentation `i`. -/
theorem presentationIndex_literal (i : Nat) (h : i < 2 ^ 63) (d : String) (nested : Option Mapping) :
    presentationIndex (.mk d ("$[" ++ toString i ++ "]") nested) = i :=
  (presentationIndex_of_merge "" i h d nested).1

/-- Without separate presentations the mapping belongs to the first presentation and is evaluated on
it. -/
theorem presentationIndex_single (format : String) (i : Nat) (d d' : String) :
    presentationIndex (.mk d (outPaths false format i).1 (some (.mk d' (outPaths false format i).2 none))) = 0 ∧
    expectsVPList (.mk d (outPaths false format i).1 (some (.mk d' (outPaths false format i).2 none))) =
      false := by
  have hp : hasPrefix (outPaths false format i).2 "$[" = false := by
    unfold hasPrefix outPaths
    by_cases hf : format = "jwt_vp" <;> simp [hf] <;> rfl
  have h1 : rootIndex "$" = -1 := by decide +kernel
  have h2 : rootIndex (outPaths false format i).2 = -1 := by
    unfold rootIndex; rw [hp]; rfl
  have h3 : (outPaths false format i).1 = "$" := rfl
  have h4 : hasPrefix "$" "$[" = false := by decide +kernel
  rw [h3]
  constructor
  · unfold presentationIndex
    rw [h1, if_neg (by simp), if_pos rfl]
    dsimp only
    unfold presentationIndex
    rw [h2]
    simp
  · unfold expectsVPList
    rw [h4]
    simp only [Bool.false_eq_true, if_false]
    unfold expectsVPList
    rw [hp]
    rfl

end VC.PE
