import Verif.Base.Str
/-!
# verifiable: data URLs (C44)

`NewDataURL` and `ParseDataURL`, verifiable/common.go:419-461.  Strings are handled as their list of
characters; `strings.Index` of a one-byte separator is `cut`.
-/

namespace VC.Vfy

/-- `strings.Index(s, c)` followed by the two slices `s[:i]` and `s[i+1:]`; `none` for index -1. -/
def cut (c : Char) : List Char → Option (List Char × List Char)
  | [] => none
  | x :: l => if x = c then some ([], l) else (cut c l).map (fun p => (x :: p.1, p.2))

/-- `NewDataURL`, common.go:422-428. -/
def newDataURL (mediaType encoding data : String) : String :=
  if encoding = "" then "data:" ++ mediaType ++ "," ++ data
  else "data:" ++ mediaType ++ ";" ++ encoding ++ "," ++ data

/-- `strings.HasPrefix` and the slice behind the prefix (common.go:434-438). -/
def stripPrefix : List Char → List Char → Option (List Char)
  | [], l => some l
  | p :: ps, x :: l => if p = x then stripPrefix ps l else none
  | _ :: _, [] => none

/-- `ParseDataURL`, common.go:433-461: media type, encoding, data. -/
def parseDataURL (url : String) : Option (String × String × String) :=
  match stripPrefix "data:".toList url.toList with
  | none => none
  | some rest =>
    match cut ',' rest with
    | none => none
    | some (full, data) =>
      if full = [] then none
      else
        match cut ';' full with
        | none => some (String.ofList full, "", String.ofList data)
        | some (m, e) => some (String.ofList m, String.ofList e, String.ofList data)

/-! ## Properties -/

theorem cut_iff (c : Char) (l a b : List Char) :
    cut c l = some (a, b) ↔ l = a ++ c :: b ∧ c ∉ a := by
  induction l generalizing a with
  | nil => simp [cut]
  | cons x l ih =>
    by_cases h : x = c
    · subst h
      simp only [cut, if_true, Option.some.injEq, Prod.mk.injEq]
      constructor
      · rintro ⟨rfl, rfl⟩; simp
      · rintro ⟨h1, h2⟩
        cases a with
        | nil => simp only [List.nil_append, List.cons.injEq, true_and] at h1; exact ⟨rfl, h1⟩
        | cons y a =>
          simp only [List.cons_append, List.cons.injEq] at h1
          exact absurd (by simp [h1.1]) h2
    · simp only [cut, h, if_false, Option.map_eq_some_iff, Prod.exists, Prod.mk.injEq]
      constructor
      · rintro ⟨a', b', hc, rfl, rfl⟩
        obtain ⟨e, hn⟩ := (ih a').mp hc
        exact ⟨by simp [e], by simp [hn, Ne.symm h]⟩
      · rintro ⟨h1, h2⟩
        cases a with
        | nil => simp only [List.nil_append, List.cons.injEq] at h1; exact absurd h1.1 h
        | cons y a =>
          simp only [List.cons_append, List.cons.injEq] at h1
          refine ⟨a, b, (ih a).mpr ⟨h1.2, fun hm => h2 (by simp [hm])⟩, by rw [h1.1], rfl⟩

theorem cut_none (c : Char) (l : List Char) : cut c l = none ↔ c ∉ l := by
  induction l with
  | nil => simp [cut]
  | cons x l ih =>
    by_cases h : x = c
    · simp [cut, h]
    · simp [cut, h, ih, Ne.symm h]

theorem stripPrefix_iff (p l r : List Char) : stripPrefix p l = some r ↔ l = p ++ r := by
  induction p generalizing l with
  | nil => simp [stripPrefix, eq_comm]
  | cons x p ih =>
    cases l with
    | nil => simp [stripPrefix]
    | cons y l =>
      by_cases h : x = y
      · subst h; simp [stripPrefix, ih]
      · simp [stripPrefix, h, Ne.symm h]

theorem ofList_toList_eq (s : String) (l : List Char) : String.ofList l = s ↔ l = s.toList := by
  constructor
  · rintro rfl; simp
  · rintro rfl; simp

/-- **C44.** What a parsed data URL says: the URL is `data:`, then the media type, then possibly `;`
and the encoding, then the first comma, then the data. -/
theorem parseDataURL_iff (url m e d : String) :
    parseDataURL url = some (m, e, d) ↔
      (url = "data:" ++ m ++ "," ++ d ∧ e = "" ∧ m ≠ "" ∧ ',' ∉ m.toList ∧ ';' ∉ m.toList) ∨
      (url = "data:" ++ m ++ ";" ++ e ++ "," ++ d ∧
        ',' ∉ m.toList ∧ ';' ∉ m.toList ∧ ',' ∉ e.toList) := by
  have key1 : url = "data:" ++ m ++ "," ++ d ↔
      url.toList = "data:".toList ++ (m.toList ++ ',' :: d.toList) := by
    rw [← String.toList_inj]
    simp [String.toList_append]
  have key2 : url = "data:" ++ m ++ ";" ++ e ++ "," ++ d ↔
      url.toList = "data:".toList ++ ((m.toList ++ ';' :: e.toList) ++ ',' :: d.toList) := by
    rw [← String.toList_inj]
    simp [String.toList_append]
  rw [key1, key2]
  unfold parseDataURL
  cases hs : stripPrefix "data:".toList url.toList with
  | none =>
    have hno : ∀ r, url.toList ≠ "data:".toList ++ r := by
      intro r hr
      rw [(stripPrefix_iff _ _ _).mpr hr] at hs
      cases hs
    simp only [reduceCtorEq, false_iff, not_or, not_and]
    exact ⟨fun h => absurd h (hno _), fun h => absurd h (hno _)⟩
  | some rest =>
    have hu := (stripPrefix_iff _ _ _).mp hs
    rw [hu]
    simp only [List.append_cancel_left_eq]
    cases hc : cut ',' rest with
    | none =>
      have := (cut_none _ _).mp hc
      simp only [reduceCtorEq, false_iff, not_or, not_and]
      refine ⟨fun h => absurd ?_ this, fun h => absurd ?_ this⟩ <;> simp [h]
    | some p =>
      obtain ⟨full, data⟩ := p
      obtain ⟨hrest, hnf⟩ := (cut_iff _ _ _ _).mp hc
      dsimp only
      -- the first comma determines the two parts
      have split1 : rest = m.toList ++ ',' :: d.toList ∧ ',' ∉ m.toList ↔
          full = m.toList ∧ data = d.toList ∧ ',' ∉ m.toList := by
        constructor
        · rintro ⟨h, hn⟩
          have := (cut_iff ',' rest m.toList d.toList).mpr ⟨h, hn⟩
          rw [hc] at this
          simp only [Option.some.injEq, Prod.mk.injEq] at this
          exact ⟨this.1, this.2, hn⟩
        · rintro ⟨rfl, rfl, hn⟩; exact ⟨hrest, hn⟩
      have split2 : rest = (m.toList ++ ';' :: e.toList) ++ ',' :: d.toList ∧
            ',' ∉ m.toList ++ ';' :: e.toList ↔
          full = m.toList ++ ';' :: e.toList ∧ data = d.toList ∧
            ',' ∉ m.toList ++ ';' :: e.toList := by
        constructor
        · rintro ⟨h, hn⟩
          have := (cut_iff ',' rest (m.toList ++ ';' :: e.toList) d.toList).mpr ⟨h, hn⟩
          rw [hc] at this
          simp only [Option.some.injEq, Prod.mk.injEq] at this
          exact ⟨this.1, this.2, hn⟩
        · rintro ⟨h1, rfl, hn⟩; exact ⟨h1 ▸ hrest, hn⟩
      have hmem2 : ',' ∉ m.toList ++ ';' :: e.toList ↔ ',' ∉ m.toList ∧ ',' ∉ e.toList := by
        simp
      by_cases hf : full = []
      · subst hf
        simp only [if_true, reduceCtorEq, false_iff, not_or, not_and]
        constructor
        · intro h1 _ hm hn
          have := (split1.mp ⟨h1, hn⟩).1
          exact absurd (String.toList_eq_nil_iff.mp this.symm) hm
        · intro h1 hn _ hne
          have := (split2.mp ⟨h1, hmem2.mpr ⟨hn, hne⟩⟩).1
          simp at this
      · simp only [hf, if_false]
        cases hq : cut ';' full with
        | none =>
          have hns := (cut_none _ _).mp hq
          simp only [Option.some.injEq, Prod.mk.injEq, ofList_toList_eq]
          constructor
          · rintro ⟨h1, rfl, h3⟩
            left
            refine ⟨?_, rfl, ?_, ?_, ?_⟩
            · rw [hrest, h1, h3]
            · intro hm; exact hf (by rw [h1, hm]; rfl)
            · rw [← h1]; exact hnf
            · rw [← h1]; exact hns
          · rintro (⟨h1, rfl, hm, hn, hsn⟩ | ⟨h1, hn, hsn, hne⟩)
            · obtain ⟨a, b, _⟩ := split1.mp ⟨h1, hn⟩
              exact ⟨a, rfl, b⟩
            · have := (split2.mp ⟨h1, hmem2.mpr ⟨hn, hne⟩⟩).1
              exact absurd (by rw [this]; simp) hns
        | some q =>
          obtain ⟨fm, fe⟩ := q
          obtain ⟨hfull, hnm⟩ := (cut_iff _ _ _ _).mp hq
          simp only [Option.some.injEq, Prod.mk.injEq, ofList_toList_eq]
          constructor
          · rintro ⟨h1, h2, h3⟩
            right
            refine ⟨?_, ?_, ?_, ?_⟩
            · rw [hrest, hfull, h1, h2, h3]
            · intro hm; apply hnf; rw [hfull, h1]; simp [hm]
            · rw [← h1]; exact hnm
            · intro hm; apply hnf; rw [hfull, h2]; simp [hm]
          · rintro (⟨h1, rfl, hm, hn, hsn⟩ | ⟨h1, hn, hsn, hne⟩)
            · obtain ⟨a, _, _⟩ := split1.mp ⟨h1, hn⟩
              exact absurd (by rw [← a, hfull]; simp) hsn
            · obtain ⟨a, b, _⟩ := split2.mp ⟨h1, hmem2.mpr ⟨hn, hne⟩⟩
              have := (cut_iff ';' full m.toList e.toList).mpr ⟨a, hsn⟩
              rw [hq] at this
              simp only [Option.some.injEq, Prod.mk.injEq] at this
              exact ⟨this.1, this.2, b⟩

/-- **C44.** `ParseDataURL` undoes `NewDataURL`. -/
theorem dataURL_roundtrip (m e d : String) (hne : m ≠ "" ∨ e ≠ "")
    (hm1 : ',' ∉ m.toList) (hm2 : ';' ∉ m.toList) (he : ',' ∉ e.toList) :
    parseDataURL (newDataURL m e d) = some (m, e, d) := by
  rw [parseDataURL_iff]
  by_cases h : e = ""
  · left
    refine ⟨?_, h, ?_, hm1, hm2⟩
    · simp [newDataURL, h]
    · rcases hne with h' | h'
      · exact h'
      · exact absurd h h'
  · right
    exact ⟨by simp [newDataURL, h], hm1, hm2, he⟩

example : newDataURL "application/vc-ld+jwt" "" "eyJ.a,b.c" =
    "data:application/vc-ld+jwt,eyJ.a,b.c" := by decide +kernel
example : parseDataURL "data:application/vc-ld+jwt,eyJ.a,b.c" =
    some ("application/vc-ld+jwt", "", "eyJ.a,b.c") := by decide +kernel
example : parseDataURL "data:text/plain;base64,QQ==" =
    some ("text/plain", "base64", "QQ==") := by decide +kernel

/-- **C44.** Whatever does not start with `data:` is rejected. -/
theorem dataURL_needs_prefix (url : String) (h : ∀ r : String, url ≠ "data:" ++ r) :
    parseDataURL url = none := by
  cases hp : parseDataURL url with
  | none => rfl
  | some p =>
    obtain ⟨m, e, d⟩ := p
    rcases (parseDataURL_iff _ _ _ _).mp hp with ⟨h1, _⟩ | ⟨h1, _⟩
    · exact absurd (by rw [h1]; simp only [String.append_assoc]) (h (m ++ ("," ++ d)))
    · exact absurd (by rw [h1]; simp only [String.append_assoc]) (h (m ++ (";" ++ (e ++ ("," ++ d)))))

/-- **C44.** Whatever has no comma is rejected. -/
theorem dataURL_needs_comma (url : String) (h : ',' ∉ url.toList) : parseDataURL url = none := by
  cases hp : parseDataURL url with
  | none => rfl
  | some p =>
    obtain ⟨m, e, d⟩ := p
    rcases (parseDataURL_iff _ _ _ _).mp hp with ⟨h1, _⟩ | ⟨h1, _⟩ <;>
      exact absurd (by rw [h1]; simp) h

example : parseDataURL "http://x,y" = none := by decide +kernel
example : parseDataURL "data:text/plain;base64" = none := by decide +kernel
example : parseDataURL "data:,x" = none := by decide +kernel

end VC.Vfy
