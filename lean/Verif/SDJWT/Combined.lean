import Verif.Base.Str
/-!
# Combined formats and the holder's presentation

Models `sdjwt/common/common.go` (combined formats) and `sdjwt/holder/holder.go`
(CreatePresentation).  Properties C05 and C06.
-/

namespace VC.SDJWT

/-- `CombinedFormatForIssuance`, common.go:77-81. -/
structure Issuance where
  sdJWT : String
  disclosures : List String
  deriving DecidableEq, Repr

/-- `CombinedFormatForPresentation`, common.go:93-102. -/
structure Presentation where
  sdJWT : String
  disclosures : List String
  holderVerification : String
  deriving DecidableEq, Repr

/-- The separator `CombinedFormatSeparator`, common.go:33. -/
def sep : Char := '~'

/-- The accumulating loop shared by both `Serialize` methods, common.go:85-88, 106-109. -/
def appendDisclosures : String → List String → String
  | acc, [] => acc
  | acc, d :: ds => appendDisclosures (acc ++ String.singleton sep ++ d) ds

/-- `CombinedFormatForIssuance.Serialize`, common.go:84-91. -/
def Issuance.serialize (cf : Issuance) : String := appendDisclosures cf.sdJWT cf.disclosures

/-- `CombinedFormatForPresentation.Serialize`, common.go:105-118. -/
def Presentation.serialize (cf : Presentation) : String :=
  let p := appendDisclosures cf.sdJWT cf.disclosures
  let p := if cf.disclosures.length > 0 ∨ cf.holderVerification ≠ "" then
    p ++ String.singleton sep else p
  p ++ cf.holderVerification

/-- `ParseCombinedFormatForIssuance`, common.go:151-162 (`strings.Split` never returns an empty
slice, so `parts[0]` is safe). -/
def parseIssuance (s : String) : Issuance :=
  let parts := split sep s
  ⟨parts.headD "", if parts.length > 1 then parts.drop 1 else []⟩

/-- `ParseCombinedFormatForPresentation`, common.go:165-181. -/
def parsePresentation (s : String) : Presentation :=
  let parts := split sep s
  ⟨parts.headD "",
   if parts.length > 2 then (parts.take (parts.length - 1)).drop 1 else [],
   if parts.length > 1 then parts.getLastD "" else ""⟩

/-- Outcome of creating a presentation. -/
inductive PresErr where
  | noDisclosures   -- holder.go:263-265
  | notFound        -- holder.go:269-273
  | holderJWT       -- holder.go:279-283
  deriving DecidableEq, Repr

/-- `CreatePresentation`, holder.go:254-293. `hb`: no binding info (`none`), or the result of
signing the binding JWT. -/
def createPresentation (cfi : String) (chosen : List String) (hb : Option (Except Unit String)) :
    Except PresErr String :=
  let p := parseIssuance cfi
  if p.disclosures.length = 0 then .error .noDisclosures
  else if chosen.any (fun d => !p.disclosures.contains d) then .error .notFound
  else match hb with
    | none => .ok (Presentation.serialize ⟨p.sdJWT, chosen, ""⟩)
    | some (.error _) => .error .holderJWT
    | some (.ok t) => .ok (Presentation.serialize ⟨p.sdJWT, chosen, t⟩)

/-! ## Theorems -/

theorem appendDisclosures_eq : ∀ (ds : List String) (acc : String),
    appendDisclosures acc ds = joinC sep (acc :: ds) := by
  intro ds
  induction ds with
  | nil => intro acc; rfl
  | cons d ds ih =>
    intro acc
    rw [appendDisclosures, ih]
    cases ds with
    | nil => simp [joinC]
    | cons e ds => simp only [joinC, String.append_assoc]

theorem joinC_snoc (c : Char) (t : String) : ∀ (l : List String), l ≠ [] →
    joinC c l ++ String.singleton c ++ t = joinC c (l ++ [t]) := by
  intro l
  induction l with
  | nil => intro h; exact absurd rfl h
  | cons s l ih =>
    intro _
    cases l with
    | nil => simp [joinC]
    | cons u l =>
      have := ih (by simp)
      rw [joinC]
      simp only [List.cons_append, joinC]
      rw [← List.cons_append, ← this]
      simp only [String.append_assoc]

/-- C05: an issued combined format is recovered by parsing, for every part without '~'. -/
theorem issuance_round_trip (cf : Issuance) (hj : NoChar '~' cf.sdJWT)
    (hd : ∀ d ∈ cf.disclosures, NoChar '~' d) : parseIssuance cf.serialize = cf := by
  obtain ⟨j, ds⟩ := cf
  unfold parseIssuance Issuance.serialize
  simp only [appendDisclosures_eq]
  rw [split_joinC sep (j :: ds) (by simp)
    (by
      intro s hs
      rcases List.mem_cons.mp hs with e | e
      · exact e ▸ hj
      · exact hd s e)]
  cases ds <;> simp

example : NoChar '~' "eyJ.e30.c2ln" ∧ ∀ d ∈ ["WyJz", ""], NoChar '~' d := by decide +kernel

/-- C05: a presentation is recovered by parsing (with or without disclosures, with or without a
holder verification JWT), for every part without '~'. -/
theorem presentation_round_trip (cf : Presentation) (hj : NoChar '~' cf.sdJWT)
    (hd : ∀ d ∈ cf.disclosures, NoChar '~' d) (hh : NoChar '~' cf.holderVerification) :
    parsePresentation cf.serialize = cf := by
  obtain ⟨j, ds, hv⟩ := cf
  simp only at hj hd hh
  by_cases hc : ds.length > 0 ∨ hv ≠ ""
  · have hs : Presentation.serialize ⟨j, ds, hv⟩ = joinC sep (j :: ds ++ [hv]) := by
      unfold Presentation.serialize
      simp only [hc, if_true, appendDisclosures_eq]
      rw [joinC_snoc sep hv _ (by simp)]
    have hall : ∀ s ∈ j :: ds ++ [hv], NoChar sep s := by
      intro s hs
      simp only [List.cons_append, List.mem_cons, List.mem_append, List.not_mem_nil, or_false] at hs
      rcases hs with e | e | e
      · exact e ▸ hj
      · exact hd s e
      · exact e ▸ hh
    unfold parsePresentation
    rw [hs, split_joinC sep _ (by simp) hall]
    cases ds with
    | nil => simp
    | cons d ds =>
      have h1 : (j :: (d :: ds) ++ [hv]).getLastD "" = hv := by
        rw [List.getLastD_eq_getLast?, List.getLast?_append]; simp
      simp only [h1]
      simp
  · simp only [not_or, Nat.not_lt, Nat.le_zero_eq, List.length_eq_zero_iff, ne_eq,
      Decidable.not_not] at hc
    obtain ⟨rfl, rfl⟩ := hc
    simp [parsePresentation, Presentation.serialize, appendDisclosures, split_none sep j hj]

/-- A string that was parsed serializes back to itself: parsing loses nothing. -/
theorem issuance_serialize_parse (s : String) : (parseIssuance s).serialize = s := by
  have hne := split_ne_nil sep s
  have hj := joinC_split sep s
  unfold parseIssuance Issuance.serialize
  simp only [appendDisclosures_eq]
  revert hne hj
  cases split sep s with
  | nil => intro h; exact absurd rfl h
  | cons p ps =>
    intro _ hj
    cases ps <;> simpa using hj

example : Presentation.serialize ⟨"j", [], "kb"⟩ = "j~kb" ∧
    Presentation.serialize ⟨"j", ["a", "b"], ""⟩ = "j~a~b~" ∧
    parsePresentation "j~a~b~" = ⟨"j", ["a", "b"], ""⟩ := by decide +kernel

theorem parseIssuance_noChar (s : String) : NoChar '~' (parseIssuance s).sdJWT ∧
    ∀ d ∈ (parseIssuance s).disclosures, NoChar '~' d := by
  have h := split_noChar sep s
  have hne := split_ne_nil sep s
  unfold parseIssuance
  revert h hne
  cases split sep s with
  | nil => intro _ h; exact absurd rfl h
  | cons p ps =>
    intro h _
    refine ⟨h p (by simp), ?_⟩
    intro d hd
    apply h d
    simp only at hd
    split at hd
    · exact List.mem_of_mem_drop hd
    · simp at hd

/-- The strings between the separators: everything a presentation transmits. -/
def transmitted (s : String) : List String := split '~' s

/-- The binding JWT that was made, empty if none was requested. -/
def hbString : Option (Except Unit String) → String
  | some (.ok t) => t
  | _ => ""

/-- C06: CreatePresentation succeeds exactly when the issued format has disclosures, every chosen
disclosure was issued, and the binding JWT (if any) could be made; and then the result parses as
the issuer-signed JWT, exactly the chosen disclosures and the binding JWT. -/
theorem holder_discloses_exactly (cfi : String) (chosen : List String)
    (hb : Option (Except Unit String)) (hhb : ∀ t, hb = some (.ok t) → NoChar '~' t) :
    (∀ out, createPresentation cfi chosen hb = .ok out →
      parsePresentation out = ⟨(parseIssuance cfi).sdJWT, chosen, hbString hb⟩) ∧
    ((∃ out, createPresentation cfi chosen hb = .ok out) ↔
      (parseIssuance cfi).disclosures ≠ [] ∧ (∀ d ∈ chosen, d ∈ (parseIssuance cfi).disclosures) ∧
        hb ≠ some (.error ())) := by
  have hnc := parseIssuance_noChar cfi
  have key : ∀ t, NoChar '~' t → (∀ d ∈ chosen, d ∈ (parseIssuance cfi).disclosures) →
      parsePresentation (Presentation.serialize ⟨(parseIssuance cfi).sdJWT, chosen, t⟩) =
        ⟨(parseIssuance cfi).sdJWT, chosen, t⟩ := fun t ht hc =>
    presentation_round_trip _ hnc.1 (fun d hd => hnc.2 d (hc d hd)) ht
  unfold createPresentation
  simp only
  by_cases h0 : (parseIssuance cfi).disclosures.length = 0
  · have : (parseIssuance cfi).disclosures = [] := List.length_eq_zero_iff.mp h0
    simp [this]
  have h0' : (parseIssuance cfi).disclosures ≠ [] := fun e => h0 (by simp [e])
  by_cases h1 : chosen.any (fun d => !(parseIssuance cfi).disclosures.contains d) = true
  · rw [if_neg h0, if_pos h1]
    simp only [List.any_eq_true, Bool.not_eq_eq_eq_not, Bool.not_true] at h1
    obtain ⟨d, hd, hnd⟩ := h1
    have : ¬ ∀ d ∈ chosen, d ∈ (parseIssuance cfi).disclosures := by
      intro h; have := h d hd; simp_all
    simp [this]
  · have hc : ∀ d ∈ chosen, d ∈ (parseIssuance cfi).disclosures := by
      intro d hd
      apply Classical.byContradiction
      intro hnd
      apply h1
      rw [List.any_eq_true]
      exact ⟨d, hd, by simpa using hnd⟩
    rw [if_neg h0, if_neg h1]
    match hb, hhb with
    | none, _ =>
      refine ⟨fun out ho => ?_, ?_⟩
      · cases ho; exact key "" (by simp [NoChar]) hc
      · simp [h0']; exact hc
    | some (.error _), _ => simp
    | some (.ok t), hhb =>
      refine ⟨fun out ho => ?_, ?_⟩
      · cases ho; exact key t (hhb t rfl) hc
      · simp [h0']; exact hc

/-- C06 (privacy): nothing leaves the holder but the issuer-signed JWT, the chosen disclosures and
the binding JWT; in particular no other issued disclosure. -/
theorem holder_leaks_nothing (cfi : String) (chosen : List String)
    (hb : Option (Except Unit String)) (hhb : ∀ t, hb = some (.ok t) → NoChar '~' t)
    (out : String) (h : createPresentation cfi chosen hb = .ok out) :
    ∀ p ∈ transmitted out, p = (parseIssuance cfi).sdJWT ∨ p ∈ chosen ∨ p = "" ∨
      hb = some (.ok p) := by
  have hp := (holder_discloses_exactly cfi chosen hb hhb).1 out h
  intro p hmem
  have hne := split_ne_nil sep out
  unfold transmitted at hmem
  unfold parsePresentation at hp
  change p ∈ split sep out at hmem
  revert hp hne hmem
  cases split sep out with
  | nil => intro _ h; exact absurd rfl h
  | cons x xs =>
    intro hp _ hmem
    simp only [Presentation.mk.injEq] at hp
    obtain ⟨h1, h2, h3⟩ := hp
    rcases List.mem_cons.mp hmem with e | e
    · left; rw [e]; exact h1
    · right
      rcases List.eq_nil_or_concat xs with rfl | ⟨ys, y, rfl⟩
      · cases e
      · simp at h2 h3
        simp only [List.concat_eq_append, List.mem_append, List.mem_singleton] at e
        rcases e with e | e
        · left
          have hlen : 1 < ys.length + 1 := by
            cases ys with
            | nil => cases e
            | cons _ _ => simp
          rw [if_pos (by omega)] at h2
          have : List.drop 1 (List.take (ys.length + 1) (x :: (ys ++ [y]))) = ys := by simp
          rw [← h2]
          simpa using e
        · subst e
          right
          have h4 : p = hbString hb := by
            rw [← h3, ← List.cons_append, List.getLast?_append]; simp
          match hb with
          | none => left; exact h4
          | some (.error _) => left; exact h4
          | some (.ok t) => right; rw [h4]; rfl

example : createPresentation "j~a~b~c" ["b"] (some (.ok "kb")) = .ok "j~b~kb" ∧
    createPresentation "j~a" ["x"] none = .error .notFound := by constructor <;> rfl

end VC.SDJWT
