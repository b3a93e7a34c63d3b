import Verif.Presexch.Constraints
import Mathlib.Tactic.Push
/-!
# Constraint, format and schema matching: C25, C60, C61
-/

namespace VC.PE

/-! ## Specification -/

/-- The schema that a filter stands for: itself, except that a minimum date becomes a minimum
timestamp. -/
inductive Adapted (E : PEnv) (fl : Filter) : Filter → Prop
  | date {v t} : fl.typ = some "string" → fl.format = "date-time" → fl.minimum = some (.str v) → v ≠ "" →
      E.rfc3339 v = some t → Adapted E fl ⟨some "number", "", some (.num t), fl.allOf, fl.rest⟩
  | same : ¬ (fl.typ = some "string" ∧ fl.format = "date-time" ∧ ∃ v t, fl.minimum = some (.str v) ∧
      v ≠ "" ∧ E.rfc3339 v = some t) → Adapted E fl fl

/-- The schemas of a filter: the members of `allOf`, or the filter itself if there are none. -/
def SchemaOf (E : PEnv) (fl : Filter) (s : Sch) : Prop :=
  (∃ j ∈ fl.allOf, s = .sub j) ∨ (fl.allOf = [] ∧ ∃ fl', Adapted E fl fl' ∧ s = .main fl')

/-- A field about one of the four dates of a credential. -/
def DateField (f : Field) : Prop :=
  ∃ p ∈ f.path, contains p ".expirationDate" = true ∨ contains p ".issuanceDate" = true ∨
    contains p ".validFrom" = true ∨ contains p ".validUntil" = true

/-- The value that is compared: a date of a JWT credential is turned into a timestamp. -/
inductive Compared (E : PEnv) (f : Field) (isJWT : Bool) (v : Json) : Json → Prop
  | date {s t} : isJWT = true → DateField f → v = .str s → E.rfc3339 s = some t →
      Compared E f isJWT v (.num t)
  | same : ¬ (isJWT = true ∧ DateField f ∧ ∃ s t, v = .str s ∧ E.rfc3339 s = some t) →
      Compared E f isJWT v v

/-- What a field sees when its path reads the values `vs`: the value, or the array of several. -/
def Found (vs : List Json) (v : Json) : Prop := vs = [v] ∨ (2 ≤ vs.length ∧ v = .arr vs)

/-- The value found passes the filter of the field (all members of `allOf` if it has any, else the
filter itself); no filter accepts everything. -/
def ValueOk (E : PEnv) (f : Field) (isJWT : Bool) (v : Json) : Prop :=
  ∀ fl, f.filter = some fl → ∀ s, SchemaOf E fl s → ∀ v', Compared E f isJWT v v' → E.valid s v' = true

/-- The path is a JSON path of the credential: it starts like one and parses. -/
def Reads (E : PEnv) (isJWT : Bool) (cred : JObj) (path : String) (vs : List Json) : Prop :=
  let p := rewritePath E.order isJWT cred path
  (hasPrefix p "$" = true ∨ hasPrefix "@" p = true) ∧ ∃ q, parsePath E p = some q ∧ E.select q cred = vs

/-- The path satisfies the field: it reads values that pass the filter, or it reads nothing and the
field is optional. -/
def PathOk (E : PEnv) (isJWT : Bool) (cred : JObj) (f : Field) (path : String) : Prop :=
  ∃ vs, Reads E isJWT cred path vs ∧
    ((vs = [] ∧ f.optional = true) ∨ ∃ v, Found vs v ∧ ValueOk E f isJWT v)

/-- The path is not a JSON path. -/
def PathBad (E : PEnv) (isJWT : Bool) (cred : JObj) (path : String) : Prop :=
  ¬ ∃ vs, Reads E isJWT cred path vs

/-- A field is satisfied by one of its paths (a field without paths asks nothing). -/
def FieldOk (E : PEnv) (isJWT : Bool) (cred : JObj) (f : Field) : Prop :=
  f.path = [] ∨ ∃ p ∈ f.path, PathOk E isJWT cred f p

/-- A credential meets the constraints. -/
def ConstraintsOk (E : PEnv) (k : Constraints) (c : Cred) : Prop :=
  (k.subjectIsIssuerReq = true → ∃ i, c.issuer = some i ∧ i ≠ "" ∧ i ∈ c.subjects) ∧
  k.fields ≠ [] ∧ ∃ m, c.display = some m ∧ ∀ f ∈ k.fields, FieldOk E c.isJWT m f

/-- Every filter names a type. -/
def Typed (k : Constraints) : Prop := ∀ f ∈ k.fields, ∀ fl, f.filter = some fl → fl.typ ≠ none

/-! ## Proofs -/

theorem subjectIsIssuer_iff (c : Cred) :
    subjectIsIssuer c = true ↔ ∃ i, c.issuer = some i ∧ i ≠ "" ∧ i ∈ c.subjects := by
  unfold subjectIsIssuer
  cases c.issuer with
  | none => simp
  | some i =>
    simp only [List.any_eq_true, Bool.and_eq_true, decide_eq_true_eq, beq_iff_eq, Option.some.injEq,
      exists_eq_left']
    constructor
    · rintro ⟨s, h1, h2, rfl⟩; exact ⟨h2, h1⟩
    · rintro ⟨h1, h2⟩; exact ⟨i, h2, h1, rfl⟩

theorem mem_schemasOf (E : PEnv) (fl : Filter) (s : Sch) : s ∈ schemasOf E fl ↔ SchemaOf E fl s := by
  have had : ∀ fl', Adapted E fl fl' ↔ fl' = adaptFilter E fl := by
    intro fl'
    unfold adaptFilter
    by_cases h : fl.typ = some "string" ∧ fl.format = "date-time"
    · rw [if_pos h]
      split
      · next v hm =>
        by_cases hv : v = ""
        · rw [if_neg (by simpa using hv)]
          constructor
          · rintro (⟨_, _, h3, h4, _⟩ | _)
            · rw [hm] at h3; cases h3; exact absurd hv h4
            · rfl
          · rintro rfl
            refine .same ?_
            rintro ⟨_, _, v', t, h3, h4, _⟩
            rw [hm] at h3; cases h3; exact h4 hv
        · rw [if_pos hv]
          cases ht : E.rfc3339 v with
          | none =>
            dsimp only
            constructor
            · rintro (⟨_, _, h3, _, h5⟩ | _)
              · rw [hm] at h3; cases h3; rw [ht] at h5; cases h5
              · rfl
            · rintro rfl
              refine .same ?_
              rintro ⟨_, _, v', t, h3, _, h5⟩
              rw [hm] at h3; cases h3; rw [ht] at h5; cases h5
          | some t =>
            dsimp only
            constructor
            · rintro (⟨_, _, h3, _, h5⟩ | hn)
              · rw [hm] at h3; cases h3; rw [ht] at h5; cases h5; rfl
              · exact absurd ⟨h.1, h.2, v, t, hm, hv, ht⟩ hn
            · rintro rfl
              exact .date h.1 h.2 hm hv ht
      · next hm =>
        constructor
        · rintro (⟨_, _, h3, _, _⟩ | _)
          · exact absurd h3 (hm _)
          · rfl
        · rintro rfl
          refine .same ?_
          rintro ⟨_, _, v', t, h3, _, _⟩
          exact hm _ h3
    · rw [if_neg h]
      constructor
      · rintro (⟨h1, h2, _, _, _⟩ | _)
        · exact absurd ⟨h1, h2⟩ h
        · rfl
      · rintro rfl
        exact .same (fun hh => h ⟨hh.1, hh.2.1⟩)
  unfold schemasOf SchemaOf
  simp only [had, exists_eq_left]
  cases ha : fl.allOf with
  | nil => simp
  | cons j js => simp [eq_comm]

theorem isDateField_iff (f : Field) : isDateField f.path = true ↔ DateField f := by
  simp [isDateField, DateField]

theorem compared_iff (E : PEnv) (f : Field) (isJWT : Bool) (v v' : Json) :
    Compared E f isJWT v v' ↔ v' = dateValue E isJWT f v := by
  unfold dateValue
  by_cases h : (isJWT && isDateField f.path) = true
  · rw [if_pos h]
    simp only [Bool.and_eq_true, isDateField_iff] at h
    split
    · next s =>
      cases ht : E.rfc3339 s with
      | none =>
        dsimp only
        constructor
        · rintro (⟨_, _, h3, h4⟩ | _)
          · cases h3; rw [ht] at h4; cases h4
          · rfl
        · rintro rfl
          refine .same ?_
          rintro ⟨_, _, s', t, h3, h4⟩
          cases h3; rw [ht] at h4; cases h4
      | some t =>
        dsimp only
        constructor
        · rintro (⟨_, _, h3, h4⟩ | hn)
          · cases h3; rw [ht] at h4; cases h4; rfl
          · exact absurd ⟨h.1, h.2, s, t, rfl, ht⟩ hn
        · rintro rfl
          exact .date h.1 h.2 rfl ht
    · next hs =>
      constructor
      · rintro (⟨_, _, h3, _⟩ | _)
        · exact absurd h3 (hs _)
        · rfl
      · rintro rfl
        refine .same ?_
        rintro ⟨_, _, s', t, h3, _⟩
        exact hs _ h3
  · rw [if_neg h]
    simp only [Bool.and_eq_true, isDateField_iff] at h
    constructor
    · rintro (⟨h1, h2, _, _⟩ | _)
      · exact absurd ⟨h1, h2⟩ h
      · rfl
    · rintro rfl
      exact .same (fun hh => h ⟨hh.1, hh.2.1⟩)

theorem found_iff (vs : List Json) (v : Json) : Found vs v ↔ vs ≠ [] ∧ v = packValues vs := by
  unfold Found
  match vs with
  | [] => simp
  | [x] => simp [packValues, eq_comm]
  | x :: y :: zs => simp [packValues]

/-- Paths of credentials that are not JWTs are used as they are. -/
theorem rewrite_not_jwt (order : List (String × String)) (cred : JObj) (path : String) :
    rewritePath order false cred path = path := rfl

/-- For a JWT credential whose issuer is an object with an `id`, `$.issuer` reads this `id`; a path
below `$.vc` reads the credential itself. -/
theorem rewrite_jwt (cred : JObj) (o : List (String × Json)) (ho : JObj.at cred "issuer" = .obj o)
    (hid : (GoMap.get? o "id").isSome = true) :
    rewritePath replacements true cred "$.issuer" = "$.issuer.id" ∧
    rewritePath replacements true cred "$.vc.issuer" = "$.issuer.id" ∧
    rewritePath replacements true cred "$.vc.credentialSubject.id" = "$.credentialSubject.id" ∧
    rewritePath replacements true cred "$['vc'].type" = "$.type" ∧
    rewritePath replacements true cred "$.vc['type']" = "$['type']" ∧
    rewritePath replacements true cred "$.issuer.id" = "$.issuer.id" := by
  have h : ∀ p q : String, replacements.foldl (fun p r => replaceOnce p r.1 r.2) p = q →
      rewritePath replacements true cred p = if isIssuerPath q then "$.issuer.id" else q := by
    intro p q e
    unfold rewritePath
    simp only [e, ho, hid, if_true]
  have e1 : replacements.foldl (fun p r => replaceOnce p r.1 r.2) "$.issuer" = "$.issuer" := by
    decide +kernel
  have e2 : replacements.foldl (fun p r => replaceOnce p r.1 r.2) "$.vc.issuer" = "$.issuer" := by
    decide +kernel
  have e3 : replacements.foldl (fun p r => replaceOnce p r.1 r.2) "$.vc.credentialSubject.id" =
      "$.credentialSubject.id" := by decide +kernel
  have e4 : replacements.foldl (fun p r => replaceOnce p r.1 r.2) "$['vc'].type" = "$.type" := by
    decide +kernel
  have e5 : replacements.foldl (fun p r => replaceOnce p r.1 r.2) "$.vc['type']" = "$['type']" := by
    decide +kernel
  have e6 : replacements.foldl (fun p r => replaceOnce p r.1 r.2) "$.issuer.id" = "$.issuer.id" := by
    decide +kernel
  refine ⟨?_, ?_, ?_, ?_, ?_, ?_⟩
  · rw [h _ _ e1, if_pos (by decide +kernel)]
  · rw [h _ _ e2, if_pos (by decide +kernel)]
  · rw [h _ _ e3, if_neg (by decide +kernel)]
  · rw [h _ _ e4, if_neg (by decide +kernel)]
  · rw [h _ _ e5, if_neg (by decide +kernel)]
  · rw [h _ _ e6, if_neg (by decide +kernel)]

open Classical in
theorem validatePath_iff (E : PEnv) (f : Field) (isJWT : Bool) (v : Json) :
    validatePath E f isJWT v = if ValueOk E f isJWT v then .ok else .na := by
  unfold validatePath ValueOk
  simp only [← mem_schemasOf, compared_iff, forall_eq]
  cases f.filter with
  | none => simp
  | some fl => simp

theorem checkPathValue_spec (E : PEnv) (isJWT : Bool) (cred : JObj) (f : Field) (path : String) :
    (checkPathValue E isJWT cred f path = .ok ↔ PathOk E isJWT cred f path) ∧
    (checkPathValue E isJWT cred f path = .hard ↔ PathBad E isJWT cred path) ∧
    checkPathValue E isJWT cred f path ≠ .panic := by
  classical
  unfold checkPathValue PathOk PathBad Reads
  simp only [found_iff]
  generalize rewritePath E.order isJWT cred path = p
  by_cases hp : (!hasPrefix p "$" && !hasPrefix "@" p) = true
  · rw [if_pos hp]
    simp only [Bool.and_eq_true, Bool.not_eq_true'] at hp
    simp [hp.1, hp.2]
  · rw [if_neg hp]
    have hp' : hasPrefix p "$" = true ∨ hasPrefix "@" p = true := by
      revert hp
      cases hasPrefix p "$" <;> cases hasPrefix "@" p <;> simp
    cases hq : parsePath E p with
    | none => simp
    | some q =>
      dsimp only
      by_cases hs : E.select q cred = []
      · simp only [hs, List.isEmpty_nil, if_true]
        cases f.optional <;> simp [hp', hs]
      · rw [if_neg (by simpa using hs), validatePath_iff]
        by_cases hv : ValueOk E f isJWT (packValues (E.select q cred))
        · simp [hv, hp', hs]
        · simp [hv, hp', hs]

theorem fieldLoop_spec (check : String → FRes) (hnp : ∀ p, check p ≠ .panic) :
    ∀ (ps : List String) (last : FRes), last ≠ .panic →
    (fieldLoop check ps last = .ok ↔ (∃ p ∈ ps, check p = .ok) ∨ (ps = [] ∧ last = .ok)) ∧
    (fieldLoop check ps last = .hard ↔ (∀ p ∈ ps, check p = .hard) ∧ (last = .hard ∨ (ps ≠ [] ∧ last = .ok))) ∧
    fieldLoop check ps last ≠ .panic
  | [], last, hl => by simp [fieldLoop, hl]
  | p :: ps, last, hl => by
    simp only [fieldLoop]
    cases hc : check p with
    | ok => simp [hc]
    | panic => exact absurd hc (hnp p)
    | na =>
      obtain ⟨h1, h2, h3⟩ := fieldLoop_spec check hnp ps .na (by simp)
      dsimp only
      refine ⟨?_, ?_, h3⟩
      · rw [h1]; simp [hc]
      · rw [h2]; simp [hc]
    | hard =>
      obtain ⟨h1, h2, h3⟩ := fieldLoop_spec check hnp ps (if last = .na then .na else .hard)
        (by split <;> simp)
      dsimp only
      refine ⟨?_, ?_, h3⟩
      · rw [h1]
        have : ¬ ((if last = FRes.na then FRes.na else FRes.hard) = FRes.ok) := by split <;> simp
        simp [hc, this]
      · rw [h2]
        cases last <;> simp_all

theorem filterField_spec (E : PEnv) (isJWT : Bool) (cred : JObj) (f : Field)
    (ht : ∀ fl, f.filter = some fl → fl.typ ≠ none) :
    (filterField E isJWT cred f = .ok ↔ FieldOk E isJWT cred f) ∧
    (filterField E isJWT cred f = .hard ↔ f.path ≠ [] ∧ ∀ p ∈ f.path, PathBad E isJWT cred p) ∧
    filterField E isJWT cred f ≠ .panic := by
  have hs := fun p => checkPathValue_spec E isJWT cred f p
  have e : filterField E isJWT cred f = fieldLoop (checkPathValue E isJWT cred f) f.path .ok := by
    unfold filterField
    split
    · next heq => exact absurd rfl (ht _ heq)
    · rfl
  rw [e]
  obtain ⟨h1, h2, h3⟩ := fieldLoop_spec (checkPathValue E isJWT cred f) (fun p => (hs p).2.2) f.path .ok
    (by simp)
  refine ⟨?_, ?_, h3⟩
  · rw [h1]
    unfold FieldOk
    simp only [(fun p => (hs p).1 : ∀ p, _), and_true]
    exact or_comm
  · rw [h2]
    simp only [(fun p => (hs p).2.1 : ∀ p, _), reduceCtorEq, false_or, and_true]
    exact and_comm

theorem fieldsLoop_spec (check : Field → FRes) : ∀ (fs : List Field) (a : Bool),
    (∀ f ∈ fs, check f ≠ .panic) →
    (∃ b, fieldsLoop check fs a = .ok b ∧
      (b = true ↔ (fs ≠ [] ∨ a = true) ∧ ∀ f ∈ fs, check f = .ok)) ∨
    (fieldsLoop check fs a = .error ∧ ∃ f ∈ fs, check f = .hard)
  | [], a, _ => Or.inl ⟨a, rfl, by simp⟩
  | f :: fs, a, h => by
    simp only [fieldsLoop]
    cases hc : check f with
    | na => exact Or.inl ⟨false, rfl, by simp [hc]⟩
    | hard => exact Or.inr ⟨rfl, f, by simp, hc⟩
    | panic => exact absurd hc (h f (by simp))
    | ok =>
      rcases fieldsLoop_spec check fs true (fun x hx => h x (List.mem_cons_of_mem _ hx)) with
        ⟨b, h1, h2⟩ | ⟨h1, x, hx, h2⟩
      · refine Or.inl ⟨b, h1, ?_⟩
        rw [h2]; simp [hc]
      · exact Or.inr ⟨h1, x, List.mem_cons_of_mem _ hx, h2⟩

/-- The fields whose paths are all malformed, for a credential. -/
def Malformed (E : PEnv) (k : Constraints) (c : Cred) : Prop :=
  ∃ m, c.display = some m ∧ ∃ f ∈ k.fields, f.path ≠ [] ∧ ∀ p ∈ f.path, PathBad E c.isJWT m p

theorem constraintsOne_spec (E : PEnv) {k : Constraints} (ht : Typed k) (c : Cred) :
    (∃ b, constraintsOne E k c = .ok b ∧ (b = true ↔ ConstraintsOk E k c)) ∨
    (constraintsOne E k c = .error ∧ Malformed E k c) := by
  unfold constraintsOne ConstraintsOk
  rw [← subjectIsIssuer_iff]
  by_cases hs : (k.subjectIsIssuerReq && !subjectIsIssuer c) = true
  · rw [if_pos hs]
    simp only [Bool.and_eq_true, Bool.not_eq_true'] at hs
    exact Or.inl ⟨false, rfl, by simp [hs.1, hs.2]⟩
  · rw [if_neg hs]
    have hs' : k.subjectIsIssuerReq = true → subjectIsIssuer c = true := by
      intro h
      rw [h] at hs
      simpa using hs
    cases hd : c.display with
    | none => exact Or.inl ⟨false, rfl, by simp⟩
    | some m =>
      dsimp only
      have hf := fun f hf => filterField_spec E c.isJWT m f (ht f hf)
      rcases fieldsLoop_spec (filterField E c.isJWT m) k.fields false (fun f h => (hf f h).2.2) with
        ⟨b, h1, h2⟩ | ⟨h1, f, hfm, h2⟩
      · refine Or.inl ⟨b, h1, ?_⟩
        rw [h2]
        simp only [Bool.false_eq_true, or_false, Option.some.injEq, exists_eq_left']
        constructor
        · rintro ⟨h3, h4⟩; exact ⟨hs', h3, fun f hfm => (hf f hfm).1.mp (h4 f hfm)⟩
        · rintro ⟨_, h3, h4⟩; exact ⟨h3, fun f hfm => (hf f hfm).1.mpr (h4 f hfm)⟩
      · obtain ⟨h3, h4⟩ := (hf f hfm).2.1.mp h2
        exact Or.inr ⟨h1, m, hd, f, hfm, h3, h4⟩

/-- **C25.** With constraints, exactly the credentials that meet them pass, in order; an error means
that some credential meets a field all of whose paths are malformed.  (`Typed`: a filter without a
type is a nil dereference, `untyped_filter_panics`.) -/
theorem filterConstraints_exact (E : PEnv) {k : Constraints} (ht : Typed k) (cs : List Cred) :
    (∃ r, filterConstraints E (some k) cs = .ok r ∧ r.Sublist cs ∧
      ∀ c, c ∈ r ↔ c ∈ cs ∧ ConstraintsOk E k c) ∨
    (filterConstraints E (some k) cs = .error ∧ ∃ c ∈ cs, Malformed E k c) := by
  simp only [filterConstraints]
  induction cs with
  | nil => exact Or.inl ⟨[], rfl, by simp, by simp⟩
  | cons c cs ih =>
    simp only [filterLoop]
    rcases constraintsOne_spec E ht c with ⟨b, h1, h2⟩ | ⟨h1, h2⟩
    · rw [h1]
      dsimp only
      rcases ih with ⟨r, i1, i2, i3⟩ | ⟨i1, x, hx, i2⟩
      · rw [i1]
        refine Or.inl ⟨_, rfl, ?_, ?_⟩
        · cases b
          · exact i2.cons _
          · exact i2.cons_cons _
        · intro x
          cases b
          · have hn : ¬ ConstraintsOk E k c := fun h => by cases h2.mpr h
            simp only [Bool.false_eq_true, if_false, i3, List.mem_cons]
            constructor
            · rintro ⟨a, b⟩; exact ⟨Or.inr a, b⟩
            · rintro ⟨rfl | a, b⟩
              · exact absurd b hn
              · exact ⟨a, b⟩
          · have hn := h2.mp rfl
            simp only [if_true, List.mem_cons, i3]
            constructor
            · rintro (rfl | ⟨a, b⟩)
              · exact ⟨Or.inl rfl, hn⟩
              · exact ⟨Or.inr a, b⟩
            · rintro ⟨rfl | a, b⟩
              · exact Or.inl rfl
              · exact Or.inr ⟨a, b⟩
      · rw [i1]
        exact Or.inr ⟨rfl, x, List.mem_cons_of_mem _ hx, i2⟩
    · rw [h1]
      exact Or.inr ⟨rfl, c, by simp, h2⟩

/-- Without constraints, everything passes. -/
theorem filterConstraints_none (E : PEnv) (cs : List Cred) :
    filterConstraints E none cs = .ok cs := rfl

/-- **C25, deviation**: constraints without fields (for instance only `limit_disclosure`, or only
`subject_is_issuer`) are met by no credential at all. -/
theorem no_fields_nothing_passes (E : PEnv) (k : Constraints) (hk : k.fields = []) (cs : List Cred) :
    filterConstraints E (some k) cs = .ok [] := by
  have ht : Typed k := by intro f hf; rw [hk] at hf; cases hf
  rcases filterConstraints_exact E ht cs with ⟨r, h1, _, h3⟩ | ⟨_, c, _, m, _, f, hf, _⟩
  · rw [h1]
    congr
    rw [List.eq_nil_iff_forall_not_mem]
    intro c hc
    exact ((h3 c).mp hc).2.2.1 hk
  · rw [hk] at hf; cases hf

/-- **C25, deviation**: a filter without `type` (the schema of definitions allows it) makes matching
panic as soon as its field is evaluated for a credential. -/
theorem untyped_filter_panics (E : PEnv) (k : Constraints) (f : Field) (fs : List Field)
    (hk : k.fields = f :: fs) (hs : k.subjectIsIssuerReq = false)
    (hf : ∃ fl, f.filter = some fl ∧ fl.typ = none) (c : Cred) (cs : List Cred) (m : JObj)
    (hd : c.display = some m) : filterConstraints E (some k) (c :: cs) = .panic := by
  obtain ⟨⟨t, a1, a2, a3, a4⟩, h1, h2⟩ := hf
  dsimp only at h2
  subst h2
  simp [filterConstraints, filterLoop, constraintsOne, hs, hd, hk, fieldsLoop, filterField, h1]

/-- **C25, deviation**: which path is evaluated can depend on the iteration order of a Go map. -/
theorem rewrite_order_dependent :
    ∃ o₁ o₂, o₁.Perm replacements ∧ o₂.Perm replacements ∧
      rewritePath o₁ true [] "$.vc.vc[0]" ≠ rewritePath o₂ true [] "$.vc.vc[0]" :=
  ⟨replacements, [("$.vc[", "$["), ("$.vc.", "$."), ("$['vc']", "$")], List.Perm.refl _,
    List.Perm.swap _ _ _, by decide +kernel⟩

/-! ## Formats (C61) -/

/-- One of the six formats that are enforced, with the credentials it admits. -/
def Admits (fold : String → String) (f : Format) (name : String) (c : Cred) : Prop :=
  (name = "ldp" ∧ credByProof c f.ldp = true) ∨ (name = "ldp_vc" ∧ credByProof c f.ldpVC = true) ∨
  (name = "ldp_vp" ∧ credByProof c f.ldpVP = true) ∨ (name = "jwt" ∧ credByAlg fold c f.jwt = true) ∨
  (name = "jwt_vc" ∧ credByAlg fold c f.jwtVC = true) ∨
  (name = "jwt_vp" ∧ credByAlg fold c f.jwtVP = true)

/-- What `credByProof` means. -/
theorem credByProof_iff (c : Cred) (o : Option (List String)) :
    credByProof c o = true ↔ ∃ pts, o = some pts ∧ ∃ t ∈ pts, t ∈ c.proofTypes := by
  cases o <;> simp [credByProof]

/-- What `credByAlg` means. -/
theorem credByAlg_iff (fold : String → String) (c : Cred) (o : Option (List String)) :
    credByAlg fold c o = true ↔
      c.isJWT = true ∧ ∃ a, c.alg = some a ∧ ∃ algs, o = some algs ∧ ∃ b ∈ algs, fold a = fold b := by
  cases o with
  | none => simp [credByAlg]
  | some algs => cases ha : c.alg <;> simp [credByAlg, ha]

/-- **C61.** The credentials left after the format check are exactly those admitted by one single
format, whose name is returned; if nothing is left, no enforced format admits any credential. -/
theorem filterFormat_exact (fold : String → String) (f : Format) (cs : List Cred) :
    (∃ name, filterFormat fold f cs = (name, (filterFormat fold f cs).2) ∧
      (filterFormat fold f cs).2 ≠ [] ∧ (filterFormat fold f cs).2.Sublist cs ∧
      ∀ c, c ∈ (filterFormat fold f cs).2 ↔ c ∈ cs ∧ Admits fold f name c) ∨
    (filterFormat fold f cs = ("", []) ∧ ∀ c ∈ cs, ∀ name, ¬ Admits fold f name c) := by
  unfold filterFormat
  dsimp only
  have hne : ∀ (p : Cred → Bool), cs.filter p = [] → ∀ c ∈ cs, p c = false := by
    intro p h c hc
    rw [List.filter_eq_nil_iff] at h
    simpa using h c hc
  split
  · next h => exact Or.inl ⟨"ldp", rfl, h, List.filter_sublist, by simp [Admits]⟩
  next h1 =>
  split
  · next h => exact Or.inl ⟨"ldp_vc", rfl, h, List.filter_sublist, by simp [Admits]⟩
  next h2 =>
  split
  · next h => exact Or.inl ⟨"ldp_vp", rfl, h, List.filter_sublist, by simp [Admits]⟩
  next h3 =>
  split
  · next h => exact Or.inl ⟨"jwt", rfl, h, List.filter_sublist, by simp [Admits]⟩
  next h4 =>
  split
  · next h => exact Or.inl ⟨"jwt_vc", rfl, h, List.filter_sublist, by simp [Admits]⟩
  next h5 =>
  split
  · next h => exact Or.inl ⟨"jwt_vp", rfl, h, List.filter_sublist, by simp [Admits]⟩
  next h6 =>
  push Not at h1 h2 h3 h4 h5 h6
  refine Or.inr ⟨rfl, ?_⟩
  intro c hc name
  simp [Admits, hne _ h1 c hc, hne _ h2 c hc, hne _ h3 c hc, hne _ h4 c hc, hne _ h5 c hc,
    hne _ h6 c hc]

/-- **C61, deviation**: a definition that asks for CWT credentials only is not enforced — every
credential passes. -/
theorem cwt_format_ignored (pd : Option Format) (hpd : pd = none)
    (f : Format) (h : f.jwt = none ∧ f.jwtVC = none ∧ f.jwtVP = none ∧ f.ldp = none ∧
      f.ldpVC = none ∧ f.ldpVP = none) : effFormat pd (some f) = none := by
  subst hpd
  simp [effFormat, Format.notNil, h.1, h.2.1, h.2.2.1, h.2.2.2.1, h.2.2.2.2.1, h.2.2.2.2.2]

/-! ## Schemas (C61) -/

theorem schemaLoop_iff (sat : List String) : ∀ (ss : List Schema) (a : Bool),
    schemaLoop sat ss a = true ↔
      (∀ s ∈ ss, s.required = true → s.uri ∈ sat) ∧ (a = true ∨ ∃ s ∈ ss, s.uri ∈ sat)
  | [], a => by simp [schemaLoop]
  | s :: ss, a => by
    simp only [schemaLoop]
    by_cases h : s.uri ∈ sat
    · rw [if_pos (by simpa using h), schemaLoop_iff sat ss true]
      simp [h]
    · rw [if_neg (by simpa using h)]
      cases hr : s.required
      · simp only [Bool.false_eq_true, if_false]
        rw [schemaLoop_iff sat ss a]
        simp [h, hr]
      · simp [h, hr]

/-- The IDs a credential's types have in its contexts. -/
def HasSchema (load : String → Option (String → List String)) (c : Cred) (uri : String) : Prop :=
  ∃ ctx ∈ c.contexts, ∃ ids, load ctx = some ids ∧ ∃ t ∈ c.types, uri ∈ ids t

theorem schemaIDs_mem {load : String → Option (String → List String)} {types : List String} :
    ∀ {ctxs : List String} {r : List String}, schemaIDs load types ctxs = some r → ∀ u,
    (u ∈ r ↔ ∃ ctx ∈ ctxs, ∃ ids, load ctx = some ids ∧ ∃ t ∈ types, u ∈ ids t)
  | [], r, h, u => by
    simp only [schemaIDs, Option.some.injEq] at h
    subst h; simp
  | ctx :: ctxs, r, h, u => by
    simp only [schemaIDs] at h
    cases hl : load ctx with
    | none => rw [hl] at h; cases h
    | some ids =>
      rw [hl] at h
      dsimp only at h
      cases hr : schemaIDs load types ctxs with
      | none => rw [hr] at h; cases h
      | some r' =>
        rw [hr] at h
        simp only [Option.map_some, Option.some.injEq] at h
        subst h
        simp only [List.mem_append, List.mem_flatMap, List.mem_cons, exists_eq_or_imp, hl,
          Option.some.injEq, exists_eq_left']
        rw [schemaIDs_mem hr u]

/-- **C61**, schemas: exactly the credentials pass that have every required schema and at least one
of the schemas. -/
theorem filterSchema_exact (load : String → Option (String → List String)) (ss : List Schema) :
    ∀ (cs r : List Cred), filterSchema load ss cs = some r → r.Sublist cs ∧ ∀ c,
    (c ∈ r ↔ c ∈ cs ∧ (∀ s ∈ ss, s.required = true → HasSchema load c s.uri) ∧
      ∃ s ∈ ss, HasSchema load c s.uri)
  | [], r, h => by
    simp only [filterSchema, Option.some.injEq] at h
    subst h; simp
  | c :: cs, r, h => by
    simp only [filterSchema] at h
    cases hi : schemaIDs load c.types c.contexts with
    | none => rw [hi] at h; cases h
    | some sat =>
      rw [hi] at h
      dsimp only at h
      cases hr : filterSchema load ss cs with
      | none => rw [hr] at h; cases h
      | some r' =>
        rw [hr] at h
        simp only [Option.map_some, Option.some.injEq] at h
        subst h
        obtain ⟨i1, i2⟩ := filterSchema_exact load ss cs r' hr
        have hc : schemaLoop sat ss false = true ↔
            (∀ s ∈ ss, s.required = true → HasSchema load c s.uri) ∧
              ∃ s ∈ ss, HasSchema load c s.uri := by
          rw [schemaLoop_iff]
          simp only [Bool.false_eq_true, false_or, schemaIDs_mem hi]
          rfl
        by_cases hb : schemaLoop sat ss false = true
        · rw [if_pos hb]
          refine ⟨i1.cons_cons _, fun x => ?_⟩
          simp only [List.mem_cons, i2]
          constructor
          · rintro (rfl | ⟨a, b⟩)
            · exact ⟨Or.inl rfl, hc.mp hb⟩
            · exact ⟨Or.inr a, b⟩
          · rintro ⟨rfl | a, b⟩
            · exact Or.inl rfl
            · exact Or.inr ⟨a, b⟩
        · rw [if_neg hb]
          refine ⟨i1.cons _, fun x => ?_⟩
          simp only [List.mem_cons, i2]
          constructor
          · rintro ⟨a, b⟩; exact ⟨Or.inr a, b⟩
          · rintro ⟨rfl | a, b⟩
            · exact absurd (hc.mpr b) hb
            · exact ⟨a, b⟩

/-- A format asks for something: it has one of the six entries that matching knows (the two CWT ones
are not among them, `cwt_format_ignored`). -/
def Named (f : Format) : Prop :=
  f.jwt ≠ none ∨ f.jwtVC ≠ none ∨ f.jwtVP ≠ none ∨ f.ldp ≠ none ∨ f.ldpVC ≠ none ∨ f.ldpVP ≠ none

theorem notNil_iff (f : Format) : f.notNil = true ↔ Named f := by
  obtain ⟨a, b, c, d, e, g, _, _⟩ := f
  simp [Format.notNil, Named, Option.isSome_iff_ne_none, or_assoc]

/-- The format that a descriptor is matched with: its own if it names any, else that of the
definition if that names any. -/
def FormatOf (pd d : Option Format) (f : Format) : Prop :=
  (d = some f ∧ Named f) ∨
  (pd = some f ∧ Named f ∧ ∀ g, d = some g → ¬ Named g)

theorem effFormat_iff (pd d : Option Format) (f : Format) : effFormat pd d = some f ↔ FormatOf pd d f := by
  simp only [FormatOf, ← notNil_iff, Bool.not_eq_true]
  unfold effFormat
  cases d with
  | none =>
    cases pd with
    | none => simp
    | some g =>
      cases hg : g.notNil
      · simp [hg]; rintro rfl; simp [hg]
      · simp [hg]; rintro rfl; exact hg
  | some g =>
    cases hg : g.notNil
    · cases pd with
      | none => simp [hg]; rintro rfl; simp [hg]
      | some g' =>
        cases hg' : g'.notNil
        · simp only [Option.map_some, Option.getD_some, hg, hg', Bool.false_eq_true, if_false, reduceCtorEq,
            Option.some.injEq, forall_eq', and_true, false_iff, not_or, not_and]
          exact ⟨by rintro rfl; simp [hg], by rintro rfl; simp [hg']⟩
        · simp only [Option.map_some, Option.getD_some, hg, hg', Bool.false_eq_true, if_false, if_true,
            Option.some.injEq, forall_eq', and_true]
          constructor
          · rintro rfl; exact .inr ⟨rfl, hg'⟩
          · rintro (⟨rfl, h⟩ | ⟨rfl, _⟩)
            · rw [hg] at h; cases h
            · rfl
    · simp only [Option.map_some, Option.getD_some, hg, if_true, Option.some.injEq, forall_eq',
        Bool.true_eq_false, and_false, or_false]
      constructor
      · rintro rfl; exact ⟨rfl, hg⟩
      · exact fun h => h.1

/-- **C61**, a descriptor: every credential returned for a descriptor came in, and passes its format,
its schemas and its constraints. -/
theorem filterDescriptor_sound (E : MEnv) (pd : Option Format) (d : MDesc)
    (ht : ∀ k, d.constraints = some k → Typed k) {cs r : List Cred} {fmt : String}
    (h : filterDescriptor E pd d cs = .ok (fmt, r)) : ∀ c ∈ r, c ∈ cs ∧
      (∀ f, FormatOf pd d.format f → Admits E.fold f fmt c) ∧
      (∀ ss, d.schema = some ss → (∀ s ∈ ss, s.required = true → HasSchema E.load c s.uri) ∧
        ∃ s ∈ ss, HasSchema E.load c s.uri) ∧
      (∀ k, d.constraints = some k → ConstraintsOk E.toPEnv k c) := by
  unfold filterDescriptor at h
  dsimp only at h
  intro c hc
  -- constraints
  have step3 : ∀ cs2 r, filterConstraints E.toPEnv d.constraints cs2 = .ok r → c ∈ r →
      c ∈ cs2 ∧ ∀ k, d.constraints = some k → ConstraintsOk E.toPEnv k c := by
    intro cs2 r h3 hm
    cases hk : d.constraints with
    | none =>
      rw [hk] at h3
      simp only [filterConstraints, FilterOut.ok.injEq] at h3
      subst h3
      exact ⟨hm, by simp⟩
    | some k =>
      rw [hk] at h3
      rcases filterConstraints_exact E.toPEnv (ht k hk) cs2 with ⟨r', e1, _, e3⟩ | ⟨e1, _⟩
      · rw [e1] at h3
        cases h3
        obtain ⟨a, b⟩ := (e3 c).mp hm
        refine ⟨a, fun k' hk' => ?_⟩
        cases hk'
        exact b
      · rw [e1] at h3; cases h3
  have step2 : ∀ cs1 cs2, (match d.schema with
      | none => some cs1
      | some ss => filterSchema E.load ss cs1) = some cs2 → c ∈ cs2 →
      c ∈ cs1 ∧ ∀ ss, d.schema = some ss → (∀ s ∈ ss, s.required = true → HasSchema E.load c s.uri) ∧
        ∃ s ∈ ss, HasSchema E.load c s.uri := by
    intro cs1 cs2 h2 hm
    cases hs : d.schema with
    | none =>
      rw [hs] at h2
      simp only [Option.some.injEq] at h2
      subst h2
      exact ⟨hm, by simp⟩
    | some ss =>
      rw [hs] at h2
      obtain ⟨a, b⟩ := ((filterSchema_exact E.load ss cs1 cs2 h2).2 c).mp hm
      refine ⟨a, fun ss' hs' => ?_⟩
      cases hs'
      exact b
  have step1 : ∀ (r1 : String × List Cred), (match effFormat pd d.format with
      | some f => filterFormat E.fold f cs
      | none => ("", cs)) = r1 → c ∈ r1.2 →
      c ∈ cs ∧ ∀ f, effFormat pd d.format = some f → Admits E.fold f r1.1 c := by
    intro r1 h1 hm
    cases hf : effFormat pd d.format with
    | none =>
      rw [hf] at h1
      subst h1
      exact ⟨hm, by simp⟩
    | some f =>
      rw [hf] at h1
      subst h1
      rcases filterFormat_exact E.fold f cs with ⟨name, e1, _, _, e4⟩ | ⟨e1, _⟩
      · obtain ⟨a, b⟩ := (e4 c).mp hm
        refine ⟨a, fun f' hf' => ?_⟩
        cases hf'
        dsimp only
        rw [e1]
        exact b
      · dsimp only at hm; rw [e1] at hm; cases hm
  split at h
  · cases h
  · next cs2 h2 =>
    split at h
    · next cs3 h3 =>
      simp only [FilterOut.ok.injEq, Prod.mk.injEq] at h
      obtain ⟨rfl, rfl⟩ := h
      obtain ⟨a1, a2⟩ := step3 _ _ h3 hc
      obtain ⟨b1, b2⟩ := step2 _ _ h2 a1
      obtain ⟨c1, c2⟩ := step1 _ rfl b1
      exact ⟨c1, fun f hf => c2 f ((effFormat_iff _ _ _).mpr hf), b2, a2⟩
    · cases h
    · cases h

/-! ## Limited disclosure (C60) -/

/-- **C60.** When a definition requires limited disclosure, a returned credential is never the
original one: it was derived with only the wanted fields, or had its disclosures restricted; and a
credential that supports neither is left out unless the subject is the issuer or a predicate is
required (and then it is derived as well). -/
theorem limitDisclosure_enforced {derive restrict : Constraints → Cred → Option Cred}
    {k : Constraints} (hk : k.limitReq = true) : ∀ {tmp : Nat → String → String} {cs : List Cred} {ws : List (String × Cred)},
    limitDisclosure derive restrict tmp (some k) cs = some ws → ∀ w ∈ ws, ∃ c ∈ cs,
      (c.isSDJWT = true ∧ restrict k c = some w.2 ∧ w.1 = c.id) ∨
      (c.isSDJWT = false ∧ derive k c = some w.2 ∧ (∃ n, w.1 = tmp n c.id) ∧
        (c.hasBBS = true ∨ subjectIsIssuer c = true ∨ ∃ f ∈ k.fields, f.predicateReq = true))
  | _, [], ws, h, w, hw => by
    simp only [limitDisclosure, Option.some.injEq] at h
    subst h; cases hw
  | tmp, c :: cs, ws, h, w, hw => by
    simp only [limitDisclosure] at h
    cases h1 : limitOne derive restrict (tmp 0) (some k) c with
    | none => rw [h1] at h; cases h
    | some r =>
      rw [h1] at h
      dsimp only at h
      cases h2 : limitDisclosure derive restrict (fun n => tmp (n + 1)) (some k) cs with
      | none => rw [h2] at h; cases h
      | some rs =>
        rw [h2] at h
        simp only [Option.map_some, Option.some.injEq] at h
        have ih := fun hm => limitDisclosure_enforced hk h2 w hm
        cases r with
        | none =>
          subst h
          obtain ⟨x, hx, hh⟩ := ih hw
          exact ⟨x, List.mem_cons_of_mem _ hx, hh.imp_right fun ⟨a, b, ⟨n, e⟩, r⟩ => ⟨a, b, ⟨n + 1, e⟩, r⟩⟩
        | some w' =>
          subst h
          rcases List.mem_cons.mp hw with rfl | hw
          · refine ⟨c, by simp, ?_⟩
            unfold limitOne at h1
            simp only [hk, Bool.true_and, Bool.true_or] at h1
            split at h1
            · cases h1
            · next hns =>
              split at h1
              · next hsd =>
                split at h1
                · cases h1
                · next c' hd =>
                  simp only [Option.some.injEq] at h1
                  subst h1
                  refine Or.inr ⟨by simpa using hsd, hd, ⟨0, rfl⟩, ?_⟩
                  simp only [Bool.not_eq_true, Bool.not_eq_false', Bool.or_eq_true] at hns
                  rcases hns with (h | h | h) | h
                  · rw [List.any_eq_true] at h
                    exact Or.inr (Or.inr h)
                  · rw [h] at hsd; cases hsd
                  · exact Or.inl h
                  · exact Or.inr (Or.inl h)
              · next hsd =>
                have hsd : c.isSDJWT = true := by simpa using hsd
                rw [if_pos hsd] at h1
                split at h1
                · cases h1
                · next c' hd =>
                  simp only [Option.some.injEq] at h1
                  subst h1
                  exact Or.inl ⟨hsd, hd, rfl⟩
          · obtain ⟨x, hx, hh⟩ := ih hw
            exact ⟨x, List.mem_cons_of_mem _ hx, hh.imp_right fun ⟨a, b, ⟨n, e⟩, r⟩ => ⟨a, b, ⟨n + 1, e⟩, r⟩⟩

/-! ## Examples -/

/-- Paths `$.name`; a schema accepts the string it names. -/
def pcEnv : PEnv where
  Path := String
  parse p := if hasPrefix p "$." then some (String.ofList (p.toList.drop 2)) else none
  select p m := match GoMap.get? m p with | some v => [v] | none => []
  valid s v := match s, v with
    | .main f, .str x => (match f.rest with | .str y => x == y | _ => true)
    | _, _ => false
  rfc3339 _ := none
  order := replacements

/-- A credential with a name. -/
def pcCred : Cred := ⟨"c1", [], [], some "did:i", ["did:i"], false, none, ["Ed25519Signature2018"], false,
  false, some [("name", .str "Ann")]⟩

/-- The name has to be Ann (two paths, the first of which reads nothing); nothing is asked of the age. -/
def pcK : Constraints := ⟨false, true,
  [⟨["$.vname", "$.name"], some ⟨some "string", "", none, [], .str "Ann"⟩, false, false⟩,
   ⟨["$.age"], none, true, false⟩]⟩

/-- The constraints are typed, and the credential passes them. -/
example : Typed pcK ∧ ∃ r, filterConstraints pcEnv (some pcK) [pcCred] = .ok r ∧ r.length = 1 := by
  refine ⟨by simp [Typed, pcK], [pcCred], rfl, rfl⟩

/-- Another name does not pass. -/
example : filterConstraints pcEnv (some pcK) [{ pcCred with display := some [("name", .str "Bob")] }] =
    .ok [] := rfl

/-- A malformed path is an error. -/
example : filterConstraints pcEnv (some ⟨false, false, [⟨["name"], none, false, false⟩]⟩) [pcCred] =
    .error := rfl

/-- Libraries with one JSON-LD context. -/
def pcMEnv : MEnv := { pcEnv with
  fold := id
  load := fun ctx => if ctx = "ctx" then some (fun t => if t = "Degree" then ["Degree", "urn:Degree"] else [])
    else none }

/-- An LD-signed credential of type Degree passes the format, the schema and the constraints. -/
example : ∃ r, filterDescriptor pcMEnv none
    ⟨some [⟨"urn:Degree", true⟩, ⟨"urn:Other", false⟩], some pcK,
      some ⟨none, none, none, none, some ["Ed25519Signature2018"], none, none, none⟩⟩
    [{ pcCred with contexts := ["ctx"], types := ["Degree"] }] = .ok ("ldp_vc", r) ∧ r.length = 1 :=
  ⟨_, rfl, rfl⟩

/-- With a required schema that is missing it does not pass. -/
example : filterSchema pcMEnv.load [⟨"urn:Degree", false⟩, ⟨"urn:Other", true⟩]
    [{ pcCred with contexts := ["ctx"], types := ["Degree"] }] = some [] := rfl

/-- Limited disclosure: an SD-JWT credential is restricted, a plain one is left out, a self-issued one
is derived. -/
example : limitDisclosure (fun _ c => some { c with subjects := [] }) (fun _ c => some { c with display := none })
    (fun n i => i ++ "tmp" ++ toString n) (some { pcK with limitReq := true })
    [{ pcCred with isSDJWT := true }, { pcCred with subjects := [] }, pcCred] =
    some [("c1", { pcCred with isSDJWT := true, display := none }), ("c1tmp2", { pcCred with subjects := [] })] := rfl

end VC.PE
