import Verif.Presexch.LimitRenumber
/-!
# presexch: what a limited credential shows (C96, C97)
-/

namespace VC.PE

open GoMap

/-! ## `strings.Contains` -/

theorem containsL_iff (sub : List Char) : ∀ l : List Char, containsL sub l = true ↔ sub <:+: l
  | [] => by simp [containsL, List.infix_nil]
  | c :: cs => by
    rw [containsL, Bool.or_eq_true, containsL_iff sub cs, List.infix_cons_iff, List.isPrefixOf_iff_prefix]

theorem prefix_sep {sub a b : List Char} {c : Char} (h : c ∉ sub) (hp : sub <+: a ++ c :: b) : sub <+: a := by
  induction a generalizing sub with
  | nil =>
    cases sub with
    | nil => exact List.nil_prefix
    | cons x sub =>
      rw [List.nil_append, List.cons_prefix_cons] at hp
      exact absurd (by simp [hp.1]) h
  | cons y a ih =>
    cases sub with
    | nil => exact List.nil_prefix
    | cons x sub =>
      rw [List.cons_append, List.cons_prefix_cons] at hp
      rw [List.cons_prefix_cons]
      exact ⟨hp.1, ih (fun hc => h (List.mem_cons_of_mem _ hc)) hp.2⟩

theorem infix_sep {sub a b : List Char} {c : Char} (h : c ∉ sub) (hp : sub <:+: a ++ c :: b) :
    sub <:+: a ∨ sub <:+: b := by
  induction a with
  | nil =>
    rw [List.nil_append, List.infix_cons_iff] at hp
    rcases hp with hp | hp
    · exact .inl (prefix_sep (a := []) h hp).isInfix
    · exact .inr hp
  | cons y a ih =>
    rw [List.cons_append, List.infix_cons_iff] at hp
    rcases hp with hp | hp
    · exact .inl (prefix_sep (a := y :: a) h hp).isInfix
    · rcases ih hp with h | h
      · exact .inl (List.infix_cons_iff.mpr (.inr h))
      · exact .inr h

theorem infix_joinC {sub : List Char} (hne : sub ≠ []) (hd : '.' ∉ sub) : ∀ l : List String,
    sub <:+: (joinC '.' l).toList ↔ ∃ c ∈ l, sub <:+: c.toList
  | [] => by simp [joinC, List.infix_nil, hne]
  | [s] => by simp [joinC]
  | s :: t :: l => by
    have ih := infix_joinC hne hd (t :: l)
    have e : (joinC '.' (s :: t :: l)).toList = s.toList ++ '.' :: (joinC '.' (t :: l)).toList := by
      simp [joinC, String.toList_append]
    rw [e]
    constructor
    · intro h
      rcases infix_sep hd h with h | h
      · exact ⟨s, by simp, h⟩
      · obtain ⟨c, hc, h⟩ := ih.mp h
        exact ⟨c, List.mem_cons_of_mem _ hc, h⟩
    · rintro ⟨c, hc, h⟩
      rcases List.mem_cons.mp hc with rfl | hc
      · exact h.trans (List.prefix_append _ _).isInfix
      · exact (ih.mpr ⟨c, hc, h⟩).trans
          ((List.suffix_append _ _).isInfix.trans (by
            have : s.toList ++ '.' :: (joinC '.' (t :: l)).toList =
              (s.toList ++ ['.']) ++ (joinC '.' (t :: l)).toList := by simp
            rw [this]
            exact List.infix_refl _))

theorem schema_not_digits (n : Nat) : ¬ "credentialSchema".toList <:+: (toString n).toList := by
  intro h
  have : 'c' ∈ (toString n).toList := h.subset (by decide)
  exact absurd (digits_toString n 'c' this) (by decide)

/-- A path is left out exactly if a member name on it contains `credentialSchema`. -/
theorem contains_schema {p np : List Step} (h : SameShape p np) :
    contains (keyOfPlace np) "credentialSchema" = true ↔ ¬ NoSchema p := by
  unfold contains keyOfPlace
  rw [containsL_iff, infix_joinC (by decide) (by decide)]
  have key : (∃ c ∈ np.map Step.text, "credentialSchema".toList <:+: c.toList) ↔
      ∃ k, Step.name k ∈ p ∧ "credentialSchema".toList <:+: k.toList := by
    induction h with
    | nil => simp
    | name k _ ih =>
      simp only [List.map_cons, List.mem_cons, exists_eq_or_imp]
      rw [ih]
      constructor
      · rintro (h | ⟨k', hk, h⟩)
        · exact ⟨k, .inl rfl, h⟩
        · exact ⟨k', .inr hk, h⟩
      · rintro ⟨k', (hk | hk), h⟩
        · cases hk; exact .inl h
        · exact .inr ⟨k', hk, h⟩
    | idx n m _ ih =>
      simp only [List.map_cons, List.mem_cons, exists_eq_or_imp]
      rw [ih]
      constructor
      · rintro (h | ⟨k', hk, h⟩)
        · exact absurd h (schema_not_digits m)
        · exact ⟨k', .inr hk, h⟩
      · rintro ⟨k', (hk | hk), h⟩
        · cases hk
        · exact .inr ⟨k', hk, h⟩
  rw [key]
  unfold NoSchema
  push Not
  rfl

/-! ## Nothing else -/

variable {eval : List String → Json → Option (List (List Step))}

/-- The JSON path library reports places of the document. -/
def EvalSound (eval : List String → Json → Option (List (List Step))) (src : Json) : Prop :=
  ∀ keys ps, eval keys src = some ps → ∀ p ∈ ps, (gat src p).isSome

/-- The value was selected: it is inside the value at the selected place `p`, at the same place below,
and it was written below a place with the same names. -/
def FromPath (src : Json) (predicate : Bool) (p q : List Step) (v : Json) : Prop :=
  ∃ np q1 r, SameShape p np ∧ p ≠ [] ∧ NoSchema p ∧ q = q1 ++ r ∧
    List.Forall₂ Addr q1 (np.map Step.text) ∧
    ((predicate = true ∧ v = .bool true ∧ r = []) ∨ (predicate = false ∧ gat src (p ++ r) = some v))

theorem noDots_shape {p np : List Step} (h : SameShape p np) (hd : NoDots p) : NoDots np := by
  induction h with
  | nil => exact hd
  | name k _ ih =>
    intro s hs
    rcases List.mem_cons.mp hs with rfl | hs
    · exact hd _ (List.mem_cons_self ..)
    · exact ih (fun s hs => hd s (List.mem_cons_of_mem _ hs)) s hs
  | idx n m _ ih =>
    intro s hs
    rcases List.mem_cons.mp hs with rfl | hs
    · exact noDot_toString m
    · exact ih (fun s hs => hd s (List.mem_cons_of_mem _ hs)) s hs

theorem setPath_prov {src doc d : Json} {predicate : Bool} {p np : List Step} (hsh : SameShape p np)
    (hd : NoDots p) (hp : (gat src p).isSome)
    (h : setPath src predicate doc ⟨keyOfPlace np, keyOfPlace p⟩ = some d) {q : List Step} {v : Json}
    (hq : gat d q = some v) (hl : Leaf v) :
    gat doc q = some v ∨ v = .null ∨ FromPath src predicate p q v := by
  unfold setPath at h
  by_cases hc : contains (keyOfPlace np) "credentialSchema" = true
  · rw [if_pos hc] at h
    cases h
    exact .inl hq
  · rw [if_neg hc] at h
    have hns : NoSchema p := by
      have := (contains_schema hsh).not.mp hc
      exact Classical.not_not.mp this
    unfold sset at h
    by_cases he : keyOfPlace np = ""
    · simp [he] at h
    · rw [if_neg he] at h
      have hnp : np ≠ [] := by rintro rfl; exact he rfl
      have hpne : p ≠ [] := by rintro rfl; cases hsh; exact hnp rfl
      rw [keyOfPlace, split_joinC '.' _ (by simpa using hnp) (noDots_map (noDots_shape hsh hd))] at h
      rcases ssetC_prov _ _ doc d h q v hq hl with h1 | h1 | ⟨q1, r, e, hf, hv⟩
      · exact .inl h1
      · exact .inr (.inl h1)
      · refine .inr (.inr ⟨np, q1, r, hsh, hpne, hns, e, hf, ?_⟩)
        cases predicate with
        | true =>
          refine .inl ⟨rfl, ?_⟩
          cases r with
          | nil => simp [gat] at hv; exact ⟨hv.symm, rfl⟩
          | cons s r => simp [gat] at hv
        | false =>
          refine .inr ⟨rfl, ?_⟩
          obtain ⟨x, hx⟩ := Option.isSome_iff_exists.mp hp
          simp only [Bool.false_eq_true, if_false] at hv
          rw [show keyOfPlace p = joinC '.' (p.map Step.text) from rfl, gget_gat hpne hd hx] at hv
          rw [gat_append, hx]
          exact hv

theorem setPaths_prov {src : Json} {predicate : Bool} : ∀ (ps nps : List (List Step)),
    List.Forall₂ SameShape ps nps → (∀ p ∈ ps, NoDots p) → (∀ p ∈ ps, (gat src p).isSome) →
    ∀ (doc d : Json),
    setPaths src predicate doc (List.zipWith (fun p np => ⟨keyOfPlace np, keyOfPlace p⟩) ps nps) = some d →
    ∀ (q : List Step) (v : Json), gat d q = some v → Leaf v →
    gat doc q = some v ∨ v = .null ∨ ∃ p ∈ ps, FromPath src predicate p q v
  | [], _, _, _, _, doc, d, h, q, v, hq, _ => by
    simp only [List.zipWith_nil_left, setPaths] at h
    cases h
    exact .inl hq
  | p :: ps, nps, hsh, hd, hp, doc, d, h, q, v, hq, hl => by
    cases hsh with
    | @cons _ np _ nps h1 h2 =>
      simp only [List.zipWith_cons_cons, setPaths] at h
      obtain ⟨d1, hd1, h⟩ := Option.bind_eq_some_iff.mp h
      rcases setPaths_prov ps nps h2 (fun x hx => hd x (List.mem_cons_of_mem _ hx))
        (fun x hx => hp x (List.mem_cons_of_mem _ hx)) d1 d h q v hq hl with h | h | ⟨x, hx, h⟩
      · rcases setPath_prov h1 (hd p (List.mem_cons_self ..)) (hp p (List.mem_cons_self ..)) hd1 h hl with
          h | h | h
        · exact .inl h
        · exact .inr (.inl h)
        · exact .inr (.inr ⟨p, List.mem_cons_self .., h⟩)
      · exact .inr (.inl h)
      · exact .inr (.inr ⟨x, List.mem_cons_of_mem _ hx, h⟩)

theorem setFields_prov {src : Json} (hs : EvalSound eval src) : ∀ (fields : List Field),
    (∀ f ∈ fields, ∀ ps, eval f.path src = some ps → ∀ p ∈ ps, NoDots p) → ∀ (doc d : Json),
    setFields eval src doc fields = some d →
    ∀ (q : List Step) (v : Json), gat d q = some v → Leaf v →
    gat doc q = some v ∨ v = .null ∨
      ∃ f ∈ fields, ∃ ps, eval f.path src = some ps ∧ ∃ p ∈ ps, FromPath src f.predicateReq p q v
  | [], _, doc, d, h, q, v, hq, _ => by
    simp only [setFields] at h
    cases h
    exact .inl hq
  | f :: fs, hd, doc, d, h, q, v, hq, hl => by
    simp only [setFields, compactArrayPaths] at h
    obtain ⟨pairs, hpairs, h⟩ := Option.bind_eq_some_iff.mp h
    obtain ⟨ps, hps, rfl⟩ := Option.map_eq_some_iff.mp hpairs
    obtain ⟨d1, hd1, h⟩ := Option.bind_eq_some_iff.mp h
    rw [compactLoop_renum] at hd1
    rcases setFields_prov hs fs (fun g hg => hd g (List.mem_cons_of_mem _ hg)) d1 d h q v hq hl with
      h | h | ⟨g, hg, h⟩
    · rcases setPaths_prov ps _ (renumAll_shape ps []) (hd f (List.mem_cons_self ..) ps hps)
        (hs f.path ps hps) doc d1 hd1 q v h hl with h | h | h
      · exact .inl h
      · exact .inr (.inl h)
      · exact .inr (.inr ⟨f, List.mem_cons_self .., ps, hps, h⟩)
    · exact .inr (.inl h)
    · exact .inr (.inr ⟨g, List.mem_cons_of_mem _ hg, h⟩)

/-- **C96.** Every scalar (and every empty array or object) of the document that the fields produce was
in the template at the same place, or pads an array with null, or was selected by one of the fields:
for a field with a required predicate it is `true`, otherwise it is the value of the source at the
selected place or below it.  Nothing on a path through `credentialSchema` is taken.  (The names on the
selected places must not contain a dot, see `dotted_name_discloses`.) -/
theorem limited_only_selected_partial {src T L : Json} {fields : List Field} (hs : EvalSound eval src)
    (hd : ∀ f ∈ fields, ∀ ps, eval f.path src = some ps → ∀ p ∈ ps, ∀ k, Step.name k ∈ p → '.' ∉ k.toList)
    (h : setFields eval src T fields = some L) {q : List Step} {v : Json} (hq : gat L q = some v)
    (hl : Leaf v) :
    gat T q = some v ∨ v = .null ∨
      ∃ f ∈ fields, ∃ ps, eval f.path src = some ps ∧ ∃ p ∈ ps, NoSchema p ∧
        ((f.predicateReq = true ∧ v = .bool true) ∨
          (f.predicateReq = false ∧ ∃ r, gat src (p ++ r) = some v)) := by
  have hd' : ∀ f ∈ fields, ∀ ps, eval f.path src = some ps → ∀ p ∈ ps, NoDots p := by
    intro f hf ps hps p hp s hs
    cases s with
    | name k => exact hd f hf ps hps p hp k hs
    | idx n => exact noDot_toString n
  rcases setFields_prov hs fields hd' T L h q v hq hl with
    h | h | ⟨f, hf, ps, hps, p, hp, np, q1, r, _, _, hns, _, _, h⟩
  · exact .inl h
  · exact .inr (.inl h)
  · refine .inr (.inr ⟨f, hf, ps, hps, p, hp, hns, ?_⟩)
    rcases h with ⟨h1, h2, _⟩ | ⟨h1, h2⟩
    · exact .inl ⟨h1, h2⟩
    · exact .inr ⟨h1, r, h2⟩

theorem addr_text {q1 np : List Step} (hp : ∀ s ∈ np, s.Plain)
    (h : List.Forall₂ Addr q1 (np.map Step.text)) : q1.map Step.text = np.map Step.text := by
  induction np generalizing q1 with
  | nil => cases h; rfl
  | cons s np ih =>
    cases h with
    | cons h1 h2 =>
      simp only [List.map_cons, ih (fun x hx => hp x (List.mem_cons_of_mem _ hx)) h2, List.cons.injEq,
        and_true]
      rcases h1 with ⟨k, rfl, rfl⟩ | ⟨n, rfl, hn⟩
      · rfl
      · cases s with
        | name k => rw [compIdx_text_name (hp _ (List.mem_cons_self ..))] at hn; cases hn
        | idx m =>
          rw [show Step.text (.idx m) = toString m from rfl, compIdx_toString] at hn
          cases hn
          rfl

theorem plain_shape {p np : List Step} (h : SameShape p np) (hp : ∀ s ∈ p, s.Plain) :
    ∀ s ∈ np, s.Plain := by
  induction h with
  | nil => exact hp
  | name k _ ih =>
    intro s hs
    rcases List.mem_cons.mp hs with rfl | hs
    · exact hp _ (List.mem_cons_self ..)
    · exact ih (fun s hs => hp s (List.mem_cons_of_mem _ hs)) s hs
  | idx n m _ ih =>
    intro s hs
    rcases List.mem_cons.mp hs with rfl | hs
    · trivial
    · exact ih (fun s hs => hp s (List.mem_cons_of_mem _ hs)) s hs

/-- **C96.** If no name on the selected places is a number, a selected value is found only below a place
with the same names as the place it was selected at; the array positions may differ. -/
theorem limited_where_partial {src T L : Json} {fields : List Field} (hs : EvalSound eval src)
    (hd : ∀ f ∈ fields, ∀ ps, eval f.path src = some ps → ∀ p ∈ ps, ∀ s ∈ p, s.Plain)
    (h : setFields eval src T fields = some L) {q : List Step} {v : Json} (hq : gat L q = some v)
    (hl : Leaf v) :
    gat T q = some v ∨ v = .null ∨
      ∃ f ∈ fields, ∃ ps, eval f.path src = some ps ∧ ∃ p ∈ ps, NoSchema p ∧
        ∃ np q1 r, SameShape p np ∧ q1.map Step.text = np.map Step.text ∧ q = q1 ++ r ∧
          ((f.predicateReq = true ∧ v = .bool true ∧ r = []) ∨
            (f.predicateReq = false ∧ gat src (p ++ r) = some v)) := by
  rcases setFields_prov hs fields (fun f hf ps hps p hp => noDots_of_plain (hd f hf ps hps p hp)) T L h q v
    hq hl with h | h | ⟨f, hf, ps, hps, p, hp, np, q1, r, hsh, _, hns, e, hf2, h⟩
  · exact .inl h
  · exact .inr (.inl h)
  · exact .inr (.inr ⟨f, hf, ps, hps, p, hp, hns, np, q1, r, hsh,
      addr_text (plain_shape hsh (hd f hf ps hps p hp)) hf2, e, h⟩)

/-! ## The template -/

theorem gat_name (o : JObj) (k : String) (r : List Step) :
    gat (.obj o) (.name k :: r) = (get? o k).bind (fun x => gat x r) := rfl

theorem gat_scalar {j : Json} (h : Leaf j) {q : List Step} {v : Json} (hq : gat j q = some v) : v = j ∧ q = [] := by
  cases q with
  | nil => rw [gat_nil] at hq; exact ⟨(Option.some.inj hq).symm, rfl⟩
  | cons s q => cases h <;> cases s <;> simp [gat] at hq

theorem subject_obj {i : String} {q : List Step} {v : Json}
    (h : gat (.obj (Vfy.subjectToJSON ⟨i, []⟩)) q = some v) (hl : Leaf v) :
    (v = .obj [] ∧ i = "" ∧ q = []) ∨ (v = .str i ∧ q = [.name "id"]) := by
  unfold Vfy.subjectToJSON at h
  by_cases hi : i ≠ ""
  · simp only [if_pos hi] at h
    cases q with
    | nil => rw [gat_nil] at h; cases h; cases hl
    | cons s q =>
      cases s with
      | idx n => simp [gat] at h
      | name k =>
        rw [gat_name] at h
        by_cases hk : "id" = k
        · subst hk
          rw [get?_set_self] at h
          obtain ⟨rfl, rfl⟩ := gat_scalar (.str i) h
          exact .inr ⟨rfl, rfl⟩
        · rw [get?_set_ne _ _ hk] at h
          simp at h
  · simp only [if_neg hi] at h
    obtain ⟨rfl, rfl⟩ := gat_scalar .emptyObj h
    exact .inl ⟨rfl, by simpa using hi, rfl⟩

/-- **C96.** What a limited credential shows besides the selected values: nulls, and in full the five
members `id`, `type`, `@context`, `issuer`, `issuanceDate` of the credential, and of the subjects
nothing but their ids (an empty object stands for a subject without id). -/
theorem template_only {raw : JObj} {subjects : List Vfy.Subject} {q : List Step} {v : Json}
    (hq : gat (.obj (template true raw subjects)) q = some v) (hl : Leaf v) :
    v = .null ∨
    (∃ k ∈ ["id", "type", "@context", "issuer", "issuanceDate"], ∃ r, q = .name k :: r ∧
      gat (.obj raw) q = some v) ∨
    (∃ r, q = .name "credentialSubject" :: r ∧ ∃ s ∈ subjects, v = .str s.id ∨ (s.id = "" ∧ v = .obj [])) := by
  unfold template at hq
  simp only [if_true] at hq
  cases q with
  | nil =>
    exfalso
    rw [gat_nil] at hq
    have e := Option.some.inj hq
    subst e
    generalize e : GoMap.set (JsonUtil.select raw ["id", "type", "@context", "issuer", "issuanceDate"])
      "credentialSubject" (copyOnlySubjectIDs subjects) = o at hl
    cases hl
    have := get?_set_self (JsonUtil.select raw ["id", "type", "@context", "issuer", "issuanceDate"])
      "credentialSubject" (copyOnlySubjectIDs subjects)
    rw [e] at this
    simp at this
  | cons s r =>
    cases s with
    | idx n => simp [gat] at hq
    | name k =>
      rw [gat_name] at hq
      by_cases hk : "credentialSubject" = k
      · subst hk
        rw [get?_set_self, Option.bind_some] at hq
        have one : ∀ (s : Vfy.Subject) (r' : List Step), s ∈ subjects →
            gat (.obj (Vfy.subjectToJSON ⟨s.id, []⟩)) r' = some v →
            ∃ s ∈ subjects, v = .str s.id ∨ (s.id = "" ∧ v = .obj []) := by
          intro s r' hs h
          rcases subject_obj h hl with ⟨h1, h2, _⟩ | ⟨h1, _⟩
          · exact ⟨s, hs, .inr ⟨h2, h1⟩⟩
          · exact ⟨s, hs, .inl h1⟩
        match subjects, hq, one with
        | [], hq, _ =>
          obtain ⟨rfl, _⟩ := gat_scalar .null hq
          exact .inl rfl
        | [s], hq, one =>
          unfold copyOnlySubjectIDs at hq
          dsimp only at hq
          by_cases hc : s.custom.isEmpty
          · rw [if_pos hc] at hq
            obtain ⟨rfl, _⟩ := gat_scalar (.str _) hq
            exact .inr (.inr ⟨r, rfl, s, by simp, .inl rfl⟩)
          · rw [if_neg hc] at hq
            exact .inr (.inr ⟨r, rfl, one s r (by simp) hq⟩)
        | s :: s' :: ss, hq, one =>
          unfold copyOnlySubjectIDs at hq
          cases r with
          | nil => 
            exfalso
            rw [gat_nil] at hq
            have e := Option.some.inj hq
            rw [← e] at hl
            cases hl
          | cons t r =>
            cases t with
            | name k => simp [gat] at hq
            | idx n =>
              simp only [gat] at hq
              obtain ⟨x, hx, hq⟩ := Option.bind_eq_some_iff.mp hq
              rw [List.getElem?_map] at hx
              obtain ⟨y, hy, rfl⟩ := Option.map_eq_some_iff.mp hx
              exact .inr (.inr ⟨_, rfl, one y r (List.mem_of_getElem? hy) hq⟩)
      · rw [get?_set_ne _ _ hk, JsonUtil.select_lookup] at hq
        by_cases hm : k ∈ ["id", "type", "@context", "issuer", "issuanceDate"]
        · rw [if_pos hm, Option.bind_some] at hq
          cases hg : get? raw k with
          | none =>
            rw [hg] at hq
            obtain ⟨rfl, _⟩ := gat_scalar .null hq
            exact .inl rfl
          | some x =>
            rw [hg] at hq
            refine .inr (.inl ⟨k, hm, r, rfl, ?_⟩)
            rw [gat_name, hg]
            exact hq
        · rw [if_neg hm] at hq
          cases hq

/-- **C96.** The whole of it: a credential limited by constraints with `limit_disclosure: required`
shows, besides nulls, only the five members, the subjects' ids, and what the fields select. -/
theorem limited_credential_shows_only_partial {k : Constraints} {raw : JObj} {subjects : List Vfy.Subject}
    {L : Json} (hk : k.limitReq = true) (hs : EvalSound eval (.obj raw))
    (hd : ∀ f ∈ k.fields, ∀ ps, eval f.path (.obj raw) = some ps → ∀ p ∈ ps, ∀ n, Step.name n ∈ p →
      '.' ∉ n.toList)
    (h : limitedDoc eval k raw subjects = some L) {q : List Step} {v : Json} (hq : gat L q = some v)
    (hl : Leaf v) :
    v = .null ∨
    (∃ m ∈ ["id", "type", "@context", "issuer", "issuanceDate"], ∃ r, q = .name m :: r ∧
      gat (.obj raw) q = some v) ∨
    (∃ r, q = .name "credentialSubject" :: r ∧ ∃ s ∈ subjects, v = .str s.id ∨ (s.id = "" ∧ v = .obj [])) ∨
    (∃ f ∈ k.fields, ∃ ps, eval f.path (.obj raw) = some ps ∧ ∃ p ∈ ps, NoSchema p ∧
        ((f.predicateReq = true ∧ v = .bool true) ∨
          (f.predicateReq = false ∧ ∃ r, gat (.obj raw) (p ++ r) = some v))) := by
  unfold limitedDoc at h
  rw [hk] at h
  rcases limited_only_selected_partial hs hd h hq hl with h | h | h
  · rcases template_only h hl with h | h | h
    · exact .inl h
    · exact .inr (.inl h)
    · exact .inr (.inr (.inl h))
  · exact .inl h
  · exact .inr (.inr (.inr h))

end VC.PE
