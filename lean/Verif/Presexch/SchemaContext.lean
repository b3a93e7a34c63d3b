import Verif.Presexch.ConstraintsProps
import Verif.Base.GoMap
/-!
# presexch: which schemas a credential has, from its JSON-LD contexts (C116)

`filterSchema` with its map of contexts, `getContext` and `typeFoundInContext` of
`presexch/definition.go`.  The JSON-LD library is a parameter (`LdLib`).  The specification is the
second half; `filterSchemaC_refines` ties this to the abstract `load` of `Constraints.lean`.
-/

namespace VC.PE

/-! ## Model -/

/-- The JSON-LD library (piprate/json-gold) and the document loader. -/
structure LdLib where
  Ctx : Type
  /-- `LoadDocument(uri)` and `.Document` -/
  load : String → Option Json
  /-- `NewContext(nil, opt).Parse` -/
  parse : Json → Option Ctx
  /-- `GetTermDefinition` -/
  term : Ctx → String → Option JObj
  /-- `Parse` of a scoped context -/
  extend : Ctx → JObj → Option Ctx
  /-- `ExpandIri(id, false, false, nil, nil)` -/
  expand : Ctx → String → Option String

/-- `strings.SplitN(uri, "#", 2)[0]`. -/
def beforeHash (uri : String) : String := String.ofList (uri.toList.takeWhile (fun c => c ≠ '#'))

/-- `getContext`, definition.go:1939-1969. -/
def getContext (L : LdLib) (uri : String) : Option L.Ctx :=
  match L.load (beforeHash uri) with
  | some (.obj doc) =>
    match GoMap.get? doc "@context" with
    | none => none
    | some c => L.parse c
  | _ => none

/-- A string value of a type assertion `.(string)`, the empty string if it fails. -/
def strOr : Option Json → String
  | some (.str s) => s
  | _ => ""

/-- The IDs before the scoped context is looked at, definition.go:1907-1917. -/
def plainIDs (typ : String) (td : JObj) : List String :=
  match GoMap.get? td "@id" with
  | some (.str i) => [typ, i]
  | _ => [typ]

/-- `typeFoundInContext`, definition.go:1906-1937; an error is the same as nothing found
(definition.go:1877-1880). -/
def typeIDs (L : LdLib) (ctx : L.Ctx) (typ : String) : List String :=
  match L.term ctx typ with
  | none => []
  | some td =>
    match GoMap.get? td "@context" with
    | some (.obj tc) =>
      match L.extend ctx tc with
      | none => []
      | some x =>
        match L.expand x (strOr (GoMap.get? td "@id")) with
        | none => []
        | some iri => plainIDs typ td ++ [iri]
    | _ => plainIDs typ td

/-- The contexts loaded so far, and the log of the calls of `getContext`. -/
structure CtxState (L : LdLib) where
  cache : GoMap L.Ctx
  log : List String

/-- The loop over the contexts of a credential, definition.go:1863-1884. -/
def ctxLoop (L : LdLib) (types : List String) :
    List String → CtxState L → Option (List String) × CtxState L
  | [], st => (some [], st)
  | u :: us, st =>
    match GoMap.get? st.cache u with
    | some x =>
      match ctxLoop L types us st with
      | (none, st') => (none, st')
      | (some r, st') => (some (types.flatMap (typeIDs L x) ++ r), st')
    | none =>
      match getContext L u with
      | none => (none, ⟨st.cache, st.log ++ [u]⟩)
      | some x =>
        match ctxLoop L types us ⟨GoMap.set st.cache u x, st.log ++ [u]⟩ with
        | (none, st') => (none, st')
        | (some r, st') => (some (types.flatMap (typeIDs L x) ++ r), st')

/-- The loop over the credentials, definition.go:1859-1901. -/
def credLoop (L : LdLib) (schemas : List Schema) :
    List Cred → CtxState L → Option (List Cred) × CtxState L
  | [], st => (some [], st)
  | c :: cs, st =>
    match ctxLoop L c.types c.contexts st with
    | (none, st') => (none, st')
    | (some sat, st') =>
      match credLoop L schemas cs st' with
      | (none, st'') => (none, st'')
      | (some r, st'') => (some (if schemaLoop sat schemas false then c :: r else r), st'')

/-- `filterSchema`, definition.go:1852-1904: its result, and the contexts it loads. -/
def filterSchemaC (L : LdLib) (schemas : List Schema) (cs : List Cred) : Option (List Cred) × List String :=
  ((credLoop L schemas cs ⟨[], []⟩).1, (credLoop L schemas cs ⟨[], []⟩).2.log)

/-! ## Specification -/

/-- `x` is the context behind a URI: the document at the URI without its fragment is an object whose
`@context` is `x`. -/
def ContextAt (L : LdLib) (uri : String) (x : L.Ctx) : Prop :=
  ∃ u doc c, (uri = u ∧ '#' ∉ u.toList ∨ ∃ f, uri = u ++ "#" ++ f ∧ '#' ∉ u.toList) ∧
    L.load u = some (.obj doc) ∧ GoMap.get? doc "@context" = some c ∧ L.parse c = some x

/-- The names of a type in a context that has a definition `td` of it. -/
inductive NameOf (L : LdLib) (x : L.Ctx) (typ : String) (td : JObj) : String → Prop
  /-- the type's own name -/
  | self : NameOf L x typ td typ
  /-- the `@id` of the definition -/
  | id {i : String} : GoMap.get? td "@id" = some (.str i) → NameOf L x typ td i
  /-- the `@id`, or the empty string, expanded in the scoped context of the definition -/
  | inScope {tc : JObj} {y : L.Ctx} {i iri : String} : GoMap.get? td "@context" = some (.obj tc) →
      L.extend x tc = some y → (GoMap.get? td "@id" = some (.str i) ∨
        (∀ s, GoMap.get? td "@id" ≠ some (.str s)) ∧ i = "") →
      L.expand y i = some iri → NameOf L x typ td iri

/-- The scoped context of a definition, if it has one, can be used. -/
def Usable (L : LdLib) (x : L.Ctx) (td : JObj) : Prop :=
  ∀ tc, GoMap.get? td "@context" = some (.obj tc) → ∃ y iri, L.extend x tc = some y ∧
    ∀ i, (GoMap.get? td "@id" = some (.str i) ∨ (∀ s, GoMap.get? td "@id" ≠ some (.str s)) ∧ i = "") →
      L.expand y i = some iri

/-- The credential is of the schema `uri`: one of its contexts, taken by itself, defines one of its types
with that name. -/
def OfSchema (L : LdLib) (c : Cred) (uri : String) : Prop :=
  ∃ ctx ∈ c.contexts, ∃ x, ContextAt L ctx x ∧ ∃ t ∈ c.types, ∃ td, L.term x t = some td ∧ Usable L x td ∧
    NameOf L x t td uri

/-! ## Proofs -/

variable {L : LdLib}

theorem beforeHash_spec (uri u : String) :
    beforeHash uri = u ↔ (uri = u ∧ '#' ∉ u.toList ∨ ∃ f, uri = u ++ "#" ++ f ∧ '#' ∉ u.toList) := by
  unfold beforeHash
  have key : ∀ l : List Char, ∀ r, l.takeWhile (fun c => c ≠ '#') = r ↔
      (l = r ∧ '#' ∉ r ∨ ∃ f, l = r ++ '#' :: f ∧ '#' ∉ r) := by
    intro l
    induction l with
    | nil =>
      intro r
      simp only [List.takeWhile_nil]
      constructor
      · rintro rfl; exact .inl ⟨rfl, by simp⟩
      · rintro (⟨h, _⟩ | ⟨f, h, _⟩)
        · exact h
        · simp at h
    | cons c l ih =>
      intro r
      by_cases hc : c = '#'
      · subst hc
        simp only [List.takeWhile_cons, ne_eq, not_true_eq_false, decide_false, Bool.false_eq_true, if_false]
        constructor
        · rintro rfl; exact .inr ⟨l, rfl, by simp⟩
        · rintro (⟨rfl, h⟩ | ⟨f, h, hn⟩)
          · simp at h
          · cases r with
            | nil => rfl
            | cons a r =>
              simp only [List.cons_append, List.cons.injEq] at h
              rw [← h.1] at hn
              simp at hn
      · have hd : decide (c ≠ '#') = true := by simpa using hc
        simp only [List.takeWhile_cons, hd, if_true]
        cases r with
        | nil =>
          simp only [reduceCtorEq, false_and, List.nil_append, List.cons.injEq, false_or, false_iff, not_exists,
            not_and]
          intro f h; exact absurd h.1 hc
        | cons a r =>
          simp only [List.cons.injEq, ih r, List.cons_append, List.mem_cons, not_or]
          constructor
          · rintro ⟨rfl, ⟨h1, h2⟩ | ⟨f, h1, h2⟩⟩
            · exact .inl ⟨⟨rfl, h1⟩, fun h => hc h.symm, h2⟩
            · exact .inr ⟨f, ⟨rfl, h1⟩, fun h => hc h.symm, h2⟩
          · rintro (⟨⟨rfl, h1⟩, _, h2⟩ | ⟨f, ⟨rfl, h1⟩, _, h2⟩)
            · exact ⟨rfl, .inl ⟨h1, h2⟩⟩
            · exact ⟨rfl, .inr ⟨f, h1, h2⟩⟩
  constructor
  · intro h
    have h' := (key uri.toList u.toList).1 (by rw [← h, String.toList_ofList])
    rcases h' with ⟨h1, h2⟩ | ⟨f, h1, h2⟩
    · exact .inl ⟨String.toList_injective h1, h2⟩
    · refine .inr ⟨String.ofList f, String.toList_injective ?_, h2⟩
      rw [h1]
      simp [String.toList_append]
  · intro h
    apply String.toList_injective
    rw [String.toList_ofList]
    refine (key uri.toList u.toList).2 ?_
    rcases h with ⟨rfl, h⟩ | ⟨f, rfl, h⟩
    · exact .inl ⟨rfl, h⟩
    · exact .inr ⟨f.toList, by simp [String.toList_append], h⟩

theorem getContext_iff (uri : String) (x : L.Ctx) : getContext L uri = some x ↔ ContextAt L uri x := by
  unfold getContext ContextAt
  constructor
  · intro h
    split at h
    · next doc hd =>
      split at h
      · cases h
      · next c hc => exact ⟨_, doc, c, (beforeHash_spec uri _).1 rfl, hd, hc, h⟩
    · cases h
  · rintro ⟨u, doc, c, hu, hl, hg, hp⟩
    rw [(beforeHash_spec uri u).2 hu, hl]
    dsimp only
    rw [hg]
    exact hp

theorem strOr_iff (o : Option Json) (i : String) :
    strOr o = i ↔ (o = some (.str i) ∨ (∀ s, o ≠ some (.str s)) ∧ i = "") := by
  unfold strOr
  split
  · next s =>
    constructor
    · rintro rfl; exact .inl rfl
    · rintro (h | ⟨h, _⟩)
      · cases h; rfl
      · exact absurd rfl (h s)
  · next hn =>
    constructor
    · rintro rfl; exact .inr ⟨fun s h => hn s h, rfl⟩
    · rintro (h | ⟨_, h⟩)
      · exact absurd h (hn i)
      · exact h.symm

theorem mem_plainIDs (typ : String) (td : JObj) (u : String) :
    u ∈ plainIDs typ td ↔ u = typ ∨ GoMap.get? td "@id" = some (.str u) := by
  unfold plainIDs
  split
  · next i hi =>
    rw [hi]
    simp only [List.mem_cons, List.not_mem_nil, or_false, Option.some.injEq, Json.str.injEq]
    constructor
    · rintro (h | h)
      · exact .inl h
      · exact .inr h.symm
    · rintro (h | h)
      · exact .inl h
      · exact .inr h.symm
  · next hn =>
    simp only [List.mem_singleton]
    exact ⟨.inl, fun h => h.elim id (fun h => absurd h (hn u))⟩

theorem mem_typeIDs (x : L.Ctx) (t u : String) :
    u ∈ typeIDs L x t ↔ ∃ td, L.term x t = some td ∧ Usable L x td ∧ NameOf L x t td u := by
  unfold typeIDs
  cases ht : L.term x t with
  | none => simp
  | some td =>
    simp only [Option.some.injEq, exists_eq_left']
    have hplain : (∀ tc, GoMap.get? td "@context" ≠ some (.obj tc)) →
        (u ∈ plainIDs t td ↔ Usable L x td ∧ NameOf L x t td u) := by
      intro hn
      rw [mem_plainIDs]
      constructor
      · rintro (rfl | h)
        · exact ⟨fun tc h => absurd h (hn tc), .self⟩
        · exact ⟨fun tc h => absurd h (hn tc), .id h⟩
      · rintro ⟨_, h⟩
        cases h with
        | self => exact .inl rfl
        | id h => exact .inr h
        | inScope h => exact absurd h (hn _)
    split
    · next tc htc =>
      cases he : L.extend x tc with
      | none =>
        simp only [List.not_mem_nil, false_iff, not_and]
        intro hu
        obtain ⟨y, _, h, _⟩ := hu tc htc
        rw [he] at h; cases h
      | some y =>
        dsimp only
        cases hx : L.expand y (strOr (GoMap.get? td "@id")) with
        | none =>
          simp only [List.not_mem_nil, false_iff, not_and]
          intro hu
          obtain ⟨y', iri, h, hi⟩ := hu tc htc
          rw [he] at h; cases h
          rw [hi _ ((strOr_iff _ _).1 rfl)] at hx; cases hx
        | some iri =>
          have husable : Usable L x td := by
            intro tc' h
            rw [htc] at h; cases h
            refine ⟨y, iri, he, fun i hi => ?_⟩
            rw [← (strOr_iff _ _).2 hi]
            exact hx
          simp only [List.mem_append, List.mem_singleton, mem_plainIDs]
          constructor
          · rintro ((rfl | h) | rfl)
            · exact ⟨husable, .self⟩
            · exact ⟨husable, .id h⟩
            · exact ⟨husable, .inScope htc he ((strOr_iff _ _).1 rfl) hx⟩
          · rintro ⟨_, h⟩
            cases h with
            | self => exact .inl (.inl rfl)
            | id h => exact .inl (.inr h)
            | inScope h1 h2 h3 h4 =>
              rw [htc] at h1; cases h1
              rw [he] at h2; cases h2
              rw [← (strOr_iff _ _).2 h3, hx] at h4
              cases h4
              exact .inr rfl
    · next hn => exact hplain (fun tc h => hn tc h)

/-- The abstract `load` of `Constraints.lean`. -/
def loadOf (L : LdLib) (u : String) : Option (String → List String) := (getContext L u).map (typeIDs L)

/-- The map holds what loading gives; everything in it was loaded once. -/
structure CtxInv (L : LdLib) (st : CtxState L) : Prop where
  cache : ∀ u x, GoMap.get? st.cache u = some x → getContext L u = some x
  logged : ∀ u, GoMap.get? st.cache u = none → u ∉ st.log ∨ getContext L u = none
  nodup : st.log.Nodup
  alive : ∀ u ∈ st.log, GoMap.get? st.cache u ≠ none

theorem ctxLoop_spec (types : List String) : ∀ (us : List String) (st : CtxState L), CtxInv L st →
    (ctxLoop L types us st).1 = schemaIDs (loadOf L) types us ∧
    (ctxLoop L types us st).2.log.Nodup ∧ (∀ u ∈ (ctxLoop L types us st).2.log, u ∈ st.log ∨ u ∈ us) ∧
    ((ctxLoop L types us st).1 ≠ none → CtxInv L (ctxLoop L types us st).2)
  | [], st, h => ⟨rfl, h.nodup, fun u hu => .inl hu, fun _ => h⟩
  | u :: us, st, h => by
    simp only [ctxLoop, schemaIDs]
    cases hg : GoMap.get? st.cache u with
    | some x =>
      have hl : loadOf L u = some (typeIDs L x) := by
        unfold loadOf
        rw [h.cache u x hg]; rfl
      rw [hl]
      dsimp only
      obtain ⟨i1, i2, i3, i4⟩ := ctxLoop_spec types us st h
      rw [← i1]
      revert i1 i2 i3 i4
      generalize ctxLoop L types us st = p
      obtain ⟨o, st'⟩ := p
      intro i1 i2 i3 i4
      cases o with
      | none => exact ⟨rfl, i2, fun v hv => (i3 v hv).imp_right (List.mem_cons_of_mem _), fun h => absurd rfl h⟩
      | some r => exact ⟨rfl, i2, fun v hv => (i3 v hv).imp_right (List.mem_cons_of_mem _), fun _ => i4 (by simp)⟩
    | none =>
      have hnew : u ∉ st.log := fun hm => h.alive u hm hg
      have hnd : (st.log ++ [u]).Nodup := by
        rw [List.nodup_append]
        refine ⟨h.nodup, by simp, ?_⟩
        intro a ha b hb
        rw [List.mem_singleton.1 hb]
        rintro rfl
        exact hnew ha
      have hmem : ∀ v ∈ st.log ++ [u], v ∈ st.log ∨ v = u := by
        intro v hv
        simpa using hv
      cases hc : getContext L u with
      | none =>
        have hl : loadOf L u = none := by unfold loadOf; rw [hc]; rfl
        rw [hl]
        exact ⟨rfl, hnd, fun v hv => (hmem v hv).imp_right (fun e => by rw [e]; exact List.mem_cons_self), fun h => absurd rfl h⟩
      | some x =>
        have hl : loadOf L u = some (typeIDs L x) := by unfold loadOf; rw [hc]; rfl
        rw [hl]
        dsimp only
        have hinv : CtxInv L ⟨GoMap.set st.cache u x, st.log ++ [u]⟩ := by
          refine ⟨?_, ?_, hnd, ?_⟩
          · intro v y hv
            by_cases e : u = v
            · subst e
              rw [GoMap.get?_set_self] at hv
              cases hv; exact hc
            · rw [GoMap.get?_set_ne _ _ e] at hv
              exact h.cache v y hv
          · intro v hv
            by_cases e : u = v
            · subst e
              rw [GoMap.get?_set_self] at hv; cases hv
            · rw [GoMap.get?_set_ne _ _ e] at hv
              rcases h.logged v hv with h1 | h1
              · refine .inl (fun hm => ?_)
                rcases hmem v hm with h2 | h2
                · exact h1 h2
                · exact e h2.symm
              · exact .inr h1
          · intro v hv
            by_cases e : u = v
            · subst e
              rw [GoMap.get?_set_self]; simp
            · rw [GoMap.get?_set_ne _ _ e]
              rcases hmem v hv with h2 | h2
              · exact h.alive v h2
              · exact absurd h2.symm e
        obtain ⟨i1, i2, i3, i4⟩ := ctxLoop_spec types us _ hinv
        rw [← i1]
        revert i1 i2 i3 i4
        generalize ctxLoop L types us ⟨GoMap.set st.cache u x, st.log ++ [u]⟩ = p
        obtain ⟨o, st'⟩ := p
        intro i1 i2 i3 i4
        have hin : ∀ v ∈ st'.log, v ∈ st.log ∨ v ∈ u :: us := by
          intro v hv
          rcases i3 v hv with h1 | h1
          · rcases hmem v h1 with h2 | h2
            · exact .inl h2
            · exact .inr (h2 ▸ List.mem_cons_self)
          · exact .inr (List.mem_cons_of_mem _ h1)
        cases o with
        | none => exact ⟨rfl, i2, hin, fun h => absurd rfl h⟩
        | some r => exact ⟨rfl, i2, hin, fun _ => i4 (by simp)⟩

theorem credLoop_spec (schemas : List Schema) : ∀ (cs : List Cred) (st : CtxState L), CtxInv L st →
    (credLoop L schemas cs st).1 = filterSchema (loadOf L) schemas cs ∧
    (credLoop L schemas cs st).2.log.Nodup ∧
    (∀ u ∈ (credLoop L schemas cs st).2.log, u ∈ st.log ∨ ∃ c ∈ cs, u ∈ c.contexts)
  | [], st, h => ⟨rfl, h.nodup, fun u hu => .inl hu⟩
  | c :: cs, st, h => by
    obtain ⟨i1, i2, i3, i4⟩ := ctxLoop_spec c.types c.contexts st h
    simp only [credLoop, filterSchema]
    rw [← i1]
    revert i1 i2 i3 i4
    generalize ctxLoop L c.types c.contexts st = p
    obtain ⟨o, st'⟩ := p
    intro i1 i2 i3 i4
    have hin : ∀ v ∈ st'.log, v ∈ st.log ∨ ∃ x ∈ c :: cs, v ∈ x.contexts := fun v hv =>
      (i3 v hv).imp_right (fun h => ⟨c, List.mem_cons_self, h⟩)
    cases o with
    | none => exact ⟨rfl, i2, hin⟩
    | some sat =>
      dsimp only
      obtain ⟨j1, j2, j3⟩ := credLoop_spec schemas cs st' (i4 (by simp))
      rw [← j1]
      revert j1 j2 j3
      generalize credLoop L schemas cs st' = p
      obtain ⟨o, st''⟩ := p
      intro j1 j2 j3
      have hin' : ∀ v ∈ st''.log, v ∈ st.log ∨ ∃ x ∈ c :: cs, v ∈ x.contexts := by
        intro v hv
        rcases j3 v hv with h1 | ⟨x, hx, h1⟩
        · exact hin v h1
        · exact .inr ⟨x, List.mem_cons_of_mem _ hx, h1⟩
      cases o with
      | none => exact ⟨rfl, j2, hin'⟩
      | some r => exact ⟨rfl, j2, hin'⟩

theorem ctxInv_start : CtxInv L ⟨[], []⟩ :=
  ⟨fun _ _ h => (nomatch h), fun _ _ => .inl (by simp), List.nodup_nil, fun _ h => (nomatch h)⟩

/-- The map of contexts changes nothing in the result. -/
theorem filterSchemaC_refines (ss : List Schema) (cs : List Cred) :
    (filterSchemaC L ss cs).1 = filterSchema (loadOf L) ss cs :=
  (credLoop_spec ss cs _ ctxInv_start).1

/-- **C116.**  Each context is loaded at most once, and only contexts of the given credentials are. -/
theorem contexts_loaded_once (ss : List Schema) (cs : List Cred) :
    (filterSchemaC L ss cs).2.Nodup ∧ ∀ u ∈ (filterSchemaC L ss cs).2, ∃ c ∈ cs, u ∈ c.contexts := by
  obtain ⟨_, h2, h3⟩ := credLoop_spec (L := L) ss cs _ ctxInv_start
  refine ⟨h2, fun u hu => ?_⟩
  rcases h3 u hu with h | h
  · cases h
  · exact h

theorem hasSchema_iff (c : Cred) (uri : String) : HasSchema (loadOf L) c uri ↔ OfSchema L c uri := by
  unfold HasSchema OfSchema
  constructor
  · rintro ⟨ctx, hc, ids, hl, t, ht, hu⟩
    unfold loadOf at hl
    simp only [Option.map_eq_some_iff] at hl
    obtain ⟨x, hx, rfl⟩ := hl
    exact ⟨ctx, hc, x, (getContext_iff _ _).1 hx, t, ht, (mem_typeIDs _ _ _).1 hu⟩
  · rintro ⟨ctx, hc, x, hx, t, ht, h⟩
    refine ⟨ctx, hc, typeIDs L x, ?_, t, ht, (mem_typeIDs _ _ _).2 h⟩
    unfold loadOf
    rw [(getContext_iff _ _).2 hx]; rfl

/-- **C116.**  Filtering by schema keeps exactly the credentials that are of every required schema and of at
least one of the schemas named. -/
theorem schema_filter_exact {ss : List Schema} {cs r : List Cred} (h : (filterSchemaC L ss cs).1 = some r) :
    r.Sublist cs ∧ ∀ c, (c ∈ r ↔ c ∈ cs ∧ (∀ s ∈ ss, s.required = true → OfSchema L c s.uri) ∧
      ∃ s ∈ ss, OfSchema L c s.uri) := by
  rw [filterSchemaC_refines] at h
  obtain ⟨h1, h2⟩ := filterSchema_exact (loadOf L) ss cs r h
  refine ⟨h1, fun c => ?_⟩
  rw [h2]
  simp only [hasSchema_iff]

theorem schemaIDs_none {load : String → Option (String → List String)} {types : List String} :
    ∀ {us : List String}, schemaIDs load types us = none ↔ ∃ u ∈ us, load u = none
  | [] => by simp [schemaIDs]
  | u :: us => by
    simp only [schemaIDs]
    cases hl : load u with
    | none => exact ⟨fun _ => ⟨u, List.mem_cons_self, hl⟩, fun _ => rfl⟩
    | some ids =>
      dsimp only
      rw [Option.map_eq_none_iff, schemaIDs_none]
      simp [hl]

/-- **C116, deviation.**  Filtering fails as a whole exactly if one context of one credential, of whatever
type, cannot be loaded. -/
theorem one_bad_context_fails_all (ss : List Schema) (cs : List Cred) :
    (filterSchemaC L ss cs).1 = none ↔ ∃ c ∈ cs, ∃ u ∈ c.contexts, ∀ x, ¬ ContextAt L u x := by
  rw [filterSchemaC_refines]
  have hn : ∀ u, loadOf L u = none ↔ ∀ x, ¬ ContextAt L u x := by
    intro u
    unfold loadOf
    rw [Option.map_eq_none_iff, Option.eq_none_iff_forall_not_mem]
    constructor
    · exact fun h x hx => h x ((getContext_iff u x).2 hx)
    · exact fun h x hx => h x ((getContext_iff u x).1 hx)
  induction cs with
  | nil => simp [filterSchema]
  | cons c cs ih =>
    simp only [filterSchema]
    cases hs : schemaIDs (loadOf L) c.types c.contexts with
    | none =>
      obtain ⟨u, hu, h⟩ := schemaIDs_none.1 hs
      exact ⟨fun _ => ⟨c, List.mem_cons_self, u, hu, (hn u).1 h⟩, fun _ => rfl⟩
    | some sat =>
      dsimp only
      rw [Option.map_eq_none_iff]
      refine Iff.trans ih ?_
      constructor
      · rintro ⟨x, hx, h⟩; exact ⟨x, List.mem_cons_of_mem _ hx, h⟩
      · rintro ⟨x, hx, u, hu, h⟩
        rcases List.mem_cons.1 hx with rfl | hx
        · have := schemaIDs_none (types := x.types) |>.2 ⟨u, hu, (hn u).2 h⟩
          rw [hs] at this; cases this
        · exact ⟨x, hx, u, hu, h⟩

/-- Neither the order of the contexts nor that of the types matters — unlike in JSON-LD, where a later
context replaces the terms of an earlier one. -/
theorem schema_order_irrelevant {c c' : Cred} (h1 : c.contexts.Perm c'.contexts) (h2 : c.types.Perm c'.types)
    (uri : String) : OfSchema L c uri ↔ OfSchema L c' uri := by
  unfold OfSchema
  simp only [h1.mem_iff, h2.mem_iff]

/-! ## Examples -/

/-- Two contexts that define `Degree` differently; the second has a scoped context. -/
def scLd : LdLib where
  Ctx := JObj
  load := fun u => if u = "urn:a" then some (.obj [("@context", .obj [("Degree", .obj [("@id", .str "urn:Degree")])])])
    else if u = "urn:b" then some (.obj [("@context", .obj [("Degree", .obj [("@id", .str "Deg"),
      ("@context", .obj [("@vocab", .str "urn:v#")])])])]) else none
  parse := fun j => match j with
    | .obj o => some o
    | _ => none
  term := fun x t => match GoMap.get? x t with
    | some (.obj o) => some o
    | _ => none
  extend := fun _ tc => some tc
  expand := fun x i => match GoMap.get? x "@vocab" with
    | some (.str v) => some (v ++ i)
    | _ => some i

/-- A credential with both contexts. -/
def scCred (ctxs : List String) : Cred := { pcCred with contexts := ctxs, types := ["Degree"] }

/-- It is of the schemas of both contexts, whichever comes last; also of its bare type name. -/
theorem shadowed_schema_matches : OfSchema scLd (scCred ["urn:a", "urn:b#x"]) "urn:Degree" ∧
    OfSchema scLd (scCred ["urn:a", "urn:b#x"]) "urn:v#Deg" ∧ OfSchema scLd (scCred ["urn:a", "urn:b#x"]) "Degree" := by
  simp only [← hasSchema_iff]
  exact ⟨⟨"urn:a", .head _, _, rfl, "Degree", .head _, .tail _ (.head _)⟩,
    ⟨"urn:b#x", .tail _ (.head _), _, rfl, "Degree", .head _, .tail _ (.tail _ (.head _))⟩,
    ⟨"urn:a", .head _, _, rfl, "Degree", .head _, .head _⟩⟩

/-- Two credentials with the same contexts: two loads. -/
example : (filterSchemaC scLd [⟨"urn:Degree", true⟩] [scCred ["urn:a", "urn:b#x"], scCred ["urn:b#x", "urn:a"]]).2 =
    ["urn:a", "urn:b#x"] := by rfl

example : ((filterSchemaC scLd [⟨"urn:Degree", true⟩] [scCred ["urn:a"], scCred ["urn:b"]]).1.map
    (fun r => r.map Cred.contexts)) = some [["urn:a"]] := by rfl

/-- A context that is not there fails everything. -/
example : (filterSchemaC scLd [⟨"urn:Degree", true⟩] [scCred ["urn:a"], scCred ["urn:c"]]).1 = none := by rfl

end VC.PE
