import Verif.Schema.Exact
import Verif.Verifiable.Contents
/-!
# Which schema a credential is validated against (model)

verifiable/credential.go:2168-2351.

Simplified: a schema text given by the caller or downloaded is an abstract text with an abstract
verdict (`validateText`, gojsonschema on an arbitrary text: `none` is a text that is not a schema); the
built-in ones are the documents of `Docs`, into whose `required` list `fmt.Sprintf` inserts names.
Nothing in getSchemaLoader uses the `jsonLoader` of a CredentialSchemaLoader.
-/

namespace VC.Schema

open GoMap
open VC.Vfy (Contents TypedID isBaseContext v2ContextURI)

/-- A schema in use. -/
inductive Src where
  | builtin (doc : Json)
  | text (t : String)

/-- An HTTP answer; the body is absent when reading it fails. -/
structure Resp where
  status : Int
  body : Option String

/-- `loadJSONSchema`, credential.go:2326-2351; `http` is absent when the request fails. -/
def loadJSONSchema (http : String → Option Resp) (url : String) : Option String :=
  match http url with
  | none => none
  | some r => if r.status ≠ 200 then none else r.body

/-- The options that decide the schema, credential.go:1110-1133: `noCustom` is
`disabledCustomSchema`, `given` is `defaultSchema`, `givenFn` is `defaultSchemaLoader`; the cache of the
schema loader, if any, answers `cache`, and its client answers `http`. -/
structure SelOpts (T : Type) where
  noCustom : Bool
  given : String
  givenFn : Option (Contents T → String)
  cache : Option (String → Option String)
  http : String → Option Resp

/-- The outcome of a choice: the schema, the URLs requested, what was put into the cache. -/
structure Sel (α : Type) where
  res : Option α
  asked : List String
  stored : List (String × String)

/-- `getJSONSchema`, credential.go:2302-2324. -/
def getJSONSchema {T : Type} (o : SelOpts T) (url : String) : Sel String :=
  match o.cache with
  | none => ⟨loadJSONSchema o.http url, [url], []⟩
  | some get =>
    match get url with
    | some b => ⟨some b, [], []⟩
    | none =>
      match loadJSONSchema o.http url with
      | none => ⟨none, [url], []⟩
      | some b => ⟨some b, [url], [(url, b)]⟩

/-- The loop of `jsonSchemaLoader`, credential.go:2268-2292: the names kept in `required`. -/
def keptNames (disabled : List String) : List String → List String
  | [] => []
  | p :: l => if disabled.any (fun d => p == d) then keptNames disabled l else p :: keptNames disabled l

/-- `JSONSchemaLoaderV1`, credential.go:2250-2257. -/
def schemaV1 (disabled : List String) : Json :=
  credV1Doc (keptNames disabled ["type", "credentialSubject", "issuer", "issuanceDate"])

/-- `JSONSchemaLoaderV2`, credential.go:2260-2266. -/
def schemaV2 (disabled : List String) : Json :=
  credV2Doc (keptNames disabled ["type", "credentialSubject", "issuer"])

/-- The loop over the credential's schemas, credential.go:2213-2230. -/
def selectLoop {T : Type} (o : SelOpts T) (dflt : Src) : List TypedID → Sel Src
  | [] => ⟨some dflt, [], []⟩
  | s :: l =>
    if s.type = "JsonSchemaValidator2018" ∨ s.type = "JsonSchema" then
      let g := getJSONSchema o s.id
      ⟨g.res.map Src.text, g.asked, g.stored⟩
    else selectLoop o dflt l

/-- `getSchemaLoader`, credential.go:2192-2233. -/
def getSchemaLoader {T : Type} (o : SelOpts T) (c : Contents T) : Sel Src :=
  let dflt := if isBaseContext c.context v2ContextURI then Src.builtin (schemaV2 [])
    else Src.builtin (schemaV1 [])
  if o.noCustom then ⟨some dflt, [], []⟩
  else if o.given ≠ "" then ⟨some (.text o.given), [], []⟩
  else match o.givenFn with
    | some f => ⟨some (.text (f c)), [], []⟩
    | none => selectLoop o dflt c.schemas

/-- gojsonschema `Validate` and its result; `none` is an error. -/
def verdict (E : SEnv) (validateText : String → JObj → Option Bool) (j : JObj) : Src → Option Bool
  | .builtin d => (read d).map (fun s => ok E s (.obj j))
  | .text t => validateText t j

/-- `validateCredentialUsingJSONSchema`, credential.go:2171-2190. -/
def validateUsing {T : Type} (E : SEnv) (validateText : String → JObj → Option Bool) (o : SelOpts T)
    (j : JObj) (c : Contents T) : Bool :=
  match (getSchemaLoader o c).res with
  | none => false
  | some s =>
    match verdict E validateText j s with
    | some true => true
    | _ => false

/-! ## Specification -/

namespace Spec

/-- A supported kind of custom schema. -/
def Supported (s : TypedID) : Prop := s.type = "JsonSchemaValidator2018" ∨ s.type = "JsonSchema"

/-- The first schema of the credential of a supported kind. -/
def FirstSupported (l : List TypedID) (s : TypedID) : Prop :=
  ∃ pre post, l = pre ++ s :: post ∧ Supported s ∧ ∀ x ∈ pre, ¬ Supported x

/-- The cache holds a schema for the URL. -/
def Cached {T : Type} (o : SelOpts T) (url t : String) : Prop :=
  ∃ get, o.cache = some get ∧ get url = some t

/-- The server answers 200 with a readable body. -/
def Downloads {T : Type} (o : SelOpts T) (url t : String) : Prop :=
  ∃ r, o.http url = some r ∧ r.status = 200 ∧ r.body = some t

/-- The schema fetched from a URL: the cached one, otherwise the downloaded one. -/
def Fetched {T : Type} (o : SelOpts T) (url t : String) : Prop :=
  Cached o url t ∨ ((∀ t', ¬ Cached o url t') ∧ Downloads o url t)

/-- The built-in schema of the data model named first in the contexts. -/
def Builtin {T : Type} (c : Contents T) (d : Json) : Prop :=
  (c.context.head? = some "https://www.w3.org/ns/credentials/v2" ∧
    d = credV2Doc ["type", "credentialSubject", "issuer"]) ∨
  (c.context.head? ≠ some "https://www.w3.org/ns/credentials/v2" ∧
    d = credV1Doc ["type", "credentialSubject", "issuer", "issuanceDate"])

/-- The caller has neither switched custom schemas off nor given a schema. -/
def Open {T : Type} (o : SelOpts T) : Prop := o.noCustom = false ∧ o.given = "" ∧ o.givenFn = none

/-- The one schema that decides. -/
inductive Uses {T : Type} (o : SelOpts T) (c : Contents T) : Src → Prop
  | off (d : Json) (h : o.noCustom = true) (hd : Builtin c d) : Uses o c (.builtin d)
  | given (h : o.noCustom = false) (hg : o.given ≠ "") : Uses o c (.text o.given)
  | givenFn (f : Contents T → String) (h : o.noCustom = false) (hg : o.given = "")
      (hf : o.givenFn = some f) : Uses o c (.text (f c))
  | custom (s : TypedID) (t : String) (h : Open o) (hs : FirstSupported c.schemas s)
      (ht : Fetched o s.id t) : Uses o c (.text t)
  | fallback (d : Json) (h : Open o) (hs : ∀ s ∈ c.schemas, ¬ Supported s) (hd : Builtin c d) :
      Uses o c (.builtin d)

end Spec

/-! ## Properties -/

open Spec

theorem mem_keptNames (disabled l : List String) (p : String) :
    p ∈ keptNames disabled l ↔ p ∈ l ∧ p ∉ disabled := by
  have hany : ∀ q, disabled.any (fun d => q == d) = true ↔ q ∈ disabled := by
    intro q
    rw [List.any_eq_true]
    constructor
    · rintro ⟨x, hx, he⟩; rw [beq_iff_eq] at he; exact he ▸ hx
    · intro h; exact ⟨q, h, by simp⟩
  induction l with
  | nil => simp [keptNames]
  | cons q l ih =>
    unfold keptNames
    by_cases hq : q ∈ disabled
    · rw [if_pos ((hany q).2 hq), List.mem_cons]
      constructor
      · intro h; exact ⟨.inr (ih.1 h).1, (ih.1 h).2⟩
      · rintro ⟨h1 | h1, h2⟩
        · exact absurd (h1 ▸ hq) h2
        · exact ih.2 ⟨h1, h2⟩
    · rw [if_neg (fun h => hq ((hany q).1 h)), List.mem_cons, List.mem_cons]
      constructor
      · rintro (h | h)
        · exact ⟨.inl h, h ▸ hq⟩
        · exact ⟨.inr (ih.1 h).1, (ih.1 h).2⟩
      · rintro ⟨h1 | h1, h2⟩
        · exact .inl h1
        · exact .inr (ih.2 ⟨h1, h2⟩)

variable {T : Type}

theorem load_iff (http : String → Option Resp) (url t : String) :
    loadJSONSchema http url = some t ↔ ∃ r, http url = some r ∧ r.status = 200 ∧ r.body = some t := by
  unfold loadJSONSchema
  cases http url with
  | none => simp
  | some r =>
    dsimp only
    by_cases h : r.status = 200
    · simp [h]
    · simp [h]

theorem fetched_iff (o : SelOpts T) (url t : String) :
    (getJSONSchema o url).res = some t ↔ Fetched o url t := by
  unfold getJSONSchema Fetched Cached Downloads
  rw [← load_iff]
  cases o.cache with
  | none => simp
  | some get =>
    dsimp only
    cases hg : get url with
    | some b => simp [hg]
    | none =>
      dsimp only
      cases loadJSONSchema o.http url <;> simp [hg]

theorem first_cons (s : TypedID) (l : List TypedID) (x : TypedID) :
    FirstSupported (s :: l) x ↔ (Supported s ∧ x = s) ∨ (¬ Supported s ∧ FirstSupported l x) := by
  constructor
  · rintro ⟨pre, post, he, hx, hp⟩
    rcases pre with _ | ⟨y, pre⟩
    · simp only [List.nil_append, List.cons.injEq] at he
      exact .inl ⟨he.1 ▸ hx, he.1.symm⟩
    · simp only [List.cons_append, List.cons.injEq] at he
      refine .inr ⟨he.1 ▸ hp y (by simp), pre, post, he.2, hx, fun z hz => hp z (by simp [hz])⟩
  · rintro (⟨hs, rfl⟩ | ⟨hs, pre, post, he, hx, hp⟩)
    · exact ⟨[], l, rfl, hs, by simp⟩
    · refine ⟨s :: pre, post, by simp [he], hx, ?_⟩
      intro z hz
      rcases List.mem_cons.1 hz with rfl | hz
      · exact hs
      · exact hp z hz

theorem loop_iff (o : SelOpts T) (d src : Src) (l : List TypedID) :
    (selectLoop o d l).res = some src ↔
      (∃ s t, FirstSupported l s ∧ Fetched o s.id t ∧ src = .text t) ∨
      ((∀ s ∈ l, ¬ Supported s) ∧ src = d) := by
  induction l with
  | nil =>
    simp only [selectLoop, Option.some.injEq]
    constructor
    · rintro rfl; exact .inr ⟨by simp, rfl⟩
    · rintro (⟨s, t, ⟨pre, post, he, -⟩, -⟩ | ⟨-, rfl⟩)
      · cases pre <;> cases he
      · rfl
  | cons s l ih =>
    unfold selectLoop
    by_cases hs : s.type = "JsonSchemaValidator2018" ∨ s.type = "JsonSchema"
    · rw [if_pos hs]
      have hs' : Supported s := hs
      simp only [Option.map_eq_some_iff, fetched_iff, first_cons]
      constructor
      · rintro ⟨t, ht, rfl⟩
        exact .inl ⟨s, t, .inl ⟨hs', rfl⟩, ht, rfl⟩
      · rintro (⟨x, t, ⟨-, rfl⟩ | ⟨h, -⟩, ht, rfl⟩ | ⟨h, -⟩)
        · exact ⟨t, ht, rfl⟩
        · exact absurd hs' h
        · exact absurd hs' (h s (by simp))
    · rw [if_neg hs, ih]
      have hs' : ¬ Supported s := hs
      simp only [first_cons, hs', not_false_eq_true, true_and, false_and, false_or, List.forall_mem_cons]

theorem builtin_iff (c : Contents T) (src : Src) :
    src = (if isBaseContext c.context v2ContextURI then Src.builtin (schemaV2 [])
      else Src.builtin (schemaV1 [])) ↔ ∃ d, Builtin c d ∧ src = .builtin d := by
  have hb : isBaseContext c.context v2ContextURI = true ↔
      c.context.head? = some "https://www.w3.org/ns/credentials/v2" := by
    unfold isBaseContext v2ContextURI
    cases c.context <;> simp
  have k1 : schemaV1 [] = credV1Doc ["type", "credentialSubject", "issuer", "issuanceDate"] := rfl
  have k2 : schemaV2 [] = credV2Doc ["type", "credentialSubject", "issuer"] := rfl
  by_cases h : isBaseContext c.context v2ContextURI = true
  · rw [if_pos h, k2]
    have h' := hb.1 h
    unfold Builtin
    constructor
    · rintro rfl; exact ⟨_, .inl ⟨h', rfl⟩, rfl⟩
    · rintro ⟨d, ⟨-, rfl⟩ | ⟨hn, -⟩, rfl⟩
      · rfl
      · exact absurd h' hn
  · rw [if_neg h, k1]
    have h' : c.context.head? ≠ some "https://www.w3.org/ns/credentials/v2" := fun e => h (hb.2 e)
    unfold Builtin
    constructor
    · rintro rfl; exact ⟨_, .inr ⟨h', rfl⟩, rfl⟩
    · rintro ⟨d, ⟨hn, -⟩ | ⟨-, rfl⟩, rfl⟩
      · exact absurd hn h'
      · rfl

/-- **C110.** The schema chosen is exactly the one of `Uses`; without one the credential is refused. -/
theorem schema_used_iff (o : SelOpts T) (c : Contents T) (src : Src) :
    (getSchemaLoader o c).res = some src ↔ Uses o c src := by
  unfold getSchemaLoader
  dsimp only
  by_cases h1 : o.noCustom = true
  · rw [if_pos h1]
    dsimp only
    rw [Option.some.injEq, eq_comm, builtin_iff]
    constructor
    · rintro ⟨d, hd, rfl⟩; exact .off d h1 hd
    · intro h
      cases h with
      | off d _ hd => exact ⟨d, hd, rfl⟩
      | given h _ => rw [h] at h1; cases h1
      | givenFn f h _ _ => rw [h] at h1; cases h1
      | custom s t h _ _ => rw [h.1] at h1; cases h1
      | fallback d h _ _ => rw [h.1] at h1; cases h1
  · rw [if_neg h1]
    have h1' : o.noCustom = false := by simpa using h1
    by_cases h2 : o.given = ""
    · rw [if_neg (by simp [h2])]
      cases h3 : o.givenFn with
      | some f =>
        simp only [Option.some.injEq]
        constructor
        · rintro rfl; exact .givenFn f h1' h2 h3
        · intro h
          cases h with
          | off d h _ => exact absurd h h1
          | given _ h => exact absurd h2 h
          | givenFn g _ _ hg => rw [h3] at hg; cases hg; rfl
          | custom s t h _ _ => have := h.2.2; rw [h3] at this; cases this
          | fallback d h _ _ => have := h.2.2; rw [h3] at this; cases this
      | none =>
        dsimp only
        rw [loop_iff, builtin_iff]
        have ho : Open o := ⟨h1', h2, h3⟩
        constructor
        · rintro (⟨s, t, hs, ht, rfl⟩ | ⟨hs, d, hd, rfl⟩)
          · exact .custom s t ho hs ht
          · exact .fallback d ho hs hd
        · intro h
          cases h with
          | off d h _ => exact absurd h h1
          | given _ h => exact absurd h2 h
          | givenFn g _ _ hg => rw [h3] at hg; cases hg
          | custom s t _ hs ht => exact .inl ⟨s, t, hs, ht, rfl⟩
          | fallback d _ hs hd => exact .inr ⟨hs, d, hd, rfl⟩
    · rw [if_pos (by simpa using h2)]
      simp only [Option.some.injEq]
      constructor
      · rintro rfl; exact .given h1' h2
      · intro h
        cases h with
        | off d h _ => exact absurd h h1
        | given _ _ => rfl
        | givenFn g _ hg _ => exact absurd hg h2
        | custom s t h _ _ => exact absurd h.2.1 h2
        | fallback d h _ _ => exact absurd h.2.1 h2

theorem first_unique {l : List TypedID} {s s' : TypedID} (h : FirstSupported l s)
    (h' : FirstSupported l s') : s = s' := by
  induction l with
  | nil => obtain ⟨pre, post, he, -⟩ := h; cases pre <;> cases he
  | cons x l ih =>
    rw [first_cons] at h h'
    rcases h with ⟨hx, rfl⟩ | ⟨hx, h⟩
    · rcases h' with ⟨-, rfl⟩ | ⟨hn, -⟩
      · rfl
      · exact absurd hx hn
    · rcases h' with ⟨hn, -⟩ | ⟨-, h'⟩
      · exact absurd hn hx
      · exact ih h h'

theorem validate_iff (E : SEnv) (vt : String → JObj → Option Bool) (o : SelOpts T) (j : JObj)
    (c : Contents T) :
    validateUsing E vt o j c = true ↔ ∃ src, Uses o c src ∧ verdict E vt j src = some true := by
  unfold validateUsing
  simp only [← schema_used_iff]
  cases (getSchemaLoader o c).res with
  | none => simp
  | some s =>
    dsimp only
    simp only [Option.some.injEq, exists_eq_left']
    cases verdict E vt j s with
    | none => simp
    | some b => cases b <;> simp

theorem asked_loop (o : SelOpts T) (d : Src) (l : List TypedID) (u : String) :
    u ∈ (selectLoop o d l).asked ↔
      ∃ s, FirstSupported l s ∧ u = s.id ∧ ∀ t, ¬ Cached o s.id t := by
  induction l with
  | nil =>
    simp only [selectLoop, List.not_mem_nil, false_iff]
    rintro ⟨s, ⟨pre, post, he, -⟩, -⟩
    cases pre <;> cases he
  | cons s l ih =>
    unfold selectLoop
    by_cases hs : s.type = "JsonSchemaValidator2018" ∨ s.type = "JsonSchema"
    · rw [if_pos hs]
      have hs' : Supported s := hs
      have key : u ∈ (getJSONSchema o s.id).asked ↔ u = s.id ∧ ∀ t, ¬ Cached o s.id t := by
        unfold getJSONSchema Cached
        cases o.cache with
        | none => simp
        | some get =>
          dsimp only
          cases hg : get s.id with
          | some b => simp [hg]
          | none =>
            dsimp only
            cases loadJSONSchema o.http s.id <;> simp [hg]
      dsimp only
      rw [key]
      simp only [first_cons, hs', true_and, not_true_eq_false, false_and, or_false]
      constructor
      · rintro ⟨h1, h2⟩; exact ⟨s, rfl, h1, h2⟩
      · rintro ⟨x, rfl, h1, h2⟩; exact ⟨h1, h2⟩
    · rw [if_neg hs, ih]
      have hs' : ¬ Supported s := hs
      simp only [first_cons, hs', not_false_eq_true, true_and, false_and, false_or]

/-- **C110.** The URLs contacted: only that of the first supported schema, and only when the caller left
the choice to the credential and the cache does not hold it. -/
theorem asked_iff (o : SelOpts T) (c : Contents T) (u : String) :
    u ∈ (getSchemaLoader o c).asked ↔
      Open o ∧ ∃ s, FirstSupported c.schemas s ∧ u = s.id ∧ ∀ t, ¬ Cached o s.id t := by
  unfold getSchemaLoader
  dsimp only
  by_cases h1 : o.noCustom = true
  · rw [if_pos h1]
    simp only [List.not_mem_nil, false_iff]
    rintro ⟨h, -⟩
    rw [h.1] at h1; cases h1
  · rw [if_neg h1]
    by_cases h2 : o.given = ""
    · rw [if_neg (by simp [h2])]
      cases h3 : o.givenFn with
      | some f =>
        simp only [List.not_mem_nil, false_iff]
        rintro ⟨h, -⟩
        have := h.2.2; rw [h3] at this; cases this
      | none =>
        dsimp only
        rw [asked_loop]
        have ho : Open o := ⟨by simpa using h1, h2, h3⟩
        simp only [ho, true_and]
    · rw [if_pos (by simpa using h2)]
      simp only [List.not_mem_nil, false_iff]
      rintro ⟨h, -⟩
      exact h2 h.2.1

theorem stored_loop (o : SelOpts T) (d : Src) (l : List TypedID) (u t : String)
    (h : (u, t) ∈ (selectLoop o d l).stored) :
    Downloads o u t ∧ u ∈ (selectLoop o d l).asked ∧ (selectLoop o d l).res = some (.text t) := by
  induction l with
  | nil => simp [selectLoop] at h
  | cons s l ih =>
    unfold selectLoop at h ⊢
    by_cases hs : s.type = "JsonSchemaValidator2018" ∨ s.type = "JsonSchema"
    · rw [if_pos hs] at h ⊢
      dsimp only at h ⊢
      unfold getJSONSchema at h ⊢
      unfold Downloads
      rw [← load_iff]
      cases hc : o.cache with
      | none => simp [hc] at h
      | some get =>
        simp only [hc] at h ⊢
        cases hg : get s.id with
        | some b => simp [hg] at h
        | none =>
          simp only [hg] at h ⊢
          cases hl : loadJSONSchema o.http s.id with
          | none => simp [hl] at h
          | some b =>
            simp only [hl, List.mem_singleton, Prod.mk.injEq] at h ⊢
            obtain ⟨rfl, rfl⟩ := h
            exact ⟨hl, by simp, by simp⟩
    · rw [if_neg hs] at h ⊢
      exact ih h

/-- **C110.** Only a schema downloaded from a URL with status 200 is put into the cache, under that
URL, and it is the schema then used; so a failed download is never cached. -/
theorem stored_downloaded (o : SelOpts T) (c : Contents T) (u t : String)
    (h : (u, t) ∈ (getSchemaLoader o c).stored) :
    Downloads o u t ∧ u ∈ (getSchemaLoader o c).asked ∧
      (getSchemaLoader o c).res = some (.text t) := by
  unfold getSchemaLoader at h ⊢
  dsimp only at h ⊢
  by_cases h1 : o.noCustom = true
  · rw [if_pos h1] at h; simp at h
  · rw [if_neg h1] at h ⊢
    by_cases h2 : o.given = ""
    · rw [if_neg (by simp [h2])] at h ⊢
      cases h3 : o.givenFn with
      | some f => simp [h3] at h
      | none =>
        simp only [h3] at h ⊢
        exact stored_loop o _ _ u t h
    · rw [if_pos (by simpa using h2)] at h; simp at h

/-- **C110.** The first supported schema decides alone: if it cannot be fetched the credential is
refused, whatever other schemas it names. -/
theorem unfetched_refused (E : SEnv) (vt : String → JObj → Option Bool) (o : SelOpts T) (j : JObj)
    (c : Contents T) (ho : Open o) (s : TypedID) (hs : FirstSupported c.schemas s)
    (hf : ∀ t, ¬ Fetched o s.id t) : validateUsing E vt o j c = false := by
  cases h : validateUsing E vt o j c with
  | false => rfl
  | true =>
    exfalso
    rw [validate_iff] at h
    obtain ⟨src, hu, -⟩ := h
    cases hu with
    | off d h _ => rw [ho.1] at h; cases h
    | given _ h => exact h ho.2.1
    | givenFn f _ _ h => rw [ho.2.2] at h; cases h
    | custom s' t _ hs' ht => exact hf t (first_unique hs hs' ▸ ht)
    | fallback d _ h _ =>
      obtain ⟨pre, post, he, hsup, -⟩ := hs
      exact h s (by rw [he]; simp) hsup

/-- **C110.** With custom schemas switched off, or none of a supported kind and no schema of the caller,
the credential is accepted exactly if it conforms to the built-in schema of its data model. -/
theorem builtin_decides {E : SEnv} (L : Laws E) (vt : String → JObj → Option Bool) (o : SelOpts T)
    (j : JObj) (c : Contents T)
    (h : o.noCustom = true ∨ (Open o ∧ ∀ s ∈ c.schemas, ¬ Supported s)) :
    validateUsing E vt o j c = true ↔
      (c.context.head? = some "https://www.w3.org/ns/credentials/v2" ∧
        CredV2 E datePattern ["type", "credentialSubject", "issuer"] j) ∨
      (c.context.head? ≠ some "https://www.w3.org/ns/credentials/v2" ∧
        CredV1 E ["type", "credentialSubject", "issuer", "issuanceDate"] j) := by
  have hv : ∀ d, verdict E vt j (.builtin d) = some true ↔ ∃ s, read d = some s ∧ ok E s (.obj j) = true := by
    intro d
    unfold verdict
    rw [Option.map_eq_some_iff]
  have hu : ∀ src, Uses o c src ↔ ∃ d, Builtin c d ∧ src = .builtin d := by
    intro src
    constructor
    · intro u
      cases u with
      | off d _ hd => exact ⟨d, hd, rfl⟩
      | fallback d _ _ hd => exact ⟨d, hd, rfl⟩
      | given h1 h2 =>
        rcases h with h | ⟨h, -⟩
        · rw [h1] at h; cases h
        · exact absurd h.2.1 h2
      | givenFn f h1 _ h3 =>
        rcases h with h | ⟨h, -⟩
        · rw [h1] at h; cases h
        · rw [h.2.2] at h3; cases h3
      | custom s t h1 h2 _ =>
        rcases h with h | ⟨-, h⟩
        · rw [h1.1] at h; cases h
        · obtain ⟨pre, post, he, hsup, -⟩ := h2
          exact absurd hsup (h s (by rw [he]; simp))
    · rintro ⟨d, hd, rfl⟩
      rcases h with h | ⟨h1, h2⟩
      · exact .off d h hd
      · exact .fallback d h1 h2 hd
  rw [validate_iff]
  constructor
  · rintro ⟨src, h1, h2⟩
    obtain ⟨d, ⟨hc, rfl⟩ | ⟨hc, rfl⟩, rfl⟩ := (hu src).1 h1
    · exact .inl ⟨hc, (credV2_exact L _ j).1 ((hv _).1 h2)⟩
    · exact .inr ⟨hc, (credV1_exact L _ j).1 ((hv _).1 h2)⟩
  · rintro (⟨hc, hj⟩ | ⟨hc, hj⟩)
    · exact ⟨_, (hu _).2 ⟨_, .inl ⟨hc, rfl⟩, rfl⟩, (hv _).2 ((credV2_exact L _ j).2 hj)⟩
    · exact ⟨_, (hu _).2 ⟨_, .inr ⟨hc, rfl⟩, rfl⟩, (hv _).2 ((credV1_exact L _ j).2 hj)⟩

/-- **C110.** `WithDisableRequiredField` removes exactly the named fields from the required ones of the
built-in schemas and changes nothing else. -/
theorem disabled_fields {E : SEnv} (L : Laws E) (disabled : List String) (j : JObj) :
    ((∃ s, read (schemaV1 disabled) = some s ∧ ok E s (.obj j) = true) ↔
      CredV1 E [] j ∧ ∀ k ∈ ["type", "credentialSubject", "issuer", "issuanceDate"], k ∉ disabled →
        ∃ v, get? j k = some v) ∧
    ((∃ s, read (schemaV2 disabled) = some s ∧ ok E s (.obj j) = true) ↔
      CredV2 E datePattern [] j ∧ ∀ k ∈ ["type", "credentialSubject", "issuer"], k ∉ disabled →
        ∃ v, get? j k = some v) := by
  unfold schemaV1 schemaV2
  rw [credV1_exact L, credV2_exact L]
  constructor
  · constructor
    · intro h
      exact ⟨{ h with required := by simp },
        fun k hk hd => h.required k ((mem_keptNames _ _ _).2 ⟨hk, hd⟩)⟩
    · rintro ⟨h, hr⟩
      exact { h with
        required := fun k hk => by
          obtain ⟨h1, h2⟩ := (mem_keptNames _ _ _).1 hk
          exact hr k h1 h2 }
  · constructor
    · intro h
      exact ⟨{ h with required := by simp },
        fun k hk hd => h.required k ((mem_keptNames _ _ _).2 ⟨hk, hd⟩)⟩
    · rintro ⟨h, hr⟩
      exact { h with
        required := fun k hk => by
          obtain ⟨h1, h2⟩ := (mem_keptNames _ _ _).1 hk
          exact hr k h1 h2 }

end VC.Schema
