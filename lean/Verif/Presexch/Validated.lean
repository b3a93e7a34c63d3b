import Verif.Presexch.ValidateMain
import Verif.Presexch.EndToEndExamples
import Verif.Presexch.ReportProps
import Mathlib.Data.List.Duplicate
/-!
# presexch: what the schema check means for the holder (C113, C114)

`CreateVP`, `CreateVPArray` and `MatchSubmissionRequirement` with the check of the definition they
begin with; consequences of `validate_iff`; which accepted definitions crash the holder.
-/

namespace VC.PD

open GoMap VC.Schema

/-! ## Model -/

/-- What matching reads of a `Filter`, definition.go:196-216. -/
def Filter.toPE (f : Filter) : PE.Filter where
  typ := f.typ
  format := f.format
  minimum := f.minimum
  allOf := f.allOf.map (ptr itemJSON)
  rest := filterJSON f

/-- What matching reads of a `Field`, definition.go:185-193 (`Required` is "required",
definition.go:73). -/
def Field.toPE (f : Field) : PE.Field where
  path := f.path
  filter := f.filter.map Filter.toPE
  optional := f.optional
  predicateReq := f.predicate == some "required"

/-- What matching reads of `Constraints`, definition.go:177-182 (there are no nil fields after the
check). -/
def Constraints.toPE (c : Constraints) : PE.Constraints where
  limitReq := c.limitDisclosure == some "required"
  subjectIsIssuerReq := c.subjectIsIssuer == some "required"
  fields := (c.fields.filterMap _root_.id).map Field.toPE

/-- What matching reads of an `InputDescriptor`, definition.go:153-162. -/
def Descriptor.toPE (d : Descriptor) : PE.FDesc where
  id := d.id
  group := d.group
  schema := d.schema.map (fun l => l.filterMap _root_.id)
  constraints := d.constraints.map Constraints.toPE
  format := d.format

mutual
/-- A submission requirement as `MatchSubmissionRequirement` reads it, definition.go:405-452 (there
are no nil ones after the check). -/
def Requirement.toSubs : Requirement → List PE.NSub
  | .null => []
  | .mk name purpose rule count min max src nested =>
    [.mk name purpose rule count min max src (requirementsToSubs nested)]
/-- A list of them. -/
def requirementsToSubs : List Requirement → List PE.NSub
  | [] => []
  | r :: rs => r.toSubs ++ requirementsToSubs rs
end

/-- What matching reads of a `PresentationDefinition`, definition.go:120-137. -/
def Definition.toPE (d : Definition) : PE.Definition where
  format := d.format
  reqs := PE.toSubs (requirementsToSubs d.reqs)
  descs := (d.descs.filterMap _root_.id).map Descriptor.toPE

/-- What is used for a frame: nil without a BBS proof creator (`WithSDBBSProofCreator`), else what
`BBSSelectiveDisclosure` and `ParseCredential` make of a credential with a BBS proof. -/
abbrev Framer := Option (JObj → PE.Cred → Option PE.Cred)

/-- `GenerateBBSSelectiveDisclosure`, verifiable/credential_bbs.go:17-49 and
verifiable/bbs_selective_disclosure.go:49-65 (a proof of type `BbsBlsSignature2020` is needed). -/
def bbsDisclose (G : Framer) (frame : JObj) (c : PE.Cred) : Option PE.Cred :=
  if c.proofTypes.isEmpty then none
  else
    match G with
    | none => none
    | some g => if c.hasBBS then g frame c else none

/-- The loop of `frameCreds`, definition.go:1230-1239. -/
def frameAll (f : PE.Cred → Option PE.Cred) : List PE.Cred → Option (List PE.Cred)
  | [] => some []
  | c :: cs =>
    match f c with
    | none => none
    | some c' => (frameAll f cs).map (fun r => c' :: r)

/-- `frameCreds`, definition.go:1223-1242. -/
def frameCreds (G : Framer) (frame : Option JObj) (creds : List PE.Cred) : Option (List PE.Cred) :=
  match frame with
  | none => some creds
  | some m => frameAll (bbsDisclose G m) creds

/-- The iterator is made before the frame is applied, definition.go:755-762: does that go well? -/
def iterOk (pd : PE.Definition) : Bool :=
  match PE.makeReq pd.reqs (pd.descs.map PE.FDesc.toDesc) with
  | none => true
  | some r => (PE.newIter r.toLogic (pd.descs.map PE.FDesc.id)).isSome

/-- `CreateVP`, definition.go:480-506 with definition.go:549-566 and definition.go:739-762. -/
def createVP (S : SEnv) (G : Framer) (H : PE.HolderEnv) (dflt : String) (pd : Option Definition)
    (creds : List PE.Cred) : PE.CreateOut (PE.Created × List PE.MapOut) :=
  if validateSchema S pd then
    match pd with
    | none => .panic
    | some d =>
      match frameCreds G d.frame creds with
      | some cs => PE.createVP H dflt d.toPE cs
      | none => if iterOk d.toPE then .error else .panic
  else .error

/-- `CreateVPArray`, definition.go:510-538 with definition.go:549-566 and definition.go:739-762. -/
def createVPArray (S : SEnv) (G : Framer) (H : PE.HolderEnv) (dflt : String) (pd : Option Definition)
    (creds : List PE.Cred) : PE.CreateOut (List PE.Created × List PE.MapOut) :=
  if validateSchema S pd then
    match pd with
    | none => .panic
    | some d =>
      match frameCreds G d.frame creds with
      | some cs => PE.createVPArray H dflt d.toPE cs
      | none => if iterOk d.toPE then .error else .panic
  else .error

/-- `MatchSubmissionRequirement` with the check, definition.go:630-658 and definition.go:676-685: the
frame is applied only if selective disclosure is (for every descriptor again; a definition that passed
the check and whose groups exist has a descriptor, and all errors are one). -/
def matchSubmission (S : SEnv) (G : Framer) (H : PE.HolderEnv) (apply : Bool) (pd : Option Definition)
    (creds : List PE.Cred) : PE.FilterOut (List PE.MReq) :=
  if validateSchema S pd then
    match pd with
    | none => .panic
    | some d =>
      match (if apply then frameCreds G d.frame creds else some creds) with
      | some cs => PE.matchSubmissionRequirement H apply d.toPE (requirementsToSubs d.reqs) cs
      | none => .error
  else .error

/-! ## Consequences of the check (C113) -/

open Spec

variable {E : SEnv}

/-- A definition without an ID, or without descriptors, is refused. -/
theorem refused_incomplete (L : PatternLaws E) {d : Definition} (h : d.id = "" ∨ d.descs = []) :
    validateSchema E (some d) = false := by
  rw [Bool.eq_false_iff, ne_eq, validate_iff L]
  rintro (a | a)
  · exact h.elim a.id a.nonempty
  · exact h.elim a.id a.nonempty

/-- **Finding.** A definition with a `locale` is refused, though the struct has the member. -/
theorem refused_locale (L : PatternLaws E) {d : Definition} (h : d.locale ≠ "") :
    validateSchema E (some d) = false := by
  rw [Bool.eq_false_iff, ne_eq, validate_iff L]
  rintro (a | a) <;> exact h a.locale

/-- **Finding.** A descriptor with metadata is refused, though the struct has the member. -/
theorem refused_metadata (L : PatternLaws E) {d : Definition} {x : Descriptor} (hx : some x ∈ d.descs)
    (h : x.metadata ≠ []) : validateSchema E (some d) = false := by
  rw [Bool.eq_false_iff, ne_eq, validate_iff L]
  rintro (a | a)
  · obtain ⟨y, e, hy⟩ := a.descs _ hx
    cases e; exact h hy.metadata
  · obtain ⟨y, e, hy⟩ := a.descs _ hx
    cases e; exact h hy.metadata

/-- **Finding.** A definition that names a CWT format, in whole or for a descriptor, is refused: the
CWT members of `Format` can never be used. -/
theorem refused_cwt (L : PatternLaws E) {d : Definition} {f : PE.Format}
    (hf : d.format = some f ∨ ∃ x, some x ∈ d.descs ∧ x.format = some f)
    (h : f.cwtVC ≠ none ∨ f.cwtVP ≠ none) : validateSchema E (some d) = false := by
  rw [Bool.eq_false_iff, ne_eq, validate_iff L]
  have hn : ¬ NoCwt f := fun a => h.elim (fun b => b a.1) (fun b => b a.2)
  rintro (a | a)
  · rcases hf with hf | ⟨x, hx, hf⟩
    · exact hn (a.format f hf).1
    · obtain ⟨y, e, hy⟩ := a.descs _ hx
      cases e
      rw [hy.format] at hf; cases hf
  · rcases hf with hf | ⟨x, hx, hf⟩
    · exact hn (a.format f hf)
    · obtain ⟨y, e, hy⟩ := a.descs _ hx
      cases e
      exact hn (hy.format f hf)

/-- A definition in which one descriptor has schemas and another has none is refused. -/
theorem refused_mixed (L : PatternLaws E) {d : Definition} {x y : Descriptor} (hx : some x ∈ d.descs)
    (hy : some y ∈ d.descs) {l : List (Option PE.Schema)} (h1 : x.schema = some l) (hl : l ≠ [])
    (h2 : y.schema = none) : validateSchema E (some d) = false := by
  rw [Bool.eq_false_iff, ne_eq, validate_iff L]
  rintro (a | a)
  · obtain ⟨z, e, hz⟩ := a.descs _ hy
    cases e
    obtain ⟨m, hm, _⟩ := hz.schema
    rw [h2] at hm; cases hm
  · obtain ⟨z, e, hz⟩ := a.descs _ hx
    cases e
    exact hl (hz.schema l h1)

/-- A descriptor that has both schemas and a format of its own is refused. -/
theorem refused_schema_format (L : PatternLaws E) {d : Definition} {x : Descriptor} (hx : some x ∈ d.descs)
    {l : List (Option PE.Schema)} (h1 : x.schema = some l) (hl : l ≠ []) (h2 : x.format ≠ none) :
    validateSchema E (some d) = false := by
  rw [Bool.eq_false_iff, ne_eq, validate_iff L]
  rintro (a | a)
  · obtain ⟨z, e, hz⟩ := a.descs _ hx
    cases e
    exact h2 hz.format
  · obtain ⟨z, e, hz⟩ := a.descs _ hx
    cases e
    exact hl (hz.schema l h1)

/-- A field with a predicate but no filter, or that is optional, is refused. -/
theorem refused_predicate (L : PatternLaws E) {d : Definition} {x : Descriptor} (hx : some x ∈ d.descs)
    {c : Constraints} (hc : x.constraints = some c) {f : Field} (hf : some f ∈ c.fields)
    (hp : f.predicate ≠ none) (h : f.filter = none ∨ f.optional = true) :
    validateSchema E (some d) = false := by
  rw [Bool.eq_false_iff, ne_eq, validate_iff L]
  rintro (a | a)
  · obtain ⟨z, e, hz⟩ := a.descs _ hx
    cases e
    obtain ⟨g, e, hg⟩ := (hz.constraints c hc).fields _ hf
    cases e
    rcases h with h | h
    · exact hg.needsFilter hp h
    · rw [hg.notOptional] at h; cases h
  · obtain ⟨z, e, hz⟩ := a.descs _ hx
    cases e
    obtain ⟨g, e, hg⟩ := (hz.constraints c hc).fields _ hf
    cases e
    rcases h with h | h
    · exact (hg.needsFilter hp).1 h
    · rw [(hg.needsFilter hp).2] at h; cases h

/-- Every field of an accepted definition has a path, no pointer of it is nil, and its preferences are
`required` or `preferred`. -/
theorem accepted_fields (L : PatternLaws E) {d : Definition} (h : validateSchema E (some d) = true)
    {o : Option Descriptor} (ho : o ∈ d.descs) : ∃ x, o = some x ∧ x.id ≠ "" ∧
      ∀ c, x.constraints = some c → Pref c.limitDisclosure ∧ Pref c.subjectIsIssuer ∧
        ∀ p ∈ c.fields, ∃ f, p = some f ∧ f.path ≠ [] ∧ Pref f.predicate := by
  rcases (validate_iff L d).1 h with a | a
  · obtain ⟨x, e, hx⟩ := a.descs _ ho
    refine ⟨x, e, hx.id, fun c hc => ?_⟩
    have hk := hx.constraints c hc
    exact ⟨hk.limitDisclosure, hk.subjectIsIssuer, fun p hp =>
      let ⟨f, e, hf⟩ := hk.fields p hp
      ⟨f, e, hf.path, hf.predicate⟩⟩
  · obtain ⟨x, e, hx⟩ := a.descs _ ho
    refine ⟨x, e, hx.id, fun c hc => ?_⟩
    have hk := hx.constraints c hc
    exact ⟨hk.limitDisclosure, hk.subjectIsIssuer, fun p hp =>
      let ⟨f, e, hf⟩ := hk.fields p hp
      ⟨f, e, hf.path, hf.predicate⟩⟩

/-! ## The holder (C114) -/

variable {G : Framer}

/-- A definition that is refused makes every call fail, without looking at a credential. -/
theorem refused_everywhere {pd : Option Definition} (h : validateSchema E pd = false) (H : PE.HolderEnv)
    (dflt : String) (apply : Bool) (creds : List PE.Cred) :
    createVP E G H dflt pd creds = .error ∧ createVPArray E G H dflt pd creds = .error ∧
      matchSubmission E G H apply pd creds = .error := by
  simp only [createVP, createVPArray, matchSubmission, h, Bool.false_eq_true, if_false, and_self]

/-- What every call gives for a definition that is accepted, when applying the frame gives `cs`: the
models of C101 and C103. -/
theorem accepted_everywhere {d : Definition} (h : validateSchema E (some d) = true) {creds cs : List PE.Cred}
    (hf : frameCreds G d.frame creds = some cs) (H : PE.HolderEnv) (dflt : String) :
    createVP E G H dflt (some d) creds = PE.createVP H dflt d.toPE cs ∧
    createVPArray E G H dflt (some d) creds = PE.createVPArray H dflt d.toPE cs ∧
    matchSubmission E G H true (some d) creds =
      PE.matchSubmissionRequirement H true d.toPE (requirementsToSubs d.reqs) cs ∧
    matchSubmission E G H false (some d) creds =
      PE.matchSubmissionRequirement H false d.toPE (requirementsToSubs d.reqs) creds := by
  simp only [createVP, createVPArray, matchSubmission, h, if_true, hf, Bool.false_eq_true, if_false, and_self]

/-- Every filter names a type. -/
def TypedFilters (d : Definition) : Prop := ∀ x, some x ∈ d.descs → ∀ c, x.constraints = some c →
  ∀ f, some f ∈ c.fields → ∀ g, f.filter = some g → g.typ ≠ none

theorem v1_typed {d : Definition} (h : V1 d) : TypedFilters d := by
  intro x hx c hc f hf g hg
  obtain ⟨y, e, hy⟩ := h.descs _ hx
  cases e
  obtain ⟨z, e, hz⟩ := (hy.constraints c hc).fields _ hf
  cases e
  exact (hz.filter g hg).typ

theorem typed_toPE {d : Definition} (h : TypedFilters d) :
    ∀ x ∈ d.toPE.descs, ∀ k, x.constraints = some k → PE.Typed k := by
  intro x hx k hk f hf fl hfl
  simp only [Definition.toPE, List.mem_map, List.mem_filterMap, id] at hx
  obtain ⟨y, ⟨o, ho, rfl⟩, rfl⟩ := hx
  simp only [Descriptor.toPE, Option.map_eq_some_iff] at hk
  obtain ⟨c, hc, rfl⟩ := hk
  simp only [Constraints.toPE, List.mem_map, List.mem_filterMap, id] at hf
  obtain ⟨g, ⟨o, ho', rfl⟩, rfl⟩ := hf
  simp only [Field.toPE, Option.map_eq_some_iff] at hfl
  obtain ⟨q, hq, rfl⟩ := hfl
  exact h y ho c hc g ho' q hq

/-- With typed filters, evaluating a descriptor never crashes. -/
theorem filterDescriptor_no_panic {M : PE.MEnv} {pf : Option PE.Format} {d : PE.MDesc} {cs : List PE.Cred}
    (ht : ∀ k, d.constraints = some k → PE.Typed k) : PE.filterDescriptor M pf d cs ≠ .panic := by
  unfold PE.filterDescriptor
  dsimp only
  split
  · exact fun h => nomatch h
  · next cs2 _ =>
    have : PE.filterConstraints M.toPEnv d.constraints cs2 ≠ .panic := by
      cases hk : d.constraints with
      | none => exact fun h => nomatch h
      | some k =>
        rcases PE.filterConstraints_exact M.toPEnv (ht k hk) cs2 with ⟨r, h, _⟩ | ⟨h, _⟩
        · rw [h]; exact fun h => nomatch h
        · rw [h]; exact fun h => nomatch h
    split
    · exact fun h => nomatch h
    · exact fun h => nomatch h
    · next h => exact absurd h this

theorem presentationData_no_panic {H : PE.HolderEnv} {dflt : String} {pd : PE.Definition}
    {creds : List PE.Cred} (hn : (pd.descs.map PE.FDesc.id).Nodup)
    (ht : ∀ x ∈ pd.descs, ∀ k, x.constraints = some k → PE.Typed k) :
    PE.presentationData H dflt pd creds ≠ some .panic ∧ PE.presentationData H dflt pd creds ≠ some .fuel ∧
      PE.presentationData H dflt pd creds ≠ some (.fail .panic) := by
  have hm : (pd.descs.map PE.FDesc.toDesc).map PE.Desc.id = pd.descs.map PE.FDesc.id := by
    rw [List.map_map]; rfl
  cases h : PE.presentationData H dflt pd creds with
  | none => exact ⟨fun h => (nomatch h), fun h => (nomatch h), fun h => (nomatch h)⟩
  | some o =>
    rcases PE.solveDefinition_ok (by rw [hm]; exact hn) (PE.evalDesc H pd creds) dflt h with
      ⟨f, m, rfl, _⟩ | ⟨e, i, rfl, ha, he⟩ | ⟨rfl, _⟩
    · exact ⟨fun h => (nomatch h), fun h => (nomatch h), fun h => (nomatch h)⟩
    · refine ⟨fun h => (nomatch h), fun h => (nomatch h), ?_⟩
      intro hp
      simp only [Option.some.injEq, PE.Outcome.fail.injEq] at hp
      subst hp
      unfold PE.evalDesc at he
      split at he
      · next hf =>
        obtain ⟨d, hd, hi, _⟩ := ha
        obtain ⟨x, hx, rfl⟩ := List.mem_map.1 hd
        have := List.find?_eq_none.1 hf x hx
        exact this (beq_iff_eq.2 hi)
      · next x hf =>
        have hx := List.mem_of_find?_eq_some hf
        have hnp := filterDescriptor_no_panic (M := H.toMEnv) (pf := pd.format) (d := x.toM) (cs := creds)
          (ht x hx)
        split at he
        · cases he
        · next hp => exact hnp hp
        · split at he
          · cases he
          · cases he
    · exact ⟨fun h => (nomatch h), fun h => (nomatch h), fun h => (nomatch h)⟩

theorem iterOk_nodup {pd : PE.Definition} (hn : (pd.descs.map PE.FDesc.id).Nodup) : iterOk pd = true := by
  unfold iterOk
  split
  · rfl
  · next r hr =>
    have hm : (pd.descs.map PE.FDesc.toDesc).map PE.Desc.id = pd.descs.map PE.FDesc.id := by
      rw [List.map_map]; rfl
    rw [PE.newIter_fresh hn]
    · rfl
    · intro j hj
      obtain ⟨x, hx, rfl, _⟩ := (PE.makeReq_descs hr j).1 hj
      rw [← hm]
      exact List.mem_map_of_mem hx

/-- **C114, partial** (what is missing: `untyped_crashes`, `duplicate_crashes`).  If the descriptor IDs of
a definition are distinct and its filters name types, `CreateVP` and `CreateVPArray` never crash. -/
theorem create_no_crash_partial {d : Definition} (hn : (d.toPE.descs.map PE.FDesc.id).Nodup)
    (ht : TypedFilters d) (H : PE.HolderEnv) (dflt : String) (creds : List PE.Cred) :
    createVP E G H dflt (some d) creds ≠ .panic ∧ createVPArray E G H dflt (some d) creds ≠ .panic := by
  unfold createVP createVPArray
  split
  · dsimp only
    cases frameCreds G d.frame creds with
    | none =>
      dsimp only
      rw [iterOk_nodup hn]
      exact ⟨fun h => (nomatch h), fun h => (nomatch h)⟩
    | some cs =>
      dsimp only
      obtain ⟨h1, h2, h3⟩ := presentationData_no_panic (H := H) (dflt := dflt) (creds := cs) hn (typed_toPE ht)
      unfold PE.createVP PE.createVPArray
      cases hd : PE.presentationData H dflt d.toPE cs with
      | none => exact ⟨fun h => (nomatch h), fun h => (nomatch h)⟩
      | some o =>
        cases o with
        | ok v =>
          dsimp only
          constructor
          · split
            · exact fun h => nomatch h
            · exact fun h => nomatch h
          · split
            · exact fun h => nomatch h
            · exact fun h => nomatch h
        | fail e =>
          cases e with
          | error => exact ⟨fun h => (nomatch h), fun h => (nomatch h)⟩
          | panic => exact absurd hd h3
        | noCredentials => exact ⟨fun h => (nomatch h), fun h => (nomatch h)⟩
        | panic => exact absurd hd h1
        | fuel => exact absurd hd h2
  · exact ⟨fun h => (nomatch h), fun h => (nomatch h)⟩

/-- The descriptors of a requirement come from the definition. -/
inductive From (ds : List PE.FDesc) : PE.FullReq → Prop
  | mk {name purpose rule : String} {count min max : Int} {descs : List PE.FDesc} {nested : List PE.FullReq} :
    (∀ d ∈ descs, d ∈ ds) → (∀ r ∈ nested, From ds r) →
    From ds (.mk name purpose rule count min max descs nested)

mutual
theorem fullReq_from {ds : List PE.FDesc} : ∀ (s : PE.NSub) {r : PE.FullReq}, PE.fullReq ds s = some r →
    From ds r
  | .mk name purpose rule count min max src ns, r, h => by
    simp only [PE.fullReq] at h
    split at h
    · split at h
      · cases h
      · cases h
        exact .mk (fun d hd => (List.mem_filter.1 hd).1) (by simp)
    · simp only [Option.map_eq_some_iff] at h
      obtain ⟨l, hl, rfl⟩ := h
      exact .mk (by simp) (fullReqs_from ns hl)
theorem fullReqs_from {ds : List PE.FDesc} : ∀ (ss : List PE.NSub) {rs : List PE.FullReq},
    PE.fullReqs ds ss = some rs → ∀ r ∈ rs, From ds r
  | [], rs, h => by
    simp only [PE.fullReqs, Option.some.injEq] at h
    subst h; simp
  | s :: ss, rs, h => by
    simp only [PE.fullReqs] at h
    split at h
    · cases h
    · next r hr =>
      simp only [Option.map_eq_some_iff] at h
      obtain ⟨l, hl, rfl⟩ := h
      intro x hx
      rcases List.mem_cons.1 hx with rfl | hx
      · exact fullReq_from s hr
      · exact fullReqs_from ss hl x hx
end

theorem matchDescs_no_panic {H : PE.HolderEnv} {apply : Bool} {pd : PE.Definition} {creds : List PE.Cred} :
    ∀ (ds : List PE.FDesc), (∀ x ∈ ds, ∀ k, x.constraints = some k → PE.Typed k) →
    PE.matchDescs H apply pd creds ds ≠ .panic
  | [], _ => fun h => nomatch h
  | d :: ds, ht => by
    have h1 : PE.matchedVCs H apply pd creds d ≠ .panic := by
      unfold PE.matchedVCs
      have := filterDescriptor_no_panic (M := H.toMEnv) (pf := pd.format) (d := d.toM) (cs := creds)
        (ht d List.mem_cons_self)
      split
      · exact fun h => nomatch h
      · next h => exact absurd h this
      · split
        · split
          · exact fun h => nomatch h
          · exact fun h => nomatch h
        · exact fun h => nomatch h
    have h2 := matchDescs_no_panic (H := H) (apply := apply) (pd := pd) (creds := creds) ds
      (fun x hx => ht x (List.mem_cons_of_mem _ hx))
    simp only [PE.matchDescs]
    cases ha : PE.matchedVCs H apply pd creds d with
    | error => exact fun h => nomatch h
    | panic => exact absurd ha h1
    | ok v =>
      dsimp only
      cases hb : PE.matchDescs H apply pd creds ds with
      | error => exact fun h => nomatch h
      | panic => exact absurd hb h2
      | ok w => exact fun h => nomatch h

mutual
theorem matchReq_no_panic {H : PE.HolderEnv} {apply : Bool} {pd : PE.Definition} {creds : List PE.Cred}
    {ds : List PE.FDesc} (ht : ∀ x ∈ ds, ∀ k, x.constraints = some k → PE.Typed k) :
    ∀ (r : PE.FullReq), From ds r → PE.matchReq H apply pd creds r ≠ .panic
  | .mk name purpose rule count min max descs nested, .mk hd hr => by
    simp only [PE.matchReq]
    have h1 := matchDescs_no_panic (H := H) (apply := apply) (pd := pd) (creds := creds) descs
      (fun x hx => ht x (hd x hx))
    have h2 := matchReqs_no_panic (H := H) (apply := apply) (pd := pd) (creds := creds) ht nested hr
    cases ha : PE.matchDescs H apply pd creds descs with
    | error => exact fun h => nomatch h
    | panic => exact absurd ha h1
    | ok v =>
      dsimp only
      cases hb : PE.matchReqs H apply pd creds nested with
      | error => exact fun h => nomatch h
      | panic => exact absurd hb h2
      | ok w => exact fun h => nomatch h
theorem matchReqs_no_panic {H : PE.HolderEnv} {apply : Bool} {pd : PE.Definition} {creds : List PE.Cred}
    {ds : List PE.FDesc} (ht : ∀ x ∈ ds, ∀ k, x.constraints = some k → PE.Typed k) :
    ∀ (rs : List PE.FullReq), (∀ r ∈ rs, From ds r) → PE.matchReqs H apply pd creds rs ≠ .panic
  | [], _ => fun h => nomatch h
  | r :: rs, hr => by
    simp only [PE.matchReqs]
    have h1 := matchReq_no_panic (H := H) (apply := apply) (pd := pd) (creds := creds) ht r
      (hr r List.mem_cons_self)
    have h2 := matchReqs_no_panic (H := H) (apply := apply) (pd := pd) (creds := creds) ht rs
      (fun x hx => hr x (List.mem_cons_of_mem _ hx))
    cases ha : PE.matchReq H apply pd creds r with
    | error => exact fun h => nomatch h
    | panic => exact absurd ha h1
    | ok v =>
      dsimp only
      cases hb : PE.matchReqs H apply pd creds rs with
      | error => exact fun h => nomatch h
      | panic => exact absurd hb h2
      | ok w => exact fun h => nomatch h
end

/-- **C114, partial** (what is missing: `untyped_crashes`).  If the filters of a definition name types,
`MatchSubmissionRequirement` never crashes. -/
theorem match_no_crash_partial {d : Definition} (ht : TypedFilters d) (H : PE.HolderEnv) (apply : Bool)
    (creds : List PE.Cred) : matchSubmission E G H apply (some d) creds ≠ .panic := by
  unfold matchSubmission
  split
  · dsimp only
    split
    swap
    · exact fun h => nomatch h
    unfold PE.matchSubmissionRequirement
    split
    · exact fun h => nomatch h
    · next rs hr =>
      refine matchReqs_no_panic (typed_toPE ht) rs ?_
      unfold PE.requirementsForMatch at hr
      split at hr
      · simp only [Option.some.injEq] at hr
        subst hr
        intro r hm
        rw [List.mem_singleton.1 hm]
        exact .mk (fun d hd => hd) (by simp)
      · exact fullReqs_from _ hr
  · exact fun h => nomatch h

/-- A v1 definition with distinct descriptor IDs never crashes the holder. -/
theorem v1_no_crash {d : Definition} (h : V1 d) (hn : (d.toPE.descs.map PE.FDesc.id).Nodup)
    (H : PE.HolderEnv) (dflt : String) (apply : Bool) (creds : List PE.Cred) :
    createVP E G H dflt (some d) creds ≠ .panic ∧ createVPArray E G H dflt (some d) creds ≠ .panic ∧
      matchSubmission E G H apply (some d) creds ≠ .panic :=
  have h1 := create_no_crash_partial (E := E) (G := G) hn (v1_typed h) H dflt creds
  ⟨h1.1, h1.2, match_no_crash_partial (v1_typed h) H apply creds⟩

/-- **C114, deviation.**  An accepted definition crashes `CreateVP` and `CreateVPArray` — whatever the
wallet holds — if an ID is used by two descriptors, one of which it asks for. -/
theorem duplicate_crashes {d : Definition} (h : validateSchema E (some d) = true) {i : String}
    (hd : List.Duplicate i (d.toPE.descs.map PE.FDesc.id))
    (ha : PE.Asked d.toPE.reqs (d.toPE.descs.map PE.FDesc.toDesc) i)
    (hr : PE.makeReq d.toPE.reqs (d.toPE.descs.map PE.FDesc.toDesc) ≠ none)
    (H : PE.HolderEnv) (dflt : String) (creds : List PE.Cred) :
    createVP E G H dflt (some d) creds = .panic ∧ createVPArray E G H dflt (some d) creds = .panic := by
  have hm : (d.toPE.descs.map PE.FDesc.toDesc).map PE.Desc.id = d.toPE.descs.map PE.FDesc.id := by
    rw [List.map_map]; rfl
  have hnil : ∀ r, PE.makeReq d.toPE.reqs (d.toPE.descs.map PE.FDesc.toDesc) = some r →
      PE.newIter r.toLogic (d.toPE.descs.map PE.FDesc.id) = none := by
    intro r hq
    have hcov : ∀ j ∈ r.toLogic.allDescs, j ∈ d.toPE.descs.map PE.FDesc.id := by
      intro j hj
      obtain ⟨x, hx, rfl, _⟩ := (PE.makeReq_descs hq j).1 hj
      rw [← hm]
      exact List.mem_map_of_mem hx
    have hi : i ∈ r.toLogic.allDescs := (PE.makeReq_descs hq i).2 ha
    unfold PE.newIter
    dsimp only
    rw [if_pos]
    generalize hu : (d.toPE.descs.map PE.FDesc.id).filter (fun d => r.toLogic.allDescs.contains d) = u
    have hdup : List.Duplicate i u := by
      rw [List.duplicate_iff_two_le_count] at hd ⊢
      rw [← hu, List.count_filter (by simpa using hi)]
      exact hd
    have hs : u.dedup.Sublist u := List.dedup_sublist u
    have hlt : u.dedup.length < u.length := by
      rcases Nat.lt_or_ge u.dedup.length u.length with hlt | hge
      · exact hlt
      · have := hs.eq_of_length_le hge
        have hn : u.Nodup := this ▸ List.nodup_dedup u
        exact absurd hdup (List.nodup_iff_forall_not_duplicate.1 hn i)
    have hp : u.dedup.Perm r.toLogic.allDescs.dedup := by
      rw [List.perm_ext_iff_of_nodup (List.nodup_dedup _) (List.nodup_dedup _)]
      intro x
      rw [List.mem_dedup, List.mem_dedup, ← hu]
      simp only [List.mem_filter, List.contains_iff_mem]
      exact ⟨fun h => h.2, fun h => ⟨hcov x h, h⟩⟩
    rw [← hp.length_eq]
    exact hlt
  obtain ⟨r, hq⟩ := Option.ne_none_iff_exists'.1 hr
  have hno : iterOk d.toPE = false := by
    unfold iterOk
    rw [hq]
    dsimp only
    rw [hnil r hq]
    rfl
  have key : ∀ cs, PE.presentationData H dflt d.toPE cs = some .panic := by
    intro cs
    unfold PE.presentationData PE.solveDefinition
    rw [hq]
    simp only [Option.map_some, PE.applyReq, hm, hnil r hq]
  unfold createVP createVPArray
  rw [if_pos h, if_pos h]
  dsimp only
  cases frameCreds G d.frame creds with
  | none =>
    dsimp only
    rw [hno]
    exact ⟨rfl, rfl⟩
  | some cs =>
    dsimp only
    unfold PE.createVP PE.createVPArray
    rw [key]
    exact ⟨rfl, rfl⟩

/-- **C114, deviation.**  An accepted definition whose first asked descriptor starts with a filter that has
no type crashes `MatchSubmissionRequirement` on every wallet whose first credential passes the format
(there is none) and the schemas (there are none). -/
theorem untyped_crashes {d : Definition} (h : validateSchema E (some d) = true) {x : Descriptor}
    {rest : List (Option Descriptor)} (hd : d.descs = some x :: rest) (hr : d.reqs = [])
    (hf : d.format = none) (hxf : x.format = none) (hs : x.schema = none) {c : Constraints}
    (hc : x.constraints = some c) {f : Field} {fs : List (Option Field)} (hcf : c.fields = some f :: fs)
    (hsi : c.subjectIsIssuer ≠ some "required") {g : Filter} (hg : f.filter = some g) (ht : g.typ = none)
    (H : PE.HolderEnv) (apply : Bool) (ha : apply = true → d.frame = none)
    (v : PE.Cred) (creds : List PE.Cred) (hv : v.display ≠ none) :
    matchSubmission E G H apply (some d) (v :: creds) = .panic := by
  have hmm : matchSubmission E G H apply (some d) (v :: creds) =
      PE.matchSubmissionRequirement H apply d.toPE (requirementsToSubs d.reqs) (v :: creds) := by
    unfold matchSubmission
    rw [if_pos h]
    cases apply with
    | false => rfl
    | true =>
      dsimp only
      rw [ha rfl]
      rfl
  rw [hmm]
  obtain ⟨m, hm⟩ := Option.ne_none_iff_exists'.1 hv
  have hk : c.toPE.fields = f.toPE :: (fs.filterMap _root_.id).map Field.toPE := by
    simp only [Constraints.toPE, hcf, List.filterMap_cons, id, List.map_cons]
  have hp : PE.filterConstraints H.toPEnv (some c.toPE) (v :: creds) = .panic :=
    PE.untyped_filter_panics H.toPEnv c.toPE f.toPE _ hk (by
      simp only [Constraints.toPE, beq_eq_false_iff_ne, ne_eq]; exact hsi)
      ⟨g.toPE, by simp only [Field.toPE, hg, Option.map_some], ht⟩ v creds m hm
  have hfd : PE.filterDescriptor H.toMEnv d.toPE.format (x.toPE.toM) (v :: creds) = .panic := by
    unfold PE.filterDescriptor
    simp only [Definition.toPE, hf, Descriptor.toPE, hxf, PE.FDesc.toM, PE.effFormat, hs, hc, Option.map_none,
      Option.map_some, Option.getD_none, Bool.false_eq_true, if_false, hp]
  unfold PE.matchSubmissionRequirement PE.requirementsForMatch
  simp only [hr, requirementsToSubs, List.length_nil, if_true]
  have hds : d.toPE.descs = x.toPE :: (rest.filterMap _root_.id).map Descriptor.toPE := by
    simp only [Definition.toPE, hd, List.filterMap_cons, id, List.map_cons]
  rw [hds]
  simp only [PE.matchReqs, PE.matchReq, PE.matchDescs, PE.matchedVCs, hfd]

/-! ## Frames (C115) -/

theorem frameAll_some {f : PE.Cred → Option PE.Cred} : ∀ {creds cs : List PE.Cred},
    frameAll f creds = some cs ↔ List.Forall₂ (fun c c' => f c = some c') creds cs
  | [], cs => by
    simp only [frameAll, Option.some.injEq]
    constructor
    · rintro rfl; exact .nil
    · intro h; cases h; rfl
  | c :: creds, cs => by
    simp only [frameAll]
    constructor
    · intro h
      split at h
      · cases h
      · next c' hc =>
        simp only [Option.map_eq_some_iff] at h
        obtain ⟨r, hr, rfl⟩ := h
        exact .cons hc (frameAll_some.1 hr)
    · intro h
      cases h with
      | cons hc hr =>
        rw [hc]
        dsimp only
        rw [frameAll_some.2 hr]
        rfl

theorem bbsDisclose_some {m : JObj} {c c' : PE.Cred} (h : bbsDisclose G m c = some c') :
    c.proofTypes ≠ [] ∧ c.hasBBS = true ∧ ∃ g, G = some g ∧ g m c = some c' := by
  unfold bbsDisclose at h
  split at h
  · cases h
  · next hp =>
    split at h
    · cases h
    · next g =>
      split at h
      · next hb => exact ⟨by simpa using hp, hb, g, rfl, h⟩
      · cases h

/-- What a framed credential gets merged from. -/
theorem framed_merged {d : Definition} {m : JObj} {H : PE.HolderEnv}
    (hk : ∀ l, (H.sortKeys l).Perm l) (hn : (d.toPE.descs.map PE.FDesc.id).Nodup) (ht : TypedFilters d)
    {dflt : String} {creds cs : List PE.Cred} (hcs : frameCreds G (some m) creds = some cs) {sep : Bool}
    {fmt : String} {q : GoMap (List (String × PE.Cred))}
    (hp : PE.presentationData H dflt d.toPE cs = some (.ok (fmt, q))) :
    ∀ v ∈ (PE.mergedOf H sep fmt q).1, ∃ c ∈ creds, ∃ c', c.hasBBS = true ∧ (∃ g, G = some g ∧ g m c = some c') ∧
      (v = c' ∨ ∃ x ∈ d.toPE.descs, ∃ k, x.constraints = some k ∧ (H.derive k c' = some v ∨ H.restrict k c' = some v)) := by
  have hall := frameAll_some.1 hcs
  have hm : (d.toPE.descs.map PE.FDesc.toDesc).map PE.Desc.id = d.toPE.descs.map PE.FDesc.id := by
    rw [List.map_map]; rfl
  intro v hv
  obtain ⟨i, ws, u, hw, hu⟩ := (PE.merged_from hk sep fmt q).1 v hv
  rcases PE.solveDefinition_ok (by rw [hm]; exact hn) (PE.evalDesc H d.toPE cs) dflt hp with
    ⟨f, q', e, _, _, hmt, _⟩ | ⟨e, i, e', _⟩ | ⟨e, _⟩
  · cases e
    obtain ⟨f', he, _⟩ := hmt i ws hw
    have hlim : ∀ {k : Option PE.Constraints} {tmp : Nat → String → String} {xs : List PE.Cred} {ws : List (String × PE.Cred)},
        PE.limitDisclosure H.derive H.restrict tmp k xs = some ws → ∀ w ∈ ws, ∃ x ∈ xs,
          w.2 = x ∨ ∃ k', k = some k' ∧ (H.derive k' x = some w.2 ∨ H.restrict k' x = some w.2) := by
      intro k tmp xs
      induction xs generalizing tmp with
      | nil =>
        intro ws h w hw
        simp only [PE.limitDisclosure, Option.some.injEq] at h
        subst h; cases hw
      | cons x xs ih =>
        intro ws h w hw
        simp only [PE.limitDisclosure] at h
        split at h
        · cases h
        · next r hr =>
          simp only [Option.map_eq_some_iff] at h
          obtain ⟨rs, hrs, rfl⟩ := h
          have rest : w ∈ rs → ∃ y ∈ x :: xs, w.2 = y ∨
              ∃ k', k = some k' ∧ (H.derive k' y = some w.2 ∨ H.restrict k' y = some w.2) :=
            fun hw => let ⟨y, hy, e⟩ := ih hrs w hw; ⟨y, List.mem_cons_of_mem _ hy, e⟩
          cases r with
          | none => exact rest hw
          | some w' =>
            rcases List.mem_cons.1 hw with rfl | hw
            · refine ⟨x, List.mem_cons_self, ?_⟩
              unfold PE.limitOne at hr
              split at hr
              · cases hr; exact .inl rfl
              · dsimp only at hr
                split at hr
                · cases hr
                · split at hr
                  · split at hr
                    · cases hr
                    · next hd => cases hr; exact .inr ⟨_, rfl, .inl hd⟩
                  · split at hr
                    · split at hr
                      · cases hr
                      · next hd => cases hr; exact .inr ⟨_, rfl, .inr hd⟩
                    · cases hr; exact .inl rfl
            · exact rest hw
    unfold PE.evalDesc at he
    split at he
    · cases he
    · next x hx =>
      split at he
      · cases he
      · cases he
      · next f'' cs'' hfd =>
        split at he
        · cases he
        · next ws' hl =>
          cases he
          obtain ⟨c', hc', hres⟩ := hlim hl _ hu
          have hin : c' ∈ cs := (PE.filterDescriptor_sound H.toMEnv d.toPE.format x.toM
            (fun k hk => typed_toPE ht x (List.mem_of_find?_eq_some hx) k hk) hfd c' hc').1
          obtain ⟨c, hc, hcc⟩ := PE.forall₂_right hall c' hin
          obtain ⟨_, hb, g, hg, hgc⟩ := bbsDisclose_some hcc
          refine ⟨c, hc, c', hb, ⟨g, hg, hgc⟩, hres.imp_right ?_⟩
          rintro ⟨k, hk, hx'⟩
          exact ⟨x, List.mem_of_find?_eq_some hx, k, hk, hx'⟩
  · cases e'
  · cases e

/-- **C115.**  If a definition has a frame, every credential of a presentation made for it, be it one or
one each, comes from one that was derived with the frame from a credential of the wallet with a BBS+ proof. -/
theorem framed_only {d : Definition} {m : JObj} (hf : d.frame = some m) {H : PE.HolderEnv}
    (hk : ∀ l, (H.sortKeys l).Perm l) (hn : (d.toPE.descs.map PE.FDesc.id).Nodup) (ht : TypedFilters d)
    {dflt : String} {creds : List PE.Cred} {v : PE.Cred}
    (h : (∃ made os, createVP E G H dflt (some d) creds = .ok (made, os) ∧ v ∈ made.creds) ∨
      ∃ mades os, createVPArray E G H dflt (some d) creds = .ok (mades, os) ∧ ∃ made ∈ mades, v ∈ made.creds) :
    ∃ c ∈ creds, ∃ c', c.hasBBS = true ∧ (∃ g, G = some g ∧ g m c = some c') ∧
      (v = c' ∨ ∃ x ∈ d.toPE.descs, ∃ k, x.constraints = some k ∧ (H.derive k c' = some v ∨ H.restrict k c' = some v)) := by
  rcases h with ⟨made, os, h, hv⟩ | ⟨mades, os, h, made, hmd, hv⟩
  · unfold createVP at h
    split at h
    swap
    · cases h
    dsimp only at h
    split at h
    swap
    · split at h <;> cases h
    next cs hcs =>
    rw [hf] at hcs
    obtain ⟨fmt, q, hp, hmk, -⟩ := PE.createVP_ok h
    rw [(PE.made_creds hmk).1] at hv
    exact framed_merged hk hn ht hcs hp v hv
  · unfold createVPArray at h
    split at h
    swap
    · cases h
    dsimp only at h
    split at h
    swap
    · split at h <;> cases h
    next cs hcs =>
    rw [hf] at hcs
    obtain ⟨fmt, q, hp, hmk, -⟩ := PE.createVPArray_ok h
    obtain ⟨x, hx, _, he⟩ := PE.forall₂_right (PE.makeEach_forall _ _ _ hmk) made hmd
    rw [he, List.mem_singleton] at hv
    subst hv
    exact framed_merged hk hn ht hcs hp v hx

/-- **C115, deviation.**  One credential without a BBS+ proof in the wallet, needed or not, makes
`CreateVP` and `CreateVPArray` fail for every definition with a frame. -/
theorem one_plain_credential_spoils_frame {d : Definition} {m : JObj} (hf : d.frame = some m)
    {creds : List PE.Cred} {c : PE.Cred} (hc : c ∈ creds) (hb : c.hasBBS = false) (H : PE.HolderEnv)
    (dflt : String) :
    (createVP E G H dflt (some d) creds = .error ∨ createVP E G H dflt (some d) creds = .panic) ∧
    (createVPArray E G H dflt (some d) creds = .error ∨ createVPArray E G H dflt (some d) creds = .panic) := by
  have hnone : frameCreds G d.frame creds = none := by
    rw [Option.eq_none_iff_forall_not_mem]
    intro cs hcs
    rw [hf] at hcs
    obtain ⟨c', _, hd⟩ := PE.forall₂_left (frameAll_some.1 hcs) c hc
    rw [(bbsDisclose_some hd).2.1] at hb
    cases hb
  unfold createVP createVPArray
  dsimp only
  rw [hnone]
  constructor
  · split
    · dsimp only
      split
      · exact .inl rfl
      · exact .inr rfl
    · exact .inl rfl
  · split
    · dsimp only
      split
      · exact .inl rfl
      · exact .inr rfl
    · exact .inl rfl

/-- **Finding.**  A descriptor whose `schema` is an empty list is accepted (the empty list is left out of
what is checked), but matches no credential. -/
theorem empty_schema_matches_nothing {x : Descriptor} (hs : x.schema = some []) (M : PE.MEnv)
    (pf : Option PE.Format) {creds r : List PE.Cred} {fmt : String}
    (h : PE.filterDescriptor M pf x.toPE.toM creds = .ok (fmt, r))
    (ht : ∀ k, x.toPE.constraints = some k → PE.Typed k) : r = [] := by
  rw [List.eq_nil_iff_forall_not_mem]
  intro c hc
  obtain ⟨_, _, h3, _⟩ := PE.filterDescriptor_sound M pf x.toPE.toM ht h c hc
  have he : x.toPE.toM.schema = some [] := by
    simp only [PE.FDesc.toM, Descriptor.toPE, hs, Option.map_some, List.filterMap_nil]
  obtain ⟨_, s, hs, _⟩ := h3 [] he
  cases hs

end VC.PD
