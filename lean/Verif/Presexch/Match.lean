import Verif.Presexch.ConstraintsProps
import Verif.Base.Strconv
import Mathlib.Data.List.Nodup
/-!
# presexch: verifying a submission with `Match` (C24, C62)

Models `presexch/api.go`.  JSON path evaluation (`selectByPath`) and `verifiable.ParseCredential` with
the caller's options are parameters; the libraries of constraint and schema checking are those of
`Constraints.lean`.
-/

namespace VC.PE

/-- `InputDescriptorMapping`, api.go:52-57 (the format is not read by `Match`). -/
inductive Mapping where
  | mk (id path : String) (nested : Option Mapping)

/-- `Mapping.ID`. -/
def Mapping.id : Mapping → String
  | .mk i _ _ => i

/-- A presentation as `Match` sees it: `typeless` is `getTypelessVP` (api.go:490-515), `submission` is
`parseDescriptorMap` (api.go:351-367), both `none` on error.  A JSON `null` in the descriptor map is a
nil pointer. -/
structure VP where
  id : String
  contexts : List String
  types : List String
  typeless : Option Json
  submission : Option (List (Option Mapping))

/-- Libraries of `Match`. -/
structure MatchEnv extends MEnv where
  selectPath : Json → String → Option Json
  parseCred : Json → Option Cred

/-- An input descriptor with its ID. -/
structure IDesc where
  id : String
  schema : List Schema
  constraints : Option Constraints

/-- `MatchOptions`, api.go:68-73: `merged` is the descriptor map of the merged submission (`some none`
when the map form does not parse). -/
structure MatchOpts where
  disableSchema : Bool
  merged : Option (Option (List (Option Mapping)))

/-- `MatchValue`, api.go:61-65. -/
structure MatchValue where
  presentationID : String
  cred : Cred
  descriptorID : String

/-- `checkJSONLDContextType`, api.go:335-349. -/
def checkContextType (vp : VP) : Bool :=
  (vp.contexts.contains "https://identity.foundation/presentation-exchange/submission/v1" ||
    vp.contexts.contains "https://identity.foundation/credential-manifest/application/v1") &&
  (vp.types.contains "PresentationSubmission" || vp.types.contains "CredentialApplication")

/-- One step of `selectVC`: the path, or the path below `vp`, api.go:268-279. -/
def selectStep (E : MatchEnv) (v : Json) (path : String) : Option Json :=
  match E.selectPath v path with
  | some r => some r
  | none => E.selectPath v (replaceOnce path "$." "$.vp.")

/-- The walk of `selectVC` down the nested mappings, api.go:265-284. -/
def selectWalk (E : MatchEnv) : Json → Mapping → Option Json
  | v, .mk _ path nested =>
    match selectStep E v path with
    | none => none
    | some r =>
      match nested with
      | none => some r
      | some m => selectWalk E r m

/-- `selectVC`, api.go:257-300. -/
def selectVC (E : MatchEnv) (v : Json) (m : Mapping) : Option Cred :=
  match selectWalk E v m with
  | none => none
  | some r => E.parseCred r

/-- `descriptorMappingExpectsVPList`, api.go:400-410. -/
def expectsVPList : Mapping → Bool
  | .mk _ path nested =>
    if hasPrefix path "$[" then true
    else match nested with
      | none => false
      | some m => expectsVPList m

/-- `rootIndex`, api.go:444-461; -1 is kept as a value, as in the code. -/
def rootIndex (path : String) : Int :=
  if !hasPrefix path "$[" then -1
  else
    match split ']' (String.ofList (path.toList.drop 2)) with
    | [] => -1
    | s :: _ => if s = "" then -1 else (atoi s).getD (-1)

/-- `presentationIndex`, api.go:424-440. -/
def presentationIndex : Mapping → Int
  | .mk _ path nested =>
    if rootIndex path ≠ -1 then rootIndex path
    else if path = "$" then
      match nested with
      | none => 0
      | some m => presentationIndex m
    else 0

/-- `presentationIndex` of a possibly nil mapping, api.go:424-427. -/
def presentationIndex? : Option Mapping → Int
  | none => 0
  | some m => presentationIndex m

/-- One mapping of the loop, api.go:190-250.  `prev` are the raw presentations before this one and
`later` the number of those after it, still nil. -/
def matchOne (E : MatchEnv) (ds : List IDesc) (o : MatchOpts) (prev : List Json) (later : Nat)
    (vp : VP) (raw : Json) (m? : Option Mapping) : FilterOut MatchValue :=
  match m? with
  | none => .panic
  | some m =>
    match ds.find? (fun d => d.id == m.id) with
    | none => .error
    | some d =>
      match (if expectsVPList m then
          selectVC E (.arr (prev ++ raw :: List.replicate later .null)) m
        else if prev.length + 1 + later = 1 || o.merged.isNone then selectVC E raw m
        else none) with
      | none => .error
      | some c =>
        match filterSchema E.load d.schema [c] with
        | none => .error
        | some passed =>
          if passed.isEmpty && !o.disableSchema then .error
          else
            match filterConstraints E.toPEnv d.constraints [c] with
            | .ok [c'] => .ok ⟨vp.id, c', m.id⟩
            | .ok _ => .error
            | .error => .error
            | .panic => .panic

/-- The loop over the mappings of a presentation, api.go:190-251. -/
def matchMappings (one : Option Mapping → FilterOut MatchValue) :
    List (Option Mapping) → FilterOut (List MatchValue)
  | [] => .ok []
  | m :: ms =>
    match one m with
    | .error => .error
    | .panic => .panic
    | .ok v =>
      match matchMappings one ms with
      | .ok vs => .ok (v :: vs)
      | .error => .error
      | .panic => .panic

/-- The descriptor map of the presentation at position `idx`, api.go:180-188. -/
def mappingsFor (o : MatchOpts) (idx : Nat) (vp : VP) : Option (List (Option Mapping)) :=
  match o.merged with
  | some none => none
  | some (some ms) => some (ms.filter (fun m => presentationIndex? m == (idx : Int)))
  | none => vp.submission

/-- The loop over the presentations, api.go:166-252.  (On a schema error the code returns no error
but also no result, api.go:221-224; `Match` then fails in `evalSubmissionRequirements`, because the
mapping's descriptor exists and is not matched.  This model returns the error at once.) -/
def matchVPs (E : MatchEnv) (ds : List IDesc) (o : MatchOpts) :
    List Json → List VP → FilterOut (List MatchValue)
  | _, [] => .ok []
  | prev, vp :: vps =>
    if !checkContextType vp then .error
    else
      match vp.typeless with
      | none => .error
      | some raw =>
        match mappingsFor o prev.length vp with
        | none => .error
        | some ms =>
          match matchMappings (matchOne E ds o prev vps.length vp raw) ms with
          | .error => .error
          | .panic => .panic
          | .ok vs =>
            match matchVPs E ds o (prev ++ [raw]) vps with
            | .ok r => .ok (vs ++ r)
            | .error => .error
            | .panic => .panic

/-- `Match`, api.go:116-138, with `evalSubmissionRequirements`, api.go:303-323. -/
def matchSubmission (E : MatchEnv) (ds : List IDesc) (o : MatchOpts) (vps : List VP) :
    FilterOut (List MatchValue) :=
  match o.merged with
  | some none => .error
  | _ =>
    match matchVPs E ds o [] vps with
    | .error => .error
    | .panic => .panic
    | .ok r => if ds.all (fun d => r.any (fun m => m.descriptorID == d.id)) then .ok r else .error

/-! ## Specification -/

/-- The JSON document reached from `v` by following the nested paths of a mapping. -/
inductive Reaches (E : MatchEnv) : Json → Mapping → Json → Prop
  | leaf {v i p r} : selectStep E v p = some r → Reaches E v (.mk i p none) r
  | step {v i p m r r'} : selectStep E v p = some r → Reaches E r m r' → Reaches E v (.mk i p (some m)) r'

/-- A presentation that says it is a submission (or a credential application), in its contexts and types. -/
def IsSubmission (vp : VP) : Prop :=
  ("https://identity.foundation/presentation-exchange/submission/v1" ∈ vp.contexts ∨
    "https://identity.foundation/credential-manifest/application/v1" ∈ vp.contexts) ∧
  ("PresentationSubmission" ∈ vp.types ∨ "CredentialApplication" ∈ vp.types)

/-- A matched value is justified by the presentations: it is the credential parsed from the JSON that
a mapping for its descriptor points at, within one presentation or the list of presentations; the
presentation carrying the mapping is one of those given, with the submission context and type; and
the credential meets the schemas and the constraints of the descriptor. -/
def Justified (E : MatchEnv) (ds : List IDesc) (o : MatchOpts) (vps : List VP) (v : MatchValue) :
    Prop :=
  ∃ vp ∈ vps, vp.id = v.presentationID ∧ IsSubmission vp ∧
  ∃ raw, vp.typeless = some raw ∧
  ∃ m : Mapping, m.id = v.descriptorID ∧ (o.merged = none → ∃ ms, vp.submission = some ms ∧ some m ∈ ms) ∧
    (∀ ms, o.merged = some (some ms) → some m ∈ ms ∧
      ∃ i : Nat, presentationIndex m = i ∧ vps[i]? = some vp) ∧
  ∃ doc, (Reaches E raw m doc ∨ ∃ raws : List Json, raw ∈ raws ∧
      (∀ r ∈ raws, r = .null ∨ ∃ vp' ∈ vps, vp'.typeless = some r) ∧ Reaches E (.arr raws) m doc) ∧
  E.parseCred doc = some v.cred ∧
  ∃ d ∈ ds, d.id = v.descriptorID ∧
    (o.disableSchema = false → (∀ s ∈ d.schema, s.required = true → HasSchema E.load v.cred s.uri) ∧
      ∃ s ∈ d.schema, HasSchema E.load v.cred s.uri) ∧
    (∀ k, d.constraints = some k → ConstraintsOk E.toPEnv k v.cred)

/-! ## Proofs -/

theorem checkContextType_iff (vp : VP) : checkContextType vp = true ↔ IsSubmission vp := by
  unfold checkContextType IsSubmission
  simp only [Bool.and_eq_true, Bool.or_eq_true, List.contains_iff_mem]

/-- A presentation that does not say it is a submission is refused. -/
theorem not_submission_refused (E : MatchEnv) (ds : List IDesc) (o : MatchOpts) (vp : VP) (vps : List VP)
    (prev : List Json) (h : ¬ IsSubmission vp) : matchVPs E ds o prev (vp :: vps) = .error := by
  rw [← checkContextType_iff] at h
  simp only [matchVPs]
  rw [if_pos (by simpa using h)]

theorem selectWalk_reaches (E : MatchEnv) : ∀ (v : Json) (m : Mapping) (r : Json),
    selectWalk E v m = some r → Reaches E v m r
  | v, .mk i p nested, r, h => by
    unfold selectWalk at h
    cases hs : selectStep E v p with
    | none => rw [hs] at h; cases h
    | some x =>
      rw [hs] at h
      cases nested with
      | none => cases h; exact .leaf hs
      | some m => exact .step hs (selectWalk_reaches E x m r h)

theorem matchOne_ok {E : MatchEnv} {ds : List IDesc} (ht : ∀ d ∈ ds, ∀ k, d.constraints = some k → Typed k)
    {o : MatchOpts} {prev : List Json} {later : Nat} {vp : VP} {raw : Json} {m? : Option Mapping}
    {v : MatchValue} (h : matchOne E ds o prev later vp raw m? = .ok v) :
    ∃ m, m? = some m ∧ v.presentationID = vp.id ∧ v.descriptorID = m.id ∧
    ∃ doc, (Reaches E raw m doc ∨
        Reaches E (.arr (prev ++ raw :: List.replicate later .null)) m doc) ∧
      E.parseCred doc = some v.cred ∧ ∃ d ∈ ds, d.id = m.id ∧
      (o.disableSchema = false → (∀ s ∈ d.schema, s.required = true → HasSchema E.load v.cred s.uri) ∧
        ∃ s ∈ d.schema, HasSchema E.load v.cred s.uri) ∧
      (∀ k, d.constraints = some k → ConstraintsOk E.toPEnv k v.cred) := by
  unfold matchOne at h
  cases m? with
  | none => cases h
  | some m =>
    refine ⟨m, rfl, ?_⟩
    dsimp only at h
    cases hd : ds.find? (fun d => d.id == m.id) with
    | none => rw [hd] at h; cases h
    | some d =>
      rw [hd] at h
      dsimp only at h
      have hdm := List.mem_of_find?_eq_some hd
      have hde : d.id = m.id := by simpa using List.find?_some hd
      split at h
      · cases h
      · next c hc =>
        -- where the credential comes from
        have hdoc : ∃ doc, (Reaches E raw m doc ∨
            Reaches E (.arr (prev ++ raw :: List.replicate later .null)) m doc) ∧
            E.parseCred doc = some c := by
          have key : ∀ w, selectVC E w m = some c → ∃ doc, Reaches E w m doc ∧ E.parseCred doc = some c := by
            intro w hw
            unfold selectVC at hw
            cases hx : selectWalk E w m with
            | none => rw [hx] at hw; cases hw
            | some doc => rw [hx] at hw; exact ⟨doc, selectWalk_reaches E w m doc hx, hw⟩
          split at hc
          · obtain ⟨doc, h1, h2⟩ := key _ hc; exact ⟨doc, Or.inr h1, h2⟩
          · split at hc
            · obtain ⟨doc, h1, h2⟩ := key _ hc; exact ⟨doc, Or.inl h1, h2⟩
            · cases hc
        split at h
        · cases h
        · next passed hp =>
          split at h
          · cases h
          · next hps =>
            split at h
            · next c' hf =>
              cases h
              -- the filtered credential is the selected one
              have hcc : c' = c ∧ ∀ k, d.constraints = some k → ConstraintsOk E.toPEnv k c := by
                cases hk : d.constraints with
                | none =>
                  rw [hk] at hf
                  simp only [filterConstraints, FilterOut.ok.injEq, List.cons.injEq, and_true] at hf
                  exact ⟨hf.symm, by simp⟩
                | some k =>
                  rw [hk] at hf
                  rcases filterConstraints_exact E.toPEnv (ht d hdm k hk) [c] with ⟨r, e1, _, e3⟩ | ⟨e1, _⟩
                  · rw [e1] at hf
                    cases hf
                    obtain ⟨a, b⟩ := (e3 c').mp (by simp)
                    simp only [List.mem_singleton] at a
                    subst a
                    refine ⟨rfl, fun k' hk' => ?_⟩
                    cases hk'; exact b
                  · rw [e1] at hf; cases hf
              obtain ⟨rfl, hcon⟩ := hcc
              obtain ⟨doc, h1, h2⟩ := hdoc
              refine ⟨rfl, rfl, doc, h1, h2, d, hdm, hde, ?_, hcon⟩
              intro hdis
              rw [hdis] at hps
              have hne : passed ≠ [] := by simpa using hps
              obtain ⟨x, hx⟩ := List.exists_mem_of_ne_nil passed hne
              obtain ⟨a, b⟩ := ((filterSchema_exact E.load d.schema [c'] passed hp).2 x).mp hx
              simp only [List.mem_singleton] at a
              subst a
              exact b
            · cases h
            · cases h
            · cases h

theorem matchMappings_ok {one : Option Mapping → FilterOut MatchValue} :
    ∀ {ms : List (Option Mapping)} {vs : List MatchValue}, matchMappings one ms = .ok vs →
    ∀ v ∈ vs, ∃ m ∈ ms, one m = .ok v
  | [], vs, h, v, hv => by
    simp only [matchMappings, FilterOut.ok.injEq] at h
    subst h; cases hv
  | m :: ms, vs, h, v, hv => by
    simp only [matchMappings] at h
    split at h
    · cases h
    · cases h
    · next w hw =>
      split at h
      · next ws hws =>
        cases h
        rcases List.mem_cons.mp hv with rfl | hv
        · exact ⟨m, by simp, hw⟩
        · obtain ⟨x, hx, h1⟩ := matchMappings_ok hws v hv
          exact ⟨x, List.mem_cons_of_mem _ hx, h1⟩
      · cases h
      · cases h

theorem matchVPs_ok {E : MatchEnv} {ds : List IDesc} (ht : ∀ d ∈ ds, ∀ k, d.constraints = some k → Typed k)
    {o : MatchOpts} {all : List VP} : ∀ {vps : List VP} {prev : List Json} {r : List MatchValue},
    (∀ vp ∈ vps, vp ∈ all) → (∀ j ∈ prev, ∃ vp ∈ all, vp.typeless = some j) →
    (∀ i, all[prev.length + i]? = vps[i]?) →
    matchVPs E ds o prev vps = .ok r → ∀ v ∈ r, Justified E ds o all v
  | [], prev, r, _, _, _, h, v, hv => by
    simp only [matchVPs, FilterOut.ok.injEq] at h
    subst h; cases hv
  | vp :: vps, prev, r, hall, hprev, hidx, h, v, hv => by
    simp only [matchVPs] at h
    split at h
    · cases h
    · next hctx =>
      have hctx : IsSubmission vp := (checkContextType_iff vp).1 (by simpa using hctx)
      split at h
      · cases h
      · next raw hraw =>
        split at h
        · cases h
        · next ms hms =>
          split at h
          · cases h
          · cases h
          · next vs hvs =>
            split at h
            · next r' hr' =>
              cases h
              rcases List.mem_append.mp hv with hv | hv
              · obtain ⟨m?, hm?, h1⟩ := matchMappings_ok hvs v hv
                obtain ⟨m, rfl, h2, h3, doc, h4, h5, d, h6, h7, h8, h9⟩ := matchOne_ok ht h1
                refine ⟨vp, hall vp (by simp), h2.symm, hctx, raw, hraw, m, h3.symm, ?_, ?_, doc, ?_, h5, d,
                  h6, by rw [h7, h3], h8, h9⟩
                · intro ho
                  simp only [mappingsFor, ho] at hms
                  exact ⟨ms, hms, hm?⟩
                · intro ms' ho
                  simp only [mappingsFor, ho, Option.some.injEq] at hms
                  subst hms
                  obtain ⟨a, b⟩ := List.mem_filter.mp hm?
                  refine ⟨a, prev.length, by simpa [presentationIndex?] using b, ?_⟩
                  simpa using hidx 0
                · rcases h4 with h4 | h4
                  · exact Or.inl h4
                  · refine Or.inr ⟨_, ?_, ?_, h4⟩
                    · simp
                    · intro x hx
                      simp only [List.mem_append, List.mem_cons, List.mem_replicate] at hx
                      rcases hx with hx | rfl | ⟨_, rfl⟩
                      · exact Or.inr (hprev x hx)
                      · exact Or.inr ⟨vp, hall vp (by simp), hraw⟩
                      · exact Or.inl rfl
              · refine matchVPs_ok ht (fun x hx => hall x (List.mem_cons_of_mem _ hx)) ?_ ?_ hr' v hv
                rotate_left
                · intro i
                  rw [List.length_append, List.length_singleton, Nat.add_assoc, Nat.add_comm 1 i, hidx (i + 1)]
                  rfl
                intro j hj
                rcases List.mem_append.mp hj with hj | hj
                · exact hprev j hj
                · simp only [List.mem_singleton] at hj
                  subst hj
                  exact ⟨vp, hall vp (by simp), hraw⟩
            · cases h
            · cases h

/-- **C24.** When `Match` succeeds, every input descriptor of the definition has a matched
credential, and every matched credential is justified by the presentations: it was parsed from the
JSON a mapping points at, and meets the descriptor's schemas (unless disabled) and constraints. -/
theorem match_complete {E : MatchEnv} {ds : List IDesc}
    (ht : ∀ d ∈ ds, ∀ k, d.constraints = some k → Typed k) {o : MatchOpts} {vps : List VP}
    {r : List MatchValue} (h : matchSubmission E ds o vps = .ok r) :
    (∀ d ∈ ds, ∃ v ∈ r, v.descriptorID = d.id) ∧ ∀ v ∈ r, Justified E ds o vps v := by
  have key : ∃ r', matchVPs E ds o [] vps = .ok r' ∧ r' = r ∧
      ds.all (fun d => r.any (fun m => m.descriptorID == d.id)) = true := by
    unfold matchSubmission at h
    split at h
    · cases h
    · split at h
      · cases h
      · cases h
      · next r' hr' =>
        split at h
        · next ha => cases h; exact ⟨r, hr', rfl, ha⟩
        · cases h
  obtain ⟨r', h1, rfl, h2⟩ := key
  refine ⟨?_, matchVPs_ok ht (fun _ h => h) (by simp) (by simp) h1⟩
  intro d hd
  rw [List.all_eq_true] at h2
  have := h2 d hd
  rw [List.any_eq_true] at this
  obtain ⟨v, hv, he⟩ := this
  exact ⟨v, hv, by simpa using he⟩

/-- **C24, deviation (denial of service)**: a `null` in the descriptor map of a presentation makes
`Match` panic. -/
theorem null_mapping_panics (E : MatchEnv) (ds : List IDesc) (vp : VP) (vps : List VP)
    (hc : IsSubmission vp) (ht : vp.typeless.isSome = true)
    (ms : List (Option Mapping)) (hs : vp.submission = some (none :: ms)) (dis : Bool) :
    matchSubmission E ds ⟨dis, none⟩ (vp :: vps) = .panic := by
  obtain ⟨raw, hr⟩ := Option.isSome_iff_exists.mp ht
  have hc := (checkContextType_iff vp).2 hc
  simp [matchSubmission, matchVPs, hc, hr, mappingsFor, hs, matchMappings, matchOne]

/-- **C24, deviation**: a descriptor without schemas (as in version 2 definitions) can never be
matched unless schema validation is disabled. -/
theorem no_schema_never_matches (E : MatchEnv) (ds : List IDesc) (o : MatchOpts) (vps : List VP)
    (ht : ∀ d ∈ ds, ∀ k, d.constraints = some k → Typed k) (hdis : o.disableSchema = false)
    (d : IDesc) (hd : d ∈ ds) (hs : d.schema = []) (hn : (ds.map IDesc.id).Nodup) :
    ∀ r, matchSubmission E ds o vps ≠ .ok r := by
  intro r h
  obtain ⟨h1, h2⟩ := match_complete ht h
  obtain ⟨v, hv, he⟩ := h1 d hd
  obtain ⟨vp, _, _, _, raw, _, m, _, _, _, doc, _, _, d', hd', he', hsch, _⟩ := h2 v hv
  have : d' = d := List.inj_on_of_nodup_map hn hd' hd (by rw [he', he])
  subst this
  obtain ⟨_, s, hsm, _⟩ := hsch hdis
  rw [hs] at hsm; cases hsm

/-! ## Examples -/

/-- `$[n]...` selects in an array, `$...` in a document: here only the paths used below. -/
def mtEnv : MatchEnv := { pcMEnv with
  selectPath := fun v p => match v with
    | .arr (x :: _) => if p = "$[0].c" then (match x with | .obj o => GoMap.get? o "c" | _ => none) else none
    | .obj o => if p = "$.c" then GoMap.get? o "c" else if p = "$" then some v else none
    | _ => none
  parseCred := fun v => match v with
    | .str s => some { pcCred with id := s, contexts := ["ctx"], types := ["Degree"] }
    | _ => none }

/-- One descriptor. -/
def mtDesc : IDesc := ⟨"d", [⟨"urn:Degree", true⟩], some pcK⟩

/-- A presentation holding the credential `cred` and the mapping `m`. -/
def mtVP (id cred : String) (m : Mapping) : VP :=
  ⟨id, ["https://identity.foundation/presentation-exchange/submission/v1"], ["PresentationSubmission"],
    some (.obj [("c", .str cred)]), some [some m]⟩

/-- A matching submission (two nested paths). -/
example : ∃ r, matchSubmission mtEnv [mtDesc] ⟨false, none⟩ [mtVP "vp1" "c1" (.mk "d" "$" (some (.mk "d" "$.c" none)))]
    = .ok r ∧ r.map (fun v => (v.presentationID, v.cred.id, v.descriptorID)) = [("vp1", "c1", "d")] :=
  ⟨_, rfl, rfl⟩

/-- **C62 violated.** `Match` reports the credential `c1` as held by presentation `vp2`, although only
`vp1` holds it: the submission embedded in `vp2` points into the list of presentations. -/
theorem presentation_id_wrong : ∃ r, matchSubmission mtEnv [mtDesc] ⟨false, none⟩
    [mtVP "vp1" "c1" (.mk "d" "$.c" none), mtVP "vp2" "c2" (.mk "d" "$[0].c" none)] = .ok r ∧
    r.map (fun v => (v.presentationID, v.cred.id, v.descriptorID)) =
      [("vp1", "c1", "d"), ("vp2", "c1", "d")] :=
  ⟨_, rfl, rfl⟩

/-- A mapping without an array index anywhere (the only kind `Match` evaluates inside one
presentation). -/
theorem presentationID_holds_partial {E : MatchEnv} {ds : List IDesc}
    (ht : ∀ d ∈ ds, ∀ k, d.constraints = some k → Typed k) {o : MatchOpts} {vp : VP} {raw : Json}
    {m : Mapping} (hm : expectsVPList m = false) {prev : List Json} {later : Nat} {v : MatchValue}
    (h : matchOne E ds o prev later vp raw (some m) = .ok v) :
    v.presentationID = vp.id ∧ ∃ doc, Reaches E raw m doc ∧ E.parseCred doc = some v.cred := by
  obtain ⟨m', hm', h2, _⟩ := matchOne_ok ht h
  refine ⟨h2, ?_⟩
  unfold matchOne at h
  dsimp only at h
  rw [hm] at h
  split at h
  · cases h
  · next d hd =>
    split at h
    · cases h
    · next c hc =>
      simp only [Bool.false_eq_true, if_false] at hc
      split at hc
      · unfold selectVC at hc
        cases hx : selectWalk E raw m with
        | none => rw [hx] at hc; cases hc
        | some doc =>
          rw [hx] at hc
          refine ⟨doc, selectWalk_reaches E raw m doc hx, ?_⟩
          split at h
          · cases h
          · split at h
            · cases h
            · split at h
              · next c' hf =>
                cases h
                have : c' ∈ [c] := by
                  cases hk : d.constraints with
                  | none =>
                    rw [hk] at hf
                    simp only [filterConstraints, FilterOut.ok.injEq] at hf
                    rw [hf]; simp
                  | some k =>
                    rw [hk] at hf
                    rcases filterConstraints_exact E.toPEnv (ht d (List.mem_of_find?_eq_some hd) k hk) [c]
                      with ⟨r, e1, _, e3⟩ | ⟨e1, _⟩
                    · rw [e1] at hf
                      cases hf
                      exact ((e3 c').mp (by simp)).1
                    · rw [e1] at hf; cases hf
                simp only [List.mem_singleton] at this
                subst this
                exact hc
              · cases h
              · cases h
              · cases h
      · cases hc

end VC.PE
