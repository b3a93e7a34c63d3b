import Verif.Schema.Select
import Verif.Verifiable.ParseMain
import Verif.Verifiable.ParseExamples
import Verif.Verifiable.PresentationMirror
import Verif.Verifiable.PresentationExamples
/-!
# Parsing and the built-in schemas (C110, C111, C112)

What `ParseCredential` and `ParsePresentation` guarantee through JSON Schema validation, with examples
and the cases in which they guarantee less than one would expect.
-/

namespace VC.Schema

open GoMap Spec
open VC.Vfy (PEnv VEnv ParseOpts VpOpts PCred Pres parseCredential parsePresentation Contents TypedID Res)

section
variable (env : PEnv)

/-- **C110.** Whatever `ParseCredential` accepts with schema validation on, other than a JWT credential,
conforms to the schema of `Uses`. -/
theorem accepted_conforms (E : SEnv) (vt : String → JObj → Option Bool) (so : SelOpts env.T)
    (hS : ∀ j c, env.schemaOK j c = validateUsing E vt so j c) (o : ParseOpts env)
    (he : o.externalContext = []) (data : String) (vc : PCred env.T)
    (h : parseCredential env o data = .ok vc) (hd : o.disableValidation = false)
    (hm : o.mode ≠ .jsonld) (hj : vc.jwt = none) :
    ∃ src, Uses so vc.contents src ∧ verdict E vt vc.json src = some true := by
  have hv := ((Vfy.parse_iff env o he data vc).1 h).2.1 hd hj
  have hs : env.schemaOK vc.json vc.contents = true := by
    rcases hv with ⟨-, hs, -⟩ | ⟨hm', -⟩ | ⟨-, hs, -⟩ | ⟨-, hs, -⟩
    · exact hs
    · exact absurd hm' hm
    · exact hs
    · exact hs
  rw [hS, validate_iff] at hs
  exact hs

theorem parse_bound {o : ParseOpts env} {data : String} {vc : PCred env.T}
    (h : parseCredential env o data = .ok vc) : Vfy.Spec.Bound env vc := by
  unfold parseCredential at h
  rw [Vfy.orNext_ok, Vfy.orNext_ok] at h
  rcases h with h | ⟨-, h | ⟨-, h⟩⟩
  · exact (Vfy.parseWith_bound env (fun v hv => Vfy.parseEnveloped_bound env hv) h).1
  · exact (Vfy.parseWith_bound env (fun v hv => Vfy.parseJSON_bound env hv) h).1
  · exact (Vfy.parseWith_bound env (fun v hv => Vfy.parseCBOR_bound env hv) h).1

/-- **C111.** With the default validation and the built-in schemas, an accepted credential other than a
JWT one names the v1 or v2 context first and conforms to the schema of that data model; its types include
VerifiableCredential and it has an issuer; a v1 one has a URI as issuer and an issuance date, a v2 one at
least one subject. -/
theorem accepted_builtin {E : SEnv} (L : Laws E) (vt : String → JObj → Option Bool)
    (so : SelOpts env.T) (hS : ∀ j c, env.schemaOK j c = validateUsing E vt so j c)
    (o : ParseOpts env) (he : o.externalContext = []) (data : String) (vc : PCred env.T)
    (h : parseCredential env o data = .ok vc) (hd : o.disableValidation = false)
    (hm : o.mode = .combined) (hj : vc.jwt = none)
    (hb : so.noCustom = true ∨ (Open so ∧ ∀ s ∈ vc.contents.schemas, ¬ Supported s)) :
    "VerifiableCredential" ∈ vc.contents.types ∧
    ((vc.contents.context.head? = some "https://www.w3.org/2018/credentials/v1" ∧
        CredV1 E ["type", "credentialSubject", "issuer", "issuanceDate"] vc.json ∧
        (∃ i, vc.contents.issuer = some i ∧ E.format "uri" i.id = true) ∧
        vc.contents.issued ≠ none) ∨
     (vc.contents.context.head? = some "https://www.w3.org/ns/credentials/v2" ∧
        CredV2 E datePattern ["type", "credentialSubject", "issuer"] vc.json ∧
        (∃ i, vc.contents.issuer = some i) ∧ vc.contents.subject ≠ [])) := by
  have hv := ((Vfy.parse_iff env o he data vc).1 h).2.1 hd hj
  obtain ⟨hs, b, hbm, hctx, -⟩ : env.schemaOK vc.json vc.contents = true ∧
      ∃ b ∈ ["https://www.w3.org/2018/credentials/v1", "https://www.w3.org/ns/credentials/v2"],
        vc.contents.context.head? = some b ∧ env.ldOK vc.json b = true ∧
        (o.ldTypesCheck = true → env.ldTypesOK vc.json b = true) := by
    rcases hv with ⟨-, hs, hl⟩ | ⟨hm', -⟩ | ⟨hm', -⟩ | ⟨hm', -⟩
    · exact ⟨hs, hl⟩
    · rw [hm] at hm'; cases hm'
    · rw [hm] at hm'; cases hm'
    · rw [hm] at hm'; cases hm'
  rw [hS, builtin_decides L vt so vc.json vc.contents hb] at hs
  obtain ⟨json, b', hc, hsame⟩ := (parse_bound env h).contents
  obtain ⟨-, ht, hi, -, -, -, -, hsub, -, -, hiss, -⟩ := Vfy.parseContents_inv env.toCEnv hc
  have hat : ∀ k, k ≠ "@context" → Vfy.GObj.at (Vfy.ofWire json) k = .json ((get? vc.json k).getD .null) := by
    intro k hk
    rw [Vfy.at_ofWire, hsame k hk]
  have htyp : ∀ t, get? vc.json "type" = some t → Typed "VerifiableCredential" t →
      "VerifiableCredential" ∈ vc.contents.types := by
    intro t hg hty
    rw [hat "type" (by decide), hg, Option.getD_some] at ht
    rcases hty with rfl | ⟨l, rfl, hl⟩
    · simp only [Vfy.decodeType, Option.some.injEq] at ht
      rw [← ht]; simp
    · simp only [Vfy.decodeType] at ht
      rw [Vfy.stringSlice_iff] at ht
      rw [ht] at hl
      simpa using hl
  rcases hs with ⟨hh, hs⟩ | ⟨hh, hs⟩
  · obtain ⟨t, hg⟩ := hs.required "type" (by simp)
    refine ⟨htyp t hg (hs.type t hg), .inr ⟨hh, hs, ?_, ?_⟩⟩
    · obtain ⟨i, hg'⟩ := hs.required "issuer" (by simp)
      rw [hat "issuer" (by decide), hg', Option.getD_some] at hi
      rcases hs.issuer i hg' with ⟨s, rfl⟩ | ⟨q, rfl, -⟩
      · simp only [Vfy.parseIssuer] at hi
        split at hi
        · cases hi
        · exact ⟨_, (Option.some.inj hi).symm⟩
      · simp only [Vfy.parseIssuer, Option.map_eq_some_iff] at hi
        obtain ⟨x, -, hx⟩ := hi
        exact ⟨x, hx.symm⟩
    · obtain ⟨i, hg'⟩ := hs.required "credentialSubject" (by simp)
      rw [hat "credentialSubject" (by decide), hg', Option.getD_some] at hsub
      rcases hs.subject i hg' with ⟨q, rfl, -⟩ | ⟨l, rfl, hne, -⟩
      · simp only [Vfy.parseSubject, Option.map_eq_some_iff] at hsub
        obtain ⟨x, -, hx⟩ := hsub
        rw [← hx]; simp
      · simp only [Vfy.parseSubject] at hsub
        cases l with
        | nil => exact absurd rfl hne
        | cons x l =>
          cases x <;> simp only [Vfy.parseSubjects, reduceCtorEq] at hsub
          simp only [Option.bind_eq_bind, Option.bind_eq_some_iff, Option.pure_def,
            Option.some.injEq] at hsub
          obtain ⟨_, -, _, -, hx⟩ := hsub
          rw [← hx]; simp
  · have hh' : vc.contents.context.head? = some "https://www.w3.org/2018/credentials/v1" := by
      simp only [List.mem_cons, List.not_mem_nil, or_false] at hbm
      rcases hbm with rfl | rfl
      · exact hctx
      · exact absurd hctx hh
    obtain ⟨t, hg⟩ := hs.required "type" (by simp)
    refine ⟨htyp t hg (hs.type t hg), .inl ⟨hh', hs, ?_, ?_⟩⟩
    · obtain ⟨i, hg'⟩ := hs.required "issuer" (by simp)
      rw [hat "issuer" (by decide), hg', Option.getD_some] at hi
      rcases hs.issuer i hg' with ⟨s, rfl, hf⟩ | ⟨q, rfl, v, hq, s, rfl, hf⟩
      · simp only [Vfy.parseIssuer] at hi
        split at hi
        · cases hi
        · exact ⟨_, (Option.some.inj hi).symm, hf⟩
      · simp only [Vfy.parseIssuer, Option.map_eq_some_iff, Vfy.issuerFromJSON,
          Option.bind_eq_bind, Option.bind_eq_some_iff] at hi
        obtain ⟨x, ⟨id, h1, h2⟩, hx⟩ := hi
        have : get? (JsonUtil.splitObj ["id"] q).1 "id" = some (.str s) := by
          rw [(JsonUtil.split_lookup ["id"] q "id").1, if_pos (by simp), hq]
        simp only [Vfy.parseStringFld, JObj.at, this, Option.getD_some, Option.some.injEq] at h1
        subst h1
        split at h2
        · cases h2
        · refine ⟨x, hx.symm, ?_⟩
          rw [← Option.some.inj h2]
          exact hf
    · obtain ⟨i, hg'⟩ := hs.required "issuanceDate" (by simp)
      obtain ⟨s, rfl, -⟩ := hs.issued i hg'
      intro hn
      rw [hn] at hiss
      unfold Vfy.parseTime2 at hiss
      rw [hat "issuanceDate" (by decide), hg', Option.getD_some] at hiss
      simp only [Vfy.parseTime] at hiss
      cases hp : Vfy.parseTW env.toCEnv s with
      | none => simp [hp] at hiss
      | some w => simp [hp] at hiss

end

/-- **C112.** A presentation `ParsePresentation` accepts conforms to the built-in schema of the data
model its document names first. -/
theorem accepted_presentation (env : VEnv) {E : SEnv} (L : Laws E)
    (h1 : ∀ j, env.vpSchema1 j = ((verdict E (fun _ _ => none) j (.builtin presV1Doc)).getD false))
    (h2 : ∀ j, env.vpSchema2 j = ((verdict E (fun _ _ => none) j (.builtin presV2Doc)).getD false))
    (o : VpOpts env) (data : String) (vp : Pres env.T) (h : parsePresentation env o data = .ok vp) :
    ∃ raw, Vfy.Spec.Delivers env data raw vp.jwt vp.cwt ∧ Vfy.Spec.Mirrors raw vp ∧
      "VerifiablePresentation" ∈ vp.types ∧
      ((vp.context.head? = some "https://www.w3.org/2018/credentials/v1" ∧ PresV1 E raw) ∨
       (vp.context.head? = some "https://www.w3.org/ns/credentials/v2" ∧ PresV2 E datePattern raw)) := by
  obtain ⟨raw, l, hd, hm, ⟨⟨names, rest, hc, hv⟩, -⟩, -⟩ := Vfy.presentation_mirrors env o data vp h
  have e1 : ∀ d, ((verdict E (fun _ _ => none) raw (.builtin d)).getD false) = true ↔
      ∃ s, read d = some s ∧ ok E s (.obj raw) = true := by
    intro d
    simp only [verdict]
    cases read d <;> simp
  rw [h1, h2, e1, e1, presV1_exact L, presV2_exact L] at hv
  have hn : names = vp.context := by
    have a := (Vfy.context_iff _ _ _).2 hc
    have b := (Vfy.context_iff _ _ _).2 hm.context
    rw [a] at b
    exact congrArg Prod.fst (Option.some.inj b)
  rw [hn] at hv
  have ht : ∀ t, get? raw "type" = some t → Typed "VerifiablePresentation" t →
      "VerifiablePresentation" ∈ vp.types := by
    intro t hg hty
    rcases hm.types with ⟨s, hs, he⟩ | hs
    · rw [hs, Option.some.injEq] at hg
      rw [he]
      rcases hty with e | ⟨l, e, -⟩
      · rw [e, Json.str.injEq] at hg; simp [hg]
      · rw [e] at hg; cases hg
    · rw [hs, Option.some.injEq] at hg
      rcases hty with e | ⟨l, e, hl⟩
      · rw [e] at hg; cases hg
      · rw [e, Json.arr.injEq] at hg
        rw [← hg] at hl
        simpa using hl
  refine ⟨raw, hd, hm, ?_, hv⟩
  rcases hv with ⟨-, hv⟩ | ⟨-, hv⟩
  · obtain ⟨t, hg, hty⟩ := hv.type; exact ht t hg hty
  · obtain ⟨t, hg, hty⟩ := hv.type; exact ht t hg hty

/-! ## Examples -/

/-- Toy libraries. -/
def scE : SEnv where
  regex := fun p s =>
    if p = "^VerifiableCredential$" then s == "VerifiableCredential"
    else if p = "^VerifiablePresentation$" then s == "VerifiablePresentation" else s != "x"
  format := fun _ s => s != "x"
  text := fun v => match v with
    | .str s => "s" ++ s
    | _ => "o"

theorem scE_laws : Laws scE where
  text := by
    intro v s
    cases v with
    | str t =>
      simp only [scE, Json.str.injEq]
      constructor
      · intro h
        have := congrArg String.toList h
        simp only [String.toList_append] at this
        exact String.toList_injective (List.append_cancel_left this)
      · rintro rfl; rfl
    | null | bool | num | arr | obj =>
      simp only [scE, reduceCtorEq, iff_false]
      intro h
      have := congrArg (fun x => x.toList.head?) h
      simp at this
  vc := by intro s; simp [scE]
  vp := by intro s; simp [scE]

/-- A v1 credential with everything the built-in schema asks for. -/
def scDoc (more : JObj) : JObj := Vfy.pxDoc "did:ex:a" ([("issuanceDate", .str "+1Z"),
  ("proof", .obj [("type", .str "Ed25519Signature2018")])] ++ more)

/-- The caller leaves the choice to the credential; one server answers 200, another 404. -/
def scOpts : SelOpts Vfy.pxEnv.T where
  noCustom := false
  given := ""
  givenFn := none
  cache := some (fun u => if u = "http://c" then some "cached" else none)
  http := fun u => if u = "http://a" then some ⟨200, some "any"⟩ else if u = "http://b" then some ⟨404, none⟩
    else none

/-- Texts: `any` accepts everything, `none` nothing; anything else is no schema. -/
def scText (t : String) (_ : JObj) : Option Bool :=
  if t = "any" then some true else if t = "none" then some false else none

/-- The toy parser with real schema validation. -/
def scEnv : PEnv := { Vfy.pxEnv with
  decodeObj := fun s =>
    if s = "{ok}" then some (scDoc [])
    else if s = "{custom}" then some (Vfy.pxDoc "did:ex:a"
      [("proof", .obj [("type", .str "Ed25519Signature2018")]),
       ("credentialSchema", .obj [("id", .str "http://a"), ("type", .str "JsonSchema")])])
    else if s = "{nodate}" then some (Vfy.pxDoc "did:ex:a"
      [("proof", .obj [("type", .str "Ed25519Signature2018")])])
    else none
  schemaOK := validateUsing scE scText scOpts }

/-- Default options. -/
def scPOpts : ParseOpts scEnv := { Vfy.pxOpts with }

/-- Outcome and jwt. -/
def scView (r : Res (PCred scEnv.T)) : Option (Option String × Bool × List String) :=
  match r with
  | .ok vc => some (vc.contents.issuer.map (·.id), vc.jwt.isNone, vc.contents.types)
  | _ => none

set_option maxHeartbeats 4000000 in
/-- A credential that conforms is accepted; one without the issuance date is refused; with a custom
schema it is accepted again. -/
theorem schema_examples :
    scView (parseCredential scEnv scPOpts "{ok}") = some (some "did:ex:a", true, ["VerifiableCredential"]) ∧
    scView (parseCredential scEnv scPOpts "{nodate}") = none ∧
    scView (parseCredential scEnv scPOpts "{custom}") =
      some (some "did:ex:a", true, ["VerifiableCredential"]) := by
  decide +kernel

/-- The hypotheses of `accepted_builtin` and `accepted_conforms` are met. -/
example : ∃ vc : PCred scEnv.T, parseCredential scEnv scPOpts "{ok}" = .ok vc ∧ vc.jwt = none ∧
    scPOpts.disableValidation = false ∧ scPOpts.mode = .combined ∧ scPOpts.externalContext = [] ∧
    (∀ j c, scEnv.schemaOK j c = validateUsing scE scText scOpts j c) := by
  have h := schema_examples.1
  cases hp : parseCredential scEnv scPOpts "{ok}" with
  | ok vc =>
    rw [hp] at h
    simp only [scView, Option.some.injEq, Prod.mk.injEq, Option.isNone_iff_eq_none] at h
    exact ⟨vc, rfl, h.2.1, rfl, rfl, rfl, fun _ _ => rfl⟩
  | err | unsupported | panic => rw [hp] at h; simp [scView] at h

/-- Contents with the given contexts and schemas. -/
def scContents (ctx : List String) (schemas : List TypedID) : Contents Vfy.pxEnv.T where
  context := ctx
  customContext := []
  id := ""
  types := []
  subject := []
  issuer := none
  issued := none
  expired := none
  status := []
  schemas := schemas
  evidence := .null
  termsOfUse := []
  refreshService := none
  sdAlg := none
  relRes := []

/-- The choices: a supported schema after an unsupported one; the cached one without a request; one that
cannot be downloaded; none. -/
example :
    (getSchemaLoader scOpts (scContents [] [⟨"x", "JsonSchemaCredential", []⟩, ⟨"http://a", "JsonSchema", []⟩])).asked
      = ["http://a"] ∧
    (getSchemaLoader scOpts (scContents [] [⟨"http://a", "JsonSchema", []⟩])).stored = [("http://a", "any")] ∧
    (getSchemaLoader scOpts (scContents [] [⟨"http://c", "JsonSchemaValidator2018", []⟩])).asked = [] ∧
    (getSchemaLoader scOpts (scContents [] [⟨"http://b", "JsonSchema", []⟩])).res.isSome = false ∧
    (getSchemaLoader { scOpts with noCustom := true } (scContents [] [⟨"http://b", "JsonSchema", []⟩])).asked
      = [] := by decide +kernel

example : Uses scOpts (scContents [] [⟨"x", "T", []⟩, ⟨"http://a", "JsonSchema", []⟩]) (.text "any") :=
  .custom ⟨"http://a", "JsonSchema", []⟩ "any" ⟨rfl, rfl, rfl⟩
    ⟨[⟨"x", "T", []⟩], [], rfl, .inr rfl, by intro x hx; simp at hx; subst hx; simp [Supported]⟩
    (.inr ⟨by rintro t ⟨g, hg, he⟩; cases hg; simp at he, ⟨200, some "any"⟩, rfl, rfl, rfl⟩)

/-- A v2 credential that conforms. -/
example : CredV2 scE datePattern ["type", "credentialSubject", "issuer"]
    [("@context", .arr [.str "https://www.w3.org/ns/credentials/v2"]), ("type", .str "VerifiableCredential"),
     ("issuer", .obj [("id", .str "did:ex:a")]), ("validFrom", .str "2024-01-01T00:00:00Z"),
     ("credentialSubject", .obj [("name", .str "N")])] :=
  (credV2_exact scE_laws _ _).1 ⟨_, credV2_read _, by decide +kernel⟩

/-- A v2 presentation with a proof that conforms. -/
example : PresV2 scE datePattern
    [("@context", .arr [.str "https://www.w3.org/ns/credentials/v2"]), ("type", .str "VerifiablePresentation"),
     ("proof", .obj [("type", .str "DataIntegrityProof"), ("proofPurpose", .str "authentication"),
       ("verificationMethod", .str "did:ex:a#k"), ("created", .str "2024-01-01T00:00:00Z")])] :=
  (presV2_exact scE_laws _).1 ⟨_, presV2_read, by decide +kernel⟩

/-- The toy presentation parser with real schema validation. -/
def scVEnv : VEnv := { Vfy.vxEnv with
  vpSchema1 := fun j => (verdict scE (fun _ _ => none) j (.builtin presV1Doc)).getD false
  vpSchema2 := fun j => (verdict scE (fun _ _ => none) j (.builtin presV2Doc)).getD false }

/-- Holder and types of a parsed presentation. -/
def scVpView (r : Vfy.Out (Pres scVEnv.T)) : Option (String × List String) :=
  match r with
  | .ok vp => some (vp.holder, vp.types)
  | _ => none

set_option maxHeartbeats 4000000 in
/-- The hypotheses of `accepted_presentation` are met. -/
example : scVpView (parsePresentation scVEnv { Vfy.vxOpts with } "{vp-ld}") =
    some ("did:ex:a", ["VerifiablePresentation"]) := by decide +kernel

/-! ## Where the guarantee ends -/

/-- **C110 (violated).** A custom schema replaces the built-in one: an object that is no credential at all
— no context, type, issuer or subject — passes if the schema the credential itself names accepts it. -/
theorem custom_replaces_builtin :
    validateUsing scE scText scOpts [] (scContents [] [⟨"http://a", "JsonSchema", []⟩]) = true ∧
    ¬ CredV1 scE [] [] ∧ ¬ CredV2 scE datePattern [] [] := by
  refine ⟨by decide +kernel, ?_, ?_⟩
  · intro h; obtain ⟨v, hv, -⟩ := h.context; cases hv
  · intro h; obtain ⟨v, hv, -⟩ := h.context; cases hv

/-- **C110 (violated).** A second schema is never looked at: the credential names a schema that
refuses everything, after one that accepts everything. -/
theorem second_schema_ignored :
    validateUsing scE scText { scOpts with http := fun u => some ⟨200, some u⟩, cache := none } []
      (scContents [] [⟨"any", "JsonSchema", []⟩, ⟨"none", "JsonSchema", []⟩]) = true ∧
    validateUsing scE scText { scOpts with http := fun u => some ⟨200, some u⟩, cache := none } []
      (scContents [] [⟨"none", "JsonSchema", []⟩]) = false := by decide +kernel

/-- **C111 (violated).** The v1 schemas accept an empty list of contexts and an empty list of subjects. -/
theorem v1_empty_context : CredV1 scE ["type", "credentialSubject", "issuer", "issuanceDate"]
    [("@context", .arr []), ("type", .str "VerifiableCredential"), ("issuer", .str "did:ex:a"),
     ("credentialSubject", .arr []), ("issuanceDate", .str "2024-01-01T00:00:00Z")] :=
  (credV1_exact scE_laws _ _).1 ⟨_, credV1_read _, by decide +kernel⟩

/-- **C112 (violated).** Of several proofs the v1 presentation schema checks the first only: the second
may be anything, although one such proof alone is refused. -/
theorem second_proof_unchecked :
    PresV1 scE [("@context", .str "https://www.w3.org/2018/credentials/v1"),
      ("type", .str "VerifiablePresentation"),
      ("proof", .arr [.obj [("type", .str "Ed25519Signature2018")], .num 7])] ∧
    ¬ PresV1 scE [("@context", .str "https://www.w3.org/2018/credentials/v1"),
      ("type", .str "VerifiablePresentation"), ("proof", .arr [.num 7])] := by
  constructor
  · exact (presV1_exact scE_laws _).1 ⟨_, presV1_read, by decide +kernel⟩
  · intro h
    obtain ⟨s, h1, h2⟩ := (presV1_exact scE_laws _).2 h
    rw [presV1_read] at h1
    cases h1
    revert h2
    decide +kernel

end VC.Schema
