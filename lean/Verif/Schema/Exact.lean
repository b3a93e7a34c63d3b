import Verif.Schema.Props
/-!
# The built-in schemas, exactly: the four documents (C111, C112)
-/

namespace VC.Schema

open GoMap Spec

variable {E : SEnv}

theorem ok_required (ks : List String) (o : JObj) :
    ok E (.required ks) (.obj o) = true ↔ ∀ k ∈ ks, (get? o k).isSome = true := by
  simp only [ok, List.all_eq_true]
theorem ok_props (ps : List (String × Sch)) (o : JObj) :
    ok E (.props ps) (.obj o) = okProps E ps o := by simp only [ok]

theorem some_iff {o : JObj} {k : String} : (get? o k).isSome = true ↔ ∃ v, get? o k = some v := by
  cases get? o k <;> simp

/-- The context member of both v1 schemas. -/
theorem v1_context_any (L : Laws E) (v : Json) :
    ok E (.all [.anyOf [
      .all [.types ["string"], .const (.str "https://www.w3.org/2018/credentials/v1")],
      .all [.types ["array"], .tuple [.all [.types ["string"],
        .const (.str "https://www.w3.org/2018/credentials/v1")]] (.all [.anyOf [
          .all [.types ["object"]], .all [.types ["string"]]]]), .unique]]]) v = true ↔
      V1Context E v := by
  rw [anyOf2, v1_contextItem L, v1_contextArr L _ v1_rest_any]
  rfl

theorem v1_context_one (L : Laws E) (v : Json) :
    ok E (.all [.oneOf [
      .all [.types ["string"], .const (.str "https://www.w3.org/2018/credentials/v1")],
      .all [.types ["array"], .tuple [.all [.types ["string"],
        .const (.str "https://www.w3.org/2018/credentials/v1")]] (.all [.oneOf [
          .all [.types ["object"]], .all [.types ["string"]]]]), .unique]]]) v = true ↔
      V1Context E v := by
  rw [oneOf2, v1_contextItem L, v1_contextArr L _ v1_rest_one]
  · rfl
  · rw [v1_contextItem L, v1_contextArr L _ v1_rest_one]
    rintro ⟨rfl, l, h, -⟩
    cases h

theorem v1_subject (v : Json) : ok E (.all [.anyOf [.all [.types ["array"]], .all [.types ["object"]],
    .all [.types ["string"]]]]) v = true ↔ Arr v ∨ Obj v ∨ Str v := by
  rw [anyOf3, isType, isType, isType, kind_arr, kind_obj, kind_str]

theorem v1_issuer (v : Json) : ok E (.all [.anyOf [.all [.types ["string"], .format "uri"],
    .all [.types ["object"], .required ["id"], .props [
      ("id", .all [.types ["string"], .format "uri"])]]]]) v = true ↔
    (Fmt E "uri" v ∨ ∃ o, v = .obj o ∧ Has o "id" (Fmt E "uri")) := by
  rw [anyOf2, isFmt, object_rp]
  simp only [okProps_cons, okProps_nil, isFmt, has_iff, and_true, List.mem_singleton, forall_eq,
    opt_def]

theorem v1_proofs (v : Json) : ok E (.all [.anyOf [credV1Proof,
    .all [.types ["array"], .items (credV1Proof)], .all [.types ["null"]]]]) v = true ↔
    v = .null ∨ Proof1 v ∨ ∃ l, v = .arr l ∧ ∀ x ∈ l, Proof1 x := by
  rw [anyOf3, v1_proof, array_items, isNull]
  simp only [v1_proof]
  constructor
  · rintro (h | h | h)
    · exact .inr (.inl h)
    · exact .inr (.inr h)
    · exact .inl h
  · rintro (h | h | h)
    · exact .inr (.inr h)
    · exact .inl h
    · exact .inr (.inl h)

theorem v1_expires (v : Json) : ok E (.all [.types ["string", "null"], .format "date-time"]) v = true ↔
    v = .null ∨ Fmt E "date-time" v := by
  cases v <;> simp [ok, okAll, kind, Fmt]

/-- **C111.** The v1 credential schema with the names `req` required accepts exactly the objects
described by `CredV1`. -/
theorem credV1_exact (L : Laws E) (req : List String) (j : JObj) :
    (∃ s, read (credV1Doc req) = some s ∧ ok E s (.obj j) = true) ↔ CredV1 E req j := by
  rw [credV1_read]
  simp only [Option.some.injEq, exists_eq_left']
  unfold credV1Sch
  rw [ok_all, okAll_cons, okAll_cons, ok_required, ok_props]
  simp only [okProps_cons, okProps_nil, okAll_nil, and_true, isString, v1_context_any L, v1_subject,
    v1_type _ _ L.vc, v1_issuer, isFmt, v1_proofs, v1_expires, v1_typedId, v1_typedIds, opt_def,
    List.forall_mem_cons]
  constructor
  · rintro ⟨⟨h0, hr⟩, h1, h2, h3, h4, h5, h6, h7, h8, h9, h10, h11, h12⟩
    exact ⟨has_iff.2 ⟨h0, h1⟩, fun k hk => some_iff.1 (hr k hk), h2, h3, h4, h5, h6, h7, h8, h9, h10,
      h11, h12⟩
  · rintro ⟨h1, hr, h2, h3, h4, h5, h6, h7, h8, h9, h10, h11, h12⟩
    exact ⟨⟨(has_iff.1 h1).1, fun k hk => some_iff.2 (hr k hk)⟩, (has_iff.1 h1).2, h2, h3, h4, h5, h6,
      h7, h8, h9, h10, h11, h12⟩

/-! ## Pieces, v2 -/

theorem someType (v : Json) : ok E credV2Type v = true ↔ SomeType v := by
  cases v with
  | arr l => cases l <;> simp [credV2Type, ok, okAll, okCount, kind, SomeType, Str]
  | null | bool | num | str | obj => simp [credV2Type, ok, okAll, okCount, kind, SomeType, Str]

theorem named2 (v : Json) : ok E credV2CredentialStatus v = true ↔ Named2 v := by
  unfold credV2CredentialStatus Named2
  rw [object_pr]
  simp only [okProps_cons, okProps_nil, isString, someType, has_iff, and_true, List.forall_mem_cons,
    opt_def]
  constructor
  · rintro ⟨o, h, ⟨a, b, -⟩, c, d⟩; exact ⟨o, h, ⟨a, c⟩, b, d⟩
  · rintro ⟨o, h, ⟨a, c⟩, b, d⟩; exact ⟨o, h, ⟨a, b, by simp⟩, c, d⟩

theorem typed2 (v : Json) : ok E credV2Evidence v = true ↔ Typed2 v := by
  unfold credV2Evidence Typed2
  rw [object_pr]
  simp only [okProps_cons, okProps_nil, isString, someType, has_iff, and_true, List.mem_singleton,
    forall_eq, opt_def]
  constructor
  · rintro ⟨o, h, a, c, d⟩; exact ⟨o, h, c, a, d⟩
  · rintro ⟨o, h, c, a, d⟩; exact ⟨o, h, a, c, d⟩

theorem subject2 (v : Json) : ok E credV2CredentialSubject v = true ↔ Subject2 v := by
  unfold credV2CredentialSubject Subject2
  cases v with
  | obj o =>
    rw [ok_all]
    simp only [okAll_cons, okAll_nil, ok_types, ok_props, okProps_cons, okProps_nil, isString, opt_def,
      and_true, kind]
    cases o <;> simp [ok]
  | null | bool | num | str | arr => simp [ok, okAll, kind]

/-- An object, or an array of at least one: `oneOf` of the v2 documents. -/
theorem oneOrMore (s : Sch) (P : Json → Prop) (hs : ∀ v, ok E s v = true ↔ P v)
    (ho : ∀ v, P v → Obj v) (v : Json) :
    ok E (.all [.oneOf [s, .all [.types ["array"], .items s, .minItems 1]]]) v = true ↔
      OneOrMore P v := by
  rw [oneOf2, array_items_min, hs]
  · simp only [hs]; rfl
  · rw [array_items_min, hs]
    rintro ⟨h, l, rfl, -⟩
    obtain ⟨o, h'⟩ := ho _ h
    cases h'

theorem method2 (v : Json) : ok E (.all [.oneOf [.all [.types ["string"]],
    .all [.types ["array"], .minItems 1, .items (.all [.types ["object"], .props [
      ("id", .all [.types ["string"]]), ("type", .all [.types ["string"]]),
      ("controller", .all [.types ["string"]])], .required ["id", "type", "controller"]])]]]) v
    = true ↔ Method2 v := by
  rw [oneOf2, isString, array_min_items]
  · simp only [object_pr, okProps_cons, okProps_nil, isString, and_true, List.forall_mem_cons, opt_def]
    unfold Method2
    have : ∀ x : Json, (∃ o, x = .obj o ∧ Has o "id" Str ∧ Has o "type" Str ∧ Has o "controller" Str) ↔
        (∃ o, x = .obj o ∧ ((get? o "id").isSome = true ∧ (get? o "type").isSome = true ∧
          (get? o "controller").isSome = true ∧ ∀ k ∈ ([] : List String), (get? o k).isSome = true) ∧
          Opt o "id" Str ∧ Opt o "type" Str ∧ Opt o "controller" Str) := by
      intro x
      simp only [has_iff]
      constructor
      · rintro ⟨o, h, ⟨a, b⟩, ⟨c, d⟩, e, f⟩; exact ⟨o, h, ⟨a, c, e, by simp⟩, b, d, f⟩
      · rintro ⟨o, h, ⟨a, c, e, -⟩, b, d, f⟩; exact ⟨o, h, ⟨a, b⟩, ⟨c, d⟩, e, f⟩
    simp only [this]
  · rw [isString, array_min_items]
    rintro ⟨⟨s, rfl⟩, l, h, -⟩
    cases h

theorem proof2 (v : Json) : ok E credV2Proof v = true ↔ Proof2 (fun o => Opt o "created" Str) v := by
  unfold credV2Proof Proof2
  rw [object_pr]
  simp only [okProps_cons, okProps_nil, isString, someType, method2, and_true, List.forall_mem_cons,
    opt_def]
  constructor
  · rintro ⟨o, h, ⟨a, b, c, -⟩, d, e, f, g, i, k, l⟩
    exact ⟨o, h, has_iff.2 ⟨a, d⟩, has_iff.2 ⟨b, e⟩, has_iff.2 ⟨c, f⟩, g, i, k, l⟩
  · rintro ⟨o, h, d, e, f, g, i, k, l⟩
    rw [has_iff] at d e f
    exact ⟨o, h, ⟨d.1, e.1, f.1, by simp⟩, d.2, e.2, f.2, g, i, k, l⟩

theorem vp2_type (v : Json) : ok E (.all [.oneOf [.all [.types ["string"]],
    .all [.types ["array"], .minItems 1]]]) v = true ↔ SomeType v := someType v

theorem vp2_proof (v : Json) : ok E presV2Proof v = true ↔
    Proof2 (fun o => Has o "created" (DateLike E datePattern)) v := by
  unfold presV2Proof Proof2
  rw [object_pr]
  simp only [okProps_cons, okProps_nil, isString, isDate, vp2_type, method2, and_true,
    List.forall_mem_cons, opt_def]
  constructor
  · rintro ⟨o, h, ⟨a, b, c, g', -⟩, d, e, f, g, i, k, l⟩
    exact ⟨o, h, has_iff.2 ⟨a, d⟩, has_iff.2 ⟨b, e⟩, has_iff.2 ⟨c, f⟩, has_iff.2 ⟨g', g⟩, i, k, l⟩
  · rintro ⟨o, h, d, e, f, g, i, k, l⟩
    rw [has_iff] at d e f g
    exact ⟨o, h, ⟨d.1, e.1, f.1, g.1, by simp⟩, d.2, e.2, f.2, g.2, i, k, l⟩

theorem proof2_obj (c : JObj → Prop) (v : Json) : Proof2 c v → Obj v := fun ⟨o, h, _⟩ => ⟨o, h⟩

theorem isConst (L : Laws E) (u : String) (v : Json) :
    ok E (.all [.const (.str u)]) v = true ↔ v = .str u := by
  simp [ok, okAll, L.text]

theorem v2_context (L : Laws E) (v : Json) : ok E (.all [.types ["array"],
    .contains (.all [.const (.str "https://www.w3.org/ns/credentials/v2")]), .minItems 1]) v = true ↔
    V2Context v := by
  unfold V2Context
  cases v with
  | arr l =>
    rw [ok_all]
    simp only [okAll_cons, okAll_nil, ok_types, ok_contains, ok_minItems, List.any_eq_true, isConst L,
      kind]
    cases l <;> simp
  | null | bool | num | str | obj => simp [ok, okAll, kind]

theorem v2_type (L : Laws E) (name : String) (v : Json) : ok E (.all [.oneOf [
    .all [.types ["array"], .contains (.all [.const (.str name)])],
    .all [.types ["string"], .enum [.str name]]]]) v = true ↔ Typed name v := by
  have ha : ok E (.all [.types ["array"], .contains (.all [.const (.str name)])]) v = true ↔
      ∃ l, v = .arr l ∧ Json.str name ∈ l := by
    cases v with
    | arr l =>
      rw [ok_all]
      simp only [okAll_cons, okAll_nil, ok_types, ok_contains, List.any_eq_true, isConst L, kind]
      simp
    | null | bool | num | str | obj => simp [ok, okAll, kind]
  have hs : ok E (.all [.types ["string"], .enum [.str name]]) v = true ↔ v = .str name := by
    cases v <;> simp [ok, okAll, kind, L.text]
  rw [oneOf2, ha, hs]
  · unfold Typed; exact or_comm
  · rw [ha, hs]
    rintro ⟨⟨l, rfl, -⟩, h⟩
    cases h

theorem v2_issuer (v : Json) : ok E (.all [.oneOf [.all [.types ["string"]],
    .all [.types ["object"], .props [("id", .all [.types ["string"]])], .required ["id"]]]]) v = true ↔
    (Str v ∨ ∃ o, v = .obj o ∧ Has o "id" Str) := by
  rw [oneOf2, isString, object_pr]
  · simp only [okProps_cons, okProps_nil, isString, has_iff, and_true, List.mem_singleton, forall_eq,
      opt_def]
  · rw [isString, object_pr]
    rintro ⟨⟨s, rfl⟩, o, h, -⟩
    cases h

theorem vp_credentials (v : Json) : ok E (.all [.anyOf [.all [.types ["array"]],
    .all [.types ["object"]], .all [.types ["string"]], .all [.types ["null"]]]]) v = true ↔
    v = .null ∨ Arr v ∨ Obj v ∨ Str v := by
  rw [anyOf4, isType, isType, isType, isNull, kind_arr, kind_obj, kind_str]
  constructor
  · rintro (h | h | h | h)
    · exact .inr (.inl h)
    · exact .inr (.inr (.inl h))
    · exact .inr (.inr (.inr h))
    · exact .inl h
  · rintro (h | h | h | h)
    · exact .inr (.inr (.inr h))
    · exact .inl h
    · exact .inr (.inl h)
    · exact .inr (.inr (.inl h))

theorem v1_tuple (v : Json) : ok E (.all [.anyOf [.all [.types ["array"],
    .tuple [presV1Proof] (.all [])], presV1Proof]]) v = true ↔
    (Proof1 v ∨ ∃ l, v = .arr l ∧ ∀ x, l.head? = some x → Proof1 x) := by
  rw [anyOf2, vp1_proof, or_comm]
  have : ok E (.all [.types ["array"], .tuple [presV1Proof] (.all [])]) v = true ↔
      ∃ l, v = .arr l ∧ ∀ x, l.head? = some x → Proof1 x := by
    cases v with
    | arr l =>
      rw [ok_all]
      simp only [okAll_cons, okAll_nil, ok_types, ok_tuple, okTuple_one, vp1_proof, kind, ok_all]
      simp
    | null | bool | num | str | obj => simp [ok, okAll, kind]
  rw [this]

/-- **C111.** The v2 credential schema with the names `req` required accepts exactly the objects
described by `CredV2`. -/
theorem credV2_exact (L : Laws E) (req : List String) (j : JObj) :
    (∃ s, read (credV2Doc req) = some s ∧ ok E s (.obj j) = true) ↔ CredV2 E datePattern req j := by
  rw [credV2_read]
  simp only [Option.some.injEq, exists_eq_left']
  unfold credV2Sch
  rw [ok_all, okAll_cons, okAll_cons, okAll_cons, ok_required, ok_props]
  have hn : ∀ v, ok E credV2CredentialSchema v = true ↔ Named2 v := named2
  have hr : ∀ v, ok E credV2RefreshService v = true ↔ Named2 v := named2
  have ht : ∀ v, ok E credV2TermsOfUse v = true ↔ Typed2 v := typed2
  have on : ∀ v, Named2 v → Obj v := fun v ⟨o, h, _⟩ => ⟨o, h⟩
  have ot : ∀ v, Typed2 v → Obj v := fun v ⟨o, h, _⟩ => ⟨o, h⟩
  have os : ∀ v, Subject2 v → Obj v := fun v ⟨o, h, _⟩ => ⟨o, h⟩
  simp only [okProps_cons, okProps_nil, okAll_nil, and_true, isString, v2_context L, v2_type L,
    v2_issuer, isDate, oneOrMore _ _ subject2 os, oneOrMore _ _ named2 on, oneOrMore _ _ hn on,
    oneOrMore _ _ hr on, oneOrMore _ _ ht ot, oneOrMore _ _ typed2 ot,
    oneOrMore _ _ proof2 (proof2_obj _), credV2ProofChain, array_items_min, proof2, opt_def,
    List.forall_mem_cons]
  constructor
  · rintro ⟨-, ⟨h1, h2, h3, h4, h5, h6, h7, h8, h9, h10, h11, h12, h13, h14⟩, h0, hr⟩
    exact ⟨has_iff.2 ⟨h0, h1⟩, fun k hk => some_iff.1 (hr k hk), h2, h3, h4, h5, h6, h7, h8, h9, h10,
      h11, h12, h13, h14⟩
  · rintro ⟨h1, hr, h2, h3, h4, h5, h6, h7, h8, h9, h10, h11, h12, h13, h14⟩
    exact ⟨by simp [ok, kind], ⟨(has_iff.1 h1).2, h2, h3, h4, h5, h6, h7, h8, h9, h10, h11, h12, h13,
      h14⟩, (has_iff.1 h1).1, fun k hk => some_iff.2 (hr k hk)⟩

/-- **C112.** The v1 presentation schema accepts exactly the objects described by `PresV1`. -/
theorem presV1_exact (L : Laws E) (j : JObj) :
    (∃ s, read presV1Doc = some s ∧ ok E s (.obj j) = true) ↔ PresV1 E j := by
  rw [presV1_read]
  simp only [Option.some.injEq, exists_eq_left']
  unfold presV1Sch
  rw [ok_all, okAll_cons, okAll_cons, ok_required, ok_props]
  simp only [okProps_cons, okProps_nil, okAll_nil, and_true, isString, v1_context_one L,
    v1_type _ _ L.vp, vp_credentials, v1_tuple, vp1_typedId, opt_def, List.forall_mem_cons]
  constructor
  · rintro ⟨⟨h0, ht, -⟩, h1, h2, h3, h4, h5, h6⟩
    exact ⟨has_iff.2 ⟨h0, h1⟩, h2, has_iff.2 ⟨ht, h3⟩, h4, h5, h6⟩
  · rintro ⟨h1, h2, h3, h4, h5, h6⟩
    rw [has_iff] at h1 h3
    exact ⟨⟨h1.1, h3.1, by simp⟩, h1.2, h2, h3.2, h4, h5, h6⟩

/-- **C112.** The v2 presentation schema accepts exactly the objects described by `PresV2`. -/
theorem presV2_exact (L : Laws E) (j : JObj) :
    (∃ s, read presV2Doc = some s ∧ ok E s (.obj j) = true) ↔ PresV2 E datePattern j := by
  rw [presV2_read]
  simp only [Option.some.injEq, exists_eq_left']
  unfold presV2Sch
  rw [ok_all, okAll_cons, okAll_cons, okAll_cons, ok_required, ok_props]
  simp only [okProps_cons, okProps_nil, okAll_nil, and_true, isString, v2_context L, v2_type L,
    vp_credentials, oneOrMore _ _ vp2_proof (proof2_obj _), presV2ProofChain, array_items_min,
    vp2_proof, opt_def, List.forall_mem_cons]
  constructor
  · rintro ⟨-, ⟨h1, h2, h3, h4, h5, h6⟩, h0, ht, -⟩
    exact ⟨has_iff.2 ⟨h0, h1⟩, h2, has_iff.2 ⟨ht, h3⟩, h4, h5, h6⟩
  · rintro ⟨h1, h2, h3, h4, h5, h6⟩
    rw [has_iff] at h1 h3
    exact ⟨by simp [ok, kind], ⟨h1.2, h2, h3.2, h4, h5, h6⟩, h1.1, h3.1, by simp⟩

end VC.Schema
