import Verif.Verifiable.ContentsProps
/-!
# verifiable: modified copies (C43, C66)
-/

namespace VC.Vfy

open GoMap

variable {env : CEnv}

/-! ## C43: only the named field changes -/

/-- `vc'` is a copy of `vc` without proofs and envelope whose object differs from that of `vc` only
under the key `k`, where it now has `v` (`none`: the field is gone). -/
structure OnlyField {T : Type} (vc vc' : Cred T) (k : String) (v : Option GVal) : Prop where
  field : get? vc'.json k = v
  rest : ∀ k', k' ≠ k → k' ≠ "proof" → get? vc'.json k' = get? vc.json k'
  noProofField : get? vc'.json "proof" = none
  noProofs : vc'.proofs = []
  noJWT : vc'.jwt = none
  noCWT : vc'.cwt = none

theorem get?_putOrDel (m : GObj) (k : String) (o : Option GVal) (k' : String) :
    get? (putOrDel m k o) k' = if k = k' then o else get? m k' := by
  cases o with
  | none => simp only [putOrDel, get?_del]
  | some v => simp only [putOrDel, get?_set]

theorem onlyField_putOrDel {T : Type} (vc : Cred T) (k : String) (hk : k ≠ "proof") (v : Option GVal)
    (c : Contents T) :
    OnlyField vc ⟨putOrDel (withoutProofs vc.json) k v, c, [], none, none⟩ k v where
  field := by simp [get?_putOrDel]
  rest := by
    intro k' h h'
    simp [get?_putOrDel, Ne.symm h, withoutProofs, get?_del, Ne.symm h']
  noProofField := by simp [get?_putOrDel, hk, withoutProofs]
  noProofs := rfl
  noJWT := rfl
  noCWT := rfl

/-- **C43.** `WithModifiedID`. -/
theorem withID_spec {T : Type} (vc : Cred T) (id : String) :
    OnlyField vc (vc.withID id) "id" (if id = "" then none else some (.json (.str id))) ∧
    (vc.withID id).contents = { vc.contents with id := id } := by
  refine ⟨?_, rfl⟩
  have := onlyField_putOrDel vc "id" (by decide)
    (if id ≠ "" then some (.json (.str id)) else none) { vc.contents with id := id }
  by_cases h : id = "" <;> simpa [Cred.withID, h] using this

/-- **C43.** `WithModifiedIssued` writes `issuanceDate`. -/
theorem withIssued_spec (vc : Cred env.T) (w : TW env.T) :
    OnlyField vc (vc.withIssued env w) "issuanceDate" (some (.json (.str (fmtTW env w)))) ∧
    (vc.withIssued env w).contents = { vc.contents with issued := some w } :=
  ⟨onlyField_putOrDel vc "issuanceDate" (by decide) (some (.json (.str (fmtTW env w)))) _, rfl⟩

/-- **C43.** `WithModifiedExpired` writes `expirationDate`. -/
theorem withExpired_spec (vc : Cred env.T) (w : TW env.T) :
    OnlyField vc (vc.withExpired env w) "expirationDate" (some (.json (.str (fmtTW env w)))) ∧
    (vc.withExpired env w).contents = { vc.contents with expired := some w } :=
  ⟨onlyField_putOrDel vc "expirationDate" (by decide) (some (.json (.str (fmtTW env w)))) _, rfl⟩

/-- **C43.** `WithModifiedValidFrom` writes `validFrom`. -/
theorem withValidFrom_spec (vc : Cred env.T) (w : TW env.T) :
    OnlyField vc (vc.withValidFrom env w) "validFrom" (some (.json (.str (fmtTW env w)))) ∧
    (vc.withValidFrom env w).contents = { vc.contents with issued := some w } :=
  ⟨onlyField_putOrDel vc "validFrom" (by decide) (some (.json (.str (fmtTW env w)))) _, rfl⟩

/-- **C43.** `WithModifiedValidUntil` writes `validUntil`. -/
theorem withValidUntil_spec (vc : Cred env.T) (w : TW env.T) :
    OnlyField vc (vc.withValidUntil env w) "validUntil" (some (.json (.str (fmtTW env w)))) ∧
    (vc.withValidUntil env w).contents = { vc.contents with expired := some w } :=
  ⟨onlyField_putOrDel vc "validUntil" (by decide) (some (.json (.str (fmtTW env w)))) _, rfl⟩

/-- **C43.** `WithModifiedContext` keeps the custom contexts behind the new ones. -/
theorem withContext_spec {T : Type} (vc : Cred T) (ctx : List String) :
    OnlyField vc (vc.withContext ctx) "@context"
      (if ctx = [] ∧ vc.contents.customContext = [] then none
       else some (.json (.arr (ctx.map .str ++ vc.contents.customContext)))) ∧
    (vc.withContext ctx).contents = { vc.contents with context := ctx } := by
  refine ⟨?_, rfl⟩
  have := onlyField_putOrDel vc "@context" (by decide)
    (ifNonempty (contextToRaw ctx vc.contents.customContext)
       (.json (.arr (contextToRaw ctx vc.contents.customContext)))) { vc.contents with context := ctx }
  rw [ifNonempty_eq] at this
  simp only [contextToRaw_nil] at this
  simp only [contextToRaw] at this
  unfold Cred.withContext
  rw [ifNonempty_eq]
  simp only [contextToRaw_nil]
  exact this

/-- **C43.** `WithModifiedStatus` ignores nil statuses. -/
theorem withStatus_spec {T : Type} (vc : Cred T) (status : List (Option TypedID)) :
    (∃ v, OnlyField vc (vc.withStatus status) "credentialStatus" v ∧
      v.map GVal.wire = if status.filterMap id = [] then none
        else some (typedIDsToRaw (status.filterMap id)).wire) ∧
    (vc.withStatus status).contents = { vc.contents with status := status.filterMap id } := by
  refine ⟨⟨_, onlyField_putOrDel vc "credentialStatus" (by decide) _ _, ?_⟩, rfl⟩
  match h : status.filterMap id with
  | [] => rfl
  | [a] => rfl
  | a :: b :: l => simp [typedIDsToRaw, GVal.wire]

/-- **C43.** `WithModifiedRefreshService`. -/
theorem withRefreshService_spec {T : Type} (vc : Cred T) (r : Option TypedID) :
    OnlyField vc (vc.withRefreshService r) "refreshService"
      (r.map (fun r => .json (.obj (serializeTypedIDObj r)))) ∧
    (vc.withRefreshService r).contents = { vc.contents with refreshService := r } :=
  ⟨onlyField_putOrDel vc "refreshService" (by decide) _ _, rfl⟩

/-- **C43.** `WithModifiedIssuer`. -/
theorem withIssuer_spec {T : Type} (vc : Cred T) (i : Option Issuer) :
    OnlyField vc (vc.withIssuer i) "issuer" (i.map (fun i => .json (serializeIssuer i))) ∧
    (vc.withIssuer i).contents = { vc.contents with issuer := i } :=
  ⟨onlyField_putOrDel vc "issuer" (by decide) _ _, rfl⟩

/-- **C43.** `WithModifiedSubject`. -/
theorem withSubject_spec {T : Type} (vc : Cred T) (s : List Subject) :
    OnlyField vc (vc.withSubject s) "credentialSubject"
      (if s = [] then none else some (serializeSubject s)) ∧
    (vc.withSubject s).contents = { vc.contents with subject := s } := by
  refine ⟨?_, rfl⟩
  have := onlyField_putOrDel vc "credentialSubject" (by decide) (ifNonempty s (serializeSubject s))
    { vc.contents with subject := s }
  rw [ifNonempty_eq] at this
  unfold Cred.withSubject
  rw [ifNonempty_eq]
  exact this

/-- A signed credential: one proof, an issuer, a date. -/
def exCred : Cred Int :=
  ⟨[("@context", .json (.arr [.str v1ContextURI])), ("type", .json (.str "VerifiableCredential")),
    ("issuer", .json (.str "did:example:acme")), ("issuanceDate", .json (.str "+1Z")),
    ("proof", .json (.obj [("type", .str "Ed25519Signature2018")]))],
   { context := [v1ContextURI], customContext := [], id := "", types := ["VerifiableCredential"],
     subject := [], issuer := some ⟨"did:example:acme", []⟩, issued := some ⟨1, "+1Z"⟩,
     expired := none, status := [], schemas := [], evidence := .null, termsOfUse := [],
     refreshService := none, sdAlg := none, relRes := [] },
   [[("type", .str "Ed25519Signature2018")]], none, none⟩

example : (wireObj (exCred.withID "urn:1").json) =
    [("@context", .arr [.str v1ContextURI]), ("type", .str "VerifiableCredential"),
     ("issuer", .str "did:example:acme"), ("issuanceDate", .str "+1Z"), ("id", .str "urn:1")] := rfl

/-! ## C66: the object and the contents of a modified credential agree -/

variable (env)

/-- The typed contents are what parsing the credential's own JSON gives (with times in their written
form). -/
def Agrees (vc : Cred env.T) : Prop :=
  parseContents env (ofWire (wireObj vc.json)) vc.contents.sdAlg.isSome =
    some (withTimeStrings env vc.contents)

theorem parseContents_iff (raw : GObj) (b : Bool) (c : Contents env.T) :
    parseContents env raw b = some c ↔
    parseTypedID (GObj.at raw "credentialSchema") = some c.schemas ∧
    decodeType (GObj.at raw "type") = some c.types ∧
    parseIssuer (GObj.at raw "issuer") = some c.issuer ∧
    decodeContext (GObj.at raw "@context") = some (c.context, c.customContext) ∧
    parseTypedID (GObj.at raw "termsOfUse") = some c.termsOfUse ∧
    (∃ r, parseTypedID (GObj.at raw "refreshService") = some r ∧ r.head? = c.refreshService) ∧
    parseRelatedResources env.sprint (GObj.at raw "relatedResource") = some c.relRes ∧
    parseSubject (GObj.at raw "credentialSubject") = some c.subject ∧
    parseSDAlg env raw c.subject b = some c.sdAlg ∧
    parseStr (GObj.at raw "id") = some c.id ∧
    parseTime2 env raw "issuanceDate" "validFrom" = some c.issued ∧
    parseTime2 env raw "expirationDate" "validUntil" = some c.expired ∧
    newTypedIDArray (GObj.at raw "credentialStatus") = some c.status ∧
    c.evidence = (GObj.at raw "evidence").wire := by
  constructor
  · exact parseContents_inv env
  · rintro ⟨h1, h2, h3, h4, h5, ⟨r, h6, h6'⟩, h7, h8, h9, h10, h11, h12, h13, h14⟩
    unfold parseContents
    obtain ⟨a1, a2, a3, a4, a5, a6, a7, a8, a9, a10, a11, a12, a13, a14, a15⟩ := c
    simp only at h1 h2 h3 h4 h5 h6 h6' h7 h8 h9 h10 h11 h12 h13 h14
    simp only [h1, h2, h3, h4, h5, h6, h7, h8, h9, h10, h11, h12, h13, h14, h6', Option.bind_eq_bind,
      Option.bind_some, Option.pure_def, evidenceOf]

variable {env}

/-- The values parsing sees in a modified object. -/
theorem OnlyField.at_rest {vc vc' : Cred env.T} {k : String} {v : Option GVal}
    (h : OnlyField vc vc' k v) (k' : String) (h1 : k' ≠ k) (h2 : k' ≠ "proof") :
    GObj.at (ofWire (wireObj vc'.json)) k' = GObj.at (ofWire (wireObj vc.json)) k' := by
  rw [at_wire, at_wire]
  simp only [GObj.at, h.rest k' h1 h2]

theorem OnlyField.at_field {vc vc' : Cred env.T} {k : String} {v : Option GVal}
    (h : OnlyField vc vc' k v) :
    GObj.at (ofWire (wireObj vc'.json)) k = .json (v.getD (.json .null)).wire := by
  rw [at_wire]
  simp only [GObj.at, h.field]

/-- **C66.** A changed id is what the object of the copy parses to. -/
theorem withID_agrees (vc : Cred env.T) (h : Agrees env vc) (id : String) :
    Agrees env (vc.withID id) := by
  have s := (withID_spec vc id).1
  unfold Agrees at h ⊢
  rw [parseContents_iff] at h ⊢
  obtain ⟨h1, h2, h3, h4, h5, h6, h7, h8, h9, h10, h11, h12, h13, h14⟩ := h
  unfold parseSDAlg parseTime2 at *
  have R := fun k' h1 h2 => s.at_rest k' h1 h2
  rw [R "credentialSchema" (by decide) (by decide), R "type" (by decide) (by decide),
    R "issuer" (by decide) (by decide), R "@context" (by decide) (by decide),
    R "termsOfUse" (by decide) (by decide), R "refreshService" (by decide) (by decide),
    R "relatedResource" (by decide) (by decide), R "credentialSubject" (by decide) (by decide),
    R "_sd_alg" (by decide) (by decide), R "issuanceDate" (by decide) (by decide),
    R "validFrom" (by decide) (by decide), R "expirationDate" (by decide) (by decide),
    R "validUntil" (by decide) (by decide), R "credentialStatus" (by decide) (by decide),
    R "evidence" (by decide) (by decide), s.at_field]
  refine ⟨h1, h2, h3, h4, h5, h6, h7, h8, h9, ?_, h11, h12, h13, h14⟩
  by_cases hid : id = "" <;> simp [hid, GVal.wire, parseStr, Cred.withID, withTimeStrings]

/-- **C66.** A changed issuer (with an id, custom fields not called `id`) is what the object of the
copy parses to. -/
theorem withIssuer_agrees (vc : Cred env.T) (h : Agrees env vc) (i : Option Issuer)
    (hi : ∀ x, i = some x → x.id ≠ "" ∧ NoKey "id" x.custom) : Agrees env (vc.withIssuer i) := by
  have s := (withIssuer_spec vc i).1
  unfold Agrees at h ⊢
  rw [parseContents_iff] at h ⊢
  obtain ⟨h1, h2, h3, h4, h5, h6, h7, h8, h9, h10, h11, h12, h13, h14⟩ := h
  unfold parseSDAlg parseTime2 at *
  have R := fun k' h1 h2 => s.at_rest k' h1 h2
  rw [R "credentialSchema" (by decide) (by decide), R "type" (by decide) (by decide),
    R "id" (by decide) (by decide), R "@context" (by decide) (by decide),
    R "termsOfUse" (by decide) (by decide), R "refreshService" (by decide) (by decide),
    R "relatedResource" (by decide) (by decide), R "credentialSubject" (by decide) (by decide),
    R "_sd_alg" (by decide) (by decide), R "issuanceDate" (by decide) (by decide),
    R "validFrom" (by decide) (by decide), R "expirationDate" (by decide) (by decide),
    R "validUntil" (by decide) (by decide), R "credentialStatus" (by decide) (by decide),
    R "evidence" (by decide) (by decide), s.at_field]
  refine ⟨h1, h2, ?_, h4, h5, h6, h7, h8, h9, h10, h11, h12, h13, h14⟩
  cases i with
  | none => rfl
  | some x =>
    obtain ⟨a, b⟩ := hi x rfl
    exact parseIssuer_serializeIssuer x a b

/-- **C66.** Changed subjects are what the object of the copy parses to (for credentials that are
not SD-JWT: there the hash algorithm may live in the subject). -/
theorem withSubject_agrees (vc : Cred env.T) (h : Agrees env vc) (ss : List Subject)
    (hs : ∀ x ∈ ss, NoKey "id" x.custom) (hsd : vc.contents.sdAlg = none) :
    Agrees env (vc.withSubject ss) := by
  have s := (withSubject_spec vc ss).1
  unfold Agrees at h ⊢
  rw [parseContents_iff] at h ⊢
  obtain ⟨h1, h2, h3, h4, h5, h6, h7, h8, h9, h10, h11, h12, h13, h14⟩ := h
  unfold parseSDAlg parseTime2 at *
  have R := fun k' h1 h2 => s.at_rest k' h1 h2
  rw [R "credentialSchema" (by decide) (by decide), R "type" (by decide) (by decide),
    R "id" (by decide) (by decide), R "@context" (by decide) (by decide),
    R "termsOfUse" (by decide) (by decide), R "refreshService" (by decide) (by decide),
    R "relatedResource" (by decide) (by decide), R "issuer" (by decide) (by decide),
    R "_sd_alg" (by decide) (by decide), R "issuanceDate" (by decide) (by decide),
    R "validFrom" (by decide) (by decide), R "expirationDate" (by decide) (by decide),
    R "validUntil" (by decide) (by decide), R "credentialStatus" (by decide) (by decide),
    R "evidence" (by decide) (by decide), s.at_field]
  refine ⟨h1, h2, h3, h4, h5, h6, h7, ?_, ?_, h10, h11, h12, h13, h14⟩
  · by_cases hn : ss = []
    · simp [hn, GVal.wire, parseSubject, Cred.withSubject, withTimeStrings]
    · rw [if_neg hn]
      exact subjects_roundtrip ss hs
  · simp [Cred.withSubject, withTimeStrings, hsd]

/-- **C66.** Changed contexts are what the object of the copy parses to. -/
theorem withContext_agrees (vc : Cred env.T) (h : Agrees env vc) (ctx : List String)
    (hc : ctx ≠ [] ∨ vc.contents.customContext ≠ []) : Agrees env (vc.withContext ctx) := by
  have s := (withContext_spec vc ctx).1
  unfold Agrees at h ⊢
  rw [parseContents_iff] at h ⊢
  obtain ⟨h1, h2, h3, h4, h5, h6, h7, h8, h9, h10, h11, h12, h13, h14⟩ := h
  have hcust := decodeContext_ok h4
  unfold parseSDAlg parseTime2 at *
  have R := fun k' h1 h2 => s.at_rest k' h1 h2
  rw [R "credentialSchema" (by decide) (by decide), R "type" (by decide) (by decide),
    R "id" (by decide) (by decide), R "issuer" (by decide) (by decide),
    R "termsOfUse" (by decide) (by decide), R "refreshService" (by decide) (by decide),
    R "relatedResource" (by decide) (by decide), R "credentialSubject" (by decide) (by decide),
    R "_sd_alg" (by decide) (by decide), R "issuanceDate" (by decide) (by decide),
    R "validFrom" (by decide) (by decide), R "expirationDate" (by decide) (by decide),
    R "validUntil" (by decide) (by decide), R "credentialStatus" (by decide) (by decide),
    R "evidence" (by decide) (by decide), s.at_field]
  refine ⟨h1, h2, h3, ?_, h5, h6, h7, h8, h9, h10, h11, h12, h13, h14⟩
  have hne : ¬ (ctx = [] ∧ vc.contents.customContext = []) := by
    rintro ⟨a, b⟩
    rcases hc with h | h
    · exact h a
    · exact h b
  simp only [hne, if_false, Option.getD_some, GVal.wire]
  exact decodeContext_contextToRaw ctx vc.contents.customContext hcust

/-- **C66.** Changed statuses are what the object of the copy parses to. -/
theorem withStatus_agrees (vc : Cred env.T) (h : Agrees env vc) (st : List (Option TypedID))
    (hc : ∀ t, some t ∈ st → t.Clean) : Agrees env (vc.withStatus st) := by
  obtain ⟨v, s, hv⟩ := (withStatus_spec vc st).1
  unfold Agrees at h ⊢
  rw [parseContents_iff] at h ⊢
  obtain ⟨h1, h2, h3, h4, h5, h6, h7, h8, h9, h10, h11, h12, h13, h14⟩ := h
  unfold parseSDAlg parseTime2 at *
  have R := fun k' h1 h2 => s.at_rest k' h1 h2
  rw [R "credentialSchema" (by decide) (by decide), R "type" (by decide) (by decide),
    R "id" (by decide) (by decide), R "issuer" (by decide) (by decide),
    R "termsOfUse" (by decide) (by decide), R "refreshService" (by decide) (by decide),
    R "relatedResource" (by decide) (by decide), R "credentialSubject" (by decide) (by decide),
    R "_sd_alg" (by decide) (by decide), R "issuanceDate" (by decide) (by decide),
    R "validFrom" (by decide) (by decide), R "expirationDate" (by decide) (by decide),
    R "validUntil" (by decide) (by decide), R "@context" (by decide) (by decide),
    R "evidence" (by decide) (by decide), s.at_field]
  refine ⟨h1, h2, h3, h4, h5, h6, h7, h8, h9, h10, h11, h12, ?_, h14⟩
  have hclean : ∀ t ∈ st.filterMap id, t.Clean := by
    intro t ht
    simp only [List.mem_filterMap, id] at ht
    obtain ⟨o, ho, rfl⟩ := ht
    exact hc t ho
  show newTypedIDArray _ = some (st.filterMap id)
  by_cases hn : st.filterMap id = []
  · rw [hn] at hv ⊢
    cases v with
    | none => rfl
    | some x => simp at hv
  · simp only [hn, if_false] at hv
    cases v with
    | none => simp at hv
    | some x =>
      simp only [Option.map_some, Option.some.injEq] at hv
      simp only [Option.getD_some, hv]
      exact status_roundtrip _ hn hclean

/-- **C66.** A changed refresh service is what the object of the copy parses to. -/
theorem withRefreshService_agrees (vc : Cred env.T) (h : Agrees env vc) (r : Option TypedID)
    (hc : ∀ t, r = some t → t.Clean) : Agrees env (vc.withRefreshService r) := by
  have s := (withRefreshService_spec vc r).1
  unfold Agrees at h ⊢
  rw [parseContents_iff] at h ⊢
  obtain ⟨h1, h2, h3, h4, h5, h6, h7, h8, h9, h10, h11, h12, h13, h14⟩ := h
  unfold parseSDAlg parseTime2 at *
  have R := fun k' h1 h2 => s.at_rest k' h1 h2
  rw [R "credentialSchema" (by decide) (by decide), R "type" (by decide) (by decide),
    R "id" (by decide) (by decide), R "issuer" (by decide) (by decide),
    R "termsOfUse" (by decide) (by decide), R "credentialStatus" (by decide) (by decide),
    R "relatedResource" (by decide) (by decide), R "credentialSubject" (by decide) (by decide),
    R "_sd_alg" (by decide) (by decide), R "issuanceDate" (by decide) (by decide),
    R "validFrom" (by decide) (by decide), R "expirationDate" (by decide) (by decide),
    R "validUntil" (by decide) (by decide), R "@context" (by decide) (by decide),
    R "evidence" (by decide) (by decide), s.at_field]
  refine ⟨h1, h2, h3, h4, h5, ⟨r.toList, ?_, ?_⟩, h7, h8, h9, h10, h11, h12, h13, h14⟩
  · cases r with
    | none => rfl
    | some t =>
      have := hc t rfl
      simp [GVal.wire, parseTypedID, typedID_roundtrip t this.1 this.2]
  · cases r <;> rfl

/-- **C66.** A changed issuance date (in range) is what the object of the copy parses to, in both data
models. -/
theorem withIssued_agrees (vc : Cred env.T) (h : Agrees env vc) (w : TW env.T) (hw : TimeOK env w) :
    Agrees env (vc.withIssued env w) := by
  have s := (withIssued_spec vc w).1
  unfold Agrees at h ⊢
  rw [parseContents_iff] at h ⊢
  obtain ⟨h1, h2, h3, h4, h5, h6, h7, h8, h9, h10, h11, h12, h13, h14⟩ := h
  unfold parseSDAlg parseTime2 at *
  have R := fun k' h1 h2 => s.at_rest k' h1 h2
  rw [R "credentialSchema" (by decide) (by decide), R "type" (by decide) (by decide),
    R "id" (by decide) (by decide), R "issuer" (by decide) (by decide),
    R "termsOfUse" (by decide) (by decide), R "credentialStatus" (by decide) (by decide),
    R "relatedResource" (by decide) (by decide), R "credentialSubject" (by decide) (by decide),
    R "_sd_alg" (by decide) (by decide), R "refreshService" (by decide) (by decide),
    R "validFrom" (by decide) (by decide), R "expirationDate" (by decide) (by decide),
    R "validUntil" (by decide) (by decide), R "@context" (by decide) (by decide),
    R "evidence" (by decide) (by decide), s.at_field]
  refine ⟨h1, h2, h3, h4, h5, h6, h7, h8, h9, h10, ?_, h12, h13, h14⟩
  have hw' : parseTW env (fmtTW env w) = some ⟨w.t, fmtTW env w⟩ := hw
  simp [GVal.wire, parseTime, hw', Cred.withIssued, withTimeStrings]

/-- **C66.** A changed expiration date (in range) is what the object of the copy parses to. -/
theorem withExpired_agrees (vc : Cred env.T) (h : Agrees env vc) (w : TW env.T) (hw : TimeOK env w) :
    Agrees env (vc.withExpired env w) := by
  have s := (withExpired_spec vc w).1
  unfold Agrees at h ⊢
  rw [parseContents_iff] at h ⊢
  obtain ⟨h1, h2, h3, h4, h5, h6, h7, h8, h9, h10, h11, h12, h13, h14⟩ := h
  unfold parseSDAlg parseTime2 at *
  have R := fun k' h1 h2 => s.at_rest k' h1 h2
  rw [R "credentialSchema" (by decide) (by decide), R "type" (by decide) (by decide),
    R "id" (by decide) (by decide), R "issuer" (by decide) (by decide),
    R "termsOfUse" (by decide) (by decide), R "credentialStatus" (by decide) (by decide),
    R "relatedResource" (by decide) (by decide), R "credentialSubject" (by decide) (by decide),
    R "_sd_alg" (by decide) (by decide), R "refreshService" (by decide) (by decide),
    R "validFrom" (by decide) (by decide), R "issuanceDate" (by decide) (by decide),
    R "validUntil" (by decide) (by decide), R "@context" (by decide) (by decide),
    R "evidence" (by decide) (by decide), s.at_field]
  refine ⟨h1, h2, h3, h4, h5, h6, h7, h8, h9, h10, h11, ?_, h13, h14⟩
  have hw' : parseTW env (fmtTW env w) = some ⟨w.t, fmtTW env w⟩ := hw
  simp [GVal.wire, parseTime, hw', Cred.withExpired, withTimeStrings]

/-- **C66 (partial).** A changed `validFrom` is what the object of the copy parses to, provided the
object has no `issuanceDate`.  Missing: with an `issuanceDate` the copy contradicts itself, see
`withValidFrom_disagrees`. -/
theorem withValidFrom_agrees_partial (vc : Cred env.T) (h : Agrees env vc) (w : TW env.T)
    (hw : TimeOK env w) (hno : get? vc.json "issuanceDate" = none) :
    Agrees env (vc.withValidFrom env w) := by
  have s := (withValidFrom_spec vc w).1
  unfold Agrees at h ⊢
  rw [parseContents_iff] at h ⊢
  obtain ⟨h1, h2, h3, h4, h5, h6, h7, h8, h9, h10, h11, h12, h13, h14⟩ := h
  have hat : GObj.at (ofWire (wireObj vc.json)) "issuanceDate" = .json .null := by
    rw [at_wire]; simp only [GObj.at, hno]; rfl
  unfold parseSDAlg parseTime2 at *
  have R := fun k' h1 h2 => s.at_rest k' h1 h2
  rw [R "credentialSchema" (by decide) (by decide), R "type" (by decide) (by decide),
    R "id" (by decide) (by decide), R "issuer" (by decide) (by decide),
    R "termsOfUse" (by decide) (by decide), R "credentialStatus" (by decide) (by decide),
    R "relatedResource" (by decide) (by decide), R "credentialSubject" (by decide) (by decide),
    R "_sd_alg" (by decide) (by decide), R "refreshService" (by decide) (by decide),
    R "issuanceDate" (by decide) (by decide), R "expirationDate" (by decide) (by decide),
    R "validUntil" (by decide) (by decide), R "@context" (by decide) (by decide),
    R "evidence" (by decide) (by decide), s.at_field, hat]
  refine ⟨h1, h2, h3, h4, h5, h6, h7, h8, h9, h10, ?_, h12, h13, h14⟩
  have hw' : parseTW env (fmtTW env w) = some ⟨w.t, fmtTW env w⟩ := hw
  simp [GVal.wire, parseTime, hw', Cred.withValidFrom, withTimeStrings]

/-- **C66 (partial).** The same for `validUntil` and `expirationDate`. -/
theorem withValidUntil_agrees_partial (vc : Cred env.T) (h : Agrees env vc) (w : TW env.T)
    (hw : TimeOK env w) (hno : get? vc.json "expirationDate" = none) :
    Agrees env (vc.withValidUntil env w) := by
  have s := (withValidUntil_spec vc w).1
  unfold Agrees at h ⊢
  rw [parseContents_iff] at h ⊢
  obtain ⟨h1, h2, h3, h4, h5, h6, h7, h8, h9, h10, h11, h12, h13, h14⟩ := h
  have hat : GObj.at (ofWire (wireObj vc.json)) "expirationDate" = .json .null := by
    rw [at_wire]; simp only [GObj.at, hno]; rfl
  unfold parseSDAlg parseTime2 at *
  have R := fun k' h1 h2 => s.at_rest k' h1 h2
  rw [R "credentialSchema" (by decide) (by decide), R "type" (by decide) (by decide),
    R "id" (by decide) (by decide), R "issuer" (by decide) (by decide),
    R "termsOfUse" (by decide) (by decide), R "credentialStatus" (by decide) (by decide),
    R "relatedResource" (by decide) (by decide), R "credentialSubject" (by decide) (by decide),
    R "_sd_alg" (by decide) (by decide), R "refreshService" (by decide) (by decide),
    R "issuanceDate" (by decide) (by decide), R "expirationDate" (by decide) (by decide),
    R "validFrom" (by decide) (by decide), R "@context" (by decide) (by decide),
    R "evidence" (by decide) (by decide), s.at_field, hat]
  refine ⟨h1, h2, h3, h4, h5, h6, h7, h8, h9, h10, h11, ?_, h13, h14⟩
  have hw' : parseTW env (fmtTW env w) = some ⟨w.t, fmtTW env w⟩ := hw
  simp [GVal.wire, parseTime, hw', Cred.withValidUntil, withTimeStrings]

/-- The credential `exCred` agrees with its object, and carries an `issuanceDate`. -/
theorem exCred_agrees : Agrees exCEnv exCred := rfl

/-- Second 2, with no remembered string. -/
def exW : TW exCEnv.T := ⟨(2 : Int), ""⟩

example : TimeOK exCEnv exW := rfl

/-- **C66 (violated).** `WithModifiedValidFrom` on a credential with an `issuanceDate`: the copy's
typed contents say second 2, its own JSON still parses to second 1. -/
theorem withValidFrom_disagrees :
    Agrees exCEnv exCred ∧ TimeOK exCEnv exW ∧
    ¬ Agrees exCEnv (Cred.withValidFrom exCEnv exCred exW) ∧
    (Cred.withValidFrom exCEnv exCred exW).contents.issued.map TW.t = some (2 : Int) ∧
    (parseContents exCEnv
      (ofWire (wireObj (Cred.withValidFrom exCEnv exCred exW).json)) false).bind
        (fun c => c.issued.map TW.t) = some (1 : Int) := by
  have e : (parseContents exCEnv
      (ofWire (wireObj (Cred.withValidFrom exCEnv exCred exW).json)) false).bind
        (fun c => c.issued.map TW.t) = some (1 : Int) := rfl
  refine ⟨exCred_agrees, rfl, ?_, rfl, e⟩
  intro h
  unfold Agrees at h
  have h' : parseContents exCEnv
      (ofWire (wireObj (Cred.withValidFrom exCEnv exCred exW).json)) false =
      some (withTimeStrings exCEnv (Cred.withValidFrom exCEnv exCred exW).contents) := h
  rw [h'] at e
  have : (some (2 : Int)) = some 1 := e
  simp at this

/-- **C66.** Created credentials agree with their object. -/
theorem created_agrees (law : env.Lawful) (c : Contents env.T) (hn : Normal env c) (custom : JObj)
    (hw : WF custom) (hc : CustomNames custom) (proofs : List JObj) (vc : Cred env.T)
    (h : createCredential env c custom proofs = some vc) : Agrees env vc := by
  have hcon : vc.contents = c := by
    simp only [createCredential, Option.map_eq_some_iff] at h
    obtain ⟨m, -, rfl⟩ := h
    rfl
  obtain ⟨m, hm⟩ : ∃ m, serializeContents env c proofs = some m := by
    simp only [createCredential, Option.map_eq_some_iff] at h
    obtain ⟨m, hm, -⟩ := h
    exact ⟨m, hm⟩
  unfold Agrees
  rw [hcon, ← contents_roundtrip env law c hn proofs m hm]
  apply parse_congr
  intro k hk _
  have hno : get? custom k = none := get?_eq_none_iff.mpr (fun hm => hc k hm hk)
  rw [get?_wire, get?_wire, created_get env c custom hw proofs vc h k, hno,
    serialize_get env c proofs m hm]
  simp

/-- **C66 (limit).** A custom field under a declared name that the contents leave empty is not a custom
field any more: the created credential's object then parses to other contents than it holds. -/
theorem created_disagrees_with_declared_custom :
    ∃ vc, createCredential exCEnv exCred.contents [("id", .str "urn:x")] [] = some vc ∧
      vc.contents.id = "" ∧
      (parseContents exCEnv (ofWire (wireObj vc.json)) false).map (fun c => c.id) = some "urn:x" :=
  ⟨_, rfl, rfl, rfl⟩

end VC.Vfy
