import Verif.Verifiable.Contents
/-!
# verifiable: credential contents — round trip (C42)
-/

namespace VC.Vfy

open GoMap

variable (env : CEnv)

/-! ## What the JSON object of given contents is

The specification: one value per field name, independent of the order in which the code writes. -/

/-- The value serialized contents have under a key. -/
def fieldSpec (c : Contents env.T) (proofs : List JObj) (k : String) : Option GVal :=
  if k = "@context" then
    if c.context = [] ∧ c.customContext = [] then none
    else some (.json (.arr (c.context.map .str ++ c.customContext)))
  else if k = "id" then if c.id = "" then none else some (.json (.str c.id))
  else if k = "type" then if c.types = [] then none else some (.json (serializeTypes c.types))
  else if k = "credentialSubject" then
    if c.subject = [] then none else some (serializeSubject c.subject)
  else if k = "proof" then if proofs = [] then none else some (.json (proofsToRaw proofs))
  else if k = "credentialStatus" then
    if c.status = [] then none else some (typedIDsToRaw c.status)
  else if k = "issuer" then c.issuer.map (fun i => .json (serializeIssuer i))
  else if k = "credentialSchema" then
    if c.schemas = [] then none else some (typedIDsToRaw c.schemas)
  else if k = "evidence" then if c.evidence.isNull then none else some (.json c.evidence)
  else if k = "refreshService" then
    c.refreshService.map (fun r => .json (.obj (serializeTypedIDObj r)))
  else if k = "relatedResource" then if c.relRes = [] then none else some (.rrs c.relRes)
  else if k = "termsOfUse" then if c.termsOfUse = [] then none else some (typedIDsToRaw c.termsOfUse)
  else if k = "validFrom" then
    if c.context.head? = some v2ContextURI then c.issued.map (fun w => .json (.str (fmtTW env w)))
    else none
  else if k = "validUntil" then
    if c.context.head? = some v2ContextURI then c.expired.map (fun w => .json (.str (fmtTW env w)))
    else none
  else if k = "issuanceDate" then
    if c.context.head? = some v2ContextURI then none
    else c.issued.map (fun w => .json (.str (fmtTW env w)))
  else if k = "expirationDate" then
    if c.context.head? = some v2ContextURI then none
    else c.expired.map (fun w => .json (.str (fmtTW env w)))
  else if k = "_sd_alg" then c.sdAlg.bind (fun h => (formatHashAlg h).map (fun s => .json (.str s)))
  else none

theorem get?_setOpt (m : GObj) (k : String) (o : Option GVal) (k' : String) :
    get? (setOpt m k o) k' = if k' = k then o.or (get? m k') else get? m k' := by
  cases o with
  | none => simp [setOpt]
  | some v =>
    simp only [setOpt, get?_set, Option.some_or]
    by_cases h : k = k'
    · simp [h]
    · simp [h, Ne.symm h]

theorem wf_setOpt {m : GObj} (h : WF m) (k : String) (o : Option GVal) : WF (setOpt m k o) := by
  cases o with
  | none => exact h
  | some v => exact wf_set h k v

theorem ifNonempty_eq {α : Type _} (l : List α) (v : GVal) :
    ifNonempty l v = if l = [] then none else some v := by
  cases l <;> simp [ifNonempty]

theorem statusVal_eq (l : List TypedID) :
    statusVal l = if l = [] then none else some (typedIDsToRaw l) := by
  match l with
  | [] => rfl
  | [a] => rfl
  | a :: b :: t => rfl

theorem isBaseContext_iff (c : List String) (u : String) :
    isBaseContext c u = true ↔ c.head? = some u := by
  cases c <;> simp [isBaseContext]

theorem contextToRaw_nil (c : List String) (r : List Json) :
    contextToRaw c r = [] ↔ c = [] ∧ r = [] := by
  simp [contextToRaw]

/-- The field names of a credential object, in the order they are written. -/
def fieldNames : List String :=
  ["@context", "id", "type", "credentialSubject", "proof", "credentialStatus", "issuer",
   "credentialSchema", "evidence", "refreshService", "relatedResource", "termsOfUse", "validFrom",
   "validUntil", "issuanceDate", "expirationDate", "_sd_alg"]

theorem body_get (c : Contents env.T) (proofs : List JObj) (k : String) (hk : k ≠ "_sd_alg") :
    get? (serializeBody env c proofs) k = fieldSpec env c proofs k := by
  unfold serializeBody
  dsimp only
  by_cases hv : isBaseContext c.context v2ContextURI = true
  · have hb := (isBaseContext_iff _ _).mp hv
    simp only [hv, if_true]
    by_cases hm : k ∈ fieldNames
    · simp only [fieldNames, List.mem_cons, List.not_mem_nil, or_false] at hm
      rcases hm with rfl | rfl | rfl | rfl | rfl | rfl | rfl | rfl | rfl | rfl | rfl | rfl | rfl |
        rfl | rfl | rfl | rfl <;>
      simp [get?_setOpt, fieldSpec, ifNonempty_eq, statusVal_eq, contextToRaw,
        timeVal, hb] <;> simp at hk
    · simp only [fieldNames, List.mem_cons, List.not_mem_nil, or_false, not_or] at hm
      simp [get?_setOpt, fieldSpec, hm]
  · have hb : ¬ c.context.head? = some v2ContextURI := fun h => hv ((isBaseContext_iff _ _).mpr h)
    simp only [hv, Bool.false_eq_true, if_false]
    by_cases hm : k ∈ fieldNames
    · simp only [fieldNames, List.mem_cons, List.not_mem_nil, or_false] at hm
      rcases hm with rfl | rfl | rfl | rfl | rfl | rfl | rfl | rfl | rfl | rfl | rfl | rfl | rfl |
        rfl | rfl | rfl | rfl <;>
      simp [get?_setOpt, fieldSpec, ifNonempty_eq, statusVal_eq, contextToRaw,
        timeVal, hb] <;> simp at hk
    · simp only [fieldNames, List.mem_cons, List.not_mem_nil, or_false, not_or] at hm
      simp [get?_setOpt, fieldSpec, hm]

theorem body_sdalg (c : Contents env.T) (proofs : List JObj) :
    get? (serializeBody env c proofs) "_sd_alg" = none := by
  unfold serializeBody
  dsimp only
  split <;> simp [get?_setOpt]

/-- **C42.** Serialized contents hold exactly the specified value under every key. -/
theorem serialize_get (c : Contents env.T) (proofs : List JObj) (m : GObj)
    (h : serializeContents env c proofs = some m) (k : String) :
    get? m k = fieldSpec env c proofs k := by
  unfold serializeContents at h
  cases hs : c.sdAlg with
  | none =>
    simp only [hs, Option.some.injEq] at h
    rw [← h]
    by_cases hk : k = "_sd_alg"
    · subst hk
      rw [body_sdalg]
      simp [fieldSpec, hs]
    · exact body_get env c proofs k hk
  | some a =>
    simp only [hs] at h
    cases hf : formatHashAlg a with
    | none => simp [hf] at h
    | some s =>
      simp only [hf, Option.some.injEq] at h
      rw [← h]
      by_cases hk : k = "_sd_alg"
      · subst hk
        simp [fieldSpec, hs, hf]
      · rw [get?_set_ne _ _ (Ne.symm hk)]
        exact body_get env c proofs k hk

/-- The text of a date: as it was read or given, else the time in the library's format. -/
def DateText (w : TW env.T) (s : String) : Prop := (w.str ≠ "" ∧ s = w.str) ∨ (w.str = "" ∧ s = env.fmtT w.t)

theorem dateText_fmtTW (w : TW env.T) : DateText env w (fmtTW env w) := by
  unfold DateText fmtTW
  by_cases h : w.str = "" <;> simp [h]

/-- **C42.**  Dates go out with the text they came with; under the names of version 2 exactly if the first
context is that of version 2. -/
theorem serialized_dates (c : Contents env.T) (proofs : List JObj) (m : GObj)
    (h : serializeContents env c proofs = some m) :
    (∀ w, c.issued = some w → ∃ s, DateText env w s ∧
      get? m (if c.context.head? = some "https://www.w3.org/ns/credentials/v2" then "validFrom" else "issuanceDate") =
        some (.json (.str s))) ∧
    (∀ w, c.expired = some w → ∃ s, DateText env w s ∧
      get? m (if c.context.head? = some "https://www.w3.org/ns/credentials/v2" then "validUntil" else "expirationDate") =
        some (.json (.str s))) := by
  constructor <;> intro w hw <;> refine ⟨_, dateText_fmtTW env w, ?_⟩ <;> rw [serialize_get env c proofs m h] <;>
    by_cases hv : c.context.head? = some "https://www.w3.org/ns/credentials/v2" <;>
    simp [fieldSpec, hv, hw, v2ContextURI]

/-- **C42.**  A date that was read is written back as it was. -/
theorem read_date_kept {s : String} {w : TW env.T} (h : parseTW env s = some w) (hs : s ≠ "") {t : String}
    (ht : DateText env w t) : t = s := by
  have : w.str = s := by
    unfold parseTW at h
    split at h
    · cases h; rfl
    · simp only [Option.map_eq_some_iff] at h
      obtain ⟨_, _, rfl⟩ := h
      rfl
  rcases ht with ⟨_, h2⟩ | ⟨h1, _⟩
  · rw [h2, this]
  · rw [this] at h1; exact absurd h1 hs

/-- Serialization fails only for an unsupported hash algorithm. -/
theorem serialize_isSome (c : Contents env.T) (proofs : List JObj) :
    (serializeContents env c proofs).isSome ↔
      c.sdAlg = none ∨ c.sdAlg = some .sha256 ∨ c.sdAlg = some .sha384 ∨ c.sdAlg = some .sha512 := by
  unfold serializeContents
  cases c.sdAlg with
  | none => simp
  | some a => cases a <;> simp [formatHashAlg]

/-! ## Reading -/

/-- What is assumed of the libraries: upper-casing the three algorithm names, and that neither the
empty string nor `Z` is an RFC 3339 time. -/
structure CEnv.Lawful : Prop where
  upper256 : env.upper "sha-256" = "SHA-256"
  upper384 : env.upper "sha-384" = "SHA-384"
  upper512 : env.upper "sha-512" = "SHA-512"
  empty : env.parseT "" = none
  zed : env.parseT "Z" = none

/-- Reading depends only on the values under the field names. -/
theorem parse_congr (raw raw' : GObj) (b : Bool)
    (h : ∀ k ∈ fieldNames, k ≠ "proof" → get? raw k = get? raw' k) :
    parseContents env raw b = parseContents env raw' b := by
  have at_eq : ∀ k, k ∈ fieldNames → k ≠ "proof" → GObj.at raw k = GObj.at raw' k := by
    intro k hk hp
    simp [GObj.at, h k hk hp]
  unfold parseContents parseSDAlg parseTime2
  rw [at_eq "credentialSchema" (by simp [fieldNames]) (by decide),
    at_eq "type" (by simp [fieldNames]) (by decide),
    at_eq "issuer" (by simp [fieldNames]) (by decide),
    at_eq "@context" (by simp [fieldNames]) (by decide),
    at_eq "termsOfUse" (by simp [fieldNames]) (by decide),
    at_eq "refreshService" (by simp [fieldNames]) (by decide),
    at_eq "relatedResource" (by simp [fieldNames]) (by decide),
    at_eq "credentialSubject" (by simp [fieldNames]) (by decide),
    at_eq "_sd_alg" (by simp [fieldNames]) (by decide),
    at_eq "id" (by simp [fieldNames]) (by decide),
    at_eq "issuanceDate" (by simp [fieldNames]) (by decide),
    at_eq "validFrom" (by simp [fieldNames]) (by decide),
    at_eq "expirationDate" (by simp [fieldNames]) (by decide),
    at_eq "validUntil" (by simp [fieldNames]) (by decide),
    at_eq "credentialStatus" (by simp [fieldNames]) (by decide),
    at_eq "evidence" (by simp [fieldNames]) (by decide)]

theorem get?_wire (m : GObj) (k : String) :
    get? (ofWire (wireObj m)) k = (get? m k).map (fun v => .json v.wire) := by
  have h1 : get? (ofWire (wireObj m)) k = (get? (wireObj m) k).map .json := by
    unfold ofWire
    rw [GoMap.get?_map (wireObj m) (fun _ v => GVal.json v) k]
  have h2 : get? (wireObj m) k = (get? m k).map GVal.wire := by
    unfold wireObj
    rw [GoMap.get?_map m (fun _ v => v.wire) k]
  rw [h1, h2, Option.map_map]
  rfl

/-- A time that can be written and read back: its written form is read as the same instant. -/
def TimeOK (w : TW env.T) : Prop := parseTW env (fmtTW env w) = some ⟨w.t, fmtTW env w⟩

/-- Contents that a credential object can express: at least one type and one context, custom
contexts starting with a non-string, an issuer with an id, custom fields that do not reuse a declared
name, times in the RFC 3339 range. -/
structure Normal (c : Contents env.T) : Prop where
  types : c.types ≠ []
  ctx : c.context ≠ [] ∨ c.customContext ≠ []
  custom : ∀ j tl, c.customContext = j :: tl → NotStr j
  issuer : ∀ i, c.issuer = some i → i.id ≠ "" ∧ NoKey "id" i.custom
  subject : ∀ s ∈ c.subject, NoKey "id" s.custom
  status : ∀ t ∈ c.status, t.Clean
  schemas : ∀ t ∈ c.schemas, t.Clean
  terms : ∀ t ∈ c.termsOfUse, t.Clean
  refresh : ∀ r, c.refreshService = some r → r.Clean
  issued : ∀ w, c.issued = some w → TimeOK env w
  expired : ∀ w, c.expired = some w → TimeOK env w

/-- The same contents with each time remembered in its written form. -/
def withTimeStrings (c : Contents env.T) : Contents env.T :=
  { c with issued := c.issued.map (fun w => ⟨w.t, fmtTW env w⟩),
           expired := c.expired.map (fun w => ⟨w.t, fmtTW env w⟩) }

theorem at_wire (m : GObj) (k : String) :
    GObj.at (ofWire (wireObj m)) k = .json (GObj.at m k).wire := by
  unfold GObj.at
  rw [get?_wire]
  cases get? m k <;> rfl

theorem parseTime_wire {w : Option (TW env.T)} (hw : ∀ x, w = some x → TimeOK env x) :
    parseTime env (.json ((timeVal env w).getD (.json .null)).wire) =
      some (w.map (fun w => ⟨w.t, fmtTW env w⟩)) := by
  cases w with
  | none => rfl
  | some x =>
    have : parseTW env (fmtTW env x) = some ⟨x.t, fmtTW env x⟩ := hw x rfl
    simp [timeVal, GVal.wire, parseTime, this]

theorem status_roundtrip (ts : List TypedID) (hne : ts ≠ []) (hc : ∀ t ∈ ts, t.Clean) :
    newTypedIDArray (.json (typedIDsToRaw ts).wire) = some ts := by
  match ts, hc with
  | [], _ => exact absurd rfl hne
  | [t], hc =>
    have h := hc t (by simp)
    simp only [typedIDsToRaw, GVal.wire, newTypedIDArray, typedID_roundtrip t h.1 h.2,
      Option.map_some]
  | a :: b :: l, hc =>
    have := parseTypedIDs_map (a :: b :: l) hc
    simp only [typedIDsToRaw, GVal.wire, newTypedIDArray, List.map_map]
    exact this

/-- **C42.** Contents survive serialization, JSON and parsing: the parsed contents are the original
ones (times keep their instant and now remember their written form). -/
theorem contents_roundtrip (law : env.Lawful) (c : Contents env.T) (hn : Normal env c)
    (proofs : List JObj) (m : GObj) (h : serializeContents env c proofs = some m) :
    parseContents env (ofWire (wireObj m)) c.sdAlg.isSome = some (withTimeStrings env c) := by
  have hg : ∀ k, GObj.at (ofWire (wireObj m)) k =
      .json ((fieldSpec env c proofs k).getD (.json .null)).wire := by
    intro k
    rw [at_wire, GObj.at, serialize_get env c proofs m h k]
  have e1 : parseTypedID (GObj.at (ofWire (wireObj m)) "credentialSchema") = some c.schemas := by
    rw [hg]
    by_cases hs : c.schemas = []
    · simp [fieldSpec, hs, parseTypedID, GVal.wire]
    · simpa [fieldSpec, hs] using typedIDs_roundtrip c.schemas hs hn.schemas
  have e2 : decodeType (GObj.at (ofWire (wireObj m)) "type") = some c.types := by
    rw [hg]
    simpa [fieldSpec, hn.types, GVal.wire] using decodeType_serializeTypes c.types
  have e3 : parseIssuer (GObj.at (ofWire (wireObj m)) "issuer") = some c.issuer := by
    rw [hg]
    cases hi : c.issuer with
    | none => simp [fieldSpec, hi, parseIssuer, GVal.wire]
    | some i =>
      obtain ⟨h1, h2⟩ := hn.issuer i hi
      simpa [fieldSpec, hi, GVal.wire] using parseIssuer_serializeIssuer i h1 h2
  have e4 : decodeContext (GObj.at (ofWire (wireObj m)) "@context") =
      some (c.context, c.customContext) := by
    rw [hg]
    have : ¬ (c.context = [] ∧ c.customContext = []) := by
      rintro ⟨h1, h2⟩
      rcases hn.ctx with h | h
      · exact h h1
      · exact h h2
    have key := decodeContext_contextToRaw c.context c.customContext hn.custom
    simp only [fieldSpec, if_true, this, if_false, Option.getD_some, GVal.wire]
    exact key
  have e5 : parseTypedID (GObj.at (ofWire (wireObj m)) "termsOfUse") = some c.termsOfUse := by
    rw [hg]
    by_cases hs : c.termsOfUse = []
    · simp [fieldSpec, hs, parseTypedID, GVal.wire]
    · simpa [fieldSpec, hs] using typedIDs_roundtrip c.termsOfUse hs hn.terms
  have e6 : parseTypedID (GObj.at (ofWire (wireObj m)) "refreshService") =
      some c.refreshService.toList := by
    rw [hg]
    cases hr : c.refreshService with
    | none => simp [fieldSpec, hr, parseTypedID, GVal.wire]
    | some r =>
      have := hn.refresh r hr
      simp [fieldSpec, hr, parseTypedID, GVal.wire, typedID_roundtrip r this.1 this.2]
  have e7 : parseRelatedResources env.sprint (GObj.at (ofWire (wireObj m)) "relatedResource") =
      some c.relRes := by
    rw [hg]
    by_cases hs : c.relRes = []
    · simp [fieldSpec, hs, parseRelatedResources, GVal.wire]
    · simpa [fieldSpec, hs] using relRes_roundtrip env.sprint c.relRes
  have e8 : parseSubject (GObj.at (ofWire (wireObj m)) "credentialSubject") = some c.subject := by
    rw [hg]
    by_cases hs : c.subject = []
    · simp [fieldSpec, hs, parseSubject, GVal.wire]
    · simpa [fieldSpec, hs] using subjects_roundtrip c.subject hn.subject
  have e9 : parseSDAlg env (ofWire (wireObj m)) c.subject c.sdAlg.isSome = some c.sdAlg := by
    unfold parseSDAlg
    rw [hg]
    have hsome : (serializeContents env c proofs).isSome := by rw [h]; rfl
    rcases (serialize_isSome env c proofs).mp hsome with hs | hs | hs | hs <;>
      simp [fieldSpec, hs, formatHashAlg, GVal.wire, parseStr, parseSDAlgValue, parseHashAlg,
        law.upper256, law.upper384, law.upper512]
  have e10 : parseStr (GObj.at (ofWire (wireObj m)) "id") = some c.id := by
    rw [hg]
    by_cases hi : c.id = ""
    · simp [fieldSpec, hi, GVal.wire, parseStr]
    · simp [fieldSpec, hi, GVal.wire, parseStr]
  have e11 : parseTime2 env (ofWire (wireObj m)) "issuanceDate" "validFrom" =
      some (c.issued.map (fun w => ⟨w.t, fmtTW env w⟩)) := by
    unfold parseTime2
    rw [hg, hg]
    have key := parseTime_wire env hn.issued
    by_cases hv : c.context.head? = some v2ContextURI
    · have a1 : fieldSpec env c proofs "issuanceDate" = none := by simp [fieldSpec, hv]
      have a2 : fieldSpec env c proofs "validFrom" = timeVal env c.issued := by
        simp [fieldSpec, hv, timeVal]
      rw [a1, a2, key]; rfl
    · have a1 : fieldSpec env c proofs "issuanceDate" = timeVal env c.issued := by
        simp [fieldSpec, hv, timeVal]
      have a2 : fieldSpec env c proofs "validFrom" = none := by simp [fieldSpec, hv]
      rw [a1, a2, key]
      cases c.issued <;> rfl
  have e12 : parseTime2 env (ofWire (wireObj m)) "expirationDate" "validUntil" =
      some (c.expired.map (fun w => ⟨w.t, fmtTW env w⟩)) := by
    unfold parseTime2
    rw [hg, hg]
    have key := parseTime_wire env hn.expired
    by_cases hv : c.context.head? = some v2ContextURI
    · have a1 : fieldSpec env c proofs "expirationDate" = none := by simp [fieldSpec, hv]
      have a2 : fieldSpec env c proofs "validUntil" = timeVal env c.expired := by
        simp [fieldSpec, hv, timeVal]
      rw [a1, a2, key]; rfl
    · have a1 : fieldSpec env c proofs "expirationDate" = timeVal env c.expired := by
        simp [fieldSpec, hv, timeVal]
      have a2 : fieldSpec env c proofs "validUntil" = none := by simp [fieldSpec, hv]
      rw [a1, a2, key]
      cases c.expired <;> rfl
  have e13 : newTypedIDArray (GObj.at (ofWire (wireObj m)) "credentialStatus") = some c.status := by
    rw [hg]
    by_cases hs : c.status = []
    · simp [fieldSpec, hs, newTypedIDArray, GVal.wire]
    · simpa [fieldSpec, hs] using status_roundtrip c.status hs hn.status
  have e14 : evidenceOf (GObj.at (ofWire (wireObj m)) "evidence") = c.evidence := by
    rw [hg]
    cases he : c.evidence <;> simp [fieldSpec, he, evidenceOf, GVal.wire, Json.isNull]
  unfold parseContents
  simp only [e1, e2, e3, e4, e5, e6, e7, e8, e9, e10, e11, e12, e13, e14, Option.bind_eq_bind,
    Option.bind_some, Option.pure_def, withTimeStrings, Option.head?_toList]

/-! ## Parsed contents are normal -/

theorem parseTW_spec (law : env.Lawful) {s : String} {w : TW env.T} (h : parseTW env s = some w) :
    w.str = s ∧ s ≠ "" ∧ fmtTW env w = s := by
  have hs : s ≠ "" := by
    rintro rfl
    have : ("" : String) ++ "Z" = "Z" := by decide
    simp [parseTW, law.empty, this, law.zed] at h
  have hw : w.str = s := by
    unfold parseTW at h
    cases h1 : env.parseT s with
    | some t => simp only [h1, Option.some.injEq] at h; rw [← h]
    | none =>
      simp only [h1, Option.map_eq_some_iff] at h
      obtain ⟨t, -, rfl⟩ := h
      rfl
  exact ⟨hw, hs, by simp [fmtTW, hw, hs]⟩

theorem parseTime_ok (law : env.Lawful) {v : GVal} {w : TW env.T}
    (h : parseTime env v = some (some w)) : TimeOK env w ∧ w.str = fmtTW env w := by
  cases v with
  | json j =>
    cases j with
    | str s =>
      simp only [parseTime, Option.map_eq_some_iff, Option.some.injEq] at h
      obtain ⟨w', hw', rfl⟩ := h
      obtain ⟨h1, h2, h3⟩ := parseTW_spec env law hw'
      refine ⟨?_, h1.trans h3.symm⟩
      unfold TimeOK
      rw [h3, hw']
      obtain ⟨t, st⟩ := w'
      simp only at h1
      rw [h1]
    | _ => simp [parseTime] at h
  | _ => simp [parseTime] at h

theorem parseTime2_ok (law : env.Lawful) {raw : GObj} {k k' : String} {w : TW env.T}
    (h : parseTime2 env raw k k' = some (some w)) : TimeOK env w ∧ w.str = fmtTW env w := by
  unfold parseTime2 at h
  cases h1 : parseTime env (GObj.at raw k) with
  | none => simp [h1] at h
  | some o =>
    cases o with
    | some w' =>
      simp only [h1, Option.some.injEq] at h
      subst h
      exact parseTime_ok env law h1
    | none =>
      simp only [h1] at h
      exact parseTime_ok env law h

theorem parseIssuer_ok {v : GVal} {i : Issuer} (h : parseIssuer v = some (some i)) :
    i.id ≠ "" ∧ NoKey "id" i.custom := by
  cases v with
  | json j =>
    cases j with
    | str s =>
      obtain ⟨h1, h2⟩ := (parseIssuer_string s (some i)).mp h
      simp only [Option.some.injEq] at h2
      subst h2
      exact ⟨h1, by simp [NoKey, keys]⟩
    | obj o =>
      simp only [parseIssuer, Option.map_eq_some_iff, Option.some.injEq] at h
      obtain ⟨i', hi', rfl⟩ := h
      obtain ⟨h1, -, h3⟩ := issuerFromJSON_needs_id o i' hi'
      exact ⟨h1, get?_eq_none_iff.mp (by rw [h3]; simp)⟩
    | _ => simp [parseIssuer] at h
  | _ => simp [parseIssuer] at h

theorem subjectFromJSON_clean {o : JObj} {s : Subject} (h : subjectFromJSON o = some s) :
    NoKey "id" s.custom :=
  get?_eq_none_iff.mp (by rw [(subjectFromJSON_spec o s h).2]; simp)

theorem parseSubject_ok {v : GVal} {ss : List Subject} (h : parseSubject v = some ss) :
    ∀ s ∈ ss, NoKey "id" s.custom := by
  have many : ∀ (l : List Json) (ss : List Subject), parseSubjects l = some ss →
      ∀ s ∈ ss, NoKey "id" s.custom := by
    intro l
    induction l with
    | nil => intro ss h; simp only [parseSubjects, Option.some.injEq] at h; subst h; simp
    | cons v l ih =>
      intro ss h
      cases v with
      | obj o =>
        simp only [parseSubjects, Option.bind_eq_bind, Option.pure_def] at h
        cases h1 : subjectFromJSON o with
        | none => simp [h1] at h
        | some t =>
          cases h2 : parseSubjects l with
          | none => simp [h1, h2] at h
          | some ts =>
            simp only [h1, h2, Option.bind_some, Option.some.injEq] at h
            subst h
            intro s hs
            rcases List.mem_cons.mp hs with e | e
            · rw [e]; exact subjectFromJSON_clean h1
            · exact ih ts h2 s e
      | _ => simp [parseSubjects] at h
  cases v with
  | json j =>
    cases j with
    | null => simp only [parseSubject, Option.some.injEq] at h; subst h; simp
    | str s =>
      simp only [parseSubject, Option.some.injEq] at h
      subst h
      simp [NoKey, keys]
    | obj o =>
      simp only [parseSubject, Option.map_eq_some_iff] at h
      obtain ⟨s, hs, rfl⟩ := h
      intro s' hs'
      simp only [List.mem_singleton] at hs'
      rw [hs']; exact subjectFromJSON_clean hs
    | arr l => exact many l ss h
    | _ => simp [parseSubject] at h
  | _ => simp [parseSubject] at h

theorem decodeContext_ok {v : GVal} {cs : List String} {rest : List Json}
    (h : decodeContext v = some (cs, rest)) : ∀ j tl, rest = j :: tl → NotStr j := by
  cases v with
  | json j =>
    cases j with
    | str s =>
      simp only [decodeContext, Option.some.injEq, Prod.mk.injEq] at h
      rw [← h.2]; simp
    | arr l => exact ((decodeContext_array_iff l cs rest).mp h).2
    | _ => simp [decodeContext] at h
  | strs l =>
    simp only [decodeContext, Option.some.injEq, Prod.mk.injEq] at h
    rw [← h.2]; simp
  | _ => simp [decodeContext] at h

/-- The pieces of a successful parse. -/
theorem parseContents_inv {raw : GObj} {b : Bool} {c : Contents env.T}
    (h : parseContents env raw b = some c) :
    parseTypedID (GObj.at raw "credentialSchema") = some c.schemas ∧
    decodeType (GObj.at raw "type") = some c.types ∧
    parseIssuer (GObj.at raw "issuer") = some c.issuer ∧
    decodeContext (GObj.at raw "@context") = some (c.context, c.customContext) ∧
    parseTypedID (GObj.at raw "termsOfUse") = some c.termsOfUse ∧
    (∃ r, parseTypedID (GObj.at raw "refreshService") = some r ∧ r.head? = c.refreshService) ∧
    parseRelatedResources env.sprint (GObj.at raw "relatedResource") = some c.relRes ∧
    parseSubject (GObj.at raw "credentialSubject") = some c.subject ∧
    parseSDAlg env raw c.subject b = some c.sdAlg ∧
    parseStr (GObj.at raw "id") = some c.id ∧
    parseTime2 env raw "issuanceDate" "validFrom" = some c.issued ∧
    parseTime2 env raw "expirationDate" "validUntil" = some c.expired ∧
    newTypedIDArray (GObj.at raw "credentialStatus") = some c.status ∧
    c.evidence = (GObj.at raw "evidence").wire := by
  unfold parseContents at h
  simp only [Option.bind_eq_bind, Option.bind_eq_some_iff, Option.pure_def, Option.some.injEq] at h
  obtain ⟨a1, h1, a2, h2, a3, h3, a4, h4, a5, h5, a6, h6, a7, h7, a8, h8, a9, h9, a10, h10, a11, h11,
    a12, h12, a13, h13, rfl⟩ := h
  exact ⟨h1, h2, h3, h4, h5, ⟨a6, h6, rfl⟩, h7, h8, h9, h10, h11, h12, h13, rfl⟩

/-- **C42.** Parsed contents with at least one type and one context can be expressed again. -/
theorem parsed_normal (law : env.Lawful) {raw : GObj} {b : Bool} {c : Contents env.T}
    (h : parseContents env raw b = some c) (ht : c.types ≠ [])
    (hx : c.context ≠ [] ∨ c.customContext ≠ []) : Normal env c ∧ withTimeStrings env c = c := by
  obtain ⟨h1, h2, h3, h4, h5, ⟨r, h6, h6'⟩, h7, h8, h9, h10, h11, h12, h13, h14⟩ :=
    parseContents_inv env h
  refine ⟨⟨ht, hx, decodeContext_ok h4, ?_, parseSubject_ok h8, newTypedIDArray_clean h13,
    parseTypedID_clean h1, parseTypedID_clean h5, ?_, ?_, ?_⟩, ?_⟩
  · intro i hi
    rw [hi] at h3
    exact parseIssuer_ok h3
  · intro t ht'
    rw [ht'] at h6'
    exact parseTypedID_clean h6 t (List.mem_of_mem_head? h6')
  · intro w hw
    rw [hw] at h11
    exact (parseTime2_ok env law h11).1
  · intro w hw
    rw [hw] at h12
    exact (parseTime2_ok env law h12).1
  · have e1 : c.issued.map (fun w => (⟨w.t, fmtTW env w⟩ : TW env.T)) = c.issued := by
      cases hw : c.issued with
      | none => rfl
      | some w =>
        rw [hw] at h11
        have := (parseTime2_ok env law h11).2
        simp only [Option.map_some, Option.some.injEq]
        rw [← this]
    have e2 : c.expired.map (fun w => (⟨w.t, fmtTW env w⟩ : TW env.T)) = c.expired := by
      cases hw : c.expired with
      | none => rfl
      | some w =>
        rw [hw] at h12
        have := (parseTime2_ok env law h12).2
        simp only [Option.map_some, Option.some.injEq]
        rw [← this]
    unfold withTimeStrings
    rw [e1, e2]

theorem parsed_sdAlg {raw : GObj} {b : Bool} {c : Contents env.T}
    (h : parseContents env raw b = some c) : c.sdAlg.isSome = b ∧
      (c.sdAlg = none ∨ c.sdAlg = some .sha256 ∨ c.sdAlg = some .sha384 ∨ c.sdAlg = some .sha512) := by
  obtain ⟨-, -, -, -, -, -, -, -, h9, -⟩ := parseContents_inv env h
  have hp : ∀ s a, parseHashAlg env s = some a → a = .sha256 ∨ a = .sha384 ∨ a = .sha512 := by
    intro s a ha
    unfold parseHashAlg at ha
    split at ha
    · simp only [Option.some.injEq] at ha; exact .inl ha.symm
    · split at ha
      · simp only [Option.some.injEq] at ha; exact .inr (.inl ha.symm)
      · split at ha
        · simp only [Option.some.injEq] at ha; exact .inr (.inr ha.symm)
        · cases ha
  have hv : ∀ s ss a, parseSDAlgValue env s ss = some a → a = .sha256 ∨ a = .sha384 ∨ a = .sha512 := by
    intro s ss a ha
    unfold parseSDAlgValue at ha
    split at ha
    · unfold hashFromClaims at ha
      split at ha
      · exact hp _ _ ha
      · cases ha
    · exact hp _ _ ha
  unfold parseSDAlg at h9
  cases b with
  | false =>
    simp only [Bool.false_eq_true, if_false, Option.some.injEq] at h9
    rw [← h9]; simp
  | true =>
    simp only [if_true] at h9
    split at h9
    · cases h9
    · simp only [Option.map_eq_some_iff] at h9
      obtain ⟨a, ha, he⟩ := h9
      rw [← he]
      rcases hv _ _ _ ha with h | h | h <;> simp [h]

/-- Specification: the text that names the hash algorithm of an SD-JWT credential.  It is the member
`_sd_alg` of the credential if that is a non-empty string; without one (or null, or empty) it is the
claim `_sd_alg` of the first subject, or if that has none, of the object in its claim `vc`. -/
inductive SDAlgText (raw : GObj) (subjects : List Subject) : String → Prop
  | own {s} : get? raw "_sd_alg" = some (.json (.str s)) → s ≠ "" → SDAlgText raw subjects s
  | subject {s i custom rest} : (get? raw "_sd_alg" = none ∨ get? raw "_sd_alg" = some (.json .null) ∨
      get? raw "_sd_alg" = some (.json (.str ""))) → subjects = ⟨i, custom⟩ :: rest →
      get? custom "_sd_alg" = some (.str s) → SDAlgText raw subjects s
  | nested {s i custom rest vc} : (get? raw "_sd_alg" = none ∨ get? raw "_sd_alg" = some (.json .null) ∨
      get? raw "_sd_alg" = some (.json (.str ""))) → subjects = ⟨i, custom⟩ :: rest →
      get? custom "_sd_alg" = none → get? custom "vc" = some (.obj vc) →
      get? vc "_sd_alg" = some (.str s) → SDAlgText raw subjects s

/-- **C42.**  The hash algorithm of an SD-JWT credential is the one so named (the empty string names none). -/
theorem parseSDAlg_reads (hE : parseHashAlg env "" = none) (raw : GObj) (subjects : List Subject) (a : Hash) :
    parseSDAlg env raw subjects true = some (some a) ↔ ∃ s, SDAlgText raw subjects s ∧ parseHashAlg env s = some a := by
  have hsub : ∀ (h0 : get? raw "_sd_alg" = none ∨ get? raw "_sd_alg" = some (.json .null) ∨
      get? raw "_sd_alg" = some (.json (.str ""))),
      parseSDAlgValue env "" subjects = some a ↔ ∃ s, SDAlgText raw subjects s ∧ parseHashAlg env s = some a := by
    intro h0
    have hno : ∀ s, get? raw "_sd_alg" = some (.json (.str s)) → s ≠ "" → False := by
      intro s h1 h2
      rcases h0 with h | h | h <;> rw [h] at h1
      · cases h1
      · cases h1
      · cases h1; exact h2 rfl
    have none_text : (∀ i custom rest, subjects = ⟨i, custom⟩ :: rest → custom = []) →
        ¬ ∃ s, SDAlgText raw subjects s ∧ parseHashAlg env s = some a := by
      rintro h ⟨s, ht, _⟩
      cases ht with
      | own h1 h2 => exact hno s h1 h2
      | subject _ h2 h3 => rw [h _ _ _ h2] at h3; cases h3
      | nested _ h2 _ h3 _ => rw [h _ _ _ h2] at h3; cases h3
    match subjects with
    | [] =>
      simp only [parseSDAlgValue, hE]
      exact ⟨fun h => (nomatch h), fun h => absurd h (none_text (by simp))⟩
    | ⟨i, []⟩ :: rest =>
      simp only [parseSDAlgValue, hE]
      exact ⟨fun h => (nomatch h), fun h => absurd h (none_text (by simp +contextual))⟩
    | ⟨i, p :: custom⟩ :: rest =>
      have e : parseSDAlgValue env "" (⟨i, p :: custom⟩ :: rest) = hashFromClaims env (p :: custom) := rfl
      rw [e]
      generalize hm : p :: custom = m
      unfold hashFromClaims getKeyFromVC
      constructor
      · intro h
        split at h
        · next s hs =>
          refine ⟨s, ?_, h⟩
          split at hs
          · next v hv => cases hs; exact .subject h0 rfl hv
          · next hv =>
            split at hs
            · next vc hvc => exact .nested h0 rfl hv hvc hs
            · cases hs
        · cases h
      · rintro ⟨s, ht, hp⟩
        cases ht with
        | own h1 h2 => exact absurd h2 (fun h2 => hno s h1 h2)
        | subject _ h2 h3 =>
          cases h2
          rw [h3]
          exact hp
        | nested _ h2 h3 h4 h5 =>
          cases h2
          rw [h3]
          dsimp only
          rw [h4]
          dsimp only
          rw [h5]
          exact hp
  have bad : ∀ g, get? raw "_sd_alg" = some g → g ≠ .json .null → (∀ s, g ≠ .json (.str s)) →
      ¬ ∃ s, SDAlgText raw subjects s ∧ parseHashAlg env s = some a := by
    rintro g hg h1 h2 ⟨s, ht, _⟩
    have hx : ¬ (get? raw "_sd_alg" = none ∨ get? raw "_sd_alg" = some (.json .null) ∨
        get? raw "_sd_alg" = some (.json (.str ""))) := by
      rintro (h | h | h) <;> rw [hg] at h
      · cases h
      · exact h1 (Option.some.inj h)
      · exact h2 _ (Option.some.inj h)
    cases ht with
    | own h _ => rw [hg] at h; exact h2 _ (Option.some.inj h)
    | subject h _ _ => exact hx h
    | nested h _ _ _ _ => exact hx h
  unfold parseSDAlg GObj.at
  rw [if_pos rfl]
  cases hg : get? raw "_sd_alg" with
  | none =>
    simp only [Option.getD_none, parseStr, Option.map_eq_some_iff, Option.some.injEq, exists_eq_right]
    exact hsub (.inl hg)
  | some g =>
    simp only [Option.getD_some]
    cases g with
    | json j =>
      cases j with
      | null =>
        simp only [parseStr, Option.map_eq_some_iff, Option.some.injEq, exists_eq_right]
        exact hsub (.inr (.inl hg))
      | str s =>
        simp only [parseStr, Option.map_eq_some_iff, Option.some.injEq, exists_eq_right]
        by_cases he : s = ""
        · subst he
          exact hsub (.inr (.inr hg))
        · have e : parseSDAlgValue env s subjects = parseHashAlg env s := by
            unfold parseSDAlgValue
            have : (s == "") = false := by simpa using he
            rw [this]
          rw [e]
          constructor
          · intro h; exact ⟨s, .own hg he, h⟩
          · rintro ⟨s', ht, hp⟩
            have hx : ¬ (get? raw "_sd_alg" = none ∨ get? raw "_sd_alg" = some (.json .null) ∨
                get? raw "_sd_alg" = some (.json (.str ""))) := by
              rintro (h | h | h) <;> rw [hg] at h <;> cases h
              exact he rfl
            cases ht with
            | own h _ => rw [hg] at h; cases h; exact hp
            | subject h _ _ => exact absurd h hx
            | nested h _ _ _ _ => exact absurd h hx
      | bool b => simp only [parseStr]; exact ⟨fun h => (nomatch h), fun h => absurd h (bad _ hg (by simp) (by simp))⟩
      | num n => simp only [parseStr]; exact ⟨fun h => (nomatch h), fun h => absurd h (bad _ hg (by simp) (by simp))⟩
      | arr l => simp only [parseStr]; exact ⟨fun h => (nomatch h), fun h => absurd h (bad _ hg (by simp) (by simp))⟩
      | obj o => simp only [parseStr]; exact ⟨fun h => (nomatch h), fun h => absurd h (bad _ hg (by simp) (by simp))⟩
    | objs l => simp only [parseStr]; exact ⟨fun h => (nomatch h), fun h => absurd h (bad _ hg (by simp) (by simp))⟩
    | strs l => simp only [parseStr]; exact ⟨fun h => (nomatch h), fun h => absurd h (bad _ hg (by simp) (by simp))⟩
    | rrs l => simp only [parseStr]; exact ⟨fun h => (nomatch h), fun h => absurd h (bad _ hg (by simp) (by simp))⟩

/-- Non-vacuity: an algorithm named in the claim `vc` of the first subject. -/
example : SDAlgText [] [⟨"did:s", [("vc", .obj [("_sd_alg", .str "sha-384")])]⟩] "sha-384" :=
  .nested (.inl rfl) rfl rfl rfl rfl

/-- **C42.** Serializing parsed contents and parsing again gives the same contents: any object that
parses with at least one type and one context. -/
theorem reparse (law : env.Lawful) {raw : GObj} {b : Bool} {c : Contents env.T}
    (h : parseContents env raw b = some c) (ht : c.types ≠ [])
    (hx : c.context ≠ [] ∨ c.customContext ≠ []) (proofs : List JObj) :
    ∃ m, serializeContents env c proofs = some m ∧
      parseContents env (ofWire (wireObj m)) b = some c := by
  obtain ⟨hn, hw⟩ := parsed_normal env law h ht hx
  obtain ⟨hb, hs⟩ := parsed_sdAlg env h
  have hsome := (serialize_isSome env c proofs).mpr hs
  obtain ⟨m, hm⟩ := Option.isSome_iff_exists.mp hsome
  refine ⟨m, hm, ?_⟩
  have := contents_roundtrip env law c hn proofs m hm
  rw [hb, hw] at this
  exact this

/-! ## Creation and custom fields -/

/-- Custom field names that are not field names of a credential. -/
def CustomNames (m : JObj) : Prop := ∀ k ∈ keys m, k ∉ fieldNames

theorem keys_ofWire (m : JObj) : keys (ofWire m) = keys m := by
  simp [keys, ofWire, List.map_map, Function.comp_def]

theorem get?_ofWire (m : JObj) (k : String) : get? (ofWire m) k = (get? m k).map .json := by
  unfold ofWire
  rw [GoMap.get?_map m (fun _ v => GVal.json v) k]

/-- **C42.** The object of a created credential: the serialized contents under the field names, the
custom fields elsewhere, and a custom field never replaces a serialized one. -/
theorem created_get (c : Contents env.T) (custom : JObj) (hw : WF custom) (proofs : List JObj)
    (vc : Cred env.T) (h : createCredential env c custom proofs = some vc) (k : String) :
    get? vc.json k = (fieldSpec env c proofs k).or ((get? custom k).map .json) := by
  simp only [createCredential, Option.map_eq_some_iff] at h
  obtain ⟨m, hm, rfl⟩ := h
  dsimp only
  rw [JsonUtil.merge_lookup (ofWire custom) (by unfold WF; rw [keys_ofWire]; exact hw) m k]
  rw [serialize_get env c proofs m hm k, get?_ofWire]

/-- **C42.** A created credential, written to JSON and parsed, has the contents it was created with,
and every custom field is kept as a custom field. -/
theorem created_roundtrip (law : env.Lawful) (c : Contents env.T) (hn : Normal env c) (custom : JObj)
    (hw : WF custom) (hc : CustomNames custom) (proofs : List JObj) (vc : Cred env.T)
    (h : createCredential env c custom proofs = some vc) :
    parseContents env (ofWire (wireObj vc.toRawJSON)) c.sdAlg.isSome =
      some (withTimeStrings env c) ∧
    (∀ k v, get? custom k = some v → get? (wireObj vc.toRawJSON) k = some v) ∧
    parseLDProof (GObj.at (ofWire (wireObj vc.toRawJSON)) "proof") = some proofs := by
  have hget := created_get env c custom hw proofs vc h
  have hpr : vc.proofs = proofs := by
    simp only [createCredential, Option.map_eq_some_iff] at h
    obtain ⟨m, -, rfl⟩ := h
    rfl
  obtain ⟨m, hm⟩ : ∃ m, serializeContents env c proofs = some m := by
    simp only [createCredential, Option.map_eq_some_iff] at h
    obtain ⟨m, hm, -⟩ := h
    exact ⟨m, hm⟩
  have hproofSpec : fieldSpec env c proofs "proof" =
      if proofs = [] then none else some (.json (proofsToRaw proofs)) := by
    simp [fieldSpec]
  have hraw : ∀ k, get? vc.toRawJSON k =
      (fieldSpec env c proofs k).or ((get? custom k).map .json) := by
    intro k
    unfold Cred.toRawJSON
    rw [hpr]
    cases hps : proofs with
    | nil => simp only [List.isEmpty_nil, if_true]; rw [← hps]; exact hget k
    | cons p ps =>
      simp only [List.isEmpty_cons, Bool.false_eq_true, if_false, get?_set]
      by_cases hk : "proof" = k
      · subst hk
        simp [fieldSpec]
      · simp only [hk, if_false]; rw [← hps]; exact hget k
  have hno : ∀ k ∈ fieldNames, get? custom k = none := by
    intro k hk
    exact get?_eq_none_iff.mpr (fun hm => hc k hm hk)
  refine ⟨?_, ?_, ?_⟩
  · rw [← contents_roundtrip env law c hn proofs m hm]
    apply parse_congr
    intro k hk _
    rw [get?_wire, get?_wire, hraw, serialize_get env c proofs m hm, hno k hk]
    simp
  · intro k v hv
    have hk : k ∉ fieldNames := fun hk => by rw [hno k hk] at hv; cases hv
    have hf : fieldSpec env c proofs k = none := by
      simp only [fieldNames, List.mem_cons, List.not_mem_nil, or_false, not_or] at hk
      simp [fieldSpec, hk]
    have : get? (wireObj vc.toRawJSON) k = (get? vc.toRawJSON k).map GVal.wire := by
      unfold wireObj
      rw [GoMap.get?_map vc.toRawJSON (fun _ v => v.wire) k]
    rw [this, hraw, hf, hv]
    rfl
  · rw [at_wire, GObj.at, hraw, hproofSpec, hno "proof" (by simp [fieldNames])]
    cases hps : proofs with
    | nil => rfl
    | cons p ps => simpa [GVal.wire] using proofs_roundtrip (p :: ps)

/-- **C42 (limit).** An empty `type` array parses, but the contents then serialize to an object
without `type`, which does not parse: the hypotheses of `reparse` are needed. -/
theorem reparse_needs_types (raw : GObj) (b : Bool) (c : Contents env.T)
    (_h : parseContents env raw b = some c) (ht : c.types = []) (proofs : List JObj) (m : GObj)
    (hm : serializeContents env c proofs = some m) :
    parseContents env (ofWire (wireObj m)) b = none := by
  have e2 : decodeType (GObj.at (ofWire (wireObj m)) "type") = none := by
    rw [at_wire, GObj.at, serialize_get env c proofs m hm]
    simp [fieldSpec, ht, GVal.wire, decodeType]
  unfold parseContents
  rw [e2]
  cases parseTypedID (GObj.at (ofWire (wireObj m)) "credentialSchema") <;> rfl

/-! ## A concrete library and a concrete credential -/

/-- Unary times: enough to have a library satisfying every law.  `111Z` is second 3. -/
def unaryParse (s : String) : Option Int :=
  match s.toList.reverse with
  | 'Z' :: r =>
    if r = [] then none
    else
      match r.reverse with
      | '-' :: l => if l.all (· == '1') then some (-(l.length : Int)) else none
      | '+' :: l => if l.all (· == '1') then some l.length else none
      | _ => none
  | _ => none

/-- Printing for `unaryParse`. -/
def unaryFmt (n : Int) : String :=
  if n < 0 then String.ofList ('-' :: (List.replicate n.natAbs '1' ++ ['Z']))
  else String.ofList ('+' :: (List.replicate n.natAbs '1' ++ ['Z']))

/-- The concrete library. -/
def exCEnv : CEnv where
  T := Int
  parseT := unaryParse
  fmtT := unaryFmt
  unixT := id
  fmtUnix := unaryFmt
  upper := fun s => if s = "sha-256" then "SHA-256" else if s = "sha-384" then "SHA-384"
    else if s = "sha-512" then "SHA-512" else s
  sprint := fun _ => "?"

theorem exCEnv_lawful : exCEnv.Lawful :=
  ⟨by decide, by decide, by decide, by decide, by decide⟩

/-- Contents using most fields, in the V2 data model. -/
def exContents : Contents Int where
  context := [v2ContextURI, "https://example.org/ctx"]
  customContext := [.obj [("@vocab", .str "https://v")]]
  id := "urn:uuid:1"
  types := ["VerifiableCredential", "Degree"]
  subject := exSubjects
  issuer := some exIssuer
  issued := some ⟨3, ""⟩
  expired := some ⟨5, "+11111Z"⟩
  status := [⟨"https://s#1", "StatusList2021Entry", [("statusPurpose", .str "revocation")]⟩]
  schemas := [⟨"https://schema", "JsonSchema", []⟩]
  evidence := .arr [.obj [("type", .str "Doc")]]
  termsOfUse := []
  refreshService := some ⟨"https://r", "Manual", []⟩
  sdAlg := some .sha384
  relRes := [⟨"https://img", "sha256-abc", "", "image/png"⟩]

example : Normal exCEnv exContents where
  types := by decide
  ctx := .inl (by decide)
  custom := by
    intro j tl h s e
    simp only [exContents, List.cons.injEq] at h
    rw [← h.1] at e; cases e
  issuer := by
    intro i hi
    simp only [exContents, Option.some.injEq] at hi
    subst hi
    exact ⟨by decide, by simp [NoKey, keys, exIssuer]⟩
  subject := by simp [exContents, exSubjects, NoKey, keys]
  status := by simp [exContents, TypedID.Clean, NoKey, keys]
  schemas := by simp [exContents, TypedID.Clean, NoKey, keys]
  terms := by simp [exContents]
  refresh := by
    intro r hr
    simp only [exContents, Option.some.injEq] at hr
    subst hr
    simp [TypedID.Clean, NoKey, keys]
  issued := by
    intro w hw
    cases hw
    rfl
  expired := by
    intro w hw
    cases hw
    rfl

example : ((createCredential exCEnv exContents [("extra", .num 1)] []).bind
    (fun vc => get? vc.json "validFrom")).map GVal.wire = some (.str "+111Z") := rfl

/-- The two kinds of date texts of `exContents`. -/
example : DateText exCEnv ⟨(3 : Int), ""⟩ "+111Z" ∧ DateText exCEnv ⟨(5 : Int), "+11111Z"⟩ "+11111Z" ∧
    (parseTW exCEnv "+11111").map (·.str) = some "+11111" ∧ (serializeContents exCEnv exContents []).isSome = true :=
  ⟨.inr ⟨rfl, rfl⟩, .inl ⟨by decide, rfl⟩, rfl, rfl⟩

example : CustomNames [("extra", .num 1)] ∧ WF ([("extra", .num 1)] : JObj) :=
  ⟨by simp [CustomNames, keys, fieldNames], by simp [WF, keys]⟩

end VC.Vfy
