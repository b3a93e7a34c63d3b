import Verif.Verifiable.Fields
import Batteries.Data.List.Basic
/-!
# verifiable: field codecs — properties (C46, C58)
-/

namespace VC.Vfy

open GoMap

/-! ## Helpers -/

theorem get?_of_filter {α : Type _} (m : GoMap α) (p : String → Bool) (k : String) :
    get? (m.filter (fun x => p x.1)) k = if p k then get? m k else none :=
  GoMap.get?_filter_key m p k

theorem splitObj_snd {α : Type _} (flds : List String) (m : GoMap α) :
    (JsonUtil.splitObj flds m).2 = m.filter (fun p => !flds.contains p.1) := by
  induction m with
  | nil => rfl
  | cons p m ih =>
    obtain ⟨k, v⟩ := p
    simp only [JsonUtil.splitObj, List.filter_cons]
    by_cases h : flds.contains k = true
    · simp only [h, if_true, Bool.not_true, Bool.false_eq_true, if_false]; exact ih
    · simp only [h, Bool.not_false, if_true]; rw [ih]; simp

theorem splitObj_fst_get {α : Type _} (flds : List String) (m : GoMap α) (k : String)
    (hk : flds.contains k = true) : get? (JsonUtil.splitObj flds m).1 k = get? m k := by
  induction m with
  | nil => rfl
  | cons p m ih =>
    obtain ⟨k', v⟩ := p
    simp only [JsonUtil.splitObj]
    by_cases h : flds.contains k' = true
    · simp only [h, if_true, get?_cons, ih]
    · have hne : k' ≠ k := fun e => h (e ▸ hk)
      simp only [h, get?_cons, hne]; exact ih

theorem filter_set {α : Type _} (m : GoMap α) (k : String) (v : α) (p : String → Bool)
    (hp : p k = false) : (set m k v).filter (fun x => p x.1) = m.filter (fun x => p x.1) := by
  induction m with
  | nil => simp [GoMap.set, hp]
  | cons q m ih =>
    obtain ⟨k', v'⟩ := q
    by_cases h : k' = k
    · subst h; simp [GoMap.set, hp]
    · simp [GoMap.set, h, List.filter_cons, ih]

theorem filter_id {α : Type _} (m : GoMap α) (p : String → Bool)
    (h : ∀ k ∈ keys m, p k = true) : m.filter (fun x => p x.1) = m := by
  apply List.filter_eq_self.mpr
  intro x hx
  exact h x.1 (List.mem_map_of_mem hx)

theorem parseStringFld_of_get {o : JObj} {k s : String} (h : get? o k = some (.str s)) :
    parseStringFld o k = some s := by
  simp [parseStringFld, JObj.at, h]

theorem parseStringFld_absent {o : JObj} {k : String} (h : get? o k = none) :
    parseStringFld o k = some "" := by
  simp [parseStringFld, JObj.at, h]

theorem parseStringFld_congr {o o' : JObj} {k : String} (h : get? o k = get? o' k) :
    parseStringFld o k = parseStringFld o' k := by
  simp [parseStringFld, JObj.at, h]

theorem parseStringFld_split (flds : List String) (o : JObj) (k : String)
    (hk : flds.contains k = true) :
    parseStringFld (JsonUtil.splitObj flds o).1 k = parseStringFld o k :=
  parseStringFld_congr (splitObj_fst_get flds o k hk)

/-- `parseStringFld` answers exactly: the string under the key, "" for a missing or null field, an
error for anything else. -/
theorem parseStringFld_iff (o : JObj) (k s : String) :
    parseStringFld o k = some s ↔
      get? o k = some (.str s) ∨ (s = "" ∧ (get? o k = none ∨ get? o k = some .null)) := by
  unfold parseStringFld JObj.at
  cases h : get? o k with
  | none => simp [eq_comm]
  | some v => cases v <;> simp [eq_comm]

/-! ## C58: type and context -/

/-- The value is a JSON array of the strings `ts`, a `[]string`, or (for one type) the bare string:
the shapes a `type` field may have. -/
inductive TypeShape : GVal → List String → Prop
  | single (s : String) : TypeShape (.json (.str s)) [s]
  | array (ts : List String) : TypeShape (.json (.arr (ts.map .str))) ts
  | slice (ts : List String) : TypeShape (.strs ts) ts

theorem stringSlice_iff (l : List Json) (ts : List String) :
    stringSlice l = some ts ↔ l = ts.map .str := by
  induction l generalizing ts with
  | nil => cases ts <;> simp [stringSlice]
  | cons v l ih =>
    cases v <;> simp only [stringSlice, Option.map_eq_some_iff, reduceCtorEq, false_iff] <;>
      first
      | (cases ts <;> simp; done)
      | (cases ts with
         | nil => simp
         | cons t ts =>
           simp only [List.map_cons, List.cons.injEq, Json.str.injEq]
           constructor
           · rintro ⟨a, ha, rfl, rfl⟩
             exact ⟨rfl, (ih a).mp ha⟩
           · rintro ⟨rfl, h⟩
             exact ⟨ts, (ih ts).mpr h, rfl, rfl⟩)

/-- **C58.** `decodeType` accepts exactly a string, an array of strings or a string slice, and
returns the strings in order. -/
theorem decodeType_iff (v : GVal) (ts : List String) :
    decodeType v = some ts ↔ TypeShape v ts := by
  constructor
  · intro h
    cases v with
    | json j =>
      cases j <;> simp only [decodeType, Option.some.injEq, reduceCtorEq] at h
      · subst h; exact .single _
      · rw [(stringSlice_iff _ _).mp h]; exact .array ts
    | strs l =>
      simp only [decodeType, Option.some.injEq] at h
      subst h; exact .slice l
    | objs _ => simp [decodeType] at h
    | rrs _ => simp [decodeType] at h
  · intro h
    cases h with
    | single s => rfl
    | array => exact (stringSlice_iff _ _).mpr rfl
    | slice => rfl

example : decodeType (.json (.arr [.str "VerifiableCredential", .str "Degree"])) =
    some ["VerifiableCredential", "Degree"] := rfl
example : decodeType (.json (.arr [.str "VerifiableCredential", .num 1])) = none := rfl
example : decodeType (.json .null) = none := rfl

/-- **C58.** Types survive serialization. -/
theorem decodeType_serializeTypes (ts : List String) :
    decodeType (.json (serializeTypes ts)) = some ts := by
  rw [decodeType_iff]
  match ts with
  | [] => exact .array []
  | [t] => exact .single t
  | a :: b :: l => exact .array (a :: b :: l)

example : serializeTypes ["A", "B"] = .arr [.str "A", .str "B"] := rfl
example : serializeTypes ["A"] = .str "A" := rfl

/-- `j` is not a string. -/
def NotStr (j : Json) : Prop := ∀ s, j ≠ .str s

theorem splitContext_spec (l : List Json) :
    (splitContext l).1.map .str ++ (splitContext l).2 = l ∧
    (∀ j rest, (splitContext l).2 = j :: rest → NotStr j) := by
  induction l with
  | nil => exact ⟨rfl, by intro j rest h; simp [splitContext] at h⟩
  | cons v l ih =>
    cases v with
    | str s =>
      refine ⟨?_, ?_⟩
      · simp only [splitContext, List.map_cons, List.cons_append, ih.1]
      · intro j rest h; exact ih.2 j rest (by simpa only [splitContext] using h)
    | _ =>
      refine ⟨rfl, ?_⟩
      intro j rest h
      simp only [splitContext, List.cons.injEq] at h
      intro s e
      rw [← h.1] at e
      cases e

theorem splitContext_unique {l : List Json} {cs : List String} {rest : List Json}
    (he : cs.map .str ++ rest = l) (hr : ∀ j tl, rest = j :: tl → NotStr j) :
    splitContext l = (cs, rest) := by
  induction cs generalizing l with
  | nil =>
    simp only [List.map_nil, List.nil_append] at he
    subst he
    cases rest with
    | nil => rfl
    | cons j tl =>
      have := hr j tl rfl
      cases j with
      | str s => exact absurd rfl (this s)
      | _ => rfl
  | cons c cs ih =>
    subst he
    simp only [List.map_cons, List.cons_append, splitContext, ih rfl]

/-- **C58.** On an array, `decodeContext` returns the leading strings and the rest of the array:
nothing is lost or reordered, and the rest starts at the first non-string. -/
theorem decodeContext_array_iff (l : List Json) (cs : List String) (rest : List Json) :
    decodeContext (.json (.arr l)) = some (cs, rest) ↔
      l = cs.map .str ++ rest ∧ (∀ j tl, rest = j :: tl → NotStr j) := by
  simp only [decodeContext, Option.some.injEq]
  constructor
  · intro h
    have := splitContext_spec l
    rw [h] at this
    exact ⟨this.1.symm, this.2⟩
  · rintro ⟨rfl, hr⟩
    exact splitContext_unique rfl hr

example : decodeContext (.json (.arr [.str "a", .obj [], .str "b"])) =
    some (["a"], [.obj [], .str "b"]) := rfl

/-- **C58.** Every accepted `@context` is a string, a string slice or an array; the decoded parts
put together give the contexts back. -/
theorem decodeContext_complete (v : GVal) (cs : List String) (rest : List Json)
    (h : decodeContext v = some (cs, rest)) :
    (v.wire = .arr (cs.map .str ++ rest)) ∨
    (∃ s, v = .json (.str s) ∧ cs = [s] ∧ rest = []) := by
  cases v with
  | json j =>
    cases j with
    | str s =>
      simp only [decodeContext, Option.some.injEq, Prod.mk.injEq] at h
      exact .inr ⟨s, rfl, h.1.symm, h.2.symm⟩
    | arr l =>
      left
      have := ((decodeContext_array_iff l cs rest).mp h).1
      simp [GVal.wire, this]
    | _ => simp [decodeContext] at h
  | strs l =>
    simp only [decodeContext, Option.some.injEq, Prod.mk.injEq] at h
    left; obtain ⟨rfl, rfl⟩ := h
    simp [GVal.wire]
  | objs _ => simp [decodeContext] at h
  | rrs _ => simp [decodeContext] at h

example : decodeContext (.strs ["a"]) = some (["a"], []) := rfl

/-- **C58.** Contexts survive serialization, provided the custom part starts with a non-string (as
every decoded one does). -/
theorem decodeContext_contextToRaw (cs : List String) (rest : List Json)
    (hr : ∀ j tl, rest = j :: tl → NotStr j) :
    decodeContext (.json (.arr (contextToRaw cs rest))) = some (cs, rest) :=
  (decodeContext_array_iff _ _ _).mpr ⟨rfl, hr⟩

example : decodeContext (.json (.arr (contextToRaw ["x"] [.obj [("a", .str "b")]]))) =
    some (["x"], [.obj [("a", .str "b")]]) := rfl

/-- **C58 (limit).** A custom context that starts with a string is re-read as an ordinary
context. -/
theorem contextToRaw_not_injective :
    decodeContext (.json (.arr (contextToRaw ["x"] [.str "y", .obj []]))) =
      some (["x", "y"], [.obj []]) := rfl

/-! ## C46: issuer -/

/-- The part of a codec that is common to issuer and subject: custom fields that do not use the key
`id`. -/
def NoKey (k : String) (m : JObj) : Prop := k ∉ keys m

theorem parse_id_set (m : JObj) (s : String) :
    parseStringFld (JsonUtil.splitObj ["id"] (set m "id" (.str s))).1 "id" = some s := by
  rw [parseStringFld_split _ _ _ (by decide)]
  exact parseStringFld_of_get (by simp)

theorem split_id_set (m : JObj) (v : Json) (h : NoKey "id" m) :
    (JsonUtil.splitObj ["id"] (set m "id" v)).2 = m := by
  rw [splitObj_snd]
  rw [filter_set m "id" v (fun k => !["id"].contains k) (by decide)]
  apply filter_id m (fun k => !["id"].contains k)
  intro k hk
  have : k ≠ "id" := fun e => h (e ▸ hk)
  simp [this]

/-- **C46.** An issuer with an id survives `IssuerToJSON` and `IssuerFromJSON`. -/
theorem issuer_roundtrip (i : Issuer) (hid : i.id ≠ "") (hc : NoKey "id" i.custom) :
    issuerFromJSON (issuerToJSON i) = some i := by
  obtain ⟨id, c⟩ := i
  have hid' : id ≠ "" := hid
  simp only [issuerToJSON, hid', ne_eq, not_false_eq_true, if_true, issuerFromJSON]
  rw [parse_id_set]
  simp only [Option.bind_eq_bind, Option.bind_some, hid', if_false, split_id_set c _ hc]

/-- **C46.** Without an id the object is rejected: nothing is invented. -/
theorem issuerFromJSON_needs_id (o : JObj) (i : Issuer) (h : issuerFromJSON o = some i) :
    i.id ≠ "" ∧ get? o "id" = some (.str i.id) ∧
    (∀ k, get? i.custom k = if k = "id" then none else get? o k) := by
  simp only [issuerFromJSON] at h
  rw [parseStringFld_split _ _ _ (by decide)] at h
  cases hp : parseStringFld o "id" with
  | none => simp [hp] at h
  | some s =>
    simp only [hp, Option.bind_eq_bind, Option.bind_some] at h
    by_cases hs : s = ""
    · simp [hs] at h
    · simp only [hs, if_false, Option.some.injEq] at h
      subst h
      refine ⟨hs, ?_, ?_⟩
      · rcases (parseStringFld_iff _ _ _).mp hp with h | h
        · exact h
        · exact absurd h.1 hs
      · intro k
        rw [splitObj_snd]
        rw [get?_of_filter o (fun k => !["id"].contains k) k]
        by_cases hk : k = "id" <;> simp [hk]

/-- **C46.** The two written forms of an issuer — the bare id without custom fields, the object with
them — are read back as the same issuer. -/
theorem parseIssuer_serializeIssuer (i : Issuer) (hid : i.id ≠ "") (hc : NoKey "id" i.custom) :
    parseIssuer (.json (serializeIssuer i)) = some (some i) := by
  unfold serializeIssuer
  by_cases he : i.custom.isEmpty = true
  · obtain ⟨id, c⟩ := i
    have hid' : id ≠ "" := hid
    have hc' : c = [] := List.isEmpty_iff.mp he
    subst hc'
    simp [parseIssuer, hid']
  · simp only [he, Bool.false_eq_true, if_false, parseIssuer, issuer_roundtrip i hid hc,
      Option.map_some]

/-- A named issuer. -/
def exIssuer : Issuer := ⟨"did:example:acme", [("name", .str "Acme")]⟩

example : exIssuer.id ≠ "" ∧ NoKey "id" exIssuer.custom ∧
    serializeIssuer exIssuer = .obj [("name", .str "Acme"), ("id", .str "did:example:acme")] :=
  ⟨by decide, by simp [NoKey, keys, exIssuer], rfl⟩

/-- The two forms differ only in shape: a bare id is read as an issuer without custom fields, and is
never empty. -/
theorem parseIssuer_string (s : String) (i : Option Issuer) :
    parseIssuer (.json (.str s)) = some i ↔ s ≠ "" ∧ i = some ⟨s, []⟩ := by
  by_cases h : s = "" <;> simp [parseIssuer, h, eq_comm]

/-! ## C46: subject -/

/-- **C46.** A subject survives `SubjectToJSON` and `SubjectFromJSON`, with or without id. -/
theorem subject_roundtrip (s : Subject) (hc : NoKey "id" s.custom) :
    subjectFromJSON (subjectToJSON s) = some s := by
  obtain ⟨id, c⟩ := s
  by_cases hid : id = ""
  · subst hid
    simp only [subjectToJSON, ne_eq, not_true_eq_false, if_false, subjectFromJSON]
    rw [parseStringFld_split _ _ _ (by decide)]
    have hn : get? c "id" = none := get?_eq_none_iff.mpr hc
    rw [parseStringFld_absent hn]
    have : (JsonUtil.splitObj ["id"] c).2 = c := by
      rw [splitObj_snd]
      apply filter_id c (fun k => !["id"].contains k)
      intro k hk
      have : k ≠ "id" := fun e => hc (e ▸ hk)
      simp [this]
    simp [this]
  · simp only [subjectToJSON, hid, ne_eq, not_false_eq_true, if_true, subjectFromJSON]
    rw [parse_id_set]
    simp [split_id_set c _ hc]

/-- What a parsed subject contains. -/
theorem subjectFromJSON_spec (o : JObj) (s : Subject) (h : subjectFromJSON o = some s) :
    (get? o "id" = some (.str s.id) ∨
      (s.id = "" ∧ (get? o "id" = none ∨ get? o "id" = some .null))) ∧
    (∀ k, get? s.custom k = if k = "id" then none else get? o k) := by
  simp only [subjectFromJSON] at h
  rw [parseStringFld_split _ _ _ (by decide)] at h
  cases hp : parseStringFld o "id" with
  | none => simp [hp] at h
  | some t =>
    simp only [hp, Option.bind_eq_bind, Option.bind_some, Option.pure_def,
      Option.some.injEq] at h
    subst h
    refine ⟨(parseStringFld_iff _ _ _).mp hp, ?_⟩
    intro k
    rw [splitObj_snd, get?_of_filter o (fun k => !["id"].contains k) k]
    by_cases hk : k = "id" <;> simp [hk]

theorem parseSubjects_map (ss : List Subject) (hc : ∀ s ∈ ss, NoKey "id" s.custom) :
    parseSubjects (ss.map (fun s => .obj (subjectToJSON s))) = some ss := by
  induction ss with
  | nil => rfl
  | cons s ss ih =>
    simp only [List.map_cons, parseSubjects, subject_roundtrip s (hc s (by simp)),
      ih (fun t ht => hc t (by simp [ht])), Option.bind_eq_bind, Option.bind_some, Option.pure_def]

/-- **C46.** Any number of subjects survives `SerializeSubject`, JSON and `parseSubject`. -/
theorem subjects_roundtrip (ss : List Subject) (hc : ∀ s ∈ ss, NoKey "id" s.custom) :
    parseSubject (.json (serializeSubject ss).wire) = some ss := by
  match ss, hc with
  | [], _ => rfl
  | [s], hc =>
    simp only [serializeSubject, GVal.wire, parseSubject, subject_roundtrip s (hc s (by simp)),
      Option.map_some]
  | a :: b :: l, hc =>
    have := parseSubjects_map (a :: b :: l) hc
    simp only [serializeSubject, GVal.wire, parseSubject, List.map_map]
    exact this

/-- Two subjects. -/
def exSubjects : List Subject :=
  [⟨"did:example:alice", [("degree", .str "BSc")]⟩, ⟨"", [("name", .str "Bob")]⟩]

example : (∀ s ∈ exSubjects, NoKey "id" s.custom) ∧
    (serializeSubject exSubjects).wire =
      .arr [.obj [("degree", .str "BSc"), ("id", .str "did:example:alice")],
            .obj [("name", .str "Bob")]] :=
  ⟨by simp [exSubjects, NoKey, keys], rfl⟩

/-- **C46 (violated in memory).** The object `SerializeSubject` builds for two or more subjects is a
`[]map[string]interface{}`, which `parseSubject` rejects: a credential created in memory with several
subjects cannot be parsed from its own object unless it first goes through JSON bytes. -/
theorem subjects_roundtrip_in_memory_fails (a b : Subject) (l : List Subject) :
    parseSubject (serializeSubject (a :: b :: l)) = none := rfl

/-- One subject does survive in memory. -/
theorem subject_roundtrip_in_memory (s : Subject) (hc : NoKey "id" s.custom) :
    parseSubject (serializeSubject [s]) = some [s] := by
  simp only [serializeSubject, parseSubject, subject_roundtrip s hc, Option.map_some]

/-! ## Typed ids -/

theorem typedID_roundtrip (t : TypedID) (h1 : NoKey "id" t.custom) (h2 : NoKey "type" t.custom) :
    parseTypedIDObj (serializeTypedIDObj t) = some t := by
  obtain ⟨id, ty, c⟩ := t
  simp only [serializeTypedIDObj, parseTypedIDObj]
  rw [parseStringFld_split _ _ "id" (by decide), parseStringFld_split _ _ "type" (by decide)]
  have hid : get? (set (set c "id" (.str id)) "type" (.str ty)) "id" = some (.str id) := by
    rw [get?_set_ne _ _ (by decide)]; simp
  rw [parseStringFld_of_get hid, parseStringFld_of_get (get?_set_self _ _ _)]
  have : (JsonUtil.splitObj ["id", "type"] (set (set c "id" (.str id)) "type" (.str ty))).2 = c := by
    rw [splitObj_snd]
    rw [filter_set _ "type" _ (fun k => !["id", "type"].contains k) (by decide)]
    rw [filter_set _ "id" _ (fun k => !["id", "type"].contains k) (by decide)]
    apply filter_id c (fun k => !["id", "type"].contains k)
    intro k hk
    have e1 : k ≠ "id" := fun e => h1 (e ▸ hk)
    have e2 : k ≠ "type" := fun e => h2 (e ▸ hk)
    simp [e1, e2]
  simp [this]

/-- Custom fields of a typed id that use neither `id` nor `type`. -/
def TypedID.Clean (t : TypedID) : Prop := NoKey "id" t.custom ∧ NoKey "type" t.custom

theorem parseTypedIDObj_clean {o : JObj} {t : TypedID} (h : parseTypedIDObj o = some t) :
    t.Clean := by
  simp only [parseTypedIDObj, Option.bind_eq_bind, Option.pure_def] at h
  cases h1 : parseStringFld (JsonUtil.splitObj ["id", "type"] o).1 "id" with
  | none => simp [h1] at h
  | some a =>
    cases h2 : parseStringFld (JsonUtil.splitObj ["id", "type"] o).1 "type" with
    | none => simp [h1, h2] at h
    | some b =>
      simp only [h1, h2, Option.bind_some, Option.some.injEq] at h
      subst h
      constructor <;>
      · simp only [NoKey]
        rw [← get?_eq_none_iff, splitObj_snd, get?_of_filter o (fun k => !["id", "type"].contains k)]
        simp

theorem parseTypedIDs_map (ts : List TypedID) (hc : ∀ t ∈ ts, t.Clean) :
    parseTypedIDs (ts.map (fun t => .obj (serializeTypedIDObj t))) = some ts := by
  induction ts with
  | nil => rfl
  | cons t ts ih =>
    have h := hc t (by simp)
    simp only [List.map_cons, parseTypedIDs, typedID_roundtrip t h.1 h.2,
      ih (fun t ht => hc t (by simp [ht])), Option.bind_eq_bind, Option.bind_some, Option.pure_def]

theorem parseTypedIDs_clean {l : List Json} {ts : List TypedID} (h : parseTypedIDs l = some ts) :
    ∀ t ∈ ts, t.Clean := by
  induction l generalizing ts with
  | nil => simp only [parseTypedIDs, Option.some.injEq] at h; subst h; simp
  | cons v l ih =>
    cases v with
    | obj o =>
      simp only [parseTypedIDs, Option.bind_eq_bind, Option.pure_def] at h
      cases h1 : parseTypedIDObj o with
      | none => simp [h1] at h
      | some t =>
        cases h2 : parseTypedIDs l with
        | none => simp [h1, h2] at h
        | some ts' =>
          simp only [h1, h2, Option.bind_some, Option.some.injEq] at h
          subst h
          intro t' ht'
          rcases List.mem_cons.mp ht' with e | e
          · rw [e]; exact parseTypedIDObj_clean h1
          · exact ih h2 t' e
    | _ => simp [parseTypedIDs] at h

theorem parseTypedID_clean {v : GVal} {ts : List TypedID} (h : parseTypedID v = some ts) :
    ∀ t ∈ ts, t.Clean := by
  cases v with
  | json j =>
    cases j with
    | null => simp only [parseTypedID, Option.some.injEq] at h; subst h; simp
    | obj o =>
      simp only [parseTypedID, Option.map_eq_some_iff] at h
      obtain ⟨t, ht, rfl⟩ := h
      intro t' ht'
      simp only [List.mem_singleton] at ht'
      rw [ht']; exact parseTypedIDObj_clean ht
    | arr l => exact parseTypedIDs_clean h
    | _ => simp [parseTypedID] at h
  | _ => simp [parseTypedID] at h

theorem newTypedIDArray_clean {v : GVal} {ts : List TypedID} (h : newTypedIDArray v = some ts) :
    ∀ t ∈ ts, t.Clean := by
  cases v with
  | json j =>
    cases j with
    | null => simp only [newTypedIDArray, Option.some.injEq] at h; subst h; simp
    | obj o =>
      simp only [newTypedIDArray, Option.map_eq_some_iff] at h
      obtain ⟨t, ht, rfl⟩ := h
      intro t' ht'
      simp only [List.mem_singleton] at ht'
      rw [ht']; exact parseTypedIDObj_clean ht
    | arr l => exact parseTypedIDs_clean h
    | _ => simp [newTypedIDArray] at h
  | objs l => exact parseTypedIDs_clean h
  | _ => simp [newTypedIDArray] at h

/-- **C42.** Lists of typed ids (schemas, terms of use) survive serialization. -/
theorem typedIDs_roundtrip (ts : List TypedID) (hne : ts ≠ []) (hc : ∀ t ∈ ts, t.Clean) :
    parseTypedID (.json (typedIDsToRaw ts).wire) = some ts := by
  match ts, hc with
  | [], _ => exact absurd rfl hne
  | [t], hc =>
    have h := hc t (by simp)
    simp only [typedIDsToRaw, GVal.wire, parseTypedID, typedID_roundtrip t h.1 h.2, Option.map_some]
  | a :: b :: l, hc =>
    have := parseTypedIDs_map (a :: b :: l) hc
    simp only [typedIDsToRaw, GVal.wire, parseTypedID, List.map_map]
    exact this

example : parseTypedID (.json (typedIDsToRaw
    [⟨"https://x", "JsonSchema", []⟩, ⟨"https://y", "T", [("k", .num 1)]⟩]).wire) =
    some [⟨"https://x", "JsonSchema", []⟩, ⟨"https://y", "T", [("k", .num 1)]⟩] := rfl

/-! ## Proofs -/

theorem parseLDProofs_iff (l : List Json) (ps : List JObj) :
    parseLDProofs l = some ps ↔ l = ps.map .obj := by
  induction l generalizing ps with
  | nil => cases ps <;> simp [parseLDProofs]
  | cons v l ih =>
    cases v with
    | obj o =>
      cases ps with
      | nil => simp [parseLDProofs]
      | cons p ps =>
        simp only [parseLDProofs, Option.map_eq_some_iff, List.map_cons, List.cons.injEq,
          Json.obj.injEq]
        constructor
        · rintro ⟨a, ha, rfl, rfl⟩; exact ⟨rfl, (ih a).mp ha⟩
        · rintro ⟨rfl, h⟩; exact ⟨ps, (ih ps).mpr h, rfl, rfl⟩
    | _ => cases ps <;> simp [parseLDProofs]

/-- Proof lists survive `proofsToRaw` and `parseLDProof`, for every number of proofs. -/
theorem proofs_roundtrip (ps : List JObj) : parseLDProof (.json (proofsToRaw ps)) = some ps := by
  match ps with
  | [] => rfl
  | [p] => rfl
  | a :: b :: l => exact (parseLDProofs_iff _ _).mpr rfl

example : proofsToRaw [[("type", .str "x")], []] = .arr [.obj [("type", .str "x")], .obj []] := rfl

/-- A `proof` value is accepted exactly when it is absent, one object, or an array of objects. -/
theorem parseLDProof_iff (j : Json) (ps : List JObj) :
    parseLDProof (.json j) = some ps ↔
      (j = .null ∧ ps = []) ∨ (∃ o, j = .obj o ∧ ps = [o]) ∨ j = .arr (ps.map .obj) := by
  cases j with
  | null => simp [parseLDProof, eq_comm]
  | obj o => simp [parseLDProof, eq_comm]
  | arr l => simp [parseLDProof, parseLDProofs_iff]
  | _ => simp [parseLDProof]

/-! ## Related resources -/

theorem relRes_toJson_get (r : RelRes) :
    stringify sp (JObj.at r.toJson "id") = r.id ∧
    stringify sp (JObj.at r.toJson "digestSRI") = r.digestSRI ∧
    stringify sp (JObj.at r.toJson "digestMultibase") = r.digestMultibase ∧
    stringify sp (JObj.at r.toJson "mediaType") = r.mediaType := by
  obtain ⟨a, b, c, d⟩ := r
  by_cases h1 : a = "" <;> by_cases h2 : b = "" <;> by_cases h3 : c = "" <;> by_cases h4 : d = "" <;>
    simp [RelRes.toJson, h1, h2, h3, h4, JObj.at, get?, stringify]

theorem relRes_roundtrip (sp : Json → String) (rs : List RelRes) :
    parseRelatedResources sp (.json (GVal.rrs rs).wire) = some rs := by
  simp only [GVal.wire, parseRelatedResources]
  induction rs with
  | nil => rfl
  | cons r rs ih =>
    obtain ⟨h1, h2, h3, h4⟩ := relRes_toJson_get (sp := sp) r
    simp only [List.map_cons, parseRelRess, ih, Option.map_some, h1, h2, h3, h4]

example : (RelRes.mk "https://r" "sha256-x" "" "image/png").toJson =
    [("id", .str "https://r"), ("digestSRI", .str "sha256-x"), ("mediaType", .str "image/png")] :=
  rfl

/-- A credential has a subject id exactly when it has one subject and that has a non-empty id. -/
theorem subjectID_iff (ss : List Subject) (id : String) :
    subjectID ss = some id ↔ ∃ custom, ss = [⟨id, custom⟩] ∧ id ≠ "" := by
  match ss with
  | [] => simp [subjectID]
  | [⟨i, c⟩] =>
    by_cases h : i = ""
    · simp only [subjectID, h, if_true, reduceCtorEq, false_iff, not_exists, not_and, ne_eq]
      intro c' e; cases e; simp
    · simp only [subjectID, h, if_false, Option.some.injEq, List.cons.injEq, Subject.mk.injEq, and_true]
      constructor
      · rintro rfl; exact ⟨c, ⟨rfl, rfl⟩, h⟩
      · rintro ⟨_, ⟨rfl, _⟩, _⟩; rfl
  | _ :: _ :: _ => simp [subjectID]

example : subjectID [⟨"did:example:s", []⟩] = some "did:example:s" := rfl

/-- The forms of `credentialSubject`: absent, an id, an object, an array of objects; nothing else. -/
theorem parseSubject_forms (v : Json) (ss : List Subject) :
    parseSubject (.json v) = some ss ↔
      (v = .null ∧ ss = []) ∨ (∃ s, v = .str s ∧ ss = [⟨s, []⟩]) ∨
      (∃ o s, v = .obj o ∧ subjectFromJSON o = some s ∧ ss = [s]) ∨
      (∃ os : List JObj, v = .arr (os.map .obj) ∧
        List.Forall₂ (fun o s => subjectFromJSON o = some s) os ss) := by
  have harr : ∀ (l : List Json) (ss : List Subject), parseSubjects l = some ss ↔
      ∃ os : List JObj, l = os.map .obj ∧
        List.Forall₂ (fun o s => subjectFromJSON o = some s) os ss := by
    intro l
    induction l with
    | nil =>
      intro ss
      simp only [parseSubjects, Option.some.injEq]
      constructor
      · rintro rfl; exact ⟨[], rfl, .nil⟩
      · rintro ⟨os, e, h⟩
        have : os = [] := by simpa using e.symm
        subst this; cases h; rfl
    | cons j l ih =>
      intro ss
      constructor
      · intro h
        cases j with
        | obj o =>
          simp only [parseSubjects, Option.bind_eq_bind, Option.bind_eq_some_iff, Option.pure_def,
            Option.some.injEq] at h
          obtain ⟨s, h1, ts, h2, rfl⟩ := h
          obtain ⟨os, rfl, h3⟩ := (ih ts).mp h2
          exact ⟨o :: os, rfl, .cons h1 h3⟩
        | _ => simp [parseSubjects] at h
      · rintro ⟨os, e, h⟩
        cases os with
        | nil => simp at e
        | cons o os =>
          simp only [List.map_cons, List.cons.injEq] at e
          obtain ⟨rfl, rfl⟩ := e
          cases h with
          | cons h1 h2 =>
            have := (ih _).mpr ⟨os, rfl, h2⟩
            simp [parseSubjects, h1, this]
  cases v with
  | arr l =>
    simp only [parseSubject, harr]
    constructor
    · rintro ⟨os, rfl, h⟩; exact .inr (.inr (.inr ⟨os, rfl, h⟩))
    · rintro (⟨h, -⟩ | ⟨_, h, -⟩ | ⟨_, _, h, -⟩ | ⟨os, e, h⟩)
      · cases h
      · cases h
      · cases h
      · cases e; exact ⟨os, rfl, h⟩
  | null => simp [parseSubject, eq_comm]
  | bool b => simp [parseSubject]
  | num q => simp [parseSubject]
  | str s => simp [parseSubject, eq_comm]
  | obj o =>
    simp only [parseSubject, Option.map_eq_some_iff, reduceCtorEq, false_and, exists_const,
      Json.obj.injEq, false_or, or_false]
    constructor
    · rintro ⟨s, h, rfl⟩; exact ⟨o, s, rfl, h, rfl⟩
    · rintro ⟨_, s, rfl, h, rfl⟩; exact ⟨s, h, rfl⟩

end VC.Vfy
