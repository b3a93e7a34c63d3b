import Verif.Presexch.EndToEndMain
/-!
# presexch: examples and witnesses for C101

`et*`: a holder with three credentials, and a verifier whose path library satisfies `PathLib`.
-/

namespace VC.PE

/-! ## A path library -/

/-- The item of `l` whose index makes the path `pre ++ index ++ "]"`. -/
def etPick (pre : String) (l : List Json) (p : String) : Option Json :=
  match (List.range l.length).find? (fun i => p == pre ++ toString i ++ "]") with
  | some i => l[i]?
  | none => none

/-- Items of the array of credentials in an object. -/
def etItems (pre : String) (o : JObj) (p : String) : Option Json :=
  match GoMap.get? o "verifiableCredential" with
  | some (.arr l) => etPick pre l p
  | _ => none

/-- A path library for the paths of submissions. -/
def etSel (v : Json) (p : String) : Option Json :=
  if p = "$" then some v
  else
    match v with
    | .arr l => etPick "$[" l p
    | .obj o =>
      match etItems "$.verifiableCredential[" o p with
      | some r => some r
      | none =>
        match GoMap.get? o "vp" with
        | some (.obj o') => etItems "$.vp.verifiableCredential[" o' p
        | _ => none
    | _ => none

theorem toString_inj {i j : Nat} (h : toString i = toString j) : i = j := by
  have h : (toString i).toList = (toString j).toList := by rw [h]
  rw [Nat.toString_eq_repr, Nat.toList_repr, Nat.toString_eq_repr, Nat.toList_repr] at h
  rw [← Nat.ofDigitChars_ten_toDigits (n := i), h, Nat.ofDigitChars_ten_toDigits]

theorem etPath_inj {pre : String} {i j : Nat} (h : pre ++ toString i ++ "]" = pre ++ toString j ++ "]") : i = j := by
  apply toString_inj
  have h := congrArg String.toList h
  simp only [String.toList_append, List.append_assoc, List.append_cancel_left_eq] at h
  exact String.toList_injective (List.append_cancel_right h)

theorem etPick_spec (pre : String) (l : List Json) (i : Nat) : etPick pre l (pre ++ toString i ++ "]") = l[i]? := by
  unfold etPick
  split
  · next j hj =>
    have := List.find?_some hj
    rw [etPath_inj (beq_iff_eq.mp this)]
  · next hn =>
    by_cases hi : i < l.length
    · have := List.find?_eq_none.mp hn i (List.mem_range.mpr hi)
      simp at this
    · rw [List.getElem?_eq_none (by omega)]

theorem etPick_other {pre p : String} (h : ∀ i : Nat, p ≠ pre ++ toString i ++ "]") (l : List Json) :
    etPick pre l p = none := by
  unfold etPick
  split
  · next j hj =>
    have h0 : (p == pre ++ toString j ++ "]") = true := List.find?_some (p := fun i => p == pre ++ toString i ++ "]") hj
    exact absurd (beq_iff_eq.mp h0) (h j)
  · rfl

theorem etSel_lib : PathLib etSel := by
  have ne : ∀ (pre : String) (c : Char) (r : List Char) (i : Nat), pre.toList = '$' :: c :: r →
      pre ++ toString i ++ "]" ≠ "$" := by
    intro pre c r i h e
    have := congrArg String.toList e
    simp [String.toList_append, h] at this
  have d1 : ∀ i j : Nat, "$.verifiableCredential[" ++ toString i ++ "]" ≠
      "$.vp.verifiableCredential[" ++ toString j ++ "]" := by
    intro i j h
    have h := congrArg (fun s => s.toList[3]?) h
    simp [String.toList_append] at h
  constructor
  · intro v; simp [etSel]
  · intro o l i h
    have hne := ne "$.verifiableCredential[" '.' _ i rfl
    simp only [etSel, if_neg hne, etItems, h, etPick_spec]
    cases hl : l[i]? with
    | some j => rfl
    | none =>
      dsimp only
      cases GoMap.get? o "vp" with
      | none => rfl
      | some x =>
        cases x with
        | obj o' =>
          dsimp only
          split
          · exact etPick_other (d1 i) _
          · rfl
        | null => rfl
        | bool b => rfl
        | num q => rfl
        | str s => rfl
        | arr l => rfl
  · intro o i h
    have hne := ne "$.verifiableCredential[" '.' _ i rfl
    simp only [etSel, if_neg hne, etItems, h]
    cases GoMap.get? o "vp" with
    | none => rfl
    | some x =>
      cases x with
      | obj o' =>
        dsimp only
        split
        · exact etPick_other (d1 i) _
        · rfl
      | null => rfl
      | bool b => rfl
      | num q => rfl
      | str s => rfl
      | arr l => rfl
  · intro o o' l i h h'
    have hne := ne "$.vp.verifiableCredential[" '.' _ i rfl
    have h0 : etItems "$.verifiableCredential[" o ("$.vp.verifiableCredential[" ++ toString i ++ "]") = none := by
      unfold etItems
      split
      · exact etPick_other (fun j => (d1 j i).symm) _
      · rfl
    simp only [etSel, if_neg hne, h0, h]
    simp only [etItems, h', etPick_spec]
  · intro l i
    have hne := ne "$[" '[' _ i rfl
    simp only [etSel, if_neg hne, etPick_spec]

/-! ## The parties -/

/-- The context of version 1 credentials, in which `Degree` and `Licence` are known types. -/
def etMEnv : MEnv := { pcEnv with
  fold := id
  load := fun ctx => if ctx = "https://www.w3.org/2018/credentials/v1" then
    some (fun t => if t = "Degree" then ["urn:Degree"] else if t = "Licence" then ["urn:Licence"] else []) else none }

/-- A credential with an ID, a type and a name. -/
def etCred (id typ name : String) : Cred :=
  ⟨id, ["https://www.w3.org/2018/credentials/v1"], [typ], some "did:i", ["did:s"], false, none,
    ["Ed25519Signature2018"], false, false, some [("name", .str name)]⟩

/-- The holder's wallet. -/
def etWallet : List Cred := [etCred "c1" "Degree" "Ann", etCred "c2" "Licence" "Ann", etCred "c3" "Degree" "Ann"]

/-- The holder; `derive` is what a predicate makes of a credential: the value becomes `true`. -/
def etHolder : HolderEnv := { etMEnv with
  derive := fun _ c => some { c with display := some [("name", .bool true)] }
  restrict := fun _ c => some c
  tmp := fun d n i => i ++ "tmp" ++ d ++ toString n
  sortKeys := id
  sortMaps := id
  uuid := fun n => "urn:uuid:" ++ toString n }

/-- The form of a credential that is sent: its three distinguishing strings. -/
def etForm (c : Cred) : Json := .arr [.str c.id, .arr (c.types.map .str),
  ((c.display.bind (fun m => GoMap.get? m "name")).getD .null)]

/-- The verifier. -/
def etVerifier : MatchEnv := { etMEnv with
  selectPath := etSel
  parseCred := fun v => match v with
    | .arr [.str i, .arr [.str t], n] => some { etCred i t "" with display := some [("name", n)] }
    | _ => none }

/-- Reading back what was sent. -/
def etRead (c : Cred) : Option Cred := etVerifier.parseCred (etForm c)

/-- The presentation as the verifier gets it: as JSON, or as the claims of a JWT. -/
def etSend (jwt : Bool) (made : Created) (os : List MapOut) : VP :=
  ⟨made.id, made.contexts, made.types,
    some (if jwt then .obj [("iss", .str "did:s"), ("vp", .obj [("verifiableCredential", .arr (made.creds.map etForm))])]
      else .obj [("verifiableCredential", .arr (made.creds.map etForm))]),
    submissionMappings (encodeSubmission "urn:uuid:s" "pd" os)⟩

theorem etSend_sent (jwt : Bool) (made : Created) (os : List MapOut) :
    Sent etVerifier.parseCred etRead jwt made (etSend jwt made os) := by
  refine ⟨rfl, fun _ h => h, fun _ h => h, _, rfl, ?_⟩
  have hf : List.Forall₂ (fun c j => etVerifier.parseCred j = etRead c) made.creds (made.creds.map etForm) := by
    rw [List.forall₂_map_right_iff, List.forall₂_same]
    exact fun _ _ => rfl
  cases jwt
  · exact .plain rfl hf
  · exact .jwt rfl rfl rfl hf

theorem et_faithful : Faithful etHolder etVerifier etRead etWallet := by
  refine ⟨rfl, etSel_lib, fun _ => .refl _, fun _ => .refl _, ?_, ?_, ?_⟩
  · intro c hc
    simp only [etWallet, List.mem_cons, List.not_mem_nil, or_false] at hc
    rcases hc with rfl | rfl | rfl <;> exact ⟨_, rfl, ⟨rfl, rfl, rfl, rfl, rfl, rfl⟩⟩
  · intro c hc c' hc' h
    simp only [etWallet, List.mem_cons, List.not_mem_nil, or_false] at hc hc'
    rcases hc with rfl | rfl | rfl <;> rcases hc' with rfl | rfl | rfl <;>
      first | rfl | exact absurd h (by simp [etCred])
  · intro c hc ctx hx
    simp only [etWallet, List.mem_cons, List.not_mem_nil, or_false] at hc
    rcases hc with rfl | rfl | rfl <;> (
      simp only [etCred, List.mem_singleton] at hx
      subst hx
      exact ⟨_, rfl⟩)

/-- A field that wants the name Ann. -/
def etField (predicate : Bool) : Field :=
  ⟨["$.name"], some ⟨some "string", "", none, [], .str "Ann"⟩, false, predicate⟩

/-- A descriptor for a type. -/
def etDesc (id uri : String) (groups : List String) : FDesc :=
  ⟨id, groups, some [⟨uri, true⟩], some ⟨false, false, [etField false]⟩, none⟩

/-- Both a degree and a licence. -/
def etDef : Definition := ⟨none, [], [etDesc "deg" "urn:Degree" ["A"], etDesc "lic" "urn:Licence" ["A"]]⟩

/-- The same, with a choice of one. -/
def etPickDef : Definition := { etDef with reqs := [.mk false 1 0 0 "A" []] }

/-- The value of a successful call. -/
def CreateOut.get? {β : Type} : CreateOut β → Option β
  | .ok v => some v
  | _ => none

theorem get?_ok {β : Type} {o : CreateOut β} {v : β} (h : o.get? = some v) : o = .ok v := by
  cases o <;> simp [CreateOut.get?] at h
  rw [h]

theorem et_typed (reqs : List SubReq) : ∀ d ∈ ({ etDef with reqs := reqs } : Definition).descs,
    (∀ k, d.constraints = some k → Typed k) ∧ PlainDesc d ∧ d.schema ≠ none := by
  intro d hd
  simp only [etDef, List.mem_cons, List.not_mem_nil, or_false] at hd
  rcases hd with rfl | rfl <;> (
    refine ⟨?_, ?_, by simp [etDesc]⟩
    · intro k hk
      simp only [etDesc, Option.some.injEq] at hk
      subst hk
      intro f hf fl hfl
      simp only [List.mem_singleton] at hf
      subst hf
      simp only [etField, Option.some.injEq] at hfl
      subst hfl
      simp
    · intro k hk
      simp only [etDesc, Option.some.injEq] at hk
      subst hk
      refine ⟨rfl, ?_⟩
      intro f hf
      simp only [List.mem_singleton] at hf
      subst hf
      rfl)

/-- What the holder makes: two degrees, one licence, and three mappings. -/
theorem et_created : ((createVP etHolder "ldp_vp" etDef etWallet).get?.map fun p =>
    (p.1.creds.map Cred.id, p.2.map (fun o => (o.id, o.format, o.path, o.nestedPath)))) =
    some (["c1", "c3", "c2"], [("deg", "ldp_vp", "$", "$.verifiableCredential[0]"),
      ("deg", "ldp_vp", "$", "$.verifiableCredential[1]"), ("lic", "ldp_vp", "$", "$.verifiableCredential[2]")]) := by
  decide +kernel

/-- Non-vacuity of the theorems of C101: sent as JSON or as a JWT, the verifier accepts it. -/
example (jwt : Bool) : ∃ made os r, createVP etHolder "ldp_vp" etDef etWallet = .ok (made, os) ∧
    matchSubmission etVerifier (etDef.descs.map FDesc.toI) ⟨false, none⟩ [etSend jwt made os] = .ok r ∧
    Answers etHolder etDef etWallet etRead r := by
  have h := et_created
  obtain ⟨⟨made, os⟩, h1, h2⟩ := Option.map_eq_some_iff.mp h
  have h1 := get?_ok h1
  obtain ⟨r, g1, g2, _⟩ := createVP_accepted_partial et_faithful (by decide)
    (fun d hd => (et_typed [] d hd).1) (fun d hd => (et_typed [] d hd).2.1) rfl (dis := false)
    (.inr fun d hd => (et_typed [] d hd).2.2) h1 (jwt := jwt)
    (by
      intro o ho e
      simp only [Prod.mk.injEq] at h2
      have : (o.id, o.format, o.path, o.nestedPath) ∈ os.map (fun o => (o.id, o.format, o.path, o.nestedPath)) :=
        List.mem_map.mpr ⟨o, ho, rfl⟩
      rw [h2.2] at this
      simp [e] at this)
    (etSend_sent jwt made os) (subID := "urn:uuid:s") (defID := "pd") rfl
  exact ⟨made, os, r, h1, g1, g2⟩

/-- What `CreateVPArray` makes when asked for JWTs. -/
theorem et_created_array : ((createVPArray etHolder "jwt_vp" etDef etWallet).get?.map fun p =>
    (p.1.map (fun a => (a.id, a.creds.map Cred.id)), p.2.map (fun o => (o.id, o.path, o.nestedPath)))) =
    some ([("urn:uuid:0", ["c1"]), ("urn:uuid:1", ["c3"]), ("urn:uuid:2", ["c2"])],
      [("deg", "$[0]", "$.vp.verifiableCredential[0]"), ("deg", "$[1]", "$.vp.verifiableCredential[0]"),
       ("lic", "$[2]", "$.vp.verifiableCredential[0]")]) := by
  decide +kernel

/-- Sent as three JWTs with a merged submission, the verifier accepts it. -/
example : ∃ made os r, createVPArray etHolder "jwt_vp" etDef etWallet = .ok (made, os) ∧
    matchSubmission etVerifier (etDef.descs.map FDesc.toI)
      ⟨false, some (submissionMappings (encodeSubmission "s" "pd" os))⟩
      (made.map (fun a => etSend true a [])) = .ok r ∧
    Answers etHolder etDef etWallet etRead r := by
  obtain ⟨⟨made, os⟩, h1, h2⟩ := Option.map_eq_some_iff.mp et_created_array
  have h1 := get?_ok h1
  simp only [Prod.mk.injEq] at h2
  have hlen : made.length = 3 := by simpa using congrArg List.length h2.1
  obtain ⟨r, g1, g2, _⟩ := createVPArray_accepted_partial et_faithful (by decide)
    (fun d hd => (et_typed [] d hd).1) (fun d hd => (et_typed [] d hd).2.1) rfl (dis := false)
    (.inr fun d hd => (et_typed [] d hd).2.2) h1 (by omega) (jwt := true) (fun _ _ _ => rfl)
    (vps := made.map (fun a => etSend true a []))
    (by
      rw [List.forall₂_map_right_iff, List.forall₂_same]
      exact fun a _ => etSend_sent true a [])
    (subID := "s") (defID := "pd") rfl
  exact ⟨made, os, r, h1, g1, g2⟩

/-! ## Where the verifier refuses -/

/-- **C101 violated** (submission requirements).  The definition lets the holder pick one of two
descriptors.  The holder's presentation satisfies it, and `Match` refuses it, as it wants a
credential for every descriptor. -/
theorem pick_refused (jwt dis : Bool) : ∃ made os, createVP etHolder "ldp_vp" etPickDef etWallet = .ok (made, os) ∧
    DefSat etPickDef.reqs (etPickDef.descs.map FDesc.toDesc) (os.map MapOut.id) ∧
    ∀ r, matchSubmission etVerifier (etPickDef.descs.map FDesc.toI) ⟨dis, none⟩ [etSend jwt made os] ≠ .ok r := by
  have h : ((createVP etHolder "ldp_vp" etPickDef etWallet).get?.map fun p =>
      (p.1.creds.map Cred.id, p.2.map (fun o => (o.id, o.format)))) =
      some (["c1", "c3"], [("deg", "ldp_vp"), ("deg", "ldp_vp")]) := by decide +kernel
  obtain ⟨⟨made, os⟩, h1, h2⟩ := Option.map_eq_some_iff.mp h
  have h1 := get?_ok h1
  simp only [Prod.mk.injEq] at h2
  have hids : os.map MapOut.id = ["deg", "deg"] := by
    have := congrArg (List.map Prod.fst) h2.2
    rw [List.map_map] at this
    exact this
  refine ⟨made, os, h1, ?_, ?_⟩
  · rw [hids]
    simp only [DefSat, etPickDef, etDef, List.mem_cons, List.not_mem_nil, or_false, forall_eq]
    refine ⟨by simp, ?_⟩
    simp only [SubReq.Sat, Bounds]
    rw [if_pos (by decide)]
    refine ⟨by simp, ?_, by simp, by simp⟩
    intro _ _
    decide +kernel
  · intro r hr
    have key := (createVP_then_match_partial et_faithful (pd := etPickDef) (by decide)
      (fun d hd => (et_typed _ d hd).1) (fun d hd => (et_typed _ d hd).2.1) (dis := dis)
      (.inr fun d hd => (et_typed _ d hd).2.2) h1 (jwt := jwt)
      (by
        intro o ho e
        have : (o.id, o.format) ∈ os.map (fun o => (o.id, o.format)) := List.mem_map.mpr ⟨o, ho, rfl⟩
        rw [h2.2] at this
        simp [e] at this)
      (etSend_sent jwt made os) (subID := "urn:uuid:s") (defID := "pd") rfl).1.mp ⟨r, hr⟩
    obtain ⟨o, ho, he⟩ := key (etDesc "lic" "urn:Licence" ["A"]) (by simp [etPickDef, etDef])
    have : o.id ∈ os.map MapOut.id := List.mem_map_of_mem ho
    rw [hids, he] at this
    exact absurd this (by decide)

/-- The same definition without schemas, as version 2 has it. -/
def etV2Def : Definition := ⟨none, [], [{ etDesc "deg" "" [] with schema := none }]⟩

/-- **C101 violated** (version 2 definitions).  Without schemas the holder's side matches on the
constraints alone; the verifier's refuses, unless it is told to ignore schemas. -/
theorem v2_refused : ∃ made os, createVP etHolder "ldp_vp" etV2Def etWallet = .ok (made, os) ∧
    (∀ r, matchSubmission etVerifier (etV2Def.descs.map FDesc.toI) ⟨false, none⟩ [etSend false made os] ≠ .ok r) ∧
    ∃ r, matchSubmission etVerifier (etV2Def.descs.map FDesc.toI) ⟨true, none⟩ [etSend false made os] = .ok r := by
  have h : ((createVP etHolder "ldp_vp" etV2Def etWallet).get?.map fun p =>
      (p.1.creds.map Cred.id, p.2.map (fun o => (o.id, o.format)))) =
      some (["c1", "c2", "c3"], [("deg", "ldp_vp"), ("deg", "ldp_vp"), ("deg", "ldp_vp")]) := by decide +kernel
  obtain ⟨⟨made, os⟩, h1, h2⟩ := Option.map_eq_some_iff.mp h
  have h1 := get?_ok h1
  simp only [Prod.mk.injEq] at h2
  have htp : ∀ d ∈ etV2Def.descs, (∀ k, d.constraints = some k → Typed k) ∧ PlainDesc d := by
    intro d hd
    simp only [etV2Def, List.mem_singleton] at hd
    subst hd
    have := et_typed [] (etDesc "deg" "urn:Degree" ["A"]) (by simp [etDef])
    exact ⟨this.1, this.2.1⟩
  refine ⟨made, os, h1, ?_, ?_⟩
  · intro r
    refine no_schema_never_matches etVerifier _ _ _ ?_ rfl ({ etDesc "deg" "" [] with schema := none } : FDesc).toI
      (by simp [etV2Def]) rfl (by decide) r
    intro d hd
    obtain ⟨fd, hfd, rfl⟩ := List.mem_map.mp hd
    exact (htp fd hfd).1
  · obtain ⟨r, g1, _⟩ := createVP_accepted_partial et_faithful (pd := etV2Def) (by decide)
      (fun d hd => (htp d hd).1) (fun d hd => (htp d hd).2) rfl (dis := true) (.inl rfl) h1 (jwt := false)
      (by
        intro o ho e
        have : (o.id, o.format) ∈ os.map (fun o => (o.id, o.format)) := List.mem_map.mpr ⟨o, ho, rfl⟩
        rw [h2.2] at this
        simp [e] at this)
      (etSend_sent false made os) (subID := "urn:uuid:s") (defID := "pd") rfl
    exact ⟨r, g1⟩

/-- A degree whose name is only to be shown to be Ann. -/
def etPredDef : Definition := ⟨none, [], [{ etDesc "deg" "urn:Degree" [] with
  constraints := some ⟨false, false, [etField true]⟩ }]⟩

/-- **C101 violated** (predicates).  With a predicate the holder sends a credential whose value is
`true` (C97), and the verifier holds that against the same filter, which wants the string. -/
theorem predicate_refused : ∃ made os, createVP etHolder "ldp_vp" etPredDef etWallet = .ok (made, os) ∧
    (∀ c ∈ made.creds, c.display = some [("name", .bool true)]) ∧
    ∀ r, matchSubmission etVerifier (etPredDef.descs.map FDesc.toI) ⟨false, none⟩ [etSend false made os] ≠ .ok r := by
  have h : ((createVP etHolder "ldp_vp" etPredDef etWallet).get?.map fun p =>
      (p.1.creds.map Cred.id, p.1.creds.map (fun c => (c.display.bind (fun m => GoMap.get? m "name")).isSome),
        (match matchSubmission etVerifier (etPredDef.descs.map FDesc.toI) ⟨false, none⟩ [etSend false p.1 p.2] with
          | .ok _ => true | _ => false))) =
      some (["c1", "c3"], [true, true], false) := by decide +kernel
  obtain ⟨⟨made, os⟩, h1, h2⟩ := Option.map_eq_some_iff.mp h
  have h1 := get?_ok h1
  simp only [Prod.mk.injEq] at h2
  refine ⟨made, os, h1, ?_, ?_⟩
  · have : (createVP etHolder "ldp_vp" etPredDef etWallet).get? = some (made, os) := by rw [h1]; rfl
    have hc : ((createVP etHolder "ldp_vp" etPredDef etWallet).get?.map (fun p => p.1.creds)) =
        some [{ etCred "c1" "Degree" "Ann" with display := some [("name", .bool true)] },
          { etCred "c3" "Degree" "Ann" with display := some [("name", .bool true)] }] := by rfl
    rw [this] at hc
    simp only [Option.map_some, Option.some.injEq] at hc
    intro c hm
    rw [hc] at hm
    simp only [List.mem_cons, List.not_mem_nil, or_false] at hm
    rcases hm with rfl | rfl <;> rfl
  · intro r hr
    rw [hr] at h2
    exact absurd h2.2.2 (by simp)

end VC.PE
