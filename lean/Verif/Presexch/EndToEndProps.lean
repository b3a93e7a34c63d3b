import Verif.Presexch.EndToEnd
/-!
# presexch: what `CreateVP` makes and what `Match` says about it (C101)
-/

namespace VC.PE

/-- A mapping as `Match` gets it. -/
def MapOut.toMapping (o : MapOut) : Mapping := .mk o.id o.path (some (.mk o.id o.nestedPath none))

/-! ## The submission survives its JSON form -/

theorem get?_omitEmpty_self (k s : String) : GoMap.get? (omitEmpty k s) k = if s = "" then none else some (.str s) := by
  unfold omitEmpty; split <;> simp [GoMap.get?]

theorem get?_omitEmpty_ne {k k' : String} (h : k ≠ k') (s : String) : GoMap.get? (omitEmpty k s) k' = none := by
  unfold omitEmpty; split <;> simp [GoMap.get?, h]

theorem strField_omit (s : String) : strField (if s = "" then none else some (.str s)) = some s := by
  split
  · next h => rw [h]; rfl
  · rfl

theorem decode_encode (o : MapOut) : decodeMapping 10000 (encodeMapping o) = some (some o.toMapping) := by
  have h : ∀ (i f p : String) (rest : JObj), GoMap.get? rest "id" = none → GoMap.get? rest "format" = none →
      GoMap.get? rest "path" = none →
      GoMap.get? (omitEmpty "id" i ++ omitEmpty "format" f ++ omitEmpty "path" p ++ rest) "id" =
        (if i = "" then none else some (.str i)) ∧
      GoMap.get? (omitEmpty "id" i ++ omitEmpty "format" f ++ omitEmpty "path" p ++ rest) "format" =
        (if f = "" then none else some (.str f)) ∧
      GoMap.get? (omitEmpty "id" i ++ omitEmpty "format" f ++ omitEmpty "path" p ++ rest) "path" =
        (if p = "" then none else some (.str p)) ∧
      GoMap.get? (omitEmpty "id" i ++ omitEmpty "format" f ++ omitEmpty "path" p ++ rest) "path_nested" =
        GoMap.get? rest "path_nested" := by
    intro i f p rest h1 h2 h3
    refine ⟨?_, ?_, ?_, ?_⟩ <;>
      simp only [GoMap.get?_append, get?_omitEmpty_self, h1, h2, h3,
        get?_omitEmpty_ne (show ("id" : String) ≠ "format" by decide),
        get?_omitEmpty_ne (show ("id" : String) ≠ "path" by decide),
        get?_omitEmpty_ne (show ("id" : String) ≠ "path_nested" by decide),
        get?_omitEmpty_ne (show ("format" : String) ≠ "id" by decide),
        get?_omitEmpty_ne (show ("format" : String) ≠ "path" by decide),
        get?_omitEmpty_ne (show ("format" : String) ≠ "path_nested" by decide),
        get?_omitEmpty_ne (show ("path" : String) ≠ "id" by decide),
        get?_omitEmpty_ne (show ("path" : String) ≠ "format" by decide),
        get?_omitEmpty_ne (show ("path" : String) ≠ "path_nested" by decide)] <;> simp
  have inner : ∀ n, decodeMapping (n + 1) (.obj (omitEmpty "id" o.id ++ omitEmpty "format" o.vcFormat ++
      omitEmpty "path" o.nestedPath)) = some (some (.mk o.id o.nestedPath none)) := by
    intro n
    obtain ⟨a, b, c, d⟩ := h o.id o.vcFormat o.nestedPath [] rfl rfl rfl
    rw [List.append_nil] at a b c d
    rw [decodeMapping, a, b, c, d, strField_omit, strField_omit, strField_omit]
    rfl
  obtain ⟨a, b, c, d⟩ := h o.id o.format o.path
    [("path_nested", .obj (omitEmpty "id" o.id ++ omitEmpty "format" o.vcFormat ++
      omitEmpty "path" o.nestedPath))] rfl rfl rfl
  unfold encodeMapping
  rw [show (10000 : Nat) = 9998 + 1 + 1 from rfl, decodeMapping, a, b, c, d, strField_omit, strField_omit,
    strField_omit]
  simp only [GoMap.get?]
  rw [if_pos (by decide)]
  dsimp only
  rw [inner]
  rfl

theorem decodeMappings_encode (os : List MapOut) :
    decodeMappings (os.map encodeMapping) = some (os.map (fun o => some o.toMapping)) := by
  induction os with
  | nil => rfl
  | cons o os ih => simp only [List.map_cons, decodeMappings, decode_encode, ih]

/-- The mappings that a verifier reads from the JSON of a submission are those the holder wrote. -/
theorem submission_roundtrip (id defID : String) (os : List MapOut) :
    submissionMappings (encodeSubmission id defID os) = some (os.map (fun o => some o.toMapping)) := by
  unfold encodeSubmission submissionMappings
  have : GoMap.get? (omitEmpty "id" id ++ omitEmpty "definition_id" defID ++
      [("descriptor_map", Json.arr (os.map encodeMapping))]) "descriptor_map" =
      some (.arr (os.map encodeMapping)) := by
    simp only [GoMap.get?_append, get?_omitEmpty_ne (show ("id" : String) ≠ "descriptor_map" by decide),
      get?_omitEmpty_ne (show ("definition_id" : String) ≠ "descriptor_map" by decide)]
    simp [GoMap.get?]
  dsimp only
  rw [this]
  exact decodeMappings_encode os

/-! ## One mapping -/

theorem filterSchema_one (load : String → Option (String → List String)) (ss : List Schema) (c : Cred) :
    (∃ r, filterSchema load ss [c] = some r) ↔ ∀ ctx ∈ c.contexts, ∃ ids, load ctx = some ids := by
  have key : ∀ ctxs : List String, (∃ r, schemaIDs load c.types ctxs = some r) ↔
      ∀ ctx ∈ ctxs, ∃ ids, load ctx = some ids := by
    intro ctxs
    induction ctxs with
    | nil => simp [schemaIDs]
    | cons x xs ih =>
      simp only [schemaIDs, List.mem_cons, forall_eq_or_imp]
      rw [← ih]
      cases load x with
      | none => simp
      | some ids => simp [Option.map_eq_some_iff]
  rw [← key]
  simp only [filterSchema]
  cases schemaIDs load c.types c.contexts with
  | none => simp
  | some sat => simp

/-- What a descriptor asks of a credential in `Match`. -/
theorem goodFor_iff (E : MEnv) (dis : Bool) (d : FDesc) (c : Cred)
    (ht : ∀ k, d.constraints = some k → Typed k) :
    GoodFor E dis d c ↔ ∃ passed, filterSchema E.load (d.schema.getD []) [c] = some passed ∧
      ¬ (passed.isEmpty && !dis) = true ∧ filterConstraints E.toPEnv d.constraints [c] = .ok [c] := by
  have hk : filterConstraints E.toPEnv d.constraints [c] = .ok [c] ↔
      ∀ k, d.constraints = some k → ConstraintsOk E.toPEnv k c := by
    cases hd : d.constraints with
    | none => simp [filterConstraints]
    | some k =>
      simp only [Option.some.injEq, forall_eq']
      rcases filterConstraints_exact E.toPEnv (ht k hd) [c] with ⟨r, e1, e2, e3⟩ | ⟨e1, x, hx, m, hm, f, hf, hp, hb⟩
      · rw [e1]
        constructor
        · intro h
          cases h
          exact ((e3 c).mp (by simp)).2
        · intro h
          have hm := (e3 c).mpr ⟨by simp, h⟩
          congr 1
          cases e2 with
          | cons _ h' => cases h'; cases hm
          | cons_cons _ h' => cases h'; rfl
      · rw [e1]
        simp only [List.mem_singleton] at hx
        subst hx
        constructor
        · intro h; cases h
        · rintro ⟨_, _, m', hm', hall⟩
          rw [hm] at hm'; cases hm'
          rcases hall f hf with h0 | ⟨p, hpm, vs, hr, _⟩
          · exact absurd h0 hp
          · exact absurd ⟨vs, hr⟩ (hb p hpm)
  rw [hk]
  constructor
  · rintro ⟨h1, h2, h3⟩
    obtain ⟨r, hr⟩ := (filterSchema_one E.load (d.schema.getD []) c).mpr h1
    refine ⟨r, hr, ?_, h3⟩
    intro h
    simp only [Bool.and_eq_true, List.isEmpty_iff, Bool.not_eq_true'] at h
    obtain ⟨rfl, hdis⟩ := h
    obtain ⟨ss, hs, h4, h5⟩ := h2 hdis
    rw [hs] at hr
    have := ((filterSchema_exact E.load ss [c] [] hr).2 c).mpr ⟨by simp, h4, h5⟩
    cases this
  · rintro ⟨r, hr, hne, h3⟩
    refine ⟨(filterSchema_one E.load _ c).mp ⟨r, hr⟩, fun hdis => ?_, h3⟩
    rw [hdis] at hne
    have hne : r ≠ [] := by simpa using hne
    obtain ⟨x, hx⟩ := List.exists_mem_of_ne_nil r hne
    obtain ⟨a, b⟩ := ((filterSchema_exact E.load _ [c] r hr).2 x).mp hx
    simp only [List.mem_singleton] at a
    subst a
    cases hs : d.schema with
    | none => rw [hs] at b; obtain ⟨_, s, hs', _⟩ := b; cases hs'
    | some ss => rw [hs] at b; exact ⟨ss, rfl, b⟩

/-- Where a mapping is looked up. -/
def lookupVC (E : MatchEnv) (merged : Bool) (prev : List Json) (later : Nat) (raw : Json) (m : Mapping) :
    Option Cred :=
  if expectsVPList m then selectVC E (.arr (prev ++ raw :: List.replicate later .null)) m
  else if prev.length + 1 + later = 1 || !merged then selectVC E raw m
  else none

theorem matchOne_iff {E : MatchEnv} {ds : List FDesc} (hn : (ds.map FDesc.id).Nodup)
    (ht : ∀ d ∈ ds, ∀ k, d.constraints = some k → Typed k) (o : MatchOpts) (prev : List Json) (later : Nat)
    (vp : VP) (raw : Json) (m : Mapping) (v : MatchValue) :
    matchOne E (ds.map FDesc.toI) o prev later vp raw (some m) = .ok v ↔
      ∃ d ∈ ds, d.id = m.id ∧ v = ⟨vp.id, v.cred, m.id⟩ ∧
        lookupVC E o.merged.isSome prev later raw m = some v.cred ∧
        GoodFor E.toMEnv o.disableSchema d v.cred := by
  unfold matchOne
  dsimp only
  have hfind : ∀ d ∈ ds, d.id = m.id → (ds.map FDesc.toI).find? (fun d => d.id == m.id) = some d.toI := by
    intro d hd he
    cases hf : (ds.map FDesc.toI).find? (fun d => d.id == m.id) with
    | none =>
      have := List.find?_eq_none.mp hf d.toI (List.mem_map_of_mem hd)
      simp [FDesc.toI, he] at this
    | some x =>
      obtain ⟨y, hy, rfl⟩ := List.mem_map.mp (List.mem_of_find?_eq_some hf)
      have hx : y.id = m.id := by simpa [FDesc.toI] using List.find?_some hf
      rw [List.inj_on_of_nodup_map hn hy hd (by rw [hx, he])]
  have hsel : (if expectsVPList m = true then selectVC E (.arr (prev ++ raw :: List.replicate later .null)) m
      else if (prev.length + 1 + later = 1 || o.merged.isNone) = true then selectVC E raw m else none) =
      lookupVC E o.merged.isSome prev later raw m := by
    unfold lookupVC
    cases o.merged <;> rfl
  constructor
  · intro h
    split at h
    · cases h
    · next x hx =>
      obtain ⟨d, hd, rfl⟩ := List.mem_map.mp (List.mem_of_find?_eq_some hx)
      have he : d.id = m.id := by simpa [FDesc.toI] using List.find?_some hx
      refine ⟨d, hd, he, ?_⟩
      split at h
      · cases h
      · next c hc =>
        have hc : lookupVC E o.merged.isSome prev later raw m = some c := by rw [← hsel]; exact hc
        split at h
        · cases h
        · next passed hp =>
          split at h
          · cases h
          · next hne =>
            split at h
            · next c' hf =>
              cases h
              have hcc : c' = c := by
                have hd' : d.toI.constraints = d.constraints := rfl
                rw [hd'] at hf
                cases hk : d.constraints with
                | none =>
                  rw [hk] at hf
                  simp only [filterConstraints, FilterOut.ok.injEq, List.cons.injEq, and_true] at hf
                  exact hf.symm
                | some k =>
                  rw [hk] at hf
                  rcases filterConstraints_exact E.toPEnv (ht d hd k hk) [c] with ⟨r, e1, _, e3⟩ | ⟨e1, _⟩
                  · rw [e1] at hf
                    cases hf
                    simpa using ((e3 c').mp (by simp)).1
                  · rw [e1] at hf; cases hf
              subst hcc
              exact ⟨rfl, hc, (goodFor_iff E.toMEnv o.disableSchema d c' (ht d hd)).mpr ⟨passed, hp, hne, hf⟩⟩
            · cases h
            · cases h
            · cases h
  · rintro ⟨d, hd, he, hv, hl, hg⟩
    rw [hfind d hd he]
    dsimp only
    rw [hsel, hl]
    dsimp only
    obtain ⟨passed, h1, h2, h3⟩ := (goodFor_iff E.toMEnv o.disableSchema d v.cred (ht d hd)).mp hg
    have h1' : filterSchema E.load d.toI.schema [v.cred] = some passed := h1
    have h3' : filterConstraints E.toPEnv d.toI.constraints [v.cred] = .ok [v.cred] := h3
    rw [h1']
    dsimp only
    rw [if_neg h2, h3']
    dsimp only
    rw [← hv]

theorem matchMappings_iff {one : Option Mapping → FilterOut MatchValue} :
    ∀ {ms : List (Option Mapping)} {vs : List MatchValue},
    matchMappings one ms = .ok vs ↔ List.Forall₂ (fun m v => one m = .ok v) ms vs
  | [], vs => by
    simp only [matchMappings, FilterOut.ok.injEq]
    constructor
    · rintro rfl; exact .nil
    · intro h; cases h; rfl
  | m :: ms, vs => by
    simp only [matchMappings]
    constructor
    · intro h
      split at h
      · cases h
      · cases h
      · next v hv =>
        split at h
        · next ws hws =>
          cases h
          exact .cons hv (matchMappings_iff.mp hws)
        · cases h
        · cases h
    · intro h
      cases h with
      | cons h1 h2 => rw [h1, matchMappings_iff.mpr h2]

/-! ## Following the paths the holder wrote -/

theorem replaceOnce_vp (s : String) (r : List Char) (h : s.toList = '$' :: '.' :: r) :
    replaceOnce s "$." "$.vp." = String.ofList ('$' :: '.' :: 'v' :: 'p' :: '.' :: r) := by
  unfold replaceOnce
  rw [h]
  rfl

/-- The nested path leads to the credential at the position it names. -/
theorem select_nested {E : MatchEnv} (hl : PathLib E.selectPath) {read : Cred → Option Cred} {cs : List Cred}
    {jwt : Bool} {raw : Json} (hh : Holds E.parseCred read cs jwt raw) (vp d : String) (i : Nat)
    (hv : (vp = "$.vp" ∧ jwt = true) ∨ vp = "$") {c : Cred} (hc : cs[i]? = some c) :
    selectVC E raw (.mk d (vp ++ ".verifiableCredential[" ++ toString i ++ "]") none) = read c := by
  have pick : ∀ {l : List Json}, List.Forall₂ (fun c j => E.parseCred j = read c) cs l →
      ∃ j, l[i]? = some j ∧ E.parseCred j = read c := by
    intro l hf
    clear hh
    induction hf generalizing i with
    | nil => simp at hc
    | @cons a b as bs h1 h2 ih =>
      cases i with
      | zero =>
        simp only [List.getElem?_cons_zero, Option.some.injEq] at hc
        subst hc
        exact ⟨b, rfl, h1⟩
      | succ i =>
        simp only [List.getElem?_cons_succ] at hc ⊢
        exact ih i hc
  have e1 : "$" ++ ".verifiableCredential[" ++ toString i ++ "]" =
      "$.verifiableCredential[" ++ toString i ++ "]" := by
    rw [show ("$" ++ ".verifiableCredential[" : String) = "$.verifiableCredential[" from by decide +kernel]
  have e2 : "$.vp" ++ ".verifiableCredential[" ++ toString i ++ "]" =
      "$.vp.verifiableCredential[" ++ toString i ++ "]" := by
    rw [show ("$.vp" ++ ".verifiableCredential[" : String) = "$.vp.verifiableCredential[" from by decide +kernel]
  have e3 : replaceOnce ("$.verifiableCredential[" ++ toString i ++ "]") "$." "$.vp." =
      "$.vp.verifiableCredential[" ++ toString i ++ "]" := by
    rw [replaceOnce_vp _ ("verifiableCredential[".toList ++ (toString i).toList ++ "]".toList)
      (by simp only [String.toList_append]; rfl)]
    apply String.toList_injective
    rw [String.toList_ofList]
    simp only [String.toList_append]
    rfl
  simp only [selectVC, selectWalk, selectStep]
  cases hh with
  | plain h1 h2 =>
    obtain ⟨j, hj, hp⟩ := pick h2
    rcases hv with ⟨_, hf⟩ | rfl
    · cases hf
    · rw [e1, hl.vc _ _ i h1, hj]
      exact hp
  | jwt h0 h1 h2 h3 =>
    obtain ⟨j, hj, hp⟩ := pick h3
    rcases hv with ⟨rfl, _⟩ | rfl
    · rw [e2, hl.vp _ _ _ i h1 h2, hj]
      exact hp
    · rw [e1, hl.noVC _ i h0]
      dsimp only
      rw [e3, hl.vp _ _ _ i h1 h2, hj]
      exact hp

/-! ## The merged credentials and mappings -/

/-- Each pair of a descriptor and a credential has its mapping, pointing at the credential. -/
theorem merge_pairs (isJWT : α → Bool) (sep : Bool) (format : String) (m : GoMap (List (String × α)))
    (keys : List String) (hid : IDsIdentify m) :
    List.Forall₂ (fun (p : String × String × α) (o : MapOut) => o.id = p.1 ∧
      ∃ i, PointsAt sep format o i ∧ (merge isJWT sep format m keys).result[i]? = some p.2.2)
      (visited m keys) (merge isJWT sep format m keys).out := by
  have hi := merge_inv isJWT sep format m keys
  have key : ∀ {P : List (String × String × α)} {os : List MapOut}, (∀ p ∈ P, p ∈ visited m keys) →
      List.Forall₂ (fun (p : String × String × α) (o : MapOut) => o.id = p.1 ∧ o.format = format ∧
        ∃ i, GoMap.get? (merge isJWT sep format m keys).index p.2.1 = some i ∧ PointsAt sep format o i) P os →
      List.Forall₂ (fun (p : String × String × α) (o : MapOut) => o.id = p.1 ∧
        ∃ i, PointsAt sep format o i ∧ (merge isJWT sep format m keys).result[i]? = some p.2.2) P os := by
    intro P os hP hf
    induction hf with
    | nil => exact .nil
    | @cons p o ps os h1 _ ih =>
      refine .cons ?_ (ih (fun x hx => hP x (List.mem_cons_of_mem _ hx)))
      obtain ⟨a, _, i, hi', hp⟩ := h1
      refine ⟨a, i, hp, ?_⟩
      obtain ⟨d', c', h5, h6⟩ := hi.index _ i hi'
      obtain ⟨d, u, c⟩ := p
      obtain ⟨_, ws, hg, hm⟩ := mem_visited.mp (hP (d, u, c) (by simp))
      obtain ⟨_, ws', hg', hm'⟩ := mem_visited.mp h5
      rw [hid d d' ws ws' u c c' hg hg' hm hm']
      exact h6
  exact key (fun _ h => h) (hi.out.imp fun _ _ h => ⟨h.1, h.2.1, h.2.2.choose, h.2.2.choose_spec.1, h.2.2.choose_spec.2.1⟩)

theorem forall2_left {β γ : Type} {R : β → γ → Prop} {l : List β} {l' : List γ} (h : List.Forall₂ R l l') :
    (∀ a ∈ l, ∃ b ∈ l', R a b) ∧ ∀ b ∈ l', ∃ a ∈ l, R a b := by
  induction h with
  | nil => simp
  | cons h1 _ ih =>
    constructor
    · intro a ha
      rcases List.mem_cons.mp ha with rfl | ha
      · exact ⟨_, by simp, h1⟩
      · obtain ⟨b, hb, hr⟩ := ih.1 a ha
        exact ⟨b, List.mem_cons_of_mem _ hb, hr⟩
    · intro b hb
      rcases List.mem_cons.mp hb with rfl | hb
      · exact ⟨_, by simp, h1⟩
      · obtain ⟨a, ha, hr⟩ := ih.2 b hb
        exact ⟨a, List.mem_cons_of_mem _ ha, hr⟩

/-- What the holder sends: a list of mappings and a list of credentials such that the mappings are
those of the chosen pairs. -/
structure HasMapping (sep : Bool) (fmt : String) (m : GoMap (List (String × Cred))) (cs : List Cred)
    (os : List MapOut) : Prop where
  all : ∀ d ws u c, GoMap.get? m d = some ws → (u, c) ∈ ws →
    ∃ o ∈ os, o.id = d ∧ ∃ i, PointsAt sep fmt o i ∧ cs[i]? = some c
  only : ∀ o ∈ os, ∃ ws u c, GoMap.get? m o.id = some ws ∧ (u, c) ∈ ws ∧
    ∃ i, PointsAt sep fmt o i ∧ cs[i]? = some c

theorem mergedOf_mapped {H : HolderEnv} (hk : ∀ l, (H.sortKeys l).Perm l) (hs : ∀ l, (H.sortMaps l).Perm l)
    (sep : Bool) (fmt : String) {m : GoMap (List (String × Cred))} (hid : IDsIdentify m) :
    HasMapping sep fmt m (mergedOf H sep fmt m).1 (mergedOf H sep fmt m).2 := by
  unfold mergedOf
  dsimp only
  have hf := forall2_left (merge_pairs Cred.isJWT sep fmt m (H.sortKeys (GoMap.keys m)) hid)
  constructor
  · intro d ws u c hg hm
    have hd : d ∈ H.sortKeys (GoMap.keys m) :=
      (hk _).mem_iff.mpr (GoMap.get?_isSome_iff.mp (by rw [hg]; rfl))
    obtain ⟨o, ho, h1, i, h2, h3⟩ := hf.1 (d, u, c) (mem_visited.mpr ⟨hd, ws, hg, hm⟩)
    exact ⟨o, (hs _).mem_iff.mpr ho, h1, i, h2, h3⟩
  · intro o ho
    obtain ⟨⟨d, u, c⟩, hp, h1, i, h2, h3⟩ := hf.2 o ((hs _).mem_iff.mp ho)
    obtain ⟨_, ws, hg, hm⟩ := mem_visited.mp hp
    dsimp only at h1
    exact ⟨ws, u, c, by rw [h1]; exact hg, hm, i, h2, h3⟩

/-! ## Pairing a good set of mappings with the answers -/

/-- If each mapping is answered exactly by the good reading of its credential, the whole list is
answered exactly when all of them are good. -/
theorem answers_exist {β : Type} {one : β → FilterOut MatchValue} : ∀ {ms : List β},
    (∀ m ∈ ms, ∃ v, one m = .ok v) → ∃ vs, List.Forall₂ (fun m v => one m = .ok v) ms vs
  | [], _ => ⟨[], .nil⟩
  | m :: ms, h => by
    obtain ⟨v, hv⟩ := h m (by simp)
    obtain ⟨vs, hvs⟩ := answers_exist (ms := ms) (fun x hx => h x (List.mem_cons_of_mem _ hx))
    exact ⟨v :: vs, .cons hv hvs⟩

theorem checkContext_made {id : String} {cs : List Cred} {made : Created}
    (h : makePresentation id cs = some made) {vp : VP}
    (hc : ∀ x ∈ made.contexts, x ∈ vp.contexts) (ht : ∀ x ∈ made.types, x ∈ vp.types) :
    checkContextType vp = true := by
  have mem : ∀ l x, x ∈ addMissing l x := by
    intro l x
    unfold addMissing
    by_cases h : l.contains x = true
    · rw [if_pos h]; simpa using h
    · rw [if_neg h]; simp
  unfold makePresentation at h
  cases hb : presBaseContext cs with
  | none => rw [hb] at h; cases h
  | some b =>
    rw [hb] at h
    simp only [Option.some.injEq] at h
    subst h
    dsimp only at hc ht
    have h1 := hc _ (mem _ _)
    have h2 := ht _ (mem _ _)
    unfold checkContextType
    rw [Bool.and_eq_true, Bool.or_eq_true, Bool.or_eq_true]
    exact ⟨.inl (by simpa using h1), .inl (by simpa using h2)⟩

/-- Looking up a mapping of the holder's presentation. -/
theorem lookup_single {E : MatchEnv} (hl : PathLib E.selectPath) {read : Cred → Option Cred} {cs : List Cred}
    {jwt : Bool} {raw : Json} (hh : Holds E.parseCred read cs jwt raw) {fmt : String}
    (hj : fmt = "jwt_vp" → jwt = true) {o : MapOut} {i : Nat} (hp : PointsAt false fmt o i) {c : Cred}
    (hc : cs[i]? = some c) : lookupVC E false [] 0 raw o.toMapping = read c := by
  obtain ⟨vp, hv, hq⟩ := hp
  rcases hq with ⟨h, _⟩ | ⟨_, h1, h2⟩
  · cases h
  have hv' : (vp = "$.vp" ∧ jwt = true) ∨ vp = "$" := by
    rcases hv with ⟨a, b⟩ | ⟨_, b⟩
    · exact .inl ⟨b, hj a⟩
    · exact .inr b
  have hne : expectsVPList o.toMapping = false := by
    unfold MapOut.toMapping
    rw [h1, h2]
    unfold expectsVPList
    rw [show hasPrefix "$" "$[" = false from by decide +kernel]
    simp only [Bool.false_eq_true, if_false]
    unfold expectsVPList
    have : hasPrefix (vp ++ ".verifiableCredential[" ++ toString i ++ "]") "$[" = false := by
      unfold hasPrefix
      rcases hv' with ⟨rfl, _⟩ | rfl <;> (simp only [String.toList_append]; rfl)
    rw [this]
    rfl
  unfold lookupVC
  rw [hne]
  simp only [Bool.false_eq_true, if_false, Bool.not_false, Bool.or_true, if_true]
  unfold MapOut.toMapping
  rw [h1, h2]
  have := select_nested hl hh vp o.id i hv' hc
  unfold selectVC at this ⊢
  have h0 : selectWalk E raw (.mk o.id "$" (some (.mk o.id (vp ++ ".verifiableCredential[" ++ toString i ++ "]") none))) =
      selectWalk E raw (.mk o.id (vp ++ ".verifiableCredential[" ++ toString i ++ "]") none) := by
    conv_lhs => unfold selectWalk
    simp only [selectStep, hl.root]
  rw [h0]
  exact this

/-- What is known of the answer to one mapping. -/
def AnswerOf (E : MatchEnv) (read : Cred → Option Cred) (dis sep : Bool) (pd : Definition) (fmt : String)
    (cs : List Cred) (pid : Nat → String) (o : MapOut)
    (out : FilterOut MatchValue) : Prop :=
  ∀ i c, PointsAt sep fmt o i → cs[i]? = some c → ∀ v, out = .ok v ↔
    ∃ d ∈ pd.descs, d.id = o.id ∧ v = ⟨pid i, v.cred, o.id⟩ ∧ read c = some v.cred ∧
      GoodFor E.toMEnv dis d v.cred

theorem accept_core {E : MatchEnv} {read : Cred → Option Cred} {dis sep : Bool} {pd : Definition}
    (hn : (pd.descs.map FDesc.id).Nodup) {fmt : String} {m : GoMap (List (String × Cred))}
    (hm : ∀ d ∈ GoMap.keys m, d ∈ pd.descs.map FDesc.id) {cs : List Cred} {os : List MapOut}
    (hM : HasMapping sep fmt m cs os) {pid : Nat → String} {one : MapOut → FilterOut MatchValue}
    (hone : ∀ o ∈ os, AnswerOf E read dis sep pd fmt cs pid o (one o))
    {Res : List MatchValue → Prop}
    (h1 : ∀ r, Res r → (∀ o ∈ os, ∃ v ∈ r, one o = .ok v) ∧ (∀ v ∈ r, ∃ o ∈ os, one o = .ok v) ∧
      ∀ d ∈ pd.descs, ∃ v ∈ r, v.descriptorID = d.id)
    (h2 : (∀ o ∈ os, ∃ v, one o = .ok v) → (∀ d ∈ pd.descs, ∃ o ∈ os, o.id = d.id) → ∃ r, Res r) :
    ((∃ r, Res r) ↔ Acceptable E.toMEnv read dis pd m) ∧
    ∀ r, Res r → SameAnswer read m r ∧ ∀ v ∈ r, ∃ i c, cs[i]? = some c ∧ read c = some v.cred ∧
      v.presentationID = pid i := by
  refine ⟨⟨?_, ?_⟩, ?_⟩
  · rintro ⟨r, hr⟩ d hd
    obtain ⟨f1, f2, f3⟩ := h1 r hr
    obtain ⟨v, hv, hvd⟩ := f3 d hd
    obtain ⟨o, ho, h⟩ := f2 v hv
    obtain ⟨ws, u, c, g1, g2, i, g3, g4⟩ := hM.only o ho
    obtain ⟨d', hd', he', hve, _, _⟩ := (hone o ho i c g3 g4 v).mp h
    have hod : o.id = d.id := by rw [← hvd, hve]
    rw [hod] at g1
    refine ⟨ws, g1, List.ne_nil_of_mem g2, ?_⟩
    intro u2 c2 hmem
    obtain ⟨o2, ho2, he2, i2, hp, hi⟩ := hM.all d.id ws u2 c2 g1 hmem
    obtain ⟨v2, hv2, hq2⟩ := f1 o2 ho2
    obtain ⟨d2, hd2, he3, hve2, hr2, hg2⟩ := (hone o2 ho2 i2 c2 hp hi v2).mp hq2
    have : d2 = d := List.inj_on_of_nodup_map hn hd2 hd (by rw [he3, he2])
    subst this
    exact ⟨v2.cred, hr2, hg2⟩
  · intro hacc
    refine h2 ?_ ?_
    · intro o ho
      obtain ⟨ws, u, c, g1, g2, i, g3, g4⟩ := hM.only o ho
      have hmem : o.id ∈ GoMap.keys m := GoMap.get?_isSome_iff.mp (by rw [g1]; rfl)
      obtain ⟨d, hd, he⟩ := List.mem_map.mp (hm _ hmem)
      obtain ⟨ws', k1, _, k3⟩ := hacc d hd
      rw [he, g1] at k1
      cases k1
      obtain ⟨c', hr, hg⟩ := k3 u c g2
      exact ⟨⟨pid i, c', o.id⟩, (hone o ho i c g3 g4 _).mpr ⟨d, hd, he, rfl, hr, hg⟩⟩
    · intro d hd
      obtain ⟨ws, g1, g2, _⟩ := hacc d hd
      obtain ⟨⟨u, c⟩, huc⟩ := List.exists_mem_of_ne_nil ws g2
      obtain ⟨o, ho, he, _⟩ := hM.all d.id ws u c g1 huc
      exact ⟨o, ho, he⟩
  · intro r hr
    obtain ⟨f1, f2, _⟩ := h1 r hr
    refine ⟨⟨?_, ?_⟩, ?_⟩
    · intro v hv
      obtain ⟨o, ho, h⟩ := f2 v hv
      obtain ⟨ws, u, c, g1, g2, i, g3, g4⟩ := hM.only o ho
      obtain ⟨d, _, _, hve, hrd, _⟩ := (hone o ho i c g3 g4 v).mp h
      have : v.descriptorID = o.id := by rw [hve]
      exact ⟨ws, u, c, by rw [this]; exact g1, g2, hrd⟩
    · intro d ws u c hg hmem
      obtain ⟨o, ho, rfl, i, hp, hi⟩ := hM.all d ws u c hg hmem
      obtain ⟨v, hv, h⟩ := f1 o ho
      obtain ⟨_, _, _, hve, hrd, _⟩ := (hone o ho i c hp hi v).mp h
      exact ⟨v, hv, by rw [hve], hrd⟩
    · intro v hv
      obtain ⟨o, ho, h⟩ := f2 v hv
      obtain ⟨ws, u, c, g1, g2, i, g3, g4⟩ := hM.only o ho
      obtain ⟨d, _, _, hve, hrd, _⟩ := (hone o ho i c g3 g4 v).mp h
      exact ⟨i, c, g4, hrd, by rw [hve]⟩

theorem made_creds {id : String} {cs : List Cred} {made : Created} (h : makePresentation id cs = some made) :
    made.creds = cs ∧ made.id = id := by
  unfold makePresentation at h
  cases hb : presBaseContext cs with
  | none => rw [hb] at h; cases h
  | some b => rw [hb] at h; simp only [Option.some.injEq] at h; subst h; exact ⟨rfl, rfl⟩

/-- **C101**, exactly when.  The presentation made for a result `m` is accepted by `Match` exactly
when every descriptor got credentials that are, as the verifier reads them, good for it; and then the
answer lists exactly the chosen pairs, under the ID of the presentation. -/
theorem match_created_iff {H : HolderEnv} (hk : ∀ l, (H.sortKeys l).Perm l) (hs : ∀ l, (H.sortMaps l).Perm l)
    {E : MatchEnv} (hl : PathLib E.selectPath) {read : Cred → Option Cred} {pd : Definition}
    (hn : (pd.descs.map FDesc.id).Nodup) (ht : ∀ d ∈ pd.descs, ∀ k, d.constraints = some k → Typed k)
    {fmt : String} {m : GoMap (List (String × Cred))} (hid : IDsIdentify m)
    (hm : ∀ d ∈ GoMap.keys m, d ∈ pd.descs.map FDesc.id)
    {id : String} {made : Created} (hmade : makePresentation id (mergedOf H false fmt m).1 = some made)
    {jwt : Bool} (hj : fmt = "jwt_vp" → jwt = true) {vp : VP} (hsent : Sent E.parseCred read jwt made vp)
    {subID defID : String}
    (hsub : vp.submission = submissionMappings (encodeSubmission subID defID (mergedOf H false fmt m).2))
    (dis : Bool) :
    ((∃ r, matchSubmission E (pd.descs.map FDesc.toI) ⟨dis, none⟩ [vp] = .ok r) ↔
      Acceptable E.toMEnv read dis pd m) ∧
    ∀ r, matchSubmission E (pd.descs.map FDesc.toI) ⟨dis, none⟩ [vp] = .ok r →
      SameAnswer read m r ∧ ∀ v ∈ r, v.presentationID = made.id := by
  have hM := mergedOf_mapped hk hs false fmt hid
  have hcs := (made_creds hmade).1
  obtain ⟨raw, hraw, hh⟩ := hsent.doc
  rw [hcs] at hh
  have hctx := checkContext_made hmade hsent.contexts hsent.types
  rw [submission_roundtrip] at hsub
  generalize mergedOf H false fmt m = cd at *
  obtain ⟨cs, os⟩ := cd
  dsimp only at *
  -- one mapping
  have hone : ∀ o ∈ os, AnswerOf E read dis false pd fmt cs (fun _ => vp.id) o
      (matchOne E (pd.descs.map FDesc.toI) ⟨dis, none⟩ [] 0 vp raw (some o.toMapping)) := by
    intro o ho i c h3 h4 v
    rw [matchOne_iff hn ht]
    have hlk : lookupVC E false [] 0 raw o.toMapping = read c := lookup_single hl hh hj h3 h4
    simp only [Option.isSome_none, hlk]
    rfl
  -- the whole call
  have hall : ∀ r, matchSubmission E (pd.descs.map FDesc.toI) ⟨dis, none⟩ [vp] = .ok r ↔
      List.Forall₂ (fun o v => matchOne E (pd.descs.map FDesc.toI) ⟨dis, none⟩ [] 0 vp raw (some o.toMapping) = .ok v)
        os r ∧ ∀ d ∈ pd.descs, ∃ v ∈ r, v.descriptorID = d.id := by
    intro r
    unfold matchSubmission
    dsimp only
    simp only [matchVPs, hctx, hraw, mappingsFor, hsub, List.length_nil, Bool.not_true, Bool.false_eq_true,
      if_false, List.append_nil]
    have hmm : ∀ vs, matchMappings (matchOne E (pd.descs.map FDesc.toI) ⟨dis, none⟩ [] 0 vp raw)
        (os.map (fun o => some o.toMapping)) = .ok vs ↔
        List.Forall₂ (fun o v => matchOne E (pd.descs.map FDesc.toI) ⟨dis, none⟩ [] 0 vp raw (some o.toMapping) = .ok v)
          os vs := by
      intro vs
      rw [matchMappings_iff, List.forall₂_map_left_iff]
    cases hq : matchMappings (matchOne E (pd.descs.map FDesc.toI) ⟨dis, none⟩ [] 0 vp raw)
        (os.map (fun o => some o.toMapping)) with
    | error =>
      simp only [reduceCtorEq, false_iff, not_and]
      intro h
      have := (hmm r).mpr h
      rw [hq] at this; cases this
    | panic =>
      simp only [reduceCtorEq, false_iff, not_and]
      intro h
      have := (hmm r).mpr h
      rw [hq] at this; cases this
    | ok vs =>
      dsimp only
      have hc : (pd.descs.map FDesc.toI).all (fun d => vs.any (fun m => m.descriptorID == d.id)) = true ↔
          ∀ d ∈ pd.descs, ∃ v ∈ vs, v.descriptorID = d.id := by
        simp [List.all_eq_true, FDesc.toI]
      have hu : ∀ vs', matchMappings (matchOne E (pd.descs.map FDesc.toI) ⟨dis, none⟩ [] 0 vp raw)
          (os.map (fun o => some o.toMapping)) = .ok vs' → vs' = vs := by
        intro vs' h
        rw [hq] at h; cases h; rfl
      constructor
      · intro h
        split at h
        · next hh' => cases h; exact ⟨(hmm _).mp hq, hc.mp hh'⟩
        · cases h
      · rintro ⟨h1, h2⟩
        have := hu r ((hmm r).mpr h1)
        subst this
        rw [if_pos (hc.mpr h2)]
  obtain ⟨c1, c2⟩ := accept_core (Res := fun r => matchSubmission E (pd.descs.map FDesc.toI) ⟨dis, none⟩ [vp] = .ok r)
    hn hm hM hone
    (by
      intro r hr
      obtain ⟨h1, h2⟩ := (hall r).mp hr
      exact ⟨(forall2_left h1).1, (forall2_left h1).2, h2⟩)
    (by
      intro ha hcov
      obtain ⟨r, hr⟩ := answers_exist
        (one := fun o : MapOut => matchOne E (pd.descs.map FDesc.toI) ⟨dis, none⟩ [] 0 vp raw (some o.toMapping)) ha
      refine ⟨r, (hall r).mpr ⟨hr, ?_⟩⟩
      intro d hd
      obtain ⟨o, ho, he⟩ := hcov d hd
      obtain ⟨v, hv, h⟩ := (forall2_left hr).1 o ho
      obtain ⟨_, _, c, _, _, i, g3, g4⟩ := hM.only o ho
      obtain ⟨_, _, _, hve, _, _⟩ := (hone o ho i c g3 g4 v).mp h
      exact ⟨v, hv, by rw [hve]; exact he⟩)
  refine ⟨c1, fun r hr => ⟨(c2 r hr).1, fun v hv => ?_⟩⟩
  obtain ⟨_, _, _, _, h⟩ := (c2 r hr).2 v hv
  rw [h]
  exact hsent.id

/-! ## Separate presentations -/

/-- The loop over presentations that all have a document, with a merged submission. -/
theorem matchVPs_iff {E : MatchEnv} {ds : List IDesc} {dis : Bool} {ms : List (Option Mapping)} :
    ∀ {vps : List VP} {raws prev : List Json} {r : List MatchValue},
    vps.map VP.typeless = raws.map some → (∀ vp ∈ vps, checkContextType vp = true) →
    (matchVPs E ds ⟨dis, some (some ms)⟩ prev vps = .ok r ↔ ∃ rss : List (List MatchValue),
      r = rss.flatten ∧ rss.length = vps.length ∧ ∀ i vp raw, vps[i]? = some vp → raws[i]? = some raw →
        ∃ vs, rss[i]? = some vs ∧ List.Forall₂ (fun m? v => matchOne E ds ⟨dis, some (some ms)⟩
          (prev ++ raws.take i) (vps.length - 1 - i) vp raw m? = .ok v)
          (ms.filter (fun m? => presentationIndex? m? == ((prev.length + i : Nat) : Int))) vs)
  | [], raws, prev, r, h, _ => by
    simp only [matchVPs, FilterOut.ok.injEq]
    constructor
    · rintro rfl
      exact ⟨[], rfl, rfl, by simp⟩
    · rintro ⟨rss, h1, h2, _⟩
      have : rss = [] := List.length_eq_zero_iff.mp h2
      subst this
      exact h1.symm
  | vp :: vps, raws, prev, r, h, hc => by
    cases raws with
    | nil => simp at h
    | cons raw raws =>
      simp only [List.map_cons, List.cons.injEq] at h
      obtain ⟨h0, h⟩ := h
      have hc0 := hc vp (by simp)
      have ih := fun r' => matchVPs_iff (E := E) (ds := ds) (dis := dis) (ms := ms) (vps := vps) (raws := raws)
        (prev := prev ++ [raw]) (r := r') h (fun x hx => hc x (List.mem_cons_of_mem _ hx))
      simp only [matchVPs, hc0, h0, mappingsFor, Bool.not_true, Bool.false_eq_true, if_false]
      constructor
      · intro hq
        split at hq
        · cases hq
        · cases hq
        · next vs hvs =>
          split at hq
          · next r' hr' =>
            cases hq
            obtain ⟨rss, e1, e2, e3⟩ := (ih r').mp hr'
            refine ⟨vs :: rss, by simp [e1], by simp [e2], ?_⟩
            intro i vp' raw' hi hi'
            cases i with
            | zero =>
              simp only [List.getElem?_cons_zero, Option.some.injEq] at hi hi'
              subst hi hi'
              refine ⟨vs, rfl, ?_⟩
              have := matchMappings_iff.mp hvs
              simpa using this
            | succ i =>
              simp only [List.getElem?_cons_succ] at hi hi' ⊢
              obtain ⟨vs', g1, g2⟩ := e3 i vp' raw' hi hi'
              refine ⟨vs', g1, ?_⟩
              have e4 : (vp :: vps).length - 1 - (i + 1) = vps.length - 1 - i := by
                simp only [List.length_cons]; omega
              have e5 : prev ++ (raw :: raws).take (i + 1) = prev ++ [raw] ++ raws.take i := by simp
              have e6 : prev.length + (i + 1) = (prev ++ [raw]).length + i := by
                simp only [List.length_append, List.length_singleton]; omega
              rw [e4, e5, e6]
              exact g2
          · cases hq
          · cases hq
      · rintro ⟨rss, e1, e2, e3⟩
        cases rss with
        | nil => simp at e2
        | cons vs rss =>
          obtain ⟨vs', g1, g2⟩ := e3 0 vp raw rfl rfl
          simp only [List.getElem?_cons_zero, Option.some.injEq] at g1
          subst g1
          have hvs : matchMappings (matchOne E ds ⟨dis, some (some ms)⟩ prev vps.length vp raw)
              (ms.filter (fun m? => presentationIndex? m? == (prev.length : Int))) = .ok vs := by
            apply matchMappings_iff.mpr
            simpa using g2
          rw [hvs]
          dsimp only
          have hr' : matchVPs E ds ⟨dis, some (some ms)⟩ (prev ++ [raw]) vps = .ok rss.flatten := by
            refine (ih _).mpr ⟨rss, rfl, by simpa using e2, ?_⟩
            intro i vp' raw' hi hi'
            obtain ⟨vs', g1, g2⟩ := e3 (i + 1) vp' raw' hi hi'
            refine ⟨vs', g1, ?_⟩
            have e4 : (vp :: vps).length - 1 - (i + 1) = vps.length - 1 - i := by
              simp only [List.length_cons]; omega
            have e5 : prev ++ (raw :: raws).take (i + 1) = prev ++ [raw] ++ raws.take i := by simp
            have e6 : prev.length + (i + 1) = (prev ++ [raw]).length + i := by
              simp only [List.length_append, List.length_singleton]; omega
            rw [e4, e5, e6] at g2
            exact g2
          rw [hr']
          dsimp only
          rw [e1]
          rfl

/-- Looking up a mapping into the list of presentations. -/
theorem lookup_array {E : MatchEnv} (hl : PathLib E.selectPath) {read : Cred → Option Cred} {c : Cred}
    {jwt : Bool} {raw : Json} (hh : Holds E.parseCred read [c] jwt raw) {fmt : String}
    (hj : fmt = "jwt_vp" → jwt = true) {o : MapOut} {prev : List Json}
    (hp : PointsAt true fmt o prev.length) (later : Nat) (merged : Bool) :
    lookupVC E merged prev later raw o.toMapping = read c := by
  obtain ⟨vp, hv, hq⟩ := hp
  rcases hq with ⟨_, h1, h2⟩ | ⟨h, _⟩
  · have hv' : (vp = "$.vp" ∧ jwt = true) ∨ vp = "$" := by
      rcases hv with ⟨a, b⟩ | ⟨_, b⟩
      · exact .inl ⟨b, hj a⟩
      · exact .inr b
    have hex : expectsVPList o.toMapping = true := by
      unfold MapOut.toMapping
      rw [h1]
      unfold expectsVPList
      rw [if_pos]
      unfold hasPrefix
      simp only [String.toList_append]
      rfl
    unfold lookupVC
    rw [if_pos hex]
    unfold MapOut.toMapping
    rw [h1, h2]
    have h3 := select_nested hl hh vp o.id 0 hv' rfl
    have e0 : vp ++ ".verifiableCredential[" ++ toString 0 ++ "]" = vp ++ ".verifiableCredential[0]" := by
      rw [String.append_assoc, String.append_assoc]
      rfl
    rw [e0] at h3
    unfold selectVC at h3 ⊢
    have h0 : selectWalk E (.arr (prev ++ raw :: List.replicate later .null))
        (.mk o.id ("$[" ++ toString prev.length ++ "]") (some (.mk o.id (vp ++ ".verifiableCredential[0]") none))) =
        selectWalk E raw (.mk o.id (vp ++ ".verifiableCredential[0]") none) := by
      conv_lhs => unfold selectWalk
      simp only [selectStep, hl.item]
      rw [List.getElem?_append_right (by omega), Nat.sub_self]
      rfl
    rw [h0]
    exact h3
  · cases h

theorem makeEach_get {H : HolderEnv} : ∀ {n : Nat} {cs : List Cred} {vps : List Created},
    makeEach H n cs = some vps → vps.length = cs.length ∧ ∀ i c, cs[i]? = some c →
      ∃ made, vps[i]? = some made ∧ makePresentation (H.uuid (n + i)) [c] = some made
  | n, [], vps, h => by
    simp only [makeEach, Option.some.injEq] at h
    subst h
    simp
  | n, c :: cs, vps, h => by
    simp only [makeEach] at h
    cases hp : makePresentation (H.uuid n) [c] with
    | none => rw [hp] at h; cases h
    | some vp =>
      rw [hp] at h
      dsimp only at h
      obtain ⟨vps', h1, rfl⟩ := Option.map_eq_some_iff.mp h
      obtain ⟨e1, e2⟩ := makeEach_get h1
      refine ⟨by simp [e1], ?_⟩
      intro i c' hi
      cases i with
      | zero =>
        simp only [List.getElem?_cons_zero, Option.some.injEq] at hi
        subst hi
        exact ⟨vp, rfl, hp⟩
      | succ i =>
        simp only [List.getElem?_cons_succ] at hi ⊢
        obtain ⟨made, g1, g2⟩ := e2 i c' hi
        exact ⟨made, g1, by rw [show n + (i + 1) = n + 1 + i by omega]; exact g2⟩

theorem pointsAt_index {fmt : String} {o : MapOut} {i : Nat} (h : PointsAt true fmt o i) (hi : i < 2 ^ 63) :
    presentationIndex o.toMapping = i := by
  obtain ⟨vp, _, hq⟩ := h
  rcases hq with ⟨_, h1, _⟩ | ⟨h, _⟩
  · unfold MapOut.toMapping
    rw [h1]
    exact presentationIndex_literal i hi _ _
  · cases h

/-- **C101** for separate presentations: what `CreateVPArray` makes for a result `m`, given to `Match`
with the submission it returns, is accepted exactly when every descriptor got credentials that are, as
the verifier reads them, good for it; the answer lists exactly the chosen pairs, each under the ID of
the presentation that holds the credential. -/
theorem match_created_array_iff {H : HolderEnv} (hk : ∀ l, (H.sortKeys l).Perm l)
    (hs : ∀ l, (H.sortMaps l).Perm l)
    {E : MatchEnv} (hl : PathLib E.selectPath) {read : Cred → Option Cred} {pd : Definition}
    (hn : (pd.descs.map FDesc.id).Nodup) (ht : ∀ d ∈ pd.descs, ∀ k, d.constraints = some k → Typed k)
    {fmt : String} {m : GoMap (List (String × Cred))} (hid : IDsIdentify m)
    (hm : ∀ d ∈ GoMap.keys m, d ∈ pd.descs.map FDesc.id)
    {made : List Created} (hmade : makeEach H 0 (mergedOf H true fmt m).1 = some made)
    (hlen : made.length < 2 ^ 63)
    {jwt : Bool} (hj : fmt = "jwt_vp" → jwt = true) {vps : List VP}
    (hsent : List.Forall₂ (fun a vp => Sent E.parseCred read jwt a vp) made vps)
    {subID defID : String} {merged : Option (List (Option Mapping))}
    (hsub : merged = submissionMappings (encodeSubmission subID defID (mergedOf H true fmt m).2))
    (dis : Bool) :
    ((∃ r, matchSubmission E (pd.descs.map FDesc.toI) ⟨dis, some merged⟩ vps = .ok r) ↔
      Acceptable E.toMEnv read dis pd m) ∧
    ∀ r, matchSubmission E (pd.descs.map FDesc.toI) ⟨dis, some merged⟩ vps = .ok r →
      SameAnswer read m r ∧ ∀ v ∈ r, ∃ a ∈ made, ∃ c, a.creds = [c] ∧ read c = some v.cred ∧
        v.presentationID = a.id := by
  have hM := mergedOf_mapped hk hs true fmt hid
  rw [submission_roundtrip] at hsub
  subst hsub
  generalize mergedOf H true fmt m = cd at *
  obtain ⟨cs, os⟩ := cd
  dsimp only at *
  obtain ⟨hlm, hget⟩ := makeEach_get hmade
  have hlv : vps.length = cs.length := by rw [← hlm]; exact hsent.length_eq.symm
  -- the documents
  have hpos : ∀ {made : List Created} {vps : List VP},
      List.Forall₂ (fun a vp => Sent E.parseCred read jwt a vp) made vps →
      ∃ raws : List Json, vps.map VP.typeless = raws.map some ∧ ∀ (i : Nat) (a : Created), made[i]? = some a →
        ∃ vp raw, vps[i]? = some vp ∧ raws[i]? = some raw ∧ Sent E.parseCred read jwt a vp ∧
          Holds E.parseCred read a.creds jwt raw := by
    intro made vps h
    induction h with
    | nil => exact ⟨[], rfl, by simp⟩
    | @cons a vp as bs h1 _ ih =>
      obtain ⟨raws, e1, e2⟩ := ih
      obtain ⟨raw, g1, g2⟩ := h1.doc
      refine ⟨raw :: raws, by simp [e1, g1], ?_⟩
      intro i a' hi
      cases i with
      | zero =>
        simp only [List.getElem?_cons_zero, Option.some.injEq] at hi
        subst hi
        exact ⟨vp, raw, rfl, rfl, h1, g2⟩
      | succ i =>
        simp only [List.getElem?_cons_succ] at hi ⊢
        exact e2 i a' hi
  obtain ⟨raws, hraws, hpos⟩ := hpos hsent
  have hlr : raws.length = cs.length := by
    have := congrArg List.length hraws
    simpa [hlv] using this.symm
  -- everything about position `i`
  have hat : ∀ (i : Nat) (c : Cred), cs[i]? = some c → ∃ a vp raw, made[i]? = some a ∧ vps[i]? = some vp ∧ raws[i]? = some raw ∧
      Sent E.parseCred read jwt a vp ∧ Holds E.parseCred read [c] jwt raw ∧ a.creds = [c] ∧
      checkContextType vp = true := by
    intro i c hc
    obtain ⟨a, ha, hp⟩ := hget i c hc
    obtain ⟨vp, raw, h1, h2, h3, h4⟩ := hpos i a ha
    have := (made_creds hp).1
    rw [this] at h4
    exact ⟨a, vp, raw, ha, h1, h2, h3, h4, this, checkContext_made hp h3.contexts h3.types⟩
  have hctx : ∀ vp ∈ vps, checkContextType vp = true := by
    intro vp hvp
    obtain ⟨i, hi, he⟩ := List.getElem_of_mem hvp
    have hi' : i < cs.length := by rw [← hlv]; exact hi
    obtain ⟨a, vp', raw, _, h2, _, _, _, _, h6⟩ := hat i cs[i] (List.getElem?_eq_getElem hi')
    rw [List.getElem?_eq_getElem hi, he] at h2
    cases h2
    exact h6
  -- the answer to one mapping
  let idx : MapOut → Nat := fun o => (presentationIndex o.toMapping).toNat
  let one : MapOut → FilterOut MatchValue := fun o =>
    matchOne E (pd.descs.map FDesc.toI) ⟨dis, some (some (os.map (fun o => some o.toMapping)))⟩ (raws.take (idx o))
      (vps.length - 1 - idx o) (vps.getD (idx o) ⟨"", [], [], none, none⟩) (raws.getD (idx o) .null) (some o.toMapping)
  have hidx : ∀ (o : MapOut) (i : Nat) (c : Cred), PointsAt true fmt o i → cs[i]? = some c → presentationIndex o.toMapping = (i : Int) ∧ idx o = i := by
    intro o i c hp hc
    have hi : i < cs.length := (List.getElem?_eq_some_iff.mp hc).1
    have := pointsAt_index hp (by omega)
    exact ⟨this, by simp only [idx, this]; rfl⟩
  have hone : ∀ o ∈ os, AnswerOf E read dis true pd fmt cs (fun i => (vps.getD i ⟨"", [], [], none, none⟩).id) o
      (one o) := by
    intro o ho i c h3 h4 v
    obtain ⟨_, hi⟩ := hidx o i c h3 h4
    obtain ⟨a, vp, raw, _, h5, h6, _, h8, _, _⟩ := hat i c h4
    simp only [one, hi]
    rw [matchOne_iff hn ht]
    have hr : raws.getD i .null = raw := by rw [List.getD_eq_getElem?_getD, h6]; rfl
    have hlt : (raws.take i).length = i := by
      rw [List.length_take]
      have : i < cs.length := (List.getElem?_eq_some_iff.mp h4).1
      omega
    have hlk := lookup_array (E := E) hl h8 hj (o := o) (prev := raws.take i) (by rw [hlt]; exact h3)
      (vps.length - 1 - i) true
    rw [hr]
    simp only [Option.isSome_some, hlk]
    rfl
  -- the whole call
  have hmsub : ∀ r, matchSubmission E (pd.descs.map FDesc.toI)
      ⟨dis, some (some (os.map (fun o => some o.toMapping)))⟩ vps = .ok r ↔
      matchVPs E (pd.descs.map FDesc.toI) ⟨dis, some (some (os.map (fun o => some o.toMapping)))⟩ [] vps = .ok r ∧
        ∀ d ∈ pd.descs, ∃ v ∈ r, v.descriptorID = d.id := by
    intro r
    unfold matchSubmission
    dsimp only
    have hc : ∀ vs : List MatchValue,
        (pd.descs.map FDesc.toI).all (fun d => vs.any (fun m => m.descriptorID == d.id)) = true ↔
          ∀ d ∈ pd.descs, ∃ v ∈ vs, v.descriptorID = d.id := by
      intro vs
      simp [List.all_eq_true, FDesc.toI]
    cases matchVPs E (pd.descs.map FDesc.toI) ⟨dis, some (some (os.map (fun o => some o.toMapping)))⟩ [] vps with
    | error => simp
    | panic => simp
    | ok vs =>
      dsimp only
      constructor
      · intro h
        split at h
        · next hh => cases h; exact ⟨rfl, (hc _).mp hh⟩
        · cases h
      · rintro ⟨h1, h2⟩
        cases h1
        rw [if_pos ((hc _).mpr h2)]
  have hfil : ∀ i, (os.map (fun o => some o.toMapping)).filter
      (fun m? => presentationIndex? m? == ((([] : List Json).length + i : Nat) : Int)) =
      (os.filter (fun o => presentationIndex o.toMapping == (i : Int))).map (fun o => some o.toMapping) := by
    intro i
    rw [List.filter_map]
    congr 1
    apply List.filter_congr
    intro o _
    simp [presentationIndex?]
  obtain ⟨c1, c2⟩ := accept_core (Res := fun r => matchSubmission E (pd.descs.map FDesc.toI)
      ⟨dis, some (some (os.map (fun o => some o.toMapping)))⟩ vps = .ok r) hn hm hM hone
    (by
      intro r hr
      obtain ⟨h1, h2⟩ := (hmsub r).mp hr
      obtain ⟨rss, e1, e2, e3⟩ := (matchVPs_iff hraws hctx).mp h1
      refine ⟨?_, ?_, h2⟩
      · intro o ho
        obtain ⟨_, _, c, _, _, i, g3, g4⟩ := hM.only o ho
        obtain ⟨hpi, hi⟩ := hidx o i c g3 g4
        obtain ⟨a, vp, raw, _, h5, h6, _, _, _, _⟩ := hat i c g4
        obtain ⟨vs, k1, k2⟩ := e3 i vp raw h5 h6
        rw [hfil, List.forall₂_map_left_iff] at k2
        obtain ⟨v, hv, h⟩ := (forall2_left k2).1 o (List.mem_filter.mpr ⟨ho, by simp [hpi]⟩)
        refine ⟨v, ?_, ?_⟩
        · rw [e1]
          exact List.mem_flatten.mpr ⟨vs, List.mem_of_getElem? k1, hv⟩
        · simp only [one, hi, List.getD_eq_getElem?_getD, h5, h6, Option.getD_some]
          simpa using h
      · intro v hv
        rw [e1] at hv
        obtain ⟨vs, hvs, hv⟩ := List.mem_flatten.mp hv
        obtain ⟨i, hi, he⟩ := List.getElem_of_mem hvs
        have hic : i < cs.length := by omega
        obtain ⟨a, vp, raw, _, h5, h6, _, _, _, _⟩ := hat i cs[i] (List.getElem?_eq_getElem hic)
        obtain ⟨vs', k1, k2⟩ := e3 i vp raw h5 h6
        rw [List.getElem?_eq_getElem hi, he] at k1
        cases k1
        rw [hfil, List.forall₂_map_left_iff] at k2
        obtain ⟨o, ho, h⟩ := (forall2_left k2).2 v hv
        obtain ⟨ho, hpi⟩ := List.mem_filter.mp ho
        have hpi : presentationIndex o.toMapping = (i : Int) := by simpa using hpi
        have hio : idx o = i := by simp only [idx, hpi]; rfl
        refine ⟨o, ho, ?_⟩
        simp only [one, hio, List.getD_eq_getElem?_getD, h5, h6, Option.getD_some]
        simpa using h)
    (by
      intro ha hcov
      have hex : ∀ n, n ≤ cs.length → ∃ rss : List (List MatchValue), rss.length = n ∧ ∀ i < n,
          ∃ vs, rss[i]? = some vs ∧ List.Forall₂ (fun o v => one o = .ok v)
            (os.filter (fun o => presentationIndex o.toMapping == (i : Int))) vs := by
        intro n
        induction n with
        | zero => exact fun _ => ⟨[], rfl, by simp⟩
        | succ n ih =>
          intro hle
          obtain ⟨rss, e1, e2⟩ := ih (by omega)
          obtain ⟨vs, hvs⟩ := answers_exist (one := one)
            (ms := os.filter (fun o => presentationIndex o.toMapping == (n : Int)))
            (fun o ho => ha o (List.mem_filter.mp ho).1)
          refine ⟨rss ++ [vs], by simp [e1], ?_⟩
          intro i hi
          by_cases hin : i < n
          · obtain ⟨vs', g1, g2⟩ := e2 i hin
            exact ⟨vs', by rw [List.getElem?_append_left (by omega)]; exact g1, g2⟩
          · have : i = n := by omega
            subst this
            exact ⟨vs, by rw [List.getElem?_append_right (by omega), e1, Nat.sub_self]; rfl, hvs⟩
      obtain ⟨rss, e1, e2⟩ := hex cs.length (Nat.le_refl _)
      refine ⟨rss.flatten, (hmsub _).mpr ⟨(matchVPs_iff hraws hctx).mpr ⟨rss, rfl, by omega, ?_⟩, ?_⟩⟩
      · intro i vp raw h5 h6
        have hi : i < cs.length := by rw [← hlv]; exact (List.getElem?_eq_some_iff.mp h5).1
        obtain ⟨vs, g1, g2⟩ := e2 i hi
        refine ⟨vs, g1, ?_⟩
        rw [hfil, List.forall₂_map_left_iff]
        have key : ∀ {l : List MapOut} {vs : List MatchValue},
            (∀ o ∈ l, presentationIndex o.toMapping = (i : Int)) →
            List.Forall₂ (fun o v => one o = .ok v) l vs →
            List.Forall₂ (fun o v => matchOne E (pd.descs.map FDesc.toI)
              ⟨dis, some (some (os.map (fun o => some o.toMapping)))⟩ ([] ++ raws.take i) (vps.length - 1 - i) vp raw
              (some o.toMapping) = .ok v) l vs := by
          intro l vs hl' hf
          induction hf with
          | nil => exact .nil
          | @cons o v l vs h _ ih =>
            refine .cons ?_ (ih (fun x hx => hl' x (List.mem_cons_of_mem _ hx)))
            have hio : idx o = i := by simp only [idx, hl' o (by simp)]; rfl
            simp only [one, hio, List.getD_eq_getElem?_getD, h5, h6, Option.getD_some] at h
            exact h
        exact key (fun o ho => by simpa using (List.mem_filter.mp ho).2) g2
      · intro d hd
        obtain ⟨o, ho, he⟩ := hcov d hd
        obtain ⟨_, _, c, _, _, i, g3, g4⟩ := hM.only o ho
        obtain ⟨hpi, hi⟩ := hidx o i c g3 g4
        have hic : i < cs.length := (List.getElem?_eq_some_iff.mp g4).1
        obtain ⟨vs, k1, k2⟩ := e2 i hic
        obtain ⟨v, hv, h⟩ := (forall2_left k2).1 o (List.mem_filter.mpr ⟨ho, by simp [hpi]⟩)
        obtain ⟨_, _, _, hve, _, _⟩ := (hone o ho i c g3 g4 v).mp h
        exact ⟨v, List.mem_flatten.mpr ⟨vs, List.mem_of_getElem? k1, hv⟩, by rw [hve]; exact he⟩)
  refine ⟨c1, fun r hr => ⟨(c2 r hr).1, fun v hv => ?_⟩⟩
  obtain ⟨i, c, h1, h2, h3⟩ := (c2 r hr).2 v hv
  obtain ⟨a, vp, raw, g1, g2, _, g4, _, g6, _⟩ := hat i c h1
  refine ⟨a, List.mem_of_getElem? g1, c, g6, h2, ?_⟩
  rw [h3, List.getD_eq_getElem?_getD, g2]
  exact g4.id

end VC.PE
