import Verif.Presexch.LimitSD
/-!
# presexch: the reveal document for a BBS+ credential (C100)

Models `enhanceRevealDoc` and `enhanceRevealField` of `presexch/definition.go` and their use in
`createNewCredential`.  The reveal document is a JSON-LD frame: a node with `@explicit: true` shows only
the members that the frame names, a node without it shows everything.
-/

namespace VC.PE

open GoMap

/-- One of the members `type` and `@context`, definition.go:1416-1428. -/
def enhanceMember (src : Json) (path cf : String) (doc : Json) : Option Json :=
  match gget src (path ++ "." ++ cf) with
  | none => some doc
  | some .null => some doc
  | some v => sset doc (path ++ "." ++ cf) v

/-- `enhanceRevealField`, definition.go:1408-1431. -/
def enhanceField (src : Json) (doc : Json) (path : String) : Option Json :=
  (sset doc (path ++ "." ++ "@explicit") (.bool true)).bind (fun d =>
    (enhanceMember src path "type" d).bind (enhanceMember src path "@context"))

/-- A loop over a map of paths, definition.go:1376-1380 and 1398-1403. -/
def enhanceAll (src : Json) (doc : Json) : List String → Option Json
  | [] => some doc
  | p :: ps => (enhanceField src doc p).bind (fun d => enhanceAll src d ps)

/-- The explicit paths, definition.go:1296-1299: the part of the new path before its last dot. -/
def explicitOf (pairs : List PathPair) : List String :=
  (pairs.filter (fun p => !(contains p.newPath "credentialSchema"))).map (fun p => (splitLast p.newPath).1)

/-- The proper beginnings of a path, definition.go:1382-1391. -/
def beginnings (path : String) : List String :=
  (List.range ((split '.' path).length - 1)).map (fun i => joinC '.' ((split '.' path).take (i + 1)))

/-- The intermediate paths, definition.go:1374-1396. -/
def intermOf (explicit : List String) : List String :=
  (explicit.flatMap beginnings).filter (fun p => !(explicit.contains p))

/-- All the paths of the fields. -/
def allPairs (eval : List String → Json → Option (List (List Step))) (src : Json) (fields : List Field) :
    List PathPair :=
  fields.flatMap (fun f => (compactArrayPaths eval f.path src).getD [])

/-- The reveal document of `createNewCredential` for a BBS+ credential, definition.go:1276-1318 with
`enhanceRevealDoc`, 1366-1406.  `order` is the iteration over a Go map: the same elements in any order. -/
def revealDoc (eval : List String → Json → Option (List (List Step))) (order : List String → List String)
    (k : Constraints) (raw : JObj) (subjects : List Vfy.Subject) : Option Json :=
  (limitedDoc eval k raw subjects).bind (fun d =>
    (sset d "@explicit" (.bool true)).bind (fun d =>
      (enhanceAll (.obj raw) d (order (explicitOf (allPairs eval (.obj raw) k.fields)))).bind (fun d =>
        enhanceAll (.obj raw) d (order (intermOf (explicitOf (allPairs eval (.obj raw) k.fields)))))))

/-! ## Parts -/

theorem joinC_snoc (c : Char) (s : String) : ∀ l : List String, l ≠ [] →
    joinC c (l ++ [s]) = joinC c l ++ String.singleton c ++ s
  | [], h => absurd rfl h
  | [a], _ => rfl
  | a :: b :: l, _ => by
    have := joinC_snoc c s (b :: l) (by simp)
    simp only [List.cons_append] at this
    simp only [List.cons_append, joinC, this, String.append_assoc]

theorem split_ne_nil (c : Char) (s : String) : split c s ≠ [] := by
  unfold split
  simpa using splitL_ne_nil c s.toList

theorem split_member {path cf : String} (h : NoChar '.' cf) :
    split '.' (path ++ "." ++ cf) = split '.' path ++ [cf] := by
  have e : path ++ "." ++ cf = joinC '.' (split '.' path ++ [cf]) := by
    rw [joinC_snoc '.' cf _ (split_ne_nil '.' path), joinC_split]
    rfl
  rw [e, split_joinC]
  · simp
  · intro s hs
    rcases List.mem_append.mp hs with hs | hs
    · exact split_noChar '.' path s hs
    · simp at hs; subst hs; exact h

theorem member_ne {path cf : String} : path ++ "." ++ cf ≠ "" := by
  intro e
  have := congrArg (fun s => s.toList.length) e
  simp [String.toList_append] at this

/-- The names of the members that the reveal document adds. -/
def Special (cf : String) : Prop := cf = "@explicit" ∨ cf = "type" ∨ cf = "@context"

theorem special_dot {cf : String} (h : Special cf) : NoChar '.' cf := by
  rcases h with rfl | rfl | rfl <;> (unfold NoChar; decide)

theorem special_idx {cf : String} (h : Special cf) : compIdx cf = none := by
  rcases h with rfl | rfl | rfl <;> decide +kernel

theorem sset_member {doc : Json} {path cf : String} {v : Json} (h : Special cf) :
    sset doc (path ++ "." ++ cf) v = ssetC v (split '.' path ++ [cf]) doc := by
  unfold sset
  rw [if_neg member_ne, split_member (special_dot h)]

/-- What adding a member is: nothing, or a write of the source's value. -/
theorem enhanceMember_cases {src doc d : Json} {path cf : String} (hcf : Special cf)
    (h : enhanceMember src path cf doc = some d) :
    d = doc ∨ ∃ v, ggetC src (split '.' path ++ [cf]) = some v ∧
      ssetC v (split '.' path ++ [cf]) doc = some d := by
  have hs : ∀ v, gget src (path ++ "." ++ cf) = some v → sset doc (path ++ "." ++ cf) v = some d →
      d = doc ∨ ∃ v, ggetC src (split '.' path ++ [cf]) = some v ∧
        ssetC v (split '.' path ++ [cf]) doc = some d := by
    intro v h1 h2
    rw [sset_member hcf] at h2
    unfold gget at h1
    rw [split_member (special_dot hcf)] at h1
    exact .inr ⟨v, h1, h2⟩
  unfold enhanceMember at h
  cases hg : gget src (path ++ "." ++ cf) with
  | none => rw [hg] at h; exact .inl (Option.some.inj h).symm
  | some v =>
    rw [hg] at h
    cases v with
    | null => exact .inl (Option.some.inj h).symm
    | bool b => exact hs _ hg h
    | num b => exact hs _ hg h
    | str b => exact hs _ hg h
    | arr b => exact hs _ hg h
    | obj b => exact hs _ hg h

theorem addr_snoc {q : List Step} {cs : List String} {cf : String} (hcf : Special cf)
    (h : List.Forall₂ Addr q (cs ++ [cf])) : ∃ q1, q = q1 ++ [.name cf] ∧ List.Forall₂ Addr q1 cs := by
  induction cs generalizing q with
  | nil =>
    cases h with
    | @cons s _ q _ h1 h2 =>
      cases h2
      rcases h1 with ⟨k, rfl, rfl⟩ | ⟨n, rfl, hn⟩
      · exact ⟨[], rfl, .nil⟩
      · rw [special_idx hcf] at hn; cases hn
  | cons c cs ih =>
    cases h with
    | @cons s _ q _ h1 h2 =>
      obtain ⟨q1, rfl, h3⟩ := ih h2
      exact ⟨s :: q1, rfl, .cons h1 h3⟩

/-- The value is the marker `@explicit: true`, or the member `type` or `@context` that the source has at
the place with this path, or something inside it. -/
def FromFrame (src : Json) (comps : List String) (q : List Step) (v : Json) : Prop :=
  (v = .bool true ∧ ∃ q1, q = q1 ++ [.name "@explicit"]) ∨
    ∃ cf ∈ ["type", "@context"], ∃ q1 c r, List.Forall₂ Addr q1 comps ∧ List.Forall₂ Addr c comps ∧
      q = q1 ++ .name cf :: r ∧ gat src (c ++ .name cf :: r) = some v

theorem enhanceMember_prov {src doc d : Json} {path cf : String} (hcf : cf ∈ ["type", "@context"])
    (h : enhanceMember src path cf doc = some d) {q : List Step} {v : Json} (hq : gat d q = some v)
    (hl : Leaf v) : gat doc q = some v ∨ v = .null ∨ FromFrame src (split '.' path) q v := by
  have hsp : Special cf := by
    rcases List.mem_cons.mp hcf with h | h
    · exact .inr (.inl h)
    · exact .inr (.inr (by simpa using h))
  rcases enhanceMember_cases hsp h with rfl | ⟨w, hw, hs⟩
  · exact .inl hq
  · rcases ssetC_prov w _ doc d hs q v hq hl with h | h | ⟨q1, r, e, hf, hv⟩
    · exact .inl h
    · exact .inr (.inl h)
    · obtain ⟨q2, rfl, hf2⟩ := addr_snoc hsp hf
      obtain ⟨c, hc, hg⟩ := ggetC_place _ _ _ hw
      obtain ⟨c2, rfl, hc2⟩ := addr_snoc hsp hc
      refine .inr (.inr (.inr ⟨cf, hcf, q2, c2, r, hf2, hc2, by simpa using e, ?_⟩))
      have : c2 ++ Step.name cf :: r = (c2 ++ [.name cf]) ++ r := by simp
      rw [this, gat_append, hg]
      exact hv

theorem enhanceField_prov {src doc d : Json} {path : String} (h : enhanceField src doc path = some d)
    {q : List Step} {v : Json} (hq : gat d q = some v) (hl : Leaf v) :
    gat doc q = some v ∨ v = .null ∨ FromFrame src (split '.' path) q v := by
  unfold enhanceField at h
  obtain ⟨d1, h1, h⟩ := Option.bind_eq_some_iff.mp h
  obtain ⟨d2, h2, h⟩ := Option.bind_eq_some_iff.mp h
  rcases enhanceMember_prov (by simp) h hq hl with h | h | h
  · rcases enhanceMember_prov (by simp) h2 h hl with h | h | h
    · rw [sset_member (.inl rfl)] at h1
      rcases ssetC_prov _ _ doc d1 h1 q v h hl with h | h | ⟨q1, r, e, hf, hv⟩
      · exact .inl h
      · exact .inr (.inl h)
      · obtain ⟨q2, rfl, hf2⟩ := addr_snoc (.inl rfl) hf
        cases r with
        | nil =>
          simp [gat] at hv
          exact .inr (.inr (.inl ⟨hv.symm, q2, by simpa using e⟩))
        | cons s r => simp [gat] at hv
    · exact .inr (.inl h)
    · exact .inr (.inr h)
  · exact .inr (.inl h)
  · exact .inr (.inr h)

theorem enhanceAll_prov {src : Json} : ∀ (paths : List String) (doc d : Json),
    enhanceAll src doc paths = some d → ∀ (q : List Step) (v : Json), gat d q = some v → Leaf v →
    gat doc q = some v ∨ v = .null ∨ ∃ p ∈ paths, FromFrame src (split '.' p) q v
  | [], doc, d, h, q, v, hq, _ => by
    simp only [enhanceAll] at h
    cases h
    exact .inl hq
  | p :: ps, doc, d, h, q, v, hq, hl => by
    simp only [enhanceAll] at h
    obtain ⟨d1, h1, h⟩ := Option.bind_eq_some_iff.mp h
    rcases enhanceAll_prov ps d1 d h q v hq hl with h | h | ⟨x, hx, h⟩
    · rcases enhanceField_prov h1 h hl with h | h | h
      · exact .inl h
      · exact .inr (.inl h)
      · exact .inr (.inr ⟨p, List.mem_cons_self .., h⟩)
    · exact .inr (.inl h)
    · exact .inr (.inr ⟨x, List.mem_cons_of_mem _ hx, h⟩)

/-- The pairs of the fields are those of the selected places. -/
theorem allPairs_mem {eval : List String → Json → Option (List (List Step))} {src : Json} {fields : List Field}
    {x : PathPair} (h : x ∈ allPairs eval src fields) : ∃ f ∈ fields, ∃ ps, eval f.path src = some ps ∧
      ∃ p ∈ ps, ∃ np, SameShape p np ∧ x = ⟨keyOfPlace np, keyOfPlace p⟩ := by
  unfold allPairs at h
  obtain ⟨f, hf, h⟩ := List.mem_flatMap.mp h
  unfold compactArrayPaths at h
  cases he : eval f.path src with
  | none => rw [he] at h; simp at h
  | some ps =>
    rw [he] at h
    simp only [Option.map_some, Option.getD_some, compactLoop_renum] at h
    refine ⟨f, hf, ps, he, ?_⟩
    have hsh := renumAll_shape ps []
    clear he
    generalize renumAll [] ps = nps at h hsh
    induction hsh with
    | nil => simp at h
    | @cons p np ps nps h1 h2 ih =>
      simp only [List.zipWith_cons_cons, List.mem_cons] at h
      rcases h with rfl | h
      · exact ⟨p, List.mem_cons_self .., np, h1, rfl⟩
      · obtain ⟨p', hp', r⟩ := ih h
        exact ⟨p', List.mem_cons_of_mem _ hp', r⟩

/-- …and the other way round. -/
theorem allPairs_of {eval : List String → Json → Option (List (List Step))} {src : Json} {fields : List Field}
    {f : Field} (hf : f ∈ fields) {ps : List (List Step)} (hps : eval f.path src = some ps) {p : List Step}
    (hp : p ∈ ps) : ∃ np, SameShape p np ∧ (⟨keyOfPlace np, keyOfPlace p⟩ : PathPair) ∈
      allPairs eval src fields := by
  have hsh := renumAll_shape ps []
  have key : ∃ np, SameShape p np ∧ (⟨keyOfPlace np, keyOfPlace p⟩ : PathPair) ∈
      List.zipWith (fun p np => (⟨keyOfPlace np, keyOfPlace p⟩ : PathPair)) ps (renumAll [] ps) := by
    clear hps
    generalize renumAll [] ps = nps at hsh
    induction hsh with
    | nil => simp at hp
    | @cons p' np ps nps h1 h2 ih =>
      rcases List.mem_cons.mp hp with rfl | hp
      · exact ⟨np, h1, by simp⟩
      · obtain ⟨np', h3, h4⟩ := ih hp
        exact ⟨np', h3, by simp [h4]⟩
  obtain ⟨np, h1, h2⟩ := key
  refine ⟨np, h1, ?_⟩
  unfold allPairs
  refine List.mem_flatMap.mpr ⟨f, hf, ?_⟩
  unfold compactArrayPaths
  rw [hps]
  simpa [compactLoop_renum] using h2

theorem keyOfPlace_splitLast {np : List Step} (hne : np ≠ []) (hd : NoDots np) :
    (splitLast (keyOfPlace np)).1 = keyOfPlace np.dropLast := by
  rcases List.eq_nil_or_concat np with rfl | ⟨c, s, rfl⟩
  · exact absurd rfl hne
  · rw [List.concat_eq_append] at *
    rw [splitLast_key hd]
    simp

theorem shape_length {p np : List Step} (h : SameShape p np) : np.length = p.length := by
  induction h with
  | nil => rfl
  | name _ _ ih => simp [ih]
  | idx _ _ _ ih => simp [ih]

theorem shape_names {p np : List Step} (h : SameShape p np) (hn : Names p) : np = p := by
  induction h with
  | nil => rfl
  | name k _ ih => rw [ih (fun s hs => hn s (List.mem_cons_of_mem _ hs))]
  | idx n m _ ih =>
    obtain ⟨k, hk⟩ := hn _ (List.mem_cons_self ..)
    cases hk

/-- The path leads to a container on the way to a selected place, as renumbered. -/
def ContainerOf (eval : List String → Json → Option (List (List Step))) (src : Json) (fields : List Field)
    (path : String) : Prop :=
  ∃ f ∈ fields, ∃ ps, eval f.path src = some ps ∧ ∃ p ∈ ps, NoSchema p ∧ ∃ np, SameShape p np ∧
    ∃ n, n < np.length ∧ path = keyOfPlace (np.take n)

variable {eval : List String → Json → Option (List (List Step))}

theorem explicit_container {src : Json} {fields : List Field}
    (hp : ∀ f ∈ fields, ∀ ps, eval f.path src = some ps → ∀ p ∈ ps, p ≠ [] ∧ ∀ s ∈ p, s.Plain)
    {path : String} (h : path ∈ explicitOf (allPairs eval src fields)) :
    ∃ f ∈ fields, ∃ ps, eval f.path src = some ps ∧ ∃ p ∈ ps, NoSchema p ∧ ∃ np, SameShape p np ∧
      path = keyOfPlace np.dropLast ∧ np ≠ [] := by
  unfold explicitOf at h
  obtain ⟨x, hx, rfl⟩ := List.mem_map.mp h
  obtain ⟨hx, hc⟩ := List.mem_filter.mp hx
  obtain ⟨f, hf, ps, hps, p, hpm, np, hsh, rfl⟩ := allPairs_mem hx
  obtain ⟨hne, hpl⟩ := hp f hf ps hps p hpm
  have hnp : np ≠ [] := by
    rintro rfl
    cases hsh
    exact hne rfl
  refine ⟨f, hf, ps, hps, p, hpm, ?_, np, hsh, ?_, hnp⟩
  · have hc : ¬ contains (keyOfPlace np) "credentialSchema" = true := by simpa using hc
    exact Classical.not_not.mp ((contains_schema hsh).not.mp hc)
  · exact keyOfPlace_splitLast hnp (noDots_shape hsh (noDots_of_plain hpl))

theorem split_key {c : List Step} (hne : c ≠ []) (hd : NoDots c) :
    split '.' (keyOfPlace c) = c.map Step.text :=
  split_joinC '.' _ (by simpa using hne) (noDots_map hd)

theorem beginnings_key {c : List Step} (hd : NoDots c) {path : String} (h : path ∈ beginnings (keyOfPlace c)) :
    ∃ n, 0 < n ∧ n < c.length ∧ path = keyOfPlace (c.take n) := by
  unfold beginnings at h
  by_cases hne : c = []
  · subst hne
    have : split '.' (keyOfPlace []) = [""] := by decide +kernel
    rw [this] at h
    simp at h
  · rw [split_key hne hd] at h
    obtain ⟨i, hi, rfl⟩ := List.mem_map.mp h
    have hi : i < c.length - 1 := by simpa using hi
    exact ⟨i + 1, by omega, by omega, by simp [keyOfPlace, List.map_take]⟩

theorem mem_beginnings {c : List Step} (hd : NoDots c) {n : Nat} (h0 : 0 < n) (h1 : n < c.length) :
    keyOfPlace (c.take n) ∈ beginnings (keyOfPlace c) := by
  have hne : c ≠ [] := by rintro rfl; simp at h1
  unfold beginnings
  rw [split_key hne hd]
  refine List.mem_map.mpr ⟨n - 1, by simp; omega, ?_⟩
  rw [show n - 1 + 1 = n by omega]
  simp [keyOfPlace, List.map_take]

theorem noDots_sub {p q : List Step} (h : NoDots q) (hs : ∀ s ∈ p, s ∈ q) : NoDots p :=
  fun s hs' => h s (hs s hs')

theorem container_of {src : Json} {fields : List Field}
    (hp : ∀ f ∈ fields, ∀ ps, eval f.path src = some ps → ∀ p ∈ ps, p ≠ [] ∧ ∀ s ∈ p, s.Plain)
    {path : String} (h : path ∈ explicitOf (allPairs eval src fields) ∨
      path ∈ intermOf (explicitOf (allPairs eval src fields))) : ContainerOf eval src fields path := by
  rcases h with h | h
  · obtain ⟨f, hf, ps, hps, p, hpm, hns, np, hsh, rfl, hne⟩ := explicit_container hp h
    refine ⟨f, hf, ps, hps, p, hpm, hns, np, hsh, np.length - 1, ?_, ?_⟩
    · have := List.length_pos_of_ne_nil hne
      omega
    · rw [List.dropLast_eq_take]
  · unfold intermOf at h
    obtain ⟨h, _⟩ := List.mem_filter.mp h
    obtain ⟨e, he, h⟩ := List.mem_flatMap.mp h
    obtain ⟨f, hf, ps, hps, p, hpm, hns, np, hsh, rfl, hne⟩ := explicit_container hp he
    have hnd : NoDots np := noDots_shape hsh (noDots_of_plain (hp f hf ps hps p hpm).2)
    obtain ⟨n, h0, h1, rfl⟩ := beginnings_key (noDots_sub hnd (fun s hs => List.dropLast_subset _ hs)) h
    have h1 : n < np.length - 1 := by simpa using h1
    refine ⟨f, hf, ps, hps, p, hpm, hns, np, hsh, n, by omega, ?_⟩
    rw [List.dropLast_eq_take, List.take_take, Nat.min_eq_left (by omega)]

/-- **C100.** What the reveal document shows beyond the limited document (C96): the markers
`@explicit: true`, and the members `type` and `@context` of the containers on the way to the selected
places (at the renumbered positions), with what is inside them.  (Names on the selected places are
plain, the root is not selected and the credential has no member with an empty name.) -/
theorem reveal_only_partial {order : List String → List String} (ho : ∀ l x, x ∈ order l ↔ x ∈ l)
    {k : Constraints} {raw : JObj} (hraw : get? raw "" = none) {subjects : List Vfy.Subject} {L : Json}
    (hp : ∀ f ∈ k.fields, ∀ ps, eval f.path (.obj raw) = some ps → ∀ p ∈ ps, p ≠ [] ∧ ∀ s ∈ p, s.Plain)
    (h : revealDoc eval order k raw subjects = some L) {q : List Step} {v : Json} (hq : gat L q = some v)
    (hl : Leaf v) :
    v = .null ∨ (v = .bool true ∧ ∃ q1, q = q1 ++ [.name "@explicit"]) ∨
    (∃ L0, limitedDoc eval k raw subjects = some L0 ∧ gat L0 q = some v) ∨
    ∃ f ∈ k.fields, ∃ ps, eval f.path (.obj raw) = some ps ∧ ∃ p ∈ ps, NoSchema p ∧
      ∃ np n, SameShape p np ∧ 0 < n ∧ n < p.length ∧ ∃ cf ∈ ["type", "@context"], ∃ q1 c r,
        q1.map Step.text = (np.take n).map Step.text ∧ c.map Step.text = (np.take n).map Step.text ∧
        q = q1 ++ .name cf :: r ∧ gat (.obj raw) (c ++ .name cf :: r) = some v := by
  unfold revealDoc at h
  obtain ⟨L0, h0, h⟩ := Option.bind_eq_some_iff.mp h
  obtain ⟨d1, h1, h⟩ := Option.bind_eq_some_iff.mp h
  obtain ⟨d2, h2, h⟩ := Option.bind_eq_some_iff.mp h
  have frame : ∀ path, (path ∈ explicitOf (allPairs eval (.obj raw) k.fields) ∨
      path ∈ intermOf (explicitOf (allPairs eval (.obj raw) k.fields))) →
      FromFrame (.obj raw) (split '.' path) q v →
      (v = .bool true ∧ ∃ q1, q = q1 ++ [.name "@explicit"]) ∨
      ∃ f ∈ k.fields, ∃ ps, eval f.path (.obj raw) = some ps ∧ ∃ p ∈ ps, NoSchema p ∧
        ∃ np n, SameShape p np ∧ 0 < n ∧ n < p.length ∧ ∃ cf ∈ ["type", "@context"], ∃ q1 c r,
          q1.map Step.text = (np.take n).map Step.text ∧ c.map Step.text = (np.take n).map Step.text ∧
          q = q1 ++ .name cf :: r ∧ gat (.obj raw) (c ++ .name cf :: r) = some v := by
    intro path hpath hf
    rcases hf with hf | ⟨cf, hcf, q1, c, r, hq1, hc, e, hg⟩
    · exact .inl hf
    · refine .inr ?_
      obtain ⟨f, hf, ps, hps, p, hpm, hns, np, hsh, n, hn, rfl⟩ := container_of hp hpath
      have hpl : ∀ s ∈ np, s.Plain := plain_shape hsh (hp f hf ps hps p hpm).2
      have hpt : ∀ s ∈ np.take n, s.Plain := fun s hs => hpl s (List.mem_of_mem_take hs)
      by_cases hz : n = 0
      · subst hz
        exfalso
        have : split '.' (keyOfPlace (np.take 0)) = [""] := by
          simp only [List.take_zero]; decide +kernel
        rw [this] at hc
        cases hc with
        | @cons s _ c _ h1 h2 =>
          cases h2
          rcases h1 with ⟨k', rfl, rfl⟩ | ⟨n, rfl, hn⟩
          · simp [gat, hraw] at hg
          · simp [gat] at hg
      · have htn : np.take n ≠ [] := by
          intro e
          have hlen : (np.take n).length = n := by rw [List.length_take]; omega
          rw [e] at hlen
          exact hz hlen.symm
        rw [split_key htn (noDots_of_plain hpt)] at hq1 hc
        exact ⟨f, hf, ps, hps, p, hpm, hns, np, n, hsh, by omega, by rw [← shape_length hsh]; exact hn,
          cf, hcf, q1, c, r, addr_text hpt hq1, addr_text hpt hc, e, hg⟩
  rcases enhanceAll_prov _ d2 L h q v hq hl with h | h | ⟨path, hpm, h⟩
  · rcases enhanceAll_prov _ d1 d2 h2 q v h hl with h | h | ⟨path, hpm, h⟩
    · unfold sset at h1
      rw [if_neg (by decide), show split '.' "@explicit" = ["@explicit"] by decide +kernel] at h1
      rcases ssetC_prov _ _ L0 d1 h1 q v h hl with h | h | ⟨q1, r, e, hf, hv⟩
      · exact .inr (.inr (.inl ⟨L0, h0, h⟩))
      · exact .inl h
      · obtain ⟨q2, rfl, hf2⟩ := addr_snoc (cs := []) (.inl rfl) hf
        cases r with
        | nil =>
          simp [gat] at hv
          exact .inr (.inl ⟨hv.symm, q2, by simpa using e⟩)
        | cons s r => simp [gat] at hv
    · exact .inl h
    · exact (frame path (.inl ((ho _ _).mp hpm)) h).elim (fun h => .inr (.inl h)) (fun h => .inr (.inr (.inr h)))
  · exact .inl h
  · exact (frame path (.inr ((ho _ _).mp hpm)) h).elim (fun h => .inr (.inl h)) (fun h => .inr (.inr (.inr h)))

/-! ## The markers are there -/

theorem ssetC_names (w : Json) : ∀ (p : List Step) (j j' : Json), Names p → (∀ s ∈ p, s.Plain) →
    ssetC w (p.map Step.text) j = some j' → gat j' p = some w
  | [], j, j', _, _, h => by
    have : j' = w := by cases j <;> simp [ssetC] at h <;> exact h.symm
    subst this
    exact gat_nil _
  | s :: p, j, j', hn, hp, h => by
    have hn' : Names p := fun x hx => hn x (List.mem_cons_of_mem _ hx)
    have hp' : ∀ x ∈ p, x.Plain := fun x hx => hp x (List.mem_cons_of_mem _ hx)
    have hb := build_self w (s :: p) hp
    obtain ⟨k, rfl⟩ := hn s (List.mem_cons_self ..)
    have hi := compIdx_text_name (hp _ (List.mem_cons_self ..))
    have scalar : some (build w ((Step.name k :: p).map Step.text)) = some j' →
        gat j' (.name k :: p) = some w := by
      intro h
      rw [← Option.some.inj h]
      exact hb
    cases j with
    | null => exact scalar h
    | bool b => exact scalar h
    | num n => exact scalar h
    | str s => exact scalar h
    | arr l =>
      simp only [List.map_cons, ssetC, hi] at h
      cases h
    | obj o =>
      simp only [List.map_cons, Step.text, ssetC] at h
      cases hg : get? o k with
      | none =>
        rw [hg] at h
        have := Option.some.inj h
        subst this
        simp only [gat, get?_set_self, Option.bind_some]
        exact build_self w p hp'
      | some x =>
        rw [hg] at h
        obtain ⟨y, hy, rfl⟩ := Option.map_eq_some_iff.mp h
        simp only [gat, get?_set_self, Option.bind_some]
        exact ssetC_names w p x y hn' hp' hy

/-- A value on a way through objects only stays when something is written that is neither on its way nor
below it. -/
theorem ssetC_keep (w : Json) : ∀ (m : List Step) (cs : List String) (j j' x : Json), Names m →
    gat j m = some x → ssetC w cs j = some j' → ¬ cs <+: m.map Step.text → ¬ m.map Step.text <+: cs →
    gat j' m = some x
  | [], cs, _, _, _, _, _, _, _, h2 => absurd (List.nil_prefix) h2
  | _ :: _, [], _, _, _, _, _, _, h1, _ => absurd (List.nil_prefix) h1
  | s :: m, c :: cs, j, j', x, hn, hx, h, h1, h2 => by
    obtain ⟨k, rfl⟩ := hn s (List.mem_cons_self ..)
    cases j <;> simp only [gat, reduceCtorEq] at hx
    case obj o =>
      obtain ⟨y, hy, hx2⟩ := Option.bind_eq_some_iff.mp hx
      simp only [ssetC] at h
      by_cases e : c = k
      · subst e
        rw [hy] at h
        obtain ⟨z, hz, rfl⟩ := Option.map_eq_some_iff.mp h
        simp only [gat, get?_set_self, Option.bind_some]
        refine ssetC_keep w m cs y z x (fun a ha => hn a (List.mem_cons_of_mem _ ha)) hx2 hz ?_ ?_
        · intro hc
          exact h1 (by simpa [Step.text, List.cons_prefix_cons] using hc)
        · intro hc
          exact h2 (by simpa [Step.text, List.cons_prefix_cons] using hc)
      · cases hg : get? o c with
        | none =>
          rw [hg] at h
          have := Option.some.inj h
          subst this
          simp only [gat, get?_set_ne _ _ e, hy, Option.bind_some]
          exact hx2
        | some z =>
          rw [hg] at h
          obtain ⟨z', hz', rfl⟩ := Option.map_eq_some_iff.mp h
          simp only [gat, get?_set_ne _ _ e, hy, Option.bind_some]
          exact hx2

theorem write_keeps {w : Json} {c : List Step} {comps : List String} {cf : String} {j j' : Json}
    (hcf : Special cf) (hw : cf = "@explicit" → w = .bool true) (hn : Names c)
    (hpl : ∀ s ∈ c, s.Plain)
    (hc : ∀ s ∈ c, ∀ x, Special x → s ≠ .name x) (hcomps : "@explicit" ∉ comps)
    (h : ssetC w (comps ++ [cf]) j = some j') (hg : gat j (c ++ [.name "@explicit"]) = some (.bool true)) :
    gat j' (c ++ [.name "@explicit"]) = some (.bool true) := by
  have hnm : Names (c ++ [.name "@explicit"]) := by
    intro s hs
    rcases List.mem_append.mp hs with hs | hs
    · exact hn s hs
    · exact ⟨_, by simpa using hs⟩
  have hplm : ∀ s ∈ c ++ [Step.name "@explicit"], s.Plain := by
    intro s hs
    rcases List.mem_append.mp hs with hs | hs
    · exact hpl s hs
    · have : s = .name "@explicit" := by simpa using hs
      subst this
      exact ⟨by decide, by decide, by decide⟩
  by_cases e : comps ++ [cf] = (c ++ [Step.name "@explicit"]).map Step.text
  · have : cf = "@explicit" := by
      rw [List.map_append] at e
      have := List.append_inj_right' e rfl
      simpa [Step.text] using this
    rw [hw this, e] at h
    exact ssetC_names _ _ _ _ hnm hplm h
  · refine ssetC_keep w _ _ j j' _ hnm hg h ?_ ?_
    · intro hpre
      rw [List.map_append] at hpre
      have hpre : comps ++ [cf] <+: c.map Step.text ++ ["@explicit"] := hpre
      rcases List.prefix_concat_iff.mp (by simpa using hpre) with h1 | h1
      · exact e (by simpa [Step.text] using h1)
      · have hm : cf ∈ c.map Step.text := h1.subset (by simp)
        obtain ⟨s, hs, hst⟩ := List.mem_map.mp hm
        obtain ⟨k, rfl⟩ := hn s hs
        exact hc _ hs cf hcf (by simpa [Step.text] using hst)
    · intro hpre
      rcases List.prefix_concat_iff.mp (by simpa using hpre) with h1 | h1
      · exact e (by simpa [Step.text] using h1.symm)
      · exact hcomps (h1.subset (by simp [Step.text]))

theorem member_keeps {src : Json} {c : List Step} {path cf : String} {j j' : Json}
    (hcf : cf = "type" ∨ cf = "@context") (hn : Names c) (hpl : ∀ s ∈ c, s.Plain)
    (hc : ∀ s ∈ c, ∀ x, Special x → s ≠ .name x) (hcomps : "@explicit" ∉ split '.' path)
    (h : enhanceMember src path cf j = some j')
    (hg : gat j (c ++ [.name "@explicit"]) = some (.bool true)) :
    gat j' (c ++ [.name "@explicit"]) = some (.bool true) := by
  rcases enhanceMember_cases (.inr hcf) h with rfl | ⟨v, _, hs⟩
  · exact hg
  · exact write_keeps (.inr hcf) (by rintro rfl; rcases hcf with h | h <;> simp at h) hn hpl hc hcomps hs hg

theorem field_keeps {src : Json} {c : List Step} {path : String} {j j' : Json} (hn : Names c)
    (hpl : ∀ s ∈ c, s.Plain)
    (hc : ∀ s ∈ c, ∀ x, Special x → s ≠ .name x) (hcomps : "@explicit" ∉ split '.' path)
    (h : enhanceField src j path = some j')
    (hg : gat j (c ++ [.name "@explicit"]) = some (.bool true) ∨ split '.' path = c.map Step.text) :
    gat j' (c ++ [.name "@explicit"]) = some (.bool true) := by
  unfold enhanceField at h
  obtain ⟨d1, h1, h⟩ := Option.bind_eq_some_iff.mp h
  obtain ⟨d2, h2, h⟩ := Option.bind_eq_some_iff.mp h
  rw [sset_member (.inl rfl)] at h1
  refine member_keeps (.inr rfl) hn hpl hc hcomps h (member_keeps (.inl rfl) hn hpl hc hcomps h2 ?_)
  rcases hg with hg | hg
  · exact write_keeps (.inl rfl) (fun _ => rfl) hn hpl hc hcomps h1 hg
  · rw [hg] at h1
    have e : c.map Step.text ++ ["@explicit"] = (c ++ [Step.name "@explicit"]).map Step.text := by
      simp [Step.text]
    rw [e] at h1
    refine ssetC_names _ _ _ _ ?_ ?_ h1
    · intro s hs
      rcases List.mem_append.mp hs with hs | hs
      · exact hn s hs
      · exact ⟨_, by simpa using hs⟩
    · intro s hs
      rcases List.mem_append.mp hs with hs | hs
      · exact hpl s hs
      · have : s = .name "@explicit" := by simpa using hs
        subst this
        exact ⟨by decide, by decide, by decide⟩

theorem all_keeps {src : Json} {c : List Step} (hn : Names c) (hpl : ∀ s ∈ c, s.Plain)
    (hc : ∀ s ∈ c, ∀ x, Special x → s ≠ .name x) : ∀ (paths : List String) (j j' : Json),
    (∀ p ∈ paths, "@explicit" ∉ split '.' p) → enhanceAll src j paths = some j' →
    (gat j (c ++ [.name "@explicit"]) = some (.bool true) ∨ ∃ p ∈ paths, split '.' p = c.map Step.text) →
    gat j' (c ++ [.name "@explicit"]) = some (.bool true)
  | [], j, j', _, h, hg => by
    simp only [enhanceAll] at h
    cases h
    rcases hg with hg | ⟨p, hp, _⟩
    · exact hg
    · simp at hp
  | p :: ps, j, j', hcomps, h, hg => by
    simp only [enhanceAll] at h
    obtain ⟨d, hd, h⟩ := Option.bind_eq_some_iff.mp h
    refine all_keeps hn hpl hc ps d j' (fun x hx => hcomps x (List.mem_cons_of_mem _ hx)) h ?_
    have hp := hcomps p (List.mem_cons_self ..)
    rcases hg with hg | ⟨x, hx, hg⟩
    · exact .inl (field_keeps hn hpl hc hp hd (.inl hg))
    · rcases List.mem_cons.mp hx with rfl | hx
      · exact .inl (field_keeps hn hpl hc hp hd (.inr hg))
      · exact .inr ⟨x, hx, hg⟩

/-- **C100.** The document node itself and every object on the way to a selected place is marked
`@explicit: true`, so the frame shows nothing of it that was not named.  (The way goes through objects
only, and through none called `type`, `@context` or `@explicit`.) -/
theorem reveal_marked_partial {order : List String → List String} (ho : ∀ l x, x ∈ order l ↔ x ∈ l)
    {k : Constraints} {raw : JObj} {subjects : List Vfy.Subject} {L : Json}
    (hp : ∀ f ∈ k.fields, ∀ ps, eval f.path (.obj raw) = some ps → ∀ p ∈ ps, p ≠ [] ∧ ∀ s ∈ p, s.Plain)
    (hs : ∀ f ∈ k.fields, ∀ ps, eval f.path (.obj raw) = some ps → ∀ p ∈ ps, ∀ s ∈ p.dropLast,
      s ≠ .name "type" ∧ s ≠ .name "@context" ∧ s ≠ .name "@explicit")
    (h : revealDoc eval order k raw subjects = some L) :
    gat L [.name "@explicit"] = some (.bool true) ∧
    ∀ f ∈ k.fields, ∀ ps, eval f.path (.obj raw) = some ps → ∀ p ∈ ps, NoSchema p → Names p →
      ∀ n, n < p.length → gat L (p.take n ++ [.name "@explicit"]) = some (.bool true) := by
  unfold revealDoc at h
  obtain ⟨L0, h0, h⟩ := Option.bind_eq_some_iff.mp h
  obtain ⟨d1, h1, h⟩ := Option.bind_eq_some_iff.mp h
  obtain ⟨d2, h2, h⟩ := Option.bind_eq_some_iff.mp h
  have hcomps : ∀ path, (path ∈ explicitOf (allPairs eval (.obj raw) k.fields) ∨
      path ∈ intermOf (explicitOf (allPairs eval (.obj raw) k.fields))) → "@explicit" ∉ split '.' path := by
    intro path hpath
    obtain ⟨f, hf, ps, hps, p, hpm, hns, np, hsh, n, hn, rfl⟩ := container_of hp hpath
    have hpt : ∀ s ∈ np.take n, s.Plain :=
      fun s hs => plain_shape hsh (hp f hf ps hps p hpm).2 s (List.mem_of_mem_take hs)
    by_cases htn : np.take n = []
    · rw [htn]
      decide +kernel
    · rw [split_key htn (noDots_of_plain hpt)]
      intro hm
      obtain ⟨s, hs1, hst⟩ := List.mem_map.mp hm
      have key : ∀ {p np : List Step}, SameShape p np → ∀ k n, n < np.length → Step.name k ∈ np.take n →
          Step.name k ∈ p.dropLast := by
        intro p np hsh
        induction hsh with
        | nil => intro k n hn _; simp at hn
        | @name k' p q hpq ih =>
          intro k n hn hm
          cases n with
          | zero => simp at hm
          | succ n =>
            have hq : p ≠ [] := by
              rintro rfl
              cases hpq
              simp at hn
            rw [List.dropLast_cons_of_ne_nil hq]
            rcases List.mem_cons.mp hm with e | hm
            · rw [e]; exact List.mem_cons_self ..
            · exact List.mem_cons_of_mem _ (ih k n (by simpa using hn) hm)
        | @idx a b p q hpq ih =>
          intro k n hn hm
          cases n with
          | zero => simp at hm
          | succ n =>
            have hq : p ≠ [] := by
              rintro rfl
              cases hpq
              simp at hn
            rw [List.dropLast_cons_of_ne_nil hq]
            rcases List.mem_cons.mp hm with e | hm
            · cases e
            · exact List.mem_cons_of_mem _ (ih k n (by simpa using hn) hm)
      cases s with
      | name k =>
        have hk : k = "@explicit" := hst
        subst hk
        exact (hs f hf ps hps p hpm _ (key hsh _ n hn hs1)).2.2 rfl
      | idx m =>
        have : compIdx (Step.idx m).text = some m := compIdx_toString m
        rw [hst, special_idx (.inl rfl)] at this
        cases this
  have all : ∀ c : List Step, Names c → (∀ s ∈ c, s.Plain) → (∀ s ∈ c, ∀ x, Special x → s ≠ .name x) →
      (c = [] ∨ (∃ path ∈ explicitOf (allPairs eval (.obj raw) k.fields), split '.' path = c.map Step.text) ∨
        ∃ path ∈ intermOf (explicitOf (allPairs eval (.obj raw) k.fields)),
          split '.' path = c.map Step.text) →
      gat L (c ++ [.name "@explicit"]) = some (.bool true) := by
    intro c hn hpl hc hor
    refine all_keeps hn hpl hc _ d2 L (fun p hpm => hcomps p (.inr ((ho _ _).mp hpm))) h ?_
    rcases hor with rfl | ⟨path, hpath, e⟩ | ⟨path, hpath, e⟩
    · refine .inl (all_keeps hn hpl hc _ d1 d2 (fun p hpm => hcomps p (.inl ((ho _ _).mp hpm))) h2 (.inl ?_))
      unfold sset at h1
      rw [if_neg (by decide), show split '.' "@explicit" = [Step.name "@explicit"].map Step.text by
        decide +kernel] at h1
      refine ssetC_names _ _ _ _ ?_ ?_ h1
      · intro s hs; exact ⟨_, by simpa using hs⟩
      · intro s hs
        have : s = .name "@explicit" := by simpa using hs
        subst this
        exact ⟨by decide, by decide, by decide⟩
    · exact .inl (all_keeps hn hpl hc _ d1 d2 (fun p hpm => hcomps p (.inl ((ho _ _).mp hpm))) h2
        (.inr ⟨path, (ho _ _).mpr hpath, e⟩))
    · exact .inr ⟨path, (ho _ _).mpr hpath, e⟩
  have root := all [] (fun s hs => by simp at hs) (fun s hs => by simp at hs) (fun s hs => by simp at hs)
    (.inl rfl)
  refine ⟨root, ?_⟩
  intro f hf ps hps p hpm hns hn n hlt
  by_cases hz : n = 0
  · subst hz
    exact root
  have hpl := (hp f hf ps hps p hpm).2
  have hsub : ∀ s ∈ p.take n, s ∈ p.dropLast := by
    intro s hs
    rw [List.dropLast_eq_take]
    have : p.take n <+: p.take (p.length - 1) := List.take_prefix_take_left (by omega)
    exact this.subset hs
  have hne : p.take n ≠ [] := by
    intro e
    have hlen : (p.take n).length = n := by rw [List.length_take]; omega
    rw [e] at hlen
    exact hz hlen.symm
  have hpt : ∀ s ∈ p.take n, s.Plain := fun s hs => hpl s (List.mem_of_mem_take hs)
  refine all (p.take n) (fun s hs => hn s (List.mem_of_mem_take hs)) hpt ?_ ?_
  · intro s hs' x hx
    obtain ⟨a, b, c⟩ := hs f hf ps hps p hpm s (hsub s hs')
    rcases hx with rfl | rfl | rfl
    · exact c
    · exact a
    · exact b
  · obtain ⟨np, hsh, hmem⟩ := allPairs_of hf hps hpm
    have hnp := shape_names hsh hn
    subst hnp
    have hex : keyOfPlace np.dropLast ∈ explicitOf (allPairs eval (.obj raw) k.fields) := by
      unfold explicitOf
      refine List.mem_map.mpr ⟨_, List.mem_filter.mpr ⟨hmem, ?_⟩,
        keyOfPlace_splitLast (hp f hf ps hps _ hpm).1 (noDots_of_plain hpl)⟩
      have : ¬ contains (keyOfPlace np) "credentialSchema" = true := fun hc => (contains_schema hsh).mp hc hns
      simpa using this
    have hkey : split '.' (keyOfPlace (np.take n)) = (np.take n).map Step.text :=
      split_key hne (noDots_of_plain hpt)
    by_cases hin : keyOfPlace (np.take n) ∈ explicitOf (allPairs eval (.obj raw) k.fields)
    · exact .inr (.inl ⟨_, hin, hkey⟩)
    · refine .inr (.inr ⟨_, ?_, hkey⟩)
      unfold intermOf
      refine List.mem_filter.mpr ⟨List.mem_flatMap.mpr ⟨_, hex, ?_⟩, by simpa using hin⟩
      have hlt' : n < np.length - 1 := by
        rcases Nat.lt_or_ge n (np.length - 1) with h | h
        · exact h
        · exfalso
          have : n = np.length - 1 := by omega
          subst this
          rw [← List.dropLast_eq_take] at hin
          exact hin hex
      have hb := mem_beginnings (c := np.dropLast)
        (noDots_sub (noDots_of_plain hpl) (fun s hs => List.dropLast_subset _ hs)) (n := n) (by omega)
        (by simpa using hlt')
      rw [List.dropLast_eq_take, List.take_take, Nat.min_eq_left (by omega)] at hb
      rw [List.dropLast_eq_take]
      exact hb

end VC.PE
