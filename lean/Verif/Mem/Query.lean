import Verif.Mem.Props
/-!
# The in-memory store: queries (C29)
-/

namespace VC.Mem

open VC

variable {β γ : Type}

/-- An entry meets a criterion: it has a tag of that name, with that value unless the value is
empty. -/
def Meets (e : Entry β) (c : String × String) : Prop :=
  ∃ t ∈ e.tags, t.name = c.1 ∧ (c.2 = "" ∨ t.value = c.2)

theorem tagMatch_iff (c : String × String) (e : Entry β) : tagMatch c.1 c.2 e = true ↔ Meets e c := by
  simp [tagMatch, Meets]

theorem mem_matching {db : Db β} (wf : GoMap.WF db) (c : String × String) (k : String) (e : Entry β) :
    (k, e) ∈ matching db c.1 c.2 ↔ GoMap.get? db k = some e ∧ Meets e c := by
  simp only [matching, List.mem_filter, tagMatch_iff, GoMap.mem_iff_get? wf]

/-- With distinct tag names, each criterion keeps its own result. -/
theorem collect_distinct (l : List (Db β × (String × String))) :
    ∀ m : GoMap (List (String × Entry β)), (l.map (fun x => x.2.1)).Nodup →
      (∀ x ∈ l, x.2.1 ∉ GoMap.keys m) →
      collect l m = m ++ l.map (fun x => (x.2.1, matching x.1 x.2.1 x.2.2)) := by
  induction l with
  | nil => intro m _ _; simp [collect]
  | cons x l ih =>
    intro m hn hm
    obtain ⟨db, c⟩ := x
    simp only [List.map_cons, List.nodup_cons] at hn
    have hset : ∀ (m : GoMap (List (String × Entry β))) k v, k ∉ GoMap.keys m →
        GoMap.set m k v = m ++ [(k, v)] := by
      intro m k v h
      induction m with
      | nil => rfl
      | cons p m ih =>
        obtain ⟨k', v'⟩ := p
        simp only [GoMap.keys, List.map_cons, List.mem_cons, not_or] at h
        simp only [GoMap.set, if_neg (Ne.symm h.1), List.cons_append]
        rw [ih h.2]
    simp only [collect]
    rw [hset m _ _ (hm (db, c) (by simp)), ih _ hn.2]
    · simp
    · intro y hy
      have h1 := hm y (List.mem_cons_of_mem _ hy)
      simp only [GoMap.keys, List.map_append, List.mem_append, List.map_cons, List.map_nil,
        List.mem_singleton, not_or]
      refine ⟨h1, ?_⟩
      intro e
      exact hn.1 (List.mem_map.mpr ⟨y, hy, e⟩)

/-- The counting loop over a flat list. -/
theorem countLoop (L : List (String × Entry β)) : ∀ (n : GoMap Nat) (d : Db β), GoMap.WF n →
    GoMap.WF (L.foldl countStep (n, d)).1 ∧
    (∀ k, ((GoMap.get? (L.foldl countStep (n, d)).1 k).getD 0) =
      (GoMap.get? n k).getD 0 + (L.map Prod.fst).count k) ∧
    (∀ k, k ∈ GoMap.keys (L.foldl countStep (n, d)).1 ↔ k ∈ GoMap.keys n ∨ k ∈ L.map Prod.fst) ∧
    (∀ k, k ∈ L.map Prod.fst → ∃ e, (k, e) ∈ L ∧
      GoMap.get? (L.foldl countStep (n, d)).2 k = some e) ∧
    (∀ k, k ∉ L.map Prod.fst → GoMap.get? (L.foldl countStep (n, d)).2 k = GoMap.get? d k) := by
  induction L with
  | nil => intro n d wf; simp [wf]
  | cons p L ih =>
    intro n d wf
    rw [List.foldl_cons]
    have wf' : GoMap.WF (countStep (n, d) p).1 := GoMap.wf_set wf _ _
    obtain ⟨i1, i2, i3, i4, i5⟩ := ih (countStep (n, d) p).1 (countStep (n, d) p).2 wf'
    refine ⟨i1, ?_, ?_, ?_, ?_⟩
    · intro k
      rw [i2 k]
      simp only [countStep, GoMap.get?_set, List.map_cons, List.count_cons]
      by_cases hk : p.1 = k
      · subst hk; simp; omega
      · simp [hk]
    · intro k
      rw [i3 k, ← GoMap.get?_isSome_iff, ← GoMap.get?_isSome_iff]
      simp only [countStep, GoMap.get?_set, List.map_cons, List.mem_cons]
      by_cases hk : p.1 = k
      · subst hk; simp
      · simp [hk, Ne.symm hk]
    · intro k hk
      by_cases hL : k ∈ L.map Prod.fst
      · obtain ⟨e, h1, h2⟩ := i4 k hL
        exact ⟨e, List.mem_cons_of_mem _ h1, h2⟩
      · have : p.1 = k := by
          rcases List.mem_cons.mp hk with h | h
          · exact h.symm
          · exact absurd h hL
        subst this
        refine ⟨p.2, by simp, ?_⟩
        rw [i5 _ hL]
        simp [countStep]
    · intro k hk
      simp only [List.map_cons, List.mem_cons, not_or] at hk
      rw [i5 k hk.2]
      simp only [countStep]
      exact GoMap.get?_set_ne _ _ (Ne.symm hk.1)

theorem foldl_flat (results : GoMap (List (String × Entry β))) (st : GoMap Nat × Db β) :
    results.foldl (fun st r => r.2.foldl countStep st) st =
      (results.flatMap (fun r => r.2)).foldl countStep st := by
  induction results generalizing st with
  | nil => rfl
  | cons r rs ih => simp [List.foldl_append, ih]

theorem count_full {zs : List (Db β × (String × String))} (wf : ∀ z ∈ zs, GoMap.WF z.1) (k : String) :
    (((zs.map (fun x => (x.2.1, matching x.1 x.2.1 x.2.2))).flatMap (fun r => r.2)).map Prod.fst).count k
        ≤ zs.length ∧
    ((((zs.map (fun x => (x.2.1, matching x.1 x.2.1 x.2.2))).flatMap (fun r => r.2)).map Prod.fst).count k
        = zs.length ↔ ∀ z ∈ zs, ∃ e, GoMap.get? z.1 k = some e ∧ Meets e z.2) := by
  induction zs with
  | nil => simp
  | cons z zs ih =>
    obtain ⟨i1, i2⟩ := ih (fun y hy => wf y (List.mem_cons_of_mem _ hy))
    simp only [List.map_cons, List.flatMap_cons, List.map_append, List.count_append, List.length_cons,
      List.forall_mem_cons]
    have hn : ((matching z.1 z.2.1 z.2.2).map Prod.fst).Nodup := by
      have := wf z (by simp)
      unfold GoMap.WF GoMap.keys at this
      exact this.sublist (List.filter_sublist.map _)
    have hc : ((matching z.1 z.2.1 z.2.2).map Prod.fst).count k ≤ 1 := List.nodup_iff_count_le_one.mp hn k
    have hm : ((matching z.1 z.2.1 z.2.2).map Prod.fst).count k = 1 ↔
        ∃ e, GoMap.get? z.1 k = some e ∧ Meets e z.2 := by
      rw [show ((matching z.1 z.2.1 z.2.2).map Prod.fst).count k = 1 ↔
        0 < ((matching z.1 z.2.1 z.2.2).map Prod.fst).count k from by omega]
      rw [List.count_pos_iff, List.mem_map]
      constructor
      · rintro ⟨⟨k', e⟩, h, rfl⟩
        exact ⟨e, (mem_matching (wf z (by simp)) z.2 _ e).mp h⟩
      · rintro ⟨e, h⟩
        exact ⟨(k, e), (mem_matching (wf z (by simp)) z.2 k e).mpr h, rfl⟩
    refine ⟨by omega, ?_⟩
    rw [← hm, ← i2]
    omega

/-- The keys of a result come from every criterion, and each entry from one of the snapshots. -/
theorem common_spec {zs : List (Db β × (String × String))} (wf : ∀ z ∈ zs, GoMap.WF z.1)
    (hne : zs ≠ []) (hd : (zs.map (fun x => x.2.1)).Nodup) :
    ((common (collect zs [])).map Prod.fst).Nodup ∧
    (∀ k, k ∈ (common (collect zs [])).map Prod.fst ↔
      ∀ z ∈ zs, ∃ e, GoMap.get? z.1 k = some e ∧ Meets e z.2) ∧
    (∀ k e, (k, e) ∈ common (collect zs []) → ∃ z ∈ zs, GoMap.get? z.1 k = some e) := by
  rw [collect_distinct zs [] hd (by simp [GoMap.keys]), List.nil_append]
  unfold common
  dsimp only
  rw [foldl_flat, List.length_map]
  generalize hL : (zs.map (fun x => (x.2.1, matching x.1 x.2.1 x.2.2))).flatMap (fun r => r.2) = L
  obtain ⟨c1, c2, c3, c4, c5⟩ := countLoop L [] [] GoMap.wf_nil
  generalize hst : L.foldl countStep ([], []) = st at c1 c2 c3 c4 c5
  have hcount := fun k => count_full wf k
  rw [hL] at hcount
  have hlen : 0 < zs.length := by
    cases zs with
    | nil => exact absurd rfl hne
    | cons _ _ => simp
  have hmem : ∀ k e, (k, e) ∈ st.1.filterMap (fun p =>
        if p.2 = zs.length then (GoMap.get? st.2 p.1).map (fun e => (p.1, e)) else none) ↔
      GoMap.get? st.1 k = some zs.length ∧ GoMap.get? st.2 k = some e := by
    intro k e
    rw [List.mem_filterMap]
    constructor
    · rintro ⟨⟨k', n⟩, h1, h2⟩
      dsimp only at h2
      split at h2
      · next h =>
        rw [Option.map_eq_some_iff] at h2
        obtain ⟨e', h3, h4⟩ := h2
        cases h4
        refine ⟨?_, h3⟩
        rw [← h]
        exact GoMap.get?_of_mem c1 h1
      · cases h2
    · rintro ⟨h1, h2⟩
      exact ⟨(k, zs.length), GoMap.mem_of_get? h1, by simp [h2]⟩
  refine ⟨?_, ?_, ?_⟩
  · have hsub : (st.1.filterMap (fun p =>
        if p.2 = zs.length then (GoMap.get? st.2 p.1).map (fun e => (p.1, e)) else none)).map Prod.fst
        |>.Sublist (st.1.map Prod.fst) := by
      generalize st.1 = l
      induction l with
      | nil => simp
      | cons p l ih =>
        simp only [List.filterMap_cons, List.map_cons]
        split
        · exact ih.cons _
        · next b hb =>
          split at hb
          · rw [Option.map_eq_some_iff] at hb
            obtain ⟨e, _, rfl⟩ := hb
            exact ih.cons_cons _
          · cases hb
    exact c1.sublist hsub
  · intro k
    rw [← (hcount k).2, List.mem_map]
    have hg : ∀ k, k ∈ L.map Prod.fst → GoMap.get? st.1 k = some ((L.map Prod.fst).count k) := by
      intro k hk
      have h1 := (c3 k).mpr (.inr hk)
      rw [← GoMap.get?_isSome_iff] at h1
      obtain ⟨n, hn⟩ := Option.isSome_iff_exists.mp h1
      have := c2 k
      rw [hn] at this
      simp at this
      rw [hn, this]
    constructor
    · rintro ⟨⟨k', e⟩, h, rfl⟩
      have h1 := ((hmem _ _).mp h).1
      have := c2 k'
      rw [h1] at this
      simpa using this.symm
    · intro h
      have hk : k ∈ L.map Prod.fst := by
        rw [← List.count_pos_iff]; omega
      obtain ⟨e, _, he⟩ := c4 k hk
      exact ⟨(k, e), (hmem k e).mpr ⟨by rw [hg k hk, h], he⟩, rfl⟩
  · intro k e h
    obtain ⟨h1, h2⟩ := (hmem k e).mp h
    have hk : k ∈ L.map Prod.fst := by
      have : k ∈ GoMap.keys st.1 := by rw [← GoMap.get?_isSome_iff, h1]; rfl
      rcases (c3 k).mp this with h | h
      · simp [GoMap.keys] at h
      · exact h
    obtain ⟨e', h3, h4⟩ := c4 k hk
    rw [h4] at h2
    cases h2
    rw [← hL] at h3
    simp only [List.mem_flatMap, List.mem_map] at h3
    obtain ⟨_, ⟨z, hz, rfl⟩, h5⟩ := h3
    exact ⟨z, hz, ((mem_matching (wf z hz) z.2 k e).mp h5).1⟩

/-! ## Expressions -/

/-- How a criterion is written: `name`, or `name:value`. -/
def renderOne (c : String × Option String) : String :=
  match c.2 with
  | none => c.1
  | some v => c.1 ++ ":" ++ v

/-- An expression: criteria joined by `&&`. -/
def render : List (String × Option String) → String
  | [] => ""
  | [c] => renderOne c
  | c :: cs => renderOne c ++ "&&" ++ render cs

/-- A string without the two special characters. -/
def Plain (s : String) : Prop := ':' ∉ s.toList ∧ '&' ∉ s.toList

theorem splitAmpL_none (l : List Char) (h : '&' ∉ l) : splitAmpL l = [l] := by
  induction l with
  | nil => rfl
  | cons c l ih =>
    simp only [List.mem_cons, not_or] at h
    cases l with
    | nil => rfl
    | cons d l =>
      simp only [splitAmpL]
      rw [if_neg (fun e => h.1 e.1.symm), ih h.2]

theorem splitAmpL_append (l r : List Char) (h : '&' ∉ l) :
    splitAmpL (l ++ '&' :: '&' :: r) = l :: splitAmpL r := by
  induction l with
  | nil => simp [splitAmpL]
  | cons c l ih =>
    simp only [List.mem_cons, not_or] at h
    have ih := ih h.2
    cases l with
    | nil =>
      simp only [List.cons_append, List.nil_append] at ih ⊢
      rw [splitAmpL, if_neg (fun e => h.1 e.1.symm), ih]
    | cons d l =>
      simp only [List.cons_append] at ih ⊢
      rw [splitAmpL, if_neg (fun e => h.1 e.1.symm), ih]

theorem renderOne_amp {c : String × Option String} (h : Plain c.1) (h' : ∀ v, c.2 = some v → Plain v) :
    '&' ∉ (renderOne c).toList := by
  unfold renderOne
  cases hc : c.2 with
  | none => exact h.2
  | some v =>
    simp only [String.toList_append, List.mem_append, not_or]
    exact ⟨⟨h.2, by decide⟩, (h' v hc).2⟩

theorem criterion_render {c : String × Option String} (h : Plain c.1)
    (h' : ∀ v, c.2 = some v → Plain v) : criterion (renderOne c) = some (c.1, c.2.getD "") := by
  unfold renderOne criterion
  cases hc : c.2 with
  | none =>
    dsimp only
    rw [split_none ':' c.1 h.1]
    rfl
  | some v =>
    dsimp only
    have := split_append ':' c.1 v h.1
    have e : c.1 ++ ":" ++ v = c.1 ++ String.singleton ':' ++ v := rfl
    first
    | rw [this, split_none ':' v (h' v hc).1]
    | rw [e, this, split_none ':' v (h' v hc).1]
    rfl

/-- Parsing an expression gives the criteria it was written from. -/
theorem criteria_render : ∀ cs : List (String × Option String), cs ≠ [] →
    (∀ c ∈ cs, Plain c.1 ∧ ∀ v, c.2 = some v → Plain v) →
    criteria (splitAmp (render cs)) = some (cs.map (fun c => (c.1, c.2.getD ""))) := by
  intro cs
  induction cs with
  | nil => intro h; exact absurd rfl h
  | cons c cs ih =>
    intro _ hp
    have hc := hp c (by simp)
    cases cs with
    | nil =>
      simp only [render, splitAmp]
      rw [splitAmpL_none _ (renderOne_amp hc.1 hc.2)]
      simp [criteria, criterion_render hc.1 hc.2]
    | cons c2 cs =>
      have := ih (by simp) (fun x hx => hp x (List.mem_cons_of_mem _ hx))
      simp only [render, splitAmp] at this ⊢
      have e : (renderOne c ++ "&&" ++ render (c2 :: cs)).toList =
          (renderOne c).toList ++ '&' :: '&' :: (render (c2 :: cs)).toList := by
        simp [String.toList_append]
      rw [e, splitAmpL_append _ _ (renderOne_amp hc.1 hc.2)]
      simp only [List.map_cons, String.ofList_toList, criteria, criterion_render hc.1 hc.2]
      rw [this]
      rfl

theorem criteria_length : ∀ (l : List String) (cs), criteria l = some cs → cs.length = l.length := by
  intro l
  induction l with
  | nil => intro cs h; simp [criteria] at h; simp [h]
  | cons e es ih =>
    intro cs h
    simp only [criteria] at h
    split at h
    · cases h
    · rw [Option.map_eq_some_iff] at h
      obtain ⟨cs', h1, rfl⟩ := h
      simp [ih cs' h1]

theorem splitAmpL_ne_nil : ∀ l, splitAmpL l ≠ [] := by
  intro l
  match l with
  | [] => simp [splitAmpL]
  | [c] => simp [splitAmpL]
  | c :: d :: cs =>
    simp only [splitAmpL]
    split
    · simp
    · split <;> simp

/-- **C29** (partial). With pairwise different tag names, a query that is not interleaved with writes
answers exactly the keys whose tags meet all criteria, each once, with their entries.
Missing: expressions that repeat a tag name (`query_repeated_tag_wrong`) and concurrent writes
(`query_not_atomic`). -/
theorem query_exact_partial {db : Db β} (wf : GoMap.WF db) {cs : List (String × Option String)}
    (hne : render cs ≠ "") (h0 : cs ≠ []) (hd : (cs.map Prod.fst).Nodup)
    (hp : ∀ c ∈ cs, Plain c.1 ∧ ∀ v, c.2 = some v → Plain v) :
    ∃ r, query db false (render cs) = .ok r ∧ (r.map Prod.fst).Nodup ∧
      ∀ k e, (k, e) ∈ r ↔ GoMap.get? db k = some e ∧
        ∀ c ∈ cs, ∃ t ∈ e.tags, t.name = c.1 ∧ ∀ v, c.2 = some v → v ≠ "" → t.value = v := by
  have hcr := criteria_render cs h0 hp
  have hlen : (splitAmp (render cs)).length = cs.length := by
    have := criteria_length _ _ hcr
    simpa using this.symm
  unfold query queryAt
  rw [if_neg (by simp), if_neg hne, hcr]
  refine ⟨_, rfl, ?_⟩
  rw [hlen]
  have hzip : (List.replicate cs.length db).zip (cs.map (fun c => (c.1, c.2.getD ""))) =
      cs.map (fun c => (db, (c.1, c.2.getD ""))) := by
    clear hne h0 hd hp hcr hlen
    induction cs with
    | nil => rfl
    | cons c cs ih => simp [List.replicate_succ, ih]
  rw [hzip]
  obtain ⟨s1, s2, s3⟩ := common_spec (zs := cs.map (fun c => (db, (c.1, c.2.getD ""))))
    (by intro z hz; obtain ⟨c, _, rfl⟩ := List.mem_map.mp hz; exact wf)
    (by simpa using h0) (by simpa [Function.comp_def] using hd)
  refine ⟨s1, ?_⟩
  intro k e
  have hmeets : ∀ e : Entry β, (∀ z ∈ cs.map (fun c => (db, (c.1, c.2.getD ""))), ∃ e',
      GoMap.get? z.1 k = some e' ∧ Meets e' z.2) ∧ GoMap.get? db k = some e ↔
      GoMap.get? db k = some e ∧
        ∀ c ∈ cs, ∃ t ∈ e.tags, t.name = c.1 ∧ ∀ v, c.2 = some v → v ≠ "" → t.value = v := by
    intro e
    rw [and_comm]
    apply and_congr_right
    intro hg
    simp only [List.forall_mem_map, hg, Option.some.injEq, exists_eq_left']
    apply forall_congr'; intro c
    apply imp_congr_right; intro _
    unfold Meets
    apply exists_congr; intro t
    apply and_congr_right; intro _
    apply and_congr_right; intro _
    cases c.2 with
    | none => simp
    | some v =>
      simp only [Option.getD_some, Option.some.injEq, forall_eq']
      tauto
  constructor
  · intro h
    have h1 := (s2 k).mp (List.mem_map.mpr ⟨(k, e), h, rfl⟩)
    obtain ⟨z, hz, h2⟩ := s3 k e h
    obtain ⟨c, _, rfl⟩ := List.mem_map.mp hz
    exact (hmeets e).mp ⟨h1, h2⟩
  · intro h
    obtain ⟨h1, h2⟩ := (hmeets e).mpr h
    obtain ⟨⟨k', e'⟩, h3, rfl⟩ := List.mem_map.mp ((s2 k).mpr h1)
    obtain ⟨z, hz, h4⟩ := s3 _ _ h3
    obtain ⟨c, _, rfl⟩ := List.mem_map.mp hz
    rw [h2] at h4
    cases h4
    exact h3

/-- What holds with concurrent writes: each criterion is met in the contents of the store at the
moment it was evaluated, and the entry is from one of these moments. -/
theorem queryAt_sound {dbs : List (Db β)} (wf : ∀ db ∈ dbs, GoMap.WF db)
    {expr : String} {cs : List (String × String)} (hcs : criteria (splitAmp expr) = some cs)
    (hl : dbs.length = cs.length) (hd : (cs.map Prod.fst).Nodup) {r : List (String × Entry β)}
    (h : queryAt dbs false expr = .ok r) :
    (r.map Prod.fst).Nodup ∧
    (∀ k, k ∈ r.map Prod.fst ↔ ∀ z ∈ dbs.zip cs, ∃ e, GoMap.get? z.1 k = some e ∧ Meets e z.2) ∧
    ∀ k e, (k, e) ∈ r → ∃ db ∈ dbs, GoMap.get? db k = some e := by
  unfold queryAt at h
  rw [if_neg (by simp)] at h
  split at h
  · cases h
  · rw [hcs] at h
    cases h
    have hlen := criteria_length _ _ hcs
    have hpos : 0 < cs.length := by
      rw [hlen]
      unfold splitAmp
      rw [List.length_map]
      exact List.length_pos_iff.mpr (splitAmpL_ne_nil _)
    obtain ⟨s1, s2, s3⟩ := common_spec (zs := dbs.zip cs)
      (fun z hz => wf _ (List.of_mem_zip hz).1)
      (by intro e; have := congrArg List.length e; rw [List.length_zip, List.length_nil] at this; omega)
      (by
        have : (dbs.zip cs).map (fun x => x.2.1) = cs.map Prod.fst := by
          rw [show (fun x : Db β × (String × String) => x.2.1) = Prod.fst ∘ Prod.snd from rfl,
            ← List.map_map, List.map_snd_zip (by omega)]
        rw [this]; exact hd)
    refine ⟨s1, s2, ?_⟩
    intro k e hke
    obtain ⟨z, hz, h1⟩ := s3 k e hke
    exact ⟨z.1, (List.of_mem_zip hz).1, h1⟩

/-- **C29 is violated**: when a tag name occurs twice, only its last criterion counts. -/
theorem query_repeated_tag_wrong :
    query [("k", (⟨1, [⟨"a", "1"⟩]⟩ : Entry Nat))] false "a:2&&a:1" = .ok [("k", ⟨1, [⟨"a", "1"⟩]⟩)] ∧
    ¬ Meets (⟨1, [⟨"a", "1"⟩]⟩ : Entry Nat) ("a", "2") := by
  constructor
  · decide +kernel
  · rintro ⟨t, ht, _, h⟩
    simp at ht
    subst ht
    simp at h

/-- **C29 is violated** by concurrent writes: the criteria are evaluated under separate locks; with
`Delete` and `Put` in between, a query can answer a key that matched at no single moment. -/
theorem query_not_atomic :
    ∃ (s : Db Nat) (c : WCall Nat), c.Valid ∧
      queryAt [s, c.run s] false "a:1&&b:1" = .ok [("k", ⟨2, [⟨"b", "1"⟩]⟩)] ∧
      (∀ e, GoMap.get? s "k" = some e → ¬ Meets e ("b", "1")) ∧
      (∀ e, GoMap.get? (c.run s) "k" = some e → ¬ Meets e ("a", "1")) := by
  refine ⟨[("k", ⟨1, [⟨"a", "1"⟩]⟩)], .put "k" (some 2) [⟨"b", "1"⟩], ?_, by decide +kernel, ?_, ?_⟩
  · refine ⟨by decide, by simp, ?_⟩
    intro t ht
    simp at ht
    subst ht
    exact ⟨by decide, by decide⟩
  · intro e he
    simp [GoMap.get?] at he
    subst he
    rintro ⟨t, ht, h, _⟩
    simp at ht
    subst ht
    simp at h
  · intro e he
    have : GoMap.get? ((WCall.put "k" (some 2) [⟨"b", "1"⟩]).run
        [("k", (⟨1, [⟨"a", "1"⟩]⟩ : Entry Nat))]) "k" = some ⟨2, [⟨"b", "1"⟩]⟩ := by decide +kernel
    rw [this] at he
    cases he
    rintro ⟨t, ht, h, _⟩
    simp at ht
    subst ht
    simp at h

/-- Two criteria and two entries, of which one meets both. -/
example : query [("k", (⟨1, [⟨"a", "1"⟩, ⟨"b", "2"⟩]⟩ : Entry Nat)), ("j", ⟨2, [⟨"a", "1"⟩]⟩)] false
    (render [("a", some "1"), ("b", none)]) = .ok [("k", ⟨1, [⟨"a", "1"⟩, ⟨"b", "2"⟩]⟩)] := by
  decide +kernel

end VC.Mem
