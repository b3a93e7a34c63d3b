import Verif.Presexch.LimitParts
/-!
# presexch: what later writes leave of earlier ones
-/

namespace VC.PE

open GoMap

theorem compIdx_text_name {k : String} (h : Step.Plain (.name k)) : compIdx (Step.text (.name k)) = none :=
  compIdx_plain h

theorem build_self (w : Json) : ∀ (p : List Step), (∀ s ∈ p, s.Plain) →
    gat (build w (p.map Step.text)) p = some w
  | [], _ => by simp [build]
  | s :: p, h => by
    have ih := build_self w p (fun x hx => h x (List.mem_cons_of_mem _ hx))
    cases s with
    | name k =>
      have := compIdx_text_name (h _ (List.mem_cons_self ..))
      simp only [List.map_cons, build, this]
      simp only [gat, Step.text, get?_cons, if_true, Option.bind_some, ih]
    | idx n =>
      simp only [List.map_cons, build, Step.text, compIdx_toString]
      simp only [gat]
      rw [List.getElem?_append_right (by simp)]
      simp [ih]

/-- A write at a place that fits succeeds, and the value is there. -/
theorem ssetC_self (w : Json) : ∀ (p : List Step) (j : Json), (∀ s ∈ p, s.Plain) → Fits j p →
    ∃ j', ssetC w (p.map Step.text) j = some j' ∧ gat j' p = some w
  | [], j, _, _ => ⟨w, by cases j <;> rfl, gat_nil w⟩
  | s :: p, j, h, hf => by
    have hp : ∀ x ∈ p, x.Plain := fun x hx => h x (List.mem_cons_of_mem _ hx)
    have hb := build_self w (s :: p) h
    cases j with
    | null => exact ⟨_, rfl, hb⟩
    | bool b => exact ⟨_, rfl, hb⟩
    | num n => exact ⟨_, rfl, hb⟩
    | str t => exact ⟨_, rfl, hb⟩
    | obj o =>
      cases s with
      | idx n => exact absurd hf (by simp [Fits])
      | name k =>
        simp only [Fits] at hf
        simp only [List.map_cons, Step.text, ssetC]
        cases hg : get? o k with
        | none =>
          refine ⟨_, rfl, ?_⟩
          simp only [gat, get?_set_self, Option.bind_some]
          exact build_self w p hp
        | some x =>
          obtain ⟨y, hy, hgy⟩ := ssetC_self w p x hp (hf x hg)
          dsimp only
          rw [hy]
          refine ⟨_, rfl, ?_⟩
          simp only [gat, get?_set_self, Option.bind_some]
          exact hgy
    | arr l =>
      cases s with
      | name k => exact absurd hf (by simp [Fits])
      | idx n =>
        simp only [Fits] at hf
        simp only [List.map_cons, Step.text, ssetC, compIdx_toString]
        cases hg : l[n]? with
        | none =>
          refine ⟨_, rfl, ?_⟩
          have hn : l.length ≤ n := by simpa using hg
          simp only [gat]
          rw [List.getElem?_append_right hn, List.getElem?_append_right (by simp)]
          simp [build_self w p hp]
        | some x =>
          obtain ⟨y, hy, hgy⟩ := ssetC_self w p x hp (hf x hg)
          dsimp only
          rw [hy]
          refine ⟨_, rfl, ?_⟩
          have hlt : n < l.length := (List.getElem?_eq_some_iff.mp hg).1
          simp only [gat]
          rw [List.getElem?_set_self hlt, Option.bind_some]
          exact hgy

theorem set_get_self (m : GoMap Json) (k : String) (v : Json) (h : get? m k = some v) :
    set m k v = m := by
  induction m with
  | nil => simp at h
  | cons p m ih =>
    obtain ⟨k', v'⟩ := p
    rw [get?_cons] at h
    by_cases e : k' = k
    · subst e
      simp only [if_true, Option.some.injEq] at h
      subst h
      simp [GoMap.set]
    · simp only [e, if_false] at h
      simp [GoMap.set, e, ih h]

/-- Writing what is there changes nothing. -/
theorem ssetC_same (w : Json) : ∀ (p : List Step) (j : Json), gat j p = some w →
    ssetC w (p.map Step.text) j = some j
  | [], j, h => by
    rw [gat_nil] at h
    have h := Option.some.inj h
    subst h
    cases j <;> rfl
  | s :: p, j, h => by
    cases j <;> cases s <;> simp only [gat, reduceCtorEq] at h
    case arr.idx l n =>
      obtain ⟨y, hy, h⟩ := Option.bind_eq_some_iff.mp h
      simp only [List.map_cons, Step.text, ssetC, compIdx_toString, hy]
      rw [ssetC_same w p y h]
      obtain ⟨hlt, rfl⟩ := List.getElem?_eq_some_iff.mp hy
      simp
    case obj.name o k =>
      obtain ⟨y, hy, h⟩ := Option.bind_eq_some_iff.mp h
      simp only [List.map_cons, Step.text, ssetC, hy]
      rw [ssetC_same w p y h]
      simp [set_get_self o k y hy]

/-- A write inside a value that is there is a write into that value. -/
theorem ssetC_inside (w : Json) : ∀ (p r : List Step) (j j' x : Json), gat j p = some x →
    ssetC w ((p ++ r).map Step.text) j = some j' →
    ∃ y, ssetC w (r.map Step.text) x = some y ∧ gat j' p = some y
  | [], r, j, j', x, hx, h => by
    rw [gat_nil] at hx
    cases hx
    exact ⟨j', h, gat_nil _⟩
  | s :: p, r, j, j', x, hx, h => by
    cases j <;> cases s <;> simp only [gat, reduceCtorEq] at hx
    case arr.idx l n =>
      obtain ⟨z, hz, hx⟩ := Option.bind_eq_some_iff.mp hx
      simp only [List.cons_append, List.map_cons, Step.text, ssetC, compIdx_toString, hz] at h
      obtain ⟨z', hz', rfl⟩ := Option.map_eq_some_iff.mp h
      obtain ⟨y, hy, hgy⟩ := ssetC_inside w p r z z' x hx hz'
      refine ⟨y, hy, ?_⟩
      have hlt : n < l.length := (List.getElem?_eq_some_iff.mp hz).1
      simp only [gat]
      rw [List.getElem?_set_self hlt, Option.bind_some]
      exact hgy
    case obj.name o k =>
      obtain ⟨z, hz, hx⟩ := Option.bind_eq_some_iff.mp hx
      simp only [List.cons_append, List.map_cons, Step.text, ssetC, hz] at h
      obtain ⟨z', hz', rfl⟩ := Option.map_eq_some_iff.mp h
      obtain ⟨y, hy, hgy⟩ := ssetC_inside w p r z z' x hx hz'
      refine ⟨y, hy, ?_⟩
      simp only [gat, get?_set_self, Option.bind_some]
      exact hgy

/-- A write at another place leaves a value alone. -/
theorem ssetC_div (w : Json) {p q : List Step} (hd : Div p q) : ∀ (j j' x : Json),
    ssetC w (p.map Step.text) j = some j' → gat j q = some x → gat j' q = some x := by
  induction hd with
  | head a b s t hne hk =>
    intro j j' x h hx
    cases j <;> cases b <;> simp only [gat, reduceCtorEq] at hx <;> cases a <;>
      simp only [Step.SameKind] at hk
    case arr.idx.idx l m n =>
      have hnm : n ≠ m := fun e => hne (by rw [e])
      simp only [List.map_cons, Step.text, ssetC, compIdx_toString] at h
      cases hg : l[n]? with
      | none =>
        rw [hg] at h
        cases h
        simp only [gat]
        obtain ⟨y, hy, hx⟩ := Option.bind_eq_some_iff.mp hx
        rw [List.getElem?_append_left (List.getElem?_eq_some_iff.mp hy).1, hy]
        exact hx
      | some z =>
        rw [hg] at h
        obtain ⟨y, hy, rfl⟩ := Option.map_eq_some_iff.mp h
        simp only [gat]
        rw [List.getElem?_set_ne hnm]
        exact hx
    case obj.name.name o k k' =>
      have hnm : k' ≠ k := fun e => hne (by rw [e])
      simp only [List.map_cons, Step.text, ssetC] at h
      cases hg : get? o k' with
      | none =>
        rw [hg] at h
        cases h
        simp only [gat, get?_set_ne _ _ hnm]
        exact hx
      | some z =>
        rw [hg] at h
        obtain ⟨y, hy, rfl⟩ := Option.map_eq_some_iff.mp h
        simp only [gat, get?_set_ne _ _ hnm]
        exact hx
  | tail a s t _ ih =>
    intro j j' x h hx
    cases j <;> cases a <;> simp only [gat, reduceCtorEq] at hx
    case arr.idx l n =>
      obtain ⟨z, hz, hx⟩ := Option.bind_eq_some_iff.mp hx
      simp only [List.map_cons, Step.text, ssetC, compIdx_toString, hz] at h
      obtain ⟨y, hy, rfl⟩ := Option.map_eq_some_iff.mp h
      have hlt : n < l.length := (List.getElem?_eq_some_iff.mp hz).1
      simp only [gat]
      rw [List.getElem?_set_self hlt, Option.bind_some]
      exact ih z y x hy hx
    case obj.name o k =>
      obtain ⟨z, hz, hx⟩ := Option.bind_eq_some_iff.mp hx
      simp only [List.map_cons, Step.text, ssetC, hz] at h
      obtain ⟨y, hy, rfl⟩ := Option.map_eq_some_iff.mp h
      simp only [gat, get?_set_self, Option.bind_some]
      exact ih z y x hy hx

/-! ## Places that fit keep fitting -/

theorem fits_null (q : List Step) : Fits .null q := by
  cases q with
  | nil => trivial
  | cons s q => cases s <;> trivial

theorem fits_nil (j : Json) : Fits j [] := by cases j <;> trivial

theorem fits_of_gat : ∀ (p : List Step) (j : Json), (gat j p).isSome → Fits j p
  | [], j, _ => fits_nil j
  | s :: p, j, h => by
    cases j <;> cases s <;> simp only [gat, Option.isSome_none, Bool.false_eq_true] at h
    case arr.idx l n =>
      intro x hx
      rw [hx] at h
      exact fits_of_gat p x h
    case obj.name o k =>
      intro x hx
      rw [hx] at h
      exact fits_of_gat p x h

/-- How two of the places that are written relate: the second lies in the first, where the value
written to the first has room for it; or the other way round; or they part. -/
def Near (p : List Step) (w : Json) (q : List Step) : Prop :=
  (∃ r, q = p ++ r ∧ Fits w r) ∨ (∃ r, p = q ++ r) ∨ Div p q

theorem near_tail {a : Step} {p q : List Step} {w : Json} (h : Near (a :: p) w (a :: q)) :
    Near p w q := by
  rcases h with ⟨r, e, hf⟩ | ⟨r, e⟩ | hd
  · exact .inl ⟨r, by simpa using e, hf⟩
  · exact .inr (.inl ⟨r, by simpa using e⟩)
  · cases hd with
    | head _ _ _ _ hne _ => exact absurd rfl hne
    | tail _ _ _ hd => exact .inr (.inr hd)

theorem near_heads {a b : Step} {p q : List Step} {w : Json} (h : Near (a :: p) w (b :: q)) :
    a = b ∨ (a ≠ b ∧ a.SameKind b) := by
  rcases h with ⟨r, e, _⟩ | ⟨r, e⟩ | hd
  · left; have := congrArg List.head? e; simpa using this.symm
  · left; have := congrArg List.head? e; simpa using this
  · cases hd with
    | head _ _ _ _ hne hk => exact .inr ⟨hne, hk⟩
    | tail _ _ _ hd => exact .inl rfl

theorem fits_build (w : Json) : ∀ (p q : List Step), (∀ s ∈ p, s.Plain) → Near p w q →
    Fits (build w (p.map Step.text)) q
  | [], q, _, h => by
    rcases h with ⟨r, rfl, hf⟩ | ⟨r, e⟩ | hd
    · exact hf
    · have : q = [] := (List.append_eq_nil_iff.mp e.symm).1
      subst this
      exact fits_nil _
    · cases hd
  | a :: p, [], _, _ => fits_nil _
  | a :: p, b :: q, hp, h => by
    have hp' : ∀ x ∈ p, x.Plain := fun x hx => hp x (List.mem_cons_of_mem _ hx)
    cases a with
    | name k =>
      have hi := compIdx_text_name (hp _ (List.mem_cons_self ..))
      simp only [List.map_cons, build, hi]
      rcases near_heads h with rfl | ⟨hne, hk⟩
      · simp only [Fits, Step.text, get?_cons, if_true, Option.some.injEq]
        rintro x rfl
        exact fits_build w p q hp' (near_tail h)
      · cases b with
        | idx n => exact absurd hk (by simp [Step.SameKind])
        | name k' =>
          have e : k ≠ k' := fun e => hne (by rw [e])
          simp [Fits, Step.text, get?_cons, e]
    | idx n =>
      simp only [List.map_cons, build, Step.text, compIdx_toString]
      cases b with
      | name k' =>
        rcases near_heads h with e | ⟨_, hk⟩
        · cases e
        · exact absurd hk (by simp [Step.SameKind])
      | idx m =>
        simp only [Fits]
        intro x hx
        by_cases h1 : m < n
        · rw [List.getElem?_append_left (by simpa using h1), List.getElem?_replicate, if_pos h1] at hx
          cases hx
          exact fits_null q
        · rw [List.getElem?_append_right (by simpa using h1)] at hx
          simp only [List.length_replicate, List.getElem?_singleton] at hx
          by_cases h2 : m - n = 0
          · simp only [h2, if_true, Option.some.injEq] at hx
            subst hx
            have : n = m := by omega
            subst this
            exact fits_build w p q hp' (near_tail h)
          · simp [h2] at hx

/-- A write does not spoil the room of the other places. -/
theorem fits_ssetC (w : Json) : ∀ (p q : List Step) (j j' : Json), (∀ s ∈ p, s.Plain) → Near p w q →
    Fits j q → ssetC w (p.map Step.text) j = some j' → Fits j' q
  | [], q, j, j', hp, h, _, hs => by
    have : j' = w := by cases j <;> simp [ssetC] at hs <;> exact hs.symm
    subst this
    exact fits_build j' [] q hp h
  | a :: p, [], j, j', _, _, _, _ => fits_nil j'
  | a :: p, b :: q, j, j', hp, h, hf, hs => by
    have hp' : ∀ x ∈ p, x.Plain := fun x hx => hp x (List.mem_cons_of_mem _ hx)
    have hb := fits_build w (a :: p) (b :: q) hp h
    cases j with
    | null => simp only [List.map_cons, ssetC] at hs; cases hs; exact hb
    | bool b => simp only [List.map_cons, ssetC] at hs; cases hs; exact hb
    | num n => simp only [List.map_cons, ssetC] at hs; cases hs; exact hb
    | str t => simp only [List.map_cons, ssetC] at hs; cases hs; exact hb
    | obj o =>
      cases b with
      | idx n => exact absurd hf (by simp [Fits])
      | name k =>
        simp only [Fits] at hf
        have ha : ∃ k', a = .name k' := by
          rcases near_heads h with rfl | ⟨_, hk⟩
          · exact ⟨k, rfl⟩
          · cases a with
            | name k' => exact ⟨k', rfl⟩
            | idx n => exact absurd hk (by simp [Step.SameKind])
        obtain ⟨k', rfl⟩ := ha
        simp only [List.map_cons, Step.text, ssetC] at hs
        cases hg : get? o k' with
        | none =>
          rw [hg] at hs
          cases hs
          intro x hx
          by_cases e : k' = k
          · subst e
            rw [get?_set_self] at hx
            cases hx
            exact fits_build w p q hp' (near_tail h)
          · rw [get?_set_ne _ _ e] at hx
            exact hf x hx
        | some z =>
          rw [hg] at hs
          obtain ⟨y, hy, rfl⟩ := Option.map_eq_some_iff.mp hs
          intro x hx
          by_cases e : k' = k
          · subst e
            rw [get?_set_self] at hx
            cases hx
            exact fits_ssetC w p q z y hp' (near_tail h) (hf z hg) hy
          · rw [get?_set_ne _ _ e] at hx
            exact hf x hx
    | arr l =>
      cases b with
      | name k => exact absurd hf (by simp [Fits])
      | idx m =>
        simp only [Fits] at hf
        have ha : ∃ n, a = .idx n := by
          rcases near_heads h with rfl | ⟨_, hk⟩
          · exact ⟨m, rfl⟩
          · cases a with
            | idx n => exact ⟨n, rfl⟩
            | name k' => exact absurd hk (by simp [Step.SameKind])
        obtain ⟨n, rfl⟩ := ha
        simp only [List.map_cons, Step.text, ssetC, compIdx_toString] at hs
        cases hg : l[n]? with
        | none =>
          rw [hg] at hs
          cases hs
          have hn : l.length ≤ n := by simpa using hg
          intro x hx
          by_cases h1 : m < l.length
          · rw [List.getElem?_append_left h1] at hx
            exact hf x hx
          · rw [List.getElem?_append_right (by omega)] at hx
            by_cases h2 : m < n
            · rw [List.getElem?_append_left (by simp; omega), List.getElem?_replicate,
                if_pos (by omega)] at hx
              cases hx
              exact fits_null q
            · rw [List.getElem?_append_right (by simp; omega)] at hx
              simp only [List.length_replicate, List.getElem?_singleton] at hx
              by_cases h3 : m - l.length - (n - l.length) = 0
              · simp only [h3, if_true, Option.some.injEq] at hx
                subst hx
                have : n = m := by omega
                subst this
                exact fits_build w p q hp' (near_tail h)
              · simp [h3] at hx
        | some z =>
          rw [hg] at hs
          obtain ⟨y, hy, rfl⟩ := Option.map_eq_some_iff.mp hs
          intro x hx
          by_cases e : n = m
          · subst e
            rw [List.getElem?_set_self (List.getElem?_eq_some_iff.mp hg).1] at hx
            cases hx
            exact fits_ssetC w p q z y hp' (near_tail h) (hf z hg) hy
          · rw [List.getElem?_set_ne e] at hx
            exact hf x hx

/-! ## A list of writes -/

/-- The two writes do not contradict each other: one place lies in the other and its value is the part
of the other's value there, or the places part. -/
def Agree (a b : List Step × Json) : Prop :=
  (∃ r, b.1 = a.1 ++ r ∧ gat a.2 r = some b.2) ∨ (∃ r, a.1 = b.1 ++ r ∧ gat b.2 r = some a.2) ∨
    (Div a.1 b.1 ∧ Div b.1 a.1)

theorem Agree.symm {a b : List Step × Json} (h : Agree a b) : Agree b a := by
  rcases h with h | h | ⟨h, h'⟩
  · exact .inr (.inl h)
  · exact .inl h
  · exact .inr (.inr ⟨h', h⟩)

theorem Agree.near {a b : List Step × Json} (h : Agree a b) : Near a.1 a.2 b.1 := by
  rcases h with ⟨r, e, hg⟩ | ⟨r, e, _⟩ | ⟨h, _⟩
  · exact .inl ⟨r, e, fits_of_gat r _ (by rw [hg]; rfl)⟩
  · exact .inr (.inl ⟨r, e⟩)
  · exact .inr (.inr h)

/-- The writes one after the other. -/
def writeAll (doc : Json) : List (List Step × Json) → Option Json
  | [] => some doc
  | a :: as => (ssetC a.2 (a.1.map Step.text) doc).bind (fun d => writeAll d as)

theorem written_stays {a b : List Step × Json} (h : Agree a b) {j j' : Json} (hpa : ∀ s ∈ a.1, s.Plain)
    (hfa : Fits j a.1) (hs : ssetC a.2 (a.1.map Step.text) j = some j') (hb : gat j b.1 = some b.2) :
    gat j' b.1 = some b.2 := by
  rcases h with ⟨r, e, hg⟩ | ⟨r, e, hg⟩ | ⟨hd, _⟩
  · obtain ⟨j'', h1, h2⟩ := ssetC_self a.2 a.1 j hpa hfa
    rw [hs] at h1
    cases h1
    rw [e, gat_append, h2]
    exact hg
  · rw [e] at hs
    obtain ⟨y, hy, hgy⟩ := ssetC_inside a.2 b.1 r j j' b.2 hb hs
    rw [ssetC_same a.2 r b.2 hg] at hy
    cases hy
    exact hgy
  · exact ssetC_div a.2 hd j j' b.2 hs hb

/-- Writes that pairwise agree all succeed, and all their values are in the result. -/
theorem writeAll_kept : ∀ (ws done : List (List Step × Json)) (doc : Json),
    (∀ a ∈ ws, ∀ s ∈ a.1, s.Plain) → (∀ a ∈ ws, Fits doc a.1) →
    (∀ a ∈ ws, ∀ b ∈ ws ++ done, Agree a b) → (∀ a ∈ done, gat doc a.1 = some a.2) →
    ∃ out, writeAll doc ws = some out ∧ ∀ a ∈ ws ++ done, gat out a.1 = some a.2
  | [], done, doc, _, _, _, hd => ⟨doc, rfl, by simpa using hd⟩
  | a :: ws, done, doc, hp, hf, ha, hd => by
    have hpa := hp a (List.mem_cons_self ..)
    have hfa := hf a (List.mem_cons_self ..)
    obtain ⟨j', hs, hg⟩ := ssetC_self a.2 a.1 doc hpa hfa
    obtain ⟨out, ho, hall⟩ := writeAll_kept ws (a :: done) j'
      (fun b hb => hp b (List.mem_cons_of_mem _ hb))
      (fun b hb => fits_ssetC a.2 a.1 b.1 doc j' hpa
        (ha a (List.mem_cons_self ..) b (by simp [hb])).near (hf b (List.mem_cons_of_mem _ hb)) hs)
      (fun b hb c hc => ha b (List.mem_cons_of_mem _ hb) c (by
        simp only [List.mem_append, List.mem_cons] at hc ⊢; tauto))
      (fun b hb => by
        rcases List.mem_cons.mp hb with rfl | hb
        · exact hg
        · exact written_stays (ha a (List.mem_cons_self ..) b (by simp [hb])) hpa hfa hs (hd b hb))
    refine ⟨out, by simp [writeAll, hs, ho], ?_⟩
    intro b hb
    exact hall b (by simp only [List.mem_append, List.mem_cons] at hb ⊢; tauto)

end VC.PE
