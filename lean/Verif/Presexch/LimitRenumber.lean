import Verif.Presexch.LimitWrites
/-!
# presexch: how `compactArrayPaths` renumbers array positions
-/

namespace VC.PE

open GoMap

/-- The dotted text of a place. -/
def keyOfPlace (p : List Step) : String := joinC '.' (p.map Step.text)

/-- The steps of the new path, and the counters afterwards. -/
def renum (pre : List Step) (m : GoMap Nat) : List Step → List Step × GoMap Nat
  | [] => ([], m)
  | .idx n :: ks =>
    let m' := bump m (keyOfPlace pre) (keyOfPlace (pre ++ [.idx n]))
    let r := renum (pre ++ [.idx n]) m' ks
    (.idx ((get? m' (keyOfPlace (pre ++ [.idx n]))).getD 0) :: r.1, r.2)
  | .name k :: ks =>
    let r := renum (pre ++ [.name k]) m ks
    (.name k :: r.1, r.2)

def renumAll (m : GoMap Nat) : List (List Step) → List (List Step)
  | [] => []
  | p :: ps => (renum [] m p).1 :: renumAll (renum [] m p).2 ps

theorem getPathLoop_renum : ∀ (ks pre : List Step) (new : List String) (m : GoMap Nat),
    getPathLoop (pre.map Step.text) new m ks =
      (⟨joinC '.' (new ++ (renum pre m ks).1.map Step.text), keyOfPlace (pre ++ ks)⟩, (renum pre m ks).2)
  | [], pre, new, m => by simp [getPathLoop, renum, keyOfPlace]
  | .idx n :: ks, pre, new, m => by
    have e : pre.map Step.text ++ [toString n] = (pre ++ [Step.idx n]).map Step.text := by simp [Step.text]
    simp only [getPathLoop, renum]
    rw [e, getPathLoop_renum ks (pre ++ [Step.idx n])]
    simp [keyOfPlace, Step.text]
  | .name k :: ks, pre, new, m => by
    have e : pre.map Step.text ++ [k] = (pre ++ [Step.name k]).map Step.text := by simp [Step.text]
    simp only [getPathLoop, renum]
    rw [e, getPathLoop_renum ks (pre ++ [Step.name k])]
    simp [Step.text]

theorem getPath_renum (ks : List Step) (m : GoMap Nat) :
    getPath ks m = (⟨keyOfPlace (renum [] m ks).1, keyOfPlace ks⟩, (renum [] m ks).2) := by
  have := getPathLoop_renum ks [] [] m
  simpa [getPath, keyOfPlace] using this

theorem renum_shape : ∀ (ks pre : List Step) (m : GoMap Nat), SameShape ks (renum pre m ks).1
  | [], _, _ => .nil
  | .idx _ :: ks, _, _ => .idx _ _ (renum_shape ks _ _)
  | .name _ :: ks, _, _ => .name _ (renum_shape ks _ _)

theorem compactLoop_renum : ∀ (ps : List (List Step)) (m : GoMap Nat),
    compactLoop m ps = List.zipWith (fun p np => ⟨keyOfPlace np, keyOfPlace p⟩) ps (renumAll m ps)
  | [], _ => rfl
  | p :: ps, m => by
    simp only [compactLoop, renumAll, List.zipWith_cons_cons, getPath_renum]
    rw [compactLoop_renum ps]

theorem renumAll_length : ∀ (ps : List (List Step)) (m : GoMap Nat),
    (renumAll m ps).length = ps.length
  | [], _ => rfl
  | p :: ps, m => by simp [renumAll, renumAll_length ps]

theorem renumAll_shape : ∀ (ps : List (List Step)) (m : GoMap Nat),
    List.Forall₂ SameShape ps (renumAll m ps)
  | [], _ => .nil
  | p :: ps, m => .cons (renum_shape p [] m) (renumAll_shape ps _)

/-! ## The renumbering as a function of the place -/

/-- A place of the document whose text is unambiguous. -/
structure Good (src : Json) (p : List Step) : Prop where
  here : (gat src p).isSome
  dots : NoDots p
  nest : NoNest p
  top : ∀ n t, p ≠ .idx n :: t

/-- A place of an array (or of anything else) that is not itself a position of an array. -/
structure Adm (src : Json) (p : List Step) : Prop where
  here : (gat src p).isSome
  dots : NoDots p
  last : ∃ s k, p = s ++ [.name k]

theorem gat_prefix_isSome {src : Json} {p q : List Step} (h : (gat src (p ++ q)).isSome) :
    (gat src p).isSome := by
  rw [gat_append] at h
  cases hp : gat src p with
  | none => rw [hp] at h; simp at h
  | some x => rfl

theorem noDots_left {p q : List Step} (h : NoDots (p ++ q)) : NoDots p :=
  fun s hs => h s (by simp [hs])

theorem adm_of_good {src : Json} {pre ks : List Step} {n : Nat} (h : Good src (pre ++ .idx n :: ks)) :
    Adm src pre := by
  refine ⟨gat_prefix_isSome h.here, noDots_left h.dots, ?_⟩
  rcases List.eq_nil_or_concat pre with rfl | ⟨s, x, rfl⟩
  · exact absurd rfl (h.top n ks)
  · rw [List.concat_eq_append] at h ⊢
    cases x with
    | name k => exact ⟨s, k, rfl⟩
    | idx a => exact absurd (by simp) (h.nest s a n ks)

theorem key_inj {src : Json} {p q : List Step} (hp : (gat src p).isSome) (hq : (gat src q).isSome)
    (dp : NoDots p) (dq : NoDots q) (np : p ≠ []) (nq : q ≠ []) (e : keyOfPlace p = keyOfPlace q) :
    p = q :=
  text_inj p q src hp hq (joinC_inj (by simpa using np) (by simpa using nq) (noDots_map dp)
    (noDots_map dq) e)

theorem Adm.ne {src : Json} {p : List Step} (h : Adm src p) : p ≠ [] := by
  obtain ⟨s, k, rfl⟩ := h.last
  simp

theorem Adm.dots_idx {src : Json} {p : List Step} (h : Adm src p) (n : Nat) : NoDots (p ++ [.idx n]) := by
  intro s hs
  rcases List.mem_append.mp hs with hs | hs
  · exact h.dots s hs
  · have : s = .idx n := by simpa using hs
    subst this
    exact noDot_toString n

theorem key_pos_ne {src : Json} {p q : List Step} {n : Nat} (hp : Adm src p)
    (hn : (gat src (p ++ [.idx n])).isSome) (hq : Adm src q) : keyOfPlace (p ++ [.idx n]) ≠ keyOfPlace q := by
  intro e
  have := key_inj hn hq.here (hp.dots_idx n) hq.dots (by simp) hq.ne e
  obtain ⟨s, k, rfl⟩ := hq.last
  have := List.append_inj_right' this rfl
  simp at this

/-- The counters: positions of one array have different numbers, all below the array's counter. -/
def CInv (src : Json) (m : GoMap Nat) : Prop :=
  ∀ p, Adm src p →
    (∀ n v, (gat src (p ++ [.idx n])).isSome → get? m (keyOfPlace (p ++ [.idx n])) = some v →
      v < (get? m (keyOfPlace p)).getD 0) ∧
    (∀ n n' v, (gat src (p ++ [.idx n])).isSome → (gat src (p ++ [.idx n'])).isSome →
      get? m (keyOfPlace (p ++ [.idx n])) = some v → get? m (keyOfPlace (p ++ [.idx n'])) = some v →
      n = n')

/-- Numbers given stay. -/
def CExt (src : Json) (m m' : GoMap Nat) : Prop :=
  ∀ p n v, Adm src p → (gat src (p ++ [.idx n])).isSome →
    get? m (keyOfPlace (p ++ [.idx n])) = some v → get? m' (keyOfPlace (p ++ [.idx n])) = some v

/-- The counters: below an array's counter every number is given to a position of the array that one of
the places goes through. -/
def CFull (src : Json) (S : List (List Step)) (m : GoMap Nat) : Prop :=
  ∀ p, Adm src p → ∀ v, v < (get? m (keyOfPlace p)).getD 0 →
    ∃ n t, p ++ .idx n :: t ∈ S ∧ get? m (keyOfPlace (p ++ [.idx n])) = some v

theorem bump_full {src : Json} {S : List (List Step)} (hS : ∀ p ∈ S, Good src p) {m : GoMap Nat}
    (hf : CFull src S m) {p t : List Step} {n : Nat} (hm : p ++ .idx n :: t ∈ S) :
    CFull src S (bump m (keyOfPlace p) (keyOfPlace (p ++ [.idx n]))) := by
  have hp : Adm src p := adm_of_good (hS _ hm)
  have some_of : ∀ q n' t', q ++ .idx n' :: t' ∈ S → (gat src (q ++ [.idx n'])).isSome := by
    intro q n' t' h
    have : Good src ((q ++ [.idx n']) ++ t') := by simpa using hS _ h
    exact gat_prefix_isSome this.here
  have hn := some_of p n t hm
  unfold bump
  by_cases hb : (get? m (keyOfPlace (p ++ [.idx n]))).isSome
  · rw [if_pos hb]
    exact hf
  · rw [if_neg hb]
    dsimp only
    have hne := key_pos_ne hp hn hp
    rw [get?_set_ne m _ hne]
    have hself : ∀ c, get? (GoMap.set (GoMap.set m (keyOfPlace (p ++ [.idx n])) c) (keyOfPlace p) (c + 1))
        (keyOfPlace (p ++ [.idx n])) = some c := by
      intro c
      rw [get?_set_ne _ _ (fun e => hne e.symm), get?_set_self]
    have hold : ∀ c q n' t' v, Adm src q → q ++ .idx n' :: t' ∈ S →
        get? m (keyOfPlace (q ++ [.idx n'])) = some v →
        get? (GoMap.set (GoMap.set m (keyOfPlace (p ++ [.idx n])) c) (keyOfPlace p) (c + 1))
          (keyOfPlace (q ++ [.idx n'])) = some v := by
      intro c q n' t' v hq hm' hv
      rw [get?_set_ne, get?_set_ne]
      · exact hv
      · intro e
        rw [e, hv] at hb
        exact hb rfl
      · exact fun e => key_pos_ne hq (some_of q n' t' hm') hp e.symm
    intro q hq v hv
    by_cases hqp : q = p
    · subst hqp
      rw [get?_set_self] at hv
      simp only [Option.getD_some] at hv
      by_cases e : v = (get? m (keyOfPlace q)).getD 0
      · exact ⟨n, t, hm, by rw [hself, e]⟩
      · obtain ⟨n', t', h1, h2⟩ := hf q hq v (by omega)
        exact ⟨n', t', h1, hold _ q n' t' v hq h1 h2⟩
    · rw [get?_set_ne, get?_set_ne] at hv
      · obtain ⟨n', t', h1, h2⟩ := hf q hq v hv
        exact ⟨n', t', h1, hold _ q n' t' v hq h1 h2⟩
      · exact key_pos_ne hp hn hq
      · intro e
        exact hqp (key_inj hp.here hq.here hp.dots hq.dots hp.ne hq.ne e).symm

theorem bump_inv {src : Json} {m : GoMap Nat} (hi : CInv src m) {p : List Step} {n : Nat}
    (hp : Adm src p) (hn : (gat src (p ++ [.idx n])).isSome) :
    CInv src (bump m (keyOfPlace p) (keyOfPlace (p ++ [.idx n]))) ∧
    CExt src m (bump m (keyOfPlace p) (keyOfPlace (p ++ [.idx n]))) ∧
    (get? (bump m (keyOfPlace p) (keyOfPlace (p ++ [.idx n]))) (keyOfPlace (p ++ [.idx n]))).isSome := by
  unfold bump
  by_cases hm : (get? m (keyOfPlace (p ++ [.idx n]))).isSome
  · rw [if_pos hm]
    exact ⟨hi, fun _ _ _ _ _ h => h, hm⟩
  · rw [if_neg hm]
    dsimp only
    have hnone : get? m (keyOfPlace (p ++ [.idx n])) = none := by
      cases h : get? m (keyOfPlace (p ++ [.idx n])) with
      | none => rfl
      | some v => rw [h] at hm; exact absurd rfl hm
    have hne := key_pos_ne hp hn hp
    rw [get?_set_ne m _ hne]
    set c := (get? m (keyOfPlace p)).getD 0 with hc
    -- lookups
    have hctr : ∀ q, Adm src q → q ≠ p →
        get? (GoMap.set (GoMap.set m (keyOfPlace (p ++ [.idx n])) c) (keyOfPlace p) (c + 1)) (keyOfPlace q) =
          get? m (keyOfPlace q) := by
      intro q hq hqp
      rw [get?_set_ne, get?_set_ne]
      · exact key_pos_ne hp hn hq
      · intro e
        exact hqp (key_inj hp.here hq.here hp.dots hq.dots hp.ne hq.ne e).symm
    have hpos : ∀ q n', Adm src q → (gat src (q ++ [.idx n'])).isSome → (q ≠ p ∨ n' ≠ n) →
        get? (GoMap.set (GoMap.set m (keyOfPlace (p ++ [.idx n])) c) (keyOfPlace p) (c + 1))
            (keyOfPlace (q ++ [.idx n'])) = get? m (keyOfPlace (q ++ [.idx n'])) := by
      intro q n' hq hn' hor
      rw [get?_set_ne, get?_set_ne]
      · intro e
        have := key_inj hn hn' (hp.dots_idx n) (hq.dots_idx n') (by simp) (by simp) e
        have h1 := List.append_inj_left' this rfl
        have h2 := List.append_inj_right' this rfl
        simp at h2
        rcases hor with h | h
        · exact h h1.symm
        · exact h h2.symm
      · exact fun e => key_pos_ne hq hn' hp e.symm
    have hself : get? (GoMap.set (GoMap.set m (keyOfPlace (p ++ [.idx n])) c) (keyOfPlace p) (c + 1))
        (keyOfPlace (p ++ [.idx n])) = some c := by
      rw [get?_set_ne _ _ (fun e => hne e.symm), get?_set_self]
    refine ⟨?_, ?_, ?_⟩
    · intro q hq
      by_cases hqp : q = p
      · subst hqp
        rw [get?_set_self]
        refine ⟨?_, ?_⟩
        · intro n' v hn' hv
          by_cases e : n' = n
          · subst e
            rw [hself] at hv
            cases hv
            simp
          · rw [hpos q n' hq hn' (.inr e)] at hv
            have := (hi q hq).1 n' v hn' hv
            simp only [Option.getD_some]
            omega
        · intro n1 n2 v h1 h2 hv1 hv2
          by_cases e1 : n1 = n
          · by_cases e2 : n2 = n
            · rw [e1, e2]
            · subst e1
              rw [hself] at hv1
              cases hv1
              rw [hpos q n2 hq h2 (.inr e2)] at hv2
              have := (hi q hq).1 n2 _ h2 hv2
              omega
          · rw [hpos q n1 hq h1 (.inr e1)] at hv1
            by_cases e2 : n2 = n
            · subst e2
              rw [hself] at hv2
              cases hv2
              have := (hi q hq).1 n1 _ h1 hv1
              omega
            · rw [hpos q n2 hq h2 (.inr e2)] at hv2
              exact (hi q hq).2 n1 n2 v h1 h2 hv1 hv2
      · rw [hctr q hq hqp]
        refine ⟨?_, ?_⟩
        · intro n' v hn' hv
          rw [hpos q n' hq hn' (.inl hqp)] at hv
          exact (hi q hq).1 n' v hn' hv
        · intro n1 n2 v h1 h2 hv1 hv2
          rw [hpos q n1 hq h1 (.inl hqp)] at hv1
          rw [hpos q n2 hq h2 (.inl hqp)] at hv2
          exact (hi q hq).2 n1 n2 v h1 h2 hv1 hv2
    · intro q n' v hq hn' hv
      by_cases e : q = p ∧ n' = n
      · obtain ⟨rfl, rfl⟩ := e
        rw [hnone] at hv
        cases hv
      · rw [hpos q n' hq hn' (by tauto)]
        exact hv
    · rw [hself]
      rfl

theorem CExt.trans {src : Json} {a b c : GoMap Nat} (h1 : CExt src a b) (h2 : CExt src b c) :
    CExt src a c := fun p n v hp hn h => h2 p n v hp hn (h1 p n v hp hn h)

/-- The new place that the final counters give. -/
def rho (m : GoMap Nat) (pre : List Step) : List Step → List Step
  | [] => []
  | .idx n :: ks => .idx ((get? m (keyOfPlace (pre ++ [.idx n]))).getD 0) :: rho m (pre ++ [.idx n]) ks
  | .name k :: ks => .name k :: rho m (pre ++ [.name k]) ks

/-- Every array position of the place has a number. -/
def Mapped (m : GoMap Nat) (pre : List Step) : List Step → Prop
  | [] => True
  | .idx n :: ks => (get? m (keyOfPlace (pre ++ [.idx n]))).isSome ∧ Mapped m (pre ++ [.idx n]) ks
  | .name k :: ks => Mapped m (pre ++ [.name k]) ks

theorem rho_ext {src : Json} {m m' : GoMap Nat} (he : CExt src m m') : ∀ (ks pre : List Step),
    Good src (pre ++ ks) → Mapped m pre ks → rho m' pre ks = rho m pre ks ∧ Mapped m' pre ks
  | [], _, _, _ => ⟨rfl, trivial⟩
  | .idx n :: ks, pre, hg, hm => by
    obtain ⟨h1, h2⟩ := hm
    have hg' : Good src ((pre ++ [.idx n]) ++ ks) := by simpa using hg
    obtain ⟨e, hm'⟩ := rho_ext he ks (pre ++ [.idx n]) hg' h2
    obtain ⟨v, hv⟩ := Option.isSome_iff_exists.mp h1
    have := he pre n v (adm_of_good hg) (gat_prefix_isSome hg'.here) hv
    simp only [rho, Mapped, e, hv, this]
    exact ⟨trivial, rfl, hm'⟩
  | .name k :: ks, pre, hg, hm => by
    have hg' : Good src ((pre ++ [.name k]) ++ ks) := by simpa using hg
    obtain ⟨e, hm'⟩ := rho_ext he ks (pre ++ [.name k]) hg' hm
    simp only [rho, Mapped, e]
    exact ⟨trivial, hm'⟩

theorem renum_rho {src : Json} : ∀ (ks pre : List Step) (m : GoMap Nat), CInv src m →
    Good src (pre ++ ks) →
    CInv src (renum pre m ks).2 ∧ CExt src m (renum pre m ks).2 ∧
      (renum pre m ks).1 = rho (renum pre m ks).2 pre ks ∧ Mapped (renum pre m ks).2 pre ks
  | [], _, m, hi, _ => ⟨hi, fun _ _ _ _ _ h => h, rfl, trivial⟩
  | .idx n :: ks, pre, m, hi, hg => by
    have hg' : Good src ((pre ++ [.idx n]) ++ ks) := by simpa using hg
    have ha := adm_of_good hg
    have hn := gat_prefix_isSome hg'.here
    obtain ⟨h1, h2, h3⟩ := bump_inv hi ha hn
    obtain ⟨i1, i2, i3, i4⟩ := renum_rho ks (pre ++ [.idx n]) _ h1 hg'
    obtain ⟨v, hv⟩ := Option.isSome_iff_exists.mp h3
    have := i2 pre n v ha hn hv
    simp only [renum, rho, Mapped]
    refine ⟨i1, h2.trans i2, ?_, ?_, i4⟩
    · rw [← i3, hv, this]
    · rw [this]; rfl
  | .name k :: ks, pre, m, hi, hg => by
    have hg' : Good src ((pre ++ [.name k]) ++ ks) := by simpa using hg
    obtain ⟨i1, i2, i3, i4⟩ := renum_rho ks (pre ++ [.name k]) m hi hg'
    simp only [renum, rho, Mapped]
    exact ⟨i1, i2, by rw [← i3], i4⟩

theorem renum_full {src : Json} {S : List (List Step)} (hS : ∀ p ∈ S, Good src p) :
    ∀ (ks pre : List Step) (m : GoMap Nat), CFull src S m → pre ++ ks ∈ S →
    CFull src S (renum pre m ks).2
  | [], _, m, hf, _ => hf
  | .idx n :: ks, pre, m, hf, hm =>
    renum_full hS ks (pre ++ [.idx n]) _ (bump_full hS hf hm) (by simpa using hm)
  | .name k :: ks, pre, m, hf, hm => renum_full hS ks (pre ++ [.name k]) m hf (by simpa using hm)

theorem cfull_nil (src : Json) (S : List (List Step)) : CFull src S [] := by
  intro p _ v hv
  simp at hv

theorem renumAll_rho {src : Json} : ∀ (ps : List (List Step)) (m : GoMap Nat), CInv src m →
    (∀ p ∈ ps, Good src p) →
    ∃ m', CInv src m' ∧ CExt src m m' ∧ renumAll m ps = ps.map (rho m' []) ∧
      (∀ p ∈ ps, Mapped m' [] p) ∧
      ∀ S, (∀ p ∈ S, Good src p) → (∀ p ∈ ps, p ∈ S) → CFull src S m → CFull src S m'
  | [], m, hi, _ => ⟨m, hi, fun _ _ _ _ _ h => h, rfl, by simp, fun _ _ _ h => h⟩
  | p :: ps, m, hi, hg => by
    have hgp := hg p (List.mem_cons_self ..)
    obtain ⟨i1, i2, i3, i4⟩ := renum_rho p [] m hi (by simpa using hgp)
    obtain ⟨m', j1, j2, j3, j4, j5⟩ := renumAll_rho ps _ i1 (fun q hq => hg q (List.mem_cons_of_mem _ hq))
    obtain ⟨e, hm⟩ := rho_ext j2 p [] (by simpa using hgp) i4
    refine ⟨m', j1, i2.trans j2, ?_, ?_, ?_⟩
    · simp only [renumAll, List.map_cons, j3, i3, e]
    · intro q hq
      rcases List.mem_cons.mp hq with rfl | hq
      · exact hm
      · exact j4 q hq
    · intro S hS hsub hf
      exact j5 S hS (fun q hq => hsub q (List.mem_cons_of_mem _ hq))
        (renum_full hS p [] m hf (by simpa using hsub p (List.mem_cons_self ..)))

theorem cinv_nil (src : Json) : CInv src [] := by
  intro p _
  refine ⟨?_, ?_⟩
  · intro n v _ h; simp at h
  · intro n n' v _ _ h; simp at h

/-! ## Places that are the same, and places that part -/

theorem rho_head_inj {src : Json} {m : GoMap Nat} (hi : CInv src m) {pre ks ks' : List Step} {n n' : Nat}
    (hg : Good src (pre ++ .idx n :: ks)) (hg' : Good src (pre ++ .idx n' :: ks'))
    (h1 : (get? m (keyOfPlace (pre ++ [.idx n]))).isSome)
    (h2 : (get? m (keyOfPlace (pre ++ [.idx n']))).isSome)
    (e : (get? m (keyOfPlace (pre ++ [.idx n]))).getD 0 = (get? m (keyOfPlace (pre ++ [.idx n']))).getD 0) :
    n = n' := by
  obtain ⟨v, hv⟩ := Option.isSome_iff_exists.mp h1
  obtain ⟨v', hv'⟩ := Option.isSome_iff_exists.mp h2
  rw [hv, hv'] at e
  simp only [Option.getD_some] at e
  subst e
  have a1 : Good src ((pre ++ [.idx n]) ++ ks) := by simpa using hg
  have a2 : Good src ((pre ++ [.idx n']) ++ ks') := by simpa using hg'
  exact (hi pre (adm_of_good hg)).2 n n' v (gat_prefix_isSome a1.here) (gat_prefix_isSome a2.here) hv hv'

/-- Two places agree up to a depth exactly if the new places do. -/
theorem rho_take {src : Json} {m : GoMap Nat} (hi : CInv src m) : ∀ (d : Nat) (p q pre : List Step),
    Good src (pre ++ p) → Good src (pre ++ q) → Mapped m pre p → Mapped m pre q →
    ((rho m pre p).take d = (rho m pre q).take d ↔ p.take d = q.take d)
  | 0, _, _, _, _, _, _, _ => by simp
  | d + 1, [], [], _, _, _, _, _ => by simp
  | d + 1, [], b :: q, pre, _, _, _, _ => by cases b <;> simp [rho]
  | d + 1, a :: p, [], pre, _, _, _, _ => by cases a <;> simp [rho]
  | d + 1, .name k :: p, .name k' :: q, pre, hp, hq, mp, mq => by
    simp only [rho, List.take_succ_cons, List.cons.injEq, Step.name.injEq]
    constructor
    · rintro ⟨rfl, h⟩
      exact ⟨rfl, (rho_take hi d p q _ (by simpa using hp) (by simpa using hq) mp mq).mp h⟩
    · rintro ⟨rfl, h⟩
      exact ⟨rfl, (rho_take hi d p q _ (by simpa using hp) (by simpa using hq) mp mq).mpr h⟩
  | d + 1, .idx n :: p, .idx n' :: q, pre, hp, hq, mp, mq => by
    simp only [rho, List.take_succ_cons, List.cons.injEq, Step.idx.injEq]
    constructor
    · rintro ⟨e, h⟩
      have := rho_head_inj hi hp hq mp.1 mq.1 e
      subst this
      exact ⟨rfl, (rho_take hi d p q _ (by simpa using hp) (by simpa using hq) mp.2 mq.2).mp h⟩
    · rintro ⟨rfl, h⟩
      exact ⟨rfl, (rho_take hi d p q _ (by simpa using hp) (by simpa using hq) mp.2 mq.2).mpr h⟩
  | d + 1, .name k :: p, .idx n :: q, pre, _, _, _, _ => by simp [rho]
  | d + 1, .idx n :: p, .name k :: q, pre, _, _, _, _ => by simp [rho]

/-- Two places: one lies in the other, or the new places part. -/
theorem rho_cases {src : Json} {m : GoMap Nat} (hi : CInv src m) : ∀ (p q pre : List Step),
    Good src (pre ++ p) → Good src (pre ++ q) → Mapped m pre p → Mapped m pre q →
    (∃ r, q = p ++ r) ∨ (∃ r, p = q ++ r) ∨
      (Div (rho m pre p) (rho m pre q) ∧ Div (rho m pre q) (rho m pre p))
  | [], q, _, _, _, _, _ => .inl ⟨q, rfl⟩
  | a :: p, [], _, _, _, _, _ => .inr (.inl ⟨a :: p, rfl⟩)
  | .name k :: p, .name k' :: q, pre, hp, hq, mp, mq => by
    by_cases e : k = k'
    · subst e
      rcases rho_cases hi p q (pre ++ [.name k]) (by simpa using hp) (by simpa using hq) mp mq with
        ⟨r, h⟩ | ⟨r, h⟩ | ⟨h, h'⟩
      · exact .inl ⟨r, by rw [h]; rfl⟩
      · exact .inr (.inl ⟨r, by rw [h]; rfl⟩)
      · exact .inr (.inr ⟨.tail _ _ _ h, .tail _ _ _ h'⟩)
    · exact .inr (.inr ⟨.head _ _ _ _ (by simpa using e) trivial,
        .head _ _ _ _ (by simpa using fun h => e h.symm) trivial⟩)
  | .idx n :: p, .idx n' :: q, pre, hp, hq, mp, mq => by
    by_cases e : n = n'
    · subst e
      rcases rho_cases hi p q (pre ++ [.idx n]) (by simpa using hp) (by simpa using hq) mp.2 mq.2 with
        ⟨r, h⟩ | ⟨r, h⟩ | ⟨h, h'⟩
      · exact .inl ⟨r, by rw [h]; rfl⟩
      · exact .inr (.inl ⟨r, by rw [h]; rfl⟩)
      · exact .inr (.inr ⟨.tail _ _ _ h, .tail _ _ _ h'⟩)
    · have hne : ¬ (get? m (keyOfPlace (pre ++ [.idx n]))).getD 0 =
          (get? m (keyOfPlace (pre ++ [.idx n']))).getD 0 :=
        fun h => e (rho_head_inj hi hp hq mp.1 mq.1 h)
      exact .inr (.inr ⟨.head _ _ _ _ (by simpa using hne) trivial,
        .head _ _ _ _ (by simpa using fun h => hne h.symm) trivial⟩)
  | .name k :: p, .idx n :: q, pre, hp, hq, _, _ => by
    exfalso
    have h1 := hp.here
    have h2 := hq.here
    rw [gat_append] at h1 h2
    cases hx : gat src pre with
    | none => rw [hx] at h1; simp at h1
    | some x => rw [hx] at h1 h2; cases x <;> simp [gat] at h1 h2
  | .idx n :: p, .name k :: q, pre, hp, hq, _, _ => by
    exfalso
    have h1 := hp.here
    have h2 := hq.here
    rw [gat_append] at h1 h2
    cases hx : gat src pre with
    | none => rw [hx] at h1; simp at h1
    | some x => rw [hx] at h1 h2; cases x <;> simp [gat] at h1 h2

/-- The beginning of a new place that ends before an array position comes from a beginning of the place. -/
theorem rho_at (m : GoMap Nat) : ∀ (p pre c' s' : List Step) (a : Nat), rho m pre p = c' ++ .idx a :: s' →
    ∃ c n s, p = c ++ .idx n :: s ∧ rho m pre c = c' ∧
      (get? m (keyOfPlace (pre ++ c ++ [.idx n]))).getD 0 = a
  | [], _, c', s', a, h => by simp [rho] at h
  | .name k :: p, pre, c', s', a, h => by
    cases c' with
    | nil => simp [rho] at h
    | cons x c' =>
      simp only [rho, List.cons_append, List.cons.injEq] at h
      obtain ⟨rfl, h⟩ := h
      obtain ⟨c, n, s, rfl, h1, h2⟩ := rho_at m p _ c' s' a h
      exact ⟨.name k :: c, n, s, rfl, by simp [rho, h1], by simpa using h2⟩
  | .idx b :: p, pre, c', s', a, h => by
    cases c' with
    | nil =>
      simp only [rho, List.nil_append, List.cons.injEq, Step.idx.injEq] at h
      exact ⟨[], b, p, rfl, rfl, by simpa using h.1⟩
    | cons x c' =>
      simp only [rho, List.cons_append, List.cons.injEq] at h
      obtain ⟨rfl, h⟩ := h
      obtain ⟨c, n, s, rfl, h1, h2⟩ := rho_at m p _ c' s' a h
      exact ⟨.idx b :: c, n, s, rfl, by simp [rho, h1], by simpa using h2⟩

theorem mapped_at (m : GoMap Nat) : ∀ (c pre s : List Step) (n : Nat), Mapped m pre (c ++ .idx n :: s) →
    (get? m (keyOfPlace (pre ++ c ++ [.idx n]))).isSome
  | [], pre, s, n, h => by simpa using h.1
  | .name k :: c, pre, s, n, h => by simpa using mapped_at m c _ s n h
  | .idx b :: c, pre, s, n, h => by simpa using mapped_at m c _ s n h.2

theorem rho_append (m : GoMap Nat) : ∀ (p r pre : List Step),
    rho m pre (p ++ r) = rho m pre p ++ rho m (pre ++ p) r
  | [], r, pre => by simp [rho]
  | .name k :: p, r, pre => by simp [rho, rho_append m p r]
  | .idx n :: p, r, pre => by simp [rho, rho_append m p r]

theorem rho_names (m : GoMap Nat) : ∀ (r pre : List Step), (∀ s ∈ r, ∃ k, s = .name k) →
    rho m pre r = r
  | [], _, _ => rfl
  | s :: r, pre, h => by
    obtain ⟨k, rfl⟩ := h s (List.mem_cons_self ..)
    simp only [rho, rho_names m r _ (fun x hx => h x (List.mem_cons_of_mem _ hx))]

theorem rho_shape (m : GoMap Nat) : ∀ (ks pre : List Step), SameShape ks (rho m pre ks)
  | [], _ => .nil
  | .idx _ :: ks, _ => .idx _ _ (rho_shape m ks _)
  | .name _ :: ks, _ => .name _ (rho_shape m ks _)

/-- The positions that are used in an array are the first ones. -/
theorem rho_compact {src : Json} {m : GoMap Nat} {S : List (List Step)} (hi : CInv src m)
    (hf : CFull src S m) (hS : ∀ p ∈ S, Good src p) (hm : ∀ p ∈ S, Mapped m [] p) {p c' s' : List Step}
    {a b : Nat} (hp : p ∈ S) (e : rho m [] p = c' ++ .idx a :: s') (hb : b < a) :
    ∃ q ∈ S, ∃ t, rho m [] q = c' ++ .idx b :: t := by
  obtain ⟨c, n, s, rfl, h1, h2⟩ := rho_at m p [] c' s' a e
  simp only [List.nil_append] at h2
  have hg := hS _ hp
  have hadm := adm_of_good hg
  have hg' : Good src ((c ++ [.idx n]) ++ s) := by simpa using hg
  have hsome := mapped_at m c [] s n (hm _ hp)
  obtain ⟨v, hv⟩ := Option.isSome_iff_exists.mp hsome
  simp only [List.nil_append] at hv
  rw [hv] at h2
  simp only [Option.getD_some] at h2
  subst h2
  have hlt := (hi c hadm).1 n v (gat_prefix_isSome hg'.here) hv
  obtain ⟨n', t, h3, h4⟩ := hf c hadm b (by omega)
  refine ⟨_, h3, rho m (c ++ [.idx n']) t, ?_⟩
  rw [rho_append, h1]
  simp only [List.nil_append, rho, h4, Option.getD_some]

end VC.PE
