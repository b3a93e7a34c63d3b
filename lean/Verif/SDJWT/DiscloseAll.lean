import Verif.SDJWT.DiscloseIff
/-!
# GetDisclosureClaims: resolving all disclosures, in any order (helper lemmas)
-/

namespace VC.SDJWT
open List

variable {cl : Bool} {D : DMap}

/-- No disclosure of `D` is marked as resolved (freshly decoded disclosures). -/
def AllUnparsed (D : DMap) : Prop := ∀ d c, GoMap.get? D d = some c → c.parsed = false

/-- The disclosure of `d` is resolved. -/
def Parsed (st : St) (d : String) : Prop := ∃ c, GoMap.get? st.ds d = some c ∧ c.parsed = true

/-- Invariant of the loop over all disclosures. -/
structure SInv (cl : Bool) (D : DMap) (st : St) : Prop where
  ext : Ext cl D st
  nd : st.seen.Nodup
  keys : GoMap.keys st.ds = GoMap.keys D
  perm : ∃ P : List String, P.Nodup ∧ (∀ d, d ∈ P ↔ Parsed st d) ∧ st.seen.Perm (P.flatMap (digOf cl D))

theorem SInv.init (hU : AllUnparsed D) : SInv cl D ⟨[], D⟩ := by
  refine ⟨Ext.refl, by simp, rfl, [], by simp, ?_, by simp⟩
  intro d
  simp only [List.not_mem_nil, false_iff]
  rintro ⟨c, hc, hp⟩
  rw [hU d c hc] at hp; cases hp

theorem SInv.set {st st' : St} (h : SInv cl D st) {n : Nat} {d : String} {c : Disc} {w : Json}
    (hc : GoMap.get? st.ds d = some c) (hs : setValue (disclose cl n) st d c = .ok (w, st')) :
    SInv cl D st' ∧ Parsed st' d ∧ (∀ x, Parsed st x → Parsed st' x) := by
  cases hp : c.parsed with
  | true =>
    unfold setValue at hs
    rw [hp] at hs
    simp only [if_true, Except.ok.injEq, Prod.mk.injEq] at hs
    obtain ⟨rfl, rfl⟩ := hs
    exact ⟨h, ⟨c, hc, hp⟩, fun _ hx => hx⟩
  | false =>
    obtain ⟨_, hE, N, n1, n2, n3, n4, n5, n6, n7, n8⟩ :=
      setValue_fresh (disclose_sound n) hs hc hp h.ext h.nd
    obtain ⟨P, p1, p2, p3⟩ := h.perm
    have hmono : ∀ x, Parsed st x → Parsed st' x := by
      rintro x ⟨c', h1, h2⟩
      have : x ∉ d :: N := by
        intro hx
        obtain ⟨c2, h3, h4⟩ := (n2 x hx).1
        rw [h1] at h3; cases h3; rw [h2] at h4; cases h4
      exact ⟨c', by rw [n3 x this]; exact h1, h2⟩
    refine ⟨⟨hE, n5, n8.trans h.keys, P ++ d :: N, ?_, ?_, ?_⟩, (n2 d (by simp)).2, hmono⟩
    · rw [List.nodup_append]
      refine ⟨p1, n1, ?_⟩
      rintro x hx y hy rfl
      obtain ⟨c1, h1, h2⟩ := (p2 x).mp hx
      obtain ⟨c2, h3, h4⟩ := (n2 x hy).1
      rw [h1] at h3; cases h3; rw [h2] at h4; cases h4
    · intro x
      constructor
      · intro hx
        rcases List.mem_append.mp hx with hx | hx
        · exact hmono x ((p2 x).mp hx)
        · exact (n2 x hx).2
      · rintro ⟨c', h1, h2⟩
        rw [List.mem_append]
        by_cases hx : x ∈ d :: N
        · exact Or.inr hx
        · left
          rw [p2]
          exact ⟨c', by rw [← n3 x hx]; exact h1, h2⟩
    · rw [List.flatMap_append]
      exact n4.trans (p3.append_right _)

theorem depth_le_weight {d : String} {c : Disc} (h : GoMap.get? D d = some c) :
    Json.depth c.value + 1 ≤ weight D := by
  induction D with
  | nil => cases h
  | cons p D ih =>
    obtain ⟨k, c'⟩ := p
    rw [GoMap.get?_cons] at h
    simp only [weight]
    split at h
    · cases h; omega
    · have := ih h; omega

/-- The loop never runs out of fuel. -/
theorem setAll_term (n : Nat) (hn : 2 * weight D + 1 ≤ n) (dl : List String) :
    ∀ st, SInv cl D st → setAll cl n st dl ≠ .error .fuel := by
  induction dl with
  | nil => intro st _; simp [setAll]
  | cons d dl ih =>
    intro st hI
    simp only [setAll]
    cases hc : GoMap.get? st.ds d with
    | none => exact ih st hI
    | some c =>
      simp only
      cases hs : setValue (disclose cl n) st d c with
      | ok q => exact ih _ (hI.set hc hs).1
      | error e =>
        simp only [ne_eq, Except.error.injEq]
        rintro rfl
        unfold setValue at hs
        cases hp : c.parsed with
        | true => rw [hp] at hs; simp at hs
        | false =>
          rw [hp] at hs
          simp only [Bool.false_eq_true, if_false] at hs
          have hw := depth_le_weight (hI.ext.unparsed hc hp)
          have hpot := potential_mono D (s := []) (s' := st.seen) (by simp)
          rw [potential_nil] at hpot
          have := disclose_term (D := D) n st c.value hI.ext hI.nd (by omega)
          cases hr : disclose cl n st c.value with
          | error e => rw [hr] at hs this; simp at hs; subst hs; exact this rfl
          | ok q => rw [hr] at hs; cases hs

theorem setAll_sound (n : Nat) (dl : List String) :
    ∀ st st', setAll cl n st dl = .ok st' → SInv cl D st →
      SInv cl D st' ∧ (∀ x, Parsed st x → Parsed st' x) ∧
      (∀ d ∈ dl, d ∈ GoMap.keys D → Parsed st' d) := by
  induction dl with
  | nil =>
    intro st st' h hI
    simp only [setAll, Except.ok.injEq] at h
    subst h
    exact ⟨hI, fun _ h => h, by simp⟩
  | cons d dl ih =>
    intro st st' h hI
    simp only [setAll] at h
    cases hc : GoMap.get? st.ds d with
    | none =>
      rw [hc] at h
      obtain ⟨g1, g2, g3⟩ := ih _ _ h hI
      refine ⟨g1, g2, ?_⟩
      intro x hx hk
      rcases List.mem_cons.mp hx with rfl | hx
      · rw [GoMap.get?_eq_none_iff, hI.keys] at hc
        exact absurd hk hc
      · exact g3 x hx hk
    | some c =>
      rw [hc] at h
      simp only at h
      cases hs : setValue (disclose cl n) st d c with
      | error e => rw [hs] at h; cases h
      | ok q =>
        rw [hs] at h
        obtain ⟨w, s1⟩ := q
        obtain ⟨i1, i2, i3⟩ := hI.set hc hs
        obtain ⟨g1, g2, g3⟩ := ih _ _ h i1
        refine ⟨g1, fun x hx => g2 x (i3 x hx), ?_⟩
        intro x hx hk
        rcases List.mem_cons.mp hx with rfl | hx
        · exact g2 _ i2
        · exact g3 x hx hk

theorem nodup_flatMap_sub {l l' : List String} {f : String → List String} (h : (l.flatMap f).Nodup)
    (hn : l.Nodup) (hn' : l'.Nodup) (hs : ∀ x ∈ l', x ∈ l) : (l'.flatMap f).Nodup := by
  rw [List.nodup_flatMap] at h ⊢
  refine ⟨fun x hx => h.1 x (hs x hx), ?_⟩
  have hsym : ∀ x ∈ l, ∀ y ∈ l, x ≠ y → List.Disjoint (f x) (f y) := by
    intro x hx y hy hne
    have := h.2
    clear h hn' hs
    induction l with
    | nil => cases hx
    | cons a l ih =>
      rw [List.pairwise_cons] at this
      rcases List.mem_cons.mp hx with rfl | hx
      · rcases List.mem_cons.mp hy with rfl | hy
        · exact absurd rfl hne
        · exact this.1 y hy
      · rcases List.mem_cons.mp hy with rfl | hy
        · intro z hz1 hz2; exact this.1 x (by assumption) hz2 hz1
        · exact ih (List.nodup_cons.mp hn).2 hx hy this.2
  refine List.Pairwise.imp_of_mem ?_ hn'
  intro a b ha hb hne
  exact hsym a (hs a ha) b (hs b hb) hne

theorem setAll_complete (hDW : DWF D) (hK : GoMap.WF D)
    (hR : ∀ d ∈ GoMap.keys D, ∃ w, Resolve cl D (.disc d) (.val w))
    (hN : ((GoMap.keys D).flatMap (digOf cl D)).Nodup) (n : Nat) (dl : List String) :
    ∀ st e, setAll cl n st dl = .error e → SInv cl D st → e = .fuel := by
  induction dl with
  | nil => intro st e h; simp [setAll] at h
  | cons d dl ih =>
    intro st e h hI
    simp only [setAll] at h
    cases hc : GoMap.get? st.ds d with
    | none => rw [hc] at h; exact ih _ _ h hI
    | some c =>
      rw [hc] at h
      simp only at h
      cases hs : setValue (disclose cl n) st d c with
      | ok q => rw [hs] at h; exact ih _ _ h (hI.set hc hs).1
      | error e' =>
        rw [hs] at h
        simp only [Except.error.injEq] at h
        subst h
        unfold setValue at hs
        cases hp : c.parsed with
        | true => rw [hp] at hs; simp at hs
        | false =>
          rw [hp] at hs
          simp only [Bool.false_eq_true, if_false] at hs
          have hDc := hI.ext.unparsed hc hp
          cases hr : disclose cl n st c.value with
          | ok q => rw [hr] at hs; cases hs
          | error e2 =>
            rw [hr] at hs
            simp only [Except.error.injEq] at hs
            subst hs
            have hdk : d ∈ GoMap.keys D := GoMap.get?_isSome_iff.mp (by rw [hDc]; rfl)
            obtain ⟨w, hw⟩ := hR d hdk
            have hw' : Resolves cl D c.value w := by
              cases hw with
              | done h1 h2 => rw [hDc] at h1; cases h1; rw [hp] at h2; cases h2
              | disc h1 h2 h3 => rw [hDc] at h1; cases h1; exact h3
            have hKst : GoMap.WF st.ds := by unfold GoMap.WF; rw [hI.keys]; exact hK
            have hback : ∀ x, Reach cl st.ds (digests cl c.value) x →
                Reach cl D (digests cl c.value) x := by
              intro x hx
              exact Reach.back (st := ⟨[], D⟩) (st1 := st) (fun y cy h1 h2 => hI.ext.unparsed h1 h2) hx
            obtain ⟨P, p1, p2, p3⟩ := hI.perm
            have hmemR : ∀ x ∈ reachSet cl st.ds (digests cl c.value), Unparsed st x :=
              fun x hx => (mem_reachSet.mp hx).2
            have hB : Budget cl D st (digests cl c.value ++ [])
                (reachSet cl st.ds (digests cl c.value)) := by
              refine ⟨nodup_reachSet hKst, hmemR, ?_, ?_⟩
              · intro x hx hu
                rw [mem_reachSet]
                refine ⟨?_, hu⟩
                rcases List.mem_append.mp hx with hx | hx
                · exact .root (by simpa using hx)
                · obtain ⟨y, hy, hy'⟩ := List.mem_flatMap.mp hx
                  obtain ⟨hy1, cy, hcy, hpy⟩ := mem_reachSet.mp hy
                  refine .step hy1 hcy hpy ?_
                  simpa [digOf, hI.ext.unparsed hcy hpy] using hy'
              · have hdig : digOf cl D d = digests cl c.value := by simp [digOf, hDc]
                have hperm : (st.seen ++ (digests cl c.value ++ [] ++
                    (reachSet cl st.ds (digests cl c.value)).flatMap (digOf cl D))).Perm
                    ((P ++ d :: reachSet cl st.ds (digests cl c.value)).flatMap (digOf cl D)) := by
                  simp only [List.append_nil, List.flatMap_append, List.flatMap_cons, hdig]
                  exact p3.append_right _
                refine hperm.nodup_iff.mpr (nodup_flatMap_sub hN hK ?_ ?_)
                · rw [List.nodup_append, List.nodup_cons]
                  refine ⟨p1, ⟨?_, nodup_reachSet hKst⟩, ?_⟩
                  · intro hd
                    exact resolve_acyclic hDc hp hw' (hback d (mem_reachSet.mp hd).1)
                  · rintro x hx y hy rfl
                    obtain ⟨c1, h1, h2⟩ := (p2 x).mp hx
                    have hux : Unparsed st x := by
                      rcases List.mem_cons.mp hy with rfl | hy
                      · exact ⟨c, hc, hp⟩
                      · exact hmemR x hy
                    obtain ⟨c2, h3, h4⟩ := hux
                    rw [h1] at h3; cases h3; rw [h2] at h4; cases h4
                · intro x hx
                  rw [← hI.keys]
                  have : (GoMap.get? st.ds x).isSome := by
                    rcases List.mem_append.mp hx with hx | hx
                    · obtain ⟨c1, h1, _⟩ := (p2 x).mp hx; rw [h1]; rfl
                    · rcases List.mem_cons.mp hx with rfl | hx
                      · rw [hc]; rfl
                      · obtain ⟨c1, h1, _⟩ := hmemR x hx; rw [h1]; rfl
                  exact GoMap.get?_isSome_iff.mp this
            exact disclose_complete hDW _ _ _ _ _ _ _ hr hI.ext (hDW d c hDc hp) hw' hB

/-- Exact success condition of the loop over all disclosures, and its result; the order is
irrelevant. -/
theorem setAll_iff (hDW : DWF D) (hK : GoMap.WF D) (hU : AllUnparsed D) {dl : List String}
    (hdl : ∀ d ∈ GoMap.keys D, d ∈ dl) :
    (∃ st, setAll cl (2 * weight D + 1) ⟨[], D⟩ dl = .ok st) ↔
      (∀ d ∈ GoMap.keys D, ∃ w, Resolve cl D (.disc d) (.val w)) ∧
      ((GoMap.keys D).flatMap (digOf cl D)).Nodup := by
  constructor
  · rintro ⟨st, h⟩
    obtain ⟨g1, _, g3⟩ := setAll_sound _ _ _ _ h (SInv.init hU)
    refine ⟨?_, ?_⟩
    · intro d hd
      obtain ⟨c, hc, hp⟩ := g3 d (hdl d hd) hd
      obtain ⟨r, h1, _, _, _, h4⟩ := g1.ext.ofSome hc
      rcases h4 with rfl | ⟨h4, _, h5⟩
      · rw [hU d c h1] at hp; cases hp
      · exact ⟨_, .disc h1 h4 h5⟩
    · obtain ⟨P, p1, p2, p3⟩ := g1.perm
      have hP : P.Perm (GoMap.keys D) := by
        rw [List.perm_ext_iff_of_nodup p1 hK]
        intro d
        rw [p2]
        constructor
        · rintro ⟨c, hc, _⟩
          rw [← g1.keys]
          exact GoMap.get?_isSome_iff.mp (by rw [hc]; rfl)
        · intro hd; exact g3 d (hdl d hd) hd
      exact (p3.trans (hP.flatMap_right _)).nodup_iff.mp g1.nd
  · rintro ⟨h1, h2⟩
    cases h : setAll cl (2 * weight D + 1) ⟨[], D⟩ dl with
    | ok st => exact ⟨st, rfl⟩
    | error e =>
      have := setAll_complete hDW hK h1 h2 _ _ _ _ h (SInv.init hU)
      subst this
      exact absurd h (setAll_term _ (Nat.le_refl _) _ _ (SInv.init hU))

/-- What `GetDisclosureClaims` returns: every disclosure with its resolved value. -/
theorem setAll_result (hU : AllUnparsed D) {dl : List String} (hdl : ∀ d ∈ GoMap.keys D, d ∈ dl)
    {n : Nat} {st : St} (h : setAll cl n ⟨[], D⟩ dl = .ok st) :
    GoMap.keys st.ds = GoMap.keys D ∧
    ∀ d r, GoMap.get? D d = some r →
      ∃ c, GoMap.get? st.ds d = some c ∧ c.parsed = true ∧ c.name = r.name ∧ c.elems = r.elems ∧
        c.disclosure = r.disclosure ∧ Resolves cl D r.value c.value := by
  obtain ⟨g1, _, g3⟩ := setAll_sound _ _ _ _ h (SInv.init hU)
  refine ⟨g1.keys, ?_⟩
  intro d r hr
  have hd : d ∈ GoMap.keys D := GoMap.get?_isSome_iff.mp (by rw [hr]; rfl)
  obtain ⟨c, hc, hp⟩ := g3 d (hdl d hd) hd
  obtain ⟨r', h1, h2, h3, h4, h5⟩ := g1.ext.ofSome hc
  rw [hr] at h1; cases h1
  refine ⟨c, hc, hp, h2, h3, h4, ?_⟩
  rcases h5 with rfl | ⟨_, _, h5⟩
  · rw [hU d c hr] at hp; cases hp
  · exact h5

/-! ## Resolving against already resolved disclosures -/

/-- `D'` is `D` with every disclosure resolved. -/
def ResolvedMap (cl : Bool) (D D' : DMap) : Prop :=
  ∀ d, (GoMap.get? D d = none ∧ GoMap.get? D' d = none) ∨
    ∃ r c, GoMap.get? D d = some r ∧ GoMap.get? D' d = some c ∧ r.parsed = false ∧
      c.parsed = true ∧ c.name = r.name ∧ c.elems = r.elems ∧ Resolves cl D r.value c.value

theorem resolve_of_resolved {D' : DMap} (hM : ResolvedMap cl D D') {t : Task} {o : Out}
    (h : Resolve cl D' t o) : Resolve cl D t o := by
  have hnone : ∀ d, GoMap.get? D' d = none → GoMap.get? D d = none := by
    intro d hd
    rcases hM d with h | ⟨r, c, _, h2, _⟩
    · exact h.1
    · rw [hd] at h2; cases h2
  have hsome : ∀ d c, GoMap.get? D' d = some c → ∃ r, GoMap.get? D d = some r ∧ r.parsed = false ∧
      c.parsed = true ∧ c.name = r.name ∧ c.elems = r.elems ∧ Resolves cl D r.value c.value := by
    intro d c hd
    rcases hM d with h | ⟨r, c', h1, h2, h3⟩
    · rw [h.2] at hd; cases hd
    · rw [hd] at h2; cases h2; exact ⟨r, h1, h3⟩
  induction h with
  | scalar h => exact .scalar h
  | arr _ ih => exact .arr ih
  | obj h1 _ _ h4 h5 ih2 ih3 => exact .obj h1 ih2 ih3 h4 h5
  | done h1 h2 =>
    obtain ⟨r, g1, g2, _, _, _, g6⟩ := hsome _ _ h1
    exact .disc g1 g2 g6
  | disc h1 h2 _ _ =>
    obtain ⟨r, _, _, g3, _⟩ := hsome _ _ h1
    rw [h2] at g3; cases g3
  | enil => exact .enil
  | eplain h1 _ ih => exact .eplain h1 ih
  | emiss h1 h2 _ ih => exact .emiss h1 (hnone _ h2) ih
  | edisc h1 h2 h3 _ _ ih1 ih2 =>
    obtain ⟨r, g1, g2, _, _, g5, _⟩ := hsome _ _ h2
    exact .edisc h1 g1 (g5 ▸ h3) ih1 ih2
  | snil => exact .snil
  | smiss h1 _ ih => exact .smiss (hnone _ h1) ih
  | sdisc h1 h2 _ _ ih1 ih2 =>
    obtain ⟨r, g1, g2, _, g4, g5, _⟩ := hsome _ _ h1
    rw [g4]
    exact .sdisc g1 (g5 ▸ h2) ih1 ih2
  | fnil => exact .fnil
  | fskip h1 _ ih => exact .fskip h1 ih
  | fcons h1 _ _ ih1 ih2 => exact .fcons h1 ih1 ih2

theorem resolved_of_resolve {D' : DMap} (hM : ResolvedMap cl D D') {t : Task} {o : Out}
    (h : Resolve cl D t o) : Resolve cl D' t o := by
  have hnone : ∀ d, GoMap.get? D d = none → GoMap.get? D' d = none := by
    intro d hd
    rcases hM d with h | ⟨r, c, h2, _⟩
    · exact h.2
    · rw [hd] at h2; cases h2
  have hsome : ∀ d r, GoMap.get? D d = some r → ∃ c, GoMap.get? D' d = some c ∧ r.parsed = false ∧
      c.parsed = true ∧ c.name = r.name ∧ c.elems = r.elems ∧ Resolves cl D r.value c.value := by
    intro d c hd
    rcases hM d with h | ⟨r, c', h1, h2, h3⟩
    · rw [h.1] at hd; cases hd
    · rw [hd] at h1; cases h1; exact ⟨c', h2, h3⟩
  induction h with
  | scalar h => exact .scalar h
  | arr _ ih => exact .arr ih
  | obj h1 _ _ h4 h5 ih2 ih3 => exact .obj h1 ih2 ih3 h4 h5
  | done h1 h2 =>
    obtain ⟨r, _, g2, _⟩ := hsome _ _ h1
    rw [h2] at g2; cases g2
  | disc h1 h2 h3 _ =>
    obtain ⟨c, g1, _, g3, _, _, g6⟩ := hsome _ _ h1
    have := resolve_det h3 _ g6
    cases this
    exact .done g1 g3
  | enil => exact .enil
  | eplain h1 _ ih => exact .eplain h1 ih
  | emiss h1 h2 _ ih => exact .emiss h1 (hnone _ h2) ih
  | edisc h1 h2 h3 _ _ ih1 ih2 =>
    obtain ⟨r, g1, _, _, _, g5, _⟩ := hsome _ _ h2
    exact .edisc h1 g1 (g5.trans h3) ih1 ih2
  | snil => exact .snil
  | smiss h1 _ ih => exact .smiss (hnone _ h1) ih
  | sdisc h1 h2 _ _ ih1 ih2 =>
    obtain ⟨r, g1, _, _, g4, g5, _⟩ := hsome _ _ h1
    rw [← g4]
    exact .sdisc g1 (g5.trans h2) ih1 ih2
  | fnil => exact .fnil
  | fskip h1 _ ih => exact .fskip h1 ih
  | fcons h1 _ _ ih1 ih2 => exact .fcons h1 ih1 ih2

end VC.SDJWT
