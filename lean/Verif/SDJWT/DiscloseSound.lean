import Verif.SDJWT.DiscloseSpec
import Mathlib.Data.List.Perm.Basic
import Mathlib.Data.List.Nodup
/-!
# Resolving disclosures: what a successful run means (helper lemmas)
-/

namespace VC.SDJWT
open List

variable {cl : Bool} {D : DMap}

theorem set_fresh {α : Type} (m : GoMap α) (k : String) (v : α) (h : k ∉ GoMap.keys m) :
    GoMap.set m k v = m ++ [(k, v)] := by
  induction m with
  | nil => rfl
  | cons p m ih =>
    obtain ⟨k', v'⟩ := p
    simp only [GoMap.keys, List.map_cons, List.mem_cons, not_or] at h
    rw [GoMap.set, if_neg (fun e => h.1 e.symm), ih h.2]; rfl

/-- The disclosure of `d` exists and is not yet resolved. -/
def Unparsed (st : St) (d : String) : Prop := ∃ c, GoMap.get? st.ds d = some c ∧ c.parsed = false

/-- Digests written in the value of the disclosure of `d`. -/
def digOf (cl : Bool) (D : DMap) (d : String) : List String :=
  match GoMap.get? D d with
  | some c => digests cl c.value
  | none => []

/-- The disclosure objects in `st` are those of `D`, some of them replaced by their resolved
version. -/
def Ext (cl : Bool) (D : DMap) (st : St) : Prop :=
  ∀ d, (GoMap.get? D d = none ∧ GoMap.get? st.ds d = none) ∨
    ∃ r c, GoMap.get? D d = some r ∧ GoMap.get? st.ds d = some c ∧ c.name = r.name ∧
      c.elems = r.elems ∧ c.disclosure = r.disclosure ∧
      (c = r ∨ (r.parsed = false ∧ c.parsed = true ∧ Resolves cl D r.value c.value))

theorem Ext.refl : Ext cl D ⟨seen, D⟩ := by
  intro d
  cases h : GoMap.get? D d with
  | none => exact Or.inl ⟨rfl, rfl⟩
  | some c => exact Or.inr ⟨c, c, rfl, rfl, rfl, rfl, rfl, Or.inl rfl⟩

theorem Ext.seen {st : St} (h : Ext cl D st) (s : List String) :
    Ext cl D { st with seen := s } := h

theorem Ext.ofNone {st : St} (h : Ext cl D st) {d : String} (hn : GoMap.get? st.ds d = none) :
    GoMap.get? D d = none := by
  rcases h d with h | ⟨r, c, _, h2, _⟩
  · exact h.1
  · rw [hn] at h2; cases h2

theorem Ext.ofSome {st : St} (h : Ext cl D st) {d : String} {c : Disc}
    (hs : GoMap.get? st.ds d = some c) :
    ∃ r, GoMap.get? D d = some r ∧ c.name = r.name ∧ c.elems = r.elems ∧
      c.disclosure = r.disclosure ∧
      (c = r ∨ (r.parsed = false ∧ c.parsed = true ∧ Resolves cl D r.value c.value)) := by
  rcases h d with h | ⟨r, c', h1, h2, h3⟩
  · rw [h.2] at hs; cases hs
  · rw [hs] at h2; cases h2; exact ⟨r, h1, h3⟩

theorem Ext.unparsed {st : St} (h : Ext cl D st) {d : String} {c : Disc}
    (hs : GoMap.get? st.ds d = some c) (hp : c.parsed = false) : GoMap.get? D d = some c := by
  obtain ⟨r, h1, _, _, _, h4⟩ := h.ofSome hs
  rcases h4 with h4 | ⟨_, h4, _⟩
  · rw [h4]; exact h1
  · rw [hp] at h4; cases h4

/-- What a successful run over a value whose own digests are `ds0` does to the state: it resolves
the disclosures `N`, all reachable from `ds0`, and appends to `seen` exactly the digests `ds0` and
those written in the values of `N`. -/
def StepN (cl : Bool) (D : DMap) (st : St) (ds0 : List String) (st' : St) (N : List String) : Prop :=
  N.Nodup ∧
  (∀ d ∈ N, Unparsed st d ∧ ∃ c, GoMap.get? st'.ds d = some c ∧ c.parsed = true) ∧
  (∀ d, d ∉ N → GoMap.get? st'.ds d = GoMap.get? st.ds d) ∧
  st'.seen.Perm (st.seen ++ (ds0 ++ N.flatMap (digOf cl D))) ∧
  st'.seen.Nodup ∧
  (∀ d ∈ ds0 ++ N.flatMap (digOf cl D), ¬ Unparsed st' d) ∧
  (∀ d ∈ N, Reach cl st.ds ds0 d ∧ d ∈ ds0 ++ N.flatMap (digOf cl D)) ∧
  GoMap.keys st'.ds = GoMap.keys st.ds

def Step (cl : Bool) (D : DMap) (st : St) (ds0 : List String) (st' : St) : Prop :=
  ∃ N, StepN cl D st ds0 st' N

theorem Step.refl {st : St} (h : st.seen.Nodup) : Step cl D st [] st :=
  ⟨[], by simp, by simp, by simp, by simp, h, by simp, by simp, rfl⟩

theorem Step.mono {st st' : St} {a : List String} (h : Step cl D st a st') {d : String}
    (hu : Unparsed st' d) : Unparsed st d := by
  obtain ⟨N, _, h2, h3, _⟩ := h
  by_cases hd : d ∈ N
  · exact (h2 d hd).1
  · obtain ⟨c, hc, hp⟩ := hu
    exact ⟨c, by rw [← h3 d hd]; exact hc, hp⟩

theorem Reach.weaken {a b : List String} {d : String} (h : Reach cl D a d) (hs : ∀ x ∈ a, Reach cl D b x) :
    Reach cl D b d := by
  induction h with
  | root h => exact hs _ h
  | step _ h2 h3 h4 ih => exact .step ih h2 h3 h4

theorem Reach.back {st st1 : St} {b : List String}
    (hb : ∀ d c, GoMap.get? st1.ds d = some c → c.parsed = false → GoMap.get? st.ds d = some c)
    {d : String} (h : Reach cl st1.ds b d) : Reach cl st.ds b d := by
  induction h with
  | root h => exact .root h
  | step _ h2 h3 h4 ih => exact .step ih (hb _ _ h2 h3) h3 h4

theorem Step.trans {st st1 st2 : St} {a b : List String} (h1 : Step cl D st a st1)
    (h2 : Step cl D st1 b st2) : Step cl D st (a ++ b) st2 := by
  have m2 := fun d => @Step.mono _ _ _ _ _ h2 d
  obtain ⟨N1, a1, a2, a3, a4, a5, a6, a7, a8⟩ := h1
  obtain ⟨N2, b1, b2, b3, b4, b5, b6, b7, b8⟩ := h2
  have hdisj : ∀ d ∈ N1, d ∉ N2 := by
    intro d hd1 hd2
    obtain ⟨c, hc, hp⟩ := (a2 d hd1).2
    obtain ⟨c', hc', hp'⟩ := (b2 d hd2).1
    rw [hc] at hc'; cases hc'; rw [hp] at hp'; cases hp'
  have hback : ∀ d c, GoMap.get? st1.ds d = some c → c.parsed = false →
      GoMap.get? st.ds d = some c := by
    intro d c h1 h2
    by_cases hd : d ∈ N1
    · obtain ⟨c', hc', hp'⟩ := (a2 d hd).2
      rw [h1] at hc'; cases hc'; rw [h2] at hp'; cases hp'
    · rw [← a3 d hd]; exact h1
  refine ⟨N1 ++ N2, ?_, ?_, ?_, ?_, b5, ?_, ?_, b8.trans a8⟩
  · rw [List.nodup_append]
    exact ⟨a1, b1, fun x hx y hy e => hdisj x hx (e ▸ hy)⟩
  · intro d hd
    rcases List.mem_append.mp hd with hd | hd
    · refine ⟨(a2 d hd).1, ?_⟩
      obtain ⟨c, hc⟩ := (a2 d hd).2
      exact ⟨c, by rw [b3 d (hdisj d hd)]; exact hc.1, hc.2⟩
    · refine ⟨?_, (b2 d hd).2⟩
      obtain ⟨c, hc, hp⟩ := (b2 d hd).1
      have : d ∉ N1 := fun h => hdisj d h hd
      exact ⟨c, by rw [← a3 d this]; exact hc, hp⟩
  · intro d hd
    rw [List.mem_append, not_or] at hd
    rw [b3 d hd.2, a3 d hd.1]
  · refine b4.trans ?_
    have := a4.append_right (b ++ N2.flatMap (digOf cl D))
    refine this.trans ?_
    simp only [List.flatMap_append, List.append_assoc]
    refine List.Perm.append_left _ (List.Perm.append_left _ ?_)
    rw [← List.append_assoc, ← List.append_assoc]
    exact List.Perm.append_right _ List.perm_append_comm
  · intro d hd hu
    have hd' : d ∈ a ++ N1.flatMap (digOf cl D) ∨ d ∈ b ++ N2.flatMap (digOf cl D) := by
      simp only [List.flatMap_append, List.mem_append] at hd ⊢
      rcases hd with (h | h) | (h | h)
      · exact Or.inl (Or.inl h)
      · exact Or.inr (Or.inl h)
      · exact Or.inl (Or.inr h)
      · exact Or.inr (Or.inr h)
    rcases hd' with h | h
    · exact a6 d h (m2 d hu)
    · exact b6 d h hu
  · intro d hd
    rcases List.mem_append.mp hd with hd | hd
    · have := a7 d hd
      refine ⟨this.1.weaken (fun x hx => .root (by simp [hx])), ?_⟩
      have := this.2
      simp only [List.flatMap_append, List.mem_append] at this ⊢
      rcases this with h | h
      · exact Or.inl (Or.inl h)
      · exact Or.inr (Or.inl h)
    · have := b7 d hd
      refine ⟨(this.1.back hback).weaken (fun x hx => .root (by simp [hx])), ?_⟩
      have := this.2
      simp only [List.flatMap_append, List.mem_append] at this ⊢
      rcases this with h | h
      · exact Or.inl (Or.inr h)
      · exact Or.inr (Or.inr h)

/-- Recording one digest without disclosure (or whose disclosure is already resolved). -/
theorem Step.record {st : St} {d : String} (hn : st.seen.Nodup) (hd : d ∉ st.seen)
    (hu : ¬ Unparsed st d) : Step cl D st [d] { st with seen := st.seen ++ [d] } := by
  refine ⟨[], by simp, by simp, by simp, by simp, ?_, ?_, by simp, rfl⟩
  · rw [List.nodup_append]
    refine ⟨hn, by simp, ?_⟩
    intro x hx y hy e
    simp at hy; subst hy; subst e; exact hd hx
  · intro x hx
    simp at hx; subst hx; exact hu

/-- The contract of the recursive call. -/
def RecOK (cl : Bool) (D : DMap) (rec : St → Json → Except Err (Json × St)) : Prop :=
  ∀ st v w st', rec st v = .ok (w, st') → Ext cl D st → st.seen.Nodup →
    Resolves cl D v w ∧ Ext cl D st' ∧ Step cl D st (digests cl v) st'

theorem keys_set_of_mem {α : Type} (m : GoMap α) (k : String) (v : α) (h : k ∈ GoMap.keys m) :
    GoMap.keys (GoMap.set m k v) = GoMap.keys m := by
  rw [GoMap.keys_set, if_pos h]

theorem reach_nil {d : String} (h : Reach cl D [] d) : False := by
  induction h with
  | root h => cases h
  | step _ _ _ _ ih => exact ih

/-- Resolving one (unresolved) disclosure `d`, whether or not `d` itself is already recorded. -/
theorem setValue_fresh {rec : St → Json → Except Err (Json × St)} (hrec : RecOK cl D rec)
    {st st2 : St} {d : String} {c : Disc} {w : Json}
    (h : setValue rec st d c = .ok (w, st2)) (hc : GoMap.get? st.ds d = some c)
    (hp : c.parsed = false) (hE : Ext cl D st) (hN : st.seen.Nodup) :
    Resolves cl D c.value w ∧ Ext cl D st2 ∧
      ∃ N, (d :: N).Nodup ∧
        (∀ x ∈ d :: N, Unparsed st x ∧ ∃ c, GoMap.get? st2.ds x = some c ∧ c.parsed = true) ∧
        (∀ x, x ∉ d :: N → GoMap.get? st2.ds x = GoMap.get? st.ds x) ∧
        st2.seen.Perm (st.seen ++ (d :: N).flatMap (digOf cl D)) ∧ st2.seen.Nodup ∧
        (∀ x ∈ d :: (d :: N).flatMap (digOf cl D), ¬ Unparsed st2 x) ∧
        (∀ x ∈ N, Reach cl st.ds (digests cl c.value) x ∧ x ∈ (d :: N).flatMap (digOf cl D)) ∧
        GoMap.keys st2.ds = GoMap.keys st.ds := by
  unfold setValue at h
  rw [hp] at h
  simp only [Bool.false_eq_true, if_false] at h
  cases hr : rec st c.value with
  | error e => rw [hr] at h; cases h
  | ok r =>
    obtain ⟨w', st'⟩ := r
    rw [hr] at h
    simp only [Except.ok.injEq, Prod.mk.injEq] at h
    obtain ⟨rfl, rfl⟩ := h
    obtain ⟨hR, hE', N, n1, n2, n3, n4, n5, n6, n7, n8⟩ := hrec _ _ _ _ hr hE hN
    have hD : GoMap.get? D d = some c := hE.unparsed hc hp
    have hdig : digOf cl D d = digests cl c.value := by simp [digOf, hD]
    have hdN : d ∉ N := by
      intro hd
      by_cases he : digests cl c.value = []
      · rw [he] at n7; exact reach_nil (n7 d hd).1
      · obtain ⟨x, hx⟩ := List.exists_mem_of_ne_nil _ he
        have hnd := n4.nodup_iff.mp n5
        rw [List.nodup_append] at hnd
        have hnd2 := hnd.2.1
        rw [List.nodup_append] at hnd2
        exact hnd2.2.2 x hx x (List.mem_flatMap.mpr ⟨d, hd, by rw [hdig]; exact hx⟩) rfl
    have hkey : d ∈ GoMap.keys st'.ds := by
      rw [n8]
      have : (GoMap.get? st.ds d).isSome := by rw [hc]; rfl
      exact GoMap.get?_isSome_iff.mp this
    have hE2 : Ext cl D { st' with ds := GoMap.set st'.ds d { c with value := w', parsed := true } } := by
      intro x
      by_cases hx : d = x
      · subst hx
        right
        exact ⟨c, { c with value := w', parsed := true }, hD, by simp, rfl, rfl, rfl,
          Or.inr ⟨hp, rfl, hR⟩⟩
      · rw [GoMap.get?_set_ne _ _ hx]; exact hE' x
    refine ⟨hR, hE2, N, ?_, ?_, ?_, ?_, n5, ?_, ?_, ?_⟩
    · rw [List.nodup_cons]; exact ⟨hdN, n1⟩
    · intro x hx
      rcases List.mem_cons.mp hx with rfl | hx
      · exact ⟨⟨c, hc, hp⟩, { c with value := w', parsed := true }, by simp, rfl⟩
      · have hxd : d ≠ x := fun e => hdN (e ▸ hx)
        refine ⟨(n2 x hx).1, ?_⟩
        rw [GoMap.get?_set_ne _ _ hxd]; exact (n2 x hx).2
    · intro x hx
      rw [List.mem_cons, not_or] at hx
      rw [GoMap.get?_set_ne _ _ (fun e => hx.1 e.symm)]; exact n3 x hx.2
    · simp only [List.flatMap_cons, hdig]; exact n4
    · intro x hx hu
      obtain ⟨c', hc', hp'⟩ := hu
      by_cases hxd : d = x
      · subst hxd
        rw [GoMap.get?_set_self] at hc'
        cases hc'; cases hp'
      · rw [GoMap.get?_set_ne _ _ hxd] at hc'
        rcases List.mem_cons.mp hx with e | hx
        · exact hxd e.symm
        · simp only [List.flatMap_cons, hdig] at hx
          exact n6 x hx ⟨c', hc', hp'⟩
    · intro x hx
      refine ⟨(n7 x hx).1, ?_⟩
      simp only [List.flatMap_cons, hdig]; exact (n7 x hx).2
    · rw [← n8]; exact keys_set_of_mem _ _ _ hkey

/-- Recording digest `d` and resolving its disclosure. -/
theorem setValue_step {rec : St → Json → Except Err (Json × St)} (hrec : RecOK cl D rec)
    {st st2 : St} {d : String} {c : Disc} {w : Json} (hd : d ∉ st.seen)
    (hc : GoMap.get? st.ds d = some c)
    (h : setValue rec { st with seen := st.seen ++ [d] } d c = .ok (w, st2))
    (hE : Ext cl D st) (hN : st.seen.Nodup) :
    Resolve cl D (.disc d) (.val w) ∧ Ext cl D st2 ∧ Step cl D st [d] st2 ∧
      ∃ r, GoMap.get? D d = some r ∧ c.elems = r.elems ∧ c.name = r.name := by
  have hN1 : (st.seen ++ [d]).Nodup := by
    rw [List.nodup_append]
    refine ⟨hN, by simp, ?_⟩
    intro x hx y hy e
    simp at hy; subst hy; subst e; exact hd hx
  obtain ⟨r, hr1, hr2, hr3, _, hr4⟩ := hE.ofSome hc
  cases hp : c.parsed with
  | true =>
    unfold setValue at h
    rw [hp] at h
    simp only [if_true, Except.ok.injEq, Prod.mk.injEq] at h
    obtain ⟨rfl, rfl⟩ := h
    refine ⟨?_, hE.seen _, Step.record hN hd ?_, r, hr1, hr3, hr2⟩
    · rcases hr4 with e | ⟨q1, q2, q3⟩
      · subst e; exact .done hr1 hp
      · exact .disc hr1 q1 q3
    · rintro ⟨c', h1, h2⟩
      rw [hc] at h1; cases h1; rw [hp] at h2; cases h2
  | false =>
    obtain ⟨hR, hE2, N, hN'⟩ := setValue_fresh hrec (st := { st with seen := st.seen ++ [d] }) h hc hp
      (hE.seen _) hN1
    have hD : GoMap.get? D d = some c := hE.unparsed hc hp
    refine ⟨.disc hD hp hR, hE2, ?_, r, hr1, hr3, hr2⟩
    obtain ⟨n1, n2, n3, n4, n5, n6, n7, n8⟩ := hN'
    · refine ⟨d :: N, n1, n2, n3, ?_, n5, ?_, ?_, n8⟩
      · simpa [List.append_assoc] using n4
      · intro x hx; exact n6 x (by simpa using hx)
      · intro x hx
        rcases List.mem_cons.mp hx with rfl | hx
        · exact ⟨.root (by simp), by simp⟩
        · refine ⟨(n7 x hx).1.weaken (fun y hy => .step (.root (by simp)) hc hp hy), ?_⟩
          exact List.mem_append_right _ (n7 x hx).2

theorem arrLoop_sound {rec : St → Json → Except Err (Json × St)} (hrec : RecOK cl D rec)
    (l : List Json) : ∀ st out st', arrLoop rec cl st l = .ok (out, st') → Ext cl D st →
      st.seen.Nodup →
      Resolve cl D (.elems l) (.list out) ∧ Ext cl D st' ∧ Step cl D st (arrDigests l) st' := by
  induction l with
  | nil =>
    intro st out st' h hE hN
    simp only [arrLoop, Except.ok.injEq, Prod.mk.injEq] at h
    obtain ⟨rfl, rfl⟩ := h
    exact ⟨.enil, hE, Step.refl hN⟩
  | cons v vs ih =>
    intro st out st' h hE hN
    have keep : ∀ st1 : St, Ext cl D st1 → st1.seen.Nodup → ∀ out st',
        (match arrLoop rec cl st1 vs with
          | .error e => .error e
          | .ok (out, st') => .ok (v :: out, st')) = Except.ok (out, st') →
        ∃ out', out = v :: out' ∧ Resolve cl D (.elems vs) (.list out') ∧ Ext cl D st' ∧
          Step cl D st1 (arrDigests vs) st' := by
      intro st1 hE1 hN1 out st' h
      cases ha : arrLoop rec cl st1 vs with
      | error e => rw [ha] at h; cases h
      | ok r =>
        obtain ⟨o, s⟩ := r
        rw [ha] at h
        simp only [Except.ok.injEq, Prod.mk.injEq] at h
        obtain ⟨rfl, rfl⟩ := h
        exact ⟨o, rfl, ih _ _ _ ha hE1 hN1⟩
    have plain : placeholder? v = none →
        (match arrLoop rec cl st vs with
          | .error e => .error e
          | .ok (out, st') => .ok (v :: out, st')) = Except.ok (out, st') →
        Resolve cl D (.elems (v :: vs)) (.list out) ∧ Ext cl D st' ∧
          Step cl D st (arrDigests (v :: vs)) st' := by
      intro hpl h
      obtain ⟨o, rfl, h1, h2, h3⟩ := keep st hE hN out st' h
      refine ⟨.eplain hpl h1, h2, ?_⟩
      have : arrDigests (v :: vs) = arrDigests vs := by simp [arrDigests, hpl]
      rw [this]; exact h3
    cases v with
    | obj m =>
      simp only [arrLoop] at h
      cases hg : GoMap.get? m "..." with
      | none => rw [hg] at h; exact plain (by simp [placeholder?, hg]) h
      | some pv =>
        rw [hg] at h
        cases pv with
        | str d =>
          have hpl : placeholder? (.obj m) = some (.str d) := by simp [placeholder?, hg]
          have hdig : arrDigests (.obj m :: vs) = [d] ++ arrDigests vs := by
            simp [arrDigests, hpl, Json.asStr?]
          simp only at h
          by_cases hseen : d ∈ st.seen
          · rw [if_pos (by simpa using hseen)] at h; cases h
          rw [if_neg (by simpa using hseen)] at h
          cases hd : GoMap.get? st.ds d with
          | none =>
            rw [hd] at h
            have hrecd : Step cl D st [d] { st with seen := st.seen ++ [d] } :=
              Step.record hN hseen (by rintro ⟨c, h1, _⟩; rw [hd] at h1; cases h1)
            have hN1 : (st.seen ++ [d]).Nodup := by
              obtain ⟨N, _, _, _, _, h5, _⟩ := hrecd; exact h5
            simp only at h
            cases hcl : cl with
            | true =>
              subst hcl
              simp only [if_true] at h
              obtain ⟨h1, h2, h3⟩ := ih _ _ _ h (hE.seen _) hN1
              have := Resolve.emiss (cl := true) hpl (hE.ofNone hd) h1
              simp only [if_true] at this
              exact ⟨this, h2, by rw [hdig]; exact hrecd.trans h3⟩
            | false =>
              subst hcl
              simp only [Bool.false_eq_true, if_false] at h
              obtain ⟨o, rfl, h1, h2, h3⟩ := keep _ (hE.seen _) hN1 out st' h
              have := Resolve.emiss (cl := false) hpl (hE.ofNone hd) h1
              simp only [Bool.false_eq_true, if_false] at this
              exact ⟨this, h2, by rw [hdig]; exact hrecd.trans h3⟩
          | some c =>
            rw [hd] at h
            simp only at h
            by_cases hel : c.elems = 2
            · simp only [hel, ne_eq, not_true_eq_false, if_false] at h
              cases hs : setValue rec { st with seen := st.seen ++ [d] } d c with
              | error e => rw [hs] at h; cases h
              | ok r =>
                obtain ⟨w, st2⟩ := r
                rw [hs] at h
                simp only at h
                obtain ⟨g1, g2, g3, r, g4, g5, g6⟩ := setValue_step hrec hseen hd hs hE hN
                have hN2 : st2.seen.Nodup := by obtain ⟨N, _, _, _, _, h5, _⟩ := g3; exact h5
                cases ha : arrLoop rec cl st2 vs with
                | error e => rw [ha] at h; cases h
                | ok q =>
                  obtain ⟨o, s⟩ := q
                  rw [ha] at h
                  simp only [Except.ok.injEq, Prod.mk.injEq] at h
                  obtain ⟨rfl, rfl⟩ := h
                  obtain ⟨h1, h2, h3⟩ := ih _ _ _ ha g2 hN2
                  exact ⟨.edisc hpl g4 (g5 ▸ hel) g1 h1, h2, by rw [hdig]; exact g3.trans h3⟩
            · simp only [hel, ne_eq, not_false_eq_true, if_true] at h; cases h
        | null => cases h
        | bool b => cases h
        | num q => cases h
        | arr l => cases h
        | obj o => cases h
    | null => exact plain rfl (by simp only [arrLoop] at h; exact h)
    | bool b => exact plain rfl (by simp only [arrLoop] at h; exact h)
    | num q => exact plain rfl (by simp only [arrLoop] at h; exact h)
    | str s => exact plain rfl (by simp only [arrLoop] at h; exact h)
    | arr l => exact plain rfl (by simp only [arrLoop] at h; exact h)

theorem sdLoop_sound {rec : St → Json → Except Err (Json × St)} (hrec : RecOK cl D rec)
    (dl : List String) : ∀ st nv miss nv' miss' st',
      sdLoop rec st nv miss dl = .ok (nv', miss', st') → Ext cl D st → st.seen.Nodup →
      ∃ claims missing, Resolve cl D (.sds dl) (.sds claims missing) ∧ nv' = nv ++ claims ∧
        miss' = miss ++ missing ∧ (GoMap.keys claims).Nodup ∧
        (∀ k ∈ GoMap.keys claims, k ∉ GoMap.keys nv) ∧ Ext cl D st' ∧ Step cl D st dl st' := by
  induction dl with
  | nil =>
    intro st nv miss nv' miss' st' h hE hN
    simp only [sdLoop, Except.ok.injEq, Prod.mk.injEq] at h
    obtain ⟨rfl, rfl, rfl⟩ := h
    exact ⟨[], [], .snil, by simp, by simp, by simp [GoMap.keys], by simp [GoMap.keys], hE,
      Step.refl hN⟩
  | cons d dl ih =>
    intro st nv miss nv' miss' st' h hE hN
    simp only [sdLoop] at h
    by_cases hseen : d ∈ st.seen
    · rw [if_pos (by simpa using hseen)] at h; cases h
    rw [if_neg (by simpa using hseen)] at h
    cases hd : GoMap.get? st.ds d with
    | none =>
      rw [hd] at h
      have hrecd : Step cl D st [d] { st with seen := st.seen ++ [d] } :=
        Step.record hN hseen (by rintro ⟨c, h1, _⟩; rw [hd] at h1; cases h1)
      have hN1 : (st.seen ++ [d]).Nodup := by
        obtain ⟨N, _, _, _, _, h5, _⟩ := hrecd; exact h5
      obtain ⟨cs, ms, h1, h2, h3, h4, h5, h6, h7⟩ := ih _ _ _ _ _ _ h (hE.seen _) hN1
      exact ⟨cs, d :: ms, .smiss (hE.ofNone hd) h1, h2, by simp [h3], h4, h5, h6, hrecd.trans h7⟩
    | some c =>
      rw [hd] at h
      simp only at h
      by_cases hel : c.elems = 3
      · simp only [hel, ne_eq, not_true_eq_false, if_false] at h
        cases hs : setValue rec { st with seen := st.seen ++ [d] } d c with
        | error e => rw [hs] at h; cases h
        | ok r =>
          obtain ⟨w, st2⟩ := r
          rw [hs] at h
          simp only at h
          obtain ⟨g1, g2, g3, r, g4, g5, g6⟩ := setValue_step hrec hseen hd hs hE hN
          have hN2 : st2.seen.Nodup := by obtain ⟨N, _, _, _, _, h5, _⟩ := g3; exact h5
          by_cases hnm : (GoMap.get? nv c.name).isSome
          · rw [if_pos hnm] at h; cases h
          · rw [if_neg hnm] at h
            have hfresh : c.name ∉ GoMap.keys nv := fun hk => hnm (GoMap.get?_isSome_iff.mpr hk)
            obtain ⟨cs, ms, h1, h2, h3, h4, h5, h6, h7⟩ := ih _ _ _ _ _ _ h g2 hN2
            rw [set_fresh _ _ _ hfresh] at h2 h5
            refine ⟨(c.name, w) :: cs, ms, ?_, by simp [h2], h3, ?_, ?_, h6, g3.trans h7⟩
            · rw [g6]; exact .sdisc g4 (g5 ▸ hel) g1 h1
            · simp only [GoMap.keys, List.map_cons, List.nodup_cons]
              refine ⟨fun hk => ?_, h4⟩
              exact h5 c.name hk (by simp [GoMap.keys])
            · intro k hk
              simp only [GoMap.keys, List.map_cons, List.mem_cons] at hk
              rcases hk with rfl | hk
              · exact hfresh
              · have := h5 k hk
                simp only [GoMap.keys, List.map_append, List.mem_append, not_or] at this
                exact this.1
      · simp only [hel, ne_eq, not_false_eq_true, if_true] at h; cases h

theorem skipKey_iff (k : String) : skipKey cl k = true ↔ Hidden cl k := by
  simp [skipKey, Hidden]

theorem fieldLoop_sound {rec : St → Json → Except Err (Json × St)} (hrec : RecOK cl D rec)
    (m : JObj) : ∀ st nv nv' st', fieldLoop rec cl st nv m = .ok (nv', st') → Ext cl D st →
      st.seen.Nodup →
      ∃ fs, Resolve cl D (.fields m) (.fields fs) ∧ nv' = nv ++ fs.filter (fun p => !p.2.isNull) ∧
        (∀ p ∈ fs, p.1 ∉ GoMap.keys nv) ∧ Ext cl D st' ∧ Step cl D st (fieldDigests cl m) st' := by
  induction m with
  | nil =>
    intro st nv nv' st' h hE hN
    simp only [fieldLoop, Except.ok.injEq, Prod.mk.injEq] at h
    obtain ⟨rfl, rfl⟩ := h
    exact ⟨[], .fnil, by simp, by simp, hE, by simpa [fieldDigests] using Step.refl hN⟩
  | cons p m ih =>
    intro st nv nv' st' h hE hN
    obtain ⟨k, v⟩ := p
    simp only [fieldLoop] at h
    by_cases hk : Hidden cl k
    · rw [if_pos ((skipKey_iff k).mpr hk)] at h
      obtain ⟨fs, h1, h2, h3, h4, h5⟩ := ih _ _ _ _ h hE hN
      exact ⟨fs, .fskip hk h1, h2, h3, h4, by simpa [fieldDigests, hk] using h5⟩
    · rw [if_neg (fun h => hk ((skipKey_iff k).mp h))] at h
      cases hr : rec st v with
      | error e => rw [hr] at h; cases h
      | ok q =>
        obtain ⟨w, st1⟩ := q
        rw [hr] at h
        simp only at h
        obtain ⟨g1, g2, g3⟩ := hrec _ _ _ _ hr hE hN
        have hN1 : st1.seen.Nodup := by obtain ⟨N, _, _, _, _, h5, _⟩ := g3; exact h5
        by_cases hnm : (GoMap.get? nv k).isSome
        · rw [if_pos hnm] at h; cases h
        · rw [if_neg hnm] at h
          have hfresh : k ∉ GoMap.keys nv := fun hk => hnm (GoMap.get?_isSome_iff.mpr hk)
          have hdig : fieldDigests cl ((k, v) :: m) = digests cl v ++ fieldDigests cl m := by
            simp [fieldDigests, hk]
          by_cases hw : w.isNull
          · rw [if_pos hw] at h
            obtain ⟨fs, h1, h2, h3, h4, h5⟩ := ih _ _ _ _ h g2 hN1
            refine ⟨(k, w) :: fs, .fcons hk g1 h1, by simp [h2, hw], ?_, h4, ?_⟩
            · intro p hp
              rcases List.mem_cons.mp hp with rfl | hp
              · exact hfresh
              · exact h3 p hp
            · rw [hdig]; exact g3.trans h5
          · rw [if_neg hw] at h
            obtain ⟨fs, h1, h2, h3, h4, h5⟩ := ih _ _ _ _ h g2 hN1
            rw [set_fresh _ _ _ hfresh] at h2 h3
            refine ⟨(k, w) :: fs, .fcons hk g1 h1, by simp [h2, hw], ?_, h4, ?_⟩
            · intro p hp
              rcases List.mem_cons.mp hp with rfl | hp
              · exact hfresh
              · have := h3 p hp
                simp only [GoMap.keys, List.map_append, List.mem_append, not_or] at this
                exact this.1
            · rw [hdig]; exact g3.trans h5

theorem strings?_eq {l : List Json} {dl : List String} (h : strings? l = some dl) :
    l.filterMap Json.asStr? = dl := by
  induction l generalizing dl with
  | nil => simp [strings?] at h; simp [h]
  | cons v l ih =>
    cases v <;> simp [strings?] at h
    obtain ⟨a, ha, rfl⟩ := h
    simp [Json.asStr?, ih ha]

theorem stringArray_eq {v : Json} {dl : List String} (h : stringArray v = some dl) :
    strElems v = dl := by
  cases v <;> simp [stringArray] at h
  · simp [strElems, h]
  · simp [strElems, strings?_eq h]

theorem objCase_sound {rec : St → Json → Except Err (Json × St)} (hrec : RecOK cl D rec)
    (m : JObj) (st : St) (w : Json) (st' : St) (h : objCase rec cl st m = .ok (w, st'))
    (hE : Ext cl D st) (hN : st.seen.Nodup) :
    Resolves cl D (.obj m) w ∧ Ext cl D st' ∧ Step cl D st (digests cl (.obj m)) st' := by
  unfold objCase at h
  simp only at h
  -- the `_sd` part
  have hsd : ∃ nv st1 sd claims missing,
      fieldLoop rec cl st1 nv m = .ok ((match w with | .obj o => o | _ => []), st') ∧
      (∃ o, w = .obj o) ∧
      ((GoMap.get? m "_sd" = none ∧ sd = []) ∨
        ∃ v, GoMap.get? m "_sd" = some v ∧ stringArray v = some sd) ∧
      Resolve cl D (.sds sd) (.sds claims missing) ∧ (GoMap.keys claims).Nodup ∧
      nv = (if cl = false ∧ missing ≠ [] then GoMap.set claims "_sd" (.arr (missing.map .str))
        else claims) ∧ Ext cl D st1 ∧ Step cl D st (sdDigests m) st1 := by
    cases hg : GoMap.get? m "_sd" with
    | none =>
      rw [hg] at h
      simp only at h
      cases hf : fieldLoop rec cl st [] m with
      | error e => rw [hf] at h; cases h
      | ok q =>
        obtain ⟨o, s⟩ := q
        rw [hf] at h
        simp only [Except.ok.injEq, Prod.mk.injEq] at h
        obtain ⟨rfl, rfl⟩ := h
        exact ⟨[], st, [], [], [], hf, ⟨_, rfl⟩, Or.inl ⟨rfl, rfl⟩, .snil, by simp [GoMap.keys],
          by simp, hE, by simpa [sdDigests, hg] using Step.refl hN⟩
    | some sdv =>
      rw [hg] at h
      simp only at h
      cases ha : stringArray sdv with
      | none => rw [ha] at h; cases h
      | some dl =>
        rw [ha] at h
        simp only at h
        cases hl : sdLoop rec st [] [] dl with
        | error e => rw [hl] at h; cases h
        | ok q =>
          obtain ⟨nv, miss, s1⟩ := q
          rw [hl] at h
          simp only at h
          obtain ⟨cs, ms, h1, h2, h3, h4, _, h6, h7⟩ := sdLoop_sound hrec dl _ _ _ _ _ _ hl hE hN
          simp only [List.nil_append] at h2 h3
          subst h2 h3
          cases hf : fieldLoop rec cl s1
              (if (!cl && !miss.isEmpty) = true then GoMap.set nv "_sd" (.arr (miss.map .str)) else nv) m with
          | error e => rw [hf] at h; cases h
          | ok q =>
            obtain ⟨o, s⟩ := q
            rw [hf] at h
            simp only [Except.ok.injEq, Prod.mk.injEq] at h
            obtain ⟨rfl, rfl⟩ := h
            refine ⟨_, s1, dl, nv, miss, hf, ⟨_, rfl⟩, Or.inr ⟨sdv, rfl, ha⟩, h1, h4, ?_, h6, ?_⟩
            · cases cl <;> cases miss <;> simp
            · have : sdDigests m = dl := by simp [sdDigests, hg, stringArray_eq ha]
              rw [this]; exact h7
  obtain ⟨nv, st1, sd, claims, missing, hf, ⟨o, rfl⟩, h1, h2, h3, h4, h5, h6⟩ := hsd
  have hN1 : st1.seen.Nodup := by obtain ⟨N, _, _, _, _, h5, _⟩ := h6; exact h5
  obtain ⟨fs, g1, g2, g3, g4, g5⟩ := fieldLoop_sound hrec m _ _ _ _ hf h5 hN1
  simp only at g2
  have hfs : ∀ p ∈ fs, p.1 ∉ GoMap.keys claims := by
    intro p hp hk
    have := g3 p hp
    rw [h4] at this
    split at this
    · rw [GoMap.keys_set] at this
      split at this
      · exact this hk
      · exact this (List.mem_append_left _ hk)
    · exact this hk
  refine ⟨?_, g4, by simpa [digests] using h6.trans g5⟩
  have := Resolve.obj (cl := cl) h1 h2 g1 h3 hfs
  rw [g2, h4]
  exact this

theorem disclose_sound (n : Nat) : RecOK cl D (disclose cl n) := by
  induction n with
  | zero => intro st v w st' h; simp [disclose] at h
  | succ n ih =>
    intro st v w st' h hE hN
    cases v with
    | arr l =>
      simp only [disclose] at h
      cases ha : arrLoop (disclose cl n) cl st l with
      | error e => rw [ha] at h; cases h
      | ok q =>
        obtain ⟨o, s⟩ := q
        rw [ha] at h
        simp only [Except.ok.injEq, Prod.mk.injEq] at h
        obtain ⟨rfl, rfl⟩ := h
        obtain ⟨h1, h2, h3⟩ := arrLoop_sound ih l _ _ _ ha hE hN
        refine ⟨?_, h2, by simpa [digests] using h3⟩
        have := Resolve.arr h1
        cases o with
        | nil => simpa using this
        | cons => simpa using this
    | obj m =>
      simp only [disclose] at h
      exact objCase_sound ih m st w st' h hE hN
    | null => simp only [disclose, Except.ok.injEq, Prod.mk.injEq] at h
              obtain ⟨rfl, rfl⟩ := h
              exact ⟨.scalar trivial, hE, by simpa [digests] using Step.refl hN⟩
    | bool b => simp only [disclose, Except.ok.injEq, Prod.mk.injEq] at h
                obtain ⟨rfl, rfl⟩ := h
                exact ⟨.scalar trivial, hE, by simpa [digests] using Step.refl hN⟩
    | num q => simp only [disclose, Except.ok.injEq, Prod.mk.injEq] at h
               obtain ⟨rfl, rfl⟩ := h
               exact ⟨.scalar trivial, hE, by simpa [digests] using Step.refl hN⟩
    | str s => simp only [disclose, Except.ok.injEq, Prod.mk.injEq] at h
               obtain ⟨rfl, rfl⟩ := h
               exact ⟨.scalar trivial, hE, by simpa [digests] using Step.refl hN⟩

end VC.SDJWT
