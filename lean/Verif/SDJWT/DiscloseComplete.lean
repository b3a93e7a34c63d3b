import Verif.SDJWT.DiscloseTerm
/-!
# Resolving disclosures: when a run succeeds (helper lemmas)
-/

namespace VC.SDJWT
open List

variable {cl : Bool} {D : DMap}

mutual
/-- Every object inside the value has distinct member names (true of every Go map). -/
def JWF : Json → Prop
  | .arr l => JWFArr l
  | .obj o => (GoMap.keys o).Nodup ∧ JWFObj o
  | _ => True
/-- `JWF` of all elements. -/
def JWFArr : List Json → Prop
  | [] => True
  | v :: l => JWF v ∧ JWFArr l
/-- `JWF` of all members. -/
def JWFObj : List (String × Json) → Prop
  | [] => True
  | (_, v) :: l => JWF v ∧ JWFObj l
end

/-- The values of unresolved disclosures are well-formed JSON. -/
def DWF (D : DMap) : Prop := ∀ d c, GoMap.get? D d = some c → c.parsed = false → JWF c.value

/-- The digests `ds0` (still to be processed) and those inside the set `R` of unresolved
disclosures they lead to are pairwise different and not yet recorded. -/
structure Budget (cl : Bool) (D : DMap) (st : St) (ds0 R : List String) : Prop where
  nd : R.Nodup
  un : ∀ d ∈ R, Unparsed st d
  closed : ∀ d ∈ ds0 ++ R.flatMap (digOf cl D), Unparsed st d → d ∈ R
  fresh : (st.seen ++ (ds0 ++ R.flatMap (digOf cl D))).Nodup

theorem Budget.seen_nodup {st : St} {a R : List String} (h : Budget cl D st a R) : st.seen.Nodup :=
  (List.nodup_append.mp h.fresh).1

theorem Budget.not_seen {st : St} {d : String} {a R : List String}
    (h : Budget cl D st (d :: a) R) : d ∉ st.seen := by
  intro hd
  exact (List.nodup_append.mp h.fresh).2.2 d hd d (by simp) rfl

theorem reach_in {st : St} {a b R : List String} (h : Budget cl D st (a ++ b) R)
    (hE : Ext cl D st) {d : String} (hr : Reach cl st.ds a d) : Unparsed st d → d ∈ R := by
  induction hr with
  | root hd => exact h.closed _ (by simp [hd])
  | step _ h2 h3 h4 ih =>
    intro hu
    have hdR := ih ⟨_, h2, h3⟩
    refine h.closed _ (List.mem_append_right _ (List.mem_flatMap.mpr ⟨_, hdR, ?_⟩)) hu
    simp [digOf, hE.unparsed h2 h3, h4]

theorem Budget.step {st st' : St} {a b R : List String} (h : Budget cl D st (a ++ b) R)
    (hE : Ext cl D st) (hs : Step cl D st a st') : ∃ R', Budget cl D st' b R' := by
  have hmono := fun d => @Step.mono _ _ _ _ _ hs d
  obtain ⟨N, n1, n2, n3, n4, n5, n6, n7, n8⟩ := hs
  have hNR : ∀ d ∈ N, d ∈ R := fun d hd => reach_in h hE (n7 d hd).1 (n2 d hd).1
  have hperm : R.Perm (N ++ R.filter (fun d => !N.contains d)) := by
    rw [List.perm_ext_iff_of_nodup h.nd]
    · intro d
      simp only [List.mem_append, List.mem_filter, Bool.not_eq_true', List.contains_eq_mem,
        decide_eq_false_iff_not]
      constructor
      · intro hd
        by_cases hN : d ∈ N
        · exact Or.inl hN
        · exact Or.inr ⟨hd, hN⟩
      · rintro (hd | hd)
        · exact hNR d hd
        · exact hd.1
    · rw [List.nodup_append]
      refine ⟨n1, h.nd.filter _, ?_⟩
      intro x hx y hy e
      subst e
      simp only [List.mem_filter, Bool.not_eq_true', List.contains_eq_mem,
        decide_eq_false_iff_not] at hy
      exact hy.2 hx
  refine ⟨R.filter (fun d => !N.contains d), h.nd.filter _, ?_, ?_, ?_⟩
  · intro d hd
    simp only [List.mem_filter, Bool.not_eq_true', List.contains_eq_mem,
      decide_eq_false_iff_not] at hd
    obtain ⟨c, hc, hp⟩ := h.un d hd.1
    exact ⟨c, by rw [n3 d hd.2]; exact hc, hp⟩
  · intro d hd hu
    have huD := hmono d hu
    have hdN : d ∉ N := by
      intro hN
      obtain ⟨c, hc, hp⟩ := (n2 d hN).2
      obtain ⟨c', hc', hp'⟩ := hu
      rw [hc] at hc'; cases hc'; rw [hp] at hp'; cases hp'
    have : d ∈ R := by
      refine h.closed d ?_ huD
      rcases List.mem_append.mp hd with hd | hd
      · simp [hd]
      · obtain ⟨x, hx, hx'⟩ := List.mem_flatMap.mp hd
        exact List.mem_append_right _ (List.mem_flatMap.mpr ⟨x, (List.mem_filter.mp hx).1, hx'⟩)
    simp [this, hdN]
  · refine (List.Perm.nodup_iff ?_).mp h.fresh
    refine List.Perm.trans ?_ (n4.append_right _).symm
    simp only [List.append_assoc]
    refine List.Perm.append_left _ ?_
    refine List.Perm.append_left _ ?_
    refine (List.Perm.append_left b (hperm.flatMap_right _)).trans ?_
    rw [List.flatMap_append]
    rw [← List.append_assoc, ← List.append_assoc]
    exact List.Perm.append_right _ List.perm_append_comm

/-- Entering the disclosure of the head digest. -/
theorem Budget.enter {st : St} {d : String} {c : Disc} {a R : List String}
    (h : Budget cl D st (d :: a) R) (hE : Ext cl D st) (hc : GoMap.get? st.ds d = some c)
    (hp : c.parsed = false) :
    Budget cl D { st with seen := st.seen ++ [d] } (digests cl c.value ++ a) (R.erase d) := by
  have hdR : d ∈ R := h.closed d (by simp) ⟨c, hc, hp⟩
  have hdig : digOf cl D d = digests cl c.value := by simp [digOf, hE.unparsed hc hp]
  have hperm : (st.seen ++ (d :: a ++ R.flatMap (digOf cl D))).Perm
      (st.seen ++ [d] ++ (digests cl c.value ++ a ++ (R.erase d).flatMap (digOf cl D))) := by
    simp only [List.append_assoc, List.cons_append, List.nil_append]
    refine List.Perm.append_left _ (List.Perm.cons _ ?_)
    refine (List.Perm.append_left a ((List.perm_cons_erase hdR).flatMap_right _)).trans ?_
    simp only [List.flatMap_cons, hdig]
    rw [← List.append_assoc, ← List.append_assoc]
    exact List.Perm.append_right _ List.perm_append_comm
  have hfresh := hperm.nodup_iff.mp h.fresh
  refine ⟨h.nd.erase d, ?_, ?_, hfresh⟩
  · intro x hx; exact h.un x (List.mem_of_mem_erase hx)
  · intro x hx hu
    have hxd : x ≠ d := by
      rintro rfl
      rw [List.append_assoc] at hfresh
      have := (List.nodup_append.mp hfresh).2.1
      simp only [List.singleton_append, List.nodup_cons] at this
      exact this.1 hx
    have hxR : x ∈ R := by
      refine h.closed x ?_ hu
      rcases List.mem_append.mp hx with hx | hx
      · rcases List.mem_append.mp hx with hx | hx
        · exact List.mem_append_right _ (List.mem_flatMap.mpr ⟨d, hdR, by rw [hdig]; exact hx⟩)
        · simp [hx]
      · obtain ⟨y, hy, hy'⟩ := List.mem_flatMap.mp hx
        exact List.mem_append_right _
          (List.mem_flatMap.mpr ⟨y, List.mem_of_mem_erase hy, hy'⟩)
    exact (List.mem_erase_of_ne hxd).mpr hxR

theorem Budget.record {st : St} {d : String} {a R : List String}
    (h : Budget cl D st (d :: a) R) :
    Budget cl D { st with seen := st.seen ++ [d] } a R := by
  refine ⟨h.nd, h.un, ?_, ?_⟩
  · intro x hx hx'
    refine h.closed x ?_ hx'
    simp only [List.cons_append, List.mem_cons]; exact Or.inr hx
  · have := h.fresh
    simpa [List.append_assoc] using this

/-- The contract of the recursive call: under a resolution and a budget, the only possible error is
running out of fuel. -/
def RecC (cl : Bool) (D : DMap) (rec : St → Json → Except Err (Json × St)) : Prop :=
  ∀ st v w e rest R, rec st v = .error e → Ext cl D st → JWF v → Resolves cl D v w →
    Budget cl D st (digests cl v ++ rest) R → e = .fuel

theorem setValue_complete {rec : St → Json → Except Err (Json × St)} (hrec : RecC cl D rec)
    (hD : DWF D) {st : St} {d : String} {c : Disc} {e : Err} {w : Json} {a R : List String}
    (hc : GoMap.get? st.ds d = some c)
    (h : setValue rec { st with seen := st.seen ++ [d] } d c = .error e) (hE : Ext cl D st)
    (hr : Resolve cl D (.disc d) (.val w)) (hB : Budget cl D st (d :: a) R) : e = .fuel := by
  unfold setValue at h
  cases hp : c.parsed with
  | true => rw [hp] at h; simp at h
  | false =>
    rw [hp] at h
    simp only [Bool.false_eq_true, if_false] at h
    have hDd := hE.unparsed hc hp
    cases hrc : rec { st with seen := st.seen ++ [d] } c.value with
    | ok q => rw [hrc] at h; cases h
    | error e' =>
      rw [hrc] at h
      simp only [Except.error.injEq] at h
      subst h
      cases hr with
      | done h1 h2 => rw [hDd] at h1; cases h1; rw [hp] at h2; cases h2
      | disc h1 h2 h3 =>
        rw [hDd] at h1; cases h1
        exact hrec _ _ _ _ _ _ hrc (hE.seen _) (hD _ _ hDd hp) h3 (hB.enter hE hc hp)

theorem arrLoop_complete {rec : St → Json → Except Err (Json × St)} (hok : RecOK cl D rec)
    (hrec : RecC cl D rec) (hD : DWF D) (l : List Json) :
    ∀ st out e rest R, arrLoop rec cl st l = .error e → Ext cl D st →
      Resolve cl D (.elems l) (.list out) → Budget cl D st (arrDigests l ++ rest) R → e = .fuel := by
  induction l with
  | nil => intro st out e rest R h; simp [arrLoop] at h
  | cons v vs ih =>
    intro st out e rest R h hE hR hB
    have keep : ∀ st1 : St, (match arrLoop rec cl st1 vs with
          | .error e => (Except.error e : Except Err (List Json × St))
          | .ok (out, st') => Except.ok (v :: out, st')) = Except.error e → arrLoop rec cl st1 vs = .error e := by
      intro st1 h
      cases ha : arrLoop rec cl st1 vs with
      | error e' => rw [ha] at h; simpa using h
      | ok q => rw [ha] at h; cases h
    have plain : placeholder? v = none → arrLoop rec cl st vs = .error e → e = .fuel := by
      intro hpl h
      have hdig : arrDigests (v :: vs) = arrDigests vs := by simp [arrDigests, hpl]
      rw [hdig] at hB
      cases hR with
      | eplain _ h2 => exact ih _ _ _ _ _ h hE h2 hB
      | emiss h1 _ _ => rw [hpl] at h1; cases h1
      | edisc h1 _ _ _ _ => rw [hpl] at h1; cases h1
    cases v with
    | obj m =>
      simp only [arrLoop] at h
      cases hg : GoMap.get? m "..." with
      | none => rw [hg] at h; exact plain (by simp [placeholder?, hg]) (keep _ h)
      | some pv =>
        have hpl : placeholder? (.obj m) = some pv := by simp [placeholder?, hg]
        rw [hg] at h
        have hpv : ∃ d, pv = .str d := by
          cases hR with
          | eplain h1 _ => rw [hpl] at h1; cases h1
          | emiss h1 _ _ => rw [hpl] at h1; cases h1; exact ⟨_, rfl⟩
          | edisc h1 _ _ _ _ => rw [hpl] at h1; cases h1; exact ⟨_, rfl⟩
        obtain ⟨d, rfl⟩ := hpv
        have hdig : arrDigests (.obj m :: vs) ++ rest = d :: (arrDigests vs ++ rest) := by
          simp [arrDigests, hpl, Json.asStr?]
        rw [hdig] at hB
        simp only at h
        rw [if_neg (by simpa using hB.not_seen)] at h
        cases hd : GoMap.get? st.ds d with
        | none =>
          have hu : ¬ Unparsed st d := by rintro ⟨c, h1, _⟩; rw [hd] at h1; cases h1
          rw [hd] at h
          have h' : arrLoop rec cl { st with seen := st.seen ++ [d] } vs = .error e := by
            simp only at h
            split at h
            · exact h
            · exact keep _ h
          cases hR with
          | eplain h1 _ => rw [hpl] at h1; cases h1
          | emiss _ _ h2 => exact ih _ _ _ _ _ h' (hE.seen _) h2 hB.record
          | edisc h1 h2 _ _ _ =>
            rw [hpl] at h1; cases h1
            rw [hE.ofNone hd] at h2; cases h2
        | some c =>
          rw [hd] at h
          simp only at h
          obtain ⟨r, hr1, hr2, hr3, _⟩ := hE.ofSome hd
          cases hR with
          | eplain h1 _ => rw [hpl] at h1; cases h1
          | emiss h1 h2 _ => rw [hpl] at h1; cases h1; rw [hr1] at h2; cases h2
          | edisc h1 h2 h3 h4 h5 =>
            rw [hpl] at h1; cases h1
            rw [hr1] at h2; cases h2
            rw [if_neg (by simp [hr3, h3])] at h
            cases hs : setValue rec { st with seen := st.seen ++ [d] } d c with
            | error e' =>
              rw [hs] at h
              simp only [Except.error.injEq] at h
              subst h
              exact setValue_complete hrec hD hd hs hE h4 hB
            | ok q =>
              obtain ⟨w, st2⟩ := q
              rw [hs] at h
              simp only at h
              obtain ⟨g1, g2, g3, _⟩ := setValue_step hok hB.not_seen hd hs hE hB.seen_nodup
              obtain ⟨R', hB'⟩ := Budget.step (a := [d]) (b := arrDigests vs ++ rest) hB hE g3
              cases ha : arrLoop rec cl st2 vs with
              | error e' =>
                rw [ha] at h
                simp only [Except.error.injEq] at h
                subst h
                exact ih _ _ _ _ _ ha g2 h5 hB'
              | ok q => rw [ha] at h; cases h
    | null => exact plain rfl (keep st (by simp only [arrLoop] at h; exact h))
    | bool b => exact plain rfl (keep st (by simp only [arrLoop] at h; exact h))
    | num q => exact plain rfl (keep st (by simp only [arrLoop] at h; exact h))
    | str s => exact plain rfl (keep st (by simp only [arrLoop] at h; exact h))
    | arr l => exact plain rfl (keep st (by simp only [arrLoop] at h; exact h))

theorem sdLoop_complete {rec : St → Json → Except Err (Json × St)} (hok : RecOK cl D rec)
    (hrec : RecC cl D rec) (hD : DWF D) (dl : List String) :
    ∀ st nv miss claims missing e rest R, sdLoop rec st nv miss dl = .error e → Ext cl D st →
      Resolve cl D (.sds dl) (.sds claims missing) →
      (GoMap.keys nv ++ GoMap.keys claims).Nodup →
      Budget cl D st (dl ++ rest) R → e = .fuel := by
  induction dl with
  | nil => intro st nv miss claims missing e rest R h; simp [sdLoop] at h
  | cons d dl ih =>
    intro st nv miss claims missing e rest R h hE hR hK hB
    simp only [sdLoop] at h
    have hB' : Budget cl D st (d :: (dl ++ rest)) R := hB
    rw [if_neg (by simpa using hB'.not_seen)] at h
    cases hd : GoMap.get? st.ds d with
    | none =>
      have hu : ¬ Unparsed st d := by rintro ⟨c, h1, _⟩; rw [hd] at h1; cases h1
      rw [hd] at h
      simp only at h
      cases hR with
      | smiss _ h2 => exact ih _ _ _ _ _ _ _ _ h (hE.seen _) h2 hK hB'.record
      | sdisc h1 _ _ _ => rw [hE.ofNone hd] at h1; cases h1
    | some c =>
      rw [hd] at h
      simp only at h
      obtain ⟨r, hr1, hr2, hr3, _⟩ := hE.ofSome hd
      cases hR with
      | smiss h1 _ => rw [hr1] at h1; cases h1
      | @sdisc _ c' w' _ claims' _ h1 h2 h3 h4 =>
        rw [hr1] at h1; cases h1
        rw [if_neg (by simp [hr3, h2])] at h
        cases hs : setValue rec { st with seen := st.seen ++ [d] } d c with
        | error e' =>
          rw [hs] at h
          simp only [Except.error.injEq] at h
          subst h
          exact setValue_complete hrec hD hd hs hE h3 hB'
        | ok q =>
          obtain ⟨w, st2⟩ := q
          rw [hs] at h
          simp only at h
          obtain ⟨g1, g2, g3, _⟩ := setValue_step hok hB'.not_seen hd hs hE hB.seen_nodup
          obtain ⟨R', hB2⟩ := Budget.step (a := [d]) (b := dl ++ rest) hB' hE g3
          have hfresh : c.name ∉ GoMap.keys nv := by
            rw [hr2]
            intro hk
            exact (List.nodup_append.mp hK).2.2 _ hk r.name (by simp [GoMap.keys]) rfl
          rw [if_neg (fun hs => hfresh (GoMap.get?_isSome_iff.mp hs))] at h
          refine ih _ _ _ _ _ _ _ _ h g2 h4 ?_ hB2
          rw [set_fresh _ _ _ hfresh]
          rw [hr2]
          simpa [GoMap.keys, List.append_assoc] using hK

theorem fieldLoop_complete {rec : St → Json → Except Err (Json × St)} (hok : RecOK cl D rec)
    (hrec : RecC cl D rec) (m : JObj) :
    ∀ st nv fs e rest R, fieldLoop rec cl st nv m = .error e → Ext cl D st →
      JWFObj m → (GoMap.keys m).Nodup → Resolve cl D (.fields m) (.fields fs) →
      (∀ k ∈ GoMap.keys m, ¬ Hidden cl k → k ∉ GoMap.keys nv) →
      Budget cl D st (fieldDigests cl m ++ rest) R → e = .fuel := by
  induction m with
  | nil => intro st nv fs e rest R h; simp [fieldLoop] at h
  | cons p m ih =>
    obtain ⟨k, v⟩ := p
    intro st nv fs e rest R h hE hW hK hR hnv hB
    simp only [fieldLoop] at h
    simp only [JWFObj] at hW
    simp only [GoMap.keys, List.map_cons, List.nodup_cons] at hK
    have hK' : (GoMap.keys m).Nodup := hK.2
    by_cases hk : Hidden cl k
    · rw [if_pos ((skipKey_iff k).mpr hk)] at h
      cases hR with
      | fskip _ h2 =>
        refine ih _ _ _ _ _ _ h hE hW.2 hK' h2 ?_ (by simpa [fieldDigests, hk] using hB)
        intro x hx; exact hnv x (by simp [GoMap.keys] at hx ⊢; exact Or.inr hx)
      | fcons h1 _ _ => exact absurd hk h1
    · rw [if_neg (fun h => hk ((skipKey_iff k).mp h))] at h
      have hdig : fieldDigests cl ((k, v) :: m) ++ rest =
          digests cl v ++ (fieldDigests cl m ++ rest) := by simp [fieldDigests, hk]
      rw [hdig] at hB
      cases hR with
      | fskip h1 _ => exact absurd h1 hk
      | fcons _ h2 h3 =>
        cases hr : rec st v with
        | error e' =>
          rw [hr] at h
          simp only [Except.error.injEq] at h
          subst h
          exact hrec _ _ _ _ _ _ hr hE hW.1 h2 hB
        | ok q =>
          obtain ⟨w, st1⟩ := q
          rw [hr] at h
          simp only at h
          obtain ⟨g1, g2, g3⟩ := hok _ _ _ _ hr hE hB.seen_nodup
          obtain ⟨R', hB2⟩ := Budget.step hB hE g3
          have hfresh : k ∉ GoMap.keys nv := hnv k (by simp [GoMap.keys]) hk
          rw [if_neg (fun hs => hfresh (GoMap.get?_isSome_iff.mp hs))] at h
          split at h
          · refine ih _ _ _ _ _ _ h g2 hW.2 hK' h3 ?_ hB2
            intro x hx; exact hnv x (by simp [GoMap.keys] at hx ⊢; exact Or.inr hx)
          · refine ih _ _ _ _ _ _ h g2 hW.2 hK' h3 ?_ hB2
            intro x hx hxH
            rw [set_fresh _ _ _ hfresh]
            simp only [GoMap.keys, List.map_append, List.mem_append, List.map_cons, List.map_nil,
              List.mem_singleton, not_or]
            refine ⟨hnv x (by simp [GoMap.keys] at hx ⊢; exact Or.inr hx) hxH, ?_⟩
            rintro rfl
            exact hK.1 hx

theorem fields_keys {m : JObj} {fs : JObj} (h : Resolve cl D (.fields m) (.fields fs)) :
    ∀ k, k ∈ GoMap.keys fs ↔ (k ∈ GoMap.keys m ∧ ¬ Hidden cl k) := by
  induction m generalizing fs with
  | nil => cases h; simp [GoMap.keys]
  | cons p m ih =>
    obtain ⟨k', v⟩ := p
    intro k
    cases h with
    | fskip h1 h2 =>
      have := ih h2 k
      simp only [GoMap.keys, List.map_cons, List.mem_cons] at this ⊢
      rw [this]
      constructor
      · exact fun h => ⟨Or.inr h.1, h.2⟩
      · rintro ⟨rfl | h, h'⟩
        · exact absurd h1 h'
        · exact ⟨h, h'⟩
    | fcons h1 h2 h3 =>
      have := ih h3 k
      simp only [GoMap.keys, List.map_cons, List.mem_cons] at this ⊢
      rw [this]
      constructor
      · rintro (rfl | h)
        · exact ⟨Or.inl rfl, h1⟩
        · exact ⟨Or.inr h.1, h.2⟩
      · rintro ⟨rfl | h, h'⟩
        · exact Or.inl rfl
        · exact Or.inr ⟨h, h'⟩

/-! ## Determinism -/

theorem resolve_det {t : Task} {o : Out} (h : Resolve cl D t o) :
    ∀ o', Resolve cl D t o' → o = o' := by
  induction h with
  | scalar hs =>
    intro o' h'
    cases h' with
    | scalar _ => rfl
    | arr _ => exact absurd hs (by simp [Scalar])
    | obj => exact absurd hs (by simp [Scalar])
  | arr _ ih =>
    intro o' h'
    cases h' with
    | scalar hs => exact absurd hs (by simp [Scalar])
    | arr h1 => have := ih _ h1; cases this; rfl
  | @obj m sd claims missing fs h1 h2 h3 h4 h5 ih2 ih3 =>
    intro o' h'
    cases h' with
    | scalar hs => exact absurd hs (by simp [Scalar])
    | @obj _ sd' claims' missing' fs' g1 g2 g3 _ _ =>
      have hsd : sd = sd' := by
        rcases h1 with ⟨a1, a2⟩ | ⟨v, a1, a2⟩
        · rcases g1 with ⟨b1, b2⟩ | ⟨v', b1, b2⟩
          · rw [a2, b2]
          · rw [a1] at b1; cases b1
        · rcases g1 with ⟨b1, b2⟩ | ⟨v', b1, b2⟩
          · rw [a1] at b1; cases b1
          · rw [a1] at b1; cases b1; rw [a2] at b2; cases b2; rfl
      subst hsd
      have e2 := ih2 _ g2
      have e3 := ih3 _ g3
      cases e2; cases e3; rfl
  | done h1 h2 =>
    intro o' h'
    cases h' with
    | done g1 _ => rw [h1] at g1; cases g1; rfl
    | disc g1 g2 _ => rw [h1] at g1; cases g1; rw [h2] at g2; cases g2
  | disc h1 h2 _ ih =>
    intro o' h'
    cases h' with
    | done g1 g2 => rw [h1] at g1; cases g1; rw [h2] at g2; cases g2
    | disc g1 _ g3 => rw [h1] at g1; cases g1; exact ih _ g3
  | enil => intro o' h'; cases h'; rfl
  | eplain h1 _ ih =>
    intro o' h'
    cases h' with
    | eplain _ g2 => have := ih _ g2; cases this; rfl
    | emiss g1 _ _ => rw [h1] at g1; cases g1
    | edisc g1 _ _ _ _ => rw [h1] at g1; cases g1
  | emiss h1 h2 _ ih =>
    intro o' h'
    cases h' with
    | eplain g1 _ => rw [h1] at g1; cases g1
    | emiss g1 _ g3 => have := ih _ g3; cases this; rfl
    | edisc g1 g2 _ _ _ => rw [h1] at g1; cases g1; rw [h2] at g2; cases g2
  | edisc h1 h2 _ _ _ ih1 ih2 =>
    intro o' h'
    cases h' with
    | eplain g1 _ => rw [h1] at g1; cases g1
    | emiss g1 g2 _ => rw [h1] at g1; cases g1; rw [h2] at g2; cases g2
    | edisc g1 _ _ g4 g5 =>
      rw [h1] at g1; cases g1
      have e1 := ih1 _ g4
      have e2 := ih2 _ g5
      cases e1; cases e2; rfl
  | snil => intro o' h'; cases h'; rfl
  | smiss h1 _ ih =>
    intro o' h'
    cases h' with
    | smiss _ g2 => have := ih _ g2; cases this; rfl
    | sdisc g1 _ _ _ => rw [h1] at g1; cases g1
  | sdisc h1 _ _ _ ih1 ih2 =>
    intro o' h'
    cases h' with
    | smiss g1 _ => rw [h1] at g1; cases g1
    | sdisc g1 _ g3 g4 =>
      rw [h1] at g1; cases g1
      have e1 := ih1 _ g3
      have e2 := ih2 _ g4
      cases e1; cases e2; rfl
  | fnil => intro o' h'; cases h'; rfl
  | fskip h1 _ ih =>
    intro o' h'
    cases h' with
    | fskip _ g2 => have := ih _ g2; cases this; rfl
    | fcons g1 _ _ => exact absurd h1 g1
  | fcons h1 _ _ ih1 ih2 =>
    intro o' h'
    cases h' with
    | fskip g1 _ => exact absurd g1 h1
    | fcons _ g2 g3 =>
      have e1 := ih1 _ g2
      have e2 := ih2 _ g3
      cases e1; cases e2; rfl

theorem disclose_complete (hD : DWF D) (n : Nat) : RecC cl D (disclose cl n) := by
  induction n with
  | zero => intro st v w e rest R h; simp [disclose] at h; intros; exact h.symm
  | succ n ih =>
    intro st v w e rest R h hE hW hR hB
    have hok := @disclose_sound cl D n
    cases v with
    | arr l =>
      simp only [disclose] at h
      cases ha : arrLoop (disclose cl n) cl st l with
      | error e' =>
        rw [ha] at h
        simp only [Except.error.injEq] at h
        subst h
        cases hR with
        | scalar h => exact absurd h (by simp [Scalar])
        | arr h1 => exact arrLoop_complete hok ih hD l _ _ _ _ _ ha hE h1 (by simpa [digests] using hB)
      | ok q => rw [ha] at h; cases h
    | obj m =>
      simp only [disclose, objCase] at h
      simp only [JWF] at hW
      cases hR with
      | scalar h => exact absurd h (by simp [Scalar])
      | @obj _ sd claims missing fs h1 h2 h3 h4 h5 =>
        have hB1 : Budget cl D st (sdDigests m ++ (fieldDigests cl m ++ rest)) R := by
          simpa [digests] using hB
        rcases h1 with ⟨hg, rfl⟩ | ⟨sdv, hg, hsd⟩
        · rw [hg] at h
          simp only at h
          cases h2
          cases hf : fieldLoop (disclose cl n) cl st [] m with
          | error e' =>
            rw [hf] at h
            simp only [Except.error.injEq] at h
            subst h
            exact fieldLoop_complete hok ih m _ _ _ _ _ _ hf hE hW.2 hW.1 h3 (by simp [GoMap.keys])
              (by simpa [sdDigests, hg] using hB1)
          | ok q => rw [hf] at h; cases h
        · rw [hg] at h
          simp only [hsd] at h
          have hsdD : sdDigests m = sd := by simp [sdDigests, hg, stringArray_eq hsd]
          rw [hsdD] at hB1
          cases hl : sdLoop (disclose cl n) st [] [] sd with
          | error e' =>
            rw [hl] at h
            simp only [Except.error.injEq] at h
            subst h
            exact sdLoop_complete hok ih hD sd _ _ _ _ _ _ _ _ hl hE h2 (by simpa [GoMap.keys] using h4) hB1
          | ok q =>
            obtain ⟨nv, miss, s1⟩ := q
            rw [hl] at h
            simp only at h
            obtain ⟨cs, ms, g1, g2, g3, g4, _, g6, g7⟩ := sdLoop_sound hok sd _ _ _ _ _ _ hl hE hB.seen_nodup
            obtain ⟨R', hB2⟩ := Budget.step hB1 hE g7
            have hkeys : GoMap.keys cs = GoMap.keys claims := by
              have e := resolve_det g1 _ h2
              cases e; rfl
            cases hf : fieldLoop (disclose cl n) cl s1 (if (!cl && !miss.isEmpty) = true then
                GoMap.set nv "_sd" (.arr (miss.map .str)) else nv) m with
            | error e' =>
              rw [hf] at h
              simp only [Except.error.injEq] at h
              subst h
              refine fieldLoop_complete hok ih m _ _ _ _ _ _ hf g6 hW.2 hW.1 h3 ?_ hB2
              intro k hk hkH hcon
              have hkfs : k ∈ GoMap.keys fs := (fields_keys h3 k).mpr ⟨hk, hkH⟩
              have hkc : k ∉ GoMap.keys claims := by
                obtain ⟨p, hp, rfl⟩ := List.mem_map.mp hkfs
                exact h5 p hp
              have hksd : k ≠ "_sd" := fun e => hkH (Or.inl e)
              simp only [List.nil_append] at g2
              subst g2
              rw [← hkeys] at hkc
              split at hcon
              · rw [GoMap.keys_set] at hcon
                split at hcon
                · exact hkc hcon
                · rcases List.mem_append.mp hcon with h | h
                  · exact hkc h
                  · exact hksd (by simpa using h)
              · exact hkc hcon
            | ok q => rw [hf] at h; cases h
    | null => simp [disclose] at h
    | bool b => simp [disclose] at h
    | num q => simp [disclose] at h
    | str s => simp [disclose] at h

end VC.SDJWT
