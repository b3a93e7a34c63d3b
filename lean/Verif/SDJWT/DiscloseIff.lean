import Verif.SDJWT.DiscloseComplete
/-!
# Resolving disclosures: exact success condition (helper lemmas)
-/

namespace VC.SDJWT
open List

variable {cl : Bool} {D : DMap}

/-- The unresolved disclosures of `D` that are reachable from the digests `ds0`. -/
noncomputable def reachSet (cl : Bool) (D : DMap) (ds0 : List String) : List String := by
  classical
  exact (GoMap.keys D).filter (fun d => decide (Reach cl D ds0 d ∧ Unparsed ⟨[], D⟩ d))

theorem mem_reachSet {ds0 : List String} {d : String} :
    d ∈ reachSet cl D ds0 ↔ Reach cl D ds0 d ∧ Unparsed ⟨[], D⟩ d := by
  classical
  unfold reachSet
  simp only [List.mem_filter, decide_eq_true_eq]
  constructor
  · exact fun h => h.2
  · intro h
    refine ⟨?_, h⟩
    obtain ⟨c, hc, _⟩ := h.2
    exact GoMap.get?_isSome_iff.mp (by rw [hc]; rfl)

theorem nodup_reachSet (hD : GoMap.WF D) {ds0 : List String} : (reachSet cl D ds0).Nodup := by
  classical
  unfold reachSet
  exact List.Nodup.filter _ hD

/-- After a successful run started with nothing recorded, every reachable disclosure is resolved. -/
theorem step_reach {st' : St} {ds0 : List String} (h : Step cl D ⟨[], D⟩ ds0 st') {d : String}
    (hr : Reach cl D ds0 d) : ¬ Unparsed st' d := by
  obtain ⟨N, n1, n2, n3, n4, n5, n6, n7, n8⟩ := h
  induction hr with
  | root hd => exact n6 _ (by simp [hd])
  | @step d c d' _ h2 h3 h4 ih =>
    have hN : d ∈ N := by
      refine Classical.byContradiction fun hc => ih ⟨c, ?_, h3⟩
      rw [n3 d hc]; exact h2
    refine n6 d' (List.mem_append_right _ (List.mem_flatMap.mpr ⟨d, hN, ?_⟩))
    simpa [digOf, h2] using h4

/-- The resolved disclosures are exactly the reachable ones. -/
theorem step_perm (hD : GoMap.WF D) {st' : St} {ds0 : List String}
    (h : Step cl D ⟨[], D⟩ ds0 st') :
    st'.seen.Perm (ds0 ++ (reachSet cl D ds0).flatMap (digOf cl D)) := by
  have hr := fun d => @step_reach cl D st' ds0 h d
  obtain ⟨N, n1, n2, n3, n4, n5, n6, n7, n8⟩ := h
  have hp : N.Perm (reachSet cl D ds0) := by
    rw [List.perm_ext_iff_of_nodup n1 (nodup_reachSet hD)]
    intro d
    rw [mem_reachSet]
    constructor
    · intro hd; exact ⟨(n7 d hd).1, (n2 d hd).1⟩
    · rintro ⟨h1, h2⟩
      refine Classical.byContradiction fun hc => hr d h1 ?_
      obtain ⟨c, hc1, hc2⟩ := h2
      exact ⟨c, by rw [n3 d hc]; exact hc1, hc2⟩
  refine n4.trans ?_
  simp only [List.nil_append]
  exact List.Perm.append_left _ (hp.flatMap_right _)

theorem disclose_no_fuel (v : Json) (n : Nat) (hn : fuelFor D v ≤ n) :
    disclose cl n ⟨[], D⟩ v ≠ .error .fuel := by
  refine disclose_term (D := D) n ⟨[], D⟩ v Ext.refl (by simp) ?_
  simp only [potential_nil]
  unfold fuelFor at hn
  omega

/-- Exact success condition of disclosure processing of a value. -/
theorem disclose_iff (hD : DWF D) (hK : GoMap.WF D) {v : Json} (hW : JWF v) :
    (∃ w st, disclose cl (fuelFor D v) ⟨[], D⟩ v = .ok (w, st)) ↔
      (∃ w, Resolves cl D v w) ∧
      (digests cl v ++ (reachSet cl D (digests cl v)).flatMap (digOf cl D)).Nodup := by
  constructor
  · rintro ⟨w, st, h⟩
    obtain ⟨h1, h2, h3⟩ := disclose_sound _ _ _ _ _ h Ext.refl (by simp)
    exact ⟨⟨w, h1⟩, (step_perm hK h3).nodup_iff.mp h3.nodup⟩
  · rintro ⟨⟨w, h1⟩, h2⟩
    cases h : disclose cl (fuelFor D v) ⟨[], D⟩ v with
    | ok q => exact ⟨q.1, q.2, rfl⟩
    | error e =>
      have hB : Budget cl D ⟨[], D⟩ (digests cl v ++ []) (reachSet cl D (digests cl v)) := by
        refine ⟨nodup_reachSet hK, fun d hd => (mem_reachSet.mp hd).2, ?_, by simpa using h2⟩
        intro d hd hu
        rw [mem_reachSet]
        refine ⟨?_, hu⟩
        rcases List.mem_append.mp hd with hd | hd
        · exact .root (by simpa using hd)
        · obtain ⟨x, hx, hx'⟩ := List.mem_flatMap.mp hd
          obtain ⟨hx1, c, hc, hp⟩ := mem_reachSet.mp hx
          exact .step hx1 hc hp (by simpa [digOf, hc] using hx')
      have := disclose_complete hD _ _ _ _ _ _ _ h Ext.refl hW h1 hB
      subst this
      exact absurd h (disclose_no_fuel v _ (Nat.le_refl _))

/-! ## Acyclicity of resolvable disclosures -/

/-- `x` is written in the value of the unresolved disclosure `d`. -/
def Child (cl : Bool) (D : DMap) (x d : String) : Prop :=
  ∃ c, GoMap.get? D d = some c ∧ c.parsed = false ∧ x ∈ digests cl c.value

/-- Digests a task starts from. -/
def taskDigests (cl : Bool) : Task → List String
  | .val v => digests cl v
  | .disc d => [d]
  | .elems l => arrDigests l
  | .sds l => l
  | .fields m => fieldDigests cl m

theorem acc_leaf {d : String} (h : ∀ c, GoMap.get? D d = some c → c.parsed = true) :
    Acc (Child cl D) d := by
  refine ⟨_, ?_⟩
  rintro x ⟨c, hc, hp, _⟩
  rw [h c hc] at hp; cases hp

theorem resolve_acc {t : Task} {o : Out} (h : Resolve cl D t o) :
    ∀ d ∈ taskDigests cl t, Acc (Child cl D) d := by
  induction h with
  | @scalar v hs =>
    intro d hd
    cases v <;> simp_all [taskDigests, digests, Scalar]
  | arr _ ih => intro d hd; exact ih d (by simpa [taskDigests, digests] using hd)
  | @obj m sd claims missing fs h1 h2 h3 h4 h5 ih2 ih3 =>
    intro d hd
    simp only [taskDigests, digests, List.mem_append] at hd
    rcases hd with hd | hd
    · refine ih2 d ?_
      simp only [taskDigests]
      rcases h1 with ⟨a1, a2⟩ | ⟨v, a1, a2⟩
      · simp [sdDigests, a1] at hd
      · simpa [sdDigests, a1, stringArray_eq a2] using hd
    · exact ih3 d hd
  | done h1 h2 =>
    intro d hd
    simp only [taskDigests, List.mem_singleton] at hd
    subst hd
    exact acc_leaf (fun c hc => by rw [h1] at hc; cases hc; exact h2)
  | disc h1 h2 _ ih =>
    intro d hd
    simp only [taskDigests, List.mem_singleton] at hd
    subst hd
    refine ⟨_, ?_⟩
    rintro x ⟨c, hc, _, hx⟩
    rw [h1] at hc; cases hc
    exact ih x hx
  | enil => intro d hd; simp [taskDigests, arrDigests] at hd
  | eplain h1 _ ih =>
    intro d hd
    refine ih d ?_
    simpa [taskDigests, arrDigests, h1] using hd
  | emiss h1 h2 _ ih =>
    intro d hd
    simp only [taskDigests, arrDigests, List.filterMap_cons, h1, Option.bind_some, Json.asStr?,
      List.mem_cons] at hd
    rcases hd with rfl | hd
    · exact acc_leaf (fun c hc => by rw [h2] at hc; cases hc)
    · exact ih d hd
  | edisc h1 _ _ _ _ ih1 ih2 =>
    intro d hd
    simp only [taskDigests, arrDigests, List.filterMap_cons, h1, Option.bind_some, Json.asStr?,
      List.mem_cons] at hd
    rcases hd with rfl | hd
    · exact ih1 d (by simp [taskDigests])
    · exact ih2 d hd
  | snil => intro d hd; cases hd
  | smiss h1 _ ih =>
    intro d hd
    simp only [taskDigests, List.mem_cons] at hd
    rcases hd with rfl | hd
    · exact acc_leaf (fun c hc => by rw [h1] at hc; cases hc)
    · exact ih d hd
  | sdisc _ _ _ _ ih1 ih2 =>
    intro d hd
    simp only [taskDigests, List.mem_cons] at hd
    rcases hd with rfl | hd
    · exact ih1 d (by simp [taskDigests])
    · exact ih2 d hd
  | fnil => intro d hd; simp [taskDigests, fieldDigests] at hd
  | fskip h1 _ ih =>
    intro d hd
    exact ih d (by simpa [taskDigests, fieldDigests, h1] using hd)
  | fcons h1 _ _ ih1 ih2 =>
    intro d hd
    simp only [taskDigests, fieldDigests, h1, if_false, List.mem_append] at hd
    rcases hd with hd | hd
    · exact ih1 d hd
    · exact ih2 d hd

/-- A resolvable disclosure is not reachable from its own value. -/
theorem resolve_acyclic {d : String} {c : Disc} {w : Json} (hc : GoMap.get? D d = some c)
    (hp : c.parsed = false) (h : Resolves cl D c.value w) :
    ¬ Reach cl D (digests cl c.value) d := by
  have hacc : Acc (Child cl D) d := by
    have := resolve_acc (Resolve.disc hc hp h)
    exact this d (by simp [taskDigests])
  have key : ∀ x, Reach cl D (digests cl c.value) x → Relation.TransGen (Child cl D) x d := by
    intro x hx
    induction hx with
    | root hd => exact .single ⟨c, hc, hp, hd⟩
    | step _ h2 h3 h4 ih => exact .head ⟨_, h2, h3, h4⟩ ih
  intro hr
  have ht := key d hr
  have hacc' : Acc (Relation.TransGen (Child cl D)) d := Acc.transGen hacc
  clear key hr hc hp h
  induction hacc' with
  | intro d _ ih => exact ih d ht (Acc.transGen hacc |>.inv ht |> fun _ => hacc) ht

end VC.SDJWT
