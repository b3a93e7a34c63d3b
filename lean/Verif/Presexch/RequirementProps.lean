import Verif.Presexch.Requirement
import Mathlib.Data.List.Count
/-!
# Submission requirement semantics: C19
-/

namespace VC.PE

/-! ## Specification -/

/-- The bounds of a requirement on the number `n` of satisfied parts (`count` is only a bound for the
rule "pick"; zero and negative bounds are absent). -/
def Bounds (all : Bool) (count min max : Int) (n : Nat) : Prop :=
  (all = false → 0 < count → (n : Int) = count) ∧ (0 < min → min ≤ n) ∧ (0 < max → (n : Int) ≤ max)

/-- The input descriptors of a group. -/
def groupOf (ds : List Desc) (g : String) : List Desc := ds.filter (fun d => d.group.contains g)

mutual
/-- Declarative reading of a submission requirement: with rule "all" every descriptor of the group
(every nested requirement) is satisfied, and the number of those that are meets the bounds. -/
def SubReq.Sat (ds : List Desc) (S : List String) : SubReq → Prop
  | .mk all count min max src fromNested =>
    if src ≠ "" then
      (all = true → ∀ d ∈ groupOf ds src, d.id ∈ S) ∧
      Bounds all count min max ((groupOf ds src).filter (fun d => S.contains d.id)).length
    else
      ∃ n, SatCount ds S fromNested n ∧ (all = true → n = fromNested.length) ∧
        Bounds all count min max n
/-- Exactly `n` of the requirements are satisfied. -/
def SatCount (ds : List Desc) (S : List String) : List SubReq → Nat → Prop
  | [], n => n = 0
  | s :: ss, n => (s.Sat ds S ∧ ∃ m, n = m + 1 ∧ SatCount ds S ss m) ∨
      (¬ s.Sat ds S ∧ SatCount ds S ss n)
end

/-- What a presentation definition asks for: all its submission requirements; without any, all its
descriptors. -/
def DefSat (srs : List SubReq) (ds : List Desc) (S : List String) : Prop :=
  (srs = [] → ∀ d ∈ ds, d.id ∈ S) ∧ ∀ sr ∈ srs, sr.Sat ds S

/-! ## Proofs -/

theorem lenOk_iff (c mi ma : Int) (n : Nat) : lenOk c mi ma n = true ↔
    (0 < c → (n : Int) = c) ∧ (0 < mi → mi ≤ n) ∧ (0 < ma → (n : Int) ≤ ma) := by
  unfold lenOk
  split
  · simp; omega
  · split
    · simp; omega
    · split
      · simp; omega
      · simp; omega

theorem lenOk_all (all : Bool) (count mi ma : Int) {n total : Nat} (h : n ≤ total) :
    lenOk (if all then (total : Int) else count) mi
      (logicMax (if all then (total : Int) else count) ma total) n = true ↔
    (all = true → n = total) ∧ Bounds all count mi ma n := by
  rw [lenOk_iff]
  unfold logicMax Bounds
  cases all
  · simp only [Bool.false_eq_true, if_false, false_implies, true_and, forall_const]
    split <;> constructor <;> rintro ⟨h1, h2, h3⟩ <;> refine ⟨h1, h2, ?_⟩ <;> omega
  · simp only [if_true, Bool.true_eq_false, false_implies, true_and, forall_const]
    split
    · constructor
      · rintro ⟨h1, h2, h3⟩; exact ⟨by omega, h2, by omega⟩
      · rintro ⟨h1, h2, h3⟩; exact ⟨by omega, h2, by omega⟩
    · constructor
      · rintro ⟨h1, h2, h3⟩; exact ⟨by omega, h2, by omega⟩
      · rintro ⟨h1, h2, h3⟩; exact ⟨by omega, h2, by omega⟩

theorem leaf_count {g : List Desc} (hn : (g.map Desc.id).Nodup) (S : List String) :
    ((g.map Desc.id).filter (fun i => S.contains i)).dedup.length =
      (g.filter (fun d => S.contains d.id)).length := by
  rw [List.Nodup.dedup (hn.filter _), List.filter_map, List.length_map]
  rfl

theorem leaf_all {g : List Desc} (S : List String) :
    (g.filter (fun d => S.contains d.id)).length = g.length ↔ ∀ d ∈ g, d.id ∈ S := by
  rw [List.length_filter_eq_length_iff]
  simp

theorem countSat_le (S : List String) : ∀ ls : List Logic, countSat S ls ≤ ls.length
  | [] => by simp [countSat]
  | l :: ls => by
    have := countSat_le S ls
    simp only [countSat, List.length_cons]
    split <;> omega

theorem toLogics_length : ∀ rs : List Req, (toLogics rs).length = rs.length
  | [] => rfl
  | r :: rs => by simp [toLogics, toLogics_length rs]

theorem satCount_le {ds : List Desc} {S : List String} : ∀ (ss : List SubReq) (n : Nat),
    SatCount ds S ss n → n ≤ ss.length
  | [], n, h => by simp only [SatCount] at h; simp [h]
  | s :: ss, n, h => by
    simp only [SatCount] at h
    rcases h with ⟨_, m, rfl, h⟩ | ⟨_, h⟩
    · have := satCount_le ss m h; simp; omega
    · have := satCount_le ss n h; simp; omega

theorem satCount_all {ds : List Desc} {S : List String} : ∀ (ss : List SubReq),
    SatCount ds S ss ss.length ↔ ∀ s ∈ ss, s.Sat ds S
  | [] => by simp [SatCount]
  | s :: ss => by
    simp only [SatCount, List.length_cons, Nat.add_right_cancel_iff, List.forall_mem_cons]
    constructor
    · rintro (⟨h, m, rfl, hm⟩ | ⟨_, h⟩)
      · exact ⟨h, (satCount_all ss).mp hm⟩
      · have := satCount_le ss _ h; omega
    · rintro ⟨h1, h2⟩
      exact Or.inl ⟨h1, _, rfl, (satCount_all ss).mpr h2⟩

mutual
theorem toReq_sat {ds : List Desc} (hn : (ds.map Desc.id).Nodup) (S : List String) :
    ∀ (sr : SubReq) (r : Req), toReq ds sr = some r → (r.toLogic.sat S = true ↔ sr.Sat ds S)
  | .mk all count mi ma src fn, r, h => by
    simp only [toReq] at h
    simp only [SubReq.Sat]
    split at h
    · next hs =>
      rw [if_pos hs]
      split at h
      · cases h
      · simp only [Option.some.injEq] at h
        subst h
        have hsub : ((groupOf ds src).map Desc.id).Nodup :=
          hn.sublist (List.filter_sublist.map _)
        have := lenOk_all all count mi ma
          (List.length_filter_le (fun d => S.contains d.id) (groupOf ds src))
        simp only [Req.toLogic, toLogics, Logic.sat, List.isEmpty_nil, if_true]
        change lenOk (if all = true then ((groupOf ds src).length : Int) else count) mi
          (logicMax (if all = true then ((groupOf ds src).length : Int) else count) ma
            (groupOf ds src).length)
          (((groupOf ds src).map Desc.id).filter (fun i => S.contains i)).dedup.length = true ↔ _
        rw [leaf_count hsub, this, leaf_all]
    · next hs =>
      rw [if_neg hs]
      cases hr : toReqs ds fn with
      | none => rw [hr] at h; cases h
      | some rs =>
        rw [hr] at h
        simp only [Option.map_some, Option.some.injEq] at h
        subst h
        obtain ⟨hl, hc⟩ := toReqs_sat hn S fn rs hr
        have hle : countSat S (toLogics rs) ≤ rs.length := by
          have := countSat_le S (toLogics rs); rwa [toLogics_length] at this
        have key := lenOk_all all count mi ma hle
        have hsat : (Req.mk (if all = true then (rs.length : Int) else count) mi ma [] rs).toLogic.sat S
            = lenOk (if all = true then (rs.length : Int) else count) mi
              (logicMax (if all = true then (rs.length : Int) else count) ma rs.length)
              (countSat S (toLogics rs)) := by
          cases rs with
          | nil => simp [Req.toLogic, toLogics, Logic.sat, countSat]
          | cons q rs => simp [Req.toLogic, toLogics, Logic.sat]
        rw [hsat, key]
        constructor
        · rintro ⟨h1, h2⟩
          exact ⟨_, (hc _).mp rfl, by rw [← hl]; exact h1, h2⟩
        · rintro ⟨n, h0, h1, h2⟩
          have := (hc n).mpr h0
          rw [this]
          exact ⟨by rw [hl]; exact h1, h2⟩
theorem toReqs_sat {ds : List Desc} (hn : (ds.map Desc.id).Nodup) (S : List String) :
    ∀ (ss : List SubReq) (rs : List Req), toReqs ds ss = some rs →
      rs.length = ss.length ∧ ∀ n, countSat S (toLogics rs) = n ↔ SatCount ds S ss n
  | [], rs, h => by
    simp only [toReqs, Option.some.injEq] at h
    subst h
    refine ⟨rfl, fun n => ?_⟩
    simp only [toLogics, countSat, SatCount]
    exact eq_comm
  | s :: ss, rs, h => by
    simp only [toReqs] at h
    cases h1 : toReq ds s with
    | none => rw [h1] at h; cases h
    | some r =>
      rw [h1] at h
      cases h2 : toReqs ds ss with
      | none => rw [h2] at h; cases h
      | some rs' =>
        rw [h2] at h
        simp only [Option.map_some, Option.some.injEq] at h
        subst h
        have g1 := toReq_sat hn S s r h1
        obtain ⟨g2, g3⟩ := toReqs_sat hn S ss rs' h2
        refine ⟨by simp [g2], fun n => ?_⟩
        simp only [toLogics, countSat, SatCount]
        by_cases hs : r.toLogic.sat S = true
        · simp only [hs, if_true]
          have hs' := g1.mp hs
          constructor
          · rintro rfl
            exact Or.inl ⟨hs', _, by omega, (g3 _).mp rfl⟩
          · rintro (⟨_, m, rfl, hm⟩ | ⟨hx, _⟩)
            · rw [(g3 m).mpr hm]; omega
            · exact absurd hs' hx
        · simp only [hs, Bool.false_eq_true, if_false]
          have hs' := fun x => hs (g1.mpr x)
          constructor
          · rintro rfl
            exact Or.inr ⟨hs', (g3 _).mp (by omega)⟩
          · rintro (⟨hx, _⟩ | ⟨_, hm⟩)
            · exact absurd hx hs'
            · rw [(g3 n).mpr hm]; omega
end

/-- **C19.** The requirement logic built from a presentation definition is satisfied by a set of
descriptors exactly when the declarative reading of its submission requirements holds. -/
theorem requirement_semantics {srs : List SubReq} {ds : List Desc} (hn : (ds.map Desc.id).Nodup)
    {r : Req} (h : makeReq srs ds = some r) (S : List String) :
    r.toLogic.sat S = true ↔ DefSat srs ds S := by
  unfold makeReq at h
  split at h
  · next hl =>
    have hs : srs = [] := List.length_eq_zero_iff.mp hl
    subst hs
    simp only [Option.some.injEq] at h
    subst h
    have := lenOk_all true 0 0 0 (List.length_filter_le (fun d => S.contains d.id) ds)
    simp only [if_true] at this
    simp only [Req.toLogic, toLogics, Logic.sat, List.isEmpty_nil, if_true]
    rw [leaf_count hn, this, leaf_all]
    simp [DefSat, Bounds]
  · next hl =>
    cases hr : toReqs ds srs with
    | none => rw [hr] at h; cases h
    | some rs =>
      rw [hr] at h
      simp only [Option.map_some, Option.some.injEq] at h
      subst h
      obtain ⟨g1, g2⟩ := toReqs_sat hn S srs rs hr
      have hle : countSat S (toLogics rs) ≤ rs.length := by
        have := countSat_le S (toLogics rs); rwa [toLogics_length] at this
      have key := lenOk_all true 0 0 0 hle
      simp only [if_true] at key
      have hne : rs ≠ [] := by
        intro e
        subst e
        exact hl g1.symm
      have hsat : (Req.mk (srs.length : Int) 0 0 [] rs).toLogic.sat S
          = lenOk rs.length 0 (logicMax rs.length 0 rs.length) (countSat S (toLogics rs)) := by
        rw [← g1]
        cases rs with
        | nil => exact absurd rfl hne
        | cons q rs => simp [Req.toLogic, toLogics, Logic.sat]
      rw [hsat, key, g1, g2, satCount_all]
      have hs : srs ≠ [] := by intro e; subst e; exact hl rfl
      simp [DefSat, Bounds, hs]

/-- **C19**, one level: a requirement on children. -/
theorem nested_sat (S : List String) (ids : List String) (ls : List Logic) (c mi ma : Int)
    (h : ls ≠ []) : (Logic.mk ids ls c mi ma).sat S = true ↔
      (0 < c → ((ls.countP (fun l => l.sat S) : Nat) : Int) = c) ∧
      (0 < mi → mi ≤ ls.countP (fun l => l.sat S)) ∧
      (0 < ma → ((ls.countP (fun l => l.sat S) : Nat) : Int) ≤ ma) := by
  have hc : ∀ ls : List Logic, countSat S ls = ls.countP (fun l => l.sat S) := by
    intro ls
    induction ls with
    | nil => rfl
    | cons l ls ih => simp only [countSat, List.countP_cons, ih]; omega
  rw [Logic.sat, if_neg (by simpa using h), lenOk_iff, hc]

/-- A definition with an "all" group, and a "pick" of one out of two nested requirements. -/
def exDescs : List Desc := [⟨"a", ["A"]⟩, ⟨"b", ["A", "B"]⟩, ⟨"c", ["C"]⟩]
def exReqs : List SubReq :=
  [.mk true 0 0 0 "A" [], .mk false 1 0 0 "" [.mk true 0 0 0 "B" [], .mk false 0 1 0 "C" []]]

example : (exDescs.map Desc.id).Nodup ∧ (makeReq exReqs exDescs).isSome = true := by decide +kernel

/-- `{a, b}` satisfies it, `{a, b, c}` satisfies both nested requirements instead of one. -/
example : ((makeReq exReqs exDescs).map (fun r => r.toLogic.sat ["a", "b"])) = some true ∧
    ((makeReq exReqs exDescs).map (fun r => r.toLogic.sat ["a", "b", "c"])) = some false ∧
    ((makeReq exReqs exDescs).map (fun r => r.toLogic.sat ["b", "c"])) = some false := by
  decide +kernel

end VC.PE
