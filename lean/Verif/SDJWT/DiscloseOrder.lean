import Verif.SDJWT.DiscloseExamples
/-!
# C11: the result does not depend on the iteration order of Go maps

`JEq v w`: `v` and `w` are the same JSON value up to the order in which the members of their
objects are listed, at any depth.
-/

namespace VC.SDJWT
open List

/-- What is compared. -/
inductive JT where
  | val (v : Json)
  | list (l : List Json)
  | fields (m : JObj)

/-- Equality up to the order of object members (at any depth). Only members with different names
are exchanged. -/
inductive JE : JT → JT → Prop
  | refl {t} : JE t t
  | arr {l l'} : JE (.list l) (.list l') → JE (.val (.arr l)) (.val (.arr l'))
  | obj {m m'} : JE (.fields m) (.fields m') → JE (.val (.obj m)) (.val (.obj m'))
  | lcons {v v' l l'} : JE (.val v) (.val v') → JE (.list l) (.list l') →
      JE (.list (v :: l)) (.list (v' :: l'))
  | fcons {k v v' m m'} : JE (.val v) (.val v') → JE (.fields m) (.fields m') →
      JE (.fields ((k, v) :: m)) (.fields ((k, v') :: m'))
  | fswap {k v k' v' m} : k ≠ k' →
      JE (.fields ((k, v) :: (k', v') :: m)) (.fields ((k', v') :: (k, v) :: m))
  | trans {t t' t''} : JE t t' → JE t' t'' → JE t t''

/-- Same JSON value up to member order. -/
abbrev JEq (v w : Json) : Prop := JE (.val v) (.val w)

/-- Same object up to member order. -/
abbrev OEq (m m' : JObj) : Prop := JE (.fields m) (.fields m')

/-- Adequacy: every permutation of the members of a Go map is covered. -/
theorem OEq.of_perm {m m' : JObj} (h : m.Perm m') (hn : (GoMap.keys m).Nodup) : OEq m m' := by
  induction h with
  | nil => exact .refl
  | cons p _ ih =>
    obtain ⟨k, v⟩ := p
    exact .fcons .refl (ih (List.nodup_cons.mp hn).2)
  | swap p q l =>
    obtain ⟨k, v⟩ := p
    obtain ⟨k', v'⟩ := q
    refine .fswap ?_
    simp [GoMap.keys] at hn
    exact fun e => hn.1.1 e
  | trans h1 _ ih1 ih2 =>
    exact .trans (ih1 hn) (ih2 ((h1.map Prod.fst).nodup_iff.mp hn))

/-! ## Inversions -/

theorem JE.symm {t t' : JT} (h : JE t t') : JE t' t := by
  induction h with
  | refl => exact .refl
  | arr _ ih => exact .arr ih
  | obj _ ih => exact .obj ih
  | lcons _ _ ih1 ih2 => exact .lcons ih1 ih2
  | fcons _ _ ih1 ih2 => exact .fcons ih1 ih2
  | fswap h => exact .fswap (fun e => h e.symm)
  | trans _ _ ih1 ih2 => exact .trans ih2 ih1

/-- Shape of the right-hand side. -/
theorem JE.shape {t t' : JT} (h : JE t t') :
    match t, t' with
    | .val v, .val w => match v, w with
      | .arr l, .arr l' => JE (.list l) (.list l')
      | .obj m, .obj m' => JE (.fields m) (.fields m')
      | .null, .null => True
      | .bool b, .bool b' => b = b'
      | .num q, .num q' => q = q'
      | .str s, .str s' => s = s'
      | _, _ => False
    | .list l, .list l' => l.length = l'.length
    | .fields m, .fields m' => ∀ k, match GoMap.get? m k, GoMap.get? m' k with
      | none, none => True
      | some v, some v' => JE (.val v) (.val v')
      | _, _ => False
    | _, _ => False := by
  induction h with
  | @refl t =>
    cases t with
    | val v => cases v <;> simp <;> exact .refl
    | list l => rfl
    | fields m =>
      intro k
      cases GoMap.get? m k with
      | none => trivial
      | some v => exact .refl
  | arr h _ => exact h
  | obj h _ => exact h
  | lcons _ _ _ ih => simp only at ih ⊢; simp [ih]
  | @fcons k v v' m m' h1 h2 _ ih =>
    intro x
    rw [GoMap.get?_cons, GoMap.get?_cons]
    by_cases e : k = x
    · rw [if_pos e, if_pos e]; exact h1
    · rw [if_neg e, if_neg e]; exact ih x
  | @fswap k v k' v' m hne =>
    intro x
    have : GoMap.get? ((k, v) :: (k', v') :: m) x = GoMap.get? ((k', v') :: (k, v) :: m) x := by
      simp only [GoMap.get?_cons]
      by_cases e : k = x
      · by_cases e' : k' = x
        · exact absurd (e.trans e'.symm) hne
        · simp only [if_pos e, if_neg e']
      · simp only [if_neg e]
    rw [this]
    cases GoMap.get? ((k', v') :: (k, v) :: m) x with
    | none => trivial
    | some v => exact .refl
  | @trans t t' t'' h1 h2 ih1 ih2 =>
    cases t with
    | val v =>
      cases t' with
      | val v' =>
        cases t'' with
        | val v'' =>
          simp only at ih1 ih2 ⊢
          cases v <;> cases v' <;> simp only at ih1 <;> cases v'' <;> simp only at ih2 ⊢
          · exact ih1.trans ih2
          · exact ih1.trans ih2
          · exact ih1.trans ih2
          · exact .trans ih1 ih2
          · exact .trans ih1 ih2
        | list _ => exact ih2.elim
        | fields _ => exact ih2.elim
      | list _ => exact ih1.elim
      | fields _ => exact ih1.elim
    | list l =>
      cases t' with
      | list l' =>
        cases t'' with
        | list l'' => exact Eq.trans ih1 ih2
        | val _ => exact ih2.elim
        | fields _ => exact ih2.elim
      | val _ => exact ih1.elim
      | fields _ => exact ih1.elim
    | fields m =>
      cases t' with
      | fields m' =>
        cases t'' with
        | fields m'' =>
          intro k
          have a := ih1 k
          have b := ih2 k
          cases h1 : GoMap.get? m k <;> cases h2 : GoMap.get? m' k <;>
            cases h3 : GoMap.get? m'' k <;> simp only [h1, h2, h3] at a b ⊢
          exact .trans a b
        | val _ => exact ih2.elim
        | list _ => exact ih2.elim
      | val _ => exact ih1.elim
      | list _ => exact ih1.elim

theorem JEq.get {m m' : JObj} (h : OEq m m') (k : String) :
    (GoMap.get? m k = none ∧ GoMap.get? m' k = none) ∨
    ∃ v v', GoMap.get? m k = some v ∧ GoMap.get? m' k = some v' ∧ JEq v v' := by
  have := h.shape k
  cases h1 : GoMap.get? m k <;> cases h2 : GoMap.get? m' k <;> simp only [h1, h2] at this
  · exact Or.inl ⟨rfl, rfl⟩
  · exact Or.inr ⟨_, _, rfl, rfl, this⟩

theorem JEq.str {s : String} {v : Json} (h : JEq (.str s) v) : v = .str s := by
  have := h.shape
  cases v <;> simp only at this
  rw [this]

theorem JEq.isNull {v v' : Json} (h : JEq v v') : v.isNull = v'.isNull := by
  have := h.shape
  cases v <;> cases v' <;> simp only at this <;> rfl

theorem JEq.asStr {v v' : Json} (h : JEq v v') : v.asStr? = v'.asStr? := by
  have := h.shape
  cases v <;> cases v' <;> simp only at this <;> simp [Json.asStr?, this]

/-- Element-wise inversion for lists. -/
theorem JE.forall₂ {l l' : List Json} (h : JE (.list l) (.list l')) : List.Forall₂ JEq l l' := by
  generalize ht : JT.list l = t at h
  generalize ht' : JT.list l' = t' at h
  induction h generalizing l l' with
  | refl =>
    subst ht; cases ht'
    induction l with
    | nil => exact .nil
    | cons a l ih => exact .cons .refl ih
  | arr _ _ => cases ht
  | obj _ _ => cases ht
  | lcons h1 _ _ ih => cases ht; cases ht'; exact .cons h1 (ih rfl rfl)
  | fcons _ _ _ _ => cases ht
  | fswap _ => cases ht
  | @trans a b c h1 h2 ih1 ih2 =>
    subst ht; subst ht'
    have hs := h1.shape
    cases b with
    | list lb =>
      have r1 := ih1 rfl rfl
      have r2 := ih2 rfl rfl
      clear ih1 ih2 h1 h2 hs
      induction r1 generalizing l' with
      | nil => cases r2; exact .nil
      | cons a1 _ ih => cases r2 with | cons b1 b2 => exact .cons (.trans a1 b1) (ih b2)
    | val _ => exact hs.elim
    | fields _ => exact hs.elim

theorem JEq.placeholder {v v' : Json} (h : JEq v v') :
    (placeholder? v = none ∧ placeholder? v' = none) ∨
    ∃ p p', placeholder? v = some p ∧ placeholder? v' = some p' ∧ JEq p p' := by
  have hs := h.shape
  cases v <;> cases v' <;> simp only at hs <;> try exact Or.inl ⟨rfl, rfl⟩
  exact JEq.get hs "..."

theorem strings_eq {l l' : List Json} (h : List.Forall₂ JEq l l') : strings? l = strings? l' := by
  induction h with
  | nil => rfl
  | @cons a b l l' h1 _ ih =>
    have := h1.shape
    cases a <;> cases b <;> simp only at this <;> simp [strings?, ih, this]

theorem JEq.stringArray {v v' : Json} (h : JEq v v') : SDJWT.stringArray v = SDJWT.stringArray v' := by
  have hs := h.shape
  cases v <;> cases v' <;> simp only at hs <;> try rfl
  exact strings_eq hs.forall₂

theorem JEq.strElems {v v' : Json} (h : JEq v v') : SDJWT.strElems v = SDJWT.strElems v' := by
  have hs := h.shape
  cases v <;> cases v' <;> simp only at hs <;> try rfl
  simp only [SDJWT.strElems]
  have := hs.forall₂
  clear h hs
  induction this with
  | nil => rfl
  | cons h1 h2 ih => rw [List.filterMap_cons, List.filterMap_cons, h1.asStr, ih]

theorem sdDigests_eq {m m' : JObj} (h : OEq m m') : sdDigests m = sdDigests m' := by
  unfold sdDigests
  rcases JEq.get h "_sd" with ⟨h1, h2⟩ | ⟨v, v', h1, h2, h3⟩
  · rw [h1, h2]
  · rw [h1, h2]; exact h3.strElems

/-! ## Digests are permuted -/

theorem arrDigests_eq {l l' : List Json} (h : List.Forall₂ JEq l l') :
    arrDigests l = arrDigests l' := by
  induction h with
  | nil => rfl
  | @cons a b l l' h1 _ ih =>
    unfold arrDigests at ih ⊢
    rw [List.filterMap_cons, List.filterMap_cons, ih]
    have : (placeholder? a).bind Json.asStr? = (placeholder? b).bind Json.asStr? := by
      rcases h1.placeholder with ⟨e1, e2⟩ | ⟨p, p', e1, e2, e3⟩
      · rw [e1, e2]
      · rw [e1, e2]; simpa using e3.asStr
    rw [this]

/-- Digests of a compared thing. -/
def jtDigests (cl : Bool) : JT → List String
  | .val v => digests cl v
  | .list l => arrDigests l
  | .fields m => fieldDigests cl m

theorem JE.digests_perm (cl : Bool) {t t' : JT} (h : JE t t') :
    (jtDigests cl t).Perm (jtDigests cl t') := by
  induction h with
  | refl => exact List.Perm.refl _
  | arr h _ => simp only [jtDigests, digests]; rw [arrDigests_eq h.forall₂]
  | obj h ih =>
    simp only [jtDigests, digests] at ih ⊢
    rw [sdDigests_eq h]
    exact List.Perm.append_left _ ih
  | lcons h1 h2 _ _ =>
    simp only [jtDigests]; rw [arrDigests_eq (JE.lcons h1 h2).forall₂]
  | @fcons k v v' m m' _ _ ih1 ih2 =>
    simp only [jtDigests, fieldDigests] at ih1 ih2 ⊢
    split
    · exact List.Perm.append_left _ ih2
    · exact List.Perm.append ih1 ih2
  | fswap _ =>
    simp only [jtDigests, fieldDigests]
    rw [← List.append_assoc, ← List.append_assoc]
    exact List.Perm.append_right _ List.perm_append_comm
  | trans _ _ ih1 ih2 => exact ih1.trans ih2

/-! ## Resolution respects the equivalence -/

theorem JE.append {a a' b b' : JObj} (h1 : OEq a a') (h2 : OEq b b') :
    OEq (a ++ b) (a' ++ b') := by
  have left : ∀ c : JObj, OEq b b' → OEq (c ++ b) (c ++ b') := by
    intro c h
    induction c with
    | nil => exact h
    | cons p c ih => obtain ⟨k, v⟩ := p; exact .fcons .refl ih
  have right : ∀ t t', JE t t' → ∀ a a', t = .fields a → t' = .fields a' →
      OEq (a ++ b) (a' ++ b) := by
    intro t t' h
    induction h with
    | refl => intro a a' e1 e2; subst e1; cases e2; exact .refl
    | arr _ _ => intro a a' e1; cases e1
    | obj _ _ => intro a a' e1; cases e1
    | lcons _ _ _ _ => intro a a' e1; cases e1
    | fcons h1 _ _ ih => intro a a' e1 e2; cases e1; cases e2; exact .fcons h1 (ih _ _ rfl rfl)
    | fswap hne => intro a a' e1 e2; cases e1; cases e2; exact .fswap hne
    | @trans x y z hxy hyz ih1 ih2 =>
      intro a a' e1 e2
      subst e1; subst e2
      have hs := hxy.shape
      cases y with
      | fields m => exact .trans (ih1 _ _ rfl rfl) (ih2 _ _ rfl rfl)
      | val _ => exact hs.elim
      | list _ => exact hs.elim
  exact .trans (right _ _ h1 _ _ rfl rfl) (left a' h2)

theorem JE.filter_nonnull {a a' : JObj} (h : OEq a a') :
    OEq (a.filter (fun p => !p.2.isNull)) (a'.filter (fun p => !p.2.isNull)) := by
  change JE (.fields a) (.fields a') at h
  generalize ht : JT.fields a = t at h
  generalize ht' : JT.fields a' = t' at h
  induction h generalizing a a' with
  | refl => subst ht; cases ht'; exact .refl
  | arr _ _ => cases ht
  | obj _ _ => cases ht
  | lcons _ _ _ _ => cases ht
  | fcons h1 _ _ ih =>
    cases ht; cases ht'
    simp only [List.filter_cons, JEq.isNull h1]
    split
    · exact .fcons h1 (ih rfl rfl)
    · exact ih rfl rfl
  | @fswap k v k' v' m hne =>
    cases ht; cases ht'
    simp only [List.filter_cons]
    split
    · split
      · exact .fswap hne
      · exact .refl
    · exact .refl
  | @trans x y z hxy hyz ih1 ih2 =>
    subst ht; subst ht'
    have hs := hxy.shape
    cases y with
    | fields m => exact .trans (ih1 rfl rfl) (ih2 rfl rfl)
    | val _ => exact hs.elim
    | list _ => exact hs.elim

theorem OEq.keys {a a' : JObj} (h : OEq a a') : ∀ k, k ∈ GoMap.keys a ↔ k ∈ GoMap.keys a' := by
  intro k
  rw [← GoMap.get?_isSome_iff, ← GoMap.get?_isSome_iff]
  rcases JEq.get h k with ⟨h1, h2⟩ | ⟨v, v', h1, h2, _⟩
  · rw [h1, h2]
  · rw [h1, h2]; simp

/-- The task that corresponds to a compared thing. -/
def JT.task : JT → Task
  | .val v => .val v
  | .list l => .elems l
  | .fields m => .fields m

/-- Results agree up to member order. -/
def OutEq : Out → Out → Prop
  | .val v, .val w => JEq v w
  | .list l, .list l' => List.Forall₂ JEq l l'
  | .sds c m, .sds c' m' => List.Forall₂ (fun p q => p.1 = q.1 ∧ JEq p.2 q.2) c c' ∧ m = m'
  | .fields m, .fields m' => OEq m m'
  | _, _ => False

theorem forall₂_list {l l' : List Json} (h : List.Forall₂ JEq l l') : JE (.list l) (.list l') := by
  induction h with
  | nil => exact .refl
  | cons h1 _ ih => exact .lcons h1 ih

theorem forall₂_refl (l : List Json) : List.Forall₂ JEq l l := by
  induction l with
  | nil => exact .nil
  | cons a l ih => exact .cons .refl ih

theorem forall₂_trans {a b c : List Json} (h1 : List.Forall₂ JEq a b) (h2 : List.Forall₂ JEq b c) :
    List.Forall₂ JEq a c := (JE.trans (forall₂_list h1) (forall₂_list h2)).forall₂

theorem OutEq.refl (o : Out) : OutEq o o := by
  cases o with
  | val v => exact JE.refl
  | list l => exact forall₂_refl l
  | sds c m =>
    refine ⟨?_, rfl⟩
    induction c with
    | nil => exact .nil
    | cons a l ih => exact .cons ⟨rfl, .refl⟩ ih
  | fields m => exact JE.refl

theorem arr_out {out out' : List Json} (h : List.Forall₂ JEq out out') :
    JEq (if out = [] then .null else .arr out) (if out' = [] then .null else .arr out') := by
  cases h with
  | nil => exact .refl
  | cons h1 h2 => simp only [reduceCtorEq, if_false]; exact .arr (.lcons h1 (forall₂_list h2))

theorem elems_respects {cl : Bool} {D : DMap} {l l' : List Json} (h : List.Forall₂ JEq l l') :
    ∀ out, Resolve cl D (.elems l) (.list out) →
      ∃ out', Resolve cl D (.elems l') (.list out') ∧ List.Forall₂ JEq out out' := by
  induction h with
  | nil => intro out h; cases h; exact ⟨[], .enil, .nil⟩
  | @cons a b l l' h1 h2 ih =>
    intro out h
    cases h with
    | eplain g1 g2 =>
      obtain ⟨o', i1, i2⟩ := ih _ g2
      rcases h1.placeholder with ⟨_, e2⟩ | ⟨p, p', e1, _, _⟩
      · exact ⟨_, .eplain e2 i1, .cons h1 i2⟩
      · rw [g1] at e1; cases e1
    | emiss g1 g2 g3 =>
      obtain ⟨o', i1, i2⟩ := ih _ g3
      rcases h1.placeholder with ⟨e1, _⟩ | ⟨p, p', e1, e2, e3⟩
      · rw [g1] at e1; cases e1
      · rw [g1] at e1; cases e1
        have := e3.str
        subst this
        refine ⟨_, .emiss e2 g2 i1, ?_⟩
        split
        · exact i2
        · exact .cons h1 i2
    | edisc g1 g2 g3 g4 g5 =>
      obtain ⟨o', i1, i2⟩ := ih _ g5
      rcases h1.placeholder with ⟨e1, _⟩ | ⟨p, p', e1, e2, e3⟩
      · rw [g1] at e1; cases e1
      · rw [g1] at e1; cases e1
        have := e3.str
        subst this
        exact ⟨_, .edisc e2 g2 g3 g4 i1, .cons .refl i2⟩

theorem respects_value {cl : Bool} {D : DMap} {t t' : JT} (h : JE t t') :
    ∀ o, Resolve cl D t.task o → ∃ o', Resolve cl D t'.task o' ∧ OutEq o o' := by
  induction h with
  | refl => intro o h; exact ⟨o, h, OutEq.refl o⟩
  | arr h _ =>
    intro o hr
    simp only [JT.task] at hr
    cases hr with
    | scalar hs => exact absurd hs (by simp [Scalar])
    | arr g1 =>
      obtain ⟨out', i1, i2⟩ := elems_respects h.forall₂ _ g1
      exact ⟨_, .arr i1, arr_out i2⟩
  | @obj m m' h ih =>
    intro o hr
    simp only [JT.task] at hr
    cases hr with
    | scalar hs => exact absurd hs (by simp [Scalar])
    | @obj _ sd claims missing fs g1 g2 g3 g4 g5 =>
      obtain ⟨o', i1, i2⟩ := ih _ g3
      cases o' with
      | fields fs' =>
        simp only [OutEq] at i2
        refine ⟨_, .obj ?_ g2 i1 g4 ?_, ?_⟩
        · rcases g1 with ⟨a1, a2⟩ | ⟨v, a1, a2⟩
          · rcases JEq.get h "_sd" with ⟨e1, e2⟩ | ⟨_, _, e1, _, _⟩
            · exact Or.inl ⟨e2, a2⟩
            · rw [a1] at e1; cases e1
          · rcases JEq.get h "_sd" with ⟨e1, e2⟩ | ⟨p, p', e1, e2, e3⟩
            · rw [a1] at e1; cases e1
            · rw [a1] at e1; cases e1
              exact Or.inr ⟨p', e2, by rw [← e3.stringArray]; exact a2⟩
        · intro p hp hk
          have := (OEq.keys i2 p.1).mpr (List.mem_map.mpr ⟨p, hp, rfl⟩)
          obtain ⟨q, hq, he⟩ := List.mem_map.mp this
          exact g5 q hq (by rw [he]; exact hk)
        · simp only [OutEq, assemble]
          exact .obj (JE.append .refl (JE.filter_nonnull i2))
      | val _ => exact i2.elim
      | list _ => exact i2.elim
      | sds _ _ => exact i2.elim
  | lcons h1 h2 _ _ =>
    intro o hr
    simp only [JT.task] at hr
    have hl : ∃ out, o = .list out := by cases hr <;> exact ⟨_, rfl⟩
    obtain ⟨out, rfl⟩ := hl
    obtain ⟨out', i1, i2⟩ := elems_respects (JE.lcons h1 h2).forall₂ _ hr
    exact ⟨_, i1, i2⟩
  | @fcons k v v' m m' h1 h2 ih1 ih2 =>
    intro o hr
    simp only [JT.task] at hr ih1 ih2
    cases hr with
    | fskip g1 g2 =>
      obtain ⟨o', i1, i2⟩ := ih2 _ g2
      cases o' with
      | fields fs' => exact ⟨_, .fskip g1 i1, i2⟩
      | val _ => exact i2.elim
      | list _ => exact i2.elim
      | sds _ _ => exact i2.elim
    | fcons g1 g2 g3 =>
      obtain ⟨o', i1, i2⟩ := ih2 _ g3
      obtain ⟨o2, j1, j2⟩ := ih1 _ g2
      cases o' with
      | fields fs' =>
        cases o2 with
        | val w => exact ⟨_, .fcons g1 j1 i1, .fcons j2 i2⟩
        | fields _ => exact j2.elim
        | list _ => exact j2.elim
        | sds _ _ => exact j2.elim
      | val _ => exact i2.elim
      | list _ => exact i2.elim
      | sds _ _ => exact i2.elim
  | @fswap k v k' v' m hne =>
    intro o hr
    simp only [JT.task] at hr ⊢
    cases hr with
    | fskip g1 g2 =>
      cases g2 with
      | fskip g3 g4 => exact ⟨_, .fskip g3 (.fskip g1 g4), JE.refl⟩
      | fcons g3 g4 g5 => exact ⟨_, .fcons g3 g4 (.fskip g1 g5), JE.refl⟩
    | fcons g1 g1' g2 =>
      cases g2 with
      | fskip g3 g4 => exact ⟨_, .fskip g3 (.fcons g1 g1' g4), JE.refl⟩
      | fcons g3 g4 g5 => exact ⟨_, .fcons g3 g4 (.fcons g1 g1' g5), JE.fswap hne⟩
  | @trans a b c hab hbc ih1 ih2 =>
    intro o hr
    obtain ⟨o1, i1, i2⟩ := ih1 o hr
    obtain ⟨o2, j1, j2⟩ := ih2 o1 i1
    refine ⟨o2, j1, ?_⟩
    cases o <;> cases o1 <;> cases o2 <;> simp only [OutEq] at i2 j2 ⊢
    · exact .trans i2 j2
    · exact forall₂_trans i2 j2
    · -- `sds` never results from these tasks
      exfalso
      cases a <;> simp only [JT.task] at hr <;> cases hr
    · exact .trans i2 j2

/-- Two disclosure tables with the same disclosures up to member order of their values. -/
def DEq (D D' : DMap) : Prop :=
  ∀ d, (GoMap.get? D d = none ∧ GoMap.get? D' d = none) ∨
    ∃ c c', GoMap.get? D d = some c ∧ GoMap.get? D' d = some c' ∧ c.name = c'.name ∧
      c.elems = c'.elems ∧ c.parsed = c'.parsed ∧ JEq c.value c'.value

theorem DEq.symm {D D' : DMap} (h : DEq D D') : DEq D' D := by
  intro d
  rcases h d with ⟨a, b⟩ | ⟨c, c', h1, h2, h3, h4, h5, h6⟩
  · exact Or.inl ⟨b, a⟩
  · exact Or.inr ⟨c', c, h2, h1, h3.symm, h4.symm, h5.symm, h6.symm⟩

theorem claims_oeq {c c' : JObj} (h : List.Forall₂ (fun p q => p.1 = q.1 ∧ JEq p.2 q.2) c c') :
    OEq c c' := by
  induction h with
  | nil => exact .refl
  | @cons p q _ _ h1 _ ih =>
    obtain ⟨k, v⟩ := p
    obtain ⟨k', v'⟩ := q
    obtain ⟨e, h1⟩ := h1
    simp only at e h1
    subst e
    exact .fcons h1 ih

theorem claims_keys {c c' : JObj} (h : List.Forall₂ (fun p q => p.1 = q.1 ∧ JEq p.2 q.2) c c') :
    GoMap.keys c = GoMap.keys c' := by
  induction h with
  | nil => rfl
  | cons h1 _ ih => simp only [GoMap.keys] at ih; simp [GoMap.keys, h1.1, ih]

theorem set_sd_oeq {c c' : JObj} (v : Json)
    (h : List.Forall₂ (fun p q => p.1 = q.1 ∧ JEq p.2 q.2) c c') :
    List.Forall₂ (fun p q => p.1 = q.1 ∧ JEq p.2 q.2) (GoMap.set c "_sd" v)
      (GoMap.set c' "_sd" v) := by
  induction h with
  | nil => exact .cons ⟨rfl, .refl⟩ .nil
  | @cons p q l l' h1 h2 ih =>
    obtain ⟨k, w⟩ := p
    obtain ⟨k', w'⟩ := q
    obtain ⟨e, h1⟩ := h1
    simp only at e h1
    subst e
    simp only [GoMap.set]
    split
    · exact .cons ⟨rfl, .refl⟩ h2
    · exact .cons ⟨rfl, h1⟩ ih

theorem respects_table {cl : Bool} {D D' : DMap} (hD : DEq D D') {t : Task} {o : Out}
    (h : Resolve cl D t o) : ∃ o', Resolve cl D' t o' ∧ OutEq o o' := by
  have hnone : ∀ d, GoMap.get? D d = none → GoMap.get? D' d = none := by
    intro d hd
    rcases hD d with ⟨_, b⟩ | ⟨c, c', h1, _⟩
    · exact b
    · rw [hd] at h1; cases h1
  have hsome : ∀ d c, GoMap.get? D d = some c → ∃ c', GoMap.get? D' d = some c' ∧ c.name = c'.name ∧
      c.elems = c'.elems ∧ c.parsed = c'.parsed ∧ JEq c.value c'.value := by
    intro d c hd
    rcases hD d with ⟨a, _⟩ | ⟨c, c', h1, h2⟩
    · rw [hd] at a; cases a
    · rw [hd] at h1; cases h1; exact ⟨c', h2⟩
  induction h with
  | scalar hs => exact ⟨_, .scalar hs, JE.refl⟩
  | arr _ ih =>
    obtain ⟨o', i1, i2⟩ := ih
    cases o' with
    | list out' => exact ⟨_, .arr i1, arr_out i2⟩
    | val _ => exact i2.elim
    | fields _ => exact i2.elim
    | sds _ _ => exact i2.elim
  | @obj m sd claims missing fs g1 g2 g3 g4 g5 ih2 ih3 =>
    obtain ⟨o', i1, i2⟩ := ih2
    obtain ⟨o2, j1, j2⟩ := ih3
    cases o' with
    | sds claims' missing' =>
      obtain ⟨i2, rfl⟩ := i2
      cases o2 with
      | fields fs' =>
        simp only [OutEq] at j2
        refine ⟨_, .obj g1 i1 j1 (by rw [← claims_keys i2]; exact g4) ?_, ?_⟩
        · intro p hp hk
          have := (OEq.keys j2 p.1).mpr (List.mem_map.mpr ⟨p, hp, rfl⟩)
          obtain ⟨q, hq, he⟩ := List.mem_map.mp this
          exact g5 q hq (by rw [he, claims_keys i2]; exact hk)
        · simp only [OutEq, assemble]
          refine .obj (JE.append ?_ (JE.filter_nonnull j2))
          split
          · exact claims_oeq (set_sd_oeq _ i2)
          · exact claims_oeq i2
      | val _ => exact j2.elim
      | list _ => exact j2.elim
      | sds _ _ => exact j2.elim
    | val _ => exact i2.elim
    | list _ => exact i2.elim
    | fields _ => exact i2.elim
  | done h1 h2 =>
    obtain ⟨c', e1, e2, e3, e4, e5⟩ := hsome _ _ h1
    exact ⟨_, .done e1 (e4 ▸ h2), e5⟩
  | disc h1 h2 _ ih =>
    obtain ⟨c', e1, e2, e3, e4, e5⟩ := hsome _ _ h1
    obtain ⟨o', i1, i2⟩ := ih
    obtain ⟨o2, j1, j2⟩ := respects_value (t := .val _) e5 _ i1
    cases o' with
    | val w' =>
      cases o2 with
      | val w2 => exact ⟨_, .disc e1 (e4 ▸ h2) j1, .trans i2 j2⟩
      | list _ => exact j2.elim
      | fields _ => exact j2.elim
      | sds _ _ => exact j2.elim
    | list _ => exact i2.elim
    | fields _ => exact i2.elim
    | sds _ _ => exact i2.elim
  | enil => exact ⟨_, .enil, .nil⟩
  | eplain h1 _ ih =>
    obtain ⟨o', i1, i2⟩ := ih
    cases o' with
    | list out' => exact ⟨_, .eplain h1 i1, .cons .refl i2⟩
    | val _ => exact i2.elim
    | fields _ => exact i2.elim
    | sds _ _ => exact i2.elim
  | emiss h1 h2 _ ih =>
    obtain ⟨o', i1, i2⟩ := ih
    cases o' with
    | list out' =>
      refine ⟨_, .emiss h1 (hnone _ h2) i1, ?_⟩
      simp only [OutEq]
      split
      · exact i2
      · exact .cons .refl i2
    | val _ => exact i2.elim
    | fields _ => exact i2.elim
    | sds _ _ => exact i2.elim
  | edisc h1 h2 h3 _ _ ih1 ih2 =>
    obtain ⟨c', e1, e2, e3, e4, e5⟩ := hsome _ _ h2
    obtain ⟨o', i1, i2⟩ := ih1
    obtain ⟨o2, j1, j2⟩ := ih2
    cases o' with
    | val w' =>
      cases o2 with
      | list out' => exact ⟨_, .edisc h1 e1 (e3 ▸ h3) i1 j1, .cons i2 j2⟩
      | val _ => exact j2.elim
      | fields _ => exact j2.elim
      | sds _ _ => exact j2.elim
    | list _ => exact i2.elim
    | fields _ => exact i2.elim
    | sds _ _ => exact i2.elim
  | snil => exact ⟨_, .snil, .nil, rfl⟩
  | smiss h1 _ ih =>
    obtain ⟨o', i1, i2⟩ := ih
    cases o' with
    | sds claims' missing' =>
      obtain ⟨i2, rfl⟩ := i2
      exact ⟨_, .smiss (hnone _ h1) i1, i2, rfl⟩
    | val _ => exact i2.elim
    | list _ => exact i2.elim
    | fields _ => exact i2.elim
  | sdisc h1 h2 _ _ ih1 ih2 =>
    obtain ⟨c', e1, e2, e3, e4, e5⟩ := hsome _ _ h1
    obtain ⟨o', i1, i2⟩ := ih1
    obtain ⟨o2, j1, j2⟩ := ih2
    cases o' with
    | val w' =>
      cases o2 with
      | sds claims' missing' =>
        obtain ⟨j2, rfl⟩ := j2
        exact ⟨_, .sdisc e1 (e3 ▸ h2) i1 j1, .cons ⟨e2, i2⟩ j2, rfl⟩
      | val _ => exact j2.elim
      | list _ => exact j2.elim
      | fields _ => exact j2.elim
    | list _ => exact i2.elim
    | fields _ => exact i2.elim
    | sds _ _ => exact i2.elim
  | fnil => exact ⟨_, .fnil, JE.refl⟩
  | fskip h1 _ ih =>
    obtain ⟨o', i1, i2⟩ := ih
    cases o' with
    | fields fs' => exact ⟨_, .fskip h1 i1, i2⟩
    | val _ => exact i2.elim
    | list _ => exact i2.elim
    | sds _ _ => exact i2.elim
  | fcons h1 _ _ ih1 ih2 =>
    obtain ⟨o', i1, i2⟩ := ih1
    obtain ⟨o2, j1, j2⟩ := ih2
    cases o' with
    | val w' =>
      cases o2 with
      | fields fs' => exact ⟨_, .fcons h1 i1 j1, .fcons i2 j2⟩
      | val _ => exact j2.elim
      | list _ => exact j2.elim
      | sds _ _ => exact j2.elim
    | list _ => exact i2.elim
    | fields _ => exact i2.elim
    | sds _ _ => exact i2.elim

/-- Resolution of equal values against equal tables gives equal results. -/
theorem resolves_respects {cl : Bool} {D D' : DMap} (hD : DEq D D') {v v' w : Json}
    (hv : JEq v v') (h : Resolves cl D v w) : ∃ w', Resolves cl D' v' w' ∧ JEq w w' := by
  obtain ⟨o1, i1, i2⟩ := respects_table hD h
  cases o1 with
  | val w1 =>
    obtain ⟨o2, j1, j2⟩ := respects_value (t := .val v) hv _ i1
    cases o2 with
    | val w2 => exact ⟨w2, j1, .trans i2 j2⟩
    | list _ => exact j2.elim
    | fields _ => exact j2.elim
    | sds _ _ => exact j2.elim
  | list _ => exact i2.elim
  | fields _ => exact i2.elim
  | sds _ _ => exact i2.elim

/-! ## The API functions -/

/-- Acceptance in terms of the decoded table (no assumption on collisions). -/
theorem verify_iff_table {env : Env} (he : EnvWF env) {ds : List String} {payload : JObj}
    (hp : JWF (.obj payload)) :
    verifyDisclosures env ds payload = .ok () ↔
      ∃ alg D, getHashAlg env payload = some alg ∧ getDisclosureClaims env alg ds [] = .ok D ∧
        (∃ w, Resolves false D (.obj payload) w) ∧
        (∀ d ∈ GoMap.keys D, Reach false D (digests false (.obj payload)) d) ∧
        (digests false (.obj payload) ++ (GoMap.keys D).flatMap (digOf false D)).Nodup := by
  constructor
  · intro h
    obtain ⟨alg, D, w, st, h1, h2, h2', h3, h4⟩ := verify_core h
    obtain ⟨a1, a2, a3⟩ := disclose_sound _ _ _ _ _ h3 Ext.refl (by simp)
    have hr : ∀ d ∈ GoMap.keys D, Reach false D (digests false (.obj payload)) d := by
      intro d hd
      have hs := GoMap.get?_isSome_iff.mpr hd
      obtain ⟨c, hc⟩ := Option.isSome_iff_exists.mp hs
      obtain ⟨N, n1, n2, n3, n4, n5, n6, n7, n8⟩ := a3
      by_cases hN : d ∈ N
      · exact (n7 _ hN).1
      · exact absurd ⟨c, by rw [n3 _ hN]; exact hc, h2.unparsed d c hc⟩ (h4 d hs)
    refine ⟨alg, D, h1, h2', ⟨w, a1⟩, hr, ?_⟩
    have hperm : (reachSet false D (digests false (.obj payload))).Perm (GoMap.keys D) := by
      rw [List.perm_ext_iff_of_nodup (nodup_reachSet h2.wf) h2.wf]
      intro d
      rw [mem_reachSet]
      constructor
      · rintro ⟨_, c, hc, _⟩
        rw [show (St.mk [] D).ds = D from rfl] at hc
        exact GoMap.get?_isSome_iff.mp (by rw [hc]; rfl)
      · intro hd
        obtain ⟨c, hc⟩ := Option.isSome_iff_exists.mp (GoMap.get?_isSome_iff.mpr hd)
        exact ⟨hr d hd, c, hc, h2.unparsed d c hc⟩
    have := (step_perm h2.wf a3).nodup_iff.mp a3.nodup
    exact (List.Perm.append_left _ (hperm.flatMap_right _)).nodup_iff.mp this
  · rintro ⟨alg, D, h1, h2, h3, h4, h5⟩
    have hD := decoded_of_ok h2
    have hperm : (reachSet false D (digests false (.obj payload))).Perm (GoMap.keys D) := by
      rw [List.perm_ext_iff_of_nodup (nodup_reachSet hD.wf) hD.wf]
      intro d
      rw [mem_reachSet]
      constructor
      · rintro ⟨_, c, hc, _⟩
        rw [show (St.mk [] D).ds = D from rfl] at hc
        exact GoMap.get?_isSome_iff.mp (by rw [hc]; rfl)
      · intro hd
        obtain ⟨c, hc⟩ := Option.isSome_iff_exists.mp (GoMap.get?_isSome_iff.mpr hd)
        exact ⟨h4 d hd, c, hc, hD.unparsed d c hc⟩
    have hnd := (List.Perm.append_left (digests false (.obj payload))
      (hperm.flatMap_right (digOf false D))).nodup_iff.mpr h5
    obtain ⟨w, st, hd⟩ := (disclose_iff (hD.dwf he) hD.wf hp).mpr ⟨h3, hnd⟩
    obtain ⟨a1, a2, a3⟩ := disclose_sound _ _ _ _ _ hd Ext.refl (by simp)
    unfold verifyDisclosures
    rw [h1]
    simp only [h2, hd]
    rw [if_pos]
    rw [List.all_eq_true]
    rintro ⟨d, c⟩ hm
    have hkeys : GoMap.keys st.ds = GoMap.keys D := by
      obtain ⟨N, _, _, _, _, _, _, _, n8⟩ := a3
      exact n8
    have hwf : GoMap.WF st.ds := by unfold GoMap.WF; rw [hkeys]; exact hD.wf
    have hcst := GoMap.get?_of_mem hwf hm
    have hdk : d ∈ GoMap.keys D := by
      rw [← hkeys]; exact List.mem_map.mpr ⟨_, hm, rfl⟩
    have := step_reach a3 (h4 d hdk)
    cases hpp : c.parsed with
    | true => rfl
    | false => exact absurd ⟨c, hcst, hpp⟩ this

/-- Two environments that differ only in the member order of decoded disclosures. -/
structure EnvEq (env env' : Env) : Prop where
  hash : env.hash = env'.hash
  upper : env.upper = env'.upper
  decode : ∀ s, (env.decode s = none ∧ env'.decode s = none) ∨
    ∃ l l', env.decode s = some l ∧ env'.decode s = some l' ∧ List.Forall₂ JEq l l'

theorem EnvEq.symm {env env' : Env} (h : EnvEq env env') : EnvEq env' env := by
  refine ⟨h.hash.symm, h.upper.symm, ?_⟩
  intro s
  rcases h.decode s with ⟨a, b⟩ | ⟨l, l', a, b, c⟩
  · exact Or.inl ⟨b, a⟩
  · exact Or.inr ⟨l', l, b, a, (JE.symm (forall₂_list c)).forall₂⟩

/-- The disclosure objects agree up to member order. -/
def DiscEq (c c' : Disc) : Prop :=
  c.name = c'.name ∧ c.elems = c'.elems ∧ c.parsed = c'.parsed ∧ JEq c.value c'.value

theorem getDisclosureClaim_respects {env env' : Env} (h : EnvEq env env') {alg s d : String}
    {c : Disc} (hc : getDisclosureClaim env alg s = .ok (d, c)) :
    ∃ c', getDisclosureClaim env' alg s = .ok (d, c') ∧ DiscEq c c' := by
  unfold getDisclosureClaim at hc ⊢
  rw [← h.hash]
  rcases h.decode s with ⟨a, b⟩ | ⟨l, l', a, b, hl⟩
  · rw [a] at hc; cases hc
  · rw [a] at hc
    rw [b]
    simp only at hc ⊢
    have hlen := hl.length_eq
    split at hc
    · cases hc
    · next hnot =>
      rw [if_neg (by rw [← hlen]; exact hnot)]
      cases hl with
      | nil => cases hc
      | @cons x y r r' h1 h2 =>
        cases x with
        | str salt =>
          have := h1.str
          subst this
          simp only at hc ⊢
          cases h2 with
          | nil => simp at hnot
          | @cons x1 y1 r1 r1' g1 g2 =>
            cases g2 with
            | nil =>
              cases hc
              exact ⟨_, rfl, rfl, rfl, rfl, g1⟩
            | @cons x2 y2 r2 r2' k1 k2 =>
              cases k2 with
              | nil =>
                cases x1 with
                | str nm =>
                  have := g1.str
                  subst this
                  cases hc
                  exact ⟨_, rfl, rfl, rfl, rfl, k1⟩
                | null => cases hc
                | bool _ => cases hc
                | num _ => cases hc
                | arr _ => cases hc
                | obj _ => cases hc
              | cons k3 k4 =>
                cases hc
                refine ⟨_, rfl, rfl, ?_, rfl, .refl⟩
                simp [k4.length_eq]
        | null => cases hc
        | bool _ => cases hc
        | num _ => cases hc
        | arr _ => cases hc
        | obj _ => cases hc

theorem getDisclosureClaims_respects {env env' : Env} (h : EnvEq env env') {alg : String}
    (ss : List String) : ∀ acc acc' D, getDisclosureClaims env alg ss acc = .ok D →
      DEq acc acc' → GoMap.keys acc = GoMap.keys acc' →
      ∃ D', getDisclosureClaims env' alg ss acc' = .ok D' ∧ DEq D D' ∧
        GoMap.keys D = GoMap.keys D' := by
  induction ss with
  | nil =>
    intro acc acc' D hD h1 h2
    simp only [getDisclosureClaims, Except.ok.injEq] at hD
    subst hD
    exact ⟨acc', rfl, h1, h2⟩
  | cons s ss ih =>
    intro acc acc' D hD h1 h2
    simp only [getDisclosureClaims] at hD ⊢
    cases hg : getDisclosureClaim env alg s with
    | error e => rw [hg] at hD; cases hD
    | ok q =>
      obtain ⟨d, c⟩ := q
      rw [hg] at hD
      obtain ⟨c', hg', e1, e2, e3, e4⟩ := getDisclosureClaim_respects h hg
      rw [hg']
      refine ih _ _ _ hD ?_ ?_
      · intro x
        rw [GoMap.get?_set, GoMap.get?_set]
        by_cases hx : d = x
        · rw [if_pos hx, if_pos hx]; exact Or.inr ⟨c, c', rfl, rfl, e1, e2, e3, e4⟩
        · rw [if_neg hx, if_neg hx]; exact h1 x
      · rw [GoMap.keys_set, GoMap.keys_set, h2]

theorem getKeyFromVC_respects {m m' : JObj} (h : OEq m m') (k : String) :
    (getKeyFromVC k m = none ∧ getKeyFromVC k m' = none) ∨
    ∃ v v', getKeyFromVC k m = some v ∧ getKeyFromVC k m' = some v' ∧ JEq v v' := by
  unfold getKeyFromVC
  rcases JEq.get h k with ⟨a, b⟩ | ⟨v, v', a, b, c⟩
  · rw [a, b]
    rcases JEq.get h "vc" with ⟨a, b⟩ | ⟨v, v', a, b, c⟩
    · rw [a, b]; exact Or.inl ⟨rfl, rfl⟩
    · rw [a, b]
      have hs := c.shape
      cases v <;> cases v' <;> simp only at hs <;> try exact Or.inl ⟨rfl, rfl⟩
      exact JEq.get hs k
  · rw [a, b]; exact Or.inr ⟨v, v', rfl, rfl, c⟩

theorem getHashAlg_respects {env env' : Env} (he : EnvEq env env') {m m' : JObj} (h : OEq m m') :
    getHashAlg env m = getHashAlg env' m' := by
  unfold getHashAlg
  rw [he.upper]
  rcases getKeyFromVC_respects h "_sd_alg" with ⟨a, b⟩ | ⟨v, v', a, b, c⟩
  · rw [a, b]
  · rw [a, b]
    have hs := c.shape
    cases v <;> cases v' <;> simp only at hs <;> simp [hs]

theorem digOf_perm {cl : Bool} {D D' : DMap} (h : DEq D D') (d : String) :
    (digOf cl D d).Perm (digOf cl D' d) := by
  unfold digOf
  rcases h d with ⟨a, b⟩ | ⟨c, c', h1, h2, _, _, _, h3⟩
  · rw [a, b]
  · rw [h1, h2]; exact JE.digests_perm cl h3

theorem flatMap_perm {l : List String} {f g : String → List String} (h : ∀ x, (f x).Perm (g x)) :
    (l.flatMap f).Perm (l.flatMap g) := by
  induction l with
  | nil => exact List.Perm.refl _
  | cons a l ih => simp only [List.flatMap_cons]; exact List.Perm.append (h a) ih

theorem reach_respects {cl : Bool} {D D' : DMap} (h : DEq D D') {a a' : List String}
    (ha : a.Perm a') {d : String} (hr : Reach cl D a d) : Reach cl D' a' d := by
  induction hr with
  | root hd => exact .root (ha.mem_iff.mp hd)
  | @step d c d' _ h2 h3 h4 ih =>
    rcases h d with ⟨e, _⟩ | ⟨c1, c', e1, e2, _, _, e3, e4⟩
    · rw [h2] at e; cases e
    · rw [h2] at e1; cases e1
      exact .step ih e2 (e3 ▸ h3) ((JE.digests_perm cl e4).mem_iff.mp h4)

theorem verify_order_one {env env' : Env} (he : EnvWF env) (he' : EnvWF env') (hee : EnvEq env env')
    {ds : List String} {payload payload' : JObj} (hp : JWF (.obj payload))
    (hp' : JWF (.obj payload')) (hpp : OEq payload payload')
    (h : verifyDisclosures env ds payload = .ok ()) :
    verifyDisclosures env' ds payload' = .ok () := by
  rw [verify_iff_table he hp] at h
  rw [verify_iff_table he' hp']
  obtain ⟨alg, D, h1, h2, ⟨w, h3⟩, h4, h5⟩ := h
  obtain ⟨D', g1, g2, g3⟩ := getDisclosureClaims_respects hee ds [] [] D h2
    (fun _ => Or.inl ⟨rfl, rfl⟩) rfl
  obtain ⟨w', hw', _⟩ := resolves_respects g2 (JE.obj hpp) h3
  have hdig : (digests false (.obj payload)).Perm (digests false (.obj payload')) :=
    JE.digests_perm false (JE.obj hpp)
  refine ⟨alg, D', by rw [← getHashAlg_respects hee hpp]; exact h1, g1, ⟨w', hw'⟩, ?_, ?_⟩
  · intro d hd
    rw [← g3] at hd
    exact reach_respects g2 hdig (h4 d hd)
  · rw [← g3]
    exact (List.Perm.append hdig (flatMap_perm (digOf_perm g2))).nodup_iff.mp h5

/-- **C11** (verification): reordering the members of any objects, in the payload or in the
disclosures, never changes whether verification succeeds. -/
theorem verify_order_independent {env env' : Env} (he : EnvWF env) (he' : EnvWF env')
    (hee : EnvEq env env') {ds : List String} {payload payload' : JObj} (hp : JWF (.obj payload))
    (hp' : JWF (.obj payload')) (hpp : OEq payload payload') :
    verifyDisclosures env ds payload = .ok () ↔ verifyDisclosures env' ds payload' = .ok () :=
  ⟨verify_order_one he he' hee hp hp' hpp, verify_order_one he' he hee.symm hp' hp hpp.symm⟩

theorem disclosedClaims_facts {env : Env} {ds : List String} {payload out : JObj}
    {order : DMap → List String} (he : EnvWF env) (ho : ∀ D, ∀ d ∈ GoMap.keys D, d ∈ order D)
    (h : disclosedClaims env ds payload order = .ok out) :
    ∃ alg D, getHashAlg env payload = some alg ∧ getDisclosureClaims env alg ds [] = .ok D ∧
      Resolves true D (.obj payload) (.obj out) ∧
      (∀ d ∈ GoMap.keys D, ∃ w, Resolve true D (.disc d) (.val w)) ∧
      ((GoMap.keys D).flatMap (digOf true D)).Nodup ∧ (digests true (.obj payload)).Nodup := by
  obtain ⟨alg, D, h1, h2, h3, h4⟩ := disclosedClaims_core ho h
  have hall : (∃ st, setAll true (2 * weight D + 1) ⟨[], D⟩ (order D) = .ok st) ∧
      (digests true (.obj payload)).Nodup := by
    unfold disclosedClaims resolveDisclosureClaims at h
    rw [h1] at h
    simp only [h2] at h
    cases hs : setAll true (2 * weight D + 1) ⟨[], D⟩ (order D) with
    | error e => rw [hs] at h; cases h
    | ok st =>
      rw [hs] at h
      refine ⟨⟨st, rfl⟩, ?_⟩
      simp only [getDisclosedClaims, h1] at h
      split at h
      · cases h
      · next hd =>
        obtain ⟨_, _, N, _, _, _, n4, n5, _⟩ := disclose_sound _ _ _ _ _ hd Ext.refl (by simp)
        have := n4.nodup_iff.mp n5
        simp only [List.nil_append] at this
        exact (List.nodup_append.mp this).1
      · cases h
  have hiff := (setAll_iff (h3.dwf he) h3.wf h3.unparsed (ho D)).mp hall.1
  exact ⟨alg, D, h1, h2, h4, hiff.1, hiff.2, hall.2⟩

/-- **C11** (processing): reordering the members of any objects and processing the disclosures in
any order gives the same claims up to member order; in particular it succeeds in one order iff it
succeeds in every order. -/
theorem processing_order_independent {env env' : Env} (he : EnvWF env) (he' : EnvWF env')
    (hee : EnvEq env env') {ds : List String} {payload payload' : JObj}
    (hp' : JWF (.obj payload')) (hpp : OEq payload payload') {order order' : DMap → List String}
    (ho : ∀ D, ∀ d ∈ GoMap.keys D, d ∈ order D) (ho' : ∀ D, ∀ d ∈ GoMap.keys D, d ∈ order' D)
    {out : JObj} (h : disclosedClaims env ds payload order = .ok out) :
    ∃ out', disclosedClaims env' ds payload' order' = .ok out' ∧ OEq out out' := by
  obtain ⟨alg, D, h1, h2, h3, h4, h5, h6⟩ := disclosedClaims_facts he ho h
  obtain ⟨D', g1, g2, g3⟩ := getDisclosureClaims_respects hee ds [] [] D h2
    (fun _ => Or.inl ⟨rfl, rfl⟩) rfl
  obtain ⟨w', hw', hww⟩ := resolves_respects g2 (JE.obj hpp) h3
  have ha' : getHashAlg env' payload' = some alg := by
    rw [← getHashAlg_respects hee hpp]; exact h1
  obtain ⟨out', rfl, hout⟩ := disclosedClaims_ok_of he' hp' ho' ha' g1 (by
      intro d hd
      rw [← g3] at hd
      obtain ⟨w, hw⟩ := h4 d hd
      obtain ⟨o', i1, i2⟩ := respects_table g2 hw
      cases o' with
      | val w' => exact ⟨w', i1⟩
      | list _ => exact i2.elim
      | fields _ => exact i2.elim
      | sds _ _ => exact i2.elim)
    (by rw [← g3]; exact (flatMap_perm (digOf_perm g2)).nodup_iff.mp h5)
    ((JE.digests_perm true (JE.obj hpp)).nodup_iff.mp h6) hw'
  exact ⟨out', hout, hww.shape⟩

/-- Non-vacuity: the toy environment and two orders of the same payload. -/
example : EnvEq exEnv exEnv ∧ OEq exPayload exPayload.reverse ∧ JWF (.obj exPayload) ∧
    JWF (.obj exPayload.reverse) ∧
    verifyDisclosures exEnv ["E", "A", "B", "C"] exPayload.reverse = .ok () := by
  refine ⟨⟨rfl, rfl, ?_⟩, ?_, ?_, ?_, by rfl⟩
  · intro s
    cases h : exEnv.decode s with
    | none => exact Or.inl ⟨rfl, rfl⟩
    | some l => exact Or.inr ⟨l, l, rfl, rfl, forall₂_refl l⟩
  · exact OEq.of_perm (List.reverse_perm _).symm (by decide)
  · simp [exPayload, JWF, JWFObj, JWFArr, GoMap.keys]
  · simp [exPayload, JWF, JWFObj, JWFArr, GoMap.keys]

theorem exEnv_wf : EnvWF exEnv := by
  intro s arr h
  simp only [exEnv] at h
  repeat' split at h
  all_goals first | (cases h; done) | (cases h; simp [JWFArr, JWF, JWFObj, GoMap.keys])

end VC.SDJWT
