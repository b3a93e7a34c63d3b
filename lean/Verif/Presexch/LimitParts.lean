import Verif.Presexch.Limit
import Verif.Presexch.Merge
import Batteries.Data.List.Basic
/-!
# presexch: reading and writing along dotted paths
-/

namespace VC.PE

open GoMap

/-! ## Components -/

theorem compIdx_toString (n : Nat) : compIdx (toString n) = some n := by
  have hd := digits_toString n
  have hne : (toString n).toList ≠ [] := by
    rw [Nat.toString_eq_repr, Nat.toList_repr]; exact Nat.toDigits_ne_nil
  unfold compIdx parseUDigits
  rw [if_neg (by simpa using hne), digitsVal_eq _ _ hd, Nat.toString_eq_repr, Nat.toList_repr,
    Nat.ofDigitChars_ten_toDigits]

theorem digitsVal_none : ∀ (l : List Char) (acc : Nat), ¬ (∀ c ∈ l, '0' ≤ c ∧ c ≤ '9') →
    digitsVal l acc = none
  | [], _, h => absurd (fun c hc => by simp at hc) h
  | c :: cs, acc, h => by
    unfold digitsVal
    by_cases hc : '0' ≤ c ∧ c ≤ '9'
    · rw [if_pos hc]
      apply digitsVal_none
      intro hall
      apply h
      intro x hx
      rcases List.mem_cons.mp hx with rfl | hx
      · exact hc
      · exact hall x hx
    · rw [if_neg hc]

theorem compIdx_plain {k : String} (h : Step.Plain (.name k)) : compIdx k = none := by
  unfold compIdx parseUDigits
  split
  · rfl
  · exact digitsVal_none _ _ h.2.2

theorem noDot_toString (n : Nat) : NoChar '.' (toString n) := by
  intro h
  exact absurd (digits_toString n '.' h) (by decide)

theorem toString_inj {n m : Nat} (h : toString n = toString m) : n = m := by
  have := congrArg compIdx h
  rw [compIdx_toString, compIdx_toString] at this
  exact Option.some.inj this

theorem toString_ne_empty (n : Nat) : toString n ≠ "" := by
  intro h
  have := compIdx_toString n
  rw [h] at this
  exact absurd this (by simp [compIdx, parseUDigits])

/-! ## Places -/

theorem gat_append : ∀ (p q : List Step) (j : Json), gat j (p ++ q) = (gat j p).bind (fun x => gat x q)
  | [], q, j => by cases j <;> rfl
  | s :: p, q, j => by
    cases j <;> cases s <;> simp only [List.cons_append, gat, Option.bind_none]
    case arr.idx l n =>
      cases h : l[n]? with
      | none => simp
      | some x => simp [gat_append p q x]
    case obj.name o k =>
      cases h : get? o k with
      | none => simp
      | some x => simp [gat_append p q x]

@[simp] theorem gat_nil (j : Json) : gat j [] = some j := by cases j <;> rfl

/-- Two places of a document that are written alike are the same place. -/
theorem text_inj : ∀ (p q : List Step) (j : Json), (gat j p).isSome → (gat j q).isSome →
    p.map Step.text = q.map Step.text → p = q
  | [], [], _, _, _, _ => rfl
  | [], _ :: _, _, _, _, h => by simp at h
  | _ :: _, [], _, _, _, h => by simp at h
  | a :: p, b :: q, j, hp, hq, h => by
    simp only [List.map_cons, List.cons.injEq] at h
    obtain ⟨h1, h2⟩ := h
    cases j <;> cases a <;> cases b <;> simp only [gat, Option.isSome_none, Bool.false_eq_true] at hp hq
    case arr.idx.idx l n m =>
      have := toString_inj h1
      subst this
      cases hl : l[n]? with
      | none => rw [hl] at hp; simp at hp
      | some x =>
        rw [hl] at hp hq
        rw [text_inj p q x hp hq h2]
    case obj.name.name o k k' =>
      have : k = k' := h1
      subst this
      cases hl : get? o k with
      | none => rw [hl] at hp; simp at hp
      | some x =>
        rw [hl] at hp hq
        rw [text_inj p q x hp hq h2]

/-- `gjson` finds the value at a place of the document. -/
theorem ggetC_gat : ∀ (p : List Step) (j x : Json), gat j p = some x →
    ggetC j (p.map Step.text) = some x
  | [], j, x, h => by
    have : j = x := by cases j <;> simpa [gat] using h
    subst this
    cases j <;> rfl
  | s :: p, j, x, h => by
    cases j <;> cases s <;> simp only [gat, reduceCtorEq] at h
    case arr.idx l n =>
      obtain ⟨y, hy, h⟩ := Option.bind_eq_some_iff.mp h
      simp only [List.map_cons, Step.text, ggetC, child, compIdx_toString, Option.bind_some, hy]
      exact ggetC_gat p y x h
    case obj.name o k =>
      obtain ⟨y, hy, h⟩ := Option.bind_eq_some_iff.mp h
      simp only [List.map_cons, Step.text, ggetC, child, Option.bind_some, hy]
      exact ggetC_gat p y x h

/-- Dotted text of a place. -/
def NoDots (p : List Step) : Prop := ∀ s ∈ p, NoChar '.' s.text

theorem noDots_map {p : List Step} (h : NoDots p) : ∀ c ∈ p.map Step.text, NoChar '.' c := by
  intro c hc
  obtain ⟨s, hs, rfl⟩ := List.mem_map.mp hc
  exact h s hs

theorem noDots_of_plain {p : List Step} (h : ∀ s ∈ p, s.Plain) : NoDots p := by
  intro s hs
  cases s with
  | name k => exact (h _ hs).2.1
  | idx n => exact noDot_toString n

theorem gget_gat {p : List Step} (hne : p ≠ []) (h : NoDots p) {j x : Json} (hx : gat j p = some x) :
    gget j (joinC '.' (p.map Step.text)) = some x := by
  unfold gget
  rw [split_joinC '.' _ (by simpa using hne) (noDots_map h)]
  exact ggetC_gat p j x hx

theorem joinC_inj {l l' : List String} (hl : l ≠ []) (hl' : l' ≠ []) (h : ∀ s ∈ l, NoChar '.' s)
    (h' : ∀ s ∈ l', NoChar '.' s) (e : joinC '.' l = joinC '.' l') : l = l' := by
  rw [← split_joinC '.' l hl h, ← split_joinC '.' l' hl' h', e]

/-! ## Where the values of a written document come from -/

/-- The component addresses the step. -/
def Addr (s : Step) (c : String) : Prop :=
  (∃ k, s = .name k ∧ k = c) ∨ (∃ n, s = .idx n ∧ compIdx c = some n)

theorem build_prov (v : Json) : ∀ (cs : List String) (q : List Step) (w : Json),
    gat (build v cs) q = some w → Leaf w →
    w = .null ∨ ∃ q1 r, q = q1 ++ r ∧ List.Forall₂ Addr q1 cs ∧ gat v r = some w
  | [], q, w, h, _ => .inr ⟨[], q, rfl, .nil, h⟩
  | c :: cs, q, w, h, hl => by
    rw [build] at h
    cases hi : compIdx c with
    | none =>
      rw [hi] at h
      dsimp only at h
      cases q with
      | nil => rw [gat_nil] at h; cases h; cases hl
      | cons s q =>
        cases s with
        | idx n => simp [gat] at h
        | name k =>
          simp only [gat, get?_cons, get?_nil] at h
          by_cases e : c = k
          · subst e
            simp only [if_true, Option.bind_some] at h
            rcases build_prov v cs q w h hl with h | ⟨q1, r, rfl, hf, hv⟩
            · exact .inl h
            · exact .inr ⟨.name c :: q1, r, rfl, .cons (.inl ⟨c, rfl, rfl⟩) hf, hv⟩
          · simp [e] at h
    | some n =>
      rw [hi] at h
      dsimp only at h
      cases q with
      | nil => 
        rw [gat_nil] at h
        have := Option.some.inj h
        subst this
        generalize e : List.replicate n Json.null ++ [build v cs] = l at hl
        cases hl
        simp at e
      | cons s q =>
        cases s with
        | name k => simp [gat] at h
        | idx m =>
          simp only [gat] at h
          obtain ⟨x, hx, h⟩ := Option.bind_eq_some_iff.mp h
          by_cases hm : m < n
          · rw [List.getElem?_append_left (by simpa using hm)] at hx
            simp [hm] at hx
            subst hx
            cases q with
            | nil => rw [gat_nil] at h; cases h; exact .inl rfl
            | cons s q => simp [gat] at h
          · rw [List.getElem?_append_right (by simpa using hm)] at hx
            simp only [List.length_replicate] at hx
            have : m = n := by
              by_contra hne
              have h2 : ¬ (m - n = 0) := by omega
              rw [List.getElem?_singleton] at hx
              simp [h2] at hx
            subst this
            simp at hx
            subst hx
            rcases build_prov v cs q w h hl with h | ⟨q1, r, rfl, hf, hv⟩
            · exact .inl h
            · exact .inr ⟨.idx m :: q1, r, rfl, .cons (.inr ⟨m, rfl, hi⟩) hf, hv⟩

/-- Every value without parts in a document after `sjson.Set` was there before at the same place, or
pads an array, or is part of the value that was written. -/
theorem ssetC_prov (v : Json) : ∀ (cs : List String) (j j' : Json), ssetC v cs j = some j' →
    ∀ (q : List Step) (w : Json), gat j' q = some w → Leaf w →
    gat j q = some w ∨ w = .null ∨ ∃ q1 r, q = q1 ++ r ∧ List.Forall₂ Addr q1 cs ∧ gat v r = some w
  | [], j, j', h, q, w, hq, _ => by
    have : v = j' := by cases j <;> simpa [ssetC] using h
    subst this
    exact .inr (.inr ⟨[], q, rfl, .nil, hq⟩)
  | c :: cs, j, j', h, q, w, hq, hl => by
    have scalar : some (build v (c :: cs)) = some j' → gat j q = some w ∨ w = .null ∨
        ∃ q1 r, q = q1 ++ r ∧ List.Forall₂ Addr q1 (c :: cs) ∧ gat v r = some w := by
      intro h
      have := Option.some.inj h
      subst this
      exact .inr (build_prov v (c :: cs) q w hq hl)
    cases j with
    | null => exact scalar h
    | bool b => exact scalar h
    | num n => exact scalar h
    | str s => exact scalar h
    | obj o =>
      rw [ssetC] at h
      cases q with
      | nil =>
        exfalso
        rw [gat_nil] at hq
        have e := Option.some.inj hq
        subst e
        have hne : ∀ (o : JObj) (y : Json), ¬ Leaf (.obj (set o c y)) := by
          intro o y hl
          generalize e : set o c y = o' at hl
          cases hl
          have := get?_set_self o c y
          rw [e] at this
          simp at this
        cases hg : get? o c with
        | none => rw [hg] at h; cases h; exact hne _ _ hl
        | some x =>
          rw [hg] at h
          obtain ⟨y, _, rfl⟩ := Option.map_eq_some_iff.mp h
          exact hne _ _ hl
      | cons s q =>
        cases hg : get? o c with
        | none =>
          rw [hg] at h
          cases h
          cases s with
          | idx n => simp [gat] at hq
          | name k =>
            simp only [gat] at hq ⊢
            by_cases e : c = k
            · subst e
              rw [get?_set_self, Option.bind_some] at hq
              rcases build_prov v cs q w hq hl with h | ⟨q1, r, rfl, hf, hv⟩
              · exact .inr (.inl h)
              · exact .inr (.inr ⟨.name c :: q1, r, rfl, .cons (.inl ⟨c, rfl, rfl⟩) hf, hv⟩)
            · rw [get?_set_ne _ _ e] at hq
              exact .inl hq
        | some x =>
          rw [hg] at h
          obtain ⟨y, hy, rfl⟩ := Option.map_eq_some_iff.mp h
          cases s with
          | idx n => simp [gat] at hq
          | name k =>
            simp only [gat] at hq ⊢
            by_cases e : c = k
            · subst e
              rw [get?_set_self, Option.bind_some] at hq
              rcases ssetC_prov v cs x y hy q w hq hl with h | h | ⟨q1, r, rfl, hf, hv⟩
              · left; rw [hg]; exact h
              · exact .inr (.inl h)
              · exact .inr (.inr ⟨.name c :: q1, r, rfl, .cons (.inl ⟨c, rfl, rfl⟩) hf, hv⟩)
            · rw [get?_set_ne _ _ e] at hq
              exact .inl hq
    | arr l =>
      rw [ssetC] at h
      cases hi : compIdx c with
      | none => rw [hi] at h; cases h
      | some n =>
        rw [hi] at h
        dsimp only at h
        cases q with
        | nil =>
          exfalso
          rw [gat_nil] at hq
          have e := Option.some.inj hq
          subst e
          cases hg : l[n]? with
          | none =>
            rw [hg] at h
            dsimp only at h
            have h' := Option.some.inj h
            rw [← h'] at hl
            generalize e : l ++ (List.replicate (n - l.length) Json.null ++ [build v cs]) = l' at hl
            cases hl
            simp at e
          | some x =>
            rw [hg] at h
            obtain ⟨y, _, rfl⟩ := Option.map_eq_some_iff.mp h
            have : n < l.length := (List.getElem?_eq_some_iff.mp hg).1
            generalize e : l.set n y = l' at hl
            cases hl
            have := congrArg List.length e
            simp at this
            subst this
            simp at hg
        | cons s q =>
          cases s with
          | name k =>
            exfalso
            cases hg : l[n]? with
            | none => rw [hg] at h; cases h; simp [gat] at hq
            | some x =>
              rw [hg] at h
              obtain ⟨y, _, rfl⟩ := Option.map_eq_some_iff.mp h
              simp [gat] at hq
          | idx m =>
            cases hg : l[n]? with
            | none =>
              rw [hg] at h
              cases h
              simp only [gat] at hq ⊢
              have hn : l.length ≤ n := by simpa using hg
              obtain ⟨x, hx, hq⟩ := Option.bind_eq_some_iff.mp hq
              by_cases h1 : m < l.length
              · rw [List.getElem?_append_left h1] at hx
                left; rw [hx]; exact hq
              · rw [List.getElem?_append_right (by omega)] at hx
                by_cases h2 : m < n
                · rw [List.getElem?_append_left (by simp; omega)] at hx
                  rw [List.getElem?_replicate, if_pos (by omega)] at hx
                  cases hx
                  cases q with
                  | nil => rw [gat_nil] at hq; cases hq; exact .inr (.inl rfl)
                  | cons s q => simp [gat] at hq
                · rw [List.getElem?_append_right (by simp; omega)] at hx
                  simp only [List.length_replicate] at hx
                  have : m = n := by
                    by_contra hne
                    have h2 : ¬ (m - l.length - (n - l.length) = 0) := by omega
                    rw [List.getElem?_singleton] at hx
                    simp [h2] at hx
                  subst this
                  simp at hx
                  subst hx
                  rcases build_prov v cs q w hq hl with h | ⟨q1, r, rfl, hf, hv⟩
                  · exact .inr (.inl h)
                  · exact .inr (.inr ⟨.idx m :: q1, r, rfl, .cons (.inr ⟨m, rfl, hi⟩) hf, hv⟩)
            | some x =>
              rw [hg] at h
              obtain ⟨y, hy, rfl⟩ := Option.map_eq_some_iff.mp h
              simp only [gat] at hq ⊢
              by_cases e : n = m
              · subst e
                have hlt : n < l.length := (List.getElem?_eq_some_iff.mp hg).1
                rw [List.getElem?_set_self hlt, Option.bind_some] at hq
                rcases ssetC_prov v cs x y hy q w hq hl with h | h | ⟨q1, r, rfl, hf, hv⟩
                · left; rw [hg]; exact h
                · exact .inr (.inl h)
                · exact .inr (.inr ⟨.idx n :: q1, r, rfl, .cons (.inr ⟨n, rfl, hi⟩) hf, hv⟩)
              · rw [List.getElem?_set_ne e] at hq
                exact .inl hq

end VC.PE
