import Verif.SDJWT.DiscloseSound
/-!
# Resolving disclosures: termination and fuel independence (helper lemmas)
-/

namespace VC.SDJWT
open List

variable {cl : Bool} {D : DMap}

/-- Remaining work: disclosures whose digest has not been met. -/
def potential (D : DMap) (seen : List String) : Nat :=
  ((D.filter (fun p => !seen.contains p.1)).map (fun p => Json.depth p.2.value + 1)).sum

theorem potential_mono (D : DMap) {s s' : List String} (h : ∀ x ∈ s, x ∈ s') :
    potential D s' ≤ potential D s := by
  unfold potential
  induction D with
  | nil => simp
  | cons p D ih =>
    simp only [List.filter_cons]
    by_cases h1 : p.1 ∈ s
    · have h2 := h _ h1
      simp only [List.contains_iff_mem.mpr h1, List.contains_iff_mem.mpr h2, Bool.not_true,
        Bool.false_eq_true, if_false]
      exact ih
    · by_cases h2 : p.1 ∈ s'
      · simp only [List.contains_iff_mem.mpr h2, Bool.not_true, Bool.false_eq_true, if_false,
          (by simpa using h1 : s.contains p.1 = false), Bool.not_false, if_true, List.map_cons,
          List.sum_cons]
        omega
      · simp only [(by simpa using h2 : s'.contains p.1 = false),
          (by simpa using h1 : s.contains p.1 = false), Bool.not_false, if_true, List.map_cons,
          List.sum_cons]
        omega

theorem potential_jump (D : DMap) {s : List String} {d : String} {c : Disc} (hd : d ∉ s)
    (hm : (d, c) ∈ D) : potential D (s ++ [d]) + (Json.depth c.value + 1) ≤ potential D s := by
  induction D with
  | nil => cases hm
  | cons p D ih =>
    have hmono := potential_mono D (s := s) (s' := s ++ [d]) (by intro x hx; simp [hx])
    have hcons : ∀ t : List String, potential (p :: D) t =
        (if p.1 ∈ t then 0 else Json.depth p.2.value + 1) + potential D t := by
      intro t
      unfold potential
      by_cases h : p.1 ∈ t
      · simp only [List.filter_cons, List.contains_iff_mem.mpr h, Bool.not_true, Bool.false_eq_true,
          if_false, h, if_true]; omega
      · simp only [List.filter_cons, (by simpa using h : t.contains p.1 = false), Bool.not_false,
          if_true, h, if_false, List.map_cons, List.sum_cons]
    rw [hcons, hcons]
    rcases List.mem_cons.mp hm with e | hm
    · rw [← e]
      simp only [List.mem_append, List.mem_singleton, or_true, if_true, hd, if_false]
      omega
    · have := ih hm
      by_cases h1 : p.1 ∈ s
      · have h2 : p.1 ∈ s ++ [d] := by simp [h1]
        simp only [h1, h2, if_true]; omega
      · by_cases h2 : p.1 ∈ s ++ [d]
        · simp only [h1, h2, if_true, if_false]; omega
        · simp only [h1, h2, if_false]; omega

theorem potential_nil (D : DMap) : potential D [] = weight D := by
  unfold potential
  induction D with
  | nil => rfl
  | cons p D ih => simp only [List.contains_nil, Bool.not_false, List.filter_true] at ih ⊢
                   simp only [List.map_cons, List.sum_cons, ih]; rfl

/-- The recursive call does not run out of fuel as long as depth + remaining work is below `n`. -/
def RecTerm (cl : Bool) (D : DMap) (n : Nat) (rec : St → Json → Except Err (Json × St)) : Prop :=
  ∀ st v, Ext cl D st → st.seen.Nodup → Json.depth v + potential D st.seen < n →
    rec st v ≠ .error .fuel

theorem Step.seen_sub {st st' : St} {a : List String} (h : Step cl D st a st') :
    ∀ x ∈ st.seen, x ∈ st'.seen := by
  obtain ⟨N, _, _, _, h4, _⟩ := h
  intro x hx
  exact h4.mem_iff.mpr (List.mem_append_left _ hx)

theorem Step.nodup {st st' : St} {a : List String} (h : Step cl D st a st') : st'.seen.Nodup := by
  obtain ⟨N, _, _, _, _, h5, _⟩ := h; exact h5

theorem nodup_snoc {s : List String} {d : String} (h : s.Nodup) (hd : d ∉ s) : (s ++ [d]).Nodup := by
  rw [List.nodup_append]
  refine ⟨h, by simp, ?_⟩
  intro x hx y hy e
  simp at hy; subst hy; subst e; exact hd hx

theorem setValue_term {rec : St → Json → Except Err (Json × St)} {n : Nat} (hrec : RecTerm cl D n rec)
    {st : St} {d : String} {c : Disc} (hd : d ∉ st.seen) (hc : GoMap.get? st.ds d = some c)
    (hE : Ext cl D st) (hN : st.seen.Nodup) (hb : potential D st.seen ≤ n) :
    setValue rec { st with seen := st.seen ++ [d] } d c ≠ .error .fuel := by
  unfold setValue
  cases hp : c.parsed with
  | true => simp
  | false =>
    simp only [Bool.false_eq_true, if_false]
    have hj := potential_jump D hd (GoMap.mem_of_get? (hE.unparsed hc hp))
    have := hrec { st with seen := st.seen ++ [d] } c.value (hE.seen _) (nodup_snoc hN hd)
      (by simp only; omega)
    cases hr : rec { st with seen := st.seen ++ [d] } c.value with
    | error e => rw [hr] at this; simpa using this
    | ok q => simp

theorem arrLoop_term {rec : St → Json → Except Err (Json × St)} {n : Nat} (hok : RecOK cl D rec)
    (hrec : RecTerm cl D n rec) (l : List Json) : ∀ st, Ext cl D st → st.seen.Nodup →
      potential D st.seen ≤ n → arrLoop rec cl st l ≠ .error .fuel := by
  induction l with
  | nil => intro st _ _ _; simp [arrLoop]
  | cons v vs ih =>
    intro st hE hN hb
    have keep : ∀ st1 : St, Ext cl D st1 → st1.seen.Nodup → potential D st1.seen ≤ n →
        (match arrLoop rec cl st1 vs with
          | .error e => .error e
          | .ok (out, st') => .ok (v :: out, st')) ≠ Except.error Err.fuel := by
      intro st1 h1 h2 h3
      have := ih st1 h1 h2 h3
      cases ha : arrLoop rec cl st1 vs with
      | error e => rw [ha] at this; simpa using this
      | ok q => simp
    have hmono : ∀ d, potential D (st.seen ++ [d]) ≤ n := fun d =>
      Nat.le_trans (potential_mono D (by intro x hx; simp [hx])) hb
    cases v with
    | obj m =>
      simp only [arrLoop]
      cases hg : GoMap.get? m "..." with
      | none => exact keep st hE hN hb
      | some pv =>
        cases pv with
        | str d =>
          simp only
          by_cases hseen : d ∈ st.seen
          · rw [if_pos (by simpa using hseen)]; simp
          rw [if_neg (by simpa using hseen)]
          cases hd : GoMap.get? st.ds d with
          | none =>
            simp only
            split
            · exact ih _ (hE.seen _) (nodup_snoc hN hseen) (hmono d)
            · exact keep _ (hE.seen _) (nodup_snoc hN hseen) (hmono d)
          | some c =>
            simp only
            split
            · simp
            · have hs := setValue_term hrec hseen hd hE hN hb
              cases hsv : setValue rec { st with seen := st.seen ++ [d] } d c with
              | error e => rw [hsv] at hs; simpa using hs
              | ok r =>
                obtain ⟨w, st2⟩ := r
                obtain ⟨g1, g2, g3, _⟩ := setValue_step hok hseen hd hsv hE hN
                have := ih st2 g2 g3.nodup (Nat.le_trans (potential_mono D g3.seen_sub) hb)
                simp only
                cases ha : arrLoop rec cl st2 vs with
                | error e => rw [ha] at this; simpa using this
                | ok q => simp
        | null => simp
        | bool b => simp
        | num q => simp
        | arr l => simp
        | obj o => simp
    | null => simp only [arrLoop]; exact keep st hE hN hb
    | bool b => simp only [arrLoop]; exact keep st hE hN hb
    | num q => simp only [arrLoop]; exact keep st hE hN hb
    | str s => simp only [arrLoop]; exact keep st hE hN hb
    | arr l => simp only [arrLoop]; exact keep st hE hN hb

theorem sdLoop_term {rec : St → Json → Except Err (Json × St)} {n : Nat} (hok : RecOK cl D rec)
    (hrec : RecTerm cl D n rec) (dl : List String) : ∀ st nv miss, Ext cl D st → st.seen.Nodup →
      potential D st.seen ≤ n → sdLoop rec st nv miss dl ≠ .error .fuel := by
  induction dl with
  | nil => intro st nv miss _ _ _; simp [sdLoop]
  | cons d dl ih =>
    intro st nv miss hE hN hb
    simp only [sdLoop]
    by_cases hseen : d ∈ st.seen
    · rw [if_pos (by simpa using hseen)]; simp
    rw [if_neg (by simpa using hseen)]
    have hmono : potential D (st.seen ++ [d]) ≤ n :=
      Nat.le_trans (potential_mono D (by intro x hx; simp [hx])) hb
    cases hd : GoMap.get? st.ds d with
    | none => simp only; exact ih _ _ _ (hE.seen _) (nodup_snoc hN hseen) hmono
    | some c =>
      simp only
      split
      · simp
      · have hs := setValue_term hrec hseen hd hE hN hb
        cases hsv : setValue rec { st with seen := st.seen ++ [d] } d c with
        | error e => rw [hsv] at hs; simpa using hs
        | ok r =>
          obtain ⟨w, st2⟩ := r
          obtain ⟨g1, g2, g3, _⟩ := setValue_step hok hseen hd hsv hE hN
          simp only
          split
          · simp
          · exact ih st2 _ _ g2 g3.nodup (Nat.le_trans (potential_mono D g3.seen_sub) hb)

theorem fieldLoop_term {rec : St → Json → Except Err (Json × St)} {n : Nat} (hok : RecOK cl D rec)
    (hrec : RecTerm cl D n rec) (m : JObj) : ∀ st nv, Ext cl D st → st.seen.Nodup →
      depthObj m + potential D st.seen < n → fieldLoop rec cl st nv m ≠ .error .fuel := by
  induction m with
  | nil => intro st nv _ _ _; simp [fieldLoop]
  | cons p m ih =>
    obtain ⟨k, v⟩ := p
    intro st nv hE hN hb
    have hb1 : Json.depth v + potential D st.seen < n := by simp only [depthObj] at hb; omega
    have hb2 : depthObj m + potential D st.seen < n := by simp only [depthObj] at hb; omega
    simp only [fieldLoop]
    split
    · exact ih st nv hE hN hb2
    · have hs := hrec st v hE hN hb1
      cases hr : rec st v with
      | error e => rw [hr] at hs; simpa using hs
      | ok q =>
        obtain ⟨w, st1⟩ := q
        obtain ⟨g1, g2, g3⟩ := hok _ _ _ _ hr hE hN
        have hb3 : depthObj m + potential D st1.seen < n := by
          have := potential_mono D g3.seen_sub; omega
        simp only
        split
        · simp
        · split
          · exact ih _ _ g2 g3.nodup hb3
          · exact ih _ _ g2 g3.nodup hb3

theorem disclose_term (n : Nat) : RecTerm cl D n (disclose cl n) := by
  induction n with
  | zero => intro st v _ _ h; omega
  | succ n ih =>
    intro st v hE hN hb
    have hok := @disclose_sound cl D n
    cases v with
    | arr l =>
      simp only [disclose]
      have := arrLoop_term hok ih l st hE hN (by simp only [Json.depth] at hb; omega)
      cases ha : arrLoop (disclose cl n) cl st l with
      | error e => rw [ha] at this; simpa using this
      | ok q => simp
    | obj m =>
      simp only [disclose, objCase]
      simp only [Json.depth] at hb
      cases hg : GoMap.get? m "_sd" with
      | none =>
        simp only
        have := fieldLoop_term hok ih m st [] hE hN (by omega)
        cases hf : fieldLoop (disclose cl n) cl st [] m with
        | error e => rw [hf] at this; simpa using this
        | ok q => simp
      | some sdv =>
        simp only
        cases ha : stringArray sdv with
        | none => simp
        | some dl =>
          simp only
          have := sdLoop_term hok ih dl st [] [] hE hN (by omega)
          cases hl : sdLoop (disclose cl n) st [] [] dl with
          | error e => rw [hl] at this; simpa using this
          | ok q =>
            obtain ⟨nv, miss, s1⟩ := q
            obtain ⟨_, _, _, _, _, _, _, g6, g7⟩ := sdLoop_sound hok dl _ _ _ _ _ _ hl hE hN
            simp only
            have := fieldLoop_term hok ih m s1 (if (!cl && !miss.isEmpty) = true then
              GoMap.set nv "_sd" (.arr (miss.map .str)) else nv) g6 g7.nodup
              (by have := potential_mono D g7.seen_sub; omega)
            cases hf : fieldLoop (disclose cl n) cl s1 (if (!cl && !miss.isEmpty) = true then
              GoMap.set nv "_sd" (.arr (miss.map .str)) else nv) m with
            | error e => rw [hf] at this; simpa using this
            | ok q => simp
    | null => simp [disclose]
    | bool b => simp [disclose]
    | num q => simp [disclose]
    | str s => simp [disclose]

/-! ## More fuel changes nothing -/

/-- `r'` continues `r`: it is the same unless `r` ran out of fuel. -/
def Le (r r' : Except Err α) : Prop := r = .error .fuel ∨ r = r'

theorem Le.rfl' {r : Except Err α} : Le r r := Or.inr rfl

theorem setValue_le {f g : St → Json → Except Err (Json × St)} (h : ∀ st v, Le (f st v) (g st v))
    (st : St) (d : String) (c : Disc) : Le (setValue f st d c) (setValue g st d c) := by
  unfold setValue
  split
  · exact Le.rfl'
  · rcases h st c.value with e | e
    · left; rw [e]
    · right; rw [e]

theorem arrLoop_le {f g : St → Json → Except Err (Json × St)} (h : ∀ st v, Le (f st v) (g st v))
    (l : List Json) : ∀ st, Le (arrLoop f cl st l) (arrLoop g cl st l) := by
  induction l with
  | nil => intro st; exact Le.rfl'
  | cons v vs ih =>
    intro st
    have keep : ∀ st1, Le (match arrLoop f cl st1 vs with
          | .error e => .error e
          | .ok (out, st') => Except.ok (v :: out, st'))
        (match arrLoop g cl st1 vs with
          | .error e => .error e
          | .ok (out, st') => .ok (v :: out, st')) := by
      intro st1
      rcases ih st1 with e | e
      · left; rw [e]
      · right; rw [e]
    cases v with
    | obj m =>
      simp only [arrLoop]
      cases hg : GoMap.get? m "..." with
      | none => exact keep st
      | some pv =>
        cases pv with
        | str d =>
          simp only
          split
          · exact Le.rfl'
          · split
            · split
              · exact ih _
              · exact keep _
            · next c _ =>
              split
              · exact Le.rfl'
              · rcases setValue_le h { st with seen := st.seen ++ [d] } d c with e | e
                · left; rw [e]
                · rw [e]
                  split
                  · exact Le.rfl'
                  · next w st2 _ =>
                    rcases ih st2 with e | e
                    · left; rw [e]
                    · right; rw [e]
        | null => exact Le.rfl'
        | bool b => exact Le.rfl'
        | num q => exact Le.rfl'
        | arr l => exact Le.rfl'
        | obj o => exact Le.rfl'
    | null => simp only [arrLoop]; exact keep st
    | bool b => simp only [arrLoop]; exact keep st
    | num q => simp only [arrLoop]; exact keep st
    | str s => simp only [arrLoop]; exact keep st
    | arr l => simp only [arrLoop]; exact keep st

theorem sdLoop_le {f g : St → Json → Except Err (Json × St)} (h : ∀ st v, Le (f st v) (g st v))
    (dl : List String) : ∀ st nv miss, Le (sdLoop f st nv miss dl) (sdLoop g st nv miss dl) := by
  induction dl with
  | nil => intro st nv miss; exact Le.rfl'
  | cons d dl ih =>
    intro st nv miss
    simp only [sdLoop]
    split
    · exact Le.rfl'
    · split
      · exact ih _ _ _
      · next c _ =>
        split
        · exact Le.rfl'
        · rcases setValue_le h { st with seen := st.seen ++ [d] } d c with e | e
          · left; rw [e]
          · rw [e]
            split
            · exact Le.rfl'
            · split
              · exact Le.rfl'
              · exact ih _ _ _

theorem fieldLoop_le {f g : St → Json → Except Err (Json × St)} (h : ∀ st v, Le (f st v) (g st v))
    (m : JObj) : ∀ st nv, Le (fieldLoop f cl st nv m) (fieldLoop g cl st nv m) := by
  induction m with
  | nil => intro st nv; exact Le.rfl'
  | cons p m ih =>
    obtain ⟨k, v⟩ := p
    intro st nv
    simp only [fieldLoop]
    split
    · exact ih _ _
    · rcases h st v with e | e
      · left; rw [e]
      · rw [e]
        split
        · exact Le.rfl'
        · split
          · exact Le.rfl'
          · split
            · exact ih _ _
            · exact ih _ _

theorem objCase_le {f g : St → Json → Except Err (Json × St)} (h : ∀ st v, Le (f st v) (g st v))
    (m : JObj) (st : St) : Le (objCase f cl st m) (objCase g cl st m) := by
  simp only [objCase]
  cases hg : GoMap.get? m "_sd" with
  | none =>
    simp only
    rcases fieldLoop_le (cl := cl) h m st [] with e | e
    · left; rw [e]
    · right; rw [e]
  | some sdv =>
    simp only
    cases ha : stringArray sdv with
    | none => exact Le.rfl'
    | some dl =>
      simp only
      rcases sdLoop_le h dl st [] [] with e | e
      · left; rw [e]
      · rw [e]
        split
        · exact Le.rfl'
        · next nv st1 _ =>
          rcases fieldLoop_le (cl := cl) h m st1 nv with e | e
          · left; rw [e]
          · right; rw [e]

theorem disclose_le (n : Nat) : ∀ st v, Le (disclose cl n st v) (disclose cl (n + 1) st v) := by
  induction n with
  | zero => intro st v; left; rfl
  | succ n ih =>
    intro st v
    cases v with
    | arr l =>
      rw [show disclose cl (n + 1) st (.arr l) = _ from rfl,
        show disclose cl (n + 1 + 1) st (.arr l) = _ from rfl, disclose, disclose]
      rcases arrLoop_le (cl := cl) ih l st with e | e
      · left; rw [e]
      · right; rw [e]
    | obj m => exact objCase_le ih m st
    | null => exact Le.rfl'
    | bool b => exact Le.rfl'
    | num q => exact Le.rfl'
    | str s => exact Le.rfl'

theorem disclose_mono {n m : Nat} (h : n ≤ m) {st : St} {v : Json}
    (hn : disclose cl n st v ≠ .error .fuel) : disclose cl m st v = disclose cl n st v := by
  induction h with
  | refl => rfl
  | @step m _ ih =>
    rcases disclose_le (cl := cl) m st v with e | e
    · rw [ih] at e; exact absurd e hn
    · rw [← e, ih]

end VC.SDJWT
