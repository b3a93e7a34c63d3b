import Verif.BBS.Spec
import Verif.Verifiable.ParseProps
import Mathlib.Data.List.Basic
/-!
# BBS+ selective disclosure: what is revealed
-/

namespace VC.BBS

open GoMap
open VC.BBS.Spec
open VC.Proof (Bytes)

variable (env : BEnv)

/-! ## Statements -/

theorem splitLines_spec (text : String) : Statements env text (splitLines env text) :=
  ⟨split '\n' text, split_ne_nil _ _, fun r hr => split_noChar _ _ r hr, (joinC_split '\n' text).symm, rfl⟩

theorem statements_unique {text : String} {l : List String} (h : Statements env text l) :
    l = splitLines env text := by
  obtain ⟨rows, h1, h2, h3, h4⟩ := h
  unfold splitLines
  rw [h3, split_joinC '\n' rows h1 h2, h4]

/-- Splitting at a separator splits both sides. -/
theorem splitL_cons_append (c : Char) (l r : List Char) :
    splitL c (l ++ c :: r) = splitL c l ++ splitL c r := by
  have hc : ∀ (y : Char) (t : List Char), splitL c (y :: t) = if y = c then [] :: splitL c t
      else match splitL c t with
        | [] => [[y]]
        | p :: ps => (y :: p) :: ps := fun _ _ => rfl
  induction l with
  | nil => rw [List.nil_append, hc, if_pos rfl]; rfl
  | cons x l ih =>
    rw [List.cons_append, hc, hc]
    by_cases hx : x = c
    · rw [if_pos hx, if_pos hx, ih]; rfl
    · rw [if_neg hx, if_neg hx, ih]
      cases hs : splitL c l with
      | nil => exact absurd hs (splitL_ne_nil c l)
      | cons a t => rfl

theorem split_cons_append (c : Char) (a b : String) :
    split c (a ++ String.ofList [c] ++ b) = split c a ++ split c b := by
  unfold split
  have : (a ++ String.ofList [c] ++ b).toList = a.toList ++ c :: b.toList := by simp
  rw [this, splitL_cons_append, List.map_append]

theorem splitLines_append (a b : String) :
    splitLines env (a ++ "\n" ++ b) = splitLines env a ++ splitLines env b := by
  unfold splitLines
  rw [← List.filter_append, ← split_cons_append]

/-! ## Indexes -/

/-- `indexMap` finds the last occurrence. -/
theorem indexMap_get (l : List String) (i : Nat) (m : GoMap Nat) (r : String) :
    (∃ d, l[d]? = some r ∧ (∀ d', d < d' → l[d']? ≠ some r) ∧
      get? (indexMap i l m) r = some (i + d)) ∨
    (r ∉ l ∧ get? (indexMap i l m) r = get? m r) := by
  induction l generalizing i m with
  | nil => exact Or.inr ⟨by simp, rfl⟩
  | cons s l ih =>
    rcases ih (i + 1) (set m s i) with ⟨d, h1, h2, h3⟩ | ⟨h1, h2⟩
    · refine Or.inl ⟨d + 1, by simpa using h1, fun d' hd' => ?_, ?_⟩
      · cases d' with
        | zero => omega
        | succ d' => simpa using h2 d' (by omega)
      · show get? (indexMap (i + 1) l (set m s i)) r = some (i + (d + 1))
        rw [h3]; congr 1; omega
    · by_cases hs : s = r
      · subst hs
        refine Or.inl ⟨0, rfl, fun d' hd' => ?_, ?_⟩
        · cases d' with
          | zero => omega
          | succ d' =>
            rw [List.getElem?_cons_succ]
            intro e
            exact h1 (List.mem_of_getElem? e)
        · show get? (indexMap (i + 1) l (set m s i)) s = some (i + 0)
          rw [h2, GoMap.get?_set_self]; rfl
      · refine Or.inr ⟨fun hm => ?_, ?_⟩
        · rcases List.mem_cons.1 hm with e | hm
          · exact hs e.symm
          · exact h1 hm
        · show get? (indexMap (i + 1) l (set m s i)) r = get? m r
          rw [h2, GoMap.get?_set_ne _ _ hs]

theorem docIndexes_spec (stmts rs : List String) :
    List.Forall₂ (fun r j => LastAt env stmts r j ∨
      ((∀ s ∈ stmts, env.toBlank s ≠ r) ∧ j = 0)) rs
      (docIndexes (indexMap 0 (stmts.map env.toBlank) []) rs) := by
  induction rs with
  | nil => exact .nil
  | cons r rs ih =>
    unfold docIndexes
    refine .cons ?_ ih
    rcases indexMap_get (stmts.map env.toBlank) 0 [] r with ⟨d, h1, h2, h3⟩ | ⟨h1, h2⟩
    · rw [h3]
      simp only [Option.getD_some, Nat.zero_add]
      refine Or.inl ⟨?_, fun d' s hd' hs e => h2 d' hd' ?_⟩
      · rw [List.getElem?_map] at h1
        obtain ⟨s, hs, e⟩ := Option.map_eq_some_iff.1 h1
        exact ⟨s, hs, e⟩
      · rw [List.getElem?_map, hs, Option.map_some, e]
    · refine Or.inr ⟨fun s hs e => h1 ?_, ?_⟩
      · exact List.mem_map.2 ⟨s, hs, e⟩
      · rw [h2]; rfl

theorem indexes_of (p : Nat) (stmts rs : List String) :
    Indexes env p stmts rs (List.range p ++
      (docIndexes (indexMap 0 (stmts.map env.toBlank) []) rs).map (fun i => p + i)) :=
  ⟨_, rfl, docIndexes_spec env stmts rs⟩

/-- The revealed positions when every revealed statement stands in the document. -/
theorem forall2_mem_right {α β : Type _} {R : α → β → Prop} {l : List α} {l' : List β}
    (h : List.Forall₂ R l l') : ∀ b ∈ l', ∃ a ∈ l, R a b := by
  induction h with
  | nil => intro b hb; cases hb
  | cons h _ ih =>
    intro b hb
    rcases List.mem_cons.1 hb with rfl | hb
    · exact ⟨_, List.mem_cons_self .., h⟩
    · obtain ⟨a, ha, hr⟩ := ih b hb
      exact ⟨a, List.mem_cons_of_mem _ ha, hr⟩

theorem forall2_mem_left {α β : Type _} {R : α → β → Prop} {l : List α} {l' : List β}
    (h : List.Forall₂ R l l') : ∀ a ∈ l, ∃ b ∈ l', R a b := by
  induction h with
  | nil => intro b hb; cases hb
  | cons h _ ih =>
    intro b hb
    rcases List.mem_cons.1 hb with rfl | hb
    · exact ⟨_, List.mem_cons_self .., h⟩
    · obtain ⟨a, ha, hr⟩ := ih b hb
      exact ⟨a, List.mem_cons_of_mem _ ha, hr⟩

/-- **C55 (partial)**: the indexes handed to the derivation are exactly the positions of all proof
statements and of the document statements that the reveal document selects — provided that every
selected statement stands, transformed, in the document, and that transformed document statements
differ.

Missing: without the proviso a selected statement that does not stand in the document reveals the
first document statement instead (`missing_statement_reveals_first`). -/
theorem reveal_positions_partial (p : Nat) (stmts rs : List String) (is : List Nat)
    (h : Indexes env p stmts rs is) (hr : ∀ r ∈ rs, ∃ s ∈ stmts, env.toBlank s = r)
    (hd : ∀ (d d' : Nat) (s s' : String), stmts[d]? = some s → stmts[d']? = some s' →
      env.toBlank s = env.toBlank s' → d = d') (q : Nat) :
    q ∈ is ↔ q < p ∨ ∃ (d : Nat) (s : String), q = p + d ∧ stmts[d]? = some s ∧ env.toBlank s ∈ rs := by
  obtain ⟨js, rfl, hf⟩ := h
  rw [List.mem_append, List.mem_range, List.mem_map]
  refine or_congr_right ⟨?_, ?_⟩
  · rintro ⟨j, hj, rfl⟩
    obtain ⟨r, hrm, hR⟩ := forall2_mem_right hf j hj
    rcases hR with ⟨⟨s, hs, e⟩, -⟩ | ⟨h0, -⟩
    · exact ⟨j, s, rfl, hs, by rw [e]; exact hrm⟩
    · obtain ⟨s, hs, e⟩ := hr r hrm
      exact absurd e (h0 s hs)
  · rintro ⟨d, s, rfl, hs, hm⟩
    obtain ⟨j, hj, hR⟩ := forall2_mem_left hf _ hm
    rcases hR with ⟨⟨s', hs', e⟩, -⟩ | ⟨h0, -⟩
    · have : d = j := hd d j s s' hs hs' e.symm
      subst this
      exact ⟨d, hj, rfl⟩
    · exact absurd rfl (h0 s (List.mem_of_getElem? hs))

/-- What happens with a selected statement that does not stand in the document: the position of the
first document statement is revealed. -/
theorem missing_reveals_first (p : Nat) (stmts rs : List String) (is : List Nat)
    (h : Indexes env p stmts rs is) (r : String) (hm : r ∈ rs)
    (hn : ∀ s ∈ stmts, env.toBlank s ≠ r) : p ∈ is := by
  obtain ⟨js, rfl, hf⟩ := h
  obtain ⟨j, hj, hR⟩ := forall2_mem_left hf r hm
  rcases hR with ⟨⟨s, hs, e⟩, -⟩ | ⟨-, rfl⟩
  · exact absurd e (hn s (List.mem_of_getElem? hs))
  · exact List.mem_append_right _ (List.mem_map.2 ⟨0, hj, rfl⟩)

/-! ## The verifier's messages -/

theorem range_get (l m : List String) :
    (List.range l.length).map (fun i => (l ++ m)[i]?) = l.map some := by
  apply List.ext_getElem?
  intro i
  rw [List.getElem?_map, List.getElem?_map]
  by_cases hi : i < l.length
  · rw [List.getElem?_range hi, Option.map_some, List.getElem?_append_left hi,
      List.getElem?_eq_getElem hi, Option.map_some]
  · rw [List.getElem?_eq_none (by simpa using hi), List.getElem?_eq_none (by omega)]; rfl

/-- **C78**: the messages that the derivation reveals, in the order of the indexes, are exactly the
messages the verifier of the derived proof makes out of the canonical proof options and the canonical
reveal document — provided that every selected statement stands, transformed, in the document, and
that the verifier's renaming of blank nodes undoes the deriver's on the document's statements and
leaves the proof options alone (`fromBlank_restores`). -/
theorem verifier_sees_revealed (ptext rtext : String) (ps stmts rs : List String) (is : List Nat)
    (hp : Statements env (ptext ++ "\n") ps) (hrs : Statements env rtext rs)
    (h : Indexes env ps.length stmts rs is) (hr : ∀ r ∈ rs, ∃ s ∈ stmts, env.toBlank s = r)
    (hb : ∀ s ∈ stmts, fromBlank (env.toBlank s) = s) (hq : ∀ s ∈ ps, fromBlank s = s)
    (hnl : env.blank "" = true) :
    is.map (fun i => (ps ++ stmts)[i]?) =
      (verifierMessages env (ptext ++ "\n" ++ rtext)).map some := by
  have e1 := statements_unique env hp
  have e2 := statements_unique env hrs
  have e3 : splitLines env (ptext ++ "\n") = splitLines env ptext := by
    have := splitLines_append env ptext ""
    rw [String.append_empty] at this
    rw [this]
    have h0 : splitLines env "" = [] := by
      show List.filter _ [""] = []
      simp [hnl]
    rw [h0, List.append_nil]
  unfold verifierMessages
  rw [splitLines_append, ← e3, ← e1, ← e2, List.map_append, List.map_append]
  obtain ⟨js, rfl, hf⟩ := h
  rw [List.map_append, range_get]
  congr 1
  · rw [List.map_congr_left hq]; simp
  · rw [List.map_map, List.map_map]
    clear e2 hrs
    induction hf with
    | nil => rfl
    | cons hR _ ih =>
      rename_i r j rs' js' _
      have ih := ih (fun r hr' => hr r (List.mem_cons_of_mem _ hr'))
      simp only [List.map_cons]
      rw [ih]
      congr 1
      obtain ⟨s0, hs0, e0⟩ := hr r (List.mem_cons_self ..)
      rcases hR with ⟨⟨s, hs, e⟩, -⟩ | ⟨h0, -⟩
      · simp only [Function.comp_apply]
        rw [List.getElem?_append_right (by omega), Nat.add_sub_cancel_left, hs, ← e,
          hb s (List.mem_of_getElem? hs)]
      · exact absurd e0 (h0 s0 hs0)

/-! ## The whole function -/

theorem getProofs_spec {raw : Json} {l : List JObj} (h : Vfy.getProofs raw = some l) :
    raw = .arr (l.map .obj) ∨ ∃ o, raw = .obj o ∧ l = [o] := by
  have key : ∀ (a : List Json) (l : List JObj), Vfy.objs a = some l → a = l.map .obj := by
    intro a
    induction a with
    | nil => intro l h; cases h; rfl
    | cons j a ih =>
      intro l h
      cases j with
      | obj o =>
        simp only [Vfy.objs, Option.map_eq_some_iff] at h
        obtain ⟨l', h1, rfl⟩ := h
        rw [ih l' h1]; rfl
      | null => cases h
      | bool b => cases h
      | num q => cases h
      | str s => cases h
      | arr x => cases h
  cases raw with
  | obj o => cases h; exact Or.inr ⟨o, rfl, rfl⟩
  | arr a => exact Or.inl (by rw [key a l h])
  | null => cases h
  | bool b => cases h
  | num q => cases h
  | str s => cases h

theorem isBls_iff (p : JObj) : isBls p = true ↔ IsBls p := by
  unfold isBls IsBls
  cases hp : get? p "type" with
  | none => simp
  | some v =>
    cases v with
    | str t =>
      simp only [Option.some.injEq, Json.str.injEq, List.isSuffixOf_iff_suffix]
      constructor
      · rintro ⟨pre, h⟩
        refine ⟨String.ofList pre, ?_⟩
        apply String.toList_injective
        rw [String.toList_append, String.toList_ofList, h]
      · rintro ⟨pre, h⟩
        exact ⟨pre.toList, by rw [h, String.toList_append]⟩
    | null => simp
    | bool b => simp
    | num q => simp
    | arr a => simp
    | obj o => simp

theorem signatures_of (l : List JObj) :
    Signatures l ((l.filter isBls).map
      (fun p => set p "@context" (.str "https://w3id.org/security/v2"))) := by
  induction l with
  | nil => exact .nil
  | cons p l ih =>
    by_cases h : isBls p = true
    · rw [List.filter_cons_of_pos h]
      exact .take p l _ ((isBls_iff p).1 h) ih
    · rw [List.filter_cons_of_neg h]
      exact .skip p l _ (fun hh => h ((isBls_iff p).2 hh)) ih

theorem genProofs_spec (nonce : Bytes) (d : DocData) (rs : List String)
    (hd : d.indexes = docIndexes (indexMap 0 (d.statements.map env.toBlank) []) rs) (ps qs : List JObj)
    (h : genProofs env nonce d ps = some qs) :
    List.Forall₂ (DerivedFrom env d.statements rs nonce) ps qs := by
  induction ps generalizing qs with
  | nil => cases h; exact .nil
  | cons p ps ih =>
    unfold genProofs at h
    split at h
    · cases h
    rename_i v hv
    split at h
    · cases h
    rename_i q hq
    obtain ⟨qs', h1, rfl⟩ := Option.map_eq_some_iff.1 h
    refine .cons ?_ (ih qs' h1)
    unfold buildVer at hv
    split at hv
    · cases hv
    rename_i text ht
    cases hv
    unfold genProof at hq
    split at hq
    · cases hq
    rename_i key sig hk
    split at hq
    · cases hq
    rename_i pv hpv
    cases hq
    unfold keyAndSignature at hk
    split at hk
    · cases hk
    · cases hk
    rename_i kid sig' hn
    split at hk
    · cases hk
    rename_i key' hres
    cases hk
    obtain ⟨c1, c2⟩ := (Vfy.didPart_iff kid _).1 rfl
    dsimp only at hpv
    rw [hd] at hpv
    refine ⟨text, _, kid, sig, _, key, _, pv, ht, splitLines_spec env text, hn, c1, c2, hres,
      indexes_of env _ d.statements rs, hpv, rfl, rfl, rfl, ?_⟩
    intro k hk
    simp only [List.mem_cons, List.not_mem_nil, or_false] at hk
    rcases hk with rfl | rfl | rfl <;> rfl

/-- **C55** (what is derived): if selective disclosure succeeds, the result is the framed document
with one derived proof per BBS+ signature of the compacted document, in order; each is derived from
the statements of the proof options followed by those of the document, for the indexes that
`Indexes` describes, with the key named by the signature. -/
theorem disclosure_spec (doc reveal r : JObj) (nonce : Bytes)
    (h : selectiveDisclosure env doc reveal nonce = some r) :
    ∃ cdoc raw all sigs text stmts res rtext rs qs,
      env.compact doc = some cdoc ∧ get? cdoc "proof" = some raw ∧
      (raw = .arr (all.map .obj) ∨ ∃ o, raw = .obj o ∧ all = [o]) ∧ Signatures all sigs ∧ sigs ≠ [] ∧
      env.canon (del cdoc "proof") = some text ∧ Statements env text stmts ∧
      env.frame (del cdoc "proof") reveal = some res ∧ env.canon res = some rtext ∧
      Statements env rtext rs ∧ List.Forall₂ (DerivedFrom env stmts rs nonce) sigs qs ∧
      get? r "proof" = some (.arr (qs.map .obj)) ∧ ∀ k, k ≠ "proof" → get? r k = get? res k := by
  unfold selectiveDisclosure at h
  split at h
  · cases h
  rename_i d raw hp
  unfold prepare at hp
  split at hp
  · cases hp
  rename_i c hc
  split at h
  · cases h
  rename_i sigs hs
  split at h
  · cases h
  rename_i hne
  split at h
  · cases h
  rename_i dd hdd
  split at h
  · cases h
  rename_i qs hqs
  cases h
  have hraw : get? c "proof" = some raw ∧ d = del c "proof" := by
    unfold JObj.at at hp
    cases hg : get? c "proof" with
    | none => rw [hg] at hp; cases hp
    | some v => rw [hg] at hp; cases v <;> cases hp <;> exact ⟨rfl, rfl⟩
  obtain ⟨hraw, rfl⟩ := hraw
  unfold getBlsProofs at hs
  split at hs
  · cases hs
  rename_i all hall
  cases hs
  unfold buildDoc at hdd
  split at hdd
  · cases hdd
  rename_i text ht
  split at hdd
  · cases hdd
  rename_i res hres
  split at hdd
  · cases hdd
  rename_i rtext hrt
  cases hdd
  refine ⟨c, raw, all, _, text, _, res, rtext, _, qs, hc, hraw, getProofs_spec hall, signatures_of all,
    fun e => hne (by rw [e]; rfl), ht, splitLines_spec env text, hres, hrt, splitLines_spec env rtext,
    genProofs_spec env nonce _ _ rfl _ qs hqs, ?_, fun k hk => ?_⟩
  · exact GoMap.get?_set_self _ _ _
  · exact GoMap.get?_set_ne _ _ (Ne.symm hk)

/-! ## Blank node names -/

theorem cut_some {pat s a b : List Char} (h : cut pat s = some (a, b)) :
    s = a ++ pat ++ b ∧ ∀ a' b', s = a' ++ pat ++ b' → a.length ≤ a'.length := by
  induction s generalizing a b with
  | nil =>
    unfold cut at h
    split at h
    · rename_i hp
      cases h
      have := List.isPrefixOf_iff_prefix.1 hp
      rw [List.prefix_nil.1 this]
      exact ⟨rfl, fun _ _ _ => Nat.zero_le _⟩
    · cases h
  | cons c s ih =>
    unfold cut at h
    split at h
    · rename_i hp
      obtain ⟨t, ht⟩ := List.isPrefixOf_iff_prefix.1 hp
      cases h
      refine ⟨?_, fun _ _ _ => Nat.zero_le _⟩
      rw [← ht]; simp
    · rename_i hp
      obtain ⟨⟨a', b'⟩, h1, h2⟩ := Option.map_eq_some_iff.1 h
      cases h2
      obtain ⟨g1, g2⟩ := ih h1
      refine ⟨by rw [g1]; simp, fun x y hxy => ?_⟩
      cases x with
      | nil =>
        exact absurd (List.isPrefixOf_iff_prefix.2 ⟨y, by simpa using hxy.symm⟩) hp
      | cons x0 x =>
        simp only [List.cons_append, List.cons.injEq] at hxy
        have := g2 x y hxy.2
        simp only [List.length_cons]; omega

theorem cut_none {pat s : List Char} (h : cut pat s = none) : ∀ a b, s ≠ a ++ pat ++ b := by
  induction s with
  | nil =>
    intro a b e
    unfold cut at h
    split at h
    · cases h
    · rename_i hp
      have e := e.symm
      simp only [List.append_assoc, List.append_eq_nil_iff] at e
      exact hp (by rw [e.2.1]; rfl)
  | cons c s ih =>
    intro a b e
    unfold cut at h
    split at h
    · cases h
    · rename_i hp
      cases hc : cut pat s with
      | none =>
        cases a with
        | nil => exact hp (List.isPrefixOf_iff_prefix.2 ⟨b, by simpa using e.symm⟩)
        | cons x a =>
          simp only [List.cons_append, List.cons.injEq] at e
          exact ih hc a b e.2
      | some r => rw [hc] at h; cases h

/-- An occurrence of the pattern that starts before another one ends before it begins: it starts with
a character that occurs in it only once. -/
theorem occ_disjoint {x : Char} {p a b a' b' : List Char} (hx : x ∉ p)
    (h : a ++ (x :: p) ++ b = a' ++ (x :: p) ++ b') (hl : a'.length < a.length) :
    ∃ m, a = a' ++ (x :: p) ++ m := by
  have h1 : a' ++ (x :: p) <+: a ++ (x :: p) ++ b := ⟨b', h.symm⟩
  by_cases hle : (a' ++ (x :: p)).length ≤ a.length
  · have h2 : a <+: a ++ (x :: p) ++ b := ⟨(x :: p) ++ b, by simp⟩
    obtain ⟨m, hm⟩ := List.prefix_of_prefix_length_le h1 h2 hle
    exact ⟨m, hm.symm⟩
  · exfalso
    have hg := congrArg (fun l => l[a.length]?) h
    have hl1 : (a ++ ((x :: p) ++ b))[a.length]? = some x := by
      rw [List.getElem?_append_right (Nat.le_refl _), Nat.sub_self]; rfl
    have hl2 : (a' ++ ((x :: p) ++ b'))[a.length]? = p[a.length - a'.length - 1]? := by
      rw [List.getElem?_append_right (Nat.le_of_lt hl)]
      obtain ⟨n, hn⟩ : ∃ n, a.length - a'.length = n + 1 := ⟨a.length - a'.length - 1, by omega⟩
      rw [hn, List.cons_append, List.getElem?_cons_succ, List.getElem?_append_left (by
        simp only [List.length_append, List.length_cons] at hle; omega)]
      rfl
    simp only [List.append_assoc] at hg
    rw [hl1, hl2] at hg
    exact hx (List.mem_of_getElem? hg.symm)

theorem cut_first {x : Char} {p a b : List Char} (hx : x ∉ p)
    (ha : ∀ u v, a ≠ u ++ (x :: p) ++ v) : cut (x :: p) (a ++ (x :: p) ++ b) = some (a, b) := by
  cases h : cut (x :: p) (a ++ (x :: p) ++ b) with
  | none => exact absurd rfl (cut_none h a b)
  | some r =>
    obtain ⟨a', b'⟩ := r
    obtain ⟨h1, h2⟩ := cut_some h
    have hle := h2 a b rfl
    have heq : a'.length = a.length := by
      rcases Nat.lt_or_ge a'.length a.length with hlt | hge
      · obtain ⟨m, hm⟩ := occ_disjoint hx h1 hlt
        exact absurd hm (ha a' m)
      · omega
    rw [List.append_assoc, List.append_assoc] at h1
    obtain ⟨e1, e2⟩ := List.append_inj h1 heq.symm
    have := List.append_cancel_left e2
    rw [e1, this]

/-- **C79 (partial)**: the verifier turns the first blank node placeholder of a row back into the blank
node's name and changes nothing else: this undoes the renaming of a row with a single blank node.

Missing: further placeholders in the same row stay (`second_blank_node_stays`). -/
theorem fromBlank_restores_partial (a n b : String) (hn : '>' ∉ n.toList)
    (ha : ∀ u v : String, a ≠ u ++ "<urn:bnid:_:c14n" ++ v) :
    fromBlank (a ++ "<urn:bnid:_:c14n" ++ n ++ ">" ++ b) = a ++ "_:c14n" ++ n ++ b := by
  unfold fromBlank
  have e : (a ++ "<urn:bnid:_:c14n" ++ n ++ ">" ++ b).toList =
      a.toList ++ ('<' :: "urn:bnid:_:c14n".toList) ++ (n.toList ++ ('>' :: []) ++ b.toList) := by
    simp only [String.toList_append, List.append_assoc]; rfl
  have e0 : "<urn:bnid:_:c14n".toList = '<' :: "urn:bnid:_:c14n".toList := rfl
  have hA : ∀ u v, a.toList ≠ u ++ ('<' :: "urn:bnid:_:c14n".toList) ++ v := by
    intro u v h
    refine ha (String.ofList u) (String.ofList v) ?_
    apply String.toList_injective
    rw [String.toList_append, String.toList_append, h, String.toList_ofList (l := u), String.toList_ofList (l := v), e0]
  rw [e, e0, cut_first (by decide) hA]
  have hN : ∀ u v, n.toList ≠ u ++ ('>' :: []) ++ v := by
    intro u v h; rw [h] at hn; simp at hn
  have e1 : ">".toList = '>' :: [] := rfl
  dsimp only
  rw [e1, cut_first (by simp) hN]
  apply String.toList_injective
  simp [String.toList_append]

/-- A row without a complete placeholder is left alone. -/
theorem fromBlank_other (row : String)
    (h : ∀ a n b : String, row ≠ a ++ "<urn:bnid:_:c14n" ++ n ++ ">" ++ b) : fromBlank row = row := by
  unfold fromBlank
  split
  · rfl
  · rename_i pre rest h1
    split
    · rfl
    · rename_i n suf h2
      exfalso
      obtain ⟨g1, -⟩ := cut_some h1
      obtain ⟨g2, -⟩ := cut_some h2
      refine h (String.ofList pre) (String.ofList n) (String.ofList suf) ?_
      apply String.toList_injective
      simp only [String.toList_append, String.toList_ofList]
      rw [g1, g2]
      simp

end VC.BBS
