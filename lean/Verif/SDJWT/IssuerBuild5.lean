import Verif.SDJWT.IssuerBuild
/-!
# What the V5 builder produces

Without decoys and when no member name is empty, the V5 builder blinds the claims along an annotated
tree that follows `V5Policy`.  (With decoys the builder returns the decoys among the disclosures, see
`IssuerProps`.)
-/

namespace VC.SDJWT
open List

mutual
/-- No object inside the value has a member with the empty name (arrays are not entered: their
elements are disclosed or copied as a whole). -/
def NamedKeys : Json → Prop
  | .obj m => NamedKeysObj m
  | _ => True
/-- All members. -/
def NamedKeysObj : List (String × Json) → Prop
  | [] => True
  | (k, v) :: m => k ≠ "" ∧ NamedKeys v ∧ NamedKeysObj m
end

/-- The options of the issuer. -/
def IEnv.v5 (E : IEnv) : V5Opts := ⟨E.structured, E.nonSD, E.always, E.recursive⟩

theorem v5_elems_ok {E : IEnv} (path : String) (l : List Json) : ∀ (i n : Nat),
    Codec E.env (v5Elems E path i n l).2.1 →
    ∃ l' : List (Option String × Json), l'.map Prod.snd = l ∧
      (v5Elems E path i n l).1 = l'.map (blindElem E.digest) ∧
      l'.filterMap Prod.fst = (v5Elems E path i n l).2.1.map Ent.result ∧
      (∀ s v, (some s, v) ∈ l' → ∃ salt, E.env.decode s = some [.str salt, v]) ∧
      ∀ j (hj : j < l'.length), (l'[j].1 = none ↔
        E.nonSD (path ++ "[" ++ toString (i + j) ++ "]") = true) := by
  induction l with
  | nil => intro i n _; exact ⟨[], rfl, rfl, rfl, by simp, by simp⟩
  | cons v l ih =>
    intro i n
    simp only [v5Elems]
    split
    · next hc =>
      intro hcd
      obtain ⟨l', h1, h2, h3, h4, h5⟩ := ih (i + 1) n hcd
      refine ⟨(none, v) :: l', by simp [h1], by simp [h2, blindElem], by simpa using h3, ?_, ?_⟩
      · intro s v' hm
        simp only [List.mem_cons, Prod.mk.injEq, reduceCtorEq, false_and, false_or] at hm
        exact h4 s v' hm
      · intro j hj
        cases j with
        | zero => simpa [elemPath] using hc
        | succ j =>
          have := h5 j (by simpa using hj)
          rw [show i + 1 + j = i + (j + 1) by omega] at this
          simpa using this
    · next hc =>
      intro hcd
      obtain ⟨l', h1, h2, h3, h4, h5⟩ := ih (i + 1) (n + 1)
        (codec_mono hcd (fun e he => List.mem_cons_of_mem _ he))
      refine ⟨(some (v5Disclosure E n "" v).result, v) :: l', by simp [h1], by simp [h2, blindElem],
        by simp [h3], ?_, ?_⟩
      · intro s v' hm
        rcases List.mem_cons.mp hm with e | hm
        · cases e
          exact ⟨E.salt n, by simpa [v5Disclosure] using hcd (v5Disclosure E n "" v) (by simp)⟩
        · exact h4 s v' hm
      · intro j hj
        cases j with
        | zero => simpa [elemPath] using hc
        | succ j =>
          have := h5 j (by simpa using hj)
          rw [show i + 1 + j = i + (j + 1) by omega] at this
          simpa using this

/-- The disclosures that are no decoys (a decoy is a bare salt, made of no array). -/
def reals (es : List Ent) : List Ent := es.filter (fun e => !e.debugArr.isEmpty)

theorem reals_append (a b : List Ent) : reals (a ++ b) = reals a ++ reals b := List.filter_append ..

theorem reals_all {es : List Ent} (h : ∀ e ∈ es, e.debugArr ≠ []) : reals es = es := by
  unfold reals
  rw [List.filter_eq_self]
  intro e he
  simpa using h e he

theorem reals_decoys (E : IEnv) (n : Nat) : reals (createDecoys E n) = [] := by
  unfold reals createDecoys
  rw [List.filter_eq_nil_iff]
  intro e he
  split at he
  · obtain ⟨i, _, rfl⟩ := List.mem_map.mp he
    simp
  · exact nomatch he

theorem v5Disclosure_real (E : IEnv) (n : Nat) (k : String) (v : Json) : (v5Disclosure E n k v).debugArr ≠ [] := by
  unfold v5Disclosure
  dsimp only
  split <;> simp

theorem v5Elems_real (E : IEnv) (path : String) : ∀ (l : List Json) (i n : Nat),
    ∀ e ∈ (v5Elems E path i n l).2.1, e.debugArr ≠ []
  | [], _, _ => fun _ h => (nomatch h)
  | v :: l, i, n => by
    unfold v5Elems
    split
    · exact v5Elems_real E path l (i + 1) n
    · intro e he
      rcases List.mem_cons.mp he with rfl | he
      · exact v5Disclosure_real _ _ _ _
      · exact v5Elems_real E path l (i + 1) (n + 1) e he

/-- What is shown about one member, if all its disclosures are real. -/
def V5MemberOk' (E : IEnv) (ign : Bool) (cur k : String) (v : Json) (r : Acc) : Prop :=
  Codec E.env (r.level ++ r.nested) →
  ∃ a t dn, V5Value E.v5 ign cur a t ∧ t.erase = v ∧
    BlM E.env E.digest (.cons k a t .nil) r.fields (r.level.map Ent.result) dn ∧
    (a.toList ++ t.discs).Perm ((r.level ++ r.nested).map Ent.result)

/-- What is shown about one member. -/
def V5MemberOk (E : IEnv) (ign : Bool) (cur k : String) (v : Json) (r : Acc) : Prop :=
  Codec E.env (reals (r.level ++ r.nested)) →
  ∃ a t dn, V5Value E.v5 ign cur a t ∧ t.erase = v ∧
    BlM E.env E.digest (.cons k a t .nil) r.fields (r.level.map Ent.result) dn ∧
    (a.toList ++ t.discs).Perm ((reals (r.level ++ r.nested)).map Ent.result)

theorem V5MemberOk'.all {E : IEnv} {ign : Bool} {cur k : String} {v : Json} {r : Acc}
    (h : V5MemberOk' E ign cur k v r) (hr : ∀ e ∈ r.level ++ r.nested, e.debugArr ≠ []) :
    V5MemberOk E ign cur k v r := by
  unfold V5MemberOk
  rw [reals_all hr]
  exact h

theorem v5Disclosure_arr {E : IEnv} {n : Nat} {k : String} {v : Json} (hk : k ≠ "") :
    (v5Disclosure E n k v).debugArr = [.str (E.salt n), .str k, v] := by
  simp [v5Disclosure, hk]

theorem v5_array_ok {E : IEnv} (ign : Bool) {cur k : String} (hk : k ≠ "") {n : Nat} {l : List Json} :
    V5MemberOk' E ign cur k (.arr l) (v5Array E cur k n l) := by
  unfold V5MemberOk' v5Array
  split
  · next hc =>
    intro _
    refine ⟨none, .plain (.arr l), [], ?_, rfl, ?_, by simp [Node.discs]⟩
    · simp [V5Value, IsArr, IEnv.v5, hc]
    · simp [BlM, Bl]
  · next hc =>
    have hc' : E.nonSD cur = false := by simpa using hc
    generalize hr : v5Elems E cur 0 n l = r
    have key := v5_elems_ok (E := E) cur l 0 n
    rw [hr] at key
    have hel : ∀ l' : List (Option String × Json), elemsJson (l'.map (blindElem E.digest)) =
        (if l' = [] then .null else .arr (l'.map (blindElem E.digest))) := by
      intro l'
      cases l' <;> simp [elemsJson]
    dsimp only
    split
    · next ha =>
      intro hcd
      obtain ⟨l', h1, h2, h3, h4, h5⟩ := key (by simpa using hcd)
      refine ⟨none, .arr l', [], ?_, by simp [Node.erase, h1], ?_, ?_⟩
      · simp only [V5Value, IEnv.v5]
        exact ⟨hc', by simpa using ha, by simpa using h5⟩
      · simp only [BlM, Bl]
        exact ⟨elemsJson r.1, [], [], [], rfl, ⟨rfl, by rw [h2, hel], h4⟩, ⟨rfl, by simp, rfl⟩, rfl⟩
      · simp [Node.discs, h3]
    · next ha =>
      intro hcd
      obtain ⟨l', h1, h2, h3, h4, h5⟩ := key (codec_mono hcd (by simp; intro e h; exact Or.inr h))
      refine ⟨some (v5Disclosure E r.2.2 k (elemsJson r.1)).result, .arr l', [], ?_,
        by simp [Node.erase, h1], ?_, ?_⟩
      · simp only [V5Value, IEnv.v5]
        exact ⟨hc', by simpa using ha, by simpa using h5⟩
      · simp only [BlM, Bl]
        refine ⟨elemsJson r.1, E.salt r.2.2, [], [], [], rfl, ?_, ⟨rfl, by rw [h2, hel], h4⟩,
          ?_, rfl⟩
        · have := hcd (v5Disclosure E r.2.2 k (elemsJson r.1)) (by simp)
          rwa [v5Disclosure_arr hk] at this
        · simp
      · simp [Node.discs, h3]

theorem v5_prim_ok {E : IEnv} (ign : Bool) {cur k : String} (hk : k ≠ "") {n : Nat} {v : Json}
    (hv : ¬ (IsObj v ∨ IsArr v)) (hn : v ≠ .null) :
    V5MemberOk' E ign cur k v (v5Prim E ign cur k n v) := by
  unfold V5MemberOk' v5Prim
  split
  · next hc =>
    intro _
    refine ⟨none, .plain v, [], ?_, rfl, ?_, by simp [Node.discs]⟩
    · simp only [V5Value, if_neg hv, IEnv.v5]
      exact ⟨hn, by simpa using hc⟩
    · simp [BlM, Bl]
  · next hc =>
    intro hcd
    refine ⟨some (v5Disclosure E n k v).result, .plain v, [], ?_, rfl, ?_, by simp [Node.discs]⟩
    · simp only [V5Value, if_neg hv, IEnv.v5]
      exact ⟨hn, by simpa using hc⟩
    · simp only [BlM, Bl]
      refine ⟨v, E.salt n, [], [], [], rfl, ?_, ⟨rfl, rfl⟩, ?_, rfl⟩
      · have := hcd (v5Disclosure E n k v) (by simp)
        rwa [v5Disclosure_arr hk] at this
      · simp

theorem v5Array_real (E : IEnv) (cur k : String) (n : Nat) (l : List Json) :
    ∀ e ∈ (v5Array E cur k n l).level ++ (v5Array E cur k n l).nested, e.debugArr ≠ [] := by
  unfold v5Array
  split
  · exact fun _ h => (nomatch h)
  · dsimp only
    split
    · simpa using v5Elems_real E cur l 0 n
    · intro e he
      rcases List.mem_append.mp he with h | h
      · rw [List.mem_singleton.mp h]; exact v5Disclosure_real _ _ _ _
      · exact v5Elems_real E cur l 0 n e h

theorem v5Prim_real (E : IEnv) (ign : Bool) (cur k : String) (n : Nat) (v : Json) :
    ∀ e ∈ (v5Prim E ign cur k n v).level ++ (v5Prim E ign cur k n v).nested, e.debugArr ≠ [] := by
  unfold v5Prim
  split
  · exact fun _ h => (nomatch h)
  · intro e he
    simp only [List.append_nil, List.mem_singleton] at he
    rw [he]; exact v5Disclosure_real _ _ _ _

theorem v5_finish_ok {E : IEnv} (hsh : Shuffles E) {decoys : List Ent} {r : Acc} {ms : Members}
    {dn : List String} (hb : BlM E.env E.digest ms r.fields (r.level.map Ent.result) dn) :
    ∃ decs, Blinded E ms (v5Finish E decoys r).2.1 decs := by
  have hp : (createDigests E r.next (decoys ++ r.level)).Perm
      ((r.level.map Ent.result).map E.digest ++ decoys.map (fun e => E.digest e.result)) := by
    refine (hsh _ _).trans ?_
    rw [List.map_append, List.map_map]
    exact List.perm_append_comm
  simp only [v5Finish]
  generalize createDigests E r.next (decoys ++ r.level) = dg at hp ⊢
  refine ⟨_, r.fields, _, dg, r.level.map Ent.result, dn,
    decoys.map (fun e => E.digest e.result), rfl, hb, ?_, hp, rfl⟩
  cases dg with
  | nil => exact Or.inl ⟨rfl, rfl⟩
  | cons a l => exact Or.inr ⟨_, rfl, stringArray_digestsJson _⟩

theorem v5_nested_ok {E : IEnv} {ign : Bool} {cur k : String} (hk : k ≠ "") {o : JObj}
    {out : List Ent × JObj × Nat} {ms : Members} {decs : List String}
    (hc : E.nonSD cur = false) (he : ms.erase = o)
    (hp : V5Policy E.v5 (v5Ignore E cur) cur ms)
    (hb : Bl E.env E.digest (.obj ms) (.obj out.2.1) decs)
    (hd : ms.discs.Perm ((reals out.1).map Ent.result)) :
    V5MemberOk E ign cur k (.obj o) (v5Nested E cur k out) := by
  have hval : ∀ a, (a = none ↔ E.always cur = true ∨ (E.recursive cur = false ∧ E.structured = true)) →
      V5Value E.v5 ign cur a (.obj ms) := by
    intro a ha
    simp only [V5Value]
    exact ⟨hc, ha, hp⟩
  have clear : ∀ x, (none = (none : Option String) ↔
      E.always cur = true ∨ (E.recursive cur = false ∧ E.structured = true)) →
      V5MemberOk E ign cur k (.obj o) ⟨out.1, [], [(k, .obj out.2.1)], x⟩ := by
    intro x ha _
    refine ⟨none, .obj ms, decs, hval none ha, by simp [Node.erase, he], ?_, by simpa [Node.discs] using hd⟩
    rw [BlM]
    exact ⟨_, [], decs, [], rfl, hb, by simp [BlM], by simp⟩
  have discd : (∀ s : String, (some s = none ↔
      E.always cur = true ∨ (E.recursive cur = false ∧ E.structured = true))) →
      V5MemberOk E ign cur k (.obj o)
        ⟨out.1, [v5Disclosure E out.2.2 k (.obj out.2.1)], [], out.2.2 + 1⟩ := by
    intro ha
    have hrl : reals ([v5Disclosure E out.2.2 k (.obj out.2.1)] ++ out.1) =
        v5Disclosure E out.2.2 k (.obj out.2.1) :: reals out.1 := by
      rw [reals_append, reals_all (by intro e he; rw [List.mem_singleton.mp he]; exact v5Disclosure_real _ _ _ _)]
      rfl
    unfold V5MemberOk
    dsimp only
    rw [hrl]
    intro hcd
    refine ⟨some (v5Disclosure E out.2.2 k (.obj out.2.1)).result, .obj ms, decs, hval _ (ha _),
      by simp [Node.erase, he], ?_, by simpa [Node.discs] using hd⟩
    rw [BlM]
    refine ⟨_, E.salt out.2.2, [], decs, [], rfl, ?_, hb, by simp [BlM], by simp⟩
    have := hcd (v5Disclosure E out.2.2 k (.obj out.2.1)) (by simp)
    rwa [v5Disclosure_arr hk] at this
  unfold v5Nested
  cases h1 : E.recursive cur <;> cases h2 : E.always cur <;> cases h3 : E.structured <;>
    simp only [Bool.or_self, Bool.or_true, Bool.or_false, Bool.true_or, Bool.false_or, if_true,
      Bool.false_eq_true, if_false]
  all_goals first
    | (apply discd; intro s; simp [h1, h2, h3])
    | (apply clear; simp [h1, h2, h3])

mutual
theorem v5_member_ok {E : IEnv} (hsh : Shuffles E) (ign : Bool)
    (cur k : String) (hk : k ≠ "") (n : Nat) : ∀ (v : Json), NamedKeys v → ∀ r,
    v5Member E ign cur k n v = some r → V5MemberOk E ign cur k v r
  | .obj o, hv, r, hr => by
    simp only [v5Member] at hr
    simp only [NamedKeys] at hv
    split at hr
    · next hc =>
      cases hr
      intro _
      refine ⟨none, .plain (.obj o), [], ?_, rfl, ?_, by simp [Node.discs, reals]⟩
      · simp [V5Value, IsObj, IEnv.v5, hc]
      · simp [BlM, Bl]
    · next hc =>
      have hc' : E.nonSD cur = false := by simpa using hc
      cases hl : v5Loop E (v5Ignore E cur) cur (n + (createDecoys E n).length) o with
      | none => rw [hl] at hr; simp at hr
      | some a =>
        rw [hl] at hr
        simp only [Option.map_some, Option.some.injEq] at hr
        subst hr
        intro hcd
        have hfin : reals (v5Finish E (createDecoys E n) a).1 = reals (a.level ++ a.nested) := by
          simp only [v5Finish, reals_append, reals_decoys, List.nil_append]
        have hcd' : Codec E.env (reals (a.level ++ a.nested)) := by
          refine codec_mono hcd ?_
          intro e he
          have : (v5Nested E cur k (v5Finish E (createDecoys E n) a)).nested = (v5Finish E (createDecoys E n) a).1 := by
            unfold v5Nested
            split
            · split <;> rfl
            · split <;> rfl
          rw [reals_append, List.mem_append, this, hfin]
          exact Or.inr he
        obtain ⟨ms, dn, g1, g2, g3, g4⟩ := v5_loop_ok hsh (v5Ignore E cur) cur _ o hv a hl hcd'
        obtain ⟨decs, hb⟩ := v5_finish_ok hsh (decoys := createDecoys E n) g3
        exact v5_nested_ok hk hc' g1 g2 hb.bl (by rw [hfin]; exact g4) hcd
  | .arr l, _, r, hr => by
    simp only [v5Member, Option.some.injEq] at hr
    subst hr
    exact (v5_array_ok ign hk).all (v5Array_real _ _ _ _ _)
  | .str s, _, r, hr => by
    simp only [v5Member, Option.some.injEq] at hr
    subst hr
    exact (v5_prim_ok ign hk (by simp [IsObj, IsArr]) (by simp)).all (v5Prim_real _ _ _ _ _ _)
  | .num q, _, r, hr => by
    simp only [v5Member, Option.some.injEq] at hr
    subst hr
    exact (v5_prim_ok ign hk (by simp [IsObj, IsArr]) (by simp)).all (v5Prim_real _ _ _ _ _ _)
  | .bool b, _, r, hr => by
    simp only [v5Member, Option.some.injEq] at hr
    subst hr
    exact (v5_prim_ok ign hk (by simp [IsObj, IsArr]) (by simp)).all (v5Prim_real _ _ _ _ _ _)
  | .null, _, r, hr => by simp [v5Member] at hr
theorem v5_loop_ok {E : IEnv} (hsh : Shuffles E) (ign : Bool)
    (path : String) (n : Nat) : ∀ (m : List (String × Json)), NamedKeysObj m → ∀ r,
    v5Loop E ign path n m = some r → Codec E.env (reals (r.level ++ r.nested)) →
    ∃ ms dn, ms.erase = m ∧ V5Policy E.v5 ign path ms ∧
      BlM E.env E.digest ms r.fields (r.level.map Ent.result) dn ∧
      ms.discs.Perm ((reals (r.level ++ r.nested)).map Ent.result)
  | [], _, r, hr, _ => by
    simp only [v5Loop, Option.some.injEq] at hr
    subst hr
    exact ⟨.nil, [], rfl, by simp [V5Policy], by simp [BlM], by simp [Members.discs, reals]⟩
  | (k, v) :: m, hv, r, hr, hc => by
    simp only [v5Loop] at hr
    simp only [NamedKeysObj] at hv
    cases hA : v5Member E ign (curPath path k) k n v with
    | none => rw [hA] at hr; simp at hr
    | some A =>
      rw [hA] at hr
      cases hB : v5Loop E ign path A.next m with
      | none => simp [hB] at hr
      | some B =>
        simp only [hB, Option.some.injEq] at hr
        subst hr
        simp only [Acc.join, reals_append] at hc ⊢
        obtain ⟨a, t, dn1, g1, g2, g3, g4⟩ := v5_member_ok hsh ign (curPath path k) k hv.1 n v
          hv.2.1 A hA (codec_mono hc (by simp only [reals_append, List.mem_append]; intro e h; tauto))
        obtain ⟨ms, dn2, i1, i2, i3, i4⟩ := v5_loop_ok hsh ign path A.next m hv.2.2 B hB
          (codec_mono hc (by simp only [reals_append, List.mem_append]; intro e h; tauto))
        refine ⟨.cons k a t ms, dn1 ++ dn2, ?_, ?_, ?_, ?_⟩
        · simp only [Members.erase, g2, i1]
        · simp only [V5Policy]
          rw [curPath_eq] at g1
          exact ⟨g1, i2⟩
        · have := BlM.append (.cons k a t .nil) ms g3 i3
          simpa [Members.append] using this
        · simp only [Members.discs]
          rw [List.perm_iff_count] at g4 i4 ⊢
          intro x
          have k1 := g4 x
          have k2 := i4 x
          simp only [reals_append, List.map_append, List.count_append] at k1 k2 ⊢
          omega
end

end VC.SDJWT
