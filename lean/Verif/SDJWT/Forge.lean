import Verif.SDJWT.IssuerHolder
/-!
# C138: whoever presents an SD-JWT shows nothing but the issuer's claims

The presenter is arbitrary: it may send any texts as disclosures.  If the verifier accepts them with the
issuer's token, what it sees is part of the claims the issuer put in, or the presenter has found a text with
the hash of another text the issuer wrote.
-/

namespace VC.SDJWT

namespace Spec

/-- Two different texts with the same hash. -/
def Collision (env : Env) (alg s t : String) : Prop := s ≠ t ∧ env.hash alg s = env.hash alg t

/-- A text the issuer hashed: a disclosure it returned, or one of its salts (a decoy). -/
def Written (E : IEnv) (es : List Ent) (t : String) : Prop := t ∈ es.map Ent.result ∨ ∃ i, t = E.salt i

mutual
/-- The first value is a part of the second: array elements and object members may be left out; an empty
array may be null. -/
inductive Within : Json → Json → Prop
  | same (v : Json) : Within v v
  | empty (l : List Json) : Within .null (.arr l)
  | arr {l' l : List Json} : WithinArr l' l → Within (.arr l') (.arr l)
  | obj {m' m : JObj} : WithinObj m' m → Within (.obj m') (.obj m)
/-- Elements of the second list, in order. -/
inductive WithinArr : List Json → List Json → Prop
  | nil : WithinArr [] []
  | drop {v : Json} {l' l : List Json} : WithinArr l' l → WithinArr l' (v :: l)
  | keep {v' v : Json} {l' l : List Json} : Within v' v → WithinArr l' l → WithinArr (v' :: l') (v :: l)
/-- Members of the second object. -/
inductive WithinObj : List (String × Json) → List (String × Json) → Prop
  | nil : WithinObj [] []
  | drop {k : String} {v : Json} {m' m : List (String × Json)} : WithinObj m' m → WithinObj m' ((k, v) :: m)
  | keep {k : String} {v' v : Json} {m' m : List (String × Json)} : Within v' v → WithinObj m' m →
      WithinObj ((k, v') :: m') ((k, v) :: m)
end

end Spec

open Spec

/-! ## Proofs -/

theorem WithinArr.refl : ∀ l : List Json, WithinArr l l
  | [] => .nil
  | v :: l => .keep (.same v) (WithinArr.refl l)

theorem WithinObj.append {a a' b b' : List (String × Json)} (ha : WithinObj a' a) (hb : WithinObj b' b) :
    WithinObj (a' ++ b') (a ++ b) := by
  refine WithinObj.rec (motive_1 := fun _ _ _ => True) (motive_2 := fun _ _ _ => True)
    (motive_3 := fun a' a _ => WithinObj (a' ++ b') (a ++ b)) (fun _ => trivial) (fun _ => trivial)
    (fun _ _ => trivial) (fun _ _ => trivial) trivial (fun _ _ => trivial) (fun _ _ _ _ => trivial) hb ?_ ?_ ha
  · intro k v m' m _ ih; exact .drop ih
  · intro k v' v m' m hv _ _ ih; exact .keep hv ih

mutual
theorem tidy_within : ∀ v : Json, Within (tidy v) v
  | .null => .same _
  | .bool _ => .same _
  | .num _ => .same _
  | .str _ => .same _
  | .arr l => by
    unfold tidy
    split
    · exact .empty l
    · exact .same _
  | .obj m => by
    unfold tidy
    exact .obj (tidyMembers_within m)
theorem tidyMembers_within : ∀ m : List (String × Json), WithinObj (tidyMembers m) m
  | [] => .nil
  | (k, v) :: m => by
    unfold tidyMembers
    split
    · exact .drop (tidyMembers_within m)
    · exact .keep (tidy_within v) (tidyMembers_within m)
end

theorem revealElems_within (S : List String) : ∀ l : List (Option String × Json),
    WithinArr (revealElems S l) (l.map Prod.snd)
  | [] => .nil
  | (none, v) :: l => .keep (.same v) (revealElems_within S l)
  | (some s, v) :: l => by
    unfold revealElems
    split
    · exact .keep (tidy_within v) (revealElems_within S l)
    · exact .drop (revealElems_within S l)

mutual
/-- What is revealed is part of what was issued. -/
theorem reveal_within (S : List String) : ∀ t : Node, Within (t.reveal S) t.erase
  | .plain v => by simp only [Node.reveal, Node.erase]; exact tidy_within v
  | .arr l => by
    simp only [Node.reveal, Node.erase]
    split
    · exact .empty _
    · exact .arr (revealElems_within S l)
  | .obj ms => by simp only [Node.reveal, Node.erase]; exact .obj (members_within S ms)
theorem members_within (S : List String) : ∀ ms : Members, WithinObj (ms.reveal S) ms.erase
  | .nil => .nil
  | .cons k none t ms => by
    simp only [Members.reveal, Members.erase]
    split
    · exact .drop (members_within S ms)
    · exact .keep (reveal_within S t) (members_within S ms)
  | .cons k (some s) t ms => by
    simp only [Members.reveal, Members.erase]
    split
    · exact .keep (reveal_within S t) (members_within S ms)
    · exact .drop (members_within S ms)
end

/-! ### The digests the issuer writes -/

/-- A digest of one of the texts. -/
def OfTexts (E : IEnv) (P : String → Prop) (d : String) : Prop := ∃ t, P t ∧ d = E.digest t

theorem mem_fieldDigests {d : String} : ∀ {m : List (String × Json)}, d ∈ fieldDigests false m →
    ∃ k v, (k, v) ∈ m ∧ k ≠ "_sd" ∧ d ∈ digests false v
  | [], h => by simp [fieldDigests] at h
  | (k, v) :: m, h => by
    simp only [fieldDigests, List.mem_append] at h
    rcases h with h | h
    · split at h
      · exact nomatch h
      · rename_i hk
        exact ⟨k, v, List.mem_cons_self .., fun e => hk (Or.inl e), h⟩
    · obtain ⟨k', v', h1, h2⟩ := mem_fieldDigests h
      exact ⟨k', v', List.mem_cons_of_mem _ h1, h2⟩

theorem mem_digests_obj {d : String} {m : JObj} (h : d ∈ digests false (.obj m)) :
    (∃ v, ("_sd", v) ∈ m ∧ d ∈ strElems v) ∨ ∃ k v, (k, v) ∈ m ∧ k ≠ "_sd" ∧ d ∈ digests false v := by
  simp only [digests, List.mem_append] at h
  rcases h with h | h
  · unfold sdDigests at h
    split at h
    · rename_i v hv
      exact Or.inl ⟨v, GoMap.mem_of_get? hv, h⟩
    · exact nomatch h
  · exact Or.inr (mem_fieldDigests h)

theorem strElems_digestsJson (l : List String) : strElems (digestsJson l) = l :=
  stringArray_elems (stringArray_digestsJson l)

theorem mem_createDigests {E : IEnv} (hsh : Shuffles E) {n : Nat} {es : List Ent} {d : String}
    (h : d ∈ createDigests E n es) : ∃ e ∈ es, d = E.digest e.result := by
  unfold createDigests at h
  obtain ⟨e, he, rfl⟩ := List.mem_map.mp ((hsh _ _).mem_iff.mp h)
  exact ⟨e, he, rfl⟩

theorem decoy_salt {E : IEnv} {n : Nat} {e : Ent} (h : e ∈ createDecoys E n) : E.addDecoys = true ∧ ∃ i, e.result = E.salt i := by
  unfold createDecoys at h
  split at h
  · rename_i hd
    obtain ⟨i, _, rfl⟩ := List.mem_map.mp h
    exact ⟨hd, _, rfl⟩
  · exact nomatch h

theorem unreserved_mem {m : JObj} (h : UnreservedObj m) {k : String} {v : Json} (hm : (k, v) ∈ m) :
    k ≠ "_sd" ∧ Unreserved v := by
  induction m with
  | nil => exact nomatch hm
  | cons p m ih =>
    obtain ⟨k', v'⟩ := p
    simp only [UnreservedObj] at h
    rcases List.mem_cons.mp hm with e | hm
    · simp only [Prod.mk.injEq] at e
      rw [e.1, e.2]
      exact ⟨h.1.1, h.2.1⟩
    · exact ih h.2.2 hm

/-- The members in clear contain only digests of the texts, and the values inside the disclosures too. -/
structure Clean (E : IEnv) (P : String → Prop) (fields : JObj) (es : List Ent) : Prop where
  names : ∀ p ∈ fields, p.1 ≠ "_sd"
  fields : ∀ p ∈ fields, ∀ d ∈ digests false p.2, OfTexts E P d
  values : ∀ e ∈ es, ∀ v, e.debugArr.getLast? = some v → ∀ d ∈ digests false v, OfTexts E P d

theorem Clean.weaken {E : IEnv} {P Q : String → Prop} {f : JObj} {es : List Ent} (h : Clean E P f es)
    (hpq : ∀ t, P t → Q t) : Clean E Q f es where
  names := h.names
  fields := fun p hp d hd => let ⟨t, h1, h2⟩ := h.fields p hp d hd; ⟨t, hpq t h1, h2⟩
  values := fun e he v hv d hd => let ⟨t, h1, h2⟩ := h.values e he v hv d hd; ⟨t, hpq t h1, h2⟩

theorem Clean.append {E : IEnv} {P : String → Prop} {f g : JObj} {es fs : List Ent} (h : Clean E P f es)
    (h' : Clean E P g fs) : Clean E P (f ++ g) (es ++ fs) where
  names := fun p hp => (List.mem_append.mp hp).elim (h.names p) (h'.names p)
  fields := fun p hp => (List.mem_append.mp hp).elim (h.fields p) (h'.fields p)
  values := fun e he => (List.mem_append.mp he).elim (h.values e) (h'.values e)

theorem Clean.perm {E : IEnv} {P : String → Prop} {f : JObj} {es fs : List Ent} (h : Clean E P f es)
    (hp : ∀ e ∈ fs, e ∈ es) : Clean E P f fs where
  names := h.names
  fields := h.fields
  values := fun e he => h.values e (hp e he)

theorem Clean.nil (E : IEnv) (P : String → Prop) : Clean E P [] [] where
  names := fun _ h => (nomatch h)
  fields := fun _ h => (nomatch h)
  values := fun _ h => (nomatch h)

/-- The digests of an object whose members in clear are clean and whose digests are of the texts. -/
theorem Clean.object {E : IEnv} {P : String → Prop} {f : JObj} {es : List Ent} (h : Clean E P f es)
    {a : JObj} {sd : List String} (ha : a = [] ∨ a = [("_sd", digestsJson sd)]) (hsd : ∀ d ∈ sd, OfTexts E P d) :
    ∀ d ∈ digests false (.obj (f ++ a)), OfTexts E P d := by
  intro d hd
  rcases mem_digests_obj hd with ⟨v, hv, hd2⟩ | ⟨k, v, hv, hk, hd2⟩
  · rcases List.mem_append.mp hv with hv | hv
    · exact absurd rfl (h.names _ hv)
    · rcases ha with rfl | rfl
      · exact nomatch hv
      · simp only [List.mem_singleton, Prod.mk.injEq, true_and] at hv
        rw [hv, strElems_digestsJson] at hd2
        exact hsd d hd2
  · rcases List.mem_append.mp hv with hv | hv
    · exact h.fields _ hv d hd2
    · rcases ha with rfl | rfl
      · exact nomatch hv
      · simp only [List.mem_singleton, Prod.mk.injEq] at hv
        exact absurd hv.1 hk

theorem clean_one {E : IEnv} {P : String → Prop} {k : String} {v : Json} (hk : k ≠ "_sd")
    (hd : ∀ d ∈ digests false v, OfTexts E P d) : Clean E P [(k, v)] [] where
  names := by intro p hp; rw [List.mem_singleton.mp hp]; exact hk
  fields := by intro p hp; rw [List.mem_singleton.mp hp]; exact hd
  values := fun _ h => (nomatch h)

theorem clean_disclosure {E : IEnv} {P : String → Prop} {e : Ent} {v : Json} (hv : e.debugArr.getLast? = some v)
    (hd : ∀ d ∈ digests false v, OfTexts E P d) : Clean E P [] [e] where
  names := fun _ h => (nomatch h)
  fields := fun _ h => (nomatch h)
  values := by
    intro e' he v' hv'
    rw [List.mem_singleton.mp he, hv, Option.some.injEq] at hv'
    rw [← hv']
    exact hd

/-! ### V2 -/

theorem v2Leaf_clean {E : IEnv} (P : String → Prop) {cur k : String} {n : Nat} {v : Json} (hk : k ≠ "_sd")
    (hu : Unreserved v) : Clean E P (v2Leaf E cur k n v).fields ((v2Leaf E cur k n v).nested ++ (v2Leaf E cur k n v).level) := by
  have hd : ∀ d ∈ digests false v, OfTexts E P d := by
    rw [digests_unreserved false v hu]; exact fun _ h => (nomatch h)
  unfold v2Leaf
  split
  · exact clean_one hk hd
  · exact clean_disclosure (v := v) rfl hd

mutual
theorem v2Member_clean {E : IEnv} (hsh : Shuffles E) (P : String → Prop) (hsalt : E.addDecoys = true → ∀ i, P (E.salt i)) (cur k : String) (n : Nat)
    (hk : k ≠ "_sd") : ∀ v : Json, Unreserved v →
    (∀ e ∈ (v2Member E cur k n v).nested ++ (v2Member E cur k n v).level, P e.result) →
    Clean E P (v2Member E cur k n v).fields ((v2Member E cur k n v).nested ++ (v2Member E cur k n v).level)
  | .null, hu, _ => by simp only [v2Member]; exact v2Leaf_clean P hk hu
  | .bool _, hu, _ => by simp only [v2Member]; exact v2Leaf_clean P hk hu
  | .num _, hu, _ => by simp only [v2Member]; exact v2Leaf_clean P hk hu
  | .str _, hu, _ => by simp only [v2Member]; exact v2Leaf_clean P hk hu
  | .arr _, hu, _ => by simp only [v2Member]; exact v2Leaf_clean P hk hu
  | .obj o, hu, hP => by
    simp only [v2Member] at hP ⊢
    split
    · rename_i hs
      simp only [hs, if_true, List.append_nil, v2Finish] at hP ⊢
      have hu' : UnreservedObj o := by simpa [Unreserved] using hu
      have hin := v2Loop_clean hsh P hsalt cur (n + (createDecoys E n).length) o hu' hP
      have hobj := hin.object (a := [("_sd", digestsJson (createDigests E
          (v2Loop E cur (n + (createDecoys E n).length) o).next
          ((v2Loop E cur (n + (createDecoys E n).length) o).level ++ createDecoys E n)))]) (Or.inr rfl) (by
        intro d hd
        obtain ⟨e, he, rfl⟩ := mem_createDigests hsh hd
        rcases List.mem_append.mp he with he | he
        · exact ⟨_, hP e (List.mem_append_right _ he), rfl⟩
        · obtain ⟨hd, i, hi⟩ := decoy_salt he
          exact ⟨_, hi ▸ hsalt hd i, rfl⟩)
      have h1 := clean_one hk hobj
      exact ⟨h1.names, h1.fields, hin.values⟩
    · exact v2Leaf_clean P hk hu
theorem v2Loop_clean {E : IEnv} (hsh : Shuffles E) (P : String → Prop) (hsalt : E.addDecoys = true → ∀ i, P (E.salt i)) (path : String) (n : Nat) :
    ∀ m : List (String × Json), UnreservedObj m →
    (∀ e ∈ (v2Loop E path n m).nested ++ (v2Loop E path n m).level, P e.result) →
    Clean E P (v2Loop E path n m).fields ((v2Loop E path n m).nested ++ (v2Loop E path n m).level)
  | [], _, _ => by simp only [v2Loop, List.append_nil]; exact Clean.nil E P
  | (k, v) :: m, hu, hP => by
    simp only [UnreservedObj] at hu
    simp only [v2Loop, Acc.join] at hP ⊢
    have h1 := v2Member_clean hsh P hsalt (curPath path k) k n hu.1.1 v hu.2.1 (fun e he => hP e (by
      rcases List.mem_append.mp he with he | he
      · exact List.mem_append_left _ (List.mem_append_left _ he)
      · exact List.mem_append_right _ (List.mem_append_left _ he)))
    have h2 := v2Loop_clean hsh P hsalt path (v2Member E (curPath path k) k n v).next m hu.2.2 (fun e he => hP e (by
      rcases List.mem_append.mp he with he | he
      · exact List.mem_append_left _ (List.mem_append_right _ he)
      · exact List.mem_append_right _ (List.mem_append_right _ he)))
    refine (h1.append h2).perm ?_
    intro e he
    simp only [List.mem_append] at he ⊢
    tauto
end

/-! ### V5 -/

theorem v5Elems_clean {E : IEnv} (P : String → Prop) (path : String) : ∀ (l : List Json) (i n : Nat), UnreservedArr l →
    (∀ e ∈ (v5Elems E path i n l).2.1, P e.result) →
    (∀ v ∈ (v5Elems E path i n l).1, ∀ d, (placeholder? v).bind Json.asStr? = some d → OfTexts E P d) ∧
    Clean E P [] (v5Elems E path i n l).2.1
  | [], i, n, _, _ => ⟨fun _ h => (nomatch h), Clean.nil E P⟩
  | v :: l, i, n, hu, hP => by
    simp only [UnreservedArr] at hu
    unfold v5Elems at hP ⊢
    split
    · rename_i hc
      simp only [hc, if_true] at hP
      obtain ⟨h1, h2⟩ := v5Elems_clean P path l (i + 1) n hu.2 hP
      refine ⟨?_, h2⟩
      intro x hx d hd
      rcases List.mem_cons.mp hx with rfl | hx
      · rw [placeholder_unreserved hu.1] at hd; exact nomatch hd
      · exact h1 x hx d hd
    · rename_i hc
      simp only [hc, if_neg Bool.false_ne_true] at hP ⊢
      obtain ⟨h1, h2⟩ := v5Elems_clean P path l (i + 1) (n + 1) hu.2 (fun e he => hP e (List.mem_cons_of_mem _ he))
      refine ⟨?_, ?_⟩
      · intro x hx d hd
        rcases List.mem_cons.mp hx with rfl | hx
        · simp only [placeholder?, GoMap.get?_cons, if_true, Option.bind_some, Json.asStr?, Option.some.injEq] at hd
          exact ⟨_, hP _ (List.mem_cons_self ..), hd.symm⟩
        · exact h1 x hx d hd
      · have := (clean_disclosure (E := E) (P := P) (e := v5Disclosure E n "" v) (v := v) (by simp [v5Disclosure])
          (by rw [digests_unreserved false v hu.1]; exact fun _ h => (nomatch h))).append h2
        exact this

theorem elemsJson_clean {E : IEnv} {P : String → Prop} {l : List Json}
    (h : ∀ v ∈ l, ∀ d, (placeholder? v).bind Json.asStr? = some d → OfTexts E P d) :
    ∀ d ∈ digests false (elemsJson l), OfTexts E P d := by
  intro d hd
  unfold elemsJson at hd
  split at hd
  · exact nomatch hd
  · simp only [digests, arrDigests, List.mem_filterMap] at hd
    obtain ⟨v, hv, hd⟩ := hd
    exact h v hv d hd

theorem v5Disclosure_last (E : IEnv) (n : Nat) (k : String) (v : Json) :
    (v5Disclosure E n k v).debugArr.getLast? = some v := by
  unfold v5Disclosure
  dsimp only
  split <;> rfl

theorem v5Prim_clean {E : IEnv} (P : String → Prop) (ign : Bool) {cur k : String} {n : Nat} {v : Json} (hk : k ≠ "_sd")
    (hu : Unreserved v) : Clean E P (v5Prim E ign cur k n v).fields ((v5Prim E ign cur k n v).level ++ (v5Prim E ign cur k n v).nested) := by
  have hd : ∀ d ∈ digests false v, OfTexts E P d := by
    rw [digests_unreserved false v hu]; exact fun _ h => (nomatch h)
  unfold v5Prim
  split
  · exact clean_one hk hd
  · exact clean_disclosure (v5Disclosure_last E n k v) hd

theorem decoys_clean (E : IEnv) (P : String → Prop) (n : Nat) : Clean E P [] (createDecoys E n) where
  names := fun _ h => (nomatch h)
  fields := fun _ h => (nomatch h)
  values := by
    intro e he v hv
    unfold createDecoys at he
    split at he
    · obtain ⟨i, _, rfl⟩ := List.mem_map.mp he
      exact nomatch hv
    · exact nomatch he

theorem v5Finish_clean {E : IEnv} (hsh : Shuffles E) {P : String → Prop} {n : Nat} {r : Acc}
    (hc : Clean E P r.fields (r.level ++ r.nested)) (hP : ∀ e ∈ (v5Finish E (createDecoys E n) r).1, P e.result) :
    (∀ d ∈ digests false (.obj (v5Finish E (createDecoys E n) r).2.1), OfTexts E P d) ∧
      Clean E P [] (v5Finish E (createDecoys E n) r).1 := by
  unfold v5Finish at hP ⊢
  dsimp only at hP ⊢
  constructor
  · refine hc.object (sd := createDigests E r.next (createDecoys E n ++ r.level)) ?_ ?_
    · split
      · exact Or.inl rfl
      · exact Or.inr rfl
    · intro d hd
      obtain ⟨e, he, rfl⟩ := mem_createDigests hsh hd
      exact ⟨_, hP e (List.mem_append_left _ he), rfl⟩
  · have h1 := decoys_clean E P n
    refine ⟨fun _ h => (nomatch h), fun _ h => (nomatch h), ?_⟩
    intro e he
    rw [List.append_assoc] at he
    exact (List.mem_append.mp he).elim (h1.values e) (hc.values e)

theorem v5Nested_clean {E : IEnv} {P : String → Prop} {cur k : String} {out : List Ent × JObj × Nat} (hk : k ≠ "_sd")
    (ho : ∀ d ∈ digests false (.obj out.2.1), OfTexts E P d) (hc : Clean E P [] out.1) :
    Clean E P (v5Nested E cur k out).fields ((v5Nested E cur k out).level ++ (v5Nested E cur k out).nested) := by
  have h1 := clean_one hk ho
  have h2 := (clean_disclosure (v5Disclosure_last E out.2.2 k (.obj out.2.1)) ho).append hc
  unfold v5Nested
  split <;> split
  · exact ⟨h1.names, h1.fields, hc.values⟩
  · exact h2
  · exact ⟨h1.names, h1.fields, hc.values⟩
  · exact h2

theorem v5Array_clean {E : IEnv} (P : String → Prop) {cur k : String} {n : Nat} {l : List Json} (hk : k ≠ "_sd")
    (hu : UnreservedArr l) (hP : ∀ e ∈ (v5Array E cur k n l).level ++ (v5Array E cur k n l).nested, P e.result) :
    Clean E P (v5Array E cur k n l).fields ((v5Array E cur k n l).level ++ (v5Array E cur k n l).nested) := by
  unfold v5Array at hP ⊢
  split
  · refine clean_one hk ?_
    rw [digests_unreserved false (.arr l) (by simpa [Unreserved] using hu)]
    exact fun _ h => (nomatch h)
  · rename_i hc
    rw [if_neg hc] at hP
    dsimp only at hP ⊢
    obtain ⟨h1, h2⟩ := v5Elems_clean P cur l 0 n hu (by
      intro e he
      split at hP <;> exact hP e (List.mem_append_right _ he))
    have h3 := elemsJson_clean h1
    split
    · have := clean_one hk h3
      exact ⟨this.names, this.fields, h2.values⟩
    · exact (clean_disclosure (v5Disclosure_last E _ k _) h3).append h2

mutual
theorem v5Member_clean {E : IEnv} (hsh : Shuffles E) (P : String → Prop) (ign : Bool) (cur k : String) (n : Nat)
    (hk : k ≠ "_sd") : ∀ (v : Json) (a : Acc), Unreserved v → v5Member E ign cur k n v = some a →
    (∀ e ∈ a.level ++ a.nested, P e.result) → Clean E P a.fields (a.level ++ a.nested)
  | .null, a, _, h, _ => by simp only [v5Member] at h; exact nomatch h
  | .bool _, a, hu, h, _ => by
    simp only [v5Member, Option.some.injEq] at h; subst h; exact v5Prim_clean P ign hk hu
  | .num _, a, hu, h, _ => by
    simp only [v5Member, Option.some.injEq] at h; subst h; exact v5Prim_clean P ign hk hu
  | .str _, a, hu, h, _ => by
    simp only [v5Member, Option.some.injEq] at h; subst h; exact v5Prim_clean P ign hk hu
  | .arr l, a, hu, h, hP => by
    simp only [v5Member, Option.some.injEq] at h; subst h
    exact v5Array_clean P hk (by simpa [Unreserved] using hu) hP
  | .obj o, a, hu, h, hP => by
    simp only [v5Member] at h
    split at h
    · simp only [Option.some.injEq] at h
      subst h
      refine clean_one hk ?_
      rw [digests_unreserved false (.obj o) hu]
      exact fun _ h => (nomatch h)
    · obtain ⟨r, hr, rfl⟩ := Option.map_eq_some_iff.mp h
      have hout : ∀ e ∈ (v5Finish E (createDecoys E n) r).1, P e.result := by
        intro e he
        apply hP e
        unfold v5Nested
        split <;> split <;> exact List.mem_append_right _ he
      have hin := v5Loop_clean hsh P _ cur _ o r (by simpa [Unreserved] using hu) hr (fun e he => hout e (by
        unfold v5Finish; dsimp only; rw [List.append_assoc]; exact List.mem_append_right _ he))
      obtain ⟨h1, h2⟩ := v5Finish_clean hsh hin hout
      exact v5Nested_clean hk h1 h2
theorem v5Loop_clean {E : IEnv} (hsh : Shuffles E) (P : String → Prop) (ign : Bool) (path : String) (n : Nat) :
    ∀ (m : List (String × Json)) (a : Acc), UnreservedObj m → v5Loop E ign path n m = some a →
    (∀ e ∈ a.level ++ a.nested, P e.result) → Clean E P a.fields (a.level ++ a.nested)
  | [], a, _, h, _ => by
    simp only [v5Loop, Option.some.injEq] at h; subst h; exact Clean.nil E P
  | (k, v) :: m, a, hu, h, hP => by
    simp only [UnreservedObj] at hu
    simp only [v5Loop] at h
    split at h
    · exact nomatch h
    · rename_i b hb
      split at h
      · exact nomatch h
      · rename_i c hc
        simp only [Option.some.injEq] at h
        subst h
        simp only [Acc.join] at hP ⊢
        have h1 := v5Member_clean hsh P ign _ k n hu.1.1 v b hu.2.1 hb (fun e he => hP e (by
          rcases List.mem_append.mp he with he | he
          · exact List.mem_append_left _ (List.mem_append_left _ he)
          · exact List.mem_append_right _ (List.mem_append_left _ he)))
        have h2 := v5Loop_clean hsh P ign path b.next m c hu.2.2 hc (fun e he => hP e (by
          rcases List.mem_append.mp he with he | he
          · exact List.mem_append_left _ (List.mem_append_right _ he)
          · exact List.mem_append_right _ (List.mem_append_right _ he)))
        refine (h1.append h2).perm ?_
        intro e he
        simp only [List.mem_append] at he ⊢
        tauto
end

/-! ### The payload -/

theorem mem_merge {p : String × Json} : ∀ {cf obj : JObj}, p ∈ JsonUtil.addCustomFields obj cf → p ∈ obj ∨ p ∈ cf
  | [], obj, h => Or.inl h
  | (k, v) :: cf, obj, h => by
    unfold JsonUtil.addCustomFields at h
    rcases mem_merge h with h | h
    · split at h
      · exact Or.inl h
      · rename_i hn
        rw [JsonUtil.set_absent obj k v (by simpa using hn)] at h
        rcases List.mem_append.mp h with h | h
        · exact Or.inl h
        · exact Or.inr (List.mem_singleton.mp h ▸ List.mem_cons_self ..)
    · exact Or.inr (List.mem_cons_of_mem _ h)

theorem merge_keeps {k : String} {v : Json} : ∀ {cf obj : JObj}, GoMap.get? obj k = some v →
    GoMap.get? (JsonUtil.addCustomFields obj cf) k = some v
  | [], obj, h => h
  | (k', v') :: cf, obj, h => by
    unfold JsonUtil.addCustomFields
    split
    · exact merge_keeps h
    · rename_i hn
      refine merge_keeps ?_
      rw [JsonUtil.set_absent obj k' v' (by simpa using hn), GoMap.get?_append, h]
      rfl

theorem payload_alg {E : IEnv} (halg : AlgOk E) (o : BaseOpts) (g : JObj) :
    getHashAlg E.env (mkPayload E o g) = some E.alg := by
  refine alg_of halg (merge_keeps ?_)
  have hn : GoMap.get? (basePayload o) "_sd_alg" = none := by
    rw [GoMap.get?_eq_none_iff]
    intro h
    exact absurd ((base_keys o).subset h) (by simp [baseNames])
  rw [GoMap.get?_append, hn]
  simp [strField, halg.1, GoMap.get?_cons]

theorem payload_digests {E : IEnv} {o : BaseOpts} (hcnf : CnfOk o) {P : String → Prop} {f a : JObj} {es : List Ent}
    {sd : List String} (h : Clean E P f es) (ha : a = [] ∨ a = [("_sd", digestsJson sd)])
    (hsd : ∀ d ∈ sd, OfTexts E P d) : ∀ d ∈ digests false (.obj (mkPayload E o (f ++ a))), OfTexts E P d := by
  have hbase : ∀ p ∈ basePayload o ++ strField "_sd_alg" (E.lower E.alg), p.1 ≠ "_sd" ∧ digests false p.2 = [] := by
    intro p hp
    rcases List.mem_append.mp hp with hp | hp
    · obtain ⟨h1, h2⟩ := unreserved_mem (base_unreserved hcnf) hp
      exact ⟨h1, digests_unreserved false _ h2⟩
    · unfold strField at hp
      split at hp
      · exact nomatch hp
      · rw [List.mem_singleton.mp hp]
        exact ⟨by simp, rfl⟩
  intro d hd
  rcases mem_digests_obj hd with ⟨v, hv, hd2⟩ | ⟨k, v, hv, hk, hd2⟩
  · rcases mem_merge hv with hv | hv
    · exact absurd rfl (hbase _ hv).1
    · rcases List.mem_append.mp hv with hv | hv
      · exact absurd rfl (h.names _ hv)
      · rcases ha with rfl | rfl
        · exact nomatch hv
        · simp only [List.mem_singleton, Prod.mk.injEq, true_and] at hv
          rw [hv, strElems_digestsJson] at hd2
          exact hsd d hd2
  · rcases mem_merge hv with hv | hv
    · have hz := (hbase _ hv).2
      dsimp only at hz
      rw [hz] at hd2
      exact nomatch hd2
    · rcases List.mem_append.mp hv with hv | hv
      · exact h.fields _ hv d hd2
      · rcases ha with rfl | rfl
        · exact nomatch hv
        · simp only [List.mem_singleton, Prod.mk.injEq] at hv
          exact absurd hv.1 hk

/-! ### Any presenter -/

theorem accepted_decodes {env : Env} {S : List String} {payload : JObj} (hacc : verifyDisclosures env S payload = .ok ()) :
    ∀ s ∈ S, ∃ arr, env.decode s = some arr := by
  unfold verifyDisclosures at hacc
  split at hacc
  · exact nomatch hacc
  · split at hacc
    · exact nomatch hacc
    · rename_i D hD
      intro s hs
      obtain ⟨arr, h, _⟩ := getDisclosureClaims_all S [] D hD s hs
      exact ⟨arr, h⟩


/-- If the issuer wrote only digests of its own texts, what is accepted are its disclosures, or there is a
collision. -/
theorem accepted_written {E : IEnv} (halg : AlgOk E) {o : BaseOpts} {g payload : JObj} {es : List Ent}
    (hpay : payload = mkPayload E o g)
    (hplain : ∀ i, E.env.decode (E.salt i) = none)
    (hcodec : ∀ e ∈ es, ∀ arr, E.env.decode e.result = some arr → arr = e.debugArr)
    (hd : ∀ d ∈ digests false (.obj payload), OfTexts E (Written E es) d)
    (hv : ∀ e ∈ es, ∀ v, e.debugArr.getLast? = some v → ∀ d ∈ digests false v, OfTexts E (Written E es) d)
    {S : List String} (hacc : verifyDisclosures E.env S payload = .ok ()) :
    (∃ s ∈ S, ∃ t, Written E es t ∧ Collision E.env E.alg s t) ∨ ∀ s ∈ S, s ∈ es.map Ent.result := by
  by_cases hcol : ∃ s ∈ S, ∃ t, Written E es t ∧ Collision E.env E.alg s t
  · exact Or.inl hcol
  refine Or.inr ?_
  have same : ∀ s ∈ S, OfTexts E (Written E es) (E.env.hash E.alg s) → Written E es s := by
    rintro s hs ⟨t, ht, he⟩
    by_cases hst : s = t
    · rw [hst]; exact ht
    · exact absurd ⟨s, hs, t, ht, hst, he⟩ hcol
  have hdec := accepted_decodes hacc
  have issued : ∀ s ∈ S, Written E es s → s ∈ es.map Ent.result := by
    intro s hs hw
    rcases hw with hw | ⟨i, rfl⟩
    · exact hw
    · obtain ⟨arr, ha⟩ := hdec _ hs
      rw [hplain] at ha
      exact nomatch ha
  obtain ⟨alg, h1, h2⟩ := accepted_disclosures_committed hacc
  rw [hpay, payload_alg halg, Option.some.injEq] at h1
  subst h1
  have key : ∀ d, Committed E.env E.alg S payload d → OfTexts E (Written E es) d := by
    intro d hc
    induction hc with
    | payload h => exact hd _ h
    | @nested s arr v d hs _ hdc _ hlast hdv ih =>
      obtain ⟨e, he, rfl⟩ := List.mem_map.mp (issued s hs (same s hs ih))
      obtain rfl := hcodec e he arr hdc
      exact hv e he v hlast d hdv
  intro s hs
  exact issued s hs (same s hs (key _ (h2 s hs)))

/-- Every digest in the object and in the values of the disclosures is that of one of the disclosures. -/
structure OwnDigests (E : IEnv) (es : List Ent) (g : JObj) : Prop where
  inside : ∀ d ∈ digests false (.obj g), OfTexts E (fun t => t ∈ es.map Ent.result) d
  values : ∀ e ∈ es, ∀ v, e.debugArr.getLast? = some v → ∀ d ∈ digests false v,
    OfTexts E (fun t => t ∈ es.map Ent.result) d

theorem v2Build_own {E : IEnv} (hsh : Shuffles E) (hd : E.addDecoys = false) {claims : JObj} (hu : UnreservedObj claims) :
    OwnDigests E (v2Build E claims).1 (v2Build E claims).2.1 := by
  unfold v2Build v2Finish
  have hw : ∀ e ∈ (v2Loop E "" (createDecoys E 0).length claims).nested ++ (v2Loop E "" (createDecoys E 0).length claims).level,
      e.result ∈ ((v2Loop E "" (createDecoys E 0).length claims).nested ++
        (v2Loop E "" (createDecoys E 0).length claims).level).map Ent.result :=
    fun e he => List.mem_map.mpr ⟨e, he, rfl⟩
  have hcl := v2Loop_clean hsh _ (fun h => absurd h (by rw [hd]; exact Bool.false_ne_true)) "" (createDecoys E 0).length
    claims hu hw
  refine ⟨hcl.object (Or.inr rfl) ?_, hcl.values⟩
  intro d hm
  obtain ⟨e, he, rfl⟩ := mem_createDigests hsh hm
  rcases List.mem_append.mp he with he | he
  · exact ⟨_, hw e (List.mem_append_right _ he), rfl⟩
  · exact absurd (decoy_salt he).1 (by rw [hd]; exact Bool.false_ne_true)

theorem v5Build_own {E : IEnv} (hsh : Shuffles E) {claims : JObj} (hu : UnreservedObj claims) {r : List Ent × JObj × Nat}
    (hr : v5Build E claims = some r) : OwnDigests E r.1 r.2.1 := by
  unfold v5Build at hr
  rw [Option.map_eq_some_iff] at hr
  obtain ⟨a, ha, rfl⟩ := hr
  have hw : ∀ e ∈ createDecoys E 0 ++ a.level ++ a.nested,
      e.result ∈ (createDecoys E 0 ++ a.level ++ a.nested).map Ent.result := fun e he => List.mem_map.mpr ⟨e, he, rfl⟩
  have hcl := v5Loop_clean hsh _ false "" _ claims a hu ha (fun e he => hw e (by
    rw [List.append_assoc]; exact List.mem_append_right _ he))
  unfold v5Finish
  dsimp only
  refine ⟨hcl.object (sd := createDigests E a.next (createDecoys E 0 ++ a.level)) ?_ ?_, ?_⟩
  · split
    · exact Or.inl rfl
    · exact Or.inr rfl
  · intro d hd
    obtain ⟨e, hm, rfl⟩ := mem_createDigests hsh hd
    exact ⟨_, hw e (List.mem_append_left _ hm), rfl⟩
  · intro e hm
    have h1 := decoys_clean E (fun t => t ∈ (createDecoys E 0 ++ a.level ++ a.nested).map Ent.result) 0
    rw [List.append_assoc] at hm
    exact (List.mem_append.mp hm).elim (h1.values e) (hcl.values e)

/-- If an object and the texts commit only to the texts, what is accepted with the object are the texts, or
there is a collision. -/
theorem accepted_texts {env : Env} {alg : String} {payload : JObj} {P : String → Prop} (halg : getHashAlg env payload = some alg)
    (hd : ∀ d ∈ digests false (.obj payload), ∃ t, P t ∧ d = env.hash alg t)
    (hv : ∀ s, P s → ∀ arr v, env.decode s = some arr → arr.getLast? = some v → ∀ d ∈ digests false v,
      ∃ t, P t ∧ d = env.hash alg t)
    {S : List String} (hacc : verifyDisclosures env S payload = .ok ()) :
    (∃ s ∈ S, ∃ t, P t ∧ Collision env alg s t) ∨ ∀ s ∈ S, P s := by
  by_cases hcol : ∃ s ∈ S, ∃ t, P t ∧ Collision env alg s t
  · exact Or.inl hcol
  refine Or.inr ?_
  have same : ∀ s ∈ S, (∃ t, P t ∧ env.hash alg s = env.hash alg t) → P s := by
    rintro s hs ⟨t, ht, he⟩
    by_cases hst : s = t
    · rw [hst]; exact ht
    · exact absurd ⟨s, hs, t, ht, hst, he⟩ hcol
  obtain ⟨alg', h1, h2⟩ := accepted_disclosures_committed hacc
  rw [halg, Option.some.injEq] at h1
  subst h1
  have key : ∀ d, Committed env alg S payload d → ∃ t, P t ∧ d = env.hash alg t := by
    intro d hc
    induction hc with
    | payload h => exact hd _ h
    | @nested s arr v d hs _ hdc _ hlast hdv ih => exact hv s (same s hs ih) arr v hdc hlast d hdv
  exact fun s hs => same s hs (key _ (h2 s hs))

theorem codec_weak {env : Env} {es : List Ent} (h : Codec env es) :
    ∀ e ∈ es, ∀ arr, env.decode e.result = some arr → arr = e.debugArr := by
  intro e he arr ha
  rw [h e he, Option.some.injEq] at ha
  exact ha.symm

/-- C138 (V2): what any presenter can get accepted with the issuer's token. -/
theorem presented_within_v2 {E : IEnv} (he : EnvWF E.env) (hsh : Shuffles E) (halg : AlgOk E)
    {o : BaseOpts} (hcnf : CnfOk o) {claims payload : JObj} (hc : ClaimsOk o claims) {es : List Ent}
    (hnew : newV2 E o claims = .ok (es, payload)) (hcodec : Codec E.env es)
    (hplain : ∀ i, E.env.decode (E.salt i) = none)
    (hn : DistinctDigests E.env payload (es.map Ent.result))
    {S : List String} (hS : S.Nodup) (hacc : verifyDisclosures E.env S payload = .ok ()) :
    (∃ s ∈ S, ∃ t, Written E es t ∧ Collision E.env E.alg s t) ∨
    ((∀ s ∈ S, s ∈ es.map Ent.result) ∧ ∃ shown, WithinObj shown (basePayload o ++ claims) ∧
      ∀ order : DMap → List String, (∀ D, ∀ d ∈ GoMap.keys D, d ∈ order D) →
        ∃ out, disclosedClaims E.env S payload order = .ok out ∧ OEq out shown) := by
  obtain ⟨ms, h1, _, _, h4⟩ := v2_issue_present_verify he hsh halg hcnf hc hnew hcodec hn
  unfold newV2 at hnew
  split at hnew
  · exact nomatch hnew
  · simp only [Except.ok.injEq, Prod.mk.injEq] at hnew
    obtain ⟨hes, hpay⟩ := hnew
    simp only [v2Build, v2Finish] at hes hpay
    have hcl := v2Loop_clean hsh (Written E es) (fun _ i => Or.inr ⟨i, rfl⟩) "" (createDecoys E 0).length claims hc.unreserved
      (fun e he => Or.inl (List.mem_map.mpr ⟨e, hes ▸ he, rfl⟩))
    have hpd : ∀ d ∈ digests false (.obj payload), OfTexts E (Written E es) d := by
      rw [← hpay]
      refine payload_digests hcnf hcl (Or.inr rfl) ?_
      intro d hd
      obtain ⟨e, hm, rfl⟩ := mem_createDigests hsh hd
      rcases List.mem_append.mp hm with hm | hm
      · exact ⟨_, Or.inl (List.mem_map.mpr ⟨e, hes ▸ List.mem_append_right _ hm, rfl⟩), rfl⟩
      · obtain ⟨-, i, hi⟩ := decoy_salt hm
        exact ⟨_, Or.inr ⟨i, hi⟩, rfl⟩
    rcases accepted_written halg hpay.symm hplain (codec_weak hcodec) hpd
      (fun e hm => hcl.values e (by rw [hes]; exact hm)) hacc with hcol | hiss
    · exact Or.inl hcol
    · refine Or.inr ⟨hiss, tidyMembers (basePayload o) ++ ms.reveal S, ?_, fun order ho => (h4 S order hiss hS ho).2⟩
      rw [← h1]
      exact WithinObj.append (tidyMembers_within _) (members_within S ms)

/-- C138 (V5, whatever the decoys): the accepted disclosures are the issuer's, or there is a collision. -/
theorem presented_issued_v5 {E : IEnv} (hsh : Shuffles E) (halg : AlgOk E)
    {o : BaseOpts} (hcnf : CnfOk o) {claims payload : JObj} (hu : UnreservedObj claims) {es : List Ent}
    (hnew : newV5 E o claims = .ok (es, payload))
    (hcodec : ∀ e ∈ es, ∀ arr, E.env.decode e.result = some arr → arr = e.debugArr)
    (hplain : ∀ i, E.env.decode (E.salt i) = none)
    {S : List String} (hacc : verifyDisclosures E.env S payload = .ok ()) :
    (∃ s ∈ S, ∃ t, Written E es t ∧ Collision E.env E.alg s t) ∨ ∀ s ∈ S, s ∈ es.map Ent.result := by
  unfold newV5 v5Build at hnew
  split at hnew
  · exact nomatch hnew
  · cases hr : v5Loop E false "" (createDecoys E 0).length claims with
    | none => rw [hr] at hnew; exact nomatch hnew
    | some r =>
      rw [hr, Option.map_some] at hnew
      simp only [Except.ok.injEq, Prod.mk.injEq] at hnew
      obtain ⟨hes, hpay⟩ := hnew
      have hw : ∀ e ∈ es, Written E es e.result := fun e he => Or.inl (List.mem_map.mpr ⟨e, he, rfl⟩)
      have hes' : createDecoys E 0 ++ r.level ++ r.nested = es := hes
      have hcl := v5Loop_clean hsh (Written E es) false "" _ claims r hu hr (fun e he => hw e (by
        rw [← hes', List.append_assoc]; exact List.mem_append_right _ he))
      have hpd : ∀ d ∈ digests false (.obj payload), OfTexts E (Written E es) d := by
        rw [← hpay]
        refine payload_digests hcnf hcl (sd := createDigests E r.next (createDecoys E 0 ++ r.level)) ?_ ?_
        · split
          · exact Or.inl rfl
          · exact Or.inr rfl
        · intro d hd
          obtain ⟨e, hm, rfl⟩ := mem_createDigests hsh hd
          exact ⟨_, hw e (by rw [← hes']; exact List.mem_append_left _ hm), rfl⟩
      refine accepted_written halg hpay.symm hplain hcodec hpd ?_ hacc
      intro e hm
      have h1 := decoys_clean E (Written E es) 0
      rw [← hes', List.append_assoc] at hm
      exact (List.mem_append.mp hm).elim (h1.values e) (hcl.values e)

theorem codec_reals {env : Env} {es : List Ent} (h : Codec env (reals es))
    (hd : ∀ e ∈ es, e.debugArr = [] → env.decode e.result = none) :
    ∀ e ∈ es, ∀ arr, env.decode e.result = some arr → arr = e.debugArr := by
  intro e he arr ha
  by_cases hr : e.debugArr = []
  · rw [hd e he hr] at ha; exact nomatch ha
  · rw [h e (List.mem_filter.mpr ⟨he, by simpa using hr⟩), Option.some.injEq] at ha
    exact ha.symm

mutual
theorem v5Member_bare {E : IEnv} (ign : Bool) (cur k : String) (n : Nat) :
    ∀ v r, v5Member E ign cur k n v = some r → ∀ e ∈ r.level ++ r.nested, e.debugArr = [] → ∃ i, e.result = E.salt i
  | .obj o, r, hr => by
    simp only [v5Member] at hr
    split at hr
    · cases hr; exact fun _ h => (nomatch h)
    · cases hl : v5Loop E (v5Ignore E cur) cur (n + (createDecoys E n).length) o with
      | none => rw [hl] at hr; simp at hr
      | some a =>
        rw [hl] at hr
        simp only [Option.map_some, Option.some.injEq] at hr
        subst hr
        have ih := v5Loop_bare (v5Ignore E cur) cur _ o a hl
        have ih' : ∀ e ∈ (v5Finish E (createDecoys E n) a).1, e.debugArr = [] → ∃ i, e.result = E.salt i := by
          intro e he
          simp only [v5Finish, List.append_assoc] at he
          rcases List.mem_append.mp he with he | he
          · exact fun _ => (decoy_salt he).2
          · exact ih e he
        intro e he
        unfold v5Nested at he
        split at he <;> split at he
        all_goals
          simp only [List.mem_append, List.mem_singleton, List.not_mem_nil, false_or] at he
          first
          | exact ih' e he
          | (rcases he with rfl | he
             · exact fun h0 => absurd h0 (v5Disclosure_real _ _ _ _)
             · exact ih' e he)
  | .arr l, r, hr => by
    simp only [v5Member, Option.some.injEq] at hr
    subst hr; exact fun e he h0 => absurd h0 (v5Array_real _ _ _ _ _ e he)
  | .str s, r, hr => by
    simp only [v5Member, Option.some.injEq] at hr
    subst hr; exact fun e he h0 => absurd h0 (v5Prim_real _ _ _ _ _ _ e he)
  | .num q, r, hr => by
    simp only [v5Member, Option.some.injEq] at hr
    subst hr; exact fun e he h0 => absurd h0 (v5Prim_real _ _ _ _ _ _ e he)
  | .bool b, r, hr => by
    simp only [v5Member, Option.some.injEq] at hr
    subst hr; exact fun e he h0 => absurd h0 (v5Prim_real _ _ _ _ _ _ e he)
  | .null, r, hr => by simp [v5Member] at hr
theorem v5Loop_bare {E : IEnv} (ign : Bool) (path : String) (n : Nat) :
    ∀ m r, v5Loop E ign path n m = some r → ∀ e ∈ r.level ++ r.nested, e.debugArr = [] → ∃ i, e.result = E.salt i
  | [], r, hr => by
    simp only [v5Loop, Option.some.injEq] at hr
    subst hr; exact fun _ h => (nomatch h)
  | (k, v) :: m, r, hr => by
    simp only [v5Loop] at hr
    cases hA : v5Member E ign (curPath path k) k n v with
    | none => rw [hA] at hr; simp at hr
    | some A =>
      rw [hA] at hr
      cases hB : v5Loop E ign path A.next m with
      | none => simp [hB] at hr
      | some B =>
        simp only [hB, Option.some.injEq] at hr
        subst hr
        have h1 := v5Member_bare ign (curPath path k) k n v A hA
        have h2 := v5Loop_bare ign path A.next m B hB
        intro e he
        simp only [Acc.join, List.mem_append] at he h1 h2
        rcases he with (he | he) | (he | he)
        · exact h1 e (Or.inl he)
        · exact h2 e (Or.inl he)
        · exact h1 e (Or.inr he)
        · exact h2 e (Or.inr he)
end

/-- What V5 returns and is no disclosure is a salt. -/
theorem newV5_bare {E : IEnv} {o : BaseOpts} {claims payload : JObj} {es : List Ent}
    (hnew : newV5 E o claims = .ok (es, payload)) : ∀ e ∈ es, e.debugArr = [] → ∃ i, e.result = E.salt i := by
  unfold newV5 v5Build at hnew
  split at hnew
  · exact nomatch hnew
  · cases hl : v5Loop E false "" (createDecoys E 0).length claims with
    | none => rw [hl] at hnew; simp at hnew
    | some r =>
      rw [hl] at hnew
      simp only [Option.map_some, Except.ok.injEq, Prod.mk.injEq] at hnew
      obtain ⟨rfl, -⟩ := hnew
      intro e he
      simp only [v5Finish, List.append_assoc] at he
      rcases List.mem_append.mp he with he | he
      · exact fun _ => (decoy_salt he).2
      · exact v5Loop_bare false "" _ claims r hl e he

/-- C138 (V5, decoys or not). -/
theorem presented_within_v5 {E : IEnv} (he : EnvWF E.env) (hsh : Shuffles E) (halg : AlgOk E)
    {o : BaseOpts} (hcnf : CnfOk o) {claims payload : JObj} (hc : ClaimsOk o claims) (hnk : NamedKeysObj claims)
    {es : List Ent} (hnew : newV5 E o claims = .ok (es, payload)) (hcodec : Codec E.env (reals es))
    (hplain : ∀ i, E.env.decode (E.salt i) = none)
    (hn : DistinctDigests E.env payload (es.map Ent.result))
    {S : List String} (hS : S.Nodup) (hacc : verifyDisclosures E.env S payload = .ok ()) :
    (∃ s ∈ S, ∃ t, Written E es t ∧ Collision E.env E.alg s t) ∨
    ((∀ s ∈ S, s ∈ es.map Ent.result) ∧ ∃ shown, WithinObj shown (basePayload o ++ claims) ∧
      ∀ order : DMap → List String, (∀ D, ∀ d ∈ GoMap.keys D, d ∈ order D) →
        ∃ out, disclosedClaims E.env S payload order = .ok out ∧ OEq out shown) := by
  obtain ⟨ms, h1, _, _, h4⟩ := v5_issue_present_verify he hsh halg hcnf hc hnk hnew hcodec hn
  have hbare : ∀ e ∈ es, e.debugArr = [] → E.env.decode e.result = none := by
    intro e hm h0
    obtain ⟨i, hi⟩ := newV5_bare hnew e hm h0
    rw [hi]; exact hplain i
  rcases presented_issued_v5 hsh halg hcnf hc.unreserved hnew (codec_reals hcodec hbare) hplain hacc with hcol | hiss
  · exact Or.inl hcol
  · have hreal : ∀ s ∈ S, s ∈ (reals es).map Ent.result := by
      intro s hs
      obtain ⟨e, hm, rfl⟩ := List.mem_map.mp (hiss s hs)
      refine List.mem_map.mpr ⟨e, List.mem_filter.mpr ⟨hm, ?_⟩, rfl⟩
      obtain ⟨arr, ha⟩ := accepted_decodes hacc _ hs
      cases h0 : e.debugArr with
      | nil => rw [hbare e hm h0] at ha; exact nomatch ha
      | cons => rfl
    refine Or.inr ⟨hiss, tidyMembers (basePayload o) ++ ms.reveal S, ?_, fun order ho => (h4 S order hreal hS ho).2⟩
    rw [← h1]
    exact WithinObj.append (tidyMembers_within _) (members_within S ms)

/-- C138 at the verifier (V2): whatever text it is sent, if the signed token in it is the issuer's, the claims
it returns are part of the issuer's, or the text contains a collision. -/
theorem verifier_sees_issued {E : IEnv} {lib : VLib} (hlib : lib.env = E.env) (he : EnvWF E.env) (hsh : Shuffles E)
    (halg : AlgOk E) {o : BaseOpts} (hcnf : CnfOk o) {claims payload : JObj} (hc : ClaimsOk o claims)
    {es : List Ent} (hnew : newV2 E o claims = .ok (es, payload)) (hcodec : Codec E.env es)
    (hplain : ∀ i, E.env.decode (E.salt i) = none)
    (hn : DistinctDigests E.env payload (es.map Ent.result))
    {vo : VOpts} {order : DMap → List String} (ho : ∀ D, ∀ d ∈ GoMap.keys D, d ∈ order D) {text : String} {out : JObj}
    (htok : ∀ tok pl, JWT.parseAndCheckProof lib.jwt vo.pc true vo.detached (parsePresentation text).sdJWT = .ok (tok, pl) →
      tok.payload = payload)
    (h : verifierParse lib vo order text = .ok out) :
    (∃ s ∈ (parsePresentation text).disclosures, ∃ t, Written E es t ∧ Collision E.env E.alg s t) ∨
    ∃ shown, WithinObj shown (basePayload o ++ claims) ∧ OEq out shown := by
  obtain ⟨tok, ha, hout⟩ := (verifier_parse_iff lib vo order text out).mp h
  obtain ⟨pl, hp⟩ := ha.proof
  have htp := htok tok pl hp
  have hd := ha.disclosures
  rw [htp, hlib] at hd hout
  rcases presented_within_v2 he hsh halg hcnf hc hnew hcodec hplain hn ha.nodup hd with hcol | ⟨_, shown, hw, hall⟩
  · exact Or.inl hcol
  · obtain ⟨out', h1, h2⟩ := hall order ho
    rw [hout, Except.ok.injEq] at h1
    exact Or.inr ⟨shown, hw, h1 ▸ h2⟩

/-- C138 at the verifier (V5). -/
theorem verifier_sees_issued_v5 {E : IEnv} {lib : VLib} (hlib : lib.env = E.env) (he : EnvWF E.env)
    (hsh : Shuffles E) (halg : AlgOk E) {o : BaseOpts} (hcnf : CnfOk o)
    {claims payload : JObj} (hc : ClaimsOk o claims) (hnk : NamedKeysObj claims)
    {es : List Ent} (hnew : newV5 E o claims = .ok (es, payload)) (hcodec : Codec E.env (reals es))
    (hplain : ∀ i, E.env.decode (E.salt i) = none)
    (hn : DistinctDigests E.env payload (es.map Ent.result))
    {vo : VOpts} {order : DMap → List String} (ho : ∀ D, ∀ d ∈ GoMap.keys D, d ∈ order D) {text : String} {out : JObj}
    (htok : ∀ tok pl, JWT.parseAndCheckProof lib.jwt vo.pc true vo.detached (parsePresentation text).sdJWT = .ok (tok, pl) →
      tok.payload = payload)
    (h : verifierParse lib vo order text = .ok out) :
    (∃ s ∈ (parsePresentation text).disclosures, ∃ t, Written E es t ∧ Collision E.env E.alg s t) ∨
    ∃ shown, WithinObj shown (basePayload o ++ claims) ∧ OEq out shown := by
  obtain ⟨tok, ha, hout⟩ := (verifier_parse_iff lib vo order text out).mp h
  obtain ⟨pl, hp⟩ := ha.proof
  have htp := htok tok pl hp
  have hd := ha.disclosures
  rw [htp, hlib] at hd hout
  rcases presented_within_v5 he hsh halg hcnf hc hnk hnew hcodec hplain hn ha.nodup hd with
    hcol | ⟨_, shown, hw, hall⟩
  · exact Or.inl hcol
  · obtain ⟨out', h1, h2⟩ := hall order ho
    rw [hout, Except.ok.injEq] at h1
    exact Or.inr ⟨shown, hw, h1 ▸ h2⟩

end VC.SDJWT
