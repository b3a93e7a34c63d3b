import Verif.Verifiable.ClaimNames
import Verif.Verifiable.JWTRoundTrip
/-!
# verifiable: what the names of the claims mean for tokens (C142)

The object of the token, agreement with the reading by exact names on plain documents, the issuer of the
decoded credential, and the issuer against which `ParseAndCheckProof` checks the proof.
-/

namespace VC.Vfy.Nam

open GoMap

/-! ## The object -/

/-- The object of the token (`vc`, `vp`): the objects of the members so named since the last null,
merged, a later one winning. -/
def BodyClaim (doc : List (String × Json)) (body : String) : Option JObj → Prop
  | none => (∀ e ∈ doc, ¬ Spells e.1 body) ∨
      ∃ pre k post, doc = pre ++ (k, .null) :: post ∧ Spells k body ∧ ∀ e ∈ post, ¬ Spells e.1 body
  | some o => ∃ pre post, doc = pre ++ post ∧
      ((∀ e ∈ pre, ¬ Spells e.1 body) ∨ ∃ p k, pre = p ++ [(k, .null)] ∧ Spells k body) ∧
      (∃ e ∈ post, Spells e.1 body) ∧
      (∀ e ∈ post, Spells e.1 body → ∃ o', e.2 = .obj o') ∧
      ∀ key w, get? o key = some w ↔
        ∃ p k o' q, post = p ++ (k, .obj o') :: q ∧ Spells k body ∧ get? o' key = some w ∧
          ∀ e ∈ q, ∀ o'', Spells e.1 body → e.2 = .obj o'' → get? o'' key = none

theorem get?_foldl_set (o : JObj) (hwf : WF o) (m : JObj) (key : String) :
    get? (o.foldl (fun m e => set m e.1 e.2) m) key = (get? o key).or (get? m key) := by
  induction o generalizing m with
  | nil => simp
  | cons e o ih =>
    obtain ⟨k, v⟩ := e
    have hwf' : k ∉ keys o ∧ WF o := by
      have : (k :: keys o).Nodup := hwf
      exact List.nodup_cons.1 this
    rw [List.foldl_cons, ih hwf'.2, get?_set, get?_cons]
    by_cases h : k = key
    · subst h
      have : get? o k = none := get?_eq_none_iff.2 hwf'.1
      simp [this]
    · simp [h]

theorem bodyClaim_other {doc : List (String × Json)} {body : String} {m : Option JObj} {e : String × Json}
    (h : BodyClaim doc body m) (he : ¬ Spells e.1 body) : BodyClaim (doc ++ [e]) body m := by
  cases m with
  | none =>
    rcases h with h | ⟨pre, k, post, rfl, h1, h2⟩
    · left
      intro e' he'
      rcases List.mem_append.1 he' with he' | he'
      · exact h e' he'
      · rw [List.mem_singleton.1 he']; exact he
    · right
      refine ⟨pre, k, post ++ [e], by simp, h1, ?_⟩
      intro e' he'
      rcases List.mem_append.1 he' with he' | he'
      · exact h2 e' he'
      · rw [List.mem_singleton.1 he']; exact he
  | some o =>
    obtain ⟨pre, post, rfl, h1, ⟨e0, m0, s0⟩, h3, h4⟩ := h
    refine ⟨pre, post ++ [e], by simp, h1, ⟨e0, List.mem_append_left _ m0, s0⟩, ?_, ?_⟩
    · intro e' he' hs
      rcases List.mem_append.1 he' with he' | he'
      · exact h3 e' he' hs
      · rw [List.mem_singleton.1 he'] at hs; exact absurd hs he
    · intro key w
      rw [h4]
      constructor
      · rintro ⟨p, k, o', q, rfl, hk, hg, hq⟩
        refine ⟨p, k, o', q ++ [e], by simp, hk, hg, ?_⟩
        intro e' he' o'' hs
        rcases List.mem_append.1 he' with he' | he'
        · exact hq e' he' o'' hs
        · rw [List.mem_singleton.1 he'] at hs; exact absurd hs he
      · rintro ⟨p, k, o', q, hpost, hk, hg, hq⟩
        rcases List.eq_nil_or_concat q with rfl | ⟨q', l, rfl⟩
        · have := List.append_inj' hpost rfl
          have e2 := (List.cons.inj this.2).1
          rw [e2] at he; exact absurd hk he
        · rw [List.concat_eq_append, ← List.cons_append, ← List.append_assoc] at hpost
          have := List.append_inj' hpost rfl
          refine ⟨p, k, o', q', this.1, hk, hg, ?_⟩
          intro e' he' o'' hs
          exact hq e' (by rw [List.concat_eq_append]; exact List.mem_append_left _ he') o'' hs

theorem bodyClaim_first {doc : List (String × Json)} {body k : String} {o : JObj}
    (h : BodyClaim doc body none) (hk : Spells k body) : BodyClaim (doc ++ [(k, .obj o)]) body (some o) := by
  have last : ∀ (nb : List (String × Json)), (∀ e ∈ nb, ¬ Spells e.1 body) → ∀ key w, get? o key = some w ↔
      ∃ p k' o' q, nb ++ [(k, Json.obj o)] = p ++ (k', .obj o') :: q ∧ Spells k' body ∧
        get? o' key = some w ∧ ∀ e ∈ q, ∀ o'', Spells e.1 body → e.2 = .obj o'' → get? o'' key = none := by
    intro nb hnb key w
    constructor
    · intro hg
      exact ⟨nb, k, o, [], rfl, hk, hg, fun e he => absurd he List.not_mem_nil⟩
    · rintro ⟨p, k', o', q, heq, hk', hg, hq⟩
      rcases List.eq_nil_or_concat q with rfl | ⟨q', l, rfl⟩
      · have := List.append_inj' heq rfl
        have e2 := (List.cons.inj this.2).1
        have e3 := Json.obj.inj (Prod.mk.inj e2).2
        rw [e3]; exact hg
      · rw [List.concat_eq_append, ← List.cons_append, ← List.append_assoc] at heq
        have := List.append_inj' heq rfl
        exact absurd hk' (hnb (k', .obj o') (by
          rw [this.1]; exact List.mem_append_right _ (List.mem_cons_self ..)))
  rcases h with h | ⟨pre, k', post, rfl, h1, h2⟩
  · refine ⟨[], doc ++ [(k, .obj o)], rfl, Or.inl (fun e he => absurd he List.not_mem_nil),
      ⟨_, List.mem_append_right _ (List.mem_singleton.2 rfl), hk⟩, ?_, last doc h⟩
    intro e he hs
    rcases List.mem_append.1 he with he | he
    · exact absurd hs (h e he)
    · rw [List.mem_singleton.1 he]; exact ⟨o, rfl⟩
  · refine ⟨pre ++ [(k', .null)], post ++ [(k, .obj o)], by simp, Or.inr ⟨pre, k', rfl, h1⟩,
      ⟨_, List.mem_append_right _ (List.mem_singleton.2 rfl), hk⟩, ?_, last post h2⟩
    intro e he hs
    rcases List.mem_append.1 he with he | he
    · exact absurd hs (h2 e he)
    · rw [List.mem_singleton.1 he]; exact ⟨o, rfl⟩

theorem bodyClaim_merge {doc : List (String × Json)} {body k : String} {m o : JObj} (hwf : WF o)
    (h : BodyClaim doc body (some m)) (hk : Spells k body) :
    BodyClaim (doc ++ [(k, .obj o)]) body (some (o.foldl (fun m e => set m e.1 e.2) m)) := by
  obtain ⟨pre, post, rfl, h1, h2, h3, h4⟩ := h
  refine ⟨pre, post ++ [(k, .obj o)], by simp, h1,
    ⟨_, List.mem_append_right _ (List.mem_singleton.2 rfl), hk⟩, ?_, ?_⟩
  · intro e he hs
    rcases List.mem_append.1 he with he | he
    · exact h3 e he hs
    · rw [List.mem_singleton.1 he]; exact ⟨o, rfl⟩
  · intro key w
    rw [get?_foldl_set o hwf]
    constructor
    · intro hg
      cases ho : get? o key with
      | some w' =>
        rw [ho, Option.some_or] at hg
        exact ⟨post, k, o, [], rfl, hk, ho.trans hg, fun e he => absurd he List.not_mem_nil⟩
      | none =>
        rw [ho, Option.none_or] at hg
        obtain ⟨p, k', o', q, rfl, hk', hg', hq⟩ := (h4 key w).1 hg
        refine ⟨p, k', o', q ++ [(k, .obj o)], by simp, hk', hg', ?_⟩
        intro e he o'' hs heq
        rcases List.mem_append.1 he with he | he
        · exact hq e he o'' hs heq
        · rw [List.mem_singleton.1 he] at heq
          rw [← Json.obj.inj heq]; exact ho
    · rintro ⟨p, k', o', q, hpost, hk', hg, hq⟩
      rcases List.eq_nil_or_concat q with rfl | ⟨q', l, rfl⟩
      · have := List.append_inj' hpost rfl
        have e2 := (List.cons.inj this.2).1
        have e3 := Json.obj.inj (Prod.mk.inj e2).2
        rw [e3, hg]; rfl
      · rw [List.concat_eq_append, ← List.cons_append, ← List.append_assoc] at hpost
        have := List.append_inj' hpost rfl
        have el := (List.cons.inj this.2).1
        have hno : get? o key = none :=
          hq l (by rw [List.concat_eq_append]; exact List.mem_append_right _ (List.mem_singleton.2 rfl)) o
            (by rw [← el]; exact hk) (by rw [← el])
        rw [hno, Option.none_or]
        refine (h4 key w).2 ⟨p, k', o', q', this.1, hk', hg, ?_⟩
        intro e' he' o'' hs
        exact hq e' (by rw [List.concat_eq_append]; exact List.mem_append_left _ he') o'' hs

/-- **C142.** The object of a token consists of the objects under its name in any spelling since the last
null, merged member by member, a later one winning. -/
theorem body_read (body : String) (hb : body = "vc" ∨ body = "vp") (doc : List (String × Json))
    (hwf : ∀ e ∈ doc, ∀ o, e.2 = .obj o → WF o) (c : CredClaims) (h : readDoc body doc = some c) :
    BodyClaim doc body c.vc := by
  induction doc using List.reverseRecOn generalizing c with
  | nil => cases h; exact Or.inl (fun e he => absurd he List.not_mem_nil)
  | append_singleton doc e ih =>
    rw [readDoc_snoc, Option.bind_eq_some_iff] at h
    obtain ⟨st, h1, h2⟩ := h
    have ih := ih (fun e' he' => hwf e' (List.mem_append_left _ he')) st h1
    have hwe := hwf e (List.mem_append_right _ (List.mem_singleton.2 rfl))
    obtain ⟨k, v⟩ := e
    by_cases hk : Spells k body
    · have hf := (fieldOf_some .body body k hb).2 hk
      simp only [store, hf, Option.map_eq_some_iff] at h2
      obtain ⟨m, hm, rfl⟩ := h2
      cases v with
      | null =>
        cases hm
        exact Or.inr ⟨doc, k, [], rfl, hk, fun e he => absurd he List.not_mem_nil⟩
      | obj o =>
        cases hv : st.vc with
        | none =>
          rw [hv] at hm ih
          cases hm
          exact bodyClaim_first ih hk
        | some m' =>
          rw [hv] at hm ih
          cases hm
          exact bodyClaim_merge (hwe o rfl) ih hk
      | _ => cases hm
    · have hvc : c.vc = st.vc := by
        unfold store at h2
        cases hf : fieldOf body k with
        | none => simp only [hf, Option.some.injEq] at h2; rw [h2]
        | some f =>
          cases f <;> simp only [hf, storeClaim, Option.map_map, Option.map_eq_some_iff,
            Function.comp] at h2 <;> obtain ⟨x, hx, rfl⟩ := h2
          case body => exact absurd ((fieldOf_some .body body k hb).1 hf) hk
          all_goals rfl
      rw [hvc]
      exact bodyClaim_other ih hk

/-! ## Plain documents -/

/-- `decodeClaims` without the question whether the pointer is nil. -/
theorem decodeClaims_eq (p : JObj) : decodeClaims p =
    (do
      let iss ← strOf (JObj.at p "iss")
      let sub ← strOf (JObj.at p "sub")
      let aud ← audOf (get? p "aud")
      let exp ← dateOf (JObj.at p "exp")
      let nbf ← dateOf (JObj.at p "nbf")
      let iat ← dateOf (JObj.at p "iat")
      let jti ← strOf (JObj.at p "jti")
      return if p.any (fun e => registered.contains e.1) then some ⟨iss, sub, aud, exp, nbf, iat, jti⟩
        else none : Option (Option Claims)) := by
  unfold decodeClaims
  by_cases h : p.any (fun e => registered.contains e.1) = true
  · simp only [h, if_true]
  · simp only [h]
    have hn : ∀ k ∈ registered, get? p k = none := by
      intro k hk
      rw [get?_eq_none_iff]
      intro hm
      apply h
      obtain ⟨e, he, hek⟩ := List.mem_map.1 hm
      rw [List.any_eq_true]
      exact ⟨e, he, by rw [hek]; exact List.contains_iff_mem.2 hk⟩
    simp only [JObj.at, hn "iss" (by decide), hn "sub" (by decide), hn "aud" (by decide),
      hn "exp" (by decide), hn "nbf" (by decide), hn "iat" (by decide), hn "jti" (by decide)]
    rfl

theorem at_snoc (p : JObj) (k : String) (v : Json) (hk : k ∉ keys p) (n : String) :
    JObj.at (p ++ [(k, v)]) n = if n = k then v else JObj.at p n := by
  unfold JObj.at
  rw [get?_append]
  by_cases h : n = k
  · subst h
    rw [get?_eq_none_iff.2 hk]
    simp [get?]
  · simp [get?, h, Ne.symm h]

theorem get?_snoc' (p : JObj) (k : String) (v : Json) (hk : k ∉ keys p) (n : String) :
    get? (p ++ [(k, v)]) n = if n = k then some v else get? p n := by
  rw [get?_append]
  by_cases h : n = k
  · subst h
    rw [get?_eq_none_iff.2 hk]
    simp [get?]
  · simp [get?, h, Ne.symm h]

theorem plain_init {body : String} {doc : List (String × Json)} {e : String × Json}
    (h : Plain body (doc ++ [e])) : Plain body doc ∧ e.1 ∉ keys doc := by
  obtain ⟨h1, h2⟩ := h
  rw [List.map_append, List.nodup_append] at h1
  refine ⟨⟨h1.1, fun e' he' => h2 e' (List.mem_append_left _ he')⟩, ?_⟩
  intro hm
  exact h1.2.2 e.1 hm e.1 (List.mem_singleton.2 rfl) rfl

/-- The reading by exact names. -/
def exact (body : String) (p : JObj) : Option CredClaims :=
  match decodeClaims p, decodeVCField (JObj.at p body) with
  | some c, some v => some ⟨c, v⟩
  | _, _ => none

theorem readDoc_plain (body : String) (hb : body = "vc" ∨ body = "vp") (doc : List (String × Json))
    (h : Plain body doc) : readDoc body doc = exact body doc := by
  induction doc using List.reverseRecOn with
  | nil => rfl
  | append_singleton doc e ih =>
    obtain ⟨hp, hk⟩ := plain_init h
    have ih := ih hp
    obtain ⟨k, v⟩ := e
    rw [readDoc_snoc, ih]
    have hsp : ∀ f : Fld, fieldOf body k = some f → k = f.name body := by
      intro f hf
      refine h.2 (k, v) (List.mem_append_right _ (List.mem_singleton.2 rfl)) (f.name body) ?_
        ((fieldOf_some f body k hb).1 hf)
      cases f <;> simp [Fld.name, claimNames]
    cases hf : fieldOf body k with
    | none =>
      have hn := (fieldOf_none body k hb).1 hf
      have hne : ∀ f : Fld, f.name body ≠ k := by
        intro f e; exact hn f (by rw [← e]; exact spells_self f body hb)
      have hr : registered.contains k = false := by
        rw [Bool.eq_false_iff]
        intro hc
        have := List.contains_iff_mem.1 hc
        simp only [registered, List.mem_cons, List.not_mem_nil, or_false] at this
        rcases this with h | h | h | h | h | h | h
        exacts [hne .iss h.symm, hne .sub h.symm, hne .aud h.symm, hne .exp h.symm, hne .nbf h.symm,
          hne .iat h.symm, hne .jti h.symm]
      have e1 : exact body (doc ++ [(k, v)]) = exact body doc := by
        have n1 : "iss" ≠ k := hne .iss
        have n2 : "sub" ≠ k := hne .sub
        have n3 : "aud" ≠ k := hne .aud
        have n4 : "exp" ≠ k := hne .exp
        have n5 : "nbf" ≠ k := hne .nbf
        have n6 : "iat" ≠ k := hne .iat
        have n7 : "jti" ≠ k := hne .jti
        have n8 : body ≠ k := hne .body
        simp only [exact, decodeClaims_eq, at_snoc doc k v hk, get?_snoc' doc k v hk,
          if_neg n1, if_neg n2, if_neg n3, if_neg n4, if_neg n5, if_neg n6, if_neg n7, if_neg n8,
          List.any_append, List.any_cons, List.any_nil, hr, Bool.or_false]
      rw [e1]
      cases exact body doc with
      | none => rfl
      | some st => simp [store, hf]
    | some f =>
      have hkf := hsp f hf
      have hgn : get? doc k = none := get?_eq_none_iff.2 hk
      by_cases hany : doc.any (fun e => registered.contains e.1) = true
      · rcases hb with rfl | rfl <;> cases f <;> simp only [Fld.name] at hkf <;> subst hkf <;>
          simp only [exact, decodeClaims_eq, at_snoc doc _ v hk, get?_snoc' doc _ v hk, JObj.at, hgn,
            List.any_append, hany, Bool.true_or, if_true] <;>
          simp only [String.reduceEq, if_true, if_false, Option.getD_none] <;>
          generalize strOf ((get? doc "iss").getD .null) = a1 <;>
          generalize strOf ((get? doc "sub").getD .null) = a2 <;>
          generalize audOf (get? doc "aud") = a3 <;>
          generalize dateOf ((get? doc "exp").getD .null) = a4 <;>
          generalize dateOf ((get? doc "nbf").getD .null) = a5 <;>
          generalize dateOf ((get? doc "iat").getD .null) = a6 <;>
          generalize strOf ((get? doc "jti").getD .null) = a7
        all_goals try (rcases a1 with _ | a1; · simp; done)
        all_goals try (rcases a2 with _ | a2; · simp; done)
        all_goals try (rcases a3 with _ | a3; · simp; done)
        all_goals try (rcases a4 with _ | a4; · simp; done)
        all_goals try (rcases a5 with _ | a5; · simp; done)
        all_goals try (rcases a6 with _ | a6; · simp; done)
        all_goals try (rcases a7 with _ | a7; · simp; done)
        all_goals try (generalize decodeVCField ((get? doc _).getD .null) = a8; rcases a8 with _ | a8; · simp; done)
        all_goals cases v <;> simp [store, hf, storeClaim, strOf, dateOf, audOf, decodeVCField, storeStr, storeBody]
        all_goals (generalize stringSlice _ = z; cases z <;> rfl)
      · have hn : ∀ n ∈ registered, get? doc n = none := by
          intro n hn
          rw [get?_eq_none_iff]
          intro hm
          apply hany
          obtain ⟨e, he, hek⟩ := List.mem_map.1 hm
          rw [List.any_eq_true]
          exact ⟨e, he, by rw [hek]; exact List.contains_iff_mem.2 hn⟩
        have hn1 := hn "iss" (by decide)
        have hn2 := hn "sub" (by decide)
        have hn3 := hn "aud" (by decide)
        have hn4 := hn "exp" (by decide)
        have hn5 := hn "nbf" (by decide)
        have hn6 := hn "iat" (by decide)
        have hn7 := hn "jti" (by decide)
        rw [Bool.not_eq_true] at hany
        rcases hb with rfl | rfl <;> cases f <;> simp only [Fld.name] at hkf <;> subst hkf <;>
          simp only [exact, decodeClaims_eq, at_snoc doc _ v hk, get?_snoc' doc _ v hk, JObj.at, hn1, hn2, hn3,
            hn4, hn5, hn6, hn7, List.any_append, hany, Bool.false_or] <;>
          simp only [String.reduceEq, if_true, if_false, Option.getD_none] <;>
          try rw [hgn]
        all_goals try (generalize decodeVCField ((get? doc _).getD .null) = a8; rcases a8 with _ | a8; · simp; done)
        all_goals cases v <;> simp [store, hf, storeClaim, strOf, dateOf, audOf, decodeVCField, storeStr, storeBody,
          registered, zeroClaims]
        all_goals (generalize stringSlice _ = z; cases z <;> rfl)


theorem set_new (m : JObj) (k : String) (v : Json) (h : k ∉ keys m) : set m k v = m ++ [(k, v)] := by
  induction m with
  | nil => rfl
  | cons e m ih =>
    obtain ⟨k', v'⟩ := e
    have h1 : k' ≠ k := fun e => h (by rw [e]; exact List.mem_cons_self ..)
    have h2 : k ∉ keys m := fun e => h (List.mem_cons_of_mem _ e)
    simp only [GoMap.set, h1, if_false, ih h2, List.cons_append]

theorem docMap_nodup (doc : List (String × Json)) (h : (doc.map Prod.fst).Nodup) : docMap doc = doc := by
  induction doc using List.reverseRecOn with
  | nil => rfl
  | append_singleton doc e ih =>
    rw [List.map_append, List.nodup_append] at h
    have := ih h.1
    unfold docMap at this ⊢
    rw [List.foldl_append, this]
    exact set_new doc e.1 e.2 (fun hm => h.2.2 e.1 hm e.1 (List.mem_singleton.2 rfl) rfl)

/-- **C142.** Without repeated members and without other spellings of the claim names, a credential token
is read by the exact names of its members: what is proved about payloads read as maps holds for it. -/
theorem plain_credential (env : JEnv) (doc : List (String × Json)) (h : Plain "vc" doc) :
    unmarshalCredDoc doc = unmarshalCred doc ∧ decodeCredDoc env doc = decodeCredPayload env doc := by
  have h1 : unmarshalCredDoc doc = unmarshalCred doc := by
    unfold unmarshalCredDoc unmarshalCred
    rw [readDoc_plain "vc" (Or.inl rfl) doc h, docMap_nodup doc h.1]
    unfold exact
    cases decodeClaims doc with
    | none => rfl
    | some c => cases decodeVCField (JObj.at doc "vc") <;> rfl
  refine ⟨h1, ?_⟩
  unfold decodeCredDoc decodeCredPayload
  rw [h1]
  cases unmarshalCred doc <;> rfl

/-- **C142.** The same for a presentation token. -/
theorem plain_presentation (doc : List (String × Json)) (h : Plain "vp" doc) :
    readDoc "vp" doc = unmarshalPres doc ∧ decodePresDoc doc = decodePresPayload doc := by
  have h1 : readDoc "vp" doc = unmarshalPres doc := readDoc_plain "vp" (Or.inr rfl) doc h
  refine ⟨h1, ?_⟩
  unfold decodePresDoc decodePresPayload
  rw [h1]
  cases unmarshalPres doc <;> rfl

/-! ## A token without an object -/

theorem wf_docMap (doc : List (String × Json)) : WF (docMap doc) := by
  induction doc using List.reverseRecOn with
  | nil => exact wf_nil
  | append_singleton doc e ih =>
    unfold docMap at ih ⊢
    rw [List.foldl_append]
    exact wf_set ih _ _

theorem get?_docMap (doc : List (String × Json)) (k : String) (v : Json) :
    get? (docMap doc) k = some v ↔ ∃ pre post, doc = pre ++ (k, v) :: post ∧ ∀ e ∈ post, e.1 ≠ k := by
  induction doc using List.reverseRecOn with
  | nil => simp [docMap]
  | append_singleton doc e ih =>
    obtain ⟨k', v'⟩ := e
    have hd : docMap (doc ++ [(k', v')]) = GoMap.set (docMap doc) k' v' := by
      unfold docMap; rw [List.foldl_append]; rfl
    rw [hd, get?_set]
    by_cases h : k' = k
    · subst h
      rw [if_pos rfl]
      constructor
      · intro h; cases h
        exact ⟨doc, [], rfl, fun e he => absurd he List.not_mem_nil⟩
      · rintro ⟨pre, post, heq, hp⟩
        rcases List.eq_nil_or_concat post with rfl | ⟨q, l, rfl⟩
        · have := (List.cons.inj (List.append_inj' heq rfl).2).1
          rw [(Prod.mk.inj this).2]
        · rw [List.concat_eq_append, ← List.cons_append, ← List.append_assoc] at heq
          have := (List.cons.inj (List.append_inj' heq rfl).2).1
          refine absurd ?_ (hp l (by rw [List.concat_eq_append]; simp))
          rw [← this]
    · rw [if_neg h, ih]
      constructor
      · rintro ⟨pre, post, rfl, hp⟩
        refine ⟨pre, post ++ [(k', v')], by simp, ?_⟩
        intro e he
        rcases List.mem_append.1 he with he | he
        · exact hp e he
        · rw [List.mem_singleton.1 he]; exact h
      · rintro ⟨pre, post, heq, hp⟩
        rcases List.eq_nil_or_concat post with rfl | ⟨q, l, rfl⟩
        · have := (List.cons.inj (List.append_inj' heq rfl).2).1
          exact absurd (Prod.mk.inj this).1 h
        · rw [List.concat_eq_append, ← List.cons_append, ← List.append_assoc] at heq
          have := List.append_inj' heq rfl
          refine ⟨pre, q, this.1, ?_⟩
          intro e he
          exact hp e (by rw [List.concat_eq_append]; exact List.mem_append_left _ he)

/-- **C142.** In a token without a `vc` object (the flat form of newer SD-JWTs) the members of the credential
are the members of the payload that are no registered claims, by their exact names; of repeated ones the
last counts. -/
theorem flat_credential_read (doc : List (String × Json)) (c : CredClaims) (h : unmarshalCredDoc doc = some c)
    (hv : ∀ e ∈ doc, ¬ Spells e.1 "vc") (k : String) (hk : k ∉ registered) (v : Json) :
    (∃ o, c.vc = some o ∧ get? o k = some v) ↔
      ∃ pre post, doc = pre ++ (k, v) :: post ∧ ∀ e ∈ post, e.1 ≠ k := by
  unfold unmarshalCredDoc at h
  cases hr : readDoc "vc" doc with
  | none => rw [hr] at h; cases h
  | some c0 =>
    rw [hr] at h
    dsimp only at h
    have hnil : c0.vc = none := by
      clear h
      induction doc using List.reverseRecOn generalizing c0 with
      | nil => cases hr; rfl
      | append_singleton doc e ih =>
        rw [readDoc_snoc, Option.bind_eq_some_iff] at hr
        obtain ⟨st, h1, h2⟩ := hr
        have hst := ih (fun e he => hv e (List.mem_append_left _ he)) st h1
        have hne := hv e (List.mem_append_right _ (List.mem_singleton.2 rfl))
        unfold store at h2
        cases hf : fieldOf "vc" e.1 with
        | none => simp only [hf, Option.some.injEq] at h2; rw [← h2]; exact hst
        | some f =>
          cases f <;> simp only [hf, storeClaim, Option.map_map, Option.map_eq_some_iff,
            Function.comp] at h2 <;> obtain ⟨x, hx, rfl⟩ := h2
          case body => exact absurd ((fieldOf_some .body "vc" e.1 (Or.inl rfl)).1 hf) hne
          all_goals exact hst
    have hm : get? (marshalCred c0) k = none := by
      rw [get?_eq_none_iff]
      unfold marshalCred
      rw [hnil]
      cases hc : c0.claims with
      | none => simp [keys]
      | some r =>
        rw [List.append_nil]
        exact fun hx => hk (keys_marshalClaims r k hx)
    have hl : get? (JsonUtil.collectCustom (marshalCred c0) (docMap doc) []) k = get? (docMap doc) k := by
      rw [JsonUtil.collect_lookup _ _ (wf_docMap doc), hm]
      simp
    rw [← get?_docMap, ← hl]
    rw [hnil] at h
    simp only [emptyMap, Bool.and_true] at h
    by_cases he : (JsonUtil.collectCustom (marshalCred c0) (docMap doc) []).isEmpty = true
    · rw [he] at h
      simp only [Bool.not_true, Bool.false_eq_true, if_false, Option.some.injEq] at h
      rw [← h, hnil, List.isEmpty_iff.1 he]
      simp
    · rw [Bool.not_eq_true] at he
      rw [he] at h
      simp only [Bool.not_false, if_true, Option.some.injEq] at h
      rw [← h]
      simp

/-! ## The issuer -/

theorem stringClaim_unique {doc : List (String × Json)} {name s t : String} (h1 : StringClaim doc name s)
    (h2 : StringClaim doc name t) : s = t := by
  rcases h1 with ⟨pre, k, post, hd, hk, hp⟩ | ⟨hs, hn⟩
  · rcases h2 with ⟨pre', k', post', hd', hk', hp'⟩ | ⟨ht, hn'⟩
    · rw [hd] at hd'
      rcases List.append_eq_append_iff.1 hd' with ⟨m, e1, e2⟩ | ⟨m, e1, e2⟩
      · cases m with
        | nil =>
          have := (List.cons.inj e2).1
          exact Json.str.inj (Prod.mk.inj this).2
        | cons x m =>
          have := (List.cons.inj e2).2
          have := hp (k', .str t) (by rw [this]; exact List.mem_append_right _ (List.mem_cons_self ..)) hk'
          cases this
      · cases m with
        | nil =>
          have := (List.cons.inj e2).1
          exact (Json.str.inj (Prod.mk.inj this).2).symm
        | cons x m =>
          have := (List.cons.inj e2).2
          have := hp' (k, .str s) (by rw [this]; exact List.mem_append_right _ (List.mem_cons_self ..)) hk
          cases this
    · have := hn' (k, .str s) (by rw [hd]; exact List.mem_append_right _ (List.mem_cons_self ..)) hk
      cases this
  · rcases h2 with ⟨pre', k', post', hd', hk', hp'⟩ | ⟨ht, hn'⟩
    · have := hn (k', .str t) (by rw [hd']; exact List.mem_append_right _ (List.mem_cons_self ..)) hk'
      cases this
    · rw [hs, ht]

theorem unmarshalCredDoc_claims {doc : List (String × Json)} {c : CredClaims}
    (h : unmarshalCredDoc doc = some c) : ∃ c0, readDoc "vc" doc = some c0 ∧ c.claims = c0.claims := by
  unfold unmarshalCredDoc at h
  cases hr : readDoc "vc" doc with
  | none => rw [hr] at h; cases h
  | some c0 =>
    rw [hr] at h
    refine ⟨c0, rfl, ?_⟩
    dsimp only at h
    split at h <;> cases h <;> rfl

/-- **C142.** The issuer of a credential decoded from a token is the value of the last member that spells
`iss` ignoring case, and its id that of the last member that spells `jti`. -/
theorem credential_issuer_read (env : JEnv) (doc : List (String × Json)) (o : JObj) (s : String) (i : Issuer)
    (h : decodeCredDoc env doc = .ok (some o)) (hs : StringClaim doc "iss" s) (hne : s ≠ "")
    (hi : parseIssuer (.json (JObj.at o "issuer")) = some (some i)) :
    i.id = s ∧ ∀ j, StringClaim doc "jti" j → j ≠ "" → get? o "id" = some (.str j) := by
  unfold decodeCredDoc at h
  cases hu : unmarshalCredDoc doc with
  | none => rw [hu] at h; cases h
  | some c =>
    rw [hu] at h
    dsimp only at h
    obtain ⟨c0, hr, hc⟩ := unmarshalCredDoc_claims hu
    have hread := claims_read "vc" (Or.inl rfl) doc c0 hr
    obtain ⟨cl, vc⟩ := c
    subst hc
    cases hcl : c0.claims with
    | none => rw [hcl] at h; cases h
    | some r =>
      rw [hcl] at h hread
      have his : r.iss = s := stringClaim_unique hread.iss hs
      cases vc with
      | none =>
        unfold refine at h
        simp [his, hne, refineIssuer, assign, get?, Out.bind] at h
      | some vc =>
        rcases refine_spec env r vc with ⟨-, -, he⟩ | ⟨-, o', he, hR⟩
        · rw [h] at he; cases he
        · rw [h] at he
          cases he
          refine ⟨?_, ?_⟩
          · rw [← his]
            exact issuerRefined_id (by rw [his]; exact hne) hR.issuer hi
          · intro j hj hjne
            have hrj : r.jti = j := stringClaim_unique hread.jti hj
            rw [hR.id, hrj, if_neg hjne]

/-- **C142.** The holder of a presentation decoded from a token is the value of the last member that spells
`iss` ignoring case. -/
theorem presentation_holder_read (doc : List (String × Json)) (vp : JObj) (s : String)
    (h : decodePresDoc doc = .ok vp) (hs : StringClaim doc "iss" s) (hne : s ≠ "") :
    get? vp "holder" = some (.str s) := by
  unfold decodePresDoc at h
  cases hr : readDoc "vp" doc with
  | none => rw [hr] at h; cases h
  | some c =>
    rw [hr] at h
    dsimp only at h
    have hread := claims_read "vp" (Or.inr rfl) doc c hr
    unfold refinePres at h
    cases hcl : c.claims with
    | none => rw [hcl] at h; cases h
    | some r =>
      rw [hcl] at h hread
      have his : r.iss = s := stringClaim_unique hread.iss hs
      simp only [his, ne_eq, hne, not_false_iff, if_true] at h
      cases hv : c.vc with
      | none => rw [hv] at h; cases h
      | some m =>
        rw [hv] at h
        simp only [assign, Out.bind] at h
        by_cases hj : r.jti = ""
        · simp only [hj, not_true_eq_false, if_false, Option.getD_some, Out.ok.injEq] at h
          rw [← h, get?_set_self]
        · simp only [hj, not_false_iff, if_true, Option.getD_some, Out.ok.injEq] at h
          rw [← h, get?_set_ne _ _ (by decide), get?_set_self]

/-- **C142, partial.** The issuer against which `ParseAndCheckProof` checks the proof is the issuer the
decoded claims show, if no member is repeated and none is another spelling of a claim name.  Without the
second condition it fails: `checked_issuer_not_shown`. -/
theorem checked_issuer_shown_partial (body : String) (hb : body = "vc" ∨ body = "vp")
    (doc : List (String × Json)) (hp : Plain body doc) (c : CredClaims) (hc : readDoc body doc = some c) (s : String)
    (hs : checkedIssuer doc = some s) : ∃ r, c.claims = some r ∧ r.iss = s := by
  have hg : get? doc "iss" = some (.str s) := by
    unfold checkedIssuer at hs
    split at hs
    · rename_i t ht; cases hs; exact ht
    · cases hs
  have hm : ("iss", Json.str s) ∈ doc := mem_of_get? hg
  have hself : Spells "iss" "iss" := spells_self .iss body hb
  have hsome : c.claims.isSome = true := by
    rw [claims_nil_iff body hb doc c hc]
    exact ⟨_, hm, "iss", by simp [claimNames], by rcases hb with rfl | rfl <;> decide, hself⟩
  obtain ⟨r, hr⟩ := Option.isSome_iff_exists.1 hsome
  refine ⟨r, hr, ?_⟩
  have hread := (claims_read body hb doc c hc).iss
  rw [hr] at hread
  refine stringClaim_unique hread (Or.inl ?_)
  obtain ⟨pre, post, rfl⟩ := List.append_of_mem hm
  refine ⟨pre, "iss", post, rfl, hself, ?_⟩
  intro e he hsp
  have h1 := hp.2 e (List.mem_append_right _ (List.mem_cons_of_mem _ he)) "iss" (by simp [claimNames]) hsp
  have h2 := hp.1
  rw [List.map_append, List.nodup_append] at h2
  have h3 := (List.nodup_cons.1 h2.2.1).1
  exact absurd (List.mem_map.2 ⟨e, he, h1⟩) h3

/-! ## Examples -/

/-- A signed payload with `iss` in two spellings. -/
def nmDoc : List (String × Json) :=
  [("iss", .str "did:ex:mallory"), ("vc", .obj [("type", .str "T")]), ("ISS", .str "did:ex:victim"),
   ("VC", .obj [("type", .str "U"), ("x", .null)]), ("nbf", .num 7), ("Nbf", .num 9), ("Jti", .str "urn:1")]

/-- A presentation with the holder in another spelling. -/
def nmVp : List (String × Json) :=
  [("iss", .str "did:ex:mallory"), ("iSS", .str "did:ex:victim"), ("vp", .obj [("type", .str "T")])]

/-- A plain document. -/
def nmPlain : List (String × Json) :=
  [("iss", .str "did:ex:a"), ("vc", .obj [("type", .str "T")]), ("exp", .num 5), ("other", .null)]

/-- Readable parts of the claims. -/
def nmView (c : Option CredClaims) : Option (Option (String × String × Option Int) × Option (List String)) :=
  c.map fun c => (c.claims.map fun r => (r.iss, r.jti, r.nbf), c.vc.map keys)

/-- The last spelling counts, and the two objects are merged. -/
theorem other_spellings_count :
    nmView (unmarshalCredDoc nmDoc) =
      some (some ("did:ex:victim", "urn:1", some 9), some ["type", "x"]) := by decide +kernel

/-- **C142 fails**: `ParseAndCheckProof` checks the proof against `did:ex:mallory`, the claims it decodes
are those of `did:ex:victim`; no member is repeated. -/
theorem checked_issuer_not_shown : ∃ c r, (nmDoc.map Prod.fst).Nodup ∧ readDoc "vc" nmDoc = some c ∧
    checkedIssuer nmDoc = some "did:ex:mallory" ∧ c.claims = some r ∧ r.iss = "did:ex:victim" := by
  have h : nmView (readDoc "vc" nmDoc) =
      some (some ("did:ex:victim", "urn:1", some 9), some ["type", "x"]) := by decide +kernel
  unfold nmView at h
  obtain ⟨c, hc, hv⟩ := Option.map_eq_some_iff.1 h
  have hv := (Prod.mk.inj hv).1
  obtain ⟨r, hr, hv⟩ := Option.map_eq_some_iff.1 hv
  exact ⟨c, r, by decide, hc, rfl, hr, (Prod.mk.inj hv).1⟩

/-- A holder from another spelling of `iss`. -/
theorem holder_from_other_spelling :
    (match decodePresDoc nmVp with
     | .ok vp => (get? vp "holder").map (fun j => match j with | .str s => s | _ => "") | _ => none) =
      some "did:ex:victim" := by decide +kernel

/-- `iſs` (with the long s) and `VC` are spellings, `issuer` is not. -/
example : Spells "iſs" "iss" ∧ Spells "VC" "vc" ∧ ¬ Spells "issuer" "iss" := by
  refine ⟨(fold_iff .iss "vc" _ (Or.inl rfl)).1 (by decide +kernel),
    (fold_iff .body "vc" _ (Or.inl rfl)).1 (by decide +kernel), ?_⟩
  intro h
  exact absurd ((fold_iff .iss "vc" _ (Or.inl rfl)).2 h) (by decide +kernel)

/-- The hypotheses of the theorems about the issuer are met by `nmDoc`. -/
example : StringClaim nmDoc "iss" "did:ex:victim" :=
  Or.inl ⟨nmDoc.take 2, "ISS", nmDoc.drop 3, rfl, (fold_iff .iss "vc" _ (Or.inl rfl)).1 (by decide +kernel), by
    intro e he hs
    have hs := (fold_iff .iss "vc" _ (Or.inl rfl)).2 hs
    simp only [nmDoc, List.drop, List.mem_cons, List.not_mem_nil, or_false] at he
    rcases he with rfl | rfl | rfl | rfl <;> exact absurd hs (by decide +kernel)⟩

/-- A plain document, with a member that is no claim. -/
example : Plain "vc" nmPlain ∧ checkedIssuer nmPlain = some "did:ex:a" ∧
    (readDoc "vc" nmPlain).isSome = true := by
  refine ⟨⟨by decide, ?_⟩, rfl, by decide +kernel⟩
  have hb : ∀ e ∈ nmPlain, ∀ f ∈ Fld.all, foldName e.1 = foldName (f.name "vc") → e.1 = f.name "vc" := by
    have : (nmPlain.map Prod.fst).all (fun k => Fld.all.all fun f =>
        !(foldName k == foldName (f.name "vc")) || k == f.name "vc") = true := by decide +kernel
    intro e he f hf h
    have := List.all_eq_true.1 (List.all_eq_true.1 this e.1 (List.mem_map_of_mem he)) f hf
    simpa [h] using this
  intro e he n hn hs
  simp only [claimNames, List.mem_cons, List.not_mem_nil, or_false] at hn
  rcases hn with rfl | rfl | rfl | rfl | rfl | rfl | rfl | rfl
  · exact hb e he .iss (mem_all _) ((fold_iff .iss "vc" _ (Or.inl rfl)).2 hs)
  · exact hb e he .sub (mem_all _) ((fold_iff .sub "vc" _ (Or.inl rfl)).2 hs)
  · exact hb e he .aud (mem_all _) ((fold_iff .aud "vc" _ (Or.inl rfl)).2 hs)
  · exact hb e he .exp (mem_all _) ((fold_iff .exp "vc" _ (Or.inl rfl)).2 hs)
  · exact hb e he .nbf (mem_all _) ((fold_iff .nbf "vc" _ (Or.inl rfl)).2 hs)
  · exact hb e he .iat (mem_all _) ((fold_iff .iat "vc" _ (Or.inl rfl)).2 hs)
  · exact hb e he .jti (mem_all _) ((fold_iff .jti "vc" _ (Or.inl rfl)).2 hs)
  · exact hb e he .body (mem_all _) ((fold_iff .body "vc" _ (Or.inl rfl)).2 hs)

/-- A token with two spellings of `iss` is decoded into a credential of the last (`credential_issuer_read`). -/
example (env : JEnv) : decodeCredDoc env [("iss", .str "did:ex:m"), ("ISS", .str "did:ex:v"),
      ("vc", .obj [("type", .str "T")])] =
    .ok (some [("type", .str "T"), ("issuer", .str "did:ex:v")]) := by
  have f1 : fieldOf "vc" "iss" = some .iss := by decide +kernel
  have f2 : fieldOf "vc" "ISS" = some .iss := by decide +kernel
  have f3 : fieldOf "vc" "vc" = some .body := by decide +kernel
  have hr : readDoc "vc" [("iss", .str "did:ex:m"), ("ISS", .str "did:ex:v"), ("vc", .obj [("type", .str "T")])] =
      some ⟨some { zeroClaims with iss := "did:ex:v" }, some [("type", .str "T")]⟩ := by
    simp [readDoc, storeAll, store, f1, f2, f3, storeClaim, storeStr, storeBody]
  have hu : unmarshalCredDoc [("iss", .str "did:ex:m"), ("ISS", .str "did:ex:v"), ("vc", .obj [("type", .str "T")])] =
      some ⟨some { zeroClaims with iss := "did:ex:v" }, some [("type", .str "T")]⟩ := by
    unfold unmarshalCredDoc
    rw [hr]
    simp [emptyMap]
  unfold decodeCredDoc
  rw [hu]
  rfl

/-- A flat token with a repeated member (`flat_credential_read`). -/
example : nmView (unmarshalCredDoc [("iss", .str "a"), ("x", .null), ("ISSUER", .null), ("x", .num 2)]) =
      some (some ("a", "", none), some ["x", "ISSUER"]) ∧
    ∀ k ∈ ["iss", "x", "ISSUER"], ¬ Spells k "vc" := by
  refine ⟨by decide +kernel, ?_⟩
  intro k hk hs
  have hs := (fold_iff .body "vc" _ (Or.inl rfl)).2 hs
  simp only [List.mem_cons, List.not_mem_nil, or_false] at hk
  rcases hk with rfl | rfl | rfl <;> exact absurd hs (by decide +kernel)

/-- The objects of `nmDoc` have no repeated members (`body_read`). -/
example : ∀ e ∈ nmDoc, ∀ o, e.2 = .obj o → WF o := by
  intro e he o ho
  simp only [nmDoc, List.mem_cons, List.not_mem_nil, or_false] at he
  rcases he with rfl | rfl | rfl | rfl | rfl | rfl | rfl <;> cases ho <;> (unfold WF; decide)

end VC.Vfy.Nam
