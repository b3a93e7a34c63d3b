import Verif.SDJWT.IssuerProps
import Verif.SDJWT.VerifierProps
/-!
# What is issued can be parsed by the holder: C14
-/

namespace VC.SDJWT
open List

/-- The claim the holder sees for one issued disclosure: its encoded form, and its name (array
elements have none). -/
def ClaimOf (e : Ent) (c : Claim) : Prop :=
  c.disclosure = e.result ∧
    ((∃ s k v, e.debugArr = [.str s, .str k, v] ∧ c.name = k) ∨
     (∃ s v, e.debugArr = [.str s, v] ∧ c.name = ""))

/-- The holder's claims correspond exactly to the issued disclosures. -/
def HoldsAll (es : List Ent) (cs : List Claim) : Prop :=
  (∀ e ∈ es, ∃ c ∈ cs, ClaimOf e c) ∧ (∀ c ∈ cs, ∃ e ∈ es, ClaimOf e c)

theorem resolve_ok_of_disclosed {env : Env} {ds : List String} {payload out : JObj}
    {order : DMap → List String} (h : disclosedClaims env ds payload order = .ok out) :
    ∃ alg D D' st, getHashAlg env payload = some alg ∧ getDisclosureClaims env alg ds [] = .ok D ∧
      setAll true (2 * weight D + 1) ⟨[], D⟩ (order D) = .ok st ∧ D' = st.ds ∧
      resolveDisclosureClaims env alg ds order = .ok D' := by
  unfold disclosedClaims at h
  cases ha : getHashAlg env payload with
  | none => rw [ha] at h; cases h
  | some alg =>
    rw [ha] at h
    simp only at h
    cases hr : resolveDisclosureClaims env alg ds order with
    | error e => rw [hr] at h; cases h
    | ok D' =>
      have hr' := hr
      unfold resolveDisclosureClaims at hr
      cases hg : getDisclosureClaims env alg ds [] with
      | error e => rw [hg] at hr; cases hr
      | ok D =>
        rw [hg] at hr
        simp only at hr
        cases hs : setAll true (2 * weight D + 1) ⟨[], D⟩ (order D) with
        | error e => rw [hs] at hr; cases hr
        | ok st =>
          rw [hs] at hr
          simp only [Except.ok.injEq] at hr
          exact ⟨alg, D, D', st, rfl, hg, hs, hr.symm, hr'⟩

/-- Every issued disclosure has two or three elements. -/
def Shaped (es : List Ent) : Prop := ∀ e ∈ es,
  (∃ s k v, e.debugArr = [.str s, .str k, v]) ∨ (∃ s v, e.debugArr = [.str s, v])

theorem holder_gets {lib : VLib} {o : HOpts} {order : DMap → List String} {sj : String}
    {es : List Ent} {payload out : JObj}
    (ho : ∀ D, ∀ d ∈ GoMap.keys D, d ∈ order D)
    (hsj : NoChar '~' sj) (hds : ∀ e ∈ es, NoChar '~' e.result)
    (hcodec : Codec lib.env es) (hshape : Shaped es)
    (hcol : ∀ alg, getHashAlg lib.env payload = some alg →
      NoCollision lib.env alg (es.map Ent.result))
    {tok : JWT.Token} {pl : Proof.Bytes}
    (hjwt : JWT.parseAndCheckProof lib.jwt o.pc true o.detached sj = .ok (tok, pl))
    (htok : tok.payload = payload)
    (hv5 : o.v5 = true → V5Ok lib o tok (es.map Ent.result))
    (hver : verifyDisclosures lib.env (es.map Ent.result) payload = .ok ())
    (hdis : disclosedClaims lib.env (es.map Ent.result) payload order = .ok out) :
    ∃ cs, holderParse lib o order (Issuance.serialize ⟨sj, es.map Ent.result⟩) = .ok cs ∧
      HoldsAll es cs := by
  subst htok
  obtain ⟨alg, D, D', st, ha, hg, hs, rfl, hr⟩ := resolve_ok_of_disclosed hdis
  have hp : parseIssuance (Issuance.serialize ⟨sj, es.map Ent.result⟩) = ⟨sj, es.map Ent.result⟩ :=
    issuance_round_trip _ hsj (by simpa using hds)
  refine ⟨_, (holder_parse_iff lib o order _ _).mpr
    ⟨tok, pl, alg, st.ds, ?_, ?_, ?_, ha, ?_, rfl⟩, ?_⟩
  · rw [hp]; exact hjwt
  · rw [hp]; exact hv5
  · rw [hp]; exact hver
  · rw [hp]; exact hr
  · have hD := decoded_of_ok hg
    obtain ⟨k1, k2⟩ := setAll_result hD.unparsed (ho D) hs
    have hwf : GoMap.WF st.ds := by unfold GoMap.WF; rw [k1]; exact hD.wf
    have nm : ∀ e ∈ es, ∀ d r, IsDisc lib.env alg e.result d r →
        ((∃ s k v, e.debugArr = [.str s, .str k, v] ∧ r.name = k) ∨
         (∃ s v, e.debugArr = [.str s, v] ∧ r.name = "")) := by
      intro e he d r hi
      obtain ⟨_, _, _, salt, rest, h1, h2⟩ := hi
      have h3 := hcodec e he
      rw [h1] at h3
      simp only [Option.some.injEq] at h3
      rcases h2 with ⟨v, rfl, _, hn, _⟩ | ⟨k, v, rfl, _, hn, _⟩ | ⟨hl, _, _, _⟩
      · exact Or.inr ⟨salt, v, h3.symm, hn⟩
      · exact Or.inl ⟨salt, k, v, h3.symm, hn⟩
      · exfalso
        rcases hshape e he with ⟨s, k, v, h4⟩ | ⟨s, v, h4⟩ <;> rw [← h3] at h4 <;> simp at h4
        · obtain ⟨_, rfl⟩ := h4; simp at hl
        · obtain ⟨_, rfl⟩ := h4; simp at hl
    refine ⟨?_, ?_⟩
    · intro e he
      have hm : e.result ∈ es.map Ent.result := List.mem_map_of_mem he
      obtain ⟨r, hr1⟩ := hD.all _ hm
      obtain ⟨s', hs', hi⟩ := hD.from_list _ _ hr1
      have : s' = e.result := hcol alg ha _ hs' _ hm hi.1.symm
      subst this
      obtain ⟨c, c1, _, c3, _, c5, _⟩ := k2 _ r hr1
      refine ⟨⟨c.disclosure, c.name, c.value⟩, List.mem_map.mpr ⟨_, GoMap.mem_of_get? c1, rfl⟩, ?_⟩
      refine ⟨by rw [c5, hi.2.1], ?_⟩
      simp only [c3]
      exact nm e he _ r hi
    · intro c hc
      obtain ⟨⟨d, c'⟩, hm, rfl⟩ := List.mem_map.mp hc
      have hg' := GoMap.get?_of_mem hwf hm
      have hd : d ∈ GoMap.keys D := by
        rw [← k1]; exact GoMap.get?_isSome_iff.mp (by rw [hg']; rfl)
      obtain ⟨r, hr1⟩ := Option.isSome_iff_exists.mp (GoMap.get?_isSome_iff.mpr hd)
      obtain ⟨s', hs', hi⟩ := hD.from_list _ _ hr1
      obtain ⟨e, he, rfl⟩ := List.mem_map.mp hs'
      obtain ⟨c2, d1, _, d3, _, d5, _⟩ := k2 _ r hr1
      rw [hg'] at d1; cases d1
      refine ⟨e, he, ?_, ?_⟩
      · simp only [d5, hi.2.1]
      · simp only [d3]; exact nm e he _ r hi

/-! ## Shape of the issued disclosures -/

theorem Shaped.append {a b : List Ent} (ha : Shaped a) (hb : Shaped b) : Shaped (a ++ b) := by
  intro e he
  rcases List.mem_append.mp he with h | h
  · exact ha e h
  · exact hb e h

theorem shaped_nil : Shaped [] := by simp [Shaped]

theorem v2Leaf_shaped (E : IEnv) (cur k : String) (n : Nat) (v : Json) :
    Shaped (v2Leaf E cur k n v).nested ∧ Shaped (v2Leaf E cur k n v).level := by
  unfold v2Leaf
  split
  · exact ⟨shaped_nil, shaped_nil⟩
  · refine ⟨shaped_nil, ?_⟩
    intro e he
    simp only [List.mem_singleton] at he
    subst he
    exact Or.inl ⟨_, _, _, rfl⟩

mutual
theorem v2Member_shaped (E : IEnv) (cur k : String) (n : Nat) : ∀ v : Json,
    Shaped (v2Member E cur k n v).nested ∧ Shaped (v2Member E cur k n v).level
  | .obj o => by
    simp only [v2Member]
    split
    · have := v2Loop_shaped E cur (n + (createDecoys E n).length) o
      exact ⟨this.1.append this.2, shaped_nil⟩
    · exact v2Leaf_shaped E cur k n _
  | .arr l => by simp only [v2Member]; exact v2Leaf_shaped E cur k n _
  | .str s => by simp only [v2Member]; exact v2Leaf_shaped E cur k n _
  | .num q => by simp only [v2Member]; exact v2Leaf_shaped E cur k n _
  | .bool b => by simp only [v2Member]; exact v2Leaf_shaped E cur k n _
  | .null => by simp only [v2Member]; exact v2Leaf_shaped E cur k n _
theorem v2Loop_shaped (E : IEnv) (path : String) (n : Nat) : ∀ m : List (String × Json),
    Shaped (v2Loop E path n m).nested ∧ Shaped (v2Loop E path n m).level
  | [] => by simp only [v2Loop]; exact ⟨shaped_nil, shaped_nil⟩
  | (k, v) :: m => by
    simp only [v2Loop, Acc.join]
    have h1 := v2Member_shaped E (curPath path k) k n v
    have h2 := v2Loop_shaped E path (v2Member E (curPath path k) k n v).next m
    exact ⟨h1.1.append h2.1, h1.2.append h2.2⟩
end

theorem v5Disclosure_shaped (E : IEnv) (n : Nat) (k : String) (v : Json) :
    Shaped [v5Disclosure E n k v] := by
  intro e he
  simp only [List.mem_singleton] at he
  subst he
  unfold v5Disclosure
  dsimp only
  split
  · exact Or.inl ⟨_, _, _, rfl⟩
  · exact Or.inr ⟨_, _, rfl⟩

theorem v5Elems_shaped (E : IEnv) (path : String) (l : List Json) : ∀ i n,
    Shaped (v5Elems E path i n l).2.1 := by
  induction l with
  | nil => intro i n; simp only [v5Elems]; exact shaped_nil
  | cons v l ih =>
    intro i n
    simp only [v5Elems]
    split
    · exact ih _ _
    · exact (v5Disclosure_shaped E n "" v).append (ih _ _)

theorem v5Prim_shaped (E : IEnv) (ign : Bool) (cur k : String) (n : Nat) (v : Json) :
    Shaped (v5Prim E ign cur k n v).nested ∧ Shaped (v5Prim E ign cur k n v).level := by
  unfold v5Prim
  split
  · exact ⟨shaped_nil, shaped_nil⟩
  · exact ⟨shaped_nil, v5Disclosure_shaped _ _ _ _⟩

theorem v5Array_shaped (E : IEnv) (cur k : String) (n : Nat) (l : List Json) :
    Shaped (v5Array E cur k n l).nested ∧ Shaped (v5Array E cur k n l).level := by
  unfold v5Array
  dsimp only
  split
  · exact ⟨shaped_nil, shaped_nil⟩
  · split
    · exact ⟨v5Elems_shaped _ _ _ _ _, shaped_nil⟩
    · exact ⟨v5Elems_shaped _ _ _ _ _, v5Disclosure_shaped _ _ _ _⟩

theorem v5Nested_shaped (E : IEnv) (cur k : String) {out : List Ent × JObj × Nat}
    (h : Shaped out.1) : Shaped (v5Nested E cur k out).nested ∧ Shaped (v5Nested E cur k out).level := by
  unfold v5Nested
  split
  · split
    · exact ⟨h, shaped_nil⟩
    · exact ⟨h, v5Disclosure_shaped _ _ _ _⟩
  · split
    · exact ⟨h, shaped_nil⟩
    · exact ⟨h, v5Disclosure_shaped _ _ _ _⟩

mutual
theorem v5Member_shaped {E : IEnv} (hd : E.addDecoys = false) (ign : Bool) (cur k : String) (n : Nat) :
    ∀ (v : Json) (a : Acc), v5Member E ign cur k n v = some a → Shaped a.nested ∧ Shaped a.level
  | .obj o, a, h => by
    simp only [v5Member] at h
    split at h
    · cases h; exact ⟨shaped_nil, shaped_nil⟩
    · have hdc : createDecoys E n = [] := by simp [createDecoys, hd]
      rw [hdc] at h
      cases hl : v5Loop E (v5Ignore E cur) cur (n + ([] : List Ent).length) o with
      | none => rw [hl] at h; cases h
      | some r =>
        rw [hl] at h
        simp only [Option.map_some, Option.some.injEq] at h
        subst h
        have := v5Loop_shaped hd (v5Ignore E cur) cur _ o r hl
        refine v5Nested_shaped E cur k ?_
        simpa [v5Finish] using this.2.append this.1
  | .arr l, a, h => by simp only [v5Member, Option.some.injEq] at h; subst h; exact v5Array_shaped ..
  | .str s, a, h => by simp only [v5Member, Option.some.injEq] at h; subst h; exact v5Prim_shaped ..
  | .num q, a, h => by simp only [v5Member, Option.some.injEq] at h; subst h; exact v5Prim_shaped ..
  | .bool b, a, h => by simp only [v5Member, Option.some.injEq] at h; subst h; exact v5Prim_shaped ..
  | .null, a, h => by simp only [v5Member] at h; cases h
theorem v5Loop_shaped {E : IEnv} (hd : E.addDecoys = false) (ign : Bool) (path : String) (n : Nat) :
    ∀ (m : List (String × Json)) (a : Acc), v5Loop E ign path n m = some a →
      Shaped a.nested ∧ Shaped a.level
  | [], a, h => by simp only [v5Loop, Option.some.injEq] at h; subst h; exact ⟨shaped_nil, shaped_nil⟩
  | (k, v) :: m, a, h => by
    simp only [v5Loop] at h
    cases h1 : v5Member E ign (curPath path k) k n v with
    | none => rw [h1] at h; cases h
    | some b =>
      rw [h1] at h
      simp only at h
      cases h2 : v5Loop E ign path b.next m with
      | none => rw [h2] at h; cases h
      | some c =>
        rw [h2] at h
        simp only [Option.some.injEq] at h
        subst h
        have g1 := v5Member_shaped hd ign (curPath path k) k n v b h1
        have g2 := v5Loop_shaped hd ign path b.next m c h2
        exact ⟨g1.1.append g2.1, g1.2.append g2.2⟩
end

theorem newV2_shaped {E : IEnv} {o : BaseOpts} {claims payload : JObj} {es : List Ent}
    (h : newV2 E o claims = .ok (es, payload)) : Shaped es := by
  unfold newV2 at h
  split at h
  · cases h
  · simp only [Except.ok.injEq, Prod.mk.injEq] at h
    obtain ⟨rfl, _⟩ := h
    have := v2Loop_shaped E "" (createDecoys E 0).length claims
    exact this.1.append this.2

theorem newV5_shaped {E : IEnv} (hd : E.addDecoys = false) {o : BaseOpts} {claims payload : JObj}
    {es : List Ent} (h : newV5 E o claims = .ok (es, payload)) : Shaped es := by
  unfold newV5 at h
  split at h
  · cases h
  · unfold v5Build at h
    have hdc : createDecoys E 0 = [] := by simp [createDecoys, hd]
    rw [hdc] at h
    cases hl : v5Loop E false "" ([] : List Ent).length claims with
    | none => rw [hl] at h; simp at h
    | some r =>
      rw [hl] at h
      simp only [Option.map_some, Except.ok.injEq, Prod.mk.injEq] at h
      obtain ⟨rfl, _⟩ := h
      have := v5Loop_shaped hd false "" _ claims r hl
      simpa [v5Finish] using this.2.append this.1

/-! ## Everything presented is closed -/

mutual
theorem Node.closed_all {S : List String} : ∀ nd : Node, (∀ s ∈ nd.discs, s ∈ S) → nd.Closed S
  | .plain _, _ => by simp [Node.Closed]
  | .arr _, _ => by simp [Node.Closed]
  | .obj ms, h => by
    simp only [Node.Closed]
    exact Members.closed_all ms (by simpa [Node.discs] using h)
theorem Members.closed_all {S : List String} :
    ∀ ms : Members, (∀ s ∈ ms.discs, s ∈ S) → ms.Closed S
  | .nil, _ => by simp [Members.Closed]
  | .cons _ none t ms, h => by
    simp only [Members.discs, List.mem_append] at h
    simp only [Members.Closed]
    exact ⟨Node.closed_all t (fun s hs => h s (Or.inl (Or.inr hs))),
      Members.closed_all ms (fun s hs => h s (Or.inr hs))⟩
  | .cons _ (some s0) t ms, h => by
    simp only [Members.discs, List.mem_append] at h
    simp only [Members.Closed]
    exact ⟨fun _ _ _ => h s0 (by simp),
      Node.closed_all t (fun s hs => h s (Or.inl (Or.inr hs))),
      Members.closed_all ms (fun s hs => h s (Or.inr hs))⟩
end

/-! ## C14 -/

/-- **C14** (V2, with or without decoys). The combined format made of the signed payload and all
returned disclosures is parsed by the holder, who gets exactly the issued disclosures.  The
signed JWT is any string without `~` that the configured proof checker accepts and that carries the
issued payload. -/
theorem v2_issued_parsed_by_holder {E : IEnv} {lib : VLib} (hlib : lib.env = E.env)
    (he : EnvWF E.env) (hsh : Shuffles E) (halg : AlgOk E)
    {o : BaseOpts} (hcnf : CnfOk o) {claims payload : JObj} (hc : ClaimsOk o claims) {es : List Ent}
    (hnew : newV2 E o claims = .ok (es, payload)) (hcodec : Codec E.env es)
    (hn : DistinctDigests E.env payload (es.map Ent.result)) (hnd : (es.map Ent.result).Nodup)
    (hcol : ∀ alg, NoCollision E.env alg (es.map Ent.result))
    {h : HOpts} {sj : String} (hsj : NoChar '~' sj) (hds : ∀ e ∈ es, NoChar '~' e.result)
    {tok : JWT.Token} {pl : Proof.Bytes}
    (hjwt : JWT.parseAndCheckProof lib.jwt h.pc true h.detached sj = .ok (tok, pl))
    (htok : tok.payload = payload) (hv5 : h.v5 = true → V5Ok lib h tok (es.map Ent.result))
    {order : DMap → List String} (ho : ∀ D, ∀ d ∈ GoMap.keys D, d ∈ order D) :
    ∃ cs, holderParse lib h order (Issuance.serialize ⟨sj, es.map Ent.result⟩) = .ok cs ∧
      HoldsAll es cs := by
  obtain ⟨ms, _, _, h3, h4⟩ := v2_issue_present_verify he hsh halg hcnf hc hnew hcodec hn
  obtain ⟨hver, out, hdis, _⟩ := h4 _ order (fun _ h => h) hnd ho
  rw [← hlib] at hcodec hver hdis hcol
  exact holder_gets ho hsj hds hcodec (newV2_shaped hnew) (fun a _ => hcol a) hjwt htok hv5 hver hdis

/-- **C14** (V5 without decoys; with decoys see `v5_decoys_rejected`). Claims with a null member or
an empty member name are outside (`newV5` panics or issues an unusable token). -/
theorem v5_issued_parsed_by_holder_partial {E : IEnv} {lib : VLib} (hlib : lib.env = E.env)
    (he : EnvWF E.env) (hsh : Shuffles E) (halg : AlgOk E) (hdec : E.addDecoys = false)
    {o : BaseOpts} (hcnf : CnfOk o) {claims payload : JObj} (hc : ClaimsOk o claims)
    (hnk : NamedKeysObj claims) {es : List Ent}
    (hnew : newV5 E o claims = .ok (es, payload)) (hcodec : Codec E.env es)
    (hn : DistinctDigests E.env payload (es.map Ent.result)) (hnd : (es.map Ent.result).Nodup)
    (hcol : ∀ alg, NoCollision E.env alg (es.map Ent.result))
    {h : HOpts} {sj : String} (hsj : NoChar '~' sj) (hds : ∀ e ∈ es, NoChar '~' e.result)
    {tok : JWT.Token} {pl : Proof.Bytes}
    (hjwt : JWT.parseAndCheckProof lib.jwt h.pc true h.detached sj = .ok (tok, pl))
    (htok : tok.payload = payload) (hv5 : h.v5 = true → V5Ok lib h tok (es.map Ent.result))
    {order : DMap → List String} (ho : ∀ D, ∀ d ∈ GoMap.keys D, d ∈ order D) :
    ∃ cs, holderParse lib h order (Issuance.serialize ⟨sj, es.map Ent.result⟩) = .ok cs ∧
      HoldsAll es cs := by
  obtain ⟨ms, _, _, h3, h4⟩ :=
    v5_issue_present_verify_partial he hsh halg hdec hcnf hc hnk hnew hcodec hn
  obtain ⟨hver, out, hdis, _⟩ := h4 _ order (fun _ h => h) hnd ho
  have hver := hver (Members.closed_all ms (fun s hs => h3.mem_iff.mp hs))
  rw [← hlib] at hcodec hver hdis hcol
  exact holder_gets ho hsj hds hcodec (newV5_shaped hdec hnew) (fun a _ => hcol a) hjwt htok hv5
    hver hdis

theorem getDisclosureClaims_all {env : Env} {alg : String} (ss : List String) : ∀ acc D,
    getDisclosureClaims env alg ss acc = .ok D → ∀ s ∈ ss, ∃ arr, env.decode s = some arr ∧
      2 ≤ arr.length := by
  induction ss with
  | nil => simp
  | cons s ss ih =>
    intro acc D h s' hs'
    simp only [getDisclosureClaims] at h
    cases hg : getDisclosureClaim env alg s with
    | error e => rw [hg] at h; cases h
    | ok q =>
      obtain ⟨d, c⟩ := q
      rw [hg] at h
      rcases List.mem_cons.mp hs' with rfl | hs'
      · unfold getDisclosureClaim at hg
        cases hd : env.decode s' with
        | none => rw [hd] at hg; cases hg
        | some arr =>
          rw [hd] at hg
          simp only at hg
          split at hg
          · cases hg
          · exact ⟨arr, rfl, by omega⟩
      · exact ih _ _ h s' hs'

/-- **C14 fails for V5 with decoys**: whatever the claims, the issuer returns its decoys (bare salts)
among the disclosures, and the holder rejects the result, as long as a salt is not by chance the
encoding of a JSON array of two or more elements. -/
theorem v5_decoys_rejected {E : IEnv} {lib : VLib} (hlib : lib.env = E.env) (hdec : E.addDecoys = true)
    (hsalt : ∀ n l, E.env.decode (E.salt n) = some l → l.length < 2)
    {o : BaseOpts} {claims payload : JObj} {es : List Ent}
    (hnew : newV5 E o claims = .ok (es, payload)) {h : HOpts} {sj : String} (hsj : NoChar '~' sj)
    (hds : ∀ e ∈ es, NoChar '~' e.result) (order : DMap → List String) (cs : List Claim) :
    holderParse lib h order (Issuance.serialize ⟨sj, es.map Ent.result⟩) ≠ .ok cs := by
  intro hp
  obtain ⟨tok, pl, alg, D, _, _, hv, _, _, _⟩ := (holder_parse_iff _ _ _ _ _).mp hp
  rw [issuance_round_trip _ hsj (by simpa using hds)] at hv
  have hmem : ∃ n, E.salt n ∈ es.map Ent.result := by
    unfold newV5 at hnew
    split at hnew
    · cases hnew
    · unfold v5Build at hnew
      cases hl : v5Loop E false "" (createDecoys E 0).length claims with
      | none => rw [hl] at hnew; simp at hnew
      | some r =>
        rw [hl] at hnew
        simp only [Option.map_some, Except.ok.injEq, Prod.mk.injEq] at hnew
        obtain ⟨rfl, _⟩ := hnew
        refine ⟨0, ?_⟩
        simp only [v5Finish, createDecoys, hdec, if_true, List.map_append, List.mem_append]
        left; left
        simp only [List.map_map, List.mem_map, List.mem_range]
        exact ⟨0, by omega, rfl⟩
  obtain ⟨n, hn⟩ := hmem
  unfold verifyDisclosures at hv
  split at hv
  · cases hv
  · rename_i a _
    split at hv
    · cases hv
    · rename_i D' hD'
      obtain ⟨arr, g1, g2⟩ := getDisclosureClaims_all _ _ _ hD' _ hn
      rw [hlib] at g1
      have := hsalt n arr g1
      omega

/-- **C14 fails for V5 and null claims**: issuing panics as soon as a member is null. -/
theorem v5_null_panics (E : IEnv) (o : BaseOpts) (k : String) (m1 m2 : JObj)
    (hsd : ¬ HasKey "_sd" (m1 ++ (k, .null) :: m2)) :
    newV5 E o (m1 ++ (k, .null) :: m2) = .error .panic := by
  have hl : ∀ (m1 : JObj) n, v5Loop E false "" n (m1 ++ (k, .null) :: m2) = none := by
    intro m1
    induction m1 with
    | nil => intro n; simp only [List.nil_append, v5Loop, v5Member]
    | cons p m1 ih =>
      intro n
      obtain ⟨k', v⟩ := p
      simp only [List.cons_append, v5Loop]
      split
      · rfl
      · rw [ih]
  unfold newV5
  rw [if_neg (by rw [keyExists_iff]; exact hsd)]
  unfold v5Build
  rw [hl]
  rfl

end VC.SDJWT
