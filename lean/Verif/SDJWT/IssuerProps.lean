import Verif.SDJWT.IssuerBuild5
/-!
# Issuing, presenting and verifying SD-JWTs: C13, C14, C15
-/

namespace VC.SDJWT
open List

/-! ## C15: the reserved claim `_sd` -/

/-- A member named `k` occurs in the object, or in an object reached from it through members. -/
inductive HasKey (k : String) : JObj → Prop
  | here {m v} : (k, v) ∈ m → HasKey k m
  | deeper {m k' o} : (k', Json.obj o) ∈ m → HasKey k o → HasKey k m

mutual
theorem keyExists_sound (k : String) : ∀ (m : List (String × Json)), keyExists k m = true → HasKey k m
  | [], h => by simp [keyExists] at h
  | (k', v) :: m, h => by
    simp only [keyExists, Bool.or_eq_true, beq_iff_eq] at h
    rcases h with (rfl | h) | h
    · exact .here List.mem_cons_self
    · exact keyExistsVal_sound k k' v h ((k', v) :: m) List.mem_cons_self
    · cases keyExists_sound k m h with
      | here hm => exact .here (List.mem_cons_of_mem _ hm)
      | deeper hm hk => exact .deeper (List.mem_cons_of_mem _ hm) hk
theorem keyExistsVal_sound (k k' : String) : ∀ (v : Json), keyExistsVal k v = true →
    ∀ m, (k', v) ∈ m → HasKey k m
  | .obj o, h, m, hm => .deeper hm (keyExists_sound k o (by simpa [keyExistsVal] using h))
  | .arr _, h, _, _ => by simp [keyExistsVal] at h
  | .str _, h, _, _ => by simp [keyExistsVal] at h
  | .num _, h, _, _ => by simp [keyExistsVal] at h
  | .bool _, h, _, _ => by simp [keyExistsVal] at h
  | .null, h, _, _ => by simp [keyExistsVal] at h
end

theorem keyExists_mem {k : String} {m : JObj} {p : String × Json} (hm : p ∈ m)
    (h : p.1 = k ∨ keyExistsVal k p.2 = true) : keyExists k m = true := by
  induction m with
  | nil => cases hm
  | cons q m ih =>
    obtain ⟨k', v⟩ := q
    simp only [keyExists, Bool.or_eq_true, beq_iff_eq]
    rcases List.mem_cons.mp hm with rfl | hm
    · rcases h with h | h
      · exact Or.inl (Or.inl h)
      · exact Or.inl (Or.inr h)
    · exact Or.inr (ih hm)

theorem keyExists_iff (k : String) (m : JObj) : keyExists k m = true ↔ HasKey k m := by
  constructor
  · exact keyExists_sound k m
  · intro h
    induction h with
    | here hm => exact keyExists_mem hm (Or.inl rfl)
    | deeper hm _ ih => exact keyExists_mem hm (Or.inr (by simpa [keyExistsVal] using ih))

/-- **C15.** The issuer refuses claims that use the reserved name `_sd` at any depth of nested
objects — and, for V2, this is the only reason to refuse. -/
theorem reserved_claim_refused (E : IEnv) (o : BaseOpts) (claims : JObj) :
    newV2 E o claims = .error .sdPresent ↔ HasKey "_sd" claims := by
  unfold newV2
  rw [← keyExists_iff]
  split <;> simp_all

/-- **C15** for V5. -/
theorem reserved_claim_refused_v5 (E : IEnv) (o : BaseOpts) (claims : JObj) :
    newV5 E o claims = .error .sdPresent ↔ HasKey "_sd" claims := by
  unfold newV5
  rw [← keyExists_iff]
  split
  · simp_all
  · split <;> simp_all

example : HasKey "_sd" [("a", .obj [("_sd", .null)])] :=
  .deeper (k' := "a") (o := [("_sd", .null)]) (by simp) (.here (v := .null) (by simp))

/-! ## The payload -/

/-- Members in clear. -/
def clearMembers : JObj → Members
  | [] => .nil
  | (k, v) :: m => .cons k none (.plain v) (clearMembers m)

theorem clear_erase (m : JObj) : (clearMembers m).erase = m := by
  induction m with
  | nil => rfl
  | cons p m ih => obtain ⟨k, v⟩ := p; simp [clearMembers, Members.erase, Node.erase, ih]

theorem clear_discs (m : JObj) : (clearMembers m).discs = [] := by
  induction m with
  | nil => rfl
  | cons p m ih => obtain ⟨k, v⟩ := p; simp [clearMembers, Members.discs, Node.discs, ih]

theorem clear_reveal (S : List String) (m : JObj) : (clearMembers m).reveal S = tidyMembers m := by
  induction m with
  | nil => rfl
  | cons p m ih =>
    obtain ⟨k, v⟩ := p
    simp only [clearMembers, Members.reveal, Node.reveal, tidyMembers, ih]

theorem clear_closed (S : List String) (m : JObj) : (clearMembers m).Closed S := by
  induction m with
  | nil => simp [clearMembers, Members.Closed]
  | cons p m ih => obtain ⟨k, v⟩ := p; simp [clearMembers, Members.Closed, Node.Closed, ih]

theorem clear_blm (env : Env) (h : String → String) (m : JObj) : BlM env h (clearMembers m) m [] [] := by
  induction m with
  | nil => simp [clearMembers, BlM]
  | cons p m ih =>
    obtain ⟨k, v⟩ := p
    simp only [clearMembers, BlM, Bl]
    exact ⟨v, m, [], [], rfl, ⟨rfl, rfl⟩, ih, rfl⟩

theorem unreservedObj_append {a b : JObj} :
    UnreservedObj (a ++ b) ↔ UnreservedObj a ∧ UnreservedObj b := by
  induction a with
  | nil => simp [UnreservedObj]
  | cons p a ih => obtain ⟨k, v⟩ := p; simp [UnreservedObj, ih, and_assoc]

/-- The names of the claims set by options. -/
def baseNames : List String := ["iss", "sub", "aud", "jti", "exp", "nbf", "iat", "id", "cnf"]

theorem base_keys (o : BaseOpts) : (GoMap.keys (basePayload o)).Sublist baseNames := by
  have hs : ∀ k v, (GoMap.keys (strField k v)).Sublist [k] := by
    intro k v; unfold strField; split <;> simp [GoMap.keys]
  have hn : ∀ k v, (GoMap.keys (numField k v)).Sublist [k] := by
    intro k v; unfold numField; split <;> simp [GoMap.keys]
  have hc : ∀ v, (GoMap.keys (cnfField v)).Sublist ["cnf"] := by
    intro v; unfold cnfField; split <;> simp [GoMap.keys]
  simp only [basePayload, GoMap.keys, List.map_append]
  exact ((((((((hs "iss" _).append (hs "sub" _)).append (hs "aud" _)).append (hs "jti" _)).append
    (hn "exp" _)).append (hn "nbf" _)).append (hn "iat" _)).append (hs "id" _)).append (hc _)

/-- The confirmation key given by the issuer is well-formed JSON without reserved names. -/
def CnfOk (o : BaseOpts) : Prop := ∀ j, o.cnf = some j → Unreserved j ∧ JWF j

theorem base_unreserved {o : BaseOpts} (h : CnfOk o) : UnreservedObj (basePayload o) := by
  have hs : ∀ k v, k ≠ "_sd" → k ≠ "_sd_alg" → k ≠ "..." → UnreservedObj (strField k v) := by
    intro k v h1 h2 h3; unfold strField; split <;> simp [UnreservedObj, Unreserved, h1, h2, h3]
  have hn : ∀ k v, k ≠ "_sd" → k ≠ "_sd_alg" → k ≠ "..." → UnreservedObj (numField k v) := by
    intro k v h1 h2 h3; unfold numField; split <;> simp [UnreservedObj, Unreserved, h1, h2, h3]
  have hc : UnreservedObj (cnfField o.cnf) := by
    unfold cnfField
    split
    · simp [UnreservedObj]
    · next j hj => simp [UnreservedObj, Unreserved, (h j hj).1]
  simp only [basePayload, unreservedObj_append]
  exact ⟨⟨⟨⟨⟨⟨⟨⟨hs _ _ (by simp) (by simp) (by simp), hs _ _ (by simp) (by simp) (by simp)⟩,
    hs _ _ (by simp) (by simp) (by simp)⟩, hs _ _ (by simp) (by simp) (by simp)⟩,
    hn _ _ (by simp) (by simp) (by simp)⟩, hn _ _ (by simp) (by simp) (by simp)⟩,
    hn _ _ (by simp) (by simp) (by simp)⟩, hs _ _ (by simp) (by simp) (by simp)⟩, hc⟩

theorem base_jwf {o : BaseOpts} (h : CnfOk o) : JWFObj (basePayload o) := by
  have hs : ∀ k v, JWFObj (strField k v) := by
    intro k v; unfold strField; split <;> simp [JWFObj, JWF]
  have hn : ∀ k v, JWFObj (numField k v) := by
    intro k v; unfold numField; split <;> simp [JWFObj, JWF]
  have hc : JWFObj (cnfField o.cnf) := by
    unfold cnfField
    split
    · simp [JWFObj]
    · next j hj => simp [JWFObj, JWF, GoMap.keys, (h j hj).2]
  simp only [basePayload, jwfObj_append]
  exact ⟨⟨⟨⟨⟨⟨⟨⟨hs _ _, hs _ _⟩, hs _ _⟩, hs _ _⟩, hn _ _⟩, hn _ _⟩, hn _ _⟩, hs _ _⟩, hc⟩

/-- The hash chosen by the issuer is one the verifier supports, under the name written in
`_sd_alg`. -/
def AlgOk (E : IEnv) : Prop :=
  E.lower E.alg ≠ "" ∧ E.env.upper (E.lower E.alg) = E.alg ∧
    (E.alg = "SHA-256" ∨ E.alg = "SHA-384" ∨ E.alg = "SHA-512")

theorem alg_of {E : IEnv} (h : AlgOk E) {p : JObj}
    (hg : GoMap.get? p "_sd_alg" = some (.str (E.lower E.alg))) : getHashAlg E.env p = some E.alg := by
  simp only [getHashAlg, getKeyFromVC, hg, h.2.1]
  rw [if_pos h.2.2]

/-- All digests written in a token and in its disclosures are different (no hash collision). -/
def DistinctDigests (env : Env) (payload : JObj) (ds : List String) : Prop :=
  (digests false (.obj payload) ++ ds.flatMap (valueDigests env false)).Nodup

/-- What a relying party gets from the issued token `(ds, payload)`: for every choice `S` of
disclosures, the claims in `shown S`; and `S` is accepted if, with every nested disclosure, the
disclosures around it are presented. -/
def Shows (env : Env) (payload : JObj) (ms : Members) (shown : List String → JObj) : Prop :=
  ∀ (S : List String) (order : DMap → List String), (∀ s ∈ S, s ∈ ms.discs) → S.Nodup →
    (∀ D, ∀ d ∈ GoMap.keys D, d ∈ order D) →
    (∃ out, disclosedClaims env S payload order = .ok out ∧ OEq out (shown S)) ∧
    (ms.Closed S → verifyDisclosures env S payload = .ok ())

theorem envEq_refl (env : Env) : EnvEq env env := by
  refine ⟨rfl, rfl, ?_⟩
  intro s
  cases env.decode s with
  | none => exact Or.inl ⟨rfl, rfl⟩
  | some l => exact Or.inr ⟨l, l, rfl, rfl, forall₂_refl l⟩

/-- The payload up to the order of its members. -/
theorem shows_of_perm {env : Env} (he : EnvWF env) {alg : String} {ms : Members} {p q : JObj}
    {decs : List String} (hb : Bl env (env.hash alg) (.obj ms) (.obj q) decs)
    (hu : UnreservedObj ms.erase) (hj : JWF (.obj ms.erase)) (ha : getHashAlg env q = some alg)
    (hpq : OEq q p) (hjp : JWF (.obj p)) {ds : List String} (hds : ms.discs.Perm ds)
    (hn : DistinctDigests env p ds) : Shows env p ms (fun S => ms.reveal S) := by
  intro S order hS hnS ho
  have hun : Unreserved (Node.obj ms).erase := by simpa [Node.erase, Unreserved] using hu
  have hjq := hb.jwf (.obj ms) hun hj
  have hdig := hb.digests false (.obj ms) hun
  have hnd : (ms.discs.map (env.hash alg) ++ decs).Nodup := by
    refine hdig.nodup_iff.mp ?_
    have h1 : (digests false (.obj q)).Perm (digests false (.obj p)) :=
      JE.digests_perm false (JE.obj hpq)
    refine ((h1.append_right _).trans (Perm.append_left _ (hds.flatMap_right _))).nodup_iff.mpr ?_
    exact hn
  obtain ⟨⟨out, h1, h2⟩, h3⟩ := blind_processed he hb hu hj ha hnd hS hnS ho
  refine ⟨?_, ?_⟩
  · obtain ⟨out', g1, g2⟩ := processing_order_independent he he (envEq_refl env) hjp hpq ho ho h1
    exact ⟨out', g1, .trans g2.symm h2⟩
  · intro hc
    exact (verify_order_independent he he (envEq_refl env) hjq hjp hpq).mp (h3 hc)

/-! ## C13, C14: what is issued can be presented and verified -/

/-- The claims handed to the issuer: a Go map without names reserved by SD-JWT, and without the
names of the claims that are set by the options `o`. -/
structure ClaimsOk (o : BaseOpts) (claims : JObj) : Prop where
  wf : JWF (.obj claims)
  unreserved : UnreservedObj claims
  fresh : ∀ k ∈ GoMap.keys claims, k ∉ GoMap.keys (basePayload o)

theorem issued_shows {E : IEnv} (he : EnvWF E.env) (halg : AlgOk E) {o : BaseOpts} (hcnf : CnfOk o)
    {ms : Members} {g : JObj} {decs : List String} (hb : Blinded E ms g decs)
    (hc : ClaimsOk o ms.erase) {ds : List String} (hds : ms.discs.Perm ds)
    (hn : DistinctDigests E.env (mkPayload E o g) ds) :
    Shows E.env (mkPayload E o g) ms (fun S => tidyMembers (basePayload o) ++ ms.reveal S) := by
  have hbl := hb.bl
  have hun : Unreserved (Node.obj ms).erase := by simpa [Node.erase, Unreserved] using hc.unreserved
  have hjg : JWF (.obj g) := hbl.jwf (.obj ms) hun hc.wf
  obtain ⟨f, a, sd, lv, dn, dl, rfl, h1, h2, h3, rfl⟩ := hb
  have hwfj := hc.wf
  simp only [JWF] at hjg hwfj
  have hbn : (GoMap.keys (basePayload o)).Nodup :=
    (show baseNames.Nodup by simp [baseNames]).sublist (base_keys o)
  have hak : ∀ k ∈ GoMap.keys a, k = "_sd" := by
    rcases h2 with ⟨rfl, _⟩ | ⟨v, rfl, _⟩ <;> simp [GoMap.keys]
  have hfk : ∀ k ∈ GoMap.keys f, k ∈ GoMap.keys ms.erase := h1.keys ms
  have halgf : strField "_sd_alg" (E.lower E.alg) = [("_sd_alg", .str (E.lower E.alg))] := by
    simp [strField, halg.1]
  have hdisj : ∀ k ∈ GoMap.keys (f ++ a),
      k ∉ GoMap.keys (basePayload o ++ strField "_sd_alg" (E.lower E.alg)) := by
    intro k hk hk'
    simp only [GoMap.keys, List.map_append, List.mem_append] at hk hk'
    rw [halgf] at hk'
    simp only [List.map_cons, List.map_nil, List.mem_cons, List.not_mem_nil, or_false] at hk'
    rcases hk with hk | hk
    · rcases hk' with hk' | rfl
      · exact hc.fresh k (hfk k hk) hk'
      · exact (unreserved_key hc.unreserved (hfk _ hk)).2.1 rfl
    · have := hak k hk
      subst this
      rcases hk' with hk' | hk'
      · exact absurd ((base_keys o).subset hk') (by simp [baseNames])
      · simp at hk'
  have hpay : mkPayload E o (f ++ a) =
      basePayload o ++ [("_sd_alg", .str (E.lower E.alg))] ++ (f ++ a) := by
    unfold mkPayload
    rw [JsonUtil.merge_disjoint _ hjg.1 _ hdisj, halgf]
  have hq : Bl E.env (E.env.hash E.alg) (.obj ((clearMembers (basePayload o)).append ms))
      (.obj ((basePayload o ++ f) ++ (a ++ [("_sd_alg", .str (E.lower E.alg))]))) (dl ++ dn) := by
    simp only [Bl]
    refine ⟨basePayload o ++ f, _, sd, lv, dn, dl, rfl, ?_, ?_, h3, rfl⟩
    · have := BlM.append (clearMembers (basePayload o)) ms
        (clear_blm E.env E.digest (basePayload o)) h1
      exact this
    · exact ⟨a, [("_sd_alg", Json.str (E.lower E.alg))], rfl, h2, Or.inr ⟨E.lower E.alg, rfl⟩⟩
  have hperm : ((basePayload o ++ f) ++ (a ++ [("_sd_alg", Json.str (E.lower E.alg))])).Perm
      (mkPayload E o (f ++ a)) := by
    rw [hpay]
    have : (f ++ (a ++ [("_sd_alg", Json.str (E.lower E.alg))])).Perm
        (("_sd_alg", Json.str (E.lower E.alg)) :: (f ++ a)) := by
      rw [← List.append_assoc]
      exact List.perm_append_singleton _ _
    simpa [List.append_assoc] using this.append_left (basePayload o)
  have hue : UnreservedObj ((clearMembers (basePayload o)).append ms).erase := by
    rw [Members.erase_append, clear_erase]
    exact unreservedObj_append.mpr ⟨base_unreserved hcnf, hc.unreserved⟩
  have hje : JWF (.obj ((clearMembers (basePayload o)).append ms).erase) := by
    rw [Members.erase_append, clear_erase]
    simp only [JWF]
    refine ⟨?_, jwfObj_append.mpr ⟨base_jwf hcnf, hwfj.2⟩⟩
    simp only [GoMap.keys, List.map_append]
    rw [List.nodup_append]
    refine ⟨hbn, hwfj.1, ?_⟩
    intro x hx y hy e
    subst e
    exact hc.fresh x hy hx
  have hjq := hq.jwf _ (by simpa [Node.erase, Unreserved] using hue) hje
  have hjq' := hjq
  simp only [JWF] at hjq'
  have hoe := OEq.of_perm hperm hjq'.1
  have hjp : JWF (.obj (mkPayload E o (f ++ a))) := by
    rw [hpay]
    simp only [JWF]
    refine ⟨?_, ?_⟩
    · rw [← hpay]; exact (hperm.map Prod.fst).nodup_iff.mp hjq'.1
    · rw [jwfObj_append, jwfObj_append]
      exact ⟨⟨base_jwf hcnf, by simp [JWFObj, JWF]⟩, hjg.2⟩
  have hg : GoMap.get? ((basePayload o ++ f) ++ (a ++ [("_sd_alg", Json.str (E.lower E.alg))])) "_sd_alg"
      = some (.str (E.lower E.alg)) := GoMap.get?_of_mem hjq'.1 (by simp)
  have key := shows_of_perm he hq hue hje (alg_of halg hg) hoe hjp (ds := ds)
    (by rw [Members.discs_append, clear_discs]; simpa using hds) hn
  intro S order hS hnS ho
  have := key S order (by rw [Members.discs_append, clear_discs]; simpa using hS) hnS ho
  dsimp only at this ⊢
  rw [Members.reveal_append, clear_reveal, Members.closed_append] at this
  exact ⟨this.1, fun hcl => this.2 ⟨clear_closed S _, hcl⟩⟩

/-- **C13** (V2). Whatever the options and the random choices: the disclosures returned are exactly
those of an annotated tree of the given claims that follows the V2 policy; presenting any selection
`S` of them is accepted, and the verifier then sees the issuer's own claims and exactly the claims in
clear and those disclosed by `S`. -/
theorem v2_issue_present_verify {E : IEnv} (he : EnvWF E.env) (hsh : Shuffles E) (halg : AlgOk E)
    {o : BaseOpts} (hcnf : CnfOk o) {claims payload : JObj} (hc : ClaimsOk o claims) {es : List Ent}
    (hnew : newV2 E o claims = .ok (es, payload)) (hcodec : Codec E.env es)
    (hn : DistinctDigests E.env payload (es.map Ent.result)) :
    ∃ ms : Members, ms.erase = claims ∧ V2Policy E.structured E.nonSD "" ms ∧
      ms.discs.Perm (es.map Ent.result) ∧
      ∀ (S : List String) (order : DMap → List String), (∀ s ∈ S, s ∈ es.map Ent.result) → S.Nodup →
        (∀ D, ∀ d ∈ GoMap.keys D, d ∈ order D) →
        verifyDisclosures E.env S payload = .ok () ∧
        ∃ out, disclosedClaims E.env S payload order = .ok out ∧
          OEq out (tidyMembers (basePayload o) ++ ms.reveal S) := by
  unfold newV2 at hnew
  split at hnew
  · cases hnew
  · simp only [Except.ok.injEq, Prod.mk.injEq] at hnew
    obtain ⟨rfl, rfl⟩ := hnew
    obtain ⟨ms, dn, h1, h2, h3, h4⟩ := v2_loop_ok hsh "" (createDecoys E 0).length claims hcodec
    obtain ⟨decs, hb⟩ := v2_finish_ok hsh (decoys := createDecoys E 0) h3
    refine ⟨ms, h1, h2, h4, ?_⟩
    intro S order hS hnS ho
    have := issued_shows he halg hcnf hb (h1 ▸ hc) h4 hn S order
      (fun s hs => h4.mem_iff.mpr (hS s hs)) hnS ho
    exact ⟨this.2 (V2Policy.closed S "" ms h2), this.1⟩

/-- **C13** (V2), everything disclosed: if the claims contain no null and no empty array, the
verifier sees exactly the issuer's claims. -/
theorem v2_full_disclosure {E : IEnv} (he : EnvWF E.env) (hsh : Shuffles E) (halg : AlgOk E)
    {o : BaseOpts} (hcnf : CnfOk o) {claims payload : JObj} (hc : ClaimsOk o claims)
    (hsolid : SolidObj claims) (hbase : SolidObj (basePayload o)) {es : List Ent}
    (hnew : newV2 E o claims = .ok (es, payload)) (hcodec : Codec E.env es)
    (hnd : (es.map Ent.result).Nodup)
    (hn : DistinctDigests E.env payload (es.map Ent.result)) {order : DMap → List String}
    (ho : ∀ D, ∀ d ∈ GoMap.keys D, d ∈ order D) :
    ∃ out, disclosedClaims E.env (es.map Ent.result) payload order = .ok out ∧
      OEq out (basePayload o ++ claims) := by
  obtain ⟨ms, h1, _, h3, h4⟩ := v2_issue_present_verify he hsh halg hcnf hc hnew hcodec hn
  obtain ⟨out, g1, g2⟩ := (h4 _ order (fun _ h => h) hnd ho).2
  refine ⟨out, g1, ?_⟩
  rw [tidyMembers_solid _ hbase, Members.reveal_all _ ms (h1 ▸ hsolid)
    (fun s hs => h3.mem_iff.mp hs), h1] at g2
  exact g2

theorem DistinctDigests.sub {env : Env} {p : JObj} {ds ds' : List String} (h : DistinctDigests env p ds)
    (hs : ds'.Sublist ds) : DistinctDigests env p ds' := by
  unfold DistinctDigests at h ⊢
  refine h.sublist ?_
  refine List.Sublist.append (List.Sublist.refl _) ?_
  clear h
  induction hs with
  | slnil => exact List.Sublist.refl _
  | cons a _ ih => rw [List.flatMap_cons]; exact List.Sublist.trans ih (List.sublist_append_right ..)
  | cons_cons a _ ih =>
    rw [List.flatMap_cons, List.flatMap_cons]; exact List.Sublist.append (List.Sublist.refl _) ih

/-- **C13** (V5), decoy digests included: for every choice of the disclosures that are not bare salts, the
verifier sees the claims disclosed; a nested disclosure is accepted together with the disclosures around it. -/
theorem v5_issue_present_verify {E : IEnv} (he : EnvWF E.env) (hsh : Shuffles E)
    (halg : AlgOk E)
    {o : BaseOpts} (hcnf : CnfOk o) {claims payload : JObj} (hc : ClaimsOk o claims)
    (hnk : NamedKeysObj claims) {es : List Ent}
    (hnew : newV5 E o claims = .ok (es, payload)) (hcodec : Codec E.env (reals es))
    (hn : DistinctDigests E.env payload (es.map Ent.result)) :
    ∃ ms : Members, ms.erase = claims ∧ V5Policy E.v5 false "" ms ∧
      ms.discs.Perm ((reals es).map Ent.result) ∧
      ∀ (S : List String) (order : DMap → List String), (∀ s ∈ S, s ∈ (reals es).map Ent.result) → S.Nodup →
        (∀ D, ∀ d ∈ GoMap.keys D, d ∈ order D) →
        (ms.Closed S → verifyDisclosures E.env S payload = .ok ()) ∧
        ∃ out, disclosedClaims E.env S payload order = .ok out ∧
          OEq out (tidyMembers (basePayload o) ++ ms.reveal S) := by
  unfold newV5 at hnew
  split at hnew
  · cases hnew
  · unfold v5Build at hnew
    cases hl : v5Loop E false "" (createDecoys E 0).length claims with
    | none => rw [hl] at hnew; simp at hnew
    | some r =>
      rw [hl] at hnew
      simp only [Option.map_some, Except.ok.injEq, Prod.mk.injEq] at hnew
      obtain ⟨rfl, rfl⟩ := hnew
      have hfin : reals (v5Finish E (createDecoys E 0) r).1 = reals (r.level ++ r.nested) := by
        simp only [v5Finish, reals_append, reals_decoys, List.nil_append]
      rw [hfin] at hcodec ⊢
      obtain ⟨ms, dn, h1, h2, h3, h4⟩ := v5_loop_ok hsh false "" _ claims hnk r hl hcodec
      obtain ⟨decs, hb⟩ := v5_finish_ok hsh (decoys := createDecoys E 0) h3
      have hn' := hn.sub (ds' := (reals (r.level ++ r.nested)).map Ent.result) (by
        rw [← hfin]
        exact List.Sublist.map _ List.filter_sublist)
      refine ⟨ms, h1, h2, h4, ?_⟩
      intro S order hS hnS ho
      have := issued_shows he halg hcnf hb (h1 ▸ hc) h4 hn' S order
        (fun s hs => h4.mem_iff.mpr (hS s hs)) hnS ho
      exact ⟨this.2, this.1⟩

mutual
theorem v5Member_real {E : IEnv} (hd : E.addDecoys = false) (ign : Bool) (cur k : String) (n : Nat) :
    ∀ v r, v5Member E ign cur k n v = some r → ∀ e ∈ r.level ++ r.nested, e.debugArr ≠ []
  | .obj o, r, hr => by
    simp only [v5Member] at hr
    split at hr
    · cases hr; exact fun _ h => (nomatch h)
    · have hdc : createDecoys E n = [] := by simp [createDecoys, hd]
      rw [hdc] at hr
      cases hl : v5Loop E (v5Ignore E cur) cur (n + ([] : List Ent).length) o with
      | none => rw [hl] at hr; simp at hr
      | some a =>
        rw [hl] at hr
        simp only [Option.map_some, Option.some.injEq] at hr
        subst hr
        have ih := v5Loop_real hd (v5Ignore E cur) cur _ o a hl
        have ih' : ∀ e ∈ (v5Finish E [] a).1, e.debugArr ≠ [] := by simpa [v5Finish] using ih
        intro e he
        unfold v5Nested at he
        split at he <;> split at he
        all_goals
          simp only [List.mem_append, List.mem_singleton, List.not_mem_nil, false_or] at he
          first
          | exact ih' e he
          | (rcases he with rfl | he
             · exact v5Disclosure_real _ _ _ _
             · exact ih' e he)
  | .arr l, r, hr => by
    simp only [v5Member, Option.some.injEq] at hr
    subst hr; exact v5Array_real _ _ _ _ _
  | .str s, r, hr => by
    simp only [v5Member, Option.some.injEq] at hr
    subst hr; exact v5Prim_real _ _ _ _ _ _
  | .num q, r, hr => by
    simp only [v5Member, Option.some.injEq] at hr
    subst hr; exact v5Prim_real _ _ _ _ _ _
  | .bool b, r, hr => by
    simp only [v5Member, Option.some.injEq] at hr
    subst hr; exact v5Prim_real _ _ _ _ _ _
  | .null, r, hr => by simp [v5Member] at hr
theorem v5Loop_real {E : IEnv} (hd : E.addDecoys = false) (ign : Bool) (path : String) (n : Nat) :
    ∀ m r, v5Loop E ign path n m = some r → ∀ e ∈ r.level ++ r.nested, e.debugArr ≠ []
  | [], r, hr => by
    simp only [v5Loop, Option.some.injEq] at hr
    subst hr; exact fun _ h => (nomatch h)
  | (k, v) :: m, r, hr => by
    simp only [v5Loop] at hr
    cases hA : v5Member E ign (curPath path k) k n v with
    | none => rw [hA] at hr; simp at hr
    | some A =>
      rw [hA] at hr
      cases hB : v5Loop E ign path A.next m with
      | none => simp [hB] at hr
      | some B =>
        simp only [hB, Option.some.injEq] at hr
        subst hr
        have h1 := v5Member_real hd ign (curPath path k) k n v A hA
        have h2 := v5Loop_real hd ign path A.next m B hB
        intro e he
        simp only [Acc.join, List.mem_append] at he h1 h2
        rcases he with (he | he) | (he | he)
        · exact h1 e (Or.inl he)
        · exact h2 e (Or.inl he)
        · exact h1 e (Or.inr he)
        · exact h2 e (Or.inr he)
end

theorem newV5_real {E : IEnv} (hd : E.addDecoys = false) {o : BaseOpts} {claims payload : JObj} {es : List Ent}
    (hnew : newV5 E o claims = .ok (es, payload)) : reals es = es := by
  unfold newV5 v5Build at hnew
  have hdc : createDecoys E 0 = [] := by simp [createDecoys, hd]
  rw [hdc] at hnew
  split at hnew
  · exact nomatch hnew
  · cases hl : v5Loop E false "" ([] : List Ent).length claims with
    | none => rw [hl] at hnew; simp at hnew
    | some r =>
      rw [hl] at hnew
      simp only [Option.map_some, Except.ok.injEq, Prod.mk.injEq] at hnew
      obtain ⟨rfl, -⟩ := hnew
      exact reals_all (by simpa [v5Finish] using v5Loop_real hd false "" _ claims r hl)

/-- **C13** (V5), without decoy digests: every disclosure returned can be presented. -/
theorem v5_issue_present_verify_partial {E : IEnv} (he : EnvWF E.env) (hsh : Shuffles E)
    (halg : AlgOk E) (hdec : E.addDecoys = false)
    {o : BaseOpts} (hcnf : CnfOk o) {claims payload : JObj} (hc : ClaimsOk o claims)
    (hnk : NamedKeysObj claims) {es : List Ent}
    (hnew : newV5 E o claims = .ok (es, payload)) (hcodec : Codec E.env es)
    (hn : DistinctDigests E.env payload (es.map Ent.result)) :
    ∃ ms : Members, ms.erase = claims ∧ V5Policy E.v5 false "" ms ∧
      ms.discs.Perm (es.map Ent.result) ∧
      ∀ (S : List String) (order : DMap → List String), (∀ s ∈ S, s ∈ es.map Ent.result) → S.Nodup →
        (∀ D, ∀ d ∈ GoMap.keys D, d ∈ order D) →
        (ms.Closed S → verifyDisclosures E.env S payload = .ok ()) ∧
        ∃ out, disclosedClaims E.env S payload order = .ok out ∧
          OEq out (tidyMembers (basePayload o) ++ ms.reveal S) := by
  have hr := newV5_real hdec hnew
  have := v5_issue_present_verify he hsh halg hcnf hc hnk hnew (by rw [hr]; exact hcodec) hn
  rwa [hr] at this

theorem v2Leaf_real (E : IEnv) (cur k : String) (n : Nat) (v : Json) :
    ∀ e ∈ (v2Leaf E cur k n v).nested ++ (v2Leaf E cur k n v).level, e.debugArr ≠ [] := by
  unfold v2Leaf
  split
  · exact fun _ h => (nomatch h)
  · intro e he
    rw [List.mem_singleton.mp he]
    simp [v2Disclosure]

mutual
theorem v2Member_real (E : IEnv) (cur k : String) (n : Nat) : ∀ v : Json,
    ∀ e ∈ (v2Member E cur k n v).nested ++ (v2Member E cur k n v).level, e.debugArr ≠ []
  | .null => by simp only [v2Member]; exact v2Leaf_real _ _ _ _ _
  | .bool _ => by simp only [v2Member]; exact v2Leaf_real _ _ _ _ _
  | .num _ => by simp only [v2Member]; exact v2Leaf_real _ _ _ _ _
  | .str _ => by simp only [v2Member]; exact v2Leaf_real _ _ _ _ _
  | .arr _ => by simp only [v2Member]; exact v2Leaf_real _ _ _ _ _
  | .obj o => by
    simp only [v2Member]
    split
    · simp only [List.append_nil, v2Finish]
      exact v2Loop_real E cur _ o
    · exact v2Leaf_real _ _ _ _ _
theorem v2Loop_real (E : IEnv) (path : String) (n : Nat) : ∀ m : List (String × Json),
    ∀ e ∈ (v2Loop E path n m).nested ++ (v2Loop E path n m).level, e.debugArr ≠ []
  | [] => by simp [v2Loop]
  | (k, v) :: m => by
    simp only [v2Loop, Acc.join]
    have h1 := v2Member_real E (curPath path k) k n v
    have h2 := v2Loop_real E path (v2Member E (curPath path k) k n v).next m
    intro e he
    simp only [List.mem_append] at he h1 h2
    rcases he with (he | he) | (he | he)
    · exact h1 e (Or.inl he)
    · exact h2 e (Or.inl he)
    · exact h1 e (Or.inr he)
    · exact h2 e (Or.inr he)
end

theorem newV2_real {E : IEnv} {o : BaseOpts} {claims payload : JObj} {es : List Ent}
    (hnew : newV2 E o claims = .ok (es, payload)) : reals es = es := by
  unfold newV2 at hnew
  split at hnew
  · exact nomatch hnew
  · simp only [Except.ok.injEq, Prod.mk.injEq] at hnew
    obtain ⟨rfl, -⟩ := hnew
    exact reals_all (v2Loop_real E "" _ claims)

end VC.SDJWT
