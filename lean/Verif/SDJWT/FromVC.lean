import Verif.SDJWT.IssuerExamples
/-!
# NewFromVC (model and proofs)

`NewFromVC` (sdjwt/issuer/issuer.go:404-468): an SD-JWT made of the claims of a credential, whose
subject becomes selectively disclosable.
-/

namespace VC.SDJWT
open List

/-! ## Model -/

/-- `common.SDJWTVersion`: V5, or anything else (V2), v2.go:27-36. -/
inductive Ver where
  | v2
  | v5
  deriving DecidableEq, Repr

/-- `New` with the builder of the version, issuer.go:352-402, v2.go:27-36. -/
def newWith (E : IEnv) (ver : Ver) (o : BaseOpts) (claims : JObj) : Except IErr (List Ent × JObj) :=
  match ver with
  | .v2 => newV2 E o claims
  | .v5 => newV5 E o claims

/-- `ExtractCredentialClaims`, v2.go:137-145, v5.go:347-357: `some (some v)`: the object under `vc`;
`some none`: the claims themselves; `none`: an error. -/
def credentialClaims (ver : Ver) (vc : JObj) : Option (Option JObj) :=
  match GoMap.get? vc "vc" with
  | some (.obj v) => some (some v)
  | _ =>
    match ver with
    | .v2 => none
    | .v5 => some none

/-- The confirmation claim is moved, issuer.go:446-452. -/
def moveCnf (claims payload : JObj) : JObj :=
  match GoMap.get? payload "cnf" with
  | some c => GoMap.set claims "cnf" c
  | none => claims

/-- The credential claims with the selective subject, issuer.go:440-455: `_sd_alg` and `cnf` move from
the subject into the credential claims. -/
def withSelective (claims payload : JObj) : JObj :=
  GoMap.set (moveCnf (GoMap.set claims "_sd_alg" (JObj.at payload "_sd_alg")) payload)
    "credentialSubject" (.obj (GoMap.del (GoMap.del payload "_sd_alg") "cnf"))

/-- Why `NewFromVC` fails. -/
inductive FErr where
  | noSubject
  | badSubject
  | badVC
  | issue (e : IErr)
  deriving DecidableEq, Repr

/-- `NewFromVC`, issuer.go:415-468, up to signing: the disclosures and the claims that are signed.
(The Go code changes the caller's map in place and signs it.) -/
def newFromVC (E : IEnv) (ver : Ver) (o : BaseOpts) (vc : JObj) : Except FErr (List Ent × JObj) :=
  match getKeyFromVC "credentialSubject" vc with
  | none => .error .noSubject
  | some (.obj cs) =>
    match newWith E ver o cs with
    | .error e => .error (.issue e)
    | .ok (es, payload) =>
      match credentialClaims ver vc with
      | none => .error .badVC
      | some (some v) => .ok (es, GoMap.set vc "vc" (.obj (withSelective v payload)))
      | some none => .ok (es, withSelective vc payload)
  | some _ => .error .badSubject

/-! ## Objects with the same members -/

theorem perm_del {m : JObj} (wf : GoMap.WF m) {k : String} {v : Json} (h : GoMap.get? m k = some v) :
    m.Perm ((k, v) :: GoMap.del m k) := by
  induction m with
  | nil => cases h
  | cons p m ih =>
    obtain ⟨k', v'⟩ := p
    have wf' := GoMap.wf_cons.1 wf
    rw [GoMap.get?_cons] at h
    by_cases e : k' = k
    · rw [if_pos e] at h
      cases h
      subst e
      have : GoMap.del ((k', v) :: m) k' = m := by
        unfold GoMap.del
        rw [List.filter_cons_of_neg (by simp)]
        apply List.filter_eq_self.2
        intro q hq
        have : q.1 ≠ k' := by
          intro e
          apply wf'.1
          rw [← e]
          exact List.mem_map.2 ⟨q, hq, rfl⟩
        simpa using this
      rw [this]
    · rw [if_neg e] at h
      have : GoMap.del ((k', v') :: m) k = (k', v') :: GoMap.del m k := by
        unfold GoMap.del
        rw [List.filter_cons_of_pos (by simpa using e)]
      rw [this]
      exact ((ih wf'.2 h).cons _).trans (List.Perm.swap _ _ _)

/-- Objects with equal members are equal up to order. -/
theorem OEq.of_lookup {m m' : JObj} (hm : GoMap.WF m) (hm' : GoMap.WF m')
    (h : ∀ k, (GoMap.get? m k = none ∧ GoMap.get? m' k = none) ∨
      ∃ v v', GoMap.get? m k = some v ∧ GoMap.get? m' k = some v' ∧ JEq v v') : OEq m m' := by
  induction m generalizing m' with
  | nil =>
    cases m' with
    | nil => exact .refl
    | cons p m' =>
      obtain ⟨k, v⟩ := p
      rcases h k with ⟨-, h2⟩ | ⟨v, v', h1, -⟩
      · rw [GoMap.get?_cons, if_pos rfl] at h2; cases h2
      · cases h1
  | cons p m ih =>
    obtain ⟨k, v⟩ := p
    have wf := GoMap.wf_cons.1 hm
    rcases h k with ⟨h1, -⟩ | ⟨w, v', h1, h2, h3⟩
    · rw [GoMap.get?_cons, if_pos rfl] at h1; cases h1
    · rw [GoMap.get?_cons, if_pos rfl] at h1
      cases h1
      have hp := perm_del hm' h2
      refine .trans (.fcons h3 (ih wf.2 (GoMap.wf_del hm' k) ?_)) (OEq.of_perm hp hm').symm
      intro k'
      by_cases e : k = k'
      · subst e
        refine Or.inl ⟨GoMap.get?_eq_none_iff.2 wf.1, GoMap.get?_del_self _ _⟩
      · have := h k'
        rw [GoMap.get?_cons, if_neg e] at this
        rw [GoMap.get?_del_ne _ e]
        exact this

/-! ## A tree inside an object -/

/-- Clear members and one member `k` holding the tree `ms`. -/
def wrapTree (rest : JObj) (k : String) (ms : Members) : Members :=
  (clearMembers rest).append (.cons k none (.obj ms) .nil)

theorem wrap_erase (rest : JObj) (k : String) (ms : Members) :
    (wrapTree rest k ms).erase = rest ++ [(k, .obj ms.erase)] := by
  unfold wrapTree
  rw [Members.erase_append, clear_erase]
  rfl

theorem wrap_discs (rest : JObj) (k : String) (ms : Members) :
    (wrapTree rest k ms).discs = ms.discs := by
  unfold wrapTree
  rw [Members.discs_append, clear_discs]
  simp [Members.discs, Node.discs]

theorem wrap_reveal (S : List String) (rest : JObj) (k : String) (ms : Members) :
    (wrapTree rest k ms).reveal S = tidyMembers rest ++ [(k, .obj (ms.reveal S))] := by
  unfold wrapTree
  rw [Members.reveal_append, clear_reveal]
  simp [Members.reveal, Node.reveal, Json.isNull]

theorem wrap_closed (S : List String) (rest : JObj) (k : String) (ms : Members) :
    (wrapTree rest k ms).Closed S ↔ ms.Closed S := by
  unfold wrapTree
  rw [Members.closed_append]
  simp [clear_closed, Members.Closed, Node.Closed]

theorem wrap_bl {env : Env} {h : String → String} (rest : JObj) (k : String) {ms : Members} {w : Json}
    {decs : List String} {hid : JObj} (hb : Bl env h (.obj ms) w decs) (hh : HidOk hid []) :
    Bl env h (.obj (wrapTree rest k ms)) (.obj (rest ++ [(k, w)] ++ hid)) decs := by
  have h1 : BlM env h (.cons k none (.obj ms) .nil) [(k, w)] [] (decs ++ []) := by
    simp only [BlM]
    exact ⟨w, [], decs, [], rfl, hb, by simp, rfl⟩
  have h2 := BlM.append (clearMembers rest) _ (clear_blm env h rest) h1
  simp only [Bl]
  exact ⟨rest ++ [(k, w)], hid, [], _, _, [], rfl, h2, hh, by simp, by simp⟩

theorem hid_nil : HidOk [] [] := ⟨[], [], rfl, Or.inl ⟨rfl, rfl⟩, Or.inl rfl⟩

theorem hid_alg (s : String) : HidOk [("_sd_alg", .str s)] [] :=
  ⟨[], _, rfl, Or.inl ⟨rfl, rfl⟩, Or.inr ⟨s, rfl⟩⟩

/-! ## The selective subject -/

theorem del_absent {m : JObj} {k : String} (h : k ∉ GoMap.keys m) : GoMap.del m k = m := by
  unfold GoMap.del
  apply List.filter_eq_self.2
  intro q hq
  have : q.1 ≠ k := by
    intro e
    apply h
    rw [← e]
    exact List.mem_map.2 ⟨q, hq, rfl⟩
  simpa using this

theorem del_append (a b : JObj) (k : String) : GoMap.del (a ++ b) k = GoMap.del a k ++ GoMap.del b k := by
  unfold GoMap.del; exact List.filter_append ..

/-- The options without the holder's key: these claims stay inside the subject. -/
def BaseOpts.noCnf (o : BaseOpts) : BaseOpts := { o with cnf := none }

theorem base_split (o : BaseOpts) : basePayload o = basePayload o.noCnf ++ cnfField o.cnf := by
  simp [basePayload, BaseOpts.noCnf, cnfField]

/-- The payload of `New`. -/
theorem payload_eq {E : IEnv} (halg : AlgOk E) {o : BaseOpts} {ms : Members} {g : JObj}
    {decs : List String} (hb : Blinded E ms g decs) (hc : ClaimsOk o ms.erase) :
    mkPayload E o g = basePayload o ++ [("_sd_alg", .str (E.lower E.alg))] ++ g ∧
      (∀ k ∈ GoMap.keys g, k = "_sd" ∨ k ∈ GoMap.keys ms.erase) := by
  have hun : Unreserved (Node.obj ms).erase := by simpa [Node.erase, Unreserved] using hc.unreserved
  have hjg : JWF (.obj g) := hb.bl.jwf (.obj ms) hun hc.wf
  obtain ⟨f, a, sd, lv, dn, dl, rfl, h1, h2, h3, rfl⟩ := hb
  simp only [JWF] at hjg
  have hak : ∀ k ∈ GoMap.keys a, k = "_sd" := by
    rcases h2 with ⟨rfl, _⟩ | ⟨v, rfl, _⟩ <;> simp [GoMap.keys]
  have hfk : ∀ k ∈ GoMap.keys f, k ∈ GoMap.keys ms.erase := h1.keys ms
  have halgf : strField "_sd_alg" (E.lower E.alg) = [("_sd_alg", .str (E.lower E.alg))] := by
    simp [strField, halg.1]
  have hg : ∀ k ∈ GoMap.keys (f ++ a), k = "_sd" ∨ k ∈ GoMap.keys ms.erase := by
    intro k hk
    simp only [GoMap.keys, List.map_append, List.mem_append] at hk
    rcases hk with hk | hk
    · exact Or.inr (hfk k hk)
    · exact Or.inl (hak k hk)
  refine ⟨?_, hg⟩
  unfold mkPayload
  rw [JsonUtil.merge_disjoint _ hjg.1 _ ?_, halgf]
  intro k hk hk'
  rw [halgf] at hk'
  simp only [GoMap.keys, List.map_append, List.mem_append, List.map_cons, List.map_nil, List.mem_cons,
    List.not_mem_nil, or_false] at hk'
  rcases hg k hk with rfl | hk
  · rcases hk' with hk' | hk'
    · exact absurd ((base_keys o).subset hk') (by simp [baseNames])
    · simp at hk'
  · rcases hk' with hk' | rfl
    · exact hc.fresh k hk hk'
    · exact (unreserved_key hc.unreserved hk).2.1 rfl

/-- The subject as signed, and its tree: the claims of the other options in clear, then the digests. -/
theorem selective_subject {E : IEnv} (halg : AlgOk E) {o : BaseOpts} {ms : Members} {g : JObj}
    {decs : List String} (hb : Blinded E ms g decs) (hc : ClaimsOk o ms.erase)
    (hcnf : "cnf" ∉ GoMap.keys ms.erase) :
    GoMap.del (GoMap.del (mkPayload E o g) "_sd_alg") "cnf" = basePayload o.noCnf ++ g ∧
    GoMap.get? (mkPayload E o g) "_sd_alg" = some (.str (E.lower E.alg)) ∧
    GoMap.get? (mkPayload E o g) "cnf" = GoMap.get? (cnfField o.cnf) "cnf" ∧
    Bl E.env E.digest (.obj ((clearMembers (basePayload o.noCnf)).append ms))
      (.obj (basePayload o.noCnf ++ g)) decs := by
  obtain ⟨hp, hg⟩ := payload_eq halg hb hc
  have hga : "_sd_alg" ∉ GoMap.keys g := by
    intro h
    rcases hg _ h with h | h
    · simp at h
    · exact (unreserved_key hc.unreserved h).2.1 rfl
  have hgc : "cnf" ∉ GoMap.keys g := by
    intro h
    rcases hg _ h with h | h
    · simp at h
    · exact hcnf h
  have hba : "_sd_alg" ∉ GoMap.keys (basePayload o) := fun h =>
    absurd ((base_keys o).subset h) (by simp [baseNames])
  have hbc : "cnf" ∉ GoMap.keys (basePayload o.noCnf) := by
    intro h
    have hs : ∀ k v, (GoMap.keys (strField k v)).Sublist [k] := by
      intro k v; unfold strField; split <;> simp [GoMap.keys]
    have hn : ∀ k v, (GoMap.keys (numField k v)).Sublist [k] := by
      intro k v; unfold numField; split <;> simp [GoMap.keys]
    have hsub : (GoMap.keys (basePayload o.noCnf)).Sublist
        ["iss", "sub", "aud", "jti", "exp", "nbf", "iat", "id"] := by
      simp only [basePayload, GoMap.keys, List.map_append, BaseOpts.noCnf, cnfField, List.map_nil,
        List.append_nil]
      exact (((((((hs "iss" _).append (hs "sub" _)).append (hs "aud" _)).append (hs "jti" _)).append
        (hn "exp" _)).append (hn "nbf" _)).append (hn "iat" _)).append (hs "id" _)
    exact absurd (hsub.subset h) (by simp)
  have hcf : GoMap.del (cnfField o.cnf) "cnf" = [] := by
    unfold cnfField; split <;> simp [GoMap.del]
  refine ⟨?_, ?_, ?_, ?_⟩
  · have h1 : GoMap.del [("_sd_alg", Json.str (E.lower E.alg))] "_sd_alg" = [] := by simp [GoMap.del]
    rw [hp]
    simp only [del_append, del_absent hba, del_absent hga, h1, List.append_nil]
    rw [base_split]
    simp only [del_append, del_absent hgc, del_absent hbc, hcf, List.append_nil]
  · rw [hp, GoMap.get?_append, GoMap.get?_append, GoMap.get?_eq_none_iff.2 hba]
    simp [GoMap.get?_cons]
  · rw [hp, GoMap.get?_append, GoMap.get?_append, base_split, GoMap.get?_append,
      GoMap.get?_eq_none_iff.2 hbc, GoMap.get?_eq_none_iff.2 hgc]
    cases GoMap.get? (cnfField o.cnf) "cnf" <;> simp [GoMap.get?_cons]
  · obtain ⟨f, a, sd, lv, dn, dl, rfl, h1, h2, h3, rfl⟩ := hb
    simp only [Bl]
    refine ⟨basePayload o.noCnf ++ f, a, sd, lv, dn, dl, by rw [List.append_assoc], ?_, ?_, h3, rfl⟩
    · exact BlM.append (clearMembers (basePayload o.noCnf)) ms (clear_blm E.env E.digest _) h1
    · exact ⟨a, [], by simp, h2, Or.inl rfl⟩

/-- The credential claims in the order of the tree. -/
def selectiveOrdered (E : IEnv) (o : BaseOpts) (v g : JObj) : JObj :=
  (GoMap.del v "credentialSubject" ++ cnfField o.cnf) ++
    [("credentialSubject", .obj (basePayload o.noCnf ++ g))] ++ [("_sd_alg", .str (E.lower E.alg))]

/-- The claims around the subject. -/
structure AroundOk (o : BaseOpts) (v : JObj) : Prop where
  wf : JWF (.obj v)
  unreserved : UnreservedObj v
  cnf : o.cnf ≠ none → GoMap.get? v "cnf" = none

theorem cnf_keys (c : Option Json) : ∀ k ∈ GoMap.keys (cnfField c), k = "cnf" ∧ c ≠ none := by
  unfold cnfField
  split <;> simp [GoMap.keys]

theorem keys_append (a b : JObj) : GoMap.keys (a ++ b) = GoMap.keys a ++ GoMap.keys b := by
  simp [GoMap.keys]

theorem mem_keys_del {m : JObj} {k k' : String} (h : k' ∈ GoMap.keys (GoMap.del m k)) :
    k' ∈ GoMap.keys m ∧ k' ≠ k := by
  rw [← GoMap.get?_isSome_iff] at h ⊢
  rw [GoMap.get?_del] at h
  split at h
  · simp at h
  · rename_i hne
    exact ⟨h, fun e => hne (by rw [e])⟩

theorem rest_wf {o : BaseOpts} {v : JObj} (hv : AroundOk o v) :
    GoMap.WF (GoMap.del v "credentialSubject" ++ cnfField o.cnf) := by
  unfold GoMap.WF
  rw [keys_append, List.nodup_append]
  refine ⟨GoMap.wf_del (by have := hv.wf; simp only [JWF] at this; exact this.1) _, ?_, ?_⟩
  · unfold cnfField; split <;> simp [GoMap.keys]
  · rintro a ha b hb rfl
    obtain ⟨rfl, hc⟩ := cnf_keys o.cnf _ hb
    exact GoMap.get?_eq_none_iff.1 (hv.cnf hc) (mem_keys_del ha).1

theorem rest_noSubject {o : BaseOpts} {v : JObj} :
    "credentialSubject" ∉ GoMap.keys (GoMap.del v "credentialSubject" ++ cnfField o.cnf) := by
  rw [keys_append, List.mem_append]
  rintro (h | h)
  · exact (mem_keys_del h).2 rfl
  · have := (cnf_keys _ _ h).1; simp at this

theorem ordered_wf {E : IEnv} {o : BaseOpts} {v g : JObj} (hv : AroundOk o v) :
    GoMap.WF (selectiveOrdered E o v g) := by
  unfold GoMap.WF selectiveOrdered
  rw [keys_append, keys_append, List.nodup_append, List.nodup_append]
  refine ⟨⟨rest_wf hv, by simp [GoMap.keys], ?_⟩, by simp [GoMap.keys], ?_⟩
  · rintro a ha b hb rfl
    simp only [GoMap.keys, List.map_cons, List.map_nil, List.mem_singleton] at hb
    subst hb
    exact rest_noSubject ha
  · rintro a ha b hb rfl
    simp only [GoMap.keys, List.map_cons, List.map_nil, List.mem_singleton] at hb
    subst hb
    rw [List.mem_append] at ha
    rcases ha with ha | ha
    · rw [keys_append, List.mem_append] at ha
      rcases ha with ha | ha
      · exact (unreserved_key hv.unreserved (mem_keys_del ha).1).2.1 rfl
      · have := (cnf_keys _ _ ha).1; simp at this
    · simp [GoMap.keys] at ha

/-- The code builds the same claims in another order. -/
theorem selective_same {E : IEnv} (halg : AlgOk E) {o : BaseOpts} {ms : Members} {g v : JObj}
    {decs : List String} (hb : Blinded E ms g decs) (hc : ClaimsOk o ms.erase)
    (hcnf : "cnf" ∉ GoMap.keys ms.erase) (hv : AroundOk o v) :
    (∀ k, GoMap.get? (selectiveOrdered E o v g) k =
      GoMap.get? (withSelective v (mkPayload E o g)) k) ∧
      GoMap.WF (withSelective v (mkPayload E o g)) := by
  obtain ⟨h1, h2, h3, -⟩ := selective_subject halg hb hc hcnf
  have hwf : GoMap.WF v := by have := hv.wf; simp only [JWF] at this; exact this.1
  have hw : GoMap.WF (withSelective v (mkPayload E o g)) := by
    unfold withSelective moveCnf
    refine GoMap.wf_set ?_ _ _
    split
    · exact GoMap.wf_set (GoMap.wf_set hwf _ _) _ _
    · exact GoMap.wf_set hwf _ _
  refine ⟨fun k => ?_, hw⟩
  · unfold withSelective moveCnf selectiveOrdered
    rw [h1, h3, JObj.at, h2]
    simp only [GoMap.get?_append, GoMap.get?_cons, GoMap.get?_nil]
    by_cases e1 : k = "credentialSubject"
    · subst e1
      have : GoMap.get? (cnfField o.cnf) "credentialSubject" = none :=
        GoMap.get?_eq_none_iff.2 (fun h => by have := (cnf_keys _ _ h).1; simp at this)
      rw [GoMap.get?_set_self, GoMap.get?_del_self, this]
      simp
    · rw [GoMap.get?_set_ne _ _ (Ne.symm e1), GoMap.get?_del_ne _ (Ne.symm e1), if_neg (Ne.symm e1)]
      by_cases e2 : k = "_sd_alg"
      · subst e2
        have a1 : GoMap.get? v "_sd_alg" = none :=
          GoMap.get?_eq_none_iff.2 (fun h => (unreserved_key hv.unreserved h).2.1 rfl)
        have a2 : GoMap.get? (cnfField o.cnf) "_sd_alg" = none :=
          GoMap.get?_eq_none_iff.2 (fun h => by have := (cnf_keys _ _ h).1; simp at this)
        rw [a1, a2, if_pos rfl]
        cases GoMap.get? (cnfField o.cnf) "cnf" with
        | none =>
          dsimp only
          rw [GoMap.get?_set_self]; simp
        | some c =>
          dsimp only
          rw [GoMap.get?_set_ne _ _ (by simp), GoMap.get?_set_self]; simp
      · by_cases e3 : k = "cnf"
        · subst e3
          cases ho : o.cnf with
          | none =>
            have : GoMap.get? (cnfField none) "cnf" = (none : Option Json) := rfl
            rw [this]
            dsimp only
            rw [GoMap.get?_set_ne _ _ (Ne.symm e2)]
            cases GoMap.get? v "cnf" <;> simp
          | some j =>
            have : GoMap.get? (cnfField (some j)) "cnf" = some (.obj [("jwk", j)]) := rfl
            rw [this, hv.cnf (by rw [ho]; simp)]
            dsimp only
            rw [GoMap.get?_set_self]; simp
        · have a2 : GoMap.get? (cnfField o.cnf) k = none :=
            GoMap.get?_eq_none_iff.2 (fun h => e3 (cnf_keys _ _ h).1)
          rw [a2]
          have hr : ∀ (x : Option Json), GoMap.get? (match x with
              | some c => GoMap.set (GoMap.set v "_sd_alg" (Json.str (E.lower E.alg))) "cnf" c
              | none => GoMap.set v "_sd_alg" (Json.str (E.lower E.alg))) k = GoMap.get? v k := by
            intro x
            cases x with
            | none => exact GoMap.get?_set_ne _ _ (Ne.symm e2)
            | some c =>
              exact (GoMap.get?_set_ne _ _ (Ne.symm e3)).trans (GoMap.get?_set_ne _ _ (Ne.symm e2))
          have := hr (GoMap.get? (cnfField o.cnf) "cnf")
          simp only [Option.getD_some] at this ⊢
          rw [this, if_neg (Ne.symm e2)]
          cases GoMap.get? v k <;> simp

theorem OEq.of_same {m m' : JObj} (hm : GoMap.WF m) (hm' : GoMap.WF m')
    (h : ∀ k, GoMap.get? m k = GoMap.get? m' k) : OEq m m' := by
  refine OEq.of_lookup hm hm' (fun k => ?_)
  rw [h k]
  cases GoMap.get? m' k with
  | none => exact Or.inl ⟨rfl, rfl⟩
  | some x => exact Or.inr ⟨x, x, rfl, rfl, .refl⟩

theorem jwfObj_iff (m : JObj) : JWFObj m ↔ ∀ p ∈ m, JWF p.2 := by
  induction m with
  | nil => simp [JWFObj]
  | cons p m ih => obtain ⟨k, v⟩ := p; simp [JWFObj, ih]

theorem unreservedObj_iff (m : JObj) : UnreservedObj m ↔
    ∀ p ∈ m, (p.1 ≠ "_sd" ∧ p.1 ≠ "_sd_alg" ∧ p.1 ≠ "...") ∧ Unreserved p.2 := by
  induction m with
  | nil => simp [UnreservedObj]
  | cons p m ih =>
    obtain ⟨k, v⟩ := p
    simp only [UnreservedObj, ih, List.mem_cons, forall_eq_or_imp, and_assoc]

theorem jwf_del {m : JObj} (h : JWFObj m) (k : String) : JWFObj (GoMap.del m k) := by
  rw [jwfObj_iff] at h ⊢
  exact fun p hp => h p (List.mem_filter.1 hp).1

theorem unreserved_del {m : JObj} (h : UnreservedObj m) (k : String) : UnreservedObj (GoMap.del m k) := by
  rw [unreservedObj_iff] at h ⊢
  exact fun p hp => h p (List.mem_filter.1 hp).1

theorem jwf_same {m m' : JObj} (hm' : GoMap.WF m') (h : ∀ k, GoMap.get? m k = GoMap.get? m' k)
    (hj : JWFObj m) : JWF (.obj m') := by
  simp only [JWF]
  refine ⟨hm', ?_⟩
  rw [jwfObj_iff] at hj ⊢
  rintro ⟨k, v⟩ hp
  have := GoMap.get?_of_mem hm' hp
  rw [← h k] at this
  exact hj _ (GoMap.mem_of_get? this)

theorem cnf_jwf {o : BaseOpts} (h : CnfOk o) : JWFObj (cnfField o.cnf) ∧ UnreservedObj (cnfField o.cnf) := by
  unfold cnfField
  split
  · simp [JWFObj, UnreservedObj]
  · next j hj =>
    simp [JWFObj, UnreservedObj, Unreserved, JWF, GoMap.keys, (h j hj).1, (h j hj).2]

theorem noCnf_ok (o : BaseOpts) : CnfOk o.noCnf := by
  intro j h; simp [BaseOpts.noCnf] at h

/-- The tree of the credential claims: everything in clear except the subject, which also holds the
claims set by options. -/
def vcTree (o : BaseOpts) (v : JObj) (ms : Members) : Members :=
  wrapTree (GoMap.del v "credentialSubject" ++ cnfField o.cnf) "credentialSubject"
    ((clearMembers (basePayload o.noCnf)).append ms)

theorem vcTree_wf {o : BaseOpts} (hcnf : CnfOk o) {v : JObj} {ms : Members} (hc : ClaimsOk o ms.erase)
    (hv : AroundOk o v) : UnreservedObj (vcTree o v ms).erase ∧ JWF (.obj (vcTree o v ms).erase) := by
  have hvj := hv.wf
  have hcj := hc.wf
  simp only [JWF] at hvj hcj
  have hbk : (GoMap.keys (basePayload o.noCnf)).Sublist (GoMap.keys (basePayload o)) := by
    rw [base_split o, keys_append]; exact List.sublist_append_left ..
  have hbn : (GoMap.keys (basePayload o.noCnf)).Nodup :=
    (show baseNames.Nodup by simp [baseNames]).sublist (base_keys o.noCnf)
  unfold vcTree
  rw [wrap_erase, Members.erase_append, clear_erase]
  refine ⟨?_, ?_⟩
  · rw [unreservedObj_append, unreservedObj_append]
    refine ⟨⟨unreserved_del hv.unreserved _, (cnf_jwf hcnf).2⟩, ?_⟩
    simp only [UnreservedObj, Unreserved, unreservedObj_append]
    exact ⟨by simp, ⟨base_unreserved (noCnf_ok o), hc.unreserved⟩, trivial⟩
  · simp only [JWF]
    refine ⟨?_, ?_⟩
    · rw [keys_append, List.nodup_append]
      refine ⟨rest_wf hv, by simp [GoMap.keys], ?_⟩
      rintro a ha b hb rfl
      simp only [GoMap.keys, List.map_cons, List.map_nil, List.mem_singleton] at hb
      subst hb
      exact rest_noSubject ha
    · rw [jwfObj_append, jwfObj_append]
      refine ⟨⟨jwf_del hvj.2 _, (cnf_jwf hcnf).1⟩, ?_⟩
      simp only [JWFObj, JWF, and_true]
      refine ⟨?_, jwfObj_append.2 ⟨base_jwf (noCnf_ok o), hcj.2⟩⟩
      rw [keys_append, List.nodup_append]
      refine ⟨hbn, hcj.1, ?_⟩
      rintro a ha b hb rfl
      exact hc.fresh a hb (hbk.subset ha)

/-- What a relying party sees of credential claims signed as they are (V5 without `vc`). -/
theorem flat_shows {E : IEnv} (he : EnvWF E.env) (halg : AlgOk E) {o : BaseOpts} (hcnf : CnfOk o)
    {ms : Members} {g v : JObj} {decs ds : List String} (hb : Blinded E ms g decs)
    (hc : ClaimsOk o ms.erase) (hk : "cnf" ∉ GoMap.keys ms.erase) (hv : AroundOk o v)
    (hds : ms.discs.Perm ds) (hn : DistinctDigests E.env (withSelective v (mkPayload E o g)) ds) :
    Shows E.env (withSelective v (mkPayload E o g)) (vcTree o v ms) (fun S => (vcTree o v ms).reveal S) := by
  obtain ⟨-, -, -, hbl⟩ := selective_subject halg hb hc hk
  obtain ⟨hsame, hw⟩ := selective_same halg hb hc hk hv
  obtain ⟨hu, hj⟩ := vcTree_wf hcnf hc hv
  have hq : Bl E.env (E.env.hash E.alg) (.obj (vcTree o v ms)) (.obj (selectiveOrdered E o v g)) decs :=
    wrap_bl _ _ hbl (hid_alg _)
  have hjq := hq.jwf _ (by simpa [Node.erase, Unreserved] using hu) hj
  simp only [JWF] at hjq
  have hg : GoMap.get? (selectiveOrdered E o v g) "_sd_alg" = some (.str (E.lower E.alg)) :=
    GoMap.get?_of_mem hjq.1 (by simp [selectiveOrdered])
  refine shows_of_perm he hq hu hj (alg_of halg hg) (OEq.of_same hjq.1 hw hsame)
    (jwf_same hw hsame hjq.2) (ds := ds) ?_ hn
  unfold vcTree
  rw [wrap_discs, Members.discs_append, clear_discs]
  simpa using hds

/-- What a relying party sees of credential claims signed under `vc`. -/
theorem nested_shows {E : IEnv} (he : EnvWF E.env) (halg : AlgOk E) {o : BaseOpts} (hcnf : CnfOk o)
    {ms : Members} {g v vc : JObj} {decs ds : List String} (hb : Blinded E ms g decs)
    (hc : ClaimsOk o ms.erase) (hk : "cnf" ∉ GoMap.keys ms.erase) (hv : AroundOk o v)
    (hvc : JWF (.obj vc)) (huc : UnreservedObj vc)
    (hds : ms.discs.Perm ds)
    (hn : DistinctDigests E.env (GoMap.set vc "vc" (.obj (withSelective v (mkPayload E o g)))) ds) :
    Shows E.env (GoMap.set vc "vc" (.obj (withSelective v (mkPayload E o g))))
      (wrapTree (GoMap.del vc "vc") "vc" (vcTree o v ms))
      (fun S => (wrapTree (GoMap.del vc "vc") "vc" (vcTree o v ms)).reveal S) := by
  obtain ⟨-, -, -, hbl⟩ := selective_subject halg hb hc hk
  obtain ⟨hsame, hw⟩ := selective_same halg hb hc hk hv
  obtain ⟨hu, hj⟩ := vcTree_wf hcnf hc hv
  simp only [JWF] at hvc
  have hq1 : Bl E.env (E.env.hash E.alg) (.obj (vcTree o v ms)) (.obj (selectiveOrdered E o v g)) decs :=
    wrap_bl _ _ hbl (hid_alg _)
  have hq : Bl E.env (E.env.hash E.alg) (.obj (wrapTree (GoMap.del vc "vc") "vc" (vcTree o v ms)))
      (.obj (GoMap.del vc "vc" ++ [("vc", .obj (selectiveOrdered E o v g))] ++ [])) decs :=
    wrap_bl _ _ hq1 hid_nil
  rw [List.append_nil] at hq
  have hjq1 := hq1.jwf _ (by simpa [Node.erase, Unreserved] using hu) hj
  have hnd : "vc" ∉ GoMap.keys (GoMap.del vc "vc") := fun h => (mem_keys_del h).2 rfl
  have hu2 : UnreservedObj (wrapTree (GoMap.del vc "vc") "vc" (vcTree o v ms)).erase := by
    rw [wrap_erase, unreservedObj_append]
    refine ⟨unreserved_del huc _, ?_⟩
    simp only [UnreservedObj, Unreserved]
    exact ⟨by simp, hu, trivial⟩
  have hj2 : JWF (.obj (wrapTree (GoMap.del vc "vc") "vc" (vcTree o v ms)).erase) := by
    rw [wrap_erase]
    simp only [JWF]
    refine ⟨?_, jwfObj_append.2 ⟨jwf_del hvc.2 _, by simp only [JWFObj, and_true]; exact hj⟩⟩
    rw [keys_append, List.nodup_append]
    refine ⟨GoMap.wf_del hvc.1 _, by simp [GoMap.keys], ?_⟩
    rintro a ha b hb rfl
    simp only [GoMap.keys, List.map_cons, List.map_nil, List.mem_singleton] at hb
    subst hb
    exact hnd ha
  have hjq := hq.jwf _ (by simpa [Node.erase, Unreserved] using hu2) hj2
  simp only [JWF] at hjq hjq1
  have hg : getHashAlg E.env (GoMap.del vc "vc" ++ [("vc", .obj (selectiveOrdered E o v g))]) = some E.alg := by
    have h1 : GoMap.get? (GoMap.del vc "vc" ++ [("vc", .obj (selectiveOrdered E o v g))]) "_sd_alg" = none := by
      rw [GoMap.get?_eq_none_iff, keys_append, List.mem_append]
      rintro (h | h)
      · exact (unreserved_key huc (mem_keys_del h).1).2.1 rfl
      · simp [GoMap.keys] at h
    have h2 : GoMap.get? (GoMap.del vc "vc" ++ [("vc", .obj (selectiveOrdered E o v g))]) "vc" =
        some (.obj (selectiveOrdered E o v g)) := GoMap.get?_of_mem hjq.1 (by simp)
    have h3 : GoMap.get? (selectiveOrdered E o v g) "_sd_alg" = some (.str (E.lower E.alg)) :=
      GoMap.get?_of_mem hjq1.1 (by simp [selectiveOrdered])
    simp only [getHashAlg, getKeyFromVC, h1, h2, h3, halg.2.1]
    rw [if_pos halg.2.2]
  have hwp : GoMap.WF (GoMap.set vc "vc" (.obj (withSelective v (mkPayload E o g)))) := GoMap.wf_set hvc.1 _ _
  have hoe : OEq (GoMap.del vc "vc" ++ [("vc", .obj (selectiveOrdered E o v g))])
      (GoMap.set vc "vc" (.obj (withSelective v (mkPayload E o g)))) := by
    refine OEq.of_lookup hjq.1 hwp (fun k => ?_)
    by_cases e : k = "vc"
    · subst e
      refine Or.inr ⟨_, _, GoMap.get?_of_mem hjq.1 (List.mem_append_right _ (List.mem_singleton.2 rfl)),
        GoMap.get?_set_self _ _ _, .obj ?_⟩
      exact OEq.of_same hjq1.1 hw hsame
    · rw [GoMap.get?_append, GoMap.get?_del_ne _ (Ne.symm e), GoMap.get?_set_ne _ _ (Ne.symm e),
        GoMap.get?_cons, if_neg (Ne.symm e)]
      cases GoMap.get? vc k with
      | none => exact Or.inl ⟨rfl, rfl⟩
      | some x => exact Or.inr ⟨x, x, rfl, rfl, .refl⟩
  have hjp : JWF (.obj (GoMap.set vc "vc" (.obj (withSelective v (mkPayload E o g))))) := by
    simp only [JWF]
    refine ⟨hwp, ?_⟩
    rw [jwfObj_iff]
    rintro ⟨k, x⟩ hp
    have hg := GoMap.get?_of_mem hwp hp
    by_cases e : k = "vc"
    · subst e
      rw [GoMap.get?_set_self] at hg
      cases hg
      exact jwf_same hw hsame hjq1.2
    · rw [GoMap.get?_set_ne _ _ (Ne.symm e)] at hg
      exact (jwfObj_iff vc).1 hvc.2 _ (GoMap.mem_of_get? hg)
  refine shows_of_perm he hq hu2 hj2 hg hoe hjp (ds := ds) ?_ hn
  rw [wrap_discs]
  unfold vcTree
  rw [wrap_discs, Members.discs_append, clear_discs]
  simpa using hds

end VC.SDJWT
