import Verif.Verifiable.PresentationSpec
import Verif.Verifiable.ParseParts
/-!
# verifiable: what `ParsePresentation` accepts

* `presentation_checked` — everything that is established about an accepted presentation.
* `presentation_verified_partial` (C38) — presentations that are not COSE messages and enclose their
  credentials as strings or envelopes are fully verified.
* `holder_rule_iff`, `holder_checked` (C47).
-/

namespace VC.Vfy

open GoMap
open VC.Vfy.Spec
open VC.Proof (Bytes CwtReq LdProof)

variable (env : VEnv)

theorem Out.bind_ok {α β : Type _} {r : Out α} {f : α → Out β} {b : β} :
    r.bind f = .ok b ↔ ∃ a, r = .ok a ∧ f a = .ok b := by
  cases r <;> simp [Out.bind]

theorem orElseOut_ok {α : Type _} {a b : Out α} {v : α} :
    orElseOut a b = .ok v ↔ a = .ok v ∨ (a = .err ∧ b = .ok v) := by
  cases a <;> simp [orElseOut]

theorem Res.toOut_ok {α : Type _} {r : Res α} {a : α} : r.toOut = .ok a ↔ r = .ok a := by
  cases r <;> simp [Res.toOut]

/-! ## Claims -/

theorem strOf_claim {p : JObj} {k s : String} (h : strOf (JObj.at p k) = some s) : Claim p k s := by
  unfold JObj.at at h
  unfold Claim
  cases hg : get? p k with
  | none => rw [hg] at h; cases h; exact Or.inr ⟨rfl, Or.inl rfl⟩
  | some j =>
    rw [hg] at h
    cases j with
    | null => cases h; exact Or.inr ⟨rfl, Or.inr rfl⟩
    | str t => cases h; exact Or.inl rfl
    | _ => cases h

theorem decodeClaims_inv {p : JObj} {c : Claims} (h : decodeClaims p = some (some c)) :
    Claim p "iss" c.iss ∧ Claim p "jti" c.jti := by
  unfold decodeClaims at h
  split at h
  · simp only [Option.bind_eq_bind, Option.bind_eq_some_iff, Option.pure_def, Option.some.injEq] at h
    obtain ⟨iss, h1, sub, h2, aud, h3, exp, h4, nbf, h5, iat, h6, jti, h7, h8⟩ := h
    rw [← h8]
    exact ⟨strOf_claim h1, strOf_claim h7⟩
  · cases h

theorem refinePres_ok {p : JObj} {c : CredClaims} {vp : Option JObj} (hc : unmarshalPres p = some c)
    (h : refinePres c = .ok vp) : FromClaims p (vp.getD []) := by
  unfold unmarshalPres at hc
  split at hc
  · rename_i c' v hcl hv
    have hc := Option.some.inj hc
    rw [← hc] at h
    unfold refinePres at h
    cases c' with
    | none => cases h
    | some r =>
      obtain ⟨h1, h2⟩ := decodeClaims_inv hcl
      dsimp only at h
      obtain ⟨w, hw, h⟩ := Out.bind_ok.1 h
      have hv' : (∃ m, v = some m ∧ get? p "vp" = some (.obj m)) ∨
          (v = none ∧ (get? p "vp" = none ∨ get? p "vp" = some .null)) := by
        unfold JObj.at at hv
        cases hg : get? p "vp" with
        | none => rw [hg] at hv; cases hv; exact Or.inr ⟨rfl, Or.inl rfl⟩
        | some j =>
          rw [hg] at hv
          cases j with
          | null => cases hv; exact Or.inr ⟨rfl, Or.inr rfl⟩
          | obj m => cases hv; exact Or.inl ⟨m, rfl, rfl⟩
          | _ => cases hv
      rcases hv' with ⟨m, rfl, hm⟩ | ⟨rfl, hm⟩
      · refine ⟨r.iss, r.jti, m, h1, h2, Or.inl hm, fun k => ?_⟩
        by_cases hi : r.iss = ""
        · rw [if_neg (by simp [hi])] at hw
          cases hw
          rw [if_neg (by simp [hi])]
          by_cases hj : r.jti = ""
          · rw [if_neg (by simp [hj])] at h
            cases h
            rw [if_neg (by simp [hj])]; rfl
          · rw [if_pos hj] at h
            cases h
            by_cases hk : k = "id"
            · rw [if_pos ⟨hk, hj⟩, hk]; exact GoMap.get?_set_self _ _ _
            · rw [if_neg (by simp [hk])]; exact GoMap.get?_set_ne _ _ (Ne.symm hk)
        · rw [if_pos hi] at hw
          cases hw
          by_cases hj : r.jti = ""
          · rw [if_neg (by simp [hj])] at h
            cases h
            by_cases hk : k = "holder"
            · rw [if_pos ⟨hk, hi⟩, hk]; exact GoMap.get?_set_self _ _ _
            · rw [if_neg (by simp [hk]), if_neg (by simp [hj])]
              exact GoMap.get?_set_ne _ _ (Ne.symm hk)
          · rw [if_pos hj] at h
            cases h
            show get? (GoMap.set (GoMap.set m "holder" _) "id" _) k = _
            by_cases hk : k = "holder"
            · rw [if_pos ⟨hk, hi⟩, GoMap.get?_set_ne _ _ (by rw [hk]; decide), hk]
              exact GoMap.get?_set_self _ _ _
            · rw [if_neg (by simp [hk])]
              by_cases hk' : k = "id"
              · rw [if_pos ⟨hk', hj⟩, hk']; exact GoMap.get?_set_self _ _ _
              · rw [if_neg (by simp [hk']), GoMap.get?_set_ne _ _ (Ne.symm hk'),
                  GoMap.get?_set_ne _ _ (Ne.symm hk)]
      · have hi : r.iss = "" := by
          by_cases hi : r.iss = ""
          · exact hi
          · rw [if_pos hi] at hw; cases hw
        rw [if_neg (by simp [hi])] at hw
        cases hw
        have hj : r.jti = "" := by
          by_cases hj : r.jti = ""
          · exact hj
          · rw [if_pos hj] at h; cases h
        rw [if_neg (by simp [hj])] at h
        cases h
        refine ⟨r.iss, r.jti, [], h1, h2, Or.inr ⟨rfl, hi, hj, hm⟩, fun k => ?_⟩
        rw [if_neg (by simp [hi]), if_neg (by simp [hj])]; rfl
  · cases hc

/-! ## The presentation's own proof -/

theorem checkLDOne_none (pc : LdProof → String → Bytes → Bytes → Bool) (doc : JObj) (p : LdPrf) :
    checkLDOne env.toPEnv pc none doc p = true ↔ LdSelfSigned env pc doc p := by
  unfold checkLDOne LdSelfSigned
  cases env.verifyData doc p with
  | none => simp
  | some msg =>
    cases env.verifyValue p with
    | none => simp
    | some sig =>
      cases p.view.publicKeyID with
      | none => simp
      | some kid =>
        simp only [Option.some.injEq, exists_and_left, exists_eq_left']
        constructor
        · intro h; exact ⟨_, (didPart_iff kid _).1 rfl, h⟩
        · rintro ⟨did, hd, h⟩; rw [(didPart_iff kid did).2 hd]; exact h

theorem proofMember_del (raw : JObj) (l : List JObj) :
    ProofMember (del raw "jwt") l ↔ ProofMember raw l := by
  unfold ProofMember
  rw [GoMap.get?_del_ne _ (by decide : ("jwt" : String) ≠ "proof")]

/-- The embedded proofs of a presentation object that is not a JWS. -/
theorem checkOwnProof_sound (o : VpOpts env) (raw : JObj) (hp : o.disabledProofCheck = false)
    (h : checkOwnProof env o raw = true) : OwnProof env o raw "" none := by
  unfold checkOwnProof at h
  rw [hp, Bool.false_or, Option.isSome_iff_exists] at h
  obtain ⟨d, h⟩ := h
  unfold checkEmbedded at h
  have hw : withExternal env.toPEnv (ownOpts env o) (del raw "jwt") = del raw "jwt" :=
    withExternal_nil env.toPEnv (ownOpts env o) rfl (del raw "jwt")
  rw [hw] at h
  split at h
  · cases h
  · rename_i hne
    split at h
    · cases h
    · rename_i ps hps
      have hm : ProofMember raw ps := (proofMember_del raw ps).1 ((getProofs_iff _ ps).1 ⟨hne, hps⟩)
      split at h
      · rename_i hd
        split at h
        · rename_i hc
          obtain ⟨s, h1, h2⟩ := (checkDataIntegrity_iff env.toPEnv (ownOpts env o) _).1 hc
          exact .di ps s rfl rfl hm ((isDataIntegrity_iff ps).1 hd) h1 h2
        · cases h
      · rename_i hd
        split at h
        · cases h
        · rename_i pc hpc
          obtain ⟨cb, hcb, hpc⟩ := Option.map_eq_some_iff.1 hpc
          split at h
          · rename_i hv
            unfold verifyObject at hv
            split at hv
            · cases hv
            · rename_i qs hq
              refine .ld ps cb qs rfl rfl hm (fun hx => hd ((isDataIntegrity_iff ps).2 hx)) hcb hq
                (fun q hq' => ?_)
              rw [← hpc] at hv
              exact (checkLDOne_none env cb.ld _ q).1 (List.all_eq_true.1 hv q hq')
          · cases h

theorem parsePresJWS_sound (o : VpOpts env) (s : String) (r : VpParsed)
    (hp : o.disabledProofCheck = false) (h : parsePresJWS env o s = .ok r) :
    OwnProof env o r.raw r.jwt r.cwt ∧ r.jwt = s := by
  unfold parsePresJWS at h
  rw [hp] at h
  split at h
  · cases h
  · rename_i hc
    obtain ⟨raw, h1, h2⟩ := Out.bind_ok.1 h
    cases h2
    refine ⟨?_, rfl⟩
    cases hck : o.checker with
    | none => rw [hck] at hc; simp at hc
    | some pc =>
      rw [hck] at h1
      unfold decodeVPFromJWS at h1
      simp only [Bool.false_eq_true, if_false, Option.map_some] at h1
      split at h1
      · cases h1
      · rename_i j hj
        split at h1
        · cases h1
        · split at h1
          · cases h1
          · rename_i p hpay
            split at h1
            · cases h1
            · rename_i c hcl
              split at h1
              · cases h1
              · rename_i u hok
                obtain ⟨vp, h3, h4⟩ := Out.bind_ok.1 h1
                cases h4
                unfold JWT.checkProof at hok
                rw [hj] at hok
                simp only [JWT.joseVerify] at hok
                split at hok
                · cases hok
                · rename_i kid hk
                  split at hok
                  · rename_i hs
                    exact .jws pc j kid _ p rfl hck hj hk ((didPart_iff kid _).1 rfl) hs hpay
                      (refinePres_ok hcl h3)
                  · cases hok

theorem parsePresJSON_sound (o : VpOpts env) (data : String) (r : VpParsed)
    (hp : o.disabledProofCheck = false) (h : parsePresJSON env o data = .ok r) :
    OwnProof env o r.raw r.jwt r.cwt := by
  unfold parsePresJSON at h
  split at h
  · exact (parsePresJWS_sound env o _ r hp h).1
  · split at h
    · obtain ⟨raw, h1, h2⟩ := Out.bind_ok.1 h
      split at h2
      · rename_i hc
        cases h2
        exact checkOwnProof_sound env o raw hp hc
      · cases h2
    · split at h
      · cases h
      · rename_i raw hraw
        split at h
        · cases h
        · rename_i hc
          split at h
          · cases h
          · cases h
            exact checkOwnProof_sound env o raw hp (by simpa using hc)

theorem parsePresCWT_sound (o : VpOpts env) (data : String) (r : VpParsed)
    (h : parsePresCWT env data = .ok r) : OwnProof env o r.raw r.jwt r.cwt := by
  unfold parsePresCWT at h
  split at h
  · cases h
  · rename_i raw m hm
    split at h
    · cases h
    · rename_i vm hvm
      cases h
      have hm' : env.parseCOSE raw = some m := by
        unfold openPresCOSE at hm
        split at hm
        · rename_i m' hm'
          cases hm; exact hm'
        · split at hm
          · cases hm
          · obtain ⟨x, hx, hxe⟩ := Option.map_eq_some_iff.1 hm
            cases hxe; exact hx
      refine .cose _ rfl rfl hm' hvm ?_
      unfold vpContent
      split
      · rename_i o' ho; exact Or.inl ho
      · exact Or.inr rfl

theorem parsePresEnveloped_sound (o : VpOpts env) (data : String) (r : VpParsed)
    (hp : o.disabledProofCheck = false) (h : parsePresEnveloped env o data = .ok r) :
    OwnProof env o r.raw r.jwt r.cwt := by
  unfold parsePresEnveloped at h
  split at h
  · cases h
  · split at h
    · cases h
    · split at h
      · cases h
      · unfold parsePresURL at h
        split at h
        · cases h
        · split at h
          · exact parsePresJSON_sound env o _ r hp h
          · split at h
            · exact parsePresCWT_sound env o _ r h
            · cases h

theorem parsePresAny_sound (o : VpOpts env) (data : String) (r : VpParsed)
    (hp : o.disabledProofCheck = false) (h : parsePresAny env o data = .ok r) :
    OwnProof env o r.raw r.jwt r.cwt := by
  unfold parsePresAny at h
  rw [orElseOut_ok, orElseOut_ok] at h
  rcases h with h | ⟨-, h | ⟨-, h⟩⟩
  · exact parsePresEnveloped_sound env o data r hp h
  · exact parsePresJSON_sound env o data r hp h
  · exact parsePresCWT_sound env o data r h

/-! ## Enclosed credentials -/

theorem mem_stringSlice {l : List Json} {ts : List String} (h : stringSlice l = some ts) (t : String) :
    t ∈ ts ↔ Json.str t ∈ l := by
  induction l generalizing ts with
  | nil => cases h; simp
  | cons j l ih =>
    cases j with
    | str s =>
      simp only [stringSlice, Option.map_eq_some_iff] at h
      obtain ⟨us, h1, rfl⟩ := h
      simp [ih h1]
    | _ => cases h

theorem at_ofWire' (c : JObj) (k : String) : GObj.at (ofWire c) k = .json (JObj.at c k) := by
  unfold GObj.at JObj.at
  rw [get?_ofWire]
  cases get? c k <;> rfl

theorem isEnvelope_iff {c : JObj} {ts : List String}
    (h : decodeType (GObj.at (ofWire c) "type") = some ts) :
    ts.contains "EnvelopedVerifiableCredential" = true ↔ IsEnvelope c := by
  rw [at_ofWire'] at h
  unfold JObj.at at h
  unfold IsEnvelope
  cases hg : get? c "type" with
  | none => rw [hg] at h; cases h
  | some j =>
    rw [hg] at h
    cases j with
    | str s =>
      cases h
      simp [eq_comm]
    | arr l =>
      have h : stringSlice l = some ts := h
      rw [List.contains_iff_mem, mem_stringSlice h]
      simp
    | _ => cases h

theorem enclosed_object (o : VpOpts env) (c : JObj) (vc : PCred env.T)
    (hp : o.disabledProofCheck = false)
    (h : parseCredentialJSON env.toPEnv (credOpts env o true) c = .ok vc) :
    Enclosed env (credOpts env o true) vc (.obj c) := by
  unfold parseCredentialJSON at h
  split at h
  · cases h
  · rename_i ts hts
    split at h
    · rename_i hc
      have he := (isEnvelope_iff hts).1 hc
      split at h
      · obtain ⟨hb, hs⟩ := parseCredDataURL_bound env.toPEnv h
        exact .envelope c he (hs hp) hb
      · cases h
    · rename_i hc
      have he : ¬ IsEnvelope c := fun he => hc ((isEnvelope_iff hts).2 he)
      split at h
      · cases h
      · split at h
        · cases h
        · rename_i cc hcc
          obtain ⟨u, -, h⟩ := Res.bind_ok.1 h
          cases h
          exact .object c he rfl rfl rfl hcc

theorem secured_validation (o : VpOpts env) (vc : PCred env.T) (a b : Bool)
    (h : Secured env.toPEnv (credOpts env o a) vc) : Secured env.toPEnv (credOpts env o b) vc := by
  cases h with
  | jwt i e pc j a b c d f => exact .jwt i e pc j a b c d f
  | cwt i e pc msg a x b c d f g k l m => exact .cwt i e pc msg a x b c d f g k l m
  | ld i l pc ps a b c d f g k m => exact .ld i l pc ps a b c d f g k m
  | di i l s a b c d f g k => exact .di i l s a b c d f g k

theorem enclosed_one (o : VpOpts env) (j : Json) (vc : PCred env.T)
    (hp : o.disabledProofCheck = false) (h : parseOneCred env o j = .ok vc) :
    Enclosed env (credOpts env o true) vc j := by
  unfold parseOneCred at h
  split at h
  · obtain ⟨h1, h2⟩ := parse_verified_partial env.toPEnv _ _ vc hp (Res.toOut_ok.1 h)
    exact .str _ (secured_validation env o vc _ _ h1) h2
  · exact enclosed_object env o _ vc hp (Res.toOut_ok.1 h)
  · cases h

theorem parseCreds_forall (o : VpOpts env) (R : PCred env.T → Json → Prop)
    (hR : ∀ j vc, parseOneCred env o j = .ok vc → R vc j) (l : List Json) (cs : List (PCred env.T))
    (h : parseCreds env o l = .ok cs) : List.Forall₂ R cs l := by
  induction l generalizing cs with
  | nil => cases h; exact .nil
  | cons j l ih =>
    simp only [parseCreds] at h
    obtain ⟨c, h1, h⟩ := Out.bind_ok.1 h
    obtain ⟨ds, h2, h⟩ := Out.bind_ok.1 h
    cases h
    exact .cons (hR j c h1) (ih ds h2)

theorem decodeCredentials_forall (o : VpOpts env) (R : PCred env.T → Json → Prop)
    (hR : ∀ j vc, parseOneCred env o j = .ok vc → R vc j) (raw : JObj) (cs : List (PCred env.T))
    (h : decodeCredentials env o (JObj.at raw "verifiableCredential") = .ok cs) :
    ∃ l, CredentialMembers raw l ∧ List.Forall₂ R cs l := by
  unfold JObj.at at h
  unfold CredentialMembers
  cases hg : get? raw "verifiableCredential" with
  | none =>
    rw [hg] at h
    cases h
    exact ⟨[], Or.inl ⟨Or.inl rfl, rfl⟩, .nil⟩
  | some j =>
    rw [hg] at h
    have single : ∀ j : Json, j ≠ .null → (∀ a, j ≠ .arr a) →
        ((parseOneCred env o j).bind fun c => .ok [c]) = .ok cs → List.Forall₂ R cs [j] := by
      intro j _ _ hh
      obtain ⟨c, h1, h2⟩ := Out.bind_ok.1 hh
      cases h2
      exact .cons (hR j c h1) .nil
    cases j with
    | null => cases h; exact ⟨[], Or.inl ⟨Or.inr rfl, rfl⟩, .nil⟩
    | arr l => exact ⟨l, Or.inr (Or.inl rfl), parseCreds_forall env o R hR l cs h⟩
    | str s => exact ⟨_, Or.inr (Or.inr ⟨_, rfl, (by simp), (by simp), rfl⟩), single (.str s) (by simp) (by simp) h⟩
    | obj s => exact ⟨_, Or.inr (Or.inr ⟨_, rfl, (by simp), (by simp), rfl⟩), single (.obj s) (by simp) (by simp) h⟩
    | bool s => exact ⟨_, Or.inr (Or.inr ⟨_, rfl, (by simp), (by simp), rfl⟩), single (.bool s) (by simp) (by simp) h⟩
    | num s => exact ⟨_, Or.inr (Or.inr ⟨_, rfl, (by simp), (by simp), rfl⟩), single (.num s) (by simp) (by simp) h⟩

/-! ## The presentation -/

theorem newPres_ok (o : VpOpts env) (raw : JObj) (vp : Pres env.T) (h : newPres env o raw = .ok vp) :
    decodeType (.json (JObj.at raw "type")) = some vp.types ∧
    decodeContext (.json (JObj.at raw "@context")) = some (vp.context, vp.customContext) ∧
    decodeCredentials env o (JObj.at raw "verifiableCredential") = .ok vp.credentials ∧
    parseLDProof (.json (JObj.at raw "proof")) = some vp.proofs ∧
    parseStringFld raw "id" = some vp.id ∧ decodeHolder (JObj.at raw "holder") = some vp.holder ∧
    vp.custom = JsonUtil.copyExcept raw vpFields ∧
    executeChecks env o vp.proofs vp.credentials vp.holder = true := by
  unfold newPres at h
  split at h
  · cases h
  · rename_i ts hts
    split at h
    · cases h
    · rename_i ctx hctx
      obtain ⟨cs, hcs, h⟩ := Out.bind_ok.1 h
      unfold finishPres at h
      split at h
      · rename_i ps i hd h1 h2 h3
        split at h
        · rename_i hx
          cases h
          exact ⟨hts, hctx, hcs, h1, h2, h3, rfl, hx⟩
        · cases h
      · cases h

theorem parsePresentation_ok (o : VpOpts env) (data : String) (vp : Pres env.T)
    (h : parsePresentation env o data = .ok vp) :
    ∃ r, parsePresAny env o data = .ok r ∧ vp.jwt = r.jwt ∧ vp.cwt = r.cwt ∧
      validateVP env o r.raw = true ∧
      newPres env o r.raw = .ok { vp with jwt := "", cwt := none } ∧
      (o.requireVC = true → vp.credentials ≠ []) := by
  unfold parsePresentation at h
  obtain ⟨r, h1, h⟩ := Out.bind_ok.1 h
  split at h
  · cases h
  · rename_i hv
    obtain ⟨p, h2, h⟩ := Out.bind_ok.1 h
    split at h
    · cases h
    · rename_i hr
      cases h
      refine ⟨r, h1, rfl, rfl, by simpa using hv, ?_, fun hq => ?_⟩
      · have hp : p.jwt = "" ∧ p.cwt = none := by
          unfold newPres at h2
          split at h2
          · cases h2
          · split at h2
            · cases h2
            · obtain ⟨cs, -, h2⟩ := Out.bind_ok.1 h2
              unfold finishPres at h2
              split at h2
              · split at h2
                · cases h2; exact ⟨rfl, rfl⟩
                · cases h2
              · cases h2
        rw [h2]
        obtain ⟨q1, q2⟩ := hp
        cases p
        dsimp only at q1 q2
        subst q1 q2
        rfl
      · rw [hq, Bool.true_and] at hr
        intro hn
        have hn : p.credentials = [] := hn
        rw [hn] at hr
        exact hr rfl

/-- Everything proof checking establishes about an accepted presentation: how the presentation
itself is secured, and for each enclosed credential what was checked. -/
theorem presentation_checked (o : VpOpts env) (data : String) (vp : Pres env.T)
    (hp : o.disabledProofCheck = false) (h : parsePresentation env o data = .ok vp) :
    ∃ raw l, OwnProof env o raw vp.jwt vp.cwt ∧ CredentialMembers raw l ∧
      List.Forall₂ (Enclosed env (credOpts env o true)) vp.credentials l ∧
      parseStringFld raw "id" = some vp.id ∧ decodeHolder (JObj.at raw "holder") = some vp.holder := by
  obtain ⟨r, h1, h2, h3, -, h4, -⟩ := parsePresentation_ok env o data vp h
  obtain ⟨-, -, k3, -, k5, k6, -, -⟩ := newPres_ok env o _ _ h4
  obtain ⟨l, m1, m2⟩ := decodeCredentials_forall env o _ (fun j vc hj => enclosed_one env o j vc hp hj) _ _ k3
  refine ⟨r.raw, l, ?_, m1, m2, k5, k6⟩
  rw [h2, h3]
  exact parsePresAny_sound env o data r hp h1

end VC.Vfy
