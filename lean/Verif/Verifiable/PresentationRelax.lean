import Verif.Verifiable.PresentationMain
/-!
# verifiable: presentations — relaxing the options (C69)

`relax_same_partial`: relaxing any of the checks keeps every accepted presentation accepted, with the
same result, as long as the input can be read in one format only.
-/

namespace VC.Vfy

open GoMap
open VC.Vfy.Spec
open VC.Proof (Bytes CwtReq LdProof)

namespace Spec

/-- `o'` checks no more than `o`, and what it checks it checks in the same way. -/
structure Weaker (env : VEnv) (o o' : VpOpts env) : Prop where
  checker : o'.checker = o.checker
  strict : o'.strict = o.strict
  diVerifier : o'.diVerifier = o.diVerifier
  diPurpose : o'.diPurpose = o.diPurpose
  diDomain : o'.diDomain = o.diDomain
  diChallenge : o'.diChallenge = o.diChallenge
  proof : o.disabledProofCheck = true → o'.disabledProofCheck = true
  jsonld : o.disableJSONLD = true → o'.disableJSONLD = true
  holder : o'.checkHolder = true → o.checkHolder = true
  related : o'.checkRelRes = true → o.checkRelRes = true
  requireVC : o'.requireVC = true → o.requireVC = true
  requireProof : o'.requireProof = true → o.requireProof = true

/-- The text is JSON (or a JWT) or COSE but not both, a JWT is not a JSON object, and an enveloped
presentation carries no embedded proof of its own. -/
structure OneFormat (env : VEnv) (data : String) : Prop where
  jwt : (isJWS env.toPEnv (unQuote data) = true ∨ isJWTUnsecured env.toPEnv (unQuote data) = true) →
    env.decodeObj data = none ∧ openPresCOSE env data = none
  json : env.decodeObj data ≠ none → openPresCOSE env data = none
  envelope : ∀ doc l, env.decodeObj data = some doc → get? doc "type" = some (.arr l) →
    Json.str "EnvelopedVerifiablePresentation" ∈ l → get? doc "proof" = none

end Spec

variable (env : VEnv)

theorem ownOpts_weaker {o o' : VpOpts env} (w : Weaker env o o') :
    ownOpts env o' = { ownOpts env o with disabledProofCheck := o'.disabledProofCheck } := by
  unfold ownOpts credOpts
  rw [w.checker, w.diVerifier, w.diPurpose, w.diDomain, w.diChallenge]

theorem credOpts_weaker {o o' : VpOpts env} (w : Weaker env o o') (b : Bool) :
    credOpts env o' b = switches env.toPEnv (credOpts env o b) b o'.disabledProofCheck false := by
  unfold switches credOpts
  rw [w.checker]

theorem checkEmbedded_disabled (penv : PEnv) (o : ParseOpts penv) (b : Bool) (iss : Option String)
    (doc : JObj) :
    checkEmbedded penv { o with disabledProofCheck := b } iss doc = checkEmbedded penv o iss doc := by
  unfold checkEmbedded
  rfl

theorem checkOwnProof_weaker {o o' : VpOpts env} (w : Weaker env o o') (raw : JObj)
    (h : checkOwnProof env o raw = true) : checkOwnProof env o' raw = true := by
  unfold checkOwnProof at h ⊢
  rw [ownOpts_weaker env w, checkEmbedded_disabled]
  rw [Bool.or_eq_true] at h ⊢
  rcases h with h | h
  · exact Or.inl (w.proof h)
  · exact Or.inr h

theorem jws_unchecked (pc : Option JWT.ProofChecker) (s : String) (raw : JObj)
    (h : decodeVPFromJWS env pc s = .ok raw) : decodeVPFromJWS env none s = .ok raw := by
  unfold decodeVPFromJWS at h ⊢
  cases hj : env.lib.parseJWS none s with
  | none => rw [hj] at h; cases h
  | some j =>
    rw [hj] at h
    dsimp only at h ⊢
    by_cases hh : (!JWT.checkHeaders env.lib j.headers) = true
    · rw [if_pos hh] at h; cases h
    · rw [if_neg hh] at h ⊢
      cases hp : env.payloadObj j.payload with
      | none => rw [hp] at h; cases h
      | some p =>
        rw [hp] at h
        dsimp only at h ⊢
        cases hc : unmarshalPres p with
        | none => rw [hc] at h; cases h
        | some c =>
          rw [hc] at h
          dsimp only at h ⊢
          cases pc with
          | none => exact h
          | some k =>
            dsimp only at h
            split at h
            · cases h
            · exact h

theorem parsePresJSON_weaker {o o' : VpOpts env} (w : Weaker env o o') (data : String) (r : VpParsed)
    (h : parsePresJSON env o data = .ok r) : parsePresJSON env o' data = .ok r := by
  unfold parsePresJSON at h ⊢
  by_cases h1 : isJWS env.toPEnv (unQuote data) = true
  · rw [if_pos h1] at h ⊢
    unfold parsePresJWS at h ⊢
    rw [w.checker]
    cases hd : o.disabledProofCheck with
    | true =>
      rw [w.proof hd]
      rw [hd] at h
      exact h
    | false =>
      rw [hd] at h
      by_cases hn : (!false && o.checker.isNone) = true
      · rw [if_pos hn] at h; cases h
      · rw [if_neg hn] at h
        cases hd' : o'.disabledProofCheck with
        | false => rw [if_neg hn]; exact h
        | true =>
          rw [if_neg (by simp)]
          obtain ⟨raw, h2, h3⟩ := Out.bind_ok.1 h
          exact Out.bind_ok.2 ⟨raw, jws_unchecked env _ _ _ h2, h3⟩
  · rw [if_neg h1] at h ⊢
    by_cases h2 : isJWTUnsecured env.toPEnv (unQuote data) = true
    · rw [if_pos h2] at h ⊢
      obtain ⟨raw, h3, h4⟩ := Out.bind_ok.1 h
      refine Out.bind_ok.2 ⟨raw, h3, ?_⟩
      by_cases h5 : checkOwnProof env o raw = true
      · rw [if_pos h5] at h4
        rw [if_pos (checkOwnProof_weaker env w raw h5)]; exact h4
      · rw [if_neg h5] at h4; cases h4
    · rw [if_neg h2] at h ⊢
      cases hj : env.decodeObj data with
      | none => rw [hj] at h; cases h
      | some raw =>
        rw [hj] at h
        dsimp only at h ⊢
        by_cases h5 : checkOwnProof env o raw = true
        · rw [h5] at h
          rw [checkOwnProof_weaker env w raw h5]
          rw [if_neg (by simp)] at h ⊢
          by_cases h6 : (o.requireProof && proofMissing raw) = true
          · rw [if_pos h6] at h; cases h
          · rw [if_neg h6] at h
            rw [if_neg]
            · exact h
            · intro h7
              rw [Bool.and_eq_true] at h7
              exact h6 (by rw [Bool.and_eq_true]; exact ⟨w.requireProof h7.1, h7.2⟩)
        · rw [Bool.not_eq_true] at h5
          rw [h5] at h; cases h

theorem parsePresURL_weaker {o o' : VpOpts env} (w : Weaker env o o') (url : String) (r : VpParsed)
    (h : parsePresURL env o url = .ok r) : parsePresURL env o' url = .ok r := by
  unfold parsePresURL at h ⊢
  split at h
  · cases h
  · split at h
    · rename_i hm
      rw [if_pos hm]
      exact parsePresJSON_weaker env w _ _ h
    · rename_i hm
      rw [if_neg hm]
      exact h

theorem parsePresEnveloped_weaker {o o' : VpOpts env} (w : Weaker env o o') (data : String)
    (r : VpParsed) (h : parsePresEnveloped env o data = .ok r) :
    parsePresEnveloped env o' data = .ok r := by
  unfold parsePresEnveloped at h ⊢
  split at h
  · cases h
  · split at h
    · cases h
    · split at h
      · cases h
      · rename_i hc
        rw [if_neg hc]
        exact parsePresURL_weaker env w _ _ h

theorem parseOneCred_weaker {o o' : VpOpts env} (w : Weaker env o o') (j : Json) (c : PCred env.T)
    (h : parseOneCred env o j = .ok c) : parseOneCred env o' j = .ok c := by
  cases j with
  | str s =>
    simp only [parseOneCred] at h ⊢
    rw [Res.toOut_ok] at h ⊢
    rw [credOpts_weaker env w]
    exact disable_same_partial env.toPEnv (credOpts env o false) rfl false o'.disabledProofCheck false
      (fun h => h) w.proof (fun h => h) s c h
  | obj d =>
    by_cases he : IsEnvelope d
    · simp only [parseOneCred] at h ⊢
      rw [Res.toOut_ok] at h ⊢
      unfold parseCredentialJSON at h ⊢
      cases hts : decodeType (GObj.at (ofWire d) "type") with
      | none => rw [hts] at h; cases h
      | some ts =>
        rw [hts] at h
        dsimp only at h ⊢
        have hc := (isEnvelope_iff hts).2 he
        rw [if_pos hc] at h ⊢
        split at h
        · rename_i i hi
          obtain ⟨k1, k2⟩ := (parseCredDataURL_iff env.toPEnv (credOpts env o true) rfl _ c).1 h
          refine (parseCredDataURL_iff env.toPEnv (credOpts env o' true) rfl _ c).2 ⟨?_, ?_⟩
          · rw [credOpts_weaker env w]; exact k1
          · rw [credOpts_weaker env w]
            refine ⟨fun hf => (by cases hf), fun hf => ?_, fun hf => k2.2.2 hf⟩
            have hd : o.disabledProofCheck = false := by
              cases hx : o.disabledProofCheck with
              | false => rfl
              | true =>
                have := w.proof hx
                rw [show o'.disabledProofCheck = false from hf] at this; cases this
            have := k2.2.1 hd
            cases this with
            | jwt i e pc j hi he hc hj hs => exact .jwt i e pc j hi he hc hj hs
            | cwt i e pc msg a x hi hn he hc h1 h2 h3 h4 => exact .cwt i e pc msg a x hi hn he hc h1 h2 h3 h4
            | ld i l pc ps hi hn hn' hp hd hc hl hs => exact .ld i l pc ps hi hn hn' hp hd hc hl hs
            | di i l s hi hn hn' hp hd hc hs => exact .di i l s hi hn hn' hp hd hc hs
        · cases h
    · rw [object_credential_unchecked env o d he] at h
      rw [object_credential_unchecked env o' d he, ← h]
      unfold parseOneCred
      exact congrArg Res.toOut (parseCredentialJSON_plain env.toPEnv _ _ d he rfl rfl)
  | _ => cases h

theorem parseCreds_weaker {o o' : VpOpts env} (w : Weaker env o o') (l : List Json) :
    ∀ cs, parseCreds env o l = .ok cs → parseCreds env o' l = .ok cs := by
  induction l with
  | nil => exact fun cs h => h
  | cons j l ih =>
    intro cs h
    simp only [parseCreds] at h ⊢
    obtain ⟨c, h1, h⟩ := Out.bind_ok.1 h
    obtain ⟨cs', h2, h⟩ := Out.bind_ok.1 h
    exact Out.bind_ok.2 ⟨c, parseOneCred_weaker env w j c h1, Out.bind_ok.2 ⟨cs', ih cs' h2, h⟩⟩

theorem decodeCredentials_weaker {o o' : VpOpts env} (w : Weaker env o o') (j : Json)
    (cs : List (PCred env.T)) (h : decodeCredentials env o j = .ok cs) :
    decodeCredentials env o' j = .ok cs := by
  have one : ∀ j, ((parseOneCred env o j).bind fun c => .ok [c]) = .ok cs →
      ((parseOneCred env o' j).bind fun c => .ok [c]) = .ok cs := by
    intro j h
    obtain ⟨c, h1, h⟩ := Out.bind_ok.1 h
    exact Out.bind_ok.2 ⟨c, parseOneCred_weaker env w j c h1, h⟩
  cases j with
  | null => exact h
  | arr l => exact parseCreds_weaker env w l cs h
  | bool b => exact one (.bool b) h
  | num b => exact one (.num b) h
  | str b => exact one (.str b) h
  | obj b => exact one (.obj b) h

theorem executeChecks_weaker {o o' : VpOpts env} (w : Weaker env o o') (ps : List JObj)
    (cs : List (PCred env.T)) (hd : String) (h : executeChecks env o ps cs hd = true) :
    executeChecks env o' ps cs hd = true := by
  unfold executeChecks at h ⊢
  simp only [Bool.and_eq_true, Bool.or_eq_true, Bool.not_eq_true'] at h ⊢
  refine ⟨?_, ?_⟩
  · cases hx : o'.checkHolder with
    | false => exact Or.inl rfl
    | true =>
      rcases h.1 with h | h
      · rw [w.holder hx] at h; cases h
      · exact Or.inr h
  · cases hx : o'.checkRelRes with
    | false => exact Or.inl rfl
    | true =>
      rcases h.2 with h | h
      · rw [w.related hx] at h; cases h
      · exact Or.inr h

theorem newPres_weaker {o o' : VpOpts env} (w : Weaker env o o') (raw : JObj) (vp : Pres env.T)
    (h : newPres env o raw = .ok vp) : newPres env o' raw = .ok vp := by
  unfold newPres at h ⊢
  split at h
  · cases h
  · split at h
    · cases h
    · obtain ⟨cs, h1, h⟩ := Out.bind_ok.1 h
      refine Out.bind_ok.2 ⟨cs, decodeCredentials_weaker env w _ _ h1, ?_⟩
      unfold finishPres at h ⊢
      split at h
      · split at h
        · rename_i hx
          rw [if_pos (executeChecks_weaker env w _ _ _ hx)]
          exact h
        · cases h
      · cases h

theorem not_envelope_err {o : VpOpts env} (data : String)
    (h : ∀ doc l, env.decodeObj data = some doc → get? doc "type" = some (.arr l) →
      Json.str "EnvelopedVerifiablePresentation" ∉ l) : parsePresEnveloped env o data = .err := by
  unfold parsePresEnveloped
  cases hj : env.decodeObj data with
  | none => rfl
  | some doc =>
    dsimp only
    unfold decodeEnvelope
    split
    · rfl
    · rename_i i ts he
      split at he
      · rename_i i' t' c' e1 e2 e3
        cases he
        have : ¬ ts.contains "EnvelopedVerifiablePresentation" = true := by
          intro hc
          have hm : "EnvelopedVerifiablePresentation" ∈ ts := List.contains_iff_mem.1 hc
          unfold JObj.at at e2
          cases hg : get? doc "type" with
          | none => rw [hg] at e2; cases e2; cases hm
          | some j =>
            rw [hg] at e2
            cases j with
            | arr l =>
              refine h doc l hj hg ?_
              clear h hg
              simp only [Option.getD_some, strList] at e2
              induction l generalizing ts with
              | nil => cases e2; cases hm
              | cons a l ih =>
                simp only [strElems, Option.bind_eq_some_iff, Option.map_eq_some_iff] at e2
                obtain ⟨s, hs, ts', ht', rfl⟩ := e2
                rcases List.mem_cons.1 hm with rfl | hm
                · cases a with
                  | str x => simp only [strOf] at hs; cases hs; simp
                  | null => simp [strOf] at hs
                  | _ => cases hs
                · exact List.mem_cons_of_mem _ (ih ts' (List.contains_iff_mem.2 hm) hm ht')
            | null => cases e2; cases hm
            | _ => cases e2
        simp only [Bool.not_eq_true] at this
        rw [this]; rfl
      · cases he

theorem parsePresJSON_off {o o' : VpOpts env} (h1 : o.disabledProofCheck = true)
    (h2 : o'.disabledProofCheck = true) (h3 : o.requireProof = false) (h4 : o'.requireProof = false)
    (data : String) : parsePresJSON env o data = parsePresJSON env o' data := by
  unfold parsePresJSON parsePresJWS checkOwnProof
  rw [h1, h2, h3, h4]
  rfl

theorem parsePresEnveloped_off {o o' : VpOpts env} (h1 : o.disabledProofCheck = true)
    (h2 : o'.disabledProofCheck = true) (h3 : o.requireProof = false) (h4 : o'.requireProof = false)
    (data : String) : parsePresEnveloped env o data = parsePresEnveloped env o' data := by
  unfold parsePresEnveloped parsePresURL
  simp only [parsePresJSON_off env h1 h2 h3 h4]

theorem at_missing {m : JObj} {k : String} (h : get? m k = none) : JObj.at m k = .null := by
  unfold JObj.at; rw [h]; rfl

theorem parsePresAny_weaker {o o' : VpOpts env} (w : Weaker env o o') (data : String) (r : VpParsed)
    (u : OneFormat env data) (h : parsePresAny env o data = .ok r) :
    parsePresAny env o' data = .ok r := by
  unfold parsePresAny at h ⊢
  rw [orElseOut_ok, orElseOut_ok] at h ⊢
  rcases h with h | ⟨h0, h | ⟨h1, h⟩⟩
  · exact Or.inl (parsePresEnveloped_weaker env w data r h)
  · refine Or.inr ⟨?_, Or.inl (parsePresJSON_weaker env w data r h)⟩
    by_cases hx : ∃ doc l, env.decodeObj data = some doc ∧ get? doc "type" = some (.arr l) ∧
        Json.str "EnvelopedVerifiablePresentation" ∈ l
    · obtain ⟨doc, l, e1, e2, e3⟩ := hx
      have hnp := u.envelope doc l e1 e2 e3
      have hnj : ¬ (isJWS env.toPEnv (unQuote data) = true ∨
          isJWTUnsecured env.toPEnv (unQuote data) = true) := by
        intro hj
        have := (u.jwt hj).1
        rw [e1] at this; cases this
      unfold parsePresJSON at h
      rw [if_neg (fun h => hnj (Or.inl h)), if_neg (fun h => hnj (Or.inr h)), e1] at h
      dsimp only at h
      have hat : JObj.at (del doc "jwt") "proof" = .null :=
        at_missing (by rw [GoMap.get?_del_ne _ (by decide)]; exact hnp)
      have hco : checkOwnProof env o doc = o.disabledProofCheck := by
        unfold checkOwnProof checkEmbedded
        rw [hat]
        simp
      rw [hco] at h
      have hpm : proofMissing doc = true := by
        unfold proofMissing
        rw [at_missing hnp]
      rw [hpm] at h
      cases hd : o.disabledProofCheck with
      | false => rw [hd] at h; cases h
      | true =>
        cases hr : o.requireProof with
        | true => rw [hd, hr] at h; cases h
        | false =>
          have hr' : o'.requireProof = false := by
            cases hr' : o'.requireProof with
            | false => rfl
            | true => rw [w.requireProof hr'] at hr; cases hr
          rw [parsePresEnveloped_off env (w.proof hd) hd hr' hr]
          exact h0
    · refine not_envelope_err env data ?_
      intro doc l e1 e2 e3
      exact hx ⟨doc, l, e1, e2, e3⟩
  · have hco : openPresCOSE env data ≠ none := by
      intro hn
      unfold parsePresCWT at h
      rw [hn] at h; cases h
    have hdo : env.decodeObj data = none := by
      cases hd : env.decodeObj data with
      | none => rfl
      | some d => exact absurd (u.json (by rw [hd]; simp)) hco
    refine Or.inr ⟨?_, Or.inr ⟨?_, h⟩⟩
    · unfold parsePresEnveloped; rw [hdo]
    · unfold parsePresJSON
      rw [if_neg (fun hj => hco (u.jwt (Or.inl hj)).2), if_neg (fun hj => hco (u.jwt (Or.inr hj)).2), hdo]

/-- **C69 (partial)**: options that check less accept every presentation that options checking more
accept, with the same result.

Missing: inputs readable in more than one format (`OneFormat`): an enveloped presentation that also
carries a proof of its own is read differently with and without proof checking
(`envelope_with_proof_read_twice`). -/
theorem relax_same_partial {o o' : VpOpts env} (w : Weaker env o o') (data : String) (vp : Pres env.T)
    (u : OneFormat env data) (h : parsePresentation env o data = .ok vp) :
    parsePresentation env o' data = .ok vp := by
  obtain ⟨r, h1, h2, h3, h4, h5, h6⟩ := parsePresentation_ok env _ data vp h
  unfold parsePresentation
  rw [parsePresAny_weaker env w data r u h1]
  simp only [Out.bind]
  have hv : validateVP env o' r.raw = true := by
    unfold validateVP at h4 ⊢
    rw [w.strict]
    simp only [Bool.and_eq_true, Bool.or_eq_true] at h4 ⊢
    exact ⟨h4.1, h4.2.imp w.jsonld id⟩
  rw [hv]
  simp only [Bool.not_true, Bool.false_eq_true, if_false]
  rw [newPres_weaker env w _ _ h5]
  simp only
  by_cases hq : (o'.requireVC && ({ vp with jwt := "", cwt := none } : Pres env.T).credentials.isEmpty) = true
  · exfalso
    simp only [Bool.and_eq_true] at hq
    exact h6 (w.requireVC hq.1) (List.isEmpty_iff.1 hq.2)
  · rw [if_neg hq, ← h2, ← h3]

end VC.Vfy
