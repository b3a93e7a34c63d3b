import Verif.Verifiable.PresentationProps
import Verif.Verifiable.DisclosureMain
import Verif.SDJWT.Restrict
/-!
# verifiable: an SD-JWT credential is written and read again (C108)

`MarshalWithDisclosure` of a parsed SD-JWT credential, then `ParseCredential` of the text:
`sd_written_iff` says exactly when the text is accepted, `sd_written_gives` what is returned, and
`disclose_all_roundtrip` that with all disclosures the credential comes back.
-/

namespace VC.Vfy

open GoMap
open VC.SDJWT (Disc DMap JWF EnvWF Committed)
open Spec

variable (env : PEnv)

/-! ## What is known of a parsed SD-JWT credential -/

/-- Where the parts of a parsed SD-JWT credential come from; `ds` are the disclosures of the text. -/
structure SdOrigin (vc : PCred env.T) (e : JwtEnvelope) (ds : List String) : Prop where
  jwt : vc.jwt = some e
  cwt : vc.cwt = none
  isJWS : isJWS env e.jwt = true
  jwtClean : NoChar '~' e.jwt
  dsClean : ∀ s ∈ ds, NoChar '~' s
  hb : e.holderBinding = "" ∨ Vfy.isJWS env e.holderBinding = true
  hbClean : NoChar '~' e.holderBinding
  decode : decodeCredJWT env e.jwt = .ok (e.headers, vc.json)
  contents : parseContents env.toCEnv (ofWire vc.json) true = some vc.contents
  proofs : parseLDProof (GObj.at (ofWire vc.json) "proof") = some vc.proofs
  validated : validateDisclosures env vc.json ds = true
  resolved : parseDisclosures env ds vc.contents.sdAlg = some e.disclosures

theorem sdAlg_flag {json : JObj} {b : Bool} {c : Contents env.T}
    (h : parseContents env.toCEnv (ofWire json) b = some c) : c.sdAlg = none ↔ b = false := by
  obtain ⟨-, -, -, -, -, -, -, -, h9, -⟩ := parseContents_inv env.toCEnv h
  unfold parseSDAlg at h9
  cases b with
  | false =>
    rw [if_neg (by simp)] at h9
    simp [(Option.some.inj h9).symm]
  | true =>
    rw [if_pos rfl] at h9
    split at h9
    · cases h9
    · obtain ⟨a, -, h9⟩ := Option.map_eq_some_iff.1 h9
      simp [← h9]

theorem splitCombined_clean (s : String) :
    NoChar '~' (splitCombined env s).jwt ∧ (∀ d ∈ (splitCombined env s).disclosures, NoChar '~' d) ∧
    NoChar '~' (splitCombined env s).holderBinding ∧
    ((splitCombined env s).holderBinding = "" ∨ isJWS env (splitCombined env s).holderBinding = true) := by
  have hall : ∀ x ∈ split SDJWT.sep s, NoChar '~' x := fun x hx => split_noChar _ _ x hx
  have hhead : NoChar '~' ((split SDJWT.sep s).headD "") := by
    cases hs : split SDJWT.sep s with
    | nil => unfold NoChar; decide
    | cons a l => exact hall a (by rw [hs]; exact List.mem_cons_self)
  have hlast : NoChar '~' ((split SDJWT.sep s).getLastD "") := by
    cases hs : (split SDJWT.sep s).getLast? with
    | none => rw [List.getLastD_eq_getLast?, hs]; unfold NoChar; decide
    | some a =>
      rw [List.getLastD_eq_getLast?, hs]
      exact hall a (List.mem_of_getLast? hs)
  unfold splitCombined
  split
  · rename_i hc
    unfold SDJWT.parsePresentation
    dsimp only
    refine ⟨hhead, ?_, ?_, ?_⟩
    · intro d hd
      split at hd
      · exact hall d (List.mem_of_mem_take (List.mem_of_mem_drop hd))
      · cases hd
    · split
      · exact hlast
      · unfold NoChar; decide
    · split
      · exact hc
      · exact Or.inl rfl
  · unfold SDJWT.parseIssuance
    dsimp only
    refine ⟨hhead, ?_, by unfold NoChar; decide, Or.inl rfl⟩
    intro d hd
    split at hd
    · exact hall d (List.mem_of_mem_drop hd)
    · cases hd

theorem parseJSON_sd {o : ParseOpts env} {data : String} {vc : PCred env.T} {e : JwtEnvelope}
    (h : parseJSON env o data = .ok vc) (hj : vc.jwt = some e) (hsd : vc.contents.sdAlg ≠ none) :
    ∃ ds, SdOrigin env vc e ds := by
  unfold parseJSON at h
  split at h
  · rename_i p hp
    obtain ⟨r, h1, h2⟩ := Res.bind_ok.1 h
    unfold openJWS at h1
    obtain ⟨r', h0, h1⟩ := Res.bind_ok.1 h1
    split at h1
    · rename_i hval
      have e' : r' = r := Res.ok.inj h1
      subst e'
      unfold finishJSON at h2
      split at h2
      · cases h2
      · rename_i c hc
        split at h2
        · cases h2
        · rename_i ps hps
          obtain ⟨-, -, h2⟩ := Res.bind_ok.1 h2
          dsimp only at h2
          split at h2
          · cases h2
          · rename_i dm hdm
            have e1 := Res.ok.inj h2
            subst e1
            have e2 := Option.some.inj hj
            subst e2
            have hc' : parseContents env.toCEnv (ofWire r'.2) p.isSDJWT = some c := hc
            have hflag : p.isSDJWT = true := by
              cases hb : p.isSDJWT with
              | true => rfl
              | false => rw [hb] at hc'; exact absurd ((sdAlg_flag env hc').2 rfl) hsd
            unfold tryParseAsJWS at hp
            split at hp
            · rename_i hjws
              have hp := Option.some.inj hp
              have hcomb : p = splitCombined env (unwrapStringVC env data) := by
                unfold jwsParts at hp
                split at hp
                · exact hp.symm
                · rw [← hp] at hflag; cases hflag
              rw [hp] at hjws
              rw [hflag] at hc'
              obtain ⟨s1, s2, s3, s4⟩ := splitCombined_clean env (unwrapStringVC env data)
              rw [← hcomb] at s1 s2 s3 s4
              exact ⟨p.disclosures, rfl, rfl, hjws, s1, s2, s4, s3, h0, hc', hps, hval, hdm⟩
            · cases hp
    · cases h1
  · obtain ⟨json, -, h2⟩ := Res.bind_ok.1 h
    obtain ⟨-, -, -, -, h3, -⟩ := finishJSON_shape env h2
    rw [h3 rfl] at hj
    cases hj

theorem parseCBOR_no_jwt {o : ParseOpts env} {data : String} {vc : PCred env.T}
    (h : parseCBOR env o data = .ok vc) : vc.jwt = none := by
  unfold parseCBOR at h
  obtain ⟨e, -, h⟩ := Res.bind_ok.1 h
  split at h
  · cases h
  · split at h
    · cases h
    · obtain ⟨-, -, h⟩ := Res.bind_ok.1 h
      cases h
      rfl

/-- Proof checking leaves a JWT credential as it is. -/
theorem parseWith_jwt {parser : ParseOpts env → String → Res (PCred env.T)} {o : ParseOpts env}
    {d : String} {vc : PCred env.T} (h : parseWith env parser o d = .ok vc) {e : JwtEnvelope}
    (hj : vc.jwt = some e) :
    parser o d = .ok vc ∧ (o.disabledProofCheck = false → checkProof env o vc = some vc) ∧
    (o.disableRelRes || env.relOK vc.contents) = true := by
  unfold parseWith at h
  obtain ⟨v, h1, h⟩ := Res.bind_ok.1 h
  obtain ⟨w, h2, h3⟩ := Res.bind_ok.1 h
  have hw : w = vc ∧ (o.disableRelRes || env.relOK vc.contents) = true := by
    split at h3
    · rename_i hr
      have := Res.ok.inj h3
      subst this
      exact ⟨rfl, hr⟩
    · cases h3
  obtain ⟨rfl, hr⟩ := hw
  split at h2
  · rename_i hd
    have := Res.ok.inj h2
    subst this
    exact ⟨h1, fun hf => (by rw [hd] at hf; cases hf), hr⟩
  · cases hcp : checkProof env o v with
    | none => rw [hcp] at h2; cases h2
    | some x =>
      rw [hcp] at h2
      have := Res.ok.inj h2
      subst this
      have hv : x = v := by
        unfold checkProof at hcp
        split at hcp
        · cases hcp
        · split at hcp
          · split at hcp
            · cases hcp
            · split at hcp
              · exact (Option.some.inj hcp).symm
              · cases hcp
          · rename_i hn
            split at hcp
            · split at hcp
              · cases hcp
              · split at hcp
                · exact (Option.some.inj hcp).symm
                · cases hcp
            · split at hcp
              · have := Option.some.inj hcp
                rw [← this] at hj
                rw [show ({ v with json := _ } : PCred env.T).jwt = v.jwt from rfl, hn] at hj
                cases hj
              · cases hcp
      subst hv
      exact ⟨h1, fun _ => hcp, hr⟩

theorem parseWith_jwt_of {parser : ParseOpts env → String → Res (PCred env.T)} {o : ParseOpts env}
    {d : String} {vc : PCred env.T} (h : parser o d = .ok vc)
    (hc : o.disabledProofCheck = false → checkProof env o vc = some vc)
    (hr : (o.disableRelRes || env.relOK vc.contents) = true) : parseWith env parser o d = .ok vc := by
  unfold parseWith
  rw [h]
  show (Res.bind _ _) = _
  cases hd : o.disabledProofCheck with
  | true =>
    show (if _ then _ else _) = _
    rw [if_pos hr]
  | false =>
    show Res.bind (if false = true then _ else Res.ofOption (checkProof env o vc)) _ = _
    rw [if_neg (by simp), hc hd]
    show (if _ then _ else _) = _
    rw [if_pos hr]

theorem parseCredDataURL_sd {o : ParseOpts env} {url : String} {vc : PCred env.T} {e : JwtEnvelope}
    (h : parseCredDataURL env o url = .ok vc) (hj : vc.jwt = some e) (hsd : vc.contents.sdAlg ≠ none) :
    (∃ ds, SdOrigin env vc e ds) ∧ (o.disabledProofCheck = false → checkProof env o vc = some vc) ∧
    (o.disableRelRes || env.relOK vc.contents) = true := by
  unfold parseCredDataURL at h
  split at h
  · cases h
  · split at h
    · obtain ⟨h1, h2, h3⟩ := parseWith_jwt env h hj
      exact ⟨parseJSON_sd env h1 hj hsd, h2, h3⟩
    · split at h
      · obtain ⟨h1, h2, h3⟩ := parseWith_jwt env h hj
        rw [parseCBOR_no_jwt env h1] at hj
        cases hj
      · cases h

/-- An accepted SD-JWT credential: its origin and the checks behind it. -/
theorem parseCredential_sd {o : ParseOpts env} {d : String} {vc : PCred env.T} {e : JwtEnvelope}
    (h : parseCredential env o d = .ok vc) (hj : vc.jwt = some e) (hsd : vc.contents.sdAlg ≠ none) :
    (∃ ds, SdOrigin env vc e ds) ∧ (o.disabledProofCheck = false → checkProof env o vc = some vc) ∧
    (o.disableRelRes || env.relOK vc.contents) = true := by
  unfold parseCredential at h
  rcases orNext_ok.1 h with h | ⟨-, h⟩
  · obtain ⟨h1, -, -⟩ := parseWith_jwt env h hj
    unfold parseEnveloped at h1
    split at h1
    · cases h1
    · split at h1
      · cases h1
      · split at h1
        · cases h1
        · split at h1
          · exact parseCredDataURL_sd env h1 hj hsd
          · cases h1
  · rcases orNext_ok.1 h with h | ⟨-, h⟩
    · obtain ⟨h1, h2, h3⟩ := parseWith_jwt env h hj
      exact ⟨parseJSON_sd env h1 hj hsd, h2, h3⟩
    · obtain ⟨h1, -, -⟩ := parseWith_jwt env h hj
      rw [parseCBOR_no_jwt env h1] at hj
      cases hj

/-! ## Specification -/

namespace Spec

/-- The hash algorithm of the credential is written in the credential or, failing that, in its subject. -/
def AlgWritten (json : JObj) : Prop :=
  (∃ s, s ≠ "" ∧ get? json "_sd_alg" = some (.str s)) ∨
  (get? json "_sd_alg" = none ∧ ∃ cs s, get? json "credentialSubject" = some (.obj cs) ∧
    get? cs "_sd_alg" = some (.str s))

/-- The text of a compact token: neither a JSON object nor in quotes. -/
structure TokenText (s : String) : Prop where
  notObj : env.decodeObj s = none
  notQuoted : unQuote s = s

/-- The credential that is read when only the disclosures `codes` (with digests by `hash`) are handed on,
with the holder binding `b`. -/
structure SdPart {T : Type} (hash : String → String) (codes : List String) (b : String) (vc vc' : PCred T) : Prop where
  json : vc'.json = vc.json
  contents : vc'.contents = vc.contents
  proofs : vc'.proofs = vc.proofs
  cwt : vc'.cwt = none
  envelope : ∃ e e', vc.jwt = some e ∧ vc'.jwt = some e' ∧ e'.jwt = e.jwt ∧ e'.headers = e.headers ∧
    e'.holderBinding = b ∧
    (∀ d, (get? e'.disclosures d).isSome ↔ ∃ s ∈ codes, hash s = d) ∧
    (∀ d c', get? e'.disclosures d = some c' → ∃ c, get? e.disclosures d = some c ∧
      c'.disclosure = c.disclosure ∧ c'.name = c.name ∧ c'.elems = c.elems)

/-- The same credential, with the holder binding `b` and the disclosures kept in a Go map (whose order
does not matter). -/
structure SdSame {T : Type} (b : String) (vc vc' : PCred T) : Prop where
  json : vc'.json = vc.json
  contents : vc'.contents = vc.contents
  proofs : vc'.proofs = vc.proofs
  cwt : vc'.cwt = none
  envelope : ∃ e e', vc.jwt = some e ∧ vc'.jwt = some e' ∧ e'.jwt = e.jwt ∧ e'.headers = e.headers ∧
    e'.holderBinding = b ∧ ∀ d, get? e'.disclosures d = get? e.disclosures d

end Spec

/-! ## The two places where the hash algorithm is read -/

theorem fieldDigests_append (cl : Bool) (a b : JObj) :
    SDJWT.fieldDigests cl (a ++ b) = SDJWT.fieldDigests cl a ++ SDJWT.fieldDigests cl b := by
  induction a with
  | nil => simp [SDJWT.fieldDigests]
  | cons p a ih =>
    obtain ⟨k, v⟩ := p
    simp only [List.cons_append, SDJWT.fieldDigests, ih, List.append_assoc]

theorem set_append {α : Type} (m : GoMap α) (k : String) (v : α) (h : get? m k = none) : set m k v = m ++ [(k, v)] := by
  induction m with
  | nil => rfl
  | cons p m ih =>
    obtain ⟨k', v'⟩ := p
    rw [get?_cons] at h
    simp only [GoMap.set]
    split at h
    · cases h
    · rename_i hk
      rw [if_neg hk, ih h]
      rfl

theorem digests_set_alg (o : JObj) (s : String) (h : get? o "_sd_alg" = none) :
    SDJWT.digests false (.obj (set o "_sd_alg" (.str s))) = SDJWT.digests false (.obj o) := by
  have h1 : SDJWT.sdDigests (set o "_sd_alg" (.str s)) = SDJWT.sdDigests o := by
    unfold SDJWT.sdDigests
    rw [get?_set_ne _ _ (by decide)]
  simp only [SDJWT.digests]
  rw [h1, set_append _ _ _ h, fieldDigests_append]
  simp [SDJWT.fieldDigests, SDJWT.digests, SDJWT.Hidden]

theorem committed_congr {e : SDJWT.Env} {alg : String} {ds : List String} {p q : JObj}
    (h : SDJWT.digests false (.obj p) = SDJWT.digests false (.obj q)) {d : String}
    (hc : Committed e alg ds p d) : Committed e alg ds q d := by
  induction hc with
  | payload hd => exact .payload (h ▸ hd)
  | nested h1 _ h3 h4 h5 h6 ih => exact .nested h1 ih h3 h4 h5 h6

theorem parseHash_name (s : String) (a : Hash) (h : parseHashAlg env.toCEnv s = some a) :
    hashName a = env.toCEnv.upper s ∧
    (env.toCEnv.upper s = "SHA-256" ∨ env.toCEnv.upper s = "SHA-384" ∨ env.toCEnv.upper s = "SHA-512") := by
  unfold parseHashAlg at h
  split at h
  · rename_i h1; cases h; exact ⟨h1.symm, Or.inl h1⟩
  · split at h
    · rename_i h1; cases h; exact ⟨h1.symm, Or.inr (Or.inl h1)⟩
    · split at h
      · rename_i h1; cases h; exact ⟨h1.symm, Or.inr (Or.inr h1)⟩
      · cases h

theorem getHashAlg_written (e : SDJWT.Env) (p : JObj) (s : String) (h : get? p "_sd_alg" = some (.str s))
    (hu : e.upper s = "SHA-256" ∨ e.upper s = "SHA-384" ∨ e.upper s = "SHA-512") :
    SDJWT.getHashAlg e p = some (e.upper s) := by
  unfold SDJWT.getHashAlg SDJWT.getKeyFromVC
  rw [h]
  exact if_pos hu

/-- Where the algorithm is written, verification and resolution use the same one. -/
theorem alg_agrees (hup : env.toCEnv.upper = env.sd.upper) {json : JObj} {c : Contents env.T} {a : Hash}
    (hc : parseContents env.toCEnv (ofWire json) true = some c) (ha : c.sdAlg = some a) (hw : AlgWritten json) :
    ∃ p, disclosurePayload json = some p ∧ SDJWT.getHashAlg env.sd p = some (hashName a) ∧
      SDJWT.digests false (.obj p) = SDJWT.digests false (.obj json) ∧
      (JWF (.obj json) → JWF (.obj p)) := by
  obtain ⟨-, -, -, -, -, -, -, h8, h9, -⟩ := parseContents_inv env.toCEnv hc
  unfold parseSDAlg at h9
  rw [if_pos rfl] at h9
  rcases hw with ⟨s, hs, hg⟩ | ⟨hn, cs, s, hcs, hg⟩
  · have e1 : parseStr (GObj.at (ofWire json) "_sd_alg") = some s := by
      rw [at_ofWire']; unfold JObj.at; rw [hg]; rfl
    rw [e1] at h9
    dsimp only at h9
    obtain ⟨a', h9, h10⟩ := Option.map_eq_some_iff.1 h9
    rw [ha] at h10
    have h10 := Option.some.inj h10
    subst h10
    have h11 : parseHashAlg env.toCEnv s = some a' := by
      unfold parseSDAlgValue at h9
      rw [show (s == "") = false by simpa using hs] at h9
      exact h9
    obtain ⟨n1, n2⟩ := parseHash_name env s a' h11
    rw [hup] at n1 n2
    refine ⟨json, ?_, ?_, rfl, id⟩
    · unfold disclosurePayload; rw [hg]
    · rw [n1]; exact getHashAlg_written env.sd json s hg n2
  · have e1 : parseStr (GObj.at (ofWire json) "_sd_alg") = some "" := by
      rw [at_ofWire']; unfold JObj.at; rw [hn]; rfl
    rw [e1] at h9
    dsimp only at h9
    obtain ⟨a', h9, h10⟩ := Option.map_eq_some_iff.1 h9
    rw [ha] at h10
    have h10 := Option.some.inj h10
    subst h10
    have e2 : GObj.at (ofWire json) "credentialSubject" = .json (.obj cs) := by
      rw [at_ofWire']; unfold JObj.at; rw [hcs]; rfl
    rw [e2] at h8
    unfold parseSubject at h8
    obtain ⟨sub, h8, h8'⟩ := Option.map_eq_some_iff.1 h8
    have h12 : get? sub.custom "_sd_alg" = some (.str s) := by
      unfold subjectFromJSON at h8
      simp only [Option.bind_eq_bind, Option.bind_eq_some_iff, Option.pure_def, Option.some.injEq] at h8
      obtain ⟨i, -, h8⟩ := h8
      rw [← h8]
      rw [(JsonUtil.split_lookup _ _ _).2, if_neg (by decide)]
      exact hg
    have h11 : parseHashAlg env.toCEnv s = some a' := by
      rw [← h8'] at h9
      unfold parseSDAlgValue at h9
      obtain ⟨sid, custom⟩ := sub
      cases custom with
      | nil => cases h12
      | cons p custom =>
        have h9 : hashFromClaims env.toCEnv (p :: custom) = some a' := h9
        unfold hashFromClaims getKeyFromVC at h9
        rw [show get? (p :: custom) "_sd_alg" = some (.str s) from h12] at h9
        exact h9
    obtain ⟨n1, n2⟩ := parseHash_name env s a' h11
    rw [hup] at n1 n2
    refine ⟨set json "_sd_alg" (.str s), ?_, ?_, digests_set_alg json s hn, ?_⟩
    · unfold disclosurePayload; rw [hn]; dsimp only; rw [hcs]; dsimp only; rw [hg]
    · rw [n1]; exact getHashAlg_written env.sd _ s (get?_set_self _ _ _) n2
    · intro hw
      have hw : (keys json).Nodup ∧ SDJWT.JWFObj json := hw
      refine ⟨?_, ?_⟩
      · exact wf_set hw.1 _ _
      · rw [set_append _ _ _ hn]
        have : ∀ m : JObj, SDJWT.JWFObj m → SDJWT.JWFObj (m ++ [("_sd_alg", .str s)]) := by
          intro m
          induction m with
          | nil => intro _; exact ⟨trivial, trivial⟩
          | cons q m ih => intro h; exact ⟨h.1, ih h.2⟩
        exact this json hw.2

/-! ## Reading the written text -/

theorem checkProof_jwt_congr {o : ParseOpts env} {v w : PCred env.T} {e e' : JwtEnvelope}
    (h : checkProof env o v = some v) (hc : w.contents = v.contents) (hv : v.jwt = some e)
    (hw : w.jwt = some e') (hj : e'.jwt = e.jwt) : checkProof env o w = some w := by
  unfold checkProof at h ⊢
  rw [hc, hw]
  rw [hv] at h
  cases hi : v.contents.issuer with
  | none => rw [hi] at h; cases h
  | some i =>
    rw [hi] at h
    dsimp only at h ⊢
    cases ho : o.jwtChecker with
    | none => rw [ho] at h; cases h
    | some pc =>
      rw [ho] at h
      dsimp only at h ⊢
      rw [hj]
      cases hx : JWT.checkProof env.lib pc (some i.id) none e.jwt with
      | ok _ => rfl
      | error _ => rw [hx] at h; cases h

theorem serialize_parts {jwt hb : String} {codes : List String} (hj : NoChar '~' jwt)
    (hd : ∀ s ∈ codes, NoChar '~' s) (hh : NoChar '~' hb) (hne : codes ≠ [] ∨ hb ≠ "")
    (hjws : hb = "" ∨ isJWS env hb = true) :
    jwsParts env (SDJWT.Presentation.serialize ⟨jwt, codes, hb⟩) = ⟨true, jwt, codes, hb⟩ := by
  have hs : SDJWT.Presentation.serialize ⟨jwt, codes, hb⟩ = joinC SDJWT.sep (jwt :: codes ++ [hb]) := by
    unfold SDJWT.Presentation.serialize
    have hc : codes.length > 0 ∨ hb ≠ "" := by
      rcases hne with h | h
      · exact Or.inl (List.length_pos_iff.2 h)
      · exact Or.inr h
    simp only [hc, if_true, SDJWT.appendDisclosures_eq]
    rw [SDJWT.joinC_snoc SDJWT.sep hb _ (by simp)]
  have hall : ∀ s ∈ jwt :: codes ++ [hb], NoChar SDJWT.sep s := by
    intro s hs
    simp only [List.cons_append, List.mem_cons, List.mem_append, List.not_mem_nil, or_false] at hs
    rcases hs with e | e | e
    · exact e ▸ hj
    · exact hd s e
    · exact e ▸ hh
  have hsplit : split SDJWT.sep (SDJWT.Presentation.serialize ⟨jwt, codes, hb⟩) = jwt :: codes ++ [hb] := by
    rw [hs, split_joinC SDJWT.sep _ (by simp) hall]
  have hsep : SDJWT.sep ∈ (SDJWT.Presentation.serialize ⟨jwt, codes, hb⟩).toList := by
    refine Classical.byContradiction fun hno => ?_
    rw [split_none _ _ hno] at hsplit
    have := congrArg List.length hsplit
    simp at this
  unfold jwsParts
  rw [if_pos hsep]
  unfold splitCombined
  rw [hsplit]
  have hl : (jwt :: codes ++ [hb]).getLastD "" = hb := by
    rw [List.getLastD_eq_getLast?, List.getLast?_append]; simp
  rw [hl, if_pos hjws, SDJWT.presentation_round_trip ⟨jwt, codes, hb⟩ hj hd hh]

/-- Parsing the written text, up to its disclosures. -/
theorem parseJSON_text {vc : PCred env.T} {e : JwtEnvelope} {ds codes : List String} {hb : String}
    (hor : SdOrigin env vc e ds) (hd : ∀ s ∈ codes, NoChar '~' s) (hh : NoChar '~' hb)
    (hjws : hb = "" ∨ isJWS env hb = true) (hne : codes ≠ [] ∨ hb ≠ "")
    (ht : TokenText env (SDJWT.Presentation.serialize ⟨e.jwt, codes, hb⟩)) (o : ParseOpts env) (vc' : PCred env.T) :
    parseJSON env o (SDJWT.Presentation.serialize ⟨e.jwt, codes, hb⟩) = .ok vc' ↔
      validateDisclosures env vc.json codes = true ∧
      ∃ dm, parseDisclosures env codes vc.contents.sdAlg = some dm ∧
        vc' = ⟨vc.json, vc.contents, vc.proofs, some ⟨e.jwt, e.headers, dm, hb⟩, none⟩ := by
  have h1 : tryParseAsJWS env (unwrapStringVC env (SDJWT.Presentation.serialize ⟨e.jwt, codes, hb⟩)) =
      some ⟨true, e.jwt, codes, hb⟩ := by
    unfold unwrapStringVC
    rw [ht.notObj]; dsimp only
    rw [ht.notQuoted]
    unfold tryParseAsJWS
    rw [serialize_parts env hor.jwtClean hd hh hne hjws]
    exact if_pos hor.isJWS
  unfold parseJSON
  rw [h1]; dsimp only
  unfold openJWS
  rw [hor.decode]
  show (Res.bind (if validateDisclosures env vc.json codes = true then _ else _) _) = _ ↔ _
  cases hv : validateDisclosures env vc.json codes with
  | false =>
    rw [if_neg (by simp)]
    constructor
    · intro h; cases h
    · rintro ⟨h, -⟩; cases h
  | true =>
    rw [if_pos rfl]
    show finishJSON env o (some (⟨true, e.jwt, codes, hb⟩, e.headers)) vc.json = _ ↔ _
    unfold finishJSON
    rw [show (Option.elim (some ((⟨true, e.jwt, codes, hb⟩ : JwsParts), e.headers)) false
      (fun p => p.1.isSDJWT)) = true from rfl, hor.contents]
    dsimp only
    rw [hor.proofs]; dsimp only
    show (match parseDisclosures env codes vc.contents.sdAlg with | none => _ | some dm => _) = _ ↔ _
    cases hp : parseDisclosures env codes vc.contents.sdAlg with
    | none =>
      constructor
      · intro h; cases h
      · rintro ⟨-, dm, h, -⟩; cases h
    | some dm =>
      constructor
      · intro h; exact ⟨rfl, dm, rfl, (Res.ok.inj h).symm⟩
      · rintro ⟨-, dm', h, h'⟩
        have := Option.some.inj h
        subst this
        rw [h']

/-- `ParseCredential` of a text that is not an object, when the JSON parser does not pass it on. -/
theorem parseCredential_text {o : ParseOpts env} {s : String} (hn : env.decodeObj s = none)
    (hj : parseJSON env o s ≠ .unsupported) :
    parseCredential env o s = parseWith env (parseJSON env) o s := by
  unfold parseCredential
  have h1 : parseWith env (parseEnveloped env) o s = .unsupported := by
    rw [parseWith_unsupported]
    unfold parseEnveloped
    rw [hn]
  rw [h1]
  show orNext _ _ = _
  have h2 : parseWith env (parseJSON env) o s ≠ .unsupported := fun h => hj ((parseWith_unsupported env _ _ _).1 h)
  cases hx : parseWith env (parseJSON env) o s with
  | unsupported => exact absurd hx h2
  | ok _ => rfl
  | err => rfl
  | panic => rfl

theorem parseJSON_token {o : ParseOpts env} {s : String} {p : JwsParts}
    (h : tryParseAsJWS env (unwrapStringVC env s) = some p)
    (hk : ∃ r, decodeCredJWT env p.jwt = .ok r) : parseJSON env o s ≠ .unsupported := by
  obtain ⟨r, hr⟩ := hk
  unfold parseJSON
  rw [h]; dsimp only
  unfold openJWS
  rw [hr]
  show Res.bind (if _ then _ else _) _ ≠ _
  split
  · exact finishJSON_not_unsupported env o (some (p, r.1)) r.2
  · intro h; cases h

/-- The chosen texts are disclosures of the credential. -/
def FromTable (M : DMap) (codes : List String) : Prop := ∀ s ∈ codes, ∃ d c, get? M d = some c ∧ c.disclosure = s

theorem origin_resolved {vc : PCred env.T} {e : JwtEnvelope} {ds codes : List String}
    (hor : SdOrigin env vc e ds) {a : Hash} (ha : vc.contents.sdAlg = some a) (hc : FromTable e.disclosures codes)
    (hne : codes ≠ []) :
    ds ≠ [] ∧ SDJWT.resolveDisclosureClaims env.sd (hashName a) ds env.dOrder = .ok e.disclosures := by
  have hds : ds ≠ [] := by
    intro hds
    have h := hor.resolved
    rw [hds] at h
    unfold parseDisclosures at h
    simp only [List.isEmpty_nil, if_true] at h
    obtain ⟨s, l, rfl⟩ := List.exists_cons_of_ne_nil hne
    obtain ⟨d, c, h1, -⟩ := hc s List.mem_cons_self
    rw [← Option.some.inj h] at h1
    cases h1
  refine ⟨hds, ?_⟩
  have h := hor.resolved
  unfold parseDisclosures at h
  rw [if_neg (by simpa using hds), ha] at h
  dsimp only at h
  split at h
  · rename_i m hm
    rw [hm, Option.some.inj h]
  · cases h

/-- The disclosures of the text are accepted iff each of them is committed to through them. -/
theorem validate_chosen (he : EnvWF env.sd) (ho : ∀ D, ∀ d ∈ keys D, d ∈ env.dOrder D)
    (hup : env.toCEnv.upper = env.sd.upper) {vc : PCred env.T} {e : JwtEnvelope} {ds codes : List String}
    (hor : SdOrigin env vc e ds) {a : Hash} (ha : vc.contents.sdAlg = some a) (hwf : JWF (.obj vc.json))
    (hw : AlgWritten vc.json) (hc : FromTable e.disclosures codes) :
    validateDisclosures env vc.json codes = true ↔
      ∀ s ∈ codes, Committed env.sd (hashName a) codes vc.json (env.sd.hash (hashName a) s) := by
  by_cases hne : codes = []
  · subst hne
    unfold validateDisclosures
    simp
  obtain ⟨hds, hres⟩ := origin_resolved env hor ha hc hne
  obtain ⟨p, p1, p2, p3, p4⟩ := alg_agrees env hup hor.contents ha hw
  have hv := hor.validated
  unfold validateDisclosures at hv ⊢
  rw [if_neg (by simpa using hds), p1] at hv
  rw [if_neg (by simpa using hne), p1]
  dsimp only at hv ⊢
  have hv' : SDJWT.verifyDisclosures env.sd ds p = .ok () := by
    cases hx : SDJWT.verifyDisclosures env.sd ds p with
    | ok u => rfl
    | error _ => rw [hx] at hv; cases hv
  obtain ⟨D, D', M', h1, h2, h3, h4, h5, -⟩ := SDJWT.resolve_subset he ho hres hc
  have key := SDJWT.verify_subset_iff he (p4 hwf) hv' p2 h1 h5
  have e1 : (∀ s ∈ codes, Committed env.sd (hashName a) codes p (env.sd.hash (hashName a) s)) ↔
      (∀ s ∈ codes, Committed env.sd (hashName a) codes vc.json (env.sd.hash (hashName a) s)) :=
    ⟨fun h s hs => committed_congr p3 (h s hs), fun h s hs => committed_congr p3.symm (h s hs)⟩
  rw [← e1, ← key]
  cases hx : SDJWT.verifyDisclosures env.sd codes p with
  | ok u => simp
  | error _ => simp

/-- What `FromTable` lists stay clean of separators. -/
theorem table_clean {vc : PCred env.T} {e : JwtEnvelope} {ds codes : List String}
    (hor : SdOrigin env vc e ds) {a : Hash} (ha : vc.contents.sdAlg = some a)
    (hc : FromTable e.disclosures codes) (he : EnvWF env.sd) (ho : ∀ D, ∀ d ∈ keys D, d ∈ env.dOrder D) :
    ∀ s ∈ codes, NoChar '~' s := by
  intro s hs
  have hne : codes ≠ [] := List.ne_nil_of_mem hs
  obtain ⟨hds, hres⟩ := origin_resolved env hor ha hc hne
  obtain ⟨D, D', M', h1, h2, h3, h4, h5, -⟩ := SDJWT.resolve_subset he ho hres hc
  obtain ⟨d, c, k1, k2⟩ := h5 s hs
  obtain ⟨s', m1, m2⟩ := (SDJWT.decoded_of_ok h1).from_list d c k1
  have : s' = s := m2.2.1.symm.trans k2
  exact this ▸ hor.dsClean s' m1

/-- The conditions on a holder binding that is handed on: none, or a JWS. -/
structure BindingText (b : String) : Prop where
  jws : b = "" ∨ isJWS env b = true
  clean : NoChar '~' b

/-- What is assumed of the libraries and of the credential: decoded JSON has no duplicate members, the
map iteration visits every key, both readers of the algorithm name upper-case alike, and the algorithm is
written where it belongs. -/
structure SdSetting (vc : PCred env.T) : Prop where
  decode : EnvWF env.sd
  order : ∀ D, ∀ d ∈ keys D, d ∈ env.dOrder D
  upper : env.toCEnv.upper = env.sd.upper
  json : JWF (.obj vc.json)
  alg : AlgWritten vc.json

theorem parse_text_iff {vc : PCred env.T} {e : JwtEnvelope} {ds codes : List String} {hb : String}
    (hor : SdOrigin env vc e ds) (hd : ∀ s ∈ codes, NoChar '~' s) (hh : BindingText env hb)
    (hne : codes ≠ [] ∨ hb ≠ "")
    (ht : TokenText env (SDJWT.Presentation.serialize ⟨e.jwt, codes, hb⟩)) (o : ParseOpts env)
    (hcheck : o.disabledProofCheck = false → checkProof env o vc = some vc)
    (hrel : (o.disableRelRes || env.relOK vc.contents) = true) (vc' : PCred env.T) :
    parseCredential env o (SDJWT.Presentation.serialize ⟨e.jwt, codes, hb⟩) = .ok vc' ↔
      validateDisclosures env vc.json codes = true ∧
      ∃ dm, parseDisclosures env codes vc.contents.sdAlg = some dm ∧
        vc' = ⟨vc.json, vc.contents, vc.proofs, some ⟨e.jwt, e.headers, dm, hb⟩, none⟩ := by
  have hiff := parseJSON_text env hor hd hh.clean hh.jws hne ht o
  have htok : parseJSON env o (SDJWT.Presentation.serialize ⟨e.jwt, codes, hb⟩) ≠ .unsupported := by
    refine parseJSON_token env (p := ⟨true, e.jwt, codes, hb⟩) ?_ ⟨_, hor.decode⟩
    unfold unwrapStringVC
    rw [ht.notObj]; dsimp only
    rw [ht.notQuoted]
    unfold tryParseAsJWS
    rw [serialize_parts env hor.jwtClean hd hh.clean hne hh.jws]
    exact if_pos hor.isJWS
  rw [parseCredential_text env ht.notObj htok]
  constructor
  · intro h
    unfold parseWith at h
    obtain ⟨v, h1, h2⟩ := Res.bind_ok.1 h
    obtain ⟨g1, dm, g2, g3⟩ := (hiff v).1 h1
    have hv : v.jwt = some ⟨e.jwt, e.headers, dm, hb⟩ := by rw [g3]
    have : v = vc' := by
      have hcv := parseWith_jwt_of env h1 (fun hf => checkProof_jwt_congr env (hcheck hf)
        (by rw [g3]) hor.jwt hv rfl) (by rw [g3]; exact hrel)
      unfold parseWith at hcv
      rw [h] at hcv
      exact (Res.ok.inj hcv).symm
    subst this
    exact ⟨g1, dm, g2, g3⟩
  · rintro ⟨h1, dm, h2, h3⟩
    refine parseWith_jwt_of env ((hiff vc').2 ⟨h1, dm, h2, h3⟩) (fun hf => ?_) (by rw [h3]; exact hrel)
    exact checkProof_jwt_congr env (e' := ⟨e.jwt, e.headers, dm, hb⟩) (hcheck hf) (by rw [h3]) hor.jwt (by rw [h3]) rfl

/-- **C108**: for an accepted SD-JWT credential and any choice of its disclosures, `ParseCredential` with
the same options accepts the issuer's JWT with these disclosures iff each of them is committed to by the
credential through the chosen ones alone; with or without a holder binding. -/
theorem sd_written_iff {o : ParseOpts env} {data : String} {vc : PCred env.T} {e : JwtEnvelope} {a : Hash}
    (h : parseCredential env o data = .ok vc) (hj : vc.jwt = some e) (ha : vc.contents.sdAlg = some a)
    (hs : SdSetting env vc) {codes : List String} (hc : FromTable e.disclosures codes) {hb : String}
    (hh : BindingText env hb) (hne : codes ≠ [] ∨ hb ≠ "")
    (ht : TokenText env (SDJWT.Presentation.serialize ⟨e.jwt, codes, hb⟩)) :
    (∃ vc', parseCredential env o (SDJWT.Presentation.serialize ⟨e.jwt, codes, hb⟩) = .ok vc') ↔
      ∀ s ∈ codes, Committed env.sd (hashName a) codes vc.json (env.sd.hash (hashName a) s) := by
  obtain ⟨⟨ds, hor⟩, h2, h3⟩ := parseCredential_sd env h hj (by rw [ha]; simp)
  have hd := table_clean env hor ha hc hs.decode hs.order
  have hiff := parse_text_iff env hor hd hh hne ht o h2 h3
  have hval := validate_chosen env hs.decode hs.order hs.upper hor ha hs.json hs.alg hc
  constructor
  · rintro ⟨vc', hp⟩
    exact hval.1 ((hiff vc').1 hp).1
  · intro hcom
    have hpd : ∃ dm, parseDisclosures env codes vc.contents.sdAlg = some dm := by
      unfold parseDisclosures
      by_cases hn : codes = []
      · subst hn; exact ⟨[], rfl⟩
      · rw [if_neg (by simpa using hn), ha]
        dsimp only
        obtain ⟨hds, hres⟩ := origin_resolved env hor ha hc hn
        obtain ⟨D, D', M', -, -, k3, -⟩ := SDJWT.resolve_subset hs.decode hs.order hres hc
        rw [k3]
        exact ⟨M', rfl⟩
    obtain ⟨dm, hdm⟩ := hpd
    exact ⟨_, (hiff _).2 ⟨hval.2 hcom, dm, hdm, rfl⟩⟩

/-- **C108**: what is returned for the text is the credential with exactly the chosen disclosures. -/
theorem sd_written_gives {o : ParseOpts env} {data : String} {vc : PCred env.T} {e : JwtEnvelope} {a : Hash}
    (h : parseCredential env o data = .ok vc) (hj : vc.jwt = some e) (ha : vc.contents.sdAlg = some a)
    (hs : SdSetting env vc) {codes : List String} (hc : FromTable e.disclosures codes) {hb : String}
    (hh : BindingText env hb) (hne : codes ≠ [] ∨ hb ≠ "")
    (ht : TokenText env (SDJWT.Presentation.serialize ⟨e.jwt, codes, hb⟩)) {vc' : PCred env.T}
    (hp : parseCredential env o (SDJWT.Presentation.serialize ⟨e.jwt, codes, hb⟩) = .ok vc') :
    SdPart (env.sd.hash (hashName a)) codes hb vc vc' := by
  obtain ⟨⟨ds, hor⟩, h2, h3⟩ := parseCredential_sd env h hj (by rw [ha]; simp)
  have hd := table_clean env hor ha hc hs.decode hs.order
  obtain ⟨-, dm, hdm, rfl⟩ := (parse_text_iff env hor hd hh hne ht o h2 h3 vc').1 hp
  refine ⟨rfl, rfl, rfl, rfl, e, _, hj, rfl, rfl, rfl, rfl, ?_⟩
  unfold parseDisclosures at hdm
  by_cases hn : codes = []
  · subst hn
    have := Option.some.inj hdm
    subst this
    refine ⟨fun d => ?_, fun d c' hc' => by cases hc'⟩
    simp
  · rw [if_neg (by simpa using hn), ha] at hdm
    dsimp only at hdm
    obtain ⟨hds, hres⟩ := origin_resolved env hor ha hc hn
    obtain ⟨D, D', M', k1, k2, k3, k4, k5, k6, k7, k8⟩ := SDJWT.resolve_subset hs.decode hs.order hres hc
    rw [k3] at hdm
    have := Option.some.inj hdm
    subst this
    refine ⟨k7, fun d c' hc' => ?_⟩
    obtain ⟨c, r, m1, -, m2, m3, m4, -⟩ := k8 d c' hc'
    exact ⟨c, m1, m2, m3, m4⟩

theorem reach_committed_all {ev : SDJWT.Env} {alg : String} {ds codes : List String} {D : DMap} {payload : JObj}
    (hD : SDJWT.Decoded ev alg ds D) (hall : ∀ d c, get? D d = some c → c.disclosure ∈ codes) {d : String}
    (h : SDJWT.Reach false D (SDJWT.digests false (.obj payload)) d) : Committed ev alg codes payload d := by
  induction h with
  | root h => exact .payload h
  | @step d c d' _ h2 h3 h4 ih =>
    have hm := hall d c h2
    obtain ⟨s, -, hdisc⟩ := hD.from_list _ _ h2
    obtain ⟨hhash, hs, -, salt, rest, hdec, hcase⟩ := hdisc
    rw [hs] at hm
    rw [hhash] at ih
    rcases hcase with ⟨v, rfl, -, -, hv⟩ | ⟨nm, v, rfl, -, -, hv⟩ | ⟨-, -, -, hv⟩
    · exact .nested hm ih hdec (by simp) (by simp) (hv ▸ h4)
    · exact .nested hm ih hdec (by simp) (by simp) (hv ▸ h4)
    · rw [hv] at h4; simp [SDJWT.digests] at h4

/-- All disclosures of the credential together are committed to. -/
theorem all_committed {vc : PCred env.T} {e : JwtEnvelope} {ds codes : List String}
    (hor : SdOrigin env vc e ds) {a : Hash} (ha : vc.contents.sdAlg = some a) (hs : SdSetting env vc)
    (hc : ∀ s, s ∈ codes ↔ ∃ d c, get? e.disclosures d = some c ∧ c.disclosure = s) :
    ∀ s ∈ codes, Committed env.sd (hashName a) codes vc.json (env.sd.hash (hashName a) s) := by
  intro s hsm
  have hne : codes ≠ [] := List.ne_nil_of_mem hsm
  have hc' : FromTable e.disclosures codes := fun s hs => (hc s).1 hs
  obtain ⟨hds, hres⟩ := origin_resolved env hor ha hc' hne
  obtain ⟨p, p1, p2, p3, p4⟩ := alg_agrees env hs.upper hor.contents ha hs.alg
  have hv := hor.validated
  unfold validateDisclosures at hv
  rw [if_neg (by simpa using hds), p1] at hv
  dsimp only at hv
  have hv' : SDJWT.verifyDisclosures env.sd ds p = .ok () := by
    cases hx : SDJWT.verifyDisclosures env.sd ds p with
    | ok u => rfl
    | error _ => rw [hx] at hv; cases hv
  obtain ⟨alg, D, g1, g2, -, g4, -⟩ := (SDJWT.verify_iff_table hs.decode (p4 hs.json)).1 hv'
  rw [p2] at g1
  have g1 := Option.some.inj g1
  subst g1
  obtain ⟨D0, D', M', k1, k2, k3, k4, k5, k6, k7, k8⟩ := SDJWT.resolve_subset hs.decode hs.order hres hc'
  rw [g2] at k1
  have : D = D0 := by cases k1; rfl
  subst this
  have hDec := SDJWT.decoded_of_ok g2
  have hall : ∀ d c, get? D d = some c → c.disclosure ∈ codes := by
    intro d c hd
    obtain ⟨M2, n1, n2⟩ := SDJWT.resolve_same_table hs.decode hs.order hres hc
    unfold SDJWT.resolveDisclosureClaims at hres
    rw [g2] at hres
    dsimp only at hres
    cases hx : SDJWT.setAll true (2 * SDJWT.weight D + 1) ⟨[], D⟩ (env.dOrder D) with
    | error _ => rw [hx] at hres; cases hres
    | ok st =>
      rw [hx] at hres
      have e1 : st.ds = e.disclosures := Except.ok.inj hres
      obtain ⟨r1, r2⟩ := SDJWT.setAll_result hDec.unparsed (hs.order D) hx
      obtain ⟨c1, q1, -, -, -, q2, -⟩ := r2 d c hd
      rw [e1] at q1
      exact (hc _).2 ⟨d, c1, q1, q2⟩
  obtain ⟨c, hcm, hi⟩ := SDJWT.chosen_isDisc hDec k5 hsm
  have hr := g4 _ (get?_isSome_iff.1 (by rw [hcm]; rfl))
  exact committed_congr p3 (reach_committed_all hDec hall hr)

theorem origin_wf {vc : PCred env.T} {e : JwtEnvelope} {ds : List String} (hor : SdOrigin env vc e ds)
    (ho : ∀ D, ∀ d ∈ keys D, d ∈ env.dOrder D) : WF e.disclosures := by
  have h := hor.resolved
  unfold parseDisclosures at h
  split at h
  · rw [← Option.some.inj h]; exact wf_nil
  · split at h
    · cases h
    · rename_i a _
      split at h
      · rename_i m hm
        rw [← Option.some.inj h]
        unfold SDJWT.resolveDisclosureClaims at hm
        split at hm
        · cases hm
        · rename_i D hD
          split at hm
          · cases hm
          · rename_i st hst
            have e1 : st.ds = m := Except.ok.inj hm
            have hDec := SDJWT.decoded_of_ok hD
            obtain ⟨r1, -⟩ := SDJWT.setAll_result hDec.unparsed (ho D) hst
            unfold WF
            rw [← e1, r1]
            exact hDec.wf
      · cases h

theorem values_get {M : DMap} (hw : WF M) {l : List Disc} (hl : l.Perm (M.map (·.2))) (c : Disc) :
    c ∈ l ↔ ∃ d, get? M d = some c := by
  rw [hl.mem_iff, List.mem_map]
  constructor
  · rintro ⟨⟨d, c'⟩, h1, rfl⟩
    exact ⟨d, get?_of_mem hw h1⟩
  · rintro ⟨d, h⟩
    exact ⟨(d, c), mem_of_get? h, rfl⟩

theorem chosen_sub {o : DiscloseOpts} {l : List Disc} {codes : List String} (h : Chosen o l codes) :
    ∀ s ∈ codes, ∃ c ∈ l, c.disclosure = s := by
  intro s hs
  unfold Chosen at h
  split at h
  · rw [h] at hs
    obtain ⟨c, h1, h2⟩ := List.mem_map.1 hs
    exact ⟨c, h1, h2⟩
  · obtain ⟨out, h1, -, h3⟩ := h
    rw [h1] at hs
    obtain ⟨c, k1, k2⟩ := List.mem_map.1 hs
    obtain ⟨-, a, b, k3, -⟩ := (h3 c).1 k1
    exact ⟨c, by rw [k3]; simp, k2⟩

variable (ordA ordR : NameMap → NameMap)

/-- The holder binding of the written text: the new one if there is one, else the old one. -/
def NewBinding (o : DiscloseOpts) (old b : String) : Prop :=
  (o.binding = none ∧ b = old) ∨ o.binding = some (.ok b)

theorem marshal_serialized (hA : ∀ m, (ordA m).Perm m) (hR : ∀ m, (ordR m).Perm m) {jwt hb : String}
    {l : List Disc} {issued : Option (SDJWT.Issuance × Option (List Disc))} {opts : DiscloseOpts} {text : String}
    (h : marshalWithDisclosure ordA ordR (some (jwt, hb, l)) issued opts = some text) :
    ∃ codes b, text = SDJWT.Presentation.serialize ⟨jwt, codes, b⟩ ∧ Chosen opts l codes ∧ NewBinding opts hb b := by
  unfold marshalWithDisclosure at h
  split at h
  · cases h
  · dsimp only at h
    unfold filterSDJWT at h
    cases hf : filteredCodes ordA ordR l opts with
    | none => rw [hf] at h; cases h
    | some codes =>
      rw [hf] at h
      dsimp only at h
      have hch := filteredCodes_some ordA ordR hA hR l opts codes hf
      cases hb' : opts.binding with
      | none =>
        rw [hb'] at h
        exact ⟨codes, hb, (Option.some.inj h).symm, hch, Or.inl ⟨hb', rfl⟩⟩
      | some x =>
        cases x with
        | ok b =>
          rw [hb'] at h
          exact ⟨codes, b, (Option.some.inj h).symm, hch, Or.inr hb'⟩
        | error _ => rw [hb'] at h; cases h

/-- **C108**: `MarshalWithDisclosure` of an accepted SD-JWT credential with any options: the text holds the
chosen disclosures; unless nothing but the JWT was written, `ParseCredential` with the same options accepts it
iff each chosen disclosure is committed to through the chosen ones, and then returns the credential with
exactly these disclosures. `l` is the list of the credential's disclosures, in the order of the Go map. -/
theorem disclose_some_roundtrip (hA : ∀ m, (ordA m).Perm m) (hR : ∀ m, (ordR m).Perm m)
    {o : ParseOpts env} {data : String} {vc : PCred env.T} {e : JwtEnvelope} {a : Hash}
    (h : parseCredential env o data = .ok vc) (hj : vc.jwt = some e) (ha : vc.contents.sdAlg = some a)
    (hs : SdSetting env vc) {l : List Disc} (hl : l.Perm (e.disclosures.map (·.2)))
    {issued : Option (SDJWT.Issuance × Option (List Disc))} {opts : DiscloseOpts} {text : String}
    (hm : marshalWithDisclosure ordA ordR (some (e.jwt, e.holderBinding, l)) issued opts = some text)
    (hb : ∀ b, opts.binding = some (.ok b) → BindingText env b) (hn : text ≠ e.jwt) (ht : TokenText env text) :
    ∃ codes b, Chosen opts l codes ∧ NewBinding opts e.holderBinding b ∧
      ((∃ vc', parseCredential env o text = .ok vc') ↔
        ∀ s ∈ codes, Committed env.sd (hashName a) codes vc.json (env.sd.hash (hashName a) s)) ∧
      ∀ vc', parseCredential env o text = .ok vc' → SdPart (env.sd.hash (hashName a)) codes b vc vc' := by
  obtain ⟨codes, b, rfl, hch, hnb⟩ := marshal_serialized ordA ordR hA hR hm
  obtain ⟨⟨ds, hor⟩, -, -⟩ := parseCredential_sd env h hj (by rw [ha]; simp)
  have hbt : BindingText env b := by
    rcases hnb with ⟨-, rfl⟩ | hx
    · exact ⟨hor.hb, hor.hbClean⟩
    · exact hb b hx
  have hc : FromTable e.disclosures codes := by
    intro s hs'
    obtain ⟨c, h1, h2⟩ := chosen_sub hch s hs'
    obtain ⟨d, hd⟩ := (values_get (origin_wf env hor hs.order) hl c).1 h1
    exact ⟨d, c, hd, h2⟩
  have hne : codes ≠ [] ∨ b ≠ "" := by
    by_cases hx : codes = [] ∧ b = ""
    · obtain ⟨rfl, rfl⟩ := hx
      exfalso
      apply hn
      show (if _ then _ else _) ++ "" = _
      rw [if_neg (by simp)]
      simp [SDJWT.appendDisclosures]
    · by_cases h1 : codes = []
      · exact Or.inr (fun h2 => hx ⟨h1, h2⟩)
      · exact Or.inl h1
  exact ⟨codes, b, hch, hnb, sd_written_iff env h hj ha hs hc hbt hne ht,
    fun vc' hp => sd_written_gives env h hj ha hs hc hbt hne ht hp⟩

/-- **C108**: a credential written with all its disclosures comes back: same document, same fields, same
issuer JWT and headers, the same disclosures, and the holder binding that was written. -/
theorem disclose_all_roundtrip (hA : ∀ m, (ordA m).Perm m) (hR : ∀ m, (ordR m).Perm m)
    {o : ParseOpts env} {data : String} {vc : PCred env.T} {e : JwtEnvelope} {a : Hash}
    (h : parseCredential env o data = .ok vc) (hj : vc.jwt = some e) (ha : vc.contents.sdAlg = some a)
    (hs : SdSetting env vc) {l : List Disc} (hl : l.Perm (e.disclosures.map (·.2)))
    {issued : Option (SDJWT.Issuance × Option (List Disc))} {opts : DiscloseOpts} {text : String}
    (hall : opts.all = true)
    (hm : marshalWithDisclosure ordA ordR (some (e.jwt, e.holderBinding, l)) issued opts = some text)
    (hb : ∀ b, opts.binding = some (.ok b) → BindingText env b) (hn : text ≠ e.jwt) (ht : TokenText env text) :
    ∃ vc' b, NewBinding opts e.holderBinding b ∧ parseCredential env o text = .ok vc' ∧ SdSame b vc vc' := by
  obtain ⟨codes, b, h1, hnb, h3, h4⟩ := disclose_some_roundtrip env ordA ordR hA hR h hj ha hs hl hm hb hn ht
  obtain ⟨⟨ds, hor⟩, g2, g3⟩ := parseCredential_sd env h hj (by rw [ha]; simp)
  have hcodes : ∀ s, s ∈ codes ↔ ∃ d c, get? e.disclosures d = some c ∧ c.disclosure = s := by
    intro s
    unfold Chosen at h1
    rw [if_pos hall] at h1
    rw [h1, List.mem_map]
    constructor
    · rintro ⟨c, k1, k2⟩
      obtain ⟨d, hd⟩ := (values_get (origin_wf env hor hs.order) hl c).1 k1
      exact ⟨d, c, hd, k2⟩
    · rintro ⟨d, c, k1, k2⟩
      exact ⟨c, (values_get (origin_wf env hor hs.order) hl c).2 ⟨d, k1⟩, k2⟩
  obtain ⟨vc', hp⟩ := h3.2 (all_committed env hor ha hs hcodes)
  refine ⟨vc', b, hnb, hp, ?_⟩
  obtain ⟨p1, p2, p3, p4, e0, e', p5, p6, p7, p8, p9, p10, p11⟩ := h4 vc' hp
  rw [hj] at p5
  have p5 := Option.some.inj p5
  subst p5
  refine ⟨p1, p2, p3, p4, e, e', hj, p6, p7, p8, p9, ?_⟩
  by_cases hne : codes = []
  · subst hne
    have he : ∀ d, get? e.disclosures d = none := by
      intro d
      cases hx : get? e.disclosures d with
      | none => rfl
      | some c => exact absurd ((hcodes _).2 ⟨d, c, hx, rfl⟩) (by simp)
    intro d
    rw [he d]
    cases hx : get? e'.disclosures d with
    | none => rfl
    | some c =>
      obtain ⟨c', hc', -⟩ := p11 d c hx
      rw [he d] at hc'
      cases hc'
  · have hc : FromTable e.disclosures codes := fun s hs' => (hcodes s).1 hs'
    obtain ⟨hds, hres⟩ := origin_resolved env hor ha hc hne
    obtain ⟨M', m1, m2⟩ := SDJWT.resolve_same_table hs.decode hs.order hres hcodes
    obtain ⟨codes', b', rfl, hch', hnb'⟩ := marshal_serialized ordA ordR hA hR hm
    have hce : codes' = codes := by
      unfold Chosen at h1 hch'
      rw [if_pos hall] at h1 hch'
      rw [h1, hch']
    subst hce
    have hbt : BindingText env b' := by
      rcases hnb' with ⟨-, rfl⟩ | hx
      · exact ⟨hor.hb, hor.hbClean⟩
      · exact hb b' hx
    obtain ⟨-, dm, hdm, hvc⟩ := (parse_text_iff env hor (table_clean env hor ha hc hs.decode hs.order) hbt
      (Or.inl hne) ht o g2 g3 vc').1 hp
    unfold parseDisclosures at hdm
    rw [if_neg (by simpa using hne), ha] at hdm
    dsimp only at hdm
    rw [m1] at hdm
    have := Option.some.inj hdm
    subst this
    rw [hvc] at p6
    have := Option.some.inj p6
    rw [← this]
    exact m2

/-! ## Nothing disclosed -/

theorem contents_without_sd {json : JObj} {c : Contents env.T}
    (h : parseContents env.toCEnv (ofWire json) true = some c) :
    parseContents env.toCEnv (ofWire json) false = some { c with sdAlg := none } := by
  unfold parseContents at h ⊢
  simp only [Option.bind_eq_bind, Option.bind_eq_some_iff, Option.pure_def, Option.some.injEq] at h ⊢
  obtain ⟨a1, h1, a2, h2, a3, h3, a4, h4, a5, h5, a6, h6, a7, h7, a8, h8, a9, h9, b1, g1, b2, g2, b3, g3, b4, g4, hc⟩ := h
  refine ⟨a1, h1, a2, h2, a3, h3, a4, h4, a5, h5, a6, h6, a7, h7, a8, h8, none, ?_, b1, g1, b2, g2, b3, g3, b4, g4, ?_⟩
  · unfold parseSDAlg; rfl
  · rw [← hc]

/-- **C108**, what is lost: if no disclosure is chosen and there is no holder binding, the bare JWT is written;
it is accepted, but as a JWT credential without selective disclosure. -/
theorem disclose_nothing_forgets {o : ParseOpts env} {data : String} {vc : PCred env.T} {e : JwtEnvelope} {a : Hash}
    (h : parseCredential env o data = .ok vc) (hj : vc.jwt = some e) (ha : vc.contents.sdAlg = some a)
    (hi : o.disableRelRes = true ∨ env.relOK { vc.contents with sdAlg := none } = true) (ht : TokenText env e.jwt) :
    SDJWT.Presentation.serialize ⟨e.jwt, [], ""⟩ = e.jwt ∧
    parseCredential env o e.jwt =
      .ok ⟨vc.json, { vc.contents with sdAlg := none }, vc.proofs, some ⟨e.jwt, e.headers, [], ""⟩, none⟩ := by
  constructor
  · show (if _ then _ else _) ++ "" = _
    rw [if_neg (by simp)]
    simp [SDJWT.appendDisclosures]
  obtain ⟨⟨ds, hor⟩, g2, g3⟩ := parseCredential_sd env h hj (by rw [ha]; simp)
  have hsep : SDJWT.sep ∉ e.jwt.toList := hor.jwtClean
  have htok : tryParseAsJWS env (unwrapStringVC env e.jwt) = some ⟨false, e.jwt, [], ""⟩ := by
    unfold unwrapStringVC
    rw [ht.notObj]; dsimp only
    rw [ht.notQuoted]
    unfold tryParseAsJWS jwsParts
    rw [if_neg hsep]
    exact if_pos hor.isJWS
  rw [parseCredential_text env ht.notObj (parseJSON_token env htok ⟨_, hor.decode⟩)]
  refine parseWith_jwt_of env ?_ (fun hf => ?_) ?_
  · unfold parseJSON
    rw [htok]; dsimp only
    unfold openJWS
    rw [hor.decode]
    show finishJSON env o (some (⟨false, e.jwt, [], ""⟩, e.headers)) vc.json = _
    unfold finishJSON
    rw [show (Option.elim (some ((⟨false, e.jwt, [], ""⟩ : JwsParts), e.headers)) false
      (fun p => p.1.isSDJWT)) = false from rfl, contents_without_sd env hor.contents]
    dsimp only
    rw [hor.proofs]
    rfl
  · have hcp := g2 hf
    unfold checkProof at hcp ⊢
    rw [hj] at hcp
    dsimp only at hcp ⊢
    cases hiss : vc.contents.issuer with
    | none => rw [hiss] at hcp; cases hcp
    | some i =>
      rw [hiss] at hcp
      dsimp only at hcp ⊢
      cases ho : o.jwtChecker with
      | none => rw [ho] at hcp; cases hcp
      | some pc =>
        rw [ho] at hcp
        dsimp only at hcp ⊢
        cases hx : JWT.checkProof env.lib pc (some i.id) none e.jwt with
        | ok _ => rfl
        | error _ => rw [hx] at hcp; cases hcp
  · rcases hi with hi | hi
    · rw [hi]; rfl
    · show (o.disableRelRes || env.relOK { vc.contents with sdAlg := none }) = true
      rw [hi, Bool.or_true]

end VC.Vfy
