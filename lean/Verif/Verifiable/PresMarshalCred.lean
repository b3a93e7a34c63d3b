import Verif.Verifiable.PresMarshalProps
/-!
# verifiable: a credential in its universal form can be read back (C71)

`ToUniversalForm` writes a parsed credential as an object, a string or an envelope; parsing what it wrote
as part of a presentation gives the credential back: `universal_object`, `universal_jwt`, `universal_cwt`.
-/

namespace VC.Vfy

open GoMap
open Spec

variable (env : PEnv)

/-- Where the parts of a parsed credential come from. -/
structure Origin (vc : PCred env.T) : Prop where
  plain : vc.jwt = none → vc.cwt = none → parseContents env.toCEnv (ofWire vc.json) false = some vc.contents ∧
    parseLDProof (GObj.at (ofWire vc.json) "proof") = some vc.proofs
  jws : ∀ e, vc.jwt = some e → vc.cwt = none ∧ (vc.contents.sdAlg = none →
    e.disclosures = [] ∧ isJWS env e.jwt = true ∧ SDJWT.sep ∉ e.jwt.toList ∧
    ∀ o, ((openJWS env ⟨false, e.jwt, [], ""⟩).bind fun r =>
      finishJSON env o (some (⟨false, e.jwt, [], ""⟩, r.1)) r.2) = .ok vc)
  cwt : ∀ e, vc.cwt = some e → env.parseCOSE e.raw = some e.message ∧
    env.cwtVC e.message.payload = some vc.json ∧
    parseContents env.toCEnv (ofWire vc.json) false = some vc.contents ∧
    vc = ⟨vc.json, vc.contents, [], none, some e⟩

theorem sdAlg_of_parse {json : JObj} {b : Bool} {c : Contents env.T}
    (h : parseContents env.toCEnv (ofWire json) b = some c) : c.sdAlg = none ↔ b = false := by
  obtain ⟨-, -, -, -, -, -, -, -, h9, -⟩ := parseContents_inv env.toCEnv h
  unfold parseSDAlg at h9
  cases b with
  | false =>
    rw [if_neg (by simp)] at h9
    simp [(Option.some.inj h9).symm]
  | true =>
    rw [if_pos rfl] at h9
    split at h9
    · cases h9
    · obtain ⟨a, -, h9⟩ := Option.map_eq_some_iff.1 h9
      simp [← h9]

theorem tryParse_plain {s : String} {p : JwsParts} (h : tryParseAsJWS env s = some p) (hp : p.isSDJWT = false) :
    p = ⟨false, s, [], ""⟩ ∧ SDJWT.sep ∉ s.toList ∧ isJWS env s = true := by
  unfold tryParseAsJWS at h
  split at h
  · rename_i hj
    have h := Option.some.inj h
    unfold jwsParts at h hj
    split at h
    · rename_i hs
      rw [← h] at hp
      unfold splitCombined at hp
      split at hp <;> cases hp
    · rename_i hs
      rw [if_neg hs] at hj
      exact ⟨h.symm, hs, hj⟩
  · cases h

theorem finishJSON_jws_opts {o o' : ParseOpts env} (q : JwsParts × JObj) (json : JObj) :
    finishJSON env o (some q) json = finishJSON env o' (some q) json := by
  unfold finishJSON
  rfl

theorem parseJSON_origin {o : ParseOpts env} {data : String} {vc : PCred env.T}
    (h : parseJSON env o data = .ok vc) : Origin env vc := by
  unfold parseJSON at h
  split at h
  · rename_i p hp
    obtain ⟨r, h1, h2⟩ := Res.bind_ok.1 h
    obtain ⟨g1, g2, ⟨b, g3⟩, g3', -, g4⟩ := finishJSON_shape env h2
    obtain ⟨dm, g5, g4⟩ := g4 _ rfl
    refine ⟨fun hn => (by rw [g4] at hn; cases hn), ?_, fun e he => (by rw [g2] at he; cases he)⟩
    intro e he
    refine ⟨g2, fun hsd => ?_⟩
    have hb : p.isSDJWT = false := by
      unfold finishJSON at h2
      split at h2
      · cases h2
      · rename_i c hc
        have : vc.contents = c := by
          split at h2
          · cases h2
          · obtain ⟨-, -, h2⟩ := Res.bind_ok.1 h2
            dsimp only at h2
            split at h2
            · cases h2
            · cases h2; rfl
        rw [this] at hsd
        exact (sdAlg_of_parse env hc).1 hsd
    obtain ⟨k1, k2, k3⟩ := tryParse_plain env hp hb
    rw [g4] at he
    have he := Option.some.inj he
    have hd : dm = [] := by
      rw [k1] at g5
      unfold parseDisclosures at g5
      simp only [List.isEmpty_nil, if_true, Option.some.injEq] at g5
      exact g5.symm
    rw [← he, k1]
    refine ⟨hd, k3, k2, fun o' => ?_⟩
    rw [k1] at h1
    rw [h1]
    rw [k1] at h2
    rw [finishJSON_jws_opts env (o' := o')] at h2
    exact h2
  · obtain ⟨json, -, h2⟩ := Res.bind_ok.1 h
    unfold finishJSON at h2
    split at h2
    · cases h2
    · rename_i c hc
      split at h2
      · cases h2
      · rename_i ps hps
        obtain ⟨-, -, h2⟩ := Res.bind_ok.1 h2
        cases h2
        exact ⟨fun _ _ => ⟨hc, hps⟩, fun e he => (by cases he), fun e he => (by cases he)⟩

theorem parseCBOR_origin {o : ParseOpts env} {data : String} {vc : PCred env.T}
    (h : parseCBOR env o data = .ok vc) : Origin env vc := by
  unfold parseCBOR at h
  obtain ⟨e, h1, h⟩ := Res.bind_ok.1 h
  obtain ⟨h1, -⟩ := openCOSE_ok env h1
  split at h
  · cases h
  · rename_i json hj
    split at h
    · cases h
    · rename_i c hc
      obtain ⟨-, -, h⟩ := Res.bind_ok.1 h
      cases h
      refine ⟨fun _ hn => (by cases hn), fun e he => (by cases he), fun e' he => ?_⟩
      cases he
      exact ⟨h1, hj, hc, rfl⟩

theorem parseWith_origin {parser : ParseOpts env → String → Res (PCred env.T)} {o : ParseOpts env}
    (he : o.externalContext = []) {d : String} {vc : PCred env.T}
    (hp : ∀ v, parser o d = .ok v → Origin env v) (h : parseWith env parser o d = .ok vc) : Origin env vc :=
  hp vc ((parseWith_plain env parser o he d vc).1 h).1

theorem parseCredDataURL_origin {o : ParseOpts env} (he : o.externalContext = []) {url : String}
    {vc : PCred env.T} (h : parseCredDataURL env o url = .ok vc) : Origin env vc := by
  unfold parseCredDataURL at h
  split at h
  · cases h
  · split at h
    · exact parseWith_origin env he (fun v hv => parseJSON_origin env hv) h
    · split at h
      · exact parseWith_origin env he (fun v hv => parseCBOR_origin env hv) h
      · cases h

theorem parseEnveloped_origin {o : ParseOpts env} (he : o.externalContext = []) {d : String}
    {vc : PCred env.T} (h : parseEnveloped env o d = .ok vc) : Origin env vc := by
  unfold parseEnveloped at h
  split at h
  · cases h
  · split at h
    · cases h
    · split at h
      · cases h
      · split at h
        · exact parseCredDataURL_origin env he h
        · cases h

theorem parseCredential_origin {o : ParseOpts env} (he : o.externalContext = []) {d : String}
    {vc : PCred env.T} (h : parseCredential env o d = .ok vc) : Origin env vc := by
  unfold parseCredential at h
  rcases orNext_ok.1 h with h | ⟨-, h⟩
  · exact parseWith_origin env he (fun v hv => parseEnveloped_origin env he hv) h
  · rcases orNext_ok.1 h with h | ⟨-, h⟩
    · exact parseWith_origin env he (fun v hv => parseJSON_origin env hv) h
    · exact parseWith_origin env he (fun v hv => parseCBOR_origin env hv) h

theorem parseCredentialJSON_origin {o : ParseOpts env} (he : o.externalContext = []) {json : JObj}
    {vc : PCred env.T} (h : parseCredentialJSON env o json = .ok vc) : Origin env vc := by
  unfold parseCredentialJSON at h
  split at h
  · cases h
  · split at h
    · split at h
      · exact parseCredDataURL_origin env he h
      · cases h
    · split at h
      · cases h
      · rename_i ps hps
        split at h
        · cases h
        · rename_i c hc
          obtain ⟨-, -, h⟩ := Res.bind_ok.1 h
          cases h
          exact ⟨fun _ _ => ⟨hc, hps⟩, fun e he => (by cases he), fun e he => (by cases he)⟩

theorem parseOneCred_origin (venv : VEnv) (o : VpOpts venv) (j : Json) (vc : PCred venv.T)
    (h : parseOneCred venv o j = .ok vc) : Origin venv.toPEnv vc := by
  unfold parseOneCred at h
  split at h
  · exact parseCredential_origin venv.toPEnv rfl (Res.toOut_ok.1 h)
  · exact parseCredentialJSON_origin venv.toPEnv rfl (Res.toOut_ok.1 h)
  · cases h

/-! ## Reading the universal form -/

namespace Spec

/-- The same JWT envelope; the disclosures are kept in a Go map, whose order does not matter. -/
def SameJwt (a b : Option JwtEnvelope) : Prop :=
  (a = none ∧ b = none) ∨
  ∃ e e', a = some e ∧ b = some e' ∧ e.jwt = e'.jwt ∧ e.headers = e'.headers ∧
    e.holderBinding = e'.holderBinding ∧ ∀ d, get? e.disclosures d = get? e'.disclosures d

/-- The same credential, its JSON compared member by member; `proof` is in compact form on the left. -/
structure SameCred {T : Type} (a b : PCred T) : Prop where
  contents : a.contents = b.contents
  proofs : a.proofs = b.proofs
  jwt : SameJwt a.jwt b.jwt
  cwt : a.cwt = b.cwt
  json : ∀ k, k ≠ "proof" → get? a.json k = get? b.json k
  proof : b.jwt = none → b.cwt = none → b.proofs ≠ [] → get? a.json "proof" = Compact (b.proofs.map .obj)

end Spec

theorem sameJwt_refl (a : Option JwtEnvelope) : SameJwt a a := by
  cases a with
  | none => exact Or.inl ⟨rfl, rfl⟩
  | some e => exact Or.inr ⟨e, e, rfl, rfl, rfl, rfl, rfl, fun _ => rfl⟩

theorem sameCred_refl {T : Type} {c : PCred T} (h : c.jwt ≠ none ∨ c.cwt ≠ none) : SameCred c c :=
  ⟨rfl, rfl, sameJwt_refl _, rfl, fun _ _ => rfl, fun h1 h2 => (by rcases h with h | h; exact absurd h1 h; exact absurd h2 h)⟩

theorem toRawJSON_lookup {T : Type} (c : PCred T) :
    (∀ k, k ≠ "proof" → get? (toRawJSON c) k = get? c.json k) ∧
    (c.proofs ≠ [] → get? (toRawJSON c) "proof" = some (proofsToRaw c.proofs)) ∧
    (c.proofs = [] → toRawJSON c = c.json) := by
  unfold toRawJSON
  refine ⟨fun k hk => ?_, fun hn => ?_, fun hn => ?_⟩
  · split
    · rfl
    · rw [get?_set_ne _ _ (Ne.symm hk)]
  · rw [if_neg (by simpa using hn), get?_set_self]
  · rw [hn]; rfl

variable (venv : VEnv)

/-- **C71**: a parsed credential that is neither a JWT nor a COSE message is written as an object, and
reading the object gives the credential back. -/
theorem universal_object (o : VpOpts venv) (j : Json) (c : PCred venv.T) (h : parseOneCred venv o j = .ok c)
    (hj : c.jwt = none) (hw : c.cwt = none) (he : ¬ IsEnvelope c.json)
    (hex : String → String) (sdText : JwtEnvelope → Option String) :
    ∃ j' c', universalForm hex sdText c = some j' ∧ parseOneCred venv o j' = .ok c' ∧ SameCred c' c := by
  obtain ⟨h1, h2⟩ := (parseOneCred_origin venv o j c h).plain hj hw
  obtain ⟨l1, l2, l3⟩ := toRawJSON_lookup c
  refine ⟨.obj (toRawJSON c), ⟨toRawJSON c, c.contents, c.proofs, none, none⟩, ?_, ?_, ?_⟩
  · unfold universalForm; rw [hw, hj]
  · have e1 : decodeType (GObj.at (ofWire (toRawJSON c)) "type") = some c.contents.types := by
      rw [← (parseContents_inv venv.toCEnv h1).2.1, at_ofWire', at_ofWire']
      unfold JObj.at
      rw [l1 "type" (by decide)]
    have e2 : ¬ c.contents.types.contains "EnvelopedVerifiableCredential" = true := fun hc => by
      have hc' := (isEnvelope_iff e1).1 hc
      apply he
      unfold IsEnvelope at hc' ⊢
      rw [l1 "type" (by decide)] at hc'
      exact hc'
    have e3 : parseLDProof (GObj.at (ofWire (toRawJSON c)) "proof") = some c.proofs := by
      by_cases hn : c.proofs = []
      · rw [l3 hn]; exact h2
      · rw [at_ofWire']
        unfold JObj.at
        rw [l2 hn]
        exact proofs_roundtrip c.proofs
    have e4 : parseContents venv.toCEnv (ofWire (toRawJSON c)) false = some c.contents := by
      rw [← h1]
      apply parse_congr
      intro k _ hk
      rw [get?_ofWire, get?_ofWire, l1 k hk]
    unfold parseOneCred parseCredentialJSON
    dsimp only
    rw [e1]; dsimp only
    rw [if_neg e2, e3]; dsimp only
    rw [e4]
    rfl
  · refine ⟨rfl, rfl, Or.inl ⟨rfl, hj⟩, hw.symm, l1, fun _ _ hn => ?_⟩
    rw [l2 hn, proofsToRaw_compact _ hn]

/-- The options for strings and for objects differ in validation only. -/
theorem parseWith_validation (parser : ParseOpts venv.toPEnv → String → Res (PCred venv.T)) (o : VpOpts venv)
    (a b : Bool) (d d' : String) (vc : PCred venv.T)
    (h : parseWith venv.toPEnv parser (credOpts venv o a) d = .ok vc)
    (hp : parser (credOpts venv o b) d' = .ok vc) :
    parseWith venv.toPEnv parser (credOpts venv o b) d' = .ok vc := by
  obtain ⟨-, h2, h3⟩ := (parseWith_plain venv.toPEnv parser _ rfl d vc).1 h
  exact (parseWith_plain venv.toPEnv parser _ rfl d' vc).2
    ⟨hp, fun hc => secured_validation venv o vc _ _ (h2 hc), h3⟩

/-- The checks behind an accepted JWT or COSE credential. -/
theorem parseOneCred_checks (o : VpOpts venv) (j : Json) (c : PCred venv.T) (h : parseOneCred venv o j = .ok c)
    (hj : c.jwt ≠ none ∨ c.cwt ≠ none) (b : Bool) :
    (o.disabledProofCheck = false → Secured venv.toPEnv (credOpts venv o b) c) ∧
    venv.relOK c.contents = true := by
  have url : ∀ a s, parseCredDataURL venv.toPEnv (credOpts venv o a) s = .ok c →
      (o.disabledProofCheck = false → Secured venv.toPEnv (credOpts venv o b) c) ∧
      venv.relOK c.contents = true := by
    intro a s hs
    unfold parseCredDataURL at hs
    split at hs
    · cases hs
    · split at hs
      · obtain ⟨-, h2, h3⟩ := (parseWith_plain venv.toPEnv _ _ rfl _ c).1 hs
        exact ⟨fun hc => secured_validation venv o c _ _ (h2 hc), h3 rfl⟩
      · split at hs
        · obtain ⟨-, h2, h3⟩ := (parseWith_plain venv.toPEnv _ _ rfl _ c).1 hs
          exact ⟨fun hc => secured_validation venv o c _ _ (h2 hc), h3 rfl⟩
        · cases hs
  unfold parseOneCred at h
  split at h
  · obtain ⟨-, -, h2, h3⟩ := (parse_iff venv.toPEnv _ rfl _ c).1 (Res.toOut_ok.1 h)
    exact ⟨fun hc => secured_validation venv o c _ _ (h2 hc), h3 rfl⟩
  · have h := Res.toOut_ok.1 h
    unfold parseCredentialJSON at h
    split at h
    · cases h
    · split at h
      · split at h
        · exact url _ _ h
        · cases h
      · split at h
        · cases h
        · split at h
          · cases h
          · obtain ⟨-, -, h⟩ := Res.bind_ok.1 h
            cases h
            rcases hj with hj | hj <;> exact absurd rfl hj
  · cases h

theorem envelope_parsed (o : VpOpts venv) (url : String) :
    parseOneCred venv o (envelopeJSON url) = (parseCredDataURL venv.toPEnv (credOpts venv o true) url).toOut := by
  rfl

/-- What is used of the libraries: the text of a JWS is not a JSON object and not in quotes. -/
structure JwsText (s : String) : Prop where
  notObj : venv.decodeObj s = none
  notQuoted : unQuote s = s

/-- **C71**: a parsed JWT credential without selective disclosure is written as its JWT, bare or
enveloped, and reading that gives exactly the credential. -/
theorem universal_jwt (o : VpOpts venv) (j : Json) (c : PCred venv.T)
    (h : parseOneCred venv o j = .ok c) (e : JwtEnvelope) (hj : c.jwt = some e) (hl : JwsText venv e.jwt) (hsd : c.contents.sdAlg = none)
    (hex : String → String) (sdText : JwtEnvelope → Option String) :
    ∃ j', universalForm hex sdText c = some j' ∧ parseOneCred venv o j' = .ok c := by
  obtain ⟨hw, horig⟩ := (parseOneCred_origin venv o j c h).jws e hj
  obtain ⟨h1, h2, h3, h4⟩ := horig hsd
  have hparse : ∀ b, parseJSON venv.toPEnv (credOpts venv o b) e.jwt = .ok c := by
    intro b
    unfold parseJSON unwrapStringVC
    rw [hl.notObj]; dsimp only
    rw [hl.notQuoted]
    have : tryParseAsJWS venv.toPEnv e.jwt = some ⟨false, e.jwt, [], ""⟩ := by
      unfold tryParseAsJWS jwsParts
      rw [if_neg h3]
      exact if_pos h2
    rw [this]
    exact h4 _
  have hwith : ∀ b, parseWith venv.toPEnv (parseJSON venv.toPEnv) (credOpts venv o b) e.jwt = .ok c := by
    intro b
    obtain ⟨k1, k2⟩ := parseOneCred_checks venv o j c h (Or.inl (by simp [hj])) b
    exact (parseWith_plain venv.toPEnv _ _ rfl _ c).2 ⟨hparse b, k1, fun _ => k2⟩
  refine ⟨toEnveloped c "application/vc-ld+jwt" e.jwt, ?_, ?_⟩
  · unfold universalForm
    rw [hw, hj]; dsimp only
    rw [hsd, h1]
    rfl
  · unfold toEnveloped
    split
    · unfold parseOneCred
      dsimp only
      rw [Res.toOut_ok]
      unfold parseCredential
      have : parseWith venv.toPEnv (parseEnveloped venv.toPEnv) (credOpts venv o false) e.jwt = .unsupported := by
        rw [parseWith_unsupported]
        unfold parseEnveloped
        rw [hl.notObj]
      rw [this]
      show orNext _ _ = _
      rw [hwith false]
      rfl
    · rw [envelope_parsed, Res.toOut_ok]
      unfold parseCredDataURL
      rw [dataURL_roundtrip _ _ _ (Or.inl (by decide)) (by decide) (by decide) (by decide)]
      dsimp only
      rw [if_pos (Or.inl rfl)]
      exact hwith true

/-- What is used of the libraries: hexadecimal text is decoded again, and is neither a COSE message, a
JSON object nor a JWT. -/
structure HexText (hex : String → String) (s : String) : Prop where
  decode : venv.hexDecode (unQuote (hex s)) = some s
  notCOSE : venv.parseCOSE (hex s) = none
  notObj : venv.decodeObj (hex s) = none
  notJWT : (unQuote (hex s)).toList.all (fun ch => ch != '.' && ch != SDJWT.sep) = true

theorem hex_noDot (hex : String → String) (s : String) (hl : HexText venv hex s) :
    NoChar '.' (unQuote (hex s)) ∧ SDJWT.sep ∉ (unQuote (hex s)).toList := by
  have h := hl.notJWT
  simp only [List.all_eq_true, Bool.and_eq_true, bne_iff_ne, ne_eq] at h
  exact ⟨fun hm => (h _ hm).1 rfl, fun hm => (h _ hm).2 rfl⟩

theorem hex_unsupported (hex : String → String) (s : String) (hl : HexText venv hex s) (o : ParseOpts venv.toPEnv) :
    parseEnveloped venv.toPEnv o (hex s) = .unsupported ∧ parseJSON venv.toPEnv o (hex s) = .unsupported := by
  obtain ⟨n1, n2⟩ := hex_noDot venv hex s hl
  constructor
  · unfold parseEnveloped; rw [hl.notObj]
  · unfold parseJSON unwrapStringVC
    rw [hl.notObj]; dsimp only
    have e1 : isJWS venv.toPEnv (unQuote (hex s)) = false := by
      unfold isJWS; rw [split_none _ _ n1]
    have e2 : isJWTUnsecured venv.toPEnv (unQuote (hex s)) = false := by
      unfold isJWTUnsecured; rw [split_none _ _ n1]
    have e3 : tryParseAsJWS venv.toPEnv (unQuote (hex s)) = none := by
      unfold tryParseAsJWS jwsParts
      rw [if_neg n2]; dsimp only
      rw [e1]; rfl
    rw [e3]; dsimp only
    unfold decodeLD
    rw [e2, hl.notObj]
    rfl

/-- **C71**: a parsed COSE credential is written as its message, and reading that gives exactly the
credential; a credential of data model 1 must have been enclosed as a string, since strings are
validated. -/
theorem universal_cwt (o : VpOpts venv) (j : Json)
    (c : PCred venv.T) (h : parseOneCred venv o j = .ok c) (e : CwtEnvelope) (hw : c.cwt = some e)
    (hex : String → String) (hl : HexText venv hex e.raw)
    (hv : c.contents.context.head? = some v1ContextURI → ∃ s, j = .str s)
    (sdText : JwtEnvelope → Option String) :
    ∃ j', universalForm hex sdText c = some j' ∧ parseOneCred venv o j' = .ok c := by
  obtain ⟨h1, h2, h3, h4⟩ := (parseOneCred_origin venv o j c h).cwt e hw
  obtain ⟨k1, k2⟩ := parseOneCred_checks venv o j c h (Or.inr (by simp [hw])) true
  have hopen : openCOSE venv.toPEnv (hex e.raw) = .ok e := by
    unfold openCOSE
    rw [hl.notCOSE]; dsimp only
    rw [hl.decode]; dsimp only
    rw [h1]
  have hparse : ∀ po : ParseOpts venv.toPEnv, po.disableValidation = true →
      parseCBOR venv.toPEnv po (hex e.raw) = .ok c := by
    intro po hpo
    unfold parseCBOR
    rw [hopen]
    show (match venv.cwtVC e.message.payload with | none => _ | some json => _) = _
    rw [h2]; dsimp only
    rw [h3]; dsimp only
    rw [hpo]
    exact congrArg Res.ok h4.symm
  refine ⟨toEnveloped c "application/vc-ld+cose" (hex e.raw), ?_, ?_⟩
  · unfold universalForm
    rw [hw]
  · unfold toEnveloped
    split
    · rename_i hb
      have hc : c.contents.context.head? = some v1ContextURI := by
        unfold isBaseContext at hb
        split at hb
        · cases hb
        · rename_i x l hx
          rw [hx]
          simpa using hb
      obtain ⟨s, rfl⟩ := hv hc
      unfold parseOneCred at h ⊢
      dsimp only at h ⊢
      rw [Res.toOut_ok] at h ⊢
      obtain ⟨-, hval, hrest⟩ := (parse_iff venv.toPEnv _ rfl _ c).1 h
      refine (parse_iff venv.toPEnv _ rfl _ c).2 ⟨?_, hval, hrest⟩
      obtain ⟨u1, u2⟩ := hex_unsupported venv hex e.raw hl (unchecked venv.toPEnv (credOpts venv o false))
      unfold parseCredential
      rw [parseWith_unchecked, parseWith_unchecked, parseWith_unchecked, u1, u2]
      exact hparse _ rfl
    · rw [envelope_parsed, Res.toOut_ok]
      unfold parseCredDataURL
      rw [dataURL_roundtrip _ _ _ (Or.inl (by decide)) (by decide) (by decide) (by decide)]
      dsimp only
      rw [if_neg (by decide), if_pos rfl]
      exact (parseWith_plain venv.toPEnv _ _ rfl _ c).2 ⟨hparse _ rfl, k1, fun _ => k2⟩

end VC.Vfy
