import Verif.Verifiable.PresMarshalCred
/-!
# `Credential.MarshalJSON` and reading its text back (C105)

verifiable/credential.go:2585-2598 with `ToUniversalForm` (930-1014, `Verif.Verifiable.PresMarshal`) and
`ParseCredential` (1485-1510, `Verif.Verifiable.Parse`).

Parameter: `enc`, `json.Marshal` of a JSON value.
-/

namespace VC.Vfy

open GoMap Spec

/-! ## Model -/

/-- `Credential.MarshalJSON`, credential.go:2585-2598. -/
def marshalJSONCred {T : Type} (enc : Json → String) (hex : String → String)
    (sdText : JwtEnvelope → Option String) (c : PCred T) : Option String :=
  (universalForm hex sdText c).map enc

/-- `Credential.MarshalAsJSONLD`, credential.go:2600-2607: the JSON of the credential whatever its
envelope. -/
def marshalLD {T : Type} (enc : Json → String) (c : PCred T) : String := enc (.obj (toRawJSON c))

/-- `MarshalAsCWTLD`, credential.go:2615-2621. -/
def marshalCWT {T : Type} (c : PCred T) : Option String := c.cwt.map (·.raw)

/-- `MarshalAsCWTLDHex`, credential.go:2624-2631. -/
def marshalCWTHex {T : Type} (hex : String → String) (c : PCred T) : Option String :=
  (marshalCWT c).map hex

/-! ## Specification -/

namespace Spec

/-- What is used of `encoding/json` for an object: its text is read as that object and starts with a
brace. -/
structure ObjText (env : PEnv) (enc : Json → String) (o : JObj) : Prop where
  read : env.decodeObj (enc (.obj o)) = some o
  brace : ∃ l, (enc (.obj o)).toList = '{' :: l

/-- What is used of `encoding/json` for a string that needs no escapes: it is written in quotes, and that
is not an object. -/
structure StrText (env : PEnv) (enc : Json → String) (s : String) : Prop where
  quoted : (enc (.str s)).toList = '"' :: (s.toList ++ ['"'])
  notObj : env.decodeObj (enc (.str s)) = none

/-- What is used of base64url: no text that starts with a brace is in base64url. -/
def NoBrace (env : PEnv) : Prop := ∀ (s : String) (l : List Char), s.toList = '{' :: l → env.jsonPart s = false

/-- The object has no member `jwt` that is a non-empty string. -/
def NoJwt (o : JObj) : Prop := ∀ s, get? o "jwt" = some (.str s) → s = ""

/-- The `proof` member is written as the library writes it: not an array of one proof. -/
def CompactProof {T : Type} (c : PCred T) : Prop :=
  c.proofs ≠ [] → get? c.json "proof" = Compact (c.proofs.map .obj)

end Spec

/-! ## Texts -/

theorem split_first {c x : Char} {s : String} {l : List Char} (hs : s.toList = x :: l) (hx : x ≠ c) :
    ∃ a r l', split c s = a :: r ∧ a.toList = x :: l' := by
  unfold split
  rw [hs]
  unfold splitL
  rw [if_neg hx]
  cases h : splitL c l with
  | nil => exact absurd h (splitL_ne_nil c l)
  | cons p ps => exact ⟨_, _, p, rfl, by simp⟩

variable (env : PEnv)

theorem brace_notJWS (hb : NoBrace env) {s : String} {l : List Char} (hs : s.toList = '{' :: l) :
    isJWS env s = false ∧ isJWTUnsecured env s = false := by
  obtain ⟨a, r, l', h1, h2⟩ := split_first (c := '.') hs (by decide)
  have ha := hb a l' h2
  unfold isJWS isJWTUnsecured
  rw [h1]
  constructor
  · split
    · rename_i h
      cases h
      rw [ha]; rfl
    · rfl
  · split
    · rename_i h
      cases h
      rw [ha]; rfl
    · rfl

theorem brace_unQuote {s : String} {l : List Char} (hs : s.toList = '{' :: l) : unQuote s = s := by
  unfold unQuote
  rw [hs]
  rfl

theorem brace_tryParse (hb : NoBrace env) {s : String} {l : List Char} (hs : s.toList = '{' :: l) :
    tryParseAsJWS env s = none := by
  unfold tryParseAsJWS
  have : isJWS env (jwsParts env s).jwt = false := by
    unfold jwsParts
    split
    · obtain ⟨a, r, l', h1, h2⟩ := split_first (c := SDJWT.sep) hs (by decide)
      have hj : (splitCombined env s).jwt = a := by
        unfold splitCombined
        split
        · unfold SDJWT.parsePresentation; dsimp only; rw [h1]; rfl
        · unfold SDJWT.parseIssuance; dsimp only; rw [h1]; rfl
      rw [hj]
      exact (brace_notJWS env hb h2).1
    · exact (brace_notJWS env hb hs).1
  rw [this]
  rfl

theorem unwrap_object {s : String} {l : List Char} {o : JObj} (hs : s.toList = '{' :: l)
    (hd : env.decodeObj s = some o) (hj : NoJwt o) : unwrapStringVC env s = s := by
  unfold unwrapStringVC
  rw [hd]
  dsimp only
  split
  · rename_i t ht
    rw [if_neg (by simp [hj t ht]), brace_unQuote hs]
  · exact brace_unQuote hs

theorem unQuote_quoted {s t : String} (hs : s.toList = '"' :: (t.toList ++ ['"'])) : unQuote s = t := by
  unfold unQuote
  rw [hs]
  show (if (t.toList ++ ['"']).getLast? = some '"' then _ else _) = _
  rw [if_pos (by simp)]
  simp

/-- The JSON parser on the text of an object. -/
theorem parseJSON_object (o : ParseOpts env) (hb : NoBrace env) {s : String} {l : List Char} {json : JObj}
    (hs : s.toList = '{' :: l) (hd : env.decodeObj s = some json) (hj : NoJwt json) :
    parseJSON env o s = finishJSON env o none json := by
  unfold parseJSON
  rw [unwrap_object env hs hd hj, brace_tryParse env hb hs]
  dsimp only
  unfold decodeLD
  rw [(brace_notJWS env hb hs).2, hd]
  rfl

/-- An object that is not an envelope is not for the enveloped parser. -/
theorem parseEnveloped_object (o : ParseOpts env) {s : String} {json : JObj}
    (hd : env.decodeObj s = some json) (he : ¬ IsEnvelope json) : parseEnveloped env o s = .unsupported := by
  unfold parseEnveloped
  rw [hd]
  dsimp only
  cases h : decodeType (GObj.at (ofWire json) "type") with
  | none => rfl
  | some ts =>
    dsimp only
    rw [if_pos]
    have := isEnvelope_iff (c := json) h
    cases hc : ts.contains "EnvelopedVerifiableCredential" with
    | false => rfl
    | true => exact absurd (this.1 hc) he

/-- `ParseCredential` of the text of an object that is not an envelope. -/
theorem parseCredential_object (o : ParseOpts env) (ho : o.externalContext = []) (hb : NoBrace env) {s : String} {l : List Char}
    {json : JObj} (hs : s.toList = '{' :: l) (hd : env.decodeObj s = some json) (hj : NoJwt json)
    (he : ¬ IsEnvelope json) (c : PCred env.T) :
    parseCredential env o s = .ok c ↔ finishJSON env (unchecked env o) none json = .ok c ∧
      (o.disableValidation = false → Valid env o c) ∧ (o.disabledProofCheck = false → Secured env o c) ∧
      (o.disableRelRes = false → env.relOK c.contents = true) := by
  have key : parseCredential env (unchecked env o) s = finishJSON env (unchecked env o) none json := by
    unfold parseCredential
    rw [parseWith_unchecked, parseWith_unchecked, parseWith_unchecked, parseEnveloped_object env _ hd he,
      parseJSON_object env _ hb hs hd hj]
    show orNext (finishJSON env (unchecked env o) none json) _ = _
    have := finishJSON_not_unsupported env (unchecked env o) none json
    cases hf : finishJSON env (unchecked env o) none json with
    | unsupported => exact absurd hf this
    | ok _ => rfl
    | err => rfl
    | panic => rfl
  rw [parse_iff env o ho, key]
  constructor
  · rintro ⟨h1, h2, h3⟩
    have := (finishJSON_shape env h1).2.2.2.2.1 rfl
    exact ⟨h1, fun hv => h2 hv this, h3⟩
  · rintro ⟨h1, h2, h3⟩
    exact ⟨h1, fun hv _ => h2 hv, h3⟩

/-- Reading an object whose contents and proofs are known. -/
theorem finishJSON_plain (o : ParseOpts env) {json : JObj} {c : Contents env.T} {ps : List JObj}
    (hc : parseContents env.toCEnv (ofWire json) false = some c)
    (hp : parseLDProof (GObj.at (ofWire json) "proof") = some ps) :
    finishJSON env (unchecked env o) none json = .ok ⟨json, c, ps, none, none⟩ := by
  unfold finishJSON
  show (match parseContents env.toCEnv (ofWire json) false with | none => _ | some c => _) = _
  rw [hc]
  dsimp only
  rw [hp]
  rfl

/-- What is written of a plain credential has its contents and proofs. -/
theorem toRaw_contents {c : PCred env.T} {x : Contents env.T} {json : JObj}
    (hj : ∀ k, k ≠ "proof" → get? c.json k = get? json k)
    (hc : parseContents env.toCEnv (ofWire json) false = some x) :
    parseContents env.toCEnv (ofWire (toRawJSON c)) false = some x := by
  rw [← hc]
  apply parse_congr
  intro k _ hk
  rw [get?_ofWire, get?_ofWire, (toRawJSON_lookup c).1 k hk, hj k hk]

theorem toRaw_proofs {T : Type} {c : PCred T}
    (hc : c.proofs = [] → parseLDProof (GObj.at (ofWire c.json) "proof") = some []) :
    parseLDProof (GObj.at (ofWire (toRawJSON c)) "proof") = some c.proofs := by
  obtain ⟨l1, l2, l3⟩ := toRawJSON_lookup c
  by_cases hn : c.proofs = []
  · rw [l3 hn, hn]; exact hc hn
  · rw [at_ofWire']
    unfold JObj.at
    rw [l2 hn]
    exact proofs_roundtrip c.proofs

theorem set_same {α : Type} {m : GoMap α} {k : String} {v : α} (h : get? m k = some v) : set m k v = m := by
  induction m with
  | nil => simp at h
  | cons p m ih =>
    obtain ⟨k', v'⟩ := p
    rw [get?_cons] at h
    by_cases e : k' = k
    · rw [if_pos e] at h; cases h; simp [GoMap.set, e]
    · rw [if_neg e] at h; simp [GoMap.set, e, ih h]

theorem toRaw_compact {T : Type} {c : PCred T} (h : CompactProof c) : toRawJSON c = c.json := by
  unfold toRawJSON
  split
  · rfl
  · rename_i hn
    have hn : c.proofs ≠ [] := by simpa using hn
    apply set_same
    rw [h hn, proofsToRaw_compact _ hn]

/-! ## Round trips -/

/-- **C105** (JSON-LD): a parsed credential without an envelope, written by `MarshalJSON`, is parsed
again, with the same options, as exactly the same credential. -/
theorem marshal_parse_object (o : ParseOpts env) (ho : o.externalContext = []) (data : String)
    (c : PCred env.T) (h : parseCredential env o data = .ok c) (hj : c.jwt = none) (hw : c.cwt = none)
    (hp : CompactProof c) (enc : Json → String) (hex : String → String)
    (sdText : JwtEnvelope → Option String) (hb : NoBrace env) (ht : ObjText env enc c.json)
    (hjwt : NoJwt c.json) (he : ¬ IsEnvelope c.json) :
    ∃ s, marshalJSONCred enc hex sdText c = some s ∧ parseCredential env o s = .ok c := by
  obtain ⟨h1, h2⟩ := (parseCredential_origin env ho h).plain hj hw
  obtain ⟨l, hl⟩ := ht.brace
  refine ⟨enc (.obj c.json), ?_, ?_⟩
  · unfold marshalJSONCred universalForm
    rw [hw, hj]
    simp [toRaw_compact hp]
  · rw [parseCredential_object env o ho hb hl ht.read hjwt he]
    obtain ⟨-, g2, g3, g4⟩ := (parse_iff env o ho _ c).1 h
    refine ⟨?_, fun hv => g2 hv hj, g3, g4⟩
    rw [finishJSON_plain env o h1 h2]
    obtain ⟨a1, a2, a3, a4, a5⟩ := c
    dsimp only at hj hw
    rw [hj, hw]

/-- The text of an envelope. -/
theorem parseEnveloped_envelope (o : ParseOpts env) {s url : String}
    (hd : env.decodeObj s = some [("id", .str url), ("type", .arr [.str "EnvelopedVerifiableCredential"]),
      ("@context", .arr [.str v2ContextURI])]) :
    parseEnveloped env o s = parseCredDataURL env o url := by
  unfold parseEnveloped
  rw [hd]
  rfl

/-- An outcome that is no refusal of the format is the result. -/
theorem orNext_eq {α : Type _} {r r' : Res α} {x : α} (h : r = .ok x) : orNext r r' = .ok x := by
  rw [h]; rfl

/-- **C105** (JWT): a parsed JWT credential without selective disclosure, written by `MarshalJSON` as its
JWT, in quotes or enveloped, is parsed again, with the same options, as exactly the same credential. -/
theorem marshal_parse_jwt (o : ParseOpts env) (ho : o.externalContext = []) (data : String)
    (c : PCred env.T) (h : parseCredential env o data = .ok c) (e : JwtEnvelope) (hj : c.jwt = some e)
    (hsd : c.contents.sdAlg = none) (enc : Json → String) (hex : String → String)
    (sdText : JwtEnvelope → Option String) (ht : StrText env enc e.jwt)
    (hn : env.decodeObj e.jwt = none) (hq : unQuote e.jwt = e.jwt)
    (hen : ∀ url, env.decodeObj (enc (envelopeJSON url)) = some [("id", .str url),
      ("type", .arr [.str "EnvelopedVerifiableCredential"]), ("@context", .arr [.str v2ContextURI])]) :
    ∃ s, marshalJSONCred enc hex sdText c = some s ∧ parseCredential env o s = .ok c := by
  obtain ⟨hw, horig⟩ := (parseCredential_origin env ho h).jws e hj
  obtain ⟨h1, h2, h3, h4⟩ := horig hsd
  obtain ⟨-, -, g3, g4⟩ := (parse_iff env o ho _ c).1 h
  have htry : tryParseAsJWS env e.jwt = some ⟨false, e.jwt, [], ""⟩ := by
    unfold tryParseAsJWS jwsParts
    rw [if_neg h3]
    exact if_pos h2
  refine ⟨enc (toEnveloped c "application/vc-ld+jwt" e.jwt), ?_, ?_⟩
  · unfold marshalJSONCred universalForm
    rw [hw, hj]; dsimp only
    rw [hsd, h1]
    rfl
  · unfold toEnveloped
    split
    · have hparse : parseJSON env o (enc (.str e.jwt)) = .ok c := by
        unfold parseJSON unwrapStringVC
        rw [ht.notObj]; dsimp only
        rw [unQuote_quoted ht.quoted, htry]
        exact h4 _
      unfold parseCredential
      have : parseWith env (parseEnveloped env) o (enc (.str e.jwt)) = .unsupported := by
        rw [parseWith_unsupported]
        unfold parseEnveloped
        rw [ht.notObj]
      rw [this]
      show orNext (parseWith env (parseJSON env) o (enc (.str e.jwt))) _ = _
      exact orNext_eq ((parseWith_plain env _ o ho _ c).2 ⟨hparse, g3, g4⟩)
    · have hparse : parseJSON env o e.jwt = .ok c := by
        unfold parseJSON unwrapStringVC
        rw [hn]; dsimp only
        rw [hq, htry]
        exact h4 _
      unfold parseCredential
      refine orNext_eq ((parseWith_plain env _ o ho _ c).2 ⟨?_, g3, g4⟩)
      rw [parseEnveloped_envelope env o (hen _)]
      unfold parseCredDataURL
      rw [dataURL_roundtrip _ _ _ (Or.inl (by decide)) (by decide) (by decide) (by decide)]
      dsimp only
      rw [if_pos (Or.inl rfl)]
      exact (parseWith_plain env _ o ho _ c).2 ⟨hparse, g3, g4⟩

/-- **C105** (COSE): a parsed COSE credential, written by `MarshalJSON` as its message in hexadecimal, in
quotes or enveloped, is parsed again, with the same options, as exactly the same credential. -/
theorem marshal_parse_cwt (o : ParseOpts env) (ho : o.externalContext = []) (data : String)
    (c : PCred env.T) (h : parseCredential env o data = .ok c) (e : CwtEnvelope) (hw : c.cwt = some e)
    (enc : Json → String) (hex : String → String) (sdText : JwtEnvelope → Option String)
    (ht : StrText env enc (hex e.raw)) (hd : env.hexDecode (hex e.raw) = some e.raw)
    (hq : unQuote (hex e.raw) = hex e.raw)
    (hdot : NoChar '.' (hex e.raw) ∧ NoChar SDJWT.sep (hex e.raw))
    (hnc : env.parseCOSE (hex e.raw) = none ∧ env.parseCOSE (enc (.str (hex e.raw))) = none)
    (hen : ∀ url, env.decodeObj (enc (envelopeJSON url)) = some [("id", .str url),
      ("type", .arr [.str "EnvelopedVerifiableCredential"]), ("@context", .arr [.str v2ContextURI])]) :
    ∃ s, marshalJSONCred enc hex sdText c = some s ∧ parseCredential env o s = .ok c := by
  obtain ⟨h1, h2, h3, h4⟩ := (parseCredential_origin env ho h).cwt e hw
  obtain ⟨-, g2, g3, g4⟩ := (parse_iff env o ho _ c).1 h
  have hjn : c.jwt = none := by rw [h4]
  have hopen : ∀ s, env.parseCOSE s = none → unQuote s = hex e.raw → openCOSE env s = .ok e := by
    intro s k1 k2
    unfold openCOSE
    rw [k1]; dsimp only
    rw [k2, hd]; dsimp only
    rw [h1]
  have hparse : ∀ s, env.parseCOSE s = none → unQuote s = hex e.raw →
      parseCBOR env (unchecked env o) s = .ok c := by
    intro s k1 k2
    unfold parseCBOR
    rw [hopen s k1 k2]
    show (match env.cwtVC e.message.payload with | none => _ | some json => _) = _
    rw [h2]; dsimp only
    rw [h3]
    exact congrArg Res.ok h4.symm
  refine ⟨enc (toEnveloped c "application/vc-ld+cose" (hex e.raw)), ?_, ?_⟩
  · unfold marshalJSONCred universalForm
    rw [hw]; rfl
  · rw [parse_iff env o ho]
    refine ⟨?_, g2, g3, g4⟩
    unfold toEnveloped
    split
    · have hu := unQuote_quoted ht.quoted
      have e1 : parseEnveloped env (unchecked env o) (enc (.str (hex e.raw))) = .unsupported := by
        unfold parseEnveloped; rw [ht.notObj]
      have e2 : parseJSON env (unchecked env o) (enc (.str (hex e.raw))) = .unsupported := by
        unfold parseJSON unwrapStringVC
        rw [ht.notObj]; dsimp only
        rw [hu]
        have e3 : isJWS env (hex e.raw) = false := by
          unfold isJWS; rw [split_none _ _ hdot.1]
        have e4 : isJWTUnsecured env (hex e.raw) = false := by
          unfold isJWTUnsecured; rw [split_none _ _ hdot.1]
        have e5 : tryParseAsJWS env (hex e.raw) = none := by
          unfold tryParseAsJWS jwsParts
          rw [if_neg hdot.2]; dsimp only
          rw [e3]; rfl
        rw [e5]; dsimp only
        unfold decodeLD
        rw [e4, ht.notObj]
        rfl
      unfold parseCredential
      rw [parseWith_unchecked, parseWith_unchecked, parseWith_unchecked, e1, e2]
      exact hparse _ hnc.2 hu
    · unfold parseCredential
      rw [parseWith_unchecked]
      apply orNext_eq
      rw [parseEnveloped_envelope env _ (hen _)]
      unfold parseCredDataURL
      rw [dataURL_roundtrip _ _ _ (Or.inl (by decide)) (by decide) (by decide) (by decide)]
      dsimp only
      rw [if_neg (by decide), if_pos rfl, parseWith_unchecked]
      exact hparse _ hnc.1 hq

end VC.Vfy
