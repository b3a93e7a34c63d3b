import Verif.Issue.Marshal
/-!
# `MarshalAsJSONLD`, `MarshalAsCWTLD`, `MarshalAsCWTLDHex` read back (C105)
-/

namespace VC.Vfy

open GoMap Spec

namespace Spec

/-- No text beginning with `x` is base64url of a JSON object. -/
def NoPart (env : PEnv) (x : Char) : Prop :=
  ∀ (s : String) (l : List Char), s.toList = x :: l → env.jsonPart s = false

end Spec

variable (env : PEnv)

theorem first_notJWS {x : Char} (hb : NoPart env x) (hx : x ≠ '.') {s : String} {l : List Char}
    (hs : s.toList = x :: l) : isJWS env s = false ∧ isJWTUnsecured env s = false := by
  obtain ⟨a, r, l', h1, h2⟩ := split_first (c := '.') hs hx
  have ha := hb a l' h2
  unfold isJWS isJWTUnsecured
  rw [h1]
  constructor
  · split
    · rename_i h
      cases h
      rw [ha]; rfl
    · rfl
  · split
    · rename_i h
      cases h
      rw [ha]; rfl
    · rfl

theorem first_tryParse {x : Char} (hb : NoPart env x) (hx : x ≠ '.') (hx' : x ≠ SDJWT.sep) {s : String}
    {l : List Char} (hs : s.toList = x :: l) : tryParseAsJWS env s = none := by
  unfold tryParseAsJWS
  have : isJWS env (jwsParts env s).jwt = false := by
    unfold jwsParts
    split
    · obtain ⟨a, r, l', h1, h2⟩ := split_first (c := SDJWT.sep) hs hx'
      have hj : (splitCombined env s).jwt = a := by
        unfold splitCombined
        split
        · unfold SDJWT.parsePresentation; dsimp only; rw [h1]; rfl
        · unfold SDJWT.parseIssuance; dsimp only; rw [h1]; rfl
      rw [hj]
      exact (first_notJWS env hb hx h2).1
    · exact (first_notJWS env hb hx hs).1
  rw [this]
  rfl

/-- **C105** (`MarshalAsCWTLD`): the bytes of a parsed COSE credential are parsed again, with the same
options, as exactly the same credential.  `x` is the first byte of a COSE message. -/
theorem marshal_cwt_bytes (o : ParseOpts env) (ho : o.externalContext = []) (data : String)
    (c : PCred env.T) (h : parseCredential env o data = .ok c) (hw : c.cwt.isSome) {x : Char}
    (hx : ∀ raw m, env.parseCOSE raw = some m → ∃ l, raw.toList = x :: l)
    (hb : NoPart env x) (hx1 : x ≠ '.') (hx2 : x ≠ SDJWT.sep) (hx3 : x ≠ '"')
    (hd : ∀ raw m, env.parseCOSE raw = some m → env.decodeObj raw = none) :
    ∃ raw, marshalCWT c = some raw ∧ parseCredential env o raw = .ok c := by
  obtain ⟨e, hw⟩ := Option.isSome_iff_exists.1 hw
  obtain ⟨h1, h2, h3, h4⟩ := (parseCredential_origin env ho h).cwt e hw
  obtain ⟨-, g2, g3, g4⟩ := (parse_iff env o ho _ c).1 h
  obtain ⟨l, hl⟩ := hx _ _ h1
  have hn := hd _ _ h1
  refine ⟨e.raw, by unfold marshalCWT; rw [hw]; rfl, ?_⟩
  rw [parse_iff env o ho]
  refine ⟨?_, g2, g3, g4⟩
  have hu : unQuote e.raw = e.raw := by
    unfold unQuote
    rw [hl]
    split
    · rename_i h; cases h; exact absurd rfl hx3
    · rfl
  have e1 : parseEnveloped env (unchecked env o) e.raw = .unsupported := by
    unfold parseEnveloped; rw [hn]
  have e2 : parseJSON env (unchecked env o) e.raw = .unsupported := by
    unfold parseJSON unwrapStringVC
    rw [hn]; dsimp only
    rw [hu, first_tryParse env hb hx1 hx2 hl]; dsimp only
    unfold decodeLD
    rw [(first_notJWS env hb hx1 hl).2, hn]
    rfl
  unfold parseCredential
  rw [parseWith_unchecked, parseWith_unchecked, parseWith_unchecked, e1, e2]
  show parseCBOR env (unchecked env o) e.raw = _
  unfold parseCBOR openCOSE
  rw [h1]
  show (match env.cwtVC e.message.payload with | none => _ | some json => _) = _
  rw [h2]; dsimp only
  rw [h3]
  exact congrArg Res.ok h4.symm

/-- **C105** (`MarshalAsCWTLDHex`): the text is the bytes of the message in hexadecimal. -/
theorem marshal_cwt_hex (hex : String → String) {T : Type} (c : PCred T) (s : String) :
    marshalCWTHex hex c = some s ↔ ∃ e, c.cwt = some e ∧ s = hex e.raw := by
  unfold marshalCWTHex marshalCWT
  cases c.cwt with
  | none => simp
  | some e => simp [eq_comm]

/-- **C105** (`MarshalAsJSONLD`): what is written of a credential, whatever its envelope, is parsed, if at
all, as a credential with the same contents, no envelope, and proofs that are all embedded: the
signature of the envelope is gone, and without an embedded proof the text is accepted only with the
proof check switched off. -/
theorem marshal_ld_loses_envelope (o : ParseOpts env) (ho : o.externalContext = [])
    (c : PCred env.T) (hc : parseContents env.toCEnv (ofWire c.json) false = some c.contents)
    (hps : c.proofs = [] → get? c.json "proof" = none) (enc : Json → String) (hb : NoBrace env)
    (ht : ObjText env enc (toRawJSON c)) (hjwt : NoJwt c.json) (he : ¬ IsEnvelope c.json) (r : PCred env.T) :
    parseCredential env o (marshalLD enc c) = .ok r ↔
      r = ⟨toRawJSON c, c.contents, c.proofs, none, none⟩ ∧
      (o.disableValidation = false → Valid env o r) ∧
      (o.disabledProofCheck = false → c.proofs ≠ [] ∧ Secured env o r) ∧
      (o.disableRelRes = false → env.relOK c.contents = true) := by
  obtain ⟨l1, l2, l3⟩ := toRawJSON_lookup c
  obtain ⟨l, hl⟩ := ht.brace
  unfold marshalLD
  rw [parseCredential_object env o ho hb hl ht.read (fun s hs => hjwt s (by rw [← l1 _ (by decide)]; exact hs))
      (fun h => he (by unfold IsEnvelope at h ⊢; rw [← l1 _ (by decide)]; exact h)),
    finishJSON_plain env o (toRaw_contents env (fun _ _ => rfl) hc) (toRaw_proofs (fun h => by
      rw [at_ofWire']; unfold JObj.at; rw [hps h]; rfl)), Res.ok.injEq]
  constructor
  · rintro ⟨rfl, h2, h3, h4⟩
    refine ⟨rfl, h2, fun hd => ⟨fun hp => ?_, h3 hd⟩, h4⟩
    have hnone : get? (toRawJSON c) "proof" = none := by
      rw [l3 hp]; exact hps hp
    have hpm : ∀ l, ¬ ProofMember (toRawJSON c) l := by
      rintro l (⟨p, hp, -⟩ | hp) <;> rw [hnone] at hp <;> cases hp
    rcases h3 hd with ⟨i, e, pc, j, hi, he, _⟩ | ⟨i, e, pc, msg, a, x, hi, hn, he, _⟩ | ⟨i, l, pc, ps, hi, hn, hn', hp, _⟩ | ⟨i, l, s, hi, hn, hn', hp, _⟩
    · cases he
    · cases he
    · exact hpm _ hp
    · exact hpm _ hp
  · rintro ⟨rfl, h2, h3, h4⟩
    exact ⟨rfl, h2, fun hd => (h3 hd).2, h4⟩

end VC.Vfy
