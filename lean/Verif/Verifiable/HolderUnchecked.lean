import Verif.Verifiable.SdMarshalExamples
/-!
# verifiable: the holder binding of a parsed SD-JWT credential (C148)

`ParseCredential` keeps the holder binding of an SD-JWT presentation in the credential
(credential_parser.go:98-107) and never looks inside it: `binding_not_checked` says that the result for one binding
determines the result for every other one.
-/

namespace VC.Vfy

open GoMap
open Spec

variable (env : PEnv)

namespace Spec

/-- The credential with another holder binding, and nothing else changed. -/
def withBinding {T : Type} (hb : String) (vc : PCred T) : PCred T :=
  { vc with jwt := vc.jwt.map (fun e => { e with holderBinding := hb }) }

/-- The same outcome, for another holder binding. -/
def rebound {T : Type} (hb : String) : Res (PCred T) → Res (PCred T)
  | .ok vc => .ok (withBinding hb vc)
  | .err => .err
  | .panic => .panic
  | .unsupported => .unsupported

/-- A presentation as a holder writes it: the issuer's JWT, disclosures, and a holder binding (or none). -/
structure PresText (jwt : String) (ds : List String) (hb : String) : Prop where
  jws : isJWS env jwt = true
  jwtClean : NoChar '~' jwt
  dsClean : ∀ s ∈ ds, NoChar '~' s
  binding : BindingText env hb
  combined : ds ≠ [] ∨ hb ≠ ""
  token : TokenText env (SDJWT.Presentation.serialize ⟨jwt, ds, hb⟩)

end Spec

theorem presText_parts {jwt hb : String} {ds : List String} (h : PresText env jwt ds hb) :
    tryParseAsJWS env (unwrapStringVC env (SDJWT.Presentation.serialize ⟨jwt, ds, hb⟩)) =
      some ⟨true, jwt, ds, hb⟩ := by
  unfold unwrapStringVC
  rw [h.token.notObj]; dsimp only
  rw [h.token.notQuoted]
  unfold tryParseAsJWS
  rw [serialize_parts env h.jwtClean h.dsClean h.binding.clean h.combined h.binding.jws]
  exact if_pos h.jws

theorem rebound_bind {T α : Type} (hb : String) (r : Res α) (f : α → Res (PCred T)) :
    rebound hb (r.bind f) = r.bind (fun a => rebound hb (f a)) := by
  cases r <;> rfl

theorem bind_rebound {T β : Type} (hb : String) (r : Res (PCred T)) (f : PCred T → Res β) :
    (rebound hb r).bind f = r.bind (fun v => f (withBinding hb v)) := by
  cases r <;> rfl

theorem finishJSON_rebound (o : ParseOpts env) (jwt : String) (ds : List String) (hb hb' : String) (hs json : JObj) :
    finishJSON env o (some (⟨true, jwt, ds, hb'⟩, hs)) json =
      rebound hb' (finishJSON env o (some (⟨true, jwt, ds, hb⟩, hs)) json) := by
  unfold finishJSON
  simp only [Option.elim]
  cases parseContents env.toCEnv (ofWire json) true with
  | none => rfl
  | some c =>
    dsimp only
    cases parseLDProof (GObj.at (ofWire json) "proof") with
    | none => rfl
    | some ps =>
      show (match parseDisclosures env ds c.sdAlg with | none => _ | some dm => _) = rebound hb'
        (match parseDisclosures env ds c.sdAlg with | none => _ | some dm => _)
      cases parseDisclosures env ds c.sdAlg <;> rfl

theorem parseJSON_rebound (o : ParseOpts env) {jwt : String} {ds : List String} {hb hb' : String}
    (h : PresText env jwt ds hb) (h' : PresText env jwt ds hb') :
    parseJSON env o (SDJWT.Presentation.serialize ⟨jwt, ds, hb'⟩) =
      rebound hb' (parseJSON env o (SDJWT.Presentation.serialize ⟨jwt, ds, hb⟩)) := by
  unfold parseJSON
  rw [presText_parts env h, presText_parts env h']
  dsimp only
  rw [rebound_bind]
  unfold openJWS
  dsimp only
  congr 1
  funext r
  exact finishJSON_rebound env o jwt ds hb hb' r.1 r.2

theorem decodeCredJWT_supported (s : String) : decodeCredJWT env s ≠ .unsupported := by
  unfold decodeCredJWT
  split
  · intro h; cases h
  · split
    · intro h; cases h
    · split
      · intro h; cases h
      · rename_i p _
        cases decodeCredPayload env.toJEnv p <;> (intro h; cases h)

theorem parseJSON_supported (o : ParseOpts env) {jwt : String} {ds : List String} {hb : String}
    (h : PresText env jwt ds hb) :
    parseJSON env o (SDJWT.Presentation.serialize ⟨jwt, ds, hb⟩) ≠ .unsupported := by
  unfold parseJSON
  rw [presText_parts env h]
  dsimp only
  unfold openJWS
  dsimp only
  cases hd : decodeCredJWT env jwt with
  | ok r =>
    show Res.bind (if _ then _ else _) _ ≠ _
    split
    · exact finishJSON_not_unsupported env o _ _
    · intro h; cases h
  | err => intro h; cases h
  | panic => intro h; cases h
  | unsupported => exact absurd hd (decodeCredJWT_supported env jwt)

theorem checkProof_rebound (o : ParseOpts env) (hb : String) (vc : PCred env.T) :
    checkProof env o (withBinding hb vc) = (checkProof env o vc).map (withBinding hb) := by
  obtain ⟨json, c, ps, jwt, cwt⟩ := vc
  unfold checkProof withBinding
  dsimp only
  cases c.issuer with
  | none => rfl
  | some i =>
    dsimp only
    cases jwt with
    | some e =>
      dsimp only [Option.map]
      cases o.jwtChecker with
      | none => rfl
      | some pc =>
        dsimp only
        cases JWT.checkProof env.lib pc (some i.id) none e.jwt <;> rfl
    | none =>
      dsimp only [Option.map]
      cases cwt with
      | some e =>
        dsimp only
        cases o.cwtChecker with
        | none => rfl
        | some pc => dsimp only; cases checkCWT pc i.id e.message <;> rfl
      | none =>
        dsimp only
        cases checkEmbedded env o (some i.id) json <;> rfl

/-- **C148 fails**: whatever the options, `ParseCredential` of an SD-JWT presentation does with one holder binding
exactly what it does with any other (or none): the same refusal, or the same credential with the other binding in it.
So no binding is refused, whoever signed it, and for whatever nonce or audience. -/
theorem binding_not_checked (o : ParseOpts env) {jwt : String} {ds : List String} {hb hb' : String}
    (h : PresText env jwt ds hb) (h' : PresText env jwt ds hb') :
    parseCredential env o (SDJWT.Presentation.serialize ⟨jwt, ds, hb'⟩) =
      rebound hb' (parseCredential env o (SDJWT.Presentation.serialize ⟨jwt, ds, hb⟩)) := by
  rw [parseCredential_text env h.token.notObj (parseJSON_supported env o h),
    parseCredential_text env h'.token.notObj (parseJSON_supported env o h')]
  unfold parseWith
  rw [parseJSON_rebound env o h h', bind_rebound, rebound_bind]
  congr 1
  funext v
  rw [rebound_bind]
  rw [show (if o.disabledProofCheck = true then Res.ok (withBinding hb' v)
      else Res.ofOption (checkProof env o (withBinding hb' v))) =
      rebound hb' (if o.disabledProofCheck = true then Res.ok v else Res.ofOption (checkProof env o v)) by
    split
    · rfl
    · rw [checkProof_rebound]
      cases checkProof env o v <;> rfl]
  rw [bind_rebound]
  congr 1
  funext w
  show (if (o.disableRelRes || env.relOK w.contents) = true then _ else _) = _
  split <;> rfl

/-- The part of **C148** that holds: a binding that is kept is that of the text, and it is empty or has the shape of a
JWS; the issuer's JWT and the disclosures beside it passed all the checks, which do not depend on the binding. -/
theorem binding_kept_partial (o : ParseOpts env) {jwt : String} {ds : List String} {hb : String}
    (h : PresText env jwt ds hb) {vc : PCred env.T}
    (hp : parseCredential env o (SDJWT.Presentation.serialize ⟨jwt, ds, hb⟩) = .ok vc) :
    ∃ e, vc.jwt = some e ∧ e.jwt = jwt ∧ e.holderBinding = hb ∧ (hb = "" ∨ isJWS env hb = true) ∧
      (o.disabledProofCheck = false → checkProof env o vc = some vc) := by
  rw [parseCredential_text env h.token.notObj (parseJSON_supported env o h)] at hp
  have hp0 := hp
  unfold parseWith at hp
  obtain ⟨v, h1, -⟩ := Res.bind_ok.1 hp
  have hv : ∃ e, v.jwt = some e ∧ e.jwt = jwt ∧ e.holderBinding = hb := by
    unfold parseJSON at h1
    rw [presText_parts env h] at h1
    obtain ⟨r, -, h2⟩ := Res.bind_ok.1 h1
    unfold finishJSON at h2
    split at h2
    · cases h2
    · split at h2
      · cases h2
      · obtain ⟨-, -, h2⟩ := Res.bind_ok.1 h2
        dsimp only at h2
        split at h2
        · cases h2
        · rw [← Res.ok.inj h2]
          exact ⟨_, rfl, rfl, rfl⟩
  obtain ⟨e, e1, e2, e3⟩ := hv
  have hvc : ∃ e, vc.jwt = some e ∧ e.jwt = jwt ∧ e.holderBinding = hb := by
    rw [h1] at hp
    replace hp : (if o.disabledProofCheck = true then Res.ok v else Res.ofOption (checkProof env o v)).bind
      (fun vc => if (o.disableRelRes || env.relOK vc.contents) = true then Res.ok vc else Res.err) = Res.ok vc := hp
    obtain ⟨w, g1, g2⟩ := Res.bind_ok.1 hp
    have : w = vc := by
      split at g2
      · exact Res.ok.inj g2
      · cases g2
    subst this
    split at g1
    · rw [← Res.ok.inj g1]; exact ⟨e, e1, e2, e3⟩
    · unfold checkProof at g1
      split at g1
      · cases g1
      · rw [e1] at g1
        dsimp only at g1
        split at g1
        · cases g1
        · split at g1
          · rw [← Res.ok.inj g1]; exact ⟨e, e1, e2, e3⟩
          · cases g1
  obtain ⟨e', e1', e2', e3'⟩ := hvc
  exact ⟨e', e1', e2', e3', h.binding.jws, (parseWith_jwt env hp0 e1').2.1⟩

/-! ## Concrete instances -/

theorem hu_text {hb : String} (h1 : hb = "" ∨ isJWS smEnv hb = true) (h2 : NoChar '~' hb)
    (h3 : pxDecode (SDJWT.Presentation.serialize ⟨"h.p.s", ["d1"], hb⟩) = none)
    (h4 : unQuote (SDJWT.Presentation.serialize ⟨"h.p.s", ["d1"], hb⟩) =
      SDJWT.Presentation.serialize ⟨"h.p.s", ["d1"], hb⟩) : PresText smEnv "h.p.s" ["d1"] hb := by
  refine ⟨by decide +kernel, by unfold NoChar; decide, fun s hs => ?_, ⟨h1, h2⟩, Or.inl (by decide), ⟨h3, h4⟩⟩
  rw [List.mem_singleton] at hs
  subst hs
  unfold NoChar; decide

/-- Without a binding, and with the issuer's own JWT put in its place, which no holder signed. -/
theorem hu_texts : PresText smEnv "h.p.s" ["d1"] "" ∧ PresText smEnv "h.p.s" ["d1"] "h.p.s" :=
  ⟨hu_text (Or.inl rfl) (by unfold NoChar; decide) (by decide +kernel) (by decide +kernel),
   hu_text (Or.inr (by decide +kernel)) (by unfold NoChar; decide) (by decide +kernel) (by decide +kernel)⟩

/-- **C148 fails**: the issuer's JWT names no holder key, and is accepted with itself as the holder binding. -/
theorem unbound_accepted : ∃ (vc : PCred smEnv.T) (e : JwtEnvelope),
    parseCredential smEnv smOpts "h.p.s~d1~h.p.s" = .ok vc ∧ vc.jwt = some e ∧ e.holderBinding = "h.p.s" ∧
    get? vc.json "cnf" = none := by
  have hs : SDJWT.Presentation.serialize ⟨"h.p.s", ["d1"], "h.p.s"⟩ = "h.p.s~d1~h.p.s" := by decide +kernel
  have hs0 : SDJWT.Presentation.serialize ⟨"h.p.s", ["d1"], ""⟩ = "h.p.s~d1~" := by decide +kernel
  have hb := binding_not_checked smEnv smOpts hu_texts.1 hu_texts.2
  rw [hs, hs0] at hb
  have h6 := sm_accepts.2.1
  unfold smView at h6
  split at h6
  · rename_i v hv
    rw [hv] at hb
    obtain ⟨e, h1, h2, h3, -⟩ := binding_kept_partial smEnv smOpts hu_texts.2 (by rw [hs]; exact hb)
    refine ⟨_, e, hb, h1, h3, ?_⟩
    have hd : (withBinding "h.p.s" v).json = smJson := by
      have hp : parseWith smEnv (parseJSON smEnv) smOpts "h.p.s~d1~h.p.s" = .ok (withBinding "h.p.s" v) := by
        rw [← hs, ← parseCredential_text smEnv hu_texts.2.token.notObj (parseJSON_supported smEnv smOpts hu_texts.2), hs]
        exact hb
      obtain ⟨p1, -, -⟩ := parseWith_jwt smEnv hp h1
      rw [← hs] at p1
      unfold parseJSON at p1
      rw [presText_parts smEnv hu_texts.2] at p1
      obtain ⟨r, q1, q2⟩ := Res.bind_ok.1 p1
      unfold openJWS at q1
      have hk : decodeCredJWT smEnv "h.p.s" =
        .ok ([("alg", .str "EdDSA"), ("kid", .str "did:ex:a#k1")], smJson) := rfl
      dsimp only at q1
      rw [hk] at q1
      have hr : r.2 = smJson := by
        obtain ⟨r', k1, k2⟩ := Res.bind_ok.1 q1
        split at k2
        · rw [← Res.ok.inj k2, ← Res.ok.inj k1]
        · cases k2
      obtain ⟨x1, -⟩ := finishJSON_shape smEnv q2
      rw [x1, hr]
    rw [hd]
    decide
  · cases h6

/-- The hypotheses of `binding_kept_partial`. -/
example : ∃ vc, PresText smEnv "h.p.s" ["d1"] "h.p.s" ∧
    parseCredential smEnv smOpts (SDJWT.Presentation.serialize ⟨"h.p.s", ["d1"], "h.p.s"⟩) = .ok vc := by
  obtain ⟨vc, -, h, -⟩ := unbound_accepted
  refine ⟨vc, hu_texts.2, ?_⟩
  rw [show SDJWT.Presentation.serialize ⟨"h.p.s", ["d1"], "h.p.s"⟩ = "h.p.s~d1~h.p.s" by decide +kernel]
  exact h

end VC.Vfy
