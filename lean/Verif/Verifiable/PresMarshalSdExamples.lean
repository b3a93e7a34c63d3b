import Verif.Verifiable.PresMarshalExamples
import Verif.Verifiable.SdMarshalExamples
/-!
# verifiable: SD-JWT credentials inside presentations — concrete instances and a counterexample (C71)
-/

namespace VC.Vfy

open GoMap
open VC.SDJWT (Disc DMap JWF EnvWF)
open Spec

/-- The toy libraries for presentations with the toy disclosures. -/
def smVEnv : VEnv := { mxEnv with sd := smSd }

/-- Options with every check on. -/
def smVpOpts : VpOpts smVEnv where
  checker := some vxChecker
  disabledProofCheck := false
  strict := true
  requireVC := false
  requireProof := true
  disableJSONLD := false
  checkHolder := true
  checkRelRes := true
  diVerifier := some DI.exSuites
  diPurpose := ""
  diDomain := ""
  diChallenge := ""

/-- The combined format with all disclosures. -/
def smText (e : JwtEnvelope) : Option String :=
  marshalWithDisclosure id id (some (e.jwt, e.holderBinding, e.disclosures.map (·.2))) none discloseAll

theorem sm_writes : WritesSd smText := fun _ =>
  ⟨id, id, _, fun m => List.Perm.refl m, fun m => List.Perm.refl m, List.Perm.refl _, rfl⟩

theorem sm_vsetting {vc : PCred smVEnv.T} (h : vc.json = smJson) : SdSetting smVEnv.toPEnv vc := by
  refine ⟨smSd_wf, fun D d hd => hd, rfl, ?_, ?_⟩
  · rw [h]
    simp [smJson, pxDoc, SDJWT.JWF, SDJWT.JWFObj, SDJWT.JWFArr, GoMap.keys]
  · rw [h]
    exact Or.inl ⟨"sha-256", by decide, rfl⟩

/-- What is written for the credential read from `data`: a string; the algorithm, the JWT, and whether there are
disclosures. -/
def smForm (data : String) : Option (String × Option Hash × String × Bool) :=
  match parseOneCred smVEnv smVpOpts (.str data) with
  | .ok c => c.jwt.bind fun e =>
      match universalForm mxHex smText c with
      | some (.str s) => some (s, c.contents.sdAlg, e.jwt, e.disclosures.isEmpty)
      | _ => none
  | _ => none

theorem sm_form {data s jwt : String} {a : Option Hash} {b : Bool} (h : smForm data = some (s, a, jwt, b)) :
    ∃ (c : PCred smVEnv.T) (e : JwtEnvelope), parseOneCred smVEnv smVpOpts (.str data) = .ok c ∧
      c.jwt = some e ∧ c.contents.sdAlg = a ∧ e.jwt = jwt ∧ e.disclosures.isEmpty = b ∧
      universalForm mxHex smText c = some (.str s) := by
  unfold smForm at h
  split at h
  · rename_i c hc
    obtain ⟨e, he, h⟩ := Option.bind_eq_some_iff.1 h
    split at h
    · rename_i s' hs
      simp only [Option.some.injEq, Prod.mk.injEq] at h
      exact ⟨c, e, hc, he, h.2.1, h.2.2.1, h.2.2.2, by rw [hs, h.1]⟩
    · cases h
  · cases h

set_option maxHeartbeats 4000000 in
theorem sm_forms :
    smForm "h.p.s~d1~d2~" = some ("h.p.s~d1~d2~", some .sha256, "h.p.s", false) ∧
    smForm "h.p.s~" = some ("h.p.s", some .sha256, "h.p.s", true) ∧
    smForm "h.p.s" = some ("h.p.s", none, "h.p.s", true) := by decide +kernel

theorem sm_vjson {c : PCred smVEnv.T} {e : JwtEnvelope} {a : Hash} {j : Json}
    (h : parseOneCred smVEnv smVpOpts j = .ok c) (hj : c.jwt = some e) (ha : c.contents.sdAlg = some a)
    (he : e.jwt = "h.p.s") : c.json = smJson ∧ c.cwt = none := by
  obtain ⟨⟨ds, hor⟩, -, -⟩ := parseOneCred_sd smVEnv h hj (by rw [ha]; simp) true
  have hd := hor.decode
  rw [he] at hd
  have : decodeCredJWT smVEnv.toPEnv "h.p.s" = .ok ([("alg", .str "EdDSA"), ("kid", .str "did:ex:a#k1")], smJson) := rfl
  rw [this] at hd
  exact ⟨(Prod.mk.inj (Res.ok.inj hd)).2.symm, hor.cwt⟩

/-- The hypotheses of `universal_sd` and the SD-JWT case of `Rewritable`. -/
example : ∃ (c : PCred smVEnv.T) (e : JwtEnvelope) (a : Hash),
    parseOneCred smVEnv smVpOpts (.str "h.p.s~d1~d2~") = .ok c ∧ c.jwt = some e ∧ c.contents.sdAlg = some a ∧
    e.disclosures ≠ [] ∧
    universalForm mxHex smText c = some (.str "h.p.s~d1~d2~") ∧ Rewritable smVEnv mxHex smText c := by
  obtain ⟨c, e, h1, h2, h3, h4, h5, h6⟩ := sm_form sm_forms.1
  obtain ⟨g1, g2⟩ := sm_vjson h1 h2 h3 h4
  have hne : e.disclosures ≠ [] := by intro h; rw [h] at h5; cases h5
  refine ⟨c, e, _, h1, h2, h3, hne, h6, ?_⟩
  refine ⟨fun h => (by rw [h2] at h; cases h), fun e _ h => (by rw [h3] at h; cases h), fun e' he _ => ?_,
    fun e he => (by rw [g2] at he; cases he)⟩
  rw [h2] at he
  have he := Option.some.inj he
  subst he
  refine ⟨sm_writes, Or.inl hne, sm_vsetting g1, fun text ht => ?_⟩
  have ht' : universalForm mxHex smText c = some (.str text) := by
    unfold universalForm
    rw [g2, h2]
    dsimp only
    rw [h3, ht]
    have hb : isBaseContext c.contents.context v1ContextURI = true := by
      cases hx : isBaseContext c.contents.context v1ContextURI with
      | true => rfl
      | false =>
        unfold universalForm at h6
        rw [g2, h2] at h6
        dsimp only at h6
        rw [h3, ht] at h6
        simp [toEnveloped, hx, envelopeJSON] at h6
    simp [toEnveloped, hb]
  rw [h6] at ht'
  rw [← Json.str.inj (Option.some.inj ht')]
  exact ⟨by decide, by decide⟩

/-- **C71 fails for an SD-JWT credential without disclosures and holder binding**: it is written as the bare JWT,
and comes back as a credential without selective disclosure. -/
theorem sd_forgotten : ∃ (c c' : PCred smVEnv.T) (j : Json),
    parseOneCred smVEnv smVpOpts (.str "h.p.s~") = .ok c ∧ c.contents.sdAlg = some .sha256 ∧
    universalForm mxHex smText c = some j ∧ parseOneCred smVEnv smVpOpts j = .ok c' ∧
    c'.contents.sdAlg = none ∧ ¬ SameCred c' c := by
  obtain ⟨c, e, h1, h2, h3, -, -, h6⟩ := sm_form sm_forms.2.1
  obtain ⟨c', e', k1, k2, k3, -, -, k6⟩ := sm_form sm_forms.2.2
  refine ⟨c, c', _, h1, h3, h6, k1, k3, fun h => ?_⟩
  have := h.contents
  rw [this, h3] at k3
  cases k3

end VC.Vfy
