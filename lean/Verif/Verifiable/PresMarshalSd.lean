import Verif.Verifiable.PresMarshalCred
import Verif.Verifiable.SdMarshal
/-!
# verifiable: an SD-JWT credential inside a presentation can be read back (C71)

`ToUniversalForm` writes a parsed SD-JWT credential with all its disclosures, as a string or in an envelope;
parsing what it wrote as part of a presentation gives the credential back: `universal_sd`.
-/

namespace VC.Vfy

open GoMap
open VC.SDJWT (Disc DMap)
open Spec

/-- The options of `MarshalWithDisclosure(DiscloseAll())`, credential.go:949-953. -/
def discloseAll : DiscloseOpts := ⟨[], [], true, none, false⟩

namespace Spec

/-- `sdText` is the combined format that `ToJWTString` writes for an SD-JWT credential (credential.go:944-962):
`MarshalWithDisclosure(DiscloseAll())` with the disclosures in some order of the Go map. -/
def WritesSd (sdText : JwtEnvelope → Option String) : Prop :=
  ∀ e, ∃ (ordA ordR : NameMap → NameMap) (l : List Disc),
    (∀ m, (ordA m).Perm m) ∧ (∀ m, (ordR m).Perm m) ∧ l.Perm (e.disclosures.map (·.2)) ∧
    sdText e = marshalWithDisclosure ordA ordR (some (e.jwt, e.holderBinding, l)) none discloseAll

end Spec

section
variable (env : PEnv)

/-- The text that is written when everything is disclosed. -/
theorem disclose_all_text (ordA ordR : NameMap → NameMap) (jwt hb : String) (l : List Disc) :
    marshalWithDisclosure ordA ordR (some (jwt, hb, l)) none discloseAll =
      some (SDJWT.Presentation.serialize ⟨jwt, l.map (·.disclosure), hb⟩) := rfl

/-- The text of all disclosures is read as the same credential. -/
theorem sd_all_read {vc : PCred env.T} {e : JwtEnvelope} {ds : List String} (hor : SdOrigin env vc e ds)
    {a : Hash} (ha : vc.contents.sdAlg = some a) (hs : SdSetting env vc) {l : List Disc}
    (hl : l.Perm (e.disclosures.map (·.2))) (hne : e.disclosures ≠ [] ∨ e.holderBinding ≠ "")
    (ht : TokenText env (SDJWT.Presentation.serialize ⟨e.jwt, l.map (·.disclosure), e.holderBinding⟩)) :
    ∃ dm, (∀ d, get? dm d = get? e.disclosures d) ∧ ∀ o,
      parseJSON env o (SDJWT.Presentation.serialize ⟨e.jwt, l.map (·.disclosure), e.holderBinding⟩) =
        .ok ⟨vc.json, vc.contents, vc.proofs, some ⟨e.jwt, e.headers, dm, e.holderBinding⟩, none⟩ := by
  have hcodes : ∀ s, s ∈ l.map (·.disclosure) ↔ ∃ d c, get? e.disclosures d = some c ∧ c.disclosure = s := by
    intro s
    rw [List.mem_map]
    constructor
    · rintro ⟨c, k1, k2⟩
      obtain ⟨d, hd⟩ := (values_get (origin_wf env hor hs.order) hl c).1 k1
      exact ⟨d, c, hd, k2⟩
    · rintro ⟨d, c, k1, k2⟩
      exact ⟨c, (values_get (origin_wf env hor hs.order) hl c).2 ⟨d, k1⟩, k2⟩
  have hc : FromTable e.disclosures (l.map (·.disclosure)) := fun s hs' => (hcodes s).1 hs'
  have hcl := table_clean env hor ha hc hs.decode hs.order
  have hnil : l.map (·.disclosure) = [] ↔ e.disclosures = [] := by
    rw [List.map_eq_nil_iff]
    constructor
    · rintro rfl
      have := hl.length_eq
      simp only [List.length_nil, List.length_map] at this
      exact List.eq_nil_of_length_eq_zero this.symm
    · intro h
      rw [h] at hl
      simpa using hl
  have hne' : l.map (·.disclosure) ≠ [] ∨ e.holderBinding ≠ "" := by
    rcases hne with h | h
    · exact Or.inl (fun hx => h (hnil.1 hx))
    · exact Or.inr h
  have hval := (validate_chosen env hs.decode hs.order hs.upper hor ha hs.json hs.alg hc).2
    (all_committed env hor ha hs hcodes)
  have hpd : ∃ dm, parseDisclosures env (l.map (·.disclosure)) vc.contents.sdAlg = some dm ∧
      ∀ d, get? dm d = get? e.disclosures d := by
    unfold parseDisclosures
    by_cases hn : l.map (·.disclosure) = []
    · rw [hn, hnil.1 hn]
      exact ⟨[], rfl, fun _ => rfl⟩
    · rw [if_neg (by simpa using hn), ha]
      dsimp only
      obtain ⟨hds, hres⟩ := origin_resolved env hor ha hc hn
      obtain ⟨M', m1, m2⟩ := SDJWT.resolve_same_table hs.decode hs.order hres hcodes
      rw [m1]
      exact ⟨M', rfl, m2⟩
  obtain ⟨dm, h1, h2⟩ := hpd
  exact ⟨dm, h2, fun o => (parseJSON_text env hor hcl hor.hbClean hor.hb hne' ht o _).2 ⟨hval, dm, h1, rfl⟩⟩

end

variable (venv : VEnv)

theorem parseOneCred_sd {o : VpOpts venv} {j : Json} {c : PCred venv.T} {e : JwtEnvelope}
    (h : parseOneCred venv o j = .ok c) (hj : c.jwt = some e) (hsd : c.contents.sdAlg ≠ none) (b : Bool) :
    (∃ ds, SdOrigin venv.toPEnv c e ds) ∧
    (o.disabledProofCheck = false → checkProof venv.toPEnv (credOpts venv o b) c = some c) ∧
    venv.relOK c.contents = true := by
  have key : ∀ a, (∃ ds, SdOrigin venv.toPEnv c e ds) →
      (o.disabledProofCheck = false → checkProof venv.toPEnv (credOpts venv o a) c = some c) →
      ((credOpts venv o a).disableRelRes || venv.relOK c.contents) = true → 
      (∃ ds, SdOrigin venv.toPEnv c e ds) ∧
      (o.disabledProofCheck = false → checkProof venv.toPEnv (credOpts venv o b) c = some c) ∧
      venv.relOK c.contents = true := by
    intro a h1 h2 h3
    exact ⟨h1, fun hd => h2 hd, h3⟩
  unfold parseOneCred at h
  split at h
  · obtain ⟨h1, h2, h3⟩ := parseCredential_sd venv.toPEnv (Res.toOut_ok.1 h) hj hsd
    exact key _ h1 h2 h3
  · have h := Res.toOut_ok.1 h
    unfold parseCredentialJSON at h
    split at h
    · cases h
    · split at h
      · split at h
        · obtain ⟨h1, h2, h3⟩ := parseCredDataURL_sd venv.toPEnv h hj hsd
          exact key _ h1 h2 h3
        · cases h
      · split at h
        · cases h
        · split at h
          · cases h
          · obtain ⟨-, -, h⟩ := Res.bind_ok.1 h
            cases h
            cases hj
  · cases h

/-- **C71**: a parsed SD-JWT credential (with a disclosure or a holder binding) is written with all its
disclosures and its holder binding, bare or enveloped, and reading that gives the credential back. -/
theorem universal_sd (o : VpOpts venv) (j : Json) (c : PCred venv.T) (h : parseOneCred venv o j = .ok c)
    (e : JwtEnvelope) (hj : c.jwt = some e) (a : Hash) (ha : c.contents.sdAlg = some a)
    (hne : e.disclosures ≠ [] ∨ e.holderBinding ≠ "") (hs : SdSetting venv.toPEnv c)
    (hex : String → String) (sdText : JwtEnvelope → Option String) (hw : WritesSd sdText)
    (ht : ∀ text, sdText e = some text → TokenText venv.toPEnv text) :
    ∃ j' c', universalForm hex sdText c = some j' ∧ parseOneCred venv o j' = .ok c' ∧ SameCred c' c := by
  obtain ⟨⟨ds, hor⟩, -, hrel⟩ := parseOneCred_sd venv h hj (by rw [ha]; simp) true
  have hck := fun b => (parseOneCred_sd venv h hj (by rw [ha]; simp) b).2.1
  obtain ⟨ordA, ordR, l, -, -, hl, htxt⟩ := hw e
  rw [disclose_all_text] at htxt
  have htok := ht _ htxt
  obtain ⟨dm, hdm, hparse⟩ := sd_all_read venv.toPEnv hor ha hs hl hne htok
  generalize hst : SDJWT.Presentation.serialize ⟨e.jwt, l.map (·.disclosure), e.holderBinding⟩ = st at htxt htok hparse
  generalize hce : (⟨c.json, c.contents, c.proofs, some ⟨e.jwt, e.headers, dm, e.holderBinding⟩, none⟩ :
    PCred venv.T) = c' at hparse
  have hwith : ∀ b, parseWith venv.toPEnv (parseJSON venv.toPEnv) (credOpts venv o b) st = .ok c' := by
    intro b
    refine parseWith_jwt_of venv.toPEnv (hparse _) (fun hd => ?_) ?_
    · exact checkProof_jwt_congr venv.toPEnv (e' := ⟨e.jwt, e.headers, dm, e.holderBinding⟩) (hck b hd)
        (by rw [← hce]) hj (by rw [← hce]) rfl
    · rw [← hce]
      exact hrel
  refine ⟨toEnveloped c (if e.disclosures.isEmpty then "application/vc-ld+jwt" else "application/vc-ld+sd-jwt") st,
    c', ?_, ?_, ?_⟩
  · unfold universalForm
    rw [hor.cwt, hj]; dsimp only
    rw [ha, htxt]
    rfl
  · unfold toEnveloped
    split
    · unfold parseOneCred
      dsimp only
      rw [Res.toOut_ok, parseCredential_text venv.toPEnv htok.notObj (by rw [hparse]; intro hx; cases hx)]
      exact hwith false
    · rw [envelope_parsed, Res.toOut_ok]
      unfold parseCredDataURL
      split
      · rename_i hx
        exfalso
        split at hx
        · rw [dataURL_roundtrip _ _ _ (Or.inl (by decide)) (by decide) (by decide) (by decide)] at hx
          cases hx
        · rw [dataURL_roundtrip _ _ _ (Or.inl (by decide)) (by decide) (by decide) (by decide)] at hx
          cases hx
      · rename_i m x d hx
        split at hx
        · rw [dataURL_roundtrip _ _ _ (Or.inl (by decide)) (by decide) (by decide) (by decide)] at hx
          simp only [Option.some.injEq, Prod.mk.injEq] at hx
          obtain ⟨rfl, -, rfl⟩ := hx
          rw [if_pos (Or.inl rfl)]
          exact hwith true
        · rw [dataURL_roundtrip _ _ _ (Or.inl (by decide)) (by decide) (by decide) (by decide)] at hx
          simp only [Option.some.injEq, Prod.mk.injEq] at hx
          obtain ⟨rfl, -, rfl⟩ := hx
          rw [if_pos (Or.inr rfl)]
          exact hwith true
  · rw [← hce]
    refine ⟨rfl, rfl, Or.inr ⟨_, e, rfl, hj, rfl, rfl, rfl, hdm⟩, hor.cwt.symm, fun _ _ => rfl, fun hn => ?_⟩
    rw [hj] at hn
    cases hn

end VC.Vfy
