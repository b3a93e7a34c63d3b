import Verif.LDP.AttachFields
import Verif.LDP.Examples
/-!
# DID documents with Data Integrity proofs (C86, C87)

`AddDIDDataIntegrityProof`, verifiable/did_data_integrity.go:18-54, and `VerifyDIDProof` on its result.
did-go's `JSONBytes` and `ParseDocument` are outside: the document is the JSON object the one writes and
the other reads.
-/

namespace VC.LDP

open GoMap VC.Vfy
open Spec

variable {T : Type} (env : Env T)

/-- `AddDIDDataIntegrityProof`, did_data_integrity.go:18-54: the proofs replace the `proof` member. -/
def addDIToDid (di : DI.Env) (suites : GoMap (DI.Suite di)) (now : di.T) (c : DICtx di.T) (doc : JObj) :
    Option JObj :=
  (addDI di suites now c doc).map fun ps => set doc "proof" (proofsToRaw ps)

/-- The Data Integrity check `VerifyDIDProof` makes, did_ldp.go:112-135 with
data_integrity_proof.go:131-146. -/
def didDICheck (di : DI.Env) (vs : GoMap (DI.Suite di)) (purpose domain challenge : String) (doc : JObj) : Bool :=
  match (DI.verifyProof di vs doc (DI.freshOpts di purpose domain challenge)).1 with
  | .ok _ => true
  | .error _ => false

/-- **C86** (DID documents, Data Integrity): the document gets one proof with the fields asked for, made for
the document as it was; no other member changes. An earlier proof is lost. -/
theorem did_di_added {di : DI.Env} {suites : GoMap (DI.Suite di)} (std : DI.Spec.Standard di suites)
    {now : di.T} {c : DICtx di.T} {doc doc' : JObj} (h : addDIToDid di suites now c doc = some doc') :
    ∃ o p, get? doc' "proof" = some (.obj o) ∧ DI.Spec.IsProof (.obj o) p ∧ DIRequested di now c p ∧
      (∀ k, k ≠ "proof" → get? doc' k = get? doc k) ∧
      DI.addProof di suites doc (diOpts di now c) = .ok doc' := by
  unfold addDIToDid at h
  obtain ⟨ps, h1, h2⟩ := Option.map_eq_some_iff.1 h
  obtain ⟨o, rfl, ho⟩ := addDI_one h1
  have hv : addDIToCred (S := Unit) di suites now c ⟨doc, ldCred.contents, [], none, none⟩ =
      some ⟨set doc "proof" (.obj o), ldCred.contents, [o], none, none⟩ := by
    unfold addDIToCred
    have : toRawJSON (⟨doc, ldCred.contents, [], none, none⟩ : PCred Unit) = doc := rfl
    rw [this, h1]
    rfl
  obtain ⟨o', p, e1, e2, e3⟩ := di_new_proof std hv
  have e1 := (List.cons.inj e1).1
  subst e1
  rw [← h2]
  refine ⟨o, p, get?_set_self _ _ _, e2, e3, ?_, ho⟩
  intro k hk
  exact get?_set_ne _ _ (Ne.symm hk)

/-- **C86, C87** (DID documents, Data Integrity): a document without a proof, after
`AddDIDDataIntegrityProof`, passes `VerifyDIDProof`, under the assumptions of C51. -/
theorem did_di_add_then_verify_partial {di : DI.Env} {suites vs : GoMap (DI.Suite di)}
    (std : DI.Spec.Standard di suites) (vstd : DI.Spec.Standard di vs) (hz : di.isZero di.zeroT = true)
    (mb : ∀ b, di.mbDecode (di.mbEncode b) = some b) {now : di.T} {c : DICtx di.T} {doc doc' : JObj}
    (hreg : ∀ n, DI.SameFamily n c.suite → (get? vs n).isSome)
    (hkey : ∀ r v pu, (c.purpose ≠ "" ∧ pu = c.purpose) ∨ (c.purpose = "" ∧ pu = "assertionMethod") →
      di.resolver = some r → DI.Spec.Resolves r pu c.key v → v.id = c.key ∧ DI.SignsFor di c.suite v)
    (hcr : DI.Survives di (c.created.getD now)) (hex : DI.NotExpired di (c.expires.getD di.zeroT))
    (hs : c.suite ≠ "eddsa-2022") (hdoc : get? doc "proof" = none) (k : Option LdChecker) (drop : Bool)
    (h : addDIToDid di suites now c doc = some doc') :
    verifyDID env ⟨k, didDICheck di vs c.purpose c.domain c.challenge, drop, id⟩ doc' = true := by
  obtain ⟨o, p, h1, h2, h3, -, h5⟩ := did_di_added std h
  have hd : doc' = set doc "proof" (.obj o) := by
    unfold addDIToDid at h
    obtain ⟨ps, g1, g2⟩ := Option.map_eq_some_iff.1 h
    obtain ⟨o', rfl, go⟩ := addDI_one g1
    rw [← g2, get?_set_self] at h1
    rw [← g2, Option.some.inj h1]
  have hv : (DI.verifyProof di vs doc' (DI.freshOpts di c.purpose c.domain c.challenge)).1 = .ok () :=
    DI.sign_verify_roundtrip_partial di (o := diOpts di now c) std vstd hz mb rfl rfl hreg
    (fun r v hr hv => hkey r v _ (by
      by_cases e : c.purpose = ""
      · right; simp [diOpts, e]
      · left; simp [diOpts, e]) hr hv) hcr hex hdoc ⟨rfl, rfl, rfl, rfl, rfl, rfl, rfl, rfl, .inr ⟨rfl, hs⟩⟩ h5
  have ht : isDataIntegrity [o] = true := by
    have h6 : p.type = "DataIntegrityProof" := h3.type
    obtain ⟨m, hm, hf⟩ := h2.fields
    have hm := Json.obj.inj hm
    subst hm
    rcases hf ("type", p.type) (by simp) with g | ⟨g, -⟩
    · dsimp only at g
      simp only [isDataIntegrity, g, h6, beq_self_eq_true]
    · dsimp only at g
      rw [h6] at g
      exact absurd g (by decide)
  unfold verifyDID JObj.at
  rw [h1]
  simp only [Option.getD_some, getProofs, ht, if_true, id]
  unfold didDICheck
  rw [hv]

/-! ## Examples -/

/-- A DID document of `did:b`. -/
def ddDoc : JObj := [("id", .str "did:b"), ("extra", .str "x")]

/-- The hypotheses of `did_di_add_then_verify_partial` are met; and **C87 fails** for Data Integrity as well:
the document of `did:b` passes with a proof of `did:a`. -/
theorem did_di_other_signer : ∃ doc' o, addDIToDid DI.exE DI.exSuites (5 : Int) ldDI ddDoc = some doc' ∧
    get? doc' "id" = some (.str "did:b") ∧ get? doc' "proof" = some (.obj o) ∧
    get? o "verificationMethod" = some (.str "did:a#k") ∧
    verifyDID ldEnv ⟨none, didDICheck DI.exE DI.exSuites "" "" "", false, id⟩ doc' = true := by
  have h : ∃ doc' o, addDIToDid DI.exE DI.exSuites (5 : Int) ldDI ddDoc = some doc' ∧
    get? doc' "id" = some (.str "did:b") ∧ get? doc' "proof" = some (.obj o) ∧
    get? o "verificationMethod" = some (.str "did:a#k") := ⟨_, _, rfl, rfl, rfl, rfl⟩
  obtain ⟨doc', o, h, h1, h2, h3⟩ := h
  refine ⟨doc', o, h, h1, h2, h3, ?_⟩
  refine did_di_add_then_verify_partial ldEnv DI.exSuites_std DI.exSuites_std rfl DI.exE_mb (c := ldDI) ?_ ?_
    ⟨by decide, (5 : Int), rfl, rfl, rfl⟩ (Or.inr ⟨⟨by decide, (5 : Int), rfl, rfl, rfl⟩, ?_⟩) (by decide) rfl none
    false h
  · intro n hn
    rcases hn with ⟨hn, _⟩ | ⟨_, hn⟩
    · rcases hn with rfl | rfl <;> rfl
    · exact absurd hn (by decide)
  · intro r v pu hpu hr hv
    cases hr
    have hv' := (DI.lookupVM_iff _ _ _ _).2 hv
    rcases hpu with ⟨h0, _⟩ | ⟨_, hp⟩
    · exact absurd rfl h0
    · subst hp
      have hl : DI.lookupVM DI.exResolve "assertionMethod" "did:a#k" = some ⟨"did:a#k", some ⟨"P-256", [7]⟩, []⟩ := rfl
      rw [show ldDI.key = "did:a#k" from rfl, hl] at hv'
      cases hv'
      refine ⟨rfl, ?_⟩
      intro pk ha msg sig hk hs
      have hk := (DI.ecdsaKey_iff DI.exE "ecdsa-rdfc-2019" (Or.inr rfl) _ _ _).2 hk
      cases hk
      have hs : DI.exSign (some ⟨"P-256", [7]⟩) msg = some sig := hs
      cases hs
      show ((7 :: msg) == _) = true
      exact beq_self_eq_true _
  · intro t' ht
    cases ht
    rfl

end VC.LDP
