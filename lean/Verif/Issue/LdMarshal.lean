import Verif.Issue.Marshal
import Verif.LDP.AttachFields
/-!
# Adding a proof, writing the credential and parsing it (C106)

`AddLinkedDataProof` or `AddDataIntegrityProof` (`Verif.LDP.Attach`), then `MarshalJSON`
(`Verif.Issue.Marshal`), then `ParseCredential` (`Verif.Verifiable.Parse`).
-/

namespace VC.Iss

open GoMap VC.Vfy VC.Vfy.Spec
open VC.Proof (Bytes LdProof)
open VC.LDP (LdChecker Creator PCtx DICtx addToCred addDIToCred mapContext Accepting)
open VC.LDP.Spec (InSync ProofLib Entries)

namespace Spec

/-- The two views of one proof that did-go read: the parser's and the one of `Verif.LDP`. -/
structure SamePrf {T : Type} (env : PEnv) (ld : LDP.Env T) (k : LdChecker) (drop : Bool) (p : LDP.Prf T)
    (q : LdPrf) : Prop where
  view : q.view = ⟨p.type, ld.publicKeyID p, p.nonce⟩
  data : ∀ doc, env.verifyData doc q = ld.verifyData (k.canon p.type drop) (k.digest p.type) doc p
  proofValue : p.repr = .proofValue → env.verifyValue q = some p.proofValue
  jws : p.repr = .jws → env.verifyValue q = ld.jwtSignature p.jws
  other : ∀ n, p.repr = .other n → env.verifyValue q = none

/-- The parser's linked-data library is the one of `ld`, used with the suites of the checker `k`. -/
structure SameLib {T : Type} (env : PEnv) (o : ParseOpts env) (ld : LDP.Env T) (k : LdChecker)
    (drop : Bool) : Prop where
  checker : ∃ pc, o.ldChecker = some pc ∧ ∀ p i msg sig, pc p i msg sig = k.check p i msg sig
  read : ∀ doc ps, ld.readProofs doc = some ps →
    ∃ qs, env.ldProofs doc = some qs ∧ List.Forall₂ (SamePrf env ld k drop) ps qs

/-- did-go's `AddProof` writes the type of the proof. -/
def WritesType {T : Type} (ld : LDP.Env T) : Prop := ∀ doc p doc' l, Entries (get? doc "proof") l →
  ld.addProof doc p = some doc' → ∀ o, get? doc' "proof" = some (.arr (l ++ [.obj o])) →
  get? o "type" = some (.str p.type)

/-- The parsed credential is the one that was written. -/
structure Written {T : Type} (r vc : PCred T) : Prop where
  contents : r.contents = vc.contents
  proofs : r.proofs = vc.proofs
  noJwt : r.jwt = none
  noCwt : r.cwt = none
  json : ∀ k, k ≠ "proof" → get? r.json k = get? vc.json k
  proof : get? r.json "proof" = Compact (vc.proofs.map .obj)

end Spec

open Spec

/-- What the linked-data checker accepted, the parser accepts. -/
theorem same_verified {T : Type} {env : PEnv} {o : ParseOpts env} {ld : LDP.Env T} {k : LdChecker}
    {drop : Bool} (hs : SameLib env o ld k drop) {i : String} {doc : JObj}
    (h : LDP.verifyObject ld k drop (some i) doc = true) :
    ∃ pc qs, o.ldChecker = some pc ∧ env.ldProofs doc = some qs ∧ ∀ q ∈ qs, LdSigned env pc i doc q := by
  unfold LDP.verifyObject at h
  cases hr : ld.readProofs doc with
  | none => rw [hr] at h; cases h
  | some ps =>
    rw [hr] at h
    dsimp only at h
    obtain ⟨pc, hc, hpc⟩ := hs.checker
    obtain ⟨qs, hq, hf⟩ := hs.read _ _ hr
    refine ⟨pc, qs, hc, hq, ?_⟩
    clear hq hr
    induction hf with
    | nil => intro q hq; cases hq
    | @cons p q ps qs hpq hf ih =>
      rw [List.all_cons, Bool.and_eq_true] at h
      intro x hx
      rcases List.mem_cons.1 hx with rfl | hx
      · have h1 := h.1
        unfold LDP.verifyOne at h1
        cases hm : ld.verifyData (k.canon p.type drop) (k.digest p.type) doc p with
        | none => rw [hm] at h1; cases h1
        | some msg =>
          rw [hm] at h1
          dsimp only at h1
          cases hv : LDP.verifyValue ld p with
          | none => rw [hv] at h1; cases h1
          | some sig =>
            rw [hv] at h1
            simp only [LDP.expectedIssuer] at h1
            refine ⟨msg, sig, by rw [hpq.data, hm], ?_, by rw [hpq.view, hpc]; exact h1⟩
            unfold LDP.verifyValue at hv
            cases hp : p.repr with
            | proofValue => rw [hp] at hv; rw [hpq.proofValue hp]; exact hv
            | jws => rw [hp] at hv; rw [hpq.jws hp]; exact hv
            | other n => rw [hp] at hv; cases hv
      · exact ih h.2 x hx

theorem proofMember_raw {ps : List JObj} {doc : JObj} (hn : ps ≠ [])
    (h : get? doc "proof" = some (proofsToRaw ps)) : ProofMember doc ps := by
  rw [proofsToRaw_compact _ hn] at h
  match ps, hn with
  | [p], _ => exact Or.inl ⟨p, h, rfl⟩
  | a :: b :: l, _ => exact Or.inr h

/-- Reading back a written credential whose fields and JSON agree. -/
theorem written_parses {env : PEnv} {o : ParseOpts env} (ho : o.externalContext = []) {vc : PCred env.T}
    (hnp : vc.proofs ≠ []) (hj : vc.jwt = none) (hw : vc.cwt = none)
    (hc : parseContents env.toCEnv (ofWire vc.json) false = some vc.contents) (enc : Json → String)
    (hex : String → String) (sdText : JwtEnvelope → Option String) (hb : NoBrace env)
    (ht : ObjText env enc (toRawJSON vc)) (hjwt : NoJwt vc.json) (he : ¬ IsEnvelope vc.json)
    (hsec : o.disabledProofCheck = false → Secured env o ⟨toRawJSON vc, vc.contents, vc.proofs, none, none⟩)
    (hval : o.disableValidation = false → ∀ r, Written r vc → Valid env o r)
    (hrel : o.disableRelRes = false → env.relOK vc.contents = true) :
    ∃ s r, marshalJSONCred enc hex sdText vc = some s ∧ parseCredential env o s = .ok r ∧ Written r vc := by
  obtain ⟨l1, l2, -⟩ := toRawJSON_lookup vc
  obtain ⟨l, hl⟩ := ht.brace
  have hW : Written (⟨toRawJSON vc, vc.contents, vc.proofs, none, none⟩ : PCred env.T) vc :=
    ⟨rfl, rfl, rfl, rfl, l1, by rw [show _ = _ from l2 hnp, proofsToRaw_compact _ hnp]⟩
  refine ⟨enc (.obj (toRawJSON vc)), ⟨toRawJSON vc, vc.contents, vc.proofs, none, none⟩, ?_, ?_, hW⟩
  · unfold marshalJSONCred universalForm
    rw [hw, hj]
    rfl
  · rw [parseCredential_object env o ho hb hl ht.read (fun s hs => hjwt s (by rw [← l1 _ (by decide)]; exact hs))
      (fun h => he (by unfold IsEnvelope at h ⊢; rw [← l1 _ (by decide)]; exact h))]
    exact ⟨finishJSON_plain env o (toRaw_contents env (fun _ _ => rfl) hc) (toRaw_proofs (fun h => absurd h hnp)),
      fun hv => hval hv _ hW, hsec, hrel⟩

/-- **C106** (linked data): a credential with an issuer, whose contents are those of its JSON, to which
`AddLinkedDataProof` added a proof, is written by `MarshalJSON` and parsed by `ParseCredential`, with
the proof check on, as a credential with the same contents, the same further members and exactly the
earlier proofs followed by the new one.

The checker accepts what the creator signs under the issuer (`ha`) and accepted the earlier proofs
(`hold`); `hval`: the written credential is valid; `hjwt`, `he`: it is not taken for an envelope. -/
theorem ld_add_then_parse {T : Type} {env : PEnv} {o : ParseOpts env} (ho : o.externalContext = [])
    {ld : LDP.Env T} (lib : ProofLib ld) (hwt : WritesType ld) {k : LdChecker} {drop : Bool}
    (hsl : SameLib env o ld k drop) {c : Creator} {ctx : PCtx T} {vc vc' : PCred env.T}
    (hj : vc.jwt = none) (hw : vc.cwt = none) (hsync : InSync vc)
    (hc : parseContents env.toCEnv (ofWire vc.json) false = some vc.contents)
    (h : addToCred ld c ctx vc = (vc', true)) {i : Issuer} (hi : vc.contents.issuer = some i)
    (ha : Accepting ld c (mapContext ctx) vc.json k drop (some i.id))
    (hold : vc.proofs = [] ∨ LDP.verifyObject ld k drop (some i.id) (toRawJSON vc) = true)
    (hty : ctx.sigType ≠ "DataIntegrityProof") (hfirst : ¬ DIFirst vc.proofs) (enc : Json → String)
    (hex : String → String) (sdText : JwtEnvelope → Option String) (hb : NoBrace env)
    (ht : ObjText env enc (toRawJSON vc')) (hjwt : NoJwt vc.json) (he : ¬ IsEnvelope vc.json)
    (hval : o.disableValidation = false → ∀ r, Written r vc' → Valid env o r)
    (hrel : o.disableRelRes = false → env.relOK vc.contents = true) :
    ∃ s r p, marshalJSONCred enc hex sdText vc' = some s ∧ parseCredential env o s = .ok r ∧
      Written r vc' ∧ vc'.contents = vc.contents ∧ vc'.proofs = vc.proofs ++ [p] ∧
      get? p "type" = some (.str ctx.sigType) ∧ ∀ k, k ≠ "proof" → get? vc'.json k = get? vc.json k := by
  obtain ⟨p, p1, p2, p3, p4, p5, p6⟩ := LDP.credential_adds_one ld lib hsync h
  have hne : vc'.proofs ≠ [] := by rw [p1]; simp
  have hptype : get? p "type" = some (.str ctx.sigType) := by
    obtain ⟨d, q, msg, sig, -, -, q3, -, -, -, q7⟩ := LDP.credential_new_proof ld lib h
    obtain ⟨ob, hob⟩ := lib.entries _ _ _ _ hsync q7
    have e2 : ob = p := by
      have e := p2
      unfold LDP.Spec.InSync at e
      rw [hob, p1] at e
      have e' : Entries (some (Json.arr (vc.proofs.map .obj ++ [.obj ob]))) (vc.proofs.map .obj ++ [.obj ob]) := .array
      have := LDP.entries_unique e e'
      simp at this
      exact this.symm
    rw [← e2, hwt _ _ _ _ hsync q7 ob hob, q3.type]
  have hnd : ¬ DIFirst vc'.proofs := by
    rintro ⟨x, rest, e, ex⟩
    rw [p1] at e
    cases hv : vc.proofs with
    | nil =>
      rw [hv] at e
      cases e
      rw [hptype] at ex
      exact hty (by simpa using ex)
    | cons y l =>
      rw [hv] at e
      cases e
      exact hfirst ⟨x, l, hv, ex⟩
  have hver := LDP.credential_add_then_verify ld lib hsync h ha hold
  obtain ⟨s, r, r1, r2, r3⟩ := written_parses ho hne (p4.trans hj) (p5.trans hw)
    (by
      rw [p3, ← hc]
      apply parse_congr
      intro k _ hk
      rw [get?_ofWire, get?_ofWire, p6 k hk]) enc hex sdText hb ht
    (fun s hs => hjwt s (by rw [← p6 _ (by decide)]; exact hs))
    (fun h => he (by unfold IsEnvelope at h ⊢; rw [← p6 _ (by decide)]; exact h))
    (fun _ => by
      obtain ⟨pc, qs, k1, k2, k3⟩ := same_verified hsl hver
      exact .ld i vc'.proofs pc qs (by rw [p3]; exact hi) rfl rfl
        (proofMember_raw hne ((toRawJSON_lookup vc').2.1 hne)) hnd k1 k2 k3)
    hval (by rw [p3]; exact hrel)
  exact ⟨s, r, p, r1, r2, r3, p3, p1, hptype, p6⟩

/-- **C106** (Data Integrity), partial: a credential without a proof, after `AddDataIntegrityProof`,
written by `MarshalJSON`, is parsed by `ParseCredential`, with the proof check on, as a credential with
the same contents, the same further members, and the new proof.

Missing: credentials that already had a proof (the earlier ones are dropped and the check fails, C86),
and the suite name `eddsa-2022` (C51). -/
theorem di_add_then_parse_partial {env : PEnv} {o : ParseOpts env} (ho : o.externalContext = [])
    {suites vs : GoMap (DI.Suite env.di)} (std : DI.Spec.Standard env.di suites)
    (vstd : DI.Spec.Standard env.di vs) (hz : env.di.isZero env.di.zeroT = true)
    (mb : ∀ b, env.di.mbDecode (env.di.mbEncode b) = some b) {now : env.di.T} {c : DICtx env.di.T}
    {vc vc' : PCred env.T} (hreg : ∀ n, DI.SameFamily n c.suite → (get? vs n).isSome)
    (hkey : ∀ r v pu, (c.purpose ≠ "" ∧ pu = c.purpose) ∨ (c.purpose = "" ∧ pu = "assertionMethod") →
      env.di.resolver = some r → DI.Spec.Resolves r pu c.key v → v.id = c.key ∧ DI.SignsFor env.di c.suite v)
    (hcr : DI.Survives env.di (c.created.getD now)) (hexp : DI.NotExpired env.di (c.expires.getD env.di.zeroT))
    (hs : c.suite ≠ "eddsa-2022") (hp : vc.proofs = []) (hdoc : get? vc.json "proof" = none)
    (h : addDIToCred env.di suites now c vc = some vc')
    (hv : o.diVerifier = some vs) (hpu : o.diPurpose = c.purpose) (hdm : o.diDomain = c.domain)
    (hch : o.diChallenge = c.challenge)
    (hj : vc.jwt = none) (hw : vc.cwt = none)
    (hc : parseContents env.toCEnv (ofWire vc.json) false = some vc.contents)
    {i : Issuer} (hi : vc.contents.issuer = some i) (enc : Json → String)
    (hex : String → String) (sdText : JwtEnvelope → Option String) (hb : NoBrace env)
    (ht : ObjText env enc (toRawJSON vc')) (hjwt : NoJwt vc.json) (he : ¬ IsEnvelope vc.json)
    (hval : o.disableValidation = false → ∀ r, Written r vc' → Valid env o r)
    (hrel : o.disableRelRes = false → env.relOK vc.contents = true) :
    ∃ s r p, marshalJSONCred enc hex sdText vc' = some s ∧ parseCredential env o s = .ok r ∧
      Written r vc' ∧ vc'.contents = vc.contents ∧ vc'.proofs = [p] ∧
      get? p "type" = some (.str "DataIntegrityProof") ∧
      ∀ k, k ≠ "proof" → get? vc'.json k = get? vc.json k := by
  obtain ⟨p, pr, p1, p2, p3⟩ := LDP.di_new_proof std h
  obtain ⟨ps, g1, g2⟩ := Option.map_eq_some_iff.1 (show _ = some vc' from h)
  obtain ⟨p', rfl, -⟩ := LDP.addDI_one g1
  rw [if_neg (by simp)] at g2
  have hpp : p' = p := by
    rw [← g2] at p1
    simpa using p1
  subst hpp
  have hcont : vc'.contents = vc.contents := by rw [← g2]
  have hjson : ∀ k, k ≠ "proof" → get? vc'.json k = get? vc.json k := by
    intro k hk
    rw [← g2]
    exact get?_set_ne _ _ (Ne.symm hk)
  have hptype : get? p' "type" = some (.str "DataIntegrityProof") := by
    obtain ⟨m, hm, hf⟩ := p2.fields
    cases hm
    rcases hf ("type", pr.type) (by simp) with h1 | ⟨h1, -⟩
    · rw [p3.type] at h1; exact h1
    · rw [p3.type] at h1; exact absurd h1 (by decide)
  have hne : vc'.proofs ≠ [] := by rw [p1]; simp
  have hver := LDP.di_add_then_verify_partial std vstd hz mb hreg hkey hcr hexp hs hp hdoc h
  obtain ⟨s, r, r1, r2, r3⟩ := written_parses ho hne (by rw [← g2]; exact hj) (by rw [← g2]; exact hw)
    (by
      rw [hcont, ← hc]
      apply parse_congr
      intro k _ hk
      rw [get?_ofWire, get?_ofWire, hjson k hk]) enc hex sdText hb ht
    (fun s hs => hjwt s (by rw [← hjson _ (by decide)]; exact hs))
    (fun h => he (by unfold IsEnvelope at h ⊢; rw [← hjson _ (by decide)]; exact h))
    (fun _ => .di i vc'.proofs vs (by rw [hcont]; exact hi) rfl rfl
        (proofMember_raw hne ((toRawJSON_lookup vc').2.1 hne)) ⟨p', [], p1, hptype⟩ hv
        (by rw [hpu, hdm, hch]; exact hver))
    hval (by rw [hcont]; exact hrel)
  exact ⟨s, r, p', r1, r2, r3, hcont, p1, hptype, hjson⟩

end VC.Iss
