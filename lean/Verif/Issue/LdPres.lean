import Verif.Issue.LdMarshal
import Verif.Verifiable.PresMarshalMain
/-!
# Adding a proof to a presentation, writing it and parsing it (C107)

`AddLinkedDataProof` or `AddDataIntegrityProof` of a presentation (`Verif.LDP.Attach`), then
`MarshalJSON` (`Verif.Verifiable.PresMarshal`), then `ParsePresentation`
(`Verif.Verifiable.Presentation`).
-/

namespace VC.Iss

open GoMap VC.Vfy VC.Vfy.Spec
open VC.Proof (Bytes LdProof)
open VC.LDP (LdChecker Creator PCtx DICtx addToPres addDIToPres mapContext Accepting)
open VC.LDP.Spec (ProofLib Entries)

namespace Spec

/-- The presentation parser's linked-data library is the one of `ld`, used with the suites of `k`. -/
structure SameLibPres {T : Type} (env : VEnv) (o : VpOpts env) (ld : LDP.Env T) (k : LdChecker)
    (drop : Bool) : Prop where
  checker : ∃ cb, o.checker = some cb ∧ ∀ p i msg sig, cb.ld p i msg sig = k.check p i msg sig
  read : ∀ doc ps, ld.readProofs doc = some ps →
    ∃ qs, env.ldProofs doc = some qs ∧ List.Forall₂ (SamePrf env.toPEnv ld k drop) ps qs

/-- The text of the presentation is the one `encoding/json` writes for an object, and is read as it. -/
structure PresText (env : VEnv) (enc : JObj → String) (doc : JObj) : Prop where
  read : env.decodeObj (enc doc) = some doc
  brace : ∃ l, (enc doc).toList = '{' :: l

end Spec

open Spec

/-- What the linked-data checker accepted without a given issuer, the presentation parser accepts. -/
theorem same_self_verified {T : Type} {env : VEnv} {o : VpOpts env} {ld : LDP.Env T} {k : LdChecker}
    {drop : Bool} (hs : SameLibPres env o ld k drop) {doc : JObj}
    (h : LDP.verifyObject ld k drop none doc = true) :
    ∃ cb qs, o.checker = some cb ∧ env.ldProofs doc = some qs ∧
      qs.all (checkLDOne env.toPEnv cb.ld none doc) = true := by
  unfold LDP.verifyObject at h
  cases hr : ld.readProofs doc with
  | none => rw [hr] at h; cases h
  | some ps =>
    rw [hr] at h
    dsimp only at h
    obtain ⟨pc, hc, hpc⟩ := hs.checker
    obtain ⟨qs, hq, hf⟩ := hs.read _ _ hr
    refine ⟨pc, qs, hc, hq, ?_⟩
    clear hq hr
    induction hf with
    | nil => rfl
    | @cons p q ps qs hpq hf ih =>
      rw [List.all_cons, Bool.and_eq_true] at h ⊢
      refine ⟨?_, ih h.2⟩
      have h1 := h.1
      unfold LDP.verifyOne at h1
      cases hm : ld.verifyData (k.canon p.type drop) (k.digest p.type) doc p with
      | none => rw [hm] at h1; cases h1
      | some msg =>
        rw [hm] at h1
        dsimp only at h1
        cases hv : LDP.verifyValue ld p with
        | none => rw [hv] at h1; cases h1
        | some sig =>
          rw [hv] at h1
          simp only [LDP.expectedIssuer] at h1
          have hval : env.verifyValue q = some sig := by
            unfold LDP.verifyValue at hv
            cases hp : p.repr with
            | proofValue => rw [hp] at hv; rw [hpq.proofValue hp]; exact hv
            | jws => rw [hp] at hv; rw [hpq.jws hp]; exact hv
            | other n => rw [hp] at hv; cases hv
          unfold checkLDOne
          rw [hpq.data, hm]
          dsimp only
          rw [hval]
          dsimp only
          rw [hpq.view]
          dsimp only
          cases hk : ld.publicKeyID p with
          | none => rw [hk] at h1; cases h1
          | some kid =>
            rw [hk] at h1
            simp only [Option.map_some] at h1
            dsimp only
            rw [hpc]
            exact h1

theorem del_absent {m : JObj} {k : String} (h : get? m k = none) : del m k = m := by
  unfold GoMap.del
  rw [List.filter_eq_self]
  intro p hp
  have := get?_eq_none_iff.1 h
  have hk : p.1 ∈ keys m := List.mem_map.2 ⟨p, hp, rfl⟩
  simp only [Bool.not_eq_true', beq_eq_false_iff_ne, ne_eq]
  intro e
  exact this (e ▸ hk)

/-- Reading back a written presentation that has a proof. -/
theorem written_pres_parses {env : VEnv} {o : VpOpts env} {vp : Pres env.T}
    (hnp : vp.proofs ≠ []) (hj : vp.jwt = "") (hw : vp.cwt = none) (hcl : CustomClean vp)
    (hcc : vp.customContext = []) (hx : vp.context ≠ []) (ht : vp.types ≠ [])
    (he : "EnvelopedVerifiablePresentation" ∉ vp.types)
    (enc : JObj → String) (hex : String → String) (sdText : JwtEnvelope → Option String)
    (hparsed : ∀ c ∈ vp.credentials, ∃ j, parseOneCred env o j = .ok c)
    (hr : ∀ c ∈ vp.credentials, Rewritable env hex sdText c)
    (hb : NoBrace env.toPEnv)
    (htext : ∀ doc, rawPres (universalForm hex sdText) vp = some doc → PresText env enc doc)
    (hown : ∀ doc, rawPres (universalForm hex sdText) vp = some doc → checkOwnProof env o doc = true)
    (hrule : o.checkHolder = true → HolderRule env vp.proofs vp.credentials vp.holder)
    (hrel : o.checkRelRes = true → env.relAllOK (vp.credentials.map (·.contents)) = true)
    (hvc : o.requireVC = true → vp.credentials ≠ [])
    (hval : ∀ doc, rawPres (universalForm hex sdText) vp = some doc → validateVP env o doc = true) :
    ∃ s vp', marshalPres enc hex (universalForm hex sdText) vp = some s ∧
      parsePresentation env o s = .ok vp' ∧ SamePres SameCred vp' vp ∧ vp'.jwt = "" ∧ vp'.cwt = none := by
  have hl : ∀ l : List (PCred env.T), (∀ c ∈ l, ∃ j, parseOneCred env o j = .ok c) →
      ∃ js, List.Forall₂ (fun c j => parseOneCred env o j = .ok c) l js := by
    intro l hl
    induction l with
    | nil => exact ⟨[], .nil⟩
    | cons c l ih =>
      obtain ⟨js, h1⟩ := ih (fun c hc => hl c (List.mem_cons_of_mem _ hc))
      obtain ⟨j, h2⟩ := hl c List.mem_cons_self
      exact ⟨j :: js, .cons h2 h1⟩
  obtain ⟨l, hl⟩ := hl _ hparsed
  obtain ⟨js, cs, u1, u2, u3⟩ := universals_read env o hex sdText l vp.credentials hl hr
  have k1 : rawPres (universalForm hex sdText) vp =
      some (JsonUtil.addCustomFields (rawFixed vp js) vp.custom) := by
    unfold rawPres; rw [u1]; rfl
  generalize JsonUtil.addCustomFields (rawFixed vp js) vp.custom = raw at k1
  have htx := htext raw k1
  have hd := htx.read
  obtain ⟨tl, hbr⟩ := htx.brace
  obtain ⟨js', u1', hdoc⟩ := marshal_document _ vp hcl raw k1
  rw [u1] at u1'
  have u1' := Option.some.inj u1'
  subst u1'
  have hch : executeChecks env o vp.proofs cs vp.holder = true := by
    rw [executeChecks_same env o vp.proofs cs vp.credentials vp.holder
      (forall2_imp u3 (fun _ _ hab => ⟨hab.contents, hab.proofs⟩))]
    unfold executeChecks
    rw [Bool.and_eq_true]
    constructor
    · cases e : o.checkHolder with
      | false => rfl
      | true => rw [(holder_rule_iff env _ _ _).2 (hrule e)]; rfl
    · cases e : o.checkRelRes with
      | false => rfl
      | true => rw [hrel e]; rfl
  obtain ⟨custom, q1, q2⟩ := newPres_doc env o vp js raw hdoc hx ht hcl cs u2 hch
  have hn := brace_notJWS env.toPEnv hb hbr
  refine ⟨enc raw, ⟨vp.context, [], vp.id, vp.types, cs, vp.holder, vp.proofs, "", none, custom⟩, ?_, ?_, ?_,
    rfl, rfl⟩
  · unfold marshalPres marshalPlain
    have : cwtRaw vp = none := by unfold cwtRaw; rw [hw]
    rw [hj, this, k1]
    simp
  · have hany : parsePresAny env o (enc raw) = .ok ⟨raw, "", none⟩ := by
      unfold parsePresAny
      rw [doc_not_envelope env o (enc raw) vp js raw hd hdoc he]
      show orElseOut (parsePresJSON env o (enc raw)) (parsePresCWT env (enc raw)) = .ok ⟨raw, "", none⟩
      have : parsePresJSON env o (enc raw) = .ok ⟨raw, "", none⟩ := by
        unfold parsePresJSON
        rw [brace_unQuote hbr, hn.1, hn.2, hd]
        simp only [Bool.false_eq_true, if_false]
        rw [hown raw k1]
        simp only [Bool.not_true, Bool.false_eq_true, if_false]
        rw [if_neg]
        intro hc
        rw [Bool.and_eq_true] at hc
        have hc2 := hc.2
        unfold proofMissing JObj.at at hc2
        rw [hdoc.proof] at hc2
        match hps : vp.proofs with
        | [] => exact hnp hps
        | [p] => rw [hps] at hc2; cases hc2
        | a :: b :: t => rw [hps] at hc2; cases hc2
      rw [this]; rfl
    unfold parsePresentation
    rw [hany]
    show (if (!validateVP env o raw) = true then _ else _) = _
    rw [hval raw k1]
    simp only [Bool.not_true, Bool.false_eq_true, if_false]
    rw [q2]
    show (if _ then _ else _) = _
    rw [if_neg]
    intro hc
    rw [Bool.and_eq_true] at hc
    have hne := hvc hc.1
    have hce : cs = [] := by simpa using hc.2
    rw [hce] at u3
    cases hcr : vp.credentials with
    | nil => exact hne hcr
    | cons a t => rw [hcr] at u3; cases u3
  · exact ⟨rfl, hcc.symm, rfl, rfl, u3, rfl, rfl, q1⟩

/-- **C107** (linked data): a presentation to which `AddLinkedDataProof` added a proof is written by
`MarshalJSON` and parsed by `ParsePresentation`, with the proof check on, as the same presentation:
same context, id, types, holder, custom fields and credentials, and exactly the earlier proofs
followed by the new one.

The checker accepts what the creator signs (`ha`) and accepted the earlier proofs (`hold`); each
enclosed credential was parsed and can be written (`hparsed`, `hr`); `hval`: the document is valid. -/
theorem ld_add_then_parse_pres {T : Type} {env : VEnv} {o : VpOpts env} {ld : LDP.Env T}
    (lib : ProofLib ld) (hwt : WritesType ld) {k : LdChecker} {drop : Bool}
    (hsl : SameLibPres env o ld k drop) {c : Creator} {ctx : PCtx T} {vp vp' : Pres env.T}
    (hj : vp.jwt = "") (hw : vp.cwt = none) (hcl : CustomClean vp) (hcj : get? vp.custom "jwt" = none)
    (hcc : vp.customContext = []) (hx : vp.context ≠ []) (ht : vp.types ≠ [])
    (he : "EnvelopedVerifiablePresentation" ∉ vp.types)
    (enc : JObj → String) (hex : String → String) (sdText : JwtEnvelope → Option String)
    (h : addToPres ld (universalForm hex sdText) c ctx vp = some vp') {raw : JObj}
    (hraw : rawPres (universalForm hex sdText) vp = some raw)
    (ha : Accepting ld c (mapContext ctx) raw k drop none)
    (hold : vp.proofs = [] ∨ LDP.verifyObject ld k drop none raw = true)
    (hty : ctx.sigType ≠ "DataIntegrityProof") (hfirst : ¬ DIFirst vp.proofs)
    (hparsed : ∀ c ∈ vp.credentials, ∃ j, parseOneCred env o j = .ok c)
    (hr : ∀ c ∈ vp.credentials, Rewritable env hex sdText c) (hb : NoBrace env.toPEnv)
    (htext : ∀ doc, rawPres (universalForm hex sdText) vp' = some doc → PresText env enc doc)
    (hrule : o.checkHolder = true → HolderRule env vp'.proofs vp.credentials vp.holder)
    (hrel : o.checkRelRes = true → env.relAllOK (vp.credentials.map (·.contents)) = true)
    (hvc : o.requireVC = true → vp.credentials ≠ [])
    (hval : ∀ doc, rawPres (universalForm hex sdText) vp' = some doc → validateVP env o doc = true) :
    ∃ s r p, marshalPres enc hex (universalForm hex sdText) vp' = some s ∧
      parsePresentation env o s = .ok r ∧ SamePres SameCred r vp' ∧ r.jwt = "" ∧ r.cwt = none ∧
      vp' = { vp with proofs := vp.proofs ++ [p] } ∧ get? p "type" = some (.str ctx.sigType) := by
  obtain ⟨p, p1⟩ := LDP.presentation_adds_one ld lib hcl h
  have hne : vp'.proofs ≠ [] := by rw [p1]; simp
  obtain ⟨cs, hcs, hdraw⟩ := marshal_document _ vp hcl raw hraw
  have hptype : get? p "type" = some (.str ctx.sigType) := by
    obtain ⟨d, q, msg, sig, raw', doc', -, -, e1, q3, -, -, -, q7, q8⟩ := LDP.presentation_new_proof ld lib h
    rw [hraw] at e1
    cases e1
    have hsync : Entries (get? raw "proof") (vp.proofs.map .obj) := by
      rw [hdraw.proof]; exact LDP.entries_compact _
    obtain ⟨ob, hob⟩ := lib.entries _ _ _ _ hsync q7
    have e2 : ob = p := by
      unfold JObj.at at q8
      rw [hob, p1] at q8
      have hm : vp.proofs.map Json.obj ++ [.obj ob] = (vp.proofs ++ [ob]).map .obj := by simp
      simp only [Option.getD_some] at q8
      rw [hm] at q8
      have := (parseLDProofs_iff ((vp.proofs ++ [ob]).map .obj) (vp.proofs ++ [ob])).2 rfl
      have e3 : some (vp.proofs ++ [ob]) = some (vp.proofs ++ [p]) := this.symm.trans q8
      simpa using e3
    rw [← e2, hwt _ _ _ _ hsync q7 ob hob, q3.type]
  have hnd : ¬ DIFirst vp'.proofs := by
    rintro ⟨x, rest, e, ex⟩
    rw [p1] at e
    dsimp only at e
    cases hv : vp.proofs with
    | nil =>
      rw [hv] at e
      cases e
      rw [hptype] at ex
      exact hty (by simpa using ex)
    | cons y l =>
      rw [hv] at e
      cases e
      exact hfirst ⟨x, l, hv, ex⟩
  have hcl' : CustomClean vp' := by rw [p1]; exact hcl
  obtain ⟨s, r, r1, r2, r3, r4, r5⟩ := written_pres_parses (vp := vp') hne (by rw [p1]; exact hj) (by rw [p1]; exact hw) hcl'
    (by rw [p1]; exact hcc) (by rw [p1]; exact hx) (by rw [p1]; exact ht) (by rw [p1]; exact he) enc hex sdText
    (by rw [p1]; exact hparsed) (by rw [p1]; exact hr) hb htext
    (by
      intro doc hdoc
      have hver := LDP.presentation_add_then_verify ld lib hcl h hraw hdoc ha hold
      obtain ⟨cs', -, hd'⟩ := marshal_document _ vp' hcl' doc hdoc
      have hjn : get? doc "jwt" = none := by
        rw [hd'.custom "jwt" (by decide), p1]; exact hcj
      unfold checkOwnProof
      rw [Bool.or_eq_true]
      right
      rw [del_absent hjn]
      obtain ⟨cb, qs, k1, k2, k3⟩ := same_self_verified hsl hver
      have hpm : ProofMember doc vp'.proofs := proofMember_raw hne (by
        rw [hd'.proof, proofsToRaw_compact _ hne])
      obtain ⟨g1, g2⟩ := (getProofs_iff doc vp'.proofs).2 hpm
      unfold checkEmbedded
      rw [withExternal_nil env.toPEnv (ownOpts env o) rfl doc]
      split
      · rename_i hnull; exact absurd hnull g1
      · rw [g2]
        dsimp only
        have hdi : isDataIntegrity vp'.proofs = false := by
          cases hx : isDataIntegrity vp'.proofs with
          | false => rfl
          | true => exact absurd ((isDataIntegrity_iff _).1 hx) hnd
        rw [hdi]
        have hck : (ownOpts env o).ldChecker = some cb.ld := by
          show o.checker.map (·.ld) = _
          rw [k1]; rfl
        rw [hck]
        simp only [Bool.false_eq_true, if_false]
        have hvo : verifyObject env.toPEnv cb.ld none doc = true := by
          unfold verifyObject
          rw [k2]
          exact k3
        rw [hvo]
        rfl)
    (by rw [p1] at hrule ⊢; exact hrule) (by rw [p1]; exact hrel) (by rw [p1]; exact hvc) hval
  exact ⟨s, r, p, r1, r2, r3, r4, r5, p1, hptype⟩

/-! ## Data Integrity checks see a Go map -/

theorem di_suite_same {env : DI.Env} (ext : DI.Spec.CanonExt env) {d d' : JObj} (h : GoMap.Same d d')
    {s : DI.Suite env} (hs : s = DI.ecdsaSuite env ∨ s = DI.eddsaSuite env) (p : DI.Prf) (o : DI.Opts env.T) :
    s.verify d p o = s.verify d' p o := by
  have hh : ∀ a c, DI.hashAll env a d c = DI.hashAll env a d' c := by
    intro a c; unfold DI.hashAll; rw [ext a d d' h]
  have hc : JObj.at d "@context" = JObj.at d' "@context" := by unfold JObj.at; rw [h]
  rcases hs with rfl | rfl
  · have : ∀ o, DI.ecdsaTransform env d o = DI.ecdsaTransform env d' o := by
      intro o; unfold DI.ecdsaTransform; simp only [hh, hc]
    show DI.verifySig env _ p = DI.verifySig env _ p
    rw [this]
  · have : ∀ o, DI.eddsaTransform env d o = DI.eddsaTransform env d' o := by
      intro o; unfold DI.eddsaTransform; simp only [hh, hc]
    show DI.verifySig env _ p = DI.verifySig env _ p
    rw [this]

theorem di_verify_same {env : DI.Env} (ext : DI.Spec.CanonExt env) {vs : GoMap (DI.Suite env)}
    (std : DI.Spec.Standard env vs) {d d' : JObj} (h : GoMap.Same d d') (o : DI.Opts env.T) :
    DI.verifyProof env vs d o = DI.verifyProof env vs d' o := by
  have hdel : GoMap.Same (del d "proof") (del d' "proof") := by
    intro k
    by_cases hk : k = "proof"
    · subst hk; rw [get?_del_self, get?_del_self]
    · rw [get?_del_ne _ (Ne.symm hk), get?_del_ne _ (Ne.symm hk), h k]
  have hw : ∀ n s, get? vs n = some s → ∀ p o,
      DI.verifyWithSuite env s (del d "proof") p o = DI.verifyWithSuite env s (del d' "proof") p o := by
    intro n s hs p o
    have hv := fun p o => di_suite_same ext hdel (s := s)
      (by rcases std n s hs with ⟨-, h⟩ | ⟨-, h⟩ <;> simp [h]) p o
    unfold DI.verifyWithSuite DI.postChecks
    simp only [hv]
  have hone : ∀ raw o, DI.verifyOne env vs (del d "proof") raw o = DI.verifyOne env vs (del d' "proof") raw o := by
    intro raw o
    unfold DI.verifyOne
    cases DI.parseProof raw with
    | none => rfl
    | some p =>
      dsimp only
      cases hs : get? vs p.cryptosuite with
      | none => rfl
      | some s => dsimp only; rw [hw _ _ hs]
  have hl : ∀ rs o, DI.verifyLoop env vs (del d "proof") rs o = DI.verifyLoop env vs (del d' "proof") rs o := by
    intro rs
    induction rs with
    | nil => intro o; rfl
    | cons r rs ih =>
      intro o
      unfold DI.verifyLoop
      rw [hone]
      split
      · rfl
      · exact ih _
  unfold DI.verifyProof
  rw [h "proof"]
  cases get? d' "proof" with
  | none => rfl
  | some raw => exact hl _ _

/-- **C107** (Data Integrity), partial: a presentation without a proof, after `AddDataIntegrityProof`,
written by `MarshalJSON`, is parsed by `ParsePresentation`, with the proof check on, as the same
presentation with the new proof.  `ext`: canonicalisation does not depend on the order of members.

Missing: presentations that already had a proof (C86), and the suite name `eddsa-2022` (C51). -/
theorem di_add_then_parse_pres_partial {env : VEnv} {o : VpOpts env}
    {suites vs : GoMap (DI.Suite env.di)} (std : DI.Spec.Standard env.di suites)
    (vstd : DI.Spec.Standard env.di vs) (hz : env.di.isZero env.di.zeroT = true)
    (mb : ∀ b, env.di.mbDecode (env.di.mbEncode b) = some b) {now : env.di.T} {c : DICtx env.di.T}
    {vp vp' : Pres env.T} (hreg : ∀ n, DI.SameFamily n c.suite → (get? vs n).isSome)
    (hkey : ∀ r v pu, (c.purpose ≠ "" ∧ pu = c.purpose) ∨ (c.purpose = "" ∧ pu = "assertionMethod") →
      env.di.resolver = some r → DI.Spec.Resolves r pu c.key v → v.id = c.key ∧ DI.SignsFor env.di c.suite v)
    (hcr : DI.Survives env.di (c.created.getD now)) (hexp : DI.NotExpired env.di (c.expires.getD env.di.zeroT))
    (hs : c.suite ≠ "eddsa-2022") (hp : vp.proofs = [])
    (enc : JObj → String) (hex : String → String) (sdText : JwtEnvelope → Option String)
    (h : addDIToPres (universalForm hex sdText) env.di suites now c vp = some vp')
    (hv : o.diVerifier = some vs) (hpu : o.diPurpose = c.purpose) (hdm : o.diDomain = c.domain)
    (hch : o.diChallenge = c.challenge)
    (ext : DI.Spec.CanonExt env.di)
    (hj : vp.jwt = "") (hw : vp.cwt = none) (hcl : CustomClean vp) (hcj : get? vp.custom "jwt" = none)
    (hcc : vp.customContext = []) (hx : vp.context ≠ []) (ht : vp.types ≠ [])
    (he : "EnvelopedVerifiablePresentation" ∉ vp.types)
    (hparsed : ∀ c ∈ vp.credentials, ∃ j, parseOneCred env o j = .ok c)
    (hr : ∀ c ∈ vp.credentials, Rewritable env hex sdText c) (hb : NoBrace env.toPEnv)
    (htext : ∀ doc, rawPres (universalForm hex sdText) vp' = some doc → PresText env enc doc)
    (hrule : o.checkHolder = true → HolderRule env vp'.proofs vp.credentials vp.holder)
    (hrel : o.checkRelRes = true → env.relAllOK (vp.credentials.map (·.contents)) = true)
    (hvc : o.requireVC = true → vp.credentials ≠ [])
    (hval : ∀ doc, rawPres (universalForm hex sdText) vp' = some doc → validateVP env o doc = true) :
    ∃ s r p, marshalPres enc hex (universalForm hex sdText) vp' = some s ∧
      parsePresentation env o s = .ok r ∧ SamePres SameCred r vp' ∧ r.jwt = "" ∧ r.cwt = none ∧
      vp' = { vp with proofs := [p] } ∧ get? p "type" = some (.str "DataIntegrityProof") := by
  obtain ⟨raw, hraw, h'⟩ := Option.bind_eq_some_iff.1 (show _ = some vp' from h)
  obtain ⟨ps, g1, g2⟩ := Option.map_eq_some_iff.1 h'
  obtain ⟨p, rfl, hadd⟩ := LDP.addDI_one g1
  have p1 : vp' = { vp with proofs := [p] } := g2.symm
  have hne : vp'.proofs ≠ [] := by rw [p1]; simp
  obtain ⟨cs, hcs, hdraw⟩ := marshal_document _ vp hcl raw hraw
  have hptype : get? p "type" = some (.str "DataIntegrityProof") := by
    obtain ⟨s, r, v, q, o1, _, hr, hv, _, _, hd, t1, -⟩ :=
      DI.addProof_ok env.di std (o := LDP.diOpts env.di now c) rfl hadd
    have ho : p = DI.marshalProof q := by
      have := congrArg (fun m => get? m "proof") hd
      simpa [get?_set_self] using this
    obtain ⟨m, hm, hf⟩ := ((DI.parseProof_obj_iff _ _).1 (DI.parse_marshal q)).fields
    rw [← ho] at hm
    cases hm
    rcases hf ("type", q.type) (by simp) with h1 | ⟨h1, -⟩
    · rw [t1] at h1; exact h1
    · rw [t1] at h1; exact absurd h1 (by decide)
  have hdoc0 : get? raw "proof" = none := by rw [hdraw.proof, hp]; rfl
  have hver : (DI.verifyProof env.di vs (set raw "proof" (.obj p))
      (DI.freshOpts env.di c.purpose c.domain c.challenge)).1 = .ok () :=
    DI.sign_verify_roundtrip_partial env.di (o := LDP.diOpts env.di now c) std vstd hz mb rfl rfl hreg
      (fun r v hr hv => hkey r v _ (by
        by_cases e : c.purpose = ""
        · right; simp [LDP.diOpts, e]
        · left; simp [LDP.diOpts, e]) hr hv) hcr hexp hdoc0
      ⟨rfl, rfl, rfl, rfl, rfl, rfl, rfl, rfl, .inr ⟨rfl, hs⟩⟩ hadd
  have hcl' : CustomClean vp' := by rw [p1]; exact hcl
  obtain ⟨s, r, r1, r2, r3, r4, r5⟩ := written_pres_parses (vp := vp') hne (by rw [p1]; exact hj) (by rw [p1]; exact hw) hcl'
    (by rw [p1]; exact hcc) (by rw [p1]; exact hx) (by rw [p1]; exact ht) (by rw [p1]; exact he) enc hex sdText
    (by rw [p1]; exact hparsed) (by rw [p1]; exact hr) hb htext
    (by
      intro doc hdoc
      obtain ⟨cs', hcs', hd'⟩ := marshal_document _ vp' hcl' doc hdoc
      have hcse : cs' = cs := by
        have e : vp'.credentials = vp.credentials := by rw [p1]
        rw [e, hcs] at hcs'; cases hcs'; rfl
      subst hcse
      have hjn : get? doc "jwt" = none := by
        rw [hd'.custom "jwt" (by decide), p1]; exact hcj
      have hsame := di_verify_same ext vstd (d := doc) (d' := set raw "proof" (.obj p)) (by
        intro k
        symm
        by_cases hk : k = "proof"
        · subst hk
          rw [get?_set_self, hd'.proof, p1]; rfl
        · rw [get?_set_ne _ _ (Ne.symm hk)]
          exact (LDP.presDoc_other p1 hdraw hd' k hk).symm)
      rw [← hsame (DI.freshOpts env.di c.purpose c.domain c.challenge)] at hver
      unfold checkOwnProof
      rw [Bool.or_eq_true]
      right
      rw [del_absent hjn]
      have hpm : ProofMember doc vp'.proofs := proofMember_raw hne (by
        rw [hd'.proof, proofsToRaw_compact _ hne])
      obtain ⟨g1, g2⟩ := (getProofs_iff doc vp'.proofs).2 hpm
      unfold checkEmbedded
      rw [withExternal_nil env.toPEnv (ownOpts env o) rfl doc]
      split
      · rename_i hnull; exact absurd hnull g1
      · rw [g2]
        dsimp only
        rw [(isDataIntegrity_iff _).2 ⟨p, [], by rw [p1], hptype⟩]
        have := (checkDataIntegrity_iff env.toPEnv (ownOpts env o) doc).2 ⟨vs, hv, by
          show (DI.verifyProof env.di vs doc (DI.freshOpts env.di o.diPurpose o.diDomain o.diChallenge)).1 = _
          rw [hpu, hdm, hch]; exact hver⟩
        rw [this]
        rfl)
    (by rw [p1] at hrule ⊢; exact hrule) (by rw [p1]; exact hrel) (by rw [p1]; exact hvc) hval
  exact ⟨s, r, p, r1, r2, r3, r4, r5, p1, hptype⟩

end VC.Iss
