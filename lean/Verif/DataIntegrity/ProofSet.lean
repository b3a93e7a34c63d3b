import Verif.DataIntegrity.Props
/-!
# Data integrity: documents with several proofs (C50)

The options are shared by all proofs of a document, and the first proof fills them in.  What holds is
stated by `proof_set_checked`; that it is not C50 is shown by `second_proof_not_checked`.
-/

namespace VC.DI

open VC (Json JObj GoMap NoChar)
open VC.DI.Spec

variable (env : Env)

/-- The method, suite and expectations the options carry. -/
structure Bound (o : Opts env.T) (pu dm ch st id : String) (v : VM) : Prop where
  vm : o.vm = some v
  vmID : o.vmID = id
  suiteType : o.suiteType = st
  purpose : o.purpose = pu
  domain : o.domain = dm
  challenge : o.challenge = ch

theorem withCreated_keeps {o o1 : Opts env.T} {p : Prf} (h : withCreated env o p = .ok o1) :
    ∃ t, o1 = { o with created := t } := by
  unfold withCreated at h
  split at h
  · split at h
    · cases h
    · rename_i t _; cases h; exact ⟨t, rfl⟩
  · cases h; exact ⟨o.created, rfl⟩

theorem withExpires_keeps {o o1 : Opts env.T} {p : Prf} (h : withExpires env o p = .ok o1) :
    (p.expires = "" ∨ ∃ t, env.parseT p.expires = some t ∧ env.past t = false) ∧
    ∃ t, o1 = { o with expires := t } := by
  rcases (withExpires_iff env).1 h with ⟨h', e⟩ | ⟨_, t, h1, h2, rfl⟩
  · exact ⟨Or.inl h', o1.expires, by rw [e]⟩
  · exact ⟨Or.inr ⟨t, h1, h2⟩, t, rfl⟩

/-- What is established about one proof of a set whose options hold the method `v`, named `id`, and
the suite `st`. -/
structure CheckedUnder (doc : JObj) (pu dm ch st id : String) (v : VM) (p : Prf) : Prop where
  isType : p.type = "DataIntegrityProof"
  hasPurpose : p.purpose = pu
  unexpired : p.expires = "" ∨ ∃ t, env.parseT p.expires = some t ∧ env.past t = false
  hasDomain : dm = "" ∨ p.domain = dm
  hasChallenge : ch = "" ∨ p.challenge = ch
  signature : ∃ pk h tc te conf, KeyFor env p.cryptosuite v pk h ∧
    Config env (JObj.at doc "@context") st id pu dm ch tc te conf ∧ Signed env pk h doc conf p.value

theorem verifyOne_bound {suites : GoMap (Suite env)} (std : Standard env suites) {doc : JObj} {raw : Json}
    {o o' : Opts env.T} {pu dm ch st id : String} {v : VM} (hb : Bound env o pu dm ch st id v) (hst : st ≠ "")
    (h : verifyOne env suites doc raw o = (.ok (), o')) :
    Bound env o' pu dm ch st id v ∧ ∃ p, IsProof raw p ∧ CheckedUnder env doc pu dm ch st id v p := by
  obtain ⟨p, s, o1, o2, hp, ht, hv, hu, hs, hc, h1, h2, hpu, hr, hpost⟩ := (verifyOne_ok_iff env suites doc raw o o').1 h
  have hws : withSuite env o p = o := by
    unfold withSuite; rw [if_neg (by rw [hb.suiteType]; exact hst)]
  rw [hws] at h1
  obtain ⟨tc, rfl⟩ := withCreated_keeps env h1
  obtain ⟨hexp, te, rfl⟩ := withExpires_keeps env h2
  have := (resolveVM_some env (o := { o with created := tc, expires := te }) hb.vm p.vm).1 hr
  subst this
  obtain ⟨hdm, hch, hver⟩ := (postChecks_iff env s doc p _).1 hpost
  rw [suite_verify_iff env std hs doc p _ (by rw [← hb.suiteType] at hst; exact hst)] at hver
  obtain ⟨hfam, hpt, v', pk, ha, hv', hk, hsig⟩ := hver
  have : v' = v := by have := hb.vm; rw [show o.vm = some v' from hv'] at this; exact Option.some.inj this
  subst this
  refine ⟨⟨hb.vm, hb.vmID, hb.suiteType, hb.purpose, hb.domain, hb.challenge⟩, p,
    (parseProof_iff raw p (by rw [ht]; decide)).1 hp, ht, by rw [hpu]; exact hb.purpose, hexp,
    by rw [← hb.domain]; exact hdm, by rw [← hb.challenge]; exact hch, pk, ha, tc, te, _, ?_, ?_, hsig⟩
  · refine keyFor_family env ?_ hk
    rcases hfam with ⟨a, b⟩ | ⟨a, b⟩
    · exact Or.inl ⟨b, a⟩
    · exact Or.inr ⟨b, a⟩
  · have := proofConfig_spec env (JObj.at doc "@context") o.suiteType { o with created := tc, expires := te }
    simp only [hb.vmID, hb.purpose, hb.domain, hb.challenge, hb.suiteType] at this ⊢
    exact this

theorem verifyLoop_bound {suites : GoMap (Suite env)} (std : Standard env suites) {doc : JObj}
    {pu dm ch st id : String} {v : VM} (hst : st ≠ "") : ∀ (rs : List Json) (o : Opts env.T),
    Bound env o pu dm ch st id v → (verifyLoop env suites doc rs o).1 = .ok () →
    ∀ raw ∈ rs, ∃ p, IsProof raw p ∧ CheckedUnder env doc pu dm ch st id v p
  | [], _, _, _ => by simp
  | r :: rs, o, hb, h => by
    unfold verifyLoop at h
    cases he : verifyOne env suites doc r o with
    | mk e o' =>
      cases e with
      | error e => rw [he] at h; cases h
      | ok u =>
        rw [he] at h
        obtain ⟨hb', hp⟩ := verifyOne_bound env std hb hst he
        intro raw hraw
        cases List.mem_cons.1 hraw with
        | inl e => rw [e]; exact hp
        | inr e => exact verifyLoop_bound std hst rs o' hb' h raw e

/-- **Every proof of an accepted set is checked, under the method the first proof names.** -/
theorem proof_set_checked {suites : GoMap (Suite env)} (std : Standard env suites)
    (hz : env.isZero env.zeroT = true) (ext : CanonExt env) {doc : JObj} {r0 : Json} {rs : List Json}
    (hl : ProofList doc (r0 :: rs)) {o : Opts env.T} (hf : Fresh env o)
    (hok : (verifyProof env suites doc o).1 = .ok ()) :
    ∃ p0 r v, IsProof r0 p0 ∧ Valid env (GoMap.del doc "proof") o.purpose o.domain o.challenge p0 ∧
      env.resolver = some r ∧ Resolves r p0.purpose p0.vm v ∧
      ∀ raw ∈ rs, ∃ p, IsProof raw p ∧
        CheckedUnder env (GoMap.del doc "proof") o.purpose o.domain o.challenge p0.cryptosuite p0.vm v p := by
  unfold verifyProof at hok
  rw [hl] at hok
  simp only [proofArray] at hok
  unfold verifyLoop at hok
  cases he : verifyOne env suites (GoMap.del doc "proof") r0 o with
  | mk e o' =>
    cases e with
    | error e => rw [he] at hok; cases hok
    | ok u =>
      rw [he] at hok
      obtain ⟨p0, h1, h2, h3, r, v, tc, te, hr, hv, _, _, rfl⟩ := (verifyOne_fresh_iff env std hz ext _ r0 hf _).1 he
      refine ⟨p0, r, v, h1, h3, hr, hv, ?_⟩
      refine verifyLoop_bound env std ?_ rs (after env o p0 tc te v) ⟨rfl, rfl, rfl, rfl, rfl, rfl⟩ hok
      obtain ⟨s, hs⟩ := Option.isSome_iff_exists.1 h2
      rcases std _ _ hs with ⟨h, _⟩ | ⟨h, _⟩ <;> rcases h with h | h <;> rw [h] <;> decide

/-- **C50 (partial)**: if all proofs of an accepted set name the same verification method, each is
verified under the method it names, authorised for its purpose.  Missing: sets with several methods
(see `second_proof_not_checked`). -/
theorem proof_set_own_key_partial {suites : GoMap (Suite env)} (std : Standard env suites)
    (hz : env.isZero env.zeroT = true) (ext : CanonExt env) {doc : JObj} {rs : List Json} {id : String}
    (hl : ProofList doc rs) {o : Opts env.T} (hf : Fresh env o)
    (hsame : ∀ raw ∈ rs, ∀ p, IsProof raw p → p.vm = id)
    (hok : (verifyProof env suites doc o).1 = .ok ()) :
    ∀ raw ∈ rs, ∃ p, IsProof raw p ∧ p.type = "DataIntegrityProof" ∧ p.purpose = o.purpose ∧
      (p.expires = "" ∨ ∃ t, env.parseT p.expires = some t ∧ env.past t = false) ∧
      (o.domain = "" ∨ p.domain = o.domain) ∧ (o.challenge = "" ∨ p.challenge = o.challenge) ∧
      ∃ r v pk h tc te cs conf, env.resolver = some r ∧ Resolves r p.purpose p.vm v ∧
        KeyFor env p.cryptosuite v pk h ∧
        Config env (JObj.at (GoMap.del doc "proof") "@context") cs p.vm p.purpose o.domain o.challenge tc te conf ∧
        Signed env pk h (GoMap.del doc "proof") conf p.value := by
  cases rs with
  | nil => simp
  | cons r0 rs =>
    obtain ⟨p0, r, v, hp0, hv0, hr, hv, hall⟩ := proof_set_checked env std hz ext hl hf hok
    intro raw hraw
    rcases List.mem_cons.1 hraw with rfl | hm
    · obtain ⟨r', v', pk, h, tc, te, conf, a1, a2, a3, a4, a5, a6, a7⟩ := hv0.signature
      exact ⟨p0, hp0, hv0.isType, hv0.hasPurpose, hv0.unexpired, hv0.hasDomain, hv0.hasChallenge,
        r', v', pk, h, tc, te, _, conf, a1, a2, a3, a6, a7⟩
    · obtain ⟨p, hp, hc⟩ := hall raw hm
      obtain ⟨pk, h, tc, te, conf, a1, a2, a3⟩ := hc.signature
      have e1 : p0.vm = p.vm := by rw [hsame r0 (by simp) p0 hp0, hsame raw hraw p hp]
      have e2 : p0.purpose = p.purpose := by rw [hv0.hasPurpose, hc.hasPurpose]
      rw [e1, ← hc.hasPurpose] at a2
      rw [e1, e2] at hv
      exact ⟨p, hp, hc.isType, hc.hasPurpose, hc.unexpired, hc.hasDomain, hc.hasChallenge,
        r, v, pk, h, tc, te, _, conf, hr, hv, a1, a2, a3⟩

/-! ## Options reused for a second document -/

/-- Options in which a method is already recorded keep it: a later document is verified under that
method, whatever its proof names. -/
theorem reused_options_ignore_method {suites : GoMap (Suite env)} (std : Standard env suites) {doc : JObj}
    {raw : Json} (hone : OnlyProof doc raw) {o : Opts env.T} {v : VM} (hvm : o.vm = some v)
    (hst : o.suiteType ≠ "") (hok : (verifyProof env suites doc o).1 = .ok ()) :
    ∃ p, IsProof raw p ∧
      CheckedUnder env (GoMap.del doc "proof") o.purpose o.domain o.challenge o.suiteType o.vmID v p := by
  rw [onlyProof_loop env hone] at hok
  have : verifyOne env suites (GoMap.del doc "proof") raw o =
      (.ok (), (verifyOne env suites (GoMap.del doc "proof") raw o).2) := by rw [← hok]
  exact (verifyOne_bound env std ⟨hvm, rfl, rfl, rfl, rfl, rfl⟩ hst this).2

end VC.DI
