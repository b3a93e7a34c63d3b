import Verif.DataIntegrity.Lemmas
/-!
# Data integrity: verification policy (C48, C49, C50)
-/

namespace VC.DI

open VC (Json JObj GoMap NoChar)
open VC.DI.Spec

/-! ## The configured suites -/

theorem register_get {S : Type} (s : S) : ∀ (ts : List String) (m : GoMap S) (n : String) (x : S),
    GoMap.get? (register s m ts) n = some x → GoMap.get? m n = some x ∨ (n ∈ ts ∧ x = s)
  | [], _, _, _, h => Or.inl h
  | t :: ts, m, n, x, h => by
    unfold register at h
    by_cases hm : (GoMap.get? m t).isSome
    · rw [if_pos hm] at h
      rcases register_get s ts m n x h with h | h
      · exact Or.inl h
      · exact Or.inr ⟨List.mem_cons_of_mem _ h.1, h.2⟩
    · rw [if_neg hm] at h
      rcases register_get s ts _ n x h with h | h
      · rw [GoMap.get?_set] at h
        by_cases hk : t = n
        · rw [if_pos hk] at h; cases h
          exact Or.inr ⟨by simp [hk], rfl⟩
        · rw [if_neg hk] at h; exact Or.inl h
      · exact Or.inr ⟨List.mem_cons_of_mem _ h.1, h.2⟩

theorem newSuites_get {S : Type} : ∀ (is : List (List String × S)) (m : GoMap S) (n : String) (x : S),
    GoMap.get? (newSuites m is) n = some x →
      GoMap.get? m n = some x ∨ ∃ i ∈ is, n ∈ i.1 ∧ x = i.2
  | [], _, _, _, h => Or.inl h
  | (ts, s) :: is, m, n, x, h => by
    unfold newSuites at h
    rcases newSuites_get is _ n x h with h | ⟨i, hi, h⟩
    · rcases register_get s ts m n x h with h | h
      · exact Or.inl h
      · exact Or.inr ⟨(ts, s), by simp, h.1, h.2⟩
    · exact Or.inr ⟨i, List.mem_cons_of_mem _ hi, h⟩

/-- A verifier built from any selection of the two initialisers of this repository is `Standard`. -/
theorem newSuites_standard (env : Env) (is : List (List String × Suite env))
    (h : ∀ i ∈ is, i = (ecdsaTypes, ecdsaSuite env) ∨ i = (eddsaTypes, eddsaSuite env)) :
    Standard env (newSuites [] is) := by
  intro n s hs
  rcases newSuites_get is [] n s hs with h' | ⟨i, hi, hn, hx⟩
  · cases h'
  · rcases h i hi with rfl | rfl
    · left; exact ⟨by simpa [ecdsaTypes] using hn, hx⟩
    · right; exact ⟨by simpa [eddsaTypes] using hn, hx⟩

variable (env : Env)

/-! ## One suite -/

theorem verifySig_iff (r : Option (Bytes × PubKey)) (p : Prf) :
    verifySig env r p = true ↔ ∃ msg pk sig, r = some (msg, pk) ∧ env.mbDecode p.value = some sig ∧
      env.verify sig msg pk = true := by
  unfold verifySig
  cases r with
  | none => simp
  | some x =>
    obtain ⟨msg, pk⟩ := x
    cases env.mbDecode p.value with
    | none => simp
    | some sig =>
      constructor
      · intro h; exact ⟨msg, pk, sig, rfl, rfl, h⟩
      · rintro ⟨_, _, _, h1, h2, h⟩; cases h1; cases h2; exact h

theorem ecdsa_verify_iff (doc : JObj) (p : Prf) (o : Opts env.T) (hs : o.suiteType ≠ "") :
    (ecdsaSuite env).verify doc p o = true ↔
      (o.suiteType = "ecdsa-2019" ∨ o.suiteType = "ecdsa-rdfc-2019") ∧ o.proofType = "DataIntegrityProof" ∧
      ∃ v pk h, o.vm = some v ∧ KeyFor env o.suiteType v pk h ∧
        Signed env pk h doc (proofConfig env (JObj.at doc "@context") o.suiteType o) p.value := by
  have hd : ecdsaDefault env o = o := by unfold ecdsaDefault; rw [if_neg hs]
  show verifySig env (ecdsaTransform env doc (ecdsaDefault env o)) p = true ↔ _
  rw [hd, verifySig_iff]
  unfold ecdsaTransform
  constructor
  · rintro ⟨msg, pk, sig, h, hm, hv⟩
    cases hvm : o.vm with
    | none => rw [hvm] at h; cases h
    | some v =>
      rw [hvm] at h
      simp only at h
      cases hk : ecdsaKey env v with
      | none => rw [hk] at h; cases h
      | some x =>
        obtain ⟨pk', ha⟩ := x
        rw [hk] at h
        simp only at h
        split at h
        · cases h
        · rename_i hpt
          split at h
          · cases h
          · rename_i hst
            have hst' : o.suiteType = "ecdsa-2019" ∨ o.suiteType = "ecdsa-rdfc-2019" := by
              rw [Decidable.not_and_iff_not_or_not] at hst
              rcases hst with hst | hst
              · exact Or.inl (Decidable.not_not.1 hst)
              · exact Or.inr (Decidable.not_not.1 hst)
            rw [Option.map_eq_some_iff] at h
            obtain ⟨m, hm', e⟩ := h
            cases e
            obtain ⟨cd, cc, h1, h2, e⟩ := (hashAll_iff env _ _ _ _).1 hm'
            refine ⟨hst', Decidable.not_not.1 hpt, v, pk, ha, rfl, (ecdsaKey_iff env _ hst' v pk ha).1 hk,
              sig, cd, cc, hm, h1, h2, ?_⟩
            rw [← e]; exact hv
  · rintro ⟨hst, hpt, v, pk, ha, hvm, hk, sig, cd, cc, hm, h1, h2, hv⟩
    refine ⟨_, pk, sig, ?_, hm, hv⟩
    rw [hvm]
    simp only
    rw [(ecdsaKey_iff env _ hst v pk ha).2 hk]
    simp only
    rw [if_neg (by simp [hpt]), if_neg (by rcases hst with h | h <;> simp [h]),
      (hashAll_iff env _ _ _ _).2 ⟨cd, cc, h1, h2, rfl⟩]
    rfl

theorem eddsa_verify_iff (doc : JObj) (p : Prf) (o : Opts env.T) :
    (eddsaSuite env).verify doc p o = true ↔
      (o.suiteType = "eddsa-rdfc-2022" ∨ o.suiteType = "eddsa-2022") ∧ o.proofType = "DataIntegrityProof" ∧
      ∃ v pk h, o.vm = some v ∧ KeyFor env o.suiteType v pk h ∧
        Signed env pk h doc (proofConfig env (JObj.at doc "@context") o.suiteType o) p.value := by
  show verifySig env (eddsaTransform env doc o) p = true ↔ _
  rw [verifySig_iff]
  unfold eddsaTransform
  constructor
  · rintro ⟨msg, pk, sig, h, hm, hv⟩
    cases hvm : o.vm with
    | none => rw [hvm] at h; cases h
    | some v =>
      rw [hvm] at h
      simp only at h
      cases hk : eddsaKey v with
      | none => rw [hk] at h; cases h
      | some x =>
        obtain ⟨pk', ha⟩ := x
        rw [hk] at h
        simp only at h
        split at h
        · cases h
        · rename_i hpt
          split at h
          · cases h
          · rename_i hst
            have hst' : o.suiteType = "eddsa-rdfc-2022" ∨ o.suiteType = "eddsa-2022" := by
              rw [Decidable.not_and_iff_not_or_not] at hst
              rcases hst with hst | hst
              · exact Or.inl (Decidable.not_not.1 hst)
              · exact Or.inr (Decidable.not_not.1 hst)
            rw [Option.map_eq_some_iff] at h
            obtain ⟨m, hm', e⟩ := h
            cases e
            obtain ⟨cd, cc, h1, h2, e⟩ := (hashAll_iff env _ _ _ _).1 hm'
            refine ⟨hst', Decidable.not_not.1 hpt, v, pk, ha, rfl, (eddsaKey_iff env _ hst' v pk ha).1 hk,
              sig, cd, cc, hm, h1, h2, ?_⟩
            rw [← e]; exact hv
  · rintro ⟨hst, hpt, v, pk, ha, hvm, hk, sig, cd, cc, hm, h1, h2, hv⟩
    refine ⟨_, pk, sig, ?_, hm, hv⟩
    rw [hvm]
    simp only
    rw [(eddsaKey_iff env _ hst v pk ha).2 hk]
    simp only
    rw [if_neg (by simp [hpt]), if_neg (by rcases hst with h | h <;> simp [h]),
      (hashAll_iff env _ _ _ _).2 ⟨cd, cc, h1, h2, rfl⟩]
    rfl

/-- Two suite names of the same suite. -/
def SameFamily (a b : String) : Prop :=
  ((a = "ecdsa-2019" ∨ a = "ecdsa-rdfc-2019") ∧ (b = "ecdsa-2019" ∨ b = "ecdsa-rdfc-2019")) ∨
  ((a = "eddsa-rdfc-2022" ∨ a = "eddsa-2022") ∧ (b = "eddsa-rdfc-2022" ∨ b = "eddsa-2022"))

theorem keyFor_family {a b : String} (hf : SameFamily a b) {v : VM} {pk : PubKey} {h : HashAlg}
    (hk : KeyFor env a v pk h) : KeyFor env b v pk h := by
  rcases hf with ⟨ha, hb⟩ | ⟨ha, hb⟩
  · exact (ecdsaKey_iff env b hb v pk h).1 ((ecdsaKey_iff env a ha v pk h).2 hk)
  · exact (eddsaKey_iff env b hb v pk h).1 ((eddsaKey_iff env a ha v pk h).2 hk)

/-- A registered suite accepts iff the key selected from the method in the options verifies the
signature over the configuration built from the options. -/
theorem suite_verify_iff {suites : GoMap (Suite env)} (std : Standard env suites) {n : String} {s : Suite env}
    (hs : GoMap.get? suites n = some s) (doc : JObj) (p : Prf) (o : Opts env.T) (ho : o.suiteType ≠ "") :
    s.verify doc p o = true ↔
      SameFamily n o.suiteType ∧ o.proofType = "DataIntegrityProof" ∧
      ∃ v pk h, o.vm = some v ∧ KeyFor env o.suiteType v pk h ∧
        Signed env pk h doc (proofConfig env (JObj.at doc "@context") o.suiteType o) p.value := by
  rcases std n s hs with ⟨hn, rfl⟩ | ⟨hn, rfl⟩
  · rw [ecdsa_verify_iff env doc p o ho]
    constructor
    · rintro ⟨h1, h2⟩; exact ⟨Or.inl ⟨hn, h1⟩, h2⟩
    · rintro ⟨h1 | h1, h2⟩
      · exact ⟨h1.2, h2⟩
      · obtain ⟨h1, _⟩ := h1
        exfalso; rcases hn with rfl | rfl <;> rcases h1 with h1 | h1 <;> revert h1 <;> decide
  · rw [eddsa_verify_iff env doc p o]
    constructor
    · rintro ⟨h1, h2⟩; exact ⟨Or.inr ⟨hn, h1⟩, h2⟩
    · rintro ⟨h1 | h1, h2⟩
      · obtain ⟨h1, _⟩ := h1
        exfalso; rcases hn with rfl | rfl <;> rcases h1 with h1 | h1 <;> revert h1 <;> decide
      · exact ⟨h1.2, h2⟩

/-! ## One proof -/

theorem postChecks_iff (s : Suite env) (doc : JObj) (p : Prf) (o : Opts env.T) :
    postChecks env s doc p o = .ok () ↔
      (o.domain = "" ∨ p.domain = o.domain) ∧ (o.challenge = "" ∨ p.challenge = o.challenge) ∧
      s.verify doc p o = true := by
  unfold postChecks
  by_cases h1 : o.domain ≠ "" ∧ o.domain ≠ p.domain
  · rw [if_pos h1]
    constructor
    · intro h; cases h
    · rintro ⟨h | h, _⟩
      · exact absurd h h1.1
      · exact absurd h.symm h1.2
  · rw [if_neg h1]
    have h1' : o.domain = "" ∨ p.domain = o.domain := by
      by_cases h : o.domain = ""
      · exact Or.inl h
      · exact Or.inr (Decidable.not_not.1 fun h' => h1 ⟨h, fun e => h' e.symm⟩)
    by_cases h2 : o.challenge ≠ "" ∧ o.challenge ≠ p.challenge
    · rw [if_pos h2]
      constructor
      · intro h; cases h
      · rintro ⟨_, h | h, _⟩
        · exact absurd h h2.1
        · exact absurd h.symm h2.2
    · rw [if_neg h2]
      have h2' : o.challenge = "" ∨ p.challenge = o.challenge := by
        by_cases h : o.challenge = ""
        · exact Or.inl h
        · exact Or.inr (Decidable.not_not.1 fun h' => h2 ⟨h, fun e => h' e.symm⟩)
      cases hv : s.verify doc p o with
      | true => simp [h1', h2']
      | false => simp

theorem verifyOne_ok_iff (suites : GoMap (Suite env)) (doc : JObj) (raw : Json) (o o' : Opts env.T) :
    verifyOne env suites doc raw o = (.ok (), o') ↔
      ∃ p s o1 o2, parseProof raw = some p ∧ p.type = "DataIntegrityProof" ∧ p.vm ≠ "" ∧ p.purpose ≠ "" ∧
        GoMap.get? suites p.cryptosuite = some s ∧ ¬ (s.requiresCreated = true ∧ p.created = "") ∧
        withCreated env (withSuite env o p) p = .ok o1 ∧ withExpires env o1 p = .ok o2 ∧
        p.purpose = o2.purpose ∧ resolveVM env o2 p.vm = .ok o' ∧ postChecks env s doc p o' = .ok () := by
  unfold verifyOne
  cases hp : parseProof raw with
  | none =>
    constructor
    · intro h; cases h
    · rintro ⟨p, _, _, _, h, _⟩; cases h
  | some p =>
    simp only
    by_cases h1 : p.type = "" ∨ p.vm = "" ∨ p.purpose = ""
    · rw [if_pos h1]
      constructor
      · intro h; cases h
      · rintro ⟨p', _, _, _, h, ht, hv, hu, _⟩
        cases h
        rcases h1 with h1 | h1 | h1
        · rw [h1] at ht; exact absurd ht (by decide)
        · exact absurd h1 hv
        · exact absurd h1 hu
    · rw [if_neg h1]
      by_cases h2 : p.type ≠ "DataIntegrityProof"
      · rw [if_pos h2]
        constructor
        · intro h; cases h
        · rintro ⟨p', _, _, _, h, ht, _⟩
          cases h; exact absurd ht h2
      · rw [if_neg h2]
        have h2' := Decidable.not_not.1 h2
        have hv : p.vm ≠ "" := fun h => h1 (Or.inr (Or.inl h))
        have hu : p.purpose ≠ "" := fun h => h1 (Or.inr (Or.inr h))
        cases hs : GoMap.get? suites p.cryptosuite with
        | none =>
          constructor
          · intro h; cases h
          · rintro ⟨p', _, _, _, h, _, _, _, h', _⟩
            cases h; rw [hs] at h'; cases h'
        | some s =>
          simp only
          unfold verifyWithSuite
          by_cases hc : (s.requiresCreated && p.created = "") = true
          · rw [if_pos hc]
            constructor
            · intro h; cases h
            · rintro ⟨p', s', _, _, h, _, _, _, h', hn, _⟩
              cases h; rw [hs] at h'; cases h'
              exact absurd (by simpa using hc) hn
          · rw [if_neg hc]
            have hc' : ¬ (s.requiresCreated = true ∧ p.created = "") := by simpa using hc
            cases hcr : withCreated env (withSuite env o p) p with
            | error e =>
              constructor
              · intro h; cases h
              · rintro ⟨p', s', _, _, h, _, _, _, h', _, h'', _⟩
                cases h; rw [hcr] at h''; cases h''
            | ok o1 =>
              simp only
              cases hex : withExpires env o1 p with
              | error e =>
                constructor
                · intro h; cases h
                · rintro ⟨p', s', _, _, h, _, _, _, h', _, h'', h3, _⟩
                  cases h; rw [hcr] at h''; cases h''; rw [hex] at h3; cases h3
              | ok o2 =>
                simp only
                by_cases hpu : p.purpose ≠ o2.purpose
                · rw [if_pos hpu]
                  constructor
                  · intro h; cases h
                  · rintro ⟨p', s', _, _, h, _, _, _, h', _, h'', h3, h4, _⟩
                    cases h; rw [hcr] at h''; cases h''; rw [hex] at h3; cases h3
                    exact absurd h4 hpu
                · rw [if_neg hpu]
                  cases hr : resolveVM env o2 p.vm with
                  | error e =>
                    constructor
                    · intro h; cases h
                    · rintro ⟨p', s', _, _, h, _, _, _, h', _, h'', h3, h4, h5, _⟩
                      cases h; rw [hcr] at h''; cases h''; rw [hex] at h3; cases h3
                      rw [hr] at h5; cases h5
                  | ok o3 =>
                    simp only
                    constructor
                    · intro h
                      cases h' : postChecks env s doc p o3 with
                      | error e => rw [h'] at h; cases h
                      | ok u =>
                        rw [h'] at h; cases h
                        exact ⟨p, s, o1, o2, rfl, h2', hv, hu, hs, hc', hcr, hex, Decidable.not_not.1 hpu, hr, h'⟩
                    · rintro ⟨p', s', _, _, h, _, _, _, h', _, h'', h3, h4, h5, h6⟩
                      cases h; rw [hs] at h'; cases h'
                      rw [hcr] at h''; cases h''; rw [hex] at h3; cases h3
                      rw [hr] at h5; cases h5
                      rw [h6]
/-- Options as a caller builds them: no method, suite or dates yet. -/
structure Fresh (o : Opts env.T) : Prop where
  vm : o.vm = none
  vmID : o.vmID = ""
  suiteType : o.suiteType = ""
  proofType : o.proofType = "DataIntegrityProof"
  created : o.created = env.zeroT
  expires : o.expires = env.zeroT

theorem freshOpts_fresh (pu dm ch : String) : Fresh env (freshOpts env pu dm ch) :=
  ⟨rfl, rfl, rfl, rfl, rfl, rfl⟩

theorem resolveVM_none {o o' : Opts env.T} (hvm : o.vm = none) (vmID : String) :
    resolveVM env o vmID = .ok o' ↔ ∃ r v, env.resolver = some r ∧
      Resolves r o.purpose (withVMID env o vmID).vmID v ∧ o' = { withVMID env o vmID with vm := some v } := by
  unfold resolveVM
  rw [hvm]
  simp only
  cases hr : env.resolver with
  | none => simp
  | some r =>
    simp only
    cases hl : lookupVM r o.purpose (withVMID env o vmID).vmID with
    | none =>
      constructor
      · intro h; cases h
      · rintro ⟨r', v, h, hv, _⟩
        cases h
        rw [← lookupVM_iff, hl] at hv; cases hv
    | some v =>
      constructor
      · intro h
        cases h
        exact ⟨r, v, rfl, (lookupVM_iff _ _ _ _).1 hl, rfl⟩
      · rintro ⟨r', v', h, hv, e⟩
        cases h
        rw [← lookupVM_iff, hl] at hv
        cases hv
        rw [e]

theorem resolveVM_some {o o' : Opts env.T} {v : VM} (hvm : o.vm = some v) (vmID : String) :
    resolveVM env o vmID = .ok o' ↔ o' = o := by
  unfold resolveVM
  rw [hvm]
  constructor
  · intro h; cases h; rfl
  · rintro rfl; rfl

theorem withCreated_zero {o o1 : Opts env.T} {p : Prf} (hz : env.isZero o.created = true) :
    withCreated env o p = .ok o1 ↔
      (p.created = "" ∧ o1 = o) ∨ (p.created ≠ "" ∧ ∃ t, env.parseT p.created = some t ∧ o1 = { o with created := t }) := by
  unfold withCreated
  by_cases h : p.created = ""
  · rw [if_neg (by simp [h])]
    constructor
    · intro e; cases e; exact Or.inl ⟨h, rfl⟩
    · rintro (⟨_, rfl⟩ | ⟨h', _⟩)
      · rfl
      · exact absurd h h'
  · rw [if_pos ⟨hz, h⟩]
    cases hp : env.parseT p.created with
    | none =>
      constructor
      · intro e; cases e
      · rintro (⟨h', _⟩ | ⟨_, t, ht, _⟩)
        · exact absurd h' h
        · cases ht
    | some t =>
      constructor
      · intro e; cases e; exact Or.inr ⟨h, t, rfl, rfl⟩
      · rintro (⟨h', _⟩ | ⟨_, t', ht, e⟩)
        · exact absurd h' h
        · cases ht; rw [e]

theorem withExpires_iff {o o1 : Opts env.T} {p : Prf} :
    withExpires env o p = .ok o1 ↔
      (p.expires = "" ∧ o1 = o) ∨ (p.expires ≠ "" ∧ ∃ t, env.parseT p.expires = some t ∧ env.past t = false ∧
        o1 = { o with expires := t }) := by
  unfold withExpires
  by_cases h : p.expires = ""
  · rw [if_neg (by simp [h])]
    constructor
    · intro e; cases e; exact Or.inl ⟨h, rfl⟩
    · rintro (⟨_, rfl⟩ | ⟨h', _⟩)
      · rfl
      · exact absurd h h'
  · rw [if_pos h]
    cases hp : env.parseT p.expires with
    | none =>
      constructor
      · intro e; cases e
      · rintro (⟨h', _⟩ | ⟨_, t, ht, _⟩)
        · exact absurd h' h
        · cases ht
    | some t =>
      simp only
      by_cases hpast : env.past t = true
      · rw [if_pos hpast]
        constructor
        · intro e; cases e
        · rintro (⟨h', _⟩ | ⟨_, t', ht, hp', _⟩)
          · exact absurd h' h
          · cases ht; rw [hpast] at hp'; cases hp'
      · rw [if_neg hpast]
        have hpf : env.past t = false := by cases h' : env.past t <;> simp_all
        constructor
        · intro e; cases e; exact Or.inr ⟨h, t, rfl, hpf, rfl⟩
        · rintro (⟨h', _⟩ | ⟨_, t', ht, _, e⟩)
          · exact absurd h' h
          · cases ht; rw [e]

/-- The dates of a proof, read into fresh options. -/
theorem dates_iff {o o2 : Opts env.T} {p : Prf} (hz : env.isZero env.zeroT = true)
    (hc : o.created = env.zeroT) (he : o.expires = env.zeroT) :
    (∃ o1, withCreated env o p = .ok o1 ∧ withExpires env o1 p = .ok o2) ↔
      (p.expires = "" ∨ ∃ t, env.parseT p.expires = some t ∧ env.past t = false) ∧
      ∃ tc te, DateOf env p.created tc ∧ DateOf env p.expires te ∧ o2 = { o with created := tc, expires := te } := by
  have hco : ∀ te, { o with created := env.zeroT, expires := te } = { o with expires := te } := by
    intro te; rw [← hc]
  have heo : ∀ tc, { o with created := tc, expires := env.zeroT } = { o with created := tc } := by
    intro te; rw [← he]
  constructor
  · rintro ⟨o1, h1, h2⟩
    rw [withCreated_zero env (by rw [hc]; exact hz)] at h1
    rw [withExpires_iff] at h2
    rcases h1 with ⟨h1, rfl⟩ | ⟨h1, tc, h1', rfl⟩
    · rcases h2 with ⟨h2, rfl⟩ | ⟨h2, te, h2', hp, rfl⟩
      · exact ⟨Or.inl h2, env.zeroT, env.zeroT, Or.inl ⟨h1, rfl⟩, Or.inl ⟨h2, rfl⟩, by rw [heo, ← hc]⟩
      · exact ⟨Or.inr ⟨te, h2', hp⟩, env.zeroT, te, Or.inl ⟨h1, rfl⟩, Or.inr ⟨h2, h2'⟩, by rw [hco]⟩
    · rcases h2 with ⟨h2, rfl⟩ | ⟨h2, te, h2', hp, rfl⟩
      · exact ⟨Or.inl h2, tc, env.zeroT, Or.inr ⟨h1, h1'⟩, Or.inl ⟨h2, rfl⟩, by rw [heo]⟩
      · exact ⟨Or.inr ⟨te, h2', hp⟩, tc, te, Or.inr ⟨h1, h1'⟩, Or.inr ⟨h2, h2'⟩, rfl⟩
  · rintro ⟨hp, tc, te, h1, h2, rfl⟩
    simp only [withCreated_zero env (show env.isZero o.created = true by rw [hc]; exact hz), withExpires_iff]
    rcases h1 with ⟨h1, rfl⟩ | ⟨h1, h1'⟩
    · refine ⟨o, Or.inl ⟨h1, rfl⟩, ?_⟩
      rcases h2 with ⟨h2, rfl⟩ | ⟨h2, h2'⟩
      · exact Or.inl ⟨h2, by rw [heo, ← hc]⟩
      · rcases hp with hp | ⟨t, ht, hp⟩
        · exact absurd hp h2
        · rw [h2'] at ht; cases ht
          exact Or.inr ⟨h2, te, h2', hp, by rw [hco]⟩
    · refine ⟨{ o with created := tc }, Or.inr ⟨h1, tc, h1', rfl⟩, ?_⟩
      rcases h2 with ⟨h2, rfl⟩ | ⟨h2, h2'⟩
      · exact Or.inl ⟨h2, by rw [heo]⟩
      · rcases hp with hp | ⟨t, ht, hp⟩
        · exact absurd hp h2
        · rw [h2'] at ht; cases ht
          exact Or.inr ⟨h2, te, h2', hp, rfl⟩

theorem resolves_vm_ne {r : String → Option DidDoc} {pu vmID : String} {v : VM} (h : Resolves r pu vmID v) :
    vmID ≠ "" ∧ pu ≠ "" := by
  obtain ⟨did, frag, d, ⟨h1, _⟩, _, ha⟩ := h
  constructor
  · intro e
    rw [e] at h1
    have := congrArg String.toList h1
    simp [String.toList_append] at this
  · rintro rfl
    rcases ha with h | h | h | h <;> exact absurd h.1 (by decide)

/-- The options after one accepted proof, starting from fresh ones. -/
def after (o : Opts env.T) (p : Prf) (tc te : env.T) (v : VM) : Opts env.T :=
  { o with suiteType := p.cryptosuite, created := tc, expires := te, vmID := p.vm, vm := some v }

/-- **One proof under fresh options**: accepted iff valid and of a configured suite; the options then
hold the proof's suite, dates and method. -/
theorem verifyOne_fresh_iff {suites : GoMap (Suite env)} (std : Standard env suites)
    (hz : env.isZero env.zeroT = true) (ext : CanonExt env) (doc : JObj) (raw : Json) {o : Opts env.T}
    (hf : Fresh env o) (o' : Opts env.T) :
    verifyOne env suites doc raw o = (.ok (), o') ↔
      ∃ p, IsProof raw p ∧ (GoMap.get? suites p.cryptosuite).isSome ∧
        Valid env doc o.purpose o.domain o.challenge p ∧
        ∃ r v tc te, env.resolver = some r ∧ Resolves r p.purpose p.vm v ∧ DateOf env p.created tc ∧
          DateOf env p.expires te ∧ o' = after env o p tc te v := by
  rw [verifyOne_ok_iff]
  have hws : ∀ p : Prf, withSuite env o p = { o with suiteType := p.cryptosuite } := by
    intro p; unfold withSuite; rw [if_pos hf.suiteType]
  have hreq : ∀ n s, GoMap.get? suites n = some s → s.requiresCreated = false ∧ n ≠ "" := by
    intro n s hs
    rcases std n s hs with ⟨h, rfl⟩ | ⟨h, rfl⟩
    · exact ⟨rfl, by rcases h with rfl | rfl <;> decide⟩
    · exact ⟨rfl, by rcases h with rfl | rfl <;> decide⟩
  have hfam : ∀ n s, GoMap.get? suites n = some s → SameFamily n n := by
    intro n s hs
    rcases std n s hs with ⟨h, _⟩ | ⟨h, _⟩
    · exact Or.inl ⟨h, h⟩
    · exact Or.inr ⟨h, h⟩
  constructor
  · rintro ⟨p, s, o1, o2, hp, ht, hv, hu, hs, hc, h1, h2, hpu, hr, hpost⟩
    rw [hws] at h1
    obtain ⟨hexp, tc, te, htc, hte, rfl⟩ :=
      (dates_iff env hz (o := { o with suiteType := p.cryptosuite }) hf.created hf.expires).1 ⟨o1, h1, h2⟩
    obtain ⟨r, v, hres, hvm, rfl⟩ := (resolveVM_none env (by exact hf.vm) p.vm).1 hr
    obtain ⟨hdm, hch, hver⟩ := (postChecks_iff env s doc p _).1 hpost
    have hid : ∀ (x : Opts env.T), x.vmID = "" → (withVMID env x p.vm) = { x with vmID := p.vm } := by
      intro x hx; unfold withVMID; rw [if_pos hx]
    have hsn := (hreq _ _ hs).2
    simp only [hid ({ o with suiteType := p.cryptosuite, created := tc, expires := te }) hf.vmID] at hvm hdm hch hver hpost
    simp only at hpu
    rw [suite_verify_iff env std hs doc p _ (by exact hsn)] at hver
    obtain ⟨_, hpt, v', pk, ha, hv', hk, hsig⟩ := hver
    cases hv'
    rw [← hpu] at hvm
    refine ⟨p, (parseProof_iff raw p (by rw [ht]; decide)).1 hp, by rw [hs]; rfl,
      ⟨ht, hpu, hexp, hdm, hch, r, v, pk, ha, tc, te, _, hres, hvm, hk, htc, hte, ?_, hsig⟩,
      r, v, tc, te, hres, hvm, htc, hte, ?_⟩
    · have := proofConfig_spec env (JObj.at doc "@context") p.cryptosuite
        { o with suiteType := p.cryptosuite, created := tc, expires := te, vmID := p.vm, vm := some v }
      rw [hpu]
      exact this
    · unfold withVMID after
      rw [if_pos (by exact hf.vmID)]
  · rintro ⟨p, hp, hsome, hval, r, v, tc, te, hres, hvm, htc, hte, rfl⟩
    obtain ⟨s, hs⟩ := Option.isSome_iff_exists.1 hsome
    obtain ⟨r', v', pk, ha, tc', te', conf, hres', hvm', hk, htc', hte', hconf, hsig⟩ := hval.signature
    rw [hres] at hres'; cases hres'
    have hdate : ∀ {x : String} {t t' : env.T}, DateOf env x t → DateOf env x t' → t = t' := by
      rintro x t t' (⟨h, rfl⟩ | ⟨h, e⟩) (⟨h', rfl⟩ | ⟨h', e'⟩)
      · rfl
      · exact absurd h h'
      · exact absurd h' h
      · rw [e] at e'; exact Option.some.inj e'
    cases hdate htc htc'
    cases hdate hte hte'
    have : v' = v := by
      have h1 := (lookupVM_iff _ _ _ _).2 hvm
      rw [(lookupVM_iff _ _ _ _).2 hvm'] at h1
      exact Option.some.inj h1
    subst this
    obtain ⟨o1, h1, h2⟩ :=
      (dates_iff env hz (o := { o with suiteType := p.cryptosuite }) (p := p) hf.created hf.expires).2
        ⟨hval.unexpired, tc, te, htc, hte, rfl⟩
    have hne := resolves_vm_ne hvm
    refine ⟨p, s, o1, _, (parseProof_iff raw p (by rw [hval.isType]; decide)).2 hp, hval.isType, hne.1, hne.2, hs,
      by rw [(hreq _ _ hs).1]; simp, by rw [hws]; exact h1, h2, hval.hasPurpose, ?_, ?_⟩
    · rw [resolveVM_none env (by exact hf.vm) p.vm]
      refine ⟨r, v', hres, ?_, ?_⟩
      · unfold withVMID; rw [if_pos (by exact hf.vmID)]
        show Resolves r o.purpose p.vm v'
        rw [← hval.hasPurpose]; exact hvm
      · unfold withVMID after; rw [if_pos (by exact hf.vmID)]
    · rw [postChecks_iff]
      refine ⟨hval.hasDomain, hval.hasChallenge, ?_⟩
      rw [suite_verify_iff env std hs doc p _ (by exact (hreq _ _ hs).2)]
      refine ⟨hfam _ _ hs, hf.proofType, v', pk, ha, rfl, hk, ?_⟩
      obtain ⟨sig, cd, cc, h1, h2, h3, h4⟩ := hsig
      refine ⟨sig, cd, cc, h1, h2, ?_, h4⟩
      rw [← h3]
      apply ext
      rw [hval.hasPurpose] at hconf
      exact config_same env
        (proofConfig_spec env (JObj.at doc "@context") p.cryptosuite (after env o p tc te v')) hconf

/-! ## C48 -/

theorem verifyLoop_single (suites : GoMap (Suite env)) (doc : JObj) (r : Json) (o : Opts env.T) :
    verifyLoop env suites doc [r] o = verifyOne env suites doc r o := by
  unfold verifyLoop
  rcases verifyOne env suites doc r o with ⟨e | u, o'⟩
  · rfl
  · rfl

theorem onlyProof_loop {suites : GoMap (Suite env)} {doc : JObj} {raw : Json} (h : OnlyProof doc raw)
    (o : Opts env.T) :
    verifyProof env suites doc o = verifyOne env suites (GoMap.del doc "proof") raw o := by
  unfold verifyProof
  rcases h with h | ⟨h, hn, ha⟩
  · rw [h]; exact verifyLoop_single env suites _ raw o
  · rw [h]
    rw [← verifyLoop_single]
    cases raw with
    | null => exact absurd rfl hn
    | arr l => exact absurd rfl (ha l)
    | _ => rfl

/-- **C48**: for a document with one proof, under fresh options and with the suites of this
repository, `VerifyProof` succeeds iff the proof is of a configured suite and `Valid`. -/
theorem verify_single_iff {suites : GoMap (Suite env)} (std : Standard env suites)
    (hz : env.isZero env.zeroT = true) (ext : CanonExt env) {doc : JObj} {raw : Json} (hone : OnlyProof doc raw)
    {o : Opts env.T} (hf : Fresh env o) :
    (verifyProof env suites doc o).1 = .ok () ↔
      ∃ p, IsProof raw p ∧ (GoMap.get? suites p.cryptosuite).isSome ∧
        Valid env (GoMap.del doc "proof") o.purpose o.domain o.challenge p := by
  rw [onlyProof_loop env hone]
  constructor
  · intro h
    have : verifyOne env suites (GoMap.del doc "proof") raw o =
        (.ok (), (verifyOne env suites (GoMap.del doc "proof") raw o).2) := by rw [← h]
    obtain ⟨p, h1, h2, h3, _⟩ := (verifyOne_fresh_iff env std hz ext _ raw hf _).1 this
    exact ⟨p, h1, h2, h3⟩
  · rintro ⟨p, h1, h2, h3⟩
    obtain ⟨r, v, pk, ha, tc, te, conf, hr, hv, _, htc, hte, _⟩ := h3.signature
    rw [(verifyOne_fresh_iff env std hz ext _ raw hf _).2 ⟨p, h1, h2, h3, r, v, tc, te, hr, hv, htc, hte, rfl⟩]

/-! ## C49 -/

/-- **C49 (partial)**: without a `proof` member verification fails; with one it succeeds without
looking at any proof exactly when the member is `null` or an empty list. -/
theorem no_proof_fails_partial (suites : GoMap (Suite env)) (doc : JObj) (o : Opts env.T)
    (h : GoMap.get? doc "proof" = none) : (verifyProof env suites doc o).1 = .error .missing := by
  unfold verifyProof; rw [h]

theorem empty_proof_accepted (suites : GoMap (Suite env)) (doc : JObj) (o : Opts env.T)
    (h : GoMap.get? doc "proof" = some .null ∨ GoMap.get? doc "proof" = some (.arr [])) :
    (verifyProof env suites doc o).1 = .ok () := by
  unfold verifyProof; rcases h with h | h <;> rw [h] <;> rfl

/-- Success on anything else means that at least one proof object was found, of a configured suite,
with the type and purpose required. -/
theorem accepted_has_proof_partial (suites : GoMap (Suite env)) (doc : JObj) (o : Opts env.T)
    (hok : (verifyProof env suites doc o).1 = .ok ())
    (h : GoMap.get? doc "proof" ≠ some .null) (h' : GoMap.get? doc "proof" ≠ some (.arr [])) :
    ∃ raw p, (GoMap.get? doc "proof" = some raw ∨ ∃ rs, GoMap.get? doc "proof" = some (.arr (raw :: rs))) ∧
      IsProof raw p ∧ p.type = "DataIntegrityProof" ∧ (GoMap.get? suites p.cryptosuite).isSome := by
  unfold verifyProof at hok
  cases hg : GoMap.get? doc "proof" with
  | none => rw [hg] at hok; cases hok
  | some raw =>
    rw [hg] at hok h h'
    simp only at hok
    have key : ∀ r rs, (verifyLoop env suites (GoMap.del doc "proof") (r :: rs) o).1 = .ok () →
        ∃ p, IsProof r p ∧ p.type = "DataIntegrityProof" ∧ (GoMap.get? suites p.cryptosuite).isSome := by
      intro r rs h
      unfold verifyLoop at h
      cases he : verifyOne env suites (GoMap.del doc "proof") r o with
      | mk e o' =>
        cases e with
        | error e => rw [he] at h; cases h
        | ok u =>
          obtain ⟨p, s, _, _, hp, ht, _, _, hs, _⟩ := (verifyOne_ok_iff env suites _ r o o').1 he
          exact ⟨p, (parseProof_iff r p (by rw [ht]; decide)).1 hp, ht, by rw [hs]; rfl⟩
    cases raw with
    | null => exact absurd rfl h
    | arr l =>
      cases l with
      | nil => exact absurd rfl h'
      | cons r rs =>
        obtain ⟨p, hp⟩ := key r rs hok
        exact ⟨r, p, Or.inr ⟨rs, rfl⟩, hp⟩
    | bool b => obtain ⟨p, hp⟩ := key _ [] hok; exact ⟨_, p, Or.inl rfl, hp⟩
    | num b => obtain ⟨p, hp⟩ := key _ [] hok; exact ⟨_, p, Or.inl rfl, hp⟩
    | str b => obtain ⟨p, hp⟩ := key _ [] hok; exact ⟨_, p, Or.inl rfl, hp⟩
    | obj b => obtain ⟨p, hp⟩ := key _ [] hok; exact ⟨_, p, Or.inl rfl, hp⟩

end VC.DI
