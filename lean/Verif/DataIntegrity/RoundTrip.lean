import Verif.DataIntegrity.Examples
/-!
# Data integrity: sign / verify round trip (C51)
-/

namespace VC.DI

open VC (Json JObj GoMap NoChar)
open VC.DI.Spec

variable (env : Env)

/-- The time survives `Format` followed by `Parse` as far as the signed configuration can tell. -/
def Survives (t : env.T) : Prop :=
  env.fmtT t ≠ "" ∧ ∃ t', env.parseT (env.fmtT t) = some t' ∧ env.fmtT t' = env.fmtT t ∧
    env.isZero t' = env.isZero t

/-- The expiry date, if any, survives formatting and is not past when the proof is verified. -/
def NotExpired (t : env.T) : Prop :=
  env.isZero t = true ∨ (Survives env t ∧ ∀ t', env.parseT (env.fmtT t) = some t' → env.past t' = false)

/-- The signer signs with the private key of the method's public key under the suite. -/
def SignsFor (cs : String) (v : VM) : Prop :=
  ∀ pk h msg sig, KeyFor env cs v pk h → env.sign v.jwk msg = some sig → env.verify sig msg pk = true

theorem keyFor_jwk {cs : String} {v : VM} {pk : PubKey} {h : HashAlg} (hk : KeyFor env cs v pk h) :
    jwkOf pk = v.jwk := by
  cases hk with
  | jwk256 _ hj _ => rw [hj]; rfl
  | jwk384 _ hj _ => rw [hj]; rfl
  | multi256 _ hj _ _ _ => rw [hj]; rfl
  | multi384 _ hj _ _ _ => rw [hj]; rfl
  | edJwk _ hj => rw [hj]; rfl
  | edBytes _ hj _ => rw [hj]; rfl

theorem createFrom_some {r : Option (Bytes × PubKey)} {cs : String} {o : Opts env.T} {p : Prf}
    (h : createFrom env r cs o = some p) : ∃ msg pk sig, r = some (msg, pk) ∧ env.sign (jwkOf pk) msg = some sig ∧
      p = { id := "", type := "DataIntegrityProof", cryptosuite := cs, purpose := o.purpose,
            vm := (o.vm.map VM.id).getD "", created := env.fmtT o.created,
            expires := if env.isZero o.expires then "" else env.fmtT o.expires,
            domain := o.domain, challenge := o.challenge, value := env.mbEncode sig, previous := "" } := by
  unfold createFrom at h
  cases r with
  | none => cases h
  | some x =>
    obtain ⟨msg, pk⟩ := x
    simp only at h
    cases hs : env.sign (jwkOf pk) msg with
    | none => rw [hs] at h; cases h
    | some sig =>
      rw [hs] at h
      exact ⟨msg, pk, sig, rfl, hs, (Option.some.inj h).symm⟩

/-- The transformation depends on the options only through the method, the names and the signed
configuration. -/
theorem ecdsaTransform_congr {doc : JObj} {o o' : Opts env.T} (hv : o.vm = o'.vm) (ht : o.proofType = o'.proofType)
    (hs : o.suiteType = o'.suiteType)
    (hc : ∀ c st, proofConfig env c st o = proofConfig env c st o') :
    ecdsaTransform env doc o = ecdsaTransform env doc o' := by
  unfold ecdsaTransform
  rw [hv, ht, hs, hc]

theorem eddsaTransform_congr {doc : JObj} {o o' : Opts env.T} (hv : o.vm = o'.vm) (ht : o.proofType = o'.proofType)
    (hs : o.suiteType = o'.suiteType)
    (hc : ∀ c st, proofConfig env c st o = proofConfig env c st o') :
    eddsaTransform env doc o = eddsaTransform env doc o' := by
  unfold eddsaTransform
  rw [hv, ht, hs, hc]

theorem ecdsaTransform_key {doc : JObj} {o : Opts env.T} {v : VM} {msg : Bytes} {pk : PubKey} (hv : o.vm = some v)
    (h : ecdsaTransform env doc o = some (msg, pk)) : ∃ ha, KeyFor env o.suiteType v pk ha := by
  unfold ecdsaTransform at h
  rw [hv] at h
  simp only at h
  cases hk : ecdsaKey env v with
  | none => rw [hk] at h; cases h
  | some x =>
    obtain ⟨pk', ha⟩ := x
    rw [hk] at h
    simp only at h
    split at h
    · cases h
    · split at h
      · cases h
      · rename_i hst
        rw [Option.map_eq_some_iff] at h
        obtain ⟨_, _, e⟩ := h
        cases e
        refine ⟨ha, (ecdsaKey_iff env _ ?_ v pk ha).1 hk⟩
        rw [Decidable.not_and_iff_not_or_not] at hst
        rcases hst with hst | hst
        · exact Or.inl (Decidable.not_not.1 hst)
        · exact Or.inr (Decidable.not_not.1 hst)

theorem eddsaTransform_key {doc : JObj} {o : Opts env.T} {v : VM} {msg : Bytes} {pk : PubKey} (hv : o.vm = some v)
    (h : eddsaTransform env doc o = some (msg, pk)) : ∃ ha, KeyFor env o.suiteType v pk ha := by
  unfold eddsaTransform at h
  rw [hv] at h
  simp only at h
  cases hk : eddsaKey v with
  | none => rw [hk] at h; cases h
  | some x =>
    obtain ⟨pk', ha⟩ := x
    rw [hk] at h
    simp only at h
    split at h
    · cases h
    · split at h
      · cases h
      · rename_i hst
        rw [Option.map_eq_some_iff] at h
        obtain ⟨_, _, e⟩ := h
        cases e
        refine ⟨ha, (eddsaKey_iff env _ ?_ v pk ha).1 hk⟩
        rw [Decidable.not_and_iff_not_or_not] at hst
        rcases hst with hst | hst
        · exact Or.inl (Decidable.not_not.1 hst)
        · exact Or.inr (Decidable.not_not.1 hst)

/-- A created proof verifies under options that give the same method, names and configuration. -/
theorem create_verify {suites vs : GoMap (Suite env)} (std : Standard env suites) (vstd : Standard env vs)
    {s s' : Suite env} {n : String} {doc : JObj} {o o' : Opts env.T} {p : Prf} {v : VM}
    (hs : GoMap.get? suites o.suiteType = some s)
    (hs' : GoMap.get? vs n = some s') (hfam : SameFamily n o.suiteType)
    (mb : ∀ b, env.mbDecode (env.mbEncode b) = some b) (hv : o.vm = some v) (hsig : SignsFor env o.suiteType v)
    (hv' : o'.vm = some v) (ht : o.proofType = o'.proofType) (hst : o'.suiteType = o.suiteType)
    (hc : ∀ c st, proofConfig env c st o = proofConfig env c st o')
    (h : s.create doc o = some p) : s'.verify doc p o' = true := by
  have hne : ∀ a b : String, (a = "ecdsa-2019" ∨ a = "ecdsa-rdfc-2019") →
      (b = "eddsa-rdfc-2022" ∨ b = "eddsa-2022") → a ≠ b := by
    rintro a b (rfl | rfl) (rfl | rfl) <;> decide
  rcases std _ _ hs with ⟨hn, rfl⟩ | ⟨hn, rfl⟩
  · have hs'' : s' = ecdsaSuite env := by
      rcases vstd _ _ hs' with ⟨_, h⟩ | ⟨hn', _⟩
      · exact h
      · rcases hfam with ⟨a, _⟩ | ⟨_, b⟩
        · exact absurd rfl (hne _ _ a hn')
        · exact absurd rfl (hne _ _ hn b)
    subst hs''
    have hne0 : o.suiteType ≠ "" := by rcases hn with h | h <;> rw [h] <;> decide
    have hd : ecdsaDefault env o = o := by unfold ecdsaDefault; rw [if_neg hne0]
    have hd' : ecdsaDefault env o' = o' := by unfold ecdsaDefault; rw [if_neg (by rw [hst]; exact hne0)]
    have h : createFrom env (ecdsaTransform env doc (ecdsaDefault env o)) (ecdsaDefault env o).suiteType o = some p := h
    rw [hd] at h
    obtain ⟨msg, pk, sig, h1, h2, rfl⟩ := createFrom_some env h
    obtain ⟨ha, hk⟩ := ecdsaTransform_key env hv h1
    show verifySig env (ecdsaTransform env doc (ecdsaDefault env o')) _ = true
    rw [hd', ← ecdsaTransform_congr env (hv.trans hv'.symm) ht hst.symm hc, h1, verifySig_iff]
    refine ⟨msg, pk, sig, rfl, mb sig, hsig pk ha msg sig hk ?_⟩
    rw [← keyFor_jwk env hk]; exact h2
  · have hs'' : s' = eddsaSuite env := by
      rcases vstd _ _ hs' with ⟨hn', _⟩ | ⟨_, h⟩
      · rcases hfam with ⟨_, b⟩ | ⟨a, _⟩
        · exact absurd rfl (hne _ _ b hn)
        · exact absurd rfl (hne _ _ hn' a)
      · exact h
    subst hs''
    have h : createFrom env (eddsaTransform env doc o) "eddsa-rdfc-2022" o = some p := h
    obtain ⟨msg, pk, sig, h1, h2, rfl⟩ := createFrom_some env h
    obtain ⟨ha, hk⟩ := eddsaTransform_key env hv h1
    show verifySig env (eddsaTransform env doc o') _ = true
    rw [← eddsaTransform_congr env (hv.trans hv'.symm) ht hst.symm hc, h1, verifySig_iff]
    refine ⟨msg, pk, sig, rfl, mb sig, hsig pk ha msg sig hk ?_⟩
    rw [← keyFor_jwk env hk]; exact h2

theorem del_set_absent (m : JObj) (k : String) (v : Json) (h : GoMap.get? m k = none) :
    GoMap.del (GoMap.set m k v) k = m := by
  induction m with
  | nil => simp [GoMap.set, GoMap.del]
  | cons a m ih =>
    obtain ⟨k', v'⟩ := a
    rw [GoMap.get?_cons] at h
    by_cases hk : k' = k
    · rw [if_pos hk] at h; cases h
    · rw [if_neg hk] at h
      unfold GoMap.set
      rw [if_neg hk]
      have := ih h
      unfold GoMap.del at this ⊢
      rw [List.filter_cons]
      simp [hk, this]

/-- What `AddProof` returns and the fields of the proof it adds. -/
theorem addProof_ok {suites : GoMap (Suite env)} (std : Standard env suites) {doc doc' : JObj} {o : Opts env.T}
    (hvm : o.vm = none) (h : addProof env suites doc o = .ok doc') :
    ∃ s r v p o1, GoMap.get? suites o.suiteType = some s ∧ env.resolver = some r ∧ Resolves r o.purpose o.vmID v ∧
      o1 = { o with vm := some v } ∧ s.create doc o1 = some p ∧ doc' = GoMap.set doc "proof" (.obj (marshalProof p)) ∧
      p.type = "DataIntegrityProof" ∧ p.purpose = o.purpose ∧ p.vm = v.id ∧ p.domain = o.domain ∧
      p.challenge = o.challenge ∧ p.created = env.fmtT o.created ∧
      p.expires = (if env.isZero o.expires then "" else env.fmtT o.expires) ∧
      p.cryptosuite = (if o.suiteType = "eddsa-2022" then "eddsa-rdfc-2022" else o.suiteType) := by
  unfold addProof at h
  cases hs : GoMap.get? suites o.suiteType with
  | none => rw [hs] at h; cases h
  | some s =>
    rw [hs] at h
    simp only at h
    cases hr : resolveVM env o "" with
    | error e => rw [hr] at h; cases h
    | ok o1 =>
      rw [hr] at h
      simp only at h
      obtain ⟨r, v, hres, hv, ho1⟩ := (resolveVM_none env hvm "").1 hr
      have hid : withVMID env o "" = o := by
        unfold withVMID
        by_cases hz : o.vmID = ""
        · rw [if_pos hz, ← hz]
        · rw [if_neg hz]
      rw [hid] at hv ho1
      cases hc : s.create doc o1 with
      | none => rw [hc] at h; cases h
      | some p =>
        rw [hc] at h
        simp only at h
        split at h
        · refine ⟨s, r, v, p, o1, rfl, hres, hv, ho1, hc, by cases h; rfl, ?_⟩
          rcases std _ _ hs with ⟨hn, rfl⟩ | ⟨hn, rfl⟩
          · have hne0 : o1.suiteType ≠ "" := by rw [ho1]; rcases hn with h | h <;> simp [h]
            have hd : ecdsaDefault env o1 = o1 := by unfold ecdsaDefault; rw [if_neg hne0]
            have hc : createFrom env (ecdsaTransform env doc (ecdsaDefault env o1)) (ecdsaDefault env o1).suiteType o1
              = some p := hc
            rw [hd] at hc
            obtain ⟨_, _, _, _, _, rfl⟩ := createFrom_some env hc
            rw [ho1]
            refine ⟨rfl, rfl, rfl, rfl, rfl, rfl, rfl, ?_⟩
            rw [if_neg (show ¬ o.suiteType = "eddsa-2022" by rcases hn with h | h <;> rw [h] <;> decide)]
          · have hc : createFrom env (eddsaTransform env doc o1) "eddsa-rdfc-2022" o1 = some p := hc
            obtain ⟨_, _, _, _, _, rfl⟩ := createFrom_some env hc
            rw [ho1]
            refine ⟨rfl, rfl, rfl, rfl, rfl, rfl, rfl, ?_⟩
            show "eddsa-rdfc-2022" = if o.suiteType = "eddsa-2022" then "eddsa-rdfc-2022" else o.suiteType
            rcases hn with h | h <;> rw [h] <;> decide
        · cases h

/-- The options a verifier starts from: those of the signer's expectations, with the suite left open
or equal to the signer's. -/
structure Expects (o vo : Opts env.T) : Prop where
  vm : vo.vm = none
  vmID : vo.vmID = ""
  proofType : vo.proofType = "DataIntegrityProof"
  created : vo.created = env.zeroT
  expires : vo.expires = env.zeroT
  purpose : vo.purpose = o.purpose
  domain : vo.domain = o.domain
  challenge : vo.challenge = o.challenge
  suite : vo.suiteType = o.suiteType ∨ (vo.suiteType = "" ∧ o.suiteType ≠ "eddsa-2022")

/-- **C51 (partial)**: a document without a proof, signed by `AddProof`, verifies with the same
expectations.  Assumed: the signer holds the method's private key, the method found is listed under the
very id the options name, multibase decodes what it encoded, the dates survive formatting and the proof
has not expired.  Not covered, because false: documents that already carry a proof
(`resign_fails`), `eddsa-2022` verified without naming the suite (`eddsa2022_alias_fails`), methods
listed under another form of their id (`relative_id_fails`). -/
theorem sign_verify_roundtrip_partial {suites vs : GoMap (Suite env)} (std : Standard env suites)
    (vstd : Standard env vs) (hz : env.isZero env.zeroT = true)
    (mb : ∀ b, env.mbDecode (env.mbEncode b) = some b)
    {doc doc' : JObj} {o vo : Opts env.T} (hvm : o.vm = none) (hpt : o.proofType = "DataIntegrityProof")
    (hreg : ∀ n, SameFamily n o.suiteType → (GoMap.get? vs n).isSome)
    (hkey : ∀ r v, env.resolver = some r → Resolves r o.purpose o.vmID v →
      v.id = o.vmID ∧ SignsFor env o.suiteType v)
    (hcr : Survives env o.created) (hex : NotExpired env o.expires)
    (hdoc : GoMap.get? doc "proof" = none) (hexp : Expects env o vo)
    (h : addProof env suites doc o = .ok doc') : (verifyProof env vs doc' vo).1 = .ok () := by
  obtain ⟨s, r, v, p, o1, hs, hres, hv, rfl, hc, rfl, ht, hpu, hpv, hdm, hch, hcre, hexpi, hcs⟩ :=
    addProof_ok env std hvm h
  obtain ⟨hid, hsf⟩ := hkey r v hres hv
  have hfam : SameFamily p.cryptosuite o.suiteType := by
    rw [hcs]
    rcases std _ _ hs with ⟨hn, _⟩ | ⟨hn, _⟩
    · left; refine ⟨?_, hn⟩; rw [if_neg (by rcases hn with h | h <;> rw [h] <;> decide)]; exact hn
    · right; refine ⟨?_, hn⟩
      split
      · exact Or.inl rfl
      · exact hn
  obtain ⟨s', hs'⟩ := Option.isSome_iff_exists.1 (hreg _ hfam)
  have hone : OnlyProof (GoMap.set doc "proof" (.obj (marshalProof p))) (.obj (marshalProof p)) :=
    Or.inr ⟨GoMap.get?_set_self _ _ _, by simp, by simp⟩
  rw [onlyProof_loop env hone, del_set_absent _ _ _ hdoc]
  obtain ⟨hfz, tc, hptc, hftc, hztc⟩ := hcr
  have hws : withSuite env vo p = { vo with suiteType := o.suiteType } := by
    unfold withSuite
    rcases hexp.suite with h' | ⟨h', hne⟩
    · by_cases he : vo.suiteType = ""
      · have : o.suiteType ≠ "" := by
          rcases std _ _ hs with ⟨hn, _⟩ | ⟨hn, _⟩ <;> rcases hn with h | h <;> rw [h] <;> decide
        exact absurd (h'.symm.trans he) this
      · rw [if_neg he, ← h']
    · rw [if_pos h', hcs, if_neg hne]
  have hdates : ∃ te o2, (∃ o1, withCreated env ({ vo with suiteType := o.suiteType }) p = .ok o1 ∧
      withExpires env o1 p = .ok o2) ∧ o2 = { vo with suiteType := o.suiteType, created := tc, expires := te } ∧
      env.isZero te = env.isZero o.expires ∧ (env.isZero te = false → env.fmtT te = env.fmtT o.expires) := by
    have hc0 : withCreated env ({ vo with suiteType := o.suiteType }) p =
        .ok { vo with suiteType := o.suiteType, created := tc } := by
      rw [withCreated_zero env (by show env.isZero vo.created = true; rw [hexp.created]; exact hz)]
      right
      exact ⟨by rw [hcre]; exact hfz, tc, by rw [hcre]; exact hptc, rfl⟩
    rcases hex with hzero | ⟨⟨hne, te, hpte, hfte, hzte⟩, hpast⟩
    · refine ⟨env.zeroT, { vo with suiteType := o.suiteType, created := tc }, ⟨_, hc0, ?_⟩, ?_, ?_, ?_⟩
      · rw [withExpires_iff]; left
        exact ⟨by rw [hexpi, if_pos hzero], rfl⟩
      · rw [← hexp.expires]
      · rw [hz, hzero]
      · intro h0; rw [hz] at h0; cases h0
    · by_cases hzero : env.isZero o.expires = true
      · refine ⟨env.zeroT, { vo with suiteType := o.suiteType, created := tc }, ⟨_, hc0, ?_⟩, ?_, ?_, ?_⟩
        · rw [withExpires_iff]; left
          exact ⟨by rw [hexpi, if_pos hzero], rfl⟩
        · rw [← hexp.expires]
        · rw [hz, hzero]
        · intro h0; rw [hz] at h0; cases h0
      · refine ⟨te, _, ⟨_, hc0, ?_⟩, rfl, hzte, fun _ => hfte⟩
        rw [withExpires_iff]; right
        have hpe : p.expires = env.fmtT o.expires := by rw [hexpi, if_neg hzero]
        exact ⟨by rw [hpe]; exact hne, te, by rw [hpe]; exact hpte, hpast te hpte, rfl⟩
  obtain ⟨te, o2, ⟨oc, hwc, hwe⟩, rfl, hzte, hfte⟩ := hdates
  have hne := resolves_vm_ne hv
  have hpvm : p.vm = o.vmID := by rw [hpv, hid]
  have hfinal : verifyOne env vs doc (.obj (marshalProof p)) vo =
      (.ok (), { vo with suiteType := o.suiteType, created := tc, expires := te, vmID := o.vmID, vm := some v }) := by
    rw [verifyOne_ok_iff]
    refine ⟨p, s', oc, _, parse_marshal p, ht, by rw [hpvm]; exact hne.1, by rw [hpu]; exact hne.2, hs', ?_, ?_, hwe,
      ?_, ?_, ?_⟩
    · rw [hcre]; rintro ⟨_, h0⟩; exact hfz h0
    · rw [hws]; exact hwc
    · rw [hpu]; exact hexp.purpose.symm
    · rw [resolveVM_none env (by exact hexp.vm)]
      refine ⟨r, v, hres, ?_, ?_⟩
      · unfold withVMID; rw [if_pos (by exact hexp.vmID)]
        show Resolves r vo.purpose p.vm v
        rw [hexp.purpose, hpvm]; exact hv
      · unfold withVMID; rw [if_pos (by exact hexp.vmID), hpvm]
    · rw [postChecks_iff]
      refine ⟨Or.inr ?_, Or.inr ?_, ?_⟩
      · show p.domain = vo.domain; rw [hdm, hexp.domain]
      · show p.challenge = vo.challenge; rw [hch, hexp.challenge]
      · refine create_verify env std vstd (o := { o with vm := some v }) (v := v) hs hs' hfam mb rfl hsf rfl
          (by show o.proofType = vo.proofType; rw [hpt, hexp.proofType]) rfl ?_ hc
        intro c st
        unfold proofConfig
        simp only [hexp.purpose, hexp.domain, hexp.challenge, hztc, hftc, hzte]
        by_cases h0 : env.isZero o.expires = true
        · simp [h0]
        · rw [hfte (by rw [hzte]; simpa using h0)]
  rw [hfinal]

/-! ## Instances and counterexamples -/

/-- Signing options of the examples. -/
def exSign' (suite vmID : String) : Opts exE.T :=
  ⟨"assertionMethod", vmID, none, "DataIntegrityProof", suite, "dom", "ch", (0 : Int), (5 : Int)⟩

/-- Verification options with the same expectations. -/
def exVer (suite : String) : Opts exE.T :=
  ⟨"assertionMethod", "", none, "DataIntegrityProof", suite, "dom", "ch", (0 : Int), (0 : Int)⟩

/-- Sign, then verify. -/
def exSV (doc : JObj) (so vo : Opts exE.T) : Option (Except Err Unit) :=
  match addProof exE exSuites doc so with
  | .error _ => none
  | .ok doc' => some (verifyProof exE exSuites doc' vo).1

/-- A document without a proof. -/
def exBare : JObj := [("@context", .str "ctx"), ("name", .str "n")]

theorem roundtrip_examples :
    exSV exBare (exSign' "ecdsa-rdfc-2019" "did:a#k") (exVer "") = some (.ok ()) ∧
    exSV exBare (exSign' "ecdsa-2019" "did:a#k") (exVer "") = some (.ok ()) ∧
    exSV exBare (exSign' "eddsa-rdfc-2022" "did:a#k") (exVer "") = some (.ok ()) ∧
    exSV exBare (exSign' "eddsa-2022" "did:a#k") (exVer "eddsa-2022") = some (.ok ()) := by
  refine ⟨rfl, rfl, rfl, rfl⟩

theorem exE_mb (b : Bytes) : exE.mbDecode (exE.mbEncode b) = some b := by
  show exDec (exEnc b) = some b
  unfold exDec exEnc
  rw [String.toList_ofList, List.map_map]
  congr 1
  conv => rhs; rw [← List.map_id b]
  apply List.map_congr_left
  intro x _
  have hx : x.toNat < 256 := x.toNat_lt
  have hv : x.toNat.isValidChar := Or.inl (by omega)
  show UInt8.ofNat (Char.ofNat x.toNat).toNat = x
  rw [show (Char.ofNat x.toNat).toNat = x.toNat by simp [Char.ofNat, hv, Char.toNat, Char.ofNatAux]]
  exact UInt8.ofNat_toNat

/-- The hypotheses of `sign_verify_roundtrip_partial` are met by a concrete signing. -/
example (doc' : JObj) (h : addProof exE exSuites exBare (exSign' "ecdsa-2019" "did:a#k") = .ok doc') :
    (verifyProof exE exSuites doc' (exVer "")).1 = .ok () := by
  refine sign_verify_roundtrip_partial exE (doc := exBare) (o := exSign' "ecdsa-2019" "did:a#k") exSuites_std exSuites_std
    rfl exE_mb rfl rfl ?_ ?_
    ⟨by decide, (0 : Int), rfl, rfl, rfl⟩ (Or.inr ⟨⟨by decide, (5 : Int), rfl, rfl, rfl⟩, ?_⟩) rfl
    ⟨rfl, rfl, rfl, rfl, rfl, rfl, rfl, rfl, Or.inr ⟨rfl, by decide⟩⟩ h
  · intro n hn
    rcases hn with ⟨hn, _⟩ | ⟨_, hn⟩
    · rcases hn with rfl | rfl <;> rfl
    · exact absurd hn (by decide)
  · intro r v hr hv
    cases hr
    rw [← lookupVM_iff] at hv
    have hl : lookupVM exResolve (exSign' "ecdsa-2019" "did:a#k").purpose (exSign' "ecdsa-2019" "did:a#k").vmID =
      some ⟨"did:a#k", some ⟨"P-256", [7]⟩, []⟩ := rfl
    rw [hl] at hv
    cases hv
    refine ⟨rfl, ?_⟩
    intro pk ha msg sig hk hs
    have hk := (ecdsaKey_iff exE "ecdsa-2019" (Or.inl rfl) _ _ _).2 hk
    cases hk
    have hs : exSign (some ⟨"P-256", [7]⟩) msg = some sig := hs
    cases hs
    show ((7 :: msg) == _) = true
    exact beq_self_eq_true _
  · intro t' ht
    cases ht
    rfl

example : (addProof exE exSuites exBare (exSign' "ecdsa-2019" "did:a#k")).isOk = true := rfl

/-- **Signing a document that already carries a proof gives one that does not verify**: the old proof
is part of what is signed, then replaced. -/
theorem resign_fails : exSV (exDoc (exProof "did:a#k" exSigA)) (exSign' "ecdsa-rdfc-2019" "did:a#k") (exVer "") =
    some (.error .suite) := rfl

/-- **A document signed with `eddsa-2022` does not verify unless the verifier names that suite**: the
proof says `eddsa-rdfc-2022` but the signature covers `eddsa-2022`. -/
theorem eddsa2022_alias_fails : exSV exBare (exSign' "eddsa-2022" "did:a#k") (exVer "") = some (.error .suite) := rfl

/-- **A method found by fragment but listed under another form of its id**: the document of `did:a`
lists `#r`, the signer asks for `did:a#r`; the proof names `#r`, which cannot be resolved. -/
theorem relative_id_fails :
    ∃ (env : Env) (suites : GoMap (Suite env)) (doc doc' : JObj) (so vo : Opts env.T), Standard env suites ∧
      Expects env so vo ∧ addProof env suites doc so = .ok doc' ∧
      (verifyProof env suites doc' vo).1 = .error .vmResolution := by
  refine ⟨{ exE with resolver := some fun d =>
      if d = "did:a" then some ⟨[⟨"#r", some ⟨"P-256", [7]⟩, []⟩], [], [], [], []⟩ else none },
    newSuites [] [(ecdsaTypes, ecdsaSuite _)], exBare, _,
    ⟨"assertionMethod", "did:a#r", none, "DataIntegrityProof", "ecdsa-2019", "", "", (0 : Int), (0 : Int)⟩,
    ⟨"assertionMethod", "", none, "DataIntegrityProof", "", "", "", (0 : Int), (0 : Int)⟩,
    newSuites_standard _ _ (by intro i hi; simp only [List.mem_cons, List.not_mem_nil, or_false] at hi; exact Or.inl hi),
    ⟨rfl, rfl, rfl, rfl, rfl, rfl, rfl, rfl, Or.inr ⟨rfl, by decide⟩⟩, rfl, rfl⟩

end VC.DI
