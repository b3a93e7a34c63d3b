import Verif.LDP.Spec
/-!
# Linked-data proofs: every proof is checked, signing adds one good proof
-/

namespace VC.LDP

open VC.Proof

variable {T : Type} (env : Env T)

/-! ## Lookups -/

theorem firstWith_cons {α : Type _} {key : α → String} {l : List α} {a : String} {x y : α}
    (h : FirstWith key l a x) (hy : key y ≠ a) : FirstWith key (y :: l) a x := by
  obtain ⟨pre, post, rfl, h1, h2⟩ := h
  refine ⟨y :: pre, post, rfl, h1, ?_⟩
  intro z hz
  rcases List.mem_cons.1 hz with rfl | hz
  · exact hy
  · exact h2 z hz

theorem firstWith_uncons {α : Type _} {key : α → String} {l : List α} {a : String} {x y : α}
    (h : FirstWith key (y :: l) a x) : (y = x ∧ key x = a) ∨ (key y ≠ a ∧ FirstWith key l a x) := by
  obtain ⟨pre, post, h0, h1, h2⟩ := h
  cases pre with
  | nil =>
    simp only [List.nil_append, List.cons.injEq] at h0
    exact Or.inl ⟨h0.1, h1⟩
  | cons z pre =>
    simp only [List.cons_append, List.cons.injEq] at h0
    obtain ⟨rfl, rfl⟩ := h0
    exact Or.inr ⟨h2 _ (by simp), pre, post, rfl, h1, fun w hw => h2 w (by simp [hw])⟩

theorem FirstWith.unique {α : Type _} {key : α → String} {l : List α} {a : String} {x y : α}
    (hx : FirstWith key l a x) (hy : FirstWith key l a y) : x = y := by
  induction l with
  | nil => obtain ⟨pre, post, h, _⟩ := hx; simp at h
  | cons z l ih =>
    rcases firstWith_uncons hx with ⟨h1, h2⟩ | ⟨h1, h2⟩ <;>
      rcases firstWith_uncons hy with ⟨g1, g2⟩ | ⟨g1, g2⟩
    · rw [← h1, ← g1]
    · exact absurd (h1 ▸ h2) g1
    · exact absurd (g1 ▸ g2) h1
    · exact ih h2 g2

theorem ldCheck_iff (l : List LdCheck) (t : String) (d : LdCheck) :
    ldCheck l t = some d ↔ FirstWith (fun d : LdCheck => d.suite.proofType) l t d := by
  induction l with
  | nil =>
    simp only [ldCheck]
    constructor
    · intro h; cases h
    · rintro ⟨pre, post, h, _⟩; simp at h
  | cons e es ih =>
    unfold ldCheck
    by_cases he : e.suite.proofType = t
    · rw [if_pos he]
      constructor
      · intro h; cases h; exact ⟨[], es, rfl, he, by simp⟩
      · intro h
        rcases firstWith_uncons h with ⟨rfl, _⟩ | ⟨h1, _⟩
        · rfl
        · exact absurd he h1
    · rw [if_neg he, ih]
      constructor
      · intro h; exact firstWith_cons h he
      · intro h
        rcases firstWith_uncons h with ⟨rfl, h2⟩ | ⟨_, h2⟩
        · exact absurd h2 he
        · exact h2

theorem ldCreate_iff (l : List LdCreate) (t : String) (d : LdCreate) :
    ldCreate l t = some d ↔ FirstWith (fun d : LdCreate => d.suite.proofType) l t d := by
  induction l with
  | nil =>
    simp only [ldCreate]
    constructor
    · intro h; cases h
    · rintro ⟨pre, post, h, _⟩; simp at h
  | cons e es ih =>
    unfold ldCreate
    by_cases he : e.suite.proofType = t
    · rw [if_pos he]
      constructor
      · intro h; cases h; exact ⟨[], es, rfl, he, by simp⟩
      · intro h
        rcases firstWith_uncons h with ⟨rfl, _⟩ | ⟨h1, _⟩
        · rfl
        · exact absurd he h1
    · rw [if_neg he, ih]
      constructor
      · intro h; exact firstWith_cons h he
      · intro h
        rcases firstWith_uncons h with ⟨rfl, h2⟩ | ⟨_, h2⟩
        · exact absurd h2 he
        · exact h2

theorem byType_desc (l : List LdCheck) (t : String) :
    byType (l.map LdCheck.desc) t = (ldCheck l t).map LdCheck.desc := by
  induction l with
  | nil => rfl
  | cons e es ih =>
    simp only [List.map_cons, byType, ldCheck]
    by_cases h : e.suite.proofType = t
    · rw [if_pos h, if_pos (show e.desc.proofType = t from h)]; rfl
    · rw [if_neg h, if_neg (show ¬ e.desc.proofType = t from h)]; exact ih

theorem signer_none_iff (kid did : String) :
    (split '#' kid).headD "" = did ↔ Signer none kid did := by
  constructor
  · intro h
    have hn := split_noChar '#' kid
    have hj := joinC_split '#' kid
    cases hs : split '#' kid with
    | nil => exact absurd hs (split_ne_nil _ _)
    | cons a l =>
      rw [hs] at h hj hn
      have ha : a = did := h
      subst ha
      cases l with
      | nil =>
        have : a = kid := by rw [← hj]; rfl
        subst this
        exact .whole rfl (hn a (by simp))
      | cons b l =>
        exact .fragment rfl (hn a (by simp)) (f := joinC '#' (b :: l)) (by rw [← hj]; rfl)
  · intro h
    cases h with
    | given h => cases h
    | @fragment d f _ hn hk =>
      rw [hk, show did ++ "#" ++ f = did ++ String.singleton '#' ++ f from rfl, split_append '#' did f hn]
      rfl
    | whole _ hn => rw [split_none '#' _ hn]; rfl

theorem expectedIssuer_iff (issuer : Option String) (p : Prf T) (kid did : String)
    (hk : env.publicKeyID p = some kid) :
    expectedIssuer env issuer p = some did ↔ Signer issuer kid did := by
  unfold expectedIssuer
  cases issuer with
  | some i =>
    dsimp only
    constructor
    · intro h; cases h; exact .given rfl
    · intro h
      cases h with
      | given h => exact h
      | fragment h => cases h
      | whole h => cases h
  | none =>
    dsimp only
    rw [hk, Option.map_some, Option.some_inj]
    exact signer_none_iff kid did

theorem signature_iff (p : Prf T) (s : Bytes) : verifyValue env p = some s ↔ Signature env p s := by
  unfold verifyValue
  constructor
  · intro h
    split at h
    · rename_i hr; cases h; exact .proofValue hr
    · rename_i hr; exact .jws hr h
    · cases h
  · intro h
    cases h with
    | proofValue hr => rw [hr]
    | jws hr h => rw [hr]; exact h

theorem check_true {k : LdChecker} {p : LdProof} {i : String} {msg sig : Bytes}
    (h : k.check p i msg sig = true) :
    Checker.checkLD ⟨k.ld.map LdCheck.desc, [], [], k.verifiers, k.resolve⟩ p i msg sig = .ok () := by
  unfold LdChecker.check at h
  split at h
  · assumption
  · cases h

/-- The suite used to make the message is the one used to check the signature. -/
theorem check_suite {k : LdChecker} {p : LdProof} {i : String} {msg sig : Bytes}
    (h : k.check p i msg sig = true) : ∃ d kid vm, ldCheck k.ld p.type = some d ∧
      p.publicKeyID = some kid ∧ k.resolve kid i = .ok vm ∧
      ((d.ex = none ∧ Signed k.verifiers d.suite.vms vm msg sig) ∨
        ∃ ex kt, d.ex = some ex ∧ Allowed d.suite.vms vm kt ∧ ex sig msg ⟨kt, keyOf vm⟩ p.nonce = true) := by
  have h' := check_true h
  unfold Checker.checkLD at h'
  split at h'
  · cases h'
  rename_i kid hk
  split at h'
  · cases h'
  rename_i vm hv
  split at h'
  · cases h'
  rename_i d hd
  rw [byType_desc] at hd
  obtain ⟨d0, hd0, rfl⟩ := Option.map_eq_some_iff.1 hd
  split at h'
  · cases h'
  rename_i pk hpk
  obtain ⟨h3, h4⟩ := convert_sound hpk
  have hpk' : pk = ⟨pk.type, keyOf vm⟩ := by cases pk; simp only [PubKey.mk.injEq, true_and]; exact h4
  refine ⟨d0, kid, vm, hd0, hk, hv, ?_⟩
  split at h'
  · rename_i ex hex
    split at h'
    · rename_i hok
      exact Or.inr ⟨ex, pk.type, hex, h3, hpk' ▸ hok⟩
    · cases h'
  · rename_i hex
    split at h'
    · cases h'
    rename_i v hv'
    split at h'
    · rename_i hok
      obtain ⟨h5, h6⟩ := getVerifier_sound hv'
      exact Or.inl ⟨hex, pk.type, h3, v, h5, h6, hpk' ▸ hok⟩
    · cases h'

theorem getVerifier_complete {vs : List SigVerifier} {kt : KeyType} (h : ∃ v ∈ vs, v.supports kt = true) :
    ∃ v, getSignatureVerifier vs kt = some v := by
  induction vs with
  | nil => obtain ⟨v, hv, _⟩ := h; cases hv
  | cons w ws ih =>
    unfold getSignatureVerifier
    split
    · exact ⟨_, rfl⟩
    · rename_i hw
      apply ih
      obtain ⟨v, hv, h⟩ := h
      rcases List.mem_cons.1 hv with rfl | hv
      · exact absurd h hw
      · exact ⟨v, hv, h⟩

theorem check_complete {k : LdChecker} {p : LdProof} {i kid : String} {msg sig : Bytes} {d : LdCheck}
    {vm : VM} (hd : ldCheck k.ld p.type = some d) (hk : p.publicKeyID = some kid)
    (hr : k.resolve kid i = .ok vm) (ha : KeyAccepts k d vm p.nonce msg sig) :
    k.check p i msg sig = true := by
  obtain ⟨kt, hkt⟩ := ha.key
  obtain ⟨pk, hpk⟩ := convert_complete hkt
  obtain ⟨h3, h4⟩ := convert_sound hpk
  have hpk' : pk = ⟨pk.type, keyOf vm⟩ := by cases pk; simp only [PubKey.mk.injEq, true_and]; exact h4
  have : Checker.checkLD ⟨k.ld.map LdCheck.desc, [], [], k.verifiers, k.resolve⟩ p i msg sig = .ok () := by
    unfold Checker.checkLD
    simp only [hk, hr, byType_desc, hd, Option.map_some]
    rw [show d.desc.vms = d.suite.vms from rfl, hpk]
    dsimp only
    rw [show d.desc.ex = d.ex from rfl]
    cases hex : d.ex with
    | some f =>
      dsimp only
      have := ha.ex pk.type f h3 hex
      rw [← hpk'] at this
      rw [if_pos this]
    | none =>
      dsimp only
      obtain ⟨v, hv⟩ := getVerifier_complete (ha.known pk.type h3 hex)
      rw [hv]
      dsimp only
      obtain ⟨h5, h6⟩ := getVerifier_sound hv
      have := ha.all pk.type h3 hex v h5 h6
      rw [← hpk'] at this
      rw [if_pos this]
  unfold LdChecker.check
  rw [this]

/-! ## Verification -/

theorem verifyOne_good {k : LdChecker} {drop : Bool} {issuer : Option String} {doc : JObj} {p : Prf T}
    (h : verifyOne env k drop issuer doc p = true) : ProofGood env k drop issuer doc p := by
  unfold verifyOne at h
  split at h
  · cases h
  rename_i msg hm
  split at h
  · cases h
  rename_i sig hs
  split at h
  · cases h
  rename_i i hi
  obtain ⟨d, kid, vm, h1, h2, h3, h4⟩ := check_suite h
  dsimp only at h1 h2 h3 h4
  have e1 : k.canon p.type drop = d.suite.canon drop := by
    funext x; simp only [LdChecker.canon, h1, Option.bind_some]
  have e2 : k.digest p.type = d.suite.digest := by
    funext x; simp only [LdChecker.digest, h1]
  rw [e1, e2] at hm
  exact ⟨d, msg, sig, kid, i, vm, (ldCheck_iff _ _ _).1 h1, hm, (signature_iff env p sig).1 hs, h2,
    (expectedIssuer_iff env issuer p kid i h2).1 hi, h3, h4⟩

/-- **C82**: a document is accepted only if its proofs can be read and each of them is good for the
document as it stands, under a key of the expected DID (if none is expected, of the DID named in that
proof's key id). -/
theorem every_proof_checked {k : LdChecker} {drop : Bool} {issuer : Option String} {doc : JObj}
    (h : verifyObject env k drop issuer doc = true) :
    ∃ ps, env.readProofs doc = some ps ∧ ∀ p ∈ ps, ProofGood env k drop issuer doc p := by
  unfold verifyObject at h
  split at h
  · cases h
  · rename_i ps hp
    exact ⟨ps, hp, fun p hm => verifyOne_good env (List.all_eq_true.1 h p hm)⟩

/-- One proof that certainly verifies. -/
theorem verifyOne_of {k : LdChecker} {drop : Bool} {issuer : Option String} {doc : JObj} {p : Prf T}
    {d : LdCheck} {msg sig : Bytes} {kid did : String} {vm : VM}
    (hd : FirstWith (fun d : LdCheck => d.suite.proofType) k.ld p.type d)
    (hm : env.verifyData (d.suite.canon drop) d.suite.digest doc p = some msg)
    (hs : Signature env p sig) (hk : env.publicKeyID p = some kid) (hi : Signer issuer kid did)
    (hr : k.resolve kid did = .ok vm) (ha : KeyAccepts k d vm p.nonce msg sig) :
    verifyOne env k drop issuer doc p = true := by
  have h1 := (ldCheck_iff _ _ _).2 hd
  have e1 : k.canon p.type drop = d.suite.canon drop := by
    funext x; simp only [LdChecker.canon, h1, Option.bind_some]
  have e2 : k.digest p.type = d.suite.digest := by
    funext x; simp only [LdChecker.digest, h1]
  unfold verifyOne
  rw [e1, e2, hm]
  dsimp only
  rw [(signature_iff env p sig).2 hs]
  dsimp only
  rw [(expectedIssuer_iff env issuer p kid did hk).2 hi]
  dsimp only
  exact check_complete (p := ⟨p.type, env.publicKeyID p, p.nonce⟩) h1 hk hr ha

/-! ## Signing -/

theorem filterMethods_iff (kt : KeyType) (vms : List Supported) :
    (filterMethods kt vms).isEmpty = false ↔ ∃ m ∈ vms, m.keyType = kt := by
  unfold filterMethods
  rw [List.isEmpty_eq_false_iff, ne_eq, List.filter_eq_nil_iff]
  simp

theorem findJWTAlg_spec (l : List JwtCreate) (kt : KeyType) (h : findJWTAlg l kt ≠ "") :
    ∃ a ∈ l, a.desc.alg = findJWTAlg l kt ∧ ∃ m ∈ a.desc.vms, m.keyType = kt := by
  induction l with
  | nil => exact absurd rfl h
  | cons d ds ih =>
    unfold findJWTAlg at h ⊢
    cases hf : (filterMethods kt d.desc.vms).isEmpty with
    | true =>
      rw [hf] at h
      simp only [if_true] at h ⊢
      obtain ⟨a, h1, h2⟩ := ih h
      exact ⟨a, List.mem_cons_of_mem _ h1, h2⟩
    | false =>
      simp only [Bool.false_eq_true, if_false]
      exact ⟨d, by simp, rfl, (filterMethods_iff _ _).1 hf⟩

theorem ldpJWTAlg_some {c : Creator} {t : String} {kt : KeyType} {alg : String}
    (h : c.ldpJWTAlg t kt = some alg) :
    ∃ a ∈ c.jwt, a.desc.alg = alg ∧ ∃ m ∈ a.desc.vms, m.keyType = kt := by
  unfold Creator.ldpJWTAlg at h
  split at h
  · cases h
  · split at h
    · cases h
    · split at h
      · cases h
      · rename_i hne
        cases h
        exact findJWTAlg_spec c.jwt kt hne

theorem proofOf_context (ctx : Ctx T) : FromContext env ctx (proofOf env ctx) := by
  refine ⟨rfl, rfl, rfl, fun t h => ?_, fun h => ?_, rfl, rfl, rfl, rfl, fun h => ?_, fun h => ?_, rfl⟩
  · simp [proofOf, h]
  · simp [proofOf, h]
  · simp [proofOf, h]
  · simp [proofOf, h]

/-- **C83**: what signing does. The creator's suite of the given type must support the key type; its
signer signs the message made of the document and the new proof (without signature); the new proof has
the fields of the context (purpose `assertionMethod` by default) and carries the signature. -/
theorem sign_spec (lib : LibOk env) {c : Creator} {ctx : Ctx T} {doc doc' : JObj}
    (h : sign env c ctx doc = some doc') :
    ∃ (d : LdCreate) (p : Prf T) (msg sig : Bytes), ctx.sigType ≠ "" ∧
      FirstWith (fun d : LdCreate => d.suite.proofType) c.ld ctx.sigType d ∧
      Supports d.suite ctx.keyType ∧ FromContext env ctx p ∧
      env.verifyData (d.suite.canon false) d.suite.digest doc p = some msg ∧ d.sign msg = some sig ∧
      Carries env c ctx p sig ∧ env.addProof doc p = some doc' := by
  unfold sign at h
  split at h
  · cases h
  rename_i hty
  simp only [Option.bind_eq_some_iff] at h
  obtain ⟨p, hp, msg, hm, s, hs, ha⟩ := h
  have hpt : p.type = ctx.sigType ∧ p.proofValue = [] ∧
      ((ctx.repr = .jws ∧ ∃ alg, c.ldpJWTAlg ctx.sigType ctx.keyType = some alg ∧
        p = { proofOf env ctx with jws := env.detachedHeader alg ++ ".." }) ∨
       (ctx.repr ≠ .jws ∧ p = proofOf env ctx)) := by
    unfold withHeader at hp
    split at hp
    · rename_i hj
      obtain ⟨alg, h1, rfl⟩ := Option.map_eq_some_iff.1 hp
      exact ⟨rfl, rfl, Or.inl ⟨hj, alg, h1, rfl⟩⟩
    · rename_i hj
      cases hp
      exact ⟨rfl, rfl, Or.inr ⟨hj, rfl⟩⟩
  obtain ⟨h1, h2, h3⟩ := hpt
  rw [h1] at hm hs
  unfold Creator.signLinked at hs
  split at hs
  · cases hs
  rename_i d hd
  split at hs
  · cases hs
  rename_i hf
  have e1 : c.canon ctx.sigType false = d.suite.canon false := by
    funext x; simp only [Creator.canon, hd, Option.bind_some]
  have e2 : c.digest ctx.sigType = d.suite.digest := by
    funext x; simp only [Creator.digest, hd]
  rw [e1, e2] at hm
  have hctx : FromContext env ctx p := by
    have := proofOf_context env ctx
    rcases h3 with ⟨_, alg, _, rfl⟩ | ⟨_, rfl⟩
    · exact ⟨this.type, this.repr, this.creator, this.created, this.createdNow, this.domain, this.nonce,
        this.vm, this.challenge, this.purpose, this.purposeDefault, this.capChain⟩
    · exact this
  have hsup : Supports d.suite ctx.keyType := (filterMethods_iff _ _).1 (by simpa using hf)
  refine ⟨d, applySignature env ctx p s, msg, s, hty, (ldCreate_iff _ _ _).1 hd, hsup, ?_, ?_, hs, ?_, ha⟩
  · unfold applySignature
    split
    · exact ⟨hctx.type, hctx.repr, hctx.creator, hctx.created, hctx.createdNow, hctx.domain, hctx.nonce,
        hctx.vm, hctx.challenge, hctx.purpose, hctx.purposeDefault, hctx.capChain⟩
    · exact ⟨hctx.type, hctx.repr, hctx.creator, hctx.created, hctx.createdNow, hctx.domain, hctx.nonce,
        hctx.vm, hctx.challenge, hctx.purpose, hctx.purposeDefault, hctx.capChain⟩
    · exact hctx
  · unfold applySignature
    split
    · rw [lib.noValue]; exact hm
    · rename_i hj
      rcases h3 with ⟨_, alg, _, rfl⟩ | ⟨hn, _⟩
      · rw [lib.noJws _ _ _ _ alg s]; exact hm
      · exact absurd hj hn
    · exact hm
  · cases hr : ctx.repr with
    | proofValue =>
      rcases h3 with ⟨hj, _⟩ | ⟨_, rfl⟩
      · rw [hr] at hj; cases hj
      · refine .proofValue hr ?_ ?_ <;> simp [applySignature, hr, proofOf]
    | jws =>
      rcases h3 with ⟨_, alg, halg, rfl⟩ | ⟨hn, _⟩
      · obtain ⟨a, g1, g2, g3⟩ := ldpJWTAlg_some halg
        refine .jws hr g1 g2 g3 ?_ ?_ <;> simp [applySignature, hr, proofOf]
      · exact absurd hr hn
    | other n =>
      have := lib.repr (d.suite.canon false) d.suite.digest doc p n (by rw [hctx.repr, hr])
      rw [hm] at this
      cases this

/-- **C83**: signing changes no other member of the document and keeps the proofs it had. -/
theorem sign_keeps (lib : LibOk env) {c : Creator} {ctx : Ctx T} {doc doc' : JObj}
    (h : sign env c ctx doc = some doc') :
    (∀ k, k ≠ "proof" → GoMap.get? doc' k = GoMap.get? doc k) ∧
    (GoMap.get? doc "proof" = none → ∃ p, env.readProofs doc' = some [p]) ∧
    (∀ ps, env.readProofs doc = some ps → ∃ p, env.readProofs doc' = some (ps ++ [p])) := by
  obtain ⟨d, p, msg, sig, _, _, _, _, _, _, _, ha⟩ := sign_spec env lib h
  refine ⟨fun k hk => lib.rest _ _ _ k ha hk, fun hn => ?_, fun ps hps => ?_⟩
  · obtain ⟨p', h1, _⟩ := lib.first _ _ _ hn ha
    exact ⟨p', h1⟩
  · obtain ⟨p', h1, _⟩ := lib.appended _ _ _ _ hps ha
    exact ⟨p', h1⟩

/-- **C84**: a document signed by a creator is accepted by a checker that has the same suite for the
type (same message for this document), resolves the key id of the new proof to a key that verifies
what the creator's signer signs, and accepts the proofs the document already had. -/
theorem sign_then_verify (lib : LibOk env) {c : Creator} {ctx : Ctx T} {doc doc' : JObj}
    (h : sign env c ctx doc = some doc') {k : LdChecker} {drop : Bool} {issuer : Option String}
    {kid did : String} {vm : VM} {d : LdCheck}
    (hd : FirstWith (fun d : LdCheck => d.suite.proofType) k.ld ctx.sigType d)
    (hsame : ∀ d' p, FirstWith (fun d : LdCreate => d.suite.proofType) c.ld ctx.sigType d' →
      env.verifyData (d.suite.canon drop) d.suite.digest doc p =
        env.verifyData (d'.suite.canon false) d'.suite.digest doc p)
    (hkid : ∀ p, FromContext env ctx p → env.publicKeyID p = some kid) (hi : Signer issuer kid did)
    (hr : k.resolve kid did = .ok vm)
    (hkey : ∀ d' msg sig, FirstWith (fun d : LdCreate => d.suite.proofType) c.ld ctx.sigType d' →
      d'.sign msg = some sig → KeyAccepts k d vm ctx.nonce msg sig)
    (hold : GoMap.get? doc "proof" = none ∨ verifyObject env k drop issuer doc = true) :
    verifyObject env k drop issuer doc' = true := by
  obtain ⟨d', p, msg, sig, _, h1, _, h3, h4, h5, h6, h7⟩ := sign_spec env lib h
  have hrest := fun q hq => lib.rest _ _ _ q h7 hq
  have hnew : ∀ p', Same env p p' → verifyOne env k drop issuer doc' p' = true := by
    intro p' hs
    refine verifyOne_of env (d := d) (msg := msg) (sig := sig) (kid := kid) (did := did) (vm := vm) ?_ ?_ ?_
      ?_ hi hr ?_
    · rw [hs.type, h3.type]; exact hd
    · rw [lib.noProof _ _ doc doc' p' hrest, hs.data, hsame d' p h1, h4]
    · cases h6 with
      | proofValue g1 g2 =>
        have : Signature env p' p'.proofValue := .proofValue (by rw [hs.repr, h3.repr, g1])
        rwa [hs.proofValue, g2] at this
      | jws g1 _ _ _ g5 =>
        refine .jws (by rw [hs.repr, h3.repr, g1]) ?_
        rw [hs.jws, g5]
        exact lib.jwsBack _ _
    · rw [hs.kid]; exact hkid p h3
    · rw [hs.nonce, h3.nonce]; exact hkey d' msg sig h1 h5
  unfold verifyObject
  rcases hold with hn | hv
  · obtain ⟨p', g1, g2⟩ := lib.first _ _ _ hn h7
    rw [g1]
    simp [hnew p' g2]
  · unfold verifyObject at hv
    cases hps : env.readProofs doc with
    | none => rw [hps] at hv; cases hv
    | some ps =>
      rw [hps] at hv
      dsimp only at hv
      obtain ⟨p', g1, g2⟩ := lib.appended _ _ _ _ hps h7
      rw [g1]
      dsimp only
      rw [List.all_append, List.all_cons, List.all_nil, hnew p' g2, Bool.and_true, Bool.and_true]
      rw [List.all_eq_true] at hv ⊢
      intro q hq
      have := hv q hq
      unfold verifyOne at this ⊢
      rw [lib.noProof _ _ doc doc' q hrest]
      exact this

/-- **C83**: no signature for a key type that the suite does not support. -/
theorem unsupported_key_refused (lib : LibOk env) (c : Creator) (ctx : Ctx T) (doc : JObj)
    (h : ∀ d, FirstWith (fun d : LdCreate => d.suite.proofType) c.ld ctx.sigType d →
      ¬ Supports d.suite ctx.keyType) : sign env c ctx doc = none := by
  cases hs : sign env c ctx doc with
  | none => rfl
  | some doc' =>
    obtain ⟨d, _, _, _, _, h1, h2, _⟩ := sign_spec env lib hs
    exact absurd h2 (h d h1)

/-! ## JWT and CWT signing -/

theorem jwtCreate_some {l : List JwtCreate} {a : String} {d : JwtCreate} (h : jwtCreate l a = some d) :
    d ∈ l ∧ d.desc.alg = a := by
  induction l with
  | nil => cases h
  | cons e es ih =>
    unfold jwtCreate at h
    split at h
    · cases h; exact ⟨by simp, by assumption⟩
    · exact ⟨List.mem_cons_of_mem _ (ih h).1, (ih h).2⟩

theorem cwtCreate_some {l : List JwtCreate} {a : Int} {d : JwtCreate} (h : cwtCreate l a = some d) :
    d ∈ l ∧ d.desc.cwtAlg = a := by
  induction l with
  | nil => cases h
  | cons e es ih =>
    unfold cwtCreate at h
    split at h
    · cases h; exact ⟨by simp, by assumption⟩
    · exact ⟨List.mem_cons_of_mem _ (ih h).1, (ih h).2⟩

/-- The headers of a JWT name the algorithm and, if there is one, the key. -/
theorem jwtHeaders_spec (alg kid : String) :
    header (jwtHeaders alg kid) "alg" = some alg ∧
    (kid ≠ "" → header (jwtHeaders alg kid) "kid" = some kid) ∧
    (kid = "" → header (jwtHeaders alg kid) "kid" = none) := by
  unfold jwtHeaders
  by_cases h : kid = ""
  · rw [if_pos h]
    exact ⟨rfl, fun h' => absurd h h', fun _ => rfl⟩
  · rw [if_neg h]
    exact ⟨rfl, fun _ => rfl, fun h' => absurd h' h⟩

theorem verifyWith_complete {vs : List SigVerifier} {vms : List Supported} {vm : VM} {msg sig : Bytes}
    (hk : ∃ kt, Allowed vms vm kt)
    (hv : ∀ kt, Allowed vms vm kt → ∃ v ∈ vs, v.supports kt = true)
    (ha : ∀ kt, Allowed vms vm kt → ∀ v ∈ vs, v.supports kt = true → v.verify sig msg ⟨kt, keyOf vm⟩ = true) :
    verifyWith vs vms vm msg sig = .ok () := by
  obtain ⟨kt, hkt⟩ := hk
  obtain ⟨pk, hpk⟩ := convert_complete hkt
  obtain ⟨h3, h4⟩ := convert_sound hpk
  have hpk' : pk = ⟨pk.type, keyOf vm⟩ := by cases pk; simp only [PubKey.mk.injEq, true_and]; exact h4
  unfold verifyWith
  rw [hpk]
  dsimp only
  obtain ⟨v, hg⟩ := getVerifier_complete (hv pk.type h3)
  rw [hg]
  dsimp only
  obtain ⟨h5, h6⟩ := getVerifier_sound hg
  have := ha pk.type h3 v h5 h6
  rw [← hpk'] at this
  rw [if_pos this]

/-- **C84** (JWT): what the creator signs for an algorithm, with the headers it makes, the checker
accepts, if it knows the algorithm with a key table `d` and the key resolves to one that verifies what
the creator's signer signs. -/
theorem jwt_sign_then_check {c : Creator} {k : Checker} {alg kid issuer : String} {data sig : Bytes}
    {d : JwtDesc} {vm : VM} (hs : c.signJWT alg data = some sig) (hkid : kid ≠ "")
    (hd : byAlg k.jwt alg = some d) (hr : k.resolve kid issuer = .ok vm)
    (hk : ∃ kt, Allowed d.vms vm kt)
    (hkey : ∀ e ∈ c.jwt, e.desc.alg = alg → ∀ m s, e.sign m = some s → ∀ kt, Allowed d.vms vm kt →
      (∃ v ∈ k.verifiers, v.supports kt = true) ∧
      ∀ v ∈ k.verifiers, v.supports kt = true → v.verify s m ⟨kt, keyOf vm⟩ = true) :
    k.checkJWT (jwtHeaders alg kid) issuer data sig = .ok () := by
  unfold Creator.signJWT at hs
  obtain ⟨e, he, hs⟩ := Option.bind_eq_some_iff.1 hs
  obtain ⟨h1, h2⟩ := jwtCreate_some he
  obtain ⟨g1, g2, _⟩ := jwtHeaders_spec alg kid
  unfold Checker.checkJWT
  rw [g2 hkid]
  dsimp only
  rw [g1]
  dsimp only
  rw [hr]
  dsimp only
  rw [hd]
  exact verifyWith_complete hk (fun kt ha => (hkey e h1 h2 data sig hs kt ha).1)
    (fun kt ha => (hkey e h1 h2 data sig hs kt ha).2)

/-- **C84** (CWT). -/
theorem cwt_sign_then_check {c : Creator} {k : Checker} {coseKey : String → Option (Jwk × KeyType)}
    {alg : Int} {kid issuer km : String} {data sig : Bytes} {d : JwtDesc} {vm : VM}
    (hs : c.signCWT alg data = some sig) (hkid : kid ≠ "") (halg : alg ≠ 0)
    (hd : byCwtAlg k.cwt alg = some d) (hr : k.resolve kid issuer = .ok vm)
    (hk : ∃ kt, Allowed d.vms vm kt)
    (hkey : ∀ e ∈ c.jwt, e.desc.cwtAlg = alg → ∀ m s, e.sign m = some s → ∀ kt, Allowed d.vms vm kt →
      (∃ v ∈ k.verifiers, v.supports kt = true) ∧
      ∀ v ∈ k.verifiers, v.supports kt = true → v.verify s m ⟨kt, keyOf vm⟩ = true) :
    k.checkCWT coseKey ⟨kid, km, alg⟩ issuer data sig = .ok () := by
  unfold Creator.signCWT at hs
  obtain ⟨e, he, hs⟩ := Option.bind_eq_some_iff.1 hs
  obtain ⟨h1, h2⟩ := cwtCreate_some he
  unfold Checker.checkCWT
  rw [if_neg (fun h => hkid h.1), if_neg halg, if_pos hkid]
  unfold Checker.checkCWTByKeyID
  dsimp only
  rw [hr]
  dsimp only
  rw [hd]
  exact verifyWith_complete hk (fun kt ha => (hkey e h1 h2 data sig hs kt ha).1)
    (fun kt ha => (hkey e h1 h2 data sig hs kt ha).2)

end VC.LDP
