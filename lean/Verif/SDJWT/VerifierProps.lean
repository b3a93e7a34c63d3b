import Verif.SDJWT.VerifierModel
import Verif.SDJWT.DiscloseExamples
import Verif.JWT.Props
/-!
# SD-JWT verifier: theorems (C16, C17, C18) and the whole acceptance condition
-/

namespace VC.SDJWT

open VC.Proof (Bytes header)

/-! ## Specification -/

/-- The `alg` header is present, is not "none", and is on the list. -/
def AllowedAlg (headers : JObj) (algs : List String) : Prop :=
  ∃ a, header headers "alg" = some a ∧ a ≠ "none" ∧ a ∈ algs

/-- `now` (ns) is inside the validity window given by nbf / exp / iat (s), up to the leeway. -/
structure InWindow (now leeway : Int) (t : Times) : Prop where
  nbf : ∀ x, t.nbf = some x → x * 1000000000 ≤ now + leeway
  exp : ∀ x, t.exp = some x → now ≤ x * 1000000000 + leeway
  iat : ∀ x, t.iat = some x → x * 1000000000 ≤ now + leeway

/-- A claim looked up at the top level, or, failing that, inside the `vc` claim. -/
def ClaimIs (payload : JObj) (k : String) (v : Json) : Prop :=
  GoMap.get? payload k = some v ∨
  (GoMap.get? payload k = none ∧ ∃ vc, GoMap.get? payload "vc" = some (.obj vc) ∧
    GoMap.get? vc k = some v)

/-- The holder's key: the JWK in the `cnf` claim of the issuer-signed payload. -/
def CnfKey (lib : VLib) (payload : JObj) (k : Proof.Jwk) : Prop :=
  ∃ cnf v, ClaimIs payload "cnf" (.obj cnf) ∧ GoMap.get? cnf "jwk" = some v ∧ lib.jwk v = some k

/-- The holder verification JWT `hv` is good: a well-formed JWT with a good header, signed by the
key in `cnf` with the algorithm it names, allowed by the verifier, inside its validity window, and
with the expected nonce and audience when those are given. -/
structure HolderJWTOk (lib : VLib) (o : VOpts) (payload : JObj) (hv : String) : Prop where
  ok : ∃ k j tok alg times nonce aud,
    CnfKey lib payload k ∧
    lib.jwt.parseJWS none hv = some j ∧ JWT.GoodHeaders lib.jwt.upper j.headers ∧
    lib.jwt.payloadToMap j.payload = some tok ∧
    header j.headers "alg" = some alg ∧
    Proof.AlgAccepts lib.prim ⟨"JsonWebKey2020", [], some k⟩ j.signingInput j.signature alg ∧
    AllowedAlg j.headers o.holderAlgs ∧
    lib.times tok = some times ∧ InWindow o.nowHolder o.leeway times ∧
    lib.binding tok = some (nonce, aud) ∧
    (o.expectedNonce ≠ "" → nonce = o.expectedNonce) ∧
    (o.expectedAud ≠ "" → aud = o.expectedAud)

/-- The holder verification policy. -/
def HolderPolicy (lib : VLib) (o : VOpts) (payload : JObj) (hv : String) : Prop :=
  (hv = "" ∧ o.holderRequired = false) ∨ (hv ≠ "" ∧ HolderJWTOk lib o payload hv)

/-! ## The individual checks -/

theorem verifySigningAlg_iff (headers : JObj) (algs : List String) :
    verifySigningAlg headers algs = .ok () ↔ AllowedAlg headers algs := by
  unfold verifySigningAlg AllowedAlg
  cases h : header headers "alg" with
  | none => simp
  | some a =>
    by_cases h1 : a = "none"
    · simp [h1]
    · by_cases h2 : a ∈ algs <;> simp [h1, h2]

theorem failsWith_false (t : Option Int) (p : Int → Bool) :
    failsWith t p = false ↔ ∀ x, t = some x → p (x * ns) = false := by
  unfold failsWith
  cases t <;> simp

theorem validate_iff (now leeway : Int) (t : Times) :
    validateWithLeeway now leeway t = .ok () ↔ InWindow now leeway t := by
  unfold validateWithLeeway
  have n1 := failsWith_false t.nbf (fun x => decide (now + leeway < x))
  have n2 := failsWith_false t.exp (fun x => decide (now - leeway > x))
  have n3 := failsWith_false t.iat (fun x => decide (now + leeway < x))
  have e1 : ∀ x : Int, decide (now + leeway < x * ns) = false ↔ x * 1000000000 ≤ now + leeway := by
    intro x; rw [decide_eq_false_iff_not]; simp only [ns]; omega
  have e2 : ∀ x : Int, decide (now - leeway > x * ns) = false ↔ now ≤ x * 1000000000 + leeway := by
    intro x; rw [decide_eq_false_iff_not]; simp only [ns]; omega
  simp only [e1, e2] at n1 n2 n3
  constructor
  · intro h
    split at h
    · cases h
    · split at h
      · cases h
      · split at h
        · cases h
        · rename_i h1 h2 h3
          have m1 := n1.mp (by simpa using h1)
          have m2 := n2.mp (by simpa using h2)
          have m3 := n3.mp (by simpa using h3)
          exact ⟨m1, m2, m3⟩
  · rintro ⟨h1, h2, h3⟩
    have m1 := n1.mpr h1
    have m2 := n2.mpr h2
    have m3 := n3.mpr h3
    rw [m1, m2, m3]
    simp

theorem verifyJWT_iff (lib : VLib) (now leeway : Int) (payload : JObj) :
    verifyJWT lib now leeway payload = .ok () ↔
      ∃ t, lib.times payload = some t ∧ InWindow now leeway t := by
  unfold verifyJWT
  cases h : lib.times payload with
  | none => simp
  | some t => simp [validate_iff]

theorem hasDuplicate_iff (vs : List String) : ∀ seen : List String,
    hasDuplicate seen vs = false ↔ vs.Nodup ∧ ∀ v ∈ vs, v ∉ seen := by
  induction vs with
  | nil => intro seen; simp [hasDuplicate]
  | cons v vs ih =>
    intro seen
    simp only [hasDuplicate, Bool.or_eq_false_iff, ih, List.nodup_cons, List.mem_cons]
    have hc : seen.contains v = false ↔ v ∉ seen := by simp
    rw [hc]
    constructor
    · rintro ⟨h1, h2, h3⟩
      refine ⟨⟨fun hm => h3 v hm (Or.inl rfl), h2⟩, ?_⟩
      rintro w (rfl | hw)
      · exact h1
      · exact fun hs => h3 w hw (Or.inr hs)
    · rintro ⟨⟨h1, h2⟩, h3⟩
      refine ⟨h3 v (Or.inl rfl), h2, ?_⟩
      rintro w hw (rfl | hs)
      · exact h1 hw
      · exact h3 w (Or.inr hw) hs

theorem getKeyFromVC_iff (k : String) (m : JObj) (v : Json) :
    getKeyFromVC k m = some v ↔ ClaimIs m k v := by
  unfold getKeyFromVC ClaimIs
  cases h : GoMap.get? m k with
  | some w => simp
  | none =>
    simp only [reduceCtorEq, false_or, true_and]
    cases h2 : GoMap.get? m "vc" with
    | none => simp
    | some w => cases w <;> simp

theorem getCNF_iff (m c : JObj) : getCNF m = some c ↔ ClaimIs m "cnf" (.obj c) := by
  rw [← getKeyFromVC_iff]
  unfold getCNF
  cases h : getKeyFromVC "cnf" m with
  | none => simp
  | some w => cases w <;> simp

theorem holderChecker_iff (lib : VLib) (m : JObj) (pc : JWT.ProofChecker) :
    holderChecker lib m = .ok pc ↔ ∃ k, CnfKey lib m k ∧
      pc = JWT.ofEmbedded Proof.defaultJwt (Proof.holderVerifiers lib.prim)
        ⟨"JsonWebKey2020", [], some k⟩ := by
  unfold holderChecker CnfKey
  simp only [← getCNF_iff]
  cases h : getCNF m with
  | none => simp
  | some cnf =>
    simp only [Option.some.injEq]
    cases h2 : GoMap.get? cnf "jwk" with
    | none =>
      simp only [reduceCtorEq, false_iff]
      rintro ⟨k, ⟨c, v, rfl, e, _⟩, _⟩; rw [h2] at e; cases e
    | some v =>
      simp only
      cases h3 : lib.jwk v with
      | none =>
        simp only [reduceCtorEq, false_iff]
        rintro ⟨k, ⟨c, v', rfl, e, e'⟩, _⟩; rw [h2] at e; cases e; rw [h3] at e'; cases e'
      | some k =>
        simp only [Except.ok.injEq]
        constructor
        · rintro rfl; exact ⟨k, ⟨cnf, v, rfl, h2, h3⟩, rfl⟩
        · rintro ⟨k', ⟨c, v', rfl, e, e'⟩, rfl⟩
          rw [h2] at e; cases e; rw [h3] at e'; cases e'; rfl

theorem verifyBinding_iff (lib : VLib) (o : VOpts) (m : JObj) :
    verifyBinding lib o m = .ok () ↔ ∃ nonce aud, lib.binding m = some (nonce, aud) ∧
      (o.expectedNonce ≠ "" → nonce = o.expectedNonce) ∧
      (o.expectedAud ≠ "" → aud = o.expectedAud) := by
  unfold verifyBinding
  cases h : lib.binding m with
  | none => simp
  | some p =>
    obtain ⟨n, a⟩ := p
    simp only [Option.some.injEq, Prod.mk.injEq]
    constructor
    · intro h
      split at h
      · cases h
      · split at h
        · cases h
        · rename_i h1 h2
          refine ⟨n, a, ⟨rfl, rfl⟩, ?_, ?_⟩
          · intro hn; exact Classical.byContradiction fun hc => h1 ⟨hn, fun e => hc e.symm⟩
          · intro hn; exact Classical.byContradiction fun hc => h2 ⟨hn, fun e => hc e.symm⟩
    · rintro ⟨_, _, ⟨rfl, rfl⟩, h1, h2⟩
      rw [if_neg (fun hc => hc.2 (h1 hc.1).symm), if_neg (fun hc => hc.2 (h2 hc.1).symm)]

theorem checkProof_some_iff (lib : JWT.Lib) (pc : JWT.ProofChecker) (iss : String)
    (det : Option Bytes) (s : String) : JWT.checkProof lib pc (some iss) det s = .ok () ↔
      ∃ j, lib.parseJWS det s = some j ∧ pc j.headers iss j.signingInput j.signature = true := by
  unfold JWT.checkProof
  cases h : lib.parseJWS det s with
  | none => simp
  | some j =>
    simp only [JWT.joseVerify, Option.some.injEq, exists_eq_left']
    split <;> simp_all

theorem ofEmbedded_iff (lib : VLib) (k : Proof.Jwk) (h : JObj) (iss : String) (msg sig : Bytes) :
    JWT.ofEmbedded Proof.defaultJwt (Proof.holderVerifiers lib.prim)
      ⟨"JsonWebKey2020", [], some k⟩ h iss msg sig = true ↔
    ∃ alg, header h "alg" = some alg ∧
      Proof.AlgAccepts lib.prim ⟨"JsonWebKey2020", [], some k⟩ msg sig alg := by
  rw [← Proof.embedded_jwt_iff]
  unfold JWT.ofEmbedded
  split <;> simp_all

/-- C17: the holder verification step succeeds exactly when the holder policy holds. -/
theorem holder_verification_iff (lib : VLib) (o : VOpts) (payload : JObj) (hv : String) :
    runHolderVerification lib o payload hv = .ok () ↔ HolderPolicy lib o payload hv := by
  unfold runHolderVerification HolderPolicy
  by_cases hv0 : hv = ""
  · subst hv0
    cases o.holderRequired <;> simp
  · have e1 : (o.holderRequired && hv == "") = false := by simp [hv0]
    rw [e1]
    simp only [Bool.false_eq_true, if_false, hv0, false_and, false_or, ne_eq, not_false_iff, true_and]
    constructor
    · intro h
      cases hc : holderChecker lib payload with
      | error e => rw [hc] at h; cases h
      | ok pc =>
        rw [hc] at h
        simp only at h
        cases hp : JWT.parse lib.jwt none hv with
        | error e => rw [hp] at h; cases h
        | ok r =>
          obtain ⟨tok, pl⟩ := r
          rw [hp] at h
          simp only at h
          cases hcp : JWT.checkProof lib.jwt pc (some "") none hv with
          | error e => rw [hcp] at h; cases h
          | ok u =>
            rw [hcp] at h
            simp only [verifyHolderJWT] at h
            cases ha : verifySigningAlg tok.headers o.holderAlgs with
            | error e => rw [ha] at h; cases h
            | ok u =>
              rw [ha] at h
              simp only at h
              cases hj : verifyJWT lib o.nowHolder o.leeway tok.payload with
              | error e => rw [hj] at h; cases h
              | ok u =>
                rw [hj] at h
                simp only at h
                obtain ⟨k, hk, rfl⟩ := (holderChecker_iff lib payload pc).mp hc
                obtain ⟨j, p1, p2, p3, p4, _⟩ := (JWT.parse_ok_iff _ _ _ _ _).mp hp
                obtain ⟨j', q1, q2⟩ := (checkProof_some_iff _ _ _ _ _).mp hcp
                rw [p1] at q1; cases q1
                obtain ⟨alg, a1, a2⟩ := (ofEmbedded_iff lib k _ _ _ _).mp q2
                obtain ⟨t, t1, t2⟩ := (verifyJWT_iff lib _ _ _).mp hj
                obtain ⟨nonce, aud, b1, b2, b3⟩ := (verifyBinding_iff lib o _).mp h
                have halg := (verifySigningAlg_iff _ _).mp ha
                rw [p4] at halg
                exact ⟨k, j, tok.payload, alg, t, nonce, aud, hk, p1, p2, p3, a1, a2, halg, t1, t2,
                  b1, b2, b3⟩
    · rintro ⟨k, j, m, alg, t, nonce, aud, hk, p1, p2, p3, a1, a2, ha, t1, t2, b1, b2, b3⟩
      rw [(holderChecker_iff lib payload _).mpr ⟨k, hk, rfl⟩]
      simp only
      rw [(JWT.parse_ok_iff lib.jwt none hv ⟨j.headers, m⟩ j.payload).mpr ⟨j, p1, p2, p3, rfl, rfl⟩]
      simp only
      rw [(checkProof_some_iff lib.jwt _ "" none hv).mpr
        ⟨j, p1, (ofEmbedded_iff lib k _ _ _ _).mpr ⟨alg, a1, a2⟩⟩]
      simp only [verifyHolderJWT]
      rw [(verifySigningAlg_iff _ _).mpr ha, (verifyJWT_iff lib _ _ _).mpr ⟨t, t1, t2⟩]
      exact (verifyBinding_iff lib o m).mpr ⟨nonce, aud, b1, b2, b3⟩

theorem checkExpectedTyp_iff (o : VOpts) (h : JObj) : checkExpectedTyp o h = .ok () ↔
    (o.expectedTyp ≠ "" → header h "typ" = some o.expectedTyp) := by
  unfold checkExpectedTyp verifyTyp
  by_cases h0 : o.expectedTyp = ""
  · simp [h0]
  · simp only [h0, ne_eq, not_false_iff, if_true, forall_const]
    cases h1 : header h "typ" with
    | none => simp
    | some t => by_cases h2 : t = o.expectedTyp <;> simp [h2]

/-- The issuer-signed part: proof by the issuer's key, allowed algorithm, validity window, and no
disclosure listed twice. -/
theorem validateIssuerSigned_iff (lib : VLib) (o : VOpts) (sdjwt : String) (ds : List String)
    (tok : JWT.Token) : validateIssuerSigned lib o sdjwt ds = .ok tok ↔
      (∃ pl, JWT.parseAndCheckProof lib.jwt o.pc true o.detached sdjwt = .ok (tok, pl)) ∧
      AllowedAlg tok.headers o.issuerAlgs ∧
      (∃ t, lib.times tok.payload = some t ∧ InWindow o.now o.leeway t) ∧ ds.Nodup := by
  rw [← verifySigningAlg_iff, ← verifyJWT_iff]
  have hd := hasDuplicate_iff ds []
  simp only [List.not_mem_nil, not_false_iff, implies_true, and_true] at hd
  rw [← hd]
  unfold validateIssuerSigned
  cases hp : JWT.parseAndCheckProof lib.jwt o.pc true o.detached sdjwt with
  | error e => simp
  | ok r =>
    obtain ⟨tok', pl⟩ := r
    simp only [Except.ok.injEq, Prod.mk.injEq, exists_and_left, exists_eq', and_true]
    constructor
    · intro h
      cases ha : verifySigningAlg tok'.headers o.issuerAlgs with
      | error e => rw [ha] at h; cases h
      | ok u =>
        rw [ha] at h
        simp only at h
        cases hj : verifyJWT lib o.now o.leeway tok'.payload with
        | error e => rw [hj] at h; cases h
        | ok u' =>
          rw [hj] at h
          simp only at h
          cases hh : hasDuplicate [] ds with
          | true => rw [hh] at h; simp at h
          | false =>
            rw [hh] at h
            simp only [Bool.false_eq_true, if_false, Except.ok.injEq] at h
            subst h
            exact ⟨rfl, ha, hj, rfl⟩
    · rintro ⟨rfl, ha, hj, hh⟩
      rw [ha]; simp only [hj, hh]; rfl

/-! ## Main theorems -/

/-- The acceptance condition of the verifier, in full. -/
structure Accepted (lib : VLib) (o : VOpts) (p : Presentation) (tok : JWT.Token) : Prop where
  /-- the issuer-signed JWT carries a valid proof for its `iss` -/
  proof : ∃ pl, JWT.parseAndCheckProof lib.jwt o.pc true o.detached p.sdJWT = .ok (tok, pl)
  alg : AllowedAlg tok.headers o.issuerAlgs
  time : ∃ t, lib.times tok.payload = some t ∧ InWindow o.now o.leeway t
  nodup : p.disclosures.Nodup
  disclosures : verifyDisclosures lib.env p.disclosures tok.payload = .ok ()
  typ : o.expectedTyp ≠ "" → header tok.headers "typ" = some o.expectedTyp
  holder : HolderPolicy lib o tok.payload p.holderVerification

/-- C16/C17/C18: the verifier returns claims exactly for accepted presentations, and then the claims
are the processed disclosures. -/
theorem verifier_parse_iff (lib : VLib) (o : VOpts) (order : DMap → List String) (s : String)
    (out : JObj) : verifierParse lib o order s = .ok out ↔
      ∃ tok, Accepted lib o (parsePresentation s) tok ∧
        disclosedClaims lib.env (parsePresentation s).disclosures tok.payload order = .ok out := by
  unfold verifierParse
  dsimp only
  constructor
  · intro h
    cases h1 : validateIssuerSigned lib o (parsePresentation s).sdJWT (parsePresentation s).disclosures with
    | error e => rw [h1] at h; cases h
    | ok tok =>
      rw [h1] at h
      simp only at h
      cases h2 : verifyDisclosures lib.env (parsePresentation s).disclosures tok.payload with
      | error e => rw [h2] at h; cases h
      | ok u =>
        rw [h2] at h
        simp only at h
        cases h3 : checkExpectedTyp o tok.headers with
        | error e => rw [h3] at h; cases h
        | ok u =>
          rw [h3] at h
          simp only at h
          cases h4 : runHolderVerification lib o tok.payload (parsePresentation s).holderVerification with
          | error e => rw [h4] at h; cases h
          | ok u =>
            rw [h4] at h
            simp only at h
            cases h5 : disclosedClaims lib.env (parsePresentation s).disclosures tok.payload order with
            | error e => rw [h5] at h; cases h
            | ok c =>
              rw [h5] at h
              cases h
              obtain ⟨a, b, c, d⟩ := (validateIssuerSigned_iff _ _ _ _ _).mp h1
              exact ⟨tok, ⟨a, b, c, d, h2, (checkExpectedTyp_iff _ _).mp h3,
                (holder_verification_iff _ _ _ _).mp h4⟩, h5⟩
  · rintro ⟨tok, ⟨a, b, c, d, e, f, g⟩, h⟩
    rw [(validateIssuerSigned_iff _ _ _ _ _).mpr ⟨a, b, c, d⟩]
    simp only [e]
    rw [(checkExpectedTyp_iff _ _).mpr f]
    simp only
    rw [(holder_verification_iff _ _ _ _).mpr g]
    simp only [h]

/-- Every accepted presentation is processed successfully: nothing else can make `Parse` fail. -/
theorem verifier_accepts (lib : VLib) (o : VOpts) (order : DMap → List String) (s : String)
    (tok : JWT.Token) (h : Accepted lib o (parsePresentation s) tok) (he : EnvWF lib.env)
    (hp : JWF (.obj tok.payload)) (ho : ∀ D, ∀ d ∈ GoMap.keys D, d ∈ order D) :
    ∃ out, verifierParse lib o order s = .ok out := by
  obtain ⟨out, hout⟩ := verified_can_be_processed he hp ho h.disclosures
  exact ⟨out, (verifier_parse_iff lib o order s out).mpr ⟨tok, h, hout⟩⟩

/-- C16: accepted presentations are signed with an allowed algorithm, never "none"; and so is the
holder's JWT when there is one. -/
theorem allowed_algorithms_only (lib : VLib) (o : VOpts) (order : DMap → List String) (s : String)
    (out : JObj) (h : verifierParse lib o order s = .ok out) :
    (∃ j a, lib.jwt.parseJWS o.detached (parsePresentation s).sdJWT = some j ∧
      header j.headers "alg" = some a ∧ a ≠ "none" ∧ a ∈ o.issuerAlgs) ∧
    ((parsePresentation s).holderVerification ≠ "" →
      ∃ j a, lib.jwt.parseJWS none (parsePresentation s).holderVerification = some j ∧
        header j.headers "alg" = some a ∧ a ≠ "none" ∧ a ∈ o.holderAlgs) := by
  obtain ⟨tok, ha, _⟩ := (verifier_parse_iff _ _ _ _ _).mp h
  constructor
  · obtain ⟨pl, hp⟩ := ha.proof
    obtain ⟨j, _, h1, _, _, h4, _⟩ := (JWT.parse_and_check_iff _ _ _ _ _ _ _).mp hp
    obtain ⟨a, a1, a2, a3⟩ := ha.alg
    exact ⟨j, a, h1, h4 ▸ a1, a2, a3⟩
  · intro hv
    rcases ha.holder with ⟨h0, _⟩ | ⟨_, ⟨k, j, m, alg, t, n, au, _, p1, _, _, _, _, ⟨a, a1, a2, a3⟩, _⟩⟩
    · exact absurd h0 hv
    · exact ⟨j, a, p1, a1, a2, a3⟩

/-- C17: required holder verification cannot be skipped. -/
theorem holder_verification_required (lib : VLib) (o : VOpts) (order : DMap → List String)
    (s : String) (hr : o.holderRequired = true)
    (hn : (parsePresentation s).holderVerification = "") :
    ∀ out, verifierParse lib o order s ≠ .ok out := by
  intro out h
  obtain ⟨tok, ha, _⟩ := (verifier_parse_iff _ _ _ _ _).mp h
  rcases ha.holder with ⟨_, h0⟩ | ⟨h0, _⟩
  · rw [hr] at h0; cases h0
  · exact h0 hn

/-- C17: a supplied holder verification is always checked, required or not. -/
theorem holder_verification_checked (lib : VLib) (o : VOpts) (order : DMap → List String)
    (s : String) (out : JObj) (h : verifierParse lib o order s = .ok out)
    (hn : (parsePresentation s).holderVerification ≠ "") :
    ∃ tok pl, JWT.parseAndCheckProof lib.jwt o.pc true o.detached (parsePresentation s).sdJWT
        = .ok (tok, pl) ∧
      HolderJWTOk lib o tok.payload (parsePresentation s).holderVerification := by
  obtain ⟨tok, ha, _⟩ := (verifier_parse_iff _ _ _ _ _).mp h
  obtain ⟨pl, hp⟩ := ha.proof
  rcases ha.holder with ⟨h0, _⟩ | ⟨_, h0⟩
  · exact absurd h0 hn
  · exact ⟨tok, pl, hp, h0⟩

/-- C18: a presentation that lists a disclosure twice is rejected. -/
theorem duplicate_disclosures_rejected (lib : VLib) (o : VOpts) (order : DMap → List String)
    (p : Presentation) (hj : NoChar '~' p.sdJWT) (hd : ∀ d ∈ p.disclosures, NoChar '~' d)
    (hh : NoChar '~' p.holderVerification) (hdup : ¬ p.disclosures.Nodup) :
    ∀ out, verifierParse lib o order p.serialize ≠ .ok out := by
  intro out h
  obtain ⟨tok, ha, _⟩ := (verifier_parse_iff _ _ _ _ _).mp h
  have := ha.nodup
  rw [presentation_round_trip p hj hd hh] at this
  exact hdup this

/-- End to end with DID resolution: the claims a relying party gets come from a JWT signed by a key
of the issuer's DID document and from disclosures that this JWT commits to. -/
theorem verifier_end_to_end (lib : VLib) (o : VOpts) (order : DMap → List String) (s : String)
    (out : JObj) (vdr : String → Option (List Proof.DocEntry))
    (hpc : o.pc = JWT.ofChecker (Proof.defaultChecker lib.prim (Proof.vdrResolve vdr)))
    (h : verifierParse lib o order s = .ok out) :
    ∃ (tok : JWT.Token) (iss : Json) (kid alg : String) (vm : Proof.VM) (j : JWT.Jws) (hashAlg : String),
      GoMap.get? tok.payload "iss" = some iss ∧
      Proof.KeyOfDid vdr (lib.jwt.jsonString iss) kid vm ∧
      lib.jwt.parseJWS o.detached (parsePresentation s).sdJWT = some j ∧
      lib.jwt.payloadToMap j.payload = some tok.payload ∧
      Proof.AlgAccepts lib.prim vm j.signingInput j.signature alg ∧ alg ∈ o.issuerAlgs ∧
      getHashAlg lib.env tok.payload = some hashAlg ∧
      (∀ d ∈ (parsePresentation s).disclosures,
        Committed lib.env hashAlg (parsePresentation s).disclosures tok.payload
          (lib.env.hash hashAlg d)) := by
  obtain ⟨tok, ha, _⟩ := (verifier_parse_iff _ _ _ _ _).mp h
  obtain ⟨pl, hp⟩ := ha.proof
  rw [hpc] at hp
  obtain ⟨v, kid, alg, vm, j, h1, h2, h3, h4, h5, h6, h7⟩ := JWT.jwt_issuer_binding _ _ _ _ _ _ _ hp
  obtain ⟨j', _, g1, _, g3, g4, _⟩ := (JWT.parse_and_check_iff _ _ _ _ _ _ _).mp hp
  rw [h5] at g1; cases g1
  obtain ⟨ha', hc1, hc2⟩ := accepted_disclosures_committed ha.disclosures
  obtain ⟨a, a1, a2, a3⟩ := ha.alg
  rw [h3] at a1; cases a1
  exact ⟨tok, v, kid, alg, vm, j, ha', h1, h4, h5, g3, h6, a3, hc1, hc2⟩

/-! ## Holder -/

/-- `s` has the shape of a JWT: three dot-separated parts of which the first two are base64url JSON. -/
def JwtShaped (lib : VLib) (s : String) : Prop :=
  ∃ h p g, NoChar '.' h ∧ NoChar '.' p ∧ NoChar '.' g ∧
    s = h ++ String.singleton '.' ++ (p ++ String.singleton '.' ++ g) ∧
    lib.validJSON h = true ∧ lib.validJSON p = true

/-- The extra checks of SD-JWT version 5 on the holder's side. -/
structure V5Ok (lib : VLib) (o : HOpts) (tok : JWT.Token) (ds : List String) : Prop where
  /-- the last part is not a (key binding) JWT -/
  noKB : ∀ d, ds.getLast? = some d → ¬ JwtShaped lib d
  typ : o.expectedTyp ≠ "" → header tok.headers "typ" = some o.expectedTyp
  alg : AllowedAlg tok.headers o.issuerAlgs
  time : ∃ t, lib.times tok.payload = some t ∧ InWindow o.now o.leeway t

theorem looksLikeJWT_iff (lib : VLib) (s : String) :
    looksLikeJWT lib s = true ↔ JwtShaped lib s := by
  unfold looksLikeJWT
  constructor
  · intro h
    split at h
    · rename_i a b c hs
      have hn := split_noChar '.' s
      have hj := joinC_split '.' s
      rw [hs] at hn hj
      refine ⟨a, b, c, hn a (by simp), hn b (by simp), hn c (by simp), ?_, ?_⟩
      · rw [← hj]; rfl
      · simpa using h
    · cases h
  · rintro ⟨a, b, c, h1, h2, h3, rfl, h4, h5⟩
    rw [split_append _ _ _ h1, split_append _ _ _ h2, split_none _ _ h3]
    simp [h4, h5]

theorem applyV5_iff (lib : VLib) (o : HOpts) (tok : JWT.Token) (ds : List String) :
    applyV5 lib o tok ds = .ok () ↔ V5Ok lib o tok ds := by
  have hk : looksLikeJWT lib (ds.getLast?.getD "") = false ↔
      ∀ d, ds.getLast? = some d → ¬ JwtShaped lib d := by
    cases hl : ds.getLast? with
    | none =>
      simp only [Option.getD_none, reduceCtorEq, false_implies, implies_true, iff_true]
      unfold looksLikeJWT
      have : split '.' "" = [""] := split_none '.' "" (by simp [NoChar])
      rw [this]
    | some d =>
      simp only [Option.getD_some, Option.some.injEq, forall_eq']
      rw [← looksLikeJWT_iff]; simp
  have ht : (if o.expectedTyp ≠ "" then verifyTyp tok.headers o.expectedTyp else .ok ()) = .ok () ↔
      (o.expectedTyp ≠ "" → header tok.headers "typ" = some o.expectedTyp) := by
    unfold verifyTyp
    by_cases h0 : o.expectedTyp = ""
    · simp [h0]
    · simp only [h0, ne_eq, not_false_iff, if_true, forall_const]
      cases h1 : header tok.headers "typ" with
      | none => simp
      | some t => by_cases h2 : t = o.expectedTyp <;> simp [h2]
  unfold applyV5
  constructor
  · intro h
    split at h
    · cases h
    · rename_i h1
      split at h
      · cases h
      · rename_i h2
        split at h
        · cases h
        · rename_i h3
          exact ⟨hk.mp (by simpa using h1), ht.mp h2, (verifySigningAlg_iff _ _).mp h3,
            (verifyJWT_iff _ _ _ _).mp h⟩
  · rintro ⟨h1, h2, h3, h4⟩
    rw [if_neg (by rw [hk.mpr h1]; simp), ht.mpr h2]
    simp only
    rw [(verifySigningAlg_iff _ _).mpr h3]
    exact (verifyJWT_iff _ _ _ _).mpr h4

/-- C07/C16 for the holder: `Parse` returns claims exactly when the issuer-signed JWT is accepted
by the configured proof checker, the version 5 checks pass when they are on, and every disclosure is
committed to; the claims are then the resolved disclosures. -/
theorem holder_parse_iff (lib : VLib) (o : HOpts) (order : DMap → List String) (s : String)
    (cs : List Claim) : holderParse lib o order s = .ok cs ↔
      ∃ tok pl alg D, JWT.parseAndCheckProof lib.jwt o.pc true o.detached (parseIssuance s).sdJWT
          = .ok (tok, pl) ∧
        (o.v5 = true → V5Ok lib o tok (parseIssuance s).disclosures) ∧
        verifyDisclosures lib.env (parseIssuance s).disclosures tok.payload = .ok () ∧
        getHashAlg lib.env tok.payload = some alg ∧
        resolveDisclosureClaims lib.env alg (parseIssuance s).disclosures order = .ok D ∧
        cs = D.map (fun p => ⟨p.2.disclosure, p.2.name, p.2.value⟩) := by
  have hv : ∀ tok ds, (if o.v5 then applyV5 lib o tok ds else .ok ()) = .ok () ↔
      (o.v5 = true → V5Ok lib o tok ds) := by
    intro tok ds
    cases o.v5
    · simp
    · simp [applyV5_iff]
  unfold holderParse
  dsimp only
  constructor
  · intro h
    split at h
    · cases h
    · rename_i tok pl h1
      split at h
      · cases h
      · rename_i h2
        split at h
        · cases h
        · rename_i h3
          split at h
          · cases h
          · rename_i alg h4
            split at h
            · cases h
            · rename_i D h5
              cases h
              exact ⟨tok, pl, alg, D, h1, (hv _ _).mp h2, h3, h4, h5, rfl⟩
  · rintro ⟨tok, pl, alg, D, h1, h2, h3, h4, h5, rfl⟩
    rw [h1]
    simp only
    rw [(hv _ _).mpr h2]
    simp only [h3, h4, h5]

/-! ## A concrete presentation -/

/-- Headers of the example tokens. -/
def exHdr : JObj := [("alg", .str "EdDSA"), ("kid", .str "did:ex:a#k1")]

/-- Toy library: an issuer-signed token "sd" (payload 1), a holder token "hb" (payload 2), and the
disclosures of `exEnv`. -/
def exVLib : VLib where
  jwt :=
    { parseJWS := fun _ s =>
        if s = "sd" then some ⟨exHdr, [1], [5], [5] ++ Proof.exKey⟩
        else if s = "hb" then some ⟨[("alg", .str "EdDSA")], [2], [6], [6] ++ Proof.exKey⟩
        else none
      payloadToMap := fun b =>
        if b = [1] then some [("iss", .str "did:ex:a"), ("_sd_alg", .str "SHA-256"),
          ("_sd", .arr [.str "hA"]), ("cnf", .obj [("jwk", .str "key")]), ("exp", .num 100)]
        else if b = [2] then some [("nonce", .str "n"), ("aud", .str "v")]
        else none
      upper := fun s => s
      jsonString := fun v => match v with | .str s => s | _ => "" }
  env := exEnv
  prim := Proof.exPrim
  times := fun m => some ⟨none, (GoMap.get? m "exp").map (fun _ => 100), none⟩
  binding := fun m => some (((GoMap.get? m "nonce").bind Json.asStr?).getD "",
    ((GoMap.get? m "aud").bind Json.asStr?).getD "")
  jwk := fun v => match v with
    | .str "key" => some ⟨"OKP", "Ed25519", .ed25519 Proof.exKey⟩
    | _ => none
  validJSON := fun _ => true

/-- Options with holder verification required, nonce "n" and audience "v". -/
def exOpts (now : Int) (nonce : String) : VOpts where
  pc := JWT.ofChecker (Proof.defaultChecker Proof.exPrim (Proof.vdrResolve Proof.exVdr))
  detached := none
  issuerAlgs := defaultAlgs
  holderAlgs := defaultAlgs
  leeway := 0
  holderRequired := true
  expectedNonce := nonce
  expectedAud := "v"
  expectedTyp := ""
  now := now
  nowHolder := now

/-- Accepted: all hypotheses of the theorems above are met by a real presentation. -/
example : verifierParse exVLib (exOpts 0 "n") GoMap.keys "sd~A~hb" =
    .ok [("name", .str "Ann"), ("iss", .str "did:ex:a"), ("cnf", .obj [("jwk", .str "key")]),
      ("exp", .num 100)] := by rfl

/-- Rejected: expired, wrong nonce, no holder verification, disclosure twice, foreign disclosure. -/
example : verifierParse exVLib (exOpts 200000000000 "n") GoMap.keys "sd~A~hb" = .error .expired ∧
    verifierParse exVLib (exOpts 0 "m") GoMap.keys "sd~A~hb" = .error .nonce ∧
    verifierParse exVLib (exOpts 0 "n") GoMap.keys "sd~A~" = .error .holderRequired ∧
    verifierParse exVLib (exOpts 0 "n") GoMap.keys "sd~A~A~hb" = .error .duplicates ∧
    verifierParse exVLib (exOpts 0 "n") GoMap.keys "sd~C~hb" =
      .error (.disclosures .notIncluded) := ⟨by rfl, by rfl, by rfl, by rfl, by rfl⟩

/-- The holder parses the issued form. -/
example : holderParse exVLib
    ⟨fun _ _ _ _ => true, none, false, [], 0, "", 0⟩ GoMap.keys "sd~A" =
    .ok [⟨"A", "name", .str "Ann"⟩] := by rfl

end VC.SDJWT
