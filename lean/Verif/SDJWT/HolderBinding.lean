import Verif.SDJWT.Dates
import Verif.SDJWT.FromVC
import Verif.Issue.CredProps
/-!
# C145, C146: holder binding from the holder to the verifier

The holder's `CreatePresentation` with `WithHolderVerification` (sdjwt/holder/holder.go:207-303) against the verifier's
`Parse` (sdjwt/verifier/verifier.go:162-390, keybidning.go:24-54), with the decoding of C141 filled in.

Assumed of go-jose (its source is not in the sandbox): a `NumericDate` of zero is marshalled as `null`, any other as its
integer.
-/

namespace VC.SDJWT
open VC VC.Num
open VC.Proof (Bytes header)

/-! ## Model -/

/-- `BindingPayload`, holder.go:209-213. -/
structure BindingPayload where
  nonce : String
  aud : String
  iat : Option Int

/-- `*jwt.NumericDate` with `omitempty`. -/
def dateField (k : String) : Option Int → JObj
  | none => []
  | some n => [(k, if n = 0 then .null else .num n)]

/-- The claims of the binding JWT: the payload marshalled, holder.go:209-213 with its JSON tags. -/
def BindingPayload.claims (p : BindingPayload) : JObj :=
  strField "nonce" p.nonce ++ strField "aud" p.aud ++ dateField "iat" p.iat

/-- `BindingInfo`, holder.go:216-220: the payload, the headers, and the signer's headers and signing. -/
structure BindingInfo where
  payload : BindingPayload
  headers : JObj
  signerHeaders : JObj
  sign : Bytes → Option Bytes

/-- `CreateHolderVerification`, holder.go:295-303. -/
def createHolderVerification (L : Iss.JwsLib) (b : BindingInfo) : Except Unit String :=
  match Iss.newJoseSigned L b.payload.claims b.headers b.signerHeaders b.sign with
  | none => .error ()
  | some t => .ok (Iss.serialize L false t)

/-- `CreatePresentation` with or without `WithHolderVerification`, holder.go:254-293. -/
def present (L : Iss.JwsLib) (cfi : String) (chosen : List String) (b : Option BindingInfo) : Except PresErr String :=
  createPresentation cfi chosen (b.map (createHolderVerification L))

/-! ## Specification -/

namespace Spec

/-- Case folding does not identify two of the names the decoder looks for. -/
def FoldSane (C : Conv) : Prop :=
  ∀ a ∈ ["nonce", "aud", "iat", "exp", "nbf", "iss", "sub", "jti"],
    ∀ b ∈ ["nonce", "aud", "iat", "exp", "nbf", "iss", "sub", "jti"], a ≠ b → C.fold a b = false

/-- The time the holder states is one that go-jose and float64 keep. -/
def PlainTime (p : BindingPayload) : Prop := ∀ n, p.iat = some n → |n| ≤ 2 ^ 53 ∧ n ≠ -62135596800

/-- The options of a verifier that asks for no holder binding. -/
def NoBinding (o : VOpts) : VOpts := { o with holderRequired := false }

/-- The JWS `j` that the holder signed fits what the verifier wants: it is signed by the key `k` under the algorithm it
names, which the verifier allows, for the nonce and audience the verifier expects, and not in the future. -/
structure Fits (lib : VLib) (o : VOpts) (p : BindingPayload) (j : JWT.Jws) (k : Proof.Jwk) : Prop where
  headers : JWT.GoodHeaders lib.jwt.upper j.headers
  key : ∃ alg, header j.headers "alg" = some alg ∧ alg ≠ "none" ∧ alg ∈ o.holderAlgs ∧
    Proof.AlgAccepts lib.prim ⟨"JsonWebKey2020", [], some k⟩ j.signingInput j.signature alg
  nonce : o.expectedNonce = "" ∨ p.nonce = o.expectedNonce
  aud : o.expectedAud = "" ∨ p.aud = o.expectedAud
  time : ∀ n, p.iat = some n → n ≠ 0 → n * 1000000000 ≤ o.nowHolder + o.leeway

/-- The issuer-signed payload of an SD-JWT. -/
def SignedPayload (lib : VLib) (o : VOpts) (sdjwt : String) (m : JObj) : Prop :=
  ∃ j, lib.jwt.parseJWS o.detached sdjwt = some j ∧ lib.jwt.payloadToMap j.payload = some m

end Spec
open Spec

/-! ## Proofs -/

theorem bindingClaims_keys (p : BindingPayload) : ∀ x ∈ p.claims, x.1 ∈ ["nonce", "aud", "iat"] := by
  intro x hx
  unfold BindingPayload.claims strField dateField at hx
  simp only [List.mem_append] at hx
  rcases hx with (h | h) | h
  · split at h <;> simp at h; subst h; simp
  · split at h <;> simp at h; subst h; simp
  · split at h <;> simp at h; subst h; simp

theorem member_claims {C : Conv} (hC : FoldSane C) (p : BindingPayload) (k : String)
    (hk : k ∈ ["nonce", "aud", "iat", "exp", "nbf", "iss", "sub", "jti"]) :
    member C p.claims k = GoMap.get? p.claims k := by
  unfold member
  cases h : GoMap.get? p.claims k with
  | some v => rfl
  | none =>
    have : p.claims.find? (fun q => C.fold q.1 k) = none := by
      rw [List.find?_eq_none]
      intro x hx
      have hx' := bindingClaims_keys p x hx
      have hne : x.1 ≠ k := by
        rintro rfl
        exact GoMap.get?_eq_none_iff.1 h (List.mem_map.2 ⟨x, hx, rfl⟩)
      rw [hC x.1 (by revert hx'; simp; rintro (h | h | h) <;> simp [h]) k hk hne]
      simp
    rw [this]
    rfl

theorem get_claims (p : BindingPayload) :
    GoMap.get? p.claims "nonce" = (if p.nonce = "" then none else some (.str p.nonce)) ∧
    GoMap.get? p.claims "aud" = (if p.aud = "" then none else some (.str p.aud)) ∧
    GoMap.get? p.claims "iat" = p.iat.map (fun n => if n = 0 then .null else .num n) ∧
    ∀ k, k ∉ ["nonce", "aud", "iat"] → GoMap.get? p.claims k = none := by
  refine ⟨?_, ?_, ?_, ?_⟩
  · unfold BindingPayload.claims strField dateField
    rw [GoMap.get?_append, GoMap.get?_append]
    by_cases h1 : p.nonce = "" <;> by_cases h2 : p.aud = "" <;> cases h3 : p.iat <;> simp [h1, h2, GoMap.get?]
  · unfold BindingPayload.claims strField dateField
    rw [GoMap.get?_append, GoMap.get?_append]
    by_cases h1 : p.nonce = "" <;> by_cases h2 : p.aud = "" <;> cases h3 : p.iat <;> simp [h1, h2, GoMap.get?]
  · unfold BindingPayload.claims strField dateField
    rw [GoMap.get?_append, GoMap.get?_append]
    by_cases h1 : p.nonce = "" <;> by_cases h2 : p.aud = "" <;> cases h3 : p.iat <;> simp [h1, h2, GoMap.get?]
  · intro k hk
    rw [GoMap.get?_eq_none_iff]
    intro h
    obtain ⟨x, hx, rfl⟩ := List.mem_map.1 h
    exact hk (bindingClaims_keys p x hx)

theorem decDate_claims {C : Conv} (p : BindingPayload) (hp : PlainTime p) :
    decDate C (p.iat.map (fun (n : Int) => if n = 0 then Json.null else .num (n : Rat))) = .ok (p.iat.filter (· ≠ 0)) := by
  cases h : p.iat with
  | none => rfl
  | some n =>
    obtain ⟨h1, h2⟩ := hp n h
    by_cases h0 : n = 0
    · subst h0; rfl
    · have : decDate C (some (.num n)) = .ok (some n) :=
        (decDate_states C _ _).mpr (.number ((second_exact C h1).mpr rfl) h2)
      simpa [h0, Option.filter] using this

theorem decText_claims (C : Conv) (s : String) :
    decText C (if s = "" then none else some (.str s)) = .ok s := by
  split
  · next h => rw [h]; rfl
  · rfl

theorem binding_decoded {C : Conv} (hC : FoldSane C) (p : BindingPayload) (hp : PlainTime p) :
    decBinding C p.claims = .ok (p.nonce, p.aud) ∧
    decClaims C p.claims = .ok ⟨none, none, p.iat.filter (· ≠ 0)⟩ := by
  obtain ⟨g1, g2, g3, g4⟩ := get_claims p
  have hm := member_claims hC p
  have hd := decDate_claims (C := C) p hp
  constructor
  · unfold decBinding
    rw [hm "nonce" (by simp), hm "aud" (by simp), hm "iat" (by simp), g1, g2, g3, decText_claims, decText_claims, hd]
    rfl
  · unfold decClaims
    rw [hm "aud" (by simp), hm "iat" (by simp), hm "exp" (by simp), hm "nbf" (by simp), hm "iss" (by simp),
      hm "sub" (by simp), hm "jti" (by simp), g2, g3, g4 "exp" (by decide), g4 "nbf" (by decide), g4 "iss" (by decide),
      g4 "sub" (by decide), g4 "jti" (by decide), hd]
    have : decAud (if p.aud = "" then none else some (.str p.aud)) = true := by split <;> rfl
    rw [if_pos this]
    rfl

/-- The verifier accepts a presentation exactly if it would without the binding and the binding is in order. -/
theorem accepted_split (lib : VLib) (o : VOpts) (sd : String) (ds : List String) (hv : String) (tok : JWT.Token) :
    Accepted lib o ⟨sd, ds, hv⟩ tok ↔
      Accepted lib (NoBinding o) ⟨sd, ds, ""⟩ tok ∧ HolderPolicy lib o tok.payload hv := by
  constructor
  · intro h
    exact ⟨⟨h.proof, h.alg, h.time, h.nodup, h.disclosures, h.typ, .inl ⟨rfl, rfl⟩⟩, h.holder⟩
  · rintro ⟨h, h2⟩
    exact ⟨h.proof, h.alg, h.time, h.nodup, h.disclosures, h.typ, h2⟩

theorem serialize_ne (L : Iss.JwsLib) (t : Iss.Tok) : Iss.serialize L false t ≠ "" := by
  intro h
  have := congrArg String.toList h
  unfold Iss.serialize at this
  simp at this

theorem policy_iff {lib : VLib} {C : Conv} (hC : FoldSane C) {L : Iss.JwsLib} (o : VOpts) (m : JObj) {b : BindingInfo}
    (hp : PlainTime b.payload) {t : Iss.Tok} (htp : t.payload = b.payload.claims)
    (hr : Iss.ReadsToken L lib.jwt false t) :
    HolderPolicy (lib.std C) o m (Iss.serialize L false t) ↔ ∃ k, CnfKey lib m k ∧ Fits lib o b.payload t.jws k := by
  obtain ⟨d1, d2⟩ := binding_decoded hC b.payload hp
  have r1 : lib.jwt.parseJWS none (Iss.serialize L false t) = some t.jws := hr.parse
  have r2 : lib.jwt.payloadToMap t.jws.payload = some b.payload.claims := by rw [← htp]; exact hr.claims
  have e1 : (lib.std C).times b.payload.claims = some ⟨none, none, b.payload.iat.filter (· ≠ 0)⟩ := by
    show (decClaims C b.payload.claims).some? = _
    rw [d2]; rfl
  have e2 : (lib.std C).binding b.payload.claims = some (b.payload.nonce, b.payload.aud) := by
    show (decBinding C b.payload.claims).some? = _
    rw [d1]; rfl
  constructor
  · rintro (⟨h, -⟩ | ⟨-, ⟨k, j, tok, alg, times, nonce, aud, h1, h2, h3, h4, h5, h6, ⟨a, a1, a2, a3⟩, h8, h9, h10, h11, h12⟩⟩)
    · exact absurd h (serialize_ne L t)
    · have h2' : lib.jwt.parseJWS none (Iss.serialize L false t) = some j := h2
      rw [r1] at h2'; cases h2'
      have h4' : lib.jwt.payloadToMap t.jws.payload = some tok := h4
      rw [r2] at h4'; cases h4'
      rw [e1] at h8; cases h8
      rw [e2] at h10; cases h10
      rw [h5] at a1; cases a1
      refine ⟨k, h1, h3, ⟨alg, h5, a2, a3, h6⟩, ?_, ?_, ?_⟩
      · by_cases h : o.expectedNonce = ""
        · exact .inl h
        · exact .inr (h11 h)
      · by_cases h : o.expectedAud = ""
        · exact .inl h
        · exact .inr (h12 h)
      · intro n hn h0
        exact h9.iat n (by simp [hn, h0, Option.filter])
  · rintro ⟨k, h1, h⟩
    obtain ⟨alg, a1, a2, a3, a4⟩ := h.key
    refine .inr ⟨serialize_ne L t, ⟨k, t.jws, b.payload.claims, alg, _, _, _, h1, r1, h.headers, r2, a1, a4,
      ⟨alg, a1, a2, a3⟩, e1, ⟨(fun x hx => by cases hx), (fun x hx => by cases hx), ?_⟩, e2, ?_, ?_⟩⟩
    · intro x hx
      cases hi : b.payload.iat with
      | none => simp [hi] at hx
      | some n =>
        simp only [hi, Option.filter] at hx
        split at hx
        · next h0 =>
          cases hx
          exact h.time x hi (by simpa using h0)
        · cases hx
    · intro hn
      rcases h.nonce with h | h
      · exact absurd h hn
      · exact h
    · intro hn
      rcases h.aud with h | h
      · exact absurd h hn
      · exact h

theorem holderVerification_tok {L : Iss.JwsLib} {b : BindingInfo} {hv : String}
    (h : createHolderVerification L b = .ok hv) : ∃ t,
      Iss.newJoseSigned L b.payload.claims b.headers b.signerHeaders b.sign = some t ∧ hv = Iss.serialize L false t := by
  unfold createHolderVerification at h
  split at h
  · cases h
  · next t ht => cases h; exact ⟨t, ht, rfl⟩

/-- What a bound presentation consists of. -/
theorem present_parts {L : Iss.JwsLib} (hB : Iss.Spec.B64 L) {cfi : String} {chosen : List String} {b : BindingInfo}
    {text : String} (h : present L cfi chosen (some b) = .ok text) :
    ∃ t, Iss.newJoseSigned L b.payload.claims b.headers b.signerHeaders b.sign = some t ∧
      parsePresentation text = ⟨(parseIssuance cfi).sdJWT, chosen, Iss.serialize L false t⟩ ∧
      (∀ d ∈ chosen, d ∈ (parseIssuance cfi).disclosures) := by
  unfold present at h
  simp only [Option.map_some] at h
  have hne : createHolderVerification L b ≠ .error () := by
    intro he
    rw [he] at h
    unfold createPresentation at h
    dsimp only at h
    split at h
    · cases h
    · split at h <;> cases h
  obtain ⟨hv, hhv⟩ : ∃ hv, createHolderVerification L b = .ok hv := by
    cases hc : createHolderVerification L b with
    | error u => exact absurd hc hne
    | ok hv => exact ⟨hv, rfl⟩
  obtain ⟨t, ht, rfl⟩ := holderVerification_tok hhv
  rw [hhv] at h
  have hn : ∀ x, some (Except.ok (ε := Unit) (Iss.serialize L false t)) = some (.ok x) → NoChar '~' x := by
    intro x hx
    cases hx
    exact Iss.serialize_noChar L hB t '~' (by decide) (by decide) (by decide) (by decide)
  obtain ⟨h1, h2⟩ := holder_discloses_exactly cfi chosen _ hn
  exact ⟨t, ht, h1 text h, (h2.1 ⟨text, h⟩).2.1⟩

/-- **C145.**  The presentation that a holder makes from an issued SD-JWT, with a binding, is accepted by a verifier
exactly if the same presentation without a binding is accepted where none is asked for, and the JWS that the holder signed
fits, with the key that the issuer put into the `cnf` claim, the verifier's nonce, audience, algorithms and clock.  The
claims that are returned are the same. -/
theorem bound_presentation_iff (lib : VLib) (C : Conv) (hC : FoldSane C) (L : Iss.JwsLib) (hB : Iss.Spec.B64 L)
    (o : VOpts) (order : DMap → List String) (cfi : String) (chosen : List String) (b : BindingInfo)
    (hp : PlainTime b.payload) (text plain : String) (hb : present L cfi chosen (some b) = .ok text)
    (hn : present L cfi chosen none = .ok plain) :
    ∃ t, Iss.newJoseSigned L b.payload.claims b.headers b.signerHeaders b.sign = some t ∧
      (Iss.ReadsToken L lib.jwt false t → ∀ out,
        (verifierParse (lib.std C) o order text = .ok out ↔
          verifierParse (lib.std C) (NoBinding o) order plain = .ok out ∧
          ∃ m k, SignedPayload lib o (parseIssuance cfi).sdJWT m ∧ CnfKey lib m k ∧ Fits lib o b.payload t.jws k)) := by
  obtain ⟨t, ht, hpt, -⟩ := present_parts hB hb
  refine ⟨t, ht, fun hr out => ?_⟩
  have hpn : parsePresentation plain = ⟨(parseIssuance cfi).sdJWT, chosen, ""⟩ :=
    (holder_discloses_exactly cfi chosen none (fun t h => by cases h)).1 plain hn
  have htp := ((Iss.newJoseSigned_iff L _ _ _ _ t).1 ht).1
  have hsp : ∀ tok, Accepted (lib.std C) (NoBinding o) ⟨(parseIssuance cfi).sdJWT, chosen, ""⟩ tok →
      SignedPayload lib o (parseIssuance cfi).sdJWT tok.payload := by
    intro tok ha
    obtain ⟨pl, h1⟩ := ha.proof
    obtain ⟨j, _, g1, _, g3, _⟩ := (JWT.parse_and_check_iff _ _ _ _ _ _ _).mp h1
    exact ⟨j, g1, g3⟩
  rw [verifier_parse_iff, verifier_parse_iff, hpt, hpn]
  constructor
  · rintro ⟨tok, ha, hd⟩
    obtain ⟨a1, a2⟩ := (accepted_split _ _ _ _ _ _).1 ha
    obtain ⟨k, k1, k2⟩ := (policy_iff hC o tok.payload hp htp hr).1 a2
    exact ⟨⟨tok, a1, hd⟩, tok.payload, k, hsp tok a1, k1, k2⟩
  · rintro ⟨⟨tok, ha, hd⟩, m, k, ⟨j, j1, j2⟩, k1, k2⟩
    obtain ⟨j', g1, g2⟩ := hsp tok ha
    rw [j1] at g1; cases g1
    rw [j2] at g2; cases g2
    exact ⟨tok, (accepted_split _ _ _ _ _ _).2 ⟨ha, (policy_iff hC o _ hp htp hr).2 ⟨k, k1, k2⟩⟩, hd⟩

/-- **C145**, replay: a presentation made for another nonce or another audience is refused. -/
theorem other_challenge_refused (lib : VLib) (C : Conv) (hC : FoldSane C) (L : Iss.JwsLib) (hB : Iss.Spec.B64 L)
    (o : VOpts) (order : DMap → List String) (cfi : String) (chosen : List String) (b : BindingInfo)
    (hp : PlainTime b.payload) (text : String) (hb : present L cfi chosen (some b) = .ok text)
    (hr : ∀ t, Iss.newJoseSigned L b.payload.claims b.headers b.signerHeaders b.sign = some t →
      Iss.ReadsToken L lib.jwt false t)
    (hno : (o.expectedNonce ≠ "" ∧ b.payload.nonce ≠ o.expectedNonce) ∨
      (o.expectedAud ≠ "" ∧ b.payload.aud ≠ o.expectedAud)) (out : JObj) :
    verifierParse (lib.std C) o order text ≠ .ok out := by
  intro h
  obtain ⟨t, ht, hpt, -⟩ := present_parts hB hb
  have htp := ((Iss.newJoseSigned_iff L _ _ _ _ t).1 ht).1
  obtain ⟨tok, ha, -⟩ := (verifier_parse_iff _ _ _ _ _).1 h
  rw [hpt] at ha
  obtain ⟨k, -, hf⟩ := (policy_iff hC o tok.payload hp htp (hr t ht)).1 ha.holder
  rcases hno with ⟨h1, h2⟩ | ⟨h1, h2⟩
  · rcases hf.nonce with e | e
    · exact h1 e
    · exact h2 e
  · rcases hf.aud with e | e
    · exact h1 e
    · exact h2 e

/-- **C145**, theft: a presentation signed by someone whose signatures the key in `cnf` never verifies is refused. -/
theorem other_holder_refused (lib : VLib) (C : Conv) (hC : FoldSane C) (L : Iss.JwsLib) (hB : Iss.Spec.B64 L)
    (o : VOpts) (order : DMap → List String) (cfi : String) (chosen : List String) (b : BindingInfo)
    (hp : PlainTime b.payload) (text : String) (hb : present L cfi chosen (some b) = .ok text)
    (hr : ∀ t, Iss.newJoseSigned L b.payload.claims b.headers b.signerHeaders b.sign = some t →
      Iss.ReadsToken L lib.jwt false t)
    (hkey : ∀ m k, SignedPayload lib o (parseIssuance cfi).sdJWT m → CnfKey lib m k → ∀ data sig alg,
      b.sign data = some sig → ¬ Proof.AlgAccepts lib.prim ⟨"JsonWebKey2020", [], some k⟩ data sig alg) (out : JObj) :
    verifierParse (lib.std C) o order text ≠ .ok out := by
  intro h
  obtain ⟨t, ht, hpt, -⟩ := present_parts hB hb
  have hts := (Iss.newJoseSigned_iff L _ _ _ _ t).1 ht
  obtain ⟨tok, ha, -⟩ := (verifier_parse_iff _ _ _ _ _).1 h
  rw [hpt] at ha
  obtain ⟨k, hk, hf⟩ := (policy_iff hC o tok.payload hp hts.1 (hr t ht)).1 ha.holder
  obtain ⟨pl, h1⟩ := ha.proof
  obtain ⟨j, _, g1, _, g3, _⟩ := (JWT.parse_and_check_iff _ _ _ _ _ _ _).mp h1
  obtain ⟨alg, -, -, -, h4⟩ := hf.key
  exact hkey _ k ⟨j, g1, g3⟩ hk _ _ alg hts.2.2.2.2.2.2.2 h4

/-! ## What the issuer puts in -/

theorem addCustom_keep {obj : JObj} : ∀ {cf : JObj} {k : String} {v : Json}, GoMap.get? obj k = some v →
    GoMap.get? (JsonUtil.addCustomFields obj cf) k = some v := by
  intro cf
  induction cf generalizing obj with
  | nil => intro k v h; exact h
  | cons e cf ih =>
    intro k v h
    unfold JsonUtil.addCustomFields
    obtain ⟨k', v'⟩ := e
    dsimp only
    cases hg : GoMap.get? obj k' with
    | some w => simpa [hg] using ih h
    | none =>
      have hne : k ≠ k' := by rintro rfl; rw [hg] at h; cases h
      have := ih (obj := GoMap.set obj k' v') (k := k) (v := v) (by rw [GoMap.get?_set_ne _ _ (Ne.symm hne)]; exact h)
      simpa [hg] using this

theorem base_cnf {o : BaseOpts} {j : Json} (h : o.cnf = some j) (r : JObj) :
    GoMap.get? (basePayload o ++ r) "cnf" = some (.obj [("jwk", j)]) := by
  have hs : ∀ k v, k ≠ "cnf" → GoMap.get? (strField k v) "cnf" = none := by
    intro k v hk; unfold strField; split <;> simp [GoMap.get?, hk]
  have hn : ∀ k v, k ≠ "cnf" → GoMap.get? (numField k v) "cnf" = none := by
    intro k v hk; unfold numField; split <;> simp [GoMap.get?, hk]
  unfold basePayload
  simp only [GoMap.get?_append, h, cnfField, hs _ _ (show "iss" ≠ "cnf" by decide), hs _ _ (show "sub" ≠ "cnf" by decide),
    hs _ _ (show "aud" ≠ "cnf" by decide), hs _ _ (show "jti" ≠ "cnf" by decide), hs _ _ (show "id" ≠ "cnf" by decide),
    hn _ _ (show "exp" ≠ "cnf" by decide), hn _ _ (show "nbf" ≠ "cnf" by decide), hn _ _ (show "iat" ≠ "cnf" by decide)]
  simp [GoMap.get?]

theorem new_cnf {E : IEnv} {ver : Ver} {o : BaseOpts} {j : Json} (hj : o.cnf = some j) {claims : JObj} {es : List Ent}
    {payload : JObj} (h : newWith E ver o claims = .ok (es, payload)) :
    GoMap.get? payload "cnf" = some (.obj [("jwk", j)]) := by
  unfold newWith at h
  cases ver with
  | v2 =>
    simp only [newV2] at h
    split at h
    · cases h
    · cases h; exact addCustom_keep (base_cnf hj _)
  | v5 =>
    simp only [newV5] at h
    split at h
    · cases h
    · split at h
      · cases h
      · cases h; exact addCustom_keep (base_cnf hj _)

theorem cnfKey_iff {lib : VLib} {payload : JObj} {j : Json} {k : Proof.Jwk}
    (hg : ∀ v, ClaimIs payload "cnf" v ↔ v = .obj [("jwk", j)]) : CnfKey lib payload k ↔ lib.jwk j = some k := by
  constructor
  · rintro ⟨cnf, v, h1, h2, h3⟩
    have := (hg _).1 h1
    cases this
    have : v = j := by simpa [GoMap.get?] using h2.symm
    rw [← this]; exact h3
  · intro hk
    exact ⟨[("jwk", j)], j, (hg _).2 rfl, by simp [GoMap.get?], hk⟩

theorem claimIs_top {m : JObj} {k : String} {x : Json} (h : GoMap.get? m k = some x) (v : Json) :
    ClaimIs m k v ↔ v = x := by
  unfold ClaimIs
  rw [h]
  simp only [Option.some.injEq, reduceCtorEq, false_and, or_false]
  exact eq_comm

/-- **C145**, the issuer: whatever the claims, the key given to `New` with `WithHolderPublicKey` is the one the verifier
checks the binding against. -/
theorem issued_holder_key (lib : VLib) (E : IEnv) (ver : Ver) (o : BaseOpts) (j : Json) (hj : o.cnf = some j)
    (claims : JObj) (es : List Ent) (payload : JObj) (h : newWith E ver o claims = .ok (es, payload))
    (k : Proof.Jwk) : CnfKey lib payload k ↔ lib.jwk j = some k :=
  cnfKey_iff (claimIs_top (new_cnf hj h))

theorem withSelective_cnf {E : IEnv} {ver : Ver} {o : BaseOpts} {j : Json} (hj : o.cnf = some j) {cs : JObj}
    {es : List Ent} {payload : JObj} (h : newWith E ver o cs = .ok (es, payload)) (v : JObj) :
    GoMap.get? (withSelective v payload) "cnf" = some (.obj [("jwk", j)]) := by
  unfold withSelective moveCnf
  rw [GoMap.get?_set_ne _ _ (by decide), new_cnf hj h]
  exact GoMap.get?_set_self _ _ _

/-- **C145**, the issuer of credentials: the key given to `NewFromVC` with `WithHolderPublicKey` is the one the verifier
checks the binding against, unless the claims around a `vc` claim have a `cnf` of their own. -/
theorem credential_holder_key (lib : VLib) (E : IEnv) (ver : Ver) (o : BaseOpts) (j : Json) (hj : o.cnf = some j)
    (vc : JObj) (es : List Ent) (payload : JObj) (h : newFromVC E ver o vc = .ok (es, payload))
    (hout : (∃ v, GoMap.get? vc "vc" = some (.obj v)) → GoMap.get? vc "cnf" = none)
    (k : Proof.Jwk) : CnfKey lib payload k ↔ lib.jwk j = some k := by
  apply cnfKey_iff
  unfold newFromVC at h
  split at h
  · cases h
  · split at h
    · cases h
    · next es' pl hn =>
      have hw := withSelective_cnf hj hn
      split at h
      · cases h
      · next v hc =>
        cases h
        have hv : GoMap.get? vc "vc" = some (.obj v) := by
          unfold credentialClaims at hc
          split at hc
          · next w hw' => cases hc; exact hw'
          · cases ver <;> cases hc
        have h1 : GoMap.get? (GoMap.set vc "vc" (.obj (withSelective v pl))) "cnf" = none := by
          rw [GoMap.get?_set_ne _ _ (by decide)]; exact hout ⟨v, hv⟩
        intro x
        unfold ClaimIs
        rw [h1, GoMap.get?_set_self]
        simp only [reduceCtorEq, true_and, false_or, Option.some.injEq, Json.obj.injEq, exists_eq_left']
        rw [hw v, Option.some.injEq]
        exact eq_comm
      · cases h
        exact claimIs_top (hw vc)
  · cases h

/-! ## C146: what a binding is for -/

/-- **C146**, a hazard.  The binding covers the nonce, the audience and the time only: one that was accepted once is
accepted with any other disclosures of the same SD-JWT, and with any other SD-JWT with the same `cnf` claim, wherever that
would be accepted without a binding.  So whoever sees a presentation can, while its nonce is good, present other
disclosures in the holder's name. -/
theorem binding_reused (lib : VLib) (o : VOpts) (order : DMap → List String) (sd sd' : String) (ds ds' : List String)
    (hv : String) (h1 : NoChar '~' sd) (h2 : NoChar '~' sd') (h3 : ∀ d ∈ ds, NoChar '~' d)
    (h4 : ∀ d ∈ ds', NoChar '~' d) (h5 : NoChar '~' hv)
    (hcnf : ∀ m m', SignedPayload lib o sd m → SignedPayload lib o sd' m' → ∀ v, ClaimIs m "cnf" v → ClaimIs m' "cnf" v)
    (out out' : JObj) (hne : hv ≠ "")
    (ha : verifierParse lib o order (Presentation.serialize ⟨sd, ds, hv⟩) = .ok out)
    (ha' : verifierParse lib (NoBinding o) order (Presentation.serialize ⟨sd', ds', ""⟩) = .ok out') :
    verifierParse lib o order (Presentation.serialize ⟨sd', ds', hv⟩) = .ok out' := by
  have e : NoChar '~' "" := by simp [NoChar]
  rw [verifier_parse_iff, presentation_round_trip ⟨sd, ds, hv⟩ h1 h3 h5] at ha
  rw [verifier_parse_iff, presentation_round_trip ⟨sd', ds', ""⟩ h2 h4 e] at ha'
  rw [verifier_parse_iff, presentation_round_trip ⟨sd', ds', hv⟩ h2 h4 h5]
  obtain ⟨tok, a, -⟩ := ha
  obtain ⟨tok', a', hd⟩ := ha'
  refine ⟨tok', (accepted_split _ _ _ _ _ _).2 ⟨a', ?_⟩, hd⟩
  obtain ⟨pl, p1⟩ := a.proof
  obtain ⟨j, _, g1, _, g3, _⟩ := (JWT.parse_and_check_iff _ _ _ _ _ _ _).mp p1
  obtain ⟨pl', p1'⟩ := a'.proof
  obtain ⟨j', _, g1', _, g3', _⟩ := (JWT.parse_and_check_iff _ _ _ _ _ _ _).mp p1'
  rcases a.holder with ⟨h, -⟩ | ⟨h, ⟨k, j2, m, alg, t, n, au, ⟨c, v, c1, c2, c3⟩, rest⟩⟩
  · exact absurd h hne
  · exact .inr ⟨h, ⟨k, j2, m, alg, t, n, au, ⟨c, v, hcnf _ _ ⟨j, g1, g3⟩ ⟨j', g1', g3'⟩ _ c1, c2, c3⟩, rest⟩⟩

/-- **C146** (partial: what does hold).  A binding is good for an SD-JWT only if the key in that SD-JWT's own `cnf`
claim verifies it: a binding made for an SD-JWT with another key is refused. -/
theorem binding_tied_to_key_partial (lib : VLib) (o : VOpts) (order : DMap → List String) (sd : String)
    (ds : List String) (hv : String) (h1 : NoChar '~' sd) (h3 : ∀ d ∈ ds, NoChar '~' d) (h5 : NoChar '~' hv)
    (hne : hv ≠ "") (j : JWT.Jws) (hj : lib.jwt.parseJWS none hv = some j)
    (hkey : ∀ m k alg, SignedPayload lib o sd m → CnfKey lib m k →
      ¬ Proof.AlgAccepts lib.prim ⟨"JsonWebKey2020", [], some k⟩ j.signingInput j.signature alg) (out : JObj) :
    verifierParse lib o order (Presentation.serialize ⟨sd, ds, hv⟩) ≠ .ok out := by
  intro h
  rw [verifier_parse_iff, presentation_round_trip ⟨sd, ds, hv⟩ h1 h3 h5] at h
  obtain ⟨tok, a, -⟩ := h
  obtain ⟨pl, p1⟩ := a.proof
  obtain ⟨j', _, g1, _, g3, _⟩ := (JWT.parse_and_check_iff _ _ _ _ _ _ _).mp p1
  rcases a.holder with ⟨h, -⟩ | ⟨h, ⟨k, j2, m, alg, t, n, au, hk, c1, -, -, -, c2, -⟩⟩
  · exact hne h
  · have c1' : lib.jwt.parseJWS none hv = some j2 := c1
    rw [hj] at c1'; cases c1'
    exact hkey tok.payload k alg ⟨j', g1, g3⟩ hk c2

end VC.SDJWT
