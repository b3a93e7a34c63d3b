import Verif.Issue.Model
/-!
# C92: tokens made by package jwt

What `NewSigned`, `NewUnsecured` and `Serialize` make, and that `ParseAndCheckProof` reads it back.
-/

namespace VC.Iss

open GoMap (get?)
open VC.Proof (Bytes header)
open VC.JWT (Jws GoodHeaders ExpectedIssuer Token)

variable (lib : JwsLib)

/-! ## Specification -/

namespace Spec

/-- A compact JWS (RFC 7515, section 3.1) with the given header and payload objects whose signature is
the signer's over the text before the last dot. -/
structure CompactJWS (headers payload : JObj) (sign : Bytes → Option Bytes) (text : String) (j : Jws) :
    Prop where
  headersIs : j.headers = headers
  payloadIs : lib.enc payload = some j.payload
  compact : ∃ hdr, lib.enc headers = some hdr ∧
    text = lib.b64 hdr ++ "." ++ lib.b64 j.payload ++ "." ++ lib.b64 j.signature ∧
    j.signingInput = lib.utf8 (lib.b64 hdr ++ "." ++ lib.b64 j.payload)
  signed : sign j.signingInput = some j.signature

/-- The headers of a token: the given ones, then the signer's. -/
def HeadersOf (extra hs headers : JObj) : Prop :=
  ∀ k, get? headers k = (get? extra k).or (get? hs k)

/-- The alphabet of base64url. -/
def urlChar (c : Char) : Prop := c.isAlphanum = true ∨ c = '-' ∨ c = '_'

/-- What is used of base64url: its alphabet, and that only no bytes at all give the empty text. -/
structure B64 : Prop where
  alphabet : ∀ x, ∀ c ∈ (lib.b64 x).toList, urlChar c
  empty : lib.b64 [] = ""
  nonempty : ∀ x, lib.b64 x = "" → x = []

end Spec
open Spec

/-! ## Making tokens -/

theorem mergeHeaders_get (extra hs : JObj) : HeadersOf extra hs (mergeHeaders extra hs) := by
  intro k
  unfold mergeHeaders
  rw [GoMap.get?_append]
  cases h : get? extra k with
  | some v => rfl
  | none =>
    simp only [Option.none_or]
    induction hs with
    | nil => rfl
    | cons e hs ih =>
      obtain ⟨k', v⟩ := e
      rw [List.filter_cons]
      by_cases hk : k' = k
      · subst hk
        simp only [h, Option.isNone_none, if_true, GoMap.get?]
      · cases hx : (get? extra k').isNone with
        | true => simp only [if_true, GoMap.get?, hk, if_false]; exact ih
        | false => simp only [Bool.false_eq_true, if_false, GoMap.get?, hk]; exact ih

theorem mergeHeaders_nil (hs : JObj) : mergeHeaders [] hs = hs := by
  unfold mergeHeaders
  simp [GoMap.get?]

theorem newJoseSigned_iff (claims extra hs : JObj) (sign : Bytes → Option Bytes) (t : Tok) :
    newJoseSigned lib claims extra hs sign = some t ↔
      t.payload = claims ∧ t.headers = mergeHeaders extra hs ∧ t.jws.headers = mergeHeaders extra hs ∧
      get? t.headers "alg" ≠ none ∧ lib.enc t.headers = some t.hdr ∧
      lib.enc claims = some t.jws.payload ∧
      t.jws.signingInput = lib.utf8 (lib.b64 t.hdr ++ "." ++ lib.b64 t.jws.payload) ∧
      sign t.jws.signingInput = some t.jws.signature := by
  obtain ⟨th, tp, ⟨jh, jp, ji, js⟩, hdr⟩ := t
  unfold newJoseSigned newJWS signingText
  cases h1 : lib.enc claims with
  | none => simp
  | some payload =>
    dsimp only
    cases h2 : get? (mergeHeaders extra hs) "alg" with
    | none =>
      simp only [reduceCtorEq, ne_eq, false_iff]
      rintro ⟨-, rfl, -, h, -⟩
      exact h h2
    | some a =>
      dsimp only
      cases h3 : lib.enc (mergeHeaders extra hs) with
      | none =>
        simp only [reduceCtorEq, ne_eq, false_iff]
        rintro ⟨-, rfl, -, -, h, -⟩
        rw [h3] at h; cases h
      | some hb =>
        dsimp only
        cases h4 : sign (lib.utf8 (lib.b64 hb ++ "." ++ lib.b64 payload)) with
        | none =>
          simp only [reduceCtorEq, ne_eq, false_iff]
          rintro ⟨-, rfl, -, -, h, h', rfl, h''⟩
          rw [h3] at h; cases h
          cases h'
          rw [h4] at h''; cases h''
        | some sig =>
          simp only [Option.some.injEq, Tok.mk.injEq, Jws.mk.injEq]
          constructor
          · rintro ⟨rfl, rfl, ⟨rfl, rfl, rfl, rfl⟩, rfl⟩
            exact ⟨rfl, rfl, rfl, by rw [h2]; simp, h3, rfl, rfl, h4⟩
          · rintro ⟨rfl, rfl, rfl, -, h, rfl, rfl, h'⟩
            rw [h3] at h; cases h
            rw [h4] at h'; cases h'
            exact ⟨rfl, rfl, ⟨rfl, rfl, rfl, rfl⟩, rfl⟩

theorem compact_of_signed {claims extra hs : JObj} {sign : Bytes → Option Bytes} {t : Tok}
    (h : newJoseSigned lib claims extra hs sign = some t) :
    t.payload = claims ∧ HeadersOf extra hs t.headers ∧ t.headers = t.jws.headers ∧
    get? t.headers "alg" ≠ none ∧
    CompactJWS lib t.headers claims sign (serialize lib false t) t.jws := by
  obtain ⟨h1, h2, h3, h4, h5, h6, h7, h8⟩ := (newJoseSigned_iff lib claims extra hs sign t).1 h
  refine ⟨h1, ?_, h2.trans h3.symm, h4, ?_⟩
  · rw [h2]; exact mergeHeaders_get extra hs
  · exact ⟨h3.trans h2.symm, h6, ⟨t.hdr, h5, rfl, h7⟩, h8⟩

/-- **C92** (signed): `NewSigned` returns a token with the given claims and with the given headers on
top of the signer's; its compact serialization is a JWS with exactly these, whose signature is the
signer's over the text before the last dot. -/
theorem signed_token {claims : JObj} {p : SignParams} {s : Signer} {t : Tok}
    (h : newSigned lib claims p s = some t) :
    ∃ hs, s.headers p = some hs ∧ t.payload = claims ∧ HeadersOf p.extra hs t.headers ∧
      get? t.headers "alg" ≠ none ∧
      CompactJWS lib t.headers claims (s.sign p) (serialize lib false t) t.jws := by
  unfold newSigned at h
  cases hh : s.headers p with
  | none => rw [hh] at h; cases h
  | some hs =>
    rw [hh] at h
    obtain ⟨a, b, -, c, d⟩ := compact_of_signed lib h
    exact ⟨hs, rfl, a, b, c, d⟩

/-- **C92** (detached): the detached serialization is the compact one with the payload left out. -/
theorem detached_token {claims : JObj} {p : SignParams} {s : Signer} {t : Tok}
    (h : newSigned lib claims p s = some t) :
    ∃ hdr, lib.enc t.headers = some hdr ∧
      serialize lib true t = lib.b64 hdr ++ ".." ++ lib.b64 t.jws.signature ∧
      serialize lib false t = lib.b64 hdr ++ "." ++ lib.b64 t.jws.payload ++ "." ++ lib.b64 t.jws.signature := by
  unfold newSigned at h
  cases hh : s.headers p with
  | none => rw [hh] at h; cases h
  | some hs =>
    rw [hh] at h
    obtain ⟨-, -, -, -, h5, -⟩ := (newJoseSigned_iff lib _ _ _ _ t).1 h
    refine ⟨t.hdr, h5, ?_, rfl⟩
    unfold serialize
    simp [String.append_assoc]

/-- **C92** (unsecured): `NewUnsecured` returns a token with the claims, the header `alg: none` and an
empty signature. -/
theorem unsecured_token (hb : B64 lib) {claims : JObj} {t : Tok} (h : newUnsecured lib claims = some t) :
    t.payload = claims ∧ t.headers = [("alg", .str "none")] ∧ t.jws.signature = [] ∧
    ∃ hdr pl, lib.enc [("alg", .str "none")] = some hdr ∧ lib.enc claims = some pl ∧
      t.jws.payload = pl ∧ serialize lib false t = lib.b64 hdr ++ "." ++ lib.b64 pl ++ "." := by
  obtain ⟨h1, h2, h3, h4, h5, h6, h7, h8⟩ := (newJoseSigned_iff lib claims _ _ _ t).1 h
  rw [mergeHeaders_nil] at h2
  have hsig : t.jws.signature = [] := (Option.some.inj h8).symm
  refine ⟨h1, h2, hsig, t.hdr, t.jws.payload, by rw [← h2]; exact h5, h6, rfl, ?_⟩
  unfold serialize
  rw [hsig, hb.empty]
  simp

theorem header_of {h : JObj} {k s : String} (hg : get? h k = some (.str s)) : header h k = some s := by
  unfold header; rw [hg]; rfl

/-- **C92** (string headers). -/
theorem lookup_string_header (t : Tok) (name : String) :
    (∀ s, get? t.headers name = some (.str s) → lookupStringHeader t name = s) ∧
    ((∀ s, get? t.headers name ≠ some (.str s)) → lookupStringHeader t name = "") := by
  unfold lookupStringHeader
  constructor
  · intro s h; rw [h]
  · intro h
    split
    · rename_i s hs; exact absurd hs (h s)
    · rfl

/-! ## Reading them back -/

/-- The JWS library reads a compact text (or a detached one with its payload) as the JWS it was made
from, and the payload decoder reads the payload as the claims. -/
structure ReadsToken (jl : JWT.Lib) (det : Bool) (t : Tok) : Prop where
  parse : jl.parseJWS (if det then some t.jws.payload else none) (serialize lib det t) = some t.jws
  claims : jl.payloadToMap t.jws.payload = some t.payload

/-- **C92** (read back): a signed token, serialized with its payload or detached, is parsed with the
same headers and claims, and its proof is accepted, if its headers are those of a JWT, the issuer
that is to be expected can be found, and the checker accepts what the signer signs. -/
theorem signed_token_checked {claims : JObj} {p : SignParams} {s : Signer} {t : Tok}
    (h : newSigned lib claims p s = some t) (jl : JWT.Lib) (det : Bool) (hr : ReadsToken lib jl det t)
    (hg : GoodHeaders jl.upper t.headers) (pc : JWT.ProofChecker) (checkIssuer : Bool) (iss : String)
    (hi : ExpectedIssuer jl checkIssuer t.headers claims iss)
    (hpc : ∀ data sig, s.sign p data = some sig → pc t.headers iss data sig = true) :
    JWT.parseAndCheckProof jl pc checkIssuer (if det then some t.jws.payload else none)
      (serialize lib det t) = .ok (⟨t.headers, claims⟩, t.jws.payload) := by
  obtain ⟨hs, -, h2, -, -, h5⟩ := signed_token lib h
  have hh := h5.headersIs
  rw [JWT.parse_and_check_iff]
  refine ⟨t.jws, iss, hr.parse, ?_, ?_, ?_, rfl, ?_, ?_⟩
  · rw [hh]; exact hg
  · rw [← h2]; exact hr.claims
  · exact hh.symm
  · rw [hh]; exact hi
  · rw [hh]; exact hpc _ _ h5.signed

/-- The headers of the library's proof creator are those of a JWT. -/
theorem creator_headers_good (upper : String → String) (alg kid : String) :
    GoodHeaders upper (LDP.jwtHeaders alg kid) := by
  have e : ∀ k, k ≠ "alg" → k ≠ "kid" → get? (LDP.jwtHeaders alg kid) k = none := by
    intro k h1 h2
    unfold LDP.jwtHeaders
    split <;> simp [GoMap.get?, Ne.symm h1, Ne.symm h2]
  refine ⟨?_, ?_, ?_⟩
  · unfold LDP.jwtHeaders; split <;> simp [GoMap.get?]
  · intro v hv; rw [e "typ" (by decide) (by decide)] at hv; cases hv
  · rw [e "cty" (by decide) (by decide)]; simp

/-- **C92** (the library's own signer and checker): a token signed by the library's proof creator for
an algorithm is accepted by the library's proof checker, if the checker has a key table for that
algorithm and the key id resolves, for the expected issuer, to a key of that table that verifies
what the creator's signers sign. -/
theorem creator_token_accepted {claims : JObj} {alg kid : String} {c : LDP.Creator} {t : Tok}
    (h : newSigned lib claims ⟨kid, alg, []⟩ (ofCreator c) = some t) (hkid : kid ≠ "")
    (jl : JWT.Lib) (det : Bool) (hr : ReadsToken lib jl det t) (k : Proof.Checker) (checkIssuer : Bool)
    (iss : String) (hi : ExpectedIssuer jl checkIssuer t.headers claims iss)
    {d : Proof.JwtDesc} {vm : Proof.VM} (hd : Proof.byAlg k.jwt alg = some d)
    (hres : k.resolve kid iss = .ok vm) (hk : ∃ kt, Proof.Allowed d.vms vm kt)
    (hkey : ∀ e ∈ c.jwt, e.desc.alg = alg → ∀ m s, e.sign m = some s → ∀ kt, Proof.Allowed d.vms vm kt →
      (∃ v ∈ k.verifiers, v.supports kt = true) ∧
      ∀ v ∈ k.verifiers, v.supports kt = true → v.verify s m ⟨kt, Proof.keyOf vm⟩ = true) :
    JWT.parseAndCheckProof jl (JWT.ofChecker k) checkIssuer (if det then some t.jws.payload else none)
      (serialize lib det t) = .ok (⟨LDP.jwtHeaders alg kid, claims⟩, t.jws.payload) := by
  have hh : t.headers = LDP.jwtHeaders alg kid := by
    unfold newSigned at h
    have := ((newJoseSigned_iff lib claims _ _ _ t).1 h).2.1
    rw [this, mergeHeaders_nil]
  have := signed_token_checked lib h jl det hr (by rw [hh]; exact creator_headers_good _ _ _)
    (JWT.ofChecker k) checkIssuer iss hi (fun data sig hs => by
      unfold JWT.ofChecker
      rw [hh, LDP.jwt_sign_then_check (c := c) hs hkid hd hres hk hkey])
  rw [hh] at this
  exact this

/-- The header `alg: none`, whatever the other headers: a checker without a table of that name accepts
no such JWS, whoever signed it. -/
theorem none_rejected (k : Proof.Checker) (hn : Proof.byAlg k.jwt "none" = none) (jl : JWT.Lib)
    (checkIssuer : Bool) (det : Option Bytes) (text : String) (j : Jws)
    (hj : jl.parseJWS det text = some j) (ha : header j.headers "alg" = some "none") (r : Token × Bytes) :
    JWT.parseAndCheckProof jl (JWT.ofChecker k) checkIssuer det text ≠ .ok r := by
  intro h
  obtain ⟨tok, pl⟩ := r
  obtain ⟨j', iss, h1, -, -, -, -, -, h7⟩ := (JWT.parse_and_check_iff _ _ _ _ _ _ _).mp h
  rw [hj] at h1
  cases h1
  unfold JWT.ofChecker at h7
  have : ∃ e, k.checkJWT j.headers iss j.signingInput j.signature = .error e := by
    unfold Proof.Checker.checkJWT
    split
    · exact ⟨_, rfl⟩
    · rw [ha]
      dsimp only
      split
      · exact ⟨_, rfl⟩
      · rw [hn]
        exact ⟨_, rfl⟩
  obtain ⟨e, he⟩ := this
  rw [he] at h7
  cases h7

/-- **C92** (unsecured tokens are never proof): `ParseAndCheckProof` with the library's default checker
refuses every token `NewUnsecured` makes. -/
theorem unsecured_rejected (p : Proof.Prim) (resolve : String → String → Except Unit Proof.VM)
    {claims : JObj} {t : Tok} (h : newUnsecured lib claims = some t) (jl : JWT.Lib) (det : Bool)
    (hr : ReadsToken lib jl det t) (checkIssuer : Bool) (r : Token × Bytes) :
    JWT.parseAndCheckProof jl (JWT.ofChecker (Proof.defaultChecker p resolve)) checkIssuer
      (if det then some t.jws.payload else none) (serialize lib det t) ≠ .ok r := by
  obtain ⟨h1, h2, h3, -⟩ := (newJoseSigned_iff lib claims _ _ _ t).1 h
  refine none_rejected _ (by rfl) jl checkIssuer _ _ t.jws hr.parse ?_ r
  rw [h3, mergeHeaders_nil]; rfl

end VC.Iss
