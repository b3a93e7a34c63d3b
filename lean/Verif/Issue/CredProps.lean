import Verif.Issue.JwtProps
/-!
# C93, C94: JWT credentials

C93: what `CreateSignedJWTVC` writes is read by `ParseCredential` as the same credential, with its
proof verified.  C94: an unsecured JWT credential carries the same content and no proof.
-/

namespace VC.Iss

open GoMap (get?)
open VC.Vfy
open VC.Vfy.Spec
open VC.Proof (Bytes)
open Spec

variable (lib : JwsLib)

/-! ## The text -/

/-- What the libraries used by package verifiable make of a text this package wrote. -/
structure ReadsText (env : PEnv) (t : Tok) : Prop where
  parse : env.lib.parseJWS none (serialize lib false t) = some t.jws
  payload : env.payloadObj t.jws.payload = some t.payload
  hdrPart : env.jsonPart (lib.b64 t.hdr) = true
  payloadPart : env.jsonPart (lib.b64 t.jws.payload) = true
  notObj : env.decodeObj (serialize lib false t) = none

/-- The libraries read every token that is made this way and has this text. -/
def ReadsMade (env : PEnv) (make : JObj → Option Tok) (text : String) : Prop :=
  ∀ p t, make p = some t → serialize lib false t = text → ReadsText lib env t

theorem b64_noChar (hb : B64 lib) (x : Bytes) (c : Char) (h1 : c.isAlphanum = false) (h2 : c ≠ '-')
    (h3 : c ≠ '_') : NoChar c (lib.b64 x) := by
  intro hm
  rcases hb.alphabet x c hm with h | h | h
  · rw [h1] at h; cases h
  · exact h2 h
  · exact h3 h

theorem serialize_split (hb : B64 lib) (t : Tok) :
    split '.' (serialize lib false t) = [lib.b64 t.hdr, lib.b64 t.jws.payload, lib.b64 t.jws.signature] := by
  have hd : ∀ x, NoChar '.' (lib.b64 x) := fun x => b64_noChar lib hb x '.' (by decide) (by decide) (by decide)
  have e : serialize lib false t = lib.b64 t.hdr ++ String.singleton '.' ++
      (lib.b64 t.jws.payload ++ String.singleton '.' ++ lib.b64 t.jws.signature) := by
    unfold serialize
    apply String.toList_inj.mp
    simp
  rw [e, split_append _ _ _ (hd _), split_append _ _ _ (hd _), split_none _ _ (hd _)]

theorem serialize_noChar (hb : B64 lib) (t : Tok) (c : Char) (h0 : c ≠ '.') (h1 : c.isAlphanum = false)
    (h2 : c ≠ '-') (h3 : c ≠ '_') : c ∉ (serialize lib false t).toList := by
  have hd : ∀ x, c ∉ (lib.b64 x).toList := fun x => b64_noChar lib hb x c h1 h2 h3
  unfold serialize
  simp [hd, h0]

theorem serialize_unQuote (hb : B64 lib) (t : Tok) : unQuote (serialize lib false t) = serialize lib false t := by
  have := serialize_noChar lib hb t '"' (by decide) (by decide) (by decide) (by decide)
  unfold unQuote
  split
  · rename_i l hl
    rw [hl] at this
    simp at this
  · rfl

theorem serialize_isJWS (hb : B64 lib) (env : PEnv) (t : Tok) (hr : ReadsText lib env t) :
    isJWS env (serialize lib false t) = true ↔ t.jws.signature ≠ [] := by
  unfold isJWS
  rw [serialize_split lib hb]
  simp only [hr.hdrPart, hr.payloadPart, Bool.true_and, bne_iff_ne, ne_eq]
  constructor
  · intro h e; apply h; rw [e]; exact hb.empty
  · intro h e; exact h (hb.nonempty _ e)

theorem serialize_isUnsecured (hb : B64 lib) (env : PEnv) (t : Tok) (hr : ReadsText lib env t) :
    isJWTUnsecured env (serialize lib false t) = true ↔ t.jws.signature = [] := by
  unfold isJWTUnsecured
  rw [serialize_split lib hb]
  simp only [hr.hdrPart, hr.payloadPart, Bool.true_and, beq_iff_eq]
  constructor
  · intro h; exact hb.nonempty _ h
  · intro h; rw [h]; exact hb.empty

/-- A serialized token is neither JSON nor quoted nor a combined SD-JWT. -/
theorem serialize_parts (hb : B64 lib) (env : PEnv) (t : Tok) (hr : ReadsText lib env t) :
    unwrapStringVC env (serialize lib false t) = serialize lib false t ∧
    jwsParts env (serialize lib false t) = ⟨false, serialize lib false t, [], ""⟩ := by
  constructor
  · unfold unwrapStringVC
    rw [hr.notObj]
    exact serialize_unQuote lib hb t
  · unfold jwsParts
    rw [if_neg]
    exact serialize_noChar lib hb t SDJWT.sep (by decide) (by decide) (by decide) (by decide)

/-! ## What is created -/

/-- **C93** (panics): `CreateSignedJWTVC` and `CreateUnsecuredJWTVC` crash exactly for a credential with
one identified subject and no issuer. -/
theorem jwt_create_panics_iff (env : JEnv) (s : Signer) (min : Bool) (alg : LDP.JwsAlg) (kid : String)
    (vc : Cred env.T) :
    (createSignedJWT lib env s min alg kid vc = .panic ↔
      (∃ id custom, vc.contents.subject = [⟨id, custom⟩] ∧ id ≠ "") ∧ vc.contents.issuer = none) ∧
    (createUnsecuredJWT lib env min vc = .panic ↔
      (∃ id custom, vc.contents.subject = [⟨id, custom⟩] ∧ id ≠ "") ∧ vc.contents.issuer = none) := by
  rw [← newClaims_panics_iff vc min]
  constructor
  · unfold createSignedJWT
    cases newJWTCredClaims env vc min with
    | err => simp [Out.bind]
    | panic => simp [Out.bind]
    | ok c =>
      simp only [Out.bind, reduceCtorEq, iff_false]
      cases marshalJWS lib s (marshalCred ⟨some c.1, some (wireObj c.2)⟩) alg kid <;> simp
  · unfold createUnsecuredJWT
    cases newJWTCredClaims env vc min with
    | err => simp [Out.bind]
    | panic => simp [Out.bind]
    | ok c =>
      simp only [Out.bind, reduceCtorEq, iff_false]
      cases marshalUnsecured lib (marshalCred ⟨some c.1, some (wireObj c.2)⟩) <;> simp

theorem createSignedJWT_inv {env : JEnv} {s : Signer} {min : Bool} {alg : LDP.JwsAlg} {kid : String}
    {vc : Cred env.T} {r : JwtCred env.T} (h : createSignedJWT lib env s min alg kid vc = .ok r) :
    ∃ c m a t, newJWTCredClaims env vc min = .ok (c, m) ∧ alg.name = some a ∧
      newSigned lib (marshalCred ⟨some c, some (wireObj m)⟩) ⟨kid, a, []⟩ s = some t ∧
      r = ⟨vc.toRawJSON, vc.contents, vc.proofs, serialize lib false t, some t.headers⟩ := by
  unfold createSignedJWT at h
  obtain ⟨⟨c, m⟩, h1, h2⟩ := Out.bind_ok.1 h
  dsimp only at h2
  unfold marshalJWS at h2
  cases ha : alg.name with
  | none => rw [ha] at h2; cases h2
  | some a =>
    rw [ha] at h2
    dsimp only at h2
    cases hs : newSigned lib (marshalCred ⟨some c, some (wireObj m)⟩) ⟨kid, a, []⟩ s with
    | none => rw [hs] at h2; cases h2
    | some t =>
      rw [hs] at h2
      cases h2
      exact ⟨c, m, a, t, h1, rfl, hs, rfl⟩

theorem createUnsecuredJWT_inv {env : JEnv} {min : Bool} {vc : Cred env.T} {r : JwtCred env.T}
    (h : createUnsecuredJWT lib env min vc = .ok r) :
    ∃ c m t, newJWTCredClaims env vc min = .ok (c, m) ∧
      newUnsecured lib (marshalCred ⟨some c, some (wireObj m)⟩) = some t ∧
      r = ⟨vc.toRawJSON, vc.contents, vc.proofs, serialize lib false t, none⟩ := by
  unfold createUnsecuredJWT at h
  obtain ⟨⟨c, m⟩, h1, h2⟩ := Out.bind_ok.1 h
  dsimp only at h2
  unfold marshalUnsecured at h2
  cases hs : newUnsecured lib (marshalCred ⟨some c, some (wireObj m)⟩) with
  | none => rw [hs] at h2; cases h2
  | some t =>
    rw [hs] at h2
    cases h2
    exact ⟨c, m, t, h1, hs, rfl⟩

namespace Spec

/-- The names of the members that the claims of a JWT stand in for. -/
def claimed : List String := ["issuer", "id", "issuanceDate", "validFrom", "expirationDate", "validUntil"]

/-- The claims of a credential: the registered ones are its issuer, subject, dates (to the second; both
`nbf` and `iat` are the issue date) and id; the credential itself is under `vc`, with (if minimized)
or without leaving out what the registered claims say. -/
structure CredClaimsOf (env : JEnv) (vc : Cred env.T) (min : Bool) (p : JObj) : Prop where
  iss : ∃ i, vc.contents.issuer = some i ∧ get? p "iss" = if i.id = "" then none else some (.str i.id)
  sub : ∃ s, vc.contents.subject = [s] ∧ s.id ≠ "" ∧ get? p "sub" = some (.str s.id)
  jti : get? p "jti" = if vc.contents.id = "" then none else some (.str vc.contents.id)
  exp : get? p "exp" = (vc.contents.expired.bind fun w =>
    if env.zeroT w.t then none else some (Json.num (env.unixT w.t)))
  nbf : get? p "nbf" = (vc.contents.issued.bind fun w =>
    if env.zeroT w.t then none else some (Json.num (env.unixT w.t)))
  iat : get? p "iat" = get? p "nbf"
  aud : get? p "aud" = none
  vcIs : ∀ v, get? p "vc" = some v → ∃ o, v = .obj o ∧ (min = false → o = wireObj vc.json) ∧
    (∀ k, k ∉ claimed → get? o k = get? (wireObj vc.json) k) ∧
    (min = true → ∀ k ∈ claimed, k ≠ "issuer" → get? o k = none)
  noVC : get? p "vc" = none → min = false → vc.json = []
  only : ∀ k, get? p k ≠ none → k ∈ ["iss", "sub", "jti", "exp", "nbf", "iat", "vc"]

end Spec

theorem credClaims_spec {env : JEnv} {vc : Cred env.T} {min : Bool} {c : Claims} {m : GObj}
    (h : newJWTCredClaims env vc min = .ok (c, m)) :
    CredClaimsOf env vc min (marshalCred ⟨some c, some (wireObj m)⟩) := by
  obtain ⟨i, sub, hi, hsub, rfl, hm⟩ := claims_object env h
  obtain ⟨cu, hs1, hs2⟩ := (subjectID_iff _ _).1 hsub
  have hvc : ∀ k, get? (marshalCred ⟨some ⟨i.id, sub, [], dateClaim env vc.contents.expired,
      dateClaim env vc.contents.issued, dateClaim env vc.contents.issued, vc.contents.id⟩, some (wireObj m)⟩) k =
      ((get? (strClaim "iss" i.id) k).or ((get? (strClaim "sub" sub) k).or
      ((get? (dateField "exp" (dateClaim env vc.contents.expired)) k).or
      ((get? (dateField "nbf" (dateClaim env vc.contents.issued)) k).or
      ((get? (dateField "iat" (dateClaim env vc.contents.issued)) k).or
      (get? (strClaim "jti" vc.contents.id) k)))))).or
      (if "vc" = k ∧ m ≠ [] then some (.obj (wireObj m)) else none) := by
    intro k
    unfold marshalCred marshalClaims
    cases m with
    | nil => simp [GoMap.get?_append, wireObj, GoMap.get?, Option.or_assoc]
    | cons e m =>
      simp only [wireObj, List.map_cons, GoMap.get?_append, GoMap.get?, Option.or_assoc, if_true,
        Option.none_or, ne_eq, reduceCtorEq, not_false_eq_true, and_true]
  have hdate : ∀ w : Option (TW env.T), (dateClaim env w).map (fun n => Json.num n) =
      (w.bind fun w => if env.zeroT w.t then none else some (Json.num (env.unixT w.t))) := by
    intro w
    cases w with
    | none => rfl
    | some w =>
      simp only [dateClaim, numericDate, Option.bind_some]
      split <;> rfl
  constructor
  · refine ⟨i, hi, ?_⟩
    rw [hvc]
    by_cases e : i.id = "" <;> simp [get?_strClaim, get?_dateField, e]
  · refine ⟨⟨sub, cu⟩, hs1, hs2, ?_⟩
    rw [hvc]
    simp [get?_strClaim, get?_dateField, hs2]
  · rw [hvc]
    by_cases e : vc.contents.id = "" <;> simp [get?_strClaim, get?_dateField, e]
  · rw [hvc, ← hdate]
    simp [get?_strClaim, get?_dateField]
  · rw [hvc, ← hdate]
    simp [get?_strClaim, get?_dateField]
  · rw [hvc, hvc]
    simp [get?_strClaim, get?_dateField]
  · rw [hvc]
    simp [get?_strClaim, get?_dateField]
  · intro v hv
    rw [hvc] at hv
    simp only [get?_strClaim, get?_dateField] at hv
    by_cases hne : m = []
    · simp [hne] at hv
    · simp [hne] at hv
      refine ⟨wireObj m, hv.symm, ?_, ?_, ?_⟩
      · rintro rfl
        simp only [Bool.false_eq_true, if_false, Option.some.injEq] at hm
        rw [hm]
      · intro k hk
        rw [get?_wireObj, get?_wireObj]
        cases min with
        | false =>
          simp only [Bool.false_eq_true, if_false, Option.some.injEq] at hm
          rw [hm]
        | true =>
          rw [if_pos rfl] at hm
          rw [(minimize_spec hm).2.1 k]
          intro hk'
          apply hk
          simp only [claimed, List.mem_cons, List.not_mem_nil, or_false] at hk' ⊢
          rcases hk' with h | h | h | h | h | h <;> simp [h]
      · rintro rfl k hk hki
        rw [if_pos rfl] at hm
        rw [get?_wireObj, (minimize_spec hm).1 k]
        · rfl
        · simp only [claimed, List.mem_cons, List.not_mem_nil, or_false] at hk ⊢
          rcases hk with h | h | h | h | h | h
          · exact absurd h hki
          all_goals simp [h]
  · intro hn hmin
    subst hmin
    simp only [Bool.false_eq_true, if_false, Option.some.injEq] at hm
    rw [hvc] at hn
    simp only [get?_strClaim, get?_dateField] at hn
    simp at hn
    rw [hm, hn]
  · intro k hk
    rw [hvc] at hk
    simp only [get?_strClaim, get?_dateField] at hk
    by_contra hn
    simp only [List.mem_cons, List.not_mem_nil, or_false, not_or] at hn
    obtain ⟨n1, n2, n3, n4, n5, n6, n7⟩ := hn
    simp [Ne.symm n1, Ne.symm n2, Ne.symm n3, Ne.symm n4, Ne.symm n5, Ne.symm n6, Ne.symm n7] at hk

/-- **C93** (what is issued): the returned credential has the same JSON and contents and, as its
envelope, a compact JWS of the credential's claims, signed by the signer under the algorithm's name
and the key id, with exactly the signer's headers. -/
theorem jwt_created {env : JEnv} {s : Signer} {min : Bool} {alg : LDP.JwsAlg} {kid : String}
    {vc : Cred env.T} {r : JwtCred env.T} (h : createSignedJWT lib env s min alg kid vc = .ok r) :
    r.json = vc.toRawJSON ∧ r.contents = vc.contents ∧ r.proofs = vc.proofs ∧
    ∃ a hs p j, alg.name = some a ∧ s.headers ⟨kid, a, []⟩ = some hs ∧ r.headers = some hs ∧
      CredClaimsOf env vc min p ∧ CompactJWS lib hs p (s.sign ⟨kid, a, []⟩) r.jwt j := by
  obtain ⟨c, m, a, t, h1, h2, h3, rfl⟩ := createSignedJWT_inv lib h
  refine ⟨rfl, rfl, rfl, a, ?_⟩
  obtain ⟨hs, k1, k2, -, -, k5⟩ := signed_token lib h3
  have hh : t.headers = hs := by
    unfold newSigned at h3
    rw [k1] at h3
    have := ((newJoseSigned_iff lib _ _ _ _ t).1 h3).2.1
    rw [this, mergeHeaders_nil]
  rw [hh] at k5
  exact ⟨hs, _, t.jws, h2, k1, by rw [hh], credClaims_spec h1, k5⟩

/-! ## Reading it back -/

theorem parse_text_jws (env : PEnv) (o : ParseOpts env) (hb : B64 lib) (t : Tok) (hr : ReadsText lib env t)
    (hsig : t.jws.signature ≠ []) (hh : JWT.GoodHeaders env.lib.upper t.jws.headers) (json : JObj)
    (hdec : decodeCredPayload env.toJEnv t.payload = .ok (some json)) (c : Contents env.T) (ps : List JObj)
    (hc : parseContents env.toCEnv (ofWire json) false = some c)
    (hp : parseLDProof (GObj.at (ofWire json) "proof") = some ps) :
    parseJSON env o (serialize lib false t) =
      .ok ⟨json, c, ps, some ⟨serialize lib false t, t.jws.headers, [], ""⟩, none⟩ := by
  obtain ⟨e1, e2⟩ := serialize_parts lib hb env t hr
  have hj := (serialize_isJWS lib hb env t hr).2 hsig
  have ht : tryParseAsJWS env (serialize lib false t) = some ⟨false, serialize lib false t, [], ""⟩ := by
    unfold tryParseAsJWS
    rw [e2]
    dsimp only
    rw [if_pos hj]
  have hd : decodeCredJWT env (serialize lib false t) = .ok (t.jws.headers, json) := by
    unfold decodeCredJWT
    rw [hr.parse]
    dsimp only
    rw [(JWT.headers_iff _ _).2 hh, hr.payload]
    dsimp only
    rw [hdec]
    rfl
  unfold parseJSON
  rw [e1, ht]
  dsimp only
  unfold openJWS
  dsimp only
  rw [hd]
  simp only [Res.bind, validateDisclosures, List.isEmpty_nil, if_true]
  unfold finishJSON
  simp only [Option.elim]
  rw [hc]
  dsimp only
  rw [hp]
  rfl

theorem parse_text (env : PEnv) (o : ParseOpts env) (t : Tok) (hr : ReadsText lib env t) (r : PCred env.T)
    (h : parseWith env (parseJSON env) o (serialize lib false t) = .ok r) :
    parseCredential env o (serialize lib false t) = .ok r := by
  unfold parseCredential
  have : parseWith env (parseEnveloped env) o (serialize lib false t) = .unsupported := by
    rw [parseWith_unsupported]
    unfold parseEnveloped
    rw [hr.notObj]
  rw [this, h]
  rfl

/-- **C93** (round trip): a credential whose JSON and contents agree and that carries dates a JWT can
carry, issued as a signed JWT (minimized or not), is parsed from that JWT as a credential with the
same contents, dates to the second, and the same further members, with the JWT as its envelope and
its proof verified.  The libraries read what they wrote (`hr`), the signature is not empty, and the
checker accepts what the signer signs under the issuer's id (`hpc`). -/
theorem jwt_issue_then_parse (env : PEnv) (o : ParseOpts env) (vc : Cred env.T)
    (hA : Agrees env.toCEnv vc) (hsd : vc.contents.sdAlg = none)
    (hd : ∀ w, vc.contents.issued = some w → ClaimDate env.toJEnv w)
    (hd' : ∀ w, vc.contents.expired = some w → ClaimDate env.toJEnv w)
    (ps : List JObj) (hps : parseLDProof (GObj.at (ofWire (wireObj vc.json)) "proof") = some ps)
    (s : Signer) (min : Bool) (alg : LDP.JwsAlg) (kid : String) (r : JwtCred env.T)
    (h : createSignedJWT lib env.toJEnv s min alg kid vc = .ok r) (hb : B64 lib)
    (hr : ∀ a, alg.name = some a → ReadsMade lib env (fun p => newSigned lib p ⟨kid, a, []⟩ s) r.jwt)
    (hg : ∀ hs, r.headers = some hs → JWT.GoodHeaders env.lib.upper hs)
    (hsig : ∀ p data, s.sign p data ≠ some []) (hext : o.externalContext = [])
    (hrel : o.disableRelRes = false → ∀ c, SameToSecond env.toJEnv vc.contents c → env.relOK c = true)
    (hpc : o.disabledProofCheck = false → ∃ pc, o.jwtChecker = some pc ∧
      ∀ i a hs data sig, vc.contents.issuer = some i → alg.name = some a → r.headers = some hs →
        s.sign ⟨kid, a, []⟩ data = some sig → pc hs i.id data sig = true) :
    ∃ json c hs, parseCredential env o r.jwt = .ok ⟨json, c, ps, some ⟨r.jwt, hs, [], ""⟩, none⟩ ∧
      r.headers = some hs ∧ SameToSecond env.toJEnv vc.contents c ∧
      ∀ k, k ∉ claimed → get? json k = get? (wireObj vc.json) k := by
  obtain ⟨c, m, a, t, h1, h2, h3, rfl⟩ := createSignedJWT_inv lib h
  dsimp only at hr hg hpc ⊢
  have hr := hr a h2 _ t h3 rfl
  have hg := hg _ rfl
  obtain ⟨json, k1, k2, c', k3, k4⟩ := jwt_claims_roundtrip vc hA min c m h1 hd hd'
  rw [hsd] at k3
  obtain ⟨hs, q1, q2, -, q4, q5⟩ := signed_token lib h3
  have hjh := q5.headersIs
  rw [← q2] at k1
  have hproof : parseLDProof (GObj.at (ofWire json) "proof") = some ps := by
    have hw := hps
    rw [at_ofWire] at hw ⊢
    rw [k2 "proof" (by decide)]
    exact hw
  have hne : t.jws.signature ≠ [] := by
    intro e
    have := q5.signed
    rw [e] at this
    exact hsig _ _ this
  obtain ⟨i, hi, -⟩ := (credClaims_spec h1).iss
  refine ⟨json, c', t.headers, ?_, rfl, k4, k2⟩
  rw [parse_iff env o hext]
  refine ⟨?_, (fun _ hn => by cases hn), ?_, ?_⟩
  · apply parse_text lib env _ t hr
    unfold parseWith
    rw [parse_text_jws lib env (unchecked env o) hb t hr hne (by rw [hjh]; exact hg) json k1 c' ps k3 hproof, hjh]
    rfl
  · intro hp
    obtain ⟨pc, hc, hpc⟩ := hpc hp
    have hi' : c'.issuer = some i := by
      have : ({ c' with issued := none, expired := none } : Contents env.T).issuer =
          ({ vc.contents with issued := none, expired := none } : Contents env.T).issuer := by rw [k4.rest]
      exact this.trans hi
    refine .jwt i _ pc t.jws hi' rfl hc hr.parse ?_
    rw [hjh]
    exact hpc i a t.headers _ _ hi h2 rfl q5.signed
  · intro hrr
    exact hrel hrr c' k4

/-! ## Unsecured JWTs -/

/-- **C94** (what is issued): the credential with, as its envelope, a text of three parts: the header
`alg: none`, the claims, and no signature. -/
theorem unsecured_created {env : JEnv} {min : Bool} {vc : Cred env.T} {r : JwtCred env.T} (hb : B64 lib)
    (h : createUnsecuredJWT lib env min vc = .ok r) :
    r.json = vc.toRawJSON ∧ r.contents = vc.contents ∧ r.proofs = vc.proofs ∧ r.headers = none ∧
    ∃ p hdr pl, CredClaimsOf env vc min p ∧ lib.enc [("alg", .str "none")] = some hdr ∧
      lib.enc p = some pl ∧ r.jwt = lib.b64 hdr ++ "." ++ lib.b64 pl ++ "." := by
  obtain ⟨c, m, t, h1, h2, rfl⟩ := createUnsecuredJWT_inv lib h
  obtain ⟨-, -, -, hdr, pl, k1, k2, -, k4⟩ := unsecured_token lib hb h2
  exact ⟨rfl, rfl, rfl, rfl, _, hdr, pl, credClaims_spec h1, k1, k2, k4⟩

theorem parse_text_unsecured (env : PEnv) (o : ParseOpts env) (hb : B64 lib) (t : Tok)
    (hr : ReadsText lib env t) (hsig : t.jws.signature = [])
    (hh : JWT.GoodHeaders env.lib.upper t.jws.headers) (json : JObj)
    (hdec : decodeCredPayload env.toJEnv t.payload = .ok (some json)) :
    parseJSON env o (serialize lib false t) = finishJSON env o none json := by
  obtain ⟨e1, e2⟩ := serialize_parts lib hb env t hr
  have ht : tryParseAsJWS env (serialize lib false t) = none := by
    unfold tryParseAsJWS
    rw [e2]
    dsimp only
    rw [if_neg]
    rw [serialize_isJWS lib hb env t hr]
    exact fun h => h hsig
  have hd : decodeCredJWT env (serialize lib false t) = .ok (t.jws.headers, json) := by
    unfold decodeCredJWT
    rw [hr.parse]
    dsimp only
    rw [(JWT.headers_iff _ _).2 hh, hr.payload]
    dsimp only
    rw [hdec]
    rfl
  unfold parseJSON
  rw [e1, ht]
  dsimp only
  unfold decodeLD
  rw [if_pos ((serialize_isUnsecured lib hb env t hr).2 hsig), hd]
  rfl

/-- **C94** (round trip, nothing checked): with all checks off an unsecured JWT credential is read with
the same contents and no envelope. -/
theorem unsecured_issue_then_parse (env : PEnv) (o : ParseOpts env) (vc : Cred env.T)
    (hA : Agrees env.toCEnv vc) (hsd : vc.contents.sdAlg = none)
    (hd : ∀ w, vc.contents.issued = some w → ClaimDate env.toJEnv w)
    (hd' : ∀ w, vc.contents.expired = some w → ClaimDate env.toJEnv w)
    (ps : List JObj) (hps : parseLDProof (GObj.at (ofWire (wireObj vc.json)) "proof") = some ps)
    (min : Bool) (r : JwtCred env.T) (h : createUnsecuredJWT lib env.toJEnv min vc = .ok r) (hb : B64 lib)
    (hr : ReadsMade lib env (newUnsecured lib) r.jwt) :
    ∃ json c, parseCredential env (unchecked env o) r.jwt = .ok ⟨json, c, ps, none, none⟩ ∧
      SameToSecond env.toJEnv vc.contents c ∧
      ∀ k, k ∉ claimed → get? json k = get? (wireObj vc.json) k := by
  obtain ⟨c, m, t, h1, h2, rfl⟩ := createUnsecuredJWT_inv lib h
  dsimp only at hr ⊢
  have hr := hr _ t h2 rfl
  obtain ⟨json, k1, k2, c', k3, k4⟩ := jwt_claims_roundtrip vc hA min c m h1 hd hd'
  rw [hsd] at k3
  obtain ⟨q1, q2, q3, -⟩ := unsecured_token lib hb h2
  have hjh : t.jws.headers = t.headers := by
    have := (newJoseSigned_iff lib _ _ _ _ t).1 h2
    rw [this.2.1, this.2.2.1]
  rw [← q1] at k1
  have hg : JWT.GoodHeaders env.lib.upper t.jws.headers := by
    rw [hjh, q2]
    exact creator_headers_good env.lib.upper "none" ""
  have hproof : parseLDProof (GObj.at (ofWire json) "proof") = some ps := by
    have hw := hps
    rw [at_ofWire] at hw ⊢
    rw [k2 "proof" (by decide)]
    exact hw
  refine ⟨json, c', ?_, k4, k2⟩
  apply parse_text lib env _ t hr
  unfold parseWith
  rw [parse_text_unsecured lib env _ hb t hr q3 hg json k1]
  unfold finishJSON
  simp only [Option.elim]
  rw [show parseContents env.toCEnv (ofWire json) false = some c' from k3]
  dsimp only
  rw [hproof]
  rfl

/-- **C94** (never proof): with proof checking on, no unsecured JWT credential that has no embedded
proof is accepted, whatever the other options and checkers. -/
theorem unsecured_not_accepted (env : PEnv) (o : ParseOpts env) (hp : o.disabledProofCheck = false)
    (hext : o.externalContext = []) (vc : Cred env.T) (hA : Agrees env.toCEnv vc)
    (hsd : vc.contents.sdAlg = none)
    (hd : ∀ w, vc.contents.issued = some w → ClaimDate env.toJEnv w)
    (hd' : ∀ w, vc.contents.expired = some w → ClaimDate env.toJEnv w)
    (hps : get? vc.json "proof" = none)
    (min : Bool) (r : JwtCred env.T) (h : createUnsecuredJWT lib env.toJEnv min vc = .ok r) (hb : B64 lib)
    (hr : ReadsMade lib env (newUnsecured lib) r.jwt) (r' : PCred env.T) :
    parseCredential env o r.jwt ≠ .ok r' := by
  have hwp : get? (wireObj vc.json) "proof" = none := by rw [get?_wireObj, hps]; rfl
  obtain ⟨json, c, h1, -, h3⟩ := unsecured_issue_then_parse lib env o vc hA hsd hd hd' []
    (by rw [at_ofWire, hwp]; rfl) min r h hb hr
  intro hok
  rw [parse_iff env o hext] at hok
  obtain ⟨k1, -, k3, -⟩ := hok
  rw [h1] at k1
  cases k1
  have hnp : get? json "proof" = none := by rw [h3 "proof" (by decide), hwp]
  cases k3 hp with
  | jwt i e pc j hi he => cases he
  | cwt i e pc msg a x hi hn he => cases he
  | ld i l pc ps hi hn hn' hp' =>
    rcases hp' with ⟨o, ho, -⟩ | ho
    · rw [hnp] at ho; cases ho
    · rw [hnp] at ho; cases ho
  | di i l suites hi hn hn' hp' =>
    rcases hp' with ⟨o, ho, -⟩ | ho
    · rw [hnp] at ho; cases ho
    · rw [hnp] at ho; cases ho

end VC.Iss
