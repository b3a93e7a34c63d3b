import Verif.Issue.CredProps
/-!
# C93, C95: the library's own keys; JWT presentations

C93 with the library's proof creator and checker and with `CreateCredential`; C95: what `CreateJWTVP`
writes is read by `ParsePresentation` as the same presentation, with its proof verified.
-/

namespace VC.Iss

open GoMap (get?)
open VC.Vfy
open VC.Vfy.Spec
open VC.Proof (Bytes header)
open Spec

variable (lib : JwsLib)

/-- The key of an algorithm, for a signer and a checker of this library: the checker has a table for the
algorithm, and under the given issuer the key id resolves to a key of the table that verifies what
the creator's signers for the algorithm sign. -/
structure KeyPair (c : LDP.Creator) (k : Proof.Checker) (alg kid issuer : String) (d : Proof.JwtDesc)
    (vm : Proof.VM) : Prop where
  table : Proof.byAlg k.jwt alg = some d
  resolves : k.resolve kid issuer = .ok vm
  allowed : ∃ kt, Proof.Allowed d.vms vm kt
  verifies : ∀ e ∈ c.jwt, e.desc.alg = alg → ∀ m s, e.sign m = some s → ∀ kt, Proof.Allowed d.vms vm kt →
    (∃ v ∈ k.verifiers, v.supports kt = true) ∧
    ∀ v ∈ k.verifiers, v.supports kt = true → v.verify s m ⟨kt, Proof.keyOf vm⟩ = true

theorem keyPair_accepts {c : LDP.Creator} {k : Proof.Checker} {alg kid issuer : String} {d : Proof.JwtDesc}
    {vm : Proof.VM} (h : KeyPair c k alg kid issuer d vm) (hkid : kid ≠ "") {data sig : Bytes}
    (hs : c.signJWT alg data = some sig) :
    JWT.ofChecker k (LDP.jwtHeaders alg kid) issuer data sig = true := by
  unfold JWT.ofChecker
  rw [LDP.jwt_sign_then_check (c := c) hs hkid h.table h.resolves h.allowed h.verifies]

/-- **C93** (created, issued, parsed; the library's own keys): a credential created with some contents
and custom fields, issued as a JWT by the library's proof creator, is parsed with the library's
proof checker as a credential with those contents, dates to the second, and those custom fields. -/
theorem jwt_create_issue_parse (env : PEnv) (law : env.toCEnv.Lawful) (o : ParseOpts env)
    (c : Contents env.T) (hn : Normal env.toCEnv c) (custom : JObj) (hw : GoMap.WF custom)
    (hc : CustomNames custom) (hsd : c.sdAlg = none) (vc : Cred env.T)
    (hcreate : createCredential env.toCEnv c custom [] = some vc)
    (hd : ∀ w, c.issued = some w → ClaimDate env.toJEnv w)
    (hd' : ∀ w, c.expired = some w → ClaimDate env.toJEnv w)
    (cr : LDP.Creator) (min : Bool) (alg : LDP.JwsAlg) (a kid : String) (ha : alg.name = some a)
    (hkid : kid ≠ "") (r : JwtCred env.T)
    (h : createSignedJWT lib env.toJEnv (ofCreator cr) min alg kid vc = .ok r) (hb : B64 lib)
    (hr : ReadsMade lib env (fun p => newSigned lib p ⟨kid, a, []⟩ (ofCreator cr)) r.jwt)
    (hsig : ∀ a data, cr.signJWT a data ≠ some []) (hext : o.externalContext = [])
    (hrel : o.disableRelRes = false → ∀ c', SameToSecond env.toJEnv c c' → env.relOK c' = true)
    (hpc : o.disabledProofCheck = false → ∃ k, o.jwtChecker = some (JWT.ofChecker k) ∧
      ∀ i, c.issuer = some i → ∃ d vm, KeyPair cr k a kid i.id d vm) :
    ∃ json c', parseCredential env o r.jwt =
        .ok ⟨json, c', [], some ⟨r.jwt, LDP.jwtHeaders a kid, [], ""⟩, none⟩ ∧
      SameToSecond env.toJEnv c c' ∧ ∀ k v, get? custom k = some v → get? json k = some v := by
  have hpr : vc.proofs = [] ∧ vc.contents = c := by
    simp only [createCredential, Option.map_eq_some_iff] at hcreate
    obtain ⟨m, -, rfl⟩ := hcreate
    exact ⟨rfl, rfl⟩
  have hraw : vc.toRawJSON = vc.json := by unfold Cred.toRawJSON; rw [hpr.1]; rfl
  obtain ⟨r1, r2, r3⟩ := created_roundtrip env.toCEnv law c hn custom hw hc [] vc hcreate
  rw [hraw] at r1 r2 r3
  have hA : Agrees env.toCEnv vc := by unfold Agrees; rw [hpr.2]; exact r1
  have hhs : ∀ hs, r.headers = some hs → hs = LDP.jwtHeaders a kid := by
    obtain ⟨-, -, -, a', hs', p, j, g1, g2, g3, -⟩ := jwt_created lib h
    intro hs hhs
    rw [ha] at g1
    cases g1
    rw [hhs] at g3
    cases g3
    exact (Option.some.inj g2).symm
  obtain ⟨json, c', hs, k1, k2, k3, k4⟩ := jwt_issue_then_parse lib env o vc hA (by rw [hpr.2]; exact hsd)
    (by rw [hpr.2]; exact hd) (by rw [hpr.2]; exact hd') [] r3 (ofCreator cr) min alg kid r h hb
    (fun a' ha' => by rw [ha] at ha'; cases ha'; exact hr)
    (fun hs hh => by rw [hhs hs hh]; exact creator_headers_good _ _ _)
    (fun p data => hsig p.alg data) hext (by rw [hpr.2]; exact hrel)
    (fun hp => by
      obtain ⟨k, h1, h2⟩ := hpc hp
      refine ⟨_, h1, ?_⟩
      intro i a' hs data sig hi ha' hh hsg
      rw [ha] at ha'
      cases ha'
      rw [hpr.2] at hi
      obtain ⟨d, vm, hk⟩ := h2 i hi
      rw [hhs hs hh]
      exact keyPair_accepts hk hkid hsg)
  rw [hhs hs k2] at k1
  rw [hpr.2] at k3
  refine ⟨json, c', k1, k3, ?_⟩
  intro k v hv
  rw [k4 k, r2 k v hv]
  intro hk
  have hkk := hc k (GoMap.get?_isSome_iff.mp (by rw [hv]; rfl))
  apply hkk
  simp only [claimed, List.mem_cons, List.not_mem_nil, or_false] at hk
  rcases hk with h | h | h | h | h | h <;> simp [h, fieldNames]

/-! ## Presentations -/

/-- **C95** (what is issued): the returned presentation is the original one with, as its only envelope, a
compact JWS of its claims: the holder as `iss`, the id as `jti`, the audience, and the presentation's
document under `vp` (without holder and id if minimized). -/
theorem jwt_presentation_created {T : Type} (u : PCred T → Option Json) (s : Signer) (alg : LDP.JwsAlg)
    (kid : String) (vp vp' : Pres T) (hc : CustomClean vp) (aud : List String) (min : Bool)
    (h : createJWTVP lib u s alg kid vp aud min = some vp') :
    ∃ a hs doc cs j p, alg.name = some a ∧ s.headers ⟨kid, a, []⟩ = some hs ∧
      vp' = { vp with jwt := vp'.jwt, cwt := none } ∧
      universals u vp.credentials = some cs ∧
      PresDoc (if min then { vp with id := "", holder := "" } else vp) cs doc ∧
      CompactJWS lib hs p (s.sign ⟨kid, a, []⟩) vp'.jwt j ∧
      get? p "iss" = Text vp.holder ∧ get? p "jti" = Text vp.id ∧
      get? p "aud" = (if aud = [] then none else some (.arr (aud.map .str))) ∧
      get? p "vp" = (if doc = [] then none else some (.obj doc)) ∧
      ∀ k, get? p k ≠ none → k ∈ ["iss", "jti", "aud", "vp"] := by
  unfold createJWTVP at h
  cases hcl : newPresClaims u vp aud min with
  | none => rw [hcl] at h; cases h
  | some c =>
    rw [hcl] at h
    dsimp only at h
    unfold marshalJWS at h
    cases ha : alg.name with
    | none => rw [ha] at h; cases h
    | some a =>
      rw [ha] at h
      dsimp only at h
      cases hs : newSigned lib (marshalPresClaims c) ⟨kid, a, []⟩ s with
      | none => rw [hs] at h; cases h
      | some t =>
        rw [hs] at h
        cases h
        obtain ⟨hh, k1, k2, -, -, k5⟩ := signed_token lib hs
        have hth : t.headers = hh := by
          unfold newSigned at hs
          rw [k1] at hs
          have := ((newJoseSigned_iff lib _ _ _ _ t).1 hs).2.1
          rw [this, mergeHeaders_nil]
        rw [hth] at k5
        unfold newPresClaims at hcl
        obtain ⟨raw, h1, h2⟩ := Option.map_eq_some_iff.1 hcl
        have hraw : ∃ cs, universals u vp.credentials = some cs ∧
            PresDoc (if min then { vp with id := "", holder := "" } else vp) cs raw := by
          cases min with
          | false => exact marshal_document u vp hc raw h1
          | true => exact marshal_document u { vp with id := "", holder := "" } hc raw h1
        obtain ⟨cs, hcs, hd⟩ := hraw
        have hg : ∀ k, get? (marshalPresClaims c) k =
            ((get? (strClaim "iss" vp.holder) k).or
            ((get? (if aud = [] then ([] : JObj) else [("aud", .arr (aud.map .str))]) k).or
            (get? (strClaim "jti" vp.id) k))).or
            (if "vp" = k ∧ raw ≠ [] then some (.obj raw) else none) := by
          intro k
          rw [← h2]
          unfold marshalPresClaims marshalClaims
          cases raw with
          | nil => simp [GoMap.get?_append, strClaim, dateField, GoMap.get?, Option.or_assoc]
          | cons e raw =>
            simp [GoMap.get?_append, GoMap.get?, Option.or_assoc, strClaim, dateField]
        refine ⟨a, hh, raw, cs, t.jws, _, rfl, k1, rfl, hcs, hd, k5, ?_, ?_, ?_, ?_, ?_⟩
        · rw [hg]
          unfold Text
          by_cases e : vp.holder = "" <;> simp [get?_strClaim, get?_aud, e]
        · rw [hg]
          unfold Text
          by_cases e : vp.id = "" <;> simp [get?_strClaim, get?_aud, e]
        · rw [hg]
          by_cases e : aud = [] <;> simp [get?_strClaim, e, GoMap.get?]
        · rw [hg]
          by_cases e : raw = [] <;> simp [get?_strClaim, get?_aud, e]
        · intro k hk
          rw [hg] at hk
          by_contra hn
          simp only [List.mem_cons, List.not_mem_nil, or_false, not_or] at hn
          obtain ⟨n1, n2, n3, n4⟩ := hn
          simp [get?_strClaim, get?_aud, Ne.symm n1, Ne.symm n2, Ne.symm n3, Ne.symm n4] at hk

theorem createJWTVP_inv {T : Type} {u : PCred T → Option Json} {s : Signer} {alg : LDP.JwsAlg}
    {kid : String} {vp vp' : Pres T} {aud : List String} {min : Bool}
    (h : createJWTVP lib u s alg kid vp aud min = some vp') :
    ∃ c a t, newPresClaims u vp aud min = some c ∧ alg.name = some a ∧
      newSigned lib (marshalPresClaims c) ⟨kid, a, []⟩ s = some t ∧
      vp' = { vp with jwt := serialize lib false t, cwt := none } := by
  unfold createJWTVP at h
  cases hcl : newPresClaims u vp aud min with
  | none => rw [hcl] at h; cases h
  | some c =>
    rw [hcl] at h
    dsimp only at h
    unfold marshalJWS at h
    cases ha : alg.name with
    | none => rw [ha] at h; cases h
    | some a =>
      rw [ha] at h
      dsimp only at h
      cases hs : newSigned lib (marshalPresClaims c) ⟨kid, a, []⟩ s with
      | none => rw [hs] at h; cases h
      | some t =>
        rw [hs] at h
        cases h
        exact ⟨c, a, t, rfl, rfl, hs, rfl⟩

/-- The payload of a JWT is decoded to its object before or after the proof is checked. -/
theorem decodePresPayload_split {p doc : JObj} (h : decodePresPayload p = .ok doc) :
    ∃ c x, unmarshalPres p = some c ∧ refinePres c = .ok x ∧ doc = x.getD [] := by
  unfold decodePresPayload at h
  cases hu : unmarshalPres p with
  | none => rw [hu] at h; cases h
  | some c =>
    rw [hu] at h
    obtain ⟨x, h1, h2⟩ := Out.bind_ok.1 h
    cases h2
    exact ⟨c, x, rfl, h1, rfl⟩

/-- **C95** (round trip, partial): a presentation issued as a signed JWT, minimized or not, with a holder, an id or
an audience, is parsed from that JWT as the same presentation, with its proof verified for the DID
named by the key id.  The enclosed credentials are read back (`hcr`), the document is valid (`hval`),
and the checks the caller asks for pass.

Missing: without holder, id and audience reading back crashes (`jwt_pres_without_claims_panics`). -/
theorem jwt_pres_issue_then_parse_partial (env : VEnv) (o : VpOpts env) (u : PCred env.T → Option Json) (s : Signer)
    (alg : LDP.JwsAlg) (kid : String) (vp vp' : Pres env.T) (hc : CustomClean vp) (hx : vp.context ≠ [])
    (ht : vp.types ≠ []) (aud : List String) (min : Bool)
    (hne : vp.holder ≠ "" ∨ aud ≠ [] ∨ vp.id ≠ "")
    (h : createJWTVP lib u s alg kid vp aud min = some vp') (hb : B64 lib)
    (hr : ∀ a, alg.name = some a →
      ReadsMade lib env.toPEnv (fun p => newSigned lib p ⟨kid, a, []⟩ s) vp'.jwt)
    (hg : ∀ a hs, alg.name = some a → s.headers ⟨kid, a, []⟩ = some hs → JWT.GoodHeaders env.lib.upper hs)
    (hsig : ∀ p data, s.sign p data ≠ some [])
    (hpc : o.disabledProofCheck = false → ∃ ck, o.checker = some ck ∧ ∀ a hs, alg.name = some a →
      s.headers ⟨kid, a, []⟩ = some hs → ∃ id did, header hs "kid" = some id ∧ DidPart id did ∧
        ∀ data sig, s.sign ⟨kid, a, []⟩ data = some sig → ck.jwt hs did data sig = true)
    (creds : List (PCred env.T))
    (hcr : ∀ cs, universals u vp.credentials = some cs → parseCreds env o cs = .ok creds)
    (hval : ∀ cs doc, universals u vp.credentials = some cs → PresDoc vp cs doc → validateVP env o doc = true)
    (hreq : o.requireVC = true → creds ≠ [])
    (hch : executeChecks env o vp.proofs creds vp.holder = true) :
    ∃ custom, (∀ k, get? custom k = get? vp.custom k) ∧
      parsePresentation env o vp'.jwt = .ok ⟨vp.context, [], vp.id, vp.types, creds, vp.holder, vp.proofs,
        vp'.jwt, none, custom⟩ := by
  obtain ⟨c, a, t, h1, h2, h3, rfl⟩ := createJWTVP_inv lib h
  dsimp only at hr ⊢
  have hr := hr a h2 _ t h3 rfl
  obtain ⟨hs, q1, q2, -, q4, q5⟩ := signed_token lib h3
  have hth : t.headers = hs := by
    unfold newSigned at h3
    rw [q1] at h3
    have := ((newJoseSigned_iff lib _ _ _ _ t).1 h3).2.1
    rw [this, mergeHeaders_nil]
  have hjh : t.jws.headers = hs := q5.headersIs.trans hth
  have hgood := hg a hs h2 q1
  obtain ⟨cs, doc, k1, k2, k3⟩ := jwt_pres_claims_roundtrip u vp hc aud min c h1 hne hx
  obtain ⟨custom, k6, k7⟩ := newPres_doc env o vp cs doc k3 hx ht hc creds (hcr cs k1) hch
  refine ⟨custom, k6, ?_⟩
  have hnosig : t.jws.signature ≠ [] := by
    intro e
    have := q5.signed
    rw [e] at this
    exact hsig _ _ this
  have hj := (serialize_isJWS lib hb env.toPEnv t hr).2 hnosig
  have hu := serialize_unQuote lib hb t
  obtain ⟨c', x, m1, m2, m3⟩ := decodePresPayload_split k2
  have hdec : ∀ pc : Option JWT.ProofChecker,
      (∀ k, pc = some k → JWT.checkProof env.lib k none none (serialize lib false t) = .ok ()) →
      decodeVPFromJWS env pc (serialize lib false t) = .ok doc := by
    intro pc hk
    unfold decodeVPFromJWS
    rw [hr.parse]
    dsimp only
    rw [hjh, (JWT.headers_iff _ _).2 hgood, hr.payload, q2]
    dsimp only [Bool.not_true]
    rw [if_neg (by simp), m1]
    dsimp only
    cases pc with
    | none =>
      dsimp only
      rw [m2]
      simp [Out.bind, m3]
    | some k =>
      dsimp only
      rw [hk k rfl]
      dsimp only
      rw [m2]
      simp [Out.bind, m3]
  have hp : parsePresJWS env o (serialize lib false t) = .ok ⟨doc, serialize lib false t, none⟩ := by
    unfold parsePresJWS
    by_cases hdis : o.disabledProofCheck = true
    · rw [hdis]
      simp only [Bool.not_true, Bool.false_and, Bool.false_eq_true, if_false, if_true]
      rw [hdec none (fun k hk => by cases hk)]
      rfl
    · have hdis : o.disabledProofCheck = false := by simpa using hdis
      obtain ⟨ck, e1, e2⟩ := hpc hdis
      obtain ⟨id, did, e3, e4, e5⟩ := e2 a hs h2 q1
      rw [hdis, e1]
      simp only [Bool.not_false, Option.isNone_some, Bool.and_false, Bool.false_eq_true, if_false,
        Option.map_some]
      rw [hdec (some ck.jwt)]
      · rfl
      · intro k hk
        cases hk
        unfold JWT.checkProof
        rw [hr.parse]
        dsimp only
        unfold JWT.joseVerify
        dsimp only
        rw [hjh, e3]
        dsimp only
        have hd : (split '#' id).headD "" = did := (Vfy.didPart_iff id did).2 e4
        rw [hd, if_pos]
        exact e5 _ _ q5.signed
  have hany : parsePresAny env o (serialize lib false t) = .ok ⟨doc, serialize lib false t, none⟩ := by
    unfold parsePresAny
    rw [orElseOut_ok]
    right
    constructor
    · unfold parsePresEnveloped
      rw [hr.notObj]
    · rw [orElseOut_ok]
      left
      unfold parsePresJSON
      rw [hu, if_pos hj]
      exact hp
  unfold parsePresentation
  rw [hany]
  simp only [Out.bind, k7, hval cs doc k1 k3]
  by_cases hrq : o.requireVC = true
  · have := hreq hrq
    cases creds with
    | nil => exact absurd rfl this
    | cons a l => simp
  · simp [hrq]

/-- **C95**, where it fails: the claims of a presentation with no holder, no id and no audience contain
no registered claim, and reading them back crashes. -/
theorem jwt_pres_without_claims_panics {T : Type} (u : PCred T → Option Json) (vp : Pres T)
    (min : Bool) (c : CredClaims) (h : newPresClaims u vp [] min = some c)
    (h1 : vp.holder = "") (h2 : vp.id = "") : decodePresPayload (marshalPresClaims c) = .panic := by
  unfold newPresClaims at h
  obtain ⟨raw, -, rfl⟩ := Option.map_eq_some_iff.1 h
  rw [h1, h2]
  apply pres_payload_panics
  · intro k hk
    cases raw with
    | nil => simp [marshalPresClaims, marshalClaims, strClaim, dateField, GoMap.keys] at hk
    | cons e raw =>
      simp [marshalPresClaims, marshalClaims, strClaim, dateField, GoMap.keys] at hk
      rw [hk]; decide
  · cases raw with
    | nil => left; rfl
    | cons e raw => right; right; exact ⟨e :: raw, rfl⟩

end VC.Iss
