import Verif.JWT.Model
import Verif.Proof.Props
/-!
# JWT: theorems (C32, C35)
-/

namespace VC.JWT

open VC.Proof (Bytes header)

/-! ## Specification -/

/-- The text after the first '+' (up to the next '+', if any) of a `typ` value. -/
def TypSuffix (t e : String) : Prop :=
  ∃ a : String, NoChar '+' a ∧ NoChar '+' e ∧
    (t = a ++ String.singleton '+' ++ e ∨ ∃ r : String, t = a ++ String.singleton '+' ++ e ++ String.singleton '+' ++ r)

/-- `typ` denotes a JWT: either exactly "JWT", or its explicit-typing suffix is JWT or SD-JWT in
any case. -/
def JwtTyp (upper : String → String) (t : String) : Prop :=
  (NoChar '+' t ∧ t = "JWT") ∨ ∃ e, TypSuffix t e ∧ (upper e = "JWT" ∨ upper e = "SD-JWT")

/-- The header policy. -/
structure GoodHeaders (upper : String → String) (h : JObj) : Prop where
  alg : GoMap.get? h "alg" ≠ none
  typ : ∀ v, GoMap.get? h "typ" = some v → ∃ t, v = .str t ∧ JwtTyp upper t
  cty : GoMap.get? h "cty" ≠ some (.str "JWT")

/-! ## Headers (C32) -/

theorem split_cases (c : Char) (t : String) :
    (NoChar c t ∧ split c t = [t]) ∨
    (∃ a r : String, NoChar c a ∧ t = a ++ String.singleton c ++ r ∧ split c t = a :: split c r) := by
  by_cases h : NoChar c t
  · exact Or.inl ⟨h, split_none c t h⟩
  · right
    have hn := split_noChar c t
    have hj := joinC_split c t
    cases hs : split c t with
    | nil => exact absurd hs (split_ne_nil c t)
    | cons a l =>
      rw [hs] at hn hj
      cases l with
      | nil =>
        simp only [joinC] at hj
        subst hj
        exact absurd (hn a (by simp)) h
      | cons b l =>
        have ha : NoChar c a := hn a (by simp)
        refine ⟨a, joinC c (b :: l), ha, by rw [← hj]; rfl, ?_⟩
        rw [split_joinC c (b :: l) (by simp) (fun s hs' => hn s (List.mem_cons_of_mem _ hs'))]

theorem typSuffix_iff (t e : String) : TypSuffix t e ↔ ∃ a l, split '+' t = a :: e :: l := by
  constructor
  · rintro ⟨a, ha, he, h | ⟨r, h⟩⟩
    · subst h
      exact ⟨a, [], by rw [split_append _ _ _ ha, split_none _ _ he]⟩
    · subst h
      refine ⟨a, split '+' r, ?_⟩
      rw [String.append_assoc, String.append_assoc, String.append_assoc,
        ← String.append_assoc, split_append _ _ _ ha, ← String.append_assoc, split_append _ _ _ he]
  · rintro ⟨a, l, h⟩
    have hn := split_noChar '+' t
    have hj := joinC_split '+' t
    rw [h] at hn hj
    refine ⟨a, hn a (by simp), hn e (by simp), ?_⟩
    cases l with
    | nil => left; rw [← hj]; rfl
    | cons x l =>
      right
      refine ⟨joinC '+' (x :: l), ?_⟩
      rw [← hj]
      simp only [joinC, String.append_assoc]

theorem checkTyp_iff (lib : Lib) (v : Json) :
    checkTyp lib v = true ↔ ∃ t, v = .str t ∧ JwtTyp lib.upper t := by
  cases v with
  | str t =>
    simp only [Json.str.injEq, exists_eq_left', JwtTyp, typSuffix_iff]
    unfold checkTyp
    rcases split_cases '+' t with ⟨hn, hs⟩ | ⟨a, r, ha, ht, hs⟩
    · simp only [hs]
      simp [hn]
    · have hc : ¬ NoChar '+' t := by
        intro h; apply h; rw [ht]; simp
      cases hr : split '+' r with
      | nil => exact absurd hr (split_ne_nil _ _)
      | cons e l =>
        rw [hr] at hs
        simp only [hs, hc, false_and, false_or, List.cons.injEq]
        constructor
        · intro h
          exact ⟨e, ⟨a, l, rfl, rfl, rfl⟩, by simpa using h⟩
        · rintro ⟨e', ⟨_, _, _, rfl, _⟩, h⟩
          simpa using h
  | _ => simp [checkTyp]

/-- C32: a header object passes the check exactly when it obeys the header policy. -/
theorem headers_iff (lib : Lib) (h : JObj) :
    checkHeaders lib h = true ↔ GoodHeaders lib.upper h := by
  unfold checkHeaders
  cases ha : GoMap.get? h "alg" with
  | none =>
    simp only [Option.isNone_none, if_true, Bool.false_eq_true, false_iff]
    intro g; exact g.alg ha
  | some a =>
    simp only [Option.isNone_some, Bool.false_eq_true, if_false]
    have typ : checkTypHdr lib h = true ↔
        ∀ v, GoMap.get? h "typ" = some v → ∃ t, v = .str t ∧ JwtTyp lib.upper t := by
      unfold checkTypHdr
      cases GoMap.get? h "typ" with
      | none => simp
      | some t => simp [checkTyp_iff]
    generalize hb : checkTypHdr lib h = b at typ ⊢
    cases b with
    | false =>
      simp only [Bool.not_false, if_true, Bool.false_eq_true, false_iff]
      intro g; exact absurd (typ.mpr g.typ) (by simp)
    | true =>
      have ht := typ.mp rfl
      simp only [Bool.not_true, Bool.false_eq_true, if_false]
      constructor
      · intro hc
        refine ⟨by simp [ha], ht, ?_⟩
        intro e; rw [e] at hc; simp at hc
      · intro g
        have gc := g.cty
        split
        · rename_i c hc
          rw [hc] at gc
          simp only [ne_eq, Option.some.injEq, Json.str.injEq] at gc
          simpa using gc
        · rfl

/-! ## Parsing and proof (C32, C35) -/

theorem parse_ok_iff (lib : Lib) (det : Option Bytes) (s : String) (tok : Token) (pl : Bytes) :
    parse lib det s = .ok (tok, pl) ↔ ∃ j, lib.parseJWS det s = some j ∧
      GoodHeaders lib.upper j.headers ∧ lib.payloadToMap j.payload = some tok.payload ∧
      tok.headers = j.headers ∧ pl = j.payload := by
  unfold parse
  cases hj : lib.parseJWS det s with
  | none => simp
  | some j =>
    simp only [Option.some.injEq, exists_eq_left']
    by_cases hh : checkHeaders lib j.headers = true
    · simp only [hh, Bool.not_true, Bool.false_eq_true, if_false]
      have g := (headers_iff lib j.headers).mp hh
      cases hm : lib.payloadToMap j.payload with
      | none => simp
      | some m =>
        simp only [Except.ok.injEq, Prod.mk.injEq, Option.some.injEq]
        obtain ⟨th, tp⟩ := tok
        simp only [Token.mk.injEq]
        constructor
        · rintro ⟨⟨rfl, rfl⟩, rfl⟩; exact ⟨g, rfl, rfl, rfl⟩
        · rintro ⟨_, rfl, rfl, rfl⟩; exact ⟨⟨rfl, rfl⟩, rfl⟩
    · have g : ¬ GoodHeaders lib.upper j.headers := fun g => hh ((headers_iff lib j.headers).mpr g)
      simp [hh, g]

/-- The issuer under which the key is looked up: the `iss` claim when it is checked, otherwise the
part of `kid` before the first '#'. -/
def ExpectedIssuer (lib : Lib) (checkIssuer : Bool) (headers payload : JObj) (iss : String) : Prop :=
  if checkIssuer then ∃ v, GoMap.get? payload "iss" = some v ∧ iss = lib.jsonString v
  else ∃ kid, header headers "kid" = some kid ∧
    ((NoChar '#' kid ∧ iss = kid) ∨ ∃ r : String, kid = iss ++ String.singleton '#' ++ r ∧ NoChar '#' iss)

theorem didPart_iff (kid iss : String) : (split '#' kid).headD "" = iss ↔
    (NoChar '#' kid ∧ iss = kid) ∨ ∃ r : String, kid = iss ++ String.singleton '#' ++ r ∧ NoChar '#' iss := by
  rcases split_cases '#' kid with ⟨hn, hs⟩ | ⟨a, r, ha, ht, hs⟩
  · rw [hs]
    constructor
    · intro h; left; exact ⟨hn, by simpa using h.symm⟩
    · rintro (⟨_, h⟩ | ⟨r, h, _⟩)
      · simp [h]
      · exfalso; apply hn; rw [h]; simp
  · rw [hs]
    constructor
    · intro h
      simp only [List.headD_cons] at h
      subst h
      exact Or.inr ⟨r, ht, ha⟩
    · rintro (⟨h, _⟩ | ⟨r', h, hi⟩)
      · exfalso; apply h; rw [ht]; simp
      · rw [h, split_append _ _ _ hi] at hs
        simpa using (List.cons.inj hs).1.symm

/-- C35/C32: `ParseAndCheckProof` succeeds exactly when the token is a well-formed JWS with good
headers and a JSON payload, an issuer can be determined (from `iss` when it is checked, else from
`kid`), and the proof checker accepts the signature over the signing input for that issuer. -/
theorem parse_and_check_iff (lib : Lib) (pc : ProofChecker) (checkIssuer : Bool)
    (det : Option Bytes) (s : String) (tok : Token) (pl : Bytes) :
    parseAndCheckProof lib pc checkIssuer det s = .ok (tok, pl) ↔
      ∃ j iss, lib.parseJWS det s = some j ∧ GoodHeaders lib.upper j.headers ∧
        lib.payloadToMap j.payload = some tok.payload ∧ tok.headers = j.headers ∧ pl = j.payload ∧
        ExpectedIssuer lib checkIssuer j.headers tok.payload iss ∧
        pc j.headers iss j.signingInput j.signature = true := by
  unfold parseAndCheckProof
  cases hp : parse lib det s with
  | error e =>
    simp only [reduceCtorEq, false_iff]
    rintro ⟨j, iss, h1, h2, h3, h4, h5, _⟩
    have := (parse_ok_iff lib det s tok pl).mpr ⟨j, h1, h2, h3, h4, h5⟩
    rw [hp] at this; cases this
  | ok r =>
    obtain ⟨tok', pl'⟩ := r
    obtain ⟨j, h1, h2, h3, h4, h5⟩ := (parse_ok_iff lib det s tok' pl').mp hp
    have fwd : ∀ iss, ExpectedIssuer lib checkIssuer j.headers tok'.payload iss →
        ((pc j.headers iss j.signingInput j.signature = true ∧ tok' = tok ∧ pl' = pl) ↔
          ∃ j iss, lib.parseJWS det s = some j ∧ GoodHeaders lib.upper j.headers ∧
            lib.payloadToMap j.payload = some tok.payload ∧ tok.headers = j.headers ∧ pl = j.payload ∧
            ExpectedIssuer lib checkIssuer j.headers tok.payload iss ∧
            pc j.headers iss j.signingInput j.signature = true) := by
      intro iss hi
      constructor
      · rintro ⟨hpc, rfl, rfl⟩
        exact ⟨j, iss, h1, h2, h3, h4, h5, hi, hpc⟩
      · rintro ⟨j', iss', g1, g2, g3, g4, g5, g6, g7⟩
        rw [h1] at g1; cases g1
        rw [h3] at g3
        have e1 : tok' = tok := by
          obtain ⟨a, b⟩ := tok; obtain ⟨a', b'⟩ := tok'
          simp only [Option.some.injEq] at g3 g4 h4
          simp only [Token.mk.injEq]; exact ⟨h4.trans g4.symm, g3⟩
        subst e1
        have e2 : iss = iss' := by
          unfold ExpectedIssuer at hi g6
          split at hi
          · rename_i hc
            rw [if_pos hc] at g6
            obtain ⟨v, a, b⟩ := hi
            obtain ⟨v', a', b'⟩ := g6
            rw [a] at a'; cases a'; rw [b, b']
          · rename_i hc
            rw [if_neg hc] at g6
            obtain ⟨k, a, b⟩ := hi
            obtain ⟨k', a', b'⟩ := g6
            rw [a] at a'; cases a'
            rw [← didPart_iff] at b b'
            rw [← b, ← b']
        subst e2
        exact ⟨g7, rfl, h5.trans g5.symm⟩
    simp only
    cases checkIssuer with
    | true =>
      simp only [if_true]
      cases hi : GoMap.get? tok'.payload "iss" with
      | none =>
        simp only [reduceCtorEq, false_iff]
        rintro ⟨j', iss', g1, g2, g3, g4, g5, g6, g7⟩
        rw [h1] at g1; cases g1
        rw [h3] at g3
        unfold ExpectedIssuer at g6
        obtain ⟨v, a, _⟩ := g6
        simp only [Option.some.injEq] at g3
        rw [← g3, hi] at a; cases a
      | some v =>
        simp only
        rw [← fwd (lib.jsonString v) (by unfold ExpectedIssuer; exact ⟨v, hi, rfl⟩)]
        have e : checkProof lib pc (some (lib.jsonString v)) det s =
            if pc j.headers (lib.jsonString v) j.signingInput j.signature then .ok ()
            else .error .proof := by simp [checkProof, h1, joseVerify]
        rw [e]
        by_cases hpc : pc j.headers (lib.jsonString v) j.signingInput j.signature = true
        · simp [hpc]
        · simp [hpc]
    | false =>
      simp only [Bool.false_eq_true, if_false]
      cases hk : header j.headers "kid" with
      | none =>
        have e : checkProof lib pc none det s = .error .noKid := by
          simp [checkProof, h1, joseVerify, hk]
        rw [e]
        simp only [reduceCtorEq, false_iff]
        rintro ⟨j', iss', g1, g2, g3, g4, g5, g6, g7⟩
        rw [h1] at g1; cases g1
        unfold ExpectedIssuer at g6
        obtain ⟨v, a, _⟩ := g6
        rw [hk] at a; cases a
      | some kid =>
        have e : checkProof lib pc none det s =
            if pc j.headers ((split '#' kid).headD "") j.signingInput j.signature then .ok ()
            else .error .proof := by simp [checkProof, h1, joseVerify, hk]
        rw [e]
        rw [← fwd ((split '#' kid).headD "") (by
          unfold ExpectedIssuer; exact ⟨kid, hk, (didPart_iff kid _).mp rfl⟩)]
        generalize pc j.headers ((split '#' kid).headD "") j.signingInput j.signature = b
        cases b <;> simp

/-- C35 end to end: with the default checker over DID resolution, an accepted JWT whose issuer is
checked carries an `iss` claim and was signed by a key that the DID document of `iss` lists under
`kid` (other than for key agreement), with the algorithm of its `alg` header. -/
theorem jwt_issuer_binding (lib : Lib) (p : Proof.Prim)
    (vdr : String → Option (List Proof.DocEntry)) (det : Option Bytes) (s : String)
    (tok : Token) (pl : Bytes)
    (h : parseAndCheckProof lib (ofChecker (Proof.defaultChecker p (Proof.vdrResolve vdr))) true det s
      = .ok (tok, pl)) :
    ∃ v kid alg vm j, GoMap.get? tok.payload "iss" = some v ∧
      header tok.headers "kid" = some kid ∧ header tok.headers "alg" = some alg ∧
      Proof.KeyOfDid vdr (lib.jsonString v) kid vm ∧
      lib.parseJWS det s = some j ∧ Proof.AlgAccepts p vm j.signingInput j.signature alg ∧
      GoodHeaders lib.upper tok.headers := by
  obtain ⟨j, iss, h1, h2, h3, h4, h5, h6, h7⟩ := (parse_and_check_iff _ _ _ _ _ _ _).mp h
  obtain ⟨v, hv, rfl⟩ := h6
  have hc : (Proof.defaultChecker p (Proof.vdrResolve vdr)).checkJWT j.headers (lib.jsonString v)
      j.signingInput j.signature = .ok () := by
    unfold ofChecker at h7
    split at h7
    · assumption
    · cases h7
  obtain ⟨kid, alg, vm, k1, k2, k3, k4⟩ := (Proof.default_jwt_iff p _ _ _ _ _).mp hc
  exact ⟨v, kid, alg, vm, j, hv, by rw [h4]; exact k1, by rw [h4]; exact k2,
    (Proof.resolver_sound vdr kid _).1 vm k3, h1, k4, by rw [h4]; exact h2⟩

/-- C35: without issuer checking the key is that of the DID named by `kid` itself. -/
theorem jwt_kid_binding (lib : Lib) (p : Proof.Prim)
    (vdr : String → Option (List Proof.DocEntry)) (det : Option Bytes) (s : String)
    (tok : Token) (pl : Bytes)
    (h : parseAndCheckProof lib (ofChecker (Proof.defaultChecker p (Proof.vdrResolve vdr))) false det s
      = .ok (tok, pl)) :
    ∃ kid did vm j alg, header tok.headers "kid" = some kid ∧
      ((NoChar '#' kid ∧ did = kid) ∨ ∃ r : String, kid = did ++ String.singleton '#' ++ r ∧ NoChar '#' did) ∧
      Proof.KeyOfDid vdr did kid vm ∧ lib.parseJWS det s = some j ∧
      Proof.AlgAccepts p vm j.signingInput j.signature alg := by
  obtain ⟨j, iss, h1, h2, h3, h4, h5, h6, h7⟩ := (parse_and_check_iff _ _ _ _ _ _ _).mp h
  obtain ⟨kid, hk, hd⟩ := h6
  have hc : (Proof.defaultChecker p (Proof.vdrResolve vdr)).checkJWT j.headers iss
      j.signingInput j.signature = .ok () := by
    unfold ofChecker at h7
    split at h7
    · assumption
    · cases h7
  obtain ⟨kid', alg, vm, k1, k2, k3, k4⟩ := (Proof.default_jwt_iff p _ _ _ _ _).mp hc
  rw [hk] at k1; cases k1
  exact ⟨kid, iss, vm, j, alg, by rw [h4]; exact hk, hd, (Proof.resolver_sound vdr kid _).1 vm k3, h1, k4⟩

/-! ### A concrete token -/

/-- Toy libraries: two known tokens. -/
def exLib : Lib where
  parseJWS := fun _ s =>
    if s = "good" then some ⟨[("alg", .str "EdDSA"), ("typ", .str "vc+jwt"), ("kid", .str "did:ex:a#k1")],
      [9], [1, 2], [1, 2] ++ Proof.exKey⟩
    else none
  payloadToMap := fun b => if b = [9] then some [("iss", .str "did:ex:a")] else none
  upper := fun s => if s = "jwt" then "JWT" else s
  jsonString := fun v => match v with | .str s => s | _ => ""

example : parseAndCheckProof exLib
    (ofChecker (Proof.defaultChecker Proof.exPrim (Proof.vdrResolve Proof.exVdr))) true none "good" =
    .ok (⟨[("alg", .str "EdDSA"), ("typ", .str "vc+jwt"), ("kid", .str "did:ex:a#k1")],
      [("iss", .str "did:ex:a")]⟩, [9]) := by rfl

example : parseAndCheckProof exLib
    (ofChecker (Proof.defaultChecker Proof.exPrim (Proof.vdrResolve Proof.exVdr))) false none "good" =
    .ok (⟨[("alg", .str "EdDSA"), ("typ", .str "vc+jwt"), ("kid", .str "did:ex:a#k1")],
      [("iss", .str "did:ex:a")]⟩, [9]) := by rfl

example : checkHeaders exLib [("alg", .str "none"), ("typ", .str "x+json")] = false := by rfl

end VC.JWT
