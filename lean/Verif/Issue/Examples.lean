import Verif.Issue.PresProps
import Verif.Cwt.Examples
/-!
# Issued JWTs: concrete cases
-/

namespace VC.Iss

open GoMap (get?)
open VC.Vfy
open VC.Vfy.Spec
open VC.Cwt (cwCred cwContents cwPres cw_normal cwCred_created cw_pres_clean)
open VC.Proof (Bytes exKey exPrim exVdr vdrResolve defaultChecker)
open Spec

/-! ## Libraries -/

/-- The claims of a credential. -/
def ivClaims (min : Bool) : JObj :=
  match newJWTCredClaims exJEnv cwCred min with
  | .ok c => marshalCred ⟨some c.1, some (wireObj c.2)⟩
  | _ => []

/-- The claims of a presentation. -/
def ivVpClaims (min : Bool) : JObj :=
  match newPresClaims (fun _ : PCred Int => none) cwPres ["did:ex:v"] min with
  | some c => marshalPresClaims c
  | none => []

/-- The maps that are written. -/
def ivMap (n : UInt8) : JObj :=
  if n = 1 then LDP.jwtHeaders "EdDSA" "did:ex:a#k1" else if n = 5 then [("alg", .str "none")]
  else if n = 2 then ivClaims false else if n = 3 then ivClaims true
  else if n = 6 then ivVpClaims false else if n = 4 then ivVpClaims true else []

/-- The number of members of an object value. -/
def ivLen : Option Json → Nat
  | some (.obj o) => o.length
  | _ => 0

/-- Which map it could be. -/
def ivKind (m : JObj) : UInt8 :=
  if (get? m "alg").isSome then (if (get? m "kid").isSome then 1 else 5)
  else if (get? m "vc").isSome then (if ivLen (get? m "vc") = 7 then 2 else 3)
  else if ivLen (get? m "vp") = 5 then 6 else 4

/-- A letter for a byte. -/
def ivChar (u : UInt8) : Char := Char.ofNat (97 + u.toNat % 26)

open Classical in
/-- The library: each map has a one-byte encoding. -/
noncomputable def ivLib : JwsLib where
  b64 := fun b => String.ofList (b.map ivChar)
  enc := fun m => if m = ivMap (ivKind m) then some [ivKind m] else none
  utf8 := fun _ => [9]

theorem ivChar_alpha (u : UInt8) : (ivChar u).isAlphanum = true := by
  unfold ivChar
  have h : u.toNat % 26 < 26 := Nat.mod_lt _ (by decide)
  generalize u.toNat % 26 = n at h
  have : ∀ n : Fin 26, (Char.ofNat (97 + n.val)).isAlphanum = true := by decide
  exact this ⟨n, h⟩

theorem iv_b64 : B64 ivLib where
  alphabet := by
    intro x c hc
    simp only [ivLib, String.toList_ofList, List.mem_map] at hc
    obtain ⟨u, -, rfl⟩ := hc
    exact .inl (ivChar_alpha u)
  empty := rfl
  nonempty := by
    intro x h
    have h := congrArg String.toList h
    simp only [ivLib, String.toList_ofList] at h
    cases x with
    | nil => rfl
    | cons a l => cases h

theorem iv_kinds (m : JObj) : ivKind m = 1 ∨ ivKind m = 5 ∨ ivKind m = 2 ∨ ivKind m = 3 ∨ ivKind m = 6 ∨
    ivKind m = 4 := by
  unfold ivKind
  split
  · split <;> simp
  · split
    · split <;> simp
    · split <;> simp

theorem iv_enc {m : JObj} {b : Bytes} (h : ivLib.enc m = some b) : m = ivMap (ivKind m) ∧ b = [ivKind m] := by
  simp only [ivLib] at h
  split at h
  · rename_i hm
    exact ⟨hm, (Option.some.inj h).symm⟩
  · cases h

theorem iv_enc_map (n : UInt8) (h : ivKind (ivMap n) = n) : ivLib.enc (ivMap n) = some [n] := by
  simp only [ivLib]
  rw [h, if_pos rfl]

theorem iv_kind_map : ivKind (ivMap 1) = 1 ∧ ivKind (ivMap 5) = 5 ∧ ivKind (ivMap 2) = 2 ∧
    ivKind (ivMap 3) = 3 ∧ ivKind (ivMap 6) = 6 ∧ ivKind (ivMap 4) = 4 := by
  decide +kernel

/-- The JWS of a payload. -/
def ivJws (n : UInt8) : JWT.Jws := ⟨ivMap 1, [n], [9], [9] ++ exKey⟩

/-- The unsecured JWS of a payload. -/
def ivJwsU (n : UInt8) : JWT.Jws := ⟨ivMap 5, [n], [9], []⟩

/-- The tokens. -/
def ivTok (n : UInt8) : Tok := ⟨ivMap 1, ivMap n, ivJws n, [1]⟩

def ivTokU (n : UInt8) : Tok := ⟨ivMap 5, ivMap n, ivJwsU n, [5]⟩

/-- Their texts. -/
def ivText (n : UInt8) : String :=
  String.ofList (['b', '.', ivChar n, '.', 'j'] ++ List.replicate 32 'h')

def ivTextU (n : UInt8) : String := String.ofList ['f', '.', ivChar n, '.']

def ivTextD : String := String.ofList (['b', '.', '.', 'j'] ++ List.replicate 32 'h')

theorem iv_text (n : UInt8) : serialize ivLib false (ivTok n) = ivText n := by
  have : (serialize ivLib false (ivTok n)).toList = (ivText n).toList := by
    simp [serialize, ivLib, ivTok, ivText, ivJws, exKey]
    exact ⟨rfl, rfl, rfl⟩
  exact String.toList_inj.1 this

theorem iv_textU (n : UInt8) : serialize ivLib false (ivTokU n) = ivTextU n := by
  have : (serialize ivLib false (ivTokU n)).toList = (ivTextU n).toList := by
    simp [serialize, ivLib, ivTokU, ivTextU, ivJwsU]
    rfl
  exact String.toList_inj.1 this

theorem iv_textD (n : UInt8) : serialize ivLib true (ivTok n) = ivTextD := by
  have : (serialize ivLib true (ivTok n)).toList = ivTextD.toList := by
    unfold serialize ivTextD
    simp only [if_true, String.toList_append, ivLib, String.toList_ofList]
    rfl
  exact String.toList_inj.1 this

/-- Reading the texts. -/
def ivParse (b : Option Bytes) (s : String) : Option JWT.Jws :=
  match [2, 3, 6, 4].find? (fun n => s == ivText n || (b == some [n] && s == ivTextD)) with
  | some n => some (ivJws n)
  | none => ([2, 3, 6, 4].find? (fun n => s == ivTextU n)).map ivJwsU

/-- The JWT library. -/
def ivJwt : JWT.Lib := ⟨ivParse, fun b => b.head?.map ivMap, id, fun j => match j with
  | .str s => s
  | _ => ""⟩

/-- Which token a text is. -/
def ivFind (b : Option Bytes) (s : String) : Option UInt8 :=
  [2, 3, 6, 4].find? (fun n => s == ivText n || (b == some [n] && s == ivTextD))

def ivFindU (s : String) : Option UInt8 := [2, 3, 6, 4].find? (fun n => s == ivTextU n)

theorem ivParse_some {b : Option Bytes} {s : String} {n : UInt8} (h : ivFind b s = some n) :
    ivParse b s = some (ivJws n) := by
  unfold ivParse
  unfold ivFind at h
  rw [h]

theorem ivParse_someU {b : Option Bytes} {s : String} {n : UInt8} (h : ivFind b s = none)
    (h' : ivFindU s = some n) : ivParse b s = some (ivJwsU n) := by
  unfold ivParse
  unfold ivFind at h
  unfold ivFindU at h'
  rw [h, h']
  rfl

theorem iv_parsed : ivParse none (ivText 2) = some (ivJws 2) ∧ ivParse none (ivText 3) = some (ivJws 3) ∧
    ivParse none (ivText 6) = some (ivJws 6) ∧ ivParse none (ivText 4) = some (ivJws 4) :=
  ⟨ivParse_some (by decide +kernel), ivParse_some (by decide +kernel), ivParse_some (by decide +kernel),
    ivParse_some (by decide +kernel)⟩

theorem iv_parsedU : ivParse none (ivTextU 2) = some (ivJwsU 2) ∧ ivParse none (ivTextU 3) = some (ivJwsU 3) :=
  ⟨ivParse_someU (by decide +kernel) (by decide +kernel), ivParse_someU (by decide +kernel) (by decide +kernel)⟩

/-- The libraries of package verifiable. -/
def ivEnv : VEnv := { vxEnv with
  sprint := exCEnv.sprint
  lib := ivJwt
  payloadObj := fun b => b.head?.map ivMap
  jsonPart := fun _ => true
  decodeObj := fun _ => none }

theorem iv_made {claims : JObj} {t : Tok}
    (h : newSigned ivLib claims ⟨"did:ex:a#k1", "EdDSA", []⟩ (ofCreator LDP.ldCreator) = some t) :
    claims = ivMap (ivKind claims) ∧ t = ivTok (ivKind claims) := by
  unfold newSigned at h
  obtain ⟨h1, h2, h3, h4, h5, h6, h7, h8⟩ := (newJoseSigned_iff ivLib _ _ _ _ t).1 h
  rw [mergeHeaders_nil] at h2 h3
  obtain ⟨e1, e2⟩ := iv_enc h6
  have e5 : t.hdr = [1] := by
    rw [h2] at h5
    have := (iv_enc h5).2
    rw [this]; rfl
  obtain ⟨th, tp, tj, thd⟩ := t
  obtain ⟨jh, jp, ji, js⟩ := tj
  dsimp only at *
  refine ⟨e1, ?_⟩
  have hs : js = [9] ++ exKey := by
    subst h7
    exact (Option.some.inj h8).symm
  have hm1 : LDP.jwtHeaders "EdDSA" "did:ex:a#k1" = ivMap 1 := rfl
  unfold ivTok ivJws
  rw [← e1, h1, h2, e5, h3, e2, h7, hs, hm1]
  rfl

theorem iv_madeU {claims : JObj} {t : Tok} (h : newUnsecured ivLib claims = some t) :
    claims = ivMap (ivKind claims) ∧ t = ivTokU (ivKind claims) := by
  unfold newUnsecured at h
  obtain ⟨h1, h2, h3, h4, h5, h6, h7, h8⟩ := (newJoseSigned_iff ivLib _ _ _ _ t).1 h
  rw [mergeHeaders_nil] at h2 h3
  obtain ⟨e1, e2⟩ := iv_enc h6
  have e5 : t.hdr = [5] := by
    rw [h2] at h5
    have := (iv_enc h5).2
    rw [this]; rfl
  obtain ⟨th, tp, tj, thd⟩ := t
  obtain ⟨jh, jp, ji, js⟩ := tj
  dsimp only at *
  refine ⟨e1, ?_⟩
  have hs : js = [] := (Option.some.inj h8).symm
  have hm1 : [("alg", Json.str "none")] = ivMap 5 := rfl
  unfold ivTokU ivJwsU
  rw [← e1, h1, h2, e5, h3, e2, h7, hs, hm1]
  rfl

theorem iv_signed (n : UInt8) (h : ivKind (ivMap n) = n) :
    newSigned ivLib (ivMap n) ⟨"did:ex:a#k1", "EdDSA", []⟩ (ofCreator LDP.ldCreator) = some (ivTok n) := by
  unfold newSigned
  refine (newJoseSigned_iff ivLib _ _ _ _ _).2 ⟨rfl, rfl, rfl, ?_, iv_enc_map 1 iv_kind_map.1, iv_enc_map n h, rfl, rfl⟩
  intro h; cases h

theorem iv_unsecured (n : UInt8) (h : ivKind (ivMap n) = n) : newUnsecured ivLib (ivMap n) = some (ivTokU n) := by
  unfold newUnsecured
  refine (newJoseSigned_iff ivLib _ _ _ _ _).2 ⟨rfl, rfl, rfl, ?_, iv_enc_map 5 iv_kind_map.2.1, iv_enc_map n h, rfl, rfl⟩
  intro h; cases h

theorem iv_reads (n : UInt8) (hn : ivParse none (ivText n) = some (ivJws n)) :
    ReadsMade ivLib ivEnv.toPEnv
      (fun p => newSigned ivLib p ⟨"did:ex:a#k1", "EdDSA", []⟩ (ofCreator LDP.ldCreator)) (ivText n) := by
  intro p t hp ht
  obtain ⟨e1, rfl⟩ := iv_made hp
  rw [iv_text] at ht
  refine ⟨?_, rfl, rfl, rfl, rfl⟩
  rw [iv_text, ht]
  show ivParse none (ivText n) = some (ivJws (ivKind p))
  have hc : ivJws (ivKind p) = ivJws n := by
    have h2 : ivParse none (ivText (ivKind p)) = ivParse none (ivText n) := by rw [ht]
    rw [hn] at h2
    rcases iv_kinds p with e | e | e | e | e | e <;> rw [e] at h2 ⊢
    · rw [show ivParse none (ivText 1) = none from by decide +kernel] at h2; cases h2
    · rw [show ivParse none (ivText 5) = none from by decide +kernel] at h2; cases h2
    all_goals exact Option.some.inj h2
  rw [hc, hn]

theorem iv_readsU (n : UInt8) (hn : ivParse none (ivTextU n) = some (ivJwsU n)) :
    ReadsMade ivLib ivEnv.toPEnv (newUnsecured ivLib) (ivTextU n) := by
  intro p t hp ht
  obtain ⟨e1, rfl⟩ := iv_madeU hp
  rw [iv_textU] at ht
  refine ⟨?_, rfl, rfl, rfl, rfl⟩
  rw [iv_textU, ht]
  show ivParse none (ivTextU n) = some (ivJwsU (ivKind p))
  have hc : ivJwsU (ivKind p) = ivJwsU n := by
    have h2 : ivParse none (ivTextU (ivKind p)) = ivParse none (ivTextU n) := by rw [ht]
    rw [hn] at h2
    rcases iv_kinds p with e | e | e | e | e | e <;> rw [e] at h2 ⊢
    · rw [show ivParse none (ivTextU 1) = none from by decide +kernel] at h2; cases h2
    · rw [show ivParse none (ivTextU 5) = none from by decide +kernel] at h2; cases h2
    all_goals exact Option.some.inj h2
  rw [hc, hn]

/-! ## Tokens -/

/-- `signed_token`: further headers win over the signer's. -/
example : HeadersOf [("typ", .str "JWT"), ("kid", .str "x")] (LDP.jwtHeaders "EdDSA" "did:ex:a#k1")
    (mergeHeaders [("typ", .str "JWT"), ("kid", .str "x")] (LDP.jwtHeaders "EdDSA" "did:ex:a#k1")) ∧
    get? (mergeHeaders [("typ", .str "JWT"), ("kid", .str "x")] (LDP.jwtHeaders "EdDSA" "did:ex:a#k1")) "kid" =
      some (.str "x") := ⟨mergeHeaders_get _ _, rfl⟩

/-- `signed_token`, `lookup_string_header`. -/
example : ∃ hs, (ofCreator LDP.ldCreator).headers ⟨"did:ex:a#k1", "EdDSA", []⟩ = some hs ∧
    CompactJWS ivLib (ivTok 2).headers (ivClaims false)
      ((ofCreator LDP.ldCreator).sign ⟨"did:ex:a#k1", "EdDSA", []⟩) (ivText 2) (ivJws 2) ∧
    lookupStringHeader (ivTok 2) "kid" = "did:ex:a#k1" ∧ lookupStringHeader (ivTok 2) "typ" = "" := by
  obtain ⟨hs, h1, -, -, -, h5⟩ := signed_token ivLib (iv_signed 2 iv_kind_map.2.2.1)
  rw [iv_text] at h5
  exact ⟨hs, h1, h5, rfl, rfl⟩

/-- `detached_token`. -/
example : ∃ hdr, ivLib.enc (ivTok 2).headers = some hdr ∧
    serialize ivLib true (ivTok 2) = ivLib.b64 hdr ++ ".." ++ ivLib.b64 ([9] ++ exKey) := by
  obtain ⟨hdr, h1, h2, -⟩ := detached_token ivLib (iv_signed 2 iv_kind_map.2.2.1)
  exact ⟨hdr, h1, h2⟩

/-- `unsecured_token`. -/
example : serialize ivLib false (ivTokU 2) = "f.c." ∧ (ivTokU 2).jws.signature = [] :=
  ⟨(iv_textU 2).trans rfl, (unsecured_token ivLib iv_b64 (iv_unsecured 2 iv_kind_map.2.2.1)).2.2.1⟩

theorem iv_keyPair : KeyPair LDP.ldCreator pxChecker "EdDSA" "did:ex:a#k1" "did:ex:a" Proof.eddsaDesc LDP.ldVM where
  table := rfl
  resolves := rfl
  allowed := ⟨.ed25519, (LDP.ld_allowed _).2 rfl⟩
  verifies := by
    intro e he _ m s hs kt hk
    simp only [LDP.ldCreator, List.mem_singleton] at he
    subst he
    cases hs
    have := (LDP.ld_allowed kt).1 hk; subst this
    exact ⟨⟨Proof.ed25519Verifier exPrim, by simp [pxChecker, defaultChecker, Proof.defaultVerifiers], rfl⟩,
      fun v hv hs => LDP.ld_verifier v hv hs m⟩

theorem iv_parse_det (det : Bool) : ReadsToken ivLib ivJwt det (ivTok 2) := by
  cases det with
  | false => exact ⟨by rw [iv_text]; exact iv_parsed.1, rfl⟩
  | true => exact ⟨by rw [iv_textD]; exact ivParse_some (b := some [2]) (s := ivTextD) (n := 2) (by decide +kernel), rfl⟩

/-- `creator_token_accepted`, `signed_token_checked`: with the payload and detached. -/
example (det : Bool) : JWT.parseAndCheckProof ivJwt (JWT.ofChecker pxChecker) true
    (if det then some [2] else none) (serialize ivLib det (ivTok 2)) =
      .ok (⟨LDP.jwtHeaders "EdDSA" "did:ex:a#k1", ivClaims false⟩, [2]) :=
  creator_token_accepted ivLib (iv_signed 2 iv_kind_map.2.2.1) (by decide) ivJwt det (iv_parse_det det) pxChecker true
    "did:ex:a" (by exact ⟨_, rfl, rfl⟩) iv_keyPair.table iv_keyPair.resolves iv_keyPair.allowed iv_keyPair.verifies

/-- `unsecured_rejected`, `none_rejected`. -/
example (r : JWT.Token × Bytes) : JWT.parseAndCheckProof ivJwt (JWT.ofChecker pxChecker) true none "f.c." ≠ .ok r := by
  have := unsecured_rejected ivLib exPrim (vdrResolve exVdr) (iv_unsecured 2 iv_kind_map.2.2.1) ivJwt false
    ⟨by rw [iv_textU]; exact iv_parsedU.1, rfl⟩ true r
  rw [iv_textU] at this
  exact this

/-! ## Credentials -/

/-- Default options with the default checkers. -/
def ivOpts : ParseOpts ivEnv.toPEnv where
  mode := .combined
  allowedContexts := []
  allowedTypes := []
  ldTypesCheck := false
  disableValidation := false
  disabledProofCheck := false
  disableRelRes := false
  externalContext := []
  jwtChecker := some (JWT.ofChecker pxChecker)
  cwtChecker := some (cwtChecker pxChecker (fun _ => none))
  ldChecker := some (ldChecker pxChecker)
  diVerifier := some DI.exSuites
  diPurpose := ""
  diDomain := ""
  diChallenge := ""

/-- The payload of the credential's token. -/
def ivNum (min : Bool) : UInt8 := if min then 3 else 2

theorem iv_num (min : Bool) : ivKind (ivMap (ivNum min)) = ivNum min ∧
    ivParse none (ivText (ivNum min)) = some (ivJws (ivNum min)) ∧
    ivParse none (ivTextU (ivNum min)) = some (ivJwsU (ivNum min)) := by
  cases min with
  | false => exact ⟨iv_kind_map.2.2.1, iv_parsed.1, iv_parsedU.1⟩
  | true => exact ⟨iv_kind_map.2.2.2.1, iv_parsed.2.1, iv_parsedU.2⟩

theorem iv_created (min : Bool) : createSignedJWT ivLib exJEnv (ofCreator LDP.ldCreator) min .eddsa "did:ex:a#k1" cwCred =
    .ok ⟨cwCred.json, cwContents, [], ivText (ivNum min), some (LDP.jwtHeaders "EdDSA" "did:ex:a#k1")⟩ := by
  have h : ∃ c, newJWTCredClaims exJEnv cwCred min = .ok c ∧
      marshalCred ⟨some c.1, some (wireObj c.2)⟩ = ivMap (ivNum min) := by
    cases min <;> exact ⟨_, rfl, rfl⟩
  obtain ⟨c, h1, h2⟩ := h
  unfold createSignedJWT
  rw [h1]
  simp only [Out.bind]
  rw [h2]
  unfold marshalJWS
  simp only [LDP.JwsAlg.name]
  rw [iv_signed _ (iv_num min).1]
  dsimp only
  rw [iv_text]
  rfl

theorem iv_createdU (min : Bool) : createUnsecuredJWT ivLib exJEnv min cwCred =
    .ok ⟨cwCred.json, cwContents, [], ivTextU (ivNum min), none⟩ := by
  have h : ∃ c, newJWTCredClaims exJEnv cwCred min = .ok c ∧
      marshalCred ⟨some c.1, some (wireObj c.2)⟩ = ivMap (ivNum min) := by
    cases min <;> exact ⟨_, rfl, rfl⟩
  obtain ⟨c, h1, h2⟩ := h
  unfold createUnsecuredJWT
  rw [h1]
  simp only [Out.bind]
  rw [h2]
  unfold marshalUnsecured
  rw [iv_unsecured _ (iv_num min).1]
  simp only [Option.map_some]
  rw [iv_textU]
  rfl

theorem iv_nosig (a : String) (data : Bytes) : LDP.ldCreator.signJWT a data ≠ some [] := by
  intro h
  unfold LDP.Creator.signJWT at h
  simp only [LDP.ldCreator, LDP.jwtCreate] at h
  split at h
  · have := Option.some.inj h
    simp [exKey] at this
  · cases h

theorem iv_agrees : Agrees ivEnv.toCEnv cwCred := by
  have := (created_roundtrip exCEnv exCEnv_lawful cwContents cw_normal [("extra", .num 1)]
    (by simp [GoMap.WF, GoMap.keys]) (by simp [CustomNames, GoMap.keys, fieldNames]) [] cwCred cwCred_created).1
  exact this

/-- `jwt_create_issue_parse`, `jwt_issue_then_parse`, `jwt_created`: a credential issued with the library's
signer, minimized or not, is accepted with the library's checker, all checks on. -/
example (min : Bool) : ∃ json c', parseCredential ivEnv.toPEnv ivOpts (ivText (ivNum min)) =
      .ok ⟨json, c', [], some ⟨ivText (ivNum min), LDP.jwtHeaders "EdDSA" "did:ex:a#k1", [], ""⟩, none⟩ ∧
    SameToSecond exJEnv cwContents c' ∧ ∀ k v, get? [("extra", Json.num 1)] k = some v → get? json k = some v :=
  jwt_create_issue_parse ivLib ivEnv.toPEnv ⟨by decide, by decide, by decide, by decide, by decide⟩ ivOpts cwContents
    cw_normal [("extra", .num 1)] (by simp [GoMap.WF, GoMap.keys]) (by simp [CustomNames, GoMap.keys, fieldNames]) rfl
    cwCred cwCred_created (by intro w hw; cases hw; exact ⟨rfl, exJEnv_sec _⟩) (by intro w hw; cases hw) LDP.ldCreator min
    .eddsa "EdDSA" "did:ex:a#k1" rfl (by decide)
    ⟨cwCred.json, cwContents, [], ivText (ivNum min), some (LDP.jwtHeaders "EdDSA" "did:ex:a#k1")⟩ (iv_created min) iv_b64
    (iv_reads _ (iv_num min).2.1) iv_nosig rfl (fun _ _ _ => rfl)
    (fun _ => ⟨pxChecker, rfl, fun i hi => by cases hi; exact ⟨_, _, iv_keyPair⟩⟩)

/-- `jwt_create_panics_iff`: without an issuer the call crashes; without a subject id it is an error. -/
example : createSignedJWT ivLib exJEnv (ofCreator LDP.ldCreator) true .eddsa "k"
    { cwCred with contents := { cwContents with issuer := none } } = .panic ∧
    createSignedJWT ivLib exJEnv (ofCreator LDP.ldCreator) true .eddsa "k"
    { cwCred with contents := { cwContents with issuer := none, subject := [⟨"", []⟩] } } = .err :=
  ⟨rfl, rfl⟩

/-- `unsecured_created`, `unsecured_issue_then_parse`, `unsecured_not_accepted`. -/
example (min : Bool) (r' : PCred Int) : (∃ json c, parseCredential ivEnv.toPEnv (unchecked ivEnv.toPEnv ivOpts)
      (ivTextU (ivNum min)) = .ok ⟨json, c, [], none, none⟩ ∧ SameToSecond exJEnv cwContents c) ∧
    parseCredential ivEnv.toPEnv ivOpts (ivTextU (ivNum min)) ≠ .ok r' := by
  constructor
  · obtain ⟨json, c, h1, h2, -⟩ := unsecured_issue_then_parse ivLib ivEnv.toPEnv ivOpts cwCred iv_agrees rfl
      (by intro w hw; cases hw; exact ⟨rfl, exJEnv_sec _⟩) (by intro w hw; cases hw) [] rfl min
      ⟨cwCred.json, cwContents, [], ivTextU (ivNum min), none⟩ (iv_createdU min) iv_b64 (iv_readsU _ (iv_num min).2.2)
    exact ⟨json, c, h1, h2⟩
  · exact unsecured_not_accepted ivLib ivEnv.toPEnv ivOpts rfl rfl cwCred iv_agrees rfl
      (by intro w hw; cases hw; exact ⟨rfl, exJEnv_sec _⟩) (by intro w hw; cases hw) rfl min
      ⟨cwCred.json, cwContents, [], ivTextU (ivNum min), none⟩ (iv_createdU min) iv_b64 (iv_readsU _ (iv_num min).2.2) r'

/-! ## Presentations -/

/-- The options for presentations. -/
def ivVpOpts : VpOpts ivEnv where
  checker := some vxChecker
  disabledProofCheck := false
  strict := true
  requireVC := false
  requireProof := false
  disableJSONLD := false
  checkHolder := false
  checkRelRes := true
  diVerifier := some DI.exSuites
  diPurpose := ""
  diDomain := ""
  diChallenge := ""

/-- The payload of the presentation's token. -/
def ivVpNum (min : Bool) : UInt8 := if min then 4 else 6

theorem iv_vpNum (min : Bool) : ivKind (ivMap (ivVpNum min)) = ivVpNum min ∧
    ivParse none (ivText (ivVpNum min)) = some (ivJws (ivVpNum min)) := by
  cases min with
  | false => exact ⟨iv_kind_map.2.2.2.2.1, iv_parsed.2.2.1⟩
  | true => exact ⟨iv_kind_map.2.2.2.2.2, iv_parsed.2.2.2⟩

theorem iv_vp_created (min : Bool) : createJWTVP ivLib (fun _ : PCred Int => none) (ofCreator LDP.ldCreator) .eddsa
    "did:ex:a#k1" cwPres ["did:ex:v"] min = some { cwPres with jwt := ivText (ivVpNum min), cwt := none } := by
  have h : ∃ c, newPresClaims (fun _ : PCred Int => none) cwPres ["did:ex:v"] min = some c ∧
      marshalPresClaims c = ivMap (ivVpNum min) := by
    cases min <;> exact ⟨_, rfl, rfl⟩
  obtain ⟨c, h1, h2⟩ := h
  unfold createJWTVP
  rw [h1]
  dsimp only
  rw [h2]
  unfold marshalJWS
  simp only [LDP.JwsAlg.name]
  rw [iv_signed _ (iv_vpNum min).1]
  dsimp only
  rw [iv_text]

/-- `jwt_pres_issue_then_parse_partial`, `jwt_presentation_created`. -/
example (min : Bool) : ∃ custom, (∀ k, get? custom k = get? cwPres.custom k) ∧
    parsePresentation ivEnv ivVpOpts (ivText (ivVpNum min)) = .ok ⟨[v1ContextURI], [], "urn:vp",
      ["VerifiablePresentation"], [], "did:ex:a", [], ivText (ivVpNum min), none, custom⟩ :=
  jwt_pres_issue_then_parse_partial ivLib ivEnv ivVpOpts (fun _ => none) (ofCreator LDP.ldCreator) .eddsa "did:ex:a#k1"
    cwPres _ cw_pres_clean (by simp [cwPres]) (by simp [cwPres]) ["did:ex:v"] min (.inl (by decide)) (iv_vp_created min)
    iv_b64 (fun a ha => by cases ha; exact iv_reads _ (iv_vpNum min).2)
    (fun a hs ha hh => by cases ha; cases hh; exact creator_headers_good _ _ _) (fun p data => iv_nosig p.alg data)
    (fun _ => ⟨vxChecker, rfl, fun a hs ha hh => by
      cases ha; cases hh
      refine ⟨"did:ex:a#k1", "did:ex:a", rfl, (Vfy.didPart_iff _ _).1 (by decide +kernel), fun data sig h => ?_⟩
      exact keyPair_accepts iv_keyPair (by decide) h⟩)
    [] (by intro cs h; cases h; rfl) (fun cs doc _ hd => by
      unfold validateVP vpSchemaOK
      rw [hd.context]
      rfl) (by intro h; cases h) rfl

/-- **C95**, where it fails: there is a presentation that is issued, and whose text crashes the reader. -/
theorem jwt_pres_not_restored : ∃ (vp : Pres Int) (c : CredClaims),
    newPresClaims (fun _ : PCred Int => none) vp [] false = some c ∧ vp.types ≠ [] ∧ vp.context ≠ [] ∧
    decodePresPayload (marshalPresClaims c) = .panic :=
  ⟨{ cwPres with holder := "", id := "" }, _, rfl, by simp [cwPres], by simp [cwPres],
    jwt_pres_without_claims_panics (fun _ => none) { cwPres with holder := "", id := "" } false _ rfl rfl rfl⟩

end VC.Iss
