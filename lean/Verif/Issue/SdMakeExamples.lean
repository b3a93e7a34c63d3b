import Verif.Issue.SdMake
import Verif.Issue.Examples
import Verif.SDJWT.FromVCExamples
/-!
# C109: a concrete credential made an SD-JWT, read and displayed
-/

namespace VC.Iss

open GoMap (get? keys del WF)
open VC.Vfy
open VC.Vfy.Spec
open VC.Cwt (cwContents)
open VC.Proof (Bytes exKey)
open VC.SDJWT (IEnv Ver Ent Codec DistinctDigests SolidObj fvE)
open Spec

/-- The contents: a subject with a name and an address. -/
def sxContents : Contents Int :=
  { cwContents with subject := [⟨"did:ex:s", [("name", .str "Ann"),
      ("addr", .obj [("city", .str "Ulm"), ("zip", .num 89073)])]⟩] }

/-- The credential. -/
def sxCred : Cred exCEnv.T :=
  match createCredential exCEnv sxContents [("extra", .num 1)] [] with
  | some vc => vc
  | none => ⟨[], sxContents, [], none, none⟩

theorem sx_created : createCredential exCEnv sxContents [("extra", .num 1)] [] = some sxCred := rfl

/-- Its subject. -/
def sxSubject : JObj := [("name", .str "Ann"), ("addr", .obj [("city", .str "Ulm"), ("zip", .num 89073)]),
  ("id", .str "did:ex:s")]

theorem sx_json : wireObj sxCred.json = [("@context", .arr [.str v1ContextURI]), ("id", .str "urn:1"),
    ("type", .str "VerifiableCredential"), ("credentialSubject", .obj sxSubject),
    ("issuer", .str "did:ex:a"), ("issuanceDate", .str "+1Z"), ("extra", .num 1)] := rfl

/-- The disclosure library, with the upper-casing of the credential library. -/
def sxSd : SDJWT.Env := { SDJWT.isEnv with upper := exCEnv.upper }

/-- The issuer. -/
def sxE : IEnv := { fvE with env := sxSd }

/-- What is made. -/
def sxMade (ver : Ver) : List Ent × JObj :=
  match newJWTCredClaims exJEnv sxCred false with
  | .ok c =>
    match SDJWT.makeSDJWT sxE ver ["addr.zip"] (makeClaims ver c.1 (wireObj c.2)) with
    | .ok r => r
    | .error _ => ([], [])
  | _ => ([], [])

/-- The headers. -/
def sxHeaders (ver : Ver) : JObj := mergeHeaders (sdHeaders ver "did:ex:a#k1") [("alg", .str "EdDSA")]

/-- The maps that are written. -/
def sxMap (n : UInt8) : JObj :=
  if n = 0 then sxHeaders .v2 else if n = 1 then sxHeaders .v5
  else if n = 2 then (sxMade .v2).2 else if n = 3 then (sxMade .v5).2 else []

/-- Which map it could be. -/
def sxKind (m : JObj) : UInt8 :=
  if (get? m "alg").isSome then (if (get? m "typ").isSome then 1 else 0)
  else if (get? m "vc").isSome then 2 else 3

open Classical in
/-- The library: each map has a one-byte encoding. -/
noncomputable def sxLib : JwsLib where
  b64 := fun b => String.ofList (b.map ivChar)
  enc := fun m => if m = sxMap (sxKind m) then some [sxKind m] else none
  utf8 := fun _ => [9]

theorem sx_b64 : B64 sxLib := ⟨iv_b64.alphabet, iv_b64.empty, iv_b64.nonempty⟩

/-- The signer. -/
def sxSign (data : Bytes) : Option Bytes := some (data ++ exKey)

def sxH : Ver → UInt8
  | .v2 => 0
  | .v5 => 1

def sxP : Ver → UInt8
  | .v2 => 2
  | .v5 => 3

/-- The tokens. -/
def sxTok (ver : Ver) : Tok := ⟨sxHeaders ver, (sxMade ver).2, ⟨sxHeaders ver, [sxP ver], [9], [9] ++ exKey⟩, [sxH ver]⟩

/-- Their texts. -/
def sxJwt (ver : Ver) : String :=
  String.ofList ([ivChar (sxH ver), '.', ivChar (sxP ver), '.', 'j'] ++ List.replicate 32 'h')

theorem sx_jwt (ver : Ver) : serialize sxLib false (sxTok ver) = sxJwt ver := by
  have : (serialize sxLib false (sxTok ver)).toList = (sxJwt ver).toList := by
    simp [serialize, sxLib, sxTok, sxJwt, exKey]
    exact ⟨rfl, rfl⟩
  exact String.toList_inj.1 this

theorem sx_kind (n : UInt8) (h : n = 0 ∨ n = 1 ∨ n = 2 ∨ n = 3) : sxKind (sxMap n) = n := by
  rcases h with rfl | rfl | rfl | rfl <;> decide +kernel

theorem sx_enc (n : UInt8) (h : n = 0 ∨ n = 1 ∨ n = 2 ∨ n = 3) : sxLib.enc (sxMap n) = some [n] := by
  simp only [sxLib]
  rw [sx_kind n h, if_pos rfl]

theorem sx_token (ver : Ver) :
    makeSdToken sxLib sxE exJEnv ver ["addr.zip"] "did:ex:a#k1" [("alg", .str "EdDSA")] sxSign sxCred =
      .ok (sxTok ver, (sxMade ver).1) := by
  have h1 : ∃ c, newJWTCredClaims exJEnv sxCred false = .ok c ∧
      SDJWT.makeSDJWT sxE ver ["addr.zip"] (makeClaims ver c.1 (wireObj c.2)) = .ok ((sxMade ver).1, (sxMade ver).2) := by
    refine ⟨_, rfl, ?_⟩
    cases ver <;> rfl
  obtain ⟨c, h1, h2⟩ := h1
  have h3 : newJoseSigned sxLib (sxMade ver).2 (sdHeaders ver "did:ex:a#k1") [("alg", .str "EdDSA")] sxSign =
      some (sxTok ver) := by
    refine (newJoseSigned_iff sxLib _ _ _ _ _).2 ⟨rfl, rfl, rfl, ?_, ?_, ?_, rfl, rfl⟩
    · cases ver <;> (intro h; cases h)
    · cases ver
      · exact sx_enc 0 (by simp)
      · exact sx_enc 1 (by simp)
    · cases ver
      · exact sx_enc 2 (by simp)
      · exact sx_enc 3 (by simp)
  unfold makeSdToken
  rw [h1]
  simp only [Out.bind]
  rw [h2]
  dsimp only
  rw [h3]

/-- The libraries of the reader. -/
def sxEnv : PEnv := { ivEnv.toPEnv with
  lib := ⟨fun _ s => if s = sxJwt .v2 then some (sxTok .v2).jws else if s = sxJwt .v5 then some (sxTok .v5).jws else none,
    fun b => b.head?.map sxMap, fun s => if s = "sd-jwt" then "SD-JWT" else s, fun _ => ""⟩
  payloadObj := fun b => b.head?.map sxMap
  sd := sxSd }

/-- Proofs are checked. -/
def sxOpts : ParseOpts sxEnv where
  mode := .combined
  allowedContexts := []
  allowedTypes := []
  ldTypesCheck := false
  disableValidation := false
  disabledProofCheck := false
  disableRelRes := false
  externalContext := []
  jwtChecker := some (fun _ iss data sig => iss == "did:ex:a" && sig == data ++ exKey)
  cwtChecker := none
  ldChecker := none
  diVerifier := none
  diPurpose := ""
  diDomain := ""
  diChallenge := ""

theorem sx_normal : Normal exCEnv sxContents where
  types := by decide
  ctx := .inl (by decide)
  custom := by intro j tl h; cases h
  issuer := by
    intro i hi
    simp only [sxContents, cwContents, Option.some.injEq] at hi
    subst hi
    exact ⟨by decide, by simp [NoKey, GoMap.keys]⟩
  subject := by simp [sxContents, NoKey, GoMap.keys]
  status := by simp [sxContents, cwContents]
  schemas := by simp [sxContents, cwContents]
  terms := by simp [sxContents, cwContents]
  refresh := by intro r hr; cases hr
  issued := by intro w hw; cases hw; rfl
  expired := by intro w hw; cases hw

theorem sx_issuable (ver : Ver) : Issuable sxEnv sxCred ver sxSubject where
  agrees := created_agrees exCEnv_lawful sxContents sx_normal [("extra", .num 1)]
    (by simp [GoMap.WF, GoMap.keys]) (by simp [CustomNames, GoMap.keys, fieldNames]) [] sxCred sx_created
  plain := rfl
  issued := by intro w hw; cases hw; exact ⟨rfl, exJEnv_sec _⟩
  expired := by intro w hw; cases hw
  subject := rfl
  json := by rw [sx_json]; simp [sxSubject, SDJWT.JWF, SDJWT.JWFObj, SDJWT.JWFArr, GoMap.keys]
  unreserved := by
    rw [sx_json]; simp [sxSubject, SDJWT.UnreservedObj, SDJWT.Unreserved, SDJWT.UnreservedArr]
  noCnf := by simp [sxSubject, GoMap.keys]
  names := by
    intro _
    rw [sx_json]
    exact ⟨by simp [GoMap.keys, registered], by simp [sxSubject, SDJWT.NamedKeysObj, SDJWT.NamedKeys]⟩

theorem sx_libs : SdLibs sxEnv sxE where
  same := rfl
  upper := rfl
  decode := SDJWT.isEnv_wf
  order := fun _ _ h => h
  shuffles := SDJWT.isIEnv_shuffles true false SDJWT.fvSalts
  alg := by refine ⟨by decide, by decide, by decide⟩

theorem sx_ds (ver : Ver) : ((sxMade ver).1.map Ent.result).all (fun s => s = "ds0" ∨ s = "ds1") = true := by
  cases ver <;> decide +kernel

theorem sx_readable (ver : Ver) : Readable sxLib sxEnv (sxTok ver) (sxMade ver).1 where
  b64 := sx_b64
  reads := by
    refine ⟨?_, ?_, rfl, rfl, rfl⟩
    · rw [sx_jwt]
      cases ver
      · show (if sxJwt .v2 = sxJwt .v2 then some (sxTok .v2).jws else
          if sxJwt .v2 = sxJwt .v5 then some (sxTok .v5).jws else none) = _
        exact if_pos rfl
      · show (if sxJwt .v5 = sxJwt .v2 then some (sxTok .v2).jws else
          if sxJwt .v5 = sxJwt .v5 then some (sxTok .v5).jws else none) = _
        rw [if_neg (by decide +kernel)]
        exact if_pos rfl
    · cases ver <;> rfl
  signed := by intro h; cases h
  headers := by
    rw [← JWT.headers_iff sxEnv.lib]
    cases ver <;> decide +kernel
  clean := by
    intro d hd
    have := List.all_eq_true.1 (sx_ds ver) d hd
    simp only [decide_eq_true_eq] at this
    rcases this with rfl | rfl <;> exact ⟨by decide, by unfold NoChar; decide, by unfold NoChar; decide⟩
  some := by cases ver <;> (intro h; cases h)
  text := by
    refine ⟨rfl, ?_⟩
    rw [sx_jwt]
    cases ver <;> decide +kernel
  codec := by
    cases ver
    · intro e he
      have : (sxMade .v2).1 = [⟨"ds1", [.str "s1", .str "city", .str "Ulm"]⟩, ⟨"ds0", [.str "s0", .str "name", .str "Ann"]⟩] := rfl
      rw [this] at he
      simp only [List.mem_cons, List.not_mem_nil, or_false] at he
      rcases he with rfl | rfl <;> rfl
    · intro e he
      have : (sxMade .v5).1 = [⟨"ds0", [.str "s0", .str "name", .str "Ann"]⟩, ⟨"ds1", [.str "s1", .str "city", .str "Ulm"]⟩] := rfl
      rw [this] at he
      simp only [List.mem_cons, List.not_mem_nil, or_false] at he
      rcases he with rfl | rfl <;> rfl
  distinct := by cases ver <;> (unfold DistinctDigests; decide +kernel)

theorem sx_accepts (ver : Ver) : Accepts sxOpts (sxTok ver) sxSign sxCred := by
  intro _
  refine ⟨_, rfl, ?_⟩
  intro i data sig hi hs
  cases hi
  cases hs
  simp

theorem sx_solid : SolidObj (wireObj sxCred.json) := by
  rw [sx_json]
  simp [sxSubject, SDJWT.SolidObj, SDJWT.Solid, SDJWT.SolidArr]

/-- `make_then_parse`, for both versions: all of the issuer's disclosures are there. -/
example (ver : Ver) : ∃ text json c D,
    makeSdText sxLib sxE exJEnv ver ["addr.zip"] "did:ex:a#k1" [("alg", .str "EdDSA")] sxSign sxCred = .ok text ∧
    parseCredential sxEnv sxOpts text =
      .ok ⟨json, c, [], some ⟨serialize sxLib false (sxTok ver), sxHeaders ver, D, ""⟩, none⟩ ∧
    (get? D "hds0").isSome ∧ get? json "extra" = some (.num 1) := by
  obtain ⟨text, json, c, D, h1, h2, -, h4, h5, -⟩ := make_then_parse sxOpts (sx_issuable ver) sx_libs (sx_token ver)
    (sx_readable ver) [] rfl rfl (fun _ _ _ => rfl) (sx_accepts ver)
  refine ⟨text, json, c, D, h1, h2, ?_, ?_⟩
  · obtain ⟨e, he⟩ := h5 "ds0" (by cases ver <;> decide +kernel)
    rw [show sxE.env.hash sxE.alg "ds0" = "hds0" from by decide +kernel] at he
    rw [he]; rfl
  · rw [h4 "extra" (by decide) (by decide) (by decide)]; rfl

/-- `make_parse_display_all`. -/
example (ver : Ver) : ∃ text pc m c,
    makeSdText sxLib sxE exJEnv ver ["addr.zip"] "did:ex:a#k1" [("alg", .str "EdDSA")] sxSign sxCred = .ok text ∧
    parseCredential sxEnv sxOpts text = .ok pc ∧ createDisplayMap sxEnv pc true [] = .ok m ∧
    DisplayOf sxEnv sxCred sxSubject m ∧
    createDisplay sxEnv pc true [] = .ok ⟨del m "proof", c, [], none, none⟩ ∧
    DisplayContents sxEnv sxContents m c :=
  make_parse_display_all sxOpts (sx_issuable ver) sx_libs (sx_token ver)
    (sx_readable ver) [] rfl rfl (fun _ _ _ => rfl) (sx_accepts ver) sx_solid

/-- `make_parse_display_none`: the id is shown, the name is not. -/
example (ver : Ver) : ∃ text pc m s,
    makeSdText sxLib sxE exJEnv ver ["addr.zip"] "did:ex:a#k1" [("alg", .str "EdDSA")] sxSign sxCred = .ok text ∧
    parseCredential sxEnv sxOpts text = .ok pc ∧ createDisplayMap sxEnv pc false [] = .ok m ∧
    get? m "credentialSubject" = some (.obj s) ∧ get? s "id" = some (.str "did:ex:s") ∧ get? s "name" = none := by
  obtain ⟨text, pc, m, c, s, h1, h2, h3, -, h5, h6, -⟩ := make_parse_display_none sxOpts (sx_issuable ver) sx_libs
    (sx_token ver) (sx_readable ver) [] rfl rfl (fun _ _ _ => rfl) (sx_accepts ver) sx_solid
  exact ⟨text, pc, m, s, h1, h2, h3, h5, (h6 "id" _ rfl trivial).1 (.inl rfl),
    (h6 "name" _ rfl trivial).2 (by decide) (by decide)⟩

/-- `make_sd_headers`, and `make_sd_panics_iff`: without an issuer the call crashes. -/
example : get? (sxTok .v5).headers "typ" = some (.str "vc+sd-jwt") ∧
    makeSdText sxLib sxE exJEnv .v2 [] "k" [] sxSign { sxCred with contents := { sxContents with issuer := none } } = .panic :=
  ⟨(make_sd_headers sxLib (sx_token .v5)).2.1 rfl,
   (make_sd_panics_iff sxLib sxE exJEnv .v2 [] "k" [] sxSign _).2 ⟨⟨_, _, rfl, by decide⟩, rfl⟩⟩

end VC.Iss
