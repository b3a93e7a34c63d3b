import Verif.Cwt.CheckProps
import Verif.Verifiable.PresentationExamples
/-!
# CWT credentials and presentations: concrete cases
-/

namespace VC.Cwt

open GoMap (get?)
open VC.Vfy
open VC.Vfy.Spec
open VC.Proof (Bytes CwtReq exKey exPrim exVdr vdrResolve defaultChecker)
open VC.SDJWT (JWF JWFObj JWFArr)
open Spec

/-- **C90** with the library's signer and checker: what the `ProofCreator` signs for an algorithm, the
`ProofChecker` accepts for a key id whose key it resolves to. -/
theorem library_signature_accepted {c : LDP.Creator} {k : Proof.Checker}
    {coseKey : String → Option (Proof.Jwk × Proof.KeyType)} {alg : Int} {kid issuer : String}
    {d : Proof.JwtDesc} {vm : Proof.VM} (hkid : kid ≠ "") (halg : alg ≠ 0)
    (hd : Proof.byCwtAlg k.cwt alg = some d) (hr : k.resolve kid issuer = .ok vm)
    (hk : ∃ kt, Proof.Allowed d.vms vm kt)
    (hkey : ∀ e ∈ c.jwt, e.desc.cwtAlg = alg → ∀ m s, e.sign m = some s → ∀ kt, Proof.Allowed d.vms vm kt →
      (∃ v ∈ k.verifiers, v.supports kt = true) ∧
      ∀ v ∈ k.verifiers, v.supports kt = true → v.verify s m ⟨kt, Proof.keyOf vm⟩ = true) :
    ∀ data sig, (fun (_ : String) a d => c.signCWT a d) kid alg data = some sig →
      cwtChecker k coseKey ⟨kid, "", alg⟩ issuer data sig = true := by
  intro data sig h
  unfold cwtChecker
  rw [LDP.cwt_sign_then_check (km := "") h hkid halg hd hr hk hkey]
  rfl

/-! ## A codec, a credential and a presentation -/

/-- The contents of a credential. -/
def cwContents : Contents Int :=
  { context := [v1ContextURI], customContext := [], id := "urn:1", types := ["VerifiableCredential"],
    subject := [⟨"did:ex:s", [("degree", .str "BSc")]⟩], issuer := some ⟨"did:ex:a", []⟩,
    issued := some ⟨(1 : Int), "+1Z"⟩, expired := none, status := [], schemas := [], evidence := .null,
    termsOfUse := [], refreshService := none, sdAlg := none, relRes := [] }

/-- Its JSON object. -/
def cwDoc : JObj :=
  match createCredential exCEnv cwContents [("extra", .num 1)] [] with
  | some vc => wireObj vc.json
  | none => []

/-- Its claims. -/
def cwClaims : List (Cv × Cv) :=
  [(.str "iss", .str "did:ex:a"), (.str "sub", .str "did:ex:s"), (.str "nbf", .int 1), (.str "iat", .int 1),
   (.str "vc", .imap (ofJsonM cwDoc))]

/-- A presentation. -/
def cwPres : Pres Int :=
  ⟨[v1ContextURI], [], "urn:vp", ["VerifiablePresentation"], [], "did:ex:a", [], "", none,
    [("extra", .num 1)]⟩

/-- The claims of the presentation, minimized or not. -/
def cwVpClaims (minimize : Bool) : List (Cv × Cv) :=
  match newPresClaims (fun _ => none) cwPres ["did:ex:v"] minimize with
  | some c => presEntries c
  | none => []

open Classical in
/-- Writing and reading four maps; the last one has integer keys and an empty issuer. -/
noncomputable def cwLib : Lib where
  sprint := cwShow
  ord := fun _ l => l
  encode := fun m => if m = cwClaims then some [8] else if m = cwVpClaims false then some [20]
    else if m = cwVpClaims true then some [21] else none
  decode := fun b => if b = [8] then some cwClaims else if b = [20] then some (cwVpClaims false)
    else if b = [21] then some (cwVpClaims true)
    else if b = [22] then some [(.int 1, .str "")] else if b = [23] then some [(.int 1, .str "did:ex:a")] else none
  encodeProtected := fun _ _ => some [67, 161, 1, 39]
  encodeMsg := fun m => some (if m.payload = [8] then "cwm" else if m.payload = [20] then "vpm" else "vpn")

/-- The bytes to sign for a payload. -/
def cwSigned (p : UInt8) : Bytes :=
  [132, 106, 83, 105, 103, 110, 97, 116, 117, 114, 101, 49, 67, 161, 1, 39, 64, 65, p]

/-- The signed message for a payload. -/
def cwMsg (p : UInt8) : Sign1 :=
  ⟨some (-8), none, "did:ex:a#k1", some [67, 161, 1, 39], [p], cwSigned p ++ exKey⟩

/-- The signer: the library's, with the key of `did:ex:a`. -/
def cwSign (_ : String) (a : Int) (d : Bytes) : Option Bytes := LDP.ldCreator.signCWT a d

/-- The libraries. -/
noncomputable def cwEnv : VEnv := { vxEnv with
  sprint := exCEnv.sprint
  parseCOSE := fun s => if s = "cwm" then some (cwMsg 8) else if s = "vpm" then some (cwMsg 20)
    else if s = "vpn" then some (cwMsg 21) else none
  cwtVC := vcClaim cwLib
  cwtMap := vpMap cwLib }

/-- Default options with the default checkers. -/
noncomputable def cwOpts : ParseOpts cwEnv.toPEnv where
  mode := .combined
  allowedContexts := []
  allowedTypes := []
  ldTypesCheck := false
  disableValidation := false
  disabledProofCheck := false
  disableRelRes := false
  externalContext := []
  jwtChecker := some (JWT.ofChecker pxChecker)
  cwtChecker := some (cwtChecker pxChecker (fun _ => none))
  ldChecker := some (ldChecker pxChecker)
  diVerifier := some DI.exSuites
  diPurpose := ""
  diDomain := ""
  diChallenge := ""

/-- The created credential. -/
def cwCred : Cred exCEnv.T :=
  match createCredential exCEnv cwContents [("extra", .num 1)] [] with
  | some vc => vc
  | none => ⟨[], cwContents, [], none, none⟩

theorem cwCred_created : createCredential exCEnv cwContents [("extra", .num 1)] [] = some cwCred := rfl

theorem cw_encode : cwLib.encode cwClaims = some [8] := if_pos rfl

theorem cw_created : createSignedCOSE cwLib exJEnv cwSign (-8) "did:ex:a#k1" cwCred =
    .ok ⟨cwCred.json, cwContents, [], ⟨"cwm", cwMsg 8⟩⟩ := by
  have h : newCWTCredClaims exJEnv cwCred = .ok ⟨"did:ex:a", "did:ex:s", none, some 1, some 1, cwDoc⟩ := rfl
  have hm : marshalCOSE cwLib cwSign cwClaims (-8) "did:ex:a#k1" = some ("cwm", cwMsg 8) := by
    rw [marshalCOSE_iff]
    exact ⟨[8], cwSigned 8, cwSigned 8 ++ exKey, cw_encode, rfl, rfl, rfl, rfl⟩
  unfold createSignedCOSE
  rw [h]
  have he : CwtClaims.entries ⟨"did:ex:a", "did:ex:s", none, some 1, some 1, cwDoc⟩ = cwClaims := rfl
  simp only [Out.bind, he, hm]
  rfl

theorem cw_decode : ∀ m, cwLib.encode m = some [8] → cwLib.decode [8] = some m := by
  intro m h
  unfold cwLib at h
  dsimp only at h
  split at h
  · rename_i he; rw [he]; rfl
  · split at h
    · cases h
    · split at h <;> cases h

theorem cw_normal : Normal exCEnv cwContents where
  types := by decide
  ctx := .inl (by decide)
  custom := by intro j tl h; cases h
  issuer := by
    intro i hi
    simp only [cwContents, Option.some.injEq] at hi
    subst hi
    exact ⟨by decide, by simp [NoKey, GoMap.keys]⟩
  subject := by simp [cwContents, NoKey, GoMap.keys]
  status := by simp [cwContents]
  schemas := by simp [cwContents]
  terms := by simp [cwContents]
  refresh := by intro r hr; cases hr
  issued := by intro w hw; cases hw; rfl
  expired := by intro w hw; cases hw

theorem cw_ne : cwCred.json ≠ [] := by intro h; cases h

theorem cw_wf : JWF (.obj (wireObj cwCred.json)) := by
  have : wireObj cwCred.json = [("@context", .arr [.str v1ContextURI]), ("id", .str "urn:1"),
    ("type", .str "VerifiableCredential"),
    ("credentialSubject", .obj [("degree", .str "BSc"), ("id", .str "did:ex:s")]),
    ("issuer", .str "did:ex:a"), ("issuanceDate", .str "+1Z"), ("extra", .num 1)] := rfl
  rw [this]
  simp [JWF, JWFObj, JWFArr, GoMap.keys]

theorem cw_accepted : ∀ data sig, cwSign "did:ex:a#k1" (-8) data = some sig →
    cwtChecker pxChecker (fun _ => none) ⟨"did:ex:a#k1", "", -8⟩ "did:ex:a" data sig = true :=
  library_signature_accepted (c := LDP.ldCreator) (d := Proof.eddsaDesc) (vm := LDP.ldVM) (by decide) (by decide)
    rfl rfl ⟨.ed25519, (LDP.ld_allowed _).2 rfl⟩ (by
      intro e he _ m s hs kt hk
      simp only [LDP.ldCreator, List.mem_singleton] at he
      subst he
      cases hs
      have := (LDP.ld_allowed kt).1 hk; subst this
      exact ⟨⟨Proof.ed25519Verifier exPrim, by simp [pxChecker, defaultChecker, Proof.defaultVerifiers], rfl⟩,
        fun v hv hs => LDP.ld_verifier v hv hs m⟩)

/-- `cose_issue_then_parse`, `cose_content_exact`, `cose_created`: a credential issued with the library's
signer is accepted with the library's checker, all checks on. -/
example : parseCredential cwEnv.toPEnv cwOpts "cwm" =
    .ok ⟨wireObj cwCred.json, withTimeStrings exCEnv cwContents, [], none, some ⟨"cwm", cwMsg 8⟩⟩ :=
  cose_issue_then_parse cwLib cwEnv.toPEnv
    ⟨by decide, by decide, by decide, by decide, by decide⟩ cwOpts cwContents cw_normal [("extra", .num 1)]
    (by simp [GoMap.WF, GoMap.keys]) (by simp [CustomNames, GoMap.keys, fieldNames]) rfl cwCred cwCred_created
    cwSign (-8) "did:ex:a#k1" ⟨cwCred.json, cwContents, [], ⟨"cwm", cwMsg 8⟩⟩ cw_created cw_ne cw_wf rfl
    cw_decode rfl (fun _ => rfl) rfl ⟨rfl, rfl⟩
    (fun _ => .inl ⟨rfl, rfl, _, .head _, rfl, rfl, fun _ => rfl⟩) (fun _ => rfl) rfl
    (fun _ => ⟨_, rfl, fun i hi => by
      cases hi; exact ⟨by decide, fun data sig _ h => cw_accepted data sig h⟩⟩)

/-- `cose_content_read`, `cwt_own_messages_refused`. -/
example : Fair cwLib.ord ∧ (∀ s, cwLib.sprint (.str s) = s) ∧
    Made cwLib cwSign (-8) "did:ex:a#k1" cwClaims ⟨"cwm", cwMsg 8⟩ ∧ cwEnv.parseCOSE "cwm" = some (cwMsg 8) :=
  ⟨fair_id, fun _ => rfl, made_of_marshal cwLib ((marshalCOSE_iff _ _ _ _ _ _ _).2
    ⟨[8], cwSigned 8, cwSigned 8 ++ exKey, cw_encode, rfl, rfl, rfl, rfl⟩), rfl⟩

/-- `cose_create_panics_iff`: without an issue date the call crashes; without a subject id it is an
error. -/
example : createSignedCOSE cwLib exJEnv cwSign (-8) "did:ex:a#k1"
    { cwCred with contents := { cwContents with issued := none } } = .panic ∧
    createSignedCOSE cwLib exJEnv cwSign (-8) "did:ex:a#k1"
    { cwCred with contents := { cwContents with issued := none, subject := [⟨"", []⟩] } } = .err :=
  ⟨rfl, rfl⟩

/-! ## Presentations -/

/-- The number of members of the `vp` claim. -/
def cwVpLen (m : List (Cv × Cv)) : Nat :=
  match strMember m "vp" with
  | some (.imap l) => l.length
  | _ => 0

theorem cw_encode_vp : cwLib.encode (cwVpClaims false) = some [20] := by
  have h : cwVpClaims false ≠ cwClaims := by
    intro h
    have : (cwVpClaims false).length = cwClaims.length := by rw [h]
    exact absurd this (by decide)
  unfold cwLib
  dsimp only
  rw [if_neg h, if_pos rfl]

theorem cw_encode_vp_min : cwLib.encode (cwVpClaims true) = some [21] := by
  have h : cwVpClaims true ≠ cwClaims := by
    intro h
    have : (cwVpClaims true).length = cwClaims.length := by rw [h]
    exact absurd this (by decide)
  have h' : cwVpClaims true ≠ cwVpClaims false := by
    intro h
    have : cwVpLen (cwVpClaims true) = cwVpLen (cwVpClaims false) := by rw [h]
    exact absurd this (by decide +kernel)
  unfold cwLib
  dsimp only
  rw [if_neg h, if_neg h', if_pos rfl]

/-- The options for presentations: no proof required. -/
noncomputable def cwVpOpts : VpOpts cwEnv where
  checker := some vxChecker
  disabledProofCheck := false
  strict := true
  requireVC := false
  requireProof := false
  disableJSONLD := false
  checkHolder := false
  checkRelRes := true
  diVerifier := some DI.exSuites
  diPurpose := ""
  diDomain := ""
  diChallenge := ""

/-- The converted payload of the presentation. -/
def cwVpMap (minimize : Bool) : JObj :=
  match toJsonM (convertToStringMap cwShow (fun _ l => l) (cwVpClaims minimize)) with
  | some m => m
  | none => []

/-- The envelopes. -/
def cwVp (minimize : Bool) : VpCwt :=
  if minimize then ⟨"vpn", cwMsg 21, cwVpMap true⟩ else ⟨"vpm", cwMsg 20, cwVpMap false⟩

theorem cw_vp_created (minimize : Bool) :
    createCWTVP cwLib (fun _ => none) cwSign (-8) "did:ex:a#k1" cwPres ["did:ex:v"] minimize =
      some { cwPres with cwt := some (cwVp minimize), jwt := "" } := by
  have hm : marshalCOSE cwLib cwSign (cwVpClaims false) (-8) "did:ex:a#k1" = some ("vpm", cwMsg 20) := by
    rw [marshalCOSE_iff]
    exact ⟨[20], cwSigned 20, cwSigned 20 ++ exKey, cw_encode_vp, rfl, rfl, rfl, rfl⟩
  have hm' : marshalCOSE cwLib cwSign (cwVpClaims true) (-8) "did:ex:a#k1" = some ("vpn", cwMsg 21) := by
    rw [marshalCOSE_iff]
    exact ⟨[21], cwSigned 21, cwSigned 21 ++ exKey, cw_encode_vp_min, rfl, rfl, rfl, rfl⟩
  unfold createCWTVP
  cases minimize with
  | false =>
    have h : ∃ c, newPresClaims (fun _ : PCred Int => none) cwPres ["did:ex:v"] false = some c ∧
      presEntries c = cwVpClaims false := ⟨_, rfl, rfl⟩
    obtain ⟨c, h1, h2⟩ := h
    rw [h1]; dsimp only
    rw [h2, hm]
    rfl
  | true =>
    have h : ∃ c, newPresClaims (fun _ : PCred Int => none) cwPres ["did:ex:v"] true = some c ∧
      presEntries c = cwVpClaims true := ⟨_, rfl, rfl⟩
    obtain ⟨c, h1, h2⟩ := h
    rw [h1]; dsimp only
    rw [h2, hm']
    rfl

theorem cw_pres_clean : CustomClean cwPres := by
  refine ⟨by simp [cwPres, GoMap.WF, GoMap.keys], ?_⟩
  intro k hk
  simp only [presMembers, List.mem_cons, List.not_mem_nil, or_false] at hk
  rcases hk with rfl | rfl | rfl | rfl | rfl | rfl <;> rfl

theorem cw_pres_wf : PresWF (fun _ : PCred Int => none) cwPres :=
  ⟨by simp [cwPres, JWFObj, JWF], by simp [cwPres], by simp [cwPres]⟩

theorem cw_decode_vp : ∀ m, cwLib.encode m = some [20] → cwLib.decode [20] = some m := by
  intro m h
  unfold cwLib at h
  dsimp only at h
  split at h
  · cases h
  · split at h
    · rename_i he; rw [he]; rfl
    · split at h <;> cases h

theorem cw_decode_vp_min : ∀ m, cwLib.encode m = some [21] → cwLib.decode [21] = some m := by
  intro m h
  unfold cwLib at h
  dsimp only at h
  split at h
  · cases h
  · split at h
    · cases h
    · split at h
      · rename_i he; rw [he]; rfl
      · cases h

/-- `cwt_pres_roundtrip_partial`, `cwt_pres_content_exact`, `cwt_presentation_created`. -/
example : ∃ custom, (∀ k, get? custom k = get? cwPres.custom k) ∧ parsePresentation cwEnv cwVpOpts "vpm" =
    .ok ⟨[v1ContextURI], [], "urn:vp", ["VerifiablePresentation"], [], "did:ex:a", [], "",
      some (cwVp false), custom⟩ :=
  cwt_pres_roundtrip_partial cwLib cwEnv cwVpOpts (fun _ => none) cwSign (-8) "did:ex:a#k1" cwPres _ cw_pres_clean
    (by simp [cwPres]) (by simp [cwPres]) ["did:ex:v"] (cw_vp_created false) (cwVp false) rfl cw_decode_vp
    (fun _ => rfl) rfl cw_pres_wf rfl rfl ⟨rfl, rfl⟩ [] (by intro cs h; cases h; rfl) rfl
    (by intro h; cases h) rfl

/-- `cwt_minimized_loses_holder`: the minimized presentation parses, without its holder. -/
example : ∃ r, parsePresentation cwEnv cwVpOpts "vpn" = .ok r ∧ cwPres.holder = "did:ex:a" ∧ r.holder = "" ∧
    r.id = "" := by
  have h : ∃ r, parsePresentation cwEnv cwVpOpts "vpn" = .ok r := ⟨_, rfl⟩
  obtain ⟨r, hr⟩ := h
  obtain ⟨h1, h2, -⟩ := cwt_minimized_loses_holder cwLib cwEnv cwVpOpts (fun _ => none) cwSign (-8) "did:ex:a#k1"
    cwPres _ cw_pres_clean (by simp [cwPres]) ["did:ex:v"] (cw_vp_created true) (cwVp true) rfl cw_decode_vp_min
    (fun _ => rfl) rfl cw_pres_wf rfl rfl ⟨rfl, rfl⟩ r hr
  exact ⟨r, hr, rfl, h1, h2⟩

/-- Creating a minimized presentation and parsing it does not give back the holder. -/
theorem cwt_minimized_not_restored : ∃ (lib : Lib) (env : VEnv) (o : VpOpts env) (u : PCred env.T → Option Json)
    (sign : String → Int → Bytes → Option Bytes) (alg : Int) (kid : String) (vp vp' r : Pres env.T) (w : VpCwt),
    createCWTVP lib u sign alg kid vp ["did:ex:v"] true = some vp' ∧
    vp'.cwt = some w ∧ env.cwtMap = vpMap lib ∧ env.parseCOSE w.raw = some w.message ∧
    parsePresentation env o w.raw = .ok r ∧ vp.holder ≠ "" ∧ r.holder ≠ vp.holder :=
  ⟨cwLib, cwEnv, cwVpOpts, fun _ => none, cwSign, -8, "did:ex:a#k1", cwPres, _, _, cwVp true,
    cw_vp_created true, rfl, rfl, rfl, rfl, by decide, by decide⟩

/-! ## Package cwt -/

/-- Messages with a COSE_Key header. -/
def cwKeyed (p : UInt8) : Sign1 := { cwMsg p with coseKey := some "k" }

/-- The parser for these messages. -/
def cwParse (s : String) : Option Sign1 :=
  if s = "good" then some (cwKeyed 23) else if s = "empty" then some (cwKeyed 22)
  else if s = "none" then some (cwMsg 23) else none

/-- `cwt_parse_check_iff`, `cwt_accepted_key_of_issuer_partial`: the message whose issuer owns the key is
accepted. -/
example : parseAndCheckProof cwLib cwParse (cwtChecker pxChecker (fun _ => none)) true "good" =
    some (cwKeyed 23, [23]) ∧ IssuerClaim cwLib [23] "did:ex:a" ∧ pxChecker.resolve = vdrResolve exVdr ∧
    parseAndCheckProof cwLib cwParse (cwtChecker pxChecker (fun _ => none)) true "none" = none :=
  ⟨rfl, ⟨_, rfl, by simp, [], [], rfl, by simp⟩, rfl, rfl⟩

/-- `cwt_empty_issuer_accepted`. -/
theorem cwt_empty_issuer_witness : ∃ (lib : Lib) (parse : String → Option Sign1) (data : String) (m : Sign1)
    (payload : Bytes), IssuerClaim lib payload "" ∧
    parseAndCheckProof lib parse (cwtChecker pxChecker (fun _ => none)) true data = some (m, payload) :=
  ⟨cwLib, cwParse, "empty", cwKeyed 22, [22], ⟨_, rfl, by simp, [], [], rfl, by simp⟩, rfl⟩

end VC.Cwt
