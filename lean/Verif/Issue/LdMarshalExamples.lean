import Verif.Issue.LdPres
import Verif.Issue.MarshalOther
import Verif.Verifiable.PresentationExamples
import Verif.LDP.Examples
/-!
# Writing and reading credentials and presentations: concrete cases (C105 - C107)
-/

namespace VC.Iss

open GoMap VC.Vfy VC.Vfy.Spec VC.LDP VC.Iss.Spec

/-! ## C105 -/

theorem lm_px_brace : NoBrace pxEnv := by
  intro s l h
  have h1 : s ≠ "h" := by rintro rfl; cases h
  have h2 : s ≠ "p" := by rintro rfl; cases h
  simp [pxEnv, h1, h2]

theorem lm_envelope_free {o : JObj} {ty : List Json} (h : get? o "type" = some (.arr ty))
    (hn : Json.str "EnvelopedVerifiableCredential" ∉ ty) : ¬ IsEnvelope o := by
  rintro (h' | ⟨l, h', hm⟩)
  · rw [h] at h'; cases h'
  · rw [h] at h'; cases h'; exact hn hm

set_option maxHeartbeats 4000000 in
/-- `marshal_parse_object`: the linked-data credential. -/
example : ∃ c s, parseCredential pxEnv pxOpts "{ld}" = .ok c ∧ c.proofs.length = 1 ∧
    marshalJSONCred (fun _ => "{ld}") id (fun _ => none) c = some s ∧ parseCredential pxEnv pxOpts s = .ok c := by
  have h : ∃ c, parseCredential pxEnv pxOpts "{ld}" = .ok c ∧ c.jwt = none ∧ c.cwt = none ∧
      pxDecode "{ld}" = some c.json ∧ c.proofs = [[("type", .str "Ed25519Signature2018")]] ∧
      c.json = pxDoc "did:ex:a" [("proof", .obj [("type", .str "Ed25519Signature2018")])] :=
    ⟨_, rfl, rfl, rfl, rfl, rfl, rfl⟩
  obtain ⟨c, h, hj, hw, hd, hp, hc⟩ := h
  obtain ⟨s, s1, s2⟩ := marshal_parse_object pxEnv pxOpts rfl _ c h hj hw (by
      intro _
      rw [hp, hc]; rfl) (fun _ => "{ld}") id (fun _ => none) lm_px_brace ⟨hd, _, rfl⟩
    (by intro s hs; rw [hc] at hs; cases hs) (lm_envelope_free (by rw [hc]; rfl) (by simp))
  exact ⟨c, s, h, by rw [hp]; rfl, s1, s2⟩

/-- **C105**, why a `jwt` member is excluded: a linked-data credential of `did:ex:victim` with a member
`jwt` is read as that JWT, of `did:ex:a`. -/
def lmShadowed : JObj := pxDoc "did:ex:victim" [("jwt", .str "h.p.s"),
  ("proof", .obj [("type", .str "Ed25519Signature2018")])]

/-- The libraries with the text of `lmShadowed`. -/
def lmShadowEnv : PEnv := { pxEnv with decodeObj := fun s => if s = "{x}" then some lmShadowed else pxDecode s }

/-- The options for it. -/
def lmShadowOpts : ParseOpts lmShadowEnv where
  mode := .combined
  allowedContexts := []
  allowedTypes := []
  ldTypesCheck := false
  disableValidation := false
  disabledProofCheck := false
  disableRelRes := false
  externalContext := []
  jwtChecker := some (JWT.ofChecker pxChecker)
  cwtChecker := some (cwtChecker pxChecker (fun _ => none))
  ldChecker := some (ldChecker pxChecker)
  diVerifier := some DI.exSuites
  diPurpose := ""
  diDomain := ""
  diChallenge := ""

set_option maxHeartbeats 4000000 in
/-- The member `jwt` wins over the credential around it. -/
theorem jwt_member_wins : ∃ c i, lmShadowEnv.decodeObj "{x}" = some lmShadowed ∧
    get? lmShadowed "issuer" = some (.str "did:ex:victim") ∧
    parseCredential lmShadowEnv lmShadowOpts "{x}" = .ok c ∧ c.contents.issuer = some i ∧ i.id = "did:ex:a" :=
  ⟨_, _, rfl, rfl, rfl, rfl, rfl⟩

/-- A writer: strings in quotes, an object by its `id`. -/
def lmEnc : Json → String
  | .str s => "\"" ++ s ++ "\""
  | .obj o => "{" ++ ((JObj.at o "id").asStr?).getD ""
  | _ => ""

/-- Its reader. -/
def lmDecode (s : String) : Option JObj :=
  match s.toList with
  | '{' :: l => some [("id", .str (String.ofList l)), ("type", .arr [.str "EnvelopedVerifiableCredential"]),
      ("@context", .arr [.str v2ContextURI])]
  | _ => none

/-- The libraries with that reader, and a JWT without selective disclosure. -/
def lmTextEnv : PEnv := { pxEnv with
  decodeObj := lmDecode
  payloadObj := fun b => if b = [9] then
    some [("iss", .str "did:ex:a"), ("vc", .obj (pxDoc "did:ex:a" []))] else none }

/-- The options for it. -/
def lmTextOpts : ParseOpts lmTextEnv where
  mode := .combined
  allowedContexts := []
  allowedTypes := []
  ldTypesCheck := false
  disableValidation := false
  disabledProofCheck := false
  disableRelRes := false
  externalContext := []
  jwtChecker := some (JWT.ofChecker pxChecker)
  cwtChecker := some (cwtChecker pxChecker (fun _ => none))
  ldChecker := some (ldChecker pxChecker)
  diVerifier := some DI.exSuites
  diPurpose := ""
  diDomain := ""
  diChallenge := ""

theorem lm_envelope (url : String) : lmTextEnv.decodeObj (lmEnc (envelopeJSON url)) = some [("id", .str url),
    ("type", .arr [.str "EnvelopedVerifiableCredential"]), ("@context", .arr [.str v2ContextURI])] := by
  have h : (lmEnc (envelopeJSON url)).toList = '{' :: url.toList := by
    show ("{" ++ url).toList = _
    rw [String.toList_append]; rfl
  show lmDecode _ = _
  unfold lmDecode
  rw [h]
  simp [String.ofList_toList]

set_option maxHeartbeats 4000000 in
/-- `marshal_parse_jwt`. -/
example : ∃ c s, parseCredential lmTextEnv lmTextOpts "h.p.s" = .ok c ∧ c.jwt.isSome = true ∧
    marshalJSONCred lmEnc id (fun _ => none) c = some s ∧ parseCredential lmTextEnv lmTextOpts s = .ok c := by
  have h : ∃ c e, parseCredential lmTextEnv lmTextOpts "h.p.s" = .ok c ∧ c.jwt = some e ∧ e.jwt = "h.p.s" ∧
      c.contents.sdAlg = none := ⟨_, _, rfl, rfl, rfl, rfl⟩
  obtain ⟨c, e, h, hj, he, hs⟩ := h
  obtain ⟨s, s1, s2⟩ := marshal_parse_jwt lmTextEnv lmTextOpts rfl _ c h e hj hs lmEnc id (fun _ => none)
    (by rw [he]; exact ⟨rfl, rfl⟩) (by rw [he]; rfl) (by rw [he]; rfl) lm_envelope
  exact ⟨c, s, h, by rw [hj]; rfl, s1, s2⟩

set_option maxHeartbeats 4000000 in
/-- `marshal_parse_cwt`. -/
example : ∃ c s, parseCredential lmTextEnv lmTextOpts "cwt" = .ok c ∧ c.cwt.isSome = true ∧
    marshalJSONCred lmEnc (fun _ => "6364") (fun _ => none) c = some s ∧
    parseCredential lmTextEnv lmTextOpts s = .ok c := by
  have h : ∃ c e, parseCredential lmTextEnv lmTextOpts "cwt" = .ok c ∧ c.cwt = some e ∧ e.raw = "cwt" :=
    ⟨_, _, rfl, rfl, rfl⟩
  obtain ⟨c, e, h, hw, he⟩ := h
  obtain ⟨s, s1, s2⟩ := marshal_parse_cwt lmTextEnv lmTextOpts rfl _ c h e hw lmEnc (fun _ => "6364") (fun _ => none)
    ⟨rfl, rfl⟩ (by rw [he]; rfl) rfl ⟨by unfold NoChar; decide, by unfold NoChar; decide⟩ ⟨rfl, rfl⟩ lm_envelope
  exact ⟨c, s, h, by rw [hw]; rfl, s1, s2⟩

set_option maxHeartbeats 4000000 in
/-- `marshal_cwt_bytes`. -/
example : ∃ c raw, parseCredential lmTextEnv lmTextOpts "6364" = .ok c ∧ marshalCWT c = some raw ∧
    marshalCWTHex (fun _ => "6364") c = some "6364" ∧ parseCredential lmTextEnv lmTextOpts raw = .ok c := by
  have h : ∃ c e, parseCredential lmTextEnv lmTextOpts "6364" = .ok c ∧ c.cwt = some e ∧ e.raw = "cwt" :=
    ⟨_, _, rfl, rfl, rfl⟩
  obtain ⟨c, e, h, hw, he⟩ := h
  have hc : ∀ raw m, lmTextEnv.parseCOSE raw = some m → raw = "cwt" := by
    intro raw m hm
    by_cases hr : raw = "cwt"
    · exact hr
    · simp [lmTextEnv, pxEnv, hr] at hm
  obtain ⟨raw, s1, s2⟩ := marshal_cwt_bytes lmTextEnv lmTextOpts rfl _ c h (by rw [hw]; rfl) (x := 'c')
    (fun raw m hm => by rw [hc raw m hm]; exact ⟨_, rfl⟩)
    (by
      intro s l h
      have h1 : s ≠ "h" := by rintro rfl; cases h
      have h2 : s ≠ "p" := by rintro rfl; cases h
      simp [lmTextEnv, pxEnv, h1, h2])
    (by decide) (by decide) (by decide) (fun raw m hm => by rw [hc raw m hm]; rfl)
  exact ⟨c, raw, h, s1, (marshal_cwt_hex _ _ _).2 ⟨e, hw, rfl⟩, s2⟩

/-! ## C106: the two linked-data libraries joined -/

/-- A credential object of `did:ex:a`. -/
def lmDoc : JObj := pxDoc "did:ex:a" [("id", .str "did:ex:b"), ("claim", .str "x")]

/-- Its contents. -/
def lmContents : Contents Int := (parseContents exCEnv (ofWire lmDoc) false).getD
  ⟨[], [], "", [], [], none, none, none, [], [], .null, [], none, none, []⟩

/-- The credential. -/
def lmCred : PCred Int := ⟨lmDoc, lmContents, [], none, none⟩

/-- With one proof. -/
def lmCred1 : PCred Int := (addToCred ldEnv ldCreator (ldCtx .proofValue) lmCred).1

/-- With two. -/
def lmCred2 : PCred Int := (addToCred ldEnv ldCreator (ldCtx .jws) lmCred1).1

/-- With a Data Integrity proof. -/
def lmCredDI : PCred Int := (addDIToCred DI.exE DI.exSuites (5 : Int) ldDI lmCred).getD lmCred

/-- A presentation. -/
def lmPres : Pres Int :=
  ⟨["https://www.w3.org/2018/credentials/v1"], [], "did:ex:b", ["VerifiablePresentation"], [], "did:ex:a", [], "", none,
    [("claim", .str "x")]⟩

/-- With one proof. -/
def lmPres1 : Pres Int := (addToPres ldEnv (universalForm id fun _ => none) ldCreator (ldCtx .jws) lmPres).getD lmPres

/-- With two. -/
def lmPres2 : Pres Int :=
  (addToPres ldEnv (universalForm id fun _ => none) ldCreator (ldCtx .proofValue) lmPres1).getD lmPres

/-- With a Data Integrity proof. -/
def lmPresDI : Pres Int :=
  (addDIToPres (universalForm id fun _ => none) DI.exE DI.exSuites (5 : Int) ldDI lmPres).getD lmPres

/-- The texts. -/
def lmLdDecode (s : String) : Option JObj :=
  if s = "{0}" then some (toRawJSON lmCred)
  else if s = "{1}" then some (toRawJSON lmCred1)
  else if s = "{2}" then some (toRawJSON lmCred2)
  else if s = "{di}" then some (toRawJSON lmCredDI)
  else if s = "{p2}" then rawPres (universalForm id fun _ => none) lmPres2
  else if s = "{pdi}" then rawPres (universalForm id fun _ => none) lmPresDI
  else none

/-- The parser's libraries, with `ldEnv` for linked-data proofs. -/
def lmEnv : VEnv := { vxEnv with
  sprint := exCEnv.sprint
  decodeObj := lmLdDecode
  ldProofs := fun doc => (ldEnv.readProofs doc).map fun l => l.map fun p =>
    ⟨ldEnc p, ⟨p.type, ldEnv.publicKeyID p, p.nonce⟩⟩
  verifyData := fun doc q => (ldDec (.obj q.raw)).bind fun p =>
    ldEnv.verifyData (ldChk.canon p.type false) (ldChk.digest p.type) doc p
  verifyValue := fun q => (ldDec (.obj q.raw)).bind fun p => LDP.verifyValue ldEnv p }

/-- Options with every check on. -/
def lmOpts : ParseOpts lmEnv.toPEnv where
  mode := .combined
  allowedContexts := []
  allowedTypes := []
  ldTypesCheck := false
  disableValidation := false
  disabledProofCheck := false
  disableRelRes := false
  externalContext := []
  jwtChecker := none
  cwtChecker := none
  ldChecker := some fun p i msg sig => ldChk.check p i msg sig
  diVerifier := some DI.exSuites
  diPurpose := ""
  diDomain := ""
  diChallenge := ""

theorem lm_data (doc : JObj) (q : LdPrf) : lmEnv.verifyData doc q = (ldDec (.obj q.raw)).bind fun p =>
    ldEnv.verifyData (ldChk.canon p.type false) (ldChk.digest p.type) doc p := rfl

theorem lm_value (q : LdPrf) : lmEnv.verifyValue q =
    (ldDec (.obj q.raw)).bind fun p => LDP.verifyValue ldEnv p := rfl

/-- The parser's view of a proof. -/
def lmPrf (p : LDP.Prf Nat) : LdPrf := ⟨ldEnc p, ⟨p.type, ldEnv.publicKeyID p, p.nonce⟩⟩

theorem lm_same (p : LDP.Prf Nat) : SamePrf lmEnv.toPEnv ldEnv ldChk false p (lmPrf p) := by
  refine ⟨rfl, fun doc => ?_, fun h => ?_, fun h => ?_, fun n h => ?_⟩
  · rw [lm_data, lmPrf, ldDec_enc]; rfl
  all_goals
    rw [lm_value, lmPrf, ldDec_enc]
    simp only [Option.bind_some, LDP.verifyValue, h]

theorem lm_same_all (ps : List (LDP.Prf Nat)) :
    List.Forall₂ (SamePrf lmEnv.toPEnv ldEnv ldChk false) ps (ps.map lmPrf) := by
  induction ps with
  | nil => exact .nil
  | cons p ps ih => exact .cons (lm_same p) ih

theorem lm_read (doc : JObj) (ps : List (LDP.Prf Nat)) (h : ldEnv.readProofs doc = some ps) :
    lmEnv.ldProofs doc = some (ps.map lmPrf) := by
  have e : lmEnv.ldProofs doc = (ldEnv.readProofs doc).map fun l => l.map lmPrf := rfl
  rw [e, h]; rfl

theorem lm_samelib : SameLib lmEnv.toPEnv lmOpts ldEnv ldChk false :=
  ⟨⟨_, rfl, fun _ _ _ _ => rfl⟩, fun doc ps h => ⟨_, lm_read doc ps h, lm_same_all ps⟩⟩

theorem lm_writes : WritesType ldEnv := by
  intro doc p doc' l hl h o ho
  cases h
  rw [get?_set_self, ldEntries_of hl] at ho
  have ho := Option.some.inj ho
  simp only [Json.arr.injEq, List.append_cancel_left_eq, List.cons.injEq, Json.obj.injEq, and_true] at ho
  rw [← ho]
  rfl

theorem lm_brace : NoBrace lmEnv.toPEnv := by
  intro s l h
  have h1 : s ≠ "h" := by rintro rfl; cases h
  have h2 : s ≠ "p" := by rintro rfl; cases h
  simp [lmEnv, vxEnv, pxEnv, h1, h2]

theorem lm_contents : parseContents lmEnv.toCEnv (ofWire lmCred.json) false = some lmCred.contents := rfl

theorem lm_add1 : addToCred ldEnv ldCreator (ldCtx .proofValue) lmCred = (lmCred1, true) := rfl
theorem lm_add2 : addToCred ldEnv ldCreator (ldCtx .jws) lmCred1 = (lmCred2, true) := rfl

theorem lm_valid (vc : PCred Int) (hc : vc.contents = lmContents) (r : PCred lmEnv.T) (h : Written r vc) :
    Valid lmEnv.toPEnv lmOpts r := by
  refine .inl ⟨rfl, rfl, _, .head _, ?_, rfl, fun h => (by cases h)⟩
  rw [h.contents, hc]
  rfl

/-- A JWT credential with the contents of `lmCred`. -/
def lmJwt : PCred Int := { lmCred with jwt := some ⟨"h.p.s", [], [], ""⟩ }

/-- `marshal_ld_loses_envelope`: its JSON-LD form is refused, and accepted without proof check. -/
example : (∀ r, parseCredential lmEnv.toPEnv lmOpts (marshalLD (fun _ => "{0}") lmJwt) ≠ .ok r) ∧
    ∃ r, parseCredential lmEnv.toPEnv { lmOpts with disabledProofCheck := true } (marshalLD (fun _ => "{0}") lmJwt) =
      .ok r ∧ r.jwt = none ∧ r.contents = lmJwt.contents := by
  constructor
  · intro r h
    have := (marshal_ld_loses_envelope lmEnv.toPEnv lmOpts rfl lmJwt lm_contents (fun _ => rfl) (fun _ => "{0}") lm_brace
      ⟨rfl, _, rfl⟩ (by intro s hs; cases hs) (lm_envelope_free rfl (by simp)) r).1 h
    exact (this.2.2.1 rfl).1 rfl
  · refine ⟨_, (marshal_ld_loses_envelope lmEnv.toPEnv { lmOpts with disabledProofCheck := true } rfl lmJwt lm_contents
      (fun _ => rfl) (fun _ => "{0}") lm_brace
      ⟨rfl, _, rfl⟩ (by intro s hs; cases hs) (lm_envelope_free rfl (by simp)) _).2
      ⟨rfl, fun _ => ?_, fun h => (by cases h), fun _ => rfl⟩, rfl, rfl⟩
    exact .inl ⟨rfl, rfl, _, .head _, rfl, rfl, fun h => (by cases h)⟩

set_option maxHeartbeats 4000000 in
/-- `ld_add_then_parse`: a second proof. -/
example : ∃ s r, marshalJSONCred (fun _ => "{2}") id (fun _ => none) lmCred2 = some s ∧
    parseCredential lmEnv.toPEnv lmOpts s = .ok r ∧ Written r lmCred2 ∧ r.proofs.length = 2 := by
  have hver := credential_add_then_verify (drop := false) ldEnv ldLib (vc := lmCred) .absent lm_add1
    (ld_accepting _ _ _ _ (.inr rfl)) (.inl rfl)
  obtain ⟨s, r, p, s1, s2, s3, _⟩ := ld_add_then_parse (env := lmEnv.toPEnv) (o := lmOpts) rfl ldLib lm_writes lm_samelib
    (vc := lmCred1) (vc' := lmCred2) rfl rfl
    (credential_adds_one ldEnv ldLib (vc := lmCred) .absent lm_add1).choose_spec.2.1 rfl lm_add2 (i := ⟨"did:ex:a", []⟩) rfl
    (ld_accepting _ _ _ _ (.inr rfl)) (.inr hver) (by decide)
    (by rintro ⟨p, l, e, h⟩; cases e; exact absurd (Json.str.inj (Option.some.inj h)) (by decide))
    (fun _ => "{2}") id (fun _ => none) lm_brace ⟨rfl, _, rfl⟩
    (by intro s hs; cases hs) (lm_envelope_free rfl (by simp))
    (fun _ => lm_valid lmCred2 rfl) (fun _ => rfl)
  exact ⟨s, r, s1, s2, s3, by rw [s3.proofs]; rfl⟩

theorem lm_reg : ∀ n, DI.SameFamily n ldDI.suite → (get? DI.exSuites n).isSome := by
  intro n hn
  rcases hn with ⟨hn, _⟩ | ⟨_, hn⟩
  · rcases hn with rfl | rfl <;> rfl
  · exact absurd hn (by decide)

theorem lm_key (r : String → Option DI.DidDoc) (v : DI.VM) (pu : String)
    (hpu : (ldDI.purpose ≠ "" ∧ pu = ldDI.purpose) ∨ (ldDI.purpose = "" ∧ pu = "assertionMethod"))
    (hr : DI.exE.resolver = some r) (hv : DI.Spec.Resolves r pu ldDI.key v) :
    v.id = ldDI.key ∧ DI.SignsFor DI.exE ldDI.suite v := by
  cases hr
  have hv' := (DI.lookupVM_iff _ _ _ _).2 hv
  rcases hpu with ⟨h0, _⟩ | ⟨_, hp⟩
  · exact absurd rfl h0
  · subst hp
    have hl : DI.lookupVM DI.exResolve "assertionMethod" "did:a#k" = some ⟨"did:a#k", some ⟨"P-256", [7]⟩, []⟩ := rfl
    rw [show ldDI.key = "did:a#k" from rfl, hl] at hv'
    cases hv'
    refine ⟨rfl, ?_⟩
    intro pk ha msg sig hk hs
    have hk := (DI.ecdsaKey_iff DI.exE "ecdsa-rdfc-2019" (Or.inr rfl) _ _ _).2 hk
    cases hk
    have hs : DI.exSign (some ⟨"P-256", [7]⟩) msg = some sig := hs
    cases hs
    show ((7 :: msg) == _) = true
    exact beq_self_eq_true _

theorem lm_fresh : DI.NotExpired DI.exE (ldDI.expires.getD DI.exE.zeroT) :=
  Or.inr ⟨⟨by decide, (5 : Int), rfl, rfl, rfl⟩, by intro t' ht; cases ht; rfl⟩

set_option maxHeartbeats 4000000 in
/-- `di_add_then_parse_partial`. -/
example : ∃ s r, marshalJSONCred (fun _ => "{di}") id (fun _ => none) lmCredDI = some s ∧
    parseCredential lmEnv.toPEnv lmOpts s = .ok r ∧ Written r lmCredDI ∧ r.proofs.length = 1 := by
  have h : addDIToCred DI.exE DI.exSuites (5 : Int) ldDI lmCred = some lmCredDI := rfl
  obtain ⟨s, r, p, s1, s2, s3, _⟩ := di_add_then_parse_partial (env := lmEnv.toPEnv) (o := lmOpts) rfl
    (suites := DI.exSuites) (vs := DI.exSuites) DI.exSuites_std DI.exSuites_std rfl DI.exE_mb (now := (5 : Int))
    (c := ldDI) (vc := lmCred) (vc' := lmCredDI) lm_reg lm_key ⟨by decide, (5 : Int), rfl, rfl, rfl⟩ lm_fresh (by decide)
    rfl rfl h rfl rfl rfl rfl rfl rfl lm_contents (i := ⟨"did:ex:a", []⟩) rfl
    (fun _ => "{di}") id (fun _ => none) lm_brace ⟨rfl, _, rfl⟩
    (by intro s hs; cases hs) (lm_envelope_free rfl (by simp))
    (fun _ => lm_valid lmCredDI rfl) (fun _ => rfl)
  exact ⟨s, r, s1, s2, s3, by rw [s3.proofs]; rfl⟩

/-! ## C107 -/

/-- Options with every check on. -/
def lmVpOpts : VpOpts lmEnv where
  checker := some ⟨JWT.ofChecker pxChecker, cwtChecker pxChecker (fun _ => none),
    fun p i msg sig => ldChk.check p i msg sig⟩
  disabledProofCheck := false
  strict := true
  requireVC := false
  requireProof := true
  disableJSONLD := false
  checkHolder := true
  checkRelRes := true
  diVerifier := some DI.exSuites
  diPurpose := ""
  diDomain := ""
  diChallenge := ""

theorem lm_samelib_pres : SameLibPres lmEnv lmVpOpts ldEnv ldChk false :=
  ⟨⟨_, rfl, fun _ _ _ _ => rfl⟩, fun doc ps h => ⟨_, lm_read doc ps h, lm_same_all ps⟩⟩

theorem lm_clean (ps : List JObj) : CustomClean { lmPres with proofs := ps } := by
  constructor
  · simp [WF, keys, lmPres]
  · intro k hk
    simp only [presMembers, List.mem_cons, List.not_mem_nil, or_false] at hk
    rcases hk with rfl | rfl | rfl | rfl | rfl | rfl <;> rfl

theorem lm_pres1 : addToPres ldEnv (universalForm id fun _ => none) ldCreator (ldCtx .jws) lmPres = some lmPres1 := rfl
theorem lm_pres2 : addToPres ldEnv (universalForm id fun _ => none) ldCreator (ldCtx .proofValue) lmPres1 =
    some lmPres2 := rfl

theorem lm_rule (ps : List JObj) (h : String) : HolderRule lmEnv ps [] h := by
  intro _ p _ c hc
  cases hc

set_option maxHeartbeats 4000000 in
/-- `ld_add_then_parse_pres`: a second proof. -/
example : ∃ s r, marshalPres (fun _ => "{p2}") id (universalForm id fun _ => none) lmPres2 = some s ∧
    parsePresentation lmEnv lmVpOpts s = .ok r ∧ SamePres SameCred r lmPres2 ∧ r.proofs.length = 2 := by
  have h0 : ∃ raw, rawPres (universalForm id fun _ => none) lmPres = some raw := ⟨_, rfl⟩
  have h1 : ∃ raw, rawPres (universalForm id fun _ => none) lmPres1 = some raw := ⟨_, rfl⟩
  obtain ⟨raw0, h0⟩ := h0
  obtain ⟨raw1, h1⟩ := h1
  have hver := presentation_add_then_verify (drop := false) (issuer := none) ldEnv ldLib (lm_clean []) lm_pres1 h0 h1
    (ld_accepting _ _ _ _ (.inl rfl)) (.inl rfl)
  obtain ⟨s, r, p, s1, s2, s3, _⟩ := ld_add_then_parse_pres (env := lmEnv) (o := lmVpOpts) ldLib lm_writes lm_samelib_pres
    (vp := lmPres1) (vp' := lmPres2) rfl rfl (lm_clean _) rfl rfl (by decide) (by decide) (by decide)
    (fun _ => "{p2}") id (fun _ => none) lm_pres2 h1 (ld_accepting _ _ _ _ (.inl rfl)) (.inr hver) (by decide)
    (by rintro ⟨p, l, e, h⟩; cases e; exact absurd (Json.str.inj (Option.some.inj h)) (by decide))
    (fun c hc => by cases hc) (fun c hc => by cases hc) lm_brace
    (fun doc hd => ⟨by rw [← hd]; rfl, _, rfl⟩) (fun _ => lm_rule _ _) (fun _ => rfl) (fun h => by cases h)
    (fun doc hd => by cases hd; rfl)
  exact ⟨s, r, s1, s2, s3, by rw [s3.proofs]; rfl⟩

set_option maxHeartbeats 4000000 in
/-- `di_add_then_parse_pres_partial`. -/
example : ∃ s r, marshalPres (fun _ => "{pdi}") id (universalForm id fun _ => none) lmPresDI = some s ∧
    parsePresentation lmEnv lmVpOpts s = .ok r ∧ SamePres SameCred r lmPresDI ∧ r.proofs.length = 1 := by
  have h : addDIToPres (universalForm id fun _ => none) DI.exE DI.exSuites (5 : Int) ldDI lmPres = some lmPresDI := rfl
  obtain ⟨s, r, p, s1, s2, s3, _⟩ := di_add_then_parse_pres_partial (env := lmEnv) (o := lmVpOpts)
    (suites := DI.exSuites) (vs := DI.exSuites) DI.exSuites_std DI.exSuites_std rfl DI.exE_mb (now := (5 : Int))
    (c := ldDI) (vp := lmPres) (vp' := lmPresDI) lm_reg lm_key ⟨by decide, (5 : Int), rfl, rfl, rfl⟩ lm_fresh (by decide)
    rfl (fun _ => "{pdi}") id (fun _ => none) h rfl rfl rfl rfl DI.exE_ext rfl rfl (lm_clean []) rfl rfl
    (by decide) (by decide) (by decide) (fun c hc => by cases hc) (fun c hc => by cases hc) lm_brace
    (fun doc hd => ⟨by rw [← hd]; rfl, _, rfl⟩) (fun _ => lm_rule _ _) (fun _ => rfl) (fun h => by cases h)
    (fun doc hd => by cases hd; rfl)
  exact ⟨s, r, s1, s2, s3, by rw [s3.proofs]; rfl⟩

end VC.Iss
