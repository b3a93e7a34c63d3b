import Verif.LDP.AttachFields
import Verif.LDP.Algo
import Verif.DataIntegrity.Examples
/-!
# Linked-data proofs: a concrete library, signer and checker

A toy `proof` package in which every assumption of `ProofLib` holds, an Ed25519 suite, and documents
that are signed and verified with it. The message is made of the document's `id` and `claim`.
-/

namespace VC.LDP

open VC.Proof VC.Vfy GoMap Spec VC.Vfy.Spec

/-! ## The library -/

/-- Bytes as JSON. -/
def ldEncB (b : Bytes) : Json := .arr (b.map fun x => .arr (List.replicate x.toNat .null))

/-- A byte. -/
def ldDec1 : Json → UInt8
  | .arr l => UInt8.ofNat l.length
  | _ => 0

/-- Bytes back. -/
def ldDecB : Json → Bytes
  | .arr l => l.map ldDec1
  | _ => []

theorem ldDecB_enc (b : Bytes) : ldDecB (ldEncB b) = b := by
  simp [ldDecB, ldEncB, ldDec1, Function.comp_def]

/-- Signature representation as JSON. -/
def ldEncR : SigRepr → Json
  | .proofValue => .null
  | .jws => .bool true
  | .other n => .arr (List.replicate n .null)

/-- Back. -/
def ldDecR : Json → SigRepr
  | .null => .proofValue
  | .arr l => .other l.length
  | _ => .jws

theorem ldDecR_enc (r : SigRepr) : ldDecR (ldEncR r) = r := by
  cases r <;> simp [ldDecR, ldEncR]

/-- A string member. -/
def ldStr (o : JObj) (k : String) : String := ((JObj.at o k).asStr?).getD ""

/-- A proof as an object. -/
def ldEnc (p : Prf Nat) : JObj :=
  [("type", .str p.type), ("verificationMethod", .str p.vm), ("repr", ldEncR p.repr),
    ("nonce", ldEncB p.nonce), ("proofValue", ldEncB p.proofValue), ("jws", .str p.jws)]

/-- Back. -/
def ldDec : Json → Option (Prf Nat)
  | .obj o => some ⟨ldStr o "type", ldDecR (JObj.at o "repr"), "", 0, "", ldDecB (JObj.at o "nonce"),
      ldStr o "verificationMethod", "", "", [], ldDecB (JObj.at o "proofValue"), ldStr o "jws"⟩
  | _ => none

/-- The fields that the toy encoding keeps. -/
theorem ldDec_enc (p : Prf Nat) : ldDec (.obj (ldEnc p)) =
    some ⟨p.type, p.repr, "", 0, "", p.nonce, p.vm, "", "", [], p.proofValue, p.jws⟩ := by
  simp [ldDec, ldEnc, ldStr, JObj.at, get?_cons, Json.asStr?, ldDecR_enc, ldDecB_enc]

/-- The elements of `proof`. -/
def ldEntries : Option Json → List Json
  | none => []
  | some (.arr l) => l
  | some j => [j]

theorem ldEntries_of {v : Option Json} {l : List Json} (h : Entries v l) : ldEntries v = l := by
  cases h with
  | absent => rfl
  | array => rfl
  | one hn =>
    rename_i j
    cases j with
    | arr l => exact absurd rfl (hn l)
    | null | bool | num | str | obj => rfl

/-- All proofs of a list. -/
def ldDecAll : List Json → Option (List (Prf Nat))
  | [] => some []
  | j :: l => (ldDec j).bind fun p => (ldDecAll l).map (p :: ·)

theorem ldDecAll_append (l : List Json) (j : Json) (ps : List (Prf Nat)) (p : Prf Nat)
    (h : ldDecAll l = some ps) (hj : ldDec j = some p) : ldDecAll (l ++ [j]) = some (ps ++ [p]) := by
  induction l generalizing ps with
  | nil => cases h; simp [ldDecAll, hj]
  | cons a l ih =>
    simp only [ldDecAll, Option.bind_eq_some_iff, Option.map_eq_some_iff] at h
    obtain ⟨q, hq, qs, hqs, rfl⟩ := h
    simp [ldDecAll, hq, ih qs hqs]

/-- Text as bytes. -/
def ldBytes (s : String) : Bytes := s.toList.map fun c => UInt8.ofNat c.toNat

/-- Bytes as text. -/
def ldText (b : Bytes) : String := String.ofList (b.map fun x => Char.ofNat x.toNat)

theorem ldBytes_text (b : Bytes) : ldBytes (ldText b) = b := by
  unfold ldBytes ldText
  rw [String.toList_ofList, List.map_map]
  conv_rhs => rw [← List.map_id b]
  apply List.map_congr_left
  intro x _
  have hv : x.toNat.isValidChar := by left; have := x.toNat_lt; omega
  show UInt8.ofNat (Char.ofNat x.toNat).toNat = x
  rw [Char.ofNat, dif_pos hv]
  simp [Char.ofNatAux, Char.toNat]

/-- The toy library. -/
def ldEnv : Env Nat where
  now := 9
  verifyData := fun canon digest doc p =>
    match p.repr with
    | .other _ => none
    | _ => (canon [("id", JObj.at doc "id"), ("claim", JObj.at doc "claim")]).map fun b =>
        digest b ++ ldBytes p.type ++ ldBytes p.vm
  detachedHeader := fun _ => "h"
  b64 := ldText
  jwtSignature := fun s => some ((ldBytes s).drop 3)
  addProof := fun doc p => some (GoMap.set doc "proof" (.arr (ldEntries (get? doc "proof") ++ [.obj (ldEnc p)])))
  readProofs := fun doc =>
    match get? doc "proof" with
    | none => none
    | v => ldDecAll (ldEntries v)
  publicKeyID := fun p => if p.vm = "" then none else some p.vm

theorem ldSame (p : Prf Nat) :
    Same ldEnv p ⟨p.type, p.repr, "", 0, "", p.nonce, p.vm, "", "", [], p.proofValue, p.jws⟩ := by
  constructor <;> intros <;> rfl

theorem ldAt {doc doc' : JObj} (h : ∀ k, k ≠ "proof" → get? doc' k = get? doc k) {k : String}
    (hk : k ≠ "proof") : JObj.at doc' k = JObj.at doc k := by
  unfold JObj.at; rw [h k hk]

theorem ldLib : ProofLib ldEnv where
  noProof := by
    intro canon digest doc doc' p h
    simp only [ldEnv]
    rw [ldAt h (show "id" ≠ "proof" by decide), ldAt h (show "claim" ≠ "proof" by decide)]
  noValue := by intros; rfl
  noJws := by intros; rfl
  jwsBack := by
    intro alg s
    show some ((ldBytes ("h" ++ ".." ++ ldText s)).drop 3) = some s
    have : ldBytes ("h" ++ ".." ++ ldText s) = 104 :: 46 :: 46 :: ldBytes (ldText s) := by
      unfold ldBytes
      rw [String.toList_append, String.toList_append, List.map_append, List.map_append]
      rfl
    rw [this, ldBytes_text]
    rfl
  repr := by intro canon digest doc p n h; simp [ldEnv, h]
  first := by
    intro doc p doc' h ha
    cases ha
    refine ⟨_, ?_, ldSame p⟩
    simp only [ldEnv, get?_set_self, h, ldEntries, List.nil_append, ldDecAll, ldDec_enc,
      Option.bind_some, Option.map_some]
  appended := by
    intro doc p doc' ps h ha
    cases ha
    refine ⟨_, ?_, ldSame p⟩
    simp only [ldEnv, get?_set_self, ldEntries]
    have h' : ldDecAll (ldEntries (get? doc "proof")) = some ps := by
      simp only [ldEnv] at h
      cases hg : get? doc "proof" with
      | none => rw [hg] at h; cases h
      | some v => rw [hg] at h; exact h
    exact ldDecAll_append _ _ _ _ h' (ldDec_enc p)
  rest := by
    intro doc p doc' k ha hk
    cases ha
    exact get?_set_ne _ _ (Ne.symm hk)
  entries := by
    intro doc p doc' l hl ha
    cases ha
    exact ⟨ldEnc p, by rw [get?_set_self, ldEntries_of hl]⟩
  read := by
    intro doc doc' l hl h h'
    simp only [ldEnv]
    have e := ldEntries_of h
    have e' := ldEntries_of h'
    cases hg : get? doc "proof" with
    | none => rw [hg] at h; cases h; exact absurd rfl hl
    | some v =>
      cases hg' : get? doc' "proof" with
      | none => rw [hg'] at h'; cases h'; exact absurd rfl hl
      | some v' =>
        rw [hg] at e; rw [hg'] at e'
        dsimp only
        rw [e, e']
  empty := by intro doc h; simp [ldEnv, h, ldEntries, ldDecAll]

/-! ## Suite, creator, checker -/

/-- Canonical form: the text of the `id`. -/
def ldSuite : Suite where
  proofType := "Ed25519Signature2018"
  vms := eddsaDesc.vms
  canon := fun _ doc => some (ldBytes (ldStr doc "id"))
  digest := fun b => 1 :: b

/-- Signs with the key `exKey`. -/
def ldSign (m : Bytes) : Option Bytes := some (m ++ exKey)

/-- The creator. -/
def ldCreator : Creator := ⟨[⟨ldSuite, ldSign⟩], [⟨eddsaDesc, ldSign⟩]⟩

/-- The checker, with the DID `did:ex:a`. -/
def ldChk : LdChecker := ⟨[⟨ldSuite, none⟩], defaultVerifiers exPrim, vdrResolve exVdr⟩

/-- The context. -/
def ldCtx (r : SigRepr) : PCtx Nat := ⟨"Ed25519Signature2018", .ed25519, r, some 5, "did:ex:a#k1", "", "d", "", []⟩

/-- A document without proof. -/
def ldDoc : JObj := [("id", .str "did:ex:b"), ("claim", .str "x")]

/-- The key of `did:ex:a`. -/
def ldVM : VM := ⟨"Ed25519VerificationKey2018", exKey, none⟩

theorem ld_allowed (kt : KeyType) : Allowed eddsaDesc.vms ldVM kt ↔ kt = .ed25519 := by
  constructor
  · rintro ⟨s, hs, h1, h2, _⟩
    simp only [eddsaDesc, List.mem_cons, List.not_mem_nil, or_false] at hs
    rcases hs with rfl | rfl <;> exact h2.symm
  · rintro rfl
    exact ⟨_, .head _, rfl, rfl, fun h => (by cases h), fun j h => (by cases h)⟩

theorem ld_verifier : ∀ v ∈ defaultVerifiers exPrim, v.supports .ed25519 = true →
    ∀ m, v.verify (m ++ exKey) m ⟨.ed25519, .inl exKey⟩ = true := by
  intro v hv hs m
  simp only [defaultVerifiers, List.mem_cons, List.not_mem_nil, or_false] at hv
  rcases hv with rfl | rfl | rfl | rfl | rfl | rfl | rfl | rfl
  · simp only [ed25519Verifier, ed25519Key, exPrim, exKey]
    simp
  all_goals cases hs

theorem ld_accepts (msg sig nonce : Bytes) (h : ldSign msg = some sig) :
    KeyAccepts ldChk ⟨ldSuite, none⟩ ldVM nonce msg sig := by
  cases h
  refine ⟨⟨.ed25519, (ld_allowed _).2 rfl⟩, fun kt f _ h => (by cases h), fun kt hk _ => ?_, fun kt hk _ v hv hs => ?_⟩
  · have := (ld_allowed kt).1 hk; subst this
    exact ⟨ed25519Verifier exPrim, by simp [ldChk, defaultVerifiers], rfl⟩
  · have := (ld_allowed kt).1 hk; subst this
    exact ld_verifier v hv hs msg

theorem ld_first : FirstWith (fun d : LdCheck => d.suite.proofType) ldChk.ld "Ed25519Signature2018" ⟨ldSuite, none⟩ :=
  ⟨[], [], rfl, rfl, fun y h => by cases h⟩

/-- The checker accepts what the creator makes, for every document. -/
theorem ld_accepting (r : SigRepr) (doc : JObj) (drop : Bool) (issuer : Option String)
    (hi : issuer = none ∨ issuer = some "did:ex:a") :
    Accepting ldEnv ldCreator (mapContext (ldCtx r)) doc ldChk drop issuer := by
  have hone : ∀ d', FirstWith (fun d : LdCreate => d.suite.proofType) ldCreator.ld "Ed25519Signature2018" d' →
      d' = ⟨ldSuite, ldSign⟩ := by
    rintro d' ⟨pre, post, h, _, _⟩
    have : d' ∈ ldCreator.ld := by rw [h]; simp
    simpa [ldCreator] using this
  refine ⟨"did:ex:a#k1", "did:ex:a", ldVM, ⟨ldSuite, none⟩, ld_first, fun d' p h => ?_, fun p h => ?_, ?_, rfl,
    fun d' msg sig h hs => ?_⟩
  · rw [hone d' h]; rfl
  · have := h.vm
    simp [ldEnv, this, mapContext, ldCtx]
  · rcases hi with rfl | rfl
    · exact .fragment (d := "did:ex:a") (f := "k1") rfl (by unfold NoChar; decide) (by decide)
    · exact .given rfl
  · rw [hone d' h] at hs
    exact ld_accepts msg sig _ hs

/-! ## Documents -/

/-- The signed document. -/
def ldSigned (r : SigRepr) : JObj := (sign ldEnv ldCreator (mapContext (ldCtx r)) ldDoc).getD []

theorem ld_signed_pv : sign ldEnv ldCreator (mapContext (ldCtx .proofValue)) ldDoc = some (ldSigned .proofValue) := rfl
theorem ld_signed_jws : sign ldEnv ldCreator (mapContext (ldCtx .jws)) ldDoc = some (ldSigned .jws) := rfl

/-- `sign_spec`, `sign_keeps`: both representations. -/
example : ∃ p, ldEnv.readProofs (ldSigned .jws) = some [p] :=
  (sign_keeps ldEnv ldLib.toLibOk ld_signed_jws).2.1 rfl

/-- `every_proof_checked` on a signed document. -/
example : ∃ ps, ldEnv.readProofs (ldSigned .proofValue) = some ps ∧
    ∀ p ∈ ps, ProofGood ldEnv ldChk false (some "did:ex:a") (ldSigned .proofValue) p :=
  every_proof_checked ldEnv (k := ldChk) (by decide +kernel)

/-- `sign_then_verify` for both representations, with and without expected issuer. -/
theorem ld_verified (r : SigRepr) (hr : r = .proofValue ∨ r = .jws) (issuer : Option String)
    (hi : issuer = none ∨ issuer = some "did:ex:a") : verifyObject ldEnv ldChk true issuer (ldSigned r) = true := by
  have h : sign ldEnv ldCreator (mapContext (ldCtx r)) ldDoc = some (ldSigned r) := by
    rcases hr with rfl | rfl <;> rfl
  obtain ⟨kid, did, vm, d, a1, a2, a3, a4, a5, a6⟩ := (ld_accepting r ldDoc true issuer hi).ok
  exact sign_then_verify ldEnv ldLib.toLibOk h a1 a2 a3 a4 a5 a6 (.inl rfl)

/-- A wrong issuer, a changed document, a wrong key id: refused. -/
example : verifyObject ldEnv ldChk false (some "did:ex:c") (ldSigned .proofValue) = false ∧
    verifyObject ldEnv ldChk false none (GoMap.set (ldSigned .proofValue) "id" (.str "other")) = false ∧
    verifyObject ldEnv ldChk false none ldDoc = false := by decide +kernel

/-- `unsupported_key_refused`: a P-256 key and the Ed25519 suite. -/
example : sign ldEnv ldCreator (mapContext { ldCtx .proofValue with keyType := .p256DER }) ldDoc = none := by
  refine unsupported_key_refused ldEnv ldLib.toLibOk _ _ _ ?_
  rintro d ⟨pre, post, h, _, _⟩ ⟨m, hm, hk⟩
  have : d ∈ ldCreator.ld := by rw [h]; simp
  simp only [ldCreator, List.mem_singleton] at this
  subst this
  simp only [ldSuite, eddsaDesc, List.mem_cons, List.not_mem_nil, or_false] at hm
  rcases hm with rfl | rfl <;> cases hk

/-- **C82**, not claimed: an empty list of proofs is accepted. -/
theorem no_proofs_accepted : verifyObject ldEnv ldChk false (some "did:ex:a") (GoMap.set ldDoc "proof" (.arr [])) = true := by
  decide +kernel

/-- `jwt_sign_then_check`. -/
example : (defaultChecker exPrim (vdrResolve exVdr)).checkJWT (jwtHeaders "EdDSA" "did:ex:a#k1") "did:ex:a"
    [1, 2] ([1, 2] ++ exKey) = .ok () :=
  jwt_sign_then_check (c := ldCreator) (d := eddsaDesc) (vm := ldVM) rfl (by decide) rfl rfl
    ⟨.ed25519, (ld_allowed _).2 rfl⟩ (by
      intro e he _ m s hs kt hk
      simp only [ldCreator, List.mem_singleton] at he
      subst he
      cases hs
      have := (ld_allowed kt).1 hk; subst this
      exact ⟨⟨ed25519Verifier exPrim, by simp [defaultChecker, defaultVerifiers], rfl⟩,
        fun v hv hs => ld_verifier v hv hs m⟩)

/-- `cwt_sign_then_check`. -/
example : (defaultChecker exPrim (vdrResolve exVdr)).checkCWT (fun _ => none) ⟨"did:ex:a#k1", "", -8⟩ "did:ex:a"
    [1, 2] ([1, 2] ++ exKey) = .ok () :=
  cwt_sign_then_check (c := ldCreator) (d := eddsaDesc) (vm := ldVM) rfl (by decide) (by decide) rfl rfl
    ⟨.ed25519, (ld_allowed _).2 rfl⟩ (by
      intro e he _ m s hs kt hk
      simp only [ldCreator, List.mem_singleton] at he
      subst he
      cases hs
      have := (ld_allowed kt).1 hk; subst this
      exact ⟨⟨ed25519Verifier exPrim, by simp [defaultChecker, defaultVerifiers], rfl⟩,
        fun v hv hs => ld_verifier v hv hs m⟩)

/-! ## Credentials and presentations -/

/-- Few fields. -/
def ldContents : Contents Unit :=
  ⟨["https://www.w3.org/2018/credentials/v1"], [], "", [], [], none, none, none, [], [], .null, [], none, none, []⟩

/-- A credential without proof. -/
def ldCred : PCred Unit := ⟨ldDoc, ldContents, [], none, none⟩

/-- With one proof. -/
def ldCred1 : PCred Unit := (addToCred ldEnv ldCreator (ldCtx .proofValue) ldCred).1

/-- With two. -/
def ldCred2 : PCred Unit := (addToCred ldEnv ldCreator (ldCtx .jws) ldCred1).1

theorem ld_add1 : addToCred ldEnv ldCreator (ldCtx .proofValue) ldCred = (ldCred1, true) := rfl
theorem ld_add2 : addToCred ldEnv ldCreator (ldCtx .jws) ldCred1 = (ldCred2, true) := rfl

theorem ld_sync0 : InSync ldCred := .absent
theorem ld_sync1 : InSync ldCred1 := by
  obtain ⟨_, _, h, _⟩ := credential_adds_one ldEnv ldLib ld_sync0 ld_add1
  exact h

/-- `credential_adds_one` on a credential that has a proof already. -/
example : ∃ o, ldCred2.proofs = ldCred1.proofs ++ [o] := by
  obtain ⟨o, h, _⟩ := credential_adds_one ldEnv ldLib ld_sync1 ld_add2
  exact ⟨o, h⟩

example : ldCred2.proofs.length = 2 := rfl

/-- `credential_add_then_verify`, twice. -/
theorem ld_cred_verified : verifyObject ldEnv ldChk false (some "did:ex:a") (toRawJSON ldCred2) = true := by
  refine credential_add_then_verify ldEnv ldLib ld_sync1 ld_add2 (ld_accepting _ _ _ _ (.inr rfl)) (.inr ?_)
  exact credential_add_then_verify ldEnv ldLib ld_sync0 ld_add1 (ld_accepting _ _ _ _ (.inr rfl)) (.inl rfl)

/-- `credential_add_refused`: an unknown suite. -/
example : (addToCred ldEnv ldCreator { ldCtx .jws with sigType := "Nope" } ldCred1) = (ldCred1, false) := rfl

/-- `reset_then_add_fails`: a fresh credential takes the proof, a reset one does not. -/
example : (addToCred ldEnv ldCreator (ldCtx .proofValue) (resetProofs ldCred [])).2 = false ∧
    (addToCred ldEnv ldCreator (ldCtx .proofValue) ldCred).2 = true :=
  ⟨reset_then_add_fails ldEnv ldLib _ _ _, rfl⟩

/-- A presentation. -/
def ldPres : Pres Unit :=
  ⟨["https://www.w3.org/2018/credentials/v1"], [], "did:ex:b", ["VerifiablePresentation"], [], "did:ex:a", [], "", none,
    [("claim", .str "x")]⟩

theorem ld_clean (ps : List JObj) : CustomClean { ldPres with proofs := ps } := by
  constructor
  · simp [WF, keys, ldPres]
  · intro k hk
    simp only [presMembers, List.mem_cons, List.not_mem_nil, or_false] at hk
    rcases hk with rfl | rfl | rfl | rfl | rfl | rfl <;> rfl

/-- With one proof. -/
def ldPres1 : Pres Unit := (addToPres ldEnv (fun _ => none) ldCreator (ldCtx .jws) ldPres).getD ldPres

/-- With two. -/
def ldPres2 : Pres Unit := (addToPres ldEnv (fun _ => none) ldCreator (ldCtx .proofValue) ldPres1).getD ldPres

theorem ld_pres1 : addToPres ldEnv (fun _ => none) ldCreator (ldCtx .jws) ldPres = some ldPres1 := rfl
theorem ld_pres2 : addToPres ldEnv (fun _ => none) ldCreator (ldCtx .proofValue) ldPres1 = some ldPres2 := rfl

/-- `presentation_add_then_verify`, twice: as written, the presentation is accepted. -/
theorem ld_pres_verified : ∃ raw, rawPres (fun _ => none) ldPres2 = some raw ∧
    verifyObject ldEnv ldChk false (some "did:ex:a") raw = true := by
  have h0 : rawPres (fun _ => none) ldPres = some ((rawPres (fun _ => none) ldPres).getD []) := rfl
  have h1 : rawPres (fun _ => none) ldPres1 = some ((rawPres (fun _ => none) ldPres1).getD []) := rfl
  have h2 : rawPres (fun _ => none) ldPres2 = some ((rawPres (fun _ => none) ldPres2).getD []) := rfl
  refine ⟨_, h2, ?_⟩
  have c1 : CustomClean ldPres1 := ld_clean _
  refine presentation_add_then_verify ldEnv ldLib c1 ld_pres2 h1 h2 (ld_accepting _ _ _ _ (.inr rfl)) (.inr ?_)
  exact presentation_add_then_verify ldEnv ldLib (ld_clean []) ld_pres1 h0 h1 (ld_accepting _ _ _ _ (.inr rfl)) (.inl rfl)

example : ldPres2.proofs.length = 2 := rfl

/-! ## Data Integrity -/

/-- A Data Integrity context for the key `did:a#k`. -/
def ldDI : DICtx DI.exE.T := ⟨"did:a#k", "", "ecdsa-rdfc-2019", none, some (5 : Int), "", ""⟩

/-- A credential without proofs gets the new one. -/
example : ∃ vc', addDIToCred DI.exE DI.exSuites (5 : Int) ldDI ldCred = some vc' ∧ vc'.proofs.length = 1 :=
  ⟨_, rfl, rfl⟩

/-- **C86, violated**: a credential with two linked data proofs has one proof afterwards. -/
theorem di_loses_two : ∃ vc', addDIToCred DI.exE DI.exSuites (5 : Int) ldDI ldCred2 = some vc' ∧
    ldCred2.proofs.length = 2 ∧ vc'.proofs.length = 1 := by
  have h : ∃ vc', addDIToCred DI.exE DI.exSuites (5 : Int) ldDI ldCred2 = some vc' := ⟨_, rfl⟩
  obtain ⟨vc', h⟩ := h
  obtain ⟨o, ho, _⟩ := di_drops_earlier h
  exact ⟨vc', h, rfl, by rw [ho]; rfl⟩

/-- `di_new_proof`. -/
example : ∃ vc' o p, addDIToCred DI.exE DI.exSuites (5 : Int) ldDI ldCred2 = some vc' ∧ vc'.proofs = [o] ∧
    DI.Spec.IsProof (.obj o) p ∧ DIRequested DI.exE (5 : Int) ldDI p := by
  have h : ∃ vc', addDIToCred DI.exE DI.exSuites (5 : Int) ldDI ldCred2 = some vc' := ⟨_, rfl⟩
  obtain ⟨vc', h⟩ := h
  obtain ⟨o, p, h1, h2, h3⟩ := di_new_proof DI.exSuites_std h
  exact ⟨vc', o, p, h, h1, h2, h3⟩

/-- `di_add_then_verify_partial`: its hypotheses are met. -/
example (vc' : PCred Unit) (h : addDIToCred DI.exE DI.exSuites (5 : Int) ldDI ldCred = some vc') :
    (DI.verifyProof DI.exE DI.exSuites (toRawJSON vc') (DI.freshOpts DI.exE "" "" "")).1 = .ok () := by
  refine di_add_then_verify_partial DI.exSuites_std DI.exSuites_std rfl DI.exE_mb (c := ldDI) ?_ ?_
    ⟨by decide, (5 : Int), rfl, rfl, rfl⟩ (Or.inr ⟨⟨by decide, (5 : Int), rfl, rfl, rfl⟩, ?_⟩) (by decide) rfl rfl h
  · intro n hn
    rcases hn with ⟨hn, _⟩ | ⟨_, hn⟩
    · rcases hn with rfl | rfl <;> rfl
    · exact absurd hn (by decide)
  · intro r v pu hpu hr hv
    cases hr
    have hv' := (DI.lookupVM_iff _ _ _ _).2 hv
    rcases hpu with ⟨h0, _⟩ | ⟨_, hp⟩
    · exact absurd rfl h0
    · subst hp
      have hl : DI.lookupVM DI.exResolve "assertionMethod" "did:a#k" = some ⟨"did:a#k", some ⟨"P-256", [7]⟩, []⟩ := rfl
      rw [show ldDI.key = "did:a#k" from rfl, hl] at hv'
      cases hv'
      refine ⟨rfl, ?_⟩
      intro pk ha msg sig hk hs
      have hk := (DI.ecdsaKey_iff DI.exE "ecdsa-rdfc-2019" (Or.inr rfl) _ _ _).2 hk
      cases hk
      have hs : DI.exSign (some ⟨"P-256", [7]⟩) msg = some sig := hs
      cases hs
      show ((7 :: msg) == _) = true
      exact beq_self_eq_true _
  · intro t' ht
    cases ht
    rfl

/-! ## DID documents -/

/-- Verification options for DID documents. -/
def ldDid : DidOpts := ⟨some ldChk, fun _ => false, false, id⟩

/-- `did_verified_partial` on an accepted document. -/
theorem ld_did_verified : verifyDID ldEnv ldDid (ldSigned .proofValue) = true := by decide +kernel

/-- **C87, violated**: a DID document of `did:ex:b` is verified by a proof of `did:ex:a`. -/
theorem did_other_signer : ∃ (k : LdChecker) (doc : JObj) (prf : JObj),
    get? doc "id" = some (.str "did:ex:b") ∧ get? doc "proof" = some (.arr [.obj prf]) ∧
    get? prf "verificationMethod" = some (.str "did:ex:a#k1") ∧
    verifyDID ldEnv ⟨some k, fun _ => false, false, id⟩ doc = true :=
  ⟨ldChk, ldSigned .proofValue, _, rfl, rfl, rfl, ld_did_verified⟩

end VC.LDP
