import Verif.Verifiable.ParseParts
import Verif.Verifiable.JWTRoundTrip
import Verif.DataIntegrity.Examples
import Verif.JWT.Props
/-!
# verifiable: parsing — concrete instances and counterexamples
-/

namespace VC.Vfy

open GoMap
open VC.Vfy.Spec
open VC.Proof (Bytes CwtReq LdProof)

/-- A credential object with the given issuer and further members. -/
def pxDoc (issuer : String) (more : JObj) : JObj :=
  [("@context", .arr [.str "https://www.w3.org/2018/credentials/v1"]),
   ("type", .arr [.str "VerifiableCredential"]), ("issuer", .str issuer),
   ("credentialSubject", .obj [("id", .str "did:ex:s")])] ++ more

/-- The toy JSON texts. -/
def pxDecode (s : String) : Option JObj :=
  if s = "{ld}" then some (pxDoc "did:ex:a" [("proof", .obj [("type", .str "Ed25519Signature2018")])])
  else if s = "{other}" then some (pxDoc "did:ex:b" [("proof", .obj [("type", .str "Ed25519Signature2018")])])
  else if s = "{empty}" then some (pxDoc "did:ex:victim" [("proof", .arr [])])
  else if s = "{di}" then
    some (pxDoc "did:ex:victim" [("proof", DI.exProof "did:a#k" DI.exSigA)])
  else if s = "{env}" then
    some [("type", .str "EnvelopedVerifiableCredential"), ("id", .str "data:application/vc-ld+jwt,h.p.s")]
  else if s = "{jwt}" then some [("jwt", .str "h.p.s")]
  else none

/-- The toy JWS. -/
def pxLib : JWT.Lib where
  parseJWS := fun _ s =>
    if s = "h.p.s" ∨ s = "h.p." then
      some ⟨[("alg", .str "EdDSA"), ("kid", .str "did:ex:a#k1")], [9], [1, 2], [1, 2] ++ Proof.exKey⟩
    else none
  payloadToMap := fun _ => none
  upper := id
  jsonString := fun _ => ""

/-- The toy libraries: linked-data proofs are read off the `proof` member like did-go does. -/
def pxEnv : PEnv := { exJEnv with
  lib := pxLib
  sd := ⟨fun s => if s = "d1" then some [.str "salt", .str "name", .str "N"] else none,
    fun _ s => s, fun s => if s = "sha-256" then "SHA-256" else s⟩
  di := DI.exE
  dOrder := fun m => GoMap.keys m
  decodeObj := pxDecode
  jsonPart := fun s => s == "h" || s == "p"
  payloadObj := fun b => if b = [9] then
    some [("iss", .str "did:ex:a"), ("vc", .obj (pxDoc "did:ex:a" [("_sd_alg", .str "sha-256"),
      ("_sd", .arr [.str "d1"])]))] else none
  hexDecode := fun s => if s = "6364" then some "cwt" else none
  parseCOSE := fun s => if s = "cwt" then
    some ⟨some (-8), none, "did:ex:a#k1", some [67, 161, 1, 39], [8],
      [132, 106, 83, 105, 103, 110, 97, 116, 117, 114, 101, 49, 67, 161, 1, 39, 64, 65, 8] ++ Proof.exKey⟩ else none
  cwtVC := fun b => if b = [8] then some (pxDoc "did:ex:a" []) else none
  schemaOK := fun _ _ => true
  ldOK := fun _ _ => true
  ldTypesOK := fun _ _ => true
  ldProofs := fun doc =>
    (getProofs (JObj.at doc "proof")).map (fun l => l.map (fun o =>
      ⟨o, ⟨"Ed25519Signature2018", some "did:ex:a#k1", []⟩⟩))
  verifyData := fun _ _ => some [1, 2]
  verifyValue := fun _ => some ([1, 2] ++ Proof.exKey)
  appendCtx := fun j l => match j with
    | .arr a => .arr (a ++ l.map .str)
    | j => .arr (j :: l.map .str)
  relOK := fun _ => true }

/-- The library's default checker with the toy keys. -/
def pxChecker : Proof.Checker := Proof.defaultChecker Proof.exPrim (Proof.vdrResolve Proof.exVdr)

/-- Default options with the default checkers. -/
def pxOpts : ParseOpts pxEnv where
  mode := .combined
  allowedContexts := []
  allowedTypes := []
  ldTypesCheck := false
  disableValidation := false
  disabledProofCheck := false
  disableRelRes := false
  externalContext := []
  jwtChecker := some (JWT.ofChecker pxChecker)
  cwtChecker := some (cwtChecker pxChecker (fun _ => none))
  ldChecker := some (ldChecker pxChecker)
  diVerifier := some DI.exSuites
  diPurpose := ""
  diDomain := ""
  diChallenge := ""

/-- The issuer id of a result and the JWS it came in. -/
def pxView (r : Res (PCred pxEnv.T)) : Option (Option String × Option String) :=
  match r with
  | .ok vc => some (vc.contents.issuer.map (·.id), vc.jwt.map (·.jwt))
  | _ => none

/-- Which outcome. -/
def pxKind (r : Res (PCred pxEnv.T)) : Nat :=
  match r with
  | .ok _ => 0
  | .unsupported => 1
  | .err => 2
  | .panic => 3

set_option maxHeartbeats 4000000 in
/-- Every format is accepted with its own proof; the same text with a wrong disclosure, a wrong
issuer or no format at all is not. -/
theorem parse_examples :
    pxView (parseCredential pxEnv pxOpts "h.p.s") = some (some "did:ex:a", some "h.p.s") ∧
    pxView (parseCredential pxEnv pxOpts "\"h.p.s\"") = some (some "did:ex:a", some "h.p.s") ∧
    pxView (parseCredential pxEnv pxOpts "h.p.s~d1~") = some (some "did:ex:a", some "h.p.s") ∧
    pxView (parseCredential pxEnv pxOpts "{jwt}") = some (some "did:ex:a", some "h.p.s") ∧
    pxView (parseCredential pxEnv pxOpts "{env}") = some (some "did:ex:a", some "h.p.s") ∧
    pxView (parseCredential pxEnv pxOpts "{ld}") = some (some "did:ex:a", none) ∧
    pxView (parseCredential pxEnv pxOpts "cwt") = some (some "did:ex:a", none) ∧
    pxView (parseCredential pxEnv pxOpts "6364") = some (some "did:ex:a", none) ∧
    pxView (parseCredential pxEnv pxOpts "h.p.s~d2~") = none ∧
    pxView (parseCredential pxEnv pxOpts "{other}") = none ∧
    pxKind (parseCredential pxEnv pxOpts "junk") = 1 ∧
    pxKind (parseCredential pxEnv pxOpts "h.p.") = 2 :=
  by decide +kernel

/-- The linked-data document whose issuer is not the signer is rejected because of its proof: it is
accepted with proof checking off. -/
example : pxView (parseCredential pxEnv (noProofCheck pxEnv pxOpts) "{other}") =
    some (some "did:ex:b", none) := rfl

/-! The hypotheses of the theorems on accepted credentials are met in every format. -/

set_option maxHeartbeats 4000000 in
example : ∃ vc e, pxOpts.disabledProofCheck = false ∧ pxOpts.externalContext = [] ∧
    pxOpts.jwtChecker = some (JWT.ofChecker pxChecker) ∧
    pxChecker.resolve = Proof.vdrResolve Proof.exVdr ∧
    parseCredential pxEnv pxOpts "h.p.s~d1~" = .ok vc ∧ parseJSON pxEnv pxOpts "h.p.s~d1~" = .ok vc ∧
    vc.jwt = some e ∧ e.disclosures ≠ [] :=
  ⟨_, _, rfl, rfl, rfl, rfl, rfl, rfl, rfl, by intro h; cases h⟩

example : ∃ vc e, pxOpts.cwtChecker = some (cwtChecker pxChecker (fun _ => none)) ∧
    parseCredential pxEnv pxOpts "cwt" = .ok vc ∧ vc.jwt = none ∧ vc.cwt = some e :=
  ⟨_, _, rfl, rfl, rfl, rfl⟩

example : ∃ vc ps, pxOpts.ldChecker = some (ldChecker pxChecker) ∧
    parseCredential pxEnv pxOpts "{ld}" = .ok vc ∧ vc.jwt = none ∧ vc.cwt = none ∧
    (∀ l, ProofMember vc.json l → ¬ DIFirst l) ∧ pxEnv.ldProofs vc.json = some ps ∧ ps ≠ [] := by
  refine ⟨_, _, rfl, rfl, rfl, rfl, ?_, rfl, by intro h; cases h⟩
  rintro l (⟨o, ho, rfl⟩ | h) ⟨p, rest, hl, hp⟩
  · cases hl
    have ho := (Json.obj.inj (Option.some.inj ho))
    rw [← ho] at hp
    exact absurd (Json.str.inj (Option.some.inj hp)) (by decide)
  · exact absurd (Option.some.inj h) (by intro h; cases h)

example : ∃ vc, parseCBOR pxEnv pxOpts "6364" = .ok vc := ⟨_, rfl⟩

/-! ## C36: the gap -/

/-- **C36 fails**: with proof checking on, a document whose `proof` is an empty array is accepted as
soon as it parses and is valid, whatever the linked-data checker and the issuer. -/
theorem empty_proof_array_accepted (env : PEnv) (o : ParseOpts env) (he : o.externalContext = [])
    (pc : LdProof → String → Bytes → Bytes → Bool) (hc : o.ldChecker = some pc)
    (data : String) (vc : PCred env.T) (h : parseCredential env (noProofCheck env o) data = .ok vc)
    (hj : vc.jwt = none) (hw : vc.cwt = none) (hp : get? vc.json "proof" = some (.arr []))
    (hl : env.ldProofs vc.json = some []) (hi : vc.contents.issuer.isSome) :
    parseCredential env o data = .ok vc := by
  obtain ⟨h0, h1, -, h3⟩ := (parse_iff env (noProofCheck env o) he data vc).1 h
  obtain ⟨i, hi⟩ := Option.isSome_iff_exists.1 hi
  refine (parse_iff env o he data vc).2 ⟨h0, ?_, fun _ => ?_, h3⟩
  · exact h1
  · exact .ld i [] pc [] hi hj hw (Or.inr hp) (fun ⟨p, rest, e, _⟩ => by cases e) hc hl
      (fun p hp => by cases hp)

/-- Such a document: issuer `did:ex:victim`, nothing signed, the library's own checker. -/
theorem empty_proof_array_example : ∃ vc, pxOpts.disabledProofCheck = false ∧
    pxOpts.ldChecker = some (ldChecker pxChecker) ∧ parseCredential pxEnv pxOpts "{empty}" = .ok vc ∧
    get? vc.json "proof" = some (.arr []) ∧ vc.contents.issuer.map (·.id) = some "did:ex:victim" ∧
    pxEnv.ldProofs vc.json = some [] :=
  ⟨_, rfl, rfl, rfl, rfl, rfl, rfl⟩

/-! ## C37 -/

/-- **C37 (partial)**: a credential returned with proof checking on whose only proof is a data
integrity proof carries a valid signature over the document, for the expected purpose, domain and
challenge, by a key which the DID named in the proof itself authorises for that purpose.

Missing: that this DID is the credential's issuer. The code never compares them
(`di_not_bound_to_issuer`). -/
theorem di_credential_partial (env : PEnv) (o : ParseOpts env) (suites : GoMap (DI.Suite env.di))
    (hc : o.diVerifier = some suites) (std : DI.Spec.Standard env.di suites)
    (hz : env.di.isZero env.di.zeroT = true) (ext : DI.Spec.CanonExt env.di)
    (data : String) (vc : PCred env.T) (hp : o.disabledProofCheck = false)
    (h : parseCredential env o data = .ok vc) (hj : vc.jwt = none) (hw : vc.cwt = none)
    (m : JObj) (hm : ProofMember vc.json [m]) (ht : get? m "type" = some (.str "DataIntegrityProof")) :
    ∃ i p, vc.contents.issuer = some i ∧ DI.Spec.IsProof (.obj m) p ∧
      DI.Spec.Valid env.di (GoMap.del vc.json "proof")
        (if o.diPurpose = "" then "assertionMethod" else o.diPurpose) o.diDomain o.diChallenge p ∧
      ∃ r did frag doc v, env.di.resolver = some r ∧ p.vm = did ++ "#" ++ frag ∧ r did = some doc ∧
        DI.Spec.Authorised doc p.purpose frag v := by
  have hone : DI.Spec.OnlyProof vc.json (.obj m) := by
    rcases hm with ⟨x, hx, e⟩ | hx
    · cases e
      exact Or.inr ⟨hx, (by intro e; cases e), (by intro l e; cases e)⟩
    · exact Or.inl hx
  have huniq : ∀ l, ProofMember vc.json l → l = [m] := by
    intro l hl
    rcases hm with ⟨x, hx, e⟩ | hx <;> rcases hl with ⟨y, hy, e'⟩ | hy
    · cases e; rw [hx] at hy; cases hy; exact e'
    · rw [hx] at hy; cases hy
    · rw [hx] at hy; cases hy
    · rw [hx] at hy
      have hy := Json.arr.inj (Option.some.inj hy)
      cases l with
      | nil => cases hy
      | cons a l =>
        cases l with
        | nil => simp only [List.map_cons, List.map_nil, List.cons.injEq, Json.obj.injEq, and_true] at hy
                 rw [hy]
        | cons b l => simp at hy
  obtain ⟨hs, -⟩ := parse_verified_partial env o data vc hp h
  cases hs with
  | jwt i e' pc j hi he' => rw [hj] at he'; cases he'
  | cwt i e' pc msg a x hi hn he' => rw [hw] at he'; cases he'
  | ld i l pc ps hi hn hn' hpm hdi hc' hl hs =>
    have e := huniq l hpm
    exact absurd ⟨m, [], e, ht⟩ hdi
  | di i l s hi hn hn' hpm hdi hc' hs =>
    rw [hc] at hc'; cases hc'
    obtain ⟨p, h1, -, h3⟩ := (DI.verify_single_iff env.di std hz ext hone
      (DI.freshOpts_fresh env.di o.diPurpose o.diDomain o.diChallenge)).1 hs
    obtain ⟨r, v, pk, ha, tc, te, conf, hr, ⟨did, frag, d, hn1, hd, hau⟩, -⟩ := h3.signature
    exact ⟨i, p, hi, h1, h3, r, did, frag, d, v, hr, hn1.1, hd, hau⟩

/-- **C37 fails**: a credential naming `did:ex:victim` as its issuer is accepted, with proof checking
on, on the strength of a data integrity proof by a key of `did:a`. -/
theorem di_not_bound_to_issuer : ∃ (vc : PCred pxEnv.T) (m : JObj),
    pxOpts.disabledProofCheck = false ∧ pxOpts.diVerifier = some DI.exSuites ∧
    parseCredential pxEnv pxOpts "{di}" = .ok vc ∧ vc.jwt = none ∧ vc.cwt = none ∧
    ProofMember vc.json [m] ∧ get? m "type" = some (.str "DataIntegrityProof") ∧
    get? m "verificationMethod" = some (.str "did:a#k") ∧
    vc.contents.issuer.map (·.id) = some "did:ex:victim" :=
  ⟨_, _, rfl, rfl, rfl, rfl, rfl, Or.inl ⟨_, rfl, rfl⟩, rfl, rfl, rfl⟩

/-- The other hypotheses of `di_credential_partial` hold there too. -/
example : DI.Spec.Standard pxEnv.di DI.exSuites ∧ pxEnv.di.isZero pxEnv.di.zeroT = true ∧
    DI.Spec.CanonExt pxEnv.di := ⟨DI.exSuites_std, rfl, DI.exE_ext⟩

/-! ## C39: the gap -/

/-- **C39 fails with external contexts**: checking the linked-data proof writes the external contexts
into the returned credential's `@context`, so switching the proof check off changes what is returned. -/
theorem proof_check_changes_context :
    ∃ (o : ParseOpts pxEnv) (vc vc' : PCred pxEnv.T),
      parseCredential pxEnv o "{ld}" = .ok vc ∧
      parseCredential pxEnv (noProofCheck pxEnv o) "{ld}" = .ok vc' ∧
      get? vc.json "@context" =
        some (.arr [.str "https://www.w3.org/2018/credentials/v1", .str "urn:ext"]) ∧
      get? vc'.json "@context" = some (.arr [.str "https://www.w3.org/2018/credentials/v1"]) :=
  ⟨{ pxOpts with externalContext := ["urn:ext"] }, _, _, rfl, rfl, rfl, rfl⟩

/-- A switch turned off on an accepted input, and one that widens acceptance. -/
example : pxView (parseCredential pxEnv (switches pxEnv pxOpts true true true) "h.p.s") =
      some (some "did:ex:a", some "h.p.s") ∧
    pxView (parseCredential pxEnv (switches pxEnv pxOpts false true false) "{other}") =
      some (some "did:ex:b", none) := ⟨rfl, rfl⟩

/-- Validation matters: without the base context of its mode the document is refused unless
validation is off. -/
example :
    pxKind (parseCredential pxEnv { pxOpts with
      mode := .baseContext, allowedContexts := ["x"] } "{ld}") = 2 ∧
    pxKind (parseCredential pxEnv { pxOpts with
      mode := .baseContext, allowedContexts := ["x"], disableValidation := true } "{ld}") = 0 := ⟨rfl, rfl⟩

end VC.Vfy
