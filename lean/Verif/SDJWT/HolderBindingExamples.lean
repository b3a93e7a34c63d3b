import Verif.SDJWT.HolderBinding
import Verif.SDJWT.DatesExamples
import Verif.SDJWT.IssuerExamples
import Verif.Issue.Examples
/-! # C145, C146: concrete cases -/
namespace VC.SDJWT
open VC VC.Num Spec

/-- A JWS library: headers and claims have one-byte encodings. -/
def kbL : Iss.JwsLib where
  b64 := fun b => String.ofList (b.map Iss.ivChar)
  enc := fun m => if (GoMap.get? m "alg").isSome then some [1] else some [2]
  utf8 := fun _ => [9]

theorem kb_b64 : Iss.Spec.B64 kbL := ⟨Iss.iv_b64.alphabet, Iss.iv_b64.empty, Iss.iv_b64.nonempty⟩

/-- A holder's binding for nonce "n" and audience "v", at second 5, signed with a key. -/
def kbInfo (key : Proof.Bytes) : BindingInfo where
  payload := ⟨"n", "v", some 5⟩
  headers := [("typ", .str "JWT")]
  signerHeaders := [("alg", .str "EdDSA")]
  sign := fun d => some (d ++ key)

/-- The headers of the binding JWT. -/
def kbHdr : JObj := [("typ", .str "JWT"), ("alg", .str "EdDSA")]

/-- The binding JWT. -/
def kbTok (key : Proof.Bytes) : Iss.Tok := ⟨kbHdr, (kbInfo key).payload.claims, ⟨kbHdr, [2], [9], [9] ++ key⟩, [1]⟩

theorem kbTok_made (key : Proof.Bytes) : Iss.newJoseSigned kbL (kbInfo key).payload.claims (kbInfo key).headers
    (kbInfo key).signerHeaders (kbInfo key).sign = some (kbTok key) := by rfl

/-- Another holder's key. -/
def kbThief : Proof.Bytes := List.replicate 32 8

/-- The issuer's claims: two disclosures and the holder's key. -/
def kbClaims : JObj := [("iss", .str "did:ex:a"), ("_sd_alg", .str "SHA-256"),
  ("_sd", .arr [.str "hA", .str "hC"]), ("cnf", .obj [("jwk", .str "key")])]

/-- The verifier's library. -/
def kbLib : VLib where
  jwt :=
    { parseJWS := fun _ s =>
        if s = "sd" then some ⟨exHdr, [1], [5], [5] ++ Proof.exKey⟩
        else if s = Iss.serialize kbL false (kbTok Proof.exKey) then some (kbTok Proof.exKey).jws
        else if s = Iss.serialize kbL false (kbTok kbThief) then some (kbTok kbThief).jws
        else none
      payloadToMap := fun b =>
        if b = [1] then some kbClaims else if b = [2] then some (kbInfo Proof.exKey).payload.claims else none
      upper := fun s => s
      jsonString := fun v => match v with | .str s => s | _ => "" }
  env := exEnv
  prim := Proof.exPrim
  times := fun _ => none
  binding := fun _ => none
  jwk := fun v => match v with
    | .str "key" => some ⟨"OKP", "Ed25519", .ed25519 Proof.exKey⟩
    | _ => none
  validJSON := fun _ => true

theorem kb_fold : FoldSane dtC := by unfold FoldSane; decide +kernel

theorem kb_time (key : Proof.Bytes) : PlainTime (kbInfo key).payload := by
  intro n h
  cases h
  exact ⟨by norm_num, by decide⟩

/-- The text of the issued SD-JWT. -/
def kbIssued : String := "sd~A~C"

theorem kb_parts : parseIssuance kbIssued = ⟨"sd", ["A", "C"]⟩ := by decide +kernel

theorem kb_present (key : Proof.Bytes) (d : String) (hd : d ∈ ["A", "C"]) :
    ∃ text, present kbL kbIssued [d] (some (kbInfo key)) = .ok text := by
  unfold present
  refine (holder_discloses_exactly kbIssued [d] _ ?_).2.2 ⟨?_, ?_, ?_⟩
  · intro t ht
    simp only [Option.map_some, Option.some.injEq] at ht
    obtain ⟨t', -, rfl⟩ := holderVerification_tok ht
    exact Iss.serialize_noChar kbL kb_b64 t' '~' (by decide) (by decide) (by decide) (by decide)
  · rw [kb_parts]; simp
  · rw [kb_parts]; intro x hx; rw [List.mem_singleton.1 hx]; exact hd
  · simp [createHolderVerification, kbTok_made]

theorem kb_ne : Iss.serialize kbL false (kbTok Proof.exKey) ≠ "sd" ∧ Iss.serialize kbL false (kbTok kbThief) ≠ "sd" ∧
    Iss.serialize kbL false (kbTok kbThief) ≠ Iss.serialize kbL false (kbTok Proof.exKey) := by decide +kernel

theorem kb_reads : Iss.ReadsToken kbL kbLib.jwt false (kbTok Proof.exKey) := by
  refine ⟨?_, rfl⟩
  simp only [kbLib]
  rw [if_neg kb_ne.1, if_pos trivial]

theorem kb_readsThief : Iss.ReadsToken kbL kbLib.jwt false (kbTok kbThief) := by
  refine ⟨?_, rfl⟩
  simp only [kbLib]
  rw [if_neg kb_ne.2.1, if_neg kb_ne.2.2, if_pos trivial]

/-- Without a binding both choices are accepted. -/
theorem kb_plain : verifierParse (kbLib.std dtC) (NoBinding (exOpts 6000000000 "n")) GoMap.keys "sd~A~" =
      .ok [("name", .str "Ann"), ("iss", .str "did:ex:a"), ("cnf", .obj [("jwk", .str "key")])] ∧
    verifierParse (kbLib.std dtC) (NoBinding (exOpts 6000000000 "n")) GoMap.keys "sd~C~" =
      .ok [("city", .str "Oslo"), ("iss", .str "did:ex:a"), ("cnf", .obj [("jwk", .str "key")])] := ⟨by rfl, by rfl⟩

theorem kb_signed : SignedPayload kbLib (exOpts 6000000000 "n") "sd" kbClaims :=
  ⟨⟨exHdr, [1], [5], [5] ++ Proof.exKey⟩, rfl, rfl⟩

theorem kb_cnf : CnfKey kbLib kbClaims ⟨"OKP", "Ed25519", .ed25519 Proof.exKey⟩ :=
  ⟨[("jwk", .str "key")], .str "key", .inl rfl, rfl, rfl⟩

theorem kb_fits : Fits kbLib (exOpts 6000000000 "n") (kbInfo Proof.exKey).payload (kbTok Proof.exKey).jws
    ⟨"OKP", "Ed25519", .ed25519 Proof.exKey⟩ where
  headers := by
    refine ⟨by decide +kernel, ?_, (fun h => by cases h)⟩
    intro v hv
    have : v = .str "JWT" := by
      have e : GoMap.get? kbHdr "typ" = some (.str "JWT") := by rfl
      have hv' : GoMap.get? kbHdr "typ" = some v := hv
      rw [e] at hv'; exact (Option.some.inj hv').symm
    subst this
    exact ⟨_, rfl, .inl ⟨by decide +kernel, rfl⟩⟩
  key := ⟨"EdDSA", rfl, by decide, by decide,
    (Proof.default_alg_iff Proof.exPrim _ (Proof.standard_holder _) "EdDSA" _ _ _).1 (by rfl)⟩
  nonce := .inr rfl
  aud := .inr rfl
  time := by intro n h _; cases h; decide

/-- **C145**: the holder's presentation is accepted, one second after it was made. -/
theorem kb_accepted : ∃ text out, present kbL kbIssued ["A"] (some (kbInfo Proof.exKey)) = .ok text ∧
    verifierParse (kbLib.std dtC) (exOpts 6000000000 "n") GoMap.keys text = .ok out ∧
    GoMap.get? out "name" = some (.str "Ann") := by
  obtain ⟨text, ht⟩ := kb_present Proof.exKey "A" (by simp)
  obtain ⟨t, h1, h2⟩ := bound_presentation_iff kbLib dtC kb_fold kbL kb_b64 (exOpts 6000000000 "n") GoMap.keys kbIssued
    ["A"] (kbInfo Proof.exKey) (kb_time _) text "sd~A~" ht (by rfl)
  rw [kbTok_made] at h1
  cases h1
  exact ⟨text, _, ht, (h2 kb_reads _).2 ⟨kb_plain.1, kbClaims, _, by rw [kb_parts]; exact kb_signed, kb_cnf, kb_fits⟩,
    by rfl⟩

/-- Asked for another nonce it is refused. -/
example : ∃ text, present kbL kbIssued ["A"] (some (kbInfo Proof.exKey)) = .ok text ∧
    ∀ out, verifierParse (kbLib.std dtC) (exOpts 6000000000 "m") GoMap.keys text ≠ .ok out := by
  obtain ⟨text, ht⟩ := kb_present Proof.exKey "A" (by simp)
  refine ⟨text, ht, other_challenge_refused kbLib dtC kb_fold kbL kb_b64 _ _ kbIssued ["A"] (kbInfo Proof.exKey)
    (kb_time _) text ht ?_ (.inl ⟨by decide, by decide⟩)⟩
  intro t h
  rw [kbTok_made] at h
  cases h
  exact kb_reads

theorem kb_thief (m : JObj) (k : Proof.Jwk) (alg : String) (data : Proof.Bytes)
    (h1 : SignedPayload kbLib (exOpts 6000000000 "n") "sd" m) (h2 : CnfKey kbLib m k) :
    ¬ Proof.AlgAccepts kbLib.prim ⟨"JsonWebKey2020", [], some k⟩ data (data ++ kbThief) alg := by
  obtain ⟨j, j1, j2⟩ := h1
  have e : kbLib.jwt.parseJWS (exOpts 6000000000 "n").detached "sd" = some ⟨exHdr, [1], [5], [5] ++ Proof.exKey⟩ := rfl
  rw [e] at j1; cases j1
  have e2 : kbLib.jwt.payloadToMap [1] = some kbClaims := rfl
  rw [e2] at j2; cases j2
  have hk : k = ⟨"OKP", "Ed25519", .ed25519 Proof.exKey⟩ := by
    obtain ⟨c, v, c1, c2, c3⟩ := h2
    have e3 : GoMap.get? kbClaims "cnf" = some (.obj [("jwk", .str "key")]) := rfl
    rcases c1 with c1 | ⟨c1, -⟩
    · rw [e3] at c1; cases c1
      have e4 : GoMap.get? [("jwk", Json.str "key")] "jwk" = some (.str "key") := rfl
      rw [e4] at c2; cases c2
      have e5 : kbLib.jwk (.str "key") = some ⟨"OKP", "Ed25519", .ed25519 Proof.exKey⟩ := rfl
      rw [e5] at c3; exact (Option.some.inj c3).symm
    · rw [e3] at c1; cases c1
  subst hk
  intro h
  cases h with
  | eddsa a b c d =>
    have : _ = some Proof.exKey := rfl
    have b' : some Proof.exKey = some _ := b
    cases b'
    have d' : ((data ++ kbThief) == (data ++ Proof.exKey)) = true := d
    have := List.append_cancel_left (beq_iff_eq.1 d')
    exact absurd this (by decide)
  | _ => simp_all [Proof.JwkMethod, Proof.TypedMethod, kbLib, Proof.exPrim]

/-- Signed with another key it is refused. -/
example : ∃ text, present kbL kbIssued ["A"] (some (kbInfo kbThief)) = .ok text ∧
    ∀ out, verifierParse (kbLib.std dtC) (exOpts 6000000000 "n") GoMap.keys text ≠ .ok out := by
  obtain ⟨text, ht⟩ := kb_present kbThief "A" (by simp)
  refine ⟨text, ht, other_holder_refused kbLib dtC kb_fold kbL kb_b64 _ _ kbIssued ["A"] (kbInfo kbThief)
    (kb_time _) text ht ?_ ?_⟩
  · intro t h
    rw [kbTok_made] at h
    cases h
    exact kb_readsThief
  · intro m k h1 h2 data sig alg hs
    cases hs
    rw [kb_parts] at h1
    exact kb_thief m k alg data h1 h2

/-- **C146**, witness: from the accepted presentation of "A" anyone makes an accepted presentation of "C". -/
theorem kb_reused : ∃ hv out, verifierParse (kbLib.std dtC) (exOpts 6000000000 "n") GoMap.keys
      (Presentation.serialize ⟨"sd", ["A"], hv⟩) = .ok out ∧ hv ≠ "" ∧
    verifierParse (kbLib.std dtC) (exOpts 6000000000 "n") GoMap.keys (Presentation.serialize ⟨"sd", ["C"], hv⟩) =
      .ok [("city", .str "Oslo"), ("iss", .str "did:ex:a"), ("cnf", .obj [("jwk", .str "key")])] := by
  have hnc : NoChar '~' (Iss.serialize kbL false (kbTok Proof.exKey)) :=
    Iss.serialize_noChar kbL kb_b64 _ '~' (by decide) (by decide) (by decide) (by decide)
  have hok : verifierParse (kbLib.std dtC) (exOpts 6000000000 "n") GoMap.keys
      (Presentation.serialize ⟨"sd", ["A"], Iss.serialize kbL false (kbTok Proof.exKey)⟩) =
        .ok [("name", .str "Ann"), ("iss", .str "did:ex:a"), ("cnf", .obj [("jwk", .str "key")])] := by
    obtain ⟨text, ht⟩ := kb_present Proof.exKey "A" (by simp)
    have e : text = Presentation.serialize ⟨"sd", ["A"], Iss.serialize kbL false (kbTok Proof.exKey)⟩ := by
      have : present kbL kbIssued ["A"] (some (kbInfo Proof.exKey)) =
        .ok (Presentation.serialize ⟨"sd", ["A"], Iss.serialize kbL false (kbTok Proof.exKey)⟩) := by rfl
      rw [this] at ht; cases ht; rfl
    obtain ⟨t, h1, h2⟩ := bound_presentation_iff kbLib dtC kb_fold kbL kb_b64 (exOpts 6000000000 "n") GoMap.keys kbIssued
      ["A"] (kbInfo Proof.exKey) (kb_time _) text "sd~A~" ht (by rfl)
    rw [kbTok_made] at h1
    cases h1
    rw [← e]
    exact (h2 kb_reads _).2 ⟨kb_plain.1, kbClaims, _, by rw [kb_parts]; exact kb_signed, kb_cnf, kb_fits⟩
  refine ⟨_, _, hok, serialize_ne _ _, ?_⟩
  refine binding_reused (kbLib.std dtC) _ _ "sd" "sd" ["A"] ["C"] _ (by decide +kernel) (by decide +kernel)
    (by decide +kernel) (by decide +kernel) hnc ?_ _ _ (serialize_ne _ _) hok ?_
  · rintro m m' ⟨j, j1, j2⟩ ⟨j', j1', j2'⟩ v hv
    rw [j1] at j1'; cases j1'
    rw [j2] at j2'; cases j2'
    exact hv
  · have : Presentation.serialize ⟨"sd", ["C"], ""⟩ = "sd~C~" := by decide +kernel
    rw [this]
    exact kb_plain.2

/-- The hypotheses of `binding_tied_to_key_partial` are met by a thief's JWT. -/
example (out : JObj) : verifierParse (kbLib.std dtC) (exOpts 6000000000 "n") GoMap.keys
    (Presentation.serialize ⟨"sd", ["A"], Iss.serialize kbL false (kbTok kbThief)⟩) ≠ .ok out := by
  refine binding_tied_to_key_partial (kbLib.std dtC) _ _ "sd" ["A"] _ (by decide +kernel) (by decide +kernel)
    (Iss.serialize_noChar kbL kb_b64 _ '~' (by decide) (by decide) (by decide) (by decide)) (serialize_ne _ _)
    (kbTok kbThief).jws kb_readsThief.parse ?_ out
  intro m k alg h1 h2
  exact kb_thief m k alg _ h1 h2

/-- An SD-JWT issued with the holder's key, over claims that name a `cnf` of their own: the option wins. -/
example : ∃ es payload, newWith (isIEnv true true isSalts) .v2 { isBase with cnf := some (.str "key") }
      [("cnf", .obj [("jwk", .str "other")]), ("name", .str "Ann")] = .ok (es, payload) ∧
    CnfKey kbLib payload ⟨"OKP", "Ed25519", .ed25519 Proof.exKey⟩ :=
  ⟨_, _, rfl, (issued_holder_key kbLib (isIEnv true true isSalts) .v2 { isBase with cnf := some (.str "key") } (.str "key")
    rfl [("cnf", .obj [("jwk", .str "other")]), ("name", .str "Ann")] _ _ rfl _).2 rfl⟩

/-- The same for a credential. -/
example : ∃ es payload, newFromVC (isIEnv true true isSalts) .v2 { isBase with cnf := some (.str "key") }
      [("vc", .obj [("credentialSubject", .obj [("name", .str "Ann")])])] = .ok (es, payload) ∧
    CnfKey kbLib payload ⟨"OKP", "Ed25519", .ed25519 Proof.exKey⟩ :=
  ⟨_, _, rfl, (credential_holder_key kbLib (isIEnv true true isSalts) .v2 { isBase with cnf := some (.str "key") }
    (.str "key") rfl [("vc", .obj [("credentialSubject", .obj [("name", .str "Ann")])])] _ _ rfl (fun _ => rfl) _).2 rfl⟩

/-- **C145**, a hazard: a `cnf` in the claims around the `vc` claim silently wins over the key given to `NewFromVC`. -/
theorem kb_outer_cnf_wins : ∃ es payload,
    newFromVC (isIEnv true true isSalts) .v2 { isBase with cnf := some (.str "key") }
      [("cnf", .obj [("jwk", .str "other")]), ("vc", .obj [("credentialSubject", .obj [("name", .str "Ann")])])] =
        .ok (es, payload) ∧
    ¬ CnfKey kbLib payload ⟨"OKP", "Ed25519", .ed25519 Proof.exKey⟩ := by
  refine ⟨_, _, rfl, ?_⟩
  intro h
  have h' := (cnfKey_iff (j := .str "other") (claimIs_top (by rfl))).1 h
  cases h'

end VC.SDJWT
