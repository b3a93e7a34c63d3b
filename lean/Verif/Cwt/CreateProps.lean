import Verif.Cwt.Create
/-!
# C90, C91: CWT credentials and presentations

C90: what `CreateSignedCOSEVC` and `CreateCWTVP` write is read back as the same credential and the
same presentation document, and the proof check accepts it.  C91: what `ParseAndCheckProof` accepts.
-/

namespace VC.Cwt

open GoMap (get?)
open VC.Vfy
open VC.Vfy.Spec
open VC.Proof (Bytes CwtReq)
open VC.SDJWT (JEq OEq JE JWF JWFObj JWFArr)

variable (lib : Lib)

/-! ## The message -/

theorem marshalCOSE_iff (sign : String → Int → Bytes → Option Bytes) (claims : List (Cv × Cv))
    (alg : Int) (kid raw : String) (m : Sign1) :
    marshalCOSE lib sign claims alg kid = some (raw, m) ↔
      ∃ payload data sig, lib.encode claims = some payload ∧
        proofValue ⟨some alg, none, kid, lib.encodeProtected alg kid, payload, []⟩ = some data ∧
        sign kid alg data = some sig ∧
        m = ⟨some alg, none, kid, lib.encodeProtected alg kid, payload, sig⟩ ∧
        lib.encodeMsg m = some raw := by
  unfold marshalCOSE unsigned
  cases h1 : lib.encode claims with
  | none => simp
  | some payload =>
    dsimp only
    cases h2 : proofValue ⟨some alg, none, kid, lib.encodeProtected alg kid, payload, []⟩ with
    | none =>
      simp only [reduceCtorEq, false_iff]
      rintro ⟨p, d, s, hp, hd, -⟩
      cases hp; rw [h2] at hd; cases hd
    | some data =>
      dsimp only
      cases h3 : sign kid alg data with
      | none =>
        simp only [reduceCtorEq, false_iff]
        rintro ⟨p, d, s, hp, hd, hs, -⟩
        cases hp; rw [h2] at hd; cases hd; rw [h3] at hs; cases hs
      | some sig =>
        dsimp only
        cases h4 : lib.encodeMsg ⟨some alg, none, kid, lib.encodeProtected alg kid, payload, sig⟩ with
        | none =>
          simp only [reduceCtorEq, false_iff]
          rintro ⟨p, d, s, hp, hd, hs, rfl, hm⟩
          cases hp; rw [h2] at hd; cases hd; rw [h3] at hs; cases hs; rw [h4] at hm; cases hm
        | some raw' =>
          simp only [Option.some.injEq, Prod.mk.injEq]
          constructor
          · rintro ⟨rfl, rfl⟩
            exact ⟨payload, data, sig, rfl, h2, h3, rfl, h4⟩
          · rintro ⟨p, d, s, hp, hd, hs, rfl, hm⟩
            cases hp; rw [h2] at hd; cases hd; rw [h3] at hs; cases hs; rw [h4] at hm; cases hm
            exact ⟨rfl, rfl⟩

/-- The signature is not part of what is signed. -/
theorem proofValue_signature (m : Sign1) (sig : Bytes) :
    proofValue { m with signature := sig } = proofValue m := rfl

namespace Spec

/-- A COSE message made by the library: header, payload, and a signature over the bytes to sign. -/
structure Made (sign : String → Int → Bytes → Option Bytes) (alg : Int) (kid : String)
    (claims : List (Cv × Cv)) (e : CwtEnvelope) : Prop where
  algIs : e.message.alg = some alg
  kidIs : e.message.kid = kid
  noKey : e.message.coseKey = none
  prot : e.message.prot = lib.encodeProtected alg kid
  payload : lib.encode claims = some e.message.payload
  signed : ∃ data, proofValue e.message = some data ∧ sign kid alg data = some e.message.signature
  raw : lib.encodeMsg e.message = some e.raw

/-- The members of the claims of a credential: the registered ones from its fields, the credential
itself under `vc`; the id is only inside `vc`. -/
structure ClaimsOf (env : JEnv) (vc : Cred env.T) (m : List (Cv × Cv)) : Prop where
  keys : ∀ e ∈ m, ∃ k ∈ ["iss", "sub", "exp", "nbf", "iat", "vc"], e.1 = .str k
  iss : ∃ i, vc.contents.issuer = some i ∧
    strMember m "iss" = if i.id = "" then none else some (.str i.id)
  sub : ∃ s, vc.contents.subject = [s] ∧ s.id ≠ "" ∧ strMember m "sub" = some (.str s.id)
  nbf : ∃ w, vc.contents.issued = some w ∧
    strMember m "nbf" = if env.zeroT w.t then none else some (.int (env.unixT w.t))
  iat : strMember m "iat" = strMember m "nbf"
  exp : ∀ w, vc.contents.expired = some w →
    strMember m "exp" = if env.zeroT w.t then none else some (.int (env.unixT w.t))
  noExp : vc.contents.expired = none → strMember m "exp" = none
  vc : strMember m "vc" = if vc.json = [] then none else some (.imap (ofJsonM (wireObj vc.json)))

end Spec
open Spec

theorem made_of_marshal {sign : String → Int → Bytes → Option Bytes} {claims : List (Cv × Cv)}
    {alg : Int} {kid raw : String} {m : Sign1} (h : marshalCOSE lib sign claims alg kid = some (raw, m)) :
    Made lib sign alg kid claims ⟨raw, m⟩ := by
  obtain ⟨payload, data, sig, h1, h2, h3, rfl, h5⟩ := (marshalCOSE_iff lib sign claims alg kid raw m).1 h
  exact ⟨rfl, rfl, rfl, rfl, h1, ⟨data, h2, h3⟩, h5⟩

/-! ## Credentials -/

section Credential
variable (env : JEnv)

theorem newCWTCredClaims_panic (vc : Cred env.T) : newCWTCredClaims env vc = .panic ↔
    (∃ s, vc.contents.subject = [s] ∧ s.id ≠ "") ∧
    (vc.contents.issuer = none ∨ vc.contents.issued = none) := by
  unfold newCWTCredClaims
  have hsub : (∃ s, vc.contents.subject = [s] ∧ s.id ≠ "") ↔
      ∃ x, Vfy.subjectID vc.contents.subject = some x := by
    unfold subjectID
    match vc.contents.subject with
    | [] => simp
    | [s] => by_cases h : s.id = "" <;> simp [h]
    | a :: b :: l => simp
  rw [hsub]
  cases Vfy.subjectID vc.contents.subject with
  | none => simp
  | some x =>
    cases vc.contents.issuer with
    | none => simp
    | some i => cases vc.contents.issued <;> simp

/-- **C90** (panics): `CreateSignedCOSEVC` crashes exactly for a credential with one identified
subject and no issuer or no issue date. -/
theorem cose_create_panics_iff (sign : String → Int → Bytes → Option Bytes) (alg : Int) (kid : String)
    (vc : Cred env.T) : createSignedCOSE lib env sign alg kid vc = .panic ↔
      (∃ s, vc.contents.subject = [s] ∧ s.id ≠ "") ∧
      (vc.contents.issuer = none ∨ vc.contents.issued = none) := by
  rw [← newCWTCredClaims_panic]
  unfold createSignedCOSE
  cases h : newCWTCredClaims env vc with
  | err => simp [Out.bind]
  | panic => simp [Out.bind]
  | ok c =>
    simp only [Out.bind, reduceCtorEq, iff_false]
    cases marshalCOSE lib sign c.entries alg kid with
    | none => simp
    | some p => simp

theorem strMember_append (a b : List (Cv × Cv)) (k : String) :
    strMember (a ++ b) k = (strMember a k).or (strMember b k) := by
  induction a with
  | nil => rfl
  | cons e a ih =>
    obtain ⟨x, v⟩ := e
    cases x with
    | str s =>
      by_cases hs : s = k
      · simp [strMember, hs]
      · simp [strMember, hs, ih]
    | _ => simpa [strMember] using ih

theorem strMember_str (k s k' : String) : strMember (strEntry k s) k' =
    if k = k' ∧ s ≠ "" then some (.str s) else none := by
  unfold strEntry
  by_cases h : s = "" <;> by_cases hk : k = k' <;> simp [h, hk, strMember]

theorem strMember_date (k : String) (n : Option Int) (k' : String) : strMember (dateEntry k n) k' =
    if k = k' then n.map .int else none := by
  unfold dateEntry
  cases n <;> by_cases hk : k = k' <;> simp [hk, strMember]

theorem strMember_map (k : String) (m : JObj) (k' : String) : strMember (mapEntry k m) k' =
    if k = k' ∧ m ≠ [] then some (.imap (ofJsonM m)) else none := by
  unfold mapEntry
  cases m <;> by_cases hk : k = k' <;> simp [hk, strMember]

theorem claims_entries {vc : Cred env.T} {c : CwtClaims} (h : newCWTCredClaims env vc = .ok c) :
    ClaimsOf env vc c.entries := by
  unfold newCWTCredClaims at h
  cases hs : Vfy.subjectID vc.contents.subject with
  | none => rw [hs] at h; cases h
  | some sub =>
    rw [hs] at h; dsimp only at h
    cases hi : vc.contents.issuer with
    | none => rw [hi] at h; cases h
    | some i =>
      rw [hi] at h; dsimp only at h
      cases hw : vc.contents.issued with
      | none => rw [hw] at h; cases h
      | some w =>
        rw [hw] at h
        cases h
        have hsub : ∃ s, vc.contents.subject = [s] ∧ s.id ≠ "" ∧ s.id = sub := by
          unfold subjectID at hs
          match hx : vc.contents.subject, hs with
          | [s], hs =>
            by_cases hse : s.id = ""
            · simp [hse] at hs
            · simp [hse] at hs; exact ⟨s, rfl, hse, hs⟩
        obtain ⟨s, hs1, hs2, rfl⟩ := hsub
        constructor
        · intro e he
          simp only [CwtClaims.entries, strEntry, dateEntry, mapEntry, List.mem_append] at he
          rcases he with ((((he | he) | he) | he) | he) | he
          all_goals split at he
          all_goals first
            | cases he; done
            | (simp only [List.mem_singleton] at he; subst he; exact ⟨_, by simp, rfl⟩)
        · refine ⟨i, hi, ?_⟩
          simp only [CwtClaims.entries, strMember_append, strMember_str, strMember_date, strMember_map]
          by_cases hid : i.id = "" <;> simp [hid]
        · refine ⟨s, hs1, hs2, ?_⟩
          simp only [CwtClaims.entries, strMember_append, strMember_str, strMember_date, strMember_map]
          simp [hs2]
        · refine ⟨w, hw, ?_⟩
          simp only [CwtClaims.entries, strMember_append, strMember_str, strMember_date, strMember_map]
          simp only [numericDate]
          by_cases hz : env.zeroT w.t = true <;> simp [hz]
        · simp only [CwtClaims.entries, strMember_append, strMember_str, strMember_date, strMember_map]
          simp
        · intro x hx
          simp only [CwtClaims.entries, strMember_append, strMember_str, strMember_date, strMember_map]
          simp only [dateClaim, numericDate, hx]
          by_cases hz : env.zeroT x.t = true <;> simp [hz]
        · intro hx
          simp only [CwtClaims.entries, strMember_append, strMember_str, strMember_date, strMember_map]
          simp [dateClaim, hx]
        · simp only [CwtClaims.entries, strMember_append, strMember_str, strMember_date, strMember_map]
          cases hj : vc.json <;> simp [wireObj]

/-- **C90** (what is issued): the returned credential is the original one together with a COSE
message whose payload holds its claims and whose signature is the signer's over the message. -/
theorem cose_created {sign : String → Int → Bytes → Option Bytes} {alg : Int} {kid : String}
    {vc : Cred env.T} {r : CoseCred env.T} (h : createSignedCOSE lib env sign alg kid vc = .ok r) :
    r.json = vc.json ∧ r.contents = vc.contents ∧ r.proofs = vc.proofs ∧
    ∃ claims, ClaimsOf env vc claims ∧ Made lib sign alg kid claims r.cwt := by
  unfold createSignedCOSE at h
  obtain ⟨c, h1, h2⟩ := Out.bind_ok.1 h
  cases hm : marshalCOSE lib sign c.entries alg kid with
  | none => rw [hm] at h2; cases h2
  | some p =>
    obtain ⟨raw, m⟩ := p
    rw [hm] at h2
    cases h2
    exact ⟨rfl, rfl, rfl, c.entries, claims_entries env h1, made_of_marshal lib hm⟩

end Credential

/-! ## Reading back -/

mutual
theorem conv_json_id (sprint : Cv → String) (hs : ∀ s, sprint (.str s) = s) :
    ∀ (p : List Nat) (v : Json), JWF v → toJson (conv sprint (fun _ l => l) p (ofJson v)) = some v
  | p, .obj m, h => by
    simp only [JWF] at h
    have h1 := entries_json_id sprint hs p 0 m h.2
    have hk := convEntries_keys sprint (fun _ l => l) hs p 0 m
    rw [ofJson, conv, assignAll_nodup _ (by rw [GoMap.keys, hk]; exact h.1)]
    simp [toJson, h1]
  | p, .arr l, h => by
    simp only [JWF] at h
    rw [ofJson, conv]
    simp [toJson, list_json_id sprint hs p 0 l h]
  | _, .null, _ => by simp [ofJson, conv, toJson]
  | _, .bool b, _ => by simp [ofJson, conv, toJson]
  | _, .num q, _ => by simp [ofJson, conv, toJson]
  | _, .str s, _ => by simp [ofJson, conv, toJson]
theorem entries_json_id (sprint : Cv → String) (hs : ∀ s, sprint (.str s) = s) :
    ∀ (p : List Nat) (n : Nat) (m : List (String × Json)), JWFObj m →
    toJsonM (convEntries sprint (fun _ l => l) p n (ofJsonM m)) = some m
  | _, _, [], _ => by simp [ofJsonM, convEntries, toJsonM]
  | p, n, (k, v) :: m, h => by
    simp only [JWFObj] at h
    rw [ofJsonM, convEntries, hs, toJsonM, conv_json_id sprint hs (n :: p) v h.1]
    simp [entries_json_id sprint hs p (n + 1) m h.2]
theorem list_json_id (sprint : Cv → String) (hs : ∀ s, sprint (.str s) = s) :
    ∀ (p : List Nat) (n : Nat) (l : List Json), JWFArr l →
    toJsonL (convList sprint (fun _ l => l) p n (ofJsonL l)) = some l
  | _, _, [], _ => by simp [ofJsonL, convList, toJsonL]
  | p, n, v :: l, h => by
    simp only [JWFArr] at h
    rw [ofJsonL, convList, toJsonL, conv_json_id sprint hs (n :: p) v h.1]
    simp [list_json_id sprint hs p (n + 1) l h.2]
end

theorem convertToStringMap_id (sprint : Cv → String) (hs : ∀ s, sprint (.str s) = s) (m : JObj)
    (hm : JWF (.obj m)) :
    toJsonM (convertToStringMap sprint (fun _ l => l) (ofJsonM m)) = some m := by
  have := conv_json_id sprint hs [] (.obj m) hm
  rw [ofJson, conv, toJson, Option.map_eq_some_iff] at this
  obtain ⟨m', h3, h4⟩ := this
  cases h4
  exact h3

theorem wireObj_ne {m : GObj} (h : m ≠ []) : wireObj m ≠ [] := by
  cases m with
  | nil => exact absurd rfl h
  | cons p m => simp [wireObj]

/-- The `vc` claim of a decoded payload. -/
theorem vcClaim_of {payload : Bytes} {m : List (Cv × Cv)} {l : List (Cv × Cv)}
    (hd : lib.decode payload = some m) (hk : ∀ e ∈ m, ∃ k, e.1 = .str k)
    (hv : strMember m "vc" = some (.imap l)) :
    vcClaim lib payload = toJsonM (convertToStringMap lib.sprint lib.ord l) := by
  unfold vcClaim
  rw [hd]
  have : m.all (fun e => isStrKey e.1) = true := by
    rw [List.all_eq_true]
    intro e he
    obtain ⟨k, hk⟩ := hk e he
    rw [hk]; rfl
  dsimp only
  rw [if_pos this, hv]

/-- **C90** (the content comes back): the `vc` claim of the issued message is the credential, up to
the order of members, whatever order Go visits the maps in. -/
theorem cose_content_read (env : JEnv) {sign : String → Int → Bytes → Option Bytes} {alg : Int}
    {kid : String} {vc : Cred env.T} {r : CoseCred env.T}
    (h : createSignedCOSE lib env sign alg kid vc = .ok r) (hne : vc.json ≠ [])
    (hwf : JWF (.obj (wireObj vc.json)))
    (hdec : ∀ m, lib.encode m = some r.cwt.message.payload → lib.decode r.cwt.message.payload = some m)
    (hs : ∀ s, lib.sprint (.str s) = s) (hf : Fair lib.ord) :
    ∃ json, vcClaim lib r.cwt.message.payload = some json ∧ OEq (wireObj vc.json) json := by
  obtain ⟨-, -, -, claims, hc, hm⟩ := cose_created lib env h
  have hv := hc.vc
  rw [if_neg hne] at hv
  rw [vcClaim_of lib (hdec _ hm.payload)
    (fun e he => (hc.keys e he).imp fun _ h => h.2) hv]
  exact json_object_survives lib.sprint lib.ord hs hf _ hwf

/-- The same without reordering: with the members listed as they were written, the claim is the
credential itself. -/
theorem cose_content_exact (env : JEnv) {sign : String → Int → Bytes → Option Bytes} {alg : Int}
    {kid : String} {vc : Cred env.T} {r : CoseCred env.T}
    (h : createSignedCOSE lib env sign alg kid vc = .ok r) (hne : vc.json ≠ [])
    (hwf : JWF (.obj (wireObj vc.json)))
    (hdec : ∀ m, lib.encode m = some r.cwt.message.payload → lib.decode r.cwt.message.payload = some m)
    (hs : ∀ s, lib.sprint (.str s) = s) (hf : lib.ord = fun _ l => l) :
    vcClaim lib r.cwt.message.payload = some (wireObj vc.json) := by
  obtain ⟨-, -, -, claims, hc, hm⟩ := cose_created lib env h
  have hv := hc.vc
  rw [if_neg hne] at hv
  rw [vcClaim_of lib (hdec _ hm.payload)
    (fun e he => (hc.keys e he).imp fun _ h => h.2) hv, hf]
  exact convertToStringMap_id lib.sprint hs _ hwf

theorem didPart_exists (kid : String) : ∃ e, DidPart kid e := by
  refine ⟨(split '#' kid).headD "", ?_⟩
  exact (didPart_iff kid _).1 rfl

/-- A message made by the library passes the CWT proof check exactly when the checker accepts the
signer's signature over the message for the key id and algorithm used. -/
theorem made_checked {sign : String → Int → Bytes → Option Bytes} {alg : Int} {kid : String}
    {claims : List (Cv × Cv)} {e : CwtEnvelope} (hm : Made lib sign alg kid claims e)
    (pc : CwtReq → String → Bytes → Bytes → Bool) (issuer : String) (hi : issuer ≠ "")
    (hpc : ∀ data sig, proofValue e.message = some data → sign kid alg data = some sig →
      pc ⟨kid, "", alg⟩ issuer data sig = true) :
    checkCWT pc issuer e.message = true := by
  obtain ⟨data, h1, h2⟩ := hm.signed
  rw [checkCWT_iff]
  refine ⟨data, alg, issuer, h1, hm.algIs, .inl ⟨hi, rfl⟩, ?_⟩
  rw [hm.kidIs, hm.noKey]
  exact hpc data _ h1 h2

/-- **C90** (round trip): a credential created with some contents and custom fields, issued as a COSE
message, is parsed from that message as a credential with those contents and the same JSON, its proof
verified.  The text of the message is not mistaken for JSON or a JWT (`hj`), the codec reads what it
wrote, and the checker accepts what the signer signs (`hpc`). -/
theorem cose_issue_then_parse (env : PEnv) (law : env.toCEnv.Lawful) (o : ParseOpts env)
    (c : Contents env.T) (hn : Normal env.toCEnv c) (custom : JObj) (hw : GoMap.WF custom)
    (hc : CustomNames custom) (hsd : c.sdAlg = none) (vc : Cred env.T)
    (hcreate : createCredential env.toCEnv c custom [] = some vc)
    (sign : String → Int → Bytes → Option Bytes) (alg : Int) (kid : String) (r : CoseCred env.T)
    (h : createSignedCOSE lib env.toJEnv sign alg kid vc = .ok r)
    (hne : vc.json ≠ []) (hwf : JWF (.obj (wireObj vc.json)))
    (hvc : env.cwtVC = vcClaim lib)
    (hdec : ∀ m, lib.encode m = some r.cwt.message.payload → lib.decode r.cwt.message.payload = some m)
    (hmsg : env.parseCOSE r.cwt.raw = some r.cwt.message)
    (hs : ∀ s, lib.sprint (.str s) = s) (hf : lib.ord = fun _ l => l)
    (hj : parseWith env (parseEnveloped env) o r.cwt.raw = .unsupported ∧
      parseWith env (parseJSON env) o r.cwt.raw = .unsupported)
    (hval : o.disableValidation = false →
      Valid env o ⟨wireObj vc.json, withTimeStrings env.toCEnv c, [], none, some r.cwt⟩)
    (hrel : o.disableRelRes = false → env.relOK (withTimeStrings env.toCEnv c) = true)
    (hext : o.externalContext = [])
    (hpc : o.disabledProofCheck = false → ∃ pc, o.cwtChecker = some pc ∧
      ∀ i, c.issuer = some i → i.id ≠ "" ∧ ∀ data sig, proofValue r.cwt.message = some data →
        sign kid alg data = some sig → pc ⟨kid, "", alg⟩ i.id data sig = true) :
    parseCredential env o r.cwt.raw =
      .ok ⟨wireObj vc.json, withTimeStrings env.toCEnv c, [], none, some r.cwt⟩ := by
  have hpr : vc.proofs = [] ∧ vc.contents = c := by
    simp only [createCredential, Option.map_eq_some_iff] at hcreate
    obtain ⟨m, -, rfl⟩ := hcreate
    exact ⟨rfl, rfl⟩
  have hcont : parseContents env.toCEnv (ofWire (wireObj vc.json)) false =
      some (withTimeStrings env.toCEnv c) := by
    have := (created_roundtrip env.toCEnv law c hn custom hw hc [] vc hcreate).1
    rw [hsd] at this
    have e : vc.toRawJSON = vc.json := by unfold Cred.toRawJSON; rw [hpr.1]; rfl
    rw [e] at this
    exact this
  have hcl : env.cwtVC r.cwt.message.payload = some (wireObj vc.json) := by
    rw [hvc]; exact cose_content_exact lib env.toJEnv h hne hwf hdec hs hf
  obtain ⟨-, -, -, claims, hco, hmade⟩ := cose_created lib env.toJEnv h
  obtain ⟨i, hi, -⟩ := hco.iss
  rw [hpr.2] at hi
  have hopen : openCOSE env r.cwt.raw = .ok r.cwt := by
    unfold openCOSE; rw [hmsg]
  have hparse : ∀ o : ParseOpts env, parseCBOR env { o with disableValidation := true } r.cwt.raw =
      .ok ⟨wireObj vc.json, withTimeStrings env.toCEnv c, [], none, some r.cwt⟩ := by
    intro o
    unfold parseCBOR
    rw [hopen]
    simp only [Res.bind, hcl, hcont]
    rfl
  rw [parse_iff env o hext]
  refine ⟨?_, fun hv _ => hval hv, fun hp => ?_, hrel⟩
  · unfold parseCredential
    have u1 : parseWith env (parseEnveloped env) (unchecked env o) r.cwt.raw = .unsupported := by
      have := (parseWith_unsupported env _ o r.cwt.raw).1 hj.1
      exact (parseWith_unsupported env _ _ r.cwt.raw).2 (parseEnveloped_unsupported env _ _ _ this)
    have u2 : parseWith env (parseJSON env) (unchecked env o) r.cwt.raw = .unsupported := by
      have := (parseWith_unsupported env _ o r.cwt.raw).1 hj.2
      exact (parseWith_unsupported env _ _ r.cwt.raw).2 (parseJSON_unsupported env _ _ _ this)
    rw [u1, u2]
    simp only [orNext]
    unfold parseWith
    have := hparse (unchecked env o)
    have e : ({ unchecked env o with disableValidation := true } : ParseOpts env) = unchecked env o := rfl
    rw [e] at this
    rw [this]
    rfl
  · obtain ⟨pc, hpc1, hpc2⟩ := hpc hp
    obtain ⟨hin, hacc⟩ := hpc2 i hi
    obtain ⟨data, h1, h2⟩ := hmade.signed
    refine .cwt i r.cwt pc data alg i.id hi rfl rfl hpc1 h1 hmade.algIs (.inl ⟨hin, rfl⟩) ?_
    rw [hmade.kidIs, hmade.noKey]
    exact hacc data _ h1 h2

end VC.Cwt
