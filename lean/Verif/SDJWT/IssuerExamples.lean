import Verif.SDJWT.IssuerHolder
/-!
# Concrete issued tokens: the hypotheses of C13, C14, C15 are met, and where the round trip is lossy
-/

namespace VC.SDJWT
open List

/-- The disclosures of the examples (encoded form, decoded form). -/
def isTable : List (String × List Json) :=
  [("ds0", [.str "s0", .str "name", .str "Ann"]),
   ("ds1", [.str "s1", .str "city", .str "Ulm"]),
   ("ds2", [.str "s2", .str "langs", .arr [.str "en", .str "fr"]]),
   ("ds3", [.str "s3", .str "en"]),
   ("ds4", [.str "s4", .str "fr"]),
   ("ds5", [.str "s5", .str "x", .arr [.obj [("...", .str "hds3")], .obj [("...", .str "hds4")]]])]

def isEnv : Env where
  decode s := GoMap.get? isTable s
  hash _ s := "h" ++ s
  upper s := if s = "sha-256" then "SHA-256" else s

/-- Salts `s0`, `s1`, … from a start index; encoded disclosures are named after their salt. -/
def isIEnv (decoys : Bool) (structured : Bool) (salts : Nat → String) : IEnv where
  env := isEnv
  alg := "SHA-256"
  lower s := if s = "SHA-256" then "sha-256" else s
  encode l := match l with
    | .str s :: _ => "d" ++ s
    | _ => ""
  salt := salts
  shuffle _ l := l.reverse
  intn _ := 0
  addDecoys := decoys
  structured := structured
  nonSD p := p == "addr.zip"
  always _ := false
  recursive _ := false

def isBase : BaseOpts := ⟨"did:ex:issuer", "", "", "", "", none, some 5, none, none⟩

def isClaims : JObj :=
  [("name", .str "Ann"), ("addr", .obj [("city", .str "Ulm"), ("zip", .num 89073)]),
   ("langs", .arr [.str "en", .str "fr"])]

theorem isEnv_wf : EnvWF isEnv := by
  intro s arr h
  have := GoMap.mem_of_get? h
  simp only [isTable, List.mem_cons, Prod.mk.injEq, List.not_mem_nil, or_false] at this
  rcases this with ⟨_, rfl⟩ | ⟨_, rfl⟩ | ⟨_, rfl⟩ | ⟨_, rfl⟩ | ⟨_, rfl⟩ | ⟨_, rfl⟩ <;>
    simp [JWFArr, JWF, JWFObj, GoMap.keys]

theorem isEnv_nocol (alg : String) (ds : List String) : NoCollision isEnv alg ds := by
  intro s _ s' _ h
  simp only [isEnv] at h
  have := congrArg String.toList h
  simp only [String.toList_append, List.append_cancel_left_eq] at this
  exact String.toList_inj.mp this

theorem isIEnv_shuffles (a b : Bool) (f : Nat → String) : Shuffles (isIEnv a b f) := by
  intro n l; exact List.reverse_perm l

theorem isIEnv_alg (a b : Bool) (f : Nat → String) : AlgOk (isIEnv a b f) := by
  simp [AlgOk, isIEnv, isEnv]

theorem isClaims_ok : ClaimsOk isBase isClaims := by
  refine ⟨?_, ?_, ?_⟩
  · simp [isClaims, JWF, JWFObj, JWFArr, GoMap.keys]
  · simp [isClaims, UnreservedObj, Unreserved, UnreservedArr]
  · intro k hk
    simp only [isClaims, GoMap.keys, List.map_cons, List.map_nil, List.mem_cons, List.not_mem_nil,
      or_false] at hk
    rcases hk with rfl | rfl | rfl <;> exact fun h => absurd ((base_keys _).subset h) (by simp [baseNames])

/-- V2, structured, with one decoy per object: what is issued. -/
def exV2 : List Ent × JObj :=
  ([⟨"ds1", [.str "s1", .str "city", .str "Ulm"]⟩, ⟨"ds0", [.str "s0", .str "name", .str "Ann"]⟩,
    ⟨"ds2", [.str "s2", .str "langs", .arr [.str "en", .str "fr"]]⟩],
   [("iss", .str "did:ex:issuer"), ("nbf", .num 5), ("_sd_alg", .str "sha-256"),
    ("addr", .obj [("zip", .num 89073), ("_sd", .arr [.str "hdecoy1", .str "hds1"])]),
    ("_sd", .arr [.str "hdecoy0", .str "hds2", .str "hds0"])])

/-- The salts drawn in `exV2`: a decoy, `name`, a decoy, `city`, `langs`. -/
def isSalts (n : Nat) : String :=
  match n with
  | 0 => "decoy0"
  | 1 => "s0"
  | 2 => "decoy1"
  | 3 => "s1"
  | 4 => "s2"
  | _ => "s9"

theorem exV2_issued : newV2 (isIEnv true true isSalts) isBase isClaims = .ok exV2 := rfl

/-- The hypotheses of `v2_issue_present_verify` and `v2_full_disclosure` are met. -/
theorem exV2_ok : EnvWF (isIEnv true true isSalts).env ∧ Shuffles (isIEnv true true isSalts) ∧
    AlgOk (isIEnv true true isSalts) ∧ CnfOk isBase ∧ ClaimsOk isBase isClaims ∧ SolidObj isClaims ∧
    SolidObj (basePayload isBase) ∧
    newV2 (isIEnv true true isSalts) isBase isClaims = .ok (exV2.1, exV2.2) ∧
    Codec (isIEnv true true isSalts).env exV2.1 ∧
    (exV2.1.map Ent.result).Nodup ∧
    DistinctDigests (isIEnv true true isSalts).env exV2.2 (exV2.1.map Ent.result) := by
  refine ⟨isEnv_wf, isIEnv_shuffles _ _ _, isIEnv_alg _ _ _, by simp [CnfOk, isBase], isClaims_ok,
    ?_, ?_, rfl, ?_, by decide +kernel, by unfold DistinctDigests; decide +kernel⟩
  · simp [isClaims, SolidObj, Solid, SolidArr]
  · simp [isBase, basePayload, strField, numField, cnfField, SolidObj, Solid]
  · intro e he
    simp only [exV2, List.mem_cons, List.not_mem_nil, or_false] at he
    rcases he with rfl | rfl | rfl <;> rfl

/-- Presenting only the city: the verifier sees it, with the issuer's claims and the postcode. -/
example : verifyDisclosures isEnv ["ds1"] exV2.2 = .ok () ∧
    disclosedClaims isEnv ["ds1"] exV2.2 GoMap.keys =
      .ok [("iss", .str "did:ex:issuer"), ("nbf", .num 5),
        ("addr", .obj [("city", .str "Ulm"), ("zip", .num 89073)])] := ⟨by rfl, by rfl⟩

/-- V5 (recursive option off, flat): array elements are disclosures inside a disclosure. -/
def isSalts5 (n : Nat) : String :=
  match n with
  | 0 => "s3"
  | 1 => "s4"
  | _ => "s5"

def isClaims5 : JObj := [("x", .arr [.str "en", .str "fr"])]

def exV5 : List Ent × JObj :=
  ([⟨"ds5", [.str "s5", .str "x", .arr [.obj [("...", .str "hds3")], .obj [("...", .str "hds4")]]]⟩,
    ⟨"ds3", [.str "s3", .str "en"]⟩, ⟨"ds4", [.str "s4", .str "fr"]⟩],
   [("iss", .str "did:ex:issuer"), ("nbf", .num 5), ("_sd_alg", .str "sha-256"),
    ("_sd", .arr [.str "hds5"])])

theorem exV5_issued : newV5 (isIEnv false false isSalts5) isBase isClaims5 = .ok exV5 := rfl

/-- The hypotheses of `v5_issue_present_verify_partial` are met. -/
theorem exV5_ok : EnvWF (isIEnv false false isSalts5).env ∧ Shuffles (isIEnv false false isSalts5) ∧
    AlgOk (isIEnv false false isSalts5) ∧ (isIEnv false false isSalts5).addDecoys = false ∧
    CnfOk isBase ∧ ClaimsOk isBase isClaims5 ∧ NamedKeysObj isClaims5 ∧
    newV5 (isIEnv false false isSalts5) isBase isClaims5 = .ok (exV5.1, exV5.2) ∧
    Codec (isIEnv false false isSalts5).env exV5.1 ∧
    DistinctDigests (isIEnv false false isSalts5).env exV5.2 (exV5.1.map Ent.result) := by
  refine ⟨isEnv_wf, isIEnv_shuffles _ _ _, isIEnv_alg _ _ _, rfl, by simp [CnfOk, isBase],
    ⟨?_, ?_, ?_⟩, ?_, rfl, ?_, by unfold DistinctDigests; decide +kernel⟩
  · simp [isClaims5, JWF, JWFObj, JWFArr, GoMap.keys]
  · simp [isClaims5, UnreservedObj, Unreserved, UnreservedArr]
  · intro k hk
    simp only [isClaims5, GoMap.keys, List.map_cons, List.map_nil, List.mem_cons, List.not_mem_nil,
      or_false] at hk
    subst hk
    exact fun h => absurd ((base_keys _).subset h) (by simp [baseNames])
  · simp [isClaims5, NamedKeysObj, NamedKeys]
  · intro e he
    simp only [exV5, List.mem_cons, List.not_mem_nil, or_false] at he
    rcases he with rfl | rfl | rfl <;> rfl

/-- One of two array elements disclosed. -/
example : verifyDisclosures isEnv ["ds5", "ds4"] exV5.2 = .ok () ∧
    disclosedClaims isEnv ["ds5", "ds4"] exV5.2 GoMap.keys =
      .ok [("x", .arr [.str "fr"]), ("iss", .str "did:ex:issuer"), ("nbf", .num 5)] := ⟨by rfl, by rfl⟩

/-- A nested disclosure without the one around it is rejected: `Closed` is needed. -/
example : verifyDisclosures isEnv ["ds4"] exV5.2 = .error .notIncluded := rfl

/-! ## Holder -/

/-- A library whose parser knows one signed token for each issued payload. -/
def isVLib : VLib :=
  { exVLib with
    env := isEnv
    jwt :=
      { parseJWS := fun _ s =>
          if s = "sd2" then some ⟨exHdr, [1], [5], [5] ++ Proof.exKey⟩
          else if s = "sd5" then some ⟨exHdr, [2], [5], [5] ++ Proof.exKey⟩
          else none
        payloadToMap := fun b => if b = [1] then some exV2.2 else if b = [2] then some exV5.2 else none
        upper := fun s => s
        jsonString := fun v => match v with | .str s => s | _ => "" } }

def isHOpts : HOpts := ⟨fun _ _ _ _ => true, none, false, [], 0, "", 0⟩

/-- The hypotheses of `v2_issued_parsed_by_holder` are met: the holder gets the three disclosures. -/
example : ∃ cs, holderParse isVLib isHOpts GoMap.keys
    (Issuance.serialize ⟨"sd2", exV2.1.map Ent.result⟩) = .ok cs ∧ HoldsAll exV2.1 cs := by
  obtain ⟨h1, h2, h3, h4, h5, _, _, h6, h7, h8, h9⟩ := exV2_ok
  refine v2_issued_parsed_by_holder (E := isIEnv true true isSalts) rfl h1 h2 h3 h4 h5 h6 h7 h9 h8
    (fun _ => isEnv_nocol _ _) (by decide +kernel) ?_
    (tok := ⟨exHdr, exV2.2⟩) (pl := [1]) (by rfl) rfl (fun h => by cases h) (fun _ _ h => h)
  intro e he
  simp only [exV2, List.mem_cons, List.not_mem_nil, or_false] at he
  rcases he with rfl | rfl | rfl <;> decide +kernel

/-- The same for V5 without decoys. -/
example : ∃ cs, holderParse isVLib isHOpts GoMap.keys
    (Issuance.serialize ⟨"sd5", exV5.1.map Ent.result⟩) = .ok cs ∧ HoldsAll exV5.1 cs := by
  obtain ⟨h1, h2, h3, hd, h4, h5, hk, h6, h7, h9⟩ := exV5_ok
  refine v5_issued_parsed_by_holder_partial (E := isIEnv false false isSalts5) rfl h1 h2 h3 hd h4 h5
    hk h6 h7 h9 (by decide +kernel) (fun _ => isEnv_nocol _ _) (by decide +kernel) ?_
    (tok := ⟨exHdr, exV5.2⟩) (pl := [2]) (by rfl) rfl (fun h => by cases h) (fun _ _ h => h)
  intro e he
  simp only [exV5, List.mem_cons, List.not_mem_nil, or_false] at he
  rcases he with rfl | rfl | rfl <;> decide +kernel

/-- The hypotheses of `v5_decoys_rejected` are met. -/
example : (∀ n l, isEnv.decode ((isIEnv true false (fun _ => "decoy")).salt n) = some l → l.length < 2) ∧
    ∃ es p, newV5 (isIEnv true false (fun _ => "decoy")) isBase isClaims5 = .ok (es, p) ∧
      ∀ e ∈ es, NoChar '~' e.result := by
  refine ⟨?_, _, _, rfl, ?_⟩
  · intro n l h
    have : isEnv.decode "decoy" = none := by decide +kernel
    rw [show (isIEnv true false (fun _ => "decoy")).salt n = "decoy" from rfl, this] at h
    cases h
  · decide +kernel

/-! ## Lossy cases -/

/-- **The full round trip of C13 fails for null and empty arrays**: members in clear that are null
or an empty array disappear. -/
theorem full_round_trip_needs_solid :
    ∃ (E : IEnv) (claims payload : JObj) (es : List Ent) (out : JObj), AlgOk E ∧ Shuffles E ∧
      ClaimsOk ⟨"", "", "", "", "", none, none, none, none⟩ claims ∧ newV2 E ⟨"", "", "", "", "", none, none, none, none⟩ claims = .ok (es, payload) ∧
      disclosedClaims E.env (es.map Ent.result) payload GoMap.keys = .ok out ∧
      out = [] ∧ claims = [("n", .null), ("e", .arr [])] := by
  refine ⟨{ isIEnv false false isSalts with nonSD := fun _ => true },
    [("n", .null), ("e", .arr [])], _, _, _, isIEnv_alg false false isSalts, isIEnv_shuffles false false isSalts, ⟨?_, ?_, ?_⟩,
    rfl, rfl, rfl, rfl⟩
  · simp [JWF, JWFObj, JWFArr, GoMap.keys]
  · simp [UnreservedObj, Unreserved, UnreservedArr]
  · intro k hk
    simp only [GoMap.keys, List.map_cons, List.map_nil, List.mem_cons, List.not_mem_nil,
      or_false] at hk
    rcases hk with rfl | rfl <;> exact fun h => absurd ((base_keys _).subset h) (by simp [baseNames])

/-- **C14 fails for V5 and an empty member name**: the disclosure has two elements, and processing
rejects the issued token. -/
theorem v5_empty_name_rejected :
    ∃ (E : IEnv) (claims payload : JObj) (es : List Ent), AlgOk E ∧ Shuffles E ∧ Codec E.env es ∧
      ClaimsOk isBase claims ∧ newV5 E isBase claims = .ok (es, payload) ∧ claims = [("", .str "en")] ∧
      ∃ e, verifyDisclosures E.env (es.map Ent.result) payload = .error e := by
  refine ⟨isIEnv false false isSalts5, [("", .str "en")], _, [⟨"ds3", [.str "s3", .str "en"]⟩],
    isIEnv_alg _ _ _, isIEnv_shuffles _ _ _, ?_, ⟨?_, ?_, ?_⟩,
    rfl, rfl, ?_⟩
  · intro e he
    simp only [List.mem_singleton] at he
    subst he
    rfl
  · simp [JWF, JWFObj, GoMap.keys]
  · simp [UnreservedObj, Unreserved]
  · intro k hk
    simp only [GoMap.keys, List.map_cons, List.map_nil, List.mem_singleton] at hk
    subst hk
    exact fun h => absurd ((base_keys _).subset h) (by simp [baseNames])
  · exact ⟨_, rfl⟩

end VC.SDJWT
