import Verif.SDJWT.FromVCMake
import Verif.SDJWT.ParseOptions
/-!
# sdjwt/issuer: the options of `New`, `NewFromVC` and `MakeSDJWT` (C126)

Which claims an SD-JWT shows to everybody, what it says about itself and which hash hides the rest is decided
by a list of options.  Every option is a value here; `New` applies them in order to its defaults.  The
specification says which option decides each setting; the theorems say what a relying party then sees.
-/

namespace VC.SDJWT

open VC.Vfy.Spec (Decides)
open VC.Vfy (decides_foldl decides_unique)

/-! ## Model -/

/-- `NewOpt`, issuer.go:107-338. -/
inductive IssOpt where
  /-- `WithSDJWTVersion`, issuer.go:111-115 -/
  | version (v : Int)
  /-- `WithJSONMarshaller`, issuer.go:118-122; a function that does not fail, not nil (failures and nil: `IssueFail`) -/
  | marshaller (m : List Json → String)
  /-- `WithSaltFnc`, issuer.go:128-132; nil is possible; a function that does not fail (failures: `IssueFail`) -/
  | saltFnc (f : Option (Nat → String))
  /-- `WithIssuedAt`, issuer.go:135-139; nil is possible -/
  | issuedAt (d : Option Rat)
  /-- `WithAudience`, issuer.go:142-146 -/
  | audience (a : String)
  /-- `WithExpiry`, issuer.go:149-153; nil is possible -/
  | expiry (d : Option Rat)
  /-- `WithNotBefore`, issuer.go:156-160; nil is possible -/
  | notBefore (d : Option Rat)
  /-- `WithSubject`, issuer.go:163-167 -/
  | subject (s : String)
  /-- `WithJTI`, issuer.go:170-174 -/
  | jti (s : String)
  /-- `WithID`, issuer.go:177-181 -/
  | ident (s : String)
  /-- `WithHolderPublicKey`, issuer.go:188-192: the key as JSON; nil is possible -/
  | holderKey (k : Option Json)
  /-- `WithHashAlgorithm`, issuer.go:195-199 -/
  | hash (h : Nat)
  /-- `WithDecoyDigests`, issuer.go:202-206 -/
  | decoys (flag : Bool)
  /-- `WithStructuredClaims`, issuer.go:209-213 -/
  | structured (flag : Bool)
  /-- `WithNonSelectivelyDisclosableClaims`, issuer.go:229-233 -/
  | nonSD (l : List String)
  /-- `WithAlwaysIncludeObjects`, issuer.go:263-267 -/
  | always (l : List String)
  /-- `WithRecursiveClaimsObjects`, issuer.go:334-338 -/
  | recursive (l : List String)

/-- `newOpts`, issuer.go:79-107; the three maps made by `SliceToMap` (common.go:418-426) are lists of names. -/
structure IssSettings where
  subject : String
  audience : String
  jti : String
  ident : String
  expiry : Option Rat
  notBefore : Option Rat
  issuedAt : Option Rat
  holderKey : Option Json
  hash : Nat
  marshaller : Option (List Json → String)
  saltFnc : Option (Nat → String)
  decoys : Bool
  structured : Bool
  nonSD : List String
  version : Int
  always : List String
  recursive : List String

/-- What an option does, issuer.go:111-338. -/
def IssOpt.apply (o : IssSettings) : IssOpt → IssSettings
  | .version v => { o with version := v }
  | .marshaller m => { o with marshaller := some m }
  | .saltFnc f => { o with saltFnc := f }
  | .issuedAt d => { o with issuedAt := d }
  | .audience a => { o with audience := a }
  | .expiry d => { o with expiry := d }
  | .notBefore d => { o with notBefore := d }
  | .subject s => { o with subject := s }
  | .jti s => { o with jti := s }
  | .ident s => { o with ident := s }
  | .holderKey k => { o with holderKey := k }
  | .hash h => { o with hash := h }
  | .decoys b => { o with decoys := b }
  | .structured b => { o with structured := b }
  | .nonSD l => { o with nonSD := l }
  | .always l => { o with always := l }
  | .recursive l => { o with recursive := l }

/-- What `New` starts from, issuer.go:354-359, common.go:33; `crypto.SHA256` is 5; `marshaller` none:
`json.Marshal`. -/
def issDefaults : IssSettings where
  subject := ""
  audience := ""
  jti := ""
  ident := ""
  expiry := none
  notBefore := none
  issuedAt := none
  holderKey := none
  hash := 5
  marshaller := none
  saltFnc := none
  decoys := false
  structured := false
  nonSD := []
  version := 2
  always := []
  recursive := []

/-- The settings after all options, issuer.go:361-363. -/
def issSettings (opts : List IssOpt) : IssSettings := opts.foldl IssOpt.apply issDefaults

/-- What the issuer uses: hashing and decoding (`env`), `strings.ToLower`, base64url, `json.Marshal`, random
salts, shuffles and numbers, and which hashes are linked into the program (`crypto.Hash.Available`). -/
structure IssLib where
  env : Env
  lower : String → String
  b64 : String → String
  marshal : List Json → String
  genSalt : Nat → String
  shuffle : Nat → List String → List String
  intn : Nat → Nat
  available : Nat → Bool

/-- `crypto.Hash.String` (Go 1.24 crypto/crypto.go): the names used in `_sd_alg`. -/
def hashName (h : Nat) : String :=
  match h with
  | 1 => "MD4"
  | 2 => "MD5"
  | 3 => "SHA-1"
  | 4 => "SHA-224"
  | 5 => "SHA-256"
  | 6 => "SHA-384"
  | 7 => "SHA-512"
  | 8 => "MD5+SHA1"
  | 9 => "RIPEMD-160"
  | 10 => "SHA3-224"
  | 11 => "SHA3-256"
  | 12 => "SHA3-384"
  | 13 => "SHA3-512"
  | 14 => "SHA-512/224"
  | 15 => "SHA-512/256"
  | 16 => "BLAKE2s-256"
  | 17 => "BLAKE2b-256"
  | 18 => "BLAKE2b-384"
  | 19 => "BLAKE2b-512"
  | n => "unknown hash value " ++ toString n

/-- `getBuilderByVersion`, v2.go:27-36. -/
def builderOf (v : Int) : Ver := if v = 5 then .v5 else .v2

/-- The options of a call as the builders use them: `extractValueOptions` (v5.go:36-73; a name is in the map iff
it is in the list, and an empty map has none), v2.go:87, createDisclosure v2.go:115-135, and the salt function,
issuer.go:376-379. -/
def IssSettings.env (s : IssSettings) (L : IssLib) : IEnv where
  env := L.env
  alg := hashName s.hash
  lower := L.lower
  encode arr := L.b64 ((s.marshaller.getD L.marshal) arr)
  salt := s.saltFnc.getD L.genSalt
  shuffle := L.shuffle
  intn := L.intn
  addDecoys := s.decoys
  structured := s.structured
  nonSD p := decide (p ∈ s.nonSD)
  always p := decide (p ∈ s.always)
  recursive p := decide (p ∈ s.recursive)

/-- The registered claims, createPayload issuer.go:472-492. -/
def IssSettings.base (s : IssSettings) (iss : String) : BaseOpts where
  iss := iss
  sub := s.subject
  aud := s.audience
  jti := s.jti
  id := s.ident
  exp := s.expiry
  nbf := s.notBefore
  iat := s.issuedAt
  cnf := s.holderKey

/-- Why issuing fails. -/
inductive IssFail where
  | sdPresent
  /-- a hash is needed that is not linked, common.go:184-187 -/
  | noHash
  | panic
  | noSubject
  | badSubject
  | badVC
  deriving DecidableEq, Repr

/-- Every disclosure and every decoy is hashed (issuer.go:494-522): the first one fails if the hash is not
available. (The Go code may report this before a null member crashes it; here the crash comes first.) -/
def needHash (L : IssLib) (s : IssSettings) (r : List Ent × JObj) : Except IssFail (List Ent × JObj) :=
  if L.available s.hash || (r.1.isEmpty && !s.decoys) then .ok r else .error .noHash

/-- `New` with its options, issuer.go:352-402, up to signing. -/
def issueWith (L : IssLib) (iss : String) (opts : List IssOpt) (claims : JObj) : Except IssFail (List Ent × JObj) :=
  match newWith ((issSettings opts).env L) (builderOf (issSettings opts).version) ((issSettings opts).base iss)
    claims with
  | .error .sdPresent => .error .sdPresent
  | .error .panic => .error .panic
  | .ok r => needHash L (issSettings opts) r

/-- Errors of `NewFromVC`. -/
def FErr.fail : FErr → IssFail
  | .noSubject => .noSubject
  | .badSubject => .badSubject
  | .badVC => .badVC
  | .issue .sdPresent => .sdPresent
  | .issue .panic => .panic

/-- `NewFromVC` with its options, issuer.go:415-468 (which reads the version from the same options again). -/
def fromVCWith (L : IssLib) (opts : List IssOpt) (vc : JObj) : Except IssFail (List Ent × JObj) :=
  match newFromVC ((issSettings opts).env L) (builderOf (issSettings opts).version) ((issSettings opts).base "") vc with
  | .error e => .error e.fail
  | .ok r => needHash L (issSettings opts) r

/-- `MakeSDJWTOption`, credential_sdjwt.go:293-331. -/
inductive MkOpt where
  /-- `MakeSDJWTWithHash`, credential_sdjwt.go:297-301 -/
  | hash (h : Nat)
  /-- `MakeSDJWTWithVersion`, credential_sdjwt.go:304-308 -/
  | version (v : Int)
  /-- `MakeSDJWTWithRecursiveClaimsObjects`, credential_sdjwt.go:311-315 -/
  | recursive (l : List String)
  /-- `MakeSDJWTWithAlwaysIncludeObjects`, credential_sdjwt.go:319-323 -/
  | always (l : List String)
  /-- `MakeSDJWTWithNonSelectivelyDisclosableClaims`, credential_sdjwt.go:327-331 -/
  | nonSD (l : List String)

/-- `MakeSDJWTOpts`, credential_sdjwt.go:269-276. -/
structure MkSettings where
  hash : Nat
  version : Int
  recursive : List String
  always : List String
  nonSD : List String

/-- What an option does, credential_sdjwt.go:297-331. -/
def MkOpt.apply (o : MkSettings) : MkOpt → MkSettings
  | .hash h => { o with hash := h }
  | .version v => { o with version := v }
  | .recursive l => { o with recursive := l }
  | .always l => { o with always := l }
  | .nonSD l => { o with nonSD := l }

/-- The version to start from, credential_sdjwt.go:359-364: that of the credential's own envelope, if it has
one that is not 0. -/
def startVersion (envelope : Option Int) : Int :=
  match envelope with
  | none => 2
  | some v => if v ≠ 0 then v else 2

/-- The settings after all options, credential_sdjwt.go:366-372. -/
def mkSettings (envelope : Option Int) (opts : List MkOpt) : MkSettings :=
  opts.foldl MkOpt.apply ⟨0, startVersion envelope, [], [], []⟩

/-- The options handed to the issuer, credential_sdjwt.go:404-430. -/
def MkSettings.issuer (s : MkSettings) : List IssOpt :=
  [.structured true, .version s.version] ++
    (if s.recursive.isEmpty then [] else [.recursive s.recursive]) ++
    (if s.always.isEmpty then [] else [.always s.always]) ++
    [.nonSD (s.nonSD ++ ["id"])] ++
    (if s.hash ≠ 0 then [.hash s.hash] else [])

/-- `makeSDJWT` from the claims map on, credential_sdjwt.go:353-438; `claims v` are the claims in the layout of
version `v`. -/
def makeWith (L : IssLib) (envelope : Option Int) (opts : List MkOpt) (claims : Int → JObj) :
    Except IssFail (List Ent × JObj) :=
  fromVCWith L (mkSettings envelope opts).issuer (claims (mkSettings envelope opts).version)

/-! ## Specification -/

/-- The settings a list of issuing options stands for: each is what the last option about it says. -/
structure IssMeans (opts : List IssOpt) (s : IssSettings) : Prop where
  version : Decides (fun x v => x = .version v) opts 2 s.version
  marshaller : Decides (fun x v => ∃ m, x = .marshaller m ∧ v = some m) opts none s.marshaller
  saltFnc : Decides (fun x v => x = .saltFnc v) opts none s.saltFnc
  issuedAt : Decides (fun x v => x = .issuedAt v) opts none s.issuedAt
  audience : Decides (fun x v => x = .audience v) opts "" s.audience
  expiry : Decides (fun x v => x = .expiry v) opts none s.expiry
  notBefore : Decides (fun x v => x = .notBefore v) opts none s.notBefore
  subject : Decides (fun x v => x = .subject v) opts "" s.subject
  jti : Decides (fun x v => x = .jti v) opts "" s.jti
  ident : Decides (fun x v => x = .ident v) opts "" s.ident
  holderKey : Decides (fun x v => x = .holderKey v) opts none s.holderKey
  hash : Decides (fun x v => x = .hash v) opts 5 s.hash
  decoys : Decides (fun x v => x = .decoys v) opts false s.decoys
  structured : Decides (fun x v => x = .structured v) opts false s.structured
  nonSD : Decides (fun x v => x = .nonSD v) opts [] s.nonSD
  always : Decides (fun x v => x = .always v) opts [] s.always
  recursive : Decides (fun x v => x = .recursive v) opts [] s.recursive

/-- The claims an SD-JWT states about itself: name and value, given the issuer and the settings. -/
inductive StatedClaim (iss : String) (s : IssSettings) : String → Json → Prop
  | iss : iss ≠ "" → StatedClaim iss s "iss" (.str iss)
  | sub : s.subject ≠ "" → StatedClaim iss s "sub" (.str s.subject)
  | aud : s.audience ≠ "" → StatedClaim iss s "aud" (.str s.audience)
  | jti : s.jti ≠ "" → StatedClaim iss s "jti" (.str s.jti)
  | ident : s.ident ≠ "" → StatedClaim iss s "id" (.str s.ident)
  | exp {q : Rat} : s.expiry = some q → StatedClaim iss s "exp" (.num q)
  | nbf {q : Rat} : s.notBefore = some q → StatedClaim iss s "nbf" (.num q)
  | iat {q : Rat} : s.issuedAt = some q → StatedClaim iss s "iat" (.num q)
  | cnf {j : Json} : s.holderKey = some j → StatedClaim iss s "cnf" (.obj [("jwk", j)])

/-- The hash is one the verifiers of this library know, and `strings.ToLower` and `strings.ToUpper` do what they
should on its name. -/
structure HashOk (L : IssLib) (h : Nat) : Prop where
  known : h = 5 ∨ h = 6 ∨ h = 7
  lower : L.lower "SHA-256" = "sha-256" ∧ L.lower "SHA-384" = "sha-384" ∧ L.lower "SHA-512" = "sha-512"
  upper : L.env.upper "sha-256" = "SHA-256" ∧ L.env.upper "sha-384" = "SHA-384" ∧ L.env.upper "sha-512" = "SHA-512"

/-- The caller's claims: JSON without names reserved by SD-JWT, and with none of the names that the options make
the token state. -/
structure GoodClaims (iss : String) (s : IssSettings) (claims : JObj) : Prop where
  wf : JWF (.obj claims)
  unreserved : UnreservedObj claims
  fresh : ∀ k v, StatedClaim iss s k v → k ∉ GoMap.keys claims
  key : ∀ j, s.holderKey = some j → Unreserved j ∧ JWF j ∧ Solid j

/-- The settings a list of `MakeSDJWT` options stands for; `own`: the version of the credential's envelope. -/
structure MkMeans (own : Int) (opts : List MkOpt) (s : MkSettings) : Prop where
  hash : Decides (fun x v => x = .hash v) opts 0 s.hash
  version : Decides (fun x v => x = .version v) opts own s.version
  recursive : Decides (fun x v => x = .recursive v) opts [] s.recursive
  always : Decides (fun x v => x = .always v) opts [] s.always
  nonSD : Decides (fun x v => x = .nonSD v) opts [] s.nonSD

/-! ## Theorems: what the options mean -/

/-- **C126.**  Every list of issuing options means what the specification says. -/
theorem issuing_options (opts : List IssOpt) : IssMeans opts (issSettings opts) where
  version := decides_foldl (get := IssSettings.version)
    (by intro st o; cases o <;> simp [IssOpt.apply]) opts issDefaults
  marshaller := decides_foldl (get := IssSettings.marshaller)
    (by intro st o; cases o <;> simp [IssOpt.apply]) opts issDefaults
  saltFnc := decides_foldl (get := IssSettings.saltFnc)
    (by intro st o; cases o <;> simp [IssOpt.apply]) opts issDefaults
  issuedAt := decides_foldl (get := IssSettings.issuedAt)
    (by intro st o; cases o <;> simp [IssOpt.apply]) opts issDefaults
  audience := decides_foldl (get := IssSettings.audience)
    (by intro st o; cases o <;> simp [IssOpt.apply]) opts issDefaults
  expiry := decides_foldl (get := IssSettings.expiry)
    (by intro st o; cases o <;> simp [IssOpt.apply]) opts issDefaults
  notBefore := decides_foldl (get := IssSettings.notBefore)
    (by intro st o; cases o <;> simp [IssOpt.apply]) opts issDefaults
  subject := decides_foldl (get := IssSettings.subject)
    (by intro st o; cases o <;> simp [IssOpt.apply]) opts issDefaults
  jti := decides_foldl (get := IssSettings.jti)
    (by intro st o; cases o <;> simp [IssOpt.apply]) opts issDefaults
  ident := decides_foldl (get := IssSettings.ident)
    (by intro st o; cases o <;> simp [IssOpt.apply]) opts issDefaults
  holderKey := decides_foldl (get := IssSettings.holderKey)
    (by intro st o; cases o <;> simp [IssOpt.apply]) opts issDefaults
  hash := decides_foldl (get := IssSettings.hash)
    (by intro st o; cases o <;> simp [IssOpt.apply]) opts issDefaults
  decoys := decides_foldl (get := IssSettings.decoys)
    (by intro st o; cases o <;> simp [IssOpt.apply]) opts issDefaults
  structured := decides_foldl (get := IssSettings.structured)
    (by intro st o; cases o <;> simp [IssOpt.apply]) opts issDefaults
  nonSD := decides_foldl (get := IssSettings.nonSD)
    (by intro st o; cases o <;> simp [IssOpt.apply]) opts issDefaults
  always := decides_foldl (get := IssSettings.always)
    (by intro st o; cases o <;> simp [IssOpt.apply]) opts issDefaults
  recursive := decides_foldl (get := IssSettings.recursive)
    (by intro st o; cases o <;> simp [IssOpt.apply]) opts issDefaults

theorem issMeans_unique {opts : List IssOpt} {s s' : IssSettings} (h : IssMeans opts s) (h' : IssMeans opts s') :
    s = s' := by
  obtain ⟨a1, a2, a3, a4, a5, a6, a7, a8, a9, a10, a11, a12, a13, a14, a15, a16, a17⟩ := s
  obtain ⟨b1, b2, b3, b4, b5, b6, b7, b8, b9, b10, b11, b12, b13, b14, b15, b16, b17⟩ := s'
  cases decides_unique (by intro x v w a b; rw [a] at b; cases b; rfl) h.version h'.version
  cases decides_unique (by
    rintro x v w ⟨m, a, rfl⟩ ⟨n, b, rfl⟩; rw [a] at b; cases b; rfl) h.marshaller h'.marshaller
  cases decides_unique (by intro x v w a b; rw [a] at b; cases b; rfl) h.saltFnc h'.saltFnc
  cases decides_unique (by intro x v w a b; rw [a] at b; cases b; rfl) h.issuedAt h'.issuedAt
  cases decides_unique (by intro x v w a b; rw [a] at b; cases b; rfl) h.audience h'.audience
  cases decides_unique (by intro x v w a b; rw [a] at b; cases b; rfl) h.expiry h'.expiry
  cases decides_unique (by intro x v w a b; rw [a] at b; cases b; rfl) h.notBefore h'.notBefore
  cases decides_unique (by intro x v w a b; rw [a] at b; cases b; rfl) h.subject h'.subject
  cases decides_unique (by intro x v w a b; rw [a] at b; cases b; rfl) h.jti h'.jti
  cases decides_unique (by intro x v w a b; rw [a] at b; cases b; rfl) h.ident h'.ident
  cases decides_unique (by intro x v w a b; rw [a] at b; cases b; rfl) h.holderKey h'.holderKey
  cases decides_unique (by intro x v w a b; rw [a] at b; cases b; rfl) h.hash h'.hash
  cases decides_unique (by intro x v w a b; rw [a] at b; cases b; rfl) h.decoys h'.decoys
  cases decides_unique (by intro x v w a b; rw [a] at b; cases b; rfl) h.structured h'.structured
  cases decides_unique (by intro x v w a b; rw [a] at b; cases b; rfl) h.nonSD h'.nonSD
  cases decides_unique (by intro x v w a b; rw [a] at b; cases b; rfl) h.always h'.always
  cases decides_unique (by intro x v w a b; rw [a] at b; cases b; rfl) h.recursive h'.recursive
  rfl

/-- **C126.**  Every list of `MakeSDJWT` options means what the specification says; the version to start from is
that of the credential's own envelope, or 2. -/
theorem make_options (envelope : Option Int) (opts : List MkOpt) :
    MkMeans (match envelope with | some v => if v = 0 then 2 else v | none => 2) opts (mkSettings envelope opts) where
  hash := decides_foldl (get := MkSettings.hash)
    (by intro st o; cases o <;> simp [MkOpt.apply]) opts ⟨0, startVersion envelope, [], [], []⟩
  version := by
    have e : (match envelope with | some v => if v = 0 then 2 else v | none => 2) = startVersion envelope := by
      cases envelope with
      | none => rfl
      | some v => by_cases hv : v = 0 <;> simp [startVersion, hv]
    rw [e]
    exact decides_foldl (get := MkSettings.version) (by intro st o; cases o <;> simp [MkOpt.apply]) opts
      ⟨0, startVersion envelope, [], [], []⟩
  recursive := decides_foldl (get := MkSettings.recursive)
    (by intro st o; cases o <;> simp [MkOpt.apply]) opts ⟨0, startVersion envelope, [], [], []⟩
  always := decides_foldl (get := MkSettings.always)
    (by intro st o; cases o <;> simp [MkOpt.apply]) opts ⟨0, startVersion envelope, [], [], []⟩
  nonSD := decides_foldl (get := MkSettings.nonSD)
    (by intro st o; cases o <;> simp [MkOpt.apply]) opts ⟨0, startVersion envelope, [], [], []⟩


/-! ## What is issued -/

theorem stated_mem {iss : String} {s : IssSettings} {k : String} {v : Json} :
    (k, v) ∈ basePayload (s.base iss) ↔ StatedClaim iss s k v := by
  have hstr : ∀ (n x : String), (k, v) ∈ strField n x ↔ x ≠ "" ∧ k = n ∧ v = .str x := by
    intro n x
    unfold strField
    by_cases hx : x = "" <;> simp [hx]
  have hnum : ∀ (n : String) (x : Option Rat), (k, v) ∈ numField n x ↔ ∃ q, x = some q ∧ k = n ∧ v = .num q := by
    intro n x
    cases x <;> simp [numField]
  have hcnf : ∀ (x : Option Json), (k, v) ∈ cnfField x ↔ ∃ j, x = some j ∧ k = "cnf" ∧ v = .obj [("jwk", j)] := by
    intro x
    cases x <;> simp [cnfField]
  simp only [basePayload, List.mem_append, hstr, hnum, hcnf, IssSettings.base]
  constructor
  · rintro ((((((((⟨h, rfl, rfl⟩ | ⟨h, rfl, rfl⟩) | ⟨h, rfl, rfl⟩) | ⟨h, rfl, rfl⟩) | ⟨q, h, rfl, rfl⟩) |
      ⟨q, h, rfl, rfl⟩) | ⟨q, h, rfl, rfl⟩) | ⟨h, rfl, rfl⟩) | ⟨j, h, rfl, rfl⟩)
    · exact .iss h
    · exact .sub h
    · exact .aud h
    · exact .jti h
    · exact .exp h
    · exact .nbf h
    · exact .iat h
    · exact .ident h
    · exact .cnf h
  · intro h
    cases h with
    | iss h => simp [h]
    | sub h => simp [h]
    | aud h => simp [h]
    | jti h => simp [h]
    | ident h => simp [h]
    | exp h => simp [h]
    | nbf h => simp [h]
    | iat h => simp [h]
    | cnf h => simp [h]

theorem base_wf (o : BaseOpts) : GoMap.WF (basePayload o) :=
  (base_keys o).nodup (by decide)

theorem stated_get {iss : String} {s : IssSettings} {k : String} {v : Json} :
    GoMap.get? (basePayload (s.base iss)) k = some v ↔ StatedClaim iss s k v := by
  rw [← stated_mem]
  exact ⟨GoMap.mem_of_get?, fun h => GoMap.get?_of_mem (base_wf _) h⟩

theorem GoodClaims.ok {iss : String} {s : IssSettings} {claims : JObj} (h : GoodClaims iss s claims) :
    ClaimsOk (s.base iss) claims := by
  refine ⟨h.wf, h.unreserved, fun k hk hb => ?_⟩
  obtain ⟨⟨k', v⟩, hm, rfl⟩ := List.mem_map.mp hb
  exact h.fresh k' v (stated_mem.mp hm) hk

theorem GoodClaims.cnf {iss : String} {s : IssSettings} {claims : JObj} (h : GoodClaims iss s claims) :
    CnfOk (s.base iss) := fun j hj => ⟨(h.key j hj).1, (h.key j hj).2.1⟩

theorem GoodClaims.solid {iss : String} {s : IssSettings} {claims : JObj} (h : GoodClaims iss s claims) :
    tidyMembers (basePayload (s.base iss)) = basePayload (s.base iss) := by
  refine tidyMembers_solid _ ((solid_iff _).mpr ?_)
  rintro ⟨k, v⟩ hm
  cases stated_mem.mp hm with
  | cnf hj => simp [Solid, SolidObj, (h.key _ hj).2.2]
  | _ => simp [Solid]

theorem HashOk.alg {L : IssLib} {s : IssSettings} (h : HashOk L s.hash) : AlgOk (s.env L) := by
  obtain ⟨l1, l2, l3⟩ := h.lower
  obtain ⟨u1, u2, u3⟩ := h.upper
  rcases h.known with e | e | e
  · simp [AlgOk, IssSettings.env, e, hashName, l1, u1]
  · simp [AlgOk, IssSettings.env, e, hashName, l2, u2]
  · simp [AlgOk, IssSettings.env, e, hashName, l3, u3]

theorem needHash_ok {L : IssLib} {s : IssSettings} {r r' : List Ent × JObj} (h : needHash L s r = .ok r') :
    r' = r ∧ (L.available s.hash = true ∨ r.1 = [] ∧ s.decoys = false) := by
  unfold needHash at h
  split at h
  · rename_i hc
    cases h
    refine ⟨rfl, ?_⟩
    simpa using hc
  · cases h

theorem issueWith_ok {L : IssLib} {iss : String} {opts : List IssOpt} {claims : JObj} {r : List Ent × JObj}
    (h : issueWith L iss opts claims = .ok r) :
    newWith ((issSettings opts).env L) (builderOf (issSettings opts).version) ((issSettings opts).base iss) claims
        = .ok r ∧
      (L.available (issSettings opts).hash = true ∨ r.1 = [] ∧ (issSettings opts).decoys = false) := by
  unfold issueWith at h
  split at h
  · cases h
  · cases h
  · rename_i r' hr
    obtain ⟨rfl, h2⟩ := needHash_ok h
    exact ⟨hr, h2⟩

/-- **C126.**  Nothing is hidden with a hash the program does not have: if the hash named by the last option is not
linked, a token is only issued when nothing in it is to be hidden. -/
theorem issued_hash_available {L : IssLib} {iss : String} {opts : List IssOpt} {s : IssSettings}
    (hm : IssMeans opts s) {claims payload : JObj} {es : List Ent}
    (h : issueWith L iss opts claims = .ok (es, payload)) (hu : L.available s.hash = false) :
    es = [] ∧ s.decoys = false := by
  cases issMeans_unique hm (issuing_options opts)
  rcases (issueWith_ok h).2 with h2 | h2
  · rw [hu] at h2; cases h2
  · exact h2

/-- What a relying party gets from an issued token: whatever selection `S` of the disclosures (with those around
them) is presented, it is accepted, and the claims are what the token states, and the claims of the tree `ms`
that are in clear or disclosed by `S`. -/
def IssuedShows (env : Env) (payload : JObj) (ds : List String) (ms : Members) (base : JObj) : Prop :=
  ∀ (S : List String) (order : DMap → List String), (∀ d ∈ S, d ∈ ds) → S.Nodup →
    (∀ D, ∀ d ∈ GoMap.keys D, d ∈ order D) →
    (ms.Closed S → verifyDisclosures env S payload = .ok ()) ∧
    ∃ out, disclosedClaims env S payload order = .ok out ∧ OEq out (base ++ ms.reveal S)

/-- **C126** (with C13).  What is issued with a version other than 5: the claims in clear are exactly those
at the paths on the last list of claims that are not to be selectively disclosable (objects only as far as
claims are not structured); everything else needs its disclosure; every selection is accepted. -/
theorem issued_v2 {L : IssLib} (he : EnvWF L.env) (hsh : ∀ n l, (L.shuffle n l).Perm l) {iss : String}
    {opts : List IssOpt} {s : IssSettings} (hm : IssMeans opts s) (hv : s.version ≠ 5) (hh : HashOk L s.hash)
    {claims payload : JObj} (hc : GoodClaims iss s claims) {es : List Ent}
    (h : issueWith L iss opts claims = .ok (es, payload)) (hcodec : Codec L.env es)
    (hn : DistinctDigests L.env payload (es.map Ent.result)) :
    ∃ ms : Members, ms.erase = claims ∧ V2Policy s.structured (fun p => decide (p ∈ s.nonSD)) "" ms ∧
      ms.discs.Perm (es.map Ent.result) ∧ (∀ S, ms.Closed S) ∧
      IssuedShows L.env payload (es.map Ent.result) ms (basePayload (s.base iss)) := by
  cases issMeans_unique hm (issuing_options opts)
  obtain ⟨hw, -⟩ := issueWith_ok h
  have hb : builderOf (issSettings opts).version = .v2 := by unfold builderOf; rw [if_neg hv]
  rw [hb] at hw
  obtain ⟨ms, h1, h2, h3, h4⟩ := v2_issue_present_verify (E := (issSettings opts).env L) he hsh hh.alg hc.cnf
    hc.ok hw hcodec hn
  have hcl : ∀ S, ms.Closed S := fun S => V2Policy.closed S "" ms h2
  refine ⟨ms, h1, h2, h3, hcl, fun S order hS hnS ho => ?_⟩
  obtain ⟨g1, g2⟩ := h4 S order hS hnS ho
  rw [hc.solid] at g2
  exact ⟨fun _ => g1, g2⟩

/-- **C126** (with C13), version 5, for claims whose names are not empty: the lists given last decide what is in
clear, always included, and recursive; every choice of the disclosures that are no decoys is accepted (with the
disclosures around them). -/
theorem issued_v5 {L : IssLib} (he : EnvWF L.env) (hsh : ∀ n l, (L.shuffle n l).Perm l) {iss : String}
    {opts : List IssOpt} {s : IssSettings} (hm : IssMeans opts s) (hv : s.version = 5)
    (hh : HashOk L s.hash) {claims payload : JObj} (hc : GoodClaims iss s claims) (hnk : NamedKeysObj claims)
    {es : List Ent} (h : issueWith L iss opts claims = .ok (es, payload)) (hcodec : Codec L.env (reals es))
    (hn : DistinctDigests L.env payload (es.map Ent.result)) :
    ∃ ms : Members, ms.erase = claims ∧
      V5Policy ⟨s.structured, fun p => decide (p ∈ s.nonSD), fun p => decide (p ∈ s.always),
        fun p => decide (p ∈ s.recursive)⟩ false "" ms ∧
      ms.discs.Perm ((reals es).map Ent.result) ∧
      IssuedShows L.env payload ((reals es).map Ent.result) ms (basePayload (s.base iss)) := by
  cases issMeans_unique hm (issuing_options opts)
  obtain ⟨hw, -⟩ := issueWith_ok h
  have hb : builderOf (issSettings opts).version = .v5 := by unfold builderOf; rw [if_pos hv]
  rw [hb] at hw
  obtain ⟨ms, h1, h2, h3, h4⟩ := v5_issue_present_verify (E := (issSettings opts).env L) he hsh hh.alg
    hc.cnf hc.ok hnk hw hcodec hn
  refine ⟨ms, h1, h2, h3, fun S order hS hnS ho => ?_⟩
  obtain ⟨g1, g2⟩ := h4 S order hS hnS ho
  rw [hc.solid] at g2
  exact ⟨g1, g2⟩

theorem issued_v2_real {L : IssLib} {iss : String} {opts : List IssOpt} {s : IssSettings} (hm : IssMeans opts s)
    (hv : s.version ≠ 5) {claims payload : JObj} {es : List Ent}
    (h : issueWith L iss opts claims = .ok (es, payload)) : reals es = es := by
  cases issMeans_unique hm (issuing_options opts)
  obtain ⟨hw, -⟩ := issueWith_ok h
  have hb : builderOf (issSettings opts).version = .v2 := by unfold builderOf; rw [if_neg hv]
  rw [hb] at hw
  exact newV2_real hw

/-- Both versions. -/
theorem issued_tree {L : IssLib} (he : EnvWF L.env) (hsh : ∀ n l, (L.shuffle n l).Perm l) {iss : String}
    {opts : List IssOpt} {s : IssSettings} (hm : IssMeans opts s)
    (hh : HashOk L s.hash) {claims payload : JObj}
    (hc : GoodClaims iss s claims) (hnk : s.version = 5 → NamedKeysObj claims)
    {es : List Ent} (h : issueWith L iss opts claims = .ok (es, payload)) (hcodec : Codec L.env (reals es))
    (hn : DistinctDigests L.env payload (es.map Ent.result)) :
    ∃ ms : Members, ms.erase = claims ∧ Policy (s.env L) (builderOf s.version) ms ∧
      ms.discs.Perm ((reals es).map Ent.result) ∧
      IssuedShows L.env payload ((reals es).map Ent.result) ms (basePayload (s.base iss)) := by
  by_cases h5 : s.version = 5
  · obtain ⟨ms, h1, h2, h3, h4⟩ := issued_v5 he hsh hm h5 hh hc (hnk h5) h hcodec hn
    refine ⟨ms, h1, ?_, h3, h4⟩
    rw [show builderOf s.version = .v5 from by unfold builderOf; rw [if_pos h5]]
    exact h2
  · have hr := issued_v2_real hm h5 h
    rw [hr] at hcodec ⊢
    obtain ⟨ms, h1, h2, h3, -, h4⟩ := issued_v2 he hsh hm h5 hh hc h hcodec hn
    refine ⟨ms, h1, ?_, h3, h4⟩
    rw [show builderOf s.version = .v2 from by unfold builderOf; rw [if_neg h5]]
    exact h2

/-- **C126.**  What the token states about itself is what the last options say, whatever is disclosed: the relying
party sees every stated claim, and none of the registered names that were not set (unless the caller's own claims
have it). -/
theorem issued_states {L : IssLib} (he : EnvWF L.env) (hsh : ∀ n l, (L.shuffle n l).Perm l) {iss : String}
    {opts : List IssOpt} {s : IssSettings} (hm : IssMeans opts s)
    (hh : HashOk L s.hash) {claims payload : JObj}
    (hc : GoodClaims iss s claims) (hnk : s.version = 5 → NamedKeysObj claims)
    {es : List Ent} (h : issueWith L iss opts claims = .ok (es, payload)) (hcodec : Codec L.env (reals es))
    (hn : DistinctDigests L.env payload (es.map Ent.result))
    {S : List String} {order : DMap → List String} (hS : ∀ d ∈ S, d ∈ (reals es).map Ent.result) (hnS : S.Nodup)
    (ho : ∀ D, ∀ d ∈ GoMap.keys D, d ∈ order D) :
    ∃ out, disclosedClaims L.env S payload order = .ok out ∧
      (∀ k v, StatedClaim iss s k v → ∃ v', GoMap.get? out k = some v' ∧ JEq v' v) ∧
      (∀ k, k ∉ GoMap.keys claims → (∀ v, ¬ StatedClaim iss s k v) → GoMap.get? out k = none) := by
  obtain ⟨ms, h1, -, -, h4⟩ := issued_tree he hsh hm hh hc hnk h hcodec hn
  obtain ⟨-, out, g1, g2⟩ := h4 S order hS hnS ho
  refine ⟨out, g1, fun k v hs => ?_, fun k hk hno => ?_⟩
  · have hb := stated_get.mpr hs
    rcases JEq.get g2 k with ⟨-, q⟩ | ⟨u, u', q1, q2, q3⟩
    · rw [GoMap.get?_append, hb] at q; cases q
    · rw [GoMap.get?_append, hb] at q2
      cases q2
      exact ⟨u, q1, q3⟩
  · rcases JEq.get g2 k with ⟨q, -⟩ | ⟨u, u', q1, q2, q3⟩
    · exact q
    · exfalso
      have hm := (List.mem_map.mpr ⟨_, GoMap.mem_of_get? q2, rfl⟩ : k ∈ GoMap.keys _)
      rw [List.map_append, List.mem_append] at hm
      rcases hm with hm | hm
      · obtain ⟨⟨k', v⟩, hm', rfl⟩ := List.mem_map.mp hm
        exact hno v (stated_mem.mp hm')
      · exact hk (h1 ▸ reveal_keys S ms k hm)

/-- **C126.**  A scalar claim at the top that is on the last list of claims not to be selectively disclosable is
seen by every relying party, with its value. -/
theorem issued_in_clear {L : IssLib} (he : EnvWF L.env) (hsh : ∀ n l, (L.shuffle n l).Perm l) {iss : String}
    {opts : List IssOpt} {s : IssSettings} (hm : IssMeans opts s)
    (hh : HashOk L s.hash) {claims payload : JObj}
    (hc : GoodClaims iss s claims) (hnk : s.version = 5 → NamedKeysObj claims)
    {es : List Ent} (h : issueWith L iss opts claims = .ok (es, payload)) (hcodec : Codec L.env (reals es))
    (hn : DistinctDigests L.env payload (es.map Ent.result))
    {k : String} {v : Json} (hk : k ∈ s.nonSD) (hg : GoMap.get? claims k = some v) (hva : Atomic v)
    {S : List String} {order : DMap → List String} (hS : ∀ d ∈ S, d ∈ (reals es).map Ent.result) (hnS : S.Nodup)
    (ho : ∀ D, ∀ d ∈ GoMap.keys D, d ∈ order D) :
    ∃ out, disclosedClaims L.env S payload order = .ok out ∧ GoMap.get? out k = some v := by
  obtain ⟨ms, rfl, h2, -, h4⟩ := issued_tree he hsh hm hh hc hnk h hcodec hn
  obtain ⟨-, out, g1, g2⟩ := h4 S order hS hnS ho
  obtain ⟨a, e1, e2⟩ := atomic_at hva h2 hg
  have : a = none := e2.2 (by simpa [IssSettings.env] using hk)
  subst this
  have wf : GoMap.WF ms.erase := by have := hc.wf; simp only [JWF] at this; exact this.1
  have hval : (Node.plain v).reveal S = v := by cases v <;> simp_all [Atomic, Node.reveal, tidy]
  have hr := reveal_clear (S := S) e1 wf (by rw [hval]; cases v <;> simp_all [Atomic, Json.isNull])
  rw [hval] at hr
  have hnb : GoMap.get? (basePayload (s.base iss)) k = none := by
    cases hb : GoMap.get? (basePayload (s.base iss)) k with
    | none => rfl
    | some w => exact absurd (List.mem_map.mpr ⟨_, GoMap.mem_of_get? hg, rfl⟩) (hc.fresh k w (stated_get.mp hb))
  refine ⟨out, g1, ?_⟩
  rcases JEq.get g2 k with ⟨-, q⟩ | ⟨u, u', q1, q2, q3⟩
  · rw [GoMap.get?_append, hnb] at q; simp [hr] at q
  · rw [GoMap.get?_append, hnb] at q2
    simp only [hr] at q2
    cases q2
    rw [q1, jeq_atomic q3 hva]

/-- **C126.**  A scalar claim at the top that is not on that list is hidden: it has its own disclosure, and without
it no relying party sees the claim. -/
theorem issued_hidden {L : IssLib} (he : EnvWF L.env) (hsh : ∀ n l, (L.shuffle n l).Perm l) {iss : String}
    {opts : List IssOpt} {s : IssSettings} (hm : IssMeans opts s)
    (hh : HashOk L s.hash) {claims payload : JObj}
    (hc : GoodClaims iss s claims) (hnk : s.version = 5 → NamedKeysObj claims)
    {es : List Ent} (h : issueWith L iss opts claims = .ok (es, payload)) (hcodec : Codec L.env (reals es))
    (hn : DistinctDigests L.env payload (es.map Ent.result))
    {k : String} {v : Json} (hk : k ∉ s.nonSD) (hg : GoMap.get? claims k = some v) (hva : Atomic v) :
    ∃ d ∈ (reals es).map Ent.result, ∀ (S : List String) (order : DMap → List String),
      (∀ x ∈ S, x ∈ (reals es).map Ent.result) → S.Nodup → (∀ D, ∀ d ∈ GoMap.keys D, d ∈ order D) → d ∉ S →
      ∃ out, disclosedClaims L.env S payload order = .ok out ∧ GoMap.get? out k = none := by
  obtain ⟨ms, rfl, h2, h3, h4⟩ := issued_tree he hsh hm hh hc hnk h hcodec hn
  obtain ⟨a, e1, e2⟩ := atomic_at hva h2 hg
  have wf : GoMap.WF ms.erase := by have := hc.wf; simp only [JWF] at this; exact this.1
  have hnb : GoMap.get? (basePayload (s.base iss)) k = none := by
    cases hb : GoMap.get? (basePayload (s.base iss)) k with
    | none => rfl
    | some w => exact absurd (List.mem_map.mpr ⟨_, GoMap.mem_of_get? hg, rfl⟩) (hc.fresh k w (stated_get.mp hb))
  cases a with
  | none => exact absurd (by simpa [IssSettings.env] using e2.1 rfl) hk
  | some d =>
    have hd : d ∈ ms.discs := by
      clear h2 h3 h4 e2 hg hc wf hnk hk hnb h
      generalize ht : Node.plain v = t at e1
      generalize ha : some d = a at e1
      induction e1 with
      | here => subst ha; simp [Members.discs]
      | there _ ih => simp only [Members.discs, List.mem_append]; exact Or.inr (ih ht ha)
    refine ⟨d, h3.mem_iff.mp hd, fun S order hS hnS ho hdS => ?_⟩
    obtain ⟨-, out, g1, g2⟩ := h4 S order hS hnS ho
    have hr := reveal_hidden (S := S) e1 wf hdS
    refine ⟨out, g1, ?_⟩
    rcases JEq.get g2 k with ⟨q, -⟩ | ⟨u, u', q1, q2, q3⟩
    · exact q
    · rw [GoMap.get?_append, hnb] at q2
      simp [hr] at q2

/-- **C126.**  The token names the hash of the last option, and it is the name under which verifiers of this
library find that hash. -/
theorem issued_names_hash {L : IssLib} (hsh : ∀ n l, (L.shuffle n l).Perm l) {iss : String}
    {opts : List IssOpt} {s : IssSettings} (hm : IssMeans opts s)
    (hh : HashOk L s.hash) {claims payload : JObj}
    (hc : GoodClaims iss s claims) (hnk : s.version = 5 → NamedKeysObj claims)
    {es : List Ent} (h : issueWith L iss opts claims = .ok (es, payload)) (hcodec : Codec L.env (reals es)) :
    GoMap.get? payload "_sd_alg" =
        some (.str (if s.hash = 5 then "sha-256" else if s.hash = 6 then "sha-384" else "sha-512")) ∧
      getHashAlg L.env payload =
        some (if s.hash = 5 then "SHA-256" else if s.hash = 6 then "SHA-384" else "SHA-512") := by
  cases issMeans_unique hm (issuing_options opts)
  obtain ⟨hw, -⟩ := issueWith_ok h
  have key : ∃ ms g decs, ms.erase = claims ∧ Blinded ((issSettings opts).env L) ms g decs ∧
      payload = mkPayload ((issSettings opts).env L) ((issSettings opts).base iss) g := by
    by_cases h5 : (issSettings opts).version = 5
    · rw [show builderOf (issSettings opts).version = .v5 from by unfold builderOf; rw [if_pos h5]] at hw
      obtain ⟨ms, g, decs, h1, -, -, h3, h4⟩ := newV5_tree (E := (issSettings opts).env L) hsh (hnk h5)
        hw hcodec
      exact ⟨ms, g, decs, h1, h3, h4⟩
    · rw [show builderOf (issSettings opts).version = .v2 from by unfold builderOf; rw [if_neg h5]] at hw
      obtain ⟨ms, g, decs, h1, -, -, h3, h4⟩ := newV2_tree (E := (issSettings opts).env L) hsh hw
        (by rw [newV2_real hw] at hcodec; exact hcodec)
      exact ⟨ms, g, decs, h1, h3, h4⟩
  obtain ⟨ms, g, decs, h1, h3, rfl⟩ := key
  have hg : GoMap.get? (mkPayload ((issSettings opts).env L) ((issSettings opts).base iss) g) "_sd_alg" =
      some (.str (L.lower (hashName (issSettings opts).hash))) := by
    rw [(payload_eq hh.alg h3 (h1 ▸ hc.ok)).1, GoMap.get?_append, GoMap.get?_append]
    have : GoMap.get? (basePayload ((issSettings opts).base iss)) "_sd_alg" = none :=
      GoMap.get?_eq_none_iff.2 (fun hk => absurd ((base_keys _).subset hk) (by simp [baseNames]))
    rw [this]
    simp [GoMap.get?_cons, IssSettings.env]
  have ha := alg_of (E := (issSettings opts).env L) hh.alg hg
  obtain ⟨l1, l2, l3⟩ := hh.lower
  refine ⟨hg.trans ?_, ha.trans ?_⟩
  · rcases hh.known with e | e | e <;> simp [e, hashName, l1, l2, l3]
  · rcases hh.known with e | e | e <;> simp [e, hashName, IssSettings.env]

/-! ## `MakeSDJWT` -/

theorem mkMeans_unique {own : Int} {opts : List MkOpt} {s s' : MkSettings} (h : MkMeans own opts s)
    (h' : MkMeans own opts s') : s = s' := by
  obtain ⟨a1, a2, a3, a4, a5⟩ := s
  obtain ⟨b1, b2, b3, b4, b5⟩ := s'
  cases decides_unique (by intro x v w a b; rw [a] at b; cases b; rfl) h.hash h'.hash
  cases decides_unique (by intro x v w a b; rw [a] at b; cases b; rfl) h.version h'.version
  cases decides_unique (by intro x v w a b; rw [a] at b; cases b; rfl) h.recursive h'.recursive
  cases decides_unique (by intro x v w a b; rw [a] at b; cases b; rfl) h.always h'.always
  cases decides_unique (by intro x v w a b; rw [a] at b; cases b; rfl) h.nonSD h'.nonSD
  rfl

/-- The settings of the issuer behind `MakeSDJWT`. -/
def MkSettings.asked (s : MkSettings) : IssSettings :=
  { issDefaults with
    structured := true, version := s.version, recursive := s.recursive, always := s.always,
    nonSD := s.nonSD ++ ["id"], hash := if s.hash = 0 then 5 else s.hash }

theorem issuer_settings (s : MkSettings) : issSettings s.issuer = s.asked := by
  obtain ⟨h, v, r, a, n⟩ := s
  cases r <;> cases a <;> by_cases hh : h = 0 <;>
    simp [MkSettings.issuer, issSettings, MkSettings.asked, IssOpt.apply, issDefaults, hh]

/-- What `MakeSDJWT` does for the settings `s`: the environment of the issuer. -/
def MkSettings.env (s : MkSettings) (L : IssLib) : IEnv := s.asked.env L

theorem makeWith_ok {L : IssLib} {envelope : Option Int} {opts : List MkOpt} {claims : Int → JObj}
    {r : List Ent × JObj} (h : makeWith L envelope opts claims = .ok r) :
    makeSDJWT ((mkSettings envelope opts).env L) (builderOf (mkSettings envelope opts).version)
      (mkSettings envelope opts).nonSD (claims (mkSettings envelope opts).version) = .ok r ∧
    (L.available (if (mkSettings envelope opts).hash = 0 then 5 else (mkSettings envelope opts).hash) = true ∨
      r.1 = []) := by
  unfold makeWith fromVCWith at h
  rw [issuer_settings] at h
  split at h
  · cases h
  · rename_i r' hr
    obtain ⟨rfl, h2⟩ := needHash_ok h
    refine ⟨?_, h2.imp id And.left⟩
    exact hr

/-- **C126** (with C81).  A credential's SD-JWT, whatever options it is made with: the relying party always sees the
subject's identifier and every scalar claim on the last list of claims to keep in clear. -/
theorem make_with_shows {L : IssLib} (he : EnvWF L.env) (hsh : ∀ n l, (L.shuffle n l).Perm l)
    {envelope : Option Int} {own : Int}
    (hown : own = match envelope with | some v => if v = 0 then 2 else v | none => 2)
    {opts : List MkOpt} {s : MkSettings} (hm : MkMeans own opts s)
    (hh : HashOk L (if s.hash = 0 then 5 else s.hash)) {claims : Int → JObj} {cs payload : JObj} {es : List Ent}
    (hok : CredClaims (if s.version = 5 then .v5 else .v2) (claims s.version) cs)
    (hnk : s.version = 5 → NamedKeysObj cs)
    (h : makeWith L envelope opts claims = .ok (es, payload)) (hcodec : Codec L.env es)
    (hn : DistinctDigests L.env payload (es.map Ent.result))
    {k : String} {v : Json} (hk : k = "id" ∨ k ∈ s.nonSD) (hg : GoMap.get? cs k = some v) (hv : Atomic v)
    {S : List String} {order : DMap → List String} (hS : ∀ d ∈ S, d ∈ es.map Ent.result)
    (hnS : S.Nodup) (ho : ∀ D, ∀ d ∈ GoMap.keys D, d ∈ order D) :
    ∃ out cs', disclosedClaims L.env S payload order = .ok out ∧
      SubjectIn (if s.version = 5 then .v5 else .v2) out cs' ∧ GoMap.get? cs' k = some v := by
  subst hown
  cases mkMeans_unique hm (make_options envelope opts)
  obtain ⟨h1, -⟩ := makeWith_ok h
  exact make_shows_listed (E := (mkSettings envelope opts).env L) he hsh
    (HashOk.alg (s := (mkSettings envelope opts).asked) hh) hok
    (fun e => hnk (by by_cases h5 : (mkSettings envelope opts).version = 5 <;> simp_all)) h1 hcodec hn hk hg hv hS hnS ho

/-- **C126** (with C81).  And every other scalar claim of the subject is hidden: it has a disclosure of its own,
without which no relying party sees it. -/
theorem make_with_hides {L : IssLib} (he : EnvWF L.env) (hsh : ∀ n l, (L.shuffle n l).Perm l)
    {envelope : Option Int} {own : Int}
    (hown : own = match envelope with | some v => if v = 0 then 2 else v | none => 2)
    {opts : List MkOpt} {s : MkSettings} (hm : MkMeans own opts s)
    (hh : HashOk L (if s.hash = 0 then 5 else s.hash)) {claims : Int → JObj} {cs payload : JObj} {es : List Ent}
    (hok : CredClaims (if s.version = 5 then .v5 else .v2) (claims s.version) cs)
    (hnk : s.version = 5 → NamedKeysObj cs)
    (h : makeWith L envelope opts claims = .ok (es, payload)) (hcodec : Codec L.env es)
    (hn : DistinctDigests L.env payload (es.map Ent.result))
    {k : String} {v : Json} (hid : k ≠ "id") (hk : k ∉ s.nonSD) (hg : GoMap.get? cs k = some v) (hv : Atomic v) :
    ∃ d ∈ es.map Ent.result, ∀ (S : List String) (order : DMap → List String),
      (∀ x ∈ S, x ∈ es.map Ent.result) → S.Nodup → (∀ D, ∀ d ∈ GoMap.keys D, d ∈ order D) → d ∉ S →
      ∃ out cs', disclosedClaims L.env S payload order = .ok out ∧
        SubjectIn (if s.version = 5 then .v5 else .v2) out cs' ∧ GoMap.get? cs' k = none := by
  subst hown
  cases mkMeans_unique hm (make_options envelope opts)
  obtain ⟨h1, -⟩ := makeWith_ok h
  exact make_hides_unlisted (E := (mkSettings envelope opts).env L) he hsh
    (HashOk.alg (s := (mkSettings envelope opts).asked) hh) hok
    (fun e => hnk (by by_cases h5 : (mkSettings envelope opts).version = 5 <;> simp_all)) h1 hcodec hn hid hk hg hv

/-- **C126** (with C81).  An object inside the subject is always seen, whatever is disclosed of its members, unless
(version 5) the last list of recursive objects names it. -/
theorem make_with_objects {L : IssLib} (he : EnvWF L.env) (hsh : ∀ n l, (L.shuffle n l).Perm l)
    {envelope : Option Int} {own : Int}
    (hown : own = match envelope with | some v => if v = 0 then 2 else v | none => 2)
    {opts : List MkOpt} {s : MkSettings} (hm : MkMeans own opts s)
    (hh : HashOk L (if s.hash = 0 then 5 else s.hash)) {claims : Int → JObj} {cs payload : JObj} {es : List Ent}
    (hok : CredClaims (if s.version = 5 then .v5 else .v2) (claims s.version) cs)
    (hnk : s.version = 5 → NamedKeysObj cs)
    (h : makeWith L envelope opts claims = .ok (es, payload)) (hcodec : Codec L.env es)
    (hn : DistinctDigests L.env payload (es.map Ent.result))
    {k : String} {m : JObj} (hg : GoMap.get? cs k = some (.obj m)) (hr : s.version = 5 → k ∉ s.recursive)
    {S : List String} {order : DMap → List String} (hS : ∀ d ∈ S, d ∈ es.map Ent.result)
    (hnS : S.Nodup) (ho : ∀ D, ∀ d ∈ GoMap.keys D, d ∈ order D) :
    ∃ out cs' m', disclosedClaims L.env S payload order = .ok out ∧
      SubjectIn (if s.version = 5 then .v5 else .v2) out cs' ∧ GoMap.get? cs' k = some (.obj m') := by
  subst hown
  cases mkMeans_unique hm (make_options envelope opts)
  obtain ⟨h1, -⟩ := makeWith_ok h
  have h5 : (if (mkSettings envelope opts).version = 5 then Ver.v5 else Ver.v2) = .v5 →
      (mkSettings envelope opts).version = 5 := by
    intro e; by_cases h5 : (mkSettings envelope opts).version = 5 <;> simp_all
  exact make_keeps_objects (E := (mkSettings envelope opts).env L) he hsh
    (HashOk.alg (s := (mkSettings envelope opts).asked) hh) hok (fun e => hnk (h5 e)) h1 hcodec hn hg
    (fun e => decide_eq_false (hr (h5 e))) hS hnS ho

/-- **C126.**  The hash of a credential's SD-JWT, if it hides anything, is available: an unavailable one is an
error. -/
theorem make_with_hash {L : IssLib} {envelope : Option Int} {own : Int}
    (hown : own = match envelope with | some v => if v = 0 then 2 else v | none => 2)
    {opts : List MkOpt} {s : MkSettings} (hm : MkMeans own opts s) {claims : Int → JObj} {payload : JObj}
    {es : List Ent} (h : makeWith L envelope opts claims = .ok (es, payload)) (hne : es ≠ []) :
    L.available (if s.hash = 0 then 5 else s.hash) = true := by
  subst hown
  cases mkMeans_unique hm (make_options envelope opts)
  exact (makeWith_ok h).2.resolve_right hne

end VC.SDJWT
