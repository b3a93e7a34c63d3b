import Verif.SDJWT.VerifierProps
import Verif.Verifiable.Options
/-!
# sdjwt: the options of the verifier's and the holder's `Parse` (C124)

The options are the only way to say what an SD-JWT has to satisfy.  Every option is a value here and the
two `Parse` functions apply them in order to their defaults; the specification says which option decides
each setting, and what is demanded when nothing is said.
-/

namespace VC.SDJWT

open VC.Proof (Bytes header)
open VC.Vfy.Spec (Decides)
open VC.Vfy (decides_foldl decides_unique)

/-! ## Model: the verifier -/

/-- `ParseOpt` of the verifier, verifier.go:57-150. -/
inductive VerOpt where
  /-- `WithJWTDetachedPayload`, verifier.go:60-64; nil is possible -/
  | detached (payload : Option Bytes)
  /-- `WithSignatureVerifier`, verifier.go:67-71; nil is possible -/
  | sigVerifier (pc : Option JWT.ProofChecker)
  /-- `WithIssuerSigningAlgorithms`, verifier.go:74-78 -/
  | issuerAlgs (l : List String)
  /-- `WithHolderSigningAlgorithms`, verifier.go:81-85 -/
  | holderAlgs (l : List String)
  /-- `WithHolderBindingRequired`, verifier.go:89-91 (deprecated name) -/
  | holderBindingRequired (flag : Bool)
  /-- `WithExpectedAudienceForHolderBinding`, verifier.go:95-97 (deprecated name) -/
  | audienceForBinding (aud : String)
  /-- `WithExpectedNonceForHolderBinding`, verifier.go:101-103 (deprecated name) -/
  | nonceForBinding (nonce : String)
  /-- `WithHolderVerificationRequired`, verifier.go:108-112 -/
  | holderVerificationRequired (flag : Bool)
  /-- `WithExpectedAudienceForHolderVerification`, verifier.go:115-119 -/
  | audience (aud : String)
  /-- `WithExpectedNonceForHolderVerification`, verifier.go:122-126 -/
  | nonce (nonce : String)
  /-- `WithLeewayForClaimsValidation`, verifier.go:129-133 -/
  | leeway (d : Int)
  /-- `WithExpectedTypHeader`, verifier.go:138-142 -/
  | typ (t : String)

/-- `parseOpts` of the verifier, verifier.go:40-55. -/
structure VerSettings where
  detached : Option Bytes
  sigVerifier : Option JWT.ProofChecker
  issuerAlgs : List String
  holderAlgs : List String
  holderRequired : Bool
  expectedAud : String
  expectedNonce : String
  leeway : Int
  expectedTyp : String

/-- What an option does, verifier.go:60-142; the deprecated ones call the others. -/
def VerOpt.apply (o : VerSettings) : VerOpt → VerSettings
  | .detached p => { o with detached := p }
  | .sigVerifier pc => { o with sigVerifier := pc }
  | .issuerAlgs l => { o with issuerAlgs := l }
  | .holderAlgs l => { o with holderAlgs := l }
  | .holderBindingRequired b => { o with holderRequired := b }
  | .audienceForBinding a => { o with expectedAud := a }
  | .nonceForBinding n => { o with expectedNonce := n }
  | .holderVerificationRequired b => { o with holderRequired := b }
  | .audience a => { o with expectedAud := a }
  | .nonce n => { o with expectedNonce := n }
  | .leeway d => { o with leeway := d }
  | .typ t => { o with expectedTyp := t }

/-- `jwt.DefaultLeeway` of go-jose v3, one minute in nanoseconds (verifier.go:167). -/
def defaultLeeway : Int := 60 * ns

/-- What `Parse` starts from, verifier.go:163-168. -/
def verDefaults : VerSettings where
  detached := none
  sigVerifier := none
  issuerAlgs := defaultAlgs
  holderAlgs := defaultAlgs
  holderRequired := false
  expectedAud := ""
  expectedNonce := ""
  leeway := defaultLeeway
  expectedTyp := ""

/-- The settings after all options, verifier.go:170-172. -/
def verSettings (opts : List VerOpt) : VerSettings := opts.foldl VerOpt.apply verDefaults

/-- The settings with a checker, as the model of `Parse` takes them. -/
def VerSettings.toVOpts (o : VerSettings) (pc : JWT.ProofChecker) (now nowHolder : Int) : VOpts where
  pc := pc
  detached := o.detached
  issuerAlgs := o.issuerAlgs
  holderAlgs := o.holderAlgs
  leeway := o.leeway
  holderRequired := o.holderRequired
  expectedNonce := o.expectedNonce
  expectedAud := o.expectedAud
  expectedTyp := o.expectedTyp
  now := now
  nowHolder := nowHolder

/-- What a call can end with. -/
inductive Outcome (α : Type) where
  | claims (a : α)
  | error (e : VErr)
  /-- a nil checker is called, jose_wrappers.go:68 -/
  | crash

/-- `ParseAndCheckProof` with a nil checker, jwt.go:114-148: whatever gets as far as the check crashes. -/
def checkNil (lib : JWT.Lib) (detached : Option Bytes) (s : String) : Outcome α :=
  match JWT.parse lib detached s with
  | .error e => .error (.jwt e)
  | .ok (tok, _) =>
    match GoMap.get? tok.payload "iss" with
    | none => .error (.jwt .noIss)
    | some _ => .crash

/-- An error or claims. -/
def Outcome.of : Except VErr α → Outcome α
  | .ok a => .claims a
  | .error e => .error e

/-- `Parse` with its options, verifier.go:162-209. -/
def verifierParseWith (lib : VLib) (now nowHolder : Int) (opts : List VerOpt) (order : DMap → List String) (s : String) :
    Outcome JObj :=
  match (verSettings opts).sigVerifier with
  | none => checkNil lib.jwt (verSettings opts).detached (parsePresentation s).sdJWT
  | some pc => .of (verifierParse lib ((verSettings opts).toVOpts pc now nowHolder) order s)

/-! ## Model: the holder -/

/-- `ParseOpt` of the holder, holder.go:43-90. -/
inductive HolOpt where
  /-- `WithJWTDetachedPayload`, holder.go:46-50 -/
  | detached (payload : Option Bytes)
  /-- `WithSignatureVerifier`, holder.go:53-57; nil is possible -/
  | sigVerifier (pc : Option JWT.ProofChecker)
  /-- `WithSDJWTV5Validation`, holder.go:61-65 -/
  | v5 (flag : Bool)
  /-- `WithIssuerSigningAlgorithms`, holder.go:68-72 -/
  | issuerAlgs (l : List String)
  /-- `WithLeewayForClaimsValidation`, holder.go:75-79 -/
  | leeway (d : Int)
  /-- `WithExpectedTypHeader`, holder.go:84-88 -/
  | typ (t : String)

/-- `parseOpts` of the holder, holder.go:32-41. -/
structure HolSettings where
  detached : Option Bytes
  sigVerifier : Option JWT.ProofChecker
  issuerAlgs : List String
  v5 : Bool
  expectedTyp : String
  leeway : Int

/-- What an option does, holder.go:46-88. -/
def HolOpt.apply (o : HolSettings) : HolOpt → HolSettings
  | .detached p => { o with detached := p }
  | .sigVerifier pc => { o with sigVerifier := pc }
  | .v5 b => { o with v5 := b }
  | .issuerAlgs l => { o with issuerAlgs := l }
  | .leeway d => { o with leeway := d }
  | .typ t => { o with expectedTyp := t }

/-- `NoopSignatureVerifier.CheckJWTProof`, holder.go:310-313. -/
def noop : JWT.ProofChecker := fun _ _ _ _ => true

/-- What the holder's `Parse` starts from, holder.go:107-109. -/
def holDefaults : HolSettings := ⟨none, some noop, [], false, "", 0⟩

/-- The settings after all options, holder.go:111-113. -/
def holSettings (opts : List HolOpt) : HolSettings := opts.foldl HolOpt.apply holDefaults

/-- The settings with a checker, as the model of the holder's `Parse` takes them. -/
def HolSettings.toHOpts (o : HolSettings) (pc : JWT.ProofChecker) (now : Int) : HOpts where
  pc := pc
  detached := o.detached
  v5 := o.v5
  issuerAlgs := o.issuerAlgs
  leeway := o.leeway
  expectedTyp := o.expectedTyp
  now := now

/-- The holder's `Parse` with its options, holder.go:106-143. -/
def holderParseWith (lib : VLib) (now : Int) (opts : List HolOpt) (order : DMap → List String) (s : String) :
    Outcome (List Claim) :=
  match (holSettings opts).sigVerifier with
  | none => checkNil lib.jwt (holSettings opts).detached (parseIssuance s).sdJWT
  | some pc => .of (holderParse lib ((holSettings opts).toHOpts pc now) order s)

/-! ## Specification -/

/-- Options of the verifier that say whether a holder verification is needed. -/
inductive SaysHolder : VerOpt → Bool → Prop
  | old (b : Bool) : SaysHolder (.holderBindingRequired b) b
  | new (b : Bool) : SaysHolder (.holderVerificationRequired b) b

/-- … which audience the holder's JWT must have. -/
inductive SaysAud : VerOpt → String → Prop
  | old (a : String) : SaysAud (.audienceForBinding a) a
  | new (a : String) : SaysAud (.audience a) a

/-- … which nonce. -/
inductive SaysNonce : VerOpt → String → Prop
  | old (n : String) : SaysNonce (.nonceForBinding n) n
  | new (n : String) : SaysNonce (.nonce n) n

/-- The settings a list of verifier options stands for: each is what the last option about it says. -/
structure VerMeans (opts : List VerOpt) (o : VerSettings) : Prop where
  detached : Decides (fun x v => x = .detached v) opts none o.detached
  sigVerifier : Decides (fun x v => x = .sigVerifier v) opts none o.sigVerifier
  issuerAlgs : Decides (fun x v => x = .issuerAlgs v) opts ["EdDSA", "RS256"] o.issuerAlgs
  holderAlgs : Decides (fun x v => x = .holderAlgs v) opts ["EdDSA", "RS256"] o.holderAlgs
  holder : Decides SaysHolder opts false o.holderRequired
  audience : Decides SaysAud opts "" o.expectedAud
  nonce : Decides SaysNonce opts "" o.expectedNonce
  leeway : Decides (fun x v => x = .leeway v) opts 60000000000 o.leeway
  typ : Decides (fun x v => x = .typ v) opts "" o.expectedTyp

/-- The settings a list of holder options stands for. -/
structure HolMeans (opts : List HolOpt) (o : HolSettings) : Prop where
  detached : Decides (fun x v => x = .detached v) opts none o.detached
  sigVerifier : Decides (fun x v => x = .sigVerifier v) opts (some fun _ _ _ _ => true) o.sigVerifier
  issuerAlgs : Decides (fun x v => x = .issuerAlgs v) opts [] o.issuerAlgs
  v5 : Decides (fun x v => x = .v5 v) opts false o.v5
  typ : Decides (fun x v => x = .typ v) opts "" o.expectedTyp
  leeway : Decides (fun x v => x = .leeway v) opts 0 o.leeway

/-! ## Theorems: what the options mean -/

/-- **C124.**  Every list of verifier options means what the specification says. -/
theorem verifier_options (opts : List VerOpt) : VerMeans opts (verSettings opts) where
  detached := decides_foldl (get := VerSettings.detached)
    (by intro st o; cases o <;> simp [VerOpt.apply]) opts verDefaults
  sigVerifier := decides_foldl (get := VerSettings.sigVerifier)
    (by intro st o; cases o <;> simp [VerOpt.apply]) opts verDefaults
  issuerAlgs := decides_foldl (get := VerSettings.issuerAlgs)
    (by intro st o; cases o <;> simp [VerOpt.apply]) opts verDefaults
  holderAlgs := decides_foldl (get := VerSettings.holderAlgs)
    (by intro st o; cases o <;> simp [VerOpt.apply]) opts verDefaults
  holder := decides_foldl (get := VerSettings.holderRequired) (by
    intro st o
    cases o <;> first
      | exact .inl (.old _)
      | exact .inl (.new _)
      | exact .inr ⟨fun w h => (nomatch h), rfl⟩) opts verDefaults
  audience := decides_foldl (get := VerSettings.expectedAud) (by
    intro st o
    cases o <;> first
      | exact .inl (.old _)
      | exact .inl (.new _)
      | exact .inr ⟨fun w h => (nomatch h), rfl⟩) opts verDefaults
  nonce := decides_foldl (get := VerSettings.expectedNonce) (by
    intro st o
    cases o <;> first
      | exact .inl (.old _)
      | exact .inl (.new _)
      | exact .inr ⟨fun w h => (nomatch h), rfl⟩) opts verDefaults
  leeway := decides_foldl (get := VerSettings.leeway)
    (by intro st o; cases o <;> simp [VerOpt.apply]) opts verDefaults
  typ := decides_foldl (get := VerSettings.expectedTyp)
    (by intro st o; cases o <;> simp [VerOpt.apply]) opts verDefaults

/-- **C124.**  And every list of holder options. -/
theorem holder_options (opts : List HolOpt) : HolMeans opts (holSettings opts) where
  detached := decides_foldl (get := HolSettings.detached)
    (by intro st o; cases o <;> simp [HolOpt.apply]) opts holDefaults
  sigVerifier := decides_foldl (get := HolSettings.sigVerifier)
    (by intro st o; cases o <;> simp [HolOpt.apply]) opts holDefaults
  issuerAlgs := decides_foldl (get := HolSettings.issuerAlgs)
    (by intro st o; cases o <;> simp [HolOpt.apply]) opts holDefaults
  v5 := decides_foldl (get := HolSettings.v5)
    (by intro st o; cases o <;> simp [HolOpt.apply]) opts holDefaults
  typ := decides_foldl (get := HolSettings.expectedTyp)
    (by intro st o; cases o <;> simp [HolOpt.apply]) opts holDefaults
  leeway := decides_foldl (get := HolSettings.leeway)
    (by intro st o; cases o <;> simp [HolOpt.apply]) opts holDefaults

/-! ## Theorems: what acceptance then means -/

theorem decides_default {O α : Type} {tells : O → α → Prop} {opts : List O} {d v : α}
    (h : Decides tells opts d v) (hn : ∀ o ∈ opts, ∀ w, ¬ tells o w) : v = d := by
  rcases h with ⟨pre, o, post, e, h1, _⟩ | ⟨_, h2⟩
  · exact absurd h1 (hn o (by rw [e]; simp) v)
  · exact h2

theorem decides_last {O α : Type} {tells : O → α → Prop} (hu : ∀ o v w, tells o v → tells o w → v = w)
    {pre post : List O} {o : O} {d v w : α} (h : Decides tells (pre ++ o :: post) d v) (ht : tells o w)
    (hp : ∀ x ∈ post, ∀ u, ¬ tells x u) : v = w :=
  decides_unique hu h (.inl ⟨pre, o, post, rfl, ht, hp⟩)

theorem parseWith_claims {lib : VLib} {now nowH : Int} {opts : List VerOpt} {order : DMap → List String} {s : String}
    {out : JObj} (h : verifierParseWith lib now nowH opts order s = .claims out) :
    ∃ pc, (verSettings opts).sigVerifier = some pc ∧
      verifierParse lib ((verSettings opts).toVOpts pc now nowH) order s = .ok out := by
  unfold verifierParseWith at h
  split at h
  · unfold checkNil at h
    split at h
    · cases h
    · split at h <;> cases h
  · rename_i pc hpc
    refine ⟨pc, hpc, ?_⟩
    revert h
    cases verifierParse lib ((verSettings opts).toVOpts pc now nowH) order s with
    | error e => intro h; cases h
    | ok a => intro h; cases h; rfl

theorem verMeans_unique {opts : List VerOpt} {o o' : VerSettings} (h : VerMeans opts o) (h' : VerMeans opts o') :
    o = o' := by
  have hh : ∀ x v w, SaysHolder x v → SaysHolder x w → v = w := by intro x v w a b; cases a <;> cases b <;> rfl
  have ha : ∀ x v w, SaysAud x v → SaysAud x w → v = w := by intro x v w a b; cases a <;> cases b <;> rfl
  have hn : ∀ x v w, SaysNonce x v → SaysNonce x w → v = w := by intro x v w a b; cases a <;> cases b <;> rfl
  obtain ⟨d, sv, ia, hal, hr, ea, en, le, ty⟩ := o
  obtain ⟨d', sv', ia', hal', hr', ea', en', le', ty'⟩ := o'
  cases decides_unique (by intro x v w a b; rw [a] at b; cases b; rfl) h.detached h'.detached
  cases decides_unique (by intro x v w a b; rw [a] at b; cases b; rfl) h.sigVerifier h'.sigVerifier
  cases decides_unique (by intro x v w a b; rw [a] at b; cases b; rfl) h.issuerAlgs h'.issuerAlgs
  cases decides_unique (by intro x v w a b; rw [a] at b; cases b; rfl) h.holderAlgs h'.holderAlgs
  cases decides_unique hh h.holder h'.holder
  cases decides_unique ha h.audience h'.audience
  cases decides_unique hn h.nonce h'.nonce
  cases decides_unique (by intro x v w a b; rw [a] at b; cases b; rfl) h.leeway h'.leeway
  cases decides_unique (by intro x v w a b; rw [a] at b; cases b; rfl) h.typ h'.typ
  rfl

/-- **C124.**  A presentation is accepted exactly if the options name a signature verifier and everything
the options ask for holds; nothing else matters. -/
theorem verifier_accepts_iff (lib : VLib) (now nowH : Int) (opts : List VerOpt) (order : DMap → List String)
    (s : String) (out : JObj) : verifierParseWith lib now nowH opts order s = .claims out ↔
      ∃ o pc tok, VerMeans opts o ∧ o.sigVerifier = some pc ∧
        Accepted lib (o.toVOpts pc now nowH) (parsePresentation s) tok ∧
        disclosedClaims lib.env (parsePresentation s).disclosures tok.payload order = .ok out := by
  constructor
  · intro h
    obtain ⟨pc, hpc, hv⟩ := parseWith_claims h
    obtain ⟨tok, ha, hd⟩ := (verifier_parse_iff _ _ _ _ _).mp hv
    exact ⟨_, pc, tok, verifier_options opts, hpc, ha, hd⟩
  · rintro ⟨o, pc, tok, hm, hpc, ha, hd⟩
    cases verMeans_unique hm (verifier_options opts)
    unfold verifierParseWith
    rw [hpc]
    show Outcome.of _ = _
    rw [(verifier_parse_iff _ _ _ _ _).mpr ⟨tok, ha, hd⟩]
    rfl

/-- **C124.**  Nothing is accepted unless some option gave a signature verifier, and then the issuer's
signature satisfied the verifier given last. -/
theorem accepted_by_given_verifier {lib : VLib} {now nowH : Int} {opts : List VerOpt} {order : DMap → List String}
    {s : String} {out : JObj} (h : verifierParseWith lib now nowH opts order s = .claims out) :
    ∃ pre pc post, opts = pre ++ VerOpt.sigVerifier (some pc) :: post ∧
      (∀ x, VerOpt.sigVerifier x ∉ post) ∧
      ∃ det j iss m, Decides (fun x v => x = .detached v) opts none det ∧
        lib.jwt.parseJWS det (parsePresentation s).sdJWT = some j ∧
        lib.jwt.payloadToMap j.payload = some m ∧ GoMap.get? m "iss" = some iss ∧
        pc j.headers (lib.jwt.jsonString iss) j.signingInput j.signature = true := by
  obtain ⟨pc, hpc, hv⟩ := parseWith_claims h
  have hd := (verifier_options opts).sigVerifier
  rw [hpc] at hd
  rcases hd with ⟨pre, o, post, e, rfl, hp⟩ | ⟨_, h2⟩
  · refine ⟨pre, pc, post, e, fun x hx => hp _ hx x rfl, ?_⟩
    obtain ⟨tok, ha, _⟩ := (verifier_parse_iff _ _ _ _ _).mp hv
    obtain ⟨pl, hp⟩ := ha.proof
    obtain ⟨j, _, h1, _, h3, _, _, h5, h6⟩ := (JWT.parse_and_check_iff _ _ _ _ _ _ _).mp hp
    simp only [JWT.ExpectedIssuer, if_true] at h5
    obtain ⟨iss, g1, rfl⟩ := h5
    exact ⟨_, j, iss, _, (verifier_options opts).detached, h1, h3, g1, h6⟩
  · cases h2

/-- **C124.**  The issuer's algorithm, and the holder's, are on the list given last; if none was given they
are EdDSA or RS256. -/
theorem accepted_algorithms {lib : VLib} {now nowH : Int} {opts : List VerOpt} {order : DMap → List String}
    {s : String} {out : JObj} (h : verifierParseWith lib now nowH opts order s = .claims out) :
    (∃ det j a l, lib.jwt.parseJWS det (parsePresentation s).sdJWT = some j ∧ header j.headers "alg" = some a ∧
      Decides (fun x v => x = .issuerAlgs v) opts ["EdDSA", "RS256"] l ∧ a ≠ "none" ∧ a ∈ l) ∧
    ((parsePresentation s).holderVerification ≠ "" →
      ∃ j a l, lib.jwt.parseJWS none (parsePresentation s).holderVerification = some j ∧
        header j.headers "alg" = some a ∧
        Decides (fun x v => x = .holderAlgs v) opts ["EdDSA", "RS256"] l ∧ a ≠ "none" ∧ a ∈ l) := by
  obtain ⟨pc, _, hv⟩ := parseWith_claims h
  obtain ⟨⟨j, a, h1, h2, h3, h4⟩, hh⟩ := allowed_algorithms_only _ _ _ _ _ hv
  refine ⟨⟨_, j, a, _, h1, h2, (verifier_options opts).issuerAlgs, h3, h4⟩, fun hn => ?_⟩
  obtain ⟨j, a, h1, h2, h3, h4⟩ := hh hn
  exact ⟨j, a, _, h1, h2, (verifier_options opts).holderAlgs, h3, h4⟩

/-- **C124.**  Without an option about algorithms only EdDSA and RS256 are accepted from the issuer. -/
theorem default_algorithms {lib : VLib} {now nowH : Int} {opts : List VerOpt} {order : DMap → List String}
    {s : String} {out : JObj} (h : verifierParseWith lib now nowH opts order s = .claims out)
    (hn : ∀ l, VerOpt.issuerAlgs l ∉ opts) :
    ∃ det j, lib.jwt.parseJWS det (parsePresentation s).sdJWT = some j ∧
      (header j.headers "alg" = some "EdDSA" ∨ header j.headers "alg" = some "RS256") := by
  obtain ⟨⟨det, j, a, l, h1, h2, h3, _, h5⟩, _⟩ := accepted_algorithms h
  have := decides_default h3 (fun o ho w e => hn w (e ▸ ho))
  subst this
  refine ⟨det, j, h1, ?_⟩
  rw [h2]
  simpa using h5

/-- **C124.**  If the last option about it, under either name, asks for holder verification, then a
presentation without one is refused. -/
theorem holder_verification_demanded {lib : VLib} {now nowH : Int} {pre post : List VerOpt} {o : VerOpt}
    (ho : SaysHolder o true) (hp : ∀ x ∈ post, ∀ b, ¬ SaysHolder x b) {order : DMap → List String} {s : String}
    (hn : (parsePresentation s).holderVerification = "") :
    ∀ out, verifierParseWith lib now nowH (pre ++ o :: post) order s ≠ .claims out := by
  intro out h
  obtain ⟨pc, _, hv⟩ := parseWith_claims h
  have hr := decides_last (by intro x v w a b; cases a <;> cases b <;> rfl)
    (verifier_options (pre ++ o :: post)).holder ho hp
  exact holder_verification_required lib _ order s (by exact hr) hn out hv

/-- **C124.**  If the last option about it does not ask for it, or there is none, a presentation without
holder verification is not refused for that: the holder options then do not matter. -/
theorem holder_verification_not_demanded {lib : VLib} {now nowH : Int} {opts : List VerOpt}
    (hd : Decides SaysHolder opts false false) {order : DMap → List String} {s : String}
    (hn : (parsePresentation s).holderVerification = "") {out : JObj}
    (h : verifierParseWith lib now nowH opts order s = .claims out) (extra : List VerOpt)
    (he : ∀ x ∈ extra, ∃ l n, x = .holderAlgs l ∨ x = .audience n ∨ x = .nonce n ∨ x = .audienceForBinding n ∨
      x = .nonceForBinding n) :
    verifierParseWith lib now nowH (opts ++ extra) order s = .claims out := by
  have hr : (verSettings opts).holderRequired = false :=
    decides_unique (by intro x v w a b; cases a <;> cases b <;> rfl) (verifier_options opts).holder hd
  have key : ∀ (l : List VerOpt) (st : VerSettings), (∀ x ∈ l, ∃ l n, x = .holderAlgs l ∨ x = .audience n ∨
      x = .nonce n ∨ x = .audienceForBinding n ∨ x = .nonceForBinding n) →
      ∃ a b c, l.foldl VerOpt.apply st = { st with holderAlgs := a, expectedAud := b, expectedNonce := c } := by
    intro l
    induction l with
    | nil => intro st _; exact ⟨st.holderAlgs, st.expectedAud, st.expectedNonce, rfl⟩
    | cons x l ih =>
      intro st hx
      obtain ⟨a, b, c, e⟩ := ih (VerOpt.apply st x) (fun y hy => hx y (List.mem_cons_of_mem _ hy))
      rw [List.foldl_cons, e]
      obtain ⟨al, n, rfl | rfl | rfl | rfl | rfl⟩ := hx x (List.mem_cons_self ..)
      all_goals exact ⟨a, b, c, rfl⟩
  obtain ⟨a, b, c, e⟩ := key extra (verSettings opts) he
  have e' : verSettings (opts ++ extra) =
      { verSettings opts with holderAlgs := a, expectedAud := b, expectedNonce := c } := by
    rw [← e]; unfold verSettings; rw [List.foldl_append]
  obtain ⟨o, pc, tok, hm, hpc, ha, hd'⟩ := (verifier_accepts_iff ..).mp h
  refine (verifier_accepts_iff ..).mpr ⟨_, pc, tok, verifier_options _, ?_, ?_, hd'⟩
  · rw [e']
    rw [verMeans_unique hm (verifier_options opts)] at hpc
    exact hpc
  · cases verMeans_unique hm (verifier_options opts)
    rw [e']
    exact { proof := ha.proof, alg := ha.alg, time := ha.time, nodup := ha.nodup, disclosures := ha.disclosures,
            typ := ha.typ, holder := .inl ⟨hn, hr⟩ }

/-- The new name of a deprecated option. -/
def modern : VerOpt → VerOpt
  | .holderBindingRequired b => .holderVerificationRequired b
  | .audienceForBinding a => .audience a
  | .nonceForBinding n => .nonce n
  | o => o

/-- **C124.**  The deprecated names do what the new ones do. -/
theorem deprecated_names (lib : VLib) (now nowH : Int) (opts : List VerOpt) (order : DMap → List String) (s : String) :
    verifierParseWith lib now nowH (opts.map modern) order s = verifierParseWith lib now nowH opts order s := by
  have : verSettings (opts.map modern) = verSettings opts := by
    unfold verSettings
    rw [List.foldl_map]
    congr 1
    funext st o
    cases o <;> rfl
  unfold verifierParseWith
  rw [this]

/-- **C124.**  Without a signature verifier the verifier accepts nothing; what gets as far as the check
crashes it. -/
theorem nil_verifier_crashes {lib : VLib} {now nowH : Int} {opts : List VerOpt}
    (hn : ∀ pc, VerOpt.sigVerifier pc ∉ opts) (order : DMap → List String) (s : String) {det : Option Bytes} {j : JWT.Jws}
    {m : JObj} {iss : Json} (hdet : Decides (fun x v => x = .detached v) opts none det)
    (h1 : lib.jwt.parseJWS det (parsePresentation s).sdJWT = some j) (h2 : JWT.GoodHeaders lib.jwt.upper j.headers)
    (h3 : lib.jwt.payloadToMap j.payload = some m) (h4 : GoMap.get? m "iss" = some iss) :
    verifierParseWith lib now nowH opts order s = .crash := by
  have e := decides_default (verifier_options opts).sigVerifier (fun o ho w e => hn w (e ▸ ho))
  have ed : (verSettings opts).detached = det :=
    decides_unique (by intro x v w a b; rw [a] at b; cases b; rfl) (verifier_options opts).detached hdet
  unfold verifierParseWith
  rw [e]
  show checkNil _ _ _ = _
  unfold checkNil
  rw [ed, (JWT.parse_ok_iff lib.jwt det (parsePresentation s).sdJWT ⟨j.headers, m⟩ j.payload).mpr
    ⟨j, h1, h2, h3, rfl, rfl⟩]
  simp only [h4]

/-! ## Theorems: the holder -/

theorem holMeans_unique {opts : List HolOpt} {o o' : HolSettings} (h : HolMeans opts o) (h' : HolMeans opts o') :
    o = o' := by
  obtain ⟨d, sv, ia, v5, ty, le⟩ := o
  obtain ⟨d', sv', ia', v5', ty', le'⟩ := o'
  cases decides_unique (by intro x v w a b; rw [a] at b; cases b; rfl) h.detached h'.detached
  cases decides_unique (by intro x v w a b; rw [a] at b; cases b; rfl) h.sigVerifier h'.sigVerifier
  cases decides_unique (by intro x v w a b; rw [a] at b; cases b; rfl) h.issuerAlgs h'.issuerAlgs
  cases decides_unique (by intro x v w a b; rw [a] at b; cases b; rfl) h.v5 h'.v5
  cases decides_unique (by intro x v w a b; rw [a] at b; cases b; rfl) h.typ h'.typ
  cases decides_unique (by intro x v w a b; rw [a] at b; cases b; rfl) h.leeway h'.leeway
  rfl

/-- **C124.**  The holder gets claims exactly if the options name a signature verifier (one that takes
everything is the default), it accepts the token, and the extra checks pass if they were asked for last. -/
theorem holder_accepts_iff (lib : VLib) (now : Int) (opts : List HolOpt) (order : DMap → List String)
    (s : String) (cs : List Claim) : holderParseWith lib now opts order s = .claims cs ↔
      ∃ o pc tok pl alg D, HolMeans opts o ∧ o.sigVerifier = some pc ∧
        JWT.parseAndCheckProof lib.jwt pc true o.detached (parseIssuance s).sdJWT = .ok (tok, pl) ∧
        (o.v5 = true → V5Ok lib (o.toHOpts pc now) tok (parseIssuance s).disclosures) ∧
        verifyDisclosures lib.env (parseIssuance s).disclosures tok.payload = .ok () ∧
        getHashAlg lib.env tok.payload = some alg ∧
        resolveDisclosureClaims lib.env alg (parseIssuance s).disclosures order = .ok D ∧
        cs = D.map (fun p => ⟨p.2.disclosure, p.2.name, p.2.value⟩) := by
  constructor
  · intro h
    unfold holderParseWith at h
    split at h
    · unfold checkNil at h
      split at h
      · cases h
      · split at h <;> cases h
    · rename_i pc hpc
      have : holderParse lib ((holSettings opts).toHOpts pc now) order s = .ok cs := by
        revert h
        cases holderParse lib ((holSettings opts).toHOpts pc now) order s with
        | error e => intro h; cases h
        | ok a => intro h; cases h; rfl
      obtain ⟨tok, pl, alg, D, h1, h2, h3, h4, h5, h6⟩ := (holder_parse_iff _ _ _ _ _).mp this
      exact ⟨_, pc, tok, pl, alg, D, holder_options opts, hpc, h1, h2, h3, h4, h5, h6⟩
  · rintro ⟨o, pc, tok, pl, alg, D, hm, hpc, h1, h2, h3, h4, h5, h6⟩
    cases holMeans_unique hm (holder_options opts)
    unfold holderParseWith
    rw [hpc]
    show Outcome.of _ = _
    rw [(holder_parse_iff _ _ _ _ _).mpr ⟨tok, pl, alg, D, h1, h2, h3, h4, h5, h6⟩]
    rfl

/-- Two parsed tokens that differ at most in their signatures. -/
def SameButSignature (lib lib' : JWT.Lib) : Prop :=
  lib.payloadToMap = lib'.payloadToMap ∧ lib.upper = lib'.upper ∧ lib.jsonString = lib'.jsonString ∧
  ∀ d s, (lib.parseJWS d s).map (fun j => (j.headers, j.payload, j.signingInput)) =
    (lib'.parseJWS d s).map (fun j => (j.headers, j.payload, j.signingInput))

/-- **C124.**  A holder who names no signature verifier accepts whatever signature: change all signatures,
and the answer stays. -/
theorem holder_default_ignores_signatures {lib : VLib} {jwt' : JWT.Lib} (hs : SameButSignature lib.jwt jwt')
    (now : Int) {opts : List HolOpt} (hn : ∀ pc, HolOpt.sigVerifier pc ∉ opts) (order : DMap → List String) (s : String)
    (cs : List Claim) : holderParseWith lib now opts order s = .claims cs ↔
      holderParseWith { lib with jwt := jwt' } now opts order s = .claims cs := by
  obtain ⟨e1, e2, e3, e4⟩ := hs
  have hd : ∀ o, HolMeans opts o → o.sigVerifier = some (fun _ _ _ _ => true) := fun o h =>
    decides_default h.sigVerifier (fun x hx w e => hn w (e ▸ hx))
  have hpar : ∀ d t tok pl, JWT.parseAndCheckProof lib.jwt (fun _ _ _ _ => true) true d t = .ok (tok, pl) ↔
      JWT.parseAndCheckProof jwt' (fun _ _ _ _ => true) true d t = .ok (tok, pl) := by
    intro d t tok pl
    rw [JWT.parse_and_check_iff, JWT.parse_and_check_iff]
    have e := e4 d t
    constructor
    · rintro ⟨j, iss, h1, h2, h3, h4, h5, h6, h7⟩
      rw [h1] at e
      cases h : jwt'.parseJWS d t with
      | none => rw [h] at e; cases e
      | some j' =>
        rw [h] at e
        simp only [Option.map_some, Option.some.injEq, Prod.mk.injEq] at e
        obtain ⟨a, b, c⟩ := e
        refine ⟨j', iss, rfl, by rw [← a, ← e2]; exact h2, by rw [← b, ← e1]; exact h3, by rw [← a]; exact h4,
          by rw [← b]; exact h5, ?_, rfl⟩
        rw [← a]
        simpa only [JWT.ExpectedIssuer, e3] using h6
    · rintro ⟨j, iss, h1, h2, h3, h4, h5, h6, h7⟩
      rw [h1] at e
      cases h : lib.jwt.parseJWS d t with
      | none => rw [h] at e; cases e
      | some j' =>
        rw [h] at e
        simp only [Option.map_some, Option.some.injEq, Prod.mk.injEq] at e
        obtain ⟨a, b, c⟩ := e
        refine ⟨j', iss, rfl, by rw [a, e2]; exact h2, by rw [b, e1]; exact h3, by rw [a]; exact h4,
          by rw [b]; exact h5, ?_, rfl⟩
        rw [a]
        simpa only [JWT.ExpectedIssuer, e3] using h6
  have hv5 : ∀ o tok ds, V5Ok lib o tok ds ↔ V5Ok { lib with jwt := jwt' } o tok ds := fun o tok ds =>
    ⟨fun h => ⟨h.noKB, h.typ, h.alg, h.time⟩, fun h => ⟨h.noKB, h.typ, h.alg, h.time⟩⟩
  rw [holder_accepts_iff, holder_accepts_iff]
  constructor
  · rintro ⟨o, pc, tok, pl, alg, D, hm, hpc, h1, h2, h3, h4, h5, h6⟩
    have := hd o hm
    rw [hpc] at this
    cases this
    exact ⟨o, _, tok, pl, alg, D, hm, hpc, (hpar _ _ _ _).mp h1, fun h => (hv5 _ _ _).mp (h2 h), h3, h4, h5, h6⟩
  · rintro ⟨o, pc, tok, pl, alg, D, hm, hpc, h1, h2, h3, h4, h5, h6⟩
    have := hd o hm
    rw [hpc] at this
    cases this
    exact ⟨o, _, tok, pl, alg, D, hm, hpc, (hpar _ _ _ _).mpr h1, fun h => (hv5 _ _ _).mpr (h2 h), h3, h4, h5, h6⟩

/-- **C124.**  The version 5 checks of the holder need a list of algorithms: asked for without one, they
refuse every SD-JWT. -/
theorem v5_needs_algorithms {lib : VLib} {now : Int} {opts : List HolOpt} (hn : ∀ l, HolOpt.issuerAlgs l ∉ opts)
    (hv : Decides (fun x v => x = .v5 v) opts false true) (order : DMap → List String) (s : String) :
    ∀ cs, holderParseWith lib now opts order s ≠ .claims cs := by
  intro cs h
  obtain ⟨o, pc, tok, pl, alg, D, hm, hpc, h1, h2, _⟩ := (holder_accepts_iff ..).mp h
  have e1 : o.v5 = true :=
    decides_unique (by intro x v w a b; rw [a] at b; cases b; rfl) hm.v5 hv
  have e2 := decides_default hm.issuerAlgs (fun x hx w e => hn w (e ▸ hx))
  obtain ⟨a, _, _, h3⟩ := (h2 e1).alg
  rw [show (o.toHOpts pc now).issuerAlgs = o.issuerAlgs from rfl, e2] at h3
  cases h3

/-! ## Examples -/

/-- The example's verifier options. -/
def poOpts : List VerOpt := [.issuerAlgs ["ES256"], .nonceForBinding "x", .holderVerificationRequired false,
  .sigVerifier (some (JWT.ofChecker (Proof.defaultChecker Proof.exPrim (Proof.vdrResolve Proof.exVdr)))),
  .issuerAlgs ["EdDSA"], .nonce "n", .audience "v", .holderBindingRequired true, .leeway 0]

/-- Accepted under the last options; the first list of algorithms alone would refuse. -/
example : verifierParseWith exVLib 0 0 poOpts GoMap.keys "sd~A~hb" =
      .claims [("name", .str "Ann"), ("iss", .str "did:ex:a"), ("cnf", .obj [("jwk", .str "key")]),
        ("exp", .num 100)] ∧
    verifierParseWith exVLib 0 0 (poOpts ++ [.issuerAlgs ["ES256"]]) GoMap.keys "sd~A~hb" = .error .algNotAllowed ∧
    verifierParseWith exVLib 0 0 poOpts GoMap.keys "sd~A~" = .error .holderRequired ∧
    verifierParseWith exVLib 0 0 [] GoMap.keys "sd~A~" = .crash := ⟨by rfl, by rfl, by rfl, by rfl⟩

/-- The default leeway: a token that expired at 100 s is accepted until 160 s. -/
example : verifierParseWith exVLib 160000000000 0 (poOpts.take 8) GoMap.keys "sd~A~hb" =
      .claims [("name", .str "Ann"), ("iss", .str "did:ex:a"), ("cnf", .obj [("jwk", .str "key")]),
        ("exp", .num 100)] ∧
    verifierParseWith exVLib 160000000001 0 (poOpts.take 8) GoMap.keys "sd~A~hb" = .error .expired :=
  ⟨by rfl, by rfl⟩

/-- The holder: anything signed is taken by default; version 5 without algorithms takes nothing. -/
example : holderParseWith exVLib 0 [] GoMap.keys "sd~A" = .claims [⟨"A", "name", .str "Ann"⟩] ∧
    holderParseWith { exVLib with validJSON := fun _ => false } 0 [.v5 true] GoMap.keys "sd~A" = .error .algNotAllowed ∧
    holderParseWith { exVLib with validJSON := fun _ => false } 0 [.v5 true, .issuerAlgs ["EdDSA"]] GoMap.keys "sd~A" =
      .claims [⟨"A", "name", .str "Ann"⟩] ∧
    holderParseWith exVLib 0 [.sigVerifier none] GoMap.keys "sd~A" = .crash := ⟨by rfl, by rfl, by rfl, by rfl⟩

end VC.SDJWT
