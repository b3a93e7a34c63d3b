import Verif.Verifiable.ParseMain
import Verif.Verifiable.PresentationMain
import Verif.Verifiable.ParseExamples
/-!
# verifiable: the options of ParseCredential and ParsePresentation (C117)

The exported options are the only way to change what the two parsers check.  Every option is a value
here, `getCredentialOpts` and `getPresentationOpts` apply them in order; the specification says which
option decides each setting.

Not here: options that only configure the validation libraries (schemas and their loaders, the document
loader, strictness of JSON-LD, RDF clean-up, error detail); those settings are inside the environment.
-/

namespace VC.Vfy

open GoMap
open VC.Proof (Bytes CwtReq LdProof)
open Spec

/-! ## Model: credential options -/

variable (env : PEnv)

/-- `CredentialOpt`, credential.go:1130-1317. -/
inductive CredOpt where
  /-- `WithDisabledProofCheck`, credential.go:1133-1137 -/
  | disabledProofCheck
  /-- `WithEnabledJSONLDTypesCheck`, credential.go:1140-1144 -/
  | ldTypesCheck
  /-- `WithDisabledRelatedResourceCheck`, credential.go:1147-1151 -/
  | disabledRelRes
  /-- `WithCredDisableValidation`, credential.go:1154-1158 -/
  | disableValidation
  /-- `WithProofChecker`, credential.go:1183-1189; nil is possible -/
  | proofChecker (c : Option Combined)
  /-- `WithLDProofChecker`, credential.go:1192-1196 -/
  | ldChecker (c : Option (LdProof → String → Bytes → Bytes → Bool))
  /-- `WithJWTProofChecker`, credential.go:1199-1203 -/
  | jwtChecker (c : Option JWT.ProofChecker)
  /-- `WithCWTProofChecker`, credential.go:1206-1210 -/
  | cwtChecker (c : Option (CwtReq → String → Bytes → Bytes → Bool))
  /-- `WithJSONLDValidation`, credential.go:1222-1226 -/
  | jsonldValidation
  /-- `WithBaseContextValidation`, credential.go:1230-1235 -/
  | baseContextValidation (base : String)
  /-- `WithDataIntegrityVerifier`, credential.go:1239-1243 -/
  | diVerifier (v : Option (GoMap (DI.Suite env.di)))
  /-- `WithExpectedDataIntegrityFields`, credential.go:1249-1255 -/
  | diFields (purpose domain challenge : String)
  /-- `WithBaseContextExtendedValidation`, credential.go:1259-1277 -/
  | baseContextExtended (base : String) (contexts types : List String)
  /-- `WithExternalJSONLDContext`, credential.go:1300-1304 -/
  | externalContext (l : List String)

/-- What an option does to the settings, credential.go:1136-1307.  The maps of allowed names are lists of
their keys. -/
def CredOpt.apply (o : ParseOpts env) : CredOpt env → ParseOpts env
  | .disabledProofCheck => { o with disabledProofCheck := true }
  | .ldTypesCheck => { o with ldTypesCheck := true }
  | .disabledRelRes => { o with disableRelRes := true }
  | .disableValidation => { o with disableValidation := true }
  | .proofChecker c => { o with jwtChecker := c.map (·.jwt), ldChecker := c.map (·.ld), cwtChecker := c.map (·.cwt) }
  | .ldChecker c => { o with ldChecker := c }
  | .jwtChecker c => { o with jwtChecker := c }
  | .cwtChecker c => { o with cwtChecker := c }
  | .jsonldValidation => { o with mode := .jsonld }
  | .baseContextValidation b => { o with mode := .baseContext, allowedContexts := [b] }
  | .diVerifier v => { o with diVerifier := v }
  | .diFields p d c => { o with diPurpose := p, diDomain := d, diChallenge := c }
  | .baseContextExtended b cs ts =>
    { o with mode := .baseContextExtended, allowedContexts := cs ++ [b], allowedTypes := ts ++ ["VerifiableCredential"] }
  | .externalContext l => { o with externalContext := l }

/-- What `getCredentialOpts` starts from, credential.go:2131-2134. -/
def defaultCredOpts : ParseOpts env where
  mode := .combined
  allowedContexts := []
  allowedTypes := []
  ldTypesCheck := false
  disableValidation := false
  disabledProofCheck := false
  disableRelRes := false
  externalContext := []
  jwtChecker := none
  cwtChecker := none
  ldChecker := none
  diVerifier := none
  diPurpose := ""
  diDomain := ""
  diChallenge := ""

/-- `getCredentialOpts`, credential.go:2130-2145 (the default schema loader is inside the environment). -/
def getCredentialOpts (opts : List (CredOpt env)) : ParseOpts env :=
  opts.foldl (CredOpt.apply env) (defaultCredOpts env)

/-- `ParseCredential` as a caller calls it, credential.go:1485-1488. -/
def parseCredentialWith (opts : List (CredOpt env)) (data : String) : Res (PCred env.T) :=
  parseCredential env (getCredentialOpts env opts) data

/-! ## Model: presentation options -/

section
variable (env : VEnv)

/-- `PresentationOpt`, presentation.go:585-659. -/
inductive PresOpt where
  /-- `WithPresProofChecker`, presentation.go:590-594 -/
  | checker (c : Option Combined)
  /-- `WithPresDisabledProofCheck`, presentation.go:597-601 -/
  | disabledProofCheck
  /-- `WithPresStrictValidation`, presentation.go:606-610 -/
  | strict
  /-- `WithPresHolderCheck`, presentation.go:621-625 -/
  | holderCheck (b : Bool)
  /-- `WithPresRelatedResourceCheck`, presentation.go:627-631 -/
  | relResCheck (b : Bool)
  /-- `WithDisabledJSONLDChecks`, presentation.go:635-639 -/
  | disabledJSONLD
  /-- `WithPresDataIntegrityVerifier`, presentation.go:643-647 -/
  | diVerifier (v : Option (GoMap (DI.Suite env.di)))
  /-- `WithPresExpectedDataIntegrityFields`, presentation.go:653-659 -/
  | diFields (purpose domain challenge : String)

/-- What an option does, presentation.go:590-659. -/
def PresOpt.apply (o : VpOpts env) : PresOpt env → VpOpts env
  | .checker c => { o with checker := c }
  | .disabledProofCheck => { o with disabledProofCheck := true }
  | .strict => { o with strict := true }
  | .holderCheck b => { o with checkHolder := b }
  | .relResCheck b => { o with checkRelRes := b }
  | .disabledJSONLD => { o with disableJSONLD := true }
  | .diVerifier v => { o with diVerifier := v }
  | .diFields p d c => { o with diPurpose := p, diDomain := d, diChallenge := c }

/-- `defaultPresentationOpts`, presentation.go:1016-1020. -/
def defaultPresOpts : VpOpts env where
  checker := none
  disabledProofCheck := false
  strict := false
  requireVC := false
  requireProof := false
  disableJSONLD := false
  checkHolder := false
  checkRelRes := false
  diVerifier := none
  diPurpose := ""
  diDomain := ""
  diChallenge := ""

/-- `getPresentationOpts`, presentation.go:719-727. -/
def getPresentationOpts (opts : List (PresOpt env)) : VpOpts env :=
  opts.foldl (PresOpt.apply env) (defaultPresOpts env)

/-- The options `decodeCredentials` passes on for an enclosed credential, presentation.go:896-914 (without
the document loader). -/
def enclosedOpts (o : VpOpts env) (noValidation : Bool) : List (CredOpt env.toPEnv) :=
  [.proofChecker o.checker] ++ (if o.disabledProofCheck then [.disabledProofCheck] else []) ++
    (if noValidation then [.disableValidation] else [])

end

/-! ## Specification -/

namespace Spec

/-- In a list of options, `v` is what the last one that decides a setting says, or the default. -/
def Decides {O α : Type} (tells : O → α → Prop) (opts : List O) (dflt v : α) : Prop :=
  (∃ pre o post, opts = pre ++ o :: post ∧ tells o v ∧ ∀ o' ∈ post, ∀ w, ¬ tells o' w) ∨
  (∀ o ∈ opts, ∀ w, ¬ tells o w) ∧ v = dflt

/-- Which option says what about the validation mode. -/
inductive SaysMode : CredOpt env → Mode → Prop
  | jsonld : SaysMode .jsonldValidation .jsonld
  | base (b : String) : SaysMode (.baseContextValidation b) .baseContext
  | extended (b : String) (cs ts : List String) : SaysMode (.baseContextExtended b cs ts) .baseContextExtended

/-- … the JWT proof checker. -/
inductive SaysJwt : CredOpt env → Option JWT.ProofChecker → Prop
  | all (c : Combined) : SaysJwt (.proofChecker (some c)) (some c.jwt)
  | allNil : SaysJwt (.proofChecker none) none
  | own (c : Option JWT.ProofChecker) : SaysJwt (.jwtChecker c) c

/-- … the CWT proof checker. -/
inductive SaysCwt : CredOpt env → Option (CwtReq → String → Bytes → Bytes → Bool) → Prop
  | all (c : Combined) : SaysCwt (.proofChecker (some c)) (some c.cwt)
  | allNil : SaysCwt (.proofChecker none) none
  | own (c : Option (CwtReq → String → Bytes → Bytes → Bool)) : SaysCwt (.cwtChecker c) c

/-- … the linked-data proof checker. -/
inductive SaysLd : CredOpt env → Option (LdProof → String → Bytes → Bytes → Bool) → Prop
  | all (c : Combined) : SaysLd (.proofChecker (some c)) (some c.ld)
  | allNil : SaysLd (.proofChecker none) none
  | own (c : Option (LdProof → String → Bytes → Bytes → Bool)) : SaysLd (.ldChecker c) c

/-- … the data integrity verifier. -/
inductive SaysDi : CredOpt env → Option (GoMap (DI.Suite env.di)) → Prop
  | own (v : Option (GoMap (DI.Suite env.di))) : SaysDi (.diVerifier v) v

/-- … purpose, domain and challenge. -/
inductive SaysFields : CredOpt env → String × String × String → Prop
  | own (p d c : String) : SaysFields (.diFields p d c) (p, d, c)

/-- … the contexts a credential may have. -/
inductive SaysContexts : CredOpt env → (String → Prop) → Prop
  | base (b : String) : SaysContexts (.baseContextValidation b) (fun c => c = b)
  | extended (b : String) (cs ts : List String) :
      SaysContexts (.baseContextExtended b cs ts) (fun c => c = b ∨ c ∈ cs)

/-- … the types it may have. -/
inductive SaysTypes : CredOpt env → (String → Prop) → Prop
  | extended (b : String) (cs ts : List String) :
      SaysTypes (.baseContextExtended b cs ts) (fun t => t = "VerifiableCredential" ∨ t ∈ ts)

/-- … the external contexts. -/
inductive SaysExternal : CredOpt env → List String → Prop
  | own (l : List String) : SaysExternal (.externalContext l) l

/-- The settings a list of credential options stands for. -/
structure CredSettings (opts : List (CredOpt env)) (o : ParseOpts env) : Prop where
  proofs : o.disabledProofCheck = true ↔ .disabledProofCheck ∈ opts
  ldTypes : o.ldTypesCheck = true ↔ .ldTypesCheck ∈ opts
  related : o.disableRelRes = true ↔ .disabledRelRes ∈ opts
  validation : o.disableValidation = true ↔ .disableValidation ∈ opts
  mode : Decides (SaysMode env) opts .combined o.mode
  jwt : Decides (SaysJwt env) opts none o.jwtChecker
  cwt : Decides (SaysCwt env) opts none o.cwtChecker
  ld : Decides (SaysLd env) opts none o.ldChecker
  di : Decides (SaysDi env) opts none o.diVerifier
  fields : Decides (SaysFields env) opts ("", "", "") (o.diPurpose, o.diDomain, o.diChallenge)
  contexts : Decides (SaysContexts env) opts (fun _ => False) (fun c => c ∈ o.allowedContexts)
  types : Decides (SaysTypes env) opts (fun _ => False) (fun t => t ∈ o.allowedTypes)
  external : Decides (SaysExternal env) opts [] o.externalContext

/-- The settings a list of presentation options stands for. -/
structure PresSettings (env : VEnv) (opts : List (PresOpt env)) (o : VpOpts env) : Prop where
  proofs : o.disabledProofCheck = true ↔ .disabledProofCheck ∈ opts
  strict : o.strict = true ↔ .strict ∈ opts
  jsonld : o.disableJSONLD = true ↔ .disabledJSONLD ∈ opts
  checker : Decides (fun x v => x = .checker v) opts none o.checker
  holder : Decides (fun x v => x = .holderCheck v) opts false o.checkHolder
  related : Decides (fun x v => x = .relResCheck v) opts false o.checkRelRes
  di : Decides (fun x v => x = .diVerifier v) opts none o.diVerifier
  fields : Decides (fun x (v : String × String × String) => x = .diFields v.1 v.2.1 v.2.2) opts ("", "", "")
    (o.diPurpose, o.diDomain, o.diChallenge)
  /-- no option can ask for a proof or for credentials -/
  demands : o.requireVC = false ∧ o.requireProof = false

end Spec

/-! ## Proofs -/

section
variable {O α σ : Type}

theorem decides_foldl {tells : O → α → Prop} {step : σ → O → σ} {get : σ → α}
    (hs : ∀ st o, tells o (get (step st o)) ∨ (∀ w, ¬ tells o w) ∧ get (step st o) = get st) :
    ∀ (opts : List O) (st : σ), Decides tells opts (get st) (get (opts.foldl step st)) := by
  intro opts
  induction opts with
  | nil => intro st; exact .inr ⟨fun o h => (by cases h), rfl⟩
  | cons o opts ih =>
    intro st
    rw [List.foldl_cons]
    rcases ih (step st o) with ⟨pre, x, post, e, h1, h2⟩ | ⟨h1, h2⟩
    · exact .inl ⟨o :: pre, x, post, by rw [e]; rfl, h1, h2⟩
    · rcases hs st o with h | ⟨h, h'⟩
      · exact .inl ⟨[], o, opts, rfl, by rw [h2]; exact h, h1⟩
      · refine .inr ⟨?_, by rw [h2, h']⟩
        intro y hy
        rcases List.mem_cons.1 hy with rfl | hy
        · exact h
        · exact h1 y hy

/-- What is decided is unique. -/
theorem decides_unique {tells : O → α → Prop} (hu : ∀ o v w, tells o v → tells o w → v = w) {opts : List O} {d v w : α}
    (h : Decides tells opts d v) (h' : Decides tells opts d w) : v = w := by
  rcases h with ⟨p, o, q, e, h1, h2⟩ | ⟨h1, h2⟩
  · rcases h' with ⟨p', o', q', e', h1', h2'⟩ | ⟨h1', _⟩
    · have hlen : q.length = q'.length := by
        rcases Nat.lt_trichotomy q.length q'.length with hl | hl | hl
        · exfalso
          have hm : o ∈ q' := by
            rw [e] at e'
            have h3 := congrArg (fun l => l[p.length]?) e'
            have h4 := congrArg List.length e'
            simp only [List.length_append, List.length_cons] at h4
            rw [List.getElem?_append_right (Nat.le_refl _), Nat.sub_self, List.getElem?_cons_zero,
              List.getElem?_append_right (by omega)] at h3
            obtain ⟨k, hk⟩ : ∃ k, p.length - p'.length = k + 1 := ⟨p.length - p'.length - 1, by omega⟩
            rw [hk, List.getElem?_cons_succ] at h3
            exact List.mem_of_getElem? h3.symm
          exact h2' o hm v h1
        · exact hl
        · exfalso
          have hm : o' ∈ q := by
            rw [e] at e'
            have h3 := congrArg (fun l => l[p'.length]?) e'
            have h4 := congrArg List.length e'
            simp only [List.length_append, List.length_cons] at h4
            rw [List.getElem?_append_right (Nat.le_refl p'.length), Nat.sub_self, List.getElem?_cons_zero,
              List.getElem?_append_right (by omega)] at h3
            obtain ⟨k, hk⟩ : ∃ k, p'.length - p.length = k + 1 := ⟨p'.length - p.length - 1, by omega⟩
            rw [hk, List.getElem?_cons_succ] at h3
            exact List.mem_of_getElem? h3
          exact h2 o' hm w h1'
      have := List.append_inj_right' (e.symm.trans e') (by simp [hlen])
      cases this
      exact hu o v w h1 h1'
    · exact absurd h1 (h1' o (by rw [e]; simp) v)
  · rcases h' with ⟨p', o', q', e', h1', _⟩ | ⟨_, h2'⟩
    · exact absurd h1' (h1 o' (by rw [e']; simp) w)
    · rw [h2, h2']

theorem foldl_flag {step : σ → O → σ} {get : σ → Bool} {x : O}
    (hs : ∀ st o, get (step st o) = true ↔ o = x ∨ get st = true) :
    ∀ (opts : List O) (st : σ), get (opts.foldl step st) = true ↔ x ∈ opts ∨ get st = true := by
  intro opts
  induction opts with
  | nil => intro st; simp
  | cons o opts ih =>
    intro st
    rw [List.foldl_cons, ih, hs, List.mem_cons, ← or_assoc, @eq_comm _ x o, or_comm (a := x ∈ opts)]

end

/-- **C117.**  Every list of options means what the specification says: switches are on exactly if given,
every other setting is decided by the last option about it, and by nothing else. -/
theorem credential_options (opts : List (CredOpt env)) : CredSettings env opts (getCredentialOpts env opts) where
  proofs := by
    unfold getCredentialOpts
    rw [foldl_flag (get := ParseOpts.disabledProofCheck) (x := .disabledProofCheck)
      (by intro st o; cases o <;> simp [CredOpt.apply])]
    simp [defaultCredOpts]
  ldTypes := by
    unfold getCredentialOpts
    rw [foldl_flag (get := ParseOpts.ldTypesCheck) (x := .ldTypesCheck)
      (by intro st o; cases o <;> simp [CredOpt.apply])]
    simp [defaultCredOpts]
  related := by
    unfold getCredentialOpts
    rw [foldl_flag (get := ParseOpts.disableRelRes) (x := .disabledRelRes)
      (by intro st o; cases o <;> simp [CredOpt.apply])]
    simp [defaultCredOpts]
  validation := by
    unfold getCredentialOpts
    rw [foldl_flag (get := ParseOpts.disableValidation) (x := .disableValidation)
      (by intro st o; cases o <;> simp [CredOpt.apply])]
    simp [defaultCredOpts]
  mode := decides_foldl (get := ParseOpts.mode) (by
    intro st o
    cases o
    case jsonldValidation => exact .inl .jsonld
    case baseContextValidation b => exact .inl (.base b)
    case baseContextExtended b cs ts => exact .inl (.extended b cs ts)
    all_goals exact .inr ⟨fun w h => (by cases h), rfl⟩) opts (defaultCredOpts env)
  jwt := decides_foldl (get := ParseOpts.jwtChecker) (by
    intro st o
    cases o
    case jwtChecker c => exact .inl (.own c)
    case proofChecker c =>
      cases c with
      | none => exact .inl .allNil
      | some c => exact .inl (.all c)
    all_goals exact .inr ⟨fun w h => (by cases h), rfl⟩) opts (defaultCredOpts env)
  cwt := decides_foldl (get := ParseOpts.cwtChecker) (by
    intro st o
    cases o
    case cwtChecker c => exact .inl (.own c)
    case proofChecker c =>
      cases c with
      | none => exact .inl .allNil
      | some c => exact .inl (.all c)
    all_goals exact .inr ⟨fun w h => (by cases h), rfl⟩) opts (defaultCredOpts env)
  ld := decides_foldl (get := ParseOpts.ldChecker) (by
    intro st o
    cases o
    case ldChecker c => exact .inl (.own c)
    case proofChecker c =>
      cases c with
      | none => exact .inl .allNil
      | some c => exact .inl (.all c)
    all_goals exact .inr ⟨fun w h => (by cases h), rfl⟩) opts (defaultCredOpts env)
  di := decides_foldl (get := ParseOpts.diVerifier) (by
    intro st o
    cases o
    case diVerifier c => exact .inl (.own c)
    all_goals exact .inr ⟨fun w h => (by cases h), rfl⟩) opts (defaultCredOpts env)
  fields := decides_foldl (get := fun o => (o.diPurpose, o.diDomain, o.diChallenge)) (by
    intro st o
    cases o
    case diFields p d c => exact .inl (.own p d c)
    all_goals exact .inr ⟨fun w h => (by cases h), rfl⟩) opts (defaultCredOpts env)
  contexts := by
    have h0 : (fun c => c ∈ (defaultCredOpts env).allowedContexts) = (fun _ => False) := by
      funext c; simp [defaultCredOpts]
    rw [← h0]
    refine decides_foldl (get := fun o => (fun c => c ∈ o.allowedContexts)) ?_ opts (defaultCredOpts env)
    intro st o
    cases o
    case baseContextValidation b =>
      refine .inl ?_
      have : (fun c => c ∈ (CredOpt.apply env st (.baseContextValidation b)).allowedContexts) = (fun c => c = b) := by
        funext c; simp [CredOpt.apply]
      rw [this]; exact .base b
    case baseContextExtended b cs ts =>
      refine .inl ?_
      have : (fun c => c ∈ (CredOpt.apply env st (.baseContextExtended b cs ts)).allowedContexts) =
          (fun c => c = b ∨ c ∈ cs) := by
        funext c; simp [CredOpt.apply, or_comm]
      rw [this]; exact .extended b cs ts
    all_goals exact .inr ⟨fun w h => (by cases h), rfl⟩
  types := by
    have h0 : (fun c => c ∈ (defaultCredOpts env).allowedTypes) = (fun _ => False) := by
      funext c; simp [defaultCredOpts]
    rw [← h0]
    refine decides_foldl (get := fun o => (fun c => c ∈ o.allowedTypes)) ?_ opts (defaultCredOpts env)
    intro st o
    cases o
    case baseContextExtended b cs ts =>
      refine .inl ?_
      have : (fun c => c ∈ (CredOpt.apply env st (.baseContextExtended b cs ts)).allowedTypes) =
          (fun t => t = "VerifiableCredential" ∨ t ∈ ts) := by
        funext c; simp [CredOpt.apply, or_comm]
      rw [this]; exact .extended b cs ts
    all_goals exact .inr ⟨fun w h => (by cases h), rfl⟩
  external := decides_foldl (get := ParseOpts.externalContext) (by
    intro st o
    cases o
    case externalContext l => exact .inl (.own l)
    all_goals exact .inr ⟨fun w h => (by cases h), rfl⟩) opts (defaultCredOpts env)

/-- **C117**, presentations. -/
theorem presentation_options (env : VEnv) (opts : List (PresOpt env)) :
    PresSettings env opts (getPresentationOpts env opts) where
  proofs := by
    unfold getPresentationOpts
    rw [foldl_flag (get := VpOpts.disabledProofCheck) (x := .disabledProofCheck)
      (by intro st o; cases o <;> simp [PresOpt.apply])]
    simp [defaultPresOpts]
  strict := by
    unfold getPresentationOpts
    rw [foldl_flag (get := VpOpts.strict) (x := .strict) (by intro st o; cases o <;> simp [PresOpt.apply])]
    simp [defaultPresOpts]
  jsonld := by
    unfold getPresentationOpts
    rw [foldl_flag (get := VpOpts.disableJSONLD) (x := .disabledJSONLD)
      (by intro st o; cases o <;> simp [PresOpt.apply])]
    simp [defaultPresOpts]
  checker := decides_foldl (get := VpOpts.checker) (by
    intro st o; cases o
    case checker c => exact .inl rfl
    all_goals exact .inr ⟨fun w h => (by cases h), rfl⟩) opts (defaultPresOpts env)
  holder := decides_foldl (get := VpOpts.checkHolder) (by
    intro st o; cases o
    case holderCheck c => exact .inl rfl
    all_goals exact .inr ⟨fun w h => (by cases h), rfl⟩) opts (defaultPresOpts env)
  related := decides_foldl (get := VpOpts.checkRelRes) (by
    intro st o; cases o
    case relResCheck c => exact .inl rfl
    all_goals exact .inr ⟨fun w h => (by cases h), rfl⟩) opts (defaultPresOpts env)
  di := decides_foldl (get := VpOpts.diVerifier) (by
    intro st o; cases o
    case diVerifier c => exact .inl rfl
    all_goals exact .inr ⟨fun w h => (by cases h), rfl⟩) opts (defaultPresOpts env)
  fields := decides_foldl (get := fun o => (o.diPurpose, o.diDomain, o.diChallenge)) (by
    intro st o; cases o
    case diFields p d c => exact .inl rfl
    all_goals exact .inr ⟨fun w h => (by cases h), rfl⟩) opts (defaultPresOpts env)
  demands := by
    unfold getPresentationOpts
    have : ∀ (opts : List (PresOpt env)) (st : VpOpts env), st.requireVC = false ∧ st.requireProof = false →
        (opts.foldl (PresOpt.apply env) st).requireVC = false ∧ (opts.foldl (PresOpt.apply env) st).requireProof = false := by
      intro opts
      induction opts with
      | nil => exact fun st h => h
      | cons o opts ih =>
        intro st h
        rw [List.foldl_cons]
        refine ih _ ?_
        cases o <;> exact h
    exact this opts _ ⟨rfl, rfl⟩

/-! ## Consequences -/

variable {env}

/-- **C117.**  Unless the caller says `WithDisabledProofCheck`, whatever else is said in whatever order, a
returned credential is secured, and by the checkers that the last options about them gave. -/
theorem checked_unless_disabled {opts : List (CredOpt env)} (h : .disabledProofCheck ∉ opts) {data : String}
    {vc : PCred env.T} (hp : parseCredentialWith env opts data = .ok vc) :
    ∃ o, CredSettings env opts o ∧ Secured env o vc := by
  refine ⟨_, credential_options env opts, ?_⟩
  refine (parse_verified_partial env _ data vc ?_ hp).1
  cases hd : (getCredentialOpts env opts).disabledProofCheck with
  | false => rfl
  | true => exact absurd ((credential_options env opts).proofs.1 hd) h

theorem decides_given {O α : Type} {tells : O → Option α → Prop} {opts : List O} {v : α}
    (h : Decides tells opts none (some v)) : ∃ o ∈ opts, tells o (some v) := by
  rcases h with ⟨pre, o, post, e, h1, _⟩ | ⟨_, h2⟩
  · exact ⟨o, by rw [e]; simp, h1⟩
  · cases h2

/-- Without a proof checker or verifier among the options, and without switching the check off, nothing
is ever accepted. -/
theorem no_checker_no_credential {opts : List (CredOpt env)} (h : .disabledProofCheck ∉ opts)
    (hc : ∀ c, .proofChecker (some c) ∉ opts) (hj : ∀ c, .jwtChecker (some c) ∉ opts)
    (hw : ∀ c, .cwtChecker (some c) ∉ opts) (hl : ∀ c, .ldChecker (some c) ∉ opts)
    (hd : ∀ v, .diVerifier (some v) ∉ opts) (data : String) (vc : PCred env.T) :
    parseCredentialWith env opts data ≠ .ok vc := by
  intro hp
  obtain ⟨o, ho, hs⟩ := checked_unless_disabled h hp
  cases hs with
  | jwt i e pc j hi he hpc =>
    have hg := ho.jwt
    rw [hpc] at hg
    obtain ⟨x, hx, hsay⟩ := decides_given hg
    cases hsay with
    | all c => exact hc c hx
    | own => exact hj _ hx
  | cwt i e pc msg a x hi hn he hpc =>
    have hg := ho.cwt
    rw [hpc] at hg
    obtain ⟨x, hx, hsay⟩ := decides_given hg
    cases hsay with
    | all c => exact hc c hx
    | own => exact hw _ hx
  | ld i l pc ps hi hn hn' hpm hdf hpc =>
    have hg := ho.ld
    rw [hpc] at hg
    obtain ⟨x, hx, hsay⟩ := decides_given hg
    cases hsay with
    | all c => exact hc c hx
    | own => exact hl _ hx
  | di i l suites hi hn hn' hpm hdf hpc =>
    have hg := ho.di
    rw [hpc] at hg
    obtain ⟨x, hx, hsay⟩ := decides_given hg
    cases hsay
    exact hd _ hx

/-! ## Order of options -/

/-- What an option is about. -/
inductive Topic where
  | proofs | ldTypes | related | validation | mode | jwt | cwt | ld | di | fields | external
  deriving DecidableEq

namespace Spec

/-- The topics of an option. -/
def topics : CredOpt env → List Topic
  | .disabledProofCheck => [.proofs]
  | .ldTypesCheck => [.ldTypes]
  | .disabledRelRes => [.related]
  | .disableValidation => [.validation]
  | .proofChecker _ => [.jwt, .cwt, .ld]
  | .ldChecker _ => [.ld]
  | .jwtChecker _ => [.jwt]
  | .cwtChecker _ => [.cwt]
  | .jsonldValidation => [.mode]
  | .baseContextValidation _ => [.mode]
  | .diVerifier _ => [.di]
  | .diFields _ _ _ => [.fields]
  | .baseContextExtended _ _ _ => [.mode]
  | .externalContext _ => [.external]

/-- Two options have no topic in common. -/
def Apart (a b : CredOpt env) : Prop := ∀ t ∈ topics a, t ∉ topics b

end Spec

/-- **C117.**  Options about different things can be given in any order. -/
theorem options_swap (pre post : List (CredOpt env)) {a b : CredOpt env} (h : Apart a b) (data : String) :
    parseCredentialWith env (pre ++ a :: b :: post) data = parseCredentialWith env (pre ++ b :: a :: post) data := by
  have key : ∀ st, CredOpt.apply env (CredOpt.apply env st a) b = CredOpt.apply env (CredOpt.apply env st b) a := by
    intro st
    cases a <;> cases b <;> first | rfl | (exact absurd h (by simp [Apart, topics]))
  unfold parseCredentialWith getCredentialOpts
  simp only [List.foldl_append, List.foldl_cons, key]

/-- A switch given twice is as good as given once. -/
theorem options_switch_once (pre mid post : List (CredOpt env)) {a : CredOpt env}
    (h : a = .disabledProofCheck ∨ a = .ldTypesCheck ∨ a = .disabledRelRes ∨ a = .disableValidation) (data : String) :
    parseCredentialWith env (pre ++ a :: mid ++ a :: post) data = parseCredentialWith env (pre ++ a :: mid ++ post) data := by
  have key : ∀ (mid : List (CredOpt env)) st, CredOpt.apply env (mid.foldl (CredOpt.apply env) (CredOpt.apply env st a)) a =
      mid.foldl (CredOpt.apply env) (CredOpt.apply env st a) := by
    intro mid
    induction mid with
    | nil =>
      intro st
      rcases h with rfl | rfl | rfl | rfl <;> rfl
    | cons o mid ih =>
      intro st
      rw [List.foldl_cons]
      have hc : CredOpt.apply env (CredOpt.apply env st a) o = CredOpt.apply env (CredOpt.apply env st o) a := by
        rcases h with rfl | rfl | rfl | rfl <;> cases o <;> rfl
      rw [hc]
      exact ih _
  unfold parseCredentialWith getCredentialOpts
  simp only [List.foldl_append, List.foldl_cons, key]

/-- Settings that differ at most in the mode and the allowed names, and validate alike. -/
def SameChecks (o o' : ParseOpts env) : Prop :=
  { o with mode := o'.mode, allowedContexts := o'.allowedContexts, allowedTypes := o'.allowedTypes } = o' ∧
  ∀ json c, validateCredential env o json c = validateCredential env o' json c

theorem finishJSON_congr {o o' : ParseOpts env} (h : SameChecks o o') (jws : Option (JwsParts × JObj)) (json : JObj) :
    finishJSON env o jws json = finishJSON env o' jws json := by
  have hd : o.disableValidation = o'.disableValidation := by rw [← h.1]
  unfold finishJSON
  simp only [h.2, hd]

theorem parseWith_congr {o o' : ParseOpts env} (h : SameChecks o o')
    {parser : ParseOpts env → String → Res (PCred env.T)} {d : String} (hp : parser o d = parser o' d) :
    parseWith env parser o d = parseWith env parser o' d := by
  have hc : ∀ vc, checkProof env o vc = checkProof env o' vc := by
    intro vc; rw [← h.1]; rfl
  have h1 : o.disabledProofCheck = o'.disabledProofCheck := by rw [← h.1]
  have h2 : o.disableRelRes = o'.disableRelRes := by rw [← h.1]
  unfold parseWith
  simp only [hp, hc, h1, h2]

theorem parseCredDataURL_congr {o o' : ParseOpts env} (h : SameChecks o o') (url : String) :
    parseCredDataURL env o url = parseCredDataURL env o' url := by
  have hj : ∀ d, parseWith env (parseJSON env) o d = parseWith env (parseJSON env) o' d := by
    intro d
    refine parseWith_congr h ?_
    unfold parseJSON
    simp only [finishJSON_congr h]
  have hb : ∀ d, parseWith env (parseCBOR env) o d = parseWith env (parseCBOR env) o' d := by
    intro d
    refine parseWith_congr h ?_
    have hd : o.disableValidation = o'.disableValidation := by rw [← h.1]
    unfold parseCBOR
    simp only [h.2, hd]
  unfold parseCredDataURL
  simp only [hj, hb]

theorem parseCredential_congr {o o' : ParseOpts env} (h : SameChecks o o') (data : String) :
    parseCredential env o data = parseCredential env o' data := by
  have hj : ∀ d, parseWith env (parseJSON env) o d = parseWith env (parseJSON env) o' d := by
    intro d
    refine parseWith_congr h ?_
    unfold parseJSON
    simp only [finishJSON_congr h]
  have hb : ∀ d, parseWith env (parseCBOR env) o d = parseWith env (parseCBOR env) o' d := by
    intro d
    refine parseWith_congr h ?_
    have hd : o.disableValidation = o'.disableValidation := by rw [← h.1]
    unfold parseCBOR
    simp only [h.2, hd]
  have he : ∀ d, parseWith env (parseEnveloped env) o d = parseWith env (parseEnveloped env) o' d := by
    intro d
    refine parseWith_congr h ?_
    unfold parseEnveloped
    simp only [parseCredDataURL_congr h]
  unfold parseCredential
  rw [he, hj, hb]

/-- Settings after a validation mode was chosen, up to what that mode does not read. -/
def Alike (s t : ParseOpts env) : Prop :=
  { s with mode := t.mode, allowedContexts := t.allowedContexts, allowedTypes := t.allowedTypes } = t ∧
  s.mode = t.mode ∧ (s.mode = .jsonld ∨ s.mode = .baseContext ∧ s.allowedContexts = t.allowedContexts ∨
    s.mode = .baseContextExtended ∧ s.allowedContexts = t.allowedContexts ∧ s.allowedTypes = t.allowedTypes)

theorem alike_same {s t : ParseOpts env} (h : Alike s t) : SameChecks s t := by
  obtain ⟨h1, h2, h3⟩ := h
  refine ⟨h1, fun json c => ?_⟩
  have hl : s.ldTypesCheck = t.ldTypesCheck := by rw [← h1]
  unfold validateCredential
  rcases h3 with h3 | ⟨h3, h4⟩ | ⟨h3, h4, h5⟩
  · rw [← h2, h3]
    dsimp only
    unfold validateJSONLD
    rw [hl]
  · rw [← h2, h3]
    dsimp only
    unfold validateBaseContext
    rw [h4]
  · rw [← h2, h3]
    dsimp only
    unfold validateExtended
    rw [h4, h5]

theorem alike_apply {s t : ParseOpts env} (h : Alike s t) (o : CredOpt env) :
    Alike (CredOpt.apply env s o) (CredOpt.apply env t o) := by
  obtain ⟨h1, h2, h3⟩ := h
  have e : t = { s with mode := t.mode, allowedContexts := t.allowedContexts, allowedTypes := t.allowedTypes } := h1.symm
  generalize t.mode = m at *
  generalize t.allowedContexts = cs at *
  generalize t.allowedTypes = ts at *
  subst e
  cases o
  case jsonldValidation => exact ⟨rfl, rfl, .inl rfl⟩
  case baseContextValidation b => exact ⟨rfl, rfl, .inr (.inl ⟨rfl, rfl⟩)⟩
  case baseContextExtended b cs ts => exact ⟨rfl, rfl, .inr (.inr ⟨rfl, rfl, rfl⟩)⟩
  all_goals exact ⟨rfl, h2, h3⟩

/-- **C117, what to beware of.**  The validation modes exclude each other, without an error: the one given
last is used, and what an earlier one asked for makes no difference. -/
theorem earlier_mode_ignored (pre mid post : List (CredOpt env)) {a b : CredOpt env} (ha : topics a = [.mode])
    (hb : topics b = [.mode]) (data : String) :
    parseCredentialWith env (pre ++ a :: mid ++ b :: post) data =
      parseCredentialWith env (pre ++ mid ++ b :: post) data := by
  have step : ∀ (l : List (CredOpt env)) (s t : ParseOpts env),
      { s with mode := t.mode, allowedContexts := t.allowedContexts, allowedTypes := t.allowedTypes } = t →
      { l.foldl (CredOpt.apply env) s with
          mode := (l.foldl (CredOpt.apply env) t).mode
          allowedContexts := (l.foldl (CredOpt.apply env) t).allowedContexts
          allowedTypes := (l.foldl (CredOpt.apply env) t).allowedTypes } = l.foldl (CredOpt.apply env) t := by
    intro l
    induction l with
    | nil => exact fun s t h => h
    | cons o l ih =>
      intro s t h
      rw [List.foldl_cons, List.foldl_cons]
      refine ih _ _ ?_
      rw [← h]
      cases o <;> rfl
  have rest : ∀ (l : List (CredOpt env)) (s t : ParseOpts env), Alike s t →
      Alike (l.foldl (CredOpt.apply env) s) (l.foldl (CredOpt.apply env) t) := by
    intro l
    induction l with
    | nil => exact fun s t h => h
    | cons o l ih => exact fun s t h => ih _ _ (alike_apply h o)
  have hfirst : ∀ s : ParseOpts env, { CredOpt.apply env s a with
      mode := s.mode, allowedContexts := s.allowedContexts, allowedTypes := s.allowedTypes } = s := by
    intro s
    cases a <;> first | rfl | (simp [topics] at ha)
  have hlast : ∀ s t : ParseOpts env,
      { s with mode := t.mode, allowedContexts := t.allowedContexts, allowedTypes := t.allowedTypes } = t →
      Alike (CredOpt.apply env s b) (CredOpt.apply env t b) := by
    intro s t e
    rw [← e]
    cases b
    case jsonldValidation => exact ⟨rfl, rfl, .inl rfl⟩
    case baseContextValidation b => exact ⟨rfl, rfl, .inr (.inl ⟨rfl, rfl⟩)⟩
    case baseContextExtended b cs ts => exact ⟨rfl, rfl, .inr (.inr ⟨rfl, rfl, rfl⟩)⟩
    all_goals simp [topics] at hb
  unfold parseCredentialWith
  refine parseCredential_congr (alike_same ?_) data
  unfold getCredentialOpts
  simp only [List.foldl_append, List.foldl_cons]
  exact rest post _ _ (hlast _ _ (step mid _ _ (hfirst _)))

/-- The options passed on for a credential enclosed in a presentation mean what `credOpts` says: the same
checkers and switch, and nothing else that was asked for the presentation. -/
theorem enclosed_options (env : VEnv) (o : VpOpts env) (nv : Bool) :
    getCredentialOpts env.toPEnv (enclosedOpts env o nv) = credOpts env o nv := by
  cases hd : o.disabledProofCheck <;> cases nv <;>
    simp [getCredentialOpts, enclosedOpts, credOpts, hd, CredOpt.apply, defaultCredOpts]

/-- A presentation is read with its proofs checked unless `WithPresDisabledProofCheck` is given. -/
theorem presentation_checked_unless_disabled (env : VEnv) {opts : List (PresOpt env)} (h : .disabledProofCheck ∉ opts) :
    (getPresentationOpts env opts).disabledProofCheck = false := by
  cases hd : (getPresentationOpts env opts).disabledProofCheck with
  | false => rfl
  | true => exact absurd ((presentation_options env opts).proofs.1 hd) h

/-! ## Examples -/

/-- The options a verifier would give. -/
def opxOpts : List (CredOpt pxEnv) := [.diVerifier (some DI.exSuites),
  .proofChecker (some ⟨JWT.ofChecker pxChecker, cwtChecker pxChecker (fun _ => none), ldChecker pxChecker⟩)]

/-- With them, the credentials of `parse_examples` are returned: the hypotheses of
`checked_unless_disabled` are met. -/
example : .disabledProofCheck ∉ opxOpts ∧
    pxView (parseCredentialWith pxEnv opxOpts "h.p.s") = some (some "did:ex:a", some "h.p.s") ∧
    pxView (parseCredentialWith pxEnv opxOpts "{other}") = none := by
  have e : getCredentialOpts pxEnv opxOpts = pxOpts := rfl
  refine ⟨by simp [opxOpts], ?_, ?_⟩
  · unfold parseCredentialWith; rw [e]; exact parse_examples.1
  · unfold parseCredentialWith; rw [e]; exact parse_examples.2.2.2.2.2.2.2.2.2.1

/-- Two modes: the second counts. -/
example (c : Combined) : (getCredentialOpts env [.baseContextValidation "urn:a", .proofChecker (some c),
    .baseContextExtended "urn:b" ["urn:c"] []]).mode = .baseContextExtended := rfl

/-- A checker of one kind replaces that part of the combined one only. -/
example (c : Combined) (j : JWT.ProofChecker) : (getCredentialOpts env [.proofChecker (some c), .jwtChecker (some j)]).jwtChecker =
    some j ∧ (getCredentialOpts env [.proofChecker (some c), .jwtChecker (some j)]).ldChecker = some c.ld := ⟨rfl, rfl⟩

/-- Given the other way round, it is lost. -/
example (c : Combined) (j : JWT.ProofChecker) :
    (getCredentialOpts env [.jwtChecker (some j), .proofChecker (some c)]).jwtChecker = some c.jwt := rfl

example : Apart (env := env) .disabledProofCheck .jsonldValidation := by simp [Apart, topics]

example (env : VEnv) : (getPresentationOpts env [.holderCheck true, .strict, .holderCheck false]).checkHolder = false := rfl

end VC.Vfy
