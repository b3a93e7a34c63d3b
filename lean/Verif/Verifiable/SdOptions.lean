import Verif.Verifiable.DisclosureMain
import Verif.Verifiable.DisclosureExamples
import Verif.Verifiable.SdMake
import Verif.Verifiable.Options
import Verif.SDJWT.IssueOptions
/-!
# verifiable: the options of `MarshalWithDisclosure` and of the display credentials (C126)
-/

namespace VC.Vfy

open VC.SDJWT (Disc DMap)
open Spec (Decides)

/-! ## Model -/

/-- `MarshalDisclosureOption`, credential_sdjwt.go:34-93. -/
inductive MdOpt where
  /-- `DiscloseGivenIfAvailable`, credential_sdjwt.go:44-48 -/
  | ifAvailable (l : List String)
  /-- `DiscloseGivenRequired`, credential_sdjwt.go:56-60 -/
  | required (l : List String)
  /-- `DiscloseAll`, credential_sdjwt.go:65-69 -/
  | all
  /-- `DisclosureHolderBinding`, credential_sdjwt.go:72-76: nil, or what making the binding gives -/
  | binding (b : Option (Except Unit String))
  /-- `DisclosureSigner`, credential_sdjwt.go:81-86: whether the signer is not nil -/
  | signer (given : Bool)
  /-- `MarshalWithSDJWTVersion`, credential_sdjwt.go:89-93 -/
  | version (v : Int)

/-- What an option does, credential_sdjwt.go:44-93; the version is kept beside the other settings. -/
def MdOpt.apply (o : DiscloseOpts × Int) : MdOpt → DiscloseOpts × Int
  | .ifAvailable l => ({ o.1 with ifAvailable := l }, o.2)
  | .required l => ({ o.1 with required := l }, o.2)
  | .all => ({ o.1 with all := true }, o.2)
  | .binding b => ({ o.1 with binding := b }, o.2)
  | .signer b => ({ o.1 with signer := b }, o.2)
  | .version v => (o.1, v)

/-- The settings after all options, credential_sdjwt.go:98-114. -/
def mdSettings (envelope : Option Int) (opts : List MdOpt) : DiscloseOpts × Int :=
  opts.foldl MdOpt.apply (⟨[], [], false, none, false⟩, SDJWT.startVersion envelope)

/-- `MarshalWithDisclosure` with its options, credential_sdjwt.go:97-130; `issue v` is the outcome of issuing the
credential as an SD-JWT of version `v`, credential_sdjwt.go:160. -/
def marshalWithOpts (ordA ordR : NameMap → NameMap) (envelope : Option Int) (sd : Option (String × String × List Disc))
    (issue : Int → Option (SDJWT.Issuance × Option (List Disc))) (opts : List MdOpt) : Option String :=
  marshalWithDisclosure ordA ordR sd (issue (mdSettings envelope opts).2) (mdSettings envelope opts).1

/-- `DisplayCredentialOption`, credential_sdjwt.go:445-461. -/
inductive DispOpt where
  /-- `DisplayAllDisclosures`, credential_sdjwt.go:449-453 -/
  | all
  /-- `DisplayGivenDisclosures`, credential_sdjwt.go:457-461 -/
  | given (l : List String)

/-- What an option does, credential_sdjwt.go:449-461: names are added to those given before. -/
def DispOpt.apply (o : Bool × List String) : DispOpt → Bool × List String
  | .all => (true, o.2)
  | .given l => (o.1, o.2 ++ l)

/-- The settings after all options, credential_sdjwt.go:473-477, 535-539. -/
def dispSettings (opts : List DispOpt) : Bool × List String := opts.foldl DispOpt.apply (false, [])

/-- `CreateDisplayCredentialMap` with its options, credential_sdjwt.go:532-573. -/
def displayMapWith (env : PEnv) (vc : PCred env.T) (opts : List DispOpt) : Res JObj :=
  createDisplayMap env vc (dispSettings opts).1 (dispSettings opts).2

/-- `CreateDisplayCredential` with its options, credential_sdjwt.go:470-523. -/
def displayWith (env : PEnv) (vc : PCred env.T) (opts : List DispOpt) : Res (PCred env.T) :=
  createDisplay env vc (dispSettings opts).1 (dispSettings opts).2

/-! ## Specification -/

/-- The settings a list of `MarshalWithDisclosure` options stands for: each is what the last option about it
says, except that nothing takes back `DiscloseAll`; `own`: the version of the credential's envelope. -/
structure MdMeans (own : Int) (opts : List MdOpt) (o : DiscloseOpts) (v : Int) : Prop where
  ifAvailable : Decides (fun x v => x = .ifAvailable v) opts [] o.ifAvailable
  required : Decides (fun x v => x = .required v) opts [] o.required
  all : o.all = true ↔ .all ∈ opts
  binding : Decides (fun x v => x = .binding v) opts none o.binding
  signer : Decides (fun x v => x = .signer v) opts false o.signer
  version : Decides (fun x v => x = .version v) opts own v

/-- Some display option names `n`. -/
def NamedByOpts (opts : List DispOpt) (n : String) : Prop := ∃ l, DispOpt.given l ∈ opts ∧ n ∈ l

/-! ## Theorems -/

/-- **C126.**  Every list of `MarshalWithDisclosure` options means what the specification says. -/
theorem marshal_options (envelope : Option Int) (opts : List MdOpt) :
    MdMeans (match envelope with | some v => if v = 0 then 2 else v | none => 2) opts
      (mdSettings envelope opts).1 (mdSettings envelope opts).2 where
  ifAvailable := decides_foldl (get := fun (o : DiscloseOpts × Int) => o.1.ifAvailable)
    (by intro st o; cases o <;> simp [MdOpt.apply]) opts (⟨[], [], false, none, false⟩, SDJWT.startVersion envelope)
  required := decides_foldl (get := fun (o : DiscloseOpts × Int) => o.1.required)
    (by intro st o; cases o <;> simp [MdOpt.apply]) opts (⟨[], [], false, none, false⟩, SDJWT.startVersion envelope)
  all := by
    have key : ∀ (opts : List MdOpt) (st : DiscloseOpts × Int),
        ((opts.foldl MdOpt.apply st).1.all = true ↔ st.1.all = true ∨ .all ∈ opts) := by
      intro opts
      induction opts with
      | nil => intro st; simp
      | cons o opts ih => intro st; rw [List.foldl_cons, ih]; cases o <;> simp [MdOpt.apply]
    simpa [mdSettings] using key opts (⟨[], [], false, none, false⟩, SDJWT.startVersion envelope)
  binding := decides_foldl (get := fun (o : DiscloseOpts × Int) => o.1.binding)
    (by intro st o; cases o <;> simp [MdOpt.apply]) opts (⟨[], [], false, none, false⟩, SDJWT.startVersion envelope)
  signer := decides_foldl (get := fun (o : DiscloseOpts × Int) => o.1.signer)
    (by intro st o; cases o <;> simp [MdOpt.apply]) opts (⟨[], [], false, none, false⟩, SDJWT.startVersion envelope)
  version := by
    have e : (match envelope with | some v => if v = 0 then 2 else v | none => 2) = SDJWT.startVersion envelope := by
      cases envelope with
      | none => rfl
      | some v => by_cases hv : v = 0 <;> simp [SDJWT.startVersion, hv]
    rw [e]
    exact decides_foldl (get := fun (o : DiscloseOpts × Int) => o.2)
      (by intro st o; cases o <;> simp [MdOpt.apply]) opts
      (⟨[], [], false, none, false⟩, SDJWT.startVersion envelope)

theorem mdMeans_unique {own : Int} {opts : List MdOpt} {o o' : DiscloseOpts} {v v' : Int}
    (h : MdMeans own opts o v) (h' : MdMeans own opts o' v') : o = o' ∧ v = v' := by
  obtain ⟨a1, a2, a3, a4, a5⟩ := o
  obtain ⟨b1, b2, b3, b4, b5⟩ := o'
  cases decides_unique (by intro x v w a b; rw [a] at b; cases b; rfl) h.ifAvailable h'.ifAvailable
  cases decides_unique (by intro x v w a b; rw [a] at b; cases b; rfl) h.required h'.required
  cases decides_unique (by intro x v w a b; rw [a] at b; cases b; rfl) h.binding h'.binding
  cases decides_unique (by intro x v w a b; rw [a] at b; cases b; rfl) h.signer h'.signer
  cases decides_unique (by intro x v w a b; rw [a] at b; cases b; rfl) h.version h'.version
  have : a3 = b3 := Bool.eq_iff_iff.mpr (h.all.trans h'.all.symm)
  cases this
  exact ⟨rfl, rfl⟩

/-- **C126** (with C56).  For an SD-JWT credential, `MarshalWithDisclosure` fails exactly if some option asks for all
disclosures and the last list of one kind is not empty, or a name on the last list of required names has no
disclosure, or the last holder binding cannot be made. -/
theorem marshal_with_iff {ordA ordR : NameMap → NameMap} (hR : ∀ m, (ordR m).Perm m) {envelope : Option Int}
    {own : Int} (hown : own = match envelope with | some v => if v = 0 then 2 else v | none => 2)
    {opts : List MdOpt} {o : DiscloseOpts} {v : Int} (hm : MdMeans own opts o v) (jwt hb : String) (ds : List Disc)
    (issue : Int → Option (SDJWT.Issuance × Option (List Disc))) :
    marshalWithOpts ordA ordR envelope (some (jwt, hb, ds)) issue opts = none ↔
      (.all ∈ opts ∧ (o.ifAvailable ≠ [] ∨ o.required ≠ [])) ∨
      (.all ∉ opts ∧ ∃ n ∈ o.required, ∀ d ∈ ds, d.name ≠ n) ∨ o.binding = some (.error ()) := by
  subst hown
  obtain ⟨rfl, rfl⟩ := mdMeans_unique hm (marshal_options envelope opts)
  unfold marshalWithOpts
  rw [marshal_sdjwt_iff ordA ordR hR]
  unfold Spec.Conflict Spec.RequiredMissing
  rw [hm.all, ← Bool.not_eq_true, hm.all]

/-- **C126** (with C56).  What it returns for an SD-JWT credential: the issuer's JWT with exactly the disclosures
asked for (all of them, or those with a name on one of the last two lists), and the last holder binding given,
else the one the credential came with. -/
theorem marshal_with_discloses {ordA ordR : NameMap → NameMap} (hA : ∀ m, (ordA m).Perm m)
    (hR : ∀ m, (ordR m).Perm m) {envelope : Option Int}
    {own : Int} (hown : own = match envelope with | some v => if v = 0 then 2 else v | none => 2)
    {opts : List MdOpt} {o : DiscloseOpts} {v : Int} (hm : MdMeans own opts o v) {jwt hb : String} {ds : List Disc}
    {issue : Int → Option (SDJWT.Issuance × Option (List Disc))} {s : String}
    (h : marshalWithOpts ordA ordR envelope (some (jwt, hb, ds)) issue opts = some s)
    (hj : NoChar '~' jwt) (hd : ∀ d ∈ ds, NoChar '~' d.disclosure) (hh : NoChar '~' hb)
    (hb' : ∀ b, o.binding = some (.ok b) → NoChar '~' b) :
    ∃ codes b, SDJWT.parsePresentation s = ⟨jwt, codes, b⟩ ∧
      (.all ∈ opts → codes = ds.map (·.disclosure)) ∧
      (.all ∉ opts → ∃ out : List Disc, codes = out.map (·.disclosure) ∧ (out.map (·.name)).Nodup ∧
        ∀ d, d ∈ out ↔ (d.name ∈ o.ifAvailable ∨ d.name ∈ o.required) ∧ Spec.LastNamed ds d) ∧
      (o.binding = none → b = hb) ∧ (∀ x, o.binding = some x → x = .ok b) := by
  subst hown
  obtain ⟨rfl, rfl⟩ := mdMeans_unique hm (marshal_options envelope opts)
  obtain ⟨codes, b, h1, h2, h3, h4⟩ := marshal_sdjwt_discloses ordA ordR hA hR jwt hb ds _ _ s h hj hd hh hb'
  unfold Spec.Chosen at h2
  refine ⟨codes, b, h1, fun ha => ?_, fun ha => ?_, h3, h4⟩
  · rw [if_pos (hm.all.mpr ha)] at h2
    exact h2
  · rw [if_neg (fun e => ha (hm.all.mp e))] at h2
    exact h2

/-- **C126** (with C56).  A credential that is not an SD-JWT is only marshalled if the last signer given is not nil;
it is issued in the version of the last option, and only the disclosures asked for are in the text. -/
theorem marshal_plain_with {ordA ordR : NameMap → NameMap} (hA : ∀ m, (ordA m).Perm m)
    (hR : ∀ m, (ordR m).Perm m) {envelope : Option Int}
    {own : Int} (hown : own = match envelope with | some v => if v = 0 then 2 else v | none => 2)
    {opts : List MdOpt} {o : DiscloseOpts} {v : Int} (hm : MdMeans own opts o v)
    {issue : Int → Option (SDJWT.Issuance × Option (List Disc))} {s : String}
    (h : marshalWithOpts ordA ordR envelope none issue opts = some s) :
    o.signer = true ∧ ∃ iss ds, issue v = some (iss, some ds) ∧
      (NoChar '~' iss.sdJWT → (∀ d ∈ iss.disclosures, NoChar '~' d) →
        (∀ b, o.binding = some (.ok b) → NoChar '~' b) →
        ∃ codes, SDJWT.parsePresentation s = ⟨iss.sdJWT, codes, SDJWT.hbString o.binding⟩ ∧
          (∀ c ∈ codes, c ∈ iss.disclosures) ∧
          (.all ∈ opts → codes = ds.map (·.disclosure)) ∧
          (.all ∉ opts → ∃ out : List Disc, codes = out.map (·.disclosure) ∧ (out.map (·.name)).Nodup ∧
            ∀ d, d ∈ out ↔ (d.name ∈ o.ifAvailable ∨ d.name ∈ o.required) ∧ Spec.LastNamed ds d)) := by
  subst hown
  obtain ⟨rfl, rfl⟩ := mdMeans_unique hm (marshal_options envelope opts)
  unfold marshalWithOpts at h
  have hs : (mdSettings envelope opts).1.signer = true := by
    unfold marshalWithDisclosure at h
    split at h
    · cases h
    · simp only at h
      split at h
      · cases h
      · rename_i hs; simpa using hs
  refine ⟨hs, ?_⟩
  have hi : ∃ iss ds, issue (mdSettings envelope opts).2 = some (iss, some ds) := by
    unfold marshalWithDisclosure at h
    split at h
    · cases h
    · simp only at h
      split at h
      · cases h
      · split at h
        · cases h
        · rename_i iss claims hi
          cases claims with
          | none => cases h
          | some ds => exact ⟨iss, ds, hi⟩
  obtain ⟨iss, ds, hi⟩ := hi
  refine ⟨iss, ds, hi, fun hj hd hb' => ?_⟩
  rw [hi] at h
  obtain ⟨-, codes, h1, h2, h3⟩ := marshal_plain_discloses ordA ordR hA hR iss ds _ s h hj hd hb'
  unfold Spec.Chosen at h2
  refine ⟨codes, h1, h3, fun ha => ?_, fun ha => ?_⟩
  · rw [if_pos (hm.all.mpr ha)] at h2
    exact h2
  · rw [if_neg (fun e => ha (hm.all.mp e))] at h2
    exact h2

/-- **C126.**  Every list of display options: all disclosures if one option says so, and the names of all lists
together. -/
theorem display_options (opts : List DispOpt) :
    ((dispSettings opts).1 = true ↔ .all ∈ opts) ∧ ∀ n, n ∈ (dispSettings opts).2 ↔ NamedByOpts opts n := by
  have key : ∀ (opts : List DispOpt) (st : Bool × List String),
      (((opts.foldl DispOpt.apply st).1 = true ↔ st.1 = true ∨ .all ∈ opts) ∧
        ∀ n, n ∈ (opts.foldl DispOpt.apply st).2 ↔ n ∈ st.2 ∨ NamedByOpts opts n) := by
    intro opts
    induction opts with
    | nil => intro st; simp [NamedByOpts]
    | cons o opts ih =>
      intro st
      rw [List.foldl_cons]
      obtain ⟨h1, h2⟩ := ih (o.apply st)
      refine ⟨?_, fun n => ?_⟩
      · rw [h1]; cases o <;> simp [DispOpt.apply]
      · rw [h2]
        cases o with
        | all => simp [DispOpt.apply, NamedByOpts]
        | given l =>
          simp only [DispOpt.apply, List.mem_append, NamedByOpts, List.mem_cons, DispOpt.given.injEq]
          constructor
          · rintro ((h | h) | ⟨l', h3, h4⟩)
            · exact .inl h
            · exact .inr ⟨l, .inl rfl, h⟩
            · exact .inr ⟨l', .inr h3, h4⟩
          · rintro (h | ⟨l', rfl | h3, h4⟩)
            · exact .inl (.inl h)
            · exact .inl (.inr h4)
            · exact .inr ⟨l', h3, h4⟩
  simpa [dispSettings] using key opts (false, [])

theorem disp_conflict (opts : List DispOpt) :
    ((dispSettings opts).1 && !(dispSettings opts).2.isEmpty) = true ↔
      DispOpt.all ∈ opts ∧ ∃ n, NamedByOpts opts n := by
  obtain ⟨h1, h2⟩ := display_options opts
  rw [Bool.and_eq_true, h1]
  refine and_congr_right fun _ => ?_
  constructor
  · intro h
    cases hl : (dispSettings opts).2 with
    | nil => rw [hl] at h; cases h
    | cons n l => exact ⟨n, (h2 n).mp (by rw [hl]; simp)⟩
  · rintro ⟨n, hn⟩
    have := (h2 n).mpr hn
    cases hl : (dispSettings opts).2 with
    | nil => rw [hl] at this; cases this
    | cons n l => rfl

/-- **C126** (with C70).  Asking for all disclosures and naming some is refused; otherwise the map displayed of an
SD-JWT credential is what its claims disclose with exactly the disclosures asked for: all, or those whose name
is on any of the lists. -/
theorem display_with (env : PEnv) (vc : PCred env.T) (opts : List DispOpt) :
    ((DispOpt.all ∈ opts ∧ ∃ n, NamedByOpts opts n) → displayMapWith env vc opts = .err ∧ displayWith env vc opts = .err) ∧
    ∀ out, displayMapWith env vc opts = .ok out →
      (DispOpt.all ∈ opts → ∀ n, ¬ NamedByOpts opts n) ∧
      ((vc.contents.sdAlg = none ∨ vc.jwt = none) → out = vc.json) ∧
      ∀ a e, vc.contents.sdAlg = some a → vc.jwt = some e → ∃ r shown o,
        decodeCredJWT env e.jwt = .ok r ∧ shown.Sublist e.disclosures ∧
        (∀ p, p ∈ shown ↔ p ∈ e.disclosures ∧ (DispOpt.all ∈ opts ∨ NamedByOpts opts p.2.name)) ∧
        SDJWT.getDisclosedClaims env.sd shown r.2 = .ok o ∧ out = clearSubject o := by
  have hc := disp_conflict opts
  obtain ⟨h1, h2⟩ := display_options opts
  refine ⟨fun h => ?_, fun out h => ⟨fun ha n hn => ?_, fun hp => ?_, fun a e ha he => ?_⟩⟩
  · unfold displayMapWith displayWith createDisplayMap createDisplay
    rw [if_pos (hc.mpr h), if_pos (hc.mpr h)]
    exact ⟨rfl, rfl⟩
  · unfold displayMapWith createDisplayMap at h
    rw [if_pos (hc.mpr ⟨ha, n, hn⟩)] at h
    cases h
  · unfold displayMapWith createDisplayMap at h
    split at h
    · cases h
    · rcases hp with hp | hp
      · rw [hp] at h; cases h; rfl
      · rw [hp] at h
        split at h
        · rename_i h'; cases h'
        · cases h; rfl
  · unfold displayMapWith createDisplayMap at h
    split at h
    · cases h
    · rw [ha, he] at h
      simp only at h
      cases hd : decodeCredJWT env e.jwt with
      | err => rw [hd] at h; cases h
      | panic => rw [hd] at h; cases h
      | unsupported => rw [hd] at h; cases h
      | ok r =>
        rw [hd] at h
        simp only [Res.bind] at h
        cases hg : SDJWT.getDisclosedClaims env.sd
            (displayDiscs e.disclosures (dispSettings opts).1 (dispSettings opts).2) r.2 with
        | error x => rw [hg] at h; cases h
        | ok o =>
          rw [hg] at h
          refine ⟨r, _, o, rfl, ?_, ?_, hg, ?_⟩
          · unfold displayDiscs
            split
            · exact List.Sublist.refl _
            · exact List.filter_sublist
          · intro p
            unfold displayDiscs
            split
            · rename_i hall
              exact ⟨fun hp => ⟨hp, .inl (h1.mp hall)⟩, fun hp => hp.1⟩
            · rename_i hall
              rw [List.mem_filter]
              have : DispOpt.all ∉ opts := fun x => hall (h1.mpr x)
              simp [this, ← h2]
          · cases h; rfl

/-! ## Examples -/

/-- The second list counts; all the names of a display count. -/
example : mdSettings none [.ifAvailable ["a"], .required ["b"], .ifAvailable ["c"], .version 5] =
    (⟨["c"], ["b"], false, none, false⟩, 5) := rfl

example : dispSettings [.given ["a"], .given ["b"]] = (false, ["a", "b"]) := rfl

/-- The hypotheses of `marshal_with_discloses` are met. -/
example : ∃ s, marshalWithOpts id List.reverse none (some ("j", "", dxAll)) (fun _ => none)
    [.ifAvailable ["x"], .required dxOpts.required, .ifAvailable dxOpts.ifAvailable] = some s :=
  ⟨"j~wc~wb~", by decide +kernel⟩

example : marshalWithOpts id id none (some ("j", "", dxAll)) (fun _ => none) [.required ["zip"], .all] = none := rfl

example : (marshalWithOpts id id none none (fun v => if v = 5 then some (⟨"i", ["wa", "wb", "wc"]⟩, some dxAll) else none)
    [.all, .signer true, .version 5]).isSome = true := by decide +kernel

end VC.Vfy
