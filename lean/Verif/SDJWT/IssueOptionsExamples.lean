import Verif.SDJWT.IssueOptions
import Verif.SDJWT.FromVCExamples
/-!
# Concrete lists of issuing options (C126)
-/

namespace VC.SDJWT

/-- `strings.ToUpper` and `strings.ToLower` on the names that matter. -/
def ioEnv : Env :=
  { isEnv with
    upper := fun s => if s = "sha-256" then "SHA-256" else if s = "sha-384" then "SHA-384"
      else if s = "sha-512" then "SHA-512" else s }

def ioLib (salts : Nat → String) : IssLib where
  env := ioEnv
  lower s := if s = "SHA-256" then "sha-256" else if s = "SHA-384" then "sha-384"
    else if s = "SHA-512" then "sha-512" else s
  b64 s := "d" ++ s
  marshal l := match l with
    | .str s :: _ => s
    | _ => ""
  genSalt := salts
  shuffle _ l := l.reverse
  intn _ := 0
  available h := h == 5 || h == 6 || h == 7

theorem ioEnv_wf : EnvWF ioEnv := isEnv_wf

theorem io_shuffle (f : Nat → String) (n : Nat) (l : List String) : ((ioLib f).shuffle n l).Perm l :=
  List.reverse_perm l

theorem io_hash (f : Nat → String) : HashOk (ioLib f) 5 :=
  ⟨.inl rfl, by simp [ioLib], by simp [ioLib, ioEnv]⟩

/-- The list of claims to keep in clear is given twice: the second counts. -/
def ioOpts : List IssOpt :=
  [.nonSD ["name"], .decoys true, .structured true, .notBefore (some 5), .subject "nobody", .nonSD ["addr.zip"],
    .version 2, .subject "", .hash 5]

def ioSettings : IssSettings :=
  { issDefaults with decoys := true, structured := true, notBefore := some 5, nonSD := ["addr.zip"] }

theorem io_settings : issSettings ioOpts = ioSettings := rfl

theorem io_means : IssMeans ioOpts ioSettings := io_settings ▸ issuing_options ioOpts

theorem io_issued : issueWith (ioLib isSalts) "did:ex:issuer" ioOpts isClaims = .ok exV2 := rfl

theorem io_good : GoodClaims "did:ex:issuer" ioSettings isClaims := by
  refine ⟨isClaims_ok.wf, isClaims_ok.unreserved, fun k v h => ?_, fun j h => (nomatch h)⟩
  cases h <;> simp [isClaims, GoMap.keys]

theorem io_codec : Codec (ioLib isSalts).env exV2.1 := by
  intro e he
  simp only [exV2, List.mem_cons, List.not_mem_nil, or_false] at he
  rcases he with rfl | rfl | rfl <;> rfl

theorem io_distinct : DistinctDigests (ioLib isSalts).env exV2.2 (exV2.1.map Ent.result) := by
  unfold DistinctDigests; decide +kernel

/-- The name was on a list that does not count any more: it is hidden. -/
example : ∃ d ∈ exV2.1.map Ent.result, ∀ (S : List String) (order : DMap → List String),
    (∀ x ∈ S, x ∈ exV2.1.map Ent.result) → S.Nodup → (∀ D, ∀ d ∈ GoMap.keys D, d ∈ order D) → d ∉ S →
    ∃ out, disclosedClaims ioEnv S exV2.2 order = .ok out ∧ GoMap.get? out "name" = none :=
  issued_hidden (L := ioLib isSalts) ioEnv_wf (io_shuffle _) io_means (io_hash _)
    io_good (fun h => absurd h (by decide)) io_issued io_codec io_distinct (k := "name") (v := .str "Ann")
    (by simp [ioSettings]) rfl trivial

/-- What the token states: the issuer and the date of the last option, no subject. -/
example : ∃ out, disclosedClaims ioEnv [] exV2.2 GoMap.keys = .ok out ∧
    (∀ k v, StatedClaim "did:ex:issuer" ioSettings k v → ∃ v', GoMap.get? out k = some v' ∧ JEq v' v) ∧
    (∀ k, k ∉ GoMap.keys isClaims → (∀ v, ¬ StatedClaim "did:ex:issuer" ioSettings k v) →
      GoMap.get? out k = none) :=
  issued_states (L := ioLib isSalts) ioEnv_wf (io_shuffle _) io_means (io_hash _)
    io_good (fun h => absurd h (by decide)) io_issued io_codec io_distinct (by simp) List.nodup_nil
    (fun _ _ h => h)

example : StatedClaim "did:ex:issuer" ioSettings "nbf" (.num 5) ∧
    ∀ v, ¬ StatedClaim "did:ex:issuer" ioSettings "sub" v :=
  ⟨.nbf rfl, fun v h => by
    have key : ∀ k, StatedClaim "did:ex:issuer" ioSettings k v → k ≠ "sub" := by
      intro k h e
      cases h with
      | sub h' => exact h' rfl
      | _ => simp at e
    exact key _ h rfl⟩

example : ∃ ms : Members, ms.erase = isClaims ∧
    V2Policy true (fun p => decide (p ∈ ["addr.zip"])) "" ms ∧ ms.discs.Perm (exV2.1.map Ent.result) ∧
    (∀ S, ms.Closed S) ∧
    IssuedShows ioEnv exV2.2 (exV2.1.map Ent.result) ms (basePayload (ioSettings.base "did:ex:issuer")) :=
  issued_v2 (L := ioLib isSalts) ioEnv_wf (io_shuffle _) io_means (by decide) (io_hash _)
    io_good io_issued io_codec io_distinct

example : GoMap.get? exV2.2 "_sd_alg" = some (.str "sha-256") ∧ getHashAlg ioEnv exV2.2 = some "SHA-256" :=
  issued_names_hash (L := ioLib isSalts) (io_shuffle _) io_means (io_hash _)
    io_good (fun h => absurd h (by decide)) io_issued io_codec

/-- A claim kept in clear by the last list: `name` again, given last. -/
def ioClear : List IssOpt := ioOpts ++ [.decoys false, .nonSD ["name"], .saltFnc none]

def ioClearSettings : IssSettings := { ioSettings with decoys := false, nonSD := ["name"] }

def ioClearSalts (n : Nat) : String := if n = 0 then "s1" else "s2"

def ioClearClaims : JObj := [("name", .str "Ann"), ("city", .str "Ulm")]

def ioClearOut : List Ent × JObj :=
  ([⟨"ds1", [.str "s1", .str "city", .str "Ulm"]⟩],
   [("iss", .str "did:ex:issuer"), ("nbf", .num 5), ("_sd_alg", .str "sha-256"), ("name", .str "Ann"),
    ("_sd", .arr [.str "hds1"])])

theorem ioClear_issued : issueWith (ioLib ioClearSalts) "did:ex:issuer" ioClear ioClearClaims = .ok ioClearOut := rfl

example : ∃ out, disclosedClaims ioEnv [] ioClearOut.2 GoMap.keys = .ok out ∧
    GoMap.get? out "name" = some (.str "Ann") := by
  refine issued_in_clear (L := ioLib ioClearSalts) ioEnv_wf (io_shuffle _) (opts := ioClear) (s := ioClearSettings)
    (show IssMeans ioClear (issSettings ioClear) from issuing_options ioClear)
    (io_hash _) ⟨?_, ?_, ?_, fun j h => (nomatch h)⟩ (fun h => absurd h (by decide)) ioClear_issued ?_
    (by unfold DistinctDigests; decide +kernel) (k := "name") (v := .str "Ann") (by simp [ioClearSettings])
    rfl trivial (by simp) List.nodup_nil (fun _ _ h => h)
  · simp [ioClearClaims, JWF, JWFObj, GoMap.keys]
  · simp [ioClearClaims, UnreservedObj, Unreserved]
  · intro k v h
    cases h <;> simp [ioClearClaims, GoMap.keys]
  · intro e he
    have he' : e ∈ ioClearOut.1 := he
    simp only [ioClearOut, List.mem_cons, List.not_mem_nil, or_false] at he'
    subst he'; rfl

/-- Version 5 with decoys: the salts, a decoy first. -/
def ioSalts5 (n : Nat) : String :=
  match n with
  | 0 => "decoy"
  | 1 => "s3"
  | 2 => "s4"
  | _ => "s5"

def ioOpts5 : List IssOpt := [.decoys true, .version 5, .notBefore (some 5)]

def ioV5 : List Ent × JObj :=
  (⟨"decoy", []⟩ :: exV5.1,
   [("iss", .str "did:ex:issuer"), ("nbf", .num 5), ("_sd_alg", .str "sha-256"),
    ("_sd", .arr [.str "hds5", .str "hdecoy"])])

theorem io5_issued : issueWith (ioLib ioSalts5) "did:ex:issuer" ioOpts5 isClaims5 = .ok ioV5 := rfl

example : ∃ ms : Members, ms.erase = isClaims5 ∧
    V5Policy ⟨false, fun p => decide (p ∈ []), fun p => decide (p ∈ []), fun p => decide (p ∈ [])⟩ false "" ms ∧
    ms.discs.Perm (exV5.1.map Ent.result) ∧
    IssuedShows ioEnv ioV5.2 (exV5.1.map Ent.result) ms
      (basePayload ((issSettings ioOpts5).base "did:ex:issuer")) := by
  refine issued_v5 (L := ioLib ioSalts5) ioEnv_wf (io_shuffle _) (opts := ioOpts5)
    (s := issSettings ioOpts5) (issuing_options _) rfl (io_hash _)
    ⟨?_, ?_, ?_, fun j h => (nomatch h)⟩ ?_ io5_issued ?_ (by unfold DistinctDigests; decide +kernel)
  · simp [isClaims5, JWF, JWFObj, JWFArr, GoMap.keys]
  · simp [isClaims5, UnreservedObj, Unreserved, UnreservedArr]
  · intro k v h
    cases h <;> simp [isClaims5, GoMap.keys]
  · simp [isClaims5, NamedKeysObj, NamedKeys]
  · intro e he
    have he' : e ∈ exV5.1 := he
    simp only [exV5, List.mem_cons, List.not_mem_nil, or_false] at he'
    rcases he' with rfl | rfl | rfl <;> rfl

/-- A hash that is not linked: refused, unless nothing is hidden. -/
example : issueWith (ioLib isSalts) "i" [.hash 17] isClaims = .error .noHash ∧
    (∃ p, issueWith (ioLib isSalts) "i" [.hash 17, .nonSD ["name"]] [("name", .str "Ann")] = .ok ([], p)) :=
  ⟨rfl, _, rfl⟩

/-! ## `MakeSDJWT` -/

/-- The credential came as version 5; the last option asks for version 2; the first list does not count. -/
def ioMake : List MkOpt := [.nonSD ["name"], .version 2, .nonSD ["addr.zip"], .always ["addr"]]

def ioMakeClaims (v : Int) : JObj := if v = 5 then fvCred else fvClaims

theorem ioMake_issued : makeWith (ioLib fvSalts) (some 5) ioMake ioMakeClaims = .ok (fvV2.1, fvV2.2) := rfl

theorem ioMake_means : MkMeans 5 ioMake ⟨0, 2, [], ["addr"], ["addr.zip"]⟩ := make_options (some 5) ioMake

theorem ioMake_codec : Codec (ioLib fvSalts).env fvV2.1 := fvV2_codec

theorem ioMake_distinct : DistinctDigests (ioLib fvSalts).env fvV2.2 (fvV2.1.map Ent.result) := by
  unfold DistinctDigests; decide +kernel

example : ∃ out cs', disclosedClaims ioEnv ["ds0"] fvV2.2 GoMap.keys = .ok out ∧ SubjectIn .v2 out cs' ∧
    GoMap.get? cs' "id" = some (.str "did:ex:ann") :=
  make_with_shows (L := ioLib fvSalts) ioEnv_wf (io_shuffle _) (envelope := some 5) rfl ioMake_means (io_hash _)
    (claims := ioMakeClaims) (cs := fvSubject) fv_claims2 (fun h => absurd h (by decide)) ioMake_issued ioMake_codec
    ioMake_distinct (.inl rfl) rfl trivial (by decide +kernel) (by decide) (fun _ _ h => h)

example : ∃ d ∈ fvV2.1.map Ent.result, ∀ (S : List String) (order : DMap → List String),
    (∀ x ∈ S, x ∈ fvV2.1.map Ent.result) → S.Nodup → (∀ D, ∀ d ∈ GoMap.keys D, d ∈ order D) → d ∉ S →
    ∃ out cs', disclosedClaims ioEnv S fvV2.2 order = .ok out ∧ SubjectIn .v2 out cs' ∧
      GoMap.get? cs' "name" = none :=
  make_with_hides (L := ioLib fvSalts) ioEnv_wf (io_shuffle _) (envelope := some 5) rfl ioMake_means (io_hash _)
    (claims := ioMakeClaims) (cs := fvSubject) fv_claims2 (fun h => absurd h (by decide)) ioMake_issued ioMake_codec
    ioMake_distinct (k := "name") (v := .str "Ann") (by decide) (by decide) rfl trivial

example : ∃ out cs' m', disclosedClaims ioEnv [] fvV2.2 GoMap.keys = .ok out ∧ SubjectIn .v2 out cs' ∧
    GoMap.get? cs' "addr" = some (.obj m') :=
  make_with_objects (L := ioLib fvSalts) ioEnv_wf (io_shuffle _) (envelope := some 5) rfl ioMake_means (io_hash _)
    (claims := ioMakeClaims) (cs := fvSubject) fv_claims2 (fun h => absurd h (by decide)) ioMake_issued ioMake_codec
    ioMake_distinct (k := "addr") rfl (fun h => absurd h (by decide)) (by simp) List.nodup_nil (fun _ _ h => h)

example : (ioLib fvSalts).available 5 = true :=
  make_with_hash (envelope := some 5) rfl ioMake_means ioMake_issued (by decide +kernel)

/-- Hash 17 is not linked: refused. -/
example : makeWith (ioLib fvSalts) none [.hash 17] ioMakeClaims = .error .noHash := rfl

end VC.SDJWT
