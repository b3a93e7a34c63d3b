import Verif.Verifiable.DisclosureMain
/-!
# verifiable: choosing disclosures — concrete instances
-/

namespace VC.Vfy

open GoMap
open VC.SDJWT (Disc DMap)
open Spec

/-- Three disclosures, two of the same name. -/
def dxA : Disc := ⟨"wa", 3, "name", .str "A", true⟩
def dxB : Disc := ⟨"wb", 3, "age", .num 3, true⟩
def dxC : Disc := ⟨"wc", 3, "name", .str "C", true⟩
def dxAll : List Disc := [dxA, dxB, dxC]

/-- Choose `name` if available and `age` always. -/
def dxOpts : DiscloseOpts := ⟨["name", "age", "zip"], ["age"], false, none, false⟩

/-- The name chosen is the last `name`; `age`, in both lists, is not handed over twice. -/
example : marshalWithDisclosure id List.reverse (some ("j", "", dxAll)) none dxOpts = some "j~wc~wb~" := by
  decide +kernel

example : marshalWithDisclosure id id (some ("j", "kb", dxAll)) none { dxOpts with
    ifAvailable := [], required := [], all := true } = some "j~wa~wb~wc~kb" := by decide +kernel

example : marshalWithDisclosure id id (some ("j", "", dxAll)) none { dxOpts with required := ["zip"] } = none := by
  decide +kernel

example : RequiredMissing { dxOpts with required := ["zip"] } dxAll :=
  ⟨"zip", by simp, by simp [dxAll, dxA, dxB, dxC]⟩

/-- The hypotheses of the theorems on SD-JWT credentials. -/
example : ∃ s, marshalWithDisclosure id id (some ("j", "", dxAll)) none dxOpts = some s ∧
    (∀ m : NameMap, (id m).Perm m) ∧ NoChar '~' "j" ∧ (∀ d ∈ dxAll, NoChar '~' d.disclosure) ∧ NoChar '~' "" := by
  refine ⟨"j~wc~wb~", by decide +kernel, fun m => List.Perm.refl m, by unfold NoChar; decide, ?_, by unfold NoChar; decide⟩
  intro d hd
  simp only [dxAll, List.mem_cons, List.not_mem_nil, or_false] at hd
  rcases hd with rfl | rfl | rfl <;> (unfold NoChar; decide)

/-- A plain credential issued as an SD-JWT. -/
example : marshalWithDisclosure id id none (some (⟨"i", ["wa", "wb", "wc"]⟩, some dxAll))
    { dxOpts with signer := true, binding := some (.ok "kb") } = some "i~wc~wb~kb" := by decide +kernel

/-! ## Display -/

/-- A nested structure and what is left of it. -/
def dxSubj : List (String × Json) :=
  [("a", .obj [("b", .obj []), ("c", .arr [])]), ("d", .obj [("e", .obj [])]), ("f", .str "x")]

example : clearEmpty dxSubj = [("a", .obj [("c", .arr [])]), ("f", .str "x")] := rfl

example : LeafAt dxSubj ["a", "c"] (.arr []) :=
  .there (o := [("b", .obj []), ("c", .arr [])]) (by simp [dxSubj]) (.here (by simp) (by intro o h; cases h))

/-- Toy decoding: `w1` is the disclosure of `outer`, whose value hides `inner`, disclosed by `w2`. -/
def dxEnv : SDJWT.Env :=
  ⟨fun s => if s = "w1" then some [.str "salt", .str "outer", .obj [("_sd", .arr [.str "w2"])]]
     else if s = "w2" then some [.str "salt", .str "inner", .str "secret"] else none,
   fun _ s => s, fun s => if s = "sha-256" then "SHA-256" else s⟩

/-- The claims of the issuer's JWT. -/
def dxClaims : JObj := [("_sd_alg", .str "sha-256"), ("credentialSubject", .obj [("_sd", .arr [.str "w1"])])]

/-- The disclosures as a parsed credential holds them. -/
def dxMap : DMap := match SDJWT.resolveDisclosureClaims dxEnv "SHA-256" ["w1", "w2"] keys with
  | .ok D => D
  | .error _ => []

/-- The hypotheses of `display_map_partial`, showing everything and nothing. -/
example : displayMap dxEnv [] dxClaims true dxMap true [] =
      some [("credentialSubject", .obj [("outer", .obj [("inner", .str "secret")])])] ∧
    displayMap dxEnv [] dxClaims true dxMap false [] = some [("credentialSubject", .obj [])] := ⟨rfl, rfl⟩

/-- **C70 fails for nested disclosures**: asked to display only `outer`, the display credential also
shows `inner`, whose disclosure was not selected: parsing the credential already wrote it into the
value of `outer`. -/
theorem display_shows_nested : ∃ d, get? dxMap "w2" = some d ∧ d.name = "inner" ∧ d.name ∉ ["outer"] ∧
    get? (displayDiscs dxMap false ["outer"]) "w2" = none ∧
    displayMap dxEnv [] dxClaims true dxMap false ["outer"] =
      some [("credentialSubject", .obj [("outer", .obj [("inner", .str "secret")])])] :=
  ⟨_, rfl, rfl, by decide, rfl, rfl⟩

end VC.Vfy
