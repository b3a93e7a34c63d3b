import Verif.Presexch.LimitSD
import Verif.Presexch.LimitExamples
/-!
# presexch: limited disclosure of SD-JWT credentials, examples and failures (C98, C99)
-/

namespace VC.PE

open GoMap

/-- A toy digest. -/
def liHash (s : String) : Option String := some ("h(" ++ s ++ ")")

def liDisc (name text : String) : SDisc := ⟨"h(" ++ text ++ ")", text, name⟩

def liName : SDisc := liDisc "name" "n"
def liSsn : SDisc := liDisc "ssn" "s"
def liFriend : SDisc := liDisc "" "f"
def liAddress : SDisc := liDisc "address" "a"
def liStreet : SDisc := liDisc "street" "t"
def liTop : SDisc := liDisc "secret" "x"

/-- The SD-JWT of a subject with hidden `name` and `ssn`. -/
def liSD : JObj := [("credentialSubject", .obj [("id", .str "did:ann"),
  ("_sd", .arr [.str "h(n)", .str "h(s)"])])]

def liSDAll : Json := .obj [("credentialSubject", .obj [("id", .str "did:ann"), ("name", .str "Ann"),
  ("ssn", .str "123")])]

/-- What a JSON path library with one path per field name answers. -/
def liSDTable : List (String × List (List Step)) :=
  [("$.name", [[.name "credentialSubject", .name "name"]]),
   ("$.ssn", [[.name "credentialSubject", .name "ssn"]]),
   ("$.friend", [[.name "credentialSubject", .name "friends", .idx 0]]),
   ("$.street", [[.name "credentialSubject", .name "address", .name "street"]]),
   ("$.secret", [[.name "secret"]])]

theorem liSD_plain : ∀ keys (j : Json) ps, liEval liSDTable keys j = some ps → ∀ p ∈ ps,
    p ≠ [] ∧ ∀ s ∈ p, s.Plain := by
  intro keys j ps h p hp
  have : ps = keys.flatMap (fun k => (get? liSDTable k).getD []) := (Option.some.inj h).symm
  rw [this] at hp
  obtain ⟨k, _, hk⟩ := List.mem_flatMap.mp hp
  have all : ∀ e ∈ liSDTable, ∀ p ∈ e.2, p ≠ [] ∧ ∀ s ∈ p, s.Plain := by decide +kernel
  cases hg : get? liSDTable k with
  | none => rw [hg] at hk; simp at hk
  | some l =>
    rw [hg] at hk
    exact all _ (mem_of_get? hg) p hk

/-- Selecting the name of a subject with a hidden name and a hidden number discloses the name only. -/
theorem li_sd_name : limitedDisclosures (liEval liSDTable) liHash liSDAll (.obj liSD) [liName, liSsn]
    [liField "$.name"] = some [liName] := by decide +kernel

/-- The hypotheses of `sd_limited_iff` are met by that case. -/
example : liName ∈ [liName] ↔ ∃ f ∈ [liField "$.name"], ∃ ps,
    liEval liSDTable f.path liSDAll = some ps ∧ ∃ p ∈ ps, WantedFor liHash liSD [liName, liSsn] p liName :=
  sd_limited_iff rfl liName _ _ (fun _ _ ps h => liSD_plain _ _ ps h) li_sd_name

/-- Nothing is hidden in an array there, as `sd_limited_minimal_partial` asks. -/
example : ∀ f ∈ [liField "$.name"], ∀ ps, liEval liSDTable f.path liSDAll = some ps →
    ∀ c s c' o d, c ++ [s] ∈ ps → c'.map Step.text = c.map Step.text →
      gat (.obj liSD) c' = some (.obj o) → ¬ HasElem o d := by
  intro f hf ps hps c s c' o d hm e hg
  have : f = liField "$.name" := by simpa using hf
  subst this
  have e1 : liEval liSDTable ["$.name"] liSDAll = some [[.name "credentialSubject", .name "name"]] := by
    decide +kernel
  have := Option.some.inj (e1.symm.trans hps)
  subst this
  have hc : c ++ [s] = [.name "credentialSubject"] ++ [.name "name"] := by simpa using hm
  have hc := List.append_inj_left' hc rfl
  subst hc
  have hl : c'.length = 1 := by simpa using congrArg List.length e
  match c', hl with
  | [.idx n], _ => simp [gat] at hg
  | [.name k], _ =>
    have hk : k = "credentialSubject" := by simpa [Step.text] using e
    subst hk
    have hg : some (Json.obj [("id", .str "did:ann"), ("_sd", .arr [.str "h(n)", .str "h(s)"])]) =
      some (Json.obj o) := hg
    have := Json.obj.inj (Option.some.inj hg)
    subst this
    rw [← extractObj_iff]
    have : extractObj [("id", .str "did:ann"), ("_sd", .arr [.str "h(n)", .str "h(s)"])] = [] := by
      decide +kernel
    simp [this]

/-- The hypotheses of `sd_limited_complete_partial` are met: the name is listed by the subject. -/
example : Lists [("id", .str "did:ann"), ("_sd", .arr [.str "h(n)", .str "h(s)"])] "h(n)" :=
  .inl ⟨_, rfl, by simp⟩

/-! ## What goes wrong -/

/-- A subject with a hidden name and an array with a hidden element. -/
def liSDFriends : JObj := [("credentialSubject", .obj [("id", .str "did:ann"),
  ("_sd", .arr [.str "h(n)"]), ("friends", .arr [.obj [("...", .str "h(f)")]])])]

def liSDFriendsAll : Json := .obj [("credentialSubject", .obj [("id", .str "did:ann"), ("name", .str "Ann"),
  ("friends", .arr [.str "Bob"])])]

/-- **C98 fails (too much)**: selecting the name discloses the hidden elements of the arrays beside it as
well, although no field selects them. -/
theorem sd_discloses_unselected_elements :
    limitedDisclosures (liEval liSDTable) liHash liSDFriendsAll (.obj liSDFriends) [liName, liFriend]
      [liField "$.name"] = some [liFriend, liName] := by decide +kernel

/-- **C98 fails (too little)**: selecting the hidden array element itself discloses nothing, because the
element is in an array, not in an object. -/
theorem sd_element_not_disclosed :
    limitedDisclosures (liEval liSDTable) liHash liSDFriendsAll (.obj liSDFriends) [liName, liFriend]
      [liField "$.friend"] = some [] := by decide +kernel

/-- A subject whose hidden address has a hidden street. -/
def liSDNested : JObj := [("credentialSubject", .obj [("id", .str "did:ann"),
  ("_sd", .arr [.str "h(a)"])])]

def liSDNestedAll : Json := .obj [("credentialSubject", .obj [("id", .str "did:ann"),
  ("address", .obj [("street", .str "Main")])])]

/-- **C98 fails (too little)**: a selected claim inside a claim that is itself hidden is not disclosed
(nor is the claim around it). -/
theorem sd_nested_not_disclosed :
    limitedDisclosures (liEval liSDTable) liHash liSDNestedAll (.obj liSDNested) [liAddress, liStreet]
      [liField "$.street"] = some [] := by decide +kernel

/-- **C98 fails (too little)**: a selected hidden member of the credential itself is not disclosed. -/
theorem sd_top_level_not_disclosed :
    limitedDisclosures (liEval liSDTable) liHash
      (.obj [("_sd", .arr [.str "h(x)"]), ("secret", .str "s")]) (.obj [("_sd", .arr [.str "h(x)"])]) [liTop]
      [liField "$.secret"] = some [] := by decide +kernel

/-- **C98 fails (twice)**: two fields that select the same claim disclose it twice; a verifier of this
library rejects a presentation with the same disclosure twice (C18). -/
theorem sd_disclosed_twice :
    limitedDisclosures (liEval liSDTable) liHash liSDAll (.obj liSD) [liName, liSsn]
      [liField "$.name", liField "$.name"] = some [liName, liName] := by decide +kernel

/-- The credential of `liSD` with the disclosures it still has; the shape of the rest does not matter for
the toy JSON path library. -/
def liDisplay (_ : List SDisc) : Json := liSDAll

/-- **C99 fails**: presenting the name takes the number away from the holder's credential.  The number can
be presented first, but not after the name. -/
theorem presenting_loses_disclosures :
    presentAll (liEval liSDTable) liHash liDisplay (.obj liSD) [liName, liSsn] [[liField "$.ssn"]] =
      [liSsn] ∧
    presentAll (liEval liSDTable) liHash liDisplay (.obj liSD) [liName, liSsn] [[liField "$.name"]] =
      [liName] ∧
    presentAll (liEval liSDTable) liHash liDisplay (.obj liSD) [liName, liSsn]
      [[liField "$.name"], [liField "$.ssn"]] = [] := by decide +kernel

/-- The hypotheses of `left_out_is_lost` are met: the number is gone for good. -/
example (after : List (List Field)) :
    liSsn ∉ presentAll (liEval liSDTable) liHash liDisplay (.obj liSD) [liName, liSsn]
      ([[liField "$.name"]] ++ after) :=
  left_out_is_lost rfl (fun _ _ ps h => liSD_plain _ _ ps h) _ _ _ _
    (by rw [presenting_loses_disclosures.2.1]; decide)

end VC.PE
