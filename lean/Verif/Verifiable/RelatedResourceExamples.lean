import Verif.Verifiable.RelatedResourceProps
/-!
# verifiable: related resources — concrete instances and the crash
-/

namespace VC.Vfy.Rel

open VC
open VC.Proof (Bytes)
open Spec

/-- A toy library. -/
def rrLib : Lib where
  sha256 := fun d => 1 :: 1 :: d
  sha384 := fun d => 2 :: 2 :: d
  sha512 := fun d => 3 :: 3 :: d
  multibase := fun s =>
    if s = "uok" then some (true, [0x12, 0x20, 1, 1, 7])
    else if s = "zok" then some (false, [2, 2, 8])
    else if s = "u" then some (true, [])
    else none
  multibase_empty := rfl
  lower := fun s => if s = "SHA384" then "sha384" else s
  lower_sha256 := rfl

/-- Two servers with one answer each. -/
def rrServes (u : String) (a : Option Bytes) : Prop :=
  a = if u = "https://a" then some [7] else if u = "https://b" then some [8] else none

/-- A resource with a multibase digest, one with an SRI digest, one with an empty base64url digest. -/
def rrA : RelRes := ⟨"https://a", "", "uok", ""⟩
/-- See `rrA`. -/
def rrB : RelRes := ⟨"https://b", "SHA384-zok", "", ""⟩
/-- See `rrA`. -/
def rrE : RelRes := ⟨"https://a", "", "u", ""⟩

theorem rrLong : Long rrLib := fun d => ⟨by simp [rrLib], by simp [rrLib], by simp [rrLib]⟩

theorem rrStable : Stable rrServes := ⟨fun _ => ⟨_, rfl⟩, fun _ _ _ h h' => h.trans h'.symm⟩

theorem rrCoherent : Coherent rrLib rrServes [] := by intro u h e; cases e

/-- The resources are intact. -/
example : Intact rrLib rrServes rrA ∧ Intact rrLib rrServes rrB :=
  ⟨⟨[7], by decide, rfl, (validateSingle_ok_iff rrLib rrLong rrA [7]).1 rfl⟩,
   ⟨[8], by decide, rfl, (validateSingle_ok_iff rrLib rrLong rrB [8]).1 (by rfl)⟩⟩

/-- An execution of two goroutines that interleaves them and returns without an error, as in
`validate_sound`, `validate_iff` and `validate_same`. -/
theorem rrRun : ∃ n s, Run rrLib rrServes [rrA, rrB] n (.run (St.init [] [rrA, rrB])) (.run s) ∧
    s.returned [rrA, rrB] ∧ s.bad = false := by
  have h1 := Run.own .refl (Step.miss (lib := rrLib) (serves := rrServes) (rs := [rrA, rrB])
    (s := St.init [] [rrA, rrB]) (i := 1) rfl rfl rfl)
  have h2 := Run.own h1 (Step.miss (i := 0) rfl rfl rfl)
  have h3 := Run.own h2 (Step.fetch (i := 1) (d := [8]) rfl rfl rfl (by decide))
  have h4 := Run.own h3 (Step.fetch (i := 0) (d := [7]) rfl rfl rfl (by decide))
  have h5 := Run.own h4 (Step.add (i := 0) rfl rfl)
  have h6 := Run.env h5 (Step.evict (u := "https://a"))
  have h7 := Run.own h6 (Step.add (i := 1) rfl rfl)
  have h8 := Run.own h7 (Step.valid (i := 1) rfl rfl (by rfl))
  have h9 := Run.own h8 (Step.valid (i := 0) rfl rfl rfl)
  have h10 := Run.own h9 (Step.recvDone rfl)
  have h11 := Run.own h10 (Step.recvDone rfl)
  exact ⟨_, _, h11, rfl, rfl⟩

/-- **C75 fails**: a related resource whose digest is the empty base64url string crashes the process, in
a goroutine where the caller cannot recover. -/
theorem empty_digest_crashes : Malformed rrLib rrE ∧
    (∃ n, Run rrLib rrServes [rrE] n (.run (St.init [] [rrE])) .crashed) ∧
    ∀ n s, Run rrLib rrServes [rrE] n (.run (St.init [] [rrE])) (.run s) → ¬ s.returned [rrE] := by
  have hm : Malformed rrLib rrE := (validateSingle_panic_iff rrLib rrE ⟨[], [], []⟩).1 rfl
  refine ⟨hm, ?_, fun n s h => malformed_never_returns rrLib rrServes [rrE] rrStable [] rrCoherent rrE
    (by simp) hm [7] (by decide) rfl n s h⟩
  have h1 := Run.own .refl (Step.miss (lib := rrLib) (serves := rrServes) (rs := [rrE])
    (s := St.init [] [rrE]) (i := 0) rfl rfl rfl)
  have h2 := Run.own h1 (Step.fetch (i := 0) (d := [7]) rfl rfl rfl (by decide))
  have h3 := Run.own h2 (Step.add (i := 0) rfl rfl)
  exact ⟨_, Run.own h3 (Step.crash (i := 0) rfl rfl rfl)⟩

/-- No malformed digest, as in `no_crash_partial`. -/
example : ∀ r ∈ [rrA, rrB], ¬ Malformed rrLib r := by
  intro r hr hm
  rw [List.mem_cons, List.mem_singleton] at hr
  rcases hr with rfl | rfl
  · have := (validateSingle_panic_iff rrLib rrA ⟨[], [], []⟩).2 hm
    cases this
  · have h : validateSingle rrLib rrB ⟨[], [], []⟩ = .panic := (validateSingle_panic_iff rrLib rrB _).2 hm
    have h' : validateSingle rrLib rrB ⟨[], [], []⟩ = .err := by rfl
    rw [h'] at h
    cases h

/-- An SRI digest with a dash in it. -/
example : validateSingle rrLib ⟨"https://a", "sha256-uab-cd", "", ""⟩ (hashes rrLib [7]) = .err :=
  sri_dash_rejected rrLib _ "sha256" "uab-cd" rfl (by decide) _

end VC.Vfy.Rel
