import Verif.Issue.SdForge
import Verif.Issue.SdMakeExamples
/-!
# C139: concrete presentations of a made SD-JWT credential
-/

namespace VC.Iss

open GoMap (get? keys del WF)
open VC.Vfy
open VC.Vfy.Spec
open VC.SDJWT (IEnv Ver Ent)
open VC.SDJWT.Spec (Collision WithinObj)
open Spec

/-- The JWT with one of the two disclosures, sent twice, in the combined format for presentation. -/
def sfText (ver : Ver) : String := sxJwt ver ++ "~ds0~ds0~"

/-- What is read from it, as far as it can be compared. -/
def sfRead (ver : Ver) : Bool :=
  match parseCredential sxEnv sxOpts (sfText ver) with
  | .ok pc =>
    match pc.jwt with
    | some e => decide (e.jwt = sxJwt ver) && pc.contents.sdAlg.isSome &&
        (get? e.disclosures "hds0").isSome && (get? e.disclosures "hds1").isNone
    | none => false
  | _ => false

theorem sf_read (ver : Ver) : sfRead ver = true := by
  cases ver <;> decide +kernel

theorem sf_parsed (ver : Ver) : ∃ pc e, parseCredential sxEnv sxOpts (sfText ver) = .ok pc ∧ pc.jwt = some e ∧
    e.jwt = serialize sxLib false (sxTok ver) ∧ pc.contents.sdAlg ≠ none := by
  have h := sf_read ver
  unfold sfRead at h
  split at h
  · rename_i pc hp
    split at h
    · rename_i e he
      simp only [Bool.and_eq_true, decide_eq_true_eq] at h
      refine ⟨pc, e, hp, he, ?_, ?_⟩
      · rw [sx_jwt]; exact h.1.1.1
      · intro hn
        rw [hn] at h
        exact absurd h.1.1.2 (by simp)
    · cases h
  · cases h

/-- `presented_shows_part`: nothing that was sent collides, so a part of the subject is displayed. -/
example (ver : Ver) : ∃ pc shown m c, parseCredential sxEnv sxOpts (sfText ver) = .ok pc ∧
    WithinObj shown sxSubject ∧ createDisplayMap sxEnv pc true [] = .ok m ∧ DisplayOf sxEnv sxCred shown m ∧
    createDisplay sxEnv pc true [] = .ok ⟨del m "proof", c, [], none, none⟩ ∧
    DisplayContents sxEnv sxContents m c := by
  obtain ⟨pc, e, h1, h2, h3, h4⟩ := sf_parsed ver
  rcases presented_shows_part sxOpts (sx_issuable ver) sx_libs (sx_token ver) (sx_readable ver) sx_solid h1 h2 h3 h4 with
    ⟨s, d, -, -, hne, hh⟩ | ⟨shown, m, c, k⟩
  · exact absurd (by
      have hh' : "h" ++ s = "h" ++ d := hh
      exact String.toList_inj.1 (by simpa using congrArg String.toList hh')) hne
  · exact ⟨pc, shown, m, c, h1, k⟩

/-- The name is displayed, and the postal code, but not the city. -/
def sfShown (ver : Ver) : Bool :=
  match parseCredential sxEnv sxOpts (sfText ver) with
  | .ok pc =>
    match createDisplayMap sxEnv pc true [] with
    | .ok m =>
      match get? m "credentialSubject" with
      | some (.obj s) => (get? s "name").isSome &&
        match get? s "addr" with
        | some (.obj a) => (get? a "city").isNone && (get? a "zip").isSome
        | _ => false
      | _ => false
    | _ => false
  | _ => false

example (ver : Ver) : sfShown ver = true := by cases ver <;> decide +kernel

end VC.Iss
