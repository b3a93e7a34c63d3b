import Verif.Presexch.LimitReveal
import Verif.Presexch.LimitExamples
/-!
# presexch: the reveal document for a BBS+ credential, examples and failures (C100)
-/

namespace VC.PE

open GoMap

def liBbs : JObj := liCred (.obj [("id", .str "did:ann"), ("type", .str "Person"), ("name", .str "Ann"),
  ("degree", .obj [("type", .str "BachelorDegree"), ("title", .str "BSc"), ("grade", .str "A")])])

def liBbsK : Constraints := ⟨true, false, [liField "$"]⟩

def liBbsEval : List String → Json → Option (List (List Step)) :=
  liOne [.name "credentialSubject", .name "degree", .name "title"]

theorem liBbs_places : ∀ f ∈ liBbsK.fields, ∀ ps, liBbsEval f.path (.obj liBbs) = some ps → ∀ p ∈ ps,
    p = [.name "credentialSubject", .name "degree", .name "title"] := by
  intro f hf ps hps p hp
  have : f = liField "$" := by simpa [liBbsK] using hf
  subst this
  have e : liBbsEval ["$"] (.obj liBbs) = some [[.name "credentialSubject", .name "degree", .name "title"]] := by
    decide +kernel
  have := Option.some.inj (e.symm.trans hps)
  subst this
  simpa using hp

/-- The hypotheses of `reveal_only_partial` and `reveal_marked_partial` are met by a selected claim two
levels below the subject; the frame shows it, marks every object on the way, adds their types, and names
neither the grade nor the name. -/
example : ∃ L, revealDoc liBbsEval id liBbsK liBbs liSubjects = some L ∧
    gat L [.name "@explicit"] = some (.bool true) ∧
    gat L [.name "credentialSubject", .name "@explicit"] = some (.bool true) ∧
    gat L [.name "credentialSubject", .name "degree", .name "@explicit"] = some (.bool true) ∧
    gat L [.name "credentialSubject", .name "degree", .name "title"] = some (.str "BSc") ∧
    gat L [.name "credentialSubject", .name "degree", .name "type"] = some (.str "BachelorDegree") ∧
    gat L [.name "credentialSubject", .name "degree", .name "grade"] = none ∧
    gat L [.name "credentialSubject", .name "name"] = none := by
  obtain ⟨L, h, h1⟩ := shows_str (o := revealDoc liBbsEval id liBbsK liBbs liSubjects)
    (q := [.name "credentialSubject", .name "degree", .name "title"]) (s := "BSc") (by decide +kernel)
  obtain ⟨L', h', h2⟩ := shows_str (o := revealDoc liBbsEval id liBbsK liBbs liSubjects)
    (q := [.name "credentialSubject", .name "degree", .name "type"]) (s := "BachelorDegree")
    (by decide +kernel)
  rw [h] at h'
  cases h'
  have hm := reveal_marked_partial (fun _ _ => Iff.rfl)
    (fun f hf ps hps p hp => by
      have := liBbs_places f hf ps hps p hp
      subst this
      exact ⟨by decide, by decide +kernel⟩)
    (fun f hf ps hps p hp => by
      have := liBbs_places f hf ps hps p hp
      subst this
      decide) h
  have e : liBbsEval ["$"] (.obj liBbs) = some [[.name "credentialSubject", .name "degree", .name "title"]] := by
    decide +kernel
  have hs := hm.2 (liField "$") (by simp [liBbsK]) _ e _ (List.mem_singleton.mpr rfl)
    (noSchema_of (by decide +kernel))
    (fun s hs => by
      simp at hs
      rcases hs with rfl | rfl | rfl <;> exact ⟨_, rfl⟩)
  refine ⟨L, h, hm.1, hs 1 (by decide), hs 2 (by decide), h1, h2, ?_, ?_⟩
  · have : ((revealDoc liBbsEval id liBbsK liBbs liSubjects).bind
        (fun L => gat L [.name "credentialSubject", .name "degree", .name "grade"])).isNone = true := by
      decide +kernel
    rw [h] at this
    simpa using this
  · have : ((revealDoc liBbsEval id liBbsK liBbs liSubjects).bind
        (fun L => gat L [.name "credentialSubject", .name "name"])).isNone = true := by
      decide +kernel
    rw [h] at this
    simpa using this

/-- **C100 fails for a claim in an array**: the array on the way cannot be marked, and the credential
cannot be limited at all, although `limitedDoc` alone succeeds. -/
theorem reveal_array_fails :
    (revealDoc (liOne [.name "credentialSubject", .name "degrees", .idx 1, .name "title"]) id liBbsK
      (liCred liAnn) liSubjects).isNone = true ∧
    (limitedDoc (liOne [.name "credentialSubject", .name "degrees", .idx 1, .name "title"]) liBbsK
      (liCred liAnn) liSubjects).isSome = true := by decide +kernel

/-- **C100 fails for a member of the credential itself**: the frame gets a member with an empty name. -/
theorem reveal_empty_name :
    ∃ L, revealDoc (liOne [.name "secret"]) id liBbsK (liCred liAnn) liSubjects = some L ∧
      gat L [.name "", .name "@explicit"] = some (.bool true) := by
  exact shows_bool (by decide +kernel)

def liTyped : JObj := liCred (.obj [("id", .str "did:ann"),
  ("type", .obj [("name", .str "t"), ("secret", .str "s")])])

/-- **C100 fails for a claim inside a member called `type`**: the whole member is named in the frame, and
its marker is lost. -/
theorem reveal_inside_type :
    ∃ L, revealDoc (liOne [.name "credentialSubject", .name "type", .name "name"]) id liBbsK liTyped
        liSubjects = some L ∧
      gat L [.name "credentialSubject", .name "type", .name "secret"] = some (.str "s") ∧
      gat L [.name "credentialSubject", .name "type", .name "@explicit"] = none := by
  obtain ⟨L, h, h1⟩ := shows_str
    (o := revealDoc (liOne [.name "credentialSubject", .name "type", .name "name"]) id liBbsK liTyped liSubjects)
    (q := [.name "credentialSubject", .name "type", .name "secret"]) (s := "s") (by decide +kernel)
  refine ⟨L, h, h1, ?_⟩
  have : ((revealDoc (liOne [.name "credentialSubject", .name "type", .name "name"]) id liBbsK liTyped
    liSubjects).bind (fun L => gat L [.name "credentialSubject", .name "type", .name "@explicit"])).isNone =
      true := by decide +kernel
  rw [h] at this
  simpa using this

end VC.PE
