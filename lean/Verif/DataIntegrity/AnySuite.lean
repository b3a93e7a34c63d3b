import Verif.DataIntegrity.RoundTrip
/-!
C52/C51: what `Signer.AddProof` guarantees whatever the plugged-in suite returns (dataintegrity/signer.go:90-135).
-/
namespace VC.DI
open VC

variable (env : Env)

/-- What a proof must carry to be attached, in words: a type, a purpose and a verification method; a date of creation
if the suite asks for one; the domain and the challenge asked for, where one is asked for. -/
structure Attachable (needsDate : Bool) (domain challenge : String) (p : Prf) : Prop where
  type : p.type ≠ ""
  purpose : p.purpose ≠ ""
  vm : p.vm ≠ ""
  created : needsDate = true → p.created ≠ ""
  domain : domain = "" ∨ p.domain = domain
  challenge : challenge = "" ∨ p.challenge = challenge

theorem createdOK_iff (s : Suite env) (p : Prf) (o : Opts env.T) :
    createdOK env s p o = true ↔ Attachable s.requiresCreated o.domain o.challenge p := by
  unfold createdOK
  simp only [Bool.and_eq_true, Bool.not_eq_true', decide_eq_false_iff_not, not_or, not_and, ne_eq, Classical.not_not]
  constructor
  · rintro ⟨⟨⟨⟨a, b, c⟩, d⟩, e⟩, f⟩
    exact ⟨a, b, c, fun h h' => d h' h, (Classical.em (o.domain = "")).imp id fun h => (e h).symm,
      (Classical.em (o.challenge = "")).imp id fun h => (f h).symm⟩
  · intro h
    exact ⟨⟨⟨⟨h.type, h.purpose, h.vm⟩, fun a b => h.created b a⟩, fun a => (h.domain.resolve_left a).symm⟩,
      fun a => (h.challenge.resolve_left a).symm⟩

/-- **C51, any suite.**  Whatever suites are plugged in, `AddProof` succeeds exactly if the suite named is known, the
verification method can be resolved, the suite makes a proof and that proof is complete and answers the domain and the
challenge asked for; the document then carries that proof and nothing else changes. -/
theorem addProof_any_suite (suites : GoMap (Suite env)) (doc doc' : JObj) (o : Opts env.T) :
    addProof env suites doc o = .ok doc' ↔
      ∃ s o1 p, GoMap.get? suites o.suiteType = some s ∧ resolveVM env o "" = .ok o1 ∧ s.create doc o1 = some p ∧
        Attachable s.requiresCreated o.domain o.challenge p ∧
        doc' = GoMap.set doc "proof" (.obj (marshalProof p)) := by
  have keep : ∀ o1, resolveVM env o "" = .ok o1 → o1.domain = o.domain ∧ o1.challenge = o.challenge := by
    intro o1 h
    unfold resolveVM at h
    split at h
    · cases h; exact ⟨rfl, rfl⟩
    · split at h
      · cases h
      · split at h
        · cases h
        · cases h
          unfold withVMID
          split <;> exact ⟨rfl, rfl⟩
  unfold addProof
  cases hs : GoMap.get? suites o.suiteType with
  | none =>
    dsimp only
    exact ⟨(fun h => by cases h), fun ⟨_, _, _, h, _⟩ => by cases h⟩
  | some s =>
    dsimp only
    cases hr : resolveVM env o "" with
    | error e =>
      dsimp only
      exact ⟨(fun h => by cases h), fun ⟨_, _, _, _, h, _⟩ => by cases h⟩
    | ok o1 =>
      obtain ⟨k1, k2⟩ := keep o1 hr
      dsimp only
      cases hc : s.create doc o1 with
      | none =>
        dsimp only
        refine ⟨(fun h => by cases h), fun ⟨s', o', p, a, b, c, _⟩ => ?_⟩
        cases a; cases b; rw [hc] at c; cases c
      | some p =>
        dsimp only
        have ci := createdOK_iff env s p o1
        rw [k1, k2] at ci
        by_cases hk : createdOK env s p o1 = true
        · rw [if_pos hk]
          constructor
          · intro h
            cases h
            exact ⟨s, o1, p, rfl, rfl, hc, ci.mp hk, rfl⟩
          · rintro ⟨s', o', p', a, b, c, -, rfl⟩
            cases a; cases b; rw [hc] at c; cases c; rfl
        · rw [if_neg hk]
          refine ⟨(fun h => by cases h), fun ⟨s', o', p', a, b, c, d, _⟩ => ?_⟩
          cases a; cases b; rw [hc] at c; cases c
          exact absurd (ci.mpr d) hk

/-- A suite that forgets the date. -/
def exNoDate (needs : Bool) : Suite exE where
  requiresCreated := needs
  create := fun _ o => some ⟨"", "T", "x", o.purpose, "did:a#k", "", "", o.domain, o.challenge, "z", ""⟩
  verify := fun _ _ _ => true

/-- Its proofs are attached only if it does not ask for a date. -/
example : (addProof exE [("x", exNoDate false)] exBare (exSign' "x" "did:a#k")).isOk = true ∧
    (addProof exE [("x", exNoDate true)] exBare (exSign' "x" "did:a#k")).isOk = false := ⟨rfl, rfl⟩

end VC.DI
