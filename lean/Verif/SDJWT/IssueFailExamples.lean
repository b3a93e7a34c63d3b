import Verif.SDJWT.IssueFail
import Verif.SDJWT.IssueOptionsExamples
/-!
# Issuing with functions that fail: concrete cases (C126)
-/

namespace VC.SDJWT

/-- The salts from the tenth on are not returned. -/
def ifFew : Faults := ⟨fun i => decide (i < 10), fun _ => none⟩

/-- Everything works. -/
theorem if_issued : issueFaulty ifFew (ioLib isSalts) "did:ex:issuer" ioOpts isClaims = .ok exV2 := rfl

example : issueWith (ioLib isSalts) "did:ex:issuer" ioOpts isClaims = .ok exV2 := (issued_without_faults if_issued).1

example : ∀ e ∈ exV2.1, ∃ i, ifFew.saltOk i = true ∧ WithSalt e (((issSettings ioOpts).env (ioLib isSalts)).salt i) :=
  (issued_without_faults if_issued).2.2

/-- The salt of a decoy is not returned: nothing is issued. -/
example : issueFaulty ⟨fun i => decide (i ≠ 0), fun _ => none⟩ (ioLib isSalts) "did:ex:issuer" ioOpts isClaims =
    .error (.bad .err) := rfl

/-- The marshaller refuses the name. -/
example : issueFaulty ⟨fun _ => true, fun a => match a with
      | [_, .str "name", _] => some .err
      | _ => none⟩ (ioLib isSalts) "did:ex:issuer" ioOpts isClaims = .error (.bad .err) := rfl

/-- A nil marshaller panics. -/
theorem if_nil : issueFaulty ⟨fun _ => true, fun _ => some .panic⟩ (ioLib isSalts) "did:ex:issuer" ioOpts isClaims =
    .error (.bad .panic) := rfl

/-- It is the marshaller that panics. -/
example : ∃ a : List Json, (⟨fun _ => true, fun _ => some .panic⟩ : Faults).marshal a = some .panic := by
  by_contra hc
  exact (nomatch (io_issued.symm.trans (fault_not_crash (fun a ha => hc ⟨a, ha⟩) if_nil)))

example : issueWith (ioLib isSalts) "did:ex:issuer" ioOpts isClaims =
    (issueFaulty ⟨fun _ => true, fun _ => none⟩ (ioLib isSalts) "did:ex:issuer" ioOpts isClaims).mapError FaultyErr.same :=
  issued_never_faulty ⟨fun _ => rfl, fun _ => rfl⟩ ..

/-- A null member is a crash of V5 without any failure. -/
example : issueWith (ioLib isSalts) "did:ex:issuer" [.version 5] [("a", .null)] = .error .panic :=
  fault_not_crash (F := ifFew) (fun _ h => (nomatch h)) rfl

/-- Only the first ten salts count. -/
example (f : Nat → String) (h : ∀ i, i < 10 → f i = isSalts i) :
    issueFaulty ifFew (ioLib isSalts) "did:ex:issuer" (ioOpts ++ [.saltFnc (some isSalts)]) isClaims =
    issueFaulty ifFew (ioLib isSalts) "did:ex:issuer" (ioOpts ++ [.saltFnc (some f)]) isClaims :=
  lost_salts_unused _ _ _ _ (fun i hi => (h i (of_decide_eq_true hi)).symm)

end VC.SDJWT
