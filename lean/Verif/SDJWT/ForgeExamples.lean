import Verif.SDJWT.Forge
import Verif.SDJWT.IssuerExamples
/-!
# C138: non-vacuity, and why the collision is in the statement
-/

namespace VC.SDJWT

open Spec

theorem fgPlain2 (i : Nat) : (isIEnv true true isSalts).env.decode ((isIEnv true true isSalts).salt i) = none := by
  show GoMap.get? isTable (isSalts i) = none
  unfold isSalts
  split <;> decide +kernel

theorem fgPlain5 (i : Nat) : (isIEnv false false isSalts5).env.decode ((isIEnv false false isSalts5).salt i) = none := by
  show GoMap.get? isTable (isSalts5 i) = none
  unfold isSalts5
  split <;> decide +kernel

theorem fgNoCollision (alg s t : String) : ¬ Collision isEnv alg s t := by
  rintro ⟨h, e⟩
  exact h (isEnv_nocol alg [s, t] s (by simp) t (by simp) e)

/-- The hypotheses of `presented_within_v2` are met; with a hash without collisions, the accepted disclosures
are the issuer's. -/
example : ∃ shown, WithinObj shown (basePayload isBase ++ isClaims) ∧
    ∃ out, disclosedClaims isEnv ["ds1"] exV2.2 GoMap.keys = .ok out ∧ OEq out shown := by
  obtain ⟨h1, h2, h3, h4, h5, _, _, h6, h7, _, h9⟩ := exV2_ok
  rcases presented_within_v2 (E := isIEnv true true isSalts) h1 h2 h3 h4 h5 h6 h7 fgPlain2 h9 (S := ["ds1"])
    (by decide) (by rfl) with ⟨s, _, t, _, hc⟩ | ⟨_, shown, hw, hs⟩
  · exact absurd hc (fgNoCollision _ _ _)
  · exact ⟨shown, hw, hs GoMap.keys (fun _ _ h => h)⟩

/-- The hypotheses of `presented_issued_v5` and `presented_within_v5` are met. -/
example : (∀ s ∈ ["ds5", "ds4"], s ∈ exV5.1.map Ent.result) ∧
    ∃ shown, WithinObj shown (basePayload isBase ++ isClaims5) ∧
      ∃ out, disclosedClaims isEnv ["ds5", "ds4"] exV5.2 GoMap.keys = .ok out ∧ OEq out shown := by
  obtain ⟨h1, h2, h3, hd, h4, h5, hk, h6, h7, h9⟩ := exV5_ok
  have ha : verifyDisclosures isEnv ["ds5", "ds4"] exV5.2 = .ok () := rfl
  refine ⟨?_, ?_⟩
  · rcases presented_issued_v5 (E := isIEnv false false isSalts5) h2 h3 h4 h5.unreserved h6 (codec_weak h7) fgPlain5 ha
      with ⟨s, _, t, _, hc⟩ | h
    · exact absurd hc (fgNoCollision _ _ _)
    · exact h
  · rcases presented_within_v5 (E := isIEnv false false isSalts5) h1 h2 h3 h4 h5 hk h6 (newV5_real hd h6 ▸ h7) fgPlain5 h9
      (by decide) ha with ⟨s, _, t, _, hc⟩ | ⟨_, shown, hw, hs⟩
    · exact absurd hc (fgNoCollision _ _ _)
    · exact ⟨shown, hw, hs GoMap.keys (fun _ _ h => h)⟩

/-- The salts of the V5 examples, a decoy first. -/
def fgSalts5 (n : Nat) : String :=
  match n with
  | 0 => "decoy"
  | 1 => "s3"
  | 2 => "s4"
  | _ => "s5"

def fgV5 : List Ent × JObj :=
  (⟨"decoy", []⟩ :: exV5.1,
   [("iss", .str "did:ex:issuer"), ("nbf", .num 5), ("_sd_alg", .str "sha-256"),
    ("_sd", .arr [.str "hds5", .str "hdecoy"])])

/-- The hypotheses of `presented_within_v5` are met by an issuer with decoys: the disclosures but the decoy can be
presented. -/
example : newV5 (isIEnv true false fgSalts5) isBase isClaims5 = .ok fgV5 ∧
    ∃ shown, WithinObj shown (basePayload isBase ++ isClaims5) ∧
      ∃ out, disclosedClaims isEnv ["ds5", "ds4"] fgV5.2 GoMap.keys = .ok out ∧ OEq out shown := by
  have hnew : newV5 (isIEnv true false fgSalts5) isBase isClaims5 = .ok fgV5 := rfl
  obtain ⟨h1, _, _, _, h4, h5, hk, _, h7, _⟩ := exV5_ok
  refine ⟨hnew, ?_⟩
  rcases presented_within_v5 (E := isIEnv true false fgSalts5) h1 (isIEnv_shuffles _ _ _) (isIEnv_alg _ _ _) h4 h5 hk
    (es := fgV5.1) (payload := fgV5.2) hnew h7 (by
      intro i
      show GoMap.get? isTable (fgSalts5 i) = none
      unfold fgSalts5
      split <;> decide +kernel) (by unfold DistinctDigests; decide +kernel)
      (S := ["ds5", "ds4"]) (by decide) (by rfl) with ⟨s, _, t, _, hc⟩ | ⟨_, shown, hw, hs⟩
  · exact absurd hc (fgNoCollision _ _ _)
  · exact ⟨shown, hw, hs GoMap.keys (fun _ _ h => h)⟩

/-! ## At the verifier -/

def fgVOpts : VOpts := ⟨fun _ _ _ _ => true, none, ["EdDSA"], ["EdDSA"], 0, false, "", "", "", 10, 10⟩

/-- The hypotheses of `verifier_sees_issued` are met: the city is presented. -/
example : ∃ out, verifierParse isVLib fgVOpts GoMap.keys "sd2~ds1~" = .ok out ∧
    ∃ shown, WithinObj shown (basePayload isBase ++ isClaims) ∧ OEq out shown := by
  have hp : parsePresentation "sd2~ds1~" = ⟨"sd2", ["ds1"], ""⟩ := by decide +kernel
  have hv : ∃ out, verifierParse isVLib fgVOpts GoMap.keys "sd2~ds1~" = .ok out := by
    unfold verifierParse
    rw [hp]
    exact ⟨_, rfl⟩
  obtain ⟨out, hv⟩ := hv
  refine ⟨out, hv, ?_⟩
  obtain ⟨h1, h2, h3, h4, h5, _, _, h6, h7, _, h9⟩ := exV2_ok
  rcases verifier_sees_issued (E := isIEnv true true isSalts) (lib := isVLib) rfl h1 h2 h3 h4 h5 h6 h7 fgPlain2 h9
    (order := GoMap.keys) (fun _ _ h => h) (by
      intro tok pl h
      rw [hp] at h
      have : JWT.parseAndCheckProof isVLib.jwt fgVOpts.pc true fgVOpts.detached "sd2" = .ok (⟨exHdr, exV2.2⟩, [1]) := rfl
      rw [this, Except.ok.injEq, Prod.mk.injEq] at h
      rw [← h.1]) hv with ⟨s, _, t, _, hc⟩ | h
  · exact absurd hc (fgNoCollision _ _ _)
  · exact h

/-- The hypotheses of `verifier_sees_issued_v5` are met. -/
example : ∃ out, verifierParse isVLib fgVOpts GoMap.keys "sd5~ds5~ds4~" = .ok out ∧
    ∃ shown, WithinObj shown (basePayload isBase ++ isClaims5) ∧ OEq out shown := by
  have hp : parsePresentation "sd5~ds5~ds4~" = ⟨"sd5", ["ds5", "ds4"], ""⟩ := by decide +kernel
  have hv : ∃ out, verifierParse isVLib fgVOpts GoMap.keys "sd5~ds5~ds4~" = .ok out := by
    unfold verifierParse
    rw [hp]
    exact ⟨_, rfl⟩
  obtain ⟨out, hv⟩ := hv
  refine ⟨out, hv, ?_⟩
  obtain ⟨h1, h2, h3, hd, h4, h5, hk, h6, h7, h9⟩ := exV5_ok
  rcases verifier_sees_issued_v5 (E := isIEnv false false isSalts5) (lib := isVLib) rfl h1 h2 h3 h4 h5 hk h6 (newV5_real hd h6 ▸ h7)
    fgPlain5 h9 (order := GoMap.keys) (fun _ _ h => h) (by
      intro tok pl h
      rw [hp] at h
      have : JWT.parseAndCheckProof isVLib.jwt fgVOpts.pc true fgVOpts.detached "sd5" = .ok (⟨exHdr, exV5.2⟩, [2]) := rfl
      rw [this, Except.ok.injEq, Prod.mk.injEq] at h
      rw [← h.1]) hv with ⟨s, _, t, _, hc⟩ | h
  · exact absurd hc (fgNoCollision _ _ _)
  · exact h

/-! ## With a collision -/

/-- A weak hash: a text of the presenter's has the hash of the issuer's disclosure of the name. -/
def fgWeak : Env where
  decode s := if s = "forged" then some [.str "s0", .str "name", .str "Eve"] else isEnv.decode s
  hash _ s := if s = "forged" then "hds0" else "h" ++ s
  upper := isEnv.upper

def fgWeakE : IEnv := { isIEnv true true isSalts with env := fgWeak }

/-- **The collision cannot be left out of the statement**: with such a hash the issuer's token shows a name the
issuer never wrote. -/
theorem collision_forges : newV2 fgWeakE isBase isClaims = .ok exV2 ∧
    verifyDisclosures fgWeak ["forged"] exV2.2 = .ok () ∧
    ∃ out, disclosedClaims fgWeak ["forged"] exV2.2 GoMap.keys = .ok out ∧ GoMap.get? out "name" = some (.str "Eve") ∧
      GoMap.get? isClaims "name" = some (.str "Ann") ∧ Collision fgWeak "SHA-256" "forged" "ds0" :=
  ⟨by rfl, by rfl, _, by rfl, by rfl, by rfl, by decide, by decide +kernel⟩

/-- `Within` leaves things out and changes nothing. -/
example : Within (.obj [("b", .arr [.num 2])]) (.obj [("a", .num 1), ("b", .arr [.num 1, .num 2])]) :=
  .obj (.drop (.keep (.arr (.drop (.keep (.same _) .nil))) .nil))

theorem fgNotWithin : ∀ v w : Json, Within v w → v = .str "Eve" → w = .str "Ann" → False
  | _, _, .same _, h1, h2 => by rw [h1] at h2; exact absurd h2 (by simp)
  | _, _, .empty _, h1, _ => nomatch h1
  | _, _, .arr _, h1, _ => nomatch h1
  | _, _, .obj _, h1, _ => nomatch h1

example : ¬ Within (.obj [("a", .str "Eve")]) (.obj [("a", .str "Ann")]) := by
  intro h
  generalize h1 : Json.obj [("a", .str "Eve")] = v at h
  generalize h2 : Json.obj [("a", .str "Ann")] = w at h
  cases h with
  | same => rw [← h1] at h2; simp at h2
  | empty => cases h1
  | arr => cases h1
  | obj h =>
    cases h1
    cases h2
    generalize h1 : [("a", Json.str "Eve")] = m at h
    generalize h2 : [("a", Json.str "Ann")] = m2 at h
    cases h with
    | nil => cases h1
    | drop h => cases h2; cases h; cases h1
    | keep h _ =>
      simp only [List.cons.injEq, Prod.mk.injEq] at h1 h2
      exact fgNotWithin _ _ h h1.1.2.symm h2.1.2.symm

end VC.SDJWT
