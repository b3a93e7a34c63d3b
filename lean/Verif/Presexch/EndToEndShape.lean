import Verif.Presexch.EndToEndExamples
import Verif.Verifiable.ParseProps
/-!
# presexch: the shape of the presentations the holder makes (C102)
-/

namespace VC.PE

/-- The two base contexts of the data model, verifiable/jsonld.go:14-19. -/
def dataModelContexts : List String :=
  ["https://www.w3.org/2018/credentials/v1", "https://www.w3.org/ns/credentials/v2"]

/-- What a presentation for a definition must look like: the base context of all of its credentials,
then that of submissions; the two types; and the credentials. -/
structure Submits (made : Created) : Prop where
  base : ∃ b ∈ dataModelContexts, (∀ c ∈ made.creds, c.contexts.head? = some b) ∧
    made.contexts = [b, "https://identity.foundation/presentation-exchange/submission/v1"]
  types : made.types = ["VerifiablePresentation", "PresentationSubmission"]
  some : made.creds ≠ []

theorem base_iff (c : Cred) (b : String) :
    Vfy.getBaseContext c.contexts = some b ↔ b ∈ dataModelContexts ∧ c.contexts.head? = some b :=
  Vfy.getBaseContext_iff _ _

theorem base_ne {b : String} (h : b ∈ dataModelContexts) : b ≠ "" := by
  simp only [dataModelContexts, List.mem_cons, List.not_mem_nil, or_false] at h
  rcases h with rfl | rfl <;> decide

theorem baseLoop_iff : ∀ (cs : List Cred) (acc b : String), acc ∈ dataModelContexts →
    (baseContextLoop acc cs = some b ↔ b = acc ∧ ∀ c ∈ cs, c.contexts.head? = some acc) := by
  intro cs
  induction cs with
  | nil => intro acc b _; simp [baseContextLoop, eq_comm]
  | cons c cs ih =>
    intro acc b ha
    simp only [baseContextLoop, List.mem_cons, forall_eq_or_imp]
    cases hb : Vfy.getBaseContext c.contexts with
    | none =>
      simp only [reduceCtorEq, false_iff]
      rintro ⟨_, h, _⟩
      rw [(base_iff c acc).mpr ⟨ha, h⟩] at hb
      cases hb
    | some b' =>
      obtain ⟨h1, h2⟩ := (base_iff c b').mp hb
      simp only [if_neg (base_ne ha)]
      by_cases e : acc = b'
      · subst e
        simp only [ne_eq, not_true_eq_false, if_false]
        rw [ih acc b ha]
        simp [h2]
      · rw [if_pos e]
        simp only [reduceCtorEq, false_iff]
        rintro ⟨_, h, _⟩
        exact e (Option.some.inj (h.symm.trans h2))

theorem presBase_iff (cs : List Cred) (b : String) : presBaseContext cs = some b ↔
    cs ≠ [] ∧ b ∈ dataModelContexts ∧ ∀ c ∈ cs, c.contexts.head? = some b := by
  cases cs with
  | nil => simp [presBaseContext, baseContextLoop]
  | cons c cs =>
    simp only [presBaseContext, baseContextLoop, List.mem_cons, forall_eq_or_imp]
    cases hb : Vfy.getBaseContext c.contexts with
    | none =>
      simp only [reduceCtorEq, false_iff]
      rintro ⟨_, h1, h2, _⟩
      rw [(base_iff c b).mpr ⟨h1, h2⟩] at hb
      cases hb
    | some b' =>
      obtain ⟨h1, h2⟩ := (base_iff c b').mp hb
      simp only [if_true]
      cases hl : baseContextLoop b' cs with
      | none =>
        simp only [reduceCtorEq, false_iff]
        rintro ⟨_, g1, g2, g3⟩
        have e : b = b' := Option.some.inj (g2.symm.trans h2)
        subst e
        rw [(baseLoop_iff cs b b h1).mpr ⟨rfl, g3⟩] at hl
        cases hl
      | some b'' =>
        obtain ⟨rfl, g⟩ := (baseLoop_iff cs b' b'' h1).mp hl
        dsimp only
        rw [if_neg (base_ne h1)]
        simp only [Option.some.injEq]
        constructor
        · rintro rfl
          exact ⟨by simp, h1, h2, g⟩
        · rintro ⟨_, _, e, _⟩
          exact Option.some.inj (h2.symm.trans e)

/-- `presentation` succeeds exactly when the credentials have one base context, and makes that
presentation. -/
theorem makePresentation_iff (id : String) (cs : List Cred) (made : Created) :
    makePresentation id cs = some made ↔ Submits made ∧ made.id = id ∧ made.creds = cs := by
  have key : ∀ b ∈ dataModelContexts,
      (addMissing [b] "https://identity.foundation/presentation-exchange/submission/v1" =
        [b, "https://identity.foundation/presentation-exchange/submission/v1"]) := by
    intro b hb
    simp only [dataModelContexts, List.mem_cons, List.not_mem_nil, or_false] at hb
    rcases hb with rfl | rfl <;> decide
  unfold makePresentation
  cases h : presBaseContext cs with
  | none =>
    simp only [reduceCtorEq, false_iff]
    rintro ⟨⟨⟨b, hb, h1, _⟩, _, h2⟩, _, rfl⟩
    rw [(presBase_iff _ b).mpr ⟨h2, hb, h1⟩] at h
    cases h
  | some b =>
    obtain ⟨h1, h2, h3⟩ := (presBase_iff _ _).mp h
    dsimp only
    rw [key b h2]
    simp only [Option.some.injEq]
    constructor
    · rintro rfl
      exact ⟨⟨⟨b, h2, h3, rfl⟩, rfl, h1⟩, rfl, rfl⟩
    · rintro ⟨⟨⟨b', g1, g2, g3⟩, g4, _⟩, g5, rfl⟩
      obtain ⟨c, hc⟩ := List.exists_mem_of_ne_nil _ h1
      have e : b' = b := Option.some.inj ((g2 c hc).symm.trans (h3 c hc))
      subst e
      cases made
      simp only at g3 g4 g5
      subst g3 g4 g5
      simp only [Created.mk.injEq, true_and, and_true]
      decide

theorem makeEach_forall {H : HolderEnv} : ∀ (cs : List Cred) (n : Nat) (vps : List Created),
    makeEach H n cs = some vps → List.Forall₂ (fun c v => Submits v ∧ v.creds = [c]) cs vps := by
  intro cs
  induction cs with
  | nil => intro n vps h; simp only [makeEach, Option.some.injEq] at h; subst h; exact .nil
  | cons c cs ih =>
    intro n vps h
    simp only [makeEach] at h
    cases hm : makePresentation (H.uuid n) [c] with
    | none => rw [hm] at h; cases h
    | some v =>
      rw [hm] at h
      obtain ⟨l, h1, h2⟩ := Option.map_eq_some_iff.mp h
      subst h2
      obtain ⟨g1, _, g3⟩ := (makePresentation_iff _ _ _).mp hm
      exact .cons ⟨g1, g3⟩ (ih _ _ h1)

/-- **C102**.  A presentation made by `CreateVP` has the base context that all its credentials have,
the context of submissions and the type `PresentationSubmission`; so credentials of different versions
of the data model are never put together. -/
theorem createVP_submits {H : HolderEnv} {dflt : String} {pd : Definition} {creds : List Cred} {made : Created}
    {os : List MapOut} (h : createVP H dflt pd creds = .ok (made, os)) : Submits made := by
  obtain ⟨fmt, m, h1, h2, rfl⟩ := createVP_ok h
  exact ((makePresentation_iff _ _ _).mp h2).1

/-- **C102** for `CreateVPArray`: each has exactly one credential. -/
theorem createVPArray_submits {H : HolderEnv} {dflt : String} {pd : Definition} {creds : List Cred}
    {made : List Created} {os : List MapOut} (h : createVPArray H dflt pd creds = .ok (made, os)) :
    ∀ a ∈ made, Submits a ∧ ∃ c, a.creds = [c] := by
  obtain ⟨fmt, m, h1, h2, rfl⟩ := createVPArray_ok h
  have hf := makeEach_forall _ _ _ h2
  clear h h1 h2
  revert hf
  generalize (mergedOf H true fmt m).1 = cs
  intro hf a ha
  induction hf with
  | nil => cases ha
  | cons h1 _ ih =>
    rcases List.mem_cons.mp ha with rfl | ha
    · exact ⟨h1.1, _, h1.2⟩
    · exact ih ha

/-- Non-vacuity: the presentations of `EndToEndExamples.lean`. -/
example : ∃ made os, createVP etHolder "ldp_vp" etDef etWallet = .ok (made, os) ∧ Submits made ∧
    made.creds.length = 3 := by
  obtain ⟨⟨made, os⟩, h1, h2⟩ := Option.map_eq_some_iff.mp et_created
  simp only [Prod.mk.injEq] at h2
  refine ⟨made, os, get?_ok h1, createVP_submits (get?_ok h1), ?_⟩
  simpa using congrArg List.length h2.1

/-- Credentials of two versions. -/
example : makePresentation "x" [etCred "c1" "Degree" "Ann",
    { etCred "c2" "Degree" "Ann" with contexts := ["https://www.w3.org/ns/credentials/v2"] }] = none := by
  rfl

end VC.PE
