import Verif.Presexch.SharedSame
import Verif.Presexch.EndToEndLimitExamples
/-!
# presexch: shared credentials, examples (C125)
-/

namespace VC.PE

open GoMap

/-- The path library: `$.x`, `$.y` and `$.n`. -/
def shMEnv : MEnv where
  Path := String
  parse p := if p = "$.x" then some "x" else if p = "$.y" then some "y" else if p = "$.n" then some "n" else none
  select q m := (get? m q).toList
  valid _ _ := true
  rfc3339 _ := none
  order := replacements
  fold := id
  load := fun _ => none

/-- The holder: restricting an SD-JWT leaves the claims that the fields ask for. -/
def shHolder : HolderEnv := { shMEnv with
  derive := fun _ c => some c
  restrict := fun k c => some { c with display := c.display.map (fun m =>
    m.filter (fun e => k.fields.any (fun f => f.path.contains ("$." ++ e.1)))) }
  tmp := fun d n _ => toString n ++ "." ++ d
  sortKeys := id
  sortMaps := id
  uuid := fun n => "urn:uuid:" ++ toString n }

/-- An SD-JWT credential with the given claims. -/
def shCred (id : String) (claims : List String) : Cred :=
  ⟨id, ["https://www.w3.org/2018/credentials/v1"], ["T"], none, [], true, none, [], true, false,
    some (claims.map (fun x => (x, .str x)))⟩

/-- A descriptor that asks for some claims and limits disclosure. -/
def shDesc (id : String) (paths : List String) : FDesc :=
  ⟨id, [], none, some ⟨true, false, paths.map (fun p => ⟨[p], none, false, false⟩)⟩, none⟩

/-- What a credential shows. -/
def shClaims (c : Cred) : String × List String := (c.id, (c.display.getD []).map Prod.fst)

/-- A result in short: what the presentation shows, the descriptors of the submission, what is left. -/
def shShort : CreateOut (Created × List MapOut × List Cred) →
    Option (List (String × List String) × List String × List (String × List String))
  | .ok (vp, os, h) => some (vp.creds.map shClaims, os.map MapOut.id, h.map shClaims)
  | _ => none

/-- The kind of a result. -/
def CreateOut.kind {β : Type} : CreateOut β → Nat
  | .ok _ => 0
  | .error => 1
  | .noCredentials => 2
  | .panic => 3

theorem kind_none {β : Type} {o : CreateOut β} (h : o.kind = 2) : o = .noCredentials := by
  cases o with
  | noCredentials => rfl
  | ok _ => cases h
  | error => cases h
  | panic => cases h

/-- Two descriptors, one credential. -/
def shTwo : Definition := ⟨none, [], [shDesc "a" ["$.x"], shDesc "b" ["$.y"]]⟩

/-- **C125 violated**: one SD-JWT credential has all that two descriptors ask for, and on copies the
call succeeds; on the shared credential it finds no solution, since restricting it for the first
descriptor took away what the second one asks for. -/
theorem shared_createVP_fails :
    (∃ r, createVP shHolder "ldp_vp" shTwo [shCred "c" ["x", "y", "n"]] = .ok r) ∧
    createVPS shHolder "ldp_vp" shTwo [shCred "c" ["x", "y", "n"]] = .noCredentials := by
  constructor
  · exact ⟨_, rfl⟩
  · exact kind_none (by decide +kernel)

/-- Two descriptors that ask for the same claim, and one for another one. -/
def shThree : Definition := ⟨none, [], [shDesc "a" ["$.x"], shDesc "b" ["$.x"], shDesc "c" ["$.y"]]⟩

/-- The wallet. -/
def shWallet : List Cred := [shCred "c1" ["x", "n"], shCred "c2" ["y", "n"], shCred "c3" ["n"]]

theorem sh_keeps : KeepsRest shHolder := by
  intro k c w h
  simp only [shHolder, Option.some.injEq] at h
  rw [← h]

theorem sh_fresh : FreshIDs shHolder shWallet := by
  constructor
  · exact el_fresh.different
  · intro d n i c hc h
    have h : toString n ++ "." ++ d = c.id := h
    have hm : '.' ∈ c.id.toList := by rw [← h]; simp [String.toList_append]
    simp only [shWallet, List.mem_cons, List.not_mem_nil, or_false] at hc
    rcases hc with rfl | rfl | rfl <;> exact absurd hm (by decide)

theorem sh_three_short : shShort (createVPS shHolder "ldp_vp" shThree shWallet) =
    some ([("c1", ["x"]), ("c2", ["y"])], ["a", "b", "c"], [("c1", ["x"]), ("c2", ["y"]), ("c3", ["n"])]) := by
  decide +kernel

/-- Non-vacuity: one credential restricted for two descriptors, another one for a third. -/
example : ∃ made os after, createVPS shHolder "ldp_vp" shThree shWallet = .ok (made, os, after) ∧
    os.map MapOut.id = ["a", "b", "c"] ∧
    ∀ o ∈ os, ∃ d ∈ shThree.descs, d.id = o.id ∧ ∃ i c, PointsAt false o.format o i ∧ made.creds[i]? = some c ∧
      ShownFor shHolder d shWallet after c := by
  have h := sh_three_short
  cases hc : createVPS shHolder "ldp_vp" shThree shWallet with
  | ok r =>
    obtain ⟨made, os, after⟩ := r
    rw [hc] at h
    simp only [shShort, Option.some.injEq, Prod.mk.injEq] at h
    exact ⟨made, os, after, rfl, h.2.1, createVPS_shows_partial sh_keeps (by decide) sh_fresh (fun _ => .refl _) hc⟩
  | error => rw [hc] at h; cases h
  | noCredentials => rw [hc] at h; cases h
  | panic => rw [hc] at h; cases h

/-- Non-vacuity of `createVPS_only_restricts`: the call takes the claim `n` away from the wallet. -/
example : ∃ made os after, createVPS shHolder "ldp_vp" shThree shWallet = .ok (made, os, after) ∧
    after.map shClaims = [("c1", ["x"]), ("c2", ["y"]), ("c3", ["n"])] ∧ after.length = shWallet.length := by
  have h := sh_three_short
  cases hc : createVPS shHolder "ldp_vp" shThree shWallet with
  | ok r =>
    obtain ⟨made, os, after⟩ := r
    rw [hc] at h
    simp only [shShort, Option.some.injEq, Prod.mk.injEq] at h
    exact ⟨made, os, after, rfl, h.2.2, (createVPS_only_restricts hc).1⟩
  | error => rw [hc] at h; cases h
  | noCredentials => rw [hc] at h; cases h
  | panic => rw [hc] at h; cases h

/-- Restricting takes claims away and leaves those asked for: `shown_discloses` applies. -/
example : (∀ k c w x, shHolder.restrict k c = some w → x ∈ (shClaims w).2 → x ∈ (shClaims c).2) ∧
    (∀ k c w x, shHolder.restrict k c = some w → x ∈ (shClaims w).2 → ∃ f ∈ k.fields, ("$." ++ x) ∈ f.path) := by
  have key : ∀ k c w x, shHolder.restrict k c = some w → x ∈ (shClaims w).2 →
      x ∈ (shClaims c).2 ∧ ∃ f ∈ k.fields, ("$." ++ x) ∈ f.path := by
    intro k c w x h hx
    simp only [shHolder, Option.some.injEq] at h
    subst h
    simp only [shClaims, List.mem_map] at hx
    obtain ⟨e, he, rfl⟩ := hx
    cases hd : c.display with
    | none => rw [hd] at he; simp at he
    | some m =>
      rw [hd] at he
      simp only [Option.map_some, Option.getD_some, List.mem_filter, List.any_eq_true] at he
      obtain ⟨h1, f, h2, h3⟩ := he
      refine ⟨?_, f, h2, by simpa using h3⟩
      simp only [shClaims, hd, Option.getD_some]
      exact List.mem_map_of_mem h1
  exact ⟨fun k c w x h hx => (key k c w x h hx).1, fun k c w x h hx => (key k c w x h hx).2⟩

/-- Each SD-JWT credential for its own descriptor. -/
def shOwn : Definition := ⟨none, [], [shDesc "a" ["$.x", "$.n"], shDesc "b" ["$.y"]]⟩

theorem sh_met {d : FDesc} {n : Nat} {c : Cred} (h : MetAt shHolder shOwn shWallet d n c) (hd : d ∈ shOwn.descs) :
    (d = shDesc "a" ["$.x", "$.n"] ∧ c = shCred "c1" ["x", "n"]) ∨ (d = shDesc "b" ["$.y"] ∧ c = shCred "c2" ["y", "n"]) := by
  obtain ⟨f, cs, h1, h2⟩ := h
  simp only [shOwn, List.mem_cons, List.not_mem_nil, or_false] at hd
  rcases hd with rfl | rfl
  · have e : filterDescriptor shHolder.toMEnv shOwn.format (shDesc "a" ["$.x", "$.n"]).toM shWallet =
        .ok ("", [shCred "c1" ["x", "n"]]) := rfl
    rw [e] at h1
    cases h1
    left
    refine ⟨rfl, ?_⟩
    have := List.mem_of_getElem? h2
    simpa using this
  · have e : filterDescriptor shHolder.toMEnv shOwn.format (shDesc "b" ["$.y"]).toM shWallet =
        .ok ("", [shCred "c2" ["y", "n"]]) := rfl
    rw [e] at h1
    cases h1
    right
    refine ⟨rfl, ?_⟩
    have := List.mem_of_getElem? h2
    simpa using this

theorem sh_one_use : OneUse shHolder shOwn shWallet := by
  intro d hd d' hd' n n' c _ h1 h2 _
  rcases sh_met h1 hd with ⟨rfl, rfl⟩ | ⟨rfl, rfl⟩ <;> rcases sh_met h2 hd' with ⟨rfl, e⟩ | ⟨rfl, e⟩
  · rfl
  · exact absurd (congrArg Cred.id e) (by decide)
  · exact absurd (congrArg Cred.id e) (by decide)
  · rfl

theorem sh_undisturbed : Undisturbed shHolder shOwn shWallet := by
  intro d hd d' hd' hne c hc _ hm k k' w h1 _ h2 h3
  obtain ⟨n, hm⟩ := hm
  simp only [shHolder, Option.some.injEq] at h2
  subst h2
  rcases sh_met hm hd with ⟨rfl, rfl⟩ | ⟨rfl, rfl⟩
  all_goals
    simp only [shOwn, List.mem_cons, List.not_mem_nil, or_false] at hd'
    rcases hd' with rfl | rfl
  · exact absurd rfl hne
  · cases h1; cases h3
    decide +kernel
  · cases h1; cases h3
    decide +kernel
  · exact absurd rfl hne

/-- Non-vacuity of `createVPS_eq_partial`. -/
example : ∃ made os after, createVPS shHolder "ldp_vp" shOwn shWallet = .ok (made, os, after) ∧
    createVP shHolder "ldp_vp" shOwn shWallet = .ok (made, os) ∧
    made.creds.map shClaims = [("c1", ["x", "n"]), ("c2", ["y"])] := by
  have h : shShort (createVPS shHolder "ldp_vp" shOwn shWallet) =
    some ([("c1", ["x", "n"]), ("c2", ["y"])], ["a", "b"], [("c1", ["x", "n"]), ("c2", ["y"]), ("c3", ["n"])]) := by
    decide +kernel
  have e := createVPS_eq_partial sh_keeps sh_one_use sh_undisturbed "ldp_vp"
  cases hc : createVPS shHolder "ldp_vp" shOwn shWallet with
  | ok r =>
    obtain ⟨made, os, after⟩ := r
    rw [hc] at h e
    simp only [shShort, Option.some.injEq, Prod.mk.injEq] at h
    exact ⟨made, os, after, rfl, e.symm, h.1⟩
  | error => rw [hc] at h; cases h
  | noCredentials => rw [hc] at h; cases h
  | panic => rw [hc] at h; cases h

end VC.PE
