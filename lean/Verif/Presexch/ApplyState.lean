import Verif.Presexch.Apply
/-!
# `applyRequirement` with shared credentials (C22, C59)

Evaluating a descriptor with `limit_disclosure` on an SD-JWT credential replaces the disclosures of
that very credential (definition.go:1110-1121, `SetSDJWTDisclosures`, credential.go:1050-1058), and
the same credentials are used for the next descriptor.  Here the evaluation of a descriptor acts on a
state `σ` (the credentials).  When it does not depend on that state the search is the one of
`Apply.lean`; when it does, a solution can be missed (`shared_sdjwt_no_solution`).
-/

namespace VC.PE

variable {ε α σ : Type}

/-- The loop over one solution with the state of the credentials, definition.go:776-813. -/
def evalSolS (eval : σ → String → Except ε ((String × List α) × σ)) :
    List String → AState α → σ → Except ε (Bool × List String × AState α × σ)
  | [], st, s => .ok (true, [], st, s)
  | d :: ds, st, s =>
    if st.evaluated.contains d then
      match GoMap.get? st.found d with
      | none => .ok (false, [], st, s)
      | some _ => evalSolS eval ds st s
    else
      match eval s d with
      | .error e => .error e
      | .ok ((f, cs), s') =>
        if cs.length ≠ 0 then
          evalSolS eval ds ⟨d :: st.evaluated, GoMap.set st.found d (f, cs)⟩ s'
        else .ok (false, [d], ⟨d :: st.evaluated, st.found⟩, s')

/-- The loop over the solutions, definition.go:772-835; also returns the credentials as they are left
behind. -/
def applyLoopS (eval : σ → String → Except ε ((String × List α) × σ)) (defaultFmt : String) :
    Nat → Iter → List String → AState α → σ → Outcome ε (String × GoMap (List α)) × σ
  | 0, _, _, _, s => (.fuel, s)
  | n + 1, it, ex, st, s =>
    if (it.next ex).1.isEmpty then (.noCredentials, s)
    else
      match evalSolS eval (it.next ex).1 st s with
      | .error e => (.fail e, s)
      | .ok (true, _, st', s') =>
        match collectSol st'.found (it.next ex).1 defaultFmt [] with
        | none => (.panic, s')
        | some r => (.ok r, s')
      | .ok (false, ex', st', s') => applyLoopS eval defaultFmt n (it.next ex).2 ex' st' s'

/-- `presentationData` up to the merge, definition.go:551-566 with definition.go:739-838. -/
def solveDefinitionS (eval : σ → String → Except ε ((String × List α) × σ)) (dflt : String)
    (srs : List SubReq) (ds : List Desc) (s : σ) :
    Option (Outcome ε (String × GoMap (List α)) × σ) :=
  (makeReq srs ds).map (fun r =>
    match newIter r.toLogic (ds.map Desc.id) with
    | none => (.panic, s)
    | some it => applyLoopS eval dflt (2 ^ it.descs.length + 1) it [] ⟨[], []⟩ s)

/-- What a descriptor matches does not depend on which descriptors were evaluated before it. -/
def Stateless (eval : σ → String → Except ε ((String × List α) × σ))
    (f : String → Except ε (String × List α)) : Prop :=
  ∀ s d, (∀ v, f d = .ok v → ∃ s', eval s d = .ok (v, s')) ∧ (∀ e, f d = .error e → eval s d = .error e)

theorem evalSolS_eq {eval : σ → String → Except ε ((String × List α) × σ)}
    {f : String → Except ε (String × List α)} (h : Stateless eval f) :
    ∀ (S : List String) (st : AState α) (s : σ),
    (∀ e, evalSol f S st = .error e → evalSolS eval S st s = .error e) ∧
    (∀ b ex st', evalSol f S st = .ok (b, ex, st') → ∃ s', evalSolS eval S st s = .ok (b, ex, st', s'))
  | [], st, s => by
    simp only [evalSol, evalSolS]
    refine ⟨by simp, ?_⟩
    intro b ex st' h
    simp only [Except.ok.injEq, Prod.mk.injEq] at h
    obtain ⟨rfl, rfl, rfl⟩ := h
    exact ⟨s, rfl⟩
  | d :: ds, st, s => by
    simp only [evalSol, evalSolS]
    split
    · cases hg : GoMap.get? st.found d with
      | none =>
        dsimp only
        refine ⟨by simp, ?_⟩
        intro b ex st' h
        simp only [Except.ok.injEq, Prod.mk.injEq] at h
        obtain ⟨rfl, rfl, rfl⟩ := h
        exact ⟨s, rfl⟩
      | some v => exact evalSolS_eq h ds st s
    · cases hf : f d with
      | error e =>
        rw [(h s d).2 e hf]
        dsimp only
        exact ⟨fun e' he => by cases he; rfl, by simp⟩
      | ok v =>
        obtain ⟨s', hs⟩ := (h s d).1 v hf
        obtain ⟨g, cs⟩ := v
        rw [hs]
        dsimp only
        split
        · exact evalSolS_eq h ds _ s'
        · refine ⟨by simp, ?_⟩
          intro b ex st' h
          simp only [Except.ok.injEq, Prod.mk.injEq] at h
          obtain ⟨rfl, rfl, rfl⟩ := h
          exact ⟨s', rfl⟩

theorem applyLoopS_eq {eval : σ → String → Except ε ((String × List α) × σ)}
    {f : String → Except ε (String × List α)} (h : Stateless eval f) (dflt : String) :
    ∀ (n : Nat) (it : Iter) (ex : List String) (st : AState α) (s : σ),
    (applyLoopS eval dflt n it ex st s).1 = applyLoop f dflt n it ex st := by
  intro n
  induction n with
  | zero => intros; rfl
  | succ n ih =>
    intro it ex st s
    simp only [applyLoopS, applyLoop]
    split
    · rfl
    · obtain ⟨h1, h2⟩ := evalSolS_eq h (it.next ex).1 st s
      cases he : evalSol f (it.next ex).1 st with
      | error e => rw [h1 e he]
      | ok v =>
        obtain ⟨b, ex', st'⟩ := v
        obtain ⟨s', hs⟩ := h2 b ex' st' he
        rw [hs]
        cases b
        · exact ih _ _ _ _
        · dsimp only
          cases collectSol st'.found (it.next ex).1 dflt [] <;> rfl

/-- **C22** for the code as it is (`_partial`: only when evaluating a descriptor does not disturb the
evaluation of the next ones, which `shared_sdjwt_no_solution` shows to be needed). -/
theorem solveDefinitionS_partial {srs : List SubReq} {ds : List Desc} (hn : (ds.map Desc.id).Nodup)
    {eval : σ → String → Except ε ((String × List α) × σ)}
    {f : String → Except ε (String × List α)} (hf : Stateless eval f) (dflt : String) (s s' : σ)
    {o : Outcome ε (String × GoMap (List α))}
    (h : solveDefinitionS eval dflt srs ds s = some (o, s')) :
    (∃ fmt m, o = .ok (fmt, m) ∧ Solution f srs ds (GoMap.keys m) ∧ GoMap.WF m ∧
      (∀ d cs, GoMap.get? m d = some cs → Matched f d cs) ∧
      fmt = lastFormat f dflt (GoMap.keys m)) ∨
    (∃ e d, o = .fail e ∧ Asked srs ds d ∧ f d = .error e) ∨
    (o = .noCredentials ∧ ¬ ∃ S, Solution f srs ds S) := by
  apply solveDefinition_ok hn f dflt
  unfold solveDefinitionS at h
  unfold solveDefinition
  cases hm : makeReq srs ds with
  | none => rw [hm] at h; cases h
  | some r =>
    rw [hm] at h
    simp only [Option.map_some, Option.some.injEq] at h ⊢
    unfold applyReq
    cases hi : newIter r.toLogic (ds.map Desc.id) with
    | none => rw [hi] at h; simp only [Prod.mk.injEq] at h; exact h.1
    | some it =>
      rw [hi] at h
      dsimp only at h ⊢
      rw [← applyLoopS_eq hf dflt _ it [] ⟨[], []⟩ s, h]

/-! ## One SD-JWT credential, two descriptors -/

/-- Evaluation of a descriptor that asks for the claim `field d` with `limit_disclosure: required`
over one SD-JWT credential whose state is the list of its disclosed claim names
(definition.go:939-1021 and 1104-1115, specialised): it matches if the claim is disclosed, and then
only that disclosure stays on the credential. -/
def sdEval (field : String → String) (s : List String) (d : String) :
    Except Unit ((String × List Nat) × List String) :=
  if s.contains (field d) then .ok (("", [0]), s.filter (fun n => n == field d)) else .ok (("", []), s)

/-- Two descriptors `a` and `b`, both required. -/
def sdDescs : List Desc := [⟨"a", []⟩, ⟨"b", []⟩]

/-- The claims asked for. -/
def sdField (d : String) : String := if d = "a" then "x" else "y"

instance : DecidableEq (Outcome Unit (String × GoMap (List Nat))) :=
  @instDecidableEqOutcome _ _ inferInstance (inferInstanceAs (DecidableEq (String × List (String × List Nat))))

/-- **C22/C59 violated.** One SD-JWT credential discloses the claims `x` and `y`; descriptor `a` asks
for `x`, descriptor `b` for `y`, both with limited disclosure.  On the credential as given, each
descriptor matches; but the search reports that there are no matching credentials, because evaluating
`a` removed the disclosure of `y`. -/
theorem shared_sdjwt_no_solution :
    solveDefinitionS (sdEval sdField) "jwt_vp" [] sdDescs ["x", "y"] =
      some (.noCredentials, ["x"]) ∧
    ∀ d ∈ ["a", "b"], sdEval sdField ["x", "y"] d =
      .ok (("", [0]), ["x", "y"].filter (fun n => n == sdField d)) := by
  refine ⟨?_, ?_⟩
  · decide +kernel
  intro d hd
  simp only [List.mem_cons, List.not_mem_nil, or_false] at hd
  rcases hd with rfl | rfl <;> rfl

/-- Non-vacuity of `solveDefinitionS_partial`: descriptors that leave the credentials alone. -/
example : Stateless (σ := Unit) (fun s d => (apEval d).map (fun v => (v, s))) apEval := by
  intro s d
  refine ⟨fun v h => ⟨s, by simp [h, Except.map]⟩, fun e h => by simp [h, Except.map]⟩

end VC.PE
