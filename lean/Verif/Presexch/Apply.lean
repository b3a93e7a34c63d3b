import Verif.Presexch.Iterator
import Verif.Presexch.RequirementProps
import Verif.Base.GoMap
/-!
# Finding credentials for a definition: `applyRequirement` (C22)

The evaluation of one descriptor (`filterCredentialsThatMatchDescriptor` followed by
`limitDisclosure`, definition.go:786-796) is a parameter `eval` of this file: it gives the VP format
and the credentials left, or an error.  It is a function of the descriptor ID because the IDs of a
definition are distinct.  `frameCreds` runs before the loop and is part of the input.
-/

namespace VC.PE

variable {ε α : Type}

/-- What `applyRequirement` can return; `panic` is a nil dereference, `fuel` an unfinished loop (both
proved impossible below). -/
inductive Outcome (ε β : Type) where
  | ok (v : β)
  | fail (e : ε)
  | noCredentials
  | panic
  | fuel
  deriving DecidableEq

/-- The state of the loop: `evaluated` and `descriptorMatches`, definition.go:766-768. -/
structure AState (α : Type) where
  evaluated : List String
  found : GoMap (String × List α)

/-- The loop over one solution, definition.go:776-813: `solved`, `excludeDescriptors`, new state. -/
def evalSol (eval : String → Except ε (String × List α)) :
    List String → AState α → Except ε (Bool × List String × AState α)
  | [], st => .ok (true, [], st)
  | d :: ds, st =>
    if st.evaluated.contains d then
      match GoMap.get? st.found d with
      | none => .ok (false, [], st)
      | some _ => evalSol eval ds st
    else
      match eval d with
      | .error e => .error e
      | .ok (f, cs) =>
        if cs.length ≠ 0 then
          evalSol eval ds ⟨d :: st.evaluated, GoMap.set st.found d (f, cs)⟩
        else .ok (false, [d], ⟨d :: st.evaluated, st.found⟩)

/-- The result for a solution, definition.go:815-831; `none`: nil dereference. -/
def collectSol (found : GoMap (String × List α)) :
    List String → String → GoMap (List α) → Option (String × GoMap (List α))
  | [], fmt, res => some (fmt, res)
  | d :: ds, fmt, res =>
    match GoMap.get? found d with
    | none => none
    | some (f, cs) => collectSol found ds (if f ≠ "" then f else fmt) (GoMap.set res d cs)

/-- The loop over the solutions, definition.go:772-835. -/
def applyLoop (eval : String → Except ε (String × List α)) (defaultFmt : String) :
    Nat → Iter → List String → AState α → Outcome ε (String × GoMap (List α))
  | 0, _, _, _ => .fuel
  | n + 1, it, ex, st =>
    if (it.next ex).1.isEmpty then .noCredentials
    else
      match evalSol eval (it.next ex).1 st with
      | .error e => .fail e
      | .ok (true, _, st') =>
        match collectSol st'.found (it.next ex).1 defaultFmt [] with
        | none => .panic
        | some r => .ok r
      | .ok (false, ex', st') => applyLoop eval defaultFmt n (it.next ex).2 ex' st'

/-- `applyRequirement`, definition.go:739-834.  `ids` are the IDs of the input descriptors. -/
def applyReq (eval : String → Except ε (String × List α)) (defaultFmt : String) (req : Req)
    (ids : List String) : Outcome ε (String × GoMap (List α)) :=
  match newIter req.toLogic ids with
  | none => .panic
  | some it => applyLoop eval defaultFmt (2 ^ it.descs.length + 1) it [] ⟨[], []⟩

/-! ## Specification -/

/-- The descriptor has at least one matching credential. -/
def Matched (eval : String → Except ε (String × List α)) (d : String) (cs : List α) : Prop :=
  ∃ f, eval d = .ok (f, cs) ∧ cs ≠ []

/-- The format of the presentation: the last format given by a descriptor of the solution. -/
def lastFormat (eval : String → Except ε (String × List α)) (dflt : String) :
    List String → String
  | [] => dflt
  | d :: ds =>
    lastFormat eval (match eval d with | .ok (f, _) => if f = "" then dflt else f | .error _ => dflt) ds

/-! ## Proofs -/

/-- Invariant of the loop; `X` are the descriptors excluded so far (or to be excluded next). -/
structure AInv (eval : String → Except ε (String × List α)) (X : List String) (st : AState α) :
    Prop where
  found : ∀ d v, GoMap.get? st.found d = some v → eval d = .ok v ∧ v.2 ≠ []
  seen : ∀ d ∈ st.evaluated, d ∉ X → ∃ v, GoMap.get? st.found d = some v
  bad : ∀ d ∈ X, ∃ f, eval d = .ok (f, [])

theorem evalSol_ok (eval : String → Except ε (String × List α)) {X : List String} :
    ∀ (S : List String) (st : AState α), AInv eval X st → (∀ d ∈ S, d ∉ X) →
    (∃ e, evalSol eval S st = .error e ∧ ∃ d ∈ S, eval d = .error e) ∨
    (∃ st', evalSol eval S st = .ok (true, [], st') ∧ AInv eval X st' ∧
      ∀ d ∈ S, ∃ v, GoMap.get? st'.found d = some v) ∨
    (∃ st' d, evalSol eval S st = .ok (false, [d], st') ∧ d ∈ S ∧ AInv eval (X ++ [d]) st')
  | [], st, hi, _ => Or.inr (Or.inl ⟨st, rfl, hi, by simp⟩)
  | d :: ds, st, hi, hX => by
    have hX' : ∀ d ∈ ds, d ∉ X := fun x hx => hX x (List.mem_cons_of_mem _ hx)
    simp only [evalSol]
    by_cases hc : st.evaluated.contains d = true
    · rw [if_pos hc]
      obtain ⟨v, hv⟩ := hi.seen d (by simpa using hc) (hX d (by simp))
      rw [hv]
      dsimp only
      -- the match found for `d` stays
      have keep : ∀ (S : List String) (st st' : AState α) b ex, evalSol eval S st = .ok (b, ex, st') →
          ∀ d v, d ∈ st.evaluated → GoMap.get? st.found d = some v →
            GoMap.get? st'.found d = some v := by
        intro S
        induction S with
        | nil =>
          intro st st' b ex h d v _ hv
          simp only [evalSol, Except.ok.injEq, Prod.mk.injEq] at h
          rw [← h.2.2]; exact hv
        | cons x xs ih =>
          intro st st' b ex h d v hd hv
          simp only [evalSol] at h
          split at h
          · split at h
            · simp only [Except.ok.injEq, Prod.mk.injEq] at h; rw [← h.2.2]; exact hv
            · exact ih st st' b ex h d v hd hv
          · next hne =>
            split at h
            · cases h
            · split at h
              · refine ih _ st' b ex h d v (List.mem_cons_of_mem _ hd) ?_
                rw [GoMap.get?_set_ne]
                · exact hv
                · rintro rfl; exact hne (by simpa using hd)
              · simp only [Except.ok.injEq, Prod.mk.injEq] at h; rw [← h.2.2]; exact hv
      rcases evalSol_ok eval ds st hi hX' with ⟨e, h1, x, hx, h2⟩ | ⟨st', h1, h2, h3⟩ | ⟨st', x, h1, h2, h3⟩
      · exact Or.inl ⟨e, h1, x, List.mem_cons_of_mem _ hx, h2⟩
      · refine Or.inr (Or.inl ⟨st', h1, h2, ?_⟩)
        intro x hx
        rcases List.mem_cons.mp hx with rfl | hx
        · exact ⟨v, keep _ _ _ _ _ h1 _ _ (by simpa using hc) hv⟩
        · exact h3 x hx
      · exact Or.inr (Or.inr ⟨st', x, h1, List.mem_cons_of_mem _ h2, h3⟩)
    · rw [if_neg hc]
      cases he : eval d with
      | error e => exact Or.inl ⟨e, rfl, d, by simp, he⟩
      | ok p =>
        obtain ⟨f, cs⟩ := p
        dsimp only
        by_cases hl : cs.length ≠ 0
        · rw [if_pos hl]
          have hi' : AInv eval X ⟨d :: st.evaluated, GoMap.set st.found d (f, cs)⟩ := by
            refine ⟨?_, ?_, hi.bad⟩
            · intro x v hx
              dsimp only at hx
              rw [GoMap.get?_set] at hx
              split at hx
              · next e => cases hx; subst e; exact ⟨he, by rintro rfl; simp at hl⟩
              · exact hi.found x v hx
            · intro x hx hxX
              dsimp only at hx ⊢
              rw [GoMap.get?_set]
              split
              · exact ⟨_, rfl⟩
              · next hne =>
                rcases List.mem_cons.mp hx with rfl | hx
                · exact absurd rfl hne
                · exact hi.seen x hx hxX
          rcases evalSol_ok eval ds _ hi' hX' with
            ⟨e, h1, x, hx, h2⟩ | ⟨st', h1, h2, h3⟩ | ⟨st', x, h1, h2, h3⟩
          · exact Or.inl ⟨e, h1, x, List.mem_cons_of_mem _ hx, h2⟩
          · refine Or.inr (Or.inl ⟨st', h1, h2, ?_⟩)
            intro x hx
            rcases List.mem_cons.mp hx with rfl | hx
            · -- `d` is evaluated in st', hence found
              have mono : ∀ (S : List String) (st st' : AState α) b ex,
                  evalSol eval S st = .ok (b, ex, st') → ∀ y ∈ st.evaluated, y ∈ st'.evaluated := by
                intro S
                induction S with
                | nil =>
                  intro st st' b ex h y hy
                  simp only [evalSol, Except.ok.injEq, Prod.mk.injEq] at h
                  rw [← h.2.2]; exact hy
                | cons z zs ih =>
                  intro st st' b ex h y hy
                  simp only [evalSol] at h
                  split at h
                  · split at h
                    · simp only [Except.ok.injEq, Prod.mk.injEq] at h; rw [← h.2.2]; exact hy
                    · exact ih _ _ _ _ h y hy
                  · split at h
                    · cases h
                    · split at h
                      · exact ih _ _ _ _ h y (List.mem_cons_of_mem _ hy)
                      · simp only [Except.ok.injEq, Prod.mk.injEq] at h
                        rw [← h.2.2]; exact List.mem_cons_of_mem _ hy
              exact h2.seen x (mono _ _ _ _ _ h1 x (by simp)) (hX x (by simp))
            · exact h3 x hx
          · exact Or.inr (Or.inr ⟨st', x, h1, List.mem_cons_of_mem _ h2, h3⟩)
        · rw [if_neg hl]
          have hnil : cs = [] := by simpa using hl
          refine Or.inr (Or.inr ⟨_, d, rfl, by simp, ?_⟩)
          refine ⟨hi.found, ?_, ?_⟩
          · intro x hx hxX
            dsimp only at hx ⊢
            rcases List.mem_cons.mp hx with rfl | hx
            · exact absurd (by simp) hxX
            · exact hi.seen x hx (fun hm => hxX (List.mem_append_left _ hm))
          · intro x hx
            rcases List.mem_append.mp hx with hx | hx
            · exact hi.bad x hx
            · simp only [List.mem_singleton] at hx
              subst hx; exact ⟨f, by rw [he, hnil]⟩

theorem collectSol_ok (eval : String → Except ε (String × List α)) {found : GoMap (String × List α)}
    (hf : ∀ d v, GoMap.get? found d = some v → eval d = .ok v ∧ v.2 ≠ []) :
    ∀ (S : List String) (fmt : String) (res : GoMap (List α)), S.Nodup →
    (∀ d ∈ S, ∃ v, GoMap.get? found d = some v) → (∀ d ∈ S, GoMap.get? res d = none) →
    ∃ m, collectSol found S fmt res = some (lastFormat eval fmt S, m) ∧
      GoMap.keys m = GoMap.keys res ++ S ∧
      (∀ d ∈ S, ∃ cs, Matched eval d cs ∧ GoMap.get? m d = some cs) ∧
      (∀ d, d ∉ S → GoMap.get? m d = GoMap.get? res d)
  | [], fmt, res, _, _, _ => ⟨res, rfl, by simp, by simp, fun _ _ => rfl⟩
  | d :: ds, fmt, res, hn, h, hres => by
    obtain ⟨⟨f, cs⟩, hv⟩ := h d (by simp)
    obtain ⟨he, hne⟩ := hf d _ hv
    rw [List.nodup_cons] at hn
    have hdk : d ∉ GoMap.keys res := GoMap.get?_eq_none_iff.mp (hres d (by simp))
    obtain ⟨m, h1, h2, h3, h4⟩ := collectSol_ok eval hf ds (if f ≠ "" then f else fmt)
      (GoMap.set res d cs) hn.2 (fun x hx => h x (List.mem_cons_of_mem _ hx))
      (by
        intro x hx
        rw [GoMap.get?_set_ne _ _ (by rintro rfl; exact hn.1 hx)]
        exact hres x (List.mem_cons_of_mem _ hx))
    refine ⟨m, ?_, ?_, ?_, ?_⟩
    · simp only [collectSol, hv]
      rw [h1]
      simp only [lastFormat, he]
      by_cases hfe : f = "" <;> simp [hfe]
    · rw [h2, GoMap.keys_set]
      simp [hdk]
    · intro x hx
      rcases List.mem_cons.mp hx with rfl | hx
      · refine ⟨cs, ⟨f, he, hne⟩, ?_⟩
        rw [h4 x hn.1, GoMap.get?_set_self]
      · exact h3 x hx
    · intro x hx
      simp only [List.mem_cons, not_or] at hx
      rw [h4 x hx.2, GoMap.get?_set_ne _ _ (Ne.symm hx.1)]

/-- What the loop returns. -/
def ApplySpec (L : Logic) (D : List String) (eval : String → Except ε (String × List α))
    (dflt : String) : Outcome ε (String × GoMap (List α)) → Prop
  | .ok (fmt, m) => ∃ S, S.Sublist D ∧ S ≠ [] ∧ L.sat S = true ∧ GoMap.keys m = S ∧
      (∀ d ∈ S, ∃ cs, Matched eval d cs ∧ GoMap.get? m d = some cs) ∧ fmt = lastFormat eval dflt S
  | .fail e => ∃ d ∈ D, eval d = .error e
  | .noCredentials => ∀ S, S.Sublist D → S ≠ [] → L.sat S = true →
      ∃ d ∈ S, ∀ cs, ¬ Matched eval d cs
  | .panic => False
  | .fuel => False

theorem applyLoop_ok {L : Logic} {D : List String} (hD : D.Nodup)
    (eval : String → Except ε (String × List α)) (dflt : String) :
    ∀ (n : Nat) (it : Iter) (Y : List (List String)) (X ex : List String) (st : AState α),
    Trace L D it Y X → Respects D Y X ex → AInv eval (X ++ ex) st →
    (∀ S ∈ Y, ∃ d ∈ S, d ∈ X ++ ex) → 2 ^ D.length ≤ Y.length + n →
    ApplySpec L D eval dflt (applyLoop eval dflt n it ex st) := by
  intro n
  induction n with
  | zero =>
    intro it Y X ex st ht _ _ _ hl
    have := yields_bounded hD ht
    omega
  | succ n ih =>
    intro it Y X ex st ht hr hi hY hl
    simp only [applyLoop]
    by_cases he : (it.next ex).1 = []
    · rw [if_pos (by simp [he])]
      intro S h1 h2 h3
      by_contra hcon
      have hc := (end_complete hD ht hr (it' := (it.next ex).2) (Prod.ext he rfl)).1 S h1 h2 h3
      by_cases hav : ∀ d ∈ X ++ ex, d ∉ S
      · obtain ⟨d, hd, hx⟩ := hY S (hc hav)
        exact hav d hx hd
      · push Not at hav
        obtain ⟨d, hx, hd⟩ := hav
        refine hcon ⟨d, hd, ?_⟩
        rintro cs ⟨f, h5, h6⟩
        obtain ⟨g, hg⟩ := hi.bad d hx
        rw [hg] at h5
        cases h5
        exact h6 rfl
    · rw [if_neg (by simpa using he)]
      have ht' := Trace.next ht hr (S := (it.next ex).1) (it' := (it.next ex).2) rfl he
      obtain ⟨k1, k2, k3, k4⟩ := next_ok hD ht hr (S := (it.next ex).1) (it' := (it.next ex).2) rfl he
      rcases evalSol_ok eval (it.next ex).1 st hi (fun d hd hx => k3 d hx hd) with
        ⟨e, h1, d, hd, h2⟩ | ⟨st', h1, h2, h3⟩ | ⟨st', d, h1, h2, h3⟩
      · rw [h1]; exact ⟨d, k2.subset hd, h2⟩
      · rw [h1]
        dsimp only
        obtain ⟨m, c1, c2, c3, _⟩ := collectSol_ok eval h2.found (it.next ex).1 dflt []
          (hD.sublist k2) h3 (by simp)
        rw [c1]
        exact ⟨(it.next ex).1, k2, he, k1, by simpa [GoMap.keys] using c2, c3, rfl⟩
      · rw [h1]
        dsimp only
        refine ih _ _ (X ++ ex) [d] st' ht' ?_ h3 ?_ ?_
        · intro x hx _
          simp only [List.mem_singleton] at hx
          subst hx
          exact Or.inl (by simpa using h2)
        · intro S hS
          rcases List.mem_append.mp hS with hS | hS
          · obtain ⟨x, hx, hxX⟩ := hY S hS
            exact ⟨x, hx, List.mem_append_left _ hxX⟩
          · simp only [List.mem_singleton] at hS
            subst hS
            exact ⟨d, h2, by simp⟩
        · simp only [List.length_append, List.length_cons, List.length_nil]; omega

mutual
/-- The groups a submission requirement asks for. -/
def SubReq.groups : SubReq → List String
  | .mk _ _ _ _ src fromNested => if src ≠ "" then [src] else groupsL fromNested
/-- The groups a list of submission requirements asks for. -/
def groupsL : List SubReq → List String
  | [] => []
  | s :: ss => s.groups ++ groupsL ss
end

/-- The IDs of the descriptors that a definition asks for: those of the groups named by its
submission requirements; without submission requirements, all. -/
def Asked (srs : List SubReq) (ds : List Desc) (id : String) : Prop :=
  ∃ d ∈ ds, d.id = id ∧ (srs = [] ∨ ∃ g ∈ groupsL srs, g ∈ d.group)

mutual
theorem toReq_descs {ds : List Desc} : ∀ (sr : SubReq) (r : Req), toReq ds sr = some r → ∀ i,
    (i ∈ r.toLogic.allDescs ↔ ∃ d ∈ ds, d.id = i ∧ ∃ g ∈ sr.groups, g ∈ d.group)
  | .mk all count mi ma src fn, r, h, i => by
    simp only [toReq] at h
    simp only [SubReq.groups]
    split at h
    · next hs =>
      rw [if_pos hs]
      split at h
      · cases h
      · simp only [Option.some.injEq] at h
        subst h
        simp only [Req.toLogic, toLogics, Logic.allDescs, List.isEmpty_nil, if_true, List.mem_map,
          List.mem_filter, List.contains_iff_mem, List.mem_singleton, exists_eq_left]
        constructor
        · rintro ⟨d, ⟨h1, h2⟩, h3⟩; exact ⟨d, h1, h3, h2⟩
        · rintro ⟨d, h1, h3, h2⟩; exact ⟨d, ⟨h1, h2⟩, h3⟩
    · next hs =>
      rw [if_neg hs]
      cases hr : toReqs ds fn with
      | none => rw [hr] at h; cases h
      | some rs =>
        rw [hr] at h
        simp only [Option.map_some, Option.some.injEq] at h
        subst h
        rw [← toReqs_descs fn rs hr i]
        simp only [Req.toLogic, Logic.allDescs]
        cases rs with
        | nil => simp [toLogics, allDescsL]
        | cons a as => simp [toLogics]
theorem toReqs_descs {ds : List Desc} : ∀ (ss : List SubReq) (rs : List Req), toReqs ds ss = some rs →
    ∀ i, (i ∈ allDescsL (toLogics rs) ↔ ∃ d ∈ ds, d.id = i ∧ ∃ g ∈ groupsL ss, g ∈ d.group)
  | [], rs, h, i => by
    simp only [toReqs, Option.some.injEq] at h
    subst h
    simp [toLogics, allDescsL, groupsL]
  | s :: ss, rs, h, i => by
    simp only [toReqs] at h
    cases h1 : toReq ds s with
    | none => rw [h1] at h; cases h
    | some r =>
      rw [h1] at h
      dsimp only at h
      cases h2 : toReqs ds ss with
      | none => rw [h2] at h; cases h
      | some rs' =>
        rw [h2] at h
        simp only [Option.map_some, Option.some.injEq] at h
        subst h
        simp only [toLogics, allDescsL, List.mem_append, groupsL]
        rw [toReq_descs s r h1 i, toReqs_descs ss rs' h2 i]
        constructor
        · rintro (⟨d, a, b, g, c, e⟩ | ⟨d, a, b, g, c, e⟩)
          · exact ⟨d, a, b, g, Or.inl c, e⟩
          · exact ⟨d, a, b, g, Or.inr c, e⟩
        · rintro ⟨d, a, b, g, c | c, e⟩
          · exact Or.inl ⟨d, a, b, g, c, e⟩
          · exact Or.inr ⟨d, a, b, g, c, e⟩
end

theorem makeReq_descs {srs : List SubReq} {ds : List Desc} {r : Req} (h : makeReq srs ds = some r)
    (i : String) : i ∈ r.toLogic.allDescs ↔ Asked srs ds i := by
  unfold makeReq at h
  unfold Asked
  split at h
  · next hl =>
    have hs : srs = [] := List.length_eq_zero_iff.mp hl
    simp only [Option.some.injEq] at h
    subst h
    simp [Req.toLogic, toLogics, Logic.allDescs, hs]
  · next hl =>
    have hs : srs ≠ [] := fun e => hl (by simp [e])
    cases h2 : toReqs ds srs with
    | none => rw [h2] at h; cases h
    | some rs =>
      rw [h2] at h
      simp only [Option.map_some, Option.some.injEq] at h
      subst h
      simp only [hs, false_or]
      rw [← toReqs_descs srs rs h2 i]
      simp only [Req.toLogic, Logic.allDescs]
      cases rs with
      | nil => simp [toLogics, allDescsL]
      | cons a as => simp [toLogics]

/-- `presentationData` up to the merge, definition.go:551-566 (after schema validation). -/
def solveDefinition (eval : String → Except ε (String × List α)) (dflt : String)
    (srs : List SubReq) (ds : List Desc) : Option (Outcome ε (String × GoMap (List α))) :=
  (makeReq srs ds).map (fun r => applyReq eval dflt r (ds.map Desc.id))

/-- A solution of a definition: a non-empty set of the descriptors it asks for that satisfies its
requirements, each with at least one matching credential. -/
structure Solution (eval : String → Except ε (String × List α)) (srs : List SubReq)
    (ds : List Desc) (S : List String) : Prop where
  nonempty : S ≠ []
  asked : ∀ d ∈ S, Asked srs ds d
  sat : DefSat srs ds S
  matched : ∀ d ∈ S, ∃ cs, Matched eval d cs

mutual
theorem sat_congr {S T : List String} : ∀ (l : Logic), (∀ i ∈ l.allDescs, i ∈ S ↔ i ∈ T) →
    l.sat S = l.sat T
  | .mk ids nested c mi ma, h => by
    simp only [Logic.sat]
    cases nested with
    | nil =>
      simp only [List.isEmpty_nil, if_true]
      congr 3
      apply List.filter_congr
      intro i hi
      have := h i (by simpa [Logic.allDescs] using hi)
      rw [Bool.eq_iff_iff, List.contains_iff_mem, List.contains_iff_mem]
      exact this
    | cons a as =>
      simp only [List.isEmpty_cons, Bool.false_eq_true, if_false]
      rw [countSat_congr (a :: as) (fun i hi => h i (by simpa [Logic.allDescs] using hi))]
theorem countSat_congr {S T : List String} : ∀ (ls : List Logic),
    (∀ i ∈ allDescsL ls, i ∈ S ↔ i ∈ T) → countSat S ls = countSat T ls
  | [], _ => rfl
  | l :: ls, h => by
    simp only [allDescsL, List.mem_append] at h
    simp only [countSat]
    rw [sat_congr l (fun i hi => h i (Or.inl hi)), countSat_congr ls (fun i hi => h i (Or.inr hi))]
end

/-- **C22.** Matching a definition with distinct descriptor IDs: the result maps a solution's
descriptors to all their matching credentials (and the format is the last one they give); an error is
one of evaluating a descriptor; "no credentials" is returned only if there is no solution; and
nothing else can happen. -/
theorem solveDefinition_ok {srs : List SubReq} {ds : List Desc} (hn : (ds.map Desc.id).Nodup)
    (eval : String → Except ε (String × List α)) (dflt : String)
    {o : Outcome ε (String × GoMap (List α))} (h : solveDefinition eval dflt srs ds = some o) :
    (∃ fmt m, o = .ok (fmt, m) ∧ Solution eval srs ds (GoMap.keys m) ∧ GoMap.WF m ∧
      (∀ d cs, GoMap.get? m d = some cs → Matched eval d cs) ∧
      fmt = lastFormat eval dflt (GoMap.keys m)) ∨
    (∃ e d, o = .fail e ∧ Asked srs ds d ∧ eval d = .error e) ∨
    (o = .noCredentials ∧ ¬ ∃ S, Solution eval srs ds S) := by
  unfold solveDefinition at h
  cases hm : makeReq srs ds with
  | none => rw [hm] at h; cases h
  | some r =>
    rw [hm] at h
    simp only [Option.map_some, Option.some.injEq] at h
    subst h
    have hcov : ∀ d ∈ r.toLogic.allDescs, d ∈ ds.map Desc.id := by
      intro d hd
      obtain ⟨x, hx, rfl, _⟩ := (makeReq_descs hm d).mp hd
      exact List.mem_map_of_mem hx
    unfold applyReq
    rw [newIter_fresh hn hcov]
    dsimp only
    generalize hDe : (ds.map Desc.id).filter (fun d => r.toLogic.allDescs.contains d) = D
    have hD : D.Nodup := by rw [← hDe]; exact hn.filter _
    have hmemD : ∀ i, i ∈ D ↔ Asked srs ds i := by
      intro i
      rw [← makeReq_descs hm i, ← hDe]
      simp only [List.mem_filter, List.contains_iff_mem]
      exact ⟨fun h => h.2, fun h => ⟨hcov i h, h⟩⟩
    have key := applyLoop_ok hD eval dflt (2 ^ D.length + 1) (Iter.fresh r.toLogic D) [] [] []
      ⟨[], []⟩ Trace.start (by intro d hd; cases hd)
      ⟨by simp, by simp, by simp⟩ (by simp) (by simp)
    change ApplySpec r.toLogic D eval dflt
      (applyLoop eval dflt (2 ^ (Iter.fresh r.toLogic D).descs.length + 1)
        (Iter.fresh r.toLogic D) [] ⟨[], []⟩) at key
    revert key
    generalize applyLoop eval dflt (2 ^ (Iter.fresh r.toLogic D).descs.length + 1)
      (Iter.fresh r.toLogic D) [] ⟨[], []⟩ = o
    intro key
    cases o with
    | ok p =>
      obtain ⟨fmt, m⟩ := p
      obtain ⟨S, h1, h2, h3, h4, h5, h6⟩ := key
      subst h4
      refine Or.inl ⟨fmt, m, rfl, ⟨h2, ?_, (requirement_semantics hn hm _).mp h3, ?_⟩, hD.sublist h1,
        ?_, h6⟩
      · exact fun d hd => (hmemD d).mp (h1.subset hd)
      · exact fun d hd => (h5 d hd).imp fun _ h => h.1
      · intro d cs hg
        have hk : d ∈ GoMap.keys m := GoMap.get?_isSome_iff.mp (by rw [hg]; rfl)
        obtain ⟨cs', c1, c2⟩ := h5 d hk
        rw [hg] at c2
        cases c2
        exact c1
    | fail e =>
      obtain ⟨d, hd, he⟩ := key
      exact Or.inr (Or.inl ⟨e, d, rfl, (hmemD d).mp hd, he⟩)
    | noCredentials =>
      refine Or.inr (Or.inr ⟨rfl, ?_⟩)
      rintro ⟨S, h1, h2, h3, h4⟩
      -- the sublist of `D` with the elements of `S`
      have hmem : ∀ i, i ∈ D.filter (fun d => S.contains d) ↔ i ∈ S := by
        intro i
        simp only [List.mem_filter, List.contains_iff_mem]
        exact ⟨fun h => h.2, fun h => ⟨(hmemD i).mpr (h2 i h), h⟩⟩
      have hsat : r.toLogic.sat (D.filter (fun d => S.contains d)) = true := by
        rw [sat_congr (T := S) _ (fun i _ => hmem i)]
        exact (requirement_semantics hn hm S).mpr h3
      obtain ⟨d, hd, hno⟩ := key _ List.filter_sublist (by
        intro he
        obtain ⟨x, hx⟩ := List.exists_mem_of_ne_nil S h1
        have := (hmem x).mpr hx
        rw [he] at this; cases this) hsat
      obtain ⟨cs, hcs⟩ := h4 d ((hmem d).mp hd)
      exact hno cs hcs
    | panic => exact key.elim
    | fuel => exact key.elim

/-- **C22**, as an equivalence: if no descriptor fails to evaluate, a result is returned exactly when
the definition has a solution. -/
theorem solveDefinition_iff {srs : List SubReq} {ds : List Desc} (hn : (ds.map Desc.id).Nodup)
    (eval : String → Except ε (String × List α)) (dflt : String)
    {o : Outcome ε (String × GoMap (List α))} (h : solveDefinition eval dflt srs ds = some o)
    (hok : ∀ d, Asked srs ds d → ∃ v, eval d = .ok v) :
    (∃ fmt m, o = .ok (fmt, m)) ↔ ∃ S, Solution eval srs ds S := by
  rcases solveDefinition_ok hn eval dflt h with ⟨fmt, m, rfl, hs, _⟩ | ⟨e, d, rfl, ha, he⟩ | ⟨rfl, hno⟩
  · exact ⟨fun _ => ⟨_, hs⟩, fun _ => ⟨fmt, m, rfl⟩⟩
  · obtain ⟨v, hv⟩ := hok d ha
    rw [hv] at he; cases he
  · constructor
    · rintro ⟨_, _, h⟩; cases h
    · intro h; exact absurd h hno

/-! ## Examples -/

/-- Three descriptors, two in group A, two in group B. -/
def apDescs : List Desc := [⟨"a", ["A"]⟩, ⟨"b", ["A", "B"]⟩, ⟨"c", ["B"]⟩]

/-- One descriptor of A and all of B. -/
def apReqs : List SubReq := [.mk false 1 0 0 "A" [], .mk true 0 0 0 "B" []]

/-- `a` has no matching credential. -/
def apEval (d : String) : Except Unit (String × List Nat) :=
  if d = "a" then .ok ("", []) else if d = "b" then .ok ("ldp_vp", [1]) else .ok ("", [2, 3])

/-- The search gets past `a` and finds `b` and `c`. -/
example : solveDefinition apEval "jwt_vp" apReqs apDescs =
    some (.ok ("ldp_vp", [("b", [1]), ("c", [2, 3])])) := by
  decide +kernel

/-- With no credential for `c` there is no solution. -/
example : solveDefinition (fun d => if d = "c" then .ok ("", []) else apEval d) "jwt_vp"
    apReqs apDescs = some .noCredentials := by
  decide +kernel

/-- A requirement that the empty set satisfies is still not met by no descriptor at all. -/
example : solveDefinition (α := Nat) (ε := Unit) (fun _ => .ok ("", [])) "jwt_vp"
    [.mk false 0 0 1 "A" []] apDescs = some .noCredentials ∧
    DefSat [.mk false 0 0 1 "A" []] apDescs [] := by
  refine ⟨by decide +kernel, ?_⟩
  simp [DefSat, SubReq.Sat, Bounds]

end VC.PE
