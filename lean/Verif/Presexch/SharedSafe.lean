import Verif.Presexch.Shared
/-!
# presexch: what sharing can do to the holder's credentials and what the presentation shows (C125)

Whatever the order in which descriptors are evaluated, and whichever were evaluated in vain: an SD-JWT
credential that is sent for a descriptor with limited disclosure shows no more than what limiting it for
that descriptor left, and the holder's credentials are only ever restricted.
-/

namespace VC.PE

/-! ## One cell -/

/-- `limitOneS` on the content of the cell alone. -/
def limitCell (H : HolderEnv) (tmp : String → String) (k : Option Constraints) (p : Nat) (c : Cred) :
    Option (Option (String × SentCred) × Cred) :=
  match k with
  | none => some (some (c.id, .ptr p), c)
  | some k =>
    let predicate := k.fields.any Field.predicateReq
    if k.limitReq && !(predicate || (c.isSDJWT || c.hasBBS) || subjectIsIssuer c) then some (none, c)
    else if (k.limitReq || predicate) && !c.isSDJWT then
      match H.derive k c with
      | none => none
      | some c' => some (some (tmp c.id, .fresh c'), c)
    else if k.limitReq && c.isSDJWT then
      match H.restrict k c with
      | none => none
      | some c' => some (some (c.id, .ptr p), c')
    else some (some (c.id, .ptr p), c)

theorem set_same {h : List Cred} {p : Nat} {c : Cred} (hp : h[p]? = some c) : h.set p c = h := by
  apply List.ext_getElem?
  intro i
  rw [List.getElem?_set]
  split
  · next e =>
    subst e
    have := (List.getElem?_eq_some_iff.mp hp).1
    rw [if_pos this, hp]
  · rfl

theorem limitOneS_cell {H : HolderEnv} {tmp : String → String} {k : Option Constraints} {h : List Cred} {p : Nat}
    {c : Cred} (hp : h[p]? = some c) :
    limitOneS H tmp k h p c = (limitCell H tmp k p c).map (fun q => (q.1, h.set p q.2)) := by
  unfold limitOneS limitCell
  cases k with
  | none => simp [set_same hp]
  | some k =>
    dsimp only
    split_ifs
    · simp [set_same hp]
    · cases H.derive k c <;> simp [set_same hp]
    · cases H.restrict k c <;> simp
    · simp [set_same hp]

/-- The cases of `limitCell`. -/
theorem limitCell_cases {H : HolderEnv} {tmp : String → String} {k : Option Constraints} {p : Nat} {c c' : Cred}
    {r : Option (String × SentCred)} (h : limitCell H tmp k p c = some (r, c')) :
    (r = none ∧ c' = c) ∨
    (r = some (c.id, .ptr p) ∧ c' = c ∧ ∀ k', k = some k' → k'.limitReq = false) ∨
    (∃ k' w, k = some k' ∧ c.isSDJWT = false ∧ H.derive k' c = some w ∧ r = some (tmp c.id, .fresh w) ∧ c' = c) ∨
    (∃ k', k = some k' ∧ k'.limitReq = true ∧ c.isSDJWT = true ∧ H.restrict k' c = some c' ∧
      r = some (c.id, .ptr p)) := by
  unfold limitCell at h
  cases k with
  | none =>
    cases h
    exact .inr (.inl ⟨rfl, rfl, fun k' e => nomatch e⟩)
  | some k =>
    dsimp only at h
    split_ifs at h with h1 h2 h3
    · cases h; exact .inl ⟨rfl, rfl⟩
    · cases hd : H.derive k c with
      | none => rw [hd] at h; cases h
      | some w =>
        rw [hd] at h
        cases h
        refine .inr (.inr (.inl ⟨k, w, rfl, ?_, hd, rfl, rfl⟩))
        simp only [Bool.and_eq_true, Bool.not_eq_eq_eq_not, Bool.not_true] at h2
        exact h2.2
    · cases hd : H.restrict k c with
      | none => rw [hd] at h; cases h
      | some w =>
        rw [hd] at h
        cases h
        simp only [Bool.and_eq_true] at h3
        exact .inr (.inr (.inr ⟨k, rfl, h3.1, h3.2, hd, rfl⟩))
    · cases h
      refine .inr (.inl ⟨rfl, rfl, ?_⟩)
      intro k' e
      cases e
      cases hl : k.limitReq with
      | false => rfl
      | true =>
        exfalso
        simp only [hl, Bool.true_or, Bool.true_and, Bool.not_eq_true, Bool.not_eq_eq_eq_not, Bool.not_true] at h2 h3
        exact h2 h3

/-! ## The loop over the pointers -/

/-- What `limitS` does, pointer by pointer. -/
structure Limited (H : HolderEnv) (tmp : Nat → String → String) (k : Option Constraints) (h : List Cred)
    (bs : List (Cred × Nat)) (ws : List (String × SentCred)) (h' : List Cred) : Prop where
  length : h'.length = h.length
  others : ∀ q, (∀ c, (c, q) ∉ bs) → h'[q]? = h[q]?
  each : ∀ n c p, bs[n]? = some (c, p) → ∃ r c', limitCell H (tmp n) k p c = some (r, c') ∧ h'[p]? = some c' ∧
    ∀ w, r = some w → w ∈ ws
  only : ∀ w ∈ ws, ∃ n c p c', bs[n]? = some (c, p) ∧ limitCell H (tmp n) k p c = some (some w, c')

theorem limitS_limited {H : HolderEnv} {k : Option Constraints} :
    ∀ {bs : List (Cred × Nat)} {tmp : Nat → String → String} {h : List Cred} {ws : List (String × SentCred)} {h' : List Cred},
    (bs.map Prod.snd).Nodup → (∀ b ∈ bs, h[b.2]? = some b.1) → limitS H tmp k h bs = some (ws, h') →
    Limited H tmp k h bs ws h'
  | [], tmp, h, ws, h', _, _, e => by
    simp only [limitS, Option.some.injEq, Prod.mk.injEq] at e
    obtain ⟨rfl, rfl⟩ := e
    exact ⟨rfl, fun _ _ => rfl, fun n c p hb => by simp at hb, fun w hw => by cases hw⟩
  | b :: bs, tmp, h, ws, h', hn, hh, e => by
    obtain ⟨c, p⟩ := b
    simp only [List.map_cons, List.nodup_cons] at hn
    have hp : h[p]? = some c := hh (c, p) (List.mem_cons_self ..)
    simp only [limitS] at e
    rw [limitOneS_cell hp] at e
    cases hc : limitCell H (tmp 0) k p c with
    | none => rw [hc] at e; cases e
    | some rc =>
      obtain ⟨r, c'⟩ := rc
      rw [hc] at e
      simp only [Option.map_some] at e
      obtain ⟨⟨ws', h''⟩, e1, e2⟩ := Option.map_eq_some_iff.mp e
      simp only [Prod.mk.injEq] at e2
      obtain ⟨rfl, rfl⟩ := e2
      have hnp : ∀ b ∈ bs, b.2 ≠ p := by
        intro b hb e
        exact hn.1 (e ▸ List.mem_map_of_mem hb)
      have ih := limitS_limited (h := h.set p c') hn.2 (by
        intro b hb
        rw [List.getElem?_set_ne (hnp b hb).symm]
        exact hh b (List.mem_cons_of_mem _ hb)) e1
      have hlt : p < h.length := (List.getElem?_eq_some_iff.mp hp).1
      have hp' : h''[p]? = some c' := by
        rw [ih.others p (fun x hx => hnp _ hx rfl)]
        rw [List.getElem?_set_self hlt]
      have sub : ∀ w ∈ ws', w ∈ (match r with | none => ws' | some w => w :: ws') := by
        intro w hw
        cases r with
        | none => exact hw
        | some x => exact List.mem_cons_of_mem _ hw
      refine ⟨by rw [ih.length, List.length_set], ?_, ?_, ?_⟩
      · intro q hq
        rw [ih.others q (fun x hx => hq x (List.mem_cons_of_mem _ hx)), List.getElem?_set_ne]
        rintro rfl
        exact hq c (List.mem_cons_self ..)
      · intro n c1 p1 hb
        cases n with
        | zero =>
          simp only [List.getElem?_cons_zero, Option.some.injEq, Prod.mk.injEq] at hb
          obtain ⟨rfl, rfl⟩ := hb
          refine ⟨r, c', hc, hp', ?_⟩
          rintro w rfl
          exact List.mem_cons_self ..
        | succ n =>
          simp only [List.getElem?_cons_succ] at hb
          obtain ⟨r1, c2, a1, a2, a3⟩ := ih.each n c1 p1 hb
          exact ⟨r1, c2, a1, a2, fun w hw => sub w (a3 w hw)⟩
      · intro w hw
        have rest : w ∈ ws' → ∃ n c1 p1 c2, ((c, p) :: bs)[n]? = some (c1, p1) ∧
            limitCell H (tmp n) k p1 c1 = some (some w, c2) := by
          intro hw
          obtain ⟨n, c1, p1, c2, a1, a2⟩ := ih.only w hw
          exact ⟨n + 1, c1, p1, c2, by simpa using a1, a2⟩
        cases r with
        | none => exact rest hw
        | some x =>
          rcases List.mem_cons.mp hw with rfl | hw
          · exact ⟨0, c, p, c', rfl, hc⟩
          · exact rest hw

theorem zipIdx_cell {h : List Cred} {c : Cred} {p : Nat} (hb : (c, p) ∈ h.zipIdx) : h[p]? = some c := by
  obtain ⟨_, h2, h3⟩ := List.mem_zipIdx hb
  simp only [Nat.sub_zero] at h3
  rw [h3]
  simp only [Nat.zero_add] at h2
  exact List.getElem?_eq_getElem h2

theorem zipIdx_nodup (h : List Cred) : (h.zipIdx.map Prod.snd).Nodup := by
  have : h.zipIdx.map Prod.snd = List.range' 0 h.length := List.zipIdx_map_snd 0 h
  rw [this]
  exact List.nodup_range'

/-- Evaluating a descriptor: which cells passed, and what happened to them. -/
theorem evalDescS_limited {H : HolderEnv} {pd : Definition} {h h' : List Cred} {id f : String}
    {ws : List (String × SentCred)} (e : evalDescS H pd h id = .ok ((f, ws), h')) :
    ∃ d bs, pd.descs.find? (fun d => d.id == id) = some d ∧ d.id = id ∧
      filterDescriptorV Prod.fst H.toMEnv pd.format d.toM h.zipIdx = .ok (f, bs) ∧
      (∀ b ∈ bs, h[b.2]? = some b.1) ∧ (bs.map Prod.snd).Nodup ∧
      Limited H (H.tmp d.id) d.constraints h bs ws h' := by
  unfold evalDescS at e
  split at e
  · cases e
  · rename_i d hd
    split at e
    · cases e
    · cases e
    · rename_i f' bs hf
      split at e
      · cases e
      · rename_i ws' h'' hl
        cases e
        have hs := filterDescriptorV_sub Prod.fst hf
        have h1 : ∀ b ∈ bs, h[b.2]? = some b.1 := fun b hb => zipIdx_cell (hs.subset hb)
        have h2 : (bs.map Prod.snd).Nodup := (hs.map Prod.snd).nodup (zipIdx_nodup h)
        refine ⟨d, bs, hd, ?_, hf, h1, h2, limitS_limited h2 h1 hl⟩
        have := List.find?_some (p := fun d : FDesc => d.id == id) hd
        simpa using this

/-! ## Invariants of the search -/

section
variable {ε α σ : Type}

/-- The state after evaluating one more descriptor. -/
def AState.after (st : AState α) (d f : String) (cs : List α) : AState α :=
  if cs.length ≠ 0 then ⟨d :: st.evaluated, GoMap.set st.found d (f, cs)⟩ else ⟨d :: st.evaluated, st.found⟩

theorem evalSolS_inv {eval : σ → String → Except ε ((String × List α) × σ)} {I : AState α → σ → Prop}
    (hs : ∀ st s d f cs s', I st s → st.evaluated.contains d = false → eval s d = .ok ((f, cs), s') →
      I (st.after d f cs) s') :
    ∀ (S : List String) (st : AState α) (s : σ) (b : Bool) (ex : List String) (st' : AState α) (s' : σ), I st s →
    evalSolS eval S st s = .ok (b, ex, st', s') → I st' s'
  | [], st, s, b, ex, st', s', hi, h => by
    simp only [evalSolS, Except.ok.injEq, Prod.mk.injEq] at h
    obtain ⟨_, _, rfl, rfl⟩ := h
    exact hi
  | d :: ds, st, s, b, ex, st', s', hi, h => by
    simp only [evalSolS] at h
    split at h
    · split at h
      · cases h; exact hi
      · exact evalSolS_inv hs ds st s b ex st' s' hi h
    · rename_i hc
      split at h
      · cases h
      · rename_i f cs s1 he
        have h1 := hs st s d f cs s1 hi (by simpa using hc) he
        unfold AState.after at h1
        split at h
        · rename_i hl
          rw [if_pos hl] at h1
          exact evalSolS_inv hs ds _ s1 b ex st' s' h1 h
        · rename_i hl
          rw [if_neg hl] at h1
          cases h
          exact h1

theorem collectSol_found {found : GoMap (String × List α)} :
    ∀ (S : List String) (fmt : String) (res : GoMap (List α)) (r : String × GoMap (List α)),
    collectSol found S fmt res = some r →
    ∀ d cs, GoMap.get? r.2 d = some cs → GoMap.get? res d = some cs ∨ ∃ f, GoMap.get? found d = some (f, cs)
  | [], fmt, res, r, h, d, cs, hg => by
    simp only [collectSol, Option.some.injEq] at h
    subst h
    exact .inl hg
  | x :: S, fmt, res, r, h, d, cs, hg => by
    simp only [collectSol] at h
    split at h
    · cases h
    · rename_i f cs' hx
      rcases collectSol_found S _ _ r h d cs hg with h1 | h1
      · rw [GoMap.get?_set] at h1
        split at h1
        · next e => cases h1; subst e; exact .inr ⟨f, hx⟩
        · exact .inl h1
      · exact .inr h1

/-- What an invariant of the evaluation says about the result of the search and the final state. -/
theorem solveDefinitionS_inv {eval : σ → String → Except ε ((String × List α) × σ)} {I : AState α → σ → Prop}
    (hs : ∀ st s d f cs s', I st s → st.evaluated.contains d = false → eval s d = .ok ((f, cs), s') →
      I (st.after d f cs) s') {dflt : String} {srs : List SubReq} {ds : List Desc} {s s' : σ}
    {o : Outcome ε (String × GoMap (List α))} (h0 : I ⟨[], []⟩ s)
    (h : solveDefinitionS eval dflt srs ds s = some (o, s')) :
    ∃ st, I st s' ∧ ∀ fmt m, o = .ok (fmt, m) → ∀ d cs, GoMap.get? m d = some cs →
      ∃ f, GoMap.get? st.found d = some (f, cs) := by
  have loop : ∀ (n : Nat) (it : Iter) (ex : List String) (st : AState α) (s : σ), I st s →
      ∃ st', I st' (applyLoopS eval dflt n it ex st s).2 ∧
        ∀ fmt m, (applyLoopS eval dflt n it ex st s).1 = .ok (fmt, m) → ∀ d cs, GoMap.get? m d = some cs →
          ∃ f, GoMap.get? st'.found d = some (f, cs) := by
    intro n
    induction n with
    | zero => intro it ex st s hi; exact ⟨st, hi, fun fmt m e => nomatch e⟩
    | succ n ih =>
      intro it ex st s hi
      simp only [applyLoopS]
      split
      · exact ⟨st, hi, fun fmt m e => nomatch e⟩
      · split
        · exact ⟨st, hi, fun fmt m e => nomatch e⟩
        · rename_i ex' st' s1 he
          have h1 := evalSolS_inv hs _ _ _ _ _ _ _ hi he
          split
          · exact ⟨st', h1, fun fmt m e => nomatch e⟩
          · rename_i r hr
            refine ⟨st', h1, ?_⟩
            intro fmt m e d cs hg
            simp only [Outcome.ok.injEq] at e
            subst e
            rcases collectSol_found _ _ _ _ hr d cs hg with h2 | h2
            · cases h2
            · exact h2
        · rename_i ex' st' s1 he
          exact ih _ _ _ _ (evalSolS_inv hs _ _ _ _ _ _ _ hi he)
  unfold solveDefinitionS at h
  obtain ⟨r, _, e⟩ := Option.map_eq_some_iff.mp h
  split at e
  · cases e
    exact ⟨_, h0, fun fmt m e => nomatch e⟩
  · rename_i it hit
    obtain ⟨st', h1, h2⟩ := loop (2 ^ it.descs.length + 1) it [] ⟨[], []⟩ s h0
    rw [e] at h1 h2
    exact ⟨st', h1, h2⟩

end

/-! ## Safety -/

theorem restricts_trans {H : HolderEnv} {a b c : Cred} (h : Restricts H a b) (h' : Restricts H b c) : Restricts H a c := by
  induction h' with
  | refl => exact h
  | step k _ h2 h3 h4 ih => exact .step k ih h2 h3 h4

/-- Credentials that are not SD-JWTs stay as they are. -/
theorem restricts_other {H : HolderEnv} {a b : Cred} (h : Restricts H a b) (ha : a.isSDJWT = false) : b = a := by
  induction h with
  | refl => rfl
  | step k _ h2 _ _ ih => rw [ih] at h2; rw [h2] at ha; cases ha

/-- Restricting an SD-JWT credential changes nothing but what it discloses (credential.go:1050-1058). -/
def KeepsRest (H : HolderEnv) : Prop :=
  ∀ k c w, H.restrict k c = some w → w = { c with display := w.display }

theorem restricts_keeps {H : HolderEnv} (hk : KeepsRest H) {a b : Cred} (h : Restricts H a b) :
    b = { a with display := b.display } := by
  induction h with
  | refl => rfl
  | step k _ _ _ h4 ih =>
    have := hk _ _ _ h4
    rw [this, ih]

/-- The invariant. -/
structure SafeInv (H : HolderEnv) (pd : Definition) (creds : List Cred) (st : AState (String × SentCred))
    (h : List Cred) : Prop where
  length : h.length = creds.length
  cells : ∀ (p : Nat) (c₀ : Cred), creds[p]? = some c₀ → ∃ c₁, h[p]? = some c₁ ∧ Restricts H c₀ c₁
  sent : ∀ id f ws, GoMap.get? st.found id = some (f, ws) → ∀ u p, (u, .ptr p) ∈ ws →
    ∃ d, pd.descs.find? (fun d => d.id == id) = some d ∧
      (∃ c₀, creds[p]? = some c₀ ∧ ∃ c, Restricts H c₀ c ∧ u = c.id) ∧
      ∀ k, d.constraints = some k → k.limitReq = true → ∃ c w, RestrictedFor H k creds h p c w
  fresh : ∀ id f ws, GoMap.get? st.found id = some (f, ws) → ∀ u w, (u, .fresh w) ∈ ws →
    ∃ d k, pd.descs.find? (fun d => d.id == id) = some d ∧ d.constraints = some k ∧
      ∃ c₀ ∈ creds, ∃ c, Restricts H c₀ c ∧ c.isSDJWT = false ∧ H.derive k c = some w
  freshID : ∀ id f ws, GoMap.get? st.found id = some (f, ws) → ∀ u w, (u, .fresh w) ∈ ws →
    ∃ n i, u = H.tmp id n i
  freshOne : (∀ d n i d' n' i', H.tmp d n i = H.tmp d' n' i' → d = d' ∧ n = n') →
    ∀ id f ws, GoMap.get? st.found id = some (f, ws) → ∀ u w w', (u, .fresh w) ∈ ws → (u, .fresh w') ∈ ws → w = w'

theorem safe_step {H : HolderEnv} {pd : Definition} {creds : List Cred} {st : AState (String × SentCred)} {h h' : List Cred}
    {id f : String} {ws : List (String × SentCred)} (hi : SafeInv H pd creds st h)
    (e : evalDescS H pd h id = .ok ((f, ws), h')) : SafeInv H pd creds (st.after id f ws) h' := by
  obtain ⟨d, bs, hd, hid, hf, hc, hn, hl⟩ := evalDescS_limited e
  -- what happens to a cell
  have cell : ∀ (p : Nat) (c : Cred), h[p]? = some c → ∃ c', h'[p]? = some c' ∧ Restricts H c c' := by
    intro p c hp
    by_cases hb : ∃ x, (x, p) ∈ bs
    · obtain ⟨x, hx⟩ := hb
      have e1 := hc _ hx
      rw [hp] at e1
      have e2 : x = c := (Option.some.inj e1).symm
      subst e2
      obtain ⟨n, hn'⟩ := List.getElem?_of_mem hx
      obtain ⟨r, c', a1, a2, _⟩ := hl.each n _ p hn'
      refine ⟨c', a2, ?_⟩
      rcases limitCell_cases a1 with ⟨_, rfl⟩ | ⟨_, rfl, _⟩ | ⟨_, _, _, _, _, _, rfl⟩ | ⟨k', _, b2, b3, b4, _⟩
      · exact .refl _
      · exact .refl _
      · exact .refl _
      · exact .step k' (.refl _) b3 b2 b4
    · refine ⟨c, ?_, .refl _⟩
      rw [hl.others p (fun x hx => hb ⟨x, hx⟩), hp]
  have found : ∀ id' f' ws', GoMap.get? (st.after id f ws).found id' = some (f', ws') →
      (id' = id ∧ ws' = ws) ∨ GoMap.get? st.found id' = some (f', ws') := by
    intro id' f' ws' hg
    unfold AState.after at hg
    split at hg
    · rw [GoMap.get?_set] at hg
      split at hg
      · next e => cases hg; exact .inl ⟨e.symm, rfl⟩
      · exact .inr hg
    · exact .inr hg
  refine ⟨by rw [hl.length, hi.length], ?_, ?_, ?_, ?_, ?_⟩
  · intro p c₀ hp
    obtain ⟨c₁, h1, h2⟩ := hi.cells p c₀ hp
    obtain ⟨c₂, h3, h4⟩ := cell p c₁ h1
    exact ⟨c₂, h3, restricts_trans h2 h4⟩
  · intro id' f' ws' hg u p hm
    rcases found id' f' ws' hg with ⟨rfl, rfl⟩ | hg
    · obtain ⟨n, c, p', c', a1, a2⟩ := hl.only _ hm
      have hb := List.mem_of_getElem? a1
      have hp := hc _ hb
      have hpp : p' = p := by
        rcases limitCell_cases a2 with ⟨b, _⟩ | ⟨b, _, _⟩ | ⟨_, _, _, _, _, b, _⟩ | ⟨_, _, _, _, _, b⟩ <;> cases b <;> rfl
      subst hpp
      have hlt : p' < creds.length := by rw [← hi.length]; exact (List.getElem?_eq_some_iff.mp hp).1
      have hu : u = c.id := by
        rcases limitCell_cases a2 with ⟨b, _⟩ | ⟨b, _, _⟩ | ⟨_, _, _, _, _, b, _⟩ | ⟨_, _, _, _, _, b⟩ <;> cases b <;> rfl
      obtain ⟨x, hx1, hx2⟩ := hi.cells p' creds[p'] (List.getElem?_eq_getElem hlt)
      rw [hp] at hx1
      cases hx1
      refine ⟨d, hd, ⟨creds[p'], List.getElem?_eq_getElem hlt, c, hx2, hu⟩, ?_⟩
      intro k hk hk'
      rcases limitCell_cases a2 with ⟨b, _⟩ | ⟨_, _, b⟩ | ⟨_, _, _, _, _, b, _⟩ | ⟨k', b1, b2, b3, b4, _⟩
      · cases b
      · rw [b k hk] at hk'; cases hk'
      · cases b
      · rw [hk] at b1
        cases b1
        obtain ⟨r, c2, a3, a4, _⟩ := hl.each n c p' a1
        rw [a2] at a3
        cases a3
        obtain ⟨c₁, h1, h2⟩ := hi.cells p' creds[p'] (List.getElem?_eq_getElem hlt)
        rw [hp] at h1
        cases h1
        exact ⟨c, c', ⟨⟨_, List.getElem?_eq_getElem hlt, h2⟩, b4, ⟨c', a4, .refl _⟩⟩⟩
    · obtain ⟨d', e1, e2, e3⟩ := hi.sent id' f' ws' hg u p hm
      refine ⟨d', e1, e2, ?_⟩
      intro k hk hk'
      obtain ⟨c, w, r1, r2, c₁, r3, r4⟩ := e3 k hk hk'
      obtain ⟨c₂, r5, r6⟩ := cell p c₁ r3
      exact ⟨c, w, r1, r2, c₂, r5, restricts_trans r4 r6⟩
  · intro id' f' ws' hg u w hm
    rcases found id' f' ws' hg with ⟨rfl, rfl⟩ | hg
    · obtain ⟨n, c, p', c', a1, a2⟩ := hl.only _ hm
      have hp := hc _ (List.mem_of_getElem? a1)
      have hlt : p' < creds.length := by rw [← hi.length]; exact (List.getElem?_eq_some_iff.mp hp).1
      rcases limitCell_cases a2 with ⟨b, _⟩ | ⟨b, _, _⟩ | ⟨k', w', b1, b2, b3, b4, _⟩ | ⟨_, _, _, _, _, b⟩
      · cases b
      · cases b
      · cases b4
        obtain ⟨c₁, h1, h2⟩ := hi.cells p' creds[p'] (List.getElem?_eq_getElem hlt)
        have e1 : c₁ = c := by
          have := hp.symm.trans h1
          cases this; rfl
        subst e1
        exact ⟨d, k', hd, b1, creds[p'], List.getElem_mem hlt, c₁, h2, b2, b3⟩
      · cases b
    · exact hi.fresh id' f' ws' hg u w hm
  · intro id' f' ws' hg u w hm
    rcases found id' f' ws' hg with ⟨rfl, rfl⟩ | hg
    · obtain ⟨n, c, p', c', a1, a2⟩ := hl.only _ hm
      rcases limitCell_cases a2 with ⟨b, _⟩ | ⟨b, _, _⟩ | ⟨k', w', b1, b2, b3, b4, _⟩ | ⟨_, _, _, _, _, b⟩
      · cases b
      · cases b
      · cases b4
        exact ⟨n, c.id, by rw [hid]⟩
      · cases b
    · exact hi.freshID id' f' ws' hg u w hm
  · intro hdiff id' f' ws' hg u w w' hm hm'
    rcases found id' f' ws' hg with ⟨rfl, rfl⟩ | hg
    · obtain ⟨n, c, p, c', a1, a2⟩ := hl.only _ hm
      obtain ⟨n', x, q, x', a1', a2'⟩ := hl.only _ hm'
      rcases limitCell_cases a2 with ⟨b, _⟩ | ⟨b, _, _⟩ | ⟨k', y, b1, b2, b3, b4, _⟩ | ⟨_, _, _, _, _, b⟩
      · cases b
      · cases b
      · rcases limitCell_cases a2' with ⟨b, _⟩ | ⟨b, _, _⟩ | ⟨k2, y2, b1', b2', b3', b4', _⟩ | ⟨_, _, _, _, _, b⟩
        · cases b
        · cases b
        · simp only [Option.some.injEq, Prod.mk.injEq, SentCred.fresh.injEq] at b4 b4'
          obtain ⟨e1, e2⟩ := b4
          obtain ⟨e1', e2'⟩ := b4'
          obtain ⟨_, rfl⟩ := hdiff _ _ _ _ _ _ (e1.symm.trans e1')
          rw [a1] at a1'
          cases a1'
          rw [b1] at b1'
          cases b1'
          rw [b3] at b3'
          cases b3'
          rw [e2, e2']
        · cases b
      · cases b
    · exact hi.freshOne hdiff id' f' ws' hg u w w' hm hm'

/-! ## What the calls do -/

theorem createVPS_ok {H : HolderEnv} {dflt : String} {pd : Definition} {creds after : List Cred} {made : Created}
    {os : List MapOut} (h : createVPS H dflt pd creds = .ok (made, os, after)) : ∃ fmt m,
      presentationDataS H dflt pd creds = some (.ok (fmt, m), after) ∧
      makePresentation (H.uuid 0) (mergedOfS H false fmt after m).1 = some made ∧
      os = (mergedOfS H false fmt after m).2 := by
  unfold createVPS at h
  split at h
  · next fmt m h' he =>
    split at h
    · cases h
    · next vp hv =>
      cases h
      exact ⟨fmt, m, he, hv, rfl⟩
  all_goals cases h

theorem createVPArrayS_ok {H : HolderEnv} {dflt : String} {pd : Definition} {creds after : List Cred}
    {made : List Created} {os : List MapOut} (h : createVPArrayS H dflt pd creds = .ok (made, os, after)) : ∃ fmt m,
      presentationDataS H dflt pd creds = some (.ok (fmt, m), after) ∧
      makeEach H 0 (mergedOfS H true fmt after m).1 = some made ∧
      os = (mergedOfS H true fmt after m).2 := by
  unfold createVPArrayS at h
  split at h
  · next fmt m h' he =>
    split at h
    · cases h
    · next vp hv =>
      cases h
      exact ⟨fmt, m, he, hv, rfl⟩
  all_goals cases h

theorem safe_result {H : HolderEnv} {dflt : String} {pd : Definition} {creds after : List Cred}
    {o : Outcome Fail (String × GoMap (List (String × SentCred)))}
    (h : presentationDataS H dflt pd creds = some (o, after)) :
    ∃ st, SafeInv H pd creds st after ∧ ∀ fmt m, o = .ok (fmt, m) → ∀ d cs, GoMap.get? m d = some cs →
      ∃ f, GoMap.get? st.found d = some (f, cs) :=
  solveDefinitionS_inv (I := SafeInv H pd creds) (fun _ _ _ _ _ _ hi _ e => safe_step hi e)
    ⟨rfl, fun p c hp => ⟨c, hp, .refl c⟩, fun _ _ _ hg => (nomatch hg), fun _ _ _ hg => (nomatch hg),
      fun _ _ _ hg => (nomatch hg), fun _ _ _ _ hg => (nomatch hg)⟩ h

/-- **C125** (the wallet).  A successful `CreateVP` leaves the holder with the same credentials in the
same places, those that are not SD-JWTs as they were, and the SD-JWTs at most restricted. -/
theorem createVPS_only_restricts {H : HolderEnv} {dflt : String} {pd : Definition} {creds after : List Cred}
    {made : Created} {os : List MapOut} (h : createVPS H dflt pd creds = .ok (made, os, after)) :
    after.length = creds.length ∧ ∀ (p : Nat) (c : Cred), creds[p]? = some c → ∃ c', after[p]? = some c' ∧
      Restricts H c c' ∧ (c.isSDJWT = false → c' = c) := by
  obtain ⟨fmt, m, h1, _, _⟩ := createVPS_ok h
  obtain ⟨st, hi, _⟩ := safe_result h1
  refine ⟨hi.length, fun p c hp => ?_⟩
  obtain ⟨c', a, b⟩ := hi.cells p c hp
  exact ⟨c', a, b, fun e => restricts_other b e⟩

/-- **C125** for `CreateVPArray` (the wallet). -/
theorem createVPArrayS_only_restricts {H : HolderEnv} {dflt : String} {pd : Definition} {creds after : List Cred}
    {made : List Created} {os : List MapOut} (h : createVPArrayS H dflt pd creds = .ok (made, os, after)) :
    after.length = creds.length ∧ ∀ (p : Nat) (c : Cred), creds[p]? = some c → ∃ c', after[p]? = some c' ∧
      Restricts H c c' ∧ (c.isSDJWT = false → c' = c) := by
  obtain ⟨fmt, m, h1, _, _⟩ := createVPArrayS_ok h
  obtain ⟨st, hi, _⟩ := safe_result h1
  refine ⟨hi.length, fun p c hp => ?_⟩
  obtain ⟨c', a, b⟩ := hi.cells p c hp
  exact ⟨c', a, b, fun e => restricts_other b e⟩

/-- What the presentation shows for a descriptor: a derived credential, or the credential at one of the
holder's places as the call leaves it; and if disclosure is limited, that credential is what is left
after restricting it for this very descriptor. -/
inductive ShownFor (H : HolderEnv) (d : FDesc) (creds after : List Cred) : Cred → Prop
  | derived {k c₀ c} : d.constraints = some k → c₀ ∈ creds → c₀.isSDJWT = false → H.derive k c₀ = some c →
      ShownFor H d creds after c
  | kept {p : Nat} {c₀ c} : creds[p]? = some c₀ → after[p]? = some c → Restricts H c₀ c →
      (∀ k, d.constraints = some k → k.limitReq = true →
        ∃ x w, Restricts H c₀ x ∧ H.restrict k x = some w ∧ Restricts H w c) →
      ShownFor H d creds after c

theorem shared_ids {H : HolderEnv} {creds : List Cred} (hk : KeepsRest H) (hids : (creds.map Cred.id).Nodup)
    (hfr : FreshIDs H creds) {pd : Definition} {st : AState (String × SentCred)} {after : List Cred}
    (hi : SafeInv H pd creds st after) {m : GoMap (List (String × SentCred))}
    (hm : ∀ d cs, GoMap.get? m d = some cs → ∃ f, GoMap.get? st.found d = some (f, cs)) : IDsIdentify m := by
  have ptrID : ∀ k ws u p, GoMap.get? m k = some ws → (u, .ptr p) ∈ ws → ∃ c₀, creds[p]? = some c₀ ∧ u = c₀.id := by
    intro k ws u p h1 h2
    obtain ⟨f, h3⟩ := hm k ws h1
    obtain ⟨d, _, ⟨c₀, h4, c, h5, h6⟩, _⟩ := hi.sent k f ws h3 u p h2
    refine ⟨c₀, h4, ?_⟩
    rw [h6, restricts_keeps hk h5]
  intro k k' ws ws' u c c' h1 h2 h3 h4
  cases c with
  | ptr p =>
    obtain ⟨c₀, a1, a2⟩ := ptrID k ws u p h1 h3
    cases c' with
    | ptr p' =>
      obtain ⟨c₁, b1, b2⟩ := ptrID k' ws' u p' h2 h4
      have : p = p' := by
        refine (List.getElem?_inj (l := creds.map Cred.id) ?_ hids).mp ?_
        · rw [List.length_map]; exact (List.getElem?_eq_some_iff.mp a1).1
        · rw [List.getElem?_map, List.getElem?_map, a1, b1]; simp [← a2, ← b2]
      rw [this]
    | fresh w =>
      obtain ⟨f, g⟩ := hm k' ws' h2
      obtain ⟨n, i, e⟩ := hi.freshID k' f ws' g u w h4
      exact absurd (e.symm.trans a2) (hfr.new _ _ _ _ (List.mem_of_getElem? a1))
  | fresh w =>
    obtain ⟨f, g⟩ := hm k ws h1
    obtain ⟨n, i, e⟩ := hi.freshID k f ws g u w h3
    cases c' with
    | ptr p' =>
      obtain ⟨c₁, b1, b2⟩ := ptrID k' ws' u p' h2 h4
      exact absurd (e.symm.trans b2) (hfr.new _ _ _ _ (List.mem_of_getElem? b1))
    | fresh w' =>
      obtain ⟨f', g'⟩ := hm k' ws' h2
      obtain ⟨n', i', e'⟩ := hi.freshID k' f' ws' g' u w' h4
      obtain ⟨rfl, rfl⟩ := hfr.different _ _ _ _ _ _ (e.symm.trans e')
      rw [h1] at h2
      cases h2
      rw [hi.freshOne hfr.different k f ws g u w w' h3 h4]

theorem shared_shown {H : HolderEnv} {creds : List Cred} (hk : KeepsRest H) {pd : Definition}
    {st : AState (String × SentCred)} {after : List Cred} (hi : SafeInv H pd creds st after) {id f : String}
    {ws : List (String × SentCred)} (hg : GoMap.get? st.found id = some (f, ws)) {u : String} {s : SentCred}
    (hs : (u, s) ∈ ws) : ∃ d ∈ pd.descs, d.id = id ∧ ShownFor H d creds after (s.now after) := by
  cases s with
  | ptr p =>
    obtain ⟨d, h1, ⟨c₀, h2, _⟩, h3⟩ := hi.sent id f ws hg u p hs
    refine ⟨d, List.mem_of_find?_eq_some h1, by simpa using List.find?_some (p := fun d : FDesc => d.id == id) h1, ?_⟩
    obtain ⟨c₁, h4, h5⟩ := hi.cells p c₀ h2
    have hnow : (SentCred.ptr p).now after = c₁ := by
      simp [SentCred.now, h4]
    rw [hnow]
    refine .kept h2 h4 h5 ?_
    intro k e1 e2
    obtain ⟨x, w, ⟨y, r1, r2⟩, r3, z, r4, r5⟩ := h3 k e1 e2
    rw [h2] at r1; cases r1
    rw [h4] at r4; cases r4
    exact ⟨x, w, r2, r3, r5⟩
  | fresh w =>
    obtain ⟨d, k, h1, h2, c₀, h3, c, h4, h5, h6⟩ := hi.fresh id f ws hg u w hs
    refine ⟨d, List.mem_of_find?_eq_some h1, by simpa using List.find?_some (p := fun d : FDesc => d.id == id) h1, ?_⟩
    have e : c₀.isSDJWT = false := by rw [restricts_keeps hk h4] at h5; exact h5
    have := restricts_other h4 e
    subst this
    exact .derived h2 h3 e h6

/-- **C125** (`_partial`: the holder's credentials have different IDs, see `merge_wrong_credential`).
Every descriptor map of the submission points at a credential of the presentation that is shown for the
descriptor it names, also when the credential was restricted for other descriptors, before or after, or
for a descriptor that is not in the answer. -/
theorem createVPS_shows_partial {H : HolderEnv} {dflt : String} {pd : Definition} {creds after : List Cred}
    (hk : KeepsRest H) (hids : (creds.map Cred.id).Nodup) (hfr : FreshIDs H creds)
    (hmaps : ∀ l, (H.sortMaps l).Perm l) {made : Created} {os : List MapOut}
    (h : createVPS H dflt pd creds = .ok (made, os, after)) :
    ∀ o ∈ os, ∃ d ∈ pd.descs, d.id = o.id ∧ ∃ i c, PointsAt false o.format o i ∧ made.creds[i]? = some c ∧
      ShownFor H d creds after c := by
  obtain ⟨fmt, m, h1, h2, rfl⟩ := createVPS_ok h
  obtain ⟨st, hi, hm⟩ := safe_result h1
  have hm := hm fmt m rfl
  intro o ho
  have hmc : made.creds = (mergedOfS H false fmt after m).1 := by
    unfold makePresentation at h2
    split at h2
    · cases h2
    · cases h2; rfl
  obtain ⟨i, s, ws, u, a1, a2, a3, a4, -⟩ := merge_points_partial _ false fmt m (H.sortKeys (GoMap.keys m))
    (shared_ids hk hids hfr hi hm) (hmaps _) o ho
  obtain ⟨f, hg⟩ := hm _ _ a3
  obtain ⟨d, d1, d2, d3⟩ := shared_shown hk hi hg a4
  have hfm := (merge_all (fun s => (SentCred.now after s).isJWT) false fmt m (H.sortKeys (GoMap.keys m))).2 o
    ((hmaps _).mem_iff.mp ho)
  refine ⟨d, d1, d2, i, _, by rw [hfm]; exact a1, ?_, d3⟩
  rw [hmc]
  show (List.map _ _)[i]? = _
  rw [List.getElem?_map, a2]
  rfl

theorem makeEach_at {H : HolderEnv} : ∀ {cs : List Cred} {n : Nat} {made : List Created}, makeEach H n cs = some made →
    ∀ (i : Nat) (c : Cred), cs[i]? = some c → ∃ a, made[i]? = some a ∧ a.creds = [c]
  | [], _, _, _, i, c, hc => by simp at hc
  | x :: xs, n, made, h, i, c, hc => by
    simp only [makeEach] at h
    split at h
    · cases h
    · rename_i vp hv
      obtain ⟨r, h1, rfl⟩ := Option.map_eq_some_iff.mp h
      cases i with
      | zero =>
        cases hc
        refine ⟨vp, rfl, ?_⟩
        unfold makePresentation at hv
        split at hv
        · cases hv
        · cases hv; rfl
      | succ i => exact makeEach_at h1 i c (by simpa using hc)

/-- **C125** for `CreateVPArray` (`_partial`, as above). -/
theorem createVPArrayS_shows_partial {H : HolderEnv} {dflt : String} {pd : Definition} {creds after : List Cred}
    (hk : KeepsRest H) (hids : (creds.map Cred.id).Nodup) (hfr : FreshIDs H creds)
    (hmaps : ∀ l, (H.sortMaps l).Perm l) {made : List Created} {os : List MapOut}
    (h : createVPArrayS H dflt pd creds = .ok (made, os, after)) :
    ∀ o ∈ os, ∃ d ∈ pd.descs, d.id = o.id ∧ ∃ i a c, PointsAt true o.format o i ∧ made[i]? = some a ∧
      a.creds = [c] ∧ ShownFor H d creds after c := by
  obtain ⟨fmt, m, h1, h2, rfl⟩ := createVPArrayS_ok h
  obtain ⟨st, hi, hm⟩ := safe_result h1
  have hm := hm fmt m rfl
  intro o ho
  obtain ⟨i, s, ws, u, a1, a2, a3, a4, -⟩ := merge_points_partial _ true fmt m (H.sortKeys (GoMap.keys m))
    (shared_ids hk hids hfr hi hm) (hmaps _) o ho
  obtain ⟨f, hg⟩ := hm _ _ a3
  obtain ⟨d, d1, d2, d3⟩ := shared_shown hk hi hg a4
  have hfm := (merge_all (fun s => (SentCred.now after s).isJWT) true fmt m (H.sortKeys (GoMap.keys m))).2 o
    ((hmaps _).mem_iff.mp ho)
  obtain ⟨a, b1, b2⟩ := makeEach_at h2 i (s.now after) (by
    show (List.map _ _)[i]? = _
    rw [List.getElem?_map, a2]
    rfl)
  exact ⟨d, d1, d2, i, a, _, by rw [hfm]; exact a1, b1, b2, d3⟩

/-- What restricting never gives back.  If restricting a credential only ever takes away from what it
`discloses`, and leaves only what the constraints `allow`, then of an SD-JWT credential shown for a
descriptor that limits disclosure nothing is disclosed but what that descriptor allows, and nothing the
holder's credential did not disclose. -/
theorem shown_discloses {α : Type} {H : HolderEnv} {discloses : Cred → α → Prop} {allow : Constraints → Cred → α → Prop}
    (hless : ∀ k c w x, H.restrict k c = some w → discloses w x → discloses c x)
    (hallow : ∀ k c w x, H.restrict k c = some w → discloses w x → allow k c x)
    {d : FDesc} {creds after : List Cred} {c : Cred} (h : ShownFor H d creds after c) {k : Constraints}
    (hk : d.constraints = some k) (hl : k.limitReq = true) :
    (∃ c₀ ∈ creds, c₀.isSDJWT = false ∧ H.derive k c₀ = some c) ∨
    ∃ c₀ ∈ creds, ∃ y, Restricts H c₀ y ∧ ∀ x, discloses c x → discloses c₀ x ∧ allow k y x := by
  have less : ∀ {a b : Cred}, Restricts H a b → ∀ x, discloses b x → discloses a x := by
    intro a b h
    induction h with
    | refl => exact fun _ h => h
    | step k _ _ _ h4 ih => exact fun x hx => ih x (hless _ _ _ _ h4 hx)
  cases h with
  | derived e1 e2 e3 e4 =>
    rw [hk] at e1; cases e1
    exact .inl ⟨_, e2, e3, e4⟩
  | kept e1 e2 e3 e4 =>
    obtain ⟨y, w, r1, r2, r3⟩ := e4 k hk hl
    exact .inr ⟨_, List.mem_of_getElem? e1, y, r1, fun x hx => ⟨less e3 x hx, hallow _ _ _ _ r2 (less r3 x hx)⟩⟩

end VC.PE
