import Verif.SDJWT.IssueOptions
/-!
# Issuing with functions that fail (C126)

The salt function and the JSON marshaller are the caller's; both may return errors, and a nil marshaller panics
when it is called.  The issuer model runs again with these outcomes; a token is issued only if every call
succeeded, and then it is the one of the model without failures.
-/

namespace VC.SDJWT

/-- How a call ends badly. -/
inductive Bad where
  | err
  | panic
  deriving DecidableEq, Repr

/-- What the caller's functions do: whether the salt with this number is returned, and what becomes of marshalling
an array (`none`: it is marshalled). -/
structure Faults where
  saltOk : Nat → Bool
  marshal : List Json → Option Bad

/-- `createDisclosure`, v2.go:115-135, v5.go:293-334: salt, then marshalling. -/
def discF (F : Faults) (n : Nat) (e : Ent) : Except Bad Ent :=
  if F.saltOk n then
    match F.marshal e.debugArr with
    | some b => .error b
    | none => .ok e
  else .error .err

/-- The loop of `createDecoyDisclosures`, issuer.go:535-545. -/
def decoysF (F : Faults) (E : IEnv) (n : Nat) : Except Bad (List Ent) :=
  if (List.range (createDecoys E n).length).all (fun i => F.saltOk (n + i)) then .ok (createDecoys E n) else .error .err

/-- The branch for a member that is not processed recursively, v2.go:87-99. -/
def v2LeafF (F : Faults) (E : IEnv) (cur k : String) (n : Nat) (v : Json) : Except Bad Acc :=
  if E.nonSD cur then .ok ⟨[], [], [(k, v)], n⟩
  else match discF F n (v2Disclosure E n k v) with
    | .error b => .error b
    | .ok e => .ok ⟨[], [e], [], n + 1⟩

mutual
/-- One iteration of the loop of `CreateDisclosuresAndDigests`, v2.go:72-100. -/
def v2MemberF (F : Faults) (E : IEnv) (cur k : String) (n : Nat) : Json → Except Bad Acc
  | .obj o =>
    if E.structured then
      match decoysF F E n with
      | .error b => .error b
      | .ok decoys =>
        match v2LoopF F E cur (n + decoys.length) o with
        | .error b => .error b
        | .ok r => .ok ⟨(v2Finish E decoys r).1, [], [(k, .obj (v2Finish E decoys r).2.1)], (v2Finish E decoys r).2.2⟩
    else v2LeafF F E cur k n (.obj o)
  | .arr l => v2LeafF F E cur k n (.arr l)
  | .str s => v2LeafF F E cur k n (.str s)
  | .num q => v2LeafF F E cur k n (.num q)
  | .bool b => v2LeafF F E cur k n (.bool b)
  | .null => v2LeafF F E cur k n .null
/-- The loop of `CreateDisclosuresAndDigests`, v2.go:72-100. -/
def v2LoopF (F : Faults) (E : IEnv) (path : String) (n : Nat) : List (String × Json) → Except Bad Acc
  | [] => .ok ⟨[], [], [], n⟩
  | (k, v) :: m =>
    match v2MemberF F E (curPath path k) k n v with
    | .error b => .error b
    | .ok a =>
      match v2LoopF F E path a.next m with
      | .error b => .error b
      | .ok b => .ok (a.join b)
end

/-- `CreateDisclosuresAndDigests` of V2, v2.go:55-111. -/
def v2BuildF (F : Faults) (E : IEnv) (claims : JObj) : Except Bad (List Ent × JObj × Nat) :=
  match decoysF F E 0 with
  | .error b => .error b
  | .ok decoys =>
    match v2LoopF F E "" decoys.length claims with
    | .error b => .error b
    | .ok r => .ok (v2Finish E decoys r)

/-- `processArrayElements`, v5.go:253-291. -/
def v5ElemsF (F : Faults) (E : IEnv) (path : String) : Nat → Nat → List Json → Except Bad (List Json × List Ent × Nat)
  | _, n, [] => .ok ([], [], n)
  | i, n, v :: l =>
    if E.nonSD (elemPath path i) then
      match v5ElemsF F E path (i + 1) n l with
      | .error b => .error b
      | .ok r => .ok (v :: r.1, r.2)
    else
      match discF F n (v5Disclosure E n "" v) with
      | .error b => .error b
      | .ok e =>
        match v5ElemsF F E path (i + 1) (n + 1) l with
        | .error b => .error b
        | .ok r => .ok (.obj [("...", .str (E.digest e.result))] :: r.1, e :: r.2.1, r.2.2)

/-- The array case, v5.go:187-212. -/
def v5ArrayF (F : Faults) (E : IEnv) (cur k : String) (n : Nat) (l : List Json) : Except Bad Acc :=
  if E.nonSD cur then .ok ⟨[], [], [(k, .arr l)], n⟩
  else
    match v5ElemsF F E cur 0 n l with
    | .error b => .error b
    | .ok r =>
      if E.always cur || E.structured then .ok ⟨r.2.1, [], [(k, elemsJson r.1)], r.2.2⟩
      else
        match discF F r.2.2 (v5Disclosure E r.2.2 k (elemsJson r.1)) with
        | .error b => .error b
        | .ok e => .ok ⟨r.2.1, [e], [], r.2.2 + 1⟩

/-- The default case, v5.go:213-227. -/
def v5PrimF (F : Faults) (E : IEnv) (ign : Bool) (cur k : String) (n : Nat) (v : Json) : Except Bad Acc :=
  if E.nonSD cur || ign then .ok ⟨[], [], [(k, v)], n⟩
  else match discF F n (v5Disclosure E n k v) with
    | .error b => .error b
    | .ok e => .ok ⟨[], [e], [], n + 1⟩

/-- The map case after the nested object has been processed, v5.go:127-186: with the recursive setting the
disclosure is made even if it is not used. -/
def v5NestedF (F : Faults) (E : IEnv) (cur k : String) (out : List Ent × JObj × Nat) : Except Bad Acc :=
  if E.recursive cur then
    match discF F out.2.2 (v5Disclosure E out.2.2 k (.obj out.2.1)) with
    | .error b => .error b
    | .ok e =>
      if E.always cur then .ok ⟨out.1, [], [(k, .obj out.2.1)], out.2.2 + 1⟩
      else .ok ⟨out.1, [e], [], out.2.2 + 1⟩
  else if E.always cur || E.structured then .ok ⟨out.1, [], [(k, .obj out.2.1)], out.2.2⟩
  else match discF F out.2.2 (v5Disclosure E out.2.2 k (.obj out.2.1)) with
    | .error b => .error b
    | .ok e => .ok ⟨out.1, [e], [], out.2.2 + 1⟩

mutual
/-- One iteration of the loop, v5.go:112-228. -/
def v5MemberF (F : Faults) (E : IEnv) (ign : Bool) (cur k : String) (n : Nat) : Json → Except Bad Acc
  | .obj o =>
    if E.nonSD cur then .ok ⟨[], [], [(k, .obj o)], n⟩
    else
      match decoysF F E n with
      | .error b => .error b
      | .ok decoys =>
        match v5LoopF F E (v5Ignore E cur) cur (n + decoys.length) o with
        | .error b => .error b
        | .ok r => v5NestedF F E cur k (v5Finish E decoys r)
  | .arr l => v5ArrayF F E cur k n l
  | .str s => v5PrimF F E ign cur k n (.str s)
  | .num q => v5PrimF F E ign cur k n (.num q)
  | .bool b => v5PrimF F E ign cur k n (.bool b)
  | .null => .error .panic
/-- The loop of `createDisclosuresAndDigestsInternal`, v5.go:112-228. -/
def v5LoopF (F : Faults) (E : IEnv) (ign : Bool) (path : String) (n : Nat) : List (String × Json) → Except Bad Acc
  | [] => .ok ⟨[], [], [], n⟩
  | (k, v) :: m =>
    match v5MemberF F E ign (curPath path k) k n v with
    | .error b => .error b
    | .ok a =>
      match v5LoopF F E ign path a.next m with
      | .error b => .error b
      | .ok b => .ok (a.join b)
end

/-- `CreateDisclosuresAndDigests` of V5, v5.go:82-89. -/
def v5BuildF (F : Faults) (E : IEnv) (claims : JObj) : Except Bad (List Ent × JObj × Nat) :=
  match decoysF F E 0 with
  | .error b => .error b
  | .ok decoys =>
    match v5LoopF F E false "" decoys.length claims with
    | .error b => .error b
    | .ok r => .ok (v5Finish E decoys r)

/-- Errors of `New` with such functions. -/
inductive FaultyErr where
  | sdPresent
  | noHash
  | bad (b : Bad)
  deriving DecidableEq, Repr

/-- `New` with its options, issuer.go:352-402, up to signing. -/
def issueFaulty (F : Faults) (L : IssLib) (iss : String) (opts : List IssOpt) (claims : JObj) :
    Except FaultyErr (List Ent × JObj) :=
  let E := (issSettings opts).env L
  if keyExists "_sd" claims then .error .sdPresent
  else
    match (match builderOf (issSettings opts).version with
      | .v2 => v2BuildF F E claims
      | .v5 => v5BuildF F E claims) with
    | .error b => .error (.bad b)
    | .ok r =>
      match needHash L (issSettings opts) (r.1, mkPayload E ((issSettings opts).base iss) r.2.1) with
      | .error _ => .error .noHash
      | .ok x => .ok x

/-! ## Proofs -/

/-- The disclosure starts with that salt, or is that salt (a decoy). -/
def WithSalt (e : Ent) (salt : String) : Prop :=
  e.debugArr.head? = some (.str salt) ∨ (e.debugArr = [] ∧ e.result = salt)

/-- Every salt in a range of draws was returned, every disclosure has one of them and was marshalled. -/
structure NoFault (F : Faults) (E : IEnv) (n n' : Nat) (es : List Ent) : Prop where
  le : n ≤ n'
  salts : ∀ i, n ≤ i → i < n' → F.saltOk i = true
  marshalled : ∀ e ∈ es, e.debugArr ≠ [] → F.marshal e.debugArr = none
  salted : ∀ e ∈ es, ∃ i, n ≤ i ∧ i < n' ∧ WithSalt e (E.salt i)

theorem NoFault.append {F : Faults} {E : IEnv} {a b c : Nat} {es fs : List Ent} (h : NoFault F E a b es) (h' : NoFault F E b c fs) :
    NoFault F E a c (es ++ fs) where
  le := Nat.le_trans h.le h'.le
  salts := fun i h1 h2 => (Nat.lt_or_ge i b).elim (h.salts i h1) (fun hb => h'.salts i hb h2)
  marshalled := fun e he => (List.mem_append.mp he).elim (h.marshalled e) (h'.marshalled e)
  salted := fun e he => (List.mem_append.mp he).elim
    (fun hm => let ⟨i, h1, h2, h3⟩ := h.salted e hm; ⟨i, h1, Nat.lt_of_lt_of_le h2 h'.le, h3⟩)
    (fun hm => let ⟨i, h1, h2, h3⟩ := h'.salted e hm; ⟨i, Nat.le_trans h.le h1, h2, h3⟩)

theorem NoFault.sub {F : Faults} {E : IEnv} {a b : Nat} {es fs : List Ent} (h : NoFault F E a b es) (hs : ∀ e ∈ fs, e ∈ es) :
    NoFault F E a b fs := ⟨h.le, h.salts, fun e he => h.marshalled e (hs e he), fun e he => h.salted e (hs e he)⟩

theorem NoFault.nil (F : Faults) (E : IEnv) (a : Nat) : NoFault F E a a [] :=
  ⟨Nat.le_refl a, fun i h1 h2 => absurd h1 (by omega), fun _ h => (nomatch h), fun _ h => (nomatch h)⟩

theorem discF_ok {F : Faults} {E : IEnv} {n : Nat} {e e' : Ent} (hw : WithSalt e (E.salt n)) (h : discF F n e = .ok e') :
    e' = e ∧ NoFault F E n (n + 1) [e] := by
  unfold discF at h
  split at h
  · rename_i hs
    split at h
    · exact nomatch h
    · rename_i hm
      rw [Except.ok.injEq] at h
      refine ⟨h.symm, by omega, ?_, ?_, fun e'' he => ⟨n, by omega, by omega, by rw [List.mem_singleton.mp he]; exact hw⟩⟩
      · intro i h1 h2
        have : i = n := by omega
        rw [this]; exact hs
      · intro e'' he _
        rw [List.mem_singleton.mp he]; exact hm
  · exact nomatch h

theorem v2Disclosure_salt (E : IEnv) (n : Nat) (k : String) (v : Json) : WithSalt (v2Disclosure E n k v) (E.salt n) :=
  Or.inl rfl

theorem v5Disclosure_salt (E : IEnv) (n : Nat) (k : String) (v : Json) : WithSalt (v5Disclosure E n k v) (E.salt n) := by
  left
  unfold v5Disclosure
  dsimp only
  split <;> rfl

theorem decoysF_ok {F : Faults} {E : IEnv} {n : Nat} {l : List Ent} (h : decoysF F E n = .ok l) :
    l = createDecoys E n ∧ NoFault F E n (n + (createDecoys E n).length) (createDecoys E n) := by
  unfold decoysF at h
  split at h
  · rename_i ha
    rw [Except.ok.injEq] at h
    refine ⟨h.symm, by omega, ?_, ?_, ?_⟩
    · intro i h1 h2
      rw [List.all_eq_true] at ha
      have := ha (i - n) (List.mem_range.mpr (by omega))
      rwa [show n + (i - n) = i from by omega] at this
    · intro e he h0
      have := reals_decoys E n
      unfold reals at this
      rw [List.filter_eq_nil_iff] at this
      have := this e he
      exact absurd (by simpa using this) h0
    · intro e he
      unfold createDecoys at he ⊢
      split at he
      · rename_i hd
        obtain ⟨i, hi, rfl⟩ := List.mem_map.mp he
        rw [if_pos hd, List.length_map, List.length_range]
        exact ⟨n + i, by omega, by have := List.mem_range.mp hi; omega, Or.inr ⟨rfl, rfl⟩⟩
      · exact nomatch he
  · exact nomatch h

/-- What a successful step is. -/
def StepOk (F : Faults) (E : IEnv) (n : Nat) (r : Acc) (a : Acc) : Prop := r = a ∧ NoFault F E n a.next (a.nested ++ a.level)

theorem v2LeafF_ok {F : Faults} {E : IEnv} {cur k : String} {n : Nat} {v : Json} {r : Acc}
    (h : v2LeafF F E cur k n v = .ok r) : StepOk F E n r (v2Leaf E cur k n v) := by
  unfold v2LeafF at h
  unfold StepOk v2Leaf
  split at h
  · rename_i hc
    cases h
    rw [if_pos hc]
    exact ⟨rfl, NoFault.nil F E n⟩
  · rename_i hc
    rw [if_neg hc]
    split at h
    · exact nomatch h
    · rename_i e he
      obtain ⟨rfl, hn⟩ := discF_ok (v2Disclosure_salt E n k v) he
      cases h
      exact ⟨rfl, hn⟩

mutual
theorem v2MemberF_ok {F : Faults} {E : IEnv} (cur k : String) (n : Nat) : ∀ (v : Json) (r : Acc),
    v2MemberF F E cur k n v = .ok r → StepOk F E n r (v2Member E cur k n v)
  | .null, r, h => by simp only [v2MemberF] at h; simp only [v2Member]; exact v2LeafF_ok h
  | .bool _, r, h => by simp only [v2MemberF] at h; simp only [v2Member]; exact v2LeafF_ok h
  | .num _, r, h => by simp only [v2MemberF] at h; simp only [v2Member]; exact v2LeafF_ok h
  | .str _, r, h => by simp only [v2MemberF] at h; simp only [v2Member]; exact v2LeafF_ok h
  | .arr _, r, h => by simp only [v2MemberF] at h; simp only [v2Member]; exact v2LeafF_ok h
  | .obj o, r, h => by
    simp only [v2MemberF] at h
    simp only [v2Member]
    split at h
    · rename_i hs
      rw [if_pos hs]
      split at h
      · exact nomatch h
      · rename_i decoys hd
        obtain ⟨rfl, hn1⟩ := decoysF_ok hd
        split at h
        · exact nomatch h
        · rename_i r' hr
          obtain ⟨rfl, hn2⟩ := v2LoopF_ok cur _ o r' hr
          cases h
          refine ⟨rfl, ?_⟩
          refine (hn1.append hn2).sub ?_
          intro e he
          simp only [v2Finish, List.append_nil] at he
          exact List.mem_append_right _ he
    · rename_i hs
      rw [if_neg hs]
      exact v2LeafF_ok h
theorem v2LoopF_ok {F : Faults} {E : IEnv} (path : String) (n : Nat) : ∀ (m : List (String × Json)) (r : Acc),
    v2LoopF F E path n m = .ok r → StepOk F E n r (v2Loop E path n m)
  | [], r, h => by
    simp only [v2LoopF, Except.ok.injEq] at h
    simp only [v2Loop]
    exact ⟨h.symm, NoFault.nil F E n⟩
  | (k, v) :: m, r, h => by
    simp only [v2LoopF] at h
    simp only [v2Loop]
    split at h
    · exact nomatch h
    · rename_i a ha
      obtain ⟨rfl, hn1⟩ := v2MemberF_ok (curPath path k) k n v a ha
      split at h
      · exact nomatch h
      · rename_i b hb
        obtain ⟨rfl, hn2⟩ := v2LoopF_ok path _ m b hb
        cases h
        refine ⟨rfl, (hn1.append hn2).sub ?_⟩
        intro e he
        simp only [Acc.join, List.mem_append] at he ⊢
        tauto
end

theorem v5ElemsF_ok {F : Faults} {E : IEnv} (path : String) : ∀ (l : List Json) (i n : Nat)
    (r : List Json × List Ent × Nat), v5ElemsF F E path i n l = .ok r →
    r = v5Elems E path i n l ∧ NoFault F E n r.2.2 r.2.1
  | [], i, n, r, h => by
    simp only [v5ElemsF, Except.ok.injEq] at h
    subst h
    exact ⟨rfl, NoFault.nil F E n⟩
  | v :: l, i, n, r, h => by
    unfold v5ElemsF at h
    unfold v5Elems
    split at h
    · rename_i hc
      rw [if_pos hc]
      split at h
      · exact nomatch h
      · rename_i r' hr
        obtain ⟨rfl, hn⟩ := v5ElemsF_ok path l (i + 1) n r' hr
        cases h
        exact ⟨rfl, hn⟩
    · rename_i hc
      rw [if_neg hc]
      split at h
      · exact nomatch h
      · rename_i e he
        obtain ⟨rfl, hn1⟩ := discF_ok (v5Disclosure_salt E _ _ _) he
        split at h
        · exact nomatch h
        · rename_i r' hr
          obtain ⟨rfl, hn2⟩ := v5ElemsF_ok path l (i + 1) (n + 1) r' hr
          cases h
          exact ⟨rfl, hn1.append hn2⟩

theorem v5ArrayF_ok {F : Faults} {E : IEnv} {cur k : String} {n : Nat} {l : List Json} {r : Acc}
    (h : v5ArrayF F E cur k n l = .ok r) : StepOk F E n r (v5Array E cur k n l) := by
  unfold v5ArrayF at h
  unfold v5Array
  split at h
  · rename_i hc
    rw [if_pos hc]
    cases h
    exact ⟨rfl, NoFault.nil F E n⟩
  · rename_i hc
    rw [if_neg hc]
    split at h
    · exact nomatch h
    · rename_i r' hr
      obtain ⟨rfl, hn1⟩ := v5ElemsF_ok cur l 0 n r' hr
      dsimp only
      split at h
      · rename_i ha
        rw [if_pos ha]
        cases h
        exact ⟨rfl, hn1.sub (by simp)⟩
      · rename_i ha
        rw [if_neg ha]
        split at h
        · exact nomatch h
        · rename_i e he
          obtain ⟨rfl, hn2⟩ := discF_ok (v5Disclosure_salt E _ _ _) he
          cases h
          exact ⟨rfl, hn1.append hn2⟩

theorem v5PrimF_ok {F : Faults} {E : IEnv} {ign : Bool} {cur k : String} {n : Nat} {v : Json} {r : Acc}
    (h : v5PrimF F E ign cur k n v = .ok r) : StepOk F E n r (v5Prim E ign cur k n v) := by
  unfold v5PrimF at h
  unfold v5Prim
  split at h
  · rename_i hc
    rw [if_pos hc]
    cases h
    exact ⟨rfl, NoFault.nil F E n⟩
  · rename_i hc
    rw [if_neg hc]
    split at h
    · exact nomatch h
    · rename_i e he
      obtain ⟨rfl, hn⟩ := discF_ok (v5Disclosure_salt E _ _ _) he
      cases h
      exact ⟨rfl, hn⟩

theorem v5NestedF_ok {F : Faults} {E : IEnv} {cur k : String} {n : Nat} {out : List Ent × JObj × Nat} {r : Acc}
    (hn : NoFault F E n out.2.2 out.1) (h : v5NestedF F E cur k out = .ok r) : StepOk F E n r (v5Nested E cur k out) := by
  unfold v5NestedF at h
  unfold v5Nested
  split at h
  · rename_i hr
    rw [if_pos hr]
    split at h
    · exact nomatch h
    · rename_i e he
      obtain ⟨rfl, hn2⟩ := discF_ok (v5Disclosure_salt E _ _ _) he
      split at h
      · rename_i ha
        rw [if_pos ha]
        cases h
        exact ⟨rfl, (hn.append hn2).sub (by intro e he; simp only [List.append_nil] at he; exact List.mem_append_left _ he)⟩
      · rename_i ha
        rw [if_neg ha]
        cases h
        exact ⟨rfl, hn.append hn2⟩
  · rename_i hr
    rw [if_neg hr]
    split at h
    · rename_i ha
      rw [if_pos ha]
      cases h
      exact ⟨rfl, hn.sub (by simp)⟩
    · rename_i ha
      rw [if_neg ha]
      split at h
      · exact nomatch h
      · rename_i e he
        obtain ⟨rfl, hn2⟩ := discF_ok (v5Disclosure_salt E _ _ _) he
        cases h
        exact ⟨rfl, hn.append hn2⟩

mutual
theorem v5MemberF_ok {F : Faults} {E : IEnv} (ign : Bool) (cur k : String) (n : Nat) : ∀ (v : Json) (r : Acc),
    v5MemberF F E ign cur k n v = .ok r → ∃ a, v5Member E ign cur k n v = some a ∧ StepOk F E n r a
  | .null, r, h => nomatch h
  | .bool b, r, h => ⟨v5Prim E ign cur k n (.bool b), by simp only [v5Member], v5PrimF_ok (by simpa only [v5MemberF] using h)⟩
  | .num q, r, h => ⟨v5Prim E ign cur k n (.num q), by simp only [v5Member], v5PrimF_ok (by simpa only [v5MemberF] using h)⟩
  | .str s, r, h => ⟨v5Prim E ign cur k n (.str s), by simp only [v5Member], v5PrimF_ok (by simpa only [v5MemberF] using h)⟩
  | .arr l, r, h => ⟨v5Array E cur k n l, by simp only [v5Member], v5ArrayF_ok (by simpa only [v5MemberF] using h)⟩
  | .obj o, r, h => by
    simp only [v5MemberF] at h
    simp only [v5Member]
    split at h
    · rename_i hs
      rw [if_pos hs]
      cases h
      exact ⟨_, rfl, rfl, NoFault.nil F E n⟩
    · rename_i hs
      rw [if_neg hs]
      split at h
      · exact nomatch h
      · rename_i decoys hd
        obtain ⟨rfl, hn1⟩ := decoysF_ok hd
        split at h
        · exact nomatch h
        · rename_i r' hr
          obtain ⟨a, ha, rfl, hn2⟩ := v5LoopF_ok (v5Ignore E cur) cur _ o r' hr
          rw [ha]
          refine ⟨_, rfl, v5NestedF_ok ?_ h⟩
          refine (hn1.append hn2).sub ?_
          intro e he
          simp only [v5Finish, List.mem_append] at he ⊢
          tauto
theorem v5LoopF_ok {F : Faults} {E : IEnv} (ign : Bool) (path : String) (n : Nat) : ∀ (m : List (String × Json)) (r : Acc),
    v5LoopF F E ign path n m = .ok r → ∃ a, v5Loop E ign path n m = some a ∧ StepOk F E n r a
  | [], r, h => by
    simp only [v5LoopF, Except.ok.injEq] at h
    simp only [v5Loop]
    exact ⟨_, rfl, h.symm, NoFault.nil F E n⟩
  | (k, v) :: m, r, h => by
    simp only [v5LoopF] at h
    simp only [v5Loop]
    split at h
    · exact nomatch h
    · rename_i a ha
      obtain ⟨a', ha', rfl, hn1⟩ := v5MemberF_ok ign (curPath path k) k n v a ha
      rw [ha']
      dsimp only
      split at h
      · exact nomatch h
      · rename_i b hb
        obtain ⟨b', hb', rfl, hn2⟩ := v5LoopF_ok ign path _ m b hb
        rw [hb']
        cases h
        refine ⟨_, rfl, rfl, (hn1.append hn2).sub ?_⟩
        intro e he
        simp only [Acc.join, List.mem_append] at he ⊢
        tauto
end

/-- **C126** (functions that fail).  A token is issued only if it is the one that is issued when nothing fails; then
every salt drawn was returned by the salt function, and every disclosure was marshalled. -/
theorem issued_without_faults {F : Faults} {L : IssLib} {iss : String} {opts : List IssOpt} {claims : JObj}
    {es : List Ent} {payload : JObj} (h : issueFaulty F L iss opts claims = .ok (es, payload)) :
    issueWith L iss opts claims = .ok (es, payload) ∧
    (∀ e ∈ es, e.debugArr ≠ [] → F.marshal e.debugArr = none) ∧
    ∀ e ∈ es, ∃ i, F.saltOk i = true ∧ WithSalt e (((issSettings opts).env L).salt i) := by
  unfold issueFaulty at h
  dsimp only at h
  split at h
  · exact nomatch h
  · rename_i hsd
    split at h
    · exact nomatch h
    · rename_i r hr
      split at h
      · exact nomatch h
      · rename_i x hx
        have hxe := hx
        rw [Except.ok.injEq] at h
        subst h
        obtain ⟨hx1, -⟩ := needHash_ok hx
        simp only [Prod.mk.injEq] at hx1
        have key : newWith ((issSettings opts).env L) (builderOf (issSettings opts).version) ((issSettings opts).base iss)
            claims = .ok (r.1, mkPayload ((issSettings opts).env L) ((issSettings opts).base iss) r.2.1) ∧
            NoFault F ((issSettings opts).env L) 0 r.2.2 r.1 := by
          split at hr
          · rename_i hb
            rw [hb]
            unfold v2BuildF at hr
            split at hr
            · exact nomatch hr
            · rename_i decoys hd
              obtain ⟨rfl, hn1⟩ := decoysF_ok hd
              split at hr
              · exact nomatch hr
              · rename_i a ha
                obtain ⟨rfl, hn2⟩ := v2LoopF_ok "" _ claims a ha
                cases hr
                rw [Nat.zero_add] at hn1
                refine ⟨?_, (hn1.append hn2).sub ?_⟩
                · show newV2 _ _ _ = _
                  unfold newV2
                  rw [if_neg hsd]
                  rfl
                · intro e he
                  exact List.mem_append_right _ he
          · rename_i hb
            rw [hb]
            unfold v5BuildF at hr
            split at hr
            · exact nomatch hr
            · rename_i decoys hd
              obtain ⟨rfl, hn1⟩ := decoysF_ok hd
              split at hr
              · exact nomatch hr
              · rename_i a ha
                obtain ⟨a', ha', rfl, hn2⟩ := v5LoopF_ok false "" _ claims a ha
                cases hr
                rw [Nat.zero_add] at hn1
                refine ⟨?_, (hn1.append hn2).sub ?_⟩
                · show newV5 _ _ _ = _
                  unfold newV5 v5Build
                  rw [if_neg hsd, ha']
                  rfl
                · intro e he
                  simp only [v5Finish, List.mem_append] at he ⊢
                  tauto
        refine ⟨?_, ?_, ?_⟩
        · unfold issueWith
          rw [key.1]
          exact hxe
        · rw [hx1.1]; exact key.2.marshalled
        · rw [hx1.1]
          intro e he
          obtain ⟨i, h1, h2, h3⟩ := key.2.salted e he
          exact ⟨i, key.2.salts i h1 h2, h3⟩

/-! ### Nothing fails -/

/-- The functions never fail. -/
def Faults.Never (F : Faults) : Prop := (∀ i, F.saltOk i = true) ∧ ∀ a, F.marshal a = none

theorem discF_never {F : Faults} (hf : F.Never) (n : Nat) (e : Ent) : discF F n e = .ok e := by
  unfold discF
  rw [hf.1, hf.2]
  rfl

theorem decoysF_never {F : Faults} (hf : F.Never) (E : IEnv) (n : Nat) : decoysF F E n = .ok (createDecoys E n) := by
  unfold decoysF
  rw [if_pos]
  rw [List.all_eq_true]
  exact fun i _ => hf.1 _

theorem v2LeafF_never {F : Faults} (hf : F.Never) (E : IEnv) (cur k : String) (n : Nat) (v : Json) :
    v2LeafF F E cur k n v = .ok (v2Leaf E cur k n v) := by
  unfold v2LeafF v2Leaf
  split
  · rfl
  · rw [discF_never hf]

mutual
theorem v2MemberF_never {F : Faults} (hf : F.Never) (E : IEnv) (cur k : String) (n : Nat) : ∀ v : Json,
    v2MemberF F E cur k n v = .ok (v2Member E cur k n v)
  | .null => by simp only [v2MemberF, v2Member]; exact v2LeafF_never hf ..
  | .bool _ => by simp only [v2MemberF, v2Member]; exact v2LeafF_never hf ..
  | .num _ => by simp only [v2MemberF, v2Member]; exact v2LeafF_never hf ..
  | .str _ => by simp only [v2MemberF, v2Member]; exact v2LeafF_never hf ..
  | .arr _ => by simp only [v2MemberF, v2Member]; exact v2LeafF_never hf ..
  | .obj o => by
    simp only [v2MemberF, v2Member, decoysF_never hf, v2LoopF_never hf]
    split
    · rfl
    · exact v2LeafF_never hf ..
theorem v2LoopF_never {F : Faults} (hf : F.Never) (E : IEnv) (path : String) (n : Nat) : ∀ m : List (String × Json),
    v2LoopF F E path n m = .ok (v2Loop E path n m)
  | [] => by simp only [v2LoopF, v2Loop]
  | (k, v) :: m => by simp only [v2LoopF, v2Loop, v2MemberF_never hf, v2LoopF_never hf]
end

theorem v5ElemsF_never {F : Faults} (hf : F.Never) (E : IEnv) (path : String) : ∀ (l : List Json) (i n : Nat),
    v5ElemsF F E path i n l = .ok (v5Elems E path i n l)
  | [], _, _ => rfl
  | v :: l, i, n => by
    unfold v5ElemsF v5Elems
    rw [discF_never hf, v5ElemsF_never hf E path l, v5ElemsF_never hf E path l]
    split <;> rfl

theorem v5ArrayF_never {F : Faults} (hf : F.Never) (E : IEnv) (cur k : String) (n : Nat) (l : List Json) :
    v5ArrayF F E cur k n l = .ok (v5Array E cur k n l) := by
  unfold v5ArrayF v5Array
  rw [v5ElemsF_never hf]
  split
  · rfl
  · dsimp only
    rw [discF_never hf]
    split <;> rfl

theorem v5PrimF_never {F : Faults} (hf : F.Never) (E : IEnv) (ign : Bool) (cur k : String) (n : Nat) (v : Json) :
    v5PrimF F E ign cur k n v = .ok (v5Prim E ign cur k n v) := by
  unfold v5PrimF v5Prim
  rw [discF_never hf]
  split <;> rfl

theorem v5NestedF_never {F : Faults} (hf : F.Never) (E : IEnv) (cur k : String) (out : List Ent × JObj × Nat) :
    v5NestedF F E cur k out = .ok (v5Nested E cur k out) := by
  unfold v5NestedF v5Nested
  rw [discF_never hf]
  dsimp only
  split
  · split <;> rfl
  · split <;> rfl

/-- The panic of the model without failures. -/
def orPanic {α : Type} : Option α → Except Bad α
  | none => .error .panic
  | some a => .ok a

mutual
theorem v5MemberF_never {F : Faults} (hf : F.Never) (E : IEnv) (ign : Bool) (cur k : String) (n : Nat) : ∀ v : Json,
    v5MemberF F E ign cur k n v = orPanic (v5Member E ign cur k n v)
  | .null => by simp only [v5MemberF, v5Member]; rfl
  | .bool _ => by simp only [v5MemberF, v5Member]; exact v5PrimF_never hf ..
  | .num _ => by simp only [v5MemberF, v5Member]; exact v5PrimF_never hf ..
  | .str _ => by simp only [v5MemberF, v5Member]; exact v5PrimF_never hf ..
  | .arr _ => by simp only [v5MemberF, v5Member]; exact v5ArrayF_never hf ..
  | .obj o => by
    simp only [v5MemberF, v5Member, decoysF_never hf, v5LoopF_never hf, v5NestedF_never hf]
    split
    · rfl
    · cases v5Loop E (v5Ignore E cur) cur (n + (createDecoys E n).length) o <;> rfl
theorem v5LoopF_never {F : Faults} (hf : F.Never) (E : IEnv) (ign : Bool) (path : String) (n : Nat) :
    ∀ m : List (String × Json), v5LoopF F E ign path n m = orPanic (v5Loop E ign path n m)
  | [] => by simp only [v5LoopF, v5Loop]; rfl
  | (k, v) :: m => by
    simp only [v5LoopF, v5Loop, v5MemberF_never hf]
    cases v5Member E ign (curPath path k) k n v with
    | none => rfl
    | some a =>
      simp only [orPanic, v5LoopF_never hf]
      cases v5Loop E ign path a.next m <;> rfl
end

/-- The errors of `New` when the caller's functions do not fail. -/
def FaultyErr.same : FaultyErr → IssFail
  | .sdPresent => .sdPresent
  | .noHash => .noHash
  | .bad _ => .panic

/-- **C126** (functions that fail).  If they do not fail, `New` does what the model without failures does. -/
theorem issued_never_faulty {F : Faults} (hf : F.Never) (L : IssLib) (iss : String) (opts : List IssOpt) (claims : JObj) :
    issueWith L iss opts claims = (issueFaulty F L iss opts claims).mapError FaultyErr.same := by
  unfold issueWith issueFaulty newWith
  dsimp only
  generalize (issSettings opts).env L = E
  generalize issSettings opts = st
  have hneed : ∀ r, needHash L st r = .ok r ∨ needHash L st r = .error .noHash := by
    intro r
    unfold needHash
    split
    · exact Or.inl rfl
    · exact Or.inr rfl
  have fin : ∀ r, needHash L st r =
      Except.mapError FaultyErr.same (match needHash L st r with | .error _ => .error .noHash | .ok x => .ok x) := by
    intro r
    rcases hneed r with h | h <;> rw [h] <;> rfl
  cases builderOf st.version with
  | v2 =>
    unfold newV2 v2BuildF
    rw [decoysF_never hf]
    dsimp only
    rw [v2LoopF_never hf]
    by_cases hsd : keyExists "_sd" claims = true
    · rw [if_pos hsd, if_pos hsd]
      rfl
    · rw [if_neg hsd, if_neg hsd]
      exact fin _
  | v5 =>
    unfold newV5 v5BuildF v5Build
    rw [decoysF_never hf]
    dsimp only
    rw [v5LoopF_never hf]
    by_cases hsd : keyExists "_sd" claims = true
    · rw [if_pos hsd, if_pos hsd]
      rfl
    · rw [if_neg hsd, if_neg hsd]
      cases v5Loop E false "" (createDecoys E 0).length claims with
      | none => rfl
      | some r => exact fin _

/-! ### Failing is not crashing -/

theorem discF_bad {F : Faults} {n : Nat} {e : Ent} (h : discF F n e = .error .panic) : F.marshal e.debugArr = some .panic := by
  unfold discF at h
  split at h
  · split at h
    · rename_i b hb
      cases h
      exact hb
    · exact nomatch h
  · exact nomatch h

theorem decoysF_bad {F : Faults} {E : IEnv} {n : Nat} : decoysF F E n ≠ .error .panic := by
  unfold decoysF
  split <;> exact fun h => (nomatch h)

theorem v2LeafF_bad {F : Faults} {E : IEnv} {cur k : String} {n : Nat} {v : Json}
    (h : v2LeafF F E cur k n v = .error .panic) : ∃ a, F.marshal a = some .panic := by
  unfold v2LeafF at h
  split at h
  · exact nomatch h
  · split at h
    · rename_i b hb
      cases h
      exact ⟨_, discF_bad hb⟩
    · exact nomatch h

mutual
theorem v2MemberF_bad {F : Faults} {E : IEnv} (cur k : String) (n : Nat) : ∀ v : Json,
    v2MemberF F E cur k n v = .error .panic → ∃ a, F.marshal a = some .panic
  | .null, h => v2LeafF_bad (by simpa only [v2MemberF] using h)
  | .bool _, h => v2LeafF_bad (by simpa only [v2MemberF] using h)
  | .num _, h => v2LeafF_bad (by simpa only [v2MemberF] using h)
  | .str _, h => v2LeafF_bad (by simpa only [v2MemberF] using h)
  | .arr _, h => v2LeafF_bad (by simpa only [v2MemberF] using h)
  | .obj o, h => by
    simp only [v2MemberF] at h
    split at h
    · split at h
      · rename_i b hb
        cases h
        exact absurd hb decoysF_bad
      · split at h
        · rename_i b hb
          cases h
          exact v2LoopF_bad cur _ o hb
        · exact nomatch h
    · exact v2LeafF_bad h
theorem v2LoopF_bad {F : Faults} {E : IEnv} (path : String) (n : Nat) : ∀ m : List (String × Json),
    v2LoopF F E path n m = .error .panic → ∃ a, F.marshal a = some .panic
  | [], h => nomatch h
  | (k, v) :: m, h => by
    simp only [v2LoopF] at h
    split at h
    · rename_i b hb
      cases h
      exact v2MemberF_bad (curPath path k) k n v hb
    · split at h
      · rename_i b hb
        cases h
        exact v2LoopF_bad path _ m hb
      · exact nomatch h
end

theorem v5ElemsF_bad {F : Faults} {E : IEnv} (path : String) : ∀ (l : List Json) (i n : Nat),
    v5ElemsF F E path i n l = .error .panic → ∃ a, F.marshal a = some .panic
  | [], _, _, h => nomatch h
  | v :: l, i, n, h => by
    unfold v5ElemsF at h
    split at h
    · split at h
      · rename_i b hb
        cases h
        exact v5ElemsF_bad path l _ _ hb
      · exact nomatch h
    · split at h
      · rename_i b hb
        cases h
        exact ⟨_, discF_bad hb⟩
      · split at h
        · rename_i b hb
          cases h
          exact v5ElemsF_bad path l _ _ hb
        · exact nomatch h

theorem v5ArrayF_bad {F : Faults} {E : IEnv} {cur k : String} {n : Nat} {l : List Json}
    (h : v5ArrayF F E cur k n l = .error .panic) : ∃ a, F.marshal a = some .panic := by
  unfold v5ArrayF at h
  split at h
  · exact nomatch h
  · split at h
    · rename_i b hb
      cases h
      exact v5ElemsF_bad cur l _ _ hb
    · split at h
      · exact nomatch h
      · split at h
        · rename_i b hb
          cases h
          exact ⟨_, discF_bad hb⟩
        · exact nomatch h

theorem v5PrimF_bad {F : Faults} {E : IEnv} {ign : Bool} {cur k : String} {n : Nat} {v : Json}
    (h : v5PrimF F E ign cur k n v = .error .panic) : ∃ a, F.marshal a = some .panic := by
  unfold v5PrimF at h
  split at h
  · exact nomatch h
  · split at h
    · rename_i b hb
      cases h
      exact ⟨_, discF_bad hb⟩
    · exact nomatch h

theorem v5NestedF_bad {F : Faults} {E : IEnv} {cur k : String} {out : List Ent × JObj × Nat}
    (h : v5NestedF F E cur k out = .error .panic) : ∃ a, F.marshal a = some .panic := by
  unfold v5NestedF at h
  split at h
  · split at h
    · rename_i b hb
      cases h
      exact ⟨_, discF_bad hb⟩
    · split at h <;> exact nomatch h
  · split at h
    · exact nomatch h
    · split at h
      · rename_i b hb
        cases h
        exact ⟨_, discF_bad hb⟩
      · exact nomatch h

mutual
theorem v5MemberF_bad {F : Faults} {E : IEnv} (hm : ∀ a, F.marshal a ≠ some .panic) (ign : Bool) (cur k : String)
    (n : Nat) : ∀ v : Json, v5MemberF F E ign cur k n v = .error .panic → v5Member E ign cur k n v = none
  | .null, _ => by simp only [v5Member]
  | .bool _, h => absurd (v5PrimF_bad (by simpa only [v5MemberF] using h)) (fun ⟨a, ha⟩ => hm a ha)
  | .num _, h => absurd (v5PrimF_bad (by simpa only [v5MemberF] using h)) (fun ⟨a, ha⟩ => hm a ha)
  | .str _, h => absurd (v5PrimF_bad (by simpa only [v5MemberF] using h)) (fun ⟨a, ha⟩ => hm a ha)
  | .arr _, h => absurd (v5ArrayF_bad (by simpa only [v5MemberF] using h)) (fun ⟨a, ha⟩ => hm a ha)
  | .obj o, h => by
    simp only [v5MemberF] at h
    simp only [v5Member]
    split at h
    · exact nomatch h
    · rename_i hs
      rw [if_neg hs]
      split at h
      · rename_i b hb
        cases h
        exact absurd hb decoysF_bad
      · rename_i decoys hd
        obtain ⟨rfl, -⟩ := decoysF_ok hd
        split at h
        · rename_i b hb
          cases h
          rw [v5LoopF_bad hm (v5Ignore E cur) cur _ o hb]
          rfl
        · exact absurd (v5NestedF_bad h) (fun ⟨a, ha⟩ => hm a ha)
theorem v5LoopF_bad {F : Faults} {E : IEnv} (hm : ∀ a, F.marshal a ≠ some .panic) (ign : Bool) (path : String)
    (n : Nat) : ∀ m : List (String × Json), v5LoopF F E ign path n m = .error .panic → v5Loop E ign path n m = none
  | [], h => nomatch h
  | (k, v) :: m, h => by
    simp only [v5LoopF] at h
    simp only [v5Loop]
    split at h
    · rename_i b hb
      cases h
      rw [v5MemberF_bad hm ign (curPath path k) k n v hb]
    · rename_i a ha
      obtain ⟨a', ha', rfl, -⟩ := v5MemberF_ok ign (curPath path k) k n v a ha
      rw [ha']
      dsimp only
      split at h
      · rename_i b hb
        cases h
        rw [v5LoopF_bad hm ign path _ m hb]
      · exact nomatch h
end

/-- **C126** (functions that fail).  A failing salt function or marshaller gives an error: `New` panics only if the
marshaller itself does (a nil one), or if it would without any failure. -/
theorem fault_not_crash {F : Faults} (hm : ∀ a, F.marshal a ≠ some .panic) {L : IssLib} {iss : String}
    {opts : List IssOpt} {claims : JObj} (h : issueFaulty F L iss opts claims = .error (.bad .panic)) :
    issueWith L iss opts claims = .error .panic := by
  unfold issueFaulty at h
  dsimp only at h
  unfold issueWith newWith
  split at h
  · exact nomatch h
  · rename_i hsd
    split at h
    · rename_i b hb
      cases h
      split at hb
      · unfold v2BuildF at hb
        split at hb
        · rename_i b hd
          cases hb
          exact absurd hd decoysF_bad
        · split at hb
          · rename_i b hl
            cases hb
            exact absurd (v2LoopF_bad "" _ claims hl) (fun ⟨a, ha⟩ => hm a ha)
          · exact nomatch hb
      · rename_i hv
        rw [hv]
        unfold v5BuildF at hb
        dsimp only
        unfold newV5 v5Build
        rw [if_neg hsd]
        split at hb
        · rename_i b hd
          cases hb
          exact absurd hd decoysF_bad
        · rename_i decoys hd
          obtain ⟨rfl, -⟩ := decoysF_ok hd
          split at hb
          · rename_i b hl
            cases hb
            rw [v5LoopF_bad hm false "" _ claims hl]
            rfl
          · exact nomatch hb
    · split at h
      · exact nomatch h
      · exact nomatch h

/-! ### Salts that were not returned -/

/-- The same issuer with other salts. -/
def withSalt (E : IEnv) (s : Nat → String) : IEnv := { E with salt := s }

/-- The two salt functions return the same salts, where they return one. -/
def SameReturned (F : Faults) (s s' : Nat → String) : Prop := ∀ i, F.saltOk i = true → s i = s' i

theorem discF_salt2 {F : Faults} {E : IEnv} {s' : Nat → String} (hs : SameReturned F E.salt s') (n : Nat) (k : String)
    (v : Json) : discF F n (v2Disclosure (withSalt E s') n k v) = discF F n (v2Disclosure E n k v) := by
  unfold discF
  split
  · rename_i h
    unfold v2Disclosure withSalt
    dsimp only
    rw [hs n h]
  · rfl

theorem discF_salt5 {F : Faults} {E : IEnv} {s' : Nat → String} (hs : SameReturned F E.salt s') (n : Nat) (k : String)
    (v : Json) : discF F n (v5Disclosure (withSalt E s') n k v) = discF F n (v5Disclosure E n k v) := by
  unfold discF
  split
  · rename_i h
    unfold v5Disclosure withSalt
    dsimp only
    rw [hs n h]
  · rfl

theorem decoysF_salt {F : Faults} {E : IEnv} {s' : Nat → String} (hs : SameReturned F E.salt s') (n : Nat) :
    decoysF F (withSalt E s') n = decoysF F E n := by
  have hl : (createDecoys (withSalt E s') n).length = (createDecoys E n).length := by
    unfold createDecoys withSalt
    dsimp only
    split <;> simp
  unfold decoysF
  rw [hl]
  split
  · rename_i h
    rw [List.all_eq_true] at h
    congr 1
    unfold createDecoys at h ⊢
    unfold withSalt
    dsimp only
    split
    · rename_i hd
      rw [if_pos hd, List.length_map, List.length_range] at h
      apply List.map_congr_left
      intro i hi
      rw [hs _ (h i hi)]
    · rfl
  · rfl

theorem v2LeafF_salt {F : Faults} {E : IEnv} {s' : Nat → String} (hs : SameReturned F E.salt s') (cur k : String) (n : Nat)
    (v : Json) : v2LeafF F (withSalt E s') cur k n v = v2LeafF F E cur k n v := by
  unfold v2LeafF
  rw [discF_salt2 hs]
  rfl

mutual
theorem v2MemberF_salt {F : Faults} {E : IEnv} {s' : Nat → String} (hs : SameReturned F E.salt s') (cur k : String)
    (n : Nat) : ∀ v : Json, v2MemberF F (withSalt E s') cur k n v = v2MemberF F E cur k n v
  | .null => by simp only [v2MemberF]; exact v2LeafF_salt hs ..
  | .bool _ => by simp only [v2MemberF]; exact v2LeafF_salt hs ..
  | .num _ => by simp only [v2MemberF]; exact v2LeafF_salt hs ..
  | .str _ => by simp only [v2MemberF]; exact v2LeafF_salt hs ..
  | .arr _ => by simp only [v2MemberF]; exact v2LeafF_salt hs ..
  | .obj o => by
    simp only [v2MemberF, decoysF_salt hs, v2LeafF_salt hs, v2LoopF_salt hs]
    rfl
theorem v2LoopF_salt {F : Faults} {E : IEnv} {s' : Nat → String} (hs : SameReturned F E.salt s') (path : String) (n : Nat) :
    ∀ m : List (String × Json), v2LoopF F (withSalt E s') path n m = v2LoopF F E path n m
  | [] => by simp only [v2LoopF]
  | (k, v) :: m => by simp only [v2LoopF, v2MemberF_salt hs, v2LoopF_salt hs]
end

theorem v5ElemsF_salt {F : Faults} {E : IEnv} {s' : Nat → String} (hs : SameReturned F E.salt s') (path : String) :
    ∀ (l : List Json) (i n : Nat), v5ElemsF F (withSalt E s') path i n l = v5ElemsF F E path i n l
  | [], _, _ => rfl
  | v :: l, i, n => by
    unfold v5ElemsF
    rw [discF_salt5 hs, v5ElemsF_salt hs path l, v5ElemsF_salt hs path l]
    rfl

theorem v5ArrayF_salt {F : Faults} {E : IEnv} {s' : Nat → String} (hs : SameReturned F E.salt s') (cur k : String) (n : Nat)
    (l : List Json) : v5ArrayF F (withSalt E s') cur k n l = v5ArrayF F E cur k n l := by
  unfold v5ArrayF
  rw [v5ElemsF_salt hs]
  simp only [discF_salt5 hs]
  rfl

theorem v5PrimF_salt {F : Faults} {E : IEnv} {s' : Nat → String} (hs : SameReturned F E.salt s') (ign : Bool)
    (cur k : String) (n : Nat) (v : Json) : v5PrimF F (withSalt E s') ign cur k n v = v5PrimF F E ign cur k n v := by
  unfold v5PrimF
  rw [discF_salt5 hs]
  rfl

theorem v5NestedF_salt {F : Faults} {E : IEnv} {s' : Nat → String} (hs : SameReturned F E.salt s') (cur k : String)
    (out : List Ent × JObj × Nat) : v5NestedF F (withSalt E s') cur k out = v5NestedF F E cur k out := by
  unfold v5NestedF
  rw [discF_salt5 hs]
  rfl

mutual
theorem v5MemberF_salt {F : Faults} {E : IEnv} {s' : Nat → String} (hs : SameReturned F E.salt s') (ign : Bool)
    (cur k : String) (n : Nat) : ∀ v : Json, v5MemberF F (withSalt E s') ign cur k n v = v5MemberF F E ign cur k n v
  | .null => by simp only [v5MemberF]
  | .bool _ => by simp only [v5MemberF]; exact v5PrimF_salt hs ..
  | .num _ => by simp only [v5MemberF]; exact v5PrimF_salt hs ..
  | .str _ => by simp only [v5MemberF]; exact v5PrimF_salt hs ..
  | .arr _ => by simp only [v5MemberF]; exact v5ArrayF_salt hs ..
  | .obj o => by
    simp only [v5MemberF, decoysF_salt hs, v5NestedF_salt hs, v5LoopF_salt hs]
    rfl
theorem v5LoopF_salt {F : Faults} {E : IEnv} {s' : Nat → String} (hs : SameReturned F E.salt s') (ign : Bool)
    (path : String) (n : Nat) :
    ∀ m : List (String × Json), v5LoopF F (withSalt E s') ign path n m = v5LoopF F E ign path n m
  | [] => by simp only [v5LoopF]
  | (k, v) :: m => by simp only [v5LoopF, v5MemberF_salt hs, v5LoopF_salt hs]
end

theorem issSettings_snoc (opts : List IssOpt) (o : IssOpt) : issSettings (opts ++ [o]) = o.apply (issSettings opts) := by
  unfold issSettings
  rw [List.foldl_append]
  rfl

/-- **C126** (functions that fail).  Salts that were not returned are not used, for decoys neither: what `New` does is
the same for two salt functions that return the same salts where they return one. -/
theorem lost_salts_unused {F : Faults} (L : IssLib) (iss : String) (opts : List IssOpt) (claims : JObj)
    {f f' : Nat → String} (hs : SameReturned F f f') :
    issueFaulty F L iss (opts ++ [.saltFnc (some f)]) claims =
    issueFaulty F L iss (opts ++ [.saltFnc (some f')]) claims := by
  unfold issueFaulty
  rw [issSettings_snoc, issSettings_snoc]
  dsimp only
  have hE : ((IssOpt.saltFnc (some f')).apply (issSettings opts)).env L =
      withSalt (((IssOpt.saltFnc (some f)).apply (issSettings opts)).env L) f' := rfl
  have hs' : SameReturned F (((IssOpt.saltFnc (some f)).apply (issSettings opts)).env L).salt f' := hs
  rw [hE]
  generalize ((IssOpt.saltFnc (some f)).apply (issSettings opts)).env L = E at hs' ⊢
  have h2 : v2BuildF F (withSalt E f') claims = v2BuildF F E claims := by
    unfold v2BuildF
    simp only [decoysF_salt hs', v2LoopF_salt hs']
    rfl
  have h5 : v5BuildF F (withSalt E f') claims = v5BuildF F E claims := by
    unfold v5BuildF
    simp only [decoysF_salt hs', v5LoopF_salt hs']
    rfl
  rw [h2, h5]
  rfl

end VC.SDJWT
