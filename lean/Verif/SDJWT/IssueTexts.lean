import Verif.SDJWT.IssueOptionsExamples
/-!
# sdjwt/issuer: how the texts of the disclosures are made (C126)

Every disclosure is the base64url form of what the caller's marshaller (or `json.Marshal`) makes of its array, the
array starts with a salt of the caller's salt function (or of the built-in one), and no draw of a salt is used for
two disclosures.
-/

namespace VC.SDJWT

/-! ## Specification -/

/-- The entry was made with the `i`-th salt: a decoy, or a disclosure of a named member or of an array element. -/
inductive TextBy (encode : List Json → String) (salt : Nat → String) (i : Nat) : Ent → Prop
  | decoy : TextBy encode salt i ⟨salt i, []⟩
  | member (k : String) (v : Json) :
      TextBy encode salt i ⟨encode [.str (salt i), .str k, v], [.str (salt i), .str k, v]⟩
  | element (v : Json) : TextBy encode salt i ⟨encode [.str (salt i), v], [.str (salt i), v]⟩

/-- The entries, each with the number of the draw that made its salt: no draw is used twice. -/
structure Draws (encode : List Json → String) (salt : Nat → String) (lo hi : Nat) (l : List (Nat × Ent)) : Prop where
  once : (l.map Prod.fst).Nodup
  made : ∀ p ∈ l, lo ≤ p.1 ∧ p.1 < hi ∧ TextBy encode salt p.1 p.2

/-! ## Proofs -/

section
variable {enc : List Json → String} {salt : Nat → String}

theorem draws_nil (lo hi : Nat) : Draws enc salt lo hi [] := ⟨by simp, by simp⟩

theorem draws_perm {lo hi : Nat} {a b : List (Nat × Ent)} (h : Draws enc salt lo hi a) (p : a.Perm b) :
    Draws enc salt lo hi b :=
  ⟨(p.map Prod.fst).nodup_iff.mp h.once, fun x hx => h.made x (p.mem_iff.mpr hx)⟩

theorem draws_mono {lo hi lo' hi' : Nat} {a : List (Nat × Ent)} (h : Draws enc salt lo hi a) (h1 : lo' ≤ lo)
    (h2 : hi ≤ hi') : Draws enc salt lo' hi' a :=
  ⟨h.once, fun x hx => have := h.made x hx; ⟨by omega, by omega, this.2.2⟩⟩

theorem draws_append {lo mid hi : Nat} {a b : List (Nat × Ent)} (ha : Draws enc salt lo mid a)
    (hb : Draws enc salt mid hi b) (h1 : lo ≤ mid) (h2 : mid ≤ hi) : Draws enc salt lo hi (a ++ b) := by
  refine ⟨?_, ?_⟩
  · rw [List.map_append, List.nodup_append]
    refine ⟨ha.once, hb.once, fun x hx y hy e => ?_⟩
    obtain ⟨p, hp, rfl⟩ := List.mem_map.mp hx
    obtain ⟨q, hq, rfl⟩ := List.mem_map.mp hy
    have := ha.made p hp
    have := hb.made q hq
    omega
  · intro p hp
    rcases List.mem_append.mp hp with hp | hp
    · have := ha.made p hp; exact ⟨this.1, by omega, this.2.2⟩
    · have := hb.made p hp; exact ⟨by omega, this.2.1, this.2.2⟩

theorem draws_one {i : Nat} {e : Ent} (h : TextBy enc salt i e) : Draws enc salt i (i + 1) [(i, e)] :=
  ⟨by simp, fun p hp => by rw [List.mem_singleton] at hp; subst hp; exact ⟨Nat.le_refl _, Nat.lt_succ_self _, h⟩⟩

end

/-- What the loops keep: nested and level entries have their own draws in the range. -/
def AccDraws (E : IEnv) (lo : Nat) (r : Acc) : Prop :=
  lo ≤ r.next ∧ ∃ a b : List (Nat × Ent), r.nested = a.map Prod.snd ∧ r.level = b.map Prod.snd ∧
    Draws E.encode E.salt lo r.next (a ++ b)

theorem accDraws_nil (E : IEnv) (n : Nat) (f : JObj) : AccDraws E n ⟨[], [], f, n⟩ :=
  ⟨Nat.le_refl _, [], [], rfl, rfl, draws_nil _ _⟩

theorem accDraws_level {E : IEnv} {n : Nat} {f : JObj} {e : Ent} (h : TextBy E.encode E.salt n e) :
    AccDraws E n ⟨[], [e], f, n + 1⟩ := ⟨Nat.le_succ _, [], [(n, e)], rfl, rfl, draws_one h⟩

theorem accDraws_join {E : IEnv} {n : Nat} {x y : Acc} (hx : AccDraws E n x) (hy : AccDraws E x.next y) :
    AccDraws E n (x.join y) := by
  obtain ⟨l1, a, b, ha, hb, hd⟩ := hx
  obtain ⟨l2, c, d, hc, hd', he⟩ := hy
  refine ⟨Nat.le_trans l1 l2, a ++ c, b ++ d, by simp [Acc.join, ha, hc], by simp [Acc.join, hb, hd'], ?_⟩
  refine draws_perm (draws_append hd he l1 l2) ?_
  rw [List.append_assoc, List.append_assoc]
  refine List.Perm.append_left a ?_
  rw [← List.append_assoc, ← List.append_assoc]
  exact List.Perm.append_right d List.perm_append_comm

theorem decoys_draws (E : IEnv) (n : Nat) : ∃ l : List (Nat × Ent), createDecoys E n = l.map Prod.snd ∧
    Draws E.encode E.salt n (n + (createDecoys E n).length) l := by
  unfold createDecoys
  split
  · refine ⟨(List.range (E.intn n % 4 + 1)).map fun i => (n + i, ⟨E.salt (n + i), []⟩), by simp, ?_, ?_⟩
    · rw [List.map_map]
      have : (Prod.fst ∘ fun i => (n + i, (⟨E.salt (n + i), []⟩ : Ent))) = fun i => n + i := rfl
      rw [this]
      exact List.Nodup.map_on (by intro a _ b _ e; omega) List.nodup_range
    · intro p hp
      obtain ⟨i, hi, rfl⟩ := List.mem_map.mp hp
      have := List.mem_range.mp hi
      simp only [List.length_map, List.length_range]
      exact ⟨Nat.le_add_right _ _, by omega, .decoy⟩
  · exact ⟨[], rfl, draws_nil _ _⟩

theorem v2Leaf_draws (E : IEnv) (cur k : String) (n : Nat) (v : Json) : AccDraws E n (v2Leaf E cur k n v) := by
  unfold v2Leaf
  split
  · exact accDraws_nil E n _
  · exact accDraws_level (.member k v)

mutual
theorem v2Member_draws (E : IEnv) (cur k : String) (n : Nat) (j : Json) : AccDraws E n (v2Member E cur k n j) := by
  match j with
  | .obj o =>
    rw [v2Member]
    split
    · obtain ⟨l1, a, b, ha, hb, hd⟩ := v2Loop_draws E cur (n + (createDecoys E n).length) o
      refine ⟨?_, a ++ b, [], ?_, rfl, ?_⟩
      · show n ≤ (v2Loop E cur (n + (createDecoys E n).length) o).next
        omega
      · simp [v2Finish, ha, hb]
      · rw [List.append_nil]
        exact draws_mono hd (Nat.le_add_right _ _) (Nat.le_refl _)
    · exact v2Leaf_draws E cur k n _
  | .arr _ | .str _ | .num _ | .bool _ | .null => rw [v2Member]; exact v2Leaf_draws E cur k n _
theorem v2Loop_draws (E : IEnv) (path : String) (n : Nat) (m : List (String × Json)) :
    AccDraws E n (v2Loop E path n m) := by
  match m with
  | [] => rw [v2Loop]; exact accDraws_nil E n _
  | (k, v) :: m =>
    rw [v2Loop]
    exact accDraws_join (v2Member_draws E _ k n v) (v2Loop_draws E path _ m)
end

theorem v5Disclosure_text (E : IEnv) (n : Nat) (k : String) (v : Json) :
    TextBy E.encode E.salt n (v5Disclosure E n k v) := by
  unfold v5Disclosure
  dsimp only
  split
  · exact .member k v
  · exact .element v

theorem v5Elems_draws (E : IEnv) (path : String) (i n : Nat) (l : List Json) :
    n ≤ (v5Elems E path i n l).2.2 ∧ ∃ a : List (Nat × Ent), (v5Elems E path i n l).2.1 = a.map Prod.snd ∧
      Draws E.encode E.salt n (v5Elems E path i n l).2.2 a := by
  induction l generalizing i n with
  | nil => rw [v5Elems]; exact ⟨Nat.le_refl _, [], rfl, draws_nil _ _⟩
  | cons v l ih =>
    rw [v5Elems]
    split
    · exact ih (i + 1) n
    · obtain ⟨h1, a, h2, h3⟩ := ih (i + 1) (n + 1)
      refine ⟨by dsimp only; omega, (n, v5Disclosure E n "" v) :: a, by simp [h2], ?_⟩
      exact draws_append (draws_one (v5Disclosure_text E n "" v)) h3 (Nat.le_succ _) h1

theorem accDraws_more {E : IEnv} {n m : Nat} {f : JObj} {a : List (Nat × Ent)} (k : String) (v : Json)
    (h : n ≤ m) (hd : Draws E.encode E.salt n m a) :
    AccDraws E n ⟨a.map Prod.snd, [v5Disclosure E m k v], f, m + 1⟩ :=
  ⟨by dsimp only; omega, a, [(m, v5Disclosure E m k v)], rfl, rfl,
    draws_append hd (draws_one (v5Disclosure_text E m k v)) h (Nat.le_succ _)⟩

theorem v5Array_draws (E : IEnv) (cur k : String) (n : Nat) (l : List Json) : AccDraws E n (v5Array E cur k n l) := by
  unfold v5Array
  split
  · exact accDraws_nil E n _
  · obtain ⟨h1, a, h2, h3⟩ := v5Elems_draws E cur 0 n l
    dsimp only
    split
    · exact ⟨h1, a, [], h2, rfl, by rw [List.append_nil]; exact h3⟩
    · rw [h2]; exact accDraws_more k _ h1 h3

theorem v5Prim_draws (E : IEnv) (ign : Bool) (cur k : String) (n : Nat) (v : Json) :
    AccDraws E n (v5Prim E ign cur k n v) := by
  unfold v5Prim
  split
  · exact accDraws_nil E n _
  · exact accDraws_level (v5Disclosure_text E n k v)

/-- The entries at the end of an object. -/
theorem v5Finish_draws {E : IEnv} {n : Nat} {r : Acc}
    (h : AccDraws E (n + (createDecoys E n).length) r) :
    n ≤ (v5Finish E (createDecoys E n) r).2.2 ∧
      ∃ a : List (Nat × Ent), (v5Finish E (createDecoys E n) r).1 = a.map Prod.snd ∧
        Draws E.encode E.salt n (v5Finish E (createDecoys E n) r).2.2 a := by
  obtain ⟨l, hl, hd⟩ := decoys_draws E n
  obtain ⟨l1, a, b, ha, hb, he⟩ := h
  refine ⟨by show n ≤ r.next; omega, l ++ b ++ a, by simp [v5Finish, ← hl, ha, hb], ?_⟩
  refine draws_perm (draws_append hd he (Nat.le_add_right _ _) l1) ?_
  rw [List.append_assoc]
  exact List.Perm.append_left l List.perm_append_comm

theorem v5Nested_draws {E : IEnv} {cur k : String} {n : Nat} {out : List Ent × JObj × Nat} (h1 : n ≤ out.2.2)
    (h2 : ∃ a : List (Nat × Ent), out.1 = a.map Prod.snd ∧ Draws E.encode E.salt n out.2.2 a) :
    AccDraws E n (v5Nested E cur k out) := by
  obtain ⟨a, ha, hd⟩ := h2
  unfold v5Nested
  rw [ha]
  split
  · split
    · exact ⟨by dsimp only; omega, a, [], rfl, rfl, by
        rw [List.append_nil]; exact draws_mono hd (Nat.le_refl _) (Nat.le_succ _)⟩
    · exact accDraws_more k _ h1 hd
  · split
    · exact ⟨h1, a, [], rfl, rfl, by rw [List.append_nil]; exact hd⟩
    · exact accDraws_more k _ h1 hd

mutual
theorem v5Member_draws (E : IEnv) (ign : Bool) (cur k : String) (n : Nat) (j : Json) (r : Acc)
    (h : v5Member E ign cur k n j = some r) : AccDraws E n r := by
  match j with
  | .obj o =>
    rw [v5Member] at h
    split at h
    · cases h; exact accDraws_nil E n _
    · obtain ⟨x, hx, rfl⟩ := Option.map_eq_some_iff.mp h
      have := v5Finish_draws (v5Loop_draws E _ cur _ o x hx)
      exact v5Nested_draws this.1 this.2
  | .arr l => rw [v5Member] at h; cases h; exact v5Array_draws E cur k n l
  | .str _ | .num _ | .bool _ => rw [v5Member] at h; cases h; exact v5Prim_draws E ign cur k n _
  | .null => rw [v5Member] at h; cases h
theorem v5Loop_draws (E : IEnv) (ign : Bool) (path : String) (n : Nat) (m : List (String × Json)) (r : Acc)
    (h : v5Loop E ign path n m = some r) : AccDraws E n r := by
  match m with
  | [] => rw [v5Loop] at h; cases h; exact accDraws_nil E n _
  | (k, v) :: m =>
    rw [v5Loop] at h
    split at h
    · cases h
    · rename_i a ha
      split at h
      · cases h
      · rename_i b hb
        cases h
        exact accDraws_join (v5Member_draws E ign _ k n v a ha) (v5Loop_draws E ign path _ m b hb)
end

/-- Whatever is issued: the entries, each with its own draw. -/
theorem newWith_draws {E : IEnv} {ver : Ver} {o : BaseOpts} {claims : JObj} {r : List Ent × JObj}
    (h : newWith E ver o claims = .ok r) :
    ∃ (n : Nat) (a : List (Nat × Ent)), r.1 = a.map Prod.snd ∧ Draws E.encode E.salt 0 n a := by
  cases ver with
  | v2 =>
    unfold newWith newV2 at h
    dsimp only at h
    split at h
    · cases h
    · cases h
      obtain ⟨l1, a, b, ha, hb, hd⟩ := v2Loop_draws E "" (createDecoys E 0).length claims
      exact ⟨_, a ++ b, by simp [v2Build, v2Finish, ha, hb], draws_mono hd (Nat.zero_le _) (Nat.le_refl _)⟩
  | v5 =>
    unfold newWith newV5 at h
    dsimp only at h
    split at h
    · cases h
    · split at h
      · cases h
      · rename_i x hx
        cases h
        unfold v5Build at hx
        obtain ⟨y, hy, rfl⟩ := Option.map_eq_some_iff.mp hx
        have hy' := v5Loop_draws E false "" _ claims y hy
        obtain ⟨-, a, ha, hd⟩ := v5Finish_draws (n := 0) (by rw [Nat.zero_add]; exact hy')
        exact ⟨_, a, ha, hd⟩

/-! ## Theorems -/

/-- **C126.**  Every text `New` hands out is the base64url form of what the last marshaller given (else
`json.Marshal`) makes of an array that starts with a salt of the last salt function given (else the built-in one),
or, in the V5 format, such a salt alone (a decoy); no draw of a salt serves two of them. -/
theorem issued_texts {L : IssLib} {iss : String} {opts : List IssOpt} {claims : JObj} {r : List Ent × JObj}
    {s : IssSettings} (hm : IssMeans opts s) (h : issueWith L iss opts claims = .ok r) :
    ∃ (n : Nat) (a : List (Nat × Ent)), r.1 = a.map Prod.snd ∧
      Draws (fun arr => L.b64 (match s.marshaller with | some m => m arr | none => L.marshal arr))
        (match s.saltFnc with | some f => f | none => L.genSalt) 0 n a := by
  obtain rfl := issMeans_unique hm (issuing_options opts)
  obtain ⟨n, a, h1, h2⟩ := newWith_draws (issueWith_ok h).1
  refine ⟨n, a, h1, ?_⟩
  have e1 : ((issSettings opts).env L).encode =
      fun arr => L.b64 (match (issSettings opts).marshaller with | some m => m arr | none => L.marshal arr) := by
    funext arr
    unfold IssSettings.env
    dsimp only
    cases (issSettings opts).marshaller <;> rfl
  have e2 : ((issSettings opts).env L).salt =
      (match (issSettings opts).saltFnc with | some f => f | none => L.genSalt) := by
    unfold IssSettings.env
    dsimp only
    cases (issSettings opts).saltFnc <;> rfl
  rwa [e1, e2] at h2

/-- **C126.**  With salts that never repeat, no two disclosures of one token have the same salt. -/
theorem issued_salts_differ {L : IssLib} {iss : String} {opts : List IssOpt} {claims : JObj} {r : List Ent × JObj}
    {s : IssSettings} (hm : IssMeans opts s) (h : issueWith L iss opts claims = .ok r)
    (hinj : Function.Injective (match s.saltFnc with | some f => f | none => L.genSalt)) :
    ∀ (i j : Nat) (e e' : Ent) (x y : Json), r.1[i]? = some e → r.1[j]? = some e' → i ≠ j →
      e.debugArr[0]? = some x → e'.debugArr[0]? = some y → x ≠ y := by
  obtain ⟨n, a, h1, h2⟩ := issued_texts hm h
  intro i j e e' x y hi hj hij hx hy
  rw [h1, List.getElem?_map] at hi hj
  obtain ⟨p, hp, rfl⟩ := Option.map_eq_some_iff.mp hi
  obtain ⟨q, hq, rfl⟩ := Option.map_eq_some_iff.mp hj
  have key : ∀ (p : Nat × Ent) (x : Json), p ∈ a → p.2.debugArr[0]? = some x →
      x = .str ((match s.saltFnc with | some f => f | none => L.genSalt) p.1) := by
    intro p x hp hx
    obtain ⟨i, e⟩ := p
    have := (h2.made _ hp).2.2
    dsimp only at this hx
    cases this with
    | decoy => cases hx
    | member k v => cases hx; rfl
    | element v => cases hx; rfl
  rw [key p x (List.mem_of_getElem? hp) hx, key q y (List.mem_of_getElem? hq) hy]
  intro e
  have e' : p.1 = q.1 := hinj (Json.str.inj e)
  have hlt : i < (a.map Prod.fst).length := by
    rw [List.length_map]; exact (List.getElem?_eq_some_iff.mp hp).1
  refine hij ((List.getElem?_inj hlt h2.once).mp ?_)
  rw [List.getElem?_map, List.getElem?_map, hp, hq]
  simp [e']

theorem newFromVC_draws {E : IEnv} {ver : Ver} {o : BaseOpts} {vc : JObj} {r : List Ent × JObj}
    (h : newFromVC E ver o vc = .ok r) :
    ∃ (n : Nat) (a : List (Nat × Ent)), r.1 = a.map Prod.snd ∧ Draws E.encode E.salt 0 n a := by
  unfold newFromVC at h
  split at h
  · cases h
  · split at h
    · cases h
    · rename_i es payload hn
      have := newWith_draws hn
      split at h
      · cases h
      · cases h; exact this
      · cases h; exact this
  · cases h

/-- **C126.**  The same for `MakeSDJWT`, which always uses `json.Marshal` and the built-in salts. -/
theorem made_texts {L : IssLib} {envelope : Option Int} {opts : List MkOpt} {claims : Int → JObj}
    {r : List Ent × JObj} (h : makeWith L envelope opts claims = .ok r) :
    ∃ (n : Nat) (a : List (Nat × Ent)), r.1 = a.map Prod.snd ∧
      Draws (fun arr => L.b64 (L.marshal arr)) L.genSalt 0 n a := by
  unfold makeWith fromVCWith at h
  split at h
  · cases h
  · rename_i r' hr
    obtain ⟨rfl, -⟩ := needHash_ok h
    obtain ⟨n, a, h1, h2⟩ := newFromVC_draws hr
    rw [issuer_settings] at h2
    exact ⟨n, a, h1, h2⟩

example : ∃ (n : Nat) (a : List (Nat × Ent)), fvV2.1 = a.map Prod.snd ∧
    Draws (fun arr => (ioLib fvSalts).b64 ((ioLib fvSalts).marshal arr)) fvSalts 0 n a :=
  made_texts ioMake_issued

/-- The issued token of the examples was made with the caller's salts. -/
example : ∃ (n : Nat) (a : List (Nat × Ent)), exV2.1 = a.map Prod.snd ∧
    Draws (fun arr => (ioLib isSalts).b64 ((ioLib isSalts).marshal arr)) isSalts 0 n a :=
  issued_texts io_means io_issued

example : exV2.1.length ≥ 2 := by decide +kernel

/-- Salts that never repeat. -/
def ioRepl (n : Nat) : String := String.ofList (List.replicate n 'a')

theorem ioRepl_inj : Function.Injective ioRepl := by
  intro a b e
  have := congrArg (fun s => s.toList.length) e
  simpa [ioRepl] using this

def ioSaltOpts : List IssOpt := [.saltFnc (some ioRepl), .marshaller fun l => toString l.length]

/-- The caller's salts and marshaller are used: the second disclosure has the second salt. -/
example : ∃ r, issueWith (ioLib isSalts) "did:ex:issuer" ioSaltOpts
      [("a", .str "x"), ("b", .str "y")] = .ok r ∧
    r.1.map (fun e => (e.result, e.debugArr)) =
      [((ioLib isSalts).b64 "3", [.str "", .str "a", .str "x"]),
        ((ioLib isSalts).b64 "3", [.str "a", .str "b", .str "y"])] ∧
    ∀ (i j : Nat) (e e' : Ent) (x y : Json), r.1[i]? = some e → r.1[j]? = some e' → i ≠ j →
      e.debugArr[0]? = some x → e'.debugArr[0]? = some y → x ≠ y :=
  ⟨_, rfl, rfl, issued_salts_differ (L := ioLib isSalts) (iss := "did:ex:issuer") (opts := ioSaltOpts)
    (claims := [("a", .str "x"), ("b", .str "y")]) (issuing_options ioSaltOpts) rfl ioRepl_inj⟩

end VC.SDJWT
