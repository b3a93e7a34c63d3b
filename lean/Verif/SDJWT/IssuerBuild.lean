import Verif.SDJWT.IssuerModel
/-!
# What the builders produce

The V2 and V5 builders blind the claims along an annotated tree; which parts are disclosable is given
by `V2Policy` and `V5Policy` (the specification of the options of `New`).
-/

namespace VC.SDJWT
open List

/-! ## Policies (specification) -/

/-- The value is an object. -/
def IsObj : Json → Prop
  | .obj _ => True
  | _ => False

/-- The value is an array. -/
def IsArr : Json → Prop
  | .arr _ => True
  | _ => False

instance (v : Json) : Decidable (IsObj v) := by unfold IsObj; split <;> infer_instance
instance (v : Json) : Decidable (IsArr v) := by unfold IsArr; split <;> infer_instance

/-- The dotted path of a member. -/
def joinPath (path key : String) : String := if path = "" then key else path ++ "." ++ key

mutual
/-- V2: members listed in `clear` are in clear, all others disclosable; with structured claims,
objects are never disclosable themselves but their members are. -/
def V2Policy (structured : Bool) (clear : String → Bool) (path : String) : Members → Prop
  | .nil => True
  | .cons k a t ms =>
    V2Value structured clear (joinPath path k) a t ∧ V2Policy structured clear path ms
/-- The policy for one value. -/
def V2Value (structured : Bool) (clear : String → Bool) (cur : String) (a : Option String) :
    Node → Prop
  | .plain v => ¬ (structured = true ∧ IsObj v) ∧ (a = none ↔ clear cur = true)
  | .obj ms => structured = true ∧ a = none ∧ V2Policy structured clear cur ms
  | .arr _ => False
end

/-- Options that decide what V5 makes disclosable. -/
structure V5Opts where
  structured : Bool
  clear : String → Bool
  always : String → Bool
  recursive : String → Bool

mutual
/-- V5: `prims` says that scalar members stay in clear (inside an object disclosed as a whole). -/
def V5Policy (o : V5Opts) (prims : Bool) (path : String) : Members → Prop
  | .nil => True
  | .cons k a t ms => V5Value o prims (joinPath path k) a t ∧ V5Policy o prims path ms
/-- The policy for one value at path `cur`:
* a value listed in `clear` is in clear, completely;
* an object or array is in clear when always included (or, unless it is a recursive object, when
  claims are structured), otherwise disclosable; its parts are disclosable;
* a scalar is disclosable. -/
def V5Value (o : V5Opts) (prims : Bool) (cur : String) (a : Option String) : Node → Prop
  | .plain v =>
    if IsObj v ∨ IsArr v then o.clear cur = true ∧ a = none
    else v ≠ .null ∧ (a = none ↔ o.clear cur = true ∨ prims = true)
  | .arr l => o.clear cur = false ∧ (a = none ↔ o.always cur = true ∨ o.structured = true) ∧
      ∀ i (hi : i < l.length), (l[i].1 = none ↔ o.clear (cur ++ "[" ++ toString i ++ "]") = true)
  | .obj ms => o.clear cur = false ∧
      (a = none ↔ o.always cur = true ∨ (o.recursive cur = false ∧ o.structured = true)) ∧
      V5Policy o (!(o.recursive cur || o.always cur || o.structured)) cur ms
end

/-! ## Facts about members -/

/-- Concatenation of members. -/
def Members.append : Members → Members → Members
  | .nil, ms => ms
  | .cons k a t ms, ms' => .cons k a t (ms.append ms')

theorem Members.erase_append : ∀ (a b : Members), (a.append b).erase = a.erase ++ b.erase
  | .nil, _ => rfl
  | .cons k s t ms, b => by simp only [Members.append, Members.erase, Members.erase_append ms b,
      List.cons_append]

theorem Members.discs_append : ∀ (a b : Members), (a.append b).discs = a.discs ++ b.discs
  | .nil, _ => rfl
  | .cons k s t ms, b => by simp only [Members.append, Members.discs, Members.discs_append ms b,
      List.append_assoc]

theorem Members.reveal_append (S : List String) : ∀ (a b : Members),
    (a.append b).reveal S = a.reveal S ++ b.reveal S
  | .nil, _ => rfl
  | .cons k none t ms, b => by
    simp only [Members.append, Members.reveal, Members.reveal_append S ms b]
    split <;> simp
  | .cons k (some s) t ms, b => by
    simp only [Members.append, Members.reveal, Members.reveal_append S ms b]
    split <;> simp

theorem Members.closed_append (S : List String) : ∀ (a b : Members),
    (a.append b).Closed S ↔ a.Closed S ∧ b.Closed S
  | .nil, _ => by simp [Members.append, Members.Closed]
  | .cons k none t ms, b => by
    simp only [Members.append, Members.Closed, Members.closed_append S ms b, and_assoc]
  | .cons k (some s) t ms, b => by
    simp only [Members.append, Members.Closed, Members.closed_append S ms b, and_assoc]

theorem BlM.append {env : Env} {h : String → String} : ∀ (a b : Members) {f1 lv1 dn1 f2 lv2 dn2},
    BlM env h a f1 lv1 dn1 → BlM env h b f2 lv2 dn2 →
    BlM env h (a.append b) (f1 ++ f2) (lv1 ++ lv2) (dn1 ++ dn2)
  | .nil, b, f1, lv1, dn1, f2, lv2, dn2, h1, h2 => by
    simp only [BlM] at h1
    obtain ⟨rfl, rfl, rfl⟩ := h1
    exact h2
  | .cons k none t ms, b, f1, lv1, dn1, f2, lv2, dn2, h1, h2 => by
    simp only [BlM] at h1
    obtain ⟨w, f', d1, d2, rfl, g1, g2, rfl⟩ := h1
    simp only [Members.append, BlM]
    exact ⟨w, f' ++ f2, d1, d2 ++ dn2, by simp, g1, BlM.append ms b g2 h2, by simp⟩
  | .cons k (some s) t ms, b, f1, lv1, dn1, f2, lv2, dn2, h1, h2 => by
    simp only [BlM] at h1
    obtain ⟨w, salt, lv', d1, d2, rfl, g0, g1, g2, rfl⟩ := h1
    simp only [Members.append, BlM]
    exact ⟨w, salt, lv' ++ lv2, d1, d2 ++ dn2, by simp, g0, g1, BlM.append ms b g2 h2, by simp⟩

theorem curPath_eq (p k : String) : curPath p k = joinPath p k := by
  unfold curPath joinPath
  by_cases h : p = "" <;> simp [h]

/-- Decoding is the inverse of encoding on the disclosures produced. -/
def Codec (env : Env) (es : List Ent) : Prop := ∀ e ∈ es, env.decode e.result = some e.debugArr

/-- Shuffling permutes. -/
def Shuffles (E : IEnv) : Prop := ∀ n l, (E.shuffle n l).Perm l

theorem stringArray_digestsJson (l : List String) : stringArray (digestsJson l) = some l := by
  cases l with
  | nil => rfl
  | cons a l =>
    have : ∀ l : List String, strings? (l.map Json.str) = some l := by
      intro l
      induction l with
      | nil => rfl
      | cons a l ih => simp [strings?, ih]
    simp only [digestsJson, List.isEmpty_cons, Bool.false_eq_true, if_false, stringArray, this]

/-! ## V2 -/

theorem v2_leaf_ok {E : IEnv} {cur k : String} {n : Nat} {v : Json}
    (hv : ¬ (E.structured = true ∧ IsObj v))
    (hc : Codec E.env ((v2Leaf E cur k n v).nested ++ (v2Leaf E cur k n v).level)) :
    ∃ a t dn, V2Value E.structured E.nonSD cur a t ∧ t.erase = v ∧
      BlM E.env E.digest (.cons k a t .nil) (v2Leaf E cur k n v).fields
        ((v2Leaf E cur k n v).level.map Ent.result) dn ∧
      (a.toList ++ t.discs).Perm
        (((v2Leaf E cur k n v).nested ++ (v2Leaf E cur k n v).level).map Ent.result) := by
  unfold v2Leaf at hc ⊢
  by_cases h : E.nonSD cur = true
  · simp only [h, if_true]
    refine ⟨none, .plain v, [], ?_, rfl, ?_, ?_⟩
    · simp only [V2Value]; exact ⟨hv, by simp [h]⟩
    · simp only [BlM, Bl]
      exact ⟨v, [], [], [], rfl, ⟨rfl, rfl⟩, ⟨rfl, by simp, rfl⟩, rfl⟩
    · simp [Node.discs]
  · have h' : E.nonSD cur = false := by simpa using h
    simp only [h', Bool.false_eq_true, if_false] at hc ⊢
    refine ⟨some (v2Disclosure E n k v).result, .plain v, [], ?_, rfl, ?_, ?_⟩
    · simp only [V2Value]; exact ⟨hv, by simp [h']⟩
    · simp only [BlM, Bl]
      refine ⟨v, E.salt n, [], [], [], rfl, hc _ (by simp), ⟨rfl, rfl⟩, ?_, rfl⟩
      simp
    · simp [Node.discs]

theorem codec_mono {env : Env} {es es' : List Ent} (h : Codec env es) (hs : ∀ e ∈ es', e ∈ es) :
    Codec env es' := fun e he => h e (hs e he)

/-- The digests object `g` made of the members `ms`: clear members and an `_sd` list. -/
def Blinded (E : IEnv) (ms : Members) (g : JObj) (decs : List String) : Prop :=
  ∃ f a sd lv dn dl, g = f ++ a ∧ BlM E.env E.digest ms f lv dn ∧
    ((a = [] ∧ sd = []) ∨ ∃ v, a = [("_sd", v)] ∧ stringArray v = some sd) ∧
    sd.Perm (lv.map E.digest ++ dl) ∧ decs = dl ++ dn

theorem Blinded.bl {E : IEnv} {ms : Members} {g : JObj} {decs : List String} (h : Blinded E ms g decs) :
    Bl E.env E.digest (.obj ms) (.obj g) decs := by
  obtain ⟨f, a, sd, lv, dn, dl, rfl, h1, h2, h3, rfl⟩ := h
  simp only [Bl]
  exact ⟨f, a, sd, lv, dn, dl, rfl, h1, ⟨a, [], by simp, h2, Or.inl rfl⟩, h3, rfl⟩

theorem v2_finish_ok {E : IEnv} (hsh : Shuffles E) {decoys : List Ent} {r : Acc} {ms : Members}
    {dn : List String} (hb : BlM E.env E.digest ms r.fields (r.level.map Ent.result) dn) :
    ∃ decs, Blinded E ms (v2Finish E decoys r).2.1 decs := by
  refine ⟨_, r.fields, [("_sd", digestsJson (createDigests E r.next (r.level ++ decoys)))],
    createDigests E r.next (r.level ++ decoys), r.level.map Ent.result, dn,
    decoys.map (fun e => E.digest e.result), rfl, hb, ?_, ?_, rfl⟩
  · exact Or.inr ⟨_, rfl, stringArray_digestsJson _⟩
  · refine (hsh _ _).trans ?_
    rw [List.map_append, List.map_map]
    exact Perm.refl _

mutual
theorem v2_member_ok {E : IEnv} (hsh : Shuffles E) (cur k : String) (n : Nat) : ∀ (v : Json),
    Codec E.env ((v2Member E cur k n v).nested ++ (v2Member E cur k n v).level) →
    ∃ a t dn, V2Value E.structured E.nonSD cur a t ∧ t.erase = v ∧
      BlM E.env E.digest (.cons k a t .nil) (v2Member E cur k n v).fields
        ((v2Member E cur k n v).level.map Ent.result) dn ∧
      (a.toList ++ t.discs).Perm
        (((v2Member E cur k n v).nested ++ (v2Member E cur k n v).level).map Ent.result)
  | .obj o => by
    simp only [v2Member]
    split
    · next hst =>
      intro hc
      simp only [List.append_nil] at hc
      obtain ⟨ms, dn, h1, h2, h3, h4⟩ := v2_loop_ok hsh cur
        (n + (createDecoys E n).length) o (by simpa [v2Finish] using hc)
      obtain ⟨decs, hb⟩ := v2_finish_ok hsh (decoys := createDecoys E n) h3
      refine ⟨none, .obj ms, decs, ?_, ?_, ?_, ?_⟩
      · simp only [V2Value]; exact ⟨hst, by simp, h2⟩
      · simp only [Node.erase, h1]
      · rw [BlM]
        exact ⟨_, [], decs, [], rfl, hb.bl, by simp [BlM], by simp⟩
      · simpa [Node.discs, v2Finish] using h4
    · next hst =>
      intro hc
      exact v2_leaf_ok (by intro h; exact hst h.1) hc
  | .arr l => by simp only [v2Member]; exact v2_leaf_ok (by simp [IsObj])
  | .str s => by simp only [v2Member]; exact v2_leaf_ok (by simp [IsObj])
  | .num q => by simp only [v2Member]; exact v2_leaf_ok (by simp [IsObj])
  | .bool b => by simp only [v2Member]; exact v2_leaf_ok (by simp [IsObj])
  | .null => by simp only [v2Member]; exact v2_leaf_ok (by simp [IsObj])
theorem v2_loop_ok {E : IEnv} (hsh : Shuffles E) (path : String) (n : Nat) :
    ∀ (m : List (String × Json)),
    Codec E.env ((v2Loop E path n m).nested ++ (v2Loop E path n m).level) →
    ∃ ms dn, ms.erase = m ∧ V2Policy E.structured E.nonSD path ms ∧
      BlM E.env E.digest ms (v2Loop E path n m).fields ((v2Loop E path n m).level.map Ent.result) dn ∧
      ms.discs.Perm (((v2Loop E path n m).nested ++ (v2Loop E path n m).level).map Ent.result)
  | [] => by
    intro _
    exact ⟨.nil, [], rfl, by simp [V2Policy], by simp [v2Loop, BlM], by simp [v2Loop, Members.discs]⟩
  | (k, v) :: m => by
    simp only [v2Loop]
    generalize hA : v2Member E (curPath path k) k n v = A
    generalize hB : v2Loop E path A.next m = B
    intro hc
    simp only [Acc.join] at hc
    obtain ⟨a, t, dn1, g1, g2, g3, g4⟩ := v2_member_ok hsh (curPath path k) k n v (by
      rw [hA]; exact codec_mono hc (by simp; intro e h; tauto))
    obtain ⟨ms, dn2, i1, i2, i3, i4⟩ := v2_loop_ok hsh path A.next m (by
      rw [hB]; exact codec_mono hc (by simp; intro e h; tauto))
    rw [hA] at g3 g4
    rw [hB] at i3 i4
    refine ⟨.cons k a t ms, dn1 ++ dn2, ?_, ?_, ?_, ?_⟩
    · simp only [Members.erase, g2, i1]
    · simp only [V2Policy]
      rw [curPath_eq] at g1
      exact ⟨g1, i2⟩
    · have := BlM.append (.cons k a t .nil) ms g3 i3
      simpa [Members.append, Acc.join] using this
    · simp only [Members.discs, Acc.join]
      rw [List.perm_iff_count] at g4 i4 ⊢
      intro x
      have k1 := g4 x
      have k2 := i4 x
      simp only [List.map_append, List.count_append] at k1 k2 ⊢
      omega
end

mutual
/-- V2 never nests disclosures. -/
theorem V2Policy.closed {st : Bool} {clear : String → Bool} (S : List String) (path : String) :
    ∀ (ms : Members), V2Policy st clear path ms → ms.Closed S
  | .nil, _ => by simp [Members.Closed]
  | .cons k none t ms, h => by
    simp only [V2Policy] at h
    simp only [Members.Closed]
    exact ⟨V2Value.closed S _ none t h.1, V2Policy.closed S path ms h.2⟩
  | .cons k (some s) t ms, h => by
    simp only [V2Policy] at h
    simp only [Members.Closed]
    refine ⟨?_, V2Value.closed S _ (some s) t h.1, V2Policy.closed S path ms h.2⟩
    cases t with
    | plain v => simp [Node.discs]
    | arr l => exact absurd h.1 (by simp [V2Value])
    | obj ms' => exact absurd h.1 (by simp [V2Value])
theorem V2Value.closed {st : Bool} {clear : String → Bool} (S : List String) (cur : String)
    (a : Option String) : ∀ (t : Node), V2Value st clear cur a t → t.Closed S
  | .plain _, _ => by simp [Node.Closed]
  | .arr _, _ => by simp [Node.Closed]
  | .obj ms, h => by
    simp only [V2Value] at h
    simp only [Node.Closed]
    exact V2Policy.closed S cur ms h.2.2
end

end VC.SDJWT
