import Verif.Cwt.Convert
import Verif.SDJWT.DiscloseOrder
import Verif.SDJWT.DiscloseComplete
/-!
# C89: converting CBOR values

A separate specification says what a conversion of a value is; `conv` gives one for every iteration
order.  When the keys of every map print differently all conversions agree; otherwise they do not, and
a witness shows two runs of the same call that disagree.
-/

namespace VC.Cwt

open VC.SDJWT (JEq OEq JE JWF JWFObj JWFArr)
open GoMap (get?)

/-! ## Specification -/

/-- Neither a slice nor a `map[interface{}]interface{}`. -/
def Leaf (v : Cv) : Prop := (∀ l, v ≠ .arr l) ∧ ∀ l, v ≠ .imap l

/-- `w` is a conversion of `v`: slices element by element; a map has exactly the printed keys of the
source, each with a conversion of the value of a source key that prints so. -/
inductive Converted (sprint : Cv → String) : Cv → Cv → Prop
  | leaf {v : Cv} : Leaf v → Converted sprint v v
  | arr {l l' : List Cv} : l.length = l'.length →
      (∀ (i : Nat) (v w : Cv), l[i]? = some v → l'[i]? = some w → Converted sprint v w) →
      Converted sprint (.arr l) (.arr l')
  | map {l : List (Cv × Cv)} {m : GoMap Cv} (src : String → Cv × Cv) :
      (∀ k, get? m k = none ↔ ∀ e ∈ l, sprint e.1 ≠ k) →
      (∀ k w, get? m k = some w → src k ∈ l ∧ sprint (src k).1 = k) →
      (∀ k w, get? m k = some w → Converted sprint (src k).2 w) →
      Converted sprint (.imap l) (.smap m)

/-- Equal up to the order of map members. -/
inductive Same : Cv → Cv → Prop
  | refl {v : Cv} : Same v v
  | arr {l l' : List Cv} : l.length = l'.length →
      (∀ (i : Nat) (v w : Cv), l[i]? = some v → l'[i]? = some w → Same v w) → Same (.arr l) (.arr l')
  | map {m m' : GoMap Cv} : (∀ k, get? m k = none ↔ get? m' k = none) →
      (∀ k v w, get? m k = some v → get? m' k = some w → Same v w) → Same (.smap m) (.smap m')

/-- No map inside the value has two keys that print the same. -/
inductive Clear (sprint : Cv → String) : Cv → Prop
  | leaf {v : Cv} : Leaf v → Clear sprint v
  | arr {l : List Cv} : (∀ v ∈ l, Clear sprint v) → Clear sprint (.arr l)
  | map {l : List (Cv × Cv)} : l.Pairwise (fun e f => sprint e.1 ≠ sprint f.1) →
      (∀ e ∈ l, Clear sprint e.2) → Clear sprint (.imap l)

/-- The iteration visits every member once. -/
def Fair (ord : Order) : Prop := ∀ p l, (ord p l).Perm l

/-! ## The conversion meets the specification -/

theorem get?_assignAll_aux (l : List (String × Cv)) (m : GoMap Cv) (k : String) :
    (get? (l.foldl (fun m p => GoMap.set m p.1 p.2) m) k = none ↔
      get? m k = none ∧ ∀ p ∈ l, p.1 ≠ k) ∧
    (∀ w, get? (l.foldl (fun m p => GoMap.set m p.1 p.2) m) k = some w →
      get? m k = some w ∨ (k, w) ∈ l) := by
  induction l generalizing m with
  | nil => simp
  | cons p l ih =>
    obtain ⟨k', v⟩ := p
    obtain ⟨h1, h2⟩ := ih (GoMap.set m k' v)
    simp only [List.foldl_cons]
    constructor
    · rw [h1]
      by_cases hk : k' = k
      · subst hk; simp
      · rw [GoMap.get?_set_ne m v hk]; simp [hk]
    · intro w hw
      rcases h2 w hw with h | h
      · by_cases hk : k' = k
        · subst hk
          rw [GoMap.get?_set_self] at h
          cases h
          exact .inr (List.mem_cons_self ..)
        · rw [GoMap.get?_set_ne m v hk] at h
          exact .inl h
      · exact .inr (List.mem_cons_of_mem _ h)

theorem assignAll_none (l : List (String × Cv)) (k : String) :
    get? (assignAll l) k = none ↔ ∀ p ∈ l, p.1 ≠ k := by
  have := (get?_assignAll_aux l [] k).1
  simpa [assignAll] using this

theorem assignAll_mem {l : List (String × Cv)} {k : String} {w : Cv}
    (h : get? (assignAll l) k = some w) : (k, w) ∈ l := by
  rcases (get?_assignAll_aux l [] k).2 w h with h | h
  · simp at h
  · exact h

variable (sprint : Cv → String) (ord : Order)

open Classical in
theorem Converted.mk_map {l : List (Cv × Cv)} {m : GoMap Cv}
    (h1 : ∀ k, get? m k = none ↔ ∀ e ∈ l, sprint e.1 ≠ k)
    (h2 : ∀ k w, get? m k = some w → ∃ e ∈ l, sprint e.1 = k ∧ Converted sprint e.2 w) :
    Converted sprint (.imap l) (.smap m) := by
  let P : String → Cv × Cv → Prop := fun k e => e ∈ l ∧ sprint e.1 = k ∧
    ∀ w, get? m k = some w → Converted sprint e.2 w
  have hP : ∀ k w, get? m k = some w → ∃ e, P k e := by
    intro k w hw
    obtain ⟨e, he, hk, hc⟩ := h2 k w hw
    refine ⟨e, he, hk, fun w' hw' => ?_⟩
    rw [hw] at hw'; cases hw'; exact hc
  let src : String → Cv × Cv := fun k => if h : ∃ e, P k e then Classical.choose h else (.nil, .nil)
  have hsrc : ∀ k w, get? m k = some w → P k (src k) := by
    intro k w hw
    have := hP k w hw
    simp only [src, dif_pos this]
    exact Classical.choose_spec this
  exact .map src h1 (fun k w hw => ⟨(hsrc k w hw).1, (hsrc k w hw).2.1⟩)
    (fun k w hw => (hsrc k w hw).2.2 w hw)

mutual
theorem conv_converted (hf : Fair ord) : ∀ (p : List Nat) (v : Cv),
    Converted sprint v (conv sprint ord p v)
  | p, .imap l => by
    have he := entries_converted hf p 0 l
    have hp := hf p (convEntries sprint ord p 0 l)
    rw [conv]
    have hsrc : ∀ k w, get? (assignAll (ord p (convEntries sprint ord p 0 l))) k = some w →
        ∃ e ∈ l, sprint e.1 = k ∧ Converted sprint e.2 w := by
      intro k w hw
      obtain ⟨e, h1, h2, h3⟩ := he.2 (k, w) (hp.mem_iff.1 (assignAll_mem hw))
      exact ⟨e, h1, h2, h3⟩
    refine Converted.mk_map sprint ?_ hsrc
    intro k
    rw [assignAll_none]
    constructor
    · intro h e hel
      obtain ⟨w, hw⟩ := he.1 e hel
      exact h _ (hp.mem_iff.2 hw)
    · intro h q hq
      obtain ⟨e, h1, h2, _⟩ := he.2 q (hp.mem_iff.1 hq)
      exact h2 ▸ h e h1
  | p, .arr l => by
    rw [conv]
    obtain ⟨h1, h2⟩ := list_converted hf p 0 l
    exact .arr h1 h2
  | _, .nil => .leaf ⟨by simp, by simp⟩
  | _, .bool _ => .leaf ⟨by simp, by simp⟩
  | _, .int _ => .leaf ⟨by simp, by simp⟩
  | _, .float _ => .leaf ⟨by simp, by simp⟩
  | _, .str _ => .leaf ⟨by simp, by simp⟩
  | _, .bytes _ => .leaf ⟨by simp, by simp⟩
  | _, .other _ => .leaf ⟨by simp, by simp⟩
  | _, .smap _ => .leaf ⟨by simp, by simp⟩
theorem entries_converted (hf : Fair ord) : ∀ (p : List Nat) (n : Nat) (l : List (Cv × Cv)),
    (∀ e ∈ l, ∃ w, (sprint e.1, w) ∈ convEntries sprint ord p n l) ∧
    (∀ q ∈ convEntries sprint ord p n l, ∃ e ∈ l, sprint e.1 = q.1 ∧ Converted sprint e.2 q.2)
  | _, _, [] => by simp [convEntries]
  | p, n, (k, v) :: l => by
    have h0 := conv_converted hf (n :: p) v
    obtain ⟨h1, h2⟩ := entries_converted hf p (n + 1) l
    rw [convEntries]
    constructor
    · intro e he
      rcases List.mem_cons.1 he with rfl | he
      · exact ⟨_, List.mem_cons_self ..⟩
      · obtain ⟨w, hw⟩ := h1 e he
        exact ⟨w, List.mem_cons_of_mem _ hw⟩
    · intro q hq
      rcases List.mem_cons.1 hq with rfl | hq
      · exact ⟨(k, v), List.mem_cons_self .., rfl, h0⟩
      · obtain ⟨e, he, h⟩ := h2 q hq
        exact ⟨e, List.mem_cons_of_mem _ he, h⟩
theorem list_converted (hf : Fair ord) : ∀ (p : List Nat) (n : Nat) (l : List Cv),
    l.length = (convList sprint ord p n l).length ∧
    ∀ (i : Nat) (v w : Cv), l[i]? = some v → (convList sprint ord p n l)[i]? = some w →
      Converted sprint v w
  | _, _, [] => by simp [convList]
  | p, n, v :: l => by
    have h0 := conv_converted hf (n :: p) v
    obtain ⟨h1, h2⟩ := list_converted hf p (n + 1) l
    rw [convList]
    refine ⟨by simp [h1], ?_⟩
    intro i a b ha hb
    cases i with
    | zero => simp at ha hb; subst ha; subst hb; exact h0
    | succ i => simp at ha hb; exact h2 i a b ha hb
end

/-- **C89**: `convertToStringMap` is a conversion of its argument, whatever the iteration order. -/
theorem convertToStringMap_converted (hf : Fair ord) (l : List (Cv × Cv)) :
    Converted sprint (.imap l) (.smap (convertToStringMap sprint ord l)) := by
  have := conv_converted sprint ord hf [] (.imap l)
  rw [conv] at this
  exact this

theorem pairwise_key {l : List (Cv × Cv)} (h : l.Pairwise (fun e f => sprint e.1 ≠ sprint f.1))
    {e f : Cv × Cv} (he : e ∈ l) (hf : f ∈ l) (hk : sprint e.1 = sprint f.1) : e = f := by
  induction h with
  | nil => cases he
  | cons hx _ ih =>
    rcases List.mem_cons.1 he with e1 | he1
    · rcases List.mem_cons.1 hf with e2 | hf1
      · rw [e1, e2]
      · exact absurd hk (e1 ▸ hx f hf1)
    · rcases List.mem_cons.1 hf with e2 | hf1
      · exact absurd hk.symm (e2 ▸ hx e he1)
      · exact ih he1 hf1

theorem leaf_not_arr {l : List Cv} : ¬ Leaf (.arr l) := fun h => h.1 l rfl
theorem leaf_not_map {l : List (Cv × Cv)} : ¬ Leaf (.imap l) := fun h => h.2 l rfl

/-- A value whose keys print differently has one conversion. -/
theorem converted_same {v a b : Cv} (hc : Clear sprint v) (ha : Converted sprint v a)
    (hb : Converted sprint v b) : Same a b := by
  induction ha generalizing b with
  | leaf h =>
    cases hb with
    | leaf _ => exact .refl
    | arr _ _ => exact absurd h leaf_not_arr
    | map _ _ _ _ => exact absurd h leaf_not_map
  | @arr l l1 hl h ih =>
    cases hb with
    | leaf h => exact absurd h leaf_not_arr
    | @arr _ l2 hl2 h2 =>
      cases hc with
      | leaf h => exact absurd h leaf_not_arr
      | arr hc =>
        refine .arr (hl.symm.trans hl2) (fun i x y hx hy => ?_)
        obtain ⟨hi, -⟩ := List.getElem?_eq_some_iff.1 hx
        have hv : l[i]? = some l[i] := List.getElem?_eq_getElem (by omega)
        exact ih i _ _ hv hx (hc _ (List.getElem_mem _)) (h2 i _ _ hv hy)
  | @map l m src h1 h2 h3 ih =>
    cases hb with
    | leaf h => exact absurd h leaf_not_map
    | @map _ m' src' g1 g2 g3 =>
      cases hc with
      | leaf h => exact absurd h leaf_not_map
      | map hp hc =>
        refine .map (fun k => (h1 k).trans (g1 k).symm) (fun k x y hx hy => ?_)
        have e : src k = src' k := pairwise_key sprint hp (h2 k x hx).1 (g2 k y hy).1
          ((h2 k x hx).2.trans (g2 k y hy).2.symm)
        exact ih k x hx (hc _ (h2 k x hx).1) (e ▸ g3 k y hy)

/-- **C89** (partial: without key clashes): the result does not depend on the iteration order. -/
theorem conversion_order_partial (o o' : Order) (ho : Fair o) (ho' : Fair o') (l : List (Cv × Cv))
    (hc : Clear sprint (.imap l)) :
    Same (.smap (convertToStringMap sprint o l)) (.smap (convertToStringMap sprint o' l)) :=
  converted_same sprint hc (convertToStringMap_converted sprint o ho l)
    (convertToStringMap_converted sprint o' ho' l)

/-! ## JSON values -/

mutual
/-- What `cbor.Unmarshal` into `interface{}` gives for the encoding of a JSON value: objects become
maps with string keys, in some order (`float64` stays `float64`). -/
def ofJson : Json → Cv
  | .null => .nil
  | .bool b => .bool b
  | .num q => .float q
  | .str s => .str s
  | .arr l => .arr (ofJsonL l)
  | .obj m => .imap (ofJsonM m)
/-- The elements. -/
def ofJsonL : List Json → List Cv
  | [] => []
  | v :: l => ofJson v :: ofJsonL l
/-- The members. -/
def ofJsonM : List (String × Json) → List (Cv × Cv)
  | [] => []
  | (k, v) :: m => (.str k, ofJson v) :: ofJsonM m
end

mutual
/-- The converted value as a JSON value (`json.Marshal` and back); none for byte strings and
unconverted maps. -/
def toJson : Cv → Option Json
  | .nil => some .null
  | .bool b => some (.bool b)
  | .int n => some (.num n)
  | .float q => some (.num q)
  | .str s => some (.str s)
  | .bytes _ => none
  | .other _ => none
  | .arr l => (toJsonL l).map .arr
  | .imap _ => none
  | .smap m => (toJsonM m).map .obj
/-- The elements. -/
def toJsonL : List Cv → Option (List Json)
  | [] => some []
  | v :: l => (toJson v).bind fun x => (toJsonL l).map (x :: ·)
/-- The members. -/
def toJsonM : List (String × Cv) → Option (List (String × Json))
  | [] => some []
  | (k, v) :: m => (toJson v).bind fun x => (toJsonM m).map ((k, x) :: ·)
end

theorem set_fresh (m : GoMap Cv) (k : String) (v : Cv) (h : k ∉ GoMap.keys m) :
    GoMap.set m k v = m ++ [(k, v)] := by
  induction m with
  | nil => rfl
  | cons p m ih =>
    obtain ⟨k', v'⟩ := p
    simp only [GoMap.keys, List.map_cons, List.mem_cons, not_or] at h
    rw [GoMap.set, if_neg (fun e => h.1 e.symm), ih h.2]; rfl

theorem assignAll_nodup (l : List (String × Cv)) (h : (GoMap.keys l).Nodup) : assignAll l = l := by
  have gen : ∀ (l m : List (String × Cv)), (GoMap.keys (m ++ l)).Nodup →
      l.foldl (fun m p => GoMap.set m p.1 p.2) m = m ++ l := by
    intro l
    induction l with
    | nil => simp
    | cons p l ih =>
      intro m hm
      obtain ⟨k, v⟩ := p
      have hk : k ∉ GoMap.keys m := by
        intro hk
        simp only [GoMap.keys, List.map_append, List.map_cons] at hm hk
        exact (List.nodup_append.1 hm).2.2 k hk k (List.mem_cons_self ..) rfl
      rw [List.foldl_cons, set_fresh m k v hk, ih]
      · simp
      · simpa [GoMap.keys] using hm
  exact gen l [] h

theorem convEntries_keys (hs : ∀ s, sprint (.str s) = s) (p : List Nat) (n : Nat)
    (m : List (String × Json)) :
    (convEntries sprint ord p n (ofJsonM m)).map Prod.fst = m.map Prod.fst := by
  induction m generalizing n with
  | nil => simp [ofJsonM, convEntries]
  | cons q m ih =>
    obtain ⟨k, v⟩ := q
    simp [ofJsonM, convEntries, hs, ih]

theorem toJsonM_perm {a b : List (String × Cv)} (h : a.Perm b) {x : List (String × Json)}
    (ha : toJsonM a = some x) : ∃ y, toJsonM b = some y ∧ x.Perm y := by
  induction h generalizing x with
  | nil => simp [toJsonM] at ha; subst ha; exact ⟨[], rfl, .nil⟩
  | cons p _ ih =>
    obtain ⟨k, v⟩ := p
    simp only [toJsonM, Option.bind_eq_some_iff, Option.map_eq_some_iff] at ha
    obtain ⟨j, hj, t, ht, rfl⟩ := ha
    obtain ⟨y, hy, hp⟩ := ih ht
    exact ⟨(k, j) :: y, by simp [toJsonM, hj, hy], hp.cons _⟩
  | swap p q l =>
    obtain ⟨k, v⟩ := p
    obtain ⟨k', v'⟩ := q
    simp only [toJsonM, Option.bind_eq_some_iff, Option.map_eq_some_iff] at ha
    obtain ⟨j, hj, t, ⟨j', hj', t', ht', rfl⟩, rfl⟩ := ha
    exact ⟨(k, j') :: (k', j) :: t', by simp [toJsonM, hj, hj', ht'], .swap _ _ _⟩
  | trans _ _ ih1 ih2 =>
    obtain ⟨y, hy, h1⟩ := ih1 ha
    obtain ⟨z, hz, h2⟩ := ih2 hy
    exact ⟨z, hz, h1.trans h2⟩

theorem toJsonM_keys {a : List (String × Cv)} {x : List (String × Json)} (h : toJsonM a = some x) :
    GoMap.keys x = GoMap.keys a := by
  induction a generalizing x with
  | nil => simp [toJsonM] at h; subst h; rfl
  | cons p a ih =>
    obtain ⟨k, v⟩ := p
    simp only [toJsonM, Option.bind_eq_some_iff, Option.map_eq_some_iff] at h
    obtain ⟨j, _, t, ht, rfl⟩ := h
    have := ih ht
    simp only [GoMap.keys, List.map_cons] at this ⊢
    rw [this]

mutual
theorem conv_json (hs : ∀ s, sprint (.str s) = s) (hf : Fair ord) : ∀ (p : List Nat) (v : Json),
    JWF v → ∃ v', toJson (conv sprint ord p (ofJson v)) = some v' ∧ JEq v v'
  | p, .obj m, h => by
    simp only [JWF] at h
    obtain ⟨m1, h1, h2⟩ := entries_json hs hf p 0 m h.2
    have hk := convEntries_keys sprint ord hs p 0 m
    have hperm := hf p (convEntries sprint ord p 0 (ofJsonM m))
    have hnd : (GoMap.keys (ord p (convEntries sprint ord p 0 (ofJsonM m)))).Nodup := by
      rw [GoMap.keys, (hperm.map Prod.fst).nodup_iff, hk]; exact h.1
    rw [ofJson, conv, assignAll_nodup _ hnd]
    obtain ⟨m2, h3, h4⟩ := toJsonM_perm hperm.symm h1
    refine ⟨.obj m2, by simp [toJson, h3], .obj (.trans h2 (SDJWT.OEq.of_perm h4 ?_))⟩
    rw [toJsonM_keys h1, GoMap.keys, hk]; exact h.1
  | p, .arr l, h => by
    simp only [JWF] at h
    obtain ⟨l1, h1, h2⟩ := list_json hs hf p 0 l h
    rw [ofJson, conv]
    exact ⟨.arr l1, by simp [toJson, h1], .arr h2⟩
  | _, .null, _ => ⟨.null, by simp [ofJson, conv, toJson], .refl⟩
  | _, .bool b, _ => ⟨.bool b, by simp [ofJson, conv, toJson], .refl⟩
  | _, .num q, _ => ⟨.num q, by simp [ofJson, conv, toJson], .refl⟩
  | _, .str s, _ => ⟨.str s, by simp [ofJson, conv, toJson], .refl⟩
theorem entries_json (hs : ∀ s, sprint (.str s) = s) (hf : Fair ord) :
    ∀ (p : List Nat) (n : Nat) (m : List (String × Json)), JWFObj m →
    ∃ m', toJsonM (convEntries sprint ord p n (ofJsonM m)) = some m' ∧ OEq m m'
  | _, _, [], _ => ⟨[], by simp [ofJsonM, convEntries, toJsonM], .refl⟩
  | p, n, (k, v) :: m, h => by
    simp only [JWFObj] at h
    obtain ⟨v', h1, h2⟩ := conv_json hs hf (n :: p) v h.1
    obtain ⟨m', h3, h4⟩ := entries_json hs hf p (n + 1) m h.2
    refine ⟨(k, v') :: m', ?_, .fcons h2 h4⟩
    rw [ofJsonM, convEntries, hs, toJsonM, h1]
    simp [h3]
theorem list_json (hs : ∀ s, sprint (.str s) = s) (hf : Fair ord) :
    ∀ (p : List Nat) (n : Nat) (l : List Json), JWFArr l →
    ∃ l', toJsonL (convList sprint ord p n (ofJsonL l)) = some l' ∧ JE (.list l) (.list l')
  | _, _, [], _ => ⟨[], by simp [ofJsonL, convList, toJsonL], .refl⟩
  | p, n, v :: l, h => by
    simp only [JWFArr] at h
    obtain ⟨v', h1, h2⟩ := conv_json hs hf (n :: p) v h.1
    obtain ⟨l', h3, h4⟩ := list_json hs hf p (n + 1) l h.2
    refine ⟨v' :: l', ?_, .lcons h2 h4⟩
    rw [ofJsonL, convList, toJsonL, h1]
    simp [h3]
end

/-- **C89** (JSON data): converting the decoded encoding of a JSON object gives back that object, up
to the order of members, for every iteration order. -/
theorem json_object_survives (hs : ∀ s, sprint (.str s) = s) (hf : Fair ord) (m : JObj)
    (hm : JWF (.obj m)) :
    ∃ m', toJsonM (convertToStringMap sprint ord (ofJsonM m)) = some m' ∧ OEq m m' := by
  obtain ⟨v, h1, h2⟩ := conv_json sprint ord hs hf [] (.obj m) hm
  rw [ofJson, conv, toJson, Option.map_eq_some_iff] at h1
  obtain ⟨m', h3, rfl⟩ := h1
  exact ⟨m', h3, by simpa using h2.shape⟩

/-! ## Examples and the violation -/

/-- A small `fmt.Sprintf("%v", ·)`: strings and byte strings as they are, one for the number 1. -/
def cwShow : Cv → String
  | .str s => s
  | .int n => if n = 1 then "1" else "n"
  | .bytes [105, 115, 115, 117, 101, 114] => "issuer"
  | .bytes _ => "b"
  | _ => "?"

theorem fair_id : Fair (fun _ l => l) := fun _ _ => .refl _
theorem fair_rev : Fair (fun _ l => l.reverse) := fun _ l => l.reverse_perm

/-- **C89 violated**: a map with the text key `issuer` and the byte string key `issuer` is converted
to a map with one issuer or with the other, depending on Go's iteration order. -/
theorem clash_depends_on_order :
    ∃ (l : List (Cv × Cv)) (o o' : Order), Fair o ∧ Fair o' ∧
      get? (convertToStringMap cwShow o l) "issuer" = some (.str "did:ex:b") ∧
      get? (convertToStringMap cwShow o' l) "issuer" = some (.str "did:ex:a") :=
  ⟨[(.str "issuer", .str "did:ex:a"), (.bytes [105, 115, 115, 117, 101, 114], .str "did:ex:b")],
    fun _ l => l, fun _ l => l.reverse, fair_id, fair_rev, rfl, rfl⟩

/-- A clear value with nested maps, in two orders. -/
example : Clear cwShow (.imap [(.str "a", .imap [(.int 1, .nil), (.str "x", .int 2)]), (.int 1, .arr [.bytes [1]])]) := by
  refine .map (by simp [cwShow]) ?_
  intro e he
  simp at he
  rcases he with rfl | rfl
  · refine .map (by simp [cwShow]) ?_
    intro e he
    simp at he
    rcases he with rfl | rfl <;> exact .leaf ⟨by simp, by simp⟩
  · exact .arr (by intro v hv; simp at hv; subst hv; exact .leaf ⟨by simp, by simp⟩)

example : convertToStringMap cwShow (fun _ l => l.reverse)
    [(.str "a", .imap [(.int 1, .nil), (.str "x", .int 2)]), (.int 1, .arr [.bytes [1]])] =
    [("1", .arr [.bytes [1]]), ("a", .smap [("x", .int 2), ("1", .nil)])] := by rfl

example : toJsonM (convertToStringMap cwShow (fun _ l => l.reverse)
    (ofJsonM [("id", .str "urn:1"), ("credentialSubject", .obj [("n", .num 1), ("l", .arr [.obj []])])])) =
    some [("credentialSubject", .obj [("l", .arr [.obj []]), ("n", .num 1)]), ("id", .str "urn:1")] := by
  rfl

end VC.Cwt
