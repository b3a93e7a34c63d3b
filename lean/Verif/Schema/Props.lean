import Verif.Schema.Read
import Verif.Schema.Spec
/-!
# The built-in schemas, exactly (C111, C112)
-/

namespace VC.Schema

open GoMap Spec

variable {E : SEnv}

theorem okProps_cons (k : String) (s : Sch) (l : List (String × Sch)) (o : JObj) :
    okProps E ((k, s) :: l) o = true ↔ (∀ v, get? o k = some v → ok E s v = true) ∧
      okProps E l o = true := by
  simp only [okProps, Bool.and_eq_true]
  cases get? o k <;> simp

theorem okProps_nil (o : JObj) : okProps E [] o = true := rfl

theorem ok_all (l : List Sch) (v : Json) : ok E (.all l) v = okAll E l v := by simp only [ok]
theorem okAll_cons (s : Sch) (l : List Sch) (v : Json) :
    okAll E (s :: l) v = true ↔ ok E s v = true ∧ okAll E l v = true := by
  simp only [okAll, Bool.and_eq_true]
theorem okAll_nil (v : Json) : okAll E [] v = true := rfl

theorem ok_types (ks : List String) (v : Json) : ok E (.types ks) v = ks.contains (kind v) := by
  simp only [ok]
theorem ok_contains (s : Sch) (l : List Json) : ok E (.contains s) (.arr l) = l.any (ok E s) := by
  simp only [ok]
theorem ok_tuple (ss : List Sch) (r : Sch) (l : List Json) :
    ok E (.tuple ss r) (.arr l) = okTuple E ss (ok E r) l := by simp only [ok]
theorem ok_unique (l : List Json) : ok E .unique (.arr l) = distinct (l.map E.text) := by
  simp only [ok]
theorem ok_minItems (n : Nat) (l : List Json) :
    ok E (.minItems n) (.arr l) = decide (n ≤ l.length) := by simp only [ok]

theorem distinct_iff (l : List String) : distinct l = true ↔ l.Nodup := by
  induction l with
  | nil => simp [distinct]
  | cons x l ih => simp [distinct, ih]

theorem isString (v : Json) : ok E (.all [.types ["string"]]) v = true ↔ Str v := by
  cases v <;> simp [ok, okAll, kind, Str]

theorem isNull (v : Json) : ok E (.all [.types ["null"]]) v = true ↔ v = .null := by
  cases v <;> simp [ok, okAll, kind]

theorem isFmt (f : String) (v : Json) :
    ok E (.all [.types ["string"], .format f]) v = true ↔ Fmt E f v := by
  cases v <;> simp [ok, okAll, kind, Fmt]

theorem isDate (p : String) (v : Json) :
    ok E (.all [.types ["string"], .pattern p]) v = true ↔ DateLike E p v := by
  cases v <;> simp [ok, okAll, kind, DateLike]

/-- `required` and `properties` together. -/
theorem has_iff {o : JObj} {k : String} {P : Json → Prop} :
    (Has o k P) ↔ (get? o k).isSome = true ∧ Opt o k P := by
  unfold Has Opt
  cases get? o k <;> simp

theorem opt_def {o : JObj} {k : String} {P : Json → Prop} :
    (∀ v, get? o k = some v → P v) ↔ Opt o k P := Iff.rfl

theorem opt_congr {o : JObj} {k : String} {P Q : Json → Prop} (h : ∀ v, P v ↔ Q v) :
    Opt o k P ↔ Opt o k Q := by
  unfold Opt
  exact ⟨fun a v hv => (h v).1 (a v hv), fun a v hv => (h v).2 (a v hv)⟩

/-- An object schema whose `required` comes first. -/
theorem object_rp (ks : List String) (ps : List (String × Sch)) (v : Json) :
    ok E (.all [.types ["object"], .required ks, .props ps]) v = true ↔
      ∃ o, v = .obj o ∧ (∀ k ∈ ks, (get? o k).isSome = true) ∧ okProps E ps o = true := by
  cases v <;> simp [ok, okAll, kind]

/-- An object schema whose `properties` come first. -/
theorem object_pr (ks : List String) (ps : List (String × Sch)) (v : Json) :
    ok E (.all [.types ["object"], .props ps, .required ks]) v = true ↔
      ∃ o, v = .obj o ∧ (∀ k ∈ ks, (get? o k).isSome = true) ∧ okProps E ps o = true := by
  cases v <;> simp [ok, okAll, kind, and_comm]

/-- An array schema with one schema for all items. -/
theorem array_items (s : Sch) (v : Json) :
    ok E (.all [.types ["array"], .items s]) v = true ↔
      ∃ l, v = .arr l ∧ ∀ x ∈ l, ok E s x = true := by
  cases v <;> simp [ok, okAll, kind]

theorem array_items_min (s : Sch) (v : Json) :
    ok E (.all [.types ["array"], .items s, .minItems 1]) v = true ↔
      ∃ l, v = .arr l ∧ l ≠ [] ∧ ∀ x ∈ l, ok E s x = true := by
  cases v with
  | arr l => cases l <;> simp [ok, okAll, kind]
  | null | bool | num | str | obj => simp [ok, okAll, kind]

theorem array_min_items (s : Sch) (v : Json) :
    ok E (.all [.types ["array"], .minItems 1, .items s]) v = true ↔
      ∃ l, v = .arr l ∧ l ≠ [] ∧ ∀ x ∈ l, ok E s x = true := by
  cases v with
  | arr l => cases l <;> simp [ok, okAll, kind]
  | null | bool | num | str | obj => simp [ok, okAll, kind]

theorem anyOf2 (a b : Sch) (v : Json) : ok E (.all [.anyOf [a, b]]) v = true ↔
    ok E a v = true ∨ ok E b v = true := by
  simp [ok, okAll, okAny]

theorem anyOf3 (a b c : Sch) (v : Json) : ok E (.all [.anyOf [a, b, c]]) v = true ↔
    ok E a v = true ∨ ok E b v = true ∨ ok E c v = true := by
  simp [ok, okAll, okAny]

theorem anyOf4 (a b c d : Sch) (v : Json) : ok E (.all [.anyOf [a, b, c, d]]) v = true ↔
    ok E a v = true ∨ ok E b v = true ∨ ok E c v = true ∨ ok E d v = true := by
  simp [ok, okAll, okAny]

/-- `oneOf` of two schemas that no value passes both. -/
theorem oneOf2 {a b : Sch} {v : Json} (h : ¬ (ok E a v = true ∧ ok E b v = true)) :
    ok E (.all [.oneOf [a, b]]) v = true ↔ ok E a v = true ∨ ok E b v = true := by
  simp only [ok, okAll, okCount]
  cases ha : ok E a v <;> cases hb : ok E b v <;> simp_all

theorem isType (k : String) (v : Json) : ok E (.all [.types [k]]) v = true ↔ kind v = k := by
  cases v <;> simp [ok, okAll, kind]

theorem kind_arr (v : Json) : kind v = "array" ↔ Arr v := by cases v <;> simp [kind, Arr]
theorem kind_obj (v : Json) : kind v = "object" ↔ Obj v := by cases v <;> simp [kind, Obj]
theorem kind_str (v : Json) : kind v = "string" ↔ Str v := by cases v <;> simp [kind, Str]
theorem kind_null (v : Json) : kind v = "null" ↔ v = .null := by cases v <;> simp [kind]

/-! ## Pieces, v1 -/

theorem v1_typed (v : Json) : ok E (.all [.anyOf [.all [.types ["string"]],
      .all [.types ["array"], .items (.all [.types ["string"]])]]]) v = true ↔
    (Str v ∨ ∃ l, v = .arr l ∧ ∀ x ∈ l, Str x) := by
  rw [anyOf2, isString, array_items]
  simp only [isString]

theorem v1_proof (v : Json) : ok E credV1Proof v = true ↔ Proof1 v := by
  unfold credV1Proof Proof1
  rw [object_rp]
  simp only [okProps_cons, okProps_nil, isString, has_iff, and_true, List.mem_singleton, forall_eq,
    opt_def]

theorem vp1_proof (v : Json) : ok E presV1Proof v = true ↔ Proof1 v := v1_proof v

theorem vp1_typedId (v : Json) : ok E presV1TypedID v = true ↔ TypedId E v := by
  unfold presV1TypedID TypedId
  rw [object_rp]
  simp only [okProps_cons, okProps_nil, isFmt, v1_typed, has_iff, and_true, List.mem_cons,
    List.not_mem_nil, or_false, forall_eq_or_imp, forall_eq, opt_def]
  constructor
  · rintro ⟨o, h, ⟨a, b⟩, c, d⟩; exact ⟨o, h, ⟨a, c⟩, b, d⟩
  · rintro ⟨o, h, ⟨a, c⟩, b, d⟩; exact ⟨o, h, ⟨a, b⟩, c, d⟩

theorem v1_typedId (v : Json) : ok E credV1TypedID v = true ↔ v = .null ∨ TypedId E v := by
  rw [← vp1_typedId, show credV1TypedID = .all [.anyOf [.all [.types ["null"]], presV1TypedID]] from rfl,
    anyOf2, isNull]

theorem v1_typedIds (v : Json) : ok E credV1TypedIDs v = true ↔ v = .null ∨ TypedId E v ∨
    ∃ l, v = .arr l ∧ ∀ x ∈ l, x = .null ∨ TypedId E x := by
  unfold credV1TypedIDs
  rw [anyOf3, array_items, isNull, v1_typedId]
  simp only [v1_typedId]
  constructor
  · rintro ((h | h) | h | h)
    · exact .inl h
    · exact .inr (.inl h)
    · exact .inr (.inr h)
    · exact .inl h
  · rintro (h | h | h)
    · exact .inl (.inl h)
    · exact .inl (.inr h)
    · exact .inr (.inl h)

theorem v1_contextItem (L : Laws E) (u : String) (v : Json) :
    ok E (.all [.types ["string"], .const (.str u)]) v = true ↔ v = .str u := by
  cases v <;> simp [ok, okAll, kind, L.text]

theorem okTuple_one (s r : Sch) (l : List Json) : okTuple E [s] (ok E r) l = true ↔
    (∀ x, l.head? = some x → ok E s x = true) ∧ ∀ x ∈ l.tail, ok E r x = true := by
  rcases l with _ | ⟨x, _ | ⟨y, l⟩⟩ <;> simp [okTuple]

theorem v1_contextArr (L : Laws E) (rest : Sch) (hr : ∀ v, ok E rest v = true ↔ Obj v ∨ Str v)
    (u : String) (v : Json) :
    ok E (.all [.types ["array"], .tuple [.all [.types ["string"], .const (.str u)]] rest, .unique]) v
      = true ↔ ∃ l, v = .arr l ∧ (∀ x, l.head? = some x → x = .str u) ∧
        (∀ x ∈ l.tail, Obj x ∨ Str x) ∧ (l.map E.text).Nodup := by
  cases v with
  | arr l =>
    rw [ok_all]
    simp only [okAll_cons, okAll_nil, and_true, ok_types, ok_tuple, ok_unique, kind, okTuple_one,
      distinct_iff, v1_contextItem L, hr]
    simp [and_assoc]
  | null | bool | num | str | obj => simp [ok, okAll, kind]

theorem v1_rest_any (v : Json) : ok E (.all [.anyOf [.all [.types ["object"]],
    .all [.types ["string"]]]]) v = true ↔ Obj v ∨ Str v := by
  rw [anyOf2, isType, isType, kind_obj, kind_str]

theorem v1_rest_one (v : Json) : ok E (.all [.oneOf [.all [.types ["object"]],
    .all [.types ["string"]]]]) v = true ↔ Obj v ∨ Str v := by
  rw [oneOf2, isType, isType, kind_obj, kind_str]
  rw [isType, isType]
  rintro ⟨a, b⟩
  rw [a] at b
  exact absurd b (by decide)

/-- The type member of both v1 schemas. -/
theorem v1_type (pat name : String) (hp : ∀ s, E.regex pat s = true ↔ s = name) (v : Json) :
    ok E (.all [.oneOf [
      .all [.types ["array"], .minItems 1, .contains (.all [.types ["string"], .pattern pat])],
      .all [.types ["string"], .pattern pat]]]) v = true ↔ Typed name v := by
  have hd : ∀ x, ok E (.all [.types ["string"], .pattern pat]) x = true ↔ x = .str name := by
    intro x
    rw [isDate]
    unfold DateLike
    simp only [hp]
    constructor
    · rintro ⟨s, rfl, rfl⟩; rfl
    · rintro rfl; exact ⟨name, rfl, rfl⟩
  have ha : ok E (.all [.types ["array"], .minItems 1, .contains (.all [.types ["string"], .pattern pat])]) v
      = true ↔ ∃ l, v = .arr l ∧ Json.str name ∈ l := by
    cases v with
    | arr l =>
      rw [ok_all]
      simp only [okAll_cons, okAll_nil, and_true, ok_types, ok_minItems, ok_contains,
        List.any_eq_true, hd, kind]
      cases l with
      | nil => simp
      | cons x l => simp
    | null | bool | num | str | obj => simp [ok, okAll, kind]
  rw [oneOf2, ha, hd]
  · unfold Typed; exact or_comm
  · rw [ha, hd]
    rintro ⟨⟨l, rfl, -⟩, h⟩
    cases h

end VC.Schema
