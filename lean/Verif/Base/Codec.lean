import Verif.Base.Json
import Mathlib.Logic.Encodable.Basic
import Mathlib.Logic.Equiv.List
/-!
# Some encoding of JSON arrays as text

Only used to show that hypotheses of the form "what is encoded is read back" can be met for all values at
once; it is not the encoding of the code (which is JSON and base64url).
-/

namespace VC.Codec

/-- A token: a kind, a rational, a text. -/
abbrev Tok := Nat × Int × Nat × List Nat

/-- The characters of a text as numbers. -/
def codes (s : String) : List Nat := s.toList.map Char.toNat

theorem codes_inj {a b : String} (h : codes a = codes b) : a = b := by
  unfold codes at h
  apply String.toList_inj.mp
  generalize a.toList = x at h
  generalize b.toList = y at h
  induction x generalizing y with
  | nil => cases y with
    | nil => rfl
    | cons => exact nomatch h
  | cons c x ih => cases y with
    | nil => exact nomatch h
    | cons d y =>
      simp only [List.map_cons, List.cons.injEq] at h
      rw [ih y h.2]
      have : c = d := by
        apply Char.ext
        exact UInt32.toNat_inj.mp h.1
      rw [this]

mutual
/-- The tokens of a value. -/
def toks : Json → List Tok
  | .null => [(0, 0, 0, [])]
  | .bool true => [(1, 0, 0, [])]
  | .bool false => [(2, 0, 0, [])]
  | .num q => [(3, q.num, q.den, [])]
  | .str s => [(4, 0, 0, codes s)]
  | .arr l => (5, 0, 0, []) :: toksArr l
  | .obj o => (7, 0, 0, []) :: toksObj o
/-- The tokens of the elements of an array and its end. -/
def toksArr : List Json → List Tok
  | [] => [(6, 0, 0, [])]
  | j :: l => toks j ++ toksArr l
/-- The tokens of the members of an object and its end. -/
def toksObj : List (String × Json) → List Tok
  | [] => [(6, 0, 0, [])]
  | (k, v) :: o => (8, 0, 0, codes k) :: (toks v ++ toksObj o)
end

theorem toks_head (j : Json) : ∃ t r, toks j = t :: r ∧ t.1 ≠ 6 := by
  cases j with
  | null => exact ⟨(0, 0, 0, []), [], by simp only [toks], by simp⟩
  | bool b => cases b with
    | true => exact ⟨(1, 0, 0, []), [], by simp only [toks], by simp⟩
    | false => exact ⟨(2, 0, 0, []), [], by simp only [toks], by simp⟩
  | num q => exact ⟨(3, q.num, q.den, []), [], by simp only [toks], by simp⟩
  | str s => exact ⟨(4, 0, 0, codes s), [], by simp only [toks], by simp⟩
  | arr l => exact ⟨(5, 0, 0, []), toksArr l, by simp only [toks], by simp⟩
  | obj o => exact ⟨(7, 0, 0, []), toksObj o, by simp only [toks], by simp⟩

mutual
theorem toks_inj : ∀ (j j' : Json) (r r' : List Tok), toks j ++ r = toks j' ++ r' → j = j' ∧ r = r'
  | .null, j', r, r', h => by
    cases j' with
    | bool b => cases b <;> simp [toks] at h
    | null => simp [toks] at h; exact ⟨rfl, h⟩
    | _ => simp [toks] at h
  | .bool b, j', r, r', h => by
    cases j' with
    | bool b' => cases b <;> cases b' <;> simp [toks] at h <;> exact ⟨rfl, h⟩
    | _ => cases b <;> simp [toks] at h
  | .num q, j', r, r', h => by
    cases j' with
    | bool b => cases b <;> simp [toks] at h
    | num q' =>
      simp [toks] at h
      exact ⟨by rw [Rat.ext h.1.1 h.1.2], h.2⟩
    | _ => simp [toks] at h
  | .str s, j', r, r', h => by
    cases j' with
    | bool b => cases b <;> simp [toks] at h
    | str s' =>
      simp [toks] at h
      exact ⟨by rw [codes_inj h.1], h.2⟩
    | _ => simp [toks] at h
  | .arr l, j', r, r', h => by
    cases j' with
    | bool b => cases b <;> simp [toks] at h
    | arr l' =>
      simp [toks] at h
      obtain ⟨h1, h2⟩ := toksArr_inj l l' r r' h
      exact ⟨by rw [h1], h2⟩
    | _ => simp [toks] at h
  | .obj o, j', r, r', h => by
    cases j' with
    | bool b => cases b <;> simp [toks] at h
    | obj o' =>
      simp [toks] at h
      obtain ⟨h1, h2⟩ := toksObj_inj o o' r r' h
      exact ⟨by rw [h1], h2⟩
    | _ => simp [toks] at h
theorem toksArr_inj : ∀ (l l' : List Json) (r r' : List Tok), toksArr l ++ r = toksArr l' ++ r' → l = l' ∧ r = r'
  | [], [], r, r', h => by simp [toksArr] at h; exact ⟨rfl, h⟩
  | [], j' :: l', r, r', h => by
    obtain ⟨t, x, ht, hne⟩ := toks_head j'
    simp only [toksArr, ht, List.cons_append, List.nil_append, List.cons.injEq] at h
    exact absurd (by rw [← h.1]) hne
  | j :: l, [], r, r', h => by
    obtain ⟨t, x, ht, hne⟩ := toks_head j
    simp only [toksArr, ht, List.cons_append, List.nil_append, List.cons.injEq] at h
    exact absurd (by rw [h.1]) hne
  | j :: l, j' :: l', r, r', h => by
    simp only [toksArr, List.append_assoc] at h
    obtain ⟨h1, h2⟩ := toks_inj j j' _ _ h
    obtain ⟨h3, h4⟩ := toksArr_inj l l' r r' h2
    exact ⟨by rw [h1, h3], h4⟩
theorem toksObj_inj : ∀ (o o' : List (String × Json)) (r r' : List Tok), toksObj o ++ r = toksObj o' ++ r' →
    o = o' ∧ r = r'
  | [], [], r, r', h => by simp [toksObj] at h; exact ⟨rfl, h⟩
  | [], (k', v') :: o', r, r', h => by simp [toksObj] at h
  | (k, v) :: o, [], r, r', h => by simp [toksObj] at h
  | (k, v) :: o, (k', v') :: o', r, r', h => by
    simp only [toksObj, List.cons_append, List.cons.injEq, Prod.mk.injEq, List.append_assoc, true_and] at h
    obtain ⟨h1, h2⟩ := toks_inj v v' _ _ h.2
    obtain ⟨h3, h4⟩ := toksObj_inj o o' r r' h2
    exact ⟨by rw [codes_inj h.1, h1, h3], h4⟩
end

/-- The text of an array: as many letters as the number of its token list. -/
def enc (l : List Json) : String := String.ofList (List.replicate (Encodable.encode (toksArr l)) 'a')

theorem enc_inj {l l' : List Json} (h : enc l = enc l') : l = l' := by
  unfold enc at h
  have h1 := congrArg (fun s => s.toList.length) h
  simp only [String.toList_ofList, List.length_replicate] at h1
  exact (toksArr_inj l l' [] [] (by rw [Encodable.encode_injective h1])).1

open Classical in
/-- Reading. -/
noncomputable def dec (s : String) : Option (List Json) := if h : ∃ l, enc l = s then some h.choose else none

theorem dec_enc (l : List Json) : dec (enc l) = some l := by
  unfold dec
  have h : ∃ l', enc l' = enc l := ⟨l, rfl⟩
  rw [dif_pos h]
  congr 1
  exact enc_inj h.choose_spec

theorem enc_chars (l : List Json) : ∀ c ∈ (enc l).toList, c = 'a' := by
  intro c hc
  simp only [enc, String.toList_ofList, List.mem_replicate] at hc
  exact hc.2

theorem dec_none {s : String} (h : ∃ c ∈ s.toList, c ≠ 'a') : dec s = none := by
  unfold dec
  rw [dif_neg]
  rintro ⟨l, rfl⟩
  obtain ⟨c, hc, hn⟩ := h
  exact hn (enc_chars l c hc)

end VC.Codec
