import Verif.SDJWT.DiscloseOrder
/-!
# Issuing SD-JWTs: specification

An issued SD-JWT is described by an *annotated claims tree*: the claims, where every member of an
object and every element of an array carries either nothing (it is in clear) or the disclosure
string that reveals it.  `erase` forgets the annotations (the issuer's claims), `discs` lists the
disclosures, `reveal S` is what a verifier must see when exactly the disclosures `S` are presented.
-/

namespace VC.SDJWT

mutual
/-- A value whose parts may be selectively disclosable. -/
inductive Node where
  /-- a value without selectively disclosable parts -/
  | plain (v : Json)
  /-- an array; `some s`: the element is revealed by the disclosure `s` -/
  | arr (l : List (Option String × Json))
  /-- an object -/
  | obj (ms : Members)
/-- The members of an object; `some s`: the member is revealed by the disclosure `s`. -/
inductive Members where
  | nil
  | cons (k : String) (s : Option String) (t : Node) (ms : Members)
end

mutual
/-- The claims without annotations. -/
def Node.erase : Node → Json
  | .plain v => v
  | .arr l => .arr (l.map Prod.snd)
  | .obj ms => .obj ms.erase
/-- The members without annotations. -/
def Members.erase : Members → JObj
  | .nil => []
  | .cons k _ t ms => (k, t.erase) :: ms.erase
end

mutual
/-- All disclosures, including nested ones. -/
def Node.discs : Node → List String
  | .plain _ => []
  | .arr l => l.filterMap Prod.fst
  | .obj ms => ms.discs
/-- All disclosures of the members. -/
def Members.discs : Members → List String
  | .nil => []
  | .cons _ s t ms => s.toList ++ t.discs ++ ms.discs
end

mutual
/-- What disclosure processing makes of a value without digests: null members of objects are
dropped and empty arrays become null (elements of arrays are not processed). -/
def tidy : Json → Json
  | .arr l => if l.isEmpty then .null else .arr l
  | .obj m => .obj (tidyMembers m)
  | v => v
/-- `tidy` of the members. -/
def tidyMembers : List (String × Json) → List (String × Json)
  | [] => []
  | (k, v) :: m => if (tidy v).isNull then tidyMembers m else (k, tidy v) :: tidyMembers m
end

/-- The elements of an array that are visible when the disclosures `S` are presented: the clear
ones and those whose disclosure is in `S`. -/
def revealElems (S : List String) : List (Option String × Json) → List Json
  | [] => []
  | (none, v) :: l => v :: revealElems S l
  | (some s, v) :: l => if s ∈ S then tidy v :: revealElems S l else revealElems S l

mutual
/-- What a verifier sees when the disclosures `S` are presented. -/
def Node.reveal (S : List String) : Node → Json
  | .plain v => tidy v
  | .arr l => if (revealElems S l).isEmpty then .null else .arr (revealElems S l)
  | .obj ms => .obj (ms.reveal S)
/-- The visible members: the clear ones (unless null) and those whose disclosure is in `S`. -/
def Members.reveal (S : List String) : Members → JObj
  | .nil => []
  | .cons k none t ms =>
    if (t.reveal S).isNull then ms.reveal S else (k, t.reveal S) :: ms.reveal S
  | .cons k (some s) t ms =>
    if s ∈ S then (k, t.reveal S) :: ms.reveal S else ms.reveal S
end

mutual
/-- No object inside the value uses one of the member names reserved by SD-JWT. -/
def Unreserved : Json → Prop
  | .arr l => UnreservedArr l
  | .obj m => UnreservedObj m
  | _ => True
/-- All elements. -/
def UnreservedArr : List Json → Prop
  | [] => True
  | v :: l => Unreserved v ∧ UnreservedArr l
/-- All members. -/
def UnreservedObj : List (String × Json) → Prop
  | [] => True
  | (k, v) :: m => (k ≠ "_sd" ∧ k ≠ "_sd_alg" ∧ k ≠ "...") ∧ Unreserved v ∧ UnreservedObj m
end

mutual
/-- No null value and no empty array anywhere inside the value. -/
def Solid : Json → Prop
  | .null => False
  | .arr l => l ≠ [] ∧ SolidArr l
  | .obj m => SolidObj m
  | _ => True
/-- All elements. -/
def SolidArr : List Json → Prop
  | [] => True
  | v :: l => Solid v ∧ SolidArr l
/-- All members. -/
def SolidObj : List (String × Json) → Prop
  | [] => True
  | (_, v) :: m => Solid v ∧ SolidObj m
end

mutual
/-- If a nested disclosure is presented, so are the disclosures around it. -/
def Node.Closed (S : List String) : Node → Prop
  | .obj ms => ms.Closed S
  | _ => True
/-- `Closed` for all members. -/
def Members.Closed (S : List String) : Members → Prop
  | .nil => True
  | .cons _ none t ms => t.Closed S ∧ ms.Closed S
  | .cons _ (some s) t ms => (∀ s' ∈ t.discs, s' ∈ S → s ∈ S) ∧ t.Closed S ∧ ms.Closed S
end

/-! ## Sanity of the specification -/

theorem tidy_not_null {v : Json} (h : Solid v) : (tidy v).isNull = false := by
  cases v with
  | null => exact absurd h (by simp [Solid])
  | arr l =>
    simp only [Solid] at h
    cases l with
    | nil => exact absurd rfl h.1
    | cons a l => simp [tidy, Json.isNull]
  | _ => simp [tidy, Json.isNull]

mutual
theorem tidy_solid : ∀ (v : Json), Solid v → tidy v = v
  | .null, _ => rfl
  | .bool _, _ => rfl
  | .num _, _ => rfl
  | .str _, _ => rfl
  | .arr l, h => by
    simp only [Solid] at h
    cases l with
    | nil => exact absurd rfl h.1
    | cons a l => simp [tidy]
  | .obj m, h => by
    simp only [Solid] at h
    simp only [tidy, tidyMembers_solid m h]
theorem tidyMembers_solid : ∀ (m : List (String × Json)), SolidObj m → tidyMembers m = m
  | [], _ => rfl
  | (k, v) :: m, h => by
    simp only [SolidObj] at h
    have := tidy_not_null h.1
    rw [tidy_solid v h.1] at this
    simp only [tidyMembers, tidy_solid v h.1, tidyMembers_solid m h.2, this]
    simp
end

theorem revealElems_all (S : List String) (l : List (Option String × Json))
    (hs : SolidArr (l.map Prod.snd)) (h : ∀ s ∈ l.filterMap Prod.fst, s ∈ S) :
    revealElems S l = l.map Prod.snd := by
  induction l with
  | nil => rfl
  | cons p l ih =>
    obtain ⟨a, v⟩ := p
    simp only [List.map_cons, SolidArr] at hs
    cases a with
    | none =>
      simp only [revealElems, List.map_cons]
      rw [ih hs.2 (fun s h' => h s (by simpa using h'))]
    | some s =>
      simp only [revealElems, List.map_cons]
      rw [if_pos (h s (by simp)), ih hs.2 (fun s h' => h s (by simp [h'])), tidy_solid v hs.1]

mutual
theorem Node.reveal_not_null (S : List String) : ∀ (t : Node), Solid t.erase →
    (∀ s ∈ t.discs, s ∈ S) → t.reveal S = t.erase
  | .plain v, h, _ => by
    simp only [Node.erase] at h
    simp only [Node.reveal, Node.erase, tidy_solid v h]
  | .arr l, h, hS => by
    simp only [Node.erase, Solid] at h
    simp only [Node.discs] at hS
    simp only [Node.reveal, Node.erase, revealElems_all S l h.2 hS]
    have h1 := h.1
    generalize l.map Prod.snd = l' at h1 ⊢
    cases l' with
    | nil => exact absurd rfl h1
    | cons a b => simp
  | .obj ms, h, hS => by
    simp only [Node.erase, Solid] at h
    simp only [Node.discs] at hS
    simp only [Node.reveal, Node.erase, Members.reveal_all S ms h hS]
/-- Presenting every disclosure shows the issuer's claims. -/
theorem Members.reveal_all (S : List String) : ∀ (ms : Members), SolidObj ms.erase →
    (∀ s ∈ ms.discs, s ∈ S) → ms.reveal S = ms.erase
  | .nil, _, _ => rfl
  | .cons k none t ms, h, hS => by
    simp only [Members.erase, SolidObj] at h
    simp only [Members.discs, Option.toList, List.nil_append, List.mem_append] at hS
    have e1 := Node.reveal_not_null S t h.1 (fun s hs => hS s (Or.inl hs))
    have e2 := Members.reveal_all S ms h.2 (fun s hs => hS s (Or.inr hs))
    simp only [Members.reveal, Members.erase, e1, e2]
    have : t.erase.isNull = false := by
      have := tidy_not_null h.1
      rwa [tidy_solid _ h.1] at this
    simp [this]
  | .cons k (some s) t ms, h, hS => by
    simp only [Members.erase, SolidObj] at h
    simp only [Members.discs, Option.toList, List.mem_append, List.mem_cons, List.not_mem_nil,
      or_false] at hS
    have e1 := Node.reveal_not_null S t h.1 (fun s hs => hS s (Or.inl (Or.inr hs)))
    have e2 := Members.reveal_all S ms h.2 (fun s hs => hS s (Or.inr hs))
    simp only [Members.reveal, Members.erase, e1, e2]
    rw [if_pos (hS s (Or.inl (Or.inl rfl)))]
end

end VC.SDJWT
