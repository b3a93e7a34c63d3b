import Verif.SDJWT.IssuerModel
import Verif.SDJWT.Combined
import Batteries.Data.List.Basic
/-!
# C137: an SD-JWT tells nothing about the claims that are not disclosed (V2)

Two sets of claims that differ only in the names and values of claims that are hidden and not disclosed
cannot be told apart: what the issuer publishes for the first is, under a hash function that differs only
on texts containing a salt nobody was told, what it publishes for the second.  So whatever a verifier
concludes from an SD-JWT and the disclosures it was given, without guessing a salt, holds for all of them.
-/

namespace VC.SDJWT

/-- The issuer with another hash function. -/
def IEnv.withHash (E : IEnv) (h : String → String → String) : IEnv := { E with env := { E.env with hash := h } }

namespace Spec

/-- Not an object whose members are treated one by one. -/
def Leaf (E : IEnv) (v : Json) : Prop := ∀ o, v = .obj o → E.structured = false

/-- The path of a member. -/
def sub (path k : String) : String := if path = "" then k else path ++ "." ++ k

/-- The number of decoys when `n` salts have been drawn. -/
def decoyCount (E : IEnv) (n : Nat) : Nat := if E.addDecoys then E.intn n % 4 + 1 else 0

/-- Two objects issued with the salts from the `n`-th to before the `n'`-th are the same but for the names
and values of hidden claims whose salt is secret. -/
inductive Alike (E : IEnv) (secret : Nat → Prop) : String → Nat → JObj → JObj → Nat → Prop
  | nil (path : String) (n : Nat) : Alike E secret path n [] [] n
  /-- a claim that is signed in clear is the same -/
  | clear {path : String} {n n' : Nat} {k : String} {v : Json} {m1 m2 : JObj} :
      Leaf E v → E.nonSD (sub path k) = true → Alike E secret path n m1 m2 n' →
      Alike E secret path n ((k, v) :: m1) ((k, v) :: m2) n'
  /-- a hidden claim may be the same -/
  | same {path : String} {n n' : Nat} {k : String} {v : Json} {m1 m2 : JObj} :
      Leaf E v → E.nonSD (sub path k) = false → Alike E secret path (n + 1) m1 m2 n' →
      Alike E secret path n ((k, v) :: m1) ((k, v) :: m2) n'
  /-- a hidden claim with a secret salt may be any other -/
  | other {path : String} {n n' : Nat} {k1 k2 : String} {v1 v2 : Json} {m1 m2 : JObj} :
      secret n → Leaf E v1 → Leaf E v2 → E.nonSD (sub path k1) = false → E.nonSD (sub path k2) = false →
      Alike E secret path (n + 1) m1 m2 n' → Alike E secret path n ((k1, v1) :: m1) ((k2, v2) :: m2) n'
  /-- with structured claims, objects are alike inside -/
  | inside {path : String} {n n1 n' : Nat} {k : String} {o1 o2 m1 m2 : JObj} :
      E.structured = true → Alike E secret (sub path k) (n + decoyCount E n) o1 o2 n1 →
      Alike E secret path n1 m1 m2 n' → Alike E secret path n ((k, .obj o1) :: m1) ((k, .obj o2) :: m2) n'

/-- The text is a disclosure with the given salt. -/
def Carries (E : IEnv) (text salt : String) : Prop := ∃ rest, E.env.decode text = some (.str salt :: rest)

/-- The hash functions differ only on disclosures with a secret salt. -/
def SameHash (E : IEnv) (secret : Nat → Prop) (h : String → String → String) : Prop :=
  ∀ alg text, h alg text ≠ E.env.hash alg text → ∃ i, secret i ∧ Carries E text (E.salt i)

/-- Salts are drawn afresh, disclosures can be read back, and no salt is the text of a disclosure. -/
structure GoodSalts (E : IEnv) : Prop where
  fresh : ∀ i j, E.salt i = E.salt j → i = j
  readable : ∀ a, E.env.decode (E.encode a) = some a
  plain : ∀ i, E.env.decode (E.salt i) = none

/-- Two disclosures of the same salt: the same disclosure, or a secret one. -/
def Match (E : IEnv) (secret : Nat → Prop) (e1 e2 : Ent) : Prop :=
  ∃ i, Carries E e1.result (E.salt i) ∧ Carries E e2.result (E.salt i) ∧ (e1 = e2 ∨ secret i)

end Spec

open Spec

/-! ## Proofs -/

theorem curPath_sub (path k : String) : curPath path k = Spec.sub path k := by
  unfold curPath Spec.sub
  by_cases h : path = "" <;> simp [h]

theorem decoys_length (E : IEnv) (n : Nat) : (createDecoys E n).length = decoyCount E n := by
  unfold createDecoys decoyCount
  split <;> simp

/-- A disclosure drawn with the salt `i`. -/
def Drawn (E : IEnv) (i : Nat) (e : Ent) : Prop :=
  ∃ rest, e.debugArr = .str (E.salt i) :: rest ∧ e.result = E.encode e.debugArr

theorem Drawn.carries {E : IEnv} (hg : GoodSalts E) {i : Nat} {e : Ent} (h : Drawn E i e) :
    Carries E e.result (E.salt i) := by
  obtain ⟨rest, h1, h2⟩ := h
  exact ⟨rest, by rw [h2, hg.readable, h1]⟩

theorem v2Disclosure_drawn (E : IEnv) (n : Nat) (k : String) (v : Json) : Drawn E n (v2Disclosure E n k v) :=
  ⟨_, rfl, rfl⟩

theorem carries_inj {E : IEnv} (hg : GoodSalts E) {t : String} {i j : Nat} (h1 : Carries E t (E.salt i))
    (h2 : Carries E t (E.salt j)) : i = j := by
  obtain ⟨r1, h1⟩ := h1
  obtain ⟨r2, h2⟩ := h2
  rw [h1] at h2
  simp only [Option.some.injEq, List.cons.injEq, Json.str.injEq] at h2
  exact hg.fresh _ _ h2.1

/-- An entry made with the salt `i`: a disclosure with it, or the salt itself (a decoy). -/
def DrawnBy (E : IEnv) (i : Nat) (e : Ent) : Prop := Drawn E i e ∨ e.result = E.salt i

/-- The entries have pairwise different salts, from the `n`-th to before the `n'`-th. -/
def Fresh (E : IEnv) (n n' : Nat) (es : List Ent) : Prop :=
  n ≤ n' ∧ ∃ is : List Nat, is.Nodup ∧ (∀ i ∈ is, n ≤ i ∧ i < n') ∧ List.Forall₂ (DrawnBy E) is es

theorem Fresh.nil (E : IEnv) (n : Nat) : Fresh E n n [] := ⟨Nat.le_refl _, [], .nil, fun _ h => (nomatch h), .nil⟩

theorem forall₂_append {α β : Type} {R : α → β → Prop} {a c : List α} {b d : List β} (h1 : List.Forall₂ R a b)
    (h2 : List.Forall₂ R c d) : List.Forall₂ R (a ++ c) (b ++ d) := by
  induction h1 with
  | nil => exact h2
  | cons h _ ih => exact .cons h ih

theorem forall₂_perm {α β : Type} {R : α → β → Prop} {b b' : List β} (hp : b.Perm b') : ∀ {a : List α},
    List.Forall₂ R a b → ∃ a', a.Perm a' ∧ List.Forall₂ R a' b' := by
  induction hp with
  | nil => intro a h; exact ⟨a, .refl _, h⟩
  | cons x _ ih =>
    intro a h
    cases h with
    | cons h1 h2 =>
      obtain ⟨a', hp, h'⟩ := ih h2
      exact ⟨_, hp.cons _, .cons h1 h'⟩
  | swap x y l =>
    intro a h
    cases h with
    | cons h1 h2 =>
      cases h2 with
      | cons h2 h3 => exact ⟨_, .swap _ _ _, .cons h2 (.cons h1 h3)⟩
  | trans _ _ ih1 ih2 =>
    intro a h
    obtain ⟨a', hp, h'⟩ := ih1 h
    obtain ⟨a'', hp', h''⟩ := ih2 h'
    exact ⟨a'', hp.trans hp', h''⟩

theorem Fresh.perm {E : IEnv} {n n' : Nat} {es es' : List Ent} (h : Fresh E n n' es) (hp : es.Perm es') :
    Fresh E n n' es' := by
  obtain ⟨hn, is, h1, h2, h3⟩ := h
  obtain ⟨is', hp', h3'⟩ := forall₂_perm hp h3
  exact ⟨hn, is', hp'.nodup_iff.mp h1, fun i hi => h2 i (hp'.mem_iff.mpr hi), h3'⟩

theorem Fresh.append {E : IEnv} {n n1 n' : Nat} {es es' : List Ent} (h : Fresh E n n1 es) (h' : Fresh E n1 n' es') :
    Fresh E n n' (es ++ es') := by
  obtain ⟨hn, is, h1, h2, h3⟩ := h
  obtain ⟨hn', is', h1', h2', h3'⟩ := h'
  refine ⟨Nat.le_trans hn hn', is ++ is', ?_, ?_, forall₂_append h3 h3'⟩
  · rw [List.nodup_append]
    refine ⟨h1, h1', fun a ha b hb => ?_⟩
    have := h2 a ha
    have := h2' b hb
    omega
  · intro i hi
    rcases List.mem_append.mp hi with hi | hi
    · have := h2 i hi; omega
    · have := h2' i hi; omega

theorem Fresh.weaken {E : IEnv} {n m n' : Nat} {es : List Ent} (h : Fresh E m n' es) (hm : n ≤ m) :
    Fresh E n n' es := by
  obtain ⟨hn, is, h1, h2, h3⟩ := h
  exact ⟨Nat.le_trans hm hn, is, h1, fun i hi => ⟨Nat.le_trans hm (h2 i hi).1, (h2 i hi).2⟩, h3⟩

theorem Fresh.one {E : IEnv} {n : Nat} {e : Ent} (h : Drawn E n e) : Fresh E n (n + 1) [e] :=
  ⟨Nat.le_succ _, [n], by simp, by simp, .cons (Or.inl h) .nil⟩

/-- Different disclosures have different salts. -/
theorem Fresh.unique {E : IEnv} (hg : GoodSalts E) {n n' : Nat} {es : List Ent} (h : Fresh E n n' es) :
    ∀ e ∈ es, ∀ e' ∈ es, ∀ i, Carries E e.result (E.salt i) → Carries E e'.result (E.salt i) → e = e' := by
  obtain ⟨_, is, h1, -, h3⟩ := h
  have mem : ∀ {is : List Nat} {es : List Ent}, List.Forall₂ (DrawnBy E) is es → ∀ e ∈ es, ∃ i ∈ is, DrawnBy E i e := by
    intro is es h
    induction h with
    | nil => intro e he; exact nomatch he
    | @cons i e is es h1 _ ih =>
      intro x hx
      rcases List.mem_cons.mp hx with rfl | hx
      · exact ⟨i, List.mem_cons_self .., h1⟩
      · obtain ⟨j, hj, h⟩ := ih x hx
        exact ⟨j, List.mem_cons_of_mem _ hj, h⟩
  induction h3 with
  | nil => intro e he; exact nomatch he
  | @cons j e0 is es h4 h5 ih =>
    obtain ⟨hj, hnd⟩ := List.nodup_cons.mp h1
    have clash : ∀ e ∈ es, ∀ i, Carries E e0.result (E.salt i) → ¬ Carries E e.result (E.salt i) := by
      intro e he i hc hc'
      obtain ⟨j', hj', hd⟩ := mem h5 e he
      have only : ∀ {j : Nat} {e : Ent}, DrawnBy E j e → Carries E e.result (E.salt i) → i = j := by
        intro j e hd hc
        rcases hd with hd | hd
        · exact carries_inj hg hc (hd.carries hg)
        · obtain ⟨r, hr⟩ := hc
          rw [hd, hg.plain] at hr
          exact nomatch hr
      have e1 := only h4 hc
      have e2 := only hd hc'
      subst e1 e2
      exact hj hj'
    intro e he e' he' i hc hc'
    rcases List.mem_cons.mp he with rfl | he2
    · rcases List.mem_cons.mp he' with rfl | he2'
      · rfl
      · exact absurd hc' (clash _ he2' i hc)
    · rcases List.mem_cons.mp he' with rfl | he2'
      · exact absurd hc (clash _ he2 i hc')
      · exact ih hnd e he2 e' he2' i hc hc'

/-! ### The other hash function -/

open Classical in
/-- A disclosure with a secret salt hashes as the issuer's disclosure with that salt; everything else as
before. -/
noncomputable def blindHash (E : IEnv) (secret : Nat → Prop) (es : List Ent) (alg text : String) : String :=
  if h : ∃ e ∈ es, ∃ i, secret i ∧ Carries E text (E.salt i) ∧ Carries E e.result (E.salt i) then
    E.env.hash alg h.choose.result
  else E.env.hash alg text

theorem blindHash_same (E : IEnv) (secret : Nat → Prop) (es : List Ent) : SameHash E secret (blindHash E secret es) := by
  intro alg text h
  unfold blindHash at h
  split at h
  · rename_i hx
    obtain ⟨_, _, i, h1, h2, _⟩ := hx
    exact ⟨i, h1, h2⟩
  · exact absurd rfl h

theorem blindHash_match {E : IEnv} (hg : GoodSalts E) {secret : Nat → Prop} {n n' : Nat} {es : List Ent}
    (hf : Fresh E n n' es) (alg : String) {e1 e2 : Ent} (h1 : e1 ∈ es) (hm : Match E secret e1 e2) :
    blindHash E secret es alg e2.result = E.env.hash alg e1.result := by
  obtain ⟨i, c1, c2, hs⟩ := hm
  unfold blindHash
  split
  · rename_i hx
    have hc := hx.choose_spec
    obtain ⟨hm, j, _, c3, c4⟩ := hc
    obtain rfl := carries_inj hg c2 c3
    rw [hf.unique hg _ hm e1 h1 i c4 c1]
  · rename_i hx
    rcases hs with rfl | hs
    · rfl
    · exact absurd ⟨e1, h1, i, hs, c2, c1⟩ hx

theorem blindHash_salt {E : IEnv} (hg : GoodSalts E) (secret : Nat → Prop) (es : List Ent) (alg : String) (i : Nat) :
    blindHash E secret es alg (E.salt i) = E.env.hash alg (E.salt i) := by
  unfold blindHash
  split
  · rename_i hx
    obtain ⟨_, _, _, _, ⟨r, h⟩, _⟩ := hx
    rw [hg.plain] at h
    exact nomatch h
  · rfl

/-! ### V2 -/

theorem v2Member_leaf {E : IEnv} {v : Json} (h : Leaf E v) (cur k : String) (n : Nat) :
    v2Member E cur k n v = v2Leaf E cur k n v := by
  cases v with
  | obj o => simp only [v2Member, h o rfl, if_neg Bool.false_ne_true]
  | _ => simp only [v2Member]

theorem v2Member_inside {E : IEnv} (h : E.structured = true) (cur k : String) (n : Nat) (o : JObj) :
    v2Member E cur k n (.obj o) =
      ⟨(v2Finish E (createDecoys E n) (v2Loop E cur (n + (createDecoys E n).length) o)).1, [],
        [(k, .obj (v2Finish E (createDecoys E n) (v2Loop E cur (n + (createDecoys E n).length) o)).2.1)],
        (v2Finish E (createDecoys E n) (v2Loop E cur (n + (createDecoys E n).length) o)).2.2⟩ := by
  simp only [v2Member, h, if_true]

theorem leaf_withHash {E : IEnv} {h : String → String → String} {v : Json} (hl : Leaf E v) : Leaf (E.withHash h) v := hl

/-- The salts of an object's disclosures. -/
theorem alike_fresh {E : IEnv} {secret : Nat → Prop} {path : String} {n n' : Nat} {m1 m2 : JObj}
    (h : Alike E secret path n m1 m2 n') :
    (v2Loop E path n m1).next = n' ∧
      Fresh E n n' ((v2Loop E path n m1).nested ++ (v2Loop E path n m1).level) := by
  have reorder : ∀ (a b c d : List Ent), ((a ++ b) ++ (c ++ d)).Perm ((a ++ c) ++ (b ++ d)) := by
    intro a b c d
    simp only [List.append_assoc]
    apply List.Perm.append_left
    rw [← List.append_assoc, ← List.append_assoc]
    exact List.perm_append_comm.append_right _
  induction h with
  | nil path n => simpa only [v2Loop, List.append_nil, true_and] using Fresh.nil E n
  | @clear path n n' k v m1 m2 hl hn _ ih =>
    simp only [v2Loop, v2Member_leaf hl, v2Leaf, curPath_sub, hn, if_true, Acc.join, List.nil_append]
    exact ih
  | @same path n n' k v m1 m2 hl hn _ ih =>
    simp only [v2Loop, v2Member_leaf hl, v2Leaf, curPath_sub, hn, if_neg Bool.false_ne_true, Acc.join,
      List.nil_append]
    refine ⟨ih.1, ((Fresh.one (v2Disclosure_drawn E n k v)).append ih.2).perm ?_⟩
    exact (List.perm_append_comm_assoc [_] _ _)
  | @other path n n' k1 k2 v1 v2 m1 m2 _ hl1 _ hn1 _ _ ih =>
    simp only [v2Loop, v2Member_leaf hl1, v2Leaf, curPath_sub, hn1, if_neg Bool.false_ne_true, Acc.join,
      List.nil_append]
    refine ⟨ih.1, ((Fresh.one (v2Disclosure_drawn E n k1 v1)).append ih.2).perm ?_⟩
    exact (List.perm_append_comm_assoc [_] _ _)
  | @inside path n n1 n' k o1 o2 m1 m2 hs _ _ ih1 ih2 =>
    simp only [v2Loop, v2Member_inside hs, curPath_sub, Acc.join, v2Finish, decoys_length, List.nil_append]
    rw [ih1.1]
    refine ⟨ih2.1, ?_⟩
    rw [List.append_assoc]
    exact (ih1.2.weaken (Nat.le_add_right _ _)).append ih2.2

theorem createDecoys_withHash (E : IEnv) (h : String → String → String) (n : Nat) :
    createDecoys (E.withHash h) n = createDecoys E n := rfl

theorem decoys_digest {E : IEnv} {h : String → String → String} (hs : ∀ i, h E.alg (E.salt i) = E.env.hash E.alg (E.salt i))
    (n : Nat) : (createDecoys E n).map (fun e => (E.withHash h).digest e.result) =
      (createDecoys E n).map (fun e => E.digest e.result) := by
  apply List.map_congr_left
  intro e he
  unfold createDecoys at he
  split at he
  · obtain ⟨i, _, rfl⟩ := List.mem_map.mp he
    exact hs _
  · exact nomatch he

theorem digests_match {E : IEnv} {h : String → String → String} {secret : Nat → Prop} {es : List Ent}
    (hm : ∀ e1 ∈ es, ∀ e2, Match E secret e1 e2 → h E.alg e2.result = E.env.hash E.alg e1.result) :
    ∀ {l1 l2 : List Ent}, List.Forall₂ (Match E secret) l1 l2 → (∀ e ∈ l1, e ∈ es) →
      l2.map (fun e => (E.withHash h).digest e.result) = l1.map (fun e => E.digest e.result) := by
  intro l1 l2 hf
  induction hf with
  | nil => intro _; rfl
  | @cons e1 e2 l1 l2 h1 _ ih =>
    intro hmem
    simp only [List.map_cons]
    rw [ih (fun e he => hmem e (List.mem_cons_of_mem _ he))]
    congr 1
    exact hm e1 (hmem e1 (List.mem_cons_self ..)) e2 h1

/-- What the loop makes of two alike objects. -/
theorem alike_loop {E : IEnv} (hg : GoodSalts E) {secret : Nat → Prop} {h : String → String → String} {es : List Ent}
    (hm : ∀ e1 ∈ es, ∀ e2, Match E secret e1 e2 → h E.alg e2.result = E.env.hash E.alg e1.result)
    (hs : ∀ i, h E.alg (E.salt i) = E.env.hash E.alg (E.salt i))
    {path : String} {n n' : Nat} {m1 m2 : JObj} (ha : Alike E secret path n m1 m2 n') :
    (v2Loop (E.withHash h) path n m2).next = (v2Loop E path n m1).next ∧
    List.Forall₂ (Match E secret) (v2Loop E path n m1).nested (v2Loop (E.withHash h) path n m2).nested ∧
    List.Forall₂ (Match E secret) (v2Loop E path n m1).level (v2Loop (E.withHash h) path n m2).level ∧
    ((∀ e ∈ (v2Loop E path n m1).nested ++ (v2Loop E path n m1).level, e ∈ es) →
      (v2Loop (E.withHash h) path n m2).fields = (v2Loop E path n m1).fields) := by
  induction ha with
  | nil path n => simp only [v2Loop]; exact ⟨trivial, .nil, .nil, fun _ => trivial⟩
  | @clear path n n' k v m1 m2 hl hn _ ih =>
    have hn' : (E.withHash h).nonSD (Spec.sub path k) = true := hn
    simp only [v2Loop, v2Member_leaf hl, v2Member_leaf (leaf_withHash hl), v2Leaf, curPath_sub, hn, hn', if_true,
      Acc.join, List.nil_append]
    obtain ⟨i1, i2, i3, i4⟩ := ih
    exact ⟨i1, i2, i3, fun hx => by rw [i4 hx]⟩
  | @same path n n' k v m1 m2 hl hn _ ih =>
    have hn' : (E.withHash h).nonSD (Spec.sub path k) = false := hn
    simp only [v2Loop, v2Member_leaf hl, v2Member_leaf (leaf_withHash hl), v2Leaf, curPath_sub, hn, hn',
      if_neg Bool.false_ne_true, Acc.join, List.nil_append]
    obtain ⟨i1, i2, i3, i4⟩ := ih
    refine ⟨i1, i2, forall₂_append (.cons ?_ .nil) i3, fun hx => i4 (fun e he => hx e ?_)⟩
    · have hc := (v2Disclosure_drawn E n k v).carries hg
      exact ⟨n, hc, hc, Or.inl rfl⟩
    · rcases List.mem_append.mp he with he | he
      · exact List.mem_append_left _ he
      · exact List.mem_append_right _ (List.mem_append_right _ he)
  | @other path n n' k1 k2 v1 v2 m1 m2 hsec hl1 hl2 hn1 hn2 _ ih =>
    have hn2' : (E.withHash h).nonSD (Spec.sub path k2) = false := hn2
    simp only [v2Loop, v2Member_leaf hl1, v2Member_leaf (leaf_withHash hl2), v2Leaf, curPath_sub, hn1, hn2',
      if_neg Bool.false_ne_true, Acc.join, List.nil_append]
    obtain ⟨i1, i2, i3, i4⟩ := ih
    refine ⟨i1, i2, forall₂_append (.cons ?_ .nil) i3, fun hx => i4 (fun e he => hx e ?_)⟩
    · exact ⟨n, (v2Disclosure_drawn E n k1 v1).carries hg, (v2Disclosure_drawn E n k2 v2).carries hg, Or.inr hsec⟩
    · rcases List.mem_append.mp he with he | he
      · exact List.mem_append_left _ he
      · exact List.mem_append_right _ (List.mem_append_right _ he)
  | @inside path n n1 n' k o1 o2 m1 m2 hst hin _ ih1 ih2 =>
    have hst' : (E.withHash h).structured = true := hst
    have hnext := (alike_fresh hin).1
    obtain ⟨i1, i2, i3, i4⟩ := ih1
    obtain ⟨j1, j2, j3, j4⟩ := ih2
    simp only [v2Loop, v2Member_inside hst, v2Member_inside hst', curPath_sub, Acc.join, v2Finish,
      createDecoys_withHash, decoys_length, List.nil_append]
    rw [i1, hnext]
    refine ⟨j1, forall₂_append (forall₂_append i2 i3) j2, j3, fun hx => ?_⟩
    have hin' : ∀ e ∈ (v2Loop E (Spec.sub path k) (n + decoyCount E n) o1).nested ++
        (v2Loop E (Spec.sub path k) (n + decoyCount E n) o1).level, e ∈ es :=
      fun e he => hx e (List.mem_append_left _ (List.mem_append_left _ he))
    rw [j4 (fun e he => hx e (by
      rcases List.mem_append.mp he with he | he
      · exact List.mem_append_left _ (List.mem_append_right _ he)
      · exact List.mem_append_right _ he)), i4 hin']
    have hd : createDigests (E.withHash h) n1
        ((v2Loop (E.withHash h) (Spec.sub path k) (n + decoyCount E n) o2).level ++ createDecoys E n) =
        createDigests E n1 ((v2Loop E (Spec.sub path k) (n + decoyCount E n) o1).level ++ createDecoys E n) := by
      unfold createDigests
      rw [List.map_append, List.map_append, decoys_digest hs,
        digests_match hm i3 (fun e he => hin' e (List.mem_append_right _ he))]
      rfl
    rw [hd]

/-- C137 (V2).  Two sets of claims that are alike but for secret ones: there is a hash function, different
from the real one only on disclosures with a secret salt, for which the issuer publishes for the second
exactly the payload it publishes for the first; and the disclosures are pairwise the same or secret. -/
theorem hides_v2 {E : IEnv} (hg : GoodSalts E) {secret : Nat → Prop} {o : BaseOpts} {c1 c2 : JObj} {n' : Nat}
    (ha : Alike E secret "" (decoyCount E 0) c1 c2 n') (hc : keyExists "_sd" c2 = false)
    {es1 : List Ent} {payload : JObj} (h1 : newV2 E o c1 = .ok (es1, payload)) :
    ∃ h es2, SameHash E secret h ∧ newV2 (E.withHash h) o c2 = .ok (es2, payload) ∧
      List.Forall₂ (Match E secret) es1 es2 := by
  unfold newV2 at h1
  split at h1
  · exact nomatch h1
  · simp only [Except.ok.injEq, Prod.mk.injEq] at h1
    obtain ⟨h1, h2⟩ := h1
    have hfr := alike_fresh ha
    have hes : es1 = (v2Loop E "" (decoyCount E 0) c1).nested ++ (v2Loop E "" (decoyCount E 0) c1).level := by
      rw [← h1]
      simp only [v2Build, v2Finish, decoys_length]
    rw [← hes] at hfr
    have hm := fun e1 he e2 (hm : Match E secret e1 e2) => blindHash_match hg hfr.2 E.alg he hm
    have hs := blindHash_salt hg secret es1 E.alg
    obtain ⟨i1, i2, i3, i4⟩ := alike_loop hg hm hs ha
    have hall : ∀ e ∈ (v2Loop E "" (decoyCount E 0) c1).nested ++ (v2Loop E "" (decoyCount E 0) c1).level, e ∈ es1 := by
      rw [← hes]; exact fun _ h => h
    refine ⟨blindHash E secret es1, (v2Build (E.withHash (blindHash E secret es1)) c2).1, blindHash_same E secret es1, ?_, ?_⟩
    · unfold newV2
      rw [hc, if_neg Bool.false_ne_true]
      congr 1
      rw [← h2]
      have hb : (v2Build (E.withHash (blindHash E secret es1)) c2).2.1 = (v2Build E c1).2.1 := by
        simp only [v2Build, v2Finish, createDecoys_withHash, decoys_length]
        rw [i4 hall, i1]
        have hd : createDigests (E.withHash (blindHash E secret es1)) (v2Loop E "" (decoyCount E 0) c1).next
            ((v2Loop (E.withHash (blindHash E secret es1)) "" (decoyCount E 0) c2).level ++ createDecoys E 0) =
            createDigests E (v2Loop E "" (decoyCount E 0) c1).next
              ((v2Loop E "" (decoyCount E 0) c1).level ++ createDecoys E 0) := by
          unfold createDigests
          rw [List.map_append, List.map_append, decoys_digest hs,
            digests_match hm i3 (fun e he => hall e (List.mem_append_right _ he))]
          rfl
        rw [hd]
      rw [hb]
      rfl
    · have hes' := hes
      simp only [v2Build, v2Finish, createDecoys_withHash, decoys_length]
      have key := forall₂_append i2 i3
      rw [← hes'] at key
      exact key

theorem alike_swap {E : IEnv} {secret : Nat → Prop} {path : String} {n n' : Nat} {m1 m2 : JObj}
    (h : Alike E secret path n m1 m2 n') (hash : String → String → String) :
    Alike (E.withHash hash) secret path n m2 m1 n' := by
  induction h with
  | nil path n => exact .nil path n
  | clear h1 h2 _ ih => exact .clear h1 h2 ih
  | same h1 h2 _ ih => exact .same h1 h2 ih
  | other h1 h2 h3 h4 h5 _ ih => exact .other h1 h3 h2 h5 h4 ih
  | inside h1 _ _ ih1 ih2 => exact .inside h1 ih1 ih2

theorem v2_drawn {E : IEnv} {secret : Nat → Prop} {path : String} {n n' : Nat} {m1 m2 : JObj}
    (h : Alike E secret path n m1 m2 n') :
    ∀ e ∈ (v2Loop E path n m1).nested ++ (v2Loop E path n m1).level, ∃ i, Drawn E i e := by
  induction h with
  | nil path n => intro e he; exact nomatch he
  | @clear path n n' k v m1 m2 hl hn _ ih =>
    simp only [v2Loop, v2Member_leaf hl, v2Leaf, curPath_sub, hn, if_true, Acc.join, List.nil_append]
    exact ih
  | @same path n n' k v m1 m2 hl hn _ ih =>
    simp only [v2Loop, v2Member_leaf hl, v2Leaf, curPath_sub, hn, if_neg Bool.false_ne_true, Acc.join,
      List.nil_append]
    intro e he
    rcases List.mem_append.mp he with he | he
    · exact ih e (List.mem_append_left _ he)
    · rcases List.mem_append.mp he with he | he
      · exact ⟨n, List.mem_singleton.mp he ▸ v2Disclosure_drawn E n k v⟩
      · exact ih e (List.mem_append_right _ he)
  | @other path n n' k1 k2 v1 v2 m1 m2 _ hl1 _ hn1 _ _ ih =>
    simp only [v2Loop, v2Member_leaf hl1, v2Leaf, curPath_sub, hn1, if_neg Bool.false_ne_true, Acc.join,
      List.nil_append]
    intro e he
    rcases List.mem_append.mp he with he | he
    · exact ih e (List.mem_append_left _ he)
    · rcases List.mem_append.mp he with he | he
      · exact ⟨n, List.mem_singleton.mp he ▸ v2Disclosure_drawn E n k1 v1⟩
      · exact ih e (List.mem_append_right _ he)
  | @inside path n n1 n' k o1 o2 m1 m2 hs hin _ ih1 ih2 =>
    have hnext := (alike_fresh hin).1
    simp only [v2Loop, v2Member_inside hs, curPath_sub, Acc.join, v2Finish, decoys_length, List.nil_append]
    rw [hnext]
    intro e he
    rcases List.mem_append.mp he with he | he
    · rcases List.mem_append.mp he with he | he
      · exact ih1 e he
      · exact ih2 e (List.mem_append_left _ he)
    · exact ih2 e (List.mem_append_right _ he)

theorem newV2_drawn {E : IEnv} {secret : Nat → Prop} {o : BaseOpts} {c1 c2 : JObj} {n' : Nat}
    (ha : Alike E secret "" (decoyCount E 0) c1 c2 n') {es : List Ent} {p : JObj}
    (h : newV2 E o c1 = .ok (es, p)) : ∀ e ∈ es, ∃ a, e.result = E.encode a := by
  unfold newV2 at h
  split at h
  · exact nomatch h
  · simp only [Except.ok.injEq, Prod.mk.injEq] at h
    intro e he
    rw [← h.1] at he
    simp only [v2Build, v2Finish, decoys_length] at he
    obtain ⟨i, _, _, hr⟩ := v2_drawn ha e he
    exact ⟨_, hr⟩

/-- C137 (the verifier's view, V2).  The holder discloses some disclosures, none with a secret salt.  The
whole text the verifier gets - the signed token, the disclosures, the holder's proof - is also what it gets
when the credential was issued for the other claims, whatever the signature scheme. -/
theorem presentation_hides_v2 {E : IEnv} (hg : GoodSalts E) {secret : Nat → Prop} {o : BaseOpts} {c1 c2 : JObj}
    {n' : Nat} (ha : Alike E secret "" (decoyCount E 0) c1 c2 n') (hc : keyExists "_sd" c2 = false)
    {es1 : List Ent} {payload : JObj} (h1 : newV2 E o c1 = .ok (es1, payload))
    (sign : JObj → String) (hsign : ∀ p, NoChar '~' (sign p)) (hno : ∀ a, NoChar '~' (E.encode a))
    {chosen : List String} (hch : ∀ d ∈ chosen, ∀ i, secret i → ¬ Carries E d (E.salt i))
    (hb : Option (Except Unit String)) {text : String}
    (hp : createPresentation (Issuance.serialize ⟨sign payload, es1.map Ent.result⟩) chosen hb = .ok text) :
    ∃ h es2, SameHash E secret h ∧ newV2 (E.withHash h) o c2 = .ok (es2, payload) ∧
      createPresentation (Issuance.serialize ⟨sign payload, es2.map Ent.result⟩) chosen hb = .ok text := by
  obtain ⟨h, es2, hs, h2, hf⟩ := hides_v2 hg ha hc h1
  refine ⟨h, es2, hs, h2, ?_⟩
  have d1 := newV2_drawn ha h1
  have d2 := newV2_drawn (alike_swap ha h) h2
  have r1 : parseIssuance (Issuance.serialize ⟨sign payload, es1.map Ent.result⟩) = ⟨sign payload, es1.map Ent.result⟩ := by
    refine issuance_round_trip _ (hsign _) ?_
    intro d hd
    obtain ⟨e, he, rfl⟩ := List.mem_map.mp hd
    obtain ⟨a, ha⟩ := d1 e he
    rw [ha]
    exact hno a
  have r2 : parseIssuance (Issuance.serialize ⟨sign payload, es2.map Ent.result⟩) = ⟨sign payload, es2.map Ent.result⟩ := by
    refine issuance_round_trip _ (hsign _) ?_
    intro d hd
    obtain ⟨e, he, rfl⟩ := List.mem_map.mp hd
    obtain ⟨a, ha⟩ := d2 e he
    rw [ha]
    exact hno a
  have hlen : (es2.map Ent.result).length = (es1.map Ent.result).length := by
    simp only [List.length_map]
    clear h1 h2 d1 d2 r1 r2 hp
    induction hf with
    | nil => rfl
    | cons _ _ ih => simp only [List.length_cons, ih]
  unfold createPresentation at hp ⊢
  rw [r1] at hp
  rw [r2]
  dsimp only at hp ⊢
  rw [hlen]
  have hany : chosen.any (fun d => !(es1.map Ent.result).contains d) = false →
      chosen.any (fun d => !(es2.map Ent.result).contains d) = false := by
    intro hx
    rw [List.any_eq_false] at hx ⊢
    intro d hd
    have := hx d hd
    simp only [Bool.not_eq_true', Bool.not_eq_false, List.contains_iff_mem, List.mem_map] at this ⊢
    obtain ⟨e1, he1, rfl⟩ := this
    have hfind : ∀ {l1 l2 : List Ent}, List.Forall₂ (Match E secret) l1 l2 → e1 ∈ l1 →
        ∃ e2 ∈ l2, Match E secret e1 e2 := by
      intro l1 l2 hf
      induction hf with
      | nil => intro h; exact nomatch h
      | @cons a b l1 l2 hab _ ih =>
        intro hm
        rcases List.mem_cons.mp hm with rfl | hm
        · exact ⟨b, List.mem_cons_self .., hab⟩
        · obtain ⟨e2, h1, h2⟩ := ih hm
          exact ⟨e2, List.mem_cons_of_mem _ h1, h2⟩
    obtain ⟨e2, he2, i, c1, _, rfl | hi⟩ := hfind hf he1
    · exact ⟨e1, he2, rfl⟩
    · exact absurd c1 (hch _ hd i hi)
  split at hp
  · exact nomatch hp
  · split at hp
    · exact nomatch hp
    · rename_i hx0 hx1
      rw [if_neg hx0, hany (by simpa using hx1), if_neg Bool.false_ne_true]
      exact hp

end VC.SDJWT
