import Verif.Mem.Props
/-!
# The in-memory store keeps the caller's buffers (C119)

`Put` and `Batch` keep the slice they are given and `Get`, `GetBulk` and the iterator hand out the
slice that is kept (`legacy/mem/mem.go:186-189, 210, 251, 343-346, 430`): none copies it.  The model
of the store is parametric in the type of a value, so running it with buffer numbers and a heap gives
the store with sharing; running it with the bytes themselves gives the store that copies.
-/

namespace VC.Mem

open VC

/-- A byte slice's content. -/
abbrev Buf := List UInt8

/-- What the program does: a call on the store, with the buffers it passes given by number, or a
write into a buffer of its own (one it passed, or one it got from `Get`). -/
inductive Ev where
  | call (c : WCall Nat)
  | poke (r : Nat) (b : Buf)

/-- The store with sharing, mem.go:186-189, 343-346: the heap and the store of references. -/
structure Shared where
  heap : Nat → Buf
  db : Db Nat

/-- One event, mem.go:165-192, 310-351 (the store keeps the reference). -/
def Shared.step (s : Shared) : Ev → Shared
  | .call c => { s with db := c.run s.db }
  | .poke r b => { s with heap := fun r' => if r' = r then b else s.heap r' }

/-- The store after a history, from a heap and an empty store. -/
def Shared.run (heap : Nat → Buf) (h : List Ev) : Shared := h.foldl Shared.step ⟨heap, []⟩

/-- `Get` followed by reading the slice, mem.go:197-211. -/
def Shared.read (s : Shared) (k : String) : Except Err Buf := (get s.db k).map s.heap

/-! ## Specification: the store that copies -/

/-- The same call with bytes instead of buffers. -/
def WCall.mapVal {α β : Type} (f : α → β) : WCall α → WCall β
  | .put k v ts => .put k (v.map f) ts
  | .delete k => .delete k
  | .batch ops => .batch (ops.map fun o => ⟨o.key, o.value.map f, o.tags⟩)

/-- The history as seen by a store that copies what it is given at the moment of the call: writes
into buffers are no business of the store. -/
def copied : (Nat → Buf) → List Ev → List (WCall Buf)
  | _, [] => []
  | heap, .call c :: h => c.mapVal heap :: copied heap h
  | heap, .poke r b :: h => copied (fun r' => if r' = r then b else heap r') h

/-- The buffers a call passes to the store. -/
def WCall.bufs : WCall Nat → List Nat
  | .put _ v _ => v.toList
  | .delete _ => []
  | .batch ops => ops.flatMap fun o => o.value.toList

/-- The buffers passed in a history. -/
def passed : List Ev → List Nat
  | [] => []
  | .call c :: h => c.bufs ++ passed h
  | .poke _ _ :: h => passed h

/-- The calls of a history. -/
def calls : List Ev → List (WCall Nat)
  | [] => []
  | .call c :: h => c :: calls h
  | .poke _ _ :: h => calls h

/-- The program never writes into a buffer it has passed to the store before. -/
def HandsOff (h : List Ev) : Prop :=
  ∀ pre r b post, h = pre ++ .poke r b :: post → r ∉ passed pre

/-! ## Lemmas -/

variable {α β : Type}

/-- The store with every value replaced. -/
def mapDb (f : α → β) (db : Db α) : Db β := db.map fun p => (p.1, ⟨f p.2.value, p.2.tags⟩)

theorem mapDb_set (f : α → β) (db : Db α) (k : String) (v : α) (ts : List Tag) :
    mapDb f (GoMap.set db k ⟨v, ts⟩) = GoMap.set (mapDb f db) k ⟨f v, ts⟩ := by
  induction db with
  | nil => rfl
  | cons p db ih =>
    obtain ⟨k', e⟩ := p
    by_cases hk : k' = k
    · simp [GoMap.set, mapDb, hk]
    · simp only [GoMap.set, mapDb, hk, if_false, List.map_cons]
      exact congrArg _ ih

theorem mapDb_del (f : α → β) (db : Db α) (k : String) :
    mapDb f (GoMap.del db k) = GoMap.del (mapDb f db) k := by
  simp only [mapDb, GoMap.del, List.filter_map]
  rfl

theorem mapDb_get (f : α → β) (db : Db α) (k : String) :
    GoMap.get? (mapDb f db) k = (GoMap.get? db k).map fun e => ⟨f e.value, e.tags⟩ := by
  induction db with
  | nil => rfl
  | cons p db ih =>
    obtain ⟨k', e⟩ := p
    by_cases hk : k' = k
    · simp [mapDb, GoMap.get?, hk]
    · simp only [mapDb, List.map_cons, GoMap.get?, hk, if_false]
      exact ih

theorem mapDb_ops (f : α → β) (ops : List (Oper α)) (db : Db α) :
    mapDb f (ops.foldl applyOp db) =
      (ops.map fun o => (⟨o.key, o.value.map f, o.tags⟩ : Oper β)).foldl applyOp (mapDb f db) := by
  induction ops generalizing db with
  | nil => rfl
  | cons o ops ih =>
    rw [List.foldl_cons, ih, List.map_cons, List.foldl_cons]
    congr 1
    unfold applyOp
    cases o.value with
    | none => exact mapDb_del f db o.key
    | some v => exact mapDb_set f db o.key v o.tags

/-- The store does not look at values. -/
theorem mapDb_run (f : α → β) (c : WCall α) (db : Db α) :
    mapDb f (c.run db) = (c.mapVal f).run (mapDb f db) := by
  cases c with
  | put k v ts =>
    simp only [WCall.run, WCall.result, WCall.mapVal, put]
    by_cases hk : k = ""
    · simp [hk]
    · simp only [hk, if_false]
      cases v with
      | none => rfl
      | some v =>
        simp only [Option.map_some]
        by_cases ht : (ts.any fun t => hasColon t.name || hasColon t.value) = true
        · simp [ht]
        · simp only [ht]
          exact mapDb_set f db k v ts
  | delete k =>
    simp only [WCall.run, WCall.result, WCall.mapVal, delete]
    by_cases hk : k = ""
    · simp [hk]
    · simp only [hk, if_false]
      exact mapDb_del f db k
  | batch ops =>
    simp only [WCall.run, WCall.result, WCall.mapVal, batch, List.length_map, List.any_map]
    by_cases h0 : ops.length = 0
    · simp [h0]
    · simp only [h0, if_false]
      have e : (ops.any fun o => o.key == "") =
          ops.any ((fun o => o.key == "") ∘ fun o => (⟨o.key, o.value.map f, o.tags⟩ : Oper β)) := rfl
      rw [← e]
      by_cases h1 : (ops.any fun o => o.key == "") = true
      · simp [h1]
      · simp only [h1]
        exact mapDb_ops f ops db

theorem passed_append (h h' : List Ev) : passed (h ++ h') = passed h ++ passed h' := by
  induction h with
  | nil => rfl
  | cons e h ih => cases e <;> simp [passed, ih]

/-- Every buffer the store holds after a call was there before or is passed by the call. -/
theorem run_bufs (c : WCall Nat) (db : Db Nat) :
    ∀ p ∈ c.run db, p.2.value ∈ c.bufs ∨ ∃ q ∈ db, q.2.value = p.2.value := by
  have setm : ∀ (db : Db Nat) (k : String) (e : Entry Nat), ∀ p ∈ GoMap.set db k e,
      p.2 = e ∨ p ∈ db := by
    intro db k e
    induction db with
    | nil => intro p hp; simp only [GoMap.set, List.mem_singleton] at hp; exact Or.inl (by rw [hp])
    | cons q db ih =>
      intro p hp
      obtain ⟨k', e'⟩ := q
      by_cases hk : k' = k
      · simp only [GoMap.set, hk, if_true, List.mem_cons] at hp
        rcases hp with rfl | hp
        · exact Or.inl rfl
        · exact Or.inr (List.mem_cons_of_mem _ hp)
      · simp only [GoMap.set, hk, if_false, List.mem_cons] at hp
        rcases hp with rfl | hp
        · exact Or.inr List.mem_cons_self
        · rcases ih p hp with h | h
          · exact Or.inl h
          · exact Or.inr (List.mem_cons_of_mem _ h)
  cases c with
  | put k v ts =>
    intro p hp
    simp only [WCall.run, WCall.result, put] at hp
    by_cases hk : k = ""
    · simp only [hk, if_true] at hp; exact Or.inr ⟨p, hp, rfl⟩
    · simp only [hk, if_false] at hp
      cases v with
      | none => exact Or.inr ⟨p, hp, rfl⟩
      | some v =>
        dsimp only at hp
        by_cases ht : (ts.any fun t => hasColon t.name || hasColon t.value) = true
        · rw [if_pos ht] at hp; exact Or.inr ⟨p, hp, rfl⟩
        · rw [if_neg ht] at hp
          rcases setm db k _ p hp with h | h
          · exact Or.inl (by rw [h]; simp [WCall.bufs])
          · exact Or.inr ⟨p, h, rfl⟩
  | delete k =>
    intro p hp
    simp only [WCall.run, WCall.result, delete] at hp
    by_cases hk : k = ""
    · simp only [hk, if_true] at hp; exact Or.inr ⟨p, hp, rfl⟩
    · simp only [hk, if_false] at hp
      exact Or.inr ⟨p, (List.mem_filter.mp hp).1, rfl⟩
  | batch ops =>
    intro p hp
    simp only [WCall.run, WCall.result, batch] at hp
    by_cases h0 : ops.length = 0
    · rw [if_pos h0] at hp; exact Or.inr ⟨p, hp, rfl⟩
    rw [if_neg h0] at hp
    by_cases h1 : (ops.any fun o => o.key == "") = true
    · rw [if_pos h1] at hp; exact Or.inr ⟨p, hp, rfl⟩
    rw [if_neg h1] at hp
    dsimp only at hp
    clear h0 h1
    induction ops generalizing db with
    | nil => exact Or.inr ⟨p, hp, rfl⟩
    | cons o ops ih =>
      rw [List.foldl_cons] at hp
      rcases ih (applyOp db o) hp with h | ⟨q, hq, e⟩
      · exact Or.inl (by simp only [WCall.bufs, List.flatMap_cons, List.mem_append] at h ⊢; exact Or.inr h)
      · unfold applyOp at hq
        cases hv : o.value with
        | none => rw [hv] at hq; exact Or.inr ⟨q, (List.mem_filter.mp hq).1, e⟩
        | some v =>
          rw [hv] at hq
          rcases setm db o.key _ q hq with h | h
          · left
            rw [h] at e
            simp only [WCall.bufs, List.flatMap_cons, List.mem_append, hv, Option.toList]
            exact Or.inl (by simp [← e])
          · exact Or.inr ⟨q, h, e⟩

theorem held_passed (heap : Nat → Buf) (h : List Ev) :
    ∀ p ∈ (Shared.run heap h).db, p.2.value ∈ passed h := by
  induction h using List.reverseRecOn with
  | nil => intro p hp; cases hp
  | append_singleton h e ih =>
    intro p hp
    rw [passed_append]
    simp only [Shared.run, List.foldl_append, List.foldl_cons, List.foldl_nil] at hp ih
    cases e with
    | call c =>
      rcases run_bufs c _ p hp with h1 | ⟨q, hq, e⟩
      · exact List.mem_append.mpr (Or.inr (by simp [passed, h1]))
      · exact List.mem_append.mpr (Or.inl (by rw [← e]; exact ih q hq))
    | poke r b => exact List.mem_append.mpr (Or.inl (ih p hp))

theorem copied_append (heap : Nat → Buf) (h : List Ev) (e : Ev) :
    copied heap (h ++ [e]) = copied heap h ++ copied (Shared.run heap h).heap [e] := by
  have gen : ∀ (h : List Ev) (s : Shared), copied s.heap (h ++ [e]) =
      copied s.heap h ++ copied (h.foldl Shared.step s).heap [e] := by
    intro h
    induction h with
    | nil => intro s; rfl
    | cons x h ih =>
      intro s
      cases x with
      | call c =>
        have := ih (s.step (.call c))
        simp only [List.cons_append, copied, List.foldl_cons]
        exact congrArg _ this
      | poke r b =>
        have := ih (s.step (.poke r b))
        simp only [List.cons_append, copied, List.foldl_cons]
        exact this
  exact gen h ⟨heap, []⟩

/-- The last element with a property is determined. -/
theorem last_split {α : Type} {P : α → Prop} {pre post pre' post' : List α} {a a' : α}
    (h : pre ++ a :: post = pre' ++ a' :: post') (ha : P a) (ha' : P a')
    (hp : ∀ x ∈ post, ¬ P x) (hp' : ∀ x ∈ post', ¬ P x) : a = a' := by
  rcases List.append_eq_append_iff.mp h with ⟨m, h1, h2⟩ | ⟨m, h1, h2⟩
  · cases m with
    | nil => simp only [List.nil_append, List.cons.injEq] at h2; exact h2.1
    | cons x m =>
      simp only [List.cons_append, List.cons.injEq] at h2
      exact absurd ha' (hp a' (by rw [h2.2]; simp))
  · cases m with
    | nil => simp only [List.nil_append, List.cons.injEq] at h2; exact h2.1.symm
    | cons x m =>
      simp only [List.cons_append, List.cons.injEq] at h2
      exact absurd ha (hp' a (by rw [h2.2]; simp))

theorem sets_mentions {c : WCall β} {k : String} {e : Option (Entry β)} (h : c.Sets k e) :
    c.Mentions k := by
  cases c with
  | put => exact h.1
  | delete => exact h.1
  | batch ops => obtain ⟨pre, o, post, e1, e2, _⟩ := h; exact ⟨o, by rw [e1]; simp, e2⟩

theorem sets_unique {c : WCall β} {k : String} {e e' : Option (Entry β)} (h : c.Sets k e)
    (h' : c.Sets k e') : e = e' := by
  cases c with
  | put k0 v ts =>
    obtain ⟨_, b, hb, rfl⟩ := h
    obtain ⟨_, b', hb', rfl⟩ := h'
    rw [hb] at hb'; cases hb'; rfl
  | delete k0 => rw [h.2, h'.2]
  | batch ops =>
    obtain ⟨pre, o, post, e1, e2, e3, rfl⟩ := h
    obtain ⟨pre', o', post', e1', e2', e3', rfl⟩ := h'
    have : o = o' := last_split (P := fun o => o.key = k) (e1 ▸ e1') e2 e2' e3 e3'
    rw [this]

/-- The binding of a key after a history (C27's specification) is determined by the history. -/
theorem last_unique {h : List (WCall β)} {k : String} {e e' : Option (Entry β)} (h1 : Last h k e)
    (h2 : Last h k e') : e = e' := by
  generalize hh : h = h0 at h2
  cases h1 with
  | never n1 =>
    cases h2 with
    | never => rfl
    | last v s _ => subst hh; exact absurd (sets_mentions s) (n1 _ (by simp) v)
  | last v s p =>
    cases h2 with
    | never n2 => subst hh; exact absurd (sets_mentions s) (n2 _ (by simp) v)
    | last v' s' p' =>
      have : _ = _ := last_split (P := fun c : WCall β => c.Valid ∧ c.Mentions k) hh
        ⟨v, sets_mentions s⟩ ⟨v', sets_mentions s'⟩ (fun x hx hq => p x hx hq.1 hq.2)
        (fun x hx hq => p' x hx hq.1 hq.2)
      subst this
      exact sets_unique s s'

/-! ## C119 -/

/-- **C119, what holds for every history.** What `Get` shows under a key is the *current* content of
the buffer most recently stored there. -/
theorem read_current (heap : Nat → Buf) (h : List Ev) (k : String) (hk : k ≠ "") (e : Entry Nat)
    (hl : Last (calls h) k (some e)) :
    (Shared.run heap h).read k = .ok ((Shared.run heap h).heap e.value) := by
  have hdb : (Shared.run heap h).db =
      runAll (calls h) := by
    have gen : ∀ (h : List Ev) (s : Shared), (h.foldl Shared.step s).db =
        (calls h).foldl WCall.run s.db := by
      intro h
      induction h with
      | nil => intro s; rfl
      | cons x h ih =>
        intro s
        cases x with
        | call c => simp only [List.foldl_cons, calls]; exact ih _
        | poke r b => simp only [List.foldl_cons, calls]; exact ih _
    exact gen h ⟨heap, []⟩
  have hlast := last_of_run (calls h) k
  have : GoMap.get? (Shared.run heap h).db k = some e := by
    rw [hdb]; exact last_unique hlast hl
  unfold Shared.read get
  rw [if_neg hk, this]
  rfl

/-- **C119, the part that holds.** If the program never writes into a buffer it has handed to the
store, every key reads as in a store that copied the data when it was stored. -/
theorem unshared_partial (heap : Nat → Buf) (h : List Ev) (hh : HandsOff h) (k : String) :
    (Shared.run heap h).read k = get (runAll (copied heap h)) k := by
  have main : mapDb (Shared.run heap h).heap (Shared.run heap h).db = runAll (copied heap h) := by
    induction h using List.reverseRecOn with
    | nil => rfl
    | append_singleton h e ih =>
      have hh' : HandsOff h := fun pre r b post e' => hh pre r b (post ++ [e]) (by simp [e'])
      have ih := ih hh'
      rw [copied_append]
      have hr : Shared.run heap (h ++ [e]) = (Shared.run heap h).step e := by
        simp [Shared.run]
      rw [hr]
      cases e with
      | call c =>
        simp only [Shared.step, mapDb_run, ih, copied, runAll, List.foldl_append, List.foldl_cons,
          List.foldl_nil]
      | poke r b =>
        simp only [copied, List.append_nil]
        rw [← ih]
        simp only [Shared.step, mapDb]
        apply List.map_congr_left
        intro p hp
        have hn : r ∉ passed h := hh h r b [] rfl
        have : p.2.value ≠ r := fun e => hn (e ▸ held_passed heap h p hp)
        simp [this]
  unfold Shared.read get
  by_cases hk : k = ""
  · simp [hk, Except.map]
  · rw [if_neg hk, if_neg hk, ← main, mapDb_get]
    cases GoMap.get? (Shared.run heap h).db k <;> rfl

/-- **C119 is violated.** A write into a buffer after it was stored changes what is read under its
key (and the same happens when the write goes through the slice returned by `Get`, which is the same
buffer), though no call on the store was made. -/
theorem shared_witness : ∃ (heap : Nat → Buf) (h : List Ev) (k : String) (r : Nat) (b : Buf),
    get (Shared.run heap h).db k = .ok r ∧
    (Shared.run heap h).read k ≠ (Shared.run heap (h ++ [.poke r b])).read k ∧
    (Shared.run heap (h ++ [.poke r b])).read k ≠ get (runAll (copied heap (h ++ [.poke r b]))) k := by
  refine ⟨fun _ => [1], [.call (.put "k" (some 0) [])], "k", 0, [2], rfl, ?_, ?_⟩
  · intro h
    have := congrArg (fun x : Except Err Buf => x.toOption) h
    revert this; decide
  · intro h
    have := congrArg (fun x : Except Err Buf => x.toOption) h
    revert this; decide

/-- Two keys stored from one buffer always read the same. -/
theorem shared_keys (s : Shared) (k k' : String) (r : Nat) (h1 : get s.db k = .ok r)
    (h2 : get s.db k' = .ok r) : s.read k = s.read k' := by
  unfold Shared.read; rw [h1, h2]

-- the hypotheses of `read_current` hold for a history with writes into the buffer
example : (Shared.run (fun _ => [1]) [.call (.put "k" (some 0) []), .poke 0 [2]]).read "k" = .ok [2] :=
  read_current _ _ "k" (by decide) ⟨0, []⟩ (.last (pre := []) (post := []) (c := .put "k" (some 0) [])
    ⟨by decide, by simp, by simp⟩ ⟨rfl, 0, rfl, rfl⟩ (by simp))

-- a disciplined history: two buffers, one overwritten before it is handed over
example : HandsOff [.poke 0 [1], .call (.put "a" (some 0) []), .poke 1 [7], .call (.delete "a")] := by
  intro pre r b post h
  match pre, h with
  | [], h => simp [passed]
  | [x], h => simp at h
  | [x, y], h =>
    simp only [List.cons_append, List.nil_append, List.cons.injEq] at h
    obtain ⟨rfl, rfl, h3, _⟩ := h
    cases h3
    simp [passed, WCall.bufs]
  | [x, y, z], h => simp at h
  | x :: y :: z :: w :: pre, h => simp at h

end VC.Mem
