import Verif.Mem.Model
import Mathlib.Data.List.Nodup
import Mathlib.Data.List.Induction
/-!
# The in-memory store: properties C27–C31
-/

namespace VC.Mem

open VC

variable {β γ : Type}

/-! ## C27: a store is a map -/

/-- Write calls on one store. -/
inductive WCall (β : Type) where
  | put (key : String) (value : Option β) (tags : List Tag)
  | delete (key : String)
  | batch (ops : List (Oper β))

/-- What a call answers. -/
def WCall.result (db : Db β) : WCall β → Except Err (Db β)
  | .put k v ts => VC.Mem.put db k v ts
  | .delete k => VC.Mem.delete db k
  | .batch ops => VC.Mem.batch db ops

/-- The store after a call. -/
def WCall.run (db : Db β) (c : WCall β) : Db β :=
  match c.result db with
  | .ok db' => db'
  | .error _ => db

/-- The store after a history of calls on a new store. -/
def runAll (h : List (WCall β)) : Db β := h.foldl WCall.run []

/-- A well-formed call: the ones that succeed. -/
def WCall.Valid : WCall β → Prop
  | .put k v ts => k ≠ "" ∧ v ≠ none ∧ ∀ t ∈ ts, ':' ∉ t.name.toList ∧ ':' ∉ t.value.toList
  | .delete k => k ≠ ""
  | .batch ops => ops ≠ [] ∧ ∀ o ∈ ops, o.key ≠ ""

/-- `Sets c k e`: call `c` leaves `k` bound to `e` (`none`: deleted). -/
def WCall.Sets : WCall β → String → Option (Entry β) → Prop
  | .put k v ts, k', e => k = k' ∧ ∃ b, v = some b ∧ e = some ⟨b, ts⟩
  | .delete k, k', e => k = k' ∧ e = none
  | .batch ops, k', e => ∃ pre o post, ops = pre ++ o :: post ∧ o.key = k' ∧
      (∀ o' ∈ post, o'.key ≠ k') ∧ e = o.value.map (fun b => ⟨b, o.tags⟩)

/-- `Mentions c k`: call `c` writes or deletes `k`. -/
def WCall.Mentions : WCall β → String → Prop
  | .put k _ _, k' => k = k'
  | .delete k, k' => k = k'
  | .batch ops, k' => ∃ o ∈ ops, o.key = k'

/-- The binding of `k` after history `h`: that of the last valid call that mentions it. -/
inductive Last : List (WCall β) → String → Option (Entry β) → Prop
  | never {h k} : (∀ c ∈ h, c.Valid → ¬ c.Mentions k) → Last h k none
  | last {pre c post k e} : c.Valid → c.Sets k e → (∀ c' ∈ post, c'.Valid → ¬ c'.Mentions k) →
      Last (pre ++ c :: post) k e

theorem foldl_applyOp_get (ops : List (Oper β)) (db : Db β) (k : String) :
    (∃ pre o post, ops = pre ++ o :: post ∧ o.key = k ∧ (∀ o' ∈ post, o'.key ≠ k) ∧
      GoMap.get? (ops.foldl applyOp db) k = o.value.map (fun b => ⟨b, o.tags⟩)) ∨
    ((∀ o ∈ ops, o.key ≠ k) ∧ GoMap.get? (ops.foldl applyOp db) k = GoMap.get? db k) := by
  induction ops generalizing db with
  | nil => right; simp
  | cons o os ih =>
    rw [List.foldl_cons]
    rcases ih (applyOp db o) with ⟨pre, o', post, rfl, h1, h2, h3⟩ | ⟨h1, h2⟩
    · left
      exact ⟨o :: pre, o', post, rfl, h1, h2, h3⟩
    · rw [h2]
      by_cases hk : o.key = k
      · left
        refine ⟨[], o, os, rfl, hk, h1, ?_⟩
        subst hk
        unfold applyOp
        cases o.value <;> simp
      · right
        refine ⟨by simpa using ⟨hk, h1⟩, ?_⟩
        unfold applyOp
        cases o.value with
        | none => exact GoMap.get?_del_ne _ hk
        | some v => exact GoMap.get?_set_ne _ _ hk

/-- A call succeeds exactly if it is valid. -/
theorem result_ok_iff (db : Db β) (c : WCall β) : (∃ db', c.result db = .ok db') ↔ c.Valid := by
  cases c with
  | put k v ts =>
    simp only [WCall.result, put, WCall.Valid]
    by_cases hk : k = ""
    · simp [hk]
    · rw [if_neg hk]
      cases v with
      | none => simp
      | some b =>
        have hiff : (ts.any (fun t => hasColon t.name || hasColon t.value) = true) ↔
            ¬ ∀ t ∈ ts, ':' ∉ t.name.toList ∧ ':' ∉ t.value.toList := by
          simp only [List.any_eq_true, Bool.or_eq_true, hasColon, List.contains_iff_mem]
          constructor
          · rintro ⟨t, ht, h⟩ hall
            have := hall t ht
            tauto
          · intro h
            push Not at h
            obtain ⟨t, ht, h⟩ := h
            refine ⟨t, ht, ?_⟩
            by_cases hc : ':' ∈ t.name.toList
            · exact .inl hc
            · exact .inr (h hc)
        dsimp only
        by_cases ht : ∀ t ∈ ts, ':' ∉ t.name.toList ∧ ':' ∉ t.value.toList
        · rw [if_neg (by rw [hiff]; exact not_not.mpr ht)]
          simp only [Except.ok.injEq, exists_eq', ne_eq, reduceCtorEq, not_false_eq_true, true_and,
            true_iff]
          exact ⟨hk, ht⟩
        · rw [if_pos (hiff.mpr ht)]
          simp only [reduceCtorEq, exists_false, ne_eq, not_false_eq_true, true_and, false_iff]
          exact fun h => ht h.2
  | delete k =>
    simp only [WCall.result, delete, WCall.Valid]
    by_cases hk : k = "" <;> simp [hk]
  | batch ops =>
    simp only [WCall.result, batch, WCall.Valid]
    by_cases h0 : ops = []
    · simp [h0]
    · rw [if_neg (by simpa using h0)]
      by_cases hk : ∀ o ∈ ops, o.key ≠ ""
      · rw [if_neg (by simpa using hk)]
        simpa [h0] using hk
      · rw [if_pos (by simpa using hk)]
        simp [hk]

/-- What a valid call leaves behind: the binding it sets, and nothing else changed. -/
theorem run_valid {db : Db β} {c : WCall β} (h : c.Valid) (k : String) :
    (∃ e, c.Sets k e ∧ GoMap.get? (c.run db) k = e) ∨
    (¬ c.Mentions k ∧ GoMap.get? (c.run db) k = GoMap.get? db k) := by
  obtain ⟨db', hdb⟩ := (result_ok_iff db c).mpr h
  have hrun : c.run db = db' := by simp [WCall.run, hdb]
  rw [hrun]
  cases c with
  | put k' v ts =>
    simp only [WCall.Valid] at h
    simp only [WCall.result, put] at hdb
    rw [if_neg h.1] at hdb
    cases v with
    | none => exact absurd rfl h.2.1
    | some b =>
      dsimp only at hdb
      split at hdb
      · cases hdb
      · cases hdb
        by_cases hk : k' = k
        · left; subst hk; exact ⟨_, ⟨rfl, b, rfl, rfl⟩, GoMap.get?_set_self ..⟩
        · right; exact ⟨hk, GoMap.get?_set_ne _ _ hk⟩
  | delete k' =>
    simp only [WCall.result, delete] at hdb
    rw [if_neg h] at hdb
    cases hdb
    by_cases hk : k' = k
    · left; subst hk; exact ⟨none, ⟨rfl, rfl⟩, GoMap.get?_del_self ..⟩
    · right; exact ⟨hk, GoMap.get?_del_ne _ hk⟩
  | batch ops =>
    simp only [WCall.result, batch] at hdb
    split at hdb
    · cases hdb
    · split at hdb
      · cases hdb
      · cases hdb
        rcases foldl_applyOp_get ops db k with ⟨pre, o, post, h1, h2, h3, h4⟩ | ⟨h1, h2⟩
        · left; exact ⟨_, ⟨pre, o, post, h1, h2, h3, rfl⟩, h4⟩
        · right
          refine ⟨?_, h2⟩
          rintro ⟨o, ho, e⟩
          exact h1 o ho e

/-- A failed call changes nothing. -/
theorem run_invalid {db : Db β} {c : WCall β} (h : ¬ c.Valid) : c.run db = db := by
  unfold WCall.run
  cases hr : c.result db with
  | error e => rfl
  | ok db' => exact absurd ((result_ok_iff db c).mp ⟨db', hr⟩) h

theorem last_of_run (h : List (WCall β)) (k : String) : Last h k (GoMap.get? (runAll h) k) := by
  induction h using List.reverseRecOn with
  | nil => exact .never (by simp)
  | append_singleton h c ih =>
    have hr : runAll (h ++ [c]) = c.run (runAll h) := by simp [runAll]
    rw [hr]
    by_cases hv : c.Valid
    · rcases run_valid (db := runAll h) hv k with ⟨e, h1, h2⟩ | ⟨h1, h2⟩
      · rw [h2]
        exact .last hv h1 (by simp)
      · rw [h2]
        generalize GoMap.get? (runAll h) k = e at ih
        cases ih with
        | never hn =>
          refine .never ?_
          intro c' hc' hv'
          rcases List.mem_append.mp hc' with hc' | hc'
          · exact hn c' hc' hv'
          · obtain rfl : c' = c := by simpa using hc'
            exact h1
        | @last pre c0 post _ _ a b d =>
          rw [List.append_assoc, List.cons_append]
          refine .last a b ?_
          intro c' hc' hv'
          rcases List.mem_append.mp hc' with hc' | hc'
          · exact d c' hc' hv'
          · obtain rfl : c' = c := by simpa using hc'
            exact h1
    · rw [run_invalid hv]
      generalize GoMap.get? (runAll h) k = e at ih
      cases ih with
      | never hn =>
        refine .never ?_
        intro c' hc' hv'
        rcases List.mem_append.mp hc' with hc' | hc'
        · exact hn c' hc' hv'
        · obtain rfl : c' = c := by simpa using hc'
          exact absurd hv' hv
      | @last pre c0 post _ _ a b d =>
        rw [List.append_assoc, List.cons_append]
        refine .last a b ?_
        intro c' hc' hv'
        rcases List.mem_append.mp hc' with hc' | hc'
        · exact d c' hc' hv'
        · obtain rfl : c' = c := by simpa using hc'
          exact absurd hv' hv

/-- **C27.** After any history of calls on a new store, `Get`, `GetTags` and `GetBulk` answer from the
last valid write of each key, and failed calls change nothing.  The empty key is refused, alone and in a list,
and so is an empty list. -/
theorem store_is_map (h : List (WCall β)) :
    ∃ view : String → Option (Entry β), (∀ k, Last h k (view k)) ∧
      (∀ k, k ≠ "" → get (runAll h) k =
        (view k).elim (.error .notFound) (fun e => .ok e.value)) ∧
      (∀ k, k ≠ "" → getTags (runAll h) k =
        (view k).elim (.error .notFound) (fun e => .ok e.tags)) ∧
      (∀ ks, ks ≠ [] → (∀ k ∈ ks, k ≠ "") →
        getBulk (runAll h) ks = .ok (ks.map (fun k => (view k).map Entry.value))) ∧
      get (runAll h) "" = .error .emptyKey ∧ getTags (runAll h) "" = .error .emptyKey ∧
      getBulk (runAll h) [] = .error .noKeys ∧
      ∀ ks, "" ∈ ks → getBulk (runAll h) ks = .error .emptyKey := by
  refine ⟨fun k => GoMap.get? (runAll h) k, last_of_run h, ?_, ?_, ?_, rfl, rfl, rfl, ?_⟩
  · intro k hk
    simp only [get, if_neg hk]
    cases GoMap.get? (runAll h) k <;> rfl
  · intro k hk
    simp only [getTags, if_neg hk]
    cases GoMap.get? (runAll h) k <;> rfl
  · intro ks h0 hk
    simp only [getBulk]
    rw [if_neg (by simpa using h0), if_neg (by simpa using fun h => hk _ h rfl)]
  · intro ks hm
    simp only [getBulk]
    rw [if_neg (by intro h0; rw [List.length_eq_zero_iff] at h0; rw [h0] at hm; cases hm),
      if_pos (List.any_eq_true.2 ⟨"", hm, rfl⟩)]

/-- A call fails exactly if it is invalid, and then changes nothing. -/
theorem failed_changes_nothing (db : Db β) (c : WCall β) (e : Err) (h : c.result db = .error e) :
    c.run db = db ∧ ¬ c.Valid := by
  constructor
  · simp [WCall.run, h]
  · intro hv
    obtain ⟨db', h'⟩ := (result_ok_iff db c).mpr hv
    rw [h] at h'; cases h'

/-! ## C28: batches -/

/-- **C28.** A batch either fails and leaves the store as it is, which happens exactly if it is empty
or has an empty key, or each key it mentions ends up as its last operation says and the rest is
unchanged. -/
theorem batch_all_or_nothing (db : Db β) (ops : List (Oper β)) :
    ((∃ e, batch db ops = .error e) ∧ (WCall.batch ops).run db = db ∧
      (ops = [] ∨ ∃ o ∈ ops, o.key = "")) ∨
    ((∀ o ∈ ops, o.key ≠ "") ∧ ∃ db', batch db ops = .ok db' ∧ (WCall.batch ops).run db = db' ∧
      (∀ pre o post, ops = pre ++ o :: post → (∀ o' ∈ post, o'.key ≠ o.key) →
        GoMap.get? db' o.key = o.value.map (fun b => ⟨b, o.tags⟩)) ∧
      ∀ k, (∀ o ∈ ops, o.key ≠ k) → GoMap.get? db' k = GoMap.get? db k) := by
  by_cases hv : (WCall.batch ops).Valid
  · right
    refine ⟨hv.2, ?_⟩
    obtain ⟨db', h⟩ := (result_ok_iff db _).mpr hv
    have hrun : (WCall.batch ops).run db = db' := by simp [WCall.run, h]
    refine ⟨db', h, hrun, ?_, ?_⟩
    · intro pre o post ho hlast
      rcases run_valid (db := db) hv o.key with ⟨e, hs, hg⟩ | ⟨hn, _⟩
      · rw [← hrun, hg]
        obtain ⟨pre', o', post', ho', hk, hl', he⟩ := hs
        subst he
        -- both are the last operation on the key
        have : o' = o := by
          rw [ho] at ho'
          rcases List.append_eq_append_iff.mp ho' with ⟨as, h1, h2⟩ | ⟨bs, h1, h2⟩
          · cases as with
            | nil => simp at h2; exact h2.1.symm
            | cons x xs =>
              simp only [List.cons_append, List.cons.injEq] at h2
              exact absurd hk (hlast o' (by rw [h2.2]; simp))
          · cases bs with
            | nil => simp at h2; exact h2.1
            | cons x xs =>
              simp only [List.cons_append, List.cons.injEq] at h2
              exact absurd rfl (hl' o (by rw [h2.2]; simp))
        rw [this]
      · exact absurd ⟨o, by rw [ho]; simp, rfl⟩ hn
    · intro k hk
      rcases run_valid (db := db) hv k with ⟨e, hs, hg⟩ | ⟨_, hg⟩
      · obtain ⟨pre', o', post', ho', hk', _, _⟩ := hs
        exact absurd hk' (hk o' (by rw [ho']; simp))
      · rw [← hrun, hg]
  · left
    refine ⟨?_, run_invalid hv, ?_⟩
    · cases hr : batch db ops with
      | error e => exact ⟨e, rfl⟩
      | ok db' => exact absurd ((result_ok_iff db (.batch ops)).mp ⟨db', hr⟩) hv
    · simp only [WCall.Valid, not_and_or, not_not] at hv
      rcases hv with h | h
      · exact .inl h
      · push Not at h
        exact .inr h

/-- Deviation: a batch stores tags that `Put` refuses. -/
theorem batch_skips_tag_check : ∃ (db : Db Nat) (o : Oper Nat) (v : Nat), o.value = some v ∧
    put db o.key o.value o.tags = .error .badTag ∧
    ∃ db', batch db [o] = .ok db' ∧ getTags db' o.key = .ok o.tags := by
  refine ⟨[], ⟨"k", some 1, [⟨"a:b", "c"⟩]⟩, 1, rfl, by decide +kernel, _, rfl, by decide +kernel⟩

/-! ## C30: iterators -/

/-- Calls on an iterator. -/
inductive ICall where
  | next
  | entry
  | total
  deriving DecidableEq

/-- Answers. -/
inductive IAns (β : Type) where
  | next (b : Bool)
  | entry (e : Option (Option (String × Entry β)))
  | total (n : Nat)
  | panic

/-- The answers to a sequence of calls. -/
def It.answers : It β → List ICall → List (IAns β)
  | _, [] => []
  | it, .next :: cs =>
    match it.next with
    | none => [.panic]
    | some (b, it') => .next b :: it'.answers cs
  | it, .entry :: cs => .entry it.get :: it.answers cs
  | it, .total :: cs => .total it.total :: it.answers cs

/-- What is expected when `Next` was called `n` times before: the `n`-th call of `Next` (from 0) yields
`true` iff there is an `n`-th result; the entry is the one of the last `Next`, an error from the first
`false` on, and the zero value before the first `Next` of a non-empty result. -/
def expected (l : List (String × Entry β)) : Nat → List ICall → List (IAns β)
  | _, [] => []
  | n, .next :: cs => .next (decide (n < l.length)) :: expected l (n + 1) cs
  | n, .entry :: cs =>
    .entry (if l.length < n ∨ l = [] then none else some (if n = 0 then none else l[n - 1]?)) ::
      expected l n cs
  | n, .total :: cs => .total l.length :: expected l n cs

/-- **C30.** Every sequence of calls on the iterator of a result list gets the expected answers: `Next`
goes through all results once and then says `false` for ever, and never panics. -/
theorem iterator_exact (l : List (String × Entry β)) (cs : List ICall) :
    (It.of l).answers cs = expected l 0 cs := by
  have key : ∀ (cs : List ICall) (n : Nat) (it : It β), it.keys = l.map Prod.fst →
      ((n ≤ l.length ∧ it.index = n ∧ it.entries = l.map Prod.snd ∧
          it.current = (if n = 0 then none else l[n - 1]?)) ∨
        (l.length < n ∧ it.entries = [])) → it.answers cs = expected l n cs := by
    intro cs
    induction cs with
    | nil => intros; rfl
    | cons c cs ih =>
      intro n it hk hst
      cases c with
      | total =>
        simp only [It.answers, expected, It.total, hk, List.length_map, ih n it hk hst]
      | entry =>
        simp only [It.answers, expected, ih n it hk hst, It.get]
        congr 2
        rcases hst with ⟨h1, h2, h3, h4⟩ | ⟨h1, h2⟩
        · simp only [h3, List.length_map, h4]
          by_cases hl : l = []
          · simp [hl]
          · have hlen : l.length ≠ 0 := fun h => hl (List.length_eq_zero_iff.mp h)
            have hno : ¬ (l.length < n ∨ l = []) := by
              rintro (h | h)
              · omega
              · exact hl h
            rw [if_neg hlen, if_neg hno]
        · simp [h2, h1]
      | next =>
        simp only [It.answers, expected]
        rcases hst with ⟨h1, h2, h3, h4⟩ | ⟨h1, h2⟩
        · by_cases hn : n < l.length
          · have hnext : it.next = some (true, { it with index := n + 1, current := l[n]? }) := by
              unfold It.next
              rw [h3, h2, hk]
              rw [if_neg (by rw [List.length_map]; omega)]
              simp [hn]
            rw [hnext]
            simp only [hn, decide_true]
            rw [ih (n + 1)]
            · exact hk
            · left
              exact ⟨hn, rfl, h3, by simp⟩
          · have hnext : it.next = some (false, { it with entries := [] }) := by
              unfold It.next
              rw [if_pos (by left; rw [h3, h2]; simp; omega)]
            rw [hnext]
            simp only [hn, decide_false]
            rw [ih (n + 1)]
            · exact hk
            · right; exact ⟨by omega, rfl⟩
        · have hnext : it.next = some (false, { it with entries := [] }) := by
            unfold It.next
            rw [if_pos (by right; rw [h2]; rfl)]
          rw [hnext]
          have hn : ¬ n < l.length := by omega
          simp only [hn, decide_false]
          rw [ih (n + 1)]
          · exact hk
          · right; exact ⟨by omega, rfl⟩
  apply key cs 0 (It.of l) rfl
  left
  exact ⟨Nat.zero_le _, rfl, rfl, by simp [It.of]⟩

example : (It.of [("a", (⟨1, []⟩ : Entry Nat)), ("b", ⟨2, []⟩)]).answers
    [.entry, .next, .entry, .next, .next, .entry, .next, .total] =
    [.entry (some none), .next true, .entry (some (some ("a", ⟨1, []⟩))), .next true, .next false,
      .entry none, .next false, .total 2] := by rfl

/-- A history in which the last valid write of `k` is a batch, and an invalid call comes later. -/
example : get (runAll [.put "k" (some 1) [], .batch [⟨"k", some 2, []⟩, ⟨"j", some 3, []⟩],
    WCall.put "k" (none : Option Nat) []]) "k" = .ok 2 := by decide +kernel

end VC.Mem
