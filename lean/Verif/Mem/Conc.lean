import Verif.Mem.Provider
/-!
# The in-memory store under concurrent use (C65)

A small-step model of the store's critical sections (mem.go:184-189, 202-204, 248-254, 315-317,
329-350, 375-387): `sync.RWMutex` is a writer slot and a list of readers; inside the lock every map
access is one step, so that another thread may run between any two of them.  Threads are numbers.
A write call (`Put`, `Delete`, `Batch` after validation) is the list of its operations; a read call
(`Get`, `GetTags`, `GetBulk`, or one pass of a query over the keys it looks at) is the list of the keys
it reads.  `log`, `hist` and `obs` are ghost state: committed writes in the order of their commits, the
completed writes of each thread in program order, and what every completed read call returned.
Starvation and fairness are not modelled.
-/

namespace VC.Mem.Conc

open VC VC.Mem

variable {β : Type}

/-- Where a thread is; `n0` is the length of the log when the call was made. -/
inductive PC (β : Type) where
  | idle
  | wantW (ops : List (Oper β)) (n0 : Nat)
  | writing (rest ops : List (Oper β)) (n0 : Nat)
  | retW (ops : List (Oper β)) (n0 idx : Nat)
  | wantR (keys : List String) (n0 : Nat)
  | reading (rest keys : List String) (acc : List (Option (Entry β))) (n0 : Nat)
  | retR (keys : List String) (res : List (Option (Entry β))) (n0 : Nat)

/-- A completed call: what it was, when it was made and when it returned (in commits), and for a read
its result, for a write its place in the log. -/
inductive Obs (β : Type) where
  | read (keys : List String) (res : List (Option (Entry β))) (n0 n1 : Nat)
  | write (t : Nat) (ops : List (Oper β)) (n0 idx n1 : Nat)

/-- The state of the store and its threads. -/
structure St (β : Type) where
  db : Db β
  writer : Option Nat
  readers : List Nat
  pc : Nat → PC β
  log : List (Nat × List (Oper β))
  hist : Nat → List (List (Oper β))
  obs : List (Obs β)

/-- A new store. -/
def St.init : St β := ⟨[], none, [], fun _ => .idle, [], fun _ => [], []⟩

/-- The contents after the committed writes. -/
def runLog (log : List (Nat × List (Oper β))) : Db β := log.foldl (fun db w => w.2.foldl applyOp db) []

/-- One step of thread `t`. -/
inductive Step : St β → St β → Prop
  | invW {s t ops} : s.pc t = .idle →
      Step s { s with pc := upd s.pc t (.wantW ops s.log.length) }
  | lockW {s t ops n0} : s.pc t = .wantW ops n0 → s.writer = none → s.readers = [] →
      Step s { s with writer := some t, pc := upd s.pc t (.writing ops ops n0) }
  | stepW {s t o rest ops n0} : s.pc t = .writing (o :: rest) ops n0 →
      Step s { s with db := applyOp s.db o, pc := upd s.pc t (.writing rest ops n0) }
  | unlockW {s t ops n0} : s.pc t = .writing [] ops n0 →
      Step s { s with writer := none, log := s.log ++ [(t, ops)],
                      pc := upd s.pc t (.retW ops n0 s.log.length) }
  | retW {s t ops n0 idx} : s.pc t = .retW ops n0 idx →
      Step s { s with pc := upd s.pc t .idle, hist := upd s.hist t (s.hist t ++ [ops]),
                      obs := s.obs ++ [.write t ops n0 idx s.log.length] }
  | invR {s t keys} : s.pc t = .idle →
      Step s { s with pc := upd s.pc t (.wantR keys s.log.length) }
  | lockR {s t keys n0} : s.pc t = .wantR keys n0 → s.writer = none →
      Step s { s with readers := t :: s.readers, pc := upd s.pc t (.reading keys keys [] n0) }
  | stepR {s t k rest keys acc n0} : s.pc t = .reading (k :: rest) keys acc n0 →
      Step s { s with pc := upd s.pc t (.reading rest keys (acc ++ [GoMap.get? s.db k]) n0) }
  | unlockR {s t keys acc n0} : s.pc t = .reading [] keys acc n0 →
      Step s { s with readers := s.readers.erase t, pc := upd s.pc t (.retR keys acc n0) }
  | retR {s t keys res n0} : s.pc t = .retR keys res n0 →
      Step s { s with pc := upd s.pc t .idle, obs := s.obs ++ [.read keys res n0 s.log.length] }

/-- Reachable states. -/
inductive Reach : St β → Prop
  | init : Reach St.init
  | step {s s'} : Reach s → Step s s' → Reach s'

/-- The result of a read is the contents after the first `n` commits, for an `n` between the call and
its return. -/
def ReadOk (log : List (Nat × List (Oper β))) (keys : List String) (res : List (Option (Entry β)))
    (n0 n1 : Nat) : Prop :=
  ∃ n, n0 ≤ n ∧ n ≤ n1 ∧ n1 ≤ log.length ∧ res = keys.map (GoMap.get? (runLog (log.take n)))

/-- A completed call is in order. -/
def ObsOk (log : List (Nat × List (Oper β))) : Obs β → Prop
  | .read keys res n0 n1 => ReadOk log keys res n0 n1
  | .write t ops n0 idx n1 => n0 ≤ idx ∧ idx < n1 ∧ n1 ≤ log.length ∧ log[idx]? = some (t, ops)

/-- What holds of a thread. -/
def PcOk (s : St β) (t : Nat) : PC β → Prop
  | .idle => True
  | .wantW _ n0 => n0 ≤ s.log.length
  | .writing rest ops n0 => s.writer = some t ∧ n0 ≤ s.log.length ∧
      ∃ done, ops = done ++ rest ∧ s.db = done.foldl applyOp (runLog s.log)
  | .retW ops n0 idx => n0 ≤ idx ∧ idx < s.log.length ∧ s.log[idx]? = some (t, ops)
  | .wantR _ n0 => n0 ≤ s.log.length
  | .reading rest keys acc n0 => t ∈ s.readers ∧ n0 ≤ s.log.length ∧
      ∃ done, keys = done ++ rest ∧ acc = done.map (GoMap.get? (runLog s.log))
  | .retR keys res n0 => ReadOk s.log keys res n0 s.log.length

/-- The writes of a thread that are committed but not yet returned. -/
def pendingW : PC β → List (List (Oper β))
  | .retW ops _ _ => [ops]
  | _ => []

/-- The committed writes of a thread. -/
def logOf (t : Nat) (log : List (Nat × List (Oper β))) : List (List (Oper β)) :=
  (log.filter (fun w => w.1 == t)).map Prod.snd

/-- Invariant. -/
structure Inv (s : St β) : Prop where
  quiet : s.writer = none → s.db = runLog s.log
  excl : ∀ t, s.writer = some t → s.readers = [] ∧ ∃ rest ops n0, s.pc t = .writing rest ops n0
  nodup : s.readers.Nodup
  reader : ∀ t ∈ s.readers, ∃ rest keys acc n0, s.pc t = .reading rest keys acc n0
  pcs : ∀ t, PcOk s t (s.pc t)
  hist : ∀ t, logOf t s.log = s.hist t ++ pendingW (s.pc t)
  obs : ∀ o ∈ s.obs, ObsOk s.log o

theorem readOk_mono {log log' : List (Nat × List (Oper β))} {keys res n0 n1} (h : ReadOk log keys res n0 n1) :
    ReadOk (log ++ log') keys res n0 n1 := by
  obtain ⟨n, h1, h2, h3, h4⟩ := h
  refine ⟨n, h1, h2, by simp; omega, ?_⟩
  rw [List.take_append_of_le_length (by omega)]
  exact h4

theorem obsOk_mono {log log' : List (Nat × List (Oper β))} {o : Obs β} (h : ObsOk log o) :
    ObsOk (log ++ log') o := by
  cases o with
  | read keys res n0 n1 => exact readOk_mono h
  | write t ops n0 idx n1 =>
    obtain ⟨h1, h2, h3, h4⟩ := h
    refine ⟨h1, h2, by simp; omega, ?_⟩
    rw [List.getElem?_append_left (by omega)]
    exact h4

theorem upd_self (f : Nat → α) (t : Nat) (v : α) : upd f t v t = v := by simp [upd]

theorem upd_ne (f : Nat → α) {t t' : Nat} (v : α) (h : t' ≠ t) : upd f t v t' = f t' := by
  simp [upd, h]

theorem inv_init : Inv (St.init : St β) :=
  ⟨fun _ => rfl, by simp [St.init], by simp [St.init], by simp [St.init], fun _ => trivial,
    fun _ => rfl, by simp [St.init]⟩

/-- Steps that only move one thread between states outside the lock. -/
theorem inv_move {s : St β} (h : Inv s) {t : Nat} {p : PC β}
    (hw : ∀ rest ops n0, s.pc t ≠ .writing rest ops n0)
    (hr : ∀ rest keys acc n0, s.pc t ≠ .reading rest keys acc n0)
    {hist' : Nat → List (List (Oper β))} {obs' : List (Obs β)}
    (hp : PcOk s t p) (hh : logOf t s.log = hist' t ++ pendingW p) (hh' : ∀ t', t' ≠ t → hist' t' = s.hist t')
    (ho : ∀ o ∈ obs', ObsOk s.log o) :
    Inv { s with pc := upd s.pc t p, hist := hist', obs := obs' } := by
  refine ⟨h.quiet, ?_, h.nodup, ?_, ?_, ?_, ho⟩
  · intro t' ht'
    obtain ⟨a, rest, ops, n0, b⟩ := h.excl t' ht'
    refine ⟨a, rest, ops, n0, ?_⟩
    dsimp only
    rw [upd_ne]
    · exact b
    · rintro rfl; exact hw _ _ _ b
  · intro t' ht'
    obtain ⟨rest, keys, acc, n0, b⟩ := h.reader t' ht'
    refine ⟨rest, keys, acc, n0, ?_⟩
    dsimp only
    rw [upd_ne]
    · exact b
    · rintro rfl; exact hr _ _ _ _ b
  · intro t'
    dsimp only
    by_cases e : t' = t
    · subst e
      rw [upd_self]
      cases p <;> exact hp
    · rw [upd_ne _ _ e]
      have := h.pcs t'
      revert this
      cases s.pc t' <;> exact fun x => x
  · intro t'
    dsimp only
    by_cases e : t' = t
    · subst e; rw [upd_self]; exact hh
    · rw [upd_ne _ _ e, hh' t' e]; exact h.hist t'

theorem inv_step {s s' : St β} (h : Inv s) (hs : Step s s') : Inv s' := by
  cases hs with
  | @invW t ops hpc =>
    refine inv_move h (by simp [hpc]) (by simp [hpc]) (Nat.le_refl _) ?_ (fun _ _ => rfl) h.obs
    have := h.hist t
    rw [hpc] at this
    simpa [pendingW] using this
  | @invR t keys hpc =>
    refine inv_move h (by simp [hpc]) (by simp [hpc]) (Nat.le_refl _) ?_ (fun _ _ => rfl) h.obs
    have := h.hist t
    rw [hpc] at this
    simpa [pendingW] using this
  | @retW t ops n0 idx hpc =>
    have hp := h.pcs t
    rw [hpc] at hp
    obtain ⟨h1, h2, h3⟩ := hp
    refine inv_move h (by simp [hpc]) (by simp [hpc]) trivial ?_ (fun t' e => upd_ne _ _ e) ?_
    · have := h.hist t
      rw [hpc] at this
      rw [this, upd_self]
      simp [pendingW]
    · intro o ho
      rcases List.mem_append.mp ho with ho | ho
      · exact h.obs o ho
      · simp only [List.mem_singleton] at ho
        subst ho
        exact ⟨h1, h2, Nat.le_refl _, h3⟩
  | @retR t keys res n0 hpc =>
    have hp := h.pcs t
    rw [hpc] at hp
    refine inv_move h (by simp [hpc]) (by simp [hpc]) trivial ?_ (fun _ _ => rfl) ?_
    · have := h.hist t
      rw [hpc] at this
      simpa [pendingW] using this
    · intro o ho
      rcases List.mem_append.mp ho with ho | ho
      · exact h.obs o ho
      · simp only [List.mem_singleton] at ho
        subst ho
        exact hp
  | @lockW t ops n0 hpc hw hr =>
    have hp := h.pcs t
    rw [hpc] at hp
    have hdb := h.quiet hw
    refine ⟨by simp, ?_, by rw [hr]; simp, ?_, ?_, ?_, h.obs⟩
    · intro t' ht'
      dsimp only at ht' ⊢
      cases ht'
      exact ⟨hr, ops, ops, n0, upd_self _ _ _⟩
    · intro t' ht'
      dsimp only at ht'
      rw [hr] at ht'; cases ht'
    · intro t'
      dsimp only
      by_cases e : t' = t
      · subst e
        rw [upd_self]
        exact ⟨rfl, hp, [], rfl, by simpa using hdb⟩
      · rw [upd_ne _ _ e]
        have := h.pcs t'
        cases hq : s.pc t' with
        | writing rest ops n0 =>
          rw [hq] at this
          obtain ⟨a, _⟩ := this
          rw [hw] at a; cases a
        | _ => rw [hq] at this; exact this
    · intro t'
      dsimp only
      by_cases e : t' = t
      · subst e
        rw [upd_self]
        have := h.hist t'
        rw [hpc] at this
        simpa [pendingW] using this
      · rw [upd_ne _ _ e]; exact h.hist t'
  | @stepW t o rest ops n0 hpc =>
    have hp := h.pcs t
    rw [hpc] at hp
    obtain ⟨h1, h2, done, h3, h4⟩ := hp
    obtain ⟨hr, _⟩ := h.excl t h1
    refine ⟨?_, ?_, h.nodup, ?_, ?_, ?_, h.obs⟩
    · intro hw; dsimp only at hw; rw [h1] at hw; cases hw
    · intro t' ht'
      dsimp only at ht' ⊢
      rw [h1] at ht'
      cases ht'
      exact ⟨hr, rest, ops, n0, upd_self _ _ _⟩
    · intro t' ht'
      dsimp only at ht'
      rw [hr] at ht'; cases ht'
    · intro t'
      dsimp only
      by_cases e : t' = t
      · subst e
        rw [upd_self]
        refine ⟨h1, h2, done ++ [o], by simp [h3], ?_⟩
        dsimp only
        rw [h4]; simp
      · rw [upd_ne _ _ e]
        have := h.pcs t'
        cases hq : s.pc t' with
        | writing rest ops n0 =>
          rw [hq] at this
          obtain ⟨a, _⟩ := this
          rw [h1] at a; cases a; exact absurd rfl e
        | _ => rw [hq] at this; exact this
    · intro t'
      dsimp only
      by_cases e : t' = t
      · subst e
        rw [upd_self]
        have := h.hist t'
        rw [hpc] at this
        simpa [pendingW] using this
      · rw [upd_ne _ _ e]; exact h.hist t'
  | @unlockW t ops n0 hpc =>
    have hp := h.pcs t
    rw [hpc] at hp
    obtain ⟨h1, h2, done, h3, h4⟩ := hp
    obtain ⟨hr, _⟩ := h.excl t h1
    simp only [List.append_nil] at h3
    subst h3
    have hrun : runLog (s.log ++ [(t, ops)]) = s.db := by
      rw [h4]; simp [runLog]
    refine ⟨?_, by simp, h.nodup, ?_, ?_, ?_, fun o ho => obsOk_mono (h.obs o ho)⟩
    · intro _; exact hrun.symm
    · intro t' ht'
      dsimp only at ht'
      rw [hr] at ht'; cases ht'
    · intro t'
      dsimp only
      by_cases e : t' = t
      · subst e
        rw [upd_self]
        exact ⟨h2, by simp, by simp⟩
      · rw [upd_ne _ _ e]
        have := h.pcs t'
        cases hq : s.pc t' with
        | idle => trivial
        | writing rest ops n0 =>
          rw [hq] at this
          obtain ⟨a, _⟩ := this
          rw [h1] at a; cases a; exact absurd rfl e
        | reading rest keys acc n0 =>
          rw [hq] at this
          obtain ⟨a, _⟩ := this
          rw [hr] at a; cases a
        | wantW ops n0 =>
          rw [hq] at this
          simp only [PcOk, List.length_append, List.length_singleton] at this ⊢
          omega
        | wantR ops n0 =>
          rw [hq] at this
          simp only [PcOk, List.length_append, List.length_singleton] at this ⊢
          omega
        | retW ops' n0 idx =>
          rw [hq] at this
          obtain ⟨a, b, c⟩ := this
          refine ⟨a, by simp; omega, ?_⟩
          dsimp only
          rw [List.getElem?_append_left (by omega)]
          exact c
        | retR keys res n0 =>
          rw [hq] at this
          obtain ⟨n, a, b, c, d⟩ := this
          refine ⟨n, a, by simp; omega, Nat.le_refl _, ?_⟩
          dsimp only
          rw [List.take_append_of_le_length (by omega)]
          exact d
    · intro t'
      dsimp only
      by_cases e : t' = t
      · subst e
        rw [upd_self]
        have := h.hist t'
        rw [hpc] at this
        simp only [pendingW, List.append_nil] at this
        simp only [logOf, List.filter_append, List.map_append] at this ⊢
        rw [this]
        simp [pendingW]
      · rw [upd_ne _ _ e]
        have := h.hist t'
        simp only [logOf, List.filter_append, List.map_append] at this ⊢
        rw [this]
        simp [Ne.symm e]
  | @lockR t keys n0 hpc hw =>
    have hp := h.pcs t
    rw [hpc] at hp
    refine ⟨h.quiet, ?_, ?_, ?_, ?_, ?_, h.obs⟩
    · intro t' ht'; dsimp only at ht'; rw [hw] at ht'; cases ht'
    · refine List.nodup_cons.mpr ⟨?_, h.nodup⟩
      intro hm
      obtain ⟨_, _, _, _, e⟩ := h.reader t hm
      rw [hpc] at e; cases e
    · intro t' ht'
      dsimp only at ht' ⊢
      by_cases e : t' = t
      · subst e; exact ⟨_, _, _, _, upd_self _ _ _⟩
      · rw [upd_ne _ _ e]
        rcases List.mem_cons.mp ht' with ht' | ht'
        · exact absurd ht' e
        · exact h.reader t' ht'
    · intro t'
      dsimp only
      by_cases e : t' = t
      · subst e
        rw [upd_self]
        exact ⟨List.mem_cons_self, hp, [], rfl, rfl⟩
      · rw [upd_ne _ _ e]
        have := h.pcs t'
        cases hq : s.pc t' with
        | reading rest keys acc n0 =>
          rw [hq] at this
          obtain ⟨a, b⟩ := this
          exact ⟨List.mem_cons_of_mem _ a, b⟩
        | _ => rw [hq] at this; exact this
    · intro t'
      dsimp only
      by_cases e : t' = t
      · subst e
        rw [upd_self]
        have := h.hist t'
        rw [hpc] at this
        simpa [pendingW] using this
      · rw [upd_ne _ _ e]; exact h.hist t'
  | @stepR t k rest keys acc n0 hpc =>
    have hp := h.pcs t
    rw [hpc] at hp
    obtain ⟨h1, h2, done, h3, h4⟩ := hp
    have hw : s.writer = none := by
      cases hw : s.writer with
      | none => rfl
      | some t' =>
        obtain ⟨a, _⟩ := h.excl t' hw
        rw [a] at h1; cases h1
    have hdb := h.quiet hw
    refine ⟨h.quiet, ?_, h.nodup, ?_, ?_, ?_, h.obs⟩
    · intro t' ht'; dsimp only at ht'; rw [hw] at ht'; cases ht'
    · intro t' ht'
      dsimp only at ht' ⊢
      by_cases e : t' = t
      · subst e; exact ⟨_, _, _, _, upd_self _ _ _⟩
      · rw [upd_ne _ _ e]; exact h.reader t' ht'
    · intro t'
      dsimp only
      by_cases e : t' = t
      · subst e
        rw [upd_self]
        refine ⟨h1, h2, done ++ [k], by simp [h3], ?_⟩
        dsimp only
        rw [hdb, h4]; simp
      · rw [upd_ne _ _ e]
        have := h.pcs t'
        revert this
        cases s.pc t' <;> exact fun x => x
    · intro t'
      dsimp only
      by_cases e : t' = t
      · subst e
        rw [upd_self]
        have := h.hist t'
        rw [hpc] at this
        simpa [pendingW] using this
      · rw [upd_ne _ _ e]; exact h.hist t'
  | @unlockR t keys acc n0 hpc =>
    have hp := h.pcs t
    rw [hpc] at hp
    obtain ⟨h1, h2, done, h3, h4⟩ := hp
    simp only [List.append_nil] at h3
    subst h3
    refine ⟨h.quiet, ?_, h.nodup.erase _, ?_, ?_, ?_, h.obs⟩
    · intro t' ht'
      dsimp only at ht'
      obtain ⟨a, _⟩ := h.excl t' ht'
      rw [a] at h1; cases h1
    · intro t' ht'
      dsimp only at ht' ⊢
      obtain ⟨hne, hm⟩ := (h.nodup.mem_erase_iff).mp ht'
      rw [upd_ne _ _ hne]
      exact h.reader t' hm
    · intro t'
      dsimp only
      by_cases e : t' = t
      · subst e
        rw [upd_self]
        refine ⟨s.log.length, h2, Nat.le_refl _, Nat.le_refl _, ?_⟩
        dsimp only
        rw [List.take_length]
        exact h4
      · rw [upd_ne _ _ e]
        have := h.pcs t'
        cases hq : s.pc t' with
        | reading rest keys acc n0 =>
          rw [hq] at this
          obtain ⟨a, b⟩ := this
          exact ⟨(h.nodup.mem_erase_iff).mpr ⟨e, a⟩, b⟩
        | _ => rw [hq] at this; exact this
    · intro t'
      dsimp only
      by_cases e : t' = t
      · subst e
        rw [upd_self]
        have := h.hist t'
        rw [hpc] at this
        simpa [pendingW] using this
      · rw [upd_ne _ _ e]; exact h.hist t'

theorem inv_reach {s : St β} (h : Reach s) : Inv s := by
  induction h with
  | init => exact inv_init
  | step _ hs ih => exact inv_step ih hs

/-- **C65.** In every execution of any number of threads there is one order of the committed writes
(`log`) that explains everything: each thread's writes are in it exactly once and in program order
(the last one possibly before its call returns); a completed write is committed between its call and
its return; and every completed read saw, for all its keys at once, the contents after the first `n`
of them, for an `n` between its call and its return: no read sees part of a batch. -/
theorem store_linearizable {s : St β} (h : Reach s) :
    (∀ t, ∃ pending, ((s.log.filter (fun w => w.1 == t)).map Prod.snd) = s.hist t ++ pending ∧
      pending.length ≤ 1) ∧
    (∀ t ops n0 idx n1, Obs.write t ops n0 idx n1 ∈ s.obs →
      n0 ≤ idx ∧ idx < n1 ∧ n1 ≤ s.log.length ∧ s.log[idx]? = some (t, ops)) ∧
    (∀ keys res n0 n1, Obs.read keys res n0 n1 ∈ s.obs → ∃ n, n0 ≤ n ∧ n ≤ n1 ∧ n1 ≤ s.log.length ∧
      res = keys.map (GoMap.get? (((s.log.take n).map Prod.snd).foldl (fun db ops => ops.foldl applyOp db) []))) := by
  have hi := inv_reach h
  refine ⟨?_, ?_, ?_⟩
  · intro t
    refine ⟨_, hi.hist t, ?_⟩
    cases s.pc t <;> simp [pendingW]
  · intro t ops n0 idx n1 ho
    exact hi.obs _ ho
  · intro keys res n0 n1 ho
    obtain ⟨n, h1, h2, h3, h4⟩ := hi.obs _ ho
    refine ⟨n, h1, h2, h3, ?_⟩
    rw [h4]
    unfold runLog
    rw [List.foldl_map]

/-- The lock keeps readers and writers apart. -/
theorem mutual_exclusion {s : St β} (h : Reach s) (t : Nat) (hw : s.writer = some t) : s.readers = [] :=
  ((inv_reach h).excl t hw).1

/-- An execution in which thread 1 reads two keys after a batch of thread 0. -/
example : ∃ s : St Nat, Reach s ∧ s.obs = [.write 0 [⟨"a", some 1, []⟩, ⟨"b", some 2, []⟩] 0 0 1,
    .read ["a", "b"] [some ⟨1, []⟩, some ⟨2, []⟩] 0 1] := by
  have h1 := (Reach.init (β := Nat)).step
    (.invW (t := 0) (ops := [⟨"a", some 1, []⟩, ⟨"b", some 2, []⟩]) rfl)
  have h2 := h1.step (.invR (t := 1) (keys := ["a", "b"]) rfl)
  have h3 := h2.step (.lockW (t := 0) rfl rfl rfl)
  have h4 := (h3.step (.stepW (t := 0) rfl)).step (.stepW (t := 0) rfl)
  have h5 := (h4.step (.unlockW (t := 0) rfl)).step (.lockR (t := 1) rfl rfl)
  have h6 := (h5.step (.stepR (t := 1) rfl)).step (.stepR (t := 1) rfl)
  have h7 := ((h6.step (.retW (t := 0) rfl)).step (.unlockR (t := 1) rfl)).step (.retR (t := 1) rfl)
  exact ⟨_, h7, rfl⟩

end VC.Mem.Conc
