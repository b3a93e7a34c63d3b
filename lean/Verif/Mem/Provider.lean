import Verif.Mem.Query
/-!
# The in-memory provider: C31, and what closing a store does (C64)
-/

namespace VC.Mem

open VC

variable {β γ : Type}

/-- The provider after a history of calls. -/
def Prov.run (lower : String → String) (p : Prov β γ) (cs : List (Call β γ)) : Prov β γ :=
  cs.foldl (Prov.step lower) p

/-- The write calls of a history that go to handle `h`, in order. -/
def writesTo (h : Nat) : List (Call β γ) → List (WCall β)
  | [] => []
  | .put h' k v ts :: cs => if h' = h then .put k v ts :: writesTo h cs else writesTo h cs
  | .delete h' k :: cs => if h' = h then .delete k :: writesTo h cs else writesTo h cs
  | .batch h' ops :: cs => if h' = h then .batch ops :: writesTo h cs else writesTo h cs
  | _ :: cs => writesTo h cs

/-- What the provider maintains: the open names belong to handles that were given out, under the name
they were opened with. -/
structure Prov.Inv (p : Prov β γ) : Prop where
  lt : ∀ n h, GoMap.get? p.dbs n = some h → h < p.next
  name : ∀ n h, GoMap.get? p.dbs n = some h → p.names h = n

theorem inv_new : (Prov.new : Prov β γ).Inv := ⟨by simp [Prov.new], by simp [Prov.new]⟩

theorem inv_write {p : Prov β γ} (hp : p.Inv) (h : Nat) (r : Except Err (Db β)) : (p.write h r).Inv := by
  unfold Prov.write
  split
  · exact hp
  · exact ⟨hp.lt, hp.name⟩

theorem inv_step {lower : String → String} {p : Prov β γ} (hp : p.Inv) (c : Call β γ) :
    (p.step lower c).Inv := by
  cases c with
  | openStore name =>
    simp only [Prov.step, Prov.openStore]
    by_cases hn : name = ""
    · simp only [hn, if_true]; exact hp
    · simp only [if_neg hn]
      cases hg : GoMap.get? p.dbs (lower name) with
      | some h => exact hp
      | none =>
        dsimp only
        constructor
        · intro n h hh
          dsimp only at hh ⊢
          rw [GoMap.get?_set] at hh
          split at hh
          · cases hh; omega
          · have := hp.lt n h hh; omega
        · intro n h hh
          dsimp only at hh ⊢
          rw [GoMap.get?_set] at hh
          unfold upd
          split at hh
          · next e => cases hh; simp [e]
          · have := hp.lt n h hh
            rw [if_neg (by omega)]
            exact hp.name n h hh
  | setConfig name ts c =>
    simp only [Prov.step, Prov.setConfig]
    split
    · next q hq =>
      split at hq
      · cases hq
      · split at hq
        · cases hq
        · cases hq; exact ⟨hp.lt, hp.name⟩
    · exact hp
  | closeAll => exact ⟨by simp [Prov.step], by simp [Prov.step]⟩
  | closeStore h =>
    simp only [Prov.step, Prov.closeStore]
    constructor
    · intro n h' hh
      dsimp only at hh ⊢
      rw [GoMap.get?_del] at hh
      split at hh
      · cases hh
      · exact hp.lt n h' hh
    · intro n h' hh
      dsimp only at hh ⊢
      rw [GoMap.get?_del] at hh
      split at hh
      · cases hh
      · exact hp.name n h' hh
  | put h k v ts => exact inv_write hp h _
  | delete h k => exact inv_write hp h _
  | batch h ops => exact inv_write hp h _

theorem inv_run {lower : String → String} (cs : List (Call β γ)) {p : Prov β γ} (hp : p.Inv) :
    (p.run lower cs).Inv := by
  induction cs generalizing p with
  | nil => exact hp
  | cons c cs ih => exact ih (inv_step hp c)

theorem write_heap (p : Prov β γ) (h h' : Nat) (c : WCall β) :
    (p.write h (c.result (p.heap h))).heap h' = if h = h' then c.run (p.heap h') else p.heap h' := by
  unfold Prov.write WCall.run
  by_cases e : h = h'
  · subst e
    simp only [if_true]
    cases c.result (p.heap h) <;> simp [upd]
  · simp only [if_neg e]
    cases c.result (p.heap h) with
    | error _ => rfl
    | ok db => simp [upd, Ne.symm e]

/-- **C31, isolation.** Whatever calls are made on the provider and on any store, the contents behind a
handle that has been given out are changed only by the write calls made on this handle, as if there
were no other store. -/
theorem stores_isolated (lower : String → String) (p : Prov β γ) (cs : List (Call β γ)) (h : Nat)
    (hh : h < p.next) : (p.run lower cs).heap h = (writesTo h cs).foldl WCall.run (p.heap h) := by
  induction cs generalizing p with
  | nil => rfl
  | cons c cs ih =>
    have hstep : ∀ q : Prov β γ, p.step lower c = q → h < q.next →
        (p.run lower (c :: cs)).heap h = (writesTo h cs).foldl WCall.run (q.heap h) := by
      intro q hq hlt
      have : p.run lower (c :: cs) = q.run lower cs := by simp [Prov.run, hq]
      rw [this, ih q hlt]
    have hwn : ∀ h' (r : Except Err (Db β)), (p.write h' r).next = p.next := by
      intro h' r
      unfold Prov.write
      split <;> rfl
    cases c with
    | openStore name =>
      have hcase : (p.step lower (.openStore name)).heap h = p.heap h ∧
          p.next ≤ (p.step lower (.openStore name)).next := by
        simp only [Prov.step, Prov.openStore]
        by_cases hn : name = ""
        · simp [hn]
        · simp only [if_neg hn]
          cases hg : GoMap.get? p.dbs (lower name) with
          | some h => simp
          | none =>
            dsimp only
            refine ⟨?_, by omega⟩
            unfold upd
            rw [if_neg (by omega)]
      rw [hstep _ rfl (by omega), hcase.1]
      rfl
    | setConfig name ts c =>
      have hcase : (p.step lower (.setConfig name ts c)).heap h = p.heap h ∧
          (p.step lower (.setConfig name ts c)).next = p.next := by
        simp only [Prov.step, Prov.setConfig]
        split
        · next q hq =>
          split at hq
          · cases hq
          · split at hq
            · cases hq
            · cases hq; simp
        · simp
      rw [hstep _ rfl (by omega), hcase.1]
      rfl
    | closeAll => rw [hstep _ rfl hh]; rfl
    | closeStore h' => rw [hstep _ rfl hh]; rfl
    | put h' k v ts =>
      rw [hstep _ rfl (by simp only [Prov.step, hwn]; exact hh)]
      have := write_heap p h' h (.put k v ts)
      simp only [WCall.result] at this
      simp only [Prov.step, this, writesTo]
      split <;> rfl
    | delete h' k =>
      rw [hstep _ rfl (by simp only [Prov.step, hwn]; exact hh)]
      have := write_heap p h' h (.delete k)
      simp only [WCall.result] at this
      simp only [Prov.step, this, writesTo]
      split <;> rfl
    | batch h' ops =>
      rw [hstep _ rfl (by simp only [Prov.step, hwn]; exact hh)]
      have := write_heap p h' h (.batch ops)
      simp only [WCall.result] at this
      simp only [Prov.step, this, writesTo]
      split <;> rfl

/-- A history in which nothing is closed. -/
def NoClose (cs : List (Call β γ)) : Prop := ∀ c ∈ cs, c ≠ .closeAll ∧ ∀ h, c ≠ .closeStore h

theorem dbs_kept {lower : String → String} (cs : List (Call β γ)) (hn : NoClose cs) (p : Prov β γ)
    (n : String) (h : Nat) (hg : GoMap.get? p.dbs n = some h) :
    GoMap.get? (p.run lower cs).dbs n = some h := by
  induction cs generalizing p with
  | nil => exact hg
  | cons c cs ih =>
    refine ih (fun x hx => hn x (List.mem_cons_of_mem _ hx)) (p.step lower c) ?_
    have hw : ∀ h' (r : Except Err (Db β)), (p.write h' r).dbs = p.dbs := by
      intro h' r; unfold Prov.write; split <;> rfl
    cases c with
    | openStore name =>
      simp only [Prov.step, Prov.openStore]
      by_cases hne : name = ""
      · simpa [hne] using hg
      · simp only [if_neg hne]
        cases hg' : GoMap.get? p.dbs (lower name) with
        | some h => exact hg
        | none =>
          dsimp only
          rw [GoMap.get?_set_ne]
          · exact hg
          · intro e; rw [e, hg] at hg'; cases hg'
    | setConfig name ts c =>
      simp only [Prov.step, Prov.setConfig]
      split
      · next q hq =>
        split at hq
        · cases hq
        · split at hq
          · cases hq
          · cases hq; exact hg
      · exact hg
    | closeAll => exact absurd rfl (hn _ (by simp)).1
    | closeStore h' => exact absurd rfl ((hn _ (by simp)).2 h')
    | put h' k v ts => simp only [Prov.step, hw]; exact hg
    | delete h' k => simp only [Prov.step, hw]; exact hg
    | batch h' ops => simp only [Prov.step, hw]; exact hg

/-- **C31, names.** After `OpenStore(a)` and any calls that close nothing, `OpenStore(b)` gives the same
store exactly if the names are equal up to case. -/
theorem open_same_iff (lower : String → String) (p : Prov β γ) (hp : p.Inv) {a b : String}
    (hb : b ≠ "") {h : Nat} {p1 : Prov β γ}
    (h1 : p.openStore lower a = .ok (h, p1)) (cs : List (Call β γ)) (hn : NoClose cs) :
    ∃ h' p2, (p1.run lower cs).openStore lower b = .ok (h', p2) ∧ (h' = h ↔ lower b = lower a) := by
  -- after the first call the name is bound to `h`
  have hbound : GoMap.get? p1.dbs (lower a) = some h ∧ p1.Inv := by
    have hi : p1.Inv := by
      have := inv_step (lower := lower) hp (.openStore a)
      simp only [Prov.step, h1] at this
      exact this
    refine ⟨?_, hi⟩
    unfold Prov.openStore at h1
    split at h1
    · cases h1
    · split at h1
      · next h0 hg => cases h1; exact hg
      · cases h1; simp
  have hk := dbs_kept (lower := lower) cs hn p1 _ h hbound.1
  have hi := inv_run (lower := lower) cs hbound.2
  generalize p1.run lower cs = q at hk hi
  unfold Prov.openStore
  rw [if_neg hb]
  cases hg : GoMap.get? q.dbs (lower b) with
  | some h' =>
    refine ⟨h', q, rfl, ?_⟩
    constructor
    · rintro rfl
      rw [← hi.name _ _ hg, ← hi.name _ _ hk]
    · intro e
      rw [e, hk] at hg
      cases hg
      rfl
  | none =>
    refine ⟨q.next, _, rfl, ?_⟩
    constructor
    · intro e
      have := hi.lt _ _ hk
      omega
    · intro e
      rw [e, hk] at hg
      cases hg

/-- A configuration set on a store is read back, under any spelling of its name, until the next one. -/
theorem config_read_back (lower : String → String) (p : Prov β γ) {a b : String} (e : lower a = lower b)
    {ts : List String} {c : γ} {q : Prov β γ} (h : p.setConfig lower a ts c = .ok q) :
    q.getConfig lower b = .ok (some c) ∧ ∀ n, lower n ≠ lower a → p.Inv →
      q.getConfig lower n = p.getConfig lower n := by
  unfold Prov.setConfig at h
  split at h
  · cases h
  · cases hg : GoMap.get? p.dbs (lower a) with
    | none => rw [hg] at h; cases h
    | some h0 =>
      rw [hg] at h
      cases h
      constructor
      · unfold Prov.getConfig
        rw [← e]
        simp [hg, upd]
      · intro n hn hp
        unfold Prov.getConfig
        dsimp only
        cases hg' : GoMap.get? p.dbs (lower n) with
        | none => rfl
        | some h1 =>
          dsimp only
          unfold upd
          rw [if_neg]
          rintro rfl
          exact hn (by rw [← hp.name _ _ hg, ← hp.name _ _ hg'])

/-- **C64 violated**: closing a handle whose store was closed before removes the store that was opened
under the same name since then, with its data. -/
theorem stale_close_drops_new_store :
    let lower : String → String := id
    let cs : List (Call Nat Unit) := [.openStore "s", .closeStore 0, .openStore "s",
      .put 1 "k" (some 7) [], .closeStore 0]
    let p := (Prov.new : Prov Nat Unit).run lower cs
    -- the second store was handle 1, it still has its data, but opening the name gives a new one
    get (p.heap 1) "k" = .ok 7 ∧
    ∃ p', p.openStore lower "s" = .ok (2, p') ∧ get (p'.heap 2) "k" = .error .notFound := by
  refine ⟨by decide +kernel, _, rfl, by decide +kernel⟩

/-- **C64** (partial): closing the handle of the store that is open under its name closes exactly this
one.  Missing: handles that are not the open store of their name (`stale_close_drops_new_store`). -/
theorem close_exact_partial (p : Prov β γ) (h : Nat) (n : String) :
    GoMap.get? (p.closeStore h).dbs n = if p.names h = n then none else GoMap.get? p.dbs n := by
  unfold Prov.closeStore
  exact GoMap.get?_del _ _ _

/-- Deviation from the comment on `Close` ("All data within the store is deleted"): the handle keeps its
data. -/
theorem close_keeps_data (p : Prov β γ) (h h' : Nat) : (p.closeStore h).heap h' = p.heap h' := rfl

/-- Two stores, one opened under two spellings. -/
example : let lower : String → String := fun s => if s = "A" then "a" else s
    let p := (Prov.new : Prov Nat Unit).run lower [.openStore "A", .openStore "b", .put 0 "k" (some 1) [],
      .put 1 "k" (some 2) [], .openStore "a"]
    get (p.heap 0) "k" = .ok 1 ∧ get (p.heap 1) "k" = .ok 2 ∧ p.next = 2 := by
  decide +kernel

end VC.Mem

namespace VC.Mem

open VC

variable {β γ : Type}

/-- **C31.** `SetStoreConfig` succeeds exactly for an open store and tag names without a colon; the
configuration is then returned for that store (under every spelling of its name), the one of every
other open store is unchanged, and no stored data changes. -/
theorem setConfig_spec (lower : String → String) {p : Prov β γ} (hp : p.Inv) (name : String)
    (ts : List String) (c : γ) :
    ((∃ q, p.setConfig lower name ts c = .ok q) ↔
      (∀ t ∈ ts, ':' ∉ t.toList) ∧ (GoMap.get? p.dbs (lower name)).isSome) ∧
    (∀ q, p.setConfig lower name ts c = .ok q →
      (∀ name', lower name' = lower name → q.getConfig lower name' = .ok (some c)) ∧
      (∀ name', lower name' ≠ lower name → q.getConfig lower name' = p.getConfig lower name') ∧
      q.dbs = p.dbs ∧ q.heap = p.heap) := by
  have hany : ts.any hasColon = true ↔ ¬ ∀ t ∈ ts, ':' ∉ t.toList := by
    simp [hasColon]
  unfold Prov.setConfig
  by_cases ha : ts.any hasColon = true
  · have hn := hany.mp ha
    simp only [ha, if_true]
    exact ⟨⟨fun ⟨q, hq⟩ => by simp at hq, fun h => absurd h.1 hn⟩, fun q hq => by simp at hq⟩
  · have hn : ∀ t ∈ ts, ':' ∉ t.toList := by
      by_contra hc; exact ha (hany.mpr hc)
    simp only [ha]
    cases hg : GoMap.get? p.dbs (lower name) with
    | none =>
      simp only [Bool.false_eq_true, if_false]
      exact ⟨⟨fun ⟨q, hq⟩ => by simp at hq, fun h => by simp at h⟩, fun q hq => by simp at hq⟩
    | some h =>
      simp only [Bool.false_eq_true, if_false, Option.isSome_some, and_true]
      refine ⟨⟨fun _ => hn, fun _ => ⟨_, rfl⟩⟩, ?_⟩
      intro q hq
      simp only [Except.ok.injEq] at hq
      subst hq
      refine ⟨?_, ?_, rfl, rfl⟩
      · intro name' he
        simp [Prov.getConfig, he, hg, upd]
      · intro name' hne
        unfold Prov.getConfig
        cases hg' : GoMap.get? p.dbs (lower name') with
        | none => rfl
        | some h' =>
          have : h' ≠ h := by
            intro e
            subst e
            exact hne ((hp.name _ _ hg').symm.trans (hp.name _ _ hg))
          simp [upd, this]

/-- A provider with two open stores, one configured. -/
def exConf : Prov Unit Nat :=
  Prov.run id Prov.new [.openStore "a", .openStore "b", .setConfig "a" ["t"] 5, .setConfig "b" ["x", "c:d"] 6]

example : exConf.getConfig id "a" = .ok (some 5) ∧ exConf.getConfig id "b" = .ok none ∧
    (GoMap.get? exConf.dbs "b").isSome := ⟨rfl, rfl, rfl⟩

end VC.Mem
