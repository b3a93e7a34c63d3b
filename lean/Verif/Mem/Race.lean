import Verif.Mem.Model
/-!
# Data races in the in-memory provider (C120)

Models the locking of `legacy/mem/mem.go`: which shared variables every exported method touches and
which lock it holds meanwhile.  Any number of goroutines call any methods in any order; a state has a
data race when two goroutines are about to access the same variable, at least one of them writing.
-/

namespace VC.Mem.Race

/-- The shared variables: the provider's map of stores (mem.go:35), the configuration of a store
(mem.go:159) and the contents of a store (mem.go:158). -/
inductive Var where
  | dbs
  | config (store : Nat)
  | db (store : Nat)
  deriving DecidableEq

/-- The locks: the provider's (mem.go:36) and each store's (mem.go:161). -/
inductive Lock where
  | prov
  | store (n : Nat)
  deriving DecidableEq

/-- `Lock` or `RLock` of a `sync.RWMutex`. -/
inductive Mode where
  | read
  | write
  deriving DecidableEq

/-- An access to a shared variable. -/
structure Acc where
  var : Var
  isWrite : Bool
  deriving DecidableEq

/-- A section of a method: the lock held during it, if any, and the accesses made. -/
structure Section where
  lock : Option (Lock × Mode)
  accs : List Acc

/-- The exported methods that touch shared state. -/
inductive Method where
  | openStore
  | setStoreConfig (store : Nat)
  | getStoreConfig (store : Nat)
  | getOpenStores
  | closeProvider
  | put (store : Nat)
  | get (store : Nat)
  | getTags (store : Nat)
  | getBulk (store : Nat)
  | query (store criteria : Nat)
  | delete (store : Nat)
  | batch (store : Nat)
  | closeStore
  deriving DecidableEq

/-- The sections of each method. -/
def Method.sections : Method → List Section
  /- `OpenStore`, mem.go:48-67 -/
  | .openStore => [⟨some (.prov, .write), [⟨.dbs, false⟩, ⟨.dbs, true⟩]⟩]
  /- `SetStoreConfig`, mem.go:72-92 -/
  | .setStoreConfig s => [⟨some (.prov, .write), [⟨.dbs, false⟩, ⟨.config s, true⟩]⟩]
  /- `GetStoreConfig`, mem.go:97-106: takes no lock -/
  | .getStoreConfig s => [⟨none, [⟨.dbs, false⟩, ⟨.config s, false⟩]⟩]
  /- `GetOpenStores`, mem.go:109-123 -/
  | .getOpenStores => [⟨some (.prov, .read), [⟨.dbs, false⟩]⟩]
  /- `Provider.Close`, mem.go:126-133 -/
  | .closeProvider => [⟨some (.prov, .write), [⟨.dbs, true⟩]⟩]
  /- `Put`, mem.go:184-189 -/
  | .put s => [⟨some (.store s, .write), [⟨.db s, true⟩]⟩]
  /- `Get`, mem.go:202-204 -/
  | .get s => [⟨some (.store s, .read), [⟨.db s, false⟩]⟩]
  /- `GetTags`, mem.go:221-223 -/
  | .getTags s => [⟨some (.store s, .read), [⟨.db s, false⟩]⟩]
  /- `GetBulk`, mem.go:248-254 -/
  | .getBulk s => [⟨some (.store s, .read), [⟨.db s, false⟩]⟩]
  /- `Query`, mem.go:282-303, 375-387: one read section per criterion -/
  | .query s n => List.replicate n ⟨some (.store s, .read), [⟨.db s, false⟩]⟩
  /- `Delete`, mem.go:315-317 -/
  | .delete s => [⟨some (.store s, .write), [⟨.db s, true⟩]⟩]
  /- `Batch`, mem.go:329-350 -/
  | .batch s => [⟨some (.store s, .write), [⟨.db s, true⟩, ⟨.db s, true⟩]⟩]
  /- `memStore.Close`, mem.go:141-149, 354-358: through `removeStore` -/
  | .closeStore => [⟨some (.prov, .write), [⟨.dbs, false⟩, ⟨.dbs, true⟩]⟩]

/-- What a goroutine is doing. -/
inductive PC where
  | idle
  /-- about to start the next section -/
  | outside (m : Method) (rest : List Section)
  /-- inside a section: the lock it holds, the accesses still to be made -/
  | inside (m : Method) (lock : Option (Lock × Mode)) (accs : List Acc) (rest : List Section)

/-- The whole system: what each goroutine does and which locks it holds. -/
structure St where
  pc : Nat → PC
  held : Lock → Nat → Option Mode

/-- Update of a function at a point. -/
def put {α : Type} (f : Nat → α) (t : Nat) (v : α) : Nat → α := fun x => if x = t then v else f x

/-- A `sync.RWMutex` lets a writer in when nobody holds it and a reader when no writer does. -/
def Free (s : St) (l : Lock) : Mode → Prop
  | .write => ∀ t, s.held l t = none
  | .read => ∀ t, s.held l t ≠ some .write

/-- One step of one goroutine (accesses themselves do not change the state of this model). -/
inductive Step : St → St → Prop
  | call {s : St} {t : Nat} (m : Method) : s.pc t = .idle →
      Step s { s with pc := put s.pc t (.outside m m.sections) }
  | done {s : St} {t : Nat} {m : Method} : s.pc t = .outside m [] →
      Step s { s with pc := put s.pc t .idle }
  | enter {s : St} {t : Nat} {m : Method} {l : Lock} {md : Mode} {as : List Acc} {r : List Section} :
      s.pc t = .outside m (⟨some (l, md), as⟩ :: r) → Free s l md →
      Step s { pc := put s.pc t (.inside m (some (l, md)) as r),
               held := fun l' => if l' = l then put (s.held l') t (some md) else s.held l' }
  | enterFree {s : St} {t : Nat} {m : Method} {as : List Acc} {r : List Section} :
      s.pc t = .outside m (⟨none, as⟩ :: r) →
      Step s { s with pc := put s.pc t (.inside m none as r) }
  | access {s : St} {t : Nat} {m : Method} {lk : Option (Lock × Mode)} {a : Acc} {as : List Acc}
      {r : List Section} : s.pc t = .inside m lk (a :: as) r →
      Step s { s with pc := put s.pc t (.inside m lk as r) }
  | leave {s : St} {t : Nat} {m : Method} {l : Lock} {md : Mode} {r : List Section} :
      s.pc t = .inside m (some (l, md)) [] r →
      Step s { pc := put s.pc t (.outside m r),
               held := fun l' => if l' = l then put (s.held l') t none else s.held l' }
  | leaveFree {s : St} {t : Nat} {m : Method} {r : List Section} :
      s.pc t = .inside m none [] r → Step s { s with pc := put s.pc t (.outside m r) }

/-- Reachable states. -/
inductive Reach : St → Prop
  | init : Reach ⟨fun _ => .idle, fun _ _ => none⟩
  | step {s s' : St} : Reach s → Step s s' → Reach s'

/-! ## Specification -/

/-- Goroutine `t`, in method `m`, is about to make access `a`. -/
def About (s : St) (t : Nat) (m : Method) (a : Acc) : Prop :=
  ∃ lk as r, s.pc t = .inside m lk (a :: as) r

/-- A data race: two goroutines about to access the same variable, at least one writing. -/
def Races (s : St) (t t' : Nat) (m m' : Method) (v : Var) : Prop :=
  t ≠ t' ∧ ∃ w w' : Bool, (w = true ∨ w' = true) ∧ About s t m ⟨v, w⟩ ∧ About s t' m' ⟨v, w'⟩

/-! ## Proof -/

/-- Which lock guards a variable. -/
def guardOf : Var → Lock
  | .dbs => .prov
  | .config _ => .prov
  | .db s => .store s

/-- A section holds the guard of every variable it touches, for writing if it writes. -/
def Guarded (lk : Option (Lock × Mode)) (as : List Acc) : Prop :=
  ∀ a ∈ as, ∃ md, lk = some (guardOf a.var, md) ∧ (a.isWrite = true → md = .write)

theorem sections_guarded (m : Method) (hm : ∀ n, m ≠ .getStoreConfig n) :
    ∀ sec ∈ m.sections, Guarded sec.lock sec.accs := by
  intro sec hs a ha
  cases m with
  | getStoreConfig n => exact absurd rfl (hm n)
  | query s n =>
    obtain ⟨_, rfl⟩ := List.mem_replicate.mp hs
    simp only [List.mem_singleton] at ha
    subst ha
    exact ⟨_, rfl, by simp⟩
  | _ =>
    simp only [Method.sections, List.mem_singleton] at hs
    subst hs
    simp only [List.mem_cons, List.not_mem_nil, or_false] at ha
    first
      | (subst ha; exact ⟨_, rfl, by simp⟩)
      | (rcases ha with rfl | rfl <;> exact ⟨_, rfl, by simp⟩)

/-- What a goroutine's position promises. -/
def PcOk (s : St) (t : Nat) : PC → Prop
  | .idle => ∀ l, s.held l t = none
  | .outside m r => (∀ l, s.held l t = none) ∧
      ((∀ n, m ≠ .getStoreConfig n) → ∀ sec ∈ r, Guarded sec.lock sec.accs)
  | .inside m lk as r => (∀ l md, s.held l t = some md ↔ lk = some (l, md)) ∧
      ((∀ n, m ≠ .getStoreConfig n) → Guarded lk as ∧ ∀ sec ∈ r, Guarded sec.lock sec.accs)

/-- The invariant. -/
structure Inv (s : St) : Prop where
  pcs : ∀ t, PcOk s t (s.pc t)
  excl : ∀ l t t', t ≠ t' → s.held l t = some .write → s.held l t' = none

theorem put_self {α : Type} (f : Nat → α) (t : Nat) (v : α) : put f t v t = v := by simp [put]

theorem put_ne {α : Type} (f : Nat → α) {t t' : Nat} (v : α) (h : t' ≠ t) : put f t v t' = f t' := by
  simp [put, h]

/-- `PcOk` only looks at the goroutine's own locks. -/
theorem pcOk_congr {s s' : St} {t : Nat} {p : PC} (h : ∀ l, s'.held l t = s.held l t)
    (hp : PcOk s t p) : PcOk s' t p := by
  cases p <;> simp only [PcOk, h] at hp ⊢ <;> exact hp

theorem inv_moved {s : St} (h : Inv s) {t : Nat} {p : PC} (hp : PcOk s t p) :
    Inv { s with pc := put s.pc t p } := by
  refine ⟨fun x => ?_, h.excl⟩
  by_cases hx : x = t
  · subst hx
    rw [show ({ s with pc := put s.pc x p } : St).pc x = p from put_self _ _ _]
    exact pcOk_congr (s := s) (fun _ => rfl) hp
  · rw [show ({ s with pc := put s.pc t p } : St).pc x = s.pc x from put_ne _ _ hx]
    exact pcOk_congr (s := s) (fun _ => rfl) (h.pcs x)

theorem inv_next {s s' : St} (h : Inv s) (hs : Step s s') : Inv s' := by
  cases hs with
  | @call t m hp =>
    have := h.pcs t; rw [hp] at this
    exact inv_moved h ⟨this, sections_guarded m⟩
  | @done t m hp =>
    have := h.pcs t; rw [hp] at this
    exact inv_moved h this.1
  | @enterFree t m as r hp =>
    have := h.pcs t; rw [hp] at this
    refine inv_moved h ⟨fun l md => ?_, fun hm => ?_⟩
    · rw [this.1 l]; simp
    · exact ⟨this.2 hm _ List.mem_cons_self, fun sec hsec => this.2 hm sec (List.mem_cons_of_mem _ hsec)⟩
  | @access t m lk a as r hp =>
    have := h.pcs t; rw [hp] at this
    exact inv_moved h ⟨this.1, fun hm => ⟨fun x hx => (this.2 hm).1 x (List.mem_cons_of_mem _ hx),
      (this.2 hm).2⟩⟩
  | @leaveFree t m r hp =>
    have := h.pcs t; rw [hp] at this
    refine inv_moved h ⟨fun l => ?_, fun hm => (this.2 hm).2⟩
    cases hl : s.held l t with
    | none => rfl
    | some md => exact absurd ((this.1 l md).mp hl) (by simp)
  | @enter t m l md as r hp hf =>
    have hpc := h.pcs t; rw [hp] at hpc
    refine ⟨fun x => ?_, ?_⟩
    · by_cases hx : x = t
      · subst hx
        simp only [put_self]
        refine ⟨fun l' md' => ?_, fun hm => ⟨hpc.2 hm _ List.mem_cons_self,
          fun sec hsec => hpc.2 hm sec (List.mem_cons_of_mem _ hsec)⟩⟩
        by_cases hl : l' = l
        · subst hl; simp [put_self]
        · simp only [hl, if_false, hpc.1 l', reduceCtorEq, Option.some.injEq, Prod.mk.injEq, false_iff]
          exact fun e => hl e.1.symm
      · simp only [put_ne _ _ hx]
        refine pcOk_congr (s := s) (fun l' => ?_) (h.pcs x)
        by_cases hl : l' = l
        · simp only [hl, if_true, put_ne _ _ hx]
        · simp only [hl, if_false]
    · intro l' a b hab hw
      by_cases hl : l' = l
      · subst hl
        simp only [if_true] at hw ⊢
        by_cases ha : a = t
        · subst ha
          rw [put_self] at hw
          have hmd : md = .write := by injection hw
          subst hmd
          rw [put_ne _ _ (fun e => hab e.symm)]
          exact hf b
        · rw [put_ne _ _ ha] at hw
          by_cases hb : b = t
          · subst hb
            cases md with
            | write => have := hf a; rw [this] at hw; cases hw
            | read => exact absurd hw (hf a)
          · rw [put_ne _ _ hb]; exact h.excl l' a b hab hw
      · simp only [hl, if_false] at hw ⊢; exact h.excl l' a b hab hw
  | @leave t m l md r hp =>
    have hpc := h.pcs t; rw [hp] at hpc
    refine ⟨fun x => ?_, ?_⟩
    · by_cases hx : x = t
      · subst hx
        simp only [put_self]
        refine ⟨fun l' => ?_, fun hm => (hpc.2 hm).2⟩
        by_cases hl : l' = l
        · subst hl; simp [put_self]
        · simp only [hl, if_false]
          cases hh : s.held l' x with
          | none => rfl
          | some md' =>
            have := (hpc.1 l' md').mp hh
            simp only [Option.some.injEq, Prod.mk.injEq] at this
            exact absurd this.1.symm hl
      · simp only [put_ne _ _ hx]
        refine pcOk_congr (s := s) (fun l' => ?_) (h.pcs x)
        by_cases hl : l' = l
        · simp only [hl, if_true, put_ne _ _ hx]
        · simp only [hl, if_false]
    · intro l' a b hab hw
      by_cases hl : l' = l
      · subst hl
        simp only [if_true] at hw ⊢
        by_cases ha : a = t
        · subst ha; rw [put_self] at hw; cases hw
        · rw [put_ne _ _ ha] at hw
          by_cases hb : b = t
          · subst hb; rw [put_self]
          · rw [put_ne _ _ hb]; exact h.excl l' a b hab hw
      · simp only [hl, if_false] at hw ⊢; exact h.excl l' a b hab hw

theorem inv_reachable {s : St} (h : Reach s) : Inv s := by
  induction h with
  | init => exact ⟨fun t l => rfl, fun l t t' _ h => by cases h⟩
  | step _ hs ih => exact inv_next ih hs

/-! ## C120 -/

/-- **C120, the part that holds.** Whatever any number of goroutines do with a provider and its
stores, a data race can only arise in `GetStoreConfig`. -/
theorem race_only_get_config_partial {s : St} (h : Reach s) {t t' : Nat} {m m' : Method} {v : Var}
    (hr : Races s t t' m m' v) :
    (∃ n, m = .getStoreConfig n) ∨ ∃ n, m' = .getStoreConfig n := by
  apply Classical.byContradiction
  intro hn
  have hm : ∀ n, m ≠ .getStoreConfig n := fun n e => hn (Or.inl ⟨n, e⟩)
  have hm' : ∀ n, m' ≠ .getStoreConfig n := fun n e => hn (Or.inr ⟨n, e⟩)
  obtain ⟨hne, w, w', hw, ⟨lk, as, r, hp⟩, ⟨lk', as', r', hp'⟩⟩ := hr
  have hi := inv_reachable h
  have a1 := hi.pcs t; rw [hp] at a1
  have a2 := hi.pcs t'; rw [hp'] at a2
  obtain ⟨md, g1, g2⟩ := (a1.2 hm).1 _ List.mem_cons_self
  obtain ⟨md', g1', g2'⟩ := (a2.2 hm').1 _ List.mem_cons_self
  have h1 := (a1.1 (guardOf v) md).mpr g1
  have h2 := (a2.1 (guardOf v) md').mpr g1'
  rcases hw with hw | hw
  · have := g2 hw; subst this
    rw [hi.excl _ t t' hne h1] at h2; cases h2
  · have := g2' hw; subst this
    rw [hi.excl _ t' t (Ne.symm hne) h2] at h1; cases h1

/-- **C120 is violated.** `GetStoreConfig` reads the provider's map without its lock: there is an
execution in which it does so while `OpenStore` writes the map (in Go: a fatal "concurrent map read
and map write"), and one in which it reads a configuration while `SetStoreConfig` writes it. -/
theorem get_config_races :
    (∃ s, Reach s ∧ Races s 0 1 (.getStoreConfig 0) .openStore .dbs) ∧
    ∃ s, Reach s ∧ Races s 0 1 (.getStoreConfig 0) (.setStoreConfig 0) (.config 0) := by
  constructor
  · have r0 := Reach.init
    have r1 := r0.step (.call (t := 0) (.getStoreConfig 0) rfl)
    have r2 := r1.step (.call (t := 1) .openStore rfl)
    have r3 := r2.step (.enterFree (t := 0) rfl)
    have r4 := r3.step (.enter (t := 1) rfl (fun _ => rfl))
    have r5 := r4.step (.access (t := 1) rfl)
    exact ⟨_, r5, by decide, false, true, Or.inr rfl, ⟨_, _, _, rfl⟩, ⟨_, _, _, rfl⟩⟩
  · have r0 := Reach.init
    have r1 := r0.step (.call (t := 0) (.getStoreConfig 0) rfl)
    have r2 := r1.step (.call (t := 1) (.setStoreConfig 0) rfl)
    have r3 := r2.step (.enterFree (t := 0) rfl)
    have r4 := r3.step (.access (t := 0) rfl)
    have r5 := r4.step (.enter (t := 1) rfl (fun _ => rfl))
    have r6 := r5.step (.access (t := 1) rfl)
    exact ⟨_, r6, by decide, false, true, Or.inr rfl, ⟨_, _, _, rfl⟩, ⟨_, _, _, rfl⟩⟩

/-- **C120.** The provider and its stores never deadlock: as long as some goroutine is in a call, some
goroutine in a call can move. -/
theorem no_deadlock {s : St} (h : Reach s) (hb : ∃ t, s.pc t ≠ .idle) :
    ∃ t s', s.pc t ≠ .idle ∧ Step s s' ∧ s'.pc t ≠ s.pc t ∧ ∀ x, x ≠ t → s'.pc x = s.pc x := by
  have hi := inv_reachable h
  by_cases hin : ∃ t m lk as r, s.pc t = .inside m lk as r
  · obtain ⟨t, m, lk, as, r, hp⟩ := hin
    cases as with
    | cons a as =>
      refine ⟨t, _, by rw [hp]; simp, .access hp, ?_, fun x hx => put_ne _ _ hx⟩
      rw [hp]; simp only [put_self]; intro e
      have := congrArg (fun p => match p with | .inside _ _ l _ => l.length | _ => 0) e
      simp at this
    | nil =>
      cases lk with
      | none =>
        exact ⟨t, _, by rw [hp]; simp, .leaveFree hp, by rw [hp]; simp [put_self],
          fun x hx => put_ne _ _ hx⟩
      | some lm =>
        exact ⟨t, _, by rw [hp]; simp, .leave hp, by rw [hp]; simp [put_self],
          fun x hx => put_ne _ _ hx⟩
  · have none_held : ∀ l t, s.held l t = none := by
      intro l t
      have := hi.pcs t
      cases hp : s.pc t with
      | idle => rw [hp] at this; exact this l
      | outside m r => rw [hp] at this; exact this.1 l
      | inside m lk as r => exact absurd ⟨t, m, lk, as, r, hp⟩ hin
    obtain ⟨t, ht⟩ := hb
    cases hp : s.pc t with
    | idle => exact absurd hp ht
    | inside m lk as r => exact absurd ⟨t, m, lk, as, r, hp⟩ hin
    | outside m r =>
      cases r with
      | nil =>
        exact ⟨t, _, ht, .done hp, by rw [hp]; simp [put_self], fun x hx => put_ne _ _ hx⟩
      | cons sec r =>
        obtain ⟨lk, as⟩ := sec
        cases lk with
        | none =>
          exact ⟨t, _, ht, .enterFree hp, by rw [hp]; simp [put_self], fun x hx => put_ne _ _ hx⟩
        | some lm =>
          obtain ⟨l, md⟩ := lm
          have hf : Free s l md := by
            cases md with
            | write => exact fun x => none_held l x
            | read => intro x e; rw [none_held l x] at e; cases e
          exact ⟨t, _, ht, .enter hp hf, by rw [hp]; simp [put_self], fun x hx => put_ne _ _ hx⟩

/-- Readers of one store do run at the same time (the lock is not exclusive), so the theorem above is
not true merely because nothing overlaps. -/
theorem readers_overlap : ∃ s, Reach s ∧ About s 0 (.get 3) ⟨.db 3, false⟩ ∧
    About s 1 (.query 3 2) ⟨.db 3, false⟩ := by
  have r0 := Reach.init
  have r1 := r0.step (.call (t := 0) (.get 3) rfl)
  have r2 := r1.step (.call (t := 1) (.query 3 2) rfl)
  have r3 := r2.step (.enter (t := 0) (l := .store 3) (md := .read) rfl (fun t h => by cases h))
  have r4 := r3.step (.enter (t := 1) (l := .store 3) (md := .read) rfl (fun t => by
    by_cases ht : t = 0
    · subst ht; simp [put]
    · simp [put, ht]))
  exact ⟨_, r4, ⟨_, _, _, rfl⟩, ⟨_, _, _, rfl⟩⟩

end VC.Mem.Race
