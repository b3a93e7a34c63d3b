import Verif.Base.GoMap
/-!
# verifiable: the expirable schema cache (C45)

`ExpirableSchemaCache.Put`/`Get` (verifiable/credential.go:727-760) and `getJSONSchema`
(credential.go:2302-2324).

The backing cache is fastcache.  Assumed of it: `HasGet` returns under a key only bytes stored by a
`Set` under that key, not deleted since; it may forget entries at any time and may ignore a `Set`
(entries over 64 KB).  Both are steps of the model (`evict`, `dropped`).
Times are nanoseconds since the Unix epoch; `time.Time.Unix` rounds down to seconds.
-/

namespace VC.Vfy.Cache

open GoMap

/-- Nanoseconds per second. -/
def second : Int := 1000000000

/-- `t.Unix()`. -/
def unix (t : Int) : Int := t / second

/-- `uint64(x)` for an `int64`. -/
def toU64 (x : Int) : Nat := (x % 2 ^ 64).toNat

/-- `int64(x)` for a `uint64`. -/
def toI64 (n : Nat) : Int := if n < 2 ^ 63 then n else (n : Int) - 2 ^ 64

/-- `binary.LittleEndian.PutUint64`: `n` bytes, least significant first. -/
def putLE : Nat → Nat → List Nat
  | 0, _ => []
  | n + 1, x => x % 256 :: putLE n (x / 256)

/-- `binary.LittleEndian.Uint64`. -/
def getLE : List Nat → Nat
  | [] => 0
  | b :: l => b + 256 * getLE l

/-- The bytes `Put` stores, credential.go:728-739: the expiry time, then the value. -/
def entry (exp now : Int) (v : List Nat) : List Nat :=
  putLE 8 (toU64 (unix (now + exp))) ++ v

/-- `Put`, credential.go:727-740.  `dropped` says that the backing cache ignores the `Set`. -/
def put (exp now : Int) (dropped : Bool) (c : GoMap (List Nat)) (k : String) (v : List Nat) :
    GoMap (List Nat) :=
  if dropped then c else set c k (entry exp now v)

/-- `Get`, credential.go:744-760: the answer and the cache afterwards. -/
def get (now : Int) (c : GoMap (List Nat)) (k : String) :
    Option (List Nat) × GoMap (List Nat) :=
  match get? c k with
  | none => (none, c)
  | some b =>
    if toI64 (getLE (b.take 8)) < unix now then (none, del c k)
    else (some (b.drop 8), c)

/-- What can happen to the cache. -/
inductive Ev where
  | put (k : String) (v : List Nat) (now : Int) (dropped : Bool)
  | get (k : String) (now : Int)
  | evict (k : String)

/-- One step. -/
def step (exp : Int) (c : GoMap (List Nat)) : Ev → GoMap (List Nat)
  | .put k v now d => put exp now d c k v
  | .get k now => (get now c k).2
  | .evict k => del c k

/-- The cache after a history, starting empty. -/
def run (exp : Int) (evs : List Ev) : GoMap (List Nat) := evs.foldl (step exp) []

/-- `getJSONSchema`, credential.go:2302-2324, with a cache: `load` is the download at `now'`
(the time of `Put`).  Returns the schema bytes and the cache. -/
def getJSONSchema (exp now now' : Int) (dropped : Bool) (load : String → Option (List Nat))
    (c : GoMap (List Nat)) (url : String) : Option (List Nat) × GoMap (List Nat) :=
  match (get now c url).1 with
  | some b => (some b, (get now c url).2)
  | none =>
    match load url with
    | none => (none, (get now c url).2)
    | some b => (some b, put exp now' dropped (get now c url).2 url b)

/-! ## Properties -/

theorem putLE_length (n x : Nat) : (putLE n x).length = n := by
  induction n generalizing x with
  | zero => rfl
  | succ n ih => simp [putLE, ih]

theorem getLE_putLE (n x : Nat) (h : x < 256 ^ n) : getLE (putLE n x) = x := by
  induction n generalizing x with
  | zero => simp only [Nat.pow_zero] at h; simp [putLE, getLE]; omega
  | succ n ih =>
    have : x / 256 < 256 ^ n := by
      apply Nat.div_lt_of_lt_mul
      rw [Nat.pow_succ] at h
      omega
    simp only [putLE, getLE, ih _ this]
    omega

theorem toI64_toU64 (x : Int) (h1 : -2 ^ 63 ≤ x) (h2 : x < 2 ^ 63) : toI64 (toU64 x) = x := by
  unfold toI64 toU64
  split <;> omega

theorem toU64_lt (x : Int) : toU64 x < 256 ^ 8 := by
  unfold toU64
  omega

/-- Unix seconds fit an `int64`: true of every `time.Time`. -/
def Fits (x : Int) : Prop := -2 ^ 63 ≤ unix x ∧ unix x < 2 ^ 63

/-- Reading back the expiry time of a stored entry. -/
theorem entry_expiry (exp now : Int) (v : List Nat) (h : Fits (now + exp)) :
    toI64 (getLE ((entry exp now v).take 8)) = unix (now + exp) := by
  have : (entry exp now v).take 8 = putLE 8 (toU64 (unix (now + exp))) := by
    unfold entry
    exact List.take_left' (putLE_length 8 _)
  rw [this, getLE_putLE _ _ (toU64_lt _), toI64_toU64 _ h.1 h.2]

theorem entry_value (exp now : Int) (v : List Nat) : (entry exp now v).drop 8 = v := by
  unfold entry
  exact List.drop_left' (putLE_length 8 _)

/-- Every stored entry was put under its key. -/
theorem run_entries (exp : Int) (evs : List Ev) (k : String) (b : List Nat)
    (h : get? (run exp evs) k = some b) :
    ∃ v now d, Ev.put k v now d ∈ evs ∧ b = entry exp now v := by
  have gen : ∀ (evs : List Ev) (c : GoMap (List Nat)),
      get? (evs.foldl (step exp) c) k = some b →
      get? c k = some b ∨ ∃ v now d, Ev.put k v now d ∈ evs ∧ b = entry exp now v := by
    intro evs
    induction evs with
    | nil => intro c h; exact .inl h
    | cons e evs ih =>
      intro c h
      rcases ih _ h with h1 | ⟨v, now, d, hm, hb⟩
      · cases e with
        | put k' v now d =>
          simp only [step, put] at h1
          cases d with
          | true => exact .inl h1
          | false =>
            simp only [Bool.false_eq_true, if_false, get?_set] at h1
            by_cases hk : k' = k
            · simp only [hk, if_true, Option.some.injEq] at h1
              exact .inr ⟨v, now, false, by simp [hk], h1.symm⟩
            · simp only [hk, if_false] at h1; exact .inl h1
        | get k' now =>
          left
          simp only [step, get] at h1
          cases hg : get? c k' with
          | none => simpa only [hg] using h1
          | some b' =>
            simp only [hg] at h1
            by_cases he : toI64 (getLE (b'.take 8)) < unix now
            · simp only [he, if_true, get?_del] at h1
              by_cases hk : k' = k
              · simp [hk] at h1
              · simpa [hk] using h1
            · simpa only [he, if_false] using h1
        | evict k' =>
          left
          simp only [step, get?_del] at h1
          by_cases hk : k' = k
          · simp [hk] at h1
          · simpa [hk] using h1
      · exact .inr ⟨v, now, d, by simp [hm], hb⟩
  rcases gen evs [] h with h1 | h1
  · simp at h1
  · exact h1

/-- **C45 (partial).** `Get` returns only bytes that were put under the same key, at a time whose
expiry second has not passed: the entry is younger than the expiration plus one second.
Missing: the expiration itself is not a strict bound, see `cache_serves_stale`. -/
theorem cache_fresh_partial (exp : Int) (evs : List Ev) (k : String) (now : Int) (v : List Nat)
    (fits : ∀ k' v' t d, Ev.put k' v' t d ∈ evs → Fits (t + exp))
    (h : (get now (run exp evs) k).1 = some v) :
    ∃ t d, Ev.put k v t d ∈ evs ∧ now - t < exp + second := by
  unfold get at h
  cases hg : get? (run exp evs) k with
  | none => simp [hg] at h
  | some b =>
    obtain ⟨w, t, d, hm, rfl⟩ := run_entries exp evs k b hg
    have hf := fits k w t d hm
    simp only [hg, entry_expiry exp t w hf, entry_value] at h
    by_cases he : unix (t + exp) < unix now
    · simp [he] at h
    · simp only [he, if_false, Option.some.injEq] at h
      subst h
      refine ⟨t, d, hm, ?_⟩
      unfold unix second at he
      unfold second
      omega

/-- One entry with expiration 10 s, put at 0.9 s. -/
def exHist : List Ev := [.put "s" [7, 8] 900000000 false]

example : (∀ k' v' t d, Ev.put k' v' t d ∈ exHist → Fits (t + 10000000000)) ∧
    (get 5000000000 (run 10000000000 exHist) "s").1 = some [7, 8] ∧
    (get 11000000000 (run 10000000000 exHist) "s").1 = none := by
  refine ⟨?_, by decide +kernel, by decide +kernel⟩
  intro k' v' t d h
  simp only [exHist, List.mem_singleton, Ev.put.injEq] at h
  obtain ⟨-, -, rfl, -⟩ := h
  constructor <;> decide

/-- **C45 (violated below the second).** An entry put at 0 s with expiration 1.5 s is still served at
1.9 s: times are compared in whole seconds. -/
theorem cache_serves_stale :
    (get 1900000000 (run 1500000000 [.put "s" [7] 0 false]) "s").1 = some [7] ∧
    (1900000000 : Int) - 0 > 1500000000 := by
  constructor <;> decide +kernel

/-- **C45.** With a whole number of seconds between put and expiry comparison the bound is exact: an
entry put at second `s` with an expiration of `e` seconds is served exactly up to second `s + e`. -/
theorem cache_served_iff (exp t now : Int) (c : GoMap (List Nat)) (k : String) (v : List Nat)
    (hf : Fits (t + exp)) :
    (get now (put exp t false c k v) k).1 = some v ↔ unix now ≤ unix (t + exp) := by
  simp only [put, get, get?_set_self, entry_expiry exp t v hf, entry_value, Bool.false_eq_true,
    if_false]
  by_cases h : unix (t + exp) < unix now
  · simp [h]
  · simp [h]; omega

/-- **C45.** A stored value comes back unchanged until it expires, whatever is put under other keys
in between. -/
theorem cache_get_put (exp t now : Int) (c : GoMap (List Nat)) (k : String) (v : List Nat)
    (hf : Fits (t + exp)) (hnow : now ≤ t + exp) (others : List Ev)
    (ho : ∀ e ∈ others, ∃ k' v' t' d, e = .put k' v' t' d ∧ k' ≠ k) :
    (get now (others.foldl (step exp) (put exp t false c k v)) k).1 = some v := by
  have hk : get? (others.foldl (step exp) (put exp t false c k v)) k = some (entry exp t v) := by
    have gen : ∀ (c : GoMap (List Nat)), get? c k = some (entry exp t v) →
        get? (others.foldl (step exp) c) k = some (entry exp t v) := by
      induction others with
      | nil => intro c h; exact h
      | cons e es ih =>
        intro c h
        refine ih (fun e' he' => ho e' (by simp [he'])) _ ?_
        obtain ⟨k', v', t', d, rfl, hne⟩ := ho e (by simp)
        cases d
        · simp only [step, put, Bool.false_eq_true, if_false]
          rw [get?_set_ne _ _ hne]; exact h
        · exact h
    exact gen _ (by simp [put])
  simp only [get, hk, entry_expiry exp t v hf, entry_value]
  have : ¬ unix (t + exp) < unix now := by
    unfold unix second; omega
  simp [this]

example : Fits (900000000 + 10000000000) := by constructor <;> decide

/-- **C45.** An expired entry is removed by the `Get` that meets it: it stays unavailable at every
later or earlier clock reading. -/
theorem cache_expired_removed (now : Int) (c : GoMap (List Nat)) (k : String) (b : List Nat)
    (hb : get? c k = some b) (h : (get now c k).1 = none) (now' : Int) :
    (get now' (get now c k).2 k).1 = none := by
  simp only [get, hb] at h ⊢
  by_cases he : toI64 (getLE (b.take 8)) < unix now
  · simp [he]
  · simp [he] at h

example : (get 11000000000 (run 10000000000 exHist) "s").2 = [] := by decide +kernel

/-- **C45.** A schema served by `getJSONSchema` is either freshly downloaded from that URL or was
downloaded and cached under that URL within the expiration (plus the rounding second). -/
theorem getJSONSchema_source (exp now now' : Int) (d : Bool) (load : String → Option (List Nat))
    (evs : List Ev) (url : String) (b : List Nat)
    (fits : ∀ k' v' t d, Ev.put k' v' t d ∈ evs → Fits (t + exp))
    (h : (getJSONSchema exp now now' d load (run exp evs) url).1 = some b) :
    load url = some b ∨ ∃ t d, Ev.put url b t d ∈ evs ∧ now - t < exp + second := by
  unfold getJSONSchema at h
  cases hg : (get now (run exp evs) url).1 with
  | some b' =>
    simp only [hg, Option.some.injEq] at h
    subst h
    exact .inr (cache_fresh_partial exp evs url now b' fits hg)
  | none =>
    simp only [hg] at h
    cases hl : load url with
    | none => simp [hl] at h
    | some b' => simp only [hl, Option.some.injEq] at h; subst h; exact .inl rfl

/-- **C45.** After a successful `getJSONSchema` that downloaded, the next one within the expiration
returns the same bytes without a download. -/
theorem getJSONSchema_caches (exp now now' now'' : Int) (load load' : String → Option (List Nat))
    (c : GoMap (List Nat)) (url : String) (b : List Nat) (hf : Fits (now' + exp))
    (hmiss : (get now c url).1 = none)
    (h : (getJSONSchema exp now now' false load c url).1 = some b)
    (hnow : now'' ≤ now' + exp) (n3 : Int) (d3 : Bool) :
    (getJSONSchema exp now'' n3 d3 load' (getJSONSchema exp now now' false load c url).2 url).1 =
      some b := by
  cases hl : load url with
  | none => simp [getJSONSchema, hmiss, hl] at h
  | some b' =>
    simp only [getJSONSchema, hmiss, hl, Option.some.injEq] at h
    subst h
    have e : (getJSONSchema exp now now' false load c url).2 =
        put exp now' false (get now c url).2 url b' := by
      simp [getJSONSchema, hmiss, hl]
    rw [e]
    have := cache_get_put exp now' now'' (get now c url).2 url b' hf hnow [] (by simp)
    simp only [List.foldl_nil] at this
    simp [getJSONSchema, this]

end VC.Vfy.Cache
