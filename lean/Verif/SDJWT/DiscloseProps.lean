import Verif.SDJWT.DiscloseAll
/-!
# Disclosure verification and processing: properties C07, C08, C09, C10, C12

The theorems are about `verifyDisclosures` (`VerifyDisclosuresInSDJWT`) and `disclosedClaims`
(`GetDisclosureClaims` followed by `GetDisclosedClaims`, the last step of the verifier's `Parse`).
-/

namespace VC.SDJWT
open List

/-! ## Specification -/

/-- The disclosure string `s` decodes to the disclosure object `c` with digest `d`:
`[salt, value]`, `[salt, name, value]`, or a longer array (which no digest may use). -/
def IsDisc (env : Env) (alg s d : String) (c : Disc) : Prop :=
  d = env.hash alg s ∧ c.disclosure = s ∧ c.parsed = false ∧
  ∃ salt rest, env.decode s = some (.str salt :: rest) ∧
    ((∃ v, rest = [v] ∧ c.elems = 2 ∧ c.name = "" ∧ c.value = v) ∨
     (∃ nm v, rest = [.str nm, v] ∧ c.elems = 3 ∧ c.name = nm ∧ c.value = v) ∨
     (3 ≤ rest.length ∧ c.elems = rest.length + 1 ∧ c.name = "" ∧ c.value = .null))

/-- `D` is the digest-indexed table of the disclosures `ds`. -/
structure Decoded (env : Env) (alg : String) (ds : List String) (D : DMap) : Prop where
  wf : GoMap.WF D
  from_list : ∀ d c, GoMap.get? D d = some c → ∃ s ∈ ds, IsDisc env alg s d c
  all : ∀ s ∈ ds, ∃ c, GoMap.get? D (env.hash alg s) = some c

/-- A digest committed to by the signed payload: written in the payload, or in the value of a
presented disclosure whose own digest is committed to. -/
inductive Committed (env : Env) (alg : String) (ds : List String) (payload : JObj) : String → Prop
  | payload {d} : d ∈ digests false (.obj payload) → Committed env alg ds payload d
  | nested {s arr v d} : s ∈ ds → Committed env alg ds payload (env.hash alg s) →
      env.decode s = some arr → arr.length ≤ 3 → arr.getLast? = some v →
      d ∈ digests false v → Committed env alg ds payload d

/-- JSON decoding yields well-formed values (no object has a duplicate member name). -/
def EnvWF (env : Env) : Prop := ∀ s arr, env.decode s = some arr → JWFArr arr

/-- Digests written in the value of the disclosure string `s`. -/
def valueDigests (env : Env) (cl : Bool) (s : String) : List String :=
  match env.decode s with
  | some [_, v] => digests cl v
  | some [_, _, v] => digests cl v
  | _ => []

/-- No two of the presented disclosures have the same digest (collision resistance). -/
def NoCollision (env : Env) (alg : String) (ds : List String) : Prop :=
  ∀ s ∈ ds, ∀ s' ∈ ds, env.hash alg s = env.hash alg s' → s = s'

/-! ## Decoding -/

theorem getDisclosureClaim_ok {env : Env} {alg s d : String} {c : Disc}
    (h : getDisclosureClaim env alg s = .ok (d, c)) : IsDisc env alg s d c := by
  unfold getDisclosureClaim at h
  cases hd : env.decode s with
  | none => rw [hd] at h; cases h
  | some arr =>
    rw [hd] at h
    simp only at h
    split at h
    · cases h
    · cases arr with
      | nil => simp at h
      | cons x rest =>
        cases x with
        | str salt =>
          simp only at h
          match rest, h with
          | [], h => simp_all
          | [v], h => cases h; exact ⟨rfl, rfl, rfl, salt, _, hd, Or.inl ⟨v, rfl, rfl, rfl, rfl⟩⟩
          | [.str nm, v], h =>
            cases h
            exact ⟨rfl, rfl, rfl, salt, _, hd, Or.inr (Or.inl ⟨nm, v, rfl, rfl, rfl, rfl⟩)⟩
          | a :: b :: c :: l, h =>
            cases h
            exact ⟨rfl, rfl, rfl, salt, _, hd, Or.inr (Or.inr ⟨by simp, by simp, rfl, rfl⟩)⟩
          | [.null, v], h => cases h
          | [.bool _, v], h => cases h
          | [.num _, v], h => cases h
          | [.arr _, v], h => cases h
          | [.obj _, v], h => cases h
        | null => cases h
        | bool _ => cases h
        | num _ => cases h
        | arr _ => cases h
        | obj _ => cases h

theorem getDisclosureClaims_ok {env : Env} {alg : String} (ss : List String) :
    ∀ acc D, getDisclosureClaims env alg ss acc = .ok D → GoMap.WF acc →
      GoMap.WF D ∧
      (∀ d c, GoMap.get? D d = some c → GoMap.get? acc d = some c ∨ ∃ s ∈ ss, IsDisc env alg s d c) ∧
      (∀ d, (GoMap.get? acc d).isSome → (GoMap.get? D d).isSome) ∧
      (∀ s ∈ ss, ∃ c, GoMap.get? D (env.hash alg s) = some c) := by
  induction ss with
  | nil =>
    intro acc D h hw
    simp only [getDisclosureClaims, Except.ok.injEq] at h
    subst h
    exact ⟨hw, fun _ _ h => Or.inl h, fun _ h => h, by simp⟩
  | cons s ss ih =>
    intro acc D h hw
    simp only [getDisclosureClaims] at h
    cases hg : getDisclosureClaim env alg s with
    | error e => rw [hg] at h; cases h
    | ok q =>
      obtain ⟨d, c⟩ := q
      rw [hg] at h
      have hi := getDisclosureClaim_ok hg
      obtain ⟨g1, g2, g3, g4⟩ := ih _ _ h (GoMap.wf_set hw _ _)
      refine ⟨g1, ?_, ?_, ?_⟩
      · intro d' c' h'
        rcases g2 d' c' h' with h' | ⟨s', hs', h'⟩
        · rw [GoMap.get?_set] at h'
          split at h'
          · next e => cases h'; subst e; exact Or.inr ⟨s, by simp, hi⟩
          · exact Or.inl h'
        · exact Or.inr ⟨s', by simp [hs'], h'⟩
      · intro d' h'
        refine g3 d' ?_
        rw [GoMap.get?_set]
        split
        · rfl
        · exact h'
      · intro s' hs'
        rcases List.mem_cons.mp hs' with rfl | hs'
        · have := g3 d (by simp)
          rw [hi.1] at this
          exact Option.isSome_iff_exists.mp this
        · exact g4 s' hs'

theorem decoded_of_ok {env : Env} {alg : String} {ds : List String} {D : DMap}
    (h : getDisclosureClaims env alg ds [] = .ok D) : Decoded env alg ds D := by
  obtain ⟨g1, g2, _, g4⟩ := getDisclosureClaims_ok ds [] D h GoMap.wf_nil
  refine ⟨g1, ?_, g4⟩
  intro d c hc
  rcases g2 d c hc with h | h
  · cases h
  · exact h

theorem Decoded.unparsed {env : Env} {alg : String} {ds : List String} {D : DMap}
    (h : Decoded env alg ds D) : AllUnparsed D := by
  intro d c hc
  obtain ⟨s, _, hs⟩ := h.from_list d c hc
  exact hs.2.2.1

theorem Decoded.dwf {env : Env} {alg : String} {ds : List String} {D : DMap} (he : EnvWF env)
    (h : Decoded env alg ds D) : DWF D := by
  intro d c hc _
  obtain ⟨s, _, _, _, _, salt, rest, hd, hs⟩ := h.from_list d c hc
  have hw := he s _ hd
  simp only [JWFArr] at hw
  rcases hs with ⟨v, rfl, _, _, hv⟩ | ⟨nm, v, rfl, _, _, hv⟩ | ⟨_, _, _, hv⟩
  · simp only [JWFArr] at hw; rw [hv]; exact hw.2.1
  · simp only [JWFArr] at hw; rw [hv]; exact hw.2.2.1
  · rw [hv]; simp [JWF]

/-- Digests in a disclosure object are those in the value of its string. -/
theorem IsDisc.digests {env : Env} {alg s d : String} {c : Disc} {cl : Bool}
    (h : IsDisc env alg s d c) : SDJWT.digests cl c.value = valueDigests env cl s := by
  obtain ⟨_, _, _, salt, rest, hd, hs⟩ := h
  unfold valueDigests
  rw [hd]
  rcases hs with ⟨v, rfl, _, _, hv⟩ | ⟨nm, v, rfl, _, _, hv⟩ | ⟨hl, _, _, hv⟩
  · rw [hv]
  · rw [hv]
  · rw [hv]
    match rest, hl with
    | _ :: _ :: _ :: _, _ => simp [SDJWT.digests]

/-- The final resolved value does not depend on which of several equal tables is used. -/
theorem getDisclosureClaims_total {env : Env} {alg : String} (ss : List String) :
    ∀ acc, (∀ s ∈ ss, ∃ d c, getDisclosureClaim env alg s = .ok (d, c)) →
      ∃ D, getDisclosureClaims env alg ss acc = .ok D := by
  induction ss with
  | nil => intro acc _; exact ⟨acc, rfl⟩
  | cons s ss ih =>
    intro acc h
    obtain ⟨d, c, hc⟩ := h s (by simp)
    simp only [getDisclosureClaims, hc]
    exact ih _ (fun s' hs' => h s' (by simp [hs']))

/-! ## Verification: what success means -/

theorem verify_core {env : Env} {ds : List String} {payload : JObj}
    (h : verifyDisclosures env ds payload = .ok ()) :
    ∃ alg D w st, getHashAlg env payload = some alg ∧ Decoded env alg ds D ∧
      getDisclosureClaims env alg ds [] = .ok D ∧
      disclose false (fuelFor D (.obj payload)) ⟨[], D⟩ (.obj payload) = .ok (w, st) ∧
      ∀ d, (GoMap.get? D d).isSome → ¬ Unparsed st d := by
  unfold verifyDisclosures at h
  cases ha : getHashAlg env payload with
  | none => rw [ha] at h; cases h
  | some alg =>
    rw [ha] at h
    simp only at h
    cases hg : getDisclosureClaims env alg ds [] with
    | error e => rw [hg] at h; cases h
    | ok D =>
      rw [hg] at h
      simp only at h
      cases hd : disclose false (fuelFor D (.obj payload)) ⟨[], D⟩ (.obj payload) with
      | error e => rw [hd] at h; cases h
      | ok q =>
        obtain ⟨w, st⟩ := q
        rw [hd] at h
        simp only at h
        split at h
        · next hall =>
          refine ⟨alg, D, w, st, rfl, decoded_of_ok hg, hg, hd, ?_⟩
          rintro d _ ⟨c, hc, hp⟩
          rw [List.all_eq_true] at hall
          have := hall _ (GoMap.mem_of_get? hc)
          simp only at this
          rw [hp] at this; cases this
        · cases h

theorem reach_committed {env : Env} {alg : String} {ds : List String} {D : DMap} {payload : JObj}
    (hD : Decoded env alg ds D) {d : String}
    (h : Reach false D (digests false (.obj payload)) d) : Committed env alg ds payload d := by
  induction h with
  | root h => exact .payload h
  | @step d c d' _ h2 h3 h4 ih =>
    obtain ⟨s, hs, hdisc⟩ := hD.from_list _ _ h2
    obtain ⟨hhash, _, _, salt, rest, hdec, hcase⟩ := hdisc
    rw [hhash] at ih
    rcases hcase with ⟨v, rfl, _, _, hv⟩ | ⟨nm, v, rfl, _, _, hv⟩ | ⟨hl, _, _, hv⟩
    · exact .nested hs ih hdec (by simp) (by simp) (hv ▸ h4)
    · exact .nested hs ih hdec (by simp) (by simp) (hv ▸ h4)
    · rw [hv] at h4; simp [digests] at h4

theorem verify_reach {env : Env} {ds : List String} {payload : JObj}
    (h : verifyDisclosures env ds payload = .ok ()) :
    ∃ alg D, getHashAlg env payload = some alg ∧ Decoded env alg ds D ∧
      (∃ w, Resolves false D (.obj payload) w) ∧
      (∀ d, (GoMap.get? D d).isSome → Reach false D (digests false (.obj payload)) d) ∧
      (digests false (.obj payload) ++ (GoMap.keys D).flatMap (digOf false D)).Nodup := by
  obtain ⟨alg, D, w, st, h1, h2, _, h3, h4⟩ := verify_core h
  obtain ⟨g1, g2, g3⟩ := disclose_sound _ _ _ _ _ h3 Ext.refl (by simp)
  have hall : ∀ d, (GoMap.get? D d).isSome → Reach false D (digests false (.obj payload)) d := by
    intro d hd
    have hnu := h4 d hd
    obtain ⟨c, hc⟩ := Option.isSome_iff_exists.mp hd
    have hp := h2.unparsed d c hc
    obtain ⟨N, n1, n2, n3, n4, n5, n6, n7, n8⟩ := g3
    by_cases hN : d ∈ N
    · exact (n7 d hN).1
    · exact absurd ⟨c, by rw [n3 d hN]; exact hc, hp⟩ hnu
  refine ⟨alg, D, h1, h2, ⟨w, g1⟩, hall, ?_⟩
  have hperm : (reachSet false D (digests false (.obj payload))).Perm (GoMap.keys D) := by
    rw [List.perm_ext_iff_of_nodup (nodup_reachSet h2.wf) h2.wf]
    intro d
    rw [mem_reachSet]
    constructor
    · rintro ⟨_, c, hc, _⟩
      exact GoMap.get?_isSome_iff.mp (by rw [show (St.mk [] D).ds = D from rfl] at hc; rw [hc]; rfl)
    · intro hd
      have hs := GoMap.get?_isSome_iff.mpr hd
      obtain ⟨c, hc⟩ := Option.isSome_iff_exists.mp hs
      exact ⟨hall d hs, c, hc, h2.unparsed d c hc⟩
  have := (step_perm h2.wf g3).nodup_iff.mp g3.nodup
  exact (List.Perm.append_left _ (hperm.flatMap_right _)).nodup_iff.mp this

/-! ## C07 -/

/-- **C07.** If verification succeeds, every presented disclosure hashes to a digest that the
issuer-signed payload commits to, directly or through other presented disclosures. -/
theorem accepted_disclosures_committed {env : Env} {ds : List String} {payload : JObj}
    (h : verifyDisclosures env ds payload = .ok ()) :
    ∃ alg, getHashAlg env payload = some alg ∧
      ∀ s ∈ ds, Committed env alg ds payload (env.hash alg s) := by
  obtain ⟨alg, D, h1, h2, _, h3, _⟩ := verify_reach h
  refine ⟨alg, h1, ?_⟩
  intro s hs
  obtain ⟨c, hc⟩ := h2.all s hs
  exact reach_committed h2 (h3 _ (by rw [hc]; rfl))

/-! ## C08 -/

/-- **C08.** The recursion terminates on every value and every table of disclosures: the depth of
recursion is bounded by `fuelFor`, and allowing more never changes the result. -/
theorem disclose_terminates (cl : Bool) (D : DMap) (v : Json) :
    disclose cl (fuelFor D v) ⟨[], D⟩ v ≠ .error .fuel ∧
    ∀ n, fuelFor D v ≤ n → disclose cl n ⟨[], D⟩ v = disclose cl (fuelFor D v) ⟨[], D⟩ v := by
  have h := disclose_no_fuel (cl := cl) (D := D) v _ (Nat.le_refl _)
  exact ⟨h, fun n hn => disclose_mono hn h⟩

theorem getDisclosureClaims_no_fuel {env : Env} {alg : String} (ss : List String) :
    ∀ acc, getDisclosureClaims env alg ss acc ≠ .error .fuel := by
  induction ss with
  | nil => intro acc; simp [getDisclosureClaims]
  | cons s ss ih =>
    intro acc
    simp only [getDisclosureClaims]
    cases hg : getDisclosureClaim env alg s with
    | ok q => exact ih _
    | error e =>
      simp only [ne_eq, Except.error.injEq]
      rintro rfl
      unfold getDisclosureClaim at hg
      repeat' split at hg
      all_goals cases hg

/-- **C08**, for the verification of disclosures. -/
theorem verify_terminates (env : Env) (ds : List String) (payload : JObj) :
    verifyDisclosures env ds payload ≠ .error .fuel := by
  unfold verifyDisclosures
  split
  · simp
  · split
    · next e he => intro h; cases h; exact getDisclosureClaims_no_fuel _ _ he
    · next D _ =>
      split
      · next e he => intro h; cases h; exact (disclose_terminates _ _ _).1 he
      · split <;> simp

theorem resolveDisclosureClaims_terminates (env : Env) (alg : String) (ds : List String)
    (order : DMap → List String) :
    resolveDisclosureClaims env alg ds order ≠ .error .fuel := by
  unfold resolveDisclosureClaims
  split
  · next e he => intro h; cases h; exact getDisclosureClaims_no_fuel _ _ he
  · next D hD =>
    split
    · next e he =>
      intro h; cases h
      exact setAll_term _ (Nat.le_refl _) _ _ (SInv.init (decoded_of_ok hD).unparsed) he
    · simp

/-- **C08**, for the processing of the claims (any map iteration order). -/
theorem disclosedClaims_terminates (env : Env) (ds : List String) (payload : JObj)
    (order : DMap → List String) : disclosedClaims env ds payload order ≠ .error .fuel := by
  unfold disclosedClaims
  split
  · simp
  · split
    · next e he => intro h; cases h; exact resolveDisclosureClaims_terminates _ _ _ _ he
    · next D _ =>
      unfold getDisclosedClaims
      split
      · simp
      · split
        · next e he => intro h; cases h; exact (disclose_terminates _ _ _).1 he
        · simp
        · simp

/-! ## C09 -/

theorem keys_perm_hashes {env : Env} {alg : String} {ds : List String} {D : DMap}
    (hD : Decoded env alg ds D) (hc : NoCollision env alg ds) (hn : ds.Nodup) :
    (GoMap.keys D).Perm (ds.map (env.hash alg)) := by
  have hnd : (ds.map (env.hash alg)).Nodup := by
    rw [List.nodup_map_iff_inj_on hn]
    intro x hx y hy e
    exact hc x hx y hy e
  rw [List.perm_ext_iff_of_nodup hD.wf hnd]
  intro d
  constructor
  · intro hd
    obtain ⟨c, hc⟩ := Option.isSome_iff_exists.mp (GoMap.get?_isSome_iff.mpr hd)
    obtain ⟨s, hs, hi⟩ := hD.from_list d c hc
    exact List.mem_map.mpr ⟨s, hs, hi.1.symm⟩
  · intro hd
    obtain ⟨s, hs, rfl⟩ := List.mem_map.mp hd
    obtain ⟨c, hc⟩ := hD.all s hs
    exact GoMap.get?_isSome_iff.mp (by rw [hc]; rfl)

theorem digOf_hash {env : Env} {alg : String} {ds : List String} {D : DMap} {cl : Bool}
    (hD : Decoded env alg ds D) (hc : NoCollision env alg ds) {s : String} (hs : s ∈ ds) :
    digOf cl D (env.hash alg s) = valueDigests env cl s := by
  obtain ⟨c, h⟩ := hD.all s hs
  obtain ⟨s', hs', hi⟩ := hD.from_list _ _ h
  have : s = s' := hc s hs s' hs' hi.1
  subst this
  simp only [digOf, h]
  exact hi.digests

theorem flatMap_keys {env : Env} {alg : String} {ds : List String} {D : DMap} {cl : Bool}
    (hD : Decoded env alg ds D) (hc : NoCollision env alg ds) (hn : ds.Nodup) :
    ((GoMap.keys D).flatMap (digOf cl D)).Perm (ds.flatMap (valueDigests env cl)) := by
  refine ((keys_perm_hashes hD hc hn).flatMap_right _).trans ?_
  rw [List.flatMap_map]
  have : ∀ l : List String, (∀ s ∈ l, s ∈ ds) →
      l.flatMap (fun s => digOf cl D (env.hash alg s)) = l.flatMap (valueDigests env cl) := by
    intro l
    induction l with
    | nil => intro _; rfl
    | cons a l ih =>
      intro h
      simp only [List.flatMap_cons]
      rw [digOf_hash hD hc (h a (by simp)), ih (fun s hs => h s (by simp [hs]))]
  rw [this ds (fun _ h => h)]

/-- **C09.** If verification of (pairwise different, collision-free) disclosures succeeds, no
digest occurs twice among the digests of the payload and those inside the disclosures. -/
theorem accepted_digests_distinct {env : Env} {ds : List String} {payload : JObj}
    (h : verifyDisclosures env ds payload = .ok ()) (hn : ds.Nodup)
    (hc : ∀ alg, NoCollision env alg ds) :
    (digests false (.obj payload) ++ ds.flatMap (valueDigests env false)).Nodup := by
  obtain ⟨alg, D, _, h2, _, _, h3⟩ := verify_reach h
  exact (List.Perm.append_left _ (flatMap_keys h2 (hc alg) hn)).nodup_iff.mp h3

/-! ## Exact characterisation of acceptance -/

/-- Sufficient conditions for acceptance. -/
theorem verify_of {env : Env} (he : EnvWF env) {ds : List String} {payload : JObj}
    (hp : JWF (.obj payload)) (hn : ds.Nodup) {alg : String} (hc : NoCollision env alg ds) {D : DMap}
    (h1 : getHashAlg env payload = some alg) (h2 : getDisclosureClaims env alg ds [] = .ok D)
    (h3 : (digests false (.obj payload) ++ ds.flatMap (valueDigests env false)).Nodup)
    (h4 : ∀ s ∈ ds, Reach false D (digests false (.obj payload)) (env.hash alg s))
    (h5 : ∃ w, Resolves false D (.obj payload) w) :
    verifyDisclosures env ds payload = .ok () := by
  have hD := decoded_of_ok h2
  have hnd : (digests false (.obj payload) ++
      (reachSet false D (digests false (.obj payload))).flatMap (digOf false D)).Nodup := by
    have h3' := (List.Perm.append_left (digests false (.obj payload))
      (flatMap_keys (cl := false) hD hc hn)).nodup_iff.mpr h3
    rw [List.nodup_append] at h3' ⊢
    refine ⟨h3'.1, nodup_flatMap_sub h3'.2.1 hD.wf (nodup_reachSet hD.wf) ?_, ?_⟩
    · intro x hx
      obtain ⟨_, c, hc, _⟩ := mem_reachSet.mp hx
      rw [show (St.mk [] D).ds = D from rfl] at hc
      exact GoMap.get?_isSome_iff.mp (by rw [hc]; rfl)
    · intro x hx y hy
      obtain ⟨z, hz, hz'⟩ := List.mem_flatMap.mp hy
      obtain ⟨_, c, hc, _⟩ := mem_reachSet.mp hz
      rw [show (St.mk [] D).ds = D from rfl] at hc
      exact h3'.2.2 x hx y (List.mem_flatMap.mpr
        ⟨z, GoMap.get?_isSome_iff.mp (by rw [hc]; rfl), hz'⟩)
  obtain ⟨w, st, hd⟩ := (disclose_iff (hD.dwf he) hD.wf hp).mpr ⟨h5, hnd⟩
  obtain ⟨a1, a2, a3⟩ := disclose_sound _ _ _ _ _ hd Ext.refl (by simp)
  unfold verifyDisclosures
  rw [h1]
  simp only [h2, hd]
  rw [if_pos]
  rw [List.all_eq_true]
  rintro ⟨d, c⟩ hm
  have hkeys : GoMap.keys st.ds = GoMap.keys D := by
    obtain ⟨N, _, _, _, _, _, _, _, n8⟩ := a3
    exact n8
  have hwf : GoMap.WF st.ds := by unfold GoMap.WF; rw [hkeys]; exact hD.wf
  have hcst := GoMap.get?_of_mem hwf hm
  have hdk : d ∈ GoMap.keys D := by
    rw [← hkeys]; exact List.mem_map.mpr ⟨_, hm, rfl⟩
  obtain ⟨r, hr⟩ := Option.isSome_iff_exists.mp (GoMap.get?_isSome_iff.mpr hdk)
  obtain ⟨s, hs, hi⟩ := hD.from_list d r hr
  have := step_reach a3 (hi.1 ▸ h4 s hs)
  cases hpp : c.parsed with
  | true => rfl
  | false => exact absurd ⟨c, hcst, hpp⟩ this

/-- Acceptance holds exactly when: the hash is supported, every disclosure decodes, all digests are
different, every disclosure is committed to, and the payload resolves (every digest is used with a
disclosure of the right shape and no claim name collides). -/
theorem verify_iff {env : Env} (he : EnvWF env) {ds : List String} {payload : JObj}
    (hp : JWF (.obj payload)) (hn : ds.Nodup) (hc : ∀ alg, NoCollision env alg ds) :
    verifyDisclosures env ds payload = .ok () ↔
      ∃ alg D, getHashAlg env payload = some alg ∧ getDisclosureClaims env alg ds [] = .ok D ∧
        (digests false (.obj payload) ++ ds.flatMap (valueDigests env false)).Nodup ∧
        (∀ s ∈ ds, Reach false D (digests false (.obj payload)) (env.hash alg s)) ∧
        ∃ w, Resolves false D (.obj payload) w := by
  constructor
  · intro h
    obtain ⟨alg, D, w, st, h1, h2, h2', h3, h4⟩ := verify_core h
    obtain ⟨alg', D', g1, g2, g3, g4, g5⟩ := verify_reach h
    have hd := accepted_digests_distinct h hn hc
    refine ⟨alg, D, h1, h2', hd, ?_, ?_⟩
    · obtain ⟨a1, a2, a3⟩ := disclose_sound _ _ _ _ _ h3 Ext.refl (by simp)
      intro s hs
      obtain ⟨c, hc⟩ := h2.all s hs
      have hnu := h4 (env.hash alg s) (by rw [hc]; rfl)
      have hp := h2.unparsed _ c hc
      obtain ⟨N, n1, n2, n3, n4, n5, n6, n7, n8⟩ := a3
      by_cases hN : env.hash alg s ∈ N
      · exact (n7 _ hN).1
      · exact absurd ⟨c, by rw [n3 _ hN]; exact hc, hp⟩ hnu
    · exact ⟨w, (disclose_sound _ _ _ _ _ h3 Ext.refl (by simp)).1⟩
  · rintro ⟨alg, D, h1, h2, h3, h4, h5⟩
    exact verify_of he hp hn (hc alg) h1 h2 h3 h4 h5

/-! ## The processed claims -/

theorem disclosedClaims_core {env : Env} {ds : List String} {payload out : JObj}
    {order : DMap → List String} (ho : ∀ D, ∀ d ∈ GoMap.keys D, d ∈ order D)
    (h : disclosedClaims env ds payload order = .ok out) :
    ∃ alg D, getHashAlg env payload = some alg ∧ getDisclosureClaims env alg ds [] = .ok D ∧
      Decoded env alg ds D ∧ Resolves true D (.obj payload) (.obj out) := by
  unfold disclosedClaims at h
  cases ha : getHashAlg env payload with
  | none => rw [ha] at h; cases h
  | some alg =>
    rw [ha] at h
    simp only at h
    cases hr : resolveDisclosureClaims env alg ds order with
    | error e => rw [hr] at h; cases h
    | ok D' =>
      rw [hr] at h
      simp only at h
      unfold resolveDisclosureClaims at hr
      cases hg : getDisclosureClaims env alg ds [] with
      | error e => rw [hg] at hr; cases hr
      | ok D =>
        rw [hg] at hr
        simp only at hr
        cases hs : setAll true (2 * weight D + 1) ⟨[], D⟩ (order D) with
        | error e => rw [hs] at hr; cases hr
        | ok st =>
          rw [hs] at hr
          simp only [Except.ok.injEq] at hr
          have hD := decoded_of_ok hg
          obtain ⟨k1, k2⟩ := setAll_result hD.unparsed (ho D) hs
          have hM : ResolvedMap true D D' := by
            intro d
            subst hr
            cases hd : GoMap.get? D d with
            | none =>
              left
              refine ⟨rfl, ?_⟩
              rw [GoMap.get?_eq_none_iff, k1, ← GoMap.get?_eq_none_iff]; exact hd
            | some r =>
              right
              obtain ⟨c, c1, c2, c3, c4, _, c6⟩ := k2 d r hd
              exact ⟨r, c, rfl, c1, hD.unparsed d r hd, c2, c3, c4, c6⟩
          refine ⟨alg, D, rfl, hg, hD, ?_⟩
          unfold getDisclosedClaims at h
          rw [ha] at h
          simp only at h
          split at h
          · cases h
          · next hdis =>
            cases h
            exact resolve_of_resolved hM (disclose_sound _ _ _ _ _ hdis Ext.refl (by simp)).1
          · cases h

/-! ## C10 -/

/-- A disclosed claim: a disclosure whose digest is in the object's `_sd` and which names `k`. -/
def DisclosedAs (D : DMap) (m : JObj) (k : String) (c : Disc) : Prop :=
  ∃ d, d ∈ sdDigests m ∧ GoMap.get? D d = some c ∧ c.elems = 3 ∧ c.name = k

theorem sds_claims {cl : Bool} {D : DMap} {dl : List String} {claims : JObj} {miss : List String}
    (h : Resolve cl D (.sds dl) (.sds claims miss)) :
    (∀ d ∈ dl, ∀ c, GoMap.get? D d = some c → c.elems = 3 ∧
      ∃ w, (c.name, w) ∈ claims ∧ Resolve cl D (.disc d) (.val w)) ∧
    (∀ k w, (k, w) ∈ claims → ∃ d ∈ dl, ∃ c, GoMap.get? D d = some c ∧ c.elems = 3 ∧ c.name = k ∧
      Resolve cl D (.disc d) (.val w)) ∧
    (∀ d, d ∈ miss ↔ d ∈ dl ∧ GoMap.get? D d = none) := by
  induction dl generalizing claims miss with
  | nil => cases h; simp
  | cons d dl ih =>
    cases h with
    | smiss h1 h2 =>
      obtain ⟨i1, i2, i3⟩ := ih h2
      refine ⟨?_, ?_, ?_⟩
      · intro x hx c hc
        rcases List.mem_cons.mp hx with rfl | hx
        · rw [h1] at hc; cases hc
        · exact i1 x hx c hc
      · intro k w hk
        obtain ⟨x, hx, r⟩ := i2 k w hk
        exact ⟨x, by simp [hx], r⟩
      · intro x
        simp only [List.mem_cons, i3]
        constructor
        · rintro (rfl | h)
          · exact ⟨Or.inl rfl, h1⟩
          · exact ⟨Or.inr h.1, h.2⟩
        · rintro ⟨rfl | h, h'⟩
          · exact Or.inl rfl
          · exact Or.inr ⟨h, h'⟩
    | sdisc h1 h2 h3 h4 =>
      obtain ⟨i1, i2, i3⟩ := ih h4
      refine ⟨?_, ?_, ?_⟩
      · intro x hx c hc
        rcases List.mem_cons.mp hx with rfl | hx
        · rw [h1] at hc; cases hc
          exact ⟨h2, _, by simp, h3⟩
        · obtain ⟨a, w, b, e⟩ := i1 x hx c hc
          exact ⟨a, w, by simp [b], e⟩
      · intro k w hk
        rcases List.mem_cons.mp hk with e | hk
        · cases e; exact ⟨d, by simp, _, h1, h2, rfl, h3⟩
        · obtain ⟨x, hx, r⟩ := i2 k w hk
          exact ⟨x, by simp [hx], r⟩
      · intro x
        simp only [List.mem_cons, i3]
        constructor
        · exact fun h => ⟨Or.inr h.1, h.2⟩
        · rintro ⟨rfl | h, h'⟩
          · rw [h1] at h'; cases h'
          · exact ⟨h, h'⟩

theorem fields_get {cl : Bool} {D : DMap} {m fs : JObj}
    (h : Resolve cl D (.fields m) (.fields fs)) :
    ∀ k, ¬ Hidden cl k → match GoMap.get? m k with
      | none => GoMap.get? fs k = none
      | some v => ∃ w, GoMap.get? fs k = some w ∧ Resolves cl D v w := by
  induction m generalizing fs with
  | nil => cases h; intro k _; simp
  | cons p m ih =>
    obtain ⟨k', v⟩ := p
    intro k hk
    cases h with
    | fskip h1 h2 =>
      have : k' ≠ k := fun e => hk (e ▸ h1)
      rw [GoMap.get?_cons, if_neg this]
      exact ih h2 k hk
    | @fcons _ _ w _ fs' h1 h2 h3 =>
      rw [GoMap.get?_cons]
      by_cases e : k' = k
      · rw [if_pos e]; exact ⟨w, by simp [GoMap.get?, e], h2⟩
      · rw [if_neg e]
        have := ih h3 k hk
        rw [GoMap.get?_cons, if_neg e]
        exact this

theorem get?_filter_nonnull (m : JObj) (hw : GoMap.WF m) (k : String) :
    GoMap.get? (m.filter (fun p => !p.2.isNull)) k =
      match GoMap.get? m k with
      | some v => if v.isNull then none else some v
      | none => none := by
  induction m with
  | nil => rfl
  | cons p m ih =>
    obtain ⟨k', v⟩ := p
    have hw' := GoMap.wf_cons.mp hw
    simp only [List.filter_cons]
    by_cases e : k' = k
    · subst e
      cases hv : v.isNull with
      | true =>
        simp only [Bool.not_true, Bool.false_eq_true, if_false]
        rw [ih hw'.2, GoMap.get?_eq_none_iff.mpr hw'.1]
        simp [GoMap.get?, hv]
      | false => simp [GoMap.get?, hv]
    · split
      · rw [GoMap.get?_cons, if_neg e, GoMap.get?_cons, if_neg e, ih hw'.2]
      · rw [GoMap.get?_cons, if_neg e, ih hw'.2]

/-- What a resolved object contains (cleaned up, as given to the relying party). -/
theorem resolved_object {D : DMap} {m out : JObj} (hwf : (GoMap.keys m).Nodup)
    (h : Resolves true D (.obj m) (.obj out)) :
    (∀ k v, ¬ Hidden true k → GoMap.get? m k = some v →
      (∀ c, ¬ DisclosedAs D m k c) ∧
      ∃ w, Resolves true D v w ∧ GoMap.get? out k = if w.isNull then none else some w) ∧
    (∀ k c, DisclosedAs D m k c → ∃ d w, d ∈ sdDigests m ∧ GoMap.get? D d = some c ∧
      Resolve true D (.disc d) (.val w) ∧ GoMap.get? out k = some w) ∧
    (∀ k, (Hidden true k ∨ GoMap.get? m k = none) → (∀ c, ¬ DisclosedAs D m k c) →
      GoMap.get? out k = none) ∧
    (∀ d d' c c', d ∈ sdDigests m → d' ∈ sdDigests m → GoMap.get? D d = some c →
      GoMap.get? D d' = some c' → c.name = c'.name → c = c') := by
  cases h with
  | scalar h => exact absurd h (by simp [Scalar])
  | @obj _ sd claims missing fs h1 h2 h3 h4 h5 =>
    have hsd : sdDigests m = sd := by
      rcases h1 with ⟨a, b⟩ | ⟨v, a, b⟩
      · simp [sdDigests, a, b]
      · simp [sdDigests, a, stringArray_eq b]
    obtain ⟨s1, s2, s3⟩ := sds_claims h2
    have hasm : assemble true claims missing fs = claims ++ fs.filter (fun p => !p.2.isNull) := by
      simp [assemble]
    rw [hasm]
    have hkey : ∀ k, k ∈ GoMap.keys fs → k ∉ GoMap.keys claims := by
      intro k hk
      obtain ⟨p, hp, rfl⟩ := List.mem_map.mp hk
      exact h5 p hp
    have hfsWF : GoMap.WF fs := by
      clear h1 h2 h5 s1 s2 s3 hasm hkey hsd
      induction m generalizing fs with
      | nil => cases h3; exact GoMap.wf_nil
      | cons p m ih =>
        obtain ⟨k', v⟩ := p
        have hk := List.nodup_cons.mp hwf
        cases h3 with
        | fskip _ g => exact ih hk.2 g
        | fcons _ _ g =>
          rw [GoMap.wf_cons]
          exact ⟨fun hm => hk.1 ((fields_keys g k').mp hm).1, ih hk.2 g⟩
    have hdisc : ∀ k, (∃ c, DisclosedAs D m k c) ↔ k ∈ GoMap.keys claims := by
      intro k
      constructor
      · rintro ⟨c, d, hd, hc, he, hn⟩
        rw [hsd] at hd
        obtain ⟨_, w, hw, _⟩ := s1 d hd c hc
        exact List.mem_map.mpr ⟨_, hw, hn⟩
      · intro hk
        obtain ⟨⟨k', w⟩, hp, rfl⟩ := List.mem_map.mp hk
        obtain ⟨d, hd, c, hc, he, hn, _⟩ := s2 _ _ hp
        exact ⟨c, d, by rw [hsd]; exact hd, hc, he, hn⟩
    refine ⟨?_, ?_, ?_, ?_⟩
    · intro k v hk hv
      have hf := fields_get h3 k hk
      rw [hv] at hf
      obtain ⟨w, hw1, hw2⟩ := hf
      have hkc : k ∉ GoMap.keys claims :=
        hkey k (GoMap.get?_isSome_iff.mp (by rw [hw1]; rfl))
      refine ⟨fun c hc => hkc ((hdisc k).mp ⟨c, hc⟩), w, hw2, ?_⟩
      rw [GoMap.get?_append, GoMap.get?_eq_none_iff.mpr hkc, Option.none_or,
        get?_filter_nonnull fs hfsWF, hw1]
    · rintro k c ⟨d, hd, hc, he, hn⟩
      have hd' := hd
      rw [hsd] at hd'
      obtain ⟨_, w, hw, hr⟩ := s1 d hd' c hc
      refine ⟨d, w, hd, hc, hr, ?_⟩
      rw [GoMap.get?_append, ← hn, GoMap.get?_of_mem h4 hw]; rfl
    · intro k hk hno
      have hkc : k ∉ GoMap.keys claims := by
        intro hk
        obtain ⟨c, hc⟩ := (hdisc k).mpr hk
        exact hno c hc
      rw [GoMap.get?_append, GoMap.get?_eq_none_iff.mpr hkc, Option.none_or,
        get?_filter_nonnull fs hfsWF]
      have : GoMap.get? fs k = none := by
        rw [GoMap.get?_eq_none_iff]
        intro hm
        obtain ⟨a, b⟩ := (fields_keys h3 k).mp hm
        rcases hk with hk | hk
        · exact b hk
        · exact (GoMap.get?_eq_none_iff.mp hk) a
      rw [this]
    · intro d d' c c' hd hd' hc hc' hn
      rw [hsd] at hd hd'
      have aux : ∀ dl cl ms, Resolve true D (.sds dl) (.sds cl ms) → (GoMap.keys cl).Nodup →
          d ∈ dl → d' ∈ dl → c = c' := by
        intro dl
        induction dl with
        | nil => intro _ _ _ _ h; cases h
        | cons x dl ih =>
          intro cl ms hR hN hx hx'
          cases hR with
          | smiss g1 g2 =>
            have e1 : d ∈ dl := by
              rcases List.mem_cons.mp hx with rfl | h
              · rw [hc] at g1; cases g1
              · exact h
            have e2 : d' ∈ dl := by
              rcases List.mem_cons.mp hx' with rfl | h
              · rw [hc'] at g1; cases g1
              · exact h
            exact ih _ _ g2 hN e1 e2
          | @sdisc _ c1 _ _ cl' _ g1 g2 g3 g4 =>
            simp only [GoMap.keys, List.map_cons, List.nodup_cons] at hN
            obtain ⟨t1, _, _⟩ := sds_claims g4
            rcases List.mem_cons.mp hx with rfl | hx
            · rw [hc] at g1; cases g1
              rcases List.mem_cons.mp hx' with rfl | hx'
              · rw [hc] at hc'; cases hc'; rfl
              · obtain ⟨_, w, hw, _⟩ := t1 d' hx' c' hc'
                exact absurd (List.mem_map.mpr ⟨_, hw, hn.symm⟩) hN.1
            · rcases List.mem_cons.mp hx' with rfl | hx'
              · rw [hc'] at g1; cases g1
                obtain ⟨_, w, hw, _⟩ := t1 d (by assumption) c hc
                exact absurd (List.mem_map.mpr ⟨_, hw, hn⟩) hN.1
              · exact ih _ _ g4 hN.2 hx hx'
      exact aux sd claims missing h2 h4 hd hd'

/-- **C10.** In the claims returned to the relying party a claim that is in clear in the signed
payload has its own resolved value (a claim resolving to null is left out), no disclosure of the
object bears its name, the disclosed claims have the resolved values of their disclosures, nothing
else is present, and two disclosures of the object never have the same name. -/
theorem disclosed_never_replaces {env : Env} {ds : List String} {payload out : JObj}
    {order : DMap → List String} (ho : ∀ D, ∀ d ∈ GoMap.keys D, d ∈ order D)
    (hwf : (GoMap.keys payload).Nodup) (h : disclosedClaims env ds payload order = .ok out) :
    ∃ alg D, getHashAlg env payload = some alg ∧ Decoded env alg ds D ∧
    (∀ k v, ¬ Hidden true k → GoMap.get? payload k = some v →
      (∀ c, ¬ DisclosedAs D payload k c) ∧
      ∃ w, Resolves true D v w ∧ GoMap.get? out k = if w.isNull then none else some w) ∧
    (∀ k c, DisclosedAs D payload k c → ∃ d w, d ∈ sdDigests payload ∧ GoMap.get? D d = some c ∧
      Resolve true D (.disc d) (.val w) ∧ GoMap.get? out k = some w) ∧
    (∀ k, (Hidden true k ∨ GoMap.get? payload k = none) → (∀ c, ¬ DisclosedAs D payload k c) →
      GoMap.get? out k = none) ∧
    (∀ d d' c c', d ∈ sdDigests payload → d' ∈ sdDigests payload → GoMap.get? D d = some c →
      GoMap.get? D d' = some c' → c.name = c'.name → c = c') := by
  obtain ⟨alg, D, h1, _, h2, h3⟩ := disclosedClaims_core ho h
  exact ⟨alg, D, h1, h2, resolved_object hwf h3⟩

/-! ## C12 -/

mutual
/-- No SD bookkeeping is left at the processed levels: objects have no `_sd`/`_sd_alg` member and
their members are tidy; arrays contain no placeholder. -/
def Tidy : Json → Prop
  | .arr l => ∀ v ∈ l, placeholder? v = none
  | .obj o => TidyObj o
  | _ => True
/-- `Tidy` of all members. -/
def TidyObj : List (String × Json) → Prop
  | [] => True
  | (k, v) :: o => ¬ Hidden true k ∧ Tidy v ∧ TidyObj o
end

theorem tidyObj_iff {o : JObj} : TidyObj o ↔ ∀ p ∈ o, ¬ Hidden true p.1 ∧ Tidy p.2 := by
  induction o with
  | nil => simp [TidyObj]
  | cons p o ih =>
    obtain ⟨k, v⟩ := p
    simp [TidyObj, ih, and_assoc]

/-- No disclosure claims a reserved name or discloses a bare array placeholder. -/
def NoReserved (D : DMap) : Prop :=
  ∀ d c, GoMap.get? D d = some c → c.parsed = false ∧ c.name ≠ "_sd" ∧ c.name ≠ "_sd_alg" ∧
    c.name ≠ "..." ∧ placeholder? c.value = none

theorem resolve_tidy {D : DMap} (hR : NoReserved D) {t : Task} {o : Out}
    (h : Resolve true D t o) :
    match t, o with
    | .val v, .val w => Tidy w ∧ (placeholder? v = none → placeholder? w = none)
    | .disc _, .val w => Tidy w ∧ placeholder? w = none
    | .elems _, .list out => ∀ v ∈ out, placeholder? v = none
    | .sds _, .sds claims _ => ∀ p ∈ claims, ¬ Hidden true p.1 ∧ p.1 ≠ "..." ∧ Tidy p.2
    | .fields m, .fields fs => (∀ p ∈ fs, ¬ Hidden true p.1 ∧ Tidy p.2) ∧
        (GoMap.get? m "..." = none → GoMap.get? fs "..." = none)
    | _, _ => True := by
  induction h with
  | @scalar v hs =>
    cases v with
    | arr l => exact absurd hs (by simp [Scalar])
    | obj m => exact absurd hs (by simp [Scalar])
    | null => exact ⟨by simp [Tidy], fun h => h⟩
    | bool b => exact ⟨by simp [Tidy], fun h => h⟩
    | num b => exact ⟨by simp [Tidy], fun h => h⟩
    | str b => exact ⟨by simp [Tidy], fun h => h⟩
  | arr _ ih =>
    simp only at ih ⊢
    split
    · exact ⟨by simp [Tidy], fun _ => rfl⟩
    · exact ⟨by simpa [Tidy] using ih, fun _ => rfl⟩
  | @obj m sd claims missing fs h1 h2 h3 h4 h5 ih2 ih3 =>
    simp only at ih2 ih3 ⊢
    have hasm : assemble true claims missing fs = claims ++ fs.filter (fun p => !p.2.isNull) := by
      simp [assemble]
    rw [hasm]
    refine ⟨?_, ?_⟩
    · simp only [Tidy]
      rw [tidyObj_iff]
      intro p hp
      rcases List.mem_append.mp hp with hp | hp
      · exact ⟨(ih2 p hp).1, (ih2 p hp).2.2⟩
      · exact ih3.1 p (List.mem_filter.mp hp).1
    · intro hpl
      simp only [placeholder?] at hpl ⊢
      rw [GoMap.get?_eq_none_iff]
      intro hk
      obtain ⟨p, hp, he⟩ := List.mem_map.mp hk
      rcases List.mem_append.mp hp with hp | hp
      · exact (ih2 p hp).2.1 he
      · have := ih3.2 hpl
        rw [GoMap.get?_eq_none_iff] at this
        exact this (List.mem_map.mpr ⟨p, (List.mem_filter.mp hp).1, he⟩)
  | done h1 h2 =>
    rw [(hR _ _ h1).1] at h2; cases h2
  | disc h1 h2 _ ih => exact ⟨ih.1, ih.2 (hR _ _ h1).2.2.2.2⟩
  | enil => simp
  | eplain h1 _ ih =>
    intro v hv
    rcases List.mem_cons.mp hv with rfl | hv
    · exact h1
    · exact ih v hv
  | emiss h1 h2 _ ih => simpa using ih
  | edisc h1 h2 h3 _ _ ih1 ih2 =>
    intro v hv
    rcases List.mem_cons.mp hv with rfl | hv
    · exact ih1.2
    · exact ih2 v hv
  | snil => simp
  | smiss _ _ ih => exact ih
  | sdisc h1 h2 _ _ ih1 ih2 =>
    intro p hp
    rcases List.mem_cons.mp hp with rfl | hp
    · obtain ⟨_, a, b, c, _⟩ := hR _ _ h1
      exact ⟨by simp [Hidden, a, b], c, ih1.1⟩
    · exact ih2 p hp
  | fnil => simp
  | @fskip k v m fs h1 _ ih =>
    refine ⟨ih.1, ?_⟩
    intro hg
    rw [GoMap.get?_cons] at hg
    split at hg
    · cases hg
    · exact ih.2 hg
  | @fcons k v w m fs h1 _ _ ih1 ih2 =>
    refine ⟨?_, ?_⟩
    · intro p hp
      rcases List.mem_cons.mp hp with rfl | hp
      · exact ⟨h1, ih1.1⟩
      · exact ih2.1 p hp
    · intro hg
      rw [GoMap.get?_cons] at hg ⊢
      split at hg
      · cases hg
      · next e => rw [if_neg e]; exact ih2.2 hg

/-- **C12 (partial).** The claims returned to the relying party contain no `_sd`, no `_sd_alg` and no
array placeholder at any processed level, provided no presented disclosure is itself named `_sd`,
`_sd_alg` or `...` or discloses a bare placeholder object.  The code does not reject such
disclosures, see `reserved_name_leaks`; that is what is missing from the full property. -/
theorem processed_claims_tidy_partial {env : Env} {ds : List String} {payload out : JObj}
    {order : DMap → List String} (ho : ∀ D, ∀ d ∈ GoMap.keys D, d ∈ order D)
    (hres : ∀ s ∈ ds, ∀ salt rest, env.decode s = some (.str salt :: rest) →
      (∀ v, rest.getLast? = some v → placeholder? v = none) ∧
      (∀ nm v, rest = [.str nm, v] → nm ≠ "_sd" ∧ nm ≠ "_sd_alg" ∧ nm ≠ "..."))
    (h : disclosedClaims env ds payload order = .ok out) : Tidy (.obj out) := by
  obtain ⟨alg, D, _, hg, hD, hr⟩ := disclosedClaims_core ho h
  have hNR : NoReserved D := by
    intro d c hc
    obtain ⟨s, hs, _, _, hp, salt, rest, hdec, hcase⟩ := hD.from_list d c hc
    rcases hcase with ⟨v, hrest, _, hn, hv⟩ | ⟨nm, v, hrest, _, hn, hv⟩ | ⟨h3, he, hn, hv⟩
    · rw [hn, hv]
      exact ⟨hp, by decide, by decide, by decide,
        (hres s hs salt rest hdec).1 v (by simp [hrest])⟩
    · rw [hn, hv]
      obtain ⟨a, b, e⟩ := (hres s hs salt rest hdec).2 nm v hrest
      exact ⟨hp, a, b, e, (hres s hs salt rest hdec).1 v (by simp [hrest])⟩
    · rw [hn, hv]
      exact ⟨hp, by decide, by decide, by decide, rfl⟩
  exact (resolve_tidy hNR hr).1

end VC.SDJWT
