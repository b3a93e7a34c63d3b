import Verif.SDJWT.Combined
import Verif.SDJWT.DiscloseModel
import Mathlib.Data.List.Nodup
import Mathlib.Data.List.Perm.Basic
/-!
# verifiable: choosing disclosures of an SD-JWT credential (C56)

Models `filterDisclosures`, `filteredDisclosureCodes`, `filterSDJWTVC`, `createSDJWTPresentation`,
`MarshalWithDisclosure`, `filterDisclosureList` and `clearEmpty` of verifiable/credential_sdjwt.go.

Parameters: the two orders in which Go iterates over the maps built by `filterDisclosures`; signing of
a holder binding; creation of an SD-JWT from a plain credential (`makeSDJWT`) and the claims of its
disclosures.
-/

namespace VC.Vfy

open GoMap
open VC.SDJWT (Disc)

/-- `map[string]*common.DisclosureClaim` with nil values. -/
abbrev NameMap := GoMap (Option Disc)

/-- credential_sdjwt.go:224-226. -/
def addNames (m : NameMap) : List String → NameMap
  | [] => m
  | n :: l => addNames (set m n none) l

/-- credential_sdjwt.go:231: the required names are taken out of the optional ones. -/
def delNames (m : NameMap) : List String → NameMap
  | [] => m
  | n :: l => delNames (del m n) l

/-- credential_sdjwt.go:234-242, for one of the two maps. -/
def fillNames (m : NameMap) : List Disc → NameMap
  | [] => m
  | d :: l => fillNames (if (get? m d.name).isSome then set m d.name (some d) else m) l

/-- credential_sdjwt.go:246-250: the values that are not nil. -/
def takeAvailable : NameMap → List Disc
  | [] => []
  | (_, some d) :: l => d :: takeAvailable l
  | (_, none) :: l => takeAvailable l

/-- credential_sdjwt.go:252-258: a nil value is an error. -/
def takeRequired : NameMap → Option (List Disc)
  | [] => some []
  | (_, some d) :: l => (takeRequired l).map (d :: ·)
  | (_, none) :: _ => none

/-- `filterDisclosures`, credential_sdjwt.go:223-267; `ordA` and `ordR` are the orders in which the
two maps are visited. -/
def filterDisclosures (ordA ordR : NameMap → NameMap) (ds : List Disc) (ifAvailable required : List String) :
    Option (List Disc) :=
  (takeRequired (ordR (fillNames (addNames [] required) ds))).map fun r =>
    takeAvailable (ordA (fillNames (delNames (addNames [] ifAvailable) required) ds)) ++ r

/-- `marshalDisclosureOpts`, credential_sdjwt.go:22-31; the holder binding is the outcome of
`holder.CreateHolderVerification`. -/
structure DiscloseOpts where
  ifAvailable : List String
  required : List String
  all : Bool
  binding : Option (Except Unit String)
  signer : Bool

/-- `filteredDisclosureCodes`, credential_sdjwt.go:196-221. -/
def filteredCodes (ordA ordR : NameMap → NameMap) (ds : List Disc) (o : DiscloseOpts) :
    Option (List String) :=
  (if o.all then some ds else filterDisclosures ordA ordR ds o.ifAvailable o.required).map
    (fun l => l.map (·.disclosure))

/-- `filterSDJWTVC`, credential_sdjwt.go:132-157, for a credential with the JWT `jwt`, the disclosures
`ds` and the holder binding `hb` it came with. -/
def filterSDJWT (ordA ordR : NameMap → NameMap) (jwt hb : String) (ds : List Disc) (o : DiscloseOpts) :
    Option String :=
  match filteredCodes ordA ordR ds o with
  | none => none
  | some codes =>
    match o.binding with
    | none => some (SDJWT.Presentation.serialize ⟨jwt, codes, hb⟩)
    | some (.ok b) => some (SDJWT.Presentation.serialize ⟨jwt, codes, b⟩)
    | some (.error _) => none

/-- `createSDJWTPresentation`, credential_sdjwt.go:159-194, after the SD-JWT was issued: `iss` is its
combined format and `claims` the decoded claims of its disclosures. -/
def createSDJWTPresentation (ordA ordR : NameMap → NameMap) (iss : SDJWT.Issuance) (claims : Option (List Disc))
    (o : DiscloseOpts) : Option String :=
  match claims with
  | none => none
  | some ds =>
    match filteredCodes ordA ordR ds o with
    | none => none
    | some codes =>
      match SDJWT.createPresentation iss.serialize codes o.binding with
      | .ok s => some s
      | .error _ => none

/-- `MarshalWithDisclosure`, credential_sdjwt.go:97-130. `sd` is the credential's SD-JWT envelope, if it
has one; `issued` the outcome of issuing an SD-JWT otherwise. -/
def marshalWithDisclosure (ordA ordR : NameMap → NameMap) (sd : Option (String × String × List Disc))
    (issued : Option (SDJWT.Issuance × Option (List Disc))) (o : DiscloseOpts) : Option String :=
  if o.all && (!o.ifAvailable.isEmpty || !o.required.isEmpty) then none
  else match sd with
  | some (jwt, hb, ds) => filterSDJWT ordA ordR jwt hb ds o
  | none =>
    if !o.signer then none
    else match issued with
    | none => none
    | some (iss, claims) => createSDJWTPresentation ordA ordR iss claims o

/-- `filterDisclosureList`, credential_sdjwt.go:575-595. -/
def filterDisclosureList (ds : List Disc) (all : Bool) (given : List String) : List Disc :=
  if all then ds else ds.filter (fun d => given.contains d.name)

/-! `clearEmpty`, credential_sdjwt.go:597-607: object members are cleared in depth, and deleted if
nothing is left of them. Deleting while ranging over a map removes exactly the visited key. -/
mutual
/-- The object after `clearEmpty`. -/
def clearEmpty : List (String × Json) → List (String × Json)
  | [] => []
  | (k, v) :: l =>
    match clearValue v with
    | some v' => (k, v') :: clearEmpty l
    | none => clearEmpty l
/-- One member: `none` if it is deleted. -/
def clearValue : Json → Option Json
  | .obj o =>
    match clearEmpty o with
    | [] => none
    | p :: o' => some (.obj (p :: o'))
  | j => some j
end

/-! ## Specification -/

namespace Spec

/-- `d` is the last disclosure of its name in the list. -/
def LastNamed (ds : List Disc) (d : Disc) : Prop :=
  ∃ l l', ds = l ++ d :: l' ∧ ∀ x ∈ l', x.name ≠ d.name

end Spec

open Spec

/-! ## Lookups -/

theorem get?_addNames (m : NameMap) (l : List String) (n : String) :
    get? (addNames m l) n = if n ∈ l then some none else get? m n := by
  induction l generalizing m with
  | nil => simp [addNames]
  | cons a l ih =>
    rw [addNames, ih]
    by_cases h1 : n ∈ l
    · simp [h1]
    · by_cases h2 : n = a
      · subst h2; simp [h1]
      · rw [if_neg h1, get?_set_ne _ _ (Ne.symm h2), if_neg (by simp [h1, h2])]

theorem get?_delNames (m : NameMap) (l : List String) (n : String) :
    get? (delNames m l) n = if n ∈ l then none else get? m n := by
  induction l generalizing m with
  | nil => simp [delNames]
  | cons a l ih =>
    rw [delNames, ih]
    by_cases h1 : n ∈ l
    · simp [h1]
    · by_cases h2 : n = a
      · subst h2; simp [h1]
      · rw [if_neg h1, get?_del_ne _ (Ne.symm h2), if_neg (by simp [h1, h2])]

/-- The last disclosure of a name. -/
def lastNamed (n : String) : List Disc → Option Disc
  | [] => none
  | d :: l => (lastNamed n l).or (if d.name = n then some d else none)

theorem lastNamed_some (n : String) (ds : List Disc) (d : Disc) :
    lastNamed n ds = some d ↔ d.name = n ∧ LastNamed ds d := by
  induction ds with
  | nil => simp [lastNamed, LastNamed]
  | cons a ds ih =>
    simp only [lastNamed, Option.or_eq_some_iff]
    constructor
    · rintro (h | ⟨h1, h2⟩)
      · obtain ⟨h1, l, l', h2, h3⟩ := ih.1 h
        exact ⟨h1, a :: l, l', by rw [h2]; rfl, h3⟩
      · split at h2
        · rename_i hn
          cases h2
          refine ⟨hn, [], ds, rfl, ?_⟩
          intro x hx hxn
          have key : ∀ ds : List Disc, lastNamed n ds = none → ∀ x ∈ ds, x.name ≠ n := by
            intro ds
            induction ds with
            | nil => intro _ x hx; cases hx
            | cons b ds ih' =>
              intro hnone x hx
              simp only [lastNamed, Option.or_eq_none_iff] at hnone
              rcases List.mem_cons.1 hx with rfl | hx
              · intro e; rw [if_pos e] at hnone; exact absurd hnone.2 (by simp)
              · exact ih' hnone.1 x hx
          exact key ds h1 x hx (hxn.trans hn)
        · cases h2
    · rintro ⟨h1, l, l', h2, h3⟩
      cases l with
      | nil =>
        simp only [List.nil_append, List.cons.injEq] at h2
        obtain ⟨rfl, rfl⟩ := h2
        refine Or.inr ⟨?_, by rw [if_pos h1]⟩
        cases hl : lastNamed n ds with
        | none => rfl
        | some x =>
          exfalso
          have key : ∀ ds : List Disc, ∀ x, lastNamed n ds = some x → x ∈ ds ∧ x.name = n := by
            intro ds
            induction ds with
            | nil => intro x hx; cases hx
            | cons b ds ih' =>
              intro x hx
              simp only [lastNamed, Option.or_eq_some_iff] at hx
              rcases hx with hx | ⟨-, hx⟩
              · exact ⟨List.mem_cons_of_mem _ (ih' x hx).1, (ih' x hx).2⟩
              · split at hx
                · rename_i hb; cases hx; exact ⟨List.mem_cons_self, hb⟩
                · cases hx
          obtain ⟨k1, k2⟩ := key ds x hl
          exact h3 x k1 (k2.trans h1.symm)
      | cons b l =>
        simp only [List.cons_append, List.cons.injEq] at h2
        obtain ⟨rfl, h2⟩ := h2
        exact Or.inl (ih.2 ⟨h1, l, l', h2, h3⟩)

theorem lastNamed_none (n : String) (ds : List Disc) :
    lastNamed n ds = none ↔ ∀ d ∈ ds, d.name ≠ n := by
  induction ds with
  | nil => simp [lastNamed]
  | cons a ds ih =>
    simp only [lastNamed, Option.or_eq_none_iff, ih, List.forall_mem_cons]
    constructor
    · rintro ⟨h1, h2⟩
      refine ⟨?_, h1⟩
      intro e; rw [if_pos e] at h2; cases h2
    · rintro ⟨h1, h2⟩
      exact ⟨h2, by rw [if_neg h1]⟩

theorem get?_fillNames (m : NameMap) (ds : List Disc) (n : String) :
    get? (fillNames m ds) n = (get? m n).map (fun v => (lastNamed n ds).or v) := by
  induction ds generalizing m with
  | nil => simp [fillNames, lastNamed]
  | cons d ds ih =>
    rw [fillNames, ih]
    simp only [lastNamed]
    by_cases h1 : d.name = n
    · cases h2 : get? m n with
      | none => rw [h1, h2]; simp [h2]
      | some v =>
        rw [h1, h2]
        simp only [Option.isSome_some, if_true]
        rw [get?_set_self]
        cases lastNamed n ds <;> simp
    · rw [if_neg h1]
      have : get? (if (get? m d.name).isSome then set m d.name (some d) else m) n = get? m n := by
        split
        · rw [get?_set_ne _ _ h1]
        · rfl
      rw [this]; simp

theorem wf_addNames {m : NameMap} (h : WF m) (l : List String) : WF (addNames m l) := by
  induction l generalizing m with
  | nil => exact h
  | cons a l ih => exact ih (wf_set h _ _)

theorem wf_delNames {m : NameMap} (h : WF m) (l : List String) : WF (delNames m l) := by
  induction l generalizing m with
  | nil => exact h
  | cons a l ih => exact ih (wf_del h _)

theorem wf_fillNames {m : NameMap} (h : WF m) (l : List Disc) : WF (fillNames m l) := by
  induction l generalizing m with
  | nil => exact h
  | cons a l ih =>
    rw [fillNames]
    split
    · exact ih (wf_set h _ _)
    · exact ih h

theorem mem_takeAvailable (m : NameMap) (d : Disc) :
    d ∈ takeAvailable m ↔ ∃ n, (n, some d) ∈ m := by
  induction m with
  | nil => simp [takeAvailable]
  | cons p m ih =>
    obtain ⟨n, v⟩ := p
    cases v with
    | none => simp [takeAvailable, ih]
    | some x =>
      simp only [takeAvailable, List.mem_cons, ih, Prod.mk.injEq, Option.some.injEq]
      constructor
      · rintro (rfl | ⟨n', h⟩)
        · exact ⟨n, Or.inl ⟨rfl, rfl⟩⟩
        · exact ⟨n', Or.inr h⟩
      · rintro ⟨n', ⟨-, rfl⟩ | h⟩
        · exact Or.inl rfl
        · exact Or.inr ⟨n', h⟩

theorem takeRequired_some (m : NameMap) (r : List Disc) :
    takeRequired m = some r ↔ (∀ p ∈ m, p.2 ≠ none) ∧ r = takeAvailable m := by
  induction m generalizing r with
  | nil => simp [takeRequired, takeAvailable, eq_comm]
  | cons p m ih =>
    obtain ⟨n, v⟩ := p
    cases v with
    | none => simp [takeRequired]
    | some x =>
      simp only [takeRequired, takeAvailable, Option.map_eq_some_iff]
      constructor
      · rintro ⟨r', h, rfl⟩
        obtain ⟨h1, rfl⟩ := (ih r').1 h
        refine ⟨?_, rfl⟩
        intro p hp
        rcases List.mem_cons.1 hp with rfl | hp
        · simp
        · exact h1 p hp
      · rintro ⟨h1, rfl⟩
        exact ⟨_, (ih _).2 ⟨fun p hp => h1 p (List.mem_cons_of_mem _ hp), rfl⟩, rfl⟩

/-- In a name map each disclosure sits under its own name. -/
def Named (m : NameMap) : Prop := ∀ n d, (n, some d) ∈ m → d.name = n

theorem takeAvailable_names (m : NameMap) (h : Named m) (hw : WF m) :
    ((takeAvailable m).map (·.name)).Nodup ∧ ∀ d ∈ takeAvailable m, d.name ∈ keys m := by
  induction m with
  | nil => simp [takeAvailable]
  | cons p m ih =>
    obtain ⟨n, v⟩ := p
    obtain ⟨hk, hw'⟩ := wf_cons.1 hw
    have h' : Named m := fun n d hm => h n d (List.mem_cons_of_mem _ hm)
    obtain ⟨i1, i2⟩ := ih h' hw'
    cases v with
    | none =>
      refine ⟨i1, fun d hd => ?_⟩
      exact List.mem_cons_of_mem _ (i2 d hd)
    | some x =>
      have hx : x.name = n := h n x List.mem_cons_self
      simp only [takeAvailable]
      refine ⟨?_, ?_⟩
      · rw [List.map_cons, List.nodup_cons]
        refine ⟨?_, i1⟩
        intro hm
        obtain ⟨d, hd, e⟩ := List.mem_map.1 hm
        have := i2 d hd
        rw [e, hx] at this
        exact hk this
      · intro d hd
        rcases List.mem_cons.1 hd with rfl | hd
        · rw [hx]; simp [keys]
        · exact List.mem_cons_of_mem _ (i2 d hd)

theorem named_of_lookup {m : NameMap} (hw : WF m) (ds : List Disc)
    (h : ∀ n v, get? m n = some v → v = lastNamed n ds) : Named m := by
  intro n d hm
  have := h n _ (get?_of_mem hw hm)
  exact ((lastNamed_some n ds d).1 this.symm).1

theorem perm_named {m m' : NameMap} (h : m'.Perm m) (hn : Named m) : Named m' :=
  fun n d hd => hn n d (h.mem_iff.1 hd)

/-- Lookups in the optional map. -/
theorem get?_availMap (ds : List Disc) (a r : List String) (n : String) :
    get? (fillNames (delNames (addNames [] a) r) ds) n =
      if n ∈ a ∧ n ∉ r then some (lastNamed n ds) else none := by
  rw [get?_fillNames, get?_delNames, get?_addNames]
  by_cases h1 : n ∈ r
  · simp [h1]
  · by_cases h2 : n ∈ a <;> simp [h1, h2]

/-- Lookups in the required map. -/
theorem get?_reqMap (ds : List Disc) (r : List String) (n : String) :
    get? (fillNames (addNames [] r) ds) n = if n ∈ r then some (lastNamed n ds) else none := by
  rw [get?_fillNames, get?_addNames]
  by_cases h2 : n ∈ r <;> simp [h2]

/-- **C56**, the error: choosing fails exactly if some required name has no disclosure. -/
theorem filterDisclosures_none (ordA ordR : NameMap → NameMap) (hR : ∀ m, (ordR m).Perm m)
    (ds : List Disc) (a r : List String) :
    filterDisclosures ordA ordR ds a r = none ↔ ∃ n ∈ r, ∀ d ∈ ds, d.name ≠ n := by
  unfold filterDisclosures
  rw [Option.map_eq_none_iff]
  have hw : WF (fillNames (addNames [] r) ds) := wf_fillNames (wf_addNames wf_nil r) ds
  constructor
  · intro h
    by_contra hc
    push Not at hc
    have : takeRequired (ordR (fillNames (addNames [] r) ds)) =
        some (takeAvailable (ordR (fillNames (addNames [] r) ds))) := by
      refine (takeRequired_some _ _).2 ⟨?_, rfl⟩
      intro p hp hn
      have hp := (hR _).mem_iff.1 hp
      have hg := get?_of_mem (k := p.1) (v := p.2) hw hp
      rw [get?_reqMap] at hg
      split at hg
      · rename_i hm
        obtain ⟨d, hd, e⟩ := hc _ hm
        rw [hn] at hg
        exact (lastNamed_none _ ds).1 (Option.some.inj hg) d hd e
      · cases hg
    rw [h] at this; cases this
  · rintro ⟨n, hn, hd⟩
    cases ht : takeRequired (ordR (fillNames (addNames [] r) ds)) with
    | none => rfl
    | some l =>
      exfalso
      have h1 := ((takeRequired_some _ _).1 ht).1
      have hg := get?_reqMap ds r n
      rw [if_pos hn, (lastNamed_none n ds).2 hd] at hg
      exact h1 (n, none) ((hR _).mem_iff.2 (mem_of_get? hg)) rfl

/-- **C56**: what is chosen, if choosing succeeds: of each requested name the last disclosure of that
name, each name once, whatever the iteration orders. -/
theorem filterDisclosures_some (ordA ordR : NameMap → NameMap) (hA : ∀ m, (ordA m).Perm m)
    (hR : ∀ m, (ordR m).Perm m) (ds : List Disc) (a r : List String) (out : List Disc)
    (h : filterDisclosures ordA ordR ds a r = some out) :
    (∀ d, d ∈ out ↔ (d.name ∈ a ∨ d.name ∈ r) ∧ LastNamed ds d) ∧ (out.map (·.name)).Nodup := by
  unfold filterDisclosures at h
  obtain ⟨req, hreq, rfl⟩ := Option.map_eq_some_iff.1 h
  obtain ⟨h1, rfl⟩ := (takeRequired_some _ _).1 hreq
  have hwR : WF (fillNames (addNames [] r) ds) := wf_fillNames (wf_addNames wf_nil r) ds
  have hwA : WF (fillNames (delNames (addNames [] a) r) ds) :=
    wf_fillNames (wf_delNames (wf_addNames wf_nil a) r) ds
  have hnR : Named (fillNames (addNames [] r) ds) := named_of_lookup hwR ds (by
    intro n v hv
    rw [get?_reqMap] at hv
    split at hv
    · exact (Option.some.inj hv).symm
    · cases hv)
  have hnA : Named (fillNames (delNames (addNames [] a) r) ds) := named_of_lookup hwA ds (by
    intro n v hv
    rw [get?_availMap] at hv
    split at hv
    · exact (Option.some.inj hv).symm
    · cases hv)
  have mR : ∀ d, d ∈ takeAvailable (ordR (fillNames (addNames [] r) ds)) ↔
      d.name ∈ r ∧ LastNamed ds d := by
    intro d
    rw [mem_takeAvailable]
    constructor
    · rintro ⟨n, hn⟩
      have hn := (hR _).mem_iff.1 hn
      have hg := get?_of_mem hwR hn
      rw [get?_reqMap] at hg
      split at hg
      · rename_i hm
        obtain ⟨e, hl⟩ := (lastNamed_some n ds d).1 (Option.some.inj hg)
        exact ⟨by rw [e]; exact hm, hl⟩
      · cases hg
    · rintro ⟨h1, h2⟩
      refine ⟨d.name, (hR _).mem_iff.2 (mem_of_get? ?_)⟩
      rw [get?_reqMap, if_pos h1, (lastNamed_some d.name ds d).2 ⟨rfl, h2⟩]
  have mA : ∀ d, d ∈ takeAvailable (ordA (fillNames (delNames (addNames [] a) r) ds)) ↔
      (d.name ∈ a ∧ d.name ∉ r) ∧ LastNamed ds d := by
    intro d
    rw [mem_takeAvailable]
    constructor
    · rintro ⟨n, hn⟩
      have hn := (hA _).mem_iff.1 hn
      have hg := get?_of_mem hwA hn
      rw [get?_availMap] at hg
      split at hg
      · rename_i hm
        obtain ⟨e, hl⟩ := (lastNamed_some n ds d).1 (Option.some.inj hg)
        exact ⟨by rw [e]; exact hm, hl⟩
      · cases hg
    · rintro ⟨h1, h2⟩
      refine ⟨d.name, (hA _).mem_iff.2 (mem_of_get? ?_)⟩
      rw [get?_availMap, if_pos h1, (lastNamed_some d.name ds d).2 ⟨rfl, h2⟩]
  refine ⟨?_, ?_⟩
  · intro d
    rw [List.mem_append, mA, mR]
    by_cases hr : d.name ∈ r
    · simp [hr]
    · simp [hr]
  · rw [List.map_append, List.nodup_append]
    have wA' : WF (ordA (fillNames (delNames (addNames [] a) r) ds)) :=
      ((hA _).map Prod.fst).nodup_iff.2 hwA
    have wR' : WF (ordR (fillNames (addNames [] r) ds)) := ((hR _).map Prod.fst).nodup_iff.2 hwR
    refine ⟨(takeAvailable_names _ (perm_named (hA _) hnA) wA').1,
      (takeAvailable_names _ (perm_named (hR _) hnR) wR').1, ?_⟩
    intro x hx y hy e
    obtain ⟨d, hd, rfl⟩ := List.mem_map.1 hx
    obtain ⟨d', hd', rfl⟩ := List.mem_map.1 hy
    have k1 := ((mA d).1 hd).1.2
    have k2 := ((mR d').1 hd').1
    rw [← e] at k2
    exact k1 k2

end VC.Vfy
