import Verif.Verifiable.Disclosure
import Verif.Verifiable.Parse
import Verif.SDJWT.VerifierModel
/-!
# verifiable: choosing disclosures — main theorems (C56, C70)

* C56: `marshal_sdjwt_iff`, `marshal_sdjwt_discloses`, `marshal_plain_discloses`.
* C70: `display_list_iff`, `clearEmpty_leaves`, `clearEmpty_noEmpty`, `display_map_partial`, and the gap
  `display_shows_nested`.
-/

namespace VC.Vfy

open GoMap
open VC.SDJWT (Disc DMap)
open Spec

namespace Spec

/-- The disclosure `d` is asked for. -/
def Requested (o : DiscloseOpts) (d : Disc) : Prop := d.name ∈ o.ifAvailable ∨ d.name ∈ o.required

/-- A required name for which there is nothing to disclose. -/
def RequiredMissing (o : DiscloseOpts) (ds : List Disc) : Prop := ∃ n ∈ o.required, ∀ d ∈ ds, d.name ≠ n

/-- `DiscloseAll` together with names. -/
def Conflict (o : DiscloseOpts) : Prop := o.all = true ∧ (o.ifAvailable ≠ [] ∨ o.required ≠ [])

/-- The disclosures handed over: all of them, or of each requested name the last one. -/
def Chosen (o : DiscloseOpts) (ds : List Disc) (codes : List String) : Prop :=
  if o.all = true then codes = ds.map (·.disclosure)
  else ∃ out : List Disc, codes = out.map (·.disclosure) ∧ (out.map (·.name)).Nodup ∧
    ∀ d, d ∈ out ↔ Requested o d ∧ LastNamed ds d

end Spec

variable (ordA ordR : NameMap → NameMap)

theorem conflict_iff (o : DiscloseOpts) :
    (o.all && (!o.ifAvailable.isEmpty || !o.required.isEmpty)) = true ↔ Conflict o := by
  unfold Conflict
  simp only [Bool.and_eq_true, Bool.or_eq_true, Bool.not_eq_true', ne_eq]
  constructor
  · rintro ⟨h1, h2 | h2⟩
    · exact ⟨h1, Or.inl (by intro e; rw [e] at h2; cases h2)⟩
    · exact ⟨h1, Or.inr (by intro e; rw [e] at h2; cases h2)⟩
  · rintro ⟨h1, h2 | h2⟩
    · exact ⟨h1, Or.inl (by cases h : o.ifAvailable <;> simp_all)⟩
    · exact ⟨h1, Or.inr (by cases h : o.required <;> simp_all)⟩

theorem filteredCodes_none (hR : ∀ m, (ordR m).Perm m) (ds : List Disc) (o : DiscloseOpts) :
    filteredCodes ordA ordR ds o = none ↔ o.all = false ∧ RequiredMissing o ds := by
  unfold filteredCodes
  cases ho : o.all with
  | true => simp
  | false =>
    simp only [Bool.false_eq_true, if_false, true_and, Option.map_eq_none_iff]
    exact filterDisclosures_none ordA ordR hR ds _ _

theorem filteredCodes_some (hA : ∀ m, (ordA m).Perm m) (hR : ∀ m, (ordR m).Perm m) (ds : List Disc)
    (o : DiscloseOpts) (codes : List String) (h : filteredCodes ordA ordR ds o = some codes) :
    Chosen o ds codes := by
  unfold filteredCodes at h
  unfold Chosen
  cases ho : o.all with
  | true =>
    rw [ho] at h
    exact (Option.some.inj h).symm
  | false =>
    rw [ho] at h
    obtain ⟨out, h1, h2⟩ := Option.map_eq_some_iff.1 h
    obtain ⟨h3, h4⟩ := filterDisclosures_some ordA ordR hA hR ds _ _ out h1
    rw [if_neg (by simp)]
    exact ⟨out, h2.symm, h4, h3⟩

/-- **C56**: for an SD-JWT credential, `MarshalWithDisclosure` fails exactly on conflicting options, a
required name without a disclosure, or a holder binding that cannot be made. -/
theorem marshal_sdjwt_iff (hR : ∀ m, (ordR m).Perm m) (jwt hb : String) (ds : List Disc)
    (issued : Option (SDJWT.Issuance × Option (List Disc))) (o : DiscloseOpts) :
    marshalWithDisclosure ordA ordR (some (jwt, hb, ds)) issued o = none ↔
      Conflict o ∨ (o.all = false ∧ RequiredMissing o ds) ∨ o.binding = some (.error ()) := by
  unfold marshalWithDisclosure
  by_cases hc : Conflict o
  · rw [if_pos ((conflict_iff o).2 hc)]; simp [hc]
  · rw [if_neg (fun h => hc ((conflict_iff o).1 h))]
    simp only [hc, false_or]
    unfold filterSDJWT
    cases hf : filteredCodes ordA ordR ds o with
    | none => simp [(filteredCodes_none ordA ordR hR ds o).1 hf]
    | some codes =>
      have : ¬ (o.all = false ∧ RequiredMissing o ds) := by
        intro hx
        rw [(filteredCodes_none ordA ordR hR ds o).2 hx] at hf; cases hf
      simp only [this, false_or]
      cases hb : o.binding with
      | none => simp
      | some b =>
        cases b with
        | ok b => simp
        | error u => simp

/-- **C56**: the text `MarshalWithDisclosure` returns for an SD-JWT credential is the issuer's JWT with
exactly the chosen disclosures and the new holder binding, or else the old one. -/
theorem marshal_sdjwt_discloses (hA : ∀ m, (ordA m).Perm m) (hR : ∀ m, (ordR m).Perm m)
    (jwt hb : String) (ds : List Disc) (issued : Option (SDJWT.Issuance × Option (List Disc)))
    (o : DiscloseOpts) (s : String)
    (h : marshalWithDisclosure ordA ordR (some (jwt, hb, ds)) issued o = some s)
    (hj : NoChar '~' jwt) (hd : ∀ d ∈ ds, NoChar '~' d.disclosure) (hh : NoChar '~' hb)
    (hb' : ∀ b, o.binding = some (.ok b) → NoChar '~' b) :
    ∃ codes b, SDJWT.parsePresentation s = ⟨jwt, codes, b⟩ ∧ Chosen o ds codes ∧
      (o.binding = none → b = hb) ∧ (∀ x, o.binding = some x → x = .ok b) := by
  unfold marshalWithDisclosure at h
  split at h
  · cases h
  · simp only at h
    unfold filterSDJWT at h
    cases hf : filteredCodes ordA ordR ds o with
    | none => rw [hf] at h; cases h
    | some codes =>
      rw [hf] at h
      simp only at h
      have hch := filteredCodes_some ordA ordR hA hR ds o codes hf
      have hnc : ∀ c ∈ codes, NoChar '~' c := by
        intro c hc
        unfold Chosen at hch
        split at hch
        · rw [hch] at hc
          obtain ⟨d, hd', rfl⟩ := List.mem_map.1 hc
          exact hd d hd'
        · obtain ⟨out, e, -, hm⟩ := hch
          rw [e] at hc
          obtain ⟨d, hd', rfl⟩ := List.mem_map.1 hc
          obtain ⟨-, l, l', e', -⟩ := (hm d).1 hd'
          exact hd d (by rw [e']; simp)
      cases hbd : o.binding with
      | none =>
        rw [hbd] at h
        cases h
        exact ⟨codes, hb, SDJWT.presentation_round_trip ⟨jwt, codes, hb⟩ hj hnc hh, hch, fun _ => rfl,
          fun x hx => by cases hx⟩
      | some b =>
        rw [hbd] at h
        cases b with
        | error u => cases h
        | ok b =>
          cases h
          exact ⟨codes, b, SDJWT.presentation_round_trip ⟨jwt, codes, b⟩ hj hnc (hb' b hbd), hch,
            fun e => (by cases e), fun x hx => (by cases hx; rfl)⟩

/-- **C56** for a credential that is not an SD-JWT: it is issued as one first; what is returned is that
SD-JWT with exactly the chosen disclosures. -/
theorem marshal_plain_discloses (hA : ∀ m, (ordA m).Perm m) (hR : ∀ m, (ordR m).Perm m)
    (iss : SDJWT.Issuance) (ds : List Disc) (o : DiscloseOpts) (s : String)
    (h : marshalWithDisclosure ordA ordR none (some (iss, some ds)) o = some s)
    (hj : NoChar '~' iss.sdJWT) (hd : ∀ d ∈ iss.disclosures, NoChar '~' d)
    (hb' : ∀ b, o.binding = some (.ok b) → NoChar '~' b) :
    o.signer = true ∧ ∃ codes, SDJWT.parsePresentation s = ⟨iss.sdJWT, codes, SDJWT.hbString o.binding⟩ ∧
      Chosen o ds codes ∧ ∀ c ∈ codes, c ∈ iss.disclosures := by
  unfold marshalWithDisclosure at h
  split at h
  · cases h
  · simp only at h
    split at h
    · cases h
    · rename_i hs
      refine ⟨by simpa using hs, ?_⟩
      unfold createSDJWTPresentation at h
      simp only at h
      cases hf : filteredCodes ordA ordR ds o with
      | none => rw [hf] at h; cases h
      | some codes =>
        rw [hf] at h
        simp only at h
        cases hp : SDJWT.createPresentation iss.serialize codes o.binding with
        | error e => rw [hp] at h; cases h
        | ok t =>
          rw [hp] at h
          cases h
          obtain ⟨k1, k2⟩ := SDJWT.holder_discloses_exactly iss.serialize codes o.binding hb'
          have hrt := SDJWT.issuance_round_trip iss hj hd
          refine ⟨codes, ?_, filteredCodes_some ordA ordR hA hR ds o codes hf, ?_⟩
          · rw [k1 _ hp, hrt]
          · have := (k2.1 ⟨_, hp⟩).2.1
            rw [hrt] at this
            exact this

/-! ## Display credentials (C70) -/

namespace Spec

/-- `v` is a value that is not an object, reached in `m` by the object member names `p`. -/
inductive LeafAt : List (String × Json) → List String → Json → Prop
  | here {m k v} (h : (k, v) ∈ m) (hv : ∀ o, v ≠ .obj o) : LeafAt m [k] v
  | there {m k o p v} (h : (k, .obj o) ∈ m) (hp : LeafAt o p v) : LeafAt m (k :: p) v

/-- No member, at any depth of nested objects, is an empty object. -/
inductive NoEmpty : List (String × Json) → Prop
  | mk {m} (h : ∀ k o, (k, Json.obj o) ∈ m → o ≠ []) (hr : ∀ k o, (k, Json.obj o) ∈ m → NoEmpty o) :
      NoEmpty m

end Spec

theorem mem_clearEmpty (m : List (String × Json)) (k : String) (v' : Json) :
    (k, v') ∈ clearEmpty m ↔ ∃ v, (k, v) ∈ m ∧ clearValue v = some v' := by
  induction m with
  | nil => simp [clearEmpty]
  | cons p m ih =>
    obtain ⟨k0, v0⟩ := p
    simp only [clearEmpty]
    cases hc : clearValue v0 with
    | none =>
      simp only [ih, List.mem_cons, Prod.mk.injEq]
      constructor
      · rintro ⟨v, h1, h2⟩; exact ⟨v, Or.inr h1, h2⟩
      · rintro ⟨v, ⟨-, rfl⟩ | h1, h2⟩
        · rw [hc] at h2; cases h2
        · exact ⟨v, h1, h2⟩
    | some w =>
      simp only [List.mem_cons, Prod.mk.injEq, ih]
      constructor
      · rintro (⟨rfl, rfl⟩ | ⟨v, h1, h2⟩)
        · exact ⟨v0, Or.inl ⟨rfl, rfl⟩, hc⟩
        · exact ⟨v, Or.inr h1, h2⟩
      · rintro ⟨v, ⟨rfl, rfl⟩ | h1, h2⟩
        · rw [hc] at h2; cases h2; exact Or.inl ⟨rfl, rfl⟩
        · exact Or.inr ⟨v, h1, h2⟩

theorem clearValue_leaf {v : Json} (h : ∀ o, v ≠ .obj o) : clearValue v = some v := by
  cases v with
  | obj o => exact absurd rfl (h o)
  | _ => rfl

theorem clearValue_obj (o : List (String × Json)) (v' : Json) :
    clearValue (.obj o) = some v' ↔ clearEmpty o ≠ [] ∧ v' = .obj (clearEmpty o) := by
  simp only [clearValue]
  cases hc : clearEmpty o with
  | nil => simp
  | cons p l => simp [eq_comm]

/-- **C70**: clearing keeps every value that is not an object, where it is, and adds none. -/
theorem clearEmpty_leaves (m : List (String × Json)) (p : List String) (v : Json) :
    LeafAt (clearEmpty m) p v ↔ LeafAt m p v := by
  induction p generalizing m with
  | nil => constructor <;> intro h <;> cases h
  | cons k p ih =>
    constructor
    · intro h
      cases h with
      | here h hv =>
        obtain ⟨w, h1, h2⟩ := (mem_clearEmpty m k v).1 h
        cases w with
        | obj o => exact absurd ((clearValue_obj o v).1 h2).2 (hv _)
        | _ => cases h2; exact .here h1 hv
      | there h hp =>
        rename_i o
        obtain ⟨w, h1, h2⟩ := (mem_clearEmpty m k _).1 h
        cases w with
        | obj o' =>
          obtain ⟨-, e⟩ := (clearValue_obj o' _).1 h2
          have e := Json.obj.inj e
          rw [e] at hp
          exact .there h1 ((ih o').1 hp)
        | _ => cases h2
    · intro h
      cases h with
      | here h hv => exact .here ((mem_clearEmpty m k v).2 ⟨v, h, clearValue_leaf hv⟩) hv
      | there h hp =>
        rename_i o
        have hp' := (ih o).2 hp
        refine .there ((mem_clearEmpty m k _).2 ⟨_, h, (clearValue_obj o _).2 ⟨?_, rfl⟩⟩) hp'
        intro e
        rw [e] at hp'
        cases hp' with
        | here h => cases h
        | there h => cases h

theorem clear_noEmpty (n : Nat) : ∀ m : List (String × Json), sizeOf m < n → NoEmpty (clearEmpty m) := by
  induction n with
  | zero => intro m h; omega
  | succ n ih =>
    intro m hn
    have key : ∀ k o, (k, Json.obj o) ∈ clearEmpty m → o ≠ [] ∧ NoEmpty o := ?_
    · exact .mk (fun k o h => (key k o h).1) (fun k o h => (key k o h).2)
    intro k o hm
    obtain ⟨w, h1, h2⟩ := (mem_clearEmpty m k _).1 hm
    cases w with
    | obj o' =>
      obtain ⟨h3, e⟩ := (clearValue_obj o' _).1 h2
      have e := Json.obj.inj e
      rw [e]
      refine ⟨h3, ih o' ?_⟩
      have h4 := List.sizeOf_lt_of_mem h1
      have h5 : sizeOf (k, Json.obj o') = 1 + sizeOf k + sizeOf (Json.obj o') := rfl
      have h6 : sizeOf (Json.obj o') = 1 + sizeOf o' := by simp
      omega
    | _ => cases h2

/-- **C70**: no empty object is left. -/
theorem clearEmpty_noEmpty (m : List (String × Json)) : NoEmpty (clearEmpty m) :=
  clear_noEmpty _ m (Nat.lt_succ_self _)

/-- **C70**: without `DisplayAllDisclosures` the disclosures used are exactly those with a given name,
in their order. -/
theorem display_list_iff (ds : List Disc) (all : Bool) (given : List String) :
    (filterDisclosureList ds all given).Sublist ds ∧
    ∀ d, d ∈ filterDisclosureList ds all given ↔ d ∈ ds ∧ (all = true ∨ d.name ∈ given) := by
  unfold filterDisclosureList
  cases all with
  | true => simp
  | false => simp

/-- The digest map of the displayed disclosures, credential_sdjwt.go:512 with common.go:361-365: the
disclosures of a credential have distinct digests (their map key). -/
def displayDiscs (D : DMap) (all : Bool) (given : List String) : DMap :=
  if all then D else D.filter (fun p => given.contains p.2.name)

/-- The end of `CreateDisplayCredentialMap`, credential_sdjwt.go:563-569. -/
def clearSubject (o : JObj) : JObj :=
  match get? o "credentialSubject" with
  | some (.obj s) => set o "credentialSubject" (.obj (clearEmpty s))
  | _ => o

/-- `CreateDisplayCredentialMap`, credential_sdjwt.go:532-573, on the refined claims of the credential's
JWT (`claims`) and its disclosures; `none` is an error. -/
def displayMap (env : SDJWT.Env) (json claims : JObj) (sd : Bool) (D : DMap) (all : Bool)
    (given : List String) : Option JObj :=
  if all && !given.isEmpty then none
  else if !sd then some json
  else match SDJWT.getDisclosedClaims env (displayDiscs D all given) claims with
  | .error _ => none
  | .ok o => some (clearSubject o)

/-- **C70 (partial)**: the display map of an SD-JWT credential is what its claims disclose with the
selected disclosures, where the subject loses its empty objects and nothing else.

Missing: that a nested disclosure is shown only if it is selected too (`display_shows_nested`). -/
theorem display_map_partial (env : SDJWT.Env) (json claims : JObj) (D : DMap) (all : Bool)
    (given : List String) (out : JObj) (h : displayMap env json claims true D all given = some out) :
    (all = true → given = []) ∧ ∃ shown o, shown.Sublist D ∧
      (∀ p, p ∈ shown ↔ p ∈ D ∧ (all = true ∨ p.2.name ∈ given)) ∧
      SDJWT.getDisclosedClaims env shown claims = .ok o ∧
      (∀ k, k ≠ "credentialSubject" → get? out k = get? o k) ∧
      (∀ s, get? o "credentialSubject" = some (.obj s) →
        ∃ s', get? out "credentialSubject" = some (.obj s') ∧ NoEmpty s' ∧
          ∀ p v, LeafAt s' p v ↔ LeafAt s p v) ∧
      ((∀ s, get? o "credentialSubject" ≠ some (.obj s)) →
        get? out "credentialSubject" = get? o "credentialSubject") := by
  unfold displayMap at h
  split at h
  · cases h
  · rename_i hc
    refine ⟨?_, ?_⟩
    · intro ha
      rw [ha] at hc
      cases given with
      | nil => rfl
      | cons a l => exact absurd rfl hc
    · simp only [Bool.not_true, Bool.false_eq_true, if_false] at h
      cases hg : SDJWT.getDisclosedClaims env (displayDiscs D all given) claims with
      | error e => rw [hg] at h; cases h
      | ok o =>
        rw [hg] at h
        have h := Option.some.inj h
        have hsub : (displayDiscs D all given).Sublist D ∧
            ∀ p, p ∈ displayDiscs D all given ↔ p ∈ D ∧ (all = true ∨ p.2.name ∈ given) := by
          unfold displayDiscs
          cases all with
          | true => simp
          | false => simp
        refine ⟨_, o, hsub.1, hsub.2, hg, ?_, ?_, ?_⟩
        · intro k hk
          rw [← h]; unfold clearSubject
          split
          · rw [get?_set_ne _ _ (Ne.symm hk)]
          · rfl
        · intro s hs
          refine ⟨clearEmpty s, ?_, clearEmpty_noEmpty s, clearEmpty_leaves s⟩
          rw [← h]; unfold clearSubject
          rw [hs]
          simp only [get?_set_self]
        · intro hs
          rw [← h]; unfold clearSubject
          split
          · rename_i s hs'; exact absurd hs' (hs s)
          · rfl

end VC.Vfy
