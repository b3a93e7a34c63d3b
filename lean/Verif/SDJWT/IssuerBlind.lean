import Verif.SDJWT.IssuerSpec
/-!
# Blinded values

`Bl env h t w decs`: the JSON value `w` is the annotated tree `t` with selectively disclosable parts
replaced by their digests; `decs` are the additional (decoy) digests in it or in its disclosures.
The two issuers (V2, V5) are shown to produce such values; this file shows what the disclosure
processing makes of them.
-/

namespace VC.SDJWT
open List

/-- Array element as written in the token. -/
def blindElem (h : String → String) : Option String × Json → Json
  | (none, v) => v
  | (some s, _) => .obj [("...", .str (h s))]

/-- The bookkeeping members `_sd` (listing the digests `sd`) and `_sd_alg`. -/
def HidOk (hid : JObj) (sd : List String) : Prop :=
  ∃ a b, hid = a ++ b ∧
    ((a = [] ∧ sd = []) ∨ ∃ v, a = [("_sd", v)] ∧ stringArray v = some sd) ∧
    (b = [] ∨ ∃ s, b = [("_sd_alg", .str s)])

mutual
/-- `w` is `t` with disclosable parts replaced by digests. -/
def Bl (env : Env) (h : String → String) : Node → Json → List String → Prop
  | .plain v, w, decs => w = v ∧ decs = []
  | .arr l, w, decs => decs = [] ∧
      w = (if l = [] then .null else .arr (l.map (blindElem h))) ∧
      ∀ s v, (some s, v) ∈ l → ∃ salt, env.decode s = some [.str salt, v]
  | .obj ms, w, decs => ∃ f hid sd lv dn dl, w = .obj (f ++ hid) ∧ BlM env h ms f lv dn ∧
      HidOk hid sd ∧ sd.Perm (lv.map h ++ dl) ∧ decs = dl ++ dn
/-- `f`: the clear members; `lv`: the disclosures of the other members. -/
def BlM (env : Env) (h : String → String) :
    Members → JObj → List String → List String → Prop
  | .nil, f, lv, dn => f = [] ∧ lv = [] ∧ dn = []
  | .cons k none t ms, f, lv, dn => ∃ w f' d1 d2, f = (k, w) :: f' ∧ Bl env h t w d1 ∧
      BlM env h ms f' lv d2 ∧ dn = d1 ++ d2
  | .cons k (some s) t ms, f, lv, dn => ∃ w salt lv' d1 d2, lv = s :: lv' ∧
      env.decode s = some [.str salt, .str k, w] ∧ Bl env h t w d1 ∧
      BlM env h ms f lv' d2 ∧ dn = d1 ++ d2
end

/-! ## Digests -/

theorem strings_elems {l : List Json} {sd : List String} (h : strings? l = some sd) :
    l.filterMap Json.asStr? = sd := by
  induction l generalizing sd with
  | nil => simp [strings?] at h; simp [h]
  | cons v l ih =>
    cases v <;> simp [strings?] at h
    obtain ⟨sd', h1, rfl⟩ := h
    simp [Json.asStr?, ih h1]

theorem stringArray_elems {v : Json} {sd : List String} (h : stringArray v = some sd) :
    strElems v = sd := by
  cases v <;> simp [stringArray] at h
  · subst h; rfl
  · exact strings_elems h

mutual
theorem digests_unreserved (cl : Bool) : ∀ v, Unreserved v → digests cl v = []
  | .null, _ => rfl
  | .bool _, _ => rfl
  | .num _, _ => rfl
  | .str _, _ => rfl
  | .arr l, h => by
    simp only [Unreserved] at h
    simp only [digests]
    exact arrDigests_unreserved l h
  | .obj m, h => by
    simp only [Unreserved] at h
    obtain ⟨h1, h2⟩ := fieldDigests_unreserved cl m h
    simp only [digests, h1, List.append_nil, sdDigests, h2 "_sd" (Or.inl rfl)]
theorem fieldDigests_unreserved (cl : Bool) : ∀ m, UnreservedObj m →
    fieldDigests cl m = [] ∧ ∀ k, (k = "_sd" ∨ k = "_sd_alg" ∨ k = "...") → GoMap.get? m k = none
  | [], _ => ⟨rfl, fun _ _ => rfl⟩
  | (k, v) :: m, h => by
    simp only [UnreservedObj] at h
    obtain ⟨h1, h2⟩ := fieldDigests_unreserved cl m h.2.2
    refine ⟨?_, ?_⟩
    · simp only [fieldDigests, h1, List.append_nil, digests_unreserved cl v h.2.1]
      split <;> rfl
    · intro k' hk'
      rw [GoMap.get?_cons]
      have : k ≠ k' := by
        rcases hk' with rfl | rfl | rfl
        · exact h.1.1
        · exact h.1.2.1
        · exact h.1.2.2
      rw [if_neg this, h2 k' hk']
theorem arrDigests_unreserved : ∀ l, UnreservedArr l → arrDigests l = []
  | [], _ => rfl
  | v :: l, h => by
    simp only [UnreservedArr] at h
    have hl := arrDigests_unreserved l h.2
    have hp : placeholder? v = none := by
      cases v with
      | obj m =>
        have hv := h.1
        simp only [Unreserved] at hv
        exact (fieldDigests_unreserved true m hv).2 "..." (by simp)
      | _ => rfl
    simp only [arrDigests] at hl ⊢
    simp only [List.filterMap_cons, hp, Option.bind_none]
    exact hl
end

theorem placeholder_unreserved {v : Json} (h : Unreserved v) : placeholder? v = none := by
  cases v with
  | obj m =>
    simp only [Unreserved] at h
    exact (fieldDigests_unreserved true m h).2 "..." (by simp)
  | _ => rfl

theorem fieldDigests_append (cl : Bool) (a b : JObj) :
    fieldDigests cl (a ++ b) = fieldDigests cl a ++ fieldDigests cl b := by
  induction a with
  | nil => rfl
  | cons p a ih => obtain ⟨k, v⟩ := p; simp only [List.cons_append, fieldDigests, ih, List.append_assoc]

theorem HidOk.fieldDigests {hid : JObj} {sd : List String} (h : HidOk hid sd) (cl : Bool) :
    fieldDigests cl hid = [] := by
  obtain ⟨a, b, rfl, h1, h2⟩ := h
  rw [fieldDigests_append]
  have e1 : SDJWT.fieldDigests cl a = [] := by
    rcases h1 with ⟨rfl, _⟩ | ⟨v, rfl, _⟩
    · rfl
    · simp [SDJWT.fieldDigests, Hidden]
  have e2 : SDJWT.fieldDigests cl b = [] := by
    rcases h2 with rfl | ⟨s, rfl⟩
    · rfl
    · simp [SDJWT.fieldDigests, digests]
  rw [e1, e2]; rfl

theorem HidOk.get_sd {hid : JObj} {sd : List String} (h : HidOk hid sd) :
    (GoMap.get? hid "_sd" = none ∧ sd = []) ∨
      ∃ v, GoMap.get? hid "_sd" = some v ∧ stringArray v = some sd := by
  obtain ⟨a, b, rfl, h1, h2⟩ := h
  have hb : GoMap.get? b "_sd" = none := by
    rcases h2 with rfl | ⟨s, rfl⟩
    · rfl
    · simp [GoMap.get?_cons]
  rcases h1 with ⟨rfl, h1⟩ | ⟨v, rfl, h1⟩
  · exact Or.inl ⟨by simpa using hb, h1⟩
  · exact Or.inr ⟨v, by simp [GoMap.get?_cons], h1⟩

/-- Keys of the clear members. -/
theorem BlM.keys {env : Env} {h : String → String} : ∀ (ms : Members) {f lv dn},
    BlM env h ms f lv dn → ∀ k ∈ GoMap.keys f, k ∈ GoMap.keys ms.erase
  | .nil, f, lv, dn, hb => by
    simp only [BlM] at hb
    simp [hb.1, GoMap.keys]
  | .cons k none t ms, f, lv, dn, hb => by
    simp only [BlM] at hb
    obtain ⟨w, f', d1, d2, rfl, _, h2, _⟩ := hb
    intro k' hk'
    simp only [GoMap.keys, List.map_cons, List.mem_cons, Members.erase] at hk' ⊢
    rcases hk' with rfl | hk'
    · exact Or.inl rfl
    · exact Or.inr (BlM.keys ms h2 k' hk')
  | .cons k (some s) t ms, f, lv, dn, hb => by
    simp only [BlM] at hb
    obtain ⟨w, salt, lv', d1, d2, rfl, _, _, h2, _⟩ := hb
    intro k' hk'
    simp only [Members.erase, GoMap.keys, List.map_cons, List.mem_cons]
    exact Or.inr (BlM.keys ms h2 k' hk')

theorem unreserved_key {m : JObj} (h : UnreservedObj m) {k : String} (hk : k ∈ GoMap.keys m) :
    k ≠ "_sd" ∧ k ≠ "_sd_alg" ∧ k ≠ "..." := by
  induction m with
  | nil => simp [GoMap.keys] at hk
  | cons p m ih =>
    obtain ⟨k', v⟩ := p
    simp only [UnreservedObj] at h
    simp only [GoMap.keys, List.map_cons, List.mem_cons] at hk
    rcases hk with rfl | hk
    · exact h.1
    · exact ih h.2.2 hk

/-- The `_sd` member of a blinded object. -/
theorem get_sd {env : Env} {h : String → String} {ms : Members} {f hid : JObj} {lv dn sd : List String}
    (hb : BlM env h ms f lv dn) (hu : UnreservedObj ms.erase) (hh : HidOk hid sd) :
    (GoMap.get? (f ++ hid) "_sd" = none ∧ sd = []) ∨
      ∃ v, GoMap.get? (f ++ hid) "_sd" = some v ∧ stringArray v = some sd := by
  have hf : GoMap.get? f "_sd" = none := by
    rw [GoMap.get?_eq_none_iff]
    intro hk
    exact (unreserved_key hu (hb.keys ms _ hk)).1 rfl
  rw [GoMap.get?_append, hf]
  simpa using hh.get_sd

theorem sdDigests_eq' {m : JObj} {sd : List String}
    (h : (GoMap.get? m "_sd" = none ∧ sd = []) ∨
      ∃ v, GoMap.get? m "_sd" = some v ∧ stringArray v = some sd) : sdDigests m = sd := by
  unfold sdDigests
  rcases h with ⟨h, rfl⟩ | ⟨v, h, h'⟩
  · rw [h]
  · rw [h]; exact stringArray_elems h'

theorem arr_digests_perm {env : Env} {cl : Bool} (h : String → String) (l : List (Option String × Json))
    (hu : UnreservedArr (l.map Prod.snd))
    (hd : ∀ s v, (some s, v) ∈ l → ∃ salt, env.decode s = some [.str salt, v]) :
    arrDigests (l.map (blindElem h)) = (l.filterMap Prod.fst).map h ∧
      (l.filterMap Prod.fst).flatMap (valueDigests env cl) = [] := by
  induction l with
  | nil => exact ⟨rfl, rfl⟩
  | cons p l ih =>
    obtain ⟨a, v⟩ := p
    simp only [List.map_cons, UnreservedArr] at hu
    obtain ⟨i1, i2⟩ := ih hu.2 (fun s v hm => hd s v (List.mem_cons_of_mem _ hm))
    simp only [arrDigests] at i1
    cases a with
    | none =>
      refine ⟨?_, by simpa using i2⟩
      simp only [List.map_cons, blindElem, arrDigests, List.filterMap_cons,
        placeholder_unreserved hu.1, Option.bind_none, i1]
    | some s =>
      obtain ⟨salt, hs⟩ := hd s v (by simp)
      refine ⟨?_, ?_⟩
      · have hp : placeholder? (blindElem h (some s, v)) = some (.str (h s)) := by
          simp [blindElem, placeholder?, GoMap.get?_cons]
        simp only [List.map_cons, arrDigests, List.filterMap_cons, hp, Option.bind_some, Json.asStr?,
          i1]
      · simp only [List.filterMap_cons, List.flatMap_cons, i2, List.append_nil]
        simp only [valueDigests, hs, digests_unreserved cl v hu.1]

mutual
/-- Every digest written in a blinded value or in its disclosures is the digest of one of the
disclosures, or a decoy, and each is written exactly once. -/
theorem Bl.digests {env : Env} {h : String → String} (cl : Bool) : ∀ (t : Node) {w decs},
    Bl env h t w decs → Unreserved t.erase →
    (SDJWT.digests cl w ++ t.discs.flatMap (valueDigests env cl)).Perm (t.discs.map h ++ decs)
  | .plain v, w, decs, hb, hu => by
    simp only [Bl] at hb
    obtain ⟨rfl, rfl⟩ := hb
    simp only [Node.erase] at hu
    simp [Node.discs, digests_unreserved cl w hu]
  | .arr l, w, decs, hb, hu => by
    simp only [Bl] at hb
    obtain ⟨rfl, hw, hd⟩ := hb
    simp only [Node.erase, Unreserved] at hu
    obtain ⟨e1, e2⟩ := arr_digests_perm (env := env) (cl := cl) h l hu hd
    simp only [Node.discs, e2, List.append_nil]
    by_cases hl : l = []
    · subst hl; subst hw; simp [SDJWT.digests]
    · rw [if_neg hl] at hw
      subst hw
      simp only [SDJWT.digests, e1]
      exact Perm.refl _
  | .obj ms, w, decs, hb, hu => by
    simp only [Bl] at hb
    obtain ⟨f, hid, sd, lv, dn, dl, rfl, hm, hh, hp, rfl⟩ := hb
    simp only [Node.erase, Unreserved] at hu
    have key := BlM.digests cl ms hm hu
    simp only [SDJWT.digests, Node.discs, fieldDigests_append, hh.fieldDigests cl, List.append_nil,
      sdDigests_eq' (get_sd hm hu hh)]
    rw [List.perm_iff_count] at key hp ⊢
    intro a
    have k1 := key a
    have k2 := hp a
    simp only [List.count_append] at k1 k2 ⊢
    omega
/-- The same for the members of an object. -/
theorem BlM.digests {env : Env} {h : String → String} (cl : Bool) : ∀ (ms : Members) {f lv dn},
    BlM env h ms f lv dn → UnreservedObj ms.erase →
    (lv.map h ++ fieldDigests cl f ++ ms.discs.flatMap (valueDigests env cl)).Perm
      (ms.discs.map h ++ dn)
  | .nil, f, lv, dn, hb, _ => by
    simp only [BlM] at hb
    obtain ⟨rfl, rfl, rfl⟩ := hb
    simp [Members.discs, fieldDigests]
  | .cons k none t ms, f, lv, dn, hb, hu => by
    simp only [BlM] at hb
    obtain ⟨w, f', d1, d2, rfl, h1, h2, rfl⟩ := hb
    simp only [Members.erase, UnreservedObj] at hu
    have i1 := Bl.digests cl t h1 hu.2.1
    have i2 := BlM.digests cl ms h2 hu.2.2
    have hk : ¬ Hidden cl k := by
      unfold Hidden
      rintro (e | ⟨e, _⟩)
      · exact hu.1.1 e
      · exact hu.1.2.1 e
    rw [List.perm_iff_count] at i1 i2 ⊢
    intro a
    have k1 := i1 a
    have k2 := i2 a
    simp only [Members.discs, fieldDigests, if_neg hk, Option.toList, List.nil_append,
      List.flatMap_append, List.map_append, List.count_append] at k1 k2 ⊢
    omega
  | .cons k (some s) t ms, f, lv, dn, hb, hu => by
    simp only [BlM] at hb
    obtain ⟨w, salt, lv', d1, d2, rfl, hs, h1, h2, rfl⟩ := hb
    simp only [Members.erase, UnreservedObj] at hu
    have i1 := Bl.digests cl t h1 hu.2.1
    have i2 := BlM.digests cl ms h2 hu.2.2
    have hv : valueDigests env cl s = SDJWT.digests cl w := by simp [valueDigests, hs]
    rw [List.perm_iff_count] at i1 i2 ⊢
    intro a
    have k1 := i1 a
    have k2 := i2 a
    simp only [Members.discs, Option.toList, List.cons_append, List.nil_append, List.flatMap_cons,
      List.flatMap_append, List.map_append, List.map_cons, List.count_append, List.count_cons, hv]
      at k1 k2 ⊢
    omega
end

/-! ## Resolution -/

mutual
/-- A value without digests resolves to its tidied form. -/
theorem resolve_plain (cl : Bool) (D : DMap) : ∀ v, Unreserved v → Resolves cl D v (tidy v)
  | .null, _ => .scalar (by simp [Scalar])
  | .bool _, _ => .scalar (by simp [Scalar])
  | .num _, _ => .scalar (by simp [Scalar])
  | .str _, _ => .scalar (by simp [Scalar])
  | .arr l, h => by
    simp only [Unreserved] at h
    have := Resolve.arr (resolve_plain_elems cl D l h)
    cases l <;> simpa [tidy] using this
  | .obj m, h => by
    simp only [Unreserved] at h
    obtain ⟨fs, h1, h2, _⟩ := resolve_plain_fields cl D m h
    have hg := (fieldDigests_unreserved cl m h).2 "_sd" (Or.inl rfl)
    have := Resolve.obj (m := m) (Or.inl ⟨hg, rfl⟩) .snil h1 (by simp [GoMap.keys])
      (by simp [GoMap.keys])
    simpa [tidy, assemble, h2] using this
/-- Elements that are not placeholders stay. -/
theorem resolve_plain_elems (cl : Bool) (D : DMap) : ∀ l, UnreservedArr l →
    Resolve cl D (.elems l) (.list l)
  | [], _ => .enil
  | v :: l, h => by
    simp only [UnreservedArr] at h
    exact .eplain (placeholder_unreserved h.1) (resolve_plain_elems cl D l h.2)
/-- Members without digests. -/
theorem resolve_plain_fields (cl : Bool) (D : DMap) : ∀ m, UnreservedObj m →
    ∃ fs, Resolve cl D (.fields m) (.fields fs) ∧
      fs.filter (fun p => !p.2.isNull) = tidyMembers m ∧ GoMap.keys fs = GoMap.keys m
  | [], _ => ⟨[], .fnil, rfl, rfl⟩
  | (k, v) :: m, h => by
    simp only [UnreservedObj] at h
    obtain ⟨fs, h1, h2, h3⟩ := resolve_plain_fields cl D m h.2.2
    have hk : ¬ Hidden cl k := by
      unfold Hidden
      rintro (e | ⟨e, _⟩)
      · exact h.1.1 e
      · exact h.1.2.1 e
    refine ⟨(k, tidy v) :: fs, .fcons hk (resolve_plain cl D v h.2.1) h1, ?_, ?_⟩
    · simp only [List.filter_cons, h2, tidyMembers]
      cases (tidy v).isNull <;> simp
    · simp only [GoMap.keys, List.map_cons] at h3 ⊢
      rw [h3]
end

/-- `D` is the table of those disclosures of `L` that are in `S`; decoy digests are not in it. -/
structure Tab (env : Env) (alg : String) (D : DMap) (S L decs : List String) : Prop where
  on : ∀ s ∈ L, s ∈ S → ∃ c, GoMap.get? D (env.hash alg s) = some c ∧
    IsDisc env alg s (env.hash alg s) c
  off : ∀ s ∈ L, s ∉ S → GoMap.get? D (env.hash alg s) = none
  decoy : ∀ d ∈ decs, GoMap.get? D d = none

theorem Tab.mono {env : Env} {alg : String} {D : DMap} {S L decs L' decs' : List String}
    (h : Tab env alg D S L decs) (hL : ∀ s ∈ L', s ∈ L) (hd : ∀ d ∈ decs', d ∈ decs) :
    Tab env alg D S L' decs' :=
  ⟨fun s hs => h.on s (hL s hs), fun s hs => h.off s (hL s hs), fun d hd' => h.decoy d (hd d hd')⟩

open Classical in
/-- The claim a digest of an `_sd` list resolves to. -/
noncomputable def disclosed? (cl : Bool) (D : DMap) (d : String) : Option (String × Json) :=
  match GoMap.get? D d with
  | none => none
  | some c => if h : ∃ w, Resolve cl D (.disc d) (.val w) then some (c.name, Classical.choose h) else none

theorem disclosed_none {cl : Bool} {D : DMap} {d : String} (h : GoMap.get? D d = none) :
    disclosed? cl D d = none := by simp [disclosed?, h]

theorem disclosed_some {cl : Bool} {D : DMap} {d : String} {c : Disc} {w : Json}
    (h : GoMap.get? D d = some c) (hw : Resolve cl D (.disc d) (.val w)) :
    disclosed? cl D d = some (c.name, w) := by
  have hex : ∃ w, Resolve cl D (.disc d) (.val w) := ⟨w, hw⟩
  simp only [disclosed?, h, dif_pos hex]
  have := resolve_det hw _ (Classical.choose_spec hex)
  cases this
  rfl

/-- A digest of an `_sd` list that can be processed. -/
def SdOk (cl : Bool) (D : DMap) (d : String) : Prop :=
  GoMap.get? D d = none ∨ ∃ c w, GoMap.get? D d = some c ∧ c.elems = 3 ∧
    Resolve cl D (.disc d) (.val w)

theorem resolve_sds {cl : Bool} {D : DMap} (sd : List String) (h : ∀ d ∈ sd, SdOk cl D d) :
    ∃ miss, Resolve cl D (.sds sd) (.sds (sd.filterMap (disclosed? cl D)) miss) := by
  induction sd with
  | nil => exact ⟨[], .snil⟩
  | cons d sd ih =>
    obtain ⟨miss, hm⟩ := ih (fun d' hd' => h d' (List.mem_cons_of_mem _ hd'))
    rcases h d (by simp) with hn | ⟨c, w, h1, h2, h3⟩
    · refine ⟨d :: miss, ?_⟩
      rw [List.filterMap_cons, disclosed_none hn]
      exact .smiss hn hm
    · refine ⟨miss, ?_⟩
      rw [List.filterMap_cons, disclosed_some h1 h3]
      exact .sdisc h1 h2 h3 hm

theorem resolve_fields_append {cl : Bool} {D : DMap} {f : JObj} : ∀ {fs g gs : JObj},
    Resolve cl D (.fields f) (.fields fs) → Resolve cl D (.fields g) (.fields gs) →
    Resolve cl D (.fields (f ++ g)) (.fields (fs ++ gs)) := by
  induction f with
  | nil => intro fs g gs h1 h2; cases h1; exact h2
  | cons p f ih =>
    intro fs g gs h1 h2
    cases h1 with
    | fskip hk h => exact .fskip hk (ih h h2)
    | fcons hk hv h => exact .fcons hk hv (ih h h2)

theorem HidOk.resolve {hid : JObj} {sd : List String} (h : HidOk hid sd) (cl : Bool) (D : DMap) :
    ∃ he, Resolve cl D (.fields hid) (.fields he) ∧ (cl = true → he = []) ∧
      ∀ p ∈ he, p.1 = "_sd_alg" := by
  obtain ⟨a, b, rfl, h1, h2⟩ := h
  have ha : Resolve cl D (.fields a) (.fields []) := by
    rcases h1 with ⟨rfl, _⟩ | ⟨v, rfl, _⟩
    · exact .fnil
    · exact .fskip (Or.inl rfl) .fnil
  rcases h2 with rfl | ⟨s, rfl⟩
  · exact ⟨[], resolve_fields_append ha .fnil, fun _ => rfl, by simp⟩
  · cases cl with
    | true =>
      exact ⟨[], resolve_fields_append ha (.fskip (Or.inr ⟨rfl, rfl⟩) .fnil), fun _ => rfl, by simp⟩
    | false =>
      exact ⟨[("_sd_alg", .str s)], resolve_fields_append ha
        (.fcons (by simp [Hidden]) (.scalar (by simp [Scalar])) .fnil), by simp, by simp⟩

theorem resolve_blind_elems {env : Env} {alg : String} {cl : Bool} {D : DMap} {S : List String}
    (l : List (Option String × Json)) (hu : UnreservedArr (l.map Prod.snd))
    (hd : ∀ s v, (some s, v) ∈ l → ∃ salt, env.decode s = some [.str salt, v])
    (ht : Tab env alg D S (l.filterMap Prod.fst) []) :
    ∃ out, Resolve cl D (.elems (l.map (blindElem (env.hash alg)))) (.list out) ∧
      (cl = true → out = revealElems S l) ∧
      ∀ s ∈ l.filterMap Prod.fst, s ∈ S → ∃ w, Resolve cl D (.disc (env.hash alg s)) (.val w) := by
  induction l with
  | nil => exact ⟨[], .enil, fun _ => rfl, by simp⟩
  | cons p l ih =>
    obtain ⟨a, v⟩ := p
    simp only [List.map_cons, UnreservedArr] at hu
    obtain ⟨out, h1, h2, h3⟩ := ih hu.2 (fun s v hm => hd s v (List.mem_cons_of_mem _ hm))
      (ht.mono (by intro s hs; cases a <;> simp at hs ⊢ <;> simp [hs]) (by simp))
    cases a with
    | none =>
      refine ⟨v :: out, .eplain (placeholder_unreserved hu.1) h1, ?_, by simpa using h3⟩
      intro hc; simp only [revealElems, h2 hc]
    | some s =>
      obtain ⟨salt, hs⟩ := hd s v (by simp)
      have hp : placeholder? (blindElem (env.hash alg) (some s, v)) = some (.str (env.hash alg s)) := by
        simp [blindElem, placeholder?, GoMap.get?_cons]
      by_cases hS : s ∈ S
      · obtain ⟨c, hc, hi⟩ := ht.on s (by simp) hS
        obtain ⟨_, _, hpar, salt', rest, hde, hi⟩ := hi
        rw [hs] at hde
        cases hde
        have hcv : c.elems = 2 ∧ c.value = v := by
          rcases hi with ⟨v', e, e1, _, e2⟩ | ⟨nm, v', e, _⟩ | ⟨hl, _⟩
          · cases e; exact ⟨e1, e2⟩
          · simp at e
          · simp at hl
        have hr : Resolve cl D (.disc (env.hash alg s)) (.val (tidy v)) :=
          .disc hc hpar (by rw [hcv.2]; exact resolve_plain cl D v hu.1)
        refine ⟨tidy v :: out, .edisc hp hc hcv.1 hr h1, ?_, ?_⟩
        · intro hcl; simp only [revealElems, if_pos hS, h2 hcl]
        · intro s' hs' hS'
          simp only [List.filterMap_cons, List.mem_cons] at hs'
          rcases hs' with rfl | hs'
          · exact ⟨_, hr⟩
          · exact h3 s' hs' hS'
      · have hn := ht.off s (by simp) hS
        refine ⟨_, .emiss hp hn h1, ?_, ?_⟩
        · intro hcl; simp only [hcl, if_true, revealElems, if_neg hS, h2 hcl]
        · intro s' hs' hS'
          simp only [List.filterMap_cons, List.mem_cons] at hs'
          rcases hs' with rfl | hs'
          · exact absurd hS' hS
          · exact h3 s' hs' hS'

theorem oeq_move {a b : JObj} {k : String} {v : Json}
    (h : (GoMap.keys a ++ k :: GoMap.keys b).Nodup) : OEq (a ++ (k, v) :: b) ((k, v) :: (a ++ b)) := by
  refine OEq.of_perm List.perm_middle ?_
  simpa [GoMap.keys] using h

mutual
/-- Resolving a blinded value shows exactly the clear parts and the presented disclosures. -/
theorem Bl.resolve {env : Env} {alg : String} {cl : Bool} {D : DMap} {S : List String} :
    ∀ (t : Node) {w decs}, Bl env (env.hash alg) t w decs → Unreserved t.erase → JWF t.erase →
    Tab env alg D S t.discs decs →
    ∃ w', Resolves cl D w w' ∧ (cl = true → JEq w' (t.reveal S)) ∧
      ∀ s ∈ t.discs, s ∈ S → ∃ x, Resolve cl D (.disc (env.hash alg s)) (.val x)
  | .plain v, w, decs, hb, hu, _, _ => by
    simp only [Bl] at hb
    obtain ⟨rfl, rfl⟩ := hb
    simp only [Node.erase] at hu
    refine ⟨tidy w, resolve_plain cl D w hu, fun _ => ?_, by simp [Node.discs]⟩
    simp only [Node.reveal]; exact .refl
  | .arr l, w, decs, hb, hu, _, ht => by
    simp only [Bl] at hb
    obtain ⟨rfl, hw, hd⟩ := hb
    simp only [Node.erase, Unreserved] at hu
    simp only [Node.discs] at ht ⊢
    obtain ⟨out, h1, h2, h3⟩ := resolve_blind_elems (cl := cl) l hu hd ht
    by_cases hl : l = []
    · subst hl; subst hw
      refine ⟨.null, .scalar (by simp [Scalar]), fun _ => ?_, h3⟩
      simp only [Node.reveal, revealElems, List.isEmpty_nil, if_true]; exact .refl
    · rw [if_neg hl] at hw
      subst hw
      refine ⟨_, .arr h1, fun hc => ?_, h3⟩
      rw [h2 hc]
      simp only [Node.reveal]
      cases revealElems S l <;> exact .refl
  | .obj ms, w, decs, hb, hu, hj, ht => by
    simp only [Bl] at hb
    obtain ⟨f, hid, sd, lv, dn, dl, rfl, hm, hh, hp, rfl⟩ := hb
    simp only [Node.erase, Unreserved] at hu
    simp only [Node.erase, JWF] at hj
    simp only [Node.discs] at ht ⊢
    obtain ⟨fs, h1, h2, h3, h4, h5, h6⟩ := BlM.resolve (cl := cl) ms hm hu hj
      (ht.mono (fun _ h => h) (fun d hd => List.mem_append_right _ hd))
    obtain ⟨he, g1, g2, g3⟩ := hh.resolve cl D
    have hsd : ∀ d ∈ sd, SdOk cl D d := by
      intro d hd
      have := hp.mem_iff.mp hd
      rcases List.mem_append.mp this with h | h
      · obtain ⟨s, hs, rfl⟩ := List.mem_map.mp h
        exact h2 s hs
      · exact Or.inl (ht.decoy d (List.mem_append_left _ h))
    obtain ⟨miss, hs⟩ := resolve_sds sd hsd
    have hcl : (sd.filterMap (disclosed? cl D)).Perm
        ((lv.map (env.hash alg)).filterMap (disclosed? cl D)) := by
      refine (hp.filterMap _).trans ?_
      rw [List.filterMap_append]
      have : dl.filterMap (disclosed? cl D) = [] := by
        rw [List.filterMap_eq_nil_iff]
        intro d hd
        exact disclosed_none (ht.decoy d (List.mem_append_left _ hd))
      rw [this, List.append_nil]
    generalize hC : sd.filterMap (disclosed? cl D) = C at hcl hs
    generalize hC' : (lv.map (env.hash alg)).filterMap (disclosed? cl D) = C' at hcl h3 h4 h5
    have hkeys : (GoMap.keys C).Perm (GoMap.keys C') := hcl.map _
    have hnd : (GoMap.keys C ++ GoMap.keys fs).Nodup := (hkeys.append_right _).nodup_iff.mpr h3
    have hdis : ∀ p ∈ fs ++ he, p.1 ∉ GoMap.keys C := by
      intro p hp' hc
      rcases List.mem_append.mp hp' with h | h
      · exact (List.nodup_append.mp hnd).2.2 _ hc _ (List.mem_map.mpr ⟨p, h, rfl⟩) rfl
      · have e := g3 p h
        have := h4 p.1 (List.mem_append_left _ (hkeys.mem_iff.mp hc))
        exact (unreserved_key hu this).2.1 e
    refine ⟨_, .obj (get_sd hm hu hh) hs (resolve_fields_append h1 g1)
      (List.nodup_append.mp hnd).1 hdis, ?_, h6⟩
    intro hc
    rw [g2 hc, List.append_nil]
    simp only [assemble, hc, Bool.true_eq_false, false_and, if_false, Node.reveal]
    refine .obj (.trans (OEq.of_perm (hcl.append_right _) ?_) (h5 hc))
    have : (GoMap.keys (C ++ fs.filter (fun p => !p.2.isNull))).Sublist
        (GoMap.keys C ++ GoMap.keys fs) := by
      simp only [GoMap.keys, List.map_append]
      exact List.Sublist.append (List.Sublist.refl _) (List.Sublist.map _ List.filter_sublist)
    exact hnd.sublist this
/-- The same for the members of an object. -/
theorem BlM.resolve {env : Env} {alg : String} {cl : Bool} {D : DMap} {S : List String} :
    ∀ (ms : Members) {f lv dn}, BlM env (env.hash alg) ms f lv dn → UnreservedObj ms.erase →
    (GoMap.keys ms.erase).Nodup ∧ JWFObj ms.erase → Tab env alg D S ms.discs dn →
    ∃ fs, Resolve cl D (.fields f) (.fields fs) ∧
      (∀ s ∈ lv, SdOk cl D (env.hash alg s)) ∧
      (GoMap.keys ((lv.map (env.hash alg)).filterMap (disclosed? cl D)) ++ GoMap.keys fs).Nodup ∧
      (∀ k ∈ GoMap.keys ((lv.map (env.hash alg)).filterMap (disclosed? cl D)) ++ GoMap.keys fs,
        k ∈ GoMap.keys ms.erase) ∧
      (cl = true → OEq ((lv.map (env.hash alg)).filterMap (disclosed? cl D) ++
        fs.filter (fun p => !p.2.isNull)) (ms.reveal S)) ∧
      ∀ s ∈ ms.discs, s ∈ S → ∃ x, Resolve cl D (.disc (env.hash alg s)) (.val x)
  | .nil, f, lv, dn, hb, _, _, _ => by
    simp only [BlM] at hb
    obtain ⟨rfl, rfl, rfl⟩ := hb
    refine ⟨[], .fnil, by simp, by simp [GoMap.keys], by simp [GoMap.keys], fun _ => ?_, ?_⟩
    · simp only [Members.reveal, List.map_nil, List.filterMap_nil, List.filter_nil, List.append_nil]
      exact .refl
    · simp [Members.discs]
  | .cons k none t ms, f, lv, dn, hb, hu, hj, ht => by
    simp only [BlM] at hb
    obtain ⟨w, f', d1, d2, rfl, h1, h2, rfl⟩ := hb
    simp only [Members.erase, UnreservedObj] at hu
    simp only [Members.erase, GoMap.keys, List.map_cons, List.nodup_cons, JWFObj] at hj
    simp only [Members.discs, Option.toList, List.nil_append] at ht ⊢
    obtain ⟨w', i1, i2, i3⟩ := Bl.resolve (cl := cl) t h1 hu.2.1 hj.2.1
      (ht.mono (fun s hs => List.mem_append_left _ hs) (fun d hd => List.mem_append_left _ hd))
    obtain ⟨fs, j1, j2, j3, j4, j5, j6⟩ := BlM.resolve (cl := cl) ms h2 hu.2.2 ⟨hj.1.2, hj.2.2⟩
      (ht.mono (fun s hs => List.mem_append_right _ hs) (fun d hd => List.mem_append_right _ hd))
    have hk : ¬ Hidden cl k := by
      unfold Hidden
      rintro (e | ⟨e, _⟩)
      · exact hu.1.1 e
      · exact hu.1.2.1 e
    generalize (lv.map (env.hash alg)).filterMap (disclosed? cl D) = C at j3 j4 j5 ⊢
    have hkn : k ∉ GoMap.keys C ++ GoMap.keys fs := fun h => hj.1.1 (j4 k h)
    have hnd : (GoMap.keys C ++ k :: GoMap.keys fs).Nodup := by
      refine (List.perm_middle.nodup_iff).mpr ?_
      exact List.nodup_cons.mpr ⟨hkn, j3⟩
    refine ⟨(k, w') :: fs, .fcons hk i1 j1, j2, by simpa [GoMap.keys] using hnd, ?_, ?_, ?_⟩
    · intro k' hk'
      simp only [GoMap.keys, List.map_cons, List.mem_append, List.mem_cons, Members.erase] at hk' j4 ⊢
      rcases hk' with h | h | h
      · exact Or.inr (j4 k' (Or.inl h))
      · exact Or.inl h
      · exact Or.inr (j4 k' (Or.inr h))
    · intro hc
      have e := JEq.isNull (i2 hc)
      simp only [Members.reveal, List.filter_cons, ← e]
      cases hw : w'.isNull with
      | true => simpa using j5 hc
      | false =>
        simp only [Bool.not_false, if_true, Bool.false_eq_true, if_false]
        refine .trans (oeq_move ?_) (.fcons (i2 hc) (j5 hc))
        have : (GoMap.keys C ++ k :: GoMap.keys (fs.filter (fun p => !p.2.isNull))).Sublist
            (GoMap.keys C ++ k :: GoMap.keys fs) := by
          refine List.Sublist.append (List.Sublist.refl _) (List.Sublist.cons_cons _ ?_)
          exact List.Sublist.map _ List.filter_sublist
        exact hnd.sublist this
    · intro s hs hS
      rcases List.mem_append.mp hs with h | h
      · exact i3 s h hS
      · exact j6 s h hS
  | .cons k (some s) t ms, f, lv, dn, hb, hu, hj, ht => by
    simp only [BlM] at hb
    obtain ⟨w, salt, lv', d1, d2, rfl, hde, h1, h2, rfl⟩ := hb
    simp only [Members.erase, UnreservedObj] at hu
    simp only [Members.erase, GoMap.keys, List.map_cons, List.nodup_cons, JWFObj] at hj
    simp only [Members.discs, Option.toList] at ht ⊢
    obtain ⟨w', i1, i2, i3⟩ := Bl.resolve (cl := cl) t h1 hu.2.1 hj.2.1
      (ht.mono (fun s hs => by simp [hs]) (fun d hd => List.mem_append_left _ hd))
    obtain ⟨fs, j1, j2, j3, j4, j5, j6⟩ := BlM.resolve (cl := cl) ms h2 hu.2.2 ⟨hj.1.2, hj.2.2⟩
      (ht.mono (fun s hs => by simp [hs]) (fun d hd => List.mem_append_right _ hd))
    simp only [List.map_cons, List.filterMap_cons]
    generalize (lv'.map (env.hash alg)).filterMap (disclosed? cl D) = C at j3 j4 j5 ⊢
    by_cases hS : s ∈ S
    · obtain ⟨c, hc, hi⟩ := ht.on s (by simp) hS
      obtain ⟨_, _, hpar, salt', rest, hde', hi⟩ := hi
      rw [hde] at hde'
      cases hde'
      have hcv : c.elems = 3 ∧ c.name = k ∧ c.value = w := by
        rcases hi with ⟨v', e, _⟩ | ⟨nm, v', e, e1, e2, e3⟩ | ⟨hl, _⟩
        · simp at e
        · cases e; exact ⟨e1, e2, e3⟩
        · simp at hl
      have hr : Resolve cl D (.disc (env.hash alg s)) (.val w') :=
        .disc hc hpar (by rw [hcv.2.2]; exact i1)
      rw [disclosed_some hc hr, hcv.2.1]
      have hkn : k ∉ GoMap.keys C ++ GoMap.keys fs := fun h => hj.1.1 (j4 k h)
      refine ⟨fs, j1, ?_, ?_, ?_, ?_, ?_⟩
      · intro s' hs'
        rcases List.mem_cons.mp hs' with rfl | hs'
        · exact Or.inr ⟨c, w', hc, hcv.1, hr⟩
        · exact j2 s' hs'
      · simp only [GoMap.keys, List.map_cons, List.cons_append] at hkn j3 ⊢
        exact List.nodup_cons.mpr ⟨hkn, j3⟩
      · intro k' hk'
        simp only [GoMap.keys, List.map_cons, List.cons_append, List.mem_cons, Members.erase] at hk' j4 ⊢
        rcases hk' with h | h
        · exact Or.inl h
        · exact Or.inr (j4 k' h)
      · intro hcl
        simp only [Members.reveal, if_pos hS]
        exact .fcons (i2 hcl) (j5 hcl)
      · intro s' hs' hS'
        simp only [List.cons_append, List.nil_append, List.mem_cons, List.mem_append] at hs'
        rcases hs' with rfl | h | h
        · exact ⟨_, hr⟩
        · exact i3 s' h hS'
        · exact j6 s' h hS'
    · have hn := ht.off s (by simp) hS
      rw [disclosed_none hn]
      refine ⟨fs, j1, ?_, j3, ?_, ?_, ?_⟩
      · intro s' hs'
        rcases List.mem_cons.mp hs' with rfl | hs'
        · exact Or.inl hn
        · exact j2 s' hs'
      · intro k' hk'
        simp only [GoMap.keys, List.map_cons, List.mem_cons, Members.erase] at hk' j4 ⊢
        exact Or.inr (j4 k' hk')
      · intro hcl
        simp only [Members.reveal, if_neg hS]
        exact j5 hcl
      · intro s' hs' hS'
        simp only [List.cons_append, List.nil_append, List.mem_cons, List.mem_append] at hs'
        rcases hs' with rfl | h | h
        · exact absurd hS' hS
        · exact i3 s' h hS'
        · exact j6 s' h hS'
end

/-! ## Reachability, decoding, well-formedness -/

mutual
/-- Every presented disclosure is reachable, if the disclosures around it are presented too. -/
theorem Bl.reach {env : Env} {alg : String} {cl : Bool} {D : DMap} {S ds0 : List String} :
    ∀ (t : Node) {w decs}, Bl env (env.hash alg) t w decs → Unreserved t.erase →
    Tab env alg D S t.discs decs → t.Closed S →
    (∀ d ∈ SDJWT.digests cl w, Reach cl D ds0 d) →
    ∀ s ∈ t.discs, s ∈ S → Reach cl D ds0 (env.hash alg s)
  | .plain v, w, decs, _, _, _, _, _ => by simp [Node.discs]
  | .arr l, w, decs, hb, hu, _, _, hr => by
    simp only [Bl] at hb
    obtain ⟨rfl, hw, hd⟩ := hb
    simp only [Node.erase, Unreserved] at hu
    simp only [Node.discs]
    intro s hs _
    have hl : l ≠ [] := by rintro rfl; simp at hs
    rw [if_neg hl] at hw
    subst hw
    refine hr _ ?_
    simp only [SDJWT.digests, (arr_digests_perm (env := env) (cl := cl) _ l hu hd).1]
    exact List.mem_map.mpr ⟨s, hs, rfl⟩
  | .obj ms, w, decs, hb, hu, ht, hc, hr => by
    simp only [Bl] at hb
    obtain ⟨f, hid, sd, lv, dn, dl, rfl, hm, hh, hp, rfl⟩ := hb
    simp only [Node.erase, Unreserved] at hu
    simp only [Node.discs] at ht ⊢
    simp only [Node.Closed] at hc
    refine BlM.reach ms hm hu (ht.mono (fun _ h => h) (fun d hd => List.mem_append_right _ hd)) hc ?_ ?_
    · intro s hs
      refine hr _ ?_
      simp only [SDJWT.digests, sdDigests_eq' (get_sd hm hu hh)]
      exact List.mem_append_left _
        (hp.mem_iff.mpr (List.mem_append_left _ (List.mem_map.mpr ⟨s, hs, rfl⟩)))
    · intro d hd
      refine hr _ ?_
      simp only [SDJWT.digests, fieldDigests_append]
      exact List.mem_append_right _ (List.mem_append_left _ hd)
/-- The same for the members of an object. -/
theorem BlM.reach {env : Env} {alg : String} {cl : Bool} {D : DMap} {S ds0 : List String} :
    ∀ (ms : Members) {f lv dn}, BlM env (env.hash alg) ms f lv dn → UnreservedObj ms.erase →
    Tab env alg D S ms.discs dn → ms.Closed S →
    (∀ s ∈ lv, Reach cl D ds0 (env.hash alg s)) →
    (∀ d ∈ fieldDigests cl f, Reach cl D ds0 d) →
    ∀ s ∈ ms.discs, s ∈ S → Reach cl D ds0 (env.hash alg s)
  | .nil, f, lv, dn, _, _, _, _, _, _ => by simp [Members.discs]
  | .cons k none t ms, f, lv, dn, hb, hu, ht, hc, hl, hf => by
    simp only [BlM] at hb
    obtain ⟨w, f', d1, d2, rfl, h1, h2, rfl⟩ := hb
    simp only [Members.erase, UnreservedObj] at hu
    simp only [Members.discs, Option.toList, List.nil_append] at ht ⊢
    simp only [Members.Closed] at hc
    have hk : ¬ Hidden cl k := by
      unfold Hidden
      rintro (e | ⟨e, _⟩)
      · exact hu.1.1 e
      · exact hu.1.2.1 e
    simp only [fieldDigests, if_neg hk] at hf
    intro s hs hS
    rcases List.mem_append.mp hs with h | h
    · exact Bl.reach t h1 hu.2.1
        (ht.mono (fun s hs => List.mem_append_left _ hs) (fun d hd => List.mem_append_left _ hd)) hc.1
        (fun d hd => hf d (List.mem_append_left _ hd)) s h hS
    · exact BlM.reach ms h2 hu.2.2
        (ht.mono (fun s hs => List.mem_append_right _ hs) (fun d hd => List.mem_append_right _ hd))
        hc.2 hl (fun d hd => hf d (List.mem_append_right _ hd)) s h hS
  | .cons k (some s) t ms, f, lv, dn, hb, hu, ht, hc, hl, hf => by
    simp only [BlM] at hb
    obtain ⟨w, salt, lv', d1, d2, rfl, hde, h1, h2, rfl⟩ := hb
    simp only [Members.erase, UnreservedObj] at hu
    simp only [Members.discs, Option.toList] at ht ⊢
    simp only [Members.Closed] at hc
    intro s' hs' hS'
    simp only [List.cons_append, List.nil_append, List.mem_cons, List.mem_append] at hs'
    have hbase := hl s (by simp)
    rcases hs' with rfl | h | h
    · exact hbase
    · have hS := hc.1 s' h hS'
      obtain ⟨c, hg, hi⟩ := ht.on s (by simp) hS
      have hdig := hi.digests (cl := cl)
      simp only [valueDigests, hde] at hdig
      refine Bl.reach t h1 hu.2.1
        (ht.mono (fun s hs => by simp [hs]) (fun d hd => List.mem_append_left _ hd)) hc.2.1 ?_ s' h hS'
      intro d hd
      exact .step hbase hg hi.2.2.1 (by rw [hdig]; exact hd)
    · exact BlM.reach ms h2 hu.2.2
        (ht.mono (fun s hs => by simp [hs]) (fun d hd => List.mem_append_right _ hd)) hc.2.2
        (fun s hs => hl s (List.mem_cons_of_mem _ hs)) hf s' h hS'
end

mutual
theorem Bl.decodes {env : Env} {h : String → String} : ∀ (t : Node) {w decs}, Bl env h t w decs →
    ∀ s ∈ t.discs, ∃ salt, (∃ v, env.decode s = some [.str salt, v]) ∨
      ∃ k v, env.decode s = some [.str salt, .str k, v]
  | .plain v, w, decs, _ => by simp [Node.discs]
  | .arr l, w, decs, hb => by
    simp only [Bl] at hb
    simp only [Node.discs]
    intro s hs
    obtain ⟨⟨a, v⟩, hm, e⟩ := List.mem_filterMap.mp hs
    simp only at e
    subst e
    obtain ⟨salt, hd⟩ := hb.2.2 s v hm
    exact ⟨salt, Or.inl ⟨v, hd⟩⟩
  | .obj ms, w, decs, hb => by
    simp only [Bl] at hb
    obtain ⟨f, hid, sd, lv, dn, dl, rfl, hm, _⟩ := hb
    simp only [Node.discs]
    exact BlM.decodes ms hm
theorem BlM.decodes {env : Env} {h : String → String} : ∀ (ms : Members) {f lv dn},
    BlM env h ms f lv dn → ∀ s ∈ ms.discs, ∃ salt, (∃ v, env.decode s = some [.str salt, v]) ∨
      ∃ k v, env.decode s = some [.str salt, .str k, v]
  | .nil, f, lv, dn, _ => by simp [Members.discs]
  | .cons k none t ms, f, lv, dn, hb => by
    simp only [BlM] at hb
    obtain ⟨w, f', d1, d2, rfl, h1, h2, rfl⟩ := hb
    simp only [Members.discs, Option.toList, List.nil_append]
    intro s hs
    rcases List.mem_append.mp hs with h | h
    · exact Bl.decodes t h1 s h
    · exact BlM.decodes ms h2 s h
  | .cons k (some s) t ms, f, lv, dn, hb => by
    simp only [BlM] at hb
    obtain ⟨w, salt, lv', d1, d2, rfl, hde, h1, h2, rfl⟩ := hb
    simp only [Members.discs, Option.toList]
    intro s' hs'
    simp only [List.cons_append, List.nil_append, List.mem_cons, List.mem_append] at hs'
    rcases hs' with rfl | h | h
    · exact ⟨salt, Or.inr ⟨k, w, hde⟩⟩
    · exact Bl.decodes t h1 s' h
    · exact BlM.decodes ms h2 s' h
end

theorem jwfObj_append {a b : JObj} : JWFObj (a ++ b) ↔ JWFObj a ∧ JWFObj b := by
  induction a with
  | nil => simp [JWFObj]
  | cons p a ih => obtain ⟨k, v⟩ := p; simp [JWFObj, ih, and_assoc]

theorem BlM.keys_sublist {env : Env} {h : String → String} : ∀ (ms : Members) {f lv dn},
    BlM env h ms f lv dn → (GoMap.keys f).Sublist (GoMap.keys ms.erase)
  | .nil, f, lv, dn, hb => by
    simp only [BlM] at hb
    simp [hb.1, GoMap.keys]
  | .cons k none t ms, f, lv, dn, hb => by
    simp only [BlM] at hb
    obtain ⟨w, f', d1, d2, rfl, _, h2, _⟩ := hb
    exact (BlM.keys_sublist ms h2).cons_cons k
  | .cons k (some s) t ms, f, lv, dn, hb => by
    simp only [BlM] at hb
    obtain ⟨w, salt, lv', d1, d2, rfl, _, _, h2, _⟩ := hb
    exact (BlM.keys_sublist ms h2).cons k

theorem jwf_strings {v : Json} {sd : List String} (h : stringArray v = some sd) : JWF v := by
  cases v <;> simp [stringArray] at h
  · simp [JWF]
  · simp only [JWF]
    rename_i l
    induction l generalizing sd with
    | nil => simp [JWFArr]
    | cons a l ih =>
      cases a <;> simp [strings?] at h
      obtain ⟨sd', h1, _⟩ := h
      exact ⟨by simp [JWF], ih h1⟩

theorem HidOk.wf {hid : JObj} {sd : List String} (h : HidOk hid sd) :
    (GoMap.keys hid).Nodup ∧ JWFObj hid ∧ ∀ k ∈ GoMap.keys hid, k = "_sd" ∨ k = "_sd_alg" := by
  obtain ⟨a, b, rfl, h1, h2⟩ := h
  rcases h1 with ⟨rfl, _⟩ | ⟨v, rfl, hv⟩ <;> rcases h2 with rfl | ⟨s, rfl⟩
  · simp [GoMap.keys, JWFObj]
  · simp [GoMap.keys, JWFObj, JWF]
  · simp [GoMap.keys, JWFObj, jwf_strings hv]
  · simp [GoMap.keys, JWFObj, jwf_strings hv, JWF]

mutual
theorem Bl.jwf {env : Env} {h : String → String} : ∀ (t : Node) {w decs}, Bl env h t w decs →
    Unreserved t.erase → JWF t.erase → JWF w
  | .plain v, w, decs, hb, _, hj => by
    simp only [Bl] at hb
    simp only [Node.erase] at hj
    rw [hb.1]; exact hj
  | .arr l, w, decs, hb, hu, hj => by
    clear hu
    simp only [Bl] at hb
    simp only [Node.erase, JWF] at hj
    rw [hb.2.1]
    split
    · simp [JWF]
    · simp only [JWF]
      clear hb
      induction l with
      | nil => simp [JWFArr]
      | cons p l ih =>
        obtain ⟨a, v⟩ := p
        simp only [List.map_cons, JWFArr] at hj ⊢
        refine ⟨?_, ?_⟩
        · cases a with
          | none => exact hj.1
          | some s => simp [blindElem, JWF, JWFObj, GoMap.keys]
        · by_cases hl : l = []
          · subst hl; simp [JWFArr]
          · exact ih hj.2 hl
  | .obj ms, w, decs, hb, hu, hj => by
    simp only [Bl] at hb
    obtain ⟨f, hid, sd, lv, dn, dl, rfl, hm, hh, _⟩ := hb
    simp only [Node.erase, Unreserved] at hu
    simp only [Node.erase, JWF] at hj
    obtain ⟨w1, w2, w3⟩ := hh.wf
    simp only [JWF]
    refine ⟨?_, jwfObj_append.mpr ⟨BlM.jwf ms hm hu hj.2, w2⟩⟩
    simp only [GoMap.keys, List.map_append]
    rw [List.nodup_append]
    refine ⟨hj.1.sublist (BlM.keys_sublist ms hm), w1, ?_⟩
    intro a ha b hb e
    subst e
    have := unreserved_key hu (hm.keys ms a ha)
    rcases w3 a hb with e | e
    · exact this.1 e
    · exact this.2.1 e
theorem BlM.jwf {env : Env} {h : String → String} : ∀ (ms : Members) {f lv dn},
    BlM env h ms f lv dn → UnreservedObj ms.erase → JWFObj ms.erase → JWFObj f
  | .nil, f, lv, dn, hb, _, _ => by
    simp only [BlM] at hb
    rw [hb.1]; simp [JWFObj]
  | .cons k none t ms, f, lv, dn, hb, hu, hj => by
    simp only [BlM] at hb
    obtain ⟨w, f', d1, d2, rfl, h1, h2, _⟩ := hb
    simp only [Members.erase, UnreservedObj] at hu
    simp only [Members.erase, JWFObj] at hj ⊢
    exact ⟨Bl.jwf t h1 hu.2.1 hj.1, BlM.jwf ms h2 hu.2.2 hj.2⟩
  | .cons k (some s) t ms, f, lv, dn, hb, hu, hj => by
    simp only [BlM] at hb
    obtain ⟨w, salt, lv', d1, d2, rfl, _, _, h2, _⟩ := hb
    simp only [Members.erase, UnreservedObj] at hu
    simp only [Members.erase, JWFObj] at hj ⊢
    exact BlM.jwf ms h2 hu.2.2 hj.2
end

/-! ## What the verifier and the holder get -/

theorem getDisclosureClaim_decodes {env : Env} {alg s : String} {salt : String}
    (h : (∃ v, env.decode s = some [.str salt, v]) ∨
      ∃ k v, env.decode s = some [.str salt, .str k, v]) :
    ∃ p, getDisclosureClaim env alg s = .ok p := by
  rcases h with ⟨v, h⟩ | ⟨k, v, h⟩
  · simp [getDisclosureClaim, h]
  · simp [getDisclosureClaim, h]

theorem tab_of {env : Env} {alg : String} {D : DMap} {S L decs : List String}
    (hD : Decoded env alg S D) (hS : ∀ s ∈ S, s ∈ L)
    (hn : (L.map (env.hash alg) ++ decs).Nodup) : Tab env alg D S L decs := by
  have hinj : ∀ s ∈ L, ∀ s' ∈ L, env.hash alg s = env.hash alg s' → s = s' := by
    intro s hs s' hs' e
    have h1 := (List.nodup_append.mp hn).1
    induction L with
    | nil => cases hs
    | cons a L _ =>
      clear hS hn
      exact Classical.byContradiction fun hne => by
        have := List.pairwise_map.mp (List.nodup_iff_pairwise_ne.mp h1)
        obtain ⟨i, hi, rfl⟩ := List.mem_iff_getElem.mp hs
        obtain ⟨j, hj, rfl⟩ := List.mem_iff_getElem.mp hs'
        rw [List.pairwise_iff_getElem] at this
        rcases Nat.lt_trichotomy i j with h | h | h
        · exact this i j hi hj h e
        · subst h; exact hne rfl
        · exact this j i hj hi h e.symm
  refine ⟨?_, ?_, ?_⟩
  · intro s hs hS'
    obtain ⟨c, hc⟩ := hD.all s hS'
    obtain ⟨s', hs', hi⟩ := hD.from_list _ c hc
    have : s = s' := hinj s hs s' (hS s' hs') hi.1
    subst this
    exact ⟨c, hc, hi⟩
  · intro s hs hS'
    cases hc : GoMap.get? D (env.hash alg s) with
    | none => rfl
    | some c =>
      obtain ⟨s', hs', hi⟩ := hD.from_list _ c hc
      have : s = s' := hinj s hs s' (hS s' hs') hi.1
      subst this
      exact absurd hs' hS'
  · intro d hd
    cases hc : GoMap.get? D d with
    | none => rfl
    | some c =>
      obtain ⟨s', hs', hi⟩ := hD.from_list _ c hc
      exact absurd hi.1.symm ((List.nodup_append.mp hn).2.2 (env.hash alg s')
        (List.mem_map.mpr ⟨s', hS s' hs', rfl⟩) d hd)

theorem sublist_flatMap {l l' : List String} (h : l.Sublist l') (f : String → List String) :
    (l.flatMap f).Sublist (l'.flatMap f) := by
  induction h with
  | slnil => exact List.Sublist.refl _
  | cons a _ ih => simp only [List.flatMap_cons]; exact ih.trans (List.sublist_append_right _ _)
  | cons_cons a _ ih => simp only [List.flatMap_cons]; exact List.Sublist.append (List.Sublist.refl _) ih

/-- A blinded object: processing the presented disclosures `S` gives exactly the clear claims and
the claims disclosed by `S`; and `S` passes verification if, with a nested disclosure, the
disclosures around it are presented. -/
theorem blind_processed {env : Env} (he : EnvWF env) {alg : String} {ms : Members} {payload : JObj}
    {decs : List String} (hb : Bl env (env.hash alg) (.obj ms) (.obj payload) decs)
    (hu : UnreservedObj ms.erase) (hj : JWF (.obj ms.erase))
    (ha : getHashAlg env payload = some alg)
    (hn : (ms.discs.map (env.hash alg) ++ decs).Nodup) {S : List String} (hS : ∀ s ∈ S, s ∈ ms.discs)
    (hnS : S.Nodup) {order : DMap → List String} (ho : ∀ D, ∀ d ∈ GoMap.keys D, d ∈ order D) :
    (∃ out, disclosedClaims env S payload order = .ok out ∧ OEq out (ms.reveal S)) ∧
      (ms.Closed S → verifyDisclosures env S payload = .ok ()) := by
  have hdec := hb.decodes (.obj ms)
  obtain ⟨D, hg⟩ := getDisclosureClaims_total (env := env) (alg := alg) S [] (by
    intro s hs
    obtain ⟨salt, h⟩ := hdec s (hS s hs)
    obtain ⟨⟨d, c⟩, hp⟩ := getDisclosureClaim_decodes (alg := alg) h
    exact ⟨d, c, hp⟩)
  have hD := decoded_of_ok hg
  have ht : Tab env alg D S ms.discs decs := tab_of hD hS hn
  have hjw : JWF (.obj payload) := hb.jwf (.obj ms) (by simpa [Node.erase, Unreserved] using hu) hj
  have hcol : NoCollision env alg S := by
    intro s hs s' hs' e
    obtain ⟨c, h1, hi1⟩ := ht.on s (hS s hs) hs
    obtain ⟨c', h2, hi2⟩ := ht.on s' (hS s' hs') hs'
    rw [e, h2] at h1
    cases h1
    rw [← hi1.2.1, hi2.2.1]
  have hSub : ∀ cl, (S.flatMap (valueDigests env cl)).Subperm (ms.discs.flatMap (valueDigests env cl)) := by
    intro cl
    have h1 : S.Subperm ms.discs := List.subperm_of_subset hnS hS
    obtain ⟨l, hl1, hl2⟩ := h1
    exact ⟨l.flatMap (valueDigests env cl), hl1.flatMap_right _, sublist_flatMap hl2 _⟩
  have hnd : ∀ cl, (digests cl (.obj payload) ++ S.flatMap (valueDigests env cl)).Nodup := by
    intro cl
    have h1 := (hb.digests cl (.obj ms) (by simpa [Node.erase, Unreserved] using hu)).nodup_iff.mpr hn
    obtain ⟨l, hl1, hl2⟩ := hSub cl
    exact ((hl1.append_left _).nodup_iff).mp (h1.sublist (List.Sublist.append (List.Sublist.refl _) hl2))
  have hun : Unreserved (Node.obj ms).erase := by simpa [Node.erase, Unreserved] using hu
  obtain ⟨w1, r1, r2, r3⟩ := hb.resolve (cl := true) (.obj ms) hun hj ht
  obtain ⟨w0, q1, _, _⟩ := hb.resolve (cl := false) (.obj ms) hun hj ht
  refine ⟨?_, ?_⟩
  · obtain ⟨out, rfl, hout⟩ := disclosedClaims_ok_of he hjw ho ha hg (by
      intro d hd
      obtain ⟨c, hc⟩ := Option.isSome_iff_exists.mp (GoMap.get?_isSome_iff.mpr hd)
      obtain ⟨s, hs, hi⟩ := hD.from_list d c hc
      rw [hi.1]
      exact r3 s (hS s hs) hs)
      ((flatMap_keys hD hcol hnS).nodup_iff.mpr (List.nodup_append.mp (hnd true)).2.1)
      (List.nodup_append.mp (hnd true)).1 r1
    refine ⟨out, hout, ?_⟩
    have := r2 rfl
    simp only [Node.reveal] at this
    exact JE.shape this
  · intro hc
    exact verify_of he hjw hnS hcol ha hg (hnd false)
      (fun s hs => hb.reach (cl := false) (.obj ms) hun ht (by simpa [Node.Closed] using hc)
        (fun d hd => .root hd) s (hS s hs) hs) ⟨w0, q1⟩

end VC.SDJWT
