import Batteries.Data.List.Basic
import Verif.Verifiable.SdMake
/-!
# C134: displaying a credential again

`CreateDisplayCredential(Map)` puts the values of the disclosures themselves into the credential it
returns, and `clearEmpty` then deletes the empty objects below the subject **in place**
(credential_sdjwt.go:563-569, 597-607): displaying changes the disclosures of the credential.
Later displays do not show the difference.
-/

namespace VC.Vfy

open GoMap
open VC.SDJWT (JWF JWFObj DMap Disc digests fieldDigests sdDigests arrDigests Hidden Resolve Resolves assemble placeholder?)

/-! ## Model -/

/-- `clearEmpty`, credential_sdjwt.go:597-607, on a value that is an object: the object itself stays,
even if nothing is left in it. -/
def clearIn : Json → Json
  | .obj o => .obj (clearEmpty o)
  | j => j

mutual
/-- The digests in the `_sd` members of objects reached through objects only: the claims disclosed for
them are visited by `clearEmpty` (which does not enter arrays). -/
def objDigests : Json → List String
  | .obj o => sdDigests o ++ objFieldDigests o
  | _ => []
/-- The same for the members of an object. -/
def objFieldDigests : List (String × Json) → List String
  | [] => []
  | (k, v) :: o => (if Hidden true k then [] else objDigests v) ++ objFieldDigests o
end

/-- The digests of the disclosures shown inside the subject object: those below the subject, and that of
the subject itself if the whole of it is a disclosure. -/
def subjectDigests (claims : JObj) (D : DMap) : List String :=
  (match get? claims "credentialSubject" with
    | some v => objDigests v
    | none => []) ++
  (sdDigests claims).filter (fun d => (get? D d).map (·.name) == some "credentialSubject")

/-- The disclosures after a display, credential_sdjwt.go:510-514, 563-569: the values shown in the subject
are cleared in place. -/
def afterDisplay (claims : JObj) (all : Bool) (given : List String) (D : DMap) : DMap :=
  D.map fun p =>
    if (all || given.contains p.2.name) && (subjectDigests claims D).contains p.1 then
      (p.1, { p.2 with value := clearIn p.2.value })
    else p

/-! ## Specification -/

namespace Spec

/-- Two disclosures that differ in their values only. -/
def SameButValue (c c' : Disc) : Prop :=
  c'.disclosure = c.disclosure ∧ c'.elems = c.elems ∧ c'.name = c.name ∧ c'.parsed = c.parsed

/-- One display changes the disclosures from `D` to `D'`.  The values of disclosures nested in others are
parts of the values of those; nothing is assumed about them (their digests are not in the claims). -/
def Redisplayed (claims : JObj) (all : Bool) (given : List String) (D D' : DMap) : Prop :=
  List.Forall₂ (fun p q => q.1 = p.1 ∧ SameButValue p.2 q.2 ∧
    (p.1 ∈ digests true (.obj claims) → q.2.value = p.2.value)) (afterDisplay claims all given D) D'

/-- What the credential `vc0` can be after displays of it, one after another, with any options. -/
inductive Displays (env : PEnv) (vc0 : PCred env.T) : PCred env.T → Prop
  | refl : Displays env vc0 vc0
  | step (vc : PCred env.T) (a : _) (e : JwtEnvelope) (r : _) (all : Bool) (given : List String) (out : JObj)
      (D' : DMap) : Displays env vc0 vc → vc.contents.sdAlg = some a → vc.jwt = some e →
      decodeCredJWT env e.jwt = .ok r →
      createDisplayMap env vc all given = .ok out → Redisplayed r.2 all given e.disclosures D' →
      Displays env vc0 { vc with jwt := some { e with disclosures := D' } }

end Spec
open Spec

/-! ## Clearing -/

theorem clearIn_obj_inv {v : Json} {o : List (String × Json)} (h : clearIn v = .obj o) : ∃ o', v = .obj o' := by
  cases v with
  | obj o' => exact ⟨o', rfl⟩
  | null => cases h
  | bool b => cases h
  | num n => cases h
  | str s => cases h
  | arr l => cases h

theorem clearValue_clearIn (v : Json) :
    clearValue v = match clearIn v with
      | .obj [] => none
      | j => some j := by
  cases v with
  | obj o =>
    simp only [clearValue, clearIn]
    cases clearEmpty o with
    | nil => rfl
    | cons p l => rfl
  | null => rfl
  | bool b => rfl
  | num n => rfl
  | str s => rfl
  | arr l => rfl

theorem clearValue_of_clearIn {v w : Json} (h : clearIn v = clearIn w) : clearValue v = clearValue w := by
  rw [clearValue_clearIn, clearValue_clearIn, h]

theorem isNull_of_clearIn {v w : Json} (h : clearIn v = clearIn w) : v.isNull = w.isNull := by
  cases v <;> cases w <;> first | rfl | cases h

mutual
theorem clearEmpty_idem : ∀ m : List (String × Json), clearEmpty (clearEmpty m) = clearEmpty m
  | [] => rfl
  | (k, v) :: l => by
    have ih := clearEmpty_idem l
    have hv := clearValue_idem v
    simp only [clearEmpty]
    cases h : clearValue v with
    | none => exact ih
    | some v' => simp only [clearEmpty, hv v' h, ih]
theorem clearValue_idem : ∀ v v' : Json, clearValue v = some v' → clearValue v' = some v'
  | .obj o, v', h => by
    have ih := clearEmpty_idem o
    simp only [clearValue] at h
    cases hc : clearEmpty o with
    | nil => rw [hc] at h; cases h
    | cons p l =>
      rw [hc] at h ih
      cases h
      simp only [clearValue, ih]
  | .null, v', h => by cases h; rfl
  | .bool b, v', h => by cases h; rfl
  | .num n, v', h => by cases h; rfl
  | .str s, v', h => by cases h; rfl
  | .arr l, v', h => by cases h; rfl
end

theorem clearIn_idem (v : Json) : clearIn (clearIn v) = clearIn v := by
  cases v with
  | obj o => simp only [clearIn, clearEmpty_idem]
  | null => rfl
  | bool b => rfl
  | num n => rfl
  | str s => rfl
  | arr l => rfl

/-- Two objects with the same names whose values clear to the same. -/
abbrev SameCleared (o o' : List (String × Json)) : Prop :=
  List.Forall₂ (fun p q : String × Json => q.1 = p.1 ∧ clearIn q.2 = clearIn p.2) o o'

theorem clearEmpty_of_same {o o' : List (String × Json)} (h : SameCleared o o') : clearEmpty o' = clearEmpty o := by
  induction h with
  | nil => rfl
  | @cons p q l l' h _ ih =>
    obtain ⟨k, v⟩ := p
    obtain ⟨k', v'⟩ := q
    obtain ⟨rfl, h2⟩ := h
    simp only [clearEmpty, clearValue_of_clearIn h2, ih]

theorem keys_of_forall {α β : Type} {R : String × α → String × β → Prop} {o : GoMap α} {o' : GoMap β}
    (hR : ∀ p q, R p q → q.1 = p.1) (h : List.Forall₂ R o o') : keys o' = keys o := by
  induction h with
  | nil => rfl
  | cons h _ ih => simp only [keys, List.map_cons, hR _ _ h] at ih ⊢; rw [ih]

theorem forall_filter {α : Type} {R : α → α → Prop} {f : α → Bool} {o o' : List α}
    (hR : ∀ p q, R p q → f q = f p) (h : List.Forall₂ R o o') : List.Forall₂ R (o.filter f) (o'.filter f) := by
  induction h with
  | nil => exact .nil
  | @cons p q l l' h _ ih =>
    simp only [List.filter_cons, hR _ _ h]
    split
    · exact .cons h ih
    · exact ih

theorem forall_append {α : Type} {R : α → α → Prop} {a a' b b' : List α}
    (h : List.Forall₂ R a a') (h' : List.Forall₂ R b b') : List.Forall₂ R (a ++ b) (a' ++ b') := by
  induction h with
  | nil => exact h'
  | cons h _ ih => exact .cons h ih

theorem forall_get {α : Type} {R : String × α → String × α → Prop} {o o' : GoMap α}
    (hR : ∀ p q, R p q → q.1 = p.1) (h : List.Forall₂ R o o') (k : String) :
    (get? o k = none ∧ get? o' k = none) ∨ ∃ v v', get? o k = some v ∧ get? o' k = some v' ∧ R (k, v) (k, v') := by
  induction h with
  | nil => exact .inl ⟨rfl, rfl⟩
  | @cons p q l l' h _ ih =>
    obtain ⟨k1, v⟩ := p
    obtain ⟨k2, v'⟩ := q
    have e := hR _ _ h
    dsimp only at e
    subst e
    rw [get?_cons, get?_cons]
    by_cases hk : k2 = k
    · subst hk
      exact .inr ⟨v, v', by simp, by simp, h⟩
    · rw [if_neg hk, if_neg hk]
      exact ih

/-! ## Digests of arrays -/

mutual
/-- The digests in arrays reached through objects. -/
def arrIn : Json → List String
  | .obj o => arrInFields o
  | .arr l => arrDigests l
  | _ => []
/-- The same for the members of an object. -/
def arrInFields : List (String × Json) → List String
  | [] => []
  | (k, v) :: o => (if Hidden true k then [] else arrIn v) ++ arrInFields o
end

mutual
theorem count_digests (d : String) : ∀ v : Json,
    (digests true v).count d = (objDigests v).count d + (arrIn v).count d
  | .obj o => by
    have := count_fieldDigests d o
    simp only [digests, objDigests, arrIn, List.count_append]
    omega
  | .arr l => by simp [digests, objDigests, arrIn]
  | .null => by simp [digests, objDigests, arrIn]
  | .bool _ => by simp [digests, objDigests, arrIn]
  | .num _ => by simp [digests, objDigests, arrIn]
  | .str _ => by simp [digests, objDigests, arrIn]
theorem count_fieldDigests (d : String) : ∀ o : List (String × Json),
    (fieldDigests true o).count d = (objFieldDigests o).count d + (arrInFields o).count d
  | [] => by simp [fieldDigests, objFieldDigests, arrInFields]
  | (k, v) :: o => by
    have h1 := count_digests d v
    have h2 := count_fieldDigests d o
    simp only [fieldDigests, objFieldDigests, arrInFields, List.count_append]
    split
    · simp only [List.count_nil]; omega
    · omega
end

theorem objDigests_sub {v : Json} {d : String} (h : d ∈ objDigests v) : d ∈ digests true v := by
  have := count_digests d v
  have h1 := List.count_pos_iff.2 h
  exact List.count_pos_iff.1 (by omega)

theorem arrIn_sub {v : Json} {d : String} (h : d ∈ arrIn v) : d ∈ digests true v := by
  have := count_digests d v
  have h1 := List.count_pos_iff.2 h
  exact List.count_pos_iff.1 (by omega)

theorem arr_not_obj {v : Json} (hn : (digests true v).Nodup) {d : String} (h : d ∈ arrIn v) : d ∉ objDigests v := by
  intro h'
  have := count_digests d v
  have h1 := List.count_pos_iff.2 h
  have h2 := List.count_pos_iff.2 h'
  have h3 := List.nodup_iff_count.1 hn d
  omega

theorem mem_fieldDigests {m : JObj} {k : String} {v : Json} (hm : (k, v) ∈ m) (hk : ¬ Hidden true k) {d : String}
    (hd : d ∈ digests true v) : d ∈ fieldDigests true m := by
  induction m with
  | nil => cases hm
  | cons p l ih =>
    obtain ⟨k', v'⟩ := p
    simp only [fieldDigests, List.mem_append]
    rcases List.mem_cons.1 hm with e | hm
    · cases e
      left
      rw [if_neg hk]
      exact hd
    · exact .inr (ih hm)

theorem fields_apart {m : JObj} (hn : (fieldDigests true m).Nodup) {k k' : String} {v v' : Json} (hm : (k, v) ∈ m)
    (hm' : (k', v') ∈ m) (hk : ¬ Hidden true k) (hk' : ¬ Hidden true k') (hne : k ≠ k') {d : String}
    (hd : d ∈ digests true v) : d ∉ digests true v' := by
  induction m with
  | nil => cases hm
  | cons p l ih =>
    obtain ⟨k1, v1⟩ := p
    simp only [fieldDigests] at hn
    obtain ⟨_, n2, n3⟩ := List.nodup_append.1 hn
    intro hd'
    rcases List.mem_cons.1 hm with e | hm1
    · cases e
      rw [if_neg hk] at n3
      rcases List.mem_cons.1 hm' with e | hm2
      · cases e; exact hne rfl
      · exact n3 d hd d (mem_fieldDigests hm2 hk' hd') rfl
    · rcases List.mem_cons.1 hm' with e | hm2
      · cases e
        rw [if_neg hk'] at n3
        exact n3 d hd' d (mem_fieldDigests hm1 hk hd) rfl
      · exact ih n2 hm1 hm2 hd'

theorem field_nodup {m : JObj} (hn : (fieldDigests true m).Nodup) {k : String} {v : Json} (hm : (k, v) ∈ m)
    (hk : ¬ Hidden true k) : (digests true v).Nodup := by
  induction m with
  | nil => cases hm
  | cons p l ih =>
    obtain ⟨k1, v1⟩ := p
    simp only [fieldDigests] at hn
    obtain ⟨n1, n2, _⟩ := List.nodup_append.1 hn
    rcases List.mem_cons.1 hm with e | hm1
    · cases e
      rwa [if_neg hk] at n1
    · exact ih n2 hm1

/-! ## Resolving with cleared values -/

/-- The digest is unknown to both, or has the same resolved disclosure. -/
def EqvAt (D D' : DMap) (d : String) : Prop :=
  (get? D d = none ∧ get? D' d = none) ∨ ∃ c c', get? D d = some c ∧ get? D' d = some c' ∧ SameButValue c c' ∧
    c.parsed = true ∧ c'.value = c.value

/-- The same up to clearing. -/
def NearAt (D D' : DMap) (d : String) : Prop :=
  (get? D d = none ∧ get? D' d = none) ∨ ∃ c c', get? D d = some c ∧ get? D' d = some c' ∧ SameButValue c c' ∧
    c.parsed = true ∧ clearIn c'.value = clearIn c.value

theorem EqvAt.near {D D' : DMap} {d : String} (h : EqvAt D D' d) : NearAt D D' d := by
  rcases h with h | ⟨c, c', h1, h2, h3, h4, h5⟩
  · exact .inl h
  · exact .inr ⟨c, c', h1, h2, h3, h4, by rw [h5]⟩

variable {D D' : DMap}

theorem sdDigests_of {m : JObj} {v : Json} {sd : List String} (h1 : get? m "_sd" = some v)
    (h2 : SDJWT.stringArray v = some sd) : sdDigests m = sd := by
  unfold sdDigests
  rw [h1]
  exact SDJWT.stringArray_elems h2

theorem resolve_eqv {t : SDJWT.Task} {o : SDJWT.Out} (h : Resolve true D t o)
    (hd : ∀ d ∈ SDJWT.taskDigests true t, EqvAt D D' d) : Resolve true D' t o := by
  induction h with
  | scalar h => exact .scalar h
  | arr _ ih => exact .arr (ih fun d hm => hd d (by simpa [SDJWT.taskDigests, digests] using hm))
  | @obj m sd claims missing fs h1 h2 h3 h4 h5 ih2 ih3 =>
    refine .obj h1 (ih2 fun d hm => hd d ?_) (ih3 fun d hm => hd d ?_) h4 h5
    · simp only [SDJWT.taskDigests, digests, List.mem_append] at hm ⊢
      left
      rcases h1 with ⟨_, rfl⟩ | ⟨v, e1, e2⟩
      · cases hm
      · rw [sdDigests_of e1 e2]; exact hm
    · simp only [SDJWT.taskDigests, digests, List.mem_append] at hm ⊢
      exact .inr hm
  | @done d c h1 h2 =>
    rcases hd d (by simp [SDJWT.taskDigests]) with h | ⟨x, c', g1, g2, g3, g4, g5⟩
    · rw [h1] at h; cases h.1
    · rw [h1] at g1; cases g1
      rw [← g5]
      exact .done g2 (g3.2.2.2.trans g4)
  | @disc d c w h1 h2 _ _ =>
    rcases hd d (by simp [SDJWT.taskDigests]) with h | ⟨x, c', g1, g2, g3, g4, g5⟩
    · rw [h1] at h; cases h.1
    · rw [h1] at g1; cases g1
      rw [h2] at g4; cases g4
  | enil => exact .enil
  | @eplain v l out h1 _ ih =>
    exact .eplain h1 (ih fun d hm => hd d (by
      simp only [SDJWT.taskDigests, arrDigests, List.filterMap_cons, h1, Option.bind_none] at hm ⊢; exact hm))
  | @emiss v d l out h1 h2 _ ih =>
    have hm0 : SDJWT.taskDigests true (.elems (v :: l)) = d :: SDJWT.taskDigests true (.elems l) := by
      simp [SDJWT.taskDigests, arrDigests, List.filterMap_cons, h1, Json.asStr?]
    rw [hm0] at hd
    refine .emiss h1 ?_ (ih fun x hx => hd x (List.mem_cons_of_mem _ hx))
    rcases hd d (List.mem_cons_self ..) with h | ⟨x, c', g1, g2, g3, g4, g5⟩
    · exact h.2
    · rw [h2] at g1; cases g1
  | @edisc v d c w l out h1 h2 h3 _ _ ih1 ih2 =>
    have hm0 : SDJWT.taskDigests true (.elems (v :: l)) = d :: SDJWT.taskDigests true (.elems l) := by
      simp [SDJWT.taskDigests, arrDigests, List.filterMap_cons, h1, Json.asStr?]
    rw [hm0] at hd
    rcases hd d (List.mem_cons_self ..) with h | ⟨x, c', g1, g2, g3, g4, g5⟩
    · rw [h2] at h; cases h.1
    · rw [h2] at g1; cases g1
      refine .edisc h1 g2 (g3.2.1.trans h3) (ih1 fun x hx => ?_) (ih2 fun x hx => hd x (List.mem_cons_of_mem _ hx))
      simp only [SDJWT.taskDigests, List.mem_singleton] at hx
      subst hx
      exact hd x (List.mem_cons_self ..)
  | snil => exact .snil
  | @smiss d dl claims missing h1 _ ih =>
    refine .smiss ?_ (ih fun x hx => hd x (List.mem_cons_of_mem _ hx))
    rcases hd d (List.mem_cons_self ..) with h | ⟨x, c', g1, g2, g3, g4, g5⟩
    · exact h.2
    · rw [h1] at g1; cases g1
  | @sdisc d c w dl claims missing h1 h2 _ _ ih1 ih2 =>
    rcases hd d (List.mem_cons_self ..) with h | ⟨x, c', g1, g2, g3, g4, g5⟩
    · rw [h1] at h; cases h.1
    · rw [h1] at g1; cases g1
      rw [← g3.2.2.1]
      refine .sdisc g2 (g3.2.1.trans h2) (ih1 fun x hx => ?_) (ih2 fun x hx => hd x (List.mem_cons_of_mem _ hx))
      simp only [SDJWT.taskDigests, List.mem_singleton] at hx
      subst hx
      exact hd x (List.mem_cons_self ..)
  | fnil => exact .fnil
  | @fskip k v m fs h1 _ ih =>
    exact .fskip h1 (ih fun d hm => hd d (by simp only [SDJWT.taskDigests, fieldDigests, h1, if_true, List.nil_append] at hm ⊢; exact hm))
  | @fcons k v w m fs h1 _ _ ih1 ih2 =>
    refine .fcons h1 (ih1 fun d hm => hd d ?_) (ih2 fun d hm => hd d ?_)
    · simp only [SDJWT.taskDigests, fieldDigests, h1, if_false, List.mem_append] at hm ⊢
      exact .inl hm
    · simp only [SDJWT.taskDigests, fieldDigests, h1, if_false, List.mem_append] at hm ⊢
      exact .inr hm

/-- What is kept when values may differ up to clearing. -/
def NearP (D D' : DMap) : SDJWT.Task → SDJWT.Out → Prop
  | .val v, .val w => (∀ d ∈ objDigests v, NearAt D D' d) → (∀ d ∈ arrIn v, EqvAt D D' d) →
      ∃ w', Resolve true D' (.val v) (.val w') ∧ clearIn w' = clearIn w
  | .disc d, .val w => NearAt D D' d → ∃ w', Resolve true D' (.disc d) (.val w') ∧ clearIn w' = clearIn w
  | .sds l, .sds claims missing => (∀ d ∈ l, NearAt D D' d) →
      ∃ claims', Resolve true D' (.sds l) (.sds claims' missing) ∧ SameCleared claims claims'
  | .fields m, .fields fs => (∀ d ∈ objFieldDigests m, NearAt D D' d) → (∀ d ∈ arrInFields m, EqvAt D D' d) →
      ∃ fs', Resolve true D' (.fields m) (.fields fs') ∧ SameCleared fs fs'
  | _, _ => True

theorem sameCleared_keys {o o' : List (String × Json)} (h : SameCleared o o') : keys o' = keys o :=
  keys_of_forall (fun _ _ h => h.1) h

theorem fields_fresh {claims fs : JObj} {claims' fs' : JObj} (h : keys claims' = keys claims) (h' : keys fs' = keys fs)
    (hf : ∀ p ∈ fs, p.1 ∉ keys claims) : ∀ p ∈ fs', p.1 ∉ keys claims' := by
  intro p hp
  have : p.1 ∈ keys fs := h' ▸ List.mem_map.2 ⟨p, hp, rfl⟩
  obtain ⟨q, hq, e⟩ := List.mem_map.1 this
  rw [h, ← e]
  exact hf q hq

theorem assemble_true (claims : JObj) (missing : List String) (fs : JObj) :
    assemble true claims missing fs = claims ++ fs.filter (fun p => !p.2.isNull) := by
  simp [assemble]

theorem resolve_near {t : SDJWT.Task} {o : SDJWT.Out} (h : Resolve true D t o) : NearP D D' t o := by
  induction h with
  | scalar h => exact fun _ _ => ⟨_, .scalar h, rfl⟩
  | @arr l out h _ =>
    intro _ ha
    exact ⟨_, resolve_eqv (.arr h) (fun d hd => ha d (by simpa [SDJWT.taskDigests, digests, arrIn] using hd)), rfl⟩
  | @obj m sd claims missing fs h1 h2 h3 h4 h5 ih2 ih3 =>
    intro hn ha
    simp only [objDigests, List.mem_append] at hn
    simp only [arrIn] at ha
    obtain ⟨claims', r1, s1⟩ := ih2 fun d hd => hn d (by
      left
      rcases h1 with ⟨_, rfl⟩ | ⟨v, e1, e2⟩
      · cases hd
      · rw [sdDigests_of e1 e2]; exact hd)
    obtain ⟨fs', r2, s2⟩ := ih3 (fun d hd => hn d (.inr hd)) ha
    refine ⟨_, .obj h1 r1 r2 (sameCleared_keys s1 ▸ h4)
      (fields_fresh (sameCleared_keys s1) (sameCleared_keys s2) h5), ?_⟩
    rw [assemble_true, assemble_true]
    simp only [clearIn]
    congr 1
    refine clearEmpty_of_same (forall_append s1 (forall_filter ?_ s2))
    intro p q hpq
    rw [isNull_of_clearIn hpq.2]
  | @done d c h1 h2 =>
    intro hn
    rcases hn with h | ⟨x, c', g1, g2, g3, g4, g5⟩
    · rw [h1] at h; cases h.1
    · rw [h1] at g1; cases g1
      exact ⟨_, .done g2 (g3.2.2.2.trans g4), g5⟩
  | @disc d c w h1 h2 _ _ =>
    intro hn
    rcases hn with h | ⟨x, c', g1, g2, g3, g4, g5⟩
    · rw [h1] at h; cases h.1
    · rw [h1] at g1; cases g1
      rw [h2] at g4; cases g4
  | enil => trivial
  | eplain _ _ _ => trivial
  | emiss _ _ _ _ => trivial
  | edisc _ _ _ _ _ _ _ => trivial
  | snil => exact fun _ => ⟨_, .snil, .nil⟩
  | @smiss d dl claims missing h1 _ ih =>
    intro hn
    obtain ⟨c', r, s⟩ := ih fun x hx => hn x (List.mem_cons_of_mem _ hx)
    refine ⟨c', .smiss ?_ r, s⟩
    rcases hn d (List.mem_cons_self ..) with h | ⟨x, c', g1, _⟩
    · exact h.2
    · rw [h1] at g1; cases g1
  | @sdisc d c w dl claims missing h1 h2 _ _ ih1 ih2 =>
    intro hn
    obtain ⟨cl', r, s⟩ := ih2 fun x hx => hn x (List.mem_cons_of_mem _ hx)
    obtain ⟨w', r', e⟩ := ih1 (hn d (List.mem_cons_self ..))
    rcases hn d (List.mem_cons_self ..) with h | ⟨x, c', g1, g2, g3, g4, g5⟩
    · rw [h1] at h; cases h.1
    · rw [h1] at g1; cases g1
      exact ⟨_, .sdisc g2 (g3.2.1.trans h2) r' r, .cons ⟨g3.2.2.1, e⟩ s⟩
  | fnil => exact fun _ _ => ⟨_, .fnil, .nil⟩
  | @fskip k v m fs h1 _ ih =>
    intro hn ha
    simp only [objFieldDigests, h1, if_true, List.nil_append] at hn
    simp only [arrInFields, h1, if_true, List.nil_append] at ha
    obtain ⟨fs', r, s⟩ := ih hn ha
    exact ⟨fs', .fskip h1 r, s⟩
  | @fcons k v w m fs h1 _ _ ih1 ih2 =>
    intro hn ha
    simp only [objFieldDigests, h1, if_false, List.mem_append] at hn
    simp only [arrInFields, h1, if_false, List.mem_append] at ha
    obtain ⟨fs', r, s⟩ := ih2 (fun d hd => hn d (.inr hd)) (fun d hd => ha d (.inr hd))
    obtain ⟨w', r', e⟩ := ih1 (fun d hd => hn d (.inl hd)) (fun d hd => ha d (.inl hd))
    exact ⟨_, .fcons h1 r' r, .cons ⟨rfl, e⟩ s⟩

/-! ## The claims of the credential -/

/-- Two objects with the same members, apart from the subject, which clears to the same. -/
abbrev SameTop (o o' : List (String × Json)) : Prop :=
  List.Forall₂ (fun p q : String × Json => q.1 = p.1 ∧ clearIn q.2 = clearIn p.2 ∧
    (p.1 ≠ "credentialSubject" → q.2 = p.2)) o o'

theorem sds_top {l : List String} {claims : JObj} {missing : List String}
    (h : Resolve true D (.sds l) (.sds claims missing))
    (hd : ∀ d ∈ l, EqvAt D D' d ∨ (NearAt D D' d ∧ ∀ c, get? D d = some c → c.name = "credentialSubject")) :
    ∃ claims', Resolve true D' (.sds l) (.sds claims' missing) ∧ SameTop claims claims' := by
  induction l generalizing claims missing with
  | nil => cases h; exact ⟨_, .snil, .nil⟩
  | cons d dl ih =>
    cases h with
    | smiss h1 h2 =>
      obtain ⟨c', r, s⟩ := ih h2 fun x hx => hd x (List.mem_cons_of_mem _ hx)
      refine ⟨c', .smiss ?_ r, s⟩
      have hn : NearAt D D' d := by
        rcases hd d (List.mem_cons_self ..) with h | h
        · exact h.near
        · exact h.1
      rcases hn with h | ⟨x, c', g1, _⟩
      · exact h.2
      · rw [h1] at g1; cases g1
    | @sdisc _ c w _ claims _ h1 h2 h3 h4 =>
      obtain ⟨cl', r, s⟩ := ih h4 fun x hx => hd x (List.mem_cons_of_mem _ hx)
      rcases hd d (List.mem_cons_self ..) with h | ⟨h, hname⟩
      · have r' := resolve_eqv h3 (D' := D') (fun x hx => by
          simp only [SDJWT.taskDigests, List.mem_singleton] at hx
          subst hx; exact h)
        rcases h with h | ⟨x, c', g1, g2, g3, g4, g5⟩
        · rw [h1] at h; cases h.1
        · rw [h1] at g1; cases g1
          exact ⟨_, .sdisc g2 (g3.2.1.trans h2) r' r, .cons ⟨g3.2.2.1, rfl, fun _ => rfl⟩ s⟩
      · obtain ⟨w', r', e⟩ := resolve_near h3 (D' := D') h
        rcases h with h | ⟨x, c', g1, g2, g3, g4, g5⟩
        · rw [h1] at h; cases h.1
        · rw [h1] at g1; cases g1
          exact ⟨_, .sdisc g2 (g3.2.1.trans h2) r' r,
            .cons ⟨g3.2.2.1, e, fun hne => absurd (hname _ h1) hne⟩ s⟩

theorem fields_top {m fs : JObj} (h : Resolve true D (.fields m) (.fields fs))
    (hc : ∀ v, ("credentialSubject", v) ∈ m →
      (∀ d ∈ objDigests v, NearAt D D' d) ∧ ∀ d ∈ arrIn v, EqvAt D D' d)
    (hd : ∀ k v, (k, v) ∈ m → k ≠ "credentialSubject" → ¬ Hidden true k → ∀ d ∈ digests true v, EqvAt D D' d) :
    ∃ fs', Resolve true D' (.fields m) (.fields fs') ∧ SameTop fs fs' := by
  induction m generalizing fs with
  | nil => cases h; exact ⟨_, .fnil, .nil⟩
  | cons p l ih =>
    obtain ⟨k, v⟩ := p
    cases h with
    | fskip h1 h2 =>
      obtain ⟨fs', r, s⟩ := ih h2 (fun v hv => hc v (List.mem_cons_of_mem _ hv))
        (fun k v hv => hd k v (List.mem_cons_of_mem _ hv))
      exact ⟨fs', .fskip h1 r, s⟩
    | @fcons _ _ w _ fs h1 h2 h3 =>
      obtain ⟨fs', r, s⟩ := ih h3 (fun v hv => hc v (List.mem_cons_of_mem _ hv))
        (fun k v hv => hd k v (List.mem_cons_of_mem _ hv))
      by_cases hk : k = "credentialSubject"
      · subst hk
        obtain ⟨a1, a2⟩ := hc v (List.mem_cons_self ..)
        obtain ⟨w', r', e⟩ := resolve_near h2 (D' := D') a1 a2
        exact ⟨_, .fcons h1 r' r, .cons ⟨rfl, e, fun hne => absurd rfl hne⟩ s⟩
      · have r' := resolve_eqv h2 (D' := D') (hd k v (List.mem_cons_self ..) hk h1)
        exact ⟨_, .fcons h1 r' r, .cons ⟨rfl, rfl, fun _ => rfl⟩ s⟩

theorem sameTop_keys {o o' : List (String × Json)} (h : SameTop o o') : keys o' = keys o :=
  keys_of_forall (fun _ _ h => h.1) h

theorem sameTop_eq {o o' : List (String × Json)} (h : SameTop o o') (hn : "credentialSubject" ∉ keys o) : o' = o := by
  induction h with
  | nil => rfl
  | @cons p q l l' h _ ih =>
    simp only [keys, List.map_cons, List.mem_cons, not_or] at hn
    obtain ⟨k, v⟩ := p
    obtain ⟨k', v'⟩ := q
    obtain ⟨e1, _, e2⟩ := h
    have e3 := e2 (fun e => hn.1 e.symm)
    dsimp only at e1 e3
    rw [e1, e3, ih hn.2]

theorem clearIn_nonobj {v : Json} (h : ∀ o, v ≠ .obj o) : clearIn v = v := by
  cases v with
  | obj o => exact absurd rfl (h o)
  | null => rfl
  | bool b => rfl
  | num n => rfl
  | str s => rfl
  | arr l => rfl

theorem clearSubject_sameTop {o o' : JObj} (h : SameTop o o') (hn : (keys o).Nodup) :
    clearSubject o' = clearSubject o := by
  have key : (∃ s s', get? o "credentialSubject" = some (.obj s) ∧ get? o' "credentialSubject" = some (.obj s') ∧
      ∀ x, GoMap.set o' "credentialSubject" x = GoMap.set o "credentialSubject" x ∧ clearEmpty s' = clearEmpty s) ∨
      ((∀ s, get? o "credentialSubject" ≠ some (.obj s)) ∧ o' = o) := by
    induction h with
    | nil => exact .inr ⟨fun s h => (nomatch h), rfl⟩
    | @cons p q l l' h ht ih =>
      obtain ⟨k, v⟩ := p
      obtain ⟨k', v'⟩ := q
      obtain ⟨e1, e2, e3⟩ := h
      dsimp only at e1 e2 e3
      subst e1
      have hn' := List.nodup_cons.1 hn
      by_cases hk : k' = "credentialSubject"
      · subst hk
        have hl : l' = l := sameTop_eq ht hn'.1
        subst hl
        by_cases hv : ∃ s, v = .obj s
        · obtain ⟨s, rfl⟩ := hv
          obtain ⟨s', rfl⟩ := clearIn_obj_inv e2
          refine .inl ⟨s, s', by simp [get?], by simp [get?], fun x => ⟨by simp [GoMap.set], ?_⟩⟩
          simpa [clearIn] using e2
        · have hv1 : ∀ o, v ≠ .obj o := fun o e => hv ⟨o, e⟩
          have hv2 : ∀ o, v' ≠ .obj o := by
            rintro o rfl
            obtain ⟨o1, e⟩ := clearIn_obj_inv (v := v) (o := clearEmpty o) e2.symm
            exact hv1 _ e
          rw [clearIn_nonobj hv1, clearIn_nonobj hv2] at e2
          subst e2
          exact .inr ⟨fun s e => hv1 s (by simpa [get?] using e), rfl⟩
      · have e4 := e3 hk
        subst e4
        rcases ih hn'.2 with ⟨s, s', g1, g2, g3⟩ | ⟨g1, g2⟩
        · refine .inl ⟨s, s', by simp [get?, hk, g1], by simp [get?, hk, g2], fun x => ⟨?_, (g3 x).2⟩⟩
          simp [GoMap.set, hk, (g3 x).1]
        · exact .inr ⟨fun s e => g1 s (by simpa [get?, hk] using e), by rw [g2]⟩
  rcases key with ⟨s, s', g1, g2, g3⟩ | ⟨g1, rfl⟩
  · unfold clearSubject
    rw [g1, g2]
    dsimp only
    rw [(g3 .null).2, (g3 _).1]
  · rfl

theorem fields_sub {m fs : JObj} (h : Resolve true D (.fields m) (.fields fs)) : (keys fs).Sublist (keys m) := by
  induction m generalizing fs with
  | nil => cases h; exact .slnil
  | cons p l ih =>
    obtain ⟨k, v⟩ := p
    cases h with
    | fskip h1 h2 => exact (ih h2).cons _
    | fcons h1 h2 h3 => exact (ih h3).cons_cons _

theorem assemble_nodup {claims fs : JObj} {missing : List String} (h1 : (keys claims).Nodup) (h2 : (keys fs).Nodup)
    (h3 : ∀ p ∈ fs, p.1 ∉ keys claims) : (keys (assemble true claims missing fs)).Nodup := by
  rw [assemble_true]
  simp only [keys, List.map_append] at h1 h2 h3 ⊢
  refine List.nodup_append.2 ⟨h1, (List.filter_sublist.map _).nodup h2, ?_⟩
  intro a ha b hb e
  subst e
  obtain ⟨p, hp, rfl⟩ := List.mem_map.1 hb
  exact h3 p (List.mem_of_mem_filter hp) ha

/-- The disclosures agree, up to clearing for the digests in `S`; those that are not in the claims at all
may differ in their values. -/
def SimD (claims : JObj) (S : List String) (D D' : DMap) : Prop :=
  List.Forall₂ (fun p q => q.1 = p.1 ∧ SameButValue p.2 q.2 ∧ p.2.parsed = true ∧
    (p.1 ∈ digests true (.obj claims) → clearIn q.2.value = clearIn p.2.value ∧
      (p.1 ∉ S → q.2.value = p.2.value))) D D'

theorem SimD.near {claims : JObj} {S : List String} (h : SimD claims S D D') {d : String}
    (hd : d ∈ digests true (.obj claims)) : NearAt D D' d := by
  rcases forall_get (fun _ _ h => h.1) h d with h | ⟨c, c', h1, h2, _, h3, h4, h5⟩
  · exact .inl h
  · exact .inr ⟨c, c', h1, h2, h3, h4, (h5 hd).1⟩

theorem SimD.eqv {claims : JObj} {S : List String} (h : SimD claims S D D') {d : String}
    (hd : d ∈ digests true (.obj claims)) (hs : d ∉ S) : EqvAt D D' d := by
  rcases forall_get (fun _ _ h => h.1) h d with h | ⟨c, c', h1, h2, _, h3, h4, h5⟩
  · exact .inl h
  · exact .inr ⟨c, c', h1, h2, h3, h4, (h5 hd).2 hs⟩

theorem subject_visible : ¬ Hidden true "credentialSubject" := by decide

/-- What the claims disclose is the same up to clearing the subject. -/
theorem resolves_top {m o : JObj} {S : List String} (hw : JWF (.obj m)) (hn : (digests true (.obj m)).Nodup)
    (hsim : SimD m S D D')
    (hS : ∀ d ∈ S, (∃ v, get? m "credentialSubject" = some v ∧ d ∈ objDigests v) ∨
      (d ∈ sdDigests m ∧ ∀ c, get? D d = some c → c.name = "credentialSubject"))
    (h : Resolves true D (.obj m) (.obj o)) :
    ∃ o', Resolves true D' (.obj m) (.obj o') ∧ clearSubject o' = clearSubject o := by
  have hfm : ∀ d, d ∈ fieldDigests true m → d ∈ digests true (.obj m) := fun d hd => by
    simp only [digests, List.mem_append]; exact .inr hd
  have hsm : ∀ d, d ∈ sdDigests m → d ∈ digests true (.obj m) := fun d hd => by
    simp only [digests, List.mem_append]; exact .inl hd
  have hnn := hn
  simp only [digests] at hnn
  obtain ⟨_, nF, nA⟩ := List.nodup_append.1 hnn
  have hget : ∀ v, ("credentialSubject", v) ∈ m → get? m "credentialSubject" = some v :=
    fun v hv => get?_of_mem hw.1 hv
  cases h with
  | scalar h => exact (h : False).elim
  | @obj _ sd claims missing fs h1 h2 h3 h4 h5 =>
    have hsd : ∀ d ∈ sd, d ∈ sdDigests m := by
      intro d hd
      rcases h1 with ⟨_, rfl⟩ | ⟨v, e1, e2⟩
      · cases hd
      · rw [sdDigests_of e1 e2]; exact hd
    obtain ⟨claims', r1, s1⟩ := sds_top h2 (D' := D') fun d hd => by
      by_cases hdS : d ∈ S
      · refine .inr ⟨hsim.near (hsm d (hsd d hd)), ?_⟩
        rcases hS d hdS with ⟨v, hv, hdv⟩ | ⟨_, hc⟩
        · exact absurd rfl (nA d (hsd d hd) d
            (mem_fieldDigests (mem_of_get? hv) subject_visible (objDigests_sub hdv)))
        · exact hc
      · exact .inl (hsim.eqv (hsm d (hsd d hd)) hdS)
    have hnotSd : ∀ d, d ∈ fieldDigests true m → d ∉ sdDigests m := fun d hd hd' => nA d hd' d hd rfl
    obtain ⟨fs', r2, s2⟩ := fields_top h3 (D' := D')
      (fun v hv => ⟨fun d hd => hsim.near (hfm d (mem_fieldDigests hv subject_visible (objDigests_sub hd))),
        fun d hd => by
          have hdf := mem_fieldDigests hv subject_visible (arrIn_sub hd)
          refine hsim.eqv (hfm d hdf) fun hdS => ?_
          rcases hS d hdS with ⟨v', hv', hdv⟩ | ⟨hc, _⟩
          · rw [hget v hv] at hv'
            cases hv'
            exact arr_not_obj (field_nodup nF hv subject_visible) hd hdv
          · exact hnotSd d hdf hc⟩)
      (fun k v hv hk hH d hd => by
        have hdf := mem_fieldDigests hv hH hd
        refine hsim.eqv (hfm d hdf) fun hdS => ?_
        rcases hS d hdS with ⟨v', hv', hdv⟩ | ⟨hc, _⟩
        · exact fields_apart nF hv (mem_of_get? hv') hH subject_visible hk hd (objDigests_sub hdv)
        · exact hnotSd d hdf hc)
    refine ⟨_, .obj h1 r1 r2 (sameTop_keys s1 ▸ h4) (fields_fresh (sameTop_keys s1) (sameTop_keys s2) h5), ?_⟩
    refine clearSubject_sameTop ?_ (assemble_nodup h4 ((fields_sub h3).nodup hw.1) h5)
    rw [assemble_true, assemble_true]
    refine forall_append s1 (forall_filter ?_ s2)
    intro p q hpq
    rw [isNull_of_clearIn hpq.2.1]

/-- With resolved disclosures, the claims are disclosed exactly if there is a hash algorithm, no digest is
written twice, and the digests resolve. -/
theorem disclosed_iff (env : SDJWT.Env) (hP : ∀ d c, get? D d = some c → c.parsed = true) (hK : WF D) {m o : JObj}
    (hw : JWF (.obj m)) :
    SDJWT.getDisclosedClaims env D m = .ok o ↔
      (SDJWT.getHashAlg env m).isSome ∧ (digests true (.obj m)).Nodup ∧ Resolves true D (.obj m) (.obj o) := by
  have hDW : SDJWT.DWF D := fun d c h1 h2 => by rw [hP d c h1] at h2; cases h2
  have hR : SDJWT.reachSet true D (digests true (.obj m)) = [] := by
    refine List.eq_nil_iff_forall_not_mem.2 fun d hd => ?_
    obtain ⟨_, c, hc, hp⟩ := SDJWT.mem_reachSet.1 hd
    rw [hP d c hc] at hp
    cases hp
  have hiff := SDJWT.disclose_iff (cl := true) hDW hK hw
  rw [hR, List.flatMap_nil, List.append_nil] at hiff
  unfold SDJWT.getDisclosedClaims
  cases ha : SDJWT.getHashAlg env m with
  | none => simp
  | some a =>
    simp only [Option.isSome_some, true_and]
    constructor
    · intro h
      cases hd : SDJWT.disclose true (SDJWT.fuelFor D (.obj m)) ⟨[], D⟩ (.obj m) with
      | error e => rw [hd] at h; cases h
      | ok q =>
        obtain ⟨w, st⟩ := q
        obtain ⟨r, _, _⟩ := SDJWT.disclose_sound _ _ _ _ _ hd SDJWT.Ext.refl (by simp)
        rw [hd] at h
        cases w with
        | obj o' => cases h; exact ⟨(hiff.1 ⟨_, _, hd⟩).2, r⟩
        | null => cases h
        | bool b => cases h
        | num n => cases h
        | str s => cases h
        | arr l => cases h
    · rintro ⟨hn, hr⟩
      obtain ⟨w, st, hd⟩ := hiff.2 ⟨⟨_, hr⟩, hn⟩
      obtain ⟨r, _, _⟩ := SDJWT.disclose_sound _ _ _ _ _ hd SDJWT.Ext.refl (by simp)
      have := SDJWT.resolve_det hr _ r
      cases this
      rw [hd]

/-! ## Histories of displays -/

theorem SimD.symm {claims : JObj} {S : List String} (h : SimD claims S D D') : SimD claims S D' D := by
  unfold SimD at h ⊢
  induction h with
  | nil => exact .nil
  | @cons p q l l' h _ ih =>
    obtain ⟨h1, ⟨a, b, c, d⟩, h3, h4⟩ := h
    refine .cons ⟨h1.symm, ⟨a.symm, b.symm, c.symm, d.symm⟩, d.trans h3, fun hm => ?_⟩ ih
    rw [h1] at hm ⊢
    exact ⟨(h4 hm).1.symm, fun hs => ((h4 hm).2 hs).symm⟩

theorem SimD.refl {claims : JObj} {S : List String} (hP : ∀ p ∈ D, p.2.parsed = true) : SimD claims S D D := by
  unfold SimD
  induction D with
  | nil => exact .nil
  | cons p l ih =>
    exact .cons ⟨rfl, ⟨rfl, rfl, rfl, rfl⟩, hP p (List.mem_cons_self ..), fun _ => ⟨rfl, fun _ => rfl⟩⟩
      (ih fun q hq => hP q (List.mem_cons_of_mem _ hq))

theorem SimD.parsed {claims : JObj} {S : List String} (h : SimD claims S D D') : ∀ p ∈ D, p.2.parsed = true := by
  unfold SimD at h
  induction h with
  | nil => intro p hp; cases hp
  | @cons p q l l' h _ ih =>
    intro x hx
    rcases List.mem_cons.1 hx with rfl | hx
    · exact h.2.2.1
    · exact ih x hx

theorem SimD.keys {claims : JObj} {S : List String} (h : SimD claims S D D') : keys D' = keys D :=
  keys_of_forall (fun _ _ h => h.1) h

theorem SimD.display {claims : JObj} {S : List String} (h : SimD claims S D D') (all : Bool) (given : List String) :
    SimD claims S (displayDiscs D all given) (displayDiscs D' all given) := by
  unfold displayDiscs
  cases all with
  | true => exact h
  | false =>
    refine forall_filter (fun p q hpq => ?_) h
    rw [hpq.2.1.2.2.1]

theorem SimD.names {claims : JObj} {S : List String} (h : SimD claims S D D') :
    subjectDigests claims D' = subjectDigests claims D := by
  have : ∀ d, (get? D' d).map (·.name) = (get? D d).map (·.name) := by
    intro d
    rcases forall_get (fun _ _ h => h.1) h d with ⟨h1, h2⟩ | ⟨c, c', h1, h2, _, h3, _⟩
    · rw [h1, h2]
    · rw [h1, h2]; exact congrArg some h3.2.2.1
  unfold subjectDigests
  simp only [this]

theorem SimD.trans_step {claims : JObj} {S : List String} {D0 D1 D2 : DMap} (h : SimD claims S D0 D1) {all : Bool}
    {given : List String} (hS : subjectDigests claims D1 = S) (h' : Redisplayed claims all given D1 D2) :
    SimD claims S D0 D2 := by
  unfold Redisplayed afterDisplay at h'
  rw [hS] at h'
  unfold SimD at h ⊢
  clear hS
  induction h generalizing D2 with
  | nil => cases h'; exact .nil
  | @cons p q l l' h _ ih =>
    rw [List.map_cons] at h'
    cases h' with
    | @cons _ q2 _ l2 hq ht =>
      refine .cons ?_ (ih ht)
      obtain ⟨h1, ⟨a, b, c, d⟩, h3, h4⟩ := h
      split at hq
      · next hcond =>
        obtain ⟨g1, ⟨a', b', c', d'⟩, g3⟩ := hq
        dsimp only at g1 a' b' c' d' g3
        refine ⟨g1.trans h1, ⟨a'.trans a, b'.trans b, c'.trans c, d'.trans d⟩, h3, fun hm => ?_⟩
        have e := g3 (h1 ▸ hm)
        refine ⟨by rw [e, clearIn_idem]; exact (h4 hm).1, fun hs => ?_⟩
        simp only [Bool.and_eq_true, List.contains_iff_mem] at hcond
        exact absurd (h1 ▸ hcond.2) hs
      · obtain ⟨g1, ⟨a', b', c', d'⟩, g3⟩ := hq
        refine ⟨g1.trans h1, ⟨a'.trans a, b'.trans b, c'.trans c, d'.trans d⟩, h3, fun hm => ?_⟩
        have e := g3 (h1 ▸ hm)
        rw [e]
        exact h4 hm

theorem get?_display {all : Bool} {given : List String} (hK : WF D) {d : String} {c : Disc}
    (h : get? (displayDiscs D all given) d = some c) : get? D d = some c := by
  unfold displayDiscs at h
  cases all with
  | true => exact h
  | false => exact get?_of_mem hK (List.mem_of_mem_filter (mem_of_get? h))

theorem wf_display {all : Bool} {given : List String} (hK : WF D) : WF (displayDiscs D all given) := by
  unfold displayDiscs
  cases all with
  | true => exact hK
  | false => exact wf_filter hK _

theorem subjectDigests_mem {claims : JObj} {d : String} (h : d ∈ subjectDigests claims D) :
    (∃ v, get? claims "credentialSubject" = some v ∧ d ∈ objDigests v) ∨
      (d ∈ sdDigests claims ∧ ∀ c, get? D d = some c → c.name = "credentialSubject") := by
  unfold subjectDigests at h
  rcases List.mem_append.1 h with h | h
  · left
    cases hg : get? claims "credentialSubject" with
    | none => rw [hg] at h; cases h
    | some v => rw [hg] at h; exact ⟨v, rfl, h⟩
  · right
    obtain ⟨h1, h2⟩ := List.mem_filter.1 h
    refine ⟨h1, fun c hc => ?_⟩
    rw [hc] at h2
    simpa using h2

/-- One direction: what is displayed with `D` is displayed with `D'`. -/
theorem shown_same (env : SDJWT.Env) {m o : JObj} (hw : JWF (.obj m)) (hK : WF D)
    (hsim : SimD m (subjectDigests m D) D D') (all : Bool) (given : List String)
    (h : SDJWT.getDisclosedClaims env (displayDiscs D all given) m = .ok o) :
    ∃ o', SDJWT.getDisclosedClaims env (displayDiscs D' all given) m = .ok o' ∧ clearSubject o' = clearSubject o := by
  have hK' : WF D' := by unfold WF; rw [hsim.keys]; exact hK
  have hP : ∀ d c, get? (displayDiscs D all given) d = some c → c.parsed = true :=
    fun d c hc => hsim.parsed (d, c) (mem_of_get? (get?_display hK hc))
  have hP' : ∀ d c, get? (displayDiscs D' all given) d = some c → c.parsed = true :=
    fun d c hc => hsim.symm.parsed (d, c) (mem_of_get? (get?_display hK' hc))
  obtain ⟨h1, h2, h3⟩ := (disclosed_iff env hP (wf_display hK) hw).1 h
  obtain ⟨o', r, e⟩ := resolves_top hw h2 (hsim.display all given) (fun d hd => by
    rcases subjectDigests_mem hd with h | ⟨h, hc⟩
    · exact .inl h
    · exact .inr ⟨h, fun c hg => hc c (get?_display hK hg)⟩) h3
  exact ⟨o', (disclosed_iff env hP' (wf_display hK') hw).2 ⟨h1, h2, r⟩, e⟩

/-- The outcome of a display up to errors. -/
theorem shown_iff (env : SDJWT.Env) {m : JObj} (hw : JWF (.obj m)) (hK : WF D)
    (hsim : SimD m (subjectDigests m D) D D') (all : Bool) (given : List String) :
    (∃ e e', SDJWT.getDisclosedClaims env (displayDiscs D all given) m = .error e ∧
      SDJWT.getDisclosedClaims env (displayDiscs D' all given) m = .error e') ∨
    ∃ o o', SDJWT.getDisclosedClaims env (displayDiscs D all given) m = .ok o ∧
      SDJWT.getDisclosedClaims env (displayDiscs D' all given) m = .ok o' ∧ clearSubject o' = clearSubject o := by
  have hK' : WF D' := by unfold WF; rw [hsim.keys]; exact hK
  cases h : SDJWT.getDisclosedClaims env (displayDiscs D all given) m with
  | ok o =>
    obtain ⟨o', h1, h2⟩ := shown_same env hw hK hsim all given h
    exact .inr ⟨o, o', rfl, h1, h2⟩
  | error e =>
    cases h' : SDJWT.getDisclosedClaims env (displayDiscs D' all given) m with
    | error e' => exact .inl ⟨e, e', rfl, rfl⟩
    | ok o' =>
      have hs := hsim.symm
      rw [← hsim.names] at hs
      obtain ⟨o, h1, _⟩ := shown_same env hw hK' hs all given h'
      rw [h] at h1
      cases h1

variable {env : PEnv}

/-- What a history of displays leaves of the credential. -/
theorem displays_inv {vc0 vc : PCred env.T} {e : JwtEnvelope} {r : JObj × JObj} (he : vc0.jwt = some e)
    (hr : decodeCredJWT env e.jwt = .ok r) (hP : ∀ p ∈ e.disclosures, p.2.parsed = true)
    (h : Displays env vc0 vc) : ∃ D, vc = { vc0 with jwt := some { e with disclosures := D } } ∧
      SimD r.2 (subjectDigests r.2 e.disclosures) e.disclosures D := by
  induction h with
  | refl => exact ⟨e.disclosures, by rw [← he], SimD.refl hP⟩
  | step vc a e' r' all given out D' _ _ h2 h3 _ h5 ih =>
    obtain ⟨D, rfl, hsim⟩ := ih
    cases h2
    dsimp only at h3 h5
    rw [hr] at h3
    cases h3
    exact ⟨D', rfl, hsim.trans_step hsim.names h5⟩

theorem display_again_of {vc0 vc : PCred env.T} {e : JwtEnvelope} {r : JObj × JObj} (he : vc0.jwt = some e)
    (hr : decodeCredJWT env e.jwt = .ok r) (hw : JWF (.obj r.2)) (hK : WF e.disclosures)
    (hP : ∀ p ∈ e.disclosures, p.2.parsed = true) (h : Displays env vc0 vc) (all : Bool) (given : List String) :
    createDisplayMap env vc all given = createDisplayMap env vc0 all given ∧
    (vc0.contents.sdAlg.isSome → createDisplay env vc all given = createDisplay env vc0 all given) := by
  obtain ⟨D, rfl, hsim⟩ := displays_inv he hr hP h
  have hmap : ∀ {α : Type} (f : JObj → Res α),
      (match SDJWT.getDisclosedClaims env.sd (displayDiscs D all given) r.2 with
        | .error _ => Res.err
        | .ok o => f (clearSubject o)) =
      (match SDJWT.getDisclosedClaims env.sd (displayDiscs e.disclosures all given) r.2 with
        | .error _ => Res.err
        | .ok o => f (clearSubject o)) := by
    intro α f
    rcases shown_iff env.sd hw hK hsim all given with ⟨e1, e2, g1, g2⟩ | ⟨o, o', g1, g2, g3⟩
    · rw [g1, g2]
    · rw [g1, g2]; dsimp only; rw [g3]
  unfold createDisplayMap createDisplay
  rw [he]
  dsimp only
  cases hc : (all && !given.isEmpty) with
  | true => exact ⟨rfl, fun _ => rfl⟩
  | false =>
    cases hs : vc0.contents.sdAlg with
    | none => exact ⟨rfl, fun h => (nomatch h)⟩
    | some a =>
      dsimp only
      rw [hr]
      simp only [Res.bind, Bool.false_eq_true, if_false]
      exact ⟨hmap .ok, fun _ => hmap fun o =>
        match parseContents env.toCEnv (ofWire (del o "proof")) false with
        | none => .err
        | some c => Res.ok (⟨del o "proof", c, [], none, none⟩ : PCred env.T)⟩

/-- A credential whose display cannot decode its JWT, or that is no SD-JWT credential, is never changed. -/
theorem displays_none {vc0 vc : PCred env.T} (hno : ∀ e r, vc0.jwt = some e → decodeCredJWT env e.jwt ≠ .ok r)
    (h : Displays env vc0 vc) : vc = vc0 := by
  induction h with
  | refl => rfl
  | step vc a e' r' all given out D' _ _ h2 h3 _ _ ih =>
    subst ih
    exact absurd h3 (hno _ _ h2)

/-- **C134**: whatever a credential was displayed with before, and however often, a display shows the
same, as a map or as a credential.  The disclosures are resolved and have one digest each, as those of a
parsed credential; `decodeObj` yields maps. -/
theorem display_again {vc0 vc : PCred env.T} {e : JwtEnvelope} (he : vc0.jwt = some e)
    (hw : ∀ r, decodeCredJWT env e.jwt = .ok r → JWF (.obj r.2)) (hK : WF e.disclosures)
    (hP : ∀ p ∈ e.disclosures, p.2.parsed = true) (h : Displays env vc0 vc) (all : Bool) (given : List String) :
    createDisplayMap env vc all given = createDisplayMap env vc0 all given ∧
    (vc0.contents.sdAlg.isSome → createDisplay env vc all given = createDisplay env vc0 all given) := by
  by_cases hr : ∃ r, decodeCredJWT env e.jwt = .ok r
  · obtain ⟨r, hr⟩ := hr
    exact display_again_of he hr (hw r hr) hK hP h all given
  · have := displays_none (vc0 := vc0) (fun e' r h1 h2 => by rw [he] at h1; cases h1; exact hr ⟨r, h2⟩) h
    subst this
    exact ⟨rfl, fun _ => rfl⟩

/-- The disclosures of a parsed credential are resolved, one for each digest. -/
theorem parsed_disclosures (o : ParseOpts env) (ho : ∀ D, ∀ d ∈ keys D, d ∈ env.dOrder D) (data : String)
    (vc : PCred env.T) (e : JwtEnvelope) (h : parseJSON env o data = .ok vc) (he : vc.jwt = some e) :
    WF e.disclosures ∧ ∀ p ∈ e.disclosures, p.2.parsed = true := by
  obtain ⟨s, ds, _, _, _, h1, h2⟩ := parse_jwt_parts env o data vc e h he
  by_cases hds : ds = []
  · rw [h1 hds]
    exact ⟨wf_nil, fun p hp => (nomatch hp)⟩
  · obtain ⟨P, a, _, _, _, hres⟩ := h2 hds
    unfold SDJWT.resolveDisclosureClaims at hres
    cases hD : SDJWT.getDisclosureClaims env.sd (hashName a) ds [] with
    | error e => rw [hD] at hres; cases hres
    | ok D =>
      rw [hD] at hres
      dsimp only at hres
      cases hs : SDJWT.setAll true (2 * SDJWT.weight D + 1) ⟨[], D⟩ (env.dOrder D) with
      | error e => rw [hs] at hres; cases hres
      | ok st =>
        rw [hs] at hres
        have e1 := Except.ok.inj hres
        rw [← e1]
        obtain ⟨hk, hr⟩ := SDJWT.setAll_result (SDJWT.decoded_of_ok hD).unparsed (ho D) hs
        have hwf : WF st.ds := by
          unfold WF
          rw [hk]
          exact (SDJWT.getDisclosureClaims_ok ds [] D hD wf_nil).1
        refine ⟨hwf, fun p hp => ?_⟩
        have hg := get?_of_mem hwf (k := p.1) (v := p.2) hp
        have hm : p.1 ∈ keys D := hk ▸ List.mem_map.2 ⟨p, hp, rfl⟩
        obtain ⟨r, hr0⟩ := Option.isSome_iff_exists.1 (get?_isSome_iff.2 hm)
        obtain ⟨c, hc, hp', _⟩ := hr _ _ hr0
        rw [hg] at hc
        cases hc
        exact hp'

/-- **C134**, for parsed credentials. -/
theorem parsed_display_again (o : ParseOpts env) (ho : ∀ D, ∀ d ∈ keys D, d ∈ env.dOrder D)
    (hw : ∀ s r, decodeCredJWT env s = .ok r → JWF (.obj r.2)) (data : String) (vc0 vc : PCred env.T)
    (hp : parseJSON env o data = .ok vc0) (h : Displays env vc0 vc) (all : Bool) (given : List String) :
    createDisplayMap env vc all given = createDisplayMap env vc0 all given := by
  cases he : vc0.jwt with
  | none =>
    rw [displays_none (fun e r h1 => by rw [he] at h1; cases h1) h]
  | some e =>
    obtain ⟨hK, hP⟩ := parsed_disclosures o ho data vc0 e hp he
    exact (display_again he (fun r => hw e.jwt r) hK hP h all given).1

/-- **C134**: displays leave everything else as it was: the document, the contents, the proofs, the JWT
with its headers and holder binding, and of each disclosure the digest, the text, the name and the form. -/
theorem display_keeps {vc0 vc : PCred env.T} (hP : ∀ e, vc0.jwt = some e → ∀ p ∈ e.disclosures, p.2.parsed = true)
    (h : Displays env vc0 vc) :
    vc.json = vc0.json ∧ vc.contents = vc0.contents ∧ vc.proofs = vc0.proofs ∧ vc.cwt = vc0.cwt ∧
    vc.jwt.map (fun e => (e.jwt, e.headers, e.holderBinding,
        e.disclosures.map fun p => (p.1, p.2.disclosure, p.2.name, p.2.elems))) =
      vc0.jwt.map (fun e => (e.jwt, e.headers, e.holderBinding,
        e.disclosures.map fun p => (p.1, p.2.disclosure, p.2.name, p.2.elems))) := by
  by_cases hr : ∃ e r, vc0.jwt = some e ∧ decodeCredJWT env e.jwt = .ok r
  · obtain ⟨e, r, he, hr⟩ := hr
    obtain ⟨D, rfl, hsim⟩ := displays_inv he hr (hP e he) h
    refine ⟨rfl, rfl, rfl, rfl, ?_⟩
    rw [he]
    simp only [Option.map_some, Option.some.injEq, Prod.mk.injEq, true_and]
    have : ∀ {D0 D : DMap}, SimD r.2 (subjectDigests r.2 e.disclosures) D0 D →
        D.map (fun p => (p.1, p.2.disclosure, p.2.name, p.2.elems)) =
          D0.map fun p => (p.1, p.2.disclosure, p.2.name, p.2.elems) := by
      intro D0 D hs
      unfold SimD at hs
      induction hs with
      | nil => rfl
      | @cons p q l l' h _ ih =>
        simp only [List.map_cons, ih, h.1, h.2.1.1, h.2.1.2.1, h.2.1.2.2.1]
    exact this hsim
  · rw [displays_none (fun e r h1 h2 => hr ⟨e, r, h1, h2⟩) h]
    exact ⟨rfl, rfl, rfl, rfl, rfl⟩

end VC.Vfy
