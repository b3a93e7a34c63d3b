import Verif.Verifiable.JWTRoundTrip
import Verif.SDJWT.FromVCShown
import Verif.Verifiable.DisclosureMain
import Verif.Verifiable.PresentationProps
/-!
# verifiable: refining claims that differ only in the subject

`refineFromJWTClaims` (credential_jwt.go:182-225) looks at the issuer, the id, the dates and the context
only.  Lemmas for C109.
-/

namespace VC.Vfy

open GoMap
open VC.SDJWT (JWF JWFObj Unreserved UnreservedObj Solid SolidObj OEq JEq JE)

variable (env : JEnv)

theorem assign_wf {m : Option JObj} {k : String} {v : Json} {o : JObj} (h : assign m k v = .ok (some o))
    (hm : ∀ x, m = some x → WF x) : WF o := by
  cases m with
  | none => cases h
  | some x =>
    have := Out.ok.inj h
    have := Option.some.inj this
    subst this
    exact wf_set (hm x rfl) _ _

theorem assign_some {m : Option JObj} {k : String} {v : Json} {r : Option JObj} (h : assign m k v = .ok r) :
    ∃ o, r = some o := by
  cases m with
  | none => cases h
  | some x => exact ⟨_, (Out.ok.inj h).symm⟩

theorem refineIssuer_wf {m r : Option JObj} {iss : String} (h : refineIssuer m iss = .ok r)
    (hm : ∀ x, m = some x → WF x) : ∀ x, r = some x → WF x := by
  intro x hx
  subst hx
  unfold refineIssuer at h
  split at h
  · exact assign_wf h hm
  · split at h
    · cases h
    · split at h
      · cases h
      · exact assign_wf h hm

theorem refineDate_wf {m r : Option JObj} {a b : String} {n : Option Int}
    (h : refineDate env m a b n = .ok r) (hm : ∀ x, m = some x → WF x) : ∀ x, r = some x → WF x := by
  intro x hx
  subst hx
  unfold refineDate at h
  split at h
  · exact hm x (Out.ok.inj h)
  · split at h
    · exact assign_wf h hm
    · exact assign_wf h hm

/-- Refining keeps a Go map a map. -/
theorem refine_wf {c : CredClaims} {o : JObj} (h : refine env c = .ok (some o))
    (hm : ∀ x, c.vc = some x → WF x) : WF o := by
  unfold refine at h
  split at h
  · cases h
  · rename_i r hr
    obtain ⟨v1, h1, h⟩ := Out.bind_ok.1 h
    obtain ⟨v2, h2, h⟩ := Out.bind_ok.1 h
    obtain ⟨v3, h3, h⟩ := Out.bind_ok.1 h
    obtain ⟨v4, h4, h⟩ := Out.bind_ok.1 h
    have w1 : ∀ x, v1 = some x → WF x := by
      split at h1
      · exact refineIssuer_wf h1 hm
      · have := Out.ok.inj h1; subst this; exact hm
    have w2 := refineDate_wf env h2 w1
    have w3 : ∀ x, v3 = some x → WF x := by
      split at h3
      · intro x hx; subst hx; exact assign_wf h3 w2
      · have := Out.ok.inj h3; subst this; exact w2
    have w4 := refineDate_wf env h4 w3
    exact refineDate_wf env h w4 o rfl

/-- The members that refining writes. -/
def refinedNames : List String :=
  ["issuer", "id", "issuanceDate", "validFrom", "expirationDate", "validUntil"]

/-- The refined issuer is determined by the issuer. -/
theorem issuerRefined_det {iss : String} {v a b : Option Json} (h1 : IssuerRefined iss v a)
    (h2 : IssuerRefined iss v b) : a = b := by
  by_cases hi : iss = ""
  · rw [h1.unsigned hi, h2.unsigned hi]
  · cases v with
    | none => rw [h1.absent hi rfl, h2.absent hi rfl]
    | some j =>
      cases j with
      | str s => rw [h1.string s hi rfl, h2.string s hi rfl]
      | obj o => rw [h1.object o hi rfl, h2.object o hi rfl]
      | null => rw [h1.other _ (by simp) (by simp) rfl, h2.other _ (by simp) (by simp) rfl]
      | bool _ => rw [h1.other _ (by simp) (by simp) rfl, h2.other _ (by simp) (by simp) rfl]
      | num _ => rw [h1.other _ (by simp) (by simp) rfl, h2.other _ (by simp) (by simp) rfl]
      | arr _ => rw [h1.other _ (by simp) (by simp) rfl, h2.other _ (by simp) (by simp) rfl]

/-- Refining objects that differ only under names `X` that refining neither writes nor reads gives objects
that differ only there. -/
theorem refined_agree {r : Claims} {x y o p : JObj} (X : List String)
    (hX : ∀ k ∈ X, k ∉ refinedNames ∧ k ≠ "@context")
    (ho : Refined env r x o) (hp : Refined env r y p) (h : ∀ k, k ∉ X → get? x k = get? y k) :
    ∀ k, k ∉ X → get? o k = get? p k := by
  intro k hk
  have hn : ∀ k', k' ∈ refinedNames → get? x k' = get? y k' := fun k' hk' =>
    h k' (fun hx => (hX k' hx).1 hk')
  have hv : IsV2 x ↔ IsV2 y := isV2_congr (h "@context" (fun hx => (hX _ hx).2 rfl))
  by_cases hr : k ∈ refinedNames
  · have e1 := hn "issuanceDate" (by decide)
    have e2 := hn "validFrom" (by decide)
    have e3 := hn "expirationDate" (by decide)
    have e4 := hn "validUntil" (by decide)
    simp only [refinedNames, List.mem_cons, List.not_mem_nil, or_false] at hr
    rcases hr with rfl | rfl | rfl | rfl | rfl | rfl
    · have h1 := ho.issuer
      rw [hn "issuer" (by decide)] at h1
      exact issuerRefined_det h1 hp.issuer
    · rw [ho.id, hp.id, hn "id" (by decide)]
    all_goals
      by_cases hq : IsV2 x
      · have a := ho.v2 hq
        have b := hp.v2 (hv.1 hq)
        first
          | rw [a.2.2.1, b.2.2.1]; assumption
          | rw [a.1, b.1, e2]
          | rw [a.2.2.2, b.2.2.2]; assumption
          | rw [a.2.1, b.2.1, e4]
      · have a := ho.v1 hq
        have b := hp.v1 (fun f => hq (hv.2 f))
        first
          | rw [a.2.2.1, b.2.2.1]; assumption
          | rw [a.1, b.1, e1]
          | rw [a.2.2.2, b.2.2.2]; assumption
          | rw [a.2.1, b.2.1, e3]
  · rw [ho.rest k hr, hp.rest k hr]
    exact h k hk

/-- Every member of a refined object is one of the object's, a string, or the object's issuer with another
id. -/
theorem refined_value {r : Claims} {x o : JObj} (ho : Refined env r x o) {k : String} {v : Json}
    (h : get? o k = some v) :
    get? x k = some v ∨ (k ∈ refinedNames ∧ ((∃ s, v = .str s) ∨
      ∃ i s, get? x k = some (.obj i) ∧ v = .obj (set i "id" (.str s)))) := by
  by_cases hr : k ∈ refinedNames
  · have date : ∀ (n : Option Int) (d : Option Json),
        (n.map (fun n => Json.str (env.fmtUnix n))).or d = some v → d = some v ∨ ∃ s, v = .str s := by
      intro n d hd
      cases n with
      | none => exact Or.inl (by simpa using hd)
      | some n => exact Or.inr ⟨_, (by simpa using hd.symm)⟩
    have fin : (get? x k = some v ∨ ∃ s, v = .str s) → _ :=
      fun (h : get? x k = some v ∨ ∃ s, v = .str s) =>
        (h.imp id (fun q => ⟨hr, Or.inl q⟩) :
          get? x k = some v ∨ (k ∈ refinedNames ∧ ((∃ s, v = .str s) ∨
            ∃ i s, get? x k = some (.obj i) ∧ v = .obj (set i "id" (.str s)))))
    have hr' := hr
    simp only [refinedNames, List.mem_cons, List.not_mem_nil, or_false] at hr'
    rcases hr' with rfl | rfl | rfl | rfl | rfl | rfl
    · have h1 := ho.issuer
      by_cases hi : r.iss = ""
      · rw [h1.unsigned hi] at h; exact Or.inl h
      · cases hx : get? x "issuer" with
        | none => rw [h1.absent hi hx] at h; exact Or.inr ⟨hr, Or.inl ⟨_, (Option.some.inj h).symm⟩⟩
        | some j =>
          cases j with
          | str s => rw [h1.string s hi hx] at h; exact Or.inr ⟨hr, Or.inl ⟨_, (Option.some.inj h).symm⟩⟩
          | obj i => rw [h1.object i hi hx] at h; exact Or.inr ⟨hr, Or.inr ⟨i, _, rfl, (Option.some.inj h).symm⟩⟩
          | null => rw [h1.other _ (by simp) (by simp) hx] at h; exact Or.inl h
          | bool _ => rw [h1.other _ (by simp) (by simp) hx] at h; exact Or.inl h
          | num _ => rw [h1.other _ (by simp) (by simp) hx] at h; exact Or.inl h
          | arr _ => rw [h1.other _ (by simp) (by simp) hx] at h; exact Or.inl h
    · rw [ho.id] at h
      split at h
      · exact Or.inl h
      · exact Or.inr ⟨hr, Or.inl ⟨_, (Option.some.inj h).symm⟩⟩
    all_goals
      by_cases hq : IsV2 x
      · have a := ho.v2 hq
        first
          | exact fin (date _ _ (a.1 ▸ h))
          | exact fin (date _ _ (a.2.1 ▸ h))
          | exact fin (Or.inl (a.2.2.1 ▸ h))
          | exact fin (Or.inl (a.2.2.2 ▸ h))
      · have a := ho.v1 hq
        first
          | exact fin (date _ _ (a.1 ▸ h))
          | exact fin (date _ _ (a.2.1 ▸ h))
          | exact fin (Or.inl (a.2.2.1 ▸ h))
          | exact fin (Or.inl (a.2.2.2 ▸ h))
  · rw [ho.rest k hr] at h
    exact Or.inl h

theorem jwf_set_str {i : JObj} (h : JWF (.obj i)) (k s : String) : JWF (.obj (set i k (.str s))) := by
  simp only [JWF] at h ⊢
  refine ⟨wf_set h.1 _ _, ?_⟩
  rw [SDJWT.jwfObj_iff]
  rintro ⟨k', v⟩ hp
  have hg := get?_of_mem (wf_set h.1 _ _) hp
  rw [get?_set] at hg
  split at hg
  · cases hg; trivial
  · exact (SDJWT.jwfObj_iff i).1 h.2 _ (mem_of_get? hg)

theorem mem_set {i : JObj} {k : String} {w : Json} {p : String × Json} (h : p ∈ set i k w) :
    p ∈ i ∨ p = (k, w) := by
  induction i with
  | nil => exact Or.inr (by simpa [GoMap.set] using h)
  | cons q i ih =>
    obtain ⟨k', v'⟩ := q
    simp only [GoMap.set] at h
    split at h
    · rename_i e
      rcases List.mem_cons.1 h with h | h
      · exact Or.inr h
      · exact Or.inl (List.mem_cons_of_mem _ h)
    · rcases List.mem_cons.1 h with h | h
      · exact Or.inl (by rw [h]; exact List.mem_cons_self)
      · exact (ih h).imp (List.mem_cons_of_mem _) id

theorem unreserved_set_str {i : JObj} (h : UnreservedObj i) (k s : String)
    (hk : k ≠ "_sd" ∧ k ≠ "_sd_alg" ∧ k ≠ "...") : UnreservedObj (set i k (.str s)) := by
  rw [SDJWT.unreservedObj_iff] at h ⊢
  intro p hp
  rcases mem_set hp with hp | rfl
  · exact h p hp
  · exact ⟨hk, by simp [Unreserved]⟩

theorem solid_set_str {i : JObj} (h : SolidObj i) (k s : String) : SolidObj (set i k (.str s)) := by
  rw [SDJWT.solid_iff] at h ⊢
  intro p hp
  rcases mem_set hp with hp | rfl
  · exact h p hp
  · simp [Solid]

/-- A refined object is JSON, without names reserved by SD-JWT, if the object is. -/
theorem refined_clean {r : Claims} {x o : JObj} (ho : Refined env r x o) (hw : WF o) (hj : JWF (.obj x))
    (hu : UnreservedObj x) : JWF (.obj o) ∧ UnreservedObj o := by
  refine ⟨?_, ?_⟩
  · simp only [JWF]
    refine ⟨hw, ?_⟩
    rw [SDJWT.jwfObj_iff]
    rintro ⟨k, v⟩ hp
    rcases refined_value env ho (get?_of_mem hw hp) with h | ⟨-, ⟨s, rfl⟩ | ⟨i, s, h, rfl⟩⟩
    · exact SDJWT.jwf_get hj h
    · trivial
    · exact jwf_set_str (SDJWT.jwf_get hj h) _ _
  · rw [SDJWT.unreservedObj_iff]
    rintro ⟨k, v⟩ hp
    rcases refined_value env ho (get?_of_mem hw hp) with h | ⟨hk, h⟩
    · exact (SDJWT.unreservedObj_iff x).1 hu _ (mem_of_get? h)
    · refine ⟨?_, ?_⟩
      · dsimp only
        simp only [refinedNames, List.mem_cons, List.not_mem_nil, or_false] at hk
        rcases hk with rfl | rfl | rfl | rfl | rfl | rfl <;> decide
      · rcases h with ⟨s, rfl⟩ | ⟨i, s, h, rfl⟩
        · simp [Unreserved]
        · have := SDJWT.unreserved_get hu h
          simp only [Unreserved] at this ⊢
          exact unreserved_set_str this _ _ (by decide)

/-- A refined object has no null and no empty array if the object has none. -/
theorem refined_solid {r : Claims} {x o : JObj} (ho : Refined env r x o)
    {k : String} {v : Json} (hs : ∀ w, get? x k = some w → Solid w) (h : get? o k = some v) : Solid v := by
  rcases refined_value env ho h with h' | ⟨-, ⟨s, rfl⟩ | ⟨i, s, h', rfl⟩⟩
  · exact hs v h'
  · simp [Solid]
  · have := hs _ h'
    simp only [Solid] at this ⊢
    exact solid_set_str this _ _

/-! ## Unmarshalling claims next to the registered ones -/

theorem collect_wf {α : Type _} (vf af : GoMap α) : ∀ cf : GoMap α, WF cf → WF (JsonUtil.collectCustom vf af cf) := by
  induction af with
  | nil => intro cf h; exact h
  | cons p af ih =>
    obtain ⟨k, v⟩ := p
    intro cf h
    rw [JsonUtil.collectCustom]
    split
    · exact ih cf h
    · exact ih _ (wf_set h _ _)

/-- A payload with the registered claims of `r` and, next to them, the members of `z`. -/
theorem unmarshal_flat (r : Claims) (p z : JObj) (hi : r.iss ≠ "") (hz : z ≠ []) (hw : WF p)
    (hn : ∀ k ∈ registered, get? z k = none) (hvc : get? z "vc" = none)
    (L : ∀ k, get? p k = (get? (marshalClaims r) k).or (get? z k)) :
    ∃ y, unmarshalCred p = some ⟨some r, some y⟩ ∧ Same y z ∧ WF y := by
  have hnone : ∀ k, k ∉ registered → get? (marshalClaims r) k = none := by
    intro k hk
    rw [get?_eq_none_iff]
    exact fun h => hk (keys_marshalClaims r _ h)
  have hc : decodeClaims p = some (some r) := by
    apply decodeClaims_marshal r _ hi
    intro k hk
    rw [L, hn k hk, Option.or_none]
  have hd : decodeVCField (JObj.at p "vc") = some none := by
    unfold JObj.at
    rw [L, hvc, hnone "vc" (by decide)]
    rfl
  have hm : marshalCred ⟨some r, none⟩ = marshalClaims r := by simp [marshalCred]
  have hsame : Same (JsonUtil.collectCustom (marshalClaims r) p []) z := by
    intro k
    rw [JsonUtil.collect_lookup _ _ hw, L]
    cases h : get? (marshalClaims r) k with
    | none => simp [get?]
    | some j =>
      have : k ∈ registered := keys_marshalClaims r k (get?_isSome_iff.mp (by rw [h]; rfl))
      simp [get?, hn k this]
  refine ⟨JsonUtil.collectCustom (marshalClaims r) p [], ?_, hsame, collect_wf _ _ _ wf_nil⟩
  unfold unmarshalCred
  rw [hc, hd]
  dsimp only
  rw [hm]
  have hne : (JsonUtil.collectCustom (marshalClaims r) p []).isEmpty = false := by
    cases e : JsonUtil.collectCustom (marshalClaims r) p [] with
    | cons _ _ => rfl
    | nil =>
      exfalso
      rw [e] at hsame
      cases z with
      | nil => exact hz rfl
      | cons q z =>
        have := hsame q.1
        simp [get?] at this
  rw [hne]
  rfl

/-! ## Contents of objects that differ in the subject and the hash algorithm -/

/-- The contents are read member by member: another subject and another hash algorithm change only
those. -/
theorem contents_other_subject (env : CEnv) {o p : JObj} {b : Bool} {c : Contents env.T}
    (hc : parseContents env (ofWire o) b = some c)
    (h : ∀ k, k ≠ "credentialSubject" → k ≠ "_sd_alg" → k ≠ "proof" → get? p k = get? o k)
    {s : List Subject} {a : Option Hash} {b' : Bool}
    (hs : parseSubject (.json ((get? p "credentialSubject").getD .null)) = some s)
    (ha : parseSDAlg env (ofWire p) s b' = some a) :
    parseContents env (ofWire p) b' = some { c with subject := s, sdAlg := a } := by
  rw [parseContents_iff] at hc ⊢
  have e : ∀ k, k ≠ "credentialSubject" → k ≠ "_sd_alg" → k ≠ "proof" → GObj.at (ofWire p) k = GObj.at (ofWire o) k := by
    intro k h1 h2 h3
    rw [at_ofWire, at_ofWire, h k h1 h2 h3]
  obtain ⟨c1, c2, c3, c4, c5, c6, c7, -, -, c10, c11, c12, c13, c14⟩ := hc
  unfold parseTime2 at *
  rw [e "credentialSchema" (by decide) (by decide) (by decide), e "type" (by decide) (by decide) (by decide),
    e "issuer" (by decide) (by decide) (by decide), e "@context" (by decide) (by decide) (by decide),
    e "termsOfUse" (by decide) (by decide) (by decide), e "refreshService" (by decide) (by decide) (by decide),
    e "relatedResource" (by decide) (by decide) (by decide), e "id" (by decide) (by decide) (by decide),
    e "issuanceDate" (by decide) (by decide) (by decide), e "validFrom" (by decide) (by decide) (by decide),
    e "expirationDate" (by decide) (by decide) (by decide), e "validUntil" (by decide) (by decide) (by decide),
    e "credentialStatus" (by decide) (by decide) (by decide), e "evidence" (by decide) (by decide) (by decide)]
  refine ⟨c1, c2, c3, c4, c5, c6, c7, ?_, ha, c10, c11, c12, c13, c14⟩
  rw [at_ofWire]
  exact hs

/-! ## Objects up to order -/

/-- Keeping the members with some names respects order. -/
theorem oeq_filter (f : String → Bool) {m m' : JObj} (h : OEq m m') :
    OEq (m.filter (fun p => f p.1)) (m'.filter (fun p => f p.1)) := by
  have key : ∀ t t' : SDJWT.JT, JE t t' → ∀ m m', t = .fields m → t' = .fields m' →
      OEq (m.filter (fun p => f p.1)) (m'.filter (fun p => f p.1)) := by
    intro t t' h
    induction h with
    | refl => rintro m m' rfl e; cases e; exact .refl
    | arr => intro m m' e; cases e
    | obj => intro m m' e; cases e
    | lcons => intro m m' e; cases e
    | @fcons k v v' a b h1 h2 _ ih =>
      intro m m' e e'
      cases e; cases e'
      have := ih _ _ rfl rfl
      simp only [List.filter_cons]
      split
      · exact .fcons h1 this
      · exact this
    | @fswap k v k' v' a hne =>
      intro m m' e e'
      cases e; cases e'
      simp only [List.filter_cons]
      split <;> split
      · exact .fswap hne
      · exact .refl
      · exact .refl
      · exact .refl
    | @trans t1 t2 t3 h1 h2 ih1 ih2 =>
      intro m m' e e'
      subst e; subst e'
      cases t2 with
      | fields x => exact .trans (ih1 _ _ rfl rfl) (ih2 _ _ rfl rfl)
      | val v => exact absurd (JE.shape h1) (by simp)
      | list l => exact absurd (JE.shape h1) (by simp)
  exact key _ _ h m m' rfl rfl

theorem clearValue_notObj {v : Json} (h : ∀ o, v ≠ .obj o) : clearValue v = some v := by
  cases v with
  | obj o => exact absurd rfl (h o)
  | _ => rfl

/-- Removing empty objects respects order. -/
theorem oeq_clear {m m' : JObj} (h : OEq m m') : OEq (clearEmpty m) (clearEmpty m') := by
  have nil_of : ∀ {a b : JObj}, OEq a b → a = [] → b = [] := by
    intro a b h e
    subst e
    cases b with
    | nil => rfl
    | cons p b =>
      rcases SDJWT.JEq.get h p.1 with ⟨-, g⟩ | ⟨u, u', g, -⟩
      · rw [get?_cons, if_pos rfl] at g; cases g
      · cases g
  have key : ∀ t t' : SDJWT.JT, JE t t' →
      (∀ m m', t = .fields m → t' = .fields m' → OEq (clearEmpty m) (clearEmpty m')) ∧
      (∀ v v', t = .val v → t' = .val v' → (clearValue v = none ∧ clearValue v' = none) ∨
        ∃ a b, clearValue v = some a ∧ clearValue v' = some b ∧ JEq a b) := by
    intro t t' h
    induction h with
    | refl =>
      refine ⟨(by rintro m m' rfl e; cases e; exact .refl), ?_⟩
      rintro v v' rfl e
      cases e
      cases clearValue v with
      | none => exact Or.inl ⟨rfl, rfl⟩
      | some a => exact Or.inr ⟨a, a, rfl, rfl, .refl⟩
    | @arr l l' h _ =>
      refine ⟨(by intro m m' e; cases e), ?_⟩
      intro v v' e e'
      cases e; cases e'
      exact Or.inr ⟨_, _, rfl, rfl, .arr h⟩
    | @obj a b _ ih =>
      refine ⟨(by intro m m' e; cases e), ?_⟩
      intro v v' e e'
      cases e; cases e'
      have hh := ih.1 _ _ rfl rfl
      simp only [clearValue]
      cases ha : clearEmpty a with
      | nil =>
        rw [nil_of hh ha]
        exact Or.inl ⟨rfl, rfl⟩
      | cons p a' =>
        cases hb : clearEmpty b with
        | nil => have := nil_of hh.symm hb; rw [ha] at this; cases this
        | cons q b' =>
          rw [ha, hb] at hh
          exact Or.inr ⟨_, _, rfl, rfl, .obj hh⟩
    | lcons => exact ⟨(by intro m m' e; cases e), (by intro m m' e; cases e)⟩
    | @fcons k v v' a b _ _ ih1 ih2 =>
      refine ⟨?_, by intro m m' e; cases e⟩
      intro m m' e e'
      cases e; cases e'
      have hf := ih2.1 _ _ rfl rfl
      simp only [clearEmpty]
      rcases ih1.2 _ _ rfl rfl with ⟨x, y⟩ | ⟨x, y, x1, y1, xy⟩
      · rw [x, y]; exact hf
      · rw [x1, y1]; exact .fcons xy hf
    | @fswap k v k' v' a hne =>
      refine ⟨?_, by intro m m' e; cases e⟩
      intro m m' e e'
      cases e; cases e'
      simp only [clearEmpty]
      cases clearValue v <;> cases clearValue v'
      · exact .refl
      · exact .refl
      · exact .refl
      · exact .fswap hne
    | @trans t1 t2 t3 h1 h2 ih1 ih2 =>
      refine ⟨?_, ?_⟩
      · intro m m' e e'
        subst e; subst e'
        cases t2 with
        | fields x => exact .trans (ih1.1 _ _ rfl rfl) (ih2.1 _ _ rfl rfl)
        | val v => exact absurd (JE.shape h1) (by simp)
        | list l => exact absurd (JE.shape h1) (by simp)
      · intro m m' e e'
        subst e; subst e'
        cases t2 with
        | fields x => exact absurd (JE.shape h1) (by simp)
        | list l => exact absurd (JE.shape h1) (by simp)
        | val v =>
          rcases ih1.2 _ _ rfl rfl with ⟨x, y⟩ | ⟨x, y, x1, y1, xy⟩
          · rcases ih2.2 _ _ rfl rfl with ⟨x', y'⟩ | ⟨x', y', x1', y1', xy'⟩
            · exact Or.inl ⟨x, y'⟩
            · rw [y] at x1'; cases x1'
          · rcases ih2.2 _ _ rfl rfl with ⟨x', y'⟩ | ⟨x', y', x1', y1', xy'⟩
            · rw [y1] at x'; cases x'
            · rw [y1] at x1'; cases x1'
              exact Or.inr ⟨_, _, x1, y1', .trans xy xy'⟩
  exact (key _ _ h).1 m m' rfl rfl

end VC.Vfy
