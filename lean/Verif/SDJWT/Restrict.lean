import Verif.SDJWT.DiscloseOrder
/-!
# Leaving disclosures out

What happens to verification and resolution when only some of the accepted disclosures are presented:
`verify_subset_iff`, `resolve_subset`, and, when all of them are presented again in any order,
`resolve_same_table`.
-/

namespace VC.SDJWT

open GoMap

variable {cl : Bool} {D D' : DMap}

/-- Every disclosure of the first table is in the second. -/
def SubTable (D' D : DMap) : Prop := ∀ d c, get? D' d = some c → get? D d = some c

/-- What is kept of the names when disclosures are left out. -/
def Fewer : Out → Out → Prop
  | .val _, .val _ => True
  | .list _, .list _ => True
  | .sds c _, .sds c' _ => (keys c').Sublist (keys c)
  | .fields f, .fields f' => keys f = keys f'
  | _, _ => False

/-- A value that can be resolved can be resolved with fewer disclosures. -/
theorem resolve_restrict (hs : SubTable D' D) {t : Task} {o : Out} (h : Resolve cl D t o) :
    (∀ d, t = .disc d → (get? D' d).isSome) → ∃ o', Resolve cl D' t o' ∧ Fewer o o' := by
  induction h with
  | @scalar v hv => intro _; exact ⟨_, .scalar hv, trivial⟩
  | arr _ ih =>
    intro _
    obtain ⟨o', i1, i2⟩ := ih (by intro d hd; cases hd)
    cases o' with
    | list out' => exact ⟨_, .arr i1, trivial⟩
    | val _ => exact i2.elim
    | fields _ => exact i2.elim
    | sds _ _ => exact i2.elim
  | @obj m sd claims missing fs g1 g2 g3 g4 g5 ih2 ih3 =>
    intro _
    obtain ⟨o1, i1, i2⟩ := ih2 (by intro d hd; cases hd)
    obtain ⟨o2, j1, j2⟩ := ih3 (by intro d hd; cases hd)
    cases o1 with
    | sds claims' missing' =>
      cases o2 with
      | fields fs' =>
        have i2 : (keys claims').Sublist (keys claims) := i2
        have j2 : keys fs = keys fs' := j2
        refine ⟨_, .obj g1 i1 j1 (i2.nodup g4) ?_, trivial⟩
        intro p hp hk
        have : p.1 ∈ keys fs := by rw [j2]; exact List.mem_map_of_mem hp
        obtain ⟨q, hq, hqe⟩ := List.mem_map.1 this
        exact g5 q hq (by rw [hqe]; exact i2.mem hk)
      | val _ => exact j2.elim
      | list _ => exact j2.elim
      | sds _ _ => exact j2.elim
    | val _ => exact i2.elim
    | fields _ => exact i2.elim
    | list _ => exact i2.elim
  | @done d c hc hp =>
    intro hd
    obtain ⟨c', hc'⟩ := Option.isSome_iff_exists.1 (hd d rfl)
    have := hs d c' hc'
    rw [hc] at this
    cases this
    exact ⟨_, .done hc' hp, trivial⟩
  | @disc d c w hc hp _ ih =>
    intro hd
    obtain ⟨c', hc'⟩ := Option.isSome_iff_exists.1 (hd d rfl)
    have := hs d c' hc'
    rw [hc] at this
    cases this
    obtain ⟨o', i1, i2⟩ := ih (by intro d hd; cases hd)
    cases o' with
    | val w' => exact ⟨_, .disc hc' hp i1, trivial⟩
    | list _ => exact i2.elim
    | fields _ => exact i2.elim
    | sds _ _ => exact i2.elim
  | enil => intro _; exact ⟨_, .enil, trivial⟩
  | eplain hv _ ih =>
    intro _
    obtain ⟨o', i1, i2⟩ := ih (by intro d hd; cases hd)
    cases o' with
    | list out' => exact ⟨_, .eplain hv i1, trivial⟩
    | val _ => exact i2.elim
    | fields _ => exact i2.elim
    | sds _ _ => exact i2.elim
  | @emiss v d l out hv hn _ ih =>
    intro _
    obtain ⟨o', i1, i2⟩ := ih (by intro d hd; cases hd)
    have hn' : get? D' d = none := by
      cases hx : get? D' d with
      | none => rfl
      | some c => rw [hs d c hx] at hn; cases hn
    cases o' with
    | list out' => exact ⟨_, .emiss hv hn' i1, trivial⟩
    | val _ => exact i2.elim
    | fields _ => exact i2.elim
    | sds _ _ => exact i2.elim
  | @edisc v d c w l out hv hc h2 _ _ ih1 ih2 =>
    intro _
    obtain ⟨o', i1, i2⟩ := ih2 (by intro d hd; cases hd)
    cases o' with
    | list out' =>
      cases hx : get? D' d with
      | none => exact ⟨_, .emiss hv hx i1, trivial⟩
      | some c' =>
        have := hs d c' hx
        rw [hc] at this
        cases this
        obtain ⟨o2, j1, j2⟩ := ih1 (by intro d' hd; cases hd; rw [hx]; rfl)
        cases o2 with
        | val w' => exact ⟨_, .edisc hv hx h2 j1 i1, trivial⟩
        | list _ => exact j2.elim
        | fields _ => exact j2.elim
        | sds _ _ => exact j2.elim
    | val _ => exact i2.elim
    | fields _ => exact i2.elim
    | sds _ _ => exact i2.elim
  | snil => intro _; exact ⟨_, .snil, List.Sublist.refl _⟩
  | @smiss d dl claims missing hn _ ih =>
    intro _
    obtain ⟨o', i1, i2⟩ := ih (by intro d hd; cases hd)
    have hn' : get? D' d = none := by
      cases hx : get? D' d with
      | none => rfl
      | some c => rw [hs d c hx] at hn; cases hn
    cases o' with
    | sds claims' missing' => exact ⟨_, .smiss hn' i1, i2⟩
    | val _ => exact i2.elim
    | fields _ => exact i2.elim
    | list _ => exact i2.elim
  | @sdisc d c w dl claims missing hc h3 _ _ ih1 ih2 =>
    intro _
    obtain ⟨o', i1, i2⟩ := ih2 (by intro d hd; cases hd)
    cases o' with
    | sds claims' missing' =>
      cases hx : get? D' d with
      | none => exact ⟨_, .smiss hx i1, List.Sublist.cons _ i2⟩
      | some c' =>
        have := hs d c' hx
        rw [hc] at this
        cases this
        obtain ⟨o2, j1, j2⟩ := ih1 (by intro d' hd; cases hd; rw [hx]; rfl)
        cases o2 with
        | val w' => exact ⟨_, .sdisc hx h3 j1 i1, List.Sublist.cons_cons _ i2⟩
        | list _ => exact j2.elim
        | fields _ => exact j2.elim
        | sds _ _ => exact j2.elim
    | val _ => exact i2.elim
    | fields _ => exact i2.elim
    | list _ => exact i2.elim
  | fnil => intro _; exact ⟨_, .fnil, rfl⟩
  | fskip hk _ ih =>
    intro _
    obtain ⟨o', i1, i2⟩ := ih (by intro d hd; cases hd)
    cases o' with
    | fields fs' => exact ⟨_, .fskip hk i1, i2⟩
    | val _ => exact i2.elim
    | sds _ _ => exact i2.elim
    | list _ => exact i2.elim
  | @fcons k v w m fs hk _ _ ih1 ih2 =>
    intro _
    obtain ⟨o1, j1, j2⟩ := ih1 (by intro d hd; cases hd)
    obtain ⟨o', i1, i2⟩ := ih2 (by intro d hd; cases hd)
    cases o1 with
    | val w' =>
      cases o' with
      | fields fs' =>
        have i2 : keys fs = keys fs' := i2
        exact ⟨_, .fcons hk j1 i1, by simp only [Fewer, keys, List.map_cons] at i2 ⊢; rw [i2]⟩
      | val _ => exact i2.elim
      | sds _ _ => exact i2.elim
      | list _ => exact i2.elim
    | list _ => exact j2.elim
    | fields _ => exact j2.elim
    | sds _ _ => exact j2.elim

theorem resolves_restrict (hs : SubTable D' D) {v w : Json} (h : Resolves cl D v w) :
    ∃ w', Resolves cl D' v w' := by
  obtain ⟨o', h1, h2⟩ := resolve_restrict hs h (by intro d hd; cases hd)
  cases o' with
  | val w' => exact ⟨w', h1⟩
  | list _ => exact h2.elim
  | fields _ => exact h2.elim
  | sds _ _ => exact h2.elim

theorem disc_restrict (hs : SubTable D' D) {d : String} {w : Json} (hd : (get? D' d).isSome)
    (h : Resolve cl D (.disc d) (.val w)) : ∃ w', Resolve cl D' (.disc d) (.val w') := by
  obtain ⟨o', h1, h2⟩ := resolve_restrict hs h (by intro d' hd'; cases hd'; exact hd)
  cases o' with
  | val w' => exact ⟨w', h1⟩
  | list _ => exact h2.elim
  | fields _ => exact h2.elim
  | sds _ _ => exact h2.elim

/-- Resolution looks at a table only through its lookups. -/
theorem resolve_same (hs : ∀ d, get? D d = get? D' d) {t : Task} {o : Out} (h : Resolve cl D t o) :
    Resolve cl D' t o := by
  induction h with
  | scalar hv => exact .scalar hv
  | arr _ ih => exact .arr ih
  | obj g1 _ _ g4 g5 ih2 ih3 => exact .obj g1 ih2 ih3 g4 g5
  | done hc hp => exact .done (hs _ ▸ hc) hp
  | disc hc hp _ ih => exact .disc (hs _ ▸ hc) hp ih
  | enil => exact .enil
  | eplain hv _ ih => exact .eplain hv ih
  | emiss hv hn _ ih => exact .emiss hv (hs _ ▸ hn) ih
  | edisc hv hc h2 _ _ ih1 ih2 => exact .edisc hv (hs _ ▸ hc) h2 ih1 ih2
  | snil => exact .snil
  | smiss hn _ ih => exact .smiss (hs _ ▸ hn) ih
  | sdisc hc h3 _ _ ih1 ih2 => exact .sdisc (hs _ ▸ hc) h3 ih1 ih2
  | fnil => exact .fnil
  | fskip hk _ ih => exact .fskip hk ih
  | fcons hk _ _ ih1 ih2 => exact .fcons hk ih1 ih2

/-! ## Tables of chosen disclosures -/

theorem isDisc_unique {env : Env} {alg s d d' : String} {c c' : Disc} (h : IsDisc env alg s d c)
    (h' : IsDisc env alg s d' c') : d = d' ∧ c = c' := by
  obtain ⟨a1, a2, a3, salt, rest, a4, a5⟩ := h
  obtain ⟨b1, b2, b3, salt', rest', b4, b5⟩ := h'
  rw [a4] at b4
  simp only [Option.some.injEq, List.cons.injEq] at b4
  obtain ⟨-, rfl⟩ := b4
  refine ⟨a1.trans b1.symm, ?_⟩
  obtain ⟨x1, x2, x3, x4, x5⟩ := c
  obtain ⟨y1, y2, y3, y4, y5⟩ := c'
  simp only at a2 a3 b2 b3
  subst a2 a3 b2 b3
  rcases a5 with ⟨v, e1, e2, e3, e4⟩ | ⟨nm, v, e1, e2, e3, e4⟩ | ⟨e1, e2, e3, e4⟩ <;>
    rcases b5 with ⟨v', f1, f2, f3, f4⟩ | ⟨nm', v', f1, f2, f3, f4⟩ | ⟨f1, f2, f3, f4⟩ <;>
    simp_all

theorem getDisclosureClaim_of {env : Env} {alg s d : String} {c : Disc} (h : IsDisc env alg s d c) :
    getDisclosureClaim env alg s = .ok (d, c) := by
  have key : ∃ d' c', getDisclosureClaim env alg s = .ok (d', c') := by
    obtain ⟨-, -, -, salt, rest, h4, h5⟩ := h
    unfold getDisclosureClaim
    rw [h4]
    rcases h5 with ⟨v, rfl, -⟩ | ⟨nm, v, rfl, -⟩ | ⟨hl, -⟩
    · exact ⟨_, _, rfl⟩
    · exact ⟨_, _, rfl⟩
    · match rest, hl with
      | a :: b :: e :: r, _ => exact ⟨_, _, rfl⟩
  obtain ⟨d', c', hk⟩ := key
  obtain ⟨rfl, rfl⟩ := isDisc_unique h (getDisclosureClaim_ok hk)
  exact hk

/-- The chosen strings are disclosures of the table. -/
def ChosenFrom (D : DMap) (ds' : List String) : Prop :=
  ∀ s ∈ ds', ∃ d c, get? D d = some c ∧ c.disclosure = s

theorem chosen_isDisc {env : Env} {alg : String} {ds ds' : List String} (hD : Decoded env alg ds D)
    (hc : ChosenFrom D ds') {s : String} (h : s ∈ ds') :
    ∃ c, get? D (env.hash alg s) = some c ∧ IsDisc env alg s (env.hash alg s) c := by
  obtain ⟨d, c, h1, h2⟩ := hc s h
  obtain ⟨s', -, h4⟩ := hD.from_list d c h1
  have e : s' = s := h4.2.1.symm.trans h2
  subst e
  have e2 : d = env.hash alg s' := h4.1
  subst e2
  exact ⟨c, h1, h4⟩

/-- Decoding the chosen disclosures gives a part of the table. -/
theorem chosen_table {env : Env} {alg : String} {ds ds' : List String} (hD : Decoded env alg ds D)
    (hc : ChosenFrom D ds') :
    ∃ D', getDisclosureClaims env alg ds' [] = .ok D' ∧ SubTable D' D ∧
      (∀ s ∈ ds', get? D' (env.hash alg s) = get? D (env.hash alg s)) ∧
      (∀ d, (get? D' d).isSome ↔ ∃ s ∈ ds', env.hash alg s = d) := by
  obtain ⟨D', h⟩ := getDisclosureClaims_total (env := env) (alg := alg) ds' [] (by
    intro s hs
    obtain ⟨c, -, h2⟩ := chosen_isDisc hD hc hs
    exact ⟨_, c, getDisclosureClaim_of h2⟩)
  have hD' := decoded_of_ok h
  have hsub : SubTable D' D := by
    intro d c' hd
    obtain ⟨s, hs, hi⟩ := hD'.from_list d c' hd
    obtain ⟨c, h1, h2⟩ := chosen_isDisc hD hc hs
    obtain ⟨e1, e2⟩ := isDisc_unique hi h2
    rw [e1, e2]; exact h1
  refine ⟨D', h, hsub, ?_, ?_⟩
  · intro s hs
    obtain ⟨c', hc'⟩ := hD'.all s hs
    rw [hc', hsub _ _ hc']
  · intro d
    constructor
    · intro hd
      obtain ⟨c, hc⟩ := Option.isSome_iff_exists.1 hd
      obtain ⟨s, hs, hi⟩ := hD'.from_list d c hc
      exact ⟨s, hs, hi.1.symm⟩
    · rintro ⟨s, hs, rfl⟩
      obtain ⟨c, hc⟩ := hD'.all s hs
      rw [hc]; rfl

theorem committed_reach {env : Env} {alg : String} {ds' : List String} {payload : JObj}
    (hD' : Decoded env alg ds' D') (hinj : ∀ s ∈ ds', ∀ c, get? D' (env.hash alg s) = some c →
      IsDisc env alg s (env.hash alg s) c) {d : String} (h : Committed env alg ds' payload d) :
    Reach false D' (digests false (.obj payload)) d := by
  induction h with
  | payload h => exact .root h
  | @nested s arr v d hs _ hdec hlen hlast hd ih =>
    obtain ⟨c, hc⟩ := hD'.all s hs
    have hi := hinj s hs c hc
    refine .step ih hc hi.2.2.1 ?_
    obtain ⟨-, -, -, salt, rest, h4, h5⟩ := hi
    rw [hdec] at h4
    cases h4
    rcases h5 with ⟨v', rfl, -, -, e⟩ | ⟨nm, v', rfl, -, -, e⟩ | ⟨hl, -⟩
    · simp only [List.getLast?_cons_cons, List.getLast?_singleton, Option.some.injEq] at hlast
      rw [e, hlast]; exact hd
    · simp only [List.getLast?_cons_cons, List.getLast?_singleton, Option.some.injEq] at hlast
      rw [e, hlast]; exact hd
    · simp only [List.length_cons] at hlen; omega

theorem digOf_sub (hs : SubTable D' D) {d : String} (hd : d ∈ keys D') : digOf cl D' d = digOf cl D d := by
  obtain ⟨c, hc⟩ := Option.isSome_iff_exists.1 (get?_isSome_iff.2 hd)
  unfold digOf
  rw [hc, hs d c hc]

theorem keys_sub (hs : SubTable D' D) {d : String} (hd : d ∈ keys D') : d ∈ keys D := by
  obtain ⟨c, hc⟩ := Option.isSome_iff_exists.1 (get?_isSome_iff.2 hd)
  exact get?_isSome_iff.1 (by rw [hs d c hc]; rfl)

theorem flatMap_sub (hs : SubTable D' D) :
    (keys D').flatMap (digOf cl D') = (keys D').flatMap (digOf cl D) := by
  apply List.flatMap_congr
  intro d hd
  exact digOf_sub hs hd

/-- **C108** (core): presenting some of the accepted disclosures is accepted iff each of them is committed
to by the payload through the presented ones. -/
theorem verify_subset_iff {env : Env} (he : EnvWF env) {ds ds' : List String} {payload : JObj}
    (hp : JWF (.obj payload)) (h : verifyDisclosures env ds payload = .ok ()) {alg : String}
    (ha : getHashAlg env payload = some alg) (hD : getDisclosureClaims env alg ds [] = .ok D)
    (hc : ChosenFrom D ds') :
    verifyDisclosures env ds' payload = .ok () ↔
      ∀ s ∈ ds', Committed env alg ds' payload (env.hash alg s) := by
  constructor
  · intro h'
    obtain ⟨alg', h1, h2⟩ := accepted_disclosures_committed h'
    rw [ha] at h1
    cases h1
    exact h2
  · intro hcom
    obtain ⟨alg', D0, g1, g2, ⟨w, g3⟩, g4, g5⟩ := (verify_iff_table he hp).1 h
    rw [ha] at g1
    cases g1
    rw [hD] at g2
    cases g2
    have hDec := decoded_of_ok hD
    obtain ⟨D', k1, k2, k3, k4⟩ := chosen_table hDec hc
    have hDec' := decoded_of_ok k1
    refine (verify_iff_table he hp).2 ⟨alg, D', ha, k1, resolves_restrict k2 g3, ?_, ?_⟩
    · intro d hd
      obtain ⟨s, hs, rfl⟩ := (k4 d).1 (get?_isSome_iff.2 hd)
      refine committed_reach hDec' ?_ (hcom s hs)
      intro s hs c hc'
      obtain ⟨c0, e1, e2⟩ := chosen_isDisc hDec hc hs
      rw [k2 _ _ hc'] at e1
      cases e1
      exact e2
    · rw [flatMap_sub k2]
      rw [List.nodup_append] at g5 ⊢
      refine ⟨g5.1, nodup_flatMap_sub g5.2.1 hDec.wf hDec'.wf (fun d hd => keys_sub k2 hd), ?_⟩
      intro a ha' b hb
      obtain ⟨d, hd, hb⟩ := List.mem_flatMap.1 hb
      exact g5.2.2 a ha' b (List.mem_flatMap.2 ⟨d, keys_sub k2 hd, hb⟩)

/-- **C108** (core): resolving some of the disclosures that can be resolved always succeeds; each keeps
its text, its name and its kind, and its value is its own content resolved against the chosen ones. -/
theorem resolve_subset {env : Env} (he : EnvWF env) {ds ds' : List String} {alg : String}
    {order : DMap → List String} (ho : ∀ D, ∀ d ∈ keys D, d ∈ order D) {M : DMap}
    (h : resolveDisclosureClaims env alg ds order = .ok M)
    (hc : ∀ s ∈ ds', ∃ d c, get? M d = some c ∧ c.disclosure = s) :
    ∃ D D' M', getDisclosureClaims env alg ds [] = .ok D ∧ getDisclosureClaims env alg ds' [] = .ok D' ∧
      resolveDisclosureClaims env alg ds' order = .ok M' ∧ SubTable D' D ∧ ChosenFrom D ds' ∧
      (∀ s ∈ ds', get? D' (env.hash alg s) = get? D (env.hash alg s)) ∧
      (∀ d, (get? M' d).isSome ↔ ∃ s ∈ ds', env.hash alg s = d) ∧
      (∀ d c', get? M' d = some c' → ∃ c r, get? M d = some c ∧ get? D d = some r ∧
        c'.disclosure = c.disclosure ∧ c'.name = c.name ∧ c'.elems = c.elems ∧ c'.parsed = c.parsed ∧
        Resolves true D r.value c.value ∧ Resolves true D' r.value c'.value) := by
  unfold resolveDisclosureClaims at h
  cases hD : getDisclosureClaims env alg ds [] with
  | error e => rw [hD] at h; cases h
  | ok D =>
    rw [hD] at h
    dsimp only at h
    cases hs : setAll true (2 * weight D + 1) ⟨[], D⟩ (order D) with
    | error e => rw [hs] at h; cases h
    | ok st =>
      rw [hs] at h
      have e : st.ds = M := by cases h; rfl
      have hDec := decoded_of_ok hD
      obtain ⟨r1, r2⟩ := setAll_result hDec.unparsed (ho D) hs
      rw [e] at r1 r2
      have hch : ChosenFrom D ds' := by
        intro s hs
        obtain ⟨d, c, h1, h2⟩ := hc s hs
        have : (get? D d).isSome := get?_isSome_iff.2 (by rw [← r1]; exact get?_isSome_iff.1 (by rw [h1]; rfl))
        obtain ⟨r, hr⟩ := Option.isSome_iff_exists.1 this
        obtain ⟨c', q1, -, -, -, q2, -⟩ := r2 d r hr
        rw [h1] at q1
        cases q1
        exact ⟨d, r, hr, by rw [← q2]; exact h2⟩
      obtain ⟨D', k1, k2, k3, k4⟩ := chosen_table hDec hch
      have hDec' := decoded_of_ok k1
      obtain ⟨i1, i2⟩ := (setAll_iff (hDec.dwf he) hDec.wf hDec.unparsed (ho D)).1 ⟨st, hs⟩
      obtain ⟨st', hst'⟩ := (setAll_iff (cl := true) (hDec'.dwf he) hDec'.wf hDec'.unparsed (ho D')).2 ⟨by
        intro d hd
        obtain ⟨w, hw⟩ := i1 d (keys_sub k2 hd)
        exact disc_restrict k2 (get?_isSome_iff.2 hd) hw, by
        rw [flatMap_sub k2]
        exact nodup_flatMap_sub i2 hDec.wf hDec'.wf (fun d hd => keys_sub k2 hd)⟩
      obtain ⟨s1, s2⟩ := setAll_result hDec'.unparsed (ho D') hst'
      refine ⟨D, D', st'.ds, rfl, k1, ?_, k2, hch, k3, ?_, ?_⟩
      · unfold resolveDisclosureClaims
        rw [k1]; dsimp only
        rw [hst']
      · intro d
        rw [← k4 d, get?_isSome_iff, get?_isSome_iff, s1]
      · intro d c' hc'
        have : (get? D' d).isSome := get?_isSome_iff.2 (by rw [← s1]; exact get?_isSome_iff.1 (by rw [hc']; rfl))
        obtain ⟨r, hr⟩ := Option.isSome_iff_exists.1 this
        obtain ⟨c1, q1, q2, q3, q4, q5, q6⟩ := s2 d r hr
        rw [hc'] at q1
        cases q1
        obtain ⟨c, p1, p2, p3, p4, p5, p6⟩ := r2 d r (k2 d r hr)
        exact ⟨c, r, p1, k2 d r hr, q5.trans p5.symm, q3.trans p3.symm, q4.trans p4.symm, q2.trans p2.symm, p6, q6⟩

/-- **C108** (core): presenting all disclosures again, in any order, gives the same table. -/
theorem resolve_same_table {env : Env} (he : EnvWF env) {ds ds' : List String} {alg : String}
    {order : DMap → List String} (ho : ∀ D, ∀ d ∈ keys D, d ∈ order D) {M : DMap}
    (h : resolveDisclosureClaims env alg ds order = .ok M)
    (hc : ∀ s, s ∈ ds' ↔ ∃ d c, get? M d = some c ∧ c.disclosure = s) :
    ∃ M', resolveDisclosureClaims env alg ds' order = .ok M' ∧ ∀ d, get? M' d = get? M d := by
  obtain ⟨D, D', M', h1, h2, h3, h4, h5, h6, h7, h8⟩ := resolve_subset he ho h (fun s hs => (hc s).1 hs)
  have hDec := decoded_of_ok h1
  have hkeys : ∀ d, (get? M d).isSome → ∃ s ∈ ds', env.hash alg s = d := by
    intro d hd
    obtain ⟨c, hd⟩ := Option.isSome_iff_exists.1 hd
    have hs := (hc c.disclosure).2 ⟨d, c, hd, rfl⟩
    refine ⟨_, hs, ?_⟩
    unfold resolveDisclosureClaims at h
    rw [h1] at h
    dsimp only at h
    cases hs : setAll true (2 * weight D + 1) ⟨[], D⟩ (order D) with
    | error e => rw [hs] at h; cases h
    | ok st =>
      rw [hs] at h
      have e : st.ds = M := by cases h; rfl
      obtain ⟨r1, r2⟩ := setAll_result hDec.unparsed (ho D) hs
      rw [e] at r1 r2
      have : (get? D d).isSome := get?_isSome_iff.2 (by rw [← r1]; exact get?_isSome_iff.1 (by rw [hd]; rfl))
      obtain ⟨r, hr⟩ := Option.isSome_iff_exists.1 this
      obtain ⟨c', q1, -, -, -, q2, -⟩ := r2 d r hr
      rw [hd] at q1
      cases q1
      obtain ⟨s0, -, hi⟩ := hDec.from_list d r hr
      rw [q2, hi.2.1]
      exact hi.1.symm
  refine ⟨M', h3, ?_⟩
  have hsame : ∀ d, get? D' d = get? D d := by
    intro d
    cases hx : get? D d with
    | none =>
      cases hy : get? D' d with
      | none => rfl
      | some c => rw [h4 d c hy] at hx; cases hx
    | some c =>
      have hM : (get? M d).isSome := by
        unfold resolveDisclosureClaims at h
        rw [h1] at h
        dsimp only at h
        cases hs : setAll true (2 * weight D + 1) ⟨[], D⟩ (order D) with
        | error e => rw [hs] at h; cases h
        | ok st =>
          rw [hs] at h
          have e : st.ds = M := by cases h; rfl
          obtain ⟨r1, r2⟩ := setAll_result hDec.unparsed (ho D) hs
          rw [e] at r1
          exact get?_isSome_iff.2 (by rw [r1]; exact get?_isSome_iff.1 (by rw [hx]; rfl))
      obtain ⟨s, hs, rfl⟩ := hkeys d hM
      rw [h6 s hs, hx]
  intro d
  cases hx : get? M' d with
  | none =>
    cases hy : get? M d with
    | none => rfl
    | some c =>
      have := (h7 d).2 (hkeys d (by rw [hy]; rfl))
      rw [hx] at this
      cases this
  | some c' =>
    obtain ⟨c, r, a1, a2, a3, a4, a5, a6, a7, a8⟩ := h8 d c' hx
    rw [a1]
    have ev := resolve_det a7 _ (resolve_same hsame a8)
    simp only [Out.val.injEq] at ev
    obtain ⟨x1, x2, x3, x4, x5⟩ := c
    obtain ⟨y1, y2, y3, y4, y5⟩ := c'
    simp only at a3 a4 a5 a6 ev
    subst a3 a4 a5 a6 ev
    rfl

end VC.SDJWT
