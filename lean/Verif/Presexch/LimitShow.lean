import Verif.Presexch.LimitProps
/-!
# presexch: a limited credential shows what was selected (C97)
-/

namespace VC.PE

open GoMap

variable {eval : List String → Json → Option (List (List Step))}

/-- The cases in which the written document is known to be faithful.

* every selected place is a place of the source, with plain names, no array directly in an array, not
  through `credentialSchema`; in the template a name does not meet an array on the way, and the
  template has nothing where the place enters an array;
* if a field selects a place inside another selected place, no array is on the way between, and a
  field with a required predicate does not do that at all;
* an array that one field goes into is not touched by another field, and the places of a field with a
  required predicate are not inside or around the places of another field. -/
structure Simple (eval : List String → Json → Option (List (List Step))) (raw : JObj) (T : Json)
    (fields : List Field) : Prop where
  parsed : ∀ f ∈ fields, (eval f.path (.obj raw)).isSome
  place : ∀ f ∈ fields, ∀ ps, eval f.path (.obj raw) = some ps → ∀ p ∈ ps,
    p ≠ [] ∧ (gat (.obj raw) p).isSome ∧ (∀ s ∈ p, s.Plain) ∧ NoNest p ∧ NoSchema p ∧ Fits T p ∧
    ∀ c a s, p = c ++ Step.idx a :: s → gat T c = none
  inside : ∀ f ∈ fields, ∀ ps, eval f.path (.obj raw) = some ps → ∀ p r, p ∈ ps → p ++ r ∈ ps →
    Names r ∧ (f.predicateReq = true → r = [])
  across : fields.Pairwise (fun f g => ∀ ps qs, eval f.path (.obj raw) = some ps →
    eval g.path (.obj raw) = some qs → ∀ p ∈ ps, ∀ q ∈ qs, ArraysApart p q ∧ ArraysApart q p ∧
      (f.predicateReq = true ∨ g.predicateReq = true → ¬ p <+: q ∧ ¬ q <+: p))

/-- The value that a field writes for a selected place. -/
def shown (src : Json) (predicate : Bool) (p : List Step) : Json :=
  if predicate then .bool true else (gat src p).getD .null

theorem good_of {raw : JObj} {p : List Step} (h1 : (gat (.obj raw) p).isSome) (h2 : ∀ s ∈ p, s.Plain)
    (h3 : NoNest p) : Good (.obj raw) p :=
  ⟨h1, noDots_of_plain h2, h3, fun n t e => by subst e; simp [gat] at h1⟩

theorem plain_key_ne {p : List Step} (hne : p ≠ []) (h : ∀ s ∈ p, s.Plain) : keyOfPlace p ≠ "" := by
  intro e
  have h1 := split_joinC '.' (p.map Step.text) (by simpa using hne) (noDots_map (noDots_of_plain h))
  rw [show joinC '.' (p.map Step.text) = keyOfPlace p from rfl, e] at h1
  have h2 : split '.' "" = [""] := by decide +kernel
  rw [h2] at h1
  cases p with
  | nil => exact hne rfl
  | cons s p =>
    simp only [List.map_cons, List.cons.injEq] at h1
    cases s with
    | name k => exact (h _ (List.mem_cons_self ..)).1 h1.1.symm
    | idx n => exact toString_ne_empty n h1.1.symm

theorem setPath_write {src doc : Json} {predicate : Bool} {p np : List Step} (hsh : SameShape p np)
    (hne : p ≠ []) (hp : (gat src p).isSome) (hpl : ∀ s ∈ p, s.Plain) (hns : NoSchema p) :
    setPath src predicate doc ⟨keyOfPlace np, keyOfPlace p⟩ =
      ssetC (shown src predicate p) (np.map Step.text) doc := by
  have hnp : np ≠ [] := by rintro rfl; cases hsh; exact hne rfl
  have hpl' := plain_shape hsh hpl
  unfold setPath
  rw [if_neg (fun h => (contains_schema hsh).mp h hns)]
  unfold sset
  rw [if_neg (plain_key_ne hnp hpl'), keyOfPlace,
    split_joinC '.' _ (by simpa using hnp) (noDots_map (noDots_of_plain hpl'))]
  unfold shown
  obtain ⟨x, hx⟩ := Option.isSome_iff_exists.mp hp
  dsimp only
  rw [show keyOfPlace p = joinC '.' (p.map Step.text) from rfl, gget_gat hne (noDots_of_plain hpl) hx, hx]

theorem setPaths_write {src : Json} {predicate : Bool} (ρ : List Step → List Step) :
    ∀ (ps : List (List Step)) (doc : Json), (∀ p ∈ ps, SameShape p (ρ p) ∧ p ≠ [] ∧ (gat src p).isSome ∧
      (∀ s ∈ p, s.Plain) ∧ NoSchema p) →
    setPaths src predicate doc
        (List.zipWith (fun p np => ⟨keyOfPlace np, keyOfPlace p⟩) ps (ps.map ρ)) =
      writeAll doc (ps.map (fun p => (ρ p, shown src predicate p)))
  | [], _, _ => rfl
  | p :: ps, doc, h => by
    obtain ⟨h1, h2, h3, h4, h5⟩ := h p (List.mem_cons_self ..)
    simp only [List.map_cons, List.zipWith_cons_cons, setPaths, writeAll, setPath_write h1 h2 h3 h4 h5]
    congr 1
    funext d
    exact setPaths_write ρ ps d (fun q hq => h q (List.mem_cons_of_mem _ hq))

theorem writeAll_append : ∀ (a b : List (List Step × Json)) (doc : Json),
    writeAll doc (a ++ b) = (writeAll doc a).bind (fun d => writeAll d b)
  | [], _, _ => rfl
  | x :: a, b, doc => by
    simp only [List.cons_append, writeAll, Option.bind_assoc]
    congr 1
    funext d
    exact writeAll_append a b d

/-- The writes of a field. -/
def FieldWrites (eval : List String → Json → Option (List (List Step))) (raw : JObj) (f : Field)
    (ws : List (List Step × Json)) : Prop :=
  ∃ ps m, eval f.path (.obj raw) = some ps ∧ CInv (.obj raw) m ∧ (∀ p ∈ ps, Mapped m [] p) ∧
    CFull (.obj raw) ps m ∧ ws = ps.map (fun p => (rho m [] p, shown (.obj raw) f.predicateReq p))

theorem field_writes {raw : JObj} {T : Json} {fields : List Field} (h : Simple eval raw T fields)
    {f : Field} (hf : f ∈ fields) : ∃ ws, FieldWrites eval raw f ws ∧ ∀ doc,
      (compactArrayPaths eval f.path (.obj raw)).bind (setPaths (.obj raw) f.predicateReq doc) =
        writeAll doc ws := by
  obtain ⟨ps, hps⟩ := Option.isSome_iff_exists.mp (h.parsed f hf)
  have hpl := h.place f hf ps hps
  obtain ⟨m, h1, _, h3, h4, h5⟩ := renumAll_rho ps [] (cinv_nil (.obj raw))
    (fun p hp => good_of (hpl p hp).2.1 (hpl p hp).2.2.1 (hpl p hp).2.2.2.1)
  refine ⟨_, ⟨ps, m, hps, h1, h4, h5 ps (fun p hp => good_of (hpl p hp).2.1 (hpl p hp).2.2.1 (hpl p hp).2.2.2.1)
    (fun _ h => h) (cfull_nil _ _), rfl⟩, ?_⟩
  intro doc
  rw [compactArrayPaths, hps]
  simp only [Option.map_some, Option.bind_some, compactLoop_renum, h3]
  exact setPaths_write (rho m []) ps doc (fun p hp =>
    ⟨rho_shape m p [], (hpl p hp).1, (hpl p hp).2.1, (hpl p hp).2.2.1, (hpl p hp).2.2.2.2.1⟩)

theorem fields_writes {raw : JObj} : ∀ (fields : List Field),
    (∀ f ∈ fields, ∃ ws, FieldWrites eval raw f ws ∧ ∀ doc,
      (compactArrayPaths eval f.path (.obj raw)).bind (setPaths (.obj raw) f.predicateReq doc) =
        writeAll doc ws) →
    ∃ wss, List.Forall₂ (FieldWrites eval raw) fields wss ∧ ∀ doc,
      setFields eval (.obj raw) doc fields = writeAll doc wss.flatten
  | [], _ => ⟨[], .nil, fun _ => rfl⟩
  | f :: fs, h => by
    obtain ⟨ws, h1, h2⟩ := h f (List.mem_cons_self ..)
    obtain ⟨wss, h3, h4⟩ := fields_writes fs (fun g hg => h g (List.mem_cons_of_mem _ hg))
    refine ⟨ws :: wss, .cons h1 h3, ?_⟩
    intro doc
    rw [List.flatten_cons, writeAll_append, ← h2 doc, setFields, Option.bind_assoc]
    congr 1
    funext ps
    congr 1
    funext d
    exact h4 d

theorem f2_right {α β : Type} {R : α → β → Prop} {l : List α} {l' : List β} (h : List.Forall₂ R l l') :
    ∀ {b : β}, b ∈ l' → ∃ a ∈ l, R a b := by
  induction h with
  | nil => intro b hb; simp at hb
  | @cons a b' l l' h1 _ ih =>
    intro b hb
    rcases List.mem_cons.mp hb with rfl | hb
    · exact ⟨a, List.mem_cons_self .., h1⟩
    · obtain ⟨a', ha', h'⟩ := ih hb
      exact ⟨a', List.mem_cons_of_mem _ ha', h'⟩

theorem f2_left {α β : Type} {R : α → β → Prop} {l : List α} {l' : List β} (h : List.Forall₂ R l l') :
    ∀ {a : α}, a ∈ l → ∃ b ∈ l', R a b := by
  induction h with
  | nil => intro b hb; simp at hb
  | @cons a b' l l' h1 _ ih =>
    intro x hx
    rcases List.mem_cons.mp hx with rfl | hx
    · exact ⟨b', List.mem_cons_self .., h1⟩
    · obtain ⟨b, hb, h'⟩ := ih hx
      exact ⟨b, List.mem_cons_of_mem _ hb, h'⟩

/-- Places of different fields whose arrays are apart. -/
theorem apart_cases (m m' : GoMap Nat) : ∀ (p q pre pre' : List Step) (x : Json), (gat x p).isSome →
    (gat x q).isSome → ArraysApart p q → ArraysApart q p →
    (∃ r, q = p ++ r ∧ Names q) ∨ (∃ r, p = q ++ r ∧ Names p) ∨
      (Div (rho m pre p) (rho m' pre' q) ∧ Div (rho m' pre' q) (rho m pre p))
  | [], q, _, _, _, _, _, _, h => by
    refine .inl ⟨q, rfl, ?_⟩
    intro s hs
    cases s with
    | name k => exact ⟨k, rfl⟩
    | idx a =>
      obtain ⟨c, t, e⟩ := List.append_of_mem hs
      exact absurd List.nil_prefix (h c a t e).2
  | a :: p, [], _, _, _, _, _, h, _ => by
    refine .inr (.inl ⟨a :: p, rfl, ?_⟩)
    intro s hs
    cases s with
    | name k => exact ⟨k, rfl⟩
    | idx n =>
      obtain ⟨c, t, e⟩ := List.append_of_mem hs
      exact absurd List.nil_prefix (h c n t e).2
  | .idx n :: p, q, _, _, _, _, _, h, _ => absurd List.nil_prefix (h [] n p rfl).1
  | .name k :: p, .idx n :: q, _, _, _, _, _, _, h => absurd List.nil_prefix (h [] n q rfl).1
  | .name k :: p, .name k' :: q, pre, pre', x, hp, hq, h, h' => by
    by_cases e : k = k'
    · subst e
      cases x <;> simp only [gat, Option.isSome_none, Bool.false_eq_true] at hp hq
      case obj o =>
        cases hg : get? o k with
        | none => rw [hg] at hp; simp at hp
        | some y =>
          rw [hg] at hp hq
          rcases apart_cases m m' p q (pre ++ [.name k]) (pre' ++ [.name k]) y hp hq
            (fun c a s e => by
              have := h (.name k :: c) a s (by rw [e]; rfl)
              simpa [List.cons_prefix_cons] using this)
            (fun c a s e => by
              have := h' (.name k :: c) a s (by rw [e]; rfl)
              simpa [List.cons_prefix_cons] using this) with ⟨r, h1, h2⟩ | ⟨r, h1, h2⟩ | ⟨h1, h2⟩
          · refine .inl ⟨r, by rw [h1]; rfl, ?_⟩
            intro s hs
            rcases List.mem_cons.mp hs with rfl | hs
            · exact ⟨k, rfl⟩
            · exact h2 s hs
          · refine .inr (.inl ⟨r, by rw [h1]; rfl, ?_⟩)
            intro s hs
            rcases List.mem_cons.mp hs with rfl | hs
            · exact ⟨k, rfl⟩
            · exact h2 s hs
          · exact .inr (.inr ⟨.tail _ _ _ h1, .tail _ _ _ h2⟩)
    · exact .inr (.inr ⟨.head _ _ _ _ (by simpa using e) trivial,
        .head _ _ _ _ (by simpa using fun h => e h.symm) trivial⟩)

theorem names_left {p r : List Step} (h : Names (p ++ r)) : Names p := fun s hs => h s (by simp [hs])

theorem shown_at {src : Json} {p r : List Step} (h : (gat src (p ++ r)).isSome) {b : Bool}
    (hb : b = true → r = []) : gat (shown src b p) r = some (shown src b (p ++ r)) := by
  cases b with
  | true =>
    have := hb rfl
    subst this
    simp [shown]
  | false =>
    simp only [shown, Bool.false_eq_true, if_false]
    obtain ⟨x, hx⟩ := Option.isSome_iff_exists.mp h
    rw [hx]
    rw [gat_append] at hx
    obtain ⟨y, hy, hx⟩ := Option.bind_eq_some_iff.mp hx
    rw [hy]
    exact hx

theorem fits_rho (m : GoMap Nat) : ∀ (p pre : List Step) (T : Json), Fits T p →
    (∀ c a s, p = c ++ Step.idx a :: s → gat T c = none) → Fits T (rho m pre p)
  | [], _, T, _, _ => fits_nil T
  | .idx n :: p, _, T, _, h => by
    have := h [] n p rfl
    rw [gat_nil] at this
    cases this
  | .name k :: p, pre, T, hf, h => by
    simp only [rho]
    cases T with
    | obj o =>
      intro x hx
      refine fits_rho m p _ x (hf x hx) ?_
      intro c a s e
      have := h (.name k :: c) a s (by rw [e]; rfl)
      rw [gat_name, hx] at this
      exact this
    | arr l => exact absurd hf (by simp [Fits])
    | null => trivial
    | bool b => trivial
    | num n => trivial
    | str t => trivial

theorem agree_within {raw : JObj} {T : Json} {fields : List Field} (h : Simple eval raw T fields)
    {f : Field} (hf : f ∈ fields) {ws : List (List Step × Json)} (hw : FieldWrites eval raw f ws) :
    ∀ a ∈ ws, ∀ b ∈ ws, Agree a b := by
  obtain ⟨ps, m, hps, hi, hm, _, rfl⟩ := hw
  have hpl := h.place f hf ps hps
  have sub : ∀ p r, p ∈ ps → p ++ r ∈ ps →
      (rho m [] (p ++ r) = rho m [] p ++ r) ∧
      gat (shown (.obj raw) f.predicateReq p) r = some (shown (.obj raw) f.predicateReq (p ++ r)) := by
    intro p r hp hpr
    obtain ⟨h1, h2⟩ := h.inside f hf ps hps p r hp hpr
    refine ⟨by rw [rho_append, rho_names m r _ h1], shown_at (hpl _ hpr).2.1 h2⟩
  intro a ha b hb
  obtain ⟨p, hp, rfl⟩ := List.mem_map.mp ha
  obtain ⟨q, hq, rfl⟩ := List.mem_map.mp hb
  have gp := good_of (hpl p hp).2.1 (hpl p hp).2.2.1 (hpl p hp).2.2.2.1
  have gq := good_of (hpl q hq).2.1 (hpl q hq).2.2.1 (hpl q hq).2.2.2.1
  rcases rho_cases hi p q [] (by simpa using gp) (by simpa using gq) (hm p hp) (hm q hq) with
    ⟨r, rfl⟩ | ⟨r, rfl⟩ | hd
  · exact .inl ⟨r, sub p r hp hq⟩
  · exact .inr (.inl ⟨r, sub q r hq hp⟩)
  · exact .inr (.inr hd)

theorem agree_across {raw : JObj} {T : Json} {fields : List Field} (h : Simple eval raw T fields)
    {f g : Field} (hf : f ∈ fields) (hg : g ∈ fields)
    (hfg : ∀ ps qs, eval f.path (.obj raw) = some ps →
      eval g.path (.obj raw) = some qs → ∀ p ∈ ps, ∀ q ∈ qs, ArraysApart p q ∧ ArraysApart q p ∧
      (f.predicateReq = true ∨ g.predicateReq = true → ¬ p <+: q ∧ ¬ q <+: p))
    {ws vs : List (List Step × Json)} (hw : FieldWrites eval raw f ws) (hv : FieldWrites eval raw g vs) :
    ∀ a ∈ ws, ∀ b ∈ vs, Agree a b := by
  obtain ⟨ps, m, hps, hi, hm, _, rfl⟩ := hw
  obtain ⟨qs, m', hqs, hi', hm', _, rfl⟩ := hv
  have hpl := h.place f hf ps hps
  have hql := h.place g hg qs hqs
  intro a ha b hb
  obtain ⟨p, hp, rfl⟩ := List.mem_map.mp ha
  obtain ⟨q, hq, rfl⟩ := List.mem_map.mp hb
  obtain ⟨h1, h2, h3⟩ := hfg ps qs hps hqs p hp q hq
  have nopred : (p <+: q ∨ q <+: p) → f.predicateReq = false ∧ g.predicateReq = false := by
    intro hc
    cases h4 : f.predicateReq with
    | true => rcases hc with hc | hc
              · exact absurd hc (h3 (.inl h4)).1
              · exact absurd hc (h3 (.inl h4)).2
    | false =>
      cases h5 : g.predicateReq with
      | true => rcases hc with hc | hc
                · exact absurd hc (h3 (.inr h5)).1
                · exact absurd hc (h3 (.inr h5)).2
      | false => exact ⟨rfl, rfl⟩
  rcases apart_cases m m' p q [] [] (.obj raw) (hpl p hp).2.1 (hql q hq).2.1 h1 h2 with
    ⟨r, rfl, hn⟩ | ⟨r, rfl, hn⟩ | hd
  · obtain ⟨e1, e2⟩ := nopred (.inl (List.prefix_append p r))
    refine .inl ⟨r, ?_, ?_⟩
    · dsimp only
      rw [rho_names m' _ [] hn, rho_names m _ [] (names_left hn)]
    · dsimp only
      rw [e1, e2]
      exact shown_at (hql _ hq).2.1 (by simp)
  · obtain ⟨e1, e2⟩ := nopred (.inr (List.prefix_append q r))
    refine .inr (.inl ⟨r, ?_, ?_⟩)
    · dsimp only
      rw [rho_names m _ [] hn, rho_names m' _ [] (names_left hn)]
    · dsimp only
      rw [e1, e2]
      exact shown_at (hpl _ hp).2.1 (by simp)
  · exact .inr (.inr hd)

theorem agree_all {raw : JObj} {T : Json} {fields : List Field} (h : Simple eval raw T fields) :
    ∀ (fs : List Field) (wss : List (List (List Step × Json))), (∀ f ∈ fs, f ∈ fields) →
    fs.Pairwise (fun f g => ∀ ps qs, eval f.path (.obj raw) = some ps →
      eval g.path (.obj raw) = some qs → ∀ p ∈ ps, ∀ q ∈ qs, ArraysApart p q ∧ ArraysApart q p ∧
      (f.predicateReq = true ∨ g.predicateReq = true → ¬ p <+: q ∧ ¬ q <+: p)) →
    List.Forall₂ (FieldWrites eval raw) fs wss → ∀ a ∈ wss.flatten, ∀ b ∈ wss.flatten, Agree a b := by
  intro fs wss hfs hpw hw
  induction hw with
  | nil => intro a ha; simp at ha
  | @cons f ws fs wss h1 h2 ih =>
    obtain ⟨hp1, hp2⟩ := List.pairwise_cons.mp hpw
    have ih' := ih (fun g hg => hfs g (List.mem_cons_of_mem _ hg)) hp2
    have hf := hfs f (List.mem_cons_self ..)
    have cross : ∀ a ∈ ws, ∀ b ∈ wss.flatten, Agree a b := by
      intro a ha b hb
      obtain ⟨vs, hvs, hb⟩ := List.mem_flatten.mp hb
      have : ∃ g ∈ fs, FieldWrites eval raw g vs := f2_right h2 hvs
      obtain ⟨g, hg, hv⟩ := this
      exact agree_across h hf (hfs g (List.mem_cons_of_mem _ hg)) (hp1 g hg) h1 hv a ha b hb
    intro a ha b hb
    rw [List.flatten_cons, List.mem_append] at ha hb
    rcases ha with ha | ha
    · rcases hb with hb | hb
      · exact agree_within h hf h1 a ha b hb
      · exact cross a ha b hb
    · rcases hb with hb | hb
      · exact (cross b hb a ha).symm
      · exact ih' a ha b hb

/-- **C97.** In these cases the document is made, and it shows every selected value: each field's places
are renumbered to places with the same names, alike exactly where the selected places are alike (so
parts of one array element stay together and parts of different elements stay apart), using the first
positions of each array without gaps; there the document has the source's value, or `true` for a required predicate.  Without arrays the place is
unchanged. -/
theorem limited_shows_selected_partial {raw : JObj} {T : Json} {fields : List Field}
    (h : Simple eval raw T fields) :
    ∃ L, setFields eval (.obj raw) T fields = some L ∧
      ∀ f ∈ fields, ∀ ps, eval f.path (.obj raw) = some ps → ∃ ρ : List Step → List Step,
        (∀ p ∈ ps, SameShape p (ρ p)) ∧ (∀ p ∈ ps, Names p → ρ p = p) ∧
        (∀ p ∈ ps, ∀ q ∈ ps, ∀ d, (ρ p).take d = (ρ q).take d ↔ p.take d = q.take d) ∧
        (∀ p ∈ ps, ∀ c a s, ρ p = c ++ .idx a :: s → ∀ b < a, ∃ q ∈ ps, ∃ t, ρ q = c ++ .idx b :: t) ∧
        ∀ p ∈ ps, gat L (ρ p) = if f.predicateReq then some (.bool true) else gat (.obj raw) p := by
  obtain ⟨wss, hw, he⟩ := fields_writes fields (fun f hf => field_writes h hf)
  have hmem : ∀ a ∈ wss.flatten, ∃ f ∈ fields, ∃ ws, FieldWrites eval raw f ws ∧ a ∈ ws := by
    intro a ha
    obtain ⟨ws, hws, ha⟩ := List.mem_flatten.mp ha
    obtain ⟨f, hf, h1⟩ := f2_right hw hws
    exact ⟨f, hf, ws, h1, ha⟩
  have hplace : ∀ a ∈ wss.flatten, (∀ s ∈ a.1, s.Plain) ∧ Fits T a.1 := by
    intro a ha
    obtain ⟨f, hf, ws, ⟨ps, m, hps, hi, hm, _, rfl⟩, ha⟩ := hmem a ha
    obtain ⟨p, hp, rfl⟩ := List.mem_map.mp ha
    obtain ⟨_, _, h3, _, _, h6, h7⟩ := h.place f hf ps hps p hp
    exact ⟨plain_shape (rho_shape m p []) h3, fits_rho m p [] T h6 h7⟩
  obtain ⟨L, hL, hall⟩ := writeAll_kept wss.flatten [] T (fun a ha => (hplace a ha).1)
    (fun a ha => (hplace a ha).2)
    (by simpa using agree_all h fields wss (fun f hf => hf) h.across hw) (by simp)
  refine ⟨L, by rw [he]; exact hL, ?_⟩
  intro f hf ps hps
  obtain ⟨ws, hws, ps', m, hps', hi, hm, hfull, rfl⟩ := f2_left hw hf
  rw [hps] at hps'
  have := Option.some.inj hps'
  subst this
  have hpl := h.place f hf ps hps
  refine ⟨rho m [], fun p _ => rho_shape m p [], fun p _ hn => rho_names m p [] hn, ?_, ?_, ?_⟩
  · intro p hp q hq d
    exact rho_take hi d p q []
      (by simpa using good_of (hpl p hp).2.1 (hpl p hp).2.2.1 (hpl p hp).2.2.2.1)
      (by simpa using good_of (hpl q hq).2.1 (hpl q hq).2.2.1 (hpl q hq).2.2.2.1) (hm p hp) (hm q hq)
  · intro p hp c a s e b hb
    exact rho_compact hi hfull
      (fun p hp => good_of (hpl p hp).2.1 (hpl p hp).2.2.1 (hpl p hp).2.2.2.1) hm hp e hb
  · intro p hp
    have := hall (rho m [] p, shown (.obj raw) f.predicateReq p) (by
      rw [List.append_nil]
      exact List.mem_flatten.mpr ⟨_, hws, List.mem_map.mpr ⟨p, hp, rfl⟩⟩)
    rw [this]
    unfold shown
    obtain ⟨x, hx⟩ := Option.isSome_iff_exists.mp (hpl p hp).2.1
    cases f.predicateReq <;> simp [hx]

end VC.PE
