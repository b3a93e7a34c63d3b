import Verif.Presexch.SharedSafe
/-!
# presexch: when sharing makes no difference (C125)

If an SD-JWT credential that is restricted for one descriptor is wanted by no other one, and restricting
it does not change that, then `CreateVP` on shared credentials makes exactly the presentation of the
model without sharing (`EndToEnd.lean`); so what is proved there (C101, C104, C121, C123) holds for it.
-/

namespace VC.PE

/-- Restricting a credential for a descriptor it meets does not change whether it meets the constraints
of another one. -/
def Undisturbed (H : HolderEnv) (pd : Definition) (creds : List Cred) : Prop :=
  ∀ d ∈ pd.descs, ∀ d' ∈ pd.descs, d'.id ≠ d.id → ∀ c ∈ creds, c.isSDJWT = true →
    (∃ n, MetAt H pd creds d n c) → ∀ k k' w, d.constraints = some k → k.limitReq = true → H.restrict k c = some w → d'.constraints = some k' →
    constraintsOne H.toPEnv k' w = constraintsOne H.toPEnv k' c

/-- A call's result without the credentials as they are left. -/
def CreateOut.map {β γ : Type} (g : β → γ) : CreateOut β → CreateOut γ
  | .ok v => .ok (g v)
  | .error => .error
  | .noCredentials => .noCredentials
  | .panic => .panic

/-! ## Maps -/

section
variable {β γ : Type}

/-- A Go map with its values changed. -/
def mapVals (g : β → γ) (m : GoMap β) : GoMap γ := m.map (fun e => (e.1, g e.2))

theorem mapVals_set (g : β → γ) (k : String) (x : β) : ∀ m : GoMap β,
    mapVals g (GoMap.set m k x) = GoMap.set (mapVals g m) k (g x)
  | [] => rfl
  | (k', v) :: m => by
    simp only [GoMap.set, mapVals, List.map_cons]
    split
    · rfl
    · simp only [List.map_cons, List.cons.injEq, true_and]
      exact mapVals_set g k x m

theorem mapVals_get (g : β → γ) (m : GoMap β) (k : String) :
    GoMap.get? (mapVals g m) k = (GoMap.get? m k).map g := GoMap.get?_map m (fun _ => g) k

theorem mapVals_keys (g : β → γ) (m : GoMap β) : GoMap.keys (mapVals g m) = GoMap.keys m := by
  simp [GoMap.keys, mapVals]

theorem mapVals_congr {g g' : β → γ} {m : GoMap β} (h : ∀ e ∈ m, g e.2 = g' e.2) : mapVals g m = mapVals g' m :=
  List.map_congr_left fun e he => by rw [h e he]

theorem mem_set {m : GoMap β} {k : String} {x : β} {e : String × β} (h : e ∈ GoMap.set m k x) : e = (k, x) ∨ e ∈ m := by
  induction m with
  | nil => simpa [GoMap.set] using h
  | cons q m ih =>
    obtain ⟨k', v⟩ := q
    simp only [GoMap.set] at h
    split at h
    · rcases List.mem_cons.mp h with h | h
      · exact .inl h
      · exact .inr (List.mem_cons_of_mem _ h)
    · rcases List.mem_cons.mp h with h | h
      · exact .inr (by rw [h]; exact List.mem_cons_self ..)
      · rcases ih h with h | h
        · exact .inl h
        · exact .inr (List.mem_cons_of_mem _ h)

end

/-! ## Filters that see the same -/

section
variable {β : Type} {v v' : β → Cred}

theorem filterFormatV_congr (fold : String → String) (f : Format) (bs : List β)
    (h : ∀ b ∈ bs, v b = { v' b with display := (v b).display }) :
    filterFormatV v fold f bs = filterFormatV v' fold f bs := by
  have hp : ∀ o, bs.filter (fun b => credByProof (v b) o) = bs.filter (fun b => credByProof (v' b) o) := by
    intro o
    apply List.filter_congr
    intro b hb
    rw [h b hb]
    rfl
  have ha : ∀ o, bs.filter (fun b => credByAlg fold (v b) o) = bs.filter (fun b => credByAlg fold (v' b) o) := by
    intro o
    apply List.filter_congr
    intro b hb
    rw [h b hb]
    rfl
  unfold filterFormatV
  simp only [hp, ha]

theorem filterSchemaV_congr (load : String → Option (String → List String)) (ss : List Schema) :
    ∀ (bs : List β), (∀ b ∈ bs, v b = { v' b with display := (v b).display }) →
    filterSchemaV v load ss bs = filterSchemaV v' load ss bs
  | [], _ => rfl
  | b :: bs, h => by
    simp only [filterSchemaV]
    have e := h b (List.mem_cons_self ..)
    have et : (v b).types = (v' b).types := by rw [e]
    have ec : (v b).contexts = (v' b).contexts := by rw [e]
    rw [et, ec, filterSchemaV_congr load ss bs (fun x hx => h x (List.mem_cons_of_mem _ hx))]

theorem filterLoopV_congr {one one' : β → FilterOut Bool} :
    ∀ (bs : List β), (∀ b ∈ bs, one b = one' b) → filterLoopV one bs = filterLoopV one' bs
  | [], _ => rfl
  | b :: bs, h => by
    simp only [filterLoopV]
    rw [h b (List.mem_cons_self ..), filterLoopV_congr bs (fun x hx => h x (List.mem_cons_of_mem _ hx))]

theorem filterDescriptorV_congr {E : MEnv} {pf : Option Format} {d : MDesc} {bs : List β}
    (h : ∀ b ∈ bs, v b = { v' b with display := (v b).display })
    (hc : ∀ b ∈ bs, ∀ k, d.constraints = some k → constraintsOne E.toPEnv k (v b) = constraintsOne E.toPEnv k (v' b)) :
    filterDescriptorV v E pf d bs = filterDescriptorV v' E pf d bs := by
  have key : ∀ r : String × List β, r.2.Sublist bs →
      (match (match d.schema with | none => some r.2 | some ss => filterSchemaV v E.load ss r.2) with
        | none => FilterOut.error
        | some bs2 =>
          match filterConstraintsV v E.toPEnv d.constraints bs2 with
          | .ok bs3 => .ok (r.1, bs3)
          | .error => .error
          | .panic => .panic) =
      (match (match d.schema with | none => some r.2 | some ss => filterSchemaV v' E.load ss r.2) with
        | none => FilterOut.error
        | some bs2 =>
          match filterConstraintsV v' E.toPEnv d.constraints bs2 with
          | .ok bs3 => .ok (r.1, bs3)
          | .error => .error
          | .panic => .panic) := by
    intro r hr
    have hk : ∀ bs2 : List β, bs2.Sublist bs → 
        filterConstraintsV v E.toPEnv d.constraints bs2 = filterConstraintsV v' E.toPEnv d.constraints bs2 := by
      intro bs2 h2
      unfold filterConstraintsV
      cases hd : d.constraints with
      | none => rfl
      | some k => exact filterLoopV_congr _ (fun b hb => hc b (h2.subset hb) k hd)
    cases d.schema with
    | none =>
      dsimp only
      rw [hk r.2 hr]
    | some ss =>
      dsimp only
      rw [filterSchemaV_congr E.load ss r.2 (fun b hb => h b (hr.subset hb))]
      cases hs : filterSchemaV v' E.load ss r.2 with
      | none => rfl
      | some bs2 =>
        dsimp only
        rw [hk bs2 ((filterSchemaV_sub v' _ _ _ _ hs).trans hr)]
  unfold filterDescriptorV
  dsimp only
  cases effFormat pf d.format with
  | none => exact key ("", bs) (List.Sublist.refl _)
  | some f =>
    dsimp only
    rw [filterFormatV_congr E.fold f bs h]
    exact key _ (filterFormatV_sub v' _ _ _)

end

/-! ## Limiting -/

/-- What is sent, as it is seen when the cells hold `h`. -/
def seen (h : List Cred) (ws : List (String × SentCred)) : List (String × Cred) :=
  ws.map (fun w => (w.1, w.2.now h))

theorem now_ptr {h : List Cred} {p : Nat} {c : Cred} (e : h[p]? = some c) : (SentCred.ptr p).now h = c := by
  simp [SentCred.now, e]

theorem limitCell_one {H : HolderEnv} {tmp : String → String} {k : Option Constraints} {p : Nat} {c : Cred} :
    limitOne H.derive H.restrict tmp k c =
      (limitCell H tmp k p c).map (fun q => q.1.map (fun w => (w.1, match w.2 with | .ptr _ => q.2 | .fresh x => x))) := by
  unfold limitOne limitCell
  cases k with
  | none => rfl
  | some k =>
    dsimp only
    split_ifs
    · rfl
    · cases H.derive k c <;> rfl
    · cases H.restrict k c <;> rfl
    · rfl

/-- Limiting in place shows in the end what limiting copies gives. -/
theorem limitS_seen {H : HolderEnv} {k : Option Constraints} :
    ∀ {bs : List (Cred × Nat)} {tmp : Nat → String → String} {h : List Cred},
    (bs.map Prod.snd).Nodup → (∀ b ∈ bs, h[b.2]? = some b.1) →
    limitDisclosure H.derive H.restrict tmp k (bs.map Prod.fst) =
      (limitS H tmp k h bs).map (fun q => seen q.2 q.1)
  | [], tmp, h, _, _ => rfl
  | b :: bs, tmp, h, hn, hh => by
    obtain ⟨c, p⟩ := b
    have hn0 := hn
    simp only [List.map_cons, List.nodup_cons] at hn
    have hp : h[p]? = some c := hh (c, p) (List.mem_cons_self ..)
    have hlt : p < h.length := (List.getElem?_eq_some_iff.mp hp).1
    simp only [List.map_cons, limitDisclosure, limitS]
    rw [limitOneS_cell hp, limitCell_one (p := p)]
    cases hc : limitCell H (tmp 0) k p c with
    | none => rfl
    | some rc =>
      obtain ⟨r, c'⟩ := rc
      simp only [Option.map_some]
      have hnp : ∀ b ∈ bs, b.2 ≠ p := by
        intro b hb e
        exact hn.1 (e ▸ List.mem_map_of_mem hb)
      have hh' : ∀ b ∈ bs, (h.set p c')[b.2]? = some b.1 := by
        intro b hb
        rw [List.getElem?_set_ne (hnp b hb).symm]
        exact hh b (List.mem_cons_of_mem _ hb)
      rw [limitS_seen (h := h.set p c') hn.2 hh']
      cases hs : limitS H (fun n => tmp (n + 1)) k (h.set p c') bs with
      | none => rfl
      | some q =>
        obtain ⟨ws, h'⟩ := q
        simp only [Option.map_some, Option.some.injEq]
        have hp' : h'[p]? = some c' := by
          rw [(limitS_limited hn.2 hh' hs).others p (fun x hx => hnp _ hx rfl), List.getElem?_set_self hlt]
        cases r with
        | none => rfl
        | some w =>
          obtain ⟨u, s⟩ := w
          rcases limitCell_cases hc with ⟨b, _⟩ | ⟨b, _, _⟩ | ⟨_, _, _, _, _, b, _⟩ | ⟨_, _, _, _, _, b⟩
          · cases b
          · cases b
            show (_, c') :: _ = (_, (SentCred.ptr p).now h') :: _
            rw [now_ptr hp']; rfl
          · cases b; rfl
          · cases b
            show (_, c') :: _ = (_, (SentCred.ptr p).now h') :: _
            rw [now_ptr hp']; rfl

/-! ## The simulation -/

/-- The search on shared credentials (`ss`, `h`) is where the search on copies (`sv`) is. -/
structure SameInv (H : HolderEnv) (pd : Definition) (creds : List Cred) (sv : AState (String × Cred))
    (ss : AState (String × SentCred)) (h : List Cred) : Prop where
  evaluated : sv.evaluated = ss.evaluated
  found : sv.found = mapVals (fun e => (e.1, seen h e.2)) ss.found
  length : h.length = creds.length
  cells : ∀ (p : Nat) (c : Cred), creds[p]? = some c → h[p]? = some c ∨
    (c.isSDJWT = true ∧ ∃ d ∈ pd.descs, d.id ∈ ss.evaluated ∧ (∃ n, MetAt H pd creds d n c) ∧ ∃ k w, d.constraints = some k ∧
      k.limitReq = true ∧ H.restrict k c = some w ∧ h[p]? = some w)
  ptrs : ∀ e ∈ ss.found, ∀ u p, (u, .ptr p) ∈ e.2.2 → e.1 ∈ ss.evaluated ∧ ∃ d ∈ pd.descs, d.id = e.1 ∧
    ∃ n c, creds[p]? = some c ∧ MetAt H pd creds d n c

/-- Evaluating a descriptor for the first time gives the same with and without sharing. -/
theorem same_step {H : HolderEnv} {pd : Definition} {creds : List Cred} (hk : KeepsRest H) (ho : OneUse H pd creds)
    (hu : Undisturbed H pd creds) {sv : AState (String × Cred)} {ss : AState (String × SentCred)} {h : List Cred}
    (hi : SameInv H pd creds sv ss h) {id : String} (hne : ss.evaluated.contains id = false) :
    (∃ e, evalDescS H pd h id = .error e ∧ evalDesc H pd creds id = .error e) ∨
    ∃ f ws h', evalDescS H pd h id = .ok ((f, ws), h') ∧ evalDesc H pd creds id = .ok (f, seen h' ws) ∧
      SameInv H pd creds (sv.after id f (seen h' ws)) (ss.after id f ws) h' := by
  unfold evalDescS evalDesc
  cases hd : pd.descs.find? (fun d => d.id == id) with
  | none => exact .inl ⟨_, rfl, rfl⟩
  | some d =>
    dsimp only
    have hdm := List.mem_of_find?_eq_some hd
    have hid : d.id = id := by simpa using List.find?_some (p := fun d : FDesc => d.id == id) hd
    have hnid : id ∉ ss.evaluated := by simpa using hne
    -- the copies by position
    have hv' : h.zipIdx.map (fun b => (SentCred.ptr b.2).now creds) = creds := by
      apply List.ext_getElem?
      intro i
      rw [List.getElem?_map, List.getElem?_zipIdx]
      by_cases hlt : i < creds.length
      · have e1 := List.getElem?_eq_getElem hlt
        have e2 := List.getElem?_eq_getElem (l := h) (by rw [hi.length]; exact hlt)
        rw [e1, e2]
        simp only [Option.map_some, Nat.zero_add]
        rw [now_ptr e1]
      · rw [List.getElem?_eq_none (l := h) (by rw [hi.length]; omega), List.getElem?_eq_none (l := creds) (by omega)]
        rfl
    have hcell : ∀ b ∈ h.zipIdx, ∃ c, creds[b.2]? = some c ∧ h[b.2]? = some b.1 := by
      intro b hb
      have e := zipIdx_cell (c := b.1) (p := b.2) hb
      have hlt : b.2 < creds.length := by rw [← hi.length]; exact (List.getElem?_eq_some_iff.mp e).1
      exact ⟨_, List.getElem?_eq_getElem hlt, e⟩
    have hcongr : filterDescriptorV Prod.fst H.toMEnv pd.format d.toM h.zipIdx =
        filterDescriptorV (fun b => (SentCred.ptr b.2).now creds) H.toMEnv pd.format d.toM h.zipIdx := by
      apply filterDescriptorV_congr
      · intro b hb
        obtain ⟨c, e1, e2⟩ := hcell b hb
        rw [now_ptr e1]
        rcases hi.cells _ _ e1 with e | ⟨_, d', _, _, _, k, w, _, _, e4, e5⟩
        · rw [e2] at e; cases e; rfl
        · rw [e2] at e5; cases e5; exact hk _ _ _ e4
      · intro b hb k0 hk0
        obtain ⟨c, e1, e2⟩ := hcell b hb
        rw [now_ptr e1]
        rcases hi.cells _ _ e1 with e | ⟨e3, d', e4, e5, e5', k, w, e6, e7, e8, e9⟩
        · rw [e2] at e; cases e; rfl
        · rw [e2] at e9; cases e9
          refine hu d' e4 d hdm ?_ c (List.mem_of_getElem? e1) e3 e5' k k0 _ e6 e7 e8 hk0
          intro e
          exact hnid (by rw [← hid, e]; exact e5)
    have hmap := filterDescriptorV_map (fun (b : Cred × Nat) => (SentCred.ptr b.2).now creds) H.toMEnv pd.format d.toM h.zipIdx
    rw [hv', ← hcongr] at hmap
    rw [hmap]
    cases hf : filterDescriptorV Prod.fst H.toMEnv pd.format d.toM h.zipIdx with
    | error => exact .inl ⟨_, rfl, rfl⟩
    | panic => exact .inl ⟨_, rfl, rfl⟩
    | ok r =>
      obtain ⟨f, bs⟩ := r
      simp only [FilterOut.map]
      rw [hf] at hmap
      simp only [FilterOut.map] at hmap
      have hs := filterDescriptorV_sub Prod.fst hf
      have h1 : ∀ b ∈ bs, h[b.2]? = some b.1 := fun b hb => zipIdx_cell (hs.subset hb)
      have h2 : (bs.map Prod.snd).Nodup := (hs.map Prod.snd).nodup (zipIdx_nodup h)
      have hmet : ∀ b ∈ bs, ∃ n c, creds[b.2]? = some c ∧ MetAt H pd creds d n c := by
        intro b hb
        obtain ⟨c, e1, _⟩ := hcell b (hs.subset hb)
        obtain ⟨n, hn⟩ := List.getElem?_of_mem hb
        refine ⟨n, c, e1, f, _, hmap, ?_⟩
        rw [List.getElem?_map, hn]
        simp only [Option.map_some]
        rw [now_ptr e1]
      have h3 : ∀ b ∈ bs, creds[b.2]? = some b.1 := by
        intro b hb
        obtain ⟨n, c, e1, e2⟩ := hmet b hb
        rcases hi.cells _ _ e1 with e | ⟨e3, d', e4, e5, ⟨n', e5'⟩, k, w, e6, e7, e8, e9⟩
        · rw [h1 b hb] at e; cases e; exact e1
        · exact absurd (by rw [← hid, ← ho d' e4 d hdm n' n c e3 e5' e2 ⟨k, e6, e7⟩]; exact e5) hnid
      have hbs : bs.map (fun b => (SentCred.ptr b.2).now creds) = bs.map Prod.fst := by
        apply List.map_congr_left
        intro b hb
        exact now_ptr (h3 b hb)
      rw [hbs, limitS_seen h2 h1]
      cases hl : limitS H (H.tmp d.id) d.constraints h bs with
      | none => exact .inl ⟨_, rfl, rfl⟩
      | some q =>
        obtain ⟨ws, h'⟩ := q
        refine .inr ⟨f, ws, h', rfl, rfl, ?_⟩
        have hL := limitS_limited h2 h1 hl
        -- cells changed by this step
        have hch : ∀ (p : Nat) (c : Cred), creds[p]? = some c → h'[p]? = h[p]? ∨
            (c.isSDJWT = true ∧ (∃ n, MetAt H pd creds d n c) ∧ ∃ k w, d.constraints = some k ∧
              k.limitReq = true ∧ H.restrict k c = some w ∧ h'[p]? = some w) := by
          intro p c hp
          by_cases hb : ∃ x, (x, p) ∈ bs
          · obtain ⟨x, hx⟩ := hb
            have e0 : x = c := by
              have := h3 _ hx
              dsimp only at this
              rw [hp] at this
              exact (Option.some.inj this).symm
            subst e0
            obtain ⟨n, hn'⟩ := List.getElem?_of_mem hx
            obtain ⟨r, c', a1, a2, _⟩ := hL.each n _ p hn'
            have e1 := h1 _ hx
            dsimp only at e1
            rcases limitCell_cases a1 with ⟨_, rfl⟩ | ⟨_, rfl, _⟩ | ⟨_, _, _, _, _, _, rfl⟩ | ⟨k', b1, b2, b3, b4, _⟩
            · exact .inl (by rw [a2, e1])
            · exact .inl (by rw [a2, e1])
            · exact .inl (by rw [a2, e1])
            · obtain ⟨m, y, g1, g2⟩ := hmet _ hx
              dsimp only at g1
              rw [hp] at g1
              cases g1
              exact .inr ⟨b3, ⟨m, g2⟩, k', c', b1, b2, b4, a2⟩
          · exact .inl (hL.others p (fun x hx => hb ⟨x, hx⟩))
        -- what was found before is not touched
        have hold : ∀ e ∈ ss.found, seen h e.2.2 = seen h' e.2.2 := by
          intro e he
          apply List.map_congr_left
          rintro ⟨u, s⟩ hs
          cases s with
          | fresh x => rfl
          | ptr p =>
            obtain ⟨g1, d', g2, g3, n, c, g4, g5⟩ := hi.ptrs e he u p hs
            rcases hch p c g4 with e1 | ⟨e1, ⟨n', e2⟩, k, w, e3, e4, e5, e6⟩
            · have hlt : p < h.length := by rw [hi.length]; exact (List.getElem?_eq_some_iff.mp g4).1
              have e2 := List.getElem?_eq_getElem hlt
              rw [e2] at e1
              simp only [Prod.mk.injEq, true_and]
              rw [now_ptr e2, now_ptr e1]
            · exact absurd (by rw [← hid, ho d hdm d' g2 n' n c e1 e2 g5 ⟨k, e3, e4⟩, g3]; exact g1) hnid
        have hev : ∀ x, x ∈ ss.evaluated → x ∈ (ss.after id f ws).evaluated := by
          intro x hx
          unfold AState.after
          split <;> exact List.mem_cons_of_mem _ hx
        have hid' : id ∈ (ss.after id f ws).evaluated := by
          unfold AState.after
          split <;> exact List.mem_cons_self ..
        have hlen : (seen h' ws).length = ws.length := by simp [seen]
        have hf1 : mapVals (fun (e : String × List (String × SentCred)) => (e.1, seen h e.2)) ss.found =
            mapVals (fun e => (e.1, seen h' e.2)) ss.found := by
          apply mapVals_congr
          intro e he
          rw [hold e he]
        constructor
        · unfold AState.after
          rw [hlen]
          split <;> simp [hi.evaluated]
        · unfold AState.after
          rw [hlen, hi.found, hf1]
          split
          · rw [mapVals_set]
          · rfl
        · rw [hL.length, hi.length]
        · intro p c hp
          rcases hch p c hp with e | ⟨e1, e2, k, w, e3, e4, e5, e6⟩
          · rcases hi.cells p c hp with g | ⟨g1, d', g2, g3, g4, k, w, g5, g6, g7, g8⟩
            · exact .inl (by rw [e, g])
            · exact .inr ⟨g1, d', g2, hev _ g3, g4, k, w, g5, g6, g7, by rw [e, g8]⟩
          · exact .inr ⟨e1, d, hdm, by rw [hid]; exact hid', e2, k, w, e3, e4, e5, e6⟩
        · intro e he u p hm
          have hcase : e = (id, (f, ws)) ∨ e ∈ ss.found := by
            unfold AState.after at he
            split at he
            · exact mem_set he
            · exact .inr he
          rcases hcase with rfl | he
          · refine ⟨hid', d, hdm, hid, ?_⟩
            obtain ⟨n, c, p', c', a1, a2⟩ := hL.only _ hm
            have hpp : p' = p := by
              rcases limitCell_cases a2 with ⟨b, _⟩ | ⟨b, _, _⟩ | ⟨_, _, _, _, _, b, _⟩ | ⟨_, _, _, _, _, b⟩ <;> cases b <;> rfl
            subst hpp
            obtain ⟨n', y, g1, g2⟩ := hmet _ (List.mem_of_getElem? a1)
            exact ⟨n', y, g1, g2⟩
          · obtain ⟨g1, g2⟩ := hi.ptrs e he u p hm
            exact ⟨hev _ g1, g2⟩

section
variable {H : HolderEnv} {pd : Definition} {creds : List Cred}

theorem same_sol (hk : KeepsRest H) (ho : OneUse H pd creds) (hu : Undisturbed H pd creds) :
    ∀ (S : List String) (sv : AState (String × Cred)) (ss : AState (String × SentCred)) (h : List Cred),
    SameInv H pd creds sv ss h →
    (∃ e, evalSolS (evalDescS H pd) S ss h = .error e ∧ evalSol (evalDesc H pd creds) S sv = .error e) ∨
    ∃ b ex ss' h' sv', evalSolS (evalDescS H pd) S ss h = .ok (b, ex, ss', h') ∧
      evalSol (evalDesc H pd creds) S sv = .ok (b, ex, sv') ∧ SameInv H pd creds sv' ss' h'
  | [], sv, ss, h, hi => .inr ⟨true, [], ss, h, sv, rfl, rfl, hi⟩
  | d :: ds, sv, ss, h, hi => by
    simp only [evalSolS, evalSol]
    rw [hi.evaluated]
    cases hc : ss.evaluated.contains d with
    | true =>
      simp only [if_true]
      rw [hi.found, mapVals_get]
      cases hg : GoMap.get? ss.found d with
      | none => exact .inr ⟨false, [], ss, h, sv, rfl, by simp, hi⟩
      | some x =>
        simp only [Option.map_some]
        exact same_sol hk ho hu ds sv ss h hi
    | false =>
      simp only [Bool.false_eq_true, if_false]
      rcases same_step hk ho hu hi hc with ⟨e, e1, e2⟩ | ⟨f, ws, h', e1, e2, e3⟩
      · rw [e1, e2]; exact .inl ⟨e, rfl, rfl⟩
      · rw [e1, e2]
        dsimp only
        have hlen : (seen h' ws).length = ws.length := by simp [seen]
        unfold AState.after at e3
        rw [hlen] at e3 ⊢
        rw [hi.evaluated] at e3
        by_cases hz : ws.length ≠ 0
        · rw [if_pos hz] at e3 ⊢
          rw [if_pos hz] at e3 ⊢
          exact same_sol hk ho hu ds _ _ h' e3
        · rw [if_neg hz] at e3 ⊢
          rw [if_neg hz] at e3 ⊢
          exact .inr ⟨false, [d], _, h', _, rfl, rfl, e3⟩

theorem same_collect {h : List Cred} {found : GoMap (String × List (String × SentCred))} :
    ∀ (S : List String) (fmt : String) (res : GoMap (List (String × SentCred))),
    collectSol (mapVals (fun (e : String × List (String × SentCred)) => (e.1, seen h e.2)) found) S fmt (mapVals (seen h) res) =
      (collectSol found S fmt res).map (fun r => (r.1, mapVals (seen h) r.2))
  | [], fmt, res => rfl
  | d :: ds, fmt, res => by
    simp only [collectSol, mapVals_get]
    cases GoMap.get? found d with
    | none => rfl
    | some x =>
      obtain ⟨f, cs⟩ := x
      simp only [Option.map_some]
      rw [← mapVals_set]
      exact same_collect ds _ _

/-- What the result of the search shows. -/
def seenOutcome (h : List Cred) : Outcome Fail (String × GoMap (List (String × SentCred))) →
    Outcome Fail (String × GoMap (List (String × Cred)))
  | .ok (fmt, m) => .ok (fmt, mapVals (seen h) m)
  | .fail e => .fail e
  | .noCredentials => .noCredentials
  | .panic => .panic
  | .fuel => .fuel

theorem same_loop (hk : KeepsRest H) (ho : OneUse H pd creds) (hu : Undisturbed H pd creds) (dflt : String) :
    ∀ (n : Nat) (it : Iter) (ex : List String) (sv : AState (String × Cred)) (ss : AState (String × SentCred))
      (h : List Cred), SameInv H pd creds sv ss h →
    applyLoop (evalDesc H pd creds) dflt n it ex sv =
      seenOutcome (applyLoopS (evalDescS H pd) dflt n it ex ss h).2 (applyLoopS (evalDescS H pd) dflt n it ex ss h).1 := by
  intro n
  induction n with
  | zero => intros; rfl
  | succ n ih =>
    intro it ex sv ss h hi
    simp only [applyLoop, applyLoopS]
    split
    · rfl
    · rcases same_sol hk ho hu (it.next ex).1 sv ss h hi with ⟨e, e1, e2⟩ | ⟨b, ex', ss', h', sv', e1, e2, e3⟩
      · rw [e1, e2]; rfl
      · rw [e1, e2]
        cases b with
        | false => exact ih _ _ _ _ _ e3
        | true =>
          dsimp only
          rw [e3.found]
          have := same_collect (h := h') (found := ss'.found) (it.next ex).1 dflt []
          rw [show mapVals (seen h') [] = [] from rfl] at this
          rw [this]
          cases collectSol ss'.found (it.next ex).1 dflt [] with
          | none => rfl
          | some r => rfl

theorem same_data (hk : KeepsRest H) (ho : OneUse H pd creds) (hu : Undisturbed H pd creds) (dflt : String) :
    presentationData H dflt pd creds =
      (presentationDataS H dflt pd creds).map (fun r => seenOutcome r.2 r.1) := by
  unfold presentationData presentationDataS solveDefinition solveDefinitionS
  cases makeReq pd.reqs (pd.descs.map FDesc.toDesc) with
  | none => rfl
  | some r =>
    simp only [Option.map_some, Option.some.injEq]
    unfold applyReq
    cases newIter r.toLogic ((pd.descs.map FDesc.toDesc).map Desc.id) with
    | none => rfl
    | some it =>
      dsimp only
      exact same_loop hk ho hu dflt _ _ _ _ _ _
        ⟨rfl, rfl, rfl, fun p c hp => .inl hp, fun e he => (nomatch he)⟩

/-- Merging pointers shows what merging what they show gives. -/
theorem merge_seen (h : List Cred) (sep : Bool) (fmt : String) (m : GoMap (List (String × SentCred)))
    (keys : List String) :
    merge Cred.isJWT sep fmt (mapVals (seen h) m) keys =
      ⟨(merge (fun s => (SentCred.now h s).isJWT) sep fmt m keys).index,
       (merge (fun s => (SentCred.now h s).isJWT) sep fmt m keys).result.map (SentCred.now h),
       (merge (fun s => (SentCred.now h s).isJWT) sep fmt m keys).out⟩ := by
  let sh : MState SentCred → MState Cred := fun st => ⟨st.index, st.result.map (SentCred.now h), st.out⟩
  have one : ∀ (k : String) (st : MState SentCred) (w : String × SentCred),
      mergeOne Cred.isJWT sep fmt k (sh st) (w.1, w.2.now h) =
        sh (mergeOne (fun s => (SentCred.now h s).isJWT) sep fmt k st w) := by
    intro k st w
    unfold mergeOne
    dsimp only [sh]
    cases GoMap.get? st.index w.1 <;> simp
  have inner : ∀ (k : String) (ws : List (String × SentCred)) (st : MState SentCred),
      (seen h ws).foldl (mergeOne Cred.isJWT sep fmt k) (sh st) =
        sh (ws.foldl (mergeOne (fun s => (SentCred.now h s).isJWT) sep fmt k) st) := by
    intro k ws
    induction ws with
    | nil => intro st; rfl
    | cons w ws ih =>
      intro st
      show List.foldl _ (mergeOne Cred.isJWT sep fmt k (sh st) (w.1, w.2.now h)) (seen h ws) = _
      rw [one, ih]
      rfl
  have outer : ∀ (keys : List String) (st : MState SentCred),
      keys.foldl (fun st k => ((GoMap.get? (mapVals (seen h) m) k).getD []).foldl (mergeOne Cred.isJWT sep fmt k) st) (sh st) =
        sh (keys.foldl (fun st k => ((GoMap.get? m k).getD []).foldl
          (mergeOne (fun s => (SentCred.now h s).isJWT) sep fmt k) st) st) := by
    intro keys
    induction keys with
    | nil => intro st; rfl
    | cons k ks ih =>
      intro st
      simp only [List.foldl_cons]
      have e : (GoMap.get? (mapVals (seen h) m) k).getD [] = seen h ((GoMap.get? m k).getD []) := by
        rw [mapVals_get]
        cases GoMap.get? m k <;> rfl
      rw [e, inner, ih]
  exact outer keys ⟨[], [], []⟩

theorem merged_seen (h : List Cred) (sep : Bool) (fmt : String) (m : GoMap (List (String × SentCred))) :
    mergedOf H sep fmt (mapVals (seen h) m) = mergedOfS H sep fmt h m := by
  unfold mergedOf mergedOfS
  rw [mapVals_keys, merge_seen]

/-- **C125** (`_partial`: an SD-JWT credential that is restricted for a descriptor meets no other one,
before or after).  Then sharing makes no difference: the call succeeds with the same presentation and
submission, or fails in the same way, as on copies; so C101, C104 and C123 hold for it. -/
theorem createVPS_eq_partial (hk : KeepsRest H) (ho : OneUse H pd creds) (hu : Undisturbed H pd creds)
    (dflt : String) :
    (createVPS H dflt pd creds).map (fun r => (r.1, r.2.1)) = createVP H dflt pd creds := by
  unfold createVPS createVP
  rw [same_data hk ho hu dflt]
  cases presentationDataS H dflt pd creds with
  | none => rfl
  | some r =>
    obtain ⟨o, h⟩ := r
    cases o with
    | ok x =>
      obtain ⟨fmt, m⟩ := x
      simp only [Option.map_some, seenOutcome]
      rw [merged_seen]
      cases makePresentation (H.uuid 0) (mergedOfS H false fmt h m).1 <;> rfl
    | fail e => cases e <;> rfl
    | noCredentials => rfl
    | panic => rfl
    | fuel => rfl

/-- **C125** for `CreateVPArray` (`_partial`, as above). -/
theorem createVPArrayS_eq_partial (hk : KeepsRest H) (ho : OneUse H pd creds) (hu : Undisturbed H pd creds)
    (dflt : String) :
    (createVPArrayS H dflt pd creds).map (fun r => (r.1, r.2.1)) = createVPArray H dflt pd creds := by
  unfold createVPArrayS createVPArray
  rw [same_data hk ho hu dflt]
  cases presentationDataS H dflt pd creds with
  | none => rfl
  | some r =>
    obtain ⟨o, h⟩ := r
    cases o with
    | ok x =>
      obtain ⟨fmt, m⟩ := x
      simp only [Option.map_some, seenOutcome]
      rw [merged_seen]
      cases makeEach H 0 (mergedOfS H true fmt h m).1 <;> rfl
    | fail e => cases e <;> rfl
    | noCredentials => rfl
    | panic => rfl
    | fuel => rfl

/-- **C125**, **C101** on shared credentials (`_partial`: as `createVPS_eq_partial` and
`createVP_limited_then_match_partial`).  What `CreateVP` makes of shared credentials is accepted by
`Match` exactly when its submission names every descriptor, and then `Match` returns what was sent. -/
theorem createVPS_then_match_partial (hk : KeepsRest H) (hu : Undisturbed H pd creds)
    {E : MatchEnv} {read : Cred → Option Cred} (hF : SameLibs H E creds) (hfr : FreshIDs H creds)
    (hn : (pd.descs.map FDesc.id).Nodup)
    (ht : ∀ d ∈ pd.descs, ∀ k, d.constraints = some k → Typed k) (ho : OneUse H pd creds)
    {dis : Bool} (hg : StillGood H E read dis pd creds) {dflt : String}
    {made : Created} {os : List MapOut} {after : List Cred}
    (h : createVPS H dflt pd creds = .ok (made, os, after))
    {jwt : Bool} (hj : ∀ o ∈ os, o.format = "jwt_vp" → jwt = true) {vp : VP}
    (hsent : Sent E.parseCred read jwt made vp) {subID defID : String}
    (hsub : vp.submission = submissionMappings (encodeSubmission subID defID os)) :
    ((∃ r, matchSubmission E (pd.descs.map FDesc.toI) ⟨dis, none⟩ [vp] = .ok r) ↔
      ∀ d ∈ pd.descs, ∃ o ∈ os, o.id = d.id) ∧
    ∀ r, matchSubmission E (pd.descs.map FDesc.toI) ⟨dis, none⟩ [vp] = .ok r →
      LimitedAnswers H pd creds read r ∧ ∀ v ∈ r, v.presentationID = made.id := by
  have e := createVPS_eq_partial hk ho hu dflt
  rw [h] at e
  exact createVP_limited_then_match_partial hF hfr hn ht ho hg e.symm hj hsent hsub

end

end VC.PE
