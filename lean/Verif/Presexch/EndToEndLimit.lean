import Verif.Presexch.EndToEndMain
/-!
# presexch: the verifier accepts what the holder makes, with limited disclosure (C101)

`EndToEndMain.lean` is about descriptors that neither limit disclosure nor ask for predicates.  Here
the holder may send a derived or a restricted credential instead of the one in the wallet.
-/

namespace VC.PE

/-! ## Specification -/

/-- The credential met the descriptor on the holder's side; `n` is its position among those that did. -/
def MetAt (H : HolderEnv) (pd : Definition) (creds : List Cred) (d : FDesc) (n : Nat) (c : Cred) : Prop :=
  ∃ f cs, filterDescriptor H.toMEnv pd.format d.toM creds = .ok (f, cs) ∧ cs[n]? = some c

/-- The descriptor limits disclosure or asks for a predicate. -/
def Narrows (d : FDesc) : Prop :=
  ∃ k, d.constraints = some k ∧ (k.limitReq = true ∨ ∃ f ∈ k.fields, f.predicateReq = true)

/-- What is sent for a credential that met a descriptor, and the ID it goes by: the credential itself
(unless disclosure is limited), a restricted SD-JWT, or a derived credential under a new ID. -/
inductive SentFor (H : HolderEnv) (d : FDesc) (n : Nat) (c : Cred) : String → Cred → Prop
  | same : (∀ k, d.constraints = some k → k.limitReq = false) →
      (c.isSDJWT = false → ¬ Narrows d) → SentFor H d n c c.id c
  | restricted {k w} : d.constraints = some k → k.limitReq = true → c.isSDJWT = true →
      H.restrict k c = some w → SentFor H d n c c.id w
  | derived {k w} : d.constraints = some k → Narrows d → c.isSDJWT = false →
      (k.limitReq = true → c.hasBBS = true ∨ (∃ i, c.issuer = some i ∧ i ≠ "" ∧ i ∈ c.subjects) ∨
        ∃ f ∈ k.fields, f.predicateReq = true) →
      H.derive k c = some w → SentFor H d n c (H.tmp d.id n c.id) w

/-- Nothing is sent: disclosure is limited, and the credential has no means for it. -/
def Withheld (d : FDesc) (c : Cred) : Prop :=
  ∃ k, d.constraints = some k ∧ k.limitReq = true ∧ c.isSDJWT = false ∧ c.hasBBS = false ∧
    (¬ ∃ i, c.issuer = some i ∧ i ≠ "" ∧ i ∈ c.subjects) ∧ ¬ ∃ f ∈ k.fields, f.predicateReq = true

/-- The temporary IDs are new ones. -/
structure FreshIDs (H : HolderEnv) (creds : List Cred) : Prop where
  different : ∀ d n i d' n' i', H.tmp d n i = H.tmp d' n' i' → d = d' ∧ n = n'
  new : ∀ d n i, ∀ c ∈ creds, H.tmp d n i ≠ c.id

/-- An SD-JWT credential that is restricted for a descriptor meets no other one (it is restricted in
place, see `ApplyState.lean`). -/
def OneUse (H : HolderEnv) (pd : Definition) (creds : List Cred) : Prop :=
  ∀ d ∈ pd.descs, ∀ d' ∈ pd.descs, ∀ n n' c, c.isSDJWT = true → MetAt H pd creds d n c → MetAt H pd creds d' n' c →
    (∃ k, d.constraints = some k ∧ k.limitReq = true) → d.id = d'.id

/-- The verifier and the holder use the same libraries, and the IDs of credentials differ. -/
structure SameLibs (H : HolderEnv) (E : MatchEnv) (creds : List Cred) : Prop where
  same : E.toMEnv = H.toMEnv
  paths : PathLib E.selectPath
  keys : ∀ l, (H.sortKeys l).Perm l
  maps : ∀ l, (H.sortMaps l).Perm l
  ids : ∀ c ∈ creds, ∀ c' ∈ creds, c.id = c'.id → c = c'

/-- What is sent for a descriptor still meets it, as the verifier reads it. -/
def StillGood (H : HolderEnv) (E : MatchEnv) (read : Cred → Option Cred) (dis : Bool) (pd : Definition)
    (creds : List Cred) : Prop :=
  ∀ d ∈ pd.descs, ∀ n c u w, c ∈ creds → MetAt H pd creds d n c → SentFor H d n c u w →
    ∃ c', read w = some c' ∧ GoodFor E.toMEnv dis d c'

/-- The answer of `Match`: each matched credential is one that was sent for a credential of the holder
that met the descriptor; and all that met a descriptor and were not withheld are there. -/
structure LimitedAnswers (H : HolderEnv) (pd : Definition) (creds : List Cred) (read : Cred → Option Cred)
    (r : List MatchValue) : Prop where
  sound : ∀ v ∈ r, ∃ d ∈ pd.descs, d.id = v.descriptorID ∧ ∃ n c u w, c ∈ creds ∧ MetAt H pd creds d n c ∧
    SentFor H d n c u w ∧ read w = some v.cred
  complete : ∀ d ∈ pd.descs, ∀ n c, MetAt H pd creds d n c → ¬ Withheld d c →
    ∃ u w, SentFor H d n c u w ∧ ∃ v ∈ r, v.descriptorID = d.id ∧ read w = some v.cred

/-! ## Proofs -/

theorem limit_at {derive restrict : Constraints → Cred → Option Cred} {k : Option Constraints} :
    ∀ {tmp : Nat → String → String} {cs : List Cred} {ws : List (String × Cred)},
    limitDisclosure derive restrict tmp k cs = some ws →
    (∀ w ∈ ws, ∃ n c, cs[n]? = some c ∧ limitOne derive restrict (tmp n) k c = some (some w)) ∧
    (∀ n c, cs[n]? = some c → limitOne derive restrict (tmp n) k c = some none ∨
      ∃ w ∈ ws, limitOne derive restrict (tmp n) k c = some (some w))
  | _, [], ws, h => by
    simp only [limitDisclosure, Option.some.injEq] at h
    subst h
    exact ⟨fun w hw => (nomatch hw), fun n c hc => by simp at hc⟩
  | tmp, c :: cs, ws, h => by
    simp only [limitDisclosure] at h
    cases h1 : limitOne derive restrict (tmp 0) k c with
    | none => rw [h1] at h; cases h
    | some r =>
      rw [h1] at h
      obtain ⟨rs, h2, h3⟩ := Option.map_eq_some_iff.mp h
      obtain ⟨g1, g2⟩ := limit_at h2
      have sub : ∀ w ∈ rs, w ∈ ws := by
        intro w hw
        cases r with
        | none => subst h3; exact hw
        | some w' => subst h3; exact List.mem_cons_of_mem _ hw
      constructor
      · intro w hw
        have rest : w ∈ rs → ∃ n c', (c :: cs)[n]? = some c' ∧
            limitOne derive restrict (tmp n) k c' = some (some w) := by
          intro hw
          obtain ⟨n, c', e, e'⟩ := g1 w hw
          exact ⟨n + 1, c', by simpa using e, e'⟩
        cases r with
        | none => subst h3; exact rest hw
        | some w' =>
          subst h3
          rcases List.mem_cons.mp hw with rfl | hw
          · exact ⟨0, c, rfl, h1⟩
          · exact rest hw
      · intro n c' hc
        cases n with
        | zero =>
          simp only [List.getElem?_cons_zero, Option.some.injEq] at hc
          subst hc
          cases r with
          | none => exact .inl h1
          | some w => subst h3; exact .inr ⟨w, List.mem_cons_self, h1⟩
        | succ n =>
          simp only [List.getElem?_cons_succ] at hc
          rcases g2 n c' hc with e | ⟨w, hw, e⟩
          · exact .inl e
          · exact .inr ⟨w, sub w hw, e⟩

theorem any_predicate (k : Constraints) : k.fields.any Field.predicateReq = true ↔ ∃ f ∈ k.fields, f.predicateReq = true := by
  simp [List.any_eq_true]

/-- What is done with one credential, in the words of the specification. -/
theorem limitOne_sent {H : HolderEnv} {d : FDesc} {n : Nat} {c : Cred} {r : Option (String × Cred)}
    (h : limitOne H.derive H.restrict (H.tmp d.id n) d.constraints c = some r) :
    (∀ u w, r = some (u, w) → SentFor H d n c u w) ∧ (r = none → Withheld d c) := by
  cases hk : d.constraints with
  | none =>
    rw [hk] at h
    simp only [limitOne, Option.some.injEq] at h
    subst h
    refine ⟨fun u w e => ?_, fun e => nomatch e⟩
    cases e
    refine .same (by simp [hk]) ?_
    rintro _ ⟨k, e, _⟩
    rw [hk] at e; cases e
  | some k =>
    rw [hk] at h
    simp only [limitOne] at h
    split at h
    · next hw =>
      cases h
      refine ⟨fun u w e => (nomatch e), fun _ => ⟨k, hk, ?_⟩⟩
      simp only [Bool.and_eq_true, Bool.not_eq_eq_eq_not, Bool.not_true, Bool.or_eq_false_iff] at hw
      obtain ⟨h1, ⟨h2, h3, h4⟩, h5⟩ := hw
      refine ⟨h1, h3, h4, ?_, ?_⟩
      · rw [← subjectIsIssuer_iff]; simp [h5]
      · rw [← any_predicate]; simp [h2]
    · next hw =>
      split at h
      · next hn =>
        simp only [Bool.and_eq_true, Bool.or_eq_true, Bool.not_eq_eq_eq_not, Bool.not_true] at hn
        have hnar : Narrows d := by
          refine ⟨k, hk, ?_⟩
          rw [← any_predicate]; exact hn.1
        cases hd : H.derive k c with
        | none => rw [hd] at h; cases h
        | some w =>
          rw [hd] at h
          cases h
          refine ⟨fun u w' e => ?_, fun e => nomatch e⟩
          cases e
          refine .derived hk hnar hn.2 ?_ hd
          intro hl
          simp only [hl, Bool.true_and, Bool.not_eq_eq_eq_not, Bool.not_true, Bool.not_eq_false,
            Bool.or_eq_true, hn.2, Bool.false_or] at hw
          rw [← subjectIsIssuer_iff, ← any_predicate]
          rcases hw with (a | b) | c
          · exact .inr (.inr a)
          · exact .inl (by simpa using b)
          · exact .inr (.inl c)
      · next hn =>
        split at h
        · next hs =>
          simp only [Bool.and_eq_true] at hs
          cases hd : H.restrict k c with
          | none => rw [hd] at h; cases h
          | some w =>
            rw [hd] at h
            cases h
            refine ⟨fun u w' e => ?_, fun e => nomatch e⟩
            cases e
            exact .restricted hk hs.1 hs.2 hd
        · next hs =>
          cases h
          refine ⟨fun u w' e => ?_, fun e => nomatch e⟩
          cases e
          have hl : k.limitReq = false := by
            cases hl : k.limitReq
            · rfl
            · simp only [hl, Bool.true_and, Bool.true_or, Bool.not_eq_eq_eq_not, Bool.not_true,
                Bool.not_eq_false] at hn hs
              exact absurd hn hs
          refine .same (by rw [hk]; rintro k' ⟨⟩; exact hl) ?_
          rintro hsd ⟨k', e, hk'⟩
          rw [hk] at e; cases e
          apply hn
          simp only [Bool.and_eq_true, Bool.or_eq_true, hsd, Bool.not_false, and_true]
          rw [any_predicate]
          exact hk'

theorem sentFor_cases {H : HolderEnv} {d : FDesc} {n : Nat} {c w : Cred} {u : String} (h : SentFor H d n c u w) :
    (u = c.id ∧ w = c ∧ ∀ k, d.constraints = some k → k.limitReq = false) ∨
    (∃ k, u = c.id ∧ d.constraints = some k ∧ k.limitReq = true ∧ c.isSDJWT = true ∧ H.restrict k c = some w) ∨
    ∃ k, u = H.tmp d.id n c.id ∧ d.constraints = some k ∧ H.derive k c = some w := by
  cases h with
  | same a1 a2 => exact .inl ⟨rfl, rfl, a1⟩
  | restricted a1 a2 a3 a4 => exact .inr (.inl ⟨_, rfl, a1, a2, a3, a4⟩)
  | derived a1 a2 a3 a4 a5 => exact .inr (.inr ⟨_, rfl, a1, a5⟩)

/-- What evaluating a descriptor gives. -/
theorem evalDesc_limit {H : HolderEnv} {pd : Definition} {creds : List Cred} {id : String} {f : String}
    {ws : List (String × Cred)} (h : evalDesc H pd creds id = .ok (f, ws)) :
    ∃ d ∈ pd.descs, d.id = id ∧
      (∀ u w, (u, w) ∈ ws → ∃ n c, MetAt H pd creds d n c ∧ SentFor H d n c u w) ∧
      (∀ n c, MetAt H pd creds d n c → ¬ Withheld d c → ∃ u w, (u, w) ∈ ws ∧ SentFor H d n c u w) := by
  unfold evalDesc at h
  split at h
  · cases h
  · next d hf =>
    have hd := List.mem_of_find?_eq_some hf
    have he : d.id = id := by simpa using List.find?_some hf
    refine ⟨d, hd, he, ?_⟩
    split at h
    · cases h
    · cases h
    · next f' cs hfd =>
      split at h
      · cases h
      · next ws' hl =>
        simp only [Except.ok.injEq, Prod.mk.injEq] at h
        obtain ⟨rfl, rfl⟩ := h
        obtain ⟨g1, g2⟩ := limit_at hl
        constructor
        · intro u w hw
          obtain ⟨n, c, e, e'⟩ := g1 _ hw
          exact ⟨n, c, ⟨_, cs, hfd, e⟩, (limitOne_sent e').1 u w rfl⟩
        · rintro n c ⟨f2, cs2, e, e'⟩ hnw
          rw [hfd] at e
          cases e
          rcases g2 n c e' with e | ⟨⟨u, w⟩, hw, e⟩
          · exact absurd ((limitOne_sent e).2 rfl) hnw
          · exact ⟨u, w, hw, (limitOne_sent e).1 u w rfl⟩

theorem metAt_mem {H : HolderEnv} {pd : Definition} {creds : List Cred} {d : FDesc} {n : Nat} {c : Cred}
    (ht : ∀ k, d.constraints = some k → Typed k) (h : MetAt H pd creds d n c) : c ∈ creds := by
  obtain ⟨f, cs, h1, h2⟩ := h
  exact (filterDescriptor_sound H.toMEnv pd.format d.toM ht h1 c (List.mem_of_getElem? h2)).1

/-- The facts about a result of the holder's search. -/
theorem limited_facts {H : HolderEnv} {E : MatchEnv} {read : Cred → Option Cred} {creds : List Cred}
    (hF : SameLibs H E creds) (hfr : FreshIDs H creds) {pd : Definition} (hn : (pd.descs.map FDesc.id).Nodup)
    (ht : ∀ d ∈ pd.descs, ∀ k, d.constraints = some k → Typed k) (ho : OneUse H pd creds) {dis : Bool}
    (hg : StillGood H E read dis pd creds) {dflt fmt : String}
    {m : GoMap (List (String × Cred))} (h : presentationData H dflt pd creds = some (.ok (fmt, m))) :
    IDsIdentify m ∧ (∀ d ∈ GoMap.keys m, d ∈ pd.descs.map FDesc.id) ∧
    (∀ d ∈ GoMap.keys m, ∃ ws, GoMap.get? m d = some ws ∧ ws ≠ []) ∧ GoMap.keys m ≠ [] ∧
    (Acceptable E.toMEnv read dis pd m ↔ ∀ d ∈ pd.descs, d.id ∈ GoMap.keys m) ∧
    ∀ r, SameAnswer read m r → (∀ d ∈ pd.descs, d.id ∈ GoMap.keys m) → LimitedAnswers H pd creds read r := by
  have hnd : ((pd.descs.map FDesc.toDesc).map Desc.id).Nodup := by
    rw [List.map_map]; exact hn
  have hsol : Solution (evalDesc H pd creds) pd.reqs (pd.descs.map FDesc.toDesc) (GoMap.keys m) ∧
      ∀ d cs, GoMap.get? m d = some cs → Matched (evalDesc H pd creds) d cs := by
    rcases solveDefinition_ok hnd (evalDesc H pd creds) dflt h with ⟨f, m', e, h1, _, h3, _⟩ | ⟨e, d, e', _⟩ | ⟨e, _⟩
    · cases e
      exact ⟨h1, h3⟩
    · cases e'
    · cases e
  obtain ⟨hsol, hmat⟩ := hsol
  have hinv : ∀ d ws, GoMap.get? m d = some ws → ws ≠ [] ∧ ∃ fd ∈ pd.descs, fd.id = d ∧
      (∀ u w, (u, w) ∈ ws → ∃ n c, MetAt H pd creds fd n c ∧ SentFor H fd n c u w) ∧
      (∀ n c, MetAt H pd creds fd n c → ¬ Withheld fd c → ∃ u w, (u, w) ∈ ws ∧ SentFor H fd n c u w) := by
    intro d ws hg
    obtain ⟨f, h1, h2⟩ := hmat d ws hg
    exact ⟨h2, evalDesc_limit h1⟩
  have hkey : ∀ d ∈ GoMap.keys m, ∃ ws, GoMap.get? m d = some ws ∧ ws ≠ [] := by
    intro d hd
    obtain ⟨ws, hw⟩ := Option.isSome_iff_exists.mp (GoMap.get?_isSome_iff.mpr hd)
    exact ⟨ws, hw, (hinv d ws hw).1⟩
  refine ⟨?_, ?_, hkey, hsol.nonempty, ⟨?_, ?_⟩, ?_⟩
  · intro k k' ws ws' u w w' h1 h2 h3 h4
    obtain ⟨_, d, hd, rfl, g1, _⟩ := hinv k ws h1
    obtain ⟨_, d', hd', rfl, g1', _⟩ := hinv k' ws' h2
    obtain ⟨n, c, hm, hs⟩ := g1 u w h3
    obtain ⟨n', c', hm', hs'⟩ := g1' u w' h4
    have hc := metAt_mem (ht d hd) hm
    have hc' := metAt_mem (ht d' hd') hm'
    have same : c.id = c'.id → c = c' := hF.ids c hc c' hc'
    rcases sentFor_cases hs with ⟨a0, rfl, a1⟩ | ⟨k, a0, a1, a2, a3, a4⟩ | ⟨k, a0, a1, a2⟩ <;>
    rcases sentFor_cases hs' with ⟨b0, rfl, b1⟩ | ⟨k', b0, b1, b2, b3, b4⟩ | ⟨k', b0, b1, b2⟩
    · exact same (a0.symm.trans b0)
    · have e := same (a0.symm.trans b0)
      subst e
      have e := List.inj_on_of_nodup_map hn hd hd' (ho d' hd' d hd n' n _ b3 hm' hm ⟨_, b1, b2⟩).symm
      subst e
      exact absurd (a1 _ b1) (by simp [b2])
    · exact absurd (b0.symm.trans a0) (hfr.new _ _ _ _ hc)
    · have e := same (a0.symm.trans b0)
      subst e
      have e := List.inj_on_of_nodup_map hn hd hd' (ho d hd d' hd' n n' _ a3 hm hm' ⟨_, a1, a2⟩)
      subst e
      exact absurd (b1 _ a1) (by simp [a2])
    · have e := same (a0.symm.trans b0)
      subst e
      have e := List.inj_on_of_nodup_map hn hd hd' (ho d hd d' hd' n n' _ a3 hm hm' ⟨_, a1, a2⟩)
      subst e
      rw [a1] at b1; cases b1
      rw [a4] at b4; cases b4
      rfl
    · exact absurd (b0.symm.trans a0) (hfr.new _ _ _ _ hc)
    · exact absurd (a0.symm.trans b0) (hfr.new _ _ _ _ hc')
    · exact absurd (a0.symm.trans b0) (hfr.new _ _ _ _ hc')
    · obtain ⟨e1, e2⟩ := hfr.different _ _ _ _ _ _ (a0.symm.trans b0)
      have e := List.inj_on_of_nodup_map hn hd hd' e1
      subst e e2
      obtain ⟨f, cs, q1, q2⟩ := hm
      obtain ⟨f', cs', q3, q4⟩ := hm'
      rw [q1] at q3; cases q3
      rw [q2] at q4; cases q4
      rw [a1] at b1; cases b1
      rw [a2] at b2; cases b2
      rfl
  · intro d hd
    obtain ⟨ws, hw, _⟩ := hkey d hd
    obtain ⟨_, fd, h1, h2, _⟩ := hinv d ws hw
    exact List.mem_map.mpr ⟨fd, h1, h2⟩
  · intro hacc d hd
    obtain ⟨ws, h1, _, _⟩ := hacc d hd
    exact GoMap.get?_isSome_iff.mp (by rw [h1]; rfl)
  · intro hall d hd
    obtain ⟨ws, h1, h2⟩ := hkey d.id (hall d hd)
    refine ⟨ws, h1, h2, ?_⟩
    intro u w hm
    obtain ⟨_, fd, g1, g2, g3, _⟩ := hinv d.id ws h1
    have : fd = d := List.inj_on_of_nodup_map hn g1 hd g2
    subst this
    obtain ⟨n, c, q1, q2⟩ := g3 u w hm
    exact hg fd hd n c u w (metAt_mem (ht fd hd) q1) q1 q2
  · intro r hag hall
    constructor
    · intro v hv
      obtain ⟨ws, u, w, h1, h2, h3⟩ := hag.1 v hv
      obtain ⟨_, fd, g1, g2, g3, _⟩ := hinv _ ws h1
      obtain ⟨n, c, q1, q2⟩ := g3 u w h2
      exact ⟨fd, g1, g2, n, c, u, w, metAt_mem (ht fd g1) q1, q1, q2, h3⟩
    · intro d hd n c hm hnw
      obtain ⟨ws, h1, _⟩ := hkey d.id (hall d hd)
      obtain ⟨hne, fd, g1, g2, _, g4⟩ := hinv _ ws h1
      have : fd = d := List.inj_on_of_nodup_map hn g1 hd g2
      subst this
      obtain ⟨u, w, q1, q2⟩ := g4 n c hm hnw
      exact ⟨u, w, q2, hag.2 fd.id _ u w h1 q1⟩

/-- **C101** with limited disclosure and predicates (`_partial`: an SD-JWT restricted for one
descriptor meets no other, and what is sent still meets the descriptor, see `derived_still_good_partial`
for when it does).  What `CreateVP` makes is accepted by `Match` exactly when its submission names every
descriptor; and then `Match` returns exactly what the holder sent for the credentials that met it. -/
theorem createVP_limited_then_match_partial {H : HolderEnv} {E : MatchEnv} {read : Cred → Option Cred}
    {creds : List Cred} (hF : SameLibs H E creds) (hfr : FreshIDs H creds) {pd : Definition}
    (hn : (pd.descs.map FDesc.id).Nodup)
    (ht : ∀ d ∈ pd.descs, ∀ k, d.constraints = some k → Typed k) (ho : OneUse H pd creds)
    {dis : Bool} (hg : StillGood H E read dis pd creds) {dflt : String}
    {made : Created} {os : List MapOut} (h : createVP H dflt pd creds = .ok (made, os))
    {jwt : Bool} (hj : ∀ o ∈ os, o.format = "jwt_vp" → jwt = true) {vp : VP}
    (hsent : Sent E.parseCred read jwt made vp) {subID defID : String}
    (hsub : vp.submission = submissionMappings (encodeSubmission subID defID os)) :
    ((∃ r, matchSubmission E (pd.descs.map FDesc.toI) ⟨dis, none⟩ [vp] = .ok r) ↔
      ∀ d ∈ pd.descs, ∃ o ∈ os, o.id = d.id) ∧
    ∀ r, matchSubmission E (pd.descs.map FDesc.toI) ⟨dis, none⟩ [vp] = .ok r →
      LimitedAnswers H pd creds read r ∧ ∀ v ∈ r, v.presentationID = made.id := by
  obtain ⟨fmt, m, h1, h2, rfl⟩ := createVP_ok h
  obtain ⟨hid, hm, hne, hnn, hacc, hans⟩ := limited_facts hF hfr hn ht ho hg h1
  obtain ⟨hnames, hfmt⟩ := names_of hF.keys hF.maps false fmt hid hne
  have hj' : fmt = "jwt_vp" → jwt = true := by
    intro e
    obtain ⟨d, hd⟩ := List.exists_mem_of_ne_nil _ hnn
    obtain ⟨o, ho, _⟩ := (hnames d).mp hd
    exact hj o ho (by rw [hfmt o ho, e])
  obtain ⟨g1, g2⟩ := match_created_iff hF.keys hF.maps hF.paths hn ht hid hm h2 hj' hsent hsub dis
  rw [hacc] at g1
  have hiff : (∀ d ∈ pd.descs, ∃ o ∈ (mergedOf H false fmt m).2, o.id = d.id) ↔
      ∀ d ∈ pd.descs, d.id ∈ GoMap.keys m := forall₂_congr fun d _ => (hnames d.id).symm
  refine ⟨by rw [hiff]; exact g1, fun r hr => ⟨?_, (g2 r hr).2⟩⟩
  exact hans r (g2 r hr).1 (g1.mp ⟨r, hr⟩)

/-- **C101** for `CreateVPArray` with limited disclosure (`_partial`, as above). -/
theorem createVPArray_limited_then_match_partial {H : HolderEnv} {E : MatchEnv} {read : Cred → Option Cred}
    {creds : List Cred} (hF : SameLibs H E creds) (hfr : FreshIDs H creds) {pd : Definition}
    (hn : (pd.descs.map FDesc.id).Nodup)
    (ht : ∀ d ∈ pd.descs, ∀ k, d.constraints = some k → Typed k) (ho : OneUse H pd creds)
    {dis : Bool} (hg : StillGood H E read dis pd creds) {dflt : String}
    {made : List Created} {os : List MapOut} (h : createVPArray H dflt pd creds = .ok (made, os))
    (hlen : made.length < 2 ^ 63)
    {jwt : Bool} (hj : ∀ o ∈ os, o.format = "jwt_vp" → jwt = true) {vps : List VP}
    (hsent : List.Forall₂ (fun a vp => Sent E.parseCred read jwt a vp) made vps) {subID defID : String}
    {merged : Option (List (Option Mapping))}
    (hsub : merged = submissionMappings (encodeSubmission subID defID os)) :
    ((∃ r, matchSubmission E (pd.descs.map FDesc.toI) ⟨dis, some merged⟩ vps = .ok r) ↔
      ∀ d ∈ pd.descs, ∃ o ∈ os, o.id = d.id) ∧
    ∀ r, matchSubmission E (pd.descs.map FDesc.toI) ⟨dis, some merged⟩ vps = .ok r →
      LimitedAnswers H pd creds read r ∧ ∀ v ∈ r, ∃ a ∈ made, ∃ c, a.creds = [c] ∧ read c = some v.cred ∧
        v.presentationID = a.id := by
  obtain ⟨fmt, m, h1, h2, rfl⟩ := createVPArray_ok h
  obtain ⟨hid, hm, hne, hnn, hacc, hans⟩ := limited_facts hF hfr hn ht ho hg h1
  obtain ⟨hnames, hfmt⟩ := names_of hF.keys hF.maps true fmt hid hne
  have hj' : fmt = "jwt_vp" → jwt = true := by
    intro e
    obtain ⟨d, hd⟩ := List.exists_mem_of_ne_nil _ hnn
    obtain ⟨o, ho, _⟩ := (hnames d).mp hd
    exact hj o ho (by rw [hfmt o ho, e])
  obtain ⟨g1, g2⟩ := match_created_array_iff hF.keys hF.maps hF.paths hn ht hid hm h2 hlen hj' hsent hsub dis
  rw [hacc] at g1
  have hiff : (∀ d ∈ pd.descs, ∃ o ∈ (mergedOf H true fmt m).2, o.id = d.id) ↔
      ∀ d ∈ pd.descs, d.id ∈ GoMap.keys m := forall₂_congr fun d _ => (hnames d.id).symm
  refine ⟨by rw [hiff]; exact g1, fun r hr => ⟨?_, (g2 r hr).2⟩⟩
  exact hans r (g2 r hr).1 (g1.mp ⟨r, hr⟩)

end VC.PE
