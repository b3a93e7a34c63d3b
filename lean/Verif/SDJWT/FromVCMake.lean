import Verif.SDJWT.FromVCProps
/-!
# MakeSDJWT: the options of a credential's SD-JWT

`makeSDJWT` (verifiable/credential_sdjwt.go:352-437) calls `NewFromVC` with structured claims, no decoy
digests, no claims of its own, and `id` added to the claims that stay in clear.
-/

namespace VC.SDJWT
open List

/-! ## Model -/

/-- The issuer options of `makeSDJWT`, credential_sdjwt.go:398-426; `non` are the names given by
`MakeSDJWTWithNonSelectivelyDisclosableClaims`. (Recursive and always-included objects are passed on.) -/
def makeEnv (E : IEnv) (non : List String) : IEnv :=
  { E with
    structured := true
    addDecoys := false
    nonSD := fun p => decide (p ∈ non ++ ["id"]) }

/-- No issuer, no registered claims, no holder key: `New("", …)`, issuer.go:431, and the options of
`makeSDJWT`. -/
def noOpts : BaseOpts := ⟨"", "", "", "", "", none, none, none, none⟩

/-- `makeSDJWT` from the claims map on, credential_sdjwt.go:428. -/
def makeSDJWT (E : IEnv) (ver : Ver) (non : List String) (claims : JObj) :
    Except FErr (List Ent × JObj) :=
  newFromVC (makeEnv E non) ver noOpts claims

/-! ## Specification -/

/-- `cs` is the subject in the claims of a credential: under `vc` (V2), or at the top (V5). -/
inductive SubjectIn : Ver → JObj → JObj → Prop
  | nested {claims v cs} : GoMap.get? claims "vc" = some (.obj v) →
      GoMap.get? v "credentialSubject" = some (.obj cs) → SubjectIn .v2 claims cs
  | flat {claims cs} : GoMap.get? claims "credentialSubject" = some (.obj cs) → SubjectIn .v5 claims cs

/-- The claims of a credential as `makeSDJWT` builds them: JSON without names reserved by SD-JWT, the
subject in its place only, and without a `cnf`. -/
structure CredClaims (ver : Ver) (claims cs : JObj) : Prop where
  wf : JWF (.obj claims)
  unreserved : UnreservedObj claims
  subject : SubjectIn ver claims cs
  noCnf : "cnf" ∉ GoMap.keys cs
  only2 : ver = .v2 → GoMap.get? claims "credentialSubject" = none
  only5 : ver = .v5 → ∀ v, GoMap.get? claims "vc" ≠ some (.obj v)

/-- A value that is neither object nor array nor null. -/
def Atomic : Json → Prop
  | .str _ | .num _ | .bool _ => True
  | _ => False

/-- What the options make of the subject, by version. -/
def Policy (E : IEnv) : Ver → Members → Prop
  | .v2, ms => V2Policy E.structured E.nonSD "" ms
  | .v5, ms => V5Policy E.v5 false "" ms

/-! ## Members by name -/

/-- The member `k` of an annotated object. -/
inductive Members.At : Members → String → Option String → Node → Prop
  | here {k a t ms} : Members.At (.cons k a t ms) k a t
  | there {k a t ms k' a' t'} : Members.At ms k a t → Members.At (.cons k' a' t' ms) k a t

theorem at_of_get {ms : Members} {k : String} {v : Json} (h : GoMap.get? ms.erase k = some v) :
    ∃ a t, ms.At k a t ∧ t.erase = v := by
  match ms, h with
  | .nil, h => cases h
  | .cons k' a t ms, h =>
    simp only [Members.erase] at h
    rw [GoMap.get?_cons] at h
    by_cases e : k' = k
    · subst e
      rw [if_pos rfl] at h
      cases h
      exact ⟨a, t, .here, rfl⟩
    · rw [if_neg e] at h
      obtain ⟨a, t, h1, h2⟩ := at_of_get h
      exact ⟨a, t, .there h1, h2⟩

theorem Members.At.key {ms : Members} {k : String} {a : Option String} {t : Node} (h : ms.At k a t) :
    k ∈ GoMap.keys ms.erase := by
  induction h with
  | here => simp [Members.erase, GoMap.keys]
  | there _ ih => simp only [Members.erase, GoMap.keys, List.map_cons, List.mem_cons]; exact Or.inr ih

theorem reveal_keys (S : List String) : ∀ (ms : Members) (k : String),
    k ∈ GoMap.keys (ms.reveal S) → k ∈ GoMap.keys ms.erase
  | .nil, k, h => h
  | .cons k' none t ms, k, h => by
    simp only [Members.reveal] at h
    simp only [Members.erase, GoMap.keys, List.map_cons, List.mem_cons]
    split at h
    · exact Or.inr (reveal_keys S ms k h)
    · simp only [GoMap.keys, List.map_cons, List.mem_cons] at h
      exact h.imp id (reveal_keys S ms k)
  | .cons k' (some s) t ms, k, h => by
    simp only [Members.reveal] at h
    simp only [Members.erase, GoMap.keys, List.map_cons, List.mem_cons]
    split at h
    · simp only [GoMap.keys, List.map_cons, List.mem_cons] at h
      exact h.imp id (reveal_keys S ms k)
    · exact Or.inr (reveal_keys S ms k h)

theorem reveal_clear {S : List String} {ms : Members} {k : String} {t : Node} (h : ms.At k none t)
    (wf : GoMap.WF ms.erase) (hn : (t.reveal S).isNull = false) :
    GoMap.get? (ms.reveal S) k = some (t.reveal S) := by
  match ms, h with
  | .cons k none t ms, .here =>
    simp only [Members.reveal, hn]
    rw [if_neg (by simp), GoMap.get?_cons, if_pos rfl]
  | .cons k' a' t' ms, .there h' =>
    simp only [Members.erase] at wf
    have w := GoMap.wf_cons.1 wf
    have ne : k' ≠ k := fun e => w.1 (e ▸ h'.key)
    have ih := reveal_clear h' w.2 hn
    cases a' with
    | none =>
      simp only [Members.reveal]
      split
      · exact ih
      · rw [GoMap.get?_cons, if_neg ne]; exact ih
    | some s =>
      simp only [Members.reveal]
      split
      · rw [GoMap.get?_cons, if_neg ne]; exact ih
      · exact ih

theorem reveal_hidden {S : List String} {ms : Members} {k s : String} {t : Node}
    (h : ms.At k (some s) t) (wf : GoMap.WF ms.erase) (hs : s ∉ S) :
    GoMap.get? (ms.reveal S) k = none := by
  match ms, h with
  | .cons k (some s) t ms, .here =>
    simp only [Members.erase] at wf
    simp only [Members.reveal]
    rw [if_neg hs]
    exact GoMap.get?_eq_none_iff.2 (fun hk => (GoMap.wf_cons.1 wf).1 (reveal_keys S ms _ hk))
  | .cons k' a' t' ms, .there h' =>
    simp only [Members.erase] at wf
    have w := GoMap.wf_cons.1 wf
    have ne : k' ≠ k := fun e => w.1 (e ▸ h'.key)
    have ih := reveal_hidden h' w.2 hs
    cases a' with
    | none =>
      simp only [Members.reveal]
      split
      · exact ih
      · rw [GoMap.get?_cons, if_neg ne]; exact ih
    | some s =>
      simp only [Members.reveal]
      split
      · rw [GoMap.get?_cons, if_neg ne]; exact ih
      · exact ih

theorem V2Policy.at {st : Bool} {c : String → Bool} {path : String} {ms : Members} {k : String}
    {a : Option String} {t : Node} (h : V2Policy st c path ms) (hat : ms.At k a t) :
    V2Value st c (joinPath path k) a t := by
  induction hat with
  | here => simp only [V2Policy] at h; exact h.1
  | there _ ih => simp only [V2Policy] at h; exact ih h.2

theorem V5Policy.at {o : V5Opts} {prims : Bool} {path : String} {ms : Members} {k : String}
    {a : Option String} {t : Node} (h : V5Policy o prims path ms) (hat : ms.At k a t) :
    V5Value o prims (joinPath path k) a t := by
  induction hat with
  | here => simp only [V5Policy] at h; exact h.1
  | there _ ih => simp only [V5Policy] at h; exact ih h.2

/-- A scalar member of the subject: in clear exactly if it is listed. -/
theorem atomic_at {ver : Ver} {E : IEnv} {ms : Members} {k : String} {v : Json} (hv : Atomic v)
    (hp : Policy E ver ms)
    (hg : GoMap.get? ms.erase k = some v) :
    ∃ a, ms.At k a (.plain v) ∧ (a = none ↔ E.nonSD k = true) := by
  obtain ⟨a, t, h1, h2⟩ := at_of_get hg
  cases t with
  | arr l => rw [← h2] at hv; simp [Node.erase, Atomic] at hv
  | obj m => rw [← h2] at hv; simp [Node.erase, Atomic] at hv
  | plain w =>
    simp only [Node.erase] at h2
    subst h2
    refine ⟨a, h1, ?_⟩
    cases ver with
    | v2 =>
      have := V2Policy.at hp h1
      simp only [V2Value, joinPath, if_true] at this
      exact this.2
    | v5 =>
      have := V5Policy.at hp h1
      simp only [V5Value, joinPath, if_true] at this
      rw [if_neg (by cases w <;> simp_all [IsObj, IsArr, Atomic])] at this
      simpa [IEnv.v5] using this.2

theorem noOpts_ok : NoOpts noOpts := ⟨rfl, rfl⟩

/-- The tree behind `makeSDJWT`, for both versions. -/
theorem make_tree {E : IEnv} (he : EnvWF E.env) (hsh : Shuffles E) (halg : AlgOk E) {ver : Ver}
    {non : List String} {claims cs payload : JObj} {es : List Ent} (hok : CredClaims ver claims cs)
    (hnk : ver = .v5 → NamedKeysObj cs)
    (hnew : makeSDJWT E ver non claims = .ok (es, payload)) (hcodec : Codec E.env es)
    (hn : DistinctDigests E.env payload (es.map Ent.result)) :
    ∃ (ms : Members) (shown : List String → JObj), ms.erase = cs ∧
      Policy (makeEnv E non) ver ms ∧
      ms.discs.Perm (es.map Ent.result) ∧ Presents E.env payload ms (es.map Ent.result) shown ∧
      ∀ S, SubjectIn ver (shown S) (ms.reveal S) := by
  have hsh' : Shuffles (makeEnv E non) := hsh
  have halg' : AlgOk (makeEnv E non) := halg
  have he' : EnvWF (makeEnv E non).env := he
  have hcodec' : Codec (makeEnv E non).env es := hcodec
  have hn' : DistinctDigests (makeEnv E non).env payload (es.map Ent.result) := hn
  have hf : ∀ k ∈ GoMap.keys cs, k ∉ GoMap.keys (basePayload noOpts) ∧ k ≠ "cnf" := by
    intro k hk
    exact ⟨by simp [noOpts, basePayload, strField, numField, cnfField, GoMap.keys],
      fun e => hok.noCnf (e ▸ hk)⟩
  have hsub : ∀ (v : JObj) (r : JObj), GoMap.get? (VCWith noOpts v r) "credentialSubject" =
      some (.obj r) := by
    intro v r
    have : GoMap.get? (tidyMembers (GoMap.del v "credentialSubject" ++ cnfField noOpts.cnf))
        "credentialSubject" = none := by
      rw [GoMap.get?_eq_none_iff]
      intro hk
      have : ∀ (m : JObj), "credentialSubject" ∈ GoMap.keys (tidyMembers m) →
          "credentialSubject" ∈ GoMap.keys m := by
        intro m h
        induction m with
        | nil => exact h
        | cons p m ih =>
          obtain ⟨k, w⟩ := p
          simp only [tidyMembers] at h
          simp only [GoMap.keys, List.map_cons, List.mem_cons]
          split at h
          · exact Or.inr (ih h)
          · simp only [GoMap.keys, List.map_cons, List.mem_cons] at h
            exact h.imp id ih
      have := this _ hk
      simp only [cnfField, noOpts, List.append_nil] at this
      rw [← GoMap.get?_isSome_iff, GoMap.get?_del_self] at this
      cases this
    unfold VCWith
    rw [GoMap.get?_append, this]
    simp only [Option.none_or]
    rw [GoMap.get?_cons, if_pos rfl]
    simp [noOpts, BaseOpts.noCnf, basePayload, strField, numField, cnfField, tidyMembers]
  obtain ⟨wf, un, sub, nc, only2, only5⟩ := hok
  cases sub with
  | @nested _ v _ hvc hs =>
    have ok : VCOk noOpts claims v cs := ⟨wf, un, by simp [CnfOk, noOpts], hs, hf, by simp [noOpts]⟩
    obtain ⟨ms, h1, h2, h3, h4, h5⟩ := v2_from_vc he' hsh' halg' ok hvc (only2 rfl) hnew hcodec' hn'
    refine ⟨ms, _, h1, h2, h3, h5, fun S => ?_⟩
    refine .nested (v := VCWith noOpts v (ms.reveal S)) ?_ (hsub _ _)
    rw [GoMap.get?_append]
    have : GoMap.get? (tidyMembers (GoMap.del claims "vc")) "vc" = none := by
      rw [GoMap.get?_eq_none_iff]
      intro hk
      have : ∀ (m : JObj), "vc" ∈ GoMap.keys (tidyMembers m) → "vc" ∈ GoMap.keys m := by
        intro m h
        induction m with
        | nil => exact h
        | cons p m ih =>
          obtain ⟨k, w⟩ := p
          simp only [tidyMembers] at h
          simp only [GoMap.keys, List.map_cons, List.mem_cons]
          split at h
          · exact Or.inr (ih h)
          · simp only [GoMap.keys, List.map_cons, List.mem_cons] at h
            exact h.imp id ih
      have := this _ hk
      rw [← GoMap.get?_isSome_iff, GoMap.get?_del_self] at this
      cases this
    rw [this, Option.none_or, GoMap.get?_cons, if_pos rfl]
  | flat hs =>
    have ok : VCOk noOpts claims claims cs := ⟨wf, un, by simp [CnfOk, noOpts], hs, hf, by simp [noOpts]⟩
    obtain ⟨_, hp, _⟩ := newFromVC_flat (only5 rfl) hs hnew
    have hr := newV5_real rfl hp
    obtain ⟨ms, h1, h2, h3, h5⟩ := v5_from_vc he' hsh' halg' ok (hnk rfl) (only5 rfl) hnew (by rw [hr]; exact hcodec') hn'
    rw [hr] at h3 h5
    exact ⟨ms, _, h1, h2, h3, h5, fun S => .flat (hsub _ _)⟩

/-- The subject in claims that are equal up to order. -/
theorem SubjectIn.congr {ver : Ver} {out c cs : JObj} (h : OEq out c) (hs : SubjectIn ver c cs) :
    ∃ cs', SubjectIn ver out cs' ∧ OEq cs' cs := by
  have obj_inv : ∀ {v : Json} {m : JObj}, JEq v (.obj m) → ∃ m', v = .obj m' ∧ OEq m' m := by
    intro v m hv
    have := JE.shape hv
    cases v with
    | obj m' => exact ⟨m', rfl, this⟩
    | _ => cases this
  cases hs with
  | @nested _ v _ h1 h2 =>
    rcases JEq.get h "vc" with ⟨-, g⟩ | ⟨w, w', g1, g2, g3⟩
    · rw [h1] at g; cases g
    · rw [h1] at g2
      cases g2
      obtain ⟨m', rfl, g4⟩ := obj_inv g3
      rcases JEq.get g4 "credentialSubject" with ⟨-, g⟩ | ⟨u, u', f1, f2, f3⟩
      · rw [h2] at g; cases g
      · rw [h2] at f2
        cases f2
        obtain ⟨m'', rfl, f4⟩ := obj_inv f3
        exact ⟨m'', .nested g1 f1, f4⟩
  | flat h2 =>
    rcases JEq.get h "credentialSubject" with ⟨-, g⟩ | ⟨u, u', f1, f2, f3⟩
    · rw [h2] at g; cases g
    · rw [h2] at f2
      cases f2
      obtain ⟨m'', rfl, f4⟩ := obj_inv f3
      exact ⟨m'', .flat f1, f4⟩

theorem jeq_atomic {v w : Json} (h : JEq v w) (hw : Atomic w) : v = w := by
  have := JE.shape h
  cases w <;> cases v <;> simp_all [Atomic]

/-- **C81**: of the SD-JWT of a credential (both versions, every choice `S` of disclosures) the relying
party always sees the subject's identifier and every scalar claim the caller asked to keep in clear. -/
theorem make_shows_listed {E : IEnv} (he : EnvWF E.env) (hsh : Shuffles E) (halg : AlgOk E) {ver : Ver}
    {non : List String} {claims cs payload : JObj} {es : List Ent} (hok : CredClaims ver claims cs)
    (hnk : ver = .v5 → NamedKeysObj cs)
    (hnew : makeSDJWT E ver non claims = .ok (es, payload)) (hcodec : Codec E.env es)
    (hn : DistinctDigests E.env payload (es.map Ent.result))
    {k : String} {v : Json} (hk : k = "id" ∨ k ∈ non) (hg : GoMap.get? cs k = some v) (hv : Atomic v)
    {S : List String} {order : DMap → List String} (hS : ∀ s ∈ S, s ∈ es.map Ent.result)
    (hnS : S.Nodup) (ho : ∀ D, ∀ d ∈ GoMap.keys D, d ∈ order D) :
    ∃ out cs', disclosedClaims E.env S payload order = .ok out ∧ SubjectIn ver out cs' ∧
      GoMap.get? cs' k = some v := by
  obtain ⟨ms, shown, rfl, h2, h3, h4, h5⟩ := make_tree he hsh halg hok hnk hnew hcodec hn
  obtain ⟨-, out, g1, g2⟩ := h4 S order hS hnS ho
  obtain ⟨cs', f1, f2⟩ := SubjectIn.congr g2 (h5 S)
  obtain ⟨a, e1, e2⟩ := atomic_at hv h2 hg
  have : a = none := e2.2 (by
    simp only [makeEnv, List.mem_append, List.mem_singleton, decide_eq_true_eq]
    exact hk.symm)
  subst this
  have wf : GoMap.WF ms.erase := by
    have hc := hok.subject
    have hw : JWF (.obj ms.erase) := by
      cases hc with
      | nested q1 q2 => exact jwf_get (jwf_get hok.wf q1) q2
      | flat q2 => exact jwf_get hok.wf q2
    simp only [JWF] at hw
    exact hw.1
  have hval : (Node.plain v).reveal S = v := by
    cases v <;> simp_all [Atomic, Node.reveal, tidy]
  have hr := reveal_clear (S := S) e1 wf (by rw [hval]; cases v <;> simp_all [Atomic, Json.isNull])
  rw [hval] at hr
  rcases JEq.get f2 k with ⟨-, q⟩ | ⟨u, u', q1, q2, q3⟩
  · rw [hr] at q; cases q
  · rw [hr] at q2
    cases q2
    exact ⟨out, cs', g1, f1, by rw [q1, jeq_atomic q3 hv]⟩

/-- **C81**: a scalar claim of the subject that was not listed is hidden: there is a disclosure for it
among those issued, and without that disclosure the relying party does not see the claim. -/
theorem make_hides_unlisted {E : IEnv} (he : EnvWF E.env) (hsh : Shuffles E) (halg : AlgOk E) {ver : Ver}
    {non : List String} {claims cs payload : JObj} {es : List Ent} (hok : CredClaims ver claims cs)
    (hnk : ver = .v5 → NamedKeysObj cs)
    (hnew : makeSDJWT E ver non claims = .ok (es, payload)) (hcodec : Codec E.env es)
    (hn : DistinctDigests E.env payload (es.map Ent.result))
    {k : String} {v : Json} (hid : k ≠ "id") (hk : k ∉ non) (hg : GoMap.get? cs k = some v)
    (hv : Atomic v) :
    ∃ d ∈ es.map Ent.result, ∀ (S : List String) (order : DMap → List String),
      (∀ s ∈ S, s ∈ es.map Ent.result) → S.Nodup → (∀ D, ∀ d ∈ GoMap.keys D, d ∈ order D) → d ∉ S →
      ∃ out cs', disclosedClaims E.env S payload order = .ok out ∧ SubjectIn ver out cs' ∧
        GoMap.get? cs' k = none := by
  obtain ⟨ms, shown, rfl, h2, h3, h4, h5⟩ := make_tree he hsh halg hok hnk hnew hcodec hn
  obtain ⟨a, e1, e2⟩ := atomic_at hv h2 hg
  have wf : GoMap.WF ms.erase := by
    have hc := hok.subject
    have hw : JWF (.obj ms.erase) := by
      cases hc with
      | nested q1 q2 => exact jwf_get (jwf_get hok.wf q1) q2
      | flat q2 => exact jwf_get hok.wf q2
    simp only [JWF] at hw
    exact hw.1
  cases a with
  | none =>
    have := e2.1 rfl
    simp only [makeEnv, List.mem_append, List.mem_singleton, decide_eq_true_eq] at this
    rcases this with h | h
    · exact absurd h hk
    · exact absurd h hid
  | some d =>
    have hd : d ∈ ms.discs := by
      clear h2 h3 h4 h5 e2 hg hok wf hnk hid hk
      generalize ht : Node.plain v = t at e1
      generalize ha : some d = a at e1
      induction e1 with
      | here => subst ha; simp [Members.discs]
      | there _ ih => simp only [Members.discs, List.mem_append]; exact Or.inr (ih ht ha)
    refine ⟨d, h3.mem_iff.mp hd, fun S order hS hnS ho hdS => ?_⟩
    obtain ⟨-, out, g1, g2⟩ := h4 S order hS hnS ho
    obtain ⟨cs', f1, f2⟩ := SubjectIn.congr g2 (h5 S)
    have hr := reveal_hidden (S := S) e1 wf hdS
    refine ⟨out, cs', g1, f1, ?_⟩
    rcases JEq.get f2 k with ⟨q, -⟩ | ⟨u, u', q1, q2, q3⟩
    · exact q
    · rw [hr] at q2; cases q2

/-- **C81**: an object inside the subject (unless the caller lists it as a recursive object, V5) is
always seen, whatever is disclosed of its members: structured claims. -/
theorem make_keeps_objects {E : IEnv} (he : EnvWF E.env) (hsh : Shuffles E) (halg : AlgOk E) {ver : Ver}
    {non : List String} {claims cs payload : JObj} {es : List Ent} (hok : CredClaims ver claims cs)
    (hnk : ver = .v5 → NamedKeysObj cs)
    (hnew : makeSDJWT E ver non claims = .ok (es, payload)) (hcodec : Codec E.env es)
    (hn : DistinctDigests E.env payload (es.map Ent.result))
    {k : String} {m : JObj} (hg : GoMap.get? cs k = some (.obj m))
    (hr : ver = .v5 → E.recursive k = false)
    {S : List String} {order : DMap → List String} (hS : ∀ s ∈ S, s ∈ es.map Ent.result)
    (hnS : S.Nodup) (ho : ∀ D, ∀ d ∈ GoMap.keys D, d ∈ order D) :
    ∃ out cs' m', disclosedClaims E.env S payload order = .ok out ∧ SubjectIn ver out cs' ∧
      GoMap.get? cs' k = some (.obj m') := by
  obtain ⟨ms, shown, rfl, h2, h3, h4, h5⟩ := make_tree he hsh halg hok hnk hnew hcodec hn
  obtain ⟨-, out, g1, g2⟩ := h4 S order hS hnS ho
  obtain ⟨cs', f1, f2⟩ := SubjectIn.congr g2 (h5 S)
  have wf : GoMap.WF ms.erase := by
    have hc := hok.subject
    have hw : JWF (.obj ms.erase) := by
      cases hc with
      | nested q1 q2 => exact jwf_get (jwf_get hok.wf q1) q2
      | flat q2 => exact jwf_get hok.wf q2
    simp only [JWF] at hw
    exact hw.1
  obtain ⟨a, t, e1, e2⟩ := at_of_get hg
  have ht : ∃ m', t.reveal S = .obj m' := by
    cases t with
    | plain w => simp only [Node.erase] at e2; subst e2; exact ⟨_, rfl⟩
    | arr l => simp [Node.erase] at e2
    | obj ms' => exact ⟨_, rfl⟩
  have ha : a = none := by
    cases ver with
    | v2 =>
      have := V2Policy.at h2 e1
      cases t with
      | plain w =>
        simp only [Node.erase] at e2
        subst e2
        simp only [V2Value] at this
        exact absurd ⟨rfl, trivial⟩ this.1
      | arr l => simp [Node.erase] at e2
      | obj ms' => simp only [V2Value] at this; exact this.2.1
    | v5 =>
      have := V5Policy.at h2 e1
      cases t with
      | plain w =>
        simp only [Node.erase] at e2
        subst e2
        simp only [V5Value] at this
        rw [if_pos (Or.inl (show IsObj (.obj m) from trivial))] at this
        exact this.2
      | arr l => simp [Node.erase] at e2
      | obj ms' =>
        simp only [V5Value, joinPath, if_true] at this
        exact this.2.1.2 (Or.inr ⟨hr rfl, rfl⟩)
  subst ha
  obtain ⟨m', ht⟩ := ht
  have hv := reveal_clear (S := S) e1 wf (by rw [ht]; rfl)
  rw [ht] at hv
  rcases JEq.get f2 k with ⟨-, q⟩ | ⟨u, u', q1, q2, q3⟩
  · rw [hv] at q; cases q
  · rw [hv] at q2
    cases q2
    have := JE.shape q3
    cases u with
    | obj m'' => exact ⟨out, cs', m'', g1, f1, q1⟩
    | _ => cases this

end VC.SDJWT
