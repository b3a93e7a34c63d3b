import Verif.LDP.Attach
/-!
# Adding proofs: theorems (C86, C87)
-/

namespace VC.LDP

open VC.Proof VC.Vfy GoMap Spec VC.Vfy.Spec

variable {T : Type} (env : Env T)

theorem entries_unique {v : Option Json} {l l' : List Json} (h : Entries v l) (h' : Entries v l') : l = l' := by
  cases h with
  | absent => cases h'; rfl
  | array =>
    cases h' with
    | array => rfl
    | one hn => exact absurd rfl (hn _)
  | one hn =>
    cases h' with
    | array => exact absurd rfl (hn _)
    | one _ => rfl

theorem entries_compact (ps : List JObj) : Entries (Compact (ps.map .obj)) (ps.map .obj) := by
  match ps with
  | [] => exact .absent
  | [p] => exact .one (fun l h => by cases h)
  | a :: b :: l => exact .array

theorem entries_raw {ps : List JObj} (h : ps ≠ []) : Entries (some (proofsToRaw ps)) (ps.map .obj) := by
  rw [proofsToRaw_compact _ h]
  exact entries_compact ps

/-- A verifier sees no difference between two documents with the same members and the same proofs. -/
theorem verifyObject_congr (lib : ProofLib env) {doc doc' : JObj} {l : List Json} (hl : l ≠ [])
    (h : ∀ k, k ≠ "proof" → get? doc' k = get? doc k) (e : Entries (get? doc "proof") l)
    (e' : Entries (get? doc' "proof") l) (k : LdChecker) (drop : Bool) (issuer : Option String) :
    verifyObject env k drop issuer doc' = verifyObject env k drop issuer doc := by
  unfold verifyObject
  rw [lib.read doc' doc l hl e' e]
  cases env.readProofs doc with
  | none => rfl
  | some ps =>
    dsimp only
    congr 1
    funext p
    unfold verifyOne
    rw [lib.noProof _ _ doc doc' p h]

/-- What adding a linked data proof to a document with the proofs `l` does. -/
theorem addLinked_spec (lib : ProofLib env) {c : Creator} {ctx : PCtx T} {doc : JObj} {l : List JObj}
    (hl : Entries (get? doc "proof") (l.map .obj)) :
    (sign env c (mapContext ctx) doc = none ∧ addLinked env c ctx doc = (doc, none)) ∨
    ∃ doc' o, sign env c (mapContext ctx) doc = some doc' ∧
      addLinked env c ctx doc = (doc', some (l ++ [o])) ∧
      get? doc' "proof" = some (.arr ((l ++ [o]).map .obj)) ∧
      ∀ k, k ≠ "proof" → get? doc' k = get? doc k := by
  unfold addLinked
  cases hs : sign env c (mapContext ctx) doc with
  | none => exact .inl ⟨rfl, rfl⟩
  | some doc' =>
    right
    obtain ⟨d, p, msg, sig, _, _, _, _, _, _, _, ha⟩ := sign_spec env lib.toLibOk hs
    obtain ⟨o, ho⟩ := lib.entries _ _ _ _ hl ha
    have ho' : get? doc' "proof" = some (.arr ((l ++ [o]).map .obj)) := by
      rw [ho, List.map_append]; rfl
    refine ⟨doc', o, rfl, ?_, ho', fun k hk => lib.rest _ _ _ k ha hk⟩
    dsimp only
    have : parseLDProof (.json (JObj.at doc' "proof")) = some (l ++ [o]) := by
      unfold JObj.at
      rw [ho']
      exact (parseLDProofs_iff _ _).2 rfl
    rw [this]

/-- **C86** (credential): adding a linked data proof to a credential keeps its earlier proofs, in
their order, adds one, and changes nothing else; the list of proofs stays the one of the document. -/
theorem credential_adds_one (lib : ProofLib env) {S : Type} {c : Creator} {ctx : PCtx T} {vc vc' : PCred S}
    (hs : InSync vc) (h : addToCred env c ctx vc = (vc', true)) :
    ∃ o, vc'.proofs = vc.proofs ++ [o] ∧ InSync vc' ∧ vc'.contents = vc.contents ∧ vc'.jwt = vc.jwt ∧
      vc'.cwt = vc.cwt ∧ ∀ k, k ≠ "proof" → get? vc'.json k = get? vc.json k := by
  unfold addToCred at h
  rcases addLinked_spec env lib (c := c) (ctx := ctx) hs with ⟨_, h1⟩ | ⟨doc', o, _, h1, h2, h3⟩
  · rw [h1] at h; cases h
  · rw [h1] at h
    cases h
    refine ⟨o, rfl, ?_, rfl, rfl, rfl, h3⟩
    unfold InSync
    dsimp only
    rw [h2]
    exact .array

/-- **C86** (credential): a refused proof leaves the credential as it was. -/
theorem credential_add_refused (lib : ProofLib env) {S : Type} {c : Creator} {ctx : PCtx T} {vc vc' : PCred S}
    (hs : InSync vc) (h : addToCred env c ctx vc = (vc', false)) : vc' = vc := by
  unfold addToCred at h
  rcases addLinked_spec env lib (c := c) (ctx := ctx) hs with ⟨_, h1⟩ | ⟨doc', o, _, h1, h2, h3⟩
  · rw [h1] at h; cases h; rfl
  · rw [h1] at h; cases h

/-- What a checker must know to accept the proofs that `c` makes with `ctx` for `doc`. -/
structure Accepting (c : Creator) (ctx : Ctx T) (doc : JObj) (k : LdChecker) (drop : Bool)
    (issuer : Option String) : Prop where
  ok : ∃ kid did vm d, FirstWith (fun d : LdCheck => d.suite.proofType) k.ld ctx.sigType d ∧
    (∀ d' p, FirstWith (fun d : LdCreate => d.suite.proofType) c.ld ctx.sigType d' →
      env.verifyData (d.suite.canon drop) d.suite.digest doc p =
        env.verifyData (d'.suite.canon false) d'.suite.digest doc p) ∧
    (∀ p, FromContext env ctx p → env.publicKeyID p = some kid) ∧ Signer issuer kid did ∧
    k.resolve kid did = .ok vm ∧
    (∀ d' msg sig, FirstWith (fun d : LdCreate => d.suite.proofType) c.ld ctx.sigType d' →
      d'.sign msg = some sig → KeyAccepts k d vm ctx.nonce msg sig)

/-- **C86** (credential): the credential with the new proof, as it is written, is accepted by a checker
that accepts what the creator makes, if the earlier proofs were accepted. -/
theorem credential_add_then_verify (lib : ProofLib env) {S : Type} {c : Creator} {ctx : PCtx T}
    {vc vc' : PCred S} (hs : InSync vc) (h : addToCred env c ctx vc = (vc', true)) {k : LdChecker}
    {drop : Bool} {issuer : Option String} (ha : Accepting env c (mapContext ctx) vc.json k drop issuer)
    (hold : vc.proofs = [] ∨ verifyObject env k drop issuer (toRawJSON vc) = true) :
    verifyObject env k drop issuer (toRawJSON vc') = true := by
  unfold addToCred at h
  rcases addLinked_spec env lib (c := c) (ctx := ctx) hs with ⟨_, h1⟩ | ⟨doc', o, h0, h1, h2, h3⟩
  · rw [h1] at h; cases h
  rw [h1] at h
  cases h
  obtain ⟨kid, did, vm, d, a1, a2, a3, a4, a5, a6⟩ := ha.ok
  have hv : verifyObject env k drop issuer doc' = true := by
    refine sign_then_verify env lib.toLibOk h0 a1 a2 a3 a4 a5 a6 ?_
    by_cases he : vc.proofs = []
    · unfold InSync at hs
      rw [he] at hs
      cases hg : get? vc.json "proof" with
      | none => exact .inl rfl
      | some j =>
        right
        rw [hg] at hs
        have hj : j = .arr [] := by
          generalize e : ([] : List JObj).map Json.obj = l at hs
          cases hs with
          | array => cases e; rfl
          | one => cases e
        unfold verifyObject
        rw [lib.empty _ (by rw [hg, hj])]
        rfl
    · right
      rcases hold with he' | hv
      · exact absurd he' he
      rw [← hv]
      refine verifyObject_congr env lib (l := vc.proofs.map .obj) (by simp [he]) ?_ ?_ hs k drop issuer
      · intro q hq
        unfold toRawJSON
        split
        · rfl
        · rw [get?_set_ne _ _ (Ne.symm hq)]
      · unfold toRawJSON
        rw [if_neg (by simp [he]), get?_set_self]
        exact entries_raw he
  rw [← hv]
  refine verifyObject_congr env lib (l := (vc.proofs ++ [o]).map .obj) (by simp) ?_ ?_ ?_ k drop issuer
  · intro q hq
    unfold toRawJSON
    dsimp only
    rw [if_neg (by simp), get?_set_ne _ _ (Ne.symm hq)]
  · rw [h2]; exact .array
  · unfold toRawJSON
    dsimp only
    rw [if_neg (by simp), get?_set_self]
    exact entries_raw (by simp)

/-- Resetting the proofs of a credential: it is written with exactly the new proofs, its document is
in sync if there are any, and nothing else changes. -/
theorem reset_spec {S : Type} (vc : PCred S) (ps : List JObj) :
    (resetProofs vc ps).proofs = ps ∧ (ps ≠ [] → InSync (resetProofs vc ps)) ∧
    get? (toRawJSON (resetProofs vc ps)) "proof" = some ((Compact (ps.map .obj)).getD .null) ∧
    ∀ k, k ≠ "proof" → get? (toRawJSON (resetProofs vc ps)) k = get? vc.json k := by
  refine ⟨rfl, fun h => ?_, ?_, fun k hk => ?_⟩
  · unfold InSync resetProofs
    dsimp only
    rw [get?_set_self]
    exact entries_raw h
  · unfold resetProofs toRawJSON
    dsimp only
    split
    · rw [get?_set_self]
      match ps with
      | [] => rfl
      | [p] => rfl
      | a :: b :: l => rfl
    · rw [get?_set_self]
      match ps with
      | [] => rfl
      | [p] => rfl
      | a :: b :: l => rfl
  · unfold resetProofs toRawJSON
    dsimp only
    split
    · rw [get?_set_ne _ _ (Ne.symm hk)]
    · rw [get?_set_ne _ _ (Ne.symm hk), get?_set_ne _ _ (Ne.symm hk)]

/-- **C86, violated**: after its proofs have been reset to none, a credential takes no linked data
proof any more: the document keeps `"proof": null`, which becomes an element of the array. -/
theorem reset_then_add_fails (lib : ProofLib env) {S : Type} (c : Creator) (ctx : PCtx T) (vc : PCred S) :
    (addToCred env c ctx (resetProofs vc [])).2 = false := by
  unfold addToCred addLinked
  cases hs : sign env c (mapContext ctx) (resetProofs vc []).json with
  | none => rfl
  | some doc' =>
    obtain ⟨d, p, msg, sig, _, _, _, _, _, _, _, ha⟩ := sign_spec env lib.toLibOk hs
    obtain ⟨o, ho⟩ := lib.entries _ p doc' [.null] (by
      unfold resetProofs; dsimp only; rw [get?_set_self]; exact .one (fun l h => by cases h)) ha
    dsimp only
    have : parseLDProof (.json (JObj.at doc' "proof")) = none := by
      unfold JObj.at; rw [ho]; rfl
    rw [this]

/-! ## Presentations -/

/-- **C86** (presentation): the earlier proofs stay, one is added, nothing else changes. -/
theorem presentation_adds_one (lib : ProofLib env) {S : Type} {u : PCred S → Option Json} {c : Creator}
    {ctx : PCtx T} {vp vp' : Pres S} (hc : CustomClean vp) (h : addToPres env u c ctx vp = some vp') :
    ∃ o, vp' = { vp with proofs := vp.proofs ++ [o] } := by
  unfold addToPres at h
  obtain ⟨raw, hr, h⟩ := Option.bind_eq_some_iff.1 h
  obtain ⟨cs, _, hd⟩ := marshal_document u vp hc raw hr
  have he : Entries (get? raw "proof") (vp.proofs.map .obj) := by
    rw [hd.proof]; exact entries_compact _
  rcases addLinked_spec env lib (c := c) (ctx := ctx) he with ⟨_, h1⟩ | ⟨doc', o, _, h1, h2, h3⟩
  · rw [h1] at h; cases h
  · rw [h1] at h; cases h; exact ⟨o, rfl⟩

/-- Every member of the document of a presentation is determined by the presentation. -/
theorem presDoc_other {S : Type} {vp vp' : Pres S} {cs : List Json} {a b : JObj} {ps : List JObj}
    (hv : vp' = { vp with proofs := ps }) (ha : PresDoc vp cs a) (hb : PresDoc vp' cs b) :
    ∀ k, k ≠ "proof" → get? b k = get? a k := by
  subst hv
  intro k hk
  by_cases hm : k ∈ presMembers
  · simp only [presMembers, List.mem_cons, List.not_mem_nil, or_false] at hm
    rcases hm with h | h | h | h | h | h <;> subst h
    · rw [ha.context, hb.context]
    · rw [ha.id, hb.id]
    · rw [ha.type, hb.type]
    · rw [ha.vc, hb.vc]
    · rw [ha.holder, hb.holder]
    · exact absurd rfl hk
  · rw [ha.custom k hm, hb.custom k hm]

/-- **C86** (presentation): the presentation with the new proof, as it is written, is accepted by a
checker that accepts what the creator makes, if the earlier proofs were accepted. -/
theorem presentation_add_then_verify (lib : ProofLib env) {S : Type} {u : PCred S → Option Json}
    {c : Creator} {ctx : PCtx T} {vp vp' : Pres S} (hc : CustomClean vp)
    (h : addToPres env u c ctx vp = some vp') {raw raw' : JObj} (hr : rawPres u vp = some raw)
    (hr' : rawPres u vp' = some raw') {k : LdChecker} {drop : Bool} {issuer : Option String}
    (ha : Accepting env c (mapContext ctx) raw k drop issuer)
    (hold : vp.proofs = [] ∨ verifyObject env k drop issuer raw = true) :
    verifyObject env k drop issuer raw' = true := by
  obtain ⟨o, ho⟩ := presentation_adds_one env lib hc h
  have hc' : CustomClean vp' := by rw [ho]; exact hc
  obtain ⟨cs, hcs, hd⟩ := marshal_document u vp hc raw hr
  obtain ⟨cs', hcs', hd'⟩ := marshal_document u vp' hc' raw' hr'
  have : cs' = cs := by
    have e : vp'.credentials = vp.credentials := by rw [ho]
    rw [e, hcs] at hcs'; cases hcs'; rfl
  subst this
  have hrest := presDoc_other ho hd hd'
  have he : Entries (get? raw "proof") (vp.proofs.map .obj) := by
    rw [hd.proof]; exact entries_compact _
  have he' : Entries (get? raw' "proof") ((vp.proofs ++ [o]).map .obj) := by
    rw [hd'.proof, ho]; exact entries_compact _
  unfold addToPres at h
  rw [hr, Option.bind_some] at h
  rcases addLinked_spec env lib (c := c) (ctx := ctx) he with ⟨_, h1⟩ | ⟨doc', o', h0, h1, h2, h3⟩
  · rw [h1] at h; cases h
  rw [h1] at h
  have hoo : o' = o := by
    simp only [Option.map_some, Option.some.injEq] at h
    rw [← h] at ho
    have := congrArg Pres.proofs ho
    simpa using this
  subst hoo
  obtain ⟨kid, did, vm, d, a1, a2, a3, a4, a5, a6⟩ := ha.ok
  have hv : verifyObject env k drop issuer doc' = true := by
    refine sign_then_verify env lib.toLibOk h0 a1 a2 a3 a4 a5 a6 ?_
    rcases hold with e | e
    · left; rw [hd.proof, e]; rfl
    · exact .inr e
  rw [← hv]
  refine verifyObject_congr env lib (l := (vp.proofs ++ [o']).map .obj) (by simp) ?_ ?_ he' k drop issuer
  · intro q hq; rw [hrest q hq, h3 q hq]
  · rw [h2]; exact .array

/-! ## Data Integrity proofs -/

/-- The proofs after adding a Data Integrity proof: one. -/
theorem addDI_one {di : DI.Env} {suites : GoMap (DI.Suite di)} {now : di.T} {c : DICtx di.T} {doc : JObj}
    {ps : List JObj} (h : addDI di suites now c doc = some ps) :
    ∃ o, ps = [o] ∧ DI.addProof di suites doc (diOpts di now c) = .ok (set doc "proof" (.obj o)) := by
  unfold addDI at h
  cases ha : DI.addProof di suites doc (diOpts di now c) with
  | error e => rw [ha] at h; cases h
  | ok doc' =>
    rw [ha] at h
    dsimp only at h
    have hd : ∃ o, doc' = set doc "proof" (.obj o) := by
      unfold DI.addProof at ha
      split at ha
      · cases ha
      · split at ha
        · cases ha
        · split at ha
          · cases ha
          · split at ha
            · cases ha; exact ⟨_, rfl⟩
            · cases ha
    obtain ⟨o, rfl⟩ := hd
    unfold JObj.at at h
    rw [get?_set_self] at h
    cases h
    exact ⟨o, rfl, rfl⟩

/-- **C86** (Data Integrity), the part that holds: a credential without proofs gets the new one, and
nothing else changes. -/
theorem credential_adds_di_partial {S : Type} {di : DI.Env} {suites : GoMap (DI.Suite di)} {now : di.T}
    {c : DICtx di.T} {vc vc' : PCred S} (hp : vc.proofs = []) (h : addDIToCred di suites now c vc = some vc') :
    ∃ o, vc'.proofs = vc.proofs ++ [o] ∧ InSync vc' ∧ vc'.contents = vc.contents ∧
      (∀ k, k ≠ "proof" → get? vc'.json k = get? vc.json k) ∧
      DI.addProof di suites vc.json (diOpts di now c) = .ok (set vc.json "proof" (.obj o)) := by
  unfold addDIToCred at h
  obtain ⟨ps, h1, h2⟩ := Option.map_eq_some_iff.1 h
  obtain ⟨o, rfl, ho⟩ := addDI_one h1
  have e : toRawJSON vc = vc.json := by unfold toRawJSON; rw [hp]; rfl
  rw [if_neg (by simp)] at h2
  cases h2
  rw [e] at ho
  refine ⟨o, by rw [hp]; rfl, ?_, rfl, fun k hk => ?_, ho⟩
  · unfold InSync
    dsimp only
    rw [get?_set_self]
    exact entries_raw (by simp)
  · dsimp only; rw [get?_set_ne _ _ (Ne.symm hk)]

/-- **C86, violated** (Data Integrity): whatever proofs the credential had, afterwards it has the new
one only. -/
theorem di_drops_earlier {S : Type} {di : DI.Env} {suites : GoMap (DI.Suite di)} {now : di.T}
    {c : DICtx di.T} {vc vc' : PCred S} (h : addDIToCred di suites now c vc = some vc') :
    ∃ o, vc'.proofs = [o] ∧ get? (toRawJSON vc') "proof" = some (.obj o) := by
  unfold addDIToCred at h
  obtain ⟨ps, h1, h2⟩ := Option.map_eq_some_iff.1 h
  obtain ⟨o, rfl, ho⟩ := addDI_one h1
  rw [if_neg (by simp)] at h2
  cases h2
  refine ⟨o, rfl, ?_⟩
  unfold toRawJSON
  dsimp only
  rw [if_neg (by simp), get?_set_self]
  rfl

/-- The same for a presentation. -/
theorem di_drops_earlier_pres {S : Type} {u : PCred S → Option Json} {di : DI.Env}
    {suites : GoMap (DI.Suite di)} {now : di.T} {c : DICtx di.T} {vp vp' : Pres S}
    (h : addDIToPres u di suites now c vp = some vp') : ∃ o, vp' = { vp with proofs := [o] } := by
  unfold addDIToPres at h
  obtain ⟨raw, _, h⟩ := Option.bind_eq_some_iff.1 h
  obtain ⟨ps, h1, h2⟩ := Option.map_eq_some_iff.1 h
  obtain ⟨o, rfl, ho⟩ := addDI_one h1
  exact ⟨o, h2.symm⟩

/-! ## DID documents -/

/-- **C87**, the part that holds: a verified DID document has a proof member made of objects; unless
the first one is a Data Integrity proof (then the Data Integrity check decides), every proof is good
for the document, under a key of the DID that its own key id names. Missing: that this DID is the
document's `id`, see `did_other_signer`. -/
theorem did_verified_partial {o : DidOpts} {doc : JObj} (h : verifyDID env o doc = true) :
    ∃ ps : List JObj, (get? doc "proof" = some (.arr (ps.map .obj)) ∨ ∃ p, ps = [p] ∧ get? doc "proof" = some (.obj p)) ∧
      (((∃ p rest, ps = p :: rest ∧ get? p "type" = some (.str "DataIntegrityProof")) ∧
          o.dataIntegrity (o.contexts doc) = true) ∨
        ∃ k prfs, o.checker = some k ∧ env.readProofs (o.contexts doc) = some prfs ∧
          ∀ p ∈ prfs, ProofGood env k o.dropRDF none (o.contexts doc) p) := by
  unfold verifyDID at h
  have hobjs : ∀ (l : List Json) (ps : List JObj), objs l = some ps → l = ps.map .obj := by
    intro l
    induction l with
    | nil => intro ps h; cases h; rfl
    | cons a l ih =>
      intro ps h
      cases a with
      | obj q =>
        simp only [objs, Option.map_eq_some_iff] at h
        obtain ⟨ps', h1, rfl⟩ := h
        rw [List.map_cons, ih _ h1]
      | null | bool | num | str | arr => cases h
  have key : ∀ ps, getProofs (JObj.at doc "proof") = some ps →
      (if isDataIntegrity ps = true then o.dataIntegrity (o.contexts doc)
        else match o.checker with
        | none => false
        | some k => verifyObject env k o.dropRDF none (o.contexts doc)) = true →
      (((∃ p rest, ps = p :: rest ∧ get? p "type" = some (.str "DataIntegrityProof")) ∧
          o.dataIntegrity (o.contexts doc) = true) ∨
        ∃ k prfs, o.checker = some k ∧ env.readProofs (o.contexts doc) = some prfs ∧
          ∀ p ∈ prfs, ProofGood env k o.dropRDF none (o.contexts doc) p) := by
    intro ps _ h
    split at h
    · rename_i hd
      left
      refine ⟨?_, h⟩
      cases ps with
      | nil => cases hd
      | cons p rest =>
        refine ⟨p, rest, rfl, ?_⟩
        unfold isDataIntegrity at hd
        dsimp only at hd
        split at hd
        · rename_i t ht
          simp only [beq_iff_eq] at hd
          rw [ht, hd]
        · cases hd
    · right
      split at h
      · cases h
      · rename_i k hk
        obtain ⟨prfs, h1, h2⟩ := every_proof_checked env h
        exact ⟨k, prfs, hk, h1, h2⟩
  cases hat : JObj.at doc "proof" with
  | null => rw [hat] at h; cases h
  | obj p =>
    have hg : get? doc "proof" = some (.obj p) := by
      unfold JObj.at at hat
      cases hq : get? doc "proof" with
      | none => rw [hq] at hat; cases hat
      | some j => rw [hq] at hat; simp only [Option.getD_some] at hat; rw [hat]
    rw [hat] at h
    refine ⟨[p], .inr ⟨p, rfl, hg⟩, key [p] (by rw [hat]; rfl) ?_⟩
    exact h
  | arr l =>
    have hg : get? doc "proof" = some (.arr l) := by
      unfold JObj.at at hat
      cases hq : get? doc "proof" with
      | none => rw [hq] at hat; cases hat
      | some j => rw [hq] at hat; simp only [Option.getD_some] at hat; rw [hat]
    rw [hat] at h
    dsimp only at h
    unfold getProofs at h
    dsimp only at h
    cases ho : objs l with
    | none => rw [ho] at h; cases h
    | some ps =>
      rw [ho] at h
      refine ⟨ps, .inl (by rw [hg, hobjs l ps ho]), key ps (by rw [hat]; exact ho) ?_⟩
      exact h
  | bool | num | str => rw [hat] at h; cases h

end VC.LDP
