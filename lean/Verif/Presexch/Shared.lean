import Verif.Presexch.EndToEndLimit
import Verif.Presexch.ApplyState
/-!
# presexch: `CreateVP` on shared credentials (model, C125)

The holder's credentials are pointers.  Limiting an SD-JWT credential replaces the disclosures of the
credential itself (`SetSDJWTDisclosures`), so the next descriptor sees, and the presentation finally
contains, what is left.  Here the credentials are cells of a heap, the filters run on what the cells
hold at the time, and the presentation reads the cells at the end.

The list of credentials holds different pointers (a wallet that lists one pointer twice is not
modelled).  A failing call reports no heap of its own: what it has changed up to then is in C99.
-/

namespace VC.PE

/-! ## Filters on pointers

The same filters as in `Constraints.lean`, on things `b` that show a credential `v b`. -/

section
variable {β : Type}

/-- `filterFormat`, definition.go:1758-1821, on pointers. -/
def filterFormatV (v : β → Cred) (fold : String → String) (f : Format) (bs : List β) : String × List β :=
  let ldp := bs.filter (fun b => credByProof (v b) f.ldp)
  let ldpVC := bs.filter (fun b => credByProof (v b) f.ldpVC)
  let ldpVP := bs.filter (fun b => credByProof (v b) f.ldpVP)
  let jwt := bs.filter (fun b => credByAlg fold (v b) f.jwt)
  let jwtVC := bs.filter (fun b => credByAlg fold (v b) f.jwtVC)
  let jwtVP := bs.filter (fun b => credByAlg fold (v b) f.jwtVP)
  if !ldp.isEmpty then ("ldp", ldp)
  else if !ldpVC.isEmpty then ("ldp_vc", ldpVC)
  else if !ldpVP.isEmpty then ("ldp_vp", ldpVP)
  else if !jwt.isEmpty then ("jwt", jwt)
  else if !jwtVC.isEmpty then ("jwt_vc", jwtVC)
  else if !jwtVP.isEmpty then ("jwt_vp", jwtVP)
  else ("", [])

/-- `filterSchema`, definition.go:1852-1904, on pointers. -/
def filterSchemaV (v : β → Cred) (load : String → Option (String → List String)) (schemas : List Schema) :
    List β → Option (List β)
  | [] => some []
  | b :: bs =>
    match schemaIDs load (v b).types (v b).contexts with
    | none => none
    | some sat => (filterSchemaV v load schemas bs).map
        (fun r => if schemaLoop sat schemas false then b :: r else r)

/-- The loop over the credentials, definition.go:958-1018, on pointers. -/
def filterLoopV (one : β → FilterOut Bool) : List β → FilterOut (List β)
  | [] => .ok []
  | b :: bs =>
    match one b with
    | .error => .error
    | .panic => .panic
    | .ok x =>
      match filterLoopV one bs with
      | .ok r => .ok (if x then b :: r else r)
      | .error => .error
      | .panic => .panic

/-- `filterConstraints`, definition.go:939-1021, on pointers. -/
def filterConstraintsV (v : β → Cred) (E : PEnv) (k : Option Constraints) (bs : List β) : FilterOut (List β) :=
  match k with
  | none => .ok bs
  | some k => filterLoopV (fun b => constraintsOne E k (v b)) bs

/-- `filterCredentialsThatMatchDescriptor`, definition.go:841-872, on pointers. -/
def filterDescriptorV (v : β → Cred) (E : MEnv) (pdFormat : Option Format) (d : MDesc) (bs : List β) :
    FilterOut (String × List β) :=
  let r := match effFormat pdFormat d.format with
    | some f => filterFormatV v E.fold f bs
    | none => ("", bs)
  match (match d.schema with | none => some r.2 | some ss => filterSchemaV v E.load ss r.2) with
  | none => .error
  | some bs2 =>
    match filterConstraintsV v E.toPEnv d.constraints bs2 with
    | .ok bs3 => .ok (r.1, bs3)
    | .error => .error
    | .panic => .panic

end

/-! ## Limited disclosure in place -/

/-- What is put into the presentation for a credential: the pointer, or a new credential. -/
inductive SentCred where
  | ptr (p : Nat)
  | fresh (c : Cred)

/-- `limitDisclosure` for the credential at `p`, definition.go:1028-1125: the SD-JWT case writes to the
cell (definition.go:1112-1122, credential.go:1050-1058). -/
def limitOneS (H : HolderEnv) (tmp : String → String) (k : Option Constraints) (h : List Cred) (p : Nat) (c : Cred) :
    Option (Option (String × SentCred) × List Cred) :=
  match k with
  | none => some (some (c.id, .ptr p), h)
  | some k =>
    let predicate := k.fields.any Field.predicateReq
    if k.limitReq && !(predicate || (c.isSDJWT || c.hasBBS) || subjectIsIssuer c) then some (none, h)
    else if (k.limitReq || predicate) && !c.isSDJWT then
      match H.derive k c with
      | none => none
      | some c' => some (some (tmp c.id, .fresh c'), h)
    else if k.limitReq && c.isSDJWT then
      match H.restrict k c with
      | none => none
      | some c' => some (some (c.id, .ptr p), h.set p c')
    else some (some (c.id, .ptr p), h)

/-- `limitDisclosure`, definition.go:1024-1129, on the pointers that passed and what they held. -/
def limitS (H : HolderEnv) : (tmp : Nat → String → String) → (k : Option Constraints) → List Cred →
    List (Cred × Nat) → Option (List (String × SentCred) × List Cred)
  | _, _, h, [] => some ([], h)
  | tmp, k, h, b :: bs =>
    match limitOneS H (tmp 0) k h b.2 b.1 with
    | none => none
    | some (r, h') => (limitS H (fun n => tmp (n + 1)) k h' bs).map
        (fun q => (match r with | none => q.1 | some w => w :: q.1, q.2))

/-- Evaluating a descriptor on the credentials as they now are, definition.go:786-796. -/
def evalDescS (H : HolderEnv) (pd : Definition) (h : List Cred) (id : String) :
    Except Fail ((String × List (String × SentCred)) × List Cred) :=
  match pd.descs.find? (fun d => d.id == id) with
  | none => .error .panic
  | some d =>
    match filterDescriptorV Prod.fst H.toMEnv pd.format d.toM h.zipIdx with
    | .error => .error .error
    | .panic => .error .panic
    | .ok (f, bs) =>
      match limitS H (H.tmp d.id) d.constraints h bs with
      | none => .error .error
      | some (ws, h') => .ok ((f, ws), h')

/-- `presentationData` without `ValidateSchema`, definition.go:540-573, and the credentials as they are
left. -/
def presentationDataS (H : HolderEnv) (dflt : String) (pd : Definition) (creds : List Cred) :
    Option (Outcome Fail (String × GoMap (List (String × SentCred))) × List Cred) :=
  solveDefinitionS (evalDescS H pd) dflt pd.reqs (pd.descs.map FDesc.toDesc) creds

/-- What a pointer shows. -/
def SentCred.now (h : List Cred) : SentCred → Cred
  | .ptr p => h.getD p ⟨"", [], [], none, [], false, none, [], false, false, none⟩
  | .fresh c => c

/-- `merge` on pointers, definition.go:561; the presentation shows the credentials as they are then. -/
def mergedOfS (H : HolderEnv) (sep : Bool) (fmt : String) (h : List Cred) (m : GoMap (List (String × SentCred))) :
    List Cred × List MapOut :=
  let st := merge (fun s => (SentCred.now h s).isJWT) sep fmt m (H.sortKeys (GoMap.keys m))
  (st.result.map (SentCred.now h), H.sortMaps st.out)

/-- `CreateVP`, definition.go:480-506, and the holder's credentials after a successful call. -/
def createVPS (H : HolderEnv) (dflt : String) (pd : Definition) (creds : List Cred) :
    CreateOut (Created × List MapOut × List Cred) :=
  match presentationDataS H dflt pd creds with
  | some (.ok (fmt, m), h) =>
    match makePresentation (H.uuid 0) (mergedOfS H false fmt h m).1 with
    | none => .error
    | some vp => .ok (vp, (mergedOfS H false fmt h m).2, h)
  | some (.noCredentials, _) => .noCredentials
  | some (.fail .error, _) => .error
  | none => .error
  | _ => .panic

/-- `CreateVPArray`, definition.go:510-538. -/
def createVPArrayS (H : HolderEnv) (dflt : String) (pd : Definition) (creds : List Cred) :
    CreateOut (List Created × List MapOut × List Cred) :=
  match presentationDataS H dflt pd creds with
  | some (.ok (fmt, m), h) =>
    match makeEach H 0 (mergedOfS H true fmt h m).1 with
    | none => .error
    | some vps => .ok (vps, (mergedOfS H true fmt h m).2, h)
  | some (.noCredentials, _) => .noCredentials
  | some (.fail .error, _) => .error
  | none => .error
  | _ => .panic

/-! ## Specification -/

/-- What restricting leaves of a credential, in any number of steps. -/
inductive Restricts (H : HolderEnv) : Cred → Cred → Prop
  | refl (c : Cred) : Restricts H c c
  | step {c c' w : Cred} (k : Constraints) : Restricts H c c' → c'.isSDJWT = true → k.limitReq = true →
      H.restrict k c' = some w → Restricts H c w

/-- What was done with the credential at `p` for a descriptor that sent it: it was restricted for that
descriptor at some time, from `c` to `w`, and the presentation shows what is left of `w`. -/
structure RestrictedFor (H : HolderEnv) (k : Constraints) (before after : List Cred) (p : Nat) (c w : Cred) : Prop where
  wallet : ∃ c₀, before[p]? = some c₀ ∧ Restricts H c₀ c
  restricted : H.restrict k c = some w
  shown : ∃ c₁, after[p]? = some c₁ ∧ Restricts H w c₁

/-! ## Proofs: the filters on pointers are the filters -/

section
variable {β : Type} (v : β → Cred)

theorem filterFormatV_map (fold : String → String) (f : Format) (bs : List β) :
    filterFormat fold f (bs.map v) = ((filterFormatV v fold f bs).1, (filterFormatV v fold f bs).2.map v) := by
  have hf : ∀ q : Cred → Bool, (bs.map v).filter q = (bs.filter (fun b => q (v b))).map v := by
    intro q; rw [List.filter_map]; rfl
  have hn : ∀ l : List β, l.map v ≠ [] ↔ (!l.isEmpty) = true := by intro l; cases l <;> simp
  unfold filterFormat filterFormatV
  simp only [hf, hn]
  split_ifs <;> rfl

theorem filterSchemaV_map (load : String → Option (String → List String)) (ss : List Schema) :
    ∀ bs : List β, filterSchema load ss (bs.map v) = (filterSchemaV v load ss bs).map (List.map v)
  | [] => rfl
  | b :: bs => by
    simp only [List.map_cons, filterSchema, filterSchemaV]
    cases schemaIDs load (v b).types (v b).contexts with
    | none => rfl
    | some sat =>
      dsimp only
      rw [filterSchemaV_map load ss bs]
      cases filterSchemaV v load ss bs with
      | none => rfl
      | some r =>
        dsimp only [Option.map_some]
        split_ifs <;> rfl

/-- The result of a filter under a map. -/
def FilterOut.map {γ δ : Type} (g : γ → δ) : FilterOut γ → FilterOut δ
  | .ok x => .ok (g x)
  | .error => .error
  | .panic => .panic

theorem filterLoopV_map (one : Cred → FilterOut Bool) :
    ∀ bs : List β, filterLoop one (bs.map v) = (filterLoopV (fun b => one (v b)) bs).map (List.map v)
  | [] => rfl
  | b :: bs => by
    simp only [List.map_cons, filterLoop, filterLoopV]
    cases one (v b) with
    | error => rfl
    | panic => rfl
    | ok x =>
      dsimp only
      rw [filterLoopV_map one bs]
      cases filterLoopV (fun b => one (v b)) bs with
      | error => rfl
      | panic => rfl
      | ok r =>
        dsimp only [FilterOut.map]
        split_ifs <;> rfl

/-- The filter on pointers keeps those whose credentials the filter keeps. -/
theorem filterDescriptorV_map (E : MEnv) (pf : Option Format) (d : MDesc) (bs : List β) :
    filterDescriptor E pf d (bs.map v) =
      (filterDescriptorV v E pf d bs).map (fun r => (r.1, r.2.map v)) := by
  unfold filterDescriptor filterDescriptorV
  dsimp only
  have key : ∀ (r : String × List β), 
      (match (match d.schema with | none => some (r.2.map v) | some ss => filterSchema E.load ss (r.2.map v)) with
        | none => FilterOut.error
        | some cs2 =>
          match filterConstraints E.toPEnv d.constraints cs2 with
          | .ok cs3 => .ok (r.1, cs3)
          | .error => .error
          | .panic => .panic) =
      (match (match d.schema with | none => some r.2 | some ss => filterSchemaV v E.load ss r.2) with
        | none => FilterOut.error
        | some bs2 =>
          match filterConstraintsV v E.toPEnv d.constraints bs2 with
          | .ok bs3 => .ok (r.1, bs3)
          | .error => .error
          | .panic => .panic).map (fun (r : String × List β) => (r.1, r.2.map v)) := by
    intro r
    have h2 : ∀ bs2 : List β, 
        (match filterConstraints E.toPEnv d.constraints (bs2.map v) with
          | .ok cs3 => FilterOut.ok (r.1, cs3)
          | .error => .error
          | .panic => .panic) =
        (match filterConstraintsV v E.toPEnv d.constraints bs2 with
          | .ok bs3 => FilterOut.ok (r.1, bs3)
          | .error => .error
          | .panic => .panic).map (fun (r : String × List β) => (r.1, r.2.map v)) := by
      intro bs2
      unfold filterConstraints filterConstraintsV
      cases d.constraints with
      | none => rfl
      | some k =>
        dsimp only
        rw [filterLoopV_map v (constraintsOne E.toPEnv k) bs2]
        cases filterLoopV (fun b => constraintsOne E.toPEnv k (v b)) bs2 <;> rfl
    cases d.schema with
    | none => exact h2 r.2
    | some ss =>
      dsimp only
      rw [filterSchemaV_map]
      cases filterSchemaV v E.load ss r.2 with
      | none => rfl
      | some bs2 => exact h2 bs2
  cases effFormat pf d.format with
  | none => exact key ("", bs)
  | some f =>
    dsimp only
    rw [filterFormatV_map v E.fold f bs]
    exact key _

theorem filterFormatV_sub (fold : String → String) (f : Format) (bs : List β) :
    (filterFormatV v fold f bs).2.Sublist bs := by
  unfold filterFormatV
  dsimp only
  split_ifs
  all_goals first | exact List.filter_sublist | exact List.nil_sublist _

theorem filterSchemaV_sub (load : String → Option (String → List String)) (ss : List Schema) :
    ∀ (bs r : List β), filterSchemaV v load ss bs = some r → r.Sublist bs
  | [], r, h => by cases h; exact List.Sublist.refl _
  | b :: bs, r, h => by
    simp only [filterSchemaV] at h
    split at h
    · cases h
    · obtain ⟨q, hq, rfl⟩ := Option.map_eq_some_iff.mp h
      have := filterSchemaV_sub load ss bs q hq
      split_ifs
      · exact this.cons_cons b
      · exact this.cons b

theorem filterLoopV_sub (one : β → FilterOut Bool) :
    ∀ (bs r : List β), filterLoopV one bs = .ok r → r.Sublist bs
  | [], r, h => by cases h; exact List.Sublist.refl _
  | b :: bs, r, h => by
    simp only [filterLoopV] at h
    split at h
    · cases h
    · cases h
    · split at h
      · rename_i q hq
        cases h
        have := filterLoopV_sub one bs q hq
        split_ifs
        · exact this.cons_cons b
        · exact this.cons b
      · cases h
      · cases h

/-- The filter picks some of the pointers, each at most once. -/
theorem filterDescriptorV_sub {E : MEnv} {pf : Option Format} {d : MDesc} {bs r : List β} {f : String}
    (h : filterDescriptorV v E pf d bs = .ok (f, r)) : r.Sublist bs := by
  unfold filterDescriptorV at h
  dsimp only at h
  split at h
  · cases h
  · rename_i bs2 h2
    split at h
    · rename_i bs3 h3
      have e3 : bs3 = r := by cases h; rfl
      subst e3
      have a3 : bs3.Sublist bs2 := by
        unfold filterConstraintsV at h3
        split at h3
        · cases h3; exact List.Sublist.refl _
        · exact filterLoopV_sub _ _ _ h3
      refine a3.trans ?_
      have a1 : ∀ q : String × List β, q.2.Sublist bs → 
          (match d.schema with | none => some q.2 | some ss => filterSchemaV v E.load ss q.2) = some bs2 →
          bs2.Sublist bs := by
        intro q hq h2
        split at h2
        · cases h2; exact hq
        · exact (filterSchemaV_sub v _ _ _ _ h2).trans hq
      refine a1 _ ?_ h2
      split
      · exact filterFormatV_sub v _ _ _
      · exact List.Sublist.refl _
    · cases h
    · cases h

end

end VC.PE
