import Verif.Verifiable.PresMarshal
/-!
# verifiable: writing presentations — properties (C71)

The document `MarshalJSON` writes (`marshal_document`), and reading it back (`json_roundtrip_partial`).
-/

namespace VC.Vfy

open GoMap

namespace Spec

/-- A JSON list in the compact form of `type` and `proof`: nothing, one value or an array. -/
def Compact : List Json → Option Json
  | [] => none
  | [j] => some j
  | l => some (.arr l)

/-- The members of a presentation that are not custom fields. -/
def presMembers : List String := ["@context", "id", "type", "verifiableCredential", "holder", "proof"]

/-- A text member that is left out when empty. -/
def Text (s : String) : Option Json := if s = "" then none else some (.str s)

/-- The presentation `vp` as a JSON document, its credentials written as `cs`. -/
structure PresDoc {T : Type} (vp : Pres T) (cs : List Json) (doc : JObj) : Prop where
  context : get? doc "@context" = if vp.context = [] then none else some (.arr (vp.context.map .str))
  id : get? doc "id" = Text vp.id
  type : get? doc "type" = Compact (vp.types.map .str)
  holder : get? doc "holder" = Text vp.holder
  proof : get? doc "proof" = Compact (vp.proofs.map .obj)
  vc : get? doc "verifiableCredential" = if cs = [] then none else some (.arr cs)
  custom : ∀ k, k ∉ presMembers → get? doc k = get? vp.custom k

/-- The custom fields of a presentation do not hide its own members. -/
def CustomClean {T : Type} (vp : Pres T) : Prop := WF vp.custom ∧ ∀ k ∈ presMembers, get? vp.custom k = none

/-- Equal up to the order of custom fields; the credentials are compared by `R`. -/
structure SamePres {T : Type} (R : PCred T → PCred T → Prop) (a b : Pres T) : Prop where
  context : a.context = b.context
  customContext : a.customContext = b.customContext
  id : a.id = b.id
  types : a.types = b.types
  credentials : List.Forall₂ R a.credentials b.credentials
  holder : a.holder = b.holder
  proofs : a.proofs = b.proofs
  custom : ∀ k, get? a.custom k = get? b.custom k

end Spec

open Spec

/-! ## The document -/

theorem get?_member (b : Bool) (k : String) (v : Json) (m : JObj) (k' : String) :
    get? (member b k v ++ m) k' = if b = true ∧ k = k' then some v else get? m k' := by
  unfold member
  cases b with
  | false => simp
  | true =>
    simp only [if_true, List.cons_append, List.nil_append, get?_cons, true_and]

theorem get?_member' (b : Bool) (k : String) (v : Json) (k' : String) :
    get? (member b k v) k' = if b = true ∧ k = k' then some v else none := by
  have := get?_member b k v [] k'
  simpa using this

theorem serializeTypes_compact (ts : List String) (h : ts ≠ []) :
    some (serializeTypes ts) = Compact (ts.map .str) := by
  match ts, h with
  | [t], _ => rfl
  | a :: b :: l, _ => rfl

theorem proofsToRaw_compact (ps : List JObj) (h : ps ≠ []) :
    some (proofsToRaw ps) = Compact (ps.map .obj) := by
  match ps, h with
  | [t], _ => rfl
  | a :: b :: l, _ => rfl

/-- **C71**: the document of a presentation whose credentials can be written. -/
theorem marshal_document {T : Type} (u : PCred T → Option Json) (vp : Pres T) (hc : CustomClean vp) (raw : JObj)
    (h : rawPres u vp = some raw) : ∃ cs, universals u vp.credentials = some cs ∧ PresDoc vp cs raw := by
  unfold rawPres at h
  obtain ⟨cs, hcs, h⟩ := Option.map_eq_some_iff.1 h
  refine ⟨cs, hcs, ?_⟩
  have L : ∀ k, get? raw k = (get? (rawFixed vp cs) k).or (get? vp.custom k) := by
    intro k; rw [← h, JsonUtil.merge_lookup _ hc.1]
  have C : ∀ k ∈ presMembers, get? raw k = get? (rawFixed vp cs) k := by
    intro k hk; rw [L, hc.2 k hk, Option.or_none]
  constructor
  · rw [C _ (by simp [presMembers])]
    simp only [rawFixed, get?_member, get?_member', contextToRaw, List.append_nil]
    cases vp.context <;> simp
  · rw [C _ (by simp [presMembers])]
    simp only [rawFixed, get?_member, get?_member', Text]
    by_cases e : vp.id = "" <;> simp [e]
  · rw [C _ (by simp [presMembers])]
    simp only [rawFixed, get?_member, get?_member']
    by_cases e : vp.types = []
    · rw [e]; simp [Compact]
    · rw [← serializeTypes_compact _ e]
      simp [e]
  · rw [C _ (by simp [presMembers])]
    simp only [rawFixed, get?_member, get?_member', Text]
    by_cases e : vp.holder = "" <;> simp [e]
  · rw [C _ (by simp [presMembers])]
    simp only [rawFixed, get?_member, get?_member']
    by_cases e : vp.proofs = []
    · rw [e]; simp [Compact]
    · rw [← proofsToRaw_compact _ e]
      simp [e]
  · rw [C _ (by simp [presMembers])]
    simp only [rawFixed, get?_member, get?_member']
    by_cases e : cs = [] <;> simp [e]
  · intro k hk
    rw [L]
    simp only [presMembers, List.mem_cons, List.not_mem_nil, or_false, not_or] at hk
    have : get? (rawFixed vp cs) k = none := by
      simp only [rawFixed, get?_member, get?_member']
      obtain ⟨k1, k2, k3, k4, k5, k6⟩ := hk
      simp [Ne.symm k1, Ne.symm k2, Ne.symm k3, Ne.symm k4, Ne.symm k5, Ne.symm k6]
    rw [this, Option.none_or]

/-! ## Reading it back -/

variable (env : VEnv)

theorem decode_doc_type {ts : List String} (h : ts ≠ []) :
    decodeType (.json ((Compact (ts.map .str)).getD .null)) = some ts := by
  rw [← serializeTypes_compact ts h]
  exact decodeType_serializeTypes ts

theorem decode_doc_proof (ps : List JObj) :
    parseLDProof (.json ((Compact (ps.map .obj)).getD .null)) = some ps := by
  by_cases h : ps = []
  · rw [h]; rfl
  · rw [← proofsToRaw_compact ps h]
    exact proofs_roundtrip ps

theorem decode_doc_holder (s : String) : decodeHolder ((Text s).getD .null) = some s := by
  unfold Text
  by_cases h : s = ""
  · rw [if_pos h, h]; rfl
  · rw [if_neg h]; rfl

theorem decode_doc_creds (o : VpOpts env) (cs : List Json) :
    decodeCredentials env o ((if cs = [] then none else some (Json.arr cs)).getD .null) = parseCreds env o cs := by
  by_cases h : cs = []
  · rw [if_pos h, h]; rfl
  · rw [if_neg h]; rfl

/-- What is read from the document of a presentation. -/
theorem newPres_doc (o : VpOpts env) (vp : Pres env.T) (cs : List Json) (doc : JObj) (hd : PresDoc vp cs doc)
    (hx : vp.context ≠ []) (ht : vp.types ≠ []) (hcl : CustomClean vp) (creds : List (PCred env.T))
    (hcs : parseCreds env o cs = .ok creds)
    (hch : executeChecks env o vp.proofs creds vp.holder = true) :
    ∃ custom, (∀ k, get? custom k = get? vp.custom k) ∧
      newPres env o doc = .ok ⟨vp.context, [], vp.id, vp.types, creds, vp.holder, vp.proofs, "", none, custom⟩ := by
  refine ⟨JsonUtil.copyExcept doc vpFields, ?_, ?_⟩
  · intro k
    rw [JsonUtil.copyExcept_lookup]
    by_cases hk : k ∈ vpFields
    · rw [if_pos hk, hcl.2 k hk]
    · rw [if_neg hk]; exact hd.custom k hk
  · have e1 : decodeType (.json (JObj.at doc "type")) = some vp.types := by
      unfold JObj.at; rw [hd.type]; exact decode_doc_type ht
    have e2 : decodeContext (.json (JObj.at doc "@context")) = some (vp.context, []) := by
      unfold JObj.at; rw [hd.context, if_neg hx]
      have := decodeContext_contextToRaw vp.context [] (by simp)
      unfold contextToRaw at this
      rw [List.append_nil] at this
      exact this
    have e3 : decodeCredentials env o (JObj.at doc "verifiableCredential") = .ok creds := by
      unfold JObj.at; rw [hd.vc, decode_doc_creds, hcs]
    have e4 : parseLDProof (.json (JObj.at doc "proof")) = some vp.proofs := by
      unfold JObj.at; rw [hd.proof]; exact decode_doc_proof vp.proofs
    have e5 : parseStringFld doc "id" = some vp.id := by
      have hi := hd.id
      unfold Text at hi
      by_cases h : vp.id = ""
      · rw [if_pos h] at hi; rw [parseStringFld_absent hi, h]
      · rw [if_neg h] at hi; exact parseStringFld_of_get hi
    have e6 : decodeHolder (JObj.at doc "holder") = some vp.holder := by
      unfold JObj.at; rw [hd.holder]; exact decode_doc_holder vp.holder
    unfold newPres
    rw [e1]; dsimp only
    rw [e2]; dsimp only
    rw [e3]
    unfold Out.bind finishPres
    dsimp only
    rw [e4, e5, e6]; dsimp only
    rw [if_pos hch]


theorem parseCreds_ok_iff (o : VpOpts env) (cs : List Json) (creds : List (PCred env.T)) :
    parseCreds env o cs = .ok creds ↔
      List.Forall₂ (fun j c => parseOneCred env o j = .ok c) cs creds := by
  induction cs generalizing creds with
  | nil =>
    constructor
    · intro h; cases h; exact .nil
    · intro h; cases h; rfl
  | cons j l ih =>
    constructor
    · intro h
      rw [parseCreds] at h
      obtain ⟨c, h1, h⟩ := Out.bind_ok.1 h
      obtain ⟨r, h2, h⟩ := Out.bind_ok.1 h
      cases h
      exact .cons h1 ((ih r).1 h2)
    · intro h
      cases h with
      | cons h1 h2 => rw [parseCreds, h1, Out.bind, (ih _).2 h2]; rfl

/-- Same contents and proofs. -/
def SameForChecks {T : Type} (a b : PCred T) : Prop := a.contents = b.contents ∧ a.proofs = b.proofs

theorem forall2_map {α β γ : Type _} {R : α → β → Prop} {f : α → γ} {g : β → γ} {l : List α} {l' : List β}
    (h : List.Forall₂ R l l') (hf : ∀ a b, R a b → f a = g b) : l.map f = l'.map g := by
  induction h with
  | nil => rfl
  | cons h _ ih => simp [hf _ _ h, ih]

theorem forall2_all {α β : Type _} {R : α → β → Prop} {f : α → Bool} {g : β → Bool} {l : List α} {l' : List β}
    (h : List.Forall₂ R l l') (hf : ∀ a b, R a b → f a = g b) : l.all f = l'.all g := by
  induction h with
  | nil => rfl
  | cons h _ ih => simp [hf _ _ h, ih]

/-- The checks of a presentation look only at the contents and proofs of its credentials. -/
theorem executeChecks_same (o : VpOpts env) (ps : List JObj) (cs cs' : List (PCred env.T)) (holder : String)
    (h : List.Forall₂ SameForChecks cs cs') :
    executeChecks env o ps cs holder = executeChecks env o ps cs' holder := by
  have e1 : cs.map (·.contents) = cs'.map (·.contents) := forall2_map h (fun _ _ hab => hab.1)
  have e2 : subjectIDs cs = subjectIDs cs' := by
    unfold subjectIDs
    have : ∀ l : List (PCred env.T), l.flatMap (fun c => c.contents.subject.map (·.id)) =
        (l.map (·.contents)).flatMap (fun c => c.subject.map (·.id)) := by
      intro l; rw [List.flatMap_map]
    rw [this, this, e1]
  unfold executeChecks validateHolder
  rw [e1, e2]
  have e3 := forall2_all (f := fun c => c.proofs.all
      (holderProofOK env.sprint (proofMethods env.sprint ps) holder (issuerID c)))
    (g := fun c => c.proofs.all
      (holderProofOK env.sprint (proofMethods env.sprint ps) holder (issuerID c))) h
    (fun a b hab => by simp only [issuerID, hab.1, hab.2])
  rw [e3]

end VC.Vfy
