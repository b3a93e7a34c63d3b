import Verif.Verifiable.PresentationExamples
import Verif.Verifiable.DataURL
/-!
# verifiable: an accepted presentation mirrors its document (C74)

`presentation_mirrors`: whatever `ParsePresentation` returns is, member by member, the document the
input carries; that document passed the schema of its own data model and the JSON-LD check the options
ask for. `newPres_iff` is the exact condition for the part after the parsers.
-/

namespace VC.Vfy

open GoMap

namespace Spec

/-- The `@context` member: the leading strings and the rest. -/
def ContextMember (raw : JObj) (names : List String) (rest : List Json) : Prop :=
  (∃ s, get? raw "@context" = some (.str s) ∧ names = [s] ∧ rest = []) ∨
  (get? raw "@context" = some (.arr (names.map .str ++ rest)) ∧ ∀ s, rest.head? ≠ some (.str s))

/-- The `type` member: a string or an array of strings. -/
def TypeMember (raw : JObj) (ts : List String) : Prop :=
  (∃ s, get? raw "type" = some (.str s) ∧ ts = [s]) ∨ get? raw "type" = some (.arr (ts.map .str))

/-- The `holder` member: a string or an object with a string `id`. -/
def HolderMember (raw : JObj) (h : String) : Prop :=
  Claim raw "holder" h ∨ ∃ o, get? raw "holder" = some (.obj o) ∧ Claim o "id" h

/-- The `proof` member, if any: an object or an array of objects. -/
def ProofsMember (raw : JObj) (ps : List JObj) : Prop :=
  ((get? raw "proof" = none ∨ get? raw "proof" = some .null) ∧ ps = []) ∨ ProofMember raw ps

/-- The fields of the presentation, other than the credentials, are the members of the document; all other members
are custom fields. -/
structure Mirrors {T : Type} (raw : JObj) (vp : Pres T) : Prop where
  context : ContextMember raw vp.context vp.customContext
  id : Claim raw "id" vp.id
  types : TypeMember raw vp.types
  holder : HolderMember raw vp.holder
  proofs : ProofsMember raw vp.proofs
  custom : ∀ k, get? vp.custom k =
    if k ∈ ["@context", "id", "type", "holder", "proof", "verifiableCredential"] then none else get? raw k

variable (env : VEnv)

/-- The document passed the schema of its data model and, unless switched off, the JSON-LD check. -/
def Validated (o : VpOpts env) (raw : JObj) : Prop :=
  (∃ names rest, ContextMember raw names rest ∧
    ((names.head? = some "https://www.w3.org/2018/credentials/v1" ∧ env.vpSchema1 raw = true) ∨
     (names.head? = some "https://www.w3.org/ns/credentials/v2" ∧ env.vpSchema2 raw = true))) ∧
  (o.disableJSONLD = false → env.vpLdOK o.strict raw = true)

/-- A text carries a presentation document. -/
inductive Carries (d : String) (raw : JObj) (jwt : String) (cwt : Option VpCwt) : Prop
  /-- as a JSON object -/
  | json (h : env.decodeObj d = some raw) (hj : jwt = "") (hw : cwt = none)
  /-- as the payload of a JWS, possibly in quotes -/
  | jws (j : JWT.Jws) (p : JObj) (hd : d = jwt ∨ d = "\"" ++ jwt ++ "\"")
      (hj : env.lib.parseJWS none jwt = some j) (hp : env.payloadObj j.payload = some p)
      (hr : FromClaims p raw) (hw : cwt = none)
  /-- as the payload of an unsecured JWT, possibly in quotes -/
  | unsecured (s : String) (t : JWT.Token × Proof.Bytes) (hd : d = s ∨ d = "\"" ++ s ++ "\"")
      (ht : JWT.parse env.lib none s = .ok t) (hr : FromClaims t.1.payload raw) (hj : jwt = "") (hw : cwt = none)
  /-- as the `vp` claim of a COSE message, raw or in (quoted) hexadecimal -/
  | cose (w : VpCwt)
      (hd : d = w.raw ∨ ∃ s, (d = s ∨ d = "\"" ++ s ++ "\"") ∧ env.hexDecode s = some w.raw)
      (hm : env.parseCOSE w.raw = some w.message) (hv : env.cwtMap w.message.payload = some w.vpMap)
      (hr : get? w.vpMap "vp" = some (.obj raw) ∨ (raw = [] ∧ ∀ o, get? w.vpMap "vp" ≠ some (.obj o)))
      (hj : jwt = "") (hw : cwt = some w)

/-- An input delivers a presentation document: directly, or as the data of the data URL of an envelope. -/
def Delivers (data : String) (raw : JObj) (jwt : String) (cwt : Option VpCwt) : Prop :=
  Carries env data raw jwt cwt ∨
  ∃ doc url media enc d l, env.decodeObj data = some doc ∧ get? doc "id" = some (.str url) ∧
    get? doc "type" = some (.arr l) ∧ Json.str "EnvelopedVerifiablePresentation" ∈ l ∧
    parseDataURL url = some (media, enc, d) ∧ media ∈ ["application/vp-ld+jwt", "application/vp-ld+cose"] ∧
    Carries env d raw jwt cwt

end Spec

open Spec

variable (env : VEnv)

/-! ## Fields -/

theorem at_eq (raw : JObj) (k : String) : JObj.at raw k = (get? raw k).getD .null := rfl

theorem at_some {raw : JObj} {k : String} {j : Json} (hj : j ≠ .null) :
    JObj.at raw k = j ↔ get? raw k = some j := by
  rw [at_eq]
  cases h : get? raw k with
  | none => simp [eq_comm, hj]
  | some x => simp

theorem at_null {raw : JObj} {k : String} :
    JObj.at raw k = .null ↔ get? raw k = none ∨ get? raw k = some .null := by
  rw [at_eq]
  cases h : get? raw k with
  | none => simp
  | some x => simp

theorem stringFld_iff (raw : JObj) (k s : String) : parseStringFld raw k = some s ↔ Claim raw k s := by
  unfold parseStringFld Claim
  split
  · rename_i h
    rw [at_null] at h
    constructor
    · intro e; cases e; exact Or.inr ⟨rfl, h⟩
    · rintro (e | ⟨rfl, -⟩)
      · rcases h with h | h <;> rw [h] at e <;> cases e
      · rfl
  · rename_i t h
    rw [at_some (by simp)] at h
    rw [h]
    constructor
    · intro e; cases e; exact Or.inl rfl
    · rintro (e | ⟨-, e | e⟩)
      · cases e; rfl
      · cases e
      · cases e
  · rename_i h1 h2
    constructor
    · intro e; cases e
    · rintro (e | ⟨-, e⟩)
      · exact absurd ((at_some (by simp)).2 e) (h2 s)
      · exact absurd (at_null.2 e) h1

theorem holder_iff (raw : JObj) (s : String) :
    decodeHolder (JObj.at raw "holder") = some s ↔ HolderMember raw s := by
  unfold HolderMember
  rw [← stringFld_iff]
  unfold parseStringFld
  cases h : JObj.at raw "holder" with
  | null =>
    have h := at_null.1 h
    simp only [decodeHolder]
    constructor
    · exact Or.inl
    · rintro (e | ⟨o, e, -⟩)
      · exact e
      · rcases h with h | h <;> rw [h] at e <;> cases e
  | obj o =>
    have h := (at_some (by simp)).1 h
    simp only [decodeHolder]
    rw [stringFld_iff]
    constructor
    · exact fun e => Or.inr ⟨o, h, e⟩
    · rintro (e | ⟨o', e, hc⟩)
      · cases e
      · rw [h] at e
        rw [Json.obj.inj (Option.some.inj e)]
        exact hc
  | str t =>
    have h := (at_some (by simp)).1 h
    simp only [decodeHolder]
    constructor
    · exact Or.inl
    · rintro (e | ⟨o, e, -⟩)
      · exact e
      · rw [h] at e; cases e
  | bool b =>
    have h := (at_some (by simp)).1 h
    simp [decodeHolder, h]
  | num b =>
    have h := (at_some (by simp)).1 h
    simp [decodeHolder, h]
  | arr b =>
    have h := (at_some (by simp)).1 h
    simp [decodeHolder, h]

theorem type_iff (raw : JObj) (ts : List String) :
    decodeType (.json (JObj.at raw "type")) = some ts ↔ TypeMember raw ts := by
  unfold TypeMember
  cases h : JObj.at raw "type" with
  | null =>
    rcases at_null.1 h with h | h <;> simp [decodeType, h]
  | obj o => simp [decodeType, (at_some (by simp)).1 h]
  | bool o => simp [decodeType, (at_some (by simp)).1 h]
  | num o => simp [decodeType, (at_some (by simp)).1 h]
  | str t =>
    simp only [decodeType, (at_some (by simp)).1 h]
    constructor
    · intro e; cases e; exact Or.inl ⟨t, rfl, rfl⟩
    · rintro (⟨s, e, rfl⟩ | e)
      · cases e; rfl
      · cases e
  | arr l =>
    simp only [decodeType, (at_some (by simp)).1 h]
    rw [stringSlice_iff]
    constructor
    · intro e; right; rw [e]
    · rintro (⟨s, e, rfl⟩ | e)
      · cases e
      · exact Json.arr.inj (Option.some.inj e)

theorem context_iff (raw : JObj) (names : List String) (rest : List Json) :
    decodeContext (.json (JObj.at raw "@context")) = some (names, rest) ↔ ContextMember raw names rest := by
  unfold ContextMember
  cases h : JObj.at raw "@context" with
  | null =>
    rcases at_null.1 h with h | h <;> simp [decodeContext, h]
  | obj o => simp [decodeContext, (at_some (by simp)).1 h]
  | bool o => simp [decodeContext, (at_some (by simp)).1 h]
  | num o => simp [decodeContext, (at_some (by simp)).1 h]
  | str t =>
    simp only [decodeContext, (at_some (by simp)).1 h]
    constructor
    · intro e; cases e; exact Or.inl ⟨t, rfl, rfl, rfl⟩
    · rintro (⟨s, e, rfl, rfl⟩ | ⟨e, -⟩)
      · cases e; rfl
      · cases e
  | arr l =>
    simp only [decodeContext, (at_some (by simp)).1 h]
    constructor
    · intro e
      right
      have hs := splitContext_spec l
      rw [Option.some.inj e] at hs
      refine ⟨by rw [hs.1], ?_⟩
      intro s hh
      cases hr : rest with
      | nil => rw [hr] at hh; cases hh
      | cons a t =>
        rw [hr] at hh
        rw [List.head?_cons] at hh
        have := hs.2 a t hr
        rw [Option.some.inj hh] at this
        exact this s rfl
    · rintro (⟨s, e, rfl, rfl⟩ | ⟨e, he⟩)
      · cases e
      · have e := Json.arr.inj (Option.some.inj e)
        rw [splitContext_unique e.symm]
        intro j tl hr s hs
        exact he s (by rw [hr, hs]; rfl)

theorem ldProofs_iff (l : List Json) (ps : List JObj) : parseLDProofs l = some ps ↔ l = ps.map .obj := by
  induction l generalizing ps with
  | nil => cases ps <;> simp [parseLDProofs]
  | cons v l ih =>
    cases v with
    | obj o =>
      simp only [parseLDProofs, Option.map_eq_some_iff]
      cases ps with
      | nil => simp
      | cons p ps =>
        simp only [List.map_cons, List.cons.injEq, Json.obj.injEq]
        constructor
        · rintro ⟨a, ha, rfl, rfl⟩
          exact ⟨rfl, (ih a).1 ha⟩
        · rintro ⟨rfl, h⟩
          exact ⟨ps, (ih ps).2 h, rfl, rfl⟩
    | null => cases ps <;> simp [parseLDProofs]
    | bool b => cases ps <;> simp [parseLDProofs]
    | num b => cases ps <;> simp [parseLDProofs]
    | str b => cases ps <;> simp [parseLDProofs]
    | arr b => cases ps <;> simp [parseLDProofs]

theorem proofs_iff (raw : JObj) (ps : List JObj) :
    parseLDProof (.json (JObj.at raw "proof")) = some ps ↔ ProofsMember raw ps := by
  unfold ProofsMember ProofMember
  cases h : JObj.at raw "proof" with
  | null =>
    have h := at_null.1 h
    simp only [parseLDProof]
    constructor
    · intro e; cases e; exact Or.inl ⟨h, rfl⟩
    · rintro (⟨-, rfl⟩ | ⟨o, e, -⟩ | e)
      · rfl
      · rcases h with h | h <;> rw [h] at e <;> cases e
      · rcases h with h | h <;> rw [h] at e <;> cases e
  | obj o =>
    simp only [parseLDProof, (at_some (by simp)).1 h]
    constructor
    · intro e; cases e; exact Or.inr (Or.inl ⟨o, rfl, rfl⟩)
    · rintro (⟨e | e, -⟩ | ⟨o', e, rfl⟩ | e)
      · cases e
      · cases e
      · cases e; rfl
      · cases e
  | arr l =>
    simp only [parseLDProof, (at_some (by simp)).1 h]
    rw [ldProofs_iff]
    constructor
    · rintro rfl; exact Or.inr (Or.inr rfl)
    · rintro (⟨e | e, -⟩ | ⟨o', e, rfl⟩ | e)
      · cases e
      · cases e
      · cases e
      · exact Json.arr.inj (Option.some.inj e)
  | bool o => simp [parseLDProof, (at_some (by simp)).1 h]
  | num o => simp [parseLDProof, (at_some (by simp)).1 h]
  | str o => simp [parseLDProof, (at_some (by simp)).1 h]

/-- The fields of a presentation built from a document. -/
theorem newPres_mirrors (o : VpOpts env) (raw : JObj) (vp : Pres env.T) (h : newPres env o raw = .ok vp) :
    Mirrors raw vp := by
  obtain ⟨h1, h2, -, h4, h5, h6, h7, -⟩ := newPres_ok env o raw vp h
  refine ⟨(context_iff _ _ _).1 h2, (stringFld_iff _ _ _).1 h5, (type_iff _ _).1 h1, (holder_iff _ _).1 h6,
    (proofs_iff _ _).1 h4, ?_⟩
  intro k
  rw [h7, JsonUtil.copyExcept_lookup]
  have : k ∈ vpFields ↔ k ∈ ["@context", "id", "type", "holder", "proof", "verifiableCredential"] := by
    simp only [vpFields, List.mem_cons, List.not_mem_nil, or_false]
    constructor
    · rintro (h | h | h | h | h | h) <;> simp [h]
    · rintro (h | h | h | h | h | h) <;> simp [h]
  by_cases hk : k ∈ vpFields
  · rw [if_pos hk, if_pos (this.1 hk)]
  · rw [if_neg hk, if_neg (fun h => hk (this.2 h))]

theorem validateVP_iff (o : VpOpts env) (raw : JObj) : validateVP env o raw = true ↔ Validated env o raw := by
  unfold validateVP Validated
  rw [Bool.and_eq_true]
  have h1 : vpSchemaOK env raw = true ↔ ∃ names rest, ContextMember raw names rest ∧
    ((names.head? = some "https://www.w3.org/2018/credentials/v1" ∧ env.vpSchema1 raw = true) ∨
     (names.head? = some "https://www.w3.org/ns/credentials/v2" ∧ env.vpSchema2 raw = true)) := by
    unfold vpSchemaOK
    constructor
    · intro h
      split at h
      · cases h
      · rename_i c hc
        split at h
        · cases h
        · rename_i cs rest hcs
          split at h
          · cases h
          · rename_i b hb
            refine ⟨cs, rest, (context_iff _ _ _).1 (by rw [at_eq, hc]; exact hcs), ?_⟩
            obtain ⟨k1, k2⟩ := (getBaseContext_iff cs b).1 hb
            split at h
            · rename_i e
              rw [e] at k2
              exact Or.inl ⟨k2, h⟩
            · rename_i e
              rw [List.mem_cons, List.mem_singleton] at k1
              rcases k1 with k1 | k1
              · exact absurd k1 e
              · rw [k1] at k2
                exact Or.inr ⟨k2, h⟩
    · rintro ⟨cs, rest, hc, h⟩
      have hd := (context_iff _ _ _).2 hc
      have hg : ∃ c, get? raw "@context" = some c := by
        rcases hc with ⟨s, e, -⟩ | ⟨e, -⟩
        · exact ⟨_, e⟩
        · exact ⟨_, e⟩
      obtain ⟨c, hg⟩ := hg
      rw [at_eq, hg] at hd
      rw [hg]
      simp only [Option.getD_some] at hd
      simp only [hd]
      rcases h with ⟨e, h⟩ | ⟨e, h⟩
      · rw [(getBaseContext_iff cs v1ContextURI).2 ⟨by simp, e⟩]
        simp only [if_true]
        exact h
      · rw [(getBaseContext_iff cs v2ContextURI).2 ⟨by simp, e⟩]
        simp only
        rw [if_neg (by decide)]
        exact h
  rw [h1]
  have h2 : (o.disableJSONLD || env.vpLdOK o.strict raw) = true ↔
      (o.disableJSONLD = false → env.vpLdOK o.strict raw = true) := by
    cases o.disableJSONLD <;> simp
  rw [h2]

/-! ## Delivery -/

theorem quoted (d : String) : d = unQuote d ∨ d = "\"" ++ unQuote d ++ "\"" := by
  rcases unQuote_cases d with h | h
  · exact Or.inl h.symm
  · exact Or.inr h

theorem decodeVPFromJWS_carries (pc : Option JWT.ProofChecker) (s : String) (raw : JObj)
    (h : decodeVPFromJWS env pc s = .ok raw) :
    ∃ j p, env.lib.parseJWS none s = some j ∧ env.payloadObj j.payload = some p ∧ FromClaims p raw := by
  unfold decodeVPFromJWS at h
  split at h
  · cases h
  · rename_i j hj
    split at h
    · cases h
    · split at h
      · cases h
      · rename_i p hp
        split at h
        · cases h
        · rename_i c hc
          refine ⟨j, p, hj, hp, ?_⟩
          split at h
          · obtain ⟨vp, h1, h2⟩ := Out.bind_ok.1 h
            cases h2
            exact refinePres_ok hc h1
          · split at h
            · cases h
            · obtain ⟨vp, h1, h2⟩ := Out.bind_ok.1 h
              cases h2
              exact refinePres_ok hc h1

theorem parsePresJSON_carries (o : VpOpts env) (d : String) (r : VpParsed) (h : parsePresJSON env o d = .ok r) :
    Carries env d r.raw r.jwt r.cwt := by
  unfold parsePresJSON at h
  split at h
  · unfold parsePresJWS at h
    split at h
    · cases h
    · obtain ⟨raw, h1, h2⟩ := Out.bind_ok.1 h
      cases h2
      obtain ⟨j, p, k1, k2, k3⟩ := decodeVPFromJWS_carries env _ _ _ h1
      exact .jws j p (quoted d) k1 k2 k3 rfl
  · split at h
    · obtain ⟨raw, h1, h2⟩ := Out.bind_ok.1 h
      split at h2
      · cases h2
        unfold decodeVPFromUnsecured at h1
        split at h1
        · cases h1
        · rename_i t ms ht
          unfold decodePresPayload at h1
          split at h1
          · cases h1
          · rename_i c hc
            obtain ⟨vp, h3, h4⟩ := Out.bind_ok.1 h1
            cases h4
            exact .unsecured _ _ (quoted d) ht (refinePres_ok hc h3) rfl rfl
      · cases h2
    · split at h
      · cases h
      · rename_i raw hraw
        split at h
        · cases h
        · split at h
          · cases h
          · cases h
            exact .json hraw rfl rfl

theorem parsePresCWT_carries (d : String) (r : VpParsed) (h : parsePresCWT env d = .ok r) :
    Carries env d r.raw r.jwt r.cwt := by
  unfold parsePresCWT at h
  split at h
  · cases h
  · rename_i raw m ho
    split at h
    · cases h
    · rename_i vm hvm
      cases h
      have hr : get? vm "vp" = some (.obj (vpContent vm)) ∨
          (vpContent vm = [] ∧ ∀ o, get? vm "vp" ≠ some (.obj o)) := by
        unfold vpContent
        split
        · rename_i o' ho'; exact Or.inl ho'
        · rename_i hn; exact Or.inr ⟨rfl, hn⟩
      unfold openPresCOSE at ho
      split at ho
      · rename_i m' hm'
        cases ho
        exact .cose ⟨_, _, _⟩ (Or.inl rfl) hm' hvm hr rfl rfl
      · split at ho
        · cases ho
        · rename_i x hx
          obtain ⟨m', h1, h2⟩ := Option.map_eq_some_iff.1 ho
          cases h2
          exact .cose ⟨_, _, _⟩ (Or.inr ⟨_, quoted d, hx⟩) h1 hvm hr rfl rfl

theorem strElems_mem {l : List Json} {ts : List String} (h : strElems l = some ts) (t : String) (ht : t ≠ "")
    (hm : t ∈ ts) : Json.str t ∈ l := by
  induction l generalizing ts with
  | nil => cases h; cases hm
  | cons j l ih =>
    simp only [strElems, Option.bind_eq_some_iff, Option.map_eq_some_iff] at h
    obtain ⟨s, h1, ts', h2, rfl⟩ := h
    rcases List.mem_cons.1 hm with rfl | hm
    · cases j with
      | null => exact absurd (Option.some.inj h1).symm ht
      | str x => rw [Option.some.inj h1]; exact List.mem_cons_self
      | bool b => cases h1
      | num b => cases h1
      | arr b => cases h1
      | obj b => cases h1
    · exact List.mem_cons_of_mem _ (ih h2 hm)

theorem parsePresAny_delivers (o : VpOpts env) (data : String) (r : VpParsed) (h : parsePresAny env o data = .ok r) :
    Delivers env data r.raw r.jwt r.cwt := by
  unfold parsePresAny at h
  rw [orElseOut_ok, orElseOut_ok] at h
  rcases h with h | ⟨-, h | ⟨-, h⟩⟩
  · right
    unfold parsePresEnveloped at h
    split at h
    · cases h
    · rename_i doc hdoc
      split at h
      · cases h
      · rename_i i ts he
        split at h
        · cases h
        · rename_i hts
          have hts : "EnvelopedVerifiablePresentation" ∈ ts := by simpa using hts
          unfold parsePresURL at h
          split at h
          · cases h
          · rename_i m e d hu
            have hi : get? doc "id" = some (.str i) := by
              unfold decodeEnvelope at he
              split at he
              · rename_i i' t' c' k1 k2 k3
                cases he
                cases hj : JObj.at doc "id" with
                | null =>
                  rw [hj] at k1
                  cases k1
                  cases hu
                | str x =>
                  rw [hj] at k1
                  rw [← Option.some.inj k1]
                  exact (at_some (by simp)).1 hj
                | bool b => rw [hj] at k1; cases k1
                | num b => rw [hj] at k1; cases k1
                | arr b => rw [hj] at k1; cases k1
                | obj b => rw [hj] at k1; cases k1
              · cases he
            have ht : ∃ l, get? doc "type" = some (.arr l) ∧ Json.str "EnvelopedVerifiablePresentation" ∈ l := by
              unfold decodeEnvelope at he
              split at he
              · rename_i i' t' c' k1 k2 k3
                cases he
                cases hj : JObj.at doc "type" with
                | null => rw [hj] at k2; cases k2; cases hts
                | arr l =>
                  rw [hj] at k2
                  exact ⟨l, (at_some (by simp)).1 hj, strElems_mem k2 _ (by decide) hts⟩
                | bool b => rw [hj] at k2; cases k2
                | num b => rw [hj] at k2; cases k2
                | str b => rw [hj] at k2; cases k2
                | obj b => rw [hj] at k2; cases k2
              · cases he
            obtain ⟨l, hl1, hl2⟩ := ht
            split at h
            · rename_i hm
              exact ⟨doc, i, m, e, d, l, hdoc, hi, hl1, hl2, hu, by simp [hm], parsePresJSON_carries env o d r h⟩
            · split at h
              · rename_i hm
                exact ⟨doc, i, m, e, d, l, hdoc, hi, hl1, hl2, hu, by simp [hm], parsePresCWT_carries env d r h⟩
              · cases h
  · exact Or.inl (parsePresJSON_carries env o data r h)
  · exact Or.inl (parsePresCWT_carries env data r h)

theorem forall2_length {α β : Type _} {R : α → β → Prop} {l : List α} {l' : List β} (h : List.Forall₂ R l l') :
    l.length = l'.length := by
  induction h with
  | nil => rfl
  | cons _ _ ih => simp [ih]

/-- **C74**: whatever `ParsePresentation` accepts is, member by member, a document the input delivers,
and that document passed the schema of its data model and the JSON-LD check of the options. -/
theorem presentation_mirrors (o : VpOpts env) (data : String) (vp : Pres env.T)
    (h : parsePresentation env o data = .ok vp) :
    ∃ raw l, Delivers env data raw vp.jwt vp.cwt ∧ Mirrors raw vp ∧ Validated env o raw ∧
      CredentialMembers raw l ∧ vp.credentials.length = l.length ∧
      (o.requireVC = true → vp.credentials ≠ []) := by
  obtain ⟨r, h1, h2, h3, h4, h5, h6⟩ := parsePresentation_ok env o data vp h
  have hm := newPres_mirrors env o r.raw _ h5
  obtain ⟨-, -, k3, -⟩ := newPres_ok env o _ _ h5
  obtain ⟨l, m1, m2⟩ := decodeCredentials_forall env o (fun _ _ => True) (fun _ _ _ => trivial) _ _ k3
  refine ⟨r.raw, l, ?_, ⟨hm.context, hm.id, hm.types, hm.holder, hm.proofs, hm.custom⟩,
    (validateVP_iff env o r.raw).1 h4, m1, forall2_length m2, h6⟩
  rw [h2, h3]
  exact parsePresAny_delivers env o data r h1

/-- **C74**, the other direction for the part after the parsers: a document whose members have these
shapes, whose credentials parse and whose checks succeed is accepted, and nothing else is. -/
theorem newPres_iff (o : VpOpts env) (raw : JObj) (vp : Pres env.T) :
    (∃ p, newPres env o raw = .ok p ∧ p.context = vp.context ∧ p.customContext = vp.customContext ∧ p.id = vp.id ∧
      p.types = vp.types ∧ p.holder = vp.holder ∧ p.proofs = vp.proofs ∧ p.credentials = vp.credentials) ↔
    ContextMember raw vp.context vp.customContext ∧ Claim raw "id" vp.id ∧ TypeMember raw vp.types ∧
    HolderMember raw vp.holder ∧ ProofsMember raw vp.proofs ∧
    decodeCredentials env o (JObj.at raw "verifiableCredential") = .ok vp.credentials ∧
    executeChecks env o vp.proofs vp.credentials vp.holder = true := by
  constructor
  · rintro ⟨p, h, e1, e2, e3, e4, e5, e6, e7⟩
    have hm := newPres_mirrors env o raw p h
    obtain ⟨-, -, k3, -, -, -, -, k8⟩ := newPres_ok env o raw p h
    rw [← e1, ← e2, ← e3, ← e4, ← e5, ← e6, ← e7]
    exact ⟨hm.context, hm.id, hm.types, hm.holder, hm.proofs, k3, k8⟩
  · rintro ⟨h1, h2, h3, h4, h5, h6, h7⟩
    refine ⟨⟨vp.context, vp.customContext, vp.id, vp.types, vp.credentials, vp.holder, vp.proofs, "", none,
      JsonUtil.copyExcept raw vpFields⟩, ?_, rfl, rfl, rfl, rfl, rfl, rfl, rfl⟩
    unfold newPres
    rw [(type_iff _ _).2 h3]; dsimp only
    rw [(context_iff _ _ _).2 h1]; dsimp only
    rw [h6]
    show finishPres env o raw _ _ _ = _
    unfold finishPres
    rw [(proofs_iff _ _).2 h5, (stringFld_iff _ _ _).2 h2, (holder_iff _ _).2 h4]
    dsimp only
    rw [if_pos h7]

set_option maxHeartbeats 4000000 in
/-- The hypothesis of `presentation_mirrors`, with a holder, a proof and a credential. -/
example : ∃ vp, parsePresentation vxEnv vxOpts "{vp-ld}" = .ok vp ∧ vp.holder = "did:ex:a" ∧
    vp.proofs.length = 1 ∧ vp.credentials.length = 1 ∧ vp.context.length = 1 := ⟨_, rfl, rfl, rfl, rfl, rfl⟩

/-- A holder given as an object. -/
example : HolderMember [("holder", .obj [("id", .str "did:ex:a"), ("name", .str "A")])] "did:ex:a" :=
  Or.inr ⟨_, rfl, Or.inl rfl⟩

end VC.Vfy
