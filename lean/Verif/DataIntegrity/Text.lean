import Verif.DataIntegrity.RoundTrip
import Verif.DataIntegrity.Examples
import Verif.Verifiable.ClaimNamesMain
/-!
# dataintegrity: documents as texts (C143)

`VerifyProof` and `AddProof` take bytes.  gjson finds the first member called `proof`, sjson removes or
replaces that one (verifier.go:92-101, signer.go:128), the suite decodes what is left with `encoding/json`
into a map, in which the last member of a name counts (ecdsa2019.go:253, eddsa2022.go), and a proof is
decoded into a struct (verifier.go:119), where a member counts for a field whatever the case of its name.
`Verif.DataIntegrity.Model` starts from a map.  Here a document is the list of its members in order, a
`Json.obj` stands for a member list in which names may repeat, and the two readings are compared.

Simplified: names are unescaped; repetitions inside members other than `proof` are resolved (the suite and
a reader resolve them alike); texts that are not JSON objects are left out.
-/

namespace VC.DI

open VC (Json JObj GoMap NoChar)
open VC.DI.Spec
open VC.Vfy.Nam (foldName Spells StringClaim docMap)

variable (env : Env)

/-! ## Model -/

/-- One struct field of `models.Proof` (models.go:35-47), all strings: `encoding/json` gives the field
every member whose name is the tag or folds to it, in order; null leaves it, a string replaces it, anything
else is an error.  (The decoder's single pass, seen from one field.) -/
def readStr (name : String) : JObj → String → Option String
  | [], old => some old
  | (k, v) :: ms, old =>
    if foldName k == foldName name then
      match v with
      | .null => readStr name ms old
      | .str s => readStr name ms s
      | _ => none
    else readStr name ms old

/-- `json.Unmarshal(proofRaw, &models.Proof{})`, verifier.go:117-122. -/
def readProof : Json → Option Prf
  | .null => some ⟨"", "", "", "", "", "", "", "", "", "", ""⟩
  | .obj m => do
    let id ← readStr "id" m ""
    let type ← readStr "type" m ""
    let cs ← readStr "cryptosuite" m ""
    let pp ← readStr "proofPurpose" m ""
    let vm ← readStr "verificationMethod" m ""
    let cr ← readStr "created" m ""
    let ex ← readStr "expires" m ""
    let dm ← readStr "domain" m ""
    let ch ← readStr "challenge" m ""
    let pv ← readStr "proofValue" m ""
    let pr ← readStr "previousProof" m ""
    some ⟨id, type, cs, pp, vm, cr, ex, dm, ch, pv, pr⟩
  | _ => none

/-- `verifyProof`, verifier.go:112-190, on the proof as it is written.  What follows the decoding is that of
`verifyOne`, on the same `models.Proof` (`parse_marshal`). -/
def verifyOneT (suites : GoMap (Suite env)) (doc : JObj) (raw : Json) (o : Opts env.T) :
    Except Err Unit × Opts env.T :=
  match readProof raw with
  | none => (.error .malformed, o)
  | some p => verifyOne env suites doc (.obj (marshalProof p)) o

/-- The loop of `VerifyProof`, verifier.go:103-107. -/
def verifyLoopT (suites : GoMap (Suite env)) (doc : JObj) : List Json → Opts env.T →
    Except Err Unit × Opts env.T
  | [], o => (.ok (), o)
  | r :: rs, o =>
    match verifyOneT env suites doc r o with
    | (.error e, o') => (.error e, o')
    | (.ok _, o') => verifyLoopT suites doc rs o'

/-- `sjson.DeleteBytes(doc, "proof")`, verifier.go:98: the first member of that name goes. -/
def dropProof : JObj → JObj
  | [] => []
  | e :: ms => if e.1 = "proof" then ms else e :: dropProof ms

/-- `sjson.SetRawBytes(doc, "proof", raw)`, signer.go:128: the value of the first member of that name is
replaced, or a member is added at the end. -/
def putProof (raw : Json) : JObj → JObj
  | [] => [("proof", raw)]
  | e :: ms => if e.1 = "proof" then ("proof", raw) :: ms else e :: putProof raw ms

/-- `Verifier.VerifyProof`, verifier.go:91-110: `gjson.GetBytes` takes the first member, the suites decode
the rest into a map. -/
def verifyText (suites : GoMap (Suite env)) (ms : JObj) (o : Opts env.T) :
    Except Err Unit × Opts env.T :=
  match GoMap.get? ms "proof" with
  | none => (.error .missing, o)
  | some raw => verifyLoopT env suites (docMap (dropProof ms)) (proofArray raw) o

/-- `Signer.AddProof`, signer.go:90-135: the suite decodes the text into a map (with an earlier proof, if
there is one); the proof made is put into the text. -/
def addText (suites : GoMap (Suite env)) (ms : JObj) (o : Opts env.T) : Except Err JObj :=
  match addProof env suites (docMap ms) o with
  | .error e => .error e
  | .ok d =>
    match GoMap.get? d "proof" with
    | some raw => .ok (putProof raw ms)
    | none => .ok ms

/-! ## Specification -/

/-- The members of a proof: their names, with all letters small, and what the proof says. -/
def proofFields (p : Prf) : List (String × String) :=
  [("id", p.id), ("type", p.type), ("cryptosuite", p.cryptosuite), ("proofpurpose", p.purpose),
   ("verificationmethod", p.vm), ("created", p.created), ("expires", p.expires), ("domain", p.domain),
   ("challenge", p.challenge), ("proofvalue", p.value), ("previousproof", p.previous)]

/-- The object `ms`, written with these members in this order, says `p`: each field is the last string given
under its name in any spelling, and nothing but strings and null is given. -/
def SaysProof (ms : JObj) (p : Prf) : Prop :=
  ∀ f ∈ proofFields p, StringClaim ms f.1 f.2 ∧
    ∀ e ∈ ms, Spells e.1 f.1 → e.2 = .null ∨ ∃ s, e.2 = .str s

/-- The names of the members of a proof. -/
def proofNames : List String := ["id", "type", "cryptosuite", "proofPurpose", "verificationMethod", "created",
  "expires", "domain", "challenge", "proofValue", "previousProof"]

/-- A proof written with each name once and no other spelling of a name. -/
def PlainProof (raw : Json) : Prop :=
  ∀ ms, raw = .obj ms → (ms.map Prod.fst).Nodup ∧
    ∀ e ∈ ms, ∀ n ∈ proofNames, foldName e.1 = foldName n → e.1 = n

/-- The text has one member `proof` at most. -/
def OneProof (ms : JObj) : Prop := (ms.filter (fun e => e.1 == "proof")).length ≤ 1

/-! ## Reading one field -/

theorem readStr_append (name : String) (a b : JObj) (s : String) :
    readStr name (a ++ b) s = (readStr name a s).bind (readStr name b) := by
  induction a generalizing s with
  | nil => rfl
  | cons e a ih =>
    obtain ⟨k, v⟩ := e
    simp only [List.cons_append, readStr]
    by_cases h : (foldName k == foldName name) = true
    · rw [if_pos h, if_pos h]
      cases v <;> first | exact ih _ | rfl
    · rw [if_neg h, if_neg h]; exact ih s

/-- A field is read as its specification says. -/
theorem readStr_iff {name low : String} (hn : foldName name = low.toList)
    (hl : ∀ l ∈ low.toList, l.isLower = true) (ms : JObj) (s : String) :
    readStr name ms "" = some s ↔ StringClaim ms low s ∧
      ∀ e ∈ ms, Spells e.1 low → e.2 = .null ∨ ∃ t, e.2 = .str t := by
  have key : ∀ k : String, foldName k = foldName name ↔ Spells k low := by
    intro k; rw [hn]; exact VC.Vfy.Nam.map_fold_iff _ _ hl
  have fwd : ∀ (ms : JObj) (s : String), readStr name ms "" = some s → StringClaim ms low s ∧
      ∀ e ∈ ms, Spells e.1 low → e.2 = .null ∨ ∃ t, e.2 = .str t := by
    intro ms
    induction ms using List.reverseRecOn with
    | nil =>
      intro s h
      cases h
      exact ⟨Or.inr ⟨rfl, fun e he => by cases he⟩, fun e he => by cases he⟩
    | append_singleton ms e ih =>
      intro s h
      rw [readStr_append] at h
      obtain ⟨t, ht, h⟩ := Option.bind_eq_some_iff.1 h
      obtain ⟨h1, h2⟩ := ih t ht
      obtain ⟨k, v⟩ := e
      simp only [readStr] at h
      by_cases hk : foldName k = foldName name
      · rw [if_pos (by simpa using hk)] at h
        have hsp := (key k).1 hk
        have hv : VC.Vfy.Nam.storeStr t v = some s := by
          cases v <;> simp_all [VC.Vfy.Nam.storeStr]
        refine ⟨h1.snoc_same hsp hv, ?_⟩
        intro e he hs
        rcases List.mem_append.1 he with he | he
        · exact h2 e he hs
        · cases List.mem_singleton.1 he
          cases v with
          | null => exact Or.inl rfl
          | str x => exact Or.inr ⟨x, rfl⟩
          | _ => cases hv
      · rw [if_neg (by simpa using hk)] at h
        cases h
        have hsp := fun h => hk ((key k).2 h)
        refine ⟨h1.snoc_other (Or.inl hsp), ?_⟩
        intro e he hs
        rcases List.mem_append.1 he with he | he
        · exact h2 e he hs
        · cases List.mem_singleton.1 he; exact absurd hs hsp
  constructor
  · exact fwd ms s
  · rintro ⟨h1, h2⟩
    have tot : ∀ (ms : JObj) (o : String), (∀ e ∈ ms, Spells e.1 low → e.2 = .null ∨ ∃ t, e.2 = .str t) →
        ∃ t, readStr name ms o = some t := by
      intro ms
      induction ms with
      | nil => intro o _; exact ⟨o, rfl⟩
      | cons e ms ih =>
        intro o h
        obtain ⟨k, v⟩ := e
        have hr := fun e he => h e (List.mem_cons_of_mem _ he)
        simp only [readStr]
        by_cases hk : foldName k = foldName name
        · rw [if_pos (by simpa using hk)]
          rcases h (k, v) (List.mem_cons_self ..) ((key k).1 hk) with hv | ⟨t, hv⟩
          · simp only at hv; subst hv; exact ih o hr
          · simp only at hv; subst hv; exact ih t hr
        · rw [if_neg (by simpa using hk)]; exact ih o hr
    obtain ⟨t, ht⟩ := tot ms "" h2
    rw [ht, VC.Vfy.Nam.stringClaim_unique (fwd ms t ht).1 h1]

/-- The names as they are folded. -/
theorem proofNames_fold : proofNames.map foldName =
    (proofFields ⟨"", "", "", "", "", "", "", "", "", "", ""⟩).map (fun f => f.1.toList) := by
  decide +kernel

theorem proofFields_lower : ∀ f ∈ (proofFields ⟨"", "", "", "", "", "", "", "", "", "", ""⟩).map Prod.fst,
    ∀ l ∈ f.toList, l.isLower = true := by
  decide +kernel

/-- **C143**: a proof is read from its text exactly as `SaysProof` specifies. -/
theorem proof_read_iff (ms : JObj) (p : Prf) : readProof (.obj ms) = some p ↔ SaysProof ms p := by
  have e : readProof (.obj ms) = some p ↔
      (readStr "id" ms "" = some p.id ∧ readStr "type" ms "" = some p.type ∧
       readStr "cryptosuite" ms "" = some p.cryptosuite ∧ readStr "proofPurpose" ms "" = some p.purpose ∧
       readStr "verificationMethod" ms "" = some p.vm ∧ readStr "created" ms "" = some p.created ∧
       readStr "expires" ms "" = some p.expires ∧ readStr "domain" ms "" = some p.domain ∧
       readStr "challenge" ms "" = some p.challenge ∧ readStr "proofValue" ms "" = some p.value ∧
       readStr "previousProof" ms "" = some p.previous) := by
    constructor
    · intro h
      simp only [readProof, Option.bind_eq_bind, Option.bind_eq_some_iff, Option.some.injEq] at h
      obtain ⟨a1, h1, a2, h2, a3, h3, a4, h4, a5, h5, a6, h6, a7, h7, a8, h8, a9, h9, a10, h10, a11, h11, rfl⟩ := h
      exact ⟨h1, h2, h3, h4, h5, h6, h7, h8, h9, h10, h11⟩
    · rintro ⟨h1, h2, h3, h4, h5, h6, h7, h8, h9, h10, h11⟩
      simp only [readProof, h1, h2, h3, h4, h5, h6, h7, h8, h9, h10, h11, Option.bind_eq_bind, Option.bind_some]
  rw [e]
  have hf := proofNames_fold
  have hl := proofFields_lower
  simp only [proofNames, proofFields, List.map_cons, List.map_nil, List.cons.injEq, and_true] at hf
  simp only [proofFields, List.map_cons, List.map_nil, List.forall_mem_cons] at hl
  obtain ⟨f1, f2, f3, f4, f5, f6, f7, f8, f9, f10, f11⟩ := hf
  obtain ⟨l1, l2, l3, l4, l5, l6, l7, l8, l9, l10, l11, -⟩ := hl
  rw [readStr_iff f1 l1, readStr_iff f2 l2, readStr_iff f3 l3, readStr_iff f4 l4, readStr_iff f5 l5,
    readStr_iff f6 l6, readStr_iff f7 l7, readStr_iff f8 l8, readStr_iff f9 l9, readStr_iff f10 l10,
    readStr_iff f11 l11]
  unfold SaysProof proofFields
  simp only [List.forall_mem_cons, List.not_mem_nil, false_imp_iff, implies_true, and_true]

/-! ## Plain texts -/

theorem readStr_plain (name : String) (ms : JObj) (hnd : (ms.map Prod.fst).Nodup)
    (h : ∀ e ∈ ms, foldName e.1 = foldName name → e.1 = name) :
    readStr name ms "" = strField ms name := by
  have none_left : ∀ (ms : JObj) (o : String), (∀ e ∈ ms, foldName e.1 ≠ foldName name) →
      readStr name ms o = some o := by
    intro ms
    induction ms with
    | nil => intro o _; rfl
    | cons e ms ih =>
      intro o h
      obtain ⟨k, v⟩ := e
      simp only [readStr]
      rw [if_neg (by simpa using h (k, v) (List.mem_cons_self ..))]
      exact ih o (fun e he => h e (List.mem_cons_of_mem _ he))
  induction ms with
  | nil => rfl
  | cons e ms ih =>
    obtain ⟨k, v⟩ := e
    rw [List.map_cons, List.nodup_cons] at hnd
    have h' := fun e he => h e (List.mem_cons_of_mem _ he)
    unfold strField
    simp only [readStr, GoMap.get?_cons]
    by_cases hk : foldName k = foldName name
    · have hkn : k = name := h (k, v) (List.mem_cons_self ..) hk
      rw [if_pos (by simpa using hk), if_pos hkn]
      have hz : ∀ e ∈ ms, foldName e.1 ≠ foldName name := by
        intro e he hc
        apply hnd.1
        rw [hkn, ← h' e he hc]
        exact List.mem_map.2 ⟨e, he, rfl⟩
      cases v <;> first | rfl | exact none_left ms _ hz
    · have hkn : k ≠ name := fun hc => hk (by rw [hc])
      rw [if_neg (by simpa using hk), if_neg hkn]
      exact ih hnd.2 h'

/-- A plain proof is read as the map it stands for. -/
theorem readProof_plain (raw : Json) (h : PlainProof raw) : readProof raw = parseProof raw := by
  cases raw with
  | obj ms =>
    obtain ⟨hnd, hp⟩ := h ms rfl
    have r : ∀ n ∈ proofNames, readStr n ms "" = strField ms n :=
      fun n hn => readStr_plain n ms hnd (fun e he => hp e he n hn)
    simp only [readProof, parseProof]
    rw [r "id" (by decide), r "type" (by decide), r "cryptosuite" (by decide), r "proofPurpose" (by decide),
      r "verificationMethod" (by decide), r "created" (by decide), r "expires" (by decide),
      r "domain" (by decide), r "challenge" (by decide), r "proofValue" (by decide),
      r "previousProof" (by decide)]
  | _ => rfl

theorem verifyOneT_eq (suites : GoMap (Suite env)) (doc : JObj) (raw : Json) (o : Opts env.T)
    (h : readProof raw = parseProof raw) : verifyOneT env suites doc raw o = verifyOne env suites doc raw o := by
  unfold verifyOneT
  rw [h]
  unfold verifyOne
  cases hp : parseProof raw with
  | none => rfl
  | some p => simp only; rw [parse_marshal]

theorem verifyLoopT_eq (suites : GoMap (Suite env)) (doc : JObj) (rs : List Json) (o : Opts env.T)
    (h : ∀ r ∈ rs, readProof r = parseProof r) :
    verifyLoopT env suites doc rs o = verifyLoop env suites doc rs o := by
  induction rs generalizing o with
  | nil => rfl
  | cons r rs ih =>
    unfold verifyLoopT verifyLoop
    rw [verifyOneT_eq env suites doc r o (h r (List.mem_cons_self ..))]
    rcases verifyOne env suites doc r o with ⟨e | u, o'⟩
    · rfl
    · exact ih o' (fun r hr => h r (List.mem_cons_of_mem _ hr))

/-! ## The map of what is left -/

theorem del_set_self (m : JObj) (k : String) (v : Json) : GoMap.del (GoMap.set m k v) k = GoMap.del m k := by
  induction m with
  | nil => simp [GoMap.set, GoMap.del]
  | cons e m ih =>
    obtain ⟨k', v'⟩ := e
    unfold GoMap.del at ih ⊢
    simp only [GoMap.set]
    by_cases h : k' = k
    · simp [h]
    · rw [if_neg (by simpa using h), List.filter_cons, List.filter_cons, ih]

theorem del_set_ne (m : JObj) {k k' : String} (v : Json) (h : k' ≠ k) :
    GoMap.del (GoMap.set m k' v) k = GoMap.set (GoMap.del m k) k' v := by
  induction m with
  | nil => simp [GoMap.set, GoMap.del, h]
  | cons e m ih =>
    obtain ⟨k1, v1⟩ := e
    unfold GoMap.del at ih ⊢
    simp only [GoMap.set]
    by_cases h1 : k1 = k'
    · have h2 : k1 ≠ k := by rw [h1]; exact h
      simp [h1, h, GoMap.set]
    · rw [if_neg (by simpa using h1), List.filter_cons, List.filter_cons, ih]
      by_cases h2 : k1 = k
      · simp [h2]
      · simp [h2, GoMap.set, h1]

theorem docMap_del (ms : JObj) (k : String) :
    GoMap.del (docMap ms) k = docMap (ms.filter (fun e => !(e.1 == k))) := by
  induction ms using List.reverseRecOn with
  | nil => rfl
  | append_singleton ms e ih =>
    unfold docMap at ih ⊢
    rw [List.foldl_append, List.filter_append, List.foldl_append]
    simp only [List.foldl_cons, List.foldl_nil]
    by_cases h : e.1 = k
    · rw [show [e].filter (fun e => !(e.1 == k)) = [] by simp [h]]
      rw [h, del_set_self, ih]; rfl
    · rw [show [e].filter (fun e => !(e.1 == k)) = [e] by simp [h]]
      rw [del_set_ne _ _ h, ih]; rfl

theorem dropProof_filter (ms : JObj) (h : OneProof ms) :
    dropProof ms = ms.filter (fun e => !(e.1 == "proof")) := by
  induction ms with
  | nil => rfl
  | cons e ms ih =>
    unfold OneProof at h ih
    rw [List.filter_cons] at h
    simp only [dropProof]
    by_cases hk : e.1 = "proof"
    · rw [if_pos hk, List.filter_cons, if_neg (by simp [hk])]
      rw [if_pos (by simp [hk]), List.length_cons] at h
      have h0 : ms.filter (fun e => e.1 == "proof") = [] := List.length_eq_zero_iff.1 (by omega)
      rw [List.filter_eq_nil_iff] at h0
      symm
      rw [List.filter_eq_self]
      intro a ha
      simpa using h0 a ha
    · rw [if_neg hk, List.filter_cons, if_pos (by simp [hk])]
      rw [if_neg (by simp [hk])] at h
      rw [ih h]

theorem get?_first_eq (ms : JObj) (h : OneProof ms) :
    GoMap.get? ms "proof" = GoMap.get? (docMap ms) "proof" := by
  cases hg : GoMap.get? ms "proof" with
  | none =>
    symm
    rw [GoMap.get?_eq_none_iff] at hg
    cases hd : GoMap.get? (docMap ms) "proof" with
    | none => rfl
    | some v =>
      obtain ⟨pre, post, rfl, -⟩ := (VC.Vfy.Nam.get?_docMap ms _ _).1 hd
      exact absurd (by simp [GoMap.keys]) hg
  | some v =>
    symm
    rw [VC.Vfy.Nam.get?_docMap]
    obtain ⟨pre, post, rfl⟩ := List.append_of_mem (GoMap.mem_of_get? hg)
    refine ⟨pre, post, rfl, ?_⟩
    intro e he hc
    unfold OneProof at h
    rw [List.filter_append, List.filter_cons, if_pos (by simp), List.length_append, List.length_cons] at h
    have : 0 < (post.filter (fun e => e.1 == "proof")).length :=
      List.length_pos_of_mem (List.mem_filter.2 ⟨he, by simp [hc]⟩)
    omega

/-- **C143**: a text with one member `proof` at most, whose proofs are plain, is verified as the map a
reader decodes from it. -/
theorem plain_text_verified (suites : GoMap (Suite env)) (ms : JObj) (o : Opts env.T) (h1 : OneProof ms)
    (h2 : ∀ raw, GoMap.get? ms "proof" = some raw → ∀ r ∈ proofArray raw, PlainProof r) :
    verifyText env suites ms o = verifyProof env suites (docMap ms) o := by
  unfold verifyText verifyProof
  rw [← get?_first_eq ms h1, docMap_del, ← dropProof_filter ms h1]
  cases hg : GoMap.get? ms "proof" with
  | none => rfl
  | some raw => exact verifyLoopT_eq env suites _ _ o (fun r hr => readProof_plain r (h2 raw hg r hr))

/-! ## What an accepted text is signed for -/

theorem dropProof_split (pre post : JObj) (w : Json) (h : ∀ e ∈ pre, e.1 ≠ "proof") :
    dropProof (pre ++ ("proof", w) :: post) = pre ++ post ∧
    GoMap.get? (pre ++ ("proof", w) :: post) "proof" = some w := by
  induction pre with
  | nil => exact ⟨by simp [dropProof], by simp [GoMap.get?_cons]⟩
  | cons e pre ih =>
    obtain ⟨k, v⟩ := e
    have hk := h (k, v) (List.mem_cons_self ..)
    obtain ⟨i1, i2⟩ := ih (fun e he => h e (List.mem_cons_of_mem _ he))
    constructor
    · simp only [List.cons_append, dropProof]
      rw [if_neg hk, i1]
    · rw [List.cons_append, GoMap.get?_cons, if_neg hk, i2]

/-- **C143**: a text with one proof is accepted, under fresh options, iff its first member `proof` says a
valid proof of a configured suite, for the document that is left without that member. -/
theorem text_single_iff {suites : GoMap (Suite env)} (std : Standard env suites)
    (hz : env.isZero env.zeroT = true) (ext : CanonExt env) {pre post pm : JObj} {w : Json}
    (hpre : ∀ e ∈ pre, e.1 ≠ "proof") (hw : w = .obj pm ∨ w = .arr [.obj pm])
    {o : Opts env.T} (hf : Fresh env o) :
    (verifyText env suites (pre ++ ("proof", w) :: post) o).1 = .ok () ↔
      ∃ p, SaysProof pm p ∧ (GoMap.get? suites p.cryptosuite).isSome ∧
        Valid env (docMap (pre ++ post)) o.purpose o.domain o.challenge p := by
  obtain ⟨hd, hg⟩ := dropProof_split pre post w hpre
  have e : verifyText env suites (pre ++ ("proof", w) :: post) o =
      verifyOneT env suites (docMap (pre ++ post)) (.obj pm) o := by
    unfold verifyText
    rw [hg, hd]
    have : proofArray w = [.obj pm] := by rcases hw with rfl | rfl <;> rfl
    simp only [this, verifyLoopT]
    rcases verifyOneT env suites (docMap (pre ++ post)) (.obj pm) o with ⟨e | u, o'⟩ <;> rfl
  rw [e]
  unfold verifyOneT
  cases hr : readProof (.obj pm) with
  | none =>
    constructor
    · intro h; cases h
    · rintro ⟨p, hs, -⟩
      rw [(proof_read_iff pm p).2 hs] at hr; cases hr
  | some p =>
    simp only
    have hs := (proof_read_iff pm p).1 hr
    have only : ∀ q, IsProof (.obj (marshalProof p)) q → q = p := by
      intro q hq
      have := (parseProof_obj_iff _ q).2 hq
      rw [parse_marshal] at this
      exact (Option.some.inj this).symm
    have only' : ∀ q, SaysProof pm q → q = p := by
      intro q hq
      have := (proof_read_iff pm q).2 hq
      rw [hr] at this
      exact (Option.some.inj this).symm
    constructor
    · intro h
      have : verifyOne env suites (docMap (pre ++ post)) (.obj (marshalProof p)) o =
          (.ok (), (verifyOne env suites (docMap (pre ++ post)) (.obj (marshalProof p)) o).2) := by rw [← h]
      obtain ⟨q, h1, h2, h3, _⟩ := (verifyOne_fresh_iff env std hz ext _ _ hf _).1 this
      cases only q h1
      exact ⟨_, hs, h2, h3⟩
    · rintro ⟨q, h1, h2, h3⟩
      cases only' q h1
      obtain ⟨r, v, pk, ha, tc, te, conf, hr', hv, _, htc, hte, _⟩ := h3.signature
      rw [(verifyOne_fresh_iff env std hz ext _ _ hf _).2
        ⟨_, (parseProof_obj_iff _ _).1 (parse_marshal _), h2, h3, r, v, tc, te, hr', hv, htc, hte, rfl⟩]

/-- **C143**: what a reader decodes from a text, apart from `proof`, is what was verified; and with one
member `proof` the document verified has none. -/
theorem reader_sees_verified (pre post : JObj) (w : Json) :
    (∀ k, k ≠ "proof" →
      GoMap.get? (docMap (pre ++ ("proof", w) :: post)) k = GoMap.get? (docMap (pre ++ post)) k) ∧
    ((∀ e ∈ pre ++ post, e.1 ≠ "proof") →
      GoMap.get? (docMap (pre ++ ("proof", w) :: post)) "proof" = some w ∧
      GoMap.get? (docMap (pre ++ post)) "proof" = none) := by
  constructor
  · intro k hk
    have e : (pre ++ ("proof", w) :: post).filter (fun e => !(e.1 == "proof")) =
        (pre ++ post).filter (fun e => !(e.1 == "proof")) := by
      rw [List.filter_append, List.filter_append, List.filter_cons, if_neg (by simp)]
    rw [← GoMap.get?_del_ne (docMap (pre ++ ("proof", w) :: post)) (Ne.symm hk), docMap_del, e,
      ← docMap_del, GoMap.get?_del_ne _ (Ne.symm hk)]
  · intro h
    refine ⟨(VC.Vfy.Nam.get?_docMap _ _ _).2 ⟨pre, post, rfl,
      fun e he => h e (List.mem_append_right _ he)⟩, ?_⟩
    cases hg : GoMap.get? (docMap (pre ++ post)) "proof" with
    | none => rfl
    | some v =>
      obtain ⟨a, b, hab, -⟩ := (VC.Vfy.Nam.get?_docMap _ _ _).1 hg
      exact absurd rfl (h ("proof", v) (by rw [hab]; simp))

end VC.DI
