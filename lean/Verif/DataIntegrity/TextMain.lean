import Verif.DataIntegrity.Text
import Verif.DataIntegrity.AnySuite
/-!
# dataintegrity: signing texts, and what a reader of a text may be shown (C143)
-/

namespace VC.DI

open VC (Json JObj GoMap NoChar)
open VC.DI.Spec
open VC.Vfy.Nam (foldName Spells StringClaim docMap)

variable (env : Env)

/-! ## Signing -/

theorem putProof_none (raw : Json) (ms : JObj) (h : ∀ e ∈ ms, e.1 ≠ "proof") :
    putProof raw ms = ms ++ [("proof", raw)] := by
  induction ms with
  | nil => rfl
  | cons e ms ih =>
    simp only [putProof, List.cons_append]
    rw [if_neg (h e (List.mem_cons_self ..)), ih (fun e he => h e (List.mem_cons_of_mem _ he))]

theorem putProof_some (raw w : Json) (pre post : JObj) (h : ∀ e ∈ pre, e.1 ≠ "proof") :
    putProof raw (pre ++ ("proof", w) :: post) = pre ++ ("proof", raw) :: post := by
  induction pre with
  | nil => simp [putProof]
  | cons e pre ih =>
    simp only [putProof, List.cons_append]
    rw [if_neg (h e (List.mem_cons_self ..)), ih (fun e he => h e (List.mem_cons_of_mem _ he))]

theorem addText_iff (suites : GoMap (Suite env)) (ms ms' : JObj) (o : Opts env.T) :
    addText env suites ms o = .ok ms' ↔
      ∃ s o1 p, GoMap.get? suites o.suiteType = some s ∧ resolveVM env o "" = .ok o1 ∧
        s.create (docMap ms) o1 = some p ∧ Attachable s.requiresCreated o.domain o.challenge p ∧
        ms' = putProof (.obj (marshalProof p)) ms := by
  unfold addText
  cases ha : addProof env suites (docMap ms) o with
  | error e =>
    simp only
    constructor
    · intro h; cases h
    · rintro ⟨s, o1, p, h1, h2, h3, h4, -⟩
      have := (addProof_any_suite env suites (docMap ms) _ o).2 ⟨s, o1, p, h1, h2, h3, h4, rfl⟩
      rw [ha] at this; cases this
  | ok d =>
    simp only
    obtain ⟨s, o1, p, h1, h2, h3, h4, rfl⟩ := (addProof_any_suite env suites (docMap ms) _ o).1 ha
    rw [GoMap.get?_set_self]
    constructor
    · intro h; exact ⟨s, o1, p, h1, h2, h3, h4, (Except.ok.inj h).symm⟩
    · rintro ⟨s', o1', p', h1', h2', h3', -, rfl⟩
      rw [h1] at h1'; cases h1'
      rw [h2] at h2'; cases h2'
      rw [h3] at h3'; cases h3'
      rfl

theorem addText_ok {suites : GoMap (Suite env)} {ms ms' : JObj} {o : Opts env.T}
    (h : addText env suites ms o = .ok ms') :
    ∃ p : Prf, addProof env suites (docMap ms) o = .ok (GoMap.set (docMap ms) "proof" (.obj (marshalProof p))) ∧
      ms' = putProof (.obj (marshalProof p)) ms := by
  obtain ⟨s, o1, p, h1, h2, h3, h4, rfl⟩ := (addText_iff env suites ms ms' o).1 h
  exact ⟨p, (addProof_any_suite env suites (docMap ms) _ o).2 ⟨s, o1, p, h1, h2, h3, h4, rfl⟩, rfl⟩

/-- **C143**: signing a text leaves every other member as it is and where it is: the proof the suite makes for
what a reader decodes from the text stands in place of the first member `proof`, or at the end. -/
theorem signed_text {suites : GoMap (Suite env)} {ms ms' : JObj} {o : Opts env.T}
    (h : addText env suites ms o = .ok ms') :
    ∃ (s : Suite env) (o1 : Opts env.T) (p : Prf), GoMap.get? suites o.suiteType = some s ∧
      resolveVM env o "" = .ok o1 ∧ s.create (docMap ms) o1 = some p ∧ (((∀ e ∈ ms, e.1 ≠ "proof") ∧ ms' = ms ++ [("proof", .obj (marshalProof p))]) ∨
      ∃ pre w post, ms = pre ++ ("proof", w) :: post ∧ (∀ e ∈ pre, e.1 ≠ "proof") ∧
        ms' = pre ++ ("proof", .obj (marshalProof p)) :: post) := by
  obtain ⟨s, o1, p, hs, hr, hc, -, rfl⟩ := (addText_iff env suites ms ms' o).1 h
  refine ⟨s, o1, p, hs, hr, hc, ?_⟩
  by_cases hn : ∀ e ∈ ms, e.1 ≠ "proof"
  · exact Or.inl ⟨hn, putProof_none _ ms hn⟩
  · right
    have split : ∀ ms : JObj, (¬ ∀ e ∈ ms, e.1 ≠ "proof") →
        ∃ pre w post, ms = pre ++ ("proof", w) :: post ∧ ∀ e ∈ pre, e.1 ≠ "proof" := by
      intro ms
      induction ms with
      | nil => intro h; exact absurd (fun e he => by cases he) h
      | cons e ms ih =>
        intro h
        by_cases he : e.1 = "proof"
        · obtain ⟨k, v⟩ := e
          simp only at he
          subst he
          exact ⟨[], v, ms, rfl, fun e he => by cases he⟩
        · obtain ⟨pre, w, post, rfl, hp⟩ := ih (fun hc => h (fun a ha => by
            rcases List.mem_cons.1 ha with rfl | ha
            · exact he
            · exact hc a ha))
          refine ⟨e :: pre, w, post, rfl, fun a ha => ?_⟩
          rcases List.mem_cons.1 ha with rfl | ha
          · exact he
          · exact hp a ha
    obtain ⟨pre, w, post, rfl, hp⟩ := split ms hn
    exact ⟨pre, w, post, rfl, hp, putProof_some _ w pre post hp⟩

theorem optMember_keys (k s : String) : ((optMember k s).map Prod.fst).Sublist [k] := by
  unfold optMember
  split <;> simp

theorem marshalProof_keys (p : Prf) : ((marshalProof p).map Prod.fst).Sublist proofNames := by
  unfold marshalProof proofNames
  simp only [List.map_append, List.map_cons, List.map_nil]
  have h := fun k s => optMember_keys k s
  have e : ["id", "type", "cryptosuite", "proofPurpose", "verificationMethod", "created", "expires", "domain",
      "challenge", "proofValue", "previousProof"] = ["id"] ++ ["type"] ++ ["cryptosuite"] ++
      ["proofPurpose", "verificationMethod"] ++ ["created"] ++ ["expires"] ++ ["domain"] ++ ["challenge"] ++
      ["proofValue"] ++ ["previousProof"] := rfl
  rw [e]
  exact ((((((((((h _ _).append (List.Sublist.refl _)).append (h _ _)).append (List.Sublist.refl _)).append
    (h _ _)).append (h _ _)).append (h _ _)).append (h _ _)).append (List.Sublist.refl _)).append (h _ _))

theorem proofNames_inj : ∀ a ∈ proofNames, ∀ b ∈ proofNames, foldName a = foldName b → a = b := by
  decide +kernel

theorem marshalProof_plain (p : Prf) : PlainProof (.obj (marshalProof p)) := by
  intro ms h
  cases h
  refine ⟨(marshalProof_keys p).nodup (by decide +kernel), ?_⟩
  intro e he n hn hf
  exact proofNames_inj _ ((marshalProof_keys p).subset (List.mem_map.2 ⟨e, he, rfl⟩)) n hn hf

/-- **C143 (partial)**: a text without a proof, signed by `AddProof`, verifies as a text with the same
expectations, under the assumptions of `sign_verify_roundtrip_partial` (C51). -/
theorem text_roundtrip_partial {suites vs : GoMap (Suite env)} (std : Standard env suites)
    (vstd : Standard env vs) (hz : env.isZero env.zeroT = true)
    (mb : ∀ b, env.mbDecode (env.mbEncode b) = some b)
    {ms ms' : JObj} {o vo : Opts env.T} (hvm : o.vm = none) (hpt : o.proofType = "DataIntegrityProof")
    (hreg : ∀ n, SameFamily n o.suiteType → (GoMap.get? vs n).isSome)
    (hkey : ∀ r v, env.resolver = some r → Resolves r o.purpose o.vmID v →
      v.id = o.vmID ∧ SignsFor env o.suiteType v)
    (hcr : Survives env o.created) (hex : NotExpired env o.expires)
    (hdoc : ∀ e ∈ ms, e.1 ≠ "proof") (hexp : Expects env o vo)
    (h : addText env suites ms o = .ok ms') : (verifyText env vs ms' vo).1 = .ok () := by
  obtain ⟨p, ha, rfl⟩ := addText_ok env h
  rw [putProof_none _ _ hdoc]
  have hf : ms.filter (fun e => e.1 == "proof") = [] := by
    rw [List.filter_eq_nil_iff]; intro e he; simpa using hdoc e he
  have h1 : OneProof (ms ++ [("proof", .obj (marshalProof p))]) := by
    unfold OneProof; rw [List.filter_append, hf]; simp
  obtain ⟨hs1, hs2⟩ := dropProof_split ms [] (.obj (marshalProof p)) hdoc
  rw [plain_text_verified env vs _ vo h1 (by
    intro raw hr r hm
    rw [hs2] at hr
    cases hr
    cases List.mem_singleton.1 hm
    exact marshalProof_plain p)]
  have hd : docMap (ms ++ [("proof", .obj (marshalProof p))]) =
      GoMap.set (docMap ms) "proof" (.obj (marshalProof p)) := by
    unfold docMap; rw [List.foldl_append]; rfl
  rw [hd]
  have hnone : GoMap.get? (docMap ms) "proof" = none := by
    have := ((reader_sees_verified ms [] (.obj (marshalProof p))).2 (by simpa using hdoc)).2
    simpa using this
  exact sign_verify_roundtrip_partial env std vstd hz mb hvm hpt hreg hkey hcr hex hnone hexp ha

/-! ## Violations -/

/-- A proof nobody made. -/
def txFake : Json := exProof "did:bb#k" "forged"

/-- The proof `did:a` makes for a document that contains `txFake` already. -/
def txReal : Json := exProof "did:a#k" (exEnc [7, 2, 7, 15, 3])

/-- Two members `proof`: the real one first. -/
def txTwice : JObj := [("@context", .str "ctx"), ("proof", txReal), ("name", .str "n"), ("proof", txFake)]

/-- **The proof a reader sees need not be the one verified**: with two members `proof` the first is checked,
`encoding/json` shows the last, which alone is refused. -/
theorem other_proof_shown :
    (verifyText exE exSuites txTwice (freshOpts exE "" "" "")).1 = .ok () ∧
    GoMap.get? (docMap txTwice) "proof" = some txFake ∧
    (verifyText exE exSuites (txTwice.filter (fun e => e.1 != "proof") ++ [("proof", txFake)])
      (freshOpts exE "" "" "")).1 ≠ .ok () := by
  refine ⟨by rfl, by rfl, ?_⟩
  have : (verifyText exE exSuites (txTwice.filter (fun e => e.1 != "proof") ++ [("proof", txFake)])
      (freshOpts exE "" "" "")).1 = .error .suite := by rfl
  rw [this]
  intro h; cases h

/-- A proof, its members in the order in which `encoding/json` writes a map, with two spellings of
`proofPurpose`. -/
def txPurposeM : JObj := [("cryptosuite", .str "ecdsa-rdfc-2019"), ("expires", .str "new"),
  ("proofPurpose", .str "authentication"), ("proofPurpoſe", .str "assertionMethod"),
  ("proofValue", .str exSigA), ("type", .str "DataIntegrityProof"), ("verificationMethod", .str "did:a#k")]

/-- The document with that proof. -/
def txPurpose : JObj := exDoc (.obj txPurposeM)

/-- **The purpose a reader sees need not be the one verified**: no name is repeated, and the members of the
proof are in the order in which a map is written again, so it is the same after decoding and encoding. -/
theorem other_purpose_shown :
    (verifyText exE exSuites txPurpose (freshOpts exE "assertionMethod" "" "")).1 = .ok () ∧
    GoMap.get? txPurposeM "proofPurpose" = some (.str "authentication") ∧
    (txPurpose.map Prod.fst).Nodup ∧ (txPurposeM.map Prod.fst).Pairwise (fun a b => a < b) := by
  refine ⟨by rfl, by rfl, by decide +kernel, by decide +kernel⟩

/-! ## Non-vacuity -/

/-- A text with repeated members outside `proof`; the last counts. -/
def txBody : JObj := [("name", .str "first"), ("@context", .str "ctx"), ("name", .str "n")]

theorem tx_sign : (match addText exE exSuites txBody (exSign' "ecdsa-2019" "did:a#k") with
    | .ok ms' => (verifyText exE exSuites ms' (exVer "")).1
    | .error _ => .error .generation) = .ok () := by rfl

example : OneProof (exDoc (exProof "did:a#k" exSigA)) ∧
    (∀ raw, GoMap.get? (exDoc (exProof "did:a#k" exSigA)) "proof" = some raw →
      ∀ r ∈ proofArray raw, PlainProof r) ∧
    (verifyText exE exSuites (exDoc (exProof "did:a#k" exSigA)) (freshOpts exE "" "" "")).1 = .ok () := by
  refine ⟨by unfold OneProof; decide +kernel, ?_, by rfl⟩
  intro raw h r hr
  cases h
  cases List.mem_singleton.1 hr
  intro ms h
  cases h
  refine ⟨by decide +kernel, ?_⟩
  intro e he n hn
  have hk : e.1 ∈ ["type", "cryptosuite", "proofPurpose", "verificationMethod", "expires", "proofValue"] :=
    List.mem_map.2 ⟨e, he, rfl⟩
  revert hk
  generalize e.1 = k
  revert k n
  decide +kernel

/-- `text_single_iff` on the text with two spellings of the purpose. -/
example : ∃ p, SaysProof txPurposeM p ∧ (GoMap.get? exSuites p.cryptosuite).isSome ∧
    Valid exE (docMap ([("@context", .str "ctx"), ("name", .str "n")] ++ [])) "assertionMethod" "" "" p :=
  (text_single_iff exE exSuites_std rfl exE_ext (pre := [("@context", .str "ctx"), ("name", .str "n")])
    (post := []) (pm := txPurposeM) (w := .obj txPurposeM) (by decide +kernel) (Or.inl rfl)
    (freshOpts_fresh exE "assertionMethod" "" "")).1 (by rfl)

end VC.DI
