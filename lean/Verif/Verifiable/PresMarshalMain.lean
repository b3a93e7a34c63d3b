import Verif.Verifiable.PresMarshalSd
/-!
# verifiable: presentations survive marshalling — main theorems (C71, C72, C73)

* C71: `jwt_marshal_roundtrip`, `cose_marshal_roundtrip_partial`, `json_marshal_roundtrip_partial`; witnesses
  for the gaps in `PresMarshalExamples`.
* C72: `jwt_pres_claims_roundtrip`.
* C73: `pres_payload_panics_iff`.
-/

namespace VC.Vfy

open GoMap
open Spec

variable (env : VEnv)

/-! ## JWT presentations -/

theorem parsePresJSON_jwt (o : VpOpts env) (data : String) (r : VpParsed)
    (h : parsePresJSON env o data = .ok r) (hj : r.jwt ≠ "") :
    isJWS env.toPEnv r.jwt = true ∧ parsePresJWS env o r.jwt = .ok r := by
  unfold parsePresJSON at h
  split at h
  · rename_i hs
    have : r.jwt = unQuote data := by
      unfold parsePresJWS at h
      split at h
      · cases h
      · obtain ⟨raw, -, h⟩ := Out.bind_ok.1 h
        cases h; rfl
    rw [this]
    exact ⟨hs, h⟩
  · split at h
    · obtain ⟨raw, -, h⟩ := Out.bind_ok.1 h
      split at h
      · cases h; exact absurd rfl hj
      · cases h
    · split at h
      · cases h
      · split at h
        · cases h
        · split at h
          · cases h
          · cases h; exact absurd rfl hj

theorem parsePresCWT_inv (data : String) (r : VpParsed) (h : parsePresCWT env data = .ok r) :
    r.jwt = "" ∧ ∃ raw m vm, env.parseCOSE raw = some m ∧ env.cwtMap m.payload = some vm ∧
      r = ⟨vpContent vm, "", some ⟨raw, m, vm⟩⟩ := by
  unfold parsePresCWT at h
  split at h
  · cases h
  · rename_i raw m ho
    split at h
    · cases h
    · rename_i vm hvm
      cases h
      refine ⟨rfl, raw, m, vm, ?_, hvm, rfl⟩
      unfold openPresCOSE at ho
      split at ho
      · rename_i m' hm'
        cases ho; exact hm'
      · split at ho
        · cases ho
        · obtain ⟨m', h1, h2⟩ := Option.map_eq_some_iff.1 ho
          cases h2; exact h1

theorem parsePresURL_cases (o : VpOpts env) (url : String) (r : VpParsed) (h : parsePresURL env o url = .ok r) :
    (∃ d, parsePresJSON env o d = .ok r) ∨ ∃ d, parsePresCWT env d = .ok r := by
  unfold parsePresURL at h
  split at h
  · cases h
  · split at h
    · exact Or.inl ⟨_, h⟩
    · split at h
      · exact Or.inr ⟨_, h⟩
      · cases h

/-- Every accepted text is read by the JSON or the COSE parser. -/
theorem parsePresAny_cases (o : VpOpts env) (data : String) (r : VpParsed)
    (h : parsePresAny env o data = .ok r) :
    (∃ d, parsePresJSON env o d = .ok r) ∨ ∃ d, parsePresCWT env d = .ok r := by
  unfold parsePresAny at h
  rcases orElseOut_ok.1 h with h | ⟨-, h⟩
  · unfold parsePresEnveloped at h
    split at h
    · cases h
    · split at h
      · cases h
      · split at h
        · cases h
        · exact parsePresURL_cases env o _ r h
  · rcases orElseOut_ok.1 h with h | ⟨-, h⟩
    · exact Or.inl ⟨_, h⟩
    · exact Or.inr ⟨_, h⟩

/-- The result of `ParsePresentation` is a function of what the parsers deliver. -/
theorem parsePresentation_of_any (o : VpOpts env) (data orig : String) (r : VpParsed) (vp : Pres env.T)
    (h : parsePresentation env o orig = .ok vp) (h1 : parsePresAny env o orig = .ok r)
    (h2 : parsePresAny env o data = .ok r) : parsePresentation env o data = .ok vp := by
  unfold parsePresentation at h ⊢
  rw [h1] at h
  rw [h2]
  exact h

theorem envelope_read (o : VpOpts env) (data url : String)
    (hd : env.decodeObj data = some (vpEnvelope url)) :
    parsePresEnveloped env o data = parsePresURL env o url := by
  unfold parsePresEnveloped
  rw [hd]
  rfl

theorem unQuote_quote (s : String) : unQuote ("\"" ++ s ++ "\"") = s := by
  unfold unQuote
  have h : ("\"" ++ s ++ "\"").toList = '"' :: (s.toList ++ ['"']) := by
    simp
  rw [h]
  simp

/-- **C71**: a presentation that was read from a JWT is marshalled to a text from which exactly the same
presentation is read. `enc` is the JSON encoder and only has to be faithful on the text it produces here. -/
theorem jwt_marshal_roundtrip (o : VpOpts env) (orig data : String) (vp : Pres env.T)
    (h : parsePresentation env o orig = .ok vp) (hj : vp.jwt ≠ "") (hl : JwsText env vp.jwt)
    (enc : JObj → String) (hex : String → String) (u : PCred env.T → Option Json)
    (hm : marshalPres enc hex u vp = some data)
    (henc : ∀ doc, data = enc doc → env.decodeObj data = some doc)
    (hq : env.decodeObj ("\"" ++ vp.jwt ++ "\"") = none) :
    parsePresentation env o data = .ok vp := by
  obtain ⟨r, h1, h2, h3, -⟩ := parsePresentation_ok env o orig vp h
  rw [h2] at hj
  have hr : isJWS env.toPEnv r.jwt = true ∧ parsePresJWS env o r.jwt = .ok r := by
    rcases parsePresAny_cases env o orig r h1 with ⟨d, hd⟩ | ⟨d, hd⟩
    · exact parsePresJSON_jwt env o d r hd hj
    · exact absurd (parsePresCWT_inv env d r hd).1 hj
  apply parsePresentation_of_any env o data orig r vp h h1
  have hplain : marshalPlain enc u vp = some data → parsePresAny env o data = .ok r := by
    intro hm
    unfold marshalPlain at hm
    rw [if_pos (by rw [h2]; exact hj), h2] at hm
    have hm := Option.some.inj hm
    unfold parsePresAny
    rw [orElseOut_ok]
    right
    constructor
    · unfold parsePresEnveloped
      rw [h2] at hq
      rw [← hm, hq]
    · rw [orElseOut_ok]
      left
      unfold parsePresJSON
      rw [← hm, unQuote_quote, if_pos hr.1]
      exact hr.2
  unfold marshalPres at hm
  split at hm
  · rw [if_pos (by rw [h2]; exact hj), h2] at hm
    have hm := Option.some.inj hm
    have hd := henc _ hm.symm
    unfold parsePresAny
    rw [orElseOut_ok]
    left
    rw [envelope_read env o data _ hd]
    unfold parsePresURL
    rw [dataURL_roundtrip _ _ _ (Or.inl (by decide)) (by decide) (by decide) (by decide)]
    dsimp only
    rw [if_pos rfl]
    unfold parsePresJSON
    have hnq : unQuote r.jwt = r.jwt := by rw [← h2]; exact hl.notQuoted
    rw [hnq, if_pos hr.1]
    exact hr.2
  · exact hplain hm

/-- **C71 (partial)**: the same for COSE presentations of data model 2.

Missing: COSE presentations of data model 1, which are marshalled without their signature
(`cose_v1_signature_dropped`). -/
theorem cose_marshal_roundtrip_partial (o : VpOpts env)
    (orig data : String) (vp : Pres env.T) (h : parsePresentation env o orig = .ok vp)
    (w : VpCwt) (hw : vp.cwt = some w) (hne : w.raw ≠ "") (hv : vp.context.head? = some v2ContextURI)
    (hex : String → String) (hl : HexText env hex w.raw) (enc : JObj → String) (u : PCred env.T → Option Json) (hm : marshalPres enc hex u vp = some data)
    (henc : ∀ doc, data = enc doc → env.decodeObj data = some doc) :
    parsePresentation env o data = .ok vp := by
  obtain ⟨r, h1, h2, h3, -⟩ := parsePresentation_ok env o orig vp h
  rw [h3] at hw
  have hr : r.jwt = "" ∧ ∃ raw m vm, env.parseCOSE raw = some m ∧ env.cwtMap m.payload = some vm ∧
      r = ⟨vpContent vm, "", some ⟨raw, m, vm⟩⟩ := by
    rcases parsePresAny_cases env o orig r h1 with ⟨d, hd⟩ | ⟨d, hd⟩
    · rw [parsePresJSON_noCwt env o d r hd] at hw; cases hw
    · exact parsePresCWT_inv env d r hd
  obtain ⟨hr1, raw, m, vm, e1, e2, e3⟩ := hr
  have hw' : w = ⟨raw, m, vm⟩ := by rw [e3] at hw; exact (Option.some.inj hw).symm
  apply parsePresentation_of_any env o data orig r vp h h1
  have hb : isBaseContext vp.context v2ContextURI = true := by
    unfold isBaseContext
    cases hc : vp.context with
    | nil => rw [hc] at hv; cases hv
    | cons x l => rw [hc] at hv; simpa using hv
  have hc : cwtRaw vp = some w.raw := by
    unfold cwtRaw
    rw [h3, hw]; dsimp only
    rw [if_neg hne]
  unfold marshalPres at hm
  rw [if_pos hb, if_neg (by rw [h2, hr1]; simp), hc] at hm
  dsimp only at hm
  have hm := Option.some.inj hm
  have hd := henc _ hm.symm
  unfold parsePresAny
  rw [orElseOut_ok]
  left
  rw [envelope_read env o data _ hd]
  unfold parsePresURL
  rw [dataURL_roundtrip _ _ _ (Or.inl (by decide)) (by decide) (by decide) (by decide)]
  dsimp only
  rw [if_neg (by decide), if_pos rfl]
  unfold parsePresCWT openPresCOSE
  rw [hl.notCOSE]; dsimp only
  rw [hl.decode]; dsimp only
  rw [hw', e1]
  simp only [Option.map_some]
  rw [e2, e3]

/-! ## JSON presentations -/

namespace Spec

/-- A credential that is written in a form that can be read again: an object, a JWT, an SD-JWT with a
disclosure or a holder binding, or a COSE message of another data model than version 1. -/
structure Rewritable (hex : String → String) (sdText : JwtEnvelope → Option String) (c : PCred env.T) : Prop where
  object : c.jwt = none → c.cwt = none → ¬ IsEnvelope c.json
  jwt : ∀ e, c.jwt = some e → c.contents.sdAlg = none → JwsText env e.jwt
  sd : ∀ e, c.jwt = some e → c.contents.sdAlg ≠ none → WritesSd sdText ∧
    (e.disclosures ≠ [] ∨ e.holderBinding ≠ "") ∧ SdSetting env.toPEnv c ∧
    ∀ text, sdText e = some text → TokenText env.toPEnv text
  cwt : ∀ e, c.cwt = some e → HexText env hex e.raw ∧ c.contents.context.head? ≠ some v1ContextURI

end Spec

theorem forall2_imp {α β : Type _} {R S : α → β → Prop} {l : List α} {l' : List β} (h : List.Forall₂ R l l')
    (hi : ∀ a b, R a b → S a b) : List.Forall₂ S l l' := by
  induction h with
  | nil => exact .nil
  | cons h _ ih => exact .cons (hi _ _ h) ih

theorem universal_any (o : VpOpts env) (hex : String → String) (sdText : JwtEnvelope → Option String) (j : Json)
    (c : PCred env.T) (h : parseOneCred env o j = .ok c) (hr : Rewritable env hex sdText c) :
    ∃ j' c', universalForm hex sdText c = some j' ∧ parseOneCred env o j' = .ok c' ∧ SameCred c' c := by
  cases hw : c.cwt with
  | some e =>
    obtain ⟨k1, k2⟩ := hr.cwt e hw
    obtain ⟨j', h1, h2⟩ := universal_cwt env o j c h e hw hex k1 (fun hv => absurd hv k2) sdText
    exact ⟨j', c, h1, h2, sameCred_refl (Or.inr (by simp [hw]))⟩
  | none =>
    cases hj : c.jwt with
    | some e =>
      cases k2 : c.contents.sdAlg with
      | none =>
        obtain ⟨j', h1, h2⟩ := universal_jwt env o j c h e hj (hr.jwt e hj k2) k2 hex sdText
        exact ⟨j', c, h1, h2, sameCred_refl (Or.inl (by simp [hj]))⟩
      | some a =>
        obtain ⟨k3, k4, k5, k6⟩ := hr.sd e hj (by rw [k2]; simp)
        exact universal_sd env o j c h e hj a k2 k4 k5 hex sdText k3 k6
    | none => exact universal_object env o j c h hj hw (hr.object hj hw) hex sdText

theorem universals_read (o : VpOpts env) (hex : String → String) (sdText : JwtEnvelope → Option String)
    (l : List Json) (creds : List (PCred env.T))
    (h : List.Forall₂ (fun c j => parseOneCred env o j = .ok c) creds l)
    (hr : ∀ c ∈ creds, Rewritable env hex sdText c) :
    ∃ js cs, universals (universalForm hex sdText) creds = some js ∧ parseCreds env o js = .ok cs ∧
      List.Forall₂ SameCred cs creds := by
  induction h with
  | nil => exact ⟨[], [], rfl, rfl, .nil⟩
  | cons h1 _ ih =>
    obtain ⟨js, cs, e1, e2, e3⟩ := ih (fun c hc => hr c (List.mem_cons_of_mem _ hc))
    obtain ⟨j', c', k1, k2, k3⟩ := universal_any env o hex sdText _ _ h1 (hr _ List.mem_cons_self)
    refine ⟨j' :: js, c' :: cs, ?_, ?_, .cons k3 e3⟩
    · rw [universals, k1, Option.bind_some, e1]; rfl
    · rw [parseCreds, k2, Out.bind, e2]; rfl

theorem strElems_strs (ts : List String) : strElems (ts.map .str) = some ts := by
  induction ts with
  | nil => rfl
  | cons t l ih => rw [List.map_cons, strElems, ih]; rfl

theorem doc_not_envelope (o : VpOpts env) (data : String) (vp : Pres env.T) (cs : List Json) (doc : JObj)
    (hd : env.decodeObj data = some doc) (hdoc : PresDoc vp cs doc)
    (ht : "EnvelopedVerifiablePresentation" ∉ vp.types) : parsePresEnveloped env o data = .err := by
  unfold parsePresEnveloped
  rw [hd]; dsimp only
  split
  · rfl
  · rename_i i ts he
    rw [if_pos]
    unfold decodeEnvelope at he
    split at he
    · rename_i i' ts' c' h1 h2 h3
      cases he
      unfold JObj.at at h2
      rw [hdoc.type] at h2
      match hty : vp.types with
      | [] =>
        rw [hty] at h2
        cases h2; rfl
      | [t] =>
        rw [hty] at h2
        cases h2
      | a :: b :: l =>
        rw [hty] at h2
        have h2 : strElems ((a :: b :: l).map .str) = some ts := h2
        rw [strElems_strs] at h2
        rw [← Option.some.inj h2, ← hty]
        simpa using ht
    · cases he

/-- **C71 (partial)**: a presentation that was read and is not a JWT or COSE message is marshalled to a
text from which the same presentation is read.

Missing: custom context entries, which are not written (`custom_context_dropped`); SD-JWT credentials with
neither a disclosure nor a holder binding, which come back as plain JWT credentials (`sd_forgotten`); that a proof over the document is still valid for the rewritten document (hypothesis `hown`). -/
theorem json_marshal_roundtrip_partial (o : VpOpts env) (orig data : String) (vp : Pres env.T)
    (h : parsePresentation env o orig = .ok vp) (hj : vp.jwt = "") (hw : vp.cwt = none)
    (hcc : vp.customContext = []) (hx : vp.context ≠ []) (ht : vp.types ≠ [])
    (he : "EnvelopedVerifiablePresentation" ∉ vp.types) (hwf : WF vp.custom)
    (enc : JObj → String) (hex : String → String) (sdText : JwtEnvelope → Option String)
    (hr : ∀ c ∈ vp.credentials, Rewritable env hex sdText c)
    (hm : marshalPres enc hex (universalForm hex sdText) vp = some data)
    (henc : ∀ doc, data = enc doc → env.decodeObj data = some doc)
    (hn1 : isJWS env.toPEnv (unQuote data) = false) (hn2 : isJWTUnsecured env.toPEnv (unQuote data) = false)
    (hown : ∀ doc, env.decodeObj data = some doc → checkOwnProof env o doc = true)
    (hreq : o.requireProof = true → vp.proofs ≠ [])
    (hval : ∀ doc, env.decodeObj data = some doc → validateVP env o doc = true) :
    ∃ vp', parsePresentation env o data = .ok vp' ∧ SamePres SameCred vp' vp ∧ vp'.jwt = "" ∧ vp'.cwt = none := by
  obtain ⟨r, h1, -, -, -, h4, h5⟩ := parsePresentation_ok env o orig vp h
  obtain ⟨-, -, m3, -, -, -, m7, m8⟩ := newPres_ok env o _ _ h4
  obtain ⟨l, -, hl⟩ := decodeCredentials_forall env o (fun c j => parseOneCred env o j = .ok c)
    (fun j vc hjv => hjv) _ _ m3
  obtain ⟨js, cs, u1, u2, u3⟩ := universals_read env o hex sdText l vp.credentials hl hr
  have hclean : CustomClean vp := by
    refine ⟨hwf, fun k hk => ?_⟩
    have : vp.custom = JsonUtil.copyExcept r.raw vpFields := m7
    rw [this, JsonUtil.copyExcept_lookup]
    exact if_pos hk
  have hmr : ∃ raw, rawPres (universalForm hex sdText) vp = some raw ∧ data = enc raw := by
    have hp : marshalPlain enc (universalForm hex sdText) vp = some data := by
      unfold marshalPres at hm
      split at hm
      · rw [if_neg (by rw [hj]; simp)] at hm
        have : cwtRaw vp = none := by unfold cwtRaw; rw [hw]
        rw [this] at hm
        exact hm
      · exact hm
    unfold marshalPlain at hp
    rw [if_neg (by rw [hj]; simp)] at hp
    obtain ⟨raw, k1, k2⟩ := Option.map_eq_some_iff.1 hp
    exact ⟨raw, k1, k2.symm⟩
  obtain ⟨raw, k1, k2⟩ := hmr
  have hd := henc raw k2
  obtain ⟨js', u1', hdoc⟩ := marshal_document _ vp hclean raw k1
  rw [u1] at u1'
  have u1' := Option.some.inj u1'
  subst u1'
  have hch : executeChecks env o vp.proofs cs vp.holder = true := by
    rw [← m8]
    exact executeChecks_same env o vp.proofs cs vp.credentials vp.holder
      (forall2_imp u3 (fun _ _ hab => ⟨hab.contents, hab.proofs⟩))
  obtain ⟨custom, q1, q2⟩ := newPres_doc env o vp js raw hdoc hx ht hclean cs u2 hch
  refine ⟨⟨vp.context, [], vp.id, vp.types, cs, vp.holder, vp.proofs, "", none, custom⟩, ?_, ?_, rfl, rfl⟩
  · have hany : parsePresAny env o data = .ok ⟨raw, "", none⟩ := by
      unfold parsePresAny
      rw [doc_not_envelope env o data vp js raw hd hdoc he]
      show orElseOut (parsePresJSON env o data) (parsePresCWT env data) = .ok ⟨raw, "", none⟩
      have : parsePresJSON env o data = .ok ⟨raw, "", none⟩ := by
        unfold parsePresJSON
        rw [hn1, hn2, hd]
        simp only [Bool.false_eq_true, if_false]
        rw [hown raw hd]
        simp only [Bool.not_true, Bool.false_eq_true, if_false]
        rw [if_neg]
        intro hc
        rw [Bool.and_eq_true] at hc
        have hp := hreq hc.1
        have hc2 := hc.2
        unfold proofMissing JObj.at at hc2
        rw [hdoc.proof] at hc2
        match hps : vp.proofs with
        | [] => exact hp hps
        | [p] => rw [hps] at hc2; cases hc2
        | a :: b :: t => rw [hps] at hc2; cases hc2
      rw [this]; rfl
    unfold parsePresentation
    rw [hany]
    show (if (!validateVP env o raw) = true then _ else _) = _
    rw [hval raw hd]
    simp only [Bool.not_true, Bool.false_eq_true, if_false]
    rw [q2]
    show (if _ then _ else _) = _
    rw [if_neg]
    intro hc
    rw [Bool.and_eq_true] at hc
    have hne := h5 hc.1
    have hce : cs = [] := by simpa using hc.2
    rw [hce] at u3
    cases hcr : vp.credentials with
    | nil => exact hne hcr
    | cons a t => rw [hcr] at u3; cases u3
  · exact ⟨rfl, hcc.symm, rfl, rfl, u3, rfl, rfl, q1⟩

/-! ## JWT claims -/

/-- The claims of a presentation, as a signed payload. -/
theorem unmarshal_presClaims (holder id : String) (aud : List String) (raw : JObj)
    (hne : holder ≠ "" ∨ aud ≠ [] ∨ id ≠ "") (hraw : raw ≠ []) :
    unmarshalPres (marshalPresClaims ⟨some ⟨holder, "", aud, none, none, none, id⟩, some raw⟩) =
      some ⟨some ⟨holder, "", aud, none, none, none, id⟩, some raw⟩ := by
  obtain ⟨p, o, rfl⟩ : ∃ p o, raw = p :: o := by
    cases raw with
    | nil => exact absurd rfl hraw
    | cons p o => exact ⟨p, o, rfl⟩
  have hg : ∀ k, get? (marshalPresClaims ⟨some ⟨holder, "", aud, none, none, none, id⟩, some (p :: o)⟩) k =
      (get? (marshalClaims ⟨holder, "", aud, none, none, none, id⟩) k).or
        (if "vp" = k then some (.obj (p :: o)) else none) := by
    intro k
    unfold marshalPresClaims
    rw [get?_append]
    rfl
  have hreg : ∀ k ∈ registered,
      get? (marshalPresClaims ⟨some ⟨holder, "", aud, none, none, none, id⟩, some (p :: o)⟩) k =
      get? (marshalClaims ⟨holder, "", aud, none, none, none, id⟩) k := by
    intro k hk
    rw [hg k, if_neg (by rintro rfl; simp [registered] at hk), Option.or_none]
  have hvp : get? (marshalPresClaims ⟨some ⟨holder, "", aud, none, none, none, id⟩, some (p :: o)⟩) "vp" =
      some (.obj (p :: o)) := by
    have : get? (marshalClaims ⟨holder, "", aud, none, none, none, id⟩) "vp" = none := by
      rw [get?_eq_none_iff]
      intro hk
      have := keys_marshalClaims _ _ hk
      simp [registered] at this
    rw [hg "vp", this, if_pos rfl, Option.none_or]
  unfold unmarshalPres
  rw [decodeClaims_marshal_any _ _ hne hreg]
  unfold JObj.at
  rw [hvp]
  rfl

/-- The object that is read from the claims has the holder and the id of the presentation. -/
theorem refinePres_lookup (holder id : String) (aud : List String) (raw : JObj) :
    ∃ out, refinePres ⟨some ⟨holder, "", aud, none, none, none, id⟩, some raw⟩ = .ok (some out) ∧
      ∀ k, get? out k = if k = "holder" ∧ holder ≠ "" then some (.str holder)
        else if k = "id" ∧ id ≠ "" then some (.str id) else get? raw k := by
  by_cases h1 : holder = "" <;> by_cases h2 : id = ""
  · refine ⟨raw, ?_, fun k => ?_⟩
    · unfold refinePres; simp [h1, h2, Out.bind]
    · simp [h1, h2]
  · refine ⟨set raw "id" (.str id), ?_, fun k => ?_⟩
    · unfold refinePres; simp [h1, h2, Out.bind, assign]
    · rw [get?_set]
      by_cases hk : k = "id"
      · simp [hk, h2]
      · simp [hk, h1, Ne.symm hk]
  · refine ⟨set raw "holder" (.str holder), ?_, fun k => ?_⟩
    · unfold refinePres; simp [h1, h2, Out.bind, assign]
    · rw [get?_set]
      by_cases hk : k = "holder"
      · simp [hk, h1]
      · simp [hk, h2, Ne.symm hk]
  · refine ⟨set (set raw "holder" (.str holder)) "id" (.str id), ?_, fun k => ?_⟩
    · unfold refinePres; simp [h1, h2, Out.bind, assign]
    · rw [get?_set, get?_set]
      by_cases hk : k = "holder"
      · subst hk; simp [h1]
      · by_cases hk' : k = "id"
        · subst hk'; simp [h2]
        · simp [hk, hk', Ne.symm hk, Ne.symm hk']

/-- **C72**: the claims of a presentation, minimized or not, written to JSON and read back, stand for the
document of the presentation: nothing is lost or added, the holder and the id come from the registered
claims. -/
theorem jwt_pres_claims_roundtrip {T : Type} (u : PCred T → Option Json) (vp : Pres T) (hc : CustomClean vp)
    (aud : List String) (minimize : Bool) (c : CredClaims) (h : newPresClaims u vp aud minimize = some c)
    (hne : vp.holder ≠ "" ∨ aud ≠ [] ∨ vp.id ≠ "") (hx : vp.context ≠ []) :
    ∃ cs doc, universals u vp.credentials = some cs ∧
      decodePresPayload (marshalPresClaims c) = .ok doc ∧ PresDoc vp cs doc := by
  unfold newPresClaims at h
  obtain ⟨raw, h1, h2⟩ := Option.map_eq_some_iff.1 h
  have hraw : ∃ cs, universals u vp.credentials = some cs ∧
      PresDoc (if minimize then { vp with id := "", holder := "" } else vp) cs raw := by
    cases minimize with
    | false => exact marshal_document u vp hc raw h1
    | true => exact marshal_document u { vp with id := "", holder := "" } hc raw h1
  obtain ⟨cs, hcs, hd⟩ := hraw
  have hd1 : get? raw "@context" = some (.arr (vp.context.map .str)) := by
    have := hd.context
    cases minimize with
    | false => rw [this]; exact if_neg hx
    | true => rw [this]; exact if_neg hx
  have hrne : raw ≠ [] := by
    rintro rfl; cases hd1
  obtain ⟨out, h3, h4⟩ := refinePres_lookup vp.holder vp.id aud raw
  refine ⟨cs, out, hcs, ?_, ?_⟩
  · unfold decodePresPayload
    rw [← h2, unmarshal_presClaims _ _ _ _ hne hrne]
    dsimp only
    rw [h3]
    rfl
  · have hid : get? raw "id" = if minimize then none else Text vp.id := by
      rw [hd.id]; cases minimize <;> rfl
    have hho : get? raw "holder" = if minimize then none else Text vp.holder := by
      rw [hd.holder]; cases minimize <;> rfl
    have other : ∀ k, k ≠ "holder" → k ≠ "id" → get? out k = get? raw k := by
      intro k k1 k2
      rw [h4]; simp [k1, k2]
    constructor
    · rw [other _ (by decide) (by decide), hd1, if_neg hx]
    · rw [h4]
      unfold Text at hid ⊢
      by_cases e : vp.id = ""
      · simp only [e, if_true] at hid ⊢
        rw [hid]; simp
      · simp [e]
    · rw [other _ (by decide) (by decide), hd.type]; cases minimize <;> rfl
    · rw [h4]
      unfold Text at hho ⊢
      by_cases e : vp.holder = ""
      · simp only [e, if_true] at hho ⊢
        rw [hho]; simp
      · simp [e]
    · rw [other _ (by decide) (by decide), hd.proof]; cases minimize <;> rfl
    · rw [other _ (by decide) (by decide), hd.vc]
    · intro k hk
      have k1 : k ≠ "holder" := fun e => hk (by simp [presMembers, e])
      have k2 : k ≠ "id" := fun e => hk (by simp [presMembers, e])
      rw [other k k1 k2, hd.custom k hk]; cases minimize <;> rfl

/-! ## Panics -/

theorem refinePres_panic_iff (c : CredClaims) :
    refinePres c = .panic ↔ c.claims = none ∨
      (c.vc = none ∧ ∃ r, c.claims = some r ∧ (r.iss ≠ "" ∨ r.jti ≠ "")) := by
  unfold refinePres
  cases hc : c.claims with
  | none => simp
  | some r =>
    cases hv : c.vc with
    | none =>
      by_cases h1 : r.iss = "" <;> by_cases h2 : r.jti = "" <;> simp [h1, h2, assign, Out.bind]
    | some m =>
      by_cases h1 : r.iss = "" <;> by_cases h2 : r.jti = "" <;> simp [h1, h2, assign, Out.bind]

/-- **C73**: which payloads make the decoder of JWT presentations panic. -/
theorem pres_payload_panics_iff (p : JObj) :
    decodePresPayload p = .panic ↔ ∃ c, unmarshalPres p = some c ∧ (c.claims = none ∨
      (c.vc = none ∧ ∃ r, c.claims = some r ∧ (r.iss ≠ "" ∨ r.jti ≠ ""))) := by
  unfold decodePresPayload
  cases hc : unmarshalPres p with
  | none => simp
  | some c =>
    simp only [Option.some.injEq]
    constructor
    · intro h
      refine ⟨c, rfl, (refinePres_panic_iff c).1 ?_⟩
      cases hr : refinePres c with
      | ok v => rw [hr] at h; cases h
      | err => rw [hr] at h; cases h
      | panic => rfl
    · rintro ⟨c', rfl, h⟩
      rw [(refinePres_panic_iff c).2 h]
      rfl

/-- A payload without any registered claim, and with no or a proper `vp` claim. -/
theorem pres_payload_panics (p : JObj) (hk : ∀ k ∈ keys p, k ∉ registered)
    (hv : get? p "vp" = none ∨ get? p "vp" = some .null ∨ ∃ m, get? p "vp" = some (.obj m)) :
    decodePresPayload p = .panic := by
  rw [pres_payload_panics_iff]
  have h1 : decodeClaims p = some none := by
    unfold decodeClaims
    rw [if_neg]
    simp only [List.any_eq_true, List.contains_iff_mem, not_exists, not_and]
    intro e he hc
    exact hk e.1 (List.mem_map_of_mem he) hc
  have h2 : ∃ v, decodeVCField (JObj.at p "vp") = some v := by
    unfold JObj.at
    rcases hv with hv | hv | ⟨m, hv⟩ <;> rw [hv] <;> exact ⟨_, rfl⟩
  obtain ⟨v, h2⟩ := h2
  refine ⟨⟨none, v⟩, ?_, Or.inl rfl⟩
  unfold unmarshalPres
  rw [h1, h2]

/-- **C73 (partial)**: no panic if a registered claim and a `vp` object are there. -/
theorem pres_payload_no_panic_partial (p : JObj) (k : String) (hk : k ∈ registered) (hp : k ∈ keys p) (m : JObj)
    (hv : get? p "vp" = some (.obj m)) : decodePresPayload p ≠ .panic := by
  rw [Ne, pres_payload_panics_iff]
  rintro ⟨c, hc, h⟩
  have hd : c.vc = some m := by
    unfold unmarshalPres JObj.at at hc
    rw [hv] at hc
    split at hc
    · rename_i a b h1 h2
      cases hc; exact (Option.some.inj h2).symm
    · cases hc
  rcases h with h | ⟨h, -⟩
  · unfold unmarshalPres at hc
    split at hc
    · rename_i a b h1 h2
      cases hc
      have h : a = none := h
      rw [h] at h1
      unfold decodeClaims at h1
      rw [if_pos] at h1
      · simp only [Option.bind_eq_bind, Option.bind_eq_some_iff, Option.pure_def, Option.some.injEq] at h1
        obtain ⟨_, -, _, -, _, -, _, -, _, -, _, -, _, -, h1⟩ := h1
        cases h1
      · simp only [List.any_eq_true, List.contains_iff_mem]
        obtain ⟨e, he, rfl⟩ := List.mem_map.1 hp
        exact ⟨e, he, hk⟩
    · cases hc
  · rw [hd] at h; cases h

/-- **C73 fails**: an unsecured JWT without registered claims makes `ParsePresentation` panic, whatever
the options. No key is needed to make such a text. -/
theorem unsecured_presentation_panics (o : VpOpts env) (data : String) (t : JWT.Token × Proof.Bytes)
    (hd : env.decodeObj data = none) (hs : isJWS env.toPEnv (unQuote data) = false)
    (hu : isJWTUnsecured env.toPEnv (unQuote data) = true)
    (ht : JWT.parse env.lib none (unQuote data) = .ok t)
    (hk : ∀ k ∈ keys t.1.payload, k ∉ registered)
    (hv : get? t.1.payload "vp" = none ∨ get? t.1.payload "vp" = some .null ∨
      ∃ m, get? t.1.payload "vp" = some (.obj m)) :
    parsePresentation env o data = .panic := by
  have h1 : parsePresEnveloped env o data = .err := by
    unfold parsePresEnveloped; rw [hd]
  have h2 : parsePresJSON env o data = .panic := by
    unfold parsePresJSON decodeVPFromUnsecured
    rw [hs, hu, ht]
    simp only [Bool.false_eq_true, if_false, if_true]
    rw [pres_payload_panics _ hk hv]
    rfl
  unfold parsePresentation parsePresAny
  rw [h1, h2]
  rfl

end VC.Vfy
