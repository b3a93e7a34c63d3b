import Verif.Cwt.CreateProps
import Verif.SDJWT.FromVC
/-!
# C90: CWT presentations

What `CreateCWTVP` writes is read back by `ParsePresentation` as the same presentation, unless the
caller asked for a minimized presentation: then the holder and the id are lost.
-/

namespace VC.Cwt

open GoMap (get?)
open VC.Vfy
open VC.Vfy.Spec
open VC.Proof (Bytes CwtReq)
open VC.SDJWT (JEq OEq JE JWF JWFObj JWFArr)
open Spec

variable (lib : Lib)

namespace Spec

/-- The claims of a presentation as JSON: holder, audience and id in the registered claims, its
document under `vp`. -/
def presClaims (holder : String) (aud : List String) (id : String) (doc : JObj) : JObj :=
  (if holder = "" then [] else [("iss", .str holder)]) ++
  (if aud = [] then [] else [("aud", .arr (aud.map .str))]) ++
  (if id = "" then [] else [("jti", .str id)]) ++
  (if doc = [] then [] else [("vp", .obj doc)])

/-- The presentation without holder and id. -/
def Minimized {T : Type} (minimize : Bool) (vp : Pres T) : Pres T :=
  if minimize then { vp with id := "", holder := "" } else vp

end Spec

theorem ofJsonM_append : ∀ a b : JObj, ofJsonM (a ++ b) = ofJsonM a ++ ofJsonM b
  | [], _ => by simp [ofJsonM]
  | (k, v) :: a, b => by simp [ofJsonM, ofJsonM_append a b]

theorem ofJsonL_strs : ∀ l : List String, ofJsonL (l.map .str) = l.map .str
  | [] => by simp [ofJsonL]
  | s :: l => by simp [ofJsonL, ofJson, ofJsonL_strs l]

theorem presEntries_json (holder id : String) (aud : List String) (doc : JObj) :
    presEntries ⟨some ⟨holder, "", aud, none, none, none, id⟩, some doc⟩ =
      ofJsonM (presClaims holder aud id doc) := by
  unfold presEntries presClaims strEntry mapEntry
  simp only [ofJsonM_append, Option.elim, Option.getD]
  congr 1
  · congr 1
    · congr 1
      · by_cases h : holder = "" <;> simp [h, ofJsonM, ofJson]
      · cases aud with
        | nil => simp [ofJsonM]
        | cons a l => simp [ofJsonM, ofJson, ofJsonL, ofJsonL_strs]
    · by_cases h : id = "" <;> simp [h, ofJsonM, ofJson]
  · cases doc <;> simp [ofJsonM, ofJson]

theorem jwfArr_strs : ∀ l : List String, JWFArr (l.map Json.str)
  | [] => by simp [JWFArr]
  | s :: l => by simp [JWFArr, JWF, jwfArr_strs l]

theorem jwfObj_append : ∀ a b : JObj, JWFObj a → JWFObj b → JWFObj (a ++ b)
  | [], _, _, hb => hb
  | (k, v) :: a, b, ha, hb => by
    simp only [JWFObj] at ha
    simp only [List.cons_append, JWFObj]
    exact ⟨ha.1, jwfObj_append a b ha.2 hb⟩

theorem presClaims_wf (holder id : String) (aud : List String) (doc : JObj) (h : JWF (.obj doc)) :
    JWF (.obj (presClaims holder aud id doc)) := by
  simp only [JWF]
  constructor
  · unfold presClaims GoMap.keys
    by_cases h1 : holder = "" <;> by_cases h2 : aud = [] <;> by_cases h3 : id = "" <;>
      by_cases h4 : doc = [] <;> simp [h1, h2, h3, h4]
  · unfold presClaims
    refine jwfObj_append _ _ (jwfObj_append _ _ (jwfObj_append _ _ ?_ ?_) ?_) ?_
    · by_cases h1 : holder = "" <;> simp [h1, JWFObj, JWF]
    · by_cases h1 : aud = [] <;> simp [h1, JWFObj, JWF, jwfArr_strs]
    · by_cases h1 : id = "" <;> simp [h1, JWFObj, JWF]
    · by_cases h1 : doc = []
      · simp [h1, JWFObj]
      · rw [if_neg h1]
        simp only [JWFObj, and_true]
        exact h

theorem presClaims_vp (holder id : String) (aud : List String) (doc : JObj) (h : doc ≠ []) :
    get? (presClaims holder aud id doc) "vp" = some (.obj doc) := by
  unfold presClaims
  rw [if_neg h]
  simp only [GoMap.get?_append]
  by_cases h1 : holder = "" <;> by_cases h2 : aud = [] <;> by_cases h3 : id = "" <;>
    simp [h1, h2, h3, GoMap.get?_cons, GoMap.get?]

theorem rawPres_wf {T : Type} (u : PCred T → Option Json) (vp : Pres T) (doc : JObj)
    (h : rawPres u vp = some doc) : GoMap.WF doc := by
  unfold rawPres at h
  obtain ⟨cs, -, rfl⟩ := Option.map_eq_some_iff.1 h
  apply JsonUtil.merge_wf
  unfold rawFixed member GoMap.WF GoMap.keys
  by_cases h1 : vp.context.isEmpty <;> by_cases h2 : vp.id = "" <;> by_cases h3 : vp.types.isEmpty <;>
    by_cases h4 : vp.holder = "" <;> by_cases h5 : vp.proofs.isEmpty <;> by_cases h6 : cs.isEmpty <;>
    simp [h1, h2, h3, h4, h5, h6]

namespace Spec

/-- The JSON data inside a presentation has no object with a repeated member. -/
structure PresWF {T : Type} (u : PCred T → Option Json) (vp : Pres T) : Prop where
  custom : JWFObj vp.custom
  proofs : ∀ p ∈ vp.proofs, JWF (.obj p)
  creds : ∀ c ∈ vp.credentials, ∀ j, u c = some j → JWF j

end Spec

theorem universals_wf {T : Type} (u : PCred T → Option Json) : ∀ (l : List (PCred T)) (cs : List Json),
    (∀ c ∈ l, ∀ j, u c = some j → JWF j) → universals u l = some cs → ∀ j ∈ cs, JWF j
  | [], cs, _, h => by simp only [universals, Option.some.injEq] at h; subst h; simp
  | c :: l, cs, hl, h => by
    simp only [universals, Option.bind_eq_some_iff, Option.map_eq_some_iff] at h
    obtain ⟨j, h1, cs', h2, rfl⟩ := h
    intro x hx
    rcases List.mem_cons.1 hx with rfl | hx
    · exact hl c (by simp) _ h1
    · exact universals_wf u l cs' (fun c hc => hl c (by simp [hc])) h2 x hx

theorem jwfArr_iff (l : List Json) : JWFArr l ↔ ∀ j ∈ l, JWF j := by
  induction l with
  | nil => simp [JWFArr]
  | cons a l ih => simp [JWFArr, ih]

theorem compact_wf {l : List Json} (h : ∀ j ∈ l, JWF j) {v : Json} (hv : Compact l = some v) : JWF v := by
  match l, hv with
  | [j], hv => cases hv; exact h _ (by simp)
  | a :: b :: l, hv =>
    cases hv
    simp only [JWF]
    exact (jwfArr_iff _).2 h

theorem text_wf {s : String} {v : Json} (h : Text s = some v) : JWF v := by
  unfold Text at h
  split at h <;> cases h
  simp [JWF]

theorem presDoc_wf {T : Type} (u : PCred T → Option Json) {vp : Pres T} {cs : List Json} {doc : JObj}
    (hd : PresDoc vp cs doc) (hw : GoMap.WF doc) (hp : PresWF u vp)
    (hcs : universals u vp.credentials = some cs) : JWF (.obj doc) := by
  simp only [JWF]
  refine ⟨hw, (SDJWT.jwfObj_iff doc).2 ?_⟩
  rintro ⟨k, v⟩ hkv
  have hg := GoMap.get?_of_mem hw hkv
  dsimp only
  have strs : ∀ l : List String, ∀ j ∈ l.map Json.str, JWF j := by
    intro l j hj
    obtain ⟨s, -, rfl⟩ := List.mem_map.1 hj
    simp [JWF]
  by_cases hk : k ∈ presMembers
  · simp only [presMembers, List.mem_cons, List.not_mem_nil, or_false] at hk
    rcases hk with rfl | rfl | rfl | rfl | rfl | rfl
    · rw [hd.context] at hg
      split at hg <;> cases hg
      simp only [JWF]; exact jwfArr_strs _
    · rw [hd.id] at hg; exact text_wf hg
    · rw [hd.type] at hg; exact compact_wf (strs _) hg
    · rw [hd.vc] at hg
      split at hg <;> cases hg
      simp only [JWF]
      exact (jwfArr_iff _).2 (universals_wf u _ _ hp.creds hcs)
    · rw [hd.holder] at hg; exact text_wf hg
    · rw [hd.proof] at hg
      refine compact_wf (fun j hj => ?_) hg
      obtain ⟨p, hp', rfl⟩ := List.mem_map.1 hj
      exact hp.proofs p hp'
  · rw [hd.custom k hk] at hg
    exact (SDJWT.jwfObj_iff _).1 hp.custom _ (GoMap.mem_of_get? hg)

/-- **C90** (presentations, what is made): `CreateCWTVP` changes nothing of the presentation but its
envelope; the message carries holder, audience, id and the document of the presentation - without
holder and id when minimized - and the signature of the signer. -/
theorem cwt_presentation_created {T : Type} (u : PCred T → Option Json)
    (sign : String → Int → Bytes → Option Bytes) (alg : Int) (kid : String) (vp vp' : Pres T)
    (hc : CustomClean vp) (aud : List String) (minimize : Bool)
    (h : createCWTVP lib u sign alg kid vp aud minimize = some vp') :
    ∃ w cs doc, vp' = { vp with cwt := some w, jwt := "" } ∧ universals u vp.credentials = some cs ∧
      GoMap.WF doc ∧ PresDoc (Minimized minimize vp) cs doc ∧
      Made lib sign alg kid (ofJsonM (presClaims vp.holder aud vp.id doc)) ⟨w.raw, w.message⟩ ∧
      vpMap lib w.message.payload = some w.vpMap := by
  unfold createCWTVP at h
  cases hn : newPresClaims u vp aud minimize with
  | none => rw [hn] at h; cases h
  | some c =>
    rw [hn] at h; dsimp only at h
    cases hm : marshalCOSE lib sign (presEntries c) alg kid with
    | none => rw [hm] at h; cases h
    | some p =>
      obtain ⟨raw, m⟩ := p
      rw [hm] at h; dsimp only at h
      cases hv : vpMap lib m.payload with
      | none => rw [hv] at h; cases h
      | some vm =>
        rw [hv] at h
        cases h
        unfold newPresClaims at hn
        obtain ⟨doc, h1, h2⟩ := Option.map_eq_some_iff.1 hn
        have hd : ∃ cs, universals u vp.credentials = some cs ∧ PresDoc (Minimized minimize vp) cs doc := by
          cases minimize with
          | false => exact marshal_document u vp hc doc h1
          | true => exact marshal_document u { vp with id := "", holder := "" } hc doc h1
        obtain ⟨cs, h3, h4⟩ := hd
        refine ⟨⟨raw, m, vm⟩, cs, doc, rfl, h3, rawPres_wf u _ doc h1, h4, ?_, hv⟩
        have := made_of_marshal lib hm
        rw [← h2, presEntries_json] at this
        exact this

theorem vpContent_of {m doc : JObj} (h : get? m "vp" = some (.obj doc)) : vpContent m = doc := by
  unfold vpContent; rw [h]

theorem presDoc_ne {T : Type} {vp : Pres T} {cs : List Json} {doc : JObj} (h : PresDoc vp cs doc)
    (hx : vp.context ≠ []) : doc ≠ [] := by
  rintro rfl
  have := h.context
  rw [if_neg hx] at this
  cases this

theorem presWF_minimized {T : Type} {u : PCred T → Option Json} {vp : Pres T} (h : PresWF u vp)
    (minimize : Bool) : PresWF u (Minimized minimize vp) := by
  cases minimize
  · exact h
  · exact ⟨h.custom, h.proofs, h.creds⟩

theorem minimized_creds {T : Type} (vp : Pres T) (minimize : Bool) :
    (Minimized minimize vp).credentials = vp.credentials ∧ (Minimized minimize vp).context = vp.context := by
  cases minimize <;> exact ⟨rfl, rfl⟩

/-- **C90** (presentations, what is read): the document in the payload of a presentation that the
library made is the document of the presentation - without holder and id when minimized - up to the
order of members, whatever order Go visits the maps in. -/
theorem cwt_pres_content_read {T : Type} (u : PCred T → Option Json)
    (sign : String → Int → Bytes → Option Bytes) (alg : Int) (kid : String) (vp vp' : Pres T)
    (hc : CustomClean vp) (hx : vp.context ≠ []) (aud : List String) (minimize : Bool)
    (h : createCWTVP lib u sign alg kid vp aud minimize = some vp') (w : VpCwt) (hw : vp'.cwt = some w)
    (hdec : ∀ m, lib.encode m = some w.message.payload → lib.decode w.message.payload = some m)
    (hs : ∀ s, lib.sprint (.str s) = s) (hf : Fair lib.ord) (hp : PresWF u vp) :
    ∃ cs doc, universals u vp.credentials = some cs ∧
      PresDoc (Minimized minimize vp) cs doc ∧ OEq doc (vpContent w.vpMap) := by
  obtain ⟨w', cs, doc, rfl, h1, hwf, h2, h3, h4⟩ :=
    cwt_presentation_created lib u sign alg kid vp vp' hc aud minimize h
  cases hw
  refine ⟨cs, doc, h1, h2, ?_⟩
  have hd := hdec _ h3.payload
  have hjw := presDoc_wf u h2 hwf (presWF_minimized hp minimize)
    (by rw [(minimized_creds vp minimize).1]; exact h1)
  obtain ⟨m', h5, h6⟩ := json_object_survives lib.sprint lib.ord hs hf _
    (presClaims_wf vp.holder vp.id aud doc hjw)
  unfold vpMap at h4
  rw [hd] at h4
  dsimp only at h4
  have hm' : m' = w.vpMap := by rw [h5] at h4; exact Option.some.inj h4
  subst hm'
  have hne : doc ≠ [] := presDoc_ne h2 (by rw [(minimized_creds vp minimize).2]; exact hx)
  have hvp := presClaims_vp vp.holder vp.id aud doc hne
  rcases SDJWT.JEq.get h6 "vp" with ⟨h7, -⟩ | ⟨v, v', h7, h8, h9⟩
  · rw [hvp] at h7; cases h7
  · rw [hvp] at h7
    cases h7
    have := h9.shape
    cases v' with
    | obj o => rw [vpContent_of h8]; simpa using this
    | _ => simp at this

/-- The same without reordering. -/
theorem cwt_pres_content_exact {T : Type} (u : PCred T → Option Json)
    (sign : String → Int → Bytes → Option Bytes) (alg : Int) (kid : String) (vp vp' : Pres T)
    (hc : CustomClean vp) (hx : vp.context ≠ []) (aud : List String) (minimize : Bool)
    (h : createCWTVP lib u sign alg kid vp aud minimize = some vp') (w : VpCwt) (hw : vp'.cwt = some w)
    (hdec : ∀ m, lib.encode m = some w.message.payload → lib.decode w.message.payload = some m)
    (hs : ∀ s, lib.sprint (.str s) = s) (hf : lib.ord = fun _ l => l) (hp : PresWF u vp) :
    ∃ cs, universals u vp.credentials = some cs ∧
      PresDoc (Minimized minimize vp) cs (vpContent w.vpMap) := by
  obtain ⟨w', cs, doc, rfl, h1, hwf, h2, h3, h4⟩ :=
    cwt_presentation_created lib u sign alg kid vp vp' hc aud minimize h
  cases hw
  refine ⟨cs, h1, ?_⟩
  have hd := hdec _ h3.payload
  have hjw := presDoc_wf u h2 hwf (presWF_minimized hp minimize)
    (by rw [(minimized_creds vp minimize).1]; exact h1)
  have h5 := convertToStringMap_id lib.sprint hs _ (presClaims_wf vp.holder vp.id aud doc hjw)
  unfold vpMap at h4
  rw [hd, hf] at h4
  dsimp only at h4
  rw [h5] at h4
  have hne : doc ≠ [] := presDoc_ne h2 (by rw [(minimized_creds vp minimize).2]; exact hx)
  rw [← Option.some.inj h4, vpContent_of (presClaims_vp vp.holder vp.id aud doc hne)]
  exact h2

/-- The text of the message of a presentation, read again. -/
theorem parsePresCWT_made (env : VEnv) {w : VpCwt} (hcwt : env.cwtMap = vpMap lib)
    (hv : vpMap lib w.message.payload = some w.vpMap)
    (hmsg : env.parseCOSE w.raw = some w.message) :
    parsePresCWT env w.raw = .ok ⟨vpContent w.vpMap, "", some w⟩ := by
  unfold parsePresCWT openPresCOSE
  rw [hmsg]
  dsimp only
  rw [hcwt, hv]

/-- **C90 (partial)** (presentations, round trip): a presentation made with `CreateCWTVP`, not
minimized, is parsed from the message as the same presentation.  The text of the message is not
mistaken for JSON or a JWT (`hj`), the codec reads what it wrote, and the checks the caller asks for
pass.

Missing: minimized presentations, which lose holder and id (`cwt_minimized_loses_holder`). -/
theorem cwt_pres_roundtrip_partial (env : VEnv) (o : VpOpts env) (u : PCred env.T → Option Json)
    (sign : String → Int → Bytes → Option Bytes) (alg : Int) (kid : String) (vp vp' : Pres env.T)
    (hc : CustomClean vp) (hx : vp.context ≠ []) (ht : vp.types ≠ []) (aud : List String)
    (h : createCWTVP lib u sign alg kid vp aud false = some vp') (w : VpCwt) (hw : vp'.cwt = some w)
    (hdec : ∀ m, lib.encode m = some w.message.payload → lib.decode w.message.payload = some m)
    (hs : ∀ s, lib.sprint (.str s) = s) (hf : lib.ord = fun _ l => l) (hp : PresWF u vp)
    (hcwt : env.cwtMap = vpMap lib) (hmsg : env.parseCOSE w.raw = some w.message)
    (hj : parsePresEnveloped env o w.raw = .err ∧ parsePresJSON env o w.raw = .err)
    (creds : List (PCred env.T))
    (hcr : ∀ cs, universals u vp.credentials = some cs → parseCreds env o cs = .ok creds)
    (hval : validateVP env o (vpContent w.vpMap) = true) (hreq : o.requireVC = true → creds ≠ [])
    (hch : executeChecks env o vp.proofs creds vp.holder = true) :
    ∃ custom, (∀ k, get? custom k = get? vp.custom k) ∧
      parsePresentation env o w.raw = .ok ⟨vp.context, [], vp.id, vp.types, creds, vp.holder, vp.proofs,
        "", some w, custom⟩ := by
  obtain ⟨cs, h1, h2⟩ := cwt_pres_content_exact lib u sign alg kid vp vp' hc hx aud false h w hw hdec hs hf hp
  obtain ⟨w', cs', doc, rfl, -, -, -, -, h4⟩ :=
    cwt_presentation_created lib u sign alg kid vp vp' hc aud false h
  cases hw
  have h5 := parsePresCWT_made lib env hcwt h4 hmsg
  obtain ⟨custom, h6, h7⟩ := newPres_doc env o vp cs _ h2 hx ht hc creds (hcr cs h1) hch
  refine ⟨custom, h6, ?_⟩
  unfold parsePresentation parsePresAny
  rw [hj.1, hj.2]
  simp only [orElseOut, h5, Out.bind, h7, hval]
  by_cases hr : o.requireVC = true
  · have := hreq hr
    cases creds with
    | nil => exact absurd rfl this
    | cons a l => simp
  · simp [hr]

/-- **C90** (violated for minimized presentations): whatever is parsed from a minimized presentation
has neither the holder nor the id of the presentation, although its claims carry both. -/
theorem cwt_minimized_loses_holder (env : VEnv) (o : VpOpts env) (u : PCred env.T → Option Json)
    (sign : String → Int → Bytes → Option Bytes) (alg : Int) (kid : String) (vp vp' : Pres env.T)
    (hc : CustomClean vp) (hx : vp.context ≠ []) (aud : List String)
    (h : createCWTVP lib u sign alg kid vp aud true = some vp') (w : VpCwt) (hw : vp'.cwt = some w)
    (hdec : ∀ m, lib.encode m = some w.message.payload → lib.decode w.message.payload = some m)
    (hs : ∀ s, lib.sprint (.str s) = s) (hf : lib.ord = fun _ l => l) (hp : PresWF u vp)
    (hcwt : env.cwtMap = vpMap lib) (hmsg : env.parseCOSE w.raw = some w.message)
    (hj : parsePresEnveloped env o w.raw = .err ∧ parsePresJSON env o w.raw = .err)
    (r : Pres env.T) (hr : parsePresentation env o w.raw = .ok r) :
    r.holder = "" ∧ r.id = "" ∧
    ∃ m, lib.decode w.message.payload = some m ∧
      (vp.holder ≠ "" → strMember m "iss" = some (.str vp.holder)) ∧
      (vp.id ≠ "" → strMember m "jti" = some (.str vp.id)) := by
  obtain ⟨cs, h1, h2⟩ := cwt_pres_content_exact lib u sign alg kid vp vp' hc hx aud true h w hw hdec hs hf hp
  obtain ⟨w', cs', doc, rfl, -, -, -, h3, h4⟩ :=
    cwt_presentation_created lib u sign alg kid vp vp' hc aud true h
  cases hw
  have h5 := parsePresCWT_made lib env hcwt h4 hmsg
  have h6 : ∃ p, newPres env o (vpContent w.vpMap) = .ok p ∧ r.holder = p.holder ∧ r.id = p.id := by
    unfold parsePresentation parsePresAny at hr
    rw [hj.1, hj.2] at hr
    simp only [orElseOut, h5, Out.bind] at hr
    split at hr
    · cases hr
    · split at hr
      · rename_i p hpp
        dsimp only at hr
        split at hr
        · cases hr
        · cases hr; exact ⟨p, hpp, rfl, rfl⟩
      · cases hr
      · cases hr
  obtain ⟨p, h7, h8, h9⟩ := h6
  obtain ⟨-, -, -, -, e5, e6, -⟩ := newPres_ok env o _ p h7
  have n1 : get? (vpContent w.vpMap) "id" = none := h2.id
  have n2 : get? (vpContent w.vpMap) "holder" = none := h2.holder
  refine ⟨?_, ?_, _, hdec _ h3.payload, fun hh => ?_, fun hi => ?_⟩
  · rw [h8]
    unfold JObj.at at e6
    rw [n2] at e6
    exact (Option.some.inj e6).symm
  · rw [h9]
    rw [parseStringFld_absent n1] at e5
    exact (Option.some.inj e5).symm
  · unfold presClaims
    simp [hh, ofJsonM, ofJsonM_append, strMember, ofJson]
  · unfold presClaims
    simp only [ofJsonM_append, strMember_append, hi, if_false]
    by_cases e1 : vp.holder = "" <;> by_cases e2 : aud = [] <;> simp [e1, e2, ofJsonM, ofJson, strMember]

end VC.Cwt
