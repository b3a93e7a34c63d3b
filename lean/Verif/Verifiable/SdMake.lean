import Verif.Verifiable.RefineAgree
import Verif.Verifiable.SdMarshal
/-!
# verifiable: reading the claims of an SD-JWT credential back, and displaying it (C109)

`MakeSDJWT` (verifiable/credential_sdjwt.go:335-438) hands the JWT claims of a credential to
`issuer.NewFromVC`; `ParseCredential` reads the signed claims; `CreateDisplayCredential(Map)` (470-570)
puts the disclosed claims back.
-/

namespace VC.Vfy

open GoMap
open VC.SDJWT (JWF JWFObj Unreserved UnreservedObj Solid SolidObj OEq JEq JE DMap IEnv Ver Members noOpts
  makeEnv withSelective mkPayload AroundOk ClaimsOk EnvWF AlgOk Shuffles Codec DistinctDigests NamedKeysObj Ent)

/-! ## Model -/

/-- The claims `makeSDJWT` hands to `NewFromVC`, credential_sdjwt.go:372-392: the JWT claims of the
credential, not minimized; flat for version 5 (`ToSDJWTV5CredentialPayload`, credential_jwt.go:62-77),
else with the credential under `vc`. -/
def makeClaims : Ver → Claims → JObj → JObj
  | .v2, r, x => marshalCred ⟨some r, some x⟩
  | .v5, r, x => payloadV5 r x

variable (env : PEnv)

/-- `CreateDisplayCredentialMap`, credential_sdjwt.go:532-573: the JWT is decoded again. (In the Go code
`clearEmpty` also empties objects inside the values of the credential's own disclosures, which are shared.) -/
def createDisplayMap (vc : PCred env.T) (all : Bool) (given : List String) : Res JObj :=
  if all && !given.isEmpty then .err
  else match vc.contents.sdAlg, vc.jwt with
  | some _, some e => (decodeCredJWT env e.jwt).bind fun r =>
      match SDJWT.getDisclosedClaims env.sd (displayDiscs e.disclosures all given) r.2 with
      | .error _ => .err
      | .ok o => .ok (clearSubject o)
  | _, _ => .ok vc.json

/-- `CreateDisplayCredential`, credential_sdjwt.go:470-523: no proofs, no envelope, and the contents
parsed as those of a plain credential. -/
def createDisplay (vc : PCred env.T) (all : Bool) (given : List String) : Res (PCred env.T) :=
  if all && !given.isEmpty then .err
  else match vc.contents.sdAlg, vc.jwt with
  | some _, some e => (decodeCredJWT env e.jwt).bind fun r =>
      match SDJWT.getDisclosedClaims env.sd (displayDiscs e.disclosures all given) r.2 with
      | .error _ => .err
      | .ok o =>
        match parseContents env.toCEnv (ofWire (del (clearSubject o) "proof")) false with
        | none => .err
        | some c => .ok ⟨del (clearSubject o) "proof", c, [], none, none⟩
  | _, _ => .ok vc

/-! ## Specification -/

namespace Spec

/-- A credential that can be made an SD-JWT and read back: its JSON and contents agree, it is not an
SD-JWT credential already, its dates are dates a JWT carries, its subject is one object without a `cnf`,
and its JSON uses no name reserved by SD-JWT; for version 5 it uses no name of a JWT claim either, and no
member of the subject has an empty name. -/
structure Issuable (vc : Cred env.T) (ver : Ver) (cs : JObj) : Prop where
  agrees : Agrees env.toCEnv vc
  plain : vc.contents.sdAlg = none
  issued : ∀ w, vc.contents.issued = some w → ClaimDate env.toJEnv w
  expired : ∀ w, vc.contents.expired = some w → ClaimDate env.toJEnv w
  subject : get? (wireObj vc.json) "credentialSubject" = some (.obj cs)
  json : JWF (.obj (wireObj vc.json))
  unreserved : UnreservedObj (wireObj vc.json)
  noCnf : "cnf" ∉ keys cs
  names : ver = .v5 → (∀ k ∈ keys (wireObj vc.json), k ∉ registered ∧ k ≠ "vc") ∧ NamedKeysObj cs

/-- Issuer and reader use the same libraries: hash, base64 and JSON of disclosures, upper-casing; the hash
is a supported one, shuffling permutes, and map iteration visits every key. -/
structure SdLibs (E : IEnv) : Prop where
  same : E.env = env.sd
  upper : env.toCEnv.upper = env.sd.upper
  decode : EnvWF env.sd
  order : ∀ D, ∀ d ∈ keys D, d ∈ env.dOrder D
  shuffles : Shuffles E
  alg : AlgOk E

/-- The contents `c` of a credential whose subject is known only by its id: everything else is as in
`vc`, dates to the second. -/
structure SameButSubject (vc c : Contents env.T) : Prop where
  same : SameToSecond env.toJEnv vc { c with subject := vc.subject, sdAlg := vc.sdAlg }
  subject : c.subject.map (·.id) = vc.subject.map (·.id)

end Spec

open Spec

/-! ## Small facts -/

theorem splitObj_id (m : JObj) : (JsonUtil.splitObj ["id"] m).2 = m.filter (fun p => p.1 != "id") := by
  induction m with
  | nil => rfl
  | cons p m ih =>
    obtain ⟨k, v⟩ := p
    simp only [JsonUtil.splitObj, List.filter_cons]
    by_cases e : k = "id"
    · subst e; simpa using ih
    · have : (["id"] : List String).contains k = false := by simp [e]
      rw [this, ih]
      simp [e]

theorem subject_of_id {o : JObj} {id : String} (h : get? o "id" = some (.str id)) :
    parseSubject (.json (.obj o)) = some [⟨id, o.filter (fun p => p.1 != "id")⟩] := by
  simp only [parseSubject, subjectFromJSON]
  have h1 := (JsonUtil.split_lookup ["id"] o "id").1
  rw [if_pos (by simp), h] at h1
  unfold parseStringFld JObj.at
  rw [h1, splitObj_id]
  rfl

theorem subject_id_of {o : JObj} {s : Subject} (h : parseSubject (.json (.obj o)) = some [s]) (hs : s.id ≠ "") :
    get? o "id" = some (.str s.id) ∧ s.custom = o.filter (fun p => p.1 != "id") := by
  simp only [parseSubject, subjectFromJSON] at h
  have h1 := (JsonUtil.split_lookup ["id"] o "id").1
  rw [if_pos (by simp)] at h1
  unfold parseStringFld JObj.at at h
  rw [h1, splitObj_id] at h
  cases hg : get? o "id" with
  | none => rw [hg] at h; simp at h; rw [← h] at hs; exact absurd rfl hs
  | some v =>
    rw [hg] at h
    cases v with
    | str t =>
      simp at h
      rw [← h]
      exact ⟨rfl, rfl⟩
    | null => simp at h; rw [← h] at hs; exact absurd rfl hs
    | bool _ => simp at h
    | num _ => simp at h
    | arr _ => simp at h
    | obj _ => simp at h

/-- A clear scalar member is written as it is. -/
theorem blm_clear {e : SDJWT.Env} {h : String → String} {k : String} {v : Json} : ∀ (ms : Members) {f lv dn},
    SDJWT.BlM e h ms f lv dn → ms.At k none (.plain v) → (k, v) ∈ f
  | .nil, f, lv, dn, _, ha => by cases ha
  | .cons k' none t ms, f, lv, dn, hb, ha => by
    simp only [SDJWT.BlM] at hb
    obtain ⟨w, f', d1, d2, rfl, h1, h2, -⟩ := hb
    cases ha with
    | here =>
      simp only [SDJWT.Bl] at h1
      rw [h1.1]
      exact List.mem_cons_self
    | there ha => exact List.mem_cons_of_mem _ (blm_clear ms h2 ha)
  | .cons k' (some s) t ms, f, lv, dn, hb, ha => by
    simp only [SDJWT.BlM] at hb
    obtain ⟨w, salt, lv', d1, d2, -, -, -, h2, -⟩ := hb
    cases ha with
    | there ha => exact blm_clear ms h2 ha

theorem jwf_strs (l : List String) : SDJWT.JWFArr (l.map .str) := by
  induction l with
  | nil => trivial
  | cons a l ih => exact ⟨trivial, ih⟩

theorem unreserved_strs (l : List String) : SDJWT.UnreservedArr (l.map .str) := by
  induction l with
  | nil => simp [SDJWT.UnreservedArr]
  | cons a l ih =>
    simp only [List.map_cons, SDJWT.UnreservedArr]
    exact ⟨by simp [Unreserved], ih⟩

theorem claims_values (r : Claims) : ∀ p ∈ marshalClaims r, JWF p.2 ∧ Unreserved p.2 := by
  intro p hp
  simp only [marshalClaims, List.mem_append] at hp
  have hs : ∀ k s, p ∈ strClaim k s → JWF p.2 ∧ Unreserved p.2 := by
    intro k s h
    unfold strClaim at h
    split at h
    · cases h
    · rw [List.mem_singleton.1 h]; exact ⟨trivial, by simp [Unreserved]⟩
  have hd : ∀ k n, p ∈ dateField k n → JWF p.2 ∧ Unreserved p.2 := by
    intro k n h
    unfold dateField at h
    split at h
    · cases h
    · rw [List.mem_singleton.1 h]; exact ⟨trivial, by simp [Unreserved]⟩
  rcases hp with (((((hp | hp) | hp) | hp) | hp) | hp) | hp
  · exact hs _ _ hp
  · exact hs _ _ hp
  · split at hp
    · cases hp
    · rw [List.mem_singleton.1 hp]
      exact ⟨by simp only [JWF]; exact jwf_strs _, by simp only [Unreserved]; exact unreserved_strs _⟩
  · exact hd _ _ hp
  · exact hd _ _ hp
  · exact hd _ _ hp
  · exact hs _ _ hp

theorem registered_unreserved : ∀ k ∈ registered, k ≠ "_sd" ∧ k ≠ "_sd_alg" ∧ k ≠ "..." ∧
    k ≠ "credentialSubject" ∧ k ≠ "vc" := by decide

/-- The claims handed to the issuer are what it expects. -/
theorem makeClaims_ok {ver : Ver} {r : Claims} {x cs : JObj} (hx : JWF (.obj x)) (hu : UnreservedObj x)
    (hs : get? x "credentialSubject" = some (.obj cs)) (hn : "cnf" ∉ keys cs)
    (hv : ver = .v5 → ∀ k ∈ keys x, k ∉ registered ∧ k ≠ "vc") :
    SDJWT.CredClaims ver (makeClaims ver r x) cs := by
  have hne : x ≠ [] := by rintro rfl; cases hs
  have hreg : ∀ k, k ∉ registered → get? (marshalClaims r) k = none := by
    intro k hk
    rw [get?_eq_none_iff]
    exact fun h => hk (keys_marshalClaims r _ h)
  have hcl : ∀ p ∈ marshalClaims r, p.1 ∈ registered := fun p hp =>
    keys_marshalClaims r _ (List.mem_map_of_mem hp)
  cases ver with
  | v2 =>
    have e : makeClaims .v2 r x = marshalClaims r ++ [("vc", .obj x)] := by
      cases x with
      | nil => exact absurd rfl hne
      | cons p x => rfl
    rw [e]
    have hvc : get? (marshalClaims r ++ [("vc", Json.obj x)]) "vc" = some (.obj x) := by
      rw [get?_append, hreg _ (by decide)]
      simp [get?]
    refine ⟨?_, ?_, .nested hvc hs, hn, ?_, by intro h; cases h⟩
    · simp only [JWF]
      constructor
      · rw [SDJWT.keys_append, List.nodup_append]
        refine ⟨wf_marshalClaims r, by simp [keys], ?_⟩
        rintro a ha b hb rfl
        simp only [keys, List.map_cons, List.map_nil, List.mem_singleton] at hb
        subst hb
        exact absurd (keys_marshalClaims r _ ha) (by decide)
      · rw [SDJWT.jwfObj_iff]
        intro p hp
        rcases List.mem_append.1 hp with hp | hp
        · exact (claims_values r p hp).1
        · rw [List.mem_singleton.1 hp]; exact hx
    · rw [SDJWT.unreservedObj_iff]
      intro p hp
      rcases List.mem_append.1 hp with hp | hp
      · have := registered_unreserved _ (hcl p hp)
        exact ⟨⟨this.1, this.2.1, this.2.2.1⟩, (claims_values r p hp).2⟩
      · rw [List.mem_singleton.1 hp]
        exact ⟨by simp, by simpa [Unreserved] using hu⟩
    · intro _
      rw [get?_append, hreg _ (by decide)]
      simp [get?]
  | v5 =>
    simp only [JWF] at hx
    have L : ∀ k, get? (payloadV5 r x) k = (get? (marshalClaims r) k).or (get? x k) := by
      intro k
      unfold payloadV5
      rw [JsonUtil.merge_lookup _ hx.1]
      simp [marshalCred]
    have hw : WF (payloadV5 r x) := by
      unfold payloadV5
      apply JsonUtil.merge_wf
      simpa [marshalCred] using wf_marshalClaims r
    have hval : ∀ p ∈ payloadV5 r x, p ∈ marshalClaims r ∨ p ∈ x := by
      rintro ⟨k, v⟩ hp
      have hg := get?_of_mem hw hp
      rw [L] at hg
      cases hm : get? (marshalClaims r) k with
      | some w =>
        rw [hm] at hg
        have := Option.some.inj hg
        subst this
        exact Or.inl (mem_of_get? hm)
      | none => rw [hm] at hg; exact Or.inr (mem_of_get? hg)
    show SDJWT.CredClaims .v5 (payloadV5 r x) cs
    refine ⟨?_, ?_, .flat ?_, hn, (by intro h; cases h), ?_⟩
    · simp only [JWF]
      refine ⟨hw, ?_⟩
      rw [SDJWT.jwfObj_iff]
      intro p hp
      rcases hval p hp with h | h
      · exact (claims_values r p h).1
      · exact (SDJWT.jwfObj_iff x).1 hx.2 p h
    · rw [SDJWT.unreservedObj_iff]
      intro p hp
      rcases hval p hp with h | h
      · have := registered_unreserved _ (hcl p h)
        exact ⟨⟨this.1, this.2.1, this.2.2.1⟩, (claims_values r p h).2⟩
      · exact (SDJWT.unreservedObj_iff x).1 hu p h
    · rw [L, hreg _ (by decide), hs]; rfl
    · intro _ v
      rw [L, hreg _ (by decide)]
      intro h
      have : get? x "vc" = some (.obj v) := by simpa using h
      exact (hv rfl "vc" (List.mem_map_of_mem (mem_of_get? this))).2 rfl

/-! ## Reading the signed claims -/

theorem isV2_of_get {x y : JObj} (h : get? x "@context" = get? y "@context") : IsV2 x ↔ IsV2 y := isV2_congr h

/-- What `unmarshalCred` makes of the signed claims: the registered claims, and the credential with the
selective subject. -/
theorem make_unmarshal {E : IEnv} (halg : AlgOk E) {ver : Ver} {r : Claims} {x cs g payload : JObj}
    {ms : Members} {decs : List String}
    (hx : JWF (.obj x)) (hu : UnreservedObj x) (hi : r.iss ≠ "")
    (hv : ver = .v5 → ∀ k ∈ keys x, k ∉ registered ∧ k ≠ "vc")
    (hok : SDJWT.CredClaims ver (makeClaims ver r x) cs)
    (hs : get? x "credentialSubject" = some (.obj cs))
    (hb : SDJWT.Blinded E ms g decs) (hc : ClaimsOk noOpts ms.erase) (hk : "cnf" ∉ keys ms.erase)
    (h2 : ∀ v, ver = .v2 → get? (makeClaims ver r x) "vc" = some (.obj v) →
      payload = set (makeClaims ver r x) "vc" (.obj (withSelective v (mkPayload E noOpts g))))
    (h5 : ver = .v5 → payload = withSelective (makeClaims ver r x) (mkPayload E noOpts g)) :
    ∃ y, unmarshalCred payload = some ⟨some r, some y⟩ ∧ WF y ∧
      Same y (withSelective x (mkPayload E noOpts g)) := by
  have hne : x ≠ [] := by rintro rfl; cases hs
  have hreg : ∀ k, k ∉ registered → get? (marshalClaims r) k = none := by
    intro k hk
    rw [get?_eq_none_iff]
    exact fun h => hk (keys_marshalClaims r _ h)
  have hzs := (SDJWT.selective_lookup halg (v := x) hb hc hk).1
  have hzne : withSelective x (mkPayload E noOpts g) ≠ [] := by
    intro e; rw [e] at hzs; cases hzs
  have hax : AroundOk noOpts x := ⟨hx, hu, by simp [noOpts]⟩
  cases ver with
  | v2 =>
    have e : makeClaims .v2 r x = marshalClaims r ++ [("vc", .obj x)] := by
      cases x with
      | nil => exact absurd rfl hne
      | cons p x => rfl
    have hvc : get? (makeClaims .v2 r x) "vc" = some (.obj x) := by
      rw [e, get?_append, hreg _ (by decide)]
      simp [get?]
    have hp := h2 x rfl hvc
    have set_last : ∀ (l : JObj) (a b : Json), get? l "vc" = none →
        set (l ++ [("vc", a)]) "vc" b = l ++ [("vc", b)] := by
      intro l a b
      induction l with
      | nil => intro _; simp [GoMap.set]
      | cons q l ih =>
        obtain ⟨k, v⟩ := q
        intro hl
        rw [get?_cons] at hl
        by_cases ek : k = "vc"
        · rw [if_pos ek] at hl; cases hl
        · rw [if_neg ek] at hl
          simp only [List.cons_append, GoMap.set]
          rw [if_neg ek, ih hl]
    rw [e, set_last _ _ _ (hreg _ (by decide))] at hp
    have hm : marshalCred ⟨some r, some (withSelective x (mkPayload E noOpts g))⟩ =
        marshalClaims r ++ [("vc", .obj (withSelective x (mkPayload E noOpts g)))] := by
      cases hz : withSelective x (mkPayload E noOpts g) with
      | nil => exact absurd hz hzne
      | cons p z => rfl
    refine ⟨_, ?_, (SDJWT.selective_same halg hb hc hk hax).2, fun _ => rfl⟩
    rw [hp, ← hm]
    exact unmarshal_marshalCred r _ hi hzne
  | v5 =>
    have hp := h5 rfl
    have ha : AroundOk noOpts (makeClaims .v5 r x) := ⟨hok.wf, hok.unreserved, by simp [noOpts]⟩
    obtain ⟨a1, a2, a3⟩ := SDJWT.selective_lookup halg (v := makeClaims .v5 r x) hb hc hk
    obtain ⟨b1, b2, b3⟩ := SDJWT.selective_lookup halg (v := x) hb hc hk
    have hw : WF payload := by rw [hp]; exact (SDJWT.selective_same halg hb hc hk ha).2
    simp only [JWF] at hx
    have L : ∀ k, get? (makeClaims .v5 r x) k = (get? (marshalClaims r) k).or (get? x k) := by
      intro k
      show get? (payloadV5 r x) k = _
      unfold payloadV5
      rw [JsonUtil.merge_lookup _ hx.1]
      simp [marshalCred]
    have hxk : ∀ k, k ∈ registered ∨ k = "vc" → get? x k = none := by
      intro k hk
      rw [get?_eq_none_iff]
      intro h
      have := hv rfl k h
      rcases hk with hk | hk
      · exact this.1 hk
      · exact this.2 hk
    have ne : ∀ k, k ∈ registered ∨ k = "vc" → k ≠ "credentialSubject" ∧ k ≠ "_sd_alg" := by
      rintro k (hk | rfl)
      · have := registered_unreserved k hk; exact ⟨this.2.2.2.1, this.2.1⟩
      · decide
    obtain ⟨y, y1, y2, y3⟩ := unmarshal_flat r payload (withSelective x (mkPayload E noOpts g)) hi hzne hw
      (by
        intro k hk
        rw [b3 k (ne k (.inl hk)).1 (ne k (.inl hk)).2]
        exact hxk k (.inl hk))
      (by rw [b3 "vc" (by decide) (by decide)]; exact hxk _ (.inr rfl))
      (by
        intro k
        rw [hp]
        by_cases e1 : k = "credentialSubject"
        · subst e1; rw [a1, b1, hreg _ (by decide)]; rfl
        · by_cases e2 : k = "_sd_alg"
          · subst e2; rw [a2, b2, hreg _ (by decide)]; rfl
          · rw [a3 k e1 e2, b3 k e1 e2, L])
    exact ⟨y, y1, y3, y2⟩

theorem sameToSecond_subject {je : JEnv} {a b : Contents je.T} (h : SameToSecond je a b) (s : List Subject)
    (x : Option Hash) :
    SameToSecond je a { ({ b with subject := s, sdAlg := x } : Contents je.T) with
      subject := a.subject, sdAlg := a.sdAlg } := by
  refine ⟨h.issued, h.expired, ?_⟩
  have := h.rest
  obtain ⟨a1, a2, a3, a4, a5, a6, a7, a8, a9, a10, a11, a12, a13, a14, a15⟩ := a
  obtain ⟨b1, b2, b3, b4, b5, b6, b7, b8, b9, b10, b11, b12, b13, b14, b15⟩ := b
  simp only [Contents.mk.injEq] at this ⊢
  simp only [this, and_self]

/-- Everything the reader finds in the signed claims. -/
structure MadeClaims (E : IEnv) (ver : Ver) (non : List String) (vc : Cred env.T) (cs : JObj) (r : Claims) (ds : List String) (payload json o : JObj)
    (co c : Contents env.T) (h : Hash) (D : DMap) (out : JObj) (ms : Members) : Prop where
  decode : decodeCredPayload env.toJEnv payload = .ok (some json)
  rest : ∀ k, k ∉ ["credentialSubject", "_sd_alg"] → get? json k = get? o k
  subjectObj : ∃ g, get? json "credentialSubject" = some (.obj g)
  wf : WF json
  noSd : get? json "_sd" = none
  refined : Refined env.toJEnv r (wireObj vc.json) o
  owf : WF o
  plain : parseContents env.toCEnv (ofWire o) false = some co
  sameCo : SameToSecond env.toJEnv vc.contents co
  contents : parseContents env.toCEnv (ofWire json) true = some c
  sameC : SameButSubject env vc.contents c
  alg : c.sdAlg = some h
  algIs : hashName h = E.alg
  validated : validateDisclosures env json ds = true
  resolved : parseDisclosures env ds (some h) = some D
  shownBy : SDJWT.disclosedClaims env.sd ds json env.dOrder = .ok out
  displayed : SDJWT.getDisclosedClaims env.sd D json = .ok out
  shown : OEq out (SDJWT.VCWith noOpts o (ms.reveal ds))
  presents : SDJWT.Presents env.sd json ms ds (fun S => SDJWT.VCWith noOpts o (ms.reveal S))
  policy : SDJWT.Policy (makeEnv E non) ver ms
  tree : ms.erase = cs
  discs : ms.discs.Perm ds
  hashAlg : SDJWT.getHashAlg env.sd json = some E.alg
  hasAlg : get? json "_sd_alg" ≠ none
  commits : ∀ d ∈ SDJWT.digests false (.obj json), ∃ s, s ∈ ds ∧ d = env.sd.hash E.alg s
  values : ∀ s, s ∈ ds → ∀ arr v, env.sd.decode s = some arr → arr.getLast? = some v →
    ∀ d ∈ SDJWT.digests false v, ∃ s', s' ∈ ds ∧ d = env.sd.hash E.alg s'

theorem made_claims {E : IEnv} {ver : Ver} {non : List String} {vc : Cred env.T} {cs payload : JObj} {r : Claims}
    {m : GObj} {es : List Ent} (hI : Issuable env vc ver cs) (hL : SdLibs env E)
    (hcl : newJWTCredClaims env.toJEnv vc false = .ok (r, m))
    (hnew : SDJWT.makeSDJWT E ver non (makeClaims ver r (wireObj m)) = .ok (es, payload))
    (hcodec : Codec E.env es) (hd : DistinctDigests E.env payload (es.map Ent.result)) (hes : es ≠ []) :
    ∃ json o co c h D out ms, MadeClaims env E ver non vc cs r (es.map Ent.result) payload json o co c h D out ms := by
  obtain ⟨i, sub, hi, hsub, hr, hm⟩ := claims_object env.toJEnv hcl
  simp only [Bool.false_eq_true, if_false, Option.some.injEq] at hm
  subst hm
  obtain ⟨hne, hiss⟩ := object_ne_nil hI.agrees hcl
  have hx := hI.json
  have hu := hI.unreserved
  have hs := hI.subject
  have hv : ver = .v5 → ∀ k ∈ keys (wireObj vc.json), k ∉ registered ∧ k ≠ "vc" := fun e => (hI.names e).1
  have hok := makeClaims_ok (ver := ver) (r := r) hx hu hs hI.noCnf hv
  obtain ⟨ms, g, decs, hms, hpol, hds, hb, hown, h2, h5⟩ :=
    SDJWT.make_shape hL.shuffles hok (fun e => (hI.names e).2) hnew hcodec
      (by simpa [Unreserved] using SDJWT.unreserved_get hu hs)
  have halg : AlgOk (makeEnv E non) := hL.alg
  have hc : ClaimsOk noOpts ms.erase := by
    rw [hms]
    refine ⟨SDJWT.jwf_get hx hs, by simpa [Unreserved] using SDJWT.unreserved_get hu hs, ?_⟩
    intro k _
    simp [noOpts, SDJWT.basePayload, SDJWT.strField, SDJWT.numField, SDJWT.cnfField, GoMap.keys]
  have hk : "cnf" ∉ keys ms.erase := by rw [hms]; exact hI.noCnf
  have hax : AroundOk noOpts (wireObj vc.json) := ⟨hx, hu, by simp [noOpts]⟩
  -- no collisions
  have hnd : (ms.discs.map ((makeEnv E non).env.hash (makeEnv E non).alg) ++ decs).Nodup := by
    cases ver with
    | v2 =>
      have hvc : get? (makeClaims .v2 r (wireObj vc.json)) "vc" = some (.obj (wireObj vc.json)) := by
        cases hok.subject with
        | @nested _ v _ hvc _ =>
          rw [hvc]
          have : makeClaims .v2 r (wireObj vc.json) = marshalClaims r ++ [("vc", .obj (wireObj vc.json))] := by
            cases hw : wireObj vc.json with
            | nil => exact absurd hw hne
            | cons p x => rfl
          rw [this, get?_append] at hvc
          have hnone : get? (marshalClaims r) "vc" = none := by
            rw [get?_eq_none_iff]
            exact fun h => absurd (keys_marshalClaims r _ h) (by decide)
          rw [hnone] at hvc
          simp [get?] at hvc
          rw [hvc]
      have hp := h2 _ rfl hvc
      have hwf := hok.wf
      simp only [JWF] at hwf
      refine SDJWT.distinct_of_nested halg hb hc hk hax hwf.1 hok.unreserved hds ?_
      rw [← hp]
      exact hd
    | v5 =>
      have hp := h5 rfl
      refine SDJWT.distinct_of_flat halg hb hc hk ⟨hok.wf, hok.unreserved, by simp [noOpts]⟩ hds ?_
      rw [← hp]
      exact hd
  obtain ⟨y, hy, hyw, hyz⟩ := make_unmarshal halg hx hu hiss hv hok hs hb hc hk h2 h5
  obtain ⟨z1, z2, z3⟩ := SDJWT.selective_lookup halg (v := wireObj vc.json) hb hc hk
  have hyo : ∀ k, k ∉ ["credentialSubject", "_sd_alg"] → get? (wireObj vc.json) k = get? y k := by
    intro k hk
    simp only [List.mem_cons, List.not_mem_nil, or_false, not_or] at hk
    rw [hyz k, z3 k hk.1 hk.2]
  -- refining both
  obtain ⟨o, ho, -, co, hco, hsame⟩ := refined_contents vc hI.agrees false r vc.json hcl hI.issued hI.expired
    (wireObj vc.json) (fun _ => rfl)
  rw [hI.plain] at hco
  have hro : Refined env.toJEnv r (wireObj vc.json) o ∧ ¬ IssuerConflict r.iss (wireObj vc.json) := by
    rcases refine_spec env.toJEnv r (wireObj vc.json) with ⟨-, -, e⟩ | ⟨hn, o', e, h'⟩
    · rw [ho] at e; cases e
    · rw [ho] at e
      have := Option.some.inj (Out.ok.inj e)
      subst this
      exact ⟨h', hn hiss⟩
  have hxw := hx
  simp only [JWF] at hxw
  have how : WF o := refine_wf env.toJEnv ho (by intro x e; cases e; exact hxw.1)
  have hissuer : get? (wireObj vc.json) "issuer" = get? y "issuer" := hyo _ (by decide)
  obtain ⟨json, hj, hrj⟩ : ∃ json, refine env.toJEnv ⟨some r, some y⟩ = .ok (some json) ∧
      Refined env.toJEnv r y json := by
    rcases refine_spec env.toJEnv r y with ⟨-, hcf, -⟩ | ⟨-, o', e, h'⟩
    · exfalso
      apply hro.2
      unfold IssuerConflict at hcf ⊢
      rw [hissuer]
      exact hcf
    · exact ⟨o', e, h'⟩
  have hjw : WF json := refine_wf env.toJEnv hj (by intro x e; cases e; exact hyw)
  have hag := refined_agree env.toJEnv ["credentialSubject", "_sd_alg"] (by decide) hro.1 hrj hyo
  have hjs : get? json "credentialSubject" = some (.obj g) := by
    rw [hrj.rest _ (by decide), hyz, z1]
  have hja : get? json "_sd_alg" = some (.str (E.lower E.alg)) := by
    rw [hrj.rest _ (by decide), hyz, z2]; rfl
  obtain ⟨hoj, hou⟩ := refined_clean env.toJEnv hro.1 how hx hu
  obtain ⟨q1, q2, q3⟩ := SDJWT.selective_lookup halg (v := o) hb hc hk
  have hjq : ∀ k, get? json k = get? (withSelective o (mkPayload (makeEnv E non) noOpts g)) k := by
    intro k
    by_cases e1 : k = "credentialSubject"
    · subst e1; rw [hjs, q1]
    · by_cases e2 : k = "_sd_alg"
      · subst e2; rw [hja, q2]; rfl
      · rw [q3 k e1 e2]
        exact (hag k (by simp [e1, e2])).symm
  have hee : EnvWF (makeEnv E non).env := by
    show EnvWF E.env
    rw [hL.same]; exact hL.decode
  obtain ⟨hjj, hga, hpres⟩ := SDJWT.selective_presents hee halg hb hc hk ⟨hoj, hou, by simp [noOpts]⟩ hds hnd hjw hjq
  have hga' : SDJWT.getHashAlg env.sd json = some E.alg := by
    rw [← hL.same]; exact hga
  have hpres' : SDJWT.Presents env.sd json ms (es.map Ent.result)
      (fun S => SDJWT.VCWith noOpts o (ms.reveal S)) := by
    rw [← hL.same]; exact hpres
  -- the contents
  have hcsub : co.subject = vc.contents.subject := by
    have : ({ co with issued := none, expired := none } : Contents env.T).subject =
        ({ vc.contents with issued := none, expired := none } : Contents env.T).subject := by rw [hsame.rest]
    exact this
  obtain ⟨cu, hsub1, hsub2⟩ := (subjectID_iff _ _).1 hsub
  have hos : get? o "credentialSubject" = some (.obj cs) := by
    rw [hro.1.rest _ (by decide)]; exact hs
  have hid : get? cs "id" = some (.str sub) := by
    have h8 := ((parseContents_iff env.toCEnv _ _ _).1 hco).2.2.2.2.2.2.2.1
    rw [at_ofWire, hos, hcsub, hsub1] at h8
    exact (subject_id_of h8 hsub2).1
  have hgid : get? g "id" = some (.str sub) := by
    obtain ⟨a, ha, hclear⟩ := SDJWT.atomic_at (v := .str sub) (by simp [SDJWT.Atomic]) hpol (hms ▸ hid)
    have : a = none := hclear.2 (by simp [makeEnv])
    subst this
    have hjg : JWF (.obj g) := SDJWT.jwf_get hjj hjs
    simp only [JWF] at hjg
    obtain ⟨f, a, sd, lv, dn, dl, rfl, hbl, -⟩ := hb
    exact get?_of_mem hjg.1 (List.mem_append_left _ (blm_clear ms hbl ha))
  obtain ⟨hlow, hup, hthree⟩ := hL.alg
  have hup' : env.toCEnv.upper (E.lower E.alg) = E.alg := by
    rw [hL.upper, ← hL.same]; exact hup
  obtain ⟨h, hh⟩ : ∃ h, parseHashAlg env.toCEnv (E.lower E.alg) = some h := by
    unfold parseHashAlg
    rw [hup']
    rcases hthree with e | e | e <;> rw [e]
    · exact ⟨_, if_pos rfl⟩
    · exact ⟨_, by rw [if_neg (by decide)]; exact if_pos rfl⟩
    · exact ⟨_, by rw [if_neg (by decide), if_neg (by decide)]; exact if_pos rfl⟩
  have hhn : hashName h = E.alg := by rw [(parseHash_name env _ _ hh).1, hup']
  have hps : parseSubject (.json ((get? json "credentialSubject").getD .null)) =
      some [⟨sub, g.filter (fun p => p.1 != "id")⟩] := by
    rw [hjs]; exact subject_of_id hgid
  have hpa : parseSDAlg env.toCEnv (ofWire json) [⟨sub, g.filter (fun p => p.1 != "id")⟩] true = some (some h) := by
    unfold parseSDAlg
    rw [if_pos rfl, at_ofWire, hja]
    show (Option.map some (parseSDAlgValue env.toCEnv (E.lower E.alg) _)) = _
    unfold parseSDAlgValue
    have : (E.lower E.alg == "") = false := by simpa using hlow
    rw [this]
    show Option.map some (parseHashAlg env.toCEnv (E.lower E.alg)) = _
    rw [hh]; rfl
  have hcj := contents_other_subject env.toCEnv hco
    (fun k a b _ => (hag k (by simp [a, b])).symm) hps hpa
  -- the disclosures
  have hdn : (es.map Ent.result).Nodup :=
    hds.nodup_iff.1 (List.Nodup.of_map _ (List.nodup_append.1 hnd).1)
  obtain ⟨p1, out, p2, p3⟩ := hpres' (es.map Ent.result) env.dOrder (fun _ h => h) hdn hL.order
  have hver := p1 (SDJWT.Members.closed_all ms (fun s hs => hds.mem_iff.1 hs))
  have hne' : (es.map Ent.result).isEmpty = false := by
    cases es with
    | nil => exact absurd rfl hes
    | cons _ _ => rfl
  have hval : validateDisclosures env json (es.map Ent.result) = true := by
    unfold validateDisclosures disclosurePayload
    rw [hne', hja]
    simp only [Bool.false_eq_true, if_false]
    rw [hver]
  obtain ⟨D, hD, hDo⟩ : ∃ D, SDJWT.resolveDisclosureClaims env.sd E.alg (es.map Ent.result) env.dOrder = .ok D ∧
      SDJWT.getDisclosedClaims env.sd D json = .ok out := by
    have p2' := p2
    unfold SDJWT.disclosedClaims at p2'
    rw [hga'] at p2'
    dsimp only at p2'
    cases hx : SDJWT.resolveDisclosureClaims env.sd E.alg (es.map Ent.result) env.dOrder with
    | error e => rw [hx] at p2'; cases p2'
    | ok D => rw [hx] at p2'; exact ⟨D, rfl, p2'⟩
  have hres : parseDisclosures env (es.map Ent.result) (some h) = some D := by
    unfold parseDisclosures
    rw [hne']
    simp only [Bool.false_eq_true, if_false]
    rw [hhn, hD]
  refine ⟨json, o, co, { co with subject := [⟨sub, g.filter (fun p => p.1 != "id")⟩], sdAlg := some h },
    h, D, out, ms, ?_⟩
  exact {
    decode := by unfold decodeCredPayload; rw [hy]; exact hj
    rest := fun k hk => (hag k hk).symm
    subjectObj := ⟨g, hjs⟩
    wf := hjw
    noSd := by
      rw [hrj.rest _ (by decide), ← hyo _ (by decide), get?_eq_none_iff]
      exact fun hk => (SDJWT.unreserved_key hu hk).1 rfl
    refined := hro.1
    owf := how
    plain := hco
    sameCo := hsame
    contents := hcj
    sameC := ⟨sameToSecond_subject hsame _ _, by rw [hsub1]; rfl⟩
    alg := rfl
    algIs := hhn
    validated := hval
    resolved := hres
    shownBy := p2
    displayed := hDo
    shown := p3
    presents := hpres'
    policy := hpol
    tree := hms
    discs := hds
    hashAlg := hga'
    hasAlg := by rw [hja]; exact Option.some_ne_none _
    commits := by
      intro d hd
      rcases SDJWT.mem_digests_obj hd with ⟨v, hv, -⟩ | ⟨k, v, hv, hk, hd2⟩
      · have hg := get?_of_mem hjw hv
        rw [hrj.rest _ (by decide), ← hyo _ (by decide)] at hg
        exact absurd rfl (SDJWT.unreserved_key hu (List.mem_map.mpr ⟨_, mem_of_get? hg, rfl⟩)).1
      · have hg := get?_of_mem hjw hv
        by_cases e1 : k = "credentialSubject"
        · subst e1
          rw [hjs, Option.some.injEq] at hg
          subst hg
          obtain ⟨t, ht, rfl⟩ := hown.inside d hd2
          exact ⟨t, ht, by rw [← hL.same]; rfl⟩
        · by_cases e2 : k = "_sd_alg"
          · subst e2
            rw [hja, Option.some.injEq] at hg
            subst hg
            exact absurd hd2 (by simp [SDJWT.digests])
          · rw [← hag k (by simp [e1, e2])] at hg
            rw [SDJWT.digests_unreserved false v (SDJWT.unreserved_get hou hg)] at hd2
            exact nomatch hd2
    values := by
      intro s hs' arr v hdec hlast d hd
      obtain ⟨e, he, rfl⟩ := List.mem_map.mp hs'
      have hce := hcodec e he
      rw [hL.same, hdec, Option.some.injEq] at hce
      subst hce
      obtain ⟨t, ht, rfl⟩ := hown.values e he v hlast d hd
      exact ⟨t, ht, by rw [← hL.same]; rfl⟩ }

/-! ## Displaying -/

theorem clear_id (n : Nat) : ∀ m : List (String × Json), sizeOf m < n → NoEmpty m → clearEmpty m = m := by
  induction n with
  | zero => intro m h; omega
  | succ n ih =>
    intro m
    induction m with
    | nil => intro _ _; rfl
    | cons p m ihm =>
      obtain ⟨k, v⟩ := p
      intro hn hne
      cases hne with
      | mk h1 h2 =>
        have hm : clearEmpty m = m := ihm (by simp only [List.cons.sizeOf_spec] at hn; omega)
          (.mk (fun k' o h => h1 k' o (List.mem_cons_of_mem _ h)) (fun k' o h => h2 k' o (List.mem_cons_of_mem _ h)))
        have hv : clearValue v = some v := by
          cases v with
          | obj o =>
            have e : clearEmpty o = o := ih o (by
              simp only [List.cons.sizeOf_spec, Prod.mk.sizeOf_spec, Json.obj.sizeOf_spec] at hn; omega)
              (h2 k o List.mem_cons_self)
            rw [clearValue_obj, e]
            exact ⟨h1 k o List.mem_cons_self, rfl⟩
          | _ => rfl
        simp only [clearEmpty, hv, hm]

theorem clear_get_leaf {m : JObj} (wf : WF m) {k : String} {v : Json} (hv : ∀ o, v ≠ .obj o)
    (h : get? m k = some v) : get? (clearEmpty m) k = some v := by
  induction m with
  | nil => cases h
  | cons p m ih =>
    obtain ⟨k', w⟩ := p
    have hw := wf_cons.1 wf
    rw [get?_cons] at h
    simp only [clearEmpty]
    by_cases e : k' = k
    · rw [if_pos e] at h
      cases h
      rw [clearValue_leaf hv]
      show get? ((k', v) :: clearEmpty m) k = _
      rw [get?_cons, if_pos e]
    · rw [if_neg e] at h
      cases clearValue w with
      | none => exact ih hw.2 h
      | some w' =>
        show get? ((k', w') :: clearEmpty m) k = _
        rw [get?_cons, if_neg e]
        exact ih hw.2 h

theorem clear_get_none {m : JObj} {k : String} (h : get? m k = none) : get? (clearEmpty m) k = none := by
  rw [get?_eq_none_iff] at h ⊢
  intro hk
  obtain ⟨⟨k', v'⟩, hp, rfl⟩ := List.mem_map.1 hk
  obtain ⟨v, h1, -⟩ := (mem_clearEmpty m _ _).1 hp
  exact h (List.mem_map.2 ⟨_, h1, rfl⟩)

theorem obj_of_jeq {v : Json} {m : JObj} (hv : JEq v (.obj m)) : ∃ m', v = .obj m' ∧ OEq m' m := by
  have := SDJWT.JE.shape hv
  cases v with
  | obj m' => exact ⟨m', rfl, this⟩
  | _ => cases this

theorem subject_of_vcWith (o cs : JObj) : get? (SDJWT.VCWith noOpts o cs) "credentialSubject" = some (.obj cs) := by
  have tidy : ∀ (m : JObj), "credentialSubject" ∈ keys (SDJWT.tidyMembers m) → "credentialSubject" ∈ keys m := by
    intro m h
    induction m with
    | nil => exact h
    | cons p m ih =>
      obtain ⟨k, w⟩ := p
      simp only [SDJWT.tidyMembers] at h
      simp only [keys, List.map_cons, List.mem_cons]
      split at h
      · exact Or.inr (ih h)
      · simp only [keys, List.map_cons, List.mem_cons] at h
        exact h.imp id ih
  unfold SDJWT.VCWith
  have e : get? (SDJWT.tidyMembers (del o "credentialSubject" ++ SDJWT.cnfField noOpts.cnf)) "credentialSubject" = none := by
    rw [get?_eq_none_iff]
    intro hk
    have := tidy _ hk
    simp only [SDJWT.cnfField, noOpts, List.append_nil] at this
    rw [← get?_isSome_iff, get?_del_self] at this
    cases this
  rw [get?_append, e]
  simp [get?, noOpts, SDJWT.BaseOpts.noCnf, SDJWT.basePayload, SDJWT.strField, SDJWT.numField, SDJWT.cnfField,
    SDJWT.tidyMembers]

theorem clearSubject_get {o : JObj} {s : JObj} (h : get? o "credentialSubject" = some (.obj s)) :
    get? (clearSubject o) "credentialSubject" = some (.obj (clearEmpty s)) ∧
    ∀ k, k ≠ "credentialSubject" → get? (clearSubject o) k = get? o k := by
  unfold clearSubject
  rw [h]
  exact ⟨get?_set_self _ _ _, fun k hk => get?_set_ne _ _ (Ne.symm hk)⟩

/-- What is displayed of claims: the members outside the subject as they are, the subject `s`. -/
theorem display_of_claims {E : IEnv} {ver : Ver} {non : List String} {vc : Cred env.T} {cs payload json o out : JObj}
    {r : Claims} {ds : List String} {co c : Contents env.T} {h : Hash} {D : DMap} {ms : Members}
    (hM : MadeClaims env E ver non vc cs r ds payload json o co c h D out ms)
    (hu : UnreservedObj (wireObj vc.json)) (hj : JWF (.obj (wireObj vc.json)))
    (hsolid : SolidObj (wireObj vc.json)) {S : List String} {o2 : JObj}
    {order : DMap → List String} (ho : ∀ D, ∀ d ∈ keys D, d ∈ order D)
    (hS : SDJWT.disclosedClaims env.sd S json order = .ok o2)
    (hshown : OEq o2 (SDJWT.VCWith noOpts o (ms.reveal S))) :
    (∀ k, k ≠ "credentialSubject" → get? (clearSubject o2) k = get? o k) ∧
    (∃ s, get? o2 "credentialSubject" = some (.obj s) ∧ OEq s (ms.reveal S) ∧
      get? (clearSubject o2) "credentialSubject" = some (.obj (clearEmpty s))) ∧ WF (clearSubject o2) := by
  obtain ⟨w, -, n2, hkeep⟩ := SDJWT.clear_shown ho hM.wf hM.noSd hS
  obtain ⟨s, hs, hse⟩ : ∃ s, get? o2 "credentialSubject" = some (.obj s) ∧ OEq s (ms.reveal S) := by
    rcases SDJWT.JEq.get hshown "credentialSubject" with ⟨-, g⟩ | ⟨v, v', g1, g2, g3⟩
    · rw [subject_of_vcWith] at g; cases g
    · rw [subject_of_vcWith] at g2
      cases g2
      obtain ⟨m', rfl, e⟩ := obj_of_jeq g3
      exact ⟨m', g1, e⟩
  obtain ⟨hc1, hc2⟩ := clearSubject_get hs
  refine ⟨?_, ⟨s, hs, hse, hc1⟩, ?_⟩
  · intro k hk
    rw [hc2 k hk]
    by_cases e : k = "_sd_alg"
    · subst e
      rw [n2, hM.refined.rest _ (by decide)]
      symm
      rw [get?_eq_none_iff]
      exact fun hk => (SDJWT.unreserved_key hu hk).2.1 rfl
    · have hr := hM.rest k (by simp [hk, e])
      rw [hkeep k e, hr]
      intro v hv
      rw [hr] at hv
      obtain ⟨-, hou⟩ := refined_clean env.toJEnv hM.refined hM.owf hj hu
      exact ⟨SDJWT.unreserved_get hou hv,
        refined_solid env.toJEnv hM.refined (fun w hw => (SDJWT.solid_iff _).1 hsolid _ (mem_of_get? hw)) hv⟩
  · unfold clearSubject
    rw [hs]
    exact wf_set w _ _

namespace Spec

/-- What is displayed of the credential `vc` when its subject is shown as `shown`: the members that the
JWT claims do not stand in for are those of the credential, and the subject has no empty objects and the
values of `shown`, in some order; if `shown` has no empty object, it is `shown` in some order. -/
structure DisplayOf (vc : Cred env.T) (shown m : JObj) : Prop where
  rest : ∀ k, k ∉ refinedNames → k ≠ "credentialSubject" → get? m k = get? (wireObj vc.json) k
  subject : ∃ s e, get? m "credentialSubject" = some (.obj s) ∧ OEq s e ∧ NoEmpty e ∧
    (∀ p v, LeafAt e p v ↔ LeafAt shown p v) ∧ (NoEmpty shown → e = shown)

/-- The contents of the displayed credential: those of `vc`, dates to the second, and the subject with the
displayed claims. -/
structure DisplayContents (vc : Contents env.T) (m : JObj) (c : Contents env.T) : Prop where
  same : SameToSecond env.toJEnv vc { c with subject := vc.subject }
  notSd : c.sdAlg = none
  subject : ∃ id custom s, vc.subject = [⟨id, custom⟩] ∧ get? m "credentialSubject" = some (.obj s) ∧
    get? s "id" = some (.str id) ∧ c.subject = [⟨id, s.filter (fun p => p.1 != "id")⟩]

end Spec

section Display
variable {env} {E : IEnv} {ver : Ver} {non : List String} {vc : Cred env.T} {cs payload json o out : JObj}
    {r : Claims} {ds : List String} {co c : Contents env.T} {h : Hash} {D : DMap} {ms : Members}

theorem create_display_eq {pc : PCred env.T} {e : JwtEnvelope} {hs : JObj} {all : Bool} {given : List String}
    (hsd : pc.contents.sdAlg = some h) (hjwt : pc.jwt = some e)
    (hdec : decodeCredJWT env e.jwt = .ok (hs, json)) (hopt : (all && !given.isEmpty) = false) {o2 : JObj}
    (hd : SDJWT.getDisclosedClaims env.sd (displayDiscs e.disclosures all given) json = .ok o2) :
    createDisplayMap env pc all given = .ok (clearSubject o2) ∧
    createDisplay env pc all given =
      match parseContents env.toCEnv (ofWire (del (clearSubject o2) "proof")) false with
      | none => .err
      | some c => .ok ⟨del (clearSubject o2) "proof", c, [], none, none⟩ := by
  unfold createDisplayMap createDisplay
  rw [hopt, hsd, hjwt]
  simp only [Bool.false_eq_true, if_false]
  rw [hdec]
  simp only [Res.bind]
  rw [hd]
  exact ⟨rfl, rfl⟩

theorem solid_subject {vc : Cred env.T} (hsolid : SolidObj (wireObj vc.json)) {cs : JObj}
    (hs : get? (wireObj vc.json) "credentialSubject" = some (.obj cs)) : SolidObj cs := by
  have := (SDJWT.solid_iff _).1 hsolid _ (mem_of_get? hs)
  simpa [Solid] using this

/-- The contents of what is displayed. -/
theorem display_contents (hM : MadeClaims env E ver non vc cs r ds payload json o co c h D out ms)
    {m s : JObj} (hrest : ∀ k, k ≠ "credentialSubject" → get? m k = get? o k)
    (hs : get? m "credentialSubject" = some (.obj s)) {id : String} {custom : JObj}
    (hsub : vc.contents.subject = [⟨id, custom⟩]) (hid : get? s "id" = some (.str id)) :
    ∃ c', parseContents env.toCEnv (ofWire (del m "proof")) false = some c' ∧
      DisplayContents env vc.contents m c' := by
  have hps : parseSubject (.json ((get? (del m "proof") "credentialSubject").getD .null)) =
      some [⟨id, s.filter (fun p => p.1 != "id")⟩] := by
    rw [get?_del_ne _ (by decide), hs]; exact subject_of_id hid
  have hpa : parseSDAlg env.toCEnv (ofWire (del m "proof")) [⟨id, s.filter (fun p => p.1 != "id")⟩] false = some none := by
    unfold parseSDAlg
    rw [if_neg (by simp)]
  have hc := contents_other_subject env.toCEnv hM.plain (p := del m "proof")
    (fun k a b d => by rw [get?_del_ne _ (Ne.symm d)]; exact hrest k a) hps hpa
  refine ⟨_, hc, ?_, rfl, id, custom, s, hsub, hs, hid, rfl⟩
  have hz : vc.contents.sdAlg = none := by
    have : ({ co with issued := none, expired := none } : Contents env.T).sdAlg =
        ({ vc.contents with issued := none, expired := none } : Contents env.T).sdAlg := by rw [hM.sameCo.rest]
    rw [← this]
    exact (sdAlg_flag env hM.plain).2 rfl
  have := sameToSecond_subject hM.sameCo [⟨id, s.filter (fun p => p.1 != "id")⟩] none
  rwa [hz] at this

/-- Displaying everything. -/
theorem display_all (hI : Issuable env vc ver cs) (hL : SdLibs env E)
    (hM : MadeClaims env E ver non vc cs r ds payload json o co c h D out ms)
    (hsolid : SolidObj (wireObj vc.json)) {pc : PCred env.T} {e : JwtEnvelope} {hs : JObj}
    (hsd : pc.contents.sdAlg = some h) (hjwt : pc.jwt = some e) (hdd : e.disclosures = D)
    (hdec : decodeCredJWT env e.jwt = .ok (hs, json)) {id : String} {custom : JObj}
    (hsub : vc.contents.subject = [⟨id, custom⟩]) (hid : get? cs "id" = some (.str id)) :
    ∃ m c', createDisplayMap env pc true [] = .ok m ∧ DisplayOf env vc cs m ∧
      createDisplay env pc true [] = .ok ⟨del m "proof", c', [], none, none⟩ ∧
      DisplayContents env vc.contents m c' := by
  have hd : SDJWT.getDisclosedClaims env.sd (displayDiscs e.disclosures true []) json = .ok out := by
    rw [hdd]; exact hM.displayed
  obtain ⟨h1, h2⟩ := create_display_eq hsd hjwt hdec (all := true) (given := []) rfl hd
  obtain ⟨k1, ⟨s, k2, k3, k4⟩, kw⟩ := display_of_claims env hM hI.unreserved hI.json hsolid hL.order hM.shownBy hM.shown
  rw [Members.reveal_all _ ms (by rw [hM.tree]; exact solid_subject hsolid hI.subject)
    (fun s hs => hM.discs.mem_iff.1 hs), hM.tree] at k3
  have hcl : OEq (clearEmpty s) (clearEmpty cs) := oeq_clear k3
  have hcw : WF cs := by
    have := SDJWT.jwf_get hI.json hI.subject
    simp only [JWF] at this
    exact this.1
  have hid' : get? (clearEmpty s) "id" = some (.str id) := by
    have hc := clear_get_leaf hcw (by simp) hid
    rcases SDJWT.JEq.get hcl "id" with ⟨-, g⟩ | ⟨v, v', g1, g2, g3⟩
    · rw [hc] at g; cases g
    · rw [hc] at g2
      cases g2
      rw [g1, SDJWT.jeq_atomic g3 (by simp [SDJWT.Atomic])]
  obtain ⟨c', hc', hdc⟩ := display_contents hM k1 k4 hsub hid'
  refine ⟨_, c', h1, ⟨?_, ?_⟩, by rw [h2, hc'], hdc⟩
  · intro k hk1 hk2
    rw [k1 k hk2, hM.refined.rest k hk1]
  · refine ⟨_, clearEmpty cs, k4, hcl, clearEmpty_noEmpty _, fun p v => clearEmpty_leaves cs p v, ?_⟩
    intro hn
    exact clear_id _ cs (Nat.lt_succ_self _) hn

/-- Displaying nothing: the claims listed as not selectively disclosable, and the id. -/
theorem display_none (hI : Issuable env vc ver cs) 
    (hM : MadeClaims env E ver non vc cs r ds payload json o co c h D out ms)
    (hsolid : SolidObj (wireObj vc.json)) {pc : PCred env.T} {e : JwtEnvelope} {hs : JObj}
    (hsd : pc.contents.sdAlg = some h) (hjwt : pc.jwt = some e)
    (hdec : decodeCredJWT env e.jwt = .ok (hs, json)) {id : String} {custom : JObj}
    (hsub : vc.contents.subject = [⟨id, custom⟩]) (hid : get? cs "id" = some (.str id)) :
    ∃ m c' s, createDisplayMap env pc false [] = .ok m ∧
      (∀ k, k ∉ refinedNames → k ≠ "credentialSubject" → get? m k = get? (wireObj vc.json) k) ∧
      get? m "credentialSubject" = some (.obj s) ∧
      (∀ k v, get? cs k = some v → SDJWT.Atomic v →
        (k = "id" ∨ k ∈ non → get? s k = some v) ∧ (k ≠ "id" → k ∉ non → get? s k = none)) ∧
      createDisplay env pc false [] = .ok ⟨del m "proof", c', [], none, none⟩ ∧
      DisplayContents env vc.contents m c' := by
  obtain ⟨-, o2, p2, p3⟩ := hM.presents [] (fun D => keys D) (by simp) List.nodup_nil (fun D d h => h)
  have hd : SDJWT.getDisclosedClaims env.sd (displayDiscs e.disclosures false []) json = .ok o2 := by
    have e1 : displayDiscs e.disclosures false [] = [] := by
      unfold displayDiscs
      simp
    rw [e1]
    have p2' := p2
    unfold SDJWT.disclosedClaims at p2'
    cases hx : SDJWT.getHashAlg env.sd json with
    | none => rw [hx] at p2'; cases p2'
    | some a => rw [hx] at p2'; exact p2'
  obtain ⟨h1, h2⟩ := create_display_eq hsd hjwt hdec (all := false) (given := []) rfl hd
  obtain ⟨k1, ⟨s, k2, k3, k4⟩, kw⟩ := display_of_claims env hM hI.unreserved hI.json hsolid (fun D d h => h) p2 p3
  have hcw : WF ms.erase := by
    have := SDJWT.jwf_get hI.json hI.subject
    simp only [JWF] at this
    rw [hM.tree]
    exact this.1
  have hcl : OEq (clearEmpty s) (clearEmpty (ms.reveal [])) := oeq_clear k3
  have hrw : WF (ms.reveal []) := SDJWT.reveal_wf [] ms hcw
  have get_some : ∀ k v, SDJWT.Atomic v → get? (ms.reveal []) k = some v → get? (clearEmpty s) k = some v := by
    intro k v hv hg
    have hc := clear_get_leaf hrw (by rintro o rfl; simp [SDJWT.Atomic] at hv) hg
    rcases SDJWT.JEq.get hcl k with ⟨-, g⟩ | ⟨w, w', g1, g2, g3⟩
    · rw [hc] at g; cases g
    · rw [hc] at g2
      cases g2
      rw [g1, SDJWT.jeq_atomic g3 hv]
  have get_none : ∀ k, get? (ms.reveal []) k = none → get? (clearEmpty s) k = none := by
    intro k hg
    have hc := clear_get_none hg
    rcases SDJWT.JEq.get hcl k with ⟨g, -⟩ | ⟨w, w', g1, g2, g3⟩
    · exact g
    · rw [hc] at g2; cases g2
  have scalar : ∀ k v, get? cs k = some v → SDJWT.Atomic v →
        (k = "id" ∨ k ∈ non → get? (clearEmpty s) k = some v) ∧ (k ≠ "id" → k ∉ non → get? (clearEmpty s) k = none) := by
    intro k v hg hv
    obtain ⟨a, ha, hiff⟩ := SDJWT.atomic_at hv hM.policy (hM.tree ▸ hg)
    constructor
    · intro hk
      have : a = none := hiff.2 (by
        simp only [makeEnv, List.mem_append, List.mem_singleton, decide_eq_true_eq]
        exact hk.symm)
      subst this
      have hval : SDJWT.Node.reveal [] (.plain v) = v := by
        cases v <;> simp_all [SDJWT.Atomic, SDJWT.Node.reveal, SDJWT.tidy]
      have hr := SDJWT.reveal_clear (S := []) ha hcw (by
        rw [hval]; cases v <;> simp_all [SDJWT.Atomic, Json.isNull])
      rw [hval] at hr
      exact get_some k v hv hr
    · intro n1 n2
      cases a with
      | none =>
        have := hiff.1 rfl
        simp only [makeEnv, List.mem_append, List.mem_singleton, decide_eq_true_eq] at this
        rcases this with h | h
        · exact absurd h n2
        · exact absurd h n1
      | some t => exact get_none k (SDJWT.reveal_hidden ha hcw (by simp))
  obtain ⟨c', hc', hdc⟩ := display_contents hM k1 k4 hsub ((scalar "id" _ hid (by simp [SDJWT.Atomic])).1 (Or.inl rfl))
  refine ⟨_, c', _, h1, ?_, k4, scalar, by rw [h2, hc'], hdc⟩
  intro k hk1 hk2
  rw [k1 k hk2, hM.refined.rest k hk1]

end Display

end VC.Vfy
