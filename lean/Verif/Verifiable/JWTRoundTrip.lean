import Verif.Verifiable.JWTClaimsProps
/-!
# verifiable: credential → JWT claims → credential (C40), signed claims in the contents (C41)
-/

namespace VC.Vfy

open GoMap

/-! ## Marshalling and unmarshalling the claim set -/

theorem get?_strClaim (k s k' : String) :
    get? (strClaim k s) k' = if k = k' ∧ s ≠ "" then some (.str s) else none := by
  unfold strClaim
  by_cases h : s = "" <;> by_cases e : k = k' <;> simp [h, e, get?]

theorem get?_dateField (k : String) (n : Option Int) (k' : String) :
    get? (dateField k n) k' = if k = k' then n.map (fun n => Json.num n) else none := by
  cases n <;> by_cases e : k = k' <;> simp [dateField, e, get?]

theorem get?_aud (l : List String) (k' : String) :
    get? (if l = [] then ([] : JObj) else [("aud", .arr (l.map .str))]) k' =
      if "aud" = k' ∧ l ≠ [] then some (.arr (l.map .str)) else none := by
  by_cases h : l = [] <;> by_cases e : "aud" = k' <;> simp [h, e, get?]

theorem stringSlice_map (l : List String) : stringSlice (l.map .str) = some l := by
  induction l with
  | nil => rfl
  | cons s l ih => simp [stringSlice, ih]

theorem dateOf_num (n : Int) : dateOf (.num n) = some (some n) := by
  simp [dateOf]

/-- The registered claims of a payload are read back if the payload has them as marshalled and there is
at least one of them. -/
theorem decodeClaims_marshal_any (r : Claims) (p : JObj) (hi : r.iss ≠ "" ∨ r.aud ≠ [] ∨ r.jti ≠ "")
    (h : ∀ k ∈ registered, get? p k = get? (marshalClaims r) k) :
    decodeClaims p = some (some r) := by
  have L : ∀ k, get? (marshalClaims r) k =
      (get? (strClaim "iss" r.iss) k).or ((get? (strClaim "sub" r.sub) k).or
      ((get? (if r.aud = [] then ([] : JObj) else [("aud", .arr (r.aud.map .str))]) k).or
      ((get? (dateField "exp" r.exp) k).or ((get? (dateField "nbf" r.nbf) k).or
      ((get? (dateField "iat" r.iat) k).or (get? (strClaim "jti" r.jti) k)))))) := by
    intro k
    simp only [marshalClaims, get?_append, Option.or_assoc]
  have hiss : get? p "iss" = if r.iss ≠ "" then some (.str r.iss) else none := by
    rw [h "iss" (by decide), L]; simp [get?_strClaim, get?_dateField, get?_aud]
  have hsub : get? p "sub" = if r.sub ≠ "" then some (.str r.sub) else none := by
    rw [h "sub" (by decide), L]; simp [get?_strClaim, get?_dateField, get?_aud]
  have haud : get? p "aud" = if r.aud ≠ [] then some (.arr (r.aud.map .str)) else none := by
    rw [h "aud" (by decide), L]; simp [get?_strClaim, get?_dateField, get?_aud]
  have hexp : get? p "exp" = r.exp.map (fun n => Json.num n) := by
    rw [h "exp" (by decide), L]; simp [get?_strClaim, get?_dateField, get?_aud]
  have hnbf : get? p "nbf" = r.nbf.map (fun n => Json.num n) := by
    rw [h "nbf" (by decide), L]; simp [get?_strClaim, get?_dateField, get?_aud]
  have hiat : get? p "iat" = r.iat.map (fun n => Json.num n) := by
    rw [h "iat" (by decide), L]; simp [get?_strClaim, get?_dateField, get?_aud]
  have hjti : get? p "jti" = if r.jti ≠ "" then some (.str r.jti) else none := by
    rw [h "jti" (by decide), L]; simp [get?_strClaim, get?_dateField, get?_aud]
  have hany : p.any (fun e => registered.contains e.1) = true := by
    simp only [List.any_eq_true, List.contains_iff_mem]
    rcases hi with hi | hi | hi
    · rw [if_pos hi] at hiss; exact ⟨_, mem_of_get? hiss, by simp [registered]⟩
    · rw [if_pos hi] at haud; exact ⟨_, mem_of_get? haud, by simp [registered]⟩
    · rw [if_pos hi] at hjti; exact ⟨_, mem_of_get? hjti, by simp [registered]⟩
  have sOf : ∀ s : String, strOf ((if s ≠ "" then some (Json.str s) else none).getD .null) =
      some s := by
    intro s; by_cases e : s = "" <;> simp [e, strOf]
  have dOf : ∀ n : Option Int, dateOf ((n.map (fun n => Json.num n)).getD .null) = some n := by
    intro n; cases n <;> simp [dateOf]
  have aOf : audOf (if r.aud ≠ [] then some (.arr (r.aud.map .str)) else none) = some r.aud := by
    by_cases e : r.aud = [] <;> simp [e, audOf, stringSlice_map]
  unfold decodeClaims
  rw [if_pos hany]
  unfold JObj.at
  rw [hiss, hsub, haud, hexp, hnbf, hiat, hjti, sOf, sOf, sOf, dOf, dOf, dOf, aOf]
  rfl

/-- The registered claims of a payload are read back if the payload has them as marshalled. -/
theorem decodeClaims_marshal (r : Claims) (p : JObj) (hi : r.iss ≠ "")
    (h : ∀ k ∈ registered, get? p k = get? (marshalClaims r) k) :
    decodeClaims p = some (some r) :=
  decodeClaims_marshal_any r p (Or.inl hi) h

theorem collectCustom_none {α : Type _} (vf af cf : GoMap α)
    (h : ∀ k ∈ keys af, (get? vf k).isSome) : JsonUtil.collectCustom vf af cf = cf := by
  induction af generalizing cf with
  | nil => rfl
  | cons p af ih =>
    obtain ⟨k, v⟩ := p
    rw [JsonUtil.collectCustom, if_pos (h k (by simp [keys]))]
    exact ih cf (fun k' hk' => h k' (by simp only [keys, List.map_cons, List.mem_cons] at hk' ⊢
                                        exact .inr hk'))

theorem keys_marshalClaims (r : Claims) : ∀ k ∈ keys (marshalClaims r), k ∈ registered := by
  intro k hk
  simp only [marshalClaims, strClaim, dateField, keys, List.map_append, List.mem_append] at hk
  rcases hk with (((((hk | hk) | hk) | hk) | hk) | hk) | hk <;>
    (split at hk <;> simp_all [registered])

/-- The claim set of a credential survives marshalling, with a `vc` claim. -/
theorem unmarshal_marshalCred (r : Claims) (vc : JObj) (hi : r.iss ≠ "") (hv : vc ≠ []) :
    unmarshalCred (marshalCred ⟨some r, some vc⟩) = some ⟨some r, some vc⟩ := by
  obtain ⟨q, vc', rfl⟩ : ∃ q vc', vc = q :: vc' := by
    cases vc with
    | nil => exact absurd rfl hv
    | cons q vc' => exact ⟨q, vc', rfl⟩
  have hm : marshalCred ⟨some r, some (q :: vc')⟩ = marshalClaims r ++ [("vc", .obj (q :: vc'))] :=
    rfl
  have hc : decodeClaims (marshalCred ⟨some r, some (q :: vc')⟩) = some (some r) := by
    apply decodeClaims_marshal r _ hi
    intro k hk
    rw [hm, get?_append]
    have : get? ([("vc", .obj (q :: vc'))] : JObj) k = none := by
      have : "vc" ≠ k := by rintro rfl; exact absurd hk (by decide)
      simp [get?, this]
    simp [this]
  have hnone : get? (marshalClaims r) "vc" = none := by
    rw [get?_eq_none_iff]
    intro h
    exact absurd (keys_marshalClaims r _ h) (by decide)
  have hd : decodeVCField (JObj.at (marshalCred ⟨some r, some (q :: vc')⟩) "vc") =
      some (some (q :: vc')) := by
    unfold JObj.at
    rw [hm, get?_append, hnone]
    rfl
  unfold unmarshalCred
  rw [hc, hd]
  dsimp only
  rw [collectCustom_none]
  · rfl
  · intro k hk; exact get?_isSome_iff.mpr hk

theorem wf_marshalClaims (r : Claims) : WF (marshalClaims r) := by
  obtain ⟨iss, sub, aud, exp, nbf, iat, jti⟩ := r
  unfold WF marshalClaims strClaim dateField
  dsimp only
  by_cases h1 : iss = "" <;> by_cases h2 : sub = "" <;> by_cases h3 : aud = [] <;>
    by_cases h4 : jti = "" <;> cases exp <;> cases nbf <;> cases iat <;>
    simp [h1, h2, h3, h4, keys]

/-- The claim set of a credential survives marshalling in the flat SD-JWT form, provided the
credential does not itself use the name of a registered claim (or `vc`). -/
theorem unmarshal_payloadV5 (r : Claims) (vc : JObj) (hi : r.iss ≠ "") (hv : vc ≠ [])
    (hw : WF vc) (hn : ∀ k ∈ keys vc, k ∉ registered ∧ k ≠ "vc") :
    ∃ vc', unmarshalCred (payloadV5 r vc) = some ⟨some r, some vc'⟩ ∧ Same vc' vc := by
  have L : ∀ k, get? (payloadV5 r vc) k = (get? (marshalClaims r) k).or (get? vc k) := by
    intro k
    unfold payloadV5
    rw [JsonUtil.merge_lookup _ hw]
    simp [marshalCred]
  have hvk : ∀ k, k ∈ registered ∨ k = "vc" → get? vc k = none := by
    intro k hk
    rw [get?_eq_none_iff]
    intro h
    have := hn k h
    rcases hk with hk | hk
    · exact this.1 hk
    · exact this.2 hk
  have hnone : ∀ k, k ∉ registered → get? (marshalClaims r) k = none := by
    intro k hk
    rw [get?_eq_none_iff]
    intro h
    exact hk (keys_marshalClaims r _ h)
  have hc : decodeClaims (payloadV5 r vc) = some (some r) := by
    apply decodeClaims_marshal r _ hi
    intro k hk
    rw [L, hvk k (.inl hk), Option.or_none]
  have hd : decodeVCField (JObj.at (payloadV5 r vc) "vc") = some none := by
    unfold JObj.at
    rw [L, hvk "vc" (.inr rfl), hnone "vc" (by decide)]
    rfl
  have hwf : WF (payloadV5 r vc) := by
    unfold payloadV5
    apply JsonUtil.merge_wf
    simpa [marshalCred] using wf_marshalClaims r
  have hm : marshalCred ⟨some r, none⟩ = marshalClaims r := by simp [marshalCred]
  have hsame : Same (JsonUtil.collectCustom (marshalClaims r) (payloadV5 r vc) []) vc := by
    intro k
    rw [JsonUtil.collect_lookup _ _ hwf, L]
    cases h : get? (marshalClaims r) k with
    | none => simp [get?]
    | some j =>
      have : k ∈ registered := keys_marshalClaims r k (get?_isSome_iff.mp (by rw [h]; rfl))
      simp [get?, hvk k (.inl this)]
  refine ⟨JsonUtil.collectCustom (marshalClaims r) (payloadV5 r vc) [], ?_, hsame⟩
  unfold unmarshalCred
  rw [hc, hd]
  dsimp only
  rw [hm]
  have hne : (JsonUtil.collectCustom (marshalClaims r) (payloadV5 r vc) []).isEmpty = false := by
    cases e : JsonUtil.collectCustom (marshalClaims r) (payloadV5 r vc) [] with
    | cons _ _ => rfl
    | nil =>
      exfalso
      rw [e] at hsame
      cases vc with
      | nil => exact hv rfl
      | cons q vc =>
        have := hsame q.1
        simp [get?] at this
  rw [hne]
  rfl

/-! ## The issuer -/

theorem parseIssuer_wire (v : GVal) : parseIssuer (.json v.wire) = parseIssuer v := by
  cases v <;> rfl

/-- Rewriting the issuer's id gives back the issuer: its custom fields are untouched. -/
theorem issuerFromJSON_set (o : JObj) (iss : String) (hi : iss ≠ "") :
    issuerFromJSON (set o "id" (.str iss)) = some ⟨iss, (JsonUtil.splitObj ["id"] o).2⟩ := by
  simp only [issuerFromJSON]
  rw [parse_id_set]
  simp only [Option.bind_eq_bind, Option.bind_some, hi, if_false, Option.some.injEq, Issuer.mk.injEq,
    true_and]
  rw [splitObj_snd, splitObj_snd, filter_set o "id" _ (fun k => !["id"].contains k) (by decide)]

/-- After refining, the issuer value is read as the original issuer, whether its id was kept or
removed. -/
theorem issuer_restored {iss : String} {v v' : Option Json} {i : Issuer}
    (hi : i.id ≠ "") (hiss : iss = i.id)
    (h0 : parseIssuer (.json (v.getD .null)) = some (some i))
    (h : IssuerRefined iss v v') : parseIssuer (.json (v'.getD .null)) = some (some i) := by
  subst hiss
  cases v with
  | none => simp [parseIssuer] at h0
  | some j =>
    cases j with
    | str s =>
      rw [h.string s hi rfl]
      rw [Option.getD_some, parseIssuer_string] at h0
      obtain ⟨-, e⟩ := h0
      cases e
      simp [parseIssuer, hi]
    | obj o =>
      rw [h.object o hi rfl]
      simp only [Option.getD_some, parseIssuer, Option.map_eq_some_iff, Option.some.injEq] at h0 ⊢
      obtain ⟨i', h1, rfl⟩ := h0
      refine ⟨i', ?_, rfl⟩
      rw [issuerFromJSON_set o _ hi]
      simp only [issuerFromJSON, Option.bind_eq_bind, Option.bind_eq_some_iff] at h1
      obtain ⟨id, -, e⟩ := h1
      split at e
      · cases e
      · cases e; rfl
    | _ => simp [parseIssuer] at h0

theorem issuer_restored_min {i : Issuer} (hi : i.id ≠ "") (hc : NoKey "id" i.custom) {v' : Option Json}
    (h : IssuerRefined i.id (some (serializeIssuer { i with id := "" })) v') :
    parseIssuer (.json (v'.getD .null)) = some (some i) := by
  unfold serializeIssuer at h
  by_cases he : i.custom.isEmpty = true
  · simp only [he, if_true] at h
    rw [h.string _ hi rfl]
    have hc' : i.custom = [] := List.isEmpty_iff.mp he
    obtain ⟨id, c⟩ := i
    dsimp only at hc' hi
    subst hc'
    simp [parseIssuer, hi]
  · simp only [he, Bool.false_eq_true, if_false, issuerToJSON, ne_eq, not_true_eq_false] at h
    rw [h.object _ hi rfl]
    simp only [Option.getD_some, parseIssuer]
    rw [issuerFromJSON_set _ _ hi]
    have : (JsonUtil.splitObj ["id"] i.custom).2 = i.custom := by
      rw [splitObj_snd]
      apply filter_id i.custom (fun k => !["id"].contains k)
      intro k hk
      have : k ≠ "id" := fun e => hc (e ▸ hk)
      simp [this]
    rw [this]
    rfl

/-- An issuer that parses does not conflict with its own id. -/
theorem no_conflict {vc : JObj} {i : Issuer}
    (h : parseIssuer (.json ((get? vc "issuer").getD .null)) = some (some i)) :
    ¬ IssuerConflict i.id vc := by
  rintro (⟨id, hid | ⟨o, ho, hid⟩, -, -, hne⟩ | ⟨o, v, ho, hid, h1, h2⟩)
  · rw [hid, Option.getD_some, parseIssuer_string] at h
    obtain ⟨-, e⟩ := h
    cases e
    exact hne rfl
  · rw [ho] at h
    simp only [Option.getD_some, parseIssuer, Option.map_eq_some_iff, Option.some.injEq] at h
    obtain ⟨i', h1, rfl⟩ := h
    have := (issuerFromJSON_needs_id o i' h1).2.1
    rw [hid] at this
    cases this
    exact hne rfl
  · rw [ho] at h
    simp only [Option.getD_some, parseIssuer, Option.map_eq_some_iff, Option.some.injEq] at h
    obtain ⟨i', h3, rfl⟩ := h
    have := (issuerFromJSON_needs_id o i' h3).2.1
    rw [hid] at this
    cases this
    exact h2 _ rfl

theorem no_conflict_min {vc : JObj} {i : Issuer} (hc : NoKey "id" i.custom) (iss : String)
    (h : get? vc "issuer" = some (serializeIssuer { i with id := "" })) :
    ¬ IssuerConflict iss vc := by
  have hp : hasPrefix "" "did:" = false := by decide
  have hn : get? i.custom "id" = none := get?_eq_none_iff.mpr hc
  rintro (⟨id, hid | ⟨o, ho, hid⟩, -, h2, -⟩ | ⟨o, v, ho, hid, -⟩)
  · rw [h] at hid
    unfold serializeIssuer at hid
    split at hid
    · cases hid; rw [hp] at h2; cases h2
    · cases hid
  · rw [h] at ho
    unfold serializeIssuer at ho
    split at ho
    · cases ho
    · simp only [issuerToJSON, ne_eq, not_true_eq_false, if_false, Option.some.injEq, Json.obj.injEq] at ho
      subst ho; rw [hn] at hid; cases hid
  · rw [h] at ho
    unfold serializeIssuer at ho
    split at ho
    · cases ho
    · simp only [issuerToJSON, ne_eq, not_true_eq_false, if_false, Option.some.injEq, Json.obj.injEq] at ho
      subst ho; rw [hn] at hid; cases hid

/-! ## The dates -/

variable (env : JEnv)

/-- The second `n` can be written as an RFC 3339 date and read back (years 0 to 9999). -/
def SecOK (n : Int) : Prop := ∃ t, env.parseT (env.fmtUnix n) = some t ∧ env.unixT t = n

/-- A date that a JWT claim can carry: not Go's zero time, and within the RFC 3339 range. -/
def ClaimDate (w : TW env.T) : Prop := env.zeroT w.t = false ∧ SecOK env (env.unixT w.t)

/-- Reading a date under two names. -/
def time2 (a b : Option Json) : Option (Option (TW env.T)) :=
  match parseTime env.toCEnv (.json (a.getD .null)) with
  | none => none
  | some (some w) => some (some w)
  | some none => parseTime env.toCEnv (.json (b.getD .null))

theorem at_ofWire (o : JObj) (k : String) :
    GObj.at (ofWire o) k = .json ((get? o k).getD .null) := by
  unfold GObj.at
  rw [get?_ofWire']
  cases get? o k <;> rfl

theorem parseTime2_eq (o : JObj) (k k' : String) :
    parseTime2 env.toCEnv (ofWire o) k k' = time2 env (get? o k) (get? o k') := by
  unfold parseTime2 time2
  rw [at_ofWire, at_ofWire]
  cases parseTime env.toCEnv (.json ((get? o k).getD .null)) with
  | none => rfl
  | some z => cases z <;> rfl

theorem parseTime_sec {n : Int} (h : SecOK env n) :
    ∃ w, parseTime env.toCEnv (.json (.str (env.fmtUnix n))) = some (some w) ∧ env.unixT w.t = n := by
  obtain ⟨t, ht, hu⟩ := h
  exact ⟨⟨t, env.fmtUnix n⟩, by simp [parseTime, parseTW, ht], hu⟩

/-- The dates after refining are the original ones to the second.  `a` is the value under the 1.1
name, `b` under the 2.0 name; `a1`, `b1` are those values or, minimized, nothing. -/
theorem dates_restored {a b a1 b1 a' b' : Option Json} {w : Option (TW env.T)}
    (h0 : time2 env a b = some w) (hd : ∀ x, w = some x → ClaimDate env x)
    (h1 : (a1 = a ∧ b1 = b) ∨ (a1 = none ∧ b1 = none))
    (h2 : (a' = a1 ∧ b' = ((dateClaim env w).map (fun n => Json.str (env.fmtUnix n))).or b1) ∨
          (b' = b1 ∧ a' = ((dateClaim env w).map (fun n => Json.str (env.fmtUnix n))).or a1)) :
    ∃ w', time2 env a' b' = some w' ∧
      w'.map (fun x => env.unixT x.t) = w.map (fun x => env.unixT x.t) := by
  cases w with
  | none =>
    have hdc : dateClaim env none = none := rfl
    simp only [hdc, Option.map_none, Option.none_or] at h2
    refine ⟨none, ?_, rfl⟩
    rcases h1 with ⟨rfl, rfl⟩ | ⟨rfl, rfl⟩
    · rcases h2 with ⟨rfl, rfl⟩ | ⟨rfl, rfl⟩ <;> exact h0
    · rcases h2 with ⟨rfl, rfl⟩ | ⟨rfl, rfl⟩ <;> rfl
  | some x =>
    obtain ⟨hz, hs⟩ := hd x rfl
    have hdc : dateClaim env (some x) = some (env.unixT x.t) := by
      simp [dateClaim, numericDate, hz]
    obtain ⟨y, hy, hu⟩ := parseTime_sec env hs
    simp only [hdc, Option.map_some, Option.some_or] at h2
    rcases h2 with ⟨rfl, rfl⟩ | ⟨rfl, rfl⟩
    · rcases h1 with ⟨rfl, rfl⟩ | ⟨rfl, rfl⟩
      · unfold time2 at h0 ⊢
        cases hp : parseTime env.toCEnv (.json (a'.getD .null)) with
        | none => simp [hp] at h0
        | some z =>
          cases z with
          | none =>
            refine ⟨some y, ?_, by simp [hu]⟩
            simpa using hy
          | some z =>
            rw [hp] at h0
            exact ⟨some z, rfl, by cases h0; rfl⟩
      · exact ⟨some y, by simpa [time2, parseTime] using hy, by simp [hu]⟩
    · refine ⟨some y, ?_, by simp [hu]⟩
      unfold time2
      rw [Option.getD_some, hy]

/-! ## C40: the round trip -/

/-- `c'` is `c` with dates equal to the second: everything else, including the issuer with its custom
fields, the id, the subjects, status, schemas and evidence, is the same. -/
structure SameToSecond (c c' : Contents env.T) : Prop where
  issued : c'.issued.map (fun x => env.unixT x.t) = c.issued.map (fun x => env.unixT x.t)
  expired : c'.expired.map (fun x => env.unixT x.t) = c.expired.map (fun x => env.unixT x.t)
  rest : ({ c' with issued := none, expired := none } : Contents env.T) =
    { c with issued := none, expired := none }

theorem get?_wireObj (m : GObj) (k : String) : get? (wireObj m) k = (get? m k).map GVal.wire := by
  unfold wireObj
  rw [GoMap.get?_map m (fun _ v => v.wire) k]

/-- The object handed to the JWT: the credential's own object, or the minimized one. -/
theorem claims_object {vc : Cred env.T} {min : Bool} {r : Claims} {m : GObj}
    (h : newJWTCredClaims env vc min = .ok (r, m)) :
    ∃ i sub, vc.contents.issuer = some i ∧ subjectID vc.contents.subject = some sub ∧
      r = ⟨i.id, sub, [], dateClaim env vc.contents.expired, dateClaim env vc.contents.issued,
            dateClaim env vc.contents.issued, vc.contents.id⟩ ∧
      (if min then minimizeVC vc.json else some vc.json) = some m := by
  unfold newJWTCredClaims at h
  cases hs : subjectID vc.contents.subject with
  | none => simp [hs] at h
  | some sub =>
    cases hi : vc.contents.issuer with
    | none => simp [hs, hi] at h
    | some i =>
      rw [hs, hi] at h
      dsimp only at h
      cases hm : (if min = true then minimizeVC vc.json else some vc.json) with
      | none => rw [hm] at h; cases h
      | some m' =>
        rw [hm] at h
        simp only [Out.ok.injEq, Prod.mk.injEq] at h
        exact ⟨i, sub, rfl, rfl, h.1.symm, by rw [h.2]⟩

/-- What minimizing does to the object. -/
theorem minimize_spec {json m : GObj} (h : minimizeVC json = some m) :
    (∀ k ∈ ["expirationDate", "issuanceDate", "validUntil", "validFrom", "id"], get? m k = none) ∧
    (∀ k, k ∉ ["expirationDate", "issuanceDate", "validUntil", "validFrom", "id", "issuer"] →
      get? m k = get? json k) ∧
    (∀ i, parseIssuer (GObj.at json "issuer") = some (some i) →
      get? m "issuer" = some (.json (serializeIssuer { i with id := "" }))) := by
  unfold minimizeVC at h
  dsimp only at h
  have hI : GObj.at (del (del (del (del (del json "expirationDate") "issuanceDate") "validUntil")
      "validFrom") "id") "issuer" = GObj.at json "issuer" := by
    simp [GObj.at, get?_del]
  rw [hI] at h
  cases hp : parseIssuer (GObj.at json "issuer") with
  | none => rw [hp] at h; cases h
  | some x =>
    rw [hp] at h
    cases x with
    | none =>
      cases h
      refine ⟨?_, ?_, ?_⟩
      · intro k hk
        simp only [List.mem_cons, List.not_mem_nil, or_false] at hk
        rcases hk with rfl | rfl | rfl | rfl | rfl <;> simp [get?_del]
      · intro k hk
        simp only [List.mem_cons, List.not_mem_nil, or_false, not_or] at hk
        obtain ⟨k1, k2, k3, k4, k5, k6⟩ := hk
        simp [get?_del, Ne.symm k1, Ne.symm k2, Ne.symm k3, Ne.symm k4, Ne.symm k5]
      · intro i e; cases e
    | some i =>
      cases h
      refine ⟨?_, ?_, ?_⟩
      · intro k hk
        simp only [List.mem_cons, List.not_mem_nil, or_false] at hk
        rcases hk with rfl | rfl | rfl | rfl | rfl <;> simp [get?_del, get?_set]
      · intro k hk
        simp only [List.mem_cons, List.not_mem_nil, or_false, not_or] at hk
        obtain ⟨k1, k2, k3, k4, k5, k6⟩ := hk
        simp [get?_del, get?_set, Ne.symm k1, Ne.symm k2, Ne.symm k3, Ne.symm k4, Ne.symm k5,
          Ne.symm k6]
      · intro i' e
        cases e
        simp

variable {env}

/-- The heart of C40: whatever object with the same members as the claimed one is refined by the
claims, it parses to the original contents. -/
theorem refined_contents (vc : Cred env.T) (hA : Agrees env.toCEnv vc) (min : Bool) (r : Claims) (m : GObj)
    (h : newJWTCredClaims env vc min = .ok (r, m))
    (hd : ∀ w, vc.contents.issued = some w → ClaimDate env w)
    (hd' : ∀ w, vc.contents.expired = some w → ClaimDate env w)
    (x : JObj) (hx : Same x (wireObj m)) :
    ∃ o, refine env ⟨some r, some x⟩ = .ok (some o) ∧
      (∀ k, k ∉ ["issuer", "id", "issuanceDate", "validFrom", "expirationDate", "validUntil"] →
        get? o k = get? (wireObj vc.json) k) ∧
      ∃ c, parseContents env.toCEnv (ofWire o) vc.contents.sdAlg.isSome = some c ∧
        SameToSecond env vc.contents c := by
  obtain ⟨i, sub, hi, hsub, rfl, hm⟩ := claims_object env h
  unfold Agrees at hA
  rw [parseContents_iff] at hA
  obtain ⟨h1, h2, h3, h4, h5, h6, h7, h8, h9, h10, h11, h12, h13, h14⟩ := hA
  have hi3 : parseIssuer (.json ((get? (wireObj vc.json) "issuer").getD .null)) = some (some i) := by
    rw [at_ofWire] at h3
    rw [h3]
    show some vc.contents.issuer = some (some i)
    rw [hi]
  have hiid : i.id ≠ "" ∧ NoKey "id" i.custom := by
    have := parseIssuer_ok hi3
    exact this
  -- the object before refining
  have hx' : ∀ k, get? x k = (get? m k).map GVal.wire := fun k => by rw [hx k, get?_wireObj]
  have hw' : ∀ k, get? (wireObj vc.json) k = (get? vc.json k).map GVal.wire :=
    fun k => get?_wireObj vc.json k
  have hrest : ∀ k, k ∉ ["issuer", "id", "issuanceDate", "validFrom", "expirationDate",
      "validUntil"] → get? x k = get? (wireObj vc.json) k := by
    intro k hk
    rw [hx', hw']
    cases min with
    | false =>
      simp only [Bool.false_eq_true, if_false, Option.some.injEq] at hm
      rw [hm]
    | true =>
      rw [if_pos rfl] at hm
      rw [(minimize_spec hm).2.1 k]
      intro hk'
      apply hk
      simp only [List.mem_cons, List.not_mem_nil, or_false] at hk' ⊢
      rcases hk' with h | h | h | h | h | h <;> simp [h]
  have hcase : ∀ k ∈ ["expirationDate", "issuanceDate", "validUntil", "validFrom", "id"],
      if min then get? x k = none else get? x k = get? (wireObj vc.json) k := by
    intro k hk
    cases min with
    | false =>
      simp only [Bool.false_eq_true, if_false, Option.some.injEq] at hm ⊢
      rw [hx', hw', hm]
    | true =>
      simp only [if_true] at hm ⊢
      rw [hx', (minimize_spec hm).1 k hk]; rfl
  have hpar : parseIssuer (GObj.at vc.json "issuer") = some (some i) := by
    rw [← parseIssuer_wire]
    have : (GObj.at vc.json "issuer").wire = (get? (wireObj vc.json) "issuer").getD .null := by
      rw [hw']
      unfold GObj.at
      cases get? vc.json "issuer" <;> rfl
    rw [this]
    exact hi3
  have hxi : get? x "issuer" = if min then some (serializeIssuer { i with id := "" })
      else get? (wireObj vc.json) "issuer" := by
    cases min with
    | false =>
      simp only [Bool.false_eq_true, if_false, Option.some.injEq] at hm ⊢
      rw [hx', hw', hm]
    | true =>
      simp only [if_true] at hm ⊢
      rw [hx', (minimize_spec hm).2.2 i hpar]; rfl
  have hnc : ¬ IssuerConflict i.id x := by
    cases min with
    | false =>
      simp only [Bool.false_eq_true, if_false] at hxi
      apply no_conflict
      rw [hxi]; exact hi3
    | true =>
      simp only [if_true] at hxi
      exact no_conflict_min hiid.2 i.id hxi
  rcases refine_spec env ⟨i.id, sub, [], dateClaim env vc.contents.expired,
      dateClaim env vc.contents.issued, dateClaim env vc.contents.issued, vc.contents.id⟩ x with
    ⟨-, hc, -⟩ | ⟨-, o, ho, R⟩
  · exact absurd hc hnc
  · have hk : ∀ k, k ∉ ["issuer", "id", "issuanceDate", "validFrom", "expirationDate",
        "validUntil"] → get? o k = get? (wireObj vc.json) k := fun k hk => by
      rw [R.rest k hk, hrest k hk]
    refine ⟨o, ho, hk, ?_⟩
    have at_eq : ∀ k, k ∉ ["issuer", "id", "issuanceDate", "validFrom", "expirationDate",
        "validUntil"] → GObj.at (ofWire o) k = GObj.at (ofWire (wireObj vc.json)) k := by
      intro k hk'
      rw [at_ofWire, at_ofWire, hk k hk']
    have hiss : parseIssuer (GObj.at (ofWire o) "issuer") = some (some i) := by
      rw [at_ofWire]
      have RI := R.issuer
      rw [hxi] at RI
      cases min with
      | false => exact issuer_restored hiid.1 rfl hi3 RI
      | true => exact issuer_restored_min hiid.1 hiid.2 RI
    have hid : parseStr (GObj.at (ofWire o) "id") = some vc.contents.id := by
      rw [at_ofWire, R.id]
      dsimp only
      by_cases he : vc.contents.id = ""
      · rw [if_pos he]
        have hc := hcase "id" (by decide)
        cases min with
        | true =>
          simp only [if_true] at hc
          rw [hc, he]; rfl
        | false =>
          simp only [Bool.false_eq_true, if_false] at hc
          rw [hc, ← at_ofWire]
          exact h10
      · rw [if_neg he]
        rfl
    have hmin : ∀ a b, a ∈ ["expirationDate", "issuanceDate", "validUntil", "validFrom", "id"] →
        b ∈ ["expirationDate", "issuanceDate", "validUntil", "validFrom", "id"] →
        (get? x a = get? (wireObj vc.json) a ∧ get? x b = get? (wireObj vc.json) b) ∨
        (get? x a = none ∧ get? x b = none) := by
      intro a b ha hb
      have h1 := hcase a ha
      have h2 := hcase b hb
      cases min with
      | true => simp only [if_true] at h1 h2; exact .inr ⟨h1, h2⟩
      | false => simp only [Bool.false_eq_true, if_false] at h1 h2; exact .inl ⟨h1, h2⟩
    have hsec : ∀ w : Option (TW env.T), (∀ x, w = some x → ClaimDate env x) →
        (∀ y, (w.map (fun w => (⟨w.t, fmtTW env.toCEnv w⟩ : TW env.T))) = some y →
          ClaimDate env y) := by
      intro w hw y hy
      cases w with
      | none => cases hy
      | some z => cases hy; exact hw z rfl
    have hdc : ∀ w : Option (TW env.T),
        dateClaim env (w.map (fun w => (⟨w.t, fmtTW env.toCEnv w⟩ : TW env.T))) =
          dateClaim env w := by
      intro w; cases w <;> rfl
    have hissued : ∃ w', parseTime2 env.toCEnv (ofWire o) "issuanceDate" "validFrom" = some w' ∧
        w'.map (fun x => env.unixT x.t) = vc.contents.issued.map (fun x => env.unixT x.t) := by
      rw [parseTime2_eq] at h11 ⊢
      obtain ⟨w', e1, e2⟩ := dates_restored env (a' := get? o "issuanceDate")
        (b' := get? o "validFrom") h11 (hsec _ hd)
        (hmin "issuanceDate" "validFrom" (by decide) (by decide)) (by
          show _ ∨ _
          have hdc' := hdc vc.contents.issued
          by_cases hv : IsV2 x
          · obtain ⟨q1, q2, q3, q4⟩ := R.v2 hv
            refine .inl ⟨q3, ?_⟩
            rw [q1]
            simp only [Option.or_self]
            rw [show (withTimeStrings env.toCEnv vc.contents).issued =
              vc.contents.issued.map (fun w => ⟨w.t, fmtTW env.toCEnv w⟩) from rfl, hdc']
          · obtain ⟨q1, q2, q3, q4⟩ := R.v1 hv
            refine .inr ⟨q3, ?_⟩
            rw [q1]
            simp only [Option.or_self]
            rw [show (withTimeStrings env.toCEnv vc.contents).issued =
              vc.contents.issued.map (fun w => ⟨w.t, fmtTW env.toCEnv w⟩) from rfl, hdc'])
      refine ⟨w', e1, ?_⟩
      rw [e2]
      show (vc.contents.issued.map _).map _ = _
      cases vc.contents.issued <;> rfl
    have hexpired : ∃ w', parseTime2 env.toCEnv (ofWire o) "expirationDate" "validUntil" = some w' ∧
        w'.map (fun x => env.unixT x.t) = vc.contents.expired.map (fun x => env.unixT x.t) := by
      rw [parseTime2_eq] at h12 ⊢
      obtain ⟨w', e1, e2⟩ := dates_restored env (a' := get? o "expirationDate")
        (b' := get? o "validUntil") h12 (hsec _ hd')
        (hmin "expirationDate" "validUntil" (by decide) (by decide)) (by
          show _ ∨ _
          have hdc' := hdc vc.contents.expired
          by_cases hv : IsV2 x
          · obtain ⟨q1, q2, q3, q4⟩ := R.v2 hv
            refine .inl ⟨q4, ?_⟩
            rw [q2]
            rw [show (withTimeStrings env.toCEnv vc.contents).expired =
              vc.contents.expired.map (fun w => ⟨w.t, fmtTW env.toCEnv w⟩) from rfl, hdc']
          · obtain ⟨q1, q2, q3, q4⟩ := R.v1 hv
            refine .inr ⟨q4, ?_⟩
            rw [q2]
            rw [show (withTimeStrings env.toCEnv vc.contents).expired =
              vc.contents.expired.map (fun w => ⟨w.t, fmtTW env.toCEnv w⟩) from rfl, hdc'])
      refine ⟨w', e1, ?_⟩
      rw [e2]
      show (vc.contents.expired.map _).map _ = _
      cases vc.contents.expired <;> rfl
    obtain ⟨wi, ei, ei'⟩ := hissued
    obtain ⟨we, ee, ee'⟩ := hexpired
    refine ⟨{ vc.contents with issued := wi, expired := we }, ?_, ⟨ei', ee', rfl⟩⟩
    rw [parseContents_iff]
    rw [at_eq "credentialSchema" (by decide), at_eq "type" (by decide), at_eq "@context" (by decide),
      at_eq "termsOfUse" (by decide), at_eq "refreshService" (by decide),
      at_eq "relatedResource" (by decide), at_eq "credentialSubject" (by decide),
      at_eq "credentialStatus" (by decide), at_eq "evidence" (by decide)]
    refine ⟨h1, h2, ?_, h4, h5, h6, h7, h8, ?_, hid, ei, ee, h13, h14⟩
    · rw [hiss, ← hi]
    · unfold parseSDAlg at h9 ⊢
      rw [at_eq "_sd_alg" (by decide)]
      exact h9

theorem object_ne_nil {vc : Cred env.T} (hA : Agrees env.toCEnv vc) {min : Bool} {r : Claims} {m : GObj}
    (h : newJWTCredClaims env vc min = .ok (r, m)) : wireObj m ≠ [] ∧ r.iss ≠ "" := by
  obtain ⟨i, sub, hi, hsub, rfl, hm⟩ := claims_object env h
  unfold Agrees at hA
  rw [parseContents_iff] at hA
  obtain ⟨-, h2, h3, -⟩ := hA
  constructor
  · have ht : get? (wireObj m) "type" = get? (wireObj vc.json) "type" := by
      rw [get?_wireObj, get?_wireObj]
      cases min with
      | false => simp only [Bool.false_eq_true, if_false, Option.some.injEq] at hm; rw [hm]
      | true =>
        rw [if_pos rfl] at hm
        rw [(minimize_spec hm).2.1 "type" (by decide)]
    intro e
    rw [e] at ht
    rw [at_ofWire, ← ht] at h2
    simp [get?, decodeType] at h2
  · have : parseIssuer (GObj.at (ofWire (wireObj vc.json)) "issuer") = some (some i) := by
      rw [h3]
      show some vc.contents.issuer = _
      rw [hi]
    exact (parseIssuer_ok this).1

/-- **C40.** Converting a credential to JWT claims, minimized or not, and decoding the payload gives
back the credential: the contents are equal with dates to the second, and every member of the
credential object other than issuer, id and the dates is unchanged. -/
theorem jwt_claims_roundtrip (vc : Cred env.T) (hA : Agrees env.toCEnv vc) (min : Bool) (r : Claims)
    (m : GObj) (h : newJWTCredClaims env vc min = .ok (r, m))
    (hd : ∀ w, vc.contents.issued = some w → ClaimDate env w)
    (hd' : ∀ w, vc.contents.expired = some w → ClaimDate env w) :
    ∃ o, decodeCredPayload env (marshalCred ⟨some r, some (wireObj m)⟩) = .ok (some o) ∧
      (∀ k, k ∉ ["issuer", "id", "issuanceDate", "validFrom", "expirationDate", "validUntil"] →
        get? o k = get? (wireObj vc.json) k) ∧
      ∃ c, parseContents env.toCEnv (ofWire o) vc.contents.sdAlg.isSome = some c ∧
        SameToSecond env vc.contents c := by
  obtain ⟨hne, hiss⟩ := object_ne_nil hA h
  obtain ⟨o, h1, h2, h3⟩ := refined_contents vc hA min r m h hd hd' (wireObj m) (fun _ => rfl)
  refine ⟨o, ?_, h2, h3⟩
  unfold decodeCredPayload
  rw [unmarshal_marshalCred r _ hiss hne]
  exact h1

/-- **C40.** The same for the flat payload of SD-JWT draft 5, provided the credential object does not
use the name of a registered claim. -/
theorem jwt_claims_roundtrip_v5 (vc : Cred env.T) (hA : Agrees env.toCEnv vc) (min : Bool) (r : Claims)
    (m : GObj) (h : newJWTCredClaims env vc min = .ok (r, m))
    (hd : ∀ w, vc.contents.issued = some w → ClaimDate env w)
    (hd' : ∀ w, vc.contents.expired = some w → ClaimDate env w)
    (hw : WF m) (hn : ∀ k ∈ keys m, k ∉ registered ∧ k ≠ "vc") :
    ∃ o, decodeCredPayload env (payloadV5 r (wireObj m)) = .ok (some o) ∧
      (∀ k, k ∉ ["issuer", "id", "issuanceDate", "validFrom", "expirationDate", "validUntil"] →
        get? o k = get? (wireObj vc.json) k) ∧
      ∃ c, parseContents env.toCEnv (ofWire o) vc.contents.sdAlg.isSome = some c ∧
        SameToSecond env vc.contents c := by
  obtain ⟨hne, hiss⟩ := object_ne_nil hA h
  have hk : keys (wireObj m) = keys m := by simp [keys, wireObj]
  obtain ⟨x, hx, hs⟩ := unmarshal_payloadV5 r (wireObj m) hiss hne (by unfold WF; rw [hk]; exact hw)
    (by rw [hk]; exact hn)
  obtain ⟨o, h1, h2, h3⟩ := refined_contents vc hA min r m h hd hd' x hs
  refine ⟨o, ?_, h2, h3⟩
  unfold decodeCredPayload
  rw [hx]
  exact h1

/-! ## C41: the signed claims in the decoded contents -/

/-- **C41, what holds.** The contents of a decoded JWT credential carry the signed claims: the issuer
id is `iss`, the id is `jti`, the issuance date is `iat` (or `nbf` when there is no `iat`), the
expiration date is `exp`.  For the dates this needs the credential not to carry both the 2.0 context
and the old name of the date: see `signed_exp_shadowed`. -/
theorem signed_claims_in_contents_partial (p o : JObj) (b : Bool) (c : Contents env.T)
    (h : decodeCredPayload env p = .ok (some o))
    (hc : parseContents env.toCEnv (ofWire o) b = some c) :
    (∀ s, get? p "iss" = some (.str s) → s ≠ "" → ∀ i, c.issuer = some i → i.id = s) ∧
    (∀ s, get? p "jti" = some (.str s) → s ≠ "" → c.id = s) ∧
    (∀ n : Int, get? p "iat" = some (.num n) → SecOK env n →
      (¬ IsV2 o ∨ get? o "issuanceDate" = none) →
      c.issued.map (fun x => env.unixT x.t) = some n) ∧
    (∀ n : Int, get? p "nbf" = some (.num n) → get? p "iat" = none → SecOK env n →
      (¬ IsV2 o ∨ get? o "issuanceDate" = none) →
      c.issued.map (fun x => env.unixT x.t) = some n) ∧
    (∀ n : Int, get? p "exp" = some (.num n) → SecOK env n →
      (¬ IsV2 o ∨ get? o "expirationDate" = none) →
      c.expired.map (fun x => env.unixT x.t) = some n) := by
  unfold decodeCredPayload at h
  cases hu : unmarshalCred p with
  | none => rw [hu] at h; cases h
  | some cc =>
    rw [hu] at h
    dsimp only at h
    have hcl := unmarshalCred_claims hu
    obtain ⟨cl, vc⟩ := cc
    cases cl with
    | none => simp [refine] at h
    | some r =>
      obtain ⟨d1, -, -, d4, d5, d6, d7⟩ := decodeClaims_some hcl
      have hne : ∀ k ∈ registered, ∀ v, get? p k = some v → vc = none → r.iss = "" ∧ r.jti = "" ∧
          r.nbf = none ∧ r.iat = none ∧ r.exp = none := by
        intro k hk v hv e
        subst e
        have : ¬ (refine env ⟨some r, none⟩ = .panic) := by rw [h]; simp
        rw [refine_panic_iff] at this
        simp only [reduceCtorEq, true_and, Option.some.injEq, exists_eq_left', false_or, not_or,
          ne_eq, Decidable.not_not, Bool.not_eq_true, Option.isSome_eq_false_iff, Option.isNone_iff_eq_none] at this
        exact this
      rw [parseContents_iff] at hc
      obtain ⟨-, -, c3, -, -, -, -, -, -, c10, c11, c12, -, -⟩ := hc
      rw [at_ofWire] at c3 c10
      rw [parseTime2_eq] at c11 c12
      have hR : ∀ v, vc = some v → Refined env r v o := by
        intro v e
        subst e
        rcases refine_spec env r v with ⟨-, -, h'⟩ | ⟨-, o', h', R⟩
        · rw [h'] at h; cases h
        · rw [h'] at h; cases h; exact R
      have hV : ∀ v, vc = some v → (IsV2 o ↔ IsV2 v) := fun v e =>
        isV2_congr ((hR v e).rest "@context" (by decide))
      have hnum : ∀ (k : String) (n : Int), get? p k = some (.num n) →
          dateOf (JObj.at p k) = some (some n) := by
        intro k n e
        simp [JObj.at, e, dateOf]
      refine ⟨?_, ?_, ?_, ?_, ?_⟩
      · intro s hs hs' i hi
        have hr : r.iss = s := by
          simp only [JObj.at, hs, Option.getD_some, strOf, Option.some.injEq] at d1; exact d1.symm
        cases vc with
        | none => exact absurd (hne "iss" (by decide) _ hs rfl).1 (by rw [hr]; exact hs')
        | some v =>
          rw [hi] at c3
          rw [← hr]
          exact issuerRefined_id (by rw [hr]; exact hs') (hR v rfl).issuer c3
      · intro s hs hs'
        have hr : r.jti = s := by
          simp only [JObj.at, hs, Option.getD_some, strOf, Option.some.injEq] at d7; exact d7.symm
        cases vc with
        | none => exact absurd (hne "jti" (by decide) _ hs rfl).2.1 (by rw [hr]; exact hs')
        | some v =>
          have := (hR v rfl).id
          rw [hr, if_neg hs'] at this
          rw [this] at c10
          simp only [Option.getD_some, parseStr, Option.some.injEq] at c10
          exact c10.symm
      · intro n hn hs hcond
        have hr : r.iat = some n := by rw [hnum _ n hn] at d6; exact (Option.some.inj d6).symm
        cases vc with
        | none => exact absurd (hne "iat" (by decide) _ hn rfl).2.2.2.1 (by rw [hr]; simp)
        | some v =>
          obtain ⟨y, hy, hyu⟩ := parseTime_sec env hs
          by_cases hv : IsV2 o
          · have q := (hR v rfl).v2 ((hV v rfl).mp hv)
            have hno : get? o "issuanceDate" = none := hcond.resolve_left (fun f => f hv)
            rw [hno, q.1, hr] at c11
            simp only [time2, Option.getD_none, parseTime, Option.some_or, Option.map_some,
              Option.getD_some] at c11 hy
            rw [hy] at c11
            rw [← Option.some.inj c11]
            simp [hyu]
          · have q := (hR v rfl).v1 (fun e => hv ((hV v rfl).mpr e))
            rw [q.1, hr] at c11
            simp only [time2, Option.some_or, Option.map_some, Option.getD_some] at c11
            rw [hy] at c11
            rw [← Option.some.inj c11]
            simp [hyu]
      · intro n hn hnoi hs hcond
        have hr : r.nbf = some n := by rw [hnum _ n hn] at d5; exact (Option.some.inj d5).symm
        have hri : r.iat = none := by
          simp only [JObj.at, hnoi, Option.getD_none, dateOf, Option.some.injEq] at d6; exact d6.symm
        cases vc with
        | none => exact absurd (hne "nbf" (by decide) _ hn rfl).2.2.1 (by rw [hr]; simp)
        | some v =>
          obtain ⟨y, hy, hyu⟩ := parseTime_sec env hs
          by_cases hv : IsV2 o
          · have q := (hR v rfl).v2 ((hV v rfl).mp hv)
            have hno : get? o "issuanceDate" = none := hcond.resolve_left (fun f => f hv)
            rw [hno, q.1, hr, hri] at c11
            simp only [time2, Option.getD_none, parseTime, Option.some_or, Option.none_or,
              Option.map_some, Option.getD_some] at c11 hy
            rw [hy] at c11
            rw [← Option.some.inj c11]
            simp [hyu]
          · have q := (hR v rfl).v1 (fun e => hv ((hV v rfl).mpr e))
            rw [q.1, hr, hri] at c11
            simp only [time2, Option.some_or, Option.none_or, Option.map_some, Option.getD_some] at c11
            rw [hy] at c11
            rw [← Option.some.inj c11]
            simp [hyu]
      · intro n hn hs hcond
        have hr : r.exp = some n := by rw [hnum _ n hn] at d4; exact (Option.some.inj d4).symm
        cases vc with
        | none => exact absurd (hne "exp" (by decide) _ hn rfl).2.2.2.2 (by rw [hr]; simp)
        | some v =>
          obtain ⟨y, hy, hyu⟩ := parseTime_sec env hs
          by_cases hv : IsV2 o
          · have q := (hR v rfl).v2 ((hV v rfl).mp hv)
            have hno : get? o "expirationDate" = none := hcond.resolve_left (fun f => f hv)
            rw [hno, q.2.1, hr] at c12
            simp only [time2, Option.getD_none, parseTime, Option.some_or, Option.map_some,
              Option.getD_some] at c12 hy
            rw [hy] at c12
            rw [← Option.some.inj c12]
            simp [hyu]
          · have q := (hR v rfl).v1 (fun e => hv ((hV v rfl).mpr e))
            rw [q.2.1, hr] at c12
            simp only [time2, Option.some_or, Option.map_some, Option.getD_some] at c12
            rw [hy] at c12
            rw [← Option.some.inj c12]
            simp [hyu]

/-- **C41.** Decoding fails whenever `iss` and the issuer of the `vc` claim are different DIDs. -/
theorem decode_rejects_other_issuer (p vc : JObj) (iss id : String) (hne : vc ≠ [])
    (hvc : get? p "vc" = some (.obj vc)) (hiss : get? p "iss" = some (.str iss))
    (hid : get? vc "issuer" = some (.str id) ∨
      ∃ o, get? vc "issuer" = some (.obj o) ∧ get? o "id" = some (.str id))
    (h1 : hasPrefix iss "did:" = true) (h2 : hasPrefix id "did:" = true) (h3 : iss ≠ id) :
    decodeCredPayload env p = .err := by
  have hi : iss ≠ "" := by rintro rfl; exact absurd h1 (by decide)
  unfold decodeCredPayload
  cases hu : unmarshalCred p with
  | none => rfl
  | some c =>
    dsimp only
    have hcl := unmarshalCred_claims hu
    have hd : decodeVCField (JObj.at p "vc") = some (some vc) := by
      simp [JObj.at, hvc, decodeVCField]
    have hany : p.any (fun e => registered.contains e.1) = true := by
      simp only [List.any_eq_true, List.contains_iff_mem]
      exact ⟨_, mem_of_get? hiss, by simp [registered]⟩
    have hv : c.vc = some vc := by
      unfold unmarshalCred at hu
      rw [hcl, hd] at hu
      dsimp only at hu
      have he : emptyMap (some vc) = false := by
        cases vc with
        | nil => exact absurd rfl hne
        | cons _ _ => rfl
      rw [he, Bool.and_false] at hu
      simp only [Bool.false_eq_true, if_false, Option.some.injEq] at hu
      rw [← hu]
    obtain ⟨cl, v⟩ := c
    dsimp only at hv hcl
    subst hv
    cases cl with
    | none =>
      unfold decodeClaims at hcl
      rw [if_pos hany] at hcl
      simp [Option.bind_eq_some_iff] at hcl
    | some r =>
      have hr : r.iss = iss := by
        have d1 := (decodeClaims_some hcl).1
        simp only [JObj.at, hiss, Option.getD_some, strOf, Option.some.injEq] at d1; exact d1.symm
      rcases refine_spec env r vc with ⟨-, -, h'⟩ | ⟨hn, -⟩
      · exact h'
      · exact absurd (.inl ⟨id, hid, hr ▸ h1, h2, hr ▸ h3⟩) (hn (hr ▸ hi))

/-! ## Concrete cases -/

/-- The concrete library with Go's zero time at second -5. -/
def exJEnv : JEnv := ⟨exCEnv, fun (t : Int) => t == -5⟩

/-- Every second can be written and read back by the concrete library. -/
theorem exJEnv_sec (n : Int) : SecOK exJEnv n := by
  refine ⟨(n : Int), ?_, rfl⟩
  show unaryParse (unaryFmt n) = some n
  have hall : ∀ k : Nat, (List.replicate k '1').all (· == '1') = true := by
    intro k; simp
  unfold unaryParse unaryFmt
  by_cases h : n < 0
  · simp only [h, if_true, String.toList_ofList, List.reverse_cons, List.reverse_append,
      List.reverse_nil, List.nil_append, List.cons_append, List.reverse_replicate]
    simp only [hall, if_true, List.length_replicate]
    rw [if_neg (by simp)]
    simp; omega
  · simp only [h, if_false, String.toList_ofList, List.reverse_cons, List.reverse_append,
      List.reverse_nil, List.nil_append, List.cons_append, List.reverse_replicate]
    simp only [hall, if_true, List.length_replicate]
    rw [if_neg (by simp)]
    simp; omega

/-- A credential with an issuer object, an id, a subject and both dates. -/
def exJCred : Cred exJEnv.T :=
  ⟨[("@context", .json (.arr [.str v1ContextURI])), ("type", .json (.str "VerifiableCredential")),
    ("id", .json (.str "urn:1")),
    ("issuer", .json (.obj [("id", .str "did:example:acme"), ("name", .str "Acme")])),
    ("credentialSubject", .json (.obj [("id", .str "did:example:s"), ("degree", .str "BSc")])),
    ("issuanceDate", .json (.str "+1Z")), ("expirationDate", .json (.str "+111Z"))],
   { context := [v1ContextURI], customContext := [], id := "urn:1",
     types := ["VerifiableCredential"],
     subject := [⟨"did:example:s", [("degree", .str "BSc")]⟩],
     issuer := some ⟨"did:example:acme", [("name", .str "Acme")]⟩,
     issued := some ⟨(1 : Int), "+1Z"⟩, expired := some ⟨(3 : Int), "+111Z"⟩,
     status := [], schemas := [], evidence := .null, termsOfUse := [],
     refreshService := none, sdAlg := none, relRes := [] }, [], none, none⟩

example : Agrees exJEnv.toCEnv exJCred := rfl

example : ∀ w, exJCred.contents.issued = some w → ClaimDate exJEnv w := by
  intro w hw; cases hw; exact ⟨rfl, exJEnv_sec _⟩

/-- The minimized claims of that credential: no date, no id, an issuer without id. -/
example : newJWTCredClaims exJEnv exJCred true =
    .ok (⟨"did:example:acme", "did:example:s", [], some 3, some 1, some 1, "urn:1"⟩,
      [("@context", .json (.arr [.str v1ContextURI])), ("type", .json (.str "VerifiableCredential")),
       ("issuer", .json (.obj [("name", .str "Acme")])),
       ("credentialSubject", .json (.obj [("id", .str "did:example:s"), ("degree", .str "BSc")]))]) :=
  rfl

/-- **C41 (violated).** A 2.0 credential whose `vc` claim also has the old `expirationDate`: the
signed `exp` goes to `validUntil`, which is not read, and the contents expire at second 9 although
the token says second 3. -/
theorem signed_exp_shadowed : ∃ (p o : JObj) (c : Contents exJEnv.T),
    get? p "exp" = some (.num (3 : Int)) ∧ decodeCredPayload exJEnv p = .ok (some o) ∧
    parseContents exJEnv.toCEnv (ofWire o) false = some c ∧
    c.expired.map (fun x => exJEnv.unixT x.t) = some 9 :=
  ⟨[("iss", .str "did:example:a"), ("exp", .num (3 : Int)),
    ("vc", .obj [("@context", .arr [.str v2ContextURI]), ("type", .str "VerifiableCredential"),
      ("expirationDate", .str "+111111111Z")])], _, _, rfl, rfl, rfl, rfl⟩

/-- **C41 (violated).** A null `issuer` in the `vc` claim is not overwritten by the signed `iss`: the
decoded credential has no issuer. -/
theorem signed_iss_ignored : ∃ (p o : JObj) (c : Contents exJEnv.T),
    get? p "iss" = some (.str "did:example:a") ∧ decodeCredPayload exJEnv p = .ok (some o) ∧
    parseContents exJEnv.toCEnv (ofWire o) false = some c ∧ c.issuer = none :=
  ⟨[("iss", .str "did:example:a"),
    ("vc", .obj [("@context", .arr [.str v1ContextURI]), ("type", .str "VerifiableCredential"),
      ("issuer", .null)])], _, _, rfl, rfl, rfl, rfl⟩

/-- **C40 (violated without `ClaimDate`).** Go's zero time has no `NumericDate`: a minimized
credential loses that date. -/
theorem zero_date_lost : ∃ (vc : Cred exJEnv.T) (r : Claims) (m : GObj) (o : JObj)
    (c : Contents exJEnv.T), Agrees exJEnv.toCEnv vc ∧
    newJWTCredClaims exJEnv vc true = .ok (r, m) ∧ vc.contents.expired.isSome ∧
    decodeCredPayload exJEnv (marshalCred ⟨some r, some (wireObj m)⟩) = .ok (some o) ∧
    parseContents exJEnv.toCEnv (ofWire o) false = some c ∧ c.expired.isNone :=
  ⟨⟨[("@context", .json (.arr [.str v1ContextURI])), ("type", .json (.str "VerifiableCredential")),
    ("issuer", .json (.str "did:example:acme")),
    ("credentialSubject", .json (.obj [("id", .str "did:example:s")])),
    ("expirationDate", .json (.str "-11111Z"))],
   { context := [v1ContextURI], customContext := [], id := "",
     types := ["VerifiableCredential"], subject := [⟨"did:example:s", []⟩],
     issuer := some ⟨"did:example:acme", []⟩, issued := none,
     expired := some ⟨(-5 : Int), "-11111Z"⟩, status := [], schemas := [], evidence := .null,
     termsOfUse := [], refreshService := none, sdAlg := none, relRes := [] }, [], none, none⟩,
   _, _, _, _, rfl, rfl, rfl, rfl, rfl, rfl⟩

/-- **C67 (violated).** Converting a credential without issuer to JWT claims crashes. -/
theorem newClaims_panics_iff (vc : Cred env.T) (min : Bool) :
    newJWTCredClaims env vc min = .panic ↔
      (∃ id custom, vc.contents.subject = [⟨id, custom⟩] ∧ id ≠ "") ∧ vc.contents.issuer = none := by
  have hs : (∃ id custom, vc.contents.subject = [⟨id, custom⟩] ∧ id ≠ "") ↔
      ∃ s, subjectID vc.contents.subject = some s := by
    constructor
    · rintro ⟨id, cu, h1, h2⟩; exact ⟨id, (subjectID_iff _ _).mpr ⟨cu, h1, h2⟩⟩
    · rintro ⟨s, h⟩
      obtain ⟨cu, h1, h2⟩ := (subjectID_iff _ _).mp h
      exact ⟨s, cu, h1, h2⟩
  rw [hs]
  unfold newJWTCredClaims
  cases h1 : subjectID vc.contents.subject with
  | none => simp
  | some s =>
    cases h2 : vc.contents.issuer with
    | none => simp
    | some i =>
      dsimp only
      cases (if min = true then minimizeVC vc.json else some vc.json) <;> simp

end VC.Vfy
