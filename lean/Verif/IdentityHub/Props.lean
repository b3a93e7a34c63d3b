import Verif.IdentityHub.Model
/-!
# identity hub: specification and theorems (C54)
-/

namespace VC.IdentityHub

/-! ## Specification -/
namespace Spec

/-- All entries of a response, in order. -/
def entries (rs : List Reply) : List Message := rs.flatMap (·.entries)

/-- The entry carries the requested object id, up to case. -/
def Matches (fold : String → String) (oid : String) (m : Message) : Prop :=
  ∃ o, GoMap.get? m.descriptor "objectId" = some (.str o) ∧ fold o = fold oid

/-- `m` is the first entry satisfying `P`. -/
def First (P : Message → Prop) (l : List Message) (m : Message) : Prop :=
  ∃ pre post, l = pre ++ m :: post ∧ (∀ x ∈ pre, ¬ P x) ∧ P m

end Spec
open Spec

theorem getObjectID_some (m : Message) (o : String) :
    getObjectID m = some o ↔ GoMap.get? m.descriptor "objectId" = some (.str o) := by
  unfold getObjectID JObj.at
  cases h : GoMap.get? m.descriptor "objectId" with
  | none => simp [Json.asStr?]
  | some v => cases v <;> simp [Json.asStr?]

theorem scan_spec (fold : String → String) (b64 : String → Option (List UInt8)) (oid : String)
    (ms : List Message) :
    (scanEntries fold b64 oid ms = none ∧ ∀ m ∈ ms, ¬ Matches fold oid m) ∨
    (∃ m, First (Matches fold oid) ms m ∧
      scanEntries fold b64 oid ms = some (match b64 m.data with
        | some d => .ok d | none => .decodeError)) := by
  induction ms with
  | nil => simp [scanEntries]
  | cons m ms ih =>
    have step : ¬ Matches fold oid m → scanEntries fold b64 oid (m :: ms) =
        scanEntries fold b64 oid ms := by
      intro hn
      rw [scanEntries]
      split
      · rfl
      · next o ho =>
        split
        · rfl
        · next h => exact absurd ⟨o, (getObjectID_some m o).mp ho, by simpa using h⟩ hn
    by_cases hm : Matches fold oid m
    · right
      refine ⟨m, ⟨[], ms, rfl, by simp, hm⟩, ?_⟩
      obtain ⟨o, h1, h2⟩ := hm
      rw [scanEntries, (getObjectID_some m o).mpr h1]
      simp only [h2, ne_eq, not_true_eq_false, if_false]
      cases b64 m.data <;> rfl
    · rw [step hm]
      rcases ih with ⟨h1, h2⟩ | ⟨x, ⟨pre, post, h1, h2, h3⟩, h4⟩
      · left
        exact ⟨h1, by simpa using ⟨hm, h2⟩⟩
      · right
        exact ⟨x, ⟨m :: pre, post, by simp [h1], by simpa using ⟨hm, h2⟩, h3⟩, h4⟩

/-- C54.  `GetMessageData` returns the decoded data of the first entry (in order over all replies)
whose objectId equals the requested one up to case; decoding failure of that entry is an error;
"not found" is reported exactly when no entry matches. -/
theorem getMessageData_spec (fold : String → String) (b64 : String → Option (List UInt8))
    (oid : String) (rs : List Reply) :
    (getMessageData fold b64 oid rs = .notFound ∧ ∀ m ∈ entries rs, ¬ Matches fold oid m) ∨
    (∃ m, First (Matches fold oid) (entries rs) m ∧
      getMessageData fold b64 oid rs = (match b64 m.data with
        | some d => .ok d | none => .decodeError)) := by
  induction rs with
  | nil => simp [getMessageData, entries]
  | cons r rs ih =>
    have he : entries (r :: rs) = r.entries ++ entries rs := by simp [entries]
    rcases scan_spec fold b64 oid r.entries with ⟨h1, h2⟩ | ⟨m, ⟨pre, post, h1, h2, h3⟩, h4⟩
    · rw [getMessageData, h1]
      rcases ih with ⟨g1, g2⟩ | ⟨x, ⟨pre, post, g1, g2, g3⟩, g4⟩
      · left
        refine ⟨g1, ?_⟩
        rw [he]; intro m hm
        rcases List.mem_append.mp hm with hm | hm
        · exact h2 m hm
        · exact g2 m hm
      · right
        refine ⟨x, ⟨r.entries ++ pre, post, by rw [he, g1]; simp, ?_, g3⟩, g4⟩
        intro m hm
        rcases List.mem_append.mp hm with hm | hm
        · exact h2 m hm
        · exact g2 m hm
    · right
      refine ⟨m, ⟨pre, post ++ entries rs, by rw [he, h1]; simp, h2, h3⟩, ?_⟩
      rw [getMessageData, h4]

/-- C54.  `CheckStatus` is nil exactly when the request-level status, if any, and every reply
status are 200. -/
theorem checkStatus_iff (r : Response) :
    checkStatus r = true ↔ (∀ c, r.status = some c → c = 200) ∧ ∀ m ∈ r.replies, m.code = 200 := by
  have hl : ∀ ms, checkStatus.loop ms = true ↔ ∀ m ∈ ms, m.code = 200 := by
    intro ms
    induction ms with
    | nil => simp [checkStatus.loop]
    | cons m ms ih =>
      rw [checkStatus.loop]
      by_cases h : m.code = 200 <;> simp [h, ih]
  unfold checkStatus
  cases hs : r.status with
  | none => simp [hl]
  | some c =>
    by_cases h : c = 200
    · subst h; simp [hl]
    · simp [h]

/-- The request sent selects the first descriptor with the wanted method and a string objectId. -/
theorem firstValidMessage_spec (fold : String → String) (method : String) (ds : List JObj)
    (oid : String) (msg : Message) (h : firstValidMessage fold method ds = some (oid, msg)) :
    msg.descriptor ∈ ds ∧ GoMap.get? msg.descriptor "objectId" = some (.str oid) ∧
      ∃ v, GoMap.get? msg.descriptor "method" = some (.str v) ∧ fold v = fold method := by
  induction ds with
  | nil => simp [firstValidMessage] at h
  | cons d ds ih =>
    rw [firstValidMessage] at h
    split at h
    · have := ih h
      exact ⟨by simp [this.1], this.2⟩
    · next hm =>
      split at h
      · have := ih h
        exact ⟨by simp [this.1], this.2⟩
      · next o ho =>
        cases h
        refine ⟨by simp, (getObjectID_some _ _).mp ho, ?_⟩
        simp only [isMethod, JObj.at] at hm
        cases hg : GoMap.get? d "method" with
        | none => simp [hg, Json.asStr?] at hm
        | some v =>
          cases v <;> simp [hg, Json.asStr?] at hm
          exact ⟨_, rfl, hm⟩

/-- C54 for the whole `did:` resolution path: bytes are returned only if the hub answered HTTP 200,
all its status codes are 200 (or absent at request level), and they are the decoded data of the
first entry whose objectId is the requested one.  The hub is the one of the DID that the URL resolves to,
and it was asked with one of the queries of the URL, of the method `CollectionsQuery`. -/
theorem resolveDID_sound (env : Env) (url : String) (d : List UInt8)
    (h : resolveDIDRelativeURL env url = some d) :
    ∃ oid body resp m, (∃ did ep qs msg, env.resolveDID url = some did ∧ env.endpoint did = some ep ∧
        env.httpPost ep msg = some (200, body) ∧ env.getQueries url = some qs ∧ msg.descriptor ∈ qs ∧
        GoMap.get? msg.descriptor "objectId" = some (.str oid) ∧
        ∃ v, GoMap.get? msg.descriptor "method" = some (.str v) ∧ env.fold v = env.fold "CollectionsQuery") ∧
      env.unmarshal body = some resp ∧
      (∀ c, resp.status = some c → c = 200) ∧ (∀ r ∈ resp.replies, r.code = 200) ∧
      First (Matches env.fold oid) (entries resp.replies) m ∧ env.b64 m.data = some d := by
  unfold resolveDIDRelativeURL at h
  simp only [Option.bind_eq_bind, Option.bind_eq_some_iff] at h
  obtain ⟨did, hdid, q, hq, ⟨oid, msg⟩, hf, ep, hep, body, hb, resp, hr, h⟩ := h
  split at h
  · next hc =>
    have hc' := (checkStatus_iff resp).mp hc
    rcases getMessageData_spec env.fold env.b64 oid resp.replies with ⟨h1, _⟩ | ⟨m, h1, h2⟩
    · rw [h1] at h; simp at h
    · have hfs := firstValidMessage_spec _ _ _ _ _ hf
      refine ⟨oid, body, resp, m, ⟨did, ep, q, msg, hdid, hep, ?_, hq, hfs⟩, hr,
        hc'.1, hc'.2, h1, ?_⟩
      · unfold expectOK at hb
        split at hb
        · next he => cases hb; exact he
        · cases hb
      · rw [h2] at h
        cases hd : env.b64 m.data with
        | none => simp [hd] at h
        | some d' => simp [hd] at h; rw [h]
  · cases h

/-- Non-vacuity: two entries, the second one matches. -/
example : getMessageData (fun s => if s = "ID-1" then "id-1" else s)
    (fun s => if s = "c" then some [99] else none) "ID-1"
    [⟨200, [⟨[("objectId", .str "id-0")], "a"⟩]⟩, ⟨200, [⟨[], "b"⟩, ⟨[("objectId", .str "id-1")], "c"⟩]⟩]
    = .ok [99] ∧ checkStatus ⟨none, [⟨200, []⟩]⟩ = true ∧ checkStatus ⟨none, [⟨404, []⟩]⟩ = false := by
  refine ⟨?_, by decide, by decide⟩
  decide +kernel

end VC.IdentityHub
