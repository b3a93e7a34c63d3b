import Verif.Status.NetProps
/-!
# C135: examples and a witness
-/

namespace VC.Net

open VC.Status (Entry Err ListVC)
open Spec

/-- An entry of type StatusList2021Entry. -/
def neEntry (u idx purpose : String) : Entry :=
  ⟨"", "StatusList2021Entry", [("statusListCredential", .str u), ("statusListIndex", .str idx),
    ("statusPurpose", .str purpose)]⟩

/-- Toy settings: a body `[b]` is a list credential of "did:iss" whose one byte is `b`. -/
def neParams (token : String) : Params where
  token := token
  fold := fun s => if s = "collectionsquery" then "CollectionsQuery" else s
  b64 := fun s => if s = "AQ==" then some [1] else none
  unmQueries := fun _ => some [[("method", .str "other")],
    [("method", .str "collectionsquery"), ("objectId", .str "o1")]]
  unmResponse := fun b => if b = [7] then some ⟨some 200, [⟨200, [⟨[("objectId", .str "o1")], "AQ=="⟩]⟩]⟩ else none
  parse := fun b => match b with
    | [0] => some ⟨some "did:iss", [[("encodedList", .str "zero")]]⟩
    | [1] => some ⟨some "did:iss", [[("encodedList", .str "one")]]⟩
    | _ => none
  decode := fun _ s => if s = "zero" then some [0#8] else some [1#8]
  validURL := fun s => s != "bad"
  coreURI := fun j => j.asStr?
  requestID := "id"

/-- A GET as the resolver sends it. -/
def neGet (token u : String) : HTTPReq := ⟨"GET", u, some ("Bearer " ++ token), none, none⟩

/-- A DID document with a hub at two addresses. -/
def neDoc : Doc := ⟨"did:ex:hub", [⟨"LinkedDomains", ⟨false, some "https://no", none⟩⟩,
  ⟨"IdentityHub", ⟨false, none, some [("x", .num 1), ("a", .str "https://hub1"), ("b", .str "https://hub2")]⟩⟩]⟩

/-- The POST to one of them. -/
def nePost (u : String) : HTTPReq := ⟨"POST", u, some "Bearer tok", some "application/json",
  some ⟨"id", "did:ex:hub", [⟨[("method", .str "collectionsquery"), ("objectId", .str "o1")], ""⟩]⟩⟩

def neDID : String := "did:ex:hub?queries=AAAA"

theorem ne_small (u idx purpose : String) : Status.msgCount (neEntry u idx purpose) < 2 ^ 63 := by
  have : Status.msgCount (neEntry u idx purpose) = 0 := rfl
  rw [this]
  decide

/-- Two entries with the same location: it is asked twice, the second answer has the bit set, and the
check reports the suspension although the first entry passed. -/
theorem ne_twice : Runs (check (neParams "tok") ⟨some "did:iss", [neEntry "https://a" "0" "revocation",
      neEntry "https://a" "0" "suspension"]⟩)
    [.http (neGet "tok" "https://a") (some (200, [0])), .http (neGet "tok" "https://a") (some (200, [1]))]
    (.error .suspended) :=
  Runs.http _ _ _ (Runs.http _ _ _ (Runs.ret _))

example : ∃ pre e post ls l, [neEntry "https://a" "0" "revocation", neEntry "https://a" "0" "suspension"] =
      pre ++ e :: post ∧
    [Event.http (neGet "tok" "https://a") (some (200, [0])), .http (neGet "tok" "https://a") (some (200, [1]))] =
      ls.flatten ++ l ∧
    List.Forall₂ (Shows (neParams "tok") (some "did:iss") false) pre ls ∧
    Shows (neParams "tok") (some "did:iss") true e l ∧
    Status.Spec.StrField e.custom "statusPurpose" "suspension" :=
  (set_iff (neParams "tok") ⟨some "did:iss", _⟩
    (by simp only [List.mem_cons, List.not_mem_nil, or_false]; rintro e (rfl | rfl) <;> exact ne_small _ _ _)
    _ "suspension" .suspended (Or.inr ⟨rfl, rfl⟩)).mp ne_twice

/-- The queries the toy URL carries. -/
def neQueries : List JObj := [[("method", .str "other")],
  [("method", .str "collectionsquery"), ("objectId", .str "o1")]]

theorem ne_queries : IdentityHub.getQueries (neParams "tok").unmQueries neDID = some neQueries := by
  have h1 : split '?' neDID = ["did:ex:hub", "queries=AAAA"] := by decide +kernel
  have h2 : IdentityHub.parsePairs ((split '&' "queries=AAAA").map String.toList) =
      some [("queries".toList, "AAAA".toList)] := by decide +kernel
  have h3 : B64.decode B64.std "AAAA" = some [0, 0, 0] := by decide +kernel
  unfold IdentityHub.getQueries
  rw [h1]
  dsimp only
  rw [h2]
  dsimp only
  have h4 : IdentityHub.getValue "queries".toList [("queries".toList, "AAAA".toList)] = "AAAA".toList := by
    simp [IdentityHub.getValue]
  rw [h4, if_neg (by decide), String.ofList_toList, h3]
  rfl

theorem ne_asks (o : String) : AsksFor (neParams "tok").fold
    [("method", .str "collectionsquery"), ("objectId", .str "o1")] o ↔ o = "o1" := by
  constructor
  · rintro ⟨_, h⟩
    have : some (Json.str "o1") = some (Json.str o) := h
    cases this
    rfl
  · rintro rfl
    exact ⟨⟨"collectionsquery", rfl, by decide +kernel⟩, rfl⟩

/-- A status list from an identity hub: look-up, then a POST to one of the two addresses - both are
possible. -/
theorem ne_hub (u : String) (hu : u = "https://hub1" ∨ u = "https://hub2") :
    Gives (neParams "tok") (neEntry neDID "1" "revocation")
      [.lookup "did:ex:hub" (some neDoc), .http (nePost u) (some (200, [7]))]
      ⟨some "did:iss", [[("encodedList", .str "one")]]⟩ := by
  have hv : (neParams "tok").validURL (nePost u).url = true := by rcases hu with rfl | rfl <;> rfl
  refine .post (u := neDID) (oid := "o1") (data := [1])
    (q := [("method", .str "collectionsquery"), ("objectId", .str "o1")]) rfl ?_ ?_ ?_ ?_ hv ?_ rfl
  · exact ⟨"ex:hub?queries=AAAA", by decide +kernel⟩
  · exact ⟨by unfold NoChar; decide +kernel, Or.inr ⟨"queries=AAAA", by decide +kernel⟩⟩
  · refine ⟨neQueries, ne_queries, (ne_asks _).mpr rfl, ⟨"o1", (ne_asks _).mpr rfl⟩,
      [[("method", .str "other")]], [], rfl, ?_⟩
    intro y hy
    obtain rfl := List.mem_singleton.mp hy
    rintro ⟨o, _, h⟩
    exact nomatch (show none = some (Json.str o) from h)
  · refine ⟨rfl, ⟨⟨"IdentityHub", ⟨false, none, some [("x", .num 1), ("a", .str "https://hub1"),
        ("b", .str "https://hub2")]⟩⟩, ⟨rfl, [_], [], rfl, ?_⟩, Or.inr ⟨rfl, rfl, _,
        (if u = "https://hub1" then "a" else "b"), .str u, rfl, ?_, rfl⟩⟩,
      Or.inr ⟨by decide, rfl⟩, rfl, _, rfl, rfl, rfl, rfl⟩
    · intro y hy
      obtain rfl := List.mem_singleton.mp hy
      decide
    · rcases hu with rfl | rfl
      · rw [if_pos rfl]; exact List.mem_cons_of_mem _ (List.mem_cons_self ..)
      · rw [if_neg (by decide)]
        exact List.mem_cons_of_mem _ (List.mem_cons_of_mem _ (List.mem_cons_self ..))
  · have hr : (neParams "tok").unmResponse [7] =
        some ⟨some 200, [⟨200, [⟨[("objectId", .str "o1")], "AQ=="⟩]⟩]⟩ := by
      simp only [neParams, if_true]
    refine ⟨_, hr, ?_, ?_, ⟨[("objectId", .str "o1")], "AQ=="⟩, ⟨⟨"o1", rfl, rfl⟩, [], [], rfl, ?_⟩, by decide +kernel⟩
    · intro s h; cases h; rfl
    · intro m hm; obtain rfl := List.mem_singleton.mp hm; rfl
    · intro y hy; exact nomatch hy

/-- Both addresses of the hub are asked in some run, and the check accepts: bit 1 of the list is clear. -/
theorem ne_hub_runs (u : String) (hu : u = "https://hub1" ∨ u = "https://hub2") :
    Runs (check (neParams "tok") ⟨some "did:iss", [neEntry neDID "1" "revocation"]⟩)
      [.lookup "did:ex:hub" (some neDoc), .http (nePost u) (some (200, [7]))] (.ok ()) := by
  rw [accepted_iff _ _ (by
    simp only [List.mem_cons, List.not_mem_nil, or_false]; rintro e rfl; exact ne_small _ _ _)]
  refine ⟨fun h => (nomatch h), [_], rfl, .cons ⟨_, ne_hub u hu, ?_⟩ .nil⟩
  refine ⟨Or.inl ⟨rfl, ⟨_, rfl, fun h => (nomatch h)⟩, ⟨_, rfl, fun h => (nomatch h)⟩, ⟨_, rfl, fun h => (nomatch h)⟩⟩,
    "1", 1, neDID, _, "did:iss", _, "one", [1#8], rfl, by decide +kernel, rfl, rfl, rfl, rfl, rfl, rfl, ?_, by decide +kernel⟩
  show (if "one" = "zero" then some [0#8] else some [1#8]) = some [1#8]
  rw [if_neg (by decide)]

/-- An entry that is not well formed: nothing is sent. -/
example : Runs (check (neParams "tok") ⟨some "did:iss", [⟨"", "Other", []⟩, neEntry "https://a" "0" "revocation"]⟩)
    [] (.error (.other "unsupported VCStatusListType")) := Runs.ret _

/-- The checks of a failing entry end the check: the second location is never asked. -/
example : Runs (check (neParams "") ⟨some "did:iss", [neEntry "https://a" "0" "revocation",
      neEntry "https://b" "0" "revocation"]⟩)
    [.http ⟨"GET", "https://a", none, none, none⟩ (some (404, [0]))] (.error (.other "resolve")) :=
  Runs.http _ _ _ (Runs.ret _)

/-- Negation witness: the resolver's bearer token goes to whatever host a credential names.  The check
does not look at the credential's proof or issuer before, so anyone who can have a credential checked
learns the token. -/
theorem token_anywhere (p : Params) (u : String) (hu : ¬ IsDID u) (hv : p.validURL u = true)
    (ht : p.token ≠ "") (iss : Option String) :
    ∃ c : Status.Cred, c.issuer = iss ∧ ∀ log v, Runs (check p c) log v →
      ∃ r a, log = [.http r a] ∧ r.url = u ∧ r.authorization = some ("Bearer " ++ p.token) := by
  refine ⟨⟨iss, [neEntry u "0" "revocation"]⟩, rfl, ?_⟩
  intro log v h
  have hp : hasPrefix u "did:" = false := by
    cases hp : hasPrefix u "did:" with
    | false => rfl
    | true => exact absurd ((hasPrefix_did u).mp hp) hu
  have hc : check p ⟨iss, [neEntry u "0" "revocation"]⟩ =
      ((resolve p u).bind fun x => match x with
        | none => .ret (.error (.other "resolve"))
        | some lvc => .ret (judge p iss (neEntry u "0" "revocation") .statusList2021 0 lvc)).bind fun
          | .error x => .ret (.error x)
          | .ok _ => .ret (.ok ()) := rfl
  rw [hc] at h
  obtain ⟨w, l1, l2, rfl, h1, h2⟩ := runs_bind.mp h
  have e2 : l2 = [] := by cases w <;> exact (runs_ret.mp h2).1
  obtain ⟨x, l3, l4, rfl, h3, h4⟩ := runs_bind.mp h1
  have e4 : l4 = [] := by cases x <;> exact (runs_ret.mp h4).1
  subst e2 e4
  simp only [List.append_nil]
  unfold resolve at h3
  rw [hp, if_neg Bool.false_ne_true, hv, if_pos rfl] at h3
  obtain ⟨b, l5, l6, rfl, h5, h6⟩ := runs_bind.mp h3
  have e6 : l6 = [] := by cases b <;> exact (runs_ret.mp h6).1
  subst e6
  obtain ⟨r, a, rfl, _, h8, h9, _⟩ := (send_runs _ _ rfl _ _).mp h5
  refine ⟨r, a, by simp, h8, ?_⟩
  rcases h9 with ⟨h, _⟩ | ⟨_, h⟩
  · exact absurd h ht
  · exact h

example : ∃ c : Status.Cred, c.issuer = none ∧ ∀ log v, Runs (check (neParams "secret") c) log v →
    ∃ r a, log = [.http r a] ∧ r.url = "https://attacker.example" ∧ r.authorization = some "Bearer secret" :=
  token_anywhere (neParams "secret") _ (by rw [← hasPrefix_did]; decide +kernel) rfl (by decide) none

/-- The hypotheses of `runs_total` ask for nothing: a run exists against any outside. -/
example : ∃ log v, Runs (check (neParams "tok") ⟨some "did:iss", [neEntry neDID "1" "revocation"]⟩) log v :=
  let ⟨l, a, h, _⟩ := runs_total (check (neParams "tok") ⟨some "did:iss", [neEntry neDID "1" "revocation"]⟩)
    (fun _ _ => none) (fun _ _ => some neDoc) []
  ⟨l, a, h⟩

/-- `check_functional` on a run where the location answers the same way. -/
example : (Except.ok () : Except Err Unit) = Status.verifyStatus
    ⟨fun _ => some ⟨some "did:iss", [[("encodedList", .str "zero")]]⟩, (neParams "tok").decode⟩
    ⟨some "did:iss", [neEntry "https://a" "0" "revocation"]⟩ := by
  refine check_functional (neParams "tok") _ _ [.http (neGet "tok" "https://a") (some (200, [0]))] _
    (Runs.http _ _ _ (Runs.ret _)) ?_
  rintro u l r ⟨e, he, hn⟩ ⟨l1, l2, hl⟩ h
  obtain rfl := List.mem_singleton.mp he
  have hu : u = "https://a" := names_unique hn rfl
  subst hu
  have hc : resolve (neParams "tok") "https://a" =
      (send "tok" ⟨"GET", "https://a", none, none, none⟩).bind fun x => match x with
        | none => .ret none
        | some bytes => .ret ((neParams "tok").parse bytes) := rfl
  rw [hc] at h
  obtain ⟨b, l5, l6, rfl, h5, h6⟩ := runs_bind.mp h
  have e6 : l6 = [] := by cases b <;> exact (runs_ret.mp h6).1
  subst e6
  obtain ⟨r', a, rfl, _, _, _, _, _, h9⟩ := (send_runs _ _ rfl _ _).mp h5
  have ha : a = some (200, [0]) := by
    cases l1 with
    | nil =>
      simp only [List.append_nil, List.nil_append, List.cons_append, List.cons.injEq, Event.http.injEq] at hl
      exact hl.1.2.symm
    | cons y l1 =>
      have := congrArg List.length hl
      simp at this
  subst ha
  rcases h9 with ⟨_, h⟩ | ⟨b', rfl, h⟩
  · exact absurd rfl (h [0])
  · cases h
    exact (runs_ret.mp h6).2

end VC.Net
