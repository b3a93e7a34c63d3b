import Verif.DidConfig.Props
import Verif.DidConfig.Examples
import Mathlib.Data.List.Induction
/-!
# didconfig/client: fetching a DID configuration (C144)

The HTTP client is a parameter whose answers may depend on everything sent to it before, so that the theorems
cover servers that answer differently each time.  Redirects, TLS and time-outs are the HTTP client's own.
The verifier is `verifyDIDAndDomain` (`Verif.DidConfig.Model`).
-/

namespace VC.DidCfg

open GoMap
open VC.Vfy
open VC.DidCfg.Spec

variable (env : DEnv)

/-! ## Model -/

/-- What `httpClient.Do` and `ReadAll(resp.Body)` give, client/didconfig.go:98-108. -/
inductive Ans where
  /-- `Do` fails -/
  | refused
  /-- a response; `none`: its body cannot be read -/
  | resp (status : Nat) (body : Option String)
  deriving DecidableEq

/-- What a call does to the outside: a GET, and closing the body of the response. -/
inductive Ev where
  | get (url : String)
  | close
  deriving DecidableEq

/-- An HTTP client: the answer to a GET of a location, after these events. -/
abbrev Http := List Ev → String → Ans

/-- The options of the verifier, verifier/didconfig.go:66-80. -/
inductive VOpt (L R : Type) where
  | loader (l : L)
  | registry (r : R)

/-- The options of the client, client/didconfig.go:61-86. -/
inductive COpt (L R : Type) where
  | http (h : Http)
  | loader (l : L)
  | registry (r : R)

/-- `Client`, client/didconfig.go:31-34. -/
structure Client (L R : Type) where
  http : Http
  opts : List (VOpt L R)

variable {L R : Type}

/-- One option, client/didconfig.go:61-86. -/
def Client.apply (c : Client L R) : COpt L R → Client L R
  | .http h => { c with http := h }
  | .loader l => { c with opts := c.opts ++ [.loader l] }
  | .registry r => { c with opts := c.opts ++ [.registry r] }

/-- `New`, client/didconfig.go:37-47. -/
def newClient (dflt : Http) (opts : List (COpt L R)) : Client L R :=
  opts.foldl Client.apply ⟨dflt, []⟩

/-- `getDIDConfigurationOpts`, verifier/didconfig.go:135-146: the loader and the registry in force. -/
def verOpts (l0 : L) (r0 : R) (opts : List (VOpt L R)) : L × R :=
  opts.foldl (fun st o => match o with | .loader l => (l, st.2) | .registry r => (st.1, r)) (l0, r0)

/-- `domain + "/.well-known/did-configuration.json"`, client/didconfig.go:91. -/
def endpoint (domain : String) : String := domain ++ "/.well-known/did-configuration.json"

/-- The library: defaults, and the verifier's environment and proof checkers for a loader and a registry
(verifier/didconfig.go:437-455). -/
structure CEnv (L R : Type) where
  loader0 : L
  registry0 : R
  denv : L → DEnv
  checkers : L → R → Checkers
  /-- `http.NewRequestWithContext` accepts the location -/
  goodURL : String → Bool

/-- `Client.VerifyDIDAndDomain`, client/didconfig.go:90-117: the result and what happens outside.
`closeResponseBody` is deferred, so it is the last event whenever there is a response. -/
def Client.verify (E : CEnv L R) (c : Client L R) (past : List Ev) (did domain : String) : Out Unit × List Ev :=
  if E.goodURL (endpoint domain) then
    match c.http past (endpoint domain) with
    | .refused => (.err, [.get (endpoint domain)])
    | .resp status body =>
      match body with
      | none => (.err, [.get (endpoint domain), .close])
      | some b =>
        if status = 200 then
          (verifyDIDAndDomain (E.denv (verOpts E.loader0 E.registry0 c.opts).1)
            (E.checkers (verOpts E.loader0 E.registry0 c.opts).1 (verOpts E.loader0 E.registry0 c.opts).2)
            b did domain, [.get (endpoint domain), .close])
        else (.err, [.get (endpoint domain), .close])
  else (.err, [])

/-- Several calls on one client, one after the other: the results, and everything that happened. -/
def Client.session (E : CEnv L R) (c : Client L R) (past : List Ev) :
    List (String × String) → List (Out Unit) × List Ev
  | [] => ([], past)
  | (did, domain) :: calls =>
    let r := c.verify E past did domain
    let rest := Client.session E c (past ++ r.2) calls
    (r.1 :: rest.1, rest.2)

/-! ## Specification -/

/-- The last value an option sets, or the default. -/
def LastSet {O α : Type} (is : O → α → Prop) (dflt : α) (opts : List O) (a : α) : Prop :=
  (∃ pre o post, opts = pre ++ o :: post ∧ is o a ∧ ∀ o' ∈ post, ∀ b, ¬ is o' b) ∨
  (a = dflt ∧ ∀ o ∈ opts, ∀ b, ¬ is o b)

/-- The option sets the HTTP client. -/
inductive SetsHttp : COpt L R → Http → Prop | mk (h) : SetsHttp (.http h) h
/-- The option sets the document loader. -/
inductive SetsLoader : COpt L R → L → Prop | mk (l) : SetsLoader (.loader l) l
/-- The option sets the registry. -/
inductive SetsRegistry : COpt L R → R → Prop | mk (r) : SetsRegistry (.registry r) r

/-- What one call may do: nothing at all, or one GET of the domain's location, and closing the response if
there is one. -/
inductive CallTrace (domain : String) : List Ev → Prop
  | none : CallTrace domain []
  | failed : CallTrace domain [.get (domain ++ "/.well-known/did-configuration.json")]
  | answered : CallTrace domain [.get (domain ++ "/.well-known/did-configuration.json"), .close]

/-- The calls `calls`, made after `past`, did `out`: each of them its own GET, in order. -/
inductive SessionTrace : List Ev → List (String × String) → List Ev → Prop
  | nil (past) : SessionTrace past [] past
  | cons {past did domain evs calls out} : CallTrace domain evs →
      SessionTrace (past ++ evs) calls out → SessionTrace past ((did, domain) :: calls) out

/-! ## Options -/

theorem LastSet.snoc_other {O α : Type} {is : O → α → Prop} {dflt a : α} {opts : List O} {o : O}
    (h : LastSet is dflt opts a) (ho : ∀ b, ¬ is o b) : LastSet is dflt (opts ++ [o]) a := by
  rcases h with ⟨pre, x, post, rfl, hx, hp⟩ | ⟨h1, h2⟩
  · refine Or.inl ⟨pre, x, post ++ [o], by simp, hx, fun o' ho' => ?_⟩
    rcases List.mem_append.1 ho' with h | h
    · exact hp o' h
    · cases List.mem_singleton.1 h; exact ho
  · refine Or.inr ⟨h1, fun o' ho' => ?_⟩
    rcases List.mem_append.1 ho' with h | h
    · exact h2 o' h
    · cases List.mem_singleton.1 h; exact ho

theorem LastSet.snoc_same {O α : Type} {is : O → α → Prop} {dflt a : α} {opts : List O} {o : O}
    (ho : is o a) : LastSet is dflt (opts ++ [o]) a :=
  Or.inl ⟨opts, o, [], rfl, ho, fun o' h => by cases h⟩

theorem newClient_snoc (dflt : Http) (opts : List (COpt L R)) (o : COpt L R) :
    newClient dflt (opts ++ [o]) = (newClient dflt opts).apply o := by
  unfold newClient; rw [List.foldl_append]; rfl

theorem verOpts_snoc (l0 : L) (r0 : R) (opts : List (VOpt L R)) (o : VOpt L R) :
    verOpts l0 r0 (opts ++ [o]) =
      match o with
      | .loader l => (l, (verOpts l0 r0 opts).2)
      | .registry r => ((verOpts l0 r0 opts).1, r) := by
  unfold verOpts; rw [List.foldl_append]; cases o <;> rfl

/-- **C144**: of each kind of option the last one given to `New` counts, for the HTTP client, the document
loader and the registry alike, whatever stands between. -/
theorem client_options (dflt : Http) (l0 : L) (r0 : R) (opts : List (COpt L R)) :
    LastSet SetsHttp dflt opts (newClient dflt opts).http ∧
    LastSet SetsLoader l0 opts (verOpts l0 r0 (newClient dflt opts).opts).1 ∧
    LastSet SetsRegistry r0 opts (verOpts l0 r0 (newClient dflt opts).opts).2 := by
  induction opts using List.reverseRecOn with
  | nil =>
    exact ⟨Or.inr ⟨rfl, fun o h => by cases h⟩, Or.inr ⟨rfl, fun o h => by cases h⟩,
      Or.inr ⟨rfl, fun o h => by cases h⟩⟩
  | append_singleton opts o ih =>
    obtain ⟨h1, h2, h3⟩ := ih
    rw [newClient_snoc]
    cases o with
    | http h =>
      exact ⟨.snoc_same ⟨h⟩, h2.snoc_other (fun b hb => by cases hb), h3.snoc_other (fun b hb => by cases hb)⟩
    | loader l =>
      simp only [Client.apply, verOpts_snoc]
      exact ⟨h1.snoc_other (fun b hb => by cases hb), .snoc_same ⟨l⟩, h3.snoc_other (fun b hb => by cases hb)⟩
    | registry r =>
      simp only [Client.apply, verOpts_snoc]
      exact ⟨h1.snoc_other (fun b hb => by cases hb), h2.snoc_other (fun b hb => by cases hb), .snoc_same ⟨r⟩⟩

theorem lastSet_unique {O α : Type} {is : O → α → Prop} (hu : ∀ o a b, is o a → is o b → a = b) {dflt a b : α}
    {opts : List O} (h1 : LastSet is dflt opts a) (h2 : LastSet is dflt opts b) : a = b := by
  induction opts using List.reverseRecOn with
  | nil =>
    rcases h1 with ⟨pre, o, post, h, -⟩ | ⟨rfl, -⟩
    · cases pre <;> cases h
    · rcases h2 with ⟨pre, o, post, h, -⟩ | ⟨rfl, -⟩
      · cases pre <;> cases h
      · rfl
  | append_singleton opts o ih =>
    have key : ∀ x, LastSet is dflt (opts ++ [o]) x → is o x ∨ ((∀ y, ¬ is o y) ∧ LastSet is dflt opts x) := by
      rintro x (⟨pre, o', post, he, ho, hp⟩ | ⟨rfl, hn⟩)
      · rcases List.eq_nil_or_concat post with rfl | ⟨post', z, rfl⟩
        · have := List.append_inj' he rfl
          cases this.2
          exact Or.inl ho
        · rw [List.concat_eq_append, ← List.cons_append, ← List.append_assoc] at he
          obtain ⟨e1, e2⟩ := List.append_inj' he rfl
          cases e2
          refine Or.inr ⟨hp o (by simp), Or.inl ⟨pre, o', post', e1, ho, fun q hq => hp q (by simp [hq])⟩⟩
      · exact Or.inr ⟨hn o (by simp), Or.inr ⟨rfl, fun q hq => hn q (by simp [hq])⟩⟩
    rcases key a h1 with ha | ⟨na, la⟩
    · rcases key b h2 with hb | ⟨nb, -⟩
      · exact hu o a b ha hb
      · exact absurd ha (nb a)
    · rcases key b h2 with hb | ⟨-, lb⟩
      · exact absurd hb (na b)
      · exact ih la lb

/-! ## One call -/

/-- **C144**: a call succeeds exactly if the domain's location is a URL, the HTTP client answers the GET of it
with status 200 and a readable body, and that body is a DID configuration that links the DID to the domain, in
the sense of C53, with the loader and the registry last given to `New`. -/
theorem client_verify_iff (E : CEnv L R) (dflt : Http) (opts : List (COpt L R)) (past : List Ev)
    (did domain : String) :
    ((newClient dflt opts).verify E past did domain).1 = .ok () ↔
      ∃ (h : Http) (l : L) (r : R) (body : String),
        LastSet SetsHttp dflt opts h ∧ LastSet SetsLoader E.loader0 opts l ∧
        LastSet SetsRegistry E.registry0 opts r ∧
        E.goodURL (domain ++ "/.well-known/did-configuration.json") = true ∧
        h past (domain ++ "/.well-known/did-configuration.json") = .resp 200 (some body) ∧
        verifyDIDAndDomain (E.denv l) (E.checkers l r) body did domain = .ok () := by
  obtain ⟨h1, h2, h3⟩ := client_options dflt E.loader0 E.registry0 opts
  have uh : ∀ (o : COpt L R) (a b : Http), SetsHttp o a → SetsHttp o b → a = b := by
    rintro o a b ⟨⟩ ⟨⟩; rfl
  have ul : ∀ (o : COpt L R) (a b : L), SetsLoader o a → SetsLoader o b → a = b := by
    rintro o a b ⟨⟩ ⟨⟩; rfl
  have ur : ∀ (o : COpt L R) (a b : R), SetsRegistry o a → SetsRegistry o b → a = b := by
    rintro o a b ⟨⟩ ⟨⟩; rfl
  unfold Client.verify
  constructor
  · intro h
    by_cases hg : E.goodURL (endpoint domain) = true
    · rw [if_pos hg] at h
      cases ha : (newClient dflt opts).http past (endpoint domain) with
      | refused => rw [ha] at h; cases h
      | resp st body =>
        rw [ha] at h
        cases body with
        | none => cases h
        | some b =>
          simp only at h
          by_cases hs : st = 200
          · rw [if_pos hs] at h
            subst hs
            exact ⟨_, _, _, b, h1, h2, h3, hg, ha, h⟩
          · rw [if_neg hs] at h; cases h
    · rw [if_neg hg] at h; cases h
  · rintro ⟨hh, l, r, b, l1, l2, l3, hg, ha, hv⟩
    cases lastSet_unique uh l1 h1
    cases lastSet_unique ul l2 h2
    cases lastSet_unique ur l3 h3
    have hg' : E.goodURL (endpoint domain) = true := hg
    have ha' : (newClient dflt opts).http past (endpoint domain) = .resp 200 (some b) := ha
    rw [if_pos hg', ha']
    exact hv

/-- **C144**: a call contacts nothing but the domain's location, with one GET at most; whenever there is a
response its body is closed, once and last; without a request there is no success. -/
theorem client_trace (E : CEnv L R) (c : Client L R) (past : List Ev) (did domain : String) :
    CallTrace domain (c.verify E past did domain).2 ∧
    ((c.verify E past did domain).2 = [] ↔ E.goodURL (domain ++ "/.well-known/did-configuration.json") = false) ∧
    (Ev.close ∈ (c.verify E past did domain).2 ↔
      E.goodURL (domain ++ "/.well-known/did-configuration.json") = true ∧
      ∃ st b, c.http past (domain ++ "/.well-known/did-configuration.json") = .resp st b) := by
  show CallTrace domain _ ∧ (_ ↔ E.goodURL (endpoint domain) = false) ∧
    (_ ↔ E.goodURL (endpoint domain) = true ∧ ∃ st b, c.http past (endpoint domain) = .resp st b)
  unfold Client.verify
  by_cases hg : E.goodURL (endpoint domain) = true
  · rw [if_pos hg]
    cases ha : c.http past (endpoint domain) with
    | refused => exact ⟨.failed, by simp [hg], by simp⟩
    | resp st body =>
      cases body with
      | none => exact ⟨.answered, by simp [hg], by simp [hg]⟩
      | some b =>
        simp only
        by_cases hs : st = 200
        · rw [if_pos hs]; exact ⟨.answered, by simp [hg], by simp [hg]⟩
        · rw [if_neg hs]; exact ⟨.answered, by simp [hg], by simp [hg]⟩
  · rw [if_neg hg]; exact ⟨.none, by simpa using hg, by simp [hg]⟩

/-- **C144**: what a call returns depends only on the answer to its own request: two calls for the same DID
and domain, at any times and with any HTTP clients, return the same if they get the same answer. -/
theorem client_answer_decides (E : CEnv L R) (c c' : Client L R) (past past' : List Ev) (did domain : String)
    (ho : c.opts = c'.opts)
    (ha : c.http past (domain ++ "/.well-known/did-configuration.json") =
      c'.http past' (domain ++ "/.well-known/did-configuration.json")) :
    c.verify E past did domain = c'.verify E past' did domain := by
  have ha : c.http past (endpoint domain) = c'.http past' (endpoint domain) := ha
  unfold Client.verify
  rw [ha, ho]

/-! ## Sessions -/

/-- **C144**: any sequence of calls contacts exactly the locations of its domains, in order, each at most once
per call. -/
theorem session_trace (E : CEnv L R) (c : Client L R) (past : List Ev) (calls : List (String × String)) :
    SessionTrace past calls (c.session E past calls).2 ∧
    (c.session E past calls).1.length = calls.length := by
  induction calls generalizing past with
  | nil => exact ⟨.nil past, rfl⟩
  | cons call calls ih =>
    obtain ⟨did, domain⟩ := call
    obtain ⟨h1, h2⟩ := ih (past ++ (c.verify E past did domain).2)
    exact ⟨.cons (client_trace E c past did domain).1 h1, by simp only [Client.session, List.length_cons, h2]⟩

/-- **C144**: the client keeps nothing between calls: each result in a session is that of a call made alone,
after what had happened until then. -/
theorem session_results (E : CEnv L R) (c : Client L R) (past : List Ev) (a : List (String × String))
    (did domain : String) (b : List (String × String)) :
    (c.session E past (a ++ (did, domain) :: b)).1[a.length]? =
      some (c.verify E (c.session E past a).2 did domain).1 := by
  induction a generalizing past with
  | nil => rfl
  | cons call a ih =>
    obtain ⟨d, m⟩ := call
    simp only [List.cons_append, Client.session, List.length_cons, List.getElem?_cons_succ]
    exact ih _

/-- The GETs of a list of events. -/
def gets (evs : List Ev) : List String := evs.filterMap fun e => match e with | .get u => some u | .close => none

/-- **C144**: everything contacted in a session is the well-known location of a domain asked for. -/
theorem session_contacts (E : CEnv L R) (c : Client L R) (calls : List (String × String)) :
    (gets (c.session E [] calls).2).Sublist
      (calls.map (fun p => p.2 ++ "/.well-known/did-configuration.json")) := by
  have key : ∀ past calls out, SessionTrace past calls out →
      ∃ more, out = past ++ more ∧ (gets more).Sublist
        (calls.map (fun p => p.2 ++ "/.well-known/did-configuration.json")) := by
    intro past calls out h
    induction h with
    | nil past => exact ⟨[], by simp, by simp [gets]⟩
    | @cons past did domain evs calls out ht _ ih =>
      obtain ⟨more, rfl, hs⟩ := ih
      refine ⟨evs ++ more, by simp, ?_⟩
      unfold gets at hs ⊢
      rw [List.filterMap_append, List.map_cons]
      cases ht with
      | none => exact hs.cons _
      | failed => exact hs.cons_cons _
      | answered => exact hs.cons_cons _
  obtain ⟨more, h1, h2⟩ := key _ _ _ (session_trace E c [] calls).1
  rw [h1, List.nil_append]
  exact h2

/-! ## What success means -/

/-- **C144 (partial)**: after a successful call the domain's own well-known location has served a DID
configuration with a domain linkage credential of the DID, for the origin of the domain, whose proof was
checked with the registry last given.  Missing: that it is the location of the origin itself
(`path_links_origin`), and what `verify_sound_partial` (C53) leaves open. -/
theorem client_linked_partial (E : CEnv L R) (dflt : Http) (opts : List (COpt L R)) (past : List Ev)
    (did domain : String) (h : ((newClient dflt opts).verify E past did domain).1 = .ok ()) :
    ∃ (hc : Http) (l : L) (r : R) (text : String) (ld : List Json) (j : Json) (t : String) (vc : PCred (E.denv l).T),
      LastSet SetsHttp dflt opts hc ∧ LastSet SetsLoader E.loader0 opts l ∧
      LastSet SetsRegistry E.registry0 opts r ∧
      hc past (domain ++ "/.well-known/did-configuration.json") = .resp 200 (some text) ∧
      Config (E.denv l) text ld ∧ j ∈ ld ∧ Entry (E.denv l) j t ∧
      parseCredential (E.denv l).toPEnv (proofOpts (E.denv l) (E.checkers l r)) t = .ok vc ∧
      Linkage (E.denv l) did domain vc.contents ∧
      Vfy.Spec.Secured (E.denv l).toPEnv (proofOpts (E.denv l) (E.checkers l r)) vc := by
  obtain ⟨hc, l, r, text, h1, h2, h3, -, h4, h5⟩ := (client_verify_iff E dflt opts past did domain).1 h
  obtain ⟨ld, j, t, vc, a1, a2, a3, a4, a5, -, a6, -⟩ := verify_sound_partial (E.denv l) (E.checkers l r) text did domain h5
  exact ⟨hc, l, r, text, ld, j, t, vc, h1, h2, h3, h4, a1, a2, a3, a4, a5, a6⟩

/-! ## Examples -/

/-- A client environment over the toy libraries: the registry decides whether there are keys. -/
def dcCEnv : CEnv Unit Bool where
  loader0 := ()
  registry0 := false
  denv _ := dcEnv
  checkers _ r := if r then dcChecker else ⟨fun _ _ _ _ => false, fun _ _ _ _ => false, fun _ _ _ _ => false⟩
  goodURL u := !(hasPrefix u "%")

/-- A web server with a configuration under `/path`, but none at the root; the first request is answered
with status 503. -/
def dcServer : Http := fun past u =>
  if u = "https://a.example/path/.well-known/did-configuration.json" then
    (if past = [] then .resp 503 (some "[ld]") else .resp 200 (some "[ld]"))
  else if hasPrefix u "https://a.example/" then .resp 404 (some "") else .refused

/-- The client. -/
def dcClient : Client Unit Bool := newClient (fun _ _ => .refused) [.registry false, .http dcServer, .registry true]

/-- Kinds of results. -/
def dcRun (calls : List (String × String)) : List Nat × List Ev :=
  ((dcClient.session dcCEnv [] calls).1.map dcKind, (dcClient.session dcCEnv [] calls).2)

/-- A session: the same call fails and then succeeds, as the server answers; a location that is no URL is not
asked for; a server that cannot be reached leaves nothing to close. -/
theorem client_example : dcRun [("did:ex:a", "https://a.example/path"), ("did:ex:a", "%"),
      ("did:ex:a", "https://b.example"), ("did:ex:a", "https://a.example/path"), ("did:ex:b", "https://a.example/path")] =
    ([1, 1, 1, 0, 1], [.get "https://a.example/path/.well-known/did-configuration.json", .close,
      .get "https://b.example/.well-known/did-configuration.json",
      .get "https://a.example/path/.well-known/did-configuration.json", .close,
      .get "https://a.example/path/.well-known/did-configuration.json", .close]) := by
  decide +kernel

/-- **A part of a web site can link a DID to the whole origin**: for a domain with a path the configuration
under that path counts, although the credential in it is for the origin and the origin's own well-known
location serves none. -/
theorem path_links_origin :
    (dcClient.verify dcCEnv [.close] "did:ex:a" "https://a.example/path").1 = .ok () ∧
    (∀ past, dcServer past "https://a.example/.well-known/did-configuration.json" = .resp 404 (some "")) ∧
    (∃ s, get? dcLd "credentialSubject" = some (.obj s) ∧ get? s "origin" = some (.str "https://a.example")) := by
  refine ⟨by rfl, ?_, ⟨_, rfl, rfl⟩⟩
  intro past
  unfold dcServer
  rw [if_neg (by decide +kernel), if_pos (by decide +kernel)]

/-- The last registry counts: with the other order the same call fails. -/
example : dcKind ((newClient (fun _ _ => .refused) [.http dcServer, .registry true, .registry false] :
    Client Unit Bool).verify dcCEnv [.close] "did:ex:a" "https://a.example/path").1 = 1 := by decide +kernel

end VC.DidCfg
