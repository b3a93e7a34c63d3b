import Verif.Status.Net
import Verif.Status.Props
import Verif.IdentityHub.Props
import Batteries.Data.List.Basic
/-!
# C135: a status check contacts only what the credential names, and judges what it is told
-/

namespace VC.Net

open VC.Status (Entry Err Validator ListVC)
open VC.IdentityHub (Message Response)
open Spec

/-! ## Running programs -/

theorem runs_ret {α : Type} {a b : α} {l : List Event} : Runs (.ret a) l b ↔ l = [] ∧ b = a := by
  constructor
  · intro h; cases h; exact ⟨rfl, rfl⟩
  · rintro ⟨rfl, rfl⟩; exact .ret _

theorem runs_http {α : Type} {r : HTTPReq} {k : HTTPAns → Prog α} {l : List Event} {a : α} :
    Runs (.http r k) l a ↔ ∃ x l', l = .http r x :: l' ∧ Runs (k x) l' a := by
  constructor
  · intro h; cases h with | http _ _ x h => exact ⟨x, _, rfl, h⟩
  · rintro ⟨x, l', rfl, h⟩; exact .http _ _ x h

theorem runs_lookup {α : Type} {d : String} {k : Option Doc → Prog α} {l : List Event} {a : α} :
    Runs (.lookup d k) l a ↔ ∃ x l', l = .lookup d x :: l' ∧ Runs (k x) l' a := by
  constructor
  · intro h; cases h with | lookup _ _ x h => exact ⟨x, _, rfl, h⟩
  · rintro ⟨x, l', rfl, h⟩; exact .lookup _ _ x h

theorem runs_range {α : Type} {m : JObj} {k : List (String × Json) → Prog α} {l : List Event} {a : α} :
    Runs (.range m k) l a ↔ ∃ x, x.Perm m ∧ Runs (k x) l a := by
  constructor
  · intro h; cases h with | range _ _ x hp h => exact ⟨x, hp, h⟩
  · rintro ⟨x, hp, h⟩; exact .range _ _ x hp h

theorem runs_bind {α β : Type} {p : Prog α} {f : α → Prog β} : ∀ {l : List Event} {b : β},
    Runs (p.bind f) l b ↔ ∃ a l1 l2, l = l1 ++ l2 ∧ Runs p l1 a ∧ Runs (f a) l2 b := by
  induction p with
  | ret a =>
    intro l b
    constructor
    · intro h; exact ⟨a, [], l, rfl, .ret _, h⟩
    · rintro ⟨a', l1, l2, rfl, h1, h2⟩
      obtain ⟨rfl, rfl⟩ := runs_ret.mp h1
      exact h2
  | http r k ih =>
    intro l b
    constructor
    · intro h
      obtain ⟨x, l', rfl, h'⟩ := runs_http.mp h
      obtain ⟨a, l1, l2, rfl, h1, h2⟩ := (ih x).mp h'
      exact ⟨a, .http r x :: l1, l2, rfl, .http _ _ _ h1, h2⟩
    · rintro ⟨a, l1, l2, rfl, h1, h2⟩
      obtain ⟨x, l', rfl, h⟩ := runs_http.mp h1
      exact .http _ _ x ((ih x).mpr ⟨a, l', l2, rfl, h, h2⟩)
  | lookup r k ih =>
    intro l b
    constructor
    · intro h
      obtain ⟨x, l', rfl, h'⟩ := runs_lookup.mp h
      obtain ⟨a, l1, l2, rfl, h1, h2⟩ := (ih x).mp h'
      exact ⟨a, .lookup r x :: l1, l2, rfl, .lookup _ _ _ h1, h2⟩
    · rintro ⟨a, l1, l2, rfl, h1, h2⟩
      obtain ⟨x, l', rfl, h⟩ := runs_lookup.mp h1
      exact .lookup _ _ x ((ih x).mpr ⟨a, l', l2, rfl, h, h2⟩)
  | range m k ih =>
    intro l b
    constructor
    · intro h
      obtain ⟨x, hp, h⟩ := runs_range.mp h
      obtain ⟨a, l1, l2, rfl, h1, h2⟩ := (ih x).mp h
      exact ⟨a, l1, l2, rfl, .range _ _ x hp h1, h2⟩
    · rintro ⟨a, l1, l2, rfl, h1, h2⟩
      obtain ⟨x, hp, h⟩ := runs_range.mp h1
      exact .range _ _ x hp ((ih x).mpr ⟨a, l1, l2, rfl, h, h2⟩)

/-- Whatever the outside does - its answers may depend on everything sent and answered before - the
program comes to an end with some exchanges in which the outside behaved like that. -/
theorem runs_total {α : Type} (p : Prog α) (answer : List Event → HTTPReq → HTTPAns)
    (registry : List Event → String → Option Doc) : ∀ past : List Event, ∃ l a, Runs p l a ∧
      ∀ l1 ev l2, l = l1 ++ ev :: l2 →
        (∃ r, ev = .http r (answer (past ++ l1) r)) ∨ ∃ d, ev = .lookup d (registry (past ++ l1) d) := by
  have step : ∀ (past l : List Event) (ev : Event),
      ((∃ r, ev = .http r (answer past r)) ∨ ∃ d, ev = .lookup d (registry past d)) →
      (∀ l1 e l2, l = l1 ++ e :: l2 → (∃ r, e = .http r (answer ((past ++ [ev]) ++ l1) r)) ∨
        ∃ d, e = .lookup d (registry ((past ++ [ev]) ++ l1) d)) →
      ∀ l1 e l2, ev :: l = l1 ++ e :: l2 → (∃ r, e = .http r (answer (past ++ l1) r)) ∨
        ∃ d, e = .lookup d (registry (past ++ l1) d) := by
    intro past l ev h1 h2 l1 e l2 he
    cases l1 with
    | nil =>
      simp only [List.nil_append, List.cons.injEq] at he
      obtain ⟨rfl, -⟩ := he
      simpa using h1
    | cons y l1 =>
      simp only [List.cons_append, List.cons.injEq] at he
      obtain ⟨rfl, he⟩ := he
      simpa using h2 l1 e l2 he
  induction p with
  | ret a => intro past; exact ⟨[], a, .ret _, fun l1 ev l2 h => by simp at h⟩
  | http r k ih =>
    intro past
    obtain ⟨l, a, h, hl⟩ := ih (answer past r) (past ++ [.http r (answer past r)])
    exact ⟨_, a, .http _ _ _ h, step past l _ (Or.inl ⟨r, rfl⟩) hl⟩
  | lookup d k ih =>
    intro past
    obtain ⟨l, a, h, hl⟩ := ih (registry past d) (past ++ [.lookup d (registry past d)])
    exact ⟨_, a, .lookup _ _ _ h, step past l _ (Or.inr ⟨d, rfl⟩) hl⟩
  | range m k ih =>
    intro past
    obtain ⟨l, a, h, hl⟩ := ih m past
    exact ⟨l, a, .range _ _ _ (List.Perm.refl _) h, hl⟩

/-! ## The parts -/

theorem hasPrefix_did (u : String) : hasPrefix u "did:" = true ↔ IsDID u := by
  unfold hasPrefix IsDID
  rw [List.isPrefixOf_iff_prefix]
  constructor
  · rintro ⟨r, h⟩
    exact ⟨String.ofList r, String.toList_inj.mp (by rw [← h]; simp)⟩
  · rintro ⟨r, rfl⟩
    exact ⟨r.toList, by simp⟩

theorem didPart (u d : String) : (split '?' u).headD "" = d ↔ DIDPart u d := by
  have hj := joinC_split '?' u
  have hn := split_noChar '?' u
  have back : DIDPart u d → (split '?' u).headD "" = d := by
    rintro ⟨hd, h | ⟨q, h⟩⟩
    · subst h; rw [split_none _ _ hd]; rfl
    · subst h
      have := split_append '?' d q hd
      have e : (String.singleton '?') = "?" := by decide
      rw [e] at this
      rw [this]; rfl
  refine ⟨?_, back⟩
  intro h
  cases hs : split '?' u with
  | nil => exact absurd hs (split_ne_nil _ _)
  | cons x xs =>
    rw [hs] at h hj hn
    simp only [List.headD_cons] at h
    subst h
    refine ⟨hn x (List.mem_cons_self ..), ?_⟩
    cases xs with
    | nil =>
      left
      apply String.toList_inj.mp
      rw [← hj, toList_joinC]
      simp [List.intercalate]
    | cons y ys =>
      right
      refine ⟨joinC '?' (y :: ys), ?_⟩
      apply String.toList_inj.mp
      rw [← hj]
      simp [toList_joinC, List.intercalate]

theorem find_first {α : Type} (f : α → Bool) (P : α → Prop) (hf : ∀ x, f x = true ↔ P x) (l : List α) (x : α) :
    l.find? f = some x ↔ FirstOf P l x := by
  rw [List.find?_eq_some_iff_append]
  unfold FirstOf
  constructor
  · rintro ⟨h, a, b, e, hn⟩
    exact ⟨(hf x).mp h, a, b, e, fun y hy hp => by simpa [(hf y).mpr hp] using hn y hy⟩
  · rintro ⟨h, a, b, e, hn⟩
    refine ⟨(hf x).mpr h, a, b, e, fun y hy => ?_⟩
    cases hfy : f y with
    | false => rfl
    | true => exact absurd ((hf y).mp hfy) (hn y hy)

theorem firstURI_mem {c : Json → Option String} : ∀ {l : List (String × Json)} {u : String},
    firstURI c l = some u → ∃ k v, (k, v) ∈ l ∧ c v = some u
  | [], _, h => nomatch h
  | (k, v) :: l, u, h => by
    unfold firstURI at h
    cases hc : c v with
    | some u' => simp only [hc] at h; cases h; exact ⟨k, v, List.mem_cons_self .., hc⟩
    | none =>
      simp only [hc] at h
      obtain ⟨k', v', hm, h'⟩ := firstURI_mem h
      exact ⟨k', v', List.mem_cons_of_mem _ hm, h'⟩

/-- The hub's address: every run asks an address of the hub service, and every such address is asked
in some run. -/
theorem serviceEndpoint_runs (p : Params) (doc : Doc) (l : List Event) (u : String) :
    Runs (serviceEndpoint p doc) l (some u) ↔ l = [] ∧ HubAddress p.coreURI doc u := by
  have hfind := find_first (fun s : Service => s.type == "IdentityHub") (fun s => s.type = "IdentityHub")
    (fun s => by simp) doc.services
  unfold serviceEndpoint HubAddress
  cases hs : doc.services.find? (fun s => s.type == "IdentityHub") with
  | none =>
    dsimp only
    rw [runs_ret]
    constructor
    · rintro ⟨_, h⟩; exact nomatch h
    · rintro ⟨_, s, h, _⟩; rw [← hfind, hs] at h; exact nomatch h
  | some s =>
    have h1 : ∀ s', FirstOf (fun s : Service => s.type = "IdentityHub") doc.services s' ↔ s' = s := by
      intro s'
      rw [← hfind, hs]
      constructor
      · intro h; cases h; rfl
      · rintro rfl; rfl
    simp only [h1, exists_eq_left]
    cases hk : s.endpoint.isDIDComm with
    | true =>
      simp only [if_true, runs_ret]
      constructor
      · rintro ⟨h, e⟩; exact ⟨h, Or.inl e.symm⟩
      · rintro ⟨h, e | ⟨e, _⟩⟩
        · exact ⟨h, e.symm⟩
        · exact nomatch e
    | false =>
      simp only [if_neg Bool.false_ne_true, true_and]
      unfold coreEndpoint
      cases hu : s.endpoint.uri with
      | some u' =>
        simp only [runs_ret]
        constructor
        · rintro ⟨h, e⟩; exact ⟨h, Or.inl e.symm⟩
        · rintro ⟨h, e | ⟨e, _⟩⟩
          · exact ⟨h, e.symm⟩
          · exact nomatch e
      | none =>
        cases hf : s.endpoint.fields with
        | none =>
          simp only [runs_ret]
          constructor
          · rintro ⟨h, e⟩; exact nomatch e
          · rintro ⟨h, e | ⟨_, m, k, v, e, _⟩⟩
            · exact nomatch e
            · exact nomatch e
        | some m =>
          simp only [runs_range, runs_ret]
          constructor
          · rintro ⟨x, hp, h, e⟩
            obtain ⟨k, v, hm, hc⟩ := firstURI_mem e.symm
            exact ⟨h, Or.inr ⟨trivial, m, k, v, rfl, hp.mem_iff.mp hm, hc⟩⟩
          · rintro ⟨h, e | ⟨_, m', k, v, e, hm, hc⟩⟩
            · exact nomatch e
            · cases e
              obtain ⟨a, b, rfl⟩ := List.append_of_mem hm
              refine ⟨(k, v) :: (a ++ b), List.perm_middle.symm, h, ?_⟩
              simp only [firstURI, hc]

theorem auth_of (token : String) (r : HTTPReq) (h : r.authorization = none) :
    Auth token (if token = "" then r else { r with authorization := some ("Bearer " ++ token) }).authorization := by
  unfold Auth
  split
  · rename_i e; exact Or.inl ⟨e, h⟩
  · rename_i e; exact Or.inr ⟨e, rfl⟩

theorem auth_unique {token : String} {a b : Option String} (h1 : Auth token a) (h2 : Auth token b) : a = b := by
  rcases h1 with ⟨h, rfl⟩ | ⟨h, rfl⟩ <;> rcases h2 with ⟨h', rfl⟩ | ⟨h', rfl⟩
  · rfl
  · exact absurd h h'
  · exact absurd h' h
  · rfl

/-- What `send` sends. -/
theorem send_runs (token : String) (r : HTTPReq) (h0 : r.authorization = none) (l : List Event)
    (res : Option (List UInt8)) :
    Runs (send token r) l res ↔ ∃ r' a, l = [.http r' a] ∧ r'.method = r.method ∧ r'.url = r.url ∧
      Auth token r'.authorization ∧ r'.contentType = r.contentType ∧ r'.body = r.body ∧
      (res = none ∧ (∀ b, a ≠ some (200, b)) ∨ ∃ b, res = some b ∧ a = some (200, b)) := by
  unfold send
  have ha := auth_of token r h0
  simp only
  rw [runs_http]
  have hans : ∀ (a : HTTPAns) (l' : List Event), Runs (match a with
      | none => Prog.ret none
      | some (code, body) => if code = 200 then .ret (some body) else .ret none) l' res ↔
      l' = [] ∧ (res = none ∧ (∀ b, a ≠ some (200, b)) ∨ ∃ b, res = some b ∧ a = some (200, b)) := by
    intro a l'
    cases a with
    | none => simp [runs_ret]
    | some x =>
      obtain ⟨code, body⟩ := x
      by_cases hc : code = 200
      · subst hc
        simp only [if_true, runs_ret]
        constructor
        · rintro ⟨h, rfl⟩; exact ⟨h, Or.inr ⟨body, rfl, rfl⟩⟩
        · rintro ⟨h, ⟨_, h2⟩ | ⟨b, rfl, h2⟩⟩
          · exact absurd rfl (h2 body)
          · cases h2; exact ⟨h, rfl⟩
      · simp only [if_neg hc, runs_ret]
        constructor
        · rintro ⟨h, rfl⟩; exact ⟨h, Or.inl ⟨rfl, fun b e => hc (by cases e; rfl)⟩⟩
        · rintro ⟨h, ⟨rfl, _⟩ | ⟨b, rfl, h2⟩⟩
          · exact ⟨h, rfl⟩
          · cases h2; exact absurd rfl hc
  constructor
  · rintro ⟨a, l', rfl, h⟩
    obtain ⟨rfl, h'⟩ := (hans a l').mp h
    refine ⟨_, a, rfl, ?_, ?_, ha, ?_, ?_, h'⟩ <;> split <;> rfl
  · rintro ⟨r', a, rfl, h1, h2, h3, h4, h5, h⟩
    have e : r' = (if token = "" then r else { r with authorization := some ("Bearer " ++ token) }) := by
      have h3' := auth_unique h3 ha
      obtain ⟨m, u, au, ct, bd⟩ := r'
      obtain ⟨m2, u2, au2, ct2, bd2⟩ := r
      dsimp only at h1 h2 h4 h5 h3'
      subst h1 h2 h4 h5
      split at h3' <;> rename_i ht <;> simp only [ht, if_true, if_false] at * <;> rw [h3']
    exact ⟨a, [], by rw [e], (hans a []).mpr ⟨rfl, h⟩⟩

theorem isMethod_iff (fold : String → String) (q : JObj) (m : String) :
    IdentityHub.isMethod fold ⟨q, ""⟩ m = true ↔
      ∃ v, GoMap.get? q "method" = some (.str v) ∧ fold v = fold m := by
  unfold IdentityHub.isMethod JObj.at
  cases h : GoMap.get? q "method" with
  | none => simp [Json.asStr?]
  | some v => cases v <;> simp [Json.asStr?]

theorem asks_unique {fold : String → String} {q : JObj} {a b : String} (h1 : AsksFor fold q a)
    (h2 : AsksFor fold q b) : a = b := by
  have := h1.2.symm.trans h2.2
  cases this
  rfl

theorem firstValid_iff (fold : String → String) : ∀ (qs : List JObj) (o : String) (msg : Message),
    IdentityHub.firstValidMessage fold "CollectionsQuery" qs = some (o, msg) ↔
      ∃ q, msg = ⟨q, ""⟩ ∧ AsksFor fold q o ∧ FirstOf (fun q => ∃ o, AsksFor fold q o) qs q
  | [], o, msg => by
    simp only [IdentityHub.firstValidMessage]
    constructor
    · intro h; exact nomatch h
    · rintro ⟨q, _, _, _, a, b, h, _⟩; cases a <;> exact nomatch h
  | d :: ds, o, msg => by
    have ih := firstValid_iff fold ds o msg
    have hm := isMethod_iff fold d "CollectionsQuery"
    have ho := fun x => IdentityHub.getObjectID_some ⟨d, ""⟩ x
    have skip : (¬ ∃ o, AsksFor fold d o) →
        ((∃ q, msg = ⟨q, ""⟩ ∧ AsksFor fold q o ∧ FirstOf (fun q => ∃ o, AsksFor fold q o) ds q) ↔
          ∃ q, msg = ⟨q, ""⟩ ∧ AsksFor fold q o ∧ FirstOf (fun q => ∃ o, AsksFor fold q o) (d :: ds) q) := by
      intro hd
      constructor
      · rintro ⟨q, h1, h2, h3, a, b, rfl, h4⟩
        refine ⟨q, h1, h2, h3, d :: a, b, rfl, ?_⟩
        intro y hy
        rcases List.mem_cons.mp hy with rfl | hy
        · exact hd
        · exact h4 y hy
      · rintro ⟨q, h1, h2, h3, a, b, h, h4⟩
        cases a with
        | nil =>
          simp only [List.nil_append, List.cons.injEq] at h
          obtain ⟨rfl, -⟩ := h
          exact absurd h3 hd
        | cons y a =>
          simp only [List.cons_append, List.cons.injEq] at h
          obtain ⟨rfl, rfl⟩ := h
          exact ⟨q, h1, h2, h3, a, b, rfl, fun z hz => h4 z (List.mem_cons_of_mem _ hz)⟩
    rw [IdentityHub.firstValidMessage]
    cases hmm : IdentityHub.isMethod fold ⟨d, ""⟩ "CollectionsQuery" with
    | false =>
      simp only [Bool.not_false, if_true]
      rw [ih]
      apply skip
      rintro ⟨x, ⟨v, h1, h2⟩, _⟩
      rw [hm.mpr ⟨v, h1, h2⟩] at hmm
      exact nomatch hmm
    | true =>
      simp only [Bool.not_true, if_neg Bool.false_ne_true]
      cases hoo : IdentityHub.getObjectID ⟨d, ""⟩ with
      | none =>
        simp only
        rw [ih]
        apply skip
        rintro ⟨x, _, h⟩
        rw [(ho x).mpr h] at hoo
        exact nomatch hoo
      | some x =>
        have hd : AsksFor fold d x := ⟨hm.mp hmm, (ho x).mp hoo⟩
        simp only
        constructor
        · intro h
          cases h
          exact ⟨d, rfl, hd, ⟨o, hd⟩, [], ds, rfl, fun y hy => nomatch hy⟩
        · rintro ⟨q, h1, h2, h3, a, b, h, h4⟩
          cases a with
          | nil =>
            simp only [List.nil_append, List.cons.injEq] at h
            obtain ⟨rfl, -⟩ := h
            rw [h1, asks_unique h2 hd]
          | cons y a =>
            simp only [List.cons_append, List.cons.injEq] at h
            obtain ⟨rfl, rfl⟩ := h
            exact absurd ⟨x, hd⟩ (h4 d (List.mem_cons_self ..))

theorem firstOf_unique {α : Type} {P : α → Prop} {x y : α} : ∀ {l : List α},
    FirstOf P l x → FirstOf P l y → x = y
  | [], ⟨_, a, b, e, _⟩, _ => by cases a <;> exact nomatch e
  | z :: l, ⟨h1, a, b, e1, n1⟩, ⟨h2, a', b', e2, n2⟩ => by
    cases a with
    | nil =>
      cases a' with
      | nil => cases e1; cases e2; rfl
      | cons w a' =>
        cases e1; cases e2
        exact absurd h1 (n2 x (List.mem_cons_self ..))
    | cons w a =>
      cases a' with
      | nil =>
        cases e1; cases e2
        exact absurd h2 (n1 y (List.mem_cons_self ..))
      | cons w' a' =>
        simp only [List.cons_append, List.cons.injEq] at e1 e2
        exact firstOf_unique ⟨h1, a, b, e1.2, fun w hw => n1 w (List.mem_cons_of_mem _ hw)⟩
          ⟨h2, a', b', e2.2, fun w hw => n2 w (List.mem_cons_of_mem _ hw)⟩

theorem readHub_iff (p : Params) (oid : String) (body data : List UInt8) :
    readHub p oid body = some data ↔ HubGives p oid body data := by
  unfold readHub HubGives
  cases hr : p.unmResponse body with
  | none => simp
  | some resp =>
    have hm := IdentityHub.getMessageData_spec p.fold p.b64 oid resp.replies
    have hfirst : ∀ m, IdentityHub.Spec.First (IdentityHub.Spec.Matches p.fold oid)
        (IdentityHub.Spec.entries resp.replies) m ↔
        FirstOf (fun m : Message => ∃ o, Status.Spec.StrField m.descriptor "objectId" o ∧ p.fold o = p.fold oid)
          (resp.replies.flatMap (·.entries)) m := by
      intro m
      unfold IdentityHub.Spec.First FirstOf IdentityHub.Spec.Matches IdentityHub.Spec.entries Status.Spec.StrField
      constructor
      · rintro ⟨a, b, h1, h2, h3⟩
        exact ⟨h3, a, b, h1, h2⟩
      · rintro ⟨h3, a, b, h1, h2⟩
        exact ⟨a, b, h1, h2, h3⟩
    simp only [Option.some.injEq, exists_eq_left']
    cases hs : IdentityHub.checkStatus resp with
    | false =>
      simp only [if_neg Bool.false_ne_true]
      constructor
      · intro h; exact nomatch h
      · rintro ⟨h1, h2, _⟩
        rw [(IdentityHub.checkStatus_iff resp).mpr ⟨h1, h2⟩] at hs
        exact nomatch hs
    | true =>
      obtain ⟨s1, s2⟩ := (IdentityHub.checkStatus_iff resp).mp hs
      simp only [if_true]
      rcases hm with ⟨h1, h2⟩ | ⟨m, h1, h2⟩
      · rw [h1]
        constructor
        · intro h; exact nomatch h
        · rintro ⟨_, _, m, h, _⟩
          obtain ⟨a, b, e, -, h3⟩ := (hfirst m).mpr h
          exact absurd h3 (h2 m (by rw [e]; simp))
      · rw [h2]
        have h1' := (hfirst m).mp h1
        constructor
        · intro h
          refine ⟨s1, s2, m, h1', ?_⟩
          cases hb : p.b64 m.data with
          | none => rw [hb] at h; exact nomatch h
          | some d => rw [hb] at h; cases h; rfl
        · rintro ⟨_, _, m', h, hb⟩
          have := firstOf_unique h h1'
          subst this
          rw [hb]

theorem query_iff (p : Params) (u : String) (hub : String) (oid : String) (req : HubRequest) :
    (∃ qs, IdentityHub.getQueries p.unmQueries u = some qs ∧
      getRequest p hub "CollectionsQuery" qs = some (oid, req)) ↔
    ∃ q, Query p u q oid ∧ req = ⟨p.requestID, hub, [⟨q, ""⟩]⟩ := by
  unfold Query getRequest
  constructor
  · rintro ⟨qs, h1, h2⟩
    cases hf : IdentityHub.firstValidMessage p.fold "CollectionsQuery" qs with
    | none => rw [hf] at h2; exact nomatch h2
    | some om =>
      obtain ⟨o, m⟩ := om
      rw [hf] at h2
      cases h2
      obtain ⟨q, rfl, h3, h4⟩ := (firstValid_iff _ _ _ _).mp hf
      exact ⟨q, ⟨qs, h1, h3, h4⟩, rfl⟩
  · rintro ⟨q, ⟨qs, h1, h3, h4⟩, rfl⟩
    refine ⟨qs, h1, ?_⟩
    rw [(firstValid_iff _ _ _ _).mpr ⟨q, rfl, h3, h4⟩]

theorem serviceEndpoint_silent (p : Params) (doc : Doc) (l : List Event) (r : Option String)
    (h : Runs (serviceEndpoint p doc) l r) : l = [] := by
  unfold serviceEndpoint coreEndpoint at h
  split at h
  · exact (runs_ret.mp h).1
  · split at h
    · exact (runs_ret.mp h).1
    · split at h
      · exact (runs_ret.mp h).1
      · split at h
        · exact (runs_ret.mp h).1
        · obtain ⟨_, _, h⟩ := runs_range.mp h
          exact (runs_ret.mp h).1

/-- All that a DID URL can cause to be sent, and when data comes out. -/
theorem viaHub_runs (p : Params) (u : String) (l : List Event) (res : Option (List UInt8))
    (h : Runs (viaHub p u) l res) :
    ∃ d, DIDPart u d ∧
      ((∃ a, l = [.lookup d a] ∧ res = none) ∨
       ∃ doc oid q r a, Query p u q oid ∧ IsPost p doc q r ∧ p.validURL r.url = true ∧
        l = [.lookup d (some doc), .http r a] ∧
        ∀ data, res = some data ↔ ∃ body, a = some (200, body) ∧ HubGives p oid body data) := by
  unfold viaHub at h
  obtain ⟨x, l1, rfl, h1⟩ := runs_lookup.mp h
  refine ⟨_, (didPart u _).mp rfl, ?_⟩
  cases x with
  | none =>
    obtain ⟨rfl, rfl⟩ := runs_ret.mp h1
    exact Or.inl ⟨none, rfl, rfl⟩
  | some doc =>
    dsimp only at h1
    cases hq : IdentityHub.getQueries p.unmQueries u with
    | none =>
      rw [hq] at h1
      obtain ⟨rfl, rfl⟩ := runs_ret.mp h1
      exact Or.inl ⟨_, rfl, rfl⟩
    | some qs =>
      rw [hq] at h1
      dsimp only at h1
      cases hr : getRequest p doc.id "CollectionsQuery" qs with
      | none =>
        rw [hr] at h1
        obtain ⟨rfl, rfl⟩ := runs_ret.mp h1
        exact Or.inl ⟨_, rfl, rfl⟩
      | some x =>
        obtain ⟨oid, req⟩ := x
        rw [hr] at h1
        dsimp only at h1
        obtain ⟨q, hQ, hreq⟩ := (query_iff p u doc.id oid req).mp ⟨qs, hq, hr⟩
        obtain ⟨ep, l2, l3, rfl, h2, h3⟩ := runs_bind.mp h1
        have := serviceEndpoint_silent _ _ _ _ h2
        subst this
        cases ep with
        | none =>
          obtain ⟨rfl, rfl⟩ := runs_ret.mp h3
          exact Or.inl ⟨_, rfl, rfl⟩
        | some ep =>
          have hA := ((serviceEndpoint_runs p doc _ ep).mp h2).2
          dsimp only at h3
          cases hv : p.validURL ep with
          | false =>
            rw [hv, if_neg Bool.false_ne_true] at h3
            obtain ⟨rfl, rfl⟩ := runs_ret.mp h3
            exact Or.inl ⟨_, rfl, rfl⟩
          | true =>
            rw [hv, if_pos rfl] at h3
            obtain ⟨b, l4, l5, rfl, h4, h5⟩ := runs_bind.mp h3
            obtain ⟨r, a, rfl, e1, e2, e3, e4, e5, e6⟩ := (send_runs _ _ rfl _ _).mp h4
            dsimp only at e1 e2 e4 e5
            have hp : IsPost p doc q r := by
              refine ⟨e1, by rw [e2]; exact hA, e3, e4, req, e5, ?_, ?_, ?_⟩ <;> rw [hreq]
            refine Or.inr ⟨doc, oid, q, r, a, hQ, hp, by rw [e2]; exact hv, ?_⟩
            rcases e6 with ⟨rfl, hno⟩ | ⟨b', rfl, rfl⟩
            · obtain ⟨rfl, rfl⟩ := runs_ret.mp h5
              refine ⟨rfl, fun data => ⟨fun h => (nomatch h), ?_⟩⟩
              rintro ⟨body, h, _⟩
              exact absurd h (hno body)
            · obtain ⟨rfl, rfl⟩ := runs_ret.mp h5
              refine ⟨rfl, fun data => ?_⟩
              rw [readHub_iff]
              constructor
              · intro h; exact ⟨b', rfl, h⟩
              · rintro ⟨body, h, hg⟩
                cases h
                exact hg

theorem viaHub_gives (p : Params) {u d oid : String} {doc : Doc} {q : JObj} {r : HTTPReq}
    {body data : List UInt8} (hd : DIDPart u d) (hQ : Query p u q oid) (hp : IsPost p doc q r)
    (hv : p.validURL r.url = true) (hg : HubGives p oid body data) :
    Runs (viaHub p u) [.lookup d (some doc), .http r (some (200, body))] (some data) := by
  unfold viaHub
  rw [(didPart u d).mpr hd]
  refine runs_lookup.mpr ⟨some doc, _, rfl, ?_⟩
  obtain ⟨qs, hq, hr⟩ := (query_iff p u doc.id oid _).mpr ⟨q, hQ, rfl⟩
  obtain ⟨h1, h2, h3, h4, b, h5, h6, h7, h8⟩ := hp
  dsimp only
  rw [hq]
  dsimp only
  rw [hr]
  dsimp only
  refine runs_bind.mpr ⟨some r.url, [], _, rfl, (serviceEndpoint_runs p doc _ _).mpr ⟨rfl, h2⟩, ?_⟩
  dsimp only
  rw [hv, if_pos rfl]
  refine runs_bind.mpr ⟨some body, _, [], (List.append_nil _).symm,
    (send_runs _ _ rfl _ _).mpr ⟨r, _, rfl, h1, rfl, h3, h4, ?_, Or.inr ⟨body, rfl, rfl⟩⟩, ?_⟩
  · obtain ⟨x, y, z⟩ := b
    dsimp only at h6 h7 h8 ⊢
    rw [h5, h6, h7, h8]
  · exact runs_ret.mpr ⟨rfl, ((readHub_iff _ _ _ _).mpr hg).symm⟩

theorem names_unique {e : Entry} {u v : String} (h1 : Names e u) (h2 : Names e v) : u = v := by
  have := h1.symm.trans h2
  cases this
  rfl

theorem query_unique {p : Params} {u : String} {q q' : JObj} {o o' : String} (h1 : Query p u q o)
    (h2 : Query p u q' o') : o = o' := by
  obtain ⟨qs, a1, a2, a3⟩ := h1
  obtain ⟨qs', b1, b2, b3⟩ := h2
  rw [a1] at b1
  cases b1
  obtain rfl := firstOf_unique a3 b3
  exact asks_unique a2 b2

/-- Everything `resolve` can do for an entry that names the location. -/
theorem resolve_runs (p : Params) (e : Entry) (u : String) (hn : Names e u) (l : List Event)
    (res : Option ListVC) (h : Runs (resolve p u) l res) :
    Sent p e l ∧ ∀ vc, res = some vc ↔ Gives p e l vc := by
  unfold resolve at h
  obtain ⟨b, l1, l2, rfl, h1, h2⟩ := runs_bind.mp h
  have hl2 : l2 = [] ∧ ∀ vc, res = some vc ↔ ∃ x, b = some x ∧ p.parse x = some vc := by
    cases b with
    | none =>
      obtain ⟨rfl, rfl⟩ := runs_ret.mp h2
      exact ⟨rfl, fun vc => ⟨fun e => (nomatch e), fun ⟨x, e, _⟩ => (nomatch e)⟩⟩
    | some x =>
      obtain ⟨rfl, rfl⟩ := runs_ret.mp h2
      exact ⟨rfl, fun vc => ⟨fun e => ⟨x, rfl, e⟩, fun ⟨y, e, h⟩ => by cases e; exact h⟩⟩
  obtain ⟨rfl, hres⟩ := hl2
  rw [List.append_nil]
  cases hp : hasPrefix u "did:" with
  | true =>
    have hdid := (hasPrefix_did u).mp hp
    rw [hp, if_pos rfl] at h1
    obtain ⟨d, hd, ⟨a, rfl, rfl⟩ | ⟨doc, oid, q, r, a, hQ, hP, hv, rfl, hb⟩⟩ := viaHub_runs _ _ _ _ h1
    · refine ⟨.lookup a hn hdid hd, fun vc => ?_⟩
      rw [hres]
      constructor
      · rintro ⟨x, hx, -⟩; exact nomatch hx
      · intro hg; cases hg
    · refine ⟨.post a hn hdid hd hQ hP, fun vc => ?_⟩
      rw [hres]
      constructor
      · rintro ⟨x, rfl, hx⟩
        obtain ⟨body, rfl, hg⟩ := (hb x).mp rfl
        exact .post hn hdid hd hQ hP hv hg hx
      · intro hg
        cases hg with
        | @post u' d' oid' doc' q' r' body data _ g1 g2 g3 g4 g5 g6 g7 g8 =>
          obtain rfl := names_unique hn g1
          obtain rfl := query_unique hQ g4
          exact ⟨data, (hb data).mpr ⟨body, rfl, g7⟩, g8⟩
  | false =>
    have hdid : ¬ IsDID u := fun h => by rw [(hasPrefix_did u).mpr h] at hp; exact nomatch hp
    rw [hp, if_neg Bool.false_ne_true] at h1
    cases hv : p.validURL u with
    | false =>
      rw [hv, if_neg Bool.false_ne_true] at h1
      obtain ⟨rfl, rfl⟩ := runs_ret.mp h1
      refine ⟨.nothing, fun vc => ?_⟩
      rw [hres]
      constructor
      · rintro ⟨x, hx, -⟩; exact nomatch hx
      · intro hg; cases hg
    | true =>
      rw [hv, if_pos rfl] at h1
      obtain ⟨r, a, rfl, e1, e2, e3, e4, e5, e6⟩ := (send_runs _ _ rfl _ _).mp h1
      have hg : IsGet p u r := ⟨e1, e2, e3, e4, e5⟩
      refine ⟨.get a hn hdid hg, fun vc => ?_⟩
      rw [hres]
      constructor
      · rintro ⟨x, rfl, hx⟩
        rcases e6 with ⟨h9, _⟩ | ⟨b', h9, rfl⟩
        · exact nomatch h9
        · cases h9
          exact .get hn hdid hv hg hx
      · intro hg
        cases hg with
        | @get u' r' body _ g1 g2 g3 g4 g5 =>
          rcases e6 with ⟨_, h⟩ | ⟨b', rfl, h⟩
          · exact absurd rfl (h body)
          · cases h
            exact ⟨body, rfl, g5⟩

theorem resolve_gives (p : Params) (e : Entry) (u : String) (hn : Names e u) (l : List Event) (vc : ListVC)
    (h : Gives p e l vc) : Runs (resolve p u) l (some vc) := by
  unfold resolve
  cases h with
  | @get u' r body _ h1 h2 h3 h4 h5 =>
    obtain rfl := names_unique hn h1
    have hp : hasPrefix u "did:" = false := by
      cases hp : hasPrefix u "did:" with
      | false => rfl
      | true => exact absurd ((hasPrefix_did u).mp hp) h2
    obtain ⟨e1, e2, e3, e4, e5⟩ := h4
    rw [hp, if_neg Bool.false_ne_true, h3, if_pos rfl]
    exact runs_bind.mpr ⟨some body, _, [], (List.append_nil _).symm,
      (send_runs _ _ rfl _ _).mpr ⟨r, _, rfl, e1, e2, e3, e4, e5, Or.inr ⟨body, rfl, rfl⟩⟩,
      runs_ret.mpr ⟨rfl, h5.symm⟩⟩
  | @post u' d oid doc q r body data _ h1 h2 h3 h4 h5 h6 h7 h8 =>
    obtain rfl := names_unique hn h1
    rw [(hasPrefix_did u).mpr h2, if_pos rfl]
    exact runs_bind.mpr ⟨some data, _, [], (List.append_nil _).symm, viaHub_gives p h3 h4 h5 h6 h7,
      runs_ret.mpr ⟨rfl, h8.symm⟩⟩

/-! ## One entry -/

/-- `checkEntry` is the check of `Verif.Status.Model` on what `resolve` brings. -/
theorem checkEntry_eq (p : Params) (iss : Option String) (e : Entry) :
    (∃ x, checkEntry p iss e = .ret (.error x) ∧ ∀ env, Status.verifyEntry env iss e = .error x) ∨
    ∃ u, Names e u ∧ checkEntry p iss e = (resolve p u).bind fun r =>
      .ret (Status.verifyEntry ⟨fun _ => r, p.decode⟩ iss e) := by
  unfold checkEntry Status.verifyEntry
  cases h1 : Status.getValidator e.type with
  | error x => exact Or.inl ⟨x, rfl, fun _ => rfl⟩
  | ok v =>
    dsimp only
    cases h2 : Status.validateStatus v e with
    | error x => exact Or.inl ⟨x, rfl, fun _ => rfl⟩
    | ok _ =>
      dsimp only
      cases h3 : Status.getStatusListIndex e with
      | error x => exact Or.inl ⟨x, rfl, fun _ => rfl⟩
      | ok idx =>
        dsimp only
        cases h4 : Status.getStatusVCURI e with
        | error x => exact Or.inl ⟨x, rfl, fun _ => rfl⟩
        | ok u =>
          refine Or.inr ⟨u, ?_, ?_⟩
          · unfold Status.getStatusVCURI JObj.at at h4
            unfold Names Status.Spec.StrField
            cases hg : GoMap.get? e.custom "statusListCredential" with
            | none => rw [hg] at h4; exact nomatch h4
            | some x =>
              rw [hg] at h4
              cases x <;> simp [Json.asStr?] at h4
              rw [h4]
          · dsimp only
            congr 1
            funext r
            cases r with
            | none => rfl
            | some lvc => rfl

/-- One entry: what is sent, and the three ways it can end. -/
theorem entry_runs (p : Params) (iss : Option String) (e : Entry) (hl : Status.msgCount e < 2 ^ 63)
    (l : List Event) (v : Except Err Unit) (h : Runs (checkEntry p iss e) l v) :
    Sent p e l ∧
    ((Shows p iss false e l ∧ v = .ok ()) ∨
     (Shows p iss true e l ∧ v = .error (Status.purposeError e)) ∨
     ((∀ b, ¬ Shows p iss b e l) ∧ (v = .error .panic ∨ ∃ t, v = .error (.other t)))) := by
  have hnone : ∀ b env, env.resolve = (fun _ => none) → ¬ Status.Spec.Points env iss e b := by
    rintro b env he ⟨_, _, _, _, _, _, _, _, _, _, _, _, h, _⟩
    rw [he] at h
    exact nomatch h
  rcases checkEntry_eq p iss e with ⟨x, hc, hx⟩ | ⟨u, hn, hc⟩
  · rw [hc] at h
    obtain ⟨rfl, rfl⟩ := runs_ret.mp h
    refine ⟨.nothing, Or.inr (Or.inr ⟨?_, ?_⟩)⟩
    · rintro b ⟨vc, hg, _⟩; cases hg
    · have := Status.verifyEntry_points ⟨fun _ => none, p.decode⟩ iss e hl
      rw [hx] at this
      rcases this with ⟨_, h⟩ | ⟨h, _⟩ | ⟨_, h⟩
      · exact nomatch h
      · exact absurd h (hnone _ _ rfl)
      · exact h
  · rw [hc] at h
    obtain ⟨res, l1, l2, rfl, h1, h2⟩ := runs_bind.mp h
    obtain ⟨rfl, rfl⟩ := runs_ret.mp h2
    rw [List.append_nil]
    obtain ⟨hs, hg⟩ := resolve_runs p e u hn l1 res h1
    refine ⟨hs, ?_⟩
    have hpt := Status.verifyEntry_points ⟨fun _ => res, p.decode⟩ iss e hl
    cases res with
    | none =>
      refine Or.inr (Or.inr ⟨?_, ?_⟩)
      · rintro b ⟨vc, hg', _⟩
        exact nomatch (hg vc).mpr hg'
      · rcases hpt with ⟨h, _⟩ | ⟨h, _⟩ | ⟨_, h⟩
        · exact absurd h (hnone _ _ rfl)
        · exact absurd h (hnone _ _ rfl)
        · exact h
    | some vc =>
      have hgv := (hg vc).mp rfl
      rcases hpt with ⟨h, h'⟩ | ⟨h, h'⟩ | ⟨h, h'⟩
      · exact Or.inl ⟨⟨vc, hgv, h⟩, h'⟩
      · exact Or.inr (Or.inl ⟨⟨vc, hgv, h⟩, h'⟩)
      · refine Or.inr (Or.inr ⟨?_, h'⟩)
        rintro b ⟨vc', hg', hp'⟩
        have := (hg vc').mpr hg'
        cases this
        exact h b hp'

/-- Exchanges that show a bit are possible exchanges of the check of that entry. -/
theorem entry_possible (p : Params) (iss : Option String) (e : Entry) (hl : Status.msgCount e < 2 ^ 63)
    (l : List Event) (b : Bool) (h : Shows p iss b e l) : ∃ v, Runs (checkEntry p iss e) l v := by
  obtain ⟨vc, hg, hwf, idx, i, u, _, _, _, _, _, hidx, hat, hu, _⟩ := h
  obtain ⟨v, hv, hval⟩ := (Status.validated_iff e hl).mpr hwf
  have h1 : Status.getStatusListIndex e = .ok (i : Int) := by
    unfold Status.getStatusListIndex JObj.at
    rw [show GoMap.get? e.custom "statusListIndex" = some (.str idx) from hidx]
    simp only [Json.asStr?, Option.getD_some, hat]
  have h2 : Status.getStatusVCURI e = .ok u := by
    unfold Status.getStatusVCURI JObj.at
    rw [show GoMap.get? e.custom "statusListCredential" = some (.str u) from hu]
    rfl
  unfold checkEntry
  simp only [hv, hval, h1, h2]
  exact ⟨_, runs_bind.mpr ⟨some vc, l, [], (List.append_nil _).symm, resolve_gives p e u hu l vc hg,
    runs_ret.mpr ⟨rfl, rfl⟩⟩⟩

theorem shows_one {p : Params} {iss : Option String} {e : Entry} {l : List Event} {a b : Bool}
    (hl : Status.msgCount e < 2 ^ 63) (h1 : Shows p iss a e l) (h2 : Shows p iss b e l) : a = b := by
  obtain ⟨v, hv⟩ := entry_possible p iss e hl l a h1
  obtain ⟨vc, g1, p1⟩ := h1
  obtain ⟨vc', g2, p2⟩ := h2
  rcases checkEntry_eq p iss e with ⟨x, hc, hx⟩ | ⟨u, hn, _⟩
  · rw [hc] at hv
    obtain ⟨rfl, _⟩ := runs_ret.mp hv
    cases g1
  · have r1 := resolve_gives p e u hn l vc g1
    have := ((resolve_runs p e u hn l (some vc) r1).2 vc').mpr g2
    cases this
    exact Status.points_unique p1 p2

theorem entry_ok_iff (p : Params) (iss : Option String) (e : Entry) (hl : Status.msgCount e < 2 ^ 63)
    (l : List Event) : Runs (checkEntry p iss e) l (.ok ()) ↔ Shows p iss false e l := by
  constructor
  · intro h
    rcases (entry_runs p iss e hl l _ h).2 with ⟨h, _⟩ | ⟨_, h⟩ | ⟨_, h | ⟨_, h⟩⟩
    · exact h
    all_goals exact nomatch h
  · intro h
    obtain ⟨v, hv⟩ := entry_possible p iss e hl l false h
    rcases (entry_runs p iss e hl l v hv).2 with ⟨_, rfl⟩ | ⟨h', _⟩ | ⟨h', _⟩
    · exact hv
    · exact nomatch shows_one hl h h'
    · exact absurd h (h' false)

theorem entry_set_iff (p : Params) (iss : Option String) (e : Entry) (hl : Status.msgCount e < 2 ^ 63)
    (l : List Event) (v : Except Err Unit) (h : Shows p iss true e l) :
    Runs (checkEntry p iss e) l v ↔ v = .error (Status.purposeError e) := by
  have one : ∀ v, Runs (checkEntry p iss e) l v → v = .error (Status.purposeError e) := by
    intro v hv
    rcases (entry_runs p iss e hl l v hv).2 with ⟨h', _⟩ | ⟨_, h'⟩ | ⟨h', _⟩
    · exact nomatch shows_one hl h h'
    · exact h'
    · exact absurd h (h' true)
  refine ⟨one v, ?_⟩
  rintro rfl
  obtain ⟨v, hv⟩ := entry_possible p iss e hl l true h
  obtain rfl := one v hv
  exact hv

/-! ## The whole check -/

theorem loop_runs (p : Params) (iss : Option String) (v : Except Err Unit) : ∀ (es : List Entry)
    (_ : ∀ e ∈ es, Status.msgCount e < 2 ^ 63) (log : List Event),
    Runs (checkLoop p iss es) log v ↔
      (v = .ok () ∧ ∃ ls, log = ls.flatten ∧ List.Forall₂ (Shows p iss false) es ls) ∨
      ∃ pre e post ls l x, es = pre ++ e :: post ∧ log = ls.flatten ++ l ∧
        List.Forall₂ (Shows p iss false) pre ls ∧ Runs (checkEntry p iss e) l (.error x) ∧ v = .error x
  | [], _, log => by
    unfold checkLoop
    rw [runs_ret]
    constructor
    · rintro ⟨rfl, rfl⟩; exact Or.inl ⟨rfl, [], rfl, .nil⟩
    · rintro (⟨rfl, ls, rfl, h⟩ | ⟨pre, e, post, _, _, _, h, _⟩)
      · cases h; exact ⟨rfl, rfl⟩
      · cases pre <;> exact nomatch h
  | e :: es, hl, log => by
    have ih := fun log => loop_runs p iss v es (fun e' he => hl e' (List.mem_cons_of_mem _ he)) log
    have hle := hl e (List.mem_cons_self ..)
    unfold checkLoop
    rw [runs_bind]
    constructor
    · rintro ⟨w, l1, l2, rfl, h1, h2⟩
      cases w with
      | error x =>
        obtain ⟨rfl, rfl⟩ := runs_ret.mp h2
        exact Or.inr ⟨[], e, es, [], l1, x, rfl, by simp, .nil, h1, rfl⟩
      | ok u =>
        have hs := (entry_ok_iff p iss e hle l1).mp h1
        rcases (ih l2).mp h2 with ⟨rfl, ls, rfl, h⟩ | ⟨pre, e', post, ls, l, x, rfl, rfl, h3, h4, rfl⟩
        · exact Or.inl ⟨rfl, l1 :: ls, rfl, .cons hs h⟩
        · exact Or.inr ⟨e :: pre, e', post, l1 :: ls, l, x, rfl, by simp, .cons hs h3, h4, rfl⟩
    · rintro (⟨rfl, ls, rfl, h⟩ | ⟨pre, e', post, ls, l, x, he, rfl, h3, h4, rfl⟩)
      · cases h with
        | @cons _ l1 _ ls h1 h2 =>
          exact ⟨.ok (), l1, ls.flatten, rfl, (entry_ok_iff p iss e hle l1).mpr h1,
            (ih _).mpr (Or.inl ⟨rfl, ls, rfl, h2⟩)⟩
      · cases h3 with
        | nil =>
          simp only [List.nil_append, List.cons.injEq] at he
          obtain ⟨rfl, rfl⟩ := he
          exact ⟨.error x, l, [], by simp, h4, runs_ret.mpr ⟨rfl, rfl⟩⟩
        | @cons a l1 pre ls h1 h2 =>
          simp only [List.cons_append, List.cons.injEq] at he
          obtain ⟨rfl, rfl⟩ := he
          exact ⟨.ok (), l1, ls.flatten ++ l, by simp, (entry_ok_iff p iss e hle l1).mpr h1,
            (ih _).mpr (Or.inr ⟨pre, e', post, ls, l, x, rfl, rfl, h2, h4, rfl⟩)⟩

theorem shows_sent {p : Params} {iss : Option String} {e : Entry} {l : List Event} {b : Bool}
    (h : Shows p iss b e l) : Sent p e l := by
  obtain ⟨vc, hg, _⟩ := h
  cases hg with
  | get h1 h2 _ h3 _ => exact .get _ h1 h2 h3
  | post h1 h2 h3 h4 h5 _ _ _ => exact .post _ h1 h2 h3 h4 h5

/-- C135 (accepting).  A status check accepts with exactly these exchanges: one group for each entry, in
the credential's order, each of which brings the status list the entry names, issued by the credential's
issuer, in which the entry's bit is clear.  A location that two entries name is asked twice, and each
entry is judged by the answer it got. -/
theorem accepted_iff (p : Params) (c : Status.Cred) (hl : ∀ e ∈ c.status, Status.msgCount e < 2 ^ 63)
    (log : List Event) :
    Runs (check p c) log (.ok ()) ↔
      c.status ≠ [] ∧ ∃ ls, log = ls.flatten ∧ List.Forall₂ (Shows p c.issuer false) c.status ls := by
  unfold check
  cases hs : c.status with
  | nil =>
    simp only [List.isEmpty_nil, if_true, runs_ret]
    constructor
    · rintro ⟨_, h⟩; exact nomatch h
    · rintro ⟨h, _⟩; exact absurd rfl h
  | cons e es =>
    rw [hs] at hl
    simp only [List.isEmpty_cons, if_neg Bool.false_ne_true]
    rw [loop_runs p c.issuer (.ok ()) (e :: es) hl log]
    constructor
    · rintro (⟨_, h⟩ | ⟨_, _, _, _, _, _, _, _, _, _, h⟩)
      · exact ⟨fun h => (nomatch h), h⟩
      · exact nomatch h
    · rintro ⟨_, h⟩; exact Or.inl ⟨rfl, h⟩

/-- C135 (revoked and suspended).  The check reports the purpose of a set bit exactly when the exchanges
are those of passing entries followed by those of an entry whose bit is set; nothing is sent for the
entries behind it. -/
theorem set_iff (p : Params) (c : Status.Cred) (hl : ∀ e ∈ c.status, Status.msgCount e < 2 ^ 63)
    (log : List Event) (purpose : String) (x : Err)
    (hx : purpose = "revocation" ∧ x = .revoked ∨ purpose = "suspension" ∧ x = .suspended) :
    Runs (check p c) log (.error x) ↔
      ∃ pre e post ls l, c.status = pre ++ e :: post ∧ log = ls.flatten ++ l ∧
        List.Forall₂ (Shows p c.issuer false) pre ls ∧ Shows p c.issuer true e l ∧
        Status.Spec.StrField e.custom "statusPurpose" purpose := by
  have hpurp : ∀ e, Status.purposeError e = x ↔ Status.Spec.StrField e.custom "statusPurpose" purpose := by
    intro e
    unfold Status.purposeError Status.getStatusPurpose JObj.at Status.Spec.StrField
    cases hg : GoMap.get? e.custom "statusPurpose" with
    | none => rcases hx with ⟨rfl, rfl⟩ | ⟨rfl, rfl⟩ <;> simp [Json.asStr?]
    | some j =>
      cases j with
      | str s =>
        simp only [Option.getD_some, Json.asStr?, Option.some.injEq, Json.str.injEq]
        rcases hx with ⟨rfl, rfl⟩ | ⟨rfl, rfl⟩
        · by_cases h1 : s = "revocation"
          · simp [h1]
          · by_cases h2 : s = "suspension" <;> simp [h1, h2]
        · by_cases h1 : s = "revocation"
          · simp [h1]
          · by_cases h2 : s = "suspension" <;> simp [h1, h2]
      | null => rcases hx with ⟨rfl, rfl⟩ | ⟨rfl, rfl⟩ <;> simp [Json.asStr?]
      | bool _ => rcases hx with ⟨rfl, rfl⟩ | ⟨rfl, rfl⟩ <;> simp [Json.asStr?]
      | num _ => rcases hx with ⟨rfl, rfl⟩ | ⟨rfl, rfl⟩ <;> simp [Json.asStr?]
      | arr _ => rcases hx with ⟨rfl, rfl⟩ | ⟨rfl, rfl⟩ <;> simp [Json.asStr?]
      | obj _ => rcases hx with ⟨rfl, rfl⟩ | ⟨rfl, rfl⟩ <;> simp [Json.asStr?]
  have hxo : x ≠ .panic ∧ ∀ t, x ≠ .other t := by
    rcases hx with ⟨_, rfl⟩ | ⟨_, rfl⟩ <;> exact ⟨fun h => (nomatch h), fun t h => (nomatch h)⟩
  unfold check
  cases hs : c.status with
  | nil =>
    simp only [List.isEmpty_nil, if_true, runs_ret]
    constructor
    · rintro ⟨_, h⟩
      cases h
      exact absurd rfl (hxo.2 _)
    · rintro ⟨pre, e, post, _, _, h, _⟩
      cases pre <;> exact nomatch h
  | cons e0 es =>
    rw [hs] at hl
    simp only [List.isEmpty_cons, if_neg Bool.false_ne_true]
    rw [loop_runs p c.issuer (.error x) (e0 :: es) hl log]
    constructor
    · rintro (⟨h, _⟩ | ⟨pre, e, post, ls, l, y, h1, h2, h3, h4, h5⟩)
      · exact nomatch h
      · cases h5
        have hle := hl e (by rw [h1]; simp)
        rcases (entry_runs p c.issuer e hle l _ h4).2 with ⟨_, h⟩ | ⟨hsh, h⟩ | ⟨_, h | ⟨t, h⟩⟩
        · exact nomatch h
        · refine ⟨pre, e, post, ls, l, h1, h2, h3, hsh, (hpurp e).mp ?_⟩
          cases h
          rfl
        · cases h; exact absurd rfl hxo.1
        · cases h; exact absurd rfl (hxo.2 t)
    · rintro ⟨pre, e, post, ls, l, h1, h2, h3, h4, h5⟩
      have hle := hl e (by rw [h1]; simp)
      exact Or.inr ⟨pre, e, post, ls, l, x, h1, h2, h3,
        (entry_set_iff p c.issuer e hle l _ h4).mpr (by rw [(hpurp e).mpr h5]), rfl⟩

/-- C135 (what is sent).  Whatever the outside answers and however the check ends: the exchanges are one
group for each of the first entries of the credential, in order.  Every group is nothing, one GET of the
location its entry names, one look-up of the DID its entry names, or this look-up and one POST to the
hub of the document found.  All groups but the last show a clear bit. -/
theorem sent_in_order (p : Params) (c : Status.Cred) (hl : ∀ e ∈ c.status, Status.msgCount e < 2 ^ 63)
    (log : List Event) (v : Except Err Unit) (h : Runs (check p c) log v) :
    ∃ ls es rest, log = ls.flatten ∧ c.status = es ++ rest ∧ List.Forall₂ (Sent p) es ls ∧
      List.Forall₂ (Shows p c.issuer false) es.dropLast ls.dropLast := by
  unfold check at h
  cases hs : c.status with
  | nil =>
    rw [hs] at h
    simp only [List.isEmpty_nil, if_true, runs_ret] at h
    exact ⟨[], [], [], h.1, rfl, .nil, .nil⟩
  | cons e0 es0 =>
    rw [hs] at h hl
    simp only [List.isEmpty_cons, if_neg Bool.false_ne_true] at h
    have hsent : ∀ {es : List Entry} {ls : List (List Event)}, List.Forall₂ (Shows p c.issuer false) es ls →
        List.Forall₂ (Sent p) es ls := by
      intro es ls h
      induction h with
      | nil => exact .nil
      | cons h1 _ ih => exact .cons (shows_sent h1) ih
    have hdrop : ∀ {es : List Entry} {ls : List (List Event)}, List.Forall₂ (Shows p c.issuer false) es ls →
        List.Forall₂ (Shows p c.issuer false) es.dropLast ls.dropLast := by
      intro es ls h
      induction h with
      | nil => exact .nil
      | @cons a b as bs h1 h2 ih =>
        cases h2 with
        | nil => exact .nil
        | cons h3 h4 => exact .cons h1 ih
    have happ : ∀ {R : Entry → List Event → Prop} {es : List Entry} {ls : List (List Event)} {e : Entry} {l : List Event},
        List.Forall₂ R es ls → R e l → List.Forall₂ R (es ++ [e]) (ls ++ [l]) := by
      intro R es ls e l h1 h2
      induction h1 with
      | nil => exact .cons h2 .nil
      | cons h3 _ ih => exact .cons h3 ih
    rcases (loop_runs p c.issuer v _ hl log).mp h with ⟨_, ls, rfl, h1⟩ | ⟨pre, e, post, ls, l, x, h1, rfl, h3, h4, _⟩
    · exact ⟨ls, e0 :: es0, [], rfl, by simp, hsent h1, hdrop h1⟩
    · have hle := hl e (by rw [h1]; simp)
      refine ⟨ls ++ [l], pre ++ [e], post, by simp, by rw [h1]; simp, happ (hsent h3) (entry_runs p _ e hle l _ h4).1, ?_⟩
      simpa using h3

/-- C135.  At most one HTTP request and one DID look-up is made per entry; a credential without status
entries causes none. -/
theorem sent_few (p : Params) (c : Status.Cred) (hl : ∀ e ∈ c.status, Status.msgCount e < 2 ^ 63)
    (log : List Event) (v : Except Err Unit) (h : Runs (check p c) log v) :
    (log.filter (fun ev => match ev with | .http .. => true | .lookup .. => false)).length ≤ c.status.length ∧
    (log.filter (fun ev => match ev with | .http .. => false | .lookup .. => true)).length ≤ c.status.length := by
  obtain ⟨ls, es, rest, rfl, hc, h1, _⟩ := sent_in_order p c hl log v h
  have key : ∀ {es : List Entry} {ls : List (List Event)}, List.Forall₂ (Sent p) es ls →
      (ls.flatten.filter (fun ev => match ev with | .http .. => true | .lookup .. => false)).length ≤ es.length ∧
      (ls.flatten.filter (fun ev => match ev with | .http .. => false | .lookup .. => true)).length ≤ es.length := by
    intro es ls h
    induction h with
    | nil => simp
    | @cons e l es ls h1 h2 ih =>
      obtain ⟨i1, i2⟩ := ih
      have : (l.filter (fun ev => match ev with | .http .. => true | .lookup .. => false)).length ≤ 1 ∧
          (l.filter (fun ev => match ev with | .http .. => false | .lookup .. => true)).length ≤ 1 := by
        cases h1 <;> simp
      simp only [List.flatten_cons, List.filter_append, List.length_append, List.length_cons]
      omega
  obtain ⟨k1, k2⟩ := key h1
  have : es.length ≤ c.status.length := by rw [hc]; simp
  omega

/-- C135 (where to).  Every exchange of a status check goes to a location some entry of the credential
names: the location itself, the DID in it, or - after the registry told a document for this DID - a hub
address of this document. -/
theorem sent_named (p : Params) (c : Status.Cred) (hl : ∀ e ∈ c.status, Status.msgCount e < 2 ^ 63)
    (log : List Event) (v : Except Err Unit) (h : Runs (check p c) log v) (ev : Event) (hev : ev ∈ log) :
    ∃ e ∈ c.status, ∃ u, Names e u ∧
      ((∃ r a, ev = .http r a ∧ ¬ IsDID u ∧ r.method = "GET" ∧ r.url = u) ∨
       (∃ d a, ev = .lookup d a ∧ IsDID u ∧ DIDPart u d) ∨
       (∃ r a d doc, ev = .http r a ∧ IsDID u ∧ DIDPart u d ∧ .lookup d (some doc) ∈ log ∧
          r.method = "POST" ∧ HubAddress p.coreURI doc r.url ∧ ∃ b, r.body = some b ∧ b.target = doc.id)) := by
  obtain ⟨ls, es, rest, rfl, hc, h1, _⟩ := sent_in_order p c hl log v h
  obtain ⟨l, hl1, hl2⟩ := List.mem_flatten.mp hev
  have key : ∀ {es : List Entry} {ls : List (List Event)}, List.Forall₂ (Sent p) es ls → l ∈ ls →
      ∃ e ∈ es, Sent p e l := by
    intro es ls h
    induction h with
    | nil => intro h; exact nomatch h
    | @cons e l' es ls h1 h2 ih =>
      intro hm
      rcases List.mem_cons.mp hm with rfl | hm
      · exact ⟨e, List.mem_cons_self .., h1⟩
      · obtain ⟨e', he, hs⟩ := ih hm
        exact ⟨e', List.mem_cons_of_mem _ he, hs⟩
  obtain ⟨e, he, hs⟩ := key h1 hl1
  refine ⟨e, by rw [hc]; exact List.mem_append_left _ he, ?_⟩
  cases hs with
  | nothing => exact nomatch hl2
  | @get u r a h2 h3 h4 =>
    obtain rfl := List.mem_singleton.mp hl2
    exact ⟨u, h2, Or.inl ⟨r, a, rfl, h3, h4.1, h4.2.1⟩⟩
  | @lookup u d a h2 h3 h4 =>
    obtain rfl := List.mem_singleton.mp hl2
    exact ⟨u, h2, Or.inr (Or.inl ⟨d, a, rfl, h3, h4⟩)⟩
  | @post u d oid doc q r a h2 h3 h4 h5 h6 =>
    obtain ⟨p1, p2, p3, p4, b, p5, p6, p7, p8⟩ := h6
    rcases List.mem_cons.mp hl2 with rfl | hl2'
    · exact ⟨u, h2, Or.inr (Or.inl ⟨d, _, rfl, h3, h4⟩)⟩
    · obtain rfl := List.mem_singleton.mp hl2'
      refine ⟨u, h2, Or.inr (Or.inr ⟨r, a, d, doc, rfl, h3, h4, ?_, p1, p2, b, p5, p7⟩)⟩
      exact List.mem_flatten.mpr ⟨_, hl1, List.mem_cons_self ..⟩

/-- C135 (the token).  Every HTTP request of a status check carries the resolver's bearer token, and none
carries one when the resolver has none. -/
theorem sent_token (p : Params) (c : Status.Cred) (hl : ∀ e ∈ c.status, Status.msgCount e < 2 ^ 63)
    (log : List Event) (v : Except Err Unit) (h : Runs (check p c) log v) (r : HTTPReq) (a : HTTPAns)
    (hev : .http r a ∈ log) : Auth p.token r.authorization := by
  obtain ⟨ls, es, rest, rfl, hc, h1, -⟩ := sent_in_order p c hl log v h
  obtain ⟨l, hl1, hl2⟩ := List.mem_flatten.mp hev
  clear h hc hev
  induction h1 with
  | nil => exact nomatch hl1
  | @cons e l' es ls h1 h2 ih =>
    rcases List.mem_cons.mp hl1 with rfl | hm
    · cases h1 with
      | nothing => exact nomatch hl2
      | get a h2 h3 h4 => cases List.mem_singleton.mp hl2; exact h4.2.2.1
      | lookup a h2 h3 h4 => exact nomatch List.mem_singleton.mp hl2
      | post a h2 h3 h4 h5 h6 =>
        rcases List.mem_cons.mp hl2 with h | h
        · exact nomatch h
        · cases List.mem_singleton.mp h; exact h6.2.2.1
    · exact ih hm

/-- C135.  Nothing is sent for a credential without status entries, nor when its first entry is not well
formed. -/
theorem sent_nothing (p : Params) (c : Status.Cred) (hl : ∀ e ∈ c.status, Status.msgCount e < 2 ^ 63)
    (hbad : ∀ e es, c.status = e :: es → ¬ (Status.Spec.WF2021 e ∨ Status.Spec.WFBitstring e))
    (log : List Event) (v : Except Err Unit) (h : Runs (check p c) log v) : log = [] ∧ v ≠ .ok () := by
  unfold check at h
  cases hs : c.status with
  | nil =>
    rw [hs] at h
    simp only [List.isEmpty_nil, if_true, runs_ret] at h
    exact ⟨h.1, by rw [h.2]; exact fun h => (nomatch h)⟩
  | cons e es =>
    have hb := hbad e es hs
    have hle := hl e (by rw [hs]; simp)
    rw [hs] at h
    simp only [List.isEmpty_cons, if_neg Bool.false_ne_true] at h
    unfold checkLoop at h
    obtain ⟨w, l1, l2, rfl, h1, h2⟩ := runs_bind.mp h
    have : l1 = [] ∧ ∃ x, w = .error x := by
      unfold checkEntry at h1
      cases hg : Status.getValidator e.type with
      | error x =>
        rw [hg] at h1
        obtain ⟨rfl, rfl⟩ := runs_ret.mp h1
        exact ⟨rfl, x, rfl⟩
      | ok v =>
        rw [hg] at h1
        dsimp only at h1
        cases hv : Status.validateStatus v e with
        | error x =>
          rw [hv] at h1
          obtain ⟨rfl, rfl⟩ := runs_ret.mp h1
          exact ⟨rfl, x, rfl⟩
        | ok u => exact absurd ((Status.validated_iff e hle).mp ⟨v, hg, hv⟩) hb
    obtain ⟨rfl, x, rfl⟩ := this
    obtain ⟨rfl, rfl⟩ := runs_ret.mp h2
    exact ⟨rfl, fun h => (nomatch h)⟩

/-- C135 (agreement with `Verif.Status.Model`).  When every location answers the same way each time, the
verdict is that of the model in which resolving is a function. -/
theorem check_functional (p : Params) (c : Status.Cred) (f : String → Option ListVC) (log : List Event)
    (v : Except Err Unit) (h : Runs (check p c) log v)
    (hf : ∀ u l r, (∃ e ∈ c.status, Names e u) → (∃ l1 l2, log = l1 ++ l ++ l2) → Runs (resolve p u) l r → r = f u) :
    v = Status.verifyStatus ⟨f, p.decode⟩ c := by
  unfold check at h
  unfold Status.verifyStatus
  cases hs : c.status with
  | nil =>
    rw [hs] at h
    simp only [List.isEmpty_nil, if_true, runs_ret] at h
    rw [h.2]
    rfl
  | cons e es =>
    rw [hs] at h
    simp only [List.isEmpty_cons, if_neg Bool.false_ne_true] at h ⊢
    have key : ∀ (es : List Entry), (∀ e ∈ es, e ∈ c.status) → ∀ (l1 l : List Event), log = l1 ++ l →
        Runs (checkLoop p c.issuer es) l v → v = Status.verifyLoop ⟨f, p.decode⟩ c.issuer es := by
      intro es
      induction es with
      | nil =>
        intro _ l1 l _ h
        unfold checkLoop at h
        exact (runs_ret.mp h).2
      | cons e es ih =>
        intro hm l1 l hl h
        unfold checkLoop at h
        obtain ⟨w, k1, k2, rfl, h1, h2⟩ := runs_bind.mp h
        have hw : w = Status.verifyEntry ⟨f, p.decode⟩ c.issuer e := by
          rcases checkEntry_eq p c.issuer e with ⟨x, hc, hx⟩ | ⟨u, hn, hc⟩
          · rw [hc] at h1
            rw [hx]
            exact (runs_ret.mp h1).2
          · rw [hc] at h1
            obtain ⟨r, m1, m2, rfl, g1, g2⟩ := runs_bind.mp h1
            obtain ⟨rfl, rfl⟩ := runs_ret.mp g2
            have hr := hf u m1 r ⟨e, hm e (List.mem_cons_self ..), hn⟩
              ⟨l1, k2, by rw [hl]; simp⟩ g1
            subst hr
            have hu : Status.getStatusVCURI e = .ok u := by
              unfold Status.getStatusVCURI JObj.at
              rw [show GoMap.get? e.custom "statusListCredential" = some (.str u) from hn]
              rfl
            unfold Status.verifyEntry
            simp only [hu]
        unfold Status.verifyLoop
        rw [← hw]
        cases w with
        | error x => exact (runs_ret.mp h2).2
        | ok u =>
          exact ih (fun e he => hm e (List.mem_cons_of_mem _ he)) (l1 ++ k1) k2 (by rw [hl]; simp) h2
    exact key (e :: es) (by rw [hs]; exact fun _ h => h) [] log rfl h

end VC.Net
