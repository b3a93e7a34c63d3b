import Verif.Presexch.EndToEndShown
import Verif.Presexch.EndToEndExamples
/-!
# presexch: an example for C101 with limited disclosure

`el*`: a wallet with two BBS+ credentials, and a definition that wants the name alone.
-/

namespace VC.PE

open GoMap

/-- The one path of the example. -/
def elPath : String := "$.credentialSubject.name"

/-- Its place. -/
def elPlace : List Step := [.name "credentialSubject", .name "name"]

/-- The path library of matching: knows one path. -/
def elMEnv : MEnv where
  Path := Unit
  parse p := if p = elPath then some () else none
  select _ m := (gat (.obj m) elPlace).toList
  valid s v := match s, v with
    | .main _, .str _ => true
    | _, _ => false
  rfc3339 _ := none
  order := replacements
  fold := id
  load := fun ctx => if ctx = "https://www.w3.org/2018/credentials/v1" then
    some (fun t => if t = "Degree" then ["urn:Degree"] else []) else none

/-- The path library of limited disclosure. -/
def elEval (keys : List String) (src : Json) : Option (List (List Step)) :=
  some (if elPath ∈ keys ∧ (gat src elPlace).isSome then [elPlace] else [])

/-- The subject of a credential. -/
def elSubject (ssn : String) : Vfy.Subject := ⟨"did:s", [("name", .str "Ann"), ("ssn", .str ssn)]⟩

/-- A credential as JSON. -/
def elRaw (id ssn : String) : JObj :=
  [("id", .str id), ("type", .arr [.str "Degree"]), ("issuer", .str "did:i"),
   ("credentialSubject", .obj [("id", .str "did:s"), ("name", .str "Ann"), ("ssn", .str ssn)])]

/-- A BBS+ credential. -/
def elCred (id ssn : String) : Cred :=
  ⟨id, ["https://www.w3.org/2018/credentials/v1"], ["Degree"], some "did:i", ["did:s"], false, none,
    ["BbsBlsSignature2020"], false, true, some (elRaw id ssn)⟩

/-- The wallet. -/
def elWallet : List Cred := [elCred "c1" "111", elCred "c2" "222"]

/-- The members of an object. -/
def elObj : Json → Option JObj
  | .obj o => some o
  | _ => none

/-- The holder: a derived credential shows the limited document. -/
def elHolder : HolderEnv := { elMEnv with
  derive := fun k c => c.display.bind (fun raw => (limitedDoc elEval k raw [elSubject ""]).bind (fun L =>
    (elObj L).map (fun o => { c with display := some o })))
  restrict := fun _ _ => none
  tmp := fun d n _ => toString n ++ "." ++ d
  sortKeys := id
  sortMaps := id
  uuid := fun n => "urn:uuid:" ++ toString n }

/-- A credential as it is sent. -/
def elForm (c : Cred) : Json := .arr [.str c.id, .obj (c.display.getD [])]

/-- The verifier. -/
def elVerifier : MatchEnv := { elMEnv with
  selectPath := etSel
  parseCred := fun v => match v with
    | .arr [.str i, .obj o] => some { elCred i "" with display := some o }
    | _ => none }

/-- Reading back. -/
def elRead (c : Cred) : Option Cred := elVerifier.parseCred (elForm c)

/-- The constraints: limited disclosure, the name. -/
def elConstraints : Constraints := ⟨true, false, [⟨[elPath], some ⟨some "string", "", none, [], .null⟩, false, false⟩]⟩

/-- The definition. -/
def elDef : Definition := ⟨none, [], [⟨"deg", [], some [⟨"urn:Degree", true⟩], some elConstraints, none⟩]⟩

/-- The presentation as the verifier gets it. -/
def elSend (made : Created) (os : List MapOut) : VP :=
  ⟨made.id, made.contexts, made.types, some (.obj [("verifiableCredential", .arr (made.creds.map elForm))]),
    submissionMappings (encodeSubmission "urn:uuid:s" "pd" os)⟩

theorem elSend_sent (made : Created) (os : List MapOut) :
    Sent elVerifier.parseCred elRead false made (elSend made os) := by
  refine ⟨rfl, fun _ h => h, fun _ h => h, _, rfl, .plain rfl ?_⟩
  rw [List.forall₂_map_right_iff, List.forall₂_same]
  exact fun _ _ => rfl

theorem el_libs : SameLibs elHolder elVerifier elWallet := by
  refine ⟨rfl, etSel_lib, fun _ => .refl _, fun _ => .refl _, ?_⟩
  intro c hc c' hc' h
  simp only [elWallet, List.mem_cons, List.not_mem_nil, or_false] at hc hc'
  rcases hc with rfl | rfl <;> rcases hc' with rfl | rfl <;>
    first | rfl | exact absurd h (by simp [elCred])

theorem el_simple (id ssn : String) :
    Simple elEval (elRaw id ssn) (.obj (template true (elRaw id ssn) [elSubject ""])) elConstraints.fields := by
  have hev : ∀ f ∈ elConstraints.fields, elEval f.path (.obj (elRaw id ssn)) = some [elPlace] := by
    intro f hf
    simp only [elConstraints, List.mem_singleton] at hf
    subst hf
    rfl
  refine ⟨fun f hf => by rw [hev f hf]; rfl, ?_, ?_, ?_⟩
  · intro f hf ps hps p hp
    rw [hev f hf] at hps
    cases hps
    simp only [List.mem_singleton] at hp
    subst hp
    refine ⟨by simp [elPlace], rfl, ?_, ?_, ?_, ?_, ?_⟩
    · intro s hs
      simp only [elPlace, List.mem_cons, List.not_mem_nil, or_false] at hs
      rcases hs with rfl | rfl <;> (refine ⟨by decide, by decide, ?_⟩; intro h; exact absurd (h _ (List.mem_cons_self ..)) (by decide))
    · intro s a b t h
      have : Step.idx a ∈ elPlace := by rw [h]; simp
      simp [elPlace] at this
    · intro k hk
      simp only [elPlace, List.mem_cons, List.not_mem_nil, or_false, Step.name.injEq] at hk
      rcases hk with rfl | rfl <;> (rw [← containsL_iff]; decide)
    · intro x hx
      have : x = .obj [("id", .str "did:s")] := Option.some.inj (hx.symm.trans rfl)
      subst this
      intro y hy
      cases y <;> trivial
    · intro c a s h
      have : Step.idx a ∈ elPlace := by rw [h]; simp
      simp [elPlace] at this
  · intro f hf ps hps p r hp hpr
    rw [hev f hf] at hps
    cases hps
    simp only [List.mem_singleton] at hp hpr
    subst hp
    have : r = [] := by simpa using hpr
    subst this
    exact ⟨fun s hs => (nomatch hs), fun _ => rfl⟩
  · simp [elConstraints]

theorem el_limit (id ssn : String) : FaithfulLimit elHolder.toPEnv elEval elConstraints false (elRaw id ssn) [elSubject ""] := by
  refine ⟨⟨fun _ => elPlace, ⟨?_, ?_, ?_, ?_, ?_⟩, ?_⟩, el_simple id ssn, ?_⟩
  · intro f _ x _ s hs
    simp only [elPlace, List.mem_cons, List.not_mem_nil, or_false] at hs
    rcases hs with rfl | rfl <;> exact ⟨_, rfl⟩
  · intro f hf x hx
    simp only [elConstraints, List.mem_singleton] at hf
    subst hf
    simp only [List.mem_singleton] at hx
    subst hx
    decide +kernel
  · intro f hf x hx
    simp only [elConstraints, List.mem_singleton] at hf
    subst hf
    simp only [List.mem_singleton] at hx
    subst hx
    exact ⟨(), by simp [parsePath, elHolder, elMEnv], fun _ => rfl⟩
  · intro f _ x _ o
    rfl
  · intro f hf raw ps hps p
    simp only [elConstraints, List.mem_singleton] at hf
    subst hf
    simp only [elEval, Option.some.injEq] at hps
    subst hps
    by_cases h : (gat (.obj raw) elPlace).isSome
    · simp only [List.mem_singleton, h, and_self, if_true, exists_eq_left]
      exact ⟨fun e => ⟨e, by rw [e]; exact h⟩, fun e => e.1⟩
    · simp only [List.mem_singleton, true_and, h, if_neg, List.not_mem_nil, exists_eq_left, false_iff]
      simp only [Bool.false_eq_true, if_false, List.not_mem_nil, false_iff]
      rintro ⟨rfl, h'⟩
      exact h h'
  · intro f hf x hx h
    rfl
  · intro f hf h
    simp only [elConstraints, List.mem_singleton] at hf
    subst hf
    cases h

theorem el_good : StillGood elHolder elVerifier elRead false elDef elWallet := by
  refine derived_still_good_partial (eval := elEval) rfl ?_ (.inr ?_) ?_ ?_ ?_ ?_
  · intro d hd k hk f hf fl hfl
    simp only [elDef, List.mem_singleton] at hd
    subst hd
    cases hk
    simp only [elConstraints, List.mem_singleton] at hf
    subst hf
    cases hfl
    simp
  · intro d hd
    simp only [elDef, List.mem_singleton] at hd
    subst hd
    simp
  · intro c hc ctx hx
    simp only [elWallet, List.mem_cons, List.not_mem_nil, or_false] at hc
    rcases hc with rfl | rfl <;> (
      simp only [elCred, List.mem_singleton] at hx
      subst hx
      exact ⟨_, rfl⟩)
  · intro c hc
    simp only [elWallet, List.mem_cons, List.not_mem_nil, or_false] at hc
    rcases hc with rfl | rfl <;> rfl
  · intro c hc
    simp only [elWallet, List.mem_cons, List.not_mem_nil, or_false] at hc
    rcases hc with rfl | rfl <;> exact ⟨_, rfl, ⟨rfl, rfl, rfl, rfl, rfl, rfl⟩⟩
  · intro d hd k hk c hc w hw
    simp only [elDef, List.mem_singleton] at hd
    subst hd
    cases hk
    simp only [elWallet, List.mem_cons, List.not_mem_nil, or_false] at hc
    rcases hc with rfl | rfl
    all_goals
      simp only [elHolder, elCred, Option.bind_some] at hw
      obtain ⟨L, h1, h2⟩ := Option.bind_eq_some_iff.mp hw
      obtain ⟨o, h3, h4⟩ := Option.map_eq_some_iff.mp h2
      subst h4
      cases L with
      | obj o' =>
        simp only [elObj, Option.some.injEq] at h3
        subst h3
        exact ⟨_, [elSubject ""], _, ⟨rfl, rfl, ⟨_, o', h1, rfl, fun _ _ => rfl⟩, rfl, rfl, rfl, rfl, rfl⟩, el_limit _ _⟩
      | _ => cases h3

theorem el_created : ((createVP elHolder "ldp_vp" elDef elWallet).get?.map fun p =>
    (p.1.creds.map Cred.id, p.2.map (fun o => (o.id, o.format)))) =
    some (["c1", "c2"], [("deg", "ldp_vp"), ("deg", "ldp_vp")]) := by
  decide +kernel

theorem el_fresh : FreshIDs elHolder elWallet := by
  have key : ∀ (n : Nat) (d : String), split '.' (toString n ++ "." ++ d) = toString n :: split '.' d := by
    intro n d
    have := split_append '.' (toString n) d (noDot_toString n)
    simpa [String.append_assoc] using this
  constructor
  · intro d n i d' n' i' h
    have h : toString n ++ "." ++ d = toString n' ++ "." ++ d' := h
    have h1 := congrArg (split '.') h
    rw [key, key, List.cons.injEq] at h1
    have e := toString_inj h1.1
    subst e
    refine ⟨?_, rfl⟩
    have h2 := congrArg String.toList h
    simp only [String.toList_append, List.append_assoc, List.append_cancel_left_eq] at h2
    exact String.toList_injective h2
  · intro d n i c hc h
    have h : toString n ++ "." ++ d = c.id := h
    have hm : '.' ∈ c.id.toList := by rw [← h]; simp [String.toList_append]
    simp only [elWallet, List.mem_cons, List.not_mem_nil, or_false] at hc
    rcases hc with rfl | rfl <;> exact absurd hm (by decide)

/-- Non-vacuity: the limited credentials are accepted. -/
example : ∃ made os r, createVP elHolder "ldp_vp" elDef elWallet = .ok (made, os) ∧
    matchSubmission elVerifier (elDef.descs.map FDesc.toI) ⟨false, none⟩ [elSend made os] = .ok r ∧
    LimitedAnswers elHolder elDef elWallet elRead r := by
  obtain ⟨⟨made, os⟩, h1, h2⟩ := Option.map_eq_some_iff.mp el_created
  have h1 := get?_ok h1
  simp only [Prod.mk.injEq] at h2
  have hids : os.map MapOut.id = ["deg", "deg"] := by
    have := congrArg (List.map Prod.fst) h2.2
    rw [List.map_map] at this
    exact this
  obtain ⟨g1, g2⟩ := createVP_limited_then_match_partial el_libs el_fresh (pd := elDef) (by decide)
    (by
      intro d hd k hk f hf fl hfl
      simp only [elDef, List.mem_singleton] at hd
      subst hd
      cases hk
      simp only [elConstraints, List.mem_singleton] at hf
      subst hf
      cases hfl
      simp)
    (by
      intro d hd d' hd' _ _ _ _ _ _ _
      simp only [elDef, List.mem_singleton] at hd hd'
      rw [hd, hd'])
    el_good h1 (jwt := false)
    (by
      intro o ho e
      have : (o.id, o.format) ∈ os.map (fun o => (o.id, o.format)) := List.mem_map.mpr ⟨o, ho, rfl⟩
      rw [h2.2] at this
      simp [e] at this)
    (elSend_sent made os) (subID := "urn:uuid:s") (defID := "pd") rfl
  obtain ⟨r, hr⟩ := g1.mpr (by
    intro d hd
    simp only [elDef, List.mem_singleton] at hd
    subst hd
    have : "deg" ∈ os.map MapOut.id := by rw [hids]; simp
    obtain ⟨o, h3, h4⟩ := List.mem_map.mp this
    exact ⟨o, h3, h4⟩)
  exact ⟨made, os, r, h1, hr, (g2 r hr).1⟩

end VC.PE
