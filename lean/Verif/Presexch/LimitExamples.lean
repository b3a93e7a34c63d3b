import Verif.Presexch.LimitShow
/-!
# presexch: limited disclosure, examples and failures (C96, C97)
-/

namespace VC.PE

open GoMap

theorem shows_str {o : Option Json} {q : List Step} {s : String}
    (h : (o.bind (fun L => gat L q)).bind Json.asStr? = some s) :
    ∃ L, o = some L ∧ gat L q = some (.str s) := by
  obtain ⟨x, hx, hs⟩ := Option.bind_eq_some_iff.mp h
  obtain ⟨L, hL, hx⟩ := Option.bind_eq_some_iff.mp hx
  refine ⟨L, hL, ?_⟩
  cases x <;> simp [Json.asStr?] at hs
  subst hs
  exact hx

def asBool : Json → Option Bool
  | .bool b => some b
  | _ => none

theorem shows_bool {o : Option Json} {q : List Step} {b : Bool}
    (h : (o.bind (fun L => gat L q)).bind asBool = some b) :
    ∃ L, o = some L ∧ gat L q = some (.bool b) := by
  obtain ⟨x, hx, hs⟩ := Option.bind_eq_some_iff.mp h
  obtain ⟨L, hL, hx⟩ := Option.bind_eq_some_iff.mp hx
  refine ⟨L, hL, ?_⟩
  cases x <;> simp [asBool] at hs
  subst hs
  exact hx

/-- A field that selects by one path. -/
def liField (path : String) : Field := ⟨[path], none, false, false⟩

/-- A field with a required predicate. -/
def liPred (path : String) : Field := ⟨[path], none, false, true⟩

/-- A JSON path library that knows a few paths. -/
def liEval (table : List (String × List (List Step))) (keys : List String) (_ : Json) :
    Option (List (List Step)) :=
  some (keys.flatMap (fun k => (get? table k).getD []))

def liCred (subject : Json) : JObj :=
  [("@context", .arr [.str "c"]), ("id", .str "urn:1"),
   ("type", .arr [.str "VerifiableCredential", .str "Degree"]), ("issuer", .str "did:issuer"),
   ("issuanceDate", .str "2020"), ("credentialSubject", subject), ("secret", .str "s3")]

def liAnn : Json := .obj [("id", .str "did:ann"), ("name", .str "Ann"), ("ssn", .str "123"),
  ("degrees", .arr [.obj [("title", .str "BSc"), ("grade", .str "A")],
    .obj [("title", .str "MSc"), ("grade", .str "B")]])]

/-! ## A case that works -/

def liTable : List (String × List (List Step)) :=
  [("$.credentialSubject.name", [[.name "credentialSubject", .name "name"]]),
   ("$.credentialSubject.degrees[1]['title','grade']",
    [[.name "credentialSubject", .name "degrees", .idx 1, .name "title"],
     [.name "credentialSubject", .name "degrees", .idx 1, .name "grade"]]),
   ("$.secret", [[.name "secret"]])]

def liK : Constraints := ⟨true, false, [liField "$.credentialSubject.name",
  liField "$.credentialSubject.degrees[1]['title','grade']", liPred "$.secret"]⟩

def liSubjects : List Vfy.Subject := [⟨"did:ann", [("name", .str "Ann")]⟩]

instance : DecidablePred Step.Plain := fun s =>
  match s with
  | .name k => inferInstanceAs (Decidable (k ≠ "" ∧ '.' ∉ k.toList ∧ ¬ (∀ c ∈ k.toList, '0' ≤ c ∧ c ≤ '9')))
  | .idx _ => inferInstanceAs (Decidable True)

/-- `Q` holds of every beginning of the place that ends before an array position. -/
def allIdx (Q : List Step → Bool) (pre : List Step) : List Step → Bool
  | [] => true
  | .idx a :: s => Q pre && allIdx Q (pre ++ [.idx a]) s
  | .name k :: s => allIdx Q (pre ++ [.name k]) s

theorem allIdx_sound {Q : List Step → Bool} : ∀ (p pre : List Step), allIdx Q pre p = true →
    ∀ c a s, p = c ++ Step.idx a :: s → Q (pre ++ c) = true
  | [], _, _, c, a, s, e => by simp at e
  | .idx b :: p, pre, h, c, a, s, e => by
    simp only [allIdx, Bool.and_eq_true] at h
    cases c with
    | nil => simpa using h.1
    | cons x c =>
      simp only [List.cons_append, List.cons.injEq] at e
      obtain ⟨rfl, e⟩ := e
      simpa using allIdx_sound p _ h.2 c a s e
  | .name k :: p, pre, h, c, a, s, e => by
    simp only [allIdx] at h
    cases c with
    | nil => simp at e
    | cons x c =>
      simp only [List.cons_append, List.cons.injEq] at e
      obtain ⟨rfl, e⟩ := e
      simpa using allIdx_sound p _ h c a s e

/-- The next step is no array position. -/
def notIdx : Option Step → Bool
  | some (.idx _) => false
  | _ => true

theorem noNest_of {p : List Step} (h : allIdx (fun c => notIdx c.getLast?) [] p = true) : NoNest p := by
  intro s a b t e
  have := allIdx_sound p [] h (s ++ [.idx a]) b t (by rw [e]; simp)
  simp [notIdx] at this

theorem apart_of {p q : List Step}
    (h : allIdx (fun c => !(c.isPrefixOf q) && !(q.isPrefixOf c)) [] p = true) : ArraysApart p q := by
  intro c a s e
  have := allIdx_sound p [] h c a s e
  simp only [List.nil_append, Bool.and_eq_true, Bool.not_eq_true', ← Bool.not_eq_true,
    List.isPrefixOf_iff_prefix] at this
  exact this

theorem absent_of {p : List Step} {T : Json} (h : allIdx (fun c => (gat T c).isNone) [] p = true) :
    ∀ c a s, p = c ++ Step.idx a :: s → gat T c = none := by
  intro c a s e
  have := allIdx_sound p [] h c a s e
  simpa using this

theorem noSchema_of {p : List Step}
    (h : p.all (fun s => !(containsL "credentialSchema".toList s.text.toList)) = true) : NoSchema p := by
  intro k hk hi
  have := List.all_eq_true.mp h _ hk
  have h2 : containsL "credentialSchema".toList (Step.name k).text.toList = true :=
    (containsL_iff _ _).mpr hi
  rw [h2] at this
  simp at this

theorem antichain_of {ps : List (List Step)}
    (h : ps.all (fun p => ps.all (fun q => !(p.isPrefixOf q) || p == q)) = true) {p r : List Step}
    (hp : p ∈ ps) (hr : p ++ r ∈ ps) : r = [] := by
  have := List.all_eq_true.mp (List.all_eq_true.mp h p hp) _ hr
  simp only [Bool.or_eq_true, Bool.not_eq_true', ← Bool.not_eq_true, List.isPrefixOf_iff_prefix,
    beq_iff_eq] at this
  rcases this with h | h
  · exact absurd (List.prefix_append p r) h
  · simpa using h

theorem li_simple : Simple (liEval liTable) (liCred liAnn)
    (.obj (template true (liCred liAnn) liSubjects)) liK.fields := by
  have e1 : liEval liTable ["$.credentialSubject.name"] (.obj (liCred liAnn)) =
      some [[.name "credentialSubject", .name "name"]] := by decide +kernel
  have e2 : liEval liTable ["$.credentialSubject.degrees[1]['title','grade']"] (.obj (liCred liAnn)) =
      some [[.name "credentialSubject", .name "degrees", .idx 1, .name "title"],
        [.name "credentialSubject", .name "degrees", .idx 1, .name "grade"]] := by decide +kernel
  have e3 : liEval liTable ["$.secret"] (.obj (liCred liAnn)) = some [[.name "secret"]] := by
    decide +kernel
  have all : ∀ f ∈ liK.fields, f = liField "$.credentialSubject.name" ∨
      f = liField "$.credentialSubject.degrees[1]['title','grade']" ∨ f = liPred "$.secret" := by
    intro f hf
    simpa [liK] using hf
  have hT : ∀ r, gat (.obj (template true (liCred liAnn) liSubjects)) (.name "credentialSubject" :: r) =
      gat (.obj [("id", .str "did:ann")]) r := fun r => rfl
  have fit : ∀ r, Fits (.obj [("id", .str "did:ann")]) r →
      Fits (.obj (template true (liCred liAnn) liSubjects)) (.name "credentialSubject" :: r) := by
    intro r h x hx
    have : some (Json.obj [("id", .str "did:ann")]) = some x := hx
    cases this
    exact h
  have none1 : ∀ k r, k ≠ "id" → Fits (.obj [("id", .str "did:ann")]) (.name k :: r) := by
    intro k r hk x hx
    simp [get?_cons, Ne.symm hk] at hx
  refine ⟨?_, ?_, ?_, ?_⟩
  · intro f hf
    rcases all f hf with rfl | rfl | rfl <;> rfl
  · intro f hf ps hps
    rcases all f hf with rfl | rfl | rfl
    · have := Option.some.inj (e1.symm.trans hps)
      subst this
      intro p hp
      have : p = [.name "credentialSubject", .name "name"] := by simpa using hp
      subst this
      exact ⟨by decide, by decide +kernel, by decide +kernel, noNest_of (by decide +kernel),
        noSchema_of (by decide +kernel), fit _ (none1 _ _ (by decide)), absent_of (by decide +kernel)⟩
    · have := Option.some.inj (e2.symm.trans hps)
      subst this
      intro p hp
      have : p = [.name "credentialSubject", .name "degrees", .idx 1, .name "title"] ∨
          p = [.name "credentialSubject", .name "degrees", .idx 1, .name "grade"] := by simpa using hp
      rcases this with rfl | rfl <;>
        exact ⟨by decide, by decide +kernel, by decide +kernel, noNest_of (by decide +kernel),
          noSchema_of (by decide +kernel), fit _ (none1 _ _ (by decide)), absent_of (by decide +kernel)⟩
    · have := Option.some.inj (e3.symm.trans hps)
      subst this
      intro p hp
      have : p = [.name "secret"] := by simpa using hp
      subst this
      refine ⟨by decide, by decide +kernel, by decide +kernel, noNest_of (by decide +kernel),
        noSchema_of (by decide +kernel), ?_, absent_of (by decide +kernel)⟩
      intro x _
      exact fits_nil x
  · intro f hf ps hps p r hp hr
    have hnil : r = [] := by
      rcases all f hf with rfl | rfl | rfl
      · have := Option.some.inj (e1.symm.trans hps)
        subst this
        exact antichain_of (by decide +kernel) hp hr
      · have := Option.some.inj (e2.symm.trans hps)
        subst this
        exact antichain_of (by decide +kernel) hp hr
      · have := Option.some.inj (e3.symm.trans hps)
        subst this
        exact antichain_of (by decide +kernel) hp hr
    subst hnil
    exact ⟨fun s hs => absurd hs (by simp), fun _ => rfl⟩
  · have one : ∀ (f g : Field) (ps0 qs0 : List (List Step)),
        liEval liTable f.path (.obj (liCred liAnn)) = some ps0 →
        liEval liTable g.path (.obj (liCred liAnn)) = some qs0 →
        (ps0.all (fun p => qs0.all (fun q =>
          allIdx (fun c => !(c.isPrefixOf q) && !(q.isPrefixOf c)) [] p &&
          (allIdx (fun c => !(c.isPrefixOf p) && !(p.isPrefixOf c)) [] q &&
          (!(p.isPrefixOf q) && !(q.isPrefixOf p)))))) = true →
        ∀ ps qs, liEval liTable f.path (.obj (liCred liAnn)) = some ps →
          liEval liTable g.path (.obj (liCred liAnn)) = some qs → ∀ p ∈ ps, ∀ q ∈ qs,
          ArraysApart p q ∧ ArraysApart q p ∧
          (f.predicateReq = true ∨ g.predicateReq = true → ¬ p <+: q ∧ ¬ q <+: p) := by
      intro f g ps0 qs0 h1 h2 hb ps qs h3 h4 p hp q hq
      have := Option.some.inj (h1.symm.trans h3)
      subst this
      have := Option.some.inj (h2.symm.trans h4)
      subst this
      have h5 := List.all_eq_true.mp (List.all_eq_true.mp hb p hp) q hq
      simp only [Bool.and_eq_true] at h5
      refine ⟨apart_of h5.1, apart_of h5.2.1, fun _ => ?_⟩
      have h6 := h5.2.2
      simp only [Bool.not_eq_true', ← Bool.not_eq_true, List.isPrefixOf_iff_prefix] at h6
      exact h6
    refine .cons ?_ (.cons ?_ (.cons ?_ .nil))
    · intro g hg
      have : g = liField "$.credentialSubject.degrees[1]['title','grade']" ∨ g = liPred "$.secret" := by
        simpa using hg
      rcases this with rfl | rfl
      · exact one _ _ _ _ e1 e2 (by decide +kernel)
      · exact one _ _ _ _ e1 e3 (by decide +kernel)
    · intro g hg
      have : g = liPred "$.secret" := by simpa using hg
      subst this
      exact one _ _ _ _ e2 e3 (by decide +kernel)
    · intro g hg
      simp at hg

/-- The hypotheses of `limited_shows_selected_partial` are met by a limited credential with a selected
member, two selected parts of the second element of an array, and a predicate; the document shows them
(the array element at position 0), and not the number `ssn`. -/
example : ∃ L, limitedDoc (liEval liTable) liK (liCred liAnn) liSubjects = some L ∧
    gat L [.name "credentialSubject", .name "name"] = some (.str "Ann") ∧
    gat L [.name "credentialSubject", .name "degrees", .idx 0, .name "title"] = some (.str "MSc") ∧
    gat L [.name "credentialSubject", .name "degrees", .idx 0, .name "grade"] = some (.str "B") ∧
    gat L [.name "secret"] = some (.bool true) ∧
    gat L [.name "credentialSubject", .name "ssn"] = none := by
  obtain ⟨L, h, _⟩ := limited_shows_selected_partial li_simple
  have h' : limitedDoc (liEval liTable) liK (liCred liAnn) liSubjects = some L := h
  refine ⟨L, h', ?_, ?_, ?_, ?_, ?_⟩
  · obtain ⟨L', e, hg⟩ := shows_str (o := limitedDoc (liEval liTable) liK (liCred liAnn) liSubjects)
      (q := [.name "credentialSubject", .name "name"]) (s := "Ann") (by decide +kernel)
    rw [h'] at e; cases e; exact hg
  · obtain ⟨L', e, hg⟩ := shows_str (o := limitedDoc (liEval liTable) liK (liCred liAnn) liSubjects)
      (q := [.name "credentialSubject", .name "degrees", .idx 0, .name "title"]) (s := "MSc")
      (by decide +kernel)
    rw [h'] at e; cases e; exact hg
  · obtain ⟨L', e, hg⟩ := shows_str (o := limitedDoc (liEval liTable) liK (liCred liAnn) liSubjects)
      (q := [.name "credentialSubject", .name "degrees", .idx 0, .name "grade"]) (s := "B")
      (by decide +kernel)
    rw [h'] at e; cases e; exact hg
  · obtain ⟨L', e, hg⟩ := shows_bool (o := limitedDoc (liEval liTable) liK (liCred liAnn) liSubjects)
      (q := [.name "secret"]) (b := true) (by decide +kernel)
    rw [h'] at e; cases e; exact hg
  · have : ((limitedDoc (liEval liTable) liK (liCred liAnn) liSubjects).bind
        (fun L => gat L [.name "credentialSubject", .name "ssn"])).isNone = true := by decide +kernel
    rw [h'] at this
    simpa using this

/-- The hypotheses of the theorems that say where values come from are met too. -/
example : EvalSound (liEval liTable) (.obj (liCred liAnn)) := by
  intro keys ps h p hp
  have : ps = keys.flatMap (fun k => (get? liTable k).getD []) := (Option.some.inj h).symm
  rw [this] at hp
  obtain ⟨k, _, hk⟩ := List.mem_flatMap.mp hp
  have all : liTable.all (fun e => e.2.all (fun p => (gat (.obj (liCred liAnn)) p).isSome)) = true := by
    decide +kernel
  cases hg : get? liTable k with
  | none => rw [hg] at hk; simp at hk
  | some l =>
    rw [hg] at hk
    have h1 := List.all_eq_true.mp all _ (mem_of_get? hg)
    exact List.all_eq_true.mp h1 p hk

/-! ## What goes wrong outside these cases -/

/-- One selected place. -/
def liOne (p : List Step) : List String → Json → Option (List (List Step)) := liEval [("$", [p])]

def liLimit : Constraints := ⟨true, false, [liField "$"]⟩

def liTwoSubjects : Json := .arr [.obj [("id", .str "did:ann"), ("name", .str "Ann")],
  .obj [("id", .str "did:bob"), ("name", .str "Bob")]]

/-- **C97 fails for a claim of the second subject**: it is shown as a claim of the first.  Only Bob's
name was selected; the limited credential says that the subject `did:ann` is called Bob. -/
theorem claim_of_another_subject :
    ∃ L, limitedDoc (liOne [.name "credentialSubject", .idx 1, .name "name"]) liLimit
        (liCred liTwoSubjects) [⟨"did:ann", [("name", .str "Ann")]⟩, ⟨"did:bob", [("name", .str "Bob")]⟩] =
        some L ∧
      gat L [.name "credentialSubject", .idx 0, .name "id"] = some (.str "did:ann") ∧
      gat L [.name "credentialSubject", .idx 0, .name "name"] = some (.str "Bob") := by
  obtain ⟨L, h, h1⟩ := shows_str (o := limitedDoc (liOne [.name "credentialSubject", .idx 1, .name "name"])
    liLimit (liCred liTwoSubjects)
    [⟨"did:ann", [("name", .str "Ann")]⟩, ⟨"did:bob", [("name", .str "Bob")]⟩])
    (q := [.name "credentialSubject", .idx 0, .name "id"]) (s := "did:ann") (by decide +kernel)
  obtain ⟨L', h', h2⟩ := shows_str (o := limitedDoc (liOne [.name "credentialSubject", .idx 1, .name "name"])
    liLimit (liCred liTwoSubjects)
    [⟨"did:ann", [("name", .str "Ann")]⟩, ⟨"did:bob", [("name", .str "Bob")]⟩])
    (q := [.name "credentialSubject", .idx 0, .name "name"]) (s := "Bob") (by decide +kernel)
  rw [h] at h'
  cases h'
  exact ⟨L, h, h1, h2⟩

def liTwoTable : List (String × List (List Step)) :=
  [("$.a", [[.name "credentialSubject", .name "degrees", .idx 1, .name "title"]]),
   ("$.b", [[.name "credentialSubject", .name "degrees", .idx 0, .name "grade"]])]

/-- **C97 fails for two fields that go into one array**: the title of the second degree and the grade of
the first are shown as one degree, MSc with grade A, which the credential does not contain. -/
theorem elements_merged :
    ∃ L, limitedDoc (liEval liTwoTable) ⟨true, false, [liField "$.a", liField "$.b"]⟩ (liCred liAnn)
        liSubjects = some L ∧
      gat L [.name "credentialSubject", .name "degrees", .idx 0, .name "title"] = some (.str "MSc") ∧
      gat L [.name "credentialSubject", .name "degrees", .idx 0, .name "grade"] = some (.str "A") ∧
      ∀ n, ¬ (gat (.obj (liCred liAnn)) [.name "credentialSubject", .name "degrees", .idx n, .name "title"]
          = some (.str "MSc") ∧
        gat (.obj (liCred liAnn)) [.name "credentialSubject", .name "degrees", .idx n, .name "grade"]
          = some (.str "A")) := by
  obtain ⟨L, h, h1⟩ := shows_str
    (o := limitedDoc (liEval liTwoTable) ⟨true, false, [liField "$.a", liField "$.b"]⟩ (liCred liAnn) liSubjects)
    (q := [.name "credentialSubject", .name "degrees", .idx 0, .name "title"]) (s := "MSc")
    (by decide +kernel)
  obtain ⟨L', h', h2⟩ := shows_str
    (o := limitedDoc (liEval liTwoTable) ⟨true, false, [liField "$.a", liField "$.b"]⟩ (liCred liAnn) liSubjects)
    (q := [.name "credentialSubject", .name "degrees", .idx 0, .name "grade"]) (s := "A")
    (by decide +kernel)
  rw [h] at h'
  cases h'
  refine ⟨L, h, h1, h2, ?_⟩
  rintro n ⟨h3, h4⟩
  match n, h3, h4 with
  | 0, h3, _ =>
    have h3 : some (Json.str "BSc") = some (Json.str "MSc") := h3
    simp at h3
  | 1, _, h4 =>
    have h4 : some (Json.str "B") = some (Json.str "A") := h4
    simp at h4
  | n + 2, h3, _ => cases h3

def liDotted : Json := .obj [("id", .str "did:ann"), ("a.b", .str "public"),
  ("a", .obj [("b", .str "secret")])]

/-- **C96 fails for a name with a dot**: the member `a.b` was selected, what is shown is the member `b`
of the member `a`, which no field selected. -/
theorem dotted_name_discloses :
    ∃ L, limitedDoc (liOne [.name "credentialSubject", .name "a.b"]) liLimit (liCred liDotted) liSubjects =
        some L ∧
      gat L [.name "credentialSubject", .name "a", .name "b"] = some (.str "secret") ∧
      gat L [.name "credentialSubject", .name "a.b"] = none := by
  obtain ⟨L, h, h1⟩ := shows_str (o := limitedDoc (liOne [.name "credentialSubject", .name "a.b"]) liLimit
    (liCred liDotted) liSubjects) (q := [.name "credentialSubject", .name "a", .name "b"]) (s := "secret")
    (by decide +kernel)
  refine ⟨L, h, h1, ?_⟩
  have : ((limitedDoc (liOne [.name "credentialSubject", .name "a.b"]) liLimit
    (liCred liDotted) liSubjects).bind (fun L => gat L [.name "credentialSubject", .name "a.b"])).isNone =
      true := by decide +kernel
  rw [h] at this
  simpa using this

def liYears : Json := .obj [("id", .str "did:ann"), ("years", .obj [("1", .str "x")])]

/-- **C97 fails for a member whose name is a number**: the object that contains it becomes an array. -/
theorem numeric_name_becomes_array :
    ∃ L, limitedDoc (liOne [.name "credentialSubject", .name "years", .name "1"]) liLimit (liCred liYears)
        liSubjects = some L ∧
      gat L [.name "credentialSubject", .name "years", .idx 1] = some (.str "x") := by
  exact shows_str (by decide +kernel)

def liSingleton : Json := .arr [.obj [("id", .str "did:ann"), ("name", .str "Ann")]]

/-- **C97 fails for a credential whose subject is an array of one**: the template has an object there, and
the claim becomes a claim of its member `0`. -/
theorem singleton_subject :
    ∃ L, limitedDoc (liOne [.name "credentialSubject", .idx 0, .name "name"]) liLimit (liCred liSingleton)
        liSubjects = some L ∧
      gat L [.name "credentialSubject", .name "0", .name "name"] = some (.str "Ann") ∧
      gat L [.name "credentialSubject", .idx 0, .name "name"] = none := by
  obtain ⟨L, h, h1⟩ := shows_str (o := limitedDoc (liOne [.name "credentialSubject", .idx 0, .name "name"])
    liLimit (liCred liSingleton) liSubjects) (q := [.name "credentialSubject", .name "0", .name "name"])
    (s := "Ann") (by decide +kernel)
  refine ⟨L, h, h1, ?_⟩
  have : ((limitedDoc (liOne [.name "credentialSubject", .idx 0, .name "name"])
    liLimit (liCred liSingleton) liSubjects).bind
      (fun L => gat L [.name "credentialSubject", .idx 0, .name "name"])).isNone = true := by decide +kernel
  rw [h] at this
  simpa using this

/-- **C97 fails for an element of `type`**: selecting the second type replaces the first one, which is
`VerifiableCredential`. -/
theorem type_overwritten :
    ∃ L, limitedDoc (liOne [.name "type", .idx 1]) liLimit (liCred liAnn) liSubjects = some L ∧
      gat L [.name "type", .idx 0] = some (.str "Degree") ∧
      gat L [.name "type", .idx 1] = some (.str "Degree") := by
  obtain ⟨L, h, h1⟩ := shows_str (o := limitedDoc (liOne [.name "type", .idx 1]) liLimit (liCred liAnn)
    liSubjects) (q := [.name "type", .idx 0]) (s := "Degree") (by decide +kernel)
  obtain ⟨L', h', h2⟩ := shows_str (o := limitedDoc (liOne [.name "type", .idx 1]) liLimit (liCred liAnn)
    liSubjects) (q := [.name "type", .idx 1]) (s := "Degree") (by decide +kernel)
  rw [h] at h'
  cases h'
  exact ⟨L, h, h1, h2⟩

/-- **A predicate does not hide the value of a later array element**: with a required predicate on the
grade of the second degree and no limited disclosure, the grade of the first degree is replaced by
`true` and the second stays as it is. -/
theorem predicate_hides_another :
    ∃ L, limitedDoc (liOne [.name "credentialSubject", .name "degrees", .idx 1, .name "grade"])
        ⟨false, false, [liPred "$"]⟩ (liCred liAnn) liSubjects = some L ∧
      gat L [.name "credentialSubject", .name "degrees", .idx 0, .name "grade"] = some (.bool true) ∧
      gat L [.name "credentialSubject", .name "degrees", .idx 1, .name "grade"] = some (.str "B") := by
  obtain ⟨L, h, h1⟩ := shows_bool (o := limitedDoc
    (liOne [.name "credentialSubject", .name "degrees", .idx 1, .name "grade"])
    ⟨false, false, [liPred "$"]⟩ (liCred liAnn) liSubjects)
    (q := [.name "credentialSubject", .name "degrees", .idx 0, .name "grade"]) (b := true) (by decide +kernel)
  obtain ⟨L', h', h2⟩ := shows_str (o := limitedDoc
    (liOne [.name "credentialSubject", .name "degrees", .idx 1, .name "grade"])
    ⟨false, false, [liPred "$"]⟩ (liCred liAnn) liSubjects)
    (q := [.name "credentialSubject", .name "degrees", .idx 1, .name "grade"]) (s := "B") (by decide +kernel)
  rw [h] at h'
  cases h'
  exact ⟨L, h, h1, h2⟩

def liMatrix : Json := .obj [("id", .str "did:ann"), ("m", .arr [.arr [.str "a", .str "b"]])]

def liNested : List (String × List (List Step)) :=
  [("$", [[.name "credentialSubject", .name "m", .idx 0, .idx 0],
    [.name "credentialSubject", .name "m", .idx 0, .idx 1]])]

/-- **C97 fails for arrays in arrays**: both elements of the only row were selected, and the second is
shown in a second row. -/
theorem nested_arrays_torn :
    ∃ L, limitedDoc (liEval liNested) liLimit (liCred liMatrix) liSubjects = some L ∧
      gat L [.name "credentialSubject", .name "m", .idx 0, .idx 0] = some (.str "a") ∧
      gat L [.name "credentialSubject", .name "m", .idx 1, .idx 1] = some (.str "b") ∧
      gat L [.name "credentialSubject", .name "m", .idx 0, .idx 1] = none := by
  obtain ⟨L, h, h1⟩ := shows_str (o := limitedDoc (liEval liNested) liLimit (liCred liMatrix) liSubjects)
    (q := [.name "credentialSubject", .name "m", .idx 0, .idx 0]) (s := "a") (by decide +kernel)
  obtain ⟨L', h', h2⟩ := shows_str (o := limitedDoc (liEval liNested) liLimit (liCred liMatrix) liSubjects)
    (q := [.name "credentialSubject", .name "m", .idx 1, .idx 1]) (s := "b") (by decide +kernel)
  rw [h] at h'
  cases h'
  refine ⟨L, h, h1, h2, ?_⟩
  have : ((limitedDoc (liEval liNested) liLimit (liCred liMatrix) liSubjects).bind
    (fun L => gat L [.name "credentialSubject", .name "m", .idx 0, .idx 1])).isNone = true := by
      decide +kernel
  rw [h] at this
  simpa using this

end VC.PE
