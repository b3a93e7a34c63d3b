import Verif.Presexch.ReportProps
/-!
# presexch: `MatchSubmissionRequirement`, examples and a witness (C103, C104)
-/

namespace VC.PE

/-- One of group A, inside a requirement that wants all of its parts. -/
def etSubs : List NSub := [.mk "top" "why" "all" 0 0 0 "" [.mk "one" "" "pick" 1 0 0 "A" []]]

/-- The definition with these requirements. -/
def etSubDef : Definition := { etDef with reqs := toSubs etSubs }

/-- Reading a report: the requirement's name, rule and count, its descriptors with the IDs of their
credentials, and the same for the nested ones. -/
def etRow : MReq → String × String × Int × List (String × List String)
  | .mk name _ rule count _ _ ms _ => (name, rule, count, ms.map (fun m => (m.id, m.vcs.map Cred.id)))

/-- The nested ones. -/
def etNested : MReq → List MReq
  | .mk _ _ _ _ _ _ _ rs => rs

/-- The value of a successful call. -/
def FilterOut.get? {β : Type} : FilterOut β → Option β
  | .ok v => some v
  | _ => none

theorem fget?_ok {β : Type} {o : FilterOut β} {v : β} (h : o.get? = some v) : o = .ok v := by
  cases o <;> simp [FilterOut.get?] at h
  rw [h]

/-- What is reported. -/
theorem et_report (apply : Bool) :
    ((matchSubmissionRequirement etHolder apply etSubDef etSubs etWallet).get?.map fun rs =>
      (rs.map etRow, rs.map (fun r => (etNested r).map etRow))) =
    some ([("top", "all", 1, [])], [[("one", "pick", 1, [("deg", ["c1", "c3"]), ("lic", ["c2"])])]]) := by
  cases apply <;> rfl

/-- Non-vacuity of C103 and C104. -/
example (apply : Bool) : ∃ rs, matchSubmissionRequirement etHolder apply etSubDef etSubs etWallet = .ok rs ∧
    ReportOf etSubDef.descs (DescReported etHolder apply etSubDef etWallet) etSubs rs ∧
    Satisfiable etSubs etSubDef.descs rs := by
  obtain ⟨rs, h1, _⟩ := Option.map_eq_some_iff.mp (et_report apply)
  have h1 := fget?_ok h1
  refine ⟨rs, h1, report_exact (fun d hd => (et_typed _ d hd).1) h1, ?_⟩
  have hc := (createVP_as_reported_partial (fun _ => .refl _) (fun _ => .refl _) (pd := etSubDef) rfl (by decide)
    (.inr fun d hd => (et_typed _ d hd).2.1) h1 "ldp_vp").1
  by_contra hn
  have h2 := hc.mpr hn
  have : (createVP etHolder "ldp_vp" etSubDef etWallet).get?.isSome = true := by decide +kernel
  rw [h2] at this
  cases this

/-- The degree is to be shown with limited disclosure, which the wallet's credentials do not
support. -/
def etLimDef : Definition := ⟨none, [], [{ etDesc "deg" "urn:Degree" [] with
  constraints := some ⟨true, false, [etField false]⟩ }]⟩

/-- **C104 violated** without selective disclosure: credentials are reported for the only descriptor, and
`CreateVP` says that there are none. -/
theorem report_overstates : ∃ rs, matchSubmissionRequirement etHolder false etLimDef [] etWallet = .ok rs ∧
    Satisfiable [] etLimDef.descs rs ∧ createVP etHolder "ldp_vp" etLimDef etWallet = .noCredentials := by
  have h : ((matchSubmissionRequirement etHolder false etLimDef [] etWallet).get?.map fun rs => rs.map etRow) =
      some [("", "all", 1, [("deg", ["c1", "c3"])])] := by rfl
  obtain ⟨rs, h1, h2⟩ := Option.map_eq_some_iff.mp h
  refine ⟨rs, fget?_ok h1, ⟨["deg"], by simp, ?_, ?_⟩, ?_⟩
  · intro id hid
    simp only [List.mem_singleton] at hid
    subst hid
    cases rs with
    | nil => cases h2
    | cons r rs =>
      obtain ⟨name, purpose, rule, count, mi, ma, ms, ns⟩ := r
      simp only [List.map_cons, List.cons.injEq, etRow, Prod.mk.injEq] at h2
      obtain ⟨⟨_, _, _, h2⟩, _⟩ := h2
      cases ms with
      | nil => cases h2
      | cons m ms =>
        simp only [List.map_cons, List.cons.injEq, Prod.mk.injEq] at h2
        refine ⟨_, List.mem_cons_self, m, .here List.mem_cons_self, h2.1.1, ?_⟩
        intro e
        rw [e] at h2
        simp at h2
  · refine ⟨fun _ d hd => ?_, by simp [toSubs]⟩
    simp only [etLimDef, List.map_cons, List.map_nil, List.mem_singleton] at hd
    subst hd
    simp [FDesc.toDesc, etDesc]
  · rfl

end VC.PE
