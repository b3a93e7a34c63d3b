import Verif.SDJWT.HidingV5
import Verif.Base.Codec
/-!
# C137: non-vacuity, and what an SD-JWT does tell
-/

namespace VC.SDJWT

open Spec

/-- Salt number `i`: an `s` and `i` letters. -/
def hiSalt (i : Nat) : String := String.ofList ('s' :: List.replicate i 'a')

/-- An issuer with structured claims and decoys; `address.country` is signed in clear. -/
noncomputable def hiEnv : IEnv where
  env := { decode := Codec.dec, hash := fun alg t => alg ++ ":" ++ t, upper := id }
  alg := "SHA-256"
  lower := id
  encode := Codec.enc
  salt := hiSalt
  shuffle := fun _ l => l.reverse
  intn := fun _ => 1
  addDecoys := true
  structured := true
  nonSD := fun p => p == "address.country"
  always := fun _ => false
  recursive := fun _ => false

theorem hiGood : GoodSalts hiEnv where
  fresh := by
    intro i j h
    have h' : hiSalt i = hiSalt j := h
    have := congrArg (fun s => s.toList.length) h'
    simpa [hiSalt] using this
  readable := Codec.dec_enc
  plain := by
    intro i
    exact Codec.dec_none ⟨'s', by simp [hiEnv, hiSalt], by decide⟩

def hiOne : JObj := [("name", .str "Ann"), ("ssn", .str "123"),
  ("address", .obj [("street", .str "Main"), ("country", .str "X")])]
def hiTwo : JObj := [("name", .str "Ann"), ("blind", .bool true),
  ("address", .obj [("zip", .num 5), ("country", .str "X")])]

/-- The two secret salts: those of the second member and of the first member of the address. -/
def hiSecret (i : Nat) : Prop := i = 3 ∨ i = 6

theorem hiAlike : Alike hiEnv hiSecret "" (decoyCount hiEnv 0) hiOne hiTwo 7 := by
  refine .same (fun _ h => (nomatch h)) (by decide +kernel) ?_
  refine .other (Or.inl rfl) (fun _ h => (nomatch h)) (fun _ h => (nomatch h)) (by decide +kernel)
    (by decide +kernel) ?_
  refine .inside rfl ?_ (.nil _ 7)
  refine .other (Or.inr rfl) (fun _ h => (nomatch h)) (fun _ h => (nomatch h)) (by decide +kernel)
    (by decide +kernel) ?_
  exact .clear (fun _ h => (nomatch h)) (by decide +kernel) (.nil _ 7)

theorem hiNoSd1 : keyExists "_sd" hiOne = false := by decide +kernel
theorem hiNoSd2 : keyExists "_sd" hiTwo = false := by decide +kernel

def hiOpts : BaseOpts := ⟨"issuer", "", "", "", "", none, none, none, none⟩

/-- The hypotheses of `hides_v2` are met: the second credential has other claims, with other names. -/
example : ∃ h es2, SameHash hiEnv hiSecret h ∧
    newV2 (hiEnv.withHash h) hiOpts hiTwo = .ok (es2, mkPayload hiEnv hiOpts (v2Build hiEnv hiOne).2.1) ∧
    List.Forall₂ (Match hiEnv hiSecret) (v2Build hiEnv hiOne).1 es2 := by
  refine hides_v2 hiGood hiAlike hiNoSd2 ?_
  unfold newV2
  rw [hiNoSd1, if_neg Bool.false_ne_true]

theorem hiName : v2Disclosure hiEnv 2 "name" (.str "Ann") ∈ (v2Build hiEnv hiOne).1 := by
  simp [v2Build, v2Finish, hiOne, v2Loop, v2Member, v2Leaf, Acc.join, createDecoys, hiEnv, curPath]

theorem hiNoTilde (a : List Json) : NoChar '~' (Codec.enc a) := by
  intro h
  exact absurd (Codec.enc_chars a _ h) (by decide)

/-- The signature: any text that depends on the whole payload. -/
noncomputable def hiSign (p : JObj) : String := Codec.enc [.obj p]

/-- The hypotheses of `presentation_hides_v2` are met when the name is disclosed. -/
example : ∃ text h es2, createPresentation (Issuance.serialize
      ⟨hiSign (mkPayload hiEnv hiOpts (v2Build hiEnv hiOne).2.1), (v2Build hiEnv hiOne).1.map Ent.result⟩)
      [(v2Disclosure hiEnv 2 "name" (.str "Ann")).result] none = .ok text ∧ SameHash hiEnv hiSecret h ∧
    newV2 (hiEnv.withHash h) hiOpts hiTwo = .ok (es2, mkPayload hiEnv hiOpts (v2Build hiEnv hiOne).2.1) ∧
    createPresentation (Issuance.serialize
      ⟨hiSign (mkPayload hiEnv hiOpts (v2Build hiEnv hiOne).2.1), es2.map Ent.result⟩)
      [(v2Disclosure hiEnv 2 "name" (.str "Ann")).result] none = .ok text := by
  have h1 : newV2 hiEnv hiOpts hiOne =
      .ok ((v2Build hiEnv hiOne).1, mkPayload hiEnv hiOpts (v2Build hiEnv hiOne).2.1) := by
    unfold newV2
    rw [hiNoSd1, if_neg Bool.false_ne_true]
  have r1 : parseIssuance (Issuance.serialize
      ⟨hiSign (mkPayload hiEnv hiOpts (v2Build hiEnv hiOne).2.1), (v2Build hiEnv hiOne).1.map Ent.result⟩) =
      ⟨hiSign (mkPayload hiEnv hiOpts (v2Build hiEnv hiOne).2.1), (v2Build hiEnv hiOne).1.map Ent.result⟩ := by
    refine issuance_round_trip _ (hiNoTilde _) ?_
    intro d hd
    obtain ⟨e, he, rfl⟩ := List.mem_map.mp hd
    obtain ⟨a, ha⟩ := newV2_drawn hiAlike h1 e he
    rw [ha]
    exact hiNoTilde a
  have hmem : (v2Disclosure hiEnv 2 "name" (.str "Ann")).result ∈ (v2Build hiEnv hiOne).1.map Ent.result :=
    List.mem_map.mpr ⟨_, hiName, rfl⟩
  have hp : ∃ text, createPresentation (Issuance.serialize
      ⟨hiSign (mkPayload hiEnv hiOpts (v2Build hiEnv hiOne).2.1), (v2Build hiEnv hiOne).1.map Ent.result⟩)
      [(v2Disclosure hiEnv 2 "name" (.str "Ann")).result] none = .ok text := by
    unfold createPresentation
    rw [r1]
    dsimp only
    rw [if_neg, if_neg]
    · exact ⟨_, rfl⟩
    · simp only [List.any_cons, List.any_nil, Bool.or_false, Bool.not_eq_true', Bool.not_eq_false,
        List.contains_iff_mem]
      exact hmem
    · intro h0
      rw [List.length_eq_zero_iff] at h0
      rw [h0] at hmem
      exact nomatch hmem
  obtain ⟨text, hp⟩ := hp
  obtain ⟨h, es2, a, b, c⟩ := presentation_hides_v2 hiGood hiAlike hiNoSd2 h1 hiSign (fun _ => hiNoTilde _)
    hiNoTilde (by
      intro d hd i hi hcar
      obtain rfl := List.mem_singleton.mp hd
      have := carries_inj hiGood ((v2Disclosure_drawn hiEnv 2 "name" (.str "Ann")).carries hiGood) hcar
      rcases hi with rfl | rfl <;> exact absurd this (by decide)) none hp
  exact ⟨text, h, es2, hp, a, b, c⟩

/-! ## V5 -/

/-- An issuer of flat SD-JWTs with decoys. -/
noncomputable def hiEnv5 : IEnv := { hiEnv with structured := false, nonSD := fun _ => false }

theorem hiGood5 : GoodSalts hiEnv5 := ⟨hiGood.fresh, hiGood.readable, hiGood.plain⟩

def hiOne5 : JObj := [("name", .str "Ann"), ("address", .obj [("street", .str "Main"), ("country", .str "X")]),
  ("langs", .arr [.str "en", .str "fr"])]
def hiTwo5 : JObj := [("name", .str "Ann"), ("jobs", .arr [.num 1, .null]),
  ("langs", .arr [.str "en", .str "de"])]

/-- The secret salts: those of the second member, and of the second language. -/
def hiSecret5 (i : Nat) : Prop := i = 3 ∨ i = 4 ∨ i = 5 ∨ i = 7

theorem hiAlike5 : Alike5 hiEnv5 hiSecret5 false "" (decoyCount hiEnv5 0) hiOne5 hiTwo5 9 := by
  refine .same (n1 := 3) (.plain trivial rfl (.nil _ _ 3)) ?_
  refine .other (n1 := 6) ?_ ⟨rfl, rfl, Or.inr rfl⟩ ⟨rfl, rfl, rfl⟩ ?_ ?_ ?_
  · intro i h1 h2
    have : i = 3 ∨ i = 4 ∨ i = 5 := by omega
    rcases this with h | h | h
    · exact Or.inl h
    · exact Or.inr (Or.inl h)
    · exact Or.inr (Or.inr (Or.inl h))
  · refine .object (n1 := 5) rfl ?_ (.nil _ _ 6)
    exact .clear (by simp) (Or.inr ⟨trivial, rfl⟩) (.clear (by simp) (Or.inr ⟨trivial, rfl⟩) (.nil _ _ 5))
  · exact .array rfl (.nil _ _ 6)
  · refine .array (n1 := 8) rfl ?_ (.nil _ _ 9)
    exact .hidden rfl (Or.inl rfl) (.hidden rfl (Or.inr (Or.inr (Or.inr (Or.inr rfl)))) (.nil _ 8))

theorem hiNoSd15 : keyExists "_sd" hiOne5 = false := by decide +kernel
theorem hiNoSd25 : keyExists "_sd" hiTwo5 = false := by decide +kernel

theorem hiRest5 : Takes hiEnv5 false "" 3 [("address", .obj [("street", .str "Main"), ("country", .str "X")]),
    ("langs", .arr [.str "en", .str "fr"])] 9 := by
  refine .object (n1 := 5) rfl ?_ (.array rfl (.nil _ _ 9))
  exact .clear (by simp) (Or.inr ⟨trivial, rfl⟩) (.clear (by simp) (Or.inr ⟨trivial, rfl⟩) (.nil _ _ 5))

/-- The first claims are issued. -/
theorem hiIssued5 : ∃ r, v5Build hiEnv5 hiOne5 = some r ∧
    newV5 hiEnv5 hiOpts hiOne5 = .ok (r.1, mkPayload hiEnv5 hiOpts r.2.1) ∧
    v5Disclosure hiEnv5 2 "name" (.str "Ann") ∈ r.1 := by
  obtain ⟨b, hb, _⟩ := takes_loop hiRest5
  have hm : v5Member hiEnv5 false (curPath "" "name") "name" 2 (.str "Ann") =
      some ⟨[], [v5Disclosure hiEnv5 2 "name" (.str "Ann")], [], 3⟩ := by
    have hn : ∀ p, (hiEnv5.nonSD p || false) = false := fun _ => rfl
    simp only [v5Member, v5Prim, hn, if_neg Bool.false_ne_true]
  have hl : v5Loop hiEnv5 false "" 2 hiOne5 =
      some (Acc.join ⟨[], [v5Disclosure hiEnv5 2 "name" (.str "Ann")], [], 3⟩ b) := by
    unfold hiOne5
    rw [v5Loop, hm]
    dsimp only
    rw [hb]
  have hd : (createDecoys hiEnv5 0).length = 2 := by rw [decoys_length]; rfl
  have hv : v5Build hiEnv5 hiOne5 = some (v5Finish hiEnv5 (createDecoys hiEnv5 0)
      (Acc.join ⟨[], [v5Disclosure hiEnv5 2 "name" (.str "Ann")], [], 3⟩ b)) := by
    unfold v5Build
    rw [hd, hl, Option.map_some]
  refine ⟨_, hv, ?_, ?_⟩
  · unfold newV5
    simp only [hiNoSd15, if_neg Bool.false_ne_true, hv]
  · simp only [v5Finish, Acc.join, List.mem_append, List.mem_cons, true_or, or_true]

/-- The hypotheses of `hides_v5` are met: a hidden object is not told from a hidden array. -/
example : ∃ es1 payload h es2, newV5 hiEnv5 hiOpts hiOne5 = .ok (es1, payload) ∧ SameHash hiEnv5 hiSecret5 h ∧
    newV5 (hiEnv5.withHash h) hiOpts hiTwo5 = .ok (es2, payload) := by
  obtain ⟨r, _, h1, _⟩ := hiIssued5
  obtain ⟨h, es2, a, b, _⟩ := hides_v5 hiGood5 hiAlike5 hiNoSd25 h1
  exact ⟨_, _, h, es2, h1, a, b⟩

/-- The hypotheses of `presentation_hides_v5` are met when the name is disclosed. -/
example : ∃ es1 payload text h es2, newV5 hiEnv5 hiOpts hiOne5 = .ok (es1, payload) ∧
    createPresentation (Issuance.serialize ⟨hiSign payload, es1.map Ent.result⟩)
      [(v5Disclosure hiEnv5 2 "name" (.str "Ann")).result] none = .ok text ∧ SameHash hiEnv5 hiSecret5 h ∧
    newV5 (hiEnv5.withHash h) hiOpts hiTwo5 = .ok (es2, payload) ∧
    createPresentation (Issuance.serialize ⟨hiSign payload, es2.map Ent.result⟩)
      [(v5Disclosure hiEnv5 2 "name" (.str "Ann")).result] none = .ok text := by
  obtain ⟨r, _, h1, hmem⟩ := hiIssued5
  have hsalt : ∀ i, NoChar '~' (hiEnv5.salt i) := by
    intro i hx
    have hx' : '~' ∈ (hiSalt i).toList := hx
    simp [hiSalt] at hx'
  have r1 : parseIssuance (Issuance.serialize ⟨hiSign (mkPayload hiEnv5 hiOpts r.2.1), r.1.map Ent.result⟩) =
      ⟨hiSign (mkPayload hiEnv5 hiOpts r.2.1), r.1.map Ent.result⟩ := by
    refine issuance_round_trip _ (hiNoTilde _) ?_
    intro d hd
    obtain ⟨e, he, rfl⟩ := List.mem_map.mp hd
    rcases newV5_drawn h1 e he with ⟨a, ha⟩ | ⟨i, hi⟩
    · rw [ha]; exact hiNoTilde a
    · rw [hi]; exact hsalt i
  have hmem' : (v5Disclosure hiEnv5 2 "name" (.str "Ann")).result ∈ r.1.map Ent.result :=
    List.mem_map.mpr ⟨_, hmem, rfl⟩
  have hp : ∃ text, createPresentation (Issuance.serialize
      ⟨hiSign (mkPayload hiEnv5 hiOpts r.2.1), r.1.map Ent.result⟩)
      [(v5Disclosure hiEnv5 2 "name" (.str "Ann")).result] none = .ok text := by
    unfold createPresentation
    rw [r1]
    dsimp only
    rw [if_neg, if_neg]
    · exact ⟨_, rfl⟩
    · simp only [List.any_cons, List.any_nil, Bool.or_false, Bool.not_eq_true', Bool.not_eq_false,
        List.contains_iff_mem]
      exact hmem'
    · intro h0
      rw [List.length_eq_zero_iff] at h0
      rw [h0] at hmem'
      exact nomatch hmem'
  obtain ⟨text, hp⟩ := hp
  obtain ⟨h, es2, a, b, c⟩ := presentation_hides_v5 hiGood5 hiAlike5 hiNoSd25 h1 hiSign (fun _ => hiNoTilde _)
    hiNoTilde hsalt (by
      intro d hd ht
      obtain rfl := List.mem_singleton.mp hd
      have hown := (v5Disclosure_drawn hiEnv5 2 "name" (.str "Ann")).carries hiGood5
      obtain ⟨i, hi, hc | hc⟩ := ht
      · have := carries_inj hiGood5 hown hc
        rcases hi with rfl | rfl | rfl | rfl <;> exact absurd this (by decide)
      · obtain ⟨rest, hr⟩ := hown
        rw [hc] at hr
        exact nomatch (hiGood5.plain i).symm.trans hr) none hp
  exact ⟨r.1, mkPayload hiEnv5 hiOpts r.2.1, text, h, es2, h1, hp, a, b, c⟩

end VC.SDJWT
