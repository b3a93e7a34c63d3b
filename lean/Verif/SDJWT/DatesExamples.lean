import Verif.SDJWT.Dates
/-! # C141: concrete cases -/
namespace VC.SDJWT
open VC VC.Num Spec

/-- A decoding: one name in capitals is known, ten is the only text of an integer. -/
def dtC : Conv where
  fold a b := a == b || (a == "EXP" && b == "exp")
  text q := toString q.num
  wrap _ := -2 ^ 63
  parseInt s := if s = "10" then some 10 else none

/-- The issuer's claims of `exVLib`. -/
def dtClaims : JObj := [("iss", .str "did:ex:a"), ("_sd_alg", .str "SHA-256"),
  ("_sd", .arr [.str "hA"]), ("cnf", .obj [("jwk", .str "key")]), ("exp", .num 100)]

theorem dtClaims_dec : decClaims dtC dtClaims = .ok ⟨none, some 100, none⟩ := by
  have hf : toFloat (100 : Rat) = some 100 := by
    have := toFloat_self (isFloat_int (n := 100) (by norm_num))
    simpa using this
  have hi : toInt64 dtC 100 = 100 := by
    unfold toInt64
    rw [if_pos ⟨by norm_num, by norm_num⟩, if_pos (by norm_num)]
    exact_mod_cast Int.floor_intCast (100 : Int) (R := Rat)
  have he : decDate dtC (member dtC dtClaims "exp") = .ok (some 100) := by
    have : member dtC dtClaims "exp" = some (.num 100) := by rfl
    rw [this, decDate_num, hf]
    simp only [hi]
    rfl
  have hn : decDate dtC (member dtC dtClaims "nbf") = .ok none := by rfl
  have hia : decDate dtC (member dtC dtClaims "iat") = .ok none := by rfl
  have h1 : decText dtC (member dtC dtClaims "iss") = .ok "did:ex:a" := by rfl
  have h2 : decText dtC (member dtC dtClaims "sub") = .ok "" := by rfl
  have h3 : decText dtC (member dtC dtClaims "jti") = .ok "" := by rfl
  have h4 : decAud (member dtC dtClaims "aud") = true := by rfl
  unfold decClaims
  rw [he, hn, hia, h1, h2, h3, if_pos h4]
  rfl

/-- The presentation of `exVLib` is accepted with the decoding filled in: the hypotheses of `accepted_on_time` and
`accepted_nonce` are met, with a numeric `exp`, a holder JWT and a nonce. -/
theorem dtAccepted : ∃ out, verifierParse (exVLib.std dtC) (exOpts 0 "n") GoMap.keys "sd~A~hb" = .ok out := by
  have h0 : verifierParse exVLib (exOpts 0 "n") GoMap.keys "sd~A~hb" = .ok _ := rfl
  obtain ⟨tok, ha, hd⟩ := (verifier_parse_iff _ _ _ _ _).mp h0
  have hp : parsePresentation "sd~A~hb" = ⟨"sd", ["A"], "hb"⟩ := by rfl
  rw [hp] at ha hd
  refine ⟨_, (verifier_parse_iff _ _ _ _ _).mpr ⟨tok, ?_, by rw [hp]; exact hd⟩⟩
  rw [hp]
  obtain ⟨pl, h1⟩ := ha.proof
  have ht : tok = ⟨exHdr, dtClaims⟩ := by
    have h2 : JWT.parseAndCheckProof exVLib.jwt (exOpts 0 "n").pc true (exOpts 0 "n").detached "sd" =
      .ok (⟨exHdr, dtClaims⟩, [1]) := by rfl
    have h1' : JWT.parseAndCheckProof exVLib.jwt (exOpts 0 "n").pc true (exOpts 0 "n").detached "sd" = .ok (tok, pl) := h1
    rw [h2] at h1'
    cases h1'
    rfl
  subst ht
  refine ⟨⟨pl, h1⟩, ha.alg, ⟨⟨none, some 100, none⟩, ?_, ?_⟩, ha.nodup, ha.disclosures, ha.typ, ?_⟩
  · show (decClaims dtC dtClaims).some? = _
    rw [dtClaims_dec]; rfl
  · refine ⟨(fun x h => by cases h), fun x h => ?_, (fun x h => by cases h)⟩
    cases h
    decide
  · rcases ha.holder with ⟨h, -⟩ | ⟨h, ⟨k, j, m, alg, t, n, au, a1, a2, a3, a4, a5, a6, a7, -, -, a8, a9, a10⟩⟩
    · exact absurd h (by decide)
    · have e : exVLib.jwt.parseJWS none "hb" = some ⟨[("alg", .str "EdDSA")], [2], [6], [6] ++ Proof.exKey⟩ := by rfl
      have a2' : exVLib.jwt.parseJWS none "hb" = some j := a2
      rw [e] at a2'
      cases a2'
      have a4' : some [("nonce", Json.str "n"), ("aud", .str "v")] = some m := a4
      cases a4'
      have a8' : some ("n", "v") = some (n, au) := a8
      cases a8'
      refine .inr ⟨h, ⟨k, _, _, alg, ⟨none, none, none⟩, "n", "v", a1, a2, a3, a4, a5, a6, a7, by rfl,
        ⟨(fun x h => by cases h), (fun x h => by cases h), (fun x h => by cases h)⟩, by rfl, a9, a10⟩⟩

example : (∃ m, Issuer exVLib (exOpts 0 "n") "sd~A~hb" m ∧ OnTime dtC 0 0 m) ∧
    ∃ m, HolderClaims exVLib "sd~A~hb" m ∧ ∃ v, Named dtC m "nonce" v ∧ Reads dtC v "n" := by
  obtain ⟨out, h⟩ := dtAccepted
  have hv : (parsePresentation "sd~A~hb").holderVerification ≠ "" := by decide +kernel
  obtain ⟨m, a, b, -⟩ := accepted_nonce exVLib dtC _ _ _ out h hv
  exact ⟨(accepted_on_time exVLib dtC _ _ _ out h).1, m, a, b (by decide)⟩

/-- A fraction, a member in capitals, a date as a text, the year 1. -/
example : Date dtC [("EXP", .num 5)] "exp" 5 ∧ Date dtC [("exp", .str "10"), ("EXP", .num 5)] "exp" 10 ∧
    decClaims dtC [("iat", .num (-62135596800))] = .panic ∧ ¬ Readable dtC [("exp", .str "soon")] := by
  refine ⟨⟨.num 5, .inr ⟨by decide +kernel, [], "EXP", [], rfl, by decide +kernel, by simp⟩, ?_⟩,
    ⟨_, .inl rfl, .text (by decide) rfl⟩, ?_, ?_⟩
  · exact .number ((second_exact dtC (n := 5) (by norm_num)).mpr rfl) (by decide)
  · exact year_one_panics dtC _ "iat" (.inr (.inr rfl)) (-62135596800) (.inl rfl) (by
      have := (second_exact dtC (n := -62135596800) (s := -62135596800) (by norm_num)).mpr rfl
      simpa using this)
  · intro h
    rcases h.exp _ (.inl rfl) with h | ⟨n, h⟩
    · cases h
    · generalize hv : Json.str "soon" = v at h
      cases h with
      | text hs hp => cases hv; simp [dtC] at hp
      | empty hp => exact absurd (Json.str.inj hv) (by decide)
      | _ => cases hv

/-- Fractions are dropped, towards the epoch. -/
example : Second dtC (3 / 2) 1 ∧ Second dtC (-3 / 2) (-1) :=
  ⟨⟨3 / 2, toFloat_self ⟨3, -1, by norm_num, by norm_num, by norm_num, by norm_num⟩,
    .inl ⟨by norm_num, by norm_num, by norm_num, by norm_num⟩⟩,
   ⟨-3 / 2, toFloat_self ⟨-3, -1, by norm_num, by norm_num, by norm_num, by norm_num⟩,
    .inr (.inl ⟨by norm_num, by norm_num, by norm_num, by norm_num⟩)⟩⟩

end VC.SDJWT
