import Verif.Verifiable.ParseMain
import Mathlib.Data.List.Induction
/-!
# verifiable: what a JWT credential is parsed from

The JWS that is checked, the disclosures and the holder binding are the parts of the string handed to
`ParseCredential` (plain, quoted, or the `jwt` member of an object), and the disclosures are
included in the credential.
-/

namespace VC.Vfy.Spec

/-- The three ways a string is handed over. -/
inductive Carried (env : PEnv) (data s : String) : Prop
  | plain (h : data = s)
  | quoted (h : data = "\"" ++ s ++ "\"")
  | member (o : JObj) (ho : env.decodeObj data = some o) (h : GoMap.get? o "jwt" = some (.str s))

/-- A JWS alone, a combined format for issuance, or one for presentation. -/
def Parts (s jwt : String) (ds : List String) (hb : String) : Prop :=
  '~' ∉ jwt.toList ∧
  ((s = jwt ∧ ds = [] ∧ hb = "") ∨ (s = joinC '~' (jwt :: ds) ∧ ds ≠ [] ∧ hb = "") ∨
   s = joinC '~' (jwt :: ds ++ [hb]))

/-- The payload the disclosures are checked against: the credential, with the hash algorithm of its
subject if it has none itself. -/
def DisclosedFrom (json P : JObj) : Prop :=
  (P = json ∧ (GoMap.get? json "_sd_alg" = none → ∃ cs, GoMap.get? json "credentialSubject" = some (.obj cs) ∧
      GoMap.get? cs "_sd_alg" = none)) ∨
  (GoMap.get? json "_sd_alg" = none ∧ ∃ cs a, GoMap.get? json "credentialSubject" = some (.obj cs) ∧
    GoMap.get? cs "_sd_alg" = some a ∧ P = GoMap.set json "_sd_alg" a)

end VC.Vfy.Spec

namespace VC.Vfy

open GoMap
open VC.Vfy.Spec

variable (env : PEnv)

theorem unQuote_cases (s : String) : unQuote s = s ∨ s = "\"" ++ unQuote s ++ "\"" := by
  unfold unQuote
  split
  · rename_i l hl
    split
    · rename_i hg
      right
      have hne : l ≠ [] := by rintro rfl; simp at hg
      have hd : l = l.dropLast ++ ['"'] := by
        have h1 := List.dropLast_concat_getLast hne
        rw [List.getLast?_eq_some_getLast hne] at hg
        rw [Option.some.inj hg] at h1
        exact h1.symm
      apply String.toList_inj.1
      rw [hl]
      simp only [String.toList_append, String.toList_ofList]
      rw [show ("\"" : String).toList = ['"'] from rfl]
      simp only [List.cons_append, List.nil_append, List.cons.injEq, true_and]
      exact hd
    · exact Or.inl rfl
  · exact Or.inl rfl

theorem carried_unQuote (data : String) : Carried env data (unQuote data) := by
  rcases unQuote_cases data with h | h
  · exact .plain h.symm
  · exact .quoted h

theorem unwrap_carried (data : String) : Carried env data (unwrapStringVC env data) := by
  unfold unwrapStringVC
  split
  · exact carried_unQuote env data
  · rename_i o ho
    split
    · rename_i s hs
      split
      · exact .member o ho hs
      · exact carried_unQuote env data
    · exact carried_unQuote env data

theorem joinC_two (c : Char) (parts : List String) (h : 2 ≤ parts.length) :
    parts = parts.headD "" :: (parts.take (parts.length - 1)).drop 1 ++ [parts.getLastD ""] := by
  cases parts with
  | nil => simp at h
  | cons a l =>
    rcases List.eq_nil_or_concat l with rfl | ⟨l', b, rfl⟩
    · simp at h
    · have hl : (a :: (l' ++ [b])).getLastD "" = b := by
        rw [← List.cons_append, List.getLastD_concat]
      rw [List.concat_eq_append, hl]
      simp

theorem split_length (c : Char) (s : String) (h : c ∈ s.toList) : 2 ≤ (split c s).length := by
  have hj := joinC_split c s
  cases hs : split c s with
  | nil => exact absurd hs (split_ne_nil _ _)
  | cons a l =>
    cases l with
    | nil =>
      rw [hs] at hj
      have ha := split_noChar c s a (by rw [hs]; simp)
      have : a = s := hj
      subst this
      exact absurd h ha
    | cons b l => simp

theorem tryParseAsJWS_parts {s : String} {p : JwsParts} (h : tryParseAsJWS env s = some p) :
    Parts s p.jwt p.disclosures p.holderBinding := by
  unfold tryParseAsJWS at h
  split at h
  · have hp := Option.some.inj h
    rw [← hp]
    unfold jwsParts
    by_cases hm : SDJWT.sep ∈ s.toList
    · rw [if_pos hm]
      have hlen := split_length SDJWT.sep s hm
      have hno : ∀ q ∈ split SDJWT.sep s, '~' ∉ q.toList := split_noChar SDJWT.sep s
      have hj := joinC_split SDJWT.sep s
      have hhead : (split SDJWT.sep s).headD "" ∈ split SDJWT.sep s := by
        cases hs : split SDJWT.sep s with
        | nil => exact absurd hs (split_ne_nil _ _)
        | cons a l => simp
      unfold splitCombined
      split
      · refine ⟨hno _ hhead, Or.inr (Or.inr ?_)⟩
        have h2 := joinC_two SDJWT.sep _ hlen
        have hd : (SDJWT.parsePresentation s).disclosures =
            ((split SDJWT.sep s).take ((split SDJWT.sep s).length - 1)).drop 1 := by
          unfold SDJWT.parsePresentation
          dsimp only
          split
          · rfl
          · have : (split SDJWT.sep s).length = 2 := by omega
            symm
            apply List.eq_nil_of_length_eq_zero
            simp [this]
        have hb : (SDJWT.parsePresentation s).holderVerification = (split SDJWT.sep s).getLastD "" := by
          unfold SDJWT.parsePresentation
          dsimp only
          rw [if_pos (by omega)]
        dsimp only
        rw [hd, hb, show (SDJWT.parsePresentation s).sdJWT = (split SDJWT.sep s).headD "" from rfl,
          show ('~' : Char) = SDJWT.sep from rfl, ← h2, hj]
      · refine ⟨hno _ hhead, Or.inr (Or.inl ?_)⟩
        dsimp only
        have hi := SDJWT.issuance_serialize_parse s
        unfold SDJWT.Issuance.serialize at hi
        rw [SDJWT.appendDisclosures_eq] at hi
        refine ⟨hi.symm, ?_, rfl⟩
        unfold SDJWT.parseIssuance
        dsimp only
        rw [if_pos (by omega)]
        intro he
        have := congrArg List.length he
        simp at this
        omega
    · rw [if_neg hm]
      exact ⟨hm, Or.inl ⟨rfl, rfl, rfl⟩⟩
  · cases h

theorem disclosurePayload_iff {o P : JObj} (h : disclosurePayload o = some P) :
    DisclosedFrom o P := by
  unfold disclosurePayload at h
  split at h
  · rename_i v hv
    have := Option.some.inj h
    exact Or.inl ⟨this.symm, fun hn => by rw [hv] at hn; cases hn⟩
  · rename_i hn
    split at h
    · rename_i cs hcs
      split at h
      · rename_i a ha
        have := Option.some.inj h
        exact Or.inr ⟨hn, cs, a, hcs, ha, this.symm⟩
      · rename_i ha
        have := Option.some.inj h
        exact Or.inl ⟨this.symm, fun _ => ⟨cs, hcs, ha⟩⟩
    · cases h

/-- A credential parsed as a JWS: the JWS, the disclosures and the holder binding are the parts of
the string handed over, and the disclosures verify against the credential. -/
theorem parse_jwt_parts (o : ParseOpts env) (data : String) (vc : PCred env.T) (e : JwtEnvelope)
    (h : parseJSON env o data = .ok vc) (he : vc.jwt = some e) :
    ∃ s ds, Carried env data s ∧ Parts s e.jwt ds e.holderBinding ∧ isJWS env e.jwt = true ∧
      (ds = [] → e.disclosures = []) ∧
      (ds ≠ [] → ∃ P a, DisclosedFrom vc.json P ∧ SDJWT.verifyDisclosures env.sd ds P = .ok () ∧
        vc.contents.sdAlg = some a ∧
        SDJWT.resolveDisclosureClaims env.sd (hashName a) ds env.dOrder = .ok e.disclosures) := by
  unfold parseJSON at h
  split at h
  · rename_i p hp
    obtain ⟨r, h1, h2⟩ := Res.bind_ok.1 h
    obtain ⟨g1, g2, -, -, -, g4⟩ := finishJSON_shape env h2
    obtain ⟨dm, g3, g4⟩ := g4 _ rfl
    rw [g4] at he
    have he' := Option.some.inj he
    rw [← he']
    refine ⟨_, p.disclosures, unwrap_carried env data, tryParseAsJWS_parts env hp, ?_, ?_, ?_⟩
    · unfold tryParseAsJWS at hp
      split at hp
      · rename_i hj
        have := Option.some.inj hp
        rw [← this]; exact hj
      · cases hp
    · intro hd
      unfold parseDisclosures at g3
      rw [hd] at g3
      exact (Option.some.inj g3).symm
    · intro hd
      have hd' : p.disclosures.isEmpty = false := by
        cases hds : p.disclosures with
        | nil => exact absurd hds hd
        | cons a l => rfl
      unfold openJWS at h1
      obtain ⟨r', k1, k2⟩ := Res.bind_ok.1 h1
      split at k2
      · rename_i hv
        cases k2
        unfold validateDisclosures at hv
        rw [if_neg (by simp [hd'])] at hv
        unfold parseDisclosures at g3
        dsimp only at g3
        rw [if_neg (by simp [hd'])] at g3
        split at hv
        · cases hv
        · rename_i P hP
          split at g3
          · cases g3
          · rename_i a ha
            split at g3
            · rename_i m hm
              have := Option.some.inj g3
              subst this
              refine ⟨P, a, ?_, ?_, ha, hm⟩
              · rw [g1]; exact disclosurePayload_iff hP
              · split at hv
                · rename_i u hu; exact hu
                · cases hv
            · cases g3
      · cases k2
  · obtain ⟨r, h1, h2⟩ := Res.bind_ok.1 h
    obtain ⟨-, -, -, -, g4, -⟩ := finishJSON_shape env h2
    rw [g4 rfl] at he; cases he

/-- A credential parsed as a COSE message: the message is the input itself or what its (possibly
quoted) hexadecimal form stands for. -/
theorem parse_cwt_parts (o : ParseOpts env) (data : String) (vc : PCred env.T)
    (h : parseCBOR env o data = .ok vc) :
    ∃ e, vc.cwt = some e ∧ vc.jwt = none ∧ env.parseCOSE e.raw = some e.message ∧
      (e.raw = data ∨ env.hexDecode data = some e.raw ∨
        ∃ s, data = "\"" ++ s ++ "\"" ∧ env.hexDecode s = some e.raw) := by
  unfold parseCBOR at h
  obtain ⟨e, h1, h⟩ := Res.bind_ok.1 h
  obtain ⟨k1, k2⟩ := openCOSE_ok env h1
  split at h
  · cases h
  · split at h
    · cases h
    · obtain ⟨-, -, h⟩ := Res.bind_ok.1 h
      cases h
      refine ⟨e, rfl, rfl, k1, ?_⟩
      rcases k2 with k2 | k2
      · exact Or.inl k2
      · rcases unQuote_cases data with hq | hq
        · rw [hq] at k2; exact Or.inr (Or.inl k2)
        · exact Or.inr (Or.inr ⟨_, hq, k2⟩)

end VC.Vfy
