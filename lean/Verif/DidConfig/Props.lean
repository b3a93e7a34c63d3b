import Verif.DidConfig.Spec
import Verif.Verifiable.JWTRoundTrip
import Mathlib.Tactic.Push
import Mathlib.Data.List.Basic
/-!
# didconfig: what `VerifyDIDAndDomain` accepts
-/

namespace VC.DidCfg

open GoMap
open VC.Vfy
open VC.DidCfg.Spec

variable (env : DEnv)

theorem out_bind_ok {α β : Type _} {r : Out α} {f : α → Out β} {b : β} :
    r.bind f = .ok b ↔ ∃ a, r = .ok a ∧ f a = .ok b := by
  cases r <;> simp [Out.bind]

/-! ## The document -/

theorem containsStr_iff (v : String) (l : List String) : containsStr v l = true ↔ v ∈ l := by
  induction l with
  | nil => simp [containsStr]
  | cons x l ih =>
    unfold containsStr
    by_cases h : v = x
    · simp [h]
    · simp [h, ih]

theorem allowedOK_iff (a : List String) (o : JObj) :
    allowedOK a o = true ↔ ∀ k v, (k, v) ∈ o → k ∈ a := by
  induction o with
  | nil => simp [allowedOK]
  | cons p o ih =>
    obtain ⟨k, v⟩ := p
    unfold allowedOK
    by_cases h : containsStr k a = true
    · rw [if_pos h, ih]
      have := (containsStr_iff k a).1 h
      constructor
      · intro g k' v' hm
        rcases List.mem_cons.1 hm with e | hm
        · cases e; exact this
        · exact g k' v' hm
      · intro g k' v' hm; exact g k' v' (List.mem_cons_of_mem _ hm)
    · rw [if_neg h]
      refine ⟨fun e => (by cases e), fun g => ?_⟩
      exact absurd ((containsStr_iff k a).2 (g k v (List.mem_cons_self ..))) h

/-- The configuration document is decoded exactly as specified. -/
theorem decodeConfig_iff (text : String) (l : List Json) :
    decodeConfig env text = some l ↔ Config env text l := by
  unfold decodeConfig Config
  cases ho : env.decodeObj text with
  | none => simp
  | some o =>
    simp only [Option.some.injEq]
    constructor
    · intro h
      split at h
      · cases h
      rename_i h1
      split at h
      · cases h
      rename_i h2
      split at h
      · cases h
      rename_i h3
      simp only [Bool.not_eq_eq_eq_not, Bool.not_true, Bool.not_eq_false] at h1 h2 h3
      refine ⟨o, rfl, fun k v hm => ?_, ?_, ?_⟩
      · have := (allowedOK_iff _ o).1 h2 k v hm
        simpa using this
      · simp only [requiredOK] at h1
        cases hc : get? o "@context" with
        | none => rw [hc] at h1; simp at h1
        | some c =>
          unfold JObj.at at h3
          rw [hc] at h3
          cases c <;> simp [contextOK] at h3
          · exact Or.inl rfl
          · exact Or.inr ⟨_, rfl⟩
      · simp only [requiredOK] at h1
        cases hc : get? o "linked_dids" with
        | none => rw [hc] at h1; simp at h1
        | some c =>
          unfold JObj.at at h
          rw [hc] at h
          cases c <;> simp [linkedOf] at h
          · exact Or.inr ⟨rfl, h⟩
          · rw [h]; exact Or.inl rfl
    · rintro ⟨o', rfl, h1, h2, h3⟩
      have a1 : requiredOK o ["@context", "linked_dids"] = true := by
        simp only [requiredOK]
        rcases h2 with h2 | ⟨s, h2⟩ <;> rcases h3 with h3 | ⟨h3, -⟩ <;> rw [h2, h3] <;> rfl
      have a2 : allowedOK ["@context", "linked_dids"] o = true :=
        (allowedOK_iff _ o).2 (fun k v hm => by simpa using h1 k v hm)
      have a3 : contextOK (JObj.at o "@context") = true := by
        unfold JObj.at
        rcases h2 with h2 | ⟨s, h2⟩ <;> rw [h2] <;> rfl
      rw [a1, a2, a3]
      simp only [Bool.not_true, Bool.false_eq_true, if_false]
      unfold JObj.at
      rcases h3 with h3 | ⟨h3, rfl⟩ <;> rw [h3] <;> rfl

/-! ## The rules -/

theorem originOK_iff (a b : String) : originOK env a b = true ↔ SameOrigin env a b := by
  unfold originOK SameOrigin
  cases ha : env.parseURL a with
  | none => simp
  | some u =>
    cases hb : env.parseURL b with
    | none => simp
    | some v =>
      obtain ⟨s, h, p⟩ := u
      obtain ⟨s', h', p'⟩ := v
      simp only [Option.some.injEq]
      constructor
      · intro g
        have g : ¬ ((h ≠ h' ∨ s ≠ s') ∨ p ≠ p') := by simpa using g
        push Not at g
        obtain ⟨⟨rfl, rfl⟩, rfl⟩ := g
        exact ⟨_, rfl, rfl⟩
      · rintro ⟨w, rfl, e⟩
        cases e
        simp

theorem subjectOK_iff (did origin : String) (l : List Subject) :
    subjectOK env did origin l = true ↔
      (env.isDID did = true ∧ did ≠ "") ∧ ∃ s o, l = [s] ∧ s.id = did ∧
        get? s.custom "origin" = some (.str o) ∧ SameOrigin env o origin := by
  match l with
  | [] => simp [subjectOK]
  | a :: b :: l => simp [subjectOK]
  | [s] =>
    simp only [subjectOK]
    constructor
    · intro h
      by_cases h1 : s.id = ""
      · rw [if_pos h1] at h; cases h
      rw [if_neg h1] at h
      cases h2 : env.isDID s.id with
      | false => rw [h2] at h; cases h
      | true =>
        rw [h2] at h
        simp only [Bool.not_true, Bool.false_eq_true, if_false] at h
        split at h
        · rename_i o ho
          by_cases h3 : s.id = did
          · rw [if_neg (fun hh => hh h3)] at h
            subst h3
            exact ⟨⟨h2, h1⟩, s, o, rfl, rfl, ho, (originOK_iff env o origin).1 h⟩
          · rw [if_pos h3] at h; cases h
        · cases h
    · rintro ⟨⟨h1, h2⟩, s', o, e, rfl, ho, hs⟩
      cases e
      rw [if_neg h2, h1, ho]
      simp only [Bool.not_true, Bool.false_eq_true, if_false, ne_eq, not_true_eq_false]
      exact (originOK_iff env o origin).2 hs

/-- The parts of `Linkage` that do not concern the issuer. -/
theorem linkageOK_iff (did origin : String) (c : Contents env.T) (i : Issuer)
    (hi : c.issuer = some i) (hd : i.id = did) :
    linkageOK env did origin c = true ↔ Linkage env did origin c := by
  unfold linkageOK
  constructor
  · intro h
    split at h
    · cases h
    rename_i h1
    split at h
    · cases h
    rename_i h2
    split at h
    · cases h
    rename_i h3
    split at h
    · cases h
    rename_i h4
    obtain ⟨g1, g2⟩ := (subjectOK_iff env did origin _).1 h
    refine ⟨⟨i, hi, hd⟩, (containsStr_iff _ _).1 (by simpa using h1), Decidable.not_not.1 h2, ?_, ?_, g2, g1⟩
    · cases hx : c.issued with
      | none => rw [hx] at h3; exact absurd rfl h3
      | some d => exact ⟨d, rfl⟩
    · cases hx : c.expired with
      | none => rw [hx] at h4; exact absurd rfl h4
      | some d => exact ⟨d, rfl⟩
  · rintro ⟨-, h1, h2, ⟨d, h3⟩, ⟨d', h4⟩, h5, h6⟩
    rw [(containsStr_iff _ _).2 h1, h2, h3, h4]
    simp only [Bool.not_true, Bool.false_eq_true, if_false, ne_eq, not_true_eq_false, Option.isNone_some]
    exact (subjectOK_iff env did origin _).2 ⟨h6, h5⟩

theorem header_iff (h : JObj) (k s : String) :
    Proof.header h k = some s ↔ get? h k = some (.str s) := by
  unfold Proof.header
  cases hk : get? h k with
  | none => simp
  | some v => cases v <;> simp [Json.asStr?]

theorem headerOK_iff (h : JObj) :
    headerOK h = true ↔ (∃ a, get? h "alg" = some (.str a)) ∧ (∃ k, get? h "kid" = some (.str k)) ∧
      (∀ t, get? h "typ" = some (.str t) → t = "JWT") ∧
      ∀ k v, (k, v) ∈ h → k ∈ ["alg", "kid", "typ"] := by
  have e1 : (Proof.header h "alg").isNone = true ↔ ¬ ∃ a, get? h "alg" = some (.str a) := by
    cases hx : Proof.header h "alg" with
    | none =>
      refine ⟨fun _ ⟨a, ha⟩ => ?_, fun _ => rfl⟩
      rw [← header_iff, hx] at ha; cases ha
    | some a => exact ⟨fun e => (by cases e), fun g => absurd ⟨a, (header_iff _ _ _).1 hx⟩ g⟩
  have e2 : (Proof.header h "kid").isNone = true ↔ ¬ ∃ a, get? h "kid" = some (.str a) := by
    cases hx : Proof.header h "kid" with
    | none =>
      refine ⟨fun _ ⟨a, ha⟩ => ?_, fun _ => rfl⟩
      rw [← header_iff, hx] at ha; cases ha
    | some a => exact ⟨fun e => (by cases e), fun g => absurd ⟨a, (header_iff _ _ _).1 hx⟩ g⟩
  have e3 : typOK h = true ↔ ∀ t, get? h "typ" = some (.str t) → t = "JWT" := by
    unfold typOK
    cases hx : Proof.header h "typ" with
    | none =>
      refine ⟨fun _ t ht => ?_, fun _ => rfl⟩
      rw [← header_iff, hx] at ht; cases ht
    | some t =>
      refine ⟨fun e t' ht => ?_, fun g => ?_⟩
      · rw [← header_iff, hx] at ht; cases ht; simpa using e
      · rw [g t ((header_iff _ _ _).1 hx)]; rfl
  unfold headerOK
  constructor
  · intro g
    split at g
    · cases g
    rename_i h1
    split at g
    · cases g
    rename_i h2
    split at g
    · cases g
    rename_i h3
    exact ⟨Classical.not_not.1 (fun hh => h1 (e1.2 hh)), Classical.not_not.1 (fun hh => h2 (e2.2 hh)),
      e3.1 (by simpa using h3), (allowedOK_iff _ _).1 g⟩
  · rintro ⟨h1, h2, h3, h4⟩
    rw [if_neg (fun hh => e1.1 hh h1), if_neg (fun hh => e2.1 hh h2), e3.2 h3]
    exact (allowedOK_iff _ _).2 h4

/-- The rules of one credential that has an issuer: never a panic, and exactly the specified ones. -/
theorem validLinkage_iff (did origin : String) (vc : PCred env.T) (i : Issuer)
    (hi : vc.contents.issuer = some i) (hd : i.id = did) :
    ∃ b, validLinkage env did origin vc = .ok b ∧
      (b = true ↔ Linkage env did origin vc.contents ∧ ∀ e, vc.jwt = some e → JwtRules env e) := by
  unfold validLinkage
  cases hj : vc.jwt with
  | none =>
    refine ⟨_, rfl, ?_⟩
    rw [linkageOK_iff env did origin _ i hi hd]
    exact ⟨fun h => ⟨h, fun e he => (by cases he)⟩, fun h => h.1⟩
  | some e =>
    dsimp only
    unfold jwtOK JWT.parse
    cases hp : env.lib.parseJWS none e.jwt with
    | none =>
      refine ⟨false, rfl, fun h => (by cases h), fun ⟨_, h⟩ => ?_⟩
      obtain ⟨j, p, a, k, h1, -⟩ := (h e rfl).form
      rw [hp] at h1; cases h1
    | some j =>
      dsimp only
      cases hh : JWT.checkHeaders env.lib j.headers with
      | false =>
        refine ⟨false, rfl, fun h => (by cases h), fun ⟨_, h⟩ => ?_⟩
        obtain ⟨j', p, a, k, h1, -, h3, -⟩ := (h e rfl).form
        rw [hp] at h1; cases h1
        rw [hh] at h3; cases h3
      | true =>
        cases hm : env.lib.payloadToMap j.payload with
        | none =>
          refine ⟨false, rfl, fun h => (by cases h), fun ⟨_, h⟩ => ?_⟩
          obtain ⟨j', p, a, k, h1, h2, -⟩ := (h e rfl).form
          rw [hp] at h1; cases h1
          rw [hm] at h2; cases h2
        | some p =>
          simp only [Bool.not_true, Bool.false_eq_true, if_false]
          cases ho : headerOK j.headers with
          | false =>
            refine ⟨false, rfl, fun h => (by cases h), fun ⟨_, h⟩ => ?_⟩
            obtain ⟨j', p', a, k, h1, h2, h3, h4, h5, h6, h7, h8⟩ := (h e rfl).form
            rw [hp] at h1; cases h1
            rw [(headerOK_iff _).2 ⟨⟨a, h4⟩, ⟨k, h5⟩, h6, h7⟩] at ho; cases ho
          | true =>
            cases hq : allowedOK ["exp", "iss", "nbf", "sub", "vc", "iat"] p with
            | false =>
              refine ⟨false, rfl, fun h => (by cases h), fun ⟨_, h⟩ => ?_⟩
              obtain ⟨j', p', a, k, h1, h2, h3, h4, h5, h6, h7, h8⟩ := (h e rfl).form
              rw [hp] at h1; cases h1
              rw [hm] at h2; cases h2
              rw [(allowedOK_iff _ _).2 h8] at hq; cases hq
            | true =>
              simp only [Bool.not_true, Bool.false_eq_true, if_false]
              have hr : JwtRules env e := by
                obtain ⟨⟨a, h1⟩, ⟨k, h2⟩, h3, h4⟩ := (headerOK_iff _).1 ho
                exact ⟨j, p, a, k, hp, hm, hh, h1, h2, h3, h4, (allowedOK_iff _ _).1 hq⟩
              unfold claimsOK newJWTCredClaims
              dsimp only
              cases hs : subjectID vc.contents.subject with
              | none =>
                refine ⟨false, rfl, fun h => (by cases h), fun ⟨h, _⟩ => ?_⟩
                obtain ⟨s, o, h1, h2, -⟩ := h.subject
                rw [h1] at hs
                simp only [subjectID] at hs
                rw [h2, if_neg h.isDID.2] at hs; cases hs
              | some sub =>
                dsimp only
                rw [hi]
                simp only [Bool.false_eq_true, if_false]
                refine ⟨_, rfl, ?_⟩
                rw [hd]
                constructor
                · intro h
                  simp only [beq_self_eq_true, Bool.true_and, Bool.and_eq_true] at h
                  refine ⟨(linkageOK_iff env did origin _ i hi hd).1 h.2, fun e' he => ?_⟩
                  cases he; exact hr
                · rintro ⟨h, -⟩
                  have hsub : sub = did := by
                    obtain ⟨s, o, h1, h2, -⟩ := h.subject
                    rw [h1] at hs
                    simp only [subjectID] at hs
                    rw [h2, if_neg h.isDID.2] at hs
                    exact (Option.some.inj hs).symm
                  rw [hsub, (linkageOK_iff env did origin _ i hi hd).2 h]
                  simp

/-! ## Parsing with and without proof check -/

theorem parseWith_panic {parser : ParseOpts env.toPEnv → String → Res (PCred env.T)}
    {o : ParseOpts env.toPEnv} {d : String} :
    parseWith env.toPEnv parser o d = .panic ↔ parser o d = .panic := by
  unfold parseWith
  cases h : parser o d with
  | panic => simp [Res.bind]
  | err => simp [Res.bind]
  | unsupported => simp [Res.bind]
  | ok vc =>
    simp only [reduceCtorEq, iff_false]
    intro g
    have key : ∀ x : Res (PCred env.T), x ≠ .panic → (x.bind fun vc =>
        if (o.disableRelRes || env.relOK vc.contents) = true then Res.ok vc else .err) ≠ .panic := by
      intro x hx
      cases x with
      | panic => exact absurd rfl hx
      | ok w => dsimp only [Res.bind]; split <;> simp
      | err => simp [Res.bind]
      | unsupported => simp [Res.bind]
    refine key _ ?_ g
    split
    · simp
    · cases checkProof env.toPEnv o vc <;> simp [Res.ofOption]

theorem dataURL_panic {c : Checkers} {u : String}
    (h : parseCredDataURL env.toPEnv (proofOpts env c) u = .panic) :
    parseCredDataURL env.toPEnv (scanOpts env) u = .panic := by
  unfold parseCredDataURL at h ⊢
  split at h
  · cases h
  · split at h
    · rename_i hm
      rw [if_pos hm]
      have g := (parseWith_panic env).1 h
      exact (parseWith_panic env).2 g
    · rename_i hm
      rw [if_neg hm]
      split at h
      · rename_i hm'
        rw [if_pos hm']
        have g := (parseWith_panic env).1 h
        exact (parseWith_panic env).2 g
      · cases h

theorem enveloped_panic {c : Checkers} {d : String}
    (h : parseEnveloped env.toPEnv (proofOpts env c) d = .panic) :
    parseEnveloped env.toPEnv (scanOpts env) d = .panic := by
  unfold parseEnveloped at h ⊢
  split at h
  · cases h
  · split at h
    · cases h
    · split at h
      · cases h
      · rename_i hc
        rw [if_neg hc]
        split at h
        · exact dataURL_panic env h
        · cases h

theorem orNext_panic {α : Type _} {a b : Res α} :
    orNext a b = .panic ↔ a = .panic ∨ (a = .unsupported ∧ b = .panic) := by
  cases a <;> simp [orNext]

/-- Checking proofs adds no panics. -/
theorem checked_panic {c : Checkers} {d : String}
    (h : parseCredential env.toPEnv (proofOpts env c) d = .panic) :
    parseCredential env.toPEnv (scanOpts env) d = .panic := by
  unfold parseCredential at h ⊢
  rw [orNext_panic, orNext_panic, parseWith_panic, parseWith_panic, parseWith_panic,
    parseWith_unsupported, parseWith_unsupported] at h ⊢
  rcases h with h | ⟨h0, h | ⟨h1, h⟩⟩
  · exact Or.inl (enveloped_panic env h)
  · exact Or.inr ⟨parseEnveloped_unsupported env.toPEnv _ _ d h0, Or.inl h⟩
  · exact Or.inr ⟨parseEnveloped_unsupported env.toPEnv _ _ d h0, Or.inr ⟨h1, h⟩⟩

/-- A credential accepted with proof checking is the one found without. -/
theorem scan_of_checked {c : Checkers} {d : String} {vc : PCred env.T}
    (h : parseCredential env.toPEnv (proofOpts env c) d = .ok vc) :
    parseCredential env.toPEnv (scanOpts env) d = .ok vc := by
  obtain ⟨h1, h2, -, h3⟩ := (parse_iff env.toPEnv _ rfl d vc).1 h
  have h' := (parse_iff env.toPEnv (noProofCheck env.toPEnv (proofOpts env c)) rfl d vc).2
    ⟨h1, h2, fun hf => (by cases hf), h3⟩
  exact h'

/-! ## The search -/

/-- Looking at this entry crashes the program: parsing it does, or it parses to a credential without
an issuer. -/
def Crashes (t : String) : Prop :=
  parseCredential env.toPEnv (scanOpts env) t = .panic ∨
  ∃ vc, parseCredential env.toPEnv (scanOpts env) t = .ok vc ∧ vc.contents.issuer = none

/-- The bytes are those of an acceptable domain linkage credential, proofs aside. -/
def Found (did domain t : String) : Prop :=
  ∃ vc, parseCredential env.toPEnv (scanOpts env) t = .ok vc ∧ Linkage env did domain vc.contents ∧
    ∀ e, vc.jwt = some e → JwtRules env e

theorem keep_cases (did domain t : String) :
    (Crashes env t ∧ keep env did domain t = .panic) ∨
    (¬ Crashes env t ∧ ∃ b, keep env did domain t = .ok b ∧ (b = true ↔ Found env did domain t)) := by
  unfold keep Crashes Found
  cases hp : parseCredential env.toPEnv (scanOpts env) t with
  | panic => exact Or.inl ⟨Or.inl rfl, rfl⟩
  | unsupported => exact Or.inr ⟨by simp, false, rfl, by simp⟩
  | err => exact Or.inr ⟨by simp, false, rfl, by simp⟩
  | ok vc =>
    cases hi : vc.contents.issuer with
    | none =>
      refine Or.inl ⟨Or.inr ⟨vc, rfl, hi⟩, ?_⟩
      dsimp only
      rw [hi]
    | some i =>
      refine Or.inr ⟨?_, ?_⟩
      · rintro (h | ⟨vc', h, h'⟩)
        · cases h
        · cases h; rw [hi] at h'; cases h'
      · dsimp only
        rw [hi]
        dsimp only
        by_cases hd : i.id = did
        · rw [if_neg (fun hh => hh hd)]
          obtain ⟨b, h1, h2⟩ := validLinkage_iff env did domain vc i hi hd
          refine ⟨b, h1, h2.trans ?_⟩
          exact ⟨fun h => ⟨vc, rfl, h⟩, fun ⟨vc', e, h⟩ => by cases e; exact h⟩
        · rw [if_pos hd]
          refine ⟨false, rfl, fun h => (by cases h), ?_⟩
          rintro ⟨vc', e, h, -⟩
          cases e
          obtain ⟨i', h1, h2⟩ := h.issuer
          rw [hi] at h1; cases h1
          exact absurd h2 hd

theorem linkedText_iff (j : Json) (t : String) : linkedText env j = some t ↔ Entry env j t := by
  unfold Entry
  cases j <;> simp [linkedText]
  · exact eq_comm

/-- The first loop ends normally exactly when every entry is a string or an object and none crashes;
it keeps the acceptable ones, in order. -/
theorem collect_iff (did domain : String) (l : List Json) :
    (∃ ts, collect env did domain l = .ok ts) ↔ ∀ j ∈ l, ∃ t, Entry env j t ∧ ¬ Crashes env t := by
  induction l with
  | nil => simp [collect]
  | cons j l ih =>
    unfold collect
    cases ht : linkedText env j with
    | none =>
      simp only [reduceCtorEq, exists_false, false_iff]
      intro h
      obtain ⟨t, h1, -⟩ := h j (List.mem_cons_self ..)
      rw [(linkedText_iff env j t).2 h1] at ht; cases ht
    | some t =>
      have he := (linkedText_iff env j t).1 ht
      dsimp only
      rcases keep_cases env did domain t with ⟨h1, h2⟩ | ⟨h1, b, h2, h3⟩
      · rw [h2]
        simp only [Out.bind, reduceCtorEq, exists_false, false_iff]
        intro h
        obtain ⟨t', g1, g2⟩ := h j (List.mem_cons_self ..)
        have : t' = t := by
          have := (linkedText_iff env j t').2 g1
          rw [ht] at this; exact (Option.some.inj this).symm
        rw [this] at g2; exact g2 h1
      · rw [h2]
        simp only [Out.bind]
        constructor
        · rintro ⟨ts, h⟩
          obtain ⟨ts', g1, -⟩ := out_bind_ok.1 h
          intro j' hj'
          rcases List.mem_cons.1 hj' with rfl | hj'
          · exact ⟨t, he, h1⟩
          · exact ih.1 ⟨ts', g1⟩ j' hj'
        · intro h
          obtain ⟨ts, g⟩ := ih.2 (fun j' hj' => h j' (List.mem_cons_of_mem _ hj'))
          exact ⟨_, by rw [g]⟩

theorem collect_mem (did domain : String) (l : List Json) (ts : List String)
    (h : collect env did domain l = .ok ts) (t : String) :
    t ∈ ts ↔ Found env did domain t ∧ ∃ j ∈ l, Entry env j t := by
  induction l generalizing ts with
  | nil => cases h; simp
  | cons j l ih =>
    unfold collect at h
    cases ht : linkedText env j with
    | none => rw [ht] at h; cases h
    | some t0 =>
      rw [ht] at h
      dsimp only at h
      have he := (linkedText_iff env j t0).1 ht
      rcases keep_cases env did domain t0 with ⟨h1, h2⟩ | ⟨h1, b, h2, h3⟩
      · rw [h2] at h; cases h
      · rw [h2] at h
        obtain ⟨ts', g1, g2⟩ := out_bind_ok.1 (show (collect env did domain l).bind _ = _ from h)
        have g2 := Out.ok.inj g2
        have ih := ih ts' g1
        have huniq : ∀ t', Entry env j t' → t' = t0 := by
          intro t' ht'
          have := (linkedText_iff env j t').2 ht'
          rw [ht] at this; exact (Option.some.inj this).symm
        rw [← g2]
        constructor
        · intro hm
          cases b with
          | false =>
            obtain ⟨a1, j', a2, a3⟩ := ih.1 hm
            exact ⟨a1, j', List.mem_cons_of_mem _ a2, a3⟩
          | true =>
            rcases List.mem_cons.1 hm with rfl | hm
            · exact ⟨h3.1 rfl, j, List.mem_cons_self .., he⟩
            · obtain ⟨a1, j', a2, a3⟩ := ih.1 hm
              exact ⟨a1, j', List.mem_cons_of_mem _ a2, a3⟩
        · rintro ⟨a1, j', a2, a3⟩
          rcases List.mem_cons.1 a2 with rfl | a2
          · have := huniq t a3
            subst this
            rw [h3.2 a1]
            exact List.mem_cons_self ..
          · have := ih.2 ⟨a1, j', a2, a3⟩
            cases b with
            | false => exact this
            | true => exact List.mem_cons_of_mem _ this

theorem checkAny_iff (c : Checkers) (ts : List String)
    (hn : ∀ t ∈ ts, parseCredential env.toPEnv (proofOpts env c) t ≠ .panic) :
    checkAny env c ts = .ok () ↔
      ∃ t ∈ ts, ∃ vc, parseCredential env.toPEnv (proofOpts env c) t = .ok vc := by
  induction ts with
  | nil => simp [checkAny]
  | cons t ts ih =>
    have ih := ih (fun t' ht' => hn t' (List.mem_cons_of_mem _ ht'))
    have h0 := hn t (List.mem_cons_self ..)
    unfold checkAny
    simp only [List.mem_cons, exists_eq_or_imp]
    rw [← ih]
    cases hp : parseCredential env.toPEnv (proofOpts env c) t with
    | panic => exact absurd hp h0
    | ok vc => simp
    | unsupported => simp
    | err => simp

/-- **C53** (exact form): verification succeeds exactly when the text is a DID configuration, every
entry is a string or an object and can be looked at without crashing, and one of them is, with proof
checking on, a credential that obeys the domain linkage rules for this DID and origin. -/
theorem verify_iff (c : Checkers) (text did domain : String) :
    verifyDIDAndDomain env c text did domain = .ok () ↔
      ∃ l, Config env text l ∧ (∀ j ∈ l, ∃ t, Entry env j t ∧ ¬ Crashes env t) ∧
        ∃ j ∈ l, ∃ t vc, Entry env j t ∧
          parseCredential env.toPEnv (proofOpts env c) t = .ok vc ∧
          Linkage env did domain vc.contents ∧ ∀ e, vc.jwt = some e → JwtRules env e := by
  unfold verifyDIDAndDomain
  cases hd : decodeConfig env text with
  | none =>
    simp only [reduceCtorEq, false_iff]
    rintro ⟨l, h, -⟩
    rw [(decodeConfig_iff env text l).2 h] at hd; cases hd
  | some l =>
    have hcfg := (decodeConfig_iff env text l).1 hd
    dsimp only
    constructor
    · intro h
      obtain ⟨ts, h1, h2⟩ := out_bind_ok.1 h
      have hall := (collect_iff env did domain l).1 ⟨ts, h1⟩
      have hmem := collect_mem env did domain l ts h1
      split at h2
      · cases h2
      · have hn : ∀ t ∈ ts, parseCredential env.toPEnv (proofOpts env c) t ≠ .panic := by
          intro t ht hp
          obtain ⟨⟨vc, a, -⟩, -⟩ := (hmem t).1 ht
          rw [checked_panic env hp] at a; cases a
        obtain ⟨t, ht, vc, hvc⟩ := (checkAny_iff env c ts hn).1 h2
        obtain ⟨⟨vc', a1, a2, a3⟩, j, hj, he⟩ := (hmem t).1 ht
        rw [scan_of_checked env hvc] at a1
        cases a1
        exact ⟨l, hcfg, hall, j, hj, t, vc, he, hvc, a2, a3⟩
    · rintro ⟨l', hl', hall, j, hj, t, vc, he, hvc, h1, h2⟩
      have : l' = l := by
        have := (decodeConfig_iff env text l').2 hl'
        rw [hd] at this; exact (Option.some.inj this).symm
      subst this
      obtain ⟨ts, hts⟩ := (collect_iff env did domain l').2 hall
      have hmem := collect_mem env did domain l' ts hts
      have hin : t ∈ ts := (hmem t).2 ⟨⟨vc, scan_of_checked env hvc, h1, h2⟩, j, hj, he⟩
      rw [hts]
      show (if ts.isEmpty = true then Out.err else checkAny env c ts) = .ok ()
      have hne : ts.isEmpty ≠ true := by
        intro hh
        rw [List.isEmpty_iff.1 hh] at hin; cases hin
      rw [if_neg hne]
      refine (checkAny_iff env c ts ?_).2 ⟨t, hin, vc, hvc⟩
      intro t ht hp
      obtain ⟨⟨vc, a, -⟩, -⟩ := (hmem t).1 ht
      rw [checked_panic env hp] at a; cases a

/-- **C53 (partial)**: success means that the document is a DID configuration and one of its entries
is a domain linkage credential for this DID and origin, issued by the DID, whose proof was checked.

Missing: "has a valid proof" here is `Secured`, which an empty `proof` array satisfies
(`empty_proof_links`); for JWT credentials see `linked_jwt_signed_by_did`. -/
theorem verify_sound_partial (c : Checkers) (text did domain : String)
    (h : verifyDIDAndDomain env c text did domain = .ok ()) :
    ∃ l j t vc, Config env text l ∧ j ∈ l ∧ Entry env j t ∧
      parseCredential env.toPEnv (proofOpts env c) t = .ok vc ∧
      Linkage env did domain vc.contents ∧ (∀ e, vc.jwt = some e → JwtRules env e) ∧
      Vfy.Spec.Secured env.toPEnv (proofOpts env c) vc ∧ Vfy.Spec.Bound env.toPEnv vc := by
  obtain ⟨l, h1, -, j, hj, t, vc, h2, h3, h4, h5⟩ := (verify_iff env c text did domain).1 h
  obtain ⟨h6, h7⟩ := parse_verified_partial env.toPEnv _ t vc rfl h3
  exact ⟨l, j, t, vc, h1, hj, h2, h3, h4, h5, h6, h7⟩

/-- The library's checker. -/
def ofChecker (ch : Proof.Checker) (coseKey : String → Option (Proof.Jwk × Proof.KeyType)) : Checkers :=
  ⟨JWT.ofChecker ch, cwtChecker ch coseKey, ldChecker ch⟩

/-- **C53 (partial)** with the library's proof checker and DID resolver: success means that one of the
entries is a domain linkage credential for the DID and the origin, and what carries it was signed by
keys that the DID document of this very DID lists.

Missing: a document with an empty `proof` array carries no signature at all and is accepted
(`empty_proof_links`). -/
theorem linked_signed_by_did_partial (ch : Proof.Checker)
    (coseKey : String → Option (Proof.Jwk × Proof.KeyType))
    (vdr : String → Option (List Proof.DocEntry)) (hr : ch.resolve = Proof.vdrResolve vdr)
    (text did domain : String)
    (h : verifyDIDAndDomain env (ofChecker ch coseKey) text did domain = .ok ()) :
    ∃ l j t vc, Config env text l ∧ j ∈ l ∧ Entry env j t ∧ Linkage env did domain vc.contents ∧
      parseCredential env.toPEnv (proofOpts env (ofChecker ch coseKey)) t = .ok vc ∧
      SignedBy env ch vdr did vc := by
  obtain ⟨l, h1, -, j, hj, t, vc, h2, h3, h4, h5⟩ := (verify_iff env _ text did domain).1 h
  refine ⟨l, j, t, vc, h1, hj, h2, h4, h3, ?_⟩
  obtain ⟨i', k1, k2⟩ := h4.issuer
  cases hjw : vc.jwt with
  | some e =>
    obtain ⟨i, jws, kid, alg, vm, p, m, g1, g2, g3, g4, g5, ⟨d, d1, d2, d3⟩, -⟩ :=
      jwt_credential_signed_by_issuer env.toPEnv _ ch vdr hr rfl t vc e rfl h3 hjw
    rw [g1] at k1; cases k1
    rw [k2] at g5
    exact .jwt e jws kid alg vm d hjw g2 ((header_iff _ _ _).1 g3) ((header_iff _ _ _).1 g4) g5 d1 d2 d3
  | none =>
    cases hcw : vc.cwt with
    | some e =>
      obtain ⟨i, msg, vm, g1, g2, g3, g4, ⟨d, d1, d2, d3⟩, -⟩ :=
        cwt_credential_signed_by_issuer env.toPEnv _ ch coseKey vdr hr rfl t vc e rfl h3 hjw hcw
      rw [g1] at k1; cases k1
      rw [k2] at g4
      exact .cwt e msg vm d hcw g3 g4 d1 d2 d3
    | none =>
      have hno : ∀ l, Vfy.Spec.ProofMember vc.json l → ¬ Vfy.Spec.DIFirst l := by
        intro l hl hdi
        obtain ⟨hs, -⟩ := parse_verified_partial env.toPEnv _ t vc rfl h3
        have huniq : ∀ l', Vfy.Spec.ProofMember vc.json l' → l' = l := by
          intro l' hl'
          rcases hl with ⟨o, ho, rfl⟩ | ho <;> rcases hl' with ⟨o', ho', rfl⟩ | ho'
          · rw [ho] at ho'; cases ho'; rfl
          · rw [ho] at ho'; cases ho'
          · rw [ho] at ho'; cases ho'
          · rw [ho] at ho'
            have := Json.arr.inj (Option.some.inj ho')
            exact ((List.map_injective_iff.2 (fun a b h => Json.obj.inj h)) this).symm
        cases hs with
        | jwt i e pc j hi he => rw [hjw] at he; cases he
        | cwt i e pc msg a x hi hn he => rw [hcw] at he; cases he
        | ld i l' pc ps hi hn hn' hp hd' => rw [huniq l' hp] at hd'; exact hd' hdi
        | di i l' s hi hn hn' hp hd' hc => cases hc
      obtain ⟨i, ps, g1, g2, g3, g4⟩ :=
        ld_credential_signed_by_issuer env.toPEnv _ ch vdr hr rfl t vc rfl h3 hjw hcw hno
      rw [g1] at k1; cases k1
      refine .ld ps hjw hcw g3 (fun p hp => ?_)
      obtain ⟨kid, vm, msg, sig, a1, a2, a3⟩ := g4 p hp
      rw [k2] at a2
      exact ⟨kid, vm, msg, sig, a1, a2, a3⟩

/-- **C77 (partial)**: if the accepted entry is a JWT whose payload has a non-empty `iss`, that is the
DID.

Missing: that `iss` is there, and that `sub` is the DID; the code compares the claims it makes from the
credential, not the signed ones (`sub_not_checked`). -/
theorem linked_jwt_iss_partial (c : Checkers) (t did domain : String) (vc : PCred env.T)
    (h : parseCredential env.toPEnv (proofOpts env c) t = .ok vc)
    (hl : Linkage env did domain vc.contents) (e : JwtEnvelope) (he : vc.jwt = some e) :
    ∃ j p, env.lib.parseJWS none e.jwt = some j ∧ env.payloadObj j.payload = some p ∧
      ∀ s, get? p "iss" = some (.str s) → s ≠ "" → s = did := by
  obtain ⟨-, hb⟩ := parse_verified_partial env.toPEnv _ t vc rfl h
  obtain ⟨j, p, m, h1, -, h3, h4, h5⟩ := hb.jwt e he
  refine ⟨j, p, h1, h3, fun s hs hne => ?_⟩
  obtain ⟨json, b, hc, hk⟩ := hb.contents
  obtain ⟨i, hi, hd⟩ := hl.issuer
  have hp := (parseContents_inv env.toCEnv hc).2.2.1
  rw [at_ofWire, hk "issuer" (by decide), hi, h5] at hp
  unfold decodeCredPayload at h4
  cases hu : unmarshalCred p with
  | none => rw [hu] at h4; cases h4
  | some cc =>
    rw [hu] at h4
    dsimp only at h4
    have hcl := unmarshalCred_claims hu
    obtain ⟨cl, v⟩ := cc
    cases cl with
    | none => simp [refine] at h4
    | some r =>
      obtain ⟨d1, -⟩ := decodeClaims_some hcl
      have hr : r.iss = s := by
        simp only [JObj.at, hs, Option.getD_some, strOf, Option.some.injEq] at d1; exact d1.symm
      cases v with
      | none =>
        exfalso
        have := (refine_panic_iff env.toJEnv ⟨some r, none⟩).2
          (Or.inr ⟨rfl, r, rfl, Or.inl (by rw [hr]; exact hne)⟩)
        rw [this] at h4; cases h4
      | some v =>
        rcases refine_spec env.toJEnv r v with ⟨-, -, h'⟩ | ⟨-, o', h', R⟩
        · rw [h'] at h4; cases h4
        · rw [h'] at h4; cases h4
          rw [← hd, ← hr]
          exact (issuerRefined_id (by rw [hr]; exact hne) R.issuer hp).symm

/-- **C76 (partial)**: verification of a configuration crashes only because of an entry that is a
credential without issuer or whose parsing crashes.

Missing: that no such entry exists — there are some (`issuerless_jwt_panics`). -/
theorem verify_panic_partial (c : Checkers) (text did domain : String)
    (h : verifyDIDAndDomain env c text did domain = .panic) :
    ∃ l j t, Config env text l ∧ j ∈ l ∧ Entry env j t ∧ Crashes env t := by
  unfold verifyDIDAndDomain at h
  cases hd : decodeConfig env text with
  | none => rw [hd] at h; cases h
  | some l =>
    rw [hd] at h
    dsimp only at h
    have hcfg := (decodeConfig_iff env text l).1 hd
    cases hc : collect env did domain l with
    | err => rw [hc] at h; cases h
    | ok ts =>
      exfalso
      rw [hc] at h
      have h : (if ts.isEmpty = true then Out.err else checkAny env c ts) = .panic := h
      have hmem := collect_mem env did domain l ts hc
      have key : ∀ ts' : List String, (∀ t ∈ ts', t ∈ ts) → checkAny env c ts' ≠ .panic := by
        intro ts'
        induction ts' with
        | nil => intro _ g; cases g
        | cons t ts' ih =>
          intro hsub g
          unfold checkAny at g
          have ih := ih (fun t' ht' => hsub t' (List.mem_cons_of_mem _ ht'))
          split at g
          · rename_i hp
            obtain ⟨⟨vc, a, -⟩, -⟩ := (hmem t).1 (hsub t (List.mem_cons_self ..))
            rw [checked_panic env hp] at a; cases a
          · cases g
          · exact ih g
          · exact ih g
      split at h
      · cases h
      · exact key ts (fun _ h => h) h
    | panic =>
      clear h hd
      have key : ∀ l' : List Json, collect env did domain l' = .panic →
          ∃ j t, j ∈ l' ∧ Entry env j t ∧ Crashes env t := by
        intro l'
        induction l' with
        | nil => intro g; cases g
        | cons j l' ih =>
          intro g
          unfold collect at g
          cases ht : linkedText env j with
          | none => rw [ht] at g; cases g
          | some t =>
            rw [ht] at g
            dsimp only at g
            rcases keep_cases env did domain t with ⟨h1, -⟩ | ⟨-, b, h2, -⟩
            · exact ⟨j, t, List.mem_cons_self .., (linkedText_iff env j t).1 ht, h1⟩
            · rw [h2] at g
              cases hc' : collect env did domain l' with
              | panic =>
                obtain ⟨j', t', a, b, c⟩ := ih hc'
                exact ⟨j', t', List.mem_cons_of_mem _ a, b, c⟩
              | err => rw [hc'] at g; cases g
              | ok x => rw [hc'] at g; cases g
      obtain ⟨j, t, a, b, c⟩ := key l hc
      exact ⟨l, j, t, hcfg, a, b, c⟩

end VC.DidCfg
