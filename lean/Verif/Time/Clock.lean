import Verif.Time.RfcFmt
import Verif.Verifiable.JWTRoundTrip
/-!
# C121: credential dates with Go's clock

The models of the credential codec take the time library as a parameter; `GoClock` says that the
parameter is the library modelled in `Verif.Time.Rfc`.  With it the conditions on dates of the round
trip theorems become ranges of seconds.
-/

namespace VC.Tm

open VC VC.Vfy GoMap

/-- The time library of the environment is Go's. -/
structure GoClock (env : JEnv) where
  /-- the `time.Time` of a value -/
  go : env.T → Time
  read : ∀ s, (env.parseT s).map go = parse s
  print : ∀ t, env.fmtT t = fmtNano (go t)
  unix : ∀ t, env.unixT t = (go t).sec
  stamp : ∀ n, env.fmtUnix n = fmtUnix n
  /-- 1 January of year 1, 00:00 UTC -/
  zero : ∀ t, env.zeroT t = true ↔ (go t).sec = -62135596800 ∧ (go t).nsec = 0

/-- The seconds RFC 3339 can express in UTC: the years 0 to 9999. -/
def InRange (n : Int) : Prop := -62167219200 ≤ n ∧ n ≤ 253402300799

variable {env : JEnv}

theorem GoClock.read_some (ck : GoClock env) {s : String} {t : env.T} (h : env.parseT s = some t) :
    parse s = some (ck.go t) := by rw [← ck.read, h]; rfl

theorem GoClock.read_none (ck : GoClock env) {s : String} (h : parse s = none) : env.parseT s = none := by
  rw [← ck.read] at h
  cases e : env.parseT s with
  | none => rfl
  | some t => rw [e] at h; cases h

theorem secOK_iff (ck : GoClock env) (n : Int) : SecOK env n ↔ InRange n := by
  constructor
  · rintro ⟨t, h, -⟩
    rw [ck.stamp] at h
    have := ck.read_some h
    by_cases hn : InRange n
    · exact hn
    · rw [(fmtUnix_unreadable (by unfold InRange at hn; omega)).1] at this
      cases this
  · rintro ⟨h1, h2⟩
    have := fmtUnix_parse h1 h2
    rw [← ck.read] at this
    obtain ⟨t, ht, hg⟩ := Option.map_eq_some_iff.1 this
    exact ⟨t, by rw [ck.stamp]; exact ht, by rw [ck.unix, hg]⟩

/-- **C121.** The dates a JWT claim can carry are those of the years 0 to 9999 (in UTC) other than
Go's zero time. -/
theorem claimDate_iff (ck : GoClock env) (w : TW env.T) :
    ClaimDate env w ↔ InRange (ck.go w.t).sec ∧
      ¬ ((ck.go w.t).sec = -62135596800 ∧ (ck.go w.t).nsec = 0) := by
  unfold ClaimDate
  rw [secOK_iff ck, ck.unix, ← ck.zero]
  simp only [Bool.not_eq_true]
  exact And.comm

/-- **C121.** The empty string and `Z` are no times. -/
theorem lawful_of_clock (ck : GoClock env) (h1 : env.upper "sha-256" = "SHA-256")
    (h2 : env.upper "sha-384" = "SHA-384") (h3 : env.upper "sha-512" = "SHA-512") : env.toCEnv.Lawful :=
  ⟨h1, h2, h3, ck.read_none (by decide +kernel), ck.read_none (by decide +kernel)⟩

/-! ## Texts without a zone -/

theorem num_digits {k n : Nat} {l : List Char} (h : Num k n l) : ∀ c ∈ l, c.isDigit = true :=
  fun c hc => (isDigit_iff c).2 (h.2.1 c hc)

theorem hour_inj {h h' : Nat} {a a' r r' : List Char} (ha : Num 2 h a ∨ Num 1 h a)
    (ha' : Num 2 h' a' ∨ Num 1 h' a') (e : a ++ ':' :: r = a' ++ ':' :: r') : a = a' ∧ r = r' := by
  have d : ∀ c ∈ a, c.isDigit = true := by rcases ha with h | h <;> exact num_digits h
  have d' : ∀ c ∈ a', c.isDigit = true := by rcases ha' with h | h <;> exact num_digits h
  have t := congrArg (List.takeWhile Char.isDigit) e
  rw [List.takeWhile_append_of_pos d, List.takeWhile_append_of_pos d'] at t
  have hc : (':' : Char).isDigit = false := rfl
  simp only [List.takeWhile_cons, hc, Bool.false_eq_true, if_false, List.append_nil] at t
  subst t
  simpa using e

/-- **C121.** A text that is a time once a `Z` is added is none by itself, and is read as UTC. -/
theorem zoneless (s : String) (t : Time) (h : parse (s ++ "Z") = some t) : parse s = none ∧ t.off = 0 := by
  rw [parse_iff, String.toList_append, show "Z".toList = ['Z'] from rfl] at h
  generalize hl : s.toList ++ ['Z'] = l at h
  cases h with
  | @mk ty tm td th tmi ts tf tz y m d hh mi se f o hy htm htd hth htmi hts hf hz hv h1 h2 h3 =>
    have hz' : tz = ['Z'] ∧ o = 0 := by
      cases hz with
      | utc => exact ⟨rfl, rfl⟩
      | @east a b _ _ ha hb =>
        obtain ⟨x, y, rfl, -, hd, -⟩ := num2 hb
        have := congrArg (fun l => l.reverse) hl
        simp only [List.reverse_append, List.reverse_cons, List.reverse_nil, List.nil_append,
          List.append_assoc, List.cons_append, List.cons.injEq] at this
        rw [← this.1] at hd; cases hd
      | @west a b _ _ ha hb =>
        obtain ⟨x, y, rfl, -, hd, -⟩ := num2 hb
        have := congrArg (fun l => l.reverse) hl
        simp only [List.reverse_append, List.reverse_cons, List.reverse_nil, List.nil_append,
          List.append_assoc, List.cons_append, List.cons.injEq] at this
        rw [← this.1] at hd; cases hd
    obtain ⟨rfl, rfl⟩ := hz'
    refine ⟨?_, rfl⟩
    have hs : s.toList = ty ++ '-' :: tm ++ '-' :: td ++ 'T' :: th ++ ':' :: tmi ++ ':' :: ts ++ tf :=
      List.append_cancel_right hl
    cases hp : parse s with
    | none => rfl
    | some t' =>
      exfalso
      rw [parse_iff, hs] at hp
      generalize hl' : ty ++ '-' :: tm ++ '-' :: td ++ 'T' :: th ++ ':' :: tmi ++ ':' :: ts ++ tf = l' at hp
      cases hp with
      | @mk ty' tm' td' th' tmi' ts' tf' tz' _ _ _ _ _ _ _ _ gy gm gd gh gmi gs gf gz =>
        simp only [List.append_assoc, List.cons_append] at hl'
        obtain ⟨-, e⟩ := List.append_inj hl' (hy.1.trans gy.1.symm)
        obtain ⟨-, e⟩ := List.append_inj (List.cons.inj e).2 (htm.1.trans gm.1.symm)
        obtain ⟨-, e⟩ := List.append_inj (List.cons.inj e).2 (htd.1.trans gd.1.symm)
        obtain ⟨-, e⟩ := hour_inj hth gh (List.cons.inj e).2
        obtain ⟨-, e⟩ := List.append_inj e (htmi.1.trans gmi.1.symm)
        obtain ⟨-, e⟩ := List.append_inj (List.cons.inj e).2 (hts.1.trans gs.1.symm)
        obtain ⟨c, r, rfl, hc⟩ := zone_head gz
        cases hf with
        | none => simp at e
        | @some sep ds _ _ hsep hne hnum hk =>
          cases gf with
          | none =>
            simp only [List.nil_append, List.cons.injEq] at e
            rw [← e.1] at hc
            rcases hsep with rfl | rfl <;> revert hc <;> decide
          | @some sep' ds' _ _ hsep' hne' hnum' hk' =>
            simp only [List.cons_append, List.cons.injEq] at e
            have : c ∈ ds := by rw [e.2]; simp
            have := num_digits hnum c this
            rcases hc with rfl | rfl | rfl <;> cases this

/-- **C121.** What `ParseTimeWrapper` reads: a time as written, or a time of the UTC clock written
without a zone; the text is kept. -/
theorem parseTW_iff (ck : GoClock env) (s : String) (w : TW env.T) (h : parseTW env.toCEnv s = some w) :
    w.str = s ∧ (Written s.toList (ck.go w.t) ∨ Written (s.toList ++ ['Z']) (ck.go w.t)) := by
  unfold parseTW at h
  cases h1 : env.parseT s with
  | some t =>
    rw [h1] at h
    cases h
    exact ⟨rfl, Or.inl ((parse_iff _ _).1 (ck.read_some h1))⟩
  | none =>
    rw [h1] at h
    dsimp only at h
    obtain ⟨t, ht, rfl⟩ := Option.map_eq_some_iff.1 h
    have := (parse_iff _ _).1 (ck.read_some ht)
    rw [String.toList_append] at this
    exact ⟨rfl, Or.inr this⟩

/-- Every written date is read. -/
theorem parseTW_written (ck : GoClock env) (s : String) (t : Time)
    (h : Written s.toList t ∨ Written (s.toList ++ ['Z']) t) :
    ∃ w, parseTW env.toCEnv s = some w ∧ ck.go w.t = t ∧ w.str = s := by
  unfold parseTW
  rcases h with h | h
  · have := (parse_iff _ _).2 h
    rw [← ck.read] at this
    obtain ⟨x, hx, hg⟩ := Option.map_eq_some_iff.1 this
    rw [hx]
    exact ⟨_, rfl, hg, rfl⟩
  · have h' : Written (s ++ "Z").toList t := by rw [String.toList_append]; exact h
    have := (parse_iff _ _).2 h'
    rw [ck.read_none (zoneless s t this).1]
    rw [← ck.read] at this
    obtain ⟨x, hx, hg⟩ := Option.map_eq_some_iff.1 this
    dsimp only
    rw [hx]
    exact ⟨_, rfl, hg, rfl⟩

/-- **C121.** Dates read from a UTC text (or one without a zone) can be carried by a JWT claim, but for
the first second of year 1. -/
theorem utc_claimDate (ck : GoClock env) {s : String} {w : TW env.T} (h : parseTW env.toCEnv s = some w)
    (ho : (ck.go w.t).off = 0) (hz : ¬ ((ck.go w.t).sec = -62135596800 ∧ (ck.go w.t).nsec = 0)) :
    ClaimDate env w := by
  rw [claimDate_iff ck]
  refine ⟨?_, hz⟩
  obtain ⟨-, h | h⟩ := parseTW_iff ck s w h
  · have := read_bounds ((parse_iff s _).2 h)
    unfold InRange; omega
  · have := read_bounds (s := s ++ "Z") ((parse_iff _ _).2 (by rw [String.toList_append]; exact h))
    unfold InRange; omega

/-! ## JWT credentials -/

theorem stamp_read (ck : GoClock env) {n : Int} {x : Option (TW env.T)}
    (h : parseTime env.toCEnv (.json (.str (env.fmtUnix n))) = some x) :
    InRange n ∧ ∃ w, x = some w ∧ (ck.go w.t) = ⟨n, 0, 0⟩ := by
  simp only [parseTime, Option.map_eq_some_iff] at h
  obtain ⟨w, hw, rfl⟩ := h
  by_cases hn : InRange n
  · refine ⟨hn, w, rfl, ?_⟩
    have hp := fmtUnix_parse hn.1 hn.2
    rw [ck.stamp] at hw
    unfold parseTW at hw
    cases h1 : env.parseT (fmtUnix n) with
    | some t =>
      rw [h1] at hw
      cases hw
      have := ck.read_some h1
      rw [hp] at this
      exact (Option.some.inj this).symm
    | none =>
      rw [← ck.read, h1] at hp
      cases hp
  · exfalso
    obtain ⟨h1, h2⟩ := fmtUnix_unreadable (n := n) (by unfold InRange at hn; omega)
    rw [ck.stamp] at hw
    unfold parseTW at hw
    rw [ck.read_none h1, ck.read_none h2] at hw
    cases hw

/-- **C121, JWT claims.** With Go's clock the dates of a decoded JWT credential are the signed ones
to the second, for every claim: one outside the years 0 to 9999 makes decoding fail.  (As in C41, the
credential must not carry both the 2.0 context and the old name of the date.) -/
theorem signed_dates (ck : GoClock env) (p o : JObj) (b : Bool) (c : Contents env.T)
    (h : decodeCredPayload env p = .ok (some o))
    (hc : parseContents env.toCEnv (ofWire o) b = some c) :
    (∀ n : Int, get? p "iat" = some (.num n) ∨ (get? p "nbf" = some (.num n) ∧ get? p "iat" = none) →
      (¬ IsV2 o ∨ get? o "issuanceDate" = none) →
      InRange n ∧ c.issued.map (fun x => env.unixT x.t) = some n) ∧
    (∀ n : Int, get? p "exp" = some (.num n) → (¬ IsV2 o ∨ get? o "expirationDate" = none) →
      InRange n ∧ c.expired.map (fun x => env.unixT x.t) = some n) := by
  have S := signed_claims_in_contents_partial p o b c h hc
  suffices R : (∀ n : Int, get? p "iat" = some (.num n) ∨
      (get? p "nbf" = some (.num n) ∧ get? p "iat" = none) →
      (¬ IsV2 o ∨ get? o "issuanceDate" = none) → InRange n) ∧
      (∀ n : Int, get? p "exp" = some (.num n) → (¬ IsV2 o ∨ get? o "expirationDate" = none) →
        InRange n) by
    refine ⟨fun n hn hv => ⟨R.1 n hn hv, ?_⟩, fun n hn hv => ⟨R.2 n hn hv, ?_⟩⟩
    · have hs := (secOK_iff ck n).2 (R.1 n hn hv)
      rcases hn with hn | ⟨hn, hi⟩
      · exact S.2.2.1 n hn hs hv
      · exact S.2.2.2.1 n hn hi hs hv
    · exact S.2.2.2.2 n hn ((secOK_iff ck n).2 (R.2 n hn hv)) hv
  unfold decodeCredPayload at h
  cases hu : unmarshalCred p with
  | none => rw [hu] at h; cases h
  | some cc =>
    rw [hu] at h
    dsimp only at h
    have hcl := unmarshalCred_claims hu
    obtain ⟨cl, vc⟩ := cc
    cases cl with
    | none => simp [refine] at h
    | some r =>
      obtain ⟨-, -, -, d4, d5, d6, -⟩ := decodeClaims_some hcl
      have hnum : ∀ (k : String) (n : Int), get? p k = some (.num n) →
          dateOf (JObj.at p k) = some (some n) := by
        intro k n e
        simp [JObj.at, e, dateOf]
      rw [parseContents_iff] at hc
      obtain ⟨-, -, -, -, -, -, -, -, -, -, c11, c12, -, -⟩ := hc
      rw [parseTime2_eq] at c11 c12
      cases vc with
      | none =>
        have hp : ¬ (refine env ⟨some r, none⟩ = .panic) := by rw [h]; simp
        rw [refine_panic_iff] at hp
        simp only [reduceCtorEq, true_and, Option.some.injEq, exists_eq_left', false_or, not_or,
          ne_eq, Decidable.not_not, Bool.not_eq_true, Option.isSome_eq_false_iff,
          Option.isNone_iff_eq_none] at hp
        obtain ⟨-, -, p3, p4, p5⟩ := hp
        refine ⟨fun n hn _ => ?_, fun n hn _ => ?_⟩
        · rcases hn with hn | ⟨hn, -⟩
          · rw [hnum _ n hn, p4] at d6; cases d6
          · rw [hnum _ n hn, p3] at d5; cases d5
        · rw [hnum _ n hn, p5] at d4; cases d4
      | some v =>
        have hR : Refined env r v o := by
          rcases refine_spec env r v with ⟨-, -, h'⟩ | ⟨-, o', h', R⟩
          · rw [h'] at h; cases h
          · rw [h'] at h; cases h; exact R
        have hV : IsV2 o ↔ IsV2 v := isV2_congr (hR.rest "@context" (by decide))
        have key : ∀ (n : Int) (a b : Option Json) (x : Option (TW env.T)),
            time2 env a b = some x →
            (a = some (.str (env.fmtUnix n)) ∨ (a = none ∧ b = some (.str (env.fmtUnix n)))) →
            InRange n := by
          intro n a b x hx hab
          rcases hab with rfl | ⟨rfl, rfl⟩
          · simp only [time2, Option.getD_some] at hx
            cases e : parseTime env.toCEnv (.json (.str (env.fmtUnix n))) with
            | none => rw [e] at hx; cases hx
            | some y => exact (stamp_read ck e).1
          · simp only [time2, Option.getD_none, Option.getD_some, parseTime] at hx
            exact (stamp_read ck (n := n) (x := x) (by simpa [parseTime] using hx)).1
        refine ⟨fun n hn hcond => ?_, fun n hn hcond => ?_⟩
        · have hr : r.iat.or r.nbf = some n := by
            rcases hn with hn | ⟨hn, hi⟩
            · rw [hnum _ n hn] at d6; rw [← Option.some.inj d6]; rfl
            · rw [hnum _ n hn] at d5
              have hri : r.iat = none := by
                simp only [JObj.at, hi, Option.getD_none, dateOf, Option.some.injEq] at d6; exact d6.symm
              rw [hri, ← Option.some.inj d5]; rfl
          by_cases hv : IsV2 o
          · have q := hR.v2 (hV.mp hv)
            rw [hr] at q
            exact key n _ _ _ c11 (Or.inr ⟨hcond.resolve_left (fun f => f hv), q.1⟩)
          · have q := hR.v1 (fun e => hv (hV.mpr e))
            rw [hr] at q
            exact key n _ _ _ c11 (Or.inl q.1)
        · have hr : r.exp = some n := by rw [hnum _ n hn] at d4; exact (Option.some.inj d4).symm
          by_cases hv : IsV2 o
          · have q := hR.v2 (hV.mp hv)
            rw [hr] at q
            exact key n _ _ _ c12 (Or.inr ⟨hcond.resolve_left (fun f => f hv), q.2.1⟩)
          · have q := hR.v1 (fun e => hv (hV.mpr e))
            rw [hr] at q
            exact key n _ _ _ c12 (Or.inl q.2.1)

/-- **C121, round trip.** With Go's clock, a credential whose dates lie (in UTC) in the years 0 to 9999
and are not Go's zero time comes back from its JWT claims with the same contents, dates to the second. -/
theorem jwt_claims_roundtrip_go (ck : GoClock env) (vc : Cred env.T) (hA : Agrees env.toCEnv vc) (min : Bool)
    (r : Claims) (m : GObj) (h : newJWTCredClaims env vc min = .ok (r, m))
    (hd : ∀ w, vc.contents.issued = some w ∨ vc.contents.expired = some w → InRange (ck.go w.t).sec ∧
      ¬ ((ck.go w.t).sec = -62135596800 ∧ (ck.go w.t).nsec = 0)) :
    ∃ o, decodeCredPayload env (marshalCred ⟨some r, some (wireObj m)⟩) = .ok (some o) ∧
      ∃ c, parseContents env.toCEnv (ofWire o) vc.contents.sdAlg.isSome = some c ∧
        SameToSecond env vc.contents c := by
  obtain ⟨o, h1, -, h2⟩ := jwt_claims_roundtrip vc hA min r m h
    (fun w hw => (claimDate_iff ck w).2 (hd w (Or.inl hw)))
    (fun w hw => (claimDate_iff ck w).2 (hd w (Or.inr hw)))
  exact ⟨o, h1, h2⟩

/-- An environment with Go's clock. -/
def goEnv : JEnv where
  T := Time
  parseT := parse
  fmtT := fmtNano
  unixT := Time.sec
  fmtUnix := fmtUnix
  upper s := if s = "sha-256" then "SHA-256" else if s = "sha-384" then "SHA-384" else
    if s = "sha-512" then "SHA-512" else s
  sprint _ := ""
  zeroT t := t.sec == -62135596800 && t.nsec == 0

/-- It is one. -/
def goEnvClock : GoClock goEnv where
  go t := t
  read _ := Option.map_id' ..
  print _ := rfl
  unix _ := rfl
  stamp _ := rfl
  zero t := by show (t.sec == _ && t.nsec == 0) = true ↔ _; simp

example : goEnv.toCEnv.Lawful := lawful_of_clock goEnvClock rfl rfl rfl

-- a date without a zone
example : ∃ w, parseTW goEnv.toCEnv "2024-02-29T12:34:56" = some w ∧ w.str = "2024-02-29T12:34:56" := by
  obtain ⟨w, h, -, h'⟩ := parseTW_written goEnvClock "2024-02-29T12:34:56" ⟨1709210096, 0, 0⟩
    (Or.inr ((parse_iff "2024-02-29T12:34:56Z" _).1 (by decide +kernel)))
  exact ⟨w, h, h'⟩

/-- A credential with real dates, one of them with an offset. -/
def tmCred : Cred goEnv.T :=
  ⟨[("@context", .json (.arr [.str v1ContextURI])), ("type", .json (.str "VerifiableCredential")),
    ("issuer", .json (.str "did:example:acme")),
    ("credentialSubject", .json (.obj [("id", .str "did:example:s"), ("degree", .str "BSc")])),
    ("issuanceDate", .json (.str "2010-01-01T19:23:24Z")),
    ("expirationDate", .json (.str "2030-12-31T23:59:59.5+01:00"))],
   { context := [v1ContextURI], customContext := [], id := "",
     types := ["VerifiableCredential"],
     subject := [⟨"did:example:s", [("degree", .str "BSc")]⟩],
     issuer := some ⟨"did:example:acme", []⟩,
     issued := some ⟨(⟨1262373804, 0, 0⟩ : Time), "2010-01-01T19:23:24Z"⟩,
     expired := some ⟨(⟨1924988399, 500000000, 3600⟩ : Time), "2030-12-31T23:59:59.5+01:00"⟩,
     status := [], schemas := [], evidence := .null, termsOfUse := [],
     refreshService := none, sdAlg := none, relRes := [] }, [], none, none⟩

theorem tmCred_agrees : Agrees goEnv.toCEnv tmCred := by
  have e1 : parse "2010-01-01T19:23:24Z" = some ⟨1262373804, 0, 0⟩ := by decide +kernel
  have e2 : parse "2030-12-31T23:59:59.5+01:00" = some ⟨1924988399, 500000000, 3600⟩ := by decide +kernel
  have h1 : parseTW goEnv.toCEnv "2010-01-01T19:23:24Z" =
      some ⟨(⟨1262373804, 0, 0⟩ : Time), "2010-01-01T19:23:24Z"⟩ := by
    unfold parseTW
    rw [show goEnv.parseT "2010-01-01T19:23:24Z" = some ⟨1262373804, 0, 0⟩ from e1]
  have h2 : parseTW goEnv.toCEnv "2030-12-31T23:59:59.5+01:00" =
      some ⟨(⟨1924988399, 500000000, 3600⟩ : Time), "2030-12-31T23:59:59.5+01:00"⟩ := by
    unfold parseTW
    rw [show goEnv.parseT "2030-12-31T23:59:59.5+01:00" = some ⟨1924988399, 500000000, 3600⟩ from e2]
  unfold Agrees
  rw [parseContents_iff]
  refine ⟨rfl, rfl, rfl, rfl, rfl, ⟨_, rfl, rfl⟩, rfl, rfl, rfl, rfl, ?_, ?_, rfl, rfl⟩
  · have hp : parseTime goEnv.toCEnv (GObj.at (ofWire (wireObj tmCred.json)) "issuanceDate") =
        (parseTW goEnv.toCEnv "2010-01-01T19:23:24Z").map some := rfl
    unfold parseTime2
    rw [hp, h1]; rfl
  · have hp : parseTime goEnv.toCEnv (GObj.at (ofWire (wireObj tmCred.json)) "expirationDate") =
        (parseTW goEnv.toCEnv "2030-12-31T23:59:59.5+01:00").map some := rfl
    unfold parseTime2
    rw [hp, h2]; rfl

-- the credential goes through minimized claims and back
example : ∃ r m o c, newJWTCredClaims goEnv tmCred true = .ok (r, m) ∧
    r.exp = some 1924988399 ∧
    decodeCredPayload goEnv (marshalCred ⟨some r, some (wireObj m)⟩) = .ok (some o) ∧
    parseContents goEnv.toCEnv (ofWire o) false = some c ∧ SameToSecond goEnv tmCred.contents c := by
  have hd : ∀ w, tmCred.contents.issued = some w ∨ tmCred.contents.expired = some w →
      InRange (goEnvClock.go w.t).sec ∧ ¬ ((goEnvClock.go w.t).sec = -62135596800 ∧
        (goEnvClock.go w.t).nsec = 0) := by
    rintro w (h | h) <;> cases h <;> exact ⟨⟨by decide, by decide⟩, by decide⟩
  obtain ⟨o, h1, c, h2, h3⟩ := jwt_claims_roundtrip_go goEnvClock tmCred tmCred_agrees true _ _ rfl hd
  exact ⟨_, _, o, c, rfl, rfl, h1, h2, h3⟩

-- an expiry in the year 10000 makes decoding fail
example (o : JObj) (b : Bool) (c : Contents goEnv.T)
    (h : decodeCredPayload goEnv [("iss", .str "did:example:a"), ("exp", .num (253402300800 : Int)),
      ("vc", .obj [("@context", .arr [.str v1ContextURI])])] = .ok (some o))
    (hc : parseContents goEnv.toCEnv (ofWire o) b = some c)
    (hv : ¬ IsV2 o) : False := by
  have := ((signed_dates goEnvClock _ o b c h hc).2 253402300800 rfl (Or.inl hv)).1
  revert this
  unfold InRange
  decide

end VC.Tm
