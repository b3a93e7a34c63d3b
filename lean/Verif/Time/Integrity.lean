import Verif.Time.RfcFmt
import Verif.DataIntegrity.RoundTrip
/-!
# C122: dates of data integrity proofs with Go's clock

`created` and `expires` are written with `time.RFC3339` (models.go:64-67), that is, without fractions of
a second, and compared with the clock after reading them back (verifier.go:144-168).
-/

namespace VC.Tm

open VC VC.DI VC.DI.Spec

/-- `a` is an earlier instant than `b`. -/
def Earlier (a b : Time) : Prop := a.sec < b.sec ∨ (a.sec = b.sec ∧ a.nsec < b.nsec)

/-- The time library of the environment is Go's, and verification happens at `now`. -/
structure IntClock (env : DI.Env) (now : Time) where
  /-- the `time.Time` of a value -/
  go : env.T → Time
  read : ∀ s, (env.parseT s).map go = parse s
  print : ∀ t, env.fmtT t = fmtSec (go t)
  /-- 1 January of year 1, 00:00 UTC -/
  zero : ∀ t, env.isZero t = true ↔ (go t).sec = -62135596800 ∧ (go t).nsec = 0
  zeroT : env.isZero env.zeroT = true
  past : ∀ t, env.past t = true ↔ Earlier (go t) now

/-- The offsets RFC 3339 can print: whole minutes, less than 25 hours. -/
def Minutes (t : Time) : Prop := 60 ∣ t.off ∧ t.off.natAbs < 90000

/-- The local year is between 0 and 9999. -/
def FourDigits (t : Time) : Prop := -62167219200 ≤ t.sec + t.off ∧ t.sec + t.off ≤ 253402300799

variable {env : DI.Env} {now : Time}

theorem IntClock.read_some (ck : IntClock env now) {s : String} {t : env.T} (h : env.parseT s = some t) :
    parse s = some (ck.go t) := by rw [← ck.read, h]; rfl

theorem fmtSec_parse (t : Time) (hm : Minutes t) (hy : FourDigits t) :
    parse (fmtSec t) = some ⟨t.sec, 0, t.off⟩ := by
  rw [fmtSec_eq]
  exact fmtNano_parse ⟨t.sec, 0, t.off⟩ (by simp) hm.1 hm.2 hy.1 hy.2

theorem fmtSec_unreadable (t : Time) (hy : ¬ FourDigits t) : parse (fmtSec t) = none := by
  have h : yearOf (t.sec + t.off) < 0 ∨ 9999 < yearOf (t.sec + t.off) := by
    have := yearOf_range (t.sec + t.off)
    by_cases a : 0 ≤ yearOf (t.sec + t.off)
    · by_cases b : yearOf (t.sec + t.off) ≤ 9999
      · exact absurd (this.1 ⟨a, b⟩) hy
      · omega
    · omega
  unfold yearOf at h
  unfold parse fmtSec clockText
  rw [String.toList_ofList]
  simp only [List.append_assoc, List.cons_append]
  exact parseL_year h _

theorem IntClock.reread (ck : IntClock env now) {t : env.T} (hm : Minutes (ck.go t)) (hy : FourDigits (ck.go t)) :
    ∃ t', env.parseT (env.fmtT t) = some t' ∧ ck.go t' = ⟨(ck.go t).sec, 0, (ck.go t).off⟩ := by
  have := fmtSec_parse _ hm hy
  rw [← ck.print, ← ck.read] at this
  exact Option.map_eq_some_iff.1 this

theorem fmtSec_ne (t : Time) : fmtSec t ≠ "" := by
  intro h
  have := congrArg String.toList h
  unfold fmtSec clockText at this
  rw [String.toList_ofList] at this
  simp at this

/-- **C122.** A date of a proof (with an offset RFC 3339 can print) is read back as signed exactly when
its local year has four digits and it is not within the first second of Go's zero time. -/
theorem survives_iff (ck : IntClock env now) (t : env.T) (hm : Minutes (ck.go t)) :
    Survives env t ↔ FourDigits (ck.go t) ∧ ((ck.go t).sec = -62135596800 → (ck.go t).nsec = 0) := by
  unfold Survives
  constructor
  · rintro ⟨-, t', h1, h2, h3⟩
    have hy : FourDigits (ck.go t) := by
      by_cases hy : FourDigits (ck.go t)
      · exact hy
      · have := fmtSec_unreadable _ hy
        rw [← ck.print, ck.read_some h1] at this
        cases this
    refine ⟨hy, fun hs => ?_⟩
    obtain ⟨t'', g1, g2⟩ := ck.reread hm hy
    rw [h1] at g1
    obtain rfl := Option.some.inj g1
    have : env.isZero t' = true := (ck.zero t').2 (by rw [g2]; exact ⟨hs, rfl⟩)
    exact ((ck.zero t).1 (h3 ▸ this)).2
  · rintro ⟨hy, hz⟩
    obtain ⟨t', g1, g2⟩ := ck.reread hm hy
    refine ⟨by rw [ck.print]; exact fmtSec_ne _, t', g1, ?_, ?_⟩
    · rw [ck.print, ck.print, g2]; rfl
    · rw [Bool.eq_iff_iff, ck.zero, ck.zero, g2]
      constructor
      · rintro ⟨h, -⟩; exact ⟨h, hz h⟩
      · rintro ⟨h, -⟩; exact ⟨h, rfl⟩

/-- **C122.** An expiry is still good at verification exactly when the clock has not passed the whole
second it falls in: the fraction is cut off. -/
theorem notExpired_iff (ck : IntClock env now) (t : env.T) (hm : Minutes (ck.go t))
    (h0 : env.isZero t = false) (hs : Survives env t) :
    NotExpired env t ↔ now.sec < (ck.go t).sec ∨ (now.sec = (ck.go t).sec ∧ now.nsec = 0) := by
  have hy := ((survives_iff ck t hm).1 hs).1
  obtain ⟨t', g1, g2⟩ := ck.reread hm hy
  have hp : env.past t' = false ↔ now.sec < (ck.go t).sec ∨ (now.sec = (ck.go t).sec ∧ now.nsec = 0) := by
    rw [← Bool.not_eq_true, ck.past, g2]
    unfold Earlier
    dsimp only
    omega
  unfold NotExpired
  rw [h0]
  constructor
  · rintro (h | ⟨-, h⟩)
    · cases h
    · exact hp.1 (h t' g1)
  · intro h
    refine Or.inr ⟨hs, fun t'' g => ?_⟩
    rw [g1] at g
    obtain rfl := Option.some.inj g
    exact hp.2 h

/-- The dates of signing options that a proof carries: `created` anything that can be printed,
`expires` absent or a second that has not passed at `now`. -/
structure Dated (now created expires : Time) : Prop where
  created : Minutes created ∧ FourDigits created ∧ (created.sec = -62135596800 → created.nsec = 0)
  expires : (expires.sec = -62135596800 ∧ expires.nsec = 0) ∨
    (Minutes expires ∧ FourDigits expires ∧ expires.sec ≠ -62135596800 ∧
      (now.sec < expires.sec ∨ (now.sec = expires.sec ∧ now.nsec = 0)))

/-- **C122 (C51 with Go's clock).** A document without a proof, signed by `AddProof` with printable
dates, verifies with the same expectations at every moment up to the second of its expiry.  The other
conditions are those of C51. -/
theorem sign_verify_roundtrip_go_partial (ck : IntClock env now) {suites vs : GoMap (Suite env)}
    (std : Standard env suites) (vstd : Standard env vs)
    (mb : ∀ b, env.mbDecode (env.mbEncode b) = some b)
    {doc doc' : JObj} {o vo : Opts env.T} (hvm : o.vm = none) (hpt : o.proofType = "DataIntegrityProof")
    (hreg : ∀ n, SameFamily n o.suiteType → (GoMap.get? vs n).isSome)
    (hkey : ∀ r v, env.resolver = some r → Resolves r o.purpose o.vmID v →
      v.id = o.vmID ∧ SignsFor env o.suiteType v)
    (hd : Dated now (ck.go o.created) (ck.go o.expires))
    (hdoc : GoMap.get? doc "proof" = none) (hexp : Expects env o vo)
    (h : addProof env suites doc o = .ok doc') : (verifyProof env vs doc' vo).1 = .ok () := by
  refine sign_verify_roundtrip_partial env std vstd ck.zeroT mb hvm hpt hreg hkey
    ((survives_iff ck _ hd.created.1).2 ⟨hd.created.2.1, hd.created.2.2⟩) ?_ hdoc hexp h
  rcases hd.expires with h0 | ⟨hm, hy, hne, hnow⟩
  · exact Or.inl ((ck.zero _).2 h0)
  · have hs : Survives env o.expires := (survives_iff ck _ hm).2 ⟨hy, fun e => absurd e hne⟩
    have h0 : env.isZero o.expires = false := by
      rw [← Bool.not_eq_true, ck.zero]; exact fun e => hne e.1
    exact (notExpired_iff ck _ hm h0 hs).2 hnow

/-- **C122, enforcement.** A document accepted at `now` with its one proof naming an expiry: the text is
an RFC 3339 time, and `now` is not after it. -/
theorem accepted_unexpired (ck : IntClock env now) {vs : GoMap (Suite env)} (vstd : Standard env vs)
    (ext : CanonExt env) {doc : JObj} {raw : Json} (hone : OnlyProof doc raw) {o : Opts env.T} (hf : Fresh env o)
    (h : (verifyProof env vs doc o).1 = .ok ()) :
    ∃ p, IsProof raw p ∧ (p.expires ≠ "" → ∃ t, Written p.expires.toList t ∧ ¬ Earlier t now) := by
  obtain ⟨p, h1, -, h3⟩ := (verify_single_iff env vstd ck.zeroT ext hone hf).1 h
  refine ⟨p, h1, fun hne => ?_⟩
  rcases h3.unexpired with h | ⟨t, ht, hp⟩
  · exact absurd h hne
  · refine ⟨ck.go t, (parse_iff _ _).1 (ck.read_some ht), ?_⟩
    rw [← ck.past, hp]
    simp

/-- **C122 is violated within the last second.** A proof whose expiry has a fraction of a second is
refused in the second of its expiry, before it expires. -/
theorem expires_early (ck : IntClock env now) {suites vs : GoMap (Suite env)}
    (std : Standard env suites) {doc doc' : JObj} {o vo : Opts env.T} (hvm : o.vm = none)
    (hm : Minutes (ck.go o.expires)) (hy : FourDigits (ck.go o.expires))
    (hne : (ck.go o.expires).sec ≠ -62135596800)
    (hnow : now.sec = (ck.go o.expires).sec) (hfrac : 0 < now.nsec)
    (h : addProof env suites doc o = .ok doc') : (verifyProof env vs doc' vo).1 ≠ .ok () := by
  obtain ⟨s, r, v, p, o1, -, -, -, -, -, rfl, -, -, -, -, -, -, hexpi, -⟩ := addProof_ok env std hvm h
  have h0 : env.isZero o.expires = false := by
    rw [← Bool.not_eq_true, ck.zero]; exact fun e => hne e.1
  rw [h0] at hexpi
  obtain ⟨t', g1, g2⟩ := ck.reread hm hy
  have hpast : env.past t' = true := by
    rw [ck.past, g2]; exact Or.inr ⟨hnow.symm, hfrac⟩
  have hone : OnlyProof (GoMap.set doc "proof" (.obj (marshalProof p))) (.obj (marshalProof p)) :=
    Or.inr ⟨GoMap.get?_set_self _ _ _, by simp, by simp⟩
  rw [onlyProof_loop env hone]
  intro hok
  have : verifyOne env vs (GoMap.del (GoMap.set doc "proof" (.obj (marshalProof p))) "proof")
      (.obj (marshalProof p)) vo = (.ok (), (verifyOne env vs
      (GoMap.del (GoMap.set doc "proof" (.obj (marshalProof p))) "proof") (.obj (marshalProof p)) vo).2) := by
    rw [← hok]
  obtain ⟨p', _, _, _, hp', _, _, _, _, _, _, hwe, _⟩ := (verifyOne_ok_iff env vs _ _ _ _).1 this
  rw [parse_marshal] at hp'
  obtain rfl := Option.some.inj hp'
  rcases (withExpires_iff env).1 hwe with ⟨he, -⟩ | ⟨-, t, ht, hp, -⟩
  · rw [hexpi] at he
    simp only [Bool.false_eq_true, if_false] at he
    rw [ck.print] at he
    exact fmtSec_ne _ he
  · rw [hexpi] at ht
    simp only [Bool.false_eq_true, if_false] at ht
    rw [g1] at ht
    obtain rfl := Option.some.inj ht
    rw [hpast] at hp
    cases hp

/-! ## Instances -/

/-- The toy cryptography of C51's examples with Go's clock, at `now`. -/
def tiEnv (now : Time) : DI.Env where
  T := Time
  zeroT := ⟨-62135596800, 0, 0⟩
  isZero t := decide (t.sec = -62135596800 ∧ t.nsec = 0)
  parseT := parse
  fmtT := fmtSec
  past t := decide (t.sec < now.sec ∨ (t.sec = now.sec ∧ t.nsec < now.nsec))
  canon := exCanon
  hash _ b := b
  mbDecode := exDec
  mbEncode := exEnc
  ecKey _ b := b
  verify sig msg pk := sig == exKeyBytes pk ++ msg
  sign := exSign
  resolver := some exResolve

/-- It is Go's clock. -/
def tiClock (now : Time) : IntClock (tiEnv now) now where
  go t := t
  read s := by show (parse s).map (fun t => t) = _; cases parse s <;> rfl
  print _ := rfl
  zero t := by simp [tiEnv]
  zeroT := rfl
  past t := by simp [tiEnv, Earlier]

/-- Both suites. -/
def tiSuites (now : Time) : GoMap (Suite (tiEnv now)) :=
  newSuites [] [(ecdsaTypes, ecdsaSuite (tiEnv now)), (eddsaTypes, eddsaSuite (tiEnv now))]

theorem tiSuites_std (now : Time) : Standard (tiEnv now) (tiSuites now) :=
  newSuites_standard _ _ (by
    intro i hi
    simp only [List.mem_cons, List.not_mem_nil, or_false] at hi
    exact hi)

/-- Signed on 29 February 2024, expiring half a second after 10:00:00. -/
def tiSign (now : Time) : Opts (tiEnv now).T :=
  ⟨"assertionMethod", "did:a#k", none, "DataIntegrityProof", "ecdsa-2019", "dom", "ch",
    (⟨1709164800, 123, 3600⟩ : Time), (⟨1709200800, 500000000, 3600⟩ : Time)⟩

/-- The verifier's options. -/
def tiVer (now : Time) : Opts (tiEnv now).T :=
  ⟨"assertionMethod", "", none, "DataIntegrityProof", "", "dom", "ch",
    (⟨-62135596800, 0, 0⟩ : Time), (⟨-62135596800, 0, 0⟩ : Time)⟩

-- signing works; a second before the expiry the document verifies
/-- The moment. -/
def tiNow : Time := ⟨1709200799, 999999999, 0⟩

example : (addProof (tiEnv tiNow) (tiSuites tiNow) exBare (tiSign tiNow)).isOk = true := by decide +kernel

example (doc' : JObj)
    (h : addProof (tiEnv tiNow) (tiSuites tiNow) exBare (tiSign tiNow) = .ok doc') :
    (verifyProof (tiEnv tiNow) (tiSuites tiNow) doc' (tiVer tiNow)).1 = .ok () := by
  refine sign_verify_roundtrip_go_partial (tiClock tiNow) (doc := exBare) (o := tiSign tiNow) (tiSuites_std tiNow)
    (tiSuites_std tiNow) exE_mb rfl rfl ?_ ?_ ⟨⟨⟨?_, ?_⟩, ⟨?_, ?_⟩, ?_⟩, Or.inr ⟨⟨?_, ?_⟩, ⟨?_, ?_⟩, ?_, Or.inl ?_⟩⟩
    rfl ⟨rfl, rfl, rfl, rfl, rfl, rfl, rfl, rfl, Or.inr ⟨rfl, by decide⟩⟩ h
  · intro n hn
    rcases hn with ⟨hn, _⟩ | ⟨_, hn⟩
    · rcases hn with rfl | rfl <;> rfl
    · exact absurd hn (by decide)
  · intro r v hr hv
    cases hr
    rw [← lookupVM_iff] at hv
    have hl : lookupVM exResolve "assertionMethod" "did:a#k" = some ⟨"did:a#k", some ⟨"P-256", [7]⟩, []⟩ := rfl
    rw [show (tiSign tiNow).purpose = "assertionMethod" from rfl, show (tiSign tiNow).vmID = "did:a#k" from rfl, hl] at hv
    cases hv
    refine ⟨rfl, ?_⟩
    intro pk ha msg sig hk hs
    have hk := (ecdsaKey_iff (tiEnv tiNow) "ecdsa-2019" (Or.inl rfl) _ _ _).2 hk
    cases hk
    have hs : exSign (some ⟨"P-256", [7]⟩) msg = some sig := hs
    cases hs
    show ((7 :: msg) == _) = true
    exact beq_self_eq_true _
  all_goals decide

-- a nanosecond into the second of its expiry it does not, though it expires half a second in
example (doc' : JObj)
    (h : addProof (tiEnv ⟨1709200800, 1, 0⟩) (tiSuites _) exBare (tiSign _) = .ok doc') :
    ¬ Earlier (tiSign ⟨1709200800, 1, 0⟩).expires ⟨1709200800, 1, 0⟩ ∧
      (verifyProof (tiEnv ⟨1709200800, 1, 0⟩) (tiSuites _) doc' (tiVer _)).1 ≠ .ok () :=
  ⟨by unfold Earlier; decide, expires_early (tiClock _) (tiSuites_std _) rfl ⟨by decide, by decide⟩
    ⟨by decide, by decide⟩ (by decide) rfl (by decide) h⟩

end VC.Tm
