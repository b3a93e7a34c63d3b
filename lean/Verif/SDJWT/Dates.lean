import Verif.SDJWT.VerifierProps
import Verif.Num.Keep
/-!
# C141: the dates, nonce and audience of SD-JWTs, as they are written

`VerifyJWT` (sdjwt/common/verification.go:58-86) and the holder binding checks (sdjwt/verifier/keybidning.go:24-54,
holderbidning.go:24-55) decode a claims map with mapstructure, weakly typed, with the hook of
util/maphelpers/mapstruct.go:21-44.  `VerifierModel.lean` leaves that decoding a parameter; here it is modelled.

Assumed of the libraries (their source is not in the sandbox): go-jose's decoder keeps number texts
(jwt.go:391-392); mapstructure looks a member up by its exact name, else by the first name in map order that is equal
under case folding; it leaves a field alone for `null`, and in weak mode takes a string for an integer by
`strconv.ParseInt(s, 0, 64)` ("" for 0), a boolean for 0 or 1, a number or boolean for a text; go-jose's
`NewNumericDate` is nil for the zero time, and mapstructure panics decoding that nil pointer into an integer.
-/

namespace VC.SDJWT
open VC VC.Num

/-! ## Model -/

/-- What the decoding does outside this repository. -/
structure Conv where
  /-- `strings.EqualFold` -/
  fold : String → String → Bool
  /-- the text of a number in the document (simplified: one text for equal numbers) -/
  text : Rat → String
  /-- `int64` of a float64 outside its range: up to the processor -/
  wrap : Rat → Int
  /-- `strconv.ParseInt(s, 0, 64)` -/
  parseInt : String → Option Int

/-- The outcome of decoding one claim or all of them. -/
inductive Dec (α : Type) where
  | ok (a : α)
  | err
  | panic

/-- The member a field is filled from: the exact name first. The order of the list is that of the Go map's iteration. -/
def member (C : Conv) (m : JObj) (k : String) : Option Json :=
  match GoMap.get? m k with
  | some v => some v
  | none => (m.find? (fun p => C.fold p.1 k)).map (·.2)

/-- `int64(parsedFloat)`, mapstruct.go:36. -/
def toInt64 (C : Conv) (x : Rat) : Int :=
  if -2 ^ 63 ≤ x ∧ x < 2 ^ 63 then (if 0 ≤ x then ⌊x⌋ else ⌈x⌉) else C.wrap x

/-- A claim decoded into a `*jwt.NumericDate`, mapstruct.go:27-43. -/
def decDate (C : Conv) : Option Json → Dec (Option Int)
  | none | some .null => .ok none
  | some (.num q) =>
    match toFloat q with
    | none => .err
    | some x => if toInt64 C x = -62135596800 then .panic else .ok (some (toInt64 C x))
  | some (.bool b) => .ok (some (if b then 1 else 0))
  | some (.str s) =>
    match C.parseInt (if s = "" then "0" else s) with
    | none => .err
    | some n => .ok (some n)
  | some (.arr _) | some (.obj _) => .err

/-- A claim decoded into a `string`. -/
def decText (C : Conv) : Option Json → Dec String
  | none | some .null => .ok ""
  | some (.num q) => .ok (C.text q)
  | some (.bool b) => .ok (if b then "1" else "0")
  | some (.str s) => .ok s
  | some (.arr _) | some (.obj _) => .err

/-- The elements of an audience list are texts. -/
def isText : Json → Bool
  | .arr _ | .obj _ => false
  | _ => true

/-- A claim decoded into a `jwt.Audience`: whether it succeeds. -/
def decAud : Option Json → Bool
  | some (.arr l) => l.all isText
  | some (.obj m) => m.isEmpty
  | _ => true

/-- One claim after the other: a panic wins over an error. -/
def Dec.both {α β : Type} (a : Dec α) (b : Dec β) : Dec (α × β) :=
  match a, b with
  | .panic, _ | _, .panic => .panic
  | .err, _ | _, .err => .err
  | .ok x, .ok y => .ok (x, y)

/-- The decoding into `jwt.Claims`, verification.go:59-74. -/
def decClaims (C : Conv) (m : JObj) : Dec Times :=
  match (decDate C (member C m "exp")).both ((decDate C (member C m "nbf")).both ((decDate C (member C m "iat")).both
      ((decText C (member C m "iss")).both ((decText C (member C m "sub")).both ((decText C (member C m "jti")).both
        (if decAud (member C m "aud") then Dec.ok () else .err)))))) with
  | .ok (e, n, i, _) => .ok ⟨n, e, i⟩
  | .err => .err
  | .panic => .panic

/-- The decoding into `keyBindingPayload` / `holderBindingPayload`, keybidning.go:24-41, 49-54: nonce and audience. -/
def decBinding (C : Conv) (m : JObj) : Dec (String × String) :=
  match (decText C (member C m "nonce")).both ((decText C (member C m "aud")).both (decDate C (member C m "iat"))) with
  | .ok (n, a, _) => .ok (n, a)
  | .err => .err
  | .panic => .panic

/-- Only what was decoded is used. -/
def Dec.some? {α : Type} : Dec α → Option α
  | .ok a => some a
  | _ => none

/-- The verifier with the decoding filled in. -/
def VLib.std (lib : VLib) (C : Conv) : VLib :=
  { lib with times := fun m => (decClaims C m).some?, binding := fun m => (decBinding C m).some? }

/-! ## Specification -/

namespace Spec

/-- The member that stands for a claim: the one of that name, else the first of a name equal under case folding. -/
def Named (C : Conv) (m : JObj) (k : String) (v : Json) : Prop :=
  GoMap.get? m k = some v ∨
  (GoMap.get? m k = none ∧ ∃ pre k' post, m = pre ++ (k', v) :: post ∧ C.fold k' k = true ∧
    ∀ x ∈ pre, C.fold x.1 k = false)

/-- A number stands for this second: the nearest float64 number without its fraction. -/
def Second (C : Conv) (q : Rat) (n : Int) : Prop :=
  ∃ x, toFloat q = some x ∧
    ((0 ≤ x ∧ x < 2 ^ 63 ∧ (n : Rat) ≤ x ∧ x < n + 1) ∨ (-2 ^ 63 ≤ x ∧ x < 0 ∧ (n : Rat) - 1 < x ∧ x ≤ n) ∨
     ((x < -2 ^ 63 ∨ 2 ^ 63 ≤ x) ∧ n = C.wrap x))

/-- A value states a date. -/
inductive States (C : Conv) : Json → Int → Prop
  | number {q n} : Second C q n → n ≠ -62135596800 → States C (.num q) n
  | yes : States C (.bool true) 1
  | no : States C (.bool false) 0
  | empty {n} : C.parseInt "0" = some n → States C (.str "") n
  | text {s n} : s ≠ "" → C.parseInt s = some n → States C (.str s) n

/-- The claim states a date. -/
def Date (C : Conv) (m : JObj) (k : String) (n : Int) : Prop := ∃ v, Named C m k v ∧ States C v n

/-- The claim is a date, null or missing. -/
def GoodDate (C : Conv) (m : JObj) (k : String) : Prop := ∀ v, Named C m k v → v = .null ∨ ∃ n, States C v n

/-- The claim is no list and no object. -/
def GoodText (C : Conv) (m : JObj) (k : String) : Prop :=
  ∀ v, Named C m k v → (∀ l, v ≠ .arr l) ∧ ∀ o, v ≠ .obj o

/-- The audience: anything but an object with members or a list with a list or an object in it. -/
def GoodAud (C : Conv) (m : JObj) : Prop :=
  ∀ v, Named C m "aud" v → (∀ o, v = .obj o → o = []) ∧
    ∀ l, v = .arr l → ∀ x ∈ l, (∀ l', x ≠ .arr l') ∧ ∀ o, x ≠ .obj o

/-- All registered claims have a readable form. -/
structure Readable (C : Conv) (m : JObj) : Prop where
  exp : GoodDate C m "exp"
  nbf : GoodDate C m "nbf"
  iat : GoodDate C m "iat"
  iss : GoodText C m "iss"
  sub : GoodText C m "sub"
  jti : GoodText C m "jti"
  aud : GoodAud C m

/-- The text a value stands for. -/
inductive Reads (C : Conv) : Json → String → Prop
  | text (s) : Reads C (.str s) s
  | number (q) : Reads C (.num q) (C.text q)
  | yes : Reads C (.bool true) "1"
  | no : Reads C (.bool false) "0"

end Spec
open Spec

/-! ## Proofs -/

theorem member_iff (C : Conv) (m : JObj) (k : String) (v : Json) : member C m k = some v ↔ Named C m k v := by
  unfold member Named
  cases h : GoMap.get? m k with
  | some w => simp
  | none =>
    simp only [false_or, true_and, Option.map_eq_some_iff, reduceCtorEq]
    constructor
    · rintro ⟨⟨k', w⟩, h1, h2⟩
      rw [List.find?_eq_some_iff_append] at h1
      obtain ⟨hf, pre, post, rfl, hp⟩ := h1
      subst h2
      exact ⟨pre, k', post, rfl, hf, fun x hx => by simpa using hp x hx⟩
    · rintro ⟨pre, k', post, rfl, hf, hp⟩
      refine ⟨(k', v), ?_, rfl⟩
      rw [List.find?_eq_some_iff_append]
      exact ⟨hf, pre, post, rfl, fun x hx => by simp [hp x hx]⟩

theorem second_iff (C : Conv) (q : Rat) (n : Int) :
    Second C q n ↔ ∃ x, toFloat q = some x ∧ toInt64 C x = n := by
  unfold Second
  refine exists_congr fun x => and_congr_right fun _ => ?_
  unfold toInt64
  have hb : (0 : Rat) < 2 ^ 63 := by norm_num
  by_cases h : -2 ^ 63 ≤ x ∧ x < 2 ^ 63
  · rw [if_pos h]
    by_cases h0 : 0 ≤ x
    · rw [if_pos h0, Int.floor_eq_iff]
      constructor
      · rintro (⟨-, -, a, b⟩ | ⟨-, a, -⟩ | ⟨a | a, -⟩)
        · exact ⟨a, b⟩
        · linarith
        · linarith [h.1]
        · linarith [h.2]
      · exact fun a => .inl ⟨h0, h.2, a.1, a.2⟩
    · rw [if_neg h0, Int.ceil_eq_iff]
      constructor
      · rintro (⟨a, -⟩ | ⟨-, -, a, b⟩ | ⟨a | a, -⟩)
        · exact absurd a h0
        · exact ⟨a, b⟩
        · linarith [h.1]
        · linarith [h.2]
      · exact fun a => .inr (.inl ⟨h.1, not_le.mp h0, a.1, a.2⟩)
  · rw [if_neg h]
    have h' : x < -2 ^ 63 ∨ 2 ^ 63 ≤ x := by
      by_contra hc
      rw [not_or, not_lt, not_le] at hc
      exact h hc
    constructor
    · rintro (⟨a, b, -⟩ | ⟨a, b, -⟩ | ⟨-, a⟩)
      · exact absurd ⟨by linarith, b⟩ h
      · exact absurd ⟨a, by linarith⟩ h
      · exact a.symm
    · exact fun a => .inr (.inr ⟨h', a.symm⟩)

theorem decDate_num (C : Conv) (q : Rat) : decDate C (some (.num q)) = match toFloat q with
    | none => .err
    | some x => if toInt64 C x = -62135596800 then .panic else .ok (some (toInt64 C x)) := rfl

theorem decDate_str (C : Conv) (s : String) : decDate C (some (.str s)) =
    match C.parseInt (if s = "" then "0" else s) with
    | none => .err
    | some n => .ok (some n) := rfl

theorem decDate_states (C : Conv) (v : Json) (n : Int) : decDate C (some v) = .ok (some n) ↔ States C v n := by
  cases v with
  | null => exact ⟨(fun h => by cases h), (fun h => by cases h)⟩
  | bool b =>
    cases b
    · constructor
      · intro h; cases h; exact .no
      · intro h; cases h; rfl
    · constructor
      · intro h; cases h; exact .yes
      · intro h; cases h; rfl
  | num q =>
    rw [decDate_num]
    constructor
    · intro h
      cases hf : toFloat q with
      | none => simp [hf] at h
      | some x =>
        simp only [hf] at h
        split at h
        · cases h
        · next hz =>
          cases h
          exact .number ((second_iff C q _).mpr ⟨x, hf, rfl⟩) hz
    · rintro (⟨h, hz⟩)
      obtain ⟨x, hf, rfl⟩ := (second_iff C q n).mp h
      simp only [hf]
      rw [if_neg hz]
  | str s =>
    rw [decDate_str]
    constructor
    · intro h
      by_cases hs : s = ""
      · subst hs
        rw [if_pos rfl] at h
        cases hp : C.parseInt "0" with
        | none => simp [hp] at h
        | some k => simp only [hp] at h; cases h; exact .empty hp
      · rw [if_neg hs] at h
        cases hp : C.parseInt s with
        | none => simp [hp] at h
        | some k => simp only [hp] at h; cases h; exact .text hs hp
    · generalize hv : Json.str s = v
      intro h
      cases h with
      | empty hp => cases hv; simp [hp]
      | text hs hp => cases hv; simp [hs, hp]
      | _ => cases hv
  | arr l => exact ⟨(fun h => by cases h), (fun h => by cases h)⟩
  | obj o => exact ⟨(fun h => by cases h), (fun h => by cases h)⟩

theorem decDate_none (C : Conv) (o : Option Json) : decDate C o = .ok none ↔ o = none ∨ o = some .null := by
  cases o with
  | none => exact ⟨fun _ => .inl rfl, fun _ => rfl⟩
  | some v =>
    cases v with
    | null => exact ⟨fun _ => .inr rfl, fun _ => rfl⟩
    | num q =>
      refine ⟨fun h => ?_, fun h => by rcases h with h | h <;> cases h⟩
      rw [decDate_num] at h
      split at h
      · cases h
      · split at h <;> cases h
    | str s =>
      refine ⟨fun h => ?_, fun h => by rcases h with h | h <;> cases h⟩
      rw [decDate_str] at h
      split at h <;> cases h
    | bool b => exact ⟨(fun h => by cases h), fun h => by rcases h with h | h <;> cases h⟩
    | arr b => exact ⟨(fun h => by cases h), fun h => by rcases h with h | h <;> cases h⟩
    | obj b => exact ⟨(fun h => by cases h), fun h => by rcases h with h | h <;> cases h⟩

/-- A date claim decoded: what was found, and that it is good. -/
theorem decDate_ok (C : Conv) (m : JObj) (k : String) (d : Option Int) :
    decDate C (member C m k) = .ok d ↔ GoodDate C m k ∧ ∀ n, d = some n ↔ Date C m k n := by
  cases hm : member C m k with
  | none =>
    have hn : ∀ v, ¬ Named C m k v := fun v h => by rw [← member_iff, hm] at h; cases h
    constructor
    · intro h
      cases h
      exact ⟨fun v h => absurd h (hn v), fun n => ⟨(fun h => by cases h), fun ⟨v, h, _⟩ => absurd h (hn v)⟩⟩
    · rintro ⟨-, h⟩
      cases d with
      | none => rfl
      | some n =>
        obtain ⟨v, h, -⟩ := (h n).mp rfl
        exact absurd h (hn v)
  | some v =>
    have hn : ∀ w, Named C m k w ↔ w = v := fun w => by
      rw [← member_iff, hm]; exact ⟨(fun h => by cases h; rfl), (fun h => by rw [h])⟩
    have hd : ∀ n, Date C m k n ↔ decDate C (some v) = .ok (some n) := fun n => by
      rw [decDate_states]
      exact ⟨fun ⟨w, a, b⟩ => by rw [← (hn w).mp a]; exact b, fun h => ⟨v, (hn v).mpr rfl, h⟩⟩
    have hg : GoodDate C m k ↔ v = .null ∨ ∃ n, States C v n :=
      ⟨fun h => h v ((hn v).mpr rfl), fun h w hw => by rw [(hn w).mp hw]; exact h⟩
    constructor
    · intro h
      refine ⟨hg.mpr ?_, fun n => by rw [hd, h]; exact ⟨(fun e => by rw [e]), (fun e => by cases e; rfl)⟩⟩
      cases d with
      | none =>
        rcases (decDate_none C _).mp h with h | h
        · cases h
        · cases h; exact .inl rfl
      | some n => exact .inr ⟨n, (decDate_states C v n).mp h⟩
    · rintro ⟨h1, h2⟩
      rcases hg.mp h1 with rfl | ⟨n, hs⟩
      · cases d with
        | none => rfl
        | some n =>
          have := (hd n).mp ((h2 n).mp rfl)
          cases this
      · have e := (decDate_states C v n).mpr hs
        rw [(h2 n).mpr ((hd n).mpr e)]
        exact e

theorem decText_ok (C : Conv) (m : JObj) (k : String) :
    (∃ s, decText C (member C m k) = .ok s) ↔ GoodText C m k := by
  cases hm : member C m k with
  | none =>
    exact ⟨fun _ v h => by (rw [← member_iff, hm] at h; cases h), fun _ => ⟨_, rfl⟩⟩
  | some v =>
    have hn : ∀ w, Named C m k w ↔ w = v := fun w => by
      rw [← member_iff, hm]; exact ⟨(fun h => by cases h; rfl), (fun h => by rw [h])⟩
    have hg : GoodText C m k ↔ (∀ l, v ≠ .arr l) ∧ ∀ o, v ≠ .obj o :=
      ⟨fun h => h v ((hn v).mpr rfl), fun h w hw => by rw [(hn w).mp hw]; exact h⟩
    rw [hg]
    cases v <;> simp [decText]

theorem isText_iff (x : Json) : isText x = true ↔ (∀ l', x ≠ .arr l') ∧ ∀ o, x ≠ .obj o := by
  cases x <;> simp [isText]

theorem decAud_ok (C : Conv) (m : JObj) : decAud (member C m "aud") = true ↔ GoodAud C m := by
  cases hm : member C m "aud" with
  | none =>
    exact ⟨fun _ v h => by (rw [← member_iff, hm] at h; cases h), fun _ => rfl⟩
  | some v =>
    have hn : ∀ w, Named C m "aud" w ↔ w = v := fun w => by
      rw [← member_iff, hm]; exact ⟨(fun h => by cases h; rfl), (fun h => by rw [h])⟩
    have hg : GoodAud C m ↔ (∀ o, v = .obj o → o = []) ∧
        ∀ l, v = .arr l → ∀ x ∈ l, (∀ l', x ≠ .arr l') ∧ ∀ o, x ≠ .obj o :=
      ⟨fun h => h v ((hn v).mpr rfl), fun h w hw => by rw [(hn w).mp hw]; exact h⟩
    rw [hg]
    cases v with
    | arr l => simp only [decAud, List.all_eq_true, isText_iff]; simp
    | obj o => simp [decAud]
    | _ => simp [decAud]

theorem Dec.both_ok {α β : Type} (a : Dec α) (b : Dec β) (x : α) (y : β) :
    a.both b = .ok (x, y) ↔ a = .ok x ∧ b = .ok y := by
  cases a <;> cases b <;> simp [Dec.both]

theorem decClaims_ok (C : Conv) (m : JObj) (t : Times) : decClaims C m = .ok t ↔
    Readable C m ∧ (∀ n, t.exp = some n ↔ Date C m "exp" n) ∧ (∀ n, t.nbf = some n ↔ Date C m "nbf" n) ∧
      ∀ n, t.iat = some n ↔ Date C m "iat" n := by
  unfold decClaims
  constructor
  · intro h
    split at h
    · next e n i r hb =>
      cases h
      obtain ⟨a, s, u, w⟩ := r
      simp only [Dec.both_ok] at hb
      obtain ⟨h1, h2, h3, h4, h5, h6, h7⟩ := hb
      have g1 := (decDate_ok C m _ _).mp h1
      have g2 := (decDate_ok C m _ _).mp h2
      have g3 := (decDate_ok C m _ _).mp h3
      refine ⟨⟨g1.1, g2.1, g3.1, (decText_ok C m _).mp ⟨_, h4⟩, (decText_ok C m _).mp ⟨_, h5⟩,
        (decText_ok C m _).mp ⟨_, h6⟩, (decAud_ok C m).mp ?_⟩, g1.2, g2.2, g3.2⟩
      by_contra hc
      rw [if_neg hc] at h7
      cases h7
    · cases h
    · cases h
  · rintro ⟨hr, h1, h2, h3⟩
    obtain ⟨i, hi⟩ := (decText_ok C m _).mpr hr.iss
    obtain ⟨s, hs⟩ := (decText_ok C m _).mpr hr.sub
    obtain ⟨j, hj⟩ := (decText_ok C m _).mpr hr.jti
    rw [(decDate_ok C m "exp" t.exp).mpr ⟨hr.exp, h1⟩, (decDate_ok C m "nbf" t.nbf).mpr ⟨hr.nbf, h2⟩,
      (decDate_ok C m "iat" t.iat).mpr ⟨hr.iat, h3⟩, hi, hs, hj, if_pos ((decAud_ok C m).mpr hr.aud)]
    rfl

theorem goodDate_some (C : Conv) (m : JObj) (k : String) (h : GoodDate C m k) :
    ∃ d : Option Int, ∀ n, d = some n ↔ Date C m k n := by
  by_cases hd : ∃ n, Date C m k n
  · obtain ⟨n, hn⟩ := hd
    have e : decDate C (member C m k) = .ok (some n) := by
      obtain ⟨v, a, b⟩ := hn
      rw [(member_iff C m k v).mpr a]
      exact (decDate_states C v n).mpr b
    exact ⟨some n, ((decDate_ok C m k _).mp e).2⟩
  · exact ⟨none, fun n => ⟨(fun h => by cases h), fun h => absurd ⟨n, h⟩ hd⟩⟩

/-- **C141.**  The check of the dates succeeds exactly if every registered claim has a readable form, the dates that are
stated lie on the right side of the clock, give or take the leeway. -/
theorem dates_checked_iff (lib : VLib) (C : Conv) (now leeway : Int) (m : JObj) :
    verifyJWT (lib.std C) now leeway m = .ok () ↔ Readable C m ∧
      (∀ n, Date C m "exp" n → now ≤ n * 1000000000 + leeway) ∧
      (∀ n, Date C m "nbf" n → n * 1000000000 ≤ now + leeway) ∧
      (∀ n, Date C m "iat" n → n * 1000000000 ≤ now + leeway) := by
  rw [verifyJWT_iff]
  have e : ∀ t, (lib.std C).times m = some t ↔ decClaims C m = .ok t := by
    intro t
    show (decClaims C m).some? = some t ↔ _
    cases decClaims C m <;> simp [Dec.some?]
  constructor
  · rintro ⟨t, h1, h2⟩
    obtain ⟨hr, a, b, c⟩ := (decClaims_ok C m t).mp ((e t).mp h1)
    exact ⟨hr, fun n hn => h2.exp n ((a n).mpr hn), fun n hn => h2.nbf n ((b n).mpr hn),
      fun n hn => h2.iat n ((c n).mpr hn)⟩
  · rintro ⟨hr, a, b, c⟩
    obtain ⟨x, hx⟩ := goodDate_some C m _ hr.exp
    obtain ⟨y, hy⟩ := goodDate_some C m _ hr.nbf
    obtain ⟨z, hz⟩ := goodDate_some C m _ hr.iat
    exact ⟨⟨y, x, z⟩, (e _).mpr ((decClaims_ok C m _).mpr ⟨hr, hx, hy, hz⟩),
      ⟨fun n hn => b n ((hy n).mp hn), fun n hn => a n ((hx n).mp hn), fun n hn => c n ((hz n).mp hn)⟩⟩

/-- **C141.**  The second a number stands for is on the same side of every whole second of the next 285 million years
(2^53 seconds) as the number itself: dates are neither stretched nor cut by reading them as float64. -/
theorem second_order (C : Conv) {q : Rat} {s : Int} (h : Second C q s) (hl : -2 ^ 63 ≤ q) (hu : q ≤ 2 ^ 62) {n : Int}
    (hn : |n| ≤ 2 ^ 53) : ((n : Rat) ≤ q → n ≤ s) ∧ (q ≤ (n : Rat) → s ≤ n) := by
  obtain ⟨x, hx, hs⟩ := h
  have fl : IsFloat (-2 ^ 63) := ⟨-1, 63, by norm_num, by norm_num, by norm_num, by norm_num⟩
  have fu : IsFloat (2 ^ 62) := ⟨1, 62, by norm_num, by norm_num, by norm_num, by norm_num⟩
  have xl := toFloat_mono (toFloat_self fl) hx hl
  have xu := toFloat_mono hx (toFloat_self fu) hu
  have big : (2 : Rat) ^ 62 < 2 ^ 63 := by norm_num
  have fn := toFloat_self (isFloat_int hn)
  have a1 : (n : Rat) ≤ q → (n : Rat) ≤ x := fun h => toFloat_mono fn hx h
  have a2 : q ≤ (n : Rat) → x ≤ (n : Rat) := fun h => toFloat_mono hx fn h
  constructor
  · intro h
    have h := a1 h
    rcases hs with ⟨-, -, -, b⟩ | ⟨-, -, -, b⟩ | ⟨b | b, -⟩
    · have : (n : Rat) < s + 1 := lt_of_le_of_lt h b
      have : n < s + 1 := by exact_mod_cast this
      omega
    · exact_mod_cast h.trans b
    · linarith
    · linarith
  · intro h
    have h := a2 h
    rcases hs with ⟨-, -, b, -⟩ | ⟨-, -, b, -⟩ | ⟨b | b, -⟩
    · exact_mod_cast b.trans h
    · have : (s : Rat) - 1 < n := lt_of_lt_of_le b h
      have : s - 1 < n := by exact_mod_cast this
      omega
    · linarith
    · linarith

/-- Whole seconds are read exactly. -/
theorem second_exact (C : Conv) {n s : Int} (hn : |n| ≤ 2 ^ 53) : Second C n s ↔ s = n := by
  have hb : |(n : Rat)| ≤ 2 ^ 53 := by exact_mod_cast hn
  have hl := (abs_le.mp hb).1
  have hu := (abs_le.mp hb).2
  have hl' : -2 ^ 63 ≤ (n : Rat) := le_trans (by norm_num) hl
  have hu' : (n : Rat) ≤ 2 ^ 62 := le_trans hu (by norm_num)
  constructor
  · intro h
    have := second_order C h hl' hu' hn
    exact le_antisymm (this.2 le_rfl) (this.1 le_rfl)
  · rintro rfl
    refine ⟨s, toFloat_self (isFloat_int hn), ?_⟩
    by_cases h0 : (0 : Rat) ≤ s
    · exact .inl ⟨h0, lt_of_le_of_lt hu' (by norm_num), le_rfl, lt_add_one _⟩
    · exact .inr (.inl ⟨hl', not_le.mp h0, sub_one_lt _, le_rfl⟩)

/-- A presentation's issuer-signed claims. -/
def Issuer (lib : VLib) (o : VOpts) (s : String) (m : JObj) : Prop :=
  ∃ tok pl, JWT.parseAndCheckProof lib.jwt o.pc true o.detached (parsePresentation s).sdJWT = .ok (tok, pl) ∧
    tok.payload = m

/-- The claims of the presentation's holder JWT. -/
def HolderClaims (lib : VLib) (s : String) (m : JObj) : Prop :=
  (parsePresentation s).holderVerification ≠ "" ∧
    ∃ j, lib.jwt.parseJWS none (parsePresentation s).holderVerification = some j ∧ lib.jwt.payloadToMap j.payload = some m

/-- The dates of a claims map, all that are numbers, fit the clock. -/
structure OnTime (C : Conv) (now leeway : Int) (m : JObj) : Prop where
  exp : ∀ q, Named C m "exp" (.num q) → -2 ^ 63 ≤ q → ∀ n : Int, |n| ≤ 2 ^ 53 → q ≤ n → now ≤ n * 1000000000 + leeway
  nbf : ∀ q, Named C m "nbf" (.num q) → q ≤ 2 ^ 62 → ∀ n : Int, |n| ≤ 2 ^ 53 → n ≤ q → n * 1000000000 ≤ now + leeway
  iat : ∀ q, Named C m "iat" (.num q) → q ≤ 2 ^ 62 → ∀ n : Int, |n| ≤ 2 ^ 53 → n ≤ q → n * 1000000000 ≤ now + leeway

theorem onTime {lib : VLib} {C : Conv} {now leeway : Int} {m : JObj}
    (h : verifyJWT (lib.std C) now leeway m = .ok ()) : OnTime C now leeway m := by
  obtain ⟨hr, he, hnb, hia⟩ := (dates_checked_iff lib C now leeway m).mp h
  have st : ∀ k q, Named C m k (.num q) → GoodDate C m k → ∃ s, Second C q s ∧ Date C m k s := by
    intro k q hq hg
    rcases hg _ hq with h | ⟨s, h⟩
    · cases h
    · cases h with
      | number h1 h2 => exact ⟨s, h1, _, hq, .number h1 h2⟩
  have low : ∀ (q : Rat) (n : Int), |n| ≤ 2 ^ 53 → (n : Rat) ≤ q → -2 ^ 63 ≤ q := by
    intro q n hn h
    have hb : |(n : Rat)| ≤ 2 ^ 53 := by exact_mod_cast hn
    exact le_trans (le_trans (by norm_num) (abs_le.mp hb).1) h
  have high : ∀ (q : Rat) (n : Int), |n| ≤ 2 ^ 53 → q ≤ (n : Rat) → q ≤ 2 ^ 62 := by
    intro q n hn h
    have hb : |(n : Rat)| ≤ 2 ^ 53 := by exact_mod_cast hn
    exact le_trans h (le_trans (abs_le.mp hb).2 (by norm_num))
  refine ⟨?_, ?_, ?_⟩
  · intro q hq hl n hn hqn
    obtain ⟨s, h1, h2⟩ := st _ q hq hr.exp
    have a := (second_order C h1 hl (high q n hn hqn) hn).2 hqn
    have b := he s h2
    omega
  · intro q hq hu n hn hqn
    obtain ⟨s, h1, h2⟩ := st _ q hq hr.nbf
    have a := (second_order C h1 (low q n hn hqn) hu hn).1 hqn
    have b := hnb s h2
    omega
  · intro q hq hu n hn hqn
    obtain ⟨s, h1, h2⟩ := st _ q hq hr.iat
    have a := (second_order C h1 (low q n hn hqn) hu hn).1 hqn
    have b := hia s h2
    omega

/-- **C141.**  Nothing is accepted after the second its `exp` ends in or before the second its `nbf` or `iat` begins in,
whatever numbers are written there; this goes for the issuer's claims and for the holder's. -/
theorem accepted_on_time (lib : VLib) (C : Conv) (o : VOpts) (order : DMap → List String) (s : String) (out : JObj)
    (h : verifierParse (lib.std C) o order s = .ok out) :
    (∃ m, Issuer lib o s m ∧ OnTime C o.now o.leeway m) ∧
    ((parsePresentation s).holderVerification ≠ "" → ∃ m, HolderClaims lib s m ∧ OnTime C o.nowHolder o.leeway m) := by
  obtain ⟨tok, ha, -⟩ := (verifier_parse_iff _ _ _ _ _).mp h
  obtain ⟨pl, hp⟩ := ha.proof
  constructor
  · exact ⟨_, ⟨tok, pl, hp, rfl⟩, onTime (lib := lib) ((verifyJWT_iff _ _ _ _).mpr ha.time)⟩
  · intro hv
    rcases ha.holder with ⟨h0, -⟩ | ⟨-, ⟨k, j, m, alg, t, n, au, -, p1, -, p2, -, -, -, p3, p4, -⟩⟩
    · exact absurd h0 hv
    · exact ⟨m, ⟨hv, j, p1, p2⟩, onTime (lib := lib) ((verifyJWT_iff _ _ _ _).mpr ⟨t, p3, p4⟩)⟩

/-- **C141.**  With a nonce expected, the holder's JWT carries a claim `nonce` that reads as that nonce: the text itself,
a number written so, or a boolean for "1" and "0"; likewise for the audience. -/
theorem accepted_nonce (lib : VLib) (C : Conv) (o : VOpts) (order : DMap → List String) (s : String) (out : JObj)
    (h : verifierParse (lib.std C) o order s = .ok out) (hv : (parsePresentation s).holderVerification ≠ "") :
    ∃ m, HolderClaims lib s m ∧
      (o.expectedNonce ≠ "" → ∃ v, Named C m "nonce" v ∧ Reads C v o.expectedNonce) ∧
      (o.expectedAud ≠ "" → ∃ v, Named C m "aud" v ∧ Reads C v o.expectedAud) := by
  obtain ⟨tok, ha, -⟩ := (verifier_parse_iff _ _ _ _ _).mp h
  rcases ha.holder with ⟨h0, -⟩ | ⟨-, ⟨k, j, m, alg, t, n, au, -, p1, -, p2, -, -, -, -, -, p5, p6, p7⟩⟩
  · exact absurd h0 hv
  · have hb : decBinding C m = .ok (n, au) := by
      have : (decBinding C m).some? = some (n, au) := p5
      cases hd : decBinding C m <;> rw [hd] at this <;> simp [Dec.some?] at this
      rw [this]
    have rd : ∀ (k s : String), s ≠ "" → decText C (member C m k) = .ok s → ∃ v, Named C m k v ∧ Reads C v s := by
      intro k s hs hd
      cases hm : member C m k with
      | none => rw [hm] at hd; cases hd; exact absurd rfl hs
      | some v =>
        refine ⟨v, (member_iff C m k v).mp hm, ?_⟩
        rw [hm] at hd
        cases v with
        | null => cases hd; exact absurd rfl hs
        | bool b => cases b <;> cases hd; exacts [.no, .yes]
        | num q => cases hd; exact .number q
        | str x => cases hd; exact .text _
        | arr l => cases hd
        | obj l => cases hd
    unfold decBinding at hb
    split at hb
    · next n' a' d he =>
      cases hb
      simp only [Dec.both_ok] at he
      refine ⟨m, ⟨hv, j, p1, p2⟩, fun h => ?_, fun h => ?_⟩
      · rw [← p6 h]; exact rd _ _ (by rw [p6 h]; exact h) he.1
      · rw [← p7 h]; exact rd _ _ (by rw [p7 h]; exact h) he.2.1
    · cases hb
    · cases hb

/-- **C141, a hazard.**  A date that is the first second of the year 1 crashes the check, whoever signed it. -/
theorem year_one_panics (C : Conv) (m : JObj) (k : String) (hk : k = "exp" ∨ k = "nbf" ∨ k = "iat") (q : Rat)
    (h : Named C m k (.num q)) (hs : Second C q (-62135596800)) : decClaims C m = .panic := by
  have hd : decDate C (member C m k) = .panic := by
    rw [(member_iff C m k _).mpr h]
    obtain ⟨x, hx, hz⟩ := (second_iff C q _).mp hs
    show (match toFloat q with | none => Dec.err | some x => if toInt64 C x = -62135596800 then Dec.panic else .ok (some (toInt64 C x))) = _
    rw [hx]
    exact if_pos hz
  have pl : ∀ {α β : Type} (b : Dec β), (Dec.panic : Dec α).both b = .panic := by
    intro α β b; cases b <;> rfl
  have pr : ∀ {α β : Type} (a : Dec α), a.both (Dec.panic : Dec β) = .panic := by
    intro α β a; cases a <;> rfl
  unfold decClaims
  rcases hk with rfl | rfl | rfl
  · rw [hd, pl]
  · rw [hd, pl, pr]
  · rw [hd, pl, pr, pr]

/-- **C141, a hazard.**  Two spellings of `exp` and none exact: which one counts is up to the map's order. -/
theorem two_spellings (C : Conv) (h1 : C.fold "EXP" "exp" = true) (h2 : C.fold "Exp" "exp" = true) :
    Date C [("EXP", .num 5), ("Exp", .num 7)] "exp" 5 ∧ Date C [("Exp", .num 7), ("EXP", .num 5)] "exp" 7 := by
  have e : ∀ n : Int, |n| ≤ 2 ^ 53 → n ≠ -62135596800 → States C (.num n) n := fun n hn hz =>
    .number ((second_exact C hn).mpr rfl) hz
  refine ⟨⟨.num 5, .inr ⟨by decide +kernel, [], "EXP", _, rfl, h1, by simp⟩, e 5 (by norm_num) (by norm_num)⟩,
    ⟨.num 7, .inr ⟨by decide +kernel, [], "Exp", _, rfl, h2, by simp⟩, e 7 (by norm_num) (by norm_num)⟩⟩

end VC.SDJWT
