import Verif.Verifiable.JWTClaimsProps
import Verif.Verifiable.Presentation
import Mathlib.Data.List.Induction
/-!
# verifiable: the names of the claims in a signed token (C142)

A token is decoded by `unmarshalJWT` (verifiable/jws.go:42-52) with `DecodeClaimsTo` and
`WithIgnoreClaimsMapDecoding(true)`: the payload goes through `encoding/json` into a Go struct, not
through the decoder of jwt.go:361-400 that refuses repeated members.  `encoding/json` reads the members
in document order, gives each to the struct field whose name it has **ignoring case**, and a later member
overwrites an earlier one; `null` leaves a string as it is, makes a pointer or a map nil, and a further
object is merged into a map.  `Verif.Verifiable.JWTClaims` reads the payload as a map with exact names.
Here the document is the list of its members, and the two readings are compared.

Simplified: a member's value is already decoded (repetitions inside it are resolved); invalid UTF-8 in a
name is not modelled; as in `JWTClaims`, a date is cut from the exact number.
-/

namespace VC.Vfy.Nam

open GoMap

/-! ## Model -/

/-- `encoding/json` `foldName`, for comparison with a lower-case ASCII name: capitals, the long s and the
Kelvin sign are the characters that fold to a lower-case ASCII letter. -/
def foldChar (c : Char) : Char :=
  if c = 'ſ' then 's' else if c = '\u212A' then 'k' else if c.isUpper then c.toLower else c

/-- The folded name. -/
def foldName (s : String) : List Char := s.toList.map foldChar

/-- The fields of `JWTCredClaims` (credential_jwt.go:34-37) and `JWTPresClaims`
(presentation_jwt.go:16-20): those of the embedded `*jwt.Claims` and the object. -/
inductive Fld where
  | iss | sub | aud | exp | nbf | iat | jti | body
  deriving DecidableEq

/-- The JSON names; the object is called `vc` or `vp`. -/
def Fld.name (body : String) : Fld → String
  | .iss => "iss" | .sub => "sub" | .aud => "aud" | .exp => "exp" | .nbf => "nbf" | .iat => "iat"
  | .jti => "jti" | .body => body

/-- All fields. -/
def Fld.all : List Fld := [.iss, .sub, .aud, .exp, .nbf, .iat, .jti, .body]

/-- The field a member belongs to: `encoding/json`, exact name, else equal after folding. -/
def fieldOf (body k : String) : Option Fld := Fld.all.find? (fun f => foldName k == foldName (f.name body))

/-- A value into a Go `string`: null leaves it as it is. -/
def storeStr (old : String) : Json → Option String
  | .null => some old
  | .str s => some s
  | _ => none

/-- A value into a `map[string]interface{}`: null makes it nil, an object is merged into it. -/
def storeBody (old : Option JObj) : Json → Option (Option JObj)
  | .null => some none
  | .obj o =>
    match old with
    | none => some (some o)
    | some m => some (some (o.foldl (fun m e => set m e.1 e.2) m))
  | _ => none

/-- A freshly allocated `jwt.Claims`. -/
def zeroClaims : Claims := ⟨"", "", [], none, none, none, ""⟩

/-- A value into a registered claim (go-jose `jwt.Claims`: strings, `Audience`, `*NumericDate`). -/
def storeClaim (r : Claims) (v : Json) : Fld → Option Claims
  | .iss => (storeStr r.iss v).map fun s => { r with iss := s }
  | .sub => (storeStr r.sub v).map fun s => { r with sub := s }
  | .aud => (audOf (some v)).map fun a => { r with aud := a }
  | .exp => (dateOf v).map fun d => { r with exp := d }
  | .nbf => (dateOf v).map fun d => { r with nbf := d }
  | .iat => (dateOf v).map fun d => { r with iat := d }
  | .jti => (storeStr r.jti v).map fun s => { r with jti := s }
  | .body => some r

/-- One member: the embedded pointer is allocated as soon as one of its fields occurs. -/
def store (body : String) (st : CredClaims) (e : String × Json) : Option CredClaims :=
  match fieldOf body e.1 with
  | none => some st
  | some .body => (storeBody st.vc e.2).map fun m => { st with vc := m }
  | some f => (storeClaim (st.claims.getD zeroClaims) e.2 f).map fun r => { st with claims := some r }

/-- The members of a document in order. -/
def storeAll (body : String) (st : CredClaims) : List (String × Json) → Option CredClaims
  | [] => some st
  | e :: doc => (store body st e).bind fun st => storeAll body st doc

/-- `json.Unmarshal(payload, claims)`, jwt.go:231-236 with the destination of jws.go:42-46. -/
def readDoc (body : String) (doc : List (String × Json)) : Option CredClaims :=
  storeAll body ⟨none, none⟩ doc

/-- `json.Unmarshal` into `map[string]interface{}`: the last member of a name counts. -/
def docMap (doc : List (String × Json)) : JObj := doc.foldl (fun m e => set m e.1 e.2) []

/-- `JWTCredClaims.UnmarshalJSON`, credential_jwt.go:81-98, with
`UnmarshalWithCustomFields`, util/json/json.go:28-64. -/
def unmarshalCredDoc (doc : List (String × Json)) : Option CredClaims :=
  match readDoc "vc" doc with
  | none => none
  | some c =>
    if !(JsonUtil.collectCustom (marshalCred c) (docMap doc) []).isEmpty && emptyMap c.vc then
      some ⟨c.claims, some (JsonUtil.collectCustom (marshalCred c) (docMap doc) [])⟩
    else some c

/-- `decodeCredJWT` after the envelope is opened, credential_jwt.go:160-180. -/
def decodeCredDoc (env : JEnv) (doc : List (String × Json)) : Out (Option JObj) :=
  match unmarshalCredDoc doc with
  | none => .err
  | some c => refine env c

/-- `decodePresJWT` on a payload, presentation_jwt.go:76-93. -/
def decodePresDoc (doc : List (String × Json)) : Out JObj :=
  match readDoc "vp" doc with
  | none => .err
  | some c => (refinePres c).bind fun vp => .ok (vp.getD [])

/-- The issuer `ParseAndCheckProof` checks the proof against, jwt.go:122-135: gjson `Get("iss")`, the first
member of exactly that name; only string values (for a string, `String()` is the string). -/
def checkedIssuer (doc : List (String × Json)) : Option String :=
  match get? doc "iss" with
  | some (.str s) => some s
  | _ => none

/-! ## Specification -/

/-- `c` is a spelling of the lower-case letter `l`. -/
def SpellsChar (c l : Char) : Prop :=
  c = l ∨ (c.isUpper = true ∧ c.toLower = l) ∨ (c = 'ſ' ∧ l = 's') ∨ (c = '\u212A' ∧ l = 'k')

/-- `k` spells the name `n`, letter by letter, ignoring case. -/
inductive SpellsL : List Char → List Char → Prop where
  | nil : SpellsL [] []
  | cons {c l : Char} {k n : List Char} : SpellsChar c l → SpellsL k n → SpellsL (c :: k) (l :: n)

/-- `k` spells the name `n` ignoring case. -/
def Spells (k n : String) : Prop := SpellsL k.toList n.toList

/-- The value of a string claim: that of the last member so named (in any spelling) that is not null. -/
def StringClaim (doc : List (String × Json)) (name s : String) : Prop :=
  (∃ pre k post, doc = pre ++ (k, .str s) :: post ∧ Spells k name ∧
    ∀ e ∈ post, Spells e.1 name → e.2 = .null) ∨
  (s = "" ∧ ∀ e ∈ doc, Spells e.1 name → e.2 = .null)

/-- The value of a date claim: that of the last member so named, in any spelling. -/
def DateClaim (doc : List (String × Json)) (name : String) (d : Option Int) : Prop :=
  (∃ pre k v post, doc = pre ++ (k, v) :: post ∧ Spells k name ∧ (∀ e ∈ post, ¬ Spells e.1 name) ∧
    ((v = .null ∧ d = none) ∨ ∃ q : Rat, v = .num q ∧ d = some (q.num.tdiv q.den))) ∨
  (d = none ∧ ∀ e ∈ doc, ¬ Spells e.1 name)

/-- The audience: that of the last member so named, in any spelling. -/
def AudClaim (doc : List (String × Json)) (a : List String) : Prop :=
  (∃ pre k v post, doc = pre ++ (k, v) :: post ∧ Spells k "aud" ∧ (∀ e ∈ post, ¬ Spells e.1 "aud") ∧
    ((∃ s, v = .str s ∧ a = [s]) ∨ v = .arr (a.map .str))) ∨
  (a = [] ∧ ∀ e ∈ doc, ¬ Spells e.1 "aud")

/-- The names of the claims. -/
def claimNames (body : String) : List String := ["iss", "sub", "aud", "exp", "nbf", "iat", "jti", body]

/-- No member is repeated and no member is another spelling of a claim's name. -/
def Plain (body : String) (doc : List (String × Json)) : Prop :=
  (doc.map Prod.fst).Nodup ∧ ∀ e ∈ doc, ∀ n ∈ claimNames body, Spells e.1 n → e.1 = n

/-! ## Folding is spelling -/

theorem foldChar_lower {c l : Char} (hl : l.isLower = true) : foldChar c = l ↔ SpellsChar c l := by
  have hlu : l.isUpper = false := by
    simp only [Char.isLower, ge_iff_le, Bool.and_eq_true, decide_eq_true_eq] at hl
    simp only [Char.isUpper, ge_iff_le, decide_eq_false_iff_not]
    rintro ⟨-, h2⟩
    have h1 := UInt32.le_iff_toNat_le.1 hl.1
    rw [UInt32.le_iff_toNat_le] at h2
    have e1 : 'a'.val.toNat = 97 := rfl
    have e2 : 'Z'.val.toNat = 90 := rfl
    omega
  unfold foldChar SpellsChar
  by_cases h1 : c = 'ſ'
  · subst h1
    rw [if_pos rfl]
    have hu : Char.isUpper 'ſ' = false := by decide
    constructor
    · intro h; exact Or.inr (Or.inr (Or.inl ⟨rfl, h.symm⟩))
    · rintro (h | ⟨h, -⟩ | ⟨-, h⟩ | ⟨h, -⟩)
      · exact absurd hl (by rw [← h]; decide)
      · rw [hu] at h; cases h
      · exact h.symm
      · exact absurd h (by decide)
  · rw [if_neg h1]
    by_cases h2 : c = '\u212A'
    · subst h2
      rw [if_pos rfl]
      have hu : Char.isUpper '\u212A' = false := by decide
      constructor
      · intro h; exact Or.inr (Or.inr (Or.inr ⟨rfl, h.symm⟩))
      · rintro (h | ⟨h, -⟩ | ⟨h, -⟩ | ⟨-, h⟩)
        · exact absurd hl (by rw [← h]; decide)
        · rw [hu] at h; cases h
        · exact absurd h h1
        · exact h.symm
    · rw [if_neg h2]
      by_cases h3 : c.isUpper = true
      · rw [if_pos h3]
        constructor
        · intro h; exact Or.inr (Or.inl ⟨h3, h⟩)
        · rintro (h | ⟨-, h⟩ | ⟨h, -⟩ | ⟨h, -⟩)
          · rw [h, hlu] at h3; cases h3
          · exact h
          · exact absurd h h1
          · exact absurd h h2
      · rw [if_neg h3]
        constructor
        · intro h; exact Or.inl h
        · rintro (h | ⟨h, -⟩ | ⟨h, -⟩ | ⟨h, -⟩)
          · exact h
          · exact absurd h h3
          · exact absurd h h1
          · exact absurd h h2

theorem map_fold_iff (k n : List Char) (hn : ∀ l ∈ n, l.isLower = true) :
    k.map foldChar = n ↔ SpellsL k n := by
  induction n generalizing k with
  | nil =>
    cases k with
    | nil => exact ⟨fun _ => .nil, fun _ => rfl⟩
    | cons c k => exact ⟨fun h => by simp at h, fun h => by cases h⟩
  | cons l n ih =>
    cases k with
    | nil => exact ⟨fun h => by simp at h, fun h => by cases h⟩
    | cons c k =>
      rw [List.map_cons, List.cons.injEq, foldChar_lower (hn l (List.mem_cons_self ..)),
        ih k (fun x hx => hn x (List.mem_cons_of_mem _ hx))]
      constructor
      · rintro ⟨h1, h2⟩; exact .cons h1 h2
      · intro h; cases h with | cons h1 h2 => exact ⟨h1, h2⟩

theorem fold_name (f : Fld) (body : String) (hb : body = "vc" ∨ body = "vp") :
    foldName (f.name body) = (f.name body).toList ∧ ∀ l ∈ (f.name body).toList, l.isLower = true := by
  rcases hb with rfl | rfl <;> cases f <;> decide +kernel

theorem fold_iff (f : Fld) (body k : String) (hb : body = "vc" ∨ body = "vp") :
    foldName k = foldName (f.name body) ↔ Spells k (f.name body) := by
  obtain ⟨h1, h2⟩ := fold_name f body hb
  rw [h1]
  exact map_fold_iff _ _ h2

theorem name_inj (f g : Fld) (body : String) (hb : body = "vc" ∨ body = "vp")
    (h : foldName (f.name body) = foldName (g.name body)) : f = g := by
  rcases hb with rfl | rfl <;> revert h <;> cases f <;> cases g <;> decide +kernel

theorem mem_all (f : Fld) : f ∈ Fld.all := by cases f <;> decide

/-- A member belongs to a field iff its name is a spelling of the field's name. -/
theorem fieldOf_some (f : Fld) (body k : String) (hb : body = "vc" ∨ body = "vp") :
    fieldOf body k = some f ↔ Spells k (f.name body) := by
  unfold fieldOf
  rw [← fold_iff f body k hb]
  constructor
  · intro h; simpa using List.find?_some h
  · intro h
    cases hf : Fld.all.find? (fun f => foldName k == foldName (f.name body)) with
    | none =>
      have := List.find?_eq_none.1 hf f (mem_all f)
      simp [h] at this
    | some g =>
      have := List.find?_some hf
      simp only [beq_iff_eq] at this
      rw [name_inj f g body hb (h.symm.trans this)]

theorem fieldOf_none (body k : String) (hb : body = "vc" ∨ body = "vp") :
    fieldOf body k = none ↔ ∀ f : Fld, ¬ Spells k (f.name body) := by
  constructor
  · intro h f hf
    rw [(fieldOf_some f body k hb).2 hf] at h
    cases h
  · intro h
    cases hf : fieldOf body k with
    | none => rfl
    | some f => exact absurd ((fieldOf_some f body k hb).1 hf) (h f)

theorem spells_unique {f g : Fld} {body k : String} (hb : body = "vc" ∨ body = "vp")
    (h1 : Spells k (f.name body)) (h2 : Spells k (g.name body)) : f = g := by
  rw [← fieldOf_some f body k hb] at h1
  rw [← fieldOf_some g body k hb, h1] at h2
  exact Option.some.inj h2

theorem spells_self (f : Fld) (body : String) (hb : body = "vc" ∨ body = "vp") :
    Spells (f.name body) (f.name body) := (fold_iff f body _ hb).1 rfl

/-! ## Which member counts -/

theorem StringClaim.snoc_other {doc : List (String × Json)} {name s k : String} {v : Json}
    (h : StringClaim doc name s) (hk : ¬ Spells k name ∨ v = .null) : StringClaim (doc ++ [(k, v)]) name s := by
  rcases h with ⟨pre, k', post, rfl, h1, h2⟩ | ⟨h1, h2⟩
  · left
    refine ⟨pre, k', post ++ [(k, v)], by simp, h1, ?_⟩
    intro e he hs
    rcases List.mem_append.1 he with he | he
    · exact h2 e he hs
    · rw [List.mem_singleton.1 he] at hs ⊢
      exact hk.resolve_left (fun h => h hs)
  · right
    refine ⟨h1, ?_⟩
    intro e he hs
    rcases List.mem_append.1 he with he | he
    · exact h2 e he hs
    · rw [List.mem_singleton.1 he] at hs ⊢
      exact hk.resolve_left (fun h => h hs)

theorem StringClaim.snoc_same {doc : List (String × Json)} {name s t k : String} {v : Json}
    (h : StringClaim doc name s) (hk : Spells k name) (hv : storeStr s v = some t) :
    StringClaim (doc ++ [(k, v)]) name t := by
  cases v with
  | null =>
    cases hv
    exact h.snoc_other (Or.inr rfl)
  | str u =>
    cases hv
    exact Or.inl ⟨doc, k, [], rfl, hk, fun e he => absurd he List.not_mem_nil⟩
  | _ => cases hv

theorem DateClaim.snoc_other {doc : List (String × Json)} {name k : String} {d : Option Int} {v : Json}
    (h : DateClaim doc name d) (hk : ¬ Spells k name) : DateClaim (doc ++ [(k, v)]) name d := by
  rcases h with ⟨pre, k', v', post, rfl, h1, h2, h3⟩ | ⟨h1, h2⟩
  · left
    refine ⟨pre, k', v', post ++ [(k, v)], by simp, h1, ?_, h3⟩
    intro e he
    rcases List.mem_append.1 he with he | he
    · exact h2 e he
    · rw [List.mem_singleton.1 he]; exact hk
  · right
    refine ⟨h1, ?_⟩
    intro e he
    rcases List.mem_append.1 he with he | he
    · exact h2 e he
    · rw [List.mem_singleton.1 he]; exact hk

theorem DateClaim.snoc_same {doc : List (String × Json)} {name k : String} {d : Option Int} {v : Json}
    (hk : Spells k name) (hv : dateOf v = some d) : DateClaim (doc ++ [(k, v)]) name d := by
  refine Or.inl ⟨doc, k, v, [], rfl, hk, fun e he => absurd he List.not_mem_nil, ?_⟩
  cases v with
  | null => cases hv; exact Or.inl ⟨rfl, rfl⟩
  | num q => cases hv; exact Or.inr ⟨q, rfl, rfl⟩
  | _ => cases hv

theorem stringSlice_map_inv {l : List Json} {a : List String} (h : stringSlice l = some a) :
    l = a.map .str := by
  induction l generalizing a with
  | nil => cases h; rfl
  | cons j l ih =>
    cases j with
    | str s =>
      simp only [stringSlice, Option.map_eq_some_iff] at h
      obtain ⟨b, hb, rfl⟩ := h
      rw [ih hb]; rfl
    | _ => simp [stringSlice] at h

theorem AudClaim.snoc_other {doc : List (String × Json)} {k : String} {a : List String} {v : Json}
    (h : AudClaim doc a) (hk : ¬ Spells k "aud") : AudClaim (doc ++ [(k, v)]) a := by
  rcases h with ⟨pre, k', v', post, rfl, h1, h2, h3⟩ | ⟨h1, h2⟩
  · left
    refine ⟨pre, k', v', post ++ [(k, v)], by simp, h1, ?_, h3⟩
    intro e he
    rcases List.mem_append.1 he with he | he
    · exact h2 e he
    · rw [List.mem_singleton.1 he]; exact hk
  · right
    refine ⟨h1, ?_⟩
    intro e he
    rcases List.mem_append.1 he with he | he
    · exact h2 e he
    · rw [List.mem_singleton.1 he]; exact hk

theorem AudClaim.snoc_same {doc : List (String × Json)} {k : String} {a : List String} {v : Json}
    (hk : Spells k "aud") (hv : audOf (some v) = some a) : AudClaim (doc ++ [(k, v)]) a := by
  refine Or.inl ⟨doc, k, v, [], rfl, hk, fun e he => absurd he List.not_mem_nil, ?_⟩
  cases v with
  | str s => cases hv; exact Or.inl ⟨s, rfl, rfl⟩
  | arr l => exact Or.inr (by rw [stringSlice_map_inv hv])
  | _ => cases hv

theorem storeAll_snoc (body : String) (st : CredClaims) (doc : List (String × Json)) (e : String × Json) :
    storeAll body st (doc ++ [e]) = (storeAll body st doc).bind fun st => store body st e := by
  induction doc generalizing st with
  | nil =>
    simp only [List.nil_append, storeAll, Option.bind_some]
    cases store body st e <;> rfl
  | cons x doc ih =>
    simp only [List.cons_append, storeAll]
    cases store body st x with
    | none => rfl
    | some st' => exact ih st'

theorem readDoc_snoc (body : String) (doc : List (String × Json)) (e : String × Json) :
    readDoc body (doc ++ [e]) = (readDoc body doc).bind fun st => store body st e := storeAll_snoc ..

/-- The claims as read, described by the document alone. -/
structure ClaimsRead (doc : List (String × Json)) (r : Claims) : Prop where
  iss : StringClaim doc "iss" r.iss
  sub : StringClaim doc "sub" r.sub
  aud : AudClaim doc r.aud
  exp : DateClaim doc "exp" r.exp
  nbf : DateClaim doc "nbf" r.nbf
  iat : DateClaim doc "iat" r.iat
  jti : StringClaim doc "jti" r.jti

theorem claimsRead_nil : ClaimsRead [] zeroClaims := by
  constructor <;> exact Or.inr ⟨rfl, fun e he => absurd he List.not_mem_nil⟩

/-- The registered claims occur. -/
def HasClaim (body : String) (doc : List (String × Json)) : Prop :=
  ∃ e ∈ doc, ∃ n ∈ claimNames body, n ≠ body ∧ Spells e.1 n

theorem claimsRead_store {body : String} (hb : body = "vc" ∨ body = "vp") {doc : List (String × Json)}
    {st st' : CredClaims} {e : String × Json} (h : ClaimsRead doc (st.claims.getD zeroClaims))
    (hs : store body st e = some st') : ClaimsRead (doc ++ [e]) (st'.claims.getD zeroClaims) := by
  obtain ⟨k, v⟩ := e
  have other : ∀ {f : Fld}, Spells k (f.name body) → ∀ g : Fld, g ≠ f → ¬ Spells k (g.name body) :=
    fun hf g hg h => hg (spells_unique hb h hf)
  unfold store at hs
  cases hf : fieldOf body k with
  | none =>
    simp only [hf, Option.some.injEq] at hs
    subst hs
    have hn := (fieldOf_none body k hb).1 hf
    exact ⟨h.iss.snoc_other (Or.inl (hn .iss)), h.sub.snoc_other (Or.inl (hn .sub)),
      h.aud.snoc_other (hn .aud), h.exp.snoc_other (hn .exp), h.nbf.snoc_other (hn .nbf),
      h.iat.snoc_other (hn .iat), h.jti.snoc_other (Or.inl (hn .jti))⟩
  | some f =>
    have hk := (fieldOf_some f body k hb).1 hf
    have o := other hk
    cases f <;> simp only [hf, storeClaim, Option.map_map, Option.map_eq_some_iff, Function.comp] at hs <;>
      obtain ⟨x, hx, rfl⟩ := hs
    · exact ⟨h.iss.snoc_same hk hx, h.sub.snoc_other (Or.inl (o .sub (by decide))),
        h.aud.snoc_other (o .aud (by decide)), h.exp.snoc_other (o .exp (by decide)),
        h.nbf.snoc_other (o .nbf (by decide)), h.iat.snoc_other (o .iat (by decide)),
        h.jti.snoc_other (Or.inl (o .jti (by decide)))⟩
    · exact ⟨h.iss.snoc_other (Or.inl (o .iss (by decide))), h.sub.snoc_same hk hx,
        h.aud.snoc_other (o .aud (by decide)), h.exp.snoc_other (o .exp (by decide)),
        h.nbf.snoc_other (o .nbf (by decide)), h.iat.snoc_other (o .iat (by decide)),
        h.jti.snoc_other (Or.inl (o .jti (by decide)))⟩
    · exact ⟨h.iss.snoc_other (Or.inl (o .iss (by decide))), h.sub.snoc_other (Or.inl (o .sub (by decide))),
        AudClaim.snoc_same hk hx, h.exp.snoc_other (o .exp (by decide)),
        h.nbf.snoc_other (o .nbf (by decide)), h.iat.snoc_other (o .iat (by decide)),
        h.jti.snoc_other (Or.inl (o .jti (by decide)))⟩
    · exact ⟨h.iss.snoc_other (Or.inl (o .iss (by decide))), h.sub.snoc_other (Or.inl (o .sub (by decide))),
        h.aud.snoc_other (o .aud (by decide)), DateClaim.snoc_same hk hx,
        h.nbf.snoc_other (o .nbf (by decide)), h.iat.snoc_other (o .iat (by decide)),
        h.jti.snoc_other (Or.inl (o .jti (by decide)))⟩
    · exact ⟨h.iss.snoc_other (Or.inl (o .iss (by decide))), h.sub.snoc_other (Or.inl (o .sub (by decide))),
        h.aud.snoc_other (o .aud (by decide)), h.exp.snoc_other (o .exp (by decide)),
        DateClaim.snoc_same hk hx, h.iat.snoc_other (o .iat (by decide)),
        h.jti.snoc_other (Or.inl (o .jti (by decide)))⟩
    · exact ⟨h.iss.snoc_other (Or.inl (o .iss (by decide))), h.sub.snoc_other (Or.inl (o .sub (by decide))),
        h.aud.snoc_other (o .aud (by decide)), h.exp.snoc_other (o .exp (by decide)),
        h.nbf.snoc_other (o .nbf (by decide)), DateClaim.snoc_same hk hx,
        h.jti.snoc_other (Or.inl (o .jti (by decide)))⟩
    · exact ⟨h.iss.snoc_other (Or.inl (o .iss (by decide))), h.sub.snoc_other (Or.inl (o .sub (by decide))),
        h.aud.snoc_other (o .aud (by decide)), h.exp.snoc_other (o .exp (by decide)),
        h.nbf.snoc_other (o .nbf (by decide)), h.iat.snoc_other (o .iat (by decide)),
        h.jti.snoc_same hk hx⟩
    · exact ⟨h.iss.snoc_other (Or.inl (o .iss (by decide))), h.sub.snoc_other (Or.inl (o .sub (by decide))),
        h.aud.snoc_other (o .aud (by decide)), h.exp.snoc_other (o .exp (by decide)),
        h.nbf.snoc_other (o .nbf (by decide)), h.iat.snoc_other (o .iat (by decide)),
        h.jti.snoc_other (Or.inl (o .jti (by decide)))⟩

/-- **C142.** When a payload is decoded, every registered claim has the value of the last member that
spells its name ignoring case (for strings: the last that is not null). -/
theorem claims_read (body : String) (hb : body = "vc" ∨ body = "vp") (doc : List (String × Json))
    (c : CredClaims) (h : readDoc body doc = some c) : ClaimsRead doc (c.claims.getD zeroClaims) := by
  induction doc using List.reverseRecOn generalizing c with
  | nil => cases h; exact claimsRead_nil
  | append_singleton doc e ih =>
    rw [readDoc_snoc, Option.bind_eq_some_iff] at h
    obtain ⟨st, h1, h2⟩ := h
    exact claimsRead_store hb (ih st h1) h2


/-! ## When a payload is refused -/

/-- The values a claim accepts. -/
def Fits (name : String) (v : Json) : Prop :=
  if name = "aud" then (∃ s, v = .str s) ∨ ∃ a : List String, v = .arr (a.map .str)
  else if name ∈ ["exp", "nbf", "iat"] then v = .null ∨ ∃ q, v = .num q
  else if name ∈ ["iss", "sub", "jti"] then v = .null ∨ ∃ s, v = .str s
  else v = .null ∨ ∃ o, v = .obj o

theorem storeStr_isSome (s : String) (v : Json) : (storeStr s v).isSome = true ↔ v = .null ∨ ∃ t, v = .str t := by
  cases v <;> simp [storeStr]

theorem dateOf_isSome (v : Json) : (dateOf v).isSome = true ↔ v = .null ∨ ∃ q, v = .num q := by
  cases v <;> simp [dateOf]

theorem storeBody_isSome (m : Option JObj) (v : Json) :
    (storeBody m v).isSome = true ↔ v = .null ∨ ∃ o, v = .obj o := by
  cases v <;> simp [storeBody]
  cases m <;> rfl

theorem stringSlice_of_map (a : List String) : stringSlice (a.map .str) = some a := by
  induction a with
  | nil => rfl
  | cons s a ih => simp [stringSlice, ih]

theorem audOf_isSome (v : Json) :
    (audOf (some v)).isSome = true ↔ (∃ s, v = .str s) ∨ ∃ a : List String, v = .arr (a.map .str) := by
  cases v with
  | str s => simp [audOf]
  | arr l =>
    simp only [audOf]
    constructor
    · intro h
      obtain ⟨a, ha⟩ := Option.isSome_iff_exists.1 h
      exact Or.inr ⟨a, by rw [stringSlice_map_inv ha]⟩
    · rintro (⟨s, h⟩ | ⟨a, h⟩)
      · cases h
      · rw [Json.arr.inj h, stringSlice_of_map]; rfl
  | _ => simp [audOf]

theorem store_isSome {body : String} (hb : body = "vc" ∨ body = "vp") (st : CredClaims) (e : String × Json) :
    (store body st e).isSome = true ↔ ∀ n ∈ claimNames body, Spells e.1 n → Fits n e.2 := by
  obtain ⟨k, v⟩ := e
  have names : ∀ n ∈ claimNames body, ∃ f : Fld, n = f.name body := by
    intro n hn
    simp only [claimNames, List.mem_cons, List.not_mem_nil, or_false] at hn
    rcases hn with rfl | rfl | rfl | rfl | rfl | rfl | rfl | rfl
    exacts [⟨.iss, rfl⟩, ⟨.sub, rfl⟩, ⟨.aud, rfl⟩, ⟨.exp, rfl⟩, ⟨.nbf, rfl⟩, ⟨.iat, rfl⟩, ⟨.jti, rfl⟩,
      ⟨.body, rfl⟩]
  have memn : ∀ f : Fld, f.name body ∈ claimNames body := by
    intro f; cases f <;> simp [Fld.name, claimNames]
  have fits : ∀ f : Fld, fieldOf body k = some f →
      ((store body st (k, v)).isSome = true ↔ Fits (f.name body) v) := by
    intro f hf
    unfold store
    cases f <;> simp only [hf, storeClaim, Option.map_map, Option.isSome_map, storeStr_isSome, dateOf_isSome,
      audOf_isSome, storeBody_isSome, Fits, Fld.name] <;> rcases hb with rfl | rfl <;> simp
  cases hf : fieldOf body k with
  | none =>
    have hn := (fieldOf_none body k hb).1 hf
    simp only [store, hf, Option.isSome_some, true_iff]
    intro n hn' hs
    obtain ⟨f, rfl⟩ := names n hn'
    exact absurd hs (hn f)
  | some f =>
    rw [fits f hf]
    have hk := (fieldOf_some f body k hb).1 hf
    constructor
    · intro h n hn hs
      obtain ⟨g, rfl⟩ := names n hn
      rw [spells_unique hb hs hk]; exact h
    · intro h; exact h _ (memn f) hk

/-- **C142.** A payload is decoded iff every member that spells the name of a claim, even one that is
overwritten later, has a value of the claim's type. -/
theorem decoded_iff (body : String) (hb : body = "vc" ∨ body = "vp") (doc : List (String × Json)) :
    (readDoc body doc).isSome = true ↔
      ∀ e ∈ doc, ∀ n ∈ claimNames body, Spells e.1 n → Fits n e.2 := by
  induction doc using List.reverseRecOn with
  | nil => simp [readDoc, storeAll]
  | append_singleton doc e ih =>
    rw [readDoc_snoc]
    constructor
    · intro h
      obtain ⟨c, hc⟩ := Option.isSome_iff_exists.1 h
      obtain ⟨st, h1, h2⟩ := Option.bind_eq_some_iff.1 hc
      intro e' he'
      rcases List.mem_append.1 he' with he' | he'
      · exact ih.1 (by rw [h1]; rfl) e' he'
      · rw [List.mem_singleton.1 he']
        exact (store_isSome hb st e).1 (by rw [h2]; rfl)
    · intro h
      obtain ⟨st, hst⟩ := Option.isSome_iff_exists.1 (ih.2 fun e' he' => h e' (List.mem_append_left _ he'))
      rw [hst]
      exact (store_isSome hb st e).2 (h e (List.mem_append_right _ (List.mem_singleton.2 rfl)))

/-- The pointer to the registered claims is nil exactly when no member spells one of their names. -/
theorem claims_nil_iff (body : String) (hb : body = "vc" ∨ body = "vp") (doc : List (String × Json))
    (c : CredClaims) (h : readDoc body doc = some c) : c.claims.isSome = true ↔ HasClaim body doc := by
  induction doc using List.reverseRecOn generalizing c with
  | nil =>
    cases h
    simp [HasClaim]
  | append_singleton doc e ih =>
    rw [readDoc_snoc, Option.bind_eq_some_iff] at h
    obtain ⟨st, h1, h2⟩ := h
    have ih := ih st h1
    have split : HasClaim body (doc ++ [e]) ↔
        HasClaim body doc ∨ ∃ n ∈ claimNames body, n ≠ body ∧ Spells e.1 n := by
      unfold HasClaim
      constructor
      · rintro ⟨e', he', h⟩
        rcases List.mem_append.1 he' with he' | he'
        · exact Or.inl ⟨e', he', h⟩
        · rw [List.mem_singleton.1 he'] at h; exact Or.inr h
      · rintro (⟨e', he', h⟩ | h)
        · exact ⟨e', List.mem_append_left _ he', h⟩
        · exact ⟨e, List.mem_append_right _ (List.mem_singleton.2 rfl), h⟩
    rw [split, ← ih]
    have this : (∃ n ∈ claimNames body, n ≠ body ∧ Spells e.1 n) ↔
        ∃ f : Fld, f ≠ .body ∧ fieldOf body e.1 = some f := by
      constructor
      · rintro ⟨n, hn, hne, hs⟩
        simp only [claimNames, List.mem_cons, List.not_mem_nil, or_false] at hn
        rcases hn with rfl | rfl | rfl | rfl | rfl | rfl | rfl | rfl
        · exact ⟨.iss, by decide, (fieldOf_some .iss body _ hb).2 hs⟩
        · exact ⟨.sub, by decide, (fieldOf_some .sub body _ hb).2 hs⟩
        · exact ⟨.aud, by decide, (fieldOf_some .aud body _ hb).2 hs⟩
        · exact ⟨.exp, by decide, (fieldOf_some .exp body _ hb).2 hs⟩
        · exact ⟨.nbf, by decide, (fieldOf_some .nbf body _ hb).2 hs⟩
        · exact ⟨.iat, by decide, (fieldOf_some .iat body _ hb).2 hs⟩
        · exact ⟨.jti, by decide, (fieldOf_some .jti body _ hb).2 hs⟩
        · exact absurd rfl hne
      · rintro ⟨f, hf, h⟩
        have hs := (fieldOf_some f body _ hb).1 h
        refine ⟨f.name body, ?_, ?_, hs⟩
        · cases f <;> simp [Fld.name, claimNames]
        · rcases hb with rfl | rfl <;> cases f <;> first | exact absurd rfl hf | (simp [Fld.name])
    rw [this]
    unfold store at h2
    cases hf : fieldOf body e.1 with
    | none =>
      simp only [hf, Option.some.injEq] at h2
      subst h2
      simp
    | some f =>
      cases f <;> simp only [hf, storeClaim, Option.map_map, Option.map_eq_some_iff, Function.comp] at h2 <;>
        obtain ⟨x, hx, rfl⟩ := h2 <;> simp

end VC.Vfy.Nam
