import Verif.Base.Base64
import Verif.IdentityHub.Model
/-!
# C133: the queries of a DID URL

`getQueries` reads the `queries` parameter of a DID relative URL: `url.ParseQuery`, base64, JSON.
Parameter: `json.Unmarshal` into a slice of maps.
-/

namespace VC.IdentityHub

open VC.B64 (std std_alphabet)

/-! ## Model -/

/-- The value of a hexadecimal digit (`unhex`, net/url). -/
def unhex (c : Char) : Option Nat :=
  if '0' ≤ c ∧ c ≤ '9' then some (c.toNat - 48)
  else if 'a' ≤ c ∧ c ≤ 'f' then some (c.toNat - 87)
  else if 'A' ≤ c ∧ c ≤ 'F' then some (c.toNat - 55)
  else none

/-- `url.QueryUnescape`.  Simplification: an escaped byte of 128 or more stands for the character of that
number (it is in no base64 text and in no name compared here). -/
def unescape : List Char → Option (List Char)
  | [] => some []
  | c :: t =>
    if c = '%' then
      match t with
      | a :: b :: t' =>
        match unhex a, unhex b with
        | some x, some y => (unescape t').map (Char.ofNat (16 * x + y) :: ·)
        | _, _ => none
      | _ => none
    else if c = '+' then (unescape t).map (' ' :: ·)
    else (unescape t).map (c :: ·)

/-- One `key=value` of `url.ParseQuery`: `strings.Cut` at the first `=`, both parts unescaped. -/
def parsePair (l : List Char) : Option (List Char × List Char) :=
  match unescape (l.takeWhile (· != '=')), unescape ((l.dropWhile (· != '=')).drop 1) with
  | some k, some v => some (k, v)
  | _, _ => none

/-- `url.ParseQuery`, after the text was cut at `&`: empty settings are skipped, a semicolon or a bad escape is
an error. -/
def parsePairs : List (List Char) → Option (List (List Char × List Char))
  | [] => some []
  | l :: ls =>
    if ';' ∈ l then none
    else if l = [] then parsePairs ls
    else
      match parsePair l, parsePairs ls with
      | some p, some ps => some (p :: ps)
      | _, _ => none

/-- `Values.Get`: the first value of a key, the empty text when there is none. -/
def getValue (k : List Char) : List (List Char × List Char) → List Char
  | [] => []
  | p :: ps => if p.1 = k then p.2 else getValue k ps

/-- `getQueries`, status/resolver/resolver.go:172-201. -/
def getQueries (unm : B64.Bytes → Option (List JObj)) (url : String) : Option (List JObj) :=
  match split '?' url with
  | _ :: q :: _ =>
    match parsePairs ((split '&' q).map String.toList) with
    | none => none
    | some ps =>
      if getValue "queries".toList ps = [] then none
      else (B64.decode std (String.ofList (getValue "queries".toList ps))).bind unm
  | _ => none

/-! ## Specification -/

namespace Spec

/-- The hexadecimal digits in their order, small and capital. -/
def hexSmall : List Char := ['0', '1', '2', '3', '4', '5', '6', '7', '8', '9', 'a', 'b', 'c', 'd', 'e', 'f']
/-- The same with capital letters. -/
def hexCapital : List Char := ['0', '1', '2', '3', '4', '5', '6', '7', '8', '9', 'A', 'B', 'C', 'D', 'E', 'F']

/-- `c` is the hexadecimal digit of `n`. -/
def HexDigit (c : Char) (n : Nat) : Prop := hexSmall[n]? = some c ∨ hexCapital[n]? = some c

/-- `raw` is a spelling of the text `l` in a query (RFC 3986, 2.1, with `+` for a blank). -/
inductive Spells : List Char → List Char → Prop
  | nil : Spells [] []
  | plain (c r l) : c ≠ '%' → c ≠ '+' → Spells r l → Spells (c :: r) (c :: l)
  | plus (r l) : Spells r l → Spells ('+' :: r) (' ' :: l)
  | hex (a b x y r l) : HexDigit a x → HexDigit b y → Spells r l →
      Spells ('%' :: a :: b :: r) (Char.ofNat (16 * x + y) :: l)

/-- A parameter as written: a name and a value, without the separators. -/
structure Param where
  rawName : List Char
  rawValue : List Char

/-- The parameter as written says `name` is `value`. -/
structure Param.Means (p : Param) (name value : String) : Prop where
  spellsName : Spells p.rawName name.toList
  spellsValue : Spells p.rawValue value.toList
  nameFree : ∀ c ∈ p.rawName, c ≠ '&' ∧ c ≠ ';' ∧ c ≠ '?' ∧ c ≠ '='
  valueFree : ∀ c ∈ p.rawValue, c ≠ '&' ∧ c ≠ ';' ∧ c ≠ '?'

/-- How a parameter is written. -/
def Param.text (p : Param) : String := String.ofList (p.rawName ++ '=' :: p.rawValue)

/-- A DID URL with parameters. -/
def didURL (did : String) (ps : List Param) : String := did ++ "?" ++ joinC '&' (ps.map Param.text)

end Spec
open Spec

/-! ## Unescaping -/

theorem char_between {a b c : Char} (h : a ≤ c ∧ c ≤ b) : a.toNat ≤ c.toNat ∧ c.toNat ≤ b.toNat :=
  ⟨h.1, h.2⟩

theorem char_of_toNat {c : Char} {n : Nat} (h : c.toNat = n) : c = Char.ofNat n := by
  rw [← h, Char.ofNat_toNat]

/-- The digits read are the sixteen hexadecimal digits, small or capital, with their values. -/
theorem unhex_iff (c : Char) (n : Nat) : unhex c = some n ↔ HexDigit c n := by
  constructor
  · intro h
    unfold unhex at h
    split at h
    · rename_i hc
      have hb := char_between hc
      have e := Option.some.inj h
      have h1 : ('0' : Char).toNat = 48 := rfl
      have h2 : ('9' : Char).toNat = 57 := rfl
      have : n < 10 ∧ c.toNat = n + 48 := by omega
      rw [char_of_toNat this.2]
      have key : ∀ n, n < 10 → HexDigit (Char.ofNat (n + 48)) n := by unfold HexDigit; decide +kernel
      exact key n this.1
    · split at h
      · rename_i hc
        have hb := char_between hc
        have e := Option.some.inj h
        have h1 : ('a' : Char).toNat = 97 := rfl
        have h2 : ('f' : Char).toNat = 102 := rfl
        have : n < 16 ∧ 10 ≤ n ∧ c.toNat = n + 87 := by omega
        rw [char_of_toNat this.2.2]
        have key : ∀ n, n < 16 → 10 ≤ n → HexDigit (Char.ofNat (n + 87)) n := by unfold HexDigit; decide +kernel
        exact key n this.1 this.2.1
      · split at h
        · rename_i hc
          have hb := char_between hc
          have e := Option.some.inj h
          have h1 : ('A' : Char).toNat = 65 := rfl
          have h2 : ('F' : Char).toNat = 70 := rfl
          have : n < 16 ∧ 10 ≤ n ∧ c.toNat = n + 55 := by omega
          rw [char_of_toNat this.2.2]
          have key : ∀ n, n < 16 → 10 ≤ n → HexDigit (Char.ofNat (n + 55)) n := by unfold HexDigit; decide +kernel
          exact key n this.1 this.2.1
        · cases h
  · intro h
    have hn : n < 16 := by
      rcases h with h | h <;> exact (List.getElem?_eq_some_iff.1 h).1
    have key : ∀ m : Fin 16, (∀ c ∈ hexSmall[m.1]?, unhex c = some m.1) ∧
        ∀ c ∈ hexCapital[m.1]?, unhex c = some m.1 := by decide +kernel
    rcases h with h | h
    · exact (key ⟨n, hn⟩).1 c h
    · exact (key ⟨n, hn⟩).2 c h

seal Char.ofNat in
/-- The texts read are those with the given spelling. -/
theorem unescape_iff (r l : List Char) : unescape r = some l ↔ Spells r l := by
  constructor
  · intro h
    induction r using unescape.induct generalizing l with
    | case1 => cases h; exact .nil
    | case2 a b t' x y hx hy ih =>
      rw [unescape.eq_def] at h
      simp only [if_true, hx, hy, Option.map_eq_some_iff] at h
      obtain ⟨l', h1, rfl⟩ := h
      exact .hex _ _ _ _ _ _ ((unhex_iff _ _).1 hy) ((unhex_iff _ _).1 hx) (ih _ h1)
    | case3 a b t' hn =>
      rw [unescape.eq_def] at h
      simp only [if_true] at h
      cases h
    | case4 t ht =>
      rw [unescape.eq_def] at h
      simp only [if_true] at h
      cases h
    | case5 t hc ih =>
      rw [unescape.eq_def] at h
      simp only [hc, if_false, if_true, Option.map_eq_some_iff] at h
      obtain ⟨l', h1, rfl⟩ := h
      exact .plus _ _ (ih _ h1)
    | case6 c t h1 h2 ih =>
      rw [unescape.eq_def] at h
      simp only [h1, h2, if_false, Option.map_eq_some_iff] at h
      obtain ⟨l', h3, rfl⟩ := h
      exact .plain _ _ _ h1 h2 (ih _ h3)
  · intro h
    induction h with
    | nil => rfl
    | plain c r l h1 h2 _ ih => rw [unescape.eq_def]; simp only [h1, h2, if_false, ih]; rfl
    | plus r l _ ih => rw [unescape.eq_def]; simp [ih]
    | hex a b x y r l hx hy _ ih =>
      rw [unescape.eq_def]; simp only [if_true, (unhex_iff _ _).2 hx, (unhex_iff _ _).2 hy, ih, Option.map_some]

theorem spells_unique {r l l' : List Char} (h : Spells r l) (h' : Spells r l') : l = l' := by
  have := (unescape_iff r l).2 h
  rw [(unescape_iff r l').2 h'] at this
  exact (Option.some.inj this).symm

/-! ## Parameters -/

theorem param_list (p : Param) : p.text.toList = p.rawName ++ '=' :: p.rawValue := String.toList_ofList

theorem parsePair_text {p : Param} {k v : String} (h : p.Means k v) :
    parsePair p.text.toList = some (k.toList, v.toList) := by
  have h1 : ∀ c ∈ p.rawName, (c != '=') = true := fun c hc => by
    have := (h.nameFree c hc).2.2.2
    simpa using this
  have t : p.text.toList.takeWhile (· != '=') = p.rawName := by
    rw [param_list, List.takeWhile_append_of_pos h1]
    simp
  have d : (p.text.toList.dropWhile (· != '=')).drop 1 = p.rawValue := by
    rw [param_list, List.dropWhile_append_of_pos h1]
    simp
  unfold parsePair
  rw [t, d, (unescape_iff _ _).2 h.spellsName, (unescape_iff _ _).2 h.spellsValue]

theorem param_noChar {p : Param} {k v : String} (h : p.Means k v) (c : Char) (hc : c = '&' ∨ c = ';' ∨ c = '?') :
    c ∉ p.text.toList := by
  rw [param_list]
  intro hm
  rcases List.mem_append.1 hm with hm | hm
  · have := h.nameFree c hm
    rcases hc with rfl | rfl | rfl <;> simp at this
  · rcases List.mem_cons.1 hm with rfl | hm
    · rcases hc with h | h | h <;> cases h
    · have := h.valueFree c hm
      rcases hc with rfl | rfl | rfl <;> simp at this

/-- The parameters `ps` say the values `kvs`, in order. -/
def Spec.Mean : List Param → List (String × String) → Prop
  | [], [] => True
  | p :: ps, kv :: kvs => p.Means kv.1 kv.2 ∧ Spec.Mean ps kvs
  | _, _ => False

theorem parsePairs_text : ∀ {ps : List Param} {kvs : List (String × String)}, Mean ps kvs →
    parsePairs (ps.map fun p => p.text.toList) = some (kvs.map fun kv => (kv.1.toList, kv.2.toList))
  | [], [], _ => rfl
  | [], _ :: _, h => h.elim
  | _ :: _, [], h => h.elim
  | p :: ps, kv :: kvs, h => by
    simp only [List.map_cons]
    unfold parsePairs
    rw [if_neg (param_noChar h.1 ';' (by simp)), if_neg (by rw [param_list]; simp), parsePair_text h.1,
      parsePairs_text h.2]

theorem mean_mem {ps : List Param} {kvs : List (String × String)} (h : Mean ps kvs) :
    ∀ p ∈ ps, ∃ k v, p.Means k v := by
  induction ps generalizing kvs with
  | nil => intro p hp; cases hp
  | cons q ps ih =>
    cases kvs with
    | nil => exact h.elim
    | cons kv kvs =>
      intro p hp
      rcases List.mem_cons.1 hp with rfl | hp
      · exact ⟨_, _, h.1⟩
      · exact ih h.2 p hp

/-- The value of a parameter: that of the first parameter of that name. -/
def Spec.FirstValue (kvs : List (String × String)) (k v : String) : Prop :=
  ∃ a b, kvs = a ++ (k, v) :: b ∧ ∀ kv ∈ a, kv.1 ≠ k

theorem getValue_first {kvs : List (String × String)} {k v : String} (h : FirstValue kvs k v) :
    getValue k.toList (kvs.map fun kv => (kv.1.toList, kv.2.toList)) = v.toList := by
  obtain ⟨a, b, rfl, ha⟩ := h
  induction a with
  | nil => simp [getValue]
  | cons kv a ih =>
    simp only [List.cons_append, List.map_cons, getValue]
    rw [if_neg (fun e => ha kv (by simp) (String.toList_inj.1 e))]
    exact ih (fun kv h => ha kv (by simp [h]))

theorem getValue_none {kvs : List (String × String)} {k : String} (h : ∀ kv ∈ kvs, kv.1 ≠ k) :
    getValue k.toList (kvs.map fun kv => (kv.1.toList, kv.2.toList)) = [] := by
  induction kvs with
  | nil => rfl
  | cons kv a ih =>
    simp only [List.map_cons, getValue]
    rw [if_neg (fun e => h kv (by simp) (String.toList_inj.1 e))]
    exact ih (fun kv hk => h kv (by simp [hk]))

theorem joinC_mem (l : List String) (c : Char) (hc : c ≠ '&') (h : ∀ s ∈ l, NoChar c s) :
    c ∉ (joinC '&' l).toList := by
  induction l with
  | nil => simp [joinC]
  | cons a l ih =>
    cases l with
    | nil => exact h a (by simp)
    | cons b l =>
      unfold joinC
      simp only [String.toList_append, List.mem_append, not_or]
      exact ⟨⟨h a (by simp), by simpa using hc⟩, ih (fun s hs => h s (by simp [hs]))⟩

theorem split_didURL {did : String} (hd : NoChar '?' did) {ps : List Param} {kvs : List (String × String)}
    (hm : Mean ps kvs) (hne : ps ≠ []) :
    split '?' (didURL did ps) = [did, joinC '&' (ps.map Param.text)] ∧
    (split '&' (joinC '&' (ps.map Param.text))).map String.toList = ps.map fun p => p.text.toList := by
  have h1 : ∀ s ∈ ps.map Param.text, NoChar '?' s ∧ NoChar '&' s := by
    intro s hs
    obtain ⟨p, hp, rfl⟩ := List.mem_map.1 hs
    obtain ⟨k, v, h⟩ := mean_mem hm p hp
    exact ⟨param_noChar h '?' (by simp), param_noChar h '&' (by simp)⟩
  constructor
  · unfold didURL
    rw [show ("?" : String) = String.singleton '?' from rfl, split_append _ _ _ hd, split_none]
    intro hq
    exact joinC_mem _ '?' (by decide) (fun s hs => (h1 s hs).1) hq
  · rw [split_joinC _ _ (by simpa using hne) (fun s hs => (h1 s hs).2), List.map_map]
    rfl

variable (unm : B64.Bytes → Option (List JObj))

theorem getQueries_params {did : String} (hd : NoChar '?' did) {ps : List Param} {kvs : List (String × String)}
    (hm : Mean ps kvs) (hne : ps ≠ []) :
    getQueries unm (didURL did ps) =
      if getValue "queries".toList (kvs.map fun kv => (kv.1.toList, kv.2.toList)) = [] then none
      else (B64.decode std (String.ofList
        (getValue "queries".toList (kvs.map fun kv => (kv.1.toList, kv.2.toList))))).bind unm := by
  obtain ⟨h1, h2⟩ := split_didURL hd hm hne
  unfold getQueries
  rw [h1]
  dsimp only
  rw [h2, parsePairs_text hm]

/-- **C133**: the queries of a DID URL are those whose JSON, in base64, is the value of its first parameter
`queries`, however the parameters are spelled and whatever others there are. -/
theorem queries_read {did : String} (hd : NoChar '?' did) {ps : List Param} {kvs : List (String × String)}
    (hm : Mean ps kvs) {v : String} (hv : FirstValue kvs "queries" v) :
    getQueries unm (didURL did ps) = if v = "" then none else (B64.decode std v).bind unm := by
  have hne : ps ≠ [] := by
    rintro rfl
    obtain ⟨a, b, rfl, -⟩ := hv
    cases a <;> exact hm
  rw [getQueries_params unm hd hm hne, getValue_first hv, String.ofList_toList]
  by_cases h : v = ""
  · subst h; rfl
  · rw [if_neg h, if_neg (fun e => h (String.toList_inj.1 (e.trans (by rfl))))]

/-- Round trip: queries written in base64 are read. -/
theorem queries_round_trip {did : String} (hd : NoChar '?' did) {ps : List Param} {kvs : List (String × String)}
    (hm : Mean ps kvs) {x : B64.Bytes} (hx : x ≠ []) (hv : FirstValue kvs "queries" (B64.encode std x)) :
    getQueries unm (didURL did ps) = unm x := by
  rw [queries_read unm hd hm hv, if_neg (fun e => hx (B64.encode_eq_empty std_alphabet e)),
    B64.decode_encode std_alphabet]
  rfl

/-- Without a parameter `queries` there is nothing to read. -/
theorem queries_missing {did : String} (hd : NoChar '?' did) {ps : List Param} {kvs : List (String × String)}
    (hm : Mean ps kvs) (hne : ps ≠ []) (hv : ∀ kv ∈ kvs, kv.1 ≠ "queries") :
    getQueries unm (didURL did ps) = none := by
  rw [getQueries_params unm hd hm hne, getValue_none hv, if_pos rfl]

theorem queries_noMark {did : String} (hd : NoChar '?' did) : getQueries unm did = none := by
  unfold getQueries
  rw [split_none _ _ hd]

theorem spells_plus {r l : List Char} (h : Spells r l) (hp : '+' ∈ r) : ' ' ∈ l := by
  induction h with
  | nil => cases hp
  | plain c r l h1 h2 _ ih =>
    rcases List.mem_cons.1 hp with e | hp
    · exact absurd e.symm h2
    · exact List.mem_cons_of_mem _ (ih hp)
  | plus r l _ _ => simp
  | hex a b x y r l hx hy _ ih =>
    have ha : a ≠ '+' := by rintro rfl; have := (unhex_iff _ _).2 hx; cases this
    have hb : b ≠ '+' := by rintro rfl; have := (unhex_iff _ _).2 hy; cases this
    simp only [List.mem_cons] at hp
    rcases hp with e | e | e | hp
    · cases e
    · exact absurd e.symm ha
    · exact absurd e.symm hb
    · exact List.mem_cons_of_mem _ (ih hp)

/-- **C133 fails** for queries whose base64 has a `+` that is not escaped: the plus is a blank, and nothing is
read; nor is anything in the URL-safe alphabet. -/
theorem queries_lost {did : String} (hd : NoChar '?' did) {ps : List Param} {kvs : List (String × String)}
    (hm : Mean ps kvs) {v : String} (hv : FirstValue kvs "queries" v)
    (hbad : ' ' ∈ v.toList ∨ '-' ∈ v.toList ∨ '_' ∈ v.toList ∨ '#' ∈ v.toList) :
    getQueries unm (didURL did ps) = none := by
  have : B64.decode std v = none := by
    cases hb : B64.decode std v with
    | none => rfl
    | some x =>
      have hc := B64.decode_chars std_alphabet hb
      have no : ∀ c : Char, c ∉ B64.alphabet std → c ≠ '=' → c ≠ '\n' → c ≠ '\r' → c ∉ v.toList := by
        intro c h1 h2 h3 h4 hm
        rcases hc c hm with h | ⟨_, h⟩ | h | h
        · exact h1 h
        · exact h2 h
        · exact h3 h
        · exact h4 h
      rcases hbad with h | h | h | h
      · exact absurd h (no ' ' (by decide +kernel) (by decide) (by decide) (by decide))
      · exact absurd h (no '-' (by decide +kernel) (by decide) (by decide) (by decide))
      · exact absurd h (no '_' (by decide +kernel) (by decide) (by decide) (by decide))
      · exact absurd h (no '#' (by decide +kernel) (by decide) (by decide) (by decide))
  rw [queries_read unm hd hm hv, this]
  split <;> rfl

theorem queries_plus {did : String} (hd : NoChar '?' did) {a b : List Param} {p : Param}
    {ka kb : List (String × String)} (ha : Mean a ka) (hb : Mean b kb) {v : String} (hp : p.Means "queries" v)
    (hfirst : ∀ kv ∈ ka, kv.1 ≠ "queries") (hplus : '+' ∈ p.rawValue) :
    getQueries unm (didURL did (a ++ p :: b)) = none := by
  have key : Mean (a ++ p :: b) (ka ++ ("queries", v) :: kb) := by
    clear hfirst
    induction a generalizing ka with
    | nil =>
      cases ka with
      | nil => exact ⟨hp, hb⟩
      | cons => exact ha.elim
    | cons q a ih =>
      cases ka with
      | nil => exact ha.elim
      | cons kv ka => exact ⟨ha.1, ih ha.2⟩
  exact queries_lost unm hd key ⟨ka, kb, rfl, hfirst⟩ (.inl (spells_plus hp.spellsValue hplus))

/-! ## Cases -/

/-- Two bytes are one query. -/
def quUnm (b : B64.Bytes) : Option (List JObj) :=
  if b = [251, 240] then some [[("method", .str "CollectionsQuery")]] else none

/-- The two bytes are `+/A=` in base64. -/
example : B64.encode std [251, 240] = "+/A=" := by decide +kernel

/-- A service, then the queries with their plus escaped, then once more. -/
def quGood : List Param := [⟨"service".toList, "hub+1".toList⟩, ⟨"querie%73".toList, "%2b/A=".toList⟩,
  ⟨"queries".toList, "AA==".toList⟩]

theorem qu_mean : Mean quGood [("service", "hub 1"), ("queries", "+/A="), ("queries", "AA==")] := by
  refine ⟨⟨?_, ?_, by decide +kernel, by decide +kernel⟩, ⟨?_, ?_, by decide +kernel, by decide +kernel⟩,
    ⟨?_, ?_, by decide +kernel, by decide +kernel⟩, trivial⟩ <;>
    (rw [← unescape_iff]; decide +kernel)

example : didURL "did:ex:1" quGood = "did:ex:1?service=hub+1&querie%73=%2b/A=&queries=AA==" ∧
    (getQueries quUnm (didURL "did:ex:1" quGood)).isSome = true := by
  refine ⟨by decide +kernel, ?_⟩
  rw [queries_round_trip quUnm (by unfold NoChar; decide) qu_mean (x := [251, 240]) (by simp)
    ⟨[("service", "hub 1")], [("queries", "AA==")], by decide +kernel, by decide⟩]
  rfl

/-- The same with the plus as it is: nothing is read. -/
example : getQueries quUnm (didURL "did:ex:1" ([] ++ (⟨"queries".toList, "+/A=".toList⟩ : Param) :: [])) = none :=
  queries_plus quUnm (by unfold NoChar; decide) (ka := []) (kb := []) (v := " /A=") trivial trivial
    ⟨by rw [← unescape_iff]; decide +kernel, by rw [← unescape_iff]; decide +kernel, by decide +kernel,
      by decide +kernel⟩ (by simp) (by decide +kernel)

end VC.IdentityHub
