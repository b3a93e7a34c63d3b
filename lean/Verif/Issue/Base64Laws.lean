import Verif.Base.Base64
import Verif.Issue.SdMake
import Verif.Issue.Marshal
import Verif.Issue.MarshalOther
/-!
# C131: what is used of base64

Elsewhere base64url is a parameter with the laws that are used of it.  Here the parameters are Go's own
encoding (`Verif.Base.Base64`), and the laws are theorems.
-/

namespace VC.Iss

open VC.Vfy
open VC.Vfy.Spec
open VC.Proof (Bytes)
open VC.SDJWT (IEnv Ver Ent Codec DistinctDigests)
open VC.B64 (rawURL rawURL_alphabet)
open Spec

/-! ## Model -/

/-- `isValidJSON`, jwt/jwt.go:302-312: base64url, then an object (`unm` is `json.Unmarshal` into a map). -/
def isValidJSON (unm : Bytes → Option JObj) (s : String) : Bool :=
  match B64.decode rawURL s with
  | none => false
  | some b => (unm b).isSome

/-- The decoding of a disclosure, sdjwt/common/verification.go:318-328: base64url, then an array (`unm` is
`json.Unmarshal` into a slice). -/
def decodeDisclosure (unm : Bytes → Option (List Json)) (s : String) : Option (List Json) :=
  (B64.decode rawURL s).bind unm

/-- A disclosure as written, sdjwt/issuer/v2.go:111-134, v5.go:306-327. -/
def encodeDisclosure (enc : List Json → Bytes) (l : List Json) : String := B64.encode rawURL (enc l)

/-! ## Specification -/

namespace Spec

/-- The writer's library encodes with Go's base64url. -/
def GoWriter (lib : JwsLib) : Prop := ∀ x, lib.b64 x = B64.encode rawURL x

/-- The reader's libraries: `jsonPart` and the decoding of disclosures use Go's base64url; `unm` and `unmArr`
are `json.Unmarshal` into a map and a slice, which no bytes at all are refused by. -/
structure GoReader (env : PEnv) (unmArr : Bytes → Option (List Json)) : Prop where
  parts : ∀ s, env.jsonPart s = isValidJSON env.payloadObj s
  disclosures : ∀ s, env.sd.decode s = decodeDisclosure unmArr s
  noBytes : unmArr [] = none

end Spec
open Spec

theorem urlChar_of_mem {c : Char} (h : c ∈ B64.alphabet rawURL) : urlChar c := by
  have : ∀ c ∈ B64.alphabet rawURL, c.isAlphanum = true ∨ c = '-' ∨ c = '_' := by decide +kernel
  exact this c h

theorem mem_of_urlChar {c : Char} (h : urlChar c) : c ∈ B64.alphabet rawURL := by
  rcases h with h | rfl | rfl
  · have key : ∀ n < 128, (Char.ofNat n).isAlphanum = true → Char.ofNat n ∈ B64.alphabet rawURL := by
      decide +kernel
    have hlt : c.toNat < 128 := by
      simp only [Char.isAlphanum, Char.isAlpha, Char.isUpper, Char.isLower, Char.isDigit, Bool.or_eq_true,
        Bool.and_eq_true, decide_eq_true_eq, ge_iff_le, UInt32.le_iff_toNat_le] at h
      have e : c.toNat = c.val.toNat := rfl
      simp at h
      omega
    have := key c.toNat hlt
    rw [Char.ofNat_toNat] at this
    exact this h
  · decide +kernel
  · decide +kernel

/-- **C131** (writing): the laws used of base64url hold of Go's. -/
theorem goWriter_laws {lib : JwsLib} (h : GoWriter lib) : B64 lib where
  alphabet x c hc := by
    rw [h x] at hc
    rcases B64.encode_chars x c hc with hc | ⟨hp, _⟩
    · exact urlChar_of_mem hc
    · cases hp
  empty := by rw [h]; rfl
  nonempty x hx := B64.encode_eq_empty rawURL_alphabet (by rw [← h x]; exact hx)

/-- **C131** (reading): a part of a token is read exactly when the bytes it stands for are a JSON object. -/
theorem isValidJSON_encode (unm : Bytes → Option JObj) (x : Bytes) :
    isValidJSON unm (B64.encode rawURL x) = (unm x).isSome := by
  unfold isValidJSON
  rw [B64.decode_encode rawURL_alphabet]

/-- What is taken for base64url of an object has only the characters of base64url, and line breaks. -/
theorem isValidJSON_chars {unm : Bytes → Option JObj} {s : String} (h : isValidJSON unm s = true) :
    ∀ c ∈ s.toList, urlChar c ∨ c = '\n' ∨ c = '\r' := by
  unfold isValidJSON at h
  split at h
  · cases h
  · rename_i b hb
    intro c hc
    rcases B64.decode_chars rawURL_alphabet hb c hc with h | ⟨h, _⟩ | h
    · exact Or.inl (urlChar_of_mem h)
    · cases h
    · exact Or.inr h

/-- **C131**: a text beginning with any other character, such as a brace or a quote, is not taken for a
part of a token. -/
theorem goReader_noPart {env : PEnv} {unmArr : Bytes → Option (List Json)} (h : GoReader env unmArr) (x : Char)
    (hx : ¬ urlChar x) (hn : x ≠ '\n') (hr : x ≠ '\r') : NoPart env x := by
  intro s l hs
  cases hv : env.jsonPart s with
  | false => rfl
  | true =>
    rw [h.parts] at hv
    rcases isValidJSON_chars hv x (by rw [hs]; simp) with h | h | h
    · exact absurd h hx
    · exact absurd h hn
    · exact absurd h hr

theorem goReader_noBrace {env : PEnv} {unmArr : Bytes → Option (List Json)} (h : GoReader env unmArr) :
    NoBrace env :=
  goReader_noPart h '{' (by unfold urlChar; decide) (by decide) (by decide)

/-- **C131**: whatever text is read as a disclosure is not empty and has neither separator. -/
theorem goReader_clean {env : PEnv} {unmArr : Bytes → Option (List Json)} (h : GoReader env unmArr)
    {es : List Ent} (hc : Codec env.sd es) : CleanTexts (es.map Ent.result) := by
  intro d hd
  obtain ⟨en, hen, rfl⟩ := List.mem_map.1 hd
  have h1 := hc en hen
  rw [h.disclosures] at h1
  unfold decodeDisclosure at h1
  cases hb : B64.decode rawURL en.result with
  | none => rw [hb] at h1; cases h1
  | some b =>
    rw [hb] at h1
    have hch := B64.decode_chars rawURL_alphabet hb
    have key : ∀ x : Char, ¬ urlChar x → x ≠ '\n' → x ≠ '\r' → NoChar x en.result := by
      intro x hx hn hr hm
      rcases hch x hm with h | ⟨h, _⟩ | h | h
      · exact hx (urlChar_of_mem h)
      · cases h
      · exact hn h
      · exact hr h
    refine ⟨?_, key '~' (by unfold urlChar; decide) (by decide) (by decide),
      key '.' (by unfold urlChar; decide) (by decide) (by decide)⟩
    intro he
    rw [he] at hb
    have : b = [] := by
      have h0 : B64.decode rawURL "" = some [] := rfl
      rw [h0] at hb
      exact (Option.some.inj hb).symm
    subst this
    simp only [Option.bind_some] at h1
    rw [h.noBytes] at h1
    cases h1

/-- **C131**: what the issuer writes for a disclosure the reader decodes to what was written, whatever the
salt, the name and the value, as soon as `encoding/json` reads what it writes. -/
theorem disclosure_round_trip (enc : List Json → Bytes) (unm : Bytes → Option (List Json)) (l : List Json)
    (h : unm (enc l) = some l) : decodeDisclosure unm (encodeDisclosure enc l) = some l := by
  unfold decodeDisclosure encodeDisclosure
  rw [B64.decode_encode rawURL_alphabet]
  exact h

/-- Different disclosures have different texts. -/
theorem disclosure_texts (enc : List Json → Bytes) (unm : Bytes → Option (List Json))
    (h : ∀ l, unm (enc l) = some l) {l l' : List Json} (ht : encodeDisclosure enc l = encodeDisclosure enc l') :
    l = l' := by
  have h1 := disclosure_round_trip enc unm l (h l)
  rw [ht, disclosure_round_trip enc unm l' (h l')] at h1
  exact (Option.some.inj h1).symm

/-- **C131 fails for reading**: a disclosure always has another text that is read as the same disclosure
(which its digest tells apart). -/
theorem disclosure_other_text (unm : Bytes → Option (List Json)) (s : String) :
    decodeDisclosure unm (s ++ "\n") = decodeDisclosure unm s ∧ s ++ "\n" ≠ s := by
  constructor
  · unfold decodeDisclosure
    have := B64.decode_break (e := rawURL) s "" '\n' (Or.inl rfl)
    simp only [String.append_empty] at this
    rw [show s ++ "\n" = s ++ String.singleton '\n' from rfl, this]
  · intro h
    have := congrArg (fun t => t.toList.length) h
    simp at this

/-- `Readable` without its assumptions on base64. -/
theorem goReadable {lib : JwsLib} {env : PEnv} {unmArr : Bytes → Option (List Json)} {t : Tok} {es : List Ent}
    (hw : GoWriter lib) (hr : GoReader env unmArr)
    (parse : env.lib.parseJWS none (serialize lib false t) = some t.jws)
    (payload : env.payloadObj t.jws.payload = some t.payload)
    (hdr : env.payloadObj t.hdr ≠ none)
    (notObj : env.decodeObj (serialize lib false t) = none)
    (signed : t.jws.signature ≠ []) (headers : JWT.GoodHeaders env.lib.upper t.headers) (ne : es ≠ [])
    (text : TokenText env (SDJWT.Issuance.serialize ⟨serialize lib false t, es.map Ent.result⟩))
    (codec : Codec env.sd es) (distinct : DistinctDigests env.sd t.payload (es.map Ent.result)) :
    Readable lib env t es where
  b64 := goWriter_laws hw
  reads := ⟨parse, payload, by rw [hr.parts, hw, isValidJSON_encode]; exact Option.isSome_iff_ne_none.2 hdr,
    by rw [hr.parts, hw, isValidJSON_encode, payload]; rfl, notObj⟩
  signed := signed
  headers := headers
  clean := goReader_clean hr codec
  some := ne
  text := text
  codec := codec
  distinct := distinct

end VC.Iss
