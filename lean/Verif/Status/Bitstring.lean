import Verif.Base.Base64
import Verif.Status.Props
/-!
# C132: the text of a status list

`bitstring.Encode` and `bitstring.Decode`, and the verdict of `VerifyStatus` on a list written with them.
Parameters: gzip, and the encodings of go-multibase other than base64url.
-/

namespace VC.Status

open VC.B64 (rawURL rawURL_alphabet)

/-! ## Model -/

/-- `compress/gzip` as the code uses it: writing, and reading to the end. -/
structure Gzip where
  zip : B64.Bytes → B64.Bytes
  unzip : B64.Bytes → Option B64.Bytes

/-- The prefixes go-multibase knows, besides `u`. -/
def otherCodes : List Char :=
  ['\x00', '0', '7', '9', 'f', 'F', 'v', 'V', 't', 'T', 'b', 'B', 'c', 'C', 'h', 'k', 'K', 'z', 'Z', 'm', 'M',
   'U', '🚀']

/-- go-multibase `Decode`: the first character says which encoding; `other` decodes the rest in one that is
not base64url without padding. -/
def multibaseDecode (other : Char → String → Option B64.Bytes) (s : String) : Option B64.Bytes :=
  match s.toList with
  | [] => none
  | c :: l =>
    if c = 'u' then B64.decode rawURL (String.ofList l)
    else if c ∈ otherCodes then other c (String.ofList l)
    else none

/-- `Encode`, status/internal/bitstring/bitstring.go:80-93 (writing to a buffer does not fail). -/
def encodeBits (z : Gzip) (bits : B64.Bytes) : String := B64.encode rawURL (z.zip bits)

/-- `Decode`, status/internal/bitstring/bitstring.go:27-61; the option is that of lines 101-106. -/
def decodeBits (z : Gzip) (other : Char → String → Option B64.Bytes) (multibase : Bool) (s : String) :
    Option B64.Bytes :=
  match (if multibase then multibaseDecode other s else B64.decode rawURL s) with
  | none => none
  | some x => z.unzip x

/-! ## Specification -/

namespace Spec

/-- What is used of gzip: what is written is read, and begins with the magic byte `1f` (RFC 1952, 2.3.1). -/
structure GzipLaws (z : Gzip) : Prop where
  read : ∀ x, z.unzip (z.zip x) = some x
  magic : ∀ x, ∃ t, z.zip x = 0x1f :: t

/-- The bytes of the status package's model. -/
def vecs (x : B64.Bytes) : List (BitVec 8) := x.map UInt8.toBitVec

/-- The libraries of a verifier that decodes lists with `bitstring.Decode`. -/
def Reads (z : Gzip) (other : Char → String → Option B64.Bytes) (env : Env) : Prop :=
  ∀ mb s, env.decode mb s = (decodeBits z other mb s).map vecs

/-- How the list `x` is published for an entry of the given type: `Encode`'s text, for
`BitstringStatusListEntry` behind the multibase prefix. -/
def Published (z : Gzip) (type : String) (x : B64.Bytes) (enc : String) : Prop :=
  (type = "StatusList2021Entry" ∧ enc = encodeBits z x) ∨
  (type = "BitstringStatusListEntry" ∧ enc = "u" ++ encodeBits z x)

end Spec
open Spec

variable {z : Gzip} {other : Char → String → Option B64.Bytes}

/-- **C132** (round trip): what `Encode` writes `Decode` reads. -/
theorem decode_encodeBits (hz : GzipLaws z) (x : B64.Bytes) :
    decodeBits z other false (encodeBits z x) = some x := by
  unfold decodeBits encodeBits
  rw [if_neg (by simp), B64.decode_encode rawURL_alphabet]
  exact hz.read x

/-- With the multibase option it is read behind the prefix of base64url. -/
theorem decode_prefixed (hz : GzipLaws z) (x : B64.Bytes) :
    decodeBits z other true ("u" ++ encodeBits z x) = some x := by
  have : multibaseDecode other ("u" ++ encodeBits z x) = some (z.zip x) := by
    unfold multibaseDecode encodeBits
    rw [String.toList_append]
    show (if 'u' = 'u' then _ else _) = _
    rw [if_pos rfl]
    show B64.decode rawURL (String.ofList (B64.encode rawURL (z.zip x)).toList) = _
    rw [String.ofList_toList]
    exact B64.decode_encode rawURL_alphabet _
  unfold decodeBits
  rw [if_pos rfl, this]
  exact hz.read x

/-- The text begins with `H`. -/
theorem encodeBits_first (hz : GzipLaws z) (x : B64.Bytes) : ∃ l, (encodeBits z x).toList = 'H' :: l := by
  obtain ⟨t, ht⟩ := hz.magic x
  unfold encodeBits B64.encode
  rw [String.toList_ofList, ht]
  have hd : ∀ m : Nat, m < 65536 → B64.digit rawURL ((31 * 65536 + m) / 262144) = 'H' := by
    intro m hm
    have : (31 * 65536 + m) / 262144 = 7 := by omega
    rw [this]
    decide +kernel
  match t with
  | [] =>
    have := hd 0 (by omega)
    simp only [B64.encL]
    exact ⟨_, by rw [show (31 : UInt8).toNat * 65536 = 31 * 65536 + 0 from rfl, this]⟩
  | [b] =>
    have hb := B64.toNat_bounds b
    have := hd (b.toNat * 256) (by omega)
    simp only [B64.encL]
    exact ⟨_, by rw [show (31 : UInt8).toNat * 65536 = 31 * 65536 from rfl, this]⟩
  | b :: c :: t =>
    have hb := B64.toNat_bounds b
    have hc := B64.toNat_bounds c
    have := hd (b.toNat * 256 + c.toNat) (by omega)
    simp only [B64.encL]
    exact ⟨_, by rw [show (31 : UInt8).toNat * 65536 = 31 * 65536 from rfl, Nat.add_assoc, this]⟩

/-- **C132 fails for the multibase option**: no text `Encode` writes can be read with it, whatever the other
encodings do: `H` is not a multibase prefix. -/
theorem encode_not_multibase (hz : GzipLaws z) (x : B64.Bytes) :
    decodeBits z other true (encodeBits z x) = none := by
  obtain ⟨l, hl⟩ := encodeBits_first hz x
  unfold decodeBits multibaseDecode
  rw [if_pos rfl, hl]
  dsimp only
  rw [if_neg (by decide), if_neg (by decide +kernel)]

theorem bits_getD (x : B64.Bytes) (i : Nat) (h : i / 8 < x.length) :
    (Spec.bits (vecs x))[i]? = some ((x[i / 8]).toNat.testBit (i % 8)) := by
  induction x generalizing i with
  | nil => simp at h
  | cons b x ih =>
    have e : Spec.bits (vecs (b :: x)) =
        ((List.range 8).map fun j => b.toBitVec.getLsbD j) ++ Spec.bits (vecs x) := by
      simp [Spec.bits, vecs]
    rw [e]
    by_cases hi : i < 8
    · rw [List.getElem?_append_left (by simpa using hi)]
      have h0 : i / 8 = 0 := by omega
      have h1 : i % 8 = i := by omega
      simp only [h0, h1, List.getElem_cons_zero]
      rw [List.getElem?_map, List.getElem?_range hi]
      rfl
    · rw [List.getElem?_append_right (by simp; omega)]
      simp only [List.length_map, List.length_range]
      have h0 : i / 8 = (i - 8) / 8 + 1 := by omega
      have h1 : (i - 8) % 8 = i % 8 := by omega
      have := ih (i - 8) (by simp at h; omega)
      rw [this, h1]
      simp only [h0, List.getElem_cons_succ]

/-- **C132** (the verdict): for a well-formed entry whose list was published by the credential's issuer with
`Encode`, the entry is accepted exactly when its bit is clear, and refused with the entry's purpose exactly
when it is set. -/
theorem published_verdict (hz : GzipLaws z) {env : Env} (hr : Reads z other env) {iss : String} {e : Entry}
    (hl : msgCount e < 2 ^ 63) (hw : WF2021 e ∨ WFBitstring e) {idx uri enc : String} {i : Nat} {vc : ListVC}
    {subj : JObj} {x : B64.Bytes} (h1 : StrField e.custom "statusListIndex" idx) (h2 : atoi idx = some (i : Int))
    (h3 : StrField e.custom "statusListCredential" uri) (h4 : env.resolve uri = some vc)
    (h5 : vc.issuer = some iss) (h6 : vc.subjects.head? = some subj) (h7 : StrField subj "encodedList" enc)
    (hp : Published z e.type x enc) (hi : i / 8 < x.length) :
    verifyEntry env (some iss) e =
      if (x[i / 8]).toNat.testBit (i % 8) then .error (purposeError e) else .ok () := by
  have hdec : env.decode (decide (e.type = "BitstringStatusListEntry")) enc = some (vecs x) := by
    rw [hr]
    rcases hp with ⟨ht, rfl⟩ | ⟨ht, rfl⟩
    · rw [ht, show decide ("StatusList2021Entry" = "BitstringStatusListEntry") = false by decide,
        decode_encodeBits hz]
      rfl
    · rw [ht, show decide ("BitstringStatusListEntry" = "BitstringStatusListEntry") = true by decide,
        decode_prefixed hz]
      rfl
  have hP : Points env (some iss) e ((x[i / 8]).toNat.testBit (i % 8)) :=
    ⟨hw, idx, i, uri, vc, iss, subj, enc, vecs x, h1, h2, h3, h4, h5, rfl, h6, h7, hdec, bits_getD x i hi⟩
  rcases verifyEntry_points env (some iss) e hl with ⟨g, h⟩ | ⟨g, h⟩ | ⟨g, _⟩
  · rw [points_unique hP g, h]; rfl
  · rw [points_unique hP g, h]; rfl
  · exact absurd hP (g _)

/-! ## Cases -/

/-- A gzip that only writes the magic byte. -/
def bsZip : Gzip where
  zip x := 0x1f :: x
  unzip
    | 0x1f :: x => some x
    | _ => none

theorem bs_laws : GzipLaws bsZip := ⟨fun _ => rfl, fun x => ⟨x, rfl⟩⟩

/-- A list of sixteen entries of which number 10 is set. -/
def bsList : B64.Bytes := [0, 4]

example : encodeBits bsZip bsList = "HwAE" ∧ decodeBits bsZip (fun _ _ => some []) true "HwAE" = none ∧
    decodeBits bsZip (fun _ _ => some []) true "uHwAE" = some bsList := by decide +kernel

/-- The published list. -/
def bsVC (enc : String) : ListVC := ⟨some "did:ex:a", [[("encodedList", .str enc)]]⟩

/-- A verifier. -/
def bsEnv : Env where
  resolve u := if u = "https://ex/l" then some (bsVC "HwAE") else if u = "https://ex/m" then some (bsVC "uHwAE") else none
  decode mb s := (decodeBits bsZip (fun _ _ => none) mb s).map vecs

/-- An entry. -/
def bsEntry (type uri idx : String) : Entry where
  id := "urn:e"
  type := type
  custom := [("statusListCredential", .str uri), ("statusListIndex", .str idx), ("statusPurpose", .str "revocation")]

theorem bs_fields (type uri idx : String) : HasFields (bsEntry type uri idx) :=
  ⟨⟨_, rfl, by simp⟩, ⟨_, rfl, by simp⟩, ⟨_, rfl, by simp⟩⟩

/-- Number 10 is revoked, number 9 is not, for both types. -/
example :
    verifyEntry bsEnv (some "did:ex:a") (bsEntry "StatusList2021Entry" "https://ex/l" "10") = .error .revoked ∧
    verifyEntry bsEnv (some "did:ex:a") (bsEntry "BitstringStatusListEntry" "https://ex/m" "9") = .ok () := by
  constructor
  · exact published_verdict (x := bsList) (i := 10) (idx := "10")
      (uri := "https://ex/l") (enc := "HwAE") (subj := [("encodedList", .str "HwAE")])
      (vc := bsVC "HwAE") (env := bsEnv) bs_laws (other := fun _ _ => none) (fun _ _ => rfl) (by decide)
      (.inl ⟨rfl, bs_fields _ _ _⟩) rfl (by decide +kernel) rfl rfl rfl rfl rfl
      (.inl ⟨rfl, by decide +kernel⟩) (by decide)
  · exact published_verdict (x := bsList) (i := 9) (idx := "9")
      (uri := "https://ex/m") (enc := "uHwAE") (subj := [("encodedList", .str "uHwAE")])
      (vc := bsVC "uHwAE") (env := bsEnv) bs_laws (other := fun _ _ => none) (fun _ _ => rfl) (by decide)
      (.inr ⟨rfl, bs_fields _ _ _, .inl (by intro v h; cases h)⟩) rfl (by decide +kernel) rfl rfl rfl rfl rfl
      (.inr ⟨rfl, by decide +kernel⟩) (by decide)

end VC.Status
