import Verif.Verifiable.Parse
/-!
# BBS+ selective disclosure (model)

`BBSSelectiveDisclosure` (verifiable/bbs_selective_disclosure.go) and the message splitting of the
BBS+ verifiers (crypto-ext/verifiers/bbs/verifier.go).

Parameters (`BEnv`): the JSON-LD processor (compaction, framing, canonicalisation, blank node
renaming), `strings.TrimSpace` being empty, did-go's `proof.NewProof`, the key resolver, the BBS+
derivation and base64.

Simplified: byte strings of statements are strings; error texts are dropped; the typed slice stored
under `proof` is a JSON array.
-/

namespace VC.BBS

open GoMap
open VC.Proof (Bytes)

/-- Library parameters. -/
structure BEnv where
  /-- `processor.Default().Compact` with the security context -/
  compact : JObj → Option JObj
  /-- `processor.Default().Frame` with `WithFrameBlankNodes` -/
  frame : JObj → JObj → Option JObj
  /-- `processor.Default().GetCanonicalDocument` -/
  canon : JObj → Option String
  /-- `processor.TransformBlankNode` -/
  toBlank : String → String
  /-- `strings.TrimSpace(s) == ""` -/
  blank : String → Bool
  /-- `proof.NewProof`: `PublicKeyID()` and `ProofValue` -/
  newProof : JObj → Option (Option String × Bytes)
  /-- `ResolveVerificationMethod(id, controller)`: the key bytes -/
  resolve : String → String → Option Bytes
  /-- `DeriveProof(messages, signature, nonce, key, revealedIndexes)` -/
  derive : List String → Bytes → Bytes → Bytes → List Nat → Option Bytes
  /-- `base64.StdEncoding.EncodeToString` -/
  b64 : Bytes → String

variable (env : BEnv)

/-! ## Statements -/

/-- `splitMessageIntoLines`, bbs_selective_disclosure.go:283-295; the same loop without transformation
is crypto-ext/verifiers/bbs/verifier.go:95-113. -/
def splitLines (msg : String) : List String :=
  (split '\n' msg).filter (fun r => !env.blank r)

/-- `strings.Index(s, pat)`: what stands before and after the first occurrence. -/
def cut (pat : List Char) : List Char → Option (List Char × List Char)
  | [] => if pat.isPrefixOf [] then some ([], []) else none
  | c :: s =>
    if pat.isPrefixOf (c :: s) then some ([], (c :: s).drop pat.length)
    else (cut pat s).map (fun r => (c :: r.1, r.2))

/-- `transformFromBlankNode`, verifier.go:120-144. -/
def fromBlank (row : String) : String :=
  match cut "<urn:bnid:_:c14n".toList row.toList with
  | none => row
  | some (pre, rest) =>
    match cut ">".toList rest with
    | none => row
    | some (n, suf) => String.ofList (pre ++ "_:c14n".toList ++ n ++ suf)

/-- `splitMessageIntoLines(msg, true)`, verifier.go:95-113: the messages `VerifyProof` gets. -/
def verifierMessages (msg : String) : List String := (splitLines env msg).map fromBlank

/-! ## Deriving -/

/-- `prepareDocAndProof`, bbs_selective_disclosure.go:90-105. -/
def prepare (doc : JObj) : Option (JObj × Json) :=
  match env.compact doc with
  | none => none
  | some c =>
    match JObj.at c "proof" with
    | .null => none
    | p => some (del c "proof", p)

/-- `strings.HasSuffix(proofType, "BbsBlsSignature2020")`, bbs_selective_disclosure.go:160-162. -/
def isBls (p : JObj) : Bool :=
  match get? p "type" with
  | some (.str t) => "BbsBlsSignature2020".toList.isSuffixOf t.toList
  | _ => false

/-- `getBlsProofs`, bbs_selective_disclosure.go:152-169. -/
def getBlsProofs (raw : Json) : Option (List JObj) :=
  match Vfy.getProofs raw with
  | none => none
  | some ps =>
    some ((ps.filter isBls).map (fun p => set p "@context" (.str "https://w3id.org/security/v2")))

/-- The map from transformed statement to its index, bbs_selective_disclosure.go:231-234: a later equal
statement overwrites an earlier one. -/
def indexMap : Nat → List String → GoMap Nat → GoMap Nat
  | _, [], m => m
  | i, s :: l, m => indexMap (i + 1) l (set m s i)

/-- The indexes of the revealed statements, bbs_selective_disclosure.go:236-240: reading an absent key
of a Go map yields 0. -/
def docIndexes (m : GoMap Nat) : List String → List Nat
  | [] => []
  | s :: l => (get? m s).getD 0 :: docIndexes m l

/-- `docVerificationData`, bbs_selective_disclosure.go:171-175. -/
structure DocData where
  indexes : List Nat
  result : JObj
  statements : List String

/-- `buildDocVerificationData` with `createVerifyDocumentData` and `createVerifyRevealData`,
bbs_selective_disclosure.go:210-281. -/
def buildDoc (doc reveal : JObj) : Option DocData :=
  match env.canon doc with
  | none => none
  | some text =>
    match env.frame doc reveal with
    | none => none
    | some res =>
      match env.canon res with
      | none => none
      | some rtext =>
        some ⟨docIndexes (indexMap 0 ((splitLines env text).map env.toBlank) []) (splitLines env rtext),
          res, splitLines env text⟩

/-- `buildVerificationData`, bbs_selective_disclosure.go:182-208, with `createVerifyProofData`
(297-312) and `toArrayOfBytes`: the messages and the revealed indexes. -/
def buildVer (p : JObj) (d : DocData) : Option (List String × List Nat) :=
  match env.canon (del p "proofValue") with
  | none => none
  | some text =>
    some (splitLines env text ++ d.statements,
      List.range (splitLines env text).length ++
        d.indexes.map (fun i => (splitLines env text).length + i))

/-- `getPublicKeyAndSignature`, bbs_selective_disclosure.go:132-150. -/
def keyAndSignature (p : JObj) : Option (Bytes × Bytes) :=
  match env.newProof p with
  | none => none
  | some (none, _) => none
  | some (some kid, sig) =>
    match env.resolve kid ((split '#' kid).headD "") with
    | none => none
    | some key => some (key, sig)

/-- `generateSignatureProof`, bbs_selective_disclosure.go:107-130. -/
def genProof (p : JObj) (nonce : Bytes) (v : List String × List Nat) : Option JObj :=
  match keyAndSignature env p with
  | none => none
  | some (key, sig) =>
    match env.derive v.1 sig nonce key v.2 with
    | none => none
    | some pv => some
      [("type", .str "BbsBlsSignatureProof2020"), ("nonce", .str (env.b64 nonce)),
       ("verificationMethod", JObj.at p "verificationMethod"),
       ("proofPurpose", JObj.at p "proofPurpose"), ("created", JObj.at p "created"),
       ("proofValue", .str (env.b64 pv))]

/-- The loop over the BBS+ proofs, bbs_selective_disclosure.go:69-81. -/
def genProofs (nonce : Bytes) (d : DocData) : List JObj → Option (List JObj)
  | [] => some []
  | p :: ps =>
    match buildVer env p d with
    | none => none
    | some v =>
      match genProof env p nonce v with
      | none => none
      | some r => (genProofs nonce d ps).map (r :: ·)

/-- `BBSSelectiveDisclosure`, bbs_selective_disclosure.go:46-86. -/
def selectiveDisclosure (doc reveal : JObj) (nonce : Bytes) : Option JObj :=
  match prepare env doc with
  | none => none
  | some (d, raw) =>
    match getBlsProofs raw with
    | none => none
    | some ps =>
      if ps.isEmpty then none
      else match buildDoc env d reveal with
      | none => none
      | some dd =>
        match genProofs env nonce dd ps with
        | none => none
        | some rs => some (set dd.result "proof" (.arr (rs.map .obj)))

end VC.BBS
