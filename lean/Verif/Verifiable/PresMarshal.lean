import Verif.Verifiable.PresentationMain
import Verif.Verifiable.JWTRoundTrip
import Verif.Verifiable.DataURL
/-!
# verifiable: writing presentations (C71, C72)

Models `Presentation.raw`, `MarshalJSON` and `newJWTPresClaims` (verifiable/presentation.go:392-540,
presentation_jwt.go:35-70) with `Credential.ToRawJSON` and `ToUniversalForm` (credential.go:930-1014).

Parameters: hexadecimal encoding and, for SD-JWT credentials, the combined format
(`MarshalWithDisclosure(DiscloseAll())`, see `Disclosure`).
-/

namespace VC.Vfy

open GoMap
open VC.Vfy.Spec

/-- A member that is left out if a condition fails. -/
def member (b : Bool) (k : String) (v : Json) : JObj := if b then [(k, v)] else []

/-- The fixed members of `raw`, presentation.go:494-531, with the enclosed credentials in their
universal form. The custom context is not written. -/
def rawFixed {T : Type} (vp : Pres T) (creds : List Json) : JObj :=
  member (!vp.context.isEmpty) "@context" (.arr (contextToRaw vp.context [])) ++
  (member (vp.id != "") "id" (.str vp.id) ++
  (member (!vp.types.isEmpty) "type" (serializeTypes vp.types) ++
  (member (vp.holder != "") "holder" (.str vp.holder) ++
  (member (!vp.proofs.isEmpty) "proof" (proofsToRaw vp.proofs) ++
  member (!creds.isEmpty) "verifiableCredential" (.arr creds)))))

/-- `mapSlice2`, common.go:398-411: the first error ends the loop. -/
def universals {T : Type} (u : PCred T → Option Json) : List (PCred T) → Option (List Json)
  | [] => some []
  | c :: l => (u c).bind fun j => (universals u l).map (j :: ·)

/-- `raw`, presentation.go:494-540. -/
def rawPres {T : Type} (u : PCred T → Option Json) (vp : Pres T) : Option JObj :=
  (universals u vp.credentials).map fun cs => JsonUtil.addCustomFields (rawFixed vp cs) vp.custom

/-- `newJWTPresClaims`, presentation_jwt.go:35-70. -/
def newPresClaims {T : Type} (u : PCred T → Option Json) (vp : Pres T) (aud : List String) (minimize : Bool) :
    Option CredClaims :=
  (rawPres u (if minimize then { vp with id := "", holder := "" } else vp)).map fun raw =>
    ⟨some ⟨vp.holder, "", aud, none, none, none, vp.id⟩, some raw⟩

/-- `json.Marshal` of `JWTPresClaims`, presentation_jwt.go:16-20 (an empty `vp` map is omitted). -/
def marshalPresClaims (c : CredClaims) : JObj :=
  (c.claims.elim [] marshalClaims) ++
  (match c.vc with
   | some (p :: o) => [("vp", .obj (p :: o))]
   | _ => [])

/-- `ToRawJSON`, credential.go:932-941. -/
def toRawJSON {T : Type} (c : PCred T) : JObj :=
  if c.proofs.isEmpty then c.json else set c.json "proof" (proofsToRaw c.proofs)

/-- `Envelope.ToRawJSON`, credential.go:908-924. -/
def envelopeJSON (id : String) : Json :=
  .obj [("id", .str id), ("type", .arr [.str "EnvelopedVerifiableCredential"]),
    ("@context", .arr [.str v2ContextURI])]

/-- `toEnvelopedForm`, credential.go:996-1014. -/
def toEnveloped {T : Type} (c : PCred T) (media : String) (text : String) : Json :=
  if isBaseContext c.contents.context v1ContextURI then .str text
  else envelopeJSON (newDataURL media "" text)

/-- `ToUniversalForm`, credential.go:965-994; `sdText` is the combined format of an SD-JWT credential,
`hex` the encoding of a COSE message. -/
def universalForm {T : Type} (hex : String → String) (sdText : JwtEnvelope → Option String) (c : PCred T) :
    Option Json :=
  match c.cwt with
  | some w => some (toEnveloped c "application/vc-ld+cose" (hex w.raw))
  | none =>
    match c.jwt with
    | some e =>
      (if c.contents.sdAlg.isSome then sdText e else some e.jwt).map
        (toEnveloped c (if e.disclosures.isEmpty then "application/vc-ld+jwt" else "application/vc-ld+sd-jwt"))
    | none => some (.obj (toRawJSON c))

/-- `marshalEnveloped`, presentation.go:424-437, before `json.Marshal`. -/
def vpEnvelope (url : String) : JObj :=
  [("@context", .arr [.str v2ContextURI]), ("id", .str url),
    ("type", .arr [.str "EnvelopedVerifiablePresentation"])]

/-- The text of a COSE presentation, presentation_cwt.go:82-84 and presentation.go:398-400: nothing if
there are no raw bytes. -/
def cwtRaw {T : Type} (vp : Pres T) : Option String :=
  match vp.cwt with
  | none => none
  | some w => if w.raw = "" then none else some w.raw

/-- The last cases of `MarshalJSON`, presentation.go:404-420. -/
def marshalPlain {T : Type} (enc : JObj → String) (u : PCred T → Option Json) (vp : Pres T) : Option String :=
  if vp.jwt ≠ "" then some ("\"" ++ vp.jwt ++ "\"") else (rawPres u vp).map enc

/-- `MarshalJSON`, presentation.go:392-420; `enc` is `json.Marshal` of a map. -/
def marshalPres {T : Type} (enc : JObj → String) (hex : String → String) (u : PCred T → Option Json)
    (vp : Pres T) : Option String :=
  if isBaseContext vp.context v2ContextURI then
    if vp.jwt ≠ "" then some (enc (vpEnvelope (newDataURL "application/vp-ld+jwt" "" vp.jwt)))
    else match cwtRaw vp with
    | some raw => some (enc (vpEnvelope (newDataURL "application/vp-ld+cose" "" (hex raw))))
    | none => marshalPlain enc u vp
  else marshalPlain enc u vp

end VC.Vfy
