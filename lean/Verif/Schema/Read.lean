import Verif.Schema.Docs
/-!
# What the built-in schema documents are read as

The checks gojsonschema makes of the four built-in documents, with references to the definitions
replaced by what they name; each is proved to be what reading the document gives.
-/

namespace VC.Schema

/-- The date-time pattern of the v2 documents, credential.go:461, presentation.go:232. -/
def datePattern : String :=
  "-?([1-9][0-9]{3,}|0[0-9]{3})-(0[1-9]|1[0-2])-(0[1-9]|[12][0-9]|3[01])T(([01][0-9]|2[0-3]):[0-5][0-9]:[0-5][0-9](\\.[0-9]+)?|(24:00:00(\\.0+)?))(Z|(\\+|-)((0[0-9]|1[0-3]):[0-5][0-9]|14:00))"

/-- The definition `typedID`. -/
def credV1TypedID : Sch :=
  .all [.anyOf [
      .all [.types ["null"]],
      .all [.types ["object"], .required ["id", "type"], .props [
          ("id", .all [.types ["string"], .format "uri"]),
          ("type", .all [.anyOf [
              .all [.types ["string"]],
              .all [.types ["array"], .items (.all [.types ["string"]])]]])]]]]

/-- The definition `typedIDs`. -/
def credV1TypedIDs : Sch :=
  .all [.anyOf [
      credV1TypedID,
      .all [.types ["array"], .items (credV1TypedID)],
      .all [.types ["null"]]]]

/-- The definition `proof`. -/
def credV1Proof : Sch :=
  .all [.types ["object"], .required ["type"], .props [
      ("type", .all [.types ["string"]])]]

/-- The checks of `credV1Doc`. -/
def credV1Sch (req : List String) : Sch :=
  .all [.required ("@context" :: req), .props [
      ("@context", .all [.anyOf [
          .all [.types ["string"], .const (.str "https://www.w3.org/2018/credentials/v1")],
          .all [.types ["array"], .tuple [.all [.types ["string"], .const (.str "https://www.w3.org/2018/credentials/v1")]] (.all [.anyOf [
                .all [.types ["object"]],
                .all [.types ["string"]]]]), .unique]]]),
      ("id", .all [.types ["string"]]),
      ("type", .all [.oneOf [
          .all [.types ["array"], .minItems 1, .contains (.all [.types ["string"], .pattern "^VerifiableCredential$"])],
          .all [.types ["string"], .pattern "^VerifiableCredential$"]]]),
      ("credentialSubject", .all [.anyOf [
          .all [.types ["array"]],
          .all [.types ["object"]],
          .all [.types ["string"]]]]),
      ("issuer", .all [.anyOf [
          .all [.types ["string"], .format "uri"],
          .all [.types ["object"], .required ["id"], .props [
              ("id", .all [.types ["string"], .format "uri"])]]]]),
      ("issuanceDate", .all [.types ["string"], .format "date-time"]),
      ("proof", .all [.anyOf [
          credV1Proof,
          .all [.types ["array"], .items (credV1Proof)],
          .all [.types ["null"]]]]),
      ("expirationDate", .all [.types ["string", "null"], .format "date-time"]),
      ("credentialStatus", credV1TypedID),
      ("credentialSchema", credV1TypedIDs),
      ("evidence", credV1TypedIDs),
      ("refreshService", credV1TypedID)]]

/-- The definition `type`. -/
def credV2Type : Sch :=
  .all [.oneOf [
      .all [.types ["string"]],
      .all [.types ["array"], .minItems 1]]]

/-- The definition `credentialSubject`. -/
def credV2CredentialSubject : Sch :=
  .all [.types ["object"], .props [
      ("id", .all [.types ["string"]])], .minProps 1]

/-- The definition `credentialSchema`. -/
def credV2CredentialSchema : Sch :=
  .all [.types ["object"], .props [
      ("id", .all [.types ["string"]]),
      ("type", credV2Type)], .required ["id", "type"]]

/-- The definition `credentialStatus`. -/
def credV2CredentialStatus : Sch :=
  .all [.types ["object"], .props [
      ("id", .all [.types ["string"]]),
      ("type", credV2Type)], .required ["id", "type"]]

/-- The definition `refreshService`. -/
def credV2RefreshService : Sch :=
  .all [.types ["object"], .props [
      ("id", .all [.types ["string"]]),
      ("type", credV2Type)], .required ["id", "type"]]

/-- The definition `termsOfUse`. -/
def credV2TermsOfUse : Sch :=
  .all [.types ["object"], .props [
      ("id", .all [.types ["string"]]),
      ("type", credV2Type)], .required ["type"]]

/-- The definition `evidence`. -/
def credV2Evidence : Sch :=
  .all [.types ["object"], .props [
      ("id", .all [.types ["string"]]),
      ("type", credV2Type)], .required ["type"]]

/-- The definition `proof`. -/
def credV2Proof : Sch :=
  .all [.types ["object"], .props [
      ("type", credV2Type),
      ("proofPurpose", .all [.types ["string"]]),
      ("verificationMethod", .all [.oneOf [
          .all [.types ["string"]],
          .all [.types ["array"], .minItems 1, .items (.all [.types ["object"], .props [
                ("id", .all [.types ["string"]]),
                ("type", .all [.types ["string"]]),
                ("controller", .all [.types ["string"]])], .required ["id", "type", "controller"]])]]]),
      ("created", .all [.types ["string"]]),
      ("domain", .all [.types ["string"]]),
      ("challenge", .all [.types ["string"]]),
      ("proofValue", .all [.types ["string"]])], .required ["type", "proofPurpose", "verificationMethod"]]

/-- The definition `proofChain`. -/
def credV2ProofChain : Sch :=
  .all [.types ["array"], .items (credV2Proof), .minItems 1]

/-- The checks of `credV2Doc`. -/
def credV2Sch (req : List String) : Sch :=
  .all [.types ["object"], .props [
      ("@context", .all [.types ["array"], .contains (.all [.const (.str "https://www.w3.org/ns/credentials/v2")]), .minItems 1]),
      ("id", .all [.types ["string"]]),
      ("type", .all [.oneOf [
          .all [.types ["array"], .contains (.all [.const (.str "VerifiableCredential")])],
          .all [.types ["string"], .enum [.str "VerifiableCredential"]]]]),
      ("issuer", .all [.oneOf [
          .all [.types ["string"]],
          .all [.types ["object"], .props [
              ("id", .all [.types ["string"]])], .required ["id"]]]]),
      ("validFrom", .all [.types ["string"], .pattern datePattern]),
      ("validUntil", .all [.types ["string"], .pattern datePattern]),
      ("credentialSubject", .all [.oneOf [
          credV2CredentialSubject,
          .all [.types ["array"], .items (credV2CredentialSubject), .minItems 1]]]),
      ("credentialStatus", .all [.oneOf [
          credV2CredentialStatus,
          .all [.types ["array"], .items (credV2CredentialStatus), .minItems 1]]]),
      ("credentialSchema", .all [.oneOf [
          credV2CredentialSchema,
          .all [.types ["array"], .items (credV2CredentialSchema), .minItems 1]]]),
      ("refreshService", .all [.oneOf [
          credV2RefreshService,
          .all [.types ["array"], .items (credV2RefreshService), .minItems 1]]]),
      ("termsOfUse", .all [.oneOf [
          credV2TermsOfUse,
          .all [.types ["array"], .items (credV2TermsOfUse), .minItems 1]]]),
      ("evidence", .all [.oneOf [
          credV2Evidence,
          .all [.types ["array"], .items (credV2Evidence), .minItems 1]]]),
      ("proof", .all [.oneOf [
          credV2Proof,
          .all [.types ["array"], .items (credV2Proof), .minItems 1]]]),
      ("proofChain", credV2ProofChain)], .required ("@context" :: req)]

/-- The definition `typedID`. -/
def presV1TypedID : Sch :=
  .all [.types ["object"], .required ["id", "type"], .props [
      ("id", .all [.types ["string"], .format "uri"]),
      ("type", .all [.anyOf [
          .all [.types ["string"]],
          .all [.types ["array"], .items (.all [.types ["string"]])]]])]]

/-- The definition `proof`. -/
def presV1Proof : Sch :=
  .all [.types ["object"], .required ["type"], .props [
      ("type", .all [.types ["string"]])]]

/-- The checks of `presV1Doc`. -/
def presV1Sch : Sch :=
  .all [.required ["@context", "type"], .props [
      ("@context", .all [.oneOf [
          .all [.types ["string"], .const (.str "https://www.w3.org/2018/credentials/v1")],
          .all [.types ["array"], .tuple [.all [.types ["string"], .const (.str "https://www.w3.org/2018/credentials/v1")]] (.all [.oneOf [
                .all [.types ["object"]],
                .all [.types ["string"]]]]), .unique]]]),
      ("id", .all [.types ["string"]]),
      ("type", .all [.oneOf [
          .all [.types ["array"], .minItems 1, .contains (.all [.types ["string"], .pattern "^VerifiablePresentation$"])],
          .all [.types ["string"], .pattern "^VerifiablePresentation$"]]]),
      ("verifiableCredential", .all [.anyOf [
          .all [.types ["array"]],
          .all [.types ["object"]],
          .all [.types ["string"]],
          .all [.types ["null"]]]]),
      ("proof", .all [.anyOf [
          .all [.types ["array"], .tuple [presV1Proof] (.all [])],
          presV1Proof]]),
      ("refreshService", presV1TypedID)]]

/-- The definition `proof`. -/
def presV2Proof : Sch :=
  .all [.types ["object"], .props [
      ("type", .all [.oneOf [
          .all [.types ["string"]],
          .all [.types ["array"], .minItems 1]]]),
      ("proofPurpose", .all [.types ["string"]]),
      ("verificationMethod", .all [.oneOf [
          .all [.types ["string"]],
          .all [.types ["array"], .minItems 1, .items (.all [.types ["object"], .props [
                ("id", .all [.types ["string"]]),
                ("type", .all [.types ["string"]]),
                ("controller", .all [.types ["string"]])], .required ["id", "type", "controller"]])]]]),
      ("created", .all [.types ["string"], .pattern datePattern]),
      ("domain", .all [.types ["string"]]),
      ("challenge", .all [.types ["string"]]),
      ("proofValue", .all [.types ["string"]])], .required ["type", "proofPurpose", "verificationMethod", "created"]]

/-- The definition `proofChain`. -/
def presV2ProofChain : Sch :=
  .all [.types ["array"], .items (presV2Proof), .minItems 1]

/-- The checks of `presV2Doc`. -/
def presV2Sch : Sch :=
  .all [.types ["object"], .props [
      ("@context", .all [.types ["array"], .contains (.all [.const (.str "https://www.w3.org/ns/credentials/v2")]), .minItems 1]),
      ("id", .all [.types ["string"]]),
      ("type", .all [.oneOf [
          .all [.types ["array"], .contains (.all [.const (.str "VerifiablePresentation")])],
          .all [.types ["string"], .enum [.str "VerifiablePresentation"]]]]),
      ("verifiableCredential", .all [.anyOf [
          .all [.types ["array"]],
          .all [.types ["object"]],
          .all [.types ["string"]],
          .all [.types ["null"]]]]),
      ("proof", .all [.oneOf [
          presV2Proof,
          .all [.types ["array"], .items (presV2Proof), .minItems 1]]]),
      ("proofChain", presV2ProofChain)], .required ["@context", "type"]]
theorem strs?_map (l : List String) : strs? (l.map Json.str) = some l := by
  induction l with
  | nil => rfl
  | cons x l ih => simp only [List.map_cons, strs?, ih, Option.map_some]

theorem keyword_required (rec : Json → Option Sch) (w : JObj) (k : String) (l : List String) :
    keyword rec w "required" (.arr (.str k :: l.map .str)) = some (some (.required (k :: l))) := by
  have : strs? (.str k :: l.map .str) = some (k :: l) := by
    have := strs?_map (k :: l)
    simpa using this
  simp only [keyword, this, Option.map_some]

theorem credV1_read (req : List String) : read (credV1Doc req) = some (credV1Sch req) := by
  unfold read readKeep credV1Doc
  simp only [compile, keywords, keyword_required]
  rfl

theorem credV2_read (req : List String) : read (credV2Doc req) = some (credV2Sch req) := by
  unfold read readKeep credV2Doc
  simp only [compile, keywords, keyword_required]
  rfl

theorem presV1_read : read presV1Doc = some presV1Sch := by rfl

theorem presV2_read : read presV2Doc = some presV2Sch := by rfl

end VC.Schema
