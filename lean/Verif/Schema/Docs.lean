import Verif.Schema.Model
/-!
# The built-in schema documents

Transcribed mechanically from the constants in verifiable/credential.go and verifiable/presentation.go.
Member order is that of the texts; it has no meaning.
-/

namespace VC.Schema


/-- `SchemaTemplateV1`, credential.go:53-242, with the names inserted for `%s`. -/
def credV1Doc (req : List String) : Json :=
  .obj [
    ("required", .arr (.str "@context" :: req.map .str)),
    ("properties", .obj [
      ("@context", .obj [
        ("anyOf", .arr [
          .obj [
            ("type", .str "string"),
            ("const", .str "https://www.w3.org/2018/credentials/v1")],
          .obj [
            ("type", .str "array"),
            ("items", .arr [
              .obj [
                ("type", .str "string"),
                ("const", .str "https://www.w3.org/2018/credentials/v1")]]),
            ("uniqueItems", .bool true),
            ("additionalItems", .obj [
              ("anyOf", .arr [.obj [("type", .str "object")], .obj [("type", .str "string")]])])]])]),
      ("id", .obj [("type", .str "string")]),
      ("type", .obj [
        ("oneOf", .arr [
          .obj [
            ("type", .str "array"),
            ("minItems", .num 1),
            ("contains", .obj [("type", .str "string"), ("pattern", .str "^VerifiableCredential$")])],
          .obj [("type", .str "string"), ("pattern", .str "^VerifiableCredential$")]])]),
      ("credentialSubject", .obj [
        ("anyOf", .arr [
          .obj [("type", .str "array")],
          .obj [("type", .str "object")],
          .obj [("type", .str "string")]])]),
      ("issuer", .obj [
        ("anyOf", .arr [
          .obj [("type", .str "string"), ("format", .str "uri")],
          .obj [
            ("type", .str "object"),
            ("required", .arr [.str "id"]),
            ("properties", .obj [("id", .obj [("type", .str "string"), ("format", .str "uri")])])]])]),
      ("issuanceDate", .obj [("type", .str "string"), ("format", .str "date-time")]),
      ("proof", .obj [
        ("anyOf", .arr [
          .obj [("$ref", .str "#/definitions/proof")],
          .obj [
            ("type", .str "array"),
            ("items", .obj [("$ref", .str "#/definitions/proof")])],
          .obj [("type", .str "null")]])]),
      ("expirationDate", .obj [("type", .arr [.str "string", .str "null"]), ("format", .str "date-time")]),
      ("credentialStatus", .obj [("$ref", .str "#/definitions/typedID")]),
      ("credentialSchema", .obj [("$ref", .str "#/definitions/typedIDs")]),
      ("evidence", .obj [("$ref", .str "#/definitions/typedIDs")]),
      ("refreshService", .obj [("$ref", .str "#/definitions/typedID")])]),
    ("definitions", .obj [
      ("typedID", .obj [
        ("anyOf", .arr [
          .obj [("type", .str "null")],
          .obj [
            ("type", .str "object"),
            ("required", .arr [.str "id", .str "type"]),
            ("properties", .obj [
              ("id", .obj [("type", .str "string"), ("format", .str "uri")]),
              ("type", .obj [
                ("anyOf", .arr [
                  .obj [("type", .str "string")],
                  .obj [
                    ("type", .str "array"),
                    ("items", .obj [("type", .str "string")])]])])])]])]),
      ("typedIDs", .obj [
        ("anyOf", .arr [
          .obj [("$ref", .str "#/definitions/typedID")],
          .obj [
            ("type", .str "array"),
            ("items", .obj [("$ref", .str "#/definitions/typedID")])],
          .obj [("type", .str "null")]])]),
      ("proof", .obj [
        ("type", .str "object"),
        ("required", .arr [.str "type"]),
        ("properties", .obj [("type", .obj [("type", .str "string")])])])])]

/-- `SchemaTemplateV2`, credential.go:247-575, with the names inserted for `%s`. -/
def credV2Doc (req : List String) : Json :=
  .obj [
    ("$id", .str "https://www.w3.org/2022/credentials/v2/verifiable-credential-schema.json"),
    ("$schema", .str "https://json-schema.org/draft/2020-12/schema"),
    ("description", .str "JSON Schema for a Verifiable Credential according to the Verifiable Credentials Data Model v2"),
    ("type", .str "object"),
    ("$defs", .obj [
      ("type", .obj [
        ("oneOf", .arr [
          .obj [("type", .str "string")],
          .obj [("type", .str "array"), ("minItems", .num 1)]])]),
      ("credentialSubject", .obj [
        ("type", .str "object"),
        ("properties", .obj [("id", .obj [("type", .str "string")])]),
        ("minProperties", .num 1)]),
      ("credentialSchema", .obj [
        ("type", .str "object"),
        ("properties", .obj [
          ("id", .obj [("type", .str "string")]),
          ("type", .obj [("$ref", .str "#/$defs/type")])]),
        ("required", .arr [.str "id", .str "type"]),
        ("additionalProperties", .bool true)]),
      ("credentialStatus", .obj [
        ("type", .str "object"),
        ("properties", .obj [
          ("id", .obj [("type", .str "string")]),
          ("type", .obj [("$ref", .str "#/$defs/type")])]),
        ("required", .arr [.str "id", .str "type"]),
        ("additionalProperties", .bool true)]),
      ("refreshService", .obj [
        ("type", .str "object"),
        ("properties", .obj [
          ("id", .obj [("type", .str "string")]),
          ("type", .obj [("$ref", .str "#/$defs/type")])]),
        ("required", .arr [.str "id", .str "type"]),
        ("additionalProperties", .bool true)]),
      ("termsOfUse", .obj [
        ("type", .str "object"),
        ("properties", .obj [
          ("id", .obj [("type", .str "string")]),
          ("type", .obj [("$ref", .str "#/$defs/type")])]),
        ("required", .arr [.str "type"]),
        ("additionalProperties", .bool true)]),
      ("evidence", .obj [
        ("type", .str "object"),
        ("properties", .obj [
          ("id", .obj [("type", .str "string")]),
          ("type", .obj [("$ref", .str "#/$defs/type")])]),
        ("required", .arr [.str "type"]),
        ("additionalProperties", .bool true)]),
      ("proof", .obj [
        ("type", .str "object"),
        ("properties", .obj [
          ("type", .obj [("$ref", .str "#/$defs/type")]),
          ("proofPurpose", .obj [("type", .str "string")]),
          ("verificationMethod", .obj [
            ("oneOf", .arr [
              .obj [("type", .str "string")],
              .obj [
                ("type", .str "array"),
                ("minItems", .num 1),
                ("items", .obj [
                  ("type", .str "object"),
                  ("properties", .obj [
                    ("id", .obj [("type", .str "string")]),
                    ("type", .obj [("type", .str "string")]),
                    ("controller", .obj [("type", .str "string")])]),
                  ("required", .arr [.str "id", .str "type", .str "controller"]),
                  ("additionalProperties", .bool true)])]])]),
          ("created", .obj [("type", .str "string")]),
          ("domain", .obj [("type", .str "string")]),
          ("challenge", .obj [("type", .str "string")]),
          ("proofValue", .obj [("type", .str "string")])]),
        ("required", .arr [.str "type", .str "proofPurpose", .str "verificationMethod"]),
        ("additionalProperties", .bool true)]),
      ("proofChain", .obj [
        ("type", .str "array"),
        ("items", .obj [("$ref", .str "#/$defs/proof")]),
        ("minItems", .num 1)])]),
    ("properties", .obj [
      ("@context", .obj [
        ("type", .str "array"),
        ("contains", .obj [("const", .str "https://www.w3.org/ns/credentials/v2")]),
        ("minItems", .num 1)]),
      ("id", .obj [("type", .str "string")]),
      ("type", .obj [
        ("oneOf", .arr [
          .obj [
            ("type", .str "array"),
            ("contains", .obj [("const", .str "VerifiableCredential")])],
          .obj [("type", .str "string"), ("enum", .arr [.str "VerifiableCredential"])]])]),
      ("issuer", .obj [
        ("oneOf", .arr [
          .obj [("type", .str "string")],
          .obj [
            ("type", .str "object"),
            ("properties", .obj [("id", .obj [("type", .str "string")])]),
            ("required", .arr [.str "id"]),
            ("additionalProperties", .bool true)]])]),
      ("validFrom", .obj [
        ("type", .str "string"),
        ("pattern", .str "-?([1-9][0-9]{3,}|0[0-9]{3})-(0[1-9]|1[0-2])-(0[1-9]|[12][0-9]|3[01])T(([01][0-9]|2[0-3]):[0-5][0-9]:[0-5][0-9](\\.[0-9]+)?|(24:00:00(\\.0+)?))(Z|(\\+|-)((0[0-9]|1[0-3]):[0-5][0-9]|14:00))")]),
      ("validUntil", .obj [
        ("type", .str "string"),
        ("pattern", .str "-?([1-9][0-9]{3,}|0[0-9]{3})-(0[1-9]|1[0-2])-(0[1-9]|[12][0-9]|3[01])T(([01][0-9]|2[0-3]):[0-5][0-9]:[0-5][0-9](\\.[0-9]+)?|(24:00:00(\\.0+)?))(Z|(\\+|-)((0[0-9]|1[0-3]):[0-5][0-9]|14:00))")]),
      ("credentialSubject", .obj [
        ("oneOf", .arr [
          .obj [("$ref", .str "#/$defs/credentialSubject")],
          .obj [
            ("type", .str "array"),
            ("items", .obj [("$ref", .str "#/$defs/credentialSubject")]),
            ("minItems", .num 1)]])]),
      ("credentialStatus", .obj [
        ("oneOf", .arr [
          .obj [("$ref", .str "#/$defs/credentialStatus")],
          .obj [
            ("type", .str "array"),
            ("items", .obj [("$ref", .str "#/$defs/credentialStatus")]),
            ("minItems", .num 1)]])]),
      ("credentialSchema", .obj [
        ("oneOf", .arr [
          .obj [("$ref", .str "#/$defs/credentialSchema")],
          .obj [
            ("type", .str "array"),
            ("items", .obj [("$ref", .str "#/$defs/credentialSchema")]),
            ("minItems", .num 1)]])]),
      ("refreshService", .obj [
        ("oneOf", .arr [
          .obj [("$ref", .str "#/$defs/refreshService")],
          .obj [
            ("type", .str "array"),
            ("items", .obj [("$ref", .str "#/$defs/refreshService")]),
            ("minItems", .num 1)]])]),
      ("termsOfUse", .obj [
        ("oneOf", .arr [
          .obj [("$ref", .str "#/$defs/termsOfUse")],
          .obj [
            ("type", .str "array"),
            ("items", .obj [("$ref", .str "#/$defs/termsOfUse")]),
            ("minItems", .num 1)]])]),
      ("evidence", .obj [
        ("oneOf", .arr [
          .obj [("$ref", .str "#/$defs/evidence")],
          .obj [
            ("type", .str "array"),
            ("items", .obj [("$ref", .str "#/$defs/evidence")]),
            ("minItems", .num 1)]])]),
      ("proof", .obj [
        ("oneOf", .arr [
          .obj [("$ref", .str "#/$defs/proof")],
          .obj [
            ("type", .str "array"),
            ("items", .obj [("$ref", .str "#/$defs/proof")]),
            ("minItems", .num 1)]])]),
      ("proofChain", .obj [("$ref", .str "#/$defs/proofChain")])]),
    ("required", .arr (.str "@context" :: req.map .str)),
    ("additionalProperties", .bool true)]

/-- `v1BasePresentationSchema`, presentation.go:44-173. -/
def presV1Doc : Json :=
  .obj [
    ("required", .arr [.str "@context", .str "type"]),
    ("properties", .obj [
      ("@context", .obj [
        ("oneOf", .arr [
          .obj [
            ("type", .str "string"),
            ("const", .str "https://www.w3.org/2018/credentials/v1")],
          .obj [
            ("type", .str "array"),
            ("items", .arr [
              .obj [
                ("type", .str "string"),
                ("const", .str "https://www.w3.org/2018/credentials/v1")]]),
            ("uniqueItems", .bool true),
            ("additionalItems", .obj [
              ("oneOf", .arr [.obj [("type", .str "object")], .obj [("type", .str "string")]])])]])]),
      ("id", .obj [("type", .str "string")]),
      ("type", .obj [
        ("oneOf", .arr [
          .obj [
            ("type", .str "array"),
            ("minItems", .num 1),
            ("contains", .obj [("type", .str "string"), ("pattern", .str "^VerifiablePresentation$")])],
          .obj [("type", .str "string"), ("pattern", .str "^VerifiablePresentation$")]])]),
      ("verifiableCredential", .obj [
        ("anyOf", .arr [
          .obj [("type", .str "array")],
          .obj [("type", .str "object")],
          .obj [("type", .str "string")],
          .obj [("type", .str "null")]])]),
      ("proof", .obj [
        ("anyOf", .arr [
          .obj [
            ("type", .str "array"),
            ("items", .arr [.obj [("$ref", .str "#/definitions/proof")]])],
          .obj [("$ref", .str "#/definitions/proof")]])]),
      ("refreshService", .obj [("$ref", .str "#/definitions/typedID")])]),
    ("definitions", .obj [
      ("typedID", .obj [
        ("type", .str "object"),
        ("required", .arr [.str "id", .str "type"]),
        ("properties", .obj [
          ("id", .obj [("type", .str "string"), ("format", .str "uri")]),
          ("type", .obj [
            ("anyOf", .arr [
              .obj [("type", .str "string")],
              .obj [("type", .str "array"), ("items", .obj [("type", .str "string")])]])])])]),
      ("proof", .obj [
        ("type", .str "object"),
        ("required", .arr [.str "type"]),
        ("properties", .obj [("type", .obj [("type", .str "string")])])])])]

/-- `v2BasePresentationSchema`, presentation.go:176-324. -/
def presV2Doc : Json :=
  .obj [
    ("$id", .str "https://www.w3.org/2022/credentials/v2/verifiable-presentation-schema.json"),
    ("$schema", .str "https://json-schema.org/draft/2020-12/schema"),
    ("description", .str "JSON Schema for a Verifiable Presentation according to the Verifiable Credentials Data Model v2"),
    ("type", .str "object"),
    ("$defs", .obj [
      ("proof", .obj [
        ("type", .str "object"),
        ("properties", .obj [
          ("type", .obj [
            ("oneOf", .arr [
              .obj [("type", .str "string")],
              .obj [("type", .str "array"), ("minItems", .num 1)]])]),
          ("proofPurpose", .obj [("type", .str "string")]),
          ("verificationMethod", .obj [
            ("oneOf", .arr [
              .obj [("type", .str "string")],
              .obj [
                ("type", .str "array"),
                ("minItems", .num 1),
                ("items", .obj [
                  ("type", .str "object"),
                  ("properties", .obj [
                    ("id", .obj [("type", .str "string")]),
                    ("type", .obj [("type", .str "string")]),
                    ("controller", .obj [("type", .str "string")])]),
                  ("required", .arr [.str "id", .str "type", .str "controller"]),
                  ("additionalProperties", .bool true)])]])]),
          ("created", .obj [
            ("type", .str "string"),
            ("pattern", .str "-?([1-9][0-9]{3,}|0[0-9]{3})-(0[1-9]|1[0-2])-(0[1-9]|[12][0-9]|3[01])T(([01][0-9]|2[0-3]):[0-5][0-9]:[0-5][0-9](\\.[0-9]+)?|(24:00:00(\\.0+)?))(Z|(\\+|-)((0[0-9]|1[0-3]):[0-5][0-9]|14:00))")]),
          ("domain", .obj [("type", .str "string")]),
          ("challenge", .obj [("type", .str "string")]),
          ("proofValue", .obj [("type", .str "string")])]),
        ("required", .arr [
          .str "type",
          .str "proofPurpose",
          .str "verificationMethod",
          .str "created"]),
        ("additionalProperties", .bool true)]),
      ("proofChain", .obj [
        ("type", .str "array"),
        ("items", .obj [("$ref", .str "#/$defs/proof")]),
        ("minItems", .num 1)])]),
    ("properties", .obj [
      ("@context", .obj [
        ("type", .str "array"),
        ("contains", .obj [("const", .str "https://www.w3.org/ns/credentials/v2")]),
        ("minItems", .num 1)]),
      ("id", .obj [("type", .str "string")]),
      ("type", .obj [
        ("oneOf", .arr [
          .obj [
            ("type", .str "array"),
            ("contains", .obj [("const", .str "VerifiablePresentation")])],
          .obj [("type", .str "string"), ("enum", .arr [.str "VerifiablePresentation"])]])]),
      ("verifiableCredential", .obj [
        ("anyOf", .arr [
          .obj [("type", .str "array")],
          .obj [("type", .str "object")],
          .obj [("type", .str "string")],
          .obj [("type", .str "null")]])]),
      ("proof", .obj [
        ("oneOf", .arr [
          .obj [("$ref", .str "#/$defs/proof")],
          .obj [
            ("type", .str "array"),
            ("items", .obj [("$ref", .str "#/$defs/proof")]),
            ("minItems", .num 1)]])]),
      ("proofChain", .obj [("$ref", .str "#/$defs/proofChain")])]),
    ("required", .arr [.str "@context", .str "type"]),
    ("additionalProperties", .bool true)]

end VC.Schema
