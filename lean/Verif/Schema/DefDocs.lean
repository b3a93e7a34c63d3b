import Verif.Schema.Model
/-!
# The schema documents of presentation definitions

Transcribed mechanically from the constants in presexch/schema.go.  Member order is that of the texts; it
has no meaning.
-/

namespace VC.Schema


/-- `DefinitionJSONSchemaV1`, schema.go:12-472. -/
def pdV1Doc : Json :=
  .obj [
    ("$schema", .str "http://json-schema.org/draft-07/schema#"),
    ("title", .str "Presentation Definition"),
    ("definitions", .obj [
      ("schema", .obj [
        ("type", .str "object"),
        ("properties", .obj [
          ("uri", .obj [("type", .str "string")]),
          ("required", .obj [("type", .str "boolean")])]),
        ("required", .arr [.str "uri"]),
        ("additionalProperties", .bool false)]),
      ("filter", .obj [
        ("type", .str "object"),
        ("properties", .obj [
          ("type", .obj [("type", .str "string")]),
          ("format", .obj [("type", .str "string")]),
          ("pattern", .obj [("type", .str "string")]),
          ("minimum", .obj [("type", .arr [.str "number", .str "string"])]),
          ("minLength", .obj [("type", .str "integer")]),
          ("maxLength", .obj [("type", .str "integer")]),
          ("exclusiveMinimum", .obj [("type", .arr [.str "number", .str "string"])]),
          ("exclusiveMaximum", .obj [("type", .arr [.str "number", .str "string"])]),
          ("maximum", .obj [("type", .arr [.str "number", .str "string"])]),
          ("const", .obj [("type", .arr [.str "number", .str "string"])]),
          ("enum", .obj [
            ("type", .str "array"),
            ("items", .obj [("type", .arr [.str "number", .str "string"])])]),
          ("not", .obj [("type", .str "object"), ("minProperties", .num 1)])]),
        ("required", .arr [.str "type"]),
        ("additionalProperties", .bool true)]),
      ("format", .obj [
        ("type", .str "object"),
        ("patternProperties", .obj [
          ("^jwt$|^jwt_vc$|^jwt_vp$", .obj [
            ("type", .str "object"),
            ("properties", .obj [
              ("alg", .obj [
                ("type", .str "array"),
                ("minItems", .num 1),
                ("items", .obj [("type", .str "string")])])]),
            ("required", .arr [.str "alg"]),
            ("additionalProperties", .bool false)]),
          ("^ldp_vc$|^ldp_vp$|^ldp$", .obj [
            ("type", .str "object"),
            ("properties", .obj [
              ("proof_type", .obj [
                ("type", .str "array"),
                ("minItems", .num 1),
                ("items", .obj [("type", .str "string")])])]),
            ("required", .arr [.str "proof_type"]),
            ("additionalProperties", .bool false)]),
          ("additionalProperties", .bool false)]),
        ("additionalProperties", .bool false)]),
      ("submission_requirements", .obj [
        ("type", .str "object"),
        ("oneOf", .arr [
          .obj [
            ("properties", .obj [
              ("name", .obj [("type", .str "string")]),
              ("purpose", .obj [("type", .str "string")]),
              ("rule", .obj [("type", .str "string"), ("enum", .arr [.str "all", .str "pick"])]),
              ("count", .obj [("type", .str "integer"), ("minimum", .num 1)]),
              ("min", .obj [("type", .str "integer"), ("minimum", .num 0)]),
              ("max", .obj [("type", .str "integer"), ("minimum", .num 0)]),
              ("from", .obj [("type", .str "string")])]),
            ("required", .arr [.str "rule", .str "from"]),
            ("additionalProperties", .bool false)],
          .obj [
            ("properties", .obj [
              ("name", .obj [("type", .str "string")]),
              ("purpose", .obj [("type", .str "string")]),
              ("rule", .obj [("type", .str "string"), ("enum", .arr [.str "all", .str "pick"])]),
              ("count", .obj [("type", .str "integer"), ("minimum", .num 1)]),
              ("min", .obj [("type", .str "integer"), ("minimum", .num 0)]),
              ("max", .obj [("type", .str "integer"), ("minimum", .num 0)]),
              ("from_nested", .obj [
                ("type", .str "array"),
                ("minItems", .num 1),
                ("items", .obj [("$ref", .str "#/definitions/submission_requirements")])])]),
            ("required", .arr [.str "rule", .str "from_nested"]),
            ("additionalProperties", .bool false)]])]),
      ("input_descriptors", .obj [
        ("type", .str "object"),
        ("properties", .obj [
          ("id", .obj [("type", .str "string")]),
          ("name", .obj [("type", .str "string")]),
          ("purpose", .obj [("type", .str "string")]),
          ("group", .obj [("type", .str "array"), ("items", .obj [("type", .str "string")])]),
          ("schema", .obj [
            ("type", .str "array"),
            ("items", .obj [("$ref", .str "#/definitions/schema")])]),
          ("constraints", .obj [
            ("type", .str "object"),
            ("properties", .obj [
              ("limit_disclosure", .obj [
                ("type", .str "string"),
                ("enum", .arr [.str "required", .str "preferred"])]),
              ("statuses", .obj [
                ("type", .str "object"),
                ("properties", .obj [
                  ("active", .obj [
                    ("type", .str "object"),
                    ("properties", .obj [
                      ("directive", .obj [
                        ("type", .str "string"),
                        ("enum", .arr [.str "required", .str "allowed", .str "disallowed"])])])]),
                  ("suspended", .obj [
                    ("type", .str "object"),
                    ("properties", .obj [
                      ("directive", .obj [
                        ("type", .str "string"),
                        ("enum", .arr [.str "required", .str "allowed", .str "disallowed"])])])]),
                  ("revoked", .obj [
                    ("type", .str "object"),
                    ("properties", .obj [
                      ("directive", .obj [
                        ("type", .str "string"),
                        ("enum", .arr [.str "required", .str "allowed", .str "disallowed"])])])])])]),
              ("fields", .obj [
                ("type", .str "array"),
                ("items", .obj [("$ref", .str "#/definitions/field")])]),
              ("subject_is_issuer", .obj [
                ("type", .str "string"),
                ("enum", .arr [.str "required", .str "preferred"])]),
              ("is_holder", .obj [
                ("type", .str "array"),
                ("items", .obj [
                  ("type", .str "object"),
                  ("properties", .obj [
                    ("field_id", .obj [
                      ("type", .str "array"),
                      ("items", .obj [("type", .str "string")])]),
                    ("directive", .obj [
                      ("type", .str "string"),
                      ("enum", .arr [.str "required", .str "preferred"])])]),
                  ("required", .arr [.str "field_id", .str "directive"]),
                  ("additionalProperties", .bool false)])]),
              ("same_subject", .obj [
                ("type", .str "array"),
                ("items", .obj [
                  ("type", .str "object"),
                  ("properties", .obj [
                    ("field_id", .obj [
                      ("type", .str "array"),
                      ("items", .obj [("type", .str "string")])]),
                    ("directive", .obj [
                      ("type", .str "string"),
                      ("enum", .arr [.str "required", .str "preferred"])])]),
                  ("required", .arr [.str "field_id", .str "directive"]),
                  ("additionalProperties", .bool false)])])]),
            ("additionalProperties", .bool false)])]),
        ("required", .arr [.str "id", .str "schema"]),
        ("additionalProperties", .bool false)]),
      ("field", .obj [
        ("type", .str "object"),
        ("oneOf", .arr [
          .obj [
            ("properties", .obj [
              ("id", .obj [("type", .str "string")]),
              ("path", .obj [("type", .str "array"), ("items", .obj [("type", .str "string")])]),
              ("purpose", .obj [("type", .str "string")]),
              ("filter", .obj [("$ref", .str "#/definitions/filter")])]),
            ("required", .arr [.str "path"]),
            ("additionalProperties", .bool false)],
          .obj [
            ("properties", .obj [
              ("id", .obj [("type", .str "string")]),
              ("path", .obj [("type", .str "array"), ("items", .obj [("type", .str "string")])]),
              ("purpose", .obj [("type", .str "string")]),
              ("filter", .obj [("$ref", .str "#/definitions/filter")]),
              ("predicate", .obj [
                ("type", .str "string"),
                ("enum", .arr [.str "required", .str "preferred"])])]),
            ("required", .arr [.str "path", .str "filter", .str "predicate"]),
            ("additionalProperties", .bool false)]])])]),
    ("type", .str "object"),
    ("properties", .obj [
      ("presentation_definition", .obj [
        ("type", .str "object"),
        ("properties", .obj [
          ("id", .obj [("type", .str "string")]),
          ("name", .obj [("type", .str "string")]),
          ("purpose", .obj [("type", .str "string")]),
          ("format", .obj [("$ref", .str "#/definitions/format")]),
          ("submission_requirements", .obj [
            ("type", .str "array"),
            ("items", .obj [("$ref", .str "#/definitions/submission_requirements")])]),
          ("input_descriptors", .obj [
            ("type", .str "array"),
            ("items", .obj [("$ref", .str "#/definitions/input_descriptors")])])]),
        ("required", .arr [.str "id", .str "input_descriptors"]),
        ("additionalProperties", .bool false)])])]

/-- `DefinitionJSONSchemaV2`, schema.go:476-734. -/
def pdV2Doc : Json :=
  .obj [
    ("$schema", .str "http://json-schema.org/draft-07/schema#"),
    ("title", .str "Presentation Definition Envelope"),
    ("definitions", .obj [
      ("status_directive", .obj [
        ("type", .str "object"),
        ("additionalProperties", .bool false),
        ("properties", .obj [
          ("directive", .obj [
            ("type", .str "string"),
            ("enum", .arr [.str "required", .str "allowed", .str "disallowed"])]),
          ("type", .obj [
            ("type", .str "array"),
            ("minItems", .num 1),
            ("items", .obj [("type", .str "string")])])])]),
      ("field", .obj [
        ("type", .str "object"),
        ("oneOf", .arr [
          .obj [
            ("properties", .obj [
              ("id", .obj [("type", .str "string")]),
              ("path", .obj [("type", .str "array"), ("items", .obj [("type", .str "string")])]),
              ("purpose", .obj [("type", .str "string")]),
              ("intent_to_retain", .obj [("type", .str "boolean")]),
              ("optional", .obj [("type", .str "boolean")]),
              ("filter", .obj [("$ref", .str "http://json-schema.org/draft-07/schema#")])]),
            ("required", .arr [.str "path"]),
            ("additionalProperties", .bool false)],
          .obj [
            ("properties", .obj [
              ("id", .obj [("type", .str "string")]),
              ("path", .obj [("type", .str "array"), ("items", .obj [("type", .str "string")])]),
              ("purpose", .obj [("type", .str "string")]),
              ("intent_to_retain", .obj [("type", .str "boolean")]),
              ("filter", .obj [("$ref", .str "http://json-schema.org/draft-07/schema#")]),
              ("predicate", .obj [
                ("type", .str "string"),
                ("enum", .arr [.str "required", .str "preferred"])])]),
            ("required", .arr [.str "path", .str "filter", .str "predicate"]),
            ("additionalProperties", .bool false)]])]),
      ("input_descriptor", .obj [
        ("type", .str "object"),
        ("additionalProperties", .bool false),
        ("properties", .obj [
          ("id", .obj [("type", .str "string")]),
          ("name", .obj [("type", .str "string")]),
          ("purpose", .obj [("type", .str "string")]),
          ("format", .obj [
            ("$schema", .str "http://json-schema.org/draft-07/schema#"),
            ("title", .str "Presentation Definition Claim Format Designations"),
            ("type", .str "object"),
            ("additionalProperties", .bool false),
            ("patternProperties", .obj [
              ("^jwt$|^jwt_vc$|^jwt_vp$", .obj [
                ("type", .str "object"),
                ("additionalProperties", .bool false),
                ("properties", .obj [
                  ("alg", .obj [
                    ("type", .str "array"),
                    ("minItems", .num 1),
                    ("items", .obj [("type", .str "string")])])])]),
              ("^ldp_vc$|^ldp_vp$|^ldp$", .obj [
                ("type", .str "object"),
                ("additionalProperties", .bool false),
                ("properties", .obj [
                  ("proof_type", .obj [
                    ("type", .str "array"),
                    ("minItems", .num 1),
                    ("items", .obj [("type", .str "string")])])])])])]),
          ("group", .obj [("type", .str "array"), ("items", .obj [("type", .str "string")])]),
          ("constraints", .obj [
            ("type", .str "object"),
            ("additionalProperties", .bool false),
            ("properties", .obj [
              ("limit_disclosure", .obj [
                ("type", .str "string"),
                ("enum", .arr [.str "required", .str "preferred"])]),
              ("statuses", .obj [
                ("type", .str "object"),
                ("additionalProperties", .bool false),
                ("properties", .obj [
                  ("active", .obj [("$ref", .str "#/definitions/status_directive")]),
                  ("suspended", .obj [("$ref", .str "#/definitions/status_directive")]),
                  ("revoked", .obj [("$ref", .str "#/definitions/status_directive")])])]),
              ("fields", .obj [
                ("type", .str "array"),
                ("items", .obj [("$ref", .str "#/definitions/field")])]),
              ("subject_is_issuer", .obj [
                ("type", .str "string"),
                ("enum", .arr [.str "required", .str "preferred"])]),
              ("is_holder", .obj [
                ("type", .str "array"),
                ("items", .obj [
                  ("type", .str "object"),
                  ("additionalProperties", .bool false),
                  ("properties", .obj [
                    ("field_id", .obj [
                      ("type", .str "array"),
                      ("items", .obj [("type", .str "string")])]),
                    ("directive", .obj [
                      ("type", .str "string"),
                      ("enum", .arr [.str "required", .str "preferred"])])]),
                  ("required", .arr [.str "field_id", .str "directive"])])]),
              ("same_subject", .obj [
                ("type", .str "array"),
                ("items", .obj [
                  ("type", .str "object"),
                  ("additionalProperties", .bool false),
                  ("properties", .obj [
                    ("field_id", .obj [
                      ("type", .str "array"),
                      ("items", .obj [("type", .str "string")])]),
                    ("directive", .obj [
                      ("type", .str "string"),
                      ("enum", .arr [.str "required", .str "preferred"])])]),
                  ("required", .arr [.str "field_id", .str "directive"])])])])])]),
        ("required", .arr [.str "id"])]),
      ("submission_requirement", .obj [
        ("type", .str "object"),
        ("oneOf", .arr [
          .obj [
            ("properties", .obj [
              ("name", .obj [("type", .str "string")]),
              ("purpose", .obj [("type", .str "string")]),
              ("rule", .obj [("type", .str "string"), ("enum", .arr [.str "all", .str "pick"])]),
              ("count", .obj [("type", .str "integer"), ("minimum", .num 1)]),
              ("min", .obj [("type", .str "integer"), ("minimum", .num 0)]),
              ("max", .obj [("type", .str "integer"), ("minimum", .num 0)]),
              ("from", .obj [("type", .str "string")])]),
            ("required", .arr [.str "rule", .str "from"]),
            ("additionalProperties", .bool false)],
          .obj [
            ("properties", .obj [
              ("name", .obj [("type", .str "string")]),
              ("purpose", .obj [("type", .str "string")]),
              ("rule", .obj [("type", .str "string"), ("enum", .arr [.str "all", .str "pick"])]),
              ("count", .obj [("type", .str "integer"), ("minimum", .num 1)]),
              ("min", .obj [("type", .str "integer"), ("minimum", .num 0)]),
              ("max", .obj [("type", .str "integer"), ("minimum", .num 0)]),
              ("from_nested", .obj [
                ("type", .str "array"),
                ("minItems", .num 1),
                ("items", .obj [("$ref", .str "#/definitions/submission_requirement")])])]),
            ("required", .arr [.str "rule", .str "from_nested"]),
            ("additionalProperties", .bool false)]])]),
      ("presentation_definition", .obj [
        ("type", .str "object"),
        ("properties", .obj [
          ("id", .obj [("type", .str "string")]),
          ("name", .obj [("type", .str "string")]),
          ("purpose", .obj [("type", .str "string")]),
          ("format", .obj [
            ("$schema", .str "http://json-schema.org/draft-07/schema#"),
            ("title", .str "Presentation Definition Claim Format Designations"),
            ("type", .str "object"),
            ("additionalProperties", .bool false),
            ("patternProperties", .obj [
              ("^jwt$|^jwt_vc$|^jwt_vp$", .obj [
                ("type", .str "object"),
                ("additionalProperties", .bool false),
                ("properties", .obj [
                  ("alg", .obj [
                    ("type", .str "array"),
                    ("minItems", .num 1),
                    ("items", .obj [("type", .str "string")])])])]),
              ("^ldp_vc$|^ldp_vp$|^ldp$", .obj [
                ("type", .str "object"),
                ("additionalProperties", .bool false),
                ("properties", .obj [
                  ("proof_type", .obj [
                    ("type", .str "array"),
                    ("minItems", .num 1),
                    ("items", .obj [("type", .str "string")])])])])])]),
          ("frame", .obj [("type", .str "object"), ("additionalProperties", .bool true)]),
          ("submission_requirements", .obj [
            ("type", .str "array"),
            ("items", .obj [("$ref", .str "#/definitions/submission_requirement")])]),
          ("input_descriptors", .obj [
            ("type", .str "array"),
            ("items", .obj [("$ref", .str "#/definitions/input_descriptor")])])]),
        ("required", .arr [.str "id", .str "input_descriptors"]),
        ("additionalProperties", .bool false)])]),
    ("type", .str "object"),
    ("properties", .obj [
      ("presentation_definition", .obj [("$ref", .str "#/definitions/presentation_definition")])])]

end VC.Schema
