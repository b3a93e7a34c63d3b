import Verif.Schema.DefDocs
/-!
# Reading the schema documents of presentation definitions

The trees are what the reader makes of the documents (`pdV1_read`, `pdV2_read`).
-/

namespace VC.Schema

/-- The references that are not expanded: the recursive ones and the one to another document. -/
def keptRefs : List String :=
  ["#/definitions/submission_requirements", "#/definitions/submission_requirement",
    "http://json-schema.org/draft-07/schema#"]

/-- The definition `schema` of `pdV1Doc`. -/
def pdV1Schema : Sch :=
  .all [.types ["object"], .props [
      ("uri", .all [.types ["string"]]),
      ("required", .all [.types ["boolean"]])], .required ["uri"], .closed ["uri", "required"] []]

/-- The definition `filter` of `pdV1Doc`. -/
def pdV1Filter : Sch :=
  .all [.types ["object"], .props [
      ("type", .all [.types ["string"]]),
      ("format", .all [.types ["string"]]),
      ("pattern", .all [.types ["string"]]),
      ("minimum", .all [.types ["number", "string"]]),
      ("minLength", .all [.integer]),
      ("maxLength", .all [.integer]),
      ("exclusiveMinimum", .all [.types ["number", "string"]]),
      ("exclusiveMaximum", .all [.types ["number", "string"]]),
      ("maximum", .all [.types ["number", "string"]]),
      ("const", .all [.types ["number", "string"]]),
      ("enum", .all [.types ["array"], .items (.all [.types ["number", "string"]])]),
      ("not", .all [.types ["object"], .minProps 1])], .required ["type"]]

/-- The definition `format` of `pdV1Doc`. -/
def pdV1Format : Sch :=
  .all [.types ["object"], .patProps [
      ("^jwt$|^jwt_vc$|^jwt_vp$", .all [.types ["object"], .props [
          ("alg", .all [.types ["array"], .minItems 1, .items (.all [.types ["string"]])])], .required ["alg"], .closed ["alg"] []]),
      ("^ldp_vc$|^ldp_vp$|^ldp$", .all [.types ["object"], .props [
          ("proof_type", .all [.types ["array"], .minItems 1, .items (.all [.types ["string"]])])], .required ["proof_type"], .closed ["proof_type"] []]),
      ("additionalProperties", .never)], .closed [] ["^jwt$|^jwt_vc$|^jwt_vp$", "^ldp_vc$|^ldp_vp$|^ldp$", "additionalProperties"]]

/-- The definition `submission_requirements` of `pdV1Doc`. -/
def pdV1SubmissionRequirements : Sch :=
  .all [.types ["object"], .oneOf [
      .all [.props [
          ("name", .all [.types ["string"]]),
          ("purpose", .all [.types ["string"]]),
          ("rule", .all [.types ["string"], .enum [.str "all", .str "pick"]]),
          ("count", .all [.integer, .minimum 1]),
          ("min", .all [.integer, .minimum 0]),
          ("max", .all [.integer, .minimum 0]),
          ("from", .all [.types ["string"]])], .required ["rule", "from"], .closed ["name", "purpose", "rule", "count", "min", "max", "from"] []],
      .all [.props [
          ("name", .all [.types ["string"]]),
          ("purpose", .all [.types ["string"]]),
          ("rule", .all [.types ["string"], .enum [.str "all", .str "pick"]]),
          ("count", .all [.integer, .minimum 1]),
          ("min", .all [.integer, .minimum 0]),
          ("max", .all [.integer, .minimum 0]),
          ("from_nested", .all [.types ["array"], .minItems 1, .items (.ref "#/definitions/submission_requirements")])], .required ["rule", "from_nested"], .closed ["name", "purpose", "rule", "count", "min", "max", "from_nested"] []]]]

/-- The definition `field` of `pdV1Doc`. -/
def pdV1Field : Sch :=
  .all [.types ["object"], .oneOf [
      .all [.props [
          ("id", .all [.types ["string"]]),
          ("path", .all [.types ["array"], .items (.all [.types ["string"]])]),
          ("purpose", .all [.types ["string"]]),
          ("filter", pdV1Filter)], .required ["path"], .closed ["id", "path", "purpose", "filter"] []],
      .all [.props [
          ("id", .all [.types ["string"]]),
          ("path", .all [.types ["array"], .items (.all [.types ["string"]])]),
          ("purpose", .all [.types ["string"]]),
          ("filter", pdV1Filter),
          ("predicate", .all [.types ["string"], .enum [.str "required", .str "preferred"]])], .required ["path", "filter", "predicate"], .closed ["id", "path", "purpose", "filter", "predicate"] []]]]

/-- The definition `input_descriptors` of `pdV1Doc`. -/
def pdV1InputDescriptors : Sch :=
  .all [.types ["object"], .props [
      ("id", .all [.types ["string"]]),
      ("name", .all [.types ["string"]]),
      ("purpose", .all [.types ["string"]]),
      ("group", .all [.types ["array"], .items (.all [.types ["string"]])]),
      ("schema", .all [.types ["array"], .items (pdV1Schema)]),
      ("constraints", .all [.types ["object"], .props [
          ("limit_disclosure", .all [.types ["string"], .enum [.str "required", .str "preferred"]]),
          ("statuses", .all [.types ["object"], .props [
              ("active", .all [.types ["object"], .props [
                  ("directive", .all [.types ["string"], .enum [.str "required", .str "allowed", .str "disallowed"]])]]),
              ("suspended", .all [.types ["object"], .props [
                  ("directive", .all [.types ["string"], .enum [.str "required", .str "allowed", .str "disallowed"]])]]),
              ("revoked", .all [.types ["object"], .props [
                  ("directive", .all [.types ["string"], .enum [.str "required", .str "allowed", .str "disallowed"]])]])]]),
          ("fields", .all [.types ["array"], .items (pdV1Field)]),
          ("subject_is_issuer", .all [.types ["string"], .enum [.str "required", .str "preferred"]]),
          ("is_holder", .all [.types ["array"], .items (.all [.types ["object"], .props [
                ("field_id", .all [.types ["array"], .items (.all [.types ["string"]])]),
                ("directive", .all [.types ["string"], .enum [.str "required", .str "preferred"]])], .required ["field_id", "directive"], .closed ["field_id", "directive"] []])]),
          ("same_subject", .all [.types ["array"], .items (.all [.types ["object"], .props [
                ("field_id", .all [.types ["array"], .items (.all [.types ["string"]])]),
                ("directive", .all [.types ["string"], .enum [.str "required", .str "preferred"]])], .required ["field_id", "directive"], .closed ["field_id", "directive"] []])])], .closed ["limit_disclosure", "statuses", "fields", "subject_is_issuer", "is_holder", "same_subject"] []])], .required ["id", "schema"], .closed ["id", "name", "purpose", "group", "schema", "constraints"] []]

/-- The checks of `pdV1Doc`. -/
def pdV1Sch : Sch :=
  .all [.types ["object"], .props [
      ("presentation_definition", .all [.types ["object"], .props [
          ("id", .all [.types ["string"]]),
          ("name", .all [.types ["string"]]),
          ("purpose", .all [.types ["string"]]),
          ("format", pdV1Format),
          ("submission_requirements", .all [.types ["array"], .items (.ref "#/definitions/submission_requirements")]),
          ("input_descriptors", .all [.types ["array"], .items (pdV1InputDescriptors)])], .required ["id", "input_descriptors"], .closed ["id", "name", "purpose", "format", "submission_requirements", "input_descriptors"] []])]]

/-- The definition `status_directive` of `pdV2Doc`. -/
def pdV2StatusDirective : Sch :=
  .all [.types ["object"], .closed ["directive", "type"] [], .props [
      ("directive", .all [.types ["string"], .enum [.str "required", .str "allowed", .str "disallowed"]]),
      ("type", .all [.types ["array"], .minItems 1, .items (.all [.types ["string"]])])]]

/-- The definition `field` of `pdV2Doc`. -/
def pdV2Field : Sch :=
  .all [.types ["object"], .oneOf [
      .all [.props [
          ("id", .all [.types ["string"]]),
          ("path", .all [.types ["array"], .items (.all [.types ["string"]])]),
          ("purpose", .all [.types ["string"]]),
          ("intent_to_retain", .all [.types ["boolean"]]),
          ("optional", .all [.types ["boolean"]]),
          ("filter", .ref "http://json-schema.org/draft-07/schema#")], .required ["path"], .closed ["id", "path", "purpose", "intent_to_retain", "optional", "filter"] []],
      .all [.props [
          ("id", .all [.types ["string"]]),
          ("path", .all [.types ["array"], .items (.all [.types ["string"]])]),
          ("purpose", .all [.types ["string"]]),
          ("intent_to_retain", .all [.types ["boolean"]]),
          ("filter", .ref "http://json-schema.org/draft-07/schema#"),
          ("predicate", .all [.types ["string"], .enum [.str "required", .str "preferred"]])], .required ["path", "filter", "predicate"], .closed ["id", "path", "purpose", "intent_to_retain", "filter", "predicate"] []]]]

/-- The definition `input_descriptor` of `pdV2Doc`. -/
def pdV2InputDescriptor : Sch :=
  .all [.types ["object"], .closed ["id", "name", "purpose", "format", "group", "constraints"] [], .props [
      ("id", .all [.types ["string"]]),
      ("name", .all [.types ["string"]]),
      ("purpose", .all [.types ["string"]]),
      ("format", .all [.types ["object"], .closed [] ["^jwt$|^jwt_vc$|^jwt_vp$", "^ldp_vc$|^ldp_vp$|^ldp$"], .patProps [
          ("^jwt$|^jwt_vc$|^jwt_vp$", .all [.types ["object"], .closed ["alg"] [], .props [
              ("alg", .all [.types ["array"], .minItems 1, .items (.all [.types ["string"]])])]]),
          ("^ldp_vc$|^ldp_vp$|^ldp$", .all [.types ["object"], .closed ["proof_type"] [], .props [
              ("proof_type", .all [.types ["array"], .minItems 1, .items (.all [.types ["string"]])])]])]]),
      ("group", .all [.types ["array"], .items (.all [.types ["string"]])]),
      ("constraints", .all [.types ["object"], .closed ["limit_disclosure", "statuses", "fields", "subject_is_issuer", "is_holder", "same_subject"] [], .props [
          ("limit_disclosure", .all [.types ["string"], .enum [.str "required", .str "preferred"]]),
          ("statuses", .all [.types ["object"], .closed ["active", "suspended", "revoked"] [], .props [
              ("active", pdV2StatusDirective),
              ("suspended", pdV2StatusDirective),
              ("revoked", pdV2StatusDirective)]]),
          ("fields", .all [.types ["array"], .items (pdV2Field)]),
          ("subject_is_issuer", .all [.types ["string"], .enum [.str "required", .str "preferred"]]),
          ("is_holder", .all [.types ["array"], .items (.all [.types ["object"], .closed ["field_id", "directive"] [], .props [
                ("field_id", .all [.types ["array"], .items (.all [.types ["string"]])]),
                ("directive", .all [.types ["string"], .enum [.str "required", .str "preferred"]])], .required ["field_id", "directive"]])]),
          ("same_subject", .all [.types ["array"], .items (.all [.types ["object"], .closed ["field_id", "directive"] [], .props [
                ("field_id", .all [.types ["array"], .items (.all [.types ["string"]])]),
                ("directive", .all [.types ["string"], .enum [.str "required", .str "preferred"]])], .required ["field_id", "directive"]])])]])], .required ["id"]]

/-- The definition `submission_requirement` of `pdV2Doc`. -/
def pdV2SubmissionRequirement : Sch :=
  .all [.types ["object"], .oneOf [
      .all [.props [
          ("name", .all [.types ["string"]]),
          ("purpose", .all [.types ["string"]]),
          ("rule", .all [.types ["string"], .enum [.str "all", .str "pick"]]),
          ("count", .all [.integer, .minimum 1]),
          ("min", .all [.integer, .minimum 0]),
          ("max", .all [.integer, .minimum 0]),
          ("from", .all [.types ["string"]])], .required ["rule", "from"], .closed ["name", "purpose", "rule", "count", "min", "max", "from"] []],
      .all [.props [
          ("name", .all [.types ["string"]]),
          ("purpose", .all [.types ["string"]]),
          ("rule", .all [.types ["string"], .enum [.str "all", .str "pick"]]),
          ("count", .all [.integer, .minimum 1]),
          ("min", .all [.integer, .minimum 0]),
          ("max", .all [.integer, .minimum 0]),
          ("from_nested", .all [.types ["array"], .minItems 1, .items (.ref "#/definitions/submission_requirement")])], .required ["rule", "from_nested"], .closed ["name", "purpose", "rule", "count", "min", "max", "from_nested"] []]]]

/-- The definition `presentation_definition` of `pdV2Doc`. -/
def pdV2PresentationDefinition : Sch :=
  .all [.types ["object"], .props [
      ("id", .all [.types ["string"]]),
      ("name", .all [.types ["string"]]),
      ("purpose", .all [.types ["string"]]),
      ("format", .all [.types ["object"], .closed [] ["^jwt$|^jwt_vc$|^jwt_vp$", "^ldp_vc$|^ldp_vp$|^ldp$"], .patProps [
          ("^jwt$|^jwt_vc$|^jwt_vp$", .all [.types ["object"], .closed ["alg"] [], .props [
              ("alg", .all [.types ["array"], .minItems 1, .items (.all [.types ["string"]])])]]),
          ("^ldp_vc$|^ldp_vp$|^ldp$", .all [.types ["object"], .closed ["proof_type"] [], .props [
              ("proof_type", .all [.types ["array"], .minItems 1, .items (.all [.types ["string"]])])]])]]),
      ("frame", .all [.types ["object"]]),
      ("submission_requirements", .all [.types ["array"], .items (.ref "#/definitions/submission_requirement")]),
      ("input_descriptors", .all [.types ["array"], .items (pdV2InputDescriptor)])], .required ["id", "input_descriptors"], .closed ["id", "name", "purpose", "format", "frame", "submission_requirements", "input_descriptors"] []]

/-- The checks of `pdV2Doc`. -/
def pdV2Sch : Sch :=
  .all [.types ["object"], .props [
      ("presentation_definition", pdV2PresentationDefinition)]]

theorem pdV1_read : readKeep keptRefs pdV1Doc = some pdV1Sch := by rfl

theorem pdV2_read : readKeep keptRefs pdV2Doc = some pdV2Sch := by rfl

/-- Read what a reference of a document names. -/
def readRef (keep : List String) (doc : Json) (r : String) : Option Sch :=
  match doc with
  | .obj o => (resolveRef o r).bind (compile keep o 20)
  | _ => none

theorem pdV1_req_read :
    readRef keptRefs pdV1Doc "#/definitions/submission_requirements" = some pdV1SubmissionRequirements := by
  rfl

theorem pdV2_req_read :
    readRef keptRefs pdV2Doc "#/definitions/submission_requirement" = some pdV2SubmissionRequirement := by
  rfl

end VC.Schema
