{
 "claims": [
  {
   "property": "C01",
   "status": "proved",
   "theorems": [
    "VC.Status.bitAt_spec",
    "VC.Status.bitAt_error_iff"
   ],
   "note": ""
  },
  {
   "property": "C02",
   "status": "proved",
   "theorems": [
    "VC.Status.verifyStatus_ok_iff",
    "VC.Status.verifyStatus_perm"
   ],
   "note": "Resolver, fetch, decompression are parameters of the environment; the status list credential's own proof is outside the model (the code disables that check)."
  },
  {
   "property": "C03",
   "status": "proved",
   "theorems": [
    "VC.Status.revoked_never_masked",
    "VC.Status.revoked_sound",
    "VC.Status.single_revoked"
   ],
   "note": ""
  },
  {
   "property": "C04",
   "status": "proved",
   "theorems": [
    "VC.Status.validate2021_iff",
    "VC.Status.validateBitstring_iff"
   ],
   "note": ""
  },
  {
   "property": "C05",
   "status": "proved",
   "theorems": [
    "VC.SDJWT.issuance_round_trip",
    "VC.SDJWT.presentation_round_trip",
    "VC.SDJWT.issuance_serialize_parse"
   ],
   "note": ""
  },
  {
   "property": "C06",
   "status": "proved",
   "theorems": [
    "VC.SDJWT.holder_discloses_exactly",
    "VC.SDJWT.holder_leaks_nothing"
   ],
   "note": ""
  },
  {
   "property": "C07",
   "status": "proved",
   "theorems": [
    "VC.SDJWT.accepted_disclosures_committed",
    "VC.SDJWT.verify_iff"
   ],
   "note": ""
  },
  {
   "property": "C08",
   "status": "proved",
   "theorems": [
    "VC.SDJWT.disclose_terminates",
    "VC.SDJWT.verify_terminates",
    "VC.SDJWT.disclosedClaims_terminates"
   ],
   "note": "The recursion depth bound is explicit (fuelFor); more fuel never changes the result."
  },
  {
   "property": "C09",
   "status": "proved",
   "theorems": [
    "VC.SDJWT.accepted_digests_distinct",
    "VC.SDJWT.verify_iff"
   ],
   "note": "Stated for collision-free hashes on the presented disclosures."
  },
  {
   "property": "C10",
   "status": "proved",
   "theorems": [
    "VC.SDJWT.disclosed_never_replaces",
    "VC.SDJWT.resolved_object"
   ],
   "note": "Finding: a clear claim whose value is (or resolves to) null or [] is dropped."
  },
  {
   "property": "C100",
   "status": "partial",
   "theorems": [
    "VC.PE.reveal_only_partial",
    "VC.PE.reveal_marked_partial",
    "VC.PE.reveal_array_fails",
    "VC.PE.reveal_empty_name",
    "VC.PE.reveal_inside_type"
   ],
   "note": "Holds for claims on a way through objects not called type, @context or @explicit; a claim in an array cannot be revealed, and one inside a member `type` reveals all of it."
  },
  {
   "property": "C101",
   "status": "partial",
   "theorems": [
    "VC.PE.createVP_accepted_partial",
    "VC.PE.createVPArray_accepted_partial",
    "VC.PE.createVP_then_match_partial",
    "VC.PE.createVPArray_then_match_partial",
    "VC.PE.createVP_limited_then_match_partial",
    "VC.PE.createVPArray_limited_then_match_partial",
    "VC.PE.derived_still_good_partial",
    "VC.PE.derived_good_partial",
    "VC.PE.match_created_iff",
    "VC.PE.match_created_array_iff",
    "VC.PE.submission_roundtrip",
    "VC.PE.pick_refused",
    "VC.PE.v2_refused",
    "VC.PE.predicate_refused"
   ],
   "note": "Accepted for definitions with schemas (or schema validation disabled) without submission requirements: first for descriptors without limited disclosure or predicates, then (createVP_limited_then_match_partial) with both, if what is sent still meets the descriptor as the verifier reads it; derived_still_good_partial proves that for derived credentials in the faithful cases of C97 with paths of member names and predicates whose filter accepts true. Outside these the code refuses its own presentations (pick_refused, v2_refused, predicate_refused). The *_then_match theorems give the exact condition with submission requirements. createVPS_then_match_partial (C125) is the same for credentials shared in place. Missing: an SD-JWT restricted for one of several descriptors it meets, where the code itself can fail (shared_createVP_fails, C125)."
  },
  {
   "property": "C102",
   "status": "proved",
   "theorems": [
    "VC.PE.createVP_submits",
    "VC.PE.createVPArray_submits",
    "VC.PE.makePresentation_iff"
   ],
   "note": ""
  },
  {
   "property": "C103",
   "status": "proved",
   "theorems": [
    "VC.PE.report_exact",
    "VC.PE.filterDescriptor_exact"
   ],
   "note": "Frames are applied before (a parameter); descriptor names and purposes are not modelled."
  },
  {
   "property": "C104",
   "status": "partial",
   "theorems": [
    "VC.PE.createVP_as_reported_partial",
    "VC.PE.presentationData_report",
    "VC.PE.report_overstates"
   ],
   "note": "Proved with selective disclosure applied, or for definitions without limited disclosure or predicates; otherwise the report can overstate (report_overstates). Restricting SD-JWT disclosures in place (C99) is not in this model; createVPS_eq_partial (C125) transfers the part about CreateVP when no SD-JWT is used twice."
  },
  {
   "property": "C105",
   "status": "proved",
   "theorems": [
    "VC.Vfy.marshal_parse_object",
    "VC.Vfy.marshal_parse_jwt",
    "VC.Vfy.marshal_parse_cwt",
    "VC.Vfy.marshal_cwt_bytes",
    "VC.Vfy.marshal_cwt_hex",
    "VC.Vfy.marshal_ld_loses_envelope",
    "VC.Iss.jwt_member_wins"
   ],
   "note": "Excluded and witnessed: an object with a non-empty string member `jwt` is read as that JWT (jwt_member_wins). encoding/json writes what it reads (hypotheses ObjText, StrText). MarshalAsJSONLD drops the envelope (marshal_ld_loses_envelope)."
  },
  {
   "property": "C106",
   "status": "partial",
   "theorems": [
    "VC.Iss.ld_add_then_parse",
    "VC.Iss.di_add_then_parse_partial",
    "VC.LDP.di_drops_earlier"
   ],
   "note": "Linked data: proved. Data Integrity: only for credentials without an earlier proof (AddDataIntegrityProof drops the earlier ones and the check fails, C86) and not for the name eddsa-2022 (C51)."
  },
  {
   "property": "C107",
   "status": "partial",
   "theorems": [
    "VC.Iss.ld_add_then_parse_pres",
    "VC.Iss.di_add_then_parse_pres_partial"
   ],
   "note": "Linked data: proved. Data Integrity: only for presentations without an earlier proof (C86) and not for the name eddsa-2022 (C51)."
  },
  {
   "property": "C108",
   "status": "proved",
   "theorems": [
    "VC.Vfy.sd_written_iff",
    "VC.Vfy.sd_written_gives",
    "VC.Vfy.disclose_some_roundtrip",
    "VC.Vfy.disclose_all_roundtrip",
    "VC.Vfy.disclose_nothing_forgets",
    "VC.Vfy.child_alone_refused"
   ],
   "note": "Hash and decoder are parameters; the algorithm name is written in the credential or its subject (AlgWritten). child_alone_refused: asking for a nested disclosure alone gives, without an error, a text that the library refuses."
  },
  {
   "property": "C109",
   "status": "proved",
   "theorems": [
    "VC.Iss.make_then_parse",
    "VC.Iss.make_parse_display_all",
    "VC.Iss.make_parse_display_none",
    "VC.Iss.make_sd_headers",
    "VC.Iss.make_sd_panics_iff"
   ],
   "note": "At least one disclosure (without any the text is a bare JWT, C108); digests do not collide (DistinctDigests); displaying assumes no null value and no empty array in the credential, which the library's clean-up removes. Hash, base64, JSON, signature and the reading of the library's own compact JWS are parameters with stated laws (SdLibs, Readable, Accepts)."
  },
  {
   "property": "C11",
   "status": "proved",
   "theorems": [
    "VC.SDJWT.verify_order_independent",
    "VC.SDJWT.processing_order_independent",
    "VC.SDJWT.OEq.of_perm"
   ],
   "note": ""
  },
  {
   "property": "C110",
   "status": "proved",
   "theorems": [
    "VC.Schema.schema_used_iff",
    "VC.Schema.validate_iff",
    "VC.Schema.asked_iff",
    "VC.Schema.stored_downloaded",
    "VC.Schema.unfetched_refused",
    "VC.Schema.builtin_decides",
    "VC.Schema.disabled_fields",
    "VC.Schema.accepted_conforms",
    "VC.Schema.custom_replaces_builtin",
    "VC.Schema.second_schema_ignored"
   ],
   "note": "Schema texts other than the built-in ones have an abstract verdict. Shown besides: a custom schema replaces the built-in one (an object without any required member can pass), and a second schema is never looked at."
  },
  {
   "property": "C111",
   "status": "proved",
   "theorems": [
    "VC.Schema.credV1_read",
    "VC.Schema.credV2_read",
    "VC.Schema.credV1_exact",
    "VC.Schema.credV2_exact",
    "VC.Schema.accepted_builtin",
    "VC.Schema.v1_empty_context"
   ],
   "note": "gojsonschema is modelled (Schema/Model: draft-7 meaning of the keywords used); regular expressions, formats and JSON printing are parameters with stated laws. JWT credentials are not validated by the library at all. The v1 schema accepts an empty context list (witness); default validation refuses it by the JSON-LD check."
  },
  {
   "property": "C112",
   "status": "proved",
   "theorems": [
    "VC.Schema.presV1_read",
    "VC.Schema.presV2_read",
    "VC.Schema.presV1_exact",
    "VC.Schema.presV2_exact",
    "VC.Schema.accepted_presentation",
    "VC.Schema.second_proof_unchecked"
   ],
   "note": "As C111. Shown besides: of several proofs the v1 schema looks at the first only."
  },
  {
   "property": "C113",
   "status": "proved",
   "theorems": [
    "VC.PD.validate_iff",
    "VC.PD.validate_null",
    "VC.Schema.pdV1_read",
    "VC.Schema.pdV2_read",
    "VC.PD.refused_incomplete",
    "VC.PD.refused_locale",
    "VC.PD.refused_metadata",
    "VC.PD.refused_cwt",
    "VC.PD.refused_mixed",
    "VC.PD.refused_schema_format",
    "VC.PD.refused_predicate",
    "VC.PD.accepted_fields",
    "VC.PD.empty_schema_matches_nothing"
   ],
   "note": "The two schema documents are transcribed mechanically and read by the modelled gojsonschema; regular expressions and the draft-7 meta schema are parameters. Findings: locale, metadata and CWT formats, which the structs have, are always refused; an empty schema list is accepted and matches nothing."
  },
  {
   "property": "C114",
   "status": "partial",
   "theorems": [
    "VC.PD.refused_everywhere",
    "VC.PD.accepted_everywhere",
    "VC.PD.create_no_crash_partial",
    "VC.PD.match_no_crash_partial",
    "VC.PD.v1_no_crash",
    "VC.PD.duplicate_crashes",
    "VC.PD.untyped_crashes",
    "VC.PD.duplicate_crashes_create",
    "VC.PD.untyped_crashes_create",
    "VC.PD.untyped_crashes_match"
   ],
   "note": "The code violates the full property: accepted definitions with two descriptors of one ID crash CreateVP on every wallet, and accepted v2 definitions with a filter without type crash as soon as the field is evaluated (witnesses). Proved: no crash when descriptor IDs are distinct and filters name types; v1 definitions always do the latter."
  },
  {
   "property": "C115",
   "status": "partial",
   "theorems": [
    "VC.PD.framed_only",
    "VC.PD.one_plain_credential_spoils_frame",
    "VC.PD.frame_report_differs",
    "VC.PD.framed_merged",
    "VC.PD.frameAll_some",
    "VC.PD.bbsDisclose_some",
    "VC.PD.iterOk_nodup"
   ],
   "note": "First half proved. The second half is violated by the code: one credential without a BBS proof anywhere in the wallet makes CreateVP and CreateVPArray fail (proved for every wallet), while MatchSubmissionRequirement without selective disclosure ignores the frame and reports the credentials (witness). What BBS disclosure makes of one credential is a parameter."
  },
  {
   "property": "C116",
   "status": "proved",
   "theorems": [
    "VC.PE.filterSchemaC_refines",
    "VC.PE.schema_filter_exact",
    "VC.PE.contexts_loaded_once",
    "VC.PE.one_bad_context_fails_all",
    "VC.PE.schema_order_irrelevant",
    "VC.PE.shadowed_schema_matches",
    "VC.PE.getContext_iff",
    "VC.PE.mem_typeIDs",
    "VC.PE.beforeHash_spec"
   ],
   "note": "JSON-LD context processing is a parameter. Findings: every context is read by itself, so a credential also counts as of the schemas whose term a later context replaced (witness), and a broken context of an unrelated credential fails everything."
  },
  {
   "property": "C117",
   "status": "proved",
   "theorems": [
    "VC.Vfy.credential_options",
    "VC.Vfy.presentation_options",
    "VC.Vfy.checked_unless_disabled",
    "VC.Vfy.no_checker_no_credential",
    "VC.Vfy.options_swap",
    "VC.Vfy.options_switch_once",
    "VC.Vfy.earlier_mode_ignored",
    "VC.Vfy.enclosed_options",
    "VC.Vfy.presentation_checked_unless_disabled",
    "VC.Vfy.decides_unique"
   ],
   "note": "Options that only configure validation libraries are not modelled. Findings: validation modes exclude each other without an error (the last one wins); no option can demand a proof or credentials of a presentation."
  },
  {
   "property": "C118",
   "status": "proved",
   "theorems": [
    "VC.Proof.default_ld_iff",
    "VC.Proof.default_cwt_kid_iff",
    "VC.Proof.default_cwt_key_iff",
    "VC.Proof.default_cwt_missing",
    "VC.Proof.cose_limits",
    "VC.Proof.jws2020_rsa_only_pss",
    "VC.Proof.derived_refuses_jwk",
    "VC.Proof.findIssuer_iff",
    "VC.Proof.findIssuer_empty_iff"
   ],
   "note": "Cryptographic primitives and the decoding of a COSE_Key into a JWK and key type are parameters. Findings: JsonWebSignature2020 with an RSA key accepts PSS only; derived BBS+ proofs refuse JWK methods that the base signature accepts; a COSE RSA key works for one of RS256/PS256 only; ES256K and ES512 are unusable for COSE."
  },
  {
   "property": "C119",
   "status": "partial",
   "theorems": [
    "VC.Mem.unshared_partial",
    "VC.Mem.read_current",
    "VC.Mem.shared_witness",
    "VC.Mem.shared_keys",
    "VC.Mem.last_unique"
   ],
   "note": "False of the code: neither Put nor Get copies (shared_witness). Proved: the property holds for every history in which the program never writes into a buffer it has handed over, and in general Get shows the current content of the buffer last stored. Slices are modelled as whole buffers (no sub-slices or append)."
  },
  {
   "property": "C12",
   "status": "partial",
   "theorems": [
    "VC.SDJWT.processed_claims_tidy_partial",
    "VC.SDJWT.reserved_name_leaks"
   ],
   "note": "The code does not reject disclosures named _sd, _sd_alg or '...': reserved_name_leaks is a machine-checked counterexample to the full statement."
  },
  {
   "property": "C120",
   "status": "partial",
   "theorems": [
    "VC.Mem.Race.race_only_get_config_partial",
    "VC.Mem.Race.get_config_races",
    "VC.Mem.Race.no_deadlock",
    "VC.Mem.Race.readers_overlap"
   ],
   "note": "False of the code: GetStoreConfig reads the map of stores and a configuration without the lock (get_config_races). Proved: every race has a GetStoreConfig call on one side, and there is never a deadlock. Modelled are the lock, read and write sets of every exported method; iterators own their data and are not shared."
  },
  {
   "property": "C121",
   "status": "partial",
   "theorems": [
    "VC.Tm.parse_iff",
    "VC.Tm.parseTW_iff",
    "VC.Tm.parseTW_written",
    "VC.Tm.zoneless",
    "VC.Tm.fmtNano_parse",
    "VC.Tm.fmtUnix_parse",
    "VC.Tm.fmtUnix_unreadable",
    "VC.Tm.reprint_partial",
    "VC.Tm.reprint_fails",
    "VC.Tm.civil_next",
    "VC.Tm.civil_dayNo",
    "VC.Tm.dayNo_inj",
    "VC.Tm.leap_iff",
    "VC.Tm.read_bounds",
    "VC.Tm.secOK_iff",
    "VC.Tm.claimDate_iff",
    "VC.Tm.signed_dates"
   ],
   "note": "Reading and printing are modelled from Go's time package (parse and format of RFC3339Nano, absolute days); the calendar is checked against a day-by-day specification (civil_next). Printing and reading again fails for one offset the reader accepts, 24:60 (reprint_fails); proved for all others."
  },
  {
   "property": "C122",
   "status": "partial",
   "theorems": [
    "VC.Tm.sign_verify_roundtrip_go_partial",
    "VC.Tm.accepted_unexpired",
    "VC.Tm.survives_iff",
    "VC.Tm.notExpired_iff",
    "VC.Tm.expires_early"
   ],
   "note": "Violated within one second: dates are written without fractions, so a proof whose expiry has a fraction is refused from the start of its last second (expires_early), and a creation date within the first second of year 1 cannot be verified (survives_iff is exact). Otherwise proved under C51's conditions for every date of a four-digit year with an offset of whole minutes. Go's clock as in C121."
  },
  {
   "property": "C123",
   "status": "proved",
   "theorems": [
    "VC.PD.made_as_preferred",
    "VC.PD.merged_sent",
    "VC.PD.sentBy_of"
   ],
   "note": "Derivation and restriction are parameters (their results are C96, C97, C104); the in-place restriction of an SD-JWT shared by descriptors is C104. Assumes descriptors with different IDs and filters with a type, as the schema check of v1 definitions demands of filters."
  },
  {
   "property": "C124",
   "status": "proved",
   "theorems": [
    "VC.SDJWT.verifier_options",
    "VC.SDJWT.holder_options",
    "VC.SDJWT.verifier_accepts_iff",
    "VC.SDJWT.accepted_by_given_verifier",
    "VC.SDJWT.accepted_algorithms",
    "VC.SDJWT.default_algorithms",
    "VC.SDJWT.holder_verification_demanded",
    "VC.SDJWT.holder_verification_not_demanded",
    "VC.SDJWT.deprecated_names",
    "VC.SDJWT.nil_verifier_crashes",
    "VC.SDJWT.holder_accepts_iff",
    "VC.SDJWT.holder_default_ignores_signatures",
    "VC.SDJWT.v5_needs_algorithms"
   ],
   "note": "go-jose's DefaultLeeway is taken as one minute. A nil verifier is called and crashes on every well-formed token with an iss claim (nil_verifier_crashes); holder.Parse without WithSignatureVerifier takes any signature (holder_default_ignores_signatures)."
  },
  {
   "property": "C125",
   "status": "partial",
   "theorems": [
    "VC.PE.createVPS_only_restricts",
    "VC.PE.createVPArrayS_only_restricts",
    "VC.PE.createVPS_shows_partial",
    "VC.PE.createVPArrayS_shows_partial",
    "VC.PE.shown_discloses",
    "VC.PE.createVPS_eq_partial",
    "VC.PE.createVPArrayS_eq_partial",
    "VC.PE.createVPS_then_match_partial",
    "VC.PE.shared_createVP_fails"
   ],
   "note": "The statement about descriptor maps needs different credential IDs (merge_wrong_credential, C23); with sharing the call can find no answer although copies would give one (shared_createVP_fails). A wallet that lists one pointer twice is not modelled."
  },
  {
   "property": "C126",
   "status": "proved",
   "theorems": [
    "VC.SDJWT.issuing_options",
    "VC.SDJWT.issued_v2",
    "VC.SDJWT.issued_v5",
    "VC.SDJWT.issued_states",
    "VC.SDJWT.issued_in_clear",
    "VC.SDJWT.issued_hidden",
    "VC.SDJWT.issued_names_hash",
    "VC.SDJWT.issued_hash_available",
    "VC.SDJWT.make_options",
    "VC.SDJWT.make_with_shows",
    "VC.SDJWT.make_with_hides",
    "VC.SDJWT.make_with_objects",
    "VC.SDJWT.make_with_hash",
    "VC.Vfy.marshal_options",
    "VC.Vfy.marshal_with_iff",
    "VC.Vfy.marshal_with_discloses",
    "VC.Vfy.marshal_plain_with",
    "VC.Vfy.display_options",
    "VC.Vfy.display_with",
    "VC.SDJWT.issued_texts",
    "VC.SDJWT.issued_salts_differ",
    "VC.SDJWT.made_texts",
    "VC.SDJWT.issued_without_faults",
    "VC.SDJWT.issued_never_faulty",
    "VC.SDJWT.fault_not_crash",
    "VC.SDJWT.lost_salts_unused"
   ],
   "note": "Both versions, with and without decoys (for version 5 the choices are among the disclosures that are no decoys, C14). Failing salt functions and marshallers, and a nil marshaller (a panic), are modelled separately: a token is issued only if nothing failed, and is then the one of the model without failures."
  },
  {
   "property": "C127",
   "status": "proved",
   "theorems": [
    "VC.Proof.checker_regs",
    "VC.Proof.custom_jwt_iff",
    "VC.Proof.custom_embedded_iff",
    "VC.Proof.custom_ld_iff",
    "VC.Proof.custom_cwt_kid_iff",
    "VC.Proof.custom_cwt_cose_iff",
    "VC.Proof.more_jwt",
    "VC.Proof.more_embedded",
    "VC.Proof.more_ld",
    "VC.Proof.more_cwt",
    "VC.Proof.same_regs",
    "VC.Proof.default_is_new",
    "VC.Proof.holder_is_new",
    "VC.LDP.creator_regs",
    "VC.LDP.custom_sign_jwt_iff",
    "VC.LDP.custom_sign_cwt_iff",
    "VC.LDP.custom_sign_linked_iff",
    "VC.LDP.custom_ldp_alg_iff",
    "VC.LDP.more_sign_jwt",
    "VC.LDP.custom_sign_then_check",
    "VC.LDP.jws_header_not_of_signer"
   ],
   "note": "Finding: the algorithm in the header of a detached JWS is chosen by key type among the JWT registrations, whose signer is not the one that signs the linked document (jws_header_not_of_signer). Nil descriptors and nil signers are not modelled."
  },
  {
   "property": "C128",
   "status": "partial",
   "theorems": [
    "VC.Vfy.Slc.copies_independent_partial",
    "VC.Vfy.Slc.added_shown",
    "VC.Vfy.Slc.clone_exact",
    "VC.Vfy.Slc.add_changes",
    "VC.Vfy.Slc.clone_overwritten"
   ],
   "note": "The code violates the property: Clone shares the slice, so adding to a copy and then to the original overwrites the copy's credential (clone_overwritten). Proved: independence when credentials are only added to a presentation at least as long as all its copies; what is added and copied is shown; exactly what one addition does to others. Missing: the sharing of Context, Type, CustomFields and Proofs between copies is not modelled."
  },
  {
   "property": "C129",
   "status": "partial",
   "theorems": [
    "VC.Tm.marshal_iff",
    "VC.Tm.marshal_means_partial",
    "VC.Tm.marshal_roundtrip_partial",
    "VC.Tm.unmarshal_iff",
    "VC.Tm.unmarshal_marshal",
    "VC.Tm.assigned_time_lost",
    "VC.Tm.zone_seconds_lost",
    "VC.Tm.read_not_written"
   ],
   "note": "The code violates it in three cases, with witnesses: a time assigned to the exported field of a wrapper that was read (the old text is written), a new time in a zone with seconds (another instant is written), and a date with offset 24:00 or more, which is read but cannot be written. Otherwise proved. JSON is modelled as values; Go's time package as in C121."
  },
  {
   "property": "C13",
   "status": "proved",
   "theorems": [
    "VC.SDJWT.v2_issue_present_verify",
    "VC.SDJWT.v2_full_disclosure",
    "VC.SDJWT.full_round_trip_needs_solid",
    "VC.SDJWT.v5_issue_present_verify",
    "VC.SDJWT.v5_issue_present_verify_partial"
   ],
   "note": "Default version (V2): every subset of disclosures, all random choices, verifier sees exactly the revealed part of the annotated claims tree. Full disclosure gives back the claims when they contain no null and no empty array; full_round_trip_needs_solid is the counterexample otherwise. V5 too, with and without decoys, for every choice of the disclosures that are no decoys (without decoys: of all disclosures)."
  },
  {
   "property": "C130",
   "status": "partial",
   "theorems": [
    "VC.Vfy.Shr.credentials_independent_partial",
    "VC.Vfy.Shr.only_sharers",
    "VC.Vfy.Shr.parsed_twice_shared",
    "VC.Vfy.Shr.display_is_live",
    "VC.Vfy.Shr.credentials_show_partial"
   ],
   "note": "The code violates it: ParseCredentialJSON keeps the caller's map, so two credentials parsed from one map share it (parsed_twice_shared), and CreateDisplayCredentialMap of a credential that is no SD-JWT returns the credential's own map (display_is_live). Proved for every history in which the program leaves such maps alone; and for every history, that an operation changes only variables that refer to the same map. Missing: only the first level of objects is modelled (copies share what is inside, which the library never writes)."
  },
  {
   "property": "C131",
   "status": "proved",
   "theorems": [
    "VC.B64.decode_iff",
    "VC.B64.encode_iff",
    "VC.B64.decode_encode",
    "VC.B64.encode_inj",
    "VC.B64.only_text_iff",
    "VC.B64.decode_break",
    "VC.Iss.goWriter_laws",
    "VC.Iss.isValidJSON_encode",
    "VC.Iss.isValidJSON_chars",
    "VC.Iss.goReader_noPart",
    "VC.Iss.goReader_clean",
    "VC.Iss.disclosure_round_trip",
    "VC.Iss.disclosure_texts",
    "VC.Iss.disclosure_other_text",
    "VC.Iss.goReadable"
   ],
   "note": "Go's encoding/base64 is modelled from its documentation, its source is not in /repo. Reading is not injective: only_text_iff says exactly when, disclosure_other_text shows it for every disclosure."
  },
  {
   "property": "C132",
   "status": "partial",
   "theorems": [
    "VC.Status.decode_encodeBits",
    "VC.Status.decode_prefixed",
    "VC.Status.encode_not_multibase",
    "VC.Status.published_verdict"
   ],
   "note": "The code violates it for BitstringStatusListEntry: no text Encode writes can be read with the multibase option (encode_not_multibase); proved for the text behind the prefix u. gzip is a parameter with two laws."
  },
  {
   "property": "C133",
   "status": "partial",
   "theorems": [
    "VC.IdentityHub.queries_read",
    "VC.IdentityHub.queries_round_trip",
    "VC.IdentityHub.queries_missing",
    "VC.IdentityHub.queries_noMark",
    "VC.IdentityHub.queries_lost",
    "VC.IdentityHub.queries_plus",
    "VC.IdentityHub.unescape_iff"
   ],
   "note": "The code violates it for unescaped + signs and for URL-safe base64 (queries_plus, queries_lost). Escaped bytes of 128 and more stand for the character of that number."
  },
  {
   "property": "C134",
   "status": "partial",
   "theorems": [
    "VC.Vfy.display_again",
    "VC.Vfy.parsed_disclosures",
    "VC.Vfy.parsed_display_again",
    "VC.Vfy.display_keeps",
    "VC.Vfy.display_changes"
   ],
   "note": "Repetition is proved. The code violates the rest: the values of the disclosures of the credential lose their empty objects (display_changes); everything else stays (display_keeps). What the caller does to the returned map, which shares values with the credential, is not modelled."
  },
  {
   "property": "C135",
   "status": "proved",
   "theorems": [
    "VC.Net.accepted_iff",
    "VC.Net.set_iff",
    "VC.Net.sent_in_order",
    "VC.Net.sent_named",
    "VC.Net.sent_few",
    "VC.Net.sent_nothing",
    "VC.Net.runs_total",
    "VC.Net.check_functional"
   ],
   "note": "The HTTP client itself (redirects, cookies) and did-go's endpoint type are outside the model; entries with 2^63 or more status messages are excluded."
  },
  {
   "property": "C136",
   "status": "partial",
   "theorems": [
    "VC.Net.sent_token",
    "VC.Net.token_anywhere"
   ],
   "note": "Violated by the code: every request carries the token (sent_token), so any host a credential names receives it before anything of the credential has been checked (token_anywhere)."
  },
  {
   "property": "C137",
   "status": "proved",
   "theorems": [
    "VC.SDJWT.hides_v2",
    "VC.SDJWT.presentation_hides_v2",
    "VC.SDJWT.hides_v5",
    "VC.SDJWT.presentation_hides_v5"
   ],
   "note": "The hash and the signature are arbitrary functions; unpredictability of salts is what the hypothesis of untold salts stands for. Salts are assumed different from each other, disclosures readable, and no salt itself a disclosure (GoodSalts). Claims are compared in the iteration order of the run. V5 claims contain no null outside clear or array positions (the code panics there)."
  },
  {
   "property": "C138",
   "status": "proved",
   "theorems": [
    "VC.SDJWT.presented_within_v2",
    "VC.SDJWT.presented_issued_v5",
    "VC.SDJWT.presented_within_v5",
    "VC.SDJWT.verifier_sees_issued",
    "VC.SDJWT.verifier_sees_issued_v5",
    "VC.SDJWT.collision_forges"
   ],
   "note": "V2 and V5, with and without decoys, at the disclosure check and at the verifier's Parse. The hash is any function; the collision alternative is needed (collision_forges). The issuer's own texts are assumed to give different digests (DistinctDigests) and salts not to be readable as disclosures. V5 claims have non-empty member names (with an empty name the code makes an array element of the member, C14)."
  },
  {
   "property": "C139",
   "status": "proved",
   "theorems": [
    "VC.Iss.presented_shows_part",
    "VC.Iss.parsed_read"
   ],
   "note": "For credentials C109 can round-trip (Issuable, no null and no empty array) and a reader whose libraries read the JWT. The text must be read as an SD-JWT (contain the separator): without one the signed claims themselves are displayed. That the JWT is the issuer's follows from its signature, which is a parameter here (C36)."
  },
  {
   "property": "C14",
   "status": "partial",
   "theorems": [
    "VC.SDJWT.v2_issued_parsed_by_holder",
    "VC.SDJWT.v5_issued_parsed_by_holder_partial",
    "VC.SDJWT.v5_decoys_rejected",
    "VC.SDJWT.v5_null_panics",
    "VC.SDJWT.v5_empty_name_rejected"
   ],
   "note": "Proved for V2 with and without decoys and for V5 without decoys. The code violates it for V5 with decoys (decoys are returned among the disclosures), null claims (panic) and empty member names: proved as negative theorems."
  },
  {
   "property": "C140",
   "status": "proved",
   "theorems": [
    "VC.Num.toFloat_isFloat",
    "VC.Num.toFloat_nearest",
    "VC.Num.toFloat_tie",
    "VC.Num.toFloat_self",
    "VC.Num.toFloat_mono",
    "VC.Num.toFloat_none_iff",
    "VC.Num.decimal_unique",
    "VC.Num.document_refused_iff",
    "VC.Num.document_stable",
    "VC.Num.document_kept",
    "VC.Num.number_changed"
   ],
   "note": "The sign of zero is left out. Texts and their values (the grammar of JSON numbers) are not modelled; strconv.FormatFloat is a parameter with its documented law. Claims maps of JWTs (jwt.PayloadToMap) keep number texts and are not concerned; disclosures and vc claims read into a credential are."
  },
  {
   "property": "C141",
   "status": "proved",
   "theorems": [
    "VC.SDJWT.dates_checked_iff",
    "VC.SDJWT.second_order",
    "VC.SDJWT.second_exact",
    "VC.SDJWT.accepted_on_time",
    "VC.SDJWT.accepted_nonce",
    "VC.SDJWT.year_one_panics",
    "VC.SDJWT.two_spellings"
   ],
   "note": "Numbers of 2^63 and more are converted as the processor does (a parameter): an exp beyond that is not covered. The behaviour of mapstructure and go-jose is assumed as listed in Dates.lean; a number's text is taken as a function of its value."
  },
  {
   "property": "C142",
   "status": "partial",
   "theorems": [
    "VC.Vfy.Nam.claims_read",
    "VC.Vfy.Nam.decoded_iff",
    "VC.Vfy.Nam.claims_nil_iff",
    "VC.Vfy.Nam.body_read",
    "VC.Vfy.Nam.plain_credential",
    "VC.Vfy.Nam.plain_presentation",
    "VC.Vfy.Nam.credential_issuer_read",
    "VC.Vfy.Nam.presentation_holder_read",
    "VC.Vfy.Nam.checked_issuer_shown_partial",
    "VC.Vfy.Nam.other_spellings_count",
    "VC.Vfy.Nam.checked_issuer_not_shown",
    "VC.Vfy.Nam.holder_from_other_spelling",
    "VC.Vfy.Nam.flat_credential_read"
   ],
   "note": "Partial because the code violates the last part: with another spelling of iss the issuer checked and the issuer shown differ (checked_issuer_not_shown). Credentials are not affected in ParseCredential, whose proof check uses the issuer shown. Values inside a member are taken as decoded; invalid UTF-8 in names is not modelled."
  },
  {
   "property": "C143",
   "status": "partial",
   "theorems": [
    "VC.DI.proof_read_iff",
    "VC.DI.text_single_iff",
    "VC.DI.reader_sees_verified",
    "VC.DI.plain_text_verified",
    "VC.DI.signed_text",
    "VC.DI.text_roundtrip_partial",
    "VC.DI.other_proof_shown",
    "VC.DI.other_purpose_shown"
   ],
   "note": "Partial because the code violates the last part: with two members proof the reader sees the last, the verifier checks the first (other_proof_shown); with another spelling of proofPurpose the purpose shown is not the one verified, also after the document is decoded and written again as ParseCredential does (other_purpose_shown). text_roundtrip_partial has the assumptions of C51. gjson's leniency on texts that are not JSON is not modelled."
  },
  {
   "property": "C144",
   "status": "partial",
   "theorems": [
    "VC.DidCfg.client_options",
    "VC.DidCfg.client_verify_iff",
    "VC.DidCfg.client_trace",
    "VC.DidCfg.client_answer_decides",
    "VC.DidCfg.session_trace",
    "VC.DidCfg.session_results",
    "VC.DidCfg.session_contacts",
    "VC.DidCfg.client_linked_partial",
    "VC.DidCfg.path_links_origin"
   ],
   "note": "Partial because the code violates the last sentence: for a domain with a path, the configuration under that path links the DID to the whole origin (path_links_origin). Redirects, TLS and time-outs belong to the HTTP client, which is a parameter."
  },
  {
   "property": "C145",
   "status": "proved",
   "theorems": [
    "VC.SDJWT.bound_presentation_iff",
    "VC.SDJWT.other_challenge_refused",
    "VC.SDJWT.other_holder_refused",
    "VC.SDJWT.issued_holder_key",
    "VC.SDJWT.credential_holder_key",
    "VC.SDJWT.kb_outer_cnf_wins"
   ],
   "note": "Assumes the JWS library reads back the compact text it wrote, base64url's alphabet, that case folding does not identify registered claim names, and an issue time that float64 and go-jose keep (|iat| <= 2^53, not the zero time). For NewFromVC the key is checked unless the claims around a vc claim have a cnf of their own, which wins (kb_outer_cnf_wins)."
  },
  {
   "property": "C146",
   "status": "partial",
   "theorems": [
    "VC.SDJWT.binding_tied_to_key_partial",
    "VC.SDJWT.binding_reused",
    "VC.SDJWT.kb_reused"
   ],
   "note": "Partial because the code violates it: the binding covers nonce, audience and time only, so an accepted binding is accepted with other disclosures of the same SD-JWT or another SD-JWT with the same cnf (binding_reused, witness kb_reused). Proved: it is refused for an SD-JWT whose cnf key does not verify it."
  },
  {
   "property": "C147",
   "status": "partial",
   "theorems": [
    "VC.SDJWT.caller_claims_partial",
    "VC.SDJWT.reissue_refused",
    "VC.SDJWT.reissue_refused_v2",
    "VC.SDJWT.failed_signing_loses"
   ],
   "note": "Partial because the code violates it: the map is written into, so every later call on it fails (reissue_refused, reissue_refused_v2), and when the signer fails the hidden claims are lost, in the map and as disclosures (failed_signing_loses). Proved: only _sd_alg, cnf and credentialSubject of the credential claims change, and nothing when the call fails before signing."
  },
  {
   "property": "C148",
   "status": "partial",
   "theorems": [
    "VC.Vfy.binding_kept_partial",
    "VC.Vfy.binding_not_checked",
    "VC.Vfy.unbound_accepted"
   ],
   "note": "Partial because the code violates it: the outcome of ParseCredential is the same for every binding of JWS shape (binding_not_checked), also for a credential that names no holder key (unbound_accepted). Proved: the binding kept is the one of the text, empty or of JWS shape, beside an issuer JWT whose proof was checked. Bindings that are not JWS-shaped make the last part a disclosure instead (splitCombined)."
  },
  {
   "property": "C15",
   "status": "proved",
   "theorems": [
    "VC.SDJWT.reserved_claim_refused",
    "VC.SDJWT.reserved_claim_refused_v5"
   ],
   "note": "iff, both versions"
  },
  {
   "property": "C16",
   "status": "proved",
   "theorems": [
    "VC.SDJWT.allowed_algorithms_only",
    "VC.SDJWT.verifySigningAlg_iff",
    "VC.SDJWT.verifier_parse_iff",
    "VC.SDJWT.holder_parse_iff"
   ],
   "note": ""
  },
  {
   "property": "C17",
   "status": "proved",
   "theorems": [
    "VC.SDJWT.holder_verification_iff",
    "VC.SDJWT.holder_verification_required",
    "VC.SDJWT.holder_verification_checked"
   ],
   "note": ""
  },
  {
   "property": "C18",
   "status": "proved",
   "theorems": [
    "VC.SDJWT.duplicate_disclosures_rejected"
   ],
   "note": ""
  },
  {
   "property": "C19",
   "status": "proved",
   "theorems": [
    "VC.PE.requirement_semantics",
    "VC.PE.nested_sat"
   ],
   "note": "A set of descriptor IDs satisfies the logic built from the submission requirements exactly when it satisfies the independently stated SubReq.Sat/DefSat, at any nesting depth."
  },
  {
   "property": "C20",
   "status": "proved",
   "theorems": [
    "VC.PE.iterator_exhaustive",
    "VC.PE.newIter_fresh"
   ],
   "note": "Repeated Next without exclusion yields exactly the non-empty satisfying subsets, each once."
  },
  {
   "property": "C21",
   "status": "proved",
   "theorems": [
    "VC.PE.excluded_never_yielded",
    "VC.PE.yields_sound",
    "VC.PE.end_complete",
    "VC.PE.yields_bounded",
    "VC.PE.exclusion_contract_needed"
   ],
   "note": "Under Next's documented contract (excluded descriptors belong to the last returned set); exclusion_contract_needed is a witness that the contract cannot be dropped."
  },
  {
   "property": "C22",
   "status": "partial",
   "theorems": [
    "VC.PE.solveDefinition_ok",
    "VC.PE.solveDefinition_iff",
    "VC.PE.solveDefinitionS_partial",
    "VC.PE.shared_sdjwt_no_solution"
   ],
   "note": "Exact iff for evaluation without side effects; the Go code mutates a shared SD-JWT credential when disclosure is limited, for which shared_sdjwt_no_solution is a counterexample and solveDefinitionS_partial the part that holds."
  },
  {
   "property": "C23",
   "status": "partial",
   "theorems": [
    "VC.PE.merge_points_partial",
    "VC.PE.merge_all",
    "VC.PE.merge_wrong_credential"
   ],
   "note": "Violated when two credentials have equal ids (merge_wrong_credential); holds otherwise."
  },
  {
   "property": "C24",
   "status": "proved",
   "theorems": [
    "VC.PE.match_complete",
    "VC.PE.null_mapping_panics",
    "VC.PE.no_schema_never_matches"
   ],
   "note": "match_complete is the property; the other two record deviations (panic on a null mapping, definitions without schema)."
  },
  {
   "property": "C25",
   "status": "proved",
   "theorems": [
    "VC.PE.filterConstraints_exact",
    "VC.PE.filterConstraints_none",
    "VC.PE.mem_schemasOf",
    "VC.PE.compared_iff",
    "VC.PE.rewrite_not_jwt",
    "VC.PE.rewrite_jwt",
    "VC.PE.no_fields_nothing_passes",
    "VC.PE.untyped_filter_panics",
    "VC.PE.rewrite_order_dependent",
    "VC.PE.second_spelling",
    "VC.PE.no_second_spelling"
   ],
   "note": "Relative to the jsonpath/JSON-schema/predicate libraries as parameters; the last three record deviations."
  },
  {
   "property": "C26",
   "status": "proved",
   "theorems": [
    "VC.PE.mCombinations_exact",
    "VC.PE.mCombinations_eq",
    "VC.PE.mCombinations_length",
    "VC.PE.nChooseM_eq",
    "VC.PE.allCombinations_exact",
    "VC.PE.complement_exact"
   ],
   "note": "Unbounded ints."
  },
  {
   "property": "C27",
   "status": "proved",
   "theorems": [
    "VC.Mem.store_is_map",
    "VC.Mem.failed_changes_nothing",
    "VC.Mem.result_ok_iff"
   ],
   "note": "Values are kept by reference in Go; the caller is assumed not to modify a slice after storing it."
  },
  {
   "property": "C28",
   "status": "proved",
   "theorems": [
    "VC.Mem.batch_all_or_nothing",
    "VC.Mem.batch_skips_tag_check",
    "VC.Mem.Conc.store_linearizable"
   ],
   "note": "batch_skips_tag_check records that Batch does not check tags as Put does."
  },
  {
   "property": "C29",
   "status": "partial",
   "theorems": [
    "VC.Mem.query_exact_partial",
    "VC.Mem.queryAt_sound",
    "VC.Mem.criteria_render",
    "VC.Mem.query_repeated_tag_wrong",
    "VC.Mem.query_not_atomic"
   ],
   "note": "Exact for pairwise different tag names without concurrent writes; violated otherwise (two counterexamples)."
  },
  {
   "property": "C30",
   "status": "proved",
   "theorems": [
    "VC.Mem.iterator_exact"
   ],
   "note": ""
  },
  {
   "property": "C31",
   "status": "proved",
   "theorems": [
    "VC.Mem.stores_isolated",
    "VC.Mem.open_same_iff",
    "VC.Mem.config_read_back",
    "VC.Mem.setConfig_spec"
   ],
   "note": ""
  },
  {
   "property": "C32",
   "status": "proved",
   "theorems": [
    "VC.JWT.headers_iff",
    "VC.JWT.parse_ok_iff"
   ],
   "note": "jose.ParseJWS and strings.ToUpper are parameters."
  },
  {
   "property": "C33",
   "status": "proved",
   "theorems": [
    "VC.Proof.jwt_proof_sound",
    "VC.Proof.cwt_proof_sound",
    "VC.Proof.ld_proof_sound",
    "VC.Proof.resolver_sound",
    "VC.Proof.resolver_order_independent",
    "VC.Proof.jwt_signed_by_issuer_key"
   ],
   "note": "Cryptographic primitives are parameters."
  },
  {
   "property": "C34",
   "status": "proved",
   "theorems": [
    "VC.Proof.default_alg_iff",
    "VC.Proof.default_jwt_iff",
    "VC.Proof.embedded_jwt_iff",
    "VC.Proof.alg_none_rejected",
    "VC.Proof.no_algorithm_confusion"
   ],
   "note": ""
  },
  {
   "property": "C35",
   "status": "proved",
   "theorems": [
    "VC.JWT.parse_and_check_iff",
    "VC.JWT.jwt_issuer_binding",
    "VC.JWT.jwt_kid_binding"
   ],
   "note": ""
  },
  {
   "property": "C36",
   "status": "partial",
   "theorems": [
    "VC.Vfy.parse_iff",
    "VC.Vfy.parse_verified_partial",
    "VC.Vfy.jwt_credential_signed_by_issuer",
    "VC.Vfy.cwt_credential_signed_by_issuer",
    "VC.Vfy.ld_credential_signed_by_issuer",
    "VC.Vfy.parse_jwt_parts",
    "VC.Vfy.bound_issuer",
    "VC.Vfy.empty_proof_array_accepted",
    "VC.Vfy.empty_proof_array_example",
    "VC.Vfy.parse_examples",
    "VC.Vfy.parse_cwt_parts"
   ],
   "note": "Acceptance characterised exactly (parse_iff) and, with the library checker and resolver, every JWT, CWT and linked-data credential is bound to a key of its issuer. The property itself fails for an empty proof array (empty_proof_array_accepted), hence partial; data integrity proofs are C37."
  },
  {
   "property": "C37",
   "status": "partial",
   "theorems": [
    "VC.Vfy.di_credential_partial",
    "VC.Vfy.di_not_bound_to_issuer"
   ],
   "note": "The code does not bind a data integrity proof to the issuer: witness di_not_bound_to_issuer. What it does guarantee is di_credential_partial (single proof)."
  },
  {
   "property": "C38",
   "status": "partial",
   "theorems": [
    "VC.Vfy.presentation_verified_partial",
    "VC.Vfy.jwt_presentation_signed",
    "VC.Vfy.presentation_checked",
    "VC.Vfy.object_credential_unchecked",
    "VC.Vfy.unsigned_cose_presentation_accepted",
    "VC.Vfy.unsigned_object_credential_accepted",
    "VC.Vfy.unsigned_cose_example"
   ],
   "note": "Holds for the presentation's own JWS / embedded proofs and for enclosed JWT, CWT and enveloped credentials. The code verifies neither COSE presentations nor credentials enclosed as JSON objects; both gaps are proved as theorems with concrete witnesses."
  },
  {
   "property": "C39",
   "status": "partial",
   "theorems": [
    "VC.Vfy.parse_iff",
    "VC.Vfy.disable_same_partial",
    "VC.Vfy.disable_validation_same",
    "VC.Vfy.disable_proof_check_accepts_partial",
    "VC.Vfy.proof_check_changes_context"
   ],
   "note": "Acceptance is monotone for all inputs and options. The returned credential is the same except that, with external contexts, the proof check rewrites @context of the returned JSON (proof_check_changes_context)."
  },
  {
   "property": "C40",
   "status": "proved",
   "theorems": [
    "VC.Vfy.jwt_claims_roundtrip",
    "VC.Vfy.jwt_claims_roundtrip_v5",
    "VC.Vfy.refined_contents",
    "VC.Vfy.unmarshal_marshalCred",
    "VC.Vfy.unmarshal_payloadV5",
    "VC.Vfy.minimize_spec",
    "VC.Vfy.zero_date_lost",
    "VC.Tm.jwt_claims_roundtrip_go"
   ],
   "note": "For every credential whose typed contents agree with its JSON (C66), minimized or not, nested or flat payload. Dates must be expressible as NumericDate/RFC 3339; Go's zero time is not, zero_date_lost is the witness. jwt_claims_roundtrip_go discharges the hypotheses on dates for Go's clock (C121): any instant of the years 0 to 9999 but the zero time."
  },
  {
   "property": "C41",
   "status": "partial",
   "theorems": [
    "VC.Vfy.refine_spec",
    "VC.Vfy.signed_claims_in_contents_partial",
    "VC.Vfy.decode_rejects_other_issuer",
    "VC.Vfy.hasBaseContext_iff",
    "VC.Vfy.signed_exp_shadowed",
    "VC.Vfy.signed_iss_ignored",
    "VC.Tm.signed_dates"
   ],
   "note": "refine_spec characterises the refined object and its failures exactly. The claim about the parsed contents is violated in two cases, with witnesses: a 2.0 credential that also carries issuanceDate/expirationDate (the old name is read first), and a null issuer. signed_dates (C121): with Go's clock, a signed date outside the years 0 to 9999 makes decoding fail rather than being dropped."
  },
  {
   "property": "C42",
   "status": "proved",
   "theorems": [
    "VC.Vfy.contents_roundtrip",
    "VC.Vfy.serialize_get",
    "VC.Vfy.serialize_isSome",
    "VC.Vfy.parsed_normal",
    "VC.Vfy.parsed_sdAlg",
    "VC.Vfy.reparse",
    "VC.Vfy.created_get",
    "VC.Vfy.created_roundtrip",
    "VC.Vfy.reparse_needs_types",
    "VC.Vfy.parseSDAlg_reads",
    "VC.Vfy.serialized_dates",
    "VC.Vfy.read_date_kept"
   ],
   "note": "parseCredentialContents/serializeCredentialContents over all JSON objects and all (normal) contents values; time formatting abstract with a lawful-codec hypothesis. reparse needs a non-empty type list: reparse_needs_types is the witness that a parsed credential whose type array is empty serializes to something that no longer parses to the same contents."
  },
  {
   "property": "C43",
   "status": "proved",
   "theorems": [
    "VC.Vfy.withID_spec",
    "VC.Vfy.withIssued_spec",
    "VC.Vfy.withExpired_spec",
    "VC.Vfy.withValidFrom_spec",
    "VC.Vfy.withValidUntil_spec",
    "VC.Vfy.withContext_spec",
    "VC.Vfy.withStatus_spec",
    "VC.Vfy.withRefreshService_spec",
    "VC.Vfy.withIssuer_spec",
    "VC.Vfy.withSubject_spec"
   ],
   "note": "Each WithModified*: no proofs, no envelope, only the named JSON member changes, every other contents field is unchanged. The original is unchanged because the model is functional (Go code works on a shallow copy)."
  },
  {
   "property": "C44",
   "status": "proved",
   "theorems": [
    "VC.Vfy.parseDataURL_iff",
    "VC.Vfy.dataURL_roundtrip",
    "VC.Vfy.dataURL_needs_prefix",
    "VC.Vfy.dataURL_needs_comma"
   ],
   "note": "over all strings"
  },
  {
   "property": "C45",
   "status": "partial",
   "theorems": [
    "VC.Vfy.Cache.cache_fresh_partial",
    "VC.Vfy.Cache.cache_serves_stale",
    "VC.Vfy.Cache.cache_served_iff",
    "VC.Vfy.Cache.cache_get_put",
    "VC.Vfy.Cache.cache_expired_removed",
    "VC.Vfy.Cache.getJSONSchema_source",
    "VC.Vfy.Cache.getJSONSchema_caches"
   ],
   "note": "Every history of Put/Get with any clock: an entry is served at most expiration (rounded up to the next whole second) after its Put. The English claim is violated below one second: expiry is stored in whole seconds and compared strictly, cache_serves_stale is the witness."
  },
  {
   "property": "C46",
   "status": "partial",
   "theorems": [
    "VC.Vfy.issuer_roundtrip",
    "VC.Vfy.issuerFromJSON_needs_id",
    "VC.Vfy.parseIssuer_serializeIssuer",
    "VC.Vfy.parseIssuer_string",
    "VC.Vfy.subject_roundtrip",
    "VC.Vfy.subjectFromJSON_spec",
    "VC.Vfy.subjects_roundtrip",
    "VC.Vfy.subjects_roundtrip_in_memory_fails",
    "VC.Vfy.subject_roundtrip_in_memory",
    "VC.Vfy.typedIDs_roundtrip",
    "VC.Vfy.proofs_roundtrip",
    "VC.Vfy.relRes_roundtrip",
    "VC.Vfy.subjectID_iff",
    "VC.Vfy.parseSubject_forms"
   ],
   "note": "Round trips hold through JSON text. Without a marshalling step, several subjects serialize to a Go []map value that parseSubject rejects: subjects_roundtrip_in_memory_fails (violation witness)."
  },
  {
   "property": "C47",
   "status": "partial",
   "theorems": [
    "VC.Vfy.holder_rule_iff",
    "VC.Vfy.holder_checked_partial",
    "VC.Vfy.jwt_holder_not_checked",
    "VC.Vfy.related_resources_checked"
   ],
   "note": "validateHolder is characterised exactly (iff) for embedded proofs; JWT/CWT presentations and credentials escape the check (witness)."
  },
  {
   "property": "C48",
   "status": "proved",
   "theorems": [
    "VC.DI.verify_single_iff",
    "VC.DI.newSuites_standard"
   ],
   "note": "iff against Spec.Valid for single-proof documents under fresh options; canonicalisation, hashes, signatures, clock and DID resolver are parameters"
  },
  {
   "property": "C49",
   "status": "partial",
   "theorems": [
    "VC.DI.no_proof_fails_partial",
    "VC.DI.accepted_has_proof_partial",
    "VC.DI.empty_proof_accepted",
    "VC.DI.empty_proof_list_verifies",
    "VC.DI.null_proof_verifies"
   ],
   "note": "the full property is false of the code: null and [] verify (counterexamples proved); everything else needs a proof"
  },
  {
   "property": "C50",
   "status": "partial",
   "theorems": [
    "VC.DI.proof_set_checked",
    "VC.DI.proof_set_own_key_partial",
    "VC.DI.second_proof_not_checked",
    "VC.DI.valid_pair_rejected",
    "VC.DI.reused_options_ignore_method"
   ],
   "note": "false of the code for sets naming several methods (counterexample proved); proved when all proofs name one method"
  },
  {
   "property": "C51",
   "status": "partial",
   "theorems": [
    "VC.DI.sign_verify_roundtrip_partial",
    "VC.DI.roundtrip_examples",
    "VC.DI.resign_fails",
    "VC.DI.eddsa2022_alias_fails",
    "VC.DI.relative_id_fails",
    "VC.DI.addProof_any_suite"
   ],
   "note": "proved for documents without a proof, methods listed under the id used, dates that survive RFC3339; the excluded cases are shown to fail"
  },
  {
   "property": "C52",
   "status": "proved",
   "theorems": [
    "VC.Vfy.Rel.validateSingle_ok_iff",
    "VC.Vfy.Rel.validate_sound",
    "VC.Vfy.Rel.validate_iff",
    "VC.Vfy.Rel.validate_same",
    "VC.Vfy.Rel.validate_progress",
    "VC.Vfy.Rel.validate_bound",
    "VC.Vfy.Rel.validate_terminates",
    "VC.Vfy.Rel.sri_dash_rejected"
   ],
   "note": "Small-step semantics of one call with other users of the shared cache. Hash functions and multibase are parameters. 'Declared digest' is read as the code reads it: algorithm-dash-multibase with no further dash (sri_dash_rejected records that base64url SRI digests with a dash are refused)."
  },
  {
   "property": "C53",
   "status": "partial",
   "theorems": [
    "VC.DidCfg.verify_iff",
    "VC.DidCfg.verify_sound_partial",
    "VC.DidCfg.linked_signed_by_did_partial",
    "VC.DidCfg.decodeConfig_iff",
    "VC.DidCfg.empty_proof_links"
   ],
   "note": "exact characterisation of acceptance; accepted entries obey all linkage rules and are signed by keys of the DID, except that an entry with an empty proof array carries no signature and is accepted (witness)"
  },
  {
   "property": "C54",
   "status": "proved",
   "theorems": [
    "VC.IdentityHub.getMessageData_spec",
    "VC.IdentityHub.checkStatus_iff",
    "VC.IdentityHub.firstValidMessage_spec",
    "VC.IdentityHub.resolveDID_sound"
   ],
   "note": ""
  },
  {
   "property": "C55",
   "status": "partial",
   "theorems": [
    "VC.BBS.disclosure_spec",
    "VC.BBS.reveal_positions_partial",
    "VC.BBS.missing_reveals_first",
    "VC.BBS.missing_statement_reveals_first"
   ],
   "note": "Proved: what is derived, for which messages and indexes; exactness of the revealed positions when every selected statement stands in the document. Fails in general: a selected statement that is not in the document (for instance one with two blank nodes, of which the transformation renames one) silently reveals the first document statement; witness missing_statement_reveals_first. JSON-LD framing and canonicalisation and the BBS+ cryptography are parameters."
  },
  {
   "property": "C56",
   "status": "proved",
   "theorems": [
    "VC.Vfy.marshal_sdjwt_iff",
    "VC.Vfy.marshal_sdjwt_discloses",
    "VC.Vfy.marshal_plain_discloses",
    "VC.Vfy.filterDisclosures_none",
    "VC.Vfy.filterDisclosures_some"
   ],
   "note": "for every map iteration order; with repeated names the last disclosure of a name is handed over"
  },
  {
   "property": "C57",
   "status": "proved",
   "theorems": [
    "VC.JsonUtil.merge_lookup",
    "VC.JsonUtil.merge_wf",
    "VC.JsonUtil.merge_order",
    "VC.JsonUtil.merge_disjoint",
    "VC.JsonUtil.split_lookup",
    "VC.JsonUtil.copyExcept_lookup",
    "VC.JsonUtil.select_lookup",
    "VC.JsonUtil.unmarshal_marshal_custom"
   ],
   "note": ""
  },
  {
   "property": "C58",
   "status": "proved",
   "theorems": [
    "VC.Vfy.decodeType_iff",
    "VC.Vfy.decodeType_serializeTypes",
    "VC.Vfy.decodeContext_array_iff",
    "VC.Vfy.decodeContext_complete",
    "VC.Vfy.decodeContext_contextToRaw",
    "VC.Vfy.contextToRaw_not_injective"
   ],
   "note": "all JSON values"
  },
  {
   "property": "C59",
   "status": "partial",
   "theorems": [
    "VC.PE.solveDefinitionS_partial",
    "VC.PE.shared_sdjwt_no_solution"
   ],
   "note": "Violated by limited disclosure of SD-JWT credentials; holds for credentials whose evaluation has no side effect."
  },
  {
   "property": "C60",
   "status": "proved",
   "theorems": [
    "VC.PE.limitDisclosure_enforced"
   ],
   "note": ""
  },
  {
   "property": "C61",
   "status": "proved",
   "theorems": [
    "VC.PE.filterFormat_exact",
    "VC.PE.filterSchema_exact",
    "VC.PE.filterDescriptor_sound",
    "VC.PE.credByProof_iff",
    "VC.PE.credByAlg_iff",
    "VC.PE.cwt_format_ignored"
   ],
   "note": "cwt_format_ignored records that CWT formats are ignored."
  },
  {
   "property": "C62",
   "status": "partial",
   "theorems": [
    "VC.PE.presentation_id_wrong",
    "VC.PE.presentationID_holds_partial"
   ],
   "note": "Violated (presentation_id_wrong); holds for a single presentation."
  },
  {
   "property": "C63",
   "status": "proved",
   "theorems": [
    "VC.PE.presentationIndex_of_merge",
    "VC.PE.presentationIndex_literal",
    "VC.PE.presentationIndex_single",
    "VC.PE.atoi_toString"
   ],
   "note": ""
  },
  {
   "property": "C64",
   "status": "partial",
   "theorems": [
    "VC.Mem.stale_close_drops_new_store",
    "VC.Mem.close_exact_partial",
    "VC.Mem.close_keeps_data"
   ],
   "note": "Violated by stale handles."
  },
  {
   "property": "C65",
   "status": "proved",
   "theorems": [
    "VC.Mem.Conc.store_linearizable",
    "VC.Mem.Conc.mutual_exclusion"
   ],
   "note": "Small-step model of the RWMutex critical sections; queries with several criteria are not atomic (see C29)."
  },
  {
   "property": "C66",
   "status": "partial",
   "theorems": [
    "VC.Vfy.withID_agrees",
    "VC.Vfy.withIssuer_agrees",
    "VC.Vfy.withSubject_agrees",
    "VC.Vfy.withContext_agrees",
    "VC.Vfy.withStatus_agrees",
    "VC.Vfy.withRefreshService_agrees",
    "VC.Vfy.withIssued_agrees",
    "VC.Vfy.withExpired_agrees",
    "VC.Vfy.withValidFrom_agrees_partial",
    "VC.Vfy.withValidUntil_agrees_partial",
    "VC.Vfy.withValidFrom_disagrees",
    "VC.Vfy.created_agrees",
    "VC.Vfy.created_disagrees_with_declared_custom"
   ],
   "note": "Violated: WithModifiedValidFrom/ValidUntil on a credential with issuanceDate/expirationDate, and CreateCredential with custom fields named like declared ones; witnesses given, the rest proved."
  },
  {
   "property": "C67",
   "status": "partial",
   "theorems": [
    "VC.Vfy.decode_panics_iff",
    "VC.Vfy.decode_no_panic_partial",
    "VC.Vfy.decode_panics_without_registered",
    "VC.Vfy.decode_panics_examples",
    "VC.Vfy.refine_panic_iff",
    "VC.Vfy.newClaims_panics_iff"
   ],
   "note": "Violated: exact characterisation of the JWT payloads that make the decoder panic, with witnesses ({}, {\"vc\":{..}}, {\"iss\":..}); proved panic-free for payloads with a registered claim and a non-empty vc object."
  },
  {
   "property": "C68",
   "status": "partial",
   "theorems": [
    "VC.Vfy.jwt_presentation_holder_partial",
    "VC.Vfy.jwt_presentation_signed",
    "VC.Vfy.jwt_presentation_holder_not_signer"
   ],
   "note": "Holder and id are the signed claims; that the signer is the holder is not checked by the code (witness)."
  },
  {
   "property": "C69",
   "status": "partial",
   "theorems": [
    "VC.Vfy.relax_same_partial",
    "VC.Vfy.envelope_with_proof_read_twice"
   ],
   "note": "Holds for inputs readable in one format only; witness for an envelope that also carries a proof."
  },
  {
   "property": "C70",
   "status": "partial",
   "theorems": [
    "VC.Vfy.display_list_iff",
    "VC.Vfy.clearEmpty_leaves",
    "VC.Vfy.clearEmpty_noEmpty",
    "VC.Vfy.display_map_partial",
    "VC.Vfy.display_shows_nested"
   ],
   "note": "the property fails for nested disclosures (display_shows_nested): a selected outer disclosure also shows the unselected nested one"
  },
  {
   "property": "C71",
   "status": "partial",
   "theorems": [
    "VC.Vfy.jwt_marshal_roundtrip",
    "VC.Vfy.cose_marshal_roundtrip_partial",
    "VC.Vfy.json_marshal_roundtrip_partial",
    "VC.Vfy.marshal_document",
    "VC.Vfy.universal_object",
    "VC.Vfy.universal_jwt",
    "VC.Vfy.universal_sd",
    "VC.Vfy.universal_cwt",
    "VC.Vfy.custom_context_dropped",
    "VC.Vfy.cose_v1_signature_dropped",
    "VC.Vfy.sd_forgotten"
   ],
   "note": "JWT presentations: the full round trip. COSE: data model 2 only; a v1 COSE presentation loses its signature (cose_v1_signature_dropped). JSON: without custom (object) context entries, which are dropped (custom_context_dropped); SD-JWT credentials with a disclosure or a holder binding (without either they come back as plain JWT credentials, sd_forgotten); given that the schema and the embedded proof accept the rewritten document."
  },
  {
   "property": "C72",
   "status": "partial",
   "theorems": [
    "VC.Vfy.jwt_pres_claims_roundtrip",
    "VC.Vfy.bare_presentation_panics"
   ],
   "note": "Proved when the presentation has a holder, an id or an audience; without any of them the reader dereferences a nil pointer (bare_presentation_panics)."
  },
  {
   "property": "C73",
   "status": "partial",
   "theorems": [
    "VC.Vfy.pres_payload_panics_iff",
    "VC.Vfy.pres_payload_panics",
    "VC.Vfy.pres_payload_no_panic_partial",
    "VC.Vfy.unsecured_presentation_panics",
    "VC.Vfy.refinePres_panic_iff"
   ],
   "note": "The property is false: an unsecured JWT whose payload has no registered claim makes the parser panic (unsecured_presentation_panics). pres_payload_panics_iff gives the exact payloads for the refinement step; other library code is assumed not to panic."
  },
  {
   "property": "C74",
   "status": "proved",
   "theorems": [
    "VC.Vfy.presentation_mirrors",
    "VC.Vfy.newPres_iff",
    "VC.Vfy.newPres_mirrors",
    "VC.Vfy.validateVP_iff"
   ],
   "note": "The schema and JSON-LD validators are parameters; data URL parsing is the modelled ParseDataURL (C57)."
  },
  {
   "property": "C75",
   "status": "partial",
   "theorems": [
    "VC.Vfy.Rel.validateSingle_panic_iff",
    "VC.Vfy.Rel.crash_malformed",
    "VC.Vfy.Rel.malformed_never_returns",
    "VC.Vfy.Rel.no_crash_partial",
    "VC.Vfy.Rel.empty_digest_crashes"
   ],
   "note": "The property is false: an empty base64url digest ('u') indexes out of range in a goroutine (empty_digest_crashes). crash_malformed and no_crash_partial: these digests are the only cause."
  },
  {
   "property": "C76",
   "status": "partial",
   "theorems": [
    "VC.DidCfg.verify_panic_partial",
    "VC.DidCfg.issuerless_jwt_panics"
   ],
   "note": "violated: a JWT credential without issuer crashes the verifier; proved: only such entries (or entries whose parsing crashes, C67) do"
  },
  {
   "property": "C77",
   "status": "partial",
   "theorems": [
    "VC.DidCfg.linked_jwt_iss_partial",
    "VC.DidCfg.sub_not_checked"
   ],
   "note": "violated for sub: claims are rebuilt from the credential, the signed sub is never compared; iss, if present and non-empty, is the DID"
  },
  {
   "property": "C78",
   "status": "proved",
   "theorems": [
    "VC.BBS.verifier_sees_revealed"
   ],
   "note": "Under the stated assumption that selected statements stand in the document and the renaming of blank nodes is undone by the verifier (C79)."
  },
  {
   "property": "C79",
   "status": "partial",
   "theorems": [
    "VC.BBS.fromBlank_restores_partial",
    "VC.BBS.fromBlank_other",
    "VC.BBS.second_blank_node_stays"
   ],
   "note": "Proved for the first placeholder of a row. The code leaves further placeholders in the row: witness second_blank_node_stays."
  },
  {
   "property": "C80",
   "status": "partial",
   "theorems": [
    "VC.SDJWT.v2_from_vc",
    "VC.SDJWT.v2_from_vc_full",
    "VC.SDJWT.v5_from_vc",
    "VC.SDJWT.v5_from_nested_vc",
    "VC.SDJWT.from_vc_fails_iff",
    "VC.SDJWT.from_vc_leaks"
   ],
   "note": "V2 and V5 proved, with and without decoys (V5: choices among the disclosures that are no decoys, C14). Fails for claims having both a top-level subject and an object vc: the top-level subject is signed in clear; witness from_vc_leaks."
  },
  {
   "property": "C81",
   "status": "proved",
   "theorems": [
    "VC.SDJWT.make_shows_listed",
    "VC.SDJWT.make_hides_unlisted",
    "VC.SDJWT.make_keeps_objects"
   ],
   "note": "From the claims map on (JWTClaims and its JSON are C61/C62). For claims whose subject stands in one place only (see the leak of C80)."
  },
  {
   "property": "C82",
   "status": "proved",
   "theorems": [
    "VC.LDP.every_proof_checked"
   ],
   "note": "An empty proof array is accepted (no_proofs_accepted); requiring a proof is the callers' duty, see C36 and C38."
  },
  {
   "property": "C83",
   "status": "proved",
   "theorems": [
    "VC.LDP.sign_spec",
    "VC.LDP.sign_keeps",
    "VC.LDP.unsupported_key_refused"
   ],
   "note": "Under LibOk: did-go's AddProof appends and changes nothing else, and CreateVerifyData has a message for the two representations only."
  },
  {
   "property": "C84",
   "status": "proved",
   "theorems": [
    "VC.LDP.sign_then_verify",
    "VC.LDP.jwt_sign_then_check",
    "VC.LDP.cwt_sign_then_check",
    "VC.LDP.jwtHeaders_spec"
   ],
   "note": "Under LibOk (did-go's proof package); the link between signer and verifier is a hypothesis about the primitive."
  },
  {
   "property": "C85",
   "status": "proved",
   "theorems": [
    "VC.LDP.jwt_alg_matches",
    "VC.LDP.cwt_alg_matches",
    "VC.LDP.jwt_cwt_agree",
    "VC.LDP.names",
    "VC.LDP.no_cose",
    "VC.LDP.p521_name_not_registered"
   ],
   "note": "The code's name for P-521 is ES521, not the registered ES512: signer and checker agree with each other but not with other JOSE implementations."
  },
  {
   "property": "C86",
   "status": "partial",
   "theorems": [
    "VC.LDP.credential_adds_one",
    "VC.LDP.credential_new_proof",
    "VC.LDP.credential_add_refused",
    "VC.LDP.credential_add_then_verify",
    "VC.LDP.presentation_adds_one",
    "VC.LDP.presentation_new_proof",
    "VC.LDP.presentation_add_then_verify",
    "VC.LDP.reset_spec",
    "VC.LDP.credential_adds_di_partial",
    "VC.LDP.di_new_proof",
    "VC.LDP.di_add_then_verify_partial",
    "VC.LDP.di_drops_earlier",
    "VC.LDP.di_drops_earlier_pres",
    "VC.LDP.di_loses_two",
    "VC.LDP.reset_then_add_fails",
    "VC.LDP.did_di_added",
    "VC.LDP.did_di_add_then_verify_partial"
   ],
   "note": "Holds for linked data proofs (ProofLib: did-go's AddProof/GetProofs). Violated by AddDataIntegrityProof, which replaces all earlier proofs (di_drops_earlier, di_loses_two), and after ResetProofs(nil), which leaves proof: null so that the next AddLinkedDataProof fails (reset_then_add_fails)."
  },
  {
   "property": "C87",
   "status": "partial",
   "theorems": [
    "VC.LDP.did_verified_partial",
    "VC.LDP.did_other_signer",
    "VC.LDP.did_di_other_signer"
   ],
   "note": "Violated: VerifyDIDProof expects no issuer, so each proof is only tied to the DID in its own key id; witness did_other_signer."
  },
  {
   "property": "C88",
   "status": "proved",
   "theorems": [
    "VC.Cwt.deterministic_spec",
    "VC.Cwt.deterministic_err",
    "VC.Cwt.deterministic_no_panic",
    "VC.Cwt.deterministic_idem",
    "VC.Cwt.deterministic_eq_iff",
    "VC.Cwt.proofValue_spec",
    "VC.Cwt.proofValue_no_panic",
    "VC.Cwt.proofValue_binds",
    "VC.Cwt.proofValue_canonical",
    "VC.Cwt.sigStructure_inj",
    "VC.Cwt.cwt_credential_sig_structure"
   ],
   "note": "Byte level, against RFC 8949 byte strings and RFC 9052 Sig_structure written independently."
  },
  {
   "property": "C89",
   "status": "partial",
   "theorems": [
    "VC.Cwt.convertToStringMap_converted",
    "VC.Cwt.conversion_order_partial",
    "VC.Cwt.json_object_survives",
    "VC.Cwt.clash_depends_on_order"
   ],
   "note": "Independence of the iteration order holds when no two keys of a map print alike; otherwise (the keys 1 and \"1\") the result depends on the order (clash_depends_on_order)."
  },
  {
   "property": "C90",
   "status": "partial",
   "theorems": [
    "VC.Cwt.cose_create_panics_iff",
    "VC.Cwt.cose_created",
    "VC.Cwt.cose_content_read",
    "VC.Cwt.cose_content_exact",
    "VC.Cwt.cose_issue_then_parse",
    "VC.Cwt.library_signature_accepted",
    "VC.Cwt.cwt_presentation_created",
    "VC.Cwt.cwt_pres_content_read",
    "VC.Cwt.cwt_pres_content_exact",
    "VC.Cwt.cwt_pres_roundtrip_partial",
    "VC.Cwt.cwt_minimized_loses_holder",
    "VC.Cwt.cwt_minimized_not_restored"
   ],
   "note": "Credentials: holds; issuing crashes exactly for one identified subject without issuer or issue date. Presentations: holds when not minimized; a minimized CWT presentation is read back without holder and id, since only the JWT parser restores them from iss and jti. The CBOR codec is a parameter that reads what it wrote."
  },
  {
   "property": "C91",
   "status": "partial",
   "theorems": [
    "VC.Cwt.cwt_parse_check_iff",
    "VC.Cwt.cwt_accepted_key_of_issuer_partial",
    "VC.Cwt.cwt_empty_issuer_accepted",
    "VC.Cwt.cwt_empty_issuer_witness",
    "VC.Cwt.cwt_own_messages_refused",
    "VC.Cwt.cwt_own_key_no_issuer"
   ],
   "note": "Violated for an empty iss claim (treated as no issuer) and for the library's own messages, which have no COSE_Key header and are all refused."
  },
  {
   "property": "C92",
   "status": "proved",
   "theorems": [
    "VC.Iss.signed_token",
    "VC.Iss.detached_token",
    "VC.Iss.unsecured_token",
    "VC.Iss.mergeHeaders_get",
    "VC.Iss.lookup_string_header",
    "VC.Iss.signed_token_checked",
    "VC.Iss.creator_token_accepted",
    "VC.Iss.none_rejected",
    "VC.Iss.unsecured_rejected"
   ],
   "note": "kms-go's jose.NewJWS and SerializeCompact are modelled after RFC 7515; base64url, JSON encoding and the parsing of a compact text are parameters that read what they wrote."
  },
  {
   "property": "C93",
   "status": "proved",
   "theorems": [
    "VC.Iss.jwt_create_panics_iff",
    "VC.Iss.jwt_created",
    "VC.Iss.jwt_issue_then_parse",
    "VC.Iss.jwt_create_issue_parse"
   ],
   "note": "For credentials whose JSON and contents agree (those made by CreateCredential do) and dates a JWT date can carry."
  },
  {
   "property": "C94",
   "status": "proved",
   "theorems": [
    "VC.Iss.unsecured_created",
    "VC.Iss.unsecured_issue_then_parse",
    "VC.Iss.unsecured_not_accepted",
    "VC.Iss.jwt_create_panics_iff"
   ],
   "note": ""
  },
  {
   "property": "C95",
   "status": "partial",
   "theorems": [
    "VC.Iss.jwt_presentation_created",
    "VC.Iss.jwt_pres_issue_then_parse_partial",
    "VC.Iss.jwt_pres_without_claims_panics",
    "VC.Iss.jwt_pres_not_restored"
   ],
   "note": "Holds for every presentation with a holder, an id or an audience; without any of them the issued JWT has no registered claim and reading it back crashes."
  },
  {
   "property": "C96",
   "status": "partial",
   "theorems": [
    "VC.PE.limited_only_selected_partial",
    "VC.PE.limited_where_partial",
    "VC.PE.template_only",
    "VC.PE.limited_credential_shows_only_partial",
    "VC.PE.dotted_name_discloses"
   ],
   "note": "Proved for places whose member names have no dot (the code's dotted paths cannot express others); with a dot in a name an unselected claim is disclosed (dotted_name_discloses)."
  },
  {
   "property": "C97",
   "status": "partial",
   "theorems": [
    "VC.PE.limited_shows_selected_partial",
    "VC.PE.claim_of_another_subject",
    "VC.PE.elements_merged",
    "VC.PE.numeric_name_becomes_array",
    "VC.PE.singleton_subject",
    "VC.PE.type_overwritten",
    "VC.PE.predicate_hides_another",
    "VC.PE.nested_arrays_torn"
   ],
   "note": "Proved under the conditions of `Simple`; the other theorems are witnesses that the code violates the property outside them: claims attributed to another subject, array elements merged, and so on."
  },
  {
   "property": "C98",
   "status": "partial",
   "theorems": [
    "VC.PE.sd_limited_iff",
    "VC.PE.sd_limited_subset",
    "VC.PE.sd_limited_minimal_partial",
    "VC.PE.sd_limited_complete_partial",
    "VC.PE.sd_discloses_unselected_elements",
    "VC.PE.sd_element_not_disclosed",
    "VC.PE.sd_nested_not_disclosed",
    "VC.PE.sd_top_level_not_disclosed",
    "VC.PE.sd_disclosed_twice"
   ],
   "note": "The exact set kept is characterized; it differs from the selected one in the witnessed cases."
  },
  {
   "property": "C99",
   "status": "partial",
   "theorems": [
    "VC.PE.presentations_only_lose",
    "VC.PE.left_out_is_lost",
    "VC.PE.presenting_loses_disclosures"
   ],
   "note": "The code violates it: disclosures left out of a presentation are lost for every later one."
  }
 ]
}