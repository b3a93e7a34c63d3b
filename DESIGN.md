# Formal model of trustbloc/vc-go in Lean 4 — design

## Layout

* `lean/Verif/Base/*` — JSON values, Go-map (assoc list) utilities shared by all modules.
* `lean/Verif/<Area>/Model.lean` — transcription of the Go functions of that area (each
  definition cites file:lines in /repo and says what is simplified).
* `lean/Verif/<Area>/Spec.lean` — small declarative specification, written from the English
  property, not using the model's helpers.
* `lean/Verif/Verifiable/Parse*.lean` — the parse pipeline (model, spec, exact acceptance, parts,
  counterexamples); `lean/Verif/DataIntegrity/*` — data integrity verifier and signer.
* `lean/Verif/<Area>/Props.lean` — theorems relating the two, each followed by an `example`
  showing that a concrete non-trivial case meets the hypotheses; where the code violates the
  property, a theorem stating the negation (a concrete counterexample) next to a `_partial`
  theorem for the part that does hold.

## Modelling conventions

* Go maps are association lists; `Nodup` of keys is an explicit hypothesis where it matters.
  Iteration order (random in Go) is modelled by quantifying over permutations.
* JSON: `null | bool | num (Int-valued or opaque) | str | arr | obj`.
* `error` results are `Except`; error texts are abstracted to constructors/tags.
* Cryptography (hashes, signatures, gzip, base64, JSON-LD canonicalization) is abstract: a
  parameter (function or relation) of the model, over which every theorem quantifies; where a
  theorem needs e.g. collision freedom on the data at hand it is an explicit hypothesis.
* Clocks, DID resolution and HTTP are parameters.
* Panics are modelled as an explicit error outcome.
* Concurrency: the in-memory store and the related-resource validator are modelled as
  transition systems / order-parametric folds.

## Trusted base

Lean 4.33.0 kernel; the axioms `propext`, `Classical.choice`, `Quot.sound` only (no
`native_decide`, no user axioms). The correspondence between the Go source and the Lean
definitions is by inspection (citations in each definition).

## What is modelled, what is a parameter, what is left out

"Parameter" means: a function or relation argument of the model about which nothing is assumed unless
a theorem lists it as a hypothesis. Every definition repeats its own simplifications in its comment.

| package | modelled (functions transcribed) | parameters | left out |
|---|---|---|---|
| `status`, `status/internal/bitstring`, `status/validator` | BitAt, Encode/Decode framing, VerifyStatus, both validators, StatusList entry checks | gzip, base64, the resolver, VC parsing | HTTP, log output |
| `sdjwt/common` | combined formats, GetDisclosureClaims / GetDisclosedClaims, digest collection, verification of disclosures, hash name handling | hash, base64+JSON decoding of a disclosure, map iteration order, `strings.ToUpper` | error texts |
| `sdjwt/issuer`, `sdjwt/holder`, `sdjwt/verifier` | V2/V5 builders, decoys, CreatePresentation, NewFromVC, the options of makeSDJWT, Parse, holder binding checks | salt and decoy sources, signing, `jwt.Parse`, go-jose time checks | option struct plumbing that only stores a value |
| `presexch` | requirement tree, selection iterator, applyRequirement, merge, Match, constraint evaluation with its state, limit disclosure, format and schema filters, combinations, merged paths | jsonpath, gojsonschema, sjson/gjson, JSON-LD contexts, signer, iteration order | descriptor names and purposes in the report of MatchSubmissionRequirement |
| `presexch` limited disclosure contents | template, field writes, array compaction, SD-JWT disclosures, BBS+ reveal document | gjson/sjson modelled for dotted paths of plain components; JSON path evaluation (`jsonpathkeys`) a parameter returning places | gjson/sjson path escapes and wildcards, number rounding |
| `legacy/mem` | each operation, histories, a small-step RWMutex semantics | – | values are shared by reference in Go and are not copied in the model; fairness |
| `proof/checker`, `proof/creator`, `proof/testsupport` tables, `vermethod` | header checks, proof type tables, key checks, DID resolution of keys | signature verification, VDR | default suite table contents beyond what a theorem states |
| `jwt` | Parse, CheckProof, JSONWebToken claims | `jose.ParseJWS`, JSON decoding | the encoding/json rule that struct keys match case-insensitively |
| `verifiable` (credentials) | contents ↔ JSON, JWT claims mapping, WithModified*, data URLs, schema cache, ParseCredential with all parsers, validation dispatch and proof checks | JSON/CBOR/hex/base64 decoding, JSON schema and JSON-LD validation, did-go linked-data proofs, times | `CustomFields` of proofs, custom initialisers that fail, HTTP |
| `verifiable` (presentations) | ParsePresentation with its three parsers, JWT claims refinement, enclosed credentials, validateHolder, executeChecks, option relaxation, MarshalJSON, raw, ToUniversalForm, JWT claims creation | as for credentials, plus CBOR maps, VP JSON schemas, the related-resource verdict | SD-JWT credentials inside marshalled presentations; JSON, hex encoders are parameters |
| `verifiable` (related resources) | Fetch, Validate, validateSingleResource, validateHash as a small-step semantics | hash functions, multibase, ToLower, servers, cache expiry | HTTP details, error texts |
| `didconfig/verifier` | VerifyDIDAndDomain and all its helpers | credential parser parameters, json.Marshal, did.Parse, net/url | logging, options |
| `verifiable/bbs_selective_disclosure.go`, `crypto-ext/verifiers/bbs` | BBSSelectiveDisclosure and all its helpers; message splitting and blank node renaming of the verifiers | JSON-LD processor (compact, frame, canonicalise, TransformBlankNode), proof.NewProof, key resolver, BBS+ derivation/verification, base64 | key type checks of the verifiers |
| `verifiable/lddocument`, `proof/creator`, `verifiable/*_ldp.go`, `data_integrity_proof.go` | document signer and verifier, all of ProofCreator, AddLinkedDataProof, AddDataIntegrityProof, ResetProofs, VerifyDIDProof, key type to algorithm tables | did-go's proof package (CreateVerifyData, AddProof, GetProofs, GetJWTSignature), a suite's canonicalisation and digest, signers | error texts, JSON-LD processor options other than the RDF ones |
| `verifiable/cwt`, `cwt`, `cose.go`, `credential_cwt.go`, `presentation_cwt.go` | GetProofValue on bytes, conversion of CBOR values, making and reading CWT credentials and presentations, ParseAndCheckProof | fxamacker/cbor for whole payloads and messages, go-cose headers, Sprintf of keys | error texts, COSE unprotected headers |
| `jwt/jwt.go`, `jws.go`, `jwt_unsecured.go`, `CreateSignedJWTVC`, `CreateUnsecuredJWTVC`, `CreateJWTVP` | making tokens and reading them back through the parsers | kms-go `jose.NewJWS`/`SerializeCompact` modelled after RFC 7515; base64url, JSON codec, signature primitives as parameters | error texts |
| `dataintegrity` and suites | Verifier.VerifyProof, Signer.AddProof with the options both mutate, ecdsa and eddsa suites | canonicalisation, digest, signature primitives, DID resolution, RFC3339, multibase | – |

Dependency assumptions that are built into types rather than hypotheses: `encoding/json` produces
`map[string]interface{}` values with distinct keys (go-jose's fork rejects duplicates); numbers are
opaque; `time.Time` is an abstract type with the operations the code calls; byte strings that are only
passed to a decoder are `String`. `fastcache` is a partial map that may lose any entry at any time.

Iteration over Go maps is a parameter `order` wherever its order can be observed; theorems quantify
over it.

## Per-property plan

| id | modelled | proof idea |
|----|----------|-----------|
| C01 | BitAt on byte lists | arithmetic on idx/8, idx%8, `Nat.testBit` |
| C02,C03 | VerifyStatus/verifyStatus with abstract resolver & decoder | case analysis + list induction against a declarative `CleanEntry` |
| C04 | both validators, 64-bit shift wraparound | case analysis |
| C05 | string split/join on '~' over character lists | induction on parts |
| C06 | CreatePresentation | list induction |
| C07–C12 | discloseClaimValue as a state-passing interpreter over JSON with fuel | fuel-sufficiency measure, invariants, permutation argument |
| C13–C15 | issuer V2/V5 generation, abstract hash | tree induction; negation witness for V5 decoys |
| C16–C18 | verifier pipeline | decision logic |
| C19–C22 | requirement logic, bitset iterator, applyRequirement | bit arithmetic + simulation by enumeration of subsets |
| C23–C25 | merge, Match, constraints | list induction; negation witness for equal ids |
| C26 | combination enumerator | induction on colex order |
| C27–C31 | mem store as a state machine | refinement to finite maps over all histories |
| C32–C35 | header checks, proof checker, tables, key resolver | decision logic; case analysis on tables |
| C36–C39 | parse pipelines for VC and VP | decision logic; negation witnesses for DI issuer binding, CWT VP and embedded JSON VCs |
| C40–C47 | claims mapping, contents (de)serialization, WithModified*, data URL, cache, holder check | round-trip lemmas |
| C48–C51 | DI verifier/signer with mutated options | decision logic, negation witnesses for empty proof list and shared options |
| C52 | Fetch, Validate and the digest comparison as a small-step semantics with a shared cache | inductive invariant over executions; decreasing measure for termination; iff for the digest comparison |
| C53 | `VerifyDIDAndDomain` on top of the credential parser model | exact characterisation `verify_iff`; signed-by-DID theorem; witness: empty `proof` array |
| C54 | identityhub | decision logic |
| C76 | same; panics are an outcome | panic only through an issuer-less or crashing entry; witness |
| C77 | same; claims are rebuilt from the credential | `iss` bound if present; witness for `sub` |
| C78 | the messages picked by the derivation's indexes equal the messages the derived-proof verifier splits out | list reasoning over `split`, `docIndexes_spec`; hypotheses: selected statements stand in the document, blank node renaming inverted |
| C79 | `transformFromBlankNode` on character lists | first-occurrence lemma for `strings.Index`; witness for a second placeholder |
| C80 | `newFromVC` on JSON objects over the model of `New`; annotated trees of C13 wrapped by the credential's clear members | reuse of `blind_processed` for a tree inside an object; equality of objects up to member order by lookups; witness for the leak |
| C81 | `makeEnv`: the options of `makeSDJWT` | from C80 and the policy of one member of the annotated tree |
| C82 | `VerifyObject` over did-go's proof package as parameters, `CheckLDProof` of the proof model | inversion of the loop; the first suite of the type as a list split |
| C83 | `signObject`, `SignLinkedDocument`, `LDPJWTAlg`; did-go's `AddProof` as a hypothesis | inversion of the option chain |
| C84 | both sides of C82 and C83; `SignJWT`, `SignCWT`, `CreateJWTHeaders` | completeness of the checker for the first matching suite; the message does not depend on the new proof's value |
| C85 | the three tables | case analysis over all key types against the table of the checker |
| C86 | `AddLinkedDataProof`, `AddDataIntegrityProof`, `ResetProofs` on the models of credentials, presentations and (`AddDIDDataIntegrityProof`) DID documents | the document written afterwards agrees with the signed one except for the shape of `proof`; witnesses for the two violations |
| C87 | `VerifyDIDProof`, `AddDIDDataIntegrityProof` | from C82; witness with another signer |
| C88 | `deterministicBinaryString` and `GetProofValue` on bytes, with Go's index panics | against inductive specifications of byte strings and big-endian lengths; shortest encodings are unique |
| C89 | `convertToStringMap`, `convertElement` with the iteration order of each map as an argument | mutual structural induction; a relation `Converted` independent of order |
| C90 | `newCWTCredClaims`, `marshalCOSE`, `CreateSignedCOSEVC`, `CreateCWTVP`, reading the payloads; the codec as a parameter | C88, C89 and the contents round trip (C42) chained through the parser theorem (C36); witness for minimized presentations |
| C91 | `ParseAndCheckProof`, `CheckProof`, `Verifier.Verify` | inversion; C33 and C88 for soundness; witnesses |
| C92 | `NewSigned`, `NewUnsecured`, `NewJoseSigned`, `Serialize`, `LookupStringHeader`; NewJWS after RFC 7515 | characterization of the made token; chained with C32/C84 for acceptance and with the default tables for alg none |
| C93 | `CreateSignedJWTVC`, `marshalJWS` on top of the claims model | the text is recognised as a JWS by its characters; C40 for the claims, C36 for the parser, C92 for the signature |
| C94 | `CreateUnsecuredJWTVC`, `marshalUnsecuredJWT` | as C93; the parser theorem excludes acceptance without a proof |
| C95 | `CreateJWTVP` | C72 for the document, C74 for the parser, C92 for the signature; panic witness |
| C96 | `limitDisclosure` (template), `copyOnlySubjectIDs`, `createNewCredential`, `compactArrayPaths`, `getPath`; gjson/sjson for plain dotted paths | provenance invariant of every write; witness for dotted names |
| C97 | the same | the renumbering as an injective function of places; pairwise compatible writes are all kept; witnesses |
| C98 | `getLimitedDisclosures`, `ExtractArrayValuesForSDJWTV5`, `GetDisclosureDigests`, `splitLast` | exact characterization of the kept disclosures; witnesses |
| C99 | the in-place `SetSDJWTDisclosures` over a history of presentations | induction over the history; witness |
| C100 | `enhanceRevealDoc`, `enhanceRevealField` | provenance and preservation of markers under every later write, for every iteration order; witnesses |
| C101 | `CreateVP`, `CreateVPArray`, `presentationData`, `presentation`, `getBaseContext`, the JSON of the submission, `Match` | composition of the models of both sides: exact condition under which `Match` accepts; round trip of the submission; derived credentials (limited disclosure, C97) still meet their descriptor; witnesses where it refuses |
| C102 | `presentation`, `getBaseContext` | exact characterization of success and result |
| C103 | `MatchSubmissionRequirement`, `matchRequirement`, `makeRequirementsForMatch`, `toRequirement` | mutual induction over requirement trees; exactness of the descriptor filter |
| C104 | the same with `CreateVP` | both searches reduced to the same evaluation of descriptors; witness |
| C105 | `MarshalJSON`, `ToUniversalForm`, `MarshalAsJSONLD`, `MarshalAsCWTLD`, `MarshalAsCWTLDHex` with `ParseCredential` | each format of the universal form traced through the parser; witness for `jwt` members |
| C106 | `AddLinkedDataProof`, `AddDataIntegrityProof` of a credential, then `MarshalJSON`, `ParseCredential` | C82/C86 joined with C105 through a correspondence of the two views of did-go's proofs |
| C107 | the same for presentations, with `ParsePresentation` | joined with C71; Data Integrity checks shown independent of member order |
| C108 | `MarshalWithDisclosure` of a parsed SD-JWT credential, then `ParseCredential` | the disclosure table restricted to a chosen part: verification and resolution of the part expressed through the whole (`Restrict`); text form traced through the parser; witness for a nested disclosure alone |
| C109 | `MakeSDJWT`, then `ParseCredential`, then `CreateDisplayCredential(Map)` | signed claims = the credential with the selective subject, for both payload layouts; refining commutes with replacing the subject (`RefineAgree`); verification and display from the issuer's blinding relation; text form traced through the parser |
| C110 | `getSchemaLoader`, `getJSONSchema`, `loadJSONSchema`, `jsonSchemaLoader` as functions that return the schema, the URLs asked and the cache writes | case analysis against a separate relation `Uses`; loop by induction over the schema list |
| C111 | the two credential schema documents (transcribed mechanically), a reader of schema documents and an evaluator of the keywords they use | reading proved equal to an explicit tree, tree proved equivalent to `CredV1`/`CredV2` on JSON values; tied to `ParseCredential` through `parse_iff` |
| C112 | the two presentation schema documents | as C111, tied to `ParsePresentation` through `presentation_mirrors` |
| C113 | the Go structs of a definition, their JSON (`omitempty`), the two schema documents (transcribed mechanically), `ValidateSchema` | reading of the documents proved equal to explicit trees; each level of the tree proved equivalent to its specification; recursion through `from_nested` by induction with the depth of the value as bound |
| C114 | `CreateVP`, `CreateVPArray`, `MatchSubmissionRequirement` with the check in front | composition of `validate_iff` with the exactness theorems of matching and of the iterator; crash witnesses for the rest |
| C115 | `frameCreds`, `GenerateBBSSelectiveDisclosure`'s guards, the frame in `CreateVP`, `CreateVPArray` and `MatchSubmissionRequirement` | inversion of the loop composed with `createVP_ok`; deviation proved for every wallet |
| C116 | `filterSchema` with its cache of contexts, `typeFoundInContext`, `getContext` | invariant of the cache; refinement to the cache-free filter; exactness by induction |
| C117 | every exported parse option, `getCredentialOpts`, `getPresentationOpts`, the options for enclosed credentials | fold lemmas (`decides_foldl`, `foldl_flag`); composition with C36's theorem; congruence of parsing in the settings a mode reads |
| C118 | `CheckLDProof`, `CheckCWTProof`, `FindIssuer` with the tables of `NewDefaultProofChecker` | case analysis over the tables with a generic table lemma (`tail_iff`); separate specifications `LdAccepts`, `CoseAlg`, `Under` |
| C119 | buffers by number over a heap, the store model (parametric in values) holding references | simulation with the store that copies (`mapDb_run`), invariant that held buffers were passed; witness |
| C120 | the critical sections of every exported method with their lock mode and accesses | invariant relating program counters to held locks; every race case analysed; progress by cases; witness |
| C121 | Go's RFC 3339 reader and printer, and its calendar, over lists of characters; a `GoClock` links it to the abstract clock of the credential model | `parse_iff` against a grammar; civil/day-number bijection against a day-by-day successor; round trips; composition with C40 and C41 |
| C122 | C51's model with the clock of C121 (`IntClock`) | exact conditions for a date to survive and to be unexpired, composed with C48 and C51; violation theorem |
| C123 | `CreateVP`, `CreateVPArray` with the schema check, `frameCreds`, `filterConstraints`, `limitDisclosure`, `merge` | invariant of the merge (every merged credential was sent for a descriptor), then case analysis of `limitDisclosure` in terms of the preference strings |
| C124 | all options of `verifier.Parse` and `holder.Parse`, their defaults and the fold over them | one generic lemma (the last option that decides), uniqueness, and composition with the acceptance theorems of C16/C17 |
| C125 | `CreateVP`/`CreateVPArray` on a heap of credentials: filters on pointers, limiting in place, the search with the heap, merge on pointers | invariant of the stateful search (what each cell lost, what each pointer was restricted for), then the mappings; simulation with the model on copies (C101, C104) when no SD-JWT is used twice; the loss of completeness is proved by a counterexample |
| C126 | every option of the SD-JWT issuer, of `MakeSDJWT`, `MarshalWithDisclosure` and the display credentials; defaults, the option list `makeSDJWT` builds | last option decides each setting (fold), uniqueness, composed with C13, C81, C56 and C70; the issuer run again with salt functions and marshallers that fail (`IssueFail`): refinement to the model without failures by structural induction |
| C127 | the options of `checker.New`, `NewEmbeddedVMProofChecker` and `creator.New`, with the checks and signing functions of C33, C34 and C57 | fold of the options = lists of registrations; each lookup = first member with a property; exact acceptance; appending keeps first members |
| C128 | presentations as Go slices over shared arrays, with `append` in place while there is room; create, add, copy | invariant over histories relating the arrays to lists of their own; exact effect of one addition on other presentations; counterexample history |
| C129 | `TimeWrapper`: time and kept text, `MarshalJSON` with Go's strict RFC 3339 check, `UnmarshalJSON`, histories of operations on one wrapper | invariant of histories over the reader and printer of C121; exact condition for the strict check on printed texts; counterexamples |
| C130 | the JSON objects of credentials as maps at addresses; parse, create, modify, envelope, prove, raw, display and writes by the program | invariant over histories: variables that are not lent have different addresses and the contents of a semantics without sharing; frame theorem for all histories; counterexamples |
| C131 | Go's base64 (both alphabets): encoder, decoder with line breaks and ignored trailing bits; `isValidJSON`, decoding and encoding of disclosures | characterisation by bit strings (RFC 4648) in both directions; round trip; exactly when the text is unique; the base64 assumptions of C100-C109 become theorems |
| C132 | `bitstring.Encode`/`Decode` with gzip as a parameter with two laws, go-multibase by prefix | composition of C131 with C01-C03: verdict for published lists; Encode's text is never multibase |
| C133 | `getQueries`, `url.ParseQuery`, `url.QueryUnescape` | spelling relation equivalent to the unescaper; splitting lemmas; base64 of C131 |
| C134 | the credential's disclosures as mutable state: a display clears in place the values shown below the subject; values nested in other disclosures may change in any way | similarity of disclosure tables up to clearing, preserved by displays; the declarative resolution relation is transferred between similar tables; induction over histories; witness that disclosure values change |
| C135 | the check as an interaction tree: HTTP requests, DID look-ups and map ranges are steps with arbitrary answers; runs are logs of exchanges | bind lemma for runs; exact characterisation of each part; loop induction; iff theorems for the accepted, revoked and suspended logs; total for every adversarial outside; agreement with the functional model |
| C136 | same model | every request carries the token; witness: for every token and location there is a credential whose check sends the one to the other |
| C137 | the issuer model of C126/C30 run with two hash functions; relation `Alike`/`Alike5` between claims, written without the model's functions (salt counting `Takes`) | simulation: salts are drawn once (`Fresh`), so a hash function can be re-routed on secret disclosures to those of the first issuance; structural induction gives equal payloads and the same told disclosures, hence the same presentation text |
| C138 | issuer and verifier models together, disclosures an arbitrary list of texts; spec `Collision`, `Within` (an inductive sub-value relation), both without the model's functions | invariant by induction over the issuer (every digest in the payload and in the disclosed values is of a text the issuer wrote), induction over the committed digests of C29, and the round trip of C13/C14 for the values |
| C139 | the issuing, parsing and displaying models together, the text read arbitrary; spec `Sent` (a part of the text, by `~`), `Collision`, `Within`, `DisplayOf` | inversion of the parser (only the JSON parser yields a JWT envelope), the invariant of C138 for the made claims, repeated disclosures reduced to distinct ones, the round trip of C80/C109 |
| C140 | `json.Unmarshal` into `interface{}` and `json.Marshal` on the numbers of a document: binary64 rounding, ties to even, as an exact function on rationals; `strconv.FormatFloat(-1)` is a parameter with its documented law `Shortest` (shown to be satisfiable); spec `IsFloat`, `Decimal`, `Safe` | real arithmetic on the exponent of the last bit; 15 digits by comparing the gap of decimals with the rounding error; structural induction over documents. It justifies the law `decode (encode m) = m` that the round-trip theorems (C105 and others) assume of float64-valued objects |
| C141 | the decoding of claims maps that `VerifyJWT` and the holder checks do (mapstructure, weakly typed, with this repository's hook): names, dates, texts, audience; filled into the verifier of C16-C18; float64 reading from C140. Library behaviour assumed is listed at the head of `Verif/SDJWT/Dates.lean` | claim by claim to a relation `States`; monotonicity of float64 reading gives the second; then the verifier's acceptance theorem |
| C142 | `encoding/json` into `JWTCredClaims`/`JWTPresClaims` as a fold over the members in document order, names matched under simple case folding (concrete, for the ASCII names used), null, merge of maps and the embedded pointer as Go does; custom fields from the last-wins map | invariant by induction on the document from the right: each claim is described by the document alone; on plain documents equal to the map reading of `JWTClaims.lean`; witness with two spellings |
| C143 | texts as member lists; gjson/sjson act on the first `proof`, the suites decode the rest last-wins, `models.Proof` is decoded under case folding; what follows is the model of C48-C51 | reading of a proof by induction from the right; map of the remaining members = map without `proof`; transfer of C48 and C51 to texts; witnesses: two `proof` members, two spellings of `proofPurpose` |
| C144 | `New`, its options, `VerifyDIDAndDomain` of the client with an HTTP client as a function of the whole history of events (GET, close), sessions of calls; the verifier is the model of C53 | option folds by induction; exact condition of success; traces by cases and induction over sessions; witness: a domain with a path |
| C145 | `BindingPayload` marshalling, `CreateHolderVerification`, `CreatePresentation` with binding, against the verifier of C17 with the mapstructure decoding of C141; issuer's `cnf` | the decoder run on the holder's claims; exact acceptance condition; corollaries for other challenges and other signers |
| C146 | same model | the code violates it: general theorem that an accepted binding is accepted with any other disclosures or SD-JWT of the same `cnf` (no sd_hash), concrete witness; proved part: other keys |
| C147 | `NewFromVC` with the caller's map after the call, including a signer that fails after the map was written | the code violates it: general theorems that no later call on the map succeeds, witness of lost claims when the signer fails; proved: what is left alone, and that earlier failures change nothing |
| C148 | `ParseCredential` (model of C108) on presentations that differ in the holder binding only | the code violates it: general theorem that the outcome for one binding determines that for every other, and a witness without `cnf`; proved: the binding kept is that of the text, of JWS shape, and the issuer's JWT beside it was checked |
| C55 | reveal index computation | list/index lemmas, negation for unknown statements |
| C64,C65 | provider with handles; small-step RWMutex model | counterexample; invariant over all schedules |
| C59–C63 | stateful evaluation, limit_disclosure, format/schema filters, presentation ids, merged paths | state threading; decision logic; negation witnesses |
| C56–C58 | disclosure filter (with arbitrary map order), map helpers, type/context codecs | round-trip lemmas |
| C66 | `Agrees` = parsing the marshalled object gives the typed contents | preserved by every modification; witnesses for validFrom/validUntil |
| C67 | JWT claim decoding with three outcomes ok / err / panic | classification of the panicking payloads; witnesses |
| C68 | JWT presentation claims refinement | inversion of the parser; witness for holder ≠ signer |
| C69 | two option sets related by `Weaker` | monotonicity of every parser; witness for inputs in two formats |
| C70 | display map = getDisclosedClaims on the filtered disclosures, then clearEmpty | leaf characterisation by induction; witness for nested disclosures |
| C71 | MarshalJSON, raw, ToUniversalForm on parsed presentations and credentials | parse ∘ marshal = id, form by form; `_partial` where signature or custom context is lost, with witnesses |
| C72 | newJWTPresClaims and refineFromJWTClaims | lookup characterisation of both; witness for the panic |
| C73 | nil dereference in refineFromJWTClaims as an explicit panic outcome | exact characterisation of panicking payloads; the property itself is refuted |
| C74 | all parsers of ParsePresentation, newPresentation, validateVP | inversion of the parsers against inductive carrier and member specifications; iff for the part after the parsers |
| C75 | index out of range in validateHash as a crash of the whole configuration | exact characterisation of crashing digests; refuted by a witness; `_partial` without such digests |
