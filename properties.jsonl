{"id": "C01", "title": "Status bit lookup", "statement": "Looking up index i in a decoded status list reports an error exactly when i is negative or i >= 8*len(bytes); otherwise it reports exactly bit number i of the list, bits numbered least-significant-first inside each byte (the order the package documents).", "quantifier": "every byte string and every integer index", "why_tests_cant": "the boundary and the bit numbering must be right for each of unboundedly many (list, index) pairs", "anchors": ["status/internal/bitstring/bitstring.go: BitAt"]}
{"id": "C02", "title": "Status check accepts exactly the clean credentials", "statement": "VerifyStatus returns nil if and only if the credential lists at least one status entry and every entry has a supported type and well-formed fields, its status-list credential resolves, was issued by the same issuer as the credential, decodes, contains the index, and has the bit cleared.", "quantifier": "every credential, every list of status entries, every resolver behaviour and every list content", "why_tests_cant": "the acceptance set is the product of an arbitrary number of entries and arbitrary resolver answers", "anchors": ["status/status.go: Client.VerifyStatus, Client.verifyStatus", "status/validator/validator.go: GetValidator"]}
{"id": "C03", "title": "A revoked entry can never be masked", "statement": "If any status entry of a credential points at a set bit (or cannot be evaluated), VerifyStatus returns an error, whatever the other entries are and in whatever order they come; and it returns 'revoked' / 'suspended' only if some entry with purpose revocation / suspension really has its bit set in a list issued by the credential's issuer.", "quantifier": "every ordering and every multiset of status entries", "why_tests_cant": "needs all positions of the bad entry among arbitrarily many good ones", "anchors": ["status/status.go: Client.VerifyStatus, ErrRevoked, ErrSuspended"]}
{"id": "C04", "title": "Status entry validation", "statement": "A StatusList2021Entry / BitstringStatusListEntry is accepted exactly when its type matches and statusListCredential, statusListIndex and statusPurpose are present, and, for the bitstring type, statusSize is absent, or truncates to 1, or is n>1 with exactly 2^n-1 status messages.", "quantifier": "every JSON status entry", "why_tests_cant": "the entry is an arbitrary JSON object and statusSize an arbitrary number", "anchors": ["status/validator/statuslist2021: ValidateStatus", "status/validator/bitstringstatus: ValidateStatus, checkStatusSize"]}
{"id": "C05", "title": "SD-JWT combined formats round-trip", "statement": "Parsing a serialized combined-format-for-issuance or -presentation returns the SD-JWT, the disclosures in order and the holder verification that were serialized, for any parts that contain no '~'.", "quantifier": "every SD-JWT string, every list of disclosures, every holder verification string", "why_tests_cant": "separator handling at the end of the string depends on the number of parts and on emptiness", "anchors": ["sdjwt/common/common.go: CombinedFormatForIssuance.Serialize, CombinedFormatForPresentation.Serialize, ParseCombinedFormatForIssuance, ParseCombinedFormatForPresentation"]}
{"id": "C06", "title": "Holder discloses exactly what it chose", "statement": "CreatePresentation succeeds only if every chosen disclosure was issued in that SD-JWT, and the result carries the same issuer-signed JWT and exactly the chosen disclosures, so no other disclosure leaves the holder.", "quantifier": "every issued SD-JWT and every choice of disclosures", "why_tests_cant": "privacy must hold for every subset choice", "anchors": ["sdjwt/holder/holder.go: CreatePresentation"]}
{"id": "C07", "title": "Every accepted disclosure is committed to by the signed payload", "statement": "If the verifier accepts a presentation then every disclosure in it hashes to a digest that occurs in the issuer-signed payload, or inside the value of another accepted disclosure reached from it.", "quantifier": "every payload and every list of disclosures, at any nesting depth", "why_tests_cant": "a forged disclosure may hide at any depth of an arbitrary tree", "anchors": ["sdjwt/common/verification.go: VerifyDisclosuresInSDJWT, discloseClaimValue"]}
{"id": "C08", "title": "Disclosure processing always terminates", "statement": "Resolving disclosures terminates on every payload and disclosure list, including disclosures whose values contain their own or each other's digests.", "quantifier": "every payload and disclosure list, including cyclic references", "why_tests_cant": "termination is a statement about all executions", "anchors": ["sdjwt/common/verification.go: discloseClaimValue, setDisclosureClaimValue"]}
{"id": "C09", "title": "No digest is used twice", "statement": "If disclosure processing succeeds then no digest was encountered more than once anywhere in the payload or in the disclosures reached from it.", "quantifier": "every payload and disclosure list", "why_tests_cant": "the duplicates may be arbitrarily far apart", "anchors": ["sdjwt/common/verification.go: discloseClaimValue"]}
{"id": "C10", "title": "A disclosed claim never replaces another claim", "statement": "In the resolved object every claim that was in clear in the signed payload keeps the (resolved) signed value; a disclosure whose name collides with a clear claim or with another disclosure of the same object makes processing fail.", "quantifier": "every object and every set of disclosures", "why_tests_cant": "collision can be with any of arbitrarily many names", "anchors": ["sdjwt/common/verification.go: discloseClaimValue"]}
{"id": "C11", "title": "Disclosure result does not depend on map order", "statement": "Whatever order the runtime iterates over the JSON objects, disclosure processing either fails for every order or succeeds for every order with the same resolved claims (as maps).", "quantifier": "every permutation of every object", "why_tests_cant": "Go randomises map iteration; tests sample a few orders", "anchors": ["sdjwt/common/verification.go: discloseClaimValue"]}
{"id": "C12", "title": "Digests and undisclosed claims do not leak into the processed claims", "statement": "The claims returned to the relying party contain no '_sd' member, no '_sd_alg' member and no array element placeholder at any level that was processed, and every string digest without a matching disclosure is dropped.", "quantifier": "every payload and every subset of disclosures", "why_tests_cant": "holds at all depths of an arbitrary tree", "anchors": ["sdjwt/common/common.go: GetDisclosedClaims", "sdjwt/common/verification.go: discloseClaimValue"]}
{"id": "C13", "title": "Issue / disclose / verify round trip", "statement": "For claims issued with the default SD-JWT version, a presentation with a subset of the disclosures resolves to exactly the original claims restricted to the disclosed ones and the always-visible ones; disclosing everything gives back the original claims.", "quantifier": "every claim object (structured or flat), every set of always-visible names, every subset of disclosures, every salt and decoy choice", "why_tests_cant": "quantifies over all claim trees and all subsets", "anchors": ["sdjwt/issuer/v2.go", "sdjwt/issuer/issuer.go: New", "sdjwt/verifier/verifier.go: Parse"]}
{"id": "C14", "title": "Issued SD-JWTs can be parsed by the holder whatever the options", "statement": "An SD-JWT produced by the issuer can be parsed by the holder for both SD-JWT versions, with or without decoy digests.", "quantifier": "every claims object, both versions, any number of decoys", "why_tests_cant": "decoys are random", "anchors": ["sdjwt/issuer/v5.go", "sdjwt/issuer/v2.go", "sdjwt/holder/holder.go: Parse"]}
{"id": "C15", "title": "Issuer refuses claims named _sd", "statement": "Issuance fails whenever the input claims contain a '_sd' key in any (possibly nested) object reachable through objects.", "quantifier": "every claims tree", "why_tests_cant": "nesting depth is unbounded", "anchors": ["sdjwt/issuer/issuer.go: New", "sdjwt/common/common.go: KeyExistsInMap"]}
{"id": "C16", "title": "Only allowed signature algorithms, never 'none'", "statement": "An SD-JWT or key-binding JWT is accepted only if its alg header is present, is not 'none' and is on the caller's (or default) allow list.", "quantifier": "every header and every allow list", "why_tests_cant": "alg is an arbitrary attacker-chosen string", "anchors": ["sdjwt/common/verification.go: VerifySigningAlg", "sdjwt/verifier/verifier.go: Parse"]}
{"id": "C17", "title": "Holder verification policy", "statement": "When holder verification is required the verifier rejects presentations without one; when one is present it must be signed by the key in cnf, use an allowed alg, be inside its validity window and match the expected nonce and audience whenever those are given.", "quantifier": "every presentation and every verifier configuration", "why_tests_cant": "combination of optional policy knobs with arbitrary tokens", "anchors": ["sdjwt/verifier/verifier.go: runHolderVerification, verifyHolderVerificationJWT"]}
{"id": "C18", "title": "Duplicate disclosures are rejected", "statement": "The verifier rejects every presentation that lists the same disclosure twice.", "quantifier": "every disclosure list", "why_tests_cant": "pairs at arbitrary positions", "anchors": ["sdjwt/verifier/verifier.go: checkForDuplicates"]}
{"id": "C19", "title": "Submission requirement semantics", "statement": "A set of descriptors satisfies a submission requirement exactly when the declarative reading of rule/count/min/max/from/from_nested holds: the number of satisfied children (or of group members in the set) equals count, is at least min and at most max, for each bound that is given.", "quantifier": "every requirement tree and every set of descriptor IDs", "why_tests_cant": "trees are of unbounded depth and width", "anchors": ["presexch/internal/requirementlogic/requirementlogic.go: IsSatisfiedBy, isLenApplicable"]}
{"id": "C20", "title": "Solution iterator is exhaustive and duplicate free", "statement": "Without exclusions the iterator yields every non-empty descriptor subset that satisfies the requirement exactly once and then stops.", "quantifier": "every requirement tree", "why_tests_cant": "the enumeration is exponential in the number of descriptors", "anchors": ["presexch/internal/requirementlogic/requirementlogic.go: NewBitsetIterator, Next"]}
{"id": "C21", "title": "Excluding descriptors never loses or resurrects a solution", "statement": "After the caller reports descriptors as unsatisfiable, the iterator never again yields a set containing one of them, and still yields every not-yet-yielded satisfying set that avoids all excluded descriptors.", "quantifier": "every sequence of Next calls with arbitrary exclusions", "why_tests_cant": "all histories of exclusions", "anchors": ["presexch/internal/requirementlogic/requirementlogic.go: Next, excludeDescriptors"]}
{"id": "C22", "title": "Submission matching finds a solution iff one exists", "statement": "Matching credentials against submission requirements returns a set of descriptors that satisfies the requirement with each descriptor fulfilled by at least one credential, whenever such a non-empty set exists, and otherwise reports failure.", "quantifier": "every requirement tree and every descriptor/credential matching relation", "why_tests_cant": "search is exponential and interacts with exclusion", "anchors": ["presexch/definition.go: applyRequirement"]}
{"id": "C23", "title": "Presentation submission paths point at the credential that matched", "statement": "In the created verifiable presentation, each descriptor map entry's path refers to a credential that matched that input descriptor.", "quantifier": "every definition and every credential list (including credentials without id or with equal ids)", "why_tests_cant": "depends on identity collisions between arbitrary credentials", "anchors": ["presexch/definition.go: merge"]}
{"id": "C24", "title": "Match accepts only complete submissions", "statement": "When Match succeeds, every input descriptor of the definition is mapped to a credential that came from the presentation and passes that descriptor's schema and constraints.", "quantifier": "every definition, submission and presentation", "why_tests_cant": "arbitrary attacker-supplied descriptor maps", "anchors": ["presexch/api.go: Match, getMatchedCreds, evalSubmissionRequirements"]}
{"id": "C25", "title": "Constraint evaluation semantics", "statement": "A credential passes a descriptor's constraints exactly when every required field has some path whose value exists and passes the field's filter (optional fields may be missing), plus the subject-is-issuer rule.", "quantifier": "every constraint list and every credential", "why_tests_cant": "arbitrary lists of fields and paths", "anchors": ["presexch/definition.go: filterConstraints, filterField"]}
{"id": "C26", "title": "Combination enumerator is exact", "statement": "The m-combinations-of-n helper returns each m-element subset of {0..n-1} exactly once.", "quantifier": "every n and m", "why_tests_cant": "n and m unbounded", "anchors": ["presexch/internal/requirementlogic/combinatorics.go: getMCombinationsOfN"]}
{"id": "C27", "title": "In-memory store behaves as a map", "statement": "After any sequence of Put, Delete and Batch calls, Get(k) returns the value of the last successful write of k, and ErrDataNotFound if there was none or it was deleted; failed calls change nothing.", "quantifier": "every history of operations", "why_tests_cant": "all histories", "anchors": ["legacy/mem/mem.go: memStore.Put, Get, Delete, Batch"]}
{"id": "C28", "title": "Batch is all-or-nothing", "statement": "Batch either applies all its operations in order or, when any key is empty, none of them.", "quantifier": "every batch and every store state", "why_tests_cant": "position of the invalid operation is arbitrary", "anchors": ["legacy/mem/mem.go: memStore.Batch"]}
{"id": "C29", "title": "Query returns exactly the matching entries", "statement": "Query on an expression of tag name / name:value criteria joined by && returns exactly the keys whose tags meet all criteria.", "quantifier": "every store content and every expression", "why_tests_cant": "arbitrary contents; repeated tag names", "anchors": ["legacy/mem/mem.go: memStore.Query"]}
{"id": "C30", "title": "Iterator yields every result once", "statement": "Iterating a query result with Next yields every result exactly once and then false forever.", "quantifier": "every result list and call sequence", "why_tests_cant": "all call histories", "anchors": ["legacy/mem/mem.go: memIterator"]}
{"id": "C31", "title": "Stores are isolated and names case-insensitive", "statement": "OpenStore with names equal up to case gives the same store; operations on one store never change another.", "quantifier": "every history over several stores", "why_tests_cant": "all interleavings", "anchors": ["legacy/mem/mem.go: Provider.OpenStore, Close"]}
{"id": "C32", "title": "JWT header policy", "statement": "A JWT is accepted for proof checking only if alg is present, typ (if present) denotes a JWT type and cty is not JWT.", "quantifier": "every header object", "why_tests_cant": "arbitrary attacker-controlled header values", "anchors": ["jwt/jwt.go: CheckHeaders, checkTypHeader"]}
{"id": "C33", "title": "JWT proof success means a real signature by the issuer's key", "statement": "CheckJWTProof / CheckCWTProof (by key id) / CheckLDProof succeed only if the named key is a verification method (other than key agreement) of the expected issuer's DID document, its type and curve are among those the algorithm supports, and the cryptographic verifier registered for that key type accepted the signature over the message.", "quantifier": "every header, DID document, key and signature", "why_tests_cant": "algorithm-confusion attacks range over all alg/key combinations", "anchors": ["proof/checker/checker.go: CheckJWTProof, CheckLDProof, CheckCWTProof, convertToPublicKey", "vermethod/vdrkeyresolver.go"]}
{"id": "C34", "title": "Default algorithm table binds each algorithm to its key type", "statement": "With the default proof checker, each JWT alg is only ever verified with keys of the matching type and curve (EdDSA/Ed25519, ES256/P-256, ES256K/secp256k1, ES384/P-384, ES521/P-521, RS256 and PS256/RSA) by the matching verifier; any other alg string is rejected.", "quantifier": "every alg string and every verification method", "why_tests_cant": "alg strings and key descriptions are arbitrary", "anchors": ["proof/defaults/all.go", "proof/jwtproofs/*", "proof/checker/checker.go: getSignatureVerifier"]}
{"id": "C35", "title": "kid / issuer binding of JWTs", "statement": "When the issuer is checked, the key that verifies a JWT is resolved under the iss claim; otherwise under the DID part of kid; a missing kid or (when required) iss is an error.", "quantifier": "every token", "why_tests_cant": "arbitrary kid and iss strings", "anchors": ["jwt/jwt.go: ParseAndCheckProof, CheckProof", "jwt/jose_wrappers.go"]}
{"id": "C36", "title": "Parsing with proof check on never returns an unverified credential", "statement": "If ParseCredential returns a credential with proof checking enabled, the JWT, CWT or embedded proof was verified under the credential's issuer (JWT, CWT, linked-data proofs).", "quantifier": "every input byte string in every format and every option set", "why_tests_cant": "dispatch over formats and fallbacks for arbitrary inputs", "anchors": ["verifiable/credential.go: ParseCredential, parseCredential, checkProof", "verifiable/embedded_proof.go: checkEmbeddedProof"]}
{"id": "C37", "title": "Data-integrity proofs are bound to the issuer", "statement": "A credential secured by a data-integrity proof is accepted only if the proof's key belongs to the credential's issuer.", "quantifier": "every credential with a data-integrity proof", "why_tests_cant": "verification method is attacker controlled", "anchors": ["verifiable/embedded_proof.go: checkEmbeddedProof", "verifiable/data_integrity_proof.go: checkDataIntegrityProof"]}
{"id": "C38", "title": "Presentation proofs and embedded credentials are verified", "statement": "If ParsePresentation succeeds with proof checking enabled, the presentation's own proof and the proof of every embedded credential were verified.", "quantifier": "every presentation in every format", "why_tests_cant": "arbitrary mixes of embedded credential formats", "anchors": ["verifiable/presentation_parser.go", "verifiable/presentation.go: ParsePresentation, decodeCredentials"]}
{"id": "C39", "title": "Disabling validation or proof check only widens acceptance", "statement": "Options that disable a check never turn an accepted input into a rejected one and never change the returned credential.", "quantifier": "every input and option set", "why_tests_cant": "monotonicity over all inputs", "anchors": ["verifiable/credential.go: parseCredential, credentialOpts"]}
{"id": "C40", "title": "JWT claims round trip", "statement": "Converting a credential to JWT claims (minimized or not) and back restores issuer, id, issuance and expiration dates (other than the zero time) to the second and leaves all other fields unchanged.", "quantifier": "every credential", "why_tests_cant": "arbitrary JSON contents and dates", "anchors": ["verifiable/credential_jwt.go: newJWTCredClaims, refineFromJWTClaims"]}
{"id": "C41", "title": "Signed registered claims win over the vc claim", "statement": "After decoding a JWT credential, its issuer id, id and dates equal the signed iss, jti, iat/nbf and exp claims when those are present, and decoding fails if iss and vc.issuer are different DIDs.", "quantifier": "every JWT payload", "why_tests_cant": "arbitrary disagreement between two places", "anchors": ["verifiable/credential_jwt.go: refineFromJWTClaims, refineVCIssuerFromJWTClaims"]}
{"id": "C42", "title": "Credential contents round trip", "statement": "Serializing parsed credential contents and parsing again gives the same contents, with unknown fields kept as custom fields.", "quantifier": "every credential contents value", "why_tests_cant": "arbitrary contents", "anchors": ["verifiable/credential.go: parseCredentialContents, serializeCredentialContents"]}
{"id": "C43", "title": "Modified copies drop proofs and change only the named field", "statement": "Each WithModified* operation returns a credential without proofs and envelope whose JSON differs from the original only in the named field, and leaves the original unchanged.", "quantifier": "every credential and every new value", "why_tests_cant": "arbitrary contents", "anchors": ["verifiable/credential.go: WithModified*"]}
{"id": "C44", "title": "Data URLs round trip", "statement": "ParseDataURL(NewDataURL(m,e,d)) = (m,e,d) whenever m is non-empty and without ',' or ';' and e without ','; anything not starting with data: or without ',' is rejected.", "quantifier": "every media type, encoding and data string", "why_tests_cant": "separators may occur anywhere in the data", "anchors": ["verifiable/common.go: NewDataURL, ParseDataURL"]}
{"id": "C45", "title": "Schema cache never serves stale entries", "statement": "ExpirableSchemaCache.Get returns only bytes that were Put under the same key less than the configured expiration ago.", "quantifier": "every history of Put/Get with any clock", "why_tests_cant": "all histories and times", "anchors": ["verifiable/credential.go: ExpirableSchemaCache"]}
{"id": "C46", "title": "Issuer and subject JSON round trip", "statement": "Issuer and Subject values survive ToJSON/FromJSON, single and multiple.", "quantifier": "every issuer and subject value", "why_tests_cant": "arbitrary custom fields", "anchors": ["verifiable/credential.go: IssuerToJSON, IssuerFromJSON, SubjectToJSON, SubjectFromJSON"]}
{"id": "C47", "title": "Holder check for self-asserted credentials", "statement": "With the holder check on, a presentation whose proof key controller also secures an enclosed credential is accepted only if holder equals that credential's issuer (when all credentials share one subject).", "quantifier": "every presentation", "why_tests_cant": "arbitrary sets of proofs and credentials", "anchors": ["verifiable/presentation.go: validateHolder"]}
{"id": "C48", "title": "Data-integrity verification policy", "statement": "VerifyProof with a single proof succeeds only if the proof is a DataIntegrityProof with a supported suite, unexpired, with the expected purpose, domain and challenge, and its signature verifies under the verification method it names, authorised for that purpose in its controller's DID document.", "quantifier": "every document, proof and option set", "why_tests_cant": "arbitrary attacker-controlled proof fields", "anchors": ["dataintegrity/verifier.go: VerifyProof, verifyProof", "dataintegrity/signer.go: resolveVM, getVMByPurpose"]}
{"id": "C49", "title": "Documents without a proof never verify", "statement": "VerifyProof fails on every document that carries no data-integrity proof, including an empty proof list or null proof.", "quantifier": "every document", "why_tests_cant": "proof member can be any JSON value", "anchors": ["dataintegrity/verifier.go: VerifyProof"]}
{"id": "C50", "title": "Every proof of a proof set is verified under its own key", "statement": "When a document has several data-integrity proofs each is verified with the verification method that proof names.", "quantifier": "every proof set", "why_tests_cant": "any number of proofs", "anchors": ["dataintegrity/verifier.go: VerifyProof, verifyProof", "dataintegrity/signer.go: resolveVM"]}
{"id": "C51", "title": "Data-integrity sign / verify round trip", "statement": "A document signed by AddProof verifies under the same suite, purpose, domain and challenge.", "quantifier": "every document, suite, key and option set", "why_tests_cant": "arbitrary documents and options", "anchors": ["dataintegrity/signer.go: AddProof", "dataintegrity/suite/eddsa2022", "dataintegrity/suite/ecdsa2019"]}
{"id": "C52", "title": "Related resource integrity", "statement": "Validate succeeds exactly when each related resource of each credential is fetched and its digest equals the declared one; the verdict is the same for every goroutine schedule.", "quantifier": "every credential list, resource content and schedule", "why_tests_cant": "all schedules", "anchors": ["verifiable/related_resource.go: Validate, validateSingleResource, validateHash"]}
{"id": "C53", "title": "Domain linkage verification", "statement": "VerifyDIDAndDomain succeeds only if the configuration has only the allowed properties and some linked credential is a domain linkage credential for that DID and origin, issued by the DID, with a valid proof.", "quantifier": "every configuration document", "why_tests_cant": "arbitrary lists of linked credentials", "anchors": ["didconfig/verifier/didconfig.go: VerifyDIDAndDomain"]}
{"id": "C54", "title": "Identity hub responses", "statement": "GetMessageData returns the decoded data of the first entry whose objectId equals the requested one up to case and fails if there is none; CheckStatus is nil exactly when every status is 200.", "quantifier": "every response", "why_tests_cant": "arbitrary lists", "anchors": ["status/internal/identityhub/identityhub.go"]}
{"id": "C55", "title": "BBS+ derived proof reveals exactly the requested statements", "statement": "The reveal indexes handed to the BBS+ proof derivation are exactly the positions of all proof statements and of the document statements selected by the reveal document.", "quantifier": "every document and reveal document", "why_tests_cant": "arbitrary statement lists", "anchors": ["verifiable/bbs_selective_disclosure.go: buildDocVerificationData, buildVerificationData"]}
{"id": "C56", "title": "Disclosure filtering of SD-JWT credentials", "statement": "MarshalWithDisclosure discloses only disclosures with a requested name, all required names or an error, and all of them for DiscloseAll.", "quantifier": "every disclosure list and option set", "why_tests_cant": "arbitrary name lists and duplicates", "anchors": ["verifiable/credential_sdjwt.go: filterDisclosures, filteredDisclosureCodes"]}
{"id": "C57", "title": "Custom fields never override declared fields", "statement": "MergeCustomFields and the marshal helpers keep every declared field; custom fields only add keys that are absent.", "quantifier": "every pair of objects", "why_tests_cant": "arbitrary key sets", "anchors": ["util/json/json.go: MergeCustomFields, SplitJSONObj, CopyExcept, Select"]}
{"id": "C58", "title": "Type and context decoding", "statement": "decodeType/decodeContext accept a string or an array and preserve order; serializing and decoding gives the value back; string contexts stop at the first non-string element and nothing is lost.", "quantifier": "every JSON value", "why_tests_cant": "arbitrary arrays", "anchors": ["verifiable/common.go: decodeType, decodeContext", "verifiable/credential.go: contextToRaw, serializeTypes"]}
{"id": "C59", "title": "Matching leaves the caller's credentials alone", "statement": "Solving a presentation definition (creating a presentation) does not change the caller's credentials, and its outcome does not depend on earlier evaluations made inside the same call.", "quantifier": "every definition and credential list", "why_tests_cant": "mutation through shared pointers shows only for definitions that evaluate one credential twice", "anchors": ["presexch/definition.go: applyRequirement, filterConstraints, getLimitedDisclosures", "verifiable/credential.go: SetSDJWTDisclosures"]}
{"id": "C60", "title": "Limited disclosure is enforced", "statement": "When an input descriptor requires limit_disclosure, every credential in the result reveals only what the descriptor's fields ask for: a plain credential without a selective-disclosure proof is never passed through in full.", "quantifier": "every descriptor, credential, format", "why_tests_cant": "arbitrary field sets and credential formats", "anchors": ["presexch/definition.go: filterConstraints, createNewCredential, supportsSelectiveDisclosure, getLimitedDisclosures"]}
{"id": "C61", "title": "Format and schema matching is exact", "statement": "A credential passes an input descriptor's format (schema) filter exactly when its signature/proof algorithm (its contexts and types) is among those the descriptor allows; required schemas are all needed.", "quantifier": "every descriptor and credential", "why_tests_cant": "arbitrary combinations of formats, algorithms and schema entries", "anchors": ["presexch/definition.go: filterFormat, filterSchema, credMatchSchema, filterLDPVC, credFilteredByProof"]}
{"id": "C62", "title": "A matched credential names the presentation that holds it", "statement": "In the result of Match, the PresentationID of every matched credential is the id of the presentation that carries the credential.", "quantifier": "every list of presentations", "why_tests_cant": "needs several presentations with non-trivial descriptor maps", "anchors": ["presexch/api.go: Match, getMatchedCreds, selectVC"]}
{"id": "C63", "title": "Merged submissions are split back to the right presentation", "statement": "The descriptor paths a holder writes when creating several presentations are attributed by the verifier to the presentation of the same index.", "quantifier": "every index and path", "why_tests_cant": "every index, in every decimal length", "anchors": ["presexch/definition.go: CreateVPArray, merge, getPath", "presexch/api.go: descriptorsByPresentationIndex, presentationIndex, rootIndex"]}
{"id": "C64", "title": "Closing a store affects that store only", "statement": "Closing a store handle closes that store; other stores, in particular one opened later under the same name, stay open with their data.", "quantifier": "every history of OpenStore/Close calls", "why_tests_cant": "needs a stale handle and a reopened store", "anchors": ["legacy/mem/mem.go: memStore.Close, Provider.removeStore"]}
{"id": "C65", "title": "The in-memory store is linearizable", "statement": "Under any interleaving of concurrent Put, Delete, Batch, Get, GetTags and GetBulk calls the results are those of some sequential order of the calls consistent with real time; no reader sees part of a batch.", "quantifier": "every number of threads and every schedule", "why_tests_cant": "schedules cannot be enumerated by tests", "anchors": ["legacy/mem/mem.go: memStore (RWMutex sections)"]}
{"id": "C66", "title": "Typed contents and JSON of a credential agree", "statement": "For a credential made by CreateCredential or by any WithModified* call, parsing the JSON it marshals to gives exactly the typed contents that Contents() reports.", "quantifier": "every credential, every new value, any number of modifications", "why_tests_cant": "arbitrary contents and any sequence of modifications", "anchors": ["verifiable/credential.go: CreateCredential, WithModified*, Contents, ToRawJSON"]}
{"id": "C67", "title": "Parsing untrusted credentials never panics", "statement": "Decoding a JWT credential whose payload is any JSON object returns a credential or an error; it never panics.", "quantifier": "every JSON payload", "why_tests_cant": "arbitrary untrusted input", "anchors": ["verifiable/credential_jwt.go: refineFromJWTClaims, UnmarshalJSON", "verifiable/jws.go: unmarshalJWT"]}
{"id": "C68", "title": "The holder of a JWT presentation is its signer", "statement": "If ParsePresentation succeeds on a JWS presentation with proof checking on, the returned holder and id are the signed iss and jti claims and the key that signed belongs to the holder.", "quantifier": "every JWS presentation, key set and option set", "why_tests_cant": "ranges over all payloads and header/claim combinations", "anchors": ["verifiable/presentation_jwt.go: refineFromJWTClaims", "verifiable/presentation_jws.go: decodeVPFromJWS"]}
{"id": "C69", "title": "Relaxing presentation options never changes an accepted result", "statement": "If ParsePresentation accepts an input, it accepts it with the same result under any option set that checks less (proof check, JSON-LD check, holder check, related resources, required VC, required proof).", "quantifier": "every input and every pair of option sets", "why_tests_cant": "three parsers tried in turn, each of which may succeed under weaker options", "anchors": ["verifiable/presentation.go: ParsePresentation", "verifiable/presentation_parser.go"]}
{"id": "C70", "title": "A display credential shows only selected disclosures", "statement": "CreateDisplayCredentialMap with DisplayGivenDisclosures shows exactly the undisclosed claims plus the claims whose disclosure has a given name; empty objects are dropped from the subject and nothing else is.", "quantifier": "every SD-JWT credential, disclosure set and name list", "why_tests_cant": "arbitrary nesting of disclosures and of empty objects", "anchors": ["verifiable/credential_sdjwt.go: CreateDisplayCredentialMap, filterDisclosureList, clearEmpty"]}
{"id": "C71", "title": "A marshalled presentation reads back the same", "statement": "If ParsePresentation accepted a text, marshalling the result with MarshalJSON gives a text from which ParsePresentation, with the same options, reads the same presentation: same context, id, types, holder, proofs, custom fields and enclosed credentials, and the same JWT or COSE message with its signature.", "quantifier": "every accepted input, option set and enclosed credential list", "why_tests_cant": "each presentation form nests every credential form; a lost field or signature shows only for particular combinations", "anchors": ["verifiable/presentation.go: MarshalJSON, raw, marshalEnveloped", "verifiable/credential.go: ToUniversalForm, toEnvelopedForm, ToRawJSON"]}
{"id": "C72", "title": "JWT claims of a presentation give the presentation back", "statement": "The claims JWTClaims makes from a presentation, minimized or not, signed and read as a JWT presentation, give the original document: holder and id come back from iss and jti, and every other member is unchanged.", "quantifier": "every presentation, audience list and both settings of minimizeVP", "why_tests_cant": "holds for arbitrary member sets and custom fields", "anchors": ["verifiable/presentation_jwt.go: newJWTPresClaims, refineFromJWTClaims", "verifiable/presentation.go: raw"]}
{"id": "C73", "title": "Parsing a presentation never panics", "statement": "ParsePresentation returns a presentation or an error for every input.", "quantifier": "every input byte string and option set", "why_tests_cant": "adversarial input; only particular shapes of payload reach a nil pointer", "anchors": ["verifiable/presentation_jwt.go: refineFromJWTClaims", "verifiable/presentation_jwt_unsecured.go", "verifiable/presentation.go: ParsePresentation"]}
{"id": "C74", "title": "A parsed presentation mirrors its document", "statement": "Every presentation ParsePresentation returns has exactly the context, id, types, holder, proofs and number of credentials of a presentation document that the input carries (as JSON, JWS, unsecured JWT or COSE message, directly or in an envelope), all other members are its custom fields, and that document passed the JSON schema of its own data model version and the JSON-LD check the options ask for.", "quantifier": "every accepted input and option set", "why_tests_cant": "three parsers and four carriers; any member may have any JSON shape", "anchors": ["verifiable/presentation.go: ParsePresentation, newPresentation, decodeHolder, validateVP, validateVPJSONSchema", "verifiable/presentation_parser.go"]}
{"id": "C75", "title": "Validating related resources never crashes the process", "statement": "Validate returns for every list of credentials, whatever digests they declare and whatever the servers answer.", "quantifier": "every declared digest, server behaviour and goroutine schedule", "why_tests_cant": "adversarial digests; a panic in a goroutine cannot be recovered by the caller", "anchors": ["verifiable/related_resource.go: Validate, validateHash"]}
{"id": "C76", "title": "Domain linkage verification never crashes", "statement": "VerifyDIDAndDomain returns nil or an error for every configuration document, DID and domain; it never panics.", "quantifier": "every configuration document, DID, domain and checker", "why_tests_cant": "the document comes from a remote web server and may be anything", "anchors": ["didconfig/verifier/didconfig.go: VerifyDIDAndDomain, getCredentials"]}
{"id": "C77", "title": "Domain linkage JWT claims are the DID's", "statement": "If VerifyDIDAndDomain accepts because of a JWT entry, the signed iss and sub claims of that JWT equal the DID.", "quantifier": "every configuration document with JWT entries", "why_tests_cant": "arbitrary payloads", "anchors": ["didconfig/verifier/didconfig.go: validateJWT, validateJWTClaims", "verifiable/credential_jwt.go: newJWTCredClaims"]}
{"id": "C78", "title": "The deriver reveals what the derived-proof verifier reads", "statement": "When a BBS+ proof is derived and every statement of the reveal document stands in the signed document, the messages revealed (in index order) are exactly the messages that the verifier of the derived proof makes out of the canonical proof options and the canonical reveal document, including blank node names.", "quantifier": "all documents, reveal documents, proof options, and canonical forms", "why_tests_cant": "index arithmetic and line splitting must agree for every number and content of statements", "anchors": ["verifiable/bbs_selective_disclosure.go:buildVerificationData", "verifiable/bbs_selective_disclosure.go:buildDocVerificationData", "crypto-ext/verifiers/bbs/verifier.go:splitMessageIntoLines"]}
{"id": "C79", "title": "Blank node names are restored before verifying a derived BBS+ proof", "statement": "The verifier of a derived BBS+ proof turns every placeholder <urn:bnid:_:c14nN> in a statement back into _:c14nN and changes nothing else.", "quantifier": "all statement rows", "why_tests_cant": "rows with any number of placeholders at any place; the tests use one", "anchors": ["crypto-ext/verifiers/bbs/verifier.go:transformFromBlankNode"]}
{"id": "C80", "title": "An SD-JWT made of a credential hides exactly the selected subject claims and keeps the rest", "statement": "An SD-JWT created from the claims of a credential signs every other claim as given, moves the hash algorithm and holder key next to the subject, and makes the subject selectively disclosable as the options say; for every choice of disclosures a relying party accepts it and sees the other claims and, of the subject, exactly the claims in clear and those disclosed; with all disclosures it sees the credential.", "quantifier": "all credential claims, options, salts, shuffles and choices of disclosures", "why_tests_cant": "nested objects of any shape and every subset of disclosures", "anchors": ["sdjwt/issuer/issuer.go:NewFromVC", "sdjwt/issuer/v2.go:ExtractCredentialClaims", "sdjwt/issuer/v5.go:ExtractCredentialClaims"]}
{"id": "C81", "title": "The SD-JWT of a credential always shows the subject id and hides unlisted claims", "statement": "In the SD-JWT a credential is turned into, the subject's id and every scalar subject claim that the caller listed as not selectively disclosable is visible whatever the holder discloses; every other scalar claim of the subject has a disclosure of its own and is invisible without it.", "quantifier": "both SD-JWT versions, all credentials, lists of names, and choices of disclosures", "why_tests_cant": "every subset of disclosures of every subject", "anchors": ["verifiable/credential_sdjwt.go:makeSDJWT", "sdjwt/issuer/issuer.go:NewFromVC"]}
{"id": "C82", "title": "Every linked data proof on a document is checked", "statement": "A document with linked data proofs is accepted only if its proofs can be read and every one of them is good: the suite of its own type makes a message of the document as it stands and of the proof, its key id resolves to a key of the expected issuer (of the DID named in the key id if none is expected), and the signature verifies under that key with an algorithm the suite allows for it.", "quantifier": "all documents, numbers of proofs, checkers, suites and resolvers", "why_tests_cant": "any number of proofs and every combination of suites, keys and representations", "anchors": ["verifiable/lddocument/verifier.go:VerifyObject", "proof/checker/checker.go:CheckLDProof"]}
{"id": "C83", "title": "Signing a document adds exactly one proof and changes nothing else", "statement": "Signing a document with a linked data proof adds one proof, at the end, with the fields of the signing context (purpose assertionMethod and the current time by default) and the signature of the creator's suite of that type over the document and the proof; every other member and every earlier proof stays; a key type the suite does not support is refused.", "quantifier": "all documents, contexts, creators", "why_tests_cant": "all documents and contexts", "anchors": ["verifiable/lddocument/signer.go:signObject", "proof/creator/creator.go:SignLinkedDocument", "proof/creator/creator.go:LDPJWTAlg"]}
{"id": "C84", "title": "What a proof creator signs a matching proof checker accepts", "statement": "A document, JWT or CWT signed by a proof creator is accepted by a proof checker with the same suite or algorithm, if the key id resolves to a key that verifies what the creator's signer signs.", "quantifier": "all documents, messages, creators, checkers and keys", "why_tests_cant": "all documents and key types", "anchors": ["proof/creator/creator.go:SignJWT", "proof/creator/creator.go:SignCWT", "proof/creator/creator.go:CreateJWTHeaders", "verifiable/lddocument/signer.go:Sign", "verifiable/lddocument/verifier.go:VerifyObject", "proof/checker/checker.go:CheckJWTProof", "proof/checker/checker.go:CheckCWTProof"]}
{"id": "C85", "title": "The algorithm chosen for a key is the one the default checker uses for it", "statement": "For every key type, the JWS algorithm name and the COSE algorithm that credentials are signed under are those of the entry of the default proof checker that accepts keys of that type, and a key type without entry is refused; both choices lead to the same entry.", "quantifier": "all key types, including unknown ones", "why_tests_cant": "agreement of three tables for every key type", "anchors": ["verifiable/common.go:KeyTypeToJWSAlgo", "verifiable/common.go:KeyTypeToCWSAlgo", "verifiable/common.go:Name", "proof/defaults/all.go"]}
{"id": "C86", "title": "Adding a proof to a credential or presentation keeps its other proofs", "statement": "Adding a linked data proof or a Data Integrity proof to a credential or presentation keeps its earlier proofs, adds one, changes nothing else, and leaves it unchanged on failure; written afterwards, it is accepted by a checker that accepts the earlier proofs and what the creator signs.", "quantifier": "all credentials, presentations, numbers of proofs and sequences of additions", "why_tests_cant": "any number of earlier proofs and any history of additions", "anchors": ["verifiable/credential_ldp.go:AddLinkedDataProof", "verifiable/credential_ldp.go:ResetProofs", "verifiable/presentation_ldp.go:AddLinkedDataProof", "verifiable/data_integrity_proof.go:AddDataIntegrityProof", "verifiable/linked_data_proof.go:addLinkedDataProof", "verifiable/did_data_integrity.go:AddDIDDataIntegrityProof"]}
{"id": "C87", "title": "A verified DID document is signed by its own DID", "statement": "A DID document whose proof is verified has a proof, every proof is good for the document, and each is made with a key of the DID the document describes.", "quantifier": "all DID documents, checkers and resolvers", "why_tests_cant": "all documents and signers", "anchors": ["verifiable/did_ldp.go:VerifyDIDProof", "verifiable/embedded_proof.go:checkEmbeddedProof"]}
{"id": "C88", "title": "The bytes signed for a COSE message are its Sig_structure and nothing else", "statement": "The bytes signed and verified for a CWT are the RFC 9052 Sig_structure of the message: the text Signature1, the protected header as a byte string in shortest form, empty external data and the payload; a protected header in any longer encoding is first rewritten to the shortest form, anything else is refused without a crash; and two messages have the same signed bytes only if they have the same payload and the same protected header bytes.", "quantifier": "all protected headers (well formed or not) and all payloads below 2^64 bytes", "why_tests_cant": "all byte strings, all lengths and all four length encodings", "anchors": ["verifiable/cwt/cwt.go:GetProofValue", "verifiable/cwt/cwt.go:deterministicBinaryString"]}
{"id": "C89", "title": "Reading CBOR claims into JSON objects is faithful and deterministic", "statement": "Converting decoded CBOR claims into string-keyed maps keeps every value, at every depth, under the printed form of its key and adds nothing; a JSON object written to CBOR and converted is that object; the result does not depend on the order in which Go visits maps.", "quantifier": "all decoded values, nested to any depth, and all map iteration orders", "why_tests_cant": "all values and all iteration orders", "anchors": ["verifiable/credential_parser.go:convertToStringMap", "verifiable/credential_parser.go:convertElement"]}
{"id": "C90", "title": "What is issued as a COSE message is read back as the same credential or presentation", "statement": "Issuing a credential or presentation as a COSE message changes nothing of it, puts its claims in the payload and signs the message; parsing the message gives back a credential with the same contents and JSON, or the same presentation, and the proof check accepts it if the checker accepts what the signer signs; issuing never crashes.", "quantifier": "all credentials, presentations, claims, signers, checkers and options", "why_tests_cant": "all contents and custom fields", "anchors": ["verifiable/credential.go:CreateSignedCOSEVC", "verifiable/credential_cwt.go:newCWTCredClaims", "verifiable/cose.go:marshalCOSE", "verifiable/presentation_cwt.go:CreateCWTVP", "verifiable/credential_parser.go:CredentialCBORParser", "verifiable/presentation_parser.go:PresentationCWTParser"]}
{"id": "C91", "title": "ParseAndCheckProof binds a CWT to its issuer", "statement": "A CWT is accepted by ParseAndCheckProof exactly if it parses, has a COSE_Key header and an algorithm and the checker accepts its signature over the message; with checkIssuer and the library's checker, the signing key is a key of the DID in its iss claim; messages made by the library are accepted.", "quantifier": "all messages, payloads, checkers and resolvers", "why_tests_cant": "all messages and key holders", "anchors": ["cwt/cwt.go:ParseAndCheckProof", "cwt/cwt.go:CheckProof", "cwt/wrappers.go:Verify"]}
{"id": "C92", "title": "Tokens are what they claim to be and read back by ParseAndCheckProof", "statement": "NewSigned returns a token with exactly the given claims and with the given headers on top of the signer's, and its compact serialization is a JWS of these whose signature is the signer's over the text before the last dot; ParseAndCheckProof, given that text or the detached text with the payload, returns the same headers and claims if the checker accepts what the signer signs. NewUnsecured makes a token with alg none and no signature, and ParseAndCheckProof with the default checker never accepts it, nor any other token with alg none.", "quantifier": "all claims, headers, signers, checkers, issuers and key tables", "why_tests_cant": "all claims, headers, keys and both serializations", "anchors": ["jwt/jwt.go:NewSigned", "jwt/jwt.go:NewUnsecured", "jwt/jwt.go:NewJoseSigned", "jwt/jwt.go:Serialize", "jwt/jwt.go:LookupStringHeader", "jwt/jose_wrappers.go:NewJOSESigner"]}
{"id": "C93", "title": "A credential issued as a signed JWT is parsed back as the same credential with a valid proof", "statement": "CreateSignedJWTVC changes nothing of the credential and puts a compact JWS of its claims in the envelope: issuer, subject, dates and id as registered claims and the credential under vc, minimized or not. ParseCredential on that JWT, with the checker of the signer's key, returns a credential with the same contents (dates to the second), the same further members and the JWT as its envelope. Issuing crashes exactly for one identified subject without issuer.", "quantifier": "all credential contents and custom fields, minimized or not, all signers, checkers, algorithms and parse options without extended contexts", "why_tests_cant": "all contents, options and keys", "anchors": ["verifiable/credential.go:CreateSignedJWTVC", "verifiable/jws.go:marshalJWS", "verifiable/credential_jwt.go:newJWTCredClaims", "verifiable/credential.go:ParseCredential"]}
{"id": "C94", "title": "An unsecured JWT credential carries its content and is never accepted as proven", "statement": "CreateUnsecuredJWTVC changes nothing of the credential and puts a JWT with alg none, the credential's claims and no signature in the envelope; with all checks off ParseCredential reads the same contents from it, with no envelope; with proof checking on, and no embedded proof, ParseCredential never accepts it whatever the other options.", "quantifier": "all credentials, options and checkers", "why_tests_cant": "all contents, options and checkers", "anchors": ["verifiable/credential.go:CreateUnsecuredJWTVC", "verifiable/jwt_unsecured.go:marshalUnsecuredJWT", "verifiable/credential.go:ParseCredential"]}
{"id": "C95", "title": "A presentation issued as a signed JWT is parsed back as the same presentation with a valid proof", "statement": "CreateJWTVP changes nothing of the presentation but its envelope, which is a compact JWS of its claims: holder as iss, id as jti, audience, and the document under vp; ParsePresentation on it, minimized or not, returns the same presentation with its proof verified for the DID of the key id.", "quantifier": "all presentations whose custom fields do not hide members, audiences, signers, checkers and options", "why_tests_cant": "all presentations, options and keys", "anchors": ["verifiable/presentation_jwt.go:CreateJWTVP", "verifiable/jws.go:marshalJWS", "verifiable/presentation.go:ParsePresentation", "verifiable/presentation_jwt.go:refineFromJWTClaims"]}
{"id": "C96", "title": "A credential limited to the selected claims shows nothing else", "statement": "With limit_disclosure required, the credential that CreateVP puts in the presentation in place of a non-SD-JWT credential shows only its id, type, @context, issuer and issuance date, the ids of its subjects, and the values at the places that the fields' JSON paths select (or true for a field with a required predicate); nothing on a path through credentialSchema is taken.", "quantifier": "all credentials, constraints, fields and results of the JSON path evaluation", "why_tests_cant": "all documents and sets of paths, including overlapping paths and array positions", "anchors": ["presexch/definition.go:limitDisclosure", "presexch/definition.go:createNewCredential", "presexch/definition.go:compactArrayPaths", "presexch/definition.go:getPath", "presexch/definition.go:copyOnlySubjectIDs"]}
{"id": "C97", "title": "A limited credential shows every selected claim where it was", "statement": "Every value that a field selects is in the limited credential, at the place with the same member names and with array positions renumbered so that the selected elements follow one another and stay distinct and in the same arrays; a field with a required predicate gives true there.", "quantifier": "all credentials, constraints, fields and results of the JSON path evaluation", "why_tests_cant": "all documents and sets of paths, including several fields into one array", "anchors": ["presexch/definition.go:createNewCredential", "presexch/definition.go:compactArrayPaths", "presexch/definition.go:getPath"]}
{"id": "C98", "title": "A limited SD-JWT credential keeps exactly the disclosures of the selected claims", "statement": "With limit_disclosure required, an SD-JWT credential in the presentation keeps the disclosures of the claims that the fields select and no others, each once.", "quantifier": "all SD-JWT credentials, disclosures, hash functions, fields and results of the JSON path evaluation", "why_tests_cant": "all documents, digests and paths", "anchors": ["presexch/definition.go:getLimitedDisclosures", "presexch/definition.go:ExtractArrayValuesForSDJWTV5", "sdjwt/common/common.go:GetDisclosureDigests", "verifiable/credential.go:SetSDJWTDisclosures"]}
{"id": "C99", "title": "Presenting a credential does not change the holder's credential", "statement": "After any sequence of presentations made from a credential, the holder's credential still has all its disclosures, so any claim can be presented later.", "quantifier": "all sequences of presentations and all SD-JWT credentials", "why_tests_cant": "a property of every history of calls on the same object", "anchors": ["presexch/definition.go:limitDisclosure", "verifiable/credential.go:SetSDJWTDisclosures"]}
{"id": "C100", "title": "The frame for a BBS+ credential names the selected claims only and marks every object on the way as explicit", "statement": "For a BBS+ credential the reveal document contains, besides what a limited credential shows, only @explicit markers and the type and @context members of the objects on the way to the selected claims; the root and each of these objects carries @explicit true, so that no other claim is revealed; any selection can be revealed.", "quantifier": "all credentials, constraints, selected places and map iteration orders", "why_tests_cant": "all documents, places and iteration orders", "anchors": ["presexch/definition.go:createNewCredential", "presexch/definition.go:enhanceRevealDoc", "presexch/definition.go:enhanceRevealField"]}
{"id": "C101", "title": "The verifier accepts what the holder creates for the same definition", "statement": "If CreateVP or CreateVPArray makes presentations for a presentation definition, and the verifier receives them (as JSON or as JWTs, with the submission as JSON), then Match with the same definition succeeds and returns, for each input descriptor, exactly the credentials the holder chose for it.", "quantifier": "all definitions, wallets, credential contents, submission formats, sort orders and JSON encodings of the presentation", "why_tests_cant": "a property of two programs over all definitions and wallets", "anchors": ["presexch/definition.go:CreateVP", "presexch/definition.go:CreateVPArray", "presexch/definition.go:presentationData", "presexch/definition.go:presentation", "presexch/api.go:Match", "presexch/api.go:getMatchedCreds", "presexch/api.go:getDescriptorMapping"]}
{"id": "C102", "title": "A created presentation has the base context of all its credentials", "statement": "Each presentation made by CreateVP or CreateVPArray has as contexts the base context shared by all its credentials followed by the presentation-submission context, the types VerifiablePresentation and PresentationSubmission, and at least one credential (exactly one for CreateVPArray); credentials of different data model versions are never put in one presentation.", "quantifier": "all definitions and wallets", "why_tests_cant": "all sets of selected credentials", "anchors": ["presexch/definition.go:presentation", "presexch/definition.go:getBaseContext", "presexch/definition.go:CreateVP", "presexch/definition.go:CreateVPArray"]}
{"id": "C103", "title": "MatchSubmissionRequirement reports exactly the matching credentials", "statement": "The report of MatchSubmissionRequirement mirrors the tree of submission requirements (names, rules, counts, bounds, descriptors of each group, nesting) and lists for each descriptor, in wallet order, exactly the credentials that meet its format, schemas and constraints; with selective disclosure applied, only credentials derived from those, and never the original one where limited disclosure is required.", "quantifier": "all definitions, requirement trees and wallets", "why_tests_cant": "all trees of any depth and all wallets", "anchors": ["presexch/definition.go:MatchSubmissionRequirement", "presexch/definition.go:matchRequirement", "presexch/definition.go:makeRequirementsForMatch"]}
{"id": "C104", "title": "The report of MatchSubmissionRequirement predicts CreateVP", "statement": "After a successful MatchSubmissionRequirement, CreateVP for the same definition and wallet returns ErrNoCredentials exactly when no non-empty set of descriptors with reported credentials satisfies the submission requirements; otherwise the presentation contains only reported credentials, for descriptors with reported credentials.", "quantifier": "all definitions, requirement trees and wallets", "why_tests_cant": "a relation between two functions over all definitions and wallets", "anchors": ["presexch/definition.go:MatchSubmissionRequirement", "presexch/definition.go:CreateVP", "presexch/definition.go:applyRequirement"]}
{"id": "C105", "title": "MarshalJSON then ParseCredential gives the same credential", "statement": "A credential that ParseCredential accepted (JSON-LD, JWT without selective disclosure, or COSE), written by MarshalJSON (as object, as its JWT, as its message in hexadecimal, quoted or in an envelope as the data model version asks) and parsed again with the same options is exactly the same credential.", "quantifier": "all credentials of the three formats, all parse options without external contexts", "why_tests_cant": "all documents and formats; tests compare a few samples", "anchors": ["verifiable/credential.go:MarshalJSON", "verifiable/credential.go:ToUniversalForm", "verifiable/credential.go:ParseCredential", "verifiable/credential.go:MarshalAsJSONLD", "verifiable/credential.go:MarshalAsCWTLD"]}
{"id": "C106", "title": "A credential with an added proof is read back and verified", "statement": "After AddLinkedDataProof (resp. AddDataIntegrityProof) on a credential whose fields are those of its JSON, MarshalJSON writes a text that ParseCredential with the proof check on accepts as the same contents and members, with exactly the earlier proofs followed by the new one.", "quantifier": "all credentials with an issuer, all suites and keys that accept what they sign", "why_tests_cant": "all documents, suites and earlier proofs", "anchors": ["verifiable/linked_data_proof.go:AddLinkedDataProof", "verifiable/data_integrity_proof.go:AddDataIntegrityProof", "verifiable/credential.go:MarshalJSON", "verifiable/credential.go:ParseCredential"]}
{"id": "C107", "title": "A presentation with an added proof is read back and verified", "statement": "After AddLinkedDataProof (resp. AddDataIntegrityProof) on a presentation, MarshalJSON writes a text that ParsePresentation with the proof check on accepts as the same presentation, with exactly the earlier proofs followed by the new one.", "quantifier": "all presentations whose credentials were parsed and can be written, all suites and keys that accept what they sign", "why_tests_cant": "all documents, enclosed credentials, suites and earlier proofs", "anchors": ["verifiable/presentation.go:AddLinkedDataProof", "verifiable/presentation.go:AddDataIntegrityProof", "verifiable/presentation.go:MarshalJSON", "verifiable/presentation.go:ParsePresentation"]}
{"id": "C108", "title": "An SD-JWT credential written by MarshalWithDisclosure is read back", "statement": "For an SD-JWT credential accepted by ParseCredential, the text that MarshalWithDisclosure writes for any options holds the issuer's JWT, exactly the chosen disclosures and the new (else the old) holder binding. ParseCredential with the same options accepts it if and only if the digest of each chosen disclosure is written in the credential or in the value of another chosen disclosure that is itself so committed to, and then returns the same credential with exactly these disclosures; with DiscloseAll it always accepts and returns the same credential. If no disclosure is chosen and there is no holder binding, the bare JWT is written and read as a JWT credential without selective disclosure.", "quantifier": "all accepted SD-JWT credentials, all disclosure trees, all options, all map iteration orders", "why_tests_cant": "all disclosure trees and subsets of them; tests use flat ones", "anchors": ["verifiable/credential_sdjwt.go:MarshalWithDisclosure", "verifiable/credential_sdjwt.go:filterSDJWTVC", "verifiable/credential.go:ParseCredential", "verifiable/credential.go:parseDisclosures", "verifiable/credential.go:validateDisclosures", "sdjwt/common/common.go:VerifyDisclosuresInSDJWT"]}
{"id": "C109", "title": "A credential made an SD-JWT is read back and can be displayed again", "statement": "For a credential with one identified subject object, dates a JWT can carry, and no member name reserved by SD-JWT (for version 5 also none of a JWT claim), the combined text that MakeSDJWT writes is accepted by ParseCredential with the proof checked; the result has the issuer's disclosures, no others, the same members outside the subject, and the same contents with dates to the second. CreateDisplayCredential(Map) with all disclosures gives the credential back, with the subject's claims in some order and without empty objects; without disclosures it shows of the scalar claims exactly the id and the ones listed as not selectively disclosable. The header carries the key id, and for version 5 the type vc+sd-jwt. MakeSDJWT crashes exactly for an identified subject without an issuer.", "quantifier": "all credentials, versions, option lists, salts, shuffles and map iteration orders", "why_tests_cant": "all claim trees and salts; tests use a few credentials", "anchors": ["verifiable/credential_sdjwt.go:MakeSDJWT", "verifiable/credential_sdjwt.go:makeSDJWT", "verifiable/credential_sdjwt.go:CreateDisplayCredential", "verifiable/credential_sdjwt.go:CreateDisplayCredentialMap", "sdjwt/issuer/issuer.go:NewFromVC", "sdjwt/issuer/issuer.go:Serialize", "verifiable/credential.go:ParseCredential"]}
{"id": "C110", "title": "One schema decides, and only its URL is contacted", "statement": "A credential is validated against exactly one JSON schema: the built-in one of its data model if custom schemas are switched off; else the caller's schema text, else the result of the caller's schema function, else the first schema the credential names of type JsonSchemaValidator2018 or JsonSchema (from the cache, otherwise downloaded with status 200), else the built-in one. If that schema cannot be fetched the credential is refused. Only the URL of that schema is requested, and only when it is needed; only a successful download is cached, under its URL. WithDisableRequiredField removes exactly the named required fields.", "quantifier": "all option settings, credentials, cache contents and HTTP answers", "why_tests_cant": "all combinations of options, schema lists and network outcomes", "anchors": ["verifiable/credential.go:validateCredentialUsingJSONSchema", "verifiable/credential.go:getSchemaLoader", "verifiable/credential.go:getJSONSchema", "verifiable/credential.go:loadJSONSchema", "verifiable/credential.go:JSONSchemaLoaderV1", "verifiable/credential.go:JSONSchemaLoaderV2", "verifiable/credential.go:WithDisableRequiredField"]}
{"id": "C111", "title": "What the built-in credential schemas enforce", "statement": "A non-JWT credential accepted under default validation with the built-in schema names the v1 or v2 context first, has VerifiableCredential among its types and an issuer; a v1 credential has a URI issuer, an issuance date, typed status, schema, evidence and refresh entries with URI ids and proofs with a type; a v2 credential has at least one non-empty subject, and typed members, dates and proofs of the shape of the data model. Nothing else is checked.", "quantifier": "all JSON objects and all input texts", "why_tests_cant": "all JSON documents; the schemas are data whose meaning tests only sample", "anchors": ["verifiable/credential.go:SchemaTemplateV1", "verifiable/credential.go:SchemaTemplateV2", "verifiable/credential.go:ParseCredential"]}
{"id": "C112", "title": "What the built-in presentation schemas enforce", "statement": "A presentation accepted by ParsePresentation conforms to the built-in schema of the data model its context names first: VerifiablePresentation among the types, a string id, credentials as list, object, text or null, and proofs of the shape of the data model.", "quantifier": "all JSON objects and all input texts", "why_tests_cant": "all JSON documents", "anchors": ["verifiable/presentation.go:v1BasePresentationSchema", "verifiable/presentation.go:v2BasePresentationSchema", "verifiable/presentation.go:validateVPJSONSchema"]}
{"id": "C113", "title": "Which presentation definitions ValidateSchema accepts", "statement": "ValidateSchema accepts a presentation definition exactly if it is a v1 definition (every descriptor names schemas, no descriptor has a format of its own, every filter has a type and bounds that are numbers or strings, no optional or retained fields, no frame) or a v2 definition (no descriptor names schemas, every filter is a JSON schema); in both cases it has an ID and at least one descriptor, every descriptor an ID, every field a path, preferences are required or preferred, a predicate needs a filter, and every submission requirement has a known rule, no negative counts and either a group or nested requirements. A locale, metadata or a CWT format is refused.", "quantifier": "all presentation definitions the Go structs can hold, requirements nested to any depth", "why_tests_cant": "all definitions and nestings; the schemas are data whose meaning tests only sample", "anchors": ["presexch/definition.go:ValidateSchema", "presexch/schema.go:DefinitionJSONSchemaV1", "presexch/schema.go:DefinitionJSONSchemaV2"]}
{"id": "C114", "title": "A definition that passes the check does not crash the holder", "statement": "CreateVP, CreateVPArray and MatchSubmissionRequirement refuse with an error every definition ValidateSchema refuses, and never crash on one it accepts.", "quantifier": "all definitions, wallets and library behaviours", "why_tests_cant": "all definitions and wallets", "anchors": ["presexch/definition.go:CreateVP", "presexch/definition.go:CreateVPArray", "presexch/definition.go:MatchSubmissionRequirement", "presexch/definition.go:presentationData", "presexch/definition.go:filterField", "presexch/internal/requirementlogic/requirementlogic.go:NewBitsetIterator"]}
{"id": "C115", "title": "A framed definition presents only selectively disclosed credentials", "statement": "If the definition has a frame, every credential of the presentation CreateVP or CreateVPArray makes comes from a credential of the wallet by BBS selective disclosure with that frame, and a wallet that holds suitable BBS credentials beside others gets a presentation.", "quantifier": "all definitions with a frame, wallets and library behaviours", "why_tests_cant": "all wallets; tests use wallets of BBS credentials only", "anchors": ["presexch/definition.go:frameCreds", "presexch/definition.go:applyRequirement", "presexch/definition.go:matchRequirement", "verifiable/credential_bbs.go:GenerateBBSSelectiveDisclosure"]}
{"id": "C116", "title": "Which schemas a credential is of", "statement": "A descriptor's schema filter keeps a credential exactly if the schema URIs, read by their required flags, are names of types of the credential: a type's own name, its @id or its @id expanded in its scoped context, in one of the credential's contexts. Every context is loaded at most once, fragments of context URIs are ignored, and an unloadable context of any credential fails the matching as a whole.", "quantifier": "all lists of schemas and credentials, contexts and JSON-LD library behaviours", "why_tests_cant": "all combinations of contexts, types and cached loads", "anchors": ["presexch/definition.go:filterSchema", "presexch/definition.go:typeFoundInContext", "presexch/definition.go:getContext"]}
{"id": "C117", "title": "What a list of parse options means", "statement": "ParseCredential and ParsePresentation check proofs unless the option that disables it is in the list, whatever else is in it and in whatever order; every switch is on exactly if given, every other setting is decided by the last option about it and by no other; options about different things commute; without any checker option and without disabling, no credential is ever returned. Credentials enclosed in a presentation get its checker and its proof switch and nothing else.", "quantifier": "all lists of options, credentials, presentations and library behaviours", "why_tests_cant": "all lists and orders of options", "anchors": ["verifiable/credential.go:getCredentialOpts", "verifiable/credential.go:WithProofChecker", "verifiable/credential.go:WithBaseContextExtendedValidation", "verifiable/presentation.go:getPresentationOpts", "verifiable/presentation.go:decodeCredentials"]}
{"id": "C118", "title": "Exactly which linked data proofs and COSE messages the default checker accepts", "statement": "The default proof checker accepts a linked data proof iff it names a key that resolves for the expected issuer, and its type is one of the six supported ones and accepts a signature of the matching kind by a verification method of the matching kind; it accepts a COSE message with a key id iff the key resolves for the expected issuer and one of the five algorithms accepts, and one carrying its own key iff no issuer is expected and the key's own type belongs to the algorithm, which accepts. FindIssuer returns the first non-empty string among vc.issuer.id, vc.issuer, issuer.id, issuer and iss.", "quantifier": "all proofs, messages, signatures, resolvers, keys and payloads", "why_tests_cant": "exactness over all combinations of proof type, method type, key and signature", "anchors": ["proof/checker/checker.go:CheckLDProof", "proof/checker/checker.go:CheckCWTProof", "proof/checker/checker.go:FindIssuer", "proof/defaults/all.go:NewDefaultProofChecker", "proof/ldproofs"]}
{"id": "C119", "title": "What was stored is not changed by later writes into the caller's buffers", "statement": "After Put or Batch, Get returns the bytes as they were when they were stored, whatever the program later writes into the slice it passed or into a slice it got back.", "quantifier": "all histories of store calls interleaved with writes into any buffer", "why_tests_cant": "aliasing over every history", "anchors": ["legacy/mem/mem.go:Put", "legacy/mem/mem.go:Get", "legacy/mem/mem.go:Batch", "legacy/mem/mem.go:GetBulk"]}
{"id": "C120", "title": "No data race and no deadlock in the in-memory provider", "statement": "Under any interleaving of concurrent calls on the provider and its stores, no two goroutines access the same map or configuration at once with one of them writing, and some goroutine can always make progress.", "quantifier": "all schedules of any number of goroutines making any calls", "why_tests_cant": "all interleavings", "anchors": ["legacy/mem/mem.go:OpenStore", "legacy/mem/mem.go:SetStoreConfig", "legacy/mem/mem.go:GetStoreConfig", "legacy/mem/mem.go:GetOpenStores", "legacy/mem/mem.go:Close"]}
{"id": "C121", "title": "Dates are read as RFC 3339 says, and survive printing and JWT claims", "statement": "A date string in a credential is accepted exactly when it is an RFC 3339 date-time of a day that exists (with the leniencies of Go's reader: one-digit hours, a comma before the fraction, fraction digits after the ninth dropped, offsets up to 24:60) or such a text lacking only its zone, read as UTC; the value read is the instant written; printing and reading again gives the same instant and offset; and a signed exp, nbf or iat claim becomes the credential's date exactly when it lies in the years 0 to 9999.", "quantifier": "all strings and all instants", "why_tests_cant": "all calendar days, offsets, fractions and numeric claims", "anchors": ["util/time/time.go:ParseTimeWrapper", "util/time/time.go:parse", "util/time/time.go:FormatToString", "verifiable/credential_jwt.go:refineFromJWTClaims"]}
{"id": "C122", "title": "Dates of Data Integrity proofs are enforced and survive signing", "statement": "A document signed with created and expires dates verifies with the same expectations until its expiry, and a document accepted with a proof that names an expiry is accepted no later than it.", "quantifier": "all documents, all instants of signing, expiry and verification", "why_tests_cant": "all instants, offsets and fractions of a second", "anchors": ["dataintegrity/verifier.go:VerifyProof", "dataintegrity/models/models.go:DateTimeFormat", "dataintegrity/suite/ecdsa2019/ecdsa2019.go:CreateProof", "dataintegrity/suite/eddsa2022/eddsa2022.go:CreateProof"]}
{"id": "C123", "title": "A presentation holds only what the preferences of the definition allow", "statement": "Every credential in a presentation made by CreateVP or CreateVPArray was sent for a credential of the wallet (framed, if the definition has a frame) that meets the constraints of one of the descriptors, and in the way the preferences in those constraints say: with limit_disclosure required a restricted SD-JWT or a derived credential (the latter only of a BBS+ or self-issued credential or with a required predicate), with a required predicate alone a derived credential, with subject_is_issuer required only a self-issued one, and otherwise the credential itself.", "quantifier": "all definitions, wallets, proof creators, path and schema libraries, and results of CreateVP and CreateVPArray", "why_tests_cant": "Tests try single preferences on hand-made credentials; the property is about every combination of preferences, descriptors, submission requirements and wallets.", "anchors": ["presexch/definition.go:CreateVP", "presexch/definition.go:CreateVPArray", "presexch/definition.go:limitDisclosure", "presexch/definition.go:filterConstraints"]}
{"id": "C124", "title": "The options of the SD-JWT verifier and holder mean what they say", "statement": "What verifier.Parse and holder.Parse demand of an SD-JWT is decided, setting by setting, by the last option about it (deprecated and new names alike) and by the documented default if there is none. In particular the verifier accepts nothing without a signature verifier, only EdDSA or RS256 unless other algorithms were named, nothing outside the validity window widened by one minute (or by the leeway named last), and nothing without a holder verification if the last option about it asked for one. The holder's defaults check no signature and no algorithm; its version 5 checks accept nothing unless algorithms are named.", "quantifier": "all lists of options in all orders, all presentations, all libraries and clocks", "why_tests_cant": "Tests pass one or two options; whether one option undoes another depends on every list and order of options.", "anchors": ["sdjwt/verifier/verifier.go:Parse", "sdjwt/verifier/verifier.go:WithHolderVerificationRequired", "sdjwt/verifier/verifier.go:WithIssuerSigningAlgorithms", "sdjwt/holder/holder.go:Parse", "sdjwt/holder/holder.go:NoopSignatureVerifier"]}
{"id": "C125", "title": "CreateVP on the holder's own credentials discloses no more than each descriptor allows", "statement": "CreateVP and CreateVPArray work on the holder's credentials themselves: limiting an SD-JWT credential takes disclosures away from the credential in the wallet. Whatever the order in which descriptors are tried, and whichever were tried in vain, each descriptor map of the answer points at a credential that is derived for its descriptor, or is one of the holder's; and if that descriptor requires limited disclosure, the SD-JWT credential shown has been limited for it and discloses nothing it does not allow. After the call every credential is where it was, those that are not SD-JWTs are unchanged and the SD-JWTs at most restricted. If an SD-JWT limited for one descriptor is wanted by no other, the answer is the one that copies of the credentials would give.", "quantifier": "all definitions, requirements, wallets and libraries, all orders of evaluation", "why_tests_cant": "The credentials seen by a descriptor depend on the history of all descriptors tried before it; tests use one descriptor per SD-JWT credential.", "anchors": ["presexch/definition.go:CreateVP", "presexch/definition.go:CreateVPArray", "presexch/definition.go:applyRequirement", "presexch/definition.go:limitDisclosure", "verifiable/credential.go:SetSDJWTDisclosures"]}
{"id": "C126", "title": "What a list of SD-JWT issuing and disclosing options means", "statement": "New, NewFromVC, MakeSDJWT, MarshalWithDisclosure and CreateDisplayCredential(Map) take any list of options. Each setting is what the last option about it says, or its documented default (version 2, SHA-256, nothing in clear, no decoys, flat claims); DiscloseAll and DisplayAllDisclosures cannot be taken back and names to display accumulate. A scalar claim is visible without its disclosure exactly if it is on the last list of claims that are not selectively disclosable (MakeSDJWT: or is the subject's id); the token states exactly the registered claims the last options give, and names the last hash; a hash that is not linked is an error unless nothing is hidden. MarshalWithDisclosure puts exactly the disclosures asked for by the last lists into the text, refuses DiscloseAll together with names, and issues in the version asked for last.", "quantifier": "all lists of options of any length and order, all claims, salts, shuffles and selections of disclosures", "why_tests_cant": "The options are functions applied in order; tests give each option once. What a relying party sees must follow from every list of options for every selection of disclosures.", "anchors": ["sdjwt/issuer/issuer.go:New", "sdjwt/issuer/issuer.go:NewFromVC", "sdjwt/issuer/issuer.go:WithNonSelectivelyDisclosableClaims", "verifiable/credential_sdjwt.go:MakeSDJWT", "verifiable/credential_sdjwt.go:MarshalWithDisclosure", "verifiable/credential_sdjwt.go:CreateDisplayCredential"]}
{"id": "C127", "title": "What a proof checker or creator built from any options accepts and signs", "statement": "A checker made by checker.New (or with an embedded key) from any list of options accepts a JWT, CWT or linked-data proof exactly if: the key id resolves for the expected issuer; the first descriptor registered for the algorithm or proof type has a row for the resolved method; and the first registered verifier for that row's key type (or the verifier registered with the proof type) accepts the signature. Registering more afterwards never changes a decision, except where nothing was registered to decide by. A creator signs with the signer registered first for the algorithm or proof type, and what it signs is accepted by a checker whose first rows and verifier accept that signer. The default checker is such a checker.", "quantifier": "all lists of registration options of any length and order, all headers, proofs, messages, signatures, resolvers and verifiers", "why_tests_cant": "Tests use a handful of registrations; precedence among repeated or overlapping registrations must hold for every list.", "anchors": ["proof/checker/checker.go:New", "proof/checker/checker.go:CheckJWTProof", "proof/checker/checker.go:CheckLDProof", "proof/checker/checker.go:CheckCWTProof", "proof/checker/checker.go:NewEmbeddedVMProofChecker", "proof/creator/creator.go:New", "proof/creator/creator.go:SignJWT", "proof/creator/creator.go:SignLinkedDocument"]}
{"id": "C128", "title": "A copy of a presentation is independent of the original", "statement": "In any history of creating presentations, adding credentials and copying presentations (Clone, CreateJWTVP, CreateCWTVP), each presentation shows exactly the credentials put into it: adding to one changes no other.", "quantifier": "all histories of any length over any number of presentations and credentials, whatever spare room the runtime leaves when it grows a slice", "why_tests_cant": "Whether a copy is overwritten depends on the history of lengths and on the runtime's capacity decisions; tests see single histories.", "anchors": ["verifiable/presentation.go:Clone", "verifiable/presentation.go:AddCredentials", "verifiable/presentation.go:WithCredentials", "verifiable/presentation_jwt.go:CreateJWTVP", "verifiable/presentation_cwt.go:CreateCWTVP"]}
{"id": "C129", "title": "A date written as JSON is the date", "statement": "A TimeWrapper is written by json.Marshal exactly if its time has a four-digit year and a zone less than 24 hours away. What is written is an RFC 3339 text (or one without zone, meaning UTC) of the wrapper's time, and reading it with json.Unmarshal gives the same time, written the same way again. A date that was read is written as it was.", "quantifier": "all histories of creating, parsing and unmarshalling a wrapper, all times of Go and all JSON values", "why_tests_cant": "Dates, zones and fractions are unbounded combinations, and the kept text makes the result depend on the history.", "anchors": ["util/time/time.go:MarshalJSON", "util/time/time.go:UnmarshalJSON", "util/time/time.go:parse", "util/time/time.go:FormatToString", "util/time/time.go:NewTime", "util/time/time.go:ParseTimeWrapper"]}
{"id": "C130", "title": "Credentials do not share their JSON with each other or with the program", "statement": "In any history of parsing, creating, modifying, signing, enveloping, proving and displaying credentials, and of writing into JSON objects the program has given or was given, ToRawJSON of each credential shows exactly what was done to that credential, and the program's objects exactly what the program wrote.", "quantifier": "all histories of any length over any number of credentials and maps", "why_tests_cant": "Sharing shows only in particular sequences of calls on several values; tests exercise single calls.", "anchors": ["verifiable/credential.go:ParseCredentialJSON", "verifiable/credential.go:ToRawJSON", "verifiable/credential.go:WithModifiedID", "verifiable/credential.go:SetCustomField", "verifiable/credential_ldp.go:AddLinkedDataProof", "verifiable/credential_ldp.go:ResetProofs", "verifiable/data_integrity_proof.go:AddDataIntegrityProof", "verifiable/credential_sdjwt.go:CreateDisplayCredentialMap"]}
{"id": "C131", "title": "Base64 texts: what is written is read, what is read, and how many texts read the same", "statement": "The base64 texts the library writes (disclosures, token parts, salts, status lists) decode to the bytes written; different bytes have different texts; a text is accepted exactly when, line breaks apart, it is base64 digits carrying whole bytes with the right padding; texts of tokens and disclosures never contain the separators . and ~, and only empty bytes give an empty text.", "quantifier": "all byte strings and all texts, for both alphabets", "why_tests_cant": "Byte strings are unbounded and the cases differ by length modulo three; the malleable texts are exactly those no writer produces.", "anchors": ["sdjwt/common/common.go:GetHash", "sdjwt/common/verification.go:getDisclosureClaim", "sdjwt/issuer/v2.go:createDisclosure", "sdjwt/issuer/v5.go", "sdjwt/issuer/issuer.go:generateSalt", "jwt/jwt.go:isValidJSON"]}
{"id": "C132", "title": "A status list written with Encode gives the published verdicts", "statement": "Decode of what Encode writes is the bitstring; a credential whose entry points to index i of a list published by its issuer with Encode is refused with the entry's purpose exactly when bit i is set, and accepted when it is clear.", "quantifier": "all bitstrings, indices, entries of both types and list locations", "why_tests_cant": "Lists and indices are unbounded and the text depends on the length modulo three and the compressed bytes.", "anchors": ["status/internal/bitstring/bitstring.go:Encode", "status/internal/bitstring/bitstring.go:Decode", "status/internal/bitstring/bitstring.go:BitAt", "status/status.go:VerifyStatus"]}
{"id": "C133", "title": "The queries of a DID URL are read however the URL is spelled", "statement": "The queries sent to an identity hub are those whose JSON, in base64, is the value of the first parameter 'queries' of the DID URL, whatever other parameters there are and however names and values are percent-encoded; without it nothing is sent.", "quantifier": "all DID URLs with any number of parameters in any spelling", "why_tests_cant": "Spellings and parameter lists are unbounded; whether a base64 text survives depends on its characters.", "anchors": ["status/resolver/resolver.go:getQueries", "status/resolver/resolver.go:resolveDIDRelativeURL"]}
{"id": "C134", "title": "Displaying a credential can be repeated", "statement": "However often and with whatever options a credential has been displayed before (as a credential or as a map), a display shows what it showed the first time, and the credential itself is unchanged: document, contents, proofs, JWT, holder binding, and each disclosure.", "quantifier": "all parsed credentials, all histories of displays with any options", "why_tests_cant": "Displays share the values of the disclosures with the credential and delete empty objects in them in place; whether that ever shows depends on the history and on where each digest stands.", "anchors": ["verifiable/credential_sdjwt.go:CreateDisplayCredentialMap", "verifiable/credential_sdjwt.go:CreateDisplayCredential", "verifiable/credential_sdjwt.go:clearEmpty", "sdjwt/common/common.go:GetDisclosedClaims"]}
{"id": "C135", "title": "A status check contacts only what the credential's entries name, in order, and judges each entry by the answer it got", "statement": "Whatever the network answers (also when one location answers differently each time), VerifyStatus with the HTTP resolver exchanges, for each entry in the credential's order, at most one GET of the location the entry names or one look-up of the DID it names followed by at most one POST to a hub address of the document found, with the first usable query; a malformed entry causes no request, and nothing is sent after the first entry that does not pass. It accepts exactly when every entry's own exchange brings a list of the credential's issuer with the entry's bit clear, and reports revoked or suspended exactly when the first entry that does not pass shows a set bit with that purpose.", "quantifier": "all credentials, all resolver settings, all answers of HTTP servers and DID registries, all map iteration orders", "why_tests_cant": "The set of requests depends on what remote parties answer at run time, and answers may change between two requests to one location.", "anchors": ["status/status.go:VerifyStatus", "status/status.go:verifyStatus", "status/resolver/resolver.go:Resolve", "status/resolver/resolver.go:resolveDIDRelativeURL", "status/resolver/resolver.go:sendHTTPRequest", "status/internal/identityhub/identityhub.go:GetRequest", "status/internal/identityhub/identityhub.go:ServiceEndpoint"]}
{"id": "C136", "title": "The resolver's bearer token goes only to hosts its owner chose", "statement": "A status check sends the bearer token the resolver was created with only to hosts the resolver's owner trusts, and never to a host that only the checked credential names.", "quantifier": "all credentials, tokens and locations", "why_tests_cant": "It is about every host an attacker's credential may name.", "anchors": ["status/resolver/resolver.go:Resolve", "status/resolver/resolver.go:sendHTTPRequest", "status/resolver/resolver.go:NewResolver"]}
{"id": "C137", "title": "An SD-JWT and what was disclosed of it tell nothing else about the hidden claims than how many salts they took", "statement": "Take two sets of claims that are the same but for claims, objects, arrays or array elements that are hidden and whose salts nobody was told (other names, other values, even an object instead of an array, as long as they take as many salts). Whatever the verifier is sent for the first - the signed token, the disclosures the holder chose, the holder's proof - is, for a hash function that differs from the real one only on disclosures containing one of the untold salts, exactly what it is sent for the second. So no conclusion about the untold claims can be drawn without guessing a salt. Holds for SD-JWT V2 and V5, structured and flat, with and without decoys, recursive and always-include settings.", "quantifier": "all claims, salts, settings, decoys, shuffles, signature schemes and choices of disclosures", "why_tests_cant": "It compares all pairs of issuances and everything anybody could compute from what is sent, not one output.", "anchors": ["sdjwt/issuer/issuer.go:New", "sdjwt/issuer/v2.go:CreateDisclosuresAndDigests", "sdjwt/issuer/v5.go:CreateDisclosuresAndDigests", "sdjwt/issuer/v5.go:processArrayElements", "sdjwt/issuer/issuer.go:createDecoyDisclosures", "sdjwt/holder/holder.go:CreatePresentation"]}
{"id": "C138", "title": "Whoever presents an SD-JWT, the verifier sees only what the issuer wrote, unless a hash collision was found", "statement": "Take the token an issuer signed and any list of texts sent with it as disclosures, made up by anybody. If the verifier accepts them, then either one of the texts is different from a disclosure or decoy salt of the issuer and has its hash, or every text is a disclosure the issuer returned and the claims the verifier gets are the issuer's claims with some array elements and object members left out: nothing added, nothing changed, nothing moved.", "quantifier": "all claims, settings, salts, shuffles, hash functions, texts sent by the presenter, and orders in which the verifier walks its maps", "why_tests_cant": "The presenter is an adversary: any text may be sent, so the set of attacks cannot be enumerated.", "anchors": ["sdjwt/common/verification.go:VerifyDisclosuresInSDJWT", "sdjwt/common/common.go:GetDisclosedClaims", "sdjwt/issuer/issuer.go:New", "sdjwt/issuer/v2.go:CreateDisclosuresAndDigests", "sdjwt/issuer/v5.go:CreateDisclosuresAndDigests", "sdjwt/verifier/verifier.go:Parse"]}
{"id": "C139", "title": "Whatever is presented of a made SD-JWT credential, a reader displays only the issuer's credential, unless a hash collision was found", "statement": "Take the JWT that Credential.MakeSDJWT signed and any text that anybody sends: the combined format with any disclosures (repeated, made up, in any order), quoted, wrapped in an object or in an enveloped credential. If ParseCredential accepts the text and takes that JWT from it, then either one of the texts sent differs from a disclosure of the issuer and has its hash, or CreateDisplayCredential and CreateDisplayCredentialMap with all disclosures succeed and show a part of the issuer's credential: outside the subject the members the issuer wrote, and of the subject some of its claims, unchanged and in their place, with its id.", "quantifier": "all credentials, versions, salts, shuffles, hash functions, lists of non-disclosable claims, parsing options and texts sent", "why_tests_cant": "The presenter is an adversary: any text may be sent, in any of the formats ParseCredential accepts, so the set of attacks cannot be enumerated.", "anchors": ["verifiable/credential_sdjwt.go:MakeSDJWT", "verifiable/credential.go:ParseCredential", "verifiable/credential.go:validateDisclosures", "verifiable/credential.go:tryParseAsJWSVC", "verifiable/credential_sdjwt.go:CreateDisplayCredential", "sdjwt/common/verification.go:VerifyDisclosuresInSDJWT"]}
{"id": "C140", "title": "Numbers are read as the nearest float64: order is kept, up to 15 digits survive, and what was read stays the same", "statement": "Reading a credential or presentation turns each number into the nearest float64 number (of two equally near ones, the even one); a document is refused for its numbers exactly if one of them is at least 2^1024 - 2^970. Reading never reverses the order of two numbers. A document whose numbers are zero, integers below 2^53 or decimal numbers of at most 15 significant digits (not below the smallest normal float64) is written as it was read; any document, once read, is read again the same after being written. Beyond that numbers change: 9007199254740993 is read as 9007199254740992, so two documents with different numbers can be read as one.", "quantifier": "all JSON documents, all rational values of number texts", "why_tests_cant": "There are infinitely many number texts and the boundaries (ties, subnormals, overflow, digits) are where rounding goes wrong.", "anchors": ["verifiable/credential.go:parseCredentialJSON", "verifiable/credential.go:MarshalJSON", "verifiable/presentation.go:decodeVPFromJSON", "verifiable/presentation.go:MarshalJSON"]}
{"id": "C141", "title": "The dates, nonce and audience of an SD-JWT are enforced as they are written", "statement": "verifier.Parse accepts no SD-JWT later than the end of the second its exp lies in (plus leeway) or earlier than the second its nbf or iat lies in (minus leeway), whatever numbers are written there - fractions, exponents, many digits - and the same holds for the holder's JWT; whole seconds are enforced exactly. The date check succeeds exactly if all registered claims have a readable form (numbers, decimal texts, booleans, null; no lists or objects except in aud) and the dates stated fit the clock. With a nonce or audience expected, the holder's JWT has a claim that reads as it: the text, a number written so, or a boolean for 1 and 0. Hazards: a claim is also taken from a member whose name differs in case, and with two such members the map order decides; a date that is the first second of the year 1 makes the check panic, also in the holder's JWT.", "quantifier": "all claims maps and map orders, all number values, all clock readings and leeways, all decodings of texts", "why_tests_cant": "The space of number spellings and claim shapes is infinite and the rounding boundaries cannot be sampled.", "anchors": ["util/maphelpers/mapstruct.go:JSONNumberToJwtNumericDate", "sdjwt/common/verification.go:VerifyJWT", "sdjwt/verifier/keybidning.go:verifyKeyBindingJWT", "sdjwt/verifier/holderbidning.go:verifyHolderBindingJWT", "sdjwt/verifier/verifier.go:Parse", "jwt/jwt.go:PayloadToMap"]}
{"id": "C142", "title": "Which member of a signed token counts as a claim", "statement": "When a JWT credential or presentation is decoded, each registered claim (iss, sub, aud, exp, nbf, iat, jti) has the value of the last member of the payload that spells its name ignoring case (for texts: the last that is not null), and the vc/vp object is the merge of the objects under its name in any spelling since the last null. Decoding fails exactly if some member that spells a claim's name, even one overwritten later, has a value of the wrong type. The issuer of the decoded credential and the holder of the decoded presentation are that iss. If no member is repeated and none is another spelling of a claim's name, the payload is read by exact names, and the issuer ParseAndCheckProof checks the proof against is the one the claims show. This fails otherwise: with iss and ISS, ParseAndCheckProof checks the first and the decoded claims show the last.", "quantifier": "all payloads as lists of members, in any order, with any repetition and any spelling of the names", "why_tests_cant": "Orders, repetitions and spellings of members are unbounded; tests use payloads the library itself has written.", "anchors": ["verifiable/jws.go:unmarshalJWT", "verifiable/credential_jwt.go:UnmarshalJSON", "verifiable/credential_jwt.go:decodeCredJWT", "verifiable/presentation_jwt.go:decodePresJWT", "util/json/json.go:UnmarshalWithCustomFields", "jwt/jwt.go:ParseAndCheckProof"]}
{"id": "C143", "title": "A document's text is verified as its reader sees it", "statement": "VerifyProof and AddProof work on the text of a document. With one proof, VerifyProof accepts a text iff its first member called proof is a valid proof of a configured suite for the document decoded from the other members; each field of that proof is the last string given under its name, in any spelling ignoring case. Everything but proof that a reader decodes from the text is what was verified; a text with one member proof, whose proofs repeat no name and spell no name otherwise, is verified exactly as the map decoded from it. AddProof changes nothing but the first member proof, or adds one at the end, and what it signs verifies as a text. The proof and the purpose the reader sees are the ones verified.", "quantifier": "all texts as lists of members, in any order, with any repetition and any spelling of the names of a proof's members, all suites, resolvers and options", "why_tests_cant": "Orders, repetitions and spellings of members are unbounded; tests use documents written by the library.", "anchors": ["dataintegrity/verifier.go:VerifyProof", "dataintegrity/verifier.go:verifyProof", "dataintegrity/signer.go:AddProof", "dataintegrity/models/models.go:Proof"]}
{"id": "C144", "title": "The DID configuration client asks the domain, once, and believes only its answer", "statement": "Client.VerifyDIDAndDomain contacts nothing but <domain>/.well-known/did-configuration.json, with one GET at most, and closes the body of every response, once. It succeeds exactly if that GET is answered with status 200 and a readable body that links the DID to the domain (C53), judged with the HTTP client, document loader and DID registry last given to New. Whatever was called before on the same client makes no difference other than through the server's answers, which may change at any time. The configuration that counts is the one at the origin's own well-known location.", "quantifier": "all options in any order and number, all servers (answers depending on the whole history), all sequences of calls, DIDs and domains", "why_tests_cant": "Servers that change their answers, option lists and call histories are unbounded.", "anchors": ["didconfig/client/didconfig.go:New", "didconfig/client/didconfig.go:VerifyDIDAndDomain", "didconfig/verifier/didconfig.go:getDIDConfigurationOpts", "didconfig/verifier/didconfig.go:VerifyDIDAndDomain"]}
{"id": "C145", "title": "A holder's bound presentation is accepted by the verifier it was made for, and only there", "statement": "The key given to issuer.New with WithHolderPublicKey is, whatever the claims, the key the verifier checks a binding against; so is the one given to NewFromVC, if the claims around a vc claim have no cnf of their own. A presentation that holder.CreatePresentation makes from an issued SD-JWT with WithHolderVerification is accepted by verifier.Parse exactly if the same presentation without a binding is accepted where none is required, and the binding JWT that the holder's signer signed verifies under the key in the issuer-signed cnf claim, with an allowed algorithm other than none, for the expected nonce and audience, and with an issue time not in the future (within the leeway). The claims returned are the same. A presentation made for another nonce or audience, or signed by anyone else, is refused.", "quantifier": "all SD-JWTs, selections of disclosures, binding payloads, headers and signers, keys, verifier options, clocks and map orders", "why_tests_cant": "Tests cover single hand-made challenges; acceptance must coincide with the challenge for every input, and every other signer must be refused.", "anchors": ["sdjwt/holder/holder.go:CreatePresentation", "sdjwt/holder/holder.go:CreateHolderVerification", "sdjwt/verifier/verifier.go:runHolderVerification", "sdjwt/verifier/keybidning.go:verifyKeyBindingJWT", "sdjwt/issuer/issuer.go:createPayload"]}
{"id": "C146", "title": "A holder binding is good for the presentation it was made for only", "statement": "A binding JWT that a holder made for one presentation is not accepted with another: not with an SD-JWT for another holder key, not with another SD-JWT for the same key, and not with other disclosures of the same SD-JWT.", "quantifier": "all SD-JWTs, disclosures, binding JWTs, verifier options and clocks", "why_tests_cant": "It quantifies over all recombinations of the parts of presentations.", "anchors": ["sdjwt/verifier/verifier.go:runHolderVerification", "sdjwt/verifier/keybidning.go:verifyKeyBindingJWT", "sdjwt/verifier/holderbidning.go:verifyHolderBindingJWT", "sdjwt/holder/holder.go:BindingPayload"]}
{"id": "C147", "title": "Making an SD-JWT of a credential's claims leaves the caller's claims as they were", "statement": "issuer.NewFromVC does not change the claims it is given: whether it succeeds or fails, the caller can use the same map again, for instance to issue again with other options or after the signer failed.", "quantifier": "all claims, versions, options, salts and signers, and repeated calls on one map", "why_tests_cant": "Tests build a fresh map for every call; the property is about every later use of the same map after any outcome.", "anchors": ["sdjwt/issuer/issuer.go:NewFromVC", "sdjwt/issuer/issuer.go:New", "sdjwt/issuer/v2.go:ExtractCredentialClaims", "sdjwt/issuer/v5.go:ExtractCredentialClaims"]}
{"id": "C148", "title": "A parsed SD-JWT credential carries a holder binding only if it is the holder's", "statement": "When verifiable.ParseCredential, with proof checking on, returns a credential with a holder binding (JWTEnvelope.SDHolderBinding), that binding is a JWT signed with the key the credential confirms for its holder (cnf); a presentation with any other binding is refused.", "quantifier": "all issuer JWTs, disclosures, bindings, parse options and proof checkers", "why_tests_cant": "The tests parse a few presentations made by the library itself; the property is about every text that could stand in the place of the binding.", "anchors": ["verifiable/credential.go:ParseCredential", "verifiable/credential.go:tryParseAsJWSVC", "verifiable/credential.go:checkProof", "verifiable/credential_parser.go:CredentialJSONParser.Parse"]}
