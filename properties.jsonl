{"id": "C01", "title": "Request: sign then verify succeeds", "statement": "If Request::set_message_signature(params, key, name) returns Ok on a request that carried no signature, then Request::verify_message_signature with the matching verifying key, with no key id or with the key id in params, returns Ok(name) for every clock reading not after `expires`. params must be safe (strings printable ASCII without quote and backslash, timestamps below 10^15, no covered signature/signature-input field, no @signature-params) and name must be an SFV key.", "quantifier": "every request (method, URI, headers, body), every safe params, every correct key pair and signing randomness, every legal signature name, every clock reading up to expiry", "why_tests_cant": "the space of messages, covered component lists and parameter strings is infinite; the round trip runs a serializer and an independent parser that must agree on every one", "anchors": ["httpsig-hyper/src/hyper_http.rs:set_message_signature,verify_message_signature,build_signature_base,extract_signature_headers_with_name", "httpsig/src/signature_base.rs:try_parse,Display", "httpsig/src/signature_params.rs:Display,try_from"]}
{"id": "C02", "title": "Response: sign then verify succeeds, with its request", "statement": "Same as C01 for Response::set_message_signature / verify_message_signature, with the same corresponding request (or none) given to both calls.", "quantifier": "every response, every optional request, safe params, correct key pair, name, clock up to expiry", "why_tests_cant": "same as C01, times all request/response pairs and all placements of the `req` parameter", "anchors": ["httpsig-hyper/src/hyper_http.rs:MessageSignatureRes for Response"]}
{"id": "C03", "title": "Batch sign then batch verify", "statement": "After set_message_signatures with any list of (safe params, key, pairwise distinct legal names) returns Ok on a message without signatures, verify_message_signatures with the matching keys and each params' key id returns a list with Ok at every position, and each returned name is one of the names whose params carry that key id.", "quantifier": "every message, every number of signatures, every assignment of keys and names", "why_tests_cant": "tests fix the number of signatures (two); the joining of many header lines and re-parsing must hold for every number", "anchors": ["httpsig-hyper/src/hyper_http.rs:set_message_signatures,verify_message_signatures,verify_message_signatures_inner"]}
{"id": "C04", "title": "Signing a message that already carries signatures", "statement": "If the message already carries parseable Signature and Signature-Input headers with equal label sets, then after a successful set_message_signature the parsed header map is the old map with the new label inserted: all other labels keep params, signature bytes and position; an existing equal label is overwritten in place by the new signature.", "quantifier": "every pre-existing pair of header texts accepted by the parser, every number of header lines, every new safe signature", "why_tests_cant": "needs the parser to be compositional over arbitrary already-present header text", "anchors": ["httpsig-hyper/src/hyper_http.rs:set_message_signatures,extract_signature_headers_with_name", "httpsig/src/signature_base.rs:try_parse"]}
{"id": "C05", "title": "HttpSignatureParams text round trip", "statement": "HttpSignatureParams::try_from(params.to_string()) returns params, for every params whose strings are printable ASCII without double quote or backslash, whose timestamps are below 10^15 and whose covered ids are safe; it is false without these conditions.", "quantifier": "every params value (all seven fields, any number of covered components)", "why_tests_cant": "unbounded strings and component lists; the failing inputs (quotes, backslashes, large timestamps) are outside the tests", "anchors": ["httpsig/src/signature_params.rs:Display,TryFrom<&str>"]}
{"id": "C06", "title": "Component id text round trip", "statement": "HttpMessageComponentId::try_from(id.to_string()) returns id for every id whose names are printable ASCII without quote or backslash and that obeys the parameter rules; the text accepted without quotes yields the same id as the quoted text; false without the character condition.", "quantifier": "every component name and every ordered set of parameters", "why_tests_cant": "unbounded strings and parameter combinations", "anchors": ["httpsig/src/message_component/component_id.rs:TryFrom<&str>,Display", "httpsig/src/message_component/component_param.rs", "httpsig/src/message_component/component_name.rs"]}
{"id": "C07", "title": "Signature headers round trip", "statement": "HttpSignatureHeaders::try_parse(h.signature_header_value(), h.signature_input_header_value()) returns exactly one entry, keyed by h's name, with the same signature bytes and the same params, for every headers object with a legal name and safe params.", "quantifier": "every signature byte string of any length, every safe params, every legal name", "why_tests_cant": "every byte string must survive base64 and two SFV dictionaries", "anchors": ["httpsig/src/signature_base.rs:HttpSignatureHeaders"]}
{"id": "C08", "title": "The signature base is unambiguous", "statement": "If two signature bases built from messages are equal as bytes, then they have the same number of covered components, the same component identifier text at each position, the same component value at each position and the same serialized signature parameters.", "quantifier": "every pair of messages and params, including attacker-chosen component names and parameter strings with quotes, colons and parentheses", "why_tests_cant": "an absence-of-collision claim over all pairs", "anchors": ["httpsig/src/signature_base.rs:Display for HttpSignatureBase,as_bytes", "httpsig-hyper/src/hyper_http.rs:build_signature_base"]}
{"id": "C09", "title": "Tampering with a covered component is detected", "statement": "If the verifying key accepts a signature only for data that was signed by the holder, then whenever verify_message_signature returns Ok(name) on a received message, the holder signed a base whose covered identifiers, component values and parameters are those recomputed from the received message under that name.", "quantifier": "every received message, every set of previously signed bases, every adversarial rewriting of headers, URI, method, status", "why_tests_cant": "a security claim over all modifications", "anchors": ["httpsig-hyper/src/hyper_http.rs:verify_message_signature", "httpsig/src/signature_base.rs:verify_signature_headers"]}
{"id": "C10", "title": "Verification decides exactly what it should", "statement": "verify_message_signature(key, id) returns Ok(name) if and only if name is the first label (in Signature-Input order) whose base can be rebuilt from the message, whose keyid equals id when id is given, which is not expired and whose signature the key accepts; when candidates exist but none is accepted the error is InvalidSignature, when none exist it is NoSignatureHeaders.", "quantifier": "every message, key, optional key id and clock reading (for which no primitive panics)", "why_tests_cant": "the selection logic filters, swallows errors and takes a first element over arbitrary many signatures", "anchors": ["httpsig-hyper/src/hyper_http.rs:verify_message_signatures_inner,extract_signatures_inner"]}
{"id": "C11", "title": "Key id filter", "statement": "verify_message_signature(key, Some(id)) never succeeds because of a signature whose keyid parameter is absent or differs from id; the outcome depends only on the signatures with that keyid.", "quantifier": "every message and id", "why_tests_cant": "universally quantified negative claim", "anchors": ["httpsig-hyper/src/hyper_http.rs:verify_message_signatures_inner"]}
{"id": "C12", "title": "Expiry is enforced at the stated boundary", "statement": "A signature with expires = e is rejected at every time t > e whatever the key says, and is not rejected on grounds of time at t <= e; a signature without expires never expires. `created` never influences the decision.", "quantifier": "all timestamps in u64, all clock readings, all keys", "why_tests_cant": "boundary over the whole 64-bit range and all messages", "anchors": ["httpsig/src/signature_params.rs:is_expired", "httpsig/src/signature_base.rs:verify_signature_headers"]}
{"id": "C13", "title": "Signature and Signature-Input must carry the same labels", "statement": "try_parse returns Ok only if the two dictionaries have exactly the same set of labels, every Signature member is a byte sequence and every Signature-Input member is an inner list; the returned map has exactly those labels in Signature-Input order and pairs each label with its own params and bytes.", "quantifier": "every pair of header strings", "why_tests_cant": "arbitrary strings, duplicates and orders", "anchors": ["httpsig/src/signature_base.rs:try_parse"]}
{"id": "C14", "title": "Duplicate covered components are refused", "statement": "HttpSignatureParams::try_new and try_from return Ok only if the covered ids are pairwise distinct, where ids that differ only in the order of their parameters count as equal; and they never refuse a list of pairwise distinct ids for being duplicate.", "quantifier": "every list of ids", "why_tests_cant": "hash-set membership with a custom hash must agree with equality on all ids", "anchors": ["httpsig/src/signature_params.rs:try_new,try_from", "httpsig/src/util.rs:has_unique_elements", "httpsig/src/message_component/component_param.rs:Hash"]}
{"id": "C15", "title": "Parameter discipline of component ids", "statement": "Every HttpMessageComponentId returned by try_from has `name` only on @query-param, `sf`, `key`, `bs`, `tr` only on HTTP fields, no repeated parameter, and a name that starts with @ exactly when it is one of the ten derived components.", "quantifier": "every input string", "why_tests_cant": "all strings", "anchors": ["httpsig/src/message_component/component_id.rs:TryFrom<&str>"]}
{"id": "C16", "title": "Parsing untrusted signature headers does not panic", "statement": "No Signature / Signature-Input header text makes parsing (try_parse, HttpSignatureParams::try_from, HttpMessageComponentId::try_from) panic. (Expected by users; the code violates it: unknown derived component names and negative created/expires panic. Proved instead: an exact characterisation of the panicking inputs.)", "quantifier": "every header text", "why_tests_cant": "a panic-freedom claim over all attacker-supplied strings", "anchors": ["httpsig/src/message_component/component_name.rs:From<&str> for DerivedComponentName", "httpsig/src/signature_params.rs:try_from"]}
{"id": "C17", "title": "Verifying untrusted signature bytes does not panic", "statement": "VerifyingKey::verify does not panic for any data and signature bytes. (Holds for HMAC, Ed25519 and RSA; violated for ECDSA, where a signature of another length than 64 or 96 bytes panics. Proved: exact characterisation, lifted to verify_message_signature.)", "quantifier": "every signature byte string, data and key", "why_tests_cant": "all byte strings", "anchors": ["httpsig/src/crypto/asymmetric.rs:verify", "httpsig/src/crypto/symmetric.rs:verify"]}
{"id": "C18", "title": "Internal `unreachable!`, `unwrap` and indexing never fire", "statement": "The unreachable! arms in try_parse and extract_content_digest, pop().unwrap() in verify_message_signature, field_values[0], and the header-value unwrap in set_content_digest are never reached on any input.", "quantifier": "every input to the public API", "why_tests_cant": "absence over all inputs", "anchors": ["httpsig/src/signature_base.rs:85", "httpsig-hyper/src/hyper_http.rs:327,457", "httpsig/src/message_component/component.rs:97-126", "httpsig-hyper/src/hyper_content_digest.rs:124,179,253"]}
{"id": "C19", "title": "Content digest: set then verify succeeds", "statement": "For every message whose body can be read, set_content_digest(type) returns a message for which verify_content_digest returns Ok with the same body, headers and other parts.", "quantifier": "every body, every header map (including ones with older content-digest lines), both digest types", "why_tests_cant": "all bodies and header maps", "anchors": ["httpsig-hyper/src/hyper_content_digest.rs:set_content_digest,verify_content_digest"]}
{"id": "C20", "title": "Content digest verification is exact", "statement": "verify_content_digest returns Ok if and only if the first Content-Digest header line parses as a dictionary with exactly one member, labelled sha-256 or sha-512, whose value is a byte sequence equal to that hash of the body; each other case returns the corresponding error and never Ok. A body whose hash differs is always rejected.", "quantifier": "every header text and body", "why_tests_cant": "all header strings and all bodies", "anchors": ["httpsig-hyper/src/hyper_content_digest.rs:extract_content_digest,is_equal_digest,verify_content_digest"]}
{"id": "C21", "title": "set_content_digest replaces and preserves", "statement": "After set_content_digest there is exactly one Content-Digest line, of the form alg=:base64:, whatever was there before; every other header, the body bytes and the request/response parts are unchanged; a body error yields HttpBodyError.", "quantifier": "every message and digest type", "why_tests_cant": "all header maps", "anchors": ["httpsig-hyper/src/hyper_content_digest.rs:set_content_digest"]}
{"id": "C22", "title": "Rules for the `req` parameter and for derived components", "statement": "Signing or extracting a base from a request fails if any covered id has `req`; from a response it fails if an id has `req` and no request is supplied, if a derived id other than @status/@signature-params lacks `req`, or if @status has `req`; @status on a request fails.", "quantifier": "every message, every id list, every optional request", "why_tests_cant": "all combinations of ids and messages", "anchors": ["httpsig-hyper/src/hyper_http.rs:build_signature_base,extract_derived_component"]}
{"id": "C23", "title": "`req` components come from the request, the others from the response", "statement": "The base of a response depends on the response only through its status and headers used by ids without `req`, and on the request only through ids with `req`: two responses (or requests) agreeing on these give the same base.", "quantifier": "every pair of responses and requests", "why_tests_cant": "relational property over pairs", "anchors": ["httpsig-hyper/src/hyper_http.rs:build_signature_base"]}
{"id": "C24", "title": "Uncovered parts do not influence verification", "statement": "Changing the body or any header that is not covered and is not signature or signature-input changes neither the signing outcome, nor the signature base, nor the verification outcome.", "quantifier": "every message, every change to uncovered headers", "why_tests_cant": "relational property over all changes", "anchors": ["httpsig-hyper/src/hyper_http.rs:build_signature_base,extract_http_field"]}
{"id": "C25", "title": "Value of an HTTP field component", "statement": "For an id without parameters (or only `req`), the component value is the field's values in arrival order joined with \", \"; a value that is not visible ASCII makes the call fail.", "quantifier": "every header map and field name", "why_tests_cant": "any number of values of any content", "anchors": ["httpsig-hyper/src/hyper_http.rs:extract_http_field", "httpsig/src/message_component/component.rs:build_http_field_component"]}
{"id": "C26", "title": "Header names are matched without regard to case, order of other fields is irrelevant", "statement": "The base only depends on, for each field name, the sequence of its values: permuting lines of different fields does not change it; ids differing in letter case select the same values.", "quantifier": "every header map and every reordering that keeps the relative order of equal names", "why_tests_cant": "all permutations", "anchors": ["httpsig-hyper/src/hyper_http.rs:extract_http_field"]}
{"id": "C27", "title": "`sf` canonicalisation", "statement": "With `sf`, each field line is replaced by the canonical serialization of the list (else dictionary) it parses to; canonicalising again changes nothing; two lines that parse to the same list give the same component value; unparseable or empty lines make the call fail.", "quantifier": "every field value", "why_tests_cant": "all strings", "anchors": ["httpsig/src/message_component/component_param.rs:handle_params_sf"]}
{"id": "C28", "title": "`key` selects dictionary members", "statement": "With `key=k`, the component value is the canonical serialization of the k member of every line's dictionary, in order, joined with \", \"; lines without k contribute nothing; an unparseable line makes the call fail.", "quantifier": "every field value list and key", "why_tests_cant": "all strings", "anchors": ["httpsig/src/message_component/component_param.rs:handle_params_key_into"]}
{"id": "C29", "title": "@query-param selects by exact name", "statement": "The value of @query-param;name=n is the raw text after the first = of each &-separated query piece whose part before it equals n, in order, joined with \", \"; without `name`, or with an empty query, the call fails.", "quantifier": "every query string and name", "why_tests_cant": "all strings", "anchors": ["httpsig-hyper/src/hyper_http.rs:extract_derived_component", "httpsig/src/message_component/component.rs:build_derived_component"]}
{"id": "C30", "title": "Values of the derived components", "statement": "@method is the upper-cased method; @authority and @scheme are lower-cased; @path is the path or / when empty; @query is ? followed by the query; @target-uri is the full URI; @status is the decimal status; @request-target is the authority for CONNECT, * for OPTIONS and path-and-query otherwise.", "quantifier": "every request and response", "why_tests_cant": "all URIs and methods", "anchors": ["httpsig-hyper/src/hyper_http.rs:extract_derived_component", "httpsig/src/message_component/component.rs:build_derived_component"]}
{"id": "C31", "title": "Algorithm names", "statement": "AlgorithmName::from_str(a.to_string()) = a for each algorithm, from_str accepts nothing else, and get_alg_key_ids reports for each label the algorithm if known, None if unknown or absent, together with the keyid, and never fails because of an unknown name.", "quantifier": "every string, both feature configurations, every message", "why_tests_cant": "all strings", "anchors": ["httpsig/src/crypto/mod.rs", "httpsig-hyper/src/hyper_http.rs:get_alg_key_ids_inner"]}
{"id": "C32", "title": "Structured field round trip", "statement": "For every structured list or dictionary obtained by parsing, serializing it and parsing again gives the same value; labels and parameter keys are unique after parsing with last-wins semantics.", "quantifier": "every accepted field text: all item types, nesting, parameters", "why_tests_cant": "unbounded nesting of lists, parameters and strings", "anchors": ["sfv 0.14 (dependency) as used in httpsig/src/signature_base.rs, httpsig/src/signature_params.rs, httpsig/src/message_component/component_param.rs"]}
{"id": "C33", "title": "Base64 and signature bytes", "statement": "Every byte string put into a Signature header is recovered exactly; the strict decoder used for shared keys accepts exactly the canonical encodings.", "quantifier": "every byte string and every text", "why_tests_cant": "all byte strings of all lengths", "anchors": ["httpsig/src/signature_base.rs:Display for HttpSignature", "httpsig/src/crypto/symmetric.rs:from_base64"]}
{"id": "C34", "title": "Failed signing leaves the message unsigned", "statement": "If set_message_signatures returns Err because a base cannot be built or a key fails, the headers are unchanged. If it fails while writing headers, what was written is a prefix of whole (signature-input, signature) pairs. On success one line of each is appended per signature, in order.", "quantifier": "every message and every list of signers, with failures at any position", "why_tests_cant": "failure points at every index", "anchors": ["httpsig-hyper/src/hyper_http.rs:set_message_signatures"]}
{"id": "C35", "title": "Batch verification agrees with single verification", "statement": "verify_message_signatures returns one result per key in the order given, and the i-th result equals what verify_message_signature returns for the i-th key alone.", "quantifier": "every message, every number of keys", "why_tests_cant": "any number of keys", "anchors": ["httpsig-hyper/src/hyper_http.rs:verify_message_signatures,verify_message_signature"]}
{"id": "C36", "title": "Results do not depend on the polling schedule", "statement": "However an executor interleaves the per-key and per-signature futures, join_all yields the results in input order, equal to running each to completion alone; the blocking wrappers give the same results.", "quantifier": "every schedule of polls, every number of futures and of suspension points", "why_tests_cant": "schedules cannot be enumerated by tests", "anchors": ["httpsig-hyper/src/hyper_http.rs:join_all uses, MessageSignatureReqSync, MessageSignatureResSync"]}
{"id": "C37", "title": "HttpSignatureBase::try_new checks the lines", "statement": "try_new(lines, params) is Ok if and only if there are as many lines as covered ids and the i-th line's id equals the i-th covered id (parameter order ignored).", "quantifier": "every list of lines and params", "why_tests_cant": "all lists", "anchors": ["httpsig/src/signature_base.rs:try_new"]}
{"id": "C38", "title": "Layout of the signature base", "statement": "The base consists of one line `id: value` per covered component in order, each ended by a newline, then the line \"@signature-params\": followed by the serialized params with no newline; splitting at newlines gives back exactly these lines.", "quantifier": "every message and params", "why_tests_cant": "all contents; a newline inside a value would break it", "anchors": ["httpsig/src/signature_base.rs:Display", "RFC 9421 section 2.5"]}
{"id": "C39", "title": "Parameters are re-serialized in a fixed order and unknown ones are dropped", "statement": "The params line depends only on the six known parameters and the covered ids: two Signature-Input members that differ in parameter order, in unknown parameters or in ill-typed values of known ones parse to the same params and hence the same base.", "quantifier": "every inner list and every permutation and insertion of parameters", "why_tests_cant": "all permutations and insertions", "anchors": ["httpsig/src/signature_params.rs:try_from,Display"]}
{"id": "C40", "title": "Key identity is coherent", "statement": "For every secret key, key_id() and alg() equal those of its public key, verify() through the secret key equals verify() through its public key; for a shared key both traits agree; a key id is always 44 base64 characters.", "quantifier": "every key of every algorithm", "why_tests_cant": "all keys", "anchors": ["httpsig/src/crypto/asymmetric.rs", "httpsig/src/crypto/symmetric.rs"]}
{"id": "C41", "title": "No algorithm confusion on key import", "statement": "from_der / from_pem / from_bytes / from_base64 return Ok(key) only with key.alg() equal to the requested algorithm and only if the encoded key declares the matching algorithm and curve identifiers; HMAC is never accepted for asymmetric keys nor the reverse.", "quantifier": "every algorithm, every decoded key structure", "why_tests_cant": "all combinations of requested and declared identifiers", "anchors": ["httpsig/src/crypto/asymmetric.rs:from_der,from_pem,from_bytes", "httpsig/src/crypto/symmetric.rs:from_base64"]}
{"id": "C42", "title": "HMAC verification accepts exactly the right tag", "statement": "SharedKey::verify(data, tag) is Ok if and only if tag equals sign(data); truncated or extended tags are rejected; sign never fails and gives 32 bytes.", "quantifier": "every key, data and tag of any length", "why_tests_cant": "all byte strings", "anchors": ["httpsig/src/crypto/symmetric.rs"]}
{"id": "C43", "title": "Expiry by duration", "statement": "set_expires_with_duration(d) sets expires to created + d (300 when absent); it panics if created is absent; on 64-bit overflow it panics in checked builds and wraps in release builds; the result is then not expired at any time up to created + d.", "quantifier": "all u64 values", "why_tests_cant": "64-bit range", "anchors": ["httpsig/src/signature_params.rs:set_expires_with_duration"]}
{"id": "C44", "title": "Component line round trip", "statement": "HttpMessageComponent::try_from(line.to_string()) gives back id and value for every component whose id contains no colon and whose value has no surrounding whitespace; lines without a colon or without a quoted id are refused.", "quantifier": "every component", "why_tests_cant": "all strings", "anchors": ["httpsig/src/message_component/component.rs:TryFrom<&str>"]}
{"id": "C45", "title": "Body authenticity end to end", "statement": "If a message verifies under an unforgeable key with content-digest covered, there is a single Content-Digest line, and verify_content_digest returns Ok, then the holder signed a base stating a digest that equals the hash of the received body.", "quantifier": "every received message and body", "why_tests_cant": "security claim over all modifications", "anchors": ["httpsig-hyper/src/hyper_content_digest.rs:verify_content_digest", "httpsig-hyper/src/hyper_http.rs:verify_message_signature"]}
{"id": "C46", "title": "Params built through the API are safe to send", "statement": "Params built with try_new on parsed safe ids and any sequence of set_created, set_expires, set_nonce, set_keyid, set_tag, set_alg, set_key_info, set_random_nonce, set_expires_with_duration with safe arguments always satisfy the conditions of C01 and C05; set_random_nonce and set_key_info need no condition at all.", "quantifier": "every sequence of setter calls", "why_tests_cant": "unbounded call sequences", "anchors": ["httpsig/src/signature_params.rs:setters"]}
{"id": "C47", "title": "Covering an absent header fails", "statement": "Signing or verifying with a covered header field that the message does not contain fails. (Required by RFC 9421 section 2.5; the code violates it: an absent field is treated as an empty value. Proved: the exact behaviour and a message pair that cannot be told apart.)", "quantifier": "every message and field name", "why_tests_cant": "all messages", "anchors": ["httpsig-hyper/src/hyper_http.rs:extract_http_field"]}
{"id": "C48", "title": "@request-target binds the target", "statement": "Two requests with different request targets have different @request-target values. (Holds for methods other than OPTIONS and CONNECT; violated for OPTIONS, where the value is always *.)", "quantifier": "every pair of requests", "why_tests_cant": "all URI pairs", "anchors": ["httpsig-hyper/src/hyper_http.rs:894-902"]}
{"id": "C49", "title": "Inspection functions agree with verification", "statement": "has_message_signature, get_signature_params, get_alg_key_ids and extract_signatures agree: the label sets and params reported are those used by verification; extract_signatures is a sub-map of them; without both headers all of them report absence.", "quantifier": "every message", "why_tests_cant": "all header texts", "anchors": ["httpsig-hyper/src/hyper_http.rs:has_message_signature_inner,get_signature_params_inner,get_alg_key_ids_inner,extract_signatures_inner"]}
{"id": "C50", "title": "Signing only appends signature headers", "statement": "set_message_signature(s) changes nothing but the values of the signature and signature-input headers, where it only appends; the request passed for `req` is untouched.", "quantifier": "every message and signer list, success or failure", "why_tests_cant": "all header maps", "anchors": ["httpsig-hyper/src/hyper_http.rs:set_message_signatures"]}
{"id": "C51", "title": "Signature name must be an SFV key", "statement": "A signature produced under a name that is not an SFV key can never be read back under that name: parsing the produced headers fails or yields a different label.", "quantifier": "every name string", "why_tests_cant": "all strings", "anchors": ["httpsig/src/signature_base.rs:signature_header_value,signature_input_header_value"]}
{"id": "C52", "title": "Parameter strings cannot inject other parameters", "statement": "Setting nonce, keyid, alg or tag changes only that parameter in the serialized and re-parsed params. (Holds for safe strings; violated for strings with a double quote, which are not escaped. Proved both.)", "quantifier": "every string", "why_tests_cant": "all strings", "anchors": ["httpsig/src/signature_params.rs:Display"]}
{"id": "C53", "title": "Trailing forms of signature text are equivalent", "statement": "Verification sees only decoded signature bytes: two Signature header texts that decode to the same bytes (for instance with and without padding) give the same outcome.", "quantifier": "every pair of header texts", "why_tests_cant": "relational", "anchors": ["httpsig/src/signature_base.rs:try_parse"]}
{"id": "C54", "title": "HMAC shared keys are distinguished only up to zero padding", "statement": "Keys of at most 64 bytes that differ only by trailing zero bytes produce the same tags although their key ids are computed from the raw key bytes.", "quantifier": "every key and data", "why_tests_cant": "all keys", "anchors": ["httpsig/src/crypto/symmetric.rs"]}
{"id": "C55", "title": "Adding signatures with other key ids leaves verification of the others alone", "statement": "If a message carries signatures and more are added by a successful set_message_signatures whose parameters carry key ids other than i, under labels that no signature with key id i has, then verify_message_signature with key id i returns exactly what it returned before, success or error, provided the signatures with key id i do not cover the signature fields.", "quantifier": "every message with signatures, every list of new signers, every key and clock reading", "why_tests_cant": "The added header lines change the text of both dictionaries; that nothing about the old members changes is a statement about the parser on all texts.", "anchors": ["httpsig-hyper/src/hyper_http.rs:280-312", "httpsig-hyper/src/hyper_http.rs:314-370", "httpsig/src/signature_base.rs:18-80"]}
{"id": "C56", "title": "Dropping a signing call changes nothing", "statement": "A set_message_signatures future that is dropped before it finished, at whatever point of whatever schedule, leaves the header map of the message unchanged.", "quantifier": "every message, every list of signers, every schedule and every drop point", "why_tests_cant": "drop points and schedules cannot be enumerated", "anchors": ["httpsig-hyper/src/hyper_http.rs:set_message_signatures"]}
{"id": "C57", "title": "When importing a private key panics", "statement": "SecretKey::from_bytes panics exactly when the bytes for ECDSA P-256, P-384 or Ed25519 have a length other than 32, 48 or 32, or the Ed25519 library refuses the seed. SecretKey::from_der panics exactly when the encoded key declares the requested algorithm and is an Ed25519 key whose content does not have 34 bytes or is refused, or an EC key whose scalar has the wrong length. PublicKey::from_bytes never panics.", "quantifier": "for all algorithms, byte strings, builds with or without rsa, and behaviours of the decoders", "why_tests_cant": "tests import a few well-formed keys; the set of inputs that crash the process is infinite and depends on lengths inside nested encodings", "anchors": ["httpsig/src/crypto/asymmetric.rs:65-149", "httpsig/src/crypto/asymmetric.rs:260-293"]}
{"id": "C58", "title": "Exact text of ids, parameters, base and signature fields", "statement": "The text of a component id is the quoted name followed by its parameters; the text of signature parameters is the ids in parentheses separated by one space, then created, expires, nonce, alg, keyid, tag in this order as far as present. The signed bytes and both header values are built from exactly these texts.", "quantifier": "for all ids, parameters, messages and signatures", "why_tests_cant": "tests compare a few fixed parameter sets; a wrong order or separator that is used consistently by signer and verifier passes every round trip test", "anchors": ["httpsig/src/signature_params.rs:123-153", "httpsig/src/message_component/component_id.rs:25-29", "httpsig/src/signature_base.rs:118-124"]}
{"id": "C59", "title": "Expiry with one clock reading per signature", "statement": "When every candidate signature is checked against its own reading of the system clock, a message verifies under a label exactly if no candidate crashes at its reading and the label is the first whose signature is accepted at its reading; a clock before 1970 makes the call panic exactly if a candidate has expires. If no expiry of the message falls between the readings, the outcome is the one for a single reading.", "quantifier": "every message, key, key id and every assignment of clock readings to signatures, including readings before 1970", "why_tests_cant": "tests do not control the system clock and never let it pass an expiry during one call", "anchors": ["httpsig/src/signature_params.rs:114-120", "httpsig/src/signature_base.rs:202-214", "httpsig-hyper/src/hyper_http.rs:679-697"]}
{"id": "C60", "title": "Digests do not depend on framing, and trailers are lost", "statement": "Collecting a body ends after one poll more than the body makes its reader wait and gives its data in order or the failure. set_content_digest and verify_content_digest give the same result for every way of cutting the same data into frames, pausing and adding trailers; the returned body has the same data in at most one frame, no trailers, and verifies after setting.", "quantifier": "every finite stream of data frames, trailers, pauses and failures, every header map, every number of polls", "why_tests_cant": "tests use bodies of one frame without trailers", "anchors": ["httpsig-hyper/src/hyper_content_digest.rs:18-41", "httpsig-hyper/src/hyper_content_digest.rs:111-155", "httpsig-hyper/src/hyper_content_digest.rs:166-207"]}
{"id": "C61", "title": "The hash functions and HMAC are the standard ones", "statement": "SHA-256, SHA-512 and HMAC-SHA256 as used for digests, key ids and shared key signatures are the functions of FIPS 180-4 and RFC 2104, with constants that are the leading fraction bits of the square and cube roots of the first primes. A shared key accepts exactly the RFC 2104 tag, and content digests are compared with the standard's hash of the body.", "quantifier": "every message and key within the length limits of the standard", "why_tests_cant": "known answers check a few inputs; a wrong schedule or padding can agree on short messages", "anchors": ["httpsig/src/crypto/symmetric.rs:38-84", "httpsig-hyper/src/hyper_content_digest.rs:45-59"]}
{"id": "C62", "title": "The signature base is that of RFC 9421", "statement": "For every message and every member of Signature-Input for which RFC 9421 section 2 defines a signature base, signing and verification use exactly that text; where the RFC defines none, they report an error. A message is accepted exactly if the RFC's base verifies for its first acceptable signature.", "quantifier": "every message with its optional request, every legal inner list, every context (types of structured fields, scheme of the connection), every key that does not panic", "why_tests_cant": "tests sign and verify with the same library, so a deviation from the RFC cancels out; only another implementation would notice", "anchors": ["httpsig/src/signature_base.rs:237-248", "httpsig/src/signature_params.rs:123-155", "httpsig-hyper/src/hyper_http.rs:807-930"]}
{"id": "C63", "title": "The structured field parser reads exactly the grammar", "statement": "A list, dictionary or item is read from a header text exactly when the text denotes that value under the grammar of RFC 9651 (with the parser's documented width: byte sequences without padding or with left-over bits, optional white space at the end of lists and dictionaries, repeated keys where the last value counts and the first place is kept). Everything else is refused, and a text denotes at most one value.", "quantifier": "every text", "why_tests_cant": "a parser that accepts a little too much (a trailing comma, a leading tab, a sixteenth digit, an unpadded byte sequence) passes every test made of ordinary headers", "anchors": ["httpsig/src/signature_base.rs:36-44", "httpsig/src/signature_params.rs:214-216", "httpsig/src/message_component/component_param.rs:105-150", "httpsig/src/message_component/component_id.rs:40-48", "httpsig-hyper/src/hyper_content_digest.rs:228-236"]}
{"id": "C64", "title": "The serializer writes the canonical text", "statement": "The text written for a legal list, dictionary or item is the canonical text of RFC 9651 section 4.1, the only one: no needless zeros, full padding, escapes only where needed, single separators, true left out. The sf parameter replaces a line by the canonical text of the list, or else the dictionary, that the line denotes, and refuses lines that denote neither.", "quantifier": "every legal value, every line", "why_tests_cant": "a non-canonical but readable text survives every round trip within the library and fails only against another implementation", "anchors": ["httpsig/src/message_component/component_param.rs:105-150", "httpsig/src/signature_params.rs:170"]}
{"id": "C65", "title": "Signing and verification from the bytes up", "statement": "There is a specification of signing and verification that starts at the header lines of a message and uses no function of the library: which identifiers, parameters and signatures the lines denote, what each covered component is worth, which text was signed. Reading, values, signature base, the verdict of verification (accepted with which label, invalid, none found) and the lines added by signing are exactly those of this specification.", "quantifier": "every well-formed message, every key, key id, clock reading, list of signers", "why_tests_cant": "the specification decides every message, including malformed identifiers and odd but legal spellings of the fields that no test writes down", "anchors": ["httpsig/src/signature_base.rs:32-100", "httpsig/src/signature_params.rs:155-224", "httpsig/src/message_component/component_id.rs:31-81", "httpsig/src/message_component/component_param.rs:40-150", "httpsig/src/message_component/component.rs:48-183", "httpsig-hyper/src/hyper_http.rs:265-436"]}
{"id": "C66", "title": "ECDSA keys and signatures are those of FIPS 186-4 and SEC 1", "statement": "For ecdsa-p256-sha256 and ecdsa-p384-sha384: the byte strings taken as public keys are exactly the SEC 1 encodings of points (compressed, uncompressed, compact), the same point gives the same key however it is written, private keys are exactly the numbers from 1 to n-1 at full length, public key and private key belong together exactly if the point is that multiple of the base point, every public key has a private key, a signature is accepted exactly if FIPS 186-4 declares it valid for the point and the digest of the data, what is signed satisfies the signing equations and is accepted. The key id is the hash of the compressed point (the comment in the source says uncompressed).", "quantifier": "every byte string, key, message below the limit of the hash, signature, choice of nonces in range", "why_tests_cant": "tests use a few keys and signatures made by the same library; they do not reach points off the curve, encodings in other forms, numbers out of range, the second valid signature, or a wrong group law for rare points", "anchors": ["httpsig/src/crypto/asymmetric.rs:65-86", "httpsig/src/crypto/asymmetric.rs:177-193", "httpsig/src/crypto/asymmetric.rs:260-272", "httpsig/src/crypto/asymmetric.rs:358-379", "httpsig/src/crypto/asymmetric.rs:404-432"]}
{"id": "C67", "title": "Ed25519 keys and signatures are those of RFC 8032", "statement": "For ed25519: the addition formulas are total on the curve and form a commutative group, the base point is unique and has order L. Any 32 bytes are taken as a public key and used for the key id; a signature is accepted exactly if RFC 8032 section 5.1.7 accepts it for those bytes, in each of the forms of that section in use. Private keys are the strings of 32 bytes other than all zeros, a public key belongs to a private key exactly if it is the strict encoding of the clamped scalar times the base point, signing succeeds, satisfies the signing equations and is accepted. The second half of an accepted signature is determined by the first half, the key and the message. Bytes that are no point are imported and accept nothing; the neutral element is imported and, if the library does not refuse it, accepts one signature for every message.", "quantifier": "every byte string, seed, message below the limit of the hash, signature, nonce function, and every choice of strictness, cofactor and weak key check", "why_tests_cant": "tests use a few keys made by the same library; they do not reach keys that are no points, points of small order, unreduced or negative-zero encodings, unreduced scalars, or exceptional cases of the addition law", "anchors": ["httpsig/src/crypto/asymmetric.rs:77-83", "httpsig/src/crypto/asymmetric.rs:194-198", "httpsig/src/crypto/asymmetric.rs:272-276", "httpsig/src/crypto/asymmetric.rs:380-386", "httpsig/src/crypto/asymmetric.rs:404-415"]}
{"id": "C68", "title": "Key files are read as X.690, RFC 5208, RFC 5280, RFC 5915, RFC 8410 and RFC 7468 say", "statement": "A private key is imported from DER exactly if the bytes are one PrivateKeyInfo in distinguished encoding that names the requested algorithm (for curves also the requested curve) and whose key field holds a key of that algorithm; from PEM exactly if the text has the label PRIVATE KEY on both boundaries around the base64 of such a file. The same for public keys with SubjectPublicKeyInfo and the label PUBLIC KEY. A file is imported under one algorithm only (an RSA key under both RSA algorithms), and the key is the one its bytes denote. Import panics exactly for Ed25519 fields not of 34 bytes or with a zero seed and for curve scalars of the wrong length. Every key that can be imported from bytes has a PEM text. The public key inside an ECPrivateKey and the two bytes before an Ed25519 seed have no influence.", "quantifier": "every byte string and text, every algorithm, and every choice of the limits of the DER and PEM readers", "why_tests_cant": "tests import one file per algorithm; they do not reach other encodings of lengths, integers and identifiers, trailing bytes, foreign labels, other line layouts, or files that disagree with themselves", "anchors": ["httpsig/src/crypto/asymmetric.rs:103-158", "httpsig/src/crypto/asymmetric.rs:297-353", "httpsig/src/crypto/asymmetric.rs:23-45"]}
{"id": "C69", "title": "RSA keys and signatures are those of RFC 8017", "statement": "For rsa-v1_5-sha256 and rsa-pss-sha512 with the feature: a public key is imported exactly if the bytes are one RSAPublicKey in DER with numbers inside the library's limits, its key id is the base64 of the SHA-256 of these bytes; a private key exactly if the bytes are one RSAPrivateKey whose numbers fit each other; all else is an error and nothing panics. A public key belongs to a private key exactly if modulus and public exponent agree. A signature is accepted exactly if RFC 8017 section 8.2.2 or 8.1.2 (SHA-512, MGF1 with SHA-512, salt of 64 bytes) accepts it. Signing gives an accepted signature of the length of the modulus or panics; with two primes it gives the number em^d mod n from 62 bytes on (rsa-v1_5-sha256) and from 2^1033 on (rsa-pss-sha512), below that it always panics and the public key accepts nothing. A message has at most one accepted rsa-v1_5-sha256 signature of the right length; two messages with the same signature have colliding digests.", "quantifier": "every byte string as key file, message below the limit of the hash, signature, random salt, and every choice of limits, blinding, accepted lengths and treatment of the top byte", "why_tests_cant": "tests use one key of 2048 bits; they do not reach other encodings of the padding, other salt lengths, unreduced signatures, moduli whose length is one more than a multiple of eight bits, short moduli, or files with inconsistent numbers", "anchors": ["httpsig/src/crypto/asymmetric.rs:84-98", "httpsig/src/crypto/asymmetric.rs:199-210", "httpsig/src/crypto/asymmetric.rs:277-291", "httpsig/src/crypto/asymmetric.rs:387-400", "httpsig/src/crypto/asymmetric.rs:404-432"]}
{"id": "C70", "title": "From key file and message bytes to acceptance, with no cryptographic assumption", "statement": "Whatever route a public key is imported by, and for every algorithm, a message is accepted with label n exactly if its Signature and Signature-Input lines carry signatures, none that is checked is an ECDSA signature of a wrong length, and n is the label of the first signature that has the key id asked for, is not expired and is, by the standard of the algorithm (RFC 2104, FIPS 186-4, RFC 8032, RFC 8017), a signature of the text of the covered components for the key in the file. Keys that are not ECDSA keys never panic on a signature and refuse everything else with an error. A public key belongs to a private key exactly if the standard says so of their bytes; then a message without signatures that is signed with the private key and its key info verifies under the public key and its key id until it expires. Signing succeeds exactly if the covered components have values and the key signs; Ed25519 and shared keys always do.", "quantifier": "every key file, algorithm, request or response, corresponding request, parameters that can be written, label, clock and randomness, and every choice in the libraries", "why_tests_cant": "the tests take a handful of keys and one or two messages; none compares the decision with the standards, and the combination of all message shapes, key files and signatures is unbounded", "anchors": ["httpsig/src/crypto/asymmetric.rs:297-402", "httpsig/src/crypto/symmetric.rs:38-72", "httpsig/src/signature_params.rs:90-95", "httpsig-hyper/src/hyper_http.rs:265-345", "httpsig-hyper/src/hyper_http.rs:386-480", "httpsig-hyper/src/hyper_http.rs:660-740"]}
{"id": "C71", "title": "Messages given as text", "statement": "For every text: it is accepted as a URI exactly if it is within the length limit and has the asterisk, origin, authority or absolute form with the characters the library allows, and then its parts are those of that form; no text has two readings and a fragment is dropped. Every request or response made from text satisfies the well-formedness hypotheses (lower-case token names, no line break in method or URI) used elsewhere. The values of the derived components are exactly the corresponding pieces of the target text; requests with equal @target-uri agree in @authority, @scheme, @path, @query, @query-param and, with equal methods, @request-target; hence, under an unforgeable key, an accepted signature that covers @target-uri means that the holder signed a request for the same URI.", "quantifier": "all texts of targets, methods and header lines, all character tables of the URI library within its documented limits, all keys", "why_tests_cant": "The set of URI texts is infinite and the derived components depend on where each text is split; injectivity of the shown URI relates all pairs of texts.", "anchors": ["httpsig-hyper/src/hyper_http.rs:889-927", "httpsig-hyper/examples/hyper-request.rs:20-31", "httpsig-hyper/examples/hyper-response.rs:20-45"]}
{"id": "C72", "title": "Programs like the examples run to their end", "statement": "A message that is built from text, gets a content digest and is then signed by several senders, one after the other, with distinct names, distinct key ids, components that have values and no covered signature field: all calls succeed, the message carries exactly these signatures in this order, each receiver that asks for its key id gets the name of its own signature, and the content digest still verifies. The two programs in httpsig-hyper/examples are of this kind, with their keys read from the PEM and base64 texts in the files. In the request programs a replaced body is noticed by the digest check unless its SHA-256 is equal. In the response programs it is not: the covered digest is that of the request, and the body of the response can be replaced together with its digest with all checks passing.", "quantifier": "all bodies, clock readings below 10^15 seconds, nonces and noise bytes, all choices of the libraries with the key file rules of crate der; the general theorem for all messages, keys, names and covered components as stated", "why_tests_cant": "The programs themselves are run with one body at one time; that the receivers tell the signatures apart, and that nothing notices a replaced response body, concerns all keys and bodies.", "anchors": ["httpsig-hyper/examples/hyper-request.rs:10-190", "httpsig-hyper/examples/hyper-response.rs:10-209", "httpsig-hyper/src/hyper_http.rs:265-700"]}
{"id": "C73", "title": "Exactly when a component has the value of RFC 9421", "statement": "Whenever RFC 9421 gives a component a value, the library signs that value if and only if: @method - the method has no lower-case letter; @path, @query, @status - always; @scheme and @target-uri - the request URI has a scheme; @authority - the request URI has an authority that does not end in the default port of its scheme; @request-target - the URI has no scheme, has an authority for CONNECT, is an asterisk for OPTIONS, and else begins with a slash or asterisk; @query-param - the value is empty or the pair stands in the query in the normal form of the RFC; a plain field - no line has whitespace around it; a field with bs - never. The same holds with req in responses.", "quantifier": "all requests and responses with well-formed header names, all contexts (scheme of the connection, types of fields)", "why_tests_cant": "An equivalence over all URIs, methods, queries and header values; tests sample only values where both sides happen to agree.", "anchors": ["httpsig-hyper/src/hyper_http.rs:702-930"]}
{"id": "C74", "title": "Exactly what survives being written to a header and read back", "statement": "Writing a component identifier as text and reading the text gives the identifier back if and only if it is safe: a field name not starting with @, no parameter twice, each parameter where it may stand, and field name, key and name texts printable ASCII without double quote and backslash. Signature parameters come back if and only if the identifiers are safe and distinct, times are below 10^15, and nonce, alg, keyid and tag are such texts; so set_nonce, set_keyid and set_tag take exactly such texts. A list of signatures written to Signature and Signature-Input comes back if and only if the labels are distinct structured field keys and all parameters are safe.", "quantifier": "all identifiers, signature parameters, lists of labelled signatures", "why_tests_cant": "The converse says that no clever combination of unsafe texts happens to survive; a test can only try some.", "anchors": ["httpsig/src/message_component/component_id.rs:25-90", "httpsig/src/signature_params.rs:57-224", "httpsig/src/signature_base.rs:30-124"]}
{"id": "C75", "title": "Every failure is reported with the right error", "statement": "For every operation of the library that can fail, the error it reports is that of the first thing wrong in the order of the code, and it is reported exactly then: component values (missing req target, forbidden or unimplemented parameters, lines that are no text, structured fields that do not parse, @status of a request, empty queries), signature bases, signing (bases before keys before header lines), identifiers, component lines, signature parameters, Signature and Signature-Input dictionaries, and verification. A component has exactly one value or exactly one error. All operations on the signatures of a received message refuse it in the same cases with the same error.", "quantifier": "all messages with well-formed header names and values, identifiers, parameters, keys, texts, clocks", "why_tests_cant": "An equivalence for every error variant says both that the error is given in each such case and that it is given in no other; tests see some inputs for some variants.", "anchors": ["httpsig/src/message_component/component.rs:22-46", "httpsig/src/message_component/component_id.rs:25-90", "httpsig/src/signature_params.rs:127-224", "httpsig/src/signature_base.rs:30-124", "httpsig-hyper/src/hyper_http.rs:230-947", "httpsig-hyper/src/error.rs:1-68"]}
{"id": "C76", "title": "Exactly when the signature base is the one of RFC 9421", "statement": "Let a message, the request it answers and a list of covered components with signature parameters be such that RFC 9421 defines a signature base. The library signs or verifies over that same base if and only if the signature parameters are in the usual order and of the known kinds, and for each covered component the library writes the identifier as the RFC does and takes the same value. For identifiers without sf and key the latter is spelled out: no bs and no blanks at the ends of field lines, and for each derived component the condition on the request.", "quantifier": "all well-formed messages, requests, contexts of transport and covered component lists", "why_tests_cant": "It is an equivalence over all messages and all component lists: no mix of differing components may by chance give the base of the RFC, and no further difference may exist.", "anchors": ["httpsig-hyper/src/hyper_http.rs:775-947", "httpsig/src/message_component/component.rs:48-183", "httpsig/src/signature_base.rs:131-247"]}
{"id": "C77", "title": "What the accessors of components and signature bases say", "statement": "add_req_param appends ;req to the text of an identifier, once; the identifier stays safe; on a response it then takes exactly the value the request has for the identifier without req, and on a request it takes none. Only a component @signature-params has a key; key and value are what stands before and after the first equals sign of the first Signature-Input line, and as_field_value is that line without blanks at its ends. For other components there is no key and as_field_value is the value. keyid, alg, nonce and covered_components of a signature base are those that the last line of its text says.", "quantifier": "all messages with well-formed header names, identifiers, signature parameters, texts", "why_tests_cant": "The statements hold for every header line and every identifier, including values with further equals signs, blanks and repeated parameters.", "anchors": ["httpsig/src/message_component/component_id.rs:20-22", "httpsig/src/message_component/component_value.rs:40-70", "httpsig/src/signature_base.rs:217-247"]}
{"id": "C78", "title": "ECDSA nonces are those of RFC 6979", "statement": "With the nonce generation that the crate ecdsa documents, a private key for P-256 or P-384 signs data with the given bytes if and only if these are the numbers r and s of FIPS 186-4 for the SHA-256 or SHA-384 digest of the data and the nonce of RFC 6979 section 3.2 for that key and that digest; so signing is deterministic. Two signatures for different digests with one nonce have the same r and determine the private key by a linear equation.", "quantifier": "all private keys, data, random inputs, signatures", "why_tests_cant": "A nonce that is constant, reused or independent of the digest still gives signatures that verify in every test.", "anchors": ["httpsig/src/crypto/asymmetric.rs:176-193"]}
{"id": "C79", "title": "Signatures over signatures", "statement": "A signer may cover the signature and the parameters of another label (RFC 9421 section 4.3). Signatures that are added with other labels do not change the value of such a component. So when signers sign one after the other, with new labels, and each covers members only of earlier labels, the final message carries the old signatures and all new ones, each new one is over the signature base of the final message, and each verifies by its key id. An accepted signature that covers both members of label a fixes them: the message carries with label a what the signed message carried.", "quantifier": "all messages, chains of signers, keys", "why_tests_cant": "Tests sign with one label or with signers that do not look at each other; the order of signers and the lines they add are unbounded.", "anchors": ["httpsig/src/message_component/component_param.rs:127-150", "httpsig-hyper/src/hyper_http.rs:280-313"]}
{"id": "C80", "title": "Intermediaries may combine, split and move field lines", "statement": "RFC 9110 section 5.3 lets an intermediary combine the lines of one field with a comma and a space and reorder lines of different fields. If the lines of the signature fields and of the covered fields without `sf` and `key` are regrouped in this way, in the message or in its request, and the other covered parts are the same, then every component has the same value, the base is the same, signing adds the same lines, verification has the same outcome with one key and with many, and the accessors say the same. In particular a proxy that gives every field one line changes nothing. With `sf` or `key`, or with a comma alone, signatures break.", "quantifier": "all pairs of messages with requests that differ by regrouping, all keys, all signers", "why_tests_cant": "relational over every grouping of any number of lines; tests verify the message as it was signed", "anchors": ["httpsig-hyper/src/hyper_http.rs:746-825", "httpsig/src/message_component/component.rs:build_http_field_component"]}
{"id": "C81", "title": "Requests and responses are not confused, and a response is bound to its request", "statement": "A component other than a field of the message itself and @signature-params has a value in requests only or in responses only. So if the key accepts only what its holder signed, an accepted message is of the kind that was signed, unless the signature covers nothing else; then it says the same of a request and of a response with the same fields (a signed response can be sent back as a request). An accepted response whose signature covers components with `req` was signed as the answer to a request with the same values of them; with \"@method\";req and \"@target-uri\";req to one with the same method and URI.", "quantifier": "all messages, requests, keys and sets of signed messages", "why_tests_cant": "about every message an attacker may build from signed ones", "anchors": ["httpsig-hyper/src/hyper_http.rs:775-930"]}
{"id": "C82", "title": "The claimed algorithm and key id are bound but not compared with the key", "statement": "The parameters alg and keyid are part of what is signed: if the key accepts only what its holder signed, an accepted signature carries the alg and keyid the holder signed; with set_key_info those of the key. But verification does not look at the algorithm and the id of the key, so what is signed verifies whatever alg it claims (RFC 9421 section 3.2 asks for a comparison). An application that compares the algorithm reported by get_alg_key_ids for the accepted label with that of the key makes up for it, if it refuses when none is reported; unknown names are reported as none.", "quantifier": "all messages, keys, claimed algorithms and sets of signed messages", "why_tests_cant": "about every claimed text and every message an attacker may build; tests sign with matching names", "anchors": ["httpsig-hyper/src/hyper_http.rs:607-628", "httpsig-hyper/src/hyper_http.rs:660-701", "httpsig/src/signature_base.rs:202-214"]}
{"id": "C83", "title": "Header maps: representation and size limit", "statement": "The library sees a header map only as the lines of each name: messages whose maps hold the same lines for every name have the same signatures, the same outcome of verification with one key or many, the same answers of the accessors and of the digest functions, and signing leaves maps that hold the same lines. HeaderMap has a limit, and append and insert panic beyond it: with any implementation of limited maps, set_message_signatures and set_content_digest return exactly what they return without a limit, or panic, the latter only when there is no room for two lines per signer (one line for a digest).", "quantifier": "all messages, all implementations of header maps that obey the laws of MapLib, all signers and keys", "why_tests_cant": "quantifies over map implementations and sizes; the limit is tens of thousands of names", "anchors": ["httpsig-hyper/src/hyper_http.rs:303-311", "httpsig-hyper/src/hyper_http.rs:427-435", "httpsig-hyper/src/hyper_content_digest.rs:122-124"]}
{"id": "C84", "title": "What keys are used for", "statement": "A verifying key is asked only about the signature bases of the carried signatures that are for its key id and not expired, at most one question per carried signature; a signing key is asked only for signatures of the signature base of the parameters given for it. Stated without instrumentation: a key may be replaced by one that answers those questions alike, and nothing changes. Every signature base ends with a line that starts with \"@signature-params\": ( so keys used only with this library never sign, and never accept, anything that is not a signature base.", "quantifier": "all messages with legal header names, all keys and replacements of keys, all key ids and clocks", "why_tests_cant": "quantifies over all functions a key can be; a test sees only the calls of a few runs", "anchors": ["httpsig-hyper/src/hyper_http.rs:660-705", "httpsig-hyper/src/hyper_http.rs:643-657", "httpsig/src/signature_base.rs:182-213"]}
{"id": "C85", "title": "How much text there is to hash", "statement": "The value of a component is at most as long as the message and the request it answers, times two for each sf or key. The signature bases of all signatures that a message carries have together at most six times as many characters as the product of the size of its head and the sizes of the heads involved. Nothing better than quadratic is true: a request with a field of length n and k signatures that cover it, each in 27 characters or less, makes the library build k texts of length n or more for every key that is tried without an id.", "quantifier": "all messages, all carried signatures, any selection of them; all n and all k up to a million", "why_tests_cant": "a bound on all inputs; tests measure a few", "anchors": ["httpsig-hyper/src/hyper_http.rs:643-657", "httpsig-hyper/src/hyper_http.rs:775-945", "httpsig/src/signature_base.rs:151-175"]}
{"id": "C86", "title": "Signatures over lines given by the caller", "statement": "HttpMessageComponent::try_from(&str) reads exactly the lines with a quoted identifier before the first colon, and gives the identifier and the trimmed rest. Lines that match the parameters give the text made of their identifiers and values in order; signed with one key of a pair and written to the two headers, the signature is read back and accepted by whoever has the same lines, until it expires. The text determines parameters, identifier texts and values if no value has a line break; otherwise it does not, and lists of lines with different values are interchangeable. verify_signature_headers takes expires from the headers handed in and does not compare their parameters with those of the base, so expiry is only bound if the caller uses the same parameters for both. Parameters of an identifier may be ordered differently in a line and in the covered identifiers; the line is signed as given.", "quantifier": "all texts, lines, parameters, keys, signature names and clocks", "why_tests_cant": "all lines and all parameters; the repository tests one list of lines", "anchors": ["httpsig/src/message_component/component.rs:22-46", "httpsig/src/signature_base.rs:146-247"]}
{"id": "C87", "title": "Refusing backslashes in Signature-Input makes up for the missing escapes", "statement": "The two forgeries of C09 come from identifiers and texts with quotes, which the library writes without escapes. If no line of Signature-Input has a backslash, then no name, parameter or text read from it has a quote or backslash, and C09 holds in full: success of verify_message_signature means that the holder, who signs only parameters that can be written to a header, signed exactly the received parameters, for a message in which every covered component has the received value. Without the condition this is false. Signing with such parameters and legal names never writes a backslash into Signature-Input, so the check refuses nothing honest.", "quantifier": "all messages, keys, clocks, key ids, sets of signed messages", "why_tests_cant": "all header texts and all sets of signed messages", "anchors": ["httpsig/src/message_component/component_name.rs:32-39", "httpsig/src/message_component/component_param.rs:27-38", "httpsig/src/signature_params.rs:123-153", "httpsig-hyper/src/hyper_http.rs:660-760"]}
{"id": "C88", "title": "Signatures added by others on the way", "statement": "Lines of Signature and Signature-Input that carry signatures with new labels, put behind the lines of a message that carries signatures, are harmless whatever the new signatures contain: the message then carries the old ones and after them the new ones, an old signature whose components were not touched is accepted exactly when it was before, and verification with a key that panics on none of them gives the same name as before if it succeeded before, and otherwise looks at the new ones. But a single unreadable member stops all: after a signature that covers a derived component that does not exist was added, with any label, verify_message_signature(s), get_signature_params and get_alg_key_ids panic, and after a line `?` they fail, for every message, key, key id and time.", "quantifier": "all messages, added lines, keys, clocks, key ids", "why_tests_cant": "all messages with signatures and all added lines", "anchors": ["httpsig/src/signature_base.rs:32-100", "httpsig/src/message_component/component_name.rs:78-94", "httpsig-hyper/src/hyper_http.rs:600-760"]}
{"id": "C89", "title": "What a careful receiver knows about a message", "statement": "A receiver that refuses backslashes in Signature-Input and messages without exactly one Content-Digest line, verifies the signature and the digest, and checks with get_signature_params under the returned name that Content-Digest, @method and @target-uri (for a response @status and the two of the request) are covered, knows: the holder of an unforgeable key, who signs only messages with a right digest line and parameters that can be written to a header, signed a request with this URI, this method up to letter case and a body with the same hash (a response with this status and a body with the same hash, for such a request), with exactly the reported parameters, and every other covered component has the signed value. Such a receiver refuses nothing that parties send with this library.", "quantifier": "all messages, bodies, keys, clocks, key ids, sets of signed messages", "why_tests_cant": "all rewritings of a message by an attacker", "anchors": ["httpsig-hyper/src/hyper_http.rs:631-640", "httpsig-hyper/src/hyper_http.rs:775-930", "httpsig-hyper/src/hyper_content_digest.rs:111-256"]}
{"id": "C90", "title": "The order of the signatures on a message", "statement": "Rewriting a message so that the members of Signature and Signature-Input come in another order (a dictionary has no meaningful order in the eyes of most proxies; the lines of a field may be shuffled when no label stands in two of them) leaves the same signatures on it. The order of Signature alone does not matter at all. If no signature covers such a field as a whole, then verify_message_signature succeeds, fails or panics exactly as before, with the same error, and names a signature that was acceptable before; it names the same one if only one was acceptable. verify_message_signatures gives for every key the same kind of result, and get_signature_params and get_alg_key_ids report the same up to order. Which of several acceptable signatures is named does depend on the order, a covered field without `key` changes its value, and with a label in two lines the order decides which one is carried.", "quantifier": "all messages, orders, keys, clocks, key ids", "why_tests_cant": "all messages and all permutations of their signatures", "anchors": ["httpsig/src/signature_base.rs:32-100", "httpsig-hyper/src/hyper_http.rs:600-775"]}
{"id": "C91", "title": "Receivers that find keys by what the message says", "statement": "A receiver that asks get_alg_key_ids for the claimed algorithm and key id of every signature, finds keys with these pairs as README.md advises, and calls verify_message_signatures with the found keys and their ids: the results are, in order, those of the signatures for which a key is found; each names the first signature with the same key id that the key accepts. The call panics exactly if such a key panics on a signature with that key id, and has no other failure on a message with readable signatures. If keys are found by id alone, some result is a success exactly if verification with some key of the store and its id succeeds, so nothing is lost. If every signature has its own key id, a signature is named exactly if it is right for the key found for it, and all results are successes exactly if all signatures with a key are right. With shared key ids both fail: all results can be successes though one of the signatures is wrong, and a receiver that finds no key for a claimed algorithm other than that of the key still accepts a signature that claims another one.", "quantifier": "all messages, ways to find keys, clocks", "why_tests_cant": "all messages and key stores", "anchors": ["README.md:64-67", "httpsig-hyper/src/hyper_http.rs:607-628", "httpsig-hyper/src/hyper_http.rs:660-701"]}
{"id": "C92", "title": "Where the library has a signature base though RFC 9421 defines none, and the other way round", "statement": "For covered components without sf and key: RFC 9421 defines no value and the library takes one exactly in these cases: a field that is absent or whose name is not in lower case (all lines readable, no parameter but req); @target-uri, @scheme and @authority of a request that has no authority, neither in its URI nor in one readable Host line; @authority with user information; @request-target of a URI that is none of the four forms; @query-param with a name that not exactly one parameter has while the query is not empty; @signature-params as a covered component. The RFC defines a value and the library has none exactly for fields with bs. Correspondingly for whole bases: the library has a base the RFC does not define exactly if it has a value for every component and one is in the list; it lacks a base the RFC defines exactly if a component has bs.", "quantifier": "all messages, requests, contexts of transport, identifiers and signature parameters that can be written to a header, without sf and key", "why_tests_cant": "all messages and component lists", "anchors": ["httpsig-hyper/src/hyper_http.rs:807-945", "httpsig/src/message_component/component.rs:70-187"]}
{"id": "C93", "title": "The blocking wrappers", "statement": "On a thread that is not inside a block_on of crate futures, each method of MessageSignatureReqSync and MessageSignatureResSync has the outcome of the asynchronous method, and leaves the thread as it was. Inside such a block_on, with any other runtimes around or in between, it panics and the message is unchanged. In particular the methods do not panic inside another runtime such as tokio, though their comments say so. A key of the application that waits with block_on while it signs makes every blocking signing call panic that would succeed otherwise; one that waits while it verifies makes a blocking verification panic exactly if there is a signature to ask it about.", "quantifier": "all messages, keys, nestings of executors, polling schedules", "why_tests_cant": "all nestings and schedules", "anchors": ["httpsig-hyper/src/hyper_http.rs:137-231", "httpsig-hyper/src/hyper_http.rs:489-598"]}
{"id": "C94", "title": "Fields with sf or key: when the value is that of RFC 9421", "statement": "For a field with the parameter key (and perhaps req): the library has a value exactly if every line is a dictionary of its own. Then RFC 9421 has a value exactly if the name is in lower case, no line is blank and some line has the member; it is the member on the last such line, and the library's value is the same exactly if only one line has the member. The RFC has a value and the library none exactly if the RFC has one and some line is no dictionary of its own. For a field with sf (and perhaps req): the library has a value exactly if every line is a list or a dictionary and not blank. Then the RFC has a value exactly if the name is in lower case, the field is there and its lines are of its kind; the two are equal for lists and items, and for dictionaries exactly if no key is on two lines and none is repeated on a line that can also be read as a list. The RFC has a value and the library none exactly if the RFC has one and some line is neither list nor dictionary or blank.", "quantifier": "all messages, requests, contexts (types of fields), identifiers that can be written to a header with only sf or only key, with or without req", "why_tests_cant": "all field lines and all ways to split a structured value over lines", "anchors": ["httpsig/src/message_component/component_param.rs:104-140", "httpsig/src/message_component/component.rs:70-187", "httpsig-hyper/src/hyper_http.rs:807-945"]}
{"id": "C95", "title": "Signature bases of the library and of RFC 9421 for all component identifiers", "statement": "For every covered component identifier that can be written to a header: exactly in which cases the library has a value and RFC 9421 has none, the RFC has one and the library none, and both have the same. Correspondingly for whole bases: if the RFC has a base, the library signs and verifies the same exactly if the signature parameters are in its order and form and every component is in a listed case; it has no base exactly if one component is missing; it has a base the RFC does not define exactly if it has a value for every component and one is in the list. sf beside key changes nothing on either side, but that the library refuses blank lines if sf stands in front of key.", "quantifier": "all messages, requests, contexts (types of fields, scheme), identifiers and signature parameters that can be written to a header", "why_tests_cant": "all messages and component lists", "anchors": ["httpsig/src/message_component/component.rs:70-187", "httpsig/src/message_component/component_param.rs:104-140", "httpsig-hyper/src/hyper_http.rs:807-945"]}
{"id": "C96", "title": "Exchange with a program that follows RFC 9421", "statement": "A message that carries a valid signature made as RFC 9421 says, the only one of this key, is accepted by the library exactly if it can read all signatures of the message (same labels in both fields, byte sequences, known parameters) and the member is one that it writes in the same way with the same values (C95). A message signed by the library has a valid signature for a program that follows the RFC exactly if every covered component has a value by the RFC and the values are the same.", "quantifier": "all messages, contexts, keys, signature parameters, labels, key ids and times; the signature is not valid for both bases if they differ", "why_tests_cant": "all messages and component lists, and all programs on the other side", "anchors": ["httpsig-hyper/src/hyper_http.rs:255-420", "httpsig/src/signature_base.rs:80-250", "httpsig/src/message_component/component.rs:70-187"]}
{"id": "C97", "title": "Components from an identifier and its texts", "statement": "HttpMessageComponent::try_from((id, values)) gives, for every identifier and every list of texts, exactly the component described by a small specification (upper or lower case, first text, named query parameters, text after the first `=`, the parameters of a field applied from left to right), and otherwise exactly one error, which is also determined. It never panics. Of the parameters of a derived component only req and name are let pass. Components built from texts for each covered identifier make a signature base, and it says each identifier with its value in the order of the parameters.", "quantifier": "all identifiers, all lists of texts, all signature parameters without repeated component parameters", "why_tests_cant": "all lists of texts and all combinations of parameters", "anchors": ["httpsig/src/message_component/component.rs:48-183", "httpsig/src/message_component/component_param.rs:103-150", "httpsig/src/signature_base.rs:148-175"]}
{"id": "C98", "title": "What the library writes to its log", "statement": "Writing the log does not change the result of reading keys, signing or verifying. Reading a key writes one fixed line for its algorithm or, if it fails early, nothing. Signing writes the beginning of a list of lines that the covered components and the algorithms of the keys determine, and all of it when it succeeds, so two runs with other secrets write the same. Every line of verification is one of a few fixed texts or names one unknown signature parameter, and is made of printable ASCII. The lines of level error are exactly the unknown parameters of the Signature-Input dictionary in order (the first of them if the headers are refused, none without a dictionary), and there are at most as many as Signature-Input has characters.", "quantifier": "all messages, keys, secrets, key texts, numbers of signatures, unknown parameters", "why_tests_cant": "all header texts and all secrets", "anchors": ["httpsig/src/crypto/symmetric.rs:20-70", "httpsig/src/crypto/asymmetric.rs:60-400", "httpsig/src/message_component/component.rs:163", "httpsig/src/signature_params.rs:193-207"]}
{"id": "C99", "title": "How often keys are used", "statement": "The sequence of questions that keys get is determined. In verification each key is asked, key after key, about every carried signature that is for its key id, not expired and has a signature base, in the order of the message; whether an earlier signature was accepted does not matter. Without readable signatures no key is asked. If no key panics all these questions are asked, so their number is the sum over the keys of the number of such signatures, and this is reached: n signatures in 27 characters each cost n operations for every key without a key id. In signing each key is asked exactly once, for its own signature base and in order, and none is asked if one of the signature bases does not exist.", "quantifier": "all messages, times, key ids, lists of keys, and all that keys may do when asked", "why_tests_cant": "counts for all numbers of keys and signatures, and all keys", "anchors": ["httpsig-hyper/src/hyper_http.rs:660-701", "httpsig-hyper/src/hyper_http.rs:280-312", "httpsig/src/signature_base.rs:188-214"]}
{"id": "C100", "title": "A guard takes all panics away", "statement": "Put two checks of a caller in front of the library: refuse a message whose Signature-Input has, in an inner list, a string that starts with @ and is none of the ten derived names, a date, or a negative created or expires; and wrap verifying keys so that ECDSA signatures of a length other than 64 or 96 bytes are refused before the key sees them. Then no verification call and no query about signatures panics, for any message and any keys of the library. Where the library does not panic the results are the same, except that a message which the library refuses may be refused by the guard instead. Behind the guard a key accepts exactly the messages with a signature it accepts, whatever other signatures they carry; for an imported public key, a signature the standard accepts.", "quantifier": "all messages, times, corresponding requests, lists of library keys and key ids", "why_tests_cant": "absence of panics for all messages, and equality with the library on all messages on which it does not panic", "anchors": ["httpsig/src/message_component/component_name.rs:78-96", "httpsig/src/signature_params.rs:193-206", "httpsig/src/crypto/asymmetric.rs:358-402", "httpsig-hyper/src/hyper_http.rs:607-772"]}
{"id": "C101", "title": "A careful sender and a careful receiver", "statement": "Put checks of a caller around both ends. The sender refuses parameters and labels that cannot be written as they are, labels that occur twice, covered fields that the message (or, with req, the corresponding request) does not have, @request-target of an OPTIONS request whose target is not *, and messages whose signature fields are there but hold no signature. The receiver uses the guard of C100, refuses a backslash in Signature-Input, and drops an accepted signature if a covered field is absent or if it covers @request-target of an OPTIONS request whose target is not *. Then what the library keeps only in part holds in full: signing many signatures is all or nothing; existing signatures are kept and new ones put in (C04); what was signed on a message without signatures verifies with the matching library keys and key ids, whatever kinds of keys share a key id (C03); what is accepted was signed with exactly the received parameters for a message in which every covered component has the same value (C09), every covered field is present on both sides (C47), and a covered request target is the same on both sides (C48); and the receiver never panics.", "quantifier": "all messages, corresponding requests, numbers of signers, keys of the library, times; all sets of signings of a careful holder", "why_tests_cant": "a claim about all messages an attacker can make and all batches of signers", "anchors": ["httpsig-hyper/src/hyper_http.rs:280-312", "httpsig-hyper/src/hyper_http.rs:403-436", "httpsig-hyper/src/hyper_http.rs:607-772", "httpsig-hyper/src/hyper_http.rs:807-930", "httpsig/src/signature_params.rs:123-153"]}
{"id": "C102", "title": "A receiver that remembers nonces", "statement": "The library checks the expiry but remembers nothing. Put a memory of a caller behind it: a message that passes verification is taken if its signature has a nonce and an expiry and the nonce is not remembered; entries that have expired are dropped. If the clock does not go back, no two messages that are taken have the same nonce and expiry; the memory holds each nonce once and only those of taken messages that had not expired; nothing else is refused. Behind the careful receiver of C101, with a key that accepts only what a careful holder signed, different messages that are taken belong to different signings, with exactly the signed parameters and component values, and what a careful sender signs with a new nonce is taken. With the library alone the same message is accepted again until it expires; with ECDSA remembering the octets of signatures is of no use, since a second message with other octets is accepted; and nonces are of no use either, since by backslashes in Signature-Input one signature is accepted with two different nonces.", "quantifier": "all sequences of messages and times, keys of the library, sets of signings of a careful holder", "why_tests_cant": "a claim about all sequences of messages an attacker can replay or change", "anchors": ["httpsig-hyper/src/hyper_http.rs:318-345", "httpsig-hyper/src/hyper_http.rs:442-476", "httpsig-hyper/src/hyper_http.rs:630-701", "httpsig/src/signature_params.rs:96-153", "httpsig/src/signature_params.rs:155-210", "httpsig/src/signature_base.rs:201-215"]}
{"id": "C103", "title": "What errors say", "statement": "Every error of reading an identifier, a component line, parameters or signature headers, of building a base, of signing, of verifying and of checking a digest has exactly the message that a small specification gives for its reason, with the messages of other crates as parameters, and messages change nothing else. The error of verification depends on the message and the key id that is asked for, but not on the key and not on the time: a wrong key, a changed message and an expired signature say the same. The error of a digest does not depend on the content of the body. If the messages of other crates are printable, whatever is received, the displayed errors of verification and of digests are printable ASCII, so they are one line of a log; the error about a component line of the caller repeats the line. For a response without signatures, reading the signatures speaks of a request. What is displayed tells kind and message: no two errors of one type are displayed alike, and errors of the core are those, and only those, that the upper crate displays with its prefix.", "quantifier": "all texts, messages, keys, parameters, times, bodies, and messages of other crates", "why_tests_cant": "independence of the key and printability are claims about all keys and all messages that an attacker can send", "anchors": ["httpsig/src/error.rs:9-69", "httpsig-hyper/src/error.rs:11-67", "httpsig/src/message_component/component_id.rs:31-81", "httpsig/src/message_component/component_param.rs:40-150", "httpsig/src/signature_base.rs:32-100", "httpsig-hyper/src/hyper_http.rs:318-345", "httpsig-hyper/src/hyper_http.rs:660-930", "httpsig-hyper/src/hyper_content_digest.rs:111-256"]}
{"id": "C104", "title": "A sender whose signatures every RFC 9421 program accepts", "statement": "Let a caller check each covered component before signing: a field name in lower case, present, every line text without surrounding blanks, no parameter but req; a method without small letters; an authority in the request without user information and without a port that some program leaves out; scheme and authority for the target URI; a request target that is only a path or, for CONNECT, an authority; a query parameter that is there once among pieces that need no encoding; never the signature fields. Then RFC 9421 gives every component a value, and the message a base, that does not depend on what the other program knows about types of fields or the scheme of its connection, and they are those of the library. So a signature is valid for every such program exactly if the library accepts it, and whatever this sender sends, also to a message that has signatures already, every such program finds each new signature under its label and takes it for valid. The check is exact for components without parameters but req: it refuses only what some program reads otherwise.", "quantifier": "all messages, related requests, parameters, signers, keys, times, and all programs that follow the RFC", "why_tests_cant": "a claim about all other implementations", "anchors": ["httpsig-hyper/src/hyper_http.rs:280-312", "httpsig-hyper/src/hyper_http.rs:403-436", "httpsig-hyper/src/hyper_http.rs:775-950", "httpsig/src/signature_base.rs:151-250", "httpsig/src/signature_params.rs:123-153"]}
{"id": "C105", "title": "The tests that sign pass whenever they are run", "statement": "The tests of httpsig-hyper that sign and verify, in hyper_http_tests.rs and in the usage tests of lib.rs, except the one with a P-256 key, pass on every clock below 10^15, for all random bytes and every body: with the Ed25519 key on requests and responses, with the HMAC key and a random nonce, with a label, with a key id, with a query parameter and with a query parameter of the request; those that cover a component the message lacks get their error. The blocking tests have the same outcomes as the asynchronous ones. Where the clock matters the condition is exact: the test of an expired signature passes exactly if the clock is not at zero and not set back, the test of the duration exactly if in addition at most 100 seconds pass and the sum fits. Fresh parameters and key information pass on every clock.", "quantifier": "all readings of the clock, random bytes, bodies and choices of the libraries", "why_tests_cant": "a test that runs says that it passed once, on one clock, with one random value and one version of the libraries", "anchors": ["httpsig-hyper/src/hyper_http_tests.rs:171-305", "httpsig-hyper/src/hyper_http_tests.rs:357-461", "httpsig-hyper/src/hyper_http_tests.rs:492-531", "httpsig-hyper/src/hyper_http_tests.rs:579-634", "httpsig-hyper/src/lib.rs:119-212", "httpsig/src/signature_params.rs:240-285"]}
{"id": "C106", "title": "Content-Digest of the library and of RFC 9530", "statement": "On a message with one Content-Digest line the library accepts a body exactly if the field is a dictionary with a single member, under sha-256 or sha-512, that is the hash of the body; then every recipient that follows RFC 9530 accepts it too, whatever other algorithms it knows, and on fields with one such member the two decide alike, in whatever form the field is written. A field with several digests or another label is refused, also where every recipient accepts it. With several lines the library looks at the first: the digest of the field under that label is the one of a later line if there is one, so for every content there is a message that the library accepts and no RFC recipient does, and one that it accepts in two lines and refuses when a proxy has joined them. What set_content_digest writes is read by every recipient, who accepts exactly the contents with the same hash.", "quantifier": "all messages, contents, recipients and registries of algorithms", "why_tests_cant": "a claim about all writings of the field and all other implementations", "anchors": ["httpsig-hyper/src/hyper_content_digest.rs:45-59", "httpsig-hyper/src/hyper_content_digest.rs:111-207", "httpsig-hyper/src/hyper_content_digest.rs:211-256"]}
{"id": "C107", "title": "Signatures of several members of a group", "statement": "A receiver that calls verify_message_signatures and counts the successes lets a message pass exactly if its signatures can be read, no key panics and at least k members of the group, each key with the key id asked for, have a right signature on it; the order of the group does not matter, a larger group and a smaller number are easier, a group of one is verify_message_signature, and readable signatures that others add under new labels take nothing away. If every member is asked for with a key id of its own, k members means k signatures with different labels. Without key ids it does not: one signature made with one HMAC secret satisfies up to 64 different keys, and the holder of one secret can sign for all of them. Right signatures need not cover the same components. Behind the checks of C101, counting only signatures that cover the components the receiver needs, at least k holders signed these components with the values they have in the message, in k different signings if key ids differ; and what a careful sender signs with all keys passes.", "quantifier": "all messages, groups of keys, numbers, clocks and added signatures", "why_tests_cant": "a claim about all groups and all sets of signatures on a message", "anchors": ["httpsig-hyper/src/hyper_http.rs:330-345", "httpsig-hyper/src/hyper_http.rs:460-476", "httpsig-hyper/src/hyper_http.rs:660-701", "httpsig/src/crypto/symmetric.rs:35-72"]}
{"id": "C108", "title": "A sender and a receiver that use all of the library", "statement": "Take a sender that refuses messages with signatures, asks for a nonce, an expiry and all needed components, sets the digest of the body and signs behind the checks of C101; and a receiver that asks for one right Content-Digest line, verifies behind the checks of C101, asks for the needed components and remembers nonces. The receiver never panics. If the key accepts only what the sender signed and the clock does not go back, then to the messages that are taken there belong, in order, pairwise different signings, each with exactly the reported parameters, not expired, with the same values of all covered components and a body with the same hash; for requests the same method up to letter case and the same URI, for responses the same status, and method and URI of the request. What is sent keeps method, URI, status, body and all other fields, and is taken if it arrives in time with a new nonce. The sender sends exactly if the message has no signature, the parameters can be written and cover what is needed, all components have values and the key signs.", "quantifier": "all sequences of messages, keys, parameters, bodies and clocks that do not go back", "why_tests_cant": "a claim about all sequences of messages that anybody may send", "anchors": ["httpsig-hyper/src/hyper_content_digest.rs:111-207", "httpsig-hyper/src/hyper_http.rs:236-345", "httpsig-hyper/src/hyper_http.rs:355-476"]}
{"id": "C109", "title": "When signing with an ECDSA key returns, and the test with two signatures", "statement": "Signing with a P-256 or P-384 key returns exactly if the library has a nonce for the key and the digest and the equations of FIPS 186-4 have a solution with it; otherwise it panics, where the standard asks for another nonce. For a key and a nonce whose point has an abscissa that is not a multiple of the order, there is no signature exactly for the digests of one residue modulo the order. Two nonces with different r do not both fail for a key and a digest. The test of the repository that sets two signatures with an Ed25519 and a P-256 key and verifies both passes exactly if the P-256 key signs its signature base, for all readings of the clock, all random bytes and every body; otherwise it panics.", "quantifier": "all keys, nonces, data, clocks, bodies and choices of the libraries", "why_tests_cant": "no test can find a digest without a signature", "anchors": ["httpsig/src/crypto/asymmetric.rs:174-212", "httpsig-hyper/src/hyper_http_tests.rs:307-355"]}
{"id": "C110", "title": "Eight local changes make the partial properties true", "statement": "Change the library in eight places: an unknown derived name, a negative time and an ECDSA signature of another length are errors instead of panics; strings are written with escapes; a field component without any value is an error; @request-target of an OPTIONS request is its path and query; header lines are added all or none, and only if the message then carries each signature as it was made. Then: no text, message or signature makes reading, verification or signing panic. Parameters are read back from their text exactly if they can be written at all, quotes and backslashes included. A field or member that is not there has no value. Equal values of @request-target mean equal targets for methods other than CONNECT, and equal authorities for CONNECT. Signing changes the message only if it succeeds; it succeeds whenever the signers can sign, the parameters can be written and the labels are legal and pairwise different; and after it has succeeded all matching keys verify. If a key accepts only what was signed, an accepted signature has exactly the parameters that were signed and the values of all covered components. What is read and accepted stays the same for texts and for messages that the changes do not concern; errors stay the same there too, and in place of a panic there is an error of a fixed kind.", "quantifier": "all messages, texts, parameters, keys, numbers of signers and times", "why_tests_cant": "that no other cause is left is a statement about all inputs", "anchors": ["httpsig/src/message_component/component_name.rs:14-39", "httpsig/src/signature_params.rs:123-206", "httpsig/src/crypto/asymmetric.rs:358-402", "httpsig/src/message_component/component.rs:144-183", "httpsig-hyper/src/hyper_http.rs:280-312", "httpsig-hyper/src/hyper_http.rs:403-436", "httpsig-hyper/src/hyper_http.rs:889-927"]}
{"id": "C111", "title": "Junk in the signature fields does not stop a receiver that looks at the lines in pairs", "statement": "A program in front of the library takes each line of Signature-Input with each line of Signature, makes of the message the one that has these two lines as its only signature fields, and asks the receiver of C101 about it; it returns the first such message that is accepted, with the label. It never panics. It accepts if and only if some two lines of the message carry a signature that the key accepts and whose covered components are there. The returned message is the received one but for the two fields. If the key accepts only what was signed, the parameters of the accepted signature are exactly those that were signed, and the covered components have the signed values in the returned message, and in the received one too unless they are signature fields. If a message was made by the sender of C101, and somebody then adds any lines to the two fields, in any place, unreadable ones, ones that make the library panic, ones with the same labels, the program still accepts it with the key of each signer that does not cover the signature fields. It asks the library at most once for each pair of lines.", "quantifier": "all messages, signers, keys, times, and all lines that somebody adds", "why_tests_cant": "the added lines are arbitrary", "anchors": ["httpsig-hyper/src/hyper_http.rs:318-345", "httpsig-hyper/src/hyper_http.rs:442-476", "httpsig-hyper/src/hyper_http.rs:602-604", "httpsig-hyper/src/hyper_http.rs:660-701"]}
{"id": "C112", "title": "What keys say", "statement": "Every error of a name of an algorithm, of reading a private, public or shared key, and of checking a signature with a key has exactly the message that a small specification gives for the first thing that is wrong, with the messages of other crates as parameters, and messages change nothing else. In errors of reading a private key from PEM the library's own words are four fixed texts and one fixed beginning; everything else is a message of another crate. A wrong MAC is reported the same for every key, data and MAC. Debug of a shared key shows the whole key: different keys have different texts.", "quantifier": "all texts, bytes, algorithms, keys, primitives, and messages of other crates", "why_tests_cant": "wrong files and keys are arbitrary, and that nothing of a key appears in a message is a statement about all keys", "anchors": ["httpsig/src/crypto/asymmetric.rs:65-158", "httpsig/src/crypto/asymmetric.rs:260-353", "httpsig/src/crypto/asymmetric.rs:358-402", "httpsig/src/crypto/symmetric.rs:13-33", "httpsig/src/crypto/symmetric.rs:61-72", "httpsig/src/crypto/mod.rs:43-59"]}
{"id": "C113", "title": "Every input has one result, and where the panics are", "statement": "The texts, messages, keys and times for which reading an identifier, a component line, signature parameters or the two signature fields, inspecting a message, verifying with one key or several, and signing panic are exactly those that a small specification names: an unknown derived name or a date as first thing that is wrong, a negative time where all components are fine, a clock before 1970 when a signature that is looked at has a time, a key that panics on a signature that is in time, or a key that panics when all bases can be built. With the specifications of what is said (C65) and of errors (C75) every input has exactly one result: a unique value, a unique error, or a panic. Every message without signatures, and every message whose signatures can be read, panics once somebody has added two lines, with any label they like.", "quantifier": "all texts, messages, keys, clocks, signers and labels", "why_tests_cant": "that nothing else panics, and that the three specifications neither overlap nor leave a gap, is about all inputs", "anchors": ["httpsig/src/message_component/component_name.rs:78-94", "httpsig/src/signature_params.rs:110-120", "httpsig/src/signature_params.rs:170-215", "httpsig/src/signature_base.rs:20-110", "httpsig/src/signature_base.rs:202-214", "httpsig-hyper/src/hyper_http.rs:280-345", "httpsig-hyper/src/hyper_http.rs:640-700"]}
{"id": "C114", "title": "A list of signers at once, and one after the other", "statement": "One signer adds its two lines and succeeds, or adds nothing. set_message_signatures succeeds exactly if each of its signers alone succeeds on the message as it is. If none of them covers the fields Signature and Signature-Input, calling set_message_signature for one after the other succeeds for the same lists with the same message; it stops at the first signer that fails, with its error and the signatures before it, while the list writes nothing when one base or signature cannot be made, and leaves the pairs before parameters that are no header value. A list may be cut into two calls, and signers in another order give the same pairs in another order. If a signer of a list covers the signature or the parameters of a label which the same list adds, signing succeeds and it has not signed the base of the message that results, so the right key does not verify it; one call after the other does what is meant.", "quantifier": "all messages, lists of signers, labels and covered components", "why_tests_cant": "that a list fails exactly if one of its members does, and what is left on the message then, depends on all positions and all causes of failure", "anchors": ["httpsig-hyper/src/hyper_http.rs:265-312", "httpsig-hyper/src/hyper_http.rs:386-436", "httpsig/src/signature_base.rs:187-199"]}
{"id": "C115", "title": "Labels of signatures are not protected", "statement": "From the signatures of any readable message somebody on the way, without keys, can make a message that carries any choice of them: some left out, some repeated, in any order and with any labels, and nothing else changed. If no signature covers the signature fields: such a choice is accepted only if the message was before (or the key panics on it); if none is left out the outcome is the same up to the label; if only labels are changed the same signature is found under its new label. Every accepted message can be given any list of labels, all of which are then labels of the accepted signature, and the first of which verification reports. A signature that covers the signature or the parameters of a label does fix what is under that label.", "quantifier": "all messages, choices of signatures, labels, keys, key ids and times", "why_tests_cant": "tests verify messages as they were signed; what others can make of the fields is a statement about all rewritings", "anchors": ["httpsig/src/signature_base.rs:20-110", "httpsig-hyper/src/hyper_http.rs:640-701", "httpsig-hyper/src/hyper_http.rs:746-769"]}
{"id": "C116", "title": "A request and its answer", "statement": "A client sends a request with the sender of C108 and a nonce that it uses once, and takes an answer with the receiver of C108 that covers the status, the method and the URI of the request and Signature-Input of the request. If the keys accept only what their holders signed and the server signs answers only to requests that it took, then the server took exactly this request (same label, same parameters, same values of all covered components, same method up to letter case, same URI, body with the same hash), took it exactly once, and signed for it a response with this status and a body with this hash. Honest requests and answers that arrive in time are taken, and the component is always available. Without Signature-Input of the request this fails: an answer whose signatures cover no field of the request is taken for every request with the same method and URI, whatever its fields, body and nonce are.", "quantifier": "all requests, answers, parameters, keys, histories of the server, and times", "why_tests_cant": "agreement of two parties speaks of all messages that an attacker may deliver to both, and of the whole history of the server", "anchors": ["httpsig-hyper/src/hyper_http.rs:807-825", "httpsig-hyper/src/hyper_http.rs:640-701", "httpsig-hyper/src/hyper_content_digest.rs:111-210"]}
{"id": "C117", "title": "Random nonces", "statement": "set_random_nonce sets a nonce of 44 characters that needs no escapes and tells the 32 random octets exactly, and changes nothing else; whether a message can be sent does not depend on the octets. A receiver that takes every nonce once (C102) takes all messages of a sender if their random octets are all different, whatever the messages are; if two messages with the same expiry have the same octets and the clock does not go back, not both are taken. So for messages that expire at the same time all are taken exactly if the octets are all different: of the (2^256)^q outcomes of the generator for q messages this holds for 2^256 * (2^256 - 1) * ... with q factors, and in every case at most the part q * (q - 1) / 2^257 leads to a refusal. What others send does not change this: an honest message is taken unless a copy of it, with the same parameters and the same values of the covered components, was taken before.", "quantifier": "all numbers of messages, messages, parameters, random octets, keys that sign and verify, and messages of others in between", "why_tests_cant": "the outcomes of the generator are 2^256 for every message; a test sees one of them, and a repeated nonce never", "anchors": ["httpsig/src/signature_params.rs:96-102", "httpsig-hyper/src/hyper_http.rs:640-701"]}
{"id": "C118", "title": "From keys that accept only what was signed to real keys", "statement": "The theorems that assume a key that accepts only what its holder signed (C101, C102, C107, C108, C116) hold for every key of the library in this form: what they say holds, or one of the messages that were received holds a forgery, which is a signature base of one of its signatures with the octets of this signature, such that the key accepts the octets for the base and the holder did not sign the base. A program finds the pairs, at most one for every signature of the message. The forgery is against what was signed before the message arrived. Where bodies are compared there is one more alternative: two different bodies with the same SHA-256 or SHA-512 value. No less will do: from a forgery for the base of a message there is a message that verification accepts.", "quantifier": "all keys of the library, messages, runs of arrivals, groups of keys and exchanges", "why_tests_cant": "a forgery that nobody knows cannot be tested for; the theorems reduce acceptance to it for all messages", "anchors": ["httpsig-hyper/src/hyper_http.rs:640-701", "httpsig/src/signature_base.rs:202-215", "httpsig/src/crypto/asymmetric.rs:358-402", "httpsig/src/crypto/symmetric.rs:61-72"]}
{"id": "C119", "title": "How the answer to one message changes with time", "statement": "For every message, key and key id the answers of verify_message_signature over time come in three phases, each of which may be empty: first it panics, until the last signature on which the key panics is too old; then it succeeds, until the last signature that the key accepts is too old; then it fails for ever with the same error, which is NoSignatureHeaders exactly if no signature is a candidate. During the second phase the label is that of the first signature that the key accepts and that is not yet too old, so it moves through the signatures in their order and never back. A failure is final, and a panic happened at all earlier times too. A message that carries no signatures has one answer at all times. A batch of keys panics until the last of the signatures on which one of its keys panics is too old. With an ECDSA key the first phase exists: a message is accepted that was not acceptable before. Behind the guard of C100 a message is accepted exactly until the last signature that the key accepts is too old.", "quantifier": "all messages, keys of any kind, key ids and clock values", "why_tests_cant": "a test fixes the time and the signatures; the order of the phases and the finality of failures are about all times", "anchors": ["httpsig/src/signature_params.rs:112-120", "httpsig/src/signature_base.rs:202-215", "httpsig-hyper/src/hyper_http.rs:660-701"]}
{"id": "C120", "title": "Setting the digest and signing in either order", "statement": "Messages that agree in everything but the order of lines of different fields are verified and signed alike. If no signer covers Content-Digest, setting the digest before or after signing gives the same outcome and the same message up to that order. Setting the digest once more after signing changes nothing. A digest that is set later leaves the verification of a message as it is if none of its signatures covers Content-Digest. If the holder of a key signed once, with Content-Digest covered, and the message then gets a digest of another value, the receiver of C101 accepts it no more under this key, whatever else was changed.", "quantifier": "all messages, digest types, lists of signers, keys, clocks", "why_tests_cant": "the test suite and the examples set the digest first; the other orders are possible uses for which all messages and signers matter", "anchors": ["httpsig-hyper/src/hyper_content_digest.rs:111-207", "httpsig-hyper/src/hyper_http.rs:279-345"]}
{"id": "C121", "title": "Builds with and without RSA", "statement": "The feature rsa-signature adds two algorithms and changes nothing else. Both builds read the same algorithm names apart from the two RSA names, which the small build refuses. Keys of the common algorithms are read from bytes, DER and PEM with the same result and the same log lines in both builds. With the texts of errors, the only difference is that an RSA key file given as key of another algorithm is 'Algorithm mismatch' in one build and 'Unsupported algorithm' in the other. No key of the small build is an RSA key. get_alg_key_ids reports the same labels and key ids, and the same algorithms except that RSA is not reported by the small build.", "quantifier": "all texts, key bytes, DER and PEM inputs, algorithms, messages, and all behaviours of the key libraries", "why_tests_cant": "tests are compiled for one build at a time and never compare two builds", "anchors": ["httpsig/src/crypto/mod.rs:11-59", "httpsig/src/crypto/asymmetric.rs:65-149", "httpsig/src/crypto/asymmetric.rs:260-353", "httpsig-hyper/src/hyper_http.rs:607-628"]}
{"id": "C122", "title": "Whole programs without panics", "statement": "A program over the public interface imports keys, takes messages, sets and checks digests, asks for signatures, signs and verifies, in any order and any number. Behind checks that a caller can make (length and zero checks on private keys, a check of the signature headers, a check of the labels before verification), such a program panics exactly when it comes to a signing call whose bases can all be built and one of whose keys panics. With Ed25519 private keys, and any public and shared keys, it never panics and answers every command. A program that does not panic without the checks ends in the same state and gets the same answers with them. Without them two commands are enough for a panic in every state.", "quantifier": "all programs, states, key files, messages, times and selections of keys, and all behaviours of the key libraries", "why_tests_cant": "a test runs one program; absence of panics is about all programs and all inputs that an attacker may send", "anchors": ["httpsig/src/crypto/asymmetric.rs:55-149", "httpsig/src/crypto/symmetric.rs:20-40", "httpsig-hyper/src/hyper_http.rs:246-358", "httpsig-hyper/src/hyper_http.rs:367-489", "httpsig-hyper/src/hyper_content_digest.rs:105-255"]}
{"id": "C123", "title": "What can be learned by watching checks run", "statement": "The comparison of digests and the check of an HMAC give the right result and do not leak by their control flow: which branches are taken, which places of the compared arrays are read and how many blocks are hashed depends on the lengths and on the final answer alone. Hence somebody who adaptively sends data and tags and watches every run learns nothing that the answers yes and no do not tell already. A comparison that stops at the first difference gives the same answers, but somebody who watches it gets a valid tag for any data within 8192 tries without knowing the key.", "quantifier": "all keys, data, tags and digests, all strategies of the observer, any number of rounds", "why_tests_cant": "tests see results, not runs; and the claim is about all strategies and keys", "anchors": ["httpsig-hyper/src/hyper_content_digest.rs:210-218", "httpsig/src/crypto/symmetric.rs:61-72"]}
{"id": "C124", "title": "A request as the client signs it and as the server receives it", "statement": "Over HTTP/1.1 a client has a request with an absolute URI and the server has it with path and query only. Every component that is not @authority, @scheme or @target-uri, and not a field that was changed on the way, has the same value on both sides; those three have a shorter value at the server. So the signature base exists on both sides, and is equal exactly if none of the three is covered (for a response: with req). Verification at the server then gives what it gives at the client. A signature that covers one of the three is not accepted at the other side by a key that accepts it only with the signed text. A server that puts the client's scheme and authority back into the URI gets the client's result for every coverage.", "quantifier": "all requests with an absolute URI whose method is not CONNECT, all sets of lines added on the way, all responses, parameters, keys and times", "why_tests_cant": "the tests of the repository sign and verify one and the same value of type Request; the two sides never differ", "anchors": ["httpsig-hyper/src/hyper_http.rs:828-930"]}
{"id": "C125", "title": "A request that was signed for one server and is sent to another", "statement": "If a server verifies requests as they come, the value of Host does not matter unless the field Host is covered: the answer is the same for every server, even if @authority and @target-uri are covered. If Host is covered, a server with another name does not accept, for a key that accepts the signature only with the signed text. If a server first puts its own scheme and name into the URI, it rebuilds the text that a client signed for an absolute URI exactly if what is covered does not tell the two servers from each other: @authority and @scheme up to letter case, @target-uri by the exact text. In that case all answers are the same, and otherwise the signature is refused.", "quantifier": "all requests, names of servers, coverages, keys, times and ways to change lines in between", "why_tests_cant": "the claim compares all pairs of servers and all coverages; no test of the repository changes Host between signing and verification", "anchors": ["httpsig-hyper/src/hyper_http.rs:828-930"]}
{"id": "C126", "title": "A signed request is written to the wire and read again", "statement": "The head of an HTTP/1.1 request is unambiguous: from one stream of octets all readers get the same method, URI, header lines and start of the body. What a client writes is read as its method, its URI in origin form, and its lines without blanks at their ends. Signing never spoils a message: whatever labels and texts the signers have, if signing succeeds, every reader sees the lines that were there before and two further lines for each signer, exactly as they were made; nothing can be injected. What the server reads is verified with the result that the client gets from the signed request, unless a signature covers a lost component, a line added by the client's program, or a field that had blanks at the end of a line. Such a field is signed with its blanks, so its signature fails after the way.", "quantifier": "all requests that can be written, all lists of signers, labels and parameters, all bodies, all readers that follow the grammar, all keys and times", "why_tests_cant": "the tests never write a message to octets; the claim is about every reader and every text that a caller may put into labels and parameters", "anchors": ["httpsig-hyper/src/hyper_http.rs:280-312", "httpsig-hyper/src/hyper_http.rs:805-826"]}
{"id": "C127", "title": "Signed requests with bodies, one after the other on a connection", "statement": "All readers of a connection see the same requests with the same bodies, where the length of a body is given by Content-Length. Signing keeps the borders between requests: whatever the signers add, every reader sees as many requests as were sent, each with its own body and lines and after these the two lines of each of its signers. Each request is verified with the result that its client gets, and the check of its content digest too, whatever stands before and after it on the connection. The length must be given: a signed request without Content-Length whose body holds the text of a request is read as two requests, and the signature of the first is valid.", "quantifier": "all lists of requests, bodies, signers and labels; all readers that follow the grammar; all keys and times", "why_tests_cant": "the tests have single messages in memory; the claim is about all streams of octets and all readers", "anchors": ["httpsig-hyper/src/hyper_http.rs:280-312", "httpsig-hyper/src/hyper_content_digest.rs:111-155"]}
{"id": "C128", "title": "A signed answer goes back over the wire; the whole exchange", "statement": "The head of an HTTP/1.1 response is unambiguous, and what a server writes is read with its status and its lines without blanks at their ends. Signing spoils no response: every reader sees the earlier lines and after them two lines for each signer, exactly as they were made. The client verifies what it reads, with the request as it was sent, with the result that the server gets with the request as it came, unless a signature covers a component that is lost or changed on one of the two ways. So a whole exchange succeeds: a client signs and sends a request, the server finds it valid, signs an answer that may cover components of the request such as its signature, and the client finds the answer valid.", "quantifier": "all requests and responses that can be written, all parameters, labels, pairs of keys and times, all bodies and readers that follow the grammar", "why_tests_cant": "the tests sign and verify the same message in memory; the claim is about both sides of a connection and all readers", "anchors": ["httpsig-hyper/src/hyper_http.rs:403-436", "httpsig-hyper/src/hyper_http.rs:770-803"]}
{"id": "C129", "title": "Signed requests and answers over HTTP/2", "statement": "As a list of field lines (HTTP/2, HTTP/3) a request or response is unambiguous, and what one side sends is read with method, scheme, authority, path, query, status and the lines that were sent. Signing adds only lines that can be carried. Every component has the same value on both sides, also those that are lost over HTTP/1.1, unless it is taken from the cookies, from fields of the connection or from lines that were added on the way. So verification gives the same result on both sides, and a whole exchange succeeds whose signatures cover scheme, authority and target URI. A cookie that is cut on the way makes the signature over it invalid.", "quantifier": "all requests and responses that can be sent, all orders of the control data, all ways to cut cookies, all signers, parameters, labels, pairs of keys, times and readers", "why_tests_cant": "the tests sign and verify the same message in memory; the claim is about both sides of a connection, all messages and all readers", "anchors": ["httpsig-hyper/src/hyper_http.rs:280-312", "httpsig-hyper/src/hyper_http.rs:403-436", "httpsig-hyper/src/hyper_http.rs:807-930"]}
{"id": "C130", "title": "Signed answers one after the other on a connection", "statement": "Octets on an HTTP/1.1 connection are read as one list of answers only, by every client that knows the methods of its requests. Signing keeps the borders: whatever the signers add, the client reads as many answers as were sent, each with its status, body and lines and after these the lines of its signers, also after answers such as 103. It verifies each with the request that it sent at this place and gets the result that the server gets; the same for the digest of the body. When the library computes Content-Digest over a body that is not sent (HEAD, 304), the client rejects the answer. A client that takes HEAD for GET reads the next answer as the body of the first, and the signature stays valid.", "quantifier": "all lists of answers that can be sent (with Content-Length, without a body, or until the connection is closed), all signers, parameters, labels, requests, keys, times and readers", "why_tests_cant": "the tests sign and verify one response in memory; the claim is about whole connections, all lists of answers and all readers", "anchors": ["httpsig-hyper/src/hyper_http.rs:403-436", "httpsig-hyper/src/hyper_content_digest.rs:165-212"]}
{"id": "C131", "title": "Signed requests with bodies in chunks, and proxies that change how a body is carried", "statement": "A body in the chunked coding is unambiguous and ends at one place, and a body that is cut in any way is read as this body. On a connection whose requests have a Content-Length or come in chunks, signing keeps the borders between requests; every reader sees the requests that were sent, and signatures and digests of bodies are verified with the results that the clients get. A proxy may replace Transfer-Encoding by Content-Length or the other way: signatures that cover neither field, and the digest, are verified with the same result. A signature over Content-Length does not survive it.", "quantifier": "all lists of requests that can be sent, all ways to cut bodies, all sizes, extensions and trailers, all signers, keys, times and readers, all proxies that change these two fields only", "why_tests_cant": "the tests verify a message in memory; the claim is about all octets of a connection, all cuts of bodies and all readers", "anchors": ["httpsig-hyper/src/hyper_http.rs:280-312", "httpsig-hyper/src/hyper_content_digest.rs:105-156", "httpsig-hyper/src/hyper_http.rs:807-825"]}
{"id": "C132", "title": "A whole connection of signed requests and signed answers", "statement": "On an HTTP/1.1 connection the client signs requests and writes them one after the other, with bodies by Content-Length or in chunks. The server reads them, signs each answer with the request that it read, and writes the answers one after the other, after any interim answers, with bodies by Content-Length, in chunks, or until the connection ends. Every reader sees the same answers. Then verification accepts every request at the server, and every answer at the client for the request that the client sent at this place, and all bodies are those that were sent.", "quantifier": "all lists of exchanges that can take place, all bodies and all ways to carry them, all interim answers, all signers, keys, times and readers", "why_tests_cant": "the tests sign and verify a message in memory with the same request object; the claim is about all octets of a connection, all lists of exchanges and all readers", "anchors": ["httpsig-hyper/src/hyper_http.rs:280-312", "httpsig-hyper/src/hyper_http.rs:807-825"]}
{"id": "C133", "title": "Signed requests and answers through chains of proxies", "statement": "A request goes over any number of HTTP/1.1 and HTTP/2 connections and through any number of proxies, which may give it another scheme and authority and may add, remove or change lines of some fields; the answer comes back in such a way. Then method, path, query and status are kept, and so are bodies and all other fields. Signatures that cover only what was kept, and digests of bodies, are verified at the end with the result at the beginning. Authority, scheme and target URI may be covered too if the server puts scheme and authority back. An answer that is signed with the request that came to the server is valid at the client for the request that the client sent. A signature over the authority does not survive a proxy that changes it.", "quantifier": "all chains of connections and proxies, all fields that they change, all requests and answers that can be sent, all signers, keys and times", "why_tests_cant": "the tests sign and verify one message object in memory; the claim is about all chains of steps and all messages", "anchors": ["httpsig-hyper/src/hyper_http.rs:280-312", "httpsig-hyper/src/hyper_http.rs:807-825", "httpsig-hyper/src/hyper_content_digest.rs:105-156"]}
{"id": "C134", "title": "Requests and answers on their way through stations that sign them too", "statement": "A request is signed by the client and goes over connections and through proxies; any of these stations may sign it too, under a new label, and may cover the signatures that are there already. At the end the request carries the signatures that it had and those of all signers in their order, each is over the signature base of the request as it is at the end, and verification by key id accepts each, if what the signers cover was kept since they signed. The same is true of an answer that stations sign on its way back, each with the request as it came to this station; the client verifies with the request that it sent. If two stations leave the label to the library, the later signature takes the place of the earlier.", "quantifier": "all chains of connections, proxies and signers in any order, all messages, signature parameters, keys and times", "why_tests_cant": "the tests sign one message object in one place; the claim is about all chains of steps and all orders of signers", "anchors": ["httpsig-hyper/src/hyper_http.rs:280-312", "httpsig-hyper/src/hyper_http.rs:807-825"]}
{"id": "C135", "title": "Many signed exchanges at once on a connection of HTTP/2", "statement": "Requests and answers are sent on the streams of a connection of HTTP/2, mixed in any way, their bodies cut into pieces in any way, with or without trailers and with any interim answers. On each stream is read exactly one message, the one that was sent there. A signed request is valid on the server's side with its whole body, and the signed answer is valid for the client with the request of the same stream. The digest is verified over all pieces in their order, wherever the program has to wait, if and only if it would be for the whole message of the sender. It is never verified if the stream is broken off. An answer on the stream of another request is noticed if its signature covers something in which the requests differ, and not noticed if it covers nothing of the request.", "quantifier": "all mixes of all streams, all cuts of bodies, all places where the program waits, all messages, signature parameters, keys and times", "why_tests_cant": "the tests have one message object with its body in one piece and no connection; the claim is about all mixes and cuts", "anchors": ["httpsig-hyper/src/hyper_http.rs:280-312", "httpsig-hyper/src/hyper_http.rs:807-825", "httpsig-hyper/src/hyper_content_digest.rs:105-156"]}
{"id": "C136", "title": "Signed answers in caches", "statement": "A signed answer is stored in a cache, sent with its age, freshened with answers 304 and carried through further caches and proxies, any number of times and in any order, and used for other requests as RFC 9111 allows: for the same method and target, and the same lines of the fields that Vary names. It keeps its status, its body and all lines that were not changed. Verification with the request for which it is used has the result that it has on the server's side with the request for which it was made, if no covered field of the answer was changed and each covered field of the request is named in Vary. So it is valid until the signature expires, and not after that. Without Vary the signature can be invalid for a request for which the answer is used, and a signed answer 304 takes the valid signature of the stored answer away.", "quantifier": "all answers, requests, Vary fields, lives in caches, signature parameters, keys and times", "why_tests_cant": "the tests verify each response at once with the request object with which it was signed", "anchors": ["httpsig-hyper/src/hyper_http.rs:807-825"]}
{"id": "C137", "title": "Answers to HEAD, and answers in parts", "statement": "A signed answer 200 is sent in answer to HEAD, without its content, or in parts (status 206, with Content-Range), as RFC 9110 allows. Signatures of the answer to HEAD are verified as those of the answer to GET, if the fields of the request that they cover are named in Vary and they do not cover its method; if they cover its method, no text is signed for both. Signatures of a part are verified as those of the whole, if they cover neither the status nor Content-Range nor Content-Length; if they cover the status, no text is signed for both. With the digest of the whole, an answer to HEAD or a part is accepted exactly if what it has has the same hash; so only a part that is all of the content is accepted without a collision. Parts that are put together again, from the first byte to the last, have the content of the answer, and its digest and signatures are verified as those of the answer, also if they cover the status.", "quantifier": "all answers, requests, ranges, numbers of parts, signature parameters, keys and times", "why_tests_cant": "the tests verify responses with the content and the status with which they were signed", "anchors": ["httpsig-hyper/src/hyper_http.rs:807-825", "httpsig-hyper/src/hyper_content_digest.rs:184-207"]}
