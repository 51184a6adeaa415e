# Formal model of httpsig-rs

Target: junkurihara/httpsig-rs at the pinned commit in /repo (crates `httpsig` and `httpsig-hyper`).
The Rust code was read as text. It was not built or run.

## 1. Trusted base

* The Lean 4.33.0 kernel. Allowed axioms: `propext`, `Quot.sound`, `Classical.choice`. No own axioms, no `sorry`,
  no `native_decide`, no `bv_decide`.
* The transcription of the Rust code into `lean/Verif/Model`. Every definition there cites file and lines.
* The transcription of the dependencies that the code calls (no source of them is in /repo):
  sfv 0.14 (parser and serializer, RFC 9651), base64 0.22, http 1.x (`HeaderMap`, `HeaderValue`, `Uri`),
  indexmap, sha2, hmac, `join_all` of futures, `collect` and `Full` of http-body-util. Neither their source nor their documentation is
  installed here; they are modelled from what is known of the published crates and were not compared with them by running.
* For C62, the transcription of RFC 9421 section 2 into `lean/Verif/Spec/Rfc9421.lean`. The text of the RFC is not installed here either; the `#guard`
  lines there repeat examples of the RFC from memory.
* For C63 and C64, the grammar of RFC 9651 as written in `lean/Verif/Spec/Grammar.lean` and `Spec/Canonical.lean`, also from memory. That sfv itself follows it
  is not shown: C63 and C64 compare the model of sfv with the grammar.
* Taken as parameters: the operating system's clock and random numbers, the async executor (its poll schedule is a parameter), and in most
  theorems the elliptic curve, Ed25519 and RSA operations and DER and PEM decoding (`Prims`). Theorems that need a fact about
  one of these carry it as a hypothesis, and each such hypothesis is met by an example instance beside the theorem.
* For C66 and later properties about keys, the crates p256, p384, ecdsa, ed25519_compact, rsa, pkcs8, spki, sec1, der and pem-rfc7468 are modelled from the
  standards they implement (FIPS 186-4, SEC 1, RFC 6979, RFC 8032, RFC 8017, X.690, RFC 5958, RFC 5280, RFC 5915, RFC 7468). Where it is not known
  what a crate does, the choice is a field of a record (`Libs`, `Ed.Variant`, `Rsa.Lib`, `Der.Lib`) and the theorems hold for every value, or
  say for which. The tests of /repo with real keys are replayed on this model in `Model/ConformanceKeys.lean`.

## 2. Modelling conventions

* Text is `List Char`, bytes are `List UInt8`, timestamps are `UInt64`.
* `Res ε α` has three cases: `ok`, `err` (a Rust `Err`) and `panic`. A Rust panic is never turned into a default value.
* Error constructors are kept, their message strings are dropped.
* The clock is an explicit argument `now`. Random bytes are explicit arguments.
* `IndexMap` / `IndexSet` are association lists with the library's insertion rule: a new key goes to the end, an old key keeps its place.
* Keys are records of functions (`sign`, `verify`, `keyId`, `alg`); concrete HMAC and SHA-2 are defined in full.
* Parsers use structural recursion on a fuel argument that is the length of the input plus one. It is proved that more fuel never
  changes the result, so fuel is not observable.
* Async functions are modelled by their results. `join_all` has a separate small-step model over arbitrary poll schedules.

## 3. Layout

* `Verif/Basic.lean`: notation and text helpers.
* `Verif/Model/*.lean`: the model of the code. `#guard` lines replay the unit tests of /repo on the model.
* `Verif/Spec/*.lean`: specifications that do not use the helpers of the model.
* `Verif/Proofs/*.lean`: lemmas.
* `Verif/Props/*.lean`: the theorems named in MANIFEST.json, with a concrete case beside each.

## 4. What is modelled and what is not

Modelled (model file, code). Each definition cites its lines.

* `Model/Component.lean`: httpsig/src/message_component. The conversions to a component value (component_value.rs 9-23) are the constructors of `CValue`,
  its `Display` (25-48) is `CValue.disp`.
* `Model/SigParams.lean`: signature_params.rs. `Model/UniqueHash.lean`: `has_unique_elements` of util.rs with a hash set.
* `Model/SigBase.lean`: signature_base.rs. Getters are record fields.
* `Model/Crypto.lean`: httpsig/src/crypto. Algorithm names; shared keys with HMAC-SHA256 in full; for asymmetric keys the control flow
  around abstract primitives (`Prims`). `Scheme.sign` and `Scheme.verify` include the hashing of the message.
* `Model/ModArith.lean`, `Model/Ec.lean`, `Model/Sha384.lean`, `Model/Ecdsa.lean`, `Model/Ed.lean`, `Model/Rsa.lean`, `Model/Der.lean`: the crates
  behind the asymmetric keys; `Model/Std.lean` puts them into `Prims`. Not modelled: the time that asymmetric keys take, blinding, key generation.
* `Model/Timing.lean`: `is_equal_digest` (hyper_content_digest.rs 211-218) and `verify` of shared keys (symmetric.rs 61-72) with the branches, the reads of the
  compared arrays and the hashed blocks, after the documentation of `subtle` and `hmac`. A compression is one step; what the compiler and the processor make
  of the code is outside.
* `Model/Hyper.lean`: httpsig-hyper/src/hyper_http.rs. `Model/JoinAll.lean`: its asynchronous layer; a future is a machine that is
  ready after finitely many polls.
* `Model/Log.lean`: the log lines of `httpsig` (symmetric.rs 24, 41, 64; asymmetric.rs 68-93, 179-207, 263-286, 361-396; component.rs 163;
  signature_params.rs 204) in the order in which reading keys, signing and verifying write them. The functions are those of the other files with a list
  of lines beside the result; `Proofs/Log.lean` proves that the results are the same. `httpsig-hyper` writes none. A line is a level and a text;
  the subscriber of `tracing` and the order between threads are not modelled.
* `Model/ErrText.lean`: the errors of reading, signing, verifying and Content-Digest with their messages (httpsig/src/error.rs 9-69, httpsig-hyper/src/error.rs
  11-67 and the places that make them). The functions are those of the other files; `Proofs/ErrText.lean` proves that without the messages the results are
  the same. Messages of `sfv` and `http` and `Debug` of a bare item are the fields of `ErrLib`; errors of keys are in `Model/KeyText.lean`.
* `Model/KeyText.lean`: the errors of names of algorithms, of reading keys and of checking with keys, with their messages (crypto/mod.rs 43-59, symmetric.rs
  23-33 and 61-72, asymmetric.rs 65-158, 260-353, 358-402), and `Debug` of a shared key in its usual form (`{:?}`). Messages of other crates are the fields of
  `KeyErrLib`. `Debug` of the other keys is made by other crates and is not modelled. `C112_same` proves that without the messages the results are the same.
* `Model/Blocking.lean`: the blocking wrappers (hyper_http.rs 137-231, 489-598) with the flag per thread of `block_on`, from the documented behaviour of
  futures-executor 0.3.
* `Model/Digest.lean`: hyper_content_digest.rs 45-59, 111-256 and the digest type of lib.rs. `Model/Frames.lean`: 18-41 and 111-207
  with `collect` and `Full`.
* `Model/Sfv.lean`, `Model/Base64.lean`, `Model/Sha2.lean`, `Model/Http.lean`: the used parts of the dependencies.
* `Model/UriText.lean`: making URIs, methods, header maps, requests and responses from text, as crate http does.
* `Model/Examples.lean`: the programs httpsig-hyper/examples/hyper-request.rs and hyper-response.rs without their output.
* `Model/Tests.lean`: the tests of httpsig-hyper that sign and those of signature_params.rs that read the clock, as programs
  that end or panic.
* `Model/Repair.lean` is not a model of the code: it is the library with eight local changes, each named with its lines (C110). Only C110 uses it.
* `Model/Conformance.lean`: test vectors of the repository evaluated on the model.

Simplifications:

* Error messages are dropped in all files but `Model/ErrText.lean` and `Model/KeyText.lean`, error constructors are kept. Log output is dropped in all files but `Model/Log.lean`.
* In `Model/Hyper.lean` a verification has one clock value. The code reads the clock once per candidate signature that has `expires`
  (signature_params.rs 116). `Model/Clock.lean` has the readings apart, including a clock before 1970 at which the code panics;
  `C59_single_clock` says when both agree. The reading of `try_new` (39) is an argument that cannot be before 1970.
* A header map is a list of lines without a limit. `Model/HeaderMap.lean` has maps of any implementation with a limited size, whose `append` and
  `insert` may panic; `C83_limit` and `C83_limit_digest` say that nothing else changes. The laws of `MapLib` are trusted of `HeaderMap`.
* `Uri` is a record of optional parts, and most theorems hold for every record. `Model/UriText.lean` has the parser of `http`, on text; bytes outside UTF-8
  (which the crate accepts in a fragment only) are left out.
* In `Model/Digest.lean` a body is its bytes or a failure. `Model/Frames.lean` has bodies as finite streams of frames, pauses and
  failures; `C60_set` and `C60_verify` reduce one to the other. Several trailer frames are joined in a simplified way (they are dropped).
* The feature `rsa-signature` and the overflow checks of the build are flags.

Tests: those that sign or read the clock are modelled in `Model/Tests.lean` (C105, C109); those of the keys are evaluated in `Model/ConformanceKeys.lean` and most of the others in `Model/Conformance.lean`.
Not modelled: the output of the example programs, trace.rs, `Debug` output.

## 5. Hypotheses used by theorems

* `WfHeaders`: header names are non-empty lower-case tokens of at most 65535 characters. It says nothing about values.
* `WfMsg`, `WfRequest`: moreover method and URI parts contain no line break. Messages made from text by crate http satisfy all three
  (`C71_request_wf`, `C71_response_wf`).
* `SafeParams`: string parameters and id texts are `SafeText`, timestamps are below 10^15, ids obey the parameter rules and are
  pairwise different. The round trip is false without it (`C05_false_without_conditions`).
* `OneLineParams`: string parameters and ids contain no line break.
* `KeyPair`: the verifying key accepts what the signing key signs. For arbitrary keys it is a hypothesis; for HMAC keys and for the
  keys of `Model/Std.lean` it is a theorem (C66, C67, C69, C70_pair).
* `OnlySigned`: the verifying key accepts only signature bases of things its holder signed (C09, C45). `Props/C09.lean` has instances. No real key is
  such; C118 turns the theorems about checked messages into theorems without it: what they say holds, or a received message holds a forgery.

## 6. Findings

The causes of findings that make a property false of the code (panics, missing escapes, absent fields as empty values, OPTIONS, lines added in part) are local: with the eight changes of `Model/Repair.lean` C03, C04, C09, C16, C17, C47, C48 and C52 hold in full (C110); C62 is not among them.

Behaviour of the code that a reader may not expect. The names are theorems, unless the entry says that there is none.

1. Panics while parsing headers: an unknown derived name, also as the date `@5`; negative `created` or `expires` (`C16_false`).
2. An ECDSA key panics on a signature of the wrong length (`C17_verify_panics_iff`); a batch then has no result at all
   (`C03_false_shared_id`).
3. Strings are written without escapes. A quote in a nonce, key id or tag sets other parameters (`C52_false`); large timestamps are
   written but not readable (`C05_false_without_conditions`); a line break makes the base ambiguous (`C08_false_with_line_break`).
4. Order of parameters and unknown ones do not reach the signature base (`C39_known_params_only`).
5. Tokens, integers and booleans in the covered list are read as strings (`finding_conflated`).
6. A covered header that is absent counts as empty (`C47_false`).
7. A covered component can be renamed with escaped quotes (`C09_false_component`), and string parameters can be split differently
   (`C09_false_keyid`).
8. `@method` is upper-cased (`C30_request`); `@request-target` of OPTIONS is `*` (`C48_false`).
9. Only the first Content-Digest line is looked at (`C20_first_line_only`). By RFC 9530 a later line can overrule it (`C106_first_line`), and digests under two
   labels may stand in one line, which the library refuses (`C106_two_digests`).
10. A nonce outside ASCII can be signed but not read (`finding_nonce`).
11. `created` is not compared with the clock (`C12_created_ignored`).
12. Ids that differ in letter case are not duplicates (`finding_case`).
13. Flag parameters accept any value (`finding_flag`).
14. A label used again replaces the older signature (`C04_one_replace`).
15. If appending fails midway, earlier pairs stay in the message (`C34_whole_pairs`).
16. Importing private keys of wrong length panics (`C57_from_bytes`, `C57_from_der`).
17. Covering the `signature` field makes verification fail once the signature is written (`C01_false_self`).
18. A message with empty signature fields is unreadable after signing (`C04_empty_breaks`, `C04_false`).
19. Setting or verifying a content digest drops the trailers of the body (`C60_trailers_lost`); the digest does not cover them
    (`C60_framing_irrelevant`).
20. The signature base is not always the one of RFC 9421; the differences found are the theorems `C62_differs_*`; C76 says
    exactly when the bases agree, C92 when only one of the two exists, C94 both for fields with `sf` or `key`, and C95
    for all identifiers; C96 says the same of whole exchanges. In particular Host is ignored: a request
    as a server receives it (only a path in the request line) has an empty `@authority` and `@scheme` and a `@target-uri` without host, so covering these
    does not bind the host (`C62_host_unbound`, `C62_host_witness`).
21. The key id of an ECDSA key hashes the compressed point, the comment promises the uncompressed one (`C66_key_id_not_as_documented`).
22. Every accepted ECDSA signature has a second accepted form (`C66_p256_second_signature`, `C66_p384_second_signature`).
23. Any 32 bytes are imported as an Ed25519 public key. Bytes that are no point give a key that accepts nothing (`C67_dead_key`). The neutral
    element is imported too; whether it then accepts one signature for every message is left to the library (`C67_small_order_key`).
24. A private Ed25519 key of a wrong length or of zeros is a panic, not an error (`C67_secret_key`).
25. The two bytes before the seed in a file with an Ed25519 key are skipped without a look; RFC 8410 section 7 fixes them to 4 and 32
    (`C68_ed_prefix_ignored`). A field that is not 34 bytes long is a panic (`C68_secret_der_panic`).
26. A public key inside an ECPrivateKey is not compared with the scalar (`C68_embedded_public_key_ignored`). Parameters of the Ed25519 and RSA
    identifiers are not looked at (`FileAlg` in `C68_secret_der` and `C68_public_pem` says nothing about them).
27. With rsa-pss-sha512 a key below `2 ^ 1033` is imported but cannot be used: signing always panics and verification never succeeds
    (`C69_sign_pss`, `C69_short_key`; `C69_1024_bits` for a key of 1024 bits under the documented limits of the library).
28. `COVERED_COMPONENTS` of examples/hyper-response.rs has `"content-digest";req`, which is the digest of the request. The body of the
    response is protected by nothing: it can be replaced together with its digest, and every check of the program passes
    (`C72_response_examples`). The response example in README.md covers `content-digest` of the response itself.
29. A signature that covers only fields of the message (and `@signature-params`) says nothing about the kind of the message: a signed response
    sent back as a request is accepted (`C81_reflected`, in general `C81_replay`).
30. Combining the lines of a field, which any intermediary may do, breaks signatures over it with `sf` or `key` (`C80_sf`, `C80_key`); by the
    RFC they would survive (see `C62_differs_sf_lines` and `C62_differs_key_lines`).
31. The parameter `alg` is never compared with the key, though RFC 9421 section 3.2 asks for it: an Ed25519 key accepts a signature that claims
    `hmac-sha256` (`C82_alg_false`, in general `C82_any_claim`). `get_alg_key_ids` reports an unknown name like an absent one (`C82_unknown_hidden`).
32. The text hashed for one message is quadratic in its size, and nothing limits the number of signatures: a head of 54060 octets can make the
    library build 1000 signature bases of 27000 characters or more, and check 1000 signatures for a key without an id, since verification
    does not stop at the first success (`C85_quadratic`, `C85_not_linear`).
33. The lower-level functions check less than the ones for messages. `HttpSignatureBase::verify_signature_headers` tests expiry with the
    parameters of the headers handed in and the signature with the parameters of the base, without comparing them
    (`C86_expiry_not_bound`). `HttpMessageComponent::try_from(&str)` accepts values with line breaks, with which different lines have
    the same text (`C86_break_collides`). `try_new` accepts lines whose identifiers have their parameters in another order than the
    covered identifiers, and signs a text that no receiver of a message rebuilds (`C86_two_spellings`). None of this can happen
    through the functions for messages, which use one set of parameters and values from headers.
34. One unreadable signature stops the verification of all: whoever can add a line to a message can make a receiver that looks only for
    its own key fail (`C88_error`) or panic (`C88_panic`), whatever the other signatures are. A readable one cannot (`C88_verify`).
35. The results of `verify_message_signatures` are per key, not per signature. A receiver that finds its keys with the pairs of
    `get_alg_key_ids`, as README.md advises, may see only successes though one of the signatures is wrong (`C91_all_false`), and its
    choice by algorithm can be evaded with a second signature that has the same key id (`C91_alg_false`). It has to look up the returned
    name (`C82_checked`), or refuse messages with shared key ids (`C91_own_ids`).
36. The comments on the blocking traits say that their methods panic within an async runtime such as a tokio task. They panic only inside a `block_on` of
    crate futures (`C93_nested`, `C93_comment_false`); in a tokio task they block the thread. This rests on the flag of futures-executor, see `Model/Blocking.lean`.
37. Any sender can make the library write lines of level error, with texts of their choice among the characters of a key, and about one for every two
    characters of Signature-Input, before any signature is looked at (`C98_errors`, `C98_flood`). RFC 9421 lets a signature have other parameters, so
    these lines do not mean that something is wrong with the message. They cannot hold a line break (`C98_lines`).
38. Verification does not stop at the first signature that is accepted. A key without key id is used on all carried signatures, so a sender decides, with
    27 characters each, how many cryptographic operations every key of the receiver costs (`C99_verify`, `C99_all`).
39. The library has nonces but keeps no record of them; a message is accepted again until it expires, and for ever if it has no expiry (`C102_again`).
    A caller that keeps a record of nonces behind the library is not safe: since values are written without escapes, `nonce="a";alg="b"` and
    `nonce="a\";alg=\"b"` give the same signature base, so one signature is accepted with two nonces (`C102_escapes`). A record of signature octets
    is not safe with ECDSA (`C102_signature_octets`). With the checks of C101 in front a record of nonces is enough (`C102_injective`).
40. Reading the signatures of a response that has none says that "the request" has none; verification says "response" (`C103_response`). The message about
   a component line without a colon repeats the line as it is, line breaks included (`C103_line_repeated`); messages about received messages do not
   (`C103_printable`).
41. The results of `verify_message_signatures` count keys, not signatures and not holders. Without key ids one signature can be the success of many keys, and
    HMAC keys that differ in zero octets at the end are one secret (`C107_one_secret`); right signatures of several members may be about different components
    (`C107_no_common`). Key ids of their own, the checks of C101 and a list of components are enough (`C107_labels`, `C107_bound`).
42. `Debug` of a shared key shows the whole secret: `{:?}` writes its octets in decimal, and different keys have different texts (`C112_debug`). An application that
    logs a structure with such a key in it logs the key.
43. `set_message_signatures` computes all bases before it writes anything. A signer of the list that covers a signature of the same list (a proxy's chain, RFC 9421
    section 4.3) is signed over the empty string or over the old value; the call says `Ok`, and its signature does not verify (`C114_blind`, `C114_lost`). Two calls work.
44. The label that `verify_message_signature` returns is not from the signer: anybody on the way can give an accepted signature any label, and several at once
    (`C115_any_labels`), or exchange labels (`C115_renamed`). An application that decides by the label decides by what the channel says; key ids and keys are bound.
45. `req` components bind an answer to a request only as far as they are covered. With status, method and URI, which is what C89 and C108 ask for, an answer to one
    request is taken as the answer to every other request with the same method and URI (`C116_confused`): two POSTs to the same URI with different bodies can have
    their answers exchanged. Covering `"signature-input";req` of a request that has a nonce is enough to exclude this (`C116_agreement`); no need to cover the
    body or the signature of the request.
46. `@authority`, `@scheme` and `@target-uri` are taken from the URI of the `Request` value only, never from Host. A client that signs a request with an absolute URI
    and a server that gets it over HTTP/1.1 with path and query have different values for them, and an honest signature that covers one of them fails at the server
    (`C124_base`, `C124_refused`; `C124_refused_response` for `req` components of answers). The server must put scheme and authority back before it verifies
    (`C124_restored_verify`).
47. A request in origin form that is signed over `@authority` and `@target-uri` is valid at every server: both are worth the same whatever Host says
    (`C125_relay`). To bind a request to a server, cover the field Host (`C125_host`), or cover `@authority` and let the server put its own name into the URI
    (`C125_base`, `C125_refused`).
48. Blanks at the ends of a field line are signed but not carried: RFC 9421 section 2.1 strips them before signing, `extract_http_field` (hyper_http.rs:805-826) does not.
    A request with `x: " a "` signed over `x` fails after it was written and read as HTTP/1.1 (`C126_blank`). Without such lines nothing is lost (`C126_deliver`).
49. A line Cookie may be cut into several lines on the way over HTTP/2 (RFC 9113 section 8.2.3). `extract_http_field` (hyper_http.rs:807-825) reads them as a list with commas, so a signature over Cookie becomes invalid (`C129_cookie`). The parts would have to be put together with "; " first.
50. `set_content_digest` of a response digests the body that the response holds. For an answer to HEAD, or with status 304, the server's HTTP library does not send this body, so the client's `verify_content_digest` fails unless the body was empty (`C130_head`). RFC 9530 appendix B.2 wants the digest of no octets there.

## 7. Axioms

Printed by `tools/axioms.py` from `#print axioms` for every theorem of the manifest.

* none: C12_created_ignored, C37_try_new_err, C40_public_key_alg, C43_overflow_witness, C93_flag.
* propext: C112_name, C112_verify, C121_names, C129_malformed, C12_boundary, C131_lengths, C132_chunked, C132_lengths, C132_until, C135_cut, C17_false, C17_verify_panics_iff, C26_exchange, C31_name_exact, C31_name_round_trip, C41_declaration_unique, C57_from_bytes, C57_public_from_bytes, C61_exists, C93_nested.
* Quot.sound, propext: C100_key, C101_id, C103_digest_set, C103_new, C103_told, C103_up, C110_key_pair, C110_keys, C112_debug, C112_mac, C112_same, C112_shared, C121_der_text, C121_no_rsa, C121_pem_text, C121_public, C121_secret, C124_lost, C124_value, C126_case, C126_head, C128_digits, C128_head, C129_answered, C129_sent, C131_sizes, C133_value, C135_readable, C135_readable_answer, C135_shape, C135_shape_answer, C135_streams, C136_value, C137_head_value, C14_try_new, C17_shared_never_panics, C18_set_digest, C21_body_error, C29_piece, C30_status_injective, C40_key_id_binds_hash, C40_key_id_length, C40_secret_and_public_agree, C40_shared_agree, C41_from_bytes, C41_public_from_pem, C41_secret_from_der, C41_secret_from_pem, C41_shared, C42_hmac_exact, C42_wrong_length, C43_duration, C46_api_params_safe, C46_last_expires, C46_last_write, C54_same_block, C54_zero_padding, C60_bytes_with_digest, C60_early, C60_into_bytes, C60_set, C61_abc256, C61_abc384, C61_abc512, C61_hmac_jefe, C61_hmac_long_key, C63_ascii, C66_p256_secret_key, C66_p384_secret_key, C67_public_key, C68_preamble, C77_req_safe, C78_deterministic, C81_kind, C83_limit_digest, C86_expiry, C86_expiry_not_bound, C86_verify, C98_keys, C98_read.
* Classical.choice, Quot.sound, propext: C01_false_self, C01_request, C02_response, C03_batch_distinct, C03_batch_partial, C03_false_shared_id, C03_one_of_many, C04_empty_breaks, C04_false, C04_one_new, C04_one_replace, C04_signed, C05_false_without_conditions, C05_params_round_trip, C05_params_text_injective, C06_false_without_conditions, C06_id_round_trip, C06_id_text_injective, C06_plain_names, C06_unquoted, C07_headers_round_trip, C07_headers_round_trip_many, C08_false_with_line_break, C08_parsed_one_line, C08_unambiguous, C08_unambiguous_safe, C09_bound_partial, C09_false_component, C09_false_keyid, C09_safe, C100_accepts, C100_asked, C100_never_panics, C100_passed, C100_refused, C100_same, C100_standard, C101_absent_sender, C101_all_or_nothing, C101_bound, C101_here, C101_kept, C101_never_panics, C101_params, C101_round_trip, C101_sends, C101_signatures, C102_again, C102_clock, C102_escapes, C102_honest, C102_injective, C102_memory, C102_once, C102_signature_octets, C102_taken, C102_timely, C103_base, C103_blind, C103_carries, C103_digest, C103_digest_blind, C103_digest_printable, C103_headers, C103_headers_printable, C103_id, C103_line, C103_line_repeated, C103_lines, C103_params, C103_printable, C103_response, C103_same, C103_sign, C103_value, C103_verify, C104_all_or_nothing, C104_base, C104_exact, C104_same, C104_send, C104_value, C105_blocking, C105_duration, C105_expired, C105_hmac, C105_params, C105_query, C105_request, C105_response, C106_agrees, C106_exact, C106_first_line, C106_many, C106_refused, C106_set, C106_sound, C106_two_digests, C107_added, C107_bound, C107_exact, C107_labels, C107_more, C107_no_common, C107_one_secret, C107_order, C107_signed, C107_single, C108_delivered, C108_end, C108_holder, C108_request, C108_response, C108_sends, C108_sent, C108_sound, C108_total, C109_one_residue, C109_p256, C109_p384, C109_test, C109_two_nonces, C10_invalid_iff, C10_no_candidate_iff, C10_ok_iff, C10_other_errors, C110_absent, C110_absent_member, C110_all_or_none, C110_bound, C110_conservative, C110_conservative_errors, C110_conservative_sign, C110_errors, C110_never_panics, C110_no_injection, C110_reading_never_panics, C110_reading_same, C110_request_target, C110_round_trip, C110_sign_verify, C110_sign_verify_labels, C110_signed, C110_signs, C111_accepts, C111_bound, C111_first, C111_junk, C111_never_panics, C111_returned, C111_work, C112_own_words, C112_public_bytes, C112_public_pem, C112_secret_bytes, C112_secret_der, C112_secret_pem, C113_carries, C113_carries_decided, C113_headers, C113_id, C113_line, C113_params, C113_poison, C113_poison_verify, C113_sign, C113_sign_decided, C113_texts_decided, C113_verify, C113_verify_batch, C113_verify_decided, C113_verify_now, C114_alone, C114_at_once, C114_blind, C114_culprit, C114_each_fails, C114_errors_differ, C114_lost, C114_not_a_value, C114_order, C114_same, C114_split, C115_all_kept, C115_any_labels, C115_chain, C115_covered, C115_not_more, C115_possible, C115_renamed, C116_agreement, C116_can_answer, C116_completed, C116_confused, C116_once, C117_among_others, C117_chance, C117_distinct, C117_exactly, C117_nonce, C117_number, C117_repeated, C117_succeeds, C118_before, C118_bound, C118_exchange, C118_group, C118_needed, C118_none, C118_once, C118_pairs, C118_pairs_count, C118_request, C118_same, C118_service, C119_batch, C119_earlier, C119_false, C119_final, C119_forward, C119_guard, C119_last_end, C119_name, C119_panic, C119_phases, C119_unread, C11_never_other_keyid, C11_only_that_keyid, C120_again, C120_alike, C120_either, C120_later, C120_too_late, C121_reported, C122_never, C122_only_signing, C122_same, C122_step, C122_step_same, C122_without, C123_digest, C123_early, C123_mac, C123_no_use, C124_base, C124_refused, C124_refused_response, C124_restored, C124_restored_verify, C124_verify, C125_base, C125_host, C125_refused, C125_relay, C125_verify, C126_arrives, C126_blank, C126_deliver, C126_no_injection, C126_unique, C127_digest, C127_length, C127_readable, C127_smuggle, C127_stream, C127_unique, C127_verify, C128_deliver, C128_exchange, C128_no_injection, C128_request, C128_unique, C129_answer, C129_arrives, C129_cookie, C129_deliver, C129_exchange, C129_unique, C129_unique_response, C129_value, C12_clock_only_expires, C12_expired_never_succeeds, C130_confused, C130_digest, C130_head, C130_readable, C130_shape, C130_stream, C130_unique, C130_until, C130_verify, C131_chunks, C131_covered, C131_digest, C131_readable, C131_reframe, C131_shape, C131_stream, C131_unique, C131_verify, C131_written, C132_connection, C132_digest, C132_readable, C132_requests, C132_shape, C132_unique, C133_answer, C133_back, C133_digest, C133_exchange, C133_request, C133_rewritten, C133_verify, C133_way, C134_same_label, C134_trip, C134_trip_back, C134_valid, C134_valid_back, C135_digest, C135_digest_answer, C135_digest_kept, C135_exchange, C135_reset, C135_swapped, C135_unique, C136_hit, C136_life, C136_names, C136_revalidated, C136_unvaried, C136_verify, C137_head, C137_head_digest, C137_head_method, C137_joined, C137_part, C137_part_digest, C137_part_made, C137_part_status, C13_labels_agree, C13_labels_distinct, C13_missing_label, C13_not_a_dictionary, C13_wrong_kind, C14_hash_set, C14_never_refused, C14_parsed, C15_at_names, C15_covered_rules, C15_id_rules, C16_false, C16_headers_panic_iff, C16_id_panics_iff, C16_member_panics_iff, C16_no_panic_partial, C17_message_panics_iff, C17_message_public_key, C17_message_shared_key, C18_base, C18_component, C18_extract_digest, C18_first, C18_label_found, C18_one_each, C18_pop, C18_signing, C18_signing_shared, C18_try_parse, C19_changed_body, C19_request_round_trip, C19_response_round_trip, C20_errors, C20_first_line_only, C20_never_panics, C20_request_verify_exact, C20_response_verify_exact, C21_request_set, C21_response_set, C22_request_req, C22_request_status, C22_response_derived_needs_req, C22_response_req_without_request, C22_response_status_req, C22_rules_suffice, C23_request_irrelevant, C23_sources, C23_value, C24_body, C24_header, C24_sign, C24_verify, C25_line_text, C25_not_visible, C25_value, C25_value_req, C26_case, C26_field_sequences, C26_field_sequences_response, C27_canonical, C27_fails, C27_same_lines, C27_same_value, C27_value, C28_fails, C28_member_text, C28_value, C29_fails, C29_value, C30_request, C30_response_req, C30_status, C31_reported, C32_dict_round_trip, C32_item_round_trip, C32_last_wins, C32_legal_round_trip, C32_list_round_trip, C32_params_last_wins, C32_serialization_injective, C33_injective, C33_shared_key_import, C33_signature_bytes_recovered, C33_strict_accepts_exactly_canonical, C34_nothing_written, C34_whole_pairs, C35_batch_err, C35_batch_of_single, C35_batch_ok, C35_batch_panic, C36_join_panic, C36_join_ready, C36_join_unique, C36_no_deadlock, C36_set, C36_verify, C37_try_new, C38_layout, C38_lines, C39_known_params_only, C39_values_read, C44_line_round_trip, C44_refused, C45_request, C45_response, C47_absent_is_empty_partial, C47_false, C48_binds_partial, C48_connect, C48_connect_apart, C48_false, C48_options, C49_absent, C49_extract, C49_fail_alike, C49_params, C50_only_appends, C50_request, C50_response, C51_illegal_name_unreadable, C51_only_keys_are_read, C52_false, C52_no_injection_partial, C53_decoded_bytes_only, C55_other_signers, C56_dropped, C57_from_der, C58_base_text, C58_header_values, C58_id_text, C58_params_text, C59_ok_iff, C59_panic_iff, C59_single_clock, C60_framing_irrelevant, C60_round_trip, C60_trailers_lost, C60_verify, C60_verify_exact, C61_content_digest, C61_hmac, C61_sha256, C61_sha384, C61_sha512, C61_shared_key_id, C61_shared_key_verify, C62_differs_absolute_form, C62_differs_authority, C62_differs_bs, C62_differs_default_port, C62_differs_escapes, C62_differs_field_absent, C62_differs_key_absent, C62_differs_key_lines, C62_differs_method_case, C62_differs_options, C62_differs_param_order, C62_differs_query_absent, C62_differs_query_encoding, C62_differs_query_repeated, C62_differs_sf_kind, C62_differs_sf_lines, C62_differs_target_uri, C62_differs_unknown_param, C62_differs_upper_case, C62_differs_whitespace, C62_host_unbound, C62_host_witness, C62_same_base_partial, C62_sign_partial, C62_verify_partial, C63_base64, C63_dict, C63_item, C63_list, C63_refused, C63_same_dictionary, C63_signature_headers, C63_unambiguous, C64_content_digest, C64_denotes, C64_dict, C64_item, C64_list, C64_sf, C64_written, C65_base, C65_carries, C65_covered, C65_headers, C65_id, C65_invalid, C65_no_candidate, C65_params, C65_sign, C65_unambiguous, C65_value, C65_verify, C66_key_id_not_as_documented, C66_p256_group, C66_p256_has_secret, C66_p256_key_id, C66_p256_pair, C66_p256_public_key, C66_p256_same_key, C66_p256_second_signature, C66_p256_sign, C66_p256_sign_verify, C66_p256_verify, C66_p384_group, C66_p384_has_secret, C66_p384_key_id, C66_p384_pair, C66_p384_public_key, C66_p384_same_key, C66_p384_second_signature, C66_p384_sign, C66_p384_sign_verify, C66_p384_verify, C67_base, C67_dead_key, C67_group, C67_key_id, C67_no_second_signature, C67_pair, C67_secret_key, C67_sign, C67_sign_verify, C67_small_order_key, C67_verify, C68_ed_prefix_ignored, C68_embedded_public_key_ignored, C68_key_bytes, C68_one_algorithm, C68_public_has_pem, C68_public_pem, C68_secret_der, C68_secret_der_panic, C68_secret_has_pem, C68_secret_pem, C69_1024_bits, C69_binds_pss, C69_binds_v15, C69_key_id, C69_no_second_signature, C69_pair, C69_public_key, C69_secret_key, C69_short_key, C69_sign_pss, C69_sign_v15, C69_sign_verify_pss, C69_sign_verify_v15, C69_signs_pss, C69_signs_v15, C69_verify_pss, C69_verify_v15, C70_ed25519, C70_follows, C70_import, C70_key_pair, C70_pair, C70_round_trip, C70_round_trip_pem, C70_shared, C70_shared_follows, C70_sign_iff, C70_verify, C70_verify_decides, C70_verify_pem, C71_absolute, C71_asterisk, C71_authority, C71_field_lines, C71_fragment, C71_origin, C71_reparse, C71_request_exact, C71_request_wf, C71_response_exact, C71_response_wf, C71_target_uri_binds, C71_target_uri_injective, C71_unambiguous, C71_uri, C71_uri_authentic, C71_verify_pem, C72_build_request, C72_build_response, C72_checks, C72_digest_binds, C72_one_by_one, C72_request_examples, C72_response_examples, C72_response_unprotected, C72_scenario, C72_wrong_digest, C73_authority, C73_bs, C73_field, C73_method, C73_path, C73_query, C73_query_param, C73_req, C73_request_target, C73_scheme, C73_status, C73_target_uri, C74_headers, C74_id, C74_params, C74_text, C75_base, C75_base_decided, C75_carries, C75_headers, C75_id, C75_line, C75_params, C75_sign, C75_value, C75_value_decided, C75_verify, C76_exact, C76_item, C76_plain, C77_base, C77_key, C77_line, C77_no_key, C77_req_request, C77_req_text, C77_req_value, C78_p256_reuse, C78_p256_sign, C78_p384_reuse, C78_p384_sign, C79_base, C79_binds_params, C79_binds_signature, C79_bound, C79_chain, C79_old, C79_value, C79_verify, C80_accessors, C80_bare_comma, C80_base, C80_key, C80_one_line, C80_sf, C80_sign, C80_value, C80_verify, C81_answers, C81_answers_target, C81_reflected, C81_replay, C81_same_kind, C82_alg_false, C82_any_claim, C82_bound, C82_checked, C82_key_info, C82_not_compared, C82_unknown_hidden, C83_capped, C83_digests, C83_limit, C83_reads, C83_signs, C84_domain, C84_domain_keys, C84_sign, C84_verify, C84_verify_count, C84_verify_many, C85_base, C85_not_linear, C85_octets, C85_quadratic, C85_total, C85_value, C86_binds, C86_break, C86_break_collides, C86_builds, C86_line, C86_round_trip, C86_text, C86_two_spellings, C87_bound, C87_needed, C87_read, C87_written, C88_accepts, C88_append, C88_error, C88_panic, C88_untouched, C88_verify, C89_bound, C89_complete, C89_request, C89_response, C90_accessors, C90_base, C90_carries, C90_lines, C90_many, C90_name, C90_one, C90_repeated_label, C90_signature_field, C90_value, C90_verify, C90_whole_field, C91_accepted, C91_alg_false, C91_all_false, C91_own_ids, C91_panic, C91_results, C91_store, C92_base, C92_base_missing, C92_lax, C92_missing, C93_comment_false, C93_set, C93_verify, C93_verify_one, C93_waiting_signer, C93_waiting_verifier, C94_key, C94_key_has, C94_key_missing, C94_key_rfc, C94_sf, C94_sf_has, C94_sf_missing, C94_sf_rfc, C95_base_lax, C95_base_missing, C95_both, C95_both_rfc, C95_exact, C95_lax, C95_missing, C95_same, C96_receive, C96_send, C97_base, C97_err, C97_ok, C97_total, C98_errors, C98_flood, C98_lines, C98_same, C98_secret, C98_sign, C99_all, C99_bound, C99_count, C99_no_signatures, C99_none, C99_questions, C99_sign, C99_verify, finding_case, finding_conflated, finding_flag, finding_nonce.

## 8. Testing the theorems

`seeded/LOG.jsonl` lists wrong programs: each is an edit of one model definition in a scratch copy of the commit named in `snapshot`, with `#guard` checks
removed first. The copy is rebuilt; every declaration that fails is replaced by `sorry` and the build repeated until it passes.

* `theorems_failed`: the declarations that failed themselves (examples are named by file and line).
* `claims_without_proof`: the theorems of the manifest that then depend on `sorry`. This alone does not show that a statement is false: a broken helper lemma
  leaves many proofs open.
* `statements_false`: the theorems whose statements are false of the edited program, judged by reading them.
* `tightened`: theorems added or sharpened because the edit was not caught by a statement.

## 9. Plan per property

| id | what is modelled and how it is proved |
|----|----|
| C01 | full signing and verifying pipeline over the model of `http`; the parser is proved to invert the serializer; the key pair is a hypothesis `verify (sign d) = ok` |
| C02 | as C01 for responses with optional request |
| C03 | induction over the signature list; parser compositionality over `, `-joined header lines |
| C04 | locality of the dictionary parser: appending `, member` to an accepted text adds one insertion |
| C05 | serializer/parser round trip for params; negations by concrete witness |
| C06 | same for component ids |
| C07 | same for the header pair, with base64 |
| C08 | line-splitting argument and the lengths of identifier displays |
| C09 | C08 plus an abstract unforgeability hypothesis |
| C10 | unfold the decision logic, list reasoning |
| C11, C12 | corollaries of the decision logic with `UInt64` order |
| C13 | `try_parse` over the parsed dictionaries |
| C14 | `has_unique_elements` against a pairwise specification with order-insensitive parameter sets |
| C15 | invariants of the id parser |
| C16 | false for the code: negation and exact characterisation |
| C17 | false for ECDSA: negation and exact characterisation |
| C18 | the model returns `panic` there; shown unreachable |
| C19-C21 | digest functions with abstract and concrete hash |
| C22, C23 | extraction rules, case analysis |
| C24 | relational: agreement on covered names implies equal results |
| C25, C26 | header map lemmas |
| C27, C28 | sfv serializer/parser, idempotence through C32 |
| C29, C30 | case analysis against independent specification functions |
| C31 | finite cases and all strings |
| C32 | induction over the parser, well-formedness of its outputs |
| C33 | base64 by chunks of three |
| C34, C50 | the signing loop as a fold |
| C35 | list map |
| C36 | invariant over poll schedules |
| C37, C38 | list reasoning |
| C39 | parameter fold commutes |
| C40, C41 | case analysis over algorithms with abstract decoders |
| C42, C54 | concrete HMAC-SHA256 |
| C43 | 64-bit arithmetic |
| C44 | `split_once`, `trim` lemmas |
| C45 | C09 plus C20 |
| C46 | invariant over setter sequences |
| C47, C48 | false for the code: negation and the part that holds |
| C49 | comparison of the extraction functions |
| C51 | non-key names never parse back |
| C52 | false for the code in general: witness and safe part; C74 shows that the safe part is all of it |
| C53 | results depend on decoded bytes only |
| C54 | HMAC keys equal up to zero padding |
| C55 | signatures with other key ids do not disturb |
| C56 | a dropped signing call leaves the message as it was |
| C57 | exact conditions for panics of private key import |
| C58 | texts written out independently in `Spec/Layout.lean`, equal to what the model prints |
| C59 | verification with one reading per signature; lists of candidates as for C10 |
| C60 | streams of frames reduced to their data |
| C61 | `Spec/Sha.lean` has the standard with functions of the round number and bit vectors; the model's lists and words are shown equal; constants by evaluation in the kernel (`decide +kernel`) |
| C62 | `Spec/Rfc9421.lean` has the base of the RFC as a function; each kind of component is compared with `HasValue`; differences by evaluation in the kernel (`decide +kernel`) |
| C63 | `Spec/Grammar.lean` has the grammar as relations between texts and values; both directions by induction along the parser (`Proofs/SfvGrammar.lean`, `Proofs/SfvGrammarTop.lean`, `Proofs/Base64Lenient.lean`) |
| C64 | `Spec/Canonical.lean` restricts the grammar to the canonical texts; the serializer produces them and nothing else fits (`Proofs/SfvCanonical.lean`) |
| C65 | `Spec/Wire.lean` has the whole of signing and verification as relations on texts; each relation is shown equal to the one used by C10, C13 and C22 (`Proofs/WireIds.lean`, `Proofs/WireParams.lean`, `Proofs/WireValue.lean`) |
| C66 | `Spec/Ecdsa.lean` states ECDSA over Mathlib's group of points. The model's affine arithmetic represents that group (`Proofs/EcGroup.lean`); the field and order are prime by certificates (`Proofs/Primes.lean`); the base point has order n (`Proofs/EcGood.lean`, kernel evaluation) and generates the group because there are at most 2p + 1 points and none of order 2 (`Proofs/EcCount.lean`) |
| C67 | `Spec/Eddsa.lean` has RFC 8032 with pairs of field elements and the formulas of the RFC. The model's arithmetic represents the group of `Proofs/Edwards.lean`, which maps to those pairs; decoding is exact because `d` is not a square and roots modulo p are computed correctly (`Proofs/EdSpec.lean`); clamping is compared bit by bit |
| C68 | `Spec/Asn1.lean` has DER elements, integers, object identifiers, the key structures and PEM as relations. `Proofs/Asn1.lean`, `Asn1Keys.lean` and `Asn1Pem.lean` show that each reader of `Model/Der.lean` finds exactly what the relation allows, within the limits of `Der.Lib`. Import is then these relations followed by import from bytes (C66, C67). |
| C69 | `Spec/Rsa.lean` has the two signature schemes as relations on bytes: DigestInfo is built from the ASN.1 relations of C68, MGF1 block by block, exclusive or and the cleared bits on numbers. `Proofs/RsaSpec.lean` compares each with the model; existence and uniqueness of signatures use Fermat's theorem and the Chinese remainder theorem. The example key has primes proved by certificates. |
| C70 | Composition: C65 gives the decision in terms of the key's `verify`, C66, C67, C69 and C61 replace `verify` by the relation of each standard, C68 goes from bytes to files. `StdKey`, `Genuine`, `Holds` and `Pairs` in `Props/C70.lean` collect the relations by algorithm. The one hypothesis left on sizes is that of SHA-256 on its input (`Bounded`). |
| C71 | `Spec/UriText.lean` has the four forms of a request target as a grammar over character tables; `Proofs/UriText.lean` shows that the parser reads exactly this. Uniqueness of the reading gives injectivity of the shown URI; with C30 and C09 the derived components and their protection follow. |
| C72 | Signing one after the other is the same as a batch when no signature covers the signature fields (`C72_one_by_one`). With C03 this gives a theorem on all programs of this shape (`C72_scenario`); the constants of the two example programs are evaluated in the kernel and meet its premises. |
| C73 | The values of C30, C29 and C25 compared with `Spec/Rfc9421.lean`, one component at a time. Lengths decide most cases; for `@query-param` decoding undoes encoding, so the name in the identifier is in normal form. |
| C74 | Weigh a text by its characters other than quote, equals sign and space. No text of a structured field is lighter than the canonical text of its value (`Proofs/Weight.lean`, from the grammar), and the canonical text outweighs the written form by one for every character in need of an escape. So what comes back unchanged has none. |
| C75 | `Spec/Failure.lean` has, beside each relation of `Spec/Wire.lean`, the relation "fails with this error". Each is shown equal to the error of the model, step by step along the code (`Proofs/Failure.lean`, `Proofs/FailureRead.lean`); the successes of C65 say which earlier steps passed. |
| C76 | The lines of both bases have no line breaks (`Proofs/RfcExact.lean`, C38), so equal bases have equal lines. The last line gives the parameters back (C74) and with them the identifiers, so the values agree too. With C73 each component without `sf` and `key` has its condition written out in `Spec/RfcExact.lean`. |
| C77 | The value with `req` appended is that of `HasValue` for the request (C22). The key comes from the first line of Signature-Input, cut at the first `=`; the last line of the base is read with the grammar of C65. |
| C78 | `Spec/Rfc6979.lean` has the steps of RFC 6979 as relations over HMAC; HMAC of the model is that of RFC 2104 (C61, here also for SHA-384). The loop of the model is the chain of candidates, at most 1000 of them. With C66 signing is an equivalence. The equation of nonce reuse is linear algebra modulo the prime group order. |
| C79 | `OtherLabel` and `Chained` in `Spec/Chain.lean`. A line with another label does not touch a member (`members_append`); with C50 the value and the base stay the same. Binding: the value of a member is a list text, which can be read back (C64), and its last entry is the member of the joined lines (`lookup_joined`). |
| C80 | `Combined`, `Regrouped` and `SameFor` in `Spec/Forward.lean`. Joined texts are the same (`combined_texts`), so extraction is (`extract_regrouped`) and so are values and bases; verification depends on nothing else (`verify_congr_base`). `oneLine` is an example of such a proxy. |
| C81 | From the values (C65) and C09. `Neutral` components are those that both kinds of messages have. |
| C82 | `verifyOne` uses only `verify` of a key. The claims are bound by C09; what the accessor reports is C31. |
| C83 | `MapLib` in `Model/HeaderMap.lean` is any map with `append` and `insert` that may panic. Every function reads through `get_all` (`SameMap`), and the header loop is followed line by line (`appendAll_limit`). `capped` is an instance. |
| C84 | `Asked` lists the questions from the relations of `Spec/Wire.lean`; verification goes over the candidates (`cands`), and two keys that agree on `Asked` give the same answer at each. `IsBaseText` is the shape of the questions. |
| C85 | From the grammar: the canonical text of a value is at most twice as long as any text of it (`Proofs/Length.lean`); the members of Signature-Input are disjoint pieces of its text, and each identifier takes two characters there. `Spec/Size.lean` says what a size is. The lower bound is a family of requests. |
| C86 | `Spec/Lines.lean` says what a line is and what text lines make. Splitting at line breaks gives the lines back, and two identifiers equal up to order of parameters have texts of the same length, which cuts each line at the same place. Witnesses for line breaks, expiry and order of parameters. |
| C87 | In the grammar a quote or backslash inside a string needs a backslash in the text; so what is read from a text without one needs no escapes (`safeParams_of` of C74), and C09_safe applies. |
| C88 | Two nonempty dictionary texts joined with `, ` are read as one after the other; then C10 and C80 for the two parts. For the bad member: it is put in by `imInsert`, the members before it are readable, and C16 tells when reading panics. |
| C89 | C87 gives the signed parameters and values; labels are distinct, so the reported parameters are those that were verified; the single line has one text, which denotes one dictionary, hence one digest; C71 for the URI. Completeness from C72 and C87. |
| C90 | Member maps with distinct labels agree with every permutation of themselves; the pairs are built from the members, so they are permuted too. The bases do not change (C80, or one member of a shuffled field), acceptance is per signature, and the error of verification depends only on whether there are candidates. |
| C91 | The receiver is a short program over the modelled functions (`receive` in Props/C91, after README.md 64-67). The keys it asks for are matched with the signatures they were found for; every result is then that of C10 for one key. |
| C92 | Spec/RfcLax.lean lists the cases in which the library has a value and the RFC none. `wants_of` shows that an identifier that can be written is read by the RFC with the same parameters; then every component is compared by itself. Bases: `base_some` and `lines_exist` say that a base exists if all values do. |
| C93 | `Model/Blocking.lean` has the flag of `futures::executor::block_on` and code inside nested executors. Induction over the nesting, then C36 for the call itself. |
| C94 | Spec/RfcStructured.lean speaks about single lines. `Proofs/RfcLines.lean` shows, for lines each of which is a list or a dictionary, that joined they are a list (dictionary) if and only if each of them is and, with several lines, none is blank; `Proofs/RfcStructured.lean` compares the members of the whole with those of the lines. |
| C95 | Spec/RfcAll.lean puts the cases together. `canon_dict` (Proofs/RfcBoth.lean): strict serialization does not change the dictionary a line is, so `sf` beside `key` can be left out; then C76, C92 and C94. |
| C96 | Spec/RfcInterop.lean defines a valid signature by the RFC (`Valid`) and dictionaries the library can read. Receiving: C10 with C95_exact; a readable pair of dictionaries is `Wire.Carries`. Sending: the two lines added are dictionaries with one member, the base of the signed message is unchanged (C01), C95_base_lax says when the RFC has none. The one assumption about the key is that a signature is not good for both bases if they differ. |
| C97 | Spec/Component.lean says which value there is (`Built`) and which error (`BuildFails`). `derivedValue` is compared case by case; for fields C65 and C75 have the lemmas. The base follows with C37_try_new and C86_text. |
| C98 | Spec/Log.lean says which lines there are. `Model/Log.lean` is a writer over the functions of the model; first its results are those without the log, then its log is a prefix of the specified one, by the prefix rules for bind and collect. The count follows from `len_dict` of C85. |
| C99 | In `Model/Log.lean` a key writes an arbitrary function of the question to the log, so the log for all such functions determines the questions. Prefix rules for `filterOk` and `gather` without panic; the bounds are those of C85. |
| C100 | `Spec/Guard.lean` is the guard, a program of a caller. The guard of the header refuses a superset of the panicking members of C16 and, by the relation `Wire.ParamsOf`, only members that say nothing. The wrapped key agrees with the key wherever that does not panic (C17), so `filterOk` and `gather` do. |
| C101 | `Spec/Deploy.lean` is the sender and the receiver, again programs of a caller. The checks are proved to decide `SafeParams`, `HasSignatures` and `NoBackslash`; then C04_signed, C03_batch_partial (with the wrapped keys of C100 its condition on panics is void), C87_bound and the checks of the covered components give the full claims. A covered member (`key`) that is absent is not refused. |
| C102 | `Spec/Replay.lean` is the memory, a program over a sequence of arrivals; a list of nonces with their expiries. That nothing is taken twice needs only that what passes has not expired (`C102_timely`), by induction over the arrivals. `C102_injective` adds C101_bound: two messages with the same signing have the same nonce and expiry. The case of C102_escapes is evaluated. |
| C103 | `Model/ErrText.lean` has every function again with messages; `C103_same` erases them. `Spec/ErrText.lean` is the relations of C75 with messages; reasons that C75 joins are told apart. The message is a function of the kind in many places, so those proofs go through C75 and the erasure; the others repeat its proofs. `C103_blind` compares two failing verifications case by case. |
| C104 | `Spec/Standard.lean` is the check and the sender, programs of a caller. A component that passes has a value in `Spec/Rfc9421.lean` for every context and meets `Usual`, so the proofs of C62 give the library's value; values and bases are unique, so the context does not matter. The member that is sent is looked up in the joined lines (`joined_member`), also after older lines. The converse `C104_exact` goes through C76 and has its conditions (no empty authority); it leaves out query parameters. |
| C105 | `Model/Tests.lean` has the tests as programs over the functions of the model. `Proofs/Tests.lean` describes a message after one signature (`Once`), from the proofs of C03 and C04; each test is then run step by step with the values of all steps known. What `http::Uri` does with the targets of the tests is a hypothesis, met by `httpLib`. |
| C106 | `Spec/Rfc9530.lean` has the field as a dictionary of all lines, recipients with any registry that has the two SHA-2 names, and what they accept. The library side is C20. The witnesses are families over all contents, made from the text that `set_content_digest` writes, so no hash is computed. |
| C107 | `Spec/Quorum.lean` is the receiver that counts, with and without the checks of C101, a program of a caller, and the meaning of "at least k" as a sublist. C10 and C91 give the exact condition, C54 the HMAC keys that are one secret, C88 the added signatures, C101 what was signed and the round trip. |
| C108 | `Spec/Service.lean` is a sender (digest, then a signature behind the checks of C101, with nonce and expiry) and a receiver (one right digest, C101, a list of components, the memory of C102), programs of a caller. C89 says what was signed, C102 that it is taken once, C101 and C102 that what is sent passes; `C108_sends` is the exact condition under which the sender sends. |
| C109 | `NoSignature` is the case of FIPS 186-4 section 6.3 in which another nonce is needed. C66 and C78 give the equations; which digests are hit follows in `ZMod n`. The test with two signatures is C03 for its constants. `libsTwo` is a library with which P-256 always signs, so that the test is shown to pass for every body. |
| C110 | `Model/Repair.lean` is the library with the eight changes; what is not changed is used as it is. `Spec/Repaired.lean` states values, base and decision anew, with the structured field serialization for the texts. Reading accepts the same texts (`C110_reading_same`), so `Carries` is unchanged. Parameters that are read are always `Writable` and their text gives them back, so bases determine parameters and values without any condition on the received message. `C110_conservative` and `C110_conservative_sign` say that nothing else changes. |
| C111 | `Spec/Pick.lean` is the receiver, again a program of a caller. `receive_one` says exactly when the receiver of C101 accepts with one key; the rest is about the message with one pair of lines (`Pick.only`): values and base are those of the received message unless signature fields are covered (C80), so the signature of the sender verifies on it (`signed_state`). Shown by cases: the library fails or panics on the same junk; the label is not signed, a copy under another label may be found first; if somebody combines the lines of the sender with junk into one line, this receiver accepts nothing either. |
| C112 | `Model/KeyText.lean` has the readers of keys again with messages; `C112_same` erases them. Both kinds of file share the check of what is declared (`declT` in `Proofs/KeyText.lean`), so `Spec/KeyText.lean` states a mismatch once: an algorithm of this build is declared and not the one asked for. `C112_own_words` follows from the exact messages. `Debug`: numbers end at the first character that is no digit. |
| C113 | `Spec/Panic.lean` is the third specification of results beside `Spec/Wire.lean` and `Spec/Failure.lean`. The proofs follow those of C75 (`Proofs/Panic.lean`); a date as covered item needs no look at digits: it is neither a component nor an error, so it panics. `Decided` then follows from the three equivalences for each operation. `C113_poison` is for all readable messages, with any label: a label that is there already is replaced in its place, and all entries before it read. Two other panics are outside this specification and stated elsewhere: a header map that is full (C83) and a `block_on` inside a `block_on` (C93). Panics while reading keys are C57. |
| C114 | `contribution` is what one signer adds, `alone_eq` says that a call with one signer is it. With `NotSelf` the base of a signer is the same after others have signed (`buildBase_after`), so a list and single calls agree; without it `C114_blind` compares two bases through `C79_binds_signature`. What is reported differs when two signers fail for different reasons (`C114_errors_differ`): a list looks at all bases first. |
| C115 | `Spec/Relabel.lean`: `Taken` (choices of signatures with own labels) and `SameElse`. `C115_possible` rewrites both fields from the parsed dictionaries with the serializer (`parseDict_members`), so it works for texts which the library itself would not write. Verification depends on octets and parameters only (`same_accepts`); the rest follows from `verifyOne_cases`. |
| C116 | `Spec/Exchange.lean`: what the client needs, a server that answers what it took, fresh nonces. `same_input`: the value of `"signature-input";req` is the joined text that the dictionary is read from, so equal values mean equal labels and parameters. With this the server's request has the client's parameters, C89_bound finds the client's signing, and the nonce says that it is this one. `C116_confused` is C80 with two requests. |
| C117 | `Spec/Nonce.lean`: outcomes are functions `Fin 32 → Fin 256`, so they can be counted. base64 is injective (its decoder reads it back), so nonces differ exactly if outcomes do. `taken_all` says that the memory takes everything whose nonces differ, C102_once the converse. The bound is the union over pairs of messages; each pair agrees in one part of 2^256 (`pair_card`). That crate rand is uniform is not claimed: the theorems count outcomes. |
| C118 | `Spec/Forgery.lean`: `pairs` reads bases and octets off a message, `Holds` says that one of them is a forgery. `idealKey` is the key with all forgeries removed: it is again a key of the library (`LibraryKey.strict`, a key that accepts less), accepts only what was signed, and answers alike for all questions that a message without forgeries makes verification ask (C84). So the theorems for ideal keys are used for `idealKey` and carried back. `C118_needed` is the converse. |
| C119 | `Spec/Phases.lean`: what the key says of a signature without regard to time (`Says`), until when a signature counts (`ends`), and the latest end of a list (`LastEnd`). Acceptance and panic of one signature are `Says` and a comparison with `ends`, so the phases follow from C10 and `verifyOne_cases`. |
| C120 | `Spec/CallOrder.lean`: messages that agree up to the order of lines of different fields. `set_content_digest` changes the lines of one field only (C21), so C24 gives the rest; `C120_too_late` is C118_bound with the value of Content-Digest. |
| C121 | `Spec/Builds.lean`: the names and key files that only one build knows. The models of key import, of its log and of its error texts take the feature as an argument; they are compared. Signing and verification of messages do not take it at all. |
| C122 | `Spec/Calm.lean`: programs as lists of commands, each as a plain call and behind a check; the checks are those of C100 and tests on the bytes of private keys. A panic is `none`. The panics of a full header map (C83), of a nested executor (C93) and of a duration that does not fit (C43) come from the surroundings of the calls and are stated there. |
| C123 | `Spec/Timing.lean`: somebody who sends data and tags by a strategy and sees either the answers or the steps of the runs, and a comparison that stops early. The models of the runs are proved to have the results of the other models. |
| C124 | `Spec/Arrival.lean`: how a request with an absolute URI arrives over HTTP/1.1 (origin form, lines such as Host added), and a server that restores scheme and authority. That hyper does this is an assumption about code outside the repository. HTTP/2 transmits scheme and authority, so there nothing is lost. CONNECT is excluded. |
| C125 | `Spec/Relay.lean`: Host replaced on the way, and what tells two servers from each other. Servers verify as requests come or restore their own name (`Arrival.restored`). |
| C126 | `Spec/Http1.lean`: the grammar of a request head (RFC 9112) over octets, and what a client writes. Not code of the repository. Uniqueness by cutting at the first separator; then `Arrival.Arrives` is derived and C124 applies. Requests in origin form only; no obsolete line folding, no chunked coding, no bare LF. |
| C127 | `Spec/Http1Stream.lean`: requests one after the other, lengths by Content-Length (RFC 9112 section 6.3). No transfer codings. The lines of signers have names that say nothing of the body, so the borders stay; uniqueness by C126 and the lengths. |
| C128 | `Spec/Http1Response.lean`: status line and header lines of a response. Bodies of responses are what follows the head; how long they are is not modelled. Lines as in C126, components of the request by C124, and the two signatures by C01 and C02. |
| C129 | `Spec/Http2.lean`: messages as lists of field lines with the control data in front, how they are sent, and what may be left out or cut. Frames, compression and trailers are not modelled. By `C124_restored`: the server has the request of C124 with scheme and authority put back. |
| C130 | `Spec/Http1Answers.lean`: how long answers are (RFC 9112 section 6.3) and lists of answers on a connection. Transfer-Encoding, CONNECT and status 101 are not modelled. Built on C128 as C127 is on C126. |
| C131 | `Spec/Chunked.lean`: the chunked coding (RFC 9112 section 7.1) and connections with bodies of either kind, so C127 holds for these too. Other transfer codings are not modelled, and trailers are read and dropped. |
| C132 | `Spec/Http1Connection.lean`: a whole connection, both ways; it joins C128, C130 and C131, and adds answers in chunks. One signer per message. The server signs with the request that it read, the client verifies with the request that it sent. |
| C133 | `Spec/Path.lean`: a way of any number of steps, each over HTTP/1.1 (C126, C128), over HTTP/2 (C129) or through a proxy. What a proxy may do is a relation: other scheme and authority, other lines of the listed names. Bodies are kept by assumption in each step (C131 and C132 show this for HTTP/1.1). `C133_rewritten` is the negative side: another authority makes the signature invalid. |
| C134 | `Spec/Stations.lean`: ways of C133 and signers (C79) in any order, RFC 9421 section 4.3. One key id per signer in `C134_valid` and `C134_valid_back`. `C134_same_label` is the negative side: with the default label the client's signature is replaced. |
| C135 | `Spec/Http2Streams.lean`: streams of RFC 9113 sections 5.1 and 8.1 on a connection, and the pieces of bodies as the program polls them (C60). Left out: frames of field lines, flow control, resets, pushed answers, CONNECT. `C135_swapped` has the negative side: an answer that covers nothing of its request is valid on any stream. |
| C136 | `Spec/Cache.lean`: RFC 9111 sections 3.2, 4, 4.1, 4.3.4, 5.1. Simplified: requests match if the lines named by Vary are the same, and how long a cache uses an answer is left open. `C136_unvaried` and `C136_revalidated` are the negative sides, which follow from RFC 9421 and 9111 and not from the code. |
| C137 | `Spec/Parts.lean`: RFC 9110 sections 9.3.2, 14.4, 15.3.7 and RFC 9111 section 3.4. Simplified: an answer to HEAD and a part have all other lines of the whole answer, there is one range in an answer, and the parts that are put together are of one answer. |
