{"claims": [
  {"property": "C01", "status": "proved", "theorems": ["Verif.C01_request", "Verif.C01_false_self", "Verif.finding_nonce"], "note": "Needs the covered ids not to include the signature fields (as the statement says); C01_false_self shows why."},
  {"property": "C02", "status": "proved", "theorems": ["Verif.C02_response"], "note": ""},
  {"property": "C03", "status": "partial", "theorems": ["Verif.C03_batch_partial", "Verif.C03_batch_distinct", "Verif.C03_one_of_many", "Verif.C03_false_shared_id"], "note": "False as stated when two signers share a key id and an ECDSA key meets a signature of another length (panic). Proved with a no-panic condition, and without it for pairwise different key ids."},
  {"property": "C04", "status": "partial", "theorems": ["Verif.C04_signed", "Verif.C04_one_new", "Verif.C04_one_replace", "Verif.C04_empty_breaks", "Verif.C04_false"], "note": "Proved whenever the message carries at least one signature or none of the two fields. False when the existing fields are empty dictionaries (C04_empty_breaks, C04_false)."},
  {"property": "C05", "status": "proved", "theorems": ["Verif.C05_params_round_trip", "Verif.C05_params_text_injective", "Verif.C05_false_without_conditions"], "note": "For safe parameter texts and timestamps below 10^15; the theorem with the suffix false_without_conditions shows the conditions are needed."},
  {"property": "C06", "status": "proved", "theorems": ["Verif.C06_id_round_trip", "Verif.C06_id_text_injective", "Verif.C06_unquoted", "Verif.C06_plain_names", "Verif.C06_false_without_conditions"], "note": "For identifiers whose texts need no escaping; the conditions are shown to be needed."},
  {"property": "C07", "status": "proved", "theorems": ["Verif.C07_headers_round_trip", "Verif.C07_headers_round_trip_many"], "note": ""},
  {"property": "C08", "status": "proved", "theorems": ["Verif.C08_unambiguous", "Verif.C08_unambiguous_safe", "Verif.C08_parsed_one_line", "Verif.C08_false_with_line_break"], "note": "For all identifiers and parameters without a line break, which everything read from a header satisfies; with line breaks in API-set strings it is false (witness)."},
  {"property": "C09", "status": "partial", "theorems": ["Verif.C09_bound_partial", "Verif.C09_safe", "Verif.C09_false_component", "Verif.C09_false_keyid"], "note": "Full claim is false of the code: two concrete forgeries are proved. Component ids and string parameters containing a double quote can be re-split (C09_false_component, C09_false_keyid). The partial theorem binds the base text and created/expires for every input; C09_safe binds everything when both parameter sets are free of quotes."},
  {"property": "C10", "status": "proved", "theorems": ["Verif.C10_ok_iff", "Verif.C10_invalid_iff", "Verif.C10_no_candidate_iff", "Verif.C10_other_errors"], "note": "Exact characterisation of every outcome of verify_message_signature against Spec/Verify. Header maps are well formed (what http::HeaderMap guarantees)."},
  {"property": "C100", "status": "proved", "theorems": ["Verif.C100_key", "Verif.C100_refused", "Verif.C100_passed", "Verif.C100_never_panics", "Verif.C100_same", "Verif.C100_accepts", "Verif.C100_standard", "Verif.C100_asked"], "note": "The guard is Spec/Guard.lean, a program of a caller over the public interface; it is not code of the repository. C16 and C17 say what happens without it."},
  {"property": "C101", "status": "proved", "theorems": ["Verif.C101_id", "Verif.C101_params", "Verif.C101_here", "Verif.C101_signatures", "Verif.C101_sends", "Verif.C101_all_or_nothing", "Verif.C101_kept", "Verif.C101_absent_sender", "Verif.C101_never_panics", "Verif.C101_bound", "Verif.C101_round_trip"], "note": "The sender and the receiver are programs of a caller in Spec/Deploy.lean. NotSelf (the signature fields are not covered) is a hypothesis of the round trip; the keys are those of the library."},
  {"property": "C102", "status": "proved", "theorems": ["Verif.C102_once", "Verif.C102_memory", "Verif.C102_taken", "Verif.C102_timely", "Verif.C102_injective", "Verif.C102_again", "Verif.C102_honest", "Verif.C102_signature_octets", "Verif.C102_escapes", "Verif.C102_clock"], "note": "The memory is a program of a caller, not part of the library. That a key accepts only what its holder signed is a hypothesis (OnlySigned), as in C09."},
  {"property": "C103", "status": "proved", "theorems": ["Verif.C103_same", "Verif.C103_value", "Verif.C103_base", "Verif.C103_sign", "Verif.C103_id", "Verif.C103_line", "Verif.C103_params", "Verif.C103_headers", "Verif.C103_carries", "Verif.C103_verify", "Verif.C103_digest", "Verif.C103_blind", "Verif.C103_digest_blind", "Verif.C103_printable", "Verif.C103_headers_printable", "Verif.C103_digest_printable", "Verif.C103_line_repeated", "Verif.C103_response", "Verif.C103_new", "Verif.C103_lines", "Verif.C103_told", "Verif.C103_up", "Verif.C103_digest_set"], "note": "Exact messages for every failure of C75 and of digests. Errors of keys are in C112. Messages of sfv and http are parameters (ErrLib); printability assumes it of them."},
  {"property": "C104", "status": "proved", "theorems": ["Verif.C104_value", "Verif.C104_exact", "Verif.C104_base", "Verif.C104_same", "Verif.C104_send", "Verif.C104_all_or_nothing"], "note": "Programs that follow the RFC are those with the base of Spec/Rfc9421.lean, with any types of fields and any scheme of the connection. C104_exact is for components without parameters but req, in messages whose authority is not empty and whose path begins with a slash or star."},
  {"property": "C105", "status": "proved", "theorems": ["Verif.C105_request", "Verif.C105_hmac", "Verif.C105_response", "Verif.C105_expired", "Verif.C105_params", "Verif.C105_duration", "Verif.C105_query", "Verif.C105_blocking"], "note": "The tests of Model/Tests.lean end without panic for every run record (clock readings, noise, nonce, libraries with the key file rules of crate der) and body; for the two tests whose outcome depends on the clock the condition is an equivalence. What http::Uri makes of the fixed targets is a hypothesis, met by httpLib in the cases. The test with a P-256 key is not modelled: its random numbers may in principle be rejected without end."},
  {"property": "C106", "status": "proved", "theorems": ["Verif.C106_exact", "Verif.C106_sound", "Verif.C106_agrees", "Verif.C106_refused", "Verif.C106_many", "Verif.C106_set", "Verif.C106_first_line", "Verif.C106_two_digests"], "note": "The specification is RFC 9530 sections 2 and 5 on the dictionary grammar of C63; recipients know SHA-256 and SHA-512 and any other algorithms. Where library and RFC differ there is a witness for every content."},
  {"property": "C107", "status": "proved", "theorems": ["Verif.C107_exact", "Verif.C107_single", "Verif.C107_order", "Verif.C107_more", "Verif.C107_labels", "Verif.C107_added", "Verif.C107_one_secret", "Verif.C107_bound", "Verif.C107_signed", "Verif.C107_no_common"], "note": "Exact condition of the counting receiver; with and without key ids; what holders signed behind the checks of C101."},
  {"property": "C108", "status": "proved", "theorems": ["Verif.C108_total", "Verif.C108_sound", "Verif.C108_request", "Verif.C108_response", "Verif.C108_sends", "Verif.C108_sent", "Verif.C108_holder", "Verif.C108_delivered", "Verif.C108_end"], "note": "Programs of a caller (Spec/Service.lean) over the modelled functions; unforgeability is the hypothesis OnlySigned; bodies are bound up to the hash."},
  {"property": "C109", "status": "proved", "theorems": ["Verif.C109_p256", "Verif.C109_p384", "Verif.C109_one_residue", "Verif.C109_two_nonces", "Verif.C109_test"], "note": "Exact conditions. Of the test: it passes exactly if the P-256 key signs."},
  {"property": "C11", "status": "proved", "theorems": ["Verif.C11_never_other_keyid", "Verif.C11_only_that_keyid"], "note": ""},
  {"property": "C110", "status": "proved", "theorems": ["Verif.C110_reading_never_panics", "Verif.C110_reading_same", "Verif.C110_errors", "Verif.C110_keys", "Verif.C110_key_pair", "Verif.C110_never_panics", "Verif.C110_round_trip", "Verif.C110_no_injection", "Verif.C110_absent", "Verif.C110_absent_member", "Verif.C110_request_target", "Verif.C110_signed", "Verif.C110_all_or_none", "Verif.C110_signs", "Verif.C110_sign_verify", "Verif.C110_sign_verify_labels", "Verif.C110_bound", "Verif.C110_conservative", "Verif.C110_conservative_errors", "Verif.C110_conservative_sign"], "note": "About Model/Repair.lean, the library with eight local changes, not about the code as it is. NotSelf (the signature fields are not covered) is a hypothesis of the round trip. The corresponding properties of the code stay partial."},
  {"property": "C111", "status": "proved", "theorems": ["Verif.C111_never_panics", "Verif.C111_accepts", "Verif.C111_first", "Verif.C111_returned", "Verif.C111_bound", "Verif.C111_junk", "Verif.C111_work"], "note": "The receiver (Spec/Pick.lean) is a program of a caller, not code of the repository. C111_junk keeps the lines of the sender as lines: combining them with junk is excluded, and a case shows that this is needed. Keys are keys of the library (LibraryKey)."},
  {"property": "C112", "status": "proved", "theorems": ["Verif.C112_same", "Verif.C112_secret_bytes", "Verif.C112_public_bytes", "Verif.C112_secret_der", "Verif.C112_secret_pem", "Verif.C112_public_pem", "Verif.C112_shared", "Verif.C112_name", "Verif.C112_mac", "Verif.C112_verify", "Verif.C112_own_words", "Verif.C112_debug"], "note": "Messages of base64, pem, pkcs8, spki, sec1 and of the crates of the algorithms are parameters (KeyErrLib). Debug is the usual form of a shared key; Debug of other keys is made by other crates and is not modelled."},
  {"property": "C113", "status": "proved", "theorems": ["Verif.C113_id", "Verif.C113_line", "Verif.C113_params", "Verif.C113_headers", "Verif.C113_carries", "Verif.C113_verify", "Verif.C113_verify_now", "Verif.C113_verify_batch", "Verif.C113_sign", "Verif.C113_texts_decided", "Verif.C113_carries_decided", "Verif.C113_verify_decided", "Verif.C113_sign_decided", "Verif.C113_poison", "Verif.C113_poison_verify"], "note": "Proved for messages whose field names are well formed (WfHeaders). A full header map (C83) and nested block_on (C93) are stated elsewhere."},
  {"property": "C114", "status": "proved", "theorems": ["Verif.C114_alone", "Verif.C114_at_once", "Verif.C114_each_fails", "Verif.C114_same", "Verif.C114_culprit", "Verif.C114_not_a_value", "Verif.C114_split", "Verif.C114_order", "Verif.C114_blind", "Verif.C114_lost", "Verif.C114_errors_differ"], "note": "C114_same, C114_each_fails and C114_split need signers that do not cover the fields Signature and Signature-Input themselves (NotSelf); C114_blind and C114_lost show what happens otherwise."},
  {"property": "C115", "status": "proved", "theorems": ["Verif.C115_possible", "Verif.C115_not_more", "Verif.C115_all_kept", "Verif.C115_renamed", "Verif.C115_any_labels", "Verif.C115_covered", "Verif.C115_chain"], "note": "The theorems about verification are for signatures that do not cover the fields Signature and Signature-Input; C115_covered and C115_chain are about those that do."},
  {"property": "C116", "status": "proved", "theorems": ["Verif.C116_agreement", "Verif.C116_once", "Verif.C116_completed", "Verif.C116_can_answer", "Verif.C116_confused"], "note": "Agreement of client and server over a request and its answer; the client and the server are programs of callers around the library (Spec/Service.lean, Spec/Exchange.lean). C116_confused shows that the component Signature-Input of the request is needed."},
  {"property": "C117", "status": "proved", "theorems": ["Verif.C117_nonce", "Verif.C117_succeeds", "Verif.C117_distinct", "Verif.C117_repeated", "Verif.C117_exactly", "Verif.C117_chance", "Verif.C117_number", "Verif.C117_among_others"], "note": "The random octets are a value that ranges over all 256^32 outcomes (Spec/Nonce.lean); statements on chances are statements on the number of outcomes. That the generator of crate rand is uniform and unpredictable is not claimed. The receiver is that of C102, a program of a caller."},
  {"property": "C118", "status": "proved", "theorems": ["Verif.C118_pairs", "Verif.C118_pairs_count", "Verif.C118_same", "Verif.C118_bound", "Verif.C118_before", "Verif.C118_once", "Verif.C118_group", "Verif.C118_service", "Verif.C118_request", "Verif.C118_exchange", "Verif.C118_none", "Verif.C118_needed"], "note": "For the guarded sender and receiver of C101, C102, C107, C108 and C116. The forgery is given by a program (`Forgery.pairs`), so a bound on forgeries gives a bound on wrong acceptance; probabilities and running times of forgers are not modelled. The hash collision is two bodies found among what was signed and received."},
  {"property": "C119", "status": "proved", "theorems": ["Verif.C119_last_end", "Verif.C119_phases", "Verif.C119_name", "Verif.C119_forward", "Verif.C119_unread", "Verif.C119_final", "Verif.C119_earlier", "Verif.C119_panic", "Verif.C119_batch", "Verif.C119_guard", "Verif.C119_false"], "note": "One clock reading per call; C59 says when that is the same as one reading per signature. `C119_false` shows that without the guard acceptance is not an interval from 0."},
  {"property": "C12", "status": "proved", "theorems": ["Verif.C12_boundary", "Verif.C12_expired_never_succeeds", "Verif.C12_clock_only_expires", "Verif.C12_created_ignored"], "note": "One clock reading per verification call; see DESIGN.md."},
  {"property": "C120", "status": "proved", "theorems": ["Verif.C120_alike", "Verif.C120_either", "Verif.C120_again", "Verif.C120_later", "Verif.C120_too_late"], "note": "`C120_too_late` assumes a key that accepts only what was signed (see C118 for real keys)."},
  {"property": "C121", "status": "proved", "theorems": ["Verif.C121_names", "Verif.C121_secret", "Verif.C121_public", "Verif.C121_no_rsa", "Verif.C121_der_text", "Verif.C121_pem_text", "Verif.C121_reported"], "note": ""},
  {"property": "C122", "status": "proved", "theorems": ["Verif.C122_step", "Verif.C122_only_signing", "Verif.C122_never", "Verif.C122_step_same", "Verif.C122_same", "Verif.C122_without"], "note": "Programs over the interface as lists of commands, plain and behind checks. Panics inside a full header map (C83), a nested executor (C93) and a duration that does not fit (C43) are stated there."},
  {"property": "C123", "status": "proved", "theorems": ["Verif.C123_digest", "Verif.C123_mac", "Verif.C123_no_use", "Verif.C123_early"], "note": "Steps are branches, reads of the compared arrays and hashed blocks; `subtle` and `hmac` are modelled after their documentation."},
  {"property": "C124", "status": "proved", "theorems": ["Verif.C124_value", "Verif.C124_lost", "Verif.C124_base", "Verif.C124_verify", "Verif.C124_refused", "Verif.C124_refused_response", "Verif.C124_restored", "Verif.C124_restored_verify"], "note": "How requests arrive is a small spec (Spec/Arrival.lean), not repository code. CONNECT is excluded. Fields changed on the way are named and must not be covered."},
  {"property": "C125", "status": "proved", "theorems": ["Verif.C125_relay", "Verif.C125_host", "Verif.C125_base", "Verif.C125_verify", "Verif.C125_refused"], "note": "The relay and the restoring server are a small spec (Spec/Relay.lean). C125_base is an equivalence. C125_host and C125_refused assume that the key accepts the signature only with the signed text."},
  {"property": "C126", "status": "proved", "theorems": ["Verif.C126_unique", "Verif.C126_case", "Verif.C126_head", "Verif.C126_arrives", "Verif.C126_no_injection", "Verif.C126_deliver", "Verif.C126_blank"], "note": "Grammar and writer are a small specification (Spec/Http1.lean), not repository code. Requests in origin form; each signer label starts with a visible ASCII character (part of LabelStart)."},
  {"property": "C127", "status": "proved", "theorems": ["Verif.C127_unique", "Verif.C127_length", "Verif.C127_stream", "Verif.C127_readable", "Verif.C127_verify", "Verif.C127_digest", "Verif.C127_smuggle"], "note": "Streams and framing are a small specification (Spec/Http1Stream.lean), not repository code; Content-Length only, no transfer codings, requests in origin form."},
  {"property": "C128", "status": "proved", "theorems": ["Verif.C128_unique", "Verif.C128_digits", "Verif.C128_head", "Verif.C128_no_injection", "Verif.C128_deliver", "Verif.C128_request", "Verif.C128_exchange"], "note": "Grammar and writer are a small specification (Spec/Http1Response.lean), not repository code. C128_exchange is for one signature on each side."},
  {"property": "C129", "status": "proved", "theorems": ["Verif.C129_unique", "Verif.C129_unique_response", "Verif.C129_malformed", "Verif.C129_sent", "Verif.C129_arrives", "Verif.C129_value", "Verif.C129_deliver", "Verif.C129_answered", "Verif.C129_answer", "Verif.C129_exchange", "Verif.C129_cookie"], "note": "Lists of field lines and how they are sent are a small specification (Spec/Http2.lean), not repository code. C129_exchange is for one signature on each side."},
  {"property": "C13", "status": "proved", "theorems": ["Verif.C13_labels_agree", "Verif.C13_labels_distinct", "Verif.C13_missing_label", "Verif.C13_not_a_dictionary", "Verif.C13_wrong_kind"], "note": "C13_missing_label was sharpened from \"does not succeed\" to the exact error after a mutant that panicked instead survived it"},
  {"property": "C130", "status": "proved", "theorems": ["Verif.C130_unique", "Verif.C130_shape", "Verif.C130_until", "Verif.C130_stream", "Verif.C130_readable", "Verif.C130_verify", "Verif.C130_digest", "Verif.C130_head", "Verif.C130_confused"], "note": "Grammar of the connection from RFC 9112, not code of the repository. Transfer-Encoding, CONNECT and status 101 are left out."},
  {"property": "C131", "status": "proved", "theorems": ["Verif.C131_chunks", "Verif.C131_sizes", "Verif.C131_written", "Verif.C131_unique", "Verif.C131_lengths", "Verif.C131_shape", "Verif.C131_stream", "Verif.C131_readable", "Verif.C131_verify", "Verif.C131_digest", "Verif.C131_reframe", "Verif.C131_covered"], "note": "Grammar of the connection from RFC 9112, not code of the repository. Trailers are read and dropped, as the library never reads them (C60)."},
  {"property": "C132", "status": "proved", "theorems": ["Verif.C132_unique", "Verif.C132_lengths", "Verif.C132_shape", "Verif.C132_until", "Verif.C132_chunked", "Verif.C132_requests", "Verif.C132_connection", "Verif.C132_readable", "Verif.C132_digest"], "note": "Each message has one signer; CONNECT and status 101 are left out."},
  {"property": "C133", "status": "proved", "theorems": ["Verif.C133_way", "Verif.C133_value", "Verif.C133_verify", "Verif.C133_digest", "Verif.C133_back", "Verif.C133_answer", "Verif.C133_request", "Verif.C133_exchange", "Verif.C133_rewritten"], "note": "Any number of HTTP/1.1 and HTTP/2 connections and proxies. One signer in the exchange theorems; any signatures in C133_verify and C133_answer."},
  {"property": "C134", "status": "proved", "theorems": ["Verif.C134_trip", "Verif.C134_valid", "Verif.C134_trip_back", "Verif.C134_valid_back", "Verif.C134_same_label"], "note": "Stations sign one after the other with new labels; verification is by key id."},
  {"property": "C135", "status": "proved", "theorems": ["Verif.C135_streams", "Verif.C135_unique", "Verif.C135_shape", "Verif.C135_shape_answer", "Verif.C135_cut", "Verif.C135_readable", "Verif.C135_readable_answer", "Verif.C135_digest", "Verif.C135_digest_kept", "Verif.C135_digest_answer", "Verif.C135_reset", "Verif.C135_exchange", "Verif.C135_swapped"], "note": "C135_swapped is a concrete witness for both sides of the last sentence; the other theorems are for all messages and mixes."},
  {"property": "C136", "status": "proved", "theorems": ["Verif.C136_life", "Verif.C136_names", "Verif.C136_value", "Verif.C136_verify", "Verif.C136_hit", "Verif.C136_unvaried", "Verif.C136_revalidated"], "note": "C136_unvaried and C136_revalidated are concrete witnesses for the last sentence."},
  {"property": "C137", "status": "proved", "theorems": ["Verif.C137_head_value", "Verif.C137_head", "Verif.C137_head_method", "Verif.C137_head_digest", "Verif.C137_part", "Verif.C137_part_status", "Verif.C137_part_digest", "Verif.C137_part_made", "Verif.C137_joined"], "note": "That no text is signed for both means that a signature is valid for both only if the key accepts it for two texts. C137_part_made shows that every answer 200 without Content-Range has all its parts."},
  {"property": "C14", "status": "proved", "theorems": ["Verif.C14_try_new", "Verif.C14_parsed", "Verif.C14_never_refused", "Verif.C14_hash_set", "Verif.finding_case"], "note": ""},
  {"property": "C15", "status": "proved", "theorems": ["Verif.C15_id_rules", "Verif.C15_covered_rules", "Verif.C15_at_names", "Verif.finding_flag", "Verif.finding_conflated"], "note": ""},
  {"property": "C16", "status": "partial", "theorems": ["Verif.C16_no_panic_partial", "Verif.C16_id_panics_iff", "Verif.C16_member_panics_iff", "Verif.C16_headers_panic_iff", "Verif.C16_false"], "note": "The property is false of the code: unknown derived names, date items and negative timestamps panic. Proved: the witnesses, the exact set of inputs that panic, and absence of panics outside it."},
  {"property": "C17", "status": "partial", "theorems": ["Verif.C17_verify_panics_iff", "Verif.C17_shared_never_panics", "Verif.C17_false", "Verif.C17_message_panics_iff", "Verif.C17_message_public_key", "Verif.C17_message_shared_key"], "note": "The claim is false for ECDSA (C17_false). Proved instead: the exact inputs that panic, for keys and lifted to messages."},
  {"property": "C18", "status": "proved", "theorems": ["Verif.C18_label_found", "Verif.C18_try_parse", "Verif.C18_component", "Verif.C18_base", "Verif.C18_one_each", "Verif.C18_pop", "Verif.C18_first", "Verif.C18_set_digest", "Verif.C18_extract_digest", "Verif.C18_signing", "Verif.C18_signing_shared"], "note": ""},
  {"property": "C19", "status": "proved", "theorems": ["Verif.C19_request_round_trip", "Verif.C19_response_round_trip", "Verif.C19_changed_body"], "note": ""},
  {"property": "C20", "status": "proved", "theorems": ["Verif.C20_request_verify_exact", "Verif.C20_response_verify_exact", "Verif.C20_errors", "Verif.C20_never_panics", "Verif.C20_first_line_only"], "note": ""},
  {"property": "C21", "status": "proved", "theorems": ["Verif.C21_request_set", "Verif.C21_response_set", "Verif.C21_body_error"], "note": ""},
  {"property": "C22", "status": "proved", "theorems": ["Verif.C22_request_req", "Verif.C22_request_status", "Verif.C22_response_req_without_request", "Verif.C22_response_derived_needs_req", "Verif.C22_response_status_req", "Verif.C22_rules_suffice"], "note": "Each forbidden combination makes signing and verifying fail, and for ids obeying the rules extraction of a derived component succeeds."},
  {"property": "C23", "status": "proved", "theorems": ["Verif.C23_sources", "Verif.C23_request_irrelevant", "Verif.C23_value"], "note": "The base depends on response and request only through the parts selected by the ids; stated on the sources, not on the code."},
  {"property": "C24", "status": "proved", "theorems": ["Verif.C24_verify", "Verif.C24_sign", "Verif.C24_body", "Verif.C24_header"], "note": ""},
  {"property": "C25", "status": "proved", "theorems": ["Verif.C25_value", "Verif.C25_value_req", "Verif.C25_not_visible", "Verif.C25_line_text"], "note": "Header maps are well formed (lower-case token names), which the http crate guarantees."},
  {"property": "C26", "status": "proved", "theorems": ["Verif.C26_field_sequences", "Verif.C26_field_sequences_response", "Verif.C26_exchange", "Verif.C26_case"], "note": "Includes a change of the order of lines of different fields."},
  {"property": "C27", "status": "proved", "theorems": ["Verif.C27_value", "Verif.C27_canonical", "Verif.C27_same_value", "Verif.C27_same_lines", "Verif.C27_fails"], "note": ""},
  {"property": "C28", "status": "proved", "theorems": ["Verif.C28_value", "Verif.C28_member_text", "Verif.C28_fails"], "note": ""},
  {"property": "C29", "status": "proved", "theorems": ["Verif.C29_value", "Verif.C29_piece", "Verif.C29_fails"], "note": ""},
  {"property": "C30", "status": "proved", "theorems": ["Verif.C30_request", "Verif.C30_status", "Verif.C30_status_injective", "Verif.C30_response_req"], "note": "Request methods are upper-cased also when custom."},
  {"property": "C31", "status": "proved", "theorems": ["Verif.C31_name_round_trip", "Verif.C31_name_exact", "Verif.C31_reported", "Verif.C49_fail_alike"], "note": ""},
  {"property": "C32", "status": "proved", "theorems": ["Verif.C32_list_round_trip", "Verif.C32_dict_round_trip", "Verif.C32_item_round_trip", "Verif.C32_legal_round_trip", "Verif.C32_serialization_injective", "Verif.C32_last_wins", "Verif.C32_params_last_wins"], "note": ""},
  {"property": "C33", "status": "proved", "theorems": ["Verif.C33_signature_bytes_recovered", "Verif.C33_strict_accepts_exactly_canonical", "Verif.C33_shared_key_import", "Verif.C33_injective"], "note": ""},
  {"property": "C34", "status": "proved", "theorems": ["Verif.C34_nothing_written", "Verif.C34_whole_pairs"], "note": ""},
  {"property": "C35", "status": "proved", "theorems": ["Verif.C35_batch_ok", "Verif.C35_batch_of_single", "Verif.C35_batch_err", "Verif.C35_batch_panic"], "note": ""},
  {"property": "C36", "status": "proved", "theorems": ["Verif.C36_join_ready", "Verif.C36_join_panic", "Verif.C36_join_unique", "Verif.C36_no_deadlock", "Verif.C36_verify", "Verif.C36_set"], "note": "Futures are modelled as finite state machines that share only immutable data."},
  {"property": "C37", "status": "proved", "theorems": ["Verif.C37_try_new", "Verif.C37_try_new_err"], "note": ""},
  {"property": "C38", "status": "proved", "theorems": ["Verif.C38_layout", "Verif.C38_lines"], "note": "For identifiers and parameters without a line break."},
  {"property": "C39", "status": "proved", "theorems": ["Verif.C39_known_params_only", "Verif.C39_values_read"], "note": ""},
  {"property": "C40", "status": "proved", "theorems": ["Verif.C40_secret_and_public_agree", "Verif.C40_public_key_alg", "Verif.C40_shared_agree", "Verif.C40_key_id_length", "Verif.C40_key_id_binds_hash"], "note": ""},
  {"property": "C41", "status": "proved", "theorems": ["Verif.C41_from_bytes", "Verif.C41_secret_from_der", "Verif.C41_secret_from_pem", "Verif.C41_public_from_pem", "Verif.C41_declaration_unique", "Verif.C41_shared"], "note": ""},
  {"property": "C42", "status": "proved", "theorems": ["Verif.C42_hmac_exact", "Verif.C42_wrong_length"], "note": ""},
  {"property": "C43", "status": "proved", "theorems": ["Verif.C43_duration", "Verif.C43_overflow_witness"], "note": ""},
  {"property": "C44", "status": "proved", "theorems": ["Verif.C44_line_round_trip", "Verif.C44_refused"], "note": ""},
  {"property": "C45", "status": "proved", "theorems": ["Verif.C45_request", "Verif.C45_response"], "note": ""},
  {"property": "C46", "status": "proved", "theorems": ["Verif.C46_api_params_safe", "Verif.C46_last_write", "Verif.C46_last_expires"], "note": "C46_last_write was added after a wrong set_key_info was not refuted by the first theorem."},
  {"property": "C47", "status": "partial", "theorems": ["Verif.C47_absent_is_empty_partial", "Verif.C47_false"], "note": "The property is false of the code: C47_false is the negation with a witness; C47_absent_is_empty_partial gives the exact behaviour."},
  {"property": "C48", "status": "partial", "theorems": ["Verif.C48_binds_partial", "Verif.C48_connect", "Verif.C48_connect_apart", "Verif.C48_options", "Verif.C48_false"], "note": "Holds for methods other than OPTIONS (proved, CONNECT on its own), false for OPTIONS: C48_false."},
  {"property": "C49", "status": "proved", "theorems": ["Verif.C49_fail_alike", "Verif.C49_params", "Verif.C49_extract", "Verif.C49_absent"], "note": ""},
  {"property": "C50", "status": "proved", "theorems": ["Verif.C50_only_appends", "Verif.C50_request", "Verif.C50_response"], "note": ""},
  {"property": "C51", "status": "proved", "theorems": ["Verif.C51_only_keys_are_read", "Verif.C51_illegal_name_unreadable"], "note": ""},
  {"property": "C52", "status": "partial", "theorems": ["Verif.C52_no_injection_partial", "Verif.C52_false", "Verif.C74_text"], "note": "The property is false of the code: the texts are not escaped. Proved: the witnesses, and that it holds exactly for texts that need no escaping."},
  {"property": "C53", "status": "proved", "theorems": ["Verif.C53_decoded_bytes_only"], "note": ""},
  {"property": "C54", "status": "proved", "theorems": ["Verif.C54_zero_padding", "Verif.C54_same_block"], "note": ""},
  {"property": "C55", "status": "proved", "theorems": ["Verif.C55_other_signers"], "note": ""},
  {"property": "C56", "status": "proved", "theorems": ["Verif.C56_dropped"], "note": ""},
  {"property": "C57", "status": "proved", "theorems": ["Verif.C57_from_bytes", "Verif.C57_from_der", "Verif.C57_public_from_bytes"], "note": "Exact conditions; decoders and libraries are arbitrary functions."},
  {"property": "C58", "status": "proved", "theorems": ["Verif.C58_id_text", "Verif.C58_params_text", "Verif.C58_base_text", "Verif.C58_header_values"], "note": "Strings are written without escapes, as in the code."},
  {"property": "C59", "status": "proved", "theorems": ["Verif.C59_ok_iff", "Verif.C59_panic_iff", "Verif.C59_single_clock"], "note": "exact outcome with one clock reading per candidate; agreement with the single-clock model"},
  {"property": "C60", "status": "proved", "theorems": ["Verif.C60_into_bytes", "Verif.C60_early", "Verif.C60_bytes_with_digest", "Verif.C60_set", "Verif.C60_verify", "Verif.C60_framing_irrelevant", "Verif.C60_verify_exact", "Verif.C60_round_trip", "Verif.C60_trailers_lost"], "note": "bodies as streams of frames; the crate http-body-util is modelled from memory"},
  {"property": "C61", "status": "proved", "theorems": ["Verif.C61_sha256", "Verif.C61_sha512", "Verif.C61_exists", "Verif.C61_hmac", "Verif.C61_shared_key_verify", "Verif.C61_shared_key_id", "Verif.C61_content_digest", "Verif.C61_abc256", "Verif.C61_abc512", "Verif.C61_hmac_jefe", "Verif.C61_hmac_long_key", "Verif.C61_sha384", "Verif.C61_abc384"], "note": "for all messages within the length limits; the last four are known answers"},
  {"property": "C62", "status": "partial", "theorems": ["Verif.C62_same_base_partial", "Verif.C62_sign_partial", "Verif.C62_verify_partial", "Verif.C62_differs_param_order", "Verif.C62_differs_unknown_param", "Verif.C62_differs_escapes", "Verif.C62_differs_bs", "Verif.C62_differs_whitespace", "Verif.C62_differs_sf_lines", "Verif.C62_differs_sf_kind", "Verif.C62_differs_key_lines", "Verif.C62_differs_key_absent", "Verif.C62_differs_field_absent", "Verif.C62_differs_upper_case", "Verif.C62_differs_authority", "Verif.C62_differs_target_uri", "Verif.C62_differs_query_encoding", "Verif.C62_differs_query_repeated", "Verif.C62_differs_query_absent", "Verif.C62_differs_method_case", "Verif.C62_differs_options", "Verif.C62_differs_default_port", "Verif.C62_differs_absolute_form", "Verif.C62_host_unbound", "Verif.C62_host_witness"], "note": "Spec/Rfc9421.lean states the RFC's base on its own. The full statement is false of the code: each C62_differs_* theorem is a message and member for which the texts differ, and C62_host_witness shows requests to two hosts with one base although @authority and @target-uri are covered. Proved under the conditions of Usual, which are what is missing: parameters in the library's order without quotes, no bs, no surrounding whitespace, sf/key on lines that stand on their own, upper-case method, absolute URI for @target-uri/@scheme, authority in the URI without default port, origin-form @request-target, query in normal form. Where the RFC defines no base see C92, C94 (sf, key) and C95 (all); field_absent, key_absent, query_absent, query_repeated and upper_case show that the library then may still accept."},
  {"property": "C63", "status": "proved", "theorems": ["Verif.C63_list", "Verif.C63_dict", "Verif.C63_item", "Verif.C63_base64", "Verif.C63_refused", "Verif.C63_unambiguous", "Verif.C63_signature_headers", "Verif.C63_same_dictionary", "Verif.C63_ascii"], "note": "The grammar is a transcription of RFC 9651 (not installed here), see Spec/Grammar.lean."},
  {"property": "C64", "status": "proved", "theorems": ["Verif.C64_list", "Verif.C64_dict", "Verif.C64_item", "Verif.C64_denotes", "Verif.C64_written", "Verif.C64_sf", "Verif.C64_content_digest"], "note": ""},
  {"property": "C65", "status": "proved", "theorems": ["Verif.C65_id", "Verif.C65_covered", "Verif.C65_params", "Verif.C65_headers", "Verif.C65_unambiguous", "Verif.C65_carries", "Verif.C65_value", "Verif.C65_base", "Verif.C65_verify", "Verif.C65_invalid", "Verif.C65_no_candidate", "Verif.C65_sign"], "note": "The specification Spec/Wire.lean uses the data types, the key operations and the UTF-8 encoding, no other function of the model. It follows the library where the library differs from the RFC (see C62 for the differences)."},
  {"property": "C66", "status": "proved", "theorems": ["Verif.C66_p256_group", "Verif.C66_p256_public_key", "Verif.C66_p256_same_key", "Verif.C66_p256_verify", "Verif.C66_p256_key_id", "Verif.C66_p256_secret_key", "Verif.C66_p256_pair", "Verif.C66_p256_has_secret", "Verif.C66_p256_sign", "Verif.C66_p256_sign_verify", "Verif.C66_p256_second_signature", "Verif.C66_p384_group", "Verif.C66_p384_public_key", "Verif.C66_p384_same_key", "Verif.C66_p384_verify", "Verif.C66_p384_key_id", "Verif.C66_p384_secret_key", "Verif.C66_p384_pair", "Verif.C66_p384_has_secret", "Verif.C66_p384_sign", "Verif.C66_p384_sign_verify", "Verif.C66_p384_second_signature", "Verif.C66_key_id_not_as_documented"], "note": "Both curves, against Mathlib's group of points; primality of the field and of the order and the group order are proved. Nonces are left open (any choice in range). The doc comment on key ids is contradicted by the code: C66_key_id_not_as_documented."},
  {"property": "C67", "status": "proved", "theorems": ["Verif.C67_base", "Verif.C67_group", "Verif.C67_public_key", "Verif.C67_key_id", "Verif.C67_verify", "Verif.C67_dead_key", "Verif.C67_secret_key", "Verif.C67_pair", "Verif.C67_sign", "Verif.C67_sign_verify", "Verif.C67_no_second_signature", "Verif.C67_small_order_key"], "note": "ed25519_compact is modelled from RFC 8032; its open choices (reading of points, refusal of weak keys, cofactor, nonce) are quantified over"},
  {"property": "C68", "status": "proved", "theorems": ["Verif.C68_secret_der", "Verif.C68_secret_pem", "Verif.C68_public_pem", "Verif.C68_one_algorithm", "Verif.C68_key_bytes", "Verif.C68_embedded_public_key_ignored", "Verif.C68_ed_prefix_ignored", "Verif.C68_secret_der_panic", "Verif.C68_secret_has_pem", "Verif.C68_public_has_pem", "Verif.C68_preamble"], "note": "the crates der, pkcs8, spki, sec1 and pem-rfc7468 are modelled from the standards; limits on lengths, tags, trailing fields and line layout are parameters"},
  {"property": "C69", "status": "proved", "theorems": ["Verif.C69_public_key", "Verif.C69_key_id", "Verif.C69_verify_v15", "Verif.C69_verify_pss", "Verif.C69_secret_key", "Verif.C69_pair", "Verif.C69_sign_v15", "Verif.C69_sign_pss", "Verif.C69_signs_v15", "Verif.C69_signs_pss", "Verif.C69_sign_verify_v15", "Verif.C69_sign_verify_pss", "Verif.C69_short_key", "Verif.C69_no_second_signature", "Verif.C69_binds_v15", "Verif.C69_binds_pss", "Verif.C69_1024_bits"], "note": "Specification in Spec/Rsa.lean after RFC 8017. That signing succeeds needs two distinct primes and a private operation of RFC 8017 section 5.1.2 (Rsa.Lib.Standard); the import does not test for primes. C69_1024_bits is a finding."},
  {"property": "C70", "status": "proved", "theorems": ["Verif.C70_import", "Verif.C70_follows", "Verif.C70_shared_follows", "Verif.C70_verify", "Verif.C70_verify_decides", "Verif.C70_verify_pem", "Verif.C70_key_pair", "Verif.C70_round_trip", "Verif.C70_sign_iff", "Verif.C70_ed25519", "Verif.C70_shared", "Verif.C70_pair", "Verif.C70_round_trip_pem"], "note": "Composition of C01, C61 and C65 to C69. ECDSA keys panic on signatures of another length (Fatal), as in finding on C03. For ECDSA and RSA, success of signing is a hypothesis; C69_signs_v15 and C69_signs_pss give it for RSA with two primes."},
  {"property": "C71", "status": "proved", "theorems": ["Verif.C71_uri", "Verif.C71_unambiguous", "Verif.C71_fragment", "Verif.C71_request_exact", "Verif.C71_response_exact", "Verif.C71_request_wf", "Verif.C71_response_wf", "Verif.C71_field_lines", "Verif.C71_absolute", "Verif.C71_origin", "Verif.C71_authority", "Verif.C71_asterisk", "Verif.C71_reparse", "Verif.C71_target_uri_injective", "Verif.C71_target_uri_binds", "Verif.C71_verify_pem", "Verif.C71_uri_authentic"], "note": "The character tables, the length limit and the treatment of an empty scheme are parameters of the URI library (UriLib)."},
  {"property": "C72", "status": "proved", "theorems": ["Verif.C72_one_by_one", "Verif.C72_scenario", "Verif.C72_checks", "Verif.C72_wrong_digest", "Verif.C72_build_request", "Verif.C72_build_response", "Verif.C72_digest_binds", "Verif.C72_request_examples", "Verif.C72_response_examples", "Verif.C72_response_unprotected"], "note": "The Ed25519 key pair of the examples is computed in the kernel from the seed in the PEM file."},
  {"property": "C73", "status": "proved", "theorems": ["Verif.C73_method", "Verif.C73_path", "Verif.C73_query", "Verif.C73_status", "Verif.C73_scheme", "Verif.C73_authority", "Verif.C73_target_uri", "Verif.C73_request_target", "Verif.C73_query_param", "Verif.C73_field", "Verif.C73_bs", "Verif.C73_req"], "note": "@authority is for values that are not empty and @scheme for a connection whose scheme is not empty. Fields with sf and key are in C27, C28 and C62."},
  {"property": "C74", "status": "proved", "theorems": ["Verif.C74_id", "Verif.C74_params", "Verif.C74_text", "Verif.C74_headers"], "note": "Equivalences without hypotheses (C74_text: the other parameters are safe). The round trips of C05 and C06 and the safe part of C52 are therefore exact."},
  {"property": "C75", "status": "proved", "theorems": ["Verif.C75_value", "Verif.C75_base", "Verif.C75_sign", "Verif.C75_value_decided", "Verif.C75_base_decided", "Verif.C75_id", "Verif.C75_line", "Verif.C75_params", "Verif.C75_headers", "Verif.C75_carries", "Verif.C75_verify"], "note": "Equivalences for every error variant; messages inside the errors are left out. Signature base constructors are in C37, parameter construction in C14, content digests in C20, keys in C57 and C68."},
  {"property": "C76", "status": "proved", "theorems": ["Verif.C76_exact", "Verif.C76_item", "Verif.C76_plain"], "note": "Equivalences. The transcription of RFC 9421 is that of C62 (Spec/Rfc9421.lean); the spelled-out conditions are in Spec/RfcExact.lean. Lists for which the RFC defines no base are in C92."},
  {"property": "C77", "status": "proved", "theorems": ["Verif.C77_req_text", "Verif.C77_req_safe", "Verif.C77_req_value", "Verif.C77_req_request", "Verif.C77_no_key", "Verif.C77_key", "Verif.C77_line", "Verif.C77_base"], "note": "C77_base is for safe parameters (C74 shows these are the ones that can be read back)."},
  {"property": "C78", "status": "proved", "theorems": ["Verif.C78_p256_sign", "Verif.C78_p384_sign", "Verif.C78_deterministic", "Verif.C78_p256_reuse", "Verif.C78_p384_reuse"], "note": "For the libraries with RFC 6979 nonces (Model/Rfc6979.lean), which is what the crate ecdsa documents for sign_digest; its source is not installed. The model gives up after 1000 candidates out of range. The other theorems leave the nonce open."},
  {"property": "C79", "status": "proved", "theorems": ["Verif.C79_value", "Verif.C79_base", "Verif.C79_chain", "Verif.C79_old", "Verif.C79_verify", "Verif.C79_binds_signature", "Verif.C79_binds_params", "Verif.C79_bound"], "note": "Labels must be new; parameters and labels must be ones that can be written (C05). C79_bound has the conditions of C09_safe."},
  {"property": "C80", "status": "proved", "theorems": ["Verif.C80_value", "Verif.C80_base", "Verif.C80_sign", "Verif.C80_verify", "Verif.C80_accessors", "Verif.C80_one_line", "Verif.C80_sf", "Verif.C80_key", "Verif.C80_bare_comma"], "note": "Specification in Spec/Forward.lean; C80_sf, C80_key and C80_bare_comma show what breaks."},
  {"property": "C81", "status": "proved", "theorems": ["Verif.C81_kind", "Verif.C81_same_kind", "Verif.C81_replay", "Verif.C81_answers", "Verif.C81_answers_target", "Verif.C81_reflected"], "note": "C81_replay and C81_reflected show that the exception is needed."},
  {"property": "C82", "status": "proved", "theorems": ["Verif.C82_not_compared", "Verif.C82_any_claim", "Verif.C82_bound", "Verif.C82_key_info", "Verif.C82_checked", "Verif.C82_alg_false", "Verif.C82_unknown_hidden"], "note": "C82_not_compared and C82_any_claim: verification never looks at alg and key id of the key. C82_bound and C82_key_info: the claims are those that were signed. C82_checked: what a comparison by the application gives. C82_alg_false: the comparison of RFC 9421 section 3.2 is missing (finding 31)."},
  {"property": "C83", "status": "proved", "theorems": ["Verif.C83_reads", "Verif.C83_signs", "Verif.C83_digests", "Verif.C83_limit", "Verif.C83_limit_digest", "Verif.C83_capped"], "note": "C83_capped is the exact condition for maps that count different names. That HeaderMap obeys the laws of MapLib is trusted (its source is not in the sandbox)."},
  {"property": "C84", "status": "proved", "theorems": ["Verif.C84_verify", "Verif.C84_verify_many", "Verif.C84_verify_count", "Verif.C84_sign", "Verif.C84_domain", "Verif.C84_domain_keys"], "note": "Keys are only asked about signature bases."},
  {"property": "C85", "status": "proved", "theorems": ["Verif.C85_value", "Verif.C85_base", "Verif.C85_total", "Verif.C85_octets", "Verif.C85_quadratic", "Verif.C85_not_linear"], "note": "Upper bound for all messages; a family of requests that reaches it up to a constant."},
  {"property": "C86", "status": "proved", "theorems": ["Verif.C86_line", "Verif.C86_text", "Verif.C86_builds", "Verif.C86_round_trip", "Verif.C86_binds", "Verif.C86_break", "Verif.C86_break_collides", "Verif.C86_verify", "Verif.C86_expiry", "Verif.C86_expiry_not_bound", "Verif.C86_two_spellings"], "note": "Binding is stated for values without line breaks and parameters that can be written to a header; that line breaks break it is C86_break_collides."},
  {"property": "C87", "status": "proved", "theorems": ["Verif.C87_read", "Verif.C87_bound", "Verif.C87_written", "Verif.C87_needed"], "note": "A condition under which the partial C09 holds in full; the check itself is not in the library."},
  {"property": "C88", "status": "proved", "theorems": ["Verif.C88_append", "Verif.C88_accepts", "Verif.C88_untouched", "Verif.C88_verify", "Verif.C88_panic", "Verif.C88_error"], "note": "C88_panic and C88_error are the negative part: what an added unreadable member does."},
  {"property": "C89", "status": "proved", "theorems": ["Verif.C89_bound", "Verif.C89_request", "Verif.C89_response", "Verif.C89_complete"], "note": "The two checks on backslashes and on the number of digest lines, and the check of the cover, are not in the library; a receiver has to make them."},
  {"property": "C90", "status": "proved", "theorems": ["Verif.C90_carries", "Verif.C90_signature_field", "Verif.C90_lines", "Verif.C90_value", "Verif.C90_base", "Verif.C90_verify", "Verif.C90_one", "Verif.C90_many", "Verif.C90_accessors", "Verif.C90_name", "Verif.C90_whole_field", "Verif.C90_repeated_label"], "note": "The last three show that the hypotheses are needed."},
  {"property": "C91", "status": "proved", "theorems": ["Verif.C91_panic", "Verif.C91_results", "Verif.C91_accepted", "Verif.C91_store", "Verif.C91_own_ids", "Verif.C91_all_false", "Verif.C91_alg_false"], "note": "The last two show that distinct key ids are needed."},
  {"property": "C92", "status": "proved", "theorems": ["Verif.C92_lax", "Verif.C92_missing", "Verif.C92_base", "Verif.C92_base_missing"], "note": "Equivalences. The cases are written out in Spec/RfcLax.lean. Components with sf or key are in C94; C62_differs_key_absent is one of their cases."},
  {"property": "C93", "status": "proved", "theorems": ["Verif.C93_flag", "Verif.C93_nested", "Verif.C93_set", "Verif.C93_verify", "Verif.C93_verify_one", "Verif.C93_waiting_signer", "Verif.C93_waiting_verifier", "Verif.C93_comment_false"], "note": "The flag per thread of futures-executor is modelled from its documented behaviour; the source is not installed."},
  {"property": "C94", "status": "proved", "theorems": ["Verif.C94_key_has", "Verif.C94_key_rfc", "Verif.C94_key", "Verif.C94_key_missing", "Verif.C94_sf_has", "Verif.C94_sf_rfc", "Verif.C94_sf", "Verif.C94_sf_missing"], "note": "Equivalences. Spec/RfcStructured.lean states the cases in terms of the single lines; C92 has the components without sf and key, C95 those with both."},
  {"property": "C95", "status": "proved", "theorems": ["Verif.C95_both", "Verif.C95_both_rfc", "Verif.C95_lax", "Verif.C95_missing", "Verif.C95_same", "Verif.C95_base_lax", "Verif.C95_base_missing", "Verif.C95_exact"], "note": "Equivalences; the cases are written out in Spec/RfcAll.lean. C95_same and C95_exact assume that the scheme of the connection and the authority of the request are not empty, as C76."},
  {"property": "C96", "status": "proved", "theorems": ["Verif.C96_receive", "Verif.C96_send"], "note": "Equivalences. The other side is the specification of RFC 9421 in Spec/Rfc9421.lean. Assumes that the signature is not valid for both bases if they differ, and for C96_receive that no other signature in the message verifies with this key; the scheme and the authority are not empty, as C95. C96_send is for a message without signatures before."},
  {"property": "C97", "status": "proved", "theorems": ["Verif.C97_ok", "Verif.C97_err", "Verif.C97_total", "Verif.C97_base"], "note": "Equivalences for all identifiers and texts. C97_total follows from the model having one outcome; it says that the two specifications exclude each other and cover everything."},
  {"property": "C98", "status": "proved", "theorems": ["Verif.C98_same", "Verif.C98_keys", "Verif.C98_read", "Verif.C98_sign", "Verif.C98_secret", "Verif.C98_errors", "Verif.C98_lines", "Verif.C98_flood"], "note": "The log lines of httpsig are modelled beside the results. C98_keys shows that all key types of the library are the plain keys that the other theorems speak of. Error messages stay outside the model."},
  {"property": "C99", "status": "proved", "theorems": ["Verif.C99_questions", "Verif.C99_verify", "Verif.C99_count", "Verif.C99_no_signatures", "Verif.C99_bound", "Verif.C99_all", "Verif.C99_sign", "Verif.C99_none"], "note": "Keys of the model run one after the other, as the futures of the library's own keys do when polled in order; for other schedules see C36."}
]}
