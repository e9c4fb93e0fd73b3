{
 "claims": [
  {
   "property": "C01",
   "status": "proved",
   "theorems": [
    "Verif.Syntax.C01_roundtrip"
   ],
   "note": "Stated for all schemas and values; schema conditions in Ty.selfDelim, value conditions in Ty.good (varint fields fit their integer)."
  },
  {
   "property": "C02",
   "status": "proved",
   "theorems": [
    "Verif.Syntax.C02_prefix_determinacy",
    "Verif.Syntax.C02_headless_depends_on_suffix"
   ],
   "note": ""
  },
  {
   "property": "C03",
   "status": "proved",
   "theorems": [
    "Verif.Syntax.C03_encode_limits",
    "Verif.Syntax.C03_decode_limits",
    "Verif.Syntax.C03_encode_accepts"
   ],
   "note": ""
  },
  {
   "property": "C04",
   "status": "proved",
   "theorems": [
    "Verif.Syntax.C04_map_order_independent",
    "Verif.Syntax.C04_map_sorted"
   ],
   "note": ""
  },
  {
   "property": "C05",
   "status": "partial",
   "theorems": [
    "Verif.Syntax.C05_varint_exact",
    "Verif.Syntax.C05_varint_field_partial",
    "Verif.Syntax.C05_varint_field_fails"
   ],
   "note": "Exactness of varints proved; the round trip of varint fields fails for narrow integers (uint8 holding 64): C05_varint_field_fails."
  },
  {
   "property": "C06",
   "status": "partial",
   "theorems": [
    "Verif.Syntax.C06_unmarshal_safe_partial",
    "Verif.Syntax.C06_marshal_safe",
    "Verif.Syntax.C06_crash_fails",
    "Verif.Syntax.C06_hang_fails"
   ],
   "note": "Fails for optional pointers at end of input (panic) and vectors of zero-width elements (endless loop); proved for all other schemas."
  },
  {
   "property": "C07",
   "status": "partial",
   "theorems": [
    "Verif.Syntax.C07_malformed_refused",
    "Verif.Syntax.C07_no_conflict_partial",
    "Verif.Syntax.C07_parse_exact_partial",
    "Verif.Syntax.C07_parse_sound",
    "Verif.Syntax.C07_conflict_fails",
    "Verif.Syntax.C07_bad_number_refused"
   ],
   "note": "Fails for head=1 combined with head=none/varint; proved for every other header size."
  },
  {
   "property": "C08",
   "status": "proved",
   "theorems": [
    "Verif.Syntax.C08_marshal_validates",
    "Verif.Syntax.C08_unmarshal_validates"
   ],
   "note": ""
  },
  {
   "property": "C09",
   "status": "proved",
   "theorems": [
    "Verif.Syntax.C09_unambiguous"
   ],
   "note": ""
  },
  {
   "property": "C10",
   "status": "proved",
   "theorems": [
    "Verif.Syntax.C10_canonical",
    "Verif.Syntax.C10_injective"
   ],
   "note": ""
  },
  {
   "property": "C11",
   "status": "proved",
   "theorems": [
    "Verif.Record.C11_frames_are_prefix",
    "Verif.Record.C11_frames_complete",
    "Verif.Record.C11_chunking_independent",
    "Verif.Record.C11_frames_tile_stream"
   ],
   "note": ""
  },
  {
   "property": "C12",
   "status": "proved",
   "theorems": [
    "Verif.Record.C12_record_roundtrip"
   ],
   "note": ""
  },
  {
   "property": "C13",
   "status": "proved",
   "theorems": [
    "Verif.Record.C13_nonce_unique",
    "Verif.Record.C13_exhaustion_stops",
    "Verif.Record.C13_number_consumed"
   ],
   "note": "Emitted records. An oversize write seals with a nonce and fails without consuming the number; that ciphertext never leaves."
  },
  {
   "property": "C14",
   "status": "proved",
   "theorems": [
    "Verif.Record.C14_tls_integrity"
   ],
   "note": ""
  },
  {
   "property": "C15",
   "status": "partial",
   "theorems": [
    "Verif.Record.C15_read_limit",
    "Verif.Record.C15_oversize_refused",
    "Verif.Record.C15_write_limit",
    "Verif.Record.C15_write_accepts_partial",
    "Verif.Record.C15_full_fragment_fails"
   ],
   "note": "Limits proved. Acceptance of 2^14-byte fragments fails under every AEAD (C15_full_fragment_fails); proved for fragments that leave room for type, padding and tag."
  },
  {
   "property": "C16",
   "status": "partial",
   "theorems": [
    "Verif.Record.C16_reads_safe_partial",
    "Verif.Record.C16_zero_plaintext_fails"
   ],
   "note": "Fails for authenticated all-zero plaintexts (index -1). Proved for every stream and schedule when the AEAD never authenticates an all-zero plaintext (Keys.Sound)."
  },
  {
   "property": "C17",
   "status": "partial",
   "theorems": [
    "Verif.Record.C17_peek_transparent_partial",
    "Verif.Record.C17_schedules_agree_partial",
    "Verif.Record.C17_peek_any_epoch_fails",
    "Verif.Record.C17_peek_reports_next"
   ],
   "note": "Schedules of peeks and ReadRecord; in DTLS a peek before ReadRecordAnyEpoch discards an old-epoch record."
  },
  {
   "property": "C18",
   "status": "partial",
   "theorems": [
    "Verif.Record.C18_unknown_epoch_refused",
    "Verif.Record.C18_unknown_epoch_discarded",
    "Verif.Record.C18_other_epoch_not_read",
    "Verif.Record.C18_current_epoch_keys_partial",
    "Verif.Record.C18_old_epoch_fails",
    "Verif.Record.C18_discard"
   ],
   "note": "Discarding and epoch separation proved; old-epoch records are decrypted with the current keys (C18_old_epoch_fails). C18_discard: what DiscardReadKey does."
  },
  {
   "property": "C19",
   "status": "partial",
   "theorems": [
    "Verif.Handshake.C19_fragments",
    "Verif.Handshake.C19_read_any_mode_partial",
    "Verif.Handshake.C19_read_blocking_partial",
    "Verif.Handshake.C19_roundtrip_partial",
    "Verif.Handshake.C19_oversize_refused_partial",
    "Verif.Handshake.C19_max_length_fails"
   ],
   "note": "Fragmentation and reading proved for bodies below 2^24 bytes; a body of exactly 2^24 bytes is written with length field 0 (C19_max_length_fails)."
  },
  {
   "property": "C20",
   "status": "partial",
   "theorems": [
    "Verif.Handshake.C20_one_message_partial",
    "Verif.Handshake.C20_next_message_fails",
    "Verif.Handshake.C20_interleaved_fails",
    "Verif.Handshake.C20_whole_messages_partial"
   ],
   "note": "One message in any order, with overlaps and duplicates, and whole-message feeds proved; stale fragments and interleaving of messages break it (C20_next_message_fails, C20_interleaved_fails)."
  },
  {
   "property": "C21",
   "status": "proved",
   "theorems": [
    "Verif.Handshake.C21_consecutive",
    "Verif.Handshake.C21_at_most_once"
   ],
   "note": ""
  },
  {
   "property": "C22",
   "status": "partial",
   "theorems": [
    "Verif.Handshake.C22_reading_safe_partial",
    "Verif.Handshake.C22_tls_safe_partial",
    "Verif.Handshake.C22_short_alert_fails",
    "Verif.Handshake.C22_fragment_range_fails"
   ],
   "note": "Fails for alerts shorter than two bytes and for fragments beyond the announced length; proved when neither occurs."
  },
  {
   "property": "C23",
   "status": "partial",
   "theorems": [
    "Verif.Handshake.C23_skipped_only_if_acked_partial",
    "Verif.Handshake.C23_delivered_only_if_acked_partial",
    "Verif.Handshake.C23_all_acked_ends_flight_partial",
    "Verif.Handshake.C23_numbers_unique",
    "Verif.Handshake.C23_mixed_keys_fails"
   ],
   "note": "Fails for flights sent under several keys, or resent after a key change: the note of a sent fragment carries the current cipher's number, not the one used (C23_mixed_keys_fails). Proved when the flight uses the current key."
  },
  {
   "property": "C24",
   "status": "partial",
   "theorems": [
    "Verif.Timer.C24_safe_once_not_early",
    "Verif.Timer.C24_fires_only_in_check",
    "Verif.Timer.C24_cancelled_never_fires_partial",
    "Verif.Timer.C24_pending_timer_lost_fails",
    "Verif.Timer.C24_cancel_in_callback_fails",
    "Verif.Timer.C24_remaining_partial",
    "Verif.Timer.C24_first_expiry_partial"
   ],
   "note": "At most once, never early, no panics: all histories. Cancelled timers stay silent unless cancelled from a callback. Expiry drops timers (C24_pending_timer_lost_fails); liveness and the remaining time hold until the first expiry."
  },
  {
   "property": "C25",
   "status": "proved",
   "theorems": [
    "Verif.Negotiation.C25_first_supported",
    "Verif.Negotiation.C25_fails_iff_disjoint"
   ],
   "note": ""
  },
  {
   "property": "C26",
   "status": "partial",
   "theorems": [
    "Verif.Negotiation.C26_selected_offer",
    "Verif.Negotiation.C26_none_selected",
    "Verif.Negotiation.C26_first_usable_partial",
    "Verif.Negotiation.C26_invalid_point_fails"
   ],
   "note": "Selection characterised for every generator behaviour; a share of the right length that is not a curve point crashes the server (C26_invalid_point_fails)."
  },
  {
   "property": "C27",
   "status": "partial",
   "theorems": [
    "Verif.Negotiation.C27_first_known_decides",
    "Verif.Negotiation.C27_selected_proves_possession",
    "Verif.Negotiation.C27_identities_not_confused",
    "Verif.Negotiation.C27_age_partial",
    "Verif.Negotiation.C27_age_wraps_fails"
   ],
   "note": "Selection and refusal characterised completely; the ticket age check wraps after 2^32 ms and expiry is not checked (C27_age_wraps_fails)."
  },
  {
   "property": "C28",
   "status": "partial",
   "theorems": [
    "Verif.Negotiation.C28_suite_without_psk",
    "Verif.Negotiation.C28_suite_with_psk_partial",
    "Verif.Negotiation.C28_psk_suite_fails",
    "Verif.Negotiation.C28_alpn",
    "Verif.Negotiation.C28_psk_mode",
    "Verif.Negotiation.C28_psk_only_mode_partial",
    "Verif.Negotiation.C28_unknown_mode_fails",
    "Verif.Negotiation.C28_early_data"
   ],
   "note": "With a PSK the server's suite list is ignored (C28_psk_suite_fails); unknown PSK modes are taken to mean PSK-only (C28_unknown_mode_fails); the rest is proved."
  },
  {
   "property": "C29",
   "status": "partial",
   "theorems": [
    "Verif.Negotiation.C29_selection_partial",
    "Verif.Negotiation.C29_can_sign_partial",
    "Verif.Negotiation.C29_wrong_curve_fails"
   ],
   "note": "Name, offered scheme and key type proved, as is finding one; an ECDSA scheme of another curve may be selected, with which signing fails (C29_wrong_curve_fails)."
  },
  {
   "property": "C30",
   "status": "proved",
   "theorems": [
    "Verif.Messages.C30_find",
    "Verif.Messages.C30_add",
    "Verif.Messages.C30_add_replaces",
    "Verif.Messages.C30_add_total",
    "Verif.Messages.C30_built_unique",
    "Verif.Messages.C30_parse_exact",
    "Verif.Messages.C30_parse_refuses_duplicates",
    "Verif.Messages.C30_parse_accepts",
    "Verif.Messages.C30_add_other_sort"
   ],
   "note": ""
  },
  {
   "property": "C31",
   "status": "partial",
   "theorems": [
    "Verif.Messages.C31_extension_roundtrip_partial",
    "Verif.Messages.C31_psk_count_fails",
    "Verif.Messages.C31_versions_dropped_fails",
    "Verif.Messages.C31_extension_list_roundtrip",
    "Verif.Messages.C31_body_roundtrip_partial",
    "Verif.Messages.C31_client_hello_roundtrip_partial",
    "Verif.Messages.C31_session_id_fails",
    "Verif.Messages.C31_dtls_client_hello_fails"
   ],
   "note": "Proved for every body and extension with expressible contents. Not expressible, with witnesses: a session ID in a ClientHello (C31_session_id_fails), PSK extensions with differing identity and binder counts, more than one version in a ServerHello, and DTLS ClientHellos through ToBody."
  },
  {
   "property": "C32",
   "status": "partial",
   "theorems": [
    "Verif.Props.C32_server_hello_trailing_fails",
    "Verif.Messages.C32_extension_body_safe",
    "Verif.Messages.C32_extension_trailing",
    "Verif.Messages.C32_parse_safe",
    "Verif.Messages.C32_find_safe",
    "Verif.Messages.C32_extension_list_safe",
    "Verif.Messages.C32_body_safe",
    "Verif.Messages.C32_client_hello_safe",
    "Verif.Messages.C32_body_trailing",
    "Verif.Messages.C32_client_hello_trailing",
    "Verif.Messages.C32_finished_whole",
    "Verif.Messages.C32_body_canonical",
    "Verif.Messages.C32_truncated_safe"
   ],
   "note": "x509 parsing is a parameter; its own behaviour is outside the model. Every message but one is read through safeUnmarshal, which refuses trailing bytes; a client reads ServerHello without it and ignores what follows (C32_server_hello_trailing_fails, client-state-machine.go:337)."
  },
  {
   "property": "C33",
   "status": "partial",
   "theorems": [
    "Verif.Messages.C33_truncated_partial",
    "Verif.Messages.C33_last_extension",
    "Verif.Messages.C33_binders_do_not_matter",
    "Verif.Messages.C33_session_id_fails"
   ],
   "note": "Proved for hellos without a session ID; with one, the truncated bytes are not a prefix of the message received (C33_session_id_fails)."
  },
  {
   "property": "C34",
   "status": "partial",
   "theorems": [
    "Verif.Crypto.C34_labels_separate_partial",
    "Verif.Crypto.C34_labels_distinct",
    "Verif.Crypto.C34_long_label_fails",
    "Verif.Crypto.C34_long_output_fails",
    "Verif.Crypto.C34_output",
    "Verif.Crypto.C34_prefix",
    "Verif.Props.C34_labels_used",
    "Verif.Props.C34_labels_used_distinct"
   ],
   "note": "Separation proved for labels up to 249 bytes and outputs below 2^16 bytes; both length fields wrap beyond (C34_long_label_fails, C34_long_output_fails). Output equal to RFC 5869/8446 and of the requested length for all inputs."
  },
  {
   "property": "C35",
   "status": "partial",
   "theorems": [
    "Verif.Crypto.C35_value_partial",
    "Verif.Crypto.C35_not_connected",
    "Verif.Crypto.C35_inputs_separate",
    "Verif.Crypto.C35_rfc_fails"
   ],
   "note": "Value, agreement and separation of labels and contexts proved for all lengths; the context does not enter through its hash (C35_rfc_fails)."
  },
  {
   "property": "C36",
   "status": "proved",
   "theorems": [
    "Verif.Props.C36_key_material",
    "Verif.Crypto.C36_roundtrip",
    "Verif.Crypto.C36_authentic",
    "Verif.Crypto.C36_safe"
   ],
   "note": "Default protector. Authenticity is a reduction: issued token, or AEAD forgery, or HKDF collision. x/crypto HKDF is taken to be RFC 5869."
  },
  {
   "property": "C37",
   "status": "partial",
   "theorems": [
    "Verif.Props.C37_server_authenticated_fails",
    "Verif.Props.C37_certificate_partial",
    "Verif.Props.C37_psk_partial"
   ],
   "note": "Fails when the server selects a PSK though none was offered (client-state-machine.go:457-459): C37_server_authenticated_fails. Proved if no PSK is in use (certificate, signature over the transcript, chain) and if a PSK is in use that the client has (binder, keys from the PSK, Finished)."
  },
  {
   "property": "C38",
   "status": "proved",
   "theorems": [
    "Verif.Props.C38_client",
    "Verif.Props.C38_server"
   ],
   "note": "Proved for both ends, for all configurations and message sequences."
  },
  {
   "property": "C39",
   "status": "partial",
   "theorems": [
    "Verif.Props.C39_require_client_auth_fails",
    "Verif.Props.C39_require_client_auth_partial"
   ],
   "note": "RequireClientAuth is not enforced (an empty certificate list and PSKs are accepted): C39_require_client_auth_fails. Proved: without a PSK a Certificate is asked for and received, and if its list is not empty a CertificateVerify verifies."
  },
  {
   "property": "C40",
   "status": "partial",
   "theorems": [
    "Verif.Props.C40_client_complete_partial",
    "Verif.Props.C40_client_prefix_partial",
    "Verif.Props.C40_client_reject",
    "Verif.Props.C40_client_complete_fails",
    "Verif.Props.C40_server_complete_partial",
    "Verif.Props.C40_server_prefix_partial",
    "Verif.Props.C40_server_reject_partial",
    "Verif.Props.C40_server_reject_no_early_data",
    "Verif.Props.C40_server_reject_fails",
    "Verif.Props.C40_server_complete_fails"
   ],
   "note": "Order of accepted messages as a language over the wire messages. _fails: a client answers any number of HelloRetryRequests, a server sends any number, and rejected early data makes the server read without end. Everything else about the order is proved for every run."
  },
  {
   "property": "C41",
   "status": "proved",
   "theorems": [
    "Verif.Props.C41_agreement",
    "Verif.Props.C41_both",
    "Verif.Props.C41_server_agreement"
   ],
   "note": "Proved in reduction form for every pair of runs over any network: if one end read a Finished the other wrote, both agree on the hellos, the server's flight, the transcript, the handshake secret, the reported suite, PSK use, early data, client authentication, protocol and all secrets, or a collision of the hash function or HMAC is named among the inputs of these two runs. Assumes messages framed by the handshake layer and a server whose cookies hold hashes of the right length."
  },
  {
   "property": "C42",
   "status": "partial",
   "theorems": [
    "Verif.Props.C42_completes_partial",
    "Verif.Props.C42_reaches_partial",
    "Verif.Props.C42_psk_with_cookie_fails",
    "Verif.Props.C42_datagram_cookie_fails",
    "Verif.Props.C42_repeated_group_fails",
    "Verif.Props.C42_forgotten_psk_fails",
    "Verif.Props.C42_other_curve_fails"
   ],
   "note": "Proved for every pair of configurations that Spec/Compatible.lean calls compatible (certificates on one or both sides, PSKs, resumption, early data the server takes; streams and datagrams) and every order in which the messages sent are delivered. Left out: cookies (see C71), and what is not compatible there; C42_*_fails show that PSK with cookie, datagram cookie, a group listed twice, early data with a PSK the server forgot, and a P-384 scheme listed before the one for the server's curve do not lead to a connection."
  },
  {
   "property": "C43",
   "status": "partial",
   "theorems": [
    "Verif.Props.C43_one_retry_fails",
    "Verif.Props.C43_answer_partial"
   ],
   "note": "A client answers any number of HelloRetryRequests: C43_one_retry_fails. Proved: every answer meets the demand of the request it answers."
  },
  {
   "property": "C44",
   "status": "partial",
   "theorems": [
    "Verif.Props.C44_psk_fails",
    "Verif.Props.C44_alpn_fails",
    "Verif.Props.C44_early_data_fails",
    "Verif.Props.C44_suite_fails",
    "Verif.Props.C44_offered_partial"
   ],
   "note": "PSK, ALPN protocol, early data and the suite (with a PSK) may be reported though not offered: the C44_*_fails witnesses. The rest is C44_offered_partial."
  },
  {
   "property": "C45",
   "status": "partial",
   "theorems": [
    "Verif.Machine.C45_empty_certificate_fails",
    "Verif.Machine.C45_client_point_fails",
    "Verif.Machine.C45_retry_suite_fails",
    "Verif.Machine.C45_cookie_fails",
    "Verif.Machine.C45_server_point_fails",
    "Verif.Machine.C45_client_partial",
    "Verif.Machine.C45_server_partial"
   ],
   "note": "Five kinds of messages make the code panic (witnesses: empty Certificate, a share that is not a curve point at either end, a HelloRetryRequest for a configured suite mint does not implement, a cookie to a server without a protector). Proved that there are no others: every run of either machine on other messages, in any order, with suites and chains that mint supports, does not panic."
  },
  {
   "property": "C46",
   "status": "partial",
   "theorems": [
    "Verif.Props.C46_first_psk_fails",
    "Verif.Props.C46_same_protocol_fails",
    "Verif.Props.C46_no_retry_fails",
    "Verif.Props.C46_refused_completes_fails",
    "Verif.Props.C46_refused_never_completes",
    "Verif.Props.C46_accepted_partial",
    "Verif.Props.C46_refused_skipped_partial"
   ],
   "note": "Proved for every run: early data comes only from a connection whose server selected a PSK it holds with a right binder, with the early_data extension in the hello and in EncryptedExtensions and AllowEarlyData set; it is the application data between that hello and EndOfEarlyData, read under the keys of that PSK and hello; records that do not decrypt are skipped after a refusal. Not so in the code: the PSK need not be the first offered, no protocol may be negotiated though the PSK has one, early data is taken after a HelloRetryRequest, and a handshake in which early data was refused never completes (each with a witness)."
  },
  {
   "property": "C47",
   "status": "proved",
   "theorems": [
    "Verif.Props.C47_in_step",
    "Verif.Props.C47_update_possible"
   ],
   "note": "Two connected ends with the records in flight between them; readable means protected with the reader's keys (record layer: C12-C14). Records in order, as in the statement. The label of an update is not the RFC's but the same at both ends."
  },
  {
   "property": "C48",
   "status": "proved",
   "theorems": [
    "Verif.Props.C48_same_psk",
    "Verif.Props.C48_distinct_nonces"
   ],
   "note": "For ends with the same resumption secret, suite and protocol. Nonces are random bytes in the code: distinct nonces are a hypothesis of C48_distinct_nonces, which says the PSKs are HMACs of distinct inputs."
  },
  {
   "property": "C49",
   "status": "partial",
   "theorems": [
    "Verif.Props.C49_to_server_partial",
    "Verif.Props.C49_to_client_partial",
    "Verif.Props.C49_all_to_server",
    "Verif.Props.C49_all_to_client",
    "Verif.Props.C49_history",
    "Verif.Props.C49_write_reports",
    "Verif.Props.C49_after_eof_fails"
   ],
   "note": "TLS. Any calls at both ends, any delivery without forgeries (`NoForgery` speaks of the delivered frames and of the keys the writer has had only). The bytes of Read are counted until it reports end of file; after that a record can be taken twice: C49_after_eof_fails. The ends come out of handshakes of the state machines."
  },
  {
   "property": "C50",
   "status": "partial",
   "theorems": [
    "Verif.Props.C50_write_partial",
    "Verif.Props.C50_write_fails"
   ],
   "note": "Exact: Write succeeds if and only if buffer and overhead fit into one record of 2^14 bytes, whatever the suite. For longer buffers nothing is sent at all."
  },
  {
   "property": "C51",
   "status": "partial",
   "theorems": [
    "Verif.Props.C51_unusable_partial",
    "Verif.Props.C51_success",
    "Verif.Props.C51_failure_partial",
    "Verif.Props.C51_mute_partial",
    "Verif.Props.C51_sticky_fails",
    "Verif.Props.C51_ticket_fails",
    "Verif.Props.C51_run",
    "Verif.Props.C51_recovery_fails",
    "Verif.Props.C51_ticket_case_fails"
   ],
   "note": "False as stated: the field meant to remember a failure is never written. C51_sticky_fails: any failure while waiting for the first hello leaves the connection exactly as it was; C51_recovery_fails: a server that returned decode_error later connects; C51_ticket_fails and C51_ticket_case_fails: a server whose ticket could not be sent returns an error once and success afterwards, with its transport closed. Proved: until the handshake is complete Read and Write fail, apart from early data (C51_unusable_partial); a failed call leaves the handshake incomplete unless tickets are sent (C51_failure_partial); a blocking call that succeeds leaves a connection (C51_success); when messages can no longer be written the handshake never completes if any remain to be sent (C51_mute_partial); a handshake that completes without failed calls is an execution of the state machines of the other theorems (C51_run)."
  },
  {
   "property": "C52",
   "status": "partial",
   "theorems": [
    "Verif.Props.C52_decode_fails",
    "Verif.Props.C52_handshake_decode_fails",
    "Verif.Props.C52_decode_partial",
    "Verif.Props.C52_would_block_fails",
    "Verif.Props.C52_sender_partial",
    "Verif.Props.C52_receiver_fails"
   ],
   "note": "Refuted for every alert: Conn.sendAlert (conn.go:524) puts the description before the level, all readers expect the level first; a mint peer takes any alert, close_notify included, for one of unknown level, and during the handshake for Alert(1) or Alert(2). Proved in parts: level-first alerts are reported as themselves (except 254), the sender of a fatal alert never writes again. Refuted: the receiver of a fatal alert does not terminate, it can still write and read. HandshakeLayer.sendAlert (handshake-layer.go:232-246) is not modelled: its only call, line 207, is behind an index that panics in that case."
  },
  {
   "property": "C53",
   "status": "partial",
   "theorems": [
    "Verif.Props.C53_locked",
    "Verif.Props.C53_calm_partial",
    "Verif.Props.C53_update_fails",
    "Verif.Props.C53_alert_fails",
    "Verif.Props.C53_sealed_fails",
    "Verif.Props.C53_solo"
   ],
   "note": "Goroutines share one outgoing record layer and interleave at single reads and writes of its state (sequential consistency). C53_locked: whatever programs run and however they are scheduled, if every record and rekeying is under the out lock, no key/nonce pair is sent twice, and none is sealed twice if every record fits. C53_calm_partial: so for any number of goroutines calling Write and Read when no Read gets anything it must answer. C53_update_fails, C53_alert_fails: a Read that answers a KeyUpdate or sends an alert does so without the out lock, and for all ready keys and data there is a schedule in which both records are sent with the same key and nonce. C53_sealed_fails: a Write of 2^14 bytes seals a record that is too large to send, and the next Write seals with the same nonce. C53_solo: a record written with no interference is what Record.writeRecord computes. SendKeyUpdate is unlocked as well; it is covered only as the program fragment record-then-rekey."
  },
  {
   "property": "C54",
   "status": "partial",
   "theorems": [
    "Verif.Conn.C54_clone_partial",
    "Verif.Conn.C54_clone_same_partial",
    "Verif.Conn.C54_clone_fails",
    "Verif.Conn.C54_clone_independent_partial",
    "Verif.Conn.C54_shared_cache_fails",
    "Verif.Conn.C54_init_fills",
    "Verif.Conn.C54_init_idempotent",
    "Verif.Conn.C54_valid_server_partial",
    "Verif.Conn.C54_valid_server_fails",
    "Verif.Conn.C54_valid_client",
    "Verif.Props.C54_material_needed"
   ],
   "note": "Init and ValidForClient as claimed. Clone drops RecordLayer and shares the PSK cache; ValidForServer looks at the first certificate only and panics on a nil one (witnesses). Proved: Clone copies all other fields and is independent in its fields; a server that answered a ClientHello did have a PSK or a certificate."
  },
  {
   "property": "C55",
   "status": "proved",
   "theorems": [
    "Verif.Conn.C55_map",
    "Verif.Conn.C55_put",
    "Verif.Conn.C55_nil"
   ],
   "note": "Proved for all sequences of puts from an empty cache, and for one put on any cache. Put on a nil map panics."
  },
  {
   "property": "C56",
   "status": "partial",
   "theorems": [
    "Verif.Crypto.C56_server_partial",
    "Verif.Crypto.C56_transcript",
    "Verif.Crypto.C56_own_signature",
    "Verif.Crypto.C56_client_fails"
   ],
   "note": "Transcript determined by the signed bytes; clients sign with the server's context string (C56_client_fails)."
  },
  {
   "property": "C57",
   "status": "partial",
   "theorems": [
    "Verif.Props.C57_expired_psk_fails",
    "Verif.Props.C57_expiry_partial"
   ],
   "note": "Expiry is never looked at: C57_expired_psk_fails. Proved: the expiry stored for a ticket at either end is the time plus the lifetime."
  },
  {
   "property": "C58",
   "status": "proved",
   "theorems": [
    "Verif.Syntax.C58_misused_tag_refused"
   ],
   "note": ""
  },
  {
   "property": "C59",
   "status": "proved",
   "theorems": [
    "Verif.Syntax.C59_map_keys_distinct",
    "Verif.Syntax.C59_last_entry_wins"
   ],
   "note": ""
  },
  {
   "property": "C60",
   "status": "partial",
   "theorems": [
    "Verif.Props.C60_client_clear",
    "Verif.Props.C60_server_clear",
    "Verif.Props.C60_client_partial",
    "Verif.Props.C60_server",
    "Verif.Props.C60_client_sends_fails"
   ],
   "note": "C60_client_clear, C60_server_clear: for every run, completed or not, only hellos are sent in the clear. C60_server, C60_client_partial: at the end of a completed handshake, the list of messages sent with the keys of each, and the reading keys at every prefix, are those written down in Spec/Protection.lean from RFC 8446 (with the code's label for key updates, see C47). Left out: a client that reads early_data in EncryptedExtensions without having offered it; C60_client_sends_fails: it seals two different messages with the same keys and number."
  },
  {
   "property": "C61",
   "status": "partial",
   "theorems": [
    "Verif.Handshake.C61_tls_partial",
    "Verif.Handshake.C61_tls_refused",
    "Verif.Handshake.C61_dtls_queue_fails"
   ],
   "note": "C61_tls_partial: over TLS, in every history in which keys are changed in response to a message (as the state machines do), the handshake bytes read under each set of keys are exactly the messages handed over under it, in order, and what is handed over later is a prefix of what is read later. C61_tls_refused: the change is refused exactly if bytes are left over. Missing: DTLS, where C61_dtls_queue_fails shows a message that came in the clear being handed over after the change of keys."
  },
  {
   "property": "C62",
   "status": "proved",
   "theorems": [
    "Verif.Props.C62_required",
    "Verif.Props.C62_refused",
    "Verif.Props.C62_issued",
    "Verif.Props.C62_default"
   ],
   "note": "C62_required is an invariant of every run of the server state machine; C62_refused gives the alerts; C62_issued says what each HelloRetryRequest carries; C62_default combines them with C36 for the protector that is installed if none is configured. The hypothesis hgen covers the documented case that Generate returns nil."
  },
  {
   "property": "C63",
   "status": "partial",
   "theorems": [
    "Verif.Record.C63_authentic_partial",
    "Verif.Record.C63_application_partial",
    "Verif.Record.C63_replay_fails",
    "Verif.Record.C63_unprotected_fails"
   ],
   "note": "C63_authentic_partial: every record returned as one of the current epoch, by either kind of read, was sealed by the peer in that epoch with that number; C63_application_partial: so is all that ReadRecord returns. Fails: C63_replay_fails (every accepted datagram is accepted as many times as it arrives; for all readers and records) and C63_unprotected_fails (after any changes of keys, unprotected alerts and acknowledgements are acted on during the handshake, because old keys are never discarded and the epoch is only looked at for handshake records)."
  },
  {
   "property": "C64",
   "status": "partial",
   "theorems": [
    "Verif.Record.C64_independent_partial",
    "Verif.Record.C64_truncated_fails"
   ],
   "note": "C64_independent_partial: datagrams made of whole records are judged record by record, each on its own. Fails for datagrams that end within a record: C64_truncated_fails, for every reader and every datagram lost."
  },
  {
   "property": "C65",
   "status": "partial",
   "theorems": [
    "Verif.Conn.C65_host_partial",
    "Verif.Conn.C65_ipv6_fails",
    "Verif.Conn.C65_outcome",
    "Verif.Conn.C65_limit_partial",
    "Verif.Conn.C65_deadline_fails",
    "Verif.Conn.C65_config_partial",
    "Verif.Conn.C65_record_layer_fails",
    "Verif.Conn.C65_udp_fails",
    "Verif.Conn.C65_connected",
    "Verif.Conn.C65_accept",
    "Verif.Conn.C65_accept_fails",
    "Verif.Conn.C65_listen",
    "Verif.Conn.C65_listen_fails"
   ],
   "note": "C65_outcome: exactly when there is a connection, and that the transport is closed exactly if it was opened without one resulting; C65_connected: a connection returned has completed its handshake (with C51); C65_config_partial: nothing the caller holds is changed, every setting but three is the caller's; C65_limit_partial: the limit is the earlier of timeout and deadline; C65_accept, C65_listen. What Handshake and the transport return is a parameter, as is whether the timer fires first. Fails: C65_ipv6_fails (brackets kept in the name), C65_udp_fails (TLS over udp4 and udp6), C65_record_layer_fails, C65_deadline_fails (a deadline reached just now is none), C65_accept_fails (transport of a failed handshake left open), C65_listen_fails (address stays bound)."
  },
  {
   "property": "C66",
   "status": "partial",
   "theorems": [
    "Verif.Props.C66_client_partial",
    "Verif.Props.C66_server_partial",
    "Verif.Props.C66_retry_fails",
    "Verif.Props.C66_share_fails",
    "Verif.Props.C66_update_fails"
   ],
   "note": "C66_client_partial and C66_server_partial: without HelloRetryRequest, cookie and key update, all secrets and both Finished messages are the RFC's (Spec/Rfc), and the Diffie-Hellman secret is the result of key agreement with the share in the ServerHello. DTLS is left out, where the drafts changed the transcript. Fails: C66_retry_fails (universal: after a HelloRetryRequest the transcript is never the RFC's), C66_update_fails (label of key updates), C66_share_fails (a shared secret of zeros is accepted)."
  },
  {
   "property": "C67",
   "status": "partial",
   "theorems": [
    "Verif.Conn.C67_delivered_partial",
    "Verif.Conn.C67_calls",
    "Verif.Conn.C67_ticket_fails"
   ],
   "note": "C67_delivered_partial: for calls of Handshake, each handling one record or message, and of Read, in any order and failing or not, read ++ unread = arrived; C67_calls: calls that handle several are covered. That the data arrived under the right keys is C46; that the buffer of the connection is read first is C49. Fails: C67_ticket_fails (if the ticket cannot be sent, Handshake returns an error once and the unread early data is lost)."
  },
  {
   "property": "C68",
   "status": "partial",
   "theorems": [
    "Verif.Props.C68_no_failure_partial",
    "Verif.Props.C68_connects_partial",
    "Verif.Props.C68_long_message_fails",
    "Verif.Props.C68_long_chain_fails"
   ],
   "note": "C68_no_failure_partial: whatever the order of turns and arrivals, neither end fails. C68_connects_partial: after thirteen rounds (all bytes arrive, then each end takes a turn, anything else in between) both ends are connected (Together). Missing: configurations that are not Compatible; messages that do not fit into one protected record, for which the property fails: C68_long_message_fails (universal: such a message, to be sent under protection, ends the handshake with internal_error), C68_long_chain_fails (an instance, two compatible configurations)."
  },
  {
   "property": "C69",
   "status": "partial",
   "theorems": [
    "Verif.Props.C69_to_server_partial",
    "Verif.Props.C69_server_completes_partial",
    "Verif.Props.C69_to_client_partial",
    "Verif.Props.C69_prefix_to_server_partial",
    "Verif.Props.C69_prefix_to_client_partial"
   ],
   "note": "C69_to_server_partial: all the client writes after its Handshake has returned, while the server is still in its own, is read by the server. C69_server_completes_partial: such data harms neither end, and the server completes within thirteen rounds. C69_to_client_partial: the other direction, whatever the client has written meanwhile. C69_prefix_to_server_partial, C69_prefix_to_client_partial: prefixes, if after the handshake anything but forgeries is delivered and the reading end makes any calls. Missing: configurations that are not Compatible and messages that do not fit into one protected record (see C68); early data; for completeness, alerts (and tickets from clients) among what is sent, and calls other than Read at the reading end."
  },
  {
   "property": "C70",
   "status": "partial",
   "theorems": [
    "Verif.Props.C70_cache",
    "Verif.Props.C70_resumable_partial",
    "Verif.Props.C70_resumes_partial",
    "Verif.Props.C70_no_protocol_fails"
   ],
   "note": "C70_resumable_partial: after a handshake between compatible configurations that was delivered whole, the client reads the ticket, and the configurations in which both have stored its PSK are compatible at the times the ticket can be used. C70_resumes_partial: hence every execution of the next handshake in which messages are delivered as sent can be completed, with the PSK, the suite and the protocol of the first session. C70_cache: storing in PSKMapCache is what is assumed. Missing: C70_no_protocol_fails, a client that offered protocols none of which was agreed on can never connect again with the ticket (no_application_protocol); servers that want a cookie; tickets longer than 10000 bytes; the ticket is sent right after the handshake."
  },
  {
   "property": "C71",
   "status": "partial",
   "theorems": [
    "Verif.Props.C71_completes_partial",
    "Verif.Props.C71_reaches_partial",
    "Verif.Props.C71_default_protector",
    "Verif.Props.C71_datagram_fails",
    "Verif.Props.C71_shared_psk_fails"
   ],
   "note": "Over streams, without a PSK in common: C71_completes_partial is an invariant of all executions in which messages are delivered as sent, C71_reaches_partial says that every such execution can be completed, C71_default_protector that the protector of cookie-protector.go meets the hypothesis. Missing because the code fails: C71_datagram_fails (over DTLS the two transcripts differ), C71_shared_psk_fails (a PSK both ends know: the binder the server expects after a retry is not the one the client sends)."
  },
  {
   "property": "C72",
   "status": "partial",
   "theorems": [
    "Verif.Props.C72_to_server_partial",
    "Verif.Props.C72_to_client_partial",
    "Verif.Props.C72_cut_fails",
    "Verif.Props.C72_close_fails"
   ],
   "note": "TLS. C72_to_server_partial, C72_to_client_partial: unless the transport itself reports end of file, a call that does so has reached an alert, a ticket from a client, or a request for a key update (which an end that cannot write cannot answer) in the peer's history, and all application data before that record has been read. Fails: C72_cut_fails (end of file of the transport is passed on, so a connection can be cut between two records unnoticed) and C72_close_fails (Close sends nothing: whatever is delivered, the peer does not learn of it)."
  },
  {
   "property": "C73",
   "status": "partial",
   "theorems": [
    "Verif.Props.C73_before",
    "Verif.Props.C73_stable",
    "Verif.Props.C73_client",
    "Verif.Props.C73_server",
    "Verif.Props.C73_complete",
    "Verif.Props.C73_same",
    "Verif.Props.C73_server_chains_fails",
    "Verif.Props.C73_exporter",
    "Verif.Props.C73_exporter_later"
   ],
   "note": "C73_before: over all calls and failures, the state is Connected exactly if the handshake is complete, and nothing else is reported before. C73_complete, C73_client, C73_server: the report is what the messages received (at a server: sent) say, after any later calls. C73_stable: no call changes the report or the exporter. C73_same: both ends report the same and the client reports a chain of the server's configuration, or a collision is found. Fails: C73_server_chains_fails (a server never reports verified chains)."
  },
  {
   "property": "C74",
   "status": "partial",
   "theorems": [
    "Verif.Props.C74_retry_random",
    "Verif.Messages.C74_extension_written",
    "Verif.Messages.C74_extension_accepted_partial",
    "Verif.Messages.C74_extension_only",
    "Verif.Messages.C74_server_name_only",
    "Verif.Messages.C74_unknown_group_fails",
    "Verif.Messages.C74_extension_list",
    "Verif.Messages.C74_extension_numbers_partial",
    "Verif.Messages.C74_ticket_early_data_fails",
    "Verif.Messages.C74_message_numbers",
    "Verif.Messages.C74_message_written",
    "Verif.Messages.C74_message_writable",
    "Verif.Messages.C74_message_accepted",
    "Verif.Messages.C74_message_only",
    "Verif.Messages.C74_message_header"
   ],
   "note": "The format is written down in Spec/Wire.lean without use of the schemas. C74_extension_written, C74_message_written: what is marshalled is that format, within its limits. C74_extension_accepted_partial, C74_message_accepted, C74_message_writable: everything the RFC allows is marshalled and read; C74_extension_only, C74_server_name_only, C74_message_only: nothing else is read. C74_extension_list, C74_message_header: lists of extensions and message headers. Numbers: C74_message_numbers, C74_extension_numbers_partial. Fails: C74_unknown_group_fails (a key share of a group the library does not know makes the whole extension unreadable), C74_ticket_early_data_fails (the early data limit of a ticket has number 46 instead of 42)."
  },
  {
   "property": "C75",
   "status": "partial",
   "theorems": [
    "Verif.Props.C75_plain",
    "Verif.Props.C75_protected",
    "Verif.Props.C75_read",
    "Verif.Props.C75_version_ignored",
    "Verif.Props.C75_change_cipher_spec_fails",
    "Verif.Props.C75_client",
    "Verif.Props.C75_server_partial",
    "Verif.Props.C75_retry_version_fails",
    "Verif.Props.C75_established",
    "Verif.Props.C75_datagram_plain",
    "Verif.Props.C75_datagram_protected_partial",
    "Verif.Props.C75_reset",
    "Verif.Props.C75_datagram_version_fails"
   ],
   "note": "The format is written down in Spec/RecordWire.lean. C75_plain, C75_protected: records that are written; C75_read: protected records that are read; C75_version_ignored. C75_client, C75_server_partial: every turn of a client or a server in a handshake, in any network, writes records of version 0x0303, except for the record of HelloRetryRequest, which has 0x0301 (C75_retry_version_fails). C75_established: the same after the handshake, for all calls. C75_datagram_plain; C75_datagram_protected_partial: protected DTLS records have the header and nonce of DTLS 1.2, not those of RFC 9147. Fails: C75_change_cipher_spec_fails (must be dropped, is an error), C75_datagram_version_fails (a DTLS server panics when it writes anything before the version is set, such as HelloRetryRequest). C75_reset: records after ResetClear."
  },
  {
   "property": "C76",
   "status": "partial",
   "theorems": [
    "Verif.Props.C76_numbers",
    "Verif.Props.C76_server_hello_refused_partial",
    "Verif.Props.C76_encrypted_extensions_refused",
    "Verif.Props.C76_certificate_request_refused_partial",
    "Verif.Props.C76_certificate_refused",
    "Verif.Props.C76_certificate_verify_refused_partial",
    "Verif.Props.C76_client_certificate_refused",
    "Verif.Props.C76_client_certificate_verify_refused_partial",
    "Verif.Props.C76_finished_refused_partial",
    "Verif.Props.C76_client_finished_refused_partial",
    "Verif.Props.C76_end_of_early_data_refused",
    "Verif.Props.C76_connected_refused_partial",
    "Verif.Props.C76_client_start",
    "Verif.Props.C76_server_answer",
    "Verif.Props.C76_client_hello_refused_partial",
    "Verif.Props.C76_unexpected_client_partial",
    "Verif.Props.C76_unexpected_server_partial",
    "Verif.Props.C76_undecodable_client_partial",
    "Verif.Props.C76_undecodable_server",
    "Verif.Props.C76_wrong_finished_fails",
    "Verif.Props.C76_bad_signature_fails",
    "Verif.Props.C76_undecodable_server_hello_fails",
    "Verif.Props.C76_server_hello_choice_fails",
    "Verif.Props.C76_unknown_type_fails",
    "Verif.Props.C76_request_without_algorithms_fails",
    "Verif.Props.C76_other_records_fails",
    "Verif.Props.C76_early_data_mac",
    "Verif.Props.C76_not_sent_fails"
   ],
   "note": "Two directions. What an alert means: for every state, C76_*_refused say which facts about the message hold when an alert comes back (Spec/AlertCodes.lean has the numbers and what it is to decode). What is answered: C76_unexpected_client_partial, C76_unexpected_server_partial (wrong type), C76_undecodable_client_partial, C76_undecodable_server (does not decode), C76_early_data_mac. Where the code deviates from RFC 8446 there is a theorem about all such cases: C76_wrong_finished_fails and C76_bad_signature_fails (handshake_failure instead of decrypt_error), C76_undecodable_server_hello_fails (unexpected_message instead of decode_error), C32_server_hello_trailing_fails (bytes after a ServerHello are ignored), C76_server_hello_choice_fails, C76_unknown_type_fails, C76_request_without_algorithms_fails, C76_other_records_fails (close_notify for records that do not decrypt or are not handshake messages), C76_not_sent_fails (the alert of a failed transition is returned to the application and not sent)."
  },
  {
   "property": "C77",
   "status": "partial",
   "theorems": [
    "Verif.Handshake.C77_truthful",
    "Verif.Handshake.C77_only_what_arrived",
    "Verif.Handshake.C77_ack_sent",
    "Verif.Handshake.C77_ack_not_refused",
    "Verif.Handshake.C77_armed",
    "Verif.Handshake.C77_timer",
    "Verif.Handshake.C77_final_flight",
    "Verif.Handshake.C77_ack_too_early_fails",
    "Verif.Handshake.C77_repeated_flight_fails",
    "Verif.Handshake.C77_too_many_fails",
    "Verif.Handshake.C77_datagram_size",
    "Verif.Handshake.C77_mtu_fails",
    "Verif.Handshake.C77_number_protected",
    "Verif.Handshake.C77_clear_number_fails",
    "Verif.Handshake.C77_given_up_only_if_received_partial",
    "Verif.Handshake.C77_lost_fragment_fails"
   ],
   "note": "For every history of an end (records, frames, timers, key changes, ends of flights) every ACK lists the first 149 handshake records that arrived in the current flight (C77_truthful, C77_only_what_arrived), in the format of RFC 9147 with 8-byte numbers, and the peer reads these numbers from it (C77_ack_sent, C77_ack_not_refused); when one is sent: C77_armed, C77_timer, C77_final_flight. Two ends together, down to the records on the wire: C77_given_up_only_if_received_partial, C77_number_protected (missing: flights under several keys, where C23_mixed_keys_fails, and records in the clear). What fails: records in the clear are all acknowledged as number 0 (C77_clear_number_fails), so a part of a message that was lost can count as acknowledged, and is never sent again (C77_lost_fragment_fails); after 149 records the later ones are never acknowledged (C77_too_many_fails); the ACK timer of a server that has not accepted a ClientHello crashes it (C77_ack_too_early_fails); a repeated last flight is not acknowledged again (C77_repeated_flight_fails); records are up to 1230 bytes, above the assumed MTU of 1200 (C77_mtu_fails; C77_datagram_size is the bound)."
  },
  {
   "property": "C78",
   "status": "partial",
   "theorems": [
    "Verif.Handshake.C78_flight_arrives_partial",
    "Verif.Handshake.C78_all_returned_partial",
    "Verif.Handshake.C78_given_up_returned_partial",
    "Verif.Handshake.C78_fragmented_fails"
   ],
   "note": "Flights of messages that need no fragments, sent and resent under one key: what arrives, through the record layer and the reassembly, comes out as it was queued (C78_flight_arrives_partial); all that arrived comes out after a bounded number of reads (C78_all_returned_partial); and a flight that is given up as received is returned completely (C78_given_up_returned_partial). Missing: fragmented messages, where the code fails even without loss: of two messages of 1189 bytes the second comes out with the last byte of the first (C78_fragmented_fails)."
  },
  {
   "property": "C79",
   "status": "partial",
   "theorems": [
    "Verif.Props.C79_reads_partial",
    "Verif.Props.C79_unacknowledged_fails",
    "Verif.Props.C79_to_server_partial",
    "Verif.Props.C79_to_client_partial",
    "Verif.Props.C79_rejected_fails",
    "Verif.Props.C79_lost_update_fails",
    "Verif.Props.C79_second_update_fails",
    "Verif.Props.C79_third_update_fails",
    "Verif.Props.C79_large_ticket_fails",
    "Verif.Props.C79_repeated_to_server_partial",
    "Verif.Props.C79_repeated_to_client_partial",
    "Verif.Props.C79_update_to_server_partial",
    "Verif.Props.C79_update_to_client_partial"
   ],
   "note": "C79_reads_partial: Read returns the data of what arrives, in the order of arrival, for any mixture of data, repetitions, records of other epochs, warning alerts, tickets, and key updates that ask for no answer and come before the data under the new keys. C79_to_server_partial, C79_to_client_partial: from the peer's Writes after a handshake, over any selection of the datagrams, to the Reads. Missing: key updates that ask for an answer, acknowledgements. Fails: C79_rejected_fails (one forged record makes Read fail), C79_unacknowledged_fails (KeyUpdate and NewSessionTicket are never acknowledged), C79_lost_update_fails (after a lost KeyUpdate nothing that is written is read), C79_second_update_fails and C79_third_update_fails (all generations of keys after the first have epoch 4: KeyUpdates sent again make Read fail, on a perfect network), C79_large_ticket_fails (a ticket longer than one record is lost and makes Read fail). C79_update_to_server_partial, C79_update_to_client_partial: end to end with Writes on both sides of one key update, any deliveries. C79_repeated_to_server_partial, C79_repeated_to_client_partial: the same with timers of the sender that expire: a lost key update is sent again under the old keys and takes effect when a copy arrives."
  },
  {
   "property": "C80",
   "status": "partial",
   "theorems": [
    "Verif.Props.C80_stream_partial",
    "Verif.Props.C80_datagrams_partial",
    "Verif.Props.C80_zeros_fails",
    "Verif.Props.C80_zeros_datagram_fails"
   ],
   "note": "C80_stream_partial, C80_datagrams_partial: for every suite, every content of the transport and every sequence of calls, all calls return unless the record numbers of some key are used up (the counter then panics by design, C63). The hypothesis left: the AEAD opens no plaintext that consists of zeros only. Fails: C80_zeros_fails, C80_zeros_datagram_fails: a peer that protects a record of zeros crashes the program (record-layer.go:288), where RFC 8446 section 5.4 wants unexpected_message."
  },
  {
   "property": "C81",
   "status": "proved",
   "theorems": [
    "Verif.Props.C81_opened",
    "Verif.Props.C81_to_server",
    "Verif.Props.C81_to_client"
   ],
   "note": "C81_opened: without assumptions on the AEAD or the peer, what Reads return is the data of arriving records that open under the keys of their generation with the nonce of their header, in order of arrival, each once, generations in order. C81_to_server, C81_to_client: two ends after a handshake, any calls at both, any deliveries to both; hypothesis NoForgedRecord (authenticity of the AEAD for the records that arrive). That a repeated datagram is read again is C63 and C79."
  },
  {
   "property": "C82",
   "status": "partial",
   "theorems": [
    "Verif.Props.C82_alert_partial",
    "Verif.Props.C82_own_alert_fails",
    "Verif.Props.C82_closed",
    "Verif.Props.C82_after_alert",
    "Verif.Props.C82_ticket_partial"
   ],
   "note": "C82_alert_partial: alerts arriving in protected records; code 254 (the number the code itself uses for a transport that would block) excluded, as are warnings other than close_notify. C82_own_alert_fails: the two bytes of an alert are written in the wrong order (C52), so that the peer takes a fatal alert for the end of the connection in good order. C82_closed, C82_after_alert: any calls after Close or a fatal alert. C82_ticket_partial: a ticket that fits in one record (larger ones are lost: C79_large_ticket_fails), the first thing sent; hypothesis that both ends have the same resumption secret and protocol (for TLS: C66)."
  },
  {
   "property": "C83",
   "status": "partial",
   "theorems": [
    "Verif.Props.C83_client_reads",
    "Verif.Props.C83_client_sends_partial",
    "Verif.Props.C83_server_reads",
    "Verif.Props.C83_server_sends",
    "Verif.Props.C83_client_messages_partial",
    "Verif.Props.C83_server_messages",
    "Verif.Props.C83_repeats_fails",
    "Verif.Props.C83_updates_fails"
   ],
   "note": "C83_client_reads, C83_server_reads, C83_server_sends, C83_server_messages: all runs. C83_client_sends_partial, C83_client_messages_partial: all runs, but epoch 2 may be installed twice and EndOfEarlyData sent in it (C83_repeats_fails: early data granted that was not offered). C83_updates_fails: every key update installs epoch 4, where RFC 9147 takes the next epoch each time. The record layer's own use of epochs: C18, C79."
  },
  {
   "property": "C84",
   "status": "partial",
   "theorems": [
    "Verif.Props.C84_write",
    "Verif.Props.C84_offer",
    "Verif.Props.C84_failure_fails",
    "Verif.Props.C84_failure_case_fails"
   ],
   "note": "C84_write: every sequence of calls and failures. C84_offer: the first call, exactly when writing becomes possible. C84_failure_fails, C84_failure_case_fails: after Handshake has failed the client may still write early data."
  },
  {
   "property": "C85",
   "status": "proved",
   "theorems": [
    "Verif.Props.C85_secrets",
    "Verif.Props.C85_views",
    "Verif.Props.C85_purposes",
    "Verif.Props.C85_exported"
   ],
   "note": "C85_secrets: any two completed ends, any two of the secrets they hold. C85_purposes: the secrets of one connection. C85_exported: values of ComputeExporter at least as long as a digest. C85_views: every completed run is covered. Messages are framed, and the cookies of a server hold hashes."
  },
  {
   "property": "C86",
   "status": "proved",
   "theorems": [
    "Verif.Props.C86_server",
    "Verif.Props.C86_client",
    "Verif.Props.C86_signs"
   ],
   "note": "C86_server: a client without PSK. C86_client: a server that reports certificates. Each is a reduction: the run sought is among the runs that use the key, or the signature is not one of theirs (Forged), or two transcripts they signed collide. Equal handshake secrets for the client's side need key agreement to work and one share per group. C86_signs: the runs do sign. Messages are framed, and the cookies of a server hold hashes. Replays of whole runs are not excluded: that is up to the randoms."
  },
  {
   "property": "C87",
   "status": "partial",
   "theorems": [
    "Verif.Props.C87_client_partial",
    "Verif.Props.C87_server_partial",
    "Verif.Props.C87_server_short_alert_fails",
    "Verif.Props.C87_client_short_alert_fails"
   ],
   "note": "The whole stack below Handshake in non-blocking mode, from a new connection, for any history of calls and arrivals. Fails: six bytes in the clear, an alert record of one byte, crash every server and a waiting client. Missing besides: records of zeros the AEAD accepts (only the peer makes them), messages that crash a state machine (C45), more than 2^48-2 records under one key, and that a server which refuses early data stops skipping. Writes to the transport do not fail."
  },
  {
   "property": "C88",
   "status": "partial",
   "theorems": [
    "Verif.Props.C88_window_partial",
    "Verif.Props.C88_replay_fails",
    "Verif.Props.C88_external_fails",
    "Verif.Props.C88_old_ticket_fails"
   ],
   "note": "Nothing is remembered of accepted hellos, so early data can be replayed. C88_window_partial: with tickets younger than 2^32 ms, only within 10 seconds and a millisecond. External PSKs have no limit (C88_external_fails), and the age wraps (C88_old_ticket_fails). The caches of the two servers are assumed equal."
  },
  {
   "property": "C89",
   "status": "partial",
   "theorems": [
    "Verif.Props.C89_choice_partial",
    "Verif.Props.C89_psk_suite_fails",
    "Verif.Props.C89_psk",
    "Verif.Props.C89_suite",
    "Verif.Props.C89_cookies"
   ],
   "note": "C89_choice_partial: without a PSK for the server's name; up to collisions of the hash function or HMAC. The suite after HelloRetryRequests is C89_suite: it is the best too if the server accepts no cookies but those made from a hello (C89_cookies: those it gives out are such). C89_psk: with a PSK, the group is the best, unless the PSK is used alone, which needs a mode of the client's that allows it; the suite and the protocol are those of the PSK. The suite of the PSK is taken even if the server is not configured for it (C89_psk_suite_fails)."
  },
  {
   "property": "C90",
   "status": "proved",
   "theorems": [
    "Verif.Props.C90_client",
    "Verif.Props.C90_server",
    "Verif.Props.C90_conn"
   ],
   "note": "C90_client and C90_server: the number of the state is a function of the messages read and sent (Spec/Stage.lean), for every execution of the state machines, except that a server that refused early data stays in ReadPastEarlyData. C90_conn: the same of a Conn between calls of Handshake, with the three states in between that a non-blocking Handshake can return in."
  },
  {
   "property": "C91",
   "status": "partial",
   "theorems": [
    "Verif.Props.C91_share",
    "Verif.Props.C91_size",
    "Verif.Props.C91_agree",
    "Verif.Props.C91_works",
    "Verif.Props.C91_range_fails",
    "Verif.Props.C91_zero_fails",
    "Verif.Props.C91_primes"
   ],
   "note": "C91_agree, C91_share, C91_size, C91_primes: as stated; primes by the formula with e in RFC 7919. C91_works: what other theorems assume of key agreement (DhWorks) is true of these groups. Shares are not validated (RFC 8446, 4.2.8.1): with the share 0 or 1 the secret is 0 or 1 (C91_range_fails); likewise the all-zero result of X25519 (C91_zero_fails). That the primes are prime is not proved."
  },
  {
   "property": "C92",
   "status": "partial",
   "theorems": [
    "Verif.Props.C92_made",
    "Verif.Props.C92_refused",
    "Verif.Props.C92_usable_partial",
    "Verif.Props.C92_pss_fails",
    "Verif.Props.C92_default_fails",
    "Verif.Props.C92_sha1_fails"
   ],
   "note": "C92_made, C92_refused: as stated, given that the libraries generate keys and make certificates that parse (Spec/SelfSigned.lean). C92_usable_partial: the certificate can be used if the client does not offer SHA-1 and, for ECDSA, no other ECDSA scheme; by C42 such a handshake completes. It cannot be made for PSS (C92_pss_fails), a certificate for P-384 or P-521 cannot be used with the schemes clients offer by default (C92_default_fails), and one for SHA-1 can be made but not used (C92_sha1_fails)."
  },
  {
   "property": "C93",
   "status": "partial",
   "theorems": [
    "Verif.Props.C93_parsed",
    "Verif.Props.C93_sent",
    "Verif.Props.C93_unequal_fails"
   ],
   "note": "C93_parsed, C93_sent: as stated; with an identity put in twice, the first binder. An extension filled in by hand with fewer binders than identities crashes, and is not refused when it is written (C93_unequal_fails, C31_psk_count_fails)."
  },
  {
   "property": "C94",
   "status": "partial",
   "theorems": [
    "Verif.Props.C94_to_server",
    "Verif.Props.C94_hello_to_client",
    "Verif.Props.C94_to_client",
    "Verif.Props.C94_server_blind",
    "Verif.Props.C94_server_same",
    "Verif.Props.C94_client_blind",
    "Verif.Props.C94_client_blind_encrypted",
    "Verif.Props.C94_retry_fails"
   ],
   "note": "C94_to_server, C94_hello_to_client, C94_to_client: what the handlers are given, and that an error of theirs is internal_error. C94_server_blind, C94_client_blind, C94_client_blind_encrypted: nothing read from a message depends on extensions of other types than those looked at; C94_server_same: without a PSK, whose binder covers the whole message, the whole state of the server after negotiation is the same but for the message kept for the transcript; for the ServerHello it is assumed that both messages are taken, since the keys, which depend on the whole message, are derived in the same step. Fails for HelloRetryRequest (C94_retry_fails): a client aborts if there are not exactly two extensions. The handlers are functions of the message type and the list."
  },
  {
   "property": "C95",
   "status": "proved",
   "theorems": [
    "Verif.Props.C95_alerts",
    "Verif.Props.C95_suites",
    "Verif.Props.C95_states",
    "Verif.Props.C95_unnamed"
   ],
   "note": "C95_alerts, C95_suites, C95_states: the texts are injective. C95_unnamed: values without a name show their number."
  },
  {
   "property": "C96",
   "status": "proved",
   "theorems": [
    "Verif.Props.C96_logged",
    "Verif.Props.C96_silent"
   ],
   "note": "C96_logged, C96_silent: as stated. That the library writes to no other place is read off the source (log.go:25 is the only use of a printing function outside tests), not proved."
  }
 ]
}
