{
 "C01": "Stated for all schemas and values; schema conditions in Ty.selfDelim, value conditions in Ty.good (varint fields fit their integer).",
 "C05": "Exactness of varints proved; the round trip of varint fields fails for narrow integers (uint8 holding 64): C05_varint_field_fails.",
 "C06": "Fails for optional pointers at end of input (panic) and vectors of zero-width elements (endless loop); proved for all other schemas.",
 "C07": "Fails for head=1 combined with head=none/varint; proved for every other header size.",
 "C13": "Emitted records. An oversize write seals with a nonce and fails without consuming the number; that ciphertext never leaves.",
 "C15": "Limits proved. Acceptance of 2^14-byte fragments fails under every AEAD (C15_full_fragment_fails); proved for fragments that leave room for type, padding and tag.",
 "C16": "Fails for authenticated all-zero plaintexts (index -1). Proved for every stream and schedule when the AEAD never authenticates an all-zero plaintext (Keys.Sound).",
 "C17": "Schedules of peeks and ReadRecord; in DTLS a peek before ReadRecordAnyEpoch discards an old-epoch record.",
 "C18": "Discarding and epoch separation proved; old-epoch records are decrypted with the current keys (C18_old_epoch_fails). C18_discard: what DiscardReadKey does.",
 "C19": "Fragmentation and reading proved for bodies below 2^24 bytes; a body of exactly 2^24 bytes is written with length field 0 (C19_max_length_fails).",
 "C20": "One message in any order, with overlaps and duplicates, and whole-message feeds proved; stale fragments and interleaving of messages break it (C20_next_message_fails, C20_interleaved_fails).",
 "C22": "Fails for alerts shorter than two bytes and for fragments beyond the announced length; proved when neither occurs.",
 "C23": "Fails for flights sent under several keys, or resent after a key change: the note of a sent fragment carries the current cipher's number, not the one used (C23_mixed_keys_fails). Proved when the flight uses the current key.",
 "C24": "At most once, never early, no panics: all histories. Cancelled timers stay silent unless cancelled from a callback. Expiry drops timers (C24_pending_timer_lost_fails); liveness and the remaining time hold until the first expiry.",
 "C26": "Selection characterised for every generator behaviour; a share of the right length that is not a curve point crashes the server (C26_invalid_point_fails).",
 "C27": "Selection and refusal characterised completely; the ticket age check wraps after 2^32 ms and expiry is not checked (C27_age_wraps_fails).",
 "C28": "With a PSK the server's suite list is ignored (C28_psk_suite_fails); unknown PSK modes are taken to mean PSK-only (C28_unknown_mode_fails); the rest is proved.",
 "C29": "Name, offered scheme and key type proved, as is finding one; an ECDSA scheme of another curve may be selected, with which signing fails (C29_wrong_curve_fails).",
 "C31": "Proved for every body and extension with expressible contents. Not expressible, with witnesses: a session ID in a ClientHello (C31_session_id_fails), PSK extensions with differing identity and binder counts, more than one version in a ServerHello, and DTLS ClientHellos through ToBody.",
 "C32": "x509 parsing is a parameter; its own behaviour is outside the model. Every message but one is read through safeUnmarshal, which refuses trailing bytes; a client reads ServerHello without it and ignores what follows (C32_server_hello_trailing_fails, client-state-machine.go:337).",
 "C33": "Proved for hellos without a session ID; with one, the truncated bytes are not a prefix of the message received (C33_session_id_fails).",
 "C34": "Separation proved for labels up to 249 bytes and outputs below 2^16 bytes; both length fields wrap beyond (C34_long_label_fails, C34_long_output_fails). Output equal to RFC 5869/8446 and of the requested length for all inputs.",
 "C35": "Value, agreement and separation of labels and contexts proved for all lengths; the context does not enter through its hash (C35_rfc_fails).",
 "C36": "Default protector. Authenticity is a reduction: issued token, or AEAD forgery, or HKDF collision. x/crypto HKDF is taken to be RFC 5869.",
 "C56": "Transcript determined by the signed bytes; clients sign with the server's context string (C56_client_fails).",
 "C40": "Order of accepted messages as a language over the wire messages. _fails: a client answers any number of HelloRetryRequests, a server sends any number, and rejected early data makes the server read without end. Everything else about the order is proved for every run.",
 "C37": "Fails when the server selects a PSK though none was offered (client-state-machine.go:457-459): C37_server_authenticated_fails. Proved if no PSK is in use (certificate, signature over the transcript, chain) and if a PSK is in use that the client has (binder, keys from the PSK, Finished).",
 "C38": "Proved for both ends, for all configurations and message sequences.",
 "C39": "RequireClientAuth is not enforced (an empty certificate list and PSKs are accepted): C39_require_client_auth_fails. Proved: without a PSK a Certificate is asked for and received, and if its list is not empty a CertificateVerify verifies.",
 "C43": "A client answers any number of HelloRetryRequests: C43_one_retry_fails. Proved: every answer meets the demand of the request it answers.",
 "C44": "PSK, ALPN protocol, early data and the suite (with a PSK) may be reported though not offered: the C44_*_fails witnesses. The rest is C44_offered_partial.",
 "C47": "Two connected ends with the records in flight between them; readable means protected with the reader's keys (record layer: C12-C14). Records in order, as in the statement. The label of an update is not the RFC's but the same at both ends.",
 "C48": "For ends with the same resumption secret, suite and protocol. Nonces are random bytes in the code: distinct nonces are a hypothesis of C48_distinct_nonces, which says the PSKs are HMACs of distinct inputs.",
 "C57": "Expiry is never looked at: C57_expired_psk_fails. Proved: the expiry stored for a ticket at either end is the time plus the lifetime.",
 "C46": "Proved for every run: early data comes only from a connection whose server selected a PSK it holds with a right binder, with the early_data extension in the hello and in EncryptedExtensions and AllowEarlyData set; it is the application data between that hello and EndOfEarlyData, read under the keys of that PSK and hello; records that do not decrypt are skipped after a refusal. Not so in the code: the PSK need not be the first offered, no protocol may be negotiated though the PSK has one, early data is taken after a HelloRetryRequest, and a handshake in which early data was refused never completes (each with a witness).",
 "C45": "Five kinds of messages make the code panic (witnesses: empty Certificate, a share that is not a curve point at either end, a HelloRetryRequest for a configured suite mint does not implement, a cookie to a server without a protector). Proved that there are no others: every run of either machine on other messages, in any order, with suites and chains that mint supports, does not panic.",
 "C41": "Proved in reduction form for every pair of runs over any network: if one end read a Finished the other wrote, both agree on the hellos, the server's flight, the transcript, the handshake secret, the reported suite, PSK use, early data, client authentication, protocol and all secrets, or a collision of the hash function or HMAC is named among the inputs of these two runs. Assumes messages framed by the handshake layer and a server whose cookies hold hashes of the right length.",
 "C54": "Init and ValidForClient as claimed. Clone drops RecordLayer and shares the PSK cache; ValidForServer looks at the first certificate only and panics on a nil one (witnesses). Proved: Clone copies all other fields and is independent in its fields; a server that answered a ClientHello did have a PSK or a certificate.",
 "C55": "Proved for all sequences of puts from an empty cache, and for one put on any cache. Put on a nil map panics.",
 "C49": "TLS. Any calls at both ends, any delivery without forgeries (`NoForgery` speaks of the delivered frames and of the keys the writer has had only). The bytes of Read are counted until it reports end of file; after that a record can be taken twice: C49_after_eof_fails. The ends come out of handshakes of the state machines.",
 "C50": "Exact: Write succeeds if and only if buffer and overhead fit into one record of 2^14 bytes, whatever the suite. For longer buffers nothing is sent at all.",
 "C52": "Refuted for every alert: Conn.sendAlert (conn.go:524) puts the description before the level, all readers expect the level first; a mint peer takes any alert, close_notify included, for one of unknown level, and during the handshake for Alert(1) or Alert(2). Proved in parts: level-first alerts are reported as themselves (except 254), the sender of a fatal alert never writes again. Refuted: the receiver of a fatal alert does not terminate, it can still write and read. HandshakeLayer.sendAlert (handshake-layer.go:232-246) is not modelled: its only call, line 207, is behind an index that panics in that case.",
 "C51": "False as stated: the field meant to remember a failure is never written. C51_sticky_fails: any failure while waiting for the first hello leaves the connection exactly as it was; C51_recovery_fails: a server that returned decode_error later connects; C51_ticket_fails and C51_ticket_case_fails: a server whose ticket could not be sent returns an error once and success afterwards, with its transport closed. Proved: until the handshake is complete Read and Write fail, apart from early data (C51_unusable_partial); a failed call leaves the handshake incomplete unless tickets are sent (C51_failure_partial); a blocking call that succeeds leaves a connection (C51_success); when messages can no longer be written the handshake never completes if any remain to be sent (C51_mute_partial); a handshake that completes without failed calls is an execution of the state machines of the other theorems (C51_run).",
 "C53": "Goroutines share one outgoing record layer and interleave at single reads and writes of its state (sequential consistency). C53_locked: whatever programs run and however they are scheduled, if every record and rekeying is under the out lock, no key/nonce pair is sent twice, and none is sealed twice if every record fits. C53_calm_partial: so for any number of goroutines calling Write and Read when no Read gets anything it must answer. C53_update_fails, C53_alert_fails: a Read that answers a KeyUpdate or sends an alert does so without the out lock, and for all ready keys and data there is a schedule in which both records are sent with the same key and nonce. C53_sealed_fails: a Write of 2^14 bytes seals a record that is too large to send, and the next Write seals with the same nonce. C53_solo: a record written with no interference is what Record.writeRecord computes. SendKeyUpdate is unlocked as well; it is covered only as the program fragment record-then-rekey.",
 "C42": "Proved for every pair of configurations that Spec/Compatible.lean calls compatible (certificates on one or both sides, PSKs, resumption, early data the server takes; streams and datagrams) and every order in which the messages sent are delivered. Left out: cookies (see C71), and what is not compatible there; C42_*_fails show that PSK with cookie, datagram cookie, a group listed twice, early data with a PSK the server forgot, and a P-384 scheme listed before the one for the server's curve do not lead to a connection.",
 "C60": "C60_client_clear, C60_server_clear: for every run, completed or not, only hellos are sent in the clear. C60_server, C60_client_partial: at the end of a completed handshake, the list of messages sent with the keys of each, and the reading keys at every prefix, are those written down in Spec/Protection.lean from RFC 8446 (with the code's label for key updates, see C47). Left out: a client that reads early_data in EncryptedExtensions without having offered it; C60_client_sends_fails: it seals two different messages with the same keys and number.",
 "C61": "C61_tls_partial: over TLS, in every history in which keys are changed in response to a message (as the state machines do), the handshake bytes read under each set of keys are exactly the messages handed over under it, in order, and what is handed over later is a prefix of what is read later. C61_tls_refused: the change is refused exactly if bytes are left over. Missing: DTLS, where C61_dtls_queue_fails shows a message that came in the clear being handed over after the change of keys.",
 "C62": "C62_required is an invariant of every run of the server state machine; C62_refused gives the alerts; C62_issued says what each HelloRetryRequest carries; C62_default combines them with C36 for the protector that is installed if none is configured. The hypothesis hgen covers the documented case that Generate returns nil.",
 "C63": "C63_authentic_partial: every record returned as one of the current epoch, by either kind of read, was sealed by the peer in that epoch with that number; C63_application_partial: so is all that ReadRecord returns. Fails: C63_replay_fails (every accepted datagram is accepted as many times as it arrives; for all readers and records) and C63_unprotected_fails (after any changes of keys, unprotected alerts and acknowledgements are acted on during the handshake, because old keys are never discarded and the epoch is only looked at for handshake records).",
 "C64": "C64_independent_partial: datagrams made of whole records are judged record by record, each on its own. Fails for datagrams that end within a record: C64_truncated_fails, for every reader and every datagram lost.",
 "C65": "C65_outcome: exactly when there is a connection, and that the transport is closed exactly if it was opened without one resulting; C65_connected: a connection returned has completed its handshake (with C51); C65_config_partial: nothing the caller holds is changed, every setting but three is the caller's; C65_limit_partial: the limit is the earlier of timeout and deadline; C65_accept, C65_listen. What Handshake and the transport return is a parameter, as is whether the timer fires first. Fails: C65_ipv6_fails (brackets kept in the name), C65_udp_fails (TLS over udp4 and udp6), C65_record_layer_fails, C65_deadline_fails (a deadline reached just now is none), C65_accept_fails (transport of a failed handshake left open), C65_listen_fails (address stays bound).",
 "C66": "C66_client_partial and C66_server_partial: without HelloRetryRequest, cookie and key update, all secrets and both Finished messages are the RFC's (Spec/Rfc), and the Diffie-Hellman secret is the result of key agreement with the share in the ServerHello. DTLS is left out, where the drafts changed the transcript. Fails: C66_retry_fails (universal: after a HelloRetryRequest the transcript is never the RFC's), C66_update_fails (label of key updates), C66_share_fails (a shared secret of zeros is accepted).",
 "C67": "C67_delivered_partial: for calls of Handshake, each handling one record or message, and of Read, in any order and failing or not, read ++ unread = arrived; C67_calls: calls that handle several are covered. That the data arrived under the right keys is C46; that the buffer of the connection is read first is C49. Fails: C67_ticket_fails (if the ticket cannot be sent, Handshake returns an error once and the unread early data is lost).",
 "C68": "C68_no_failure_partial: whatever the order of turns and arrivals, neither end fails. C68_connects_partial: after thirteen rounds (all bytes arrive, then each end takes a turn, anything else in between) both ends are connected (Together). Missing: configurations that are not Compatible; messages that do not fit into one protected record, for which the property fails: C68_long_message_fails (universal: such a message, to be sent under protection, ends the handshake with internal_error), C68_long_chain_fails (an instance, two compatible configurations).",
 "C69": "C69_to_server_partial: all the client writes after its Handshake has returned, while the server is still in its own, is read by the server. C69_server_completes_partial: such data harms neither end, and the server completes within thirteen rounds. C69_to_client_partial: the other direction, whatever the client has written meanwhile. C69_prefix_to_server_partial, C69_prefix_to_client_partial: prefixes, if after the handshake anything but forgeries is delivered and the reading end makes any calls. Missing: configurations that are not Compatible and messages that do not fit into one protected record (see C68); early data; for completeness, alerts (and tickets from clients) among what is sent, and calls other than Read at the reading end.",
 "C70": "C70_resumable_partial: after a handshake between compatible configurations that was delivered whole, the client reads the ticket, and the configurations in which both have stored its PSK are compatible at the times the ticket can be used. C70_resumes_partial: hence every execution of the next handshake in which messages are delivered as sent can be completed, with the PSK, the suite and the protocol of the first session. C70_cache: storing in PSKMapCache is what is assumed. Missing: C70_no_protocol_fails, a client that offered protocols none of which was agreed on can never connect again with the ticket (no_application_protocol); servers that want a cookie; tickets longer than 10000 bytes; the ticket is sent right after the handshake.",
 "C71": "Over streams, without a PSK in common: C71_completes_partial is an invariant of all executions in which messages are delivered as sent, C71_reaches_partial says that every such execution can be completed, C71_default_protector that the protector of cookie-protector.go meets the hypothesis. Missing because the code fails: C71_datagram_fails (over DTLS the two transcripts differ), C71_shared_psk_fails (a PSK both ends know: the binder the server expects after a retry is not the one the client sends).",
 "C72": "TLS. C72_to_server_partial, C72_to_client_partial: unless the transport itself reports end of file, a call that does so has reached an alert, a ticket from a client, or a request for a key update (which an end that cannot write cannot answer) in the peer's history, and all application data before that record has been read. Fails: C72_cut_fails (end of file of the transport is passed on, so a connection can be cut between two records unnoticed) and C72_close_fails (Close sends nothing: whatever is delivered, the peer does not learn of it).",
 "C73": "C73_before: over all calls and failures, the state is Connected exactly if the handshake is complete, and nothing else is reported before. C73_complete, C73_client, C73_server: the report is what the messages received (at a server: sent) say, after any later calls. C73_stable: no call changes the report or the exporter. C73_same: both ends report the same and the client reports a chain of the server's configuration, or a collision is found. Fails: C73_server_chains_fails (a server never reports verified chains).",
 "C74": "The format is written down in Spec/Wire.lean without use of the schemas. C74_extension_written, C74_message_written: what is marshalled is that format, within its limits. C74_extension_accepted_partial, C74_message_accepted, C74_message_writable: everything the RFC allows is marshalled and read; C74_extension_only, C74_server_name_only, C74_message_only: nothing else is read. C74_extension_list, C74_message_header: lists of extensions and message headers. Numbers: C74_message_numbers, C74_extension_numbers_partial. Fails: C74_unknown_group_fails (a key share of a group the library does not know makes the whole extension unreadable), C74_ticket_early_data_fails (the early data limit of a ticket has number 46 instead of 42).",
 "C75": "The format is written down in Spec/RecordWire.lean. C75_plain, C75_protected: records that are written; C75_read: protected records that are read; C75_version_ignored. C75_client, C75_server_partial: every turn of a client or a server in a handshake, in any network, writes records of version 0x0303, except for the record of HelloRetryRequest, which has 0x0301 (C75_retry_version_fails). C75_established: the same after the handshake, for all calls. C75_datagram_plain; C75_datagram_protected_partial: protected DTLS records have the header and nonce of DTLS 1.2, not those of RFC 9147. Fails: C75_change_cipher_spec_fails (must be dropped, is an error), C75_datagram_version_fails (a DTLS server panics when it writes anything before the version is set, such as HelloRetryRequest). C75_reset: records after ResetClear.",
 "C76": "Two directions. What an alert means: for every state, C76_*_refused say which facts about the message hold when an alert comes back (Spec/AlertCodes.lean has the numbers and what it is to decode). What is answered: C76_unexpected_client_partial, C76_unexpected_server_partial (wrong type), C76_undecodable_client_partial, C76_undecodable_server (does not decode), C76_early_data_mac. Where the code deviates from RFC 8446 there is a theorem about all such cases: C76_wrong_finished_fails and C76_bad_signature_fails (handshake_failure instead of decrypt_error), C76_undecodable_server_hello_fails (unexpected_message instead of decode_error), C32_server_hello_trailing_fails (bytes after a ServerHello are ignored), C76_server_hello_choice_fails, C76_unknown_type_fails, C76_request_without_algorithms_fails, C76_other_records_fails (close_notify for records that do not decrypt or are not handshake messages), C76_not_sent_fails (the alert of a failed transition is returned to the application and not sent).",
 "C77": "For every history of an end (records, frames, timers, key changes, ends of flights) every ACK lists the first 149 handshake records that arrived in the current flight (C77_truthful, C77_only_what_arrived), in the format of RFC 9147 with 8-byte numbers, and the peer reads these numbers from it (C77_ack_sent, C77_ack_not_refused); when one is sent: C77_armed, C77_timer, C77_final_flight. Two ends together, down to the records on the wire: C77_given_up_only_if_received_partial, C77_number_protected (missing: flights under several keys, where C23_mixed_keys_fails, and records in the clear). What fails: records in the clear are all acknowledged as number 0 (C77_clear_number_fails), so a part of a message that was lost can count as acknowledged, and is never sent again (C77_lost_fragment_fails); after 149 records the later ones are never acknowledged (C77_too_many_fails); the ACK timer of a server that has not accepted a ClientHello crashes it (C77_ack_too_early_fails); a repeated last flight is not acknowledged again (C77_repeated_flight_fails); records are up to 1230 bytes, above the assumed MTU of 1200 (C77_mtu_fails; C77_datagram_size is the bound).",
 "C78": "Flights of messages that need no fragments, sent and resent under one key: what arrives, through the record layer and the reassembly, comes out as it was queued (C78_flight_arrives_partial); all that arrived comes out after a bounded number of reads (C78_all_returned_partial); and a flight that is given up as received is returned completely (C78_given_up_returned_partial). Missing: fragmented messages, where the code fails even without loss: of two messages of 1189 bytes the second comes out with the last byte of the first (C78_fragmented_fails).",
 "C79": "C79_reads_partial: Read returns the data of what arrives, in the order of arrival, for any mixture of data, repetitions, records of other epochs, warning alerts, tickets, and key updates that ask for no answer and come before the data under the new keys. C79_to_server_partial, C79_to_client_partial: from the peer's Writes after a handshake, over any selection of the datagrams, to the Reads. Missing: key updates that ask for an answer, acknowledgements. Fails: C79_rejected_fails (one forged record makes Read fail), C79_unacknowledged_fails (KeyUpdate and NewSessionTicket are never acknowledged), C79_lost_update_fails (after a lost KeyUpdate nothing that is written is read), C79_second_update_fails and C79_third_update_fails (all generations of keys after the first have epoch 4: KeyUpdates sent again make Read fail, on a perfect network), C79_large_ticket_fails (a ticket longer than one record is lost and makes Read fail). C79_update_to_server_partial, C79_update_to_client_partial: end to end with Writes on both sides of one key update, any deliveries. C79_repeated_to_server_partial, C79_repeated_to_client_partial: the same with timers of the sender that expire: a lost key update is sent again under the old keys and takes effect when a copy arrives.",
 "C80": "C80_stream_partial, C80_datagrams_partial: for every suite, every content of the transport and every sequence of calls, all calls return unless the record numbers of some key are used up (the counter then panics by design, C63). The hypothesis left: the AEAD opens no plaintext that consists of zeros only. Fails: C80_zeros_fails, C80_zeros_datagram_fails: a peer that protects a record of zeros crashes the program (record-layer.go:288), where RFC 8446 section 5.4 wants unexpected_message.",
 "C81": "C81_opened: without assumptions on the AEAD or the peer, what Reads return is the data of arriving records that open under the keys of their generation with the nonce of their header, in order of arrival, each once, generations in order. C81_to_server, C81_to_client: two ends after a handshake, any calls at both, any deliveries to both; hypothesis NoForgedRecord (authenticity of the AEAD for the records that arrive). That a repeated datagram is read again is C63 and C79.",
 "C82": "C82_alert_partial: alerts arriving in protected records; code 254 (the number the code itself uses for a transport that would block) excluded, as are warnings other than close_notify. C82_own_alert_fails: the two bytes of an alert are written in the wrong order (C52), so that the peer takes a fatal alert for the end of the connection in good order. C82_closed, C82_after_alert: any calls after Close or a fatal alert. C82_ticket_partial: a ticket that fits in one record (larger ones are lost: C79_large_ticket_fails), the first thing sent; hypothesis that both ends have the same resumption secret and protocol (for TLS: C66).",
 "C83": "C83_client_reads, C83_server_reads, C83_server_sends, C83_server_messages: all runs. C83_client_sends_partial, C83_client_messages_partial: all runs, but epoch 2 may be installed twice and EndOfEarlyData sent in it (C83_repeats_fails: early data granted that was not offered). C83_updates_fails: every key update installs epoch 4, where RFC 9147 takes the next epoch each time. The record layer's own use of epochs: C18, C79.",
 "C84": "C84_write: every sequence of calls and failures. C84_offer: the first call, exactly when writing becomes possible. C84_failure_fails, C84_failure_case_fails: after Handshake has failed the client may still write early data.",
 "C85": "C85_secrets: any two completed ends, any two of the secrets they hold. C85_purposes: the secrets of one connection. C85_exported: values of ComputeExporter at least as long as a digest. C85_views: every completed run is covered. Messages are framed, and the cookies of a server hold hashes.",
 "C86": "C86_server: a client without PSK. C86_client: a server that reports certificates. Each is a reduction: the run sought is among the runs that use the key, or the signature is not one of theirs (Forged), or two transcripts they signed collide. Equal handshake secrets for the client's side need key agreement to work and one share per group. C86_signs: the runs do sign. Messages are framed, and the cookies of a server hold hashes. Replays of whole runs are not excluded: that is up to the randoms.",
 "C87": "The whole stack below Handshake in non-blocking mode, from a new connection, for any history of calls and arrivals. Fails: six bytes in the clear, an alert record of one byte, crash every server and a waiting client. Missing besides: records of zeros the AEAD accepts (only the peer makes them), messages that crash a state machine (C45), more than 2^48-2 records under one key, and that a server which refuses early data stops skipping. Writes to the transport do not fail.",
 "C88": "Nothing is remembered of accepted hellos, so early data can be replayed. C88_window_partial: with tickets younger than 2^32 ms, only within 10 seconds and a millisecond. External PSKs have no limit (C88_external_fails), and the age wraps (C88_old_ticket_fails). The caches of the two servers are assumed equal.",
 "C89": "C89_choice_partial: without a PSK for the server's name; up to collisions of the hash function or HMAC. The suite after HelloRetryRequests is C89_suite: it is the best too if the server accepts no cookies but those made from a hello (C89_cookies: those it gives out are such). C89_psk: with a PSK, the group is the best, unless the PSK is used alone, which needs a mode of the client's that allows it; the suite and the protocol are those of the PSK. The suite of the PSK is taken even if the server is not configured for it (C89_psk_suite_fails).",
 "C90": "C90_client and C90_server: the number of the state is a function of the messages read and sent (Spec/Stage.lean), for every execution of the state machines, except that a server that refused early data stays in ReadPastEarlyData. C90_conn: the same of a Conn between calls of Handshake, with the three states in between that a non-blocking Handshake can return in.",
 "C91": "C91_agree, C91_share, C91_size, C91_primes: as stated; primes by the formula with e in RFC 7919. C91_works: what other theorems assume of key agreement (DhWorks) is true of these groups. Shares are not validated (RFC 8446, 4.2.8.1): with the share 0 or 1 the secret is 0 or 1 (C91_range_fails); likewise the all-zero result of X25519 (C91_zero_fails). That the primes are prime is not proved.",
 "C92": "C92_made, C92_refused: as stated, given that the libraries generate keys and make certificates that parse (Spec/SelfSigned.lean). C92_usable_partial: the certificate can be used if the client does not offer SHA-1 and, for ECDSA, no other ECDSA scheme; by C42 such a handshake completes. It cannot be made for PSS (C92_pss_fails), a certificate for P-384 or P-521 cannot be used with the schemes clients offer by default (C92_default_fails), and one for SHA-1 can be made but not used (C92_sha1_fails).",
 "C93": "C93_parsed, C93_sent: as stated; with an identity put in twice, the first binder. An extension filled in by hand with fewer binders than identities crashes, and is not refused when it is written (C93_unequal_fails, C31_psk_count_fails).",
 "C94": "C94_to_server, C94_hello_to_client, C94_to_client: what the handlers are given, and that an error of theirs is internal_error. C94_server_blind, C94_client_blind, C94_client_blind_encrypted: nothing read from a message depends on extensions of other types than those looked at; C94_server_same: without a PSK, whose binder covers the whole message, the whole state of the server after negotiation is the same but for the message kept for the transcript; for the ServerHello it is assumed that both messages are taken, since the keys, which depend on the whole message, are derived in the same step. Fails for HelloRetryRequest (C94_retry_fails): a client aborts if there are not exactly two extensions. The handlers are functions of the message type and the list.",
 "C95": "C95_alerts, C95_suites, C95_states: the texts are injective. C95_unnamed: values without a name show their number.",
 "C96": "C96_logged, C96_silent: as stated. That the library writes to no other place is read off the source (log.go:25 is the only use of a printing function outside tests), not proved."
}