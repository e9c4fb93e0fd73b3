# Axioms of each theorem

Generated by tools/axioms.py from `#print axioms`.

## none

* Verif.Negotiation.C28_early_data
* Verif.Crypto.C34_long_label_fails
* Verif.Crypto.C34_long_output_fails
* Verif.Props.C34_labels_used_distinct
* Verif.Crypto.C35_not_connected
* Verif.Conn.C54_shared_cache_fails
* Verif.Conn.C65_accept_fails
* Verif.Messages.C74_extension_numbers_partial
* Verif.Messages.C74_ticket_early_data_fails
* Verif.Messages.C74_message_numbers
* Verif.Props.C76_numbers

## propext

* Verif.Syntax.C06_crash_fails
* Verif.Handshake.C20_next_message_fails
* Verif.Handshake.C20_interleaved_fails
* Verif.Handshake.C22_short_alert_fails
* Verif.Handshake.C22_fragment_range_fails
* Verif.Negotiation.C26_invalid_point_fails
* Verif.Negotiation.C27_age_wraps_fails
* Verif.Negotiation.C28_unknown_mode_fails
* Verif.Negotiation.C29_wrong_curve_fails
* Verif.Conn.C54_valid_server_fails
* Verif.Conn.C54_valid_client
* Verif.Conn.C55_nil
* Verif.Handshake.C61_dtls_queue_fails
* Verif.Conn.C65_host_partial
* Verif.Conn.C65_accept
* Verif.Props.C91_zero_fails
* Verif.Props.C93_unequal_fails

## Quot.sound, propext

* Verif.Syntax.C02_headless_depends_on_suffix
* Verif.Syntax.C03_encode_accepts
* Verif.Syntax.C05_varint_field_fails
* Verif.Syntax.C06_marshal_safe
* Verif.Syntax.C06_hang_fails
* Verif.Syntax.C08_marshal_validates
* Verif.Syntax.C08_unmarshal_validates
* Verif.Record.C11_frames_tile_stream
* Verif.Record.C13_exhaustion_stops
* Verif.Record.C13_number_consumed
* Verif.Record.C15_oversize_refused
* Verif.Record.C15_write_accepts_partial
* Verif.Record.C15_full_fragment_fails
* Verif.Record.C16_zero_plaintext_fails
* Verif.Record.C17_peek_any_epoch_fails
* Verif.Record.C18_unknown_epoch_refused
* Verif.Record.C18_current_epoch_keys_partial
* Verif.Record.C18_old_epoch_fails
* Verif.Record.C18_discard
* Verif.Handshake.C19_oversize_refused_partial
* Verif.Handshake.C23_numbers_unique
* Verif.Timer.C24_pending_timer_lost_fails
* Verif.Timer.C24_cancel_in_callback_fails
* Verif.Negotiation.C25_first_supported
* Verif.Negotiation.C25_fails_iff_disjoint
* Verif.Negotiation.C27_identities_not_confused
* Verif.Negotiation.C28_suite_with_psk_partial
* Verif.Negotiation.C28_psk_suite_fails
* Verif.Messages.C30_add_replaces
* Verif.Messages.C30_add_total
* Verif.Messages.C31_versions_dropped_fails
* Verif.Messages.C31_dtls_client_hello_fails
* Verif.Messages.C33_last_extension
* Verif.Messages.C33_session_id_fails
* Verif.Crypto.C34_prefix
* Verif.Crypto.C35_inputs_separate
* Verif.Crypto.C36_roundtrip
* Verif.Crypto.C36_authentic
* Verif.Crypto.C36_safe
* Verif.Props.C39_require_client_auth_fails
* Verif.Props.C40_client_complete_fails
* Verif.Props.C40_server_reject_fails
* Verif.Props.C40_server_complete_fails
* Verif.Props.C42_psk_with_cookie_fails
* Verif.Props.C42_datagram_cookie_fails
* Verif.Props.C42_forgotten_psk_fails
* Verif.Props.C42_other_curve_fails
* Verif.Props.C43_one_retry_fails
* Verif.Machine.C45_empty_certificate_fails
* Verif.Machine.C45_client_point_fails
* Verif.Machine.C45_retry_suite_fails
* Verif.Machine.C45_cookie_fails
* Verif.Machine.C45_server_point_fails
* Verif.Props.C46_refused_completes_fails
* Verif.Props.C49_history
* Verif.Props.C50_write_partial
* Verif.Props.C50_write_fails
* Verif.Props.C51_unusable_partial
* Verif.Props.C51_success
* Verif.Props.C51_failure_partial
* Verif.Props.C51_mute_partial
* Verif.Props.C51_sticky_fails
* Verif.Props.C51_ticket_fails
* Verif.Props.C51_run
* Verif.Props.C51_recovery_fails
* Verif.Props.C51_ticket_case_fails
* Verif.Props.C52_decode_fails
* Verif.Props.C52_handshake_decode_fails
* Verif.Props.C52_decode_partial
* Verif.Props.C52_would_block_fails
* Verif.Props.C52_sender_partial
* Verif.Props.C52_receiver_fails
* Verif.Props.C53_update_fails
* Verif.Props.C53_alert_fails
* Verif.Props.C53_sealed_fails
* Verif.Props.C53_solo
* Verif.Conn.C54_clone_partial
* Verif.Conn.C54_clone_same_partial
* Verif.Conn.C54_clone_fails
* Verif.Conn.C54_clone_independent_partial
* Verif.Conn.C54_init_fills
* Verif.Conn.C54_init_idempotent
* Verif.Conn.C54_valid_server_partial
* Verif.Crypto.C56_transcript
* Verif.Crypto.C56_own_signature
* Verif.Props.C57_expired_psk_fails
* Verif.Syntax.C58_misused_tag_refused
* Verif.Conn.C65_ipv6_fails
* Verif.Conn.C65_outcome
* Verif.Conn.C65_limit_partial
* Verif.Conn.C65_deadline_fails
* Verif.Conn.C65_config_partial
* Verif.Conn.C65_record_layer_fails
* Verif.Conn.C65_udp_fails
* Verif.Conn.C65_connected
* Verif.Conn.C65_listen
* Verif.Conn.C65_listen_fails
* Verif.Conn.C67_calls
* Verif.Conn.C67_ticket_fails
* Verif.Props.C68_long_message_fails
* Verif.Props.C71_default_protector
* Verif.Props.C73_before
* Verif.Props.C73_stable
* Verif.Props.C75_plain
* Verif.Props.C75_version_ignored
* Verif.Props.C75_change_cipher_spec_fails
* Verif.Props.C75_retry_version_fails
* Verif.Props.C75_datagram_version_fails
* Verif.Props.C76_client_finished_refused_partial
* Verif.Props.C76_end_of_early_data_refused
* Verif.Props.C76_client_start
* Verif.Props.C76_server_answer
* Verif.Props.C76_unexpected_client_partial
* Verif.Props.C76_unexpected_server_partial
* Verif.Props.C76_unknown_type_fails
* Verif.Props.C76_other_records_fails
* Verif.Props.C76_early_data_mac
* Verif.Props.C76_not_sent_fails
* Verif.Handshake.C77_armed
* Verif.Handshake.C77_timer
* Verif.Handshake.C77_ack_too_early_fails
* Verif.Handshake.C77_repeated_flight_fails
* Verif.Handshake.C77_mtu_fails
* Verif.Handshake.C77_clear_number_fails
* Verif.Handshake.C78_fragmented_fails
* Verif.Props.C79_second_update_fails
* Verif.Props.C79_third_update_fails
* Verif.Props.C79_large_ticket_fails
* Verif.Props.C80_zeros_fails
* Verif.Props.C80_zeros_datagram_fails
* Verif.Props.C82_closed
* Verif.Props.C82_after_alert
* Verif.Props.C83_client_reads
* Verif.Props.C83_client_sends_partial
* Verif.Props.C83_client_messages_partial
* Verif.Props.C83_updates_fails
* Verif.Props.C84_write
* Verif.Props.C84_offer
* Verif.Props.C84_failure_fails
* Verif.Props.C84_failure_case_fails
* Verif.Props.C87_server_short_alert_fails
* Verif.Props.C87_client_short_alert_fails
* Verif.Props.C88_replay_fails
* Verif.Props.C88_external_fails
* Verif.Props.C88_old_ticket_fails
* Verif.Props.C89_psk_suite_fails
* Verif.Props.C92_made
* Verif.Props.C92_refused
* Verif.Props.C92_pss_fails

## Classical.choice, Quot.sound, propext

* Verif.Syntax.C01_roundtrip
* Verif.Syntax.C02_prefix_determinacy
* Verif.Syntax.C03_encode_limits
* Verif.Syntax.C03_decode_limits
* Verif.Syntax.C04_map_order_independent
* Verif.Syntax.C04_map_sorted
* Verif.Syntax.C05_varint_exact
* Verif.Syntax.C05_varint_field_partial
* Verif.Syntax.C06_unmarshal_safe_partial
* Verif.Syntax.C07_malformed_refused
* Verif.Syntax.C07_no_conflict_partial
* Verif.Syntax.C07_parse_exact_partial
* Verif.Syntax.C07_parse_sound
* Verif.Syntax.C07_conflict_fails
* Verif.Syntax.C07_bad_number_refused
* Verif.Syntax.C09_unambiguous
* Verif.Syntax.C10_canonical
* Verif.Syntax.C10_injective
* Verif.Record.C11_frames_are_prefix
* Verif.Record.C11_frames_complete
* Verif.Record.C11_chunking_independent
* Verif.Record.C12_record_roundtrip
* Verif.Record.C13_nonce_unique
* Verif.Record.C14_tls_integrity
* Verif.Record.C15_read_limit
* Verif.Record.C15_write_limit
* Verif.Record.C16_reads_safe_partial
* Verif.Record.C17_peek_transparent_partial
* Verif.Record.C17_schedules_agree_partial
* Verif.Record.C17_peek_reports_next
* Verif.Record.C18_unknown_epoch_discarded
* Verif.Record.C18_other_epoch_not_read
* Verif.Handshake.C19_fragments
* Verif.Handshake.C19_read_any_mode_partial
* Verif.Handshake.C19_read_blocking_partial
* Verif.Handshake.C19_roundtrip_partial
* Verif.Handshake.C19_max_length_fails
* Verif.Handshake.C20_one_message_partial
* Verif.Handshake.C20_whole_messages_partial
* Verif.Handshake.C21_consecutive
* Verif.Handshake.C21_at_most_once
* Verif.Handshake.C22_reading_safe_partial
* Verif.Handshake.C22_tls_safe_partial
* Verif.Handshake.C23_skipped_only_if_acked_partial
* Verif.Handshake.C23_delivered_only_if_acked_partial
* Verif.Handshake.C23_all_acked_ends_flight_partial
* Verif.Handshake.C23_mixed_keys_fails
* Verif.Timer.C24_safe_once_not_early
* Verif.Timer.C24_fires_only_in_check
* Verif.Timer.C24_cancelled_never_fires_partial
* Verif.Timer.C24_remaining_partial
* Verif.Timer.C24_first_expiry_partial
* Verif.Negotiation.C26_selected_offer
* Verif.Negotiation.C26_none_selected
* Verif.Negotiation.C26_first_usable_partial
* Verif.Negotiation.C27_first_known_decides
* Verif.Negotiation.C27_selected_proves_possession
* Verif.Negotiation.C27_age_partial
* Verif.Negotiation.C28_suite_without_psk
* Verif.Negotiation.C28_alpn
* Verif.Negotiation.C28_psk_mode
* Verif.Negotiation.C28_psk_only_mode_partial
* Verif.Negotiation.C29_selection_partial
* Verif.Negotiation.C29_can_sign_partial
* Verif.Messages.C30_find
* Verif.Messages.C30_add
* Verif.Messages.C30_built_unique
* Verif.Messages.C30_parse_exact
* Verif.Messages.C30_parse_refuses_duplicates
* Verif.Messages.C30_parse_accepts
* Verif.Messages.C30_add_other_sort
* Verif.Messages.C31_extension_roundtrip_partial
* Verif.Messages.C31_psk_count_fails
* Verif.Messages.C31_extension_list_roundtrip
* Verif.Messages.C31_body_roundtrip_partial
* Verif.Messages.C31_client_hello_roundtrip_partial
* Verif.Messages.C31_session_id_fails
* Verif.Props.C32_server_hello_trailing_fails
* Verif.Messages.C32_extension_body_safe
* Verif.Messages.C32_extension_trailing
* Verif.Messages.C32_parse_safe
* Verif.Messages.C32_find_safe
* Verif.Messages.C32_extension_list_safe
* Verif.Messages.C32_body_safe
* Verif.Messages.C32_client_hello_safe
* Verif.Messages.C32_body_trailing
* Verif.Messages.C32_client_hello_trailing
* Verif.Messages.C32_finished_whole
* Verif.Messages.C32_body_canonical
* Verif.Messages.C32_truncated_safe
* Verif.Messages.C33_truncated_partial
* Verif.Messages.C33_binders_do_not_matter
* Verif.Crypto.C34_labels_separate_partial
* Verif.Crypto.C34_labels_distinct
* Verif.Crypto.C34_output
* Verif.Props.C34_labels_used
* Verif.Crypto.C35_value_partial
* Verif.Crypto.C35_rfc_fails
* Verif.Props.C36_key_material
* Verif.Props.C37_server_authenticated_fails
* Verif.Props.C37_certificate_partial
* Verif.Props.C37_psk_partial
* Verif.Props.C38_client
* Verif.Props.C38_server
* Verif.Props.C39_require_client_auth_partial
* Verif.Props.C40_client_complete_partial
* Verif.Props.C40_client_prefix_partial
* Verif.Props.C40_client_reject
* Verif.Props.C40_server_complete_partial
* Verif.Props.C40_server_prefix_partial
* Verif.Props.C40_server_reject_partial
* Verif.Props.C40_server_reject_no_early_data
* Verif.Props.C41_agreement
* Verif.Props.C41_both
* Verif.Props.C41_server_agreement
* Verif.Props.C42_completes_partial
* Verif.Props.C42_reaches_partial
* Verif.Props.C42_repeated_group_fails
* Verif.Props.C43_answer_partial
* Verif.Props.C44_psk_fails
* Verif.Props.C44_alpn_fails
* Verif.Props.C44_early_data_fails
* Verif.Props.C44_suite_fails
* Verif.Props.C44_offered_partial
* Verif.Machine.C45_client_partial
* Verif.Machine.C45_server_partial
* Verif.Props.C46_first_psk_fails
* Verif.Props.C46_same_protocol_fails
* Verif.Props.C46_no_retry_fails
* Verif.Props.C46_refused_never_completes
* Verif.Props.C46_accepted_partial
* Verif.Props.C46_refused_skipped_partial
* Verif.Props.C47_in_step
* Verif.Props.C47_update_possible
* Verif.Props.C48_same_psk
* Verif.Props.C48_distinct_nonces
* Verif.Props.C49_to_server_partial
* Verif.Props.C49_to_client_partial
* Verif.Props.C49_all_to_server
* Verif.Props.C49_all_to_client
* Verif.Props.C49_write_reports
* Verif.Props.C49_after_eof_fails
* Verif.Props.C53_locked
* Verif.Props.C53_calm_partial
* Verif.Props.C54_material_needed
* Verif.Conn.C55_map
* Verif.Conn.C55_put
* Verif.Crypto.C56_server_partial
* Verif.Crypto.C56_client_fails
* Verif.Props.C57_expiry_partial
* Verif.Syntax.C59_map_keys_distinct
* Verif.Syntax.C59_last_entry_wins
* Verif.Props.C60_client_clear
* Verif.Props.C60_server_clear
* Verif.Props.C60_client_partial
* Verif.Props.C60_server
* Verif.Props.C60_client_sends_fails
* Verif.Handshake.C61_tls_partial
* Verif.Handshake.C61_tls_refused
* Verif.Props.C62_required
* Verif.Props.C62_refused
* Verif.Props.C62_issued
* Verif.Props.C62_default
* Verif.Record.C63_authentic_partial
* Verif.Record.C63_application_partial
* Verif.Record.C63_replay_fails
* Verif.Record.C63_unprotected_fails
* Verif.Record.C64_independent_partial
* Verif.Record.C64_truncated_fails
* Verif.Props.C66_client_partial
* Verif.Props.C66_server_partial
* Verif.Props.C66_retry_fails
* Verif.Props.C66_share_fails
* Verif.Props.C66_update_fails
* Verif.Conn.C67_delivered_partial
* Verif.Props.C68_no_failure_partial
* Verif.Props.C68_connects_partial
* Verif.Props.C68_long_chain_fails
* Verif.Props.C69_to_server_partial
* Verif.Props.C69_server_completes_partial
* Verif.Props.C69_to_client_partial
* Verif.Props.C69_prefix_to_server_partial
* Verif.Props.C69_prefix_to_client_partial
* Verif.Props.C70_cache
* Verif.Props.C70_resumable_partial
* Verif.Props.C70_resumes_partial
* Verif.Props.C70_no_protocol_fails
* Verif.Props.C71_completes_partial
* Verif.Props.C71_reaches_partial
* Verif.Props.C71_datagram_fails
* Verif.Props.C71_shared_psk_fails
* Verif.Props.C72_to_server_partial
* Verif.Props.C72_to_client_partial
* Verif.Props.C72_cut_fails
* Verif.Props.C72_close_fails
* Verif.Props.C73_client
* Verif.Props.C73_server
* Verif.Props.C73_complete
* Verif.Props.C73_same
* Verif.Props.C73_server_chains_fails
* Verif.Props.C73_exporter
* Verif.Props.C73_exporter_later
* Verif.Props.C74_retry_random
* Verif.Messages.C74_extension_written
* Verif.Messages.C74_extension_accepted_partial
* Verif.Messages.C74_extension_only
* Verif.Messages.C74_server_name_only
* Verif.Messages.C74_unknown_group_fails
* Verif.Messages.C74_extension_list
* Verif.Messages.C74_message_written
* Verif.Messages.C74_message_writable
* Verif.Messages.C74_message_accepted
* Verif.Messages.C74_message_only
* Verif.Messages.C74_message_header
* Verif.Props.C75_protected
* Verif.Props.C75_read
* Verif.Props.C75_client
* Verif.Props.C75_server_partial
* Verif.Props.C75_established
* Verif.Props.C75_datagram_plain
* Verif.Props.C75_datagram_protected_partial
* Verif.Props.C75_reset
* Verif.Props.C76_server_hello_refused_partial
* Verif.Props.C76_encrypted_extensions_refused
* Verif.Props.C76_certificate_request_refused_partial
* Verif.Props.C76_certificate_refused
* Verif.Props.C76_certificate_verify_refused_partial
* Verif.Props.C76_client_certificate_refused
* Verif.Props.C76_client_certificate_verify_refused_partial
* Verif.Props.C76_finished_refused_partial
* Verif.Props.C76_connected_refused_partial
* Verif.Props.C76_client_hello_refused_partial
* Verif.Props.C76_undecodable_client_partial
* Verif.Props.C76_undecodable_server
* Verif.Props.C76_wrong_finished_fails
* Verif.Props.C76_bad_signature_fails
* Verif.Props.C76_undecodable_server_hello_fails
* Verif.Props.C76_server_hello_choice_fails
* Verif.Props.C76_request_without_algorithms_fails
* Verif.Handshake.C77_truthful
* Verif.Handshake.C77_only_what_arrived
* Verif.Handshake.C77_ack_sent
* Verif.Handshake.C77_ack_not_refused
* Verif.Handshake.C77_final_flight
* Verif.Handshake.C77_too_many_fails
* Verif.Handshake.C77_datagram_size
* Verif.Handshake.C77_number_protected
* Verif.Handshake.C77_given_up_only_if_received_partial
* Verif.Handshake.C77_lost_fragment_fails
* Verif.Handshake.C78_flight_arrives_partial
* Verif.Handshake.C78_all_returned_partial
* Verif.Handshake.C78_given_up_returned_partial
* Verif.Props.C79_reads_partial
* Verif.Props.C79_unacknowledged_fails
* Verif.Props.C79_to_server_partial
* Verif.Props.C79_to_client_partial
* Verif.Props.C79_rejected_fails
* Verif.Props.C79_lost_update_fails
* Verif.Props.C79_repeated_to_server_partial
* Verif.Props.C79_repeated_to_client_partial
* Verif.Props.C79_update_to_server_partial
* Verif.Props.C79_update_to_client_partial
* Verif.Props.C80_stream_partial
* Verif.Props.C80_datagrams_partial
* Verif.Props.C81_opened
* Verif.Props.C81_to_server
* Verif.Props.C81_to_client
* Verif.Props.C82_alert_partial
* Verif.Props.C82_own_alert_fails
* Verif.Props.C82_ticket_partial
* Verif.Props.C83_server_reads
* Verif.Props.C83_server_sends
* Verif.Props.C83_server_messages
* Verif.Props.C83_repeats_fails
* Verif.Props.C85_secrets
* Verif.Props.C85_views
* Verif.Props.C85_purposes
* Verif.Props.C85_exported
* Verif.Props.C86_server
* Verif.Props.C86_client
* Verif.Props.C86_signs
* Verif.Props.C87_client_partial
* Verif.Props.C87_server_partial
* Verif.Props.C88_window_partial
* Verif.Props.C89_choice_partial
* Verif.Props.C89_psk
* Verif.Props.C89_suite
* Verif.Props.C89_cookies
* Verif.Props.C90_client
* Verif.Props.C90_server
* Verif.Props.C90_conn
* Verif.Props.C91_share
* Verif.Props.C91_size
* Verif.Props.C91_agree
* Verif.Props.C91_works
* Verif.Props.C91_range_fails
* Verif.Props.C91_primes
* Verif.Props.C92_usable_partial
* Verif.Props.C92_default_fails
* Verif.Props.C92_sha1_fails
* Verif.Props.C93_parsed
* Verif.Props.C93_sent
* Verif.Props.C94_to_server
* Verif.Props.C94_hello_to_client
* Verif.Props.C94_to_client
* Verif.Props.C94_server_blind
* Verif.Props.C94_server_same
* Verif.Props.C94_client_blind
* Verif.Props.C94_client_blind_encrypted
* Verif.Props.C94_retry_fails
* Verif.Props.C95_alerts
* Verif.Props.C95_suites
* Verif.Props.C95_states
* Verif.Props.C95_unnamed
* Verif.Props.C96_logged
* Verif.Props.C96_silent
