# Axioms of the claimed theorems

Generated by tools/axioms.py.

| theorem | axioms |
|---|---|
| `Verif.Props.C01_align32` | [propext, Classical.choice, Quot.sound] |
| `Verif.Props.C01_align16` | [propext, Classical.choice, Quot.sound] |
| `Verif.Props.C01_sizes` | [propext, Classical.choice, Quot.sound] |
| `Verif.Props.Log.C01_align16_log` | [propext, Classical.choice, Quot.sound] |
| `Verif.Props.C02_roundtrip` | [propext, Quot.sound] |
| `Verif.Props.C02_kernel_reads` | [propext, Quot.sound] |
| `Verif.Props.C02_inplace` | [propext, Quot.sound] |
| `Verif.Props.C02_short` | [propext, Quot.sound] |
| `Verif.Props.C02_parse_then_serialize` | [propext, Quot.sound] |
| `Verif.Props.C03_wire` | [propext, Quot.sound] |
| `Verif.Props.C03_inplace` | [propext, Quot.sound] |
| `Verif.Props.C03_roundtrip` | [propext, Quot.sound] |
| `Verif.Props.C03_parse_crash_iff` | [propext, Quot.sound] |
| `Verif.Props.C04_attr` | [propext, Classical.choice, Quot.sound] |
| `Verif.Props.C04_nested` | [propext, Classical.choice, Quot.sound] |
| `Verif.Props.C04_padding` | [propext, Quot.sound] |
| `Verif.Props.C04_header` | [propext, Quot.sound] |
| `Verif.Props.C04_bare_header` | [propext, Quot.sound] |
| `Verif.Props.C04_attr_wire` | [propext, Quot.sound] |
| `Verif.Props.C05_parse_encode` | [propext, Classical.choice, Quot.sound] |
| `Verif.Props.C05_shares_buffer` | [propext, Classical.choice, Quot.sound] |
| `Verif.Props.C06_bad_attr_iff` | [propext, Classical.choice, Quot.sound] |
| `Verif.Props.C06_inside` | [propext, Classical.choice, Quot.sound] |
| `Verif.Props.C07_returns_iff_partial` | [propext, Classical.choice, Quot.sound] |
| `Verif.Props.C07_returns_partial` | [propext, Classical.choice, Quot.sound] |
| `Verif.Props.C07_loops_forever` | [propext, Classical.choice, Quot.sound] |
| `Verif.Props.C07_crashes` | [propext, Classical.choice, Quot.sound] |
| `Verif.Props.C08_int_roundtrip` | [propext, Quot.sound] |
| `Verif.Props.C08_ip_roundtrip` | [propext, Quot.sound] |
| `Verif.Props.C08_16` | [propext, Quot.sound] |
| `Verif.Props.C08_crash_iff` | [propext, Classical.choice, Quot.sound] |
| `Verif.Props.C09_error` | [propext, Quot.sound] |
| `Verif.Props.C09_short` | [propext, Quot.sound] |
| `Verif.Props.C09_crash_iff` | [propext, Quot.sound] |
| `Verif.Props.C10_values` | [propext, Quot.sound] |
| `Verif.Props.C10_inplace` | [propext, Quot.sound] |
| `Verif.Props.C11_retry_once` | [propext] |
| `Verif.Props.C11_single` | [propext, Quot.sound] |
| `Verif.Props.C11_send_once` | [propext, Classical.choice, Quot.sound] |
| `Verif.Props.C12_requests` | [propext, Classical.choice, Quot.sound] |
| `Verif.Props.Log.C13_nflog_no_socket` | [propext, Quot.sound] |
| `Verif.Props.C13_no_socket` | [propext, Quot.sound] |
| `Verif.Props.C14_nil_iff_acked` | [propext, Classical.choice, Quot.sound] |
| `Verif.Props.C14_returns` | [propext, Classical.choice, Quot.sound] |
| `Verif.Props.C15_started` | [propext, Classical.choice, Quot.sound] |
| `Verif.Props.C15_error_no_reader` | [propext, Classical.choice, Quot.sound] |
| `Verif.Props.C15_starts` | [propext, Classical.choice, Quot.sound] |
| `Verif.Props.C15_returns` | [propext, Classical.choice, Quot.sound] |
| `Verif.Props.Log.C16_nflog_closed_partial` | [propext, Classical.choice, Quot.sound] |
| `Verif.Props.Log.C16_nflog_bind_failure_leaks` | [propext, Quot.sound] |
| `Verif.Props.C16_closed_partial` | [propext, Classical.choice, Quot.sound] |
| `Verif.Props.C16_bind_failure_leaks` | [propext, Quot.sound] |
| `Verif.Props.C16_success_keeps_open` | [propext, Classical.choice, Quot.sound] |
| `Verif.Props.C17_verdict2_partial` | [propext, Classical.choice, Quot.sound] |
| `Verif.Props.C17_empty_crashes` | [propext, Classical.choice, Quot.sound] |
| `Verif.Props.C17_too_long` | [propext, Quot.sound] |
| `Verif.Props.C18_verdict_partial` | [propext, Classical.choice, Quot.sound] |
| `Verif.Props.C18_inexact` | [propext, Classical.choice, Quot.sound] |
| `Verif.Props.C18_empty_crashes` | [propext, Classical.choice, Quot.sound] |
| `Verif.Props.C19_history_free` | [propext, Classical.choice, Quot.sound] |
| `Verif.Props.C20_steps_are_the_calls` | [propext, Quot.sound] |
| `Verif.Props.C20_no_mixing_partial` | [propext, Classical.choice, Quot.sound] |
| `Verif.Props.C20_completes` | [propext, Classical.choice, Quot.sound] |
| `Verif.Props.C20_verdict2_mixes` | [propext, Quot.sound] |
| `Verif.Props.C20_lock_completes` | [propext, Classical.choice, Quot.sound] |
| `Verif.Props.C20_verdict2_mixes_violated` | [propext, Classical.choice, Quot.sound] |
| `Verif.Props.C21_id_roundtrip` | [propext, Classical.choice, Quot.sound] |
| `Verif.Props.C21_id_roundtrip_v1` | [propext, Classical.choice, Quot.sound] |
| `Verif.Props.C22_own_contents_partial` | [propext, Classical.choice, Quot.sound] |
| `Verif.Props.C22_stale` | [propext, Classical.choice, Quot.sound] |
| `Verif.Props.C22_missing_mark_violated` | [propext, Classical.choice, Quot.sound] |
| `Verif.Props.C22_unmarked_partial` | [propext, Classical.choice, Quot.sound] |
| `Verif.Props.C23_delivery` | [propext, Classical.choice, Quot.sound] |
| `Verif.Props.C23_from_start` | [propext, Classical.choice, Quot.sound] |
| `Verif.Props.C24_only_good_partial` | [propext, Classical.choice, Quot.sound] |
| `Verif.Props.C24_no_error_callback` | [propext, Classical.choice, Quot.sound] |
| `Verif.Props.C25_stops` | [propext, Classical.choice, Quot.sound] |
| `Verif.Props.C25_at_most_one` | [propext, Classical.choice, Quot.sound] |
| `Verif.Props.C26_recv_returns_iff_partial` | [propext, Classical.choice, Quot.sound] |
| `Verif.Props.C26_loop_never_crashes_partial` | [propext, Classical.choice, Quot.sound] |
| `Verif.Props.C26_short_crashes` | [propext, Classical.choice, Quot.sound] |
| `Verif.Props.C27_verdict2_memory` | [propext, Classical.choice, Quot.sound] |
| `Verif.Props.C27_verdict_memory` | [propext, Classical.choice, Quot.sound] |
| `Verif.Props.C28_verdict2` | [propext, Classical.choice, Quot.sound] |
| `Verif.Props.C28_verdict_partial` | [propext, Classical.choice, Quot.sound] |
| `Verif.Props.C28_verdict_overread` | [propext, Quot.sound] |
| `Verif.Props.C28_overread_violated` | [propext, Classical.choice, Quot.sound] |
| `Verif.Props.C29_stop` | [propext, Classical.choice, Quot.sound] |
| `Verif.Props.C29_stop_unopened` | [propext, Quot.sound] |
| `Verif.Props.Log.C30_requests` | [propext, Classical.choice, Quot.sound] |
| `Verif.Props.Log.C30_nil_iff_all_acked` | [propext, Classical.choice, Quot.sound] |
| `Verif.Props.Log.C30_returns` | [propext, Classical.choice, Quot.sound] |
| `Verif.Props.Log.C30_short_reply_crashes` | [propext, Classical.choice, Quot.sound] |
| `Verif.Props.Log.C31_violated` | [propext, Quot.sound] |
| `Verif.Props.Log.C32_outcomes` | [propext, Classical.choice, Quot.sound] |
| `Verif.Props.Log.C32_started_iff` | [propext, Classical.choice, Quot.sound] |
| `Verif.Props.Log.C32_failure_closes` | [propext, Classical.choice, Quot.sound] |
| `Verif.Props.Log.C32_success_keeps_open` | [propext, Classical.choice, Quot.sound] |
| `Verif.Props.Log.C32_starts` | [propext, Classical.choice, Quot.sound] |
| `Verif.Props.Log.C33_parsing_a_message_ends` | [propext, Classical.choice, Quot.sound] |
| `Verif.Props.Log.C34_message_delivered` | [propext, Classical.choice, Quot.sound] |
| `Verif.Props.Log.C35_last_byte_partial` | [propext, Classical.choice, Quot.sound] |
| `Verif.Props.Log.C35_violated` | [propext, Classical.choice, Quot.sound] |
| `Verif.Props.Log.C35_empty_last_violated` | [propext, Classical.choice, Quot.sound] |
| `Verif.Props.Log.C36_hang_set` | [propext, Classical.choice, Quot.sound] |
| `Verif.Props.Log.C36_parsing_a_datagram_ends_partial` | [propext, Classical.choice, Quot.sound] |
| `Verif.Props.Log.C36_violated` | [propext, Classical.choice, Quot.sound] |
| `Verif.Props.Log.C37_datagram_delivered` | [propext, Classical.choice, Quot.sound] |
| `Verif.Props.Log.C37_stops_at_truncated` | [propext, Classical.choice, Quot.sound] |
| `Verif.Props.Log.C37_stops_at_rejected` | [propext, Classical.choice, Quot.sound] |
| `Verif.Props.Log.C38_turns` | [propext, Classical.choice, Quot.sound] |
| `Verif.Props.Log.C38_reports_and_stops` | [propext, Classical.choice, Quot.sound] |
| `Verif.Props.Log.C38_runs_well_formed` | [propext, Classical.choice, Quot.sound] |
| `Verif.Props.Ct.C39_mark_update` | [propext, Classical.choice, Quot.sound] |
| `Verif.Props.Ct.C39_unambiguous` | [propext, Quot.sound] |
| `Verif.Props.Ct.C39_returns` | [propext, Classical.choice, Quot.sound] |
| `Verif.Props.Ct.C39_succeeds` | [propext, Classical.choice, Quot.sound] |
| `Verif.Props.Ct.C40_label_update_partial` | [propext, Classical.choice, Quot.sound] |
| `Verif.Props.Ct.C40_tcp_flags_violated` | [propext, Classical.choice, Quot.sound] |
| `Verif.Props.Ct.C40_unambiguous` | [propext, Quot.sound] |
| `Verif.Props.Ct.C41_exact_partial` | [propext, Classical.choice, Quot.sound] |
| `Verif.Props.Ct.C41_ipv6_violated` | [propext, Classical.choice, Quot.sound] |
| `Verif.Props.Ct.C41_compares_last_four_bytes` | [propext, Quot.sound] |
| `Verif.Props.Ct.C41_short_address_crashes` | [propext, Quot.sound] |
| `Verif.Props.Ct.C42_bulk_mark` | [propext, Classical.choice, Quot.sound] |
| `Verif.Props.Ct.C42_mark_zero` | [propext, Classical.choice, Quot.sound] |
| `Verif.Props.Ct.C42_returns` | [propext, Classical.choice, Quot.sound] |
| `Verif.Props.Ct.C42_all_acknowledged` | [propext, Classical.choice, Quot.sound] |
| `Verif.Props.Ct.C42_either_family` | [propext, Classical.choice, Quot.sound] |
| `Verif.Props.Ct.C42_mark_zero_either_family` | [propext, Quot.sound] |
| `Verif.Props.Ct.C42_returns_either_family` | [propext, Classical.choice, Quot.sound] |
| `Verif.Props.Ct.C42_resembling_v4` | [propext] |
| `Verif.Props.Ct.C42_all_acknowledged_either_family` | [propext, Classical.choice, Quot.sound] |
| `Verif.Props.Ct.C43_bulk_label` | [propext, Classical.choice, Quot.sound] |
| `Verif.Props.Ct.C43_returns` | [propext, Classical.choice, Quot.sound] |
| `Verif.Props.Ct.C43_all_acknowledged` | [propext, Classical.choice, Quot.sound] |
| `Verif.Props.Ct.C43_either_family` | [propext, Classical.choice, Quot.sound] |
| `Verif.Props.Ct.C43_returns_either_family` | [propext, Classical.choice, Quot.sound] |
| `Verif.Props.Ct.C43_all_acknowledged_either_family` | [propext, Classical.choice, Quot.sound] |
| `Verif.Props.Ct.C44_one_socket_partial` | [propext, Classical.choice, Quot.sound] |
| `Verif.Props.Ct.C44_bulk_sockets_partial` | [propext, Classical.choice, Quot.sound] |
| `Verif.Props.Ct.C44_no_socket_violated` | [propext, Quot.sound] |
| `Verif.Props.Ct.C44_bulk_sockets_either_family_partial` | [propext, Classical.choice, Quot.sound] |
| `Verif.Props.Ct.C45_invalid_address_violated` | [propext, Quot.sound] |
| `Verif.Props.Ct.C45_bulk_violated` | [propext, Quot.sound] |
| `Verif.Props.Ct.C46_entries` | none |
| `Verif.Props.Ct.C46_error` | none |
| `Verif.Props.Ct.C46_flush` | none |
| `Verif.Packet.C47_ipv4_fields` | [propext, Classical.choice, Quot.sound] |
| `Verif.Packet.C47_id_text` | [propext, Classical.choice, Quot.sound] |
| `Verif.Packet.C48_ipv6_fields` | [propext, Classical.choice, Quot.sound] |
| `Verif.Packet.C49_length_validation` | [propext, Classical.choice, Quot.sound] |
| `Verif.Packet.C49_example` | [propext, Quot.sound] |
| `Verif.Packet.C50_accept_set` | [propext, Classical.choice, Quot.sound] |
| `Verif.Packet.C50_crash_set` | [propext, Classical.choice, Quot.sound] |
| `Verif.Packet.C50_parsing_ends` | [propext, Classical.choice, Quot.sound] |
| `Verif.Packet.C50_parsing_never_crashes_violated` | [propext, Classical.choice, Quot.sound] |
| `Verif.Packet.C50_safe_when_validated` | [propext, Classical.choice, Quot.sound] |
| `Verif.Packet.C51_checksum_is_rfc1071` | [propext, Classical.choice, Quot.sound] |
| `Verif.Packet.C51_running_sums` | [propext, Classical.choice, Quot.sound] |
| `Verif.Packet.C51_bound_is_tight` | [propext, Classical.choice, Quot.sound] |
| `Verif.Packet.C51_example` | [propext, Classical.choice, Quot.sound] |
| `Verif.Packet.C52_verify_ipv4` | [propext, Classical.choice, Quot.sound] |
| `Verif.Packet.C53_update_ipv4` | [propext, Classical.choice, Quot.sound] |
| `Verif.Packet.C53_example` | [propext, Quot.sound] |
| `Verif.Packet.C54_update_tcp` | [propext, Classical.choice, Quot.sound] |
| `Verif.Packet.C54_verify_tcp` | [propext, Classical.choice, Quot.sound] |
| `Verif.Packet.C54_odd_attachment` | [propext, Classical.choice, Quot.sound] |
| `Verif.Packet.C55_incremental_length` | [propext, Classical.choice, Quot.sound] |
| `Verif.Packet.C55_example` | [propext, Quot.sound] |
| `Verif.Packet.C56_detach_splits` | [propext, Classical.choice, Quot.sound] |
| `Verif.Packet.C57_example` | [propext, Classical.choice, Quot.sound] |
| `Verif.Packet.C57_detach_attach_restores` | [propext, Classical.choice, Quot.sound] |
| `Verif.Packet.C58_example` | [propext, Classical.choice, Quot.sound] |
| `Verif.Packet.C58_attach_consistent` | [propext, Classical.choice, Quot.sound] |
| `Verif.Packet.C59_attach_keeps_memory` | [propext, Classical.choice, Quot.sound] |
| `Verif.Packet.C59_attach_overwrites_violated` | [propext, Classical.choice, Quot.sound] |
| `Verif.Packet.C59_example_violated` | [propext, Classical.choice, Quot.sound] |
| `Verif.Packet.C60_adjustments_exact` | [propext, Classical.choice, Quot.sound] |
| `Verif.Packet.C60_adjustments_undo` | [propext, Classical.choice, Quot.sound] |
| `Verif.Packet.C61_fin_ack` | [propext, Classical.choice, Quot.sound] |
| `Verif.Packet.C61_example` | [propext, Classical.choice, Quot.sound] |
| `Verif.Packet.C62_auth_option` | [propext, Classical.choice, Quot.sound] |
| `Verif.Packet.C62_example` | [propext, Classical.choice, Quot.sound] |
| `Verif.Packet.C63_token_roundtrip` | [propext, Classical.choice, Quot.sound] |
| `Verif.Packet.C63_token_appended` | [propext, Classical.choice, Quot.sound] |
| `Verif.Packet.C63_example` | [propext, Classical.choice, Quot.sound] |
| `Verif.Packet.C64_marker` | [propext, Classical.choice, Quot.sound] |
| `Verif.Packet.C64_type_from_buffer` | [propext, Classical.choice, Quot.sound] |
| `Verif.Packet.C64_marker_recognised` | [propext, Classical.choice, Quot.sound] |
| `Verif.Packet.C64_type_of_packet` | [propext, Classical.choice, Quot.sound] |
| `Verif.Packet.C64_token_packet_type` | [propext, Classical.choice, Quot.sound] |
| `Verif.Packet.C65_reverse` | [propext, Classical.choice, Quot.sound] |
| `Verif.Packet.C65_reverse_twice` | [propext, Classical.choice, Quot.sound] |
| `Verif.Packet.C65_example` | [propext, Classical.choice, Quot.sound] |
| `Verif.Packet.C66_ipv4_flow_hash` | [propext, Classical.choice, Quot.sound] |
| `Verif.Packet.C66_example` | [propext, Classical.choice, Quot.sound] |
| `Verif.Packet.C67_ipv6_flow_hash_partial` | [propext, Classical.choice, Quot.sound] |
| `Verif.Packet.C67_ipv6_collision_violated` | [propext, Classical.choice, Quot.sound] |
| `Verif.Packet.C67_exact` | [propext, Classical.choice, Quot.sound] |
| `Verif.Packet.C67_one_unshortened_partial` | [propext, Classical.choice, Quot.sound] |
| `Verif.Packet.C67_uncompressed_partial` | [propext, Classical.choice, Quot.sound] |
| `Verif.Packet.C68_flow_hash_parsed` | [propext, Classical.choice, Quot.sound] |
| `Verif.Packet.C68_flow_hash_udp_attach` | [propext, Classical.choice, Quot.sound] |
| `Verif.Packet.C68_reverse_keeps_hash_violated` | [propext, Classical.choice, Quot.sound] |
| `Verif.Packet.C68_reverse_example` | [propext, Classical.choice, Quot.sound] |
| `Verif.Packet.C68_flow_hash_current` | [propext, Classical.choice, Quot.sound] |
| `Verif.Packet.C69_udp_checksum_partial` | [propext, Classical.choice, Quot.sound] |
| `Verif.Packet.C69_zero_violated` | [propext, Classical.choice, Quot.sound] |
| `Verif.Packet.C70_flags_text` | [propext, Quot.sound] |
| `Verif.Packet.C70_flags_text_injective` | [propext, Quot.sound] |
| `Verif.Packet.C71_payload` | [propext, Classical.choice, Quot.sound] |
| `Verif.Packet.C72_replace_payload` | [propext, Classical.choice, Quot.sound] |
| `Verif.Packet.C72_example` | [propext, Classical.choice, Quot.sound] |
| `Verif.Props.C73_counters` | [propext, Classical.choice, Quot.sound] |
| `Verif.Props.C74_type_split` | [propext, Classical.choice, Quot.sound] |
| `Verif.Packet.C75_example` | [propext, Classical.choice, Quot.sound] |
| `Verif.Packet.C75_accessors_match_wire` | [propext, Classical.choice, Quot.sound] |
| `Verif.Props.Log.C76_version_violated` | [propext, Classical.choice, Quot.sound] |
| `Verif.Props.Log.C77_crash_set` | [propext, Classical.choice, Quot.sound] |
| `Verif.Props.Log.C77_read_set` | [propext, Classical.choice, Quot.sound] |
| `Verif.Props.Log.C77_truncated_payload_violated` | [propext, Classical.choice, Quot.sound] |
| `Verif.Props.Log.C77_short_message_violated` | [propext, Classical.choice, Quot.sound] |
| `Verif.Props.Ct.C78_ipv6_update_violated` | [propext, Classical.choice, Quot.sound] |
| `Verif.Props.Ct.C78_returns` | [propext, Classical.choice, Quot.sound] |
| `Verif.Packet.C79_own_payload_violated` | [propext, Classical.choice, Quot.sound] |
| `Verif.Packet.C79_example` | [propext, Classical.choice, Quot.sound] |
| `Verif.Packet.C80_source_port_hash` | [propext, Classical.choice, Quot.sound] |
| `Verif.Packet.C80_example` | [propext, Classical.choice, Quot.sound] |
| `Verif.Props.C81_echo` | [propext, Classical.choice, Quot.sound] |
| `Verif.Props.C81_example` | [propext, Classical.choice, Quot.sound] |
| `Verif.Props.C82_payload_reused_violated` | [propext, Classical.choice, Quot.sound] |
| `Verif.Props.C82_example` | [propext, Classical.choice, Quot.sound] |
| `Verif.Props.C83_any_type_violated` | [propext, Classical.choice, Quot.sound] |
| `Verif.Props.C83_ack_reported_violated` | [propext, Classical.choice, Quot.sound] |
| `Verif.Props.C83_ack_hangs_violated` | [propext, Classical.choice, Quot.sound] |
| `Verif.Props.C84_spins_violated` | [propext, Classical.choice, Quot.sound] |
| `Verif.Props.C84_closes_again_violated` | [propext, Classical.choice, Quot.sound] |
| `Verif.Props.C84_example` | [propext, Classical.choice, Quot.sound] |
| `Verif.Props.Log.C85_big_endian_violated` | [propext, Classical.choice, Quot.sound] |
| `Verif.Props.Log.C86_closes_again_violated` | [propext, Classical.choice, Quot.sound] |
| `Verif.Packet.C87_reserved_bits_violated` | [propext, Classical.choice, Quot.sound] |
| `Verif.Packet.C87_example` | [propext, Quot.sound] |
| `Verif.Packet.C88_set_flags_violated` | [propext, Classical.choice, Quot.sound] |
| `Verif.Packet.C89_ipv6_checksum_violated` | [propext, Classical.choice, Quot.sound] |
| `Verif.Packet.C90_across_versions` | [propext, Classical.choice, Quot.sound] |
| `Verif.Packet.C90_example` | [propext, Classical.choice, Quot.sound] |
| `Verif.Packet.C91_only_the_tuple` | [propext, Classical.choice, Quot.sound] |
| `Verif.Packet.C91_example` | [propext, Classical.choice, Quot.sound] |
| `Verif.Packet.C92_print` | [propext, Classical.choice, Quot.sound] |
| `Verif.Packet.C92_other_protocols` | [propext, Classical.choice, Quot.sound] |
| `Verif.Packet.C92_expected` | [propext, Classical.choice, Quot.sound] |
| `Verif.Packet.C92_example` | [propext, Classical.choice, Quot.sound] |
| `Verif.Packet.C93_string_determines_packet` | [propext, Classical.choice, Quot.sound] |
| `Verif.Packet.C93_error` | [propext, Classical.choice, Quot.sound] |
| `Verif.Packet.C93_example` | [propext, Classical.choice, Quot.sound] |
| `Verif.Packet.C94_impossible_length_violated` | [propext, Classical.choice, Quot.sound] |
| `Verif.Packet.C95_fragments_violated` | [propext, Classical.choice, Quot.sound] |
| `Verif.Packet.C95_example` | [propext, Classical.choice, Quot.sound] |
| `Verif.Packet.C96_unknown_version_violated` | [propext, Classical.choice, Quot.sound] |
| `Verif.Packet.C96_example` | [propext, Classical.choice, Quot.sound] |
| `Verif.Packet.C97_ipv6_length_validation` | [propext, Classical.choice, Quot.sound] |
| `Verif.Packet.C97_example` | [propext, Quot.sound] |
| `Verif.Props.C98_late_verdict_violated` | [propext, Classical.choice, Quot.sound] |
| `Verif.Props.C98_example` | [propext, Classical.choice, Quot.sound] |
| `Verif.Props.C99_packet_taken_violated` | [propext, Classical.choice, Quot.sound] |
| `Verif.Props.C99_example` | [propext, Classical.choice, Quot.sound] |
| `Verif.Props.C100_serves_partial` | [propext, Classical.choice, Quot.sound] |
| `Verif.Props.C100_completes` | [propext, Classical.choice, Quot.sound] |
| `Verif.Props.C100_example` | [propext, Classical.choice, Quot.sound] |
| `Verif.Props.C100_lock_completes` | [propext, Classical.choice, Quot.sound] |
| `Verif.Props.Log.C101_log_taken_violated` | [propext, Classical.choice, Quot.sound] |
| `Verif.Props.Log.C101_example` | [propext, Classical.choice, Quot.sound] |
| `Verif.Props.C102_verdict_after_close_violated` | [propext, Classical.choice, Quot.sound] |
| `Verif.Props.Log.C103_nflog_reopen_leaks_violated` | [propext, Quot.sound] |
| `Verif.Props.C103_reopen_leaks_violated` | [propext, Quot.sound] |
| `Verif.Props.C104_no_socket_violated` | [propext, Classical.choice, Quot.sound] |
| `Verif.Props.C105_queue_ignored_violated` | [propext, Classical.choice, Quot.sound] |
| `Verif.Packet.C106_test_packet_partial` | [propext, Quot.sound] |
| `Verif.Packet.C106_test_packet_hash_violated` | [propext, Classical.choice, Quot.sound] |
| `Verif.Packet.C106_example` | [propext, Classical.choice, Quot.sound] |
| `Verif.Packet.C107_only_headers` | [propext, Classical.choice, Quot.sound] |
| `Verif.Packet.C107_example` | [propext, Classical.choice, Quot.sound] |
| `Verif.Packet.C108_own_copy` | [propext, Classical.choice, Quot.sound] |
| `Verif.Packet.C108_example` | [propext, Classical.choice, Quot.sound] |
| `Verif.Props.C109_rewritten_packet` | [propext, Classical.choice, Quot.sound] |
| `Verif.Props.C109_checksummed` | [propext, Classical.choice, Quot.sound] |
| `Verif.Props.C109_example` | [propext, Classical.choice, Quot.sound] |
| `Verif.Props.C110_failed_start` | [propext, Classical.choice, Quot.sound] |
| `Verif.Props.C110_unbinds` | [propext] |
| `Verif.Props.C110_mode_denied` | [propext, Classical.choice, Quot.sound] |
| `Verif.Props.C110_maxLen_denied` | [propext, Classical.choice, Quot.sound] |
| `Verif.Props.Ct.C111_found_partial` | [propext, Classical.choice, Quot.sound] |
| `Verif.Props.Ct.C111_label_found_partial` | [propext, Classical.choice, Quot.sound] |
| `Verif.Props.Ct.C111_nat_violated` | [propext, Classical.choice, Quot.sound] |
| `Verif.Props.Ct.C111_found_either_family_partial` | [propext, Classical.choice, Quot.sound] |
| `Verif.Props.Ct.C112_nothing_sent_partial` | [propext, Classical.choice, Quot.sound] |
| `Verif.Props.Ct.C112_not_told_violated` | [propext, Classical.choice, Quot.sound] |
| `Verif.Props.Ct.C112_other_family_violated` | [propext, Classical.choice, Quot.sound] |
| `Verif.Props.Ct.C113_single_partial` | [propext, Classical.choice, Quot.sound] |
| `Verif.Props.Ct.C113_bulk_zero_violated` | [propext, Classical.choice, Quot.sound] |
| `Verif.Props.Ct.C114_count_lost_violated` | [propext, Classical.choice, Quot.sound] |
| `Verif.Props.Ct.C114_label_count_lost_violated` | [propext, Classical.choice, Quot.sound] |
| `Verif.Props.Ct.C115_example_partial` | [propext, Classical.choice, Quot.sound] |
| `Verif.Props.Ct.C115_empty_violated` | [propext, Quot.sound] |
| `Verif.Props.Ct.C115_nat_violated` | [propext, Classical.choice, Quot.sound] |
| `Verif.Props.C116_queue_config` | [propext, Classical.choice, Quot.sound] |
| `Verif.Props.C116_queue_start` | [propext, Classical.choice, Quot.sound] |
| `Verif.Props.C116_queue_stop` | [propext, Classical.choice, Quot.sound] |
| `Verif.Props.C116_queue_callback` | [propext, Classical.choice, Quot.sound] |
| `Verif.Props.C116_log_config` | [propext, Classical.choice, Quot.sound] |
| `Verif.Props.C116_log_start` | [propext, Classical.choice, Quot.sound] |
| `Verif.Props.C116_mark` | [propext, Classical.choice, Quot.sound] |
| `Verif.Props.C116_bulk_mark` | [propext, Classical.choice, Quot.sound] |
| `Verif.Props.C116_bulk_label` | [propext, Classical.choice, Quot.sound] |
| `Verif.Props.C117_queues_independent_partial` | [propext, Classical.choice, Quot.sound] |
| `Verif.Props.C117_completes` | [propext, Classical.choice, Quot.sound] |
| `Verif.Props.C117_lock_completes` | [propext, Classical.choice, Quot.sound] |
| `Verif.Props.C117_started_apart` | [propext, Classical.choice, Quot.sound] |
| `Verif.Props.C117_failed_start` | [propext, Classical.choice, Quot.sound] |
| `Verif.Props.C117_example` | [propext, Classical.choice, Quot.sound] |
| `Verif.Packet.C118_flow_hash_text` | [propext, Classical.choice, Quot.sound] |
| `Verif.Packet.C118_example` | [propext, Classical.choice, Quot.sound] |
| `Verif.Packet.C118_ipv6_example` | [propext, Classical.choice, Quot.sound] |
| `Verif.Props.C119_answers` | [propext, Classical.choice, Quot.sound] |
| `Verif.Props.C119_progress` | [propext, Classical.choice, Quot.sound] |
| `Verif.Props.C119_alone` | [propext, Classical.choice, Quot.sound] |
| `Verif.Props.C119_example` | [propext, Classical.choice, Quot.sound] |
| `Verif.Props.Ct.C120_own_result` | [propext, Classical.choice, Quot.sound] |
| `Verif.Props.Ct.C120_own_socket` | [propext, Quot.sound] |
| `Verif.Props.Ct.C120_completes` | [propext, Classical.choice, Quot.sound] |
| `Verif.Props.Ct.C120_example` | [propext, Classical.choice, Quot.sound] |
| `Verif.Props.Ct.C121_closes_anothers_violated` | [propext, Classical.choice, Quot.sound] |
| `Verif.Props.Ct.C121_example` | [propext, Classical.choice, Quot.sound] |
| `Verif.Props.C122_takes_anothers_packet_violated` | [propext, Classical.choice, Quot.sound] |
| `Verif.Props.C122_closes_anothers_socket_violated` | [propext, Classical.choice, Quot.sound] |
| `Verif.Props.C122_example` | [propext, Classical.choice, Quot.sound] |
| `Verif.Props.Log.C123_reports_stay` | [propext, Classical.choice, Quot.sound] |
| `Verif.Props.Log.C123_example` | [propext, Classical.choice, Quot.sound] |
| `Verif.Props.Log.C124_headers_suffice` | [propext, Classical.choice, Quot.sound] |
| `Verif.Props.Log.C124_enough` | [propext, Quot.sound] |
| `Verif.Props.Log.C124_example` | [propext, Classical.choice, Quot.sound] |
| `Verif.Props.Log.C125_too_short_violated` | [propext, Classical.choice, Quot.sound] |
| `Verif.Props.Log.C125_wrong_destination_violated` | [propext, Classical.choice, Quot.sound] |
| `Verif.Props.Log.C125_too_short_example` | [propext, Classical.choice, Quot.sound] |
| `Verif.Props.Log.C125_wrong_destination_example` | [propext, Classical.choice, Quot.sound] |
| `Verif.Props.Log.C126_all_reported` | [propext, Classical.choice, Quot.sound] |
| `Verif.Props.Log.C126_ends` | [propext, Classical.choice, Quot.sound] |
| `Verif.Props.Log.C126_example` | [propext, Classical.choice, Quot.sound] |
| `Verif.Props.Log.C127_handle` | [propext, Classical.choice, Quot.sound] |
| `Verif.Props.Log.C127_descriptor` | [propext, Classical.choice, Quot.sound] |
| `Verif.Props.Log.C128_close_forgets_violated` | [propext, Classical.choice, Quot.sound] |
| `Verif.Props.Log.C128_example` | [propext, Quot.sound] |
| `Verif.Props.Ct.C129_at_that_moment` | [propext, Classical.choice, Quot.sound] |
| `Verif.Props.Ct.C129_mark` | [propext, Classical.choice, Quot.sound] |
| `Verif.Props.Ct.C129_mark_exact` | [propext, Classical.choice, Quot.sound] |
| `Verif.Props.Ct.C129_list_and_mark` | [propext, Classical.choice, Quot.sound] |
| `Verif.Props.Ct.C129_list_and_mark_works` | [propext, Classical.choice, Quot.sound] |
| `Verif.Props.Ct.C129_at_most_one` | [propext, Classical.choice, Quot.sound] |
| `Verif.Props.Ct.C129_test_mark` | [propext, Classical.choice, Quot.sound] |
| `Verif.Props.Ct.C129_example` | [propext, Classical.choice, Quot.sound] |
| `Verif.Props.Ct.C130_list_and_label_partial` | [propext, Classical.choice, Quot.sound] |
| `Verif.Props.Ct.C130_tcp_violated` | [propext, Classical.choice, Quot.sound] |
| `Verif.Props.Ct.C130_label_works_partial` | [propext, Classical.choice, Quot.sound] |
| `Verif.Props.C131_start` | [propext, Classical.choice, Quot.sound] |
| `Verif.Props.C131_taken` | [propext, Classical.choice, Quot.sound] |
| `Verif.Props.C131_works` | [propext, Classical.choice, Quot.sound] |
| `Verif.Props.C131_example` | [propext, Classical.choice, Quot.sound] |
| `Verif.Props.C131_taken_example` | [propext, Classical.choice, Quot.sound] |
| `Verif.Props.C132_start` | [propext, Classical.choice, Quot.sound] |
| `Verif.Props.C132_serves` | [propext, Classical.choice, Quot.sound] |
| `Verif.Props.C132_all` | [propext, Classical.choice, Quot.sound] |
| `Verif.Props.C132_example` | [propext, Classical.choice, Quot.sound] |
| `Verif.Props.C132_cut_violated` | [propext, Classical.choice, Quot.sound] |
| `Verif.Props.C132_missed_violated` | [propext, Classical.choice, Quot.sound] |
| `Verif.Props.C133_stop` | [propext, Classical.choice, Quot.sound] |
| `Verif.Props.C133_works` | [propext, Classical.choice, Quot.sound] |
| `Verif.Props.C133_example` | [propext, Classical.choice, Quot.sound] |
| `Verif.Props.C134_native` | [propext] |
| `Verif.Props.C134_returns` | [propext, Quot.sound] |
| `Verif.Props.C134_set` | [propext, Quot.sound] |
| `Verif.Props.C134_unset_violated` | [propext, Quot.sound] |
| `Verif.Props.Log.C135_start` | [propext, Classical.choice, Quot.sound] |
| `Verif.Props.Log.C135_taken` | [propext, Classical.choice, Quot.sound] |
| `Verif.Props.Log.C135_works` | [propext, Classical.choice, Quot.sound] |
| `Verif.Props.Log.C135_example` | [propext, Classical.choice, Quot.sound] |
| `Verif.Props.Log.C135_taken_example` | [propext, Classical.choice, Quot.sound] |
| `Verif.Props.Log.C135_twice_example` | [propext, Classical.choice, Quot.sound] |
| `Verif.Props.Log.C136_partial` | [propext, Classical.choice, Quot.sound] |
| `Verif.Props.Log.C136_violated` | [propext, Quot.sound] |
| `Verif.Props.Log.C137_partial` | [propext, Classical.choice, Quot.sound] |
| `Verif.Props.Log.C137_violated` | [propext, Quot.sound] |
| `Verif.Props.Log.C138_reported` | [propext, Classical.choice, Quot.sound] |
| `Verif.Props.Log.C138_delivered` | [propext, Classical.choice, Quot.sound] |
| `Verif.Props.Log.C138_example` | [propext, Classical.choice, Quot.sound] |
| `Verif.Props.C139_calls` | [propext, Classical.choice, Quot.sound] |
| `Verif.Props.C139_given_up` | [propext, Classical.choice, Quot.sound] |
| `Verif.Props.C139_example` | [propext, Classical.choice, Quot.sound] |
| `Verif.Props.C140_returns_violated` | [propext, Classical.choice, Quot.sound] |
| `Verif.Props.C140_example` | [propext, Classical.choice, Quot.sound] |
| `Verif.Props.C141_wrong_id_violated` | [propext, Classical.choice, Quot.sound] |
| `Verif.Props.C141_example` | [propext, Classical.choice, Quot.sound] |
| `Verif.Props.Log.C142_alone` | [propext, Classical.choice, Quot.sound] |
| `Verif.Props.Log.C142_independent` | [propext, Classical.choice, Quot.sound] |
| `Verif.Props.Log.C142_goes_on` | [propext, Classical.choice, Quot.sound] |
| `Verif.Props.Log.C142_keeps_pace` | [propext, Classical.choice, Quot.sound] |
| `Verif.Props.Log.C142_example` | [propext, Classical.choice, Quot.sound] |
| `Verif.Props.Log.C143_reported` | [propext, Classical.choice, Quot.sound] |
| `Verif.Props.Log.C143_example` | [propext, Classical.choice, Quot.sound] |
| `Verif.Props.C144_several` | [propext, Classical.choice, Quot.sound] |
| `Verif.Props.C144_progress` | [propext, Classical.choice, Quot.sound] |
| `Verif.Props.C144_example` | [propext, Classical.choice, Quot.sound] |
| `Verif.Props.Ct.C145_result` | [propext, Classical.choice, Quot.sound] |
| `Verif.Props.Ct.C145_atomic` | [propext, Quot.sound] |
| `Verif.Props.Ct.C145_serial` | [propext, Classical.choice, Quot.sound] |
| `Verif.Props.Ct.C145_mark` | [propext, Classical.choice, Quot.sound] |
| `Verif.Props.Ct.C145_last_wins` | [propext, Classical.choice, Quot.sound] |
| `Verif.Props.Ct.C145_completes` | [propext, Classical.choice, Quot.sound] |
| `Verif.Props.Ct.C145_example` | [propext, Classical.choice, Quot.sound] |
| `Verif.Props.Ct.C145_example_results` | [propext, Quot.sound] |
| `Verif.Packet.C146_any_sequence` | [propext, Classical.choice, Quot.sound] |
| `Verif.Packet.C146_complete` | [propext, Classical.choice, Quot.sound] |
| `Verif.Packet.C146_without_detach` | [propext, Classical.choice, Quot.sound] |
| `Verif.Packet.C146_example` | [propext, Classical.choice, Quot.sound] |
| `Verif.Packet.C147_token_replaces_payload_violated` | [propext, Classical.choice, Quot.sound] |
| `Verif.Packet.C147_example` | [propext, Classical.choice, Quot.sound] |
| `Verif.Packet.C148_complete_packet_read` | [propext, Classical.choice, Quot.sound] |
| `Verif.Packet.C148_example` | [propext, Classical.choice, Quot.sound] |
| `Verif.Packet.C149_peer_reads` | [propext, Classical.choice, Quot.sound] |
| `Verif.Packet.C149_token_exchange` | [propext, Classical.choice, Quot.sound] |
| `Verif.Packet.C149_example` | [propext, Classical.choice, Quot.sound] |
| `Verif.Props.C150_edited_packet` | [propext, Classical.choice, Quot.sound] |
| `Verif.Props.C150_example` | [propext, Classical.choice, Quot.sound] |
| `Verif.Packet.C151_complete_packet_read` | [propext, Classical.choice, Quot.sound] |
| `Verif.Packet.C151_example` | [propext, Classical.choice, Quot.sound] |
| `Verif.Packet.C152_exchange` | [propext, Classical.choice, Quot.sound] |
| `Verif.Packet.C152_original_recovered` | [propext, Classical.choice, Quot.sound] |
| `Verif.Packet.C152_example` | [propext, Classical.choice, Quot.sound] |
| `Verif.Packet.C153_adjusted_at_peer` | [propext, Classical.choice, Quot.sound] |
| `Verif.Packet.C153_example` | [propext, Classical.choice, Quot.sound] |
| `Verif.Packet.C154_attached_adjusted_at_peer` | [propext, Classical.choice, Quot.sound] |
| `Verif.Packet.C154_example` | [propext, Classical.choice, Quot.sound] |
| `Verif.Props.C155_peer_of_kernel` | [propext, Classical.choice, Quot.sound] |
| `Verif.Props.C155_example` | [propext, Classical.choice, Quot.sound] |
| `Verif.Props.Ct.C156_makes_flows` | [propext, Classical.choice, Quot.sound] |
| `Verif.Props.Ct.C156_no_leak` | [propext, Classical.choice, Quot.sound] |
| `Verif.Props.Ct.C156_works` | [propext, Classical.choice, Quot.sound] |
| `Verif.Props.Ct.C156_example` | [propext, Classical.choice, Quot.sound] |
| `Verif.Props.Ct.C157_second_example` | [propext, Classical.choice, Quot.sound] |
| `Verif.Props.Ct.C157_met` | [propext, Classical.choice, Quot.sound] |
| `Verif.Props.Log.C158_prints` | [propext, Classical.choice, Quot.sound] |
| `Verif.Props.Log.C158_refused` | [propext, Classical.choice, Quot.sound] |
| `Verif.Props.Log.C158_example` | [propext, Classical.choice, Quot.sound] |
| `Verif.Props.C159_starts` | [propext, Classical.choice, Quot.sound] |
| `Verif.Props.C159_example_program` | [propext, Classical.choice, Quot.sound] |
| `Verif.Props.C159_progress` | [propext, Classical.choice, Quot.sound] |
| `Verif.Props.C159_example` | [propext, Classical.choice, Quot.sound] |
| `Verif.Props.C160_acts` | [propext, Classical.choice, Quot.sound] |
| `Verif.Props.C160_requests` | [propext, Classical.choice, Quot.sound] |
| `Verif.Props.C160_example` | [propext, Classical.choice, Quot.sound] |
| `Verif.Props.C161_nfqueue` | [propext, Quot.sound] |
| `Verif.Props.C161_nflog` | [propext, Quot.sound] |
| `Verif.Props.C161_conntrack` | [propext, Quot.sound] |
| `Verif.Props.C161_reached` | [propext, Quot.sound] |
| `Verif.Props.C162_always_empty_violated` | [propext, Classical.choice, Quot.sound] |
| `Verif.Props.C162_started` | [propext, Quot.sound] |
| `Verif.Props.C162_not_announced_violated` | [propext, Classical.choice, Quot.sound] |
| `Verif.Props.Log.C163_acts` | [propext, Classical.choice, Quot.sound] |
| `Verif.Props.Log.C163_requests` | [propext, Classical.choice, Quot.sound] |
| `Verif.Props.Log.C163_reports` | [propext, Classical.choice, Quot.sound] |
| `Verif.Props.Log.C163_example` | [propext, Classical.choice, Quot.sound] |
| `Verif.Packet.C164_separate` | [propext, Classical.choice, Quot.sound] |
| `Verif.Packet.C164_verify` | [propext, Classical.choice, Quot.sound] |
| `Verif.Packet.C164_others` | [propext, Classical.choice, Quot.sound] |
| `Verif.Packet.C164_example` | [propext, Classical.choice, Quot.sound] |
| `Verif.Packet.Moved.C165_parse` | [propext, Classical.choice, Quot.sound] |
| `Verif.Packet.Moved.C165_accepted` | [propext, Classical.choice, Quot.sound] |
| `Verif.Packet.Moved.C165_example` | [propext, Classical.choice, Quot.sound] |
| `Verif.Packet.Placed.C166_bytes` | [propext, Classical.choice, Quot.sound] |
| `Verif.Packet.Placed.C166_example` | [propext, Classical.choice, Quot.sound] |
