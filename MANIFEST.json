{
 "claims": [
  {
   "property": "C01",
   "status": "proved",
   "theorems": [
    "Verif.Props.C01_align32",
    "Verif.Props.C01_align16",
    "Verif.Props.C01_sizes",
    "Verif.Props.Log.C01_align16_log"
   ],
   "note": ""
  },
  {
   "property": "C02",
   "status": "proved",
   "theorems": [
    "Verif.Props.C02_roundtrip",
    "Verif.Props.C02_kernel_reads",
    "Verif.Props.C02_inplace",
    "Verif.Props.C02_short",
    "Verif.Props.C02_parse_then_serialize"
   ],
   "note": ""
  },
  {
   "property": "C03",
   "status": "proved",
   "theorems": [
    "Verif.Props.C03_wire",
    "Verif.Props.C03_inplace",
    "Verif.Props.C03_roundtrip",
    "Verif.Props.C03_parse_crash_iff"
   ],
   "note": ""
  },
  {
   "property": "C04",
   "status": "proved",
   "theorems": [
    "Verif.Props.C04_attr",
    "Verif.Props.C04_nested",
    "Verif.Props.C04_padding",
    "Verif.Props.C04_header",
    "Verif.Props.C04_bare_header",
    "Verif.Props.C04_attr_wire"
   ],
   "note": ""
  },
  {
   "property": "C05",
   "status": "proved",
   "theorems": [
    "Verif.Props.C05_parse_encode",
    "Verif.Props.C05_shares_buffer"
   ],
   "note": ""
  },
  {
   "property": "C06",
   "status": "proved",
   "theorems": [
    "Verif.Props.C06_bad_attr_iff",
    "Verif.Props.C06_inside"
   ],
   "note": ""
  },
  {
   "property": "C07",
   "status": "partial",
   "theorems": [
    "Verif.Props.C07_returns_iff_partial",
    "Verif.Props.C07_returns_partial",
    "Verif.Props.C07_loops_forever",
    "Verif.Props.C07_crashes"
   ],
   "note": "Full claim false of the code: zero-length attributes of unregistered types loop forever, lengths < 4 of registered types crash (C07_loops_forever, C07_crashes). The partial theorem characterises exactly when the parser returns."
  },
  {
   "property": "C08",
   "status": "proved",
   "theorems": [
    "Verif.Props.C08_int_roundtrip",
    "Verif.Props.C08_ip_roundtrip",
    "Verif.Props.C08_16",
    "Verif.Props.C08_crash_iff"
   ],
   "note": ""
  },
  {
   "property": "C09",
   "status": "proved",
   "theorems": [
    "Verif.Props.C09_error",
    "Verif.Props.C09_short",
    "Verif.Props.C09_crash_iff"
   ],
   "note": ""
  },
  {
   "property": "C10",
   "status": "proved",
   "theorems": [
    "Verif.Props.C10_values",
    "Verif.Props.C10_inplace"
   ],
   "note": ""
  },
  {
   "property": "C11",
   "status": "proved",
   "theorems": [
    "Verif.Props.C11_retry_once",
    "Verif.Props.C11_single",
    "Verif.Props.C11_send_once"
   ],
   "note": ""
  },
  {
   "property": "C12",
   "status": "proved",
   "theorems": [
    "Verif.Props.C12_requests"
   ],
   "note": ""
  },
  {
   "property": "C13",
   "status": "proved",
   "theorems": [
    "Verif.Props.Log.C13_nflog_no_socket",
    "Verif.Props.C13_no_socket"
   ],
   "note": ""
  },
  {
   "property": "C14",
   "status": "proved",
   "theorems": [
    "Verif.Props.C14_nil_iff_acked",
    "Verif.Props.C14_returns"
   ],
   "note": ""
  },
  {
   "property": "C15",
   "status": "proved",
   "theorems": [
    "Verif.Props.C15_started",
    "Verif.Props.C15_error_no_reader",
    "Verif.Props.C15_starts",
    "Verif.Props.C15_returns"
   ],
   "note": ""
  },
  {
   "property": "C16",
   "status": "partial",
   "theorems": [
    "Verif.Props.Log.C16_nflog_closed_partial",
    "Verif.Props.Log.C16_nflog_bind_failure_leaks",
    "Verif.Props.C16_closed_partial",
    "Verif.Props.C16_bind_failure_leaks",
    "Verif.Props.C16_success_keeps_open"
   ],
   "note": "False of the code in one place: when bind(2) fails the socket is never closed (C16_bind_failure_leaks, C16_nflog_bind_failure_leaks, for every such kernel). The partial theorems cover every other failure point of both start functions."
  },
  {
   "property": "C17",
   "status": "partial",
   "theorems": [
    "Verif.Props.C17_verdict2_partial",
    "Verif.Props.C17_empty_crashes",
    "Verif.Props.C17_too_long"
   ],
   "note": "Holds for every packet of 1 to 65531 bytes. Missing: empty packets, for which the code crashes (C17_empty_crashes); longer packets fit in no attribute at all (C17_too_long)."
  },
  {
   "property": "C18",
   "status": "partial",
   "theorems": [
    "Verif.Props.C18_verdict_partial",
    "Verif.Props.C18_inexact",
    "Verif.Props.C18_empty_crashes"
   ],
   "note": "False for lengths that are not a multiple of 4 (C18_inexact, for every such packet) and for empty packets (C18_empty_crashes). The partial theorem states exactly what the kernel decodes for every other packet."
  },
  {
   "property": "C19",
   "status": "proved",
   "theorems": [
    "Verif.Props.C19_history_free"
   ],
   "note": ""
  },
  {
   "property": "C20",
   "status": "partial",
   "theorems": [
    "Verif.Props.C20_steps_are_the_calls",
    "Verif.Props.C20_no_mixing_partial",
    "Verif.Props.C20_completes",
    "Verif.Props.C20_verdict2_mixes",
    "Verif.Props.C20_lock_completes",
    "Verif.Props.C20_verdict2_mixes_violated"
   ],
   "note": "Positive for SetVerdict under every schedule and for SetVerdict2 when the application serialises it; C20_verdict2_mixes_violated: any two unserialised SetVerdict2 calls of equal length can be scheduled so that one sends the other's header. C20_lock_completes: with the mutex nobody waits forever."
  },
  {
   "property": "C21",
   "status": "proved",
   "theorems": [
    "Verif.Props.C21_id_roundtrip",
    "Verif.Props.C21_id_roundtrip_v1"
   ],
   "note": ""
  },
  {
   "property": "C22",
   "status": "partial",
   "theorems": [
    "Verif.Props.C22_own_contents_partial",
    "Verif.Props.C22_stale",
    "Verif.Props.C22_missing_mark_violated",
    "Verif.Props.C22_unmarked_partial"
   ],
   "note": "False when an attribute is missing from the datagram: C22_missing_mark_violated gives, for every unmarked packet after a marked one, the bytes delivered as its mark. Positive: every attribute the datagram carries, in every history; and mark 0 in every run as long as no datagram had a mark (C22_unmarked_partial, started_unmarked)."
  },
  {
   "property": "C23",
   "status": "proved",
   "theorems": [
    "Verif.Props.C23_delivery",
    "Verif.Props.C23_from_start"
   ],
   "note": ""
  },
  {
   "property": "C24",
   "status": "partial",
   "theorems": [
    "Verif.Props.C24_only_good_partial",
    "Verif.Props.C24_no_error_callback"
   ],
   "note": "False without an error callback (C24_no_error_callback). With one installed it is proved for every run."
  },
  {
   "property": "C25",
   "status": "proved",
   "theorems": [
    "Verif.Props.C25_stops",
    "Verif.Props.C25_at_most_one"
   ],
   "note": ""
  },
  {
   "property": "C26",
   "status": "partial",
   "theorems": [
    "Verif.Props.C26_recv_returns_iff_partial",
    "Verif.Props.C26_loop_never_crashes_partial",
    "Verif.Props.C26_short_crashes"
   ],
   "note": "False of the code: C26_recv_returns_iff_partial is the exact set of datagrams on which Recv returns; C26_short_crashes a family on which it crashes."
  },
  {
   "property": "C27",
   "status": "proved",
   "theorems": [
    "Verif.Props.C27_verdict2_memory",
    "Verif.Props.C27_verdict_memory"
   ],
   "note": ""
  },
  {
   "property": "C28",
   "status": "partial",
   "theorems": [
    "Verif.Props.C28_verdict2",
    "Verif.Props.C28_verdict_partial",
    "Verif.Props.C28_verdict_overread",
    "Verif.Props.C28_overread_violated"
   ],
   "note": "SetVerdict2: fully proved for every stated length. SetVerdict: proved for stated lengths within the packet; false beyond (C28_overread_violated, for every packet inside a larger array)."
  },
  {
   "property": "C29",
   "status": "proved",
   "theorems": [
    "Verif.Props.C29_stop",
    "Verif.Props.C29_stop_unopened"
   ],
   "note": ""
  },
  {
   "property": "C30",
   "status": "proved",
   "theorems": [
    "Verif.Props.Log.C30_requests",
    "Verif.Props.Log.C30_nil_iff_all_acked",
    "Verif.Props.Log.C30_returns",
    "Verif.Props.Log.C30_short_reply_crashes"
   ],
   "note": ""
  },
  {
   "property": "C31",
   "status": "partial",
   "theorems": [
    "Verif.Props.Log.C31_violated"
   ],
   "note": "False of the code: with no socket both calls return nil for every list of groups (C31_violated)."
  },
  {
   "property": "C32",
   "status": "proved",
   "theorems": [
    "Verif.Props.Log.C32_outcomes",
    "Verif.Props.Log.C32_started_iff",
    "Verif.Props.Log.C32_failure_closes",
    "Verif.Props.Log.C32_success_keeps_open",
    "Verif.Props.Log.C32_starts"
   ],
   "note": ""
  },
  {
   "property": "C33",
   "status": "proved",
   "theorems": [
    "Verif.Props.Log.C33_parsing_a_message_ends"
   ],
   "note": ""
  },
  {
   "property": "C34",
   "status": "proved",
   "theorems": [
    "Verif.Props.Log.C34_message_delivered"
   ],
   "note": ""
  },
  {
   "property": "C35",
   "status": "partial",
   "theorems": [
    "Verif.Props.Log.C35_last_byte_partial",
    "Verif.Props.Log.C35_violated",
    "Verif.Props.Log.C35_empty_last_violated"
   ],
   "note": "False when the payload length is a multiple of four (C35_violated: its last byte reads as 0, for every such message); C35_last_byte_partial proves it for all other lengths."
  },
  {
   "property": "C36",
   "status": "partial",
   "theorems": [
    "Verif.Props.Log.C36_hang_set",
    "Verif.Props.Log.C36_parsing_a_datagram_ends_partial",
    "Verif.Props.Log.C36_violated"
   ],
   "note": "False of the code (C36_violated: families of datagrams that make it loop forever). Proved whenever every place where a message is looked for holds a complete header with a non-zero length. The set of datagrams that hang it is determined exactly (C36_hang_set)."
  },
  {
   "property": "C37",
   "status": "proved",
   "theorems": [
    "Verif.Props.Log.C37_datagram_delivered",
    "Verif.Props.Log.C37_stops_at_truncated",
    "Verif.Props.Log.C37_stops_at_rejected"
   ],
   "note": ""
  },
  {
   "property": "C38",
   "status": "proved",
   "theorems": [
    "Verif.Props.Log.C38_turns",
    "Verif.Props.Log.C38_reports_and_stops",
    "Verif.Props.Log.C38_runs_well_formed"
   ],
   "note": ""
  },
  {
   "property": "C39",
   "status": "proved",
   "theorems": [
    "Verif.Props.Ct.C39_mark_update",
    "Verif.Props.Ct.C39_unambiguous",
    "Verif.Props.Ct.C39_returns",
    "Verif.Props.Ct.C39_succeeds"
   ],
   "note": ""
  },
  {
   "property": "C40",
   "status": "partial",
   "theorems": [
    "Verif.Props.Ct.C40_label_update_partial",
    "Verif.Props.Ct.C40_tcp_flags_violated",
    "Verif.Props.Ct.C40_unambiguous"
   ],
   "note": "The TCP flags attributes are malformed in every request for a TCP connection (C40_tcp_flags_violated); everything else is proved, for every protocol."
  },
  {
   "property": "C41",
   "status": "partial",
   "theorems": [
    "Verif.Props.Ct.C41_exact_partial",
    "Verif.Props.Ct.C41_ipv6_violated",
    "Verif.Props.Ct.C41_compares_last_four_bytes",
    "Verif.Props.Ct.C41_short_address_crashes"
   ],
   "note": "Exact among IPv4 flows (proved); false for IPv6 addresses (C41_ipv6_violated); C41_compares_last_four_bytes is the exact relation computed for all 4- and 16-byte addresses."
  },
  {
   "property": "C42",
   "status": "proved",
   "theorems": [
    "Verif.Props.Ct.C42_bulk_mark",
    "Verif.Props.Ct.C42_mark_zero",
    "Verif.Props.Ct.C42_returns",
    "Verif.Props.Ct.C42_all_acknowledged",
    "Verif.Props.Ct.C42_either_family",
    "Verif.Props.Ct.C42_mark_zero_either_family",
    "Verif.Props.Ct.C42_returns_either_family",
    "Verif.Props.Ct.C42_resembling_v4",
    "Verif.Props.Ct.C42_all_acknowledged_either_family"
   ],
   "note": "Exact for flows and arguments of both families (C42_either_family); among IPv4 flows the matching ones are exactly those of the connection (C42_bulk_mark); when the kernel accepts everything the exact count is returned on tables of both families (C42_all_acknowledged_either_family)."
  },
  {
   "property": "C43",
   "status": "proved",
   "theorems": [
    "Verif.Props.Ct.C43_bulk_label",
    "Verif.Props.Ct.C43_returns",
    "Verif.Props.Ct.C43_all_acknowledged",
    "Verif.Props.Ct.C43_either_family",
    "Verif.Props.Ct.C43_returns_either_family",
    "Verif.Props.Ct.C43_all_acknowledged_either_family"
   ],
   "note": "Exact for flows and arguments of both families (C43_either_family); among IPv4 flows the matching ones are exactly those of the connection (C43_bulk_label); likewise C43_all_acknowledged_either_family."
  },
  {
   "property": "C44",
   "status": "partial",
   "theorems": [
    "Verif.Props.Ct.C44_one_socket_partial",
    "Verif.Props.Ct.C44_bulk_sockets_partial",
    "Verif.Props.Ct.C44_no_socket_violated",
    "Verif.Props.Ct.C44_bulk_sockets_either_family_partial"
   ],
   "note": "Proved for every call that returns; false when the socket cannot be opened or bound: the process crashes (C44_no_socket_violated). Socket use also on tables of both families (C44_bulk_sockets_either_family_partial)."
  },
  {
   "property": "C45",
   "status": "partial",
   "theorems": [
    "Verif.Props.Ct.C45_invalid_address_violated",
    "Verif.Props.Ct.C45_bulk_violated"
   ],
   "note": "False of the code: every update given a string that is no address crashes before any system call (C45_invalid_address_violated, C45_bulk_violated)."
  },
  {
   "property": "C46",
   "status": "proved",
   "theorems": [
    "Verif.Props.Ct.C46_entries",
    "Verif.Props.Ct.C46_error",
    "Verif.Props.Ct.C46_flush"
   ],
   "note": ""
  },
  {
   "property": "C47",
   "status": "proved",
   "theorems": [
    "Verif.Packet.C47_ipv4_fields",
    "Verif.Packet.C47_id_text"
   ],
   "note": ""
  },
  {
   "property": "C48",
   "status": "proved",
   "theorems": [
    "Verif.Packet.C48_ipv6_fields"
   ],
   "note": ""
  },
  {
   "property": "C49",
   "status": "proved",
   "theorems": [
    "Verif.Packet.C49_length_validation",
    "Verif.Packet.C49_example"
   ],
   "note": ""
  },
  {
   "property": "C50",
   "status": "partial",
   "theorems": [
    "Verif.Packet.C50_accept_set",
    "Verif.Packet.C50_crash_set",
    "Verif.Packet.C50_parsing_ends",
    "Verif.Packet.C50_parsing_never_crashes_violated",
    "Verif.Packet.C50_safe_when_validated"
   ],
   "note": "False of the code (C50_parsing_never_crashes_violated). C50_crash_set is the exact set of buffers that crash New, C50_accept_set the exact set it accepts without validation; termination is proved for all buffers."
  },
  {
   "property": "C51",
   "status": "proved",
   "theorems": [
    "Verif.Packet.C51_checksum_is_rfc1071",
    "Verif.Packet.C51_running_sums",
    "Verif.Packet.C51_bound_is_tight",
    "Verif.Packet.C51_example"
   ],
   "note": ""
  },
  {
   "property": "C52",
   "status": "proved",
   "theorems": [
    "Verif.Packet.C52_verify_ipv4"
   ],
   "note": ""
  },
  {
   "property": "C53",
   "status": "proved",
   "theorems": [
    "Verif.Packet.C53_update_ipv4",
    "Verif.Packet.C53_example"
   ],
   "note": ""
  },
  {
   "property": "C54",
   "status": "proved",
   "theorems": [
    "Verif.Packet.C54_update_tcp",
    "Verif.Packet.C54_verify_tcp",
    "Verif.Packet.C54_odd_attachment"
   ],
   "note": "Proved for every accepted TCP packet and for attachments after an even number of bytes; C54_odd_attachment shows why the parenthesis about odd lengths is needed."
  },
  {
   "property": "C55",
   "status": "proved",
   "theorems": [
    "Verif.Packet.C55_incremental_length",
    "Verif.Packet.C55_example"
   ],
   "note": ""
  },
  {
   "property": "C56",
   "status": "proved",
   "theorems": [
    "Verif.Packet.C56_detach_splits"
   ],
   "note": ""
  },
  {
   "property": "C57",
   "status": "proved",
   "theorems": [
    "Verif.Packet.C57_example",
    "Verif.Packet.C57_detach_attach_restores"
   ],
   "note": ""
  },
  {
   "property": "C58",
   "status": "proved",
   "theorems": [
    "Verif.Packet.C58_example",
    "Verif.Packet.C58_attach_consistent"
   ],
   "note": ""
  },
  {
   "property": "C59",
   "status": "partial",
   "theorems": [
    "Verif.Packet.C59_attach_keeps_memory",
    "Verif.Packet.C59_attach_overwrites_violated",
    "Verif.Packet.C59_example_violated"
   ],
   "note": "False without DropTCPDetachedBytes (C59_attach_overwrites_violated, for every such packet); proved after it."
  },
  {
   "property": "C60",
   "status": "proved",
   "theorems": [
    "Verif.Packet.C60_adjustments_exact",
    "Verif.Packet.C60_adjustments_undo"
   ],
   "note": ""
  },
  {
   "property": "C61",
   "status": "proved",
   "theorems": [
    "Verif.Packet.C61_fin_ack",
    "Verif.Packet.C61_example"
   ],
   "note": ""
  },
  {
   "property": "C62",
   "status": "proved",
   "theorems": [
    "Verif.Packet.C62_auth_option",
    "Verif.Packet.C62_example"
   ],
   "note": ""
  },
  {
   "property": "C63",
   "status": "proved",
   "theorems": [
    "Verif.Packet.C63_token_roundtrip",
    "Verif.Packet.C63_token_appended",
    "Verif.Packet.C63_example"
   ],
   "note": ""
  },
  {
   "property": "C64",
   "status": "proved",
   "theorems": [
    "Verif.Packet.C64_marker",
    "Verif.Packet.C64_type_from_buffer",
    "Verif.Packet.C64_marker_recognised",
    "Verif.Packet.C64_type_of_packet",
    "Verif.Packet.C64_token_packet_type"
   ],
   "note": ""
  },
  {
   "property": "C65",
   "status": "proved",
   "theorems": [
    "Verif.Packet.C65_reverse",
    "Verif.Packet.C65_reverse_twice",
    "Verif.Packet.C65_example"
   ],
   "note": ""
  },
  {
   "property": "C66",
   "status": "proved",
   "theorems": [
    "Verif.Packet.C66_ipv4_flow_hash",
    "Verif.Packet.C66_example"
   ],
   "note": ""
  },
  {
   "property": "C67",
   "status": "partial",
   "theorems": [
    "Verif.Packet.C67_ipv6_flow_hash_partial",
    "Verif.Packet.C67_ipv6_collision_violated",
    "Verif.Packet.C67_exact",
    "Verif.Packet.C67_one_unshortened_partial",
    "Verif.Packet.C67_uncompressed_partial"
   ],
   "note": "False in general (C67_ipv6_collision_violated: two accepted packets with different addresses and the same hash). C67_exact determines exactly which pairs of flows share a hash: all four addresses are written with '::' and the groups between are divided differently. C67_one_unshortened_partial: whenever one of the four addresses is written without '::' the hash identifies the 4-tuple."
  },
  {
   "property": "C68",
   "status": "partial",
   "theorems": [
    "Verif.Packet.C68_flow_hash_parsed",
    "Verif.Packet.C68_flow_hash_udp_attach",
    "Verif.Packet.C68_reverse_keeps_hash_violated",
    "Verif.Packet.C68_reverse_example",
    "Verif.Packet.C68_flow_hash_current"
   ],
   "note": "Proved after parsing, after every allowed sequence of TCP operations and after UDP attachments; false after CreateReverseFlowPacket (C68_reverse_keeps_hash_violated, general)."
  },
  {
   "property": "C69",
   "status": "partial",
   "theorems": [
    "Verif.Packet.C69_udp_checksum_partial",
    "Verif.Packet.C69_zero_violated"
   ],
   "note": "Proved except when the computed IPv6 checksum is zero: it must then be sent as 0xFFFF but is sent as 0 (C69_zero_violated)."
  },
  {
   "property": "C70",
   "status": "proved",
   "theorems": [
    "Verif.Packet.C70_flags_text",
    "Verif.Packet.C70_flags_text_injective"
   ],
   "note": ""
  },
  {
   "property": "C71",
   "status": "proved",
   "theorems": [
    "Verif.Packet.C71_payload"
   ],
   "note": ""
  },
  {
   "property": "C72",
   "status": "proved",
   "theorems": [
    "Verif.Packet.C72_replace_payload",
    "Verif.Packet.C72_example"
   ],
   "note": ""
  },
  {
   "property": "C73",
   "status": "proved",
   "theorems": [
    "Verif.Props.C73_counters"
   ],
   "note": ""
  },
  {
   "property": "C74",
   "status": "proved",
   "theorems": [
    "Verif.Props.C74_type_split"
   ],
   "note": ""
  },
  {
   "property": "C75",
   "status": "proved",
   "theorems": [
    "Verif.Packet.C75_example",
    "Verif.Packet.C75_accessors_match_wire"
   ],
   "note": ""
  },
  {
   "property": "C76",
   "status": "partial",
   "theorems": [
    "Verif.Props.Log.C76_version_violated"
   ],
   "note": "False of the code: the reported version is always 4 (C76_version_violated)."
  },
  {
   "property": "C77",
   "status": "partial",
   "theorems": [
    "Verif.Props.Log.C77_crash_set",
    "Verif.Props.Log.C77_read_set",
    "Verif.Props.Log.C77_truncated_payload_violated",
    "Verif.Props.Log.C77_short_message_violated"
   ],
   "note": "False of the code: cut payloads and messages stating 16 bytes or less crash the reader (two general families). Well-formed datagrams never do (C38_runs_well_formed). Exactly which datagrams crash, hang, are refused or are read: C77_crash_set, C77_read_set, C36_hang_set."
  },
  {
   "property": "C78",
   "status": "partial",
   "theorems": [
    "Verif.Props.Ct.C78_ipv6_update_violated",
    "Verif.Props.Ct.C78_returns"
   ],
   "note": "False of the code: every such call updates the IPv4 connection between the last four address bytes (C78_ipv6_update_violated), and does return (C78_returns)."
  },
  {
   "property": "C79",
   "status": "partial",
   "theorems": [
    "Verif.Packet.C79_own_payload_violated",
    "Verif.Packet.C79_example"
   ],
   "note": "False of the code: for every accepted UDP packet and every header no longer than its payload the wire shows the header twice (C79_own_payload_violated)."
  },
  {
   "property": "C80",
   "status": "proved",
   "theorems": [
    "Verif.Packet.C80_source_port_hash",
    "Verif.Packet.C80_example"
   ],
   "note": ""
  },
  {
   "property": "C81",
   "status": "proved",
   "theorems": [
    "Verif.Props.C81_echo",
    "Verif.Props.C81_example"
   ],
   "note": ""
  },
  {
   "property": "C82",
   "status": "partial",
   "theorems": [
    "Verif.Props.C82_payload_reused_violated",
    "Verif.Props.C82_example"
   ],
   "note": "False of the code: C82_payload_reused_violated gives the new contents for every pair of packets; C82_example is a concrete case. During the callback the bytes are right (C22, C81)."
  },
  {
   "property": "C83",
   "status": "partial",
   "theorems": [
    "Verif.Props.C83_any_type_violated",
    "Verif.Props.C83_ack_reported_violated",
    "Verif.Props.C83_ack_hangs_violated"
   ],
   "note": "False of the code: C83_any_type_violated for every type but error, C83_ack_reported_violated and C83_ack_hangs_violated for every acknowledgement."
  },
  {
   "property": "C84",
   "status": "partial",
   "theorems": [
    "Verif.Props.C84_spins_violated",
    "Verif.Props.C84_closes_again_violated",
    "Verif.Props.C84_example"
   ],
   "note": "False of the code: C84_spins_violated for any number of turns, C84_closes_again_violated. What StopQueue itself does is C29."
  },
  {
   "property": "C85",
   "status": "partial",
   "theorems": [
    "Verif.Props.Log.C85_big_endian_violated"
   ],
   "note": "False of the code: C85_big_endian_violated for every datagram from a big-endian kernel. On little-endian hosts the claim is C37."
  },
  {
   "property": "C86",
   "status": "partial",
   "theorems": [
    "Verif.Props.Log.C86_closes_again_violated"
   ],
   "note": "False of the code: C86_closes_again_violated for every receive error but ENOBUFS."
  },
  {
   "property": "C87",
   "status": "partial",
   "theorems": [
    "Verif.Packet.C87_reserved_bits_violated",
    "Verif.Packet.C87_example"
   ],
   "note": "False of the code: C87_reserved_bits_violated shows the loss for every accepted packet and every allowed cut."
  },
  {
   "property": "C88",
   "status": "partial",
   "theorems": [
    "Verif.Packet.C88_set_flags_violated"
   ],
   "note": "False of the code: C88_set_flags_violated, for every accepted TCP packet and every change of flags."
  },
  {
   "property": "C89",
   "status": "partial",
   "theorems": [
    "Verif.Packet.C89_ipv6_checksum_violated"
   ],
   "note": "False of the code for IPv6: C89_ipv6_checksum_violated, for every accepted IPv6 packet of at least 24 bytes. For IPv4 the claim is C52/C53."
  },
  {
   "property": "C90",
   "status": "proved",
   "theorems": [
    "Verif.Packet.C90_across_versions",
    "Verif.Packet.C90_example"
   ],
   "note": ""
  },
  {
   "property": "C91",
   "status": "proved",
   "theorems": [
    "Verif.Packet.C91_only_the_tuple",
    "Verif.Packet.C91_example"
   ],
   "note": ""
  },
  {
   "property": "C92",
   "status": "proved",
   "theorems": [
    "Verif.Packet.C92_print",
    "Verif.Packet.C92_other_protocols",
    "Verif.Packet.C92_expected",
    "Verif.Packet.C92_example"
   ],
   "note": ""
  },
  {
   "property": "C93",
   "status": "proved",
   "theorems": [
    "Verif.Packet.C93_string_determines_packet",
    "Verif.Packet.C93_error",
    "Verif.Packet.C93_example"
   ],
   "note": ""
  },
  {
   "property": "C94",
   "status": "partial",
   "theorems": [
    "Verif.Packet.C94_impossible_length_violated"
   ],
   "note": "False of the code: C94_impossible_length_violated, for every such UDP buffer. For TCP impossible lengths are rejected (C49)."
  },
  {
   "property": "C95",
   "status": "partial",
   "theorems": [
    "Verif.Packet.C95_fragments_violated",
    "Verif.Packet.C95_example"
   ],
   "note": "False of the code: C95_fragments_violated, for every accepted IPv4 packet and every field value."
  },
  {
   "property": "C96",
   "status": "partial",
   "theorems": [
    "Verif.Packet.C96_unknown_version_violated",
    "Verif.Packet.C96_example"
   ],
   "note": "False of the code: C96_unknown_version_violated, for every such buffer."
  },
  {
   "property": "C97",
   "status": "proved",
   "theorems": [
    "Verif.Packet.C97_ipv6_length_validation",
    "Verif.Packet.C97_example"
   ],
   "note": ""
  },
  {
   "property": "C98",
   "status": "partial",
   "theorems": [
    "Verif.Props.C98_late_verdict_violated",
    "Verif.Props.C98_example"
   ],
   "note": "False of the code: C98_late_verdict_violated for every pair of packets, verdict and mark; C98_example is a concrete case. A verdict given inside the callback is right (C81)."
  },
  {
   "property": "C99",
   "status": "partial",
   "theorems": [
    "Verif.Props.C99_packet_taken_violated",
    "Verif.Props.C99_example"
   ],
   "note": "False of the code: C99_packet_taken_violated for every configuration call, packet and acknowledgement (little-endian hosts); C99_example is a concrete case. Configuration before packets arrive is C12-C15."
  },
  {
   "property": "C100",
   "status": "partial",
   "theorems": [
    "Verif.Props.C100_serves_partial",
    "Verif.Props.C100_completes",
    "Verif.Props.C100_example",
    "Verif.Props.C100_lock_completes"
   ],
   "note": "Proved for verdicts on packets the application has copied out of the receive buffer (otherwise C98), SetVerdict2 calls serialised by the application (otherwise C20), callbacks that only hand over the packet. Sequentially consistent interleavings. C100_lock_completes: with the mutex no call waits for ever."
  },
  {
   "property": "C101",
   "status": "partial",
   "theorems": [
    "Verif.Props.Log.C101_log_taken_violated",
    "Verif.Props.Log.C101_example"
   ],
   "note": "False of the code: C101_log_taken_violated for every configuration call about one group, log datagram and answer (little-endian hosts); C101_example is a concrete case."
  },
  {
   "property": "C102",
   "status": "partial",
   "theorems": [
    "Verif.Props.C102_verdict_after_close_violated"
   ],
   "note": "False of the code: C102_verdict_after_close_violated, for every verdict call and every history in between."
  },
  {
   "property": "C103",
   "status": "partial",
   "theorems": [
    "Verif.Props.Log.C103_nflog_reopen_leaks_violated",
    "Verif.Props.C103_reopen_leaks_violated"
   ],
   "note": "False of the code for both packages: C103_reopen_leaks_violated, C103_nflog_reopen_leaks_violated."
  },
  {
   "property": "C104",
   "status": "partial",
   "theorems": [
    "Verif.Props.C104_no_socket_violated"
   ],
   "note": "False of the code: C104_no_socket_violated, for every argument."
  },
  {
   "property": "C105",
   "status": "partial",
   "theorems": [
    "Verif.Props.C105_queue_ignored_violated"
   ],
   "note": "False of the code: C105_queue_ignored_violated, for every other queue number. For the handle's own number the claim is C17/C18."
  },
  {
   "property": "C106",
   "status": "partial",
   "theorems": [
    "Verif.Packet.C106_test_packet_partial",
    "Verif.Packet.C106_test_packet_hash_violated",
    "Verif.Packet.C106_example"
   ],
   "note": "The accessors and the reverse hash agree (C106_test_packet_partial); the forward hash never does (C106_test_packet_hash_violated)."
  },
  {
   "property": "C107",
   "status": "proved",
   "theorems": [
    "Verif.Packet.C107_only_headers",
    "Verif.Packet.C107_example"
   ],
   "note": ""
  },
  {
   "property": "C108",
   "status": "proved",
   "theorems": [
    "Verif.Packet.C108_own_copy",
    "Verif.Packet.C108_example"
   ],
   "note": ""
  },
  {
   "property": "C109",
   "status": "proved",
   "theorems": [
    "Verif.Props.C109_rewritten_packet",
    "Verif.Props.C109_checksummed",
    "Verif.Props.C109_example"
   ],
   "note": ""
  },
  {
   "property": "C110",
   "status": "proved",
   "theorems": [
    "Verif.Props.C110_failed_start",
    "Verif.Props.C110_unbinds",
    "Verif.Props.C110_mode_denied",
    "Verif.Props.C110_maxLen_denied"
   ],
   "note": ""
  },
  {
   "property": "C111",
   "status": "partial",
   "theorems": [
    "Verif.Props.Ct.C111_found_partial",
    "Verif.Props.Ct.C111_label_found_partial",
    "Verif.Props.Ct.C111_nat_violated",
    "Verif.Props.Ct.C111_found_either_family_partial"
   ],
   "note": "Proved for connections without address translation; refuted for translated ones (never matched). Also on tables that list connections of both families (C111_found_either_family_partial)."
  },
  {
   "property": "C112",
   "status": "partial",
   "theorems": [
    "Verif.Props.Ct.C112_nothing_sent_partial",
    "Verif.Props.Ct.C112_not_told_violated",
    "Verif.Props.Ct.C112_other_family_violated"
   ],
   "note": "Proved: nothing is sent. Refuted: the error is nil. A flow of the other family that resembles the connection is updated instead (C112_other_family_violated)."
  },
  {
   "property": "C113",
   "status": "partial",
   "theorems": [
    "Verif.Props.Ct.C113_single_partial",
    "Verif.Props.Ct.C113_bulk_zero_violated"
   ],
   "note": "Proved for the single call; refuted for the bulk call, which ignores mark 0 and reports success."
  },
  {
   "property": "C114",
   "status": "partial",
   "theorems": [
    "Verif.Props.Ct.C114_count_lost_violated",
    "Verif.Props.Ct.C114_label_count_lost_violated"
   ],
   "note": "Refuted in general: the count is 0 whatever was done. Without a failure the count is exact (C42, C43)."
  },
  {
   "property": "C115",
   "status": "partial",
   "theorems": [
    "Verif.Props.Ct.C115_example_partial",
    "Verif.Props.Ct.C115_empty_violated",
    "Verif.Props.Ct.C115_nat_violated"
   ],
   "note": "Proved for tables that are not empty and whose first connection is untranslated; refuted otherwise (crash, or no update)."
  },
  {
   "property": "C116",
   "status": "proved",
   "theorems": [
    "Verif.Props.C116_queue_config",
    "Verif.Props.C116_queue_start",
    "Verif.Props.C116_queue_stop",
    "Verif.Props.C116_queue_callback",
    "Verif.Props.C116_log_config",
    "Verif.Props.C116_log_start",
    "Verif.Props.C116_mark",
    "Verif.Props.C116_bulk_mark",
    "Verif.Props.C116_bulk_label"
   ],
   "note": ""
  },
  {
   "property": "C117",
   "status": "partial",
   "theorems": [
    "Verif.Props.C117_queues_independent_partial",
    "Verif.Props.C117_completes",
    "Verif.Props.C117_lock_completes",
    "Verif.Props.C117_started_apart",
    "Verif.Props.C117_failed_start",
    "Verif.Props.C117_example"
   ],
   "note": "Partial for the same reasons as C20 and C100: on one queue SetVerdict2 calls have to be serialised by the application (C20_verdict2_mixes), and packets copied out of the receive buffer (C98). Calls on different queues need no serialisation. Readers start when all queues have been created. C117_lock_completes: with a mutex per queue no call waits for ever; C117_failed_start: a queue that cannot be started leaves the others as they were."
  },
  {
   "property": "C118",
   "status": "proved",
   "theorems": [
    "Verif.Packet.C118_flow_hash_text",
    "Verif.Packet.C118_example",
    "Verif.Packet.C118_ipv6_example"
   ],
   "note": ""
  },
  {
   "property": "C119",
   "status": "proved",
   "theorems": [
    "Verif.Props.C119_answers",
    "Verif.Props.C119_progress",
    "Verif.Props.C119_alone",
    "Verif.Props.C119_example"
   ],
   "note": ""
  },
  {
   "property": "C120",
   "status": "proved",
   "theorems": [
    "Verif.Props.Ct.C120_own_result",
    "Verif.Props.Ct.C120_own_socket",
    "Verif.Props.Ct.C120_completes",
    "Verif.Props.Ct.C120_example"
   ],
   "note": ""
  },
  {
   "property": "C121",
   "status": "partial",
   "theorems": [
    "Verif.Props.Ct.C121_closes_anothers_violated",
    "Verif.Props.Ct.C121_example"
   ],
   "note": "Violated by the code; C121_closes_anothers_violated exhibits it for all such kernels. The part that holds (kernels whose close succeeds) is C120_own_socket."
  },
  {
   "property": "C122",
   "status": "partial",
   "theorems": [
    "Verif.Props.C122_takes_anothers_packet_violated",
    "Verif.Props.C122_closes_anothers_socket_violated",
    "Verif.Props.C122_example"
   ],
   "note": "Violated by the code; the two theorems exhibit it for all arguments and all kernels that reuse the descriptor number. The part that holds (no queue is stopped) is C117/C119."
  },
  {
   "property": "C123",
   "status": "proved",
   "theorems": [
    "Verif.Props.Log.C123_reports_stay",
    "Verif.Props.Log.C123_example"
   ],
   "note": ""
  },
  {
   "property": "C124",
   "status": "proved",
   "theorems": [
    "Verif.Props.Log.C124_headers_suffice",
    "Verif.Props.Log.C124_enough",
    "Verif.Props.Log.C124_example"
   ],
   "note": ""
  },
  {
   "property": "C125",
   "status": "partial",
   "theorems": [
    "Verif.Props.Log.C125_too_short_violated",
    "Verif.Props.Log.C125_wrong_destination_violated",
    "Verif.Props.Log.C125_too_short_example",
    "Verif.Props.Log.C125_wrong_destination_example"
   ],
   "note": "Violated by the code; the theorems exhibit it for every complete packet and every copy range that is too small. The part that holds is C124."
  },
  {
   "property": "C126",
   "status": "proved",
   "theorems": [
    "Verif.Props.Log.C126_all_reported",
    "Verif.Props.Log.C126_ends",
    "Verif.Props.Log.C126_example"
   ],
   "note": ""
  },
  {
   "property": "C127",
   "status": "proved",
   "theorems": [
    "Verif.Props.Log.C127_handle",
    "Verif.Props.Log.C127_descriptor"
   ],
   "note": ""
  },
  {
   "property": "C128",
   "status": "partial",
   "theorems": [
    "Verif.Props.Log.C128_close_forgets_violated",
    "Verif.Props.Log.C128_example"
   ],
   "note": "Violated by the code; the theorem exhibits it for every open handle, every kernel and every further call."
  },
  {
   "property": "C129",
   "status": "proved",
   "theorems": [
    "Verif.Props.Ct.C129_at_that_moment",
    "Verif.Props.Ct.C129_mark",
    "Verif.Props.Ct.C129_mark_exact",
    "Verif.Props.Ct.C129_list_and_mark",
    "Verif.Props.Ct.C129_list_and_mark_works",
    "Verif.Props.Ct.C129_at_most_one",
    "Verif.Props.Ct.C129_test_mark",
    "Verif.Props.Ct.C129_example"
   ],
   "note": ""
  },
  {
   "property": "C130",
   "status": "partial",
   "theorems": [
    "Verif.Props.Ct.C130_list_and_label_partial",
    "Verif.Props.Ct.C130_tcp_violated",
    "Verif.Props.Ct.C130_label_works_partial"
   ],
   "note": "Proved for every protocol but TCP, including the exact outcome on a kernel whose system calls do not fail; violated for TCP (consequence of C40), which C130_tcp_violated proves for every table that has the connection."
  },
  {
   "property": "C131",
   "status": "proved",
   "theorems": [
    "Verif.Props.C131_start",
    "Verif.Props.C131_taken",
    "Verif.Props.C131_works",
    "Verif.Props.C131_example",
    "Verif.Props.C131_taken_example"
   ],
   "note": ""
  },
  {
   "property": "C132",
   "status": "partial",
   "theorems": [
    "Verif.Props.C132_start",
    "Verif.Props.C132_serves",
    "Verif.Props.C132_all",
    "Verif.Props.C132_example",
    "Verif.Props.C132_cut_violated",
    "Verif.Props.C132_missed_violated"
   ],
   "note": "Proved except for: up to two packets that come during the start are taken for acknowledgements and never handed over (C132_missed_violated), packets longer than the copy range leave cut (C132_cut_violated); on a big-endian host a left-over acknowledgement hangs the reader (C83)."
  },
  {
   "property": "C133",
   "status": "proved",
   "theorems": [
    "Verif.Props.C133_stop",
    "Verif.Props.C133_works",
    "Verif.Props.C133_example"
   ],
   "note": ""
  },
  {
   "property": "C134",
   "status": "partial",
   "theorems": [
    "Verif.Props.C134_native",
    "Verif.Props.C134_returns",
    "Verif.Props.C134_set",
    "Verif.Props.C134_unset_violated"
   ],
   "note": "Proved from the moment the first NewNFQueue returns; before, the functions crash (C134_unset_violated)."
  },
  {
   "property": "C135",
   "status": "proved",
   "theorems": [
    "Verif.Props.Log.C135_start",
    "Verif.Props.Log.C135_taken",
    "Verif.Props.Log.C135_works",
    "Verif.Props.Log.C135_example",
    "Verif.Props.Log.C135_taken_example",
    "Verif.Props.Log.C135_twice_example"
   ],
   "note": ""
  },
  {
   "property": "C136",
   "status": "partial",
   "theorems": [
    "Verif.Props.Log.C136_partial",
    "Verif.Props.Log.C136_violated"
   ],
   "note": "Holds if no log arrives during the start (C136_partial). False otherwise: a datagram of logs is taken for an acknowledgement, so a refusal can go unnoticed (C136_violated)."
  },
  {
   "property": "C137",
   "status": "partial",
   "theorems": [
    "Verif.Props.Log.C137_partial",
    "Verif.Props.Log.C137_violated"
   ],
   "note": "Exactly what the start itself received is lost (C137_partial), and it can be something (C137_violated)."
  },
  {
   "property": "C138",
   "status": "proved",
   "theorems": [
    "Verif.Props.Log.C138_reported",
    "Verif.Props.Log.C138_delivered",
    "Verif.Props.Log.C138_example"
   ],
   "note": ""
  },
  {
   "property": "C139",
   "status": "proved",
   "theorems": [
    "Verif.Props.C139_calls",
    "Verif.Props.C139_given_up",
    "Verif.Props.C139_example"
   ],
   "note": ""
  },
  {
   "property": "C140",
   "status": "partial",
   "theorems": [
    "Verif.Props.C140_returns_violated",
    "Verif.Props.C140_example"
   ],
   "note": ""
  },
  {
   "property": "C141",
   "status": "partial",
   "theorems": [
    "Verif.Props.C141_wrong_id_violated",
    "Verif.Props.C141_example"
   ],
   "note": ""
  },
  {
   "property": "C142",
   "status": "proved",
   "theorems": [
    "Verif.Props.Log.C142_alone",
    "Verif.Props.Log.C142_independent",
    "Verif.Props.Log.C142_goes_on",
    "Verif.Props.Log.C142_keeps_pace",
    "Verif.Props.Log.C142_example"
   ],
   "note": "Starting to listen is one step of the schedule."
  },
  {
   "property": "C143",
   "status": "proved",
   "theorems": [
    "Verif.Props.Log.C143_reported",
    "Verif.Props.Log.C143_example"
   ],
   "note": "Starting to listen is one step of the schedule; the kernel gives out no descriptor that is still open."
  },
  {
   "property": "C144",
   "status": "proved",
   "theorems": [
    "Verif.Props.C144_several",
    "Verif.Props.C144_progress",
    "Verif.Props.C144_example"
   ],
   "note": "Starting a queue is one step of the schedule; the callback's verdict call is made in the callback; a little-endian host."
  },
  {
   "property": "C145",
   "status": "proved",
   "theorems": [
    "Verif.Props.Ct.C145_result",
    "Verif.Props.Ct.C145_atomic",
    "Verif.Props.Ct.C145_serial",
    "Verif.Props.Ct.C145_mark",
    "Verif.Props.Ct.C145_last_wins",
    "Verif.Props.Ct.C145_completes",
    "Verif.Props.Ct.C145_example",
    "Verif.Props.Ct.C145_example_results"
   ],
   "note": "A call's reading of the kernel's replies is per socket; that the labels of TCP connections are refused (C40, C130) is part of the effect stated here."
  },
  {
   "property": "C146",
   "status": "proved",
   "theorems": [
    "Verif.Packet.C146_any_sequence",
    "Verif.Packet.C146_complete",
    "Verif.Packet.C146_without_detach",
    "Verif.Packet.C146_example"
   ],
   "note": ""
  },
  {
   "property": "C147",
   "status": "partial",
   "theorems": [
    "Verif.Packet.C147_token_replaces_payload_violated",
    "Verif.Packet.C147_example"
   ],
   "note": "Violated for every packet with a payload: UDPDataDetach does not change the total length kept, and UDPTokenAttach adds to it; the IP header then states the old payload's length too much."
  },
  {
   "property": "C148",
   "status": "proved",
   "theorems": [
    "Verif.Packet.C148_complete_packet_read",
    "Verif.Packet.C148_example"
   ],
   "note": ""
  },
  {
   "property": "C149",
   "status": "proved",
   "theorems": [
    "Verif.Packet.C149_peer_reads",
    "Verif.Packet.C149_token_exchange",
    "Verif.Packet.C149_example"
   ],
   "note": ""
  },
  {
   "property": "C150",
   "status": "proved",
   "theorems": [
    "Verif.Props.C150_edited_packet",
    "Verif.Props.C150_example"
   ],
   "note": ""
  },
  {
   "property": "C151",
   "status": "proved",
   "theorems": [
    "Verif.Packet.C151_complete_packet_read",
    "Verif.Packet.C151_example"
   ],
   "note": ""
  },
  {
   "property": "C152",
   "status": "proved",
   "theorems": [
    "Verif.Packet.C152_exchange",
    "Verif.Packet.C152_original_recovered",
    "Verif.Packet.C152_example"
   ],
   "note": ""
  },
  {
   "property": "C153",
   "status": "proved",
   "theorems": [
    "Verif.Packet.C153_adjusted_at_peer",
    "Verif.Packet.C153_example"
   ],
   "note": ""
  },
  {
   "property": "C154",
   "status": "proved",
   "theorems": [
    "Verif.Packet.C154_attached_adjusted_at_peer",
    "Verif.Packet.C154_example"
   ],
   "note": ""
  },
  {
   "property": "C155",
   "status": "proved",
   "theorems": [
    "Verif.Props.C155_peer_of_kernel",
    "Verif.Props.C155_example"
   ],
   "note": ""
  },
  {
   "property": "C156",
   "status": "proved",
   "theorems": [
    "Verif.Props.Ct.C156_makes_flows",
    "Verif.Props.Ct.C156_no_leak",
    "Verif.Props.Ct.C156_works",
    "Verif.Props.Ct.C156_example"
   ],
   "note": ""
  },
  {
   "property": "C157",
   "status": "proved",
   "theorems": [
    "Verif.Props.Ct.C157_second_example",
    "Verif.Props.Ct.C157_met"
   ],
   "note": ""
  },
  {
   "property": "C158",
   "status": "proved",
   "theorems": [
    "Verif.Props.Log.C158_prints",
    "Verif.Props.Log.C158_refused",
    "Verif.Props.Log.C158_example"
   ],
   "note": ""
  },
  {
   "property": "C159",
   "status": "proved",
   "theorems": [
    "Verif.Props.C159_starts",
    "Verif.Props.C159_example_program",
    "Verif.Props.C159_progress",
    "Verif.Props.C159_example"
   ],
   "note": ""
  },
  {
   "property": "C160",
   "status": "proved",
   "theorems": [
    "Verif.Props.C160_acts",
    "Verif.Props.C160_requests",
    "Verif.Props.C160_example"
   ],
   "note": ""
  },
  {
   "property": "C161",
   "status": "proved",
   "theorems": [
    "Verif.Props.C161_nfqueue",
    "Verif.Props.C161_nflog",
    "Verif.Props.C161_conntrack",
    "Verif.Props.C161_reached"
   ],
   "note": ""
  },
  {
   "property": "C162",
   "status": "partial",
   "theorems": [
    "Verif.Props.C162_always_empty_violated",
    "Verif.Props.C162_started",
    "Verif.Props.C162_not_announced_violated"
   ],
   "note": "false of the code: the channel is made at NewNFQueue and nothing is ever sent on it, nor is it closed (C162_always_empty_violated, for every history of calls; C162_started for handles of CreateAndStartNfQueue); C162_not_announced_violated exhibits a history in which a packet reached the callback and nothing can be received from the channel"
  },
  {
   "property": "C163",
   "status": "proved",
   "theorems": [
    "Verif.Props.Log.C163_acts",
    "Verif.Props.Log.C163_requests",
    "Verif.Props.Log.C163_reports",
    "Verif.Props.Log.C163_example"
   ],
   "note": "callbacks may use the handle by any call but NFlogOpen and NFlogBindGroup, and no other socket (CallbackWithin); the calls on the handle follow one another"
  },
  {
   "property": "C164",
   "status": "proved",
   "theorems": [
    "Verif.Packet.C164_separate",
    "Verif.Packet.C164_verify",
    "Verif.Packet.C164_others",
    "Verif.Packet.C164_example"
   ],
   "note": "the parsed slices are apart up to their lengths, their capacities may overlap; calls follow one another (no two at once); slices handed to operations come from memory valid at the start, outside every packet's IP and fixed TCP header; only where options and data are kept in memory, not their bytes, may differ from the run alone"
  },
  {
   "property": "C165",
   "status": "proved",
   "theorems": [
    "Verif.Packet.Moved.C165_parse",
    "Verif.Packet.Moved.C165_accepted",
    "Verif.Packet.Moved.C165_example"
   ],
   "note": "contents agree up to the capacity, not only the length: New reads some header fields beyond the length of a short slice when the capacity allows it"
  },
  {
   "property": "C166",
   "status": "proved",
   "theorems": [
    "Verif.Packet.Placed.C166_bytes",
    "Verif.Packet.Placed.C166_example"
   ],
   "note": "accepted TCP packets with length validation; a short or refused packet can read its spare capacity (C165 covers those, with equal contents up to the capacity)"
  }
 ]
}