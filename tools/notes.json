{
 "C07": "Full claim false of the code: zero-length attributes of unregistered types loop forever, lengths < 4 of registered types crash (C07_loops_forever, C07_crashes). The partial theorem characterises exactly when the parser returns.",
 "C16": "False of the code in one place: when bind(2) fails the socket is never closed (C16_bind_failure_leaks, C16_nflog_bind_failure_leaks, for every such kernel). The partial theorems cover every other failure point of both start functions.",
 "C17": "Holds for every packet of 1 to 65531 bytes. Missing: empty packets, for which the code crashes (C17_empty_crashes); longer packets fit in no attribute at all (C17_too_long).",
 "C18": "False for lengths that are not a multiple of 4 (C18_inexact, for every such packet) and for empty packets (C18_empty_crashes). The partial theorem states exactly what the kernel decodes for every other packet.",
 "C20": "Positive for SetVerdict under every schedule and for SetVerdict2 when the application serialises it; C20_verdict2_mixes_violated: any two unserialised SetVerdict2 calls of equal length can be scheduled so that one sends the other's header. C20_lock_completes: with the mutex nobody waits forever.",
 "C22": "False when an attribute is missing from the datagram: C22_missing_mark_violated gives, for every unmarked packet after a marked one, the bytes delivered as its mark. Positive: every attribute the datagram carries, in every history; and mark 0 in every run as long as no datagram had a mark (C22_unmarked_partial, started_unmarked).",
 "C24": "False without an error callback (C24_no_error_callback). With one installed it is proved for every run.",
 "C26": "False of the code: C26_recv_returns_iff_partial is the exact set of datagrams on which Recv returns; C26_short_crashes a family on which it crashes.",
 "C28": "SetVerdict2: fully proved for every stated length. SetVerdict: proved for stated lengths within the packet; false beyond (C28_overread_violated, for every packet inside a larger array).",
 "C31": "False of the code: with no socket both calls return nil for every list of groups (C31_violated).",
 "C35": "False when the payload length is a multiple of four (C35_violated: its last byte reads as 0, for every such message); C35_last_byte_partial proves it for all other lengths.",
 "C36": "False of the code (C36_violated: families of datagrams that make it loop forever). Proved whenever every place where a message is looked for holds a complete header with a non-zero length. The set of datagrams that hang it is determined exactly (C36_hang_set).",
 "C40": "The TCP flags attributes are malformed in every request for a TCP connection (C40_tcp_flags_violated); everything else is proved, for every protocol.",
 "C41": "Exact among IPv4 flows (proved); false for IPv6 addresses (C41_ipv6_violated); C41_compares_last_four_bytes is the exact relation computed for all 4- and 16-byte addresses.",
 "C44": "Proved for every call that returns; false when the socket cannot be opened or bound: the process crashes (C44_no_socket_violated). Socket use also on tables of both families (C44_bulk_sockets_either_family_partial).",
 "C45": "False of the code: every update given a string that is no address crashes before any system call (C45_invalid_address_violated, C45_bulk_violated).",
 "C50": "False of the code (C50_parsing_never_crashes_violated). C50_crash_set is the exact set of buffers that crash New, C50_accept_set the exact set it accepts without validation; termination is proved for all buffers.",
 "C54": "Proved for every accepted TCP packet and for attachments after an even number of bytes; C54_odd_attachment shows why the parenthesis about odd lengths is needed.",
 "C59": "False without DropTCPDetachedBytes (C59_attach_overwrites_violated, for every such packet); proved after it.",
 "C67": "False in general (C67_ipv6_collision_violated: two accepted packets with different addresses and the same hash). C67_exact determines exactly which pairs of flows share a hash: all four addresses are written with '::' and the groups between are divided differently. C67_one_unshortened_partial: whenever one of the four addresses is written without '::' the hash identifies the 4-tuple.",
 "C68": "Proved after parsing, after every allowed sequence of TCP operations and after UDP attachments; false after CreateReverseFlowPacket (C68_reverse_keeps_hash_violated, general).",
 "C69": "Proved except when the computed IPv6 checksum is zero: it must then be sent as 0xFFFF but is sent as 0 (C69_zero_violated).",
 "C76": "False of the code: the reported version is always 4 (C76_version_violated).",
 "C77": "False of the code: cut payloads and messages stating 16 bytes or less crash the reader (two general families). Well-formed datagrams never do (C38_runs_well_formed). Exactly which datagrams crash, hang, are refused or are read: C77_crash_set, C77_read_set, C36_hang_set.",
 "C78": "False of the code: every such call updates the IPv4 connection between the last four address bytes (C78_ipv6_update_violated), and does return (C78_returns).",
 "C79": "False of the code: for every accepted UDP packet and every header no longer than its payload the wire shows the header twice (C79_own_payload_violated).",
 "C87": "False of the code: C87_reserved_bits_violated shows the loss for every accepted packet and every allowed cut.",
 "C88": "False of the code: C88_set_flags_violated, for every accepted TCP packet and every change of flags.",
 "C89": "False of the code for IPv6: C89_ipv6_checksum_violated, for every accepted IPv6 packet of at least 24 bytes. For IPv4 the claim is C52/C53.",
 "C94": "False of the code: C94_impossible_length_violated, for every such UDP buffer. For TCP impossible lengths are rejected (C49).",
 "C95": "False of the code: C95_fragments_violated, for every accepted IPv4 packet and every field value.",
 "C96": "False of the code: C96_unknown_version_violated, for every such buffer.",
 "C82": "False of the code: C82_payload_reused_violated gives the new contents for every pair of packets; C82_example is a concrete case. During the callback the bytes are right (C22, C81).",
 "C83": "False of the code: C83_any_type_violated for every type but error, C83_ack_reported_violated and C83_ack_hangs_violated for every acknowledgement.",
 "C84": "False of the code: C84_spins_violated for any number of turns, C84_closes_again_violated. What StopQueue itself does is C29.",
 "C85": "False of the code: C85_big_endian_violated for every datagram from a big-endian kernel. On little-endian hosts the claim is C37.",
 "C86": "False of the code: C86_closes_again_violated for every receive error but ENOBUFS.",
 "C98": "False of the code: C98_late_verdict_violated for every pair of packets, verdict and mark; C98_example is a concrete case. A verdict given inside the callback is right (C81).",
 "C99": "False of the code: C99_packet_taken_violated for every configuration call, packet and acknowledgement (little-endian hosts); C99_example is a concrete case. Configuration before packets arrive is C12-C15.",
 "C100": "Proved for verdicts on packets the application has copied out of the receive buffer (otherwise C98), SetVerdict2 calls serialised by the application (otherwise C20), callbacks that only hand over the packet. Sequentially consistent interleavings. C100_lock_completes: with the mutex no call waits for ever.",
 "C101": "False of the code: C101_log_taken_violated for every configuration call about one group, log datagram and answer (little-endian hosts); C101_example is a concrete case.",
 "C102": "False of the code: C102_verdict_after_close_violated, for every verdict call and every history in between.",
 "C103": "False of the code for both packages: C103_reopen_leaks_violated, C103_nflog_reopen_leaks_violated.",
 "C104": "False of the code: C104_no_socket_violated, for every argument.",
 "C105": "False of the code: C105_queue_ignored_violated, for every other queue number. For the handle's own number the claim is C17/C18.",
 "C106": "The accessors and the reverse hash agree (C106_test_packet_partial); the forward hash never does (C106_test_packet_hash_violated).",
 "C111": "Proved for connections without address translation; refuted for translated ones (never matched). Also on tables that list connections of both families (C111_found_either_family_partial).",
 "C112": "Proved: nothing is sent. Refuted: the error is nil. A flow of the other family that resembles the connection is updated instead (C112_other_family_violated).",
 "C113": "Proved for the single call; refuted for the bulk call, which ignores mark 0 and reports success.",
 "C114": "Refuted in general: the count is 0 whatever was done. Without a failure the count is exact (C42, C43).",
 "C115": "Proved for tables that are not empty and whose first connection is untranslated; refuted otherwise (crash, or no update).",
 "C117": "Partial for the same reasons as C20 and C100: on one queue SetVerdict2 calls have to be serialised by the application (C20_verdict2_mixes), and packets copied out of the receive buffer (C98). Calls on different queues need no serialisation. Readers start when all queues have been created. C117_lock_completes: with a mutex per queue no call waits for ever; C117_failed_start: a queue that cannot be started leaves the others as they were.",
 "C121": "Violated by the code; C121_closes_anothers_violated exhibits it for all such kernels. The part that holds (kernels whose close succeeds) is C120_own_socket.",
 "C122": "Violated by the code; the two theorems exhibit it for all arguments and all kernels that reuse the descriptor number. The part that holds (no queue is stopped) is C117/C119.",
 "C125": "Violated by the code; the theorems exhibit it for every complete packet and every copy range that is too small. The part that holds is C124.",
 "C128": "Violated by the code; the theorem exhibits it for every open handle, every kernel and every further call.",
 "C130": "Proved for every protocol but TCP, including the exact outcome on a kernel whose system calls do not fail; violated for TCP (consequence of C40), which C130_tcp_violated proves for every table that has the connection.",
 "C132": "Proved except for: up to two packets that come during the start are taken for acknowledgements and never handed over (C132_missed_violated), packets longer than the copy range leave cut (C132_cut_violated); on a big-endian host a left-over acknowledgement hangs the reader (C83).",
 "C134": "Proved from the moment the first NewNFQueue returns; before, the functions crash (C134_unset_violated).",
 "C135": "",
 "C136": "Holds if no log arrives during the start (C136_partial). False otherwise: a datagram of logs is taken for an acknowledgement, so a refusal can go unnoticed (C136_violated).",
 "C137": "Exactly what the start itself received is lost (C137_partial), and it can be something (C137_violated).",
 "C138": "",
 "C139": "",
 "C140": "",
 "C141": "",
 "C42": "Exact for flows and arguments of both families (C42_either_family); among IPv4 flows the matching ones are exactly those of the connection (C42_bulk_mark); when the kernel accepts everything the exact count is returned on tables of both families (C42_all_acknowledged_either_family).",
 "C43": "Exact for flows and arguments of both families (C43_either_family); among IPv4 flows the matching ones are exactly those of the connection (C43_bulk_label); likewise C43_all_acknowledged_either_family.",
 "C142": "Starting to listen is one step of the schedule.",
 "C143": "Starting to listen is one step of the schedule; the kernel gives out no descriptor that is still open.",
 "C144": "Starting a queue is one step of the schedule; the callback's verdict call is made in the callback; a little-endian host.",
 "C145": "A call's reading of the kernel's replies is per socket; that the labels of TCP connections are refused (C40, C130) is part of the effect stated here.",
 "C147": "Violated for every packet with a payload: UDPDataDetach does not change the total length kept, and UDPTokenAttach adds to it; the IP header then states the old payload's length too much.",
 "C162": "false of the code: the channel is made at NewNFQueue and nothing is ever sent on it, nor is it closed (C162_always_empty_violated, for every history of calls; C162_started for handles of CreateAndStartNfQueue); C162_not_announced_violated exhibits a history in which a packet reached the callback and nothing can be received from the channel",
 "C163": "callbacks may use the handle by any call but NFlogOpen and NFlogBindGroup, and no other socket (CallbackWithin); the calls on the handle follow one another",
 "C164": "the parsed slices are apart up to their lengths, their capacities may overlap; calls follow one another (no two at once); slices handed to operations come from memory valid at the start, outside every packet's IP and fixed TCP header; only where options and data are kept in memory, not their bytes, may differ from the run alone",
 "C165": "contents agree up to the capacity, not only the length: New reads some header fields beyond the length of a short slice when the capacity allows it",
 "C166": "accepted TCP packets with length validation; a short or refused packet can read its spare capacity (C165 covers those, with equal contents up to the capacity)"
}