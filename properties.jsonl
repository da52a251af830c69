{"id": "C01", "title": "Alignment helpers round up to the next multiple of 4", "statement": "NlMsgAlign, NfaAlign32, NfaAlign and nflog.NfaAlign16 return the least multiple of 4 that is >= the argument whenever that multiple fits the word size; for the last three values of the word size (where it does not fit) they return 0.", "quantifier": "every uint32 (NlMsgAlign, NfaAlign32) and every uint16 (NfaAlign, NfaAlign16)", "why_tests_cant": "2^32 inputs and a wrap-around corner; tests sample a few lengths", "anchors": ["common/helpers.go:NlMsgAlign", "common/helpers.go:NfaAlign", "common/helpers.go:NfaAlign32", "nflog/helpers.go:NfaAlign16"]}
{"id": "C02", "title": "Netlink header survives serialise/parse on either byte order", "statement": "For every header value and every trailing payload, parsing SerializeNlMsgHdr(h) followed by the payload with NetlinkMessageToStruct yields exactly h and that payload, on little- and big-endian hosts; SerializeNlMsgHdrBuf writes the same 16 bytes into the front of any buffer of >= 16 bytes, leaves every later byte untouched and reports 16; a buffer shorter than 16 bytes is rejected with an error rather than a crash.", "quantifier": "every header field value, every payload, every buffer, both byte orders", "why_tests_cant": "value space is 2^128 headers times all payloads; tests run on one byte order", "anchors": ["common/helpers.go:SerializeNlMsgHdr", "common/helpers.go:SerializeNlMsgHdrBuf", "common/helpers.go:NetlinkMessageToStruct"]}
{"id": "C03", "title": "nfgenmsg survives serialise/parse and always carries the resource id in network order", "statement": "For every family, version and resource id: ToWireFormat yields 4 bytes family, version, id-high, id-low regardless of host byte order; ToWireFormatBuf writes those same bytes in place and nothing else; NetlinkMessageToNfGenStruct inverts it and returns the rest of the buffer.", "quantifier": "every family, version, resource id and trailing buffer", "why_tests_cant": "2^32 values times all buffers", "anchors": ["common/helpers.go:NfqGenMsg.ToWireFormat", "common/helpers.go:NfqGenMsg.ToWireFormatBuf", "common/helpers.go:NetlinkMessageToNfGenStruct"]}
{"id": "C04", "title": "Attribute builders keep the message length in step with the attribute", "statement": "BuildNfAttrMsg sets the attribute length to header (4) plus data rounded up to 4 and increases the message header length by exactly that amount; BuildNfNestedAttrMsg sets the same length without touching the header; BuildNfAttrWithPaddingMsg stores the given length verbatim. Exact for every dataLen <= 65528.", "quantifier": "every attribute type, every dataLen up to the uint16 limit, every starting header", "why_tests_cant": "unbounded combinations, with silent uint16 truncation above the limit", "anchors": ["common/helpers.go:BuildNfAttrMsg", "common/helpers.go:BuildNfNestedAttrMsg", "common/helpers.go:BuildNfAttrWithPaddingMsg", "common/helpers.go:NfaLength"]}
{"id": "C05", "title": "Attribute parser inverts attribute encoding", "statement": "For every list of attributes with payloads <= 65531 bytes encoded back to back with 4-byte padding, NetlinkMessageToNfAttrStruct succeeds with no rest and, for each attribute type the caller registered (below 11), the stored data is the payload of the last attribute of that type (or what was stored before when the message has none); no other entry changes.", "quantifier": "every attribute list (any number, order, repetition, payload), every set of registered types", "why_tests_cant": "unbounded lists and payloads, including repeated and unknown types", "anchors": ["common/helpers.go:NetlinkMessageToNfAttrStruct"]}
{"id": "C06", "title": "Attribute parser rejects truncated attributes and stays inside the buffer", "statement": "On every buffer: if the parser returns, the data it stored lies inside the buffer; and it reports Bad Attr exactly when the walk reaches an attribute header whose claimed length runs past the end of the buffer.", "quantifier": "every byte buffer", "why_tests_cant": "adversarial lengths: 2^16 lengths at every position", "anchors": ["common/helpers.go:NetlinkMessageToNfAttrStruct"]}
{"id": "C07", "title": "Attribute parser terminates and does not crash on any input", "statement": "NetlinkMessageToNfAttrStruct returns (with or without error) on every byte buffer. (The code violates this for attribute lengths below 4: length 0 of an unregistered type loops forever, length < 4 of a registered type crashes; it holds for every buffer whose attribute lengths are all >= 4.)", "quantifier": "every byte buffer", "why_tests_cant": "non-termination cannot be observed by a finite test; the space of malformed buffers is unbounded", "anchors": ["common/helpers.go:NetlinkMessageToNfAttrStruct"]}
{"id": "C08", "title": "IPv4 address and integer conversions are inverse", "statement": "IP2int(Int2ip(n)) = n for every n; Int2ip(IP2int(ip)) = ip for every 4-byte ip; a 16-byte ip converts to the integer of its last 4 bytes; conversion of an address shorter than 4 bytes (e.g. nil) crashes.", "quantifier": "every uint32 and every byte slice", "why_tests_cant": "2^32 values plus every slice length", "anchors": ["common/helpers.go:IP2int", "common/helpers.go:Int2ip"]}
{"id": "C09", "title": "Netlink error messages decode to the kernel's signed error code", "statement": "For every signed 32-bit code and every echoed header, NetlinkErrMessagetoStruct of the encoded error message returns that code and that header, on either byte order; payloads of 4..19 bytes still yield the code (with a nil header).", "quantifier": "every error code, echoed header, trailing bytes, both byte orders", "why_tests_cant": "2^160 values", "anchors": ["common/helpers.go:NetlinkErrMessagetoStruct"]}
{"id": "C10", "title": "Fixed-size value attributes encode big-endian in a 4-byte slot", "statement": "NfValue8/16/32.ToWireFormat always yield 4 bytes holding the value big-endian from the first byte with zero padding; the Buf variants overwrite only the bytes of the value and report 4.", "quantifier": "every value and every destination buffer", "why_tests_cant": "2^32 values times arbitrary buffer contents", "anchors": ["common/helpers.go:NfValue8.ToWireFormat", "common/helpers.go:NfValue16.ToWireFormat", "common/helpers.go:NfValue32.ToWireFormat"]}
{"id": "C11", "title": "Syscall wrappers retry a failed call exactly once and report the truth", "statement": "Bind, SetsockoptInt, Close and Sendto issue one raw call when it succeeds and exactly two when the first fails; they return nil iff one of the calls succeeded and otherwise the second error. Socket, Recvfrom and Syscall issue exactly one raw call, and on failure return -1 (or 0) with the error. Hence a nil Sendto means the kernel accepted the message exactly once.", "quantifier": "every kernel behaviour (any sequence of raw results)", "why_tests_cant": "the second raw call is only reached on kernel failure and its result is independent of the first", "anchors": ["common/syscallwrappers/syscalls.go"]}
{"id": "C12", "title": "Queue configuration requests are well-formed netlink messages with the requested parameters", "statement": "For every queue number, copy mode, copy range and queue length, UnbindPf, BindPf, CreateQueue, NfqSetMode, NfqSetQueueMaxLen and NfqDestroyQueue each send exactly one message whose stated length equals the bytes sent, whose type is nfqueue config with REQUEST|ACK, and which decodes (by an independent netlink decoder) to the right resource id and a single attribute carrying exactly the requested command or parameters.", "quantifier": "every queue number, mode, range, length, both byte orders", "why_tests_cant": "the product of all parameter values; mocks never check the bytes", "anchors": ["nfqueue/nfqueue.go:UnbindPf", "nfqueue/nfqueue.go:BindPf", "nfqueue/nfqueue.go:CreateQueue", "nfqueue/nfqueue.go:NfqSetMode", "nfqueue/nfqueue.go:NfqSetQueueMaxLen", "nfqueue/nfqueue.go:NfqDestroyQueue"]}
{"id": "C13", "title": "Configuration without an open socket fails cleanly", "statement": "Before a successful NfqOpen every configuration call of nfqueue returns an error and performs no system call, for every argument; nflog's NFlogBind and NFlogUnbind likewise.", "quantifier": "every argument and every kernel", "why_tests_cant": "universally quantified over arguments and the (unused) environment", "anchors": ["nfqueue/nfqueue.go", "nflog/nflog.go:NFlogBind", "nflog/nflog.go:NFlogUnbind"]}
{"id": "C14", "title": "A configuration call succeeds exactly when the kernel acknowledged it", "statement": "For every kernel behaviour in which the reply to a configuration request has between 20 bytes and one byte less than the receive buffer: the call returns nil iff the send succeeded, the receive succeeded and the reply is not an error message with a non-zero code.", "quantifier": "every request, every reply content and length, every errno", "why_tests_cant": "replies are arbitrary byte strings", "anchors": ["nfqueue/nfqueue.go:NfqSockHandle.query", "nfqueue/nfqueue.go:NfqSockHandle.recv", "nflog/sockets.go:recv", "conntrack/sockets.go:recv"]}
{"id": "C15", "title": "Starting a queue performs the documented sequence and only then starts the reader", "statement": "CreateAndStartNfQueue returns a handle only if socket, bind and the five requests (unbind pf, bind pf, bind queue, set mode copy-packet with the given size, set max length) were all acknowledged, in that order, on one descriptor; the reader starts only in that case; otherwise it returns an error.", "quantifier": "every kernel behaviour, every argument", "why_tests_cant": "all failure points of an 8-step protocol with arbitrary replies", "anchors": ["nfqueue/nfqueue.go:CreateAndStartNfQueue"]}
{"id": "C16", "title": "A failed start never leaks a descriptor", "statement": "Whenever CreateAndStartNfQueue (or nflog's BindAndListenForLogs) returns an error, every socket it opened has been closed exactly once. (Violated when bind(2) itself fails: the socket is never closed; holds for every other failure point.)", "quantifier": "every kernel behaviour", "why_tests_cant": "requires every crash/failure point", "anchors": ["nfqueue/nfqueue.go:CreateAndStartNfQueue", "nfqueue/nfqueue.go:NfqOpen", "nflog/nflog.go:NFlogOpen", "nflog/nflog.go:BindAndListenForLogs"]}
{"id": "C17", "title": "SetVerdict2 tells the kernel exactly the verdict, mark, id and packet given", "statement": "For every verdict, mark, packet id, queue and every packet with packetLen = len(packet), the bytes handed to sendmsg decode to one verdict message for that queue with exactly that verdict, mark, id and payload, and the stated message length covers all attributes. (Holds for 1 <= len <= 65531; an empty packet crashes, longer ones wrap the 16-bit attribute length.)", "quantifier": "every verdict, mark, id, queue number, packet bytes and length", "why_tests_cant": "payload lengths straddle alignment and 16-bit wrap corners; mocks never check bytes", "anchors": ["nfqueue/nfqueue.go:SetVerdict2"]}
{"id": "C18", "title": "SetVerdict tells the kernel exactly the verdict, id and packet given", "statement": "As C17 for SetVerdict (no mark). (The code rounds the payload attribute length up to 4, so the payload the kernel decodes is the packet followed by up to 3 zero bytes: exact only for lengths that are multiples of 4.)", "quantifier": "every verdict, id, queue number, packet bytes and length", "why_tests_cant": "as C17", "anchors": ["nfqueue/nfqueue.go:SetVerdict"]}
{"id": "C19", "title": "Verdict messages do not depend on earlier verdicts", "statement": "In every sequence of SetVerdict2 and SetVerdict calls on one queue, each emitted message is a function of that call's arguments and the queue number only, although SetVerdict2 reuses one scratch header buffer.", "quantifier": "every sequence of verdict calls with arbitrary arguments, every initial scratch content", "why_tests_cant": "unbounded histories", "anchors": ["nfqueue/nfqueue.go:SetVerdict2", "nfqueue/nfqueue.go:SetVerdict"]}
{"id": "C20", "title": "Concurrent verdicts from several goroutines do not mix", "statement": "For every interleaving of verdict calls on one queue from any number of goroutines, each emitted message is the one its call would emit alone. (Holds for SetVerdict; violated by SetVerdict2, whose header buffer is shared: it holds only for serialised schedules.)", "quantifier": "every schedule of any number of goroutines", "why_tests_cant": "exponentially many schedules; races are not reproducible by tests", "anchors": ["nfqueue/nfqueue.go:SetVerdict2", "nfqueue/nfqueue.go:SetVerdict", "nfqueue/nfqueue.go:NfQueue.hdrSlice"]}
{"id": "C21", "title": "The packet id handed to the callback identifies the packet to the kernel when handed back", "statement": "For every packet header attribute received, passing the callback's ID to SetVerdict or SetVerdict2 puts the very same 4 id bytes into the verdict message, on either byte order.", "quantifier": "every 4-byte id, both byte orders", "why_tests_cant": "2^32 ids and a byte order the test machine does not have", "anchors": ["nfqueue/helpers.go:GetPacketInfo", "nfqueue/nfqueue.go:SetVerdict2"]}
{"id": "C22", "title": "A delivered packet carries the id, mark and payload of its own message", "statement": "For every history of datagrams, the NFPacket passed to the callback holds the packet id, mark (0 when absent) and payload of the datagram just received. (Violated: attributes missing from a message keep the slice stored by an earlier one, which aliases the reused receive buffer; holds for every message that carries all three attributes, whatever the history.)", "quantifier": "every history of received datagrams", "why_tests_cant": "history-dependent aliasing of a reused buffer", "anchors": ["nfqueue/nfqueue.go:Recv", "nfqueue/helpers.go:GetPacketInfo", "common/helpers.go:NetlinkMessageToNfAttrStruct"]}
{"id": "C23", "title": "Packets are delivered once each, in arrival order, errors go to the error callback", "statement": "With an error callback installed, for every sequence of receive outcomes ProcessPackets invokes, in order, the packet callback once per well-formed datagram and the error callback once per failure and nothing else, and passes the private data through; the processed-packets counter equals the number of packet callbacks.", "quantifier": "every finite sequence of receive results", "why_tests_cant": "unbounded sequences of arbitrary results", "anchors": ["nfqueue/nfqueue.go:ProcessPackets"]}
{"id": "C24", "title": "The packet callback only sees successfully received packets", "statement": "ProcessPackets never invokes the packet callback for a failed receive. (Violated when no error callback is installed: it then calls the packet callback with id 0, mark 0 and no data, or with partially updated data.)", "quantifier": "every configuration and receive outcome", "why_tests_cant": "needs all outcomes x configurations", "anchors": ["nfqueue/nfqueue.go:ProcessPackets"]}
{"id": "C25", "title": "Cancelling the context stops delivery and closes the socket", "statement": "Once the context is done at the top of the loop, ProcessPackets closes the socket exactly once, performs no further receive and invokes no further callback; at most one datagram is delivered after cancellation (the one whose receive was already in progress).", "quantifier": "every cancellation point in every sequence of receive results", "why_tests_cant": "every interleaving of cancellation with the loop", "anchors": ["nfqueue/nfqueue.go:ProcessPackets"]}
{"id": "C26", "title": "Receiving never crashes the process", "statement": "Recv returns for every datagram the kernel delivers. (Violated for datagrams shorter than 16 bytes, 16..19 bytes, and for attributes with length < 4; holds for every datagram of >= 20 bytes whose attribute lengths are all >= 4 and whose id and mark attributes are at least 4 bytes.)", "quantifier": "every datagram", "why_tests_cant": "arbitrary byte strings", "anchors": ["nfqueue/nfqueue.go:Recv", "nfqueue/helpers.go:GetPacketInfo"]}
{"id": "C27", "title": "Setting a verdict does not alter the packet the application holds", "statement": "SetVerdict and SetVerdict2 leave every byte of the packet slice unchanged; the only memory of the caller they may write is at most 3 bytes immediately after the slice, inside its capacity, which become zero.", "quantifier": "every packet slice, every capacity, every heap content", "why_tests_cant": "depends on slice capacity and aliasing", "anchors": ["nfqueue/nfqueue.go:SetVerdict", "nfqueue/nfqueue.go:SetVerdict2"]}
{"id": "C28", "title": "Verdict payload never includes memory outside the packet slice", "statement": "The bytes sent as payload always come from the packet slice followed by zero padding. (Holds for SetVerdict2 for every packetLen and for SetVerdict when packetLen <= len(packet); SetVerdict with packetLen beyond the slice makes the kernel read adjacent memory.)", "quantifier": "every packetLen and packet", "why_tests_cant": "memory over-read is not visible in results", "anchors": ["nfqueue/nfqueue.go:SetVerdict", "nfqueue/nfqueue.go:SetVerdict2"]}
{"id": "C29", "title": "StopQueue unbinds before closing", "statement": "StopQueue sends the unbind request for the handle's queue; it closes the socket exactly once if and only if the unbind was acknowledged, and otherwise returns the error with the socket still open.", "quantifier": "every kernel behaviour and queue number", "why_tests_cant": "every failure point", "anchors": ["nfqueue/nfqueue.go:StopQueue", "nfqueue/nfqueue.go:NfqDestroyQueue"]}
{"id": "C30", "title": "Log-group requests are well-formed and sent once per group in order", "statement": "For every list of groups, NFlogBindGroup and NFlogSetMode on an open socket send one request per group, in order, each decoding to that group's bind command / copy-packet mode with the given range, with stated length equal to bytes sent; they stop at the first request the kernel refuses and return its error, and return nil iff all were acknowledged.", "quantifier": "every group list, copy range and kernel behaviour", "why_tests_cant": "unbounded lists, every failure point", "anchors": ["nflog/nflog.go:NFlogBindGroup", "nflog/nflog.go:NFlogSetMode", "nflog/nflog.go:NFlogBind", "nflog/nflog.go:NFlogUnbind"]}
{"id": "C31", "title": "Binding a log group without an open socket reports an error", "statement": "NFlogBindGroup and NFlogSetMode return an error when no socket is open. (Violated: they return nil and do nothing.)", "quantifier": "every group list", "why_tests_cant": "universally quantified over arguments", "anchors": ["nflog/nflog.go:NFlogBindGroup", "nflog/nflog.go:NFlogSetMode"]}
{"id": "C32", "title": "Listening for logs starts only after every group is bound and configured", "statement": "BindAndListenForLogs returns a handle and starts the reader iff the socket was opened and bound and every group was bound and configured; on failure after opening and binding (what happens when bind(2) itself fails is C16), the socket is closed exactly once and no reader starts.", "quantifier": "every group list and kernel behaviour", "why_tests_cant": "every failure point of an unbounded protocol", "anchors": ["nflog/nflog.go:BindAndListenForLogs"]}
{"id": "C33", "title": "Parsing a log message always terminates", "statement": "parsePacket returns or crashes after at most one step per 4 bytes of input and two more, for every input: it never loops forever.", "quantifier": "every byte buffer", "why_tests_cant": "non-termination is not testable", "anchors": ["nflog/nflog.go:parsePacket"]}
{"id": "C34", "title": "A well-formed log message is delivered with its own prefix, payload and addresses", "statement": "For every nflog message body made of well-formed attributes, the callback is invoked once per payload attribute, in order, with Payload equal to that attribute's bytes, Prefix equal to the last preceding prefix without its terminating NUL, and addresses, protocol, total length, id and ports equal to those in the IP header of that payload.", "quantifier": "every attribute list, prefix and payload whose IP header is acceptable", "why_tests_cant": "unbounded attribute lists and payloads", "anchors": ["nflog/nflog.go:parsePacket"]}
{"id": "C35", "title": "The last byte of a log message is delivered", "statement": "For every netlink datagram carrying one log message whose payload attribute comes last, the delivered Payload equals the attribute's bytes. (Violated when the payload length is a multiple of 4: the last byte is cut off and reads as 0; holds otherwise.)", "quantifier": "every message", "why_tests_cant": "off-by-one visible only for one residue class of lengths", "anchors": ["nflog/nflog.go:parseLog"]}
{"id": "C36", "title": "Parsing a datagram of log messages terminates", "statement": "parseLog returns for every datagram. (Violated: a message length of 0 or 1..15 trailing bytes loops forever; holds whenever every message length is >= 16 and the messages tile the datagram.)", "quantifier": "every datagram", "why_tests_cant": "non-termination is not testable", "anchors": ["nflog/nflog.go:parseLog"]}
{"id": "C37", "title": "All log messages of one datagram are delivered in order", "statement": "For every datagram that is a concatenation of messages (each of length >= 20, lengths adding up), parseLog delivers the log messages among them in order, skips all other message types, and stops with an error at the first message that does not parse (one whose payload makes the packet parser crash is C77; which datagrams are read, crash or hang the reader is C36 and C77).", "quantifier": "every list of messages", "why_tests_cant": "unbounded lists", "anchors": ["nflog/nflog.go:parseLog"]}
{"id": "C38", "title": "The log reader survives overruns and stops on other errors", "statement": "In every run of ReadLogs, for every sequence of receive results and any number of iterations it survives (datagrams that crash or hang the parser are C36 and C77): it reports every receive and parse error to the error callback, continues after ENOBUFS and parse errors, stops at the first other receive error, and closes the socket exactly once when it stops and never before; if all datagrams are well-formed it survives every number of iterations.", "quantifier": "every sequence of receive results", "why_tests_cant": "unbounded sequences", "anchors": ["nflog/nflog.go:ReadLogs"]}
{"id": "C39", "title": "A mark update names exactly the requested connection and mark", "statement": "For every IPv4 source, destination, protocol, ports and mark, the request sent by ConntrackTableUpdateMark has stated length equal to the bytes sent and decodes (by an independent nested-attribute decoder) to a conntrack update whose original tuple is exactly those addresses, protocol and ports, and whose mark is exactly that mark.", "quantifier": "every address pair, protocol, port pair, mark, both byte orders", "why_tests_cant": "2^136 tuples; hard-coded nested sizes", "anchors": ["conntrack/conntrack.go:ConntrackTableUpdateMark", "conntrack/conntrack.go:buildConntrackUpdateRequest", "conntrack/conntrack.go:appendMark"]}
{"id": "C40", "title": "A label update names exactly the requested connection and label", "statement": "As C39 for ConntrackTableUpdateLabel with labels in host order, for every protocol; for TCP the request also carries the TCP flags attributes in well-formed nested form. (The TCP flags attributes are malformed in the code: their stated length excludes their value; everything else holds.)", "quantifier": "every tuple of IPv4 addresses, list of IPv4 flows and label", "why_tests_cant": "as C39", "anchors": ["conntrack/conntrack.go:ConntrackTableUpdateLabel", "conntrack/conntrack.go:appendLabel", "conntrack/conntrack.go:appendProtoInfo"]}
{"id": "C41", "title": "Flow matching is exact in both directions", "statement": "A flow is considered present iff its forward tuple is (src, dst, proto, sport, dport) and its reverse tuple is the mirror image, comparing addresses as IPv4 addresses. (Exact for IPv4 addresses in 4- or 16-byte form; IPv6 addresses are compared by their last 4 bytes only, so distinct IPv6 endpoints can match.)", "quantifier": "every flow and every tuple", "why_tests_cant": "product of 10 fields", "anchors": ["conntrack/conntrack.go:checkTuplesInFlow"]}
{"id": "C42", "title": "Bulk mark update reports exactly the number of requests acknowledged", "statement": "ConntrackTableUpdateMarkForAvailableFlow with a non-zero mark sends one request per matching flow, in order (a flow matches when ports, protocol and the last four bytes of the addresses do, in both directions: among IPv4 flows exactly those of the named connection), and returns (number of matches, nil) if all are acknowledged; at the first failure it stops and returns (0, error); with mark 0 it sends nothing and returns 0.", "quantifier": "every list of flows with 4- or 16-byte addresses, tuple, mark, kernel behaviour", "why_tests_cant": "unbounded flow lists and failure points", "anchors": ["conntrack/conntrack.go:ConntrackTableUpdateMarkForAvailableFlow"]}
{"id": "C43", "title": "Bulk label update reports exactly the number of requests acknowledged", "statement": "ConntrackTableUpdateLabel sends one request per matching flow, in order (a flow matches when ports, protocol and the last four bytes of the addresses do, in both directions: among IPv4 flows exactly those of the named connection), and returns (number of matches, nil) if all are acknowledged; at the first failure it stops and returns (0, that error).", "quantifier": "every list of flows with 4- or 16-byte addresses, tuple, label, kernel behaviour", "why_tests_cant": "unbounded flow lists and failure points", "anchors": ["conntrack/conntrack.go:ConntrackTableUpdateLabel"]}
{"id": "C44", "title": "Each conntrack request uses its own socket, closed exactly once", "statement": "Every conntrack update opens one netlink socket per request and closes it exactly once before returning, whether or not the request succeeds; when the socket cannot be opened the call returns that error. (The last part is violated: a nil handle is used and the process crashes; a failed bind(2) additionally leaks the descriptor.)", "quantifier": "every kernel behaviour", "why_tests_cant": "every failure point", "anchors": ["conntrack/conntrack.go:sendMessage", "conntrack/sockets.go:open"]}
{"id": "C45", "title": "Invalid addresses are reported, not fatal", "statement": "Conntrack update calls given a string that is not an IP address return an error. (Violated: they crash, before any system call.)", "quantifier": "every invalid address string", "why_tests_cant": "all strings", "anchors": ["conntrack/conntrack.go:buildConntrackUpdateRequest", "common/helpers.go:IP2int"]}
{"id": "C46", "title": "Listing the connection table passes entries through and never returns an empty success", "statement": "ConntrackTableList returns exactly the library's entries when it returned a non-nil list without error, and an error otherwise.", "quantifier": "every library result", "why_tests_cant": "quantifies over the library's behaviour", "anchors": ["conntrack/conntrack.go:ConntrackTableList"]}
{"id": "C47", "title": "An accepted IPv4 packet reports the fields on the wire", "statement": "For every buffer New accepts as IPv4: version, header length 20, protocol, total length, id, checksum, source and destination address equal the header fields; for TCP/UDP the ports (and TCP seq, ack, data offset, flags, checksum) equal the transport header fields; for other protocols both ports are 0.", "quantifier": "every accepted buffer", "why_tests_cant": "all byte strings", "anchors": ["common/packet/packet.go:New", "common/packet/packet.go:parseIPv4Packet", "common/packet/packet.go:parseTCP", "common/packet/packet.go:parseUDP"]}
{"id": "C48", "title": "An accepted IPv6 packet reports the fields on the wire", "statement": "As C47 for IPv6: next header, payload length + 40, 16-byte addresses, ports.", "quantifier": "every accepted buffer", "why_tests_cant": "all byte strings", "anchors": ["common/packet/packet.go:parseIPv6Packet"]}
{"id": "C49", "title": "Length validation accepts exactly complete packets and trims trailing bytes", "statement": "With length validation, New accepts an IPv4 buffer of fewer than 65536 bytes iff it has at least 20 bytes, no IP options, a stated length not exceeding the bytes available and large enough for its transport header (modulo 16-bit arithmetic); the accepted packet's buffer is exactly the first stated-length bytes.", "quantifier": "every buffer below 64 KiB", "why_tests_cant": "all byte strings and boundary lengths", "anchors": ["common/packet/packet.go:New", "common/packet/packet.go:parseIPv4Packet"]}
{"id": "C50", "title": "Parsing never crashes", "statement": "New returns for every byte buffer. (Violated: an empty buffer, a short non-IPv4 buffer, a TCP/UDP packet whose captured bytes are fewer than its transport header without length validation, and stated lengths below 20 crash; the exact crash set is characterised.)", "quantifier": "every byte buffer, both validation modes", "why_tests_cant": "all byte strings", "anchors": ["common/packet/packet.go:New"]}
{"id": "C51", "title": "Checksums are the Internet checksum", "statement": "For every buffer up to 128 KiB the checksum routine equals the RFC 1071 checksum (complement of the end-around-carry sum of big-endian 16-bit words, odd byte padded with zero), and splitting a buffer at even offsets into partial checksums gives the same result.", "quantifier": "every buffer and every even split", "why_tests_cant": "all byte strings; carry propagation corners", "anchors": ["common/packet/helpers.go:checksum", "common/packet/helpers.go:checksumDelta", "common/packet/helpers.go:csumConvert32To16bit", "common/packet/helpers.go:partialChecksum", "common/packet/helpers.go:finalizeChecksum"]}
{"id": "C52", "title": "VerifyIPv4Checksum is true exactly for headers with a valid RFC 791 checksum, and modifies nothing", "statement": "On every freshly parsed IPv4 packet VerifyIPv4Checksum returns true iff the checksum field equals the RFC 1071 checksum of the header with that field zeroed, and leaves the packet bytes unchanged.", "quantifier": "every accepted IPv4 packet with at least 12 bytes left in its buffer (a packet trimmed shorter, see C94, crashes)", "why_tests_cant": "all headers", "anchors": ["common/packet/helpers.go:VerifyIPv4Checksum", "common/packet/helpers.go:computeIPv4Checksum"]}
{"id": "C53", "title": "UpdateIPv4Checksum makes the header verify and touches only the checksum", "statement": "After UpdateIPv4Checksum on any accepted packet, VerifyIPv4Checksum is true, the receiver-side check (one's complement sum over the header is all-ones) passes, and only bytes 10 and 11 may differ.", "quantifier": "every accepted IPv4 packet with at least 12 bytes left in its buffer (a packet trimmed shorter, see C94, crashes)", "why_tests_cant": "all headers", "anchors": ["common/packet/helpers.go:UpdateIPv4Checksum"]}
{"id": "C54", "title": "UpdateTCPChecksum makes the segment verify and touches only the checksum", "statement": "After UpdateTCPChecksum on any accepted TCP packet, VerifyTCPChecksum is true, only the two checksum bytes changed, and the value is the RFC 793 checksum over pseudo-header and segment, for IPv4 and IPv6. (For packets with attached options/data the value is the RFC one when the buffer part has even length; with an odd-length buffer part the attached bytes are summed misaligned.)", "quantifier": "every accepted TCP packet, every attached options/data", "why_tests_cant": "all segments; alignment corner", "anchors": ["common/packet/helpers.go:UpdateTCPChecksum", "common/packet/helpers.go:computeTCPChecksum", "common/packet/helpers.go:VerifyTCPChecksum"]}
{"id": "C55", "title": "Incremental length fix-up preserves header checksum validity", "statement": "If an IPv4 packet's header checksum is valid, then after FixupIPHdrOnDataModify(current total length, new) for every new length, the header's length field is new, the checksum is again exactly the RFC 1071 checksum, and only bytes 2-3 and 10-11 changed.", "quantifier": "every accepted packet with valid checksum, every new length", "why_tests_cant": "all headers x 2^16 lengths, one's complement zero corner cases", "anchors": ["common/packet/packet.go:FixupIPHdrOnDataModify", "common/packet/helpers.go:incCsum16"]}
{"id": "C56", "title": "Detaching TCP data splits the packet without losing bytes", "statement": "For every accepted TCP packet whose data offset is in range and every optionLength (multiple of 4) not exceeding its options: after TCPDataDetach the kept buffer, the detached options and the detached data concatenate to the original bytes except for the updated IP length, IP checksum and data-offset fields; the IP total length equals the kept buffer's length.", "quantifier": "every accepted packet, every option length", "why_tests_cant": "all packets", "anchors": ["common/packet/packet.go:TCPDataDetach", "common/packet/packet.go:tcpDataDetach", "common/packet/packet.go:FixuptcpHdrOnTCPDataDetach"]}
{"id": "C57", "title": "Detach followed by re-attach restores the packet", "statement": "For every accepted TCP packet with valid IP checksum and clear reserved bits: detaching, taking the options and data, dropping the detached bytes and attaching them again yields a packet whose GetTCPBytes is the original bytes.", "quantifier": "every accepted packet and option length", "why_tests_cant": "all packets; inverse of incremental checksums", "anchors": ["common/packet/packet.go:TCPDataDetach", "common/packet/packet.go:TCPDataAttach", "common/packet/packet.go:GetTCPBytes", "common/packet/packet.go:DropTCPDetachedBytes"]}
{"id": "C58", "title": "Attached packets state their true length", "statement": "For every accepted TCP packet after TCPDataDetach(n), DropTCPDetachedBytes, TCPDataAttach(options, data) with total below 64 KiB: GetTCPBytes is kept header ++ options ++ data, the IP total length equals its length, the data offset points at data, and a valid IP header checksum is still valid.", "quantifier": "every accepted packet, options (multiple of 4), data", "why_tests_cant": "all packets and attachments", "anchors": ["common/packet/packet.go:TCPDataAttach", "common/packet/packet.go:FixuptcpHdrOnTCPDataAttach"]}
{"id": "C59", "title": "Attaching never corrupts detached data", "statement": "Re-attaching after a detach leaves the detached data as it was. (Violated when options are attached without first dropping detached options: the append writes over the detached data, which shares the packet's memory; holds after DropTCPDetachedBytes.)", "quantifier": "every packet, option and data", "why_tests_cant": "slice capacity aliasing", "anchors": ["common/packet/packet.go:tcpDataAttach", "common/packet/packet.go:tcpDataDetach"]}
{"id": "C60", "title": "TCP sequence and acknowledgement adjustments are exact and reversible", "statement": "IncreaseTCPSeq/DecreaseTCPSeq (and Ack) add/subtract modulo 2^32, write the new value big-endian at its place on the wire and nothing else, and undo each other; any sequence of adjustments equals the net adjustment.", "quantifier": "every packet, every sequence of increments and decrements", "why_tests_cant": "wrap-around and unbounded sequences", "anchors": ["common/packet/packet.go:IncreaseTCPSeq", "common/packet/packet.go:DecreaseTCPSeq", "common/packet/packet.go:IncreaseTCPAck", "common/packet/packet.go:DecreaseTCPAck"]}
{"id": "C61", "title": "ConvertAcktoFinAck yields a data-less FIN/ACK of consistent length", "statement": "For every accepted TCP packet with in-range data offset, ConvertAcktoFinAck returns nil; afterwards the flags byte on the wire is FIN|ACK, the packet is headers only, nothing is attached, and the IP total length equals its length.", "quantifier": "every accepted packet", "why_tests_cant": "all packets", "anchors": ["common/packet/helpers.go:ConvertAcktoFinAck"]}
{"id": "C62", "title": "Authentication option detection is exact, total and terminating", "statement": "For every accepted TCP packet CheckTCPAuthenticationOption terminates without crashing and returns nil iff walking the TCP options (NOP/EOL one byte, others by their length) reaches an option of kind 34 before the options end or an option of length 0.", "quantifier": "every accepted packet", "why_tests_cant": "all option byte strings; termination", "anchors": ["common/packet/packet.go:CheckTCPAuthenticationOption"]}
{"id": "C63", "title": "UDP token attach and read are inverse and lengths stay consistent", "statement": "After CreateReverseFlowPacket, UDPTokenAttach(marker, token) with a 20-byte marker makes ReadUDPToken return exactly token; the IP total length and UDP length fields equal the actual lengths while they fit 16 bits.", "quantifier": "every accepted UDP packet that holds its UDP header, marker, token", "why_tests_cant": "all packets and tokens", "anchors": ["common/packet/helpers.go:UDPTokenAttach", "common/packet/helpers.go:ReadUDPToken", "common/packet/helpers.go:fixupUDPHdr"]}
{"id": "C64", "title": "UDP control packets are recognised exactly by their signature", "statement": "GetUDPTypeFromBuffer returns the type nibble iff the buffer has at least 28 bytes and carries the 18-byte signature at offset 10, and 0 otherwise; a marker made by CreateUDPAuthMarker(t) after any 8-byte UDP header is recognised with type t & 0xF0.", "quantifier": "every buffer and type", "why_tests_cant": "all byte strings", "anchors": ["common/packet/helpers.go:GetUDPTypeFromBuffer", "common/packet/helpers.go:CreateUDPAuthMarker", "common/packet/helpers.go:GetUDPType"]}
{"id": "C65", "title": "The reverse-flow packet swaps endpoints, drops the payload and is consistent", "statement": "For every accepted UDP packet, after CreateReverseFlowPacket source and destination address and port are exchanged both in the accessors and on the wire, the packet is exactly IP+UDP headers, IP and UDP length fields are right, the IPv4 checksum verifies, and applying it twice restores the endpoints.", "quantifier": "every accepted UDP packet that holds its UDP header, IPv4 and IPv6", "why_tests_cant": "all packets", "anchors": ["common/packet/helpers.go:CreateReverseFlowPacket"]}
{"id": "C66", "title": "IPv4 flow hash identifies the 4-tuple", "statement": "Two IPv4 packets have equal L4FlowHash right after parsing iff they have equal source and destination address and ports; L4ReverseFlowHash of one equals L4FlowHash of the other iff their 4-tuples are mirror images.", "quantifier": "every pair of accepted IPv4 packets", "why_tests_cant": "all pairs; string concatenation ambiguity", "anchors": ["common/packet/packet.go:L4FlowHash", "common/packet/packet.go:L4ReverseFlowHash"]}
{"id": "C67", "title": "IPv6 flow hash identifies the 4-tuple", "statement": "As C66 for IPv6. (Violated: distinct address pairs can print to the same concatenation because ':' is both separator and IPv6 punctuation.)", "quantifier": "every pair of accepted IPv6 packets", "why_tests_cant": "all pairs", "anchors": ["common/packet/packet.go:l4FlowHash"]}
{"id": "C68", "title": "The flow hash always describes the current endpoints", "statement": "L4FlowHash equals the hash of the packet's current addresses and ports. (Holds right after New and after every TCP operation; violated after CreateReverseFlowPacket, which swaps endpoints but keeps the cached hash.)", "quantifier": "every operation sequence", "why_tests_cant": "histories", "anchors": ["common/packet/packet.go:L4FlowHash", "common/packet/helpers.go:CreateReverseFlowPacket"]}
{"id": "C69", "title": "UDP checksum after modification", "statement": "After UDPTokenAttach, UDPDataAttach or CreateReverseFlowPacket, an IPv4 packet carries UDP checksum 0 (none) and an IPv6 packet carries the RFC 768/8200 checksum over pseudo-header and datagram.", "quantifier": "every accepted UDP packet that holds its UDP header and attachment", "why_tests_cant": "all packets", "anchors": ["common/packet/helpers.go:fixupUDPChecksum", "common/packet/helpers.go:updateUDPv6Checksum"]}
{"id": "C70", "title": "TCP flag rendering shows exactly the low six flag bits", "statement": "TCPFlagsToStr yields six characters, position i showing its letter iff the corresponding flag bit is set and '.' otherwise; two flag bytes render equally iff they agree on the low six bits.", "quantifier": "every flag byte", "why_tests_cant": "a finite domain, but the iff over pairs is not tested", "anchors": ["common/packet/types.go:TCPFlagsToStr"]}
{"id": "C71", "title": "Empty payload test is exact for freshly parsed packets", "statement": "For every accepted TCP packet with validated length, IsEmptyTCPPayload is true iff no byte follows the TCP header in the packet, and ReadTCPData returns exactly the bytes after the TCP header when the data offset is in range.", "quantifier": "every accepted packet", "why_tests_cant": "all packets", "anchors": ["common/packet/packet.go:IsEmptyTCPPayload", "common/packet/packet.go:ReadTCPData"]}
{"id": "C72", "title": "UDP payload replacement is exact", "statement": "UDPDataDetach followed by UDPDataAttach(header, data) (with buffers not sharing the packet's memory) yields IP+UDP headers ++ header ++ data with right IP and UDP lengths and, for IPv4, a header checksum that is valid if it was before; GetUDPData returns header ++ data.", "quantifier": "every accepted UDP packet that holds its UDP header, header and data", "why_tests_cant": "all packets; slice aliasing", "anchors": ["common/packet/helpers.go:UDPDataDetach", "common/packet/helpers.go:UDPDataAttach", "common/packet/packet.go:GetUDPData"]}
{"id": "C73", "title": "Verdict counters are exact under concurrency", "statement": "After every interleaving of SetVerdict calls from any number of goroutines (with serialised SetVerdict2 calls among them), the accepted and dropped packet counters have grown by exactly the number of accepting and non-accepting SetVerdict calls begun, modulo 2^64.", "quantifier": "every schedule, every number of goroutines", "why_tests_cant": "lost updates only show under particular schedules", "anchors": ["nfqueue/nfqueue.go:SetVerdict"]}
{"id": "C74", "title": "Message types split into subsystem and message", "statement": "For every message header, the subsystem id is the high byte of the type and the message type its low byte, so that the two determine the type.", "quantifier": "every header", "why_tests_cant": "all 65536 types with every other field", "anchors": ["common/helpers.go:NlMsgType", "common/helpers.go:NlMsgSubsysID"]}
{"id": "C75", "title": "Accessors keep matching the wire through any sequence of TCP edits", "statement": "For every accepted TCP packet and every sequence of the package's TCP operations (detach, drop, attach, sequence and acknowledgement adjustments, checksum updates and verifications, flag conversion), as long as each call is made within its documented range, every accessor (addresses, ports, total length, id, sequence and acknowledgement numbers, data offset, flags, checksums) still reports exactly what the packet's buffer says on the wire.", "quantifier": "every accepted packet, every finite sequence of operations, every argument", "why_tests_cant": "all operation histories of unbounded length", "anchors": ["common/packet/packet.go:TCPDataDetach", "common/packet/packet.go:TCPDataAttach", "common/packet/helpers.go:FixupTCPHdrOnTCPDataDetach", "common/packet/helpers.go:IncreaseTCPSeq"]}
{"id": "C76", "title": "The IP version in a log report is the packet's", "statement": "For every delivered log report, the reported IP version equals the version nibble of the logged packet. (Violated: it is always 4, also for IPv6 packets.)", "quantifier": "every datagram", "why_tests_cant": "all datagrams and packet versions", "anchors": ["nflog/nflog.go:parsePacket"]}
{"id": "C77", "title": "No log datagram crashes the reader", "statement": "For every datagram the kernel can deliver, parseLog does not crash. (Violated: a payload captured too short for its IP and transport headers - for example a copy range of 17 to 36 bytes with TCP traffic over IPv4 - and a log message stating a length of 16 or less crash the process; well-formed datagrams never do, C37, C38.)", "quantifier": "every datagram", "why_tests_cant": "all datagrams", "anchors": ["nflog/nflog.go:parseLog", "nflog/nflog.go:parsePacket", "common/packet/packet.go:New"]}
{"id": "C78", "title": "Updating the connection between IPv6 addresses never touches an IPv4 connection", "statement": "ConntrackTableUpdateMark given IPv6 addresses names that IPv6 connection or returns an error. (Violated: every such call sends an IPv4 update for the connection between the last four bytes of the two addresses.)", "quantifier": "every pair of IPv6 addresses, protocol, ports, mark, kernel behaviour", "why_tests_cant": "all address pairs", "anchors": ["conntrack/conntrack.go:buildConntrackUpdateRequest", "common/helpers.go:IP2int"]}
{"id": "C79", "title": "Re-attaching a packet's own UDP payload keeps it", "statement": "For every accepted UDP packet, attaching a header and the payload obtained from GetUDPData after UDPDataDetach yields header followed by that payload. (Violated: UDPDataAttach appends the header in place over the first bytes of the payload before copying it, so the wire shows header, header again, and the payload without its first bytes.)", "quantifier": "every accepted UDP packet that holds its UDP header and every header no longer than the payload", "why_tests_cant": "existing tests pass separate buffers; the aliasing depends on slice capacities", "anchors": ["common/packet/helpers.go:UDPDataAttach", "common/packet/helpers.go:UDPDataDetach", "common/packet/packet.go:GetUDPData"]}
{"id": "C80", "title": "The source-port hash identifies an endpoint", "statement": "For two accepted packets of the same IP version, SourcePortHash for the network stage is equal iff destination address and port agree, and for every other stage iff source address and port agree.", "quantifier": "all pairs of accepted packets of the same IP version and all stages", "why_tests_cant": "injectivity of a textual encoding over all 2^144 endpoints", "anchors": ["common/packet/packet.go:SourcePortHash"]}
{"id": "C81", "title": "The example application accepts every packet exactly once, unchanged", "statement": "For every kernel that sends packet and error messages on the queue's socket and may fail any call, and any number of loop iterations: the example application, once started, does not crash; every received packet is answered by exactly one verdict message, which decodes to: accept the packet with this id on this queue, mark 11, this very payload; nothing else is sent, and errors only reach the error callback.", "quantifier": "every queue number, kernel behaviour, datagram sequence and number of iterations, both byte orders", "why_tests_cant": "unbounded histories of datagrams and failures; composition of receiving and answering", "anchors": ["nfqueue/examples/example.go:passVerdict", "nfqueue/nfqueue.go:ProcessPackets", "nfqueue/nfqueue.go:SetVerdict2"]}
{"id": "C82", "title": "A packet handed to the callback stays as it was", "statement": "The Buffer of an NFPacket keeps the packet's bytes after the callback returned, until the application drops it. (Violated: it is a part of the receive buffer; after the next datagram it holds that datagram's bytes.)", "quantifier": "every pair of consecutive packet datagrams, the second at least as long as the first", "why_tests_cant": "all datagram contents; aliasing with a reused buffer", "anchors": ["nfqueue/nfqueue.go:Recv", "nfqueue/nfqueue.go:ProcessPackets", "common/helpers.go:NetlinkMessageToNfAttrStruct"]}
{"id": "C83", "title": "Only packet messages reach the application", "statement": "Messages that are not packets (acknowledgements, other types) cause no callback. (Violated: a message of any type other than error is delivered as a packet; every acknowledgement is reported as an error on little-endian hosts and hangs the reader on big-endian ones.)", "quantifier": "every message type, every acknowledgement of a request of 17 bytes or more", "why_tests_cant": "65536 types, all contents, both byte orders", "anchors": ["nfqueue/nfqueue.go:Recv", "nfqueue/nfqueue.go:ProcessPackets"]}
{"id": "C84", "title": "StopQueue stops the queue", "statement": "After StopQueue returned nil the reader does not touch the descriptor any more. (Violated: it goes on receiving on the closed descriptor, reporting an error each time, for ever; when cancelled it closes the descriptor a second time.)", "quantifier": "every queue being served, every kernel, any number of further iterations", "why_tests_cant": "unbounded continuation after a stop", "anchors": ["nfqueue/nfqueue.go:StopQueue", "nfqueue/nfqueue.go:ProcessPackets"]}
{"id": "C85", "title": "Logs are read on every architecture", "statement": "On big-endian hosts ReadLogs delivers the logs it receives. (Violated: the message header is always decoded as little-endian; every datagram is reported as truncated and no log is delivered.)", "quantifier": "every datagram of 16 to 65535 bytes from a big-endian kernel", "why_tests_cant": "needs another architecture, and all datagrams", "anchors": ["nflog/nflog.go:parseLog", "nflog/nflog.go:ReadLogs"]}
{"id": "C86", "title": "The log socket is closed once", "statement": "NFlogClose followed by the end of ReadLogs closes the descriptor once. (Violated: the reader closes it again.)", "quantifier": "every open handle, every receive error but ENOBUFS", "why_tests_cant": "interaction of two goroutines over all error codes", "anchors": ["nflog/nflog.go:NFlogClose", "nflog/nflog.go:ReadLogs"]}
{"id": "C87", "title": "Detaching keeps the bits that share a byte with the data offset", "statement": "TCPDataDetach changes, in the byte that holds the TCP data offset, only the data offset: the reserved bits and the NS bit on the wire stay as received. (Violated: the byte is rewritten as offset<<4, so the low four bits become 0 for every accepted packet and every allowed cut.)", "quantifier": "every accepted TCP packet and every allowed cut", "why_tests_cant": "all values of the four bits and all packets; sample packets have the bits clear", "anchors": ["common/packet/helpers.go:TCPDataDetach", "common/packet/helpers.go:FixupTCPHdrOnTCPDataDetach"]}
{"id": "C88", "title": "Setting TCP flags changes what is sent", "statement": "After SetTCPFlags the flags on the wire are the ones GetTCPFlags reports. (Violated: the wire never changes.)", "quantifier": "every accepted TCP packet and all flag values", "why_tests_cant": "all packets and all 256 flag values", "anchors": ["common/packet/helpers.go:SetTCPFlags", "common/packet/packet.go:GetTCPBytes"]}
{"id": "C89", "title": "Verifying a checksum does not modify the packet", "statement": "VerifyIPv4Checksum leaves the packet's bytes unchanged for every accepted packet, and UpdateIPv4Checksum changes only an IPv4 checksum field. (Violated for every accepted IPv6 packet: bytes of the source address are zeroed, respectively overwritten.)", "quantifier": "every accepted IPv6 packet with at least 24 bytes, any protocol", "why_tests_cant": "the effect is on all packets of one version that tests do not pass to this function", "anchors": ["common/packet/helpers.go:VerifyIPv4Checksum", "common/packet/helpers.go:UpdateIPv4Checksum", "common/packet/helpers.go:computeIPv4Checksum"]}
{"id": "C90", "title": "Flow hashes across IP versions", "statement": "An accepted IPv4 packet and an accepted IPv6 packet have equal flow hashes iff the IPv6 addresses are the IPv4-mapped forms of the IPv4 addresses and the ports agree.", "quantifier": "all pairs of an accepted IPv4 and an accepted IPv6 packet", "why_tests_cant": "a statement about all pairs of address texts", "anchors": ["common/packet/packet.go:L4FlowHash", "common/packet/packet.go:l4FlowHash"]}
{"id": "C91", "title": "The flow hash depends only on addresses and ports", "statement": "Two accepted packets that agree in both addresses and both ports have equal flow hashes and equal reverse flow hashes, whatever their protocol, length, payload and the way they were parsed; reversing a reverse hash gives the hash.", "quantifier": "all pairs of accepted packets", "why_tests_cant": "all packet contents", "anchors": ["common/packet/packet.go:L4FlowHash", "common/packet/packet.go:L4ReverseFlowHash"]}
{"id": "C92", "title": "Printing a packet is harmless and truthful", "statement": "After any allowed sequence of operations on an accepted TCP packet (assembled segment below 64 KiB) Print returns, changes neither packet nor memory, prints nothing unless the log level is set or the stage is 0, gives the column titles on every 200th line, prints the packet's endpoints, flags and sequence numbers, prints \"Bad Checksum\" iff VerifyTCPChecksum fails, and dumps exactly the assembled packet behind a 14-byte Ethernet header. On a freshly parsed packet the expected acknowledgement is sequence number + data length + 1 for a SYN, modulo 2^32, and the computed checksum is the RFC one. For other protocols Print does nothing.", "quantifier": "every accepted packet, every sequence of operations, all stages, levels and line counts", "why_tests_cant": "Print temporarily zeroes the checksum in the packet; that it is restored must hold for all packets and histories", "anchors": ["common/packet/packet.go:Print", "common/packet/packet.go:ReadTCPDataString", "common/packet/types.go:flagsToDir"]}
{"id": "C93", "title": "The string form identifies a packet", "statement": "Two packets whose IP headers parse have equal PacketToStringTCP strings iff header texts, ports, stated checksum and all assembled bytes agree; for a header that does not parse the string is \"(error)\".", "quantifier": "all pairs of packets and every header formatter", "why_tests_cant": "injectivity of a text encoding over all packets", "anchors": ["common/packet/helpers.go:PacketToStringTCP", "common/packet/packet.go:GetTCPBytes"]}
{"id": "C94", "title": "Impossible length fields are rejected", "statement": "With length validation, New rejects an IPv4 packet whose total length field is smaller than the IP header. (Violated for UDP: every buffer of at least 28 bytes stating a total below 20 is accepted, and GetUDPType and ReadUDPToken then crash.)", "quantifier": "every IPv4 UDP buffer of 28 to 65535 bytes and every stated length below 20", "why_tests_cant": "all buffers", "anchors": ["common/packet/packet.go:parseIPv4Packet", "common/packet/packet.go:parseUDP", "common/packet/packet.go:GetUDPType", "common/packet/helpers.go:ReadUDPToken"]}
{"id": "C95", "title": "Fragments are told apart from first packets", "statement": "New does not report transport fields for an IPv4 fragment that has none. (Violated: the fragment field is never read; any value gives the very same packet.)", "quantifier": "every accepted IPv4 packet and every value of the flags/fragment-offset field", "why_tests_cant": "65536 field values times all packets", "anchors": ["common/packet/packet.go:parseIPv4Packet"]}
{"id": "C96", "title": "Only IP versions 4 and 6 are accepted", "statement": "New rejects a buffer whose version nibble is neither 4 nor 6. (Violated: without validation every buffer of at least 40 bytes with another nibble than 4 is accepted as IPv6 when its next header is neither TCP nor UDP.)", "quantifier": "every buffer of at least 40 bytes and every version nibble but 4", "why_tests_cant": "all buffers", "anchors": ["common/packet/packet.go:New", "common/packet/packet.go:parseIPv6Packet"]}
{"id": "C97", "title": "IPv6 length validation", "statement": "With length validation, New accepts a buffer below 64 KiB whose first nibble is not 4 iff it holds the 40-byte header and the announced payload, the payload is long enough for its TCP or UDP header, and, if bytes follow the packet, at least 58 bytes are present; the accepted packet is exactly the announced bytes, without the rest.", "quantifier": "every buffer below 64 KiB", "why_tests_cant": "exact accept set over all buffers", "anchors": ["common/packet/packet.go:New", "common/packet/packet.go:parseIPv6Packet"]}
{"id": "C98", "title": "A verdict given late carries the packet it was given for", "statement": "An application that keeps an NFPacket and gives its verdict after the callback returned makes the kernel reinject that packet's bytes. (Violated: the verdict carries whatever is at that place of the next datagram.)", "quantifier": "every pair of consecutive packets, the second datagram at least as long, every verdict and mark", "why_tests_cant": "all contents and orders; aliasing with a reused buffer", "anchors": ["nfqueue/nfqueue.go:ProcessPackets", "nfqueue/nfqueue.go:Recv", "nfqueue/nfqueue.go:SetVerdict2"]}
{"id": "C99", "title": "No packet is lost to a configuration call", "statement": "A packet that arrives while a configuration call on a served queue awaits its acknowledgement still reaches the callback. (Violated: the call takes the packet for its acknowledgement and returns nil; the acknowledgement then reaches the application as an error.)", "quantifier": "every configuration call but CreateQueue, every packet and acknowledgement", "why_tests_cant": "depends on the arrival order of datagrams", "anchors": ["nfqueue/nfqueue.go:query", "nfqueue/nfqueue.go:recv", "nfqueue/nfqueue.go:ProcessPackets"]}
{"id": "C100", "title": "Receiving and answering at the same time", "statement": "While ProcessPackets runs in one goroutine and any number of others give verdicts on packets, in every interleaving and for every kernel that sends well-formed datagrams or fails: nothing crashes; every finished verdict call has sent exactly one message, byte for byte the one it would have sent alone; every received datagram causes exactly one callback, with this datagram's contents; the packets delivered are counted; neither side waits for the other, and with SetVerdict2 calls serialised by a mutex no call waits for ever.", "quantifier": "every schedule, any number of verdict calls, every kernel behaviour with well-formed datagrams, any number of turns", "why_tests_cant": "interleavings of unbounded length; shared memory", "anchors": ["nfqueue/nfqueue.go:ProcessPackets", "nfqueue/nfqueue.go:Recv", "nfqueue/nfqueue.go:SetVerdict", "nfqueue/nfqueue.go:SetVerdict2"]}
{"id": "C101", "title": "No log is lost to a configuration call, and no refusal goes unnoticed", "statement": "When logs already arrive on the socket (one group is bound), binding or configuring another group neither loses a log nor overlooks the kernel's answer. (Violated: the first datagram in line is taken for the acknowledgement whatever it is; the log is dropped, the call returns nil, and the kernel's refusal is later skipped by the reader.)", "quantifier": "every configuration call, every log datagram, every answer, every moment it may arrive", "why_tests_cant": "depends on the arrival order of datagrams", "anchors": ["nflog/sockets.go:query", "nflog/sockets.go:recv", "nflog/nflog.go:NFlogBindGroup", "nflog/nflog.go:NFlogSetMode", "nflog/nflog.go:parseLog"]}
{"id": "C102", "title": "A closed queue sends nothing", "statement": "After NfqClose (or after the reader closed the socket on cancellation) verdict calls send nothing. (Violated: the verdict message is written to the number of the closed descriptor, which may belong to another file by then.)", "quantifier": "every verdict call, every packet, every history between the close and the call", "why_tests_cant": "depends on what happens in between in other parts of the process", "anchors": ["nfqueue/nfqueue.go:NfqClose", "nfqueue/nfqueue.go:SetVerdict", "nfqueue/nfqueue.go:SetVerdict2"]}
{"id": "C103", "title": "A handle owns at most one socket", "statement": "Every socket a handle opened is closed when the handle is closed. (Violated: NfqOpen and NFlogOpen on an open handle replace the socket without closing it; it is never closed.)", "quantifier": "every kernel behaviour in which both opens succeed", "why_tests_cant": "all descriptor numbers, option failures and retries", "anchors": ["nfqueue/nfqueue.go:NfqOpen", "nfqueue/nfqueue.go:NfqClose", "nflog/nflog.go:NFlogOpen", "nflog/nflog.go:NFlogClose"]}
{"id": "C104", "title": "Using a handle before it is opened is reported, not fatal", "statement": "SetVerdict, SetVerdict2 and Recv on a handle without an open socket do not crash. (Violated: all of them crash for every argument. The configuration calls do report it, C13.)", "quantifier": "every argument, every state without a socket", "why_tests_cant": "all arguments and states", "anchors": ["nfqueue/nfqueue.go:SetVerdict", "nfqueue/nfqueue.go:SetVerdict2", "nfqueue/nfqueue.go:Recv"]}
{"id": "C105", "title": "A verdict goes to the queue named in the call", "statement": "The verdict message names the queue given as queueNum. (Violated: the argument is ignored; the message names the queue of the handle.)", "quantifier": "every queue number, verdict, mark, id and packet", "why_tests_cant": "all argument values", "anchors": ["nfqueue/nfqueue.go:SetVerdict", "nfqueue/nfqueue.go:SetVerdict2"]}
{"id": "C106", "title": "A test packet stands for the real one", "statement": "A packet built by TestGetTCPPacket reports the endpoints it was built from and has the flow hashes of a parsed packet with those endpoints. (Violated for L4FlowHash: it is cached when a packet is parsed, so a test packet's is always empty; L4ReverseFlowHash and the accessors agree.)", "quantifier": "every pair of addresses and ports, every parsed packet", "why_tests_cant": "all endpoints", "anchors": ["common/packet/packet.go:TestGetTCPPacket", "common/packet/packet.go:L4FlowHash", "common/packet/packet.go:L4ReverseFlowHash"]}
{"id": "C107", "title": "Editing a TCP packet touches only its headers", "statement": "After any allowed sequence of operations on an accepted TCP packet, every slice of memory that does not overlap its IP header and fixed TCP header holds what it held, in particular the packet's options and data and every other buffer.", "quantifier": "every packet, every memory layout, every sequence of operations", "why_tests_cant": "unbounded operation histories and all aliasing layouts", "anchors": ["common/packet/helpers.go:TCPDataDetach", "common/packet/helpers.go:TCPDataAttach", "common/packet/helpers.go:FixupIPHdrOnDataModify", "common/packet/helpers.go:UpdateTCPChecksum", "common/packet/helpers.go:ConvertAcktoFinAck"]}
{"id": "C108", "title": "GetTCPBytes returns the caller's own copy", "statement": "After any allowed operations, GetTCPBytes returns buffer, options and data in one slice of new memory: no existing memory changes, later operations on the packet do not change the copy, and writes into the copy change nothing that existed.", "quantifier": "every packet and history of operations before and after, every write into the copy, every growth policy of append", "why_tests_cant": "aliasing through append depends on capacities", "anchors": ["common/packet/packet.go:GetTCPBytes"]}
{"id": "C109", "title": "A rewritten packet reaches the kernel as rewritten", "statement": "An application that parses a queued packet, performs any allowed operations and gives GetTCPBytes to SetVerdict2 makes the kernel receive one message with its verdict, mark and id whose payload is the rewritten packet: headers as the accessors report, attached options and data behind; with the checksum updated last (parts of even length) the payload's TCP checksum is right.", "quantifier": "every packet, operation sequence, verdict, mark, id, queue, byte order and memory layout", "why_tests_cant": "composes two packages over unbounded histories", "anchors": ["common/packet/packet.go:New", "common/packet/packet.go:GetTCPBytes", "common/packet/helpers.go:UpdateTCPChecksum", "nfqueue/nfqueue.go:SetVerdict2"]}
{"id": "C110", "title": "A failed start leaves no queue behind", "statement": "When CreateAndStartNfQueue returns an error, it sent its requests only up to the first one that failed; if the kernel had bound the queue by then, the request to unbind that queue was sent next, whatever its outcome, and then the socket was closed. The error text names the request that failed.", "quantifier": "every kernel behaviour (every answer to every request), queue, sizes and callbacks", "why_tests_cant": "every failure point of a seven-call protocol with arbitrary kernel answers", "anchors": ["nfqueue/nfqueue.go:CreateAndStartNfQueue", "nfqueue/nfqueue.go:NfqDestroyQueue", "nfqueue/nfqueue.go:NfqClose"]}
{"id": "C111", "title": "A listed connection is found by its own tuple", "statement": "Given the list returned by ConntrackTableList, a mark or label update called with the original addresses, protocol and ports of a listed connection updates that connection and counts it, whether or not its addresses are translated.", "quantifier": "every list of IPv4 flows, every flow in it, every spelling of the addresses, every kernel and world", "why_tests_cant": "all tables and all translations of addresses and ports", "anchors": ["conntrack/conntrack.go:checkTuplesInFlow", "conntrack/conntrack.go:ConntrackTableUpdateMarkForAvailableFlow", "conntrack/conntrack.go:ConntrackTableUpdateLabel"]}
{"id": "C112", "title": "A connection that is not listed is reported", "statement": "When none of the listed flows is the named connection, a bulk update makes no request and returns an error saying so.", "quantifier": "every list of IPv4 flows without the connection, every kernel and world", "why_tests_cant": "all tables", "anchors": ["conntrack/conntrack.go:ConntrackTableUpdateMarkForAvailableFlow", "conntrack/conntrack.go:ConntrackTableUpdateLabel"]}
{"id": "C113", "title": "A mark can be cleared", "statement": "Updating a mark to 0 requests the mark 0 for the named connection, through the single and the bulk call alike.", "quantifier": "every connection, table, kernel and world", "why_tests_cant": "all tables and kernel behaviours", "anchors": ["conntrack/conntrack.go:ConntrackTableUpdateMark", "conntrack/conntrack.go:ConntrackTableUpdateMarkForAvailableFlow"]}
{"id": "C114", "title": "After a failure the count says how much was done", "statement": "When a bulk update stops at a request that failed, the returned count is the number of requests acknowledged before it.", "quantifier": "every table, failing request and kernel behaviour", "why_tests_cant": "every failure point of every table", "anchors": ["conntrack/conntrack.go:ConntrackTableUpdateMarkForAvailableFlow", "conntrack/conntrack.go:ConntrackTableUpdateLabel"]}
{"id": "C115", "title": "The conntrack example runs on every table", "statement": "The example program sets the mark of the first listed connection to 42, prints how many updates it made, and ends without crashing, on every table.", "quantifier": "every table before and after, every acknowledging kernel", "why_tests_cant": "all tables", "anchors": ["conntrack/examples/example/example.go:main", "conntrack/examples/example/example.go:display"]}
{"id": "C116", "title": "The reason of a failure reaches the caller", "statement": "When a start, stop, configuration or conntrack update call returns an error, the error at the bottom of its text is the errno of the system call that failed or the signed code of the kernel's error message, taken from the last event before clean-up; nothing that clean-up does hides it. Every error given to the packet reader's error callback comes from the receive of the same turn. (Replies too short to hold an error code excepted.)", "quantifier": "every kernel behaviour, every call and argument, every failing step, every history", "why_tests_cant": "every system call may fail at every step and the clean-up after it may fail as well", "anchors": ["nfqueue/nfqueue.go:CreateAndStartNfQueue", "nfqueue/nfqueue.go:StopQueue", "nfqueue/nfqueue.go:ProcessPackets", "nflog/nflog.go:BindAndListenForLogs", "nflog/nflog.go:NFlogBindGroup", "conntrack/conntrack.go:ConntrackTableUpdateMark", "conntrack/conntrack.go:ConntrackTableUpdateMarkForAvailableFlow", "conntrack/conntrack.go:ConntrackTableUpdateLabel", "common/helpers.go:NetlinkErrMessagetoStruct"]}
{"id": "C117", "title": "Queues of one process do not interfere", "statement": "Several queues created in one process, each read by its own goroutine while verdicts are given on all of them, share no memory and do not disturb each other: under every interleaving nothing crashes, each queue's reader delivers the contents of the datagrams received on its own socket to its own callback, each verdict message is byte for byte what the call would have sent alone, and each queue's counters count its own packets and verdicts. Verdict calls on one queue never wait for another queue, nor for ever for each other. A queue that cannot be started leaves those started before as they were. (On one queue SetVerdict2 calls are serialised; packets are copied out of the receive buffer.)", "quantifier": "any number of queues and calls, every interleaving of all goroutines, every kernel sending well-formed datagrams or failing", "why_tests_cant": "the interleavings of the goroutines of several queues cannot be enumerated", "anchors": ["nfqueue/nfqueue.go:NewNFQueue", "nfqueue/nfqueue.go:CreateAndStartNfQueue", "nfqueue/nfqueue.go:ProcessPackets", "nfqueue/nfqueue.go:SetVerdict", "nfqueue/nfqueue.go:SetVerdict2", "nfqueue/examples/example.go:main"]}
{"id": "C118", "title": "The flow hash is the 4-tuple in standard notation", "statement": "The flow hash of an accepted packet is the text source:destination:sport:dport, and its reverse flow hash destination:source:dport:sport; ports and IPv4 (and IPv4-mapped) addresses are written in decimal without leading zeros, IPv6 addresses as lower-case hexadecimal groups without leading zeros where the first of the longest runs of two or more zero groups, and nothing else, is replaced by '::'.", "quantifier": "every accepted packet, all addresses and ports", "why_tests_cant": "all 2^128 addresses cannot be printed by tests", "anchors": ["common/packet/packet.go:l4FlowHash", "common/packet/packet.go:L4ReverseFlowHash"]}
{"id": "C119", "title": "Answering in the callback: every packet gets its own verdict, whatever runs beside it", "statement": "An application whose main goroutine starts queues one after the other (some starts may fail), each queue being read by its own goroutine from the moment it is started, and whose packet callbacks answer with SetVerdict, SetVerdict2 or not at all, depending on the packet and on how many came before: under every interleaving nothing crashes; each queue hands each packet it receives to its callback and tells the kernel, on its own descriptor and before receiving again, exactly the verdict (and mark) the callback chose for that very packet with its contents, and nothing else; failed receives are reported to the error callback; counters are exact; a queue that gets 13 steps completes a turn, whatever the others do; cancelling its context makes it close its socket within 13 steps and nothing else does. No copying of packets and no locking is needed for this.", "quantifier": "any number of queues, all start arguments, all answers, every interleaving (a start is one step), every cancellation, every kernel sending packets and error messages or failing", "why_tests_cant": "interleavings of starts, readers and verdicts of several queues cannot be enumerated", "anchors": ["nfqueue/nfqueue.go:CreateAndStartNfQueue", "nfqueue/nfqueue.go:ProcessPackets", "nfqueue/nfqueue.go:SetVerdict", "nfqueue/nfqueue.go:SetVerdict2", "nfqueue/examples/example.go:main"]}
{"id": "C120", "title": "Conntrack updates made at the same time do not mix", "statement": "However many mark, bulk mark and bulk label updates are made at the same time, on one handle or several: the system calls made by each call that returned are, taken by themselves, one proper exchange per request, over requests that name exactly its connection and its value, and its result is the outcome of its own exchanges. If the kernel never hands out an open descriptor and closes an open one at the first attempt, every system call on a descriptor is made by the call that opened it and has not yet closed it, and a call that returned holds none. If sockets can be opened and replies are not 16 to 19 bytes long, nothing crashes and each call returns after at most eight of its own system calls per flow (eight for a single update).", "quantifier": "any number of calls, all arguments, every interleaving of their system calls, every kernel", "why_tests_cant": "interleavings of system calls cannot be enumerated by tests", "anchors": ["conntrack/conntrack.go:ConntrackTableUpdateMark", "conntrack/conntrack.go:ConntrackTableUpdateMarkForAvailableFlow", "conntrack/conntrack.go:ConntrackTableUpdateLabel", "conntrack/conntrack.go:sendMessage", "conntrack/sockets.go:open"]}
{"id": "C121", "title": "Closing touches only one's own descriptor", "statement": "A call never closes a descriptor that belongs to another call. (Violated: Close is retried when it reports an error, but Linux has given up the descriptor by then; if it was handed to another conntrack call in between, that call's socket is closed, its bind fails, and the process crashes.)", "quantifier": "every interleaving of two mark updates, every kernel that releases a descriptor whose close reports an error", "why_tests_cant": "needs a failing close and an interleaving at exactly that point", "anchors": ["common/syscallwrappers/syscalls.go:Close", "conntrack/conntrack.go:sendMessage"]}
{"id": "C122", "title": "A stopped queue leaves later queues alone", "statement": "After StopQueue returned nil, queues started later receive their own packets and keep their sockets, whatever descriptor numbers they get. (Violated: the reader of the stopped queue goes on; if a queue started later is given the descriptor number that became free, the next packet sent to it is taken by the stopped queue's reader and handed to the stopped queue's callback; and when the stopped queue's context is cancelled its reader closes the later queue's socket.)", "quantifier": "every process, any two queues with any arguments, every kernel that reuses the number, every packet datagram", "why_tests_cant": "needs descriptor reuse and a reader still running", "anchors": ["nfqueue/nfqueue.go:StopQueue", "nfqueue/nfqueue.go:ProcessPackets", "nfqueue/nfqueue.go:CreateAndStartNfQueue"]}
{"id": "C123", "title": "A log report stays as it was", "statement": "What the log callback was given (payload, addresses, ports, prefix) is not changed by anything read later, so the application may keep reports: at any later point of the reader's run the payload of every report still shows the bytes it showed, it is not shared with any other report, and memory the application had before is not written to. (Unlike nfqueue, see C82.)", "quantifier": "every run of ReadLogs of any length, every sequence of datagrams and receive errors, every callback that leaves existing memory alone", "why_tests_cant": "aliasing between a kept report and a later datagram shows only if a test keeps reports and re-reads them after further, different datagrams", "anchors": ["nflog/nflog.go:ReadLogs", "nflog/nflog.go:parsePacket", "common/packet/packet.go:New"]}
{"id": "C124", "title": "Capturing the headers is enough", "statement": "When the copy range is large enough to capture 37 bytes of an IPv4 TCP packet (57 for IPv6), 25 of a UDP packet (45), 21 of any other (41), every complete packet without IP options logged is reported, with the addresses, protocol, ports, id and total length the packet itself has, under its log prefix, and the datagram is read to its end. A copy range of 57 or more (the example's 64), or 0 (everything), is enough for all TCP and UDP packets.", "quantifier": "every complete packet, every copy range, every list of log messages in a datagram, every attributes before the payload", "why_tests_cant": "the report must agree with a packet of which only a part was delivered, for every packet and every copy range", "anchors": ["nflog/nflog.go:NFlogSetMode", "nflog/nflog.go:parsePacket", "common/packet/packet.go:New", "nflog/example/example.go:main"]}
{"id": "C125", "title": "Any copy range is safe", "statement": "Whatever copy range was set, the log of a complete packet never crashes the process and never shows a wrong address. (Violated: with less than the bytes of C124, a TCP or UDP packet, or any IPv6 packet of which no more than 36 bytes are captured, crashes the process; an other packet captured up to its IP header is reported with a destination address ending in 0 whatever it is.)", "quantifier": "every complete packet and every copy range", "why_tests_cant": "crash and damage occur for particular combinations of copy range, IP version and protocol", "anchors": ["nflog/nflog.go:NFlogSetMode", "nflog/nflog.go:parsePacket", "common/packet/packet.go:New"]}
{"id": "C126", "title": "Listening for logs, end to end", "statement": "After BindAndListenForLogs succeeded, for every sequence of datagrams of well-formed messages and overrun notices that arrive on its socket, the callback is given exactly the logs in them, in order, and the error callback exactly the overruns; when a receive then fails for another reason the reader reports it, closes the socket, reports nothing else and returns.", "quantifier": "every group list, copy range, callbacks, kernel, and every sequence of arrivals", "why_tests_cant": "histories of arrivals are unbounded", "anchors": ["nflog/nflog.go:BindAndListenForLogs", "nflog/nflog.go:ReadLogs", "nflog/nflog.go:parseLog"]}
{"id": "C127", "title": "A log handle acts on the socket it opened last", "statement": "For every sequence of calls on a handle made by NewNFLog: GetNFloghandle gives the handle exactly if some NFlogOpen succeeded, else nil; and every system call made by a call other than NFlogOpen is on the descriptor obtained by the last successful NFlogOpen (no system call is made before the first).", "quantifier": "every sequence of calls with any arguments, every kernel", "why_tests_cant": "call sequences and kernel outcomes are unbounded", "anchors": ["nflog/nflog.go:NewNFLog", "nflog/nflog.go:NFlogOpen", "nflog/nflog.go:GetNFloghandle", "nflog/nflog.go:NFlogClose"]}
{"id": "C128", "title": "A closed log handle touches no descriptor", "statement": "After NFlogClose, further calls on the handle touch no descriptor. (Violated: the handle keeps the closed descriptor; a second NFlogClose closes it again, and configuration calls send their requests on it, whatever it stands for by then.)", "quantifier": "every open handle, kernel and further call", "why_tests_cant": "a descriptor number may have been given to another file by then", "anchors": ["nflog/nflog.go:NFlogClose", "nflog/sockets.go:close"]}
{"id": "C129", "title": "A mark update does to the connection table exactly what it says", "statement": "On a kernel that keeps a connection table and serves requests on it as Linux does: ConntrackTableUpdateMark sets the mark of the named connection and changes nothing else; nil means the connection was in the table, ENOENT that it was not; an error otherwise means that at most this mark was set. Listing the table and calling ConntrackTableUpdateMarkForAvailableFlow sets the mark of exactly the entries of that connection (if it is not translated) and returns their number (at most one). A sequence of such calls on one listing composes, and the example program marks the first connection and nothing else.", "quantifier": "every connection table, connection, mark, and kernel that serves requests on a table (any failures of its system calls; also any change of the table between requests, for the statement at the moment of the request)", "why_tests_cant": "the tables, connections and failure patterns are unbounded; the effect is on the other side of the socket", "anchors": ["conntrack/conntrack.go:ConntrackTableUpdateMark", "conntrack/conntrack.go:ConntrackTableUpdateMarkForAvailableFlow", "conntrack/conntrack_test.go:TestMark", "conntrack/examples/example/example.go:main"]}
{"id": "C130", "title": "A label update does to the connection table exactly what it says", "statement": "On a kernel that keeps a connection table and serves requests on it as Linux does: listing the table and calling ConntrackTableUpdateLabel sets the labels of exactly the entries of that connection (if it is not translated) and returns their number; when it returns an error no other entry has changed. (Violated for TCP: every label update of a TCP connection is refused with ERANGE, and nothing is changed.)", "quantifier": "every connection table, connection, label, and kernel that serves requests on a table", "why_tests_cant": "the tables, connections and failure patterns are unbounded; the effect is on the other side of the socket", "anchors": ["conntrack/conntrack.go:ConntrackTableUpdateLabel"]}
{"id": "C131", "title": "Starting a queue takes it in the kernel, or changes nothing", "statement": "On a kernel that keeps packet queues as Linux does (owners, copy mode and range, maximum length, waiting packets) and whatever packets come and other programs do meanwhile: if CreateAndStartNfQueue succeeds, the queue belongs to the handle's socket, copies packets with the range asked for (as the kernel clips it) and holds as many as asked for, and was free before; no error is left lying in the socket. If it fails, no queue belongs to its socket and every queue is configured as before. A queue that someone has cannot be started; a free one can, if no system call fails.", "quantifier": "every kernel that keeps queues, every queue number, copy range and maximum length, every pattern of failures, arriving packets and actions of other programs during the call", "why_tests_cant": "the kernel's state and the interleaving of its other users with the call are unbounded; the effect is on the other side of the socket", "anchors": ["nfqueue/nfqueue.go:CreateAndStartNfQueue", "nfqueue/nfqueue.go:NfqOpen", "nfqueue/nfqueue.go:CreateQueue", "nfqueue/nfqueue.go:NfqSetMode", "nfqueue/nfqueue.go:NfqSetQueueMaxLen"]}
{"id": "C132", "title": "Every packet that comes is decided on once, and leaves as decided", "statement": "On a kernel that keeps packet queues, with an application whose packet callback answers every packet with SetVerdict2, a verdict and mark computed from the packet's bytes and those bytes: every packet that comes to the started queue is handed to the callback exactly once, in the order of arrival, and leaves the queue exactly once, unchanged but for the mark, with the verdict and mark computed for it; a packet whose verdict could not be sent keeps waiting; when the context is cancelled the queue is gone and what waited is dropped.", "quantifier": "every kernel that keeps queues, every computation of valid verdicts, every sequence of packets, every pattern of failures and of actions of other programs, every number of turns of the loop", "why_tests_cant": "packets, failures and interleavings are unbounded; the effect is on the other side of the socket", "anchors": ["nfqueue/nfqueue.go:CreateAndStartNfQueue", "nfqueue/nfqueue.go:ProcessPackets", "nfqueue/nfqueue.go:SetVerdict2", "nfqueue/nfqueue.go:Recv"]}
{"id": "C133", "title": "Stopping a queue gives it up in the kernel", "statement": "On a kernel that keeps packet queues: StopQueue on a handle whose socket has the queue leaves it free (if no other program takes it meanwhile), with every packet that waited in it dropped - if it returns nil, and also if it returns an error, unless that error says that the request could not be sent, in which case the queue is as it was. Queues of other sockets are configured as before. On a kernel whose calls do not fail, it returns nil if no error lies in the socket.", "quantifier": "every kernel that keeps queues, every queue and its waiting packets, every pattern of failures, arriving packets and actions of other programs during the call", "why_tests_cant": "the kernel's state and the interleaving of its other users with the call are unbounded; the effect is on the other side of the socket", "anchors": ["nfqueue/nfqueue.go:StopQueue", "nfqueue/nfqueue.go:NfqDestroyQueue", "nfqueue/nfqueue.go:NfqClose"]}
{"id": "C134", "title": "The byte order is known before it is needed", "statement": "The exported functions of package nfqueue that read or write host-order numbers (GetPacketInfo, the verdict header's ToWireFormat, everything on a queue) use the byte order of the host, whenever they are called and whatever goroutines create queues at the same time.", "quantifier": "every number of goroutines creating queues, every interleaving of their steps, every later point in time, every message", "why_tests_cant": "the interleavings are unbounded, and the order in which a program first calls the package varies", "anchors": ["nfqueue/nfqueue.go:nfqueueinit", "nfqueue/nfqueue.go:NewNFQueue", "nfqueue/helpers.go:GetPacketInfo", "nfqueue/helpers.go:ToWireFormat"]}
{"id": "C135", "title": "Starting to listen configures the kernel's log groups", "statement": "On a kernel that keeps log groups, while other programs use other groups and packets are logged all the time: when BindAndListenForLogs returns a handle, every group asked for that was free belongs to its socket, with the copy range asked for; the socket has no group that was not asked for, and all other groups are untouched. When it returns an error, the socket has no group and all groups are as before. With distinct free groups and calls that do not fail it returns a handle; with a group that is taken, or named twice, it returns an error if no log arrives meanwhile.", "quantifier": "every list of groups, copy range, initial state of the kernel's groups, every sequence of packets logged and actions of other programs at every point, every result of every system call", "why_tests_cant": "the kernel's state and the traffic are unbounded, and the outcome depends on when packets are logged", "anchors": ["nflog/nflog.go:BindAndListenForLogs", "nflog/nflog.go:NFlogBindGroup", "nflog/nflog.go:NFlogSetMode", "nflog/nflog.go:NFlogClose", "syscallwrappers"]}
{"id": "C136", "title": "A handle means that all groups were bound", "statement": "If BindAndListenForLogs returns a handle, every group asked for belongs to its socket, however many packets are logged meanwhile.", "quantifier": "as for C135", "why_tests_cant": "needs packets logged to the first groups at exactly the right moments while another group is refused", "anchors": ["nflog/nflog.go:BindAndListenForLogs", "nflog/nflog.go:NFlogBindGroup", "nflog/nflog.go:NFlogSetMode", "nflog/nflog.go:NFlogClose", "syscallwrappers"]}
{"id": "C137", "title": "No log gets lost while listening starts", "statement": "What is logged to a group after BindAndListenForLogs has bound it is all still there for the reader when the handle is returned.", "quantifier": "as for C135", "why_tests_cant": "a log has to arrive between two requests of the start", "anchors": ["nflog/nflog.go:BindAndListenForLogs", "nflog/nflog.go:NFlogBindGroup", "nflog/nflog.go:NFlogSetMode", "nflog/nflog.go:NFlogClose", "syscallwrappers"]}
{"id": "C138", "title": "Every packet logged to the groups is reported, once, in order, and rightly", "statement": "On a little-endian host and a kernel that keeps log groups, with a copy range of 0 or at least 57: after BindAndListenForLogs returned a handle, every packet logged to its groups that the start itself did not receive is, when its datagram is received, reported to the log callback exactly once, in the order in which packets of that group were logged, with the prefix and the addresses, protocol, ports, id and length of the packet logged, provided the packets logged are complete IP packets (IPv4 without options, or IPv6) that are TCP or UDP or at least 41 bytes long; the reader does not crash; the error callback is told of each failed receive and of nothing else; the reader stops only at a failure other than ENOBUFS, and then the socket has no group any more. If receives do not fail, what lies in the socket is reported oldest first.", "quantifier": "every list of groups, copy range of 0 or at least 57, initial state of the kernel's groups, every sequence of packets logged, datagrams sent and actions of other programs at every point, every result of every receive, every number of turns of the reader, every callback that leaves log groups alone", "why_tests_cant": "traffic, batches and interleavings are unbounded; the account of every packet relates the kernel's log to the reports over a whole history", "anchors": ["nflog/nflog.go:BindAndListenForLogs", "nflog/nflog.go:ReadLogs", "nflog/nflog.go:parseLog", "nflog/nflog.go:parsePacket", "utils/packet/packet.go:New"]}
{"id": "C139", "title": "A call made beside the reader sends its one request, and StopQueue gives the queue up", "statement": "When a configuration call or StopQueue is made by another goroutine while the queue's own goroutine reads, then at every moment of every interleaving the request that encodes what the call is to do has been sent at most once (twice, verbatim, if the first attempt failed), then at most one message has been received by the call; StopQueue closes the socket if and only if it returns nil; the call returns nil only after it received something, and an error says what failed. On a kernel that keeps queues, as soon as StopQueue's request has gone out the queue is gone and stays so, whatever the call receives or returns, and every packet that waited when it was called has left the queue by a verdict or by being dropped; before, the queue is still the socket's and no packet is lost.", "quantifier": "every call, every interleaving of its system calls with the reader's steps, every kernel and callback that only sends verdicts, every point at which the reader is", "why_tests_cant": "the interleavings of two goroutines on one socket and one buffer are unbounded and not under a test's control", "anchors": ["nfqueue/nfqueue.go:StopQueue", "nfqueue/nfqueue.go:NfqDestroyQueue", "nfqueue/nfqueue.go:NfqSetMode", "nfqueue/nfqueue.go:NfqSetQueueMaxLen", "nfqueue/nfqueue.go:ProcessPackets", "nfqueue/nfqueue.go:recv"]}
{"id": "C140", "title": "StopQueue returns", "statement": "StopQueue called while the queue's goroutine reads returns. Refuted: on every kernel that keeps queues, if the reader, waiting in its receive on the same socket, gets the kernel's reply, then StopQueue never returns, however the two goroutines go on, unless a receive fails.", "quantifier": "every kernel that keeps queues, every started queue, every continuation", "why_tests_cant": "which goroutine the kernel hands the reply to is a race, and no finite run shows that a call never returns", "anchors": ["nfqueue/nfqueue.go:StopQueue", "nfqueue/nfqueue.go:NfqDestroyQueue", "nfqueue/nfqueue.go:NfqSetMode", "nfqueue/nfqueue.go:NfqSetQueueMaxLen", "nfqueue/nfqueue.go:ProcessPackets", "nfqueue/nfqueue.go:recv"]}
{"id": "C141", "title": "A packet is handed to the callback with its own id", "statement": "A packet received while another goroutine makes a configuration call is handed to the packet callback with its own id. Refuted: the call receives the kernel's reply into the buffer the reader decodes from; if that happens between the reader's receive and its decoding, the first packet after the start is handed over with its payload and id 0, whatever its id, on every little-endian host whenever the attributes up to a boundary beyond the id take as many bytes as the request.", "quantifier": "every kernel, start, call other than CreateQueue, packet message and acknowledgement of that shape", "why_tests_cant": "needs one interleaving of two goroutines between two adjacent statements", "anchors": ["nfqueue/nfqueue.go:StopQueue", "nfqueue/nfqueue.go:NfqDestroyQueue", "nfqueue/nfqueue.go:NfqSetMode", "nfqueue/nfqueue.go:NfqSetQueueMaxLen", "nfqueue/nfqueue.go:ProcessPackets", "nfqueue/nfqueue.go:recv"]}
{"id": "C142", "title": "Log listeners of one process do not interfere", "statement": "If a program calls BindAndListenForLogs several times, then in every interleaving of the goroutines it starts each listener does what it could have done alone: it starts on a socket of its own or is refused, receives only from that socket, calls only its own callbacks, reports a well-formed datagram as it should be, and closes only its socket. If every datagram received is well-formed and every listener has a log callback, no interleaving crashes the process, and no listener holds another up: each one completes a turn after at most 131074 of its own steps.", "quantifier": "every list of listeners, schedule, kernel, datagram, byte order and callbacks that keep their hands off the listeners' sockets", "why_tests_cant": "the interleavings of several goroutines are unbounded and not under a test's control", "anchors": ["nflog/nflog.go:BindAndListenForLogs", "nflog/nflog.go:ReadLogs", "nflog/nflog.go:parseLog", "nflog/nflog.go:parsePacket"]}
{"id": "C143", "title": "Each log listener of a process is given what its groups log", "statement": "If a program calls BindAndListenForLogs several times, each time with a log callback and a copy range of 0 or at least 57, on a kernel that keeps log groups, and only ordinary packets are logged to the groups asked for, then no interleaving crashes the process, and each listener, whatever the others do, accounts for every group it was the first to ask for: the packets logged to it since are, in order, those its start dropped (none, unless a log arrived before an acknowledgement), those reported to its own callback, each once, and, as long as it goes on, those it has in hand and those still to be received. Its failed receives go to its own error callback, and only a receive that fails otherwise than by ENOBUFS ends it.", "quantifier": "every list of listeners, schedule, group kernel, history before the program, packets logged at any moment and callbacks that leave log groups alone", "why_tests_cant": "what the kernel logs between any two steps of several goroutines is unbounded and not under a test's control", "anchors": ["nflog/nflog.go:BindAndListenForLogs", "nflog/nflog.go:ReadLogs", "nflog/nflog.go:parseLog", "nflog/nflog.go:parsePacket"]}
{"id": "C144", "title": "Each queue of a process decides its own kernel queue's packets", "statement": "A program starts queues one after the other and answers packets in its callbacks, with SetVerdict, with SetVerdict2, or not at all, on a little-endian kernel that keeps packet queues, whatever else uses that kernel. Then no interleaving of its goroutines crashes it, and each queue that was started is fed by its own kernel queue: every packet that waited when it was started or came later, but for at most two taken for acknowledgements while it was started, is given to its own callback once, in the order in which it came, with its id, its mark and the bytes copied. Its packets leave the kernel queue exactly with the answers that were sent, in order; the others go on waiting; when the socket is closed, what waits is dropped. On a kernel that does not fail no verdict is lost, and whatever has come to a queue by any moment (but for those two) has been given to the application once its goroutine, not cancelled, has made more than 13 steps for each packet still to be given, for each of the two, and 13 more.", "quantifier": "every list of queues, policy of answers, cancellation, schedule, queue kernel and history, packets coming to any queue at any moment", "why_tests_cant": "what several goroutines, the kernel and other processes do between any two steps is unbounded and not under a test's control", "anchors": ["nfqueue/nfqueue.go:CreateAndStartNfQueue", "nfqueue/nfqueue.go:receiveOne", "nfqueue/nfqueue.go:SetVerdict", "nfqueue/nfqueue.go:SetVerdict2", "nfqueue/nfqueue.go:processPackets"]}
{"id": "C145", "title": "Concurrent conntrack updates are atomic and serialise", "statement": "Any number of goroutines update connections at the same time, with ConntrackTableUpdateMark, ConntrackTableUpdateMarkForAvailableFlow or ConntrackTableUpdateLabel, on a kernel that keeps a connection table and answers each socket for itself. Then each request takes effect at the moment it reaches the kernel and changes what its call is to change and nothing else; the table is at any time what the requests so far make of it in the order in which they arrived, so no update is lost and the last mark set on an entry is the one that stays; and each call's result is that of its own requests on the tables they met: nil means that all of them were done, ENOENT that the connection was not there when the failing one arrived, and after a failure no more are made. On a kernel that does not fail every call returns after at most eight of its own steps for each flow.", "quantifier": "every list of calls, interleaving of their system calls, table, history and kernel that keeps a table, other processes changing the table between requests (but for the serial order)", "why_tests_cant": "interleavings of system calls are not under a test's control and their number is unbounded", "anchors": ["conntrack/conntrack.go:ConntrackTableUpdateMark", "conntrack/conntrack.go:ConntrackTableUpdateMarkForAvailableFlow", "conntrack/conntrack.go:ConntrackTableUpdateLabel", "conntrack/conntrack.go:sendMessage", "conntrack/sockets.go:recv"]}
{"id": "C146", "title": "Any sequence of UDP edits does what its calls say", "statement": "After any sequence of UDPDataDetach, UDPDataAttach, UDPTokenAttach, CreateReverseFlowPacket and (IPv4) UpdateIPv4Checksum on an accepted UDP packet, with arguments in memory of their own and the packet staying within 65535 bytes, no call fails, and the packet's accessors and its bytes show exactly what the sequence makes of it: endpoints exchanged by each turn, payload cut by each detach and extended by each attach, the lengths and checksums the calls state. UDPDataAttach and CreateReverseFlowPacket leave a complete UDP packet whatever went before, and it stays complete until the next UDPDataDetach; without UDPDataDetach a complete packet stays complete throughout. Version, header length and flow hash never change, and the given slices still hold what they held.", "quantifier": "every accepted UDP packet (IPv4 and IPv6, length validated or not) with room for its headers, every finite sequence of the operations, every arguments, every growth policy of append", "why_tests_cant": "the number of sequences, payloads and placements in memory is unbounded", "anchors": ["common/packet/helpers.go:UDPDataAttach", "common/packet/helpers.go:UDPTokenAttach", "common/packet/helpers.go:UDPDataDetach", "common/packet/helpers.go:CreateReverseFlowPacket", "common/packet/helpers.go:UpdateIPv4Checksum"]}
{"id": "C147", "title": "Replacing a payload by a token leaves right lengths", "statement": "UDPDataDetach followed by UDPTokenAttach leaves a packet whose IP header states its length (as UDPDataDetach followed by UDPDataAttach does, C72).", "quantifier": "every length-validated accepted UDP packet, marker and token", "why_tests_cant": "must hold for every payload length", "anchors": ["common/packet/helpers.go:UDPDataAttach", "common/packet/helpers.go:UDPTokenAttach", "common/packet/helpers.go:UDPDataDetach", "common/packet/helpers.go:CreateReverseFlowPacket", "common/packet/helpers.go:UpdateIPv4Checksum"]}
{"id": "C148", "title": "A complete UDP packet is accepted and read as what it is", "statement": "Given any buffer that is, byte for byte, a complete UDP packet over IPv4 (header without options) or IPv6 of fewer than 65536 bytes, New accepts it, with and without length validation, and the accessors of the packet say exactly what is on the wire: version, addresses, protocol, ports, total length, payload, buffer, token (payload after the marker) and flow hash.", "quantifier": "every such buffer, capacity of the slice, context, mark and both settings of lengthValidate", "why_tests_cant": "must hold for all contents and lengths", "anchors": ["common/packet/packet.go:New", "common/packet/packet.go:parseUDP", "common/packet/packet.go:parseIPv4Packet", "common/packet/packet.go:parseIPv6Packet", "common/packet/helpers.go:ReadUDPToken"]}
{"id": "C149", "title": "What one end makes of a UDP packet the other end reads", "statement": "After any sequence of UDP edits that leaves a complete packet (C146), if the packet's bytes arrive in any buffer of another program, New accepts them there and its accessors show the endpoints and payload the sequence gave the packet. In particular, when a packet is answered with CreateReverseFlowPacket and UDPTokenAttach of a marker of type t and a token, the receiver gets a control packet of type t & 0xF0, from the original destination to the original source, reads the same token, and computes as flow hash the reverse flow hash of the packet answered.", "quantifier": "every accepted UDP packet, every sequence of edits, arguments and token, every receiver buffer with those bytes", "why_tests_cant": "two programs and unboundedly many histories and tokens", "anchors": ["common/packet/helpers.go:CreateReverseFlowPacket", "common/packet/helpers.go:UDPTokenAttach", "common/packet/helpers.go:ReadUDPToken", "common/packet/packet.go:New", "common/packet/packet.go:L4ReverseFlowHash"]}
{"id": "C150", "title": "An edited UDP packet reaches the kernel as edited", "statement": "An application that parses a UDP packet of the queue, makes any sequence of edits that leaves it complete, and calls SetVerdict2 with its buffer, sends the kernel exactly one message, with the given verdict, mark and id, whose payload is a complete UDP packet with the endpoints and payload of the sequence of edits (IPv4: and a right header checksum when the sequence makes or keeps it right).", "quantifier": "every queue in use, packet, sequence of edits (result of at most 65531 bytes), verdict, mark and id", "why_tests_cant": "needs the composition of both libraries for all packets and edits", "anchors": ["common/packet/helpers.go:UDPDataAttach", "common/packet/packet.go:GetBuffer", "nfqueue/nfqueue.go:SetVerdict2"]}
{"id": "C151", "title": "A complete TCP packet is accepted and read as what it is", "statement": "Given any buffer that is, byte for byte, a complete TCP packet over IPv4 (header without options) or IPv6 of fewer than 65536 bytes, New accepts it as the same packet with and without length validation, and the accessors of the packet say exactly what is on the wire: version, addresses, protocol, ports, sequence and acknowledgement numbers, flags, total length, start of the data, emptiness of the payload, the payload itself, whether the options hold an authentication option, buffer and flow hash.", "quantifier": "every such buffer, capacity of the slice, context and mark, and both settings of lengthValidate", "why_tests_cant": "must hold for all contents, options and lengths", "anchors": ["common/packet/packet.go:New", "common/packet/packet.go:parseTCP", "common/packet/packet.go:CheckTCPAuthenticationOption", "common/packet/packet.go:ReadTCPData", "common/packet/packet.go:IsEmptyTCPPayload"]}
{"id": "C152", "title": "What one end attaches to a TCP packet the other end takes off", "statement": "A program detaches the last n bytes of options and the data from an accepted TCP packet, drops them and attaches options and data of its own (fitting the header and 64 KiB). Wherever the resulting GetTCPBytes arrive, New accepts them; addresses, ports, sequence numbers and flags are those of the original packet, the options are those kept followed by those attached, the data is the data attached; detaching as many bytes of options as were attached yields exactly these options and this data and leaves (if the header checksum of the original was right) exactly what the sender had before attaching. For a packet without data this is the original packet, byte for byte.", "quantifier": "every accepted TCP packet, option length, options and data attached, receiver memory", "why_tests_cant": "two programs, all packets and attachments; exactness includes the incremental checksum", "anchors": ["common/packet/packet.go:TCPDataDetach", "common/packet/packet.go:TCPDataAttach", "common/packet/packet.go:DropTCPDetachedBytes", "common/packet/packet.go:GetTCPBytes", "common/packet/packet.go:New"]}
{"id": "C153", "title": "Adjusting sequence numbers and renewing checksums is all the peer sees", "statement": "An accepted TCP packet whose data offset lies inside it is put through any sequence of IncreaseTCPSeq, DecreaseTCPSeq, IncreaseTCPAck, DecreaseTCPAck, UpdateTCPChecksum, VerifyTCPChecksum and (IPv4) UpdateIPChecksum, VerifyIPChecksum. None of the calls fails, and wherever the bytes of GetTCPBytes arrive New accepts them with and without length validation; every accessor of the receiver's packet gives what the sender's packet said, except the sequence and acknowledgement numbers, which are the originals plus and minus the adjustments modulo 2^32. The receiver finds the TCP checksum right if it was renewed after the last adjustment (or right at first with nothing adjusted), and the IPv4 header checksum right if it was right at first or renewed.", "quantifier": "every accepted packet, sequence of calls, receiver memory, buffer and setting of lengthValidate", "why_tests_cant": "arbitrary sequences of calls over all packets", "anchors": ["common/packet/packet.go:IncreaseTCPSeq", "common/packet/packet.go:DecreaseTCPSeq", "common/packet/packet.go:IncreaseTCPAck", "common/packet/packet.go:DecreaseTCPAck", "common/packet/packet.go:UpdateTCPChecksum", "common/packet/packet.go:UpdateIPChecksum", "common/packet/packet.go:VerifyTCPChecksum", "common/packet/packet.go:New"]}
{"id": "C154", "title": "A TCP packet with other options and data and adjusted numbers is what the peer reads", "statement": "A program detaches options and data from an accepted TCP packet, drops them, attaches options and data of its own, and then makes any sequence of the calls of C153. Nothing fails, and wherever the bytes of GetTCPBytes arrive New accepts them: endpoints, flags and addresses are those of the original, the numbers are the originals adjusted, the options are those kept followed by those attached, and the data is the data attached. The TCP checksum is right at the receiver if it was renewed after the last adjustment, and the IPv4 header checksum if the original's was right or it was renewed.", "quantifier": "every accepted packet, length detached, options and data attached, sequence of calls, receiver memory and buffer", "why_tests_cant": "two programs, all packets, attachments and sequences of calls", "anchors": ["common/packet/packet.go:TCPDataDetach", "common/packet/packet.go:TCPDataAttach", "common/packet/packet.go:UpdateTCPChecksum", "common/packet/packet.go:IncreaseTCPSeq", "common/packet/packet.go:GetTCPBytes", "common/packet/packet.go:New"]}
{"id": "C155", "title": "The peer of the kernel reads the TCP packet the application meant", "statement": "An application parses a TCP packet of the queue with New, detaches options and data, attaches options and data of its own, adjusts numbers and renews checksums by any sequence of calls, and gives SetVerdict2 the result of GetTCPBytes. No call fails. The kernel receives exactly one message with the given verdict, mark, id and queue whose payload attribute is these bytes (if they fit a netlink attribute), and wherever these bytes arrive New accepts them with and without length validation and reads the original endpoints and flags, the adjusted numbers, the options kept and attached, the data attached, with right checksums where they were renewed or right.", "quantifier": "every kernel answer, verdict, mark, id, accepted packet, options and data attached, sequence of calls, receiver memory", "why_tests_cant": "composition of two libraries over all packets and sequences of calls", "anchors": ["nfqueue/nfqueue.go:SetVerdict2", "common/packet/packet.go:New", "common/packet/packet.go:TCPDataDetach", "common/packet/packet.go:TCPDataAttach", "common/packet/packet.go:GetTCPBytes"]}
{"id": "C156", "title": "UDPFlowCreate makes the flows asked for and leaves no socket open", "statement": "UDPFlowCreate(n, srcPort, dstIP, dstPort) makes its flows one after the other, the j-th from port srcPort+j of 127.0.0.1 to dstIP:dstPort, each by a socket of its own that sends \"Hello World\" and is closed before the next is opened. It returns nil exactly when all n were made (none if n <= 0); otherwise it stops at the first whose addresses are not understood, whose socket cannot be opened or cannot be closed, and returns that error. Whatever fails, each socket opened is closed, once, before the next is opened. On a machine where nothing fails it makes n flows from ports srcPort, ..., srcPort+n-1.", "quantifier": "every count, port, address and every behaviour of package net at every moment", "why_tests_cant": "any call may fail at any pass of the loop", "anchors": ["conntrack/test_utils.go:UDPFlowCreate"]}
{"id": "C157", "title": "The second conntrack example marks its connection and nothing else", "statement": "The program conntrack/examples/example2 makes five UDP flows from ports 2000.. to 127.0.0.10:3000, or stops at the first that fails, and then in any case sets the mark of connection 10.0.2.15:22 -> 10.0.2.2:57766 (TCP) to 24 and changes no other entry or field of the connection table. It logs the error of the flows, if there was one, and a no-such-entry error exactly when the connection is not in the table.", "quantifier": "every connection table, every behaviour of package net, every kernel that keeps the table", "why_tests_cant": "composition of two library calls over all tables", "anchors": ["conntrack/examples/example2/main.go:main", "conntrack/test_utils.go:UDPFlowCreate", "conntrack/conntrack.go:ConntrackTableUpdateMark"]}
{"id": "C158", "title": "The nflog example prints each packet logged to its group once", "statement": "The program nflog/example, started on a kernel that keeps log groups, with group 32 free and used by nobody else and only ordinary packets logged to it, starts without error and never crashes. What it prints after any number of turns of its reader is, in order and each once, the packets logged to group 32 since the start (but for those whose datagram the start itself received); what is missing still waits in its socket, as long as the reader goes on; the reader ends only if a receive fails. If the start fails, because group 32 is taken for instance, it logs the error, reads nothing, and leaves the groups as they were.", "quantifier": "every history of the kernel before and meanwhile, every packet logged, every number of turns", "why_tests_cant": "all histories of groups and logs; depends on what the kernel does between calls", "anchors": ["nflog/example/example.go:main", "nflog/nflog.go:BindAndListenForLogs", "nflog/nflog.go:ReadLogs"]}
{"id": "C159", "title": "The nfqueue example accepts, with mark 11 and in order, whatever comes to queues 10 to 13", "statement": "The program nfqueue/examples, started on a kernel that keeps packet queues, with queues 10 to 13 free and used by nobody else, never crashes, and every queue it tries to start is started. Each of them belongs to it from then on, holds at most 2000 packets, and hands over the first 65531 bytes of each. But for at most the first two packets that came while the queue was being started, every packet of a queue is given to the queue's own callback (passVerdict for 10 and 11, passNetVerdict for 12 and 13) and accepted, one after the other in order of arrival, with mark 11 and those bytes, as soon as the queue's goroutine has made enough steps; at most one packet of a queue is in hand at any time, the others wait, and none is dropped.", "quantifier": "every history of the kernel before and meanwhile, every arrival of packets, every schedule of the five goroutines, every cut in time", "why_tests_cant": "all interleavings of five goroutines with a kernel; unbounded histories", "anchors": ["nfqueue/examples/example.go:main", "nfqueue/examples/example.go:passVerdict", "nfqueue/examples/example.go:passNetVerdict", "nfqueue/nfqueue.go:CreateAndStartNfQueue", "nfqueue/nfqueue.go:ProcessPackets", "nfqueue/nfqueue.go:SetVerdict2"]}
{"id": "C160", "title": "A queue handle acts on the socket it opened last, for the queue and callbacks it was given last", "statement": "On a handle made by NewNFQueue and used call by call (NfqOpen, UnbindPf, BindPf, CreateQueue, NfqSetMode, NfqSetQueueMaxLen, NfqDestroyQueue, SetVerdict, SetVerdict2, Recv, ProcessPackets, StopQueue, NfqClose, in any order and number): every call but NfqOpen makes system calls only on the descriptor the last successful NfqOpen obtained (and none at all if no NfqOpen succeeded), and runs no other callbacks than those of the last CreateQueue, the packet callback with the private data given there; NfqOpen, failed or not, touches no other socket than the one it makes. A configuration call first sends the request it stands for, naming the queue number last given to CreateQueue (whether or not that CreateQueue succeeded); before any NfqOpen succeeded it fails and does nothing.", "quantifier": "every history of calls on the handle with any arguments and outcomes, whatever the rest of the application does in between (short of writing into the handle); every behaviour of the kernel; every callback that itself uses no other socket and does not reopen or recreate the queue", "why_tests_cant": "The claim speaks of all histories, including repeated, failed and out-of-order opens, creates and closes; tests follow the one intended order", "anchors": ["nfqueue/nfqueue.go: NewNFQueue, NfqOpen, UnbindPf, BindPf, CreateQueue, NfqSetMode, NfqSetQueueMaxLen, NfqDestroyQueue, StopQueue, NfqClose, Recv, SetVerdict, SetVerdict2, ProcessPackets"]}
{"id": "C161", "title": "No call retries, waits or loops without bound", "statement": "Every call but the receive loops ends by itself after a bounded number of system calls, a fixed one or one per group or flow it was given, whatever the kernel answers: a request is sent at most twice and its answer waited for at most once. In package nfqueue: a configuration call makes at most 3 system calls, one of which waits for a datagram; NfqOpen at most 10, NfqClose 2, StopQueue 5 (one waits), CreateAndStartNfQueue 30 (6 wait); SetVerdict and SetVerdict2 one, which does not wait. In package nflog: NFlogUnbind and NFlogBind 3 (one waits), NFlogBindGroup and NFlogSetMode 3 per group (one waits), BindAndListenForLogs 7 plus 6 per group (2 per group wait). In package conntrack: 8 (one waits) per update, the bulk updates at most as often as the list given has flows.", "quantifier": "every handle in every state, every argument, every list of groups or flows of any length; every behaviour of the kernel in every call, including one that fails everything forever", "why_tests_cant": "A test meets a kernel that answers; that nothing is retried or awaited again against one that never gives a good answer is a statement about all of them", "anchors": ["nfqueue/nfqueue.go: NfqOpen, UnbindPf, BindPf, CreateQueue, NfqSetMode, NfqSetQueueMaxLen, NfqDestroyQueue, StopQueue, NfqClose, CreateAndStartNfQueue, SetVerdict, SetVerdict2, query, send, recv", "nflog/nflog.go: NFlogUnbind, NFlogBind, NFlogBindGroup, NFlogSetMode, NFlogClose, BindAndListenForLogs", "conntrack/conntrack.go: ConntrackTableUpdateMark, ConntrackTableUpdateMarkForAvailableFlow, ConntrackTableUpdateLabel", "common/syscallwrappers/syscalls.go: Sendto, Close"]}
{"id": "C162", "title": "The notification channel announces packets", "statement": "A packet the queue has received and handed to the packet callback can also be received from the channel GetNotificationChannel hands out.", "quantifier": "every history of calls on a handle, with packets of any content and number; every behaviour of the kernel", "why_tests_cant": "A test that receives nothing from the channel has waited only so long; that nothing is ever sent on it, in any history, is a universal statement", "anchors": ["nfqueue/nfqueue.go: NewNFQueue, GetNotificationChannel, ProcessPackets, CreateAndStartNfQueue", "nfqueue/interfaces.go: NFQueue.GetNotificationChannel"]}
{"id": "C163", "title": "A log handle acts on its own socket and reports to its own callbacks", "statement": "On a handle made by NewNFLog, whatever calls were made on it before, in whatever order and however they ended: every call but NFlogOpen, ReadLogs included, uses no other descriptor than that of the last successful NFlogOpen and calls no other callbacks than those given to the last NFlogBindGroup (even if that failed), never a nil one; a configuration call has, on that descriptor, exactly the exchanges meant for its groups, up to the first that fails; NFlogOpen touches no other socket than the one it makes.", "quantifier": "every history of calls on a handle, ReadLogs receiving any datagrams included; every behaviour of the kernel, of the callbacks (which may use the handle) and of the rest of the application", "why_tests_cant": "Histories of calls are unbounded and datagrams arbitrary; a report to a callback replaced earlier, or a request on a descriptor replaced earlier, shows in some history only", "anchors": ["nflog/nflog.go: NewNFLog, NFlogOpen, NFlogUnbind, NFlogBind, NFlogBindGroup, NFlogSetMode, ReadLogs, NFlogClose", "nflog/sockets.go: SockHandles.query, send, recv, close"]}
{"id": "C164", "title": "Work on several packets does not mix", "statement": "When a program holds several accepted TCP packets parsed from slices that do not overlap - slices of one read buffer, whose capacities reach over what follows, included - and calls their operations in any order, switching between packets as it likes, nothing crashes and each packet ends as its own calls alone would have left it: every field, the bytes of the packet, the options and the data held for attaching, what a checksum check says; what it reports is what is on the wire; and a call on one packet changes nothing of any other.", "quantifier": "every number of packets, every history of operations on them in every interleaving, each allowed when made, handed slices of memory that exists from the start and lies inside no packet's headers", "why_tests_cant": "The interleavings of calls on several packets are unbounded; hidden shared state (a common scratch buffer, a write past a packet's headers, an append into spare capacity) shows only in some of them", "anchors": ["common/packet/packet.go:New", "common/packet/packet.go: the operations on TCP packets", "common/packet/helpers.go"]}
{"id": "C165", "title": "Where a packet lies in memory does not matter", "statement": "New is given a slice, and a second slice of the same length, capacity and contents lying anywhere else - in the same memory or in another, at any distance from the start of its block. Both calls crash or neither; if neither, they return the same error and packets that agree in every field, each lying in its own slice. If a TCP packet is accepted, its copy is the same packet on the wire and the TCP and IPv4 checksum checks say the same of both.", "quantifier": "every pair of memories, every pair of valid slices with equal length, capacity and contents, every context, mark and choice of length validation", "why_tests_cant": "A parser that mixes an offset in the slice with one in its block, or keeps something from an earlier buffer, works in tests that always place the packet at the start of a fresh block", "anchors": ["packet/packet.go: New, parseIPv4Packet, parseIPv6Packet, parseTCP, parseUDP", "packet/helpers.go: VerifyTCPChecksum, VerifyIPv4Checksum"]}
{"id": "C166", "title": "What follows a packet in its buffer does not matter", "statement": "A TCP packet accepted from one slice with its length validated is accepted from every slice that holds the same bytes - wherever it lies, however much capacity follows it and whatever is in that capacity, such as the rest of an earlier, longer packet in a reused read buffer. The packet returned agrees in every field, its bytes are the same, and what GetTCPBytes puts on the wire is the same.", "quantifier": "every pair of memories, every pair of valid slices with equal bytes below 64 KiB, every context and mark", "why_tests_cant": "Reads past the end of a slice are possible in Go up to its capacity when the code reslices; that none of them reaches the result must hold for every content of the spare capacity", "anchors": ["packet/packet.go: New, parseIPv4Packet, parseIPv6Packet, parseTCP, GetTCPBytes"]}
