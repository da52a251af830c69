# Formal model of aporeto-inc/netlink-go in Lean 4

## 1. Shape of the model

Everything is under `lean/Verif/`.

| directory | contents |
|---|---|
| `Go/`      | the fragment of Go the code uses: bytes and words (`BitVec n`, so wrap-around is exact), outcomes of a call, byte orders, loops, slices and a heap with aliasing and capacity |
| `Spec/`    | independent specifications, written without the model's helpers: netlink message/attribute layout and decoder (as the kernel reads it), RFC 1071 sum, IP/TCP/UDP field positions, pseudo headers |
| `Common/`, `Sys/`, `NfQueue/`, `NfLog/`, `Conntrack/`, `Packet/` | `Model.lean` = the model, one Lean definition per Go function (or per part of one), each citing file and lines; `Spec.lean` = what an exchange, a request, a delivery looks like from outside; the other files = lemmas |
| `Props/`   | the property theorems (names `Cnn_*`, listed in `MANIFEST.json`), with non-vacuity `example`s beside them |
| `Conform/` | the repository's own unit tests replayed on the model (`Test*_passes`): evidence of fidelity, not properties |

### Conventions

* **Outcomes.** Code that can crash has type `Res α` = `ok a | panic | diverge`. Go `error` returns are values
  inside `ok`. `panic` is index/slice out of range or nil dereference. Stateful code is `GoM σ α = σ → Res (α × σ)`.
* **Loops.** `loop body s` (Go/Loop.lean) iterates `body : σ → Res (Step σ α)`; its value is the result after
  however many iterations it takes, and `diverge` iff no number of iterations ends it. There is no fuel and no bound.
  Endless service loops (`ProcessPackets`, `ReadLogs`) are observed for an arbitrary number `n` of iterations and
  theorems quantify over all `n`.
* **Words.** `uint8/16/32/64` are `BitVec 8/16/32/64`. Go `int` holding lengths and indices is `Nat` (no slice is longer
  than 2^62 bytes).
* **Memory.** Where slices share memory (nfqueue receive buffer, stored attributes, scratch header, verdict packets, the
  whole packet package) memory is an explicit `Heap` of byte arrays and a `Slice` is (array, offset, length, capacity).
  `append` writes in place when capacity allows, otherwise allocates with spare capacity chosen by an arbitrary growth
  function. Fresh, never shared slices (message building, config replies, nflog payloads) are `List Byte`.
* **Byte order** is a parameter `e : Endian`; theorems hold for both unless they say otherwise.
* **Kernel.** `Sys.Kernel` is an arbitrary function from the whole history of raw system calls and application events to
  the result of the next raw call. Theorems quantify over all kernels. The history (`World.trace`) is what "observable"
  means: descriptors, bytes sent, replies, closes, callback invocations with their arguments.
* **Application.** Callbacks are events in the history; `Env.cbEffect` is an arbitrary change of the world made by the
  callback (it may write memory, call the queue, make system calls) but it returns. Theorems that need the callback not to
  touch something say so as a hypothesis.
* **Concurrency.** `NfQueue/Concurrent.lean` cuts `SetVerdict`/`SetVerdict2` into one step per access to shared memory and
  interleaves any number of goroutines under an arbitrary schedule. `C20_steps_are_the_calls` ties the steps to the
  sequential model.

* **Fidelity.** Every unit test of `common/packet`, `nfqueue` and `nflog` (packet_test.go, nfqueue_test.go, nflog_test.go) is replayed on the
  model in `Conform/`, with a kernel answering as the gomock mocks do, and passes there by the kernel's computation, including the exact
  system calls and the exact request bytes the mocks expect. The tests of `conntrack` need a live kernel and are not replayed; they are
  subsumed by the theorems about updates (C39-C43) and about a kernel that keeps a table (C129, C130).

## 2. Plan per property

| id | modelled as | proof |
|---|---|---|
| C01 C71 C74 | `BitVec` functions | bit-level to arithmetic |
| C02 C03 C04 C08 C09 C10 | pure codecs over `List Byte` | round trips by word split/join lemmas |
| C05 C06 C07 | attribute walk as `loop`, attribute store as a map to slices | induction on the attribute list / remaining bytes; divergence by an invariant |
| C11 | raw call oracle + wrappers | case analysis over all kernels |
| C12-C15 C16 C29 | nfqueue configuration over the trace monad | each request is computed symbolically and decoded by `Spec`; protocol by case analysis over kernel answers |
| C17 C18 C19 C21 C27 C28 | heap model of SetVerdict/SetVerdict2 with iovecs | symbolic bytes, decoder, frame lemmas; C19 by induction over call lists |
| C20 C73 C100 | interleaving semantics (C100: with the reader as one more goroutine, `NfQueue/Reader.lean`) | invariant over all schedules, counter-schedule for unserialised SetVerdict2; completion under the mutex: in a round in which every goroutine gets a turn the total number of steps left decreases unless all are done |
| C22-C26 | `Recv` on the heap, `ProcessPackets` for any number of iterations | invariant over iterations, exact characterisation of crashing datagrams |
| C30-C32 C16 | nflog handle over the trace monad | induction over group lists |
| C33-C38 C76 C77 | nflog readers | induction on remaining bytes / message list / iterations; exact fate (read, refused, crash, hang) of every datagram by rule induction and uniqueness |
| C39 C40 C78 | conntrack request builders | symbolic bytes, nested decoder, uniqueness of decoding |
| C41-C46 | matching + trace monad | case analysis, induction over flows |
| C47-C50 | `New` on the heap | closed form of the parse, exact accept and crash sets |
| C51-C55 | checksum arithmetic | sums mod 65535, canonical form of end-around carry |
| C56-C61 C63 C65 C69 C72 C75 C79 | packet operations on the heap | list splice lemmas, frame lemmas; C75 by induction over operation sequences |
| C62 | option walk as `loop` | induction |
| C64 C70 | pure | case analysis |
| C66-C68 C80 | `net.IP.String` and `strconv.Itoa` as character lists | injectivity by separator uniqueness; collision witness for IPv6 |
| C81 | the example program's callback as `Env.cbEffect` | composition of the receive and verdict theorems, induction over iterations |
| C82-C84 C98 C99 | receive loop, StopQueue, verdicts and configuration calls between receives | general counterexamples on the model |
| C107 C108 | operation sequences and `GetTCPBytes` on the heap (`Packet/Copy.lean`) | frame lemma per operation, induction over sequences; freshness of appended arrays |
| C109 | packet library followed by `SetVerdict2` on one heap | composition of C75, C107, C108, C54 and C17 |
| C111-C115 | bulk updates given tables; the conntrack example program; `net.ParseIP` abstract, required only to read what `net.IP.String` prints | induction over tables, splitting an update run at its failure |
| C110 | `CreateAndStartNfQueue` error paths, socket options | case analysis of the start; kernels that judge each request by its bytes |
| C116 | error results of all calls, with format texts and inner errors | the outcome relations of C12, C30, C32, C39-C43, C110 and the reader's turns, read from their last event |
| C117 | several `NfQueue` structures over one memory and one kernel (NfQueue/Many.lean); readers and verdict calls of all queues interleaved; queues started one after the other | a step of one queue is an environment step of the others: it only writes that queue's scratch header and receive buffer, pads application packets, or allocates; induction on the schedule |
| C118 | `l4FlowHash`, `L4ReverseFlowHash`; `net.IP.String` and `strconv.Itoa` as modelled library functions | a separate description of numerals (inductive), of runs of zero groups and of address texts; the searching function is shown to find the first longest run |
| C119 | the process of nfqueue/examples/example.go: the main goroutine's starts, each queue's goroutine (reader steps, callback, the verdict call in steps, the cancelled context) under every schedule; a start and a close are one step each | an invariant per queue over what it owns, indexed by the memory owned by the others, which may grow as queues are started; `C119_alone`: a goroutine left alone does exactly one turn of the loop |
| C120 | the update calls cut at their system calls (`Sys/Prog.lean`: a tree of system calls; `Conntrack/Prog.lean`: the calls, each proved equal to its function when run alone), any number under every schedule | projection of a schedule on one call + replay by a kernel of its own, so the sequential theorems apply; ownership of descriptors as an invariant; a measure |
| C121 | the same, with the retry of `Close` | refuted: a schedule, for every kernel that releases a descriptor whose close fails |
| C122 | the process with several queues: start, stop, start, a turn of the first reader | refuted: for all arguments and every kernel that reuses the descriptor number |
| C123 | reports carry the slice (array, window) behind `Payload`; `ReadLogs` for any number of turns | proved: an invariant over the reader's run relating every report made to the memory at the end |
| C124 | complete packets, the kernel's capture of `n` bytes, datagrams of log messages | proved: the parser's view agrees with the packet as far as the reported fields reach |
| C125 | the same | refuted: below those sizes the parser runs off the captured bytes, or reads padding as address |
| C126 | `bindAndListen` then `readLogs`, a kernel whose receives show a list of arrivals | induction over the arrivals; end of the reader |
| C127 | `newNFLog`, `nflogOpen`, the configuration calls, `nflogClose`, `getNFloghandle` | invariant over all call sequences (`Life`) |
| C128 | the same | refuted: NFlogClose keeps the descriptor |
| C129 | `updateMark`, `updateMarkForAvailableFlow`, `exampleMain` against the specification of a kernel that keeps a table (Conntrack/Table.lean) | the request decodes to the update of `c` (C39); the fold over the listing is idempotent; uniqueness of tuples |
| C130 | `updateLabel` against the same | the same; TCP refuted: `nlattr_to_tcp` refuses the flags |
| C131 | `createAndStart` against the specification of a kernel that keeps queues (NfQueue/Queues.lean) | each answered call of the trace (C15) moves the kernel's state; what else happens in between keeps an invariant of the queue and its socket |
| C132 | the receive loop with a deciding callback, against the same | the same, by induction over the turns |
| C133 | `stopQueue` against the same | the same |
| C134 | the package variable `native` and `nfqueueinit` in steps, any number of goroutines | invariant over schedules; the crash before it is set |
| C135 | a kernel that keeps log groups, collects packets and sends them to the owner, with other programs and traffic at every point (`NfLog/Groups.lean`); the system calls of the start against it | invariants over the start's exchanges; a concrete such kernel exists for every script of traffic |
| C136 | the same | proved when no log arrives during the start; a concrete run refutes it otherwise |
| C137 | the same, with an account of every entry logged | the account; a concrete run loses one |
| C138 | the same kernel after the start; the reader, turn by turn; each entry logged is in exactly one of: dropped by the start, reported, in the socket, collected | invariants over turns; the bytes of each datagram are mapped to the well-formed messages of C124 and C126 |
| C139 | a configuration call or `StopQueue` and the reader as two goroutines, cut at every system call and before the look at the buffer (`NfQueue/Beside.lean`); the kernel of C131-C133 | invariant over schedules: the caller's part of the trace; the queue's state is kept by everything the reader and its callbacks do |
| C140 | the same | refuted: after "caller sends, reader receives" the socket owns no queue and holds no message, which every step keeps |
| C141 | the same, any kernel | refuted: the schedule is run symbolically; the reply over the head of the message decodes as one attribute of type 0 and the remaining attributes |
| C142 | several `BindAndListenForLogs` and their `ReadLogs` goroutines, cut at system calls and after every attribute (NfLog/Many) | invariant over schedules: each listener's position says how its last turn began; a potential bounds the steps of a turn; `C142_alone` ties the steps to the loop of C38 |
| C143 | the listeners of C142 on the kernel with log groups of C135–C138 (NfLog/Groups, NfLog/Elsewhere) | invariant over schedules: what another listener's step does to a socket not its own is a log or nothing; each listener's account grows by what it received |
| C144 | the process of C119 (NfQueue/Answer) on the kernel with packet queues of C131–C133 (NfQueue/Queues, NfQueue/Tally, NfQueue/Elsewhere) | invariant over schedules: what another queue's step does to a socket not its own is a packet coming or nothing; a Ledger for each queue grows turn by turn; steps are counted for progress |
| C145 | the concurrent calls of C120 (Conntrack/Prog) on a kernel with a connection table that answers each socket for itself (Conntrack/SharedTable) | the run of one goroutine with the place of each of its system calls in the whole history (Sys/Placed); between a request and its reply no one touches the descriptor (C120_own_socket), so the reply is that request's; induction over the log for the serial order |
| C146 | the UDP operations of Packet/Model on a memory with aliasing slices; a history is a list of calls (Props/PacketUdpSeq) | abstract state machine (endpoints, payload, stated lengths, checksums known right); refinement invariant `Tracks` kept by each call; induction over the history |
| C147 | same | violated: general refutation for every packet with a payload, from the exact effect of `UDPTokenAttach` without a length hypothesis (`Token_any`) |
| C148 | `New` on a slice that holds a complete UDP packet (Spec/Packet `Udp4`, `Udp6`), any capacity | closed form of parsing (Packet/Parse, Packet/New) on the window of the slice |
| C149 | two memories: the sender's after a history (C146), a receiver's slice with the same bytes | C146 and C148; the first byte is kept by every call (`Tracks.first`) |
| C150 | packet library and `SetVerdict2` on one memory (Props/ComposeUdp) | C146, frame of the queue's scratch header (`Tracks.other`), C17 |
| C151 | the parser on every complete TCP packet (Props/PacketTcpPeer) | closed form of parsing; C62, C71; separate wire specification Spec/PacketTcp |
| C152 | sender's detach/drop/attach and the receiver's `New` and detach, in two memories | C56, C58, C151; headers are determined by length, data offset and checksum |
| C153 | any sequence of adjusting and checksum calls by the sender; the receiver's `New` and accessors | induction on the calls with the invariant `Complete` (the packet, with what is attached, is complete); C151 |
| C154 | sender's detach, drop, attach, then any such calls; the receiver's `New` | C58 gives `Complete`; C152, C153 |
| C155 | C154's sender and receiver with `SetVerdict2` and the kernel between them | C109 for the message (the sequence of calls is shown allowed), C154 for the receiver |
| C156 C157 | `UDPFlowCreate` and conntrack/examples/example2/main.go with package net as a parameter that may answer anything (Conntrack/Flows.lean) | induction over the loop; C129 for the mark |
| C158 | nflog/example/example.go: its start and any number of turns of its reader, on the kernel of C135-C138 | composition of C135 and C138 |
| C159 | the whole nfqueue/examples/example.go (its main goroutine, the goroutines of its four queues, its callbacks) on the kernel of C131-C134 | C144's invariant, strengthened by: the queues not yet started are free (goroutines hand over verdicts only), and the starts tried succeed; then the books of C144 read for answers that are all `SetVerdict2(1, 11)` |
| C160 | every function of package nfqueue as a step in a sequential history of calls on one handle (`QLife`; the rest of the application may do anything in between but write into the handle) | identity of the handle (descriptor, number, callbacks, data) as a function of the history; each function stays `Within` that identity, function by function; requests by C12's reduction |
| C161 | every function of the three packages except the receive loops (Recv, ProcessPackets, ReadLogs: C07, C26, C36) | compositional bound on the events appended (`Verif/Sys/Bounded.lean`): a bind of two bounded programs is bounded by the sums; loops over groups and flows by induction on the list; straight-line code is shown not to diverge; `C161_reached` shows the bound attained |
| C162 | `GetNotificationChannel` and the channel as a field of the handle (capacity, what was sent and not yet received, closed or not) | false of the code: the channel is part of a queue's identity in the life history of C160, which every function leaves as it is; a concrete history delivers a packet to the callback with the channel still empty |
| C163 | histories of calls on a log handle, ReadLogs among them (`readLogs`, looked at after any number of datagrams), with any other activity of the application that leaves the handle alone in between | what makes a handle the handle it is (descriptor, callbacks) is an invariant of every function but NFlogOpen and NFlogBindGroup, whose effect on it is exact; induction over the history; the reader through a relation covering every callback invocation; callbacks may use the handle themselves |
| C164 | any number of accepted TCP packets from memory apart (`Team`), one history of calls on all of them (`runTeam`) beside each packet's own calls alone (`runOps` of `own`) | invariant: no packet's headers reach into another's memory, options or data; simulation between the common run and the run alone, equal up to where the options lie in memory; induction over the history; a second simulation (`Clip`) shows that capacities do not matter, so the slices need be apart only up to their lengths |
| C165 | `New` on two slices with equal length, capacity and contents in two memories (`Copy`), both results side by side (`Moved`: all fields equal, buffers equal in contents) | case analysis over the closed forms of the parsers, which mention the slice only through its length, capacity and window; the checksum checks by their closed forms |
| C166 | `New` on two slices of equal bytes, in two memories, with any capacities; hypotheses only acceptance of one, TCP, below 64 KiB | acceptance bounds the slice from below (header and 20 bytes); every field read lies below that bound, so it reads the same in both windows; then case analysis as for C165 |
| C106 | `TestGetTCPPacket`: accessors and reverse hash agree with a parsed packet, the cached forward hash does not | equality with the independent hash text |
| C101-C105 | handles used out of order: configuration while logs arrive, verdicts before open and after close, opening twice, foreign queue numbers | general counterexamples on the model |
| C85 C86 | nflog reader on big-endian hosts, closing | general counterexamples |
| C87-C91 C94-C97 | packet operations, `New` | byte-level frame lemmas, colon counting for hashes, exact accept set |
| C92 C93 | `Print`, `PacketToStringTCP` (`Packet/Diag.lean`; the text of `ipv4.Header.String` is a parameter) | closed form of the output, separator uniqueness |

Every property of the list is expressible; none is `not_applicable`. A property that is false of the code is kept in its full
form with status `partial`: its theorems prove the part that holds (suffix `_partial`) and refute the rest (suffix
`_violated`, `_crashes`, `_leaks`, ...), in general form where possible, not only on one example.

## 3. Defects the proofs exposed

Zero-length or short attributes hang or crash the parser (C07, C26); descriptor leak when bind(2) fails (C16); `SetVerdict`
appends zero bytes to payloads (C18) and can read past the packet (C28); `SetVerdict2` is not safe for concurrent use (C20);
stale attributes (C22); callback on failed receives (C24); silent no-op without socket (C31); last payload byte of a log
cut off (C35); log reader hangs or crashes on malformed datagrams (C36, C77); malformed TCP flags in label updates (C40); IPv6
addresses truncated to four bytes (C41, C78); nil dereference when no socket can be opened (C44); crash on invalid addresses
(C45); parser crashes (C50); TCP checksum after odd attachments (C54); attach overwrites detached data (C59, C79); IPv6 flow
hash collisions (C67); stale flow hash (C68); zero UDP checksum over IPv6 (C69); log reports always say IPv4 (C76); and
those of C82-C89, C94-C96, C98, C99, C101-C106, C111-C115, C121, C122, C125, C128, C130, C132, C134, C136, C137, C140 and C141.

## 4. Trusted base

* Lean's kernel and the axioms `propext`, `Classical.choice`, `Quot.sound`. No other axiom occurs; no `native_decide`, no
  `bv_decide`. `AXIOMS.md` lists the axioms of each claimed theorem (output of `#print axioms`, made by `tools/axioms.py`).
* The reading of the Go code recorded in each definition's comment.
* Go semantics as encoded in `Go/` (slices, append, wrap-around, loops, panics) and models of `encoding/binary`, `bytes.Reader`,
  `net.IP.To4/String`, `strconv.Itoa`, given beside their definitions.
* The kernel, `net.ParseIP` and `vishvananda/netlink` are parameters; nothing is assumed of them except in hypotheses.
* C129 and C130 are about every kernel that meets `KeepsTable`; that Linux does (for the requests of this library) is the reading of
  nf_conntrack_netlink.c recorded in `Conntrack/Table.lean`.  C131-C133 likewise: every kernel that meets `Keeps` (NfQueue/Queues.lean, a
  reading of nfnetlink_queue.c; `queueKernel` shows that there are such kernels), also used by C139 and C140; and C135-C138: every kernel that
  meets `Keeps` of NfLog/Groups.lean, a reading of nfnetlink_log.c.
* Memory behind an array (what an over-long iovec makes the kernel read) is an arbitrary parameter `Env.behind`.
* Sequential consistency of the interleavings in C20/C73/C100/C117/C139-C142 (Go's memory model gives less for racy code).

### Modelled
`common/helpers.go` (all), `common/accessors.go` (as record fields and updates; `GetNetlinkData` as the slice itself), `common/syscallwrappers/syscalls.go` (all), `common/packet/{packet,helpers,types,constants}.go`,
`nfqueue/{nfqueue,helpers}.go`, `nflog/{nflog,sockets,helpers}.go`, `conntrack/{conntrack,sockets}.go`,
`nfqueue/examples/example.go`, `conntrack/examples/example/example.go`, `conntrack/examples/example2/main.go`, `conntrack/test_utils.go`, `nflog/example/example.go`
(printing is a call of the callback in the trace; `fmt` output of `%s:%d` is modelled, what is printed is not rendered).

### Not modelled
The rendering of `fmt` formats (an error made by `fmt.Errorf` is kept as its format and the error printed in it) and log output (`zap`, `hex.Dump`, `ipv4.Header.String`); `context` beyond its done flag; `getRcvBufSize`; gomock files, the non-linux stubs; garbage collection and memory exhaustion; signals.
