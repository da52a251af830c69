import Verif.Go.HeapLemmas
import Verif.Go.Loop
/-!
Model of package `packet` (/repo/common/packet/{packet,helpers,types,constants}.go).

Byte slices held by a packet (`Buffer`, `tcpOptions`, `tcpData`) are windows into shared memory,
because the code reslices one buffer and appends to slices of it.  Addresses and `udpData` are
fresh copies in the code and plain values here.  Strings are lists of characters.
Not modelled: the three `...Metadata` fields, which the package never reads or writes.
The diagnostic functions (`Print`, `PacketToStringTCP`, ...) are in `Packet/Diag.lean`.
-/
namespace Verif.Packet

/-! ### constants.go -/

/-- constants.go:5 -/ def minTCPIPPacketLen : U16 := 20
/-- constants.go:8 -/ def minUDPIPPacketLen : U16 := 8
/-- constants.go:10 -/ def minIPv4HdrSize : Nat := 20
/-- constants.go:16 -/ def ipv4HdrLenPos : Nat := 0
/-- constants.go:19 -/ def ipv4LengthPos : Nat := 2
/-- constants.go:22 -/ def ipv4IDPos : Nat := 4
/-- constants.go:25 -/ def ipv4ProtoPos : Nat := 9
/-- constants.go:28 -/ def ipv4ChecksumPos : Nat := 10
/-- constants.go:31 -/ def ipv4SourceAddrPos : Nat := 12
/-- constants.go:34 -/ def ipv4DestAddrPos : Nat := 16
/-- constants.go:39 -/ def ipv6HeaderLen : Nat := 40
/-- constants.go:42 -/ def ipv6PayloadLenPos : Nat := 4
/-- constants.go:45 -/ def ipv6ProtoPos : Nat := 6
/-- constants.go:48 -/ def ipv6SourceAddrPos : Nat := 8
/-- constants.go:51 -/ def ipv6DestAddrPos : Nat := 24
/-- constants.go:57 -/ def IPProtocolTCP : Byte := 6
/-- constants.go:60 -/ def IPProtocolUDP : Byte := 17
/-- constants.go:68 -/ def ipv4HdrLenMask : Byte := 0x0F
/-- constants.go:69 -/ def ipv4ProtoMask : Byte := 0xF0
/-- constants.go:75 -/ def tcpSourcePortPos : Nat := 0
/-- constants.go:78 -/ def tcpDestPortPos : Nat := 2
/-- constants.go:81 -/ def tcpSeqPos : Nat := 4
/-- constants.go:84 -/ def tcpAckPos : Nat := 8
/-- constants.go:87 -/ def tcpDataOffsetPos : Nat := 12
/-- constants.go:90 -/ def tcpFlagsOffsetPos : Nat := 13
/-- constants.go:93 -/ def tcpChecksumPos : Nat := 16
/-- constants.go:99 -/ def tcpDataOffsetMask : Byte := 0xF0
/-- constants.go:102 -/ def TCPSynMask : Byte := 0x2
/-- constants.go:111 -/ def TCPAckMask : Byte := 0x10
/-- constants.go:114 -/ def TCPFinMask : Byte := 0x1
/-- constants.go:123 -/ def TCPAuthenticationOption : Byte := 34
/-- constants.go:135 -/ def udpSourcePortPos : Nat := 0
/-- constants.go:137 -/ def udpDestPortPos : Nat := 2
/-- constants.go:139 -/ def udpLengthPos : Nat := 4
/-- constants.go:141 -/ def udpChecksumPos : Nat := 6
/-- constants.go:143 -/ def UDPDataPos : Byte := 8
/-- constants.go:155 -/ def UDPPacketMask : Byte := 0xF0
/-- constants.go:160 -/
def UDPAuthMarker : List Byte :=
  [0x6e, 0x33, 0x30, 0x6e, 0x6a, 0x78, 0x71, 0x37, 0x62, 0x6d, 0x69, 0x77, 0x72, 0x36, 0x64, 0x74,
    0x78, 0x71]
/-- constants.go:164 -/ def UDPSignatureLen : Nat := 20
/-- constants.go:166 -/ def udpAuthMarkerOffset : Nat := 10
/-- constants.go:168 -/ def udpSignatureEnd : Nat := UDPDataPos.toNat + UDPSignatureLen
/-- constants.go:170 -/ def udpJwtTokenOffset : Nat := 28
/-- types.go:7 -/ def PacketTypeNetwork : U64 := 0x1000
/-- types.go:9 -/ def PacketTypeApplication : U64 := 0x2000

/-! ### types.go -/

/-- types.go:138-146 `IPver`. -/
inductive IPver where
  | V4
  | V6
deriving DecidableEq, Repr

/-- types.go:148-202 `iphdr`, `tcphdr`, `udphdr`, `Packet`, flattened. -/
structure Packet where
  context : U64
  mark : List Char
  buffer : Slice
  ipHeaderLen : Byte
  ipProto : Byte
  ipTotalLength : U16
  ipID : U16
  ipChecksum : U16
  version : IPver
  sourceAddress : List Byte
  destinationAddress : List Byte
  tcpOptions : Slice
  tcpData : Slice
  tcpSourcePort : U16
  tcpDestinationPort : U16
  tcpSeq : U32
  tcpAck : U32
  tcpDataOffset : Byte
  tcpFlags : Byte
  tcpChecksum : U16
  tcpTotalLength : U16
  udpSourcePort : U16
  udpDestinationPort : U16
  udpChecksum : U16
  udpData : List Byte
  l4flowhash : List Char
deriving DecidableEq, Repr

/-- `var p Packet` -/
def Packet.zero : Packet :=
  { context := 0, mark := [], buffer := Slice.nil, ipHeaderLen := 0, ipProto := 0,
    ipTotalLength := 0, ipID := 0, ipChecksum := 0, version := .V4, sourceAddress := [],
    destinationAddress := [], tcpOptions := Slice.nil, tcpData := Slice.nil, tcpSourcePort := 0,
    tcpDestinationPort := 0, tcpSeq := 0, tcpAck := 0, tcpDataOffset := 0, tcpFlags := 0,
    tcpChecksum := 0, tcpTotalLength := 0, udpSourcePort := 0, udpDestinationPort := 0,
    udpChecksum := 0, udpData := [], l4flowhash := [] }

/-! ### Text of numbers and addresses (Go standard library, trusted base) -/

/-- `strconv.Itoa` of a non-negative number. -/
def itoa (n : Nat) : List Char := Nat.toDigits 10 n

/-- Lower-case hexadecimal without leading zeros (`net`'s `appendHex`). -/
def hex (n : Nat) : List Char := Nat.toDigits 16 n

/-- `net.IP.To4`: the four bytes of an IPv4 or IPv4-mapped address. -/
def to4 (a : List Byte) : Option (List Byte) :=
  if a.length = 4 then some a
  else if a.length = 16 ∧ a.take 10 = zeros 10 ∧ (a.drop 10).take 2 = [0xff, 0xff] then
    some (a.drop 12)
  else none

/-- The eight 16-bit groups of an IPv6 address. -/
def groups : List Byte → List Nat
  | a :: b :: t => (a.toNat * 256 + b.toNat) :: groups t
  | _ => []

/-- Number of zero groups at the front. -/
def zeroRun : List Nat → Nat
  | 0 :: t => zeroRun t + 1
  | _ => 0

/-- The first longest run of zero groups: (start, length). -/
def bestRun : List Nat → Nat → Nat × Nat → Nat × Nat
  | [], _, best => best
  | g :: t, i, best =>
    bestRun t (i + 1) (if zeroRun (g :: t) > best.2 then (i, zeroRun (g :: t)) else best)

/-- Groups in hexadecimal, separated by colons. -/
def hexGroups : List Nat → List Char
  | [] => []
  | [g] => hex g
  | g :: t => hex g ++ ':' :: hexGroups t

/-- RFC 5952 text of an IPv6 address given by its groups: the first longest run of at least two
zero groups is written `::`. -/
def ip6Text (gs : List Nat) : List Char :=
  let r := bestRun gs 0 (0, 0)
  if r.2 ≥ 2 then hexGroups (gs.take r.1) ++ ':' :: ':' :: hexGroups (gs.drop (r.1 + r.2))
  else hexGroups gs

/-- Dotted decimal. -/
def dotted : List Byte → List Char
  | [] => []
  | [a] => itoa a.toNat
  | a :: t => itoa a.toNat ++ '.' :: dotted t

/-- `net.IP.String` (for lengths other than 0, 4 and 16 the code base never calls it; a fixed text
stands for Go's `"?" + hex`). -/
def ipString (a : List Byte) : List Char :=
  if a.length = 0 then ['<', 'n', 'i', 'l', '>']
  else match to4 a with
    | some b => dotted b
    | none => if a.length = 16 then ip6Text (groups a) else ['?']

/-! ### Reading memory -/

/-- `s[i]` -/
def at' (h : Heap) (s : Slice) (i : Nat) : Res Byte := idx (h.bytes s) i

/-- `binary.BigEndian.Uint16(s[i:i+2])` -/
def rd16 (h : Heap) (s : Slice) (i : Nat) : Res U16 := do
  let t ← s.sub i (i + 2)
  dec16 .big (h.bytes t)

/-- `binary.BigEndian.Uint32(s[i:i+4])` -/
def rd32 (h : Heap) (s : Slice) (i : Nat) : Res U32 := do
  let t ← s.sub i (i + 4)
  dec32 .big (h.bytes t)

/-- the bytes of `s[i:i+n]` -/
def rdN (h : Heap) (s : Slice) (i n : Nat) : Res (List Byte) := do
  let t ← s.sub i (i + n)
  .ok (h.bytes t)

/-- `binary.BigEndian.PutUint16(s[i:i+2], v)` -/
def wr16 (h : Heap) (s : Slice) (i : Nat) (v : U16) : Res Heap := do
  let t ← s.sub i (i + 2)
  h.store t 0 (enc16 .big v)

/-- `binary.BigEndian.PutUint32(s[i:i+4], v)` -/
def wr32 (h : Heap) (s : Slice) (i : Nat) (v : U32) : Res Heap := do
  let t ← s.sub i (i + 4)
  h.store t 0 (enc32 .big v)

/-- `s[i] = b` -/
def wr8 (h : Heap) (s : Slice) (i : Nat) (b : Byte) : Res Heap := h.store s i [b]

/-! ### Accessors (packet.go:175-225, 517-583; helpers.go:378-386) -/

/-- packet.go:533-539 `SourcePort` -/
def Packet.SourcePort (p : Packet) : U16 :=
  if p.ipProto = IPProtocolTCP then p.tcpSourcePort else p.udpSourcePort

/-- packet.go:542-548 `DestPort` -/
def Packet.DestPort (p : Packet) : U16 :=
  if p.ipProto = IPProtocolTCP then p.tcpDestinationPort else p.udpDestinationPort

/-- packet.go:218-220 `TCPDataStartBytes` -/
def Packet.TCPDataStartBytes (p : Packet) : U16 := p.tcpDataOffset.setWidth 16 * 4

/-- packet.go:176-178 `IsEmptyTCPPayload` -/
def Packet.IsEmptyTCPPayload (p : Packet) : Bool := p.TCPDataStartBytes == p.tcpTotalLength

/-- packet.go:181-183 `GetTCPData` -/
def Packet.GetTCPData (p : Packet) : Slice := p.tcpData

/-- packet.go:196-198 `SetTCPData` -/
def Packet.SetTCPData (p : Packet) (b : Slice) : Packet := { p with tcpData := b }

/-- packet.go:201-203 `GetTCPOptions` -/
def Packet.GetTCPOptions (p : Packet) : Slice := p.tcpOptions

/-- packet.go:186-188 `GetUDPData`: `Buffer[ipHeaderLen+UDPDataPos:]` (8-bit addition). -/
def Packet.GetUDPData (p : Packet) : Res Slice := p.buffer.from' (p.ipHeaderLen + UDPDataPos).toNat

/-- packet.go:191-193 `GetUDPDataStartBytes` -/
def GetUDPDataStartBytes : U16 := UDPDataPos.setWidth 16

/-- packet.go:206-208 `DropTCPDetachedDataBytes` -/
def Packet.DropTCPDetachedDataBytes (p : Packet) : Packet := { p with tcpData := Slice.nil }

/-- packet.go:211-215 `DropTCPDetachedBytes` -/
def Packet.DropTCPDetachedBytes (p : Packet) : Packet :=
  { p with tcpOptions := Slice.nil, tcpData := Slice.nil }

/-- packet.go:223-225 `GetIPLength` -/
def Packet.GetIPLength (p : Packet) : U16 := p.ipTotalLength

/-- packet.go:518-520 `ID` -/
def Packet.ID (p : Packet) : List Char := itoa p.ipID.toNat

/-- packet.go:523-525 `TCPOptionLength` -/
def Packet.TCPOptionLength (p : Packet) : Nat := p.tcpOptions.len

/-- packet.go:528-530 `TCPDataLength` -/
def Packet.TCPDataLength (p : Packet) : Nat := p.tcpData.len

/-- packet.go:551-553 `SourceAddress` -/
def Packet.SourceAddress (p : Packet) : List Byte := p.sourceAddress

/-- packet.go:556-558 `DestinationAddress` -/
def Packet.DestinationAddress (p : Packet) : List Byte := p.destinationAddress

/-- packet.go:561-563 `IPProto` -/
def Packet.IPProto (p : Packet) : Byte := p.ipProto

/-- packet.go:566-568 `IPTotalLen` -/
def Packet.IPTotalLen (p : Packet) : U16 := p.ipTotalLength

/-- packet.go:571-573 `IPHeaderLen` -/
def Packet.IPHeaderLen (p : Packet) : Byte := p.ipHeaderLen

/-- packet.go:576-578 `GetBuffer` -/
def Packet.GetBuffer (p : Packet) (offset : Nat) : Res Slice := p.buffer.from' offset

/-- packet.go:581-583 `IPversion` -/
def Packet.IPversion (p : Packet) : IPver := p.version

/-- helpers.go:379-381 `GetTCPFlags` -/
def Packet.GetTCPFlags (p : Packet) : Byte := p.tcpFlags

/-- helpers.go:384-386 `SetTCPFlags` (changes only the structure, not the wire byte) -/
def Packet.SetTCPFlags (p : Packet) (flags : Byte) : Packet := { p with tcpFlags := flags }

/-! ### Flow hashes (packet.go:493-515) -/

/-- packet.go:499-501 `l4FlowHash` -/
def Packet.computeL4FlowHash (p : Packet) : List Char :=
  ipString p.sourceAddress ++ ':' :: ipString p.destinationAddress
    ++ ':' :: itoa p.SourcePort.toNat ++ ':' :: itoa p.DestPort.toNat

/-- packet.go:495-497 `L4FlowHash` -/
def Packet.L4FlowHash (p : Packet) : List Char := p.l4flowhash

/-- packet.go:504-506 `L4ReverseFlowHash` -/
def Packet.L4ReverseFlowHash (p : Packet) : List Char :=
  ipString p.destinationAddress ++ ':' :: ipString p.sourceAddress
    ++ ':' :: itoa p.DestPort.toNat ++ ':' :: itoa p.SourcePort.toNat

/-- packet.go:509-515 `SourcePortHash` -/
def Packet.SourcePortHash (p : Packet) (stage : U64) : List Char :=
  if stage = PacketTypeNetwork then ipString p.destinationAddress ++ ':' :: itoa p.DestPort.toNat
  else ipString p.sourceAddress ++ ':' :: itoa p.SourcePort.toNat

/-! ### Parsing (packet.go:23-173) -/

/-- packet.go:47-64 `parseTCP` -/
def parseTCP (h : Heap) (p : Packet) (bytes : Slice) : Res Packet := do
  let tcpBuffer ← bytes.from' p.ipHeaderLen.toNat
  let csum ← rd16 h tcpBuffer tcpChecksumPos
  let sport ← rd16 h tcpBuffer tcpSourcePortPos
  let dport ← rd16 h tcpBuffer tcpDestPortPos
  let ack ← rd32 h tcpBuffer tcpAckPos
  let seq ← rd32 h tcpBuffer tcpSeqPos
  let off ← at' h tcpBuffer tcpDataOffsetPos
  let rest ← p.buffer.from' p.ipHeaderLen.toNat
  let flags ← at' h tcpBuffer tcpFlagsOffsetPos
  .ok { p with
    tcpChecksum := csum, tcpSourcePort := sport, tcpDestinationPort := dport, tcpAck := ack,
    tcpSeq := seq, tcpDataOffset := (off &&& tcpDataOffsetMask) >>> 4,
    tcpTotalLength := BitVec.ofNat 16 rest.len, tcpFlags := flags,
    tcpOptions := Slice.nil, tcpData := Slice.nil }

/-- packet.go:66-75 `parseUDP` -/
def parseUDP (h : Heap) (p : Packet) (bytes : Slice) : Res Packet := do
  let udpBuffer ← bytes.from' p.ipHeaderLen.toNat
  let csum ← rd16 h udpBuffer udpChecksumPos
  let sport ← rd16 h udpBuffer udpSourcePortPos
  let dport ← rd16 h udpBuffer udpDestPortPos
  .ok { p with udpChecksum := csum, udpData := [], udpSourcePort := sport, udpDestinationPort := dport }

/-- packet.go:98-104 and 141-146: the length check; reslices the buffer when bytes follow the
packet; `none` when the stated length exceeds the bytes available.  (16-bit comparison.) -/
def checkLength (p : Packet) (lengthValidate : Bool) : Res (Option Packet) :=
  if lengthValidate ∧ p.ipTotalLength ≠ BitVec.ofNat 16 p.buffer.len then
    if p.ipTotalLength < BitVec.ofNat 16 p.buffer.len then do
      let b ← p.buffer.to p.ipTotalLength.toNat
      .ok (some { p with buffer := b })
    else .ok none
  else .ok (some p)

/-- packet.go:106-128 and 151-172: transport header checks and parsing, then the flow hash. -/
def parseTransport (h : Heap) (p : Packet) (bytes : Slice) : Res (Packet × Option Err) :=
  if p.ipProto = IPProtocolTCP ∧ p.ipTotalLength - p.ipHeaderLen.setWidth 16 < minTCPIPPacketLen then
    .ok (p, some (.msg "tcp ip packet too small"))
  else do
    let p ← if p.ipProto = IPProtocolTCP then parseTCP h p bytes else .ok p
    if p.ipProto = IPProtocolUDP ∧ p.ipTotalLength - p.ipHeaderLen.setWidth 16 < minUDPIPPacketLen then
      .ok (p, some (.msg "udp ip packet too small"))
    else do
      let p ← if p.ipProto = IPProtocolUDP then parseUDP h p bytes else .ok p
      .ok ({ p with l4flowhash := p.computeL4FlowHash }, none)

/-- packet.go:77-129 `parseIPv4Packet` -/
def parseIPv4Packet (h : Heap) (p : Packet) (bytes : Slice) (lengthValidate : Bool) :
    Res (Packet × Option Err) :=
  if bytes.len < minIPv4HdrSize then .ok (p, some (.msg "IP packet is smaller than min IP size of 20"))
  else do
    let hl ← at' h bytes ipv4HdrLenPos
    let proto ← at' h bytes ipv4ProtoPos
    let tot ← rd16 h bytes ipv4LengthPos
    let id ← rd16 h bytes ipv4IDPos
    let csum ← rd16 h bytes ipv4ChecksumPos
    let src ← rdN h bytes ipv4SourceAddrPos 4
    let dst ← rdN h bytes ipv4DestAddrPos 4
    let p := { p with
      ipHeaderLen := (hl &&& ipv4HdrLenMask) * 4, ipProto := proto, ipTotalLength := tot, ipID := id,
      ipChecksum := csum, sourceAddress := src, destinationAddress := dst }
    if p.ipHeaderLen ≠ BitVec.ofNat 8 minIPv4HdrSize then
      .ok (p, some (.msg "packets with ip options not supported"))
    else do
      let p := { p with buffer := bytes }
      match ← checkLength p lengthValidate with
      | none => .ok (p, some (.msg "stated ip packet length differs from bytes available"))
      | some p => parseTransport h p bytes

/-- packet.go:131-173 `parseIPv6Packet`.  Lines 141-149: whenever validation is on and the stated
length differs from the bytes available, `parseTCP` runs whatever the protocol. -/
def parseIPv6Packet (h : Heap) (p : Packet) (bytes : Slice) (lengthValidate : Bool) :
    Res (Packet × Option Err) := do
  let proto ← at' h bytes ipv6ProtoPos
  let plen ← rd16 h bytes ipv6PayloadLenPos
  let src ← rdN h bytes ipv6SourceAddrPos 16
  let dst ← rdN h bytes ipv6DestAddrPos 16
  let p := { p with
    ipHeaderLen := BitVec.ofNat 8 ipv6HeaderLen, ipProto := proto,
    ipTotalLength := BitVec.ofNat 16 ipv6HeaderLen + plen,
    sourceAddress := src, destinationAddress := dst, buffer := bytes }
  match ← checkLength p lengthValidate with
  | none => .ok (p, some (.msg "stated ip packet length differs from bytes available"))
  | some q =>
    if lengthValidate ∧ p.ipTotalLength ≠ BitVec.ofNat 16 p.buffer.len then do
      let q ← parseTCP h q bytes
      parseTransport h q bytes
    else parseTransport h q bytes

/-- packet.go:26-45 `New`.  (`len(bytes) < 0` at line 35 can never hold: an empty buffer is not
rejected but crashes on the next line.) -/
def New (h : Heap) (context : U64) (bytes : Slice) (mark : List Char) (lengthValidate : Bool) :
    Res (Option Packet × Option Err) :=
  let p := { Packet.zero with mark := mark, context := context }
  if bytes.len < ipv4HdrLenPos then .ok (none, some (.msg "invalid packet length"))
  else do
    let b ← at' h bytes ipv4HdrLenPos
    if b &&& ipv4ProtoMask = 0x40 then do
      let (p, err) ← parseIPv4Packet h { p with version := .V4 } bytes lengthValidate
      .ok (some p, err)
    else do
      let (p, err) ← parseIPv6Packet h { p with version := .V6 } bytes lengthValidate
      .ok (some p, err)

/-! ### Reading TCP data (packet.go:292-354) -/

/-- packet.go:293-300 `GetTCPBytes` (the result is a fresh slice: its bytes) -/
def Packet.GetTCPBytes (h : Heap) (p : Packet) : List Byte :=
  h.bytes p.buffer ++ h.bytes p.tcpOptions ++ h.bytes p.tcpData

/-- packet.go:310-312 `ReadTCPData` (16-bit addition of the offsets) -/
def Packet.ReadTCPData (p : Packet) : Res Slice :=
  p.buffer.from' (p.ipHeaderLen.setWidth 16 + p.TCPDataStartBytes).toNat

/-- packet.go:329-353: one iteration of the option walk over the option bytes `buffer`. -/
def authOptionBody (buffer : List Byte) (i : Nat) : Res (Step Nat (Option Err)) :=
  if i < buffer.length then do
    let k ← idx buffer i
    if k = 0 ∨ k = 1 then .ok (.next (i + 1))
    else if k ≠ TCPAuthenticationOption then
      if buffer.length ≤ i + 1 then .ok (.done (some (.msg "tcp authentication option not found")))
      else do
        let l ← idx buffer (i + 1)
        if l.toNat = 0 then .ok (.done (some (.msg "Invalid TCP Option Packet")))
        else .ok (.next (i + l.toNat))
    else .ok (.done none)
  else .ok (.done (some (.msg "tcp authentication option not found")))

/-- packet.go:315-354 `CheckTCPAuthenticationOption` (its argument is never used) -/
noncomputable def Packet.CheckTCPAuthenticationOption (h : Heap) (p : Packet) : Res (Option Err) :=
  if p.TCPDataStartBytes ≤ minTCPIPPacketLen then
    .ok (some (.msg "tcp authentication option not found"))
  else if p.buffer.len < p.ipHeaderLen.toNat + 20 then .ok (some (.msg "Invalid IP Packet"))
  else if p.ipHeaderLen.toNat + (p.tcpDataOffset * 4).toNat > p.buffer.len then
    .ok (some (.msg "Invalid TCP Packet"))
  else do
    let buffer ← p.buffer.sub (p.ipHeaderLen + 20).toNat (p.ipHeaderLen.toNat + (p.tcpDataOffset * 4).toNat)
    loop (authOptionBody (h.bytes buffer)) 0

/-! ### Checksums (helpers.go:17-52, 102-218) -/

/-- helpers.go:169-171: one iteration of `for (csum >> 16) > 0` in `incCsum16` -/
def incCsumBody (csum : U32) : Res (Step U32 U32) :=
  if csum >>> 16 > 0 then .ok (.next ((csum &&& 0xffff) + ((csum >>> 16) &&& 0xffff)))
  else .ok (.done csum)

/-- helpers.go:163-174 `incCsum16` -/
noncomputable def incCsum16 (start old new : U16) : Res U16 := do
  let start := start ^^^ 0xffff
  let old := old ^^^ 0xffff
  let csum ← loop incCsumBody (start.setWidth 32 + old.setWidth 32 + new.setWidth 32)
  .ok ((csum ^^^ 0xffff).setWidth 16)

/-- helpers.go:177-179: one iteration of `for sum > 0xffff` -/
def csumConvertBody (sum : U32) : Res (Step U32 U16) :=
  if sum > 0xffff then .ok (.next ((sum >>> 16) + (sum &&& 0xffff)))
  else .ok (.done (sum.setWidth 16))

/-- helpers.go:176-182 `csumConvert32To16bit` -/
noncomputable def csumConvert32To16bit (sum : U32) : Res U16 := loop csumConvertBody sum

/-- helpers.go:185-198 `checksumDelta` (the loop `for ; len(buf) >= 2; buf = buf[2:]` as recursion
on the bytes left) -/
def checksumDelta (sum : U32) : List Byte → U32
  | a :: b :: t => checksumDelta (sum + (a.setWidth 32 <<< 8 ||| b.setWidth 32)) t
  | [a] => sum + (a.setWidth 32 <<< 8)
  | [] => sum

/-- helpers.go:201-207 `checksum` -/
noncomputable def checksum (buf : List Byte) : Res U16 := do
  let sum16 ← csumConvert32To16bit (checksumDelta 0 buf)
  .ok (~~~sum16)

/-- helpers.go:209-211 `partialChecksum` -/
def partialChecksum (csum : U32) (buf : List Byte) : U32 := checksumDelta csum buf

/-- helpers.go:213-218 `finalizeChecksum` -/
noncomputable def finalizeChecksum (csum32 : U32) : Res U16 := do
  let csum16 ← csumConvert32To16bit csum32
  .ok (~~~csum16)

/-- helpers.go:103-116 `computeIPv4Checksum` -/
noncomputable def computeIPv4Checksum (h : Heap) (p : Packet) : Res (U16 × Heap) := do
  let h ← wr8 h p.buffer ipv4ChecksumPos 0
  let h ← wr8 h p.buffer (ipv4ChecksumPos + 1) 0
  let hdr ← p.buffer.to p.ipHeaderLen.toNat
  let sum ← checksum (h.bytes hdr)
  let h ← wr16 h p.buffer ipv4ChecksumPos p.ipChecksum
  .ok (sum, h)

/-- helpers.go:132-138: sum over the address part of the pseudo header, read from the wire -/
def addrSum (h : Heap) (p : Packet) : Res U32 :=
  match p.version with
  | .V4 => do
    let s ← rdN h p.buffer ipv4SourceAddrPos 4
    let d ← rdN h p.buffer ipv4DestAddrPos 4
    .ok (partialChecksum (partialChecksum 0 s) d)
  | .V6 => do
    let s ← rdN h p.buffer ipv6SourceAddrPos 16
    let d ← rdN h p.buffer ipv6DestAddrPos 16
    .ok (partialChecksum (partialChecksum 0 s) d)

/-- helpers.go:119-160 `computeTCPChecksum` -/
noncomputable def computeTCPChecksum (h : Heap) (p : Packet) : Res (U16 × Heap) := do
  let buffer ← p.buffer.from' p.ipHeaderLen.toNat
  let tcpBufSize := BitVec.ofNat 16 (buffer.len + p.tcpData.len + p.tcpOptions.len)
  let oldCsumLow ← at' h buffer tcpChecksumPos
  let oldCsumHigh ← at' h buffer (tcpChecksumPos + 1)
  let h ← wr8 h buffer tcpChecksumPos 0
  let h ← wr8 h buffer (tcpChecksumPos + 1) 0
  let csum ← addrSum h p
  let csum := partialChecksum csum [0, 6]
  let csum := partialChecksum csum (enc16 .big tcpBufSize)
  let csum := partialChecksum csum (h.bytes buffer)
  let csum := partialChecksum csum (h.bytes p.tcpOptions)
  let csum := partialChecksum csum (h.bytes p.tcpData)
  let csum16 ← finalizeChecksum csum
  let h ← wr8 h buffer tcpChecksumPos oldCsumLow
  let h ← wr8 h buffer (tcpChecksumPos + 1) oldCsumHigh
  .ok (csum16, h)

/-- helpers.go:20-25 `VerifyIPv4Checksum` -/
noncomputable def VerifyIPv4Checksum (h : Heap) (p : Packet) : Res (Bool × Heap) := do
  let (sum, h) ← computeIPv4Checksum h p
  .ok (sum == p.ipChecksum, h)

/-- helpers.go:29-34 `UpdateIPv4Checksum` -/
noncomputable def UpdateIPv4Checksum (h : Heap) (p : Packet) : Res (Heap × Packet) := do
  let (sum, h) ← computeIPv4Checksum h p
  let p := { p with ipChecksum := sum }
  let h ← wr16 h p.buffer ipv4ChecksumPos p.ipChecksum
  .ok (h, p)

/-- helpers.go:39-44 `VerifyTCPChecksum` -/
noncomputable def VerifyTCPChecksum (h : Heap) (p : Packet) : Res (Bool × Heap) := do
  let (sum, h) ← computeTCPChecksum h p
  .ok (sum == p.tcpChecksum, h)

/-- helpers.go:48-52 `UpdateTCPChecksum` -/
noncomputable def UpdateTCPChecksum (h : Heap) (p : Packet) : Res (Heap × Packet) := do
  let buffer ← p.buffer.from' p.ipHeaderLen.toNat
  let (sum, h) ← computeTCPChecksum h p
  let p := { p with tcpChecksum := sum }
  let h ← wr16 h buffer tcpChecksumPos p.tcpChecksum
  .ok (h, p)

/-! ### Modifying headers (packet.go:356-398) -/

/-- packet.go:357-370 `FixupIPHdrOnDataModify` -/
noncomputable def FixupIPHdrOnDataModify (h : Heap) (p : Packet) (old new : U16) : Res (Heap × Packet) := do
  let csum ← incCsum16 p.ipChecksum old new
  let p := { p with ipChecksum := csum, ipTotalLength := p.ipTotalLength + new - old }
  match p.version with
  | .V6 => do
    let h ← wr16 h p.buffer ipv6PayloadLenPos (p.ipTotalLength - p.ipHeaderLen.setWidth 16)
    .ok (h, p)
  | .V4 => do
    let h ← wr16 h p.buffer ipv4LengthPos p.ipTotalLength
    let h ← wr16 h p.buffer ipv4ChecksumPos p.ipChecksum
    .ok (h, p)

/-- packet.go:373-377 `IncreaseTCPSeq` -/
def IncreaseTCPSeq (h : Heap) (p : Packet) (incr : U32) : Res (Heap × Packet) := do
  let buffer ← p.buffer.from' p.ipHeaderLen.toNat
  let p := { p with tcpSeq := p.tcpSeq + incr }
  let h ← wr32 h buffer tcpSeqPos p.tcpSeq
  .ok (h, p)

/-- packet.go:380-384 `DecreaseTCPSeq` -/
def DecreaseTCPSeq (h : Heap) (p : Packet) (decr : U32) : Res (Heap × Packet) := do
  let buffer ← p.buffer.from' p.ipHeaderLen.toNat
  let p := { p with tcpSeq := p.tcpSeq - decr }
  let h ← wr32 h buffer tcpSeqPos p.tcpSeq
  .ok (h, p)

/-- packet.go:387-391 `IncreaseTCPAck` -/
def IncreaseTCPAck (h : Heap) (p : Packet) (incr : U32) : Res (Heap × Packet) := do
  let buffer ← p.buffer.from' p.ipHeaderLen.toNat
  let p := { p with tcpAck := p.tcpAck + incr }
  let h ← wr32 h buffer tcpAckPos p.tcpAck
  .ok (h, p)

/-- packet.go:394-398 `DecreaseTCPAck` -/
def DecreaseTCPAck (h : Heap) (p : Packet) (decr : U32) : Res (Heap × Packet) := do
  let buffer ← p.buffer.from' p.ipHeaderLen.toNat
  let p := { p with tcpAck := p.tcpAck - decr }
  let h ← wr32 h buffer tcpAckPos p.tcpAck
  .ok (h, p)

/-! ### Detaching and attaching TCP data (packet.go:400-491) -/

/-- packet.go:401-407 `FixuptcpHdrOnTCPDataDetach` -/
def FixuptcpHdrOnTCPDataDetach (h : Heap) (p : Packet) (optionLength : U16) : Res (Heap × Packet) := do
  let buffer ← p.buffer.from' p.ipHeaderLen.toNat
  let p := { p with tcpDataOffset := p.tcpDataOffset - (optionLength / 4).setWidth 8 }
  let h ← wr8 h buffer tcpDataOffsetPos (p.tcpDataOffset.shiftLeft 4)
  .ok (h, p)

/-- packet.go:414-416: keep the data when there is any -/
def detachData (p : Packet) (buffer : Slice) (dataLength : U16) : Res Packet :=
  if dataLength ≠ 0 then do
    let d ← buffer.from' p.TCPDataStartBytes.toNat
    .ok { p with tcpData := d }
  else .ok p

/-- packet.go:418-420: keep the options when some are cut off -/
def detachOptions (p : Packet) (buffer : Slice) (optionLength : U16) : Res Packet :=
  if optionLength ≠ 0 then do
    let o ← buffer.sub (p.TCPDataStartBytes - optionLength).toNat p.TCPDataStartBytes.toNat
    .ok { p with tcpOptions := o }
  else .ok p

/-- packet.go:422: shorten the buffer -/
def detachBuffer (p : Packet) (optionLength : U16) : Res Packet := do
  let b ← p.buffer.to (p.ipHeaderLen.setWidth 16 + p.TCPDataStartBytes - optionLength).toNat
  .ok { p with buffer := b }

/-- packet.go:410-425 `tcpDataDetach` (never returns an error) -/
def tcpDataDetach (p : Packet) (optionLength dataLength : U16) : Res Packet := do
  let buffer ← p.buffer.from' p.ipHeaderLen.toNat
  let p ← detachData p buffer dataLength
  let p ← detachOptions p buffer optionLength
  detachBuffer p optionLength

/-- packet.go:432-448 `TCPDataDetach` (always returns nil when it returns) -/
noncomputable def TCPDataDetach (h : Heap) (p : Packet) (optionLength : U16) : Res (Heap × Packet) := do
  let rest ← p.buffer.from' p.ipHeaderLen.toNat
  let dataLength := BitVec.ofNat 16 rest.len - p.TCPDataStartBytes
  let p ← tcpDataDetach p optionLength dataLength
  let (h, p) ← FixuptcpHdrOnTCPDataDetach h p optionLength
  FixupIPHdrOnDataModify h p p.ipTotalLength (p.ipTotalLength - (dataLength + optionLength))

/-- packet.go:451-459 `FixuptcpHdrOnTCPDataAttach` -/
def FixuptcpHdrOnTCPDataAttach (h : Heap) (p : Packet) (tcpOptions : Slice) : Res (Heap × Packet) := do
  let buffer ← p.buffer.from' p.ipHeaderLen.toNat
  let p := { p with tcpDataOffset := p.tcpDataOffset + BitVec.ofNat 8 (tcpOptions.len / 4) }
  let h ← wr16 h buffer tcpChecksumPos p.tcpChecksum
  let h ← wr8 h buffer tcpDataOffsetPos (p.tcpDataOffset.shiftLeft 4)
  .ok (h, p)

/-- packet.go:462-472 `tcpDataAttach`; `none` = refused -/
def tcpDataAttach (grow : Nat → Nat) (h : Heap) (p : Packet) (options data : Slice) :
    Res (Option (Heap × Packet)) := do
  let rest ← p.buffer.from' p.ipHeaderLen.toNat
  if p.TCPDataStartBytes ≠ BitVec.ofNat 16 rest.len ∧ options.len ≠ 0 then .ok none
  else
    let r := h.append grow p.tcpOptions (h.bytes options)
    .ok (some (r.2, { p with tcpOptions := r.1, tcpData := data }))

/-- packet.go:475-491 `TCPDataAttach` -/
noncomputable def TCPDataAttach (grow : Nat → Nat) (h : Heap) (p : Packet) (tcpOptions tcpData : Slice) :
    Res (Heap × Packet × Option Err) := do
  match ← tcpDataAttach grow h p tcpOptions tcpData with
  | none => .ok (h, p, some (.msg "tcp data attachment failed"))
  | some (h, p) =>
    let packetLenIncrease := BitVec.ofNat 16 (tcpData.len + tcpOptions.len)
    let (h, p) ← FixupIPHdrOnDataModify h p p.ipTotalLength (p.ipTotalLength + packetLenIncrease)
    let (h, p) ← FixuptcpHdrOnTCPDataAttach h p tcpOptions
    .ok (h, p, none)

/-- helpers.go:55-58 `updateTCPFlags` -/
def updateTCPFlags (h : Heap) (p : Packet) (tcpFlags : Byte) : Res Heap := do
  let buffer ← p.buffer.from' p.ipHeaderLen.toNat
  wr8 h buffer tcpFlagsOffsetPos tcpFlags

/-- helpers.go:63-77 `ConvertAcktoFinAck` (returns nil when it returns, as `TCPDataDetach` never
returns an error) -/
noncomputable def ConvertAcktoFinAck (h : Heap) (p : Packet) : Res (Heap × Packet) := do
  let tcpFlags := TCPFinMask ||| TCPAckMask
  let h ← updateTCPFlags h p tcpFlags
  let p := { p with tcpFlags := tcpFlags }
  let (h, p) ← TCPDataDetach h p 0
  .ok (h, p.DropTCPDetachedBytes)

/-! ### UDP (helpers.go:220-407) -/

/-- helpers.go:220-242 `updateUDPv6Checksum` -/
noncomputable def updateUDPv6Checksum (h : Heap) (p : Packet) : Res (Heap × Packet) := do
  let buffer ← p.buffer.from' p.ipHeaderLen.toNat
  let csum := partialChecksum 0 p.sourceAddress
  let csum := partialChecksum csum p.destinationAddress
  let csum := partialChecksum csum (enc32 .big (BitVec.ofNat 32 buffer.len))
  let csum := partialChecksum csum [0, 0, 0, 17]
  let h ← wr8 h buffer udpChecksumPos 0
  let h ← wr8 h buffer (udpChecksumPos + 1) 0
  let csum := partialChecksum csum (h.bytes buffer)
  let c ← finalizeChecksum csum
  let p := { p with udpChecksum := c }
  let h ← wr16 h buffer udpChecksumPos p.udpChecksum
  .ok (h, p)

/-- helpers.go:244-248 `fixupUDPHdr` -/
def fixupUDPHdr (h : Heap) (p : Packet) : Res Heap := do
  let buffer ← p.buffer.from' p.ipHeaderLen.toNat
  wr16 h buffer udpLengthPos (BitVec.ofNat 16 buffer.len)

/-- helpers.go:250-259 `fixupUDPChecksum` -/
noncomputable def fixupUDPChecksum (h : Heap) (p : Packet) : Res (Heap × Packet) :=
  match p.version with
  | .V4 => do
    let buffer ← p.buffer.from' p.ipHeaderLen.toNat
    let h ← wr8 h buffer udpChecksumPos 0
    let h ← wr8 h buffer (udpChecksumPos + 1) 0
    .ok (h, p)
  | .V6 => updateUDPv6Checksum h p

/-- helpers.go:262-269 `ReadUDPToken` -/
def ReadUDPToken (h : Heap) (p : Packet) : Res (List Byte) := do
  let buffer ← p.buffer.from' p.ipHeaderLen.toNat
  if buffer.len ≤ udpJwtTokenOffset then .ok []
  else do
    let t ← buffer.from' udpJwtTokenOffset
    .ok (h.bytes t)

/-- helpers.go:272-290 `UDPTokenAttach` -/
noncomputable def UDPTokenAttach (grow : Nat → Nat) (h : Heap) (p : Packet) (udpdata udptoken : Slice) :
    Res (Heap × Packet) := do
  let udpData := h.bytes udpdata ++ h.bytes udptoken
  let p := { p with udpData := udpData }
  let packetLenIncrease := BitVec.ofNat 16 (udpdata.len + udptoken.len)
  let (h, p) ← FixupIPHdrOnDataModify h p p.ipTotalLength (p.ipTotalLength + packetLenIncrease)
  let r := h.append grow p.buffer udpData
  let p := { p with buffer := r.1 }
  let h ← fixupUDPHdr r.2 p
  fixupUDPChecksum h p

/-- helpers.go:293-303 `UDPDataAttach` -/
noncomputable def UDPDataAttach (grow : Nat → Nat) (h : Heap) (p : Packet) (header udpdata : Slice) :
    Res (Heap × Packet) := do
  let r := h.append grow p.buffer (h.bytes header)
  let r := r.2.append grow r.1 (r.2.bytes udpdata)
  let p := { p with buffer := r.1 }
  let (h, p) ← FixupIPHdrOnDataModify r.2 p p.ipTotalLength (BitVec.ofNat 16 p.buffer.len)
  let h ← fixupUDPHdr h p
  fixupUDPChecksum h p

/-- helpers.go:306-309 `UDPDataDetach` -/
def UDPDataDetach (p : Packet) : Res Packet := do
  let b ← p.buffer.to (p.ipHeaderLen + UDPDataPos).toNat
  .ok { p with buffer := b }

/-- `copy(s[i:i+n], bs)` -/
def copySub (h : Heap) (s : Slice) (i n : Nat) (bs : List Byte) : Res Heap := do
  let t ← s.sub i (i + n)
  h.copyTo t 0 bs

/-- helpers.go:314-323: exchange the addresses on the wire -/
def swapWireAddrs (h : Heap) (p : Packet) : Res Heap :=
  match p.version with
  | .V4 => do
    let h ← copySub h p.buffer ipv4SourceAddrPos 4 p.destinationAddress
    copySub h p.buffer ipv4DestAddrPos 4 p.sourceAddress
  | .V6 => do
    let h ← copySub h p.buffer ipv6SourceAddrPos 16 p.destinationAddress
    copySub h p.buffer ipv6DestAddrPos 16 p.sourceAddress

/-- helpers.go:312-346 `CreateReverseFlowPacket` -/
noncomputable def CreateReverseFlowPacket (h : Heap) (p : Packet) : Res (Heap × Packet) := do
  let h ← swapWireAddrs h p
  let buffer ← p.buffer.from' p.ipHeaderLen.toNat
  let h ← wr16 h buffer udpSourcePortPos p.udpDestinationPort
  let h ← wr16 h buffer udpDestPortPos p.udpSourcePort
  let p := { p with
    sourceAddress := p.destinationAddress, destinationAddress := p.sourceAddress,
    udpSourcePort := p.udpDestinationPort, udpDestinationPort := p.udpSourcePort }
  let b ← p.buffer.to (p.ipHeaderLen + UDPDataPos).toNat
  let p := { p with buffer := b }
  let (h, p) ← FixupIPHdrOnDataModify h p p.ipTotalLength ((p.ipHeaderLen + UDPDataPos).setWidth 16)
  let (h, p) ← (match p.version with
    | .V4 => UpdateIPv4Checksum h p
    | .V6 => .ok (h, p))
  let h ← fixupUDPHdr h p
  fixupUDPChecksum h p

/-- helpers.go:362-376 `GetUDPTypeFromBuffer` -/
def GetUDPTypeFromBuffer (buffer : List Byte) : Res Byte :=
  if buffer.length < UDPDataPos.toNat + UDPSignatureLen then .ok 0
  else do
    let marker ← slice buffer UDPDataPos.toNat udpSignatureEnd
    let sig ← slice buffer udpAuthMarkerOffset udpSignatureEnd
    if sig ≠ UDPAuthMarker then .ok 0
    else do
      let b ← idx marker 0
      .ok (b &&& UDPPacketMask)

/-- helpers.go:349-359 `GetUDPType` -/
def Packet.GetUDPType (h : Heap) (p : Packet) : Res Byte := do
  let b ← p.buffer.from' p.ipHeaderLen.toNat
  GetUDPTypeFromBuffer (h.bytes b)

/-- helpers.go:389-407 `CreateUDPAuthMarker` -/
def CreateUDPAuthMarker (packetType : Byte) : List Byte :=
  let marker := zeros UDPSignatureLen
  let marker := splice marker 0 [0 ||| packetType]
  let marker := splice marker 1 [0]
  splice marker 2 (UDPAuthMarker.take (UDPSignatureLen - 2))

/-! ### Rendering flags (types.go:102-136) -/

/-- types.go:103-136 `TCPFlagsToStr` -/
def TCPFlagsToStr (flags : Byte) : List Char :=
  (if flags &&& 0x20 = 0 then ['.'] else ['U']) ++
  (if flags &&& 0x10 = 0 then ['.'] else ['A']) ++
  (if flags &&& 0x08 = 0 then ['.'] else ['P']) ++
  (if flags &&& 0x04 = 0 then ['.'] else ['R']) ++
  (if flags &&& 0x02 = 0 then ['.'] else ['S']) ++
  (if flags &&& 0x01 = 0 then ['.'] else ['F'])

end Verif.Packet
