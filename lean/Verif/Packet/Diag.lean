import Verif.Packet.Model
/-!
Model of the diagnostic functions of package `packet`: `Print`, `PacketToStringTCP`,
`ReadTCPDataString`, the flag renderings they use, and `TestGetTCPPacket`.

`Print` formats its values with `fmt.Sprintf` and `hex.Dump` and hands the text to the logger.  The
model keeps the values in the order they are formatted (`PrintLine`) and the dumped bytes instead of
the padded text.
-/
namespace Verif.Packet

/-- types.go:13 -/ def PacketStageIncoming : U64 := 0x0100
/-- types.go:15 -/ def PacketStageAuth : U64 := 0x0200
/-- types.go:17 -/ def PacketStageService : U64 := 0x0400
/-- types.go:19 -/ def PacketStageOutgoing : U64 := 0x0800
/-- types.go:22 -/ def PacketFailureCreate : U64 := 0x0010
/-- types.go:24 -/ def PacketFailureAuth : U64 := 0x0020
/-- types.go:26 -/ def PacketFailureService : U64 := 0x0040

/-- types.go:28-36 `flagsToDir` -/
def flagsToDir (flags : U64) : String :=
  if flags &&& PacketTypeApplication ≠ 0 then "<<<<<"
  else if flags &&& PacketTypeNetwork ≠ 0 then ">>>>>"
  else "xxxxx"

/-- types.go:38-65 `flagsToStr` -/
def flagsToStr (flags : U64) : String :=
  (if flags &&& PacketTypeApplication ≠ 0 then "Application"
    else if flags &&& PacketTypeNetwork ≠ 0 then "Network" else "") ++
  (if flags &&& PacketStageIncoming ≠ 0 then "-Incoming"
    else if flags &&& PacketStageOutgoing ≠ 0 then "-Outgoing"
    else if flags &&& PacketStageAuth ≠ 0 then "-Auth"
    else if flags &&& PacketStageService ≠ 0 then "-Service" else "") ++
  (if flags &&& PacketFailureCreate ≠ 0 then "-(Fail Create)"
    else if flags &&& PacketFailureAuth ≠ 0 then "-(Fail Auth)"
    else if flags &&& PacketFailureService ≠ 0 then "-(Fail Service)" else "")

/-- types.go:67-100 `tcpFlagsToStr` (the unexported twin of `TCPFlagsToStr`) -/
def tcpFlagsToStr (flags : Byte) : List Char :=
  (if flags &&& 0x20 = 0 then ['.'] else ['U']) ++
  (if flags &&& 0x10 = 0 then ['.'] else ['A']) ++
  (if flags &&& 0x08 = 0 then ['.'] else ['P']) ++
  (if flags &&& 0x04 = 0 then ['.'] else ['R']) ++
  (if flags &&& 0x02 = 0 then ['.'] else ['S']) ++
  (if flags &&& 0x01 = 0 then ['.'] else ['F'])

/-- The seventeen values of one line, packet.go:265-276. -/
structure PrintLine where
  id : U16
  dir : String
  comment : String
  src : List Char
  sport : U16
  dst : List Char
  dport : U16
  flags : List Char
  seq : U32
  ack : U32
  dataLen : U16
  expAck : U32
  expSeq : U32
  offset : Byte
  stated : U16
  computed : U16
  verdict : String
deriving DecidableEq, Repr

/-- What one call hands to the logger: the column titles or not, the line, the dumped bytes. -/
structure PrintOut where
  titles : Bool
  line : PrintLine
  dump : List Byte
deriving DecidableEq, Repr

/-- packet.go:281: the fourteen bytes that make the dump an Ethernet frame -/
def etherHeader : List Byte := [0, 0, 0, 0, 0, 1, 0, 0, 0, 0, 0, 2, 8, 0]

/-- packet.go:228-290 `Print`; `printCount` is the package variable of packet.go:17
(an `int`, here without wrap-around). -/
noncomputable def Print (h : Heap) (printCount : Nat) (p : Packet) (context : U64) (packetLogLevel : Bool) :
    Res (Heap × Nat × Option PrintOut) :=
  if p.ipProto ≠ IPProtocolTCP then .ok (h, printCount, none)
  else if packetLogLevel = true ∨ context = 0 then do
    let titles := decide (printCount % 200 = 0)
    let printCount := printCount + 1
    let offset : U32 := if p.GetTCPFlags &&& TCPSynMask = TCPSynMask then 1 else 0
    let rest ← p.buffer.from' p.ipHeaderLen.toNat
    let dataLen := BitVec.ofNat 16 rest.len - p.TCPDataStartBytes
    let expAck := p.tcpSeq + dataLen.setWidth 32 + offset
    let (ccsum, h) ← computeTCPChecksum h p
    let line : PrintLine :=
      { id := p.ipID, dir := flagsToDir (p.context ||| context), comment := flagsToStr (p.context ||| context),
        src := ipString p.sourceAddress, sport := p.tcpSourcePort,
        dst := ipString p.destinationAddress, dport := p.tcpDestinationPort,
        flags := tcpFlagsToStr p.GetTCPFlags, seq := p.tcpSeq, ack := p.tcpAck, dataLen := dataLen,
        expAck := expAck, expSeq := expAck, offset := p.tcpDataOffset, stated := p.tcpChecksum,
        computed := ccsum, verdict := if p.tcpChecksum ≠ ccsum then "Bad Checksum" else "" }
    let dump := etherHeader ++ h.bytes p.buffer ++ h.bytes p.tcpOptions ++ h.bytes p.tcpData
    .ok (h, printCount, some ⟨titles, line, dump⟩)
  else .ok (h, printCount, none)

/-- packet.go:304-306 `ReadTCPDataString`: Go strings are byte sequences -/
def Packet.ReadTCPDataString (h : Heap) (p : Packet) : Res (List Byte) := do
  let s ← p.ReadTCPData
  .ok (h.bytes s)

/-- One hexadecimal digit, `hex.hextable` -/
def hexDigit (n : Nat) : Char := (Nat.digitChar n)

/-- `hex.EncodeToString` -/
def hexBytes : List Byte → List Char
  | [] => []
  | b :: t => hexDigit (b.toNat / 16) :: hexDigit (b.toNat % 16) :: hexBytes t

/-- helpers.go:80-100 `PacketToStringTCP`.  `ipv4.ParseHeader` followed by `header.String` (external
library) is the parameter: the text of the header, or `none` for an error. -/
def Packet.PacketToStringTCP (header : List Byte → Option (List Char)) (h : Heap) (p : Packet) : List Char :=
  match header (h.bytes p.buffer) with
  | none => "(error)".toList
  | some t => t ++ " srcport=".toList ++ itoa p.SourcePort.toNat ++ " dstport=".toList ++ itoa p.DestPort.toNat
      ++ " tcpcksum=".toList ++ "0x".toList ++ hex p.tcpChecksum.toNat ++ " data".toList ++ hexBytes (p.GetTCPBytes h)

/-- packet.go:586-596 `TestGetTCPPacket` -/
def TestGetTCPPacket (srcIP dstIP : List Byte) (srcPort dstPort : U16) : Packet :=
  { Packet.zero with
    destinationAddress := dstIP, tcpDestinationPort := dstPort, sourceAddress := srcIP,
    tcpSourcePort := srcPort, ipProto := IPProtocolTCP }

end Verif.Packet
