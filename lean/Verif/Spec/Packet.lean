import Verif.Spec.Netlink
/-!
Independent specification of what is on the wire of an IP packet (RFC 791, 768, 793, 8200) and of
the Internet checksum (RFC 1071).  Nothing here refers to the model of the code.
-/
namespace Verif.Spec

/-- The bytes as big-endian 16-bit words; an odd last byte is padded with a zero byte (RFC 1071). -/
def words : List Byte → List Nat
  | a :: b :: t => (a.toNat * 256 + b.toNat) :: words t
  | [a] => [a.toNat * 256]
  | [] => []

/-- One's complement addition of 16-bit numbers: a carry out of the top is added at the bottom. -/
def ocAdd (a b : Nat) : Nat := if a + b < 65536 then a + b else a + b - 65536 + 1

/-- One's complement sum of 16-bit words. -/
def ocSum (ws : List Nat) : Nat := ws.foldl ocAdd 0

/-- RFC 1071 checksum: complement of the one's complement sum. -/
def inetChecksum (bs : List Byte) : Nat := 65535 - ocSum (words bs)

/-- `b` with the bytes from `i` on replaced by `bs`. -/
def patch (b : List Byte) (i : Nat) (bs : List Byte) : List Byte :=
  b.take i ++ bs ++ b.drop (i + bs.length)

/-- RFC 791: what the checksum field of a 20-byte header must contain. -/
def ipv4HeaderChecksum (pkt : List Byte) : Nat := inetChecksum (patch (pkt.take 20) 10 [0, 0])

/-- The IPv4 header checksum on the wire is the right one. -/
def ipv4ChecksumOk (pkt : List Byte) : Prop := be16 pkt 10 = some (ipv4HeaderChecksum pkt)

/-- RFC 793 checksum of a TCP segment under its IPv4 pseudo header: source and destination address,
zero, protocol 6, segment length; the segment with a zero checksum field. -/
def tcpChecksum4 (src dst seg : List Byte) : Nat :=
  inetChecksum (src ++ dst ++ [0, 6] ++ bytes16 .big seg.length ++ patch seg 16 [0, 0])

/-- RFC 8200 section 8.1: pseudo header with 32-bit length, three zero bytes and next header. -/
def pseudo6 (src dst : List Byte) (len next : Nat) : List Byte :=
  src ++ dst ++ bytes32 .big len ++ [0, 0, 0, BitVec.ofNat 8 next]

/-- RFC 793/8200 checksum of a TCP segment over IPv6. -/
def tcpChecksum6 (src dst seg : List Byte) : Nat :=
  inetChecksum (pseudo6 src dst seg.length 6 ++ patch seg 16 [0, 0])

/-- The TCP checksum of a whole IPv4 packet (20-byte header). -/
def packetTcpChecksum4 (pkt : List Byte) : Nat :=
  tcpChecksum4 ((pkt.drop 12).take 4) ((pkt.drop 16).take 4) (pkt.drop 20)

/-- The TCP checksum of a whole IPv6 packet (no extension headers). -/
def packetTcpChecksum6 (pkt : List Byte) : Nat :=
  tcpChecksum6 ((pkt.drop 8).take 16) ((pkt.drop 24).take 16) (pkt.drop 40)

/-- One's complement checksum of a UDP datagram over IPv6, before the rule that zero is sent as
all ones. -/
def udpSum6 (src dst dgram : List Byte) : Nat :=
  inetChecksum (pseudo6 src dst dgram.length 17 ++ patch dgram 6 [0, 0])

/-- RFC 768/8200: the UDP checksum over IPv6; a computed zero is sent as all ones. -/
def udpChecksum6 (src dst dgram : List Byte) : Nat :=
  if udpSum6 src dst dgram = 0 then 65535 else udpSum6 src dst dgram

/-- One's complement checksum over pseudo header and datagram of a whole IPv6 UDP packet. -/
def packetUdpSum6 (pkt : List Byte) : Nat :=
  udpSum6 ((pkt.drop 8).take 16) ((pkt.drop 24).take 16) (pkt.drop 40)

/-- The UDP checksum a whole IPv6 packet must carry. -/
def packetUdpChecksum6 (pkt : List Byte) : Nat :=
  udpChecksum6 ((pkt.drop 8).take 16) ((pkt.drop 24).take 16) (pkt.drop 40)

/-- `pkt` is, byte for byte, a UDP datagram carrying `data` from `src`:`sp` to `dst`:`dp` in an IPv4
packet with a 20-byte header (RFC 791, 768), its two length fields right.  Checksums are stated
separately. -/
structure Udp4 (pkt src dst : List Byte) (sp dp : Nat) (data : List Byte) : Prop where
  length : pkt.length = 28 + data.length
  total : be16 pkt 2 = some pkt.length
  proto : pkt[9]? = some 17
  source : (pkt.drop 12).take 4 = src
  dest : (pkt.drop 16).take 4 = dst
  sport : be16 pkt 20 = some sp
  dport : be16 pkt 22 = some dp
  ulen : be16 pkt 24 = some (8 + data.length)
  payload : pkt.drop 28 = data

/-- The same over IPv6 without extension headers (RFC 8200, 768). -/
structure Udp6 (pkt src dst : List Byte) (sp dp : Nat) (data : List Byte) : Prop where
  length : pkt.length = 48 + data.length
  plen : be16 pkt 4 = some (8 + data.length)
  next : pkt[6]? = some 17
  source : (pkt.drop 8).take 16 = src
  dest : (pkt.drop 24).take 16 = dst
  sport : be16 pkt 40 = some sp
  dport : be16 pkt 42 = some dp
  ulen : be16 pkt 44 = some (8 + data.length)
  payload : pkt.drop 48 = data

/-- The 18 bytes that mark a UDP control packet: the characters of `n30njxq7bmiwr6dtxq`. -/
def udpSignature : List Byte := "n30njxq7bmiwr6dtxq".toList.map fun c => BitVec.ofNat 8 c.toNat

/-- The TCP option walk: position `i` is reached from the start of the options by stepping over
one byte for kinds 0 and 1 and over the stated (non-zero) length for any other kind, never
starting at an option of kind 34. -/
inductive OptReach (opts : List Byte) : Nat → Prop
  | start : OptReach opts 0
  | pad {i : Nat} {k : Byte} : OptReach opts i → opts[i]? = some k → (k = 0 ∨ k = 1) →
      OptReach opts (i + 1)
  | skip {i : Nat} {k l : Byte} : OptReach opts i → opts[i]? = some k → k ≠ 0 → k ≠ 1 → k ≠ 34 →
      opts[i + 1]? = some l → l ≠ 0 → OptReach opts (i + l.toNat)

/-- The walk meets an option of kind 34. -/
def HasAuthOption (opts : List Byte) : Prop := ∃ i, OptReach opts i ∧ opts[i]? = some 34

/-- The six flag letters, highest bit first: URG ACK PSH RST SYN FIN. -/
def flagLetters : List Char := ['U', 'A', 'P', 'R', 'S', 'F']

end Verif.Spec
