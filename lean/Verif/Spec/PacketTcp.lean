import Verif.Spec.Packet
/-! Independent specification of a TCP segment in an IP packet (RFC 791, 793, 8200). Nothing here refers to the model of the code. -/
namespace Verif.Spec

/-- The TCP header at offset `o` of `pkt` and what follows it: ports, sequence and acknowledgement number, flags, options, data.  The upper four
bits of byte 12 count the header in 32-bit words. -/
structure Segment (pkt : List Byte) (o : Nat) (sp dp seq ack : Nat) (flags : Byte) (opts data : List Byte) : Prop where
  length : pkt.length = o + 20 + opts.length + data.length
  sport : be16 pkt o = some sp
  dport : be16 pkt (o + 2) = some dp
  seqno : be32 pkt (o + 4) = some seq
  ackno : be32 pkt (o + 8) = some ack
  offset : ∃ b : Byte, pkt[o + 12]? = some b ∧ b.toNat / 16 * 4 = 20 + opts.length
  flag : pkt[o + 13]? = some flags
  options : (pkt.drop (o + 20)).take opts.length = opts
  payload : pkt.drop (o + 20 + opts.length) = data

/-- A segment of TCP in an IPv4 packet with a 20-byte header, the total length right. -/
structure Tcp4 (pkt src dst : List Byte) (sp dp seq ack : Nat) (flags : Byte) (opts data : List Byte) : Prop where
  total : be16 pkt 2 = some pkt.length
  proto : pkt[9]? = some 6
  source : (pkt.drop 12).take 4 = src
  dest : (pkt.drop 16).take 4 = dst
  segment : Segment pkt 20 sp dp seq ack flags opts data

/-- The same over IPv6 without extension headers. -/
structure Tcp6 (pkt src dst : List Byte) (sp dp seq ack : Nat) (flags : Byte) (opts data : List Byte) : Prop where
  plen : be16 pkt 4 = some (20 + opts.length + data.length)
  next : pkt[6]? = some 6
  source : (pkt.drop 8).take 16 = src
  dest : (pkt.drop 24).take 16 = dst
  segment : Segment pkt 40 sp dp seq ack flags opts data

end Verif.Spec
