import Verif.Packet.Lemmas
/-! What parsing computes, in closed form. -/
namespace Verif.Packet

/-- The TCP fields read at offset `o` of `W`. -/
def fillTCP (p : Packet) (W : List Byte) (o : Nat) : Packet :=
  { p with
    tcpChecksum := u16at W (o + 16), tcpSourcePort := u16at W o,
    tcpDestinationPort := u16at W (o + 2), tcpAck := u32at W (o + 8), tcpSeq := u32at W (o + 4),
    tcpDataOffset := (u8at W (o + 12) &&& 0xF0) >>> 4,
    tcpTotalLength := BitVec.ofNat 16 (p.buffer.len - o), tcpFlags := u8at W (o + 13),
    tcpOptions := Slice.nil, tcpData := Slice.nil }

theorem parseTCP_eq {h : Heap} {p : Packet} {bytes : Slice} (hv : bytes.Valid h)
    (hb : p.buffer.Valid h) :
    parseTCP h p bytes =
      if p.ipHeaderLen.toNat + 14 ≤ bytes.len ∧ p.ipHeaderLen.toNat + 18 ≤ bytes.cap
          ∧ p.ipHeaderLen.toNat ≤ p.buffer.len
      then .ok (fillTCP p (window h bytes) p.ipHeaderLen.toNat) else .panic := by
  unfold parseTCP
  generalize ho : p.ipHeaderLen.toNat = o
  rw [from_eq hv, from_eq hb]
  obtain ⟨h1, h2⟩ := id hv
  by_cases ha : o ≤ bytes.len
  · rw [if_pos ha]
    have hvt := tail_valid hv ha
    simp only [Res.ok_bind, rd16_eq hvt, rd32_eq hvt, at_eq hvt, window_tail, u16at_drop, u32at_drop,
      u8at_drop]
    have hc : (tail bytes o).cap = bytes.cap - o := rfl
    have hl : (tail bytes o).len = bytes.len - o := rfl
    simp only [hc, hl, tcpChecksumPos, tcpSourcePortPos, tcpDestPortPos, tcpAckPos, tcpSeqPos,
      tcpDataOffsetPos, tcpFlagsOffsetPos]
    by_cases hq : o + 14 ≤ bytes.len ∧ o + 18 ≤ bytes.cap ∧ o ≤ p.buffer.len
    · rw [if_pos (by omega), if_pos (by omega), if_pos (by omega), if_pos (by omega),
        if_pos (by omega), if_pos (by omega), if_pos (by omega), if_pos (by omega), if_pos hq]
      simp only [Res.ok_bind]
      rfl
    · rw [if_neg hq]
      by_cases q1 : 16 + 2 ≤ bytes.cap - o
      · rw [if_pos q1, if_pos (by omega), if_pos (by omega), if_pos (by omega), if_pos (by omega)]
        simp only [Res.ok_bind]
        by_cases q2 : 12 < bytes.len - o
        · rw [if_pos q2]
          simp only [Res.ok_bind]
          by_cases q3 : o ≤ p.buffer.len
          · rw [if_pos q3, if_neg (by omega)]; rfl
          · rw [if_neg q3]; rfl
        · rw [if_neg q2]; rfl
      · rw [if_neg q1]; rfl
  · rw [if_neg ha, Res.panic_bind, if_neg (by omega)]

/-- The UDP fields read at offset `o` of `W`. -/
def fillUDP (p : Packet) (W : List Byte) (o : Nat) : Packet :=
  { p with
    udpChecksum := u16at W (o + 6), udpData := [], udpSourcePort := u16at W o,
    udpDestinationPort := u16at W (o + 2) }

theorem parseUDP_eq {h : Heap} {p : Packet} {bytes : Slice} (hv : bytes.Valid h) :
    parseUDP h p bytes =
      if p.ipHeaderLen.toNat ≤ bytes.len ∧ p.ipHeaderLen.toNat + 8 ≤ bytes.cap
      then .ok (fillUDP p (window h bytes) p.ipHeaderLen.toNat) else .panic := by
  unfold parseUDP
  generalize ho : p.ipHeaderLen.toNat = o
  rw [from_eq hv]
  obtain ⟨h1, h2⟩ := id hv
  by_cases ha : o ≤ bytes.len
  · rw [if_pos ha]
    have hvt := tail_valid hv ha
    simp only [Res.ok_bind, rd16_eq hvt, window_tail, u16at_drop]
    have hc : (tail bytes o).cap = bytes.cap - o := rfl
    simp only [hc, udpChecksumPos, udpSourcePortPos, udpDestPortPos]
    by_cases hq : o + 8 ≤ bytes.cap
    · rw [if_pos (by omega), if_pos (by omega), if_pos (by omega), if_pos (by omega)]
      simp only [Res.ok_bind]
      rfl
    · rw [if_neg (by omega : ¬ 6 + 2 ≤ bytes.cap - o), Res.panic_bind, if_neg (by omega)]
  · rw [if_neg ha, Res.panic_bind, if_neg (by omega)]

/-- Closing step of parsing. -/
def withHash (p : Packet) : Packet := { p with l4flowhash := p.computeL4FlowHash }

/-- Outcome of the transport part of parsing. -/
theorem parseTransport_eq {h : Heap} {p : Packet} {bytes : Slice} (hv : bytes.Valid h)
    (hb : p.buffer.Valid h) :
    parseTransport h p bytes =
      if p.ipProto = 6 then
        if p.ipTotalLength - p.ipHeaderLen.setWidth 16 < 20 then
          .ok (p, some (.msg "tcp ip packet too small"))
        else if p.ipHeaderLen.toNat + 14 ≤ bytes.len ∧ p.ipHeaderLen.toNat + 18 ≤ bytes.cap
            ∧ p.ipHeaderLen.toNat ≤ p.buffer.len then
          .ok (withHash (fillTCP p (window h bytes) p.ipHeaderLen.toNat), none)
        else .panic
      else if p.ipProto = 17 then
        if p.ipTotalLength - p.ipHeaderLen.setWidth 16 < 8 then
          .ok (p, some (.msg "udp ip packet too small"))
        else if p.ipHeaderLen.toNat ≤ bytes.len ∧ p.ipHeaderLen.toNat + 8 ≤ bytes.cap then
          .ok (withHash (fillUDP p (window h bytes) p.ipHeaderLen.toNat), none)
        else .panic
      else .ok (withHash p, none) := by
  unfold parseTransport
  by_cases ht : p.ipProto = 6
  · have hu : ¬ ((6 : Byte) = IPProtocolUDP) := by decide
    rw [if_pos ht]
    simp only [show IPProtocolTCP = 6 from rfl, ht, true_and, if_true]
    by_cases hs : p.ipTotalLength - p.ipHeaderLen.setWidth 16 < 20
    · rw [if_pos hs, if_pos (by exact hs)]
    · rw [if_neg hs, if_neg (by exact hs), parseTCP_eq hv hb]
      split
      · simp only [Res.ok_bind]
        have hne : ¬ (fillTCP p (window h bytes) p.ipHeaderLen.toNat).ipProto = IPProtocolUDP := by
          show ¬ p.ipProto = _
          rw [ht]; exact hu
        simp only [hne, false_and, if_false]
        rfl
      · rfl
  · rw [if_neg ht]
    simp only [show IPProtocolTCP = 6 from rfl, ht, false_and, if_false, Res.ok_bind]
    by_cases hu : p.ipProto = 17
    · simp only [show IPProtocolUDP = 17 from rfl, hu, true_and, if_true]
      by_cases hs : p.ipTotalLength - p.ipHeaderLen.setWidth 16 < 8
      · rw [if_pos hs, if_pos (by exact hs)]
      · rw [if_neg hs, if_neg (by exact hs), parseUDP_eq hv]
        split
        · simp only [Res.ok_bind]; rfl
        · rfl
    · simp only [show IPProtocolUDP = 17 from rfl, hu, false_and, if_false]
      rfl

/-- The IPv4 header fields of `W`, with the buffer set. -/
def fill4 (p : Packet) (W : List Byte) (buf : Slice) : Packet :=
  { p with
    ipHeaderLen := 20, ipProto := u8at W 9, ipTotalLength := u16at W 2, ipID := u16at W 4,
    ipChecksum := u16at W 10, sourceAddress := (W.drop 12).take 4,
    destinationAddress := (W.drop 16).take 4, buffer := buf }

/-- The IPv6 header fields of `W`, with the buffer set. -/
def fill6 (p : Packet) (W : List Byte) (buf : Slice) : Packet :=
  { p with
    ipHeaderLen := 40, ipProto := u8at W 6, ipTotalLength := 40 + u16at W 4,
    sourceAddress := (W.drop 8).take 16, destinationAddress := (W.drop 24).take 16, buffer := buf }

/-- What the length check does to a buffer `bytes` whose packet states `tot` bytes: keep it, trim
it or reject it. -/
def checkedBuf (tot : U16) (bytes : Slice) (lv : Bool) : Option Slice :=
  if lv ∧ tot ≠ BitVec.ofNat 16 bytes.len then
    if tot < BitVec.ofNat 16 bytes.len then some (head bytes tot.toNat) else none
  else some bytes

theorem ofNat16_le (n : Nat) : (BitVec.ofNat 16 n).toNat ≤ n := by
  rw [BitVec.toNat_ofNat]; exact Nat.mod_le _ _

theorem checkLength_eq {h : Heap} {p : Packet} (hb : p.buffer.Valid h) (lv : Bool) :
    checkLength p lv = .ok ((checkedBuf p.ipTotalLength p.buffer lv).map fun b => { p with buffer := b }) := by
  unfold checkLength checkedBuf
  split
  · split
    · rename_i hlt
      have hlt' := BitVec.lt_def.mp hlt
      have hle := ofNat16_le p.buffer.len
      obtain ⟨h1, h2⟩ := hb
      rw [to_eq, if_pos (by omega)]
      rfl
    · rfl
  · rfl

theorem checkedBuf_valid {h : Heap} {tot : U16} {bytes b : Slice} {lv : Bool} (hv : bytes.Valid h)
    (hc : checkedBuf tot bytes lv = some b) : b.Valid h ∧ b.len ≤ bytes.len ∧ b = head bytes b.len := by
  unfold checkedBuf at hc
  split at hc
  · split at hc
    · rename_i hlt
      have hlt' := BitVec.lt_def.mp hlt
      have hle := ofNat16_le bytes.len
      simp only [Option.some.injEq] at hc
      subst hc
      exact ⟨head_valid hv (by have := hv.1; omega), by show tot.toNat ≤ _; omega, rfl⟩
    · simp at hc
  · simp only [Option.some.injEq] at hc
    subst hc
    exact ⟨hv, Nat.le_refl _, rfl⟩

/-- Parsing an IPv4 buffer. -/
theorem parseIPv4_eq {h : Heap} {p : Packet} {bytes : Slice} (hv : bytes.Valid h) (lv : Bool)
    (h20 : 20 ≤ bytes.len) (hl : (u8at (window h bytes) 0 &&& 0x0F) * 4 = (20 : Byte)) :
    parseIPv4Packet h p bytes lv =
      match checkedBuf (u16at (window h bytes) 2) bytes lv with
      | none => .ok (fill4 p (window h bytes) bytes,
          some (.msg "stated ip packet length differs from bytes available"))
      | some b => parseTransport h (fill4 p (window h bytes) b) bytes := by
  unfold parseIPv4Packet
  have hc := hv.1
  rw [if_neg (by simp [minIPv4HdrSize]; omega)]
  simp only [at_eq hv, rd16_eq hv, rdN_eq, ipv4HdrLenPos, ipv4ProtoPos, ipv4LengthPos, ipv4IDPos,
    ipv4ChecksumPos, ipv4SourceAddrPos, ipv4DestAddrPos]
  rw [if_pos (by omega), if_pos (by omega), if_pos (by omega), if_pos (by omega), if_pos (by omega),
    if_pos (by omega), if_pos (by omega)]
  simp only [Res.ok_bind, ipv4HdrLenMask]
  simp only [hl, show BitVec.ofNat 8 minIPv4HdrSize = (20 : Byte) from rfl, ne_eq, not_true_eq_false,
    if_false]
  rw [checkLength_eq (by exact hv)]
  simp only [Res.ok_bind]
  cases hcb : checkedBuf (u16at (window h bytes) 2) bytes lv with
  | none => simp only [Option.map_none]; rfl
  | some b => simp only [Option.map_some]; rfl

/-- Parsing an IPv6 buffer. -/
theorem parseIPv6_eq {h : Heap} {p : Packet} {bytes : Slice} (hv : bytes.Valid h) (lv : Bool)
    (h7 : 7 ≤ bytes.len) (h40 : 40 ≤ bytes.cap) :
    parseIPv6Packet h p bytes lv =
      match checkedBuf (40 + u16at (window h bytes) 4) bytes lv with
      | none => .ok (fill6 p (window h bytes) bytes,
          some (.msg "stated ip packet length differs from bytes available"))
      | some b =>
        if lv ∧ 40 + u16at (window h bytes) 4 ≠ BitVec.ofNat 16 bytes.len then
          if 40 + 14 ≤ bytes.len ∧ 40 + 18 ≤ bytes.cap ∧ 40 ≤ b.len then
            parseTransport h (fillTCP (fill6 p (window h bytes) b) (window h bytes) 40) bytes
          else .panic
        else parseTransport h (fill6 p (window h bytes) b) bytes := by
  unfold parseIPv6Packet
  simp only [at_eq hv, rd16_eq hv, rdN_eq, ipv6ProtoPos, ipv6PayloadLenPos, ipv6SourceAddrPos,
    ipv6DestAddrPos, ipv6HeaderLen]
  rw [if_pos (by omega), if_pos (by omega), if_pos (by omega), if_pos (by omega)]
  simp only [Res.ok_bind]
  rw [checkLength_eq (by exact hv)]
  simp only [Res.ok_bind]
  simp only [show BitVec.ofNat 16 40 = (40 : U16) from rfl]
  cases hcb : checkedBuf (40 + u16at (window h bytes) 4) bytes lv with
  | none => simp only [Option.map_none]; rfl
  | some b =>
    simp only [Option.map_some]
    have hb := (checkedBuf_valid hv hcb).1
    by_cases hc : lv ∧ 40 + u16at (window h bytes) 4 ≠ BitVec.ofNat 16 bytes.len
    · rw [if_pos hc, if_pos hc, parseTCP_eq hv (by exact hb)]
      by_cases hq : 40 + 14 ≤ bytes.len ∧ 40 + 18 ≤ bytes.cap ∧ 40 ≤ b.len
      · rw [if_pos (by exact hq), if_pos hq]; rfl
      · rw [if_neg (by exact hq), if_neg hq]; rfl
    · rw [if_neg hc, if_neg hc]; rfl

end Verif.Packet
