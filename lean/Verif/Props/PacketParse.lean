import Verif.Packet.New
/-!
C47-C50, C71: what parsing a packet yields.

`window h bytes` is the memory a slice may reach: its bytes followed by whatever lies between its
length and its capacity (`take bytes.len` of it are the bytes themselves, see
`window_is_the_buffer`).  For a slice whose capacity is its length it is exactly the buffer.
-/
namespace Verif.Packet
open Verif.Spec

theorem window_is_the_buffer {h : Heap} {s : Slice} (hv : s.Valid h) :
    (window h s).take s.len = h.bytes s ∧ (s.cap = s.len → window h s = h.bytes s) := by
  have hb := bytes_eq_window hv
  refine ⟨hb.symm, fun hc => ?_⟩
  rw [hb, List.take_of_length_le]
  rw [window_length hv]; omega

/-- The transport fields a packet shows are those at offset `o` of `B`. -/
structure TransportFields (p : Packet) (B : List Byte) (o : Nat) : Prop where
  tcp : p.IPProto = 6 →
    be16 B o = some p.SourcePort.toNat ∧ be16 B (o + 2) = some p.DestPort.toNat ∧
    be32 B (o + 4) = some p.tcpSeq.toNat ∧ be32 B (o + 8) = some p.tcpAck.toNat ∧
    (∃ d, B[o + 12]? = some d ∧ p.TCPDataStartBytes.toNat = d.toNat / 16 * 4) ∧
    B[o + 13]? = some p.GetTCPFlags ∧ be16 B (o + 16) = some p.tcpChecksum.toNat
  udp : p.IPProto = 17 →
    be16 B o = some p.SourcePort.toNat ∧ be16 B (o + 2) = some p.DestPort.toNat ∧
    be16 B (o + 6) = some p.udpChecksum.toNat
  other : p.IPProto ≠ 6 → p.IPProto ≠ 17 → p.SourcePort = 0 ∧ p.DestPort = 0

theorem dataStart_nat (b : Byte) : (((b &&& 0xF0) >>> 4).setWidth 16 * (4 : U16)).toNat = b.toNat / 16 * 4 := by
  revert b; decide

theorem Accepted.fields {p0 p : Packet} {W : List Byte} {bytes : Slice} (ha : Accepted p0 W bytes p)
    (hl : W.length = bytes.cap)
    (h1 : p0.udpSourcePort = 0) (h2 : p0.udpDestinationPort = 0) :
    TransportFields p W p0.ipHeaderLen.toNat := by
  cases ha with
  | tcp ht _ g1 g2 g3 =>
    refine ⟨fun _ => ?_, fun hu => ?_, fun hn _ => absurd ht hn⟩
    · have hs : (withHash (fillTCP p0 W p0.ipHeaderLen.toNat)).SourcePort = u16at W p0.ipHeaderLen.toNat := by
        show (if p0.ipProto = 6 then _ else _) = _
        rw [if_pos ht]; rfl
      have hd : (withHash (fillTCP p0 W p0.ipHeaderLen.toNat)).DestPort = u16at W (p0.ipHeaderLen.toNat + 2) := by
        show (if p0.ipProto = 6 then _ else _) = _
        rw [if_pos ht]; rfl
      rw [hs, hd]
      refine ⟨be16_u16at (by omega), be16_u16at (by omega), be32_u32at (by omega), be32_u32at (by omega),
        ⟨_, u8at_some (by omega), dataStart_nat _⟩, u8at_some (by omega), be16_u16at (by omega)⟩
    · have : p0.ipProto = 17 := hu
      rw [ht] at this; exact absurd this (by decide)
  | udp hu _ g1 g2 =>
    refine ⟨fun ht => ?_, fun _ => ?_, fun _ hn => absurd hu hn⟩
    · have : p0.ipProto = 6 := ht
      rw [hu] at this; exact absurd this (by decide)
    · have hne : ¬ p0.ipProto = 6 := by rw [hu]; decide
      have hs : (withHash (fillUDP p0 W p0.ipHeaderLen.toNat)).SourcePort = u16at W p0.ipHeaderLen.toNat := by
        show (if p0.ipProto = 6 then _ else _) = _
        rw [if_neg hne]; rfl
      have hd : (withHash (fillUDP p0 W p0.ipHeaderLen.toNat)).DestPort = u16at W (p0.ipHeaderLen.toNat + 2) := by
        show (if p0.ipProto = 6 then _ else _) = _
        rw [if_neg hne]; rfl
      rw [hs, hd]
      exact ⟨be16_u16at (by omega), be16_u16at (by omega), be16_u16at (by omega)⟩
  | other ht hu =>
    refine ⟨fun h => absurd h ht, fun h => absurd h hu, fun _ _ => ⟨?_, ?_⟩⟩
    · show (if p0.ipProto = 6 then _ else _) = _
      rw [if_neg ht]; exact h1
    · show (if p0.ipProto = 6 then _ else _) = _
      rw [if_neg ht]; exact h2

theorem Accepted.same_ip {p0 p : Packet} {W : List Byte} {bytes : Slice} (ha : Accepted p0 W bytes p) :
    p.version = p0.version ∧ p.ipHeaderLen = p0.ipHeaderLen ∧ p.ipProto = p0.ipProto ∧
    p.ipTotalLength = p0.ipTotalLength ∧ p.ipID = p0.ipID ∧ p.ipChecksum = p0.ipChecksum ∧
    p.sourceAddress = p0.sourceAddress ∧ p.destinationAddress = p0.destinationAddress ∧
    p.buffer = p0.buffer ∧ p.context = p0.context ∧ p.mark = p0.mark := by
  cases ha <;> exact ⟨rfl, rfl, rfl, rfl, rfl, rfl, rfl, rfl, rfl, rfl, rfl⟩

/-- C47. Every IPv4 packet `New` accepts shows exactly the fields on the wire. -/
theorem C47_ipv4_fields {h : Heap} {bytes : Slice} (hv : bytes.Valid h) {c : U64} {m : List Char}
    {lv : Bool} {p : Packet} (ha : New h c bytes m lv = .ok (some p, none)) (h4 : p.IPversion = .V4) :
    (window h bytes)[0]? = some 0x45 ∧ p.IPHeaderLen = 20 ∧
    (window h bytes)[9]? = some p.IPProto ∧
    be16 (window h bytes) 2 = some p.IPTotalLen.toNat ∧ p.GetIPLength = p.IPTotalLen ∧
    be16 (window h bytes) 4 = some p.ipID.toNat ∧
    be16 (window h bytes) 10 = some p.ipChecksum.toNat ∧
    ((window h bytes).drop 12).take 4 = p.SourceAddress ∧ p.SourceAddress.length = 4 ∧
    ((window h bytes).drop 16).take 4 = p.DestinationAddress ∧ p.DestinationAddress.length = 4 ∧
    TransportFields p (window h bytes) 20 := by
  have hlc := hv.1
  have hl := window_length hv
  rcases New_accept hv ha with ⟨h20, h45, b, hcb, hacc⟩ | ⟨_, _, _, b, hcb, hacc⟩
  · obtain ⟨_, e2, e3, e4, e5, e6, e7, e8, _⟩ := hacc.same_ip
    simp only [Packet.IPHeaderLen, Packet.IPProto, Packet.IPTotalLen, Packet.SourceAddress,
      Packet.DestinationAddress]
    rw [e2, e3, e4, e5, e6, e7, e8]
    refine ⟨by rw [u8at_some (by omega), h45], rfl, u8at_some (by omega), be16_u16at (by omega), e4,
      be16_u16at (by omega), be16_u16at (by omega), rfl, ?_, rfl, ?_, ?_⟩
    · show (((window h bytes).drop 12).take 4).length = 4
      simp; omega
    · show (((window h bytes).drop 16).take 4).length = 4
      simp; omega
    · exact hacc.fields hl rfl rfl
  · have hv6 : p.version = .V6 := by
      rcases hacc with ⟨_, hacc⟩ | ⟨_, _, _, hacc⟩
      · rw [hacc.same_ip.1]; rfl
      · rw [hacc.same_ip.1]; rfl
    have : p.version = .V4 := h4
    rw [this] at hv6; exact absurd hv6 (by decide)

/-- C48. Every IPv6 packet `New` accepts shows exactly the fields on the wire; the total length is
the payload length plus 40, in 16 bits. -/
theorem C48_ipv6_fields {h : Heap} {bytes : Slice} (hv : bytes.Valid h) {c : U64} {m : List Char}
    {lv : Bool} {p : Packet} (ha : New h c bytes m lv = .ok (some p, none)) (h6 : p.IPversion = .V6) :
    (∃ b0, (window h bytes)[0]? = some b0 ∧ b0.toNat / 16 ≠ 4) ∧ p.IPHeaderLen = 40 ∧
    (window h bytes)[6]? = some p.IPProto ∧
    (∃ n, be16 (window h bytes) 4 = some n ∧ p.IPTotalLen.toNat = (40 + n) % 65536) ∧
    ((window h bytes).drop 8).take 16 = p.SourceAddress ∧ p.SourceAddress.length = 16 ∧
    ((window h bytes).drop 24).take 16 = p.DestinationAddress ∧ p.DestinationAddress.length = 16 ∧
    TransportFields p (window h bytes) 40 := by
  have hl := window_length hv
  rcases New_accept hv ha with ⟨_, _, b, hcb, hacc⟩ | ⟨h7, h40, hn4, b, hcb, hacc⟩
  · have hv6 : p.version = .V4 := by rw [hacc.same_ip.1]; rfl
    have : p.version = .V6 := h6
    rw [this] at hv6; exact absurd hv6 (by decide)
  · obtain ⟨p0, hacc, k1, k2, k3, k4, k5, k6, k7⟩ : ∃ p0 : Packet,
        Accepted p0 (window h bytes) bytes p ∧ p0.ipHeaderLen = 40 ∧
        p0.ipProto = u8at (window h bytes) 6 ∧ p0.ipTotalLength = 40 + u16at (window h bytes) 4 ∧
        p0.sourceAddress = ((window h bytes).drop 8).take 16 ∧
        p0.destinationAddress = ((window h bytes).drop 24).take 16 ∧
        p0.udpSourcePort = 0 ∧ p0.udpDestinationPort = 0 := by
      rcases hacc with ⟨_, hacc⟩ | ⟨_, _, _, hacc⟩
      · exact ⟨_, hacc, rfl, rfl, rfl, rfl, rfl, rfl, rfl⟩
      · exact ⟨_, hacc, rfl, rfl, rfl, rfl, rfl, rfl, rfl⟩
    obtain ⟨_, e2, e3, e4, _, _, e7, e8, _⟩ := hacc.same_ip
    simp only [Packet.IPHeaderLen, Packet.IPProto, Packet.IPTotalLen, Packet.SourceAddress,
      Packet.DestinationAddress]
    rw [e2, e3, e4, e7, e8, k1, k2, k3, k4, k5]
    have hf := hacc.fields hl k6 k7
    rw [k1] at hf
    refine ⟨⟨_, u8at_some (by omega), hn4⟩, rfl, u8at_some (by omega),
      ⟨_, be16_u16at (by omega), ?_⟩, rfl, ?_, rfl, ?_, hf⟩
    · rw [BitVec.toNat_add]; rfl
    · simp; omega
    · simp; omega

/-- C47, C48. The text `ID` returns: the decimal numeral of the IPv4 identification field; "0" for IPv6. And the packet
keeps the context and mark it was parsed with. -/
theorem C47_id_text {h : Heap} {bytes : Slice} (hv : bytes.Valid h) {c : U64} {m : List Char}
    {lv : Bool} {p : Packet} (ha : New h c bytes m lv = .ok (some p, none)) :
    p.context = c ∧ p.mark = m ∧
    (p.IPversion = .V4 → ∃ n, be16 (window h bytes) 4 = some n ∧ p.ID = Nat.toDigits 10 n) ∧
    (p.IPversion = .V6 → p.ID = ['0']) := by
  have hlc := hv.1
  have hl := window_length hv
  rcases New_accept hv ha with ⟨h20, h45, b, hcb, hacc⟩ | ⟨_, _, _, b, hcb, ⟨_, hacc⟩ | ⟨_, _, _, hacc⟩⟩
  · obtain ⟨e1, _, _, _, e5, _, _, _, _, e10, e11⟩ := hacc.same_ip
    refine ⟨e10, e11, fun _ => ⟨p.ipID.toNat, ?_, rfl⟩, fun h6 => ?_⟩
    · rw [e5]; exact be16_u16at (by omega)
    · have : p.version = .V6 := h6
      rw [e1] at this; cases this
  · obtain ⟨e1, _, _, _, e5, _, _, _, _, e10, e11⟩ := hacc.same_ip
    refine ⟨e10, e11, fun h4 => ?_, fun _ => ?_⟩
    · have : p.version = .V4 := h4
      rw [e1] at this; cases this
    · show itoa p.ipID.toNat = _
      rw [e5]; show itoa (0 : U16).toNat = _; decide
  · obtain ⟨e1, _, _, _, e5, _, _, _, _, e10, e11⟩ := hacc.same_ip
    refine ⟨e10, e11, fun h4 => ?_, fun _ => ?_⟩
    · have : p.version = .V4 := h4
      rw [e1] at this; cases this
    · show itoa p.ipID.toNat = _
      rw [e5]; show itoa (0 : U16).toNat = _; decide

/-! ### Which buffers are accepted, refused, or crash the process -/

/-- Byte `i` of a buffer as a number (0 outside). -/
def byteAt (B : List Byte) (i : Nat) : Nat := (B[i]?.getD 0).toNat
/-- Big-endian 16-bit number at `i` (0 outside). -/
def numAt (B : List Byte) (i : Nat) : Nat := (be16 B i).getD 0

/-- The buffers that crash `New`, from the bytes alone: nothing at all; an IPv4 header whose TCP or
UDP header is not fully there (length not validated), or whose stated length is below 20; an IPv6
header that is not complete or whose transport header is not fully there. -/
def Crashes (B : List Byte) (lv : Bool) : Prop :=
  B = [] ∨
  (byteAt B 0 / 16 = 4 ∧ byteAt B 0 % 16 = 5 ∧ 20 ≤ B.length ∧ (lv = true → numAt B 2 ≤ B.length) ∧
    ((byteAt B 9 = 6 ∧ (numAt B 2 < 20 ∨ 40 ≤ numAt B 2) ∧ (B.length < 38 ∨ lv = true ∧ numAt B 2 < 20)) ∨
     (byteAt B 9 = 17 ∧ (numAt B 2 < 20 ∨ 28 ≤ numAt B 2) ∧ B.length < 28))) ∨
  (B ≠ [] ∧ byteAt B 0 / 16 ≠ 4 ∧
    (B.length < 40 ∨
     (lv = true ∧ (40 + numAt B 4) % 65536 < B.length ∧
        (B.length < 58 ∨ (40 + numAt B 4) % 65536 < 40)) ∨
     (lv = false ∧ ((byteAt B 6 = 6 ∧ 20 ≤ numAt B 4 ∧ B.length < 58) ∨
        (byteAt B 6 = 17 ∧ 8 ≤ numAt B 4 ∧ B.length < 48)))))

theorem byteAt_eq (B : List Byte) (i : Nat) : byteAt B i = (u8at B i).toNat := rfl
theorem numAt_eq {B : List Byte} {i : Nat} (hi : i + 2 ≤ B.length) : numAt B i = (u16at B i).toNat := by
  unfold numAt; rw [be16_u16at hi]; rfl

theorem byte_eq_iff (b : Byte) (n : Nat) (hn : n < 256) : b = BitVec.ofNat 8 n ↔ b.toNat = n := by
  constructor
  · intro h; rw [h, BitVec.toNat_ofNat]; omega
  · intro h; apply BitVec.eq_of_toNat_eq; rw [BitVec.toNat_ofNat, h]; omega

theorem ofNat16_toNat {n : Nat} (hn : n < 65536) : (BitVec.ofNat 16 n).toNat = n := by
  rw [BitVec.toNat_ofNat]; omega

theorem bind_panic_iff {α β : Type} {r : Res α} {g : α → β} :
    ((r >>= fun a => Res.ok (g a)) = .panic) ↔ r = .panic := by
  cases r <;> simp

/-- What the length check answers, on numbers. -/
theorem checkedBuf_cases (tot : U16) (bytes : Slice) (lv : Bool) (hn : lv = true → bytes.len < 65536) :
    (lv = true ∧ bytes.len < tot.toNat ∧ checkedBuf tot bytes lv = none) ∨
    (lv = true ∧ tot.toNat ≤ bytes.len ∧ checkedBuf tot bytes lv = some (head bytes tot.toNat) ∧
      (tot ≠ BitVec.ofNat 16 bytes.len ↔ tot.toNat < bytes.len)) ∨
    (lv = false ∧ checkedBuf tot bytes lv = some bytes) := by
  unfold checkedBuf
  cases lv with
  | false => right; right; simp
  | true =>
    have hn' := ofNat16_toNat (hn rfl)
    have hiff : tot ≠ BitVec.ofNat 16 bytes.len ↔ tot.toNat ≠ bytes.len := by
      constructor
      · intro hne he
        exact hne (BitVec.eq_of_toNat_eq (by rw [hn', he]))
      · intro hne he
        rw [he, hn'] at hne; exact hne rfl
    by_cases he : tot.toNat = bytes.len
    · right; left
      have : ¬ tot ≠ BitVec.ofNat 16 bytes.len := by rw [hiff]; simp [he]
      refine ⟨rfl, by omega, ?_, by rw [hiff]; omega⟩
      rw [if_neg (by simp only [true_and]; exact this), he]; rfl
    · by_cases hlt : tot.toNat < bytes.len
      · right; left
        refine ⟨rfl, by omega, ?_, by rw [hiff]; omega⟩
        rw [if_pos ⟨rfl, hiff.mpr he⟩, if_pos (by rw [BitVec.lt_def, hn']; exact hlt)]
      · left
        refine ⟨rfl, by omega, ?_⟩
        rw [if_pos ⟨rfl, hiff.mpr he⟩, if_neg (by rw [BitVec.lt_def, hn']; exact hlt)]

theorem sub_lt_nat (a : U16) (k m : Nat) (hk : k < 65536) (hm : m < 65536) :
    (a - BitVec.ofNat 16 k < BitVec.ofNat 16 m) ↔ (a.toNat + (65536 - k)) % 65536 < m := by
  rw [BitVec.lt_def, BitVec.toNat_sub, ofNat16_toNat hk, ofNat16_toNat hm]
  constructor <;> intro h <;> omega

/-- The outcome of the transport part on numbers. -/
theorem parseTransport_nat {h : Heap} {p : Packet} {bytes : Slice} (hv : bytes.Valid h)
    (hb : p.buffer.Valid h) :
    (parseTransport h p bytes = .panic ↔
      (p.ipProto.toNat = 6 ∧
          20 ≤ (p.ipTotalLength.toNat + (65536 - p.ipHeaderLen.toNat)) % 65536 ∧
          (bytes.len < p.ipHeaderLen.toNat + 14 ∨ bytes.cap < p.ipHeaderLen.toNat + 18 ∨
            p.buffer.len < p.ipHeaderLen.toNat)) ∨
      (p.ipProto.toNat = 17 ∧
          8 ≤ (p.ipTotalLength.toNat + (65536 - p.ipHeaderLen.toNat)) % 65536 ∧
          (bytes.len < p.ipHeaderLen.toNat ∨ bytes.cap < p.ipHeaderLen.toNat + 8))) ∧
    ((∃ q, parseTransport h p bytes = .ok (q, none)) ↔
      (p.ipProto.toNat = 6 ∧
          20 ≤ (p.ipTotalLength.toNat + (65536 - p.ipHeaderLen.toNat)) % 65536 ∧
          p.ipHeaderLen.toNat + 14 ≤ bytes.len ∧ p.ipHeaderLen.toNat + 18 ≤ bytes.cap ∧
            p.ipHeaderLen.toNat ≤ p.buffer.len) ∨
      (p.ipProto.toNat = 17 ∧
          8 ≤ (p.ipTotalLength.toNat + (65536 - p.ipHeaderLen.toNat)) % 65536 ∧
          p.ipHeaderLen.toNat ≤ bytes.len ∧ p.ipHeaderLen.toNat + 8 ≤ bytes.cap) ∨
      (p.ipProto.toNat ≠ 6 ∧ p.ipProto.toNat ≠ 17)) := by
  rw [parseTransport_eq hv hb]
  have hlt := p.ipHeaderLen.isLt
  have hset : p.ipHeaderLen.setWidth 16 = BitVec.ofNat 16 p.ipHeaderLen.toNat := by
    apply BitVec.eq_of_toNat_eq
    rw [BitVec.toNat_setWidth, BitVec.toNat_ofNat]
  have e20 := sub_lt_nat p.ipTotalLength p.ipHeaderLen.toNat 20 (by omega) (by omega)
  have e8 := sub_lt_nat p.ipTotalLength p.ipHeaderLen.toNat 8 (by omega) (by omega)
  rw [← hset] at e20 e8
  by_cases ht : p.ipProto = 6
  · have htn : p.ipProto.toNat = 6 := by rw [ht]; rfl
    rw [if_pos ht]
    by_cases hs : p.ipTotalLength - p.ipHeaderLen.setWidth 16 < 20
    · rw [if_pos hs]
      have := e20.mp hs
      constructor
      · simp; omega
      · simp; omega
    · rw [if_neg hs]
      have : ¬ (p.ipTotalLength.toNat + (65536 - p.ipHeaderLen.toNat)) % 65536 < 20 := fun x => hs (e20.mpr x)
      split
      · constructor
        · simp; omega
        · simp; omega
      · constructor
        · simp; omega
        · simp; omega
  · have htn : p.ipProto.toNat ≠ 6 := fun hx => ht ((byte_eq_iff _ 6 (by omega)).mpr hx)
    rw [if_neg ht]
    by_cases hu : p.ipProto = 17
    · have hun : p.ipProto.toNat = 17 := by rw [hu]; rfl
      rw [if_pos hu]
      by_cases hs : p.ipTotalLength - p.ipHeaderLen.setWidth 16 < 8
      · rw [if_pos hs]
        have := e8.mp hs
        constructor
        · simp; omega
        · simp; omega
      · rw [if_neg hs]
        have : ¬ (p.ipTotalLength.toNat + (65536 - p.ipHeaderLen.toNat)) % 65536 < 8 := fun x => hs (e8.mpr x)
        split
        · constructor
          · simp; omega
          · simp; omega
        · constructor
          · simp; omega
          · simp; omega
    · have hun : p.ipProto.toNat ≠ 17 := fun hx => hu ((byte_eq_iff _ 17 (by omega)).mpr hx)
      rw [if_neg hu]
      constructor
      · simp; omega
      · simp; omega

/-- C50. Exactly which buffers crash `New` (buffers whose capacity is their length; below 64 KiB
when lengths are validated). -/
theorem C50_crash_set {h : Heap} {bytes : Slice} (hv : bytes.Valid h) (hcap : bytes.cap = bytes.len)
    (c : U64) (m : List Char) (lv : Bool) (hn : lv = true → bytes.len < 65536) :
    New h c bytes m lv = .panic ↔ Crashes (h.bytes bytes) lv := by
  have hw : window h bytes = h.bytes bytes := (window_is_the_buffer hv).2 hcap
  have hlen : (h.bytes bytes).length = bytes.len := Heap.bytes_length hv
  rw [New_eq hv, hw]
  generalize hB : h.bytes bytes = B at *
  unfold Crashes
  rw [hlen]
  by_cases h0 : bytes.len = 0
  · rw [if_pos h0]
    have : B = [] := List.length_eq_zero_iff.mp (by omega)
    simp [this]
  have hne : B ≠ [] := by intro he; rw [he] at hlen; simp at hlen; omega
  rw [if_neg h0]
  simp only [hne, false_or, ne_eq, not_false_eq_true, true_and]
  by_cases h4 : u8at B 0 &&& 0xF0 = 0x40
  · have h4n : byteAt B 0 / 16 = 4 := nibble4.mp h4
    rw [if_pos h4]
    simp only [h4n, not_true_eq_false, false_and, or_false, true_and]
    by_cases h20 : 20 ≤ bytes.len
    · by_cases hl : (u8at B 0 &&& 0x0F) * 4 = (20 : Byte)
      · have hln : byteAt B 0 % 16 = 5 := nibble5.mp hl
        rw [parseIPv4_eq hv lv h20 (by rw [hw]; exact hl), hw, numAt_eq (by omega)]
        have hP : ∀ b, (fill4 (start c m .V4) B b).ipProto.toNat = byteAt B 9 := fun _ => rfl
        rcases checkedBuf_cases (u16at B 2) bytes lv hn with ⟨k1, k2, k3⟩ | ⟨k1, k2, k3, k4⟩ | ⟨k1, k3⟩
        · rw [k3]; subst k1; simp; omega
        · rw [k3]; subst k1
          have := (parseTransport_nat (p := fill4 (start c m .V4) B (head bytes (u16at B 2).toNat)) hv
            (by exact head_valid hv (by omega))).1
          simp only
          rw [bind_panic_iff, this]
          rw [hP]
          have e1 : (fill4 (start c m .V4) B (head bytes (u16at B 2).toNat)).ipTotalLength = u16at B 2 := rfl
          have e2 : (fill4 (start c m .V4) B (head bytes (u16at B 2).toNat)).ipHeaderLen.toNat = 20 := rfl
          have e3 : (fill4 (start c m .V4) B (head bytes (u16at B 2).toNat)).buffer.len = (u16at B 2).toNat := rfl
          rw [e1, e2, e3]
          have := (u16at B 2).isLt
          simp only [forall_const, true_and]
          omega
        · rw [k3]; subst k1
          have := (parseTransport_nat (p := fill4 (start c m .V4) B bytes) hv (by exact hv)).1
          simp only
          rw [bind_panic_iff, this]
          rw [hP]
          have e1 : (fill4 (start c m .V4) B bytes).ipTotalLength = u16at B 2 := rfl
          have e2 : (fill4 (start c m .V4) B bytes).ipHeaderLen.toNat = 20 := rfl
          have e3 : (fill4 (start c m .V4) B bytes).buffer.len = bytes.len := rfl
          rw [e1, e2, e3]
          have := (u16at B 2).isLt
          simp only [Bool.false_eq_true, false_and, or_false, false_implies, true_and]
          omega
      · have hln : ¬ byteAt B 0 % 16 = 5 := fun hx => hl (nibble5.mpr hx)
        obtain ⟨q, e, he⟩ := parseIPv4_options (p := start c m .V4) (lv := lv) hv h20 (by rw [hw]; exact hl)
        rw [he]; simp [hln]
    · obtain ⟨e, he⟩ := parseIPv4_short (h := h) (p := start c m .V4) (lv := lv)
        (by omega : bytes.len < 20)
      rw [he]; simp; omega
  · have h4n : ¬ byteAt B 0 / 16 = 4 := fun hx => h4 (nibble4.mpr hx)
    rw [if_neg h4]
    simp only [h4n, false_and, false_or, not_false_eq_true, true_and]
    by_cases hs : bytes.len < 7 ∨ bytes.cap < 40
    · rw [parseIPv6_crash hv hs]
      simp; omega
    · rw [parseIPv6_eq hv lv (by omega) (by omega), hw, numAt_eq (by omega)]
      have hT : (40 + u16at B 4 : U16).toNat = (40 + (u16at B 4).toNat) % 65536 := by
        rw [BitVec.toNat_add]; rfl
      have hx := (u16at B 4).isLt
      rcases checkedBuf_cases (40 + u16at B 4) bytes lv hn with ⟨k1, k2, k3⟩ | ⟨k1, k2, k3, k4⟩ | ⟨k1, k3⟩
      · rw [k3]; subst k1; simp; omega
      · rw [k3]; subst k1
        rw [hT] at k2 k4
        have hval : (head bytes (40 + u16at B 4 : U16).toNat).Valid h := head_valid hv (by rw [hT]; omega)
        simp only
        by_cases hlt : (40 + (u16at B 4).toNat) % 65536 < bytes.len
        · rw [if_pos (by simp only [true_and]; exact k4.mpr hlt)]
          by_cases hq : 40 + 14 ≤ bytes.len ∧ 40 + 18 ≤ bytes.cap ∧ 40 ≤ (head bytes (40 + u16at B 4 : U16).toNat).len
          · rw [if_pos hq]
            have := (parseTransport_nat (p := fillTCP (fill6 (start c m .V6) B
              (head bytes (40 + u16at B 4 : U16).toNat)) B 40) hv (by exact hval)).1
            rw [bind_panic_iff, this]
            have e0 : (fillTCP (fill6 (start c m .V6) B (head bytes (40 + u16at B 4 : U16).toNat)) B 40).ipProto.toNat
                = byteAt B 6 := rfl
            have e1 : (fillTCP (fill6 (start c m .V6) B (head bytes (40 + u16at B 4 : U16).toNat)) B 40).ipTotalLength.toNat
                = (40 + (u16at B 4).toNat) % 65536 := hT
            have e2 : (fillTCP (fill6 (start c m .V6) B (head bytes (40 + u16at B 4 : U16).toNat)) B 40).ipHeaderLen.toNat
                = 40 := rfl
            have e3 : (fillTCP (fill6 (start c m .V6) B (head bytes (40 + u16at B 4 : U16).toNat)) B 40).buffer.len
                = (40 + (u16at B 4).toNat) % 65536 := hT
            have e4 : (head bytes (40 + u16at B 4 : U16).toNat).len = (40 + (u16at B 4).toNat) % 65536 := hT
            rw [e4] at hq
            rw [e0, e1, e2, e3]
            simp only [Bool.true_eq_false, false_and, or_false, true_and]
            omega
          · rw [if_neg hq]
            have e4 : (head bytes (40 + u16at B 4 : U16).toNat).len = (40 + (u16at B 4).toNat) % 65536 := hT
            rw [e4] at hq
            simp only [Res.panic_bind, true_iff, true_and]
            omega
        · rw [if_neg (fun hh => hlt (k4.mp hh.2))]
          have := (parseTransport_nat (p := fill6 (start c m .V6) B
              (head bytes (40 + u16at B 4 : U16).toNat)) hv (by exact hval)).1
          rw [bind_panic_iff, this]
          have e0 : (fill6 (start c m .V6) B (head bytes (40 + u16at B 4 : U16).toNat)).ipProto.toNat
              = byteAt B 6 := rfl
          have e1 : (fill6 (start c m .V6) B (head bytes (40 + u16at B 4 : U16).toNat)).ipTotalLength.toNat
              = (40 + (u16at B 4).toNat) % 65536 := hT
          have e2 : (fill6 (start c m .V6) B (head bytes (40 + u16at B 4 : U16).toNat)).ipHeaderLen.toNat
              = 40 := rfl
          have e3 : (fill6 (start c m .V6) B (head bytes (40 + u16at B 4 : U16).toNat)).buffer.len
              = (40 + (u16at B 4).toNat) % 65536 := hT
          rw [e0, e1, e2, e3]
          simp only [Bool.true_eq_false, false_and, or_false, true_and]
          omega
      · rw [k3]; subst k1
        simp only [Bool.false_eq_true, false_and, if_false, false_or, true_and]
        have := (parseTransport_nat (p := fill6 (start c m .V6) B bytes) hv (by exact hv)).1
        rw [bind_panic_iff, this]
        have e0 : (fill6 (start c m .V6) B bytes).ipProto.toNat = byteAt B 6 := rfl
        have e1 : (fill6 (start c m .V6) B bytes).ipTotalLength.toNat = (40 + (u16at B 4).toNat) % 65536 := hT
        have e2 : (fill6 (start c m .V6) B bytes).ipHeaderLen.toNat = 40 := rfl
        have e3 : (fill6 (start c m .V6) B bytes).buffer.len = bytes.len := rfl
        rw [e0, e1, e2, e3]
        omega

/-- Parsing always ends. -/
theorem C50_parsing_ends {h : Heap} {bytes : Slice} (hv : bytes.Valid h) (c : U64) (m : List Char)
    (lv : Bool) : New h c bytes m lv ≠ .diverge := by
  have ht : ∀ p : Packet, p.buffer.Valid h → parseTransport h p bytes ≠ .diverge := by
    intro p hb
    rw [parseTransport_eq hv hb]
    repeat' split
    all_goals simp
  have hbind : ∀ r : Res (Packet × Option Err), r ≠ .diverge →
      (r >>= fun r => Res.ok (some r.1, r.2)) ≠ .diverge := by
    intro r hr; cases r <;> simp_all
  rw [New_eq hv]
  split
  · simp
  split
  · apply hbind
    by_cases h20 : 20 ≤ bytes.len
    · by_cases hl : (u8at (window h bytes) 0 &&& 0x0F) * 4 = (20 : Byte)
      · rw [parseIPv4_eq hv lv h20 hl]
        cases hcb : checkedBuf (u16at (window h bytes) 2) bytes lv with
        | none => simp
        | some b => exact ht _ (checkedBuf_valid hv hcb).1
      · obtain ⟨q, e, he⟩ := parseIPv4_options (p := start c m .V4) (lv := lv) hv h20 hl
        rw [he]; simp
    · obtain ⟨e, he⟩ := parseIPv4_short (h := h) (p := start c m .V4) (lv := lv)
        (by omega : bytes.len < 20)
      rw [he]; simp
  · apply hbind
    by_cases hs : bytes.len < 7 ∨ bytes.cap < 40
    · rw [parseIPv6_crash hv hs]; simp
    · rw [parseIPv6_eq hv lv (by omega) (by omega)]
      cases hcb : checkedBuf (40 + u16at (window h bytes) 4) bytes lv with
      | none => simp
      | some b =>
        have hb := (checkedBuf_valid hv hcb).1
        simp only
        repeat' split
        all_goals first | exact ht _ hb | simp

/-- C50 is violated: an empty buffer, a truncated TCP packet and a 39-byte IPv6 packet crash. -/
theorem C50_parsing_never_crashes_violated (c : U64) (m : List Char) (lv : Bool) :
    (∃ h bytes, bytes.Valid h ∧ New h c bytes m lv = .panic) ∧
    (∃ h bytes, bytes.Valid h ∧ bytes.len = 37 ∧ byteAt (h.bytes bytes) 0 = 0x45 ∧
      New h c bytes m false = .panic) ∧
    (∃ h bytes, bytes.Valid h ∧ bytes.len = 39 ∧ byteAt (h.bytes bytes) 0 = 0x60 ∧
      New h c bytes m lv = .panic) := by
  refine ⟨⟨⟨[]⟩, Slice.nil, by simp [Slice.Valid, Slice.nil], ?_⟩,
    ⟨⟨[[0x45, 0, 0, 40, 0, 0, 0, 0, 64, 6] ++ zeros 27]⟩, ⟨0, 0, 37, 37⟩, ⟨by simp, by decide⟩, rfl,
      by decide, ?_⟩,
    ⟨⟨[0x60 :: zeros 38]⟩, ⟨0, 0, 39, 39⟩, ⟨by simp, by decide⟩, rfl, by decide, ?_⟩⟩
  · rw [C50_crash_set (by simp [Slice.Valid, Slice.nil]) rfl _ _ _ (by simp [Slice.nil])]
    left; rfl
  · rw [C50_crash_set ⟨by simp, by decide⟩ rfl _ _ _ (by simp)]
    right; left; decide
  · rw [C50_crash_set ⟨by simp, by decide⟩ rfl _ _ _ (by simp)]
    right; right; exact ⟨by decide, by decide, Or.inl (by decide)⟩

/-- C50, positive part: with validated lengths, a buffer of 60 to 65535 bytes that states a length
of at least 40 bytes never crashes the parser, whatever else it contains. -/
theorem C50_safe_when_validated {h : Heap} {bytes : Slice} (hv : bytes.Valid h)
    (hcap : bytes.cap = bytes.len) (hn : bytes.len < 65536) (h60 : 60 ≤ bytes.len) (c : U64)
    (m : List Char)
    (h4 : byteAt (h.bytes bytes) 0 / 16 = 4 → 40 ≤ numAt (h.bytes bytes) 2)
    (h6 : byteAt (h.bytes bytes) 0 / 16 ≠ 4 → 40 + numAt (h.bytes bytes) 4 < 65536) :
    ∃ r, New h c bytes m true = .ok r := by
  have hlen : (h.bytes bytes).length = bytes.len := Heap.bytes_length hv
  have hnc : ¬ New h c bytes m true = .panic := by
    rw [C50_crash_set hv hcap c m true (fun _ => hn)]
    unfold Crashes
    rw [hlen]
    rintro (h1 | ⟨h1, h2, h3, h5, h7⟩ | ⟨_, h2, h3⟩)
    · rw [h1] at hlen; simp at hlen; omega
    · have := h4 h1; have := h5 rfl; omega
    · have := h6 h2
      simp only [Bool.true_eq_false, false_and, or_false, true_and] at h3
      omega
  cases hr : New h c bytes m true with
  | ok r => exact ⟨r, rfl⟩
  | panic => exact absurd hr hnc
  | diverge => exact absurd hr (C50_parsing_ends hv c m true)

/-- C49. With validated lengths an IPv4 buffer below 64 KiB is accepted iff it is a complete,
option-less packet whose stated length fits the bytes available and holds its transport header
(16-bit arithmetic lets UDP packets stating fewer than 20 bytes through), and the packet is then
exactly the stated number of bytes. -/
theorem C49_length_validation {h : Heap} {bytes : Slice} (hv : bytes.Valid h)
    (hcap : bytes.cap = bytes.len) (hn : bytes.len < 65536) (c : U64) (m : List Char)
    (h4 : byteAt (h.bytes bytes) 0 / 16 = 4) :
    ((∃ p, New h c bytes m true = .ok (some p, none)) ↔
      20 ≤ bytes.len ∧ byteAt (h.bytes bytes) 0 % 16 = 5 ∧ numAt (h.bytes bytes) 2 ≤ bytes.len ∧
      (byteAt (h.bytes bytes) 9 = 6 → 40 ≤ numAt (h.bytes bytes) 2) ∧
      (byteAt (h.bytes bytes) 9 = 17 → 28 ≤ numAt (h.bytes bytes) 2 ∨
        (numAt (h.bytes bytes) 2 < 20 ∧ 28 ≤ bytes.len))) ∧
    (∀ p, New h c bytes m true = .ok (some p, none) →
      ∃ b, p.GetBuffer 0 = .ok b ∧ h.bytes b = (h.bytes bytes).take (numAt (h.bytes bytes) 2) ∧
        b.len = numAt (h.bytes bytes) 2) := by
  have hw : window h bytes = h.bytes bytes := (window_is_the_buffer hv).2 hcap
  have hlen : (h.bytes bytes).length = bytes.len := Heap.bytes_length hv
  have hex : ∀ r : Res (Packet × Option Err),
      (∃ p, (r >>= fun r => Res.ok (some r.1, r.2)) = .ok (some p, none)) ↔ ∃ q, r = .ok (q, none) := by
    intro r
    rcases r with ⟨q, e⟩ | _ | _ <;> simp
  refine ⟨?_, ?_⟩
  · rw [New_eq hv, hw]
    generalize hB : h.bytes bytes = B at *
    by_cases h0 : bytes.len = 0
    · rw [if_pos h0]; simp; omega
    have h4' : u8at B 0 &&& 0xF0 = 0x40 := nibble4.mpr h4
    rw [if_neg h0, if_pos h4', hex]
    by_cases h20 : 20 ≤ bytes.len
    · by_cases hl : (u8at B 0 &&& 0x0F) * 4 = (20 : Byte)
      · have hln : byteAt B 0 % 16 = 5 := nibble5.mp hl
        rw [parseIPv4_eq hv true h20 (by rw [hw]; exact hl), hw, numAt_eq (by omega)]
        have ht := (u16at B 2).isLt
        rcases checkedBuf_cases (u16at B 2) bytes true (fun _ => hn) with ⟨k1, k2, k3⟩ | ⟨k1, k2, k3, k4⟩ | ⟨k1, k3⟩
        · rw [k3]; simp; omega
        · rw [k3]
          have := (parseTransport_nat (p := fill4 (start c m .V4) B (head bytes (u16at B 2).toNat)) hv
            (by exact head_valid hv (by omega))).2
          simp only
          rw [this]
          have e0 : (fill4 (start c m .V4) B (head bytes (u16at B 2).toNat)).ipProto.toNat = byteAt B 9 := rfl
          have e1 : (fill4 (start c m .V4) B (head bytes (u16at B 2).toNat)).ipTotalLength = u16at B 2 := rfl
          have e2 : (fill4 (start c m .V4) B (head bytes (u16at B 2).toNat)).ipHeaderLen.toNat = 20 := rfl
          have e3 : (fill4 (start c m .V4) B (head bytes (u16at B 2).toNat)).buffer.len = (u16at B 2).toNat := rfl
          rw [e0, e1, e2, e3]
          omega
        · simp at k1
      · have hln : ¬ byteAt B 0 % 16 = 5 := fun hx => hl (nibble5.mpr hx)
        obtain ⟨q, e, he⟩ := parseIPv4_options (p := start c m .V4) (lv := true) hv h20 (by rw [hw]; exact hl)
        rw [he]; simp [hln]
    · obtain ⟨e, he⟩ := parseIPv4_short (h := h) (p := start c m .V4) (lv := true)
        (by omega : bytes.len < 20)
      rw [he]; simp; omega
  · intro p ha
    rcases New_accept hv ha with ⟨h20, h45, b, hcb, hacc⟩ | ⟨_, _, hne, _⟩
    · obtain ⟨_, _, _, _, _, _, _, _, e9, _⟩ := hacc.same_ip
      rw [hw] at hcb
      rw [numAt_eq (by omega)]
      rcases checkedBuf_cases (u16at (h.bytes bytes) 2) bytes true (fun _ => hn) with
        ⟨k1, k2, k3⟩ | ⟨k1, k2, k3, k4⟩ | ⟨k1, k3⟩
      · rw [k3] at hcb; simp at hcb
      · rw [k3] at hcb
        simp only [Option.some.injEq] at hcb
        have hpb : p.buffer = head bytes (u16at (h.bytes bytes) 2).toNat := by rw [e9, hcb]; rfl
        have hval := head_valid hv (by omega : (u16at (h.bytes bytes) 2).toNat ≤ bytes.cap)
        refine ⟨tail p.buffer 0, ?_, ?_, ?_⟩
        · unfold Packet.GetBuffer
          rw [hpb, from_eq hval, if_pos (Nat.zero_le _)]
        · rw [bytes_tail, List.drop_zero, hpb, bytes_head k2]
        · rw [hpb]; rfl
      · simp at k1
    · rw [hw] at hne
      exact absurd h4 hne

/-- C49, non-vacuous: a 44-byte buffer holding a 41-byte TCP packet is accepted and trimmed. -/
theorem C49_example :
    ∃ p, New ⟨[[0x45, 0, 0, 41, 0, 7, 0, 0, 64, 6, 0, 0, 10, 0, 0, 1, 10, 0, 0, 2, 4, 210, 0, 80,
        0, 0, 0, 1, 0, 0, 0, 2, 0x50, 0x18, 1, 0, 0, 0, 0, 0, 65, 9, 9, 9]]⟩ 0 ⟨0, 0, 44, 44⟩ [] true
      = .ok (some p, none) ∧ p.buffer.len = 41 ∧ p.DestPort = 80 ∧ p.SourcePort = 1234 ∧
      p.TCPDataStartBytes = 20 ∧ p.IsEmptyTCPPayload = false := by
  refine ⟨_, rfl, ?_⟩
  decide

/-! ### C71: the TCP payload -/

/-- What `New` guarantees about an accepted TCP packet. -/
theorem accepted_tcp {h : Heap} {bytes : Slice} (hv : bytes.Valid h) {c : U64} {m : List Char}
    {lv : Bool} {p : Packet} (ha : New h c bytes m lv = .ok (some p, none)) (ht : p.IPProto = 6) :
    p.buffer.Valid h ∧ p.ipHeaderLen.toNat ≤ p.buffer.len ∧
    (p.version = .V4 ∧ p.ipHeaderLen = 20 ∨ p.version = .V6 ∧ p.ipHeaderLen = 40) ∧
    p.tcpTotalLength = BitVec.ofNat 16 (p.buffer.len - p.ipHeaderLen.toNat) ∧
    p.tcpOptions = Slice.nil ∧ p.tcpData = Slice.nil ∧ p.tcpDataOffset.toNat ≤ 15 ∧
    window h p.buffer = window h bytes ∧ p.buffer.len ≤ bytes.len ∧
    p.l4flowhash = p.computeL4FlowHash ∧
    (lv = true → bytes.len < 65536 →
      p.buffer.len = p.ipTotalLength.toNat ∧ p.ipHeaderLen.toNat + 20 ≤ p.buffer.len) := by
  have hoff : ∀ b : Byte, ((b &&& 0xF0) >>> 4).toNat ≤ 15 := by decide
  have hex : ∃ p0 : Packet, ∃ tot, Accepted p0 (window h bytes) bytes p ∧
      checkedBuf tot bytes lv = some p0.buffer ∧ tot = p0.ipTotalLength ∧
      (p0.version = .V4 ∧ p0.ipHeaderLen = 20 ∨ p0.version = .V6 ∧ p0.ipHeaderLen = 40) := by
    rcases New_accept hv ha with ⟨_, _, b, hcb, hacc⟩ | ⟨_, _, _, b, hcb, ⟨_, hacc⟩ | ⟨_, _, _, hacc⟩⟩
    · exact ⟨_, _, hacc, hcb, rfl, .inl ⟨rfl, rfl⟩⟩
    · exact ⟨_, _, hacc, hcb, rfl, .inr ⟨rfl, rfl⟩⟩
    · exact ⟨_, _, hacc, hcb, rfl, .inr ⟨rfl, rfl⟩⟩
  obtain ⟨p0, tot, hacc, hcb, htot, hver⟩ := hex
  have hbv := checkedBuf_valid hv hcb
  cases hacc with
  | tcp g0 g1 g2 g3 g4 =>
    refine ⟨hbv.1, g4, hver, rfl, rfl, rfl, hoff _, ?_, hbv.2.1, rfl, ?_⟩
    · show window h p0.buffer = _
      rw [hbv.2.2]; rfl
    · intro hlv hn
      show p0.buffer.len = p0.ipTotalLength.toNat ∧ p0.ipHeaderLen.toNat + 20 ≤ p0.buffer.len
      have hset : p0.ipHeaderLen.setWidth 16 = BitVec.ofNat 16 p0.ipHeaderLen.toNat := by
        apply BitVec.eq_of_toNat_eq
        rw [BitVec.toNat_setWidth, BitVec.toNat_ofNat]
      have hlt := p0.ipHeaderLen.isLt
      have e20 := sub_lt_nat p0.ipTotalLength p0.ipHeaderLen.toNat 20 (by omega) (by omega)
      rw [← hset] at e20
      have g1' : ¬ (p0.ipTotalLength.toNat + (65536 - p0.ipHeaderLen.toNat)) % 65536 < 20 :=
        fun x => g1 (e20.mpr x)
      rcases checkedBuf_cases tot bytes lv (fun _ => hn) with
        ⟨k1, k2, k3⟩ | ⟨k1, k2, k3, k4⟩ | ⟨k1, k3⟩
      · rw [k3] at hcb; simp at hcb
      · rw [k3] at hcb
        simp only [Option.some.injEq] at hcb
        have : p0.buffer.len = p0.ipTotalLength.toNat := by rw [← hcb, htot]; rfl
        exact ⟨this, by omega⟩
      · rw [hlv] at k1; simp at k1
  | udp g0 _ _ _ =>
    have : p0.ipProto = 6 := ht
    rw [g0] at this; exact absurd this (by decide)
  | other g0 _ => exact absurd ht g0

theorem dataStart_toNat {p : Packet} (ho : p.tcpDataOffset.toNat ≤ 15) :
    p.TCPDataStartBytes.toNat = p.tcpDataOffset.toNat * 4 := by
  unfold Packet.TCPDataStartBytes
  rw [BitVec.toNat_mul, BitVec.toNat_setWidth]
  show p.tcpDataOffset.toNat % 65536 * 4 % 65536 = _
  omega

/-- C71. On an accepted TCP packet below 64 KiB whose data offset lies inside the packet,
`IsEmptyTCPPayload` holds iff no byte follows the TCP header, and `ReadTCPData` is exactly the bytes
after it; when the data offset lies outside the packet `ReadTCPData` crashes. -/
theorem C71_payload {h : Heap} {bytes : Slice} (hv : bytes.Valid h) {c : U64} {m : List Char}
    {lv : Bool} {p : Packet} (ha : New h c bytes m lv = .ok (some p, none)) (ht : p.IPProto = 6)
    (hn : bytes.len < 65536) :
    (p.IPHeaderLen.toNat + p.TCPDataStartBytes.toNat ≤ p.buffer.len →
      (p.IsEmptyTCPPayload = true ↔
        (h.bytes p.buffer).drop (p.IPHeaderLen.toNat + p.TCPDataStartBytes.toNat) = []) ∧
      ∃ s, p.ReadTCPData = .ok s ∧
        h.bytes s = (h.bytes p.buffer).drop (p.IPHeaderLen.toNat + p.TCPDataStartBytes.toNat)) ∧
    (p.buffer.len < p.IPHeaderLen.toNat + p.TCPDataStartBytes.toNat → p.ReadTCPData = .panic) := by
  obtain ⟨hb, hh, hver, htl, _, _, ho, _, hle, _, _⟩ := accepted_tcp hv ha ht
  have hds := dataStart_toNat ho
  have hsum : (p.ipHeaderLen.setWidth 16 + p.TCPDataStartBytes).toNat
      = p.ipHeaderLen.toNat + p.TCPDataStartBytes.toNat := by
    rw [BitVec.toNat_add, BitVec.toNat_setWidth]
    have := p.ipHeaderLen.isLt
    omega
  have hread : p.ReadTCPData = if p.ipHeaderLen.toNat + p.TCPDataStartBytes.toNat ≤ p.buffer.len
      then .ok (tail p.buffer (p.ipHeaderLen.toNat + p.TCPDataStartBytes.toNat)) else .panic := by
    unfold Packet.ReadTCPData
    rw [hsum, from_eq hb]
  refine ⟨fun hr => ⟨?_, ?_⟩, fun hr => ?_⟩
  · unfold Packet.IsEmptyTCPPayload
    have hr' : p.ipHeaderLen.toNat + p.TCPDataStartBytes.toNat ≤ p.buffer.len := hr
    rw [htl, beq_iff_eq, ← BitVec.toNat_inj, ofNat16_toNat (by omega), List.drop_eq_nil_iff,
      Heap.bytes_length hb]
    show _ ↔ p.buffer.len ≤ p.ipHeaderLen.toNat + _
    omega
  · refine ⟨_, by rw [hread]; exact if_pos hr, bytes_tail _ _ _⟩
  · rw [hread, if_neg (by have : p.buffer.len < p.ipHeaderLen.toNat + _ := hr; omega)]

end Verif.Packet
