import Verif.Spec.PacketTcp
import Verif.Props.PacketExamples
import Verif.Props.PacketUdpPeer
/-! C151, C152: a complete TCP packet is accepted and read as what it is; what one end attaches the other end takes off. -/
namespace Verif.Packet
open Verif.Spec

/-- `pkt` is a complete TCP packet of the version. -/
def TcpWire (v : IPver) (pkt src dst : List Byte) (sp dp seq ack : Nat) (flags : Byte) (opts data : List Byte) : Prop :=
  match v with
  | .V4 => Tcp4 pkt src dst sp dp seq ack flags opts data
  | .V6 => Tcp6 pkt src dst sp dp seq ack flags opts data

/-- What the accessors of a parsed TCP packet say. -/
structure TcpReads (h : Heap) (p : Packet) (v : IPver) (pkt src dst : List Byte) (sp dp seq ack : Nat) (flags : Byte)
    (opts data : List Byte) : Prop where
  version : p.IPversion = v
  source : p.SourceAddress = src
  dest : p.DestinationAddress = dst
  proto : p.IPProto = 6
  sport : p.SourcePort.toNat = sp
  dport : p.DestPort.toNat = dp
  seqno : p.tcpSeq.toNat = seq
  ackno : p.tcpAck.toNat = ack
  flag : p.GetTCPFlags = flags
  total : p.IPTotalLen.toNat = pkt.length
  start : p.TCPDataStartBytes.toNat = 20 + opts.length
  headers : p.IPHeaderLen.toNat + p.TCPDataStartBytes.toNat + data.length = pkt.length
  empty : p.IsEmptyTCPPayload = true ↔ data = []
  payload : ∃ d, p.ReadTCPData = .ok d ∧ h.bytes d = data
  auth : ∃ e, p.CheckTCPAuthenticationOption h = .ok e ∧ (e = none ↔ HasAuthOption opts)
  buffer : ∃ b, p.GetBuffer 0 = .ok b ∧ h.bytes b = pkt
  hash : p.L4FlowHash = ipString src ++ ':' :: ipString dst ++ ':' :: itoa sp ++ ':' :: itoa dp

theorem TcpWire.seg {v : IPver} {pkt src dst : List Byte} {sp dp seq ack : Nat} {flags : Byte} {opts data : List Byte}
    (hw : TcpWire v pkt src dst sp dp seq ack flags opts data) : Segment pkt (hdrLen v) sp dp seq ack flags opts data := by
  cases v with
  | V4 => exact hw.segment
  | V6 => exact hw.segment

/-- A complete TCP packet is accepted, with or without validation of lengths, as the same packet. -/
theorem tcp_accepted {h : Heap} {bytes : Slice} (hv : bytes.Valid h) (c : U64) (m : List Char) {v : IPver}
    {src dst : List Byte} {sp dp seq ack : Nat} {flags : Byte} {opts data : List Byte}
    (hw : TcpWire v (h.bytes bytes) src dst sp dp seq ack flags opts data)
    (hf : FirstByte v (h.bytes bytes)) (hn : bytes.len < 65536) :
    ∃ p, (∀ lv, New h c bytes m lv = .ok (some p, none)) ∧ p.buffer = bytes ∧ p.version = v ∧ p.ipProto = 6 := by
  have hbl := Heap.bytes_length hv
  have hcap := hv.1
  have hwin := bytes_eq_window hv
  generalize hB : h.bytes bytes = B at *
  generalize hW : window h bytes = W at *
  have k8 : ∀ i, i < bytes.len → u8at W i = u8at B i := by
    intro i hi; rw [hwin, u8at_take hi]
  have k16 : ∀ i, i + 1 < bytes.len → u16at W i = u16at B i := by
    intro i hi; rw [hwin, u16at_take hi]
  have hl := hw.seg.length
  have hdl : hdrLen v + 20 ≤ bytes.len := by omega
  have hchk : ∀ (lv : Bool) (tot : U16), tot.toNat = bytes.len →
      checkedBuf tot bytes lv = some bytes ∧ ¬ (lv ∧ tot ≠ BitVec.ofNat 16 bytes.len) := by
    intro lv tot ht
    have he : tot = BitVec.ofNat 16 bytes.len := BitVec.eq_of_toNat_eq (by rw [ofNat16_toNat hn, ht])
    have hx : ¬ (lv = true ∧ tot ≠ BitVec.ofNat 16 bytes.len) := fun hx => hx.2 he
    exact ⟨if_neg hx, hx⟩
  have htr : ∀ p : Packet, p.buffer = bytes → p.ipHeaderLen.toNat = hdrLen v → p.ipProto = 6 → p.ipTotalLength.toNat = bytes.len →
      parseTransport h p bytes = .ok (withHash (fillTCP p W (hdrLen v)), none) := by
    intro p e1 e2 e3 e4
    rw [parseTransport_eq hv (by rw [e1]; exact hv), if_pos e3, if_neg, if_pos, hW, e2]
    · rw [e2, e1]; omega
    · intro hx
      have e8 := sub_lt_nat p.ipTotalLength p.ipHeaderLen.toNat 20 (by have := p.ipHeaderLen.isLt; omega) (by omega)
      have hset : p.ipHeaderLen.setWidth 16 = BitVec.ofNat 16 p.ipHeaderLen.toNat := by
        apply BitVec.eq_of_toNat_eq
        rw [BitVec.toNat_setWidth, BitVec.toNat_ofNat]
      rw [← hset] at e8
      have := e8.mp hx
      rw [e2, e4] at this
      omega
  have num : ∀ i x, i + 2 ≤ bytes.len → be16 B i = some x → (u16at B i).toNat = x := by
    intro i x hi hx
    rw [be16_u16at (by omega)] at hx
    exact Option.some.inj hx
  have oct : ∀ i x, i < bytes.len → B[i]? = some x → u8at B i = x := by
    intro i x hi hx
    rw [u8at_some (by omega)] at hx
    exact Option.some.inj hx
  cases v with
  | V4 =>
    have hdl : 40 ≤ bytes.len := hdl
    have hf : B[0]? = some 0x45 := hf
    have h0 := (k8 0 (by omega)).trans (oct 0 _ (by omega) hf)
    have ht : (u16at W 2).toNat = bytes.len := by rw [k16 2 (by omega), num 2 _ (by omega) hw.total, hbl]
    have e3 : u8at W 9 = 6 := (k8 9 (by omega)).trans (oct 9 _ (by omega) hw.proto)
    apply Exists.intro
    apply And.intro
    · intro lv
      rw [New_eq hv, hW, if_neg (by omega), if_pos (by rw [h0]; decide), parseIPv4_eq hv lv (by omega) (by rw [hW, h0]; decide), hW,
        (hchk lv _ ht).1]
      simp only
      rw [htr _ rfl rfl e3 ht]
      rfl
    · exact ⟨rfl, rfl, e3⟩
  | V6 =>
    have hdl : 60 ≤ bytes.len := hdl
    obtain ⟨b, hf, hb4⟩ := hf
    have h0 := (k8 0 (by omega)).trans (oct 0 _ (by omega) hf)
    have hne : ¬ u8at W 0 &&& 0xF0 = 0x40 := by
      intro hx
      rw [h0] at hx
      have := nibble4 (b := b)
      exact hb4 (this.mp hx)
    have ht : (40 + u16at W 4 : U16).toNat = bytes.len := by
      rw [BitVec.toNat_add, k16 4 (by omega), num 4 _ (by omega) hw.plen]
      have : B.length = 40 + 20 + opts.length + data.length := hl
      show (40 + (20 + opts.length + data.length)) % 65536 = _
      omega
    have e3 : u8at W 6 = 6 := (k8 6 (by omega)).trans (oct 6 _ (by omega) hw.next)
    apply Exists.intro
    apply And.intro
    · intro lv
      rw [New_eq hv, hW, if_neg (by omega), if_neg hne, parseIPv6_eq hv lv (by omega) (by omega), hW, (hchk lv _ ht).1]
      simp only
      rw [if_neg (hchk lv _ ht).2, htr _ rfl rfl e3 ht]
      rfl
    · exact ⟨rfl, rfl, e3⟩

/-- C151. Every complete TCP packet (of fewer than 65536 bytes) is accepted, whatever slice holds it, as the same packet whether or not lengths are
validated, and the packet returned says of it exactly what it is. -/
theorem C151_complete_packet_read {h : Heap} {bytes : Slice} (hv : bytes.Valid h) (c : U64) (m : List Char) {v : IPver}
    {src dst : List Byte} {sp dp seq ack : Nat} {flags : Byte} {opts data : List Byte}
    (hw : TcpWire v (h.bytes bytes) src dst sp dp seq ack flags opts data)
    (hf : FirstByte v (h.bytes bytes)) (hn : bytes.len < 65536) :
    ∃ p, (∀ lv, New h c bytes m lv = .ok (some p, none)) ∧
      TcpReads h p v (h.bytes bytes) src dst sp dp seq ack flags opts data ∧ p.buffer = bytes := by
  obtain ⟨p, ha, hb, hver, hp⟩ := tcp_accepted hv c m hw hf hn
  refine ⟨p, ha, ?_, hb⟩
  have ht := ha true
  have hi := accepted_inv hv ht hp hn
  have W := hi.onWire
  have hs := hw.seg
  have hbl := Heap.bytes_length hv
  rw [hb] at W
  have hH : p.IPHeaderLen.toNat = hdrLen v := by
    rcases hi.hdr.nat with ⟨e1, e2⟩ | ⟨e1, e2⟩ <;> rw [hver] at e1 <;> subst e1 <;> exact e2
  have same : ∀ {α : Type} {x : Option α} {a b : α}, x = some a → x = some b → a = b := by
    intro α x a b e1 e2
    rw [e1] at e2
    exact Option.some.inj e2
  obtain ⟨t1, t2, t3, t4, ⟨d, t5, t5'⟩, t6, _⟩ := W.transport.tcp hp
  rw [hH] at t1 t2 t3 t4 t5 t6
  obtain ⟨b, o1, o2⟩ := hs.offset
  have hst : p.TCPDataStartBytes.toNat = 20 + opts.length := by
    rw [t5', same t5 o1, o2]
  have hlen := hs.length
  have hroom : p.IPHeaderLen.toNat + p.TCPDataStartBytes.toNat ≤ p.buffer.len := by
    rw [hH, hst, hb, ← hbl, hlen]; omega
  obtain ⟨q1, s, q2, q3⟩ := (C71_payload hv ht hp hn).1 hroom
  have hcut : hdrLen v + (20 + opts.length) = hdrLen v + 20 + opts.length := by omega
  rw [hH, hst, hb, hcut, hs.payload] at q1 q3
  obtain ⟨e, a1, a2⟩ := C62_auth_option hv ht hp hn
  rw [hH, hst, hb, Nat.add_sub_cancel_left, hs.options] at a2
  have p1 := same t1 hs.sport
  have p2 := same t2 hs.dport
  have addr : p.SourceAddress = src ∧ p.DestinationAddress = dst := by
    cases v with
    | V4 =>
      obtain ⟨_, _, _, w4, w5⟩ := W.ip4 hver
      exact ⟨w4.symm.trans hw.source, w5.symm.trans hw.dest⟩
    | V6 =>
      obtain ⟨_, _, w4, w5⟩ := W.ip6 hver
      exact ⟨w4.symm.trans hw.source, w5.symm.trans hw.dest⟩
  have tot : p.IPTotalLen.toNat = (h.bytes bytes).length := by
    cases v with
    | V4 => exact same (W.ip4 hver).1 hw.total
    | V6 =>
      obtain ⟨⟨n, w1, w2⟩, _⟩ := W.ip6 hver
      have hlen : (h.bytes bytes).length = 40 + 20 + opts.length + data.length := hlen
      have := same w1 hw.plen
      omega
  refine ⟨hver, addr.1, addr.2, hp, p1, p2, same t3 hs.seqno, same t4 hs.ackno, same t6 hs.flag, tot, hst, ?_, q1, ⟨s, q2, q3⟩, ⟨e, a1, ?_⟩, ?_, ?_⟩
  · rw [hH, hst]; omega
  · rw [a2]
    refine ⟨fun x => x.2, fun x => ⟨?_, x⟩⟩
    omega
  · refine ⟨tail bytes 0, ?_, ?_⟩
    · unfold Packet.GetBuffer
      rw [hb, from_eq hv, if_pos (Nat.zero_le _)]
    · rw [bytes_tail, List.drop_zero]
  · show p.l4flowhash = _
    rw [hi.hash]
    unfold Packet.computeL4FlowHash
    rw [show p.sourceAddress = src from addr.1, show p.destinationAddress = dst from addr.2, p1, p2]

/-! ### C152 -/

theorem accepted_first_tcp {h : Heap} {bytes : Slice} (hv : bytes.Valid h) {c : U64} {m : List Char}
    {lv : Bool} {p : Packet} (ha : New h c bytes m lv = .ok (some p, none)) (ht : p.IPProto = 6) (hl : 0 < p.buffer.len) :
    FirstByte p.version (h.bytes p.buffer) := by
  obtain ⟨hbv, _, _, _, _, _, _, hwin, hle, _⟩ := accepted_tcp hv ha ht
  have hb : h.bytes p.buffer = (window h bytes).take p.buffer.len := by
    rw [bytes_eq_window hbv, hwin]
  have hw := window_length hv
  have hc := hv.1
  have h0 : (h.bytes p.buffer)[0]? = some (u8at (window h bytes) 0) := by
    rw [hb, List.getElem?_take, if_pos hl, u8at_some (by omega)]
  rcases New_accept hv ha with ⟨_, h45, b, _, hacc⟩ | ⟨_, _, hne, b, _, hacc⟩
  · have e : p.version = .V4 := by cases hacc <;> rfl
    rw [e]
    show (h.bytes p.buffer)[0]? = some 0x45
    rw [h0, h45]
  · have e : p.version = .V6 := by
      rcases hacc with ⟨_, hacc⟩ | ⟨_, _, _, hacc⟩ <;> cases hacc <;> rfl
    rw [e]
    exact ⟨_, h0, hne⟩

/-- Detaching writes the data offset and clears the four bits beside it. -/
theorem detach_offByte {h h' : Heap} {p p' : Packet} {o : U16} (hd : DetachOk h p o) (e : TCPDataDetach h p o = .ok (h', p')) :
    u8at (window h' p.buffer) (p.ipHeaderLen.toNat + 12) = p'.tcpDataOffset.shiftLeft 4 := by
  rw [Detach_eq hd] at e
  simp only [Res.ok.injEq, Prod.mk.injEq] at e
  obtain ⟨rfl, rfl⟩ := e
  have hs := detachedBytes_same hd
  have hwl := window_length hd.buf
  have hc := hd.buf.1
  have h1 := hd.inb
  have h2 := hd.opt
  have hn := hd.hdr.nat
  rw [window_put hd.buf (hs.1.trans hwl)]
  unfold detachedBytes
  have s2 := fixedBytes_same (p := cutHdr p o) (W := splice (window h p.buffer) (p.ipHeaderLen.toNat + 12)
    [(p.tcpDataOffset - (o / 4).setWidth 8).shiftLeft 4]) (by rw [splice_length _ _ _ (by rw [List.length_singleton]; omega)]; omega)
    p.ipTotalLength (p.ipTotalLength - cutLen p o)
  rw [s2.u8 (fun hx => by have := LenField.lt hx; omega), u8at_splice_same]
  · rfl
  · omega

/-- Two packets whose headers differ at most in the length fields, the IPv4 header checksum and the data offset byte, with right checksums, the same
length and the same data offset byte, are the same. -/
theorem same_headers {v : IPver} {o : Nat} {a b : List Byte} (hs : SameExcept (fun i => LenField v i ∨ i = o + 12) a b) (hl : 20 ≤ a.length)
    (h4 : v = .V4 → ipv4ChecksumOk a ∧ ipv4ChecksumOk b ∧ be16 a 2 = be16 b 2) (h6 : v = .V6 → be16 a 4 = be16 b 4)
    (ho : u8at a (o + 12) = u8at b (o + 12)) : a = b := by
  have hlb := hs.1
  have h16 : ∀ i, i + 2 ≤ a.length → be16 a i = be16 b i → u8at a i = u8at b i ∧ u8at a (i + 1) = u8at b (i + 1) := by
    intro i hi e
    rw [be16_u16at hi, be16_u16at (by omega)] at e
    exact u16at_inj (BitVec.eq_of_toNat_eq (Option.some.inj e))
  have rest : ∀ i, ¬ LenField v i → u8at a i = u8at b i := by
    intro i hx
    by_cases h12 : i = o + 12
    · rw [h12]; exact ho
    · exact hs.u8 (fun hp => hp.elim hx h12)
  apply ext_u8at hlb
  intro i _
  by_cases hx : LenField v i
  · cases v with
    | V4 =>
      obtain ⟨c1, c2, e2⟩ := h4 rfl
      have e2' := h16 2 (by omega) e2
      have hz : zeroed a = zeroed b := by
        refine zeroed_congr hlb hl (fun j hj hn10 hn11 => ?_)
        by_cases hy : LenField .V4 j
        · have hy' : j = 2 ∨ j = 3 ∨ j = 10 ∨ j = 11 := hy
          rcases hy' with rfl | rfl | hy' | hy'
          · exact e2'.1
          · exact e2'.2
          · exact absurd hy' hn10
          · exact absurd hy' hn11
        · exact rest j hy
      have e10 : be16 a 10 = be16 b 10 := by
        rw [show be16 a 10 = _ from c1, show be16 b 10 = _ from c2, ipv4HeaderChecksum_eq, ipv4HeaderChecksum_eq, hz]
      have e10' := h16 10 (by omega) e10
      have hx' : i = 2 ∨ i = 3 ∨ i = 10 ∨ i = 11 := hx
      rcases hx' with rfl | rfl | rfl | rfl
      · exact e2'.1
      · exact e2'.2
      · exact e10'.1
      · exact e10'.2
    | V6 =>
      have e4' := h16 4 (by omega) (h6 rfl)
      have hx' : i = 4 ∨ i = 5 := hx
      rcases hx' with rfl | rfl
      · exact e4'.1
      · exact e4'.2
  · exact rest i hx

theorem be16_congr {a b : List Byte} {i : Nat} (h : ∀ j, i ≤ j → j < i + 2 → a[j]? = b[j]?) : be16 a i = be16 b i := by
  unfold be16 num16
  rw [h i (by omega) (by omega), h (i + 1) (by omega) (by omega)]

theorem be32_congr {a b : List Byte} {i : Nat} (h : ∀ j, i ≤ j → j < i + 4 → a[j]? = b[j]?) : be32 a i = be32 b i := by
  unfold be32 num32
  rw [h i (by omega) (by omega), h (i + 1) (by omega) (by omega), h (i + 2) (by omega) (by omega), h (i + 3) (by omega) (by omega)]

theorem part_congr {a b : List Byte} {i n : Nat} (h : ∀ j, i ≤ j → j < i + n → a[j]? = b[j]?) : (a.drop i).take n = (b.drop i).take n := by
  apply List.ext_getElem?
  intro j
  rw [List.getElem?_take, List.getElem?_take]
  split
  · rw [List.getElem?_drop, List.getElem?_drop]
    exact h _ (by omega) (by omega)
  · rfl

/-- The options of `p` in front of the last `o` bytes of them. -/
def keptOptions (h : Heap) (p : Packet) (o : U16) : List Byte :=
  ((h.bytes p.buffer).drop (p.IPHeaderLen.toNat + 20)).take (p.TCPDataStartBytes.toNat - 20 - o.toNat)

/-- C152. What one end attaches the other end takes off.  A program takes the last `o` bytes of options and the data off an accepted TCP packet,
drops them and attaches options and data of its own.  Wherever the resulting bytes arrive, they are accepted, with or without validation of lengths;
addresses, ports, numbers and flags are those of the original packet, the options are those kept followed by those attached, the data is the data
attached; and detaching as many bytes of options as were attached gives exactly these options and this data, and leaves, if the header checksum of
the original was right, exactly what the first program had before it attached anything. -/
theorem C152_exchange {h : Heap} {bytes : Slice} (hv : bytes.Valid h) {c : U64} {m : List Char}
    {p : Packet} (ha : New h c bytes m true = .ok (some p, none)) (ht : p.IPProto = 6) (hn : bytes.len < 65536)
    {o : U16} (hd : Detachable p o) (h4 : o.toNat % 4 = 0) (grow : Nat → Nat) :
    ∃ h1 p1, TCPDataDetach h p o = .ok (h1, p1) ∧
    ∀ opts data : Slice, opts.Valid h1 → Foreign h1 p1 data → opts.len % 4 = 0 →
      p1.TCPDataStartBytes.toNat + opts.len ≤ 60 → p1.IPTotalLen.toNat + opts.len + data.len < 65536 →
    ∃ h2 p2, TCPDataAttach grow h1 p1.DropTCPDetachedBytes opts data = .ok (h2, p2, none) ∧
    ∀ (hR : Heap) (s : Slice) (c2 : U64) (m2 : List Char), s.Valid hR → hR.bytes s = p2.GetTCPBytes h2 →
    ∃ q, (∀ lv, New hR c2 s m2 lv = .ok (some q, none)) ∧
      TcpReads hR q p.IPversion (p2.GetTCPBytes h2) p.SourceAddress p.DestinationAddress p.SourcePort.toNat p.DestPort.toNat
        p.tcpSeq.toNat p.tcpAck.toNat p.GetTCPFlags (keptOptions h p o ++ h1.bytes opts) (h1.bytes data) ∧
      ∃ hR' q', TCPDataDetach hR q (BitVec.ofNat 16 opts.len) = .ok (hR', q') ∧
        hR'.bytes q'.GetTCPOptions = h1.bytes opts ∧ hR'.bytes q'.GetTCPData = h1.bytes data ∧
        (ChecksumRight h p → hR'.bytes q'.buffer = h1.bytes p1.buffer) := by
  have hi := accepted_inv hv ha ht hn
  have hdk := Detachable.ok hi hd
  have hfb := accepted_first_tcp hv ha ht (by have := hi.room; omega)
  obtain ⟨h1, p1, e1, hall⟩ := C58_attach_consistent hv ha ht hn hd h4 grow
  obtain ⟨h1', p1', e1', _, _, D3, _, D5, D6, D7, D8, _⟩ := C56_detach_splits hv ha ht hn hd h4
  rw [e1] at e1'
  cases e1'
  obtain ⟨h1', p1', e1', hD⟩ := Detach_full hi hdk
  rw [e1] at e1'
  cases e1'
  refine ⟨h1, p1, e1, fun opts data hov hf hm4 hfit hsz => ?_⟩
  obtain ⟨h2, p2, e2, A1, A2, A3, _, A5, A6, A7, A8, A9⟩ := hall opts data hov hf hm4 hfit hsz
  refine ⟨h2, p2, e2, fun hR s c2 m2 hsv hsb => ?_⟩
  have hOn := hi.onWire
  have hol := Heap.bytes_length hov
  have hdl := Heap.bytes_length hf.1
  have hbl := Heap.bytes_length hi.buf
  obtain ⟨d1, d2, d3⟩ := id hd
  have hge := hi.ge
  have hH : p.IPHeaderLen.toNat = hdrLen p.version := by
    rcases hi.hdr.nat with ⟨g1, g2⟩ | ⟨g1, g2⟩ <;> rw [g1] <;> exact g2
  have hge : 20 ≤ p.IPHeaderLen.toNat := hge.1
  have hkl : (h2.bytes p2.buffer).length = p.IPHeaderLen.toNat + p.TCPDataStartBytes.toNat - o.toNat := by
    rw [A2.1, List.length_take]; omega
  have hkl1 : (h1.bytes p1.buffer).length = p.IPHeaderLen.toNat + p.TCPDataStartBytes.toNat - o.toNat := by
    rw [D3.1, List.length_take]; omega
  have hBl : (p2.GetTCPBytes h2).length = p.IPHeaderLen.toNat + p.TCPDataStartBytes.toNat - o.toNat + opts.len + data.len := by
    rw [A1, List.length_append, List.length_append, hkl, hol, hdl]
  have h64 : (p2.GetTCPBytes h2).length < 65536 := by
    have : p1.IPTotalLen.toNat = _ := D5
    rw [hkl1] at this
    omega
  have low : ∀ i, i < p.IPHeaderLen.toNat + p.TCPDataStartBytes.toNat - o.toNat → (p2.GetTCPBytes h2)[i]? = (h2.bytes p2.buffer)[i]? := by
    intro i hx
    rw [A1, List.append_assoc, List.getElem?_append_left (by omega)]
  have orig : ∀ i, i < p.IPHeaderLen.toNat + p.TCPDataStartBytes.toNat - o.toNat → ¬ LenField p.version i → i ≠ p.IPHeaderLen.toNat + 12 →
      (p2.GetTCPBytes h2)[i]? = (h.bytes p.buffer)[i]? := by
    intro i hx h5 h6
    rw [low i hx, A2.2 i (fun hy => hy.elim h5 h6), List.getElem?_take, if_pos hx]
  have above : ∀ i, 12 ≤ i → ¬ LenField p.version i := fun i hx hy => by have := hy.lt; omega
  obtain ⟨t1, t2, t3, t4, _, t6, _⟩ := hOn.transport.tcp ht
  have hp2 : p2.IPProto = 6 := by
    cases hcase : p.version with
    | V4 =>
      have g1 := (A5.ip4 (A8.trans hcase)).2.2.1
      have g2 := (hOn.ip4 hcase).2.2.1
      have := orig 9 (by omega) (by rw [hcase]; unfold LenField; decide) (by omega)
      rw [low 9 (by omega), g1, g2] at this
      rw [Option.some.inj this]; exact ht
    | V6 =>
      have g1 := (A5.ip6 (A8.trans hcase)).2.1
      have g2 := (hOn.ip6 hcase).2.1
      have := orig 6 (by omega) (by rw [hcase]; unfold LenField; decide) (by omega)
      rw [low 6 (by omega), g1, g2] at this
      rw [Option.some.inj this]; exact ht
  obtain ⟨_, _, _, _, ⟨d, t5, t5'⟩, _, _⟩ := A5.transport.tcp hp2
  rw [A9] at t5
  have hkept : (keptOptions h p o).length = p.TCPDataStartBytes.toNat - 20 - o.toNat := by
    unfold keptOptions
    rw [List.length_take, List.length_drop]
    omega
  have hcut : p.IPHeaderLen.toNat + 20 + (p.TCPDataStartBytes.toNat - 20 - o.toNat)
      = p.IPHeaderLen.toNat + p.TCPDataStartBytes.toNat - o.toNat := by omega
  have hseg : Segment (p2.GetTCPBytes h2) p.IPHeaderLen.toNat p.SourcePort.toNat p.DestPort.toNat p.tcpSeq.toNat p.tcpAck.toNat p.GetTCPFlags
      (keptOptions h p o ++ h1.bytes opts) (h1.bytes data) := by
    refine ⟨?_, ?_, ?_, ?_, ?_, ⟨d, ?_, ?_⟩, ?_, ?_, ?_⟩
    · rw [hBl, List.length_append, hkept, hol, hdl]; omega
    · rw [← t1]
      exact be16_congr (fun j _ _ => orig j (by omega) (above j (by omega)) (by omega))
    · rw [← t2]
      exact be16_congr (fun j _ _ => orig j (by omega) (above j (by omega)) (by omega))
    · rw [← t3]
      exact be32_congr (fun j _ _ => orig j (by omega) (above j (by omega)) (by omega))
    · rw [← t4]
      exact be32_congr (fun j _ _ => orig j (by omega) (above j (by omega)) (by omega))
    · rw [low _ (by omega), t5]
    · rw [← t5', A7, D6, List.length_append, hkept, hol]; omega
    · rw [← t6]
      exact orig _ (by omega) (above _ (by omega)) (by omega)
    · rw [List.length_append, hkept, hol, List.take_add, List.drop_drop, hcut]
      congr 1
      · exact part_congr (fun j _ _ => orig j (by omega) (above j (by omega)) (by omega))
      · rw [A1, List.append_assoc, ← hkl, List.drop_left', List.take_left' hol]
        rfl
    · rw [List.length_append, hkept, hol, ← Nat.add_assoc, hcut, A1, List.drop_left']
      rw [List.length_append, hkl, hol]
  have hw : TcpWire p.version (p2.GetTCPBytes h2) p.SourceAddress p.DestinationAddress p.SourcePort.toNat p.DestPort.toNat
      p.tcpSeq.toNat p.tcpAck.toNat p.GetTCPFlags (keptOptions h p o ++ h1.bytes opts) (h1.bytes data) := by
    rw [hH] at hseg
    cases hcase : p.version with
    | V4 =>
      rw [hcase] at hseg
      obtain ⟨g1, _, g2, g3, g4⟩ := hOn.ip4 hcase
      refine ⟨?_, ?_, ?_, ?_, hseg⟩
      · rw [← A3, ← (A5.ip4 (A8.trans hcase)).1]
        exact be16_congr (fun j _ _ => low j (by omega))
      · rw [orig 9 (by omega) (by rw [hcase]; unfold LenField; decide) (by omega), g2, ht]
      · rw [← g3]
        exact part_congr (fun j _ _ => orig j (by omega) (above j (by omega)) (by omega))
      · rw [← g4]
        exact part_congr (fun j _ _ => orig j (by omega) (above j (by omega)) (by omega))
    | V6 =>
      rw [hcase] at hseg hH
      have hH : p.IPHeaderLen.toNat = 40 := hH
      obtain ⟨_, g2, g3, g4⟩ := hOn.ip6 hcase
      obtain ⟨⟨n, k1, k2⟩, _⟩ := A5.ip6 (A8.trans hcase)
      have hb16 : be16 (p2.GetTCPBytes h2) 4 = some n := by
        rw [← k1]
        exact be16_congr (fun j _ _ => low j (by omega))
      have hn64 : n < 65536 := by
        rw [be16_u16at (by omega)] at hb16
        have := (u16at (p2.GetTCPBytes h2) 4).isLt
        have := Option.some.inj hb16
        omega
      have hslen : (p2.GetTCPBytes h2).length = 40 + 20 + (keptOptions h p o ++ h1.bytes opts).length + (h1.bytes data).length := hseg.length
      have above6 : ∀ i, 6 ≤ i → ¬ LenField p.version i := by
        intro i hx hy
        rw [hcase] at hy
        have hy : i = 4 ∨ i = 5 := hy
        omega
      refine ⟨?_, ?_, ?_, ?_, hseg⟩
      · rw [hb16]
        congr 1
        rw [A3] at k2
        omega
      · rw [orig 6 (by omega) (above6 6 (by omega)) (by omega), g2, ht]
      · rw [← g3]
        exact part_congr (fun j _ _ => orig j (by omega) (above6 j (by omega)) (by omega))
      · rw [← g4]
        exact part_congr (fun j _ _ => orig j (by omega) (above6 j (by omega)) (by omega))
  have hfb' : FirstByte p.version (p2.GetTCPBytes h2) := by
    unfold FirstByte at hfb ⊢
    rw [orig 0 (by omega) (by unfold LenField; cases p.version <;> decide) (by omega)]
    exact hfb
  have hsl : s.len < 65536 := by rw [← Heap.bytes_length hsv, hsb]; exact h64
  rw [← hsb] at hw hfb'
  obtain ⟨q, n1, n2, n3⟩ := C151_complete_packet_read hsv c2 m2 hw hfb' hsl
  refine ⟨q, n1, by rw [← hsb]; exact n2, ?_⟩
  have hqb : hR.bytes q.buffer = p2.GetTCPBytes h2 := by rw [n3, hsb]
  have hql : q.buffer.len = (p2.GetTCPBytes h2).length := by rw [n3, ← hsb, Heap.bytes_length hsv]
  have hqi := accepted_inv hsv (n1 true) n2.proto hsl
  have hqv : q.version = p.version := n2.version
  have hqH : q.IPHeaderLen.toNat = p.IPHeaderLen.toNat := by
    rw [hH, ← hqv]
    rcases hqi.hdr.nat with ⟨g1, g2⟩ | ⟨g1, g2⟩ <;> rw [g1] <;> exact g2
  have hqs := n2.start
  rw [List.length_append, hkept, hol] at hqs
  have hon : (BitVec.ofNat 16 opts.len).toNat = opts.len := ofNat16_toNat (by omega)
  have hqd : Detachable q (BitVec.ofNat 16 opts.len) := by
    refine ⟨?_, ?_, ?_⟩
    · rw [hon, hqs]; omega
    · rw [hqs, hqH, hql, hBl]; omega
    · rw [hql]; omega
  obtain ⟨hR', q', k1, k2, k3, k4, _, k5, k6, k7, k8, _⟩ := C56_detach_splits hsv (n1 true) n2.proto hsl hqd (by rw [hon]; exact hm4)
  have hqk := Detachable.ok hqi hqd
  obtain ⟨hR2, q2, k1', hqD⟩ := Detach_full hqi hqk
  rw [k1] at k1'
  cases k1'
  have hc1 : p.IPHeaderLen.toNat + (20 + (p.TCPDataStartBytes.toNat - 20 - o.toNat + opts.len))
      = p.IPHeaderLen.toNat + p.TCPDataStartBytes.toNat - o.toNat + opts.len := by omega
  rw [hqs, hqH, hqb, hon, hc1] at k3 k4
  rw [hqs, hqH, hqb, hc1] at k2
  rw [Nat.add_sub_cancel] at k3 k4
  refine ⟨hR', q', k1, ?_, ?_, fun hcs => ?_⟩
  · rw [k3, A1, List.append_assoc, ← hkl, List.drop_left', List.take_left' hol]
    rfl
  · rw [k2, A1, List.drop_left']
    rw [List.length_append, hkl, hol]
  · have htk : (p2.GetTCPBytes h2).take (p.IPHeaderLen.toNat + p.TCPDataStartBytes.toNat - o.toNat) = h2.bytes p2.buffer := by
      rw [A1, List.append_assoc, List.take_left' hkl]
    rw [htk] at k4
    have k4 : SameExcept (fun i => LenField q.version i ∨ i = p.IPHeaderLen.toNat + 12) (hR'.bytes q'.buffer) (h2.bytes p2.buffer) := k4
    rw [hqv] at k4
    have hsame := (k4.trans A2).trans D3.symm
    have hlq : (hR'.bytes q'.buffer).length = (h1.bytes p1.buffer).length := hsame.1
    refine same_headers hsame (by rw [hlq, hkl1]; omega) ?_ ?_ ?_
    · intro hv4
      have hq4 : q'.IPversion = .V4 := hqD.ver.trans (hqv.trans hv4)
      have hp4 : p1.IPversion = .V4 := hD.ver.trans hv4
      refine ⟨k8 ?_ hq4, D8 hcs hp4, ?_⟩
      · intro hq
        show ipv4ChecksumOk (hR.bytes q.buffer)
        have hc2 := A6 hcs (A8.trans hv4)
        rw [hqb, A1]
        unfold ipv4ChecksumOk at hc2 ⊢
        unfold ipv4HeaderChecksum at hc2 ⊢
        rw [List.append_assoc, List.take_append_of_le_length (by omega), ← hc2]
        exact be16_congr (fun j _ _ => by rw [List.getElem?_append_left (by omega)])
      · rw [(k7.ip4 hq4).1, (D7.ip4 hp4).1, k5, D5, hlq]
    · intro hv6
      have hq6 : q'.IPversion = .V6 := hqD.ver.trans (hqv.trans hv6)
      have hp6 : p1.IPversion = .V6 := hD.ver.trans hv6
      obtain ⟨⟨n, w1, w2⟩, _⟩ := k7.ip6 hq6
      obtain ⟨⟨n', w1', w2'⟩, _⟩ := D7.ip6 hp6
      rw [w1, w1']
      have lim : ∀ (l : List Byte) (x : Nat), be16 l 4 = some x → 6 ≤ l.length → x < 65536 := by
        intro l x hx hl
        rw [be16_u16at (by omega)] at hx
        have := (u16at l 4).isLt
        have := Option.some.inj hx
        omega
      have := lim _ _ w1 (by omega)
      have := lim _ _ w1' (by omega)
      rw [k5, hlq] at w2
      rw [D5] at w2'
      congr 1
      omega
    · have b1 := detach_offByte hqk k1
      have b2 := detach_offByte hdk e1
      have f1 : u8at (hR'.bytes q'.buffer) (p.IPHeaderLen.toNat + 12) = q'.tcpDataOffset.shiftLeft 4 := by
        rw [← b1, bytes_eq_window hqD.inv.buf, u8at_take (by rw [← Heap.bytes_length hqD.inv.buf, hlq, hkl1]; omega), hqD.buf]
        show _ = u8at _ (q.IPHeaderLen.toNat + 12)
        rw [hqH]
        rfl
      have f2 : u8at (h1.bytes p1.buffer) (p.IPHeaderLen.toNat + 12) = p1.tcpDataOffset.shiftLeft 4 := by
        rw [← b2, bytes_eq_window hD.inv.buf, u8at_take (by rw [← Heap.bytes_length hD.inv.buf, hkl1]; omega), hD.buf]
        rfl
      rw [f1, f2]
      congr 1
      apply BitVec.eq_of_toNat_eq
      have g1 := hqD.inv.dataStart
      have g2 := hD.inv.dataStart
      rw [k6, hqs, hon] at g1
      rw [D6] at g2
      omega

/-- Detaching nothing from a packet without data leaves it as it was, if its header checksum is right and the bits beside its data offset are
clear. -/
theorem detach_nothing {h : Heap} {bytes : Slice} (hv : bytes.Valid h) {c : U64} {m : List Char}
    {p : Packet} (ha : New h c bytes m true = .ok (some p, none)) (ht : p.IPProto = 6) (hn : bytes.len < 65536)
    (hd : Detachable p 0) (he : p.IsEmptyTCPPayload = true) (hcs : ChecksumRight h p)
    (hres : ∃ b, (h.bytes p.buffer)[p.IPHeaderLen.toNat + 12]? = some b ∧ b.toNat % 16 = 0)
    {h1 : Heap} {p1 : Packet} (e1 : TCPDataDetach h p 0 = .ok (h1, p1)) : h1.bytes p1.buffer = h.bytes p.buffer := by
  have hi := accepted_inv hv ha ht hn
  have hdk := Detachable.ok hi hd
  have hbl := Heap.bytes_length hi.buf
  have hOn := hi.onWire
  obtain ⟨d1, d2, d3⟩ := id hd
  obtain ⟨_, _, _, _, _, _, _, _, _, _, h11⟩ := accepted_tcp hv ha ht
  have htot := (h11 rfl hn).1
  obtain ⟨h1', p1', e1', _, _, D3, _, D5, D6, D7, D8, _⟩ := C56_detach_splits hv ha ht hn hd (by decide)
  rw [e1] at e1'
  cases e1'
  obtain ⟨h1', p1', e1', hD⟩ := Detach_full hi hdk
  rw [e1] at e1'
  cases e1'
  have hnil := ((C71_payload hv ha ht hn).1 d2).1.mp he
  have hall : (h.bytes p.buffer).take (p.IPHeaderLen.toNat + p.TCPDataStartBytes.toNat - (0 : U16).toNat) = h.bytes p.buffer := by
    apply List.take_of_length_le
    exact List.drop_eq_nil_iff.mp hnil
  rw [hall] at D3
  have hg : 20 ≤ p.IPHeaderLen.toNat := hi.ge.1
  have hr := hi.room
  have hlen := D3.1
  have htot' : p.IPTotalLen.toNat = (h.bytes p.buffer).length := by rw [hbl]; exact htot.symm
  refine same_headers D3 (by rw [hlen]; omega) ?_ ?_ ?_
  · intro hv4
    have hp4 : p1.IPversion = .V4 := hD.ver.trans hv4
    exact ⟨D8 hcs hp4, hcs hv4, by rw [(D7.ip4 hp4).1, (hOn.ip4 hv4).1, D5, hlen, htot']⟩
  · intro hv6
    have hp6 : p1.IPversion = .V6 := hD.ver.trans hv6
    obtain ⟨⟨n, w1, w2⟩, _⟩ := D7.ip6 hp6
    obtain ⟨⟨n', w1', w2'⟩, _⟩ := hOn.ip6 hv6
    have hH : p.IPHeaderLen.toNat = 40 := by
      rcases hi.hdr.nat with ⟨g1, _⟩ | ⟨_, g2⟩
      · rw [show p.version = .V6 from hv6] at g1; cases g1
      · exact g2
    have lim : ∀ (l : List Byte) (x : Nat), be16 l 4 = some x → 6 ≤ l.length → x < 65536 := by
      intro l x hx hl
      rw [be16_u16at (by omega)] at hx
      have := (u16at l 4).isLt
      have := Option.some.inj hx
      omega
    have := lim _ _ w1 (by omega)
    have := lim _ _ w1' (by omega)
    rw [w1, w1']
    rw [D5, hlen] at w2
    rw [htot'] at w2'
    congr 1
    omega
  · obtain ⟨b, hb1, hb2⟩ := hres
    have f2 : u8at (h1.bytes p1.buffer) (p.IPHeaderLen.toNat + 12) = p1.tcpDataOffset.shiftLeft 4 := by
      rw [← detach_offByte hdk e1, bytes_eq_window hD.inv.buf, u8at_take (by rw [← Heap.bytes_length hD.inv.buf, hlen]; omega), hD.buf]
      rfl
    have hb1' := hb1
    rw [u8at_some (by omega)] at hb1'
    have hb1' := Option.some.inj hb1'
    have hoff : p1.tcpDataOffset = b >>> 4 := by
      obtain ⟨_, _, _, _, ⟨d, t5, t5'⟩, _, _⟩ := hOn.transport.tcp ht
      rw [hb1] at t5
      cases Option.some.inj t5
      apply BitVec.eq_of_toNat_eq
      have g2 := hD.inv.dataStart
      rw [D6, t5'] at g2
      rw [BitVec.toNat_ushiftRight, Nat.shiftRight_eq_div_pow]
      have : (0 : U16).toNat = 0 := rfl
      omega
    rw [f2, hoff, nibble_back b hb2, hb1']

/-- C152, a token on a packet without data (a connection request, say): attached by one end and taken off by the other, it leaves the original packet,
byte for byte. -/
theorem C152_original_recovered {h : Heap} {bytes : Slice} (hv : bytes.Valid h) {c : U64} {m : List Char}
    {p : Packet} (ha : New h c bytes m true = .ok (some p, none)) (ht : p.IPProto = 6) (hn : bytes.len < 65536)
    (hd : Detachable p 0) (he : p.IsEmptyTCPPayload = true) (hcs : ChecksumRight h p)
    (hres : ∃ b, (h.bytes p.buffer)[p.IPHeaderLen.toNat + 12]? = some b ∧ b.toNat % 16 = 0) (grow : Nat → Nat) :
    ∃ h1 p1, TCPDataDetach h p 0 = .ok (h1, p1) ∧
    ∀ opts data : Slice, opts.Valid h1 → Foreign h1 p1 data → opts.len % 4 = 0 →
      p1.TCPDataStartBytes.toNat + opts.len ≤ 60 → p1.IPTotalLen.toNat + opts.len + data.len < 65536 →
    ∃ h2 p2, TCPDataAttach grow h1 p1.DropTCPDetachedBytes opts data = .ok (h2, p2, none) ∧
    ∀ (hR : Heap) (s : Slice) (c2 : U64) (m2 : List Char) (lv : Bool), s.Valid hR → hR.bytes s = p2.GetTCPBytes h2 →
    ∃ q hR' q', New hR c2 s m2 lv = .ok (some q, none) ∧ TCPDataDetach hR q (BitVec.ofNat 16 opts.len) = .ok (hR', q') ∧
      hR'.bytes q'.GetTCPOptions = h1.bytes opts ∧ hR'.bytes q'.GetTCPData = h1.bytes data ∧
      q'.DropTCPDetachedBytes.GetTCPBytes hR' = h.bytes p.buffer := by
  obtain ⟨h1, p1, e1, hall⟩ := C152_exchange hv ha ht hn hd (by decide) grow
  refine ⟨h1, p1, e1, fun opts data a1 a2 a3 a4 a5 => ?_⟩
  obtain ⟨h2, p2, e2, P⟩ := hall opts data a1 a2 a3 a4 a5
  refine ⟨h2, p2, e2, fun hR s c2 m2 lv hsv hsb => ?_⟩
  obtain ⟨q, n1, _, hR', q', k1, k2, k3, k4⟩ := P hR s c2 m2 hsv hsb
  refine ⟨q, hR', q', n1 lv, k1, k2, k3, ?_⟩
  have : q'.DropTCPDetachedBytes.GetTCPBytes hR' = hR'.bytes q'.buffer := by
    show hR'.bytes q'.buffer ++ hR'.bytes Slice.nil ++ hR'.bytes Slice.nil = _
    have : hR'.bytes Slice.nil = [] := by
      apply List.length_eq_zero_iff.mp
      rw [Heap.bytes_length (nil_valid hR')]
      rfl
    rw [this, List.append_nil, List.append_nil]
  rw [this, k4 hcs]
  exact detach_nothing hv ha ht hn hd he hcs hres e1

/-! ### Concrete cases -/

/-- C151 applies to the packet of `exHeap`: an authentication option and eight bytes from 10.0.0.1:1234 to 10.0.0.2:80. -/
theorem C151_example : ∃ p, New exHeap 3 ⟨0, 0, 52, 52⟩ ['m'] false = .ok (some p, none) ∧ p.SourcePort.toNat = 1234 ∧ p.DestPort.toNat = 80 ∧
    p.CheckTCPAuthenticationOption exHeap = .ok none ∧ ∃ d, p.ReadTCPData = .ok d ∧ exHeap.bytes d = [65, 66, 67, 68, 69, 70, 71, 72] := by
  have hw : TcpWire .V4 (exHeap.bytes ⟨0, 0, 52, 52⟩) [10, 0, 0, 1] [10, 0, 0, 2] 1234 80 1 2 24 [34, 4, 9, 9]
      [65, 66, 67, 68, 69, 70, 71, 72] := by
    refine ⟨?_, ?_, ?_, ?_, ?_, ?_, ?_, ?_, ?_, ⟨0x60, ?_, ?_⟩, ?_, ?_, ?_⟩ <;> decide +kernel
  obtain ⟨p, e, R, _⟩ := C151_complete_packet_read ex_valid 3 ['m'] hw (by show _ = _; decide +kernel) (by decide)
  obtain ⟨r, r1, r2⟩ := R.auth
  have : r = none := r2.mpr ⟨0, .start, rfl⟩
  exact ⟨p, e false, R.sport, R.dport, by rw [r1, this], R.payload⟩

/-- C152 applies to it: the option taken off and four other bytes attached, with the packet's own data; the peer (here reading the bytes at another
place) takes off these four bytes and the data. -/
theorem C152_example (grow : Nat → Nat) : ∃ h1 p1 h2 p2, TCPDataDetach exHeap exPacket 4 = .ok (h1, p1) ∧
    TCPDataAttach grow h1 p1.DropTCPDetachedBytes ⟨1, 0, 4, 4⟩ p1.GetTCPData = .ok (h2, p2, none) ∧
    ∃ q hR' q', New ⟨[p2.GetTCPBytes h2]⟩ 0 ⟨0, 0, (p2.GetTCPBytes h2).length, (p2.GetTCPBytes h2).length⟩ [] true = .ok (some q, none) ∧
      TCPDataDetach ⟨[p2.GetTCPBytes h2]⟩ q 4 = .ok (hR', q') ∧ hR'.bytes q'.GetTCPOptions = [1, 2, 3, 4] ∧
      hR'.bytes q'.GetTCPData = [65, 66, 67, 68, 69, 70, 71, 72] ∧ hR'.bytes q'.buffer = h1.bytes p1.buffer := by
  have hi := accepted_inv ex_valid ex_accepted rfl (by decide)
  obtain ⟨h1, p1, e1, hall⟩ := C152_exchange ex_valid ex_accepted rfl (by decide) ex_detachable.1 (by decide) grow
  have hdk := Detachable.ok hi ex_detachable.1
  obtain ⟨h1', p1', e1', hD⟩ := Detach_full hi hdk
  rw [e1] at e1'
  cases e1'
  have hl : h1.arrayOf 1 = exHeap.arrayOf 1 := by
    apply List.ext_getElem?
    intro i
    exact hD.mem.2 1 i (fun hx => absurd hx.1 (by decide))
  have hov : (⟨1, 0, 4, 4⟩ : Slice).Valid h1 := by
    unfold Slice.Valid
    rw [hl]; decide
  have hob : h1.bytes ⟨1, 0, 4, 4⟩ = [1, 2, 3, 4] := by
    unfold Heap.bytes
    rw [hl]; decide
  have hb : p1.buffer = ⟨0, 0, 40, 52⟩ := by rw [hD.buf]; decide
  have hdd : p1.tcpData = ⟨0, 44, 8, 8⟩ := by rw [hD.data]; decide
  have hdb : h1.bytes p1.tcpData = [65, 66, 67, 68, 69, 70, 71, 72] := by
    rw [(hD.bytes hi hdk rfl rfl).1]; decide
  have hh : p1.ipHeaderLen = 20 := hD.hlen
  have ho : p1.tcpDataOffset.toNat = 5 := by rw [hD.off]; decide
  have ht : p1.ipTotalLength = 40 := by rw [hD.tot]; decide
  have hf : Foreign h1 p1 p1.GetTCPData := by
    refine ⟨hD.inv.data, .inr (.inr ?_)⟩
    show p1.buffer.off + p1.ipHeaderLen.toNat + 20 ≤ p1.tcpData.off
    rw [hb, hdd, hh]; decide
  obtain ⟨h2, p2, e2, P⟩ := hall ⟨1, 0, 4, 4⟩ p1.GetTCPData hov hf (by decide)
    (by rw [hD.inv.dataStart, ho]; decide)
    (by show p1.ipTotalLength.toNat + 4 + p1.tcpData.len < 65536; rw [ht, hdd]; decide)
  refine ⟨h1, p1, h2, p2, e1, e2, ?_⟩
  generalize p2.GetTCPBytes h2 = B at *
  obtain ⟨q, n1, _, hR', q', k1, k2, k3, k4⟩ := P ⟨[B]⟩ ⟨0, 0, B.length, B.length⟩ 0 []
    (by unfold Slice.Valid; exact ⟨Nat.le_refl _, by show 0 + B.length ≤ B.length; omega⟩)
    (by show (B.drop 0).take B.length = B; rw [List.drop_zero, List.take_length])
  exact ⟨q, hR', q', n1 true, k1, k2.trans hob, k3.trans hdb, k4 ex_checksum⟩

end Verif.Packet
