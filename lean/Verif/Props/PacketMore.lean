import Verif.Packet.Diag
import Verif.Props.PacketHash
import Verif.Props.PacketAccept
import Verif.Props.PacketExamples
/-! C87-C91, C94-C97: limits of the packet operations, of parsing and of the flow hashes. -/
namespace Verif.Packet
open Verif.Spec

/-! ### C87 -/

/-- C87 is violated. Detaching rewrites the byte that holds the TCP data offset: for every accepted TCP
packet and every allowed cut its low four bits (reserved bits and NS) become 0 on the wire, whatever they
were. -/
theorem C87_reserved_bits_violated {h : Heap} {bytes : Slice} (hv : bytes.Valid h) {c : U64} {m : List Char}
    {p : Packet} (ha : New h c bytes m true = .ok (some p, none)) (ht : p.IPProto = 6) (hn : bytes.len < 65536)
    {o : U16} (hd : Detachable p o) :
    ∃ h' p' b, TCPDataDetach h p o = .ok (h', p') ∧
      (h'.bytes p'.buffer)[p'.IPHeaderLen.toNat + 12]? = some b ∧ b.toNat % 16 = 0 := by
  have hi := accepted_inv hv ha ht hn
  have hk := Detachable.ok hi hd
  have hwl := window_length hk.buf
  have hc := hk.buf.1
  have h1 := hk.inb
  have h2 := hk.opt
  have hg := hi.ge
  have hs := detachedBytes_same hk
  have hi' := hi.detach hk
  refine ⟨_, _, ((p.tcpDataOffset - (o / 4).setWidth 8).shiftLeft 4), Detach_eq hk, ?_, ?_⟩
  · show ((put h p.buffer _).bytes (head p.buffer _))[p.ipHeaderLen.toNat + 12]? = _
    rw [bytes_eq_window (head_valid (put_valid hk.buf (hs.1.trans hwl) hk.buf) (by omega)), window_head,
      window_put hk.buf (hs.1.trans hwl)]
    show ((detachedBytes p (window h p.buffer) o).take (p.ipHeaderLen.toNat + p.tcpDataOffset.toNat * 4 - o.toNat))[p.ipHeaderLen.toNat + 12]? = _
    rw [List.getElem?_take, if_pos (by omega)]
    unfold detachedBytes
    have hl : p.ipHeaderLen.toNat + 12 + [(p.tcpDataOffset - (o / 4).setWidth 8).shiftLeft 4].length
      ≤ (window h p.buffer).length := by rw [List.length_singleton]; omega
    have s1 := splice_same hl
    rw [(fixedBytes_same (p := cutHdr p o) (by rw [s1.1]; omega) _ _).2 _ (fun hx => by have := hx.lt; omega),
      splice_getElem? _ _ _ hl, if_pos (by rw [List.length_singleton]; omega)]
    simp
  · generalize p.tcpDataOffset - (o / 4).setWidth 8 = b
    revert b; decide

/-- C87, non-vacuous: the packet of `exHeap` with reserved bit NS set is accepted and can be cut. -/
theorem C87_example : ∃ p, New ⟨[[69, 0, 0, 44, 0, 7, 0, 0, 64, 6, 0, 0, 10, 0, 0, 1, 10, 0, 0, 2, 4, 210, 0, 80, 0, 0, 0, 1,
      0, 0, 0, 2, 0x61, 24, 1, 0, 0, 0, 0, 0, 34, 4, 9, 9]]⟩ 0 ⟨0, 0, 44, 44⟩ [] true = .ok (some p, none) ∧
    p.IPProto = 6 ∧ Detachable p 4 := by
  refine ⟨_, rfl, ?_⟩
  unfold Detachable
  decide +kernel

/-! ### C88 -/

/-- C88 is violated. `SetTCPFlags` never reaches the wire: for every accepted TCP packet and all flags the
accessor reports the new flags while the bytes to send, and every other accessor, are as before; so
accessor and wire differ for every change. -/
theorem C88_set_flags_violated {h : Heap} {bytes : Slice} (hv : bytes.Valid h) {c : U64} {m : List Char}
    {p : Packet} (ha : New h c bytes m true = .ok (some p, none)) (ht : p.IPProto = 6) (hn : bytes.len < 65536)
    (flags : Byte) (hf : flags ≠ p.GetTCPFlags) :
    (p.SetTCPFlags flags).GetTCPFlags = flags ∧
    (p.SetTCPFlags flags).GetTCPBytes h = p.GetTCPBytes h ∧
    (h.bytes (p.SetTCPFlags flags).buffer)[p.IPHeaderLen.toNat + 13]? = some p.GetTCPFlags ∧
    (∃ b, (h.bytes (p.SetTCPFlags flags).buffer)[p.IPHeaderLen.toNat + 13]? = some b ∧
      b ≠ (p.SetTCPFlags flags).GetTCPFlags) := by
  have hw := ((accepted_inv hv ha ht hn).onWire.transport.tcp ht).2.2.2.2.2.1
  exact ⟨rfl, rfl, hw, ⟨_, hw, fun hx => hf hx.symm⟩⟩

/-- C88, non-vacuous. -/
example : exPacket.GetTCPFlags = 0x18 ∧ (0x11 : Byte) ≠ exPacket.GetTCPFlags := by decide

/-! ### C89 -/

/-- `computeIPv4Checksum` for any header length. -/
theorem computeIPv4_gen {h : Heap} {p : Packet} (hb : p.buffer.Valid h) (h12 : 12 ≤ p.buffer.len)
    (hh : 12 ≤ p.ipHeaderLen.toNat) (hc : p.ipHeaderLen.toNat ≤ p.buffer.cap) :
    computeIPv4Checksum h p =
      .ok (cks (splice ((window h p.buffer).take p.ipHeaderLen.toNat) 10 [0, 0]),
        put h p.buffer (splice (window h p.buffer) 10 (enc16 .big p.ipChecksum))) := by
  have hlt := p.ipHeaderLen.isLt
  generalize hn : p.ipHeaderLen.toNat = n at *
  generalize hW : window h p.buffer = W
  have hl : W.length = p.buffer.cap := by rw [← hW]; exact window_length hb
  unfold computeIPv4Checksum
  have e0 : h = put h p.buffer W := by rw [← hW, put_self]
  conv => lhs; rw [e0]
  rw [wr8_put0 hb hl, if_pos (by simp only [ipv4ChecksumPos]; omega), Res.ok_bind,
    wr8_put0 hb (by rw [splice_length _ _ _ (by simp [ipv4ChecksumPos]; omega)]; exact hl),
    if_pos (by simp only [ipv4ChecksumPos]; omega), Res.ok_bind,
    splice_two (by simp only [ipv4ChecksumPos]; omega), hn, to_eq, if_pos hc, Res.ok_bind]
  have hl2 : (splice W ipv4ChecksumPos [0, 0]).length = p.buffer.cap := by
    rw [splice_length _ _ _ (by simp [ipv4ChecksumPos]; omega)]; exact hl
  have hbytes : (put h p.buffer (splice W ipv4ChecksumPos [0, 0])).bytes (head p.buffer n)
      = splice (W.take n) 10 [0, 0] := by
    rw [bytes_eq_window (head_valid (put_valid hb hl2 hb) hc), window_head, window_put hb hl2]
    show List.take n (splice W 10 [0, 0]) = _
    rw [take_splice_lt (by simp; omega) (by simp; omega)]
  rw [hbytes, checksum_cks (by rw [splice_length _ _ _ (by simp; omega)]; simp; omega), Res.ok_bind,
    wr16_put0 hb hl2, if_pos (by simp only [ipv4ChecksumPos]; omega), Res.ok_bind,
    splice_over (by simp [ipv4ChecksumPos]; omega) (by simp)]
  rfl

/-- An accepted IPv6 packet: no IPv4 checksum, a 40-byte header, a buffer in memory. -/
theorem accepted_v6 {h : Heap} {bytes : Slice} (hv : bytes.Valid h) {c : U64} {m : List Char} {lv : Bool}
    {p : Packet} (ha : New h c bytes m lv = .ok (some p, none)) (h6 : p.IPversion = .V6) :
    p.ipChecksum = 0 ∧ p.ipHeaderLen = 40 ∧ p.buffer.Valid h ∧ window h p.buffer = window h bytes ∧
      40 ≤ p.buffer.cap := by
  have key : ∀ b : Slice, ∀ t, checkedBuf t bytes lv = some b → 40 ≤ bytes.cap →
      b.Valid h ∧ window h b = window h bytes ∧ 40 ≤ b.cap := by
    intro b t hb h40
    obtain ⟨h1, _, h3⟩ := checkedBuf_valid hv hb
    refine ⟨h1, ?_, ?_⟩
    · rw [h3]; rfl
    · rw [h3]; exact h40
  rcases New_accept hv ha with ⟨_, _, b, _, hacc⟩ | ⟨_, h40, _, b, hb, ⟨_, hacc⟩ | ⟨_, _, _, hacc⟩⟩
  · have e : p.version = .V4 := hacc.same_ip.1
    rw [show p.version = .V6 from h6] at e; exact absurd e (by decide)
  · obtain ⟨_, e2, _, _, _, e6, _, _, e9, _⟩ := hacc.same_ip
    refine ⟨e6, e2, ?_⟩
    rw [e9]; exact key b _ hb h40
  · obtain ⟨_, e2, _, _, _, e6, _, _, e9, _⟩ := hacc.same_ip
    refine ⟨e6, e2, ?_⟩
    rw [e9]; exact key b _ hb h40

/-- C89 is violated. `VerifyIPv4Checksum` promises not to modify the packet, but on every accepted IPv6
packet (of any protocol, with or without length validation) it overwrites the third and fourth byte of the source address on the wire with zeros;
`UpdateIPv4Checksum` overwrites them with a checksum.  The accessors still show the old address. -/
theorem C89_ipv6_checksum_violated {h : Heap} {bytes : Slice} (hv : bytes.Valid h) {c : U64} {m : List Char}
    {lv : Bool} {p : Packet} (ha : New h c bytes m lv = .ok (some p, none)) (h6 : p.IPversion = .V6)
    (hr : 24 ≤ p.buffer.len) :
    (∃ b h1, VerifyIPv4Checksum h p = .ok (b, h1) ∧
      ((h1.bytes p.buffer).drop 8).take 16 = patch p.SourceAddress 2 [0, 0] ∧
      (((h1.bytes p.buffer).drop 8).take 16 = p.SourceAddress ↔ be16 p.SourceAddress 2 = some 0)) ∧
    (∃ h2 p2, UpdateIPv4Checksum h p = .ok (h2, p2) ∧ p2.SourceAddress = p.SourceAddress ∧
      ((h2.bytes p2.buffer).drop 8).take 16 = patch p.SourceAddress 2 (enc16 .big p2.ipChecksum)) := by
  obtain ⟨hc0, hl40, hbuf, hwin, hcap⟩ := accepted_v6 hv ha h6
  have hsync : p.IPSync (window h p.buffer) := by rw [hwin]; exact accepted_ipsync hv ha
  have hc := hbuf.1
  have hwl := window_length hbuf
  have h40 : p.ipHeaderLen.toNat = 40 := by rw [hl40]; rfl
  have hsrc : ((window h p.buffer).drop 8).take 16 = p.sourceAddress := hsync.src6 h6
  have hsl : p.sourceAddress.length = 16 := by rw [← hsrc]; simp; omega
  have hcomp := computeIPv4_gen hbuf (by omega) (by omega) (by omega : p.ipHeaderLen.toNat ≤ p.buffer.cap)
  have hput : ∀ W : List Byte, W.length = p.buffer.cap → ∀ x : U16,
      ((W.drop 8).take 16) = p.sourceAddress →
      ((((put h p.buffer (splice W 10 (enc16 .big x))).bytes p.buffer).drop 8).take 16)
        = patch p.sourceAddress 2 (enc16 .big x) := by
    intro W hW x hs
    have hl2 : (splice W 10 (enc16 .big x)).length = p.buffer.cap := by
      rw [splice_length _ _ _ (by simp; omega)]; exact hW
    rw [bytes_put hbuf hl2, part_take (by omega), show (10 : Nat) = 8 + 2 from rfl, drop_splice_lt (by simp; omega),
      take_splice_lt (by simp; omega) (by simp), hs]
    rfl
  generalize hC : cks (splice ((window h p.buffer).take p.ipHeaderLen.toNat) 10 [0, 0]) = C at hcomp
  refine ⟨⟨C == p.ipChecksum, put h p.buffer (splice (window h p.buffer) 10 (enc16 .big p.ipChecksum)), ?_, ?_, ?_⟩,
    ⟨put h p.buffer (splice (window h p.buffer) 10 (enc16 .big C)), { p with ipChecksum := C }, ?_, ?_, ?_⟩⟩
  · unfold VerifyIPv4Checksum
    rw [hcomp]; rfl
  · rw [hput _ hwl _ hsrc, hc0]; rfl
  · rw [hput _ hwl _ hsrc, hc0]
    show splice p.sourceAddress 2 (enc16 .big 0) = p.sourceAddress ↔ be16 p.sourceAddress 2 = some 0
    rw [be16_u16at (i := 2) (by omega)]
    constructor
    · intro hx
      have hu : u16at (splice p.sourceAddress 2 (enc16 .big 0)) 2 = 0 := u16at_splice_same (by omega)
      rw [hx] at hu; rw [hu]; rfl
    · intro hx
      have hz : u16at p.sourceAddress 2 = 0 := BitVec.eq_of_toNat_eq (Option.some.inj hx)
      have hu := splice_u16at (b := p.sourceAddress) (i := 2) (by omega)
      rw [← enc16_u16at, hz] at hu; exact hu
  · unfold UpdateIPv4Checksum
    rw [hcomp, Res.ok_bind]
    have hl2 : (splice (window h p.buffer) 10 (enc16 .big p.ipChecksum)).length = p.buffer.cap := by
      rw [splice_length _ _ _ (by simp; omega)]; exact hwl
    simp only
    rw [wr16_put0 hbuf hl2, if_pos (by simp only [ipv4ChecksumPos]; omega), Res.ok_bind]
    simp only [ipv4ChecksumPos]
    rw [splice_over (by simp; omega) (by simp)]
  · rfl
  · exact hput _ hwl _ hsrc

/-- C89, non-vacuous: the accepted IPv6 packet `zPacket` qualifies. -/
example : zPacket.IPversion = .V6 ∧ 24 ≤ zPacket.buffer.len := by decide

/-! ### C90, C91 -/

/-- The IPv4-mapped IPv6 address of an IPv4 address (RFC 4291, 2.5.5.2). -/
def v4mapped (a : List Byte) : List Byte := [0, 0, 0, 0, 0, 0, 0, 0, 0, 0, 0xff, 0xff] ++ a

theorem hexGroups_colon {a b : Nat} {t : List Nat} : ':' ∈ hexGroups (a :: b :: t) := by
  rw [hexGroups_cons]; simp

theorem ip6Text_colon {gs : List Nat} (hl : 2 ≤ gs.length) : ':' ∈ ip6Text gs := by
  unfold ip6Text
  simp only
  split
  · simp
  · match gs, hl with
    | a :: b :: t, _ => exact hexGroups_colon

/-- A 16-byte address printed without colon is an IPv4-mapped one. -/
theorem no_colon_mapped {a : List Byte} (ha : a.length = 16) (hc : ':' ∉ ipString a) :
    ∃ b, b.length = 4 ∧ a = v4mapped b ∧ ipString a = dotted b := by
  rw [ipString_sixteen ha] at hc ⊢
  cases ht : to4 a with
  | none =>
    rw [ht] at hc
    exact absurd (ip6Text_colon (by rw [groups_length]; omega)) hc
  | some b =>
    obtain ⟨h1, h2⟩ := to4_some ha ht
    exact ⟨b, h1, h2, rfl⟩

theorem mapped_text {b : List Byte} (hb : b.length = 4) : ipString (v4mapped b) = dotted b := by
  have hl : (v4mapped b).length = 16 := by simp [v4mapped, hb]
  have ht : to4 (v4mapped b) = some b := by
    unfold to4
    rw [if_neg (by omega), if_pos ⟨hl, rfl, rfl⟩]
    rfl
  rw [ipString_sixteen hl, ht]

theorem count_split {a a' b b' : List Char} {c : Char} (h : a ++ c :: b = a' ++ c :: b') (ha : c ∉ a) (hb : c ∉ b) :
    c ∉ a' ∧ c ∉ b' := by
  have hc := congrArg (List.count c) h
  simp only [List.count_append, List.count_cons_self, List.count_eq_zero_of_not_mem ha,
    List.count_eq_zero_of_not_mem hb] at hc
  refine ⟨List.count_eq_zero.mp (by omega), List.count_eq_zero.mp (by omega)⟩

/-- C90. An IPv4 and an IPv6 packet have the same flow hash exactly when the IPv6 addresses are the
IPv4-mapped forms of the IPv4 addresses and the ports agree. -/
theorem C90_across_versions {h h' : Heap} {bytes bytes' : Slice} (hv : bytes.Valid h) (hv' : bytes'.Valid h')
    {c c' : U64} {m m' : List Char} {lv lv' : Bool} {p q : Packet} (ha : New h c bytes m lv = .ok (some p, none))
    (hb : New h' c' bytes' m' lv' = .ok (some q, none)) (h4 : p.IPversion = .V4) (h6 : q.IPversion = .V6) :
    p.L4FlowHash = q.L4FlowHash ↔ q.SourceAddress = v4mapped p.SourceAddress ∧
      q.DestinationAddress = v4mapped p.DestinationAddress ∧ p.SourcePort = q.SourcePort ∧ p.DestPort = q.DestPort := by
  obtain ⟨a1, a2, a3⟩ := accepted_hash hv ha
  obtain ⟨b1, b2, b3⟩ := accepted_hash hv' hb
  rw [show p.version = .V4 from h4] at a2 a3
  rw [show q.version = .V6 from h6] at b2 b3
  have ea : p.L4FlowHash = flowText p.sourceAddress p.destinationAddress p.SourcePort p.DestPort := a1
  have eb : q.L4FlowHash = flowText q.sourceAddress q.destinationAddress q.SourcePort q.DestPort := b1
  have hn : ∀ {x : List Byte}, x.length = 4 → ':' ∉ ipString x := by
    intro x hx; rw [ipString_four hx]; exact dotted_no_colon
  rw [ea, eb]
  unfold Packet.SourceAddress Packet.DestinationAddress
  constructor
  · intro hx
    obtain ⟨h1, h2, h3⟩ := flowText_ports hx
    obtain ⟨c1, c2⟩ := count_split h1 (hn a2) (hn a3)
    obtain ⟨s, s1, s2, s3⟩ := no_colon_mapped b2 c1
    obtain ⟨d, d1, d2, d3⟩ := no_colon_mapped b3 c2
    rw [s3, d3, ipString_four a2, ipString_four a3] at h1
    obtain ⟨e1, e2⟩ := sep_inj dotted_no_colon dotted_no_colon h1
    rw [s2, d2, dotted_inj (a2.trans s1.symm) e1, dotted_inj (a3.trans d1.symm) e2]
    exact ⟨rfl, rfl, h2, h3⟩
  · intro ⟨h1, h2, h3, h5⟩
    rw [h1, h2, h3, h5]
    unfold flowText
    rw [mapped_text a2, mapped_text a3, ipString_four a2, ipString_four a3]

/-- C90, non-vacuous: such a pair of packets, both accepted, with one hash. -/
theorem C90_example : ∃ p q : Packet,
    New ⟨[[0x45, 0, 0, 28, 0, 1, 0, 0, 64, 17, 0, 0, 10, 0, 0, 1, 192, 168, 1, 20, 0, 53, 4, 210, 0, 8, 0, 0]]⟩ 0
      ⟨0, 0, 28, 28⟩ [] true = .ok (some p, none) ∧
    New ⟨[[0x60, 0, 0, 0, 0, 8, 17, 64, 0, 0, 0, 0, 0, 0, 0, 0, 0, 0, 0xff, 0xff, 10, 0, 0, 1,
      0, 0, 0, 0, 0, 0, 0, 0, 0, 0, 0xff, 0xff, 192, 168, 1, 20, 0, 53, 4, 210, 0, 8, 0, 0]]⟩ 0
      ⟨0, 0, 48, 48⟩ [] true = .ok (some q, none) ∧
    p.L4FlowHash = q.L4FlowHash ∧ p.L4FlowHash = "10.0.0.1:192.168.1.20:53:1234".toList := by
  refine ⟨_, _, rfl, rfl, ?_⟩
  decide +kernel

/-- C91. The flow hash depends on nothing but the two addresses and the two ports: any two accepted
packets that agree in these have the same hash, and so have their reverse hashes, whatever their
protocol, length or contents; and reversing twice is the identity on hashes. -/
theorem C91_only_the_tuple {h h' : Heap} {bytes bytes' : Slice} (hv : bytes.Valid h) (hv' : bytes'.Valid h')
    {c c' : U64} {m m' : List Char} {lv lv' : Bool} {p q : Packet} (ha : New h c bytes m lv = .ok (some p, none))
    (hb : New h' c' bytes' m' lv' = .ok (some q, none)) :
    (p.SourceAddress = q.SourceAddress → p.DestinationAddress = q.DestinationAddress →
      p.SourcePort = q.SourcePort → p.DestPort = q.DestPort →
      p.L4FlowHash = q.L4FlowHash ∧ p.L4ReverseFlowHash = q.L4ReverseFlowHash) ∧
    (p.SourceAddress = q.DestinationAddress → p.DestinationAddress = q.SourceAddress →
      p.SourcePort = q.DestPort → p.DestPort = q.SourcePort →
      p.L4FlowHash = q.L4ReverseFlowHash ∧ p.L4ReverseFlowHash = q.L4FlowHash) := by
  have ea : p.L4FlowHash = flowText p.SourceAddress p.DestinationAddress p.SourcePort p.DestPort := (accepted_hash hv ha).1
  have eb : q.L4FlowHash = flowText q.SourceAddress q.DestinationAddress q.SourcePort q.DestPort := (accepted_hash hv' hb).1
  have er : p.L4ReverseFlowHash = flowText p.DestinationAddress p.SourceAddress p.DestPort p.SourcePort := rfl
  have es : q.L4ReverseFlowHash = flowText q.DestinationAddress q.SourceAddress q.DestPort q.SourcePort := rfl
  rw [ea, eb, er, es]
  refine ⟨fun h1 h2 h3 h4 => ?_, fun h1 h2 h3 h4 => ?_⟩
  · rw [h1, h2, h3, h4]; exact ⟨rfl, rfl⟩
  · rw [h1, h2, h3, h4]; exact ⟨rfl, rfl⟩

/-- C91, in particular a TCP and a UDP packet between the same endpoints share their hash. -/
theorem C91_example : ∃ p q : Packet,
    New ⟨[[0x45, 0, 0, 28, 0, 1, 0, 0, 64, 17, 0, 0, 10, 0, 0, 1, 10, 0, 0, 2, 4, 210, 0, 80, 0, 8, 0, 0]]⟩ 0
      ⟨0, 0, 28, 28⟩ [] true = .ok (some p, none) ∧
    New exHeap 0 ⟨0, 0, 52, 52⟩ [] true = .ok (some q, none) ∧
    p.IPProto = 17 ∧ q.IPProto = 6 ∧ p.L4FlowHash = q.L4FlowHash := by
  refine ⟨_, exPacket, rfl, ex_accepted, ?_⟩
  decide +kernel

/-! ### C67, a positive part -/

/-- No two adjacent 16-bit groups of the address are zero, so that its text has no `::`. -/
def FullText (a : List Byte) : Prop := ∀ i, i < 7 → ¬ (be16 a (2 * i) = some 0 ∧ be16 a (2 * i + 2) = some 0)

theorem hexGroups_split : ∀ {a b : List Nat} {r r' : List Char}, a.length = b.length → a ≠ [] →
    hexGroups a ++ ':' :: r = hexGroups b ++ ':' :: r' → a = b ∧ r = r'
  | [x], [y], r, r', _, _, h => by
    obtain ⟨h1, h2⟩ := sep_inj (hex_colon x) (hex_colon y) h
    exact ⟨by rw [hex_inj h1], h2⟩
  | x :: x2 :: t, y :: y2 :: u, r, r', hl, _, h => by
    rw [hexGroups_cons, hexGroups_cons, List.append_assoc, List.append_assoc, List.cons_append, List.cons_append] at h
    obtain ⟨h1, h2⟩ := sep_inj (hex_colon x) (hex_colon y) h
    obtain ⟨h3, h4⟩ := hexGroups_split (a := x2 :: t) (b := y2 :: u) (by simpa using hl) (by simp) h2
    exact ⟨by rw [hex_inj h1, h3], h4⟩
  | [], _, _, _, _, hn, _ => absurd rfl hn
  | _ :: _, [], _, _, hl, _, _ => by simp at hl
  | [_], _ :: _ :: _, _, _, hl, _, _ => by simp at hl
  | _ :: _ :: _, [_], _, _, hl, _, _ => by simp at hl

theorem groups_get : ∀ (a : List Byte) (i : Nat), (groups a)[i]? = if 2 * i + 1 < a.length then be16 a (2 * i) else none
  | [], i => by simp [groups]
  | [x], i => by
    rw [if_neg (by simp)]
    simp [groups]
  | x :: y :: t, 0 => by
    rw [if_pos (by simp)]
    rfl
  | x :: y :: t, i + 1 => by
    have ih := groups_get t i
    simp only [groups, List.getElem?_cons_succ, ih, List.length_cons]
    rw [show 2 * (i + 1) = 2 * i + 2 from by omega]
    by_cases hl : 2 * i + 1 < t.length
    · rw [if_pos hl, if_pos (by omega)]; rfl
    · rw [if_neg hl, if_neg (by omega)]

theorem FullText.text {a : List Byte} (ha : a.length = 16) (hf : FullText a) : ipString a = hexGroups (groups a) := by
  have hnone : to4 a = none := by
    cases ht : to4 a with
    | none => rfl
    | some b =>
      obtain ⟨_, h2⟩ := to4_some ha ht
      exact absurd (by rw [h2]; exact ⟨rfl, rfl⟩) (hf 0 (by omega))
  rw [ipString_sixteen ha, hnone]
  have ra := bestRun_ok (groups a) (groups a) 0 (0, 0) rfl ⟨Nat.zero_le _, by simp⟩
  show ip6Text (groups a) = _
  unfold ip6Text
  simp only
  generalize bestRun (groups a) 0 (0, 0) = r at *
  rw [if_neg]
  intro hr
  have hl := ra.1
  rw [groups_length, ha] at hl
  have g : ∀ k, k < r.2 → (groups a)[r.1 + k]? = some 0 := by
    intro k hk
    have := congrArg (fun l => l[k]?) ra.2
    rw [List.getElem?_take, if_pos hk, List.getElem?_drop, List.getElem?_replicate, if_pos hk] at this
    exact this
  have g0 := g 0 (by omega)
  have g1 := g 1 (by omega)
  rw [groups_get, if_pos (by omega)] at g0 g1
  exact hf r.1 (by omega) ⟨g0, g1⟩

/-- C67 (part). Among IPv6 packets whose source addresses have no two adjacent zero groups (no `::` in
their text) the flow hash identifies the 4-tuple.  Missing for the full C67: addresses with `::`. -/
theorem C67_uncompressed_partial {h h' : Heap} {bytes bytes' : Slice} (hv : bytes.Valid h) (hv' : bytes'.Valid h')
    {c c' : U64} {m m' : List Char} {lv lv' : Bool} {p q : Packet} (ha : New h c bytes m lv = .ok (some p, none))
    (hb : New h' c' bytes' m' lv' = .ok (some q, none)) (h6 : p.IPversion = .V6) (h6' : q.IPversion = .V6)
    (f1 : FullText p.SourceAddress) (f3 : FullText q.SourceAddress) :
    p.L4FlowHash = q.L4FlowHash ↔ p.SourceAddress = q.SourceAddress ∧ p.DestinationAddress = q.DestinationAddress ∧
      p.SourcePort = q.SourcePort ∧ p.DestPort = q.DestPort := by
  refine ⟨fun hx => ?_, fun hx => ((C91_only_the_tuple hv hv' ha hb).1 hx.1 hx.2.1 hx.2.2.1 hx.2.2.2).1⟩
  obtain ⟨e1, e2, e3⟩ := C67_ipv6_flow_hash_partial hv hv' ha hb h6 h6' hx
  obtain ⟨a1, a2, a3⟩ := accepted_hash hv ha
  obtain ⟨b1, b2, b3⟩ := accepted_hash hv' hb
  rw [show p.version = .V6 from h6] at a2 a3
  rw [show q.version = .V6 from h6'] at b2 b3
  have ea : p.L4FlowHash = flowText p.sourceAddress p.destinationAddress p.SourcePort p.DestPort := a1
  have eb : q.L4FlowHash = flowText q.sourceAddress q.destinationAddress q.SourcePort q.DestPort := b1
  rw [ea, eb] at hx
  obtain ⟨h1, _, _⟩ := flowText_ports hx
  rw [f1.text a2, f3.text b2] at h1
  have hl : (groups p.sourceAddress).length = (groups q.sourceAddress).length := by
    rw [groups_length, groups_length, a2, b2]
  have hne : groups p.sourceAddress ≠ [] := by
    intro hz
    have := congrArg List.length hz
    rw [groups_length, a2] at this
    exact absurd this (by decide)
  obtain ⟨h2, _⟩ := hexGroups_split hl hne h1
  have hs : p.SourceAddress = q.SourceAddress := groups_inj (a2.trans b2.symm) (by show p.sourceAddress.length % 2 = 0; rw [a2]; rfl) h2
  exact ⟨hs, e3.mp hs, e1, e2⟩

/-- C67 (part), non-vacuous. -/
example : FullText [0x20, 1, 0xd, 0xb8, 0, 0, 0, 1, 0, 0, 0, 2, 0, 3, 0, 4] := by
  unfold FullText; decide

/-! ### C94 -/

/-- C94 is violated. Every IPv4 UDP buffer of at least 28 bytes whose header states a total length below
20 is accepted with validated lengths (the subtraction wraps around), as a packet shorter than its own IP
header; asking it for its type or its token then crashes. -/
theorem C94_impossible_length_violated {h : Heap} {bytes : Slice} (hv : bytes.Valid h) (hcap : bytes.cap = bytes.len)
    (hn : bytes.len < 65536) (c : U64) (m : List Char) (h28 : 28 ≤ bytes.len) (h0 : (h.bytes bytes)[0]? = some 0x45)
    (h9 : (h.bytes bytes)[9]? = some 17) {t : Nat} (ht : be16 (h.bytes bytes) 2 = some t) (hs : t < 20) :
    ∃ p, New h c bytes m true = .ok (some p, none) ∧ p.IPTotalLen.toNat = t ∧ p.buffer.len = t ∧
      p.GetUDPType h = .panic ∧ ReadUDPToken h p = .panic := by
  have e0 : byteAt (h.bytes bytes) 0 = 69 := by unfold byteAt; rw [h0]; rfl
  have e9 : byteAt (h.bytes bytes) 9 = 17 := by unfold byteAt; rw [h9]; rfl
  have e2 : numAt (h.bytes bytes) 2 = t := by unfold numAt; rw [ht]; rfl
  obtain ⟨hacc, hbuf⟩ := C49_length_validation hv hcap hn c m (by rw [e0])
  obtain ⟨p, hp⟩ := hacc.mpr ⟨by omega, by rw [e0], by omega, by omega, fun _ => .inr (by omega)⟩
  obtain ⟨b, hb1, _, hb3⟩ := hbuf p hp
  have hw : window h bytes = h.bytes bytes := (window_is_the_buffer hv).2 hcap
  have h4 : p.IPversion = .V4 := by
    rcases New_accept hv hp with ⟨_, _, _, _, hacc⟩ | ⟨_, _, hne, _⟩
    · exact hacc.same_ip.1
    · rw [hw] at hne
      exact absurd (show byteAt (h.bytes bytes) 0 / 16 = 4 by rw [e0]) hne
  obtain ⟨_, g1, _, g2, _⟩ := C47_ipv4_fields hv hp h4
  rw [hw, ht] at g2
  have hlen : p.buffer.len = t := by
    unfold Packet.GetBuffer at hb1
    obtain ⟨k1, k2, k3⟩ := Slice.sub_eq_ok.mp hb1
    rw [k3] at hb3
    simp only at hb3
    omega
  have hpan : p.buffer.from' p.ipHeaderLen.toNat = .panic := by
    rw [show p.ipHeaderLen = 20 from g1]
    unfold Slice.from' Slice.sub
    rw [if_neg]
    show ¬ (20 ≤ p.buffer.len ∧ _)
    omega
  refine ⟨p, hp, (Option.some.inj g2).symm, hlen, ?_, ?_⟩
  · unfold Packet.GetUDPType; rw [hpan]; rfl
  · unfold ReadUDPToken; rw [hpan]; rfl

/-- C94, non-vacuous. -/
example : (⟨[[0x45, 0, 0, 7, 0, 0, 0, 0, 64, 17, 0, 0, 10, 0, 0, 1, 10, 0, 0, 2, 0, 53, 0, 54, 0, 8, 0, 0]]⟩ : Heap).bytes
    ⟨0, 0, 28, 28⟩ = [0x45, 0, 0, 7, 0, 0, 0, 0, 64, 17, 0, 0, 10, 0, 0, 1, 10, 0, 0, 2, 0, 53, 0, 54, 0, 8, 0, 0] ∧
    be16 [0x45, 0, 0, 7] 2 = some 7 := by decide

/-! ### C95 -/

theorem window_splice_u8 {W : List Byte} {x y : Byte} (hl : 20 ≤ W.length) {i : Nat} (hi : i ≠ 6 ∧ i ≠ 7) :
    u8at (splice W 6 [x, y]) i = u8at W i := by
  rw [u8at_splice (by simp; omega), if_neg (by simp; omega)]

/-- C95 is violated. The fragment field is never looked at: whatever flags and fragment offset (bytes 6
and 7) are stored into an accepted IPv4 packet's header, `New` returns the very same packet.  So a
non-first fragment is reported with its first payload bytes as ports, sequence numbers and flags. -/
theorem C95_fragments_violated {h : Heap} {bytes : Slice} (hv : bytes.Valid h) {c : U64} {m : List Char} {lv : Bool}
    {p : Packet} (ha : New h c bytes m lv = .ok (some p, none)) (h4 : p.IPversion = .V4) (x y : Byte) :
    ∃ h', h.store bytes 6 [x, y] = .ok h' ∧ New h' c bytes m lv = .ok (some p, none) := by
  have hg : 20 ≤ bytes.len ∧ u8at (window h bytes) 0 = 0x45 := by
    rcases New_accept hv ha with ⟨g1, g2, _⟩ | ⟨_, _, _, b, _, ⟨_, hacc⟩ | ⟨_, _, _, hacc⟩⟩
    · exact ⟨g1, g2⟩
    · have e : p.version = .V6 := hacc.same_ip.1
      rw [show p.version = .V4 from h4] at e; exact absurd e (by decide)
    · have e : p.version = .V6 := hacc.same_ip.1
      rw [show p.version = .V4 from h4] at e; exact absurd e (by decide)
  have hc := hv.1
  have hwl := window_length hv
  have hl2 : (splice (window h bytes) 6 [x, y]).length = bytes.cap := by
    rw [splice_length _ _ _ (by simp; omega)]; exact hwl
  have hst : h.store bytes 6 [x, y] = .ok (put h bytes (splice (window h bytes) 6 [x, y])) := by
    unfold Heap.store
    rw [if_pos (by simp; omega)]
    have := write_put hv hwl (k := 6) (bs := [x, y]) (by simp; omega)
    rw [put_self] at this
    rw [this]
  refine ⟨_, hst, ?_⟩
  have hv' := put_valid hv hl2 hv
  have hw' := window_put hv hl2
  have h20 : 20 ≤ (window h bytes).length := by omega
  have e8 : ∀ i, i ≠ 6 ∧ i ≠ 7 → u8at (splice (window h bytes) 6 [x, y]) i = u8at (window h bytes) i :=
    fun i hi => window_splice_u8 h20 hi
  have e16 : ∀ i, i + 1 < 6 ∨ 7 < i → u16at (splice (window h bytes) 6 [x, y]) i = u16at (window h bytes) i := by
    intro i hi; unfold u16at; rw [e8 _ (by omega), e8 _ (by omega)]
  have e32 : ∀ i, 7 < i → u32at (splice (window h bytes) 6 [x, y]) i = u32at (window h bytes) i := by
    intro i hi; unfold u32at; rw [e8 _ (by omega), e8 _ (by omega), e8 _ (by omega), e8 _ (by omega)]
  have ed : ∀ i, 8 ≤ i → (splice (window h bytes) 6 [x, y]).drop i = (window h bytes).drop i := by
    intro i hi; exact drop_splice_ge (by simp; omega) (by simp; omega)
  have hfill : ∀ p b, fill4 p (splice (window h bytes) 6 [x, y]) b = fill4 p (window h bytes) b := by
    intro p b
    unfold fill4
    rw [e8 _ (by omega), e16 _ (by omega), e16 _ (by omega), e16 _ (by omega), ed _ (by omega), ed _ (by omega)]
  have htcp : ∀ p, fillTCP p (splice (window h bytes) 6 [x, y]) 20 = fillTCP p (window h bytes) 20 := by
    intro p
    unfold fillTCP
    rw [e16 _ (by omega), e16 _ (by omega), e16 _ (by omega), e32 _ (by omega), e32 _ (by omega), e8 _ (by omega),
      e8 _ (by omega)]
  have hudp : ∀ p, fillUDP p (splice (window h bytes) 6 [x, y]) 20 = fillUDP p (window h bytes) 20 := by
    intro p
    unfold fillUDP
    rw [e16 _ (by omega), e16 _ (by omega), e16 _ (by omega)]
  have hne : ¬ bytes.len = 0 := by omega
  have hnib : u8at (window h bytes) 0 &&& 0xF0 = 0x40 := by rw [hg.2]; decide
  rw [← ha, New_eq hv', New_eq hv, hw', e8 _ (by omega), if_neg hne, if_neg hne, if_pos hnib, if_pos hnib,
    parseIPv4_eq hv' lv hg.1 (by rw [hw', e8 _ (by omega), hg.2]; decide),
    parseIPv4_eq hv lv hg.1 (by rw [hg.2]; decide), hw', e16 _ (by omega)]
  cases hcb : checkedBuf (u16at (window h bytes) 2) bytes lv with
  | none => simp only [hfill]
  | some b =>
    simp only [hfill]
    obtain ⟨hbv, _, _⟩ := checkedBuf_valid hv hcb
    have hbv' : (fill4 (start c m .V4) (window h bytes) b).buffer.Valid (put h bytes (splice (window h bytes) 6 [x, y])) :=
      put_valid hv hl2 hbv
    rw [parseTransport_eq hv' hbv', parseTransport_eq hv (by exact hbv), hw']
    have h20' : (fill4 (start c m .V4) (window h bytes) b).ipHeaderLen.toNat = 20 := rfl
    rw [h20', htcp, hudp]

/-- C95, non-vacuous: `exPacket` is such a packet; with fragment offset 185 stored into its header it is
still reported with the same ports. -/
theorem C95_example : ∃ h', exHeap.store ⟨0, 0, 52, 52⟩ 6 [0, 185] = .ok h' ∧
    New h' 0 ⟨0, 0, 52, 52⟩ [] true = .ok (some exPacket, none) ∧ exPacket.DestPort = 80 := by
  obtain ⟨h', h1, h2⟩ := C95_fragments_violated ex_valid ex_accepted rfl 0 185
  exact ⟨h', h1, h2, rfl⟩

/-! ### C96 -/

/-- C96 is violated. Every buffer of at least 40 bytes is accepted, as IPv6, when its first four bits are
anything but 4 and its next-header byte is none of TCP and UDP: `New` never looks for version 6. -/
theorem C96_unknown_version_violated {h : Heap} {bytes : Slice} (hv : bytes.Valid h) (hcap : bytes.cap = bytes.len)
    (c : U64) (m : List Char) (h40 : 40 ≤ bytes.len) {b0 nh : Byte} (h0 : (h.bytes bytes)[0]? = some b0)
    (h4 : b0.toNat / 16 ≠ 4) (h6 : (h.bytes bytes)[6]? = some nh) (hn : nh ≠ 6 ∧ nh ≠ 17) :
    ∃ p, New h c bytes m false = .ok (some p, none) ∧ p.IPversion = .V6 := by
  have e0 : byteAt (h.bytes bytes) 0 = b0.toNat := by unfold byteAt; rw [h0]; rfl
  have e6 : byteAt (h.bytes bytes) 6 = nh.toNat := by unfold byteAt; rw [h6]; rfl
  have hl := Heap.bytes_length hv
  obtain ⟨p, hp⟩ := (C50_accept_set hv hcap c m).mpr (.inr ⟨by rw [e0]; exact h4, by omega, by
    rw [e6]
    exact ⟨fun hx => absurd ((byte_eq_iff nh 6 (by omega)).mpr hx) hn.1,
      fun hx => absurd ((byte_eq_iff nh 17 (by omega)).mpr hx) hn.2⟩⟩)
  refine ⟨p, hp, ?_⟩
  have hw : window h bytes = h.bytes bytes := (window_is_the_buffer hv).2 hcap
  rcases New_accept hv hp with ⟨_, h45, _, _, hacc⟩ | ⟨_, _, _, b, _, ⟨_, hacc⟩ | ⟨_, _, _, hacc⟩⟩
  · rw [hw] at h45
    have : b0 = 0x45 := by rw [← h45]; unfold u8at; rw [h0]; rfl
    rw [this] at h4; exact absurd rfl h4
  · exact hacc.same_ip.1
  · exact hacc.same_ip.1

/-- C96, non-vacuous: forty zero bytes are accepted as an IPv6 packet from `::` to `::`. -/
theorem C96_example : ∃ p, New ⟨[zeros 40]⟩ 0 ⟨0, 0, 40, 40⟩ [] true = .ok (some p, none) ∧ p.IPversion = .V6 ∧
    p.L4FlowHash = "::::::0:0".toList := by
  refine ⟨_, rfl, ?_⟩
  decide +kernel

/-! ### C97 -/

/-- C97. With validated lengths a buffer below 64 KiB whose first four bits are not 4 is accepted iff it
holds the 40-byte header and the payload that header announces, the payload is long enough for its TCP
or UDP header, and, if bytes follow the packet, there are at least 58 bytes in all (a TCP header is then
read whatever the protocol).  The packet is then exactly the announced bytes. -/
theorem C97_ipv6_length_validation {h : Heap} {bytes : Slice} (hv : bytes.Valid h)
    (hcap : bytes.cap = bytes.len) (hn : bytes.len < 65536) (c : U64) (m : List Char)
    (h4 : byteAt (h.bytes bytes) 0 / 16 ≠ 4) :
    ((∃ p, New h c bytes m true = .ok (some p, none)) ↔
      40 + numAt (h.bytes bytes) 4 ≤ bytes.len ∧
      (40 + numAt (h.bytes bytes) 4 < bytes.len → 58 ≤ bytes.len) ∧
      (byteAt (h.bytes bytes) 6 = 6 → 20 ≤ numAt (h.bytes bytes) 4) ∧
      (byteAt (h.bytes bytes) 6 = 17 → 8 ≤ numAt (h.bytes bytes) 4)) ∧
    (∀ p, New h c bytes m true = .ok (some p, none) →
      p.IPversion = .V6 ∧ ∃ b, p.GetBuffer 0 = .ok b ∧
        h.bytes b = (h.bytes bytes).take (40 + numAt (h.bytes bytes) 4) ∧
        b.len = 40 + numAt (h.bytes bytes) 4) := by
  have hw : window h bytes = h.bytes bytes := (window_is_the_buffer hv).2 hcap
  have hlen : (h.bytes bytes).length = bytes.len := Heap.bytes_length hv
  have hiff : (∃ p, New h c bytes m true = .ok (some p, none)) ↔
      40 + numAt (h.bytes bytes) 4 ≤ bytes.len ∧
      (40 + numAt (h.bytes bytes) 4 < bytes.len → 58 ≤ bytes.len) ∧
      (byteAt (h.bytes bytes) 6 = 6 → 20 ≤ numAt (h.bytes bytes) 4) ∧
      (byteAt (h.bytes bytes) 6 = 17 → 8 ≤ numAt (h.bytes bytes) 4) := by
    rw [New_eq hv, hw]
    generalize hB : h.bytes bytes = B at *
    by_cases h0 : bytes.len = 0
    · rw [if_pos h0]; simp; omega
    have h4' : ¬ u8at B 0 &&& 0xF0 = 0x40 := fun hx => h4 (nibble4.mp hx)
    rw [if_neg h0, if_neg h4', bind_accept_iff]
    by_cases hs : bytes.len < 7 ∨ bytes.cap < 40
    · rw [parseIPv6_crash hv hs]
      simp; omega
    rw [parseIPv6_eq hv true (by omega) (by omega), hw, numAt_eq (by omega)]
    have hx := (u16at B 4).isLt
    have hT : (40 + u16at B 4 : U16).toNat = (40 + (u16at B 4).toNat) % 65536 := by
      rw [BitVec.toNat_add]; rfl
    generalize hTT : (40 + u16at B 4 : U16) = T at *
    have eofn : BitVec.ofNat 16 bytes.len = T ↔ bytes.len = T.toNat := by
      constructor
      · intro hx; rw [← hx, BitVec.toNat_ofNat]; omega
      · intro hx; apply BitVec.eq_of_toNat_eq; rw [BitVec.toNat_ofNat, hx]; omega
    rcases checkedBuf_cases T bytes true (fun _ => hn) with ⟨k1, k2, k3⟩ | ⟨k1, k2, k3, k4⟩ | ⟨k1, k3⟩
    · rw [k3]; simp; omega
    · rw [k3]
      simp only [true_and]
      by_cases hne : T ≠ BitVec.ofNat 16 bytes.len
      · rw [if_pos hne]
        have hne' : ¬ bytes.len = T.toNat := fun hx => hne (eofn.mpr hx).symm
        by_cases hg : 40 + 14 ≤ bytes.len ∧ 40 + 18 ≤ bytes.cap ∧ 40 ≤ (head bytes T.toNat).len
        · rw [if_pos hg]
          have := (parseTransport_nat (p := fillTCP (fill6 (start c m .V6) B (head bytes T.toNat)) B 40) hv
            (by exact head_valid hv (by omega))).2
          rw [this]
          have e0 : (fillTCP (fill6 (start c m .V6) B (head bytes T.toNat)) B 40).ipProto.toNat = byteAt B 6 := rfl
          have e1 : (fillTCP (fill6 (start c m .V6) B (head bytes T.toNat)) B 40).ipTotalLength = T := hTT
          have e2 : (fillTCP (fill6 (start c m .V6) B (head bytes T.toNat)) B 40).ipHeaderLen.toNat = 40 := rfl
          have e3 : (fillTCP (fill6 (start c m .V6) B (head bytes T.toNat)) B 40).buffer.len = T.toNat := rfl
          have e4 : (head bytes T.toNat).len = T.toNat := rfl
          rw [e4] at hg
          rw [e0, e1, e2, e3]
          omega
        · rw [if_neg hg]
          have e4 : (head bytes T.toNat).len = T.toNat := rfl
          rw [e4] at hg
          simp; omega
      · rw [if_neg hne]
        have heq : bytes.len = T.toNat := eofn.mp (Classical.not_not.mp hne).symm
        have := (parseTransport_nat (p := fill6 (start c m .V6) B (head bytes T.toNat)) hv
            (by exact head_valid hv (by omega))).2
        rw [this]
        have e0 : (fill6 (start c m .V6) B (head bytes T.toNat)).ipProto.toNat = byteAt B 6 := rfl
        have e1 : (fill6 (start c m .V6) B (head bytes T.toNat)).ipTotalLength = T := hTT
        have e2 : (fill6 (start c m .V6) B (head bytes T.toNat)).ipHeaderLen.toNat = 40 := rfl
        have e3 : (fill6 (start c m .V6) B (head bytes T.toNat)).buffer.len = T.toNat := rfl
        rw [e0, e1, e2, e3]
        omega
    · simp at k1
  refine ⟨hiff, fun p ha => ?_⟩
  have hfit := (hiff.mp ⟨p, ha⟩).1
  have h6 : p.IPversion = .V6 ∧ p.buffer = head bytes (40 + numAt (h.bytes bytes) 4) := by
    have hb : ∀ b, checkedBuf (40 + u16at (window h bytes) 4) bytes true = some b →
        b = head bytes (40 + numAt (h.bytes bytes) 4) := by
      intro b hb
      rw [hw] at hb
      rw [numAt_eq (by omega)] at hfit ⊢
      have hT : (40 + u16at (h.bytes bytes) 4 : U16).toNat = (40 + (u16at (h.bytes bytes) 4).toNat) % 65536 := by
        rw [BitVec.toNat_add]; rfl
      rcases checkedBuf_cases (40 + u16at (h.bytes bytes) 4) bytes true (fun _ => hn) with
        ⟨k1, k2, k3⟩ | ⟨k1, k2, k3, k4⟩ | ⟨k1, k3⟩
      · rw [k3] at hb; simp at hb
      · rw [k3] at hb
        simp only [Option.some.injEq] at hb
        rw [← hb, hT, Nat.mod_eq_of_lt (by omega)]
      · simp at k1
    rcases New_accept hv ha with ⟨_, h45, _⟩ | ⟨_, _, _, b, hcb, ⟨_, hacc⟩ | ⟨_, _, _, hacc⟩⟩
    · rw [hw] at h45
      exact absurd (show byteAt (h.bytes bytes) 0 / 16 = 4 by rw [byteAt_eq, h45]; rfl) h4
    · exact ⟨hacc.same_ip.1, by rw [← hb b hcb]; exact hacc.same_ip.2.2.2.2.2.2.2.2.1⟩
    · exact ⟨hacc.same_ip.1, by rw [← hb b hcb]; exact hacc.same_ip.2.2.2.2.2.2.2.2.1⟩
  refine ⟨h6.1, tail p.buffer 0, ?_, ?_, ?_⟩
  · unfold Packet.GetBuffer
    rw [h6.2, from_eq (head_valid hv (by omega)), if_pos (Nat.zero_le _)]
  · rw [bytes_tail, List.drop_zero, h6.2, bytes_head hfit]
  · rw [h6.2]; rfl

/-- C97, non-vacuous: a 48-byte UDP packet is accepted; with one byte behind it, it crashes (49 bytes are
less than 58). -/
theorem C97_example :
    (∃ p, New ⟨[[0x60, 0, 0, 0, 0, 8, 17, 64] ++ zeros 32 ++ [0, 53, 0, 54, 0, 8, 0, 0]]⟩ 0 ⟨0, 0, 48, 48⟩ [] true
      = .ok (some p, none) ∧ p.DestPort = 54) ∧
    New ⟨[[0x60, 0, 0, 0, 0, 8, 17, 64] ++ zeros 32 ++ [0, 53, 0, 54, 0, 8, 0, 0, 9]]⟩ 0 ⟨0, 0, 49, 49⟩ [] true
      = .panic := by
  refine ⟨⟨_, rfl, by decide +kernel⟩, by decide +kernel⟩

end Verif.Packet
