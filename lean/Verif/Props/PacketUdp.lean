import Verif.Packet.Udp
import Verif.Props.PacketAlias
/-! C63-C65, C69, C72, C79: UDP packets. -/
namespace Verif.Packet
open Verif.Spec

/-- A complete UDP packet of the given version on the wire. -/
def UdpWire (v : IPver) (pkt src dst : List Byte) (sp dp : Nat) (data : List Byte) : Prop :=
  match v with
  | .V4 => Udp4 pkt src dst sp dp data
  | .V6 => Udp6 pkt src dst sp dp data

/-- The structure and the wire agree on a complete UDP packet carrying `data`. -/
def UdpOnWire (h : Heap) (p : Packet) (data : List Byte) : Prop :=
  UdpWire p.IPversion (h.bytes p.buffer) p.SourceAddress p.DestinationAddress p.udpSourcePort.toNat
    p.udpDestinationPort.toNat data

theorem UdpInv.wire {h : Heap} {p : Packet} {data : List Byte} (hi : UdpInv h p) (ht : p.ipTotalLength.toNat = p.buffer.len)
    (hu : (u16at (h.bytes p.buffer) (p.ipHeaderLen.toNat + 4)).toNat = p.buffer.len - p.ipHeaderLen.toNat)
    (hd : (h.bytes p.buffer).drop (p.ipHeaderLen.toNat + 8) = data) : UdpOnWire h p data := by
  have hr := hi.room
  have hbl := Heap.bytes_length hi.buf
  have hs := hi.sync
  have hp := hi.proto
  have hdl : data.length = p.buffer.len - (p.ipHeaderLen.toNat + 8) := by rw [← hd, List.length_drop, hbl]
  unfold UdpOnWire UdpWire
  have hip : IPWire p.version p.ipTotalLength p.ipChecksum p.ipProto p.sourceAddress p.destinationAddress
    (h.bytes p.buffer) := hs.ip
  have hsp := hs.sp
  have hdp := hs.dp
  show (match p.version with | .V4 => _ | .V6 => _)
  rcases hi.hdr.nat with ⟨h1, h2⟩ | ⟨h1, h2⟩ <;> rw [h1] at hip ⊢ <;> rw [h2] at hr hu hd hdl hsp hdp <;> simp only
  · exact ⟨by omega, by rw [be16_u16at (by omega), hip.tot4 rfl, ht, hbl],
      by rw [u8at_some (by omega), hip.proto4 rfl, hp], hip.src4 rfl, hip.dst4 rfl,
      by rw [be16_u16at (by omega), hsp], by rw [be16_u16at (by omega), hdp],
      by rw [be16_u16at (by omega), hu, hdl]; congr 1; omega, hd⟩
  · have ht6 : (u16at (h.bytes p.buffer) 4).toNat = p.buffer.len - 40 := by
      rw [hip.tot6 rfl, BitVec.toNat_sub, ht]
      have := p.ipTotalLength.isLt
      show (65536 - 40 + _) % 65536 = _
      omega
    exact ⟨by omega, by rw [be16_u16at (by omega), ht6]; congr 1; omega,
      by rw [u8at_some (by omega), hip.proto6 rfl, hp], hip.src6 rfl, hip.dst6 rfl,
      by rw [be16_u16at (by omega), hsp], by rw [be16_u16at (by omega), hdp],
      by rw [be16_u16at (by omega), hu, hdl]; congr 1; omega, hd⟩

/-- What `New` guarantees about an accepted UDP packet that has room for its headers. -/
theorem accepted_udp {h : Heap} {bytes : Slice} (hv : bytes.Valid h) {c : U64} {m : List Char}
    {lv : Bool} {p : Packet} (ha : New h c bytes m lv = .ok (some p, none)) (hu : p.IPProto = 17)
    (hr : p.IPHeaderLen.toNat + 8 ≤ p.buffer.len) :
    UdpInv h p ∧ p.l4flowhash = p.computeL4FlowHash ∧ p.buffer = head bytes p.buffer.len ∧ p.buffer.len ≤ bytes.len ∧
    (lv = true → bytes.len < 65536 → p.ipTotalLength.toNat = p.buffer.len) := by
  have hex : ∃ p0 : Packet, Accepted p0 (window h bytes) bytes p ∧
      checkedBuf p0.ipTotalLength bytes lv = some p0.buffer ∧ HdrOk p0 := by
    rcases New_accept hv ha with ⟨_, _, b, hcb, hacc⟩ | ⟨_, _, _, b, hcb, ⟨_, hacc⟩ | ⟨_, _, _, hacc⟩⟩
    · exact ⟨_, hacc, hcb, .inl ⟨rfl, rfl⟩⟩
    · exact ⟨_, hacc, hcb, .inr ⟨rfl, rfl⟩⟩
    · exact ⟨_, hacc, hcb, .inr ⟨rfl, rfl⟩⟩
  obtain ⟨p0, hacc, hcb, hver⟩ := hex
  have hbv := checkedBuf_valid hv hcb
  have hips := accepted_ipsync hv ha
  cases hacc with
  | tcp g0 g1 g2 g3 g4 =>
    have : p0.ipProto = 17 := hu
    rw [g0] at this; exact absurd this (by decide)
  | other g0 g1 => exact absurd hu g1
  | udp g0 g1 g2 g3 =>
    have hr0 : p0.ipHeaderLen.toNat + 8 ≤ p0.buffer.len := hr
    have hge := hver.ge
    have hbw : h.bytes p0.buffer = (window h bytes).take p0.buffer.len := by
      rw [bytes_eq_window hbv.1]
      congr 1
      rw [hbv.2.2]; rfl
    have hwl := window_length hv
    have hcap := hv.1
    have hle := hbv.2.1
    refine ⟨⟨hbv.1, hver, g0, ?_⟩, rfl, hbv.2.2, hbv.2.1, ?_⟩
    · show UdpSync _ (h.bytes p0.buffer)
      have hs : UdpSync (withHash (fillUDP p0 (window h bytes) p0.ipHeaderLen.toNat)) (window h bytes) :=
        ⟨by show p0.ipHeaderLen.toNat + 8 ≤ _; omega, hips, rfl, rfl⟩
      refine hs.congr hver ?_
      show List.take (p0.ipHeaderLen.toNat + 8) (h.bytes p0.buffer) = _
      rw [hbw, List.take_take, Nat.min_eq_left hr0]
      rfl
    · intro hlv hn
      show p0.ipTotalLength.toNat = p0.buffer.len
      rcases checkedBuf_cases p0.ipTotalLength bytes lv (fun _ => hn) with
        ⟨k1, k2, k3⟩ | ⟨k1, k2, k3, k4⟩ | ⟨k1, k3⟩
      · rw [k3] at hcb; simp at hcb
      · rw [k3] at hcb
        simp only [Option.some.injEq] at hcb
        rw [← hcb]; rfl
      · rw [hlv] at k1; simp at k1

theorem SameExcept.dropEq {P : Nat → Prop} {a b : List Byte} (h1 : SameExcept P a b) {n : Nat} (hn : ∀ i, P i → i < n) :
    a.drop n = b.drop n := by
  apply List.ext_getElem?
  intro i
  rw [List.getElem?_drop, List.getElem?_drop]
  exact h1.2 _ (fun hx => by have := hn _ hx; omega)

theorem UdpField.lt {v : IPver} {i : Nat} (hx : UdpField v i) : i < hdrLen v + 8 := by
  rcases hx with hx | hx
  · have := hx.lt
    cases v <;> simp only [hdrLen] <;> omega
  · omega

section
variable {h : Heap} {p : Packet}

/-- A grown packet is complete on the wire. -/
theorem Grown.wire {h' : Heap} {p' : Packet} {data : List Byte} (hi : UdpInv h p) (hg : Grown h p data h' p') :
    UdpOnWire h' p' ((h.bytes p.buffer).drop (p.ipHeaderLen.toNat + 8) ++ data) := by
  have hr := hi.room
  have hr' := hg.inv.room
  have hbl := Heap.bytes_length hi.buf
  have htl := p'.ipTotalLength.isLt
  refine hg.inv.wire hg.tot ?_ ?_
  · rw [hg.hlen, hg.ulen, BitVec.toNat_ofNat, Nat.mod_eq_of_lt]
    have := hg.tot; omega
  · rw [hg.hlen, hg.same.dropEq (n := p.ipHeaderLen.toNat + 8) (fun i hx => by rw [hi.hdr.len]; exact hx.lt),
      List.drop_append_of_le_length (by omega)]

theorem Grown.len {h' : Heap} {p' : Packet} {data : List Byte} (hi : UdpInv h p) (hg : Grown h p data h' p') :
    p'.buffer.len = p.buffer.len + data.length := hg.toGrownTo.len hi

/-- A packet turned round is complete on the wire and carries nothing. -/
theorem Reversed.wire {h' : Heap} {p' : Packet} (hg : Reversed h p h' p') :
    UdpOnWire h' p' [] := by
  have hb : p'.buffer.len = p.ipHeaderLen.toNat + 8 := by rw [hg.buf]; rfl
  refine hg.inv.wire (by rw [hg.tot, hb]) ?_ ?_
  · rw [hg.hlen, hg.ulen, hb, Nat.add_sub_cancel_left]; rfl
  · apply List.drop_eq_nil_of_le
    rw [Heap.bytes_length hg.inv.buf, hb, hg.hlen]; exact Nat.le_refl _

theorem UdpInv.csum (hi : UdpInv h p) : CsumOk (h.bytes p.buffer) ↔ ipv4ChecksumOk (h.bytes p.buffer) :=
  CsumOk_iff (by rw [Heap.bytes_length hi.buf]; have := hi.room; have := hi.hdr.ge; omega)

end

/-- The memory of slice `t` is none of the packet's bytes. -/
def Apart (p : Packet) (t : Slice) : Prop :=
  t.arr ≠ p.buffer.arr ∨ t.off + t.len ≤ p.buffer.off ∨ p.buffer.off + p.buffer.len ≤ t.off

theorem Apart.clear {p : Packet} {t : Slice} (ha : Apart p t) : Clear p.buffer t 0 p.buffer.len := by
  unfold Apart at ha
  unfold Clear
  omega

/-! ### C63 -/

theorem ReadUDPToken_eq {h : Heap} {p : Packet} (hb : p.buffer.Valid h) (hr : p.ipHeaderLen.toNat ≤ p.buffer.len) :
    ReadUDPToken h p = .ok ((h.bytes p.buffer).drop (p.ipHeaderLen.toNat + 28)) := by
  have hbl := Heap.bytes_length hb
  unfold ReadUDPToken
  refine res_bind (a := tail p.buffer p.ipHeaderLen.toNat) (by rw [from_eq hb, if_pos hr]) ?_
  have hl : (tail p.buffer p.ipHeaderLen.toNat).len = p.buffer.len - p.ipHeaderLen.toNat := rfl
  simp only [udpJwtTokenOffset, hl]
  split
  · rw [List.drop_eq_nil_of_le (by omega)]
  · refine res_bind (a := tail (tail p.buffer p.ipHeaderLen.toNat) 28) ?_ ?_
    · rw [from_eq (tail_valid hb (by have := hb.1; omega)), if_pos (by rw [hl]; omega)]
    · rw [bytes_tail, bytes_tail, List.drop_drop]

/-- C63. Turning any accepted UDP packet round and attaching a 20-byte marker and a token (held outside
the packet's memory) gives a complete UDP packet back to the sender, with right IP and UDP lengths and
IPv4 checksum, that carries exactly marker and token, and from which `ReadUDPToken` reads the token. -/
theorem C63_token_roundtrip {h : Heap} {bytes : Slice} (hv : bytes.Valid h) {c : U64} {m : List Char}
    {lv : Bool} {p : Packet} (ha : New h c bytes m lv = .ok (some p, none)) (hu : p.IPProto = 17)
    (hr : p.IPHeaderLen.toNat + 8 ≤ p.buffer.len) (grow : Nat → Nat) {marker token : Slice}
    (hm : marker.Valid h) (ht : token.Valid h) (hma : Apart p marker) (hta : Apart p token)
    (h20 : marker.len = 20) (hn : p.IPHeaderLen.toNat + 28 + token.len < 65536) :
    ∃ h1 p1 h2 p2, CreateReverseFlowPacket h p = .ok (h1, p1) ∧
      UDPTokenAttach grow h1 p1 marker token = .ok (h2, p2) ∧
      ReadUDPToken h2 p2 = .ok (h.bytes token) ∧
      UdpOnWire h2 p2 (h.bytes marker ++ h.bytes token) ∧
      p2.IPversion = p.IPversion ∧ p2.SourceAddress = p.DestinationAddress ∧ p2.DestinationAddress = p.SourceAddress ∧
      p2.udpSourcePort = p.udpDestinationPort ∧ p2.udpDestinationPort = p.udpSourcePort ∧
      p2.IPTotalLen.toNat = (h2.bytes p2.buffer).length ∧
      (p.IPversion = .V4 → ipv4ChecksumOk (h2.bytes p2.buffer)) := by
  have hi := (accepted_udp hv ha hu hr).1
  obtain ⟨h1, p1, e1, R⟩ := Reverse_full hi
  have hb1 : p1.buffer.len = p.ipHeaderLen.toNat + 8 := by rw [R.buf]; rfl
  have hn' : p.ipHeaderLen.toNat + 28 + token.len < 65536 := hn
  obtain ⟨m1, m2⟩ := R.frame marker hm
  obtain ⟨t1, t2⟩ := R.frame token ht
  obtain ⟨h2, p2, e2, G⟩ := Token_full grow R.inv (by rw [R.tot, hb1]) m1 t1 (by omega)
  rw [m2 hma.clear, t2 hta.clear] at G
  have hw := G.wire R.inv
  have hl := G.len R.inv
  have hnil : (h1.bytes p1.buffer).drop (p1.ipHeaderLen.toNat + 8) = [] := by
    apply List.drop_eq_nil_of_le
    rw [Heap.bytes_length R.inv.buf, hb1, R.hlen]; exact Nat.le_refl _
  rw [hnil, List.nil_append] at hw
  have hrm := G.inv.room
  have hbl1 := Heap.bytes_length R.inv.buf
  refine ⟨h1, p1, h2, p2, e1, e2, ?_, hw, G.ver.trans R.ver, G.src.trans R.src, G.dst.trans R.dst, G.sp.trans R.sp,
    G.dp.trans R.dp, ?_, fun h4 => G.inv.csum.mp (G.ipcs (R.ver.trans h4) (R.ipcs h4))⟩
  · rw [ReadUDPToken_eq G.inv.buf (by omega), G.hlen, R.hlen,
      G.same.dropEq (n := p.ipHeaderLen.toNat + 28) (fun i hx => by
        have := hx.lt; rw [R.ver, ← hi.hdr.len] at this; omega)]
    have : (h.bytes marker).length = 20 := by rw [Heap.bytes_length hm, h20]
    rw [← List.append_assoc, List.drop_append_of_le_length (by rw [List.length_append]; omega),
      List.drop_eq_nil_of_le (by rw [List.length_append]; omega), List.nil_append]
  · rw [Heap.bytes_length G.inv.buf]; exact G.tot

/-- C63, without turning round. On every accepted UDP packet with validated length, attaching a marker
and a token (anywhere in memory, also inside the packet) appends exactly their bytes to the payload;
IP and UDP lengths are right afterwards, and a right IPv4 header checksum stays right. -/
theorem C63_token_appended {h : Heap} {bytes : Slice} (hv : bytes.Valid h) {c : U64} {m : List Char}
    {p : Packet} (ha : New h c bytes m true = .ok (some p, none)) (hu : p.IPProto = 17) (hb : bytes.len < 65536)
    (hr : p.IPHeaderLen.toNat + 8 ≤ p.buffer.len) (grow : Nat → Nat) {marker token : Slice}
    (hm : marker.Valid h) (ht : token.Valid h) (hn : p.buffer.len + marker.len + token.len < 65536) :
    ∃ h2 p2, UDPTokenAttach grow h p marker token = .ok (h2, p2) ∧
      UdpOnWire h2 p2 ((h.bytes p.buffer).drop (p.IPHeaderLen.toNat + 8) ++ (h.bytes marker ++ h.bytes token)) ∧
      p2.IPversion = p.IPversion ∧ p2.SourceAddress = p.SourceAddress ∧ p2.DestinationAddress = p.DestinationAddress ∧
      p2.udpSourcePort = p.udpSourcePort ∧ p2.udpDestinationPort = p.udpDestinationPort ∧
      p2.IPTotalLen.toNat = (h2.bytes p2.buffer).length ∧
      (p.IPversion = .V4 → ipv4ChecksumOk (h.bytes p.buffer) → ipv4ChecksumOk (h2.bytes p2.buffer)) := by
  obtain ⟨hi, _, _, _, htot⟩ := accepted_udp hv ha hu hr
  obtain ⟨h2, p2, e2, G⟩ := Token_full grow hi (htot rfl hb) hm ht (by omega)
  exact ⟨h2, p2, e2, G.wire hi, G.ver, G.src, G.dst, G.sp, G.dp, by rw [Heap.bytes_length G.inv.buf]; exact G.tot,
    fun h4 hc => G.inv.csum.mp (G.ipcs h4 (hi.csum.mpr hc))⟩

/-! ### C65 -/

/-- C65. Turning any accepted UDP packet round (given room for its headers) exchanges addresses and
ports in the accessors and on the wire; the packet is exactly IP and UDP header with right lengths
and, over IPv4, a right header checksum; all header bytes other than lengths, checksums, addresses and
ports are kept. -/
theorem C65_reverse {h : Heap} {bytes : Slice} (hv : bytes.Valid h) {c : U64} {m : List Char}
    {lv : Bool} {p : Packet} (ha : New h c bytes m lv = .ok (some p, none)) (hu : p.IPProto = 17)
    (hr : p.IPHeaderLen.toNat + 8 ≤ p.buffer.len) :
    ∃ h' p', CreateReverseFlowPacket h p = .ok (h', p') ∧ UdpOnWire h' p' [] ∧
      p'.IPversion = p.IPversion ∧ p'.SourceAddress = p.DestinationAddress ∧ p'.DestinationAddress = p.SourceAddress ∧
      p'.udpSourcePort = p.udpDestinationPort ∧ p'.udpDestinationPort = p.udpSourcePort ∧
      (h'.bytes p'.buffer).length = p.IPHeaderLen.toNat + 8 ∧
      p'.IPTotalLen.toNat = (h'.bytes p'.buffer).length ∧
      (p.IPversion = .V4 → ipv4ChecksumOk (h'.bytes p'.buffer)) ∧
      SameExcept (fun i => LenField p.IPversion i ∨ hdrLen p.IPversion - 2 * addrLen p.IPversion ≤ i) (h'.bytes p'.buffer)
        ((h.bytes p.buffer).take (p.IPHeaderLen.toNat + 8)) := by
  have hi := (accepted_udp hv ha hu hr).1
  obtain ⟨h1, p1, e1, R⟩ := Reverse_full hi
  have hb1 : p1.buffer.len = p.ipHeaderLen.toNat + 8 := by rw [R.buf]; rfl
  have hl1 := Heap.bytes_length R.inv.buf
  refine ⟨h1, p1, e1, R.wire, R.ver, R.src, R.dst, R.sp, R.dp, by rw [hl1, hb1]; rfl, ?_,
    fun h4 => R.inv.csum.mp (R.ipcs h4), R.same.mono fun i hx => hx.imp id (fun hy => hy.1)⟩
  rw [hl1, hb1]; exact R.tot

/-- C65, twice. Turning a packet round twice restores its endpoints, in the accessors and on the
wire, whatever they are. -/
theorem C65_reverse_twice {h : Heap} {bytes : Slice} (hv : bytes.Valid h) {c : U64} {m : List Char}
    {lv : Bool} {p : Packet} (ha : New h c bytes m lv = .ok (some p, none)) (hu : p.IPProto = 17)
    (hr : p.IPHeaderLen.toNat + 8 ≤ p.buffer.len) :
    ∃ h1 p1 h2 p2, CreateReverseFlowPacket h p = .ok (h1, p1) ∧ CreateReverseFlowPacket h1 p1 = .ok (h2, p2) ∧
      UdpWire p.IPversion (h2.bytes p2.buffer) p.SourceAddress p.DestinationAddress p.udpSourcePort.toNat
        p.udpDestinationPort.toNat [] ∧
      p2.SourceAddress = p.SourceAddress ∧ p2.DestinationAddress = p.DestinationAddress ∧
      p2.udpSourcePort = p.udpSourcePort ∧ p2.udpDestinationPort = p.udpDestinationPort := by
  have hi := (accepted_udp hv ha hu hr).1
  obtain ⟨h1, p1, e1, R⟩ := Reverse_full hi
  obtain ⟨h2, p2, e2, R2⟩ := Reverse_full R.inv
  have w := R2.wire
  have x1 : p2.sourceAddress = p.sourceAddress := R2.src.trans R.dst
  have x2 : p2.destinationAddress = p.destinationAddress := R2.dst.trans R.src
  have x3 : p2.udpSourcePort = p.udpSourcePort := R2.sp.trans R.dp
  have x4 : p2.udpDestinationPort = p.udpDestinationPort := R2.dp.trans R.sp
  have x5 : p2.version = p.version := R2.ver.trans R.ver
  refine ⟨h1, p1, h2, p2, e1, e2, ?_, x1, x2, x3, x4⟩
  unfold UdpOnWire at w
  have hx : p2.IPversion = p.IPversion := x5
  have hy : p2.SourceAddress = p.SourceAddress := x1
  have hz : p2.DestinationAddress = p.DestinationAddress := x2
  rw [hx, hy, hz, x3, x4] at w
  exact w

/-! ### C72 -/

theorem detach_inv {h : Heap} {p : Packet} (hi : UdpInv h p) :
    UDPDataDetach p = .ok { p with buffer := head p.buffer (p.ipHeaderLen.toNat + 8) } ∧
    h.bytes (head p.buffer (p.ipHeaderLen.toNat + 8)) = (h.bytes p.buffer).take (p.ipHeaderLen.toNat + 8) ∧
    UdpInv h { p with buffer := head p.buffer (p.ipHeaderLen.toNat + 8) } := by
  have hr' := hi.room
  have hc := hi.buf.1
  have hb1 : h.bytes (head p.buffer (p.ipHeaderLen.toNat + 8)) = (h.bytes p.buffer).take (p.ipHeaderLen.toNat + 8) :=
    bytes_head hr'
  have hi1 : UdpInv h { p with buffer := head p.buffer (p.ipHeaderLen.toNat + 8) } := by
    refine ⟨head_valid hi.buf (by omega), hi.hdr, hi.proto, ?_⟩
    show UdpSync _ (h.bytes (head p.buffer (p.ipHeaderLen.toNat + 8)))
    rw [hb1]
    have hs : UdpSync { p with buffer := head p.buffer (p.ipHeaderLen.toNat + 8) } (h.bytes p.buffer) :=
      ⟨hi.sync.room, hi.sync.ip, hi.sync.sp, hi.sync.dp⟩
    refine hs.congr hi.hdr ?_
    show List.take (p.ipHeaderLen.toNat + 8) _ = _
    rw [List.take_take, Nat.min_self]
  refine ⟨?_, hb1, hi1⟩
  unfold UDPDataDetach
  refine res_bind (a := head p.buffer (p.ipHeaderLen.toNat + 8)) ?_ rfl
  rw [hdr8 hi.hdr, to_eq, if_pos (by omega)]

/-- C72. Detaching the payload of any accepted UDP packet and attaching `header` and `data`, where `data`
does not lie where `header` is put, gives IP and UDP header followed by exactly `header` and `data`, with
right lengths, an IPv4 header checksum that stays right, and unchanged endpoints; `GetUDPData`
returns them. -/
theorem C72_replace_payload {h : Heap} {bytes : Slice} (hv : bytes.Valid h) {c : U64} {m : List Char}
    {lv : Bool} {p : Packet} (ha : New h c bytes m lv = .ok (some p, none)) (hu : p.IPProto = 17)
    (hr : p.IPHeaderLen.toNat + 8 ≤ p.buffer.len) (grow : Nat → Nat) {header data : Slice}
    (hh : header.Valid h) (hd : data.Valid h)
    (hda : Clear p.buffer data (p.IPHeaderLen.toNat + 8) header.len) (hn : p.IPHeaderLen.toNat + 8 + header.len + data.len < 65536) :
    ∃ p1 h2 p2 s, UDPDataDetach p = .ok p1 ∧ h.bytes p1.buffer = (h.bytes p.buffer).take (p.IPHeaderLen.toNat + 8) ∧
      UDPDataAttach grow h p1 header data = .ok (h2, p2) ∧
      p2.GetUDPData = .ok s ∧ h2.bytes s = h.bytes header ++ h.bytes data ∧
      h2.bytes s = (h2.bytes p2.buffer).drop (p2.IPHeaderLen.toNat + GetUDPDataStartBytes.toNat) ∧
      UdpOnWire h2 p2 (h.bytes header ++ h.bytes data) ∧
      p2.IPversion = p.IPversion ∧ p2.SourceAddress = p.SourceAddress ∧ p2.DestinationAddress = p.DestinationAddress ∧
      p2.udpSourcePort = p.udpSourcePort ∧ p2.udpDestinationPort = p.udpDestinationPort ∧
      p2.IPTotalLen.toNat = (h2.bytes p2.buffer).length ∧
      (p.IPversion = .V4 → ipv4ChecksumOk (h.bytes p.buffer) → ipv4ChecksumOk (h2.bytes p2.buffer)) := by
  have hi := (accepted_udp hv ha hu hr).1
  have hr' : p.ipHeaderLen.toNat + 8 ≤ p.buffer.len := hr
  have hc := hi.buf.1
  have hbl := Heap.bytes_length hi.buf
  obtain ⟨ed, hb1, hi1⟩ := detach_inv hi
  obtain ⟨h2, p2, e2, G⟩ := Data_full grow hi1 hh hd (by
    show p.ipHeaderLen.toNat + 8 + header.len + data.len < 65536
    exact hn)
  have hdb : (h.append grow (head p.buffer (p.ipHeaderLen.toNat + 8)) (h.bytes header)).2.bytes data = h.bytes data :=
    ((append_edited grow hi1.buf (h.bytes header)).2.2.2 data hd).2 (by
      rw [Heap.bytes_length hh]; exact hda)
  have G : Grown h { p with buffer := head p.buffer (p.ipHeaderLen.toNat + 8) } (h.bytes header ++ h.bytes data) h2 p2 := by
    rw [← hdb]; exact G
  have w := G.wire hi1
  have hnil : (h.bytes (head p.buffer (p.ipHeaderLen.toNat + 8))).drop (p.ipHeaderLen.toNat + 8) = [] := by
    rw [hb1]
    apply List.drop_eq_nil_of_le
    rw [List.length_take]; exact Nat.min_le_left _ _
  have w : UdpOnWire h2 p2 (h.bytes header ++ h.bytes data) := by
    have w' : UdpOnWire h2 p2 ((h.bytes (head p.buffer (p.ipHeaderLen.toNat + 8))).drop (p.ipHeaderLen.toNat + 8) ++ _) := w
    rw [hnil] at w'
    exact w'
  have hlen2 : p2.ipHeaderLen = p.ipHeaderLen := G.hlen
  have hrm := G.inv.room
  have hh2 : (p2.ipHeaderLen + UDPDataPos).toNat = p2.ipHeaderLen.toNat + 8 := hdr8 G.inv.hdr
  refine ⟨_, h2, p2, tail p2.buffer (p2.ipHeaderLen.toNat + 8), ?_, hb1, e2, ?_, ?_, ?_, w, G.ver, G.src, G.dst, G.sp, G.dp, ?_, ?_⟩
  · exact ed
  · unfold Packet.GetUDPData
    rw [hh2, from_eq G.inv.buf, if_pos (by omega)]
  rotate_left 1
  · exact bytes_tail ..
  rotate_right 1
  · rw [bytes_tail]
    unfold UdpOnWire UdpWire at w
    have w : (match p2.version with
      | .V4 => Udp4 (h2.bytes p2.buffer) p2.SourceAddress p2.DestinationAddress p2.udpSourcePort.toNat p2.udpDestinationPort.toNat (h.bytes header ++ h.bytes data)
      | .V6 => Udp6 (h2.bytes p2.buffer) p2.SourceAddress p2.DestinationAddress p2.udpSourcePort.toNat p2.udpDestinationPort.toNat (h.bytes header ++ h.bytes data)) := w
    rcases G.inv.hdr.nat with ⟨k1, k2⟩ | ⟨k1, k2⟩ <;> rw [k1] at w <;> rw [k2] <;> exact w.payload
  · rw [Heap.bytes_length G.inv.buf]; exact G.tot
  · intro h4 hc4
    refine G.inv.csum.mp (G.ipcs h4 ?_)
    show CsumOk (h.bytes (head p.buffer (p.ipHeaderLen.toNat + 8)))
    refine (CsumOk_congr ?_).mp (hi.csum.mpr hc4)
    have := hi.hdr.ge
    rw [hb1, List.take_take, Nat.min_eq_left (by omega)]

/-! ### C79 -/

/-- C79 is violated. `UDPDataAttach(header, data)` with `data` the packet's own payload, as `GetUDPData`
returned it before the payload was detached: for every accepted UDP packet and every `header` (from
another buffer) no longer than the payload, what goes on the wire is not header and payload but the
header twice, followed by the payload without its first bytes. -/
theorem C79_own_payload_violated {h : Heap} {bytes : Slice} (hv : bytes.Valid h) {c : U64} {m : List Char}
    {lv : Bool} {p : Packet} (ha : New h c bytes m lv = .ok (some p, none)) (hu : p.IPProto = 17)
    (hr : p.IPHeaderLen.toNat + 8 ≤ p.buffer.len) (grow : Nat → Nat) {header : Slice}
    (hh : header.Valid h) (hle : p.IPHeaderLen.toNat + 8 + header.len ≤ p.buffer.len)
    (hn : p.buffer.len + header.len < 65536) :
    ∃ data p1 h2 p2, p.GetUDPData = .ok data ∧
      h.bytes data = (h.bytes p.buffer).drop (p.IPHeaderLen.toNat + 8) ∧ UDPDataDetach p = .ok p1 ∧
      UDPDataAttach grow h p1 header data = .ok (h2, p2) ∧
      UdpOnWire h2 p2 (h.bytes header ++ (h.bytes header ++ (h.bytes data).drop header.len)) := by
  have hi := (accepted_udp hv ha hu hr).1
  have hr' : p.ipHeaderLen.toNat + 8 ≤ p.buffer.len := hr
  have hle' : p.ipHeaderLen.toNat + 8 + header.len ≤ p.buffer.len := hle
  have hc := hi.buf.1
  have hbl := Heap.bytes_length hi.buf
  have hhl := Heap.bytes_length hh
  obtain ⟨ed, hb1, hi1⟩ := detach_inv hi
  have hdv : (tail p.buffer (p.ipHeaderLen.toNat + 8)).Valid h := tail_valid hi.buf (by omega)
  have hdl : (tail p.buffer (p.ipHeaderLen.toNat + 8)).len = p.buffer.len - (p.ipHeaderLen.toNat + 8) := rfl
  obtain ⟨h2, p2, e2, G⟩ := Data_full grow hi1 hh hdv (by
    show p.ipHeaderLen.toNat + 8 + header.len + (tail p.buffer (p.ipHeaderLen.toNat + 8)).len < 65536
    rw [hdl]; omega)
  have happ : (h.append grow (head p.buffer (p.ipHeaderLen.toNat + 8)) (h.bytes header)).2 =
      put h p.buffer (splice (window h p.buffer) (p.ipHeaderLen.toNat + 8) (h.bytes header)) := by
    unfold Heap.append
    rw [if_pos (by show p.ipHeaderLen.toNat + 8 + _ ≤ p.buffer.cap; omega)]
    have := write_put hi.buf (window_length hi.buf) (k := p.ipHeaderLen.toNat + 8) (bs := h.bytes header) (by omega)
    rw [put_self] at this
    exact this
  have hdb : (h.append grow (head p.buffer (p.ipHeaderLen.toNat + 8)) (h.bytes header)).2.bytes
      (tail p.buffer (p.ipHeaderLen.toNat + 8)) =
      h.bytes header ++ (h.bytes (tail p.buffer (p.ipHeaderLen.toNat + 8))).drop header.len := by
    have E := splice_edited hi.buf (i := p.ipHeaderLen.toNat + 8) (bs := h.bytes header) (by omega)
    rw [happ, bytes_tail, bytes_tail, E.bytes]
    have := drop_splice_lt (b := h.bytes p.buffer) (n := p.ipHeaderLen.toNat + 8) (i := 0) (bs := h.bytes header) (by omega)
    rw [Nat.add_zero] at this
    rw [this]
    unfold splice
    rw [List.take_zero, List.nil_append, hhl, Nat.zero_add]
  have G : Grown h { p with buffer := head p.buffer (p.ipHeaderLen.toNat + 8) }
      (h.bytes header ++ (h.bytes header ++ (h.bytes (tail p.buffer (p.ipHeaderLen.toNat + 8))).drop header.len)) h2 p2 := by
    rw [← hdb]; exact G
  have w := G.wire hi1
  have hnil : (h.bytes (head p.buffer (p.ipHeaderLen.toNat + 8))).drop (p.ipHeaderLen.toNat + 8) = [] := by
    rw [hb1]
    apply List.drop_eq_nil_of_le
    rw [List.length_take]; exact Nat.min_le_left _ _
  have w : UdpOnWire h2 p2 ((h.bytes (head p.buffer (p.ipHeaderLen.toNat + 8))).drop (p.ipHeaderLen.toNat + 8) ++ _) := w
  rw [hnil] at w
  refine ⟨_, _, h2, p2, ?_, bytes_tail _ _ _, ed, e2, w⟩
  unfold Packet.GetUDPData
  rw [hdr8 hi.hdr, from_eq hi.buf, if_pos (by omega)]
  rfl

/-! ### C64 -/

/-- C64, the marker. It is the type byte, a zero byte and the 18 bytes of the signature. -/
theorem C64_marker (t : Byte) : CreateUDPAuthMarker t = t :: 0 :: udpSignature := by
  revert t; decide +kernel

theorem slice_val {b : List Byte} {i j : Nat} (h1 : i ≤ j) (h2 : j ≤ b.length) :
    slice b i j = .ok ((b.drop i).take (j - i)) := by
  unfold slice; rw [if_pos ⟨h1, h2⟩]

/-- C64. For every buffer `GetUDPTypeFromBuffer` returns, without crashing, the high nibble of byte 8 if
the buffer has at least 28 bytes and the signature at offset 10, and 0 otherwise. -/
theorem C64_type_from_buffer (b : List Byte) :
    GetUDPTypeFromBuffer b = .ok (if 28 ≤ b.length ∧ (b.drop 10).take 18 = udpSignature
      then b[8]?.getD 0 &&& 0xF0 else 0) := by
  unfold GetUDPTypeFromBuffer
  have k1 : UDPDataPos.toNat = 8 := rfl
  have k2 : udpSignatureEnd = 28 := rfl
  have k3 : udpAuthMarkerOffset = 10 := rfl
  have k4 : UDPSignatureLen = 20 := rfl
  have k5 : UDPAuthMarker = udpSignature := rfl
  rw [k1, k2, k3, k4, k5]
  by_cases hl : b.length < 28
  · rw [if_pos hl, if_neg (fun hx => by omega)]
  · rw [if_neg hl]
    refine res_bind (slice_val (show 8 ≤ 28 by omega) (by omega)) ?_
    refine res_bind (slice_val (show 10 ≤ 28 by omega) (by omega)) ?_
    by_cases hs : (b.drop 10).take 18 = udpSignature
    · rw [if_neg (fun hx => hx hs), if_pos ⟨by omega, hs⟩]
      refine res_bind (a := u8at b 8) ?_ rfl
      have : ((b.drop 8).take (28 - 8))[0]? = some (u8at b 8) := by
        rw [List.getElem?_take_of_lt (by omega), List.getElem?_drop]
        exact u8at_some (by omega)
      unfold idx
      rw [this]
    · rw [if_pos (fun hx => hs hx), if_neg (fun hx => hs hx.2)]

/-- C64, markers are recognised. A marker made for type `t` after any 8 bytes of UDP header, whatever
follows, is recognised with type `t & 0xF0`. -/
theorem C64_marker_recognised (t : Byte) (hdr rest : List Byte) (h8 : hdr.length = 8) :
    GetUDPTypeFromBuffer (hdr ++ (CreateUDPAuthMarker t ++ rest)) = .ok (t &&& 0xF0) := by
  have hsl : udpSignature.length = 18 := rfl
  rw [C64_type_from_buffer, C64_marker]
  have h1 : (hdr ++ (t :: 0 :: udpSignature ++ rest)).drop 10 = udpSignature ++ rest := by
    rw [show 10 = hdr.length + 2 by omega, ← List.drop_drop, List.drop_left]; rfl
  have h2 : (hdr ++ (t :: 0 :: udpSignature ++ rest))[8]?.getD 0 = t := by
    rw [List.getElem?_append_right (by omega), h8]; rfl
  rw [if_pos ⟨by simp only [List.length_append, List.length_cons, hsl]; omega, by rw [h1, List.take_left' hsl]⟩, h2]

/-- C64, on packets. `GetUDPType` applies this to the packet from its UDP header on. -/
theorem C64_type_of_packet {h : Heap} {p : Packet} (hb : p.buffer.Valid h) (hr : p.IPHeaderLen.toNat ≤ p.buffer.len) :
    p.GetUDPType h = GetUDPTypeFromBuffer ((h.bytes p.buffer).drop p.IPHeaderLen.toNat) := by
  unfold Packet.GetUDPType
  refine res_bind (a := tail p.buffer p.ipHeaderLen.toNat) (by rw [from_eq hb]; exact if_pos hr) ?_
  rw [bytes_tail]; rfl

/-- C64 with C63: a packet turned round that gets a marker for type `t` and any token is a control
packet of type `t & 0xF0`. -/
theorem C64_token_packet_type {h : Heap} {bytes : Slice} (hv : bytes.Valid h) {c : U64} {m : List Char}
    {lv : Bool} {p : Packet} (ha : New h c bytes m lv = .ok (some p, none)) (hu : p.IPProto = 17)
    (hr : p.IPHeaderLen.toNat + 8 ≤ p.buffer.len) (grow : Nat → Nat) {marker token : Slice} {t : Byte}
    (hm : marker.Valid h) (ht : token.Valid h) (hma : Apart p marker) (hta : Apart p token)
    (hmk : h.bytes marker = CreateUDPAuthMarker t) (hn : p.IPHeaderLen.toNat + 28 + token.len < 65536) :
    ∃ h1 p1 h2 p2, CreateReverseFlowPacket h p = .ok (h1, p1) ∧
      UDPTokenAttach grow h1 p1 marker token = .ok (h2, p2) ∧
      p2.GetUDPType h2 = .ok (t &&& 0xF0) ∧ ReadUDPToken h2 p2 = .ok (h.bytes token) := by
  have h20 : marker.len = 20 := by rw [← Heap.bytes_length hm, hmk, C64_marker]; rfl
  have hi := (accepted_udp hv ha hu hr).1
  obtain ⟨h1, p1, e1, R⟩ := Reverse_full hi
  have hb1 : p1.buffer.len = p.ipHeaderLen.toNat + 8 := by rw [R.buf]; rfl
  have hn' : p.ipHeaderLen.toNat + 28 + token.len < 65536 := hn
  obtain ⟨m1, m2⟩ := R.frame marker hm
  obtain ⟨t1, t2⟩ := R.frame token ht
  obtain ⟨h2, p2, e2, G⟩ := Token_full grow R.inv (by rw [R.tot, hb1]) m1 t1 (by omega)
  obtain ⟨h1', p1', h2', p2', e1', e2', e3, _⟩ := C63_token_roundtrip hv ha hu hr grow hm ht hma hta h20 hn
  rw [e1] at e1'; cases e1'
  rw [e2] at e2'; cases e2'
  refine ⟨h1, p1, h2, p2, e1, e2, ?_, e3⟩
  have hrm := G.inv.room
  have hbl := Heap.bytes_length G.inv.buf
  have hbl1 := Heap.bytes_length R.inv.buf
  rw [C64_type_of_packet G.inv.buf (by show p2.ipHeaderLen.toNat ≤ _; omega)]
  have hsplit : (h2.bytes p2.buffer).drop p2.IPHeaderLen.toNat =
      ((h2.bytes p2.buffer).drop p2.ipHeaderLen.toNat).take 8 ++ (CreateUDPAuthMarker t ++ h.bytes token) := by
    have := (List.take_append_drop 8 ((h2.bytes p2.buffer).drop p2.ipHeaderLen.toNat)).symm
    refine this.trans ?_
    congr 1
    rw [List.drop_drop, G.hlen, R.hlen, G.same.dropEq (n := p.ipHeaderLen.toNat + 8) (fun i hx => by
      have := hx.lt; rw [R.ver, ← hi.hdr.len] at this; omega),
      List.drop_append_of_le_length (by omega), List.drop_eq_nil_of_le (by omega), m2 hma.clear, t2 hta.clear, hmk]
    rfl
  rw [hsplit]
  refine C64_marker_recognised t _ _ ?_
  rw [List.length_take, List.length_drop]; omega

/-! ### C69 -/

/-- What the UDP checksum field of a packet holds: nothing (zero) over IPv4, and over IPv6 the one's
complement checksum over pseudo header and datagram. -/
def UdpSummed (v : IPver) (pkt : List Byte) : Prop :=
  match v with
  | .V4 => be16 pkt 26 = some 0
  | .V6 => be16 pkt 46 = some (packetUdpSum6 pkt)

/-- What the standards ask of the UDP checksum field: over IPv4 zero means none; over IPv6 a computed
zero must be sent as all ones. -/
def UdpChecksumRight (v : IPver) (pkt : List Byte) : Prop :=
  match v with
  | .V4 => be16 pkt 26 = some 0
  | .V6 => be16 pkt 46 = some (packetUdpChecksum6 pkt)

/-- The two agree unless the computed checksum is zero. -/
theorem UdpSummed.right {v : IPver} {pkt : List Byte} (hs : UdpSummed v pkt) (hz : v = .V6 → packetUdpSum6 pkt ≠ 0) :
    UdpChecksumRight v pkt := by
  cases v with
  | V4 => exact hs
  | V6 =>
    have : be16 pkt 46 = some (packetUdpSum6 pkt) := hs
    show be16 pkt 46 = some (packetUdpChecksum6 pkt)
    rw [this]
    exact congrArg some (if_neg (hz rfl)).symm

theorem UdpInv.summed {h : Heap} {p : Packet} (hi : UdpInv h p)
    (c4 : p.version = .V4 → u16at (h.bytes p.buffer) (p.ipHeaderLen.toNat + 6) = 0)
    (c6 : p.version = .V6 → (u16at (h.bytes p.buffer) (p.ipHeaderLen.toNat + 6)).toNat =
      udpSum6 p.sourceAddress p.destinationAddress ((h.bytes p.buffer).drop p.ipHeaderLen.toNat)) :
    UdpSummed p.version (h.bytes p.buffer) := by
  have hr := hi.room
  have hbl := Heap.bytes_length hi.buf
  have hip : IPWire p.version p.ipTotalLength p.ipChecksum p.ipProto p.sourceAddress p.destinationAddress
    (h.bytes p.buffer) := hi.sync.ip
  rcases hi.hdr.nat with ⟨h1, h2⟩ | ⟨h1, h2⟩ <;> rw [h2] at c4 c6 hr <;> rw [h1] at hip ⊢
  · show be16 _ 26 = some 0
    rw [be16_u16at (by omega), c4 h1]; rfl
  · show be16 _ 46 = some _
    rw [be16_u16at (by omega), c6 h1]
    unfold packetUdpSum6
    rw [hip.src6 rfl, hip.dst6 rfl]

/-- C69 (all but a computed zero). Over IPv4 every one of the three operations leaves UDP checksum 0;
over IPv6 the one's complement checksum over pseudo header and datagram, which is the right checksum
unless it comes out zero.  Missing for the full C69: a computed zero must be sent as 0xFFFF, see
`C69_zero_violated`. -/
theorem C69_udp_checksum_partial {h : Heap} {bytes : Slice} (hv : bytes.Valid h) {c : U64} {m : List Char}
    {lv : Bool} {p : Packet} (ha : New h c bytes m lv = .ok (some p, none)) (hu : p.IPProto = 17)
    (hr : p.IPHeaderLen.toNat + 8 ≤ p.buffer.len) (grow : Nat → Nat) :
    (∃ h' p', CreateReverseFlowPacket h p = .ok (h', p') ∧ UdpSummed p.IPversion (h'.bytes p'.buffer) ∧
      ∀ a b : Slice, a.Valid h' → b.Valid h' → p.IPHeaderLen.toNat + 8 + a.len + b.len < 65536 →
        ∃ h2 p2, UDPTokenAttach grow h' p' a b = .ok (h2, p2) ∧ UdpSummed p.IPversion (h2.bytes p2.buffer)) ∧
    (∀ a b : Slice, a.Valid h → b.Valid h → p.buffer.len + a.len + b.len < 65536 →
      ∃ h2 p2, UDPDataAttach grow h p a b = .ok (h2, p2) ∧ UdpSummed p.IPversion (h2.bytes p2.buffer)) ∧
    (lv = true → bytes.len < 65536 →
      ∀ a b : Slice, a.Valid h → b.Valid h → p.buffer.len + a.len + b.len < 65536 →
        ∃ h2 p2, UDPTokenAttach grow h p a b = .ok (h2, p2) ∧ UdpSummed p.IPversion (h2.bytes p2.buffer)) ∧
    ∀ pkt, UdpSummed p.IPversion pkt → (p.IPversion = .V6 → packetUdpSum6 pkt ≠ 0) →
      UdpChecksumRight p.IPversion pkt := by
  obtain ⟨hi, _, _, _, htot⟩ := accepted_udp hv ha hu hr
  have key : ∀ {h0 h2 : Heap} {p0 p2 : Packet} {d : List Byte}, Grown h0 p0 d h2 p2 → p0.version = p.version →
      UdpSummed p.IPversion (h2.bytes p2.buffer) := by
    intro h0 h2 p0 p2 d G e
    have := G.inv.summed (fun x => by rw [G.hlen]; exact G.cs4 (G.ver.symm.trans x))
      (fun x => by rw [G.hlen, G.src, G.dst]; exact G.cs6 (G.ver.symm.trans x))
    rw [G.ver, e] at this
    exact this
  refine ⟨?_, ?_, ?_, fun pkt h1 h2 => h1.right h2⟩
  · obtain ⟨h1, p1, e1, R⟩ := Reverse_full hi
    have hb1 : p1.buffer.len = p.ipHeaderLen.toNat + 8 := by rw [R.buf]; rfl
    refine ⟨h1, p1, e1, ?_, fun a b va vb hn => ?_⟩
    · have := R.inv.summed (fun x => by rw [R.hlen]; exact R.cs4 (R.ver.symm.trans x))
        (fun x => by rw [R.hlen, R.src, R.dst]; exact R.cs6 (R.ver.symm.trans x))
      rw [R.ver] at this
      exact this
    · have hn' : p.ipHeaderLen.toNat + 8 + a.len + b.len < 65536 := hn
      obtain ⟨h2, p2, e2, G⟩ := Token_full grow R.inv (by rw [R.tot, hb1]) va vb (by omega)
      exact ⟨h2, p2, e2, key G R.ver⟩
  · intro a b va vb hn
    obtain ⟨h2, p2, e2, G⟩ := Data_full grow hi va vb hn
    exact ⟨h2, p2, e2, key G rfl⟩
  · intro hlv hb a b va vb hn
    obtain ⟨h2, p2, e2, G⟩ := Token_full grow hi (htot hlv hb) va vb hn
    exact ⟨h2, p2, e2, key G rfl⟩

/-- An IPv6 UDP packet from [::1]:1000 to [::2]:64499 carrying one byte; a second array holds a marker
and a token. -/
def zHeap : Heap := ⟨[[0x60, 0, 0, 0, 0, 9, 17, 64, 0, 0, 0, 0, 0, 0, 0, 0, 0, 0, 0, 0, 0, 0, 0, 1,
  0, 0, 0, 0, 0, 0, 0, 0, 0, 0, 0, 0, 0, 0, 0, 2, 0x03, 0xE8, 0xFB, 0xF3, 0, 9, 0, 0, 7],
  CreateUDPAuthMarker 0x2F ++ [81, 82, 83]]⟩

/-- What `New` makes of it. -/
def zPacket : Packet where
  context := 0
  mark := []
  buffer := ⟨0, 0, 49, 49⟩
  ipHeaderLen := 40
  ipProto := 17
  ipTotalLength := 49
  ipID := 0
  ipChecksum := 0
  version := .V6
  sourceAddress := [0, 0, 0, 0, 0, 0, 0, 0, 0, 0, 0, 0, 0, 0, 0, 1]
  destinationAddress := [0, 0, 0, 0, 0, 0, 0, 0, 0, 0, 0, 0, 0, 0, 0, 2]
  tcpOptions := Slice.nil
  tcpData := Slice.nil
  tcpSourcePort := 0
  tcpDestinationPort := 0
  tcpSeq := 0
  tcpAck := 0
  tcpDataOffset := 0
  tcpFlags := 0
  tcpChecksum := 0
  tcpTotalLength := 0
  udpSourcePort := 1000
  udpDestinationPort := 64499
  udpChecksum := 0
  udpData := []
  l4flowhash := "::1:::2:1000:64499".toList

theorem z_valid : (⟨0, 0, 49, 49⟩ : Slice).Valid zHeap := by unfold Slice.Valid; decide

theorem z_accepted : New zHeap 0 ⟨0, 0, 49, 49⟩ [] true = .ok (some zPacket, none) := by decide +kernel

theorem eight {D : List Byte} (hl : D.length = 8) :
    patch D 6 [0, 0] = enc16 .big (u16at D 0) ++ enc16 .big (u16at D 2) ++ enc16 .big (u16at D 4) ++ [0, 0] := by
  match D, hl with
  | [a, b, c, d, e, f, g, i], _ =>
    rw [enc16_u16at, enc16_u16at, enc16_u16at]; rfl

/-- C69 is violated. There is an accepted IPv6 UDP packet that, turned round, carries UDP checksum 0 (which
receivers must discard) where 0xFFFF is required. -/
theorem C69_zero_violated : ∃ h' p', CreateReverseFlowPacket zHeap zPacket = .ok (h', p') ∧
    be16 (h'.bytes p'.buffer) 46 = some 0 ∧ packetUdpChecksum6 (h'.bytes p'.buffer) = 65535 ∧
    ¬ UdpChecksumRight .V6 (h'.bytes p'.buffer) := by
  have hi := (accepted_udp z_valid z_accepted rfl (by decide)).1
  obtain ⟨h1, p1, e1, R⟩ := Reverse_full hi
  have hb1 : p1.buffer.len = 48 := by rw [R.buf]; rfl
  have hl := Heap.bytes_length R.inv.buf
  have hw : Udp6 (h1.bytes p1.buffer) p1.sourceAddress p1.destinationAddress p1.udpSourcePort.toNat
      p1.udpDestinationPort.toNat [] := by
    have w : UdpWire p1.version (h1.bytes p1.buffer) p1.sourceAddress p1.destinationAddress p1.udpSourcePort.toNat
      p1.udpDestinationPort.toNat [] := R.wire
    rw [R.ver] at w
    exact w
  have hsum : packetUdpSum6 (h1.bytes p1.buffer) = 0 := by
    unfold packetUdpSum6 udpSum6
    have hd : ((h1.bytes p1.buffer).drop 40).length = 8 := by rw [List.length_drop, hl, hb1]
    have hsp : u16at ((h1.bytes p1.buffer).drop 40) 0 = 64499 := by
      have := R.inv.sync.sp.trans R.sp
      rw [R.hlen] at this
      rw [u16at_drop]; exact this
    have hdp : u16at ((h1.bytes p1.buffer).drop 40) 2 = 1000 := by
      have := R.inv.sync.dp.trans R.dp
      rw [R.hlen] at this
      rw [u16at_drop]; exact this
    have hul : u16at ((h1.bytes p1.buffer).drop 40) 4 = 8 := by
      rw [u16at_drop]; exact R.ulen
    rw [hw.source, hw.dest, eight hd, hd, hsp, hdp, hul, R.src, R.dst]
    decide +kernel
  have hsm : be16 (h1.bytes p1.buffer) 46 = some 0 := by
    have := R.inv.summed (fun x => by rw [R.ver] at x; exact absurd x (by decide))
        (fun x => by rw [R.hlen, R.src, R.dst]; exact R.cs6 (R.ver.symm.trans x))
    rw [R.ver] at this
    have this : be16 (h1.bytes p1.buffer) 46 = some (packetUdpSum6 (h1.bytes p1.buffer)) := this
    rw [this, hsum]
  have hck : packetUdpChecksum6 (h1.bytes p1.buffer) = 65535 := by
    unfold packetUdpChecksum6 udpChecksum6
    exact if_pos hsum
  refine ⟨h1, p1, e1, hsm, hck, fun hx => ?_⟩
  have hx : be16 (h1.bytes p1.buffer) 46 = some (packetUdpChecksum6 (h1.bytes p1.buffer)) := hx
  rw [hsm, hck] at hx
  exact absurd hx (by decide)

/-! ### Concrete cases -/

theorem z_slices : (⟨1, 0, 20, 23⟩ : Slice).Valid zHeap ∧ (⟨1, 20, 3, 3⟩ : Slice).Valid zHeap ∧
    (⟨1, 20, 1, 3⟩ : Slice).Valid zHeap ∧ Apart zPacket ⟨1, 0, 20, 23⟩ ∧ Apart zPacket ⟨1, 20, 3, 3⟩ := by
  unfold Slice.Valid Apart; decide

/-- C63 and C64 apply to it: the packet is turned round, gets marker and token, and is then a control
packet of type 0x20 with token QRS. -/
theorem C63_example (grow : Nat → Nat) : ∃ h1 p1 h2 p2, CreateReverseFlowPacket zHeap zPacket = .ok (h1, p1) ∧
    UDPTokenAttach grow h1 p1 ⟨1, 0, 20, 23⟩ ⟨1, 20, 3, 3⟩ = .ok (h2, p2) ∧
    p2.GetUDPType h2 = .ok 0x20 ∧ ReadUDPToken h2 p2 = .ok [81, 82, 83] := by
  obtain ⟨v1, v2, _, a1, a2⟩ := z_slices
  exact C64_token_packet_type z_valid z_accepted rfl (by decide) grow (t := 0x2F) v1 v2 a1 a2 (by decide +kernel) (by decide)

/-- C65 applies to it: turned round it goes from [::2]:64499 to [::1]:1000. -/
theorem C65_example : ∃ h' p', CreateReverseFlowPacket zHeap zPacket = .ok (h', p') ∧
    Udp6 (h'.bytes p'.buffer) [0, 0, 0, 0, 0, 0, 0, 0, 0, 0, 0, 0, 0, 0, 0, 2]
      [0, 0, 0, 0, 0, 0, 0, 0, 0, 0, 0, 0, 0, 0, 0, 1] 64499 1000 [] := by
  obtain ⟨h', p', e, w, v, s, d, sp, dp, _⟩ := C65_reverse z_valid z_accepted rfl (by decide)
  refine ⟨h', p', e, ?_⟩
  unfold UdpOnWire at w
  rw [v, s, d, sp, dp] at w
  exact w

/-- C72 applies to it. -/
theorem C72_example (grow : Nat → Nat) : ∃ p1 h2 p2 s, UDPDataDetach zPacket = .ok p1 ∧
    UDPDataAttach grow zHeap p1 ⟨1, 20, 1, 3⟩ ⟨1, 20, 3, 3⟩ = .ok (h2, p2) ∧
    p2.GetUDPData = .ok s ∧ h2.bytes s = [81, 81, 82, 83] := by
  obtain ⟨v1, v2, v3, a1, a2⟩ := z_slices
  obtain ⟨p1, h2, p2, s, e1, _, e2, e3, e4, _⟩ := C72_replace_payload z_valid z_accepted rfl (by decide) grow v3 v2
    (.inl (by decide)) (by decide)
  exact ⟨p1, h2, p2, s, e1, e2, e3, e4⟩

/-- C79 happens on it: putting the byte 81 before the payload [7] gives 81 81. -/
theorem C79_example (grow : Nat → Nat) : ∃ data p1 h2 p2, zPacket.GetUDPData = .ok data ∧ zHeap.bytes data = [7] ∧
    UDPDataDetach zPacket = .ok p1 ∧ UDPDataAttach grow zHeap p1 ⟨1, 20, 1, 3⟩ data = .ok (h2, p2) ∧
    (h2.bytes p2.buffer).drop 48 = [81, 81] := by
  obtain ⟨v1, v2, v3, a1, a2⟩ := z_slices
  obtain ⟨data, p1, h2, p2, e1, e2, e3, e4, w⟩ := C79_own_payload_violated z_valid z_accepted rfl (by decide) grow v3
    (by decide) (by decide)
  have hd : zHeap.bytes data = [7] := e2.trans (by decide +kernel)
  refine ⟨data, p1, h2, p2, e1, hd, e3, e4, ?_⟩
  rw [hd] at w
  cases e3
  have hv : p2.version = .V6 := by
    have hi := (accepted_udp z_valid z_accepted rfl (by decide)).1
    obtain ⟨_, _, hi1⟩ := detach_inv hi
    have hdv : data.Valid zHeap := by
      cases e1
      unfold Slice.Valid; decide
    obtain ⟨h2', p2', e2', G⟩ := Data_full grow hi1 v3 hdv (by cases e1; decide)
    have e2'' : (UDPDataAttach grow zHeap _ ⟨1, 20, 1, 3⟩ data) = .ok (h2', p2') := e2'
    have := e4.symm.trans e2''
    cases this
    exact G.ver
  have w : UdpWire p2.version (h2.bytes p2.buffer) p2.sourceAddress p2.destinationAddress p2.udpSourcePort.toNat
    p2.udpDestinationPort.toNat _ := w
  rw [hv] at w
  exact w.payload

end Verif.Packet
