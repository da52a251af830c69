import Verif.Packet.Hash
import Verif.Props.PacketUdp
import Verif.Props.PacketExamples
/-! C66-C68, C80: flow hashes. -/
namespace Verif.Packet
open Verif.Spec

/-- What `New` guarantees about addresses and hash of every accepted packet. -/
theorem accepted_hash {h : Heap} {bytes : Slice} (hv : bytes.Valid h) {c : U64} {m : List Char} {lv : Bool}
    {p : Packet} (ha : New h c bytes m lv = .ok (some p, none)) :
    p.l4flowhash = p.computeL4FlowHash ∧ p.sourceAddress.length = addrLen p.version ∧
      p.destinationAddress.length = addrLen p.version := by
  have hs := accepted_ipsync hv ha
  have hwl := window_length hv
  have hc := hv.1
  have hash : ∀ p0, Accepted p0 (window h bytes) bytes p → p.l4flowhash = p.computeL4FlowHash := by
    intro p0 hacc
    cases hacc <;> rfl
  rcases New_accept hv ha with ⟨g1, _, b, _, hacc⟩ | ⟨_, g1, _, b, _, ⟨_, hacc⟩ | ⟨_, _, _, hacc⟩⟩
  · have e : p.version = .V4 := hacc.same_ip.1
    exact ⟨hash _ hacc, hs.addrs (by rw [e]; show 20 ≤ _; omega)⟩
  · have e : p.version = .V6 := hacc.same_ip.1
    exact ⟨hash _ hacc, hs.addrs (by rw [e]; show 40 ≤ _; omega)⟩
  · have e : p.version = .V6 := hacc.same_ip.1
    exact ⟨hash _ hacc, hs.addrs (by rw [e]; show 40 ≤ _; omega)⟩

/-- The flow text built from two addresses and two ports. -/
def flowText (src dst : List Byte) (sp dp : U16) : List Char :=
  ipString src ++ ':' :: ipString dst ++ ':' :: itoa sp.toNat ++ ':' :: itoa dp.toNat

/-- The last two fields of a flow text are the ports. -/
theorem flowText_ports {s d s' d' : List Byte} {sp dp sp' dp' : U16} (h : flowText s d sp dp = flowText s' d' sp' dp') :
    ipString s ++ ':' :: ipString d = ipString s' ++ ':' :: ipString d' ∧ sp = sp' ∧ dp = dp' := by
  unfold flowText at h
  obtain ⟨h1, h2⟩ := sep_inj_last (itoa_not rfl) (itoa_not rfl) h
  obtain ⟨h3, h4⟩ := sep_inj_last (itoa_not rfl) (itoa_not rfl) h1
  exact ⟨h3, BitVec.eq_of_toNat_eq (itoa_inj h4), BitVec.eq_of_toNat_eq (itoa_inj h2)⟩

theorem flowText_inj4 {s d s' d' : List Byte} {sp dp sp' dp' : U16} (hs : s.length = 4) (hd : d.length = 4)
    (hs' : s'.length = 4) (hd' : d'.length = 4) (h : flowText s d sp dp = flowText s' d' sp' dp') :
    s = s' ∧ d = d' ∧ sp = sp' ∧ dp = dp' := by
  obtain ⟨h1, h2, h3⟩ := flowText_ports h
  have hn : ∀ {x : List Byte}, x.length = 4 → ':' ∉ ipString x := by
    intro x hx; rw [ipString_four hx]; exact dotted_no_colon
  obtain ⟨h4, h5⟩ := sep_inj (hn hs) (hn hs') h1
  exact ⟨ipString_inj4 hs hs' h4, ipString_inj4 hd hd' h5, h2, h3⟩

/-- C66. Two accepted IPv4 packets have the same flow hash iff source and destination address and ports
agree; the reverse hash of one is the hash of the other iff these are mirror images. -/
theorem C66_ipv4_flow_hash {h h' : Heap} {bytes bytes' : Slice} (hv : bytes.Valid h) (hv' : bytes'.Valid h')
    {c c' : U64} {m m' : List Char} {lv lv' : Bool} {p q : Packet} (ha : New h c bytes m lv = .ok (some p, none))
    (hb : New h' c' bytes' m' lv' = .ok (some q, none)) (h4 : p.IPversion = .V4) (h4' : q.IPversion = .V4) :
    (p.L4FlowHash = q.L4FlowHash ↔ p.SourceAddress = q.SourceAddress ∧ p.DestinationAddress = q.DestinationAddress ∧
      p.SourcePort = q.SourcePort ∧ p.DestPort = q.DestPort) ∧
    (p.L4ReverseFlowHash = q.L4FlowHash ↔ p.SourceAddress = q.DestinationAddress ∧
      p.DestinationAddress = q.SourceAddress ∧ p.SourcePort = q.DestPort ∧ p.DestPort = q.SourcePort) := by
  obtain ⟨a1, a2, a3⟩ := accepted_hash hv ha
  obtain ⟨b1, b2, b3⟩ := accepted_hash hv' hb
  rw [show p.version = .V4 from h4] at a2 a3
  rw [show q.version = .V4 from h4'] at b2 b3
  have ea : p.L4FlowHash = flowText p.sourceAddress p.destinationAddress p.SourcePort p.DestPort := a1
  have er : p.L4ReverseFlowHash = flowText p.destinationAddress p.sourceAddress p.DestPort p.SourcePort := rfl
  have eb : q.L4FlowHash = flowText q.sourceAddress q.destinationAddress q.SourcePort q.DestPort := b1
  rw [ea, er, eb]
  unfold Packet.SourceAddress Packet.DestinationAddress
  refine ⟨⟨fun hx => flowText_inj4 a2 a3 b2 b3 hx, fun hx => ?_⟩, ⟨fun hx => ?_, fun hx => ?_⟩⟩
  · rw [hx.1, hx.2.1, hx.2.2.1, hx.2.2.2]
  · obtain ⟨x1, x2, x3, x4⟩ := flowText_inj4 a3 a2 b2 b3 hx
    exact ⟨x2, x1, x4, x3⟩
  · rw [hx.1, hx.2.1, hx.2.2.1, hx.2.2.2]

/-- C66, non-vacuous: two accepted packets that mirror each other have crossed hashes. -/
theorem C66_example : ∃ p q : Packet,
    New ⟨[[0x45, 0, 0, 28, 0, 1, 0, 0, 64, 17, 0, 0, 10, 0, 0, 1, 192, 168, 1, 20, 0, 53, 4, 210, 0, 8, 0, 0]]⟩ 0
      ⟨0, 0, 28, 28⟩ [] true = .ok (some p, none) ∧
    New ⟨[[0x45, 0, 0, 28, 0, 2, 0, 0, 64, 17, 0, 0, 192, 168, 1, 20, 10, 0, 0, 1, 4, 210, 0, 53, 0, 8, 0, 0]]⟩ 0
      ⟨0, 0, 28, 28⟩ [] true = .ok (some q, none) ∧
    p.L4ReverseFlowHash = q.L4FlowHash ∧ p.L4FlowHash ≠ q.L4FlowHash ∧
    p.L4FlowHash = "10.0.0.1:192.168.1.20:53:1234".toList := by
  refine ⟨_, _, rfl, rfl, ?_⟩
  decide +kernel

/-- C67 (part). Equal flow hashes of IPv6 packets mean equal ports, and equal addresses as soon as the
source or the destination addresses agree.  Missing for the full C67: both addresses may differ, see
`C67_ipv6_collision_violated`. -/
theorem C67_ipv6_flow_hash_partial {h h' : Heap} {bytes bytes' : Slice} (hv : bytes.Valid h) (hv' : bytes'.Valid h')
    {c c' : U64} {m m' : List Char} {lv lv' : Bool} {p q : Packet} (ha : New h c bytes m lv = .ok (some p, none))
    (hb : New h' c' bytes' m' lv' = .ok (some q, none)) (h6 : p.IPversion = .V6) (h6' : q.IPversion = .V6)
    (he : p.L4FlowHash = q.L4FlowHash) :
    p.SourcePort = q.SourcePort ∧ p.DestPort = q.DestPort ∧
    (p.SourceAddress = q.SourceAddress ↔ p.DestinationAddress = q.DestinationAddress) := by
  obtain ⟨a1, a2, a3⟩ := accepted_hash hv ha
  obtain ⟨b1, b2, b3⟩ := accepted_hash hv' hb
  rw [show p.version = .V6 from h6] at a2 a3
  rw [show q.version = .V6 from h6'] at b2 b3
  have ea : p.L4FlowHash = flowText p.sourceAddress p.destinationAddress p.SourcePort p.DestPort := a1
  have eb : q.L4FlowHash = flowText q.sourceAddress q.destinationAddress q.SourcePort q.DestPort := b1
  rw [ea, eb] at he
  obtain ⟨h1, h2, h3⟩ := flowText_ports he
  unfold Packet.SourceAddress Packet.DestinationAddress
  refine ⟨h2, h3, fun hx => ?_, fun hx => ?_⟩
  · rw [hx] at h1
    exact ipString_inj6 a3 b3 (List.cons.inj (List.append_cancel_left h1)).2
  · rw [hx] at h1
    exact ipString_inj6 a2 b2 (List.append_cancel_right h1)

/-- C67 is violated: two accepted IPv6 packets with different source and different destination
addresses (1::2:3 to 4::5, and 1::2 to 3:4::5) have the same flow hash. -/
theorem C67_ipv6_collision_violated : ∃ p q : Packet,
    New ⟨[[0x60, 0, 0, 0, 0, 8, 17, 64, 0, 1, 0, 0, 0, 0, 0, 0, 0, 0, 0, 0, 0, 2, 0, 3,
      0, 4, 0, 0, 0, 0, 0, 0, 0, 0, 0, 0, 0, 0, 0, 5, 0, 53, 0, 54, 0, 8, 0, 0]]⟩ 0 ⟨0, 0, 48, 48⟩ [] true = .ok (some p, none) ∧
    New ⟨[[0x60, 0, 0, 0, 0, 8, 17, 64, 0, 1, 0, 0, 0, 0, 0, 0, 0, 0, 0, 0, 0, 0, 0, 2,
      0, 3, 0, 4, 0, 0, 0, 0, 0, 0, 0, 0, 0, 0, 0, 5, 0, 53, 0, 54, 0, 8, 0, 0]]⟩ 0 ⟨0, 0, 48, 48⟩ [] true = .ok (some q, none) ∧
    p.L4FlowHash = q.L4FlowHash ∧ p.SourceAddress ≠ q.SourceAddress ∧ p.DestinationAddress ≠ q.DestinationAddress ∧
    p.L4FlowHash = "1::2:3:4::5:53:54".toList := by
  refine ⟨_, _, rfl, rfl, ?_⟩
  decide +kernel

/-! ### C68 -/

/-- C68, right after parsing, for every accepted packet of any protocol. -/
theorem C68_flow_hash_parsed {h : Heap} {bytes : Slice} (hv : bytes.Valid h) {c : U64} {m : List Char} {lv : Bool}
    {p : Packet} (ha : New h c bytes m lv = .ok (some p, none)) :
    p.L4FlowHash = ipString p.SourceAddress ++ ':' :: ipString p.DestinationAddress
      ++ ':' :: itoa p.SourcePort.toNat ++ ':' :: itoa p.DestPort.toNat := (accepted_hash hv ha).1

theorem Grown.hashed {h h' : Heap} {p p' : Packet} {d : List Byte} (hi : UdpInv h p) (G : Grown h p d h' p')
    (hh : p.l4flowhash = p.computeL4FlowHash) : p'.l4flowhash = p'.computeL4FlowHash := by
  rw [G.hash, hh]
  unfold Packet.computeL4FlowHash Packet.SourcePort Packet.DestPort
  rw [G.src, G.dst, G.inv.proto, hi.proto, G.sp, G.dp]
  rfl

/-- C68, attaching to UDP packets keeps the hash current. -/
theorem C68_flow_hash_udp_attach {h : Heap} {bytes : Slice} (hv : bytes.Valid h) {c : U64} {m : List Char}
    {p : Packet} (ha : New h c bytes m true = .ok (some p, none)) (hu : p.IPProto = 17) (hb : bytes.len < 65536)
    (hr : p.IPHeaderLen.toNat + 8 ≤ p.buffer.len) (grow : Nat → Nat) {a b : Slice}
    (hm : a.Valid h) (ht : b.Valid h) (hn : p.buffer.len + a.len + b.len < 65536) :
    (∃ h2 p2, UDPTokenAttach grow h p a b = .ok (h2, p2) ∧
      p2.L4FlowHash = ipString p2.SourceAddress ++ ':' :: ipString p2.DestinationAddress
        ++ ':' :: itoa p2.SourcePort.toNat ++ ':' :: itoa p2.DestPort.toNat) ∧
    (∃ h2 p2, UDPDataAttach grow h p a b = .ok (h2, p2) ∧
      p2.L4FlowHash = ipString p2.SourceAddress ++ ':' :: ipString p2.DestinationAddress
        ++ ':' :: itoa p2.SourcePort.toNat ++ ':' :: itoa p2.DestPort.toNat) := by
  obtain ⟨hi, hh, _, _, htot⟩ := accepted_udp hv ha hu hr
  obtain ⟨h2, p2, e2, G⟩ := Token_full grow hi (htot rfl hb) hm ht (by omega)
  obtain ⟨h3, p3, e3, G3⟩ := Data_full grow hi hm ht hn
  exact ⟨⟨h2, p2, e2, G.hashed hi hh⟩, ⟨h3, p3, e3, G3.hashed hi hh⟩⟩

/-- C68 is violated after turning a packet round. `CreateReverseFlowPacket` exchanges the endpoints but
`L4FlowHash` stays that of the old direction: whenever the ports differ, or over IPv4 the addresses
differ, it is not the hash of the packet's current addresses and ports. -/
theorem C68_reverse_keeps_hash_violated {h : Heap} {bytes : Slice} (hv : bytes.Valid h) {c : U64} {m : List Char}
    {lv : Bool} {p : Packet} (ha : New h c bytes m lv = .ok (some p, none)) (hu : p.IPProto = 17)
    (hr : p.IPHeaderLen.toNat + 8 ≤ p.buffer.len)
    (hne : p.SourcePort ≠ p.DestPort ∨ p.IPversion = .V4 ∧ p.SourceAddress ≠ p.DestinationAddress) :
    ∃ h' p', CreateReverseFlowPacket h p = .ok (h', p') ∧ p'.L4FlowHash = p.L4FlowHash ∧
      p'.L4FlowHash = p'.L4ReverseFlowHash ∧
      p'.L4FlowHash ≠ ipString p'.SourceAddress ++ ':' :: ipString p'.DestinationAddress
        ++ ':' :: itoa p'.SourcePort.toNat ++ ':' :: itoa p'.DestPort.toNat := by
  obtain ⟨hi, hh, _, _, _⟩ := accepted_udp hv ha hu hr
  obtain ⟨h', p', e, R⟩ := Reverse_full hi
  have x1 : p'.SourcePort = p.DestPort := by
    unfold Packet.SourcePort Packet.DestPort
    rw [R.inv.proto, hi.proto, R.sp]; rfl
  have x2 : p'.DestPort = p.SourcePort := by
    unfold Packet.SourcePort Packet.DestPort
    rw [R.inv.proto, hi.proto, R.dp]; rfl
  have ea : p'.L4FlowHash = flowText p.sourceAddress p.destinationAddress p.SourcePort p.DestPort := R.hash.trans hh
  refine ⟨h', p', e, R.hash, ?_, ?_⟩
  · rw [ea]
    unfold Packet.L4ReverseFlowHash
    rw [R.src, R.dst, x1, x2]; rfl
  · rw [ea]
    unfold Packet.SourceAddress Packet.DestinationAddress
    rw [R.src, R.dst, x1, x2]
    intro hx
    have hx : flowText p.sourceAddress p.destinationAddress p.SourcePort p.DestPort =
      flowText p.destinationAddress p.sourceAddress p.DestPort p.SourcePort := hx
    rcases hne with hne | ⟨h4, hne⟩
    · exact hne (flowText_ports hx).2.1
    · obtain ⟨_, a2, a3⟩ := accepted_hash hv ha
      rw [show p.version = .V4 from h4] at a2 a3
      exact hne (flowText_inj4 a2 a3 a3 a2 hx).1

/-- C68's violation happens on a concrete packet. -/
theorem C68_reverse_example : ∃ h' p', CreateReverseFlowPacket zHeap zPacket = .ok (h', p') ∧
    p'.L4FlowHash = "::1:::2:1000:64499".toList ∧ p'.L4FlowHash = p'.L4ReverseFlowHash := by
  obtain ⟨h', p', e, e1, e2, _⟩ := C68_reverse_keeps_hash_violated z_valid z_accepted rfl (by decide) (.inl (by decide))
  exact ⟨h', p', e, e1, e2⟩

/-! ### C80 -/

/-- C80. For two accepted packets of the same IP version, the source-port hash for stage "network" is
equal iff destination address and port agree, and for every other stage iff source address and port
agree. -/
theorem C80_source_port_hash {h h' : Heap} {bytes bytes' : Slice} (hv : bytes.Valid h) (hv' : bytes'.Valid h')
    {c c' : U64} {m m' : List Char} {lv lv' : Bool} {p q : Packet} (ha : New h c bytes m lv = .ok (some p, none))
    (hb : New h' c' bytes' m' lv' = .ok (some q, none)) (hver : p.IPversion = q.IPversion) (stage : U64) :
    (p.SourcePortHash 0x1000 = q.SourcePortHash 0x1000 ↔
      p.DestinationAddress = q.DestinationAddress ∧ p.DestPort = q.DestPort) ∧
    (stage ≠ 0x1000 → (p.SourcePortHash stage = q.SourcePortHash stage ↔
      p.SourceAddress = q.SourceAddress ∧ p.SourcePort = q.SourcePort)) := by
  obtain ⟨_, a2, a3⟩ := accepted_hash hv ha
  obtain ⟨_, b2, b3⟩ := accepted_hash hv' hb
  have hver : p.version = q.version := hver
  rw [← hver] at b2 b3
  have key : ∀ {x y : List Byte} {s t : U16}, x.length = addrLen p.version → y.length = addrLen p.version →
      (ipString x ++ ':' :: itoa s.toNat = ipString y ++ ':' :: itoa t.toNat ↔ x = y ∧ s = t) := by
    intro x y s t hx hy
    refine ⟨fun he => ?_, fun he => by rw [he.1, he.2]⟩
    obtain ⟨h1, h2⟩ := sep_inj_last (itoa_not rfl) (itoa_not rfl) he
    refine ⟨?_, BitVec.eq_of_toNat_eq (itoa_inj h2)⟩
    cases hpv : p.version with
    | V4 => rw [hpv] at hx hy; exact ipString_inj4 hx hy h1
    | V6 => rw [hpv] at hx hy; exact ipString_inj6 hx hy h1
  refine ⟨?_, fun hs => ?_⟩
  · exact key a3 b3
  · have hs' : ¬ stage = PacketTypeNetwork := hs
    unfold Packet.SourcePortHash
    rw [if_neg hs', if_neg hs']
    exact key a2 b2

/-- C80, non-vacuous. -/
theorem C80_example : zPacket.SourcePortHash 0x1000 = "::2:64499".toList ∧
    zPacket.SourcePortHash 0x2000 = "::1:1000".toList ∧ exPacket.SourcePortHash 0x2000 = "10.0.0.1:1234".toList := by
  decide +kernel

end Verif.Packet
