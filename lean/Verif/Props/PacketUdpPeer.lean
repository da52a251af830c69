import Verif.Props.PacketUdpSeq
/-! C148, C149: a complete UDP packet is accepted and read as what it is; what one end makes the other reads. -/
namespace Verif.Packet
open Verif.Spec

/-- The first byte of a packet of the version: IPv4 with a header of five words; the code takes everything that is not version 4 as IPv6. -/
def FirstByte (v : IPver) (pkt : List Byte) : Prop :=
  match v with
  | .V4 => pkt[0]? = some 0x45
  | .V6 => ∃ b : Byte, pkt[0]? = some b ∧ b.toNat / 16 ≠ 4

/-- What the accessors of a parsed UDP packet say. -/
structure Reads (h : Heap) (p : Packet) (v : IPver) (pkt src dst : List Byte) (sp dp : Nat) (data : List Byte) : Prop where
  version : p.IPversion = v
  source : p.SourceAddress = src
  dest : p.DestinationAddress = dst
  proto : p.IPProto = 17
  sport : p.SourcePort.toNat = sp
  dport : p.DestPort.toNat = dp
  total : p.IPTotalLen.toNat = pkt.length
  headers : p.IPHeaderLen.toNat + 8 + data.length = pkt.length ∧ pkt.drop (p.IPHeaderLen.toNat + 8) = data
  payload : ∃ d, p.GetUDPData = .ok d ∧ h.bytes d = data
  buffer : ∃ b, p.GetBuffer 0 = .ok b ∧ h.bytes b = pkt
  token : ReadUDPToken h p = .ok (data.drop 20)
  hash : p.L4FlowHash = ipString src ++ ':' :: ipString dst ++ ':' :: itoa sp ++ ':' :: itoa dp

theorem UdpWire.long {v : IPver} {pkt src dst : List Byte} {sp dp : Nat} {data : List Byte} (hw : UdpWire v pkt src dst sp dp data) :
    pkt.length = hdrLen v + 8 + data.length ∧ pkt.drop (hdrLen v + 8) = data := by
  cases v with
  | V4 => exact ⟨hw.length, hw.payload⟩
  | V6 => exact ⟨hw.length, hw.payload⟩

/-- C148. Every complete UDP packet (of fewer than 65536 bytes) is accepted, whatever slice holds it and whether or not lengths are validated, and
the packet returned says of it exactly what it is. -/
theorem C148_complete_packet_read {h : Heap} {bytes : Slice} (hv : bytes.Valid h) (c : U64) (m : List Char) (lv : Bool) {v : IPver}
    {src dst : List Byte} {sp dp : Nat} {data : List Byte} (hw : UdpWire v (h.bytes bytes) src dst sp dp data)
    (hf : FirstByte v (h.bytes bytes)) (hn : bytes.len < 65536) :
    ∃ p, New h c bytes m lv = .ok (some p, none) ∧ Reads h p v (h.bytes bytes) src dst sp dp data ∧ p.buffer = bytes := by
  have hbl := Heap.bytes_length hv
  have hcap := hv.1
  have hwin := bytes_eq_window hv
  generalize hB : h.bytes bytes = B at *
  generalize hW : window h bytes = W at *
  have k8 : ∀ i, i < bytes.len → u8at W i = u8at B i := by
    intro i hi; rw [hwin, u8at_take hi]
  have k16 : ∀ i, i + 1 < bytes.len → u16at W i = u16at B i := by
    intro i hi; rw [hwin, u16at_take hi]
  have kp : ∀ a n, a + n ≤ bytes.len → (W.drop a).take n = (B.drop a).take n := by
    intro a n hi
    rw [hwin, List.drop_take, List.take_take]
    congr 1; omega
  obtain ⟨hl, hd⟩ := hw.long
  have hdl : hdrLen v + 8 ≤ bytes.len := by omega
  have fin : ∀ p : Packet, p.buffer = bytes → p.ipHeaderLen.toNat = hdrLen v → HdrOk p → p.version = v → p.ipProto = 17 →
      p.sourceAddress = src → p.destinationAddress = dst → p.ipTotalLength.toNat = B.length →
      u16at W p.ipHeaderLen.toNat = p.udpSourcePort → u16at W (p.ipHeaderLen.toNat + 2) = p.udpDestinationPort →
      p.l4flowhash = p.computeL4FlowHash → (u16at B (hdrLen v)).toNat = sp → (u16at B (hdrLen v + 2)).toNat = dp →
      Reads h p v B src dst sp dp data := by
    intro p e1 e2 e3 e4 e5 e6 e7 e8 e9 e10 e11 e12 e13
    have hne : ¬ p.ipProto = IPProtocolTCP := by rw [e5]; decide
    have q1 : p.SourcePort.toNat = sp := by
      rw [show p.SourcePort = p.udpSourcePort from if_neg hne, ← e9, e2, k16 _ (by omega), e12]
    have q2 : p.DestPort.toNat = dp := by
      rw [show p.DestPort = p.udpDestinationPort from if_neg hne, ← e10, e2, k16 _ (by omega), e13]
    refine ⟨e4, e6, e7, e5, q1, q2, e8, ⟨?_, ?_⟩, ?_, ?_, ?_, ?_⟩
    · show p.ipHeaderLen.toNat + 8 + _ = _
      rw [e2]; exact hl.symm
    · show B.drop (p.ipHeaderLen.toNat + 8) = data
      rw [e2]; exact hd
    · refine ⟨tail bytes (hdrLen v + 8), ?_, ?_⟩
      · unfold Packet.GetUDPData
        rw [hdr8 e3, e1, e2, from_eq hv, if_pos hdl]
      · rw [bytes_tail, hB, hd]
    · refine ⟨tail bytes 0, ?_, ?_⟩
      · unfold Packet.GetBuffer
        rw [e1, from_eq hv, if_pos (Nat.zero_le _)]
      · rw [bytes_tail, hB, List.drop_zero]
    · rw [ReadUDPToken_eq (by rw [e1]; exact hv) (by rw [e1, e2]; omega), e1, hB, e2, ← hd, List.drop_drop]
    · show p.l4flowhash = _
      rw [e11]
      unfold Packet.computeL4FlowHash
      rw [e6, e7, q1, q2]
  have hchk : ∀ tot : U16, tot.toNat = bytes.len → checkedBuf tot bytes lv = some bytes ∧ ¬ (lv ∧ tot ≠ BitVec.ofNat 16 bytes.len) := by
    intro tot ht
    have he : tot = BitVec.ofNat 16 bytes.len := BitVec.eq_of_toNat_eq (by rw [ofNat16_toNat hn, ht])
    have hx : ¬ (lv = true ∧ tot ≠ BitVec.ofNat 16 bytes.len) := fun hx => hx.2 he
    exact ⟨if_neg hx, hx⟩
  have htr : ∀ p : Packet, p.buffer = bytes → p.ipHeaderLen.toNat = hdrLen v → p.ipProto = 17 → p.ipTotalLength.toNat = bytes.len →
      parseTransport h p bytes = .ok (withHash (fillUDP p W (hdrLen v)), none) := by
    intro p e1 e2 e3 e4
    rw [parseTransport_eq hv (by rw [e1]; exact hv), if_neg (by rw [e3]; decide), if_pos e3, if_neg, if_pos, hW, e2]
    · rw [e2]; omega
    · intro hx
      have e8 := sub_lt_nat p.ipTotalLength p.ipHeaderLen.toNat 8 (by have := p.ipHeaderLen.isLt; omega) (by omega)
      have hset : p.ipHeaderLen.setWidth 16 = BitVec.ofNat 16 p.ipHeaderLen.toNat := by
        apply BitVec.eq_of_toNat_eq
        rw [BitVec.toNat_setWidth, BitVec.toNat_ofNat]
      rw [← hset] at e8
      have := e8.mp hx
      rw [e2, e4] at this
      omega
  rw [New_eq hv, hW, if_neg (by omega)]
  have num : ∀ i x, i + 2 ≤ bytes.len → be16 B i = some x → (u16at B i).toNat = x := by
    intro i x hi hx
    rw [be16_u16at (by omega)] at hx
    exact Option.some.inj hx
  have oct : ∀ i x, i < bytes.len → B[i]? = some x → u8at B i = x := by
    intro i x hi hx
    rw [u8at_some (by omega)] at hx
    exact Option.some.inj hx
  cases v with
  | V4 =>
    have hdl : 28 ≤ bytes.len := hdl
    have hf : B[0]? = some 0x45 := hf
    have h0 := (k8 0 (by omega)).trans (oct 0 _ (by omega) hf)
    have ht : (u16at W 2).toNat = bytes.len := by rw [k16 2 (by omega), num 2 _ (by omega) hw.total, hbl]
    rw [if_pos (by rw [h0]; decide), parseIPv4_eq hv lv (by omega) (by rw [hW, h0]; decide), hW, (hchk _ ht).1]
    simp only
    have e3 : u8at W 9 = 17 := (k8 9 (by omega)).trans (oct 9 _ (by omega) hw.proto)
    rw [htr _ rfl rfl e3 ht]
    refine ⟨_, rfl, fin _ rfl rfl (.inl ⟨rfl, rfl⟩) rfl e3 ?_ ?_ ?_ rfl rfl rfl ?_ ?_, rfl⟩
    · exact (kp 12 4 (by omega)).trans hw.source
    · exact (kp 16 4 (by omega)).trans hw.dest
    · exact ht.trans hbl.symm
    · exact num 20 _ (by omega) hw.sport
    · exact num 22 _ (by omega) hw.dport
  | V6 =>
    have hdl : 48 ≤ bytes.len := hdl
    obtain ⟨b, hf, hb4⟩ := hf
    have h0 := (k8 0 (by omega)).trans (oct 0 _ (by omega) hf)
    have hne : ¬ u8at W 0 &&& 0xF0 = 0x40 := by
      intro hx
      rw [h0] at hx
      have := nibble4 (b := b)
      exact hb4 (this.mp hx)
    have ht : (40 + u16at W 4 : U16).toNat = bytes.len := by
      rw [BitVec.toNat_add, k16 4 (by omega), num 4 _ (by omega) hw.plen]
      have := hw.length
      show (40 + (8 + data.length)) % 65536 = _
      omega
    have e3 : u8at W 6 = 17 := (k8 6 (by omega)).trans (oct 6 _ (by omega) hw.next)
    rw [if_neg hne, parseIPv6_eq hv lv (by omega) (by omega), hW, (hchk _ ht).1]
    simp only
    rw [if_neg (hchk _ ht).2, htr _ rfl rfl e3 ht]
    refine ⟨_, rfl, fin _ rfl rfl (.inr ⟨rfl, rfl⟩) rfl e3 ?_ ?_ ?_ rfl rfl rfl ?_ ?_, rfl⟩
    · exact (kp 8 16 (by omega)).trans hw.source
    · exact (kp 24 16 (by omega)).trans hw.dest
    · exact ht.trans hbl.symm
    · exact num 40 _ (by omega) hw.sport
    · exact num 42 _ (by omega) hw.dport

/-! ### C149 -/

theorem accepted_first {h : Heap} {bytes : Slice} (hv : bytes.Valid h) {c : U64} {m : List Char}
    {lv : Bool} {p : Packet} (ha : New h c bytes m lv = .ok (some p, none)) (hl : 0 < p.buffer.len)
    (hp : p.buffer = head bytes p.buffer.len) (hle : p.buffer.len ≤ bytes.len) :
    FirstByte p.version (h.bytes p.buffer) := by
  have hbv : p.buffer.Valid h := by rw [hp]; exact head_valid hv (by have := hv.1; omega)
  have hb : h.bytes p.buffer = (window h bytes).take p.buffer.len := by
    rw [bytes_eq_window hbv]
    congr 1
    rw [hp]; rfl
  have hw := window_length hv
  have hc := hv.1
  have h0 : (h.bytes p.buffer)[0]? = some (u8at (window h bytes) 0) := by
    rw [hb, List.getElem?_take, if_pos hl, u8at_some (by omega)]
  rcases New_accept hv ha with ⟨_, h45, b, _, hacc⟩ | ⟨_, _, hne, b, _, hacc⟩
  · have e : p.version = .V4 := by cases hacc <;> rfl
    rw [e]
    show (h.bytes p.buffer)[0]? = some 0x45
    rw [h0, h45]
  · have e : p.version = .V6 := by
      rcases hacc with ⟨_, hacc⟩ | ⟨_, _, _, hacc⟩ <;> cases hacc <;> rfl
    rw [e]
    exact ⟨_, h0, hne⟩

/-- C149. What one end makes the other end reads: after any sequence of calls that leaves a complete packet (C146), if the packet's bytes arrive
in a buffer of another program (or the same), `New` accepts them there, and the accessors of that packet show the endpoints and the payload of the
sequence of calls. -/
theorem C149_peer_reads {h : Heap} {bytes : Slice} (hv : bytes.Valid h) {c : U64} {m : List Char}
    {lv : Bool} {p : Packet} (ha : New h c bytes m lv = .ok (some p, none)) (hu : p.IPProto = 17)
    (hr : p.IPHeaderLen.toNat + 8 ≤ p.buffer.len) (grow : Nat → Nat) (before after : List UdpOp) (op : UdpOp)
    (hs : op.settles) (hd : ∀ o ∈ after, o ≠ .detach)
    (hargs : ∀ o ∈ before ++ op :: after, ∀ t ∈ o.args, t.Valid h ∧ Away p.buffer t)
    (hfit : Fits p.IPversion p.IPHeaderLen.toNat h (UdpState.start h p) (before ++ op :: after)) :
    ∃ h' p' st, runUdp grow h p (before ++ op :: after) = .ok (h', p') ∧
      (UdpState.start h p).run p.IPHeaderLen.toNat h (before ++ op :: after) = st ∧
      ∀ (hR : Heap) (s : Slice) (c2 : U64) (m2 : List Char) (lv2 : Bool), s.Valid hR → hR.bytes s = h'.bytes p'.buffer →
        ∃ q, New hR c2 s m2 lv2 = .ok (some q, none) ∧
          Reads hR q p.IPversion (h'.bytes p'.buffer) st.src st.dst st.sport.toNat st.dport.toNat st.payload ∧ q.buffer = s := by
  obtain ⟨h', p', e, W, S, L⟩ := C146_complete hv ha hu hr grow before after op hs hd hargs hfit
  obtain ⟨h'', p'', e', _, V, _, _, F, _⟩ := C146_any_sequence hv ha hu hr grow (before ++ op :: after) hargs hfit
  rw [e] at e'
  cases e'
  obtain ⟨hi, _, hpb, hle, _⟩ := accepted_udp hv ha hu hr
  have hfb := accepted_first hv ha (by omega) hpb hle
  have V : p'.version = p.version := V
  refine ⟨h', p', _, e, rfl, fun hR s c2 m2 lv2 hsv hsb => ?_⟩
  generalize hst : (UdpState.start h p).run p.IPHeaderLen.toNat h (before ++ op :: after) = st at *
  have hne : ¬ p'.ipProto = IPProtocolTCP := by rw [show p'.ipProto = 17 from S.proto]; decide
  have W : UdpWire p'.version (h'.bytes p'.buffer) p'.sourceAddress p'.destinationAddress p'.udpSourcePort.toNat
    p'.udpDestinationPort.toNat st.payload := W
  have s1 : p'.sourceAddress = st.src := S.source
  have s2 : p'.destinationAddress = st.dst := S.dest
  have s3 : p'.udpSourcePort = st.sport := (if_neg hne).symm.trans S.sport
  have s4 : p'.udpDestinationPort = st.dport := (if_neg hne).symm.trans S.dport
  rw [V, s1, s2, s3, s4] at W
  have hfb' : FirstByte p.version (h'.bytes p'.buffer) := by
    unfold FirstByte at hfb ⊢
    rw [F]; exact hfb
  have hlt : s.len < 65536 := by
    rw [← Heap.bytes_length hsv, hsb, ← L]
    exact p'.IPTotalLen.isLt
  rw [← hsb] at W hfb'
  obtain ⟨q, e1, e2, e3⟩ := C148_complete_packet_read hsv c2 m2 lv2 W hfb' hlt
  rw [hsb] at e2
  exact ⟨q, e1, e2, e3⟩

/-- C149, the token exchange. A program answers a UDP packet with a marker of type `t` and a token.  Wherever the answer arrives, it is accepted,
it is a control packet of type `t & 0xF0`, it comes from where the packet went and goes to where it came from, `ReadUDPToken` reads the token
there, and its flow hash is the reverse flow hash of the packet answered. -/
theorem C149_token_exchange {h : Heap} {bytes : Slice} (hv : bytes.Valid h) {c : U64} {m : List Char}
    {lv : Bool} {p : Packet} (ha : New h c bytes m lv = .ok (some p, none)) (hu : p.IPProto = 17)
    (hr : p.IPHeaderLen.toNat + 8 ≤ p.buffer.len) (grow : Nat → Nat) {marker token : Slice} {t : Byte}
    (hm : marker.Valid h) (ht : token.Valid h) (hma : Away p.buffer marker) (hta : Away p.buffer token)
    (hmk : h.bytes marker = CreateUDPAuthMarker t) (hn : p.IPHeaderLen.toNat + 28 + token.len < 65536) :
    ∃ h1 p1 h2 p2, CreateReverseFlowPacket h p = .ok (h1, p1) ∧ UDPTokenAttach grow h1 p1 marker token = .ok (h2, p2) ∧
      ∀ (hR : Heap) (s : Slice) (c2 : U64) (m2 : List Char) (lv2 : Bool), s.Valid hR → hR.bytes s = h2.bytes p2.buffer →
        ∃ q, New hR c2 s m2 lv2 = .ok (some q, none) ∧ q.GetUDPType hR = .ok (t &&& 0xF0) ∧
          ReadUDPToken hR q = .ok (h.bytes token) ∧ q.IPversion = p.IPversion ∧ q.SourceAddress = p.DestinationAddress ∧
          q.DestinationAddress = p.SourceAddress ∧ q.SourcePort = p.DestPort ∧ q.DestPort = p.SourcePort ∧
          q.L4FlowHash = p.L4ReverseFlowHash := by
  have hml : (h.bytes marker).length = 20 := by rw [hmk, C64_marker]; rfl
  have hmn := Heap.bytes_length hm
  have htn := Heap.bytes_length ht
  have hpr : p.ipProto = 17 := hu
  have hne : ¬ p.ipProto = IPProtocolTCP := by rw [hpr]; decide
  have hsp : p.SourcePort = p.udpSourcePort := if_neg hne
  have hdp : p.DestPort = p.udpDestinationPort := if_neg hne
  have hi := (accepted_udp hv ha hu hr).1
  obtain ⟨h2, p2, st, e, est, P⟩ := C149_peer_reads hv ha hu hr grow [] [.attachToken marker token] .reverse trivial (by
      intro o ho
      cases List.mem_singleton.mp ho
      exact fun x => UdpOp.noConfusion x) (by
      intro o ho x hx
      simp only [List.nil_append, List.mem_cons, List.not_mem_nil, or_false] at ho
      rcases ho with rfl | rfl
      · cases hx
      · simp only [UdpOp.args, List.mem_cons, List.not_mem_nil, or_false] at hx
        rcases hx with rfl | rfl
        · exact ⟨hm, hma⟩
        · exact ⟨ht, hta⟩) (by
      refine ⟨?_, trivial, ?_, trivial, trivial⟩
      · show p.IPHeaderLen.toNat + 8 + 0 < 65536
        omega
      · show p.IPHeaderLen.toNat + 8 + ([] ++ (h.bytes marker ++ h.bytes token)).length < 65536
        rw [List.nil_append, List.length_append, hml, htn]
        omega)
  have est : (⟨p.destinationAddress, p.sourceAddress, p.udpDestinationPort, p.udpSourcePort, [] ++ (h.bytes marker ++ h.bytes token), _, _,
    True, True⟩ : UdpState) = st := est
  obtain ⟨⟨h1, p1⟩, e1, e2⟩ := Res.bind_eq_ok.mp e
  obtain ⟨⟨h3, p3⟩, e3, e4⟩ := Res.bind_eq_ok.mp e2
  have e4 : (Res.ok (h3, p3)) = .ok (h2, p2) := e4
  simp only [Res.ok.injEq, Prod.mk.injEq] at e4
  obtain ⟨rfl, rfl⟩ := e4
  refine ⟨h1, p1, h3, p3, e1, e3, fun hR s c2 m2 lv2 hsv hsb => ?_⟩
  obtain ⟨q, k, R, hq⟩ := P hR s c2 m2 lv2 hsv hsb
  cases est
  have htok := R.token
  simp only [List.nil_append] at htok
  rw [List.drop_append_of_le_length (by omega), List.drop_eq_nil_of_le (by omega), List.nil_append] at htok
  refine ⟨q, k, ?_, htok, R.version, R.source, R.dest, ?_, ?_, ?_⟩
  · obtain ⟨g1, g2⟩ := R.headers
    have hqb : (hR.bytes q.buffer) = h3.bytes p3.buffer := by rw [hq, hsb]
    have hqv : q.buffer.Valid hR := by rw [hq]; exact hsv
    have hql := Heap.bytes_length hqv
    rw [hqb] at hql
    rw [C64_type_of_packet hqv (by omega), hqb]
    have hsplit := (List.take_append_drop 8 ((h3.bytes p3.buffer).drop q.IPHeaderLen.toNat)).symm
    rw [List.drop_drop, g2, List.nil_append, hmk] at hsplit
    rw [hsplit]
    refine C64_marker_recognised t _ _ ?_
    rw [List.length_take, List.length_drop]
    omega
  · rw [hdp]; exact BitVec.eq_of_toNat_eq R.sport
  · rw [hsp]; exact BitVec.eq_of_toNat_eq R.dport
  · rw [R.hash]
    unfold Packet.L4ReverseFlowHash
    rw [hsp, hdp]

/-! ### Concrete cases -/

/-- C148 applies to the packet of `zHeap`: from [::1]:1000 to [::2]:64499, carrying one byte. -/
theorem C148_example : ∃ p, New zHeap 5 ⟨0, 0, 49, 49⟩ ['m'] false = .ok (some p, none) ∧ p.SourcePort.toNat = 1000 ∧ p.DestPort.toNat = 64499 ∧
    ∃ d, p.GetUDPData = .ok d ∧ zHeap.bytes d = [7] := by
  have hw : UdpWire .V6 (zHeap.bytes ⟨0, 0, 49, 49⟩) [0, 0, 0, 0, 0, 0, 0, 0, 0, 0, 0, 0, 0, 0, 0, 1]
      [0, 0, 0, 0, 0, 0, 0, 0, 0, 0, 0, 0, 0, 0, 0, 2] 1000 64499 [7] := by
    refine ⟨?_, ?_, ?_, ?_, ?_, ?_, ?_, ?_, ?_⟩ <;> decide +kernel
  obtain ⟨p, e, R, _⟩ := C148_complete_packet_read z_valid 5 ['m'] false hw ⟨0x60, by decide +kernel, by decide⟩ (by decide)
  exact ⟨p, e, R.sport, R.dport, R.payload⟩

/-- C149 applies to it: answered with a marker of type 0x2F and the token QRS, the peer reads type 0x20 and QRS. -/
theorem C149_example (grow : Nat → Nat) : ∃ h1 p1 h2 p2, CreateReverseFlowPacket zHeap zPacket = .ok (h1, p1) ∧
    UDPTokenAttach grow h1 p1 ⟨1, 0, 20, 23⟩ ⟨1, 20, 3, 3⟩ = .ok (h2, p2) ∧
    ∃ q, New h2 0 p2.buffer [] true = .ok (some q, none) ∧ q.GetUDPType h2 = .ok 0x20 ∧ ReadUDPToken h2 q = .ok [81, 82, 83] := by
  obtain ⟨v1, v2, _, _, _⟩ := z_slices
  obtain ⟨h1, p1, h2, p2, e1, e2, P⟩ := C149_token_exchange z_valid z_accepted rfl (by decide) grow (t := 0x2F) v1 v2
    (.inl (by decide)) (.inl (by decide)) (by decide +kernel) (by decide)
  have hi := (accepted_udp z_valid z_accepted rfl (by decide)).1
  obtain ⟨h1', p1', e1', R⟩ := Reverse_full hi
  rw [e1] at e1'
  cases e1'
  have hb1 : p1.buffer.len = 48 := by rw [R.buf]; rfl
  obtain ⟨h2', p2', e2', G⟩ := Token_any grow R.inv (R.frame _ v1).1 (R.frame _ v2).1 (by rw [hb1]; decide)
  rw [e2] at e2'
  cases e2'
  obtain ⟨q, a1, a2, a3, _⟩ := P h2 p2.buffer 0 [] true G.inv.buf rfl
  exact ⟨h1, p1, h2, p2, e1, e2, q, a1, a2, a3⟩

end Verif.Packet
