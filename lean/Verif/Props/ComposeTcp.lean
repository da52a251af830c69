import Verif.Props.Compose
import Verif.Props.PacketTcpSeq
/-! C155: packet library and queue library together, TCP: what the kernel sends on is what the peer reads. -/
namespace Verif.Props
open Verif.Sys Verif.Spec Verif.Common Verif.NfQueue Verif.Packet

/-- C155. An application takes a TCP packet of the queue (any slice `bytes` outside the queue's scratch header), parses it, takes options and data
off, attaches options and data of its own, adjusts numbers and checksums by any sequence of calls, and gives `SetVerdict2` the result of
`GetTCPBytes`.  Then the kernel receives one message with the given verdict, mark and id, and wherever the payload of this message arrives it is
accepted and read as the packet the application meant. -/
theorem C155_peer_of_kernel (env : Env) (K : Kernel QEv) (qa verdict mark id : U32) (w : W) (qh : Handle)
    (hV : VReady w qh) {bytes : Slice} (hv : bytes.Valid w.heap) (hne : bytes.arr ≠ w.st.hdrSlice.arr)
    {c : U64} {m : List Char} {p : Packet.Packet} (ha : New w.heap c bytes m true = .ok (some p, none))
    (ht : p.IPProto = 6) (hn : bytes.len < 65536)
    {o : U16} (hd : Detachable p o) (h4 : o.toNat % 4 = 0) (grow : Nat → Nat) :
    ∃ h1 p1, TCPDataDetach w.heap p o = .ok (h1, p1) ∧
    ∀ opts data : Slice, opts.Valid h1 → Foreign h1 p1 data → opts.len % 4 = 0 →
      p1.TCPDataStartBytes.toNat + opts.len ≤ 60 → p1.IPTotalLen.toNat + opts.len + data.len < 65536 →
    ∃ h2 p2, TCPDataAttach grow h1 p1.DropTCPDetachedBytes opts data = .ok (h2, p2, none) ∧
    ∀ ops : List TcpOp, (∀ op ∈ ops, op.adjusts p.IPversion) →
    ∃ h3 p3 s h5, runOps grow h2 p2 ops = .ok (h3, p3) ∧ p3.GetTCPBytesMem grow h3 = (s, h5) ∧
      s.Valid h5 ∧ s.len = p.IPHeaderLen.toNat + p.TCPDataStartBytes.toNat - o.toNat + opts.len + data.len ∧
      (s.len ≤ 65531 → ∃ b r w', setVerdict2 env K qa verdict mark (BitVec.ofNat 32 s.len) id s
          { w with heap := h5 } = .ok ((), w') ∧
        w'.trace = w.trace ++ [.sendmsg qh.fd b r] ∧
        decodeNf env.e b = some ⟨44 + s.len, 0x301, 1, 0, 0, 0, 0, w.st.queueNum.toNat,
          [verdictAttr env.e verdict.toNat id.toNat, markAttr mark.toNat, payloadAttr (h5.bytes s)]⟩) ∧
      ∀ (hR : Heap) (t : Slice) (c2 : U64) (m2 : List Char), t.Valid hR → hR.bytes t = h5.bytes s →
      ∃ q, (∀ lv, New hR c2 t m2 lv = .ok (some q, none)) ∧
        TcpReads hR q p.IPversion (h5.bytes s) p.SourceAddress p.DestinationAddress p.SourcePort.toNat p.DestPort.toNat
          (seqAfter p.tcpSeq ops).toNat (ackAfter p.tcpAck ops).toNat p.GetTCPFlags (keptOptions w.heap p o ++ h1.bytes opts)
          (h1.bytes data) ∧
        (tcpSumAfter False ops → VerifyTCPChecksum hR q = .ok (true, hR)) ∧
        (p.IPversion = .V4 → ChecksumRight w.heap p ∨ .updateIP ∈ ops → VerifyIPv4Checksum hR q = .ok (true, hR)) := by
  obtain ⟨h1, p1, e1, X⟩ := C154_attached_adjusted_at_peer hv ha ht hn hd h4 grow
  obtain ⟨h1', p1', e1', hall⟩ := C58_attach_consistent hv ha ht hn hd h4 grow
  rw [e1] at e1'
  cases e1'
  have hi := accepted_inv hv ha ht hn
  refine ⟨h1, p1, e1, fun opts data hov hf hm4 hfit hsz => ?_⟩
  obtain ⟨h2, p2, e2, hc, _, _⟩ := attach_complete hv ha ht hn hd h4 grow e1 hov hf hm4 hfit hsz
  obtain ⟨h2', p2', e2', P⟩ := X opts data hov hf hm4 hfit hsz
  rw [e2] at e2'
  cases e2'
  obtain ⟨h2', p2', e2', A1, A2, A3, A4, A5, A6, A7, A8, A9⟩ := hall opts data hov hf hm4 hfit hsz
  rw [e2] at e2'
  cases e2'
  refine ⟨h2, p2, e2, fun ops hops => ?_⟩
  have hops2 : ∀ op ∈ ops, op.adjusts p2.version := fun op ho => by
    have : p2.version = p.version := A8
    rw [this]; exact hops op ho
  obtain ⟨h3, p3, e3, Q⟩ := P ops hops
  have er2 : ∀ t, runOps grow w.heap p (.detach o :: .dropAll :: .attach opts data :: t) = runOps grow h2 p2 t := by
    intro t
    show (TCPDataDetach w.heap p o >>= fun r => ((.ok (r.1, r.2.DropTCPDetachedBytes) : Res (Heap × Packet.Packet)) >>= fun r =>
      (TCPDataAttach grow r.1 r.2 opts data >>= fun r => .ok (r.1, r.2.1)) >>= fun r => runOps grow r.1 r.2 t)) = _
    rw [e1, Res.ok_bind, Res.ok_bind, e2, Res.ok_bind, Res.ok_bind]
  have hallow : AllAllowed grow w.heap p (.detach o :: .dropAll :: .attach opts data :: ops) := by
    refine ⟨hd, fun h' p' e => ?_⟩
    have e : TCPDataDetach w.heap p o = .ok (h', p') := e
    rw [e1] at e
    cases e
    refine ⟨trivial, fun h' p' e => ?_⟩
    have e : (.ok (h1, p1.DropTCPDetachedBytes) : Res (Heap × Packet.Packet)) = .ok (h', p') := e
    cases e
    refine ⟨⟨rfl, hf, ?_⟩, fun h' p' e => ?_⟩
    · show p1.TCPDataStartBytes.toNat + opts.len < 64
      omega
    · have e : (TCPDataAttach grow h1 p1.DropTCPDetachedBytes opts data >>= fun r => .ok (r.1, r.2.1)) = .ok (h', p') := e
      rw [e2, Res.ok_bind] at e
      cases e
      exact hc.allowed grow ops hops2
  obtain ⟨g1, g2, s, g3, k1, k2, k3⟩ := C109_rewritten_packet env K qa verdict mark id w qh hV hv hne ha ht hn grow _ hallow
  rw [er2, e3] at k1
  cases k1
  have hi3 : Complete h3 p3 := by
    obtain ⟨h3', p3', e3', A⟩ := run_adjusts grow ops hc hops2
    rw [e3] at e3'
    cases e3'
    exact A.done
  obtain ⟨s1, s2, _, _⟩ := getTCPBytes_spec grow hi3.inv.buf (by have := hi3.inv.room; omega) hi3.inv.opts hi3.inv.data
  rw [k2] at s1 s2
  have s1 : g3.bytes s = p3.GetTCPBytes h3 := s1
  have s2 : s.Valid g3 := s2
  refine ⟨h3, p3, s, g3, e3, k2, s2, ?_, fun hl => ?_, ?_⟩
  · obtain ⟨q, q1, q2, _⟩ := Q g3 s 0 [] s2 s1
    have q1 := q1 true
    obtain ⟨d1, d2, d3⟩ := _root_.id hd
    have hge : 20 ≤ p.IPHeaderLen.toNat := hi.ge.1
    have hbl := Heap.bytes_length hi.buf
    have a := q2.headers
    have b := q2.start
    have hkept : (keptOptions w.heap p o).length = p.TCPDataStartBytes.toNat - 20 - o.toNat := by
      unfold keptOptions
      rw [List.length_take, List.length_drop]
      omega
    have hq := accepted_inv s2 q1 q2.proto (by
      rw [← Heap.bytes_length s2, s1]; exact hi3.size.2)
    have hH : q.IPHeaderLen.toNat = p.IPHeaderLen.toNat := by
      have e1 : q.version = p.version := q2.version
      rcases hi.hdr.nat with ⟨g1, g2⟩ | ⟨g1, g2⟩ <;> rcases hq.hdr.nat with ⟨u1, u2⟩ | ⟨u1, u2⟩
      · exact u2.trans g2.symm
      · rw [e1, g1] at u1; cases u1
      · rw [e1, g1] at u1; cases u1
      · exact u2.trans g2.symm
    rw [List.length_append, hkept, Heap.bytes_length hov] at b
    rw [Heap.bytes_length hf.1, ← s1, Heap.bytes_length s2, hH] at a
    omega
  · obtain ⟨b, r, w', u1, u2, u3, _, _⟩ := k3 hl
    exact ⟨b, r, w', u1, u2, u3⟩
  · intro hR t c2 m2 htv htb
    rw [s1] at htb ⊢
    exact Q hR t c2 m2 htv htb

/-- C155 applies to it: the option taken off, four other bytes attached, 4 added to the sequence number, the TCP checksum renewed: the kernel gets one
message, and whoever receives its payload reads sequence number 5, the data, and right checksums. -/
theorem C155_example (qa : U32) : ∃ b r w' s h5, setVerdict2 someEnv yesKernel qa 1 9 52 77 s { composeWorld with heap := h5 } = .ok ((), w') ∧
    w'.trace = [.sendmsg 3 b r] ∧
    (decodeNf .little b).map NfMsg.attrs = some [verdictAttr .little 1 77, markAttr 9, payloadAttr (h5.bytes s)] ∧
    ∃ q, New h5 0 s [] true = .ok (some q, none) ∧ q.tcpSeq.toNat = 5 ∧
      (∃ d, q.ReadTCPData = .ok d ∧ h5.bytes d = [65, 66, 67, 68, 69, 70, 71, 72]) ∧
      VerifyTCPChecksum h5 q = .ok (true, h5) ∧ VerifyIPv4Checksum h5 q = .ok (true, h5) := by
  have hv : (⟨0, 0, 52, 52⟩ : Slice).Valid composeWorld.heap := ⟨Nat.le_refl _, by decide⟩
  have ha : New composeWorld.heap 0 ⟨0, 0, 52, 52⟩ [] true = .ok (some exPacket, none) := by decide +kernel
  have hi := accepted_inv hv ha rfl (by decide)
  obtain ⟨h1, p1, e1, hall⟩ := C155_peer_of_kernel someEnv yesKernel qa 1 9 77 composeWorld ⟨3, Slice.nil⟩
    ⟨rfl, ⟨Nat.le_refl _, by decide⟩, rfl⟩ hv (by decide) ha rfl (by decide) ex_detachable.1 (by decide) _root_.id
  have hdk := Detachable.ok hi ex_detachable.1
  obtain ⟨h1', p1', e1', hD⟩ := Detach_full hi hdk
  rw [e1] at e1'
  cases e1'
  have hl : h1.arrayOf 1 = composeWorld.heap.arrayOf 1 := by
    apply List.ext_getElem?
    intro i
    exact hD.mem.2 1 i (fun hx => absurd hx.1 (by decide))
  have hov : (⟨1, 0, 4, 4⟩ : Slice).Valid h1 := by
    unfold Slice.Valid
    rw [hl]; decide
  have hb : p1.buffer = ⟨0, 0, 40, 52⟩ := by rw [hD.buf]; decide
  have hdd : p1.tcpData = ⟨0, 44, 8, 8⟩ := by rw [hD.data]; decide
  have hdb : h1.bytes p1.tcpData = [65, 66, 67, 68, 69, 70, 71, 72] := by
    rw [(hD.bytes hi hdk rfl rfl).1]; decide
  have hh : p1.ipHeaderLen = 20 := hD.hlen
  have ho : p1.tcpDataOffset.toNat = 5 := by rw [hD.off]; decide
  have ht : p1.ipTotalLength = 40 := by rw [hD.tot]; decide
  have hf : Foreign h1 p1 p1.GetTCPData := by
    refine ⟨hD.inv.data, .inr (.inr ?_)⟩
    show p1.buffer.off + p1.ipHeaderLen.toNat + 20 ≤ p1.tcpData.off
    rw [hb, hdd, hh]; decide
  obtain ⟨h2, p2, e2, hops⟩ := hall ⟨1, 0, 4, 4⟩ p1.GetTCPData hov hf (by decide)
    (by rw [hD.inv.dataStart, ho]; decide)
    (by show p1.ipTotalLength.toNat + 4 + p1.tcpData.len < 65536; rw [ht, hdd]; decide)
  obtain ⟨h3, p3, s, h5, e3, e4, hsv, e5, X, P⟩ := hops [.incSeq 4, .updateTCP] (by
    intro op ho
    simp only [List.mem_cons, List.not_mem_nil, or_false] at ho
    rcases ho with rfl | rfl <;> trivial)
  have hsl : s.len = 52 := by
    rw [e5]
    show _ + 4 + p1.tcpData.len = 52
    rw [hdd]; decide
  obtain ⟨b, r, w', k1, k2, k3⟩ := X (by omega)
  rw [hsl] at k1
  obtain ⟨q, n1, n2, n3, n4⟩ := P h5 s 0 [] hsv rfl
  have hcs : ChecksumRight composeWorld.heap exPacket := ex_checksum
  refine ⟨b, r, w', s, h5, k1, k2, ?_, q, n1 true, n2.seqno, ?_, n3 trivial, n4 rfl (.inl hcs)⟩
  · have k3' : decodeNf .little b = _ := k3
    rw [k3']
    rfl
  · obtain ⟨d, d1, d2⟩ := n2.payload
    exact ⟨d, d1, d2.trans hdb⟩

end Verif.Props
