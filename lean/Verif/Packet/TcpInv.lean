import Verif.Packet.Sync
import Verif.Props.PacketChecksum
/-! The invariant of TCP packets, and that every operation keeps it. -/
namespace Verif.Packet
open Verif.Spec

theorem offset_of (b : Byte) : (b &&& 0xF0) >>> 4 = b >>> 4 := by revert b; decide

theorem accepted_ipsync {h : Heap} {bytes : Slice} (hv : bytes.Valid h) {c : U64} {m : List Char}
    {lv : Bool} {p : Packet} (ha : New h c bytes m lv = .ok (some p, none)) : p.IPSync (window h bytes) := by
  rcases New_accept hv ha with ⟨h20, h45, b, hcb, hacc⟩ | ⟨_, _, _, b, hcb, hacc⟩
  · obtain ⟨e1, e2, e3, e4, e5, e6, e7, e8, _⟩ := hacc.same_ip
    unfold Packet.IPSync
    rw [e1, e3, e4, e6, e7, e8]
    refine ⟨fun _ => by rw [h45]; decide, fun _ => rfl, fun _ => rfl, fun _ => rfl, fun _ => rfl, fun _ => rfl,
      ?_, ?_, ?_, ?_⟩ <;> (intro e; exact absurd (show IPver.V4 = .V6 from e) (by decide))
  · obtain ⟨p0, hacc, k0, k2, k3, k4, k5⟩ : ∃ p0 : Packet,
        Accepted p0 (window h bytes) bytes p ∧ p0.version = .V6 ∧
        p0.ipProto = u8at (window h bytes) 6 ∧ p0.ipTotalLength = 40 + u16at (window h bytes) 4 ∧
        p0.sourceAddress = ((window h bytes).drop 8).take 16 ∧
        p0.destinationAddress = ((window h bytes).drop 24).take 16 := by
      rcases hacc with ⟨_, hacc⟩ | ⟨_, _, _, hacc⟩
      · exact ⟨_, hacc, rfl, rfl, rfl, rfl, rfl⟩
      · exact ⟨_, hacc, rfl, rfl, rfl, rfl, rfl⟩
    obtain ⟨e1, e2, e3, e4, e5, e6, e7, e8, _⟩ := hacc.same_ip
    unfold Packet.IPSync
    rw [e1, e3, e4, e6, e7, e8, k0, k2, k3, k4, k5]
    refine ⟨?_, ?_, ?_, ?_, ?_, ?_, fun _ => ?_, fun _ => rfl, fun _ => rfl, fun _ => rfl⟩
    rotate_right
    · exact (add_sub_self 40 _).symm
    all_goals (intro e; exact absurd e (by decide))

theorem accepted_tcpsync {h : Heap} {bytes : Slice} (hv : bytes.Valid h) {c : U64} {m : List Char}
    {lv : Bool} {p : Packet} (ha : New h c bytes m lv = .ok (some p, none)) (ht : p.ipProto = 6) :
    p.TCPSync (window h bytes) := by
  have key : ∀ p0 : Packet, Accepted p0 (window h bytes) bytes p → p.TCPSync (window h bytes) := by
    intro p0 hacc
    cases hacc with
    | tcp _ _ _ _ _ =>
      exact ⟨rfl, rfl, rfl, rfl, (offset_of _).symm, rfl, rfl⟩
    | udp hu _ _ _ =>
      have : p0.ipProto = 6 := ht
      rw [this] at hu; exact absurd hu (by decide)
    | other hu _ => exact absurd ht hu
  rcases New_accept hv ha with ⟨_, _, b, _, hacc⟩ | ⟨_, _, _, b, _, ⟨_, hacc⟩ | ⟨_, _, _, hacc⟩⟩
  · exact key _ hacc
  · exact key _ hacc
  · exact key _ hacc

/-- What holds of a TCP packet from parsing on: its parts lie in memory, options and data do not
reach into its headers, and the structure says what is on the wire. -/
structure TcpInv (h : Heap) (p : Packet) : Prop where
  buf : p.buffer.Valid h
  hdr : HdrOk p
  room : p.ipHeaderLen.toNat + 20 ≤ p.buffer.len
  proto : p.ipProto = 6
  ip : p.IPSync (window h p.buffer)
  tcp : p.TCPSync (window h p.buffer)
  opts : p.tcpOptions.Valid h
  data : p.tcpData.Valid h
  optsClear : Clear p.buffer p.tcpOptions 0 (p.ipHeaderLen.toNat + 20)
  dataClear : Clear p.buffer p.tcpData 0 (p.ipHeaderLen.toNat + 20)
  optsNil : p.tcpOptions.len = 0 → p.tcpOptions = Slice.nil
  hash : p.l4flowhash = p.computeL4FlowHash

theorem accepted_inv {h : Heap} {bytes : Slice} (hv : bytes.Valid h) {c : U64} {m : List Char}
    {p : Packet} (ha : New h c bytes m true = .ok (some p, none)) (ht : p.IPProto = 6)
    (hn : bytes.len < 65536) : TcpInv h p := by
  have hm := accepted_mem hv ha ht hn
  obtain ⟨h1, h2, h3, h4, h5, h6, h7, h8, h9, h10, h11⟩ := accepted_tcp hv ha ht
  refine ⟨h1, h3, hm.room, ht, ?_, ?_, hm.opts, hm.data, hm.optsClear, hm.dataClear, fun _ => h5, h10⟩
  · rw [h8]; exact accepted_ipsync hv ha
  · rw [h8]; exact accepted_tcpsync hv ha ht

section
variable {h : Heap} {p : Packet}

theorem TcpInv.ge (hi : TcpInv h p) : 20 ≤ p.ipHeaderLen.toNat ∧ (p.version = .V6 → 40 ≤ p.ipHeaderLen.toNat) := by
  rcases hi.hdr.nat with ⟨h1, h2⟩ | ⟨h1, h2⟩ <;> rw [h1, h2]
  · exact ⟨Nat.le_refl _, fun e => absurd e (by decide)⟩
  · exact ⟨by omega, fun _ => Nat.le_refl _⟩

/-- Changing TCP header fields in step. -/
theorem TcpInv.setTcp (hi : TcpInv h p) {i : Nat} {bs : List Byte} (h1 : p.ipHeaderLen.toNat ≤ i)
    (h2 : i + bs.length ≤ p.ipHeaderLen.toNat + 20) (q : Packet)
    (hq : q = { p with
      tcpSeq := q.tcpSeq, tcpAck := q.tcpAck, tcpDataOffset := q.tcpDataOffset,
      tcpFlags := q.tcpFlags, tcpChecksum := q.tcpChecksum })
    (hs : q.TCPSync (splice (window h p.buffer) i bs)) :
    TcpInv (put h p.buffer (splice (window h p.buffer) i bs)) q := by
  have hr := hi.room
  have hc := hi.buf.1
  have hwl := window_length hi.buf
  have hg := hi.ge
  have hl : (splice (window h p.buffer) i bs).length = p.buffer.cap := by
    rw [splice_length _ _ _ (by omega)]; exact hwl
  have hw := window_put hi.buf hl
  have hip := hi.ip.above (i := i) (bs := bs) (by omega) (by omega) (fun e => by have := hg.2 e; omega)
  cases q with
  | mk q1 q2 q3 q4 q5 q6 q7 q8 q9 q10 q11 q12 q13 q14 q15 q16 q17 q18 q19 q20 q21 q22 q23 q24 q25 q26 =>
  simp only [Packet.mk.injEq] at hq
  obtain ⟨rfl, rfl, rfl, rfl, rfl, rfl, rfl, rfl, rfl, rfl, rfl, rfl, rfl, rfl, rfl, _, _, _, _, _, rfl, rfl, rfl, rfl, rfl, rfl⟩ := hq
  refine ⟨put_valid hi.buf hl hi.buf, hi.hdr, hi.room, hi.proto, ?_, ?_, put_valid hi.buf hl hi.opts,
    put_valid hi.buf hl hi.data, hi.optsClear, hi.dataClear, hi.optsNil, hi.hash⟩
  · exact hw.symm ▸ hip
  · exact hw.symm ▸ hs

theorem TcpInv.fixedLen (hi : TcpInv h p) (hr : p.ipHeaderLen.toNat + 20 ≤ p.buffer.len) (old new : U16) :
    TcpInv (put h p.buffer (fixedBytes p (window h p.buffer) old new)) (fixed p old new) := by
  have hc := hi.buf.1
  have hwl := window_length hi.buf
  have hl : (fixedBytes p (window h p.buffer) old new).length = p.buffer.cap := by
    rw [fixedBytes_length (by omega)]; exact hwl
  have hw := window_put hi.buf hl
  refine ⟨put_valid hi.buf hl hi.buf, hi.hdr, hi.room, hi.proto, ?_, ?_, put_valid hi.buf hl hi.opts,
    put_valid hi.buf hl hi.data, hi.optsClear, hi.dataClear, hi.optsNil, hi.hash⟩
  · exact hw.symm ▸ IPSync_fixed hi.hdr hi.ip (by omega) old new
  · exact hw.symm ▸ TCPWire_fixedBytes hi.hdr hi.tcp (by omega) old new

/-- Replacing attachments. -/
theorem TcpInv.setParts (hi : TcpInv h p) {b o d : Slice} (hb : b = head p.buffer b.len)
    (hbl : p.ipHeaderLen.toNat + 20 ≤ b.len) (hbc : b.len ≤ p.buffer.cap)
    (ho : o.Valid h) (hd : d.Valid h) (hoc : Clear p.buffer o 0 (p.ipHeaderLen.toNat + 20))
    (hdc : Clear p.buffer d 0 (p.ipHeaderLen.toNat + 20)) (hon : o.len = 0 → o = Slice.nil) :
    TcpInv h { p with buffer := b, tcpOptions := o, tcpData := d } := by
  have hw : window h b = window h p.buffer := by rw [hb, window_head]
  have hoc' : Clear b o 0 (p.ipHeaderLen.toNat + 20) := by rw [hb]; exact hoc
  have hdc' : Clear b d 0 (p.ipHeaderLen.toNat + 20) := by rw [hb]; exact hdc
  refine ⟨?_, hi.hdr, hbl, hi.proto, hw.symm ▸ hi.ip, hw.symm ▸ hi.tcp, ho, hd, hoc', hdc', hon, hi.hash⟩
  show b.Valid h
  rw [hb]; exact head_valid hi.buf hbc

theorem TcpInv.detachOk (hi : TcpInv h p) {o : U16} (h1 : 20 + o.toNat ≤ p.tcpDataOffset.toNat * 4)
    (h2 : p.ipHeaderLen.toNat + p.tcpDataOffset.toNat * 4 ≤ p.buffer.len)
    (h3 : p.buffer.len - p.ipHeaderLen.toNat < 65536) : DetachOk h p o :=
  ⟨hi.buf, hi.hdr, hi.tcp.offLe, h1, h2, h3⟩

theorem sub_quarter {off : Byte} {o : U16} (h1 : o.toNat ≤ off.toNat * 4) (hle : off.toNat ≤ 15) :
    (off - (o / 4).setWidth 8).toNat = off.toNat - o.toNat / 4 := by
  rw [BitVec.toNat_sub, BitVec.toNat_setWidth, BitVec.toNat_udiv]
  show (2 ^ 8 - o.toNat / 4 % 2 ^ 8 + off.toNat) % 2 ^ 8 = _
  omega

/-- After cutting, before the length fields are updated. -/
theorem TcpInv.cutHdr (hi : TcpInv h p) {o : U16} (hd : DetachOk h p o) :
    TcpInv (put h p.buffer (splice (window h p.buffer) (p.ipHeaderLen.toNat + 12)
      [(p.tcpDataOffset - (o / 4).setWidth 8).shiftLeft 4])) (cutHdr p o) := by
  have h1 := hd.opt
  have h2 := hd.inb
  have hc := hi.buf.1
  have hwl := window_length hi.buf
  have hle := sub_quarter (o := o) (by omega) hd.off
  have h3 := hd.off
  have hs := hi.setTcp (i := p.ipHeaderLen.toNat + 12)
    (bs := [(p.tcpDataOffset - (o / 4).setWidth 8).shiftLeft 4]) (by omega) (by rw [List.length_singleton]; omega)
    { p with tcpDataOffset := p.tcpDataOffset - (o / 4).setWidth 8 } rfl
    (hi.tcp.setOff (o := p.tcpDataOffset - (o / 4).setWidth 8) (by omega) (by omega))
  have hv' := hs.buf
  refine TcpInv.setParts hs (b := (cut p o).buffer) (o := (cut p o).tcpOptions) (d := (cut p o).tcpData) rfl ?_ ?_ ?_ ?_ ?_ ?_ ?_
  · show p.ipHeaderLen.toNat + 20 ≤ p.ipHeaderLen.toNat + p.tcpDataOffset.toNat * 4 - o.toNat
    omega
  · show p.ipHeaderLen.toNat + p.tcpDataOffset.toNat * 4 - o.toNat ≤ p.buffer.cap
    omega
  · unfold cut; simp only
    split
    · exact hs.opts
    · exact head_valid (tail_valid hv' (by show _ ≤ p.buffer.len; omega)) (by simp [tail]; omega)
  · unfold cut; simp only
    split
    · exact hs.data
    · exact tail_valid hv' (by show _ ≤ p.buffer.len; omega)
  · unfold cut; simp only
    split
    · exact hs.optsClear
    · right; right
      show p.buffer.off + 0 + (p.ipHeaderLen.toNat + 20) ≤ p.buffer.off + (p.ipHeaderLen.toNat + p.tcpDataOffset.toNat * 4 - o.toNat)
      omega
  · unfold cut; simp only
    split
    · exact hs.dataClear
    · right; right
      show p.buffer.off + 0 + (p.ipHeaderLen.toNat + 20) ≤ p.buffer.off + (p.ipHeaderLen.toNat + p.tcpDataOffset.toNat * 4)
      omega
  · unfold cut; simp only
    split
    · exact hs.optsNil
    · rename_i ho
      intro h0
      exact absurd (BitVec.eq_of_toNat_eq (show o.toNat = (0 : U16).toNat from h0)) ho

theorem TcpInv.detach (hi : TcpInv h p) {o : U16} (hd : DetachOk h p o) :
    TcpInv (put h p.buffer (detachedBytes p (window h p.buffer) o))
      (fixed (Packet.cutHdr p o) p.ipTotalLength (p.ipTotalLength - cutLen p o)) := by
  have hs := hi.cutHdr hd
  have hc := hi.buf.1
  have h2 := hd.inb
  have h1 := hd.opt
  have hwl := window_length hi.buf
  have hl : (splice (window h p.buffer) (p.ipHeaderLen.toNat + 12)
      [(p.tcpDataOffset - (o / 4).setWidth 8).shiftLeft 4]).length = p.buffer.cap := by
    rw [splice_length _ _ _ (by rw [List.length_singleton]; omega)]; exact hwl
  have := hs.fixedLen hs.room p.ipTotalLength (p.ipTotalLength - cutLen p o)
  have hw : window (put h p.buffer (splice (window h p.buffer) (p.ipHeaderLen.toNat + 12)
      [(p.tcpDataOffset - (o / 4).setWidth 8).shiftLeft 4])) (Packet.cutHdr p o).buffer = _ := window_put hi.buf hl
  rw [hw] at this
  have hpp := put_put hi.buf hl (W' := detachedBytes p (window h p.buffer) o)
    (by unfold detachedBytes; rw [fixedBytes_length (by omega)]; exact hl)
  rw [← hpp]
  exact this

/-- Allocating in memory does not disturb a packet. -/
theorem TcpInv.append (hi : TcpInv h p) (grow : Nat → Nat) (bs : List Byte) :
    TcpInv (h.append grow Slice.nil bs).2 p := by
  obtain ⟨_, _, _, hold⟩ := append_nil_spec grow (h := h) bs
  have hw := window_append_nil grow (h := h) bs hi.buf
  exact ⟨(hold _ hi.buf).1, hi.hdr, hi.room, hi.proto, hw.symm ▸ hi.ip, hw.symm ▸ hi.tcp, (hold _ hi.opts).1,
    (hold _ hi.data).1, hi.optsClear, hi.dataClear, hi.optsNil, hi.hash⟩

theorem append_nil_nil (grow : Nat → Nat) (bs : List Byte) :
    (h.append grow Slice.nil bs).1.len = 0 → (h.append grow Slice.nil bs).1 = Slice.nil := by
  intro h0
  have := (append_nil_spec grow (h := h) bs).2.2.1
  have hb : bs = [] := List.eq_nil_of_length_eq_zero (by omega)
  subst hb
  rfl

theorem add_quarter {off : Byte} {n : Nat} (h : off.toNat + n / 4 ≤ 15) :
    (off + BitVec.ofNat 8 (n / 4)).toNat = off.toNat + n / 4 := by
  rw [BitVec.toNat_add, BitVec.toNat_ofNat]; omega

theorem TcpInv.attach (hi : TcpInv h p) (grow : Nat → Nat) {o d : Slice} (hd : d.Valid h)
    (hdc : Clear p.buffer d 0 (p.ipHeaderLen.toNat + 20)) (hoff : p.tcpDataOffset.toNat + o.len / 4 ≤ 15) :
    TcpInv (put (h.append grow Slice.nil (h.bytes o)).2 p.buffer
        (attachedBytes p (window h p.buffer) o.len d.len))
      { fixed (attached grow h p o d) p.ipTotalLength (p.ipTotalLength + BitVec.ofNat 16 (d.len + o.len)) with
        tcpDataOffset := p.tcpDataOffset + BitVec.ofNat 8 (o.len / 4) } := by
  have hr := hi.room
  have hc := hi.buf.1
  have hwl := window_length hi.buf
  have ha := hi.append grow (h.bytes o)
  obtain ⟨_, hov, _, hold⟩ := append_nil_spec grow (h := h) (h.bytes o)
  have hoc : Clear p.buffer (h.append grow Slice.nil (h.bytes o)).1 0 (p.ipHeaderLen.toNat + 20) :=
    append_nil_clear grow (h.bytes o) hi.buf (by omega)
  have hon := append_nil_nil (h := h) grow (h.bytes o)
  have hw := window_append_nil grow (h := h) (h.bytes o) hi.buf
  have hset := TcpInv.setParts ha (b := p.buffer) (o := (h.append grow Slice.nil (h.bytes o)).1) (d := d) rfl hr hc hov
    (hold _ hd).1 hoc hdc hon
  have hfx := hset.fixedLen hr p.ipTotalLength (p.ipTotalLength + BitVec.ofNat 16 (d.len + o.len))
  have hbg := ha.buf
  generalize hg : (h.append grow Slice.nil (h.bytes o)).2 = g at *
  generalize hq : fixed (attached grow h p o d) p.ipTotalLength (p.ipTotalLength + BitVec.ofNat 16 (d.len + o.len)) = q
  have hq1 : q = fixed { p with buffer := p.buffer, tcpOptions := (h.append grow Slice.nil (h.bytes o)).1, tcpData := d }
      p.ipTotalLength (p.ipTotalLength + BitVec.ofNat 16 (d.len + o.len)) := hq.symm
  rw [← hq1] at hfx
  have hqb : q.buffer = p.buffer := by rw [hq1]; rfl
  have hqh : q.ipHeaderLen = p.ipHeaderLen := by rw [hq1]; rfl
  have hqc : q.tcpChecksum = p.tcpChecksum := by rw [hq1]; rfl
  have hqo : q.tcpDataOffset = p.tcpDataOffset := by rw [hq1]; rfl
  have e1 : fixedBytes { p with buffer := p.buffer, tcpOptions := (h.append grow Slice.nil (h.bytes o)).1, tcpData := d }
      (window g p.buffer) p.ipTotalLength (p.ipTotalLength + BitVec.ofNat 16 (d.len + o.len)) =
      fixedBytes p (window h p.buffer) p.ipTotalLength (p.ipTotalLength + BitVec.ofNat 16 (d.len + o.len)) := by
    rw [hw]; rfl
  rw [e1] at hfx
  unfold attachedBytes
  generalize hF : fixedBytes p (window h p.buffer) p.ipTotalLength (p.ipTotalLength + BitVec.ofNat 16 (d.len + o.len)) = F at *
  have hFl : F.length = p.buffer.cap := by rw [← hF, fixedBytes_length (by omega)]; exact hwl
  have hwF := window_put hbg hFl
  have e3 : (put g p.buffer F) = put g q.buffer F := by rw [hqb]
  have e4 : window (put g q.buffer F) q.buffer = F := by rw [hqb]; exact hwF
  have l1 : p.ipHeaderLen.toNat + 16 + (enc16 .big p.tcpChecksum).length ≤ F.length := by simp; omega
  have s1 := hfx.setTcp (i := p.ipHeaderLen.toNat + 16) (bs := enc16 .big p.tcpChecksum) (by rw [hqh]; omega)
    (by rw [hqh]; simp) q rfl
    (by
      have := hfx.tcp.setCsum (by rw [hqh, hqb, hwF]; omega) q.tcpChecksum
      rw [hqh, hqc] at this
      show TCPWire _ _ _ _ _ _ _ _ _
      rw [hqh, hqc]
      exact this)
  have e5 : window (put g p.buffer F) q.buffer = F := by rw [hqb]; exact hwF
  rw [e5, hqb, put_put hbg hFl (by rw [splice_length _ _ _ l1]; exact hFl)] at s1
  generalize hG : splice F (p.ipHeaderLen.toNat + 16) (enc16 .big p.tcpChecksum) = G at *
  have hGl : G.length = p.buffer.cap := by rw [← hG, splice_length _ _ _ l1]; exact hFl
  have hwG := window_put hbg hGl
  have e6 : window (put g p.buffer G) q.buffer = G := by rw [hqb]; exact hwG
  have l2 : p.ipHeaderLen.toNat + 12 + [(p.tcpDataOffset + BitVec.ofNat 8 (o.len / 4)).shiftLeft 4].length ≤ G.length := by
    rw [List.length_singleton]; omega
  have s2 := s1.setTcp (i := p.ipHeaderLen.toNat + 12) (bs := [(p.tcpDataOffset + BitVec.ofNat 8 (o.len / 4)).shiftLeft 4])
    (by rw [hqh]; omega) (by rw [hqh, List.length_singleton]; omega)
    { q with tcpDataOffset := p.tcpDataOffset + BitVec.ofNat 8 (o.len / 4) } rfl
    (by
      have hqt := s1.tcp
      unfold Packet.TCPSync at hqt
      rw [hqh] at hqt
      have := hqt.setOff (o := p.tcpDataOffset + BitVec.ofNat 8 (o.len / 4)) (by rw [e6]; omega)
        (by rw [add_quarter hoff]; exact hoff)
      show TCPWire q.ipHeaderLen.toNat _ _ _ _ _ _ _ _
      rw [hqh]
      exact this)
  rw [e6, hqb, put_put hbg hGl (by rw [splice_length _ _ _ l2]; exact hGl)] at s2
  rw [hq1] at s2 ⊢
  exact s2

theorem TcpInv.mem (hi : TcpInv h p)
    (hs : p.buffer.len - p.ipHeaderLen.toNat + p.tcpOptions.len + p.tcpData.len < 65536) : TcpMem h p :=
  ⟨hi.buf, hi.hdr, hi.room, hi.opts, hi.data, hi.optsClear, hi.dataClear, hs⟩

end

end Verif.Packet
