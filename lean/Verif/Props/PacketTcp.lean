import Verif.Packet.TcpInv
/-!
TCP operations of package `packet`: C56-C61 (detaching, attaching, adjusting), C68 and C75 (any
sequence of operations).
-/
namespace Verif.Packet
open Verif.Spec

/-! ### What a packet says is on the wire -/

/-- Everything the accessors of `p` report is what a receiver of the bytes `B` would read. -/
structure OnWire (p : Packet) (B : List Byte) : Prop where
  ip4 : p.IPversion = .V4 → be16 B 2 = some p.IPTotalLen.toNat ∧ be16 B 10 = some p.ipChecksum.toNat ∧
    B[9]? = some p.IPProto ∧ (B.drop 12).take 4 = p.SourceAddress ∧ (B.drop 16).take 4 = p.DestinationAddress
  ip6 : p.IPversion = .V6 → (∃ n, be16 B 4 = some n ∧ p.IPTotalLen.toNat = (40 + n) % 65536) ∧
    B[6]? = some p.IPProto ∧ (B.drop 8).take 16 = p.SourceAddress ∧ (B.drop 24).take 16 = p.DestinationAddress
  transport : TransportFields p B p.IPHeaderLen.toNat

theorem part_take {W : List Byte} {n a k : Nat} (h : a + k ≤ n) :
    ((W.take n).drop a).take k = (W.drop a).take k := by
  apply List.ext_getElem?
  intro j
  rw [List.getElem?_take, List.getElem?_take]
  split
  · rw [List.getElem?_drop, List.getElem?_drop, List.getElem?_take, if_pos (by omega)]
  · rfl

theorem dataStart_off {o : Byte} {b : Byte} (h : b >>> 4 = o) :
    (o.setWidth 16 * (4 : U16)).toNat = b.toNat / 16 * 4 := by
  rw [← h, ← offset_of]; exact dataStart_nat b

theorem TcpInv.onWire {h : Heap} {p : Packet} (hi : TcpInv h p) : OnWire p (h.bytes p.buffer) := by
  have hr := hi.room
  have hc := hi.buf.1
  have hbl := Heap.bytes_length hi.buf
  have hwl := window_length hi.buf
  have hbw := bytes_eq_window hi.buf
  have hg := hi.ge
  have e8 : ∀ i, i < p.ipHeaderLen.toNat + 20 → u8at (h.bytes p.buffer) i = u8at (window h p.buffer) i := by
    intro i hlt; rw [hbw, u8at_take (by omega)]
  have e16 : ∀ i, i + 1 < p.ipHeaderLen.toNat + 20 → u16at (h.bytes p.buffer) i = u16at (window h p.buffer) i := by
    intro i hlt; rw [hbw, u16at_take (by omega)]
  have e32 : ∀ i, i + 3 < p.ipHeaderLen.toNat + 20 → u32at (h.bytes p.buffer) i = u32at (window h p.buffer) i := by
    intro i hlt; rw [hbw, u32at_take (by omega)]
  have ip := hi.ip
  have tcp := hi.tcp
  refine ⟨fun e => ⟨?_, ?_, ?_, ?_, ?_⟩, fun e => ⟨⟨_, be16_u16at (by omega), ?_⟩, ?_, ?_, ?_⟩, fun _ => ?_, fun e => ?_, fun e => ?_⟩
  · rw [be16_u16at (by omega), e16 _ (by omega), ip.tot4 e]; rfl
  · rw [be16_u16at (by omega), e16 _ (by omega), ip.csum4 e]
  · rw [u8at_some (by omega), e8 _ (by omega), ip.proto4 e]; rfl
  · rw [hbw, part_take (by omega), ip.src4 e]; rfl
  · rw [hbw, part_take (by omega), ip.dst4 e]; rfl
  · rw [e16 _ (by omega), ip.tot6 e, BitVec.toNat_sub]
    have := p.ipTotalLength.isLt
    show p.ipTotalLength.toNat = (40 + (2 ^ 16 - 40 + p.ipTotalLength.toNat) % 2 ^ 16) % 65536
    omega
  · have := hg.2 e
    rw [u8at_some (by omega), e8 _ (by omega), ip.proto6 e]; rfl
  · have := hg.2 e
    rw [hbw, part_take (by omega), ip.src6 e]; rfl
  · have := hg.2 e
    rw [hbw, part_take (by omega), ip.dst6 e]; rfl
  · have hp : p.ipProto = IPProtocolTCP := hi.proto
    have hsp : p.SourcePort = p.tcpSourcePort := by unfold Packet.SourcePort; rw [if_pos hp]
    have hdp : p.DestPort = p.tcpDestinationPort := by unfold Packet.DestPort; rw [if_pos hp]
    rw [hsp, hdp]
    show be16 _ p.ipHeaderLen.toNat = _ ∧ be16 _ (p.ipHeaderLen.toNat + 2) = _ ∧ be32 _ (p.ipHeaderLen.toNat + 4) = _ ∧
      be32 _ (p.ipHeaderLen.toNat + 8) = _ ∧ (∃ d, _[p.ipHeaderLen.toNat + 12]? = _ ∧ _) ∧ _[p.ipHeaderLen.toNat + 13]? = _ ∧
      be16 _ (p.ipHeaderLen.toNat + 16) = _
    refine ⟨?_, ?_, ?_, ?_, ⟨_, u8at_some (by omega), ?_⟩, ?_, ?_⟩
    · rw [be16_u16at (by omega), e16 _ (by omega), tcp.sp]
    · rw [be16_u16at (by omega), e16 _ (by omega), tcp.dp]
    · rw [be32_u32at (by omega), e32 _ (by omega), tcp.seq]
    · rw [be32_u32at (by omega), e32 _ (by omega), tcp.ack]
    · exact dataStart_off (by rw [e8 _ (by omega)]; exact tcp.off)
    · rw [u8at_some (by omega), e8 _ (by omega), tcp.flags]; rfl
    · rw [be16_u16at (by omega), e16 _ (by omega), tcp.csum]
  · have e' : p.ipProto = 17 := e
    rw [hi.proto] at e'; exact absurd e' (by decide)
  · exact absurd hi.proto e

/-! ### Operations on TCP packets and their sequences -/

/-- The exported operations on TCP packets. -/
inductive TcpOp where
  | incSeq (n : U32)
  | decSeq (n : U32)
  | incAck (n : U32)
  | decAck (n : U32)
  | detach (optionLength : U16)
  | attach (options data : Slice)
  | dropData
  | dropAll
  | setData (d : Slice)
  | updateIP
  | verifyIP
  | updateTCP
  | verifyTCP
  | fixLength (old new : U16)
  | toFinAck

/-- One call; memory and packet afterwards. -/
noncomputable def TcpOp.run (grow : Nat → Nat) (h : Heap) (p : Packet) : TcpOp → Res (Heap × Packet)
  | .incSeq n => IncreaseTCPSeq h p n
  | .decSeq n => DecreaseTCPSeq h p n
  | .incAck n => IncreaseTCPAck h p n
  | .decAck n => DecreaseTCPAck h p n
  | .detach o => TCPDataDetach h p o
  | .attach o d => do let r ← TCPDataAttach grow h p o d; .ok (r.1, r.2.1)
  | .dropData => .ok (h, p.DropTCPDetachedDataBytes)
  | .dropAll => .ok (h, p.DropTCPDetachedBytes)
  | .setData d => .ok (h, p.SetTCPData d)
  | .updateIP => UpdateIPv4Checksum h p
  | .verifyIP => do let r ← VerifyIPv4Checksum h p; .ok (r.2, p)
  | .updateTCP => UpdateTCPChecksum h p
  | .verifyTCP => do let r ← VerifyTCPChecksum h p; .ok (r.2, p)
  | .fixLength a b => FixupIPHdrOnDataModify h p a b
  | .toFinAck => ConvertAcktoFinAck h p

/-- The data offset lies inside the packet and at least `o` bytes of options precede it. -/
def Detachable (p : Packet) (o : U16) : Prop :=
  20 + o.toNat ≤ p.TCPDataStartBytes.toNat ∧
  p.IPHeaderLen.toNat + p.TCPDataStartBytes.toNat ≤ p.buffer.len ∧
  p.buffer.len - p.IPHeaderLen.toNat < 65536

/-- `d` lies in memory and not inside the packet's headers. -/
def Foreign (h : Heap) (p : Packet) (d : Slice) : Prop :=
  d.Valid h ∧ (d.arr ≠ p.buffer.arr ∨ d.off + d.len ≤ p.buffer.off ∨
    p.buffer.off + p.IPHeaderLen.toNat + 20 ≤ d.off)

/-- What a caller has to respect. -/
def TcpOp.Allowed (h : Heap) (p : Packet) : TcpOp → Prop
  | .detach o => Detachable p o
  | .toFinAck => Detachable p 0
  | .attach o d => p.TCPOptionLength = 0 ∧ Foreign h p d ∧ p.TCPDataStartBytes.toNat + o.len < 64
  | .setData d => Foreign h p d
  | .updateIP | .verifyIP => p.IPversion = .V4
  | .updateTCP | .verifyTCP =>
    p.buffer.len - p.IPHeaderLen.toNat + p.TCPOptionLength + p.TCPDataLength < 65536
  | _ => True

/-- A whole history of calls. -/
noncomputable def runOps (grow : Nat → Nat) (h : Heap) (p : Packet) : List TcpOp → Res (Heap × Packet)
  | [] => .ok (h, p)
  | op :: t => do
    let r ← op.run grow h p
    runOps grow r.1 r.2 t

/-- Every call of the history is allowed at the moment it is made. -/
def AllAllowed (grow : Nat → Nat) (h : Heap) (p : Packet) : List TcpOp → Prop
  | [] => True
  | op :: t => op.Allowed h p ∧ ∀ h' p', op.run grow h p = .ok (h', p') → AllAllowed grow h' p' t

theorem Detachable.ok {h : Heap} {p : Packet} (hi : TcpInv h p) {o : U16} (hd : Detachable p o) : DetachOk h p o := by
  have hds := dataStart_nat' hi.tcp.offLe
  unfold Detachable Packet.IPHeaderLen at hd
  rw [hds] at hd
  exact hi.detachOk hd.1 hd.2.1 hd.2.2

theorem Foreign.clear {h : Heap} {p : Packet} {d : Slice} (hf : Foreign h p d) :
    Clear p.buffer d 0 (p.ipHeaderLen.toNat + 20) := by
  rcases hf.2 with h1 | h1 | h1
  · left; exact h1
  · right; left; omega
  · right; right
    unfold Packet.IPHeaderLen at h1
    omega

theorem Attach_refused (grow : Nat → Nat) {h : Heap} {p : Packet} {o d : Slice} (hb : p.buffer.Valid h)
    (hr : p.ipHeaderLen.toNat ≤ p.buffer.len)
    (hgo : ¬ (p.TCPDataStartBytes = BitVec.ofNat 16 (p.buffer.len - p.ipHeaderLen.toNat) ∨ o.len = 0)) :
    TCPDataAttach grow h p o d = .ok (h, p, some (.msg "tcp data attachment failed")) := by
  unfold TCPDataAttach tcpDataAttach
  rw [from_eq hb, if_pos hr, Res.ok_bind]
  rw [if_pos]
  · rfl
  · exact ⟨fun e => hgo (.inl e), fun e => hgo (.inr e)⟩

theorem run_ok (grow : Nat → Nat) {h : Heap} {p : Packet} (hi : TcpInv h p) (op : TcpOp) (ha : op.Allowed h p) :
    ∃ h' p', op.run grow h p = .ok (h', p') ∧ TcpInv h' p' ∧ p'.l4flowhash = p.l4flowhash := by
  have hr := hi.room
  have hc := hi.buf.1
  have hwl := window_length hi.buf
  cases op with
  | incSeq n =>
    exact ⟨_, _, IncSeq_eq hi.buf hr n, hi.setTcp (by omega) (by simp) _ rfl (hi.tcp.setSeq (by omega) _), rfl⟩
  | decSeq n =>
    exact ⟨_, _, DecSeq_eq hi.buf hr n, hi.setTcp (by omega) (by simp) _ rfl (hi.tcp.setSeq (by omega) _), rfl⟩
  | incAck n =>
    exact ⟨_, _, IncAck_eq hi.buf hr n, hi.setTcp (by omega) (by simp) _ rfl (hi.tcp.setAck (by omega) _), rfl⟩
  | decAck n =>
    exact ⟨_, _, DecAck_eq hi.buf hr n, hi.setTcp (by omega) (by simp) _ rfl (hi.tcp.setAck (by omega) _), rfl⟩
  | detach o =>
    have hd := Detachable.ok hi ha
    exact ⟨_, _, Detach_eq hd, hi.detach hd, rfl⟩
  | attach o d =>
    obtain ⟨h1, h2, h3⟩ := ha
    have hds := dataStart_nat' hi.tcp.offLe
    rw [hds] at h3
    by_cases hgo : p.TCPDataStartBytes = BitVec.ofNat 16 (p.buffer.len - p.ipHeaderLen.toNat) ∨ o.len = 0
    · refine ⟨_, _, ?_, hi.attach grow (o := o) h2.1 h2.clear (by omega), rfl⟩
      exact res_bind (Attach_eq grow hi.buf hr (hi.optsNil h1) hgo) rfl
    · refine ⟨h, p, ?_, hi, rfl⟩
      exact res_bind (Attach_refused grow hi.buf (by omega) hgo) rfl
  | dropData =>
    refine ⟨h, _, rfl, TcpInv.setParts hi (b := p.buffer) (o := p.tcpOptions) (d := Slice.nil) rfl hr hc hi.opts
      (nil_valid h) hi.optsClear (nil_clear _ _ _) hi.optsNil, rfl⟩
  | dropAll =>
    refine ⟨h, _, rfl, TcpInv.setParts hi (b := p.buffer) (o := Slice.nil) (d := Slice.nil) rfl hr hc (nil_valid h)
      (nil_valid h) (nil_clear _ _ _) (nil_clear _ _ _) (fun _ => rfl), rfl⟩
  | setData d =>
    have ha' : Foreign h p d := ha
    refine ⟨h, _, rfl, TcpInv.setParts hi (b := p.buffer) (o := p.tcpOptions) (d := d) rfl hr hc hi.opts
      ha'.1 hi.optsClear ha'.clear hi.optsNil, rfl⟩
  | updateIP =>
    have h4 : p.version = .V4 := ha
    have h20 : p.ipHeaderLen = 20 := by
      rcases hi.hdr with ⟨_, h1⟩ | ⟨h1, _⟩
      · exact h1
      · rw [h4] at h1; exact absurd h1 (by decide)
    refine ⟨_, _, UpdateIPv4_eq hi.buf h20 (by omega) (by have := hi.ge.1; omega), ?_, rfl⟩
    generalize cks (splice ((window h p.buffer).take 20) 10 [0, 0]) = C
    have hg := hi.ge.1
    have hl : (splice (window h p.buffer) 10 (enc16 .big C)).length = p.buffer.cap := by
      rw [splice_length _ _ _ (by simp; omega)]; exact hwl
    have hw := window_put hi.buf hl
    have hip := hi.ip
    unfold Packet.IPSync at hip
    rw [h4] at hip
    refine ⟨put_valid hi.buf hl hi.buf, hi.hdr, hi.room, hi.proto, ?_, ?_, put_valid hi.buf hl hi.opts,
      put_valid hi.buf hl hi.data, hi.optsClear, hi.dataClear, hi.optsNil, hi.hash⟩
    · show IPWire p.version _ _ _ _ _ (window _ p.buffer)
      rw [hw, h4]
      exact hip.setCsum4 (by omega) C
    · show TCPWire _ _ _ _ _ _ _ _ (window _ p.buffer)
      rw [hw]
      exact hi.tcp.away (by simp; omega) (.inl (by simp; omega))
  | verifyIP =>
    have h4 : p.version = .V4 := ha
    have h20 : p.ipHeaderLen = 20 := by
      rcases hi.hdr with ⟨_, h1⟩ | ⟨h1, _⟩
      · exact h1
      · rw [h4] at h1; exact absurd h1 (by decide)
    refine ⟨h, p, ?_, hi, rfl⟩
    refine res_bind (VerifyIPv4_eq hi.buf h20 (by omega) (by have := hi.ge.1; omega)) ?_
    simp only
    rw [← hi.ip.csum4 h4, enc16_u16at, splice_u16at (by omega), put_self]
  | updateTCP =>
    have hm := hi.mem ha
    refine ⟨_, _, UpdateTCP_eq hm, hi.setTcp (by omega) (by simp) _ rfl (hi.tcp.setCsum (by omega) _), rfl⟩
  | verifyTCP =>
    have hm := hi.mem ha
    refine ⟨h, p, ?_, hi, rfl⟩
    exact res_bind (VerifyTCP_eq hm) rfl
  | fixLength a b =>
    have := Fixup_eq hi.buf hwl (by omega) a b
    rw [put_self] at this
    exact ⟨_, _, this, hi.fixedLen hr a b, rfl⟩
  | toFinAck =>
    have hd := Detachable.ok hi ha
    refine ⟨_, _, ConvertAck_eq hd, ?_, rfl⟩
    have hl1 : (splice (window h p.buffer) (p.ipHeaderLen.toNat + 13) [0x11]).length = p.buffer.cap := by
      rw [splice_length _ _ _ (by simp; omega)]; exact hwl
    have s1 := hi.setTcp (i := p.ipHeaderLen.toNat + 13) (bs := [0x11]) (by omega) (by simp)
      { p with tcpFlags := 0x11 } rfl (hi.tcp.setFlags (by omega) 0x11)
    have hd1 : DetachOk (put h p.buffer (splice (window h p.buffer) (p.ipHeaderLen.toNat + 13) [0x11]))
        { p with tcpFlags := 0x11 } 0 := ⟨s1.buf, hd.hdr, hd.off, hd.opt, hd.inb, hd.size⟩
    have s2 := s1.detach hd1
    have hw1 : window (put h p.buffer (splice (window h p.buffer) (p.ipHeaderLen.toNat + 13) [0x11])) p.buffer
      = splice (window h p.buffer) (p.ipHeaderLen.toNat + 13) [0x11] := window_put hi.buf hl1
    simp only [hw1] at s2
    rw [put_put hi.buf hl1] at s2
    · exact TcpInv.setParts s2 (b := _) (o := Slice.nil) (d := Slice.nil) rfl s2.room s2.buf.1 (nil_valid _)
        (nil_valid _) (nil_clear _ _ _) (nil_clear _ _ _) (fun _ => rfl)
    · unfold detachedBytes
      rw [fixedBytes_length]
      · rw [splice_length _ _ _ (by rw [hl1]; simp only [List.length_cons, List.length_nil]; omega)]; exact hl1
      · rw [splice_length _ _ _ (by rw [hl1]; simp only [List.length_cons, List.length_nil]; omega)]; omega

theorem runOps_ok (grow : Nat → Nat) (ops : List TcpOp) {h : Heap} {p : Packet} (hi : TcpInv h p)
    (ha : AllAllowed grow h p ops) :
    ∃ h' p', runOps grow h p ops = .ok (h', p') ∧ TcpInv h' p' ∧ p'.l4flowhash = p.l4flowhash := by
  induction ops generalizing h p with
  | nil => exact ⟨h, p, rfl, hi, rfl⟩
  | cons op t ih =>
    obtain ⟨h1, p1, hr, hi1, hh1⟩ := run_ok grow hi op ha.1
    obtain ⟨h2, p2, hr2, hi2, hh2⟩ := ih hi1 (ha.2 _ _ hr)
    refine ⟨h2, p2, ?_, hi2, hh2.trans hh1⟩
    show (op.run grow h p >>= _) = _
    rw [hr, Res.ok_bind]
    exact hr2

/-- C75. After any sequence of (allowed) operations on an accepted TCP packet, no call crashed and
everything the accessors report is what is on the wire. -/
theorem C75_accessors_match_wire {h : Heap} {bytes : Slice} (hv : bytes.Valid h) {c : U64} {m : List Char}
    {p : Packet} (ha : New h c bytes m true = .ok (some p, none)) (ht : p.IPProto = 6) (hn : bytes.len < 65536)
    (grow : Nat → Nat) (ops : List TcpOp) (hall : AllAllowed grow h p ops) :
    ∃ h' p', runOps grow h p ops = .ok (h', p') ∧ OnWire p' (h'.bytes p'.buffer) := by
  obtain ⟨h', p', h1, h2, _⟩ := runOps_ok grow ops (accepted_inv hv ha ht hn) hall
  exact ⟨h', p', h1, h2.onWire⟩

/-- C68. After any sequence of (allowed) operations on an accepted TCP packet, the flow hash is the
one of the packet's current addresses and ports, and still the one it had when parsed. -/
theorem C68_flow_hash_current {h : Heap} {bytes : Slice} (hv : bytes.Valid h) {c : U64} {m : List Char}
    {p : Packet} (ha : New h c bytes m true = .ok (some p, none)) (ht : p.IPProto = 6) (hn : bytes.len < 65536)
    (grow : Nat → Nat) (ops : List TcpOp) (hall : AllAllowed grow h p ops) :
    ∃ h' p', runOps grow h p ops = .ok (h', p') ∧ p'.L4FlowHash = p.L4FlowHash ∧
      p'.L4FlowHash = ipString p'.SourceAddress ++ ':' :: ipString p'.DestinationAddress
        ++ ':' :: itoa p'.SourcePort.toNat ++ ':' :: itoa p'.DestPort.toNat := by
  obtain ⟨h', p', h1, h2, h3⟩ := runOps_ok grow ops (accepted_inv hv ha ht hn) hall
  exact ⟨h', p', h1, h3, h2.hash⟩

end Verif.Packet
