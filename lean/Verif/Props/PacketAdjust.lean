import Verif.Props.PacketSplit
/-! C59-C62 and C70: adjusting sequence numbers, FIN/ACK conversion, memory safety of attaching, the
authentication option and the rendering of flags. -/
namespace Verif.Packet
open Verif.Spec

/-! ### C60 -/

/-- A sequence or acknowledgement number adjustment. -/
inductive Adj where
  | incSeq (n : U32)
  | decSeq (n : U32)
  | incAck (n : U32)
  | decAck (n : U32)

/-- The call. -/
def Adj.op : Adj → TcpOp
  | .incSeq n => .incSeq n
  | .decSeq n => .decSeq n
  | .incAck n => .incAck n
  | .decAck n => .decAck n

/-- Net change of the sequence number, as an integer. -/
def netSeq : List Adj → Int
  | [] => 0
  | .incSeq n :: t => n.toNat + netSeq t
  | .decSeq n :: t => netSeq t - n.toNat
  | _ :: t => netSeq t

/-- Net change of the acknowledgement number, as an integer. -/
def netAck : List Adj → Int
  | [] => 0
  | .incAck n :: t => n.toNat + netAck t
  | .decAck n :: t => netAck t - n.toNat
  | _ :: t => netAck t

/-- The bytes with the given numbers. -/
def adjBytes (H : Nat) (W : List Byte) (s a : U32) : List Byte :=
  splice (splice W (H + 4) (enc32 .big s)) (H + 8) (enc32 .big a)

theorem adjBytes_length {H : Nat} {W : List Byte} (hl : H + 12 ≤ W.length) (s a : U32) :
    (adjBytes H W s a).length = W.length := by
  have h1 : (splice W (H + 4) (enc32 .big s)).length = W.length := splice_length _ _ _ (by simp; omega)
  unfold adjBytes
  rw [splice_length _ _ _ (by simp; omega), h1]

theorem adjBytes_seq {H : Nat} {W : List Byte} (hl : H + 12 ≤ W.length) (s a s' : U32) :
    splice (adjBytes H W s a) (H + 4) (enc32 .big s') = adjBytes H W s' a := by
  have h1 : (splice W (H + 4) (enc32 .big s)).length = W.length := splice_length _ _ _ (by simp; omega)
  unfold adjBytes
  rw [splice_comm (i := H + 8) (j := H + 4) (by simp; omega) (by simp; omega) (by simp), splice_over (by simp; omega) (by simp)]

theorem adjBytes_ack {H : Nat} {W : List Byte} (hl : H + 12 ≤ W.length) (s a a' : U32) :
    splice (adjBytes H W s a) (H + 8) (enc32 .big a') = adjBytes H W s a' := by
  have h1 : (splice W (H + 4) (enc32 .big s)).length = W.length := splice_length _ _ _ (by simp; omega)
  unfold adjBytes
  rw [splice_over (by simp; omega) (by simp)]

theorem adj_step (grow : Nat → Nat) {h : Heap} {p : Packet} (hi : TcpInv h p) (s a : U32) (x : Adj) :
    ∃ s' a', x.op.run grow (put h p.buffer (adjBytes p.ipHeaderLen.toNat (window h p.buffer) s a))
        { p with tcpSeq := s, tcpAck := a } =
      .ok (put h p.buffer (adjBytes p.ipHeaderLen.toNat (window h p.buffer) s' a'), { p with tcpSeq := s', tcpAck := a' }) ∧
      (s'.toNat : Int) = (s.toNat + netSeq [x]) % 2 ^ 32 ∧ (a'.toNat : Int) = (a.toNat + netAck [x]) % 2 ^ 32 := by
  have hr := hi.room
  have hc := hi.buf.1
  have hwl := window_length hi.buf
  have hal := fun s a => adjBytes_length (H := p.ipHeaderLen.toNat) (W := window h p.buffer) (by omega) s a
  have hap : ∀ s a, (adjBytes p.ipHeaderLen.toNat (window h p.buffer) s a).length = p.buffer.cap :=
    fun s a => (hal s a).trans hwl
  have hv1 : p.buffer.Valid (put h p.buffer (adjBytes p.ipHeaderLen.toNat (window h p.buffer) s a)) :=
    put_valid hi.buf (hap s a) hi.buf
  have hw := window_put hi.buf (hap s a)
  have hs := s.isLt
  have hk := a.isLt
  cases x with
  | incSeq n =>
    refine ⟨s + n, a, ?_, ?_, ?_⟩
    · refine (IncSeq_eq (p := { p with tcpSeq := s, tcpAck := a }) hv1 hr n).trans ?_
      simp only [hw]
      rw [adjBytes_seq (by omega), put_put hi.buf (hap s a) (hap _ _)]
    · simp only [netSeq, BitVec.toNat_add]; omega
    · simp only [netAck]; omega
  | decSeq n =>
    refine ⟨s - n, a, ?_, ?_, ?_⟩
    · refine (DecSeq_eq (p := { p with tcpSeq := s, tcpAck := a }) hv1 hr n).trans ?_
      simp only [hw]
      rw [adjBytes_seq (by omega), put_put hi.buf (hap s a) (hap _ _)]
    · simp only [netSeq, BitVec.toNat_sub]; have := n.isLt; omega
    · simp only [netAck]; omega
  | incAck n =>
    refine ⟨s, a + n, ?_, ?_, ?_⟩
    · refine (IncAck_eq (p := { p with tcpSeq := s, tcpAck := a }) hv1 hr n).trans ?_
      simp only [hw]
      rw [adjBytes_ack (by omega), put_put hi.buf (hap s a) (hap _ _)]
    · simp only [netSeq]; omega
    · simp only [netAck, BitVec.toNat_add]; omega
  | decAck n =>
    refine ⟨s, a - n, ?_, ?_, ?_⟩
    · refine (DecAck_eq (p := { p with tcpSeq := s, tcpAck := a }) hv1 hr n).trans ?_
      simp only [hw]
      rw [adjBytes_ack (by omega), put_put hi.buf (hap s a) (hap _ _)]
    · simp only [netSeq]; omega
    · simp only [netAck, BitVec.toNat_sub]; have := n.isLt; omega

theorem adj_all (grow : Nat → Nat) {h : Heap} {p : Packet} (hi : TcpInv h p) (xs : List Adj) (s a : U32) :
    ∃ s' a', runOps grow (put h p.buffer (adjBytes p.ipHeaderLen.toNat (window h p.buffer) s a))
        { p with tcpSeq := s, tcpAck := a } (xs.map Adj.op) =
      .ok (put h p.buffer (adjBytes p.ipHeaderLen.toNat (window h p.buffer) s' a'), { p with tcpSeq := s', tcpAck := a' }) ∧
      (s'.toNat : Int) = (s.toNat + netSeq xs) % 2 ^ 32 ∧ (a'.toNat : Int) = (a.toNat + netAck xs) % 2 ^ 32 := by
  induction xs generalizing s a with
  | nil =>
    refine ⟨s, a, rfl, ?_, ?_⟩
    · have := s.isLt; simp only [netSeq]; omega
    · have := a.isLt; simp only [netAck]; omega
  | cons x t ih =>
    obtain ⟨s1, a1, h1, h2, h3⟩ := adj_step grow hi s a x
    obtain ⟨s2, a2, g1, g2, g3⟩ := ih s1 a1
    refine ⟨s2, a2, res_bind h1 g1, ?_, ?_⟩
    · rw [g2]; cases x <;> simp only [netSeq] at h2 ⊢ <;> omega
    · rw [g3]; cases x <;> simp only [netAck] at h3 ⊢ <;> omega

theorem splice_u32at {b : List Byte} {i : Nat} (hi : i + 4 ≤ b.length) : splice b i (enc32 .big (u32at b i)) = b := by
  have : enc32 .big (u32at b i) = (b.drop i).take 4 := by
    rw [take4_eq hi]
    unfold u32at
    simp only [enc32]
    congr 1
    · apply BitVec.eq_of_toNat_eq
      rw [byteOf32_toNat, join32_toNat]
      have := (u8at b i).isLt; have := (u8at b (i+1)).isLt; have := (u8at b (i+2)).isLt; have := (u8at b (i+3)).isLt
      omega
    · congr 1
      · apply BitVec.eq_of_toNat_eq
        rw [byteOf32_toNat, join32_toNat]
        have := (u8at b i).isLt; have := (u8at b (i+1)).isLt; have := (u8at b (i+2)).isLt; have := (u8at b (i+3)).isLt
        omega
      · congr 1
        · apply BitVec.eq_of_toNat_eq
          rw [byteOf32_toNat, join32_toNat]
          have := (u8at b i).isLt; have := (u8at b (i+1)).isLt; have := (u8at b (i+2)).isLt; have := (u8at b (i+3)).isLt
          omega
        · congr 1
          apply BitVec.eq_of_toNat_eq
          rw [byteOf32_toNat, join32_toNat]
          have := (u8at b i).isLt; have := (u8at b (i+1)).isLt; have := (u8at b (i+2)).isLt; have := (u8at b (i+3)).isLt
          omega
  rw [this, splice_self]

theorem adjBytes_self {h : Heap} {p : Packet} (hi : TcpInv h p) :
    adjBytes p.ipHeaderLen.toNat (window h p.buffer) p.tcpSeq p.tcpAck = window h p.buffer := by
  have hr := hi.room
  have hc := hi.buf.1
  have hwl := window_length hi.buf
  unfold adjBytes
  rw [← hi.tcp.seq, splice_u32at (by omega), ← hi.tcp.ack, splice_u32at (by omega)]

/-- C60. Any sequence of sequence and acknowledgement number adjustments succeeds; the accessors and
the wire then show the original numbers plus the net change modulo 2^32, big-endian; nothing but
these two fields changes, in the packet or in memory. -/
theorem C60_adjustments_exact {h : Heap} {bytes : Slice} (hv : bytes.Valid h) {c : U64} {m : List Char}
    {p : Packet} (ha : New h c bytes m true = .ok (some p, none)) (ht : p.IPProto = 6) (hn : bytes.len < 65536)
    (grow : Nat → Nat) (xs : List Adj) :
    ∃ h' s a, runOps grow h p (xs.map Adj.op) = .ok (h', { p with tcpSeq := s, tcpAck := a }) ∧
      (s.toNat : Int) = (p.tcpSeq.toNat + netSeq xs) % 2 ^ 32 ∧
      (a.toNat : Int) = (p.tcpAck.toNat + netAck xs) % 2 ^ 32 ∧
      be32 (h'.bytes p.buffer) (p.IPHeaderLen.toNat + 4) = some s.toNat ∧
      be32 (h'.bytes p.buffer) (p.IPHeaderLen.toNat + 8) = some a.toNat ∧
      OnlyChanged h h' p.buffer (fun i => p.IPHeaderLen.toNat + 4 ≤ i ∧ i < p.IPHeaderLen.toNat + 12) := by
  have hi := accepted_inv hv ha ht hn
  have hr := hi.room
  have hc := hi.buf.1
  have hwl := window_length hi.buf
  obtain ⟨s, a, h1, h2, h3⟩ := adj_all grow hi xs p.tcpSeq p.tcpAck
  rw [adjBytes_self hi, put_self] at h1
  have hal := adjBytes_length (H := p.ipHeaderLen.toNat) (W := window h p.buffer) (by omega) s a
  have hl1 : (splice (window h p.buffer) (p.ipHeaderLen.toNat + 4) (enc32 .big s)).length = p.buffer.cap := by
    rw [splice_length _ _ _ (by simp; omega)]; exact hwl
  have hb : (put h p.buffer (adjBytes p.ipHeaderLen.toNat (window h p.buffer) s a)).bytes p.buffer
      = (adjBytes p.ipHeaderLen.toNat (window h p.buffer) s a).take p.buffer.len :=
    bytes_put hi.buf (hal.trans hwl)
  refine ⟨_, s, a, h1, h2, h3, ?_, ?_, ?_⟩
  · rw [hb]
    show be32 _ (p.ipHeaderLen.toNat + 4) = _
    rw [be32_u32at (by rw [List.length_take]; omega), u32at_take (by omega)]
    unfold adjBytes
    rw [u32at_splice_ne (by simp; omega) (by simp), u32at_splice_same (by omega)]
  · rw [hb]
    show be32 _ (p.ipHeaderLen.toNat + 8) = _
    rw [be32_u32at (by rw [List.length_take]; omega), u32at_take (by omega)]
    unfold adjBytes
    rw [u32at_splice_same (by omega)]
  · apply put_same hi.buf
    unfold adjBytes
    refine SameExcept.trans ((splice_same (by simp; omega)).mono ?_) ((splice_same (by simp; omega)).mono ?_)
    · intro i hx
      simp only [enc32_length] at hx
      show p.ipHeaderLen.toNat + 4 ≤ i ∧ i < p.ipHeaderLen.toNat + 12
      omega
    · intro i hx
      simp only [enc32_length] at hx
      show p.ipHeaderLen.toNat + 4 ≤ i ∧ i < p.ipHeaderLen.toNat + 12
      omega

/-- C60, second half: adjustments whose net change is zero (for instance increments followed by the
same decrements in any order) give back exactly the packet and the memory. -/
theorem C60_adjustments_undo {h : Heap} {bytes : Slice} (hv : bytes.Valid h) {c : U64} {m : List Char}
    {p : Packet} (ha : New h c bytes m true = .ok (some p, none)) (ht : p.IPProto = 6) (hn : bytes.len < 65536)
    (grow : Nat → Nat) (xs : List Adj) (hs : netSeq xs % 2 ^ 32 = 0) (hk : netAck xs % 2 ^ 32 = 0) :
    runOps grow h p (xs.map Adj.op) = .ok (h, p) := by
  have hi := accepted_inv hv ha ht hn
  obtain ⟨s, a, h1, h2, h3⟩ := adj_all grow hi xs p.tcpSeq p.tcpAck
  have e1 : s = p.tcpSeq := by apply BitVec.eq_of_toNat_eq; have := p.tcpSeq.isLt; omega
  have e2 : a = p.tcpAck := by apply BitVec.eq_of_toNat_eq; have := p.tcpAck.isLt; omega
  subst e1 e2
  rw [adjBytes_self hi, put_self] at h1
  exact h1

/-! ### C61 -/

/-- C61. On every accepted TCP packet whose data offset lies inside it, `ConvertAcktoFinAck` returns
nil; the packet is then its own headers (same bytes except length and checksum of the IP header, data
offset and flags), the flags byte is FIN|ACK on the wire and in the accessor, nothing is attached, the
IP total length is its length, a valid header checksum stays valid, and in all of memory only those
fields changed. -/
theorem C61_fin_ack {h : Heap} {bytes : Slice} (hv : bytes.Valid h) {c : U64} {m : List Char}
    {p : Packet} (ha : New h c bytes m true = .ok (some p, none)) (ht : p.IPProto = 6) (hn : bytes.len < 65536)
    (hd : Detachable p 0) :
    ∃ h' p', ConvertAcktoFinAck h p = .ok (h', p') ∧
      SameExcept (fun i => LenField p.IPversion i ∨ i = p.IPHeaderLen.toNat + 12 ∨ i = p.IPHeaderLen.toNat + 13)
        (p'.GetTCPBytes h') ((h.bytes p.buffer).take (p.IPHeaderLen.toNat + p.TCPDataStartBytes.toNat)) ∧
      (p'.GetTCPBytes h')[p.IPHeaderLen.toNat + 13]? = some 0x11 ∧ p'.GetTCPFlags = 0x11 ∧
      p'.TCPOptionLength = 0 ∧ p'.TCPDataLength = 0 ∧
      p'.IPTotalLen.toNat = (p'.GetTCPBytes h').length ∧
      p'.TCPDataStartBytes = p.TCPDataStartBytes ∧
      OnWire p' (p'.GetTCPBytes h') ∧ (ChecksumRight h p → ChecksumRight h' p') ∧
      OnlyChanged h h' p.buffer
        (fun i => LenField p.IPversion i ∨ i = p.IPHeaderLen.toNat + 12 ∨ i = p.IPHeaderLen.toNat + 13) := by
  have hi := accepted_inv hv ha ht hn
  obtain ⟨hf1, hf2⟩ := accepted_fresh hv ha ht
  obtain ⟨_, _, _, _, _, _, _, _, _, _, h11⟩ := accepted_tcp hv ha ht
  have htot := (h11 rfl hn).1
  have hdk := Detachable.ok hi hd
  have hds := hi.dataStart
  have g1 := hdk.inb
  have g2 := hdk.opt
  have hg := hi.ge
  have hc := hi.buf.1
  have hbl := Heap.bytes_length hi.buf
  have hwl := window_length hi.buf
  have z : (0 : U16).toNat = 0 := rfl
  rw [z] at g2
  have hl1 : (splice (window h p.buffer) (p.ipHeaderLen.toNat + 13) [0x11]).length = p.buffer.cap := by
    rw [splice_length _ _ _ (by simp; omega)]; exact hwl
  have s1 := hi.setTcp (i := p.ipHeaderLen.toNat + 13) (bs := [0x11]) (by omega) (by simp)
      { p with tcpFlags := 0x11 } rfl (hi.tcp.setFlags (by omega) 0x11)
  have oc1 := splice_onlyChanged hi.buf (i := p.ipHeaderLen.toNat + 13) (bs := [0x11]) (by simp; omega)
  have hu : updateTCPFlags h p 0x11 =
      .ok (put h p.buffer (splice (window h p.buffer) (p.ipHeaderLen.toNat + 13) [0x11])) := by
    unfold updateTCPFlags
    rw [from_eq hi.buf, if_pos (by omega), Res.ok_bind]
    exact wr8_mem hi.buf (by simp only [tcpFlagsOffsetPos]; omega) _
  have hw1 := window_put hi.buf hl1
  have hcs1 : CsumOk (window (put h p.buffer (splice (window h p.buffer) (p.ipHeaderLen.toNat + 13) [0x11])) p.buffer)
      ↔ CsumOk (window h p.buffer) := by
    rw [hw1]; exact CsumOk_above (by omega) (by simp; omega)
  generalize put h p.buffer (splice (window h p.buffer) (p.ipHeaderLen.toNat + 13) [0x11]) = h1 at *
  have hd1 : DetachOk h1 { p with tcpFlags := 0x11 } 0 := ⟨s1.buf, hdk.hdr, hdk.off, hdk.opt, hdk.inb, hdk.size⟩
  obtain ⟨h', p', he, hD⟩ := Detach_full s1 hd1
  obtain ⟨b1, b2, b3, b4, b5⟩ := hD.bytes s1 hd1 hf1 hf2
  have b3' : SameExcept (fun i => LenField p.version i ∨ i = p.ipHeaderLen.toNat + 12) (h'.bytes p'.buffer)
      ((h1.bytes p.buffer).take (p.ipHeaderLen.toNat + p.tcpDataOffset.toNat * 4)) := b3
  have hD1 := hD.total hd1 htot
  have hD2 : p'.ipTotalLength.toNat = p.ipHeaderLen.toNat + p.tcpDataOffset.toNat * 4 := hD1
  have hbytes : ∀ q : Packet, q = p'.DropTCPDetachedBytes → q.GetTCPBytes h' = h'.bytes p'.buffer := by
    rintro q rfl
    show h'.bytes p'.buffer ++ h'.bytes Slice.nil ++ h'.bytes Slice.nil = _
    simp [Heap.bytes, Slice.nil]
  have hsame1 : SameExcept (fun i => i = p.ipHeaderLen.toNat + 13) (h1.bytes p.buffer) (h.bytes p.buffer) := by
    have hb1 : p.buffer.Valid h1 := s1.buf
    refine ⟨?_, fun i hx => ?_⟩
    · rw [Heap.bytes_length hb1, hbl]
    · refine oc1.bytes ?_
      rintro ⟨q1, q2⟩
      rw [List.length_singleton] at q2
      omega
  have hsame : SameExcept (fun i => LenField p.version i ∨ i = p.ipHeaderLen.toNat + 12 ∨ i = p.ipHeaderLen.toNat + 13)
      (h'.bytes p'.buffer) ((h.bytes p.buffer).take (p.ipHeaderLen.toNat + p.tcpDataOffset.toNat * 4)) :=
    SameExcept.trans (b3'.mono (fun i hx => by rcases hx with hx | hx <;> simp [hx]))
      ((hsame1.take _).mono (fun i hx => .inr (.inr hx)))
  have hlen : (h'.bytes p'.buffer).length = p.ipHeaderLen.toNat + p.tcpDataOffset.toNat * 4 := by
    rw [hsame.1, List.length_take, hbl]; omega
  have hinv : TcpInv h' p'.DropTCPDetachedBytes :=
    TcpInv.setParts hD.inv (b := p'.buffer) (o := Slice.nil) (d := Slice.nil) rfl hD.inv.room hD.inv.buf.1 (nil_valid _)
        (nil_valid _) (nil_clear _ _ _) (nil_clear _ _ _) (fun _ => rfl)
  have hfl : p'.tcpFlags = 0x11 := hD.flags
  have hver : p'.version = p.version := hD.ver
  have hoff : p'.tcpDataOffset = p.tcpDataOffset := by
    apply BitVec.eq_of_toNat_eq
    have := hD.off
    simpa using this
  refine ⟨h', p'.DropTCPDetachedBytes, ?_, ?_, ?_, hfl, rfl, rfl, ?_, ?_, ?_, ?_, ?_⟩
  · unfold ConvertAcktoFinAck
    exact res_bind hu (res_bind he rfl)
  · rw [hbytes _ rfl, hds]; exact hsame
  · rw [hbytes _ rfl]
    show _[p.ipHeaderLen.toNat + 13]? = _
    rw [u8at_some (by omega), bytes_eq_window hD.inv.buf]
    have hb' : p'.buffer.len = p.ipHeaderLen.toNat + p.tcpDataOffset.toNat * 4 := by rw [hD.buf]; rfl
    rw [u8at_take (by omega)]
    have := hD.inv.tcp.flags
    rw [hfl] at this
    have hh : p'.ipHeaderLen = p.ipHeaderLen := hD.hlen
    rw [hh] at this
    rw [this]
  · rw [hbytes _ rfl, hlen]; exact hD2
  · show p'.tcpDataOffset.setWidth 16 * 4 = p.tcpDataOffset.setWidth 16 * 4
    rw [hoff]
  · rw [hbytes _ rfl]; exact hinv.onWire
  · rw [ChecksumRight_iff hi, ChecksumRight_iff hinv]
    intro hx h4
    have h4' : p.version = .V4 := hver ▸ h4
    show CsumOk (window h' p'.buffer)
    rw [hD.buf, window_head]
    exact hD.valid h4' (hcs1.mpr (hx h4'))
  · refine OnlyChanged.trans (oc1.mono (fun i hx => ?_)) (OnlyChanged.mono hD.mem (fun i hx => ?_))
    · rw [List.length_singleton] at hx
      show LenField p.version i ∨ i = p.ipHeaderLen.toNat + 12 ∨ i = p.ipHeaderLen.toNat + 13
      omega
    · have hx' : LenField p.version i ∨ i = p.ipHeaderLen.toNat + 12 := hx
      rcases hx' with hx | hx
      · exact .inl hx
      · exact .inr (.inl hx)

/-! ### C62 -/

/-- Reachability from position `i`, stepping at the front. -/
inductive WalkFrom (opts : List Byte) : Nat → Nat → Prop
  | refl (i : Nat) : WalkFrom opts i i
  | pad {i j : Nat} {k : Byte} : opts[i]? = some k → (k = 0 ∨ k = 1) → WalkFrom opts (i + 1) j → WalkFrom opts i j
  | skip {i j : Nat} {k l : Byte} : opts[i]? = some k → k ≠ 0 → k ≠ 1 → k ≠ 34 → opts[i + 1]? = some l → l ≠ 0 →
      WalkFrom opts (i + l.toNat) j → WalkFrom opts i j

theorem WalkFrom.trans {opts : List Byte} {i j k : Nat} (a : WalkFrom opts i j) (b : WalkFrom opts j k) :
    WalkFrom opts i k := by
  induction a with
  | refl => exact b
  | pad h1 h2 _ ih => exact .pad h1 h2 (ih b)
  | skip h1 h2 h3 h4 h5 h6 _ ih => exact .skip h1 h2 h3 h4 h5 h6 (ih b)

theorem walk_iff {opts : List Byte} {j : Nat} : OptReach opts j ↔ WalkFrom opts 0 j := by
  constructor
  · intro h
    induction h with
    | start => exact .refl 0
    | pad _ h1 h2 ih => exact ih.trans (.pad h1 h2 (.refl _))
    | skip _ h1 h2 h3 h4 h5 h6 ih => exact ih.trans (.skip h1 h2 h3 h4 h5 h6 (.refl _))
  · intro h
    have : ∀ i j, WalkFrom opts i j → OptReach opts i → OptReach opts j := by
      intro i j hw
      induction hw with
      | refl => exact id
      | pad h1 h2 _ ih => exact fun hr => ih (OptReach.pad hr h1 h2)
      | skip h1 h2 h3 h4 h5 h6 _ ih => exact fun hr => ih (OptReach.skip hr h1 h2 h3 h4 h5 h6)
    exact this 0 j h .start

theorem walk_loop (opts : List Byte) (n : Nat) : ∀ i, opts.length - i ≤ n →
    ∃ e, loop (authOptionBody opts) i = .ok e ∧ (e = none ↔ ∃ j, WalkFrom opts i j ∧ opts[j]? = some 34) := by
  have past : ∀ i, ¬ i < opts.length → ¬ ∃ j, WalkFrom opts i j ∧ opts[j]? = some 34 := by
    rintro i hi ⟨j, hw, hj⟩
    have hnone : opts[i]? = none := by simp; omega
    cases hw with
    | refl => rw [hnone] at hj; exact absurd hj (by simp)
    | pad h1 => rw [hnone] at h1; exact absurd h1 (by simp)
    | skip h1 => rw [hnone] at h1; exact absurd h1 (by simp)
  induction n with
  | zero =>
    intro i hi
    have hlt : ¬ i < opts.length := by omega
    refine ⟨some (.msg "tcp authentication option not found"), ?_, ?_⟩
    · rw [loop_unfold]
      unfold authOptionBody
      rw [if_neg hlt]
    · exact ⟨fun hx => absurd hx (by simp), fun hx => absurd hx (past i hlt)⟩
  | succ n ih =>
    intro i hi
    by_cases hlt : i < opts.length
    · have hk : opts[i]? = some opts[i] := List.getElem?_eq_getElem hlt
      generalize hkk : opts[i] = k at *
      have hidx : idx opts i = .ok k := by unfold idx; rw [hk]
      by_cases hpad : k = 0 ∨ k = 1
      · obtain ⟨e, h1, h2⟩ := ih (i + 1) (by omega)
        refine ⟨e, ?_, ?_⟩
        · rw [loop_unfold]
          unfold authOptionBody
          rw [if_pos hlt, hidx, Res.ok_bind, if_pos hpad]
          exact h1
        · rw [h2]
          constructor
          · rintro ⟨j, hw, hj⟩; exact ⟨j, .pad hk hpad hw, hj⟩
          · rintro ⟨j, hw, hj⟩
            cases hw with
            | refl => rw [hk] at hj; cases hj; exact absurd hpad (by decide)
            | pad _ _ hw => exact ⟨j, hw, hj⟩
            | skip g1 g2 g3 => rw [hk] at g1; cases g1; rcases hpad with hp | hp; exact absurd hp g2; exact absurd hp g3
      · by_cases h34 : k = 34
        · refine ⟨none, ?_, ?_⟩
          · rw [loop_unfold]
            unfold authOptionBody
            rw [if_pos hlt, hidx, Res.ok_bind, if_neg hpad, if_neg (by simp only [h34]; decide)]
          · simp only [true_iff]
            exact ⟨i, .refl i, by rw [hk, h34]⟩
        · have hne : k ≠ TCPAuthenticationOption := h34
          by_cases hend : opts.length ≤ i + 1
          · refine ⟨some (.msg "tcp authentication option not found"), ?_, ?_⟩
            · rw [loop_unfold]
              unfold authOptionBody
              rw [if_pos hlt, hidx, Res.ok_bind, if_neg hpad, if_pos hne, if_pos hend]
            · simp only [reduceCtorEq, false_iff]
              rintro ⟨j, hw, hj⟩
              cases hw with
              | refl => rw [hk] at hj; cases hj; exact h34 rfl
              | pad g1 g2 => rw [hk] at g1; cases g1; exact hpad g2
              | skip _ _ _ _ g5 =>
                have : opts[i + 1]? = none := by simp; omega
                rw [this] at g5; exact absurd g5 (by simp)
          · have hl : opts[i + 1]? = some opts[i + 1] := List.getElem?_eq_getElem (by omega)
            generalize hll : opts[i + 1] = l at *
            have hidx1 : idx opts (i + 1) = .ok l := by unfold idx; rw [hl]
            by_cases hz : l.toNat = 0
            · refine ⟨some (.msg "Invalid TCP Option Packet"), ?_, ?_⟩
              · rw [loop_unfold]
                unfold authOptionBody
                rw [if_pos hlt, hidx, Res.ok_bind, if_neg hpad, if_pos hne, if_neg hend, hidx1, Res.ok_bind, if_pos hz]
              · simp only [reduceCtorEq, false_iff]
                rintro ⟨j, hw, hj⟩
                cases hw with
                | refl => rw [hk] at hj; cases hj; exact h34 rfl
                | pad g1 g2 => rw [hk] at g1; cases g1; exact hpad g2
                | skip _ _ _ _ g5 g6 =>
                  rw [hl] at g5; cases g5
                  exact g6 (BitVec.eq_of_toNat_eq hz)
            · obtain ⟨e, h1, h2⟩ := ih (i + l.toNat) (by omega)
              refine ⟨e, ?_, ?_⟩
              · rw [loop_unfold]
                unfold authOptionBody
                rw [if_pos hlt, hidx, Res.ok_bind, if_neg hpad, if_pos hne, if_neg hend, hidx1, Res.ok_bind, if_neg hz]
                exact h1
              · rw [h2]
                constructor
                · rintro ⟨j, hw, hj⟩
                  exact ⟨j, .skip hk (fun e => hpad (.inl e)) (fun e => hpad (.inr e)) h34 hl
                    (fun e => hz (by rw [e]; rfl)) hw, hj⟩
                · rintro ⟨j, hw, hj⟩
                  cases hw with
                  | refl => rw [hk] at hj; cases hj; exact absurd rfl h34
                  | pad g1 g2 => rw [hk] at g1; cases g1; exact absurd g2 hpad
                  | skip g1 g2 g3 g4 g5 g6 hw =>
                    rw [hl] at g5; cases g5
                    exact ⟨j, hw, hj⟩
    · refine ⟨some (.msg "tcp authentication option not found"), ?_, ?_⟩
      · rw [loop_unfold]
        unfold authOptionBody
        rw [if_neg hlt]
      · exact ⟨fun hx => absurd hx (by simp), fun hx => absurd hx (past i hlt)⟩

/-- C62. On every accepted TCP packet the check terminates without crashing, and returns nil exactly
when the data offset lies inside the packet and walking the options between byte 20 of the TCP header
and the data offset meets an option of kind 34. -/
theorem C62_auth_option {h : Heap} {bytes : Slice} (hv : bytes.Valid h) {c : U64} {m : List Char}
    {p : Packet} (ha : New h c bytes m true = .ok (some p, none)) (ht : p.IPProto = 6) (hn : bytes.len < 65536) :
    ∃ e, p.CheckTCPAuthenticationOption h = .ok e ∧
      (e = none ↔ p.IPHeaderLen.toNat + p.TCPDataStartBytes.toNat ≤ (h.bytes p.buffer).length ∧
        HasAuthOption (((h.bytes p.buffer).drop (p.IPHeaderLen.toNat + 20)).take (p.TCPDataStartBytes.toNat - 20))) := by
  have hi := accepted_inv hv ha ht hn
  have hr := hi.room
  have hc := hi.buf.1
  have hbl := Heap.bytes_length hi.buf
  have hds := hi.dataStart
  have hoff := hi.tcp.offLe
  have hnat := hi.hdr.nat
  have h8 : (p.tcpDataOffset * 4 : Byte).toNat = p.tcpDataOffset.toNat * 4 := by
    rw [BitVec.toNat_mul]; show p.tcpDataOffset.toNat * 4 % 256 = _; omega
  have hH : (p.ipHeaderLen + 20 : Byte).toNat = p.ipHeaderLen.toNat + 20 := by
    rw [BitVec.toNat_add]; show (p.ipHeaderLen.toNat + 20) % 256 = _; omega
  unfold Packet.CheckTCPAuthenticationOption
  by_cases h1 : p.TCPDataStartBytes ≤ minTCPIPPacketLen
  · rw [if_pos h1]
    refine ⟨_, rfl, ?_⟩
    simp only [reduceCtorEq, false_iff]
    rintro ⟨_, i, _, hx⟩
    have : p.TCPDataStartBytes.toNat ≤ 20 := h1
    rw [show p.TCPDataStartBytes.toNat - 20 = 0 by omega, List.take_zero] at hx
    exact absurd hx (by simp)
  · rw [if_neg h1, if_neg (by omega), h8, hbl, hds]
    have hgt : ¬ p.TCPDataStartBytes.toNat ≤ 20 := h1
    by_cases h2 : p.ipHeaderLen.toNat + p.tcpDataOffset.toNat * 4 > p.buffer.len
    · rw [if_pos h2]
      refine ⟨_, rfl, ?_⟩
      simp only [reduceCtorEq, false_iff]
      rintro ⟨hx, _⟩
      have hx' : p.ipHeaderLen.toNat + p.tcpDataOffset.toNat * 4 ≤ p.buffer.len := hx
      omega
    · rw [if_neg h2, hH, Slice.sub, if_pos (by omega), Res.ok_bind]
      have hb : h.bytes ⟨p.buffer.arr, p.buffer.off + (p.ipHeaderLen.toNat + 20),
          p.ipHeaderLen.toNat + p.tcpDataOffset.toNat * 4 - (p.ipHeaderLen.toNat + 20),
          p.buffer.cap - (p.ipHeaderLen.toNat + 20)⟩ =
          ((h.bytes p.buffer).drop (p.ipHeaderLen.toNat + 20)).take (p.tcpDataOffset.toNat * 4 - 20) := by
        have := @Heap.bytes_sub h p.buffer _ (p.ipHeaderLen.toNat + 20) (p.ipHeaderLen.toNat + p.tcpDataOffset.toNat * 4)
          (by rw [Slice.sub, if_pos (by omega)]) (by omega)
        rw [this]
        congr 1
        omega
      rw [hb]
      obtain ⟨e, g1, g2⟩ := walk_loop (((h.bytes p.buffer).drop (p.ipHeaderLen.toNat + 20)).take (p.tcpDataOffset.toNat * 4 - 20))
        _ 0 (Nat.le_refl _)
      refine ⟨e, g1, ?_⟩
      rw [g2]
      constructor
      · rintro ⟨j, hw, hj⟩
        refine ⟨?_, j, walk_iff.mpr hw, hj⟩
        show p.ipHeaderLen.toNat + p.tcpDataOffset.toNat * 4 ≤ p.buffer.len
        omega
      · rintro ⟨_, j, hw, hj⟩
        exact ⟨j, walk_iff.mp hw, hj⟩

/-! ### C70 -/

/-- C70. Six characters; character `i` (from the left) is the letter of its flag when bit `5 - i` is
set and a dot otherwise. -/
theorem C70_flags_text (flags : Byte) :
    (TCPFlagsToStr flags).length = 6 ∧
    ∀ i (hi : i < 6), (TCPFlagsToStr flags)[i]? = some (if flags.getLsbD (5 - i) then flagLetters[i]'hi else '.') := by
  revert flags
  decide

/-- C70, consequence: two flag bytes are rendered alike exactly when they agree on the low six bits. -/
theorem C70_flags_text_injective (a b : Byte) :
    TCPFlagsToStr a = TCPFlagsToStr b ↔ ∀ i < 6, a.getLsbD i = b.getLsbD i := by
  constructor
  · intro he i hi
    have h1 := (C70_flags_text a).2 (5 - i) (by omega)
    have h2 := (C70_flags_text b).2 (5 - i) (by omega)
    rw [he, h2] at h1
    rw [show 5 - (5 - i) = i by omega] at h1
    have hl : ∀ j (hj : j < 6), flagLetters[j]'hj ≠ '.' := by decide
    have := hl (5 - i) (by omega)
    generalize flagLetters[5 - i]'(by simp [flagLetters]; omega) = x at *
    have h1 := Option.some.inj h1
    cases ha : a.getLsbD i <;> cases hb : b.getLsbD i <;> simp_all
    · exact this h1.symm
  · intro hx
    apply List.ext_getElem?
    intro i
    by_cases hi : i < 6
    · rw [(C70_flags_text a).2 i hi, (C70_flags_text b).2 i hi, hx (5 - i) (by omega)]
    · rw [List.getElem?_eq_none (by rw [(C70_flags_text a).1]; omega), List.getElem?_eq_none (by rw [(C70_flags_text b).1]; omega)]

end Verif.Packet
