import Verif.Packet.Ops
/-! TCP operations: sequence numbers, detaching and attaching. -/
namespace Verif.Packet
open Verif.Spec

theorem res_bind {α β : Type} {m : Res α} {f : α → Res β} {a : α} {r : Res β} (h : m = .ok a)
    (h2 : f a = r) : (m >>= f) = r := by rw [h, Res.ok_bind, h2]

theorem wr32_mem {h : Heap} {s : Slice} (hb : s.Valid h) {n i : Nat} (hi : n + i + 4 ≤ s.cap) (v : U32) :
    wr32 h (tail s n) i v = .ok (put h s (splice (window h s) (n + i) (enc32 .big v))) := by
  have := wr32_put hb (window_length hb) n i v
  rw [put_self] at this
  rw [this, if_pos hi]

theorem wr16_mem {h : Heap} {s : Slice} (hb : s.Valid h) {n i : Nat} (hi : n + i + 2 ≤ s.cap) (v : U16) :
    wr16 h (tail s n) i v = .ok (put h s (splice (window h s) (n + i) (enc16 .big v))) := by
  have := wr16_put hb (window_length hb) n i v
  rw [put_self] at this
  rw [this, if_pos hi]

theorem wr8_mem {h : Heap} {s : Slice} (hb : s.Valid h) {n i : Nat} (hi : n + i < s.len) (v : Byte) :
    wr8 h (tail s n) i v = .ok (put h s (splice (window h s) (n + i) [v])) := by
  have := wr8_put hb (window_length hb) n i v
  rw [put_self] at this
  rw [this, if_pos hi]

section
variable {h : Heap} {p : Packet}

theorem IncSeq_eq (hb : p.buffer.Valid h) (hr : p.ipHeaderLen.toNat + 20 ≤ p.buffer.len) (n : U32) :
    IncreaseTCPSeq h p n = .ok (put h p.buffer (splice (window h p.buffer) (p.ipHeaderLen.toNat + 4)
      (enc32 .big (p.tcpSeq + n))), { p with tcpSeq := p.tcpSeq + n }) := by
  have := hb.1
  unfold IncreaseTCPSeq
  rw [from_eq hb, if_pos (by omega), Res.ok_bind]
  simp only
  rw [wr32_mem hb (by simp only [tcpSeqPos]; omega)]
  rfl

theorem DecSeq_eq (hb : p.buffer.Valid h) (hr : p.ipHeaderLen.toNat + 20 ≤ p.buffer.len) (n : U32) :
    DecreaseTCPSeq h p n = .ok (put h p.buffer (splice (window h p.buffer) (p.ipHeaderLen.toNat + 4)
      (enc32 .big (p.tcpSeq - n))), { p with tcpSeq := p.tcpSeq - n }) := by
  have := hb.1
  unfold DecreaseTCPSeq
  rw [from_eq hb, if_pos (by omega), Res.ok_bind]
  simp only
  rw [wr32_mem hb (by simp only [tcpSeqPos]; omega)]
  rfl

theorem IncAck_eq (hb : p.buffer.Valid h) (hr : p.ipHeaderLen.toNat + 20 ≤ p.buffer.len) (n : U32) :
    IncreaseTCPAck h p n = .ok (put h p.buffer (splice (window h p.buffer) (p.ipHeaderLen.toNat + 8)
      (enc32 .big (p.tcpAck + n))), { p with tcpAck := p.tcpAck + n }) := by
  have := hb.1
  unfold IncreaseTCPAck
  rw [from_eq hb, if_pos (by omega), Res.ok_bind]
  simp only
  rw [wr32_mem hb (by simp only [tcpAckPos]; omega)]
  rfl

theorem DecAck_eq (hb : p.buffer.Valid h) (hr : p.ipHeaderLen.toNat + 20 ≤ p.buffer.len) (n : U32) :
    DecreaseTCPAck h p n = .ok (put h p.buffer (splice (window h p.buffer) (p.ipHeaderLen.toNat + 8)
      (enc32 .big (p.tcpAck - n))), { p with tcpAck := p.tcpAck - n }) := by
  have := hb.1
  unfold DecreaseTCPAck
  rw [from_eq hb, if_pos (by omega), Res.ok_bind]
  simp only
  rw [wr32_mem hb (by simp only [tcpAckPos]; omega)]
  rfl

end

/-! ### Detach -/

theorem dataStart_nat' {p : Packet} (ho : p.tcpDataOffset.toNat ≤ 15) :
    p.TCPDataStartBytes.toNat = p.tcpDataOffset.toNat * 4 := by
  unfold Packet.TCPDataStartBytes
  rw [BitVec.toNat_mul, BitVec.toNat_setWidth]
  show p.tcpDataOffset.toNat % 65536 * 4 % 65536 = _
  omega

/-- The packet after the data and `o` bytes of options are cut off (before the header is updated). -/
def cut (p : Packet) (o : U16) : Packet :=
  { p with
    tcpData := if p.buffer.len = p.ipHeaderLen.toNat + p.tcpDataOffset.toNat * 4 then p.tcpData
      else tail p.buffer (p.ipHeaderLen.toNat + p.tcpDataOffset.toNat * 4)
    tcpOptions := if o = 0 then p.tcpOptions
      else head (tail p.buffer (p.ipHeaderLen.toNat + p.tcpDataOffset.toNat * 4 - o.toNat)) o.toNat
    buffer := head p.buffer (p.ipHeaderLen.toNat + p.tcpDataOffset.toNat * 4 - o.toNat) }

/-- The data offset (and options) lie inside the packet and `o` is at most the options' length. -/
structure DetachOk (h : Heap) (p : Packet) (o : U16) : Prop where
  buf : p.buffer.Valid h
  hdr : HdrOk p
  off : p.tcpDataOffset.toNat ≤ 15
  opt : 20 + o.toNat ≤ p.tcpDataOffset.toNat * 4
  inb : p.ipHeaderLen.toNat + p.tcpDataOffset.toNat * 4 ≤ p.buffer.len
  size : p.buffer.len - p.ipHeaderLen.toNat < 65536

theorem detachLen {h : Heap} {p : Packet} {o : U16} (hd : DetachOk h p o) :
    (BitVec.ofNat 16 (p.buffer.len - p.ipHeaderLen.toNat) - p.TCPDataStartBytes : U16).toNat
      = p.buffer.len - p.ipHeaderLen.toNat - p.tcpDataOffset.toNat * 4 := by
  have h1 := dataStart_nat' hd.off
  have h2 := hd.size
  have h3 := hd.inb
  have h4 := hd.off
  rw [BitVec.toNat_sub, BitVec.toNat_ofNat, h1]
  omega

theorem tcpDataDetach_eq {h : Heap} {p : Packet} {o : U16} (hd : DetachOk h p o) :
    tcpDataDetach p o (BitVec.ofNat 16 (p.buffer.len - p.ipHeaderLen.toNat) - p.TCPDataStartBytes)
      = .ok (cut p o) := by
  have h1 := dataStart_nat' hd.off
  have h2 := hd.size
  have h3 := hd.inb
  have h4 := hd.opt
  have h5 := hd.off
  have hl := detachLen hd
  have hc := hd.buf.1
  have hn := hd.hdr.nat
  generalize hH : p.ipHeaderLen.toNat = H at *
  generalize hD : p.tcpDataOffset.toNat * 4 = D at *
  have hz : (BitVec.ofNat 16 (p.buffer.len - H) - p.TCPDataStartBytes ≠ 0) ↔ ¬ p.buffer.len = H + D := by
    rw [ne_eq, ← BitVec.toNat_inj, hl]
    show ¬ _ = 0 ↔ _
    omega
  unfold tcpDataDetach
  rw [hH, from_eq hd.buf, if_pos (by omega), Res.ok_bind]
  have hlo : (p.TCPDataStartBytes - o).toNat = D - o.toNat := by
    rw [BitVec.toNat_sub, h1]
    have := o.isLt
    omega
  have hbuf : (p.ipHeaderLen.setWidth 16 + p.TCPDataStartBytes - o).toNat = H + D - o.toNat := by
    rw [BitVec.toNat_sub, BitVec.toNat_add, BitVec.toNat_setWidth, hH, h1]
    have := o.isLt
    rcases hn with hn | hn <;> omega
  have hopt : ∀ q : Packet, q.buffer = p.buffer → q.ipHeaderLen = p.ipHeaderLen → q.tcpDataOffset = p.tcpDataOffset →
      q.tcpOptions = p.tcpOptions →
      (detachOptions q (tail p.buffer H) o >>= fun p => detachBuffer p o) =
      .ok { q with
        tcpOptions := if o = 0 then p.tcpOptions else head (tail p.buffer (H + D - o.toNat)) o.toNat,
        buffer := head p.buffer (H + D - o.toNat) } := by
    intro q hq1 hq2 hq3 hq4
    have hq5 : q.TCPDataStartBytes = p.TCPDataStartBytes := by unfold Packet.TCPDataStartBytes; rw [hq3]
    unfold detachOptions
    by_cases hz : o = 0
    · simp only [hz, ne_eq, not_true_eq_false, if_false, if_true, Res.ok_bind]
      subst hz
      unfold detachBuffer
      rw [hq2, hq5, hbuf, hq1, to_eq, if_pos (by omega)]
      simp [hq4]
    · simp only [ne_eq, hz, not_false_eq_true, if_true, if_false]
      rw [hq5, hlo, h1, Slice.sub, if_pos (by simp [tail]; omega)]
      simp only [Res.ok_bind]
      refine res_bind (a := head p.buffer (H + D - o.toNat)) ?_ ?_
      · show q.buffer.to (q.ipHeaderLen.setWidth 16 + q.TCPDataStartBytes - o).toNat = _
        rw [hq1, hq2, hq5, hbuf, to_eq, if_pos (by omega)]
      · congr 2
        simp only [head, tail]
        congr 1 <;> omega
  unfold detachData
  by_cases hdz : p.buffer.len = H + D
  · rw [if_neg (by rw [hz]; simp [hdz])]
    rw [Res.ok_bind, hopt p rfl rfl rfl rfl]
    unfold cut
    simp [hH, hD, hdz]
  · rw [if_pos (hz.mpr hdz), h1]
    rw [from_eq (tail_valid hd.buf (by omega)), if_pos (by simp [tail]; omega)]
    simp only [Res.ok_bind]
    have := hopt { p with tcpData := tail (tail p.buffer H) D } rfl rfl rfl rfl
    rw [this]
    unfold cut
    simp only [hH, hD, hdz, if_false]
    congr 2
    simp only [tail]
    congr 1 <;> omega

/-- The packet after the options and data are cut off and the TCP header is updated. -/
def cutHdr (p : Packet) (o : U16) : Packet :=
  { cut p o with tcpDataOffset := p.tcpDataOffset - (o / 4).setWidth 8 }

/-- How much shorter the packet gets. -/
def cutLen (p : Packet) (o : U16) : U16 :=
  BitVec.ofNat 16 (p.buffer.len - p.ipHeaderLen.toNat) - p.TCPDataStartBytes + o

/-- The bytes after detaching. -/
def detachedBytes (p : Packet) (W : List Byte) (o : U16) : List Byte :=
  fixedBytes (cutHdr p o) (splice W (p.ipHeaderLen.toNat + 12)
    [(p.tcpDataOffset - (o / 4).setWidth 8).shiftLeft 4]) p.ipTotalLength (p.ipTotalLength - cutLen p o)

theorem Detach_eq {h : Heap} {p : Packet} {o : U16} (hd : DetachOk h p o) :
    TCPDataDetach h p o = .ok (put h p.buffer (detachedBytes p (window h p.buffer) o),
      fixed (cutHdr p o) p.ipTotalLength (p.ipTotalLength - cutLen p o)) := by
  have h3 := hd.inb
  have h4 := hd.opt
  have hc := hd.buf.1
  have hn := hd.hdr.nat
  have hcut := tcpDataDetach_eq hd
  have hwl := window_length hd.buf
  unfold TCPDataDetach
  rw [from_eq hd.buf, if_pos (by omega), Res.ok_bind]
  simp only
  rw [show (tail p.buffer p.ipHeaderLen.toNat).len = p.buffer.len - p.ipHeaderLen.toNat from rfl, hcut, Res.ok_bind]
  unfold FixuptcpHdrOnTCPDataDetach
  have hcv : (cut p o).buffer.Valid h := head_valid hd.buf (by omega)
  have hcl : (cut p o).buffer.len = p.ipHeaderLen.toNat + p.tcpDataOffset.toNat * 4 - o.toNat := rfl
  have hch : (cut p o).ipHeaderLen = p.ipHeaderLen := rfl
  rw [from_eq hcv, hcl, hch, if_pos (by omega), Res.ok_bind]
  simp only
  rw [wr8_mem hcv (by rw [hcl]; simp only [tcpDataOffsetPos]; omega)]
  simp only [Res.ok_bind]
  have hp1 : (cutHdr p o).buffer.Valid h := hcv
  have hcw : (cutHdr p o).buffer.cap = p.buffer.cap := rfl
  refine (Fixup_eq (p := cutHdr p o) (W := splice (window h p.buffer) (p.ipHeaderLen.toNat + 12)
    [(p.tcpDataOffset - (o / 4).setWidth 8).shiftLeft 4]) hp1
    (by rw [splice_length _ _ _ (by simp; omega)]; exact hwl)
    (by rw [hcw]; omega) _ _).trans ?_
  rfl

/-! ### Attach -/

/-- Appending to a nil slice leaves memory readable as before. -/
theorem append_nil_spec (grow : Nat → Nat) {h : Heap} (bs : List Byte) :
    (h.append grow Slice.nil bs).2.bytes (h.append grow Slice.nil bs).1 = bs ∧
    (h.append grow Slice.nil bs).1.Valid (h.append grow Slice.nil bs).2 ∧
    (h.append grow Slice.nil bs).1.len = bs.length ∧
    (∀ t : Slice, t.Valid h → t.Valid (h.append grow Slice.nil bs).2 ∧
      (h.append grow Slice.nil bs).2.bytes t = h.bytes t) := by
  have hn : Slice.nil.Valid h := ⟨Nat.le_refl _, Nat.zero_le _⟩
  obtain ⟨h1, h2, h3, h4, _⟩ := Heap.append_spec grow hn bs
  refine ⟨?_, h2, ?_, fun t ht => ⟨(h4 t ht).1, (h4 t ht).2 ?_⟩⟩
  · rw [h1]; simp [Slice.nil, Heap.bytes]
  · rw [h3]; simp [Slice.nil]
  · simp only [Slice.nil]; omega

theorem append_nil_clear (grow : Nat → Nat) {h : Heap} (bs : List Byte) {s : Slice} (hv : s.Valid h)
    {n : Nat} (hn : 0 < s.cap) : Clear s (h.append grow Slice.nil bs).1 0 n := by
  unfold Heap.append Slice.nil Clear
  split
  · rename_i hb
    have hb' : bs.length = 0 := by simp at hb; simp [hb]
    right; left; simp only [hb']; omega
  · left
    have : s.arr < h.arrays.length := Heap.lt_of_arrayOf_pos (by have := hv.2; omega)
    show h.arrays.length ≠ s.arr
    omega

/-- The packet with attachments, before the headers are updated. -/
def attached (grow : Nat → Nat) (h : Heap) (p : Packet) (o d : Slice) : Packet :=
  { p with tcpOptions := (h.append grow Slice.nil (h.bytes o)).1, tcpData := d }

/-- The bytes of the buffer after attaching. -/
def attachedBytes (p : Packet) (W : List Byte) (olen dlen : Nat) : List Byte :=
  splice (splice (fixedBytes p W p.ipTotalLength (p.ipTotalLength + BitVec.ofNat 16 (dlen + olen)))
    (p.ipHeaderLen.toNat + 16) (enc16 .big p.tcpChecksum))
    (p.ipHeaderLen.toNat + 12) [(p.tcpDataOffset + BitVec.ofNat 8 (olen / 4)).shiftLeft 4]

theorem window_append_nil (grow : Nat → Nat) {h : Heap} (bs : List Byte) {s : Slice} (hv : s.Valid h) :
    window (h.append grow Slice.nil bs).2 s = window h s :=
  ((append_nil_spec grow (h := h) bs).2.2.2 ⟨s.arr, s.off, s.cap, s.cap⟩ ⟨Nat.le_refl _, hv.2⟩).2

theorem fixedBytes_attached (grow : Nat → Nat) (h : Heap) (p : Packet) (o d : Slice) (W : List Byte)
    (a b : U16) : fixedBytes (attached grow h p o d) W a b = fixedBytes p W a b := rfl

theorem Attach_eq (grow : Nat → Nat) {h : Heap} {p : Packet} {o d : Slice} (hb : p.buffer.Valid h)
    (hr : p.ipHeaderLen.toNat + 20 ≤ p.buffer.len) (hnil : p.tcpOptions = Slice.nil)
    (hgo : p.TCPDataStartBytes = BitVec.ofNat 16 (p.buffer.len - p.ipHeaderLen.toNat) ∨ o.len = 0) :
    TCPDataAttach grow h p o d =
      .ok (put (h.append grow Slice.nil (h.bytes o)).2 p.buffer
          (attachedBytes p (window h p.buffer) o.len d.len),
        { fixed (attached grow h p o d) p.ipTotalLength (p.ipTotalLength + BitVec.ofNat 16 (d.len + o.len)) with
          tcpDataOffset := p.tcpDataOffset + BitVec.ofNat 8 (o.len / 4) }, none) := by
  have hc := hb.1
  have hwl := window_length hb
  unfold TCPDataAttach tcpDataAttach
  rw [from_eq hb, if_pos (by omega), Res.ok_bind]
  have hcond : ¬ (p.TCPDataStartBytes ≠ BitVec.ofNat 16 (tail p.buffer p.ipHeaderLen.toNat).len ∧ o.len ≠ 0) := by
    rintro ⟨h1, h2⟩
    rcases hgo with h3 | h3
    · exact h1 h3
    · exact h2 h3
  rw [if_neg hcond, hnil]
  simp only [Res.ok_bind]
  obtain ⟨_, _, _, hold⟩ := append_nil_spec grow (h := h) (h.bytes o)
  have hw := window_append_nil grow (h := h) (h.bytes o) hb
  generalize hg : (h.append grow Slice.nil (h.bytes o)).2 = g at *
  have hbg : p.buffer.Valid g := (hold _ hb).1
  have e0 : put g p.buffer (window h p.buffer) = g := by rw [← hw, put_self]
  have hbg' : (attached grow h p o d).buffer.Valid g := hbg
  have hfix := Fixup_eq (p := attached grow h p o d) hbg' (W := window h p.buffer) hwl
    (by show 12 ≤ p.buffer.cap; omega) p.ipTotalLength (p.ipTotalLength + BitVec.ofNat 16 (d.len + o.len))
  rw [show (attached grow h p o d).buffer = p.buffer from rfl, e0] at hfix
  refine res_bind hfix ?_
  unfold FixuptcpHdrOnTCPDataAttach
  refine res_bind (a := (_, _)) ?_ rfl
  have hfl := fixedBytes_length (p := p) (W := window h p.buffer) (by omega) p.ipTotalLength
    (p.ipTotalLength + BitVec.ofNat 16 (d.len + o.len))
  refine res_bind (a := tail p.buffer p.ipHeaderLen.toNat) ?_ ?_
  · show p.buffer.from' p.ipHeaderLen.toNat = _
    rw [from_eq hb, if_pos (by omega)]
  refine res_bind (a := put g p.buffer (splice (fixedBytes p (window h p.buffer) p.ipTotalLength
      (p.ipTotalLength + BitVec.ofNat 16 (d.len + o.len))) (p.ipHeaderLen.toNat + 16) (enc16 .big p.tcpChecksum))) ?_ ?_
  · exact (wr16_put hbg (by rw [fixedBytes_attached, hfl]; exact hwl) p.ipHeaderLen.toNat tcpChecksumPos p.tcpChecksum).trans
      (if_pos (by simp only [tcpChecksumPos]; omega))
  refine res_bind (a := put g p.buffer (attachedBytes p (window h p.buffer) o.len d.len)) ?_ rfl
  exact (wr8_put hbg (by rw [splice_length _ _ _ (by simp; omega), hfl]; exact hwl) p.ipHeaderLen.toNat tcpDataOffsetPos
      _).trans (if_pos (by simp only [tcpDataOffsetPos]; omega))

/-- The packet with attachments, options appended to those already attached, before the headers are
updated. -/
def attachedTo (grow : Nat → Nat) (h : Heap) (p : Packet) (o d : Slice) : Packet :=
  { p with tcpOptions := (h.append grow p.tcpOptions (h.bytes o)).1, tcpData := d }

theorem fixedBytes_attachedTo (grow : Nat → Nat) (h : Heap) (p : Packet) (o d : Slice) (W : List Byte)
    (a b : U16) : fixedBytes (attachedTo grow h p o d) W a b = fixedBytes p W a b := rfl

/-- `TCPDataAttach` on a packet that may already have options attached. -/
theorem Attach_gen (grow : Nat → Nat) {h : Heap} {p : Packet} {o d : Slice} (hb : p.buffer.Valid h)
    (hr : p.ipHeaderLen.toNat + 20 ≤ p.buffer.len) (ho : p.tcpOptions.Valid h)
    (hgo : p.TCPDataStartBytes = BitVec.ofNat 16 (p.buffer.len - p.ipHeaderLen.toNat) ∨ o.len = 0) :
    TCPDataAttach grow h p o d =
      .ok (put (h.append grow p.tcpOptions (h.bytes o)).2 p.buffer
          (attachedBytes p (window (h.append grow p.tcpOptions (h.bytes o)).2 p.buffer) o.len d.len),
        { fixed (attachedTo grow h p o d) p.ipTotalLength (p.ipTotalLength + BitVec.ofNat 16 (d.len + o.len)) with
          tcpDataOffset := p.tcpDataOffset + BitVec.ofNat 8 (o.len / 4) }, none) := by
  have hc := hb.1
  unfold TCPDataAttach tcpDataAttach
  rw [from_eq hb, if_pos (by omega), Res.ok_bind]
  have hcond : ¬ (p.TCPDataStartBytes ≠ BitVec.ofNat 16 (tail p.buffer p.ipHeaderLen.toNat).len ∧ o.len ≠ 0) := by
    rintro ⟨h1, h2⟩
    rcases hgo with h3 | h3
    · exact h1 h3
    · exact h2 h3
  rw [if_neg hcond]
  simp only [Res.ok_bind]
  obtain ⟨_, _, _, hold, _⟩ := Heap.append_spec grow ho (h.bytes o)
  generalize hg : (h.append grow p.tcpOptions (h.bytes o)).2 = g at *
  have hbg : p.buffer.Valid g := (hold _ hb).1
  have hwl := window_length hbg
  have e0 : put g p.buffer (window g p.buffer) = g := put_self _ _
  have hbg' : (attachedTo grow h p o d).buffer.Valid g := hbg
  have hfix := Fixup_eq (p := attachedTo grow h p o d) hbg' (W := window g p.buffer) hwl
    (by show 12 ≤ p.buffer.cap; omega) p.ipTotalLength (p.ipTotalLength + BitVec.ofNat 16 (d.len + o.len))
  rw [show (attachedTo grow h p o d).buffer = p.buffer from rfl, e0] at hfix
  refine res_bind hfix ?_
  unfold FixuptcpHdrOnTCPDataAttach
  refine res_bind (a := (_, _)) ?_ rfl
  have hfl := fixedBytes_length (p := p) (W := window g p.buffer) (by omega) p.ipTotalLength
    (p.ipTotalLength + BitVec.ofNat 16 (d.len + o.len))
  refine res_bind (a := tail p.buffer p.ipHeaderLen.toNat) ?_ ?_
  · show p.buffer.from' p.ipHeaderLen.toNat = _
    rw [from_eq hb, if_pos (by omega)]
  refine res_bind (a := put g p.buffer (splice (fixedBytes p (window g p.buffer) p.ipTotalLength
      (p.ipTotalLength + BitVec.ofNat 16 (d.len + o.len))) (p.ipHeaderLen.toNat + 16) (enc16 .big p.tcpChecksum))) ?_ ?_
  · exact (wr16_put hbg (by rw [fixedBytes_attachedTo, hfl]; exact hwl) p.ipHeaderLen.toNat tcpChecksumPos p.tcpChecksum).trans
      (if_pos (by simp only [tcpChecksumPos]; omega))
  refine res_bind (a := put g p.buffer (attachedBytes p (window g p.buffer) o.len d.len)) ?_ rfl
  exact (wr8_put hbg (by rw [splice_length _ _ _ (by simp; omega), hfl]; exact hwl) p.ipHeaderLen.toNat tcpDataOffsetPos
      _).trans (if_pos (by simp only [tcpDataOffsetPos]; omega))

theorem ConvertAck_eq {h : Heap} {p : Packet} (hd : DetachOk h p 0) :
    ConvertAcktoFinAck h p =
      .ok (put h p.buffer (detachedBytes p (splice (window h p.buffer) (p.ipHeaderLen.toNat + 13) [0x11]) 0),
        { fixed (cutHdr { p with tcpFlags := 0x11 } 0) p.ipTotalLength (p.ipTotalLength - cutLen p 0) with
          tcpOptions := Slice.nil, tcpData := Slice.nil }) := by
  have h3 := hd.inb
  have h4 := hd.opt
  have hc := hd.buf.1
  have hwl := window_length hd.buf
  have hl1 : (splice (window h p.buffer) (p.ipHeaderLen.toNat + 13) [0x11]).length = p.buffer.cap := by
    rw [splice_length _ _ _ (by simp; omega)]; exact hwl
  unfold ConvertAcktoFinAck
  have hu : updateTCPFlags h p 0x11 =
      .ok (put h p.buffer (splice (window h p.buffer) (p.ipHeaderLen.toNat + 13) [0x11])) := by
    unfold updateTCPFlags
    rw [from_eq hd.buf, if_pos (by omega), Res.ok_bind]
    exact wr8_mem hd.buf (by simp only [tcpFlagsOffsetPos]; omega) _
  refine res_bind hu ?_
  have hd1 : DetachOk (put h p.buffer (splice (window h p.buffer) (p.ipHeaderLen.toNat + 13) [0x11]))
      { p with tcpFlags := 0x11 } 0 :=
    ⟨put_valid hd.buf hl1 hd.buf, hd.hdr, hd.off, hd.opt, hd.inb, hd.size⟩
  refine res_bind (Detach_eq hd1) ?_
  have hw1 : window (put h p.buffer (splice (window h p.buffer) (p.ipHeaderLen.toNat + 13) [0x11])) p.buffer
      = splice (window h p.buffer) (p.ipHeaderLen.toNat + 13) [0x11] := window_put hd.buf hl1
  simp only
  rw [hw1, put_put hd.buf hl1]
  · rfl
  · have hl2 : ∀ b : Byte, (splice (splice (window h p.buffer) (p.ipHeaderLen.toNat + 13) [0x11])
        (p.ipHeaderLen.toNat + 12) [b]).length = p.buffer.cap := by
      intro b
      rw [splice_length _ _ _ (by rw [hl1]; simp only [List.length_cons, List.length_nil]; omega)]
      exact hl1
    unfold detachedBytes
    rw [fixedBytes_length (by rw [hl2]; omega)]
    exact hl2 _

end Verif.Packet
