import Verif.Props.PacketTcp
import Verif.Props.PacketExamples
/-! C107: editing a TCP packet touches only its headers. -/
namespace Verif.Packet
open Verif.Spec

/-- Memory outside the first `n` bytes of `s` is not changed from `h` to `h'`. -/
def Untouched (s : Slice) (n : Nat) (h h' : Heap) : Prop :=
  ∀ t : Slice, t.Valid h → Clear s t 0 n → t.Valid h' ∧ h'.bytes t = h.bytes t

theorem put_untouched {h : Heap} {s : Slice} (hv : s.Valid h) {W : List Byte} {n : Nat} (hW : W.length = s.cap)
    (hn : n ≤ s.cap) (hd : W.drop n = (window h s).drop n) : Untouched s n h (put h s W) := by
  intro t ht hc
  refine ⟨put_valid hv hW ht, ?_⟩
  have hwl := window_length hv
  have hsp : W = splice (window h s) 0 (W.take n) := by
    unfold splice
    rw [List.length_take, Nat.min_eq_left (by omega), Nat.zero_add, ← hd]
    simp
  rw [hsp]
  have := bytes_splice_clear (h := h) (t := t) hv hwl (i := 0) (bs := W.take n) (by rw [List.length_take]; omega) (by
    rw [List.length_take, Nat.min_eq_left (by omega)]; exact hc)
  rw [this, put_self]

theorem fixedBytes_drop {p : Packet} {W : List Byte} {n : Nat} (hn : 12 ≤ n) (hl : 12 ≤ W.length) (a b : U16) :
    (fixedBytes p W a b).drop n = W.drop n := by
  unfold fixedBytes
  split
  · rw [drop_splice_ge (by rw [splice_length _ _ _ (by simp; omega)]; simp; omega) (by simp; omega),
      drop_splice_ge (by simp; omega) (by simp; omega)]
  · rw [drop_splice_ge (by simp; omega) (by simp; omega)]

theorem detachedBytes_drop {p : Packet} {W : List Byte} (hg : 20 ≤ p.ipHeaderLen.toNat)
    (hl : p.ipHeaderLen.toNat + 20 ≤ W.length) (o : U16) :
    (detachedBytes p W o).drop (p.ipHeaderLen.toNat + 20) = W.drop (p.ipHeaderLen.toNat + 20) := by
  unfold detachedBytes
  rw [fixedBytes_drop (by omega) (by rw [splice_length _ _ _ (by rw [List.length_singleton]; omega)]; omega),
    drop_splice_ge (by rw [List.length_singleton]; omega) (by rw [List.length_singleton]; omega)]

theorem attachedBytes_drop {p : Packet} {W : List Byte} (hg : 20 ≤ p.ipHeaderLen.toNat)
    (hl : p.ipHeaderLen.toNat + 20 ≤ W.length) (a b : Nat) :
    (attachedBytes p W a b).drop (p.ipHeaderLen.toNat + 20) = W.drop (p.ipHeaderLen.toNat + 20) := by
  unfold attachedBytes
  have hf := fixedBytes_length (p := p) (W := W) (by omega) p.ipTotalLength (p.ipTotalLength + BitVec.ofNat 16 (b + a))
  have h1 : p.ipHeaderLen.toNat + 16 + (enc16 .big p.tcpChecksum).length ≤
      (fixedBytes p W p.ipTotalLength (p.ipTotalLength + BitVec.ofNat 16 (b + a))).length := by
    rw [hf]; simp; omega
  rw [drop_splice_ge (by rw [splice_length _ _ _ h1, hf, List.length_singleton]; omega)
      (by rw [List.length_singleton]; omega),
    drop_splice_ge h1 (by simp), fixedBytes_drop (by omega) (by omega)]

theorem attachedBytes_length {p : Packet} {W : List Byte} (hg : 20 ≤ p.ipHeaderLen.toNat)
    (hl : p.ipHeaderLen.toNat + 20 ≤ W.length) (a b : Nat) : (attachedBytes p W a b).length = W.length := by
  unfold attachedBytes
  have hf := fixedBytes_length (p := p) (W := W) (by omega) p.ipTotalLength (p.ipTotalLength + BitVec.ofNat 16 (b + a))
  have h1 : p.ipHeaderLen.toNat + 16 + (enc16 .big p.tcpChecksum).length ≤
      (fixedBytes p W p.ipTotalLength (p.ipTotalLength + BitVec.ofNat 16 (b + a))).length := by
    rw [hf]; simp; omega
  rw [splice_length _ _ _ (by rw [splice_length _ _ _ h1, hf, List.length_singleton]; omega), splice_length _ _ _ h1, hf]

theorem detachedBytes_length {p : Packet} {W : List Byte} (hg : 20 ≤ p.ipHeaderLen.toNat)
    (hl : p.ipHeaderLen.toNat + 20 ≤ W.length) (o : U16) : (detachedBytes p W o).length = W.length := by
  unfold detachedBytes
  rw [fixedBytes_length (by rw [splice_length _ _ _ (by rw [List.length_singleton]; omega)]; omega),
    splice_length _ _ _ (by rw [List.length_singleton]; omega)]

/-- The buffer of `p'` is that of `p`, with the same end of memory, possibly shorter or longer. -/
def SameBuffer (p p' : Packet) : Prop :=
  p'.buffer.arr = p.buffer.arr ∧ p'.buffer.off = p.buffer.off ∧ p'.buffer.cap = p.buffer.cap ∧
    p'.ipHeaderLen = p.ipHeaderLen

theorem untouched_refl (s : Slice) (n : Nat) (h : Heap) : Untouched s n h h := fun _ ht _ => ⟨ht, rfl⟩

/-- One call keeps the place of the buffer and writes only the headers. -/
theorem run_frame (grow : Nat → Nat) {h : Heap} {p : Packet} (hi : TcpInv h p) (op : TcpOp) (ha : op.Allowed h p)
    {h' : Heap} {p' : Packet} (he : op.run grow h p = .ok (h', p')) :
    SameBuffer p p' ∧ Untouched p.buffer (p.ipHeaderLen.toNat + 20) h h' := by
  have hr := hi.room
  have hc := hi.buf.1
  have hwl := window_length hi.buf
  have hg := hi.ge.1
  have small : ∀ (i : Nat) (bs : List Byte), i + bs.length ≤ p.ipHeaderLen.toNat + 20 →
      Untouched p.buffer (p.ipHeaderLen.toNat + 20) h (put h p.buffer (splice (window h p.buffer) i bs)) := by
    intro i bs hi'
    exact put_untouched hi.buf (by rw [splice_length _ _ _ (by omega)]; exact hwl) (by omega)
      (drop_splice_ge (by omega) hi')
  have same : SameBuffer p p := ⟨rfl, rfl, rfl, rfl⟩
  cases op with
  | incSeq n => cases (IncSeq_eq hi.buf hr n).symm.trans he; exact ⟨same, small _ _ (by simp)⟩
  | decSeq n => cases (DecSeq_eq hi.buf hr n).symm.trans he; exact ⟨same, small _ _ (by simp)⟩
  | incAck n => cases (IncAck_eq hi.buf hr n).symm.trans he; exact ⟨same, small _ _ (by simp)⟩
  | decAck n => cases (DecAck_eq hi.buf hr n).symm.trans he; exact ⟨same, small _ _ (by simp)⟩
  | detach o =>
    have hd := Detachable.ok hi ha
    cases (Detach_eq hd).symm.trans he
    refine ⟨⟨rfl, rfl, rfl, rfl⟩, put_untouched hi.buf ?_ (by omega) (detachedBytes_drop hg (by omega) o)⟩
    rw [detachedBytes_length hg (by omega)]; exact hwl
  | attach o d =>
    obtain ⟨h1, h2, h3⟩ := ha
    by_cases hgo : p.TCPDataStartBytes = BitVec.ofNat 16 (p.buffer.len - p.ipHeaderLen.toNat) ∨ o.len = 0
    · have e := res_bind (f := fun r : Heap × Packet × Option Err => .ok (r.1, r.2.1)) (Attach_eq grow (d := d) hi.buf hr (hi.optsNil h1) hgo) rfl
      cases e.symm.trans he
      refine ⟨⟨rfl, rfl, rfl, rfl⟩, ?_⟩
      obtain ⟨_, _, _, hold⟩ := append_nil_spec grow (h := h) (h.bytes o)
      have hw := window_append_nil grow (h := h) (h.bytes o) hi.buf
      intro t ht hct
      have k := put_untouched (n := p.ipHeaderLen.toNat + 20) (W := attachedBytes p (window h p.buffer) o.len d.len)
        (hold _ hi.buf).1
        (by rw [attachedBytes_length hg (by omega)]; exact hwl) (by omega)
        (by rw [hw, attachedBytes_drop hg (by omega)]) t (hold t ht).1 hct
      exact ⟨k.1, k.2.trans (hold t ht).2⟩
    · have e := res_bind (f := fun r : Heap × Packet × Option Err => .ok (r.1, r.2.1)) (Attach_refused grow (d := d) hi.buf (by omega) hgo) rfl
      cases e.symm.trans he
      exact ⟨same, untouched_refl _ _ _⟩
  | dropData => cases he; exact ⟨same, untouched_refl _ _ _⟩
  | dropAll => cases he; exact ⟨same, untouched_refl _ _ _⟩
  | setData d => cases he; exact ⟨same, untouched_refl _ _ _⟩
  | updateIP =>
    have h4 : p.version = .V4 := ha
    have h20 : p.ipHeaderLen = 20 := by
      rcases hi.hdr with ⟨_, h1⟩ | ⟨h1, _⟩
      · exact h1
      · rw [h4] at h1; exact absurd h1 (by decide)
    cases (UpdateIPv4_eq hi.buf h20 (by omega) (by omega)).symm.trans he
    exact ⟨same, small _ _ (by simp)⟩
  | verifyIP =>
    have h4 : p.version = .V4 := ha
    have h20 : p.ipHeaderLen = 20 := by
      rcases hi.hdr with ⟨_, h1⟩ | ⟨h1, _⟩
      · exact h1
      · rw [h4] at h1; exact absurd h1 (by decide)
    have e := res_bind (f := fun r : Bool × Heap => .ok (r.2, p)) (VerifyIPv4_eq hi.buf h20 (by omega) (by omega)) rfl
    cases e.symm.trans he
    exact ⟨same, small _ _ (by simp)⟩
  | updateTCP =>
    cases (UpdateTCP_eq (hi.mem ha)).symm.trans he
    exact ⟨same, small _ _ (by simp)⟩
  | verifyTCP =>
    have e := res_bind (f := fun r : Bool × Heap => .ok (r.2, p)) (VerifyTCP_eq (hi.mem ha)) rfl
    cases e.symm.trans he
    exact ⟨same, untouched_refl _ _ _⟩
  | fixLength a b =>
    have e := Fixup_eq hi.buf hwl (by omega) a b
    rw [put_self] at e
    cases e.symm.trans he
    refine ⟨⟨rfl, rfl, rfl, rfl⟩, put_untouched hi.buf ?_ (by omega) (fixedBytes_drop (by omega) (by omega) a b)⟩
    rw [fixedBytes_length (by omega)]; exact hwl
  | toFinAck =>
    have hd := Detachable.ok hi ha
    cases (ConvertAck_eq hd).symm.trans he
    have hl : (splice (window h p.buffer) (p.ipHeaderLen.toNat + 13) [0x11]).length = p.buffer.cap := by
      rw [splice_length _ _ _ (by simp; omega)]; exact hwl
    refine ⟨⟨rfl, rfl, rfl, rfl⟩, put_untouched hi.buf ?_ (by omega) ?_⟩
    · rw [detachedBytes_length hg (by omega)]; exact hl
    · rw [detachedBytes_drop hg (by omega), drop_splice_ge (by simp; omega) (by simp)]

theorem runOps_frame (grow : Nat → Nat) (ops : List TcpOp) {h : Heap} {p : Packet} (hi : TcpInv h p)
    (ha : AllAllowed grow h p ops) :
    ∃ h' p', runOps grow h p ops = .ok (h', p') ∧ TcpInv h' p' ∧ SameBuffer p p' ∧
      Untouched p.buffer (p.ipHeaderLen.toNat + 20) h h' := by
  induction ops generalizing h p with
  | nil => exact ⟨h, p, rfl, hi, ⟨rfl, rfl, rfl, rfl⟩, untouched_refl _ _ _⟩
  | cons op t ih =>
    obtain ⟨h1, p1, hr, hi1, _⟩ := run_ok grow hi op ha.1
    obtain ⟨⟨f1, f2, f3, f4⟩, f5⟩ := run_frame grow hi op ha.1 hr
    obtain ⟨h2, p2, hr2, hi2, ⟨g1, g2, g3, g4⟩, g5⟩ := ih hi1 (ha.2 _ _ hr)
    refine ⟨h2, p2, ?_, hi2, ⟨g1.trans f1, g2.trans f2, g3.trans f3, g4.trans f4⟩, ?_⟩
    · show (op.run grow h p >>= _) = _
      rw [hr, Res.ok_bind]
      exact hr2
    · intro s hs hc
      obtain ⟨k1, k2⟩ := f5 s hs hc
      obtain ⟨l1, l2⟩ := g5 s k1 (by
        unfold Clear at hc ⊢
        rw [f1, f2, f4]; exact hc)
      exact ⟨l1, l2.trans k2⟩

/-- An accepted packet's buffer starts where the parsed bytes start. -/
theorem accepted_place {h : Heap} {bytes : Slice} (hv : bytes.Valid h) {c : U64} {m : List Char}
    {lv : Bool} {p : Packet} (ha : New h c bytes m lv = .ok (some p, none)) :
    p.buffer.arr = bytes.arr ∧ p.buffer.off = bytes.off ∧ p.buffer.cap = bytes.cap := by
  have key : ∀ {b : Slice} {tot : U16}, checkedBuf tot bytes lv = some b → p.buffer = b →
      p.buffer.arr = bytes.arr ∧ p.buffer.off = bytes.off ∧ p.buffer.cap = bytes.cap := by
    intro b tot hcb hb
    obtain ⟨_, _, k3⟩ := checkedBuf_valid hv hcb
    rw [hb, k3]
    exact ⟨rfl, rfl, rfl⟩
  rcases New_accept hv ha with ⟨_, _, b, hcb, hacc⟩ | ⟨_, _, _, b, hcb, ⟨_, hacc⟩ | ⟨_, _, _, hacc⟩⟩
  · obtain ⟨_, _, _, _, _, _, _, _, e9, _⟩ := hacc.same_ip
    exact key hcb e9
  · obtain ⟨_, _, _, _, _, _, _, _, e9, _⟩ := hacc.same_ip
    exact key hcb e9
  · obtain ⟨_, _, _, _, _, _, _, _, e9, _⟩ := hacc.same_ip
    exact key hcb e9

/-- C107. After any allowed sequence of operations on an accepted TCP packet, every slice of memory that does
not overlap the packet's IP header and fixed TCP header still holds what it held - in particular the bytes of
the packet behind the headers, and every other buffer. -/
theorem C107_only_headers {h : Heap} {bytes : Slice} (hv : bytes.Valid h) {c : U64} {m : List Char}
    {p : Packet} (ha : New h c bytes m true = .ok (some p, none)) (ht : p.IPProto = 6) (hn : bytes.len < 65536)
    (grow : Nat → Nat) (ops : List TcpOp) (hall : AllAllowed grow h p ops) :
    ∃ h' p', runOps grow h p ops = .ok (h', p') ∧
      (∀ t : Slice, t.Valid h →
        (t.arr ≠ bytes.arr ∨ t.off + t.len ≤ bytes.off ∨ bytes.off + p.IPHeaderLen.toNat + 20 ≤ t.off) →
        t.Valid h' ∧ h'.bytes t = h.bytes t) ∧
      (h'.bytes bytes).drop (p.IPHeaderLen.toNat + 20) = (h.bytes bytes).drop (p.IPHeaderLen.toNat + 20) := by
  obtain ⟨h', p', h1, h2, h3, h4⟩ := runOps_frame grow ops (accepted_inv hv ha ht hn) hall
  obtain ⟨_, _, _, _, _, _, _, _, k9, _, k11⟩ := accepted_tcp hv ha ht
  have k11 := k11 rfl hn
  obtain ⟨b1, b2, _⟩ := accepted_place hv ha
  have main : ∀ t : Slice, t.Valid h →
      (t.arr ≠ bytes.arr ∨ t.off + t.len ≤ bytes.off ∨ bytes.off + p.IPHeaderLen.toNat + 20 ≤ t.off) →
      t.Valid h' ∧ h'.bytes t = h.bytes t := by
    intro t hvt hd
    refine h4 t hvt ?_
    unfold Clear
    rw [b1, b2]
    unfold Packet.IPHeaderLen at hd
    omega
  refine ⟨h', p', h1, main, ?_⟩
  have hle : p.IPHeaderLen.toNat + 20 ≤ bytes.len := Nat.le_trans k11.2 k9
  have k := (main (tail bytes (p.IPHeaderLen.toNat + 20)) (tail_valid hv hle)
    (.inr (.inr (by show _ ≤ bytes.off + (p.IPHeaderLen.toNat + 20); omega)))).2
  rw [bytes_tail, bytes_tail] at k
  exact k

/-- C107 on the example packet: adding to the sequence number and updating the checksum leaves everything
from byte 40 on - options and data - alone, and everything in other arrays. -/
theorem C107_example (grow : Nat → Nat) : ∃ h' p', runOps grow exHeap exPacket [.incSeq 5, .updateTCP] = .ok (h', p') ∧
    (h'.bytes ⟨0, 0, 52, 52⟩).drop 40 = (exHeap.bytes ⟨0, 0, 52, 52⟩).drop 40 ∧ p'.tcpSeq = 6 := by
  have hall : AllAllowed grow exHeap exPacket [.incSeq 5, .updateTCP] := by
    refine ⟨trivial, fun h' p' he => ⟨?_, fun _ _ _ => trivial⟩⟩
    cases (IncSeq_eq (accepted_inv ex_valid ex_accepted rfl (by decide)).buf (by decide) 5).symm.trans he
    show exPacket.buffer.len - exPacket.IPHeaderLen.toNat + exPacket.TCPOptionLength + exPacket.TCPDataLength < 65536
    decide
  obtain ⟨h', p', h1, _, h3⟩ := C107_only_headers ex_valid ex_accepted rfl (by decide) grow _ hall
  refine ⟨h', p', h1, h3, ?_⟩
  have hi := accepted_inv ex_valid ex_accepted rfl (by decide)
  obtain ⟨hx, px, e1, hix, _⟩ := run_ok grow hi (.incSeq 5) trivial
  have e1' := e1
  cases (IncSeq_eq hi.buf (by decide) 5).symm.trans e1
  have e2 := res_bind (f := fun r : Heap × Packet => runOps grow r.1 r.2 [.updateTCP]) e1'
    (res_bind (f := fun r : Heap × Packet => runOps grow r.1 r.2 []) (UpdateTCP_eq (hix.mem (by decide))) rfl)
  cases h1.symm.trans e2
  rfl

end Verif.Packet
