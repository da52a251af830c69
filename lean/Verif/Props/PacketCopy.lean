import Verif.Packet.Copy
import Verif.Props.PacketFrame
/-! C108: the bytes `GetTCPBytes` returns are the caller's own. -/
namespace Verif.Packet
open Verif.Spec

/-- C108. After any allowed operations on an accepted TCP packet, `GetTCPBytes` returns the packet's buffer,
options and data one after the other, in memory no existing slice shares: nothing that existed is changed,
later allowed operations on the packet do not change the copy, and whatever is written into the copy changes
no slice that existed before. -/
theorem C108_own_copy {h : Heap} {bytes : Slice} (hv : bytes.Valid h) {c : U64} {m : List Char}
    {p : Packet} (ha : New h c bytes m true = .ok (some p, none)) (ht : p.IPProto = 6) (hn : bytes.len < 65536)
    (grow : Nat → Nat) (ops : List TcpOp) (hall : AllAllowed grow h p ops) :
    ∃ h1 p1 s h2, runOps grow h p ops = .ok (h1, p1) ∧ p1.GetTCPBytesMem grow h1 = (s, h2) ∧ s.Valid h2 ∧
      h2.bytes s = h1.bytes p1.buffer ++ h1.bytes p1.tcpOptions ++ h1.bytes p1.tcpData ∧
      (∀ t : Slice, t.Valid h1 → t.Valid h2 ∧ h2.bytes t = h1.bytes t) ∧
      (∀ more : List TcpOp, AllAllowed grow h2 p1 more →
        ∃ h3 p3, runOps grow h2 p1 more = .ok (h3, p3) ∧ h3.bytes s = h2.bytes s) ∧
      (∀ (i : Nat) (bs : List Byte) (h3 : Heap), h2.store s i bs = .ok h3 →
        ∀ t : Slice, t.Valid h1 → h3.bytes t = h1.bytes t) := by
  obtain ⟨h1, p1, e1, hi, _⟩ := runOps_frame grow ops (accepted_inv hv ha ht hn) hall
  obtain ⟨s1, s2, s3, s4⟩ := getTCPBytes_spec grow hi.buf (by have := hi.room; omega) hi.opts hi.data
  rcases hr : p1.GetTCPBytesMem grow h1 with ⟨s, h2⟩
  rw [hr] at s1 s2 s3 s4
  simp only at s1 s2 s3 s4
  refine ⟨h1, p1, s, h2, e1, hr, s2, s1, s3, ?_, ?_⟩
  · intro more hm
    have hw : window h2 p1.buffer = window h1 p1.buffer :=
      (s3 ⟨p1.buffer.arr, p1.buffer.off, p1.buffer.cap, p1.buffer.cap⟩ ⟨Nat.le_refl _, hi.buf.2⟩).2
    have hi2 : TcpInv h2 p1 := ⟨(s3 _ hi.buf).1, hi.hdr, hi.room, hi.proto, hw.symm ▸ hi.ip, hw.symm ▸ hi.tcp,
      (s3 _ hi.opts).1, (s3 _ hi.data).1, hi.optsClear, hi.dataClear, hi.optsNil, hi.hash⟩
    obtain ⟨h3, p3, e3, _, _, f3⟩ := runOps_frame grow more hi2 hm
    refine ⟨h3, p3, e3, (f3 s s2 (.inl ?_)).2⟩
    have : p1.buffer.arr < h1.arrays.length := Heap.lt_of_arrayOf_pos (by
      have := hi.buf.1; have := hi.buf.2; have := hi.room; omega)
    omega
  · intro i bs h3 he t htv
    unfold Heap.store at he
    split at he
    · cases he
      rename_i hle
      obtain ⟨v1, v2⟩ := s2
      rw [← (s3 t htv).2]
      by_cases hc : t.len = 0
      · unfold Heap.bytes; rw [hc, List.take_zero, List.take_zero]
      · have : t.arr < h1.arrays.length := Heap.lt_of_arrayOf_pos (by have := htv.1; have := htv.2; omega)
        exact Heap.bytes_write_disjoint (by omega) (.inl (by omega))
    · cases he

/-- C108 on the example packet. -/
theorem C108_example (grow : Nat → Nat) : ∃ s h2, exPacket.GetTCPBytesMem grow exHeap = (s, h2) ∧
    h2.bytes s = exHeap.bytes ⟨0, 0, 52, 52⟩ ∧ s.arr ≠ 0 := by
  obtain ⟨h1, p1, s, h2, e1, e2, e3, e4, _, _, e6⟩ := C108_own_copy ex_valid ex_accepted rfl (by decide) grow [] trivial
  cases e1
  have hi := accepted_inv ex_valid ex_accepted rfl (by decide)
  obtain ⟨_, _, _, s4⟩ := getTCPBytes_spec grow hi.buf (by decide) hi.opts hi.data
  rw [e2] at s4
  refine ⟨s, h2, e2, e4.trans (by decide), ?_⟩
  have s4' : 1 ≤ s.arr := Nat.le_trans (by decide) s4
  omega

end Verif.Packet
