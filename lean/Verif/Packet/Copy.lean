import Verif.Packet.TcpInv
/-! `GetTCPBytes` with the memory it allocates. -/
namespace Verif.Packet

/-- packet.go:293-300 `GetTCPBytes`: three appends to an empty slice.  `Packet.GetTCPBytes` is the same
function reduced to the bytes of the result; `getTCPBytes_spec` proves that they agree. -/
def Packet.GetTCPBytesMem (grow : Nat → Nat) (h : Heap) (p : Packet) : Slice × Heap :=
  let (pktBytes, h) := h.append grow Slice.nil (h.bytes p.buffer)
  let (pktBytes, h) := h.append grow pktBytes (h.bytes p.tcpOptions)
  let (pktBytes, h) := h.append grow pktBytes (h.bytes p.tcpData)
  (pktBytes, h)

theorem append_fresh (grow : Nat → Nat) {h : Heap} {s : Slice} {n : Nat} (bs : List Byte) (hs : n ≤ s.arr)
    (hn : n ≤ h.arrays.length) :
    n ≤ (h.append grow s bs).1.arr ∧ n ≤ (h.append grow s bs).2.arrays.length := by
  unfold Heap.append
  split
  · refine ⟨hs, ?_⟩
    unfold Heap.write
    simpa using hn
  · refine ⟨hn, ?_⟩
    show n ≤ (h.arrays ++ _).length
    rw [List.length_append]
    omega

theorem append_nil_fresh (grow : Nat → Nat) {h : Heap} (bs : List Byte) (hb : bs ≠ []) :
    h.arrays.length ≤ (h.append grow Slice.nil bs).1.arr ∧
      h.arrays.length ≤ (h.append grow Slice.nil bs).2.arrays.length := by
  unfold Heap.append
  rw [if_neg (by
    intro hl
    have hl' : 0 + bs.length ≤ 0 := hl
    exact hb (List.eq_nil_of_length_eq_zero (by omega)))]
  refine ⟨Nat.le_refl _, ?_⟩
  show _ ≤ (h.arrays ++ _).length
  rw [List.length_append]
  omega

/-- Appending to a slice whose array did not exist in `h0` keeps everything that lies in `h0`. -/
theorem append_keeps (grow : Nat → Nat) {h0 h : Heap} {s : Slice} (hv : s.Valid h) (bs : List Byte)
    (hs : h0.arrays.length ≤ s.arr) {t : Slice} (ht0 : t.Valid h0) (ht : t.Valid h) :
    t.Valid (h.append grow s bs).2 ∧ (h.append grow s bs).2.bytes t = h.bytes t := by
  obtain ⟨_, _, _, h4, _⟩ := Heap.append_spec grow hv bs
  refine ⟨(h4 t ht).1, ?_⟩
  by_cases hc : t.cap = 0
  · have hl : t.len = 0 := by have := ht.1; omega
    unfold Heap.bytes
    rw [hl, List.take_zero, List.take_zero]
  · have : t.arr < h0.arrays.length := Heap.lt_of_arrayOf_pos (by have := ht0.2; omega)
    exact (h4 t ht).2 (.inl (by omega))

theorem getTCPBytes_spec (grow : Nat → Nat) {h : Heap} {p : Packet} (hb : p.buffer.Valid h) (hl : 0 < p.buffer.len)
    (ho : p.tcpOptions.Valid h) (hd : p.tcpData.Valid h) :
    (p.GetTCPBytesMem grow h).2.bytes (p.GetTCPBytesMem grow h).1 = p.GetTCPBytes h ∧
    (p.GetTCPBytesMem grow h).1.Valid (p.GetTCPBytesMem grow h).2 ∧
    (∀ t : Slice, t.Valid h → t.Valid (p.GetTCPBytesMem grow h).2 ∧
      (p.GetTCPBytesMem grow h).2.bytes t = h.bytes t) ∧
    h.arrays.length ≤ (p.GetTCPBytesMem grow h).1.arr := by
  have hbl := Heap.bytes_length hb
  have hne : h.bytes p.buffer ≠ [] := by
    intro e; rw [e] at hbl; simp at hbl; omega
  obtain ⟨a1, a2, a3, a4⟩ := append_nil_spec grow (h := h) (h.bytes p.buffer)
  obtain ⟨f1, f2⟩ := append_nil_fresh grow (h := h) _ hne
  unfold Packet.GetTCPBytesMem Packet.GetTCPBytes
  simp only
  generalize h.append grow Slice.nil (h.bytes p.buffer) = r1 at *
  obtain ⟨s1, h1⟩ := r1
  simp only at *
  obtain ⟨b1, b2, b3, _, _⟩ := Heap.append_spec grow a2 (h1.bytes p.tcpOptions)
  obtain ⟨g1, g2⟩ := append_fresh grow (h1.bytes p.tcpOptions) f1 f2
  have k2 : ∀ t : Slice, t.Valid h → t.Valid (h1.append grow s1 (h1.bytes p.tcpOptions)).2 ∧
      (h1.append grow s1 (h1.bytes p.tcpOptions)).2.bytes t = h.bytes t := fun t ht =>
    have k := append_keeps grow a2 (h1.bytes p.tcpOptions) f1 ht (a4 t ht).1
    ⟨k.1, k.2.trans (a4 t ht).2⟩
  generalize h1.append grow s1 (h1.bytes p.tcpOptions) = r2 at *
  obtain ⟨s2, h2⟩ := r2
  simp only at *
  obtain ⟨c1, c2, c3, _, _⟩ := Heap.append_spec grow b2 (h2.bytes p.tcpData)
  obtain ⟨i1, i2⟩ := append_fresh grow (h2.bytes p.tcpData) g1 g2
  refine ⟨?_, c2, fun t ht => ?_, i1⟩
  · rw [c1, b1, a1, (a4 _ ho).2, (k2 _ hd).2]
  · have k := append_keeps grow b2 (h2.bytes p.tcpData) g1 ht (k2 t ht).1
    exact ⟨k.1, k.2.trans (k2 t ht).2⟩

end Verif.Packet
