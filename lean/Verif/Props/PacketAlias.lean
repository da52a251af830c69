import Verif.Props.PacketAdjust
/-! C59: what attaching does to memory other than the packet's headers. -/
namespace Verif.Packet
open Verif.Spec

theorem attachedBytes_hdr {p : Packet} {W : List Byte} (hl : p.ipHeaderLen.toNat + 20 ≤ W.length)
    (h20 : 20 ≤ p.ipHeaderLen.toNat) (ol dl : Nat) :
    SameExcept (fun i => i < p.ipHeaderLen.toNat + 20) (attachedBytes p W ol dl) W := by
  unfold attachedBytes
  have s1 := fixedBytes_same (p := p) (W := W) (by omega) p.ipTotalLength (p.ipTotalLength + BitVec.ofNat 16 (dl + ol))
  generalize fixedBytes p W p.ipTotalLength (p.ipTotalLength + BitVec.ofNat 16 (dl + ol)) = F at *
  have hF := s1.1
  have s2 := splice_same (b := F) (i := p.ipHeaderLen.toNat + 16) (bs := enc16 .big p.tcpChecksum) (by simp; omega)
  generalize splice F (p.ipHeaderLen.toNat + 16) (enc16 .big p.tcpChecksum) = G at *
  have hG := s2.1
  have s3 := splice_same (b := G) (i := p.ipHeaderLen.toNat + 12)
    (bs := [(p.tcpDataOffset + BitVec.ofNat 8 (ol / 4)).shiftLeft 4]) (by rw [List.length_singleton]; omega)
  refine SameExcept.trans (s3.mono (fun i hx => ?_)) (SameExcept.trans (s2.mono (fun i hx => ?_)) (s1.mono (fun i hx => ?_)))
  · rw [List.length_singleton] at hx; omega
  · simp only [enc16_length] at hx; omega
  · have := hx.lt; omega

/-- C59, the safe use. After detaching and dropping the detached bytes, attaching leaves everything in
memory outside the packet's own headers as it was: in particular the detached options and data. -/
theorem C59_attach_keeps_memory {h : Heap} {bytes : Slice} (hv : bytes.Valid h) {c : U64} {m : List Char}
    {p : Packet} (ha : New h c bytes m true = .ok (some p, none)) (ht : p.IPProto = 6) (hn : bytes.len < 65536)
    {o : U16} (hd : Detachable p o) (h4 : o.toNat % 4 = 0) (grow : Nat → Nat) :
    ∃ h1 p1, TCPDataDetach h p o = .ok (h1, p1) ∧
    ∀ opts data : Slice, opts.Valid h1 → Foreign h1 p1 data → p1.TCPDataStartBytes.toNat + opts.len < 64 →
    ∃ h2 p2, TCPDataAttach grow h1 p1.DropTCPDetachedBytes opts data = .ok (h2, p2, none) ∧
      h2.bytes p1.GetTCPData = h1.bytes p1.GetTCPData ∧ h2.bytes p1.GetTCPOptions = h1.bytes p1.GetTCPOptions ∧
      ∀ t : Slice, Foreign h1 p1 t → h2.bytes t = h1.bytes t := by
  have hi := accepted_inv hv ha ht hn
  have hdk := Detachable.ok hi hd
  have g1 := hdk.inb
  have g2 := hdk.opt
  have g3 := hdk.off
  obtain ⟨h1, p1, he, hD⟩ := Detach_full hi hdk
  refine ⟨h1, p1, he, fun opts data ho hf hfit => ?_⟩
  have hinv : TcpInv h1 p1.DropTCPDetachedBytes :=
    TcpInv.setParts hD.inv (b := p1.buffer) (o := Slice.nil) (d := Slice.nil) rfl hD.inv.room hD.inv.buf.1 (nil_valid _)
        (nil_valid _) (nil_clear _ _ _) (nil_clear _ _ _) (fun _ => rfl)
  have hds := hD.inv.dataStart
  have hbl : p1.buffer.len = p.ipHeaderLen.toNat + p.tcpDataOffset.toNat * 4 - o.toNat := by rw [hD.buf]; rfl
  have hoff := hD.off
  have hh := hD.hlen
  rw [hds] at hfit
  obtain ⟨h2, p2, e2, hA⟩ := Attach_full grow hinv rfl ho hf.1 hf.clear (show p1.tcpDataOffset.toNat + opts.len / 4 ≤ 15 by omega)
    (.inl (by
      apply BitVec.eq_of_toNat_eq
      show p1.TCPDataStartBytes.toNat = (BitVec.ofNat 16 (p1.buffer.len - p1.ipHeaderLen.toNat)).toNat
      rw [hds, BitVec.toNat_ofNat, hbl, hh]
      omega))
  refine ⟨h2, p2, e2, (hA.mem _ hD.inv.data).2 hD.inv.dataClear, (hA.mem _ hD.inv.opts).2 hD.inv.optsClear,
    fun t hft => (hA.mem t hft.1).2 hft.clear⟩

/-- C59 is violated without dropping. For every accepted TCP packet with options and data, detaching
its options and data and then attaching at most as many new option bytes as there is detached data,
without `DropTCPDetachedBytes`, overwrites the beginning of the detached data with the new options:
the data slice the caller still holds, and passes back, no longer shows what was detached. -/
theorem C59_attach_overwrites_violated {h : Heap} {bytes : Slice} (hv : bytes.Valid h) {c : U64} {m : List Char}
    {p : Packet} (ha : New h c bytes m true = .ok (some p, none)) (ht : p.IPProto = 6) (hn : bytes.len < 65536)
    {o : U16} (hd : Detachable p o) (h4 : o.toNat % 4 = 0) (hpos : 0 < o.toNat) (grow : Nat → Nat) :
    ∃ h1 p1, TCPDataDetach h p o = .ok (h1, p1) ∧
    ∀ opts : Slice, opts.Valid h1 → 0 < opts.len → opts.len ≤ p1.TCPDataLength →
    ∃ h2 p2, TCPDataAttach grow h1 p1 opts p1.GetTCPData = .ok (h2, p2, none) ∧
      p2.GetTCPData = p1.GetTCPData ∧
      h2.bytes p1.GetTCPData = h1.bytes opts ++ (h1.bytes p1.GetTCPData).drop opts.len := by
  have hi := accepted_inv hv ha ht hn
  obtain ⟨hf1, hf2⟩ := accepted_fresh hv ha ht
  have hdk := Detachable.ok hi hd
  have g1 := hdk.inb
  have g2 := hdk.opt
  have g3 := hdk.off
  have hc := hi.buf.1
  have hc2 := hi.buf.2
  have hg := hi.ge
  obtain ⟨h1, p1, he, hD⟩ := Detach_full hi hdk
  obtain ⟨b1, b2, b3, b4, b5⟩ := hD.bytes hi hdk hf1 hf2
  refine ⟨h1, p1, he, fun opts ho hz hol => ?_⟩
  have hds := hD.inv.dataStart
  have hbl : p1.buffer.len = p.ipHeaderLen.toNat + p.tcpDataOffset.toNat * 4 - o.toNat := by rw [hD.buf]; rfl
  have hoff := hD.off
  have hh := hD.hlen
  have hbv := hD.inv.buf
  have hroom := hD.inv.room
  have hgo : p1.TCPDataStartBytes = BitVec.ofNat 16 (p1.buffer.len - p1.ipHeaderLen.toNat) ∨ opts.len = 0 := by
    left
    apply BitVec.eq_of_toNat_eq
    rw [hds, BitVec.toNat_ofNat, hbl, hh]
    omega
  have heq := Attach_gen grow hbv hroom hD.inv.opts (o := opts) (d := p1.tcpData) hgo
  refine ⟨_, _, heq, rfl, ?_⟩
  have hob : (h1.bytes opts).length = opts.len := Heap.bytes_length ho
  obtain ⟨a1, a2, a3, a4, a5⟩ := Heap.append_spec grow hD.inv.opts (h1.bytes opts)
  have hbg := (a4 _ hbv).1
  have hwl := window_length hbg
  have hcap : p1.buffer.cap = p.buffer.cap := by rw [hD.buf]; rfl
  have hs := attachedBytes_hdr (p := p1) (W := window (h1.append grow p1.tcpOptions (h1.bytes opts)).2 p1.buffer)
    (by have := hbv.1; omega) (by rw [hh]; omega) opts.len p1.tcpData.len
  have hoc := put_same hbg hs
  have hlen0 : opts.len ≤ p1.tcpData.len := hol
  · have ho0 : ¬ o = 0 := fun e => by rw [e] at hpos; exact absurd hpos (by decide)
    have hdne : ¬ p.buffer.len = p.ipHeaderLen.toNat + p.tcpDataOffset.toNat * 4 := by omega
    have hdat : p1.tcpData = tail p.buffer (p.ipHeaderLen.toNat + p.tcpDataOffset.toNat * 4) := by
      rw [hD.data]; unfold cut; simp only [if_neg hdne]
    have hopt : p1.tcpOptions = head (tail p.buffer (p.ipHeaderLen.toNat + p.tcpDataOffset.toNat * 4 - o.toNat)) o.toNat := by
      rw [hD.opts]; unfold cut; simp only [if_neg ho0]
    have hdv := hD.inv.data
    show (put _ _ _).bytes p1.tcpData = _
    rw [hoc.clear (fun i hx => hx) hD.inv.dataClear]
    rw [hdat] at hlen0 hdv ⊢
    have hlen1 : opts.len ≤ p.buffer.len - (p.ipHeaderLen.toNat + p.tcpDataOffset.toNat * 4) := hlen0
    have hfit : (head (tail p.buffer (p.ipHeaderLen.toNat + p.tcpDataOffset.toNat * 4 - o.toNat)) o.toNat).len
        + (h1.bytes opts).length ≤
        (head (tail p.buffer (p.ipHeaderLen.toNat + p.tcpDataOffset.toNat * 4 - o.toNat)) o.toNat).cap := by
      rw [hob]
      show o.toNat + opts.len ≤ p.buffer.cap - (p.ipHeaderLen.toNat + p.tcpDataOffset.toNat * 4 - o.toNat)
      omega
    rw [hopt]
    unfold Heap.append
    rw [if_pos hfit]
    have hwi := Heap.bytes_write_inside (h := h1) (i := 0) (bs := h1.bytes opts) hdv (by rw [hob, Nat.zero_add]; exact hlen1)
    have hoffs : (tail p.buffer (p.ipHeaderLen.toNat + p.tcpDataOffset.toNat * 4)).off + 0 =
        (head (tail p.buffer (p.ipHeaderLen.toNat + p.tcpDataOffset.toNat * 4 - o.toNat)) o.toNat).off +
        (head (tail p.buffer (p.ipHeaderLen.toNat + p.tcpDataOffset.toNat * 4 - o.toNat)) o.toNat).len := by
      show p.buffer.off + (p.ipHeaderLen.toNat + p.tcpDataOffset.toNat * 4) + 0 =
        p.buffer.off + (p.ipHeaderLen.toNat + p.tcpDataOffset.toNat * 4 - o.toNat) + o.toNat
      omega
    rw [hoffs] at hwi
    refine hwi.trans ?_
    unfold splice
    rw [List.take_zero, List.nil_append, Nat.zero_add, hob, show p1.GetTCPData = p1.tcpData from rfl, hdat]

end Verif.Packet
