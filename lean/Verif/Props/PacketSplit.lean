import Verif.Packet.Split
/-! C56-C61: detaching, attaching and adjusting TCP packets. -/
namespace Verif.Packet
open Verif.Spec

/-! ### C56 -/

theorem Detached.bytes {h h' : Heap} {p p' : Packet} {o : U16} (hi : TcpInv h p) (hd : DetachOk h p o)
    (ht : Detached h p o h' p') (hfd : p.tcpData.len = 0) (hfo : p.tcpOptions.len = 0) :
    h'.bytes p'.tcpData = (h.bytes p.buffer).drop (p.ipHeaderLen.toNat + p.tcpDataOffset.toNat * 4) ∧
    h'.bytes p'.tcpOptions =
      ((h.bytes p.buffer).drop (p.ipHeaderLen.toNat + p.tcpDataOffset.toNat * 4 - o.toNat)).take o.toNat ∧
    SameExcept (fun i => LenField p.version i ∨ i = p.ipHeaderLen.toNat + 12) (h'.bytes p'.buffer)
      ((h.bytes p.buffer).take (p.ipHeaderLen.toNat + p.tcpDataOffset.toNat * 4 - o.toNat)) ∧
    p'.tcpData.len = p.buffer.len - (p.ipHeaderLen.toNat + p.tcpDataOffset.toNat * 4) ∧
    p'.tcpOptions.len = o.toNat := by
  have h1 := hd.inb
  have h2 := hd.opt
  have hc := hi.buf.1
  have hbl := Heap.bytes_length hi.buf
  have hlt : ∀ i, LenField p.version i ∨ i = p.ipHeaderLen.toNat + 12 → i < p.ipHeaderLen.toNat + 20 := by
    rintro i (hx | hx)
    · have := hx.lt; omega
    · omega
  refine ⟨?_, ?_, ?_, ?_, ?_⟩
  · rw [ht.data]
    unfold cut
    simp only
    split
    · rename_i he
      have : (h.bytes p.buffer).drop (p.ipHeaderLen.toNat + p.tcpDataOffset.toNat * 4) = [] := by
        apply List.drop_eq_nil_of_le; omega
      rw [this]
      unfold Heap.bytes
      rw [hfd, List.take_zero]
    · rw [ht.mem.clear hlt, bytes_tail]
      right; right
      show p.buffer.off + 0 + (p.ipHeaderLen.toNat + 20) ≤ p.buffer.off + (p.ipHeaderLen.toNat + p.tcpDataOffset.toNat * 4)
      omega
  · rw [ht.opts]
    unfold cut
    simp only
    split
    · rename_i he
      rw [he]
      unfold Heap.bytes
      rw [hfo]; simp
    · rw [ht.mem.clear hlt, bytes_head, bytes_tail]
      · show o.toNat ≤ p.buffer.len - (p.ipHeaderLen.toNat + p.tcpDataOffset.toNat * 4 - o.toNat)
        omega
      · right; right
        show p.buffer.off + 0 + (p.ipHeaderLen.toNat + 20) ≤ p.buffer.off + (p.ipHeaderLen.toNat + p.tcpDataOffset.toNat * 4 - o.toNat)
        omega
  · rw [ht.buf, ← bytes_head (by omega)]
    refine ⟨?_, fun i hx => ?_⟩
    · have hv1 : (head p.buffer (p.ipHeaderLen.toNat + p.tcpDataOffset.toNat * 4 - o.toNat)).Valid h' := ht.buf ▸ ht.inv.buf
      rw [Heap.bytes_length hv1, Heap.bytes_length (head_valid hi.buf (by omega))]
    · have hm : OnlyChanged h h' (head p.buffer (p.ipHeaderLen.toNat + p.tcpDataOffset.toNat * 4 - o.toNat))
        (fun i => LenField p.version i ∨ i = p.ipHeaderLen.toNat + 12) := ht.mem
      exact hm.bytes hx
  · rw [ht.data]
    unfold cut
    simp only
    split
    · omega
    · rfl
  · rw [ht.opts]
    unfold cut
    simp only
    split
    · rename_i he; rw [he]; exact hfo
    · rfl

theorem accepted_fresh {h : Heap} {bytes : Slice} (hv : bytes.Valid h) {c : U64} {m : List Char} {lv : Bool}
    {p : Packet} (ha : New h c bytes m lv = .ok (some p, none)) (ht : p.IPProto = 6) :
    p.tcpData.len = 0 ∧ p.tcpOptions.len = 0 := by
  obtain ⟨h1, h2, h3, h4, h5, h6, _⟩ := accepted_tcp hv ha ht
  rw [h5, h6]; exact ⟨rfl, rfl⟩

theorem Detached.total {h h' : Heap} {p p' : Packet} {o : U16} (hd : DetachOk h p o) (ht : Detached h p o h' p')
    (htot : p.buffer.len = p.ipTotalLength.toNat) :
    p'.ipTotalLength.toNat = p.ipHeaderLen.toNat + p.tcpDataOffset.toNat * 4 - o.toNat := by
  have h1 := hd.inb
  have h2 := hd.opt
  have := p.ipTotalLength.isLt
  rw [ht.tot, BitVec.toNat_sub, cutLen_nat hd]
  omega

theorem TcpInv.dataStart {h : Heap} {p : Packet} (hi : TcpInv h p) :
    p.TCPDataStartBytes.toNat = p.tcpDataOffset.toNat * 4 := dataStart_nat' hi.tcp.offLe

/-- The header checksum of the packet in memory is right. -/
def ChecksumRight (h : Heap) (p : Packet) : Prop :=
  p.IPversion = .V4 → ipv4ChecksumOk (h.bytes p.buffer)

theorem ChecksumRight_iff {h : Heap} {p : Packet} (hi : TcpInv h p) :
    ChecksumRight h p ↔ (p.version = .V4 → CsumOk (window h p.buffer)) := by
  unfold ChecksumRight
  have hr := hi.room
  have hg := hi.ge
  constructor
  · intro hx h4; exact (CsumOk_window hi.buf (by omega)).mpr (hx h4)
  · intro hx h4; exact (CsumOk_window hi.buf (by omega)).mp (hx h4)

/-- C56. On every accepted TCP packet whose data offset lies inside it, detaching with an option
length that is a multiple of 4 and at most the length of its options keeps everything: the data and
the options come off byte for byte, the rest stays in place except the IP length, IP checksum and
data-offset fields; lengths and data offset are right in the accessors and on the wire, a valid
header checksum stays valid, and in all of memory only those fields changed. -/
theorem C56_detach_splits {h : Heap} {bytes : Slice} (hv : bytes.Valid h) {c : U64} {m : List Char}
    {p : Packet} (ha : New h c bytes m true = .ok (some p, none)) (ht : p.IPProto = 6) (hn : bytes.len < 65536)
    {o : U16} (hd : Detachable p o) (h4 : o.toNat % 4 = 0) :
    ∃ h' p', TCPDataDetach h p o = .ok (h', p') ∧
      h'.bytes p'.GetTCPData = (h.bytes p.buffer).drop (p.IPHeaderLen.toNat + p.TCPDataStartBytes.toNat) ∧
      h'.bytes p'.GetTCPOptions =
        ((h.bytes p.buffer).drop (p.IPHeaderLen.toNat + p.TCPDataStartBytes.toNat - o.toNat)).take o.toNat ∧
      SameExcept (fun i => LenField p.IPversion i ∨ i = p.IPHeaderLen.toNat + 12) (h'.bytes p'.buffer)
        ((h.bytes p.buffer).take (p.IPHeaderLen.toNat + p.TCPDataStartBytes.toNat - o.toNat)) ∧
      SameExcept (fun i => LenField p.IPversion i ∨ i = p.IPHeaderLen.toNat + 12) (p'.GetTCPBytes h')
        (h.bytes p.buffer) ∧
      p'.IPTotalLen.toNat = (h'.bytes p'.buffer).length ∧
      p'.TCPDataStartBytes.toNat = p.TCPDataStartBytes.toNat - o.toNat ∧
      OnWire p' (h'.bytes p'.buffer) ∧ (ChecksumRight h p → ChecksumRight h' p') ∧
      OnlyChanged h h' p.buffer (fun i => LenField p.IPversion i ∨ i = p.IPHeaderLen.toNat + 12) := by
  have hi := accepted_inv hv ha ht hn
  obtain ⟨hf1, hf2⟩ := accepted_fresh hv ha ht
  obtain ⟨_, _, _, _, _, _, _, _, _, _, h11⟩ := accepted_tcp hv ha ht
  have htot := (h11 rfl hn).1
  have hdk := Detachable.ok hi hd
  have hds := hi.dataStart
  have g1 := hdk.inb
  have g2 := hdk.opt
  have hc := hi.buf.1
  have hbl := Heap.bytes_length hi.buf
  obtain ⟨h', p', he, hD⟩ := Detach_full hi hdk
  obtain ⟨b1, b2, b3, b4, b5⟩ := hD.bytes hi hdk hf1 hf2
  have hlt : ∀ i, LenField p.version i ∨ i = p.ipHeaderLen.toNat + 12 →
      i < p.ipHeaderLen.toNat + p.tcpDataOffset.toNat * 4 - o.toNat := by
    rintro i (hx | hx)
    · have := hx.lt; omega
    · omega
  have hlen : (h'.bytes p'.buffer).length = p.ipHeaderLen.toNat + p.tcpDataOffset.toNat * 4 - o.toNat := by
    rw [b3.1, List.length_take, hbl]; omega
  refine ⟨h', p', he, ?_, ?_, ?_, ?_, ?_, ?_, hD.inv.onWire, ?_, hD.mem⟩
  · rw [hds]; exact b1
  · rw [hds]; exact b2
  · rw [hds]; exact b3
  · unfold Packet.GetTCPBytes
    rw [b1, b2]
    have hsplit : h.bytes p.buffer = (h.bytes p.buffer).take (p.ipHeaderLen.toNat + p.tcpDataOffset.toNat * 4 - o.toNat)
        ++ ((h.bytes p.buffer).drop (p.ipHeaderLen.toNat + p.tcpDataOffset.toNat * 4 - o.toNat)).take o.toNat
        ++ (h.bytes p.buffer).drop (p.ipHeaderLen.toNat + p.tcpDataOffset.toNat * 4) := by
      conv => lhs; rw [← List.take_append_drop (p.ipHeaderLen.toNat + p.tcpDataOffset.toNat * 4 - o.toNat) (h.bytes p.buffer)]
      rw [List.append_assoc]
      congr 1
      conv => lhs; rw [← List.take_append_drop o.toNat ((h.bytes p.buffer).drop _)]
      rw [List.drop_drop]
      congr 2
      omega
    have := (b3.append (((h.bytes p.buffer).drop (p.ipHeaderLen.toNat + p.tcpDataOffset.toNat * 4 - o.toNat)).take o.toNat)).append
      ((h.bytes p.buffer).drop (p.ipHeaderLen.toNat + p.tcpDataOffset.toNat * 4))
    rw [← hsplit] at this
    exact this
  · show p'.ipTotalLength.toNat = _
    rw [hlen]; exact hD.total hdk htot
  · rw [hD.inv.dataStart, hds, hD.off]
    omega
  · rw [ChecksumRight_iff hi, ChecksumRight_iff hD.inv]
    intro hx h4
    rw [hD.ver] at h4
    rw [hD.buf, window_head]
    exact hD.valid h4 (hx h4)

/-! ### C58 -/

/-- C58. After detaching from an accepted packet and dropping the detached bytes, attaching any
options (a multiple of 4 bytes that fits the header) and any data lying outside the packet's headers,
64 KiB not exceeded, succeeds: the packet is its kept bytes (with updated length, checksum and
data-offset fields) followed by exactly the options and the data, the IP total length is the length
of all that, the data offset points at the data, all of it is on the wire, and a valid IP header
checksum is still valid. -/
theorem C58_attach_consistent {h : Heap} {bytes : Slice} (hv : bytes.Valid h) {c : U64} {m : List Char}
    {p : Packet} (ha : New h c bytes m true = .ok (some p, none)) (ht : p.IPProto = 6) (hn : bytes.len < 65536)
    {o : U16} (hd : Detachable p o) (h4 : o.toNat % 4 = 0) (grow : Nat → Nat) :
    ∃ h1 p1, TCPDataDetach h p o = .ok (h1, p1) ∧
    ∀ opts data : Slice, opts.Valid h1 → Foreign h1 p1 data → opts.len % 4 = 0 →
      p1.TCPDataStartBytes.toNat + opts.len ≤ 60 → p1.IPTotalLen.toNat + opts.len + data.len < 65536 →
    ∃ h2 p2, TCPDataAttach grow h1 p1.DropTCPDetachedBytes opts data = .ok (h2, p2, none) ∧
      p2.GetTCPBytes h2 = h2.bytes p2.buffer ++ h1.bytes opts ++ h1.bytes data ∧
      SameExcept (fun i => LenField p.IPversion i ∨ i = p.IPHeaderLen.toNat + 12) (h2.bytes p2.buffer)
        ((h.bytes p.buffer).take (p.IPHeaderLen.toNat + p.TCPDataStartBytes.toNat - o.toNat)) ∧
      p2.IPTotalLen.toNat = (p2.GetTCPBytes h2).length ∧
      (p2.GetTCPBytes h2).drop (p2.IPHeaderLen.toNat + p2.TCPDataStartBytes.toNat) = h1.bytes data ∧
      OnWire p2 (h2.bytes p2.buffer) ∧ (ChecksumRight h p → ChecksumRight h2 p2) ∧
      p2.TCPDataStartBytes.toNat = p1.TCPDataStartBytes.toNat + opts.len ∧ p2.IPversion = p.IPversion ∧ p2.IPHeaderLen = p.IPHeaderLen := by
  have hi := accepted_inv hv ha ht hn
  obtain ⟨hf1, hf2⟩ := accepted_fresh hv ha ht
  obtain ⟨_, _, _, _, _, _, _, _, _, _, h11⟩ := accepted_tcp hv ha ht
  have htot := (h11 rfl hn).1
  have hdk := Detachable.ok hi hd
  have hds := hi.dataStart
  have g1 := hdk.inb
  have g2 := hdk.opt
  have hc := hi.buf.1
  have hbl := Heap.bytes_length hi.buf
  obtain ⟨h', p', he, hD⟩ := Detach_full hi hdk
  obtain ⟨b1, b2, b3, b4, b5⟩ := hD.bytes hi hdk hf1 hf2
  have htl := hD.total hdk htot
  have hr1 := hD.inv.room
  have hlen : p'.buffer.len = p.ipHeaderLen.toNat + p.tcpDataOffset.toNat * 4 - o.toNat := by rw [hD.buf]; rfl
  have hoff := hD.off
  have hle := hD.inv.tcp.offLe
  have hhl := hD.hlen
  refine ⟨h', p', he, fun opts data hov hf hm4 hfit hsz => ?_⟩
  have hsz' : p'.ipTotalLength.toNat + opts.len + data.len < 65536 := hsz
  rw [hD.inv.dataStart] at hfit
  have hi1 : TcpInv h' p'.DropTCPDetachedBytes :=
    TcpInv.setParts hD.inv (b := p'.buffer) (o := Slice.nil) (d := Slice.nil) rfl hr1 hD.inv.buf.1 (nil_valid _)
      (nil_valid _) (nil_clear _ _ _) (nil_clear _ _ _) (fun _ => rfl)
  have hgo : p'.DropTCPDetachedBytes.TCPDataStartBytes
      = BitVec.ofNat 16 (p'.DropTCPDetachedBytes.buffer.len - p'.DropTCPDetachedBytes.ipHeaderLen.toNat) := by
    apply BitVec.eq_of_toNat_eq
    rw [hi1.dataStart, BitVec.toNat_ofNat]
    show p'.tcpDataOffset.toNat * 4 = (p'.buffer.len - p'.ipHeaderLen.toNat) % 2 ^ 16
    rw [hlen, hhl, hoff]
    omega
  obtain ⟨h2, p2, hea, hA⟩ := Attach_full grow hi1 (o := opts) (d := data) rfl hov hf.1 hf.clear
    (by show p'.tcpDataOffset.toNat + opts.len / 4 ≤ 15; omega) (.inl hgo)
  have hpk : p2.GetTCPBytes h2 = h2.bytes p2.buffer ++ h'.bytes opts ++ h'.bytes data := by
    unfold Packet.GetTCPBytes; rw [hA.data, hA.opts]
  have hpb : p2.buffer = p'.buffer := hA.buf
  have hbl2 : (h2.bytes p2.buffer).length = p'.buffer.len := by rw [Heap.bytes_length hA.inv.buf, hpb]
  have hol := Heap.bytes_length hov
  have hdl := Heap.bytes_length hf.1
  have hsame : SameExcept (fun i => LenField p.version i ∨ i = p.ipHeaderLen.toNat + 12) (h2.bytes p2.buffer)
      (h'.bytes p'.buffer) := by
    have := hA.same
    have e1 : p'.DropTCPDetachedBytes.version = p.version := hD.ver
    have e2 : p'.DropTCPDetachedBytes.ipHeaderLen = p.ipHeaderLen := hhl
    rw [e1, e2] at this
    rw [bytes_eq_window hA.inv.buf, bytes_eq_window hD.inv.buf, hpb]
    exact this.take _
  have hoff2 : p2.tcpDataOffset.toNat = p'.tcpDataOffset.toNat + opts.len / 4 := by
    rw [hA.off]; exact add_quarter (by show p'.tcpDataOffset.toNat + opts.len / 4 ≤ 15; omega)
  refine ⟨h2, p2, hea, hpk, ?_, ?_, ?_, hA.inv.onWire, ?_, ?_, hA.ver.trans hD.ver, hA.hlen.trans hhl⟩
  · rw [hds]
    exact hsame.trans b3
  · rw [hpk]
    simp only [List.length_append]
    rw [hbl2, hol, hdl]
    show p2.ipTotalLength.toNat = _
    rw [hA.tot]
    show (p'.ipTotalLength + BitVec.ofNat 16 (data.len + opts.len)).toNat = _
    rw [BitVec.toNat_add, BitVec.toNat_ofNat, hlen, ← htl]
    omega
  · rw [hpk, List.drop_left']
    rw [List.length_append, hbl2, hol, hA.inv.dataStart, hoff2]
    show _ = p2.ipHeaderLen.toNat + _
    have : p2.ipHeaderLen = p.ipHeaderLen := hA.hlen.trans hhl
    rw [this, hlen, hoff]
    omega
  · rw [ChecksumRight_iff hi, ChecksumRight_iff hA.inv]
    intro hx h4
    have e1 : p2.version = p.version := hA.ver.trans hD.ver
    rw [e1] at h4
    rw [hpb]
    refine hA.valid (by rw [show p'.DropTCPDetachedBytes.version = p.version from hD.ver]; exact h4) ?_
    show CsumOk (window h' p'.buffer)
    rw [hD.buf, window_head]
    exact hD.valid h4 (hx h4)
  · rw [hA.inv.dataStart, hD.inv.dataStart, hoff2]
    omega

/-! ### C57 -/

theorem u16at_inj {a b : List Byte} {i : Nat} (h : u16at a i = u16at b i) :
    u8at a i = u8at b i ∧ u8at a (i + 1) = u8at b (i + 1) := by
  have := congrArg (enc16 .big) h
  rw [enc16_u16at, enc16_u16at] at this
  simpa using this

theorem ext_u8at {a b : List Byte} (hl : a.length = b.length) (h : ∀ i, i < a.length → u8at a i = u8at b i) : a = b := by
  apply List.ext_getElem?
  intro i
  by_cases hi : i < a.length
  · rw [u8at_some hi, u8at_some (by omega), h i hi]
  · rw [List.getElem?_eq_none (by omega), List.getElem?_eq_none (by omega)]

theorem zeroed_congr {a b : List Byte} (hl : a.length = b.length) (h20 : 20 ≤ a.length)
    (h : ∀ i, i < 20 → i ≠ 10 → i ≠ 11 → u8at a i = u8at b i) : zeroed a = zeroed b := by
  have e1 := zeroed_length h20
  have e2 := zeroed_length (W := b) (by omega)
  apply ext_u8at (by omega)
  intro i hi
  unfold zeroed
  rw [u8at_splice (by simp; omega), u8at_splice (by simp; omega)]
  split
  · rfl
  · rename_i hn
    simp only [List.length_cons, List.length_nil] at hn
    rw [u8at_take (by omega), u8at_take (by omega)]
    exact h i (by omega) (by omega) (by omega)

theorem nibble_back : ∀ b : Byte, b.toNat % 16 = 0 → (b >>> 4).shiftLeft 4 = b := by decide

/-- C57. For every accepted TCP packet (with a right IP header checksum if it is IPv4, and clear
reserved bits): detaching, dropping the detached bytes and attaching the options and data that came
off gives back exactly the original bytes, total length and data offset. -/
theorem C57_detach_attach_restores {h : Heap} {bytes : Slice} (hv : bytes.Valid h) {c : U64} {m : List Char}
    {p : Packet} (ha : New h c bytes m true = .ok (some p, none)) (ht : p.IPProto = 6) (hn : bytes.len < 65536)
    {o : U16} (hd : Detachable p o) (h4 : o.toNat % 4 = 0) (hcs : ChecksumRight h p)
    (hres : ∃ b, (h.bytes p.buffer)[p.IPHeaderLen.toNat + 12]? = some b ∧ b.toNat % 16 = 0) (grow : Nat → Nat) :
    ∃ h1 p1 h2 p2, TCPDataDetach h p o = .ok (h1, p1) ∧
      TCPDataAttach grow h1 p1.DropTCPDetachedBytes p1.GetTCPOptions p1.GetTCPData = .ok (h2, p2, none) ∧
      p2.GetTCPBytes h2 = h.bytes p.buffer ∧ p2.IPTotalLen = p.IPTotalLen ∧
      p2.TCPDataStartBytes = p.TCPDataStartBytes ∧ OnWire p2 (h2.bytes p2.buffer) := by
  have hi := accepted_inv hv ha ht hn
  obtain ⟨hf1, hf2⟩ := accepted_fresh hv ha ht
  have hdk := Detachable.ok hi hd
  have hds := hi.dataStart
  have g1 := hdk.inb
  have g2 := hdk.opt
  have hc := hi.buf.1
  have hg := hi.ge
  have hbl := Heap.bytes_length hi.buf
  have hwl := window_length hi.buf
  obtain ⟨h', p', he, hD⟩ := Detach_full hi hdk
  obtain ⟨b1, b2, b3, b4, b5⟩ := hD.bytes hi hdk hf1 hf2
  have hr1 := hD.inv.room
  have hlen : p'.buffer.len = p.ipHeaderLen.toNat + p.tcpDataOffset.toNat * 4 - o.toNat := by rw [hD.buf]; rfl
  have hoff := hD.off
  have hle := hdk.off
  have hhl := hD.hlen
  have hi1 : TcpInv h' p'.DropTCPDetachedBytes :=
    TcpInv.setParts hD.inv (b := p'.buffer) (o := Slice.nil) (d := Slice.nil) rfl hr1 hD.inv.buf.1 (nil_valid _)
      (nil_valid _) (nil_clear _ _ _) (nil_clear _ _ _) (fun _ => rfl)
  have hgo : p'.DropTCPDetachedBytes.TCPDataStartBytes
      = BitVec.ofNat 16 (p'.DropTCPDetachedBytes.buffer.len - p'.DropTCPDetachedBytes.ipHeaderLen.toNat) := by
    apply BitVec.eq_of_toNat_eq
    rw [hi1.dataStart, BitVec.toNat_ofNat]
    show p'.tcpDataOffset.toNat * 4 = (p'.buffer.len - p'.ipHeaderLen.toNat) % 2 ^ 16
    rw [hlen, hhl, hoff]
    omega
  obtain ⟨h2, p2, hea, hA⟩ := Attach_full grow hi1 (o := p'.tcpOptions) (d := p'.tcpData) rfl hD.inv.opts hD.inv.data
    hD.inv.dataClear (by show p'.tcpDataOffset.toNat + p'.tcpOptions.len / 4 ≤ 15; omega) (.inl hgo)
  have hpb : p2.buffer = p'.buffer := hA.buf
  have hver : p2.version = p.version := hA.ver.trans hD.ver
  have hoffq : p2.tcpDataOffset = p.tcpDataOffset := by
    apply BitVec.eq_of_toNat_eq
    rw [hA.off]
    rw [add_quarter (by show p'.tcpDataOffset.toNat + p'.tcpOptions.len / 4 ≤ 15; omega)]
    show p'.tcpDataOffset.toNat + p'.tcpOptions.len / 4 = _
    omega
  have htotq : p2.ipTotalLength = p.ipTotalLength := by
    rw [hA.tot]
    show p'.ipTotalLength + _ = _
    rw [hD.tot]
    have : BitVec.ofNat 16 (p'.tcpData.len + p'.tcpOptions.len) = cutLen p o := by
      apply BitVec.eq_of_toNat_eq
      rw [cutLen_nat hdk, BitVec.toNat_ofNat, b4, b5]
      have := hdk.size
      omega
    rw [this, BitVec.sub_add_cancel]
  have hwin1 : window h' p'.buffer = window h' p.buffer := by rw [hD.buf]; rfl
  have hwin2 : window h2 p2.buffer = window h2 p'.buffer := by rw [hpb]
  have s1 : SameExcept (fun i => LenField p.version i ∨ i = p.ipHeaderLen.toNat + 12) (window h' p.buffer) (window h p.buffer) := by
    have hm : OnlyChanged h h' ⟨p.buffer.arr, p.buffer.off, p.buffer.cap, p.buffer.cap⟩
      (fun i => LenField p.version i ∨ i = p.ipHeaderLen.toNat + 12) := hD.mem
    refine ⟨?_, fun i hx => hm.bytes hx⟩
    rw [hwl, ← hwin1, window_length hD.inv.buf, hD.buf]; rfl
  have s2 : SameExcept (fun i => LenField p.version i ∨ i = p.ipHeaderLen.toNat + 12) (window h2 p2.buffer) (window h p.buffer) := by
    have := hA.same
    rw [show p'.DropTCPDetachedBytes.version = p.version from hD.ver,
      show p'.DropTCPDetachedBytes.ipHeaderLen = p.ipHeaderLen from hhl] at this
    rw [hwin2]
    refine SameExcept.trans this ?_
    show SameExcept _ (window h' p'.buffer) _
    rw [hwin1]; exact s1
  have h12 : u8at (window h2 p2.buffer) (p.ipHeaderLen.toNat + 12) = u8at (window h p.buffer) (p.ipHeaderLen.toNat + 12) := by
    have e := hA.offByte
    rw [← hA.off, hoffq] at e
    have e' : u8at (window h2 p'.buffer) (p.ipHeaderLen.toNat + 12) = p.tcpDataOffset.shiftLeft 4 := hhl ▸ e
    rw [hwin2, e', ← hi.tcp.off]
    apply nibble_back
    obtain ⟨b, hb1, hb2⟩ := hres
    have hb1' : (h.bytes p.buffer)[p.ipHeaderLen.toNat + 12]? = some b := hb1
    rw [u8at_some (by omega), bytes_eq_window hi.buf, u8at_take (by omega), Option.some.injEq] at hb1'
    rw [hb1']; exact hb2
  have hrest : ∀ i, ¬ LenField p.version i → u8at (window h2 p2.buffer) i = u8at (window h p.buffer) i := by
    intro i hx
    by_cases h12i : i = p.ipHeaderLen.toNat + 12
    · rw [h12i]; exact h12
    · exact s2.u8 (fun hp => hp.elim hx h12i)
  have hlenf : ∀ i, LenField p.version i → u8at (window h2 p2.buffer) i = u8at (window h p.buffer) i := by
    rcases hi.hdr.nat with ⟨hv4, hH⟩ | ⟨hv6, hH⟩
    · have e2 : u16at (window h2 p2.buffer) 2 = u16at (window h p.buffer) 2 := by
        rw [hA.inv.ip.tot4 (hver.trans hv4), hi.ip.tot4 hv4, htotq]
      have e2' := u16at_inj e2
      have hz : zeroed (window h2 p2.buffer) = zeroed (window h p.buffer) := by
        refine zeroed_congr s2.1 (by rw [s2.1]; omega) (fun i hi20 hn10 hn11 => ?_)
        by_cases hx : LenField p.version i
        · rw [hv4] at hx
          have hx' : i = 2 ∨ i = 3 ∨ i = 10 ∨ i = 11 := hx
          rcases hx' with rfl | rfl | hx' | hx'
          · exact e2'.1
          · exact e2'.2
          · exact absurd hx' hn10
          · exact absurd hx' hn11
        · exact hrest i hx
      have c1 : CsumOk (window h p.buffer) := (ChecksumRight_iff hi).mp hcs hv4
      have c2 : CsumOk (window h2 p2.buffer) := by
        rw [hwin2]
        refine hA.valid (by show p'.version = _; rw [hD.ver]; exact hv4) ?_
        show CsumOk (window h' p'.buffer)
        rw [hwin1]
        exact hD.valid hv4 c1
      have e10 : u16at (window h2 p2.buffer) 10 = u16at (window h p.buffer) 10 := by
        apply BitVec.eq_of_toNat_eq
        rw [c1, c2, ipv4HeaderChecksum_eq, ipv4HeaderChecksum_eq, hz]
      have e10' := u16at_inj e10
      intro i hx
      rw [hv4] at hx
      have hx' : i = 2 ∨ i = 3 ∨ i = 10 ∨ i = 11 := hx
      rcases hx' with rfl | rfl | rfl | rfl
      · exact e2'.1
      · exact e2'.2
      · exact e10'.1
      · exact e10'.2
    · have e4 : u16at (window h2 p2.buffer) 4 = u16at (window h p.buffer) 4 := by
        rw [hA.inv.ip.tot6 (hver.trans hv6), hi.ip.tot6 hv6, htotq]
      have e4' := u16at_inj e4
      intro i hx
      rw [hv6] at hx
      have hx' : i = 4 ∨ i = 5 := hx
      rcases hx' with rfl | rfl
      · exact e4'.1
      · exact e4'.2
  have hall : window h2 p2.buffer = window h p.buffer :=
    ext_u8at s2.1 (fun i _ => by
      by_cases hx : LenField p.version i
      · exact hlenf i hx
      · exact hrest i hx)
  refine ⟨h', p', h2, p2, he, hea, ?_, htotq, ?_, hA.inv.onWire⟩
  · unfold Packet.GetTCPBytes
    have hbw := bytes_eq_window hi.buf
    rw [hA.data, hA.opts, b1, b2, bytes_eq_window hA.inv.buf, hall, hpb, hlen]
    have hk : (window h p.buffer).take (p.ipHeaderLen.toNat + p.tcpDataOffset.toNat * 4 - o.toNat)
        = (h.bytes p.buffer).take (p.ipHeaderLen.toNat + p.tcpDataOffset.toNat * 4 - o.toNat) := by
      rw [hbw, List.take_take]; congr 1; omega
    rw [hk]
    conv => rhs; rw [← List.take_append_drop (p.ipHeaderLen.toNat + p.tcpDataOffset.toNat * 4 - o.toNat) (h.bytes p.buffer)]
    rw [List.append_assoc]
    congr 1
    conv => rhs; rw [← List.take_append_drop o.toNat ((h.bytes p.buffer).drop _)]
    rw [List.drop_drop]
    congr 2
    omega
  · unfold Packet.TCPDataStartBytes; rw [hoffq]

end Verif.Packet
