import Verif.Props.PacketTcp
/-! What detaching and attaching do to the bytes. -/
namespace Verif.Packet
open Verif.Spec

/-- The bytes of the length (and, for IPv4, checksum) fields of the IP header. -/
def LenField (v : IPver) (i : Nat) : Prop :=
  match v with
  | .V4 => i = 2 ∨ i = 3 ∨ i = 10 ∨ i = 11
  | .V6 => i = 4 ∨ i = 5

/-- Equal length, and equal except where `P` holds. -/
def SameExcept (P : Nat → Prop) (a b : List Byte) : Prop := a.length = b.length ∧ ∀ i, ¬ P i → a[i]? = b[i]?

theorem SameExcept.trans {P : Nat → Prop} {a b c : List Byte} (h1 : SameExcept P a b) (h2 : SameExcept P b c) :
    SameExcept P a c := ⟨h1.1.trans h2.1, fun i hi => (h1.2 i hi).trans (h2.2 i hi)⟩

theorem SameExcept.mono {P Q : Nat → Prop} {a b : List Byte} (h1 : SameExcept P a b) (hpq : ∀ i, P i → Q i) :
    SameExcept Q a b := ⟨h1.1, fun i hi => h1.2 i (fun hp => hi (hpq i hp))⟩

theorem SameExcept.symm {P : Nat → Prop} {a b : List Byte} (h1 : SameExcept P a b) : SameExcept P b a :=
  ⟨h1.1.symm, fun i hi => (h1.2 i hi).symm⟩

theorem SameExcept.take {P : Nat → Prop} {a b : List Byte} (h1 : SameExcept P a b) (n : Nat) :
    SameExcept P (a.take n) (b.take n) := by
  refine ⟨by simp [h1.1], fun i hi => ?_⟩
  rw [List.getElem?_take, List.getElem?_take, h1.2 i hi]

theorem SameExcept.drop {P : Nat → Prop} {a b : List Byte} (h1 : SameExcept P a b) {n : Nat} (hn : ∀ i, P i → i < n) :
    a.drop n = b.drop n := by
  apply List.ext_getElem?
  intro i
  rw [List.getElem?_drop, List.getElem?_drop, h1.2 _ (fun hp => by have := hn _ hp; omega)]

theorem SameExcept.append {P : Nat → Prop} {a b : List Byte} (h1 : SameExcept P a b) (t : List Byte) :
    SameExcept P (a ++ t) (b ++ t) := by
  refine ⟨by simp [h1.1], fun i hi => ?_⟩
  have hl := h1.1
  by_cases hx : i < a.length
  · rw [List.getElem?_append_left hx, List.getElem?_append_left (by omega), h1.2 i hi]
  · rw [List.getElem?_append_right (by omega), List.getElem?_append_right (by omega), hl]

theorem SameExcept.u8 {P : Nat → Prop} {a b : List Byte} (h1 : SameExcept P a b) {i : Nat} (hi : ¬ P i) :
    u8at a i = u8at b i := by unfold u8at; rw [h1.2 i hi]

theorem splice_same {b : List Byte} {i : Nat} {bs : List Byte} (hi : i + bs.length ≤ b.length) :
    SameExcept (fun j => i ≤ j ∧ j < i + bs.length) (splice b i bs) b :=
  ⟨splice_length _ _ _ hi, fun j hj => by rw [splice_getElem? _ _ _ hi, if_neg hj]⟩

theorem fixedBytes_same {p : Packet} {W : List Byte} (hl : 20 ≤ W.length) (old new : U16) :
    SameExcept (LenField p.version) (fixedBytes p W old new) W := by
  refine ⟨fixedBytes_length (by omega) old new, fun j hj => fixedBytes_other hl old new j ?_⟩
  unfold LenField at hj
  cases hv : p.version with
  | V4 => rw [hv] at hj; simp only at hj; left; refine ⟨rfl, ?_⟩; omega
  | V6 => rw [hv] at hj; simp only at hj; right; refine ⟨rfl, ?_⟩; omega

theorem LenField.lt {v : IPver} {i : Nat} (h : LenField v i) : i < 12 := by
  unfold LenField at h
  cases v <;> simp only at h <;> omega

theorem OnlyChanged.clear {h h1 : Heap} {s t : Slice} {P : Nat → Prop} {n : Nat} (a : OnlyChanged h h1 s P)
    (hp : ∀ i, P i → i < n) (hc : Clear s t 0 n) : h1.bytes t = h.bytes t := by
  unfold Heap.bytes
  apply List.ext_getElem?
  intro i
  rw [List.getElem?_take, List.getElem?_take]
  split
  · rename_i hi
    rw [List.getElem?_drop, List.getElem?_drop]
    apply a.2
    rintro ⟨h1, h2, h3⟩
    have := hp _ h3
    rcases hc with hc | hc | hc
    · exact hc h1
    · omega
    · omega
  · rfl

/-- Memory after a put that only changes where `P` holds. -/
theorem put_same {h : Heap} {s : Slice} (hv : s.Valid h) {W : List Byte} {P : Nat → Prop}
    (hs : SameExcept P W (window h s)) : OnlyChanged h (put h s W) s P :=
  put_onlyChanged hv (hs.1.trans (window_length hv)) (fun j hj => hs.2 j hj)

/-! ### Detaching -/

theorem detachedBytes_same {h : Heap} {p : Packet} {o : U16} (hd : DetachOk h p o) :
    SameExcept (fun i => LenField p.version i ∨ i = p.ipHeaderLen.toNat + 12)
      (detachedBytes p (window h p.buffer) o) (window h p.buffer) := by
  have hwl := window_length hd.buf
  have hc := hd.buf.1
  have h1 := hd.inb
  have h2 := hd.opt
  have hn := hd.hdr.nat
  have hl : p.ipHeaderLen.toNat + 12 + [(p.tcpDataOffset - (o / 4).setWidth 8).shiftLeft 4].length
      ≤ (window h p.buffer).length := by rw [List.length_singleton]; omega
  have s1 := splice_same hl
  have s2 := fixedBytes_same (p := cutHdr p o) (W := splice (window h p.buffer) (p.ipHeaderLen.toNat + 12)
    [(p.tcpDataOffset - (o / 4).setWidth 8).shiftLeft 4]) (by rw [s1.1]; omega) p.ipTotalLength (p.ipTotalLength - cutLen p o)
  refine SameExcept.trans (s2.mono (fun i hi => .inl hi)) (s1.mono (fun i hi => .inr ?_))
  rw [List.length_singleton] at hi
  omega

theorem cutLen_nat {h : Heap} {p : Packet} {o : U16} (hd : DetachOk h p o) :
    (cutLen p o).toNat = p.buffer.len - p.ipHeaderLen.toNat - p.tcpDataOffset.toNat * 4 + o.toNat := by
  have h1 := hd.inb
  have h2 := hd.opt
  have h3 := hd.size
  unfold cutLen
  rw [BitVec.toNat_add, detachLen hd]
  have := hd.off
  omega

/-- Everything about a detach. -/
structure Detached (h : Heap) (p : Packet) (o : U16) (h' : Heap) (p' : Packet) : Prop where
  inv : TcpInv h' p'
  mem : OnlyChanged h h' p.buffer (fun i => LenField p.version i ∨ i = p.ipHeaderLen.toNat + 12)
  buf : p'.buffer = head p.buffer (p.ipHeaderLen.toNat + p.tcpDataOffset.toNat * 4 - o.toNat)
  hlen : p'.ipHeaderLen = p.ipHeaderLen
  ver : p'.version = p.version
  seq : p'.tcpSeq = p.tcpSeq
  ack : p'.tcpAck = p.tcpAck
  csum : p'.tcpChecksum = p.tcpChecksum
  flags : p'.tcpFlags = p.tcpFlags
  tot : p'.ipTotalLength = p.ipTotalLength - cutLen p o
  off : p'.tcpDataOffset.toNat = p.tcpDataOffset.toNat - o.toNat / 4
  data : p'.tcpData = (cut p o).tcpData
  opts : p'.tcpOptions = (cut p o).tcpOptions
  valid : p.version = .V4 → CsumOk (window h p.buffer) → CsumOk (window h' p.buffer)

theorem TcpInv.v4Bytes {h : Heap} {p : Packet} (hi : TcpInv h p) (h4 : p.version = .V4) :
    V4Bytes p (window h p.buffer) := by
  have hwl := window_length hi.buf
  have hc := hi.buf.1
  have hr := hi.room
  exact ⟨by omega, hi.ip.first4 h4, hi.ip.tot4 h4, hi.ip.csum4 h4⟩

theorem CsumOk_above {W : List Byte} {i : Nat} {bs : List Byte} (h20 : 20 ≤ i) (hi : i + bs.length ≤ W.length) :
    CsumOk (splice W i bs) ↔ CsumOk W := by
  unfold CsumOk
  rw [ipv4HeaderChecksum_eq, ipv4HeaderChecksum_eq, zeroed_other h20 (by omega), u16at_splice_ne hi (by omega)]

theorem Detach_full {h : Heap} {p : Packet} {o : U16} (hi : TcpInv h p) (hd : DetachOk h p o) :
    ∃ h' p', TCPDataDetach h p o = .ok (h', p') ∧ Detached h p o h' p' := by
  have hs := detachedBytes_same hd
  have hwl := window_length hd.buf
  have hc := hd.buf.1
  have h1 := hd.inb
  have h2 := hd.opt
  have hg := hi.ge
  refine ⟨_, _, Detach_eq hd, hi.detach hd, put_same hd.buf hs, rfl, rfl, rfl, rfl, rfl, rfl, rfl, ?_, ?_, rfl, rfl, ?_⟩
  · exact fixed_total (cutHdr p o) _
  · exact sub_quarter (by omega) hd.off
  · intro h4 hv
    rw [window_put hd.buf (hs.1.trans hwl)]
    have hl : p.ipHeaderLen.toNat + 12 + [(p.tcpDataOffset - (o / 4).setWidth 8).shiftLeft 4].length
      ≤ (window h p.buffer).length := by rw [List.length_singleton]; omega
    have hlw : (splice (window h p.buffer) (p.ipHeaderLen.toNat + 12)
      [(p.tcpDataOffset - (o / 4).setWidth 8).shiftLeft 4]).length = p.buffer.cap := by
      rw [splice_length _ _ _ hl]; exact hwl
    have hq := hi.cutHdr hd
    have hvb := hq.v4Bytes h4
    have e : window (put h p.buffer (splice (window h p.buffer) (p.ipHeaderLen.toNat + 12)
      [(p.tcpDataOffset - (o / 4).setWidth 8).shiftLeft 4])) (cutHdr p o).buffer
      = splice (window h p.buffer) (p.ipHeaderLen.toNat + 12) [(p.tcpDataOffset - (o / 4).setWidth 8).shiftLeft 4] :=
      window_put hd.buf hlw
    rw [e] at hvb
    exact (fixedBytes_step (p := cutHdr p o) h4 hvb _).2 ((CsumOk_above (by omega) hl).mpr hv)

/-! ### Attaching -/

theorem attachedBytes_same {h : Heap} {p : Packet} (hi : TcpInv h p) (ol dl : Nat) :
    SameExcept (fun i => LenField p.version i ∨ i = p.ipHeaderLen.toNat + 12)
      (attachedBytes p (window h p.buffer) ol dl) (window h p.buffer) := by
  have hwl := window_length hi.buf
  have hc := hi.buf.1
  have hr := hi.room
  have hg := hi.ge
  unfold attachedBytes
  have s1 := fixedBytes_same (p := p) (W := window h p.buffer) (by omega) p.ipTotalLength
    (p.ipTotalLength + BitVec.ofNat 16 (dl + ol))
  have ht := TCPWire_fixedBytes hi.hdr hi.tcp (by omega) p.ipTotalLength (p.ipTotalLength + BitVec.ofNat 16 (dl + ol))
  generalize fixedBytes p (window h p.buffer) p.ipTotalLength (p.ipTotalLength + BitVec.ofNat 16 (dl + ol)) = F at *
  have hF := s1.1
  have hcs : splice F (p.ipHeaderLen.toNat + 16) (enc16 .big p.tcpChecksum) = F := by
    rw [← ht.csum, enc16_u16at, splice_u16at (by omega)]
  rw [hcs]
  have s2 := splice_same (b := F) (i := p.ipHeaderLen.toNat + 12)
    (bs := [(p.tcpDataOffset + BitVec.ofNat 8 (ol / 4)).shiftLeft 4]) (by rw [List.length_singleton]; omega)
  refine SameExcept.trans (s2.mono (fun i hi => .inr ?_)) (s1.mono (fun i hi => .inl hi))
  rw [List.length_singleton] at hi
  omega

/-- Everything about an attach. -/
structure Attached (h : Heap) (p : Packet) (o d : Slice) (h' : Heap) (p' : Packet) : Prop where
  inv : TcpInv h' p'
  mem : ∀ t : Slice, t.Valid h → t.Valid h' ∧ (Clear p.buffer t 0 (p.ipHeaderLen.toNat + 20) → h'.bytes t = h.bytes t)
  same : SameExcept (fun i => LenField p.version i ∨ i = p.ipHeaderLen.toNat + 12) (window h' p.buffer) (window h p.buffer)
  buf : p'.buffer = p.buffer
  hlen : p'.ipHeaderLen = p.ipHeaderLen
  ver : p'.version = p.version
  seq : p'.tcpSeq = p.tcpSeq
  ack : p'.tcpAck = p.tcpAck
  csum : p'.tcpChecksum = p.tcpChecksum
  flags : p'.tcpFlags = p.tcpFlags
  tot : p'.ipTotalLength = p.ipTotalLength + BitVec.ofNat 16 (d.len + o.len)
  off : p'.tcpDataOffset = p.tcpDataOffset + BitVec.ofNat 8 (o.len / 4)
  offByte : u8at (window h' p.buffer) (p.ipHeaderLen.toNat + 12) = (p.tcpDataOffset + BitVec.ofNat 8 (o.len / 4)).shiftLeft 4
  data : h'.bytes p'.tcpData = h.bytes d
  dataLen : p'.tcpData = d
  opts : h'.bytes p'.tcpOptions = h.bytes o
  optsLen : p'.tcpOptions.len = o.len
  valid : p.version = .V4 → CsumOk (window h p.buffer) → CsumOk (window h' p.buffer)

theorem Attach_full (grow : Nat → Nat) {h : Heap} {p : Packet} {o d : Slice} (hi : TcpInv h p)
    (hol : p.tcpOptions.len = 0) (ho : o.Valid h) (hd : d.Valid h) (hdc : Clear p.buffer d 0 (p.ipHeaderLen.toNat + 20))
    (hoff : p.tcpDataOffset.toNat + o.len / 4 ≤ 15)
    (hgo : p.TCPDataStartBytes = BitVec.ofNat 16 (p.buffer.len - p.ipHeaderLen.toNat) ∨ o.len = 0) :
    ∃ h' p', TCPDataAttach grow h p o d = .ok (h', p', none) ∧ Attached h p o d h' p' := by
  have hr := hi.room
  have hc := hi.buf.1
  have hg := hi.ge
  have hwl := window_length hi.buf
  obtain ⟨hob, hov, holn, hold⟩ := append_nil_spec grow (h := h) (h.bytes o)
  have hoc : Clear p.buffer (h.append grow Slice.nil (h.bytes o)).1 0 (p.ipHeaderLen.toNat + 20) :=
    append_nil_clear grow (h.bytes o) hi.buf (by omega)
  have hw := window_append_nil grow (h := h) (h.bytes o) hi.buf
  have hbg := (hold _ hi.buf).1
  have hs := attachedBytes_same hi o.len d.len
  have hinv := hi.attach grow (o := o) hd hdc hoff
  have heq := Attach_eq grow hi.buf hr (hi.optsNil hol) hgo (o := o) (d := d)
  have hl := hs.1.trans hwl
  have hwp := window_put hbg hl
  have hoc2 : OnlyChanged _ (put (h.append grow Slice.nil (h.bytes o)).2 p.buffer
      (attachedBytes p (window h p.buffer) o.len d.len)) p.buffer _ := put_same hbg (by rw [hw]; exact hs)
  have hmem : ∀ t : Slice, t.Valid h → t.Valid (put (h.append grow Slice.nil (h.bytes o)).2 p.buffer
      (attachedBytes p (window h p.buffer) o.len d.len)) ∧ (Clear p.buffer t 0 (p.ipHeaderLen.toNat + 20) →
      (put (h.append grow Slice.nil (h.bytes o)).2 p.buffer (attachedBytes p (window h p.buffer) o.len d.len)).bytes t
        = h.bytes t) := by
    intro t ht
    refine ⟨put_valid hbg hl (hold t ht).1, fun hcl => ?_⟩
    rw [hoc2.clear (fun i hx => ?_) hcl, (hold t ht).2]
    rcases hx with hx | hx
    · have := hx.lt; omega
    · omega
  refine ⟨_, _, heq, hinv, hmem, ?_, rfl, rfl, rfl, rfl, rfl, rfl, rfl, ?_, rfl, ?_, ?_, rfl, ?_, ?_, ?_⟩
  · rw [hwp]; exact hs
  · exact fixed_total (attached grow h p o d) _
  · rw [hwp]
    unfold attachedBytes
    rw [u8at_splice_same]
    have := hs.1
    unfold attachedBytes at this
    rw [splice_length _ _ _ (by rw [fixedBytes_length (by omega)]; simp; omega), fixedBytes_length (by omega)]
    omega
  · exact (hmem d hd).2 hdc
  · show (put _ _ _).bytes (h.append grow Slice.nil (h.bytes o)).1 = _
    rw [hoc2.clear (fun i hx => ?_) hoc, hob]
    rcases hx with hx | hx
    · have := hx.lt; omega
    · omega
  · show (h.append grow Slice.nil (h.bytes o)).1.len = _
    rw [holn, Heap.bytes_length ho]
  · intro h4 hv
    rw [hwp]
    unfold attachedBytes
    have hsp := (fixedBytes_step h4 (hi.v4Bytes h4) (p.ipTotalLength + BitVec.ofNat 16 (d.len + o.len))).2 hv
    have hfl := fixedBytes_length (p := p) (W := window h p.buffer) (by omega) p.ipTotalLength
      (p.ipTotalLength + BitVec.ofNat 16 (d.len + o.len))
    rw [CsumOk_above (by omega) (by rw [splice_length _ _ _ (by simp; omega), hfl, List.length_singleton]; omega),
      CsumOk_above (by omega) (by rw [hfl]; simp; omega)]
    exact hsp

end Verif.Packet
