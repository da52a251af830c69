import Verif.Packet.Valid
/-! The structure of a TCP packet is in step with its bytes. -/
namespace Verif.Packet
open Verif.Spec

theorem u32at_splice_ne {b : List Byte} {i j : Nat} {bs : List Byte} (hb : i + bs.length ≤ b.length)
    (hd : j + 4 ≤ i ∨ i + bs.length ≤ j) : u32at (splice b i bs) j = u32at b j := by
  unfold u32at
  rw [u8at_splice hb, u8at_splice hb, u8at_splice hb, u8at_splice hb, if_neg (by omega), if_neg (by omega),
    if_neg (by omega), if_neg (by omega)]

theorem u32at_enc32 (v : U32) : u32at (enc32 .big v) 0 = v := by
  have h := dec32_enc32' .big v
  simp only [enc32, dec32] at h
  exact Res.ok.inj h

theorem u32at_splice_same {b : List Byte} {i : Nat} {v : U32} (hb : i + 4 ≤ b.length) :
    u32at (splice b i (enc32 .big v)) i = v := by
  have h2 : i + (enc32 .big v).length ≤ b.length := by rw [enc32_length]; exact hb
  have := u32at_enc32 v
  unfold u32at at *
  rw [u8at_splice h2, u8at_splice h2, u8at_splice h2, u8at_splice h2, if_pos (by simp), if_pos (by simp),
    if_pos (by simp), if_pos (by simp)]
  simpa using this

theorem u8at_splice_ne {b : List Byte} {i j : Nat} {bs : List Byte} (hb : i + bs.length ≤ b.length)
    (hd : j < i ∨ i + bs.length ≤ j) : u8at (splice b i bs) j = u8at b j := by
  rw [u8at_splice hb, if_neg (by omega)]

theorem u8at_splice_same {b : List Byte} {i : Nat} {v : Byte} (hb : i + 1 ≤ b.length) :
    u8at (splice b i [v]) i = v := by
  rw [u8at_splice hb, if_pos (by simp)]; simp [u8at]

theorem part_splice {b : List Byte} {i : Nat} {bs : List Byte} (hb : i + bs.length ≤ b.length) {a n : Nat}
    (hd : a + n ≤ i ∨ i + bs.length ≤ a) : ((splice b i bs).drop a).take n = (b.drop a).take n := by
  apply List.ext_getElem?
  intro k
  rw [List.getElem?_take, List.getElem?_take]
  split
  · rw [List.getElem?_drop, List.getElem?_drop, splice_getElem? _ _ _ hb, if_neg (by omega)]
  · rfl

/-- The IP header on the wire says: version, total length, checksum (IPv4), protocol, addresses. -/
structure IPWire (v : IPver) (tot csum : U16) (proto : Byte) (src dst W : List Byte) : Prop where
  first4 : v = .V4 → u8at W 0 ≠ 0
  tot4 : v = .V4 → u16at W 2 = tot
  csum4 : v = .V4 → u16at W 10 = csum
  proto4 : v = .V4 → u8at W 9 = proto
  src4 : v = .V4 → (W.drop 12).take 4 = src
  dst4 : v = .V4 → (W.drop 16).take 4 = dst
  tot6 : v = .V6 → u16at W 4 = tot - 40
  proto6 : v = .V6 → u8at W 6 = proto
  src6 : v = .V6 → (W.drop 8).take 16 = src
  dst6 : v = .V6 → (W.drop 24).take 16 = dst

/-- The TCP header at offset `H` says: ports, sequence and acknowledgement number, data offset,
flags, checksum. -/
structure TCPWire (H : Nat) (sp dp : U16) (seq ack : U32) (off flags : Byte) (csum : U16) (W : List Byte) :
    Prop where
  sp : u16at W H = sp
  dp : u16at W (H + 2) = dp
  seq : u32at W (H + 4) = seq
  ack : u32at W (H + 8) = ack
  off : u8at W (H + 12) >>> 4 = off
  flags : u8at W (H + 13) = flags
  csum : u16at W (H + 16) = csum

section
variable {v : IPver} {tot csum : U16} {proto : Byte} {src dst W : List Byte}

theorem IPWire.above (hs : IPWire v tot csum proto src dst W) {i : Nat} {bs : List Byte}
    (hi : i + bs.length ≤ W.length) (h20 : 20 ≤ i) (h40 : v = .V6 → 40 ≤ i) :
    IPWire v tot csum proto src dst (splice W i bs) := by
  refine ⟨fun e => ?_, fun e => ?_, fun e => ?_, fun e => ?_, fun e => ?_, fun e => ?_, fun e => ?_,
    fun e => ?_, fun e => ?_, fun e => ?_⟩
  · rw [u8at_splice_ne hi (by omega)]; exact hs.first4 e
  · rw [u16at_splice_ne hi (by omega)]; exact hs.tot4 e
  · rw [u16at_splice_ne hi (by omega)]; exact hs.csum4 e
  · rw [u8at_splice_ne hi (by omega)]; exact hs.proto4 e
  · rw [part_splice hi (by omega)]; exact hs.src4 e
  · rw [part_splice hi (by omega)]; exact hs.dst4 e
  · rw [u16at_splice_ne hi (by omega)]; exact hs.tot6 e
  · rw [u8at_splice_ne hi (by omega)]; exact hs.proto6 e
  · have := h40 e; rw [part_splice hi (by omega)]; exact hs.src6 e
  · have := h40 e; rw [part_splice hi (by omega)]; exact hs.dst6 e

theorem IPWire.setTot4 (hs : IPWire .V4 tot csum proto src dst W) (hl : 20 ≤ W.length) (t c : U16) :
    IPWire .V4 t c proto src dst (splice (splice W 2 (enc16 .big t)) 10 (enc16 .big c)) := by
  have l1 : (splice W 2 (enc16 .big t)).length = W.length := splice_length _ _ _ (by simp; omega)
  have e1 : 2 + (enc16 .big t).length ≤ W.length := by simp; omega
  have e2 : 10 + (enc16 .big c).length ≤ (splice W 2 (enc16 .big t)).length := by simp; omega
  refine ⟨fun e => ?_, fun e => ?_, fun e => ?_, fun e => ?_, fun e => ?_, fun e => ?_, fun e => by simp at e,
    fun e => by simp at e, fun e => by simp at e, fun e => by simp at e⟩
  · rw [u8at_splice_ne e2 (by omega), u8at_splice_ne e1 (by omega)]; exact hs.first4 e
  · rw [u16at_splice_ne e2 (by omega), u16at_splice_same (by omega)]
  · rw [u16at_splice_same (by omega)]
  · rw [u8at_splice_ne e2 (by omega), u8at_splice_ne e1 (by simp)]; exact hs.proto4 e
  · rw [part_splice e2 (by simp), part_splice e1 (by simp)]; exact hs.src4 e
  · rw [part_splice e2 (by simp), part_splice e1 (by simp)]; exact hs.dst4 e

theorem IPWire.setCsum4 (hs : IPWire .V4 tot csum proto src dst W) (hl : 20 ≤ W.length) (c : U16) :
    IPWire .V4 tot c proto src dst (splice W 10 (enc16 .big c)) := by
  have e2 : 10 + (enc16 .big c).length ≤ W.length := by simp; omega
  refine ⟨fun e => ?_, fun e => ?_, fun e => ?_, fun e => ?_, fun e => ?_, fun e => ?_, fun e => by simp at e,
    fun e => by simp at e, fun e => by simp at e, fun e => by simp at e⟩
  · rw [u8at_splice_ne e2 (by omega)]; exact hs.first4 e
  · rw [u16at_splice_ne e2 (by omega)]; exact hs.tot4 e
  · rw [u16at_splice_same (by omega)]
  · rw [u8at_splice_ne e2 (by omega)]; exact hs.proto4 e
  · rw [part_splice e2 (by simp)]; exact hs.src4 e
  · rw [part_splice e2 (by simp)]; exact hs.dst4 e

theorem IPWire.setTot6 {c' : U16} (hs : IPWire .V6 tot csum proto src dst W) (hl : 40 ≤ W.length) (t : U16) :
    IPWire .V6 t c' proto src dst (splice W 4 (enc16 .big (t - 40))) := by
  have e1 : 4 + (enc16 .big (t - 40)).length ≤ W.length := by simp; omega
  refine ⟨fun e => by simp at e, fun e => by simp at e, fun e => by simp at e, fun e => by simp at e,
    fun e => by simp at e, fun e => by simp at e, fun e => ?_, fun e => ?_, fun e => ?_, fun e => ?_⟩
  · rw [u16at_splice_same (by omega)]
  · rw [u8at_splice_ne e1 (by simp)]; exact hs.proto6 e
  · rw [part_splice e1 (by simp)]; exact hs.src6 e
  · rw [part_splice e1 (by simp)]; exact hs.dst6 e

end

section
variable {H : Nat} {sp dp : U16} {seq ack : U32} {off flags : Byte} {csum : U16} {W : List Byte}

theorem TCPWire.away (hs : TCPWire H sp dp seq ack off flags csum W) {i : Nat} {bs : List Byte}
    (hi : i + bs.length ≤ W.length) (hd : i + bs.length ≤ H ∨ H + 20 ≤ i) :
    TCPWire H sp dp seq ack off flags csum (splice W i bs) := by
  refine ⟨?_, ?_, ?_, ?_, ?_, ?_, ?_⟩
  · rw [u16at_splice_ne hi (by omega)]; exact hs.sp
  · rw [u16at_splice_ne hi (by omega)]; exact hs.dp
  · rw [u32at_splice_ne hi (by omega)]; exact hs.seq
  · rw [u32at_splice_ne hi (by omega)]; exact hs.ack
  · rw [u8at_splice_ne hi (by omega)]; exact hs.off
  · rw [u8at_splice_ne hi (by omega)]; exact hs.flags
  · rw [u16at_splice_ne hi (by omega)]; exact hs.csum

theorem TCPWire.setSeq (hs : TCPWire H sp dp seq ack off flags csum W) (hl : H + 20 ≤ W.length) (v : U32) :
    TCPWire H sp dp v ack off flags csum (splice W (H + 4) (enc32 .big v)) := by
  have hi : H + 4 + (enc32 .big v).length ≤ W.length := by simp; omega
  have hlen : (enc32 .big v).length = 4 := enc32_length _ _
  refine ⟨?_, ?_, ?_, ?_, ?_, ?_, ?_⟩
  · rw [u16at_splice_ne hi (by omega)]; exact hs.sp
  · rw [u16at_splice_ne hi (by omega)]; exact hs.dp
  · rw [u32at_splice_same (by omega)]
  · rw [u32at_splice_ne hi (by omega)]; exact hs.ack
  · rw [u8at_splice_ne hi (by omega)]; exact hs.off
  · rw [u8at_splice_ne hi (by omega)]; exact hs.flags
  · rw [u16at_splice_ne hi (by omega)]; exact hs.csum

theorem TCPWire.setAck (hs : TCPWire H sp dp seq ack off flags csum W) (hl : H + 20 ≤ W.length) (v : U32) :
    TCPWire H sp dp seq v off flags csum (splice W (H + 8) (enc32 .big v)) := by
  have hi : H + 8 + (enc32 .big v).length ≤ W.length := by simp; omega
  have hlen : (enc32 .big v).length = 4 := enc32_length _ _
  refine ⟨?_, ?_, ?_, ?_, ?_, ?_, ?_⟩
  · rw [u16at_splice_ne hi (by omega)]; exact hs.sp
  · rw [u16at_splice_ne hi (by omega)]; exact hs.dp
  · rw [u32at_splice_ne hi (by omega)]; exact hs.seq
  · rw [u32at_splice_same (by omega)]
  · rw [u8at_splice_ne hi (by omega)]; exact hs.off
  · rw [u8at_splice_ne hi (by omega)]; exact hs.flags
  · rw [u16at_splice_ne hi (by omega)]; exact hs.csum

theorem shift4 : ∀ o : Byte, o.toNat ≤ 15 → (o.shiftLeft 4) >>> 4 = o := by decide

theorem TCPWire.setOff (hs : TCPWire H sp dp seq ack off flags csum W) (hl : H + 20 ≤ W.length) {o : Byte}
    (ho : o.toNat ≤ 15) :
    TCPWire H sp dp seq ack o flags csum (splice W (H + 12) [o.shiftLeft 4]) := by
  have hi : H + 12 + [o.shiftLeft 4].length ≤ W.length := by rw [List.length_singleton]; omega
  have hlen : [o.shiftLeft 4].length = 1 := List.length_singleton
  refine ⟨?_, ?_, ?_, ?_, ?_, ?_, ?_⟩
  · rw [u16at_splice_ne hi (by omega)]; exact hs.sp
  · rw [u16at_splice_ne hi (by omega)]; exact hs.dp
  · rw [u32at_splice_ne hi (by omega)]; exact hs.seq
  · rw [u32at_splice_ne hi (by omega)]; exact hs.ack
  · rw [u8at_splice_same (by omega), shift4 o ho]
  · rw [u8at_splice_ne hi (by omega)]; exact hs.flags
  · rw [u16at_splice_ne hi (by omega)]; exact hs.csum

theorem TCPWire.setFlags (hs : TCPWire H sp dp seq ack off flags csum W) (hl : H + 20 ≤ W.length) (f : Byte) :
    TCPWire H sp dp seq ack off f csum (splice W (H + 13) [f]) := by
  have hi : H + 13 + [f].length ≤ W.length := by rw [List.length_singleton]; omega
  have hlen : [f].length = 1 := List.length_singleton
  refine ⟨?_, ?_, ?_, ?_, ?_, ?_, ?_⟩
  · rw [u16at_splice_ne hi (by omega)]; exact hs.sp
  · rw [u16at_splice_ne hi (by omega)]; exact hs.dp
  · rw [u32at_splice_ne hi (by omega)]; exact hs.seq
  · rw [u32at_splice_ne hi (by omega)]; exact hs.ack
  · rw [u8at_splice_ne hi (by omega)]; exact hs.off
  · rw [u8at_splice_same (by omega)]
  · rw [u16at_splice_ne hi (by omega)]; exact hs.csum

theorem TCPWire.setCsum (hs : TCPWire H sp dp seq ack off flags csum W) (hl : H + 20 ≤ W.length) (c : U16) :
    TCPWire H sp dp seq ack off flags c (splice W (H + 16) (enc16 .big c)) := by
  have hi : H + 16 + (enc16 .big c).length ≤ W.length := by simp; omega
  have hlen : (enc16 .big c).length = 2 := enc16_length _ _
  refine ⟨?_, ?_, ?_, ?_, ?_, ?_, ?_⟩
  · rw [u16at_splice_ne hi (by omega)]; exact hs.sp
  · rw [u16at_splice_ne hi (by omega)]; exact hs.dp
  · rw [u32at_splice_ne hi (by omega)]; exact hs.seq
  · rw [u32at_splice_ne hi (by omega)]; exact hs.ack
  · rw [u8at_splice_ne hi (by omega)]; exact hs.off
  · rw [u8at_splice_ne hi (by omega)]; exact hs.flags
  · rw [u16at_splice_same (by omega)]

theorem shr4_le : ∀ b : Byte, (b >>> 4).toNat ≤ 15 := by decide

theorem TCPWire.offLe (hs : TCPWire H sp dp seq ack off flags csum W) : off.toNat ≤ 15 := by
  rw [← hs.off]; exact shr4_le _

end

/-- The IP part of a packet structure is what is on the wire. -/
abbrev Packet.IPSync (p : Packet) (W : List Byte) : Prop :=
  IPWire p.version p.ipTotalLength p.ipChecksum p.ipProto p.sourceAddress p.destinationAddress W

/-- The TCP part of a packet structure is what is on the wire. -/
abbrev Packet.TCPSync (p : Packet) (W : List Byte) : Prop :=
  TCPWire p.ipHeaderLen.toNat p.tcpSourcePort p.tcpDestinationPort p.tcpSeq p.tcpAck p.tcpDataOffset
    p.tcpFlags p.tcpChecksum W

theorem IPSync_fixed {p : Packet} {W : List Byte} (hh : HdrOk p) (hs : p.IPSync W)
    (hl : p.ipHeaderLen.toNat ≤ W.length) (old new : U16) :
    (fixed p old new).IPSync (fixedBytes p W old new) := by
  unfold Packet.IPSync at *
  rcases hh with ⟨hv, he⟩ | ⟨hv, he⟩
  · unfold fixedBytes
    show IPWire p.version _ _ _ _ _ _
    rw [hv] at hs ⊢
    exact hs.setTot4 (by rw [he] at hl; exact hl) _ _
  · unfold fixedBytes
    show IPWire p.version _ _ _ _ _ _
    rw [hv] at hs ⊢
    simp only
    rw [he]
    exact hs.setTot6 (by rw [he] at hl; exact hl) _

theorem TCPWire_fixedBytes {p : Packet} {sp dp : U16} {seq ack : U32} {off flags : Byte} {csum : U16}
    {W : List Byte} (hh : HdrOk p) (hs : TCPWire p.ipHeaderLen.toNat sp dp seq ack off flags csum W)
    (hl : p.ipHeaderLen.toNat ≤ W.length) (old new : U16) :
    TCPWire p.ipHeaderLen.toNat sp dp seq ack off flags csum (fixedBytes p W old new) := by
  unfold fixedBytes
  rcases hh.nat with ⟨hv, he⟩ | ⟨hv, he⟩ <;> rw [hv] <;> simp only
  · rw [he] at hl
    refine (hs.away (by simp; omega) (.inl (by simp; omega))).away ?_ (.inl (by simp; omega))
    rw [splice_length _ _ _ (by simp; omega)]; simp; omega
  · rw [he] at hl
    exact hs.away (by simp; omega) (.inl (by simp; omega))

end Verif.Packet
