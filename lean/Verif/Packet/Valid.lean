import Verif.Packet.TcpOps
/-! Header checksum validity under length changes. -/
namespace Verif.Packet
open Verif.Spec

theorem wsum_splice16 {b : List Byte} {i : Nat} (hi : i + 2 ≤ b.length) (he : i % 2 = 0) (v : U16) :
    wsum (splice b i (enc16 .big v)) + (u16at b i).toNat = wsum b + v.toNat := by
  have hb : b = b.take i ++ (enc16 .big (u16at b i) ++ b.drop (i + 2)) := by
    conv => lhs; rw [← List.take_append_drop i b]
    congr 1
    conv => lhs; rw [← List.take_append_drop 2 (b.drop i)]
    rw [take2_eq hi, enc16_u16at, List.drop_drop]
  have ht : (b.take i).length % 2 = 0 := by simp; omega
  have h1 : wsum b = wsum (b.take i) + ((u16at b i).toNat + wsum (b.drop (i + 2))) := by
    conv => lhs; rw [hb]
    rw [wsum_append _ ht, wsum_append _ (by simp), wsum_enc16]
  have h2 : wsum (splice b i (enc16 .big v)) = wsum (b.take i) + (v.toNat + wsum (b.drop (i + 2))) := by
    unfold splice
    rw [List.append_assoc, wsum_append _ ht, wsum_append _ (by simp), wsum_enc16]
    rfl
  omega

theorem u16at_le_wsum {b : List Byte} {i : Nat} (hi : i + 2 ≤ b.length) (he : i % 2 = 0) :
    (u16at b i).toNat ≤ wsum b := by
  have := wsum_splice16 hi he 0
  simp at this; omega

/-- The header with its checksum field zeroed. -/
def zeroed (W : List Byte) : List Byte := splice (W.take 20) 10 [0, 0]

theorem ipv4HeaderChecksum_eq (W : List Byte) : ipv4HeaderChecksum W = inetChecksum (zeroed W) := rfl

theorem zeroed_length {W : List Byte} (hl : 20 ≤ W.length) : (zeroed W).length = 20 := by
  unfold zeroed; rw [splice_length _ _ _ (by simp; omega)]; simp; omega

theorem zeroed_csum {W : List Byte} (hl : 20 ≤ W.length) (c : U16) :
    zeroed (splice W 10 (enc16 .big c)) = zeroed W := by
  unfold zeroed
  rw [take_splice_lt (by simp; omega) (by simp), splice_over (by simp; omega) (by simp)]

theorem zeroed_len {W : List Byte} (hl : 20 ≤ W.length) (v : U16) :
    zeroed (splice W 2 (enc16 .big v)) = splice (zeroed W) 2 (enc16 .big v) := by
  unfold zeroed
  rw [take_splice_lt (by simp; omega) (by simp), splice_comm (by simp; omega) (by simp; omega) (by simp)]

theorem zeroed_other {W : List Byte} {i : Nat} {bs : List Byte} (h20 : 20 ≤ i) (hl : i ≤ W.length) :
    zeroed (splice W i bs) = zeroed W := by
  unfold zeroed
  rw [take_splice_ge h20 hl]

theorem u16at_zeroed {W : List Byte} (hl : 20 ≤ W.length) : u16at (zeroed W) 2 = u16at W 2 := by
  unfold zeroed
  rw [u16at_splice_ne (by simp; omega) (by omega), u16at_take (by omega)]

/-- Bytes of an IPv4 header are in step with the packet structure, with a valid checksum. -/
structure V4Bytes (p : Packet) (W : List Byte) : Prop where
  len : 20 ≤ W.length
  first : u8at W 0 ≠ 0
  total : u16at W 2 = p.ipTotalLength
  csum : u16at W 10 = p.ipChecksum

/-- The header checksum is right. -/
def CsumOk (W : List Byte) : Prop := (u16at W 10).toNat = ipv4HeaderChecksum W

theorem CsumOk_iff {W : List Byte} (hl : 12 ≤ W.length) : CsumOk W ↔ ipv4ChecksumOk W := by
  unfold CsumOk ipv4ChecksumOk
  rw [be16_u16at (by omega)]
  simp

theorem fixed_sum {p : Packet} {W : List Byte} (hb : V4Bytes p W) (new : U16) :
    wsum (zeroed (splice (splice W 2 (enc16 .big new)) 10 (enc16 .big (inc p.ipChecksum p.ipTotalLength new))))
      + p.ipTotalLength.toNat = wsum (zeroed W) + new.toNat ∧
    0 < wsum (zeroed (splice (splice W 2 (enc16 .big new)) 10 (enc16 .big (inc p.ipChecksum p.ipTotalLength new)))) := by
  have hl := hb.len
  have hsl : (splice W 2 (enc16 .big new)).length = W.length := splice_length _ _ _ (by simp; omega)
  rw [zeroed_csum (by omega), zeroed_len hl]
  have hzl := zeroed_length hl
  constructor
  · rw [← hb.total, ← u16at_zeroed hl]
    exact wsum_splice16 (by omega) (by omega) new
  · have hle := u16at_le_wsum (b := splice (zeroed W) 2 (enc16 .big new)) (i := 0)
      (by rw [splice_length _ _ _ (by simp; omega)]; omega) (by omega)
    have hu : u16at (splice (zeroed W) 2 (enc16 .big new)) 0 = u16at W 0 := by
      rw [u16at_splice_ne (by simp; omega) (by omega)]
      unfold zeroed
      rw [u16at_splice_ne (by simp; omega) (by omega), u16at_take (by omega)]
    rw [hu] at hle
    have h0 : 0 < (u16at W 0).toNat := by
      unfold u16at
      rw [join16_toNat]
      have : (u8at W 0).toNat ≠ 0 := fun hx => hb.first (BitVec.eq_of_toNat_eq hx)
      omega
    omega

/-- RFC 1624: a valid checksum stays valid when the length is changed incrementally. -/
theorem inc_valid {p : Packet} {W : List Byte} (hb : V4Bytes p W) (hv : CsumOk W) (new : U16) :
    (inc p.ipChecksum p.ipTotalLength new).toNat =
      ipv4HeaderChecksum (splice (splice W 2 (enc16 .big new)) 10 (enc16 .big (inc p.ipChecksum p.ipTotalLength new))) := by
  obtain ⟨h1, h2⟩ := fixed_sum hb new
  have hl := hb.len
  generalize hS : wsum (zeroed (splice (splice W 2 (enc16 .big new)) 10
    (enc16 .big (inc p.ipChecksum p.ipTotalLength new)))) = S at *
  have hv' : p.ipChecksum.toNat = 65535 - red (wsum (zeroed W)) := by
    rw [← hb.csum, hv, ipv4HeaderChecksum_eq, inetChecksum_eq]
  have hL : p.ipTotalLength.toNat ≤ wsum (zeroed W) := by
    rw [← hb.total, ← u16at_zeroed hl]
    exact u16at_le_wsum (by rw [zeroed_length hl]; omega) (by omega)
  rw [ipv4HeaderChecksum_eq, inetChecksum_eq, hS]
  unfold inc
  rw [BitVec.toNat_ofNat, hv']
  have hr := red_le (wsum (zeroed W))
  have hLt := p.ipTotalLength.isLt
  have hm := red_mod (wsum (zeroed W))
  have hz := @red_eq_zero (wsum (zeroed W))
  have key : red (65535 - (65535 - red (wsum (zeroed W))) + (65535 - p.ipTotalLength.toNat) + new.toNat) = red S := by
    apply red_congr
    · omega
    · omega
  rw [key]
  have := red_le S
  omega

theorem add_sub_self (a b : U16) : a + b - a = b := by
  rw [BitVec.add_comm, BitVec.add_sub_cancel]

theorem fixedBytes_v4 {p : Packet} (hv : p.version = .V4) (W : List Byte) (new : U16) :
    fixedBytes p W p.ipTotalLength new =
      splice (splice W 2 (enc16 .big new)) 10 (enc16 .big (inc p.ipChecksum p.ipTotalLength new)) := by
  unfold fixedBytes
  rw [hv]
  simp only [add_sub_self]

theorem fixedBytes_v6 {p : Packet} (hv : p.version = .V6) (W : List Byte) (new : U16) :
    fixedBytes p W p.ipTotalLength new =
      splice W 4 (enc16 .big (new - p.ipHeaderLen.setWidth 16)) := by
  unfold fixedBytes
  rw [hv]
  simp only [add_sub_self]

theorem fixed_total (p : Packet) (new : U16) : (fixed p p.ipTotalLength new).ipTotalLength = new := by
  unfold fixed; simp only [add_sub_self]

/-- After a length change the bytes are in step with the structure again and the checksum valid. -/
theorem fixedBytes_step {p : Packet} {W : List Byte} (hver : p.version = .V4) (hb : V4Bytes p W) (new : U16) :
    V4Bytes (fixed p p.ipTotalLength new) (fixedBytes p W p.ipTotalLength new) ∧
    (CsumOk W → CsumOk (fixedBytes p W p.ipTotalLength new)) := by
  have hl := hb.len
  rw [fixedBytes_v4 hver]
  have hsl : (splice W 2 (enc16 .big new)).length = W.length := splice_length _ _ _ (by simp; omega)
  have h10 : u16at (splice (splice W 2 (enc16 .big new)) 10 (enc16 .big (inc p.ipChecksum p.ipTotalLength new))) 10
      = inc p.ipChecksum p.ipTotalLength new := u16at_splice_same (by omega)
  refine ⟨⟨?_, ?_, ?_, ?_⟩, fun hv => ?_⟩
  · rw [splice_length _ _ _ (by simp; omega)]; omega
  · rw [u8at_splice (by simp; omega), if_neg (by omega), u8at_splice (by simp; omega), if_neg (by omega)]
    exact hb.first
  · rw [u16at_splice_ne (by simp; omega) (by omega), u16at_splice_same (by omega), fixed_total]
  · rw [h10]; rfl
  · unfold CsumOk
    rw [h10]
    exact inc_valid hb hv new

/-- What a length change leaves alone. -/
theorem fixedBytes_other {p : Packet} {W : List Byte} (hl : 20 ≤ W.length) (old new : U16) (j : Nat)
    (hj : (p.version = .V4 ∧ j ≠ 2 ∧ j ≠ 3 ∧ j ≠ 10 ∧ j ≠ 11) ∨ (p.version = .V6 ∧ j ≠ 4 ∧ j ≠ 5)) :
    (fixedBytes p W old new)[j]? = W[j]? := by
  unfold fixedBytes
  rcases hj with ⟨hv, _⟩ | ⟨hv, _⟩ <;> rw [hv]
  · simp only
    rw [splice_getElem? _ _ _ (by rw [splice_length _ _ _ (by simp; omega)]; simp; omega), if_neg (by simp; omega),
      splice_getElem? _ _ _ (by simp; omega), if_neg (by simp; omega)]
  · simp only
    rw [splice_getElem? _ _ _ (by simp; omega), if_neg (by simp; omega)]

/-- In all of memory, only bytes of `s` at offsets satisfying `P` may differ. -/
def OnlyChanged (h h' : Heap) (s : Slice) (P : Nat → Prop) : Prop :=
  h'.arrays.length = h.arrays.length ∧
  ∀ a i, ¬ (a = s.arr ∧ s.off ≤ i ∧ P (i - s.off)) → (h'.arrayOf a)[i]? = (h.arrayOf a)[i]?

theorem OnlyChanged.trans {h h1 h2 : Heap} {s : Slice} {P : Nat → Prop} (a : OnlyChanged h h1 s P)
    (b : OnlyChanged h1 h2 s P) : OnlyChanged h h2 s P :=
  ⟨b.1.trans a.1, fun x i hn => (b.2 x i hn).trans (a.2 x i hn)⟩

theorem OnlyChanged.mono {h h1 : Heap} {s : Slice} {P Q : Nat → Prop} (a : OnlyChanged h h1 s P)
    (hpq : ∀ i, P i → Q i) : OnlyChanged h h1 s Q :=
  ⟨a.1, fun x i hn => a.2 x i (fun hx => hn ⟨hx.1, hx.2.1, hpq _ hx.2.2⟩)⟩

theorem OnlyChanged.bytes {h h1 : Heap} {s : Slice} {P : Nat → Prop} (a : OnlyChanged h h1 s P)
    {i : Nat} (hi : ¬ P i) : (h1.bytes s)[i]? = (h.bytes s)[i]? := by
  unfold Heap.bytes
  rw [List.getElem?_take, List.getElem?_take]
  split
  · rw [List.getElem?_drop, List.getElem?_drop]
    apply a.2
    rintro ⟨_, _, hx⟩
    rw [Nat.add_sub_cancel_left] at hx
    exact hi hx
  · rfl

theorem put_onlyChanged {h : Heap} {s : Slice} (hv : s.Valid h) {W : List Byte} (hW : W.length = s.cap)
    {P : Nat → Prop} (hp : ∀ j, ¬ P j → W[j]? = (window h s)[j]?) : OnlyChanged h (put h s W) s P := by
  have hwl := window_length hv
  refine ⟨by simp [put], fun a i hn => ?_⟩
  unfold put
  by_cases ha : s.arr = a
  · subst ha
    by_cases hl : s.arr < h.arrays.length
    · rw [Heap.arrayOf_write_same hl, splice_getElem? _ _ _ (by have := hv.2; omega)]
      split
      · rename_i hi
        rw [hp (i - s.off) (fun hx => hn ⟨rfl, hi.1, hx⟩)]
        unfold window
        rw [List.getElem?_take, if_pos (by omega), List.getElem?_drop]
        congr 1; omega
      · rfl
    · unfold Heap.write
      rw [List.set_eq_of_length_le (by omega)]
  · rw [Heap.arrayOf_write_ne ha]

theorem splice_onlyChanged {h : Heap} {s : Slice} (hv : s.Valid h) {i : Nat} {bs : List Byte}
    (hi : i + bs.length ≤ s.cap) :
    OnlyChanged h (put h s (splice (window h s) i bs)) s (fun j => i ≤ j ∧ j < i + bs.length) := by
  have hwl := window_length hv
  refine put_onlyChanged hv (by rw [splice_length _ _ _ (by omega)]; exact hwl) (fun j hj => ?_)
  rw [splice_getElem? _ _ _ (by omega), if_neg hj]

end Verif.Packet
