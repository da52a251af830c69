import Verif.Packet.Model
import Verif.Spec.Packet
import Verif.Spec.Lemmas
/-! Reading and writing memory through the packet's slices. -/
namespace Verif.Packet

/-- Everything a slice can be resliced to: the bytes up to its capacity. -/
def window (h : Heap) (s : Slice) : List Byte := ((h.arrayOf s.arr).drop s.off).take s.cap

theorem window_length {h : Heap} {s : Slice} (hv : s.Valid h) : (window h s).length = s.cap := by
  obtain ⟨h1, h2⟩ := hv
  simp [window]; omega

theorem bytes_eq_window {h : Heap} {s : Slice} (hv : s.Valid h) :
    h.bytes s = (window h s).take s.len := by
  obtain ⟨h1, h2⟩ := hv
  simp only [Heap.bytes, window, List.take_take]; congr 1; omega

/-- byte `i`, 0 outside -/
def u8at (b : List Byte) (i : Nat) : Byte := b[i]?.getD 0
/-- big-endian 16-bit number at `i` -/
def u16at (b : List Byte) (i : Nat) : U16 := join16 (u8at b i) (u8at b (i + 1))
/-- big-endian 32-bit number at `i` -/
def u32at (b : List Byte) (i : Nat) : U32 :=
  join32 (u8at b i) (u8at b (i + 1)) (u8at b (i + 2)) (u8at b (i + 3))

theorem u8at_some {b : List Byte} {i : Nat} (hi : i < b.length) : b[i]? = some (u8at b i) := by
  unfold u8at; rw [List.getElem?_eq_getElem hi]; rfl

theorem be16_u16at {b : List Byte} {i : Nat} (hi : i + 2 ≤ b.length) :
    Spec.be16 b i = some (u16at b i).toNat := by
  unfold Spec.be16 Spec.num16
  rw [u8at_some (by omega : i < b.length), u8at_some (by omega : i + 1 < b.length)]
  simp only [u16at, join16_toNat]
  congr 1; omega

theorem be32_u32at {b : List Byte} {i : Nat} (hi : i + 4 ≤ b.length) :
    Spec.be32 b i = some (u32at b i).toNat := by
  unfold Spec.be32 Spec.num32
  rw [u8at_some (by omega : i < b.length), u8at_some (by omega : i + 1 < b.length),
    u8at_some (by omega : i + 2 < b.length), u8at_some (by omega : i + 3 < b.length)]
  simp only [u32at, join32_toNat]
  congr 1; omega

theorem u8at_drop (b : List Byte) (k i : Nat) : u8at (b.drop k) i = u8at b (k + i) := by
  simp [u8at]
theorem u16at_drop (b : List Byte) (k i : Nat) : u16at (b.drop k) i = u16at b (k + i) := by
  simp [u16at, u8at_drop]; rfl
theorem u32at_drop (b : List Byte) (k i : Nat) : u32at (b.drop k) i = u32at b (k + i) := by
  simp [u32at, u8at_drop]; rfl
theorem u8at_take {b : List Byte} {n i : Nat} (hi : i < n) : u8at (b.take n) i = u8at b i := by
  simp [u8at, hi]
theorem u16at_take {b : List Byte} {n i : Nat} (hi : i + 1 < n) : u16at (b.take n) i = u16at b i := by
  unfold u16at; rw [u8at_take (by omega), u8at_take (by omega)]
theorem u32at_take {b : List Byte} {n i : Nat} (hi : i + 3 < n) : u32at (b.take n) i = u32at b i := by
  unfold u32at; rw [u8at_take (by omega), u8at_take (by omega), u8at_take (by omega), u8at_take (by omega)]

theorem take2_eq {b : List Byte} {i : Nat} (hi : i + 2 ≤ b.length) :
    (b.drop i).take 2 = [u8at b i, u8at b (i + 1)] := by
  apply List.ext_getElem?
  intro j
  match j with
  | 0 => simp [u8at_some (by omega : i < b.length)]
  | 1 => simp [u8at_some (by omega : i + 1 < b.length)]
  | j + 2 => simp; omega

theorem take4_eq {b : List Byte} {i : Nat} (hi : i + 4 ≤ b.length) :
    (b.drop i).take 4 = [u8at b i, u8at b (i + 1), u8at b (i + 2), u8at b (i + 3)] := by
  apply List.ext_getElem?
  intro j
  match j with
  | 0 => simp [u8at_some (by omega : i < b.length)]
  | 1 => simp [u8at_some (by omega : i + 1 < b.length)]
  | 2 => simp [u8at_some (by omega : i + 2 < b.length)]
  | 3 => simp [u8at_some (by omega : i + 3 < b.length)]
  | j + 4 => simp; omega

theorem bytes_subslice {h : Heap} {s : Slice} {lo n : Nat} (hn : lo + n ≤ s.cap) :
    h.bytes ⟨s.arr, s.off + lo, n, s.cap - lo⟩ = ((window h s).drop lo).take n := by
  simp only [Heap.bytes, window, List.drop_take, List.take_take, List.drop_drop]
  congr 1; omega

theorem at_eq {h : Heap} {s : Slice} (hv : s.Valid h) (i : Nat) :
    at' h s i = if i < s.len then .ok (u8at (window h s) i) else .panic := by
  unfold at' idx
  rw [bytes_eq_window hv, List.getElem?_take]
  have := window_length hv
  obtain ⟨h1, h2⟩ := hv
  by_cases hi : i < s.len
  · simp only [hi, ↓reduceIte]
    rw [u8at_some (by omega)]
  · simp [hi]

theorem rd16_eq {h : Heap} {s : Slice} (hv : s.Valid h) (i : Nat) :
    rd16 h s i = if i + 2 ≤ s.cap then .ok (u16at (window h s) i) else .panic := by
  unfold rd16 Slice.sub
  have hl := window_length hv
  by_cases hi : i + 2 ≤ s.cap
  · rw [if_pos ⟨by omega, hi⟩, if_pos hi]
    simp only [Res.ok_bind, Nat.add_sub_cancel_left]
    rw [bytes_subslice hi, take2_eq (by omega)]
    rfl
  · rw [if_neg (by omega), if_neg hi]; rfl

theorem rd32_eq {h : Heap} {s : Slice} (hv : s.Valid h) (i : Nat) :
    rd32 h s i = if i + 4 ≤ s.cap then .ok (u32at (window h s) i) else .panic := by
  unfold rd32 Slice.sub
  have hl := window_length hv
  by_cases hi : i + 4 ≤ s.cap
  · rw [if_pos ⟨by omega, hi⟩, if_pos hi]
    simp only [Res.ok_bind, Nat.add_sub_cancel_left]
    rw [bytes_subslice hi, take4_eq (by omega)]
    rfl
  · rw [if_neg (by omega), if_neg hi]; rfl

theorem rdN_eq (h : Heap) (s : Slice) (i n : Nat) :
    rdN h s i n = if i + n ≤ s.cap then .ok (((window h s).drop i).take n) else .panic := by
  unfold rdN Slice.sub
  by_cases hi : i + n ≤ s.cap
  · rw [if_pos ⟨by omega, hi⟩, if_pos hi]
    simp only [Res.ok_bind, Nat.add_sub_cancel_left]
    rw [bytes_subslice hi]
  · rw [if_neg (by omega), if_neg hi]; rfl

/-- The slice `s[n:]`. -/
def tail (s : Slice) (n : Nat) : Slice := ⟨s.arr, s.off + n, s.len - n, s.cap - n⟩

theorem from_eq {h : Heap} {s : Slice} (hv : s.Valid h) (n : Nat) :
    s.from' n = if n ≤ s.len then .ok (tail s n) else .panic := by
  unfold Slice.from' Slice.sub tail
  obtain ⟨h1, h2⟩ := hv
  by_cases hn : n ≤ s.len
  · rw [if_pos ⟨hn, h1⟩, if_pos hn]
  · rw [if_neg (by omega), if_neg hn]

theorem tail_valid {h : Heap} {s : Slice} (hv : s.Valid h) {n : Nat} (hn : n ≤ s.len) :
    (tail s n).Valid h := by
  obtain ⟨h1, h2⟩ := hv
  constructor <;> simp [tail] <;> omega

theorem window_tail (h : Heap) (s : Slice) (n : Nat) : window h (tail s n) = (window h s).drop n := by
  simp only [window, tail, List.drop_take, List.drop_drop]

theorem bytes_tail (h : Heap) (s : Slice) (n : Nat) : h.bytes (tail s n) = (h.bytes s).drop n := by
  simp only [Heap.bytes, tail, List.drop_take, List.drop_drop]

/-- The slice `s[:n]`. -/
def head (s : Slice) (n : Nat) : Slice := ⟨s.arr, s.off, n, s.cap⟩

theorem to_eq (s : Slice) (n : Nat) :
    s.to n = if n ≤ s.cap then .ok (head s n) else .panic := by
  unfold Slice.to Slice.sub head
  by_cases hn : n ≤ s.cap
  · rw [if_pos ⟨by omega, hn⟩, if_pos hn]; simp
  · rw [if_neg (by omega), if_neg hn]

theorem head_valid {h : Heap} {s : Slice} (hv : s.Valid h) {n : Nat} (hn : n ≤ s.cap) :
    (head s n).Valid h := ⟨hn, hv.2⟩

theorem bytes_head {h : Heap} {s : Slice} {n : Nat} (hn : n ≤ s.len) :
    h.bytes (head s n) = (h.bytes s).take n := by
  simp only [Heap.bytes, head, List.take_take]; congr 1; omega

theorem window_head (h : Heap) (s : Slice) (n : Nat) : window h (head s n) = window h s := rfl

end Verif.Packet
