import Verif.Packet.Lemmas
/-! Writing memory through a packet's slices: every write replaces the window of the packet buffer. -/
namespace Verif.Packet
open Verif.Spec

/-- Memory with the window of `s` replaced by `W`. -/
def put (h : Heap) (s : Slice) (W : List Byte) : Heap := h.write s.arr s.off W

theorem splice_self (b : List Byte) (i n : Nat) : splice b i ((b.drop i).take n) = b := by
  unfold splice
  rw [List.length_take, List.length_drop]
  by_cases h : n ≤ b.length - i
  · rw [Nat.min_eq_left h, List.append_assoc]
    have : b.drop (i + n) = (b.drop i).drop n := by rw [List.drop_drop]
    rw [this, List.take_append_drop, List.take_append_drop]
  · rw [Nat.min_eq_right (by omega), List.take_of_length_le (l := b.drop i) (by simp; omega), List.take_append_drop,
      List.drop_eq_nil_of_le (by omega), List.append_nil]

theorem arrayOf_set_self (h : Heap) (a : Nat) : (⟨h.arrays.set a (h.arrayOf a)⟩ : Heap) = h := by
  cases h with
  | mk arrs =>
    congr 1
    apply List.ext_getElem?
    intro j
    by_cases hj : a = j
    · subst hj
      by_cases hl : a < arrs.length
      · rw [List.getElem?_set_self hl]; simp [Heap.arrayOf, hl]
      · rw [List.set_eq_of_length_le (by show arrs.length ≤ a; omega)]
    · rw [List.getElem?_set_ne hj]

theorem put_self (h : Heap) (s : Slice) : put h s (window h s) = h := by
  unfold put Heap.write window
  rw [splice_self]
  exact arrayOf_set_self h s.arr

/-- Splicing twice at the same place. -/
theorem splice_splice_same {b W : List Byte} {i : Nat} {k : Nat} {bs : List Byte}
    (hb : i + W.length ≤ b.length) (hk : k + bs.length ≤ W.length) :
    splice (splice b i W) (i + k) bs = splice b i (splice W k bs) := by
  have hl := splice_length b i W hb
  have hl2 := splice_length W k bs hk
  apply List.ext_getElem?
  intro j
  rw [splice_getElem? _ _ _ (by omega), splice_getElem? _ _ _ hb, splice_getElem? b _ _ (by omega), hl2,
    splice_getElem? _ _ _ hk]
  by_cases h1 : i + k ≤ j ∧ j < i + k + bs.length
  · rw [if_pos h1, if_pos (by omega), if_pos (by omega)]
    congr 1; omega
  · rw [if_neg h1]
    by_cases h2 : i ≤ j ∧ j < i + W.length
    · rw [if_pos h2, if_pos (by omega), if_neg (by omega)]
    · rw [if_neg h2, if_neg (by omega)]

theorem write_put {h : Heap} {s : Slice} (hv : s.Valid h) {W : List Byte} (hW : W.length = s.cap)
    {k : Nat} {bs : List Byte} (hk : k + bs.length ≤ s.cap) :
    (put h s W).write s.arr (s.off + k) bs = put h s (splice W k bs) := by
  obtain ⟨h1, h2⟩ := hv
  unfold put
  by_cases hl : s.arr < h.arrays.length
  · have := @Heap.arrayOf_write_same h s.arr s.off W hl
    unfold Heap.write at *
    rw [this, splice_splice_same (by omega) (by omega)]
    simp
  · unfold Heap.write
    rw [List.set_eq_of_length_le (by simp; omega), List.set_eq_of_length_le (by omega),
      List.set_eq_of_length_le (by omega)]

theorem put_valid {h : Heap} {s t : Slice} (hv : s.Valid h) {W : List Byte} (hW : W.length = s.cap)
    (ht : t.Valid h) : t.Valid (put h s W) :=
  ht.write (by have := hv.2; omega)

theorem window_put {h : Heap} {s : Slice} (hv : s.Valid h) {W : List Byte} (hW : W.length = s.cap) :
    window (put h s W) s = W := by
  have := Heap.bytes_write_inside (h := h) (s := ⟨s.arr, s.off, s.cap, s.cap⟩) (i := 0) (bs := W)
    ⟨Nat.le_refl _, hv.2⟩ (by simp; omega)
  simp only [Nat.add_zero] at this
  have h2 : (put h s W).bytes ⟨s.arr, s.off, s.cap, s.cap⟩ = window (put h s W) s := rfl
  rw [← h2]
  unfold put
  rw [this]
  unfold splice
  rw [List.drop_eq_nil_of_le]
  · simp
  · rw [Heap.bytes_length (s := ⟨s.arr, s.off, s.cap, s.cap⟩) ⟨Nat.le_refl _, hv.2⟩]; simp; omega

theorem bytes_put {h : Heap} {s : Slice} (hv : s.Valid h) {W : List Byte} (hW : W.length = s.cap) :
    (put h s W).bytes s = W.take s.len := by
  rw [bytes_eq_window (put_valid hv hW hv), window_put hv hW]

theorem put_put {h : Heap} {s : Slice} (hv : s.Valid h) {W W' : List Byte} (hW : W.length = s.cap)
    (hW' : W'.length = s.cap) : put (put h s W) s W' = put h s W' := by
  have := write_put hv hW (k := 0) (bs := W') (by omega)
  simp only [Nat.add_zero] at this
  unfold put at this ⊢
  rw [this]
  congr 1
  unfold splice
  rw [List.drop_eq_nil_of_le (by omega)]
  simp

/-- A slice that lies in other memory is not changed. -/
theorem bytes_put_other {h : Heap} {s t : Slice} (hv : s.Valid h) {W : List Byte} (hW : W.length = s.cap)
    (hd : s.arr ≠ t.arr ∨ s.off + s.cap ≤ t.off ∨ t.off + t.len ≤ s.off) :
    (put h s W).bytes t = h.bytes t := by
  obtain ⟨h1, h2⟩ := hv
  exact Heap.bytes_write_disjoint (by omega) (by omega)

theorem put_tail {h : Heap} {s : Slice} (hv : s.Valid h) {W : List Byte} (hW : W.length = s.cap)
    {n : Nat} {bs : List Byte} {k : Nat} (hk : n + k + bs.length ≤ s.cap) :
    (put h s W).write (tail s n).arr ((tail s n).off + k) bs = put h s (splice W (n + k) bs) := by
  have := write_put hv hW hk
  rw [← this]
  show Heap.write _ _ (s.off + n + k) _ = _
  rw [Nat.add_assoc]
  rfl

theorem wr8_put {h : Heap} {s : Slice} (hv : s.Valid h) {W : List Byte} (hW : W.length = s.cap)
    (n i : Nat) (b : Byte) :
    wr8 (put h s W) (tail s n) i b =
      if n + i < s.len then .ok (put h s (splice W (n + i) [b])) else .panic := by
  unfold wr8 Heap.store
  obtain ⟨h1, h2⟩ := hv
  by_cases hi : n + i < s.len
  · rw [if_pos hi, if_pos (by simp [tail]; omega), put_tail ⟨h1, h2⟩ hW (by simp; omega)]
  · rw [if_neg hi, if_neg (by simp [tail]; omega)]

theorem wr16_put {h : Heap} {s : Slice} (hv : s.Valid h) {W : List Byte} (hW : W.length = s.cap)
    (n i : Nat) (v : U16) :
    wr16 (put h s W) (tail s n) i v =
      if n + i + 2 ≤ s.cap then .ok (put h s (splice W (n + i) (enc16 .big v))) else .panic := by
  unfold wr16 Slice.sub
  by_cases hi : n + i + 2 ≤ s.cap
  · rw [if_pos hi, if_pos (by simp [tail]; omega)]
    simp only [Res.ok_bind]
    unfold Heap.store
    rw [if_pos (by simp [enc16])]
    have := put_tail hv hW (n := n) (k := i) (bs := enc16 .big v) (by simp [enc16]; omega)
    simp only [Nat.add_zero]
    rw [← this]
  · rw [if_neg hi, if_neg (by simp [tail]; omega)]; rfl

theorem wr32_put {h : Heap} {s : Slice} (hv : s.Valid h) {W : List Byte} (hW : W.length = s.cap)
    (n i : Nat) (v : U32) :
    wr32 (put h s W) (tail s n) i v =
      if n + i + 4 ≤ s.cap then .ok (put h s (splice W (n + i) (enc32 .big v))) else .panic := by
  unfold wr32 Slice.sub
  by_cases hi : n + i + 4 ≤ s.cap
  · rw [if_pos hi, if_pos (by simp [tail]; omega)]
    simp only [Res.ok_bind]
    unfold Heap.store
    rw [if_pos (by simp [enc32])]
    have := put_tail hv hW (n := n) (k := i) (bs := enc32 .big v) (by simp [enc32]; omega)
    simp only [Nat.add_zero]
    rw [← this]
  · rw [if_neg hi, if_neg (by simp [tail]; omega)]; rfl

theorem tail_zero (s : Slice) : tail s 0 = s := rfl

theorem wr8_put0 {h : Heap} {s : Slice} (hv : s.Valid h) {W : List Byte} (hW : W.length = s.cap)
    (i : Nat) (b : Byte) :
    wr8 (put h s W) s i b = if i < s.len then .ok (put h s (splice W i [b])) else .panic := by
  have := wr8_put hv hW 0 i b
  simpa [tail_zero] using this

theorem wr16_put0 {h : Heap} {s : Slice} (hv : s.Valid h) {W : List Byte} (hW : W.length = s.cap)
    (i : Nat) (v : U16) :
    wr16 (put h s W) s i v =
      if i + 2 ≤ s.cap then .ok (put h s (splice W i (enc16 .big v))) else .panic := by
  have := wr16_put hv hW 0 i v
  simpa [tail_zero] using this

/-- `copy` of exactly as many bytes as fit. -/
theorem copySub_put {h : Heap} {s : Slice} (hv : s.Valid h) {W : List Byte} (hW : W.length = s.cap)
    {i n : Nat} {bs : List Byte} (hn : bs.length = n) (hi : i + n ≤ s.cap) :
    copySub (put h s W) s i n bs = .ok (put h s (splice W i bs)) := by
  unfold copySub Slice.sub Heap.copyTo
  rw [if_pos (by omega)]
  simp only [Res.ok_bind]
  rw [if_pos (Nat.zero_le _)]
  have := write_put hv hW (k := i) (bs := bs) (by omega)
  simp only [Nat.add_zero, Nat.sub_zero]
  rw [List.take_of_length_le (by omega), this]

/-! ### Reading what was spliced -/

theorem u8at_splice {b : List Byte} {i : Nat} {bs : List Byte} (hb : i + bs.length ≤ b.length) (j : Nat) :
    u8at (splice b i bs) j = if i ≤ j ∧ j < i + bs.length then u8at bs (j - i) else u8at b j := by
  unfold u8at
  rw [splice_getElem? _ _ _ hb]
  split <;> rfl


theorem u16at_enc16 (v : U16) : u16at (enc16 .big v) 0 = v := join_hi_lo v

theorem u16at_splice_same {b : List Byte} {i : Nat} {v : U16} (hb : i + 2 ≤ b.length) :
    u16at (splice b i (enc16 .big v)) i = v := by
  have h2 : i + (enc16 .big v).length ≤ b.length := hb
  have := u16at_enc16 v
  unfold u16at at *
  rw [u8at_splice h2, u8at_splice h2, if_pos (by simp [enc16]), if_pos (by simp [enc16])]
  simpa using this

theorem u16at_splice_ne {b : List Byte} {i j : Nat} {bs : List Byte} (hb : i + bs.length ≤ b.length)
    (hd : j + 2 ≤ i ∨ i + bs.length ≤ j) : u16at (splice b i bs) j = u16at b j := by
  unfold u16at
  rw [u8at_splice hb, u8at_splice hb, if_neg (by omega), if_neg (by omega)]

/-- Splicing at disjoint places commutes. -/
theorem splice_comm {b : List Byte} {i j : Nat} {x y : List Byte} (hi : i + x.length ≤ b.length)
    (hj : j + y.length ≤ b.length) (hd : i + x.length ≤ j ∨ j + y.length ≤ i) :
    splice (splice b i x) j y = splice (splice b j y) i x := by
  have l1 := splice_length b i x hi
  have l2 := splice_length b j y hj
  apply List.ext_getElem?
  intro k
  rw [splice_getElem? _ _ _ (by omega), splice_getElem? _ _ _ hi, splice_getElem? _ _ _ (by omega),
    splice_getElem? _ _ _ hj]
  by_cases h1 : j ≤ k ∧ k < j + y.length
  · rw [if_pos h1, if_neg (by omega), if_pos h1]
  · rw [if_neg h1, if_neg h1]

/-- A second splice at the same place wins. -/
theorem splice_over {b : List Byte} {i : Nat} {x y : List Byte} (hi : i + x.length ≤ b.length)
    (hl : y.length = x.length) : splice (splice b i x) i y = splice b i y := by
  have l1 := splice_length b i x hi
  apply List.ext_getElem?
  intro k
  rw [splice_getElem? _ _ _ (by omega), splice_getElem? _ _ _ hi, splice_getElem? _ _ _ (by omega)]
  by_cases h1 : i ≤ k ∧ k < i + y.length
  · rw [if_pos h1, if_pos h1]
  · rw [if_neg h1, if_neg (by omega), if_neg h1]

/-- Two adjacent one-byte splices are one two-byte splice. -/
theorem splice_two {b : List Byte} {i : Nat} {x y : Byte} (hi : i + 2 ≤ b.length) :
    splice (splice b i [x]) (i + 1) [y] = splice b i [x, y] := by
  have l1 := splice_length b i [x] (by simp; omega)
  apply List.ext_getElem?
  intro k
  rw [splice_getElem? _ _ _ (by simp; omega), splice_getElem? _ _ _ (by simp; omega),
    splice_getElem? _ _ _ (by simp; omega)]
  simp only [List.length_cons, List.length_nil]
  by_cases h1 : k = i
  · subst h1; simp; omega
  · by_cases h2 : k = i + 1
    · subst h2; simp
    · rw [if_neg (by omega), if_neg (by omega), if_neg (by omega)]

/-- Writing back what is there. -/
theorem splice_u16at {b : List Byte} {i : Nat} (hi : i + 2 ≤ b.length) :
    splice b i [u8at b i, u8at b (i + 1)] = b := by
  rw [← take2_eq hi, splice_self]

theorem enc16_u16at (b : List Byte) (i : Nat) :
    enc16 .big (u16at b i) = [u8at b i, u8at b (i + 1)] := by
  unfold u16at
  show [hi8 _, lo8 _] = _
  rw [hi8_join, lo8_join]

theorem take_splice_lt {b : List Byte} {i n : Nat} {bs : List Byte} (hb : i + bs.length ≤ b.length)
    (hn : i + bs.length ≤ n) : (splice b i bs).take n = splice (b.take n) i bs := by
  apply List.ext_getElem?
  intro k
  rw [List.getElem?_take, splice_getElem? _ _ _ hb]
  rw [splice_getElem? _ _ _ (by simp; omega), List.getElem?_take]
  by_cases h1 : i ≤ k ∧ k < i + bs.length
  · rw [if_pos h1, if_pos (by omega), if_pos h1]
  · rw [if_neg h1, if_neg h1]

theorem take_splice_ge {b : List Byte} {i n : Nat} {bs : List Byte} (hn : n ≤ i) (hi : i ≤ b.length) :
    (splice b i bs).take n = b.take n := by
  unfold splice
  rw [List.append_assoc, List.take_append_of_le_length (by simp; omega), List.take_take]
  congr 1; omega

theorem drop_splice_ge {b : List Byte} {i n : Nat} {bs : List Byte} (hb : i + bs.length ≤ b.length)
    (hn : i + bs.length ≤ n) : (splice b i bs).drop n = b.drop n := by
  apply List.ext_getElem?
  intro k
  rw [List.getElem?_drop, splice_getElem? _ _ _ hb, if_neg (by omega), List.getElem?_drop]

theorem drop_splice_lt {b : List Byte} {i n : Nat} {bs : List Byte} (hb : n + i + bs.length ≤ b.length) :
    (splice b (n + i) bs).drop n = splice (b.drop n) i bs := by
  apply List.ext_getElem?
  intro k
  rw [List.getElem?_drop, splice_getElem? _ _ _ hb, splice_getElem? _ _ _ (by simp; omega),
    List.getElem?_drop]
  by_cases h1 : i ≤ k ∧ k < i + bs.length
  · rw [if_pos h1, if_pos (by omega)]; congr 1; omega
  · rw [if_neg h1, if_neg (by omega)]

end Verif.Packet
