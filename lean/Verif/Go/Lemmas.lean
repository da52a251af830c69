import Verif.Go.Base
/-! Helper lemmas about words, encodings and byte-string access. -/
namespace Verif

theorem join16_toNat (h l : Byte) : (join16 h l).toNat = 256 * h.toNat + l.toNat := by
  have := l.isLt
  simp only [join16, BitVec.toNat_append]
  rw [← Nat.shiftLeft_add_eq_or_of_lt (by omega)]
  rw [Nat.shiftLeft_eq]; omega

theorem hi8_toNat (v : U16) : (hi8 v).toNat = v.toNat / 256 := by
  have := v.isLt
  simp [hi8, BitVec.extractLsb'_toNat, Nat.shiftRight_eq_div_pow]; omega

theorem lo8_toNat (v : U16) : (lo8 v).toNat = v.toNat % 256 := by
  simp [lo8, BitVec.extractLsb'_toNat]

@[simp] theorem hi8_join (h l : Byte) : hi8 (join16 h l) = h := by
  apply BitVec.eq_of_toNat_eq
  have := h.isLt; have := l.isLt
  rw [hi8_toNat, join16_toNat]; omega

@[simp] theorem lo8_join (h l : Byte) : lo8 (join16 h l) = l := by
  apply BitVec.eq_of_toNat_eq
  have := h.isLt; have := l.isLt
  rw [lo8_toNat, join16_toNat]; omega

@[simp] theorem join_hi_lo (v : U16) : join16 (hi8 v) (lo8 v) = v := by
  apply BitVec.eq_of_toNat_eq
  rw [join16_toNat, hi8_toNat, lo8_toNat]; omega

theorem join32_toNat (b3 b2 b1 b0 : Byte) :
    (join32 b3 b2 b1 b0).toNat
      = 16777216 * b3.toNat + 65536 * b2.toNat + 256 * b1.toNat + b0.toNat := by
  have := b0.isLt; have := b1.isLt; have := b2.isLt
  simp only [join32, BitVec.toNat_append]
  rw [← Nat.shiftLeft_add_eq_or_of_lt (by omega), ← Nat.shiftLeft_add_eq_or_of_lt (by omega),
    ← Nat.shiftLeft_add_eq_or_of_lt (by omega)]
  simp only [Nat.shiftLeft_eq]; omega

theorem byteOf32_toNat (k : Nat) (v : U32) : (byteOf32 k v).toNat = v.toNat / 256 ^ k % 256 := by
  simp only [byteOf32, BitVec.extractLsb'_toNat, Nat.shiftRight_eq_div_pow]
  rw [Nat.pow_mul]

@[simp] theorem byteOf32_join3 (b3 b2 b1 b0 : Byte) : byteOf32 3 (join32 b3 b2 b1 b0) = b3 := by
  apply BitVec.eq_of_toNat_eq
  have := b0.isLt; have := b1.isLt; have := b2.isLt; have := b3.isLt
  rw [byteOf32_toNat, join32_toNat]; omega
@[simp] theorem byteOf32_join2 (b3 b2 b1 b0 : Byte) : byteOf32 2 (join32 b3 b2 b1 b0) = b2 := by
  apply BitVec.eq_of_toNat_eq
  have := b0.isLt; have := b1.isLt; have := b2.isLt; have := b3.isLt
  rw [byteOf32_toNat, join32_toNat]; omega
@[simp] theorem byteOf32_join1 (b3 b2 b1 b0 : Byte) : byteOf32 1 (join32 b3 b2 b1 b0) = b1 := by
  apply BitVec.eq_of_toNat_eq
  have := b0.isLt; have := b1.isLt; have := b2.isLt; have := b3.isLt
  rw [byteOf32_toNat, join32_toNat]; omega
@[simp] theorem byteOf32_join0 (b3 b2 b1 b0 : Byte) : byteOf32 0 (join32 b3 b2 b1 b0) = b0 := by
  apply BitVec.eq_of_toNat_eq
  have := b0.isLt; have := b1.isLt; have := b2.isLt; have := b3.isLt
  rw [byteOf32_toNat, join32_toNat]; omega

@[simp] theorem join32_bytes (v : U32) :
    join32 (byteOf32 3 v) (byteOf32 2 v) (byteOf32 1 v) (byteOf32 0 v) = v := by
  apply BitVec.eq_of_toNat_eq
  have := v.isLt
  simp only [join32_toNat, byteOf32_toNat]; omega

@[simp] theorem enc16_length (e : Endian) (v : U16) : (enc16 e v).length = 2 := by cases e <;> rfl
@[simp] theorem enc32_length (e : Endian) (v : U32) : (enc32 e v).length = 4 := by cases e <;> rfl

@[simp] theorem dec16_enc16 (e : Endian) (v : U16) (rest : List Byte) :
    dec16 e (enc16 e v ++ rest) = .ok v := by cases e <;> simp [enc16, dec16]
@[simp] theorem dec32_enc32 (e : Endian) (v : U32) (rest : List Byte) :
    dec32 e (enc32 e v ++ rest) = .ok v := by cases e <;> simp [enc32, dec32]

theorem dec16_enc16' (e : Endian) (v : U16) : dec16 e (enc16 e v) = .ok v := by
  simpa using dec16_enc16 e v []
theorem dec32_enc32' (e : Endian) (v : U32) : dec32 e (enc32 e v) = .ok v := by
  simpa using dec32_enc32 e v []

/-- Reading back two bytes and writing them gives the same two bytes. -/
theorem enc16_dec16 (e : Endian) (b : List Byte) (v : U16) (h : dec16 e b = .ok v) :
    enc16 e v = b.take 2 := by
  match b, h with
  | a :: c :: t, h => cases e <;> simp [dec16] at h <;> simp [← h, enc16]
theorem enc32_dec32 (e : Endian) (b : List Byte) (v : U32) (h : dec32 e b = .ok v) :
    enc32 e v = b.take 4 := by
  match b, h with
  | a :: c :: d :: f :: t, h => cases e <;> simp [dec32] at h <;> simp [← h, enc32]

theorem dec16_ok_iff (e : Endian) (b : List Byte) : (∃ v, dec16 e b = .ok v) ↔ 2 ≤ b.length := by
  match b with
  | [] => simp [dec16]
  | [_] => simp [dec16]
  | _ :: _ :: t => simp [dec16]
theorem dec32_ok_iff (e : Endian) (b : List Byte) : (∃ v, dec32 e b = .ok v) ↔ 4 ≤ b.length := by
  match b with
  | [] => simp [dec32]
  | [_] => simp [dec32]
  | [_, _] => simp [dec32]
  | [_, _, _] => simp [dec32]
  | _ :: _ :: _ :: _ :: t => simp [dec32]

theorem dec32_panic_iff (e : Endian) (b : List Byte) : dec32 e b = .panic ↔ b.length < 4 := by
  match b with
  | [] => simp [dec32]
  | [_] => simp [dec32]
  | [_, _] => simp [dec32]
  | [_, _, _] => simp [dec32]
  | _ :: _ :: _ :: _ :: t => simp [dec32]
theorem dec16_panic_iff (e : Endian) (b : List Byte) : dec16 e b = .panic ↔ b.length < 2 := by
  match b with
  | [] => simp [dec16]
  | [_] => simp [dec16]
  | _ :: _ :: t => simp [dec16]

@[simp] theorem zeros_length (n : Nat) : (zeros n).length = n := by simp [zeros]

theorem splice_length (b : List Byte) (i : Nat) (bs : List Byte) (h : i + bs.length ≤ b.length) :
    (splice b i bs).length = b.length := by
  simp [splice, List.length_take, List.length_drop]; omega

theorem splice_getElem? (b : List Byte) (i : Nat) (bs : List Byte) (h : i + bs.length ≤ b.length)
    (j : Nat) :
    (splice b i bs)[j]? = if i ≤ j ∧ j < i + bs.length then bs[j - i]? else b[j]? := by
  simp only [splice, List.append_assoc, List.getElem?_append, List.length_take, List.getElem?_take,
    List.getElem?_drop]
  have hm : min i b.length = i := by omega
  rw [hm]
  by_cases h1 : j < i
  · have : ¬ (i ≤ j ∧ j < i + bs.length) := by omega
    simp [h1, this]
  · by_cases h2 : j - i < bs.length
    · have : (i ≤ j ∧ j < i + bs.length) := by omega
      simp [h1, h2, this]
    · have : ¬ (i ≤ j ∧ j < i + bs.length) := by omega
      simp only [h1, h2, this, ↓reduceIte]
      congr 1; omega

end Verif
