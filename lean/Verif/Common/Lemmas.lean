import Verif.Common.Model
import Verif.Spec.Netlink
/-! Helper lemmas about the `common` model; the properties are in `Verif/Props/Common.lean`. -/
namespace Verif.Common
open Spec

theorem and_not3_toNat {w : Nat} (x : BitVec w) (hw : 3 ≤ w) :
    (x &&& ~~~(3#w)).toNat = x.toNat / 4 * 4 := by
  have h : x &&& ~~~(3#w) = (x >>> 2) <<< 2 := by
    apply BitVec.eq_of_getLsbD_eq
    intro i hi
    have h3 : (3#w).getLsbD i = decide (i < 2) := by
      have h4 : (3#w).toNat = 2 ^ 2 - 1 := by
        have : 2 ^ 3 ≤ 2 ^ w := Nat.pow_le_pow_right (by omega) hw
        simp only [BitVec.toNat_ofNat]
        rw [Nat.mod_eq_of_lt (by omega)]
      rw [BitVec.getLsbD, h4, Nat.testBit_two_pow_sub_one]
    simp only [BitVec.getLsbD_and, BitVec.getLsbD_not, h3, BitVec.getLsbD_shiftLeft,
      BitVec.getLsbD_ushiftRight, hi]
    by_cases h2 : i < 2
    · simp [h2]
    · have : 2 + (i - 2) = i := by omega
      simp [h2, this]
  rw [h]
  have hx := x.isLt
  simp only [BitVec.toNat_shiftLeft, BitVec.toNat_ushiftRight, Nat.shiftLeft_eq,
    Nat.shiftRight_eq_div_pow]
  apply Nat.mod_eq_of_lt
  omega

theorem align_toNat {w : Nat} (x : BitVec w) (hw : 3 ≤ w) :
    ((x + 4 - 1) &&& ~~~(4 - 1 : BitVec w)).toNat
      = if x.toNat + 3 < 2 ^ w then (x.toNat + 3) / 4 * 4 else 0 := by
  have h8 : 2 ^ 3 ≤ 2 ^ w := Nat.pow_le_pow_right (by omega) hw
  have e1 : (4 - 1 : BitVec w) = 3#w := by
    apply BitVec.eq_of_toNat_eq
    have a : (4 : BitVec w).toNat = 4 := by
      show 4 % 2 ^ w = 4
      exact Nat.mod_eq_of_lt (by omega)
    have b : (1 : BitVec w).toNat = 1 := by
      show 1 % 2 ^ w = 1
      exact Nat.mod_eq_of_lt (by omega)
    rw [BitVec.toNat_sub, a, b]
    simp only [BitVec.toNat_ofNat]
    rw [show 2 ^ w - 1 + 4 = 3 + 2 ^ w by omega, Nat.add_mod_right]
  have e2 : x + 4 - 1 = x + 3#w := by
    rw [BitVec.sub_eq_add_neg, BitVec.add_assoc, ← BitVec.sub_eq_add_neg, e1]
  rw [e1, e2, and_not3_toNat _ hw, BitVec.toNat_add]
  have h3 : (3#w).toNat = 3 := by
    simp only [BitVec.toNat_ofNat]; exact Nat.mod_eq_of_lt (by omega)
  rw [h3]
  have hx := x.isLt
  split
  · rename_i hlt; rw [Nat.mod_eq_of_lt hlt]
  · rename_i hge
    have : (x.toNat + 3) % 2 ^ w = x.toNat + 3 - 2 ^ w := by
      rw [Nat.mod_eq_sub_mod (by omega), Nat.mod_eq_of_lt (by omega)]
    rw [this]; omega

theorem nlMsgAlign_toNat (x : U32) :
    (nlMsgAlign x).toNat = if x.toNat + 3 < 2 ^ 32 then (x.toNat + 3) / 4 * 4 else 0 :=
  align_toNat x (by omega)
theorem nfaAlign32_toNat (x : U32) :
    (nfaAlign32 x).toNat = if x.toNat + 3 < 2 ^ 32 then (x.toNat + 3) / 4 * 4 else 0 :=
  align_toNat x (by omega)
theorem nfaAlign_toNat (x : U16) :
    (nfaAlign x).toNat = if x.toNat + 3 < 2 ^ 16 then (x.toNat + 3) / 4 * 4 else 0 :=
  align_toNat x (by omega)

theorem nfaLength_toNat (x : U16) (h : x.toNat ≤ 65528) :
    (nfaLength x).toNat = roundUp4 (x.toNat + 4) := by
  unfold nfaLength
  rw [nfaAlign_toNat]
  have : (x + 4).toNat = x.toNat + 4 := by
    rw [BitVec.toNat_add]
    show (x.toNat + 4) % 65536 = _
    omega
  rw [this, if_pos (by omega)]; rfl

theorem nlMsgLength_toNat (x : U32) (h : x.toNat < 2 ^ 32 - 16) :
    (nlMsgLength x).toNat = x.toNat + 16 := by
  unfold nlMsgLength
  rw [BitVec.toNat_add]
  have : (nlMsgAlign 16).toNat = 16 := by decide
  rw [this]; omega

theorem isRoundUp4 (n : Nat) : IsRoundUp4 n ((n + 3) / 4 * 4) := by
  refine ⟨by omega, by omega, ?_⟩
  intro m hm hn; omega

/-! Reading numbers: model against specification -/

theorem num16_eq (e : Endian) (b : List Byte) (i : Nat) (v : U16)
    (h : dec16 e (b.drop i) = .ok v) : num16 e b i = some v.toNat := by
  unfold num16
  have h0 : b[i]? = (b.drop i)[0]? := by simp
  have h1 : b[i + 1]? = (b.drop i)[1]? := by simp
  rw [h0, h1]
  match hd : b.drop i, h with
  | x :: y :: t, h =>
    cases e <;> simp [dec16] at h <;> simp [← h, join16_toNat, Nat.mul_comm]

theorem num32_eq (e : Endian) (b : List Byte) (i : Nat) (v : U32)
    (h : dec32 e (b.drop i) = .ok v) : num32 e b i = some v.toNat := by
  unfold num32
  have h0 : b[i]? = (b.drop i)[0]? := by simp
  have h1 : b[i + 1]? = (b.drop i)[1]? := by simp
  have h2 : b[i + 2]? = (b.drop i)[2]? := by simp
  have h3 : b[i + 3]? = (b.drop i)[3]? := by simp
  rw [h0, h1, h2, h3]
  match hd : b.drop i, h with
  | x :: y :: z :: w :: t, h =>
    cases e <;> simp [dec32] at h <;> simp [← h, join32_toNat] <;> omega

theorem num16_drop (e : Endian) (b : List Byte) (i j : Nat) :
    num16 e (b.drop i) j = num16 e b (i + j) := by
  simp [num16, Nat.add_assoc]

theorem exists_dec16 (e : Endian) (b : List Byte) (i : Nat) (h : i + 2 ≤ b.length) :
    ∃ v, dec16 e (b.drop i) = .ok v :=
  (dec16_ok_iff e _).mpr (by simp; omega)

theorem num16_lt {e : Endian} {b : List Byte} {i n : Nat} (h : num16 e b i = some n) : n < 65536 := by
  unfold num16 at h
  split at h
  · rename_i x y _ _
    have := x.isLt; have := y.isLt
    cases e <;> simp at h <;> omega
  · simp at h

/-! One iteration of the attribute loop -/

/-- What one iteration does, in terms of the specification's header. -/
theorem attrBody_at {e : Endian} {h : Heap} {buf : Slice} (hv : buf.Valid h)
    (hlen : buf.len + 3 < 2 ^ 32) {i : Nat} {m : AttrMap} {l t : Nat}
    (hh : HeaderAt e (h.bytes buf) i l t) :
    attrBody e h buf (i, m) =
      if i + l ≤ buf.len then
        if t < 11 ∧ (m t).isSome then
          if l < 4 then .panic
          else .ok (.next (roundUp4 (i + l),
            m.setData t ⟨buf.arr, buf.off + (i + 4), l - 4, buf.cap - (i + 4)⟩))
        else .ok (.next (roundUp4 (i + l), m))
      else .ok (.done (m, none, some (.msg "Bad Attr"))) := by
  obtain ⟨h4, hl, ht⟩ := hh
  have hbl : (h.bytes buf).length = buf.len := Heap.bytes_length hv
  rw [hbl] at h4
  obtain ⟨vl, hvl⟩ := exists_dec16 e (h.bytes buf) i (by omega)
  obtain ⟨vt, hvt⟩ := exists_dec16 e (h.bytes buf) (i + 2) (by omega)
  have el := num16_eq e _ _ _ hvl
  have et := num16_eq e _ _ _ hvt
  rw [hl] at el; rw [ht] at et
  have el' : l = vl.toNat := by simpa using el
  have et' : t = vt.toNat := by simpa using et
  have hlt16 : l < 65536 := num16_lt hl
  have hal : i + l ≤ buf.len → (nfaAlign32 (BitVec.ofNat 32 (i + l))).toNat = roundUp4 (i + l) := by
    intro hle
    rw [nfaAlign32_toNat]
    have : (BitVec.ofNat 32 (i + l)).toNat = i + l := by
      simp only [BitVec.toNat_ofNat]; omega
    rw [this, if_pos (by omega)]; rfl
  have s1 : sliceFrom (h.bytes buf) i = .ok ((h.bytes buf).drop i) := by
    unfold sliceFrom; rw [if_pos (by omega)]
  have s2 : sliceFrom (h.bytes buf) (i + 2) = .ok ((h.bytes buf).drop (i + 2)) := by
    unfold sliceFrom; rw [if_pos (by omega)]
  have e4 : i + 4 + l - 4 = i + l := by omega
  unfold attrBody
  simp only [show i < buf.len by omega, show ¬ (i + 4 > buf.len) by omega, ↓reduceIte, s1, s2, hvl,
    hvt, Res.ok_bind, ← el', ← et', e4]
  by_cases hle : i + l ≤ buf.len
  · simp only [hle, ↓reduceIte, hal hle]
    by_cases ht11 : t < 11
    · simp only [ht11, ↓reduceIte, true_and]
      rcases hm : m t with _ | d
      · simp
      · simp only [Option.isSome_some, ↓reduceIte]
        by_cases hl4 : l < 4
        · simp only [hl4, ↓reduceIte]
          unfold Slice.sub
          rw [if_neg (by omega)]
          rfl
        · simp only [hl4, ↓reduceIte]
          unfold Slice.sub
          rw [if_pos ⟨by omega, by have := hv.1; omega⟩]
          simp only [Res.ok_bind, Res.pure_eq]
          have : i + l - (i + 4) = l - 4 := by omega
          rw [this]
    · simp [ht11]
  · simp [hle]

/-- The loop ends at a position without room for a header. -/
theorem attrBody_end {e : Endian} {h : Heap} {buf : Slice} {i : Nat} {m : AttrMap}
    (hi : buf.len < i + 4) : attrBody e h buf (i, m) = .ok (.done (m, none, none)) := by
  unfold attrBody attrFinish
  by_cases h1 : i < buf.len
  · simp [h1, show i + 4 > buf.len by omega, show i + 4 ≥ buf.len by omega]
  · simp [h1, show i ≥ buf.len by omega]

theorem headerAt_exists {e : Endian} {b : List Byte} {i : Nat} (h : i + 4 ≤ b.length) :
    ∃ l t, HeaderAt e b i l t := by
  obtain ⟨vl, hvl⟩ := exists_dec16 e b i (by omega)
  obtain ⟨vt, hvt⟩ := exists_dec16 e b (i + 2) (by omega)
  exact ⟨_, _, h, num16_eq e _ _ _ hvl, num16_eq e _ _ _ hvt⟩

theorem headerAt_unique {e : Endian} {b : List Byte} {i l t l' t' : Nat} (h : HeaderAt e b i l t)
    (h' : HeaderAt e b i l' t') : l = l' ∧ t = t' := by
  obtain ⟨_, h1, h2⟩ := h
  obtain ⟨_, h1', h2'⟩ := h'
  rw [h1] at h1'; rw [h2] at h2'
  exact ⟨by simpa using h1', by simpa using h2'⟩

/-! Encoding one attribute, seen by the walk -/

theorem bytes16_eq (e : Endian) (n : Nat) : bytes16 e n = enc16 e (BitVec.ofNat 16 n) := by
  have hi : BitVec.ofNat 8 (n / 256) = hi8 (BitVec.ofNat 16 n) := by
    apply BitVec.eq_of_toNat_eq; rw [hi8_toNat]; simp only [BitVec.toNat_ofNat]; omega
  have lo : BitVec.ofNat 8 n = lo8 (BitVec.ofNat 16 n) := by
    apply BitVec.eq_of_toNat_eq; rw [lo8_toNat]; simp only [BitVec.toNat_ofNat]; omega
  cases e <;> simp [bytes16, enc16, hi, lo]

theorem bytes32_eq (e : Endian) (n : Nat) : bytes32 e n = enc32 e (BitVec.ofNat 32 n) := by
  have h3 : BitVec.ofNat 8 (n / 16777216) = byteOf32 3 (BitVec.ofNat 32 n) := by
    apply BitVec.eq_of_toNat_eq; rw [byteOf32_toNat]; simp only [BitVec.toNat_ofNat]; omega
  have h2 : BitVec.ofNat 8 (n / 65536) = byteOf32 2 (BitVec.ofNat 32 n) := by
    apply BitVec.eq_of_toNat_eq; rw [byteOf32_toNat]; simp only [BitVec.toNat_ofNat]; omega
  have h1 : BitVec.ofNat 8 (n / 256) = byteOf32 1 (BitVec.ofNat 32 n) := by
    apply BitVec.eq_of_toNat_eq; rw [byteOf32_toNat]; simp only [BitVec.toNat_ofNat]; omega
  have h0 : BitVec.ofNat 8 n = byteOf32 0 (BitVec.ofNat 32 n) := by
    apply BitVec.eq_of_toNat_eq; rw [byteOf32_toNat]; simp only [BitVec.toNat_ofNat]; omega
  cases e <;> simp [bytes32, enc32, h0, h1, h2, h3]

theorem bytesI32_eq (e : Endian) (n : Int) : bytesI32 e n = enc32 e (BitVec.ofInt 32 n) := by
  unfold bytesI32
  rw [bytes32_eq]
  congr 1
  apply BitVec.eq_of_toNat_eq
  rw [BitVec.toNat_ofInt]
  simp only [BitVec.toNat_ofNat]
  omega

@[simp] theorem bytes16_length (e : Endian) (n : Nat) : (bytes16 e n).length = 2 := by cases e <;> rfl
@[simp] theorem bytes32_length (e : Endian) (n : Nat) : (bytes32 e n).length = 4 := by cases e <;> rfl

theorem num16_bytes16 (e : Endian) (n : Nat) (hn : n < 65536) (pre rest : List Byte) :
    num16 e (pre ++ bytes16 e n ++ rest) pre.length = some n := by
  have : dec16 e ((pre ++ bytes16 e n ++ rest).drop pre.length) = .ok (BitVec.ofNat 16 n) := by
    rw [List.append_assoc, List.drop_left, bytes16_eq, dec16_enc16]
  rw [num16_eq _ _ _ _ this]
  simp only [BitVec.toNat_ofNat]; congr 1; omega

theorem roundUp4_ge (n : Nat) : n ≤ roundUp4 n := by unfold roundUp4; omega

@[simp] theorem encodeAttr_length (e : Endian) (t : Nat) (p : List Byte) :
    (encodeAttr e t p).length = 4 + roundUp4 p.length := by
  have := roundUp4_ge p.length
  simp [encodeAttr]; omega

theorem headerAt_encodeAttr (e : Endian) (t : Nat) (p : List Byte) (ht : t < 65536)
    (hp : p.length ≤ 65531) (pre rest : List Byte) :
    HeaderAt e (pre ++ encodeAttr e t p ++ rest) pre.length (p.length + 4) t := by
  refine ⟨by simp; omega, ?_, ?_⟩
  · have := num16_bytes16 e (p.length + 4) (by omega) pre
      (bytes16 e t ++ p ++ List.replicate (roundUp4 p.length - p.length) 0 ++ rest)
    simpa [encodeAttr, List.append_assoc] using this
  · have := num16_bytes16 e t ht (pre ++ bytes16 e (p.length + 4))
      (p ++ List.replicate (roundUp4 p.length - p.length) 0 ++ rest)
    simpa [encodeAttr, List.append_assoc] using this

end Verif.Common
