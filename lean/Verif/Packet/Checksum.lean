import Verif.Packet.Lemmas
/-! Arithmetic of the Internet checksum. -/
namespace Verif.Packet
open Verif.Spec

/-- Reduction of a sum to 16 bits by end-around carry: 0 only for 0. -/
def red (n : Nat) : Nat := if n = 0 then 0 else (n - 1) % 65535 + 1

theorem red_le (n : Nat) : red n ≤ 65535 := by unfold red; split <;> omega
theorem red_small {n : Nat} (h : n ≤ 65535) : red n = n := by unfold red; split <;> omega
theorem red_pos {n : Nat} (h : 0 < n) : 0 < red n := by unfold red; split <;> omega
theorem red_eq_zero {n : Nat} : red n = 0 ↔ n = 0 := by unfold red; split <;> omega
theorem red_mod (n : Nat) : red n % 65535 = n % 65535 := by unfold red; split <;> omega

theorem red_congr {a b : Nat} (h : a % 65535 = b % 65535) (h0 : a = 0 ↔ b = 0) : red a = red b := by
  unfold red; split <;> split <;> omega

theorem red_add (a b : Nat) : red (red a + b) = red (a + b) := by
  apply red_congr
  · have := red_mod a; omega
  · have := @red_eq_zero a; omega

theorem ocAdd_eq {a b : Nat} (ha : a ≤ 65535) (hb : b ≤ 65535) : ocAdd a b = red (a + b) := by
  unfold ocAdd red; split <;> split <;> omega

theorem foldl_ocAdd (ws : List Nat) (hw : ∀ w ∈ ws, w ≤ 65535) (a : Nat) (ha : a ≤ 65535) :
    ws.foldl ocAdd a = red (a + ws.sum) := by
  induction ws generalizing a with
  | nil => simp [red_small ha]
  | cons w t ih =>
    have h1 : w ≤ 65535 := hw w (by simp)
    rw [List.foldl_cons, ocAdd_eq ha h1, ih (fun x hx => hw x (by simp [hx])) _ (red_le _), red_add,
      List.sum_cons]
    congr 1; omega

theorem words_le (b : List Byte) : ∀ w ∈ words b, w ≤ 65535 := by
  fun_induction words b with
  | case1 x y t ih =>
    intro w hw
    rcases List.mem_cons.mp hw with rfl | h
    · have := x.isLt; have := y.isLt; omega
    · exact ih w h
  | case2 x => intro w hw; simp at hw; have := x.isLt; omega
  | case3 => simp

/-- Sum of the 16-bit words. -/
def wsum (b : List Byte) : Nat := (words b).sum

theorem ocSum_eq (b : List Byte) : ocSum (words b) = red (wsum b) := by
  unfold ocSum wsum
  rw [foldl_ocAdd _ (words_le b) 0 (by omega), Nat.zero_add]

theorem inetChecksum_eq (b : List Byte) : inetChecksum b = 65535 - red (wsum b) := by
  unfold inetChecksum; rw [ocSum_eq]

theorem words_append {a : List Byte} (b : List Byte) (ha : a.length % 2 = 0) :
    words (a ++ b) = words a ++ words b := by
  fun_induction words a with
  | case1 x y t ih => simp only [List.cons_append, words]; rw [ih (by simp at ha; omega)]
  | case2 x => simp at ha
  | case3 => rfl

theorem wsum_append {a : List Byte} (b : List Byte) (ha : a.length % 2 = 0) :
    wsum (a ++ b) = wsum a + wsum b := by
  unfold wsum; rw [words_append b ha, List.sum_append]

@[simp] theorem wsum_nil : wsum [] = 0 := rfl

theorem wsum_le (b : List Byte) : wsum b ≤ (b.length + 1) / 2 * 65535 := by
  unfold wsum
  fun_induction words b with
  | case1 x y t ih =>
    rw [List.sum_cons, List.length_cons, List.length_cons]
    have := x.isLt; have := y.isLt
    have e : (t.length + 1 + 1 + 1) / 2 = (t.length + 1) / 2 + 1 := by omega
    rw [e]; omega
  | case2 x => have := x.isLt; simp; omega
  | case3 => simp

theorem delta_word (a b : Byte) :
    (a.setWidth 32 <<< 8 ||| b.setWidth 32 : U32) = BitVec.ofNat 32 (a.toNat * 256 + b.toNat) := by
  apply BitVec.eq_of_toNat_eq
  have ha := a.isLt
  have hb := b.isLt
  rw [BitVec.toNat_or, BitVec.toNat_shiftLeft, BitVec.toNat_setWidth, BitVec.toNat_setWidth,
    BitVec.toNat_ofNat, Nat.mod_eq_of_lt (by omega : a.toNat < 2 ^ 32),
    Nat.mod_eq_of_lt (by omega : b.toNat < 2 ^ 32), Nat.shiftLeft_eq,
    Nat.mod_eq_of_lt (by omega : a.toNat * 2 ^ 8 < 2 ^ 32)]
  rw [Nat.mod_eq_of_lt (by omega), Nat.mul_comm a.toNat, ← Nat.two_pow_add_eq_or_of_lt hb, Nat.mul_comm]

theorem delta_last (a : Byte) :
    (a.setWidth 32 <<< 8 : U32) = BitVec.ofNat 32 (a.toNat * 256) := by
  apply BitVec.eq_of_toNat_eq
  have ha := a.isLt
  rw [BitVec.toNat_shiftLeft, BitVec.toNat_setWidth,
    BitVec.toNat_ofNat, Nat.mod_eq_of_lt (by omega : a.toNat < 2 ^ 32), Nat.shiftLeft_eq]

theorem checksumDelta_eq (s : U32) (b : List Byte) :
    checksumDelta s b = s + BitVec.ofNat 32 (wsum b) := by
  unfold wsum
  fun_induction checksumDelta s b with
  | case1 s x y t ih =>
    rw [ih, delta_word]
    simp only [words, List.sum_cons]
    rw [BitVec.add_assoc, ← BitVec.ofNat_add]
  | case2 s x => rw [delta_last]; simp [words]
  | case3 s => simp [words]

theorem partialChecksum_eq (s : U32) (b : List Byte) :
    partialChecksum s b = s + BitVec.ofNat 32 (wsum b) := checksumDelta_eq s b

theorem fold_toNat (s : U32) : ((s >>> 16) + (s &&& 0xffff) : U32).toNat = s.toNat / 65536 + s.toNat % 65536 := by
  have h1 : (s >>> 16).toNat = s.toNat / 65536 := by
    rw [BitVec.toNat_ushiftRight, Nat.shiftRight_eq_div_pow]
  have h2 : (s &&& 0xffff).toNat = s.toNat % 65536 := by
    rw [BitVec.toNat_and]
    exact Nat.and_two_pow_sub_one_eq_mod s.toNat 16
  have := s.isLt
  rw [BitVec.toNat_add, h1, h2]; omega

theorem csumConvert_eq (s : U32) :
    ∃ c : U16, csumConvert32To16bit s = .ok c ∧ c.toNat = red s.toNat := by
  unfold csumConvert32To16bit
  induction hn : s.toNat using Nat.strongRecOn generalizing s with
  | _ n ih =>
    rw [loop_unfold, csumConvertBody]
    by_cases h : s > 0xffff
    · rw [if_pos h]
      have h' : 65535 < s.toNat := by simpa [BitVec.lt_def] using h
      simp only
      have e := fold_toNat s
      have := s.isLt
      obtain ⟨c, hc, hr⟩ := ih _ (by omega) ((s >>> 16) + (s &&& 0xffff)) e
      refine ⟨c, hc, ?_⟩
      rw [hr]
      apply red_congr
      · omega
      · omega
    · rw [if_neg h]
      have h' : s.toNat ≤ 65535 := by
        have : ¬ 65535 < s.toNat := by simpa [BitVec.lt_def] using h
        omega
      refine ⟨s.setWidth 16, rfl, ?_⟩
      rw [BitVec.toNat_setWidth, red_small (by omega)]
      omega

theorem not_toNat (c : U16) : (~~~c).toNat = 65535 - c.toNat := by
  rw [BitVec.toNat_not]

theorem finalize_eq (s : U32) :
    ∃ c : U16, finalizeChecksum s = .ok c ∧ c.toNat = 65535 - red s.toNat := by
  obtain ⟨c, hc, hr⟩ := csumConvert_eq s
  refine ⟨~~~c, ?_, ?_⟩
  · unfold finalizeChecksum; rw [hc]; rfl
  · rw [not_toNat, hr]

theorem checksum_eq (b : List Byte) :
    checksum b = finalizeChecksum (BitVec.ofNat 32 (wsum b)) := by
  unfold checksum finalizeChecksum
  rw [checksumDelta_eq]
  simp

/-- Sums of less than 2^32 are summed exactly. -/
theorem finalize_sum {n : Nat} (hn : n < 2 ^ 32) :
    ∃ c : U16, finalizeChecksum (BitVec.ofNat 32 n) = .ok c ∧ c.toNat = 65535 - red n := by
  obtain ⟨c, hc, hr⟩ := finalize_eq (BitVec.ofNat 32 n)
  refine ⟨c, hc, ?_⟩
  rw [hr, BitVec.toNat_ofNat, Nat.mod_eq_of_lt hn]

theorem incCsumBody_eq (s : U32) : incCsumBody s =
    if s.toNat > 65535 then .ok (.next ((s >>> 16) + (s &&& 0xffff))) else .ok (.done s) := by
  unfold incCsumBody
  have hs : ((s >>> 16) &&& (0xffff : U32)) = s >>> 16 := by
    apply BitVec.eq_of_toNat_eq
    rw [BitVec.toNat_and, BitVec.toNat_ushiftRight, Nat.shiftRight_eq_div_pow]
    have := Nat.and_two_pow_sub_one_eq_mod (s.toNat / 2 ^ 16) 16
    have h2 := s.isLt
    refine this.trans (Nat.mod_eq_of_lt ?_)
    omega
  have hc : (s >>> 16 > 0) ↔ s.toNat > 65535 := by
    rw [gt_iff_lt, BitVec.lt_def, BitVec.toNat_ushiftRight, Nat.shiftRight_eq_div_pow]
    simp; omega
  by_cases h : s.toNat > 65535
  · rw [if_pos h, if_pos (hc.mpr h), hs, BitVec.add_comm]
    rfl
  · rw [if_neg h, if_neg (fun x => h (hc.mp x))]

theorem incLoop_eq (s : U32) : ∃ c : U32, loop incCsumBody s = .ok c ∧ c.toNat = red s.toNat := by
  induction hn : s.toNat using Nat.strongRecOn generalizing s with
  | _ n ih =>
    rw [loop_unfold, incCsumBody_eq]
    by_cases h : s.toNat > 65535
    · rw [if_pos h]
      simp only
      have e := fold_toNat s
      have := s.isLt
      obtain ⟨c, hc, hr⟩ := ih _ (by omega) ((s >>> 16) + (s &&& 0xffff)) e
      refine ⟨c, hc, ?_⟩
      rw [hr]
      apply red_congr
      · omega
      · omega
    · rw [if_neg h]
      refine ⟨s, rfl, ?_⟩
      rw [red_small (by omega)]; omega

theorem xor_ffff (c : U16) : (c ^^^ 0xffff).toNat = 65535 - c.toNat := by
  have : (c ^^^ 0xffff) = ~~~c := by
    show c ^^^ BitVec.allOnes 16 = _
    rw [BitVec.xor_allOnes]
  rw [this, not_toNat]

theorem incCsum16_eq (start old new : U16) :
    ∃ c : U16, incCsum16 start old new = .ok c ∧
      c.toNat = 65535 - red ((65535 - start.toNat) + (65535 - old.toNat) + new.toNat) := by
  unfold incCsum16
  obtain ⟨c, hc, hr⟩ := incLoop_eq ((start ^^^ 0xffff).setWidth 32 + (old ^^^ 0xffff).setWidth 32 + new.setWidth 32)
  have e : ((start ^^^ 0xffff).setWidth 32 + (old ^^^ 0xffff).setWidth 32 + new.setWidth 32 : U32).toNat
      = (65535 - start.toNat) + (65535 - old.toNat) + new.toNat := by
    rw [BitVec.toNat_add, BitVec.toNat_add, BitVec.toNat_setWidth, BitVec.toNat_setWidth,
      BitVec.toNat_setWidth, xor_ffff, xor_ffff]
    have := new.isLt
    omega
  rw [e] at hr
  refine ⟨(c ^^^ 0xffff).setWidth 16, ?_, ?_⟩
  · simp only [hc, Res.ok_bind]
  · have hle := red_le ((65535 - start.toNat) + (65535 - old.toNat) + new.toNat)
    rw [← hr] at hle ⊢
    have : (c ^^^ 0xffff).setWidth 16 = (c.setWidth 16) ^^^ (0xffff : U16) := by
      rw [BitVec.setWidth_xor]; rfl
    rw [this, xor_ffff, BitVec.toNat_setWidth]
    omega

end Verif.Packet
