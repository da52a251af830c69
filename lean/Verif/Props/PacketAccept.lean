import Verif.Props.PacketParse
/-!
C50, continued: exactly which buffers `New` accepts when lengths are not validated (the way the log
reader calls it).
-/
namespace Verif.Packet
open Verif.Spec

/-- The transport header at offset `o` of `B` fits both the `n` bytes the IP header announces for it
and the buffer. -/
def TransportFits (B : List Byte) (proto n o : Nat) : Prop :=
  (proto = 6 → 20 ≤ n ∧ o + 18 ≤ B.length) ∧ (proto = 17 → 8 ≤ n ∧ o + 8 ≤ B.length)

/-- The buffers `New` accepts without length validation: an IPv4 header without options, or a complete
header of any other version read as IPv6, whose TCP or UDP header fits.  (An IPv4 total length below 20
is taken modulo 65536.) -/
def Accepts (B : List Byte) : Prop :=
  (byteAt B 0 / 16 = 4 ∧ byteAt B 0 % 16 = 5 ∧ 20 ≤ B.length ∧
    TransportFits B (byteAt B 9) ((numAt B 2 + 65516) % 65536) 20) ∨
  (byteAt B 0 / 16 ≠ 4 ∧ 40 ≤ B.length ∧ TransportFits B (byteAt B 6) (numAt B 4) 40)

theorem bind_accept_iff {r : Res (Packet × Option Err)} :
    (∃ p, (r >>= fun r => Res.ok (some r.1, r.2)) = .ok (some p, none)) ↔ ∃ q, r = .ok (q, none) := by
  rcases r with ⟨q, e⟩ | _ | _ <;> simp

/-- C50. Exactly which buffers `New` accepts when it does not validate lengths. -/
theorem C50_accept_set {h : Heap} {bytes : Slice} (hv : bytes.Valid h) (hcap : bytes.cap = bytes.len)
    (c : U64) (m : List Char) :
    (∃ p, New h c bytes m false = .ok (some p, none)) ↔ Accepts (h.bytes bytes) := by
  have hw : window h bytes = h.bytes bytes := (window_is_the_buffer hv).2 hcap
  have hlen : (h.bytes bytes).length = bytes.len := Heap.bytes_length hv
  rw [New_eq hv, hw]
  generalize hB : h.bytes bytes = B at *
  unfold Accepts TransportFits
  rw [hlen]
  by_cases h0 : bytes.len = 0
  · rw [if_pos h0]
    simp only [reduceCtorEq, exists_false, false_iff]
    omega
  rw [if_neg h0]
  by_cases h4 : u8at B 0 &&& 0xF0 = 0x40
  · have h4n : byteAt B 0 / 16 = 4 := nibble4.mp h4
    rw [if_pos h4, bind_accept_iff]
    simp only [h4n, ne_eq, not_true_eq_false, false_and, or_false, true_and]
    by_cases h20 : 20 ≤ bytes.len
    · by_cases hl : (u8at B 0 &&& 0x0F) * 4 = (20 : Byte)
      · have hln : byteAt B 0 % 16 = 5 := nibble5.mp hl
        rw [parseIPv4_eq hv false h20 (by rw [hw]; exact hl), hw, numAt_eq (by omega)]
        have hc : checkedBuf (u16at B 2) bytes false = some bytes := by simp [checkedBuf]
        rw [hc]
        simp only
        rw [(parseTransport_nat (p := fill4 (start c m .V4) B bytes) hv (by exact hv)).2]
        have hP : (fill4 (start c m .V4) B bytes).ipProto.toNat = byteAt B 9 := rfl
        have e1 : (fill4 (start c m .V4) B bytes).ipTotalLength = u16at B 2 := rfl
        have e2 : (fill4 (start c m .V4) B bytes).ipHeaderLen.toNat = 20 := rfl
        have e3 : (fill4 (start c m .V4) B bytes).buffer.len = bytes.len := rfl
        rw [hP, e1, e2, e3]
        have := (u16at B 2).isLt
        omega
      · have hln : ¬ byteAt B 0 % 16 = 5 := fun hx => hl (nibble5.mpr hx)
        obtain ⟨q, e, he⟩ := parseIPv4_options (p := start c m .V4) (lv := false) hv h20 (by rw [hw]; exact hl)
        rw [he]; simp [hln]
    · obtain ⟨e, he⟩ := parseIPv4_short (h := h) (p := start c m .V4) (lv := false)
        (by omega : bytes.len < 20)
      rw [he]; simp; omega
  · have h4n : ¬ byteAt B 0 / 16 = 4 := fun hx => h4 (nibble4.mpr hx)
    rw [if_neg h4, bind_accept_iff]
    simp only [h4n, false_and, false_or, ne_eq, not_false_eq_true, true_and]
    by_cases hs : bytes.len < 7 ∨ bytes.cap < 40
    · rw [parseIPv6_crash hv hs]
      simp; omega
    · rw [parseIPv6_eq hv false (by omega) (by omega), hw, numAt_eq (by omega)]
      have hT : (40 + u16at B 4 : U16).toNat = (40 + (u16at B 4).toNat) % 65536 := by
        rw [BitVec.toNat_add]; rfl
      have hx := (u16at B 4).isLt
      have hc : checkedBuf (40 + u16at B 4) bytes false = some bytes := by simp [checkedBuf]
      rw [hc]
      simp only [Bool.false_eq_true, false_and, if_false]
      rw [(parseTransport_nat (p := fill6 (start c m .V6) B bytes) hv (by exact hv)).2]
      have e0 : (fill6 (start c m .V6) B bytes).ipProto.toNat = byteAt B 6 := rfl
      have e1 : (fill6 (start c m .V6) B bytes).ipTotalLength.toNat = (40 + (u16at B 4).toNat) % 65536 := hT
      have e2 : (fill6 (start c m .V6) B bytes).ipHeaderLen.toNat = 40 := rfl
      have e3 : (fill6 (start c m .V6) B bytes).buffer.len = bytes.len := rfl
      rw [e0, e1, e2, e3]
      omega

/-- Every ICMP packet with an option-free IPv4 header is accepted. -/
example (B : List Byte) (h0 : B[0]? = some 0x45) (h9 : B[9]? = some 1) (hl : 20 ≤ B.length) : Accepts B := by
  left
  have e0 : byteAt B 0 = 69 := by simp [byteAt, h0]
  have e9 : byteAt B 9 = 1 := by simp [byteAt, h9]
  refine ⟨by omega, by omega, hl, ?_⟩
  rw [e9]; simp [TransportFits]

end Verif.Packet
