import Verif.Common.Lemmas
/-! Lemmas for running the specification's decoder on symbolic messages. -/
namespace Verif.Spec
open Common

theorem roundUp4_pos {l : Nat} (h : 4 ≤ l) : 4 ≤ roundUp4 l := by unfold roundUp4; omega

/-- More fuel than bytes never changes the result. -/
theorem decodeAttrsN_fuel (e : Endian) : ∀ (n m : Nat) (b : List Byte), b.length ≤ n → b.length ≤ m →
    decodeAttrsN e n b = decodeAttrsN e m b := by
  intro n
  induction n with
  | zero =>
    intro m b hn hm
    have : b = [] := List.length_eq_zero_iff.mp (by omega)
    subst this; cases m <;> rfl
  | succ n ih =>
    intro m b hn hm
    match b, m with
    | [], 0 => rfl
    | [], _ + 1 => rfl
    | x :: xs, 0 => simp at hm
    | x :: xs, m + 1 =>
      unfold decodeAttrsN
      split
      · rename_i l t _ _
        split
        · rename_i hl
          have h4 := roundUp4_pos hl.1
          have hd : ((x :: xs).drop (roundUp4 l)).length ≤ xs.length := by
            rw [List.length_drop]; simp only [List.length_cons]; omega
          simp only [List.length_cons] at hn hm
          rw [ih m _ (by omega) (by omega)]
        · rfl
      · rfl

theorem decodeAttrs_nil (e : Endian) : decodeAttrs e [] = some [] := rfl

theorem decodeAttrsN_step (e : Endian) (n : Nat) (b : List Byte) (l t : Nat) (hb : b ≠ [])
    (h0 : num16 e b 0 = some l) (h2 : num16 e b 2 = some t) (hl : 4 ≤ l ∧ l ≤ b.length) :
    decodeAttrsN e (n + 1) b = (decodeAttrsN e n (b.drop (roundUp4 l))).map
      (⟨t % 16384, decide (t / 32768 % 2 = 1), (b.take l).drop 4⟩ :: ·) := by
  match b, hb with
  | x :: xs, _ =>
    conv => lhs; unfold decodeAttrsN
    rw [h0, h2]
    simp only
    rw [if_pos hl]
    cases decodeAttrsN e n ((x :: xs).drop (roundUp4 l)) <;> rfl

/-- Decode one attribute header built from two words, then go on after the padding. -/
theorem decodeAttrs_cons (e : Endian) (l t : U16) (p tail : List Byte)
    (hl : l.toNat = p.length + 4) :
    decodeAttrs e (enc16 e l ++ enc16 e t ++ p ++ tail)
      = (decodeAttrs e (tail.drop (roundUp4 l.toNat - l.toNat))).map
          (⟨t.toNat % 16384, decide (t.toNat / 32768 % 2 = 1), p⟩ :: ·) := by
  have hlen : (enc16 e l ++ enc16 e t ++ p ++ tail).length = (3 + p.length + tail.length) + 1 := by
    simp; omega
  unfold decodeAttrs
  rw [hlen]
  have h0 : num16 e (enc16 e l ++ enc16 e t ++ p ++ tail) 0 = some l.toNat :=
    num16_eq e _ 0 _ (by simp [List.append_assoc])
  have h2 : num16 e (enc16 e l ++ enc16 e t ++ p ++ tail) 2 = some t.toNat :=
    num16_eq e _ 2 _ (by
      rw [List.append_assoc, List.append_assoc, List.drop_left' (by simp)]; simp)
  have hne : enc16 e l ++ enc16 e t ++ p ++ tail ≠ [] := by
    cases e <;> simp [enc16]
  have hru := roundUp4_ge l.toNat
  have hdrop : (enc16 e l ++ enc16 e t ++ p ++ tail).drop (roundUp4 l.toNat)
      = tail.drop (roundUp4 l.toNat - l.toNat) := by
    rw [List.drop_append, List.drop_eq_nil_of_le (by simp; omega)]
    simp only [List.nil_append]
    congr 1; simp; omega
  have htake : ((enc16 e l ++ enc16 e t ++ p ++ tail).take l.toNat).drop 4 = p := by
    rw [List.take_left' (by simp; omega), List.drop_left' (by simp)]
  rw [decodeAttrsN_step e _ _ _ _ hne h0 h2 ⟨by omega, by rw [hlen]; omega⟩, hdrop, htake]
  rw [decodeAttrsN_fuel e (3 + p.length + tail.length) (tail.drop (roundUp4 l.toNat - l.toNat)).length _
    (by simp; omega) (by simp)]

/-- An attribute whose payload is already a multiple of 4, followed by others. -/
theorem decodeAttrs_cons_aligned (e : Endian) (l t : U16) (p rest : List Byte) (as : List Attr)
    (hl : l.toNat = p.length + 4) (h4 : p.length % 4 = 0) (hr : decodeAttrs e rest = some as) :
    decodeAttrs e (enc16 e l ++ enc16 e t ++ p ++ rest)
      = some (⟨t.toNat % 16384, decide (t.toNat / 32768 % 2 = 1), p⟩ :: as) := by
  rw [decodeAttrs_cons e l t p rest hl]
  have : roundUp4 l.toNat - l.toNat = 0 := by unfold roundUp4; omega
  rw [this]; simp [hr]

/-- The last attribute, without padding inside the message. -/
theorem decodeAttrs_last (e : Endian) (l t : U16) (p : List Byte) (hl : l.toNat = p.length + 4) :
    decodeAttrs e (enc16 e l ++ enc16 e t ++ p)
      = some [⟨t.toNat % 16384, decide (t.toNat / 32768 % 2 = 1), p⟩] := by
  have := decodeAttrs_cons e l t p [] hl
  simpa [decodeAttrs_nil] using this

/-- The 16 header bytes. -/
def hdrBytes (e : Endian) (h : NlMsghdr) : List Byte :=
  enc32 e h.len ++ enc16 e h.type ++ enc16 e h.flags ++ enc32 e h.seq ++ enc32 e h.pid

@[simp] theorem hdrBytes_length (e : Endian) (h : NlMsghdr) : (hdrBytes e h).length = 16 := by
  simp [hdrBytes]

theorem decodeNl_parts (e : Endian) (h : NlMsghdr) (body extra : List Byte)
    (hl : h.len.toNat = 16 + body.length) :
    decodeNl e (hdrBytes e h ++ body ++ extra)
      = some ⟨h.len.toNat, h.type.toNat, h.flags.toNat, h.seq.toNat, h.pid.toNat, body⟩ := by
  unfold decodeNl
  rw [num32_eq e _ 0 h.len (by cases e <;> simp [hdrBytes, enc32, enc16, dec32]),
    num16_eq e _ 4 h.type (by cases e <;> simp [hdrBytes, enc32, enc16, dec16]),
    num16_eq e _ 6 h.flags (by cases e <;> simp [hdrBytes, enc32, enc16, dec16]),
    num32_eq e _ 8 h.seq (by cases e <;> simp [hdrBytes, enc32, enc16, dec32]),
    num32_eq e _ 12 h.pid (by cases e <;> simp [hdrBytes, enc32, enc16, dec32])]
  simp only
  rw [if_pos ⟨by omega, by simp; omega⟩]
  rw [List.take_left' (by simp; omega), List.drop_left' (by simp)]

/-- A message assembled from header, nfgenmsg and attribute bytes decodes to its parts. -/
theorem decodeNf_parts (e : Endian) (h : NlMsghdr) (fam ver : Byte) (rid : U16)
    (ab extra : List Byte) (as : List Attr) (hl : h.len.toNat = 20 + ab.length)
    (ha : decodeAttrs e ab = some as) :
    decodeNf e (hdrBytes e h ++ ([fam, ver] ++ enc16 .big rid) ++ ab ++ extra)
      = some ⟨h.len.toNat, h.type.toNat, h.flags.toNat, h.seq.toNat, h.pid.toNat,
          fam.toNat, ver.toNat, rid.toNat, as⟩ := by
  have hd := decodeNl_parts e h (([fam, ver] ++ enc16 .big rid) ++ ab) extra (by simp; omega)
  rw [← List.append_assoc] at hd
  unfold decodeNf
  rw [hd]
  have h2 : num16 .big ([fam, ver] ++ enc16 .big rid ++ ab) 2 = some rid.toNat :=
    num16_eq .big _ 2 rid (by simp [enc16, dec16])
  have h4 : ([fam, ver] ++ enc16 .big rid ++ ab).drop 4 = ab := by
    rw [List.drop_left' (by simp)]
  simp only [be16, h2, h4, ha]
  simp

end Verif.Spec
