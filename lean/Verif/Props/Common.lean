import Verif.Common.AttrLemmas
/-!
Properties C01–C10: alignment, netlink header / nfgenmsg / attribute codecs.
-/
namespace Verif.Props
open Verif.Spec Verif.Common

/-! ### C01 alignment -/

/-- C01 for the 32-bit helpers: the least multiple of four not below the argument whenever it fits
in 32 bits, 0 for the last three values. (`NlMsgAlign`, `NfaAlign32`.) -/
theorem C01_align32 (n : U32) :
    (n.toNat ≤ 2 ^ 32 - 4 →
      IsRoundUp4 n.toNat (nlMsgAlign n).toNat ∧ IsRoundUp4 n.toNat (nfaAlign32 n).toNat) ∧
    (2 ^ 32 - 4 < n.toNat → nlMsgAlign n = 0 ∧ nfaAlign32 n = 0) := by
  constructor
  · intro h
    rw [nlMsgAlign_toNat, nfaAlign32_toNat, if_pos (by omega)]
    exact ⟨isRoundUp4 _, isRoundUp4 _⟩
  · intro h
    constructor
    · apply BitVec.eq_of_toNat_eq; rw [nlMsgAlign_toNat, if_neg (by omega)]; rfl
    · apply BitVec.eq_of_toNat_eq; rw [nfaAlign32_toNat, if_neg (by omega)]; rfl

/-- C01 for the 16-bit helper `NfaAlign`. -/
theorem C01_align16 (n : U16) :
    (n.toNat ≤ 2 ^ 16 - 4 → IsRoundUp4 n.toNat (nfaAlign n).toNat) ∧
    (2 ^ 16 - 4 < n.toNat → nfaAlign n = 0) := by
  constructor
  · intro h
    rw [nfaAlign_toNat, if_pos (by omega)]
    exact isRoundUp4 _
  · intro h
    apply BitVec.eq_of_toNat_eq; rw [nfaAlign_toNat, if_neg (by omega)]; rfl

/-- C01 for the size helpers: `NlMsgLength` and `NfaLength` add the 16 byte message header and the 4 byte
attribute header, `NlMsgSpace` and `NfaLength` then round up, whenever the result fits. -/
theorem C01_sizes (n : U32) (k : U16) :
    (n.toNat ≤ 2 ^ 32 - 20 → (nlMsgLength n).toNat = 16 + n.toNat ∧
      IsRoundUp4 (16 + n.toNat) (nlMsgSpace n).toNat) ∧
    (k.toNat ≤ 2 ^ 16 - 8 → IsRoundUp4 (4 + k.toNat) (nfaLength k).toNat) := by
  have h16 : nlMsgAlign 16 = 16 := by decide
  refine ⟨fun h => ?_, fun h => ?_⟩
  · have hl : (nlMsgLength n).toNat = 16 + n.toNat := by
      unfold nlMsgLength
      rw [h16, BitVec.toNat_add]
      show (n.toNat + 16) % 2 ^ 32 = _
      omega
    refine ⟨hl, ?_⟩
    have := ((C01_align32 (nlMsgLength n)).1 (by omega)).1
    rw [hl] at this
    exact this
  · have hk : (k + 4).toNat = 4 + k.toNat := by
      rw [BitVec.toNat_add]
      show (k.toNat + 4) % 2 ^ 16 = _
      omega
    have := (C01_align16 (k + 4)).1 (by omega)
    rw [hk] at this
    exact this

example : (5 : U32).toNat ≤ 2 ^ 32 - 4 ∧ nlMsgAlign 5 = 8 ∧ nfaAlign 4 = 4 ∧ nfaAlign 65533 = 0 := by
  decide

/-! ### C02 netlink header round trip -/

theorem serialize_bytes (e : Endian) (h : NlMsghdr) :
    serializeNlMsgHdr e h
      = .ok (enc32 e h.len ++ enc16 e h.type ++ enc16 e h.flags ++ enc32 e h.seq ++ enc32 e h.pid) := by
  cases e <;> rfl

/-- C02: parse after serialise is the identity, for every header and payload, on both byte orders. -/
theorem C02_roundtrip (e : Endian) (h : NlMsghdr) (payload : List Byte) :
    ∃ w, serializeNlMsgHdr e h = .ok w ∧ w.length = 16 ∧
      netlinkMessageToStruct e (w ++ payload) = .ok (some h, payload, none) := by
  refine ⟨_, serialize_bytes e h, by simp, ?_⟩
  unfold netlinkMessageToStruct
  rw [if_neg (by simp; omega)]
  cases h
  cases e <;> simp [enc32, enc16, sliceFrom, dec32, dec16, show ∀ n, 4 ≤ n + 1 + 1 + 1 + 1 + 1 + 1 + 1 + 1 + 1 + 1 + 1 + 1 + 1 + 1 + 1 + 1 by omega]

/-- The serialised header is a header the kernel reads with the same field values. -/
theorem C02_kernel_reads (e : Endian) (h : NlMsghdr) (payload : List Byte)
    (hlen : h.len.toNat = 16 + payload.length) :
    ∃ w, serializeNlMsgHdr e h = .ok w ∧
      decodeNl e (w ++ payload)
        = some ⟨h.len.toNat, h.type.toNat, h.flags.toNat, h.seq.toNat, h.pid.toNat, payload⟩ := by
  refine ⟨_, serialize_bytes e h, ?_⟩
  unfold decodeNl
  rw [num32_eq e _ 0 h.len (by cases e <;> simp [enc32, enc16, dec32]),
    num16_eq e _ 4 h.type (by cases e <;> simp [enc32, enc16, dec16]),
    num16_eq e _ 6 h.flags (by cases e <;> simp [enc32, enc16, dec16]),
    num32_eq e _ 8 h.seq (by cases e <;> simp [enc32, enc16, dec32]),
    num32_eq e _ 12 h.pid (by cases e <;> simp [enc32, enc16, dec32])]
  simp only
  rw [if_pos ⟨by omega, by simp; omega⟩]
  rw [List.take_of_length_le (by simp; omega)]
  rw [List.drop_left' (by simp)]

/-- C02: the in-place variant writes the same 16 bytes at the front, leaves every later byte alone
and reports 16. -/
theorem C02_inplace (e : Endian) (h : NlMsghdr) (buf : List Byte) (hb : 16 ≤ buf.length) :
    ∃ w, serializeNlMsgHdr e h = .ok w ∧
      serializeNlMsgHdrBuf e h buf = .ok (w ++ buf.drop 16, 16) := by
  refine ⟨_, serialize_bytes e h, ?_⟩
  match buf, hb with
  | b0 :: b1 :: b2 :: b3 :: b4 :: b5 :: b6 :: b7 :: b8 :: b9 :: b10 :: b11 :: b12 :: b13 :: b14 :: b15 :: t, _ =>
    have hl : ∀ k, k ≤ 16 → k ≤ t.length + 1 + 1 + 1 + 1 + 1 + 1 + 1 + 1 + 1 + 1 + 1 + 1 + 1 + 1 + 1 + 1 := by
      intro k hk; omega
    cases e <;>
      simp [serializeNlMsgHdrBuf, writeAt, splice, enc32, enc16, hl]

/-- C02: a buffer shorter than a header is rejected with an error, not a crash. -/
theorem C02_short (e : Endian) (buf : List Byte) (hb : buf.length < 16) :
    ∃ err, netlinkMessageToStruct e buf = .ok (none, [], some err) := by
  unfold netlinkMessageToStruct
  rw [if_pos (by omega)]
  exact ⟨_, rfl⟩

/-- C02: on any buffer of at least 16 bytes, whatever it contains, parsing succeeds and re-serialising
the header gives back the first 16 bytes. -/
theorem C02_parse_then_serialize (e : Endian) (buf : List Byte) (hb : 16 ≤ buf.length) :
    ∃ h, netlinkMessageToStruct e buf = .ok (some h, buf.drop 16, none) ∧
      serializeNlMsgHdr e h = .ok (buf.take 16) := by
  match buf, hb with
  | b0 :: b1 :: b2 :: b3 :: b4 :: b5 :: b6 :: b7 :: b8 :: b9 :: b10 :: b11 :: b12 :: b13 :: b14 :: b15 :: t, _ =>
    have hl : ∀ k, k ≤ 16 → k ≤ t.length + 1 + 1 + 1 + 1 + 1 + 1 + 1 + 1 + 1 + 1 + 1 + 1 + 1 + 1 + 1 + 1 := by
      intro k hk; omega
    cases e
    · refine ⟨⟨join32 b3 b2 b1 b0, join16 b5 b4, join16 b7 b6, join32 b11 b10 b9 b8, join32 b15 b14 b13 b12⟩, ?_, ?_⟩
      · unfold netlinkMessageToStruct
        rw [if_neg (by simp)]
        simp [sliceFrom, dec32, dec16, hl]
      · rw [serialize_bytes]; simp [enc32, enc16]
    · refine ⟨⟨join32 b0 b1 b2 b3, join16 b4 b5, join16 b6 b7, join32 b8 b9 b10 b11, join32 b12 b13 b14 b15⟩, ?_, ?_⟩
      · unfold netlinkMessageToStruct
        rw [if_neg (by simp)]
        simp [sliceFrom, dec32, dec16, hl]
      · rw [serialize_bytes]; simp [enc32, enc16]

example : serializeNlMsgHdr .little ⟨20, 0x302, 5, 1, 7⟩
    = .ok [20, 0, 0, 0, 2, 3, 5, 0, 1, 0, 0, 0, 7, 0, 0, 0] := by decide
example : (zeros 3).length < 16 := by decide

/-! ### C03 nfgenmsg -/

/-- C03: always family, version, id-high, id-low, whatever the host byte order. -/
theorem C03_wire (m : NfqGenMsg) :
    m.toWireFormat = .ok ([m.family, m.version] ++ bytes16 .big m.resID.toNat) := by
  rw [bytes16_eq]
  cases m with
  | mk f v r => simp [NfqGenMsg.toWireFormat, copyByte, writeAt, splice, zeros, enc16]

/-- C03: the in-place variant writes those bytes and nothing else. -/
theorem C03_inplace (m : NfqGenMsg) (buf : List Byte) (hb : 4 ≤ buf.length) :
    ∃ w, m.toWireFormat = .ok w ∧ m.toWireFormatBuf buf = .ok (w ++ buf.drop 4, 4) := by
  refine ⟨_, C03_wire m, ?_⟩
  rw [bytes16_eq]
  match buf, hb with
  | b0 :: b1 :: b2 :: b3 :: t, _ =>
    simp [NfqGenMsg.toWireFormatBuf, copyByte, writeAt, splice, enc16]

/-- C03: parsing inverts it and returns the rest. -/
theorem C03_roundtrip (m : NfqGenMsg) (rest : List Byte) :
    ∃ w, m.toWireFormat = .ok w ∧ netlinkMessageToNfGenStruct (w ++ rest) = .ok (m, rest) := by
  refine ⟨_, C03_wire m, ?_⟩
  rw [bytes16_eq]
  cases m with
  | mk f v r =>
    simp [netlinkMessageToNfGenStruct, idx, sliceFrom, enc16, dec16]

/-- C03: parsing crashes exactly on buffers shorter than an nfgenmsg. -/
theorem C03_parse_crash_iff (buf : List Byte) :
    netlinkMessageToNfGenStruct buf = .panic ↔ buf.length < 4 := by
  match buf with
  | [] => simp [netlinkMessageToNfGenStruct, idx]
  | [_] => simp [netlinkMessageToNfGenStruct, idx]
  | [_, _] => simp [netlinkMessageToNfGenStruct, idx, sliceFrom, dec16]
  | [_, _, _] => simp [netlinkMessageToNfGenStruct, idx, sliceFrom, dec16]
  | _ :: _ :: _ :: _ :: t => simp [netlinkMessageToNfGenStruct, idx, sliceFrom, dec16]

example : (⟨2, 0, 0x1234⟩ : NfqGenMsg).toWireFormat = .ok [2, 0, 0x12, 0x34] := by decide

/-! ### C04 attribute builders -/

/-- C04: attribute length = 4 + data, rounded up to 4; the message length grows by exactly that;
nothing else of the header changes. -/
theorem C04_attr (t : U16) (n : NlMsghdr) (dataLen : U32) (hd : dataLen.toNat ≤ 65528)
    (hn : n.len.toNat + roundUp4 (dataLen.toNat + 4) < 2 ^ 32) :
    (buildNfAttrMsg t n dataLen).1.nfaLen.toNat = roundUp4 (dataLen.toNat + 4) ∧
    (buildNfAttrMsg t n dataLen).1.nfaType = t ∧
    (buildNfAttrMsg t n dataLen).2.len.toNat = n.len.toNat + roundUp4 (dataLen.toNat + 4) ∧
    { (buildNfAttrMsg t n dataLen).2 with len := n.len } = n := by
  have hw : (dataLen.setWidth 16).toNat = dataLen.toNat := by
    simp only [BitVec.toNat_setWidth]; omega
  have h1 : (nfaLength (dataLen.setWidth 16)).toNat = roundUp4 (dataLen.toNat + 4) := by
    rw [nfaLength_toNat _ (by omega), hw]
  refine ⟨h1, rfl, ?_, rfl⟩
  simp only [buildNfAttrMsg, BitVec.toNat_add, BitVec.toNat_setWidth, h1]
  have : roundUp4 (dataLen.toNat + 4) < 2 ^ 32 := by omega
  rw [Nat.mod_eq_of_lt this, Nat.mod_eq_of_lt hn]

/-- C04: the nested builder states the same length. -/
theorem C04_nested (t : U16) (dataLen : U64) (hd : dataLen.toNat ≤ 65528) :
    (buildNfNestedAttrMsg t dataLen).nfaLen.toNat = roundUp4 (dataLen.toNat + 4) ∧
    (buildNfNestedAttrMsg t dataLen).nfaType = t := by
  refine ⟨?_, rfl⟩
  have hw : (dataLen.setWidth 16).toNat = dataLen.toNat := by
    simp only [BitVec.toNat_setWidth]; omega
  simp only [buildNfNestedAttrMsg]
  rw [nfaLength_toNat _ (by omega), hw]

/-- C04: the padding builder stores the length verbatim. -/
theorem C04_padding (t : U16) (dataLen : U64) (hd : dataLen.toNat < 65536) :
    (buildNfAttrWithPaddingMsg t dataLen).nfaLen.toNat = dataLen.toNat ∧
    (buildNfAttrWithPaddingMsg t dataLen).nfaType = t := by
  refine ⟨?_, rfl⟩
  simp only [buildNfAttrWithPaddingMsg, BitVec.toNat_setWidth]; omega

/-- C04: the message header built for a netfilter message states 20 bytes once the nfgenmsg is
added, keeps type and flags and zeroes sequence number and port id. -/
theorem C04_header (ty : U64) (fl len : U32) (fam : U64) (ver : Byte) (rid : U16) :
    let r := buildNfgenMsg fam ver rid (buildNlMsgHeader ty fl len)
    r.2.len.toNat = 20 ∧ r.2.type.toNat = ty.toNat % 65536 ∧ r.2.flags.toNat = fl.toNat % 65536 ∧
      r.2.seq = 0 ∧ r.2.pid = 0 ∧ r.1.family.toNat = fam.toNat % 256 ∧ r.1.version = ver ∧
      r.1.resID = rid := by
  refine ⟨rfl, ?_, ?_, rfl, rfl, ?_, rfl, rfl⟩ <;>
    simp [buildNfgenMsg, buildNlMsgHeader, BitVec.toNat_setWidth]

/-- C04: a message header built for a payload of `len` bytes states the payload and the 16 bytes of the header itself. -/
theorem C04_bare_header (ty : U64) (fl len : U32) (hl : len.toNat < 2 ^ 32 - 16) :
    (buildNlMsgHeader ty fl len).len.toNat = len.toNat + 16 ∧
    (buildNlMsgHeader ty fl len).type.toNat = ty.toNat % 65536 ∧
    (buildNlMsgHeader ty fl len).flags.toNat = fl.toNat % 65536 ∧
    (buildNlMsgHeader ty fl len).seq = 0 ∧ (buildNlMsgHeader ty fl len).pid = 0 := by
  refine ⟨?_, by simp [buildNlMsgHeader, BitVec.toNat_setWidth], by simp [buildNlMsgHeader, BitVec.toNat_setWidth], rfl, rfl⟩
  show (nlMsgLength len).toNat = _
  rw [nlMsgLength, BitVec.toNat_add]
  show (len.toNat + 16) % 4294967296 = _
  omega

/-- C04: attribute headers go on the wire in host order and are read back as stated. -/
theorem C04_attr_wire (e : Endian) (a : NfAttr) (rest : List Byte) :
    ∃ w, a.toWireFormat e = .ok w ∧ w.length = 4 ∧
      num16 e (w ++ rest) 0 = some a.nfaLen.toNat ∧ num16 e (w ++ rest) 2 = some a.nfaType.toNat := by
  refine ⟨enc16 e a.nfaLen ++ enc16 e a.nfaType, by cases e <;> rfl, by simp, ?_, ?_⟩
  · exact num16_eq e _ 0 _ (by cases e <;> simp [enc16, dec16])
  · exact num16_eq e _ 2 _ (by cases e <;> simp [enc16, dec16])

example : (13 : U32).toNat ≤ 65528 ∧ (buildNfAttrMsg 7 ⟨20, 0, 0, 0, 0⟩ 13).1 = ⟨20, 7⟩ ∧
    (buildNfAttrMsg 7 ⟨20, 0, 0, 0, 0⟩ 13).2.len = 40 := by decide

/-! ### C05 parser inverts encoding -/

/-- C05: for every list of attributes (payloads up to 65531 bytes) encoded back to back, whatever
the receive buffer and earlier contents of the map, the parser succeeds with no rest; for every
registered type below 11 the data stored is the payload of the last attribute of that type, or what
was stored before when there is none; entries at or above 11, and unregistered types, do not change. -/
theorem C05_parse_encode (e : Endian) (h : Heap) (buf : Slice) (hv : buf.Valid h)
    (hlen : buf.len + 3 < 2 ^ 32) (attrs : List (Nat × List Byte))
    (hall : ∀ a ∈ attrs, a.1 < 65536 ∧ a.2.length ≤ 65531)
    (hb : h.bytes buf = encodeAttrs e attrs) (m : AttrMap) :
    ∃ m', netlinkMessageToNfAttrStruct e h buf m = .ok (m', none, none) ∧
      ∀ k, (m' k).isSome = (m k).isSome ∧
        (∀ old, m k = some old →
          match lastOf k attrs with
          | some p => k < 11 → ∃ s, m' k = some s ∧ h.bytes s = p
          | none => m' k = some old) ∧ (11 ≤ k → m' k = m k) := by
  obtain ⟨m', h1, h2⟩ := attr_roundtrip_aux e h buf hv hlen attrs [] m hall rfl (by simpa using hb)
  refine ⟨m', h1, fun k => ⟨(h2 k).1, fun old ho => ?_, (h2 k).2.2⟩⟩
  have := (h2 k).2.1 old ho
  cases hl : lastOf k attrs with
  | none => rw [hl] at this; exact this
  | some p =>
    rw [hl] at this
    intro hk
    obtain ⟨s, a, b, _⟩ := this hk
    exact ⟨s, a, b⟩

/-- C05: the data stored for an attribute is a part of the buffer itself, not a copy. -/
theorem C05_shares_buffer (e : Endian) (h : Heap) (buf : Slice) (hv : buf.Valid h)
    (hlen : buf.len + 3 < 2 ^ 32) (attrs : List (Nat × List Byte))
    (hall : ∀ a ∈ attrs, a.1 < 65536 ∧ a.2.length ≤ 65531)
    (hb : h.bytes buf = encodeAttrs e attrs) (m m' : AttrMap)
    (hr : netlinkMessageToNfAttrStruct e h buf m = .ok (m', none, none)) (k : Nat) (hk : k < 11)
    (hm : (m k).isSome) {p : List Byte} (hp : lastOf k attrs = some p) :
    ∃ s, m' k = some s ∧ h.bytes s = p ∧ s.arr = buf.arr ∧ buf.off ≤ s.off ∧
      s.off + s.len ≤ buf.off + buf.len := by
  obtain ⟨m2, h1, h2⟩ := attr_roundtrip_aux e h buf hv hlen attrs [] m hall rfl (by simpa using hb)
  have he : netlinkMessageToNfAttrStruct e h buf m = .ok (m2, none, none) := h1
  rw [hr] at he
  cases he
  obtain ⟨old, ho⟩ := Option.isSome_iff_exists.mp hm
  have := (h2 k).2.1 old ho
  rw [hp] at this
  exact this hk

/-- A buffer and attribute list meeting the hypotheses of C05. -/
example : ∃ (h : Heap) (buf : Slice), buf.Valid h ∧ buf.len + 3 < 2 ^ 32 ∧
    (∀ a ∈ [(3, [1, 2, 3, 4]), (10, [9, 9, 9]), (77, ([] : List Byte))], a.1 < 65536 ∧ a.2.length ≤ 65531) ∧
    h.bytes buf = encodeAttrs .little [(3, [1, 2, 3, 4]), (10, [9, 9, 9]), (77, [])] := by
  refine ⟨⟨[encodeAttrs .little [(3, [1, 2, 3, 4]), (10, [9, 9, 9]), (77, [])]]⟩, ⟨0, 0, 20, 20⟩, ?_⟩
  refine ⟨?_, by decide, by decide, by decide⟩
  unfold Slice.Valid; decide

/-! ### C06, C07: arbitrary buffers -/

/-- C06: on every buffer (below 4 GiB), whenever the parser returns: it reports an error — always
"Bad Attr" — exactly when the walk over the attributes reaches a header whose stated length runs
past the end of the buffer. -/
theorem C06_bad_attr_iff (e : Endian) (h : Heap) (buf : Slice) (hv : buf.Valid h)
    (hlen : buf.len + 3 < 2 ^ 32) (m m' : AttrMap) (rest : Option Slice) (err : Option Err)
    (hr : netlinkMessageToNfAttrStruct e h buf m = .ok (m', rest, err)) :
    (err ≠ none ↔ ∃ j l t, Visits e (h.bytes buf) 0 j ∧ HeaderAt e (h.bytes buf) j l t ∧
      buf.len < j + l) ∧
    (err = none ∨ err = some (.msg "Bad Attr")) ∧ rest = none := by
  obtain ⟨r1, r2, _⟩ := (attr_walk_aux e h buf hv hlen buf.len 0 m rfl (by omega)).2 m' rest err hr
  rcases r2 with ⟨rfl, hex⟩ | ⟨rfl, hall⟩
  · exact ⟨⟨fun _ => hex, fun _ => by simp⟩, Or.inr rfl, r1⟩
  · refine ⟨⟨fun h => (h rfl).elim, ?_⟩, Or.inl rfl, r1⟩
    rintro ⟨j, l, t, a, b, c⟩
    have := hall j l t a b; omega

/-- C06: whenever the parser returns, each entry of the map either is what it was, or points inside
the buffer: at the payload of an attribute of that type which the walk visits. -/
theorem C06_inside (e : Endian) (h : Heap) (buf : Slice) (hv : buf.Valid h)
    (hlen : buf.len + 3 < 2 ^ 32) (m m' : AttrMap) (rest : Option Slice) (err : Option Err)
    (hr : netlinkMessageToNfAttrStruct e h buf m = .ok (m', rest, err)) (k : Nat) :
    (m' k).isSome = (m k).isSome ∧ (m' k = m k ∨
      ∃ j l s, Visits e (h.bytes buf) 0 j ∧ HeaderAt e (h.bytes buf) j l k ∧ 4 ≤ l ∧ j + l ≤ buf.len ∧
        m' k = some s ∧ s.Valid h ∧ h.bytes s = ((h.bytes buf).take (j + l)).drop (j + 4)) := by
  obtain ⟨_, _, r3⟩ := (attr_walk_aux e h buf hv hlen buf.len 0 m rfl (by omega)).2 m' rest err hr
  obtain ⟨q1, q2⟩ := r3 k
  refine ⟨q1, ?_⟩
  rcases q2 with q2 | ⟨j, l, a, b, _, c, d, f⟩
  · exact Or.inl q2
  · right
    have hs : buf.sub (j + 4) (j + l) = .ok ⟨buf.arr, buf.off + (j + 4), l - 4, buf.cap - (j + 4)⟩ := by
      rw [Slice.sub_eq_ok]
      have := hv.1
      refine ⟨by omega, by omega, ?_⟩
      congr 1; omega
    refine ⟨j, l, _, a, b, c, d, f, Slice.sub_valid hv hs, ?_⟩
    rw [Heap.bytes_sub hs d, List.drop_take]

/-- C07 (partial: the full claim "returns on every buffer" is false, see `C07_loops_forever` and
`C07_crashes`): the parser returns exactly on the buffers whose walk meets no header with stated length
0 and no header with stated length below 4 for a registered type. -/
theorem C07_returns_iff_partial (e : Endian) (h : Heap) (buf : Slice) (hv : buf.Valid h)
    (hlen : buf.len + 3 < 2 ^ 32) (m : AttrMap) :
    (∃ r, netlinkMessageToNfAttrStruct e h buf m = .ok r) ↔
      ∀ j l t, Visits e (h.bytes buf) 0 j → HeaderAt e (h.bytes buf) j l t → j + l ≤ buf.len →
        ¬ (l = 0 ∨ (l < 4 ∧ t < 11 ∧ (m t).isSome)) :=
  (attr_walk_aux e h buf hv hlen buf.len 0 m rfl (by omega)).1

/-- C07: in particular it returns on every buffer whose attribute lengths are all at least 4. -/
theorem C07_returns_partial (e : Endian) (h : Heap) (buf : Slice) (hv : buf.Valid h)
    (hlen : buf.len + 3 < 2 ^ 32) (m : AttrMap)
    (h4 : ∀ j l t, Visits e (h.bytes buf) 0 j → HeaderAt e (h.bytes buf) j l t → 4 ≤ l) :
    ∃ r, netlinkMessageToNfAttrStruct e h buf m = .ok r := by
  rw [C07_returns_iff_partial e h buf hv hlen]
  intro j l t hj hh _
  have := h4 j l t hj hh
  omega

/-- C07 is violated: every buffer that starts with a zero-length attribute of an unregistered type
makes the parser loop forever. -/
theorem C07_loops_forever (e : Endian) (h : Heap) (buf : Slice) (hv : buf.Valid h)
    (hlen : buf.len + 3 < 2 ^ 32) (m : AttrMap) (t : Nat)
    (hh : HeaderAt e (h.bytes buf) 0 0 t) (ht : 11 ≤ t ∨ m t = none) :
    netlinkMessageToNfAttrStruct e h buf m = .diverge := by
  have hbody := attrBody_at (m := m) hv hlen hh
  rw [if_pos (by omega), if_neg (by rcases ht with ht | ht <;> simp [ht]; omega)] at hbody
  apply loop_diverge_of_inv (fun s => s = (0, m)) _ rfl
  rintro s rfl
  exact ⟨(0, m), by rw [hbody]; rfl, rfl⟩

/-- C07 is violated: every buffer that starts with an attribute of a registered type stating a
length below 4 crashes the parser. -/
theorem C07_crashes (e : Endian) (h : Heap) (buf : Slice) (hv : buf.Valid h)
    (hlen : buf.len + 3 < 2 ^ 32) (m : AttrMap) (l t : Nat)
    (hh : HeaderAt e (h.bytes buf) 0 l t) (hl : l < 4) (ht : t < 11) (hm : (m t).isSome) :
    netlinkMessageToNfAttrStruct e h buf m = .panic := by
  have hbody := attrBody_at (m := m) hv hlen hh
  have h4 := hh.1
  rw [Heap.bytes_length hv] at h4
  rw [if_pos (by omega), if_pos ⟨ht, hm⟩, if_pos hl] at hbody
  unfold netlinkMessageToNfAttrStruct
  rw [loop_unfold, hbody]

/-- Four zero bytes: a buffer on which the parser loops forever; `[2,0,1,0]`: one that crashes it
when type 1 is registered. -/
example : ∃ (h : Heap) (buf : Slice), buf.Valid h ∧ HeaderAt .little (h.bytes buf) 0 0 0 := by
  refine ⟨⟨[[0, 0, 0, 0]]⟩, ⟨0, 0, 4, 4⟩, ?_⟩
  unfold Slice.Valid HeaderAt; decide
example : ∃ (h : Heap) (buf : Slice), buf.Valid h ∧ HeaderAt .little (h.bytes buf) 0 2 1 := by
  refine ⟨⟨[[2, 0, 1, 0]]⟩, ⟨0, 0, 4, 4⟩, ?_⟩
  unfold Slice.Valid HeaderAt; decide

/-! ### C08 IPv4 addresses -/

/-- C08: integer to address and back. -/
theorem C08_int_roundtrip (n : U32) : ∃ ip, int2ip n = .ok ip ∧ ip.length = 4 ∧
    ip2int ip = .ok n ∧ be32 ip 0 = some n.toNat := by
  refine ⟨enc32 .big n, by rfl, by simp, ?_, ?_⟩
  · unfold ip2int; rw [if_neg (by simp)]; exact dec32_enc32' _ _
  · exact num32_eq _ _ 0 _ (by simpa using dec32_enc32' .big n)

/-- C08: address to integer and back, for 4-byte addresses. -/
theorem C08_ip_roundtrip (ip : List Byte) (h : ip.length = 4) :
    ∃ n, ip2int ip = .ok n ∧ int2ip n = .ok ip := by
  match ip, h with
  | [a, b, c, d], _ =>
    exact ⟨join32 a b c d, by simp [ip2int, dec32], by simp [int2ip, writeAt, zeros, splice, enc32]⟩

/-- C08: a 16-byte address converts to the integer of its last four bytes. -/
theorem C08_16 (pre last : List Byte) (h1 : pre.length = 12) (h2 : last.length = 4) :
    ip2int (pre ++ last) = ip2int last := by
  unfold ip2int
  rw [if_pos (by simp; omega), if_neg (by omega)]
  unfold slice
  rw [if_pos (by simp; omega)]
  simp only [Res.ok_bind]
  rw [List.drop_left' h1, List.take_of_length_le (by omega)]

/-- C08: an address of fewer than 4 bytes (nil included) crashes; every other one converts. -/
theorem C08_crash_iff (ip : List Byte) : ip2int ip = .panic ↔ ip.length < 4 := by
  unfold ip2int
  split
  · rename_i h
    unfold slice
    rw [if_pos (by omega)]
    simp only [Res.ok_bind, dec32_panic_iff]
    simp [h]
  · exact dec32_panic_iff _ _

example : ip2int [10, 1, 2, 3] = .ok 0x0a010203 ∧ ip2int [] = .panic := by decide

/-! ### C09 netlink errors -/

/-- C09: the kernel's error message (signed code in host order, then the echoed header) decodes to
that code and that header. -/
theorem C09_error (e : Endian) (code : Int) (hc : -2 ^ 31 ≤ code ∧ code < 2 ^ 31) (h : NlMsghdr)
    (rest : List Byte) :
    ∃ w, serializeNlMsgHdr e h = .ok w ∧
      netlinkErrMessagetoStruct e (bytesI32 e code ++ w ++ rest) = .ok (some h, code) := by
  obtain ⟨w, hw, _, hrt⟩ := C02_roundtrip e h rest
  refine ⟨w, hw, ?_⟩
  rw [bytesI32_eq]
  unfold netlinkErrMessagetoStruct
  rw [List.append_assoc, dec32_enc32]
  simp only [Res.ok_bind]
  unfold sliceFrom
  rw [if_pos (by simp)]
  simp only [Res.ok_bind]
  rw [List.drop_left' (by simp), hrt]
  simp only [Res.ok_bind, Res.pure_eq]
  rw [BitVec.toInt_ofInt, Int.bmod_eq_of_le (by omega) (by omega)]

/-- C09: with 4..19 bytes the code is still decoded; the header is nil. -/
theorem C09_short (e : Endian) (code : Int) (hc : -2 ^ 31 ≤ code ∧ code < 2 ^ 31)
    (rest : List Byte) (hr : rest.length < 16) :
    netlinkErrMessagetoStruct e (bytesI32 e code ++ rest) = .ok (none, code) := by
  rw [bytesI32_eq]
  unfold netlinkErrMessagetoStruct
  rw [dec32_enc32]
  simp only [Res.ok_bind]
  unfold sliceFrom
  rw [if_pos (by simp)]
  simp only [Res.ok_bind]
  rw [List.drop_left' (by simp)]
  unfold netlinkMessageToStruct
  rw [if_pos (by omega)]
  simp only [Res.ok_bind, Res.pure_eq]
  rw [BitVec.toInt_ofInt, Int.bmod_eq_of_le (by omega) (by omega)]

/-- C09: it crashes exactly on fewer than 4 bytes. -/
theorem C09_crash_iff (e : Endian) (b : List Byte) :
    netlinkErrMessagetoStruct e b = .panic ↔ b.length < 4 := by
  unfold netlinkErrMessagetoStruct
  by_cases h : b.length < 4
  · rw [(dec32_panic_iff e b).mpr h]; simp [h]
  · obtain ⟨v, hv⟩ := (dec32_ok_iff e b).mpr (by omega)
    rw [hv]
    simp only [Res.ok_bind]
    unfold sliceFrom
    rw [if_pos (by omega)]
    simp only [Res.ok_bind]
    by_cases h2 : (b.drop 4).length < 16
    · obtain ⟨err, he⟩ := C02_short e _ h2
      rw [he]; simp; omega
    · obtain ⟨hd, he, _⟩ := C02_parse_then_serialize e (b.drop 4) (by omega)
      rw [he]; simp; omega

/-- EPERM (-1) with an echoed header on a little-endian host. -/
example : netlinkErrMessagetoStruct .little
    [255, 255, 255, 255, 20, 0, 0, 0, 2, 3, 5, 0, 0, 0, 0, 0, 0, 0, 0, 0]
      = .ok (some ⟨20, 0x302, 5, 0, 0⟩, -1) := by decide

/-! ### C10 fixed-size values -/

/-- C10: four bytes, the value big-endian from the first byte, zero padding. -/
theorem C10_values (v8 : Byte) (v16 : U16) (v32 : U32) :
    value8ToWireFormat v8 = .ok ([v8] ++ zeros 3) ∧
    value16ToWireFormat v16 = .ok (bytes16 .big v16.toNat ++ zeros 2) ∧
    value32ToWireFormat v32 = .ok (bytes32 .big v32.toNat) := by
  rw [bytes16_eq, bytes32_eq]
  refine ⟨by rfl, ?_, ?_⟩
  · simp [value16ToWireFormat, writeAt, splice, zeros, enc16]
  · simp [value32ToWireFormat, writeAt, splice, zeros, enc32]

/-- C10: the in-place variants overwrite only the bytes of the value and report 4. -/
theorem C10_inplace (v8 : Byte) (v16 : U16) (v32 : U32) (buf : List Byte) (hb : 4 ≤ buf.length) :
    value8ToWireFormatBuf v8 buf = .ok ([v8] ++ buf.drop 1, 4) ∧
    value16ToWireFormatBuf v16 buf = .ok (bytes16 .big v16.toNat ++ buf.drop 2, 4) ∧
    value32ToWireFormatBuf v32 buf = .ok (bytes32 .big v32.toNat ++ buf.drop 4, 4) := by
  rw [bytes16_eq, bytes32_eq]
  match buf, hb with
  | b0 :: b1 :: b2 :: b3 :: t, _ =>
    refine ⟨?_, ?_, ?_⟩
    · simp [value8ToWireFormatBuf, writeAt, splice]
    · simp [value16ToWireFormatBuf, writeAt, splice, enc16]
    · simp [value32ToWireFormatBuf, writeAt, splice, enc32]

example : value16ToWireFormat 0x1234 = .ok [0x12, 0x34, 0, 0] := by decide

/-- C74: the two parts of a message type are its two bytes. -/
theorem C74_type_split (h : NlMsghdr) :
    (nlMsgSubsysID h).toNat = h.type.toNat / 256 ∧ (nlMsgType h).toNat = h.type.toNat % 256 ∧
      h.type.toNat = 256 * (nlMsgSubsysID h).toNat + (nlMsgType h).toNat := by
  have hlt := h.type.isLt
  have hm : (nlMsgType h).toNat = h.type.toNat % 256 := by
    unfold nlMsgType
    rw [BitVec.toNat_and]
    exact Nat.and_two_pow_sub_one_eq_mod _ 8
  have hs : (nlMsgSubsysID h).toNat = h.type.toNat / 256 := by
    unfold nlMsgSubsysID
    have : (h.type &&& 0xff00) >>> 8 = h.type >>> 8 := by
      apply BitVec.eq_of_getLsbD_eq
      intro i hi
      rw [BitVec.getLsbD_ushiftRight, BitVec.getLsbD_ushiftRight, BitVec.getLsbD_and]
      have hc : i < 8 ∨ 8 ≤ i := by omega
      rcases hc with hc | hc
      · have : (0xff00 : BitVec 16).getLsbD (8 + i) = true := by
          have : i = 0 ∨ i = 1 ∨ i = 2 ∨ i = 3 ∨ i = 4 ∨ i = 5 ∨ i = 6 ∨ i = 7 := by omega
          rcases this with h | h | h | h | h | h | h | h <;> subst h <;> rfl
        rw [this, Bool.and_true]
      · rw [BitVec.getLsbD_of_ge h.type (8 + i) (by omega)]; simp
    rw [this, BitVec.toNat_ushiftRight, Nat.shiftRight_eq_div_pow]
  exact ⟨hs, hm, by omega⟩

example : (nlMsgSubsysID ⟨0, 0x0302, 0, 0, 0⟩).toNat = 3 := by decide

end Verif.Props
