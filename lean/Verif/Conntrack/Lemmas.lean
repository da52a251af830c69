import Verif.Conntrack.Spec
import Verif.NfLog.Config
/-! Conntrack: lemmas. -/
namespace Verif.Conntrack
open Common Sys Spec

/-! ### Addresses -/

/-- The four bytes of an IPv4 address, as a number. -/
def v4num (a : List Byte) : U32 :=
  match a with
  | [w, x, y, z] => join32 w x y z
  | _ => 0

theorem length4 {a : List Byte} (h : a.length = 4) : ∃ w x y z, a = [w, x, y, z] := by
  match a, h with
  | [w, x, y, z], _ => exact ⟨w, x, y, z, rfl⟩

theorem ip2int_v4 {ip a : List Byte} (h : IsV4 ip a) : ip2int ip = .ok (v4num a) := by
  obtain ⟨hl, h⟩ := h
  obtain ⟨w, x, y, z, rfl⟩ := length4 hl
  rcases h with rfl | rfl <;> rfl

theorem v4num_inj {a b : List Byte} (ha : a.length = 4) (hb : b.length = 4) (h : v4num a = v4num b) : a = b := by
  obtain ⟨w, x, y, z, rfl⟩ := length4 ha
  obtain ⟨w', x', y', z', rfl⟩ := length4 hb
  have := congrArg BitVec.toNat h
  simp only [v4num, join32_toNat] at this
  have := w.isLt; have := x.isLt; have := y.isLt; have := z.isLt
  have := w'.isLt; have := x'.isLt; have := y'.isLt; have := z'.isLt
  have h1 : w = w' := BitVec.eq_of_toNat_eq (by omega)
  have h2 : x = x' := BitVec.eq_of_toNat_eq (by omega)
  have h3 : y = y' := BitVec.eq_of_toNat_eq (by omega)
  have h4 : z = z' := BitVec.eq_of_toNat_eq (by omega)
  rw [h1, h2, h3, h4]

theorem IsV4.unique {ip a b : List Byte} (h : IsV4 ip a) (h' : IsV4 ip b) : a = b := by
  have h1 := ip2int_v4 h
  have h2 := ip2int_v4 h'
  rw [h1] at h2
  exact v4num_inj h.1 h'.1 (by simpa using h2)

theorem enc32_v4num {a : List Byte} (h : a.length = 4) : enc32 .big (v4num a) = a := by
  obtain ⟨w, x, y, z, rfl⟩ := length4 h
  simp [enc32, v4num]

/-! ### Messages -/

theorem wireBytes_eq (e : Endian) (msg : NetlinkMessage) :
    wireBytes e msg = .ok (hdrBytes e msg.header ++ msg.data) :=
  NfQueue.wireBytes_eq e ⟨msg.header, msg.data⟩

/-- The value of the original tuple: IP (source, destination) and protocol (number, ports). -/
def ipBytes (e : Endian) (c : Conn) : List Byte :=
  enc16 e 8 ++ enc16 e 1 ++ c.src ++ (enc16 e 8 ++ enc16 e 2 ++ c.dst)
def protoBytes (e : Endian) (c : Conn) : List Byte :=
  enc16 e 5 ++ enc16 e 1 ++ [c.proto] ++ ([0, 0, 0] ++ (enc16 e 6 ++ enc16 e 2 ++ enc16 .big c.sport ++
    ([0, 0] ++ (enc16 e 6 ++ enc16 e 3 ++ enc16 .big c.dport ++ [0, 0]))))
def tupleBytes (e : Endian) (c : Conn) : List Byte :=
  enc16 e 20 ++ enc16 e 0x8001 ++ ipBytes e c ++ (enc16 e 28 ++ enc16 e 0x8002 ++ protoBytes e c)
/-- The tuple attribute. -/
def origBytes (e : Endian) (c : Conn) : List Byte := enc16 e 52 ++ enc16 e 0x8001 ++ tupleBytes e c

theorem ipBytes_length (e : Endian) {c : Conn} (hs : c.src.length = 4) (hd : c.dst.length = 4) :
    (ipBytes e c).length = 16 := by simp [ipBytes, hs, hd]
theorem protoBytes_length (e : Endian) (c : Conn) : (protoBytes e c).length = 24 := by simp [protoBytes]
theorem tupleBytes_length (e : Endian) {c : Conn} (hs : c.src.length = 4) (hd : c.dst.length = 4) :
    (tupleBytes e c).length = 48 := by simp [tupleBytes, ipBytes_length e hs hd, protoBytes_length]

/-- `f` writes the four bytes `v` at the front of a fresh buffer. -/
def Writes (f : List Byte → Res (List Byte × Nat)) (v : List Byte) : Prop :=
  v.length = 4 ∧ ∀ m, f (zeros (m + 4)) = .ok (v ++ zeros m, 4)

theorem zeros_split (m : Nat) : zeros (m + 4) = [0, 0, 0, 0] ++ zeros m := rfl

theorem appendAt_writes {f : List Byte → Res (List Byte × Nat)} {v : List Byte} (h : Writes f v)
    (pre : List Byte) (m : Nat) :
    appendAt f (pre ++ zeros (m + 4), pre.length) = .ok ((pre ++ v) ++ zeros m, (pre ++ v).length) := by
  unfold appendAt sliceFrom
  simp only [List.length_append, Nat.le_add_right, if_true, List.drop_left, Res.ok_bind, h.2, List.take_left, h.1,
    List.append_assoc]

theorem writes_attr (e : Endian) (l t : U16) :
    Writes (NfAttr.toWireFormatBuf e ⟨l, t⟩) (enc16 e l ++ enc16 e t) := by
  refine ⟨by simp, fun m => ?_⟩
  unfold NfAttr.toWireFormatBuf
  simp only [zeros_split]
  cases e <;> simp [writeAt, enc16, splice, pure]
theorem writes_v8 (v : Byte) : Writes (value8ToWireFormatBuf v) [v, 0, 0, 0] := by
  refine ⟨by simp, fun m => ?_⟩
  unfold value8ToWireFormatBuf
  simp only [zeros_split]
  simp [writeAt, splice, pure]
theorem writes_v16 (v : U16) : Writes (value16ToWireFormatBuf v) (enc16 .big v ++ [0, 0]) := by
  refine ⟨by simp, fun m => ?_⟩
  unfold value16ToWireFormatBuf
  simp only [zeros_split]
  simp [writeAt, splice, pure, enc16]
theorem writes_v32 (v : U32) : Writes (value32ToWireFormatBuf v) (enc32 .big v) := by
  refine ⟨by simp, fun m => ?_⟩
  unfold value32ToWireFormatBuf
  simp only [zeros_split]
  simp [writeAt, splice, pure, enc32]

theorem bind_ok {α β : Type} {x : Res α} {a : α} {f : α → Res β} {r : Res β} (h : x = .ok a) (h' : f a = r) :
    (x >>= f) = r := by rw [h]; exact h'

/-- The arguments of a call are taken to name the connection `c`. -/
def Taken (env : Env) (ipSrc ipDst : String) (p : Byte) (sp dp : U16) (c : Conn) : Prop :=
  (c.src.length = 4 ∧ ip2int (env.parseIP ipSrc) = .ok (v4num c.src)) ∧
  (c.dst.length = 4 ∧ ip2int (env.parseIP ipDst) = .ok (v4num c.dst)) ∧ p = c.proto ∧ sp = c.sport ∧ dp = c.dport

theorem Names.taken {env : Env} {ipSrc ipDst : String} {p : Byte} {sp dp : U16} {c : Conn}
    (h : Names env ipSrc ipDst p sp dp c) : Taken env ipSrc ipDst p sp dp c :=
  ⟨⟨h.1.1, ip2int_v4 h.1⟩, ⟨h.2.1.1, ip2int_v4 h.2.1⟩, h.2.2⟩

/-- A 16-byte address is taken by its last four bytes. -/
theorem ip2int_16 {ip : List Byte} (h : ip.length = 16) : ip2int ip = .ok (v4num (ip.drop 12)) := by
  match ip, h with
  | [a0, a1, a2, a3, a4, a5, a6, a7, a8, a9, a10, a11, a12, a13, a14, a15], _ => rfl

theorem build_eq (env : Env) {ipSrc ipDst : String} {p : Byte} {sp dp : U16} {c : Conn}
    (h : Taken env ipSrc ipDst p sp dp c) :
    buildConntrackUpdateRequest env ipSrc ipDst p sp dp =
      .ok (⟨72, 0x100, 5, 0, 0⟩, [2, 0, 0, 0] ++ origBytes env.e c) := by
  obtain ⟨h1, h2, rfl, rfl, rfl⟩ := h
  have es := enc32_v4num h1.1
  have ed := enc32_v4num h2.1
  unfold buildConntrackUpdateRequest
  rw [h1.2, h2.2]
  simp only [Res.ok_bind]
  unfold origBytes tupleBytes ipBytes protoBytes
  conv => rhs; rw [← es, ← ed]
  generalize v4num c.src = a
  generalize v4num c.dst = b
  have h0 : (NfqGenMsg.toWireFormatBuf ⟨2, 0, 0⟩ (zeros 56)) = .ok ([2, 0, 0, 0] ++ zeros (48 + 4), [(2 : Byte), 0, 0, 0].length) := rfl
  refine bind_ok h0 ?_
  refine bind_ok (appendAt_writes (writes_attr env.e 52 0x8001) _ (44 + 4)) ?_
  refine bind_ok (appendAt_writes (writes_attr env.e 20 0x8001) _ (40 + 4)) ?_
  refine bind_ok (appendAt_writes (writes_attr env.e 8 1) _ (36 + 4)) ?_
  refine bind_ok (appendAt_writes (writes_v32 a) _ (32 + 4)) ?_
  refine bind_ok (appendAt_writes (writes_attr env.e 8 2) _ (28 + 4)) ?_
  refine bind_ok (appendAt_writes (writes_v32 b) _ (24 + 4)) ?_
  refine bind_ok (appendAt_writes (writes_attr env.e 28 0x8002) _ (20 + 4)) ?_
  refine bind_ok (appendAt_writes (writes_attr env.e 5 1) _ (16 + 4)) ?_
  refine bind_ok (appendAt_writes (writes_v8 c.proto) _ (12 + 4)) ?_
  refine bind_ok (appendAt_writes (writes_attr env.e 6 2) _ (8 + 4)) ?_
  refine bind_ok (appendAt_writes (writes_v16 c.sport) _ (4 + 4)) ?_
  refine bind_ok (appendAt_writes (writes_attr env.e 6 3) _ (0 + 4)) ?_
  refine bind_ok (appendAt_writes (writes_v16 c.dport) _ 0) ?_
  have hh : (buildNfAttrMsg 32769 (buildNfgenMsg 2 0 0 (buildNlMsgHeader 256 5 0)).2 48).2 = ⟨72, 0x100, 5, 0, 0⟩ := rfl
  show Res.ok ((buildNfAttrMsg 32769 (buildNfgenMsg 2 0 0 (buildNlMsgHeader 256 5 0)).2 48).2, _) = _
  rw [hh]
  simp only [zeros, List.replicate_zero, List.append_nil, List.append_assoc]
  rfl

theorem tuple_is (e : Endian) {c : Conn} (hs : c.src.length = 4) (hd : c.dst.length = 4) :
    TupleIs e (tupleBytes e c) c := by
  refine ⟨ipBytes e c, protoBytes e c, ?_, ?_, ?_⟩
  · refine (decodeAttrs_cons_aligned e 20 0x8001 _ _ _ (by rw [ipBytes_length e hs hd]; rfl)
      (by rw [ipBytes_length e hs hd]) (decodeAttrs_last e 28 0x8002 _ (by rw [protoBytes_length]; rfl))).trans ?_
    rfl
  · refine (decodeAttrs_cons_aligned e 8 1 _ _ _ (by rw [hs]; rfl)
      (by rw [hs]) (decodeAttrs_last e 8 2 _ (by rw [hd]; rfl))).trans ?_
    rfl
  · rw [bytes16_eq, bytes16_eq]
    have h3 := decodeAttrs_cons e 6 3 (enc16 .big c.dport) [0, 0] (by simp)
    have h2 := decodeAttrs_cons e 6 2 (enc16 .big c.sport) ([0, 0] ++ (enc16 e 6 ++ enc16 e 3 ++ enc16 .big c.dport ++ [0, 0])) (by simp)
    have h1 := decodeAttrs_cons e 5 1 [c.proto] ([0, 0, 0] ++ (enc16 e 6 ++ enc16 e 2 ++ enc16 .big c.sport ++
      ([0, 0] ++ (enc16 e 6 ++ enc16 e 3 ++ enc16 .big c.dport ++ [0, 0])))) (by simp)
    refine h1.trans ?_
    show (decodeAttrs e (enc16 e 6 ++ enc16 e 2 ++ enc16 .big c.sport ++
      ([0, 0] ++ (enc16 e 6 ++ enc16 e 3 ++ enc16 .big c.dport ++ [0, 0])))).map _ = _
    rw [h2]
    show ((decodeAttrs e (enc16 e 6 ++ enc16 e 3 ++ enc16 .big c.dport ++ [0, 0])).map _).map _ = _
    rw [h3, BitVec.ofNat_toNat, BitVec.ofNat_toNat, BitVec.setWidth_eq, BitVec.setWidth_eq]
    rfl

theorem update_is (e : Endian) {c : Conn} (hs : c.src.length = 4) (hd : c.dst.length = 4) (len : U32)
    {tail : List Byte} {as : List Attr} (ha : decodeAttrs e tail = some as) (hl : len.toNat = 72 + tail.length) :
    UpdateIs e (hdrBytes e ⟨len, 0x100, 5, 0, 0⟩ ++ ([2, 0, 0, 0] ++ origBytes e c ++ tail)) c as := by
  refine ⟨tupleBytes e c, ?_, tuple_is e hs hd⟩
  have hda := decodeAttrs_cons_aligned e 52 0x8001 (tupleBytes e c) tail as
    (by rw [tupleBytes_length e hs hd]; rfl) (by rw [tupleBytes_length e hs hd]) ha
  have := decodeNf_parts e ⟨len, 0x100, 5, 0, 0⟩ 2 0 0 (origBytes e c ++ tail) [] _
    (by simp [origBytes, tupleBytes_length e hs hd, hl]; omega) hda
  have hb : hdrBytes e ⟨len, 0x100, 5, 0, 0⟩ ++ ([2, 0, 0, 0] ++ origBytes e c ++ tail) =
      hdrBytes e ⟨len, 0x100, 5, 0, 0⟩ ++ ([2, 0] ++ enc16 .big 0) ++ (origBytes e c ++ tail) ++ [] := by
    have : enc16 .big 0 = [0, 0] := rfl
    rw [this]; simp
  have hbl : (hdrBytes e ⟨len, 0x100, 5, 0, 0⟩ ++ ([2, 0, 0, 0] ++ origBytes e c ++ tail)).length
      = len.toNat := by
    simp [origBytes, tupleBytes_length e hs hd, hl]; omega
  rw [hbl, hb, this]
  rfl

/-- The bytes of a mark update. -/
def markTail (e : Endian) (mark : U32) : List Byte := enc16 e 8 ++ enc16 e 8 ++ enc32 .big mark
def labelTail (e : Endian) (label : U32) : List Byte := enc16 e 8 ++ enc16 e 22 ++ enc32 e label
/-- What `appendProtoInfo` puts inside CTA_PROTOINFO_TCP. -/
def flagsBytes (e : Endian) : List Byte :=
  enc16 e 4 ++ enc16 e 4 ++ [0x0a, 0x0a, 0, 0] ++ (enc16 e 4 ++ enc16 e 5 ++ [0x0a, 0x0a, 0, 0])
def infoBytes (e : Endian) : List Byte := enc16 e 20 ++ enc16 e 0x8001 ++ flagsBytes e

theorem markMessage_eq (env : Env) {ipSrc ipDst : String} {p : Byte} {sp dp : U16} {c : Conn} (m : U32)
    (h : Taken env ipSrc ipDst p sp dp c) :
    markMessage env ipSrc ipDst p sp dp m =
      .ok (⟨80, 0x100, 5, 0, 0⟩, [2, 0, 0, 0] ++ origBytes env.e c ++ markTail env.e m) := by
  unfold markMessage
  rw [build_eq env h]
  simp only [Res.ok_bind]
  have hm : appendMark env m ⟨72, 0x100, 5, 0, 0⟩ = .ok (markTail env.e m, ⟨80, 0x100, 5, 0, 0⟩) := by
    rcases env with ⟨e, _⟩
    cases e <;> rfl
  rw [hm]
  rfl

theorem labelMessage_eq (env : Env) {ipSrc ipDst : String} {p : Byte} {sp dp : U16} {c : Conn} (m : U32)
    (h : Taken env ipSrc ipDst p sp dp c) (hp : p ≠ 6) :
    labelMessage env ipSrc ipDst p sp dp m =
      .ok (⟨80, 0x100, 5, 0, 0⟩, [2, 0, 0, 0] ++ origBytes env.e c ++ labelTail env.e m) := by
  unfold labelMessage
  rw [build_eq env h]
  simp only [Res.ok_bind]
  rw [if_neg hp]
  have hm : appendLabel env m ⟨72, 0x100, 5, 0, 0⟩ = .ok (labelTail env.e m, ⟨80, 0x100, 5, 0, 0⟩) := by
    rcases env with ⟨e, _⟩
    cases e <;> rfl
  rw [hm]
  rfl

theorem labelMessage_tcp (env : Env) {ipSrc ipDst : String} {sp dp : U16} {c : Conn} (m : U32)
    (h : Taken env ipSrc ipDst 6 sp dp c) :
    labelMessage env ipSrc ipDst 6 sp dp m =
      .ok (⟨104, 0x100, 5, 0, 0⟩, [2, 0, 0, 0] ++ origBytes env.e c ++
        (enc16 env.e 24 ++ enc16 env.e 0x8004 ++ infoBytes env.e ++ labelTail env.e m)) := by
  unfold labelMessage
  rw [build_eq env h]
  simp only [Res.ok_bind]
  simp only [if_true]
  have hi : appendProtoInfo env ⟨72, 0x100, 5, 0, 0⟩ =
      .ok (enc16 env.e 24 ++ enc16 env.e 0x8004 ++ infoBytes env.e, ⟨96, 0x100, 5, 0, 0⟩) := by
    rcases env with ⟨e, _⟩
    cases e <;> rfl
  have hm : appendLabel env m ⟨96, 0x100, 5, 0, 0⟩ = .ok (labelTail env.e m, ⟨104, 0x100, 5, 0, 0⟩) := by
    rcases env with ⟨e, _⟩
    cases e <;> rfl
  rw [hi]
  simp only [Res.ok_bind]
  rw [hm]
  simp

theorem names_len {env : Env} {ipSrc ipDst : String} {p : Byte} {sp dp : U16} {c : Conn}
    (h : Taken env ipSrc ipDst p sp dp c) : c.src.length = 4 ∧ c.dst.length = 4 := ⟨h.1.1, h.2.1.1⟩

theorem markReq_ok (e : Endian) {c : Conn} (hs : c.src.length = 4) (hd : c.dst.length = 4) (m : U32) :
    MarkReq e c m (hdrBytes e ⟨80, 0x100, 5, 0, 0⟩ ++ ([2, 0, 0, 0] ++ origBytes e c ++ markTail e m)) := by
  refine update_is e hs hd 80 ?_ (by simp [markTail])
  rw [bytes32_eq, BitVec.ofNat_toNat, BitVec.setWidth_eq]
  exact decodeAttrs_last e 8 8 (enc32 .big m) (by simp)

theorem labelReq_ok (e : Endian) {c : Conn} (hs : c.src.length = 4) (hd : c.dst.length = 4) (m : U32) :
    LabelReq e c m (hdrBytes e ⟨80, 0x100, 5, 0, 0⟩ ++ ([2, 0, 0, 0] ++ origBytes e c ++ labelTail e m)) := by
  refine update_is e hs hd 80 ?_ (by simp [labelTail])
  rw [bytes32_eq, BitVec.ofNat_toNat, BitVec.setWidth_eq]
  exact decodeAttrs_last e 8 22 (enc32 e m) (by simp)

theorem labelReqTCP_ok (e : Endian) {c : Conn} (hs : c.src.length = 4) (hd : c.dst.length = 4) (m : U32) :
    LabelReqTCP e c m (flagsBytes e) (hdrBytes e ⟨104, 0x100, 5, 0, 0⟩ ++ ([2, 0, 0, 0] ++ origBytes e c ++
        (enc16 e 24 ++ enc16 e 0x8004 ++ infoBytes e ++ labelTail e m))) := by
  refine ⟨infoBytes e, update_is e hs hd 104 ?_ (by simp [labelTail, infoBytes, flagsBytes]), ?_⟩
  · rw [bytes32_eq, BitVec.ofNat_toNat, BitVec.setWidth_eq]
    exact decodeAttrs_cons_aligned e 24 0x8004 _ _ _ (by simp [infoBytes, flagsBytes])
      (by simp [infoBytes, flagsBytes]) (decodeAttrs_last e 8 22 (enc32 e m) (by simp))
  · exact decodeAttrs_last e 20 0x8001 _ (by simp [flagsBytes])

theorem flags_malformed (e : Endian) : decodeAttrs e (flagsBytes e) = none := by
  cases e <;> decide +kernel

end Verif.Conntrack
