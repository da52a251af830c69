import Verif.NfQueue.Lemmas
import Verif.Go.HeapLemmas
import Verif.Props.Common
/-! What the verdict calls send, and what they do to memory. -/
namespace Verif.NfQueue
open Common Sys Spec

/-- Number of padding bytes for a 16-bit packet length. -/
def padOf (plen : U16) : Nat := (nfaAlign plen - plen).toNat

theorem padOf_eq (plen : U16) :
    padOf plen = roundUp4 plen.toNat - plen.toNat := by
  unfold padOf roundUp4
  rw [BitVec.toNat_sub, nfaAlign_toNat]
  have := plen.isLt
  split <;> omega

theorem padOf_lt (plen : U16) : padOf plen < 4 := by rw [padOf_eq]; unfold roundUp4; omega

/-- The header `SetVerdict2` assembles. -/
def v2Head (e : Endian) (qn : U16) (verdict mark id : U32) (plen : U16) : List Byte :=
  hdrBytes e ⟨40 + (plen + 4).setWidth 32, 0x301, 1, 0, 0⟩ ++ ([0, 0] ++ enc16 .big qn)
    ++ ((enc16 e 12 ++ enc16 e 2 ++ (enc32 .big verdict ++ enc32 e id))
      ++ (enc16 e 8 ++ enc16 e 3 ++ enc32 .big mark))

/-- The message `SetVerdict2` sends. -/
def v2Bytes (e : Endian) (qn : U16) (verdict mark id : U32) (plen : U16) (packet : List Byte) : List Byte :=
  v2Head e qn verdict mark id plen ++ (enc16 e (plen + 4) ++ enc16 e 10) ++ (packet ++ zeros (padOf plen))

/-- The message `SetVerdict` sends. -/
def v1Bytes (e : Endian) (qn : U16) (verdict id : U32) (plen : U16) (payload : List Byte) : List Byte :=
  hdrBytes e ⟨32 + (nfaLength plen).setWidth 32, 0x301, 1, 0, 0⟩ ++ ([0, 0] ++ enc16 .big qn)
    ++ (enc16 e 12 ++ enc16 e 2 ++ (enc32 .big verdict ++ enc32 e id))
    ++ (enc16 e (nfaLength plen) ++ enc16 e 10) ++ payload

/-- `SetVerdict2`'s state: socket open, private scratch buffer of 40 bytes. -/
def VReady (w : W) (qh : Handle) : Prop :=
  w.st.handle = some qh ∧ w.st.hdrSlice.Valid w.heap ∧ w.st.hdrSlice.len = 40

theorem fillFrom_spec {s : Slice} {i : Nat} {f : List Byte → Res (List Byte × Nat)} {w : W}
    {b' : List Byte} {n : Nat} (hv : s.Valid w.heap) (hi : i ≤ s.len)
    (hf : f ((w.heap.bytes s).drop i) = .ok (b', n)) (hl : b'.length = s.len - i) :
    fillFrom s i f w = .ok (n, { w with heap := w.heap.write s.arr (s.off + i) b' }) ∧
      s.Valid (w.heap.write s.arr (s.off + i) b') ∧
      (w.heap.write s.arr (s.off + i) b').bytes s = (w.heap.bytes s).take i ++ b' ∧
      (∀ t : Slice, t.Valid w.heap → t.arr ≠ s.arr →
        t.Valid (w.heap.write s.arr (s.off + i) b') ∧
        (w.heap.write s.arr (s.off + i) b').bytes t = w.heap.bytes t) := by
  have hb : s.off + i + b'.length ≤ (w.heap.arrayOf s.arr).length := by
    have := hv.1; have := hv.2; omega
  have hfrom : s.from' i = .ok ⟨s.arr, s.off + i, s.len - i, s.cap - i⟩ := by
    unfold Slice.from'
    rw [Slice.sub_eq_ok]; exact ⟨hi, hv.1, rfl⟩
  refine ⟨?_, hv.write hb, ?_, ?_⟩
  · unfold fillFrom
    simp only [GoM.bind_apply, GoM.lift_apply, hfrom, Res.ok_bind, readBytes]
    rw [Heap.bytes_from hfrom, hf]
    simp only [Res.ok_bind, putBytes, GoM.pure_apply]
  · rw [Heap.bytes_write_inside hv (by omega)]
    unfold splice
    rw [List.drop_eq_nil_of_le]
    · simp
    · rw [Heap.bytes_length hv]; omega
  · intro t ht hne
    exact ⟨ht.write hb, Heap.bytes_write_disjoint hb (Or.inl (fun h => hne h.symm))⟩

theorem attrBuf_eq (e : Endian) (a : NfAttr) (b : List Byte) (hb : 4 ≤ b.length) :
    a.toWireFormatBuf e b = .ok (enc16 e a.nfaLen ++ enc16 e a.nfaType ++ b.drop 4, 4) := by
  match b, hb with
  | b0 :: b1 :: b2 :: b3 :: t, _ =>
    cases e <;> simp [NfAttr.toWireFormatBuf, writeAt, splice, enc16]

theorem verdictBuf_eq (e : Endian) (v id : U32) (b : List Byte) (hb : 8 ≤ b.length) :
    verdictHdrWireBuf e v id b = .ok (enc32 .big v ++ enc32 e id ++ b.drop 8, 8) := by
  match b, hb with
  | b0 :: b1 :: b2 :: b3 :: b4 :: b5 :: b6 :: b7 :: t, _ =>
    have : ∀ k, k ≤ 8 → k ≤ t.length + 1 + 1 + 1 + 1 + 1 + 1 + 1 + 1 := by intro k hk; omega
    cases e <;> simp [verdictHdrWireBuf, writeAt, splice, enc32, this]

theorem markBuf_eq (v : U32) (b : List Byte) (hb : 4 ≤ b.length) :
    markHdrWireBuf v b = .ok (enc32 .big v ++ b.drop 4, 4) := by
  match b, hb with
  | b0 :: b1 :: b2 :: b3 :: t, _ => simp [markHdrWireBuf, writeAt, splice, enc32]

theorem nfgenBuf_eq (m : NfqGenMsg) (b : List Byte) (hb : 4 ≤ b.length) :
    m.toWireFormatBuf b = .ok ([m.family, m.version] ++ enc16 .big m.resID ++ b.drop 4, 4) := by
  obtain ⟨w, h1, h2⟩ := Props.C03_inplace m b hb
  rw [Props.C03_wire, bytes16_eq] at h1
  simp only [Res.ok.injEq] at h1
  rw [h2, ← h1]; simp

theorem hdrBuf_eq (e : Endian) (h : NlMsghdr) (b : List Byte) (hb : 16 ≤ b.length) :
    serializeNlMsgHdrBuf e h b = .ok (hdrBytes e h ++ b.drop 16, 16) := by
  obtain ⟨w, h1, h2⟩ := Props.C02_inplace e h b hb
  rw [Props.serialize_bytes] at h1
  simp only [Res.ok.injEq] at h1
  rw [h2, ← h1]; rfl

/-- Reading an iovec that stays inside its slice. -/
theorem Iov.read_eq (env : Env) {h : Heap} {s : Slice} (hv : s.Valid h) (n : Nat) (hn : n ≤ s.len) :
    Iov.read env h ⟨s.arr, s.off, n⟩ = (h.bytes s).take n := by
  have hl : ((h.arrayOf s.arr).drop s.off).length ≥ n := by
    have := hv.1; have := hv.2; rw [List.length_drop]; omega
  unfold Iov.read Heap.bytes
  have : n - (((h.arrayOf s.arr).drop s.off).take n).length = 0 := by
    rw [List.length_take]; omega
  simp only [this, List.range_zero, List.map_nil, List.append_nil, List.take_take]
  congr 1; omega

theorem sendmsg_spec (env : Env) (K : Kernel QEv) (fd : Nat) (iovs : List Iov) (w : W) :
    ∃ r, sendmsg env K fd iovs w = .ok ((), { w with trace := w.trace ++
      [.sendmsg fd (iovs.flatMap (Iov.read env w.heap)) r] }) := by
  unfold sendmsg
  rcases h : K.send w.trace fd (iovs.flatMap (Iov.read env w.heap)) with _ | e
  · exact ⟨none, by simp [syscallSendmsg, rawSendmsg, h, World.log]⟩
  · exact ⟨some e, by simp [syscallSendmsg, rawSendmsg, h, World.log]⟩

/-- Relation between the memory before and after a verdict call: every slice outside the scratch
buffer stays valid and, unless it reaches into the padding written right after the packet
(inside its capacity), keeps its contents. -/
def MemOk (h h' : Heap) (scratch packet : Slice) (pad : Nat) : Prop :=
  (∀ t : Slice, t.Valid h → t.arr ≠ scratch.arr → t.Valid h' ∧
    ((t.arr ≠ packet.arr ∨ t.off + t.len ≤ packet.off + packet.len ∨
      packet.off + packet.len + pad ≤ t.off ∨ packet.cap < packet.len + pad) → h'.bytes t = h.bytes t)) ∧
  (packet.len + pad ≤ packet.cap →
    h'.bytes { packet with len := packet.len + pad } = h.bytes packet ++ zeros pad)

/-- Appending the padding, if any. -/
theorem padPacket_spec (env : Env) {w : W} {packet : Slice} (hv : packet.Valid w.heap) (pad : Nat) :
    ∃ p' h', padPacket env packet pad w
        = .ok (p', { w with heap := h' }) ∧
      h'.bytes p' = w.heap.bytes packet ++ zeros pad ∧ p'.Valid h' ∧ p'.len = packet.len + pad ∧
      (∀ t : Slice, t.Valid w.heap → t.Valid h' ∧
        ((t.arr ≠ packet.arr ∨ t.off + t.len ≤ packet.off + packet.len ∨
          packet.off + packet.len + pad ≤ t.off ∨ packet.cap < packet.len + pad) →
          h'.bytes t = w.heap.bytes t)) ∧
      (∀ a i, (a ≠ packet.arr ∨ i < packet.off + packet.len ∨ packet.off + packet.len + pad ≤ i ∨
          packet.cap < packet.len + pad) →
        i < (w.heap.arrayOf a).length → (h'.arrayOf a)[i]? = (w.heap.arrayOf a)[i]?) ∧
      (packet.len + pad ≤ packet.cap → p' = { packet with len := packet.len + pad }) := by
  unfold padPacket
  by_cases hp : pad > 0
  · rw [if_pos hp]
    obtain ⟨h1, h2, h3, h4, h5⟩ := Heap.append_spec env.grow hv (zeros pad)
    refine ⟨(w.heap.append env.grow packet (zeros pad)).1, (w.heap.append env.grow packet (zeros pad)).2,
      rfl, h1, h2, ?_, ?_, ?_, ?_⟩
    · rw [h3]; simp [zeros]
    · simpa [zeros] using h4
    · simpa [zeros] using h5
    · intro hc
      unfold Heap.append
      rw [if_pos (by simpa [zeros] using hc)]; simp
  · rw [if_neg hp]
    have h0 : pad = 0 := by omega
    subst h0
    exact ⟨packet, w.heap, rfl, by simp [zeros], hv, rfl, fun t ht => ⟨ht, fun _ => rfl⟩,
      fun _ _ _ _ => rfl, fun _ => rfl⟩

@[simp] theorem v2Head_length (e : Endian) (qn : U16) (verdict mark id : U32) (plen : U16) :
    (v2Head e qn verdict mark id plen).length = 40 := by simp [v2Head]

theorem attrWire_eq (e : Endian) (a : NfAttr) :
    a.toWireFormat e = .ok (enc16 e a.nfaLen ++ enc16 e a.nfaType) := by cases e <;> rfl

/-- One fill of the scratch header, seen as extending the part already written. -/
theorem fill_step {s : Slice} {f : List Byte → Res (List Byte × Nat)} {w : W}
    {pre suf new : List Byte} {n : Nat} (hv : s.Valid w.heap) (hb : w.heap.bytes s = pre ++ suf)
    (hf : f suf = .ok (new ++ suf.drop n, n)) (hn : new.length = n) (hle : n ≤ suf.length) :
    ∃ h', fillFrom s pre.length f w = .ok (n, { w with heap := h' }) ∧ s.Valid h' ∧
      h'.bytes s = (pre ++ new) ++ suf.drop n ∧
      (∀ t : Slice, t.Valid w.heap → t.arr ≠ s.arr → t.Valid h' ∧ h'.bytes t = w.heap.bytes t) := by
  have hl : s.len = pre.length + suf.length := by
    rw [← Heap.bytes_length hv, hb]; simp
  have hd : (w.heap.bytes s).drop pre.length = suf := by rw [hb]; simp
  obtain ⟨h1, h2, h3, h4⟩ := fillFrom_spec (s := s) (i := pre.length) (w := w) (f := f)
    (b' := new ++ suf.drop n) (n := n) hv (by omega) (by rw [hd]; exact hf) (by simp; omega)
  refine ⟨_, h1, h2, ?_, h4⟩
  rw [h3, hb]; simp

theorem bind_of_eq {α β : Type} {m : Res α} {a : α} {f : α → Res β} {r : Res β} (h : m = .ok a)
    (hf : f a = r) : (m >>= f) = r := by rw [h]; exact hf

theorem baseOf_eq {s : Slice} (n : Nat) (h : s.len ≠ 0) (w : W) :
    baseOf s n w = .ok (⟨s.arr, s.off, n⟩, w) := by unfold baseOf; rw [if_neg h]; rfl

theorem allocM_eq (bs : List Byte) (w : W) :
    allocM bs w = .ok ((w.heap.mk' bs).1, { w with heap := (w.heap.mk' bs).2 }) := rfl

/-- `SetVerdict2`: what it sends and what it does to memory. -/
theorem setVerdict2_spec (env : Env) (K : Kernel QEv) (qa verdict mark plen id : U32) (packet : Slice)
    (w : W) (qh : Handle) (hV : VReady w qh) (hp : packet.Valid w.heap)
    (hne : packet.arr ≠ w.st.hdrSlice.arr) :
    ∃ r w', setVerdict2 env K qa verdict mark plen id packet w =
        (if packet.len + padOf (plen.setWidth 16) = 0 then .panic else .ok ((), w')) ∧
      w'.trace = w.trace ++ [.sendmsg qh.fd (v2Bytes env.e w.st.queueNum verdict mark id (plen.setWidth 16)
        (w.heap.bytes packet)) r] ∧ w'.st = w.st ∧ w.st.hdrSlice.Valid w'.heap ∧
      MemOk w.heap w'.heap w.st.hdrSlice packet (padOf (plen.setWidth 16)) := by
  obtain ⟨hh, hsv, hs40⟩ := hV
  obtain ⟨tr, heap, q⟩ := w
  simp only at hh hsv hs40 hne hp ⊢
  generalize hS : q.hdrSlice = S at hsv hs40 hne ⊢
  have hbl : (heap.bytes S).length = 40 := by rw [Heap.bytes_length hsv, hs40]
  generalize hX : heap.bytes S = X at hbl
  generalize hpl : plen.setWidth 16 = pl
  -- the six fills
  obtain ⟨heap1, f1, v1, b1, m1⟩ := fill_step (s := S) (w := ⟨tr, heap, q⟩) (pre := []) (suf := X)
    (f := serializeNlMsgHdrBuf env.e ⟨40 + (pl + 4).setWidth 32, 0x301, 1, 0, 0⟩) hsv (by simpa using hX)
    (hdrBuf_eq _ _ _ (by omega)) (by simp) (by omega)
  obtain ⟨heap2, f2, v2, b2, m2⟩ := fill_step (s := S) (w := ⟨tr, heap1, q⟩)
    (f := NfqGenMsg.toWireFormatBuf ⟨0, 0, q.queueNum⟩) v1 b1
    (nfgenBuf_eq _ _ (by simp; omega)) (by simp) (by simp; omega)
  obtain ⟨heap3, f3, v3, b3, m3⟩ := fill_step (s := S) (w := ⟨tr, heap2, q⟩)
    (f := NfAttr.toWireFormatBuf env.e ⟨12, 2⟩) v2 b2
    (attrBuf_eq _ _ _ (by simp; omega)) (by simp) (by simp; omega)
  obtain ⟨heap4, f4, v4, b4, m4⟩ := fill_step (s := S) (w := ⟨tr, heap3, q⟩)
    (f := verdictHdrWireBuf env.e verdict id) v3 b3
    (verdictBuf_eq _ _ _ _ (by simp; omega)) (by simp) (by simp; omega)
  obtain ⟨heap5, f5, v5, b5, m5⟩ := fill_step (s := S) (w := ⟨tr, heap4, q⟩)
    (f := NfAttr.toWireFormatBuf env.e ⟨8, 3⟩) v4 b4
    (attrBuf_eq _ _ _ (by simp; omega)) (by simp) (by simp; omega)
  obtain ⟨heap6, f6, v6, b6, m6⟩ := fill_step (s := S) (w := ⟨tr, heap5, q⟩)
    (f := markHdrWireBuf mark) v5 b5
    (markBuf_eq _ _ (by simp; omega)) (by simp) (by simp; omega)
  simp only [List.length_append, hdrBytes_length, enc16_length, enc32_length, List.length_cons,
    List.length_nil, List.nil_append] at f1 f2 f3 f4 f5 f6
  have hb6 : heap6.bytes S = v2Head env.e q.queueNum verdict mark id pl := by
    rw [b6, List.drop_drop, List.drop_drop, List.drop_drop, List.drop_drop, List.drop_drop,
      List.drop_eq_nil_of_le (by omega)]
    simp [v2Head]
  have hm6 : ∀ t : Slice, t.Valid heap → t.arr ≠ S.arr → t.Valid heap6 ∧ heap6.bytes t = heap.bytes t := by
    intro t ht hn
    obtain ⟨a1, c1⟩ := m1 t ht hn
    obtain ⟨a2, c2⟩ := m2 t a1 hn
    obtain ⟨a3, c3⟩ := m3 t a2 hn
    obtain ⟨a4, c4⟩ := m4 t a3 hn
    obtain ⟨a5, c5⟩ := m5 t a4 hn
    obtain ⟨a6, c6⟩ := m6 t a5 hn
    exact ⟨a6, by simp only at c1 c2 c3 c4 c5 c6; rw [c6, c5, c4, c3, c2, c1]⟩
  -- payload attribute header
  generalize hpa : enc16 env.e (pl + 4) ++ enc16 env.e 10 = pab
  have hpabl : pab.length = 4 := by rw [← hpa]; simp
  have hv7 := Heap.valid_mk' heap6 pab
  have hb7 := Heap.bytes_mk' heap6 pab
  have hpv6 := (hm6 packet hp hne).1
  have hpv7 : packet.Valid (heap6.mk' pab).2 := hpv6.alloc
  have hSv7 : S.Valid (heap6.mk' pab).2 := v6.alloc
  -- padding
  obtain ⟨p', h8, e8, b8, v8, l8, m8, _, k8⟩ := padPacket_spec env (w := ⟨tr, (heap6.mk' pab).2, q⟩) hpv7 (padOf pl)
  simp only at b8 m8
  obtain ⟨sSv, sSb⟩ := m8 S hSv7
  obtain ⟨sPv, sPb⟩ := m8 _ hv7
  have hpab8 : h8.bytes (heap6.mk' pab).1 = pab := by
    by_cases hx : (heap6.mk' pab).1.arr = packet.arr
    · -- a fresh array can only coincide with an empty, never allocated one
      have hz : packet.cap = 0 ∧ packet.off = 0 := by
        have h2 := hpv6.2
        have : heap6.arrayOf packet.arr = [] := by
          have hx' : heap6.arrays.length = packet.arr := hx
          unfold Heap.arrayOf
          rw [List.getElem?_eq_none (by omega)]; rfl
        rw [this] at h2; simp at h2; omega
      by_cases hpad : padOf pl = 0
      · rw [sPb (by right; right; left; rw [hz.2, hpad]; have := hpv6.1; simp [Heap.mk']; omega), hb7]
      · rw [sPb (by right; right; right; omega), hb7]
    · rw [sPb (Or.inl hx), hb7]
  have hS8 : h8.bytes S = v2Head env.e q.queueNum verdict mark id pl := by
    rw [sSb (Or.inl (fun h => hne h.symm))]
    show (Heap.mk (heap6.arrays ++ [pab])).bytes S = _
    rw [Heap.bytes_alloc_valid v6, hb6]
  have hP8 : h8.bytes p' = heap.bytes packet ++ zeros (padOf pl) := by
    rw [b8]
    show (Heap.mk (heap6.arrays ++ [pab])).bytes packet ++ _ = _
    rw [Heap.bytes_alloc_valid hpv6, (hm6 packet hp hne).2]
  obtain ⟨r, hsm⟩ := sendmsg_spec env K qh.fd
    [⟨S.arr, S.off, 40⟩, ⟨(heap6.mk' pab).1.arr, (heap6.mk' pab).1.off, pab.length⟩, ⟨p'.arr, p'.off, p'.len⟩]
    ⟨tr, h8, q⟩
  refine ⟨r, ⟨tr ++ [.sendmsg qh.fd (v2Bytes env.e q.queueNum verdict mark id pl (heap.bytes packet)) r], h8, q⟩,
    ?_, rfl, rfl, sSv, ?_, fun hc => by rw [← k8 hc]; exact hP8⟩
  · have hbytes : [(⟨S.arr, S.off, 40⟩ : Iov), ⟨(heap6.mk' pab).1.arr, (heap6.mk' pab).1.off, pab.length⟩,
        ⟨p'.arr, p'.off, p'.len⟩].flatMap (Iov.read env h8)
        = v2Bytes env.e q.queueNum verdict mark id pl (heap.bytes packet) := by
      simp only [List.flatMap_cons, List.flatMap_nil, List.append_nil]
      rw [Iov.read_eq env sSv 40 (by omega), Iov.read_eq env sPv pab.length (Nat.le_refl _),
        Iov.read_eq env v8 p'.len (Nat.le_refl _), hS8, hpab8, hP8]
      rw [List.take_of_length_le (by simp), List.take_of_length_le (by simp),
        List.take_of_length_le (by simp [l8, Heap.bytes_length hp, zeros])]
      simp only [v2Bytes, hpa, List.append_assoc]
    simp only at hsm
    rw [hbytes] at hsm
    rw [← hsm]
    unfold setVerdict2
    subst hS hpl hpa
    simp only [GoM.bind_apply, getQ, Res.ok_bind, GoM.lift_apply, attrWire_eq]
    have hn0 : q.hdrSlice.len ≠ 0 := by omega
    refine bind_of_eq f1 ?_
    refine bind_of_eq f2 ?_
    refine bind_of_eq f3 ?_
    refine bind_of_eq f4 ?_
    refine bind_of_eq f5 ?_
    refine bind_of_eq f6 ?_
    refine bind_of_eq (baseOf_eq _ hn0 _) ?_
    refine bind_of_eq (allocM_eq _ _) ?_
    refine bind_of_eq (baseOf_eq _ (by rw [show (Heap.mk' _ _).1.len = 4 from hpabl]; decide) _) ?_
    refine bind_of_eq e8 ?_
    by_cases hn1 : packet.len + padOf (plen.setWidth 16) = 0
    · rw [if_pos hn1]
      have : p'.len = 0 := by omega
      simp only [baseOf]
      rw [if_pos this]; rfl
    · rw [if_neg hn1]
      have hn2 : p'.len ≠ 0 := by omega
      refine bind_of_eq (baseOf_eq _ hn2 _) ?_
      simp only [hh]
      rfl
  · intro t ht hn
    obtain ⟨a6, c6⟩ := hm6 t ht hn
    have a7 : t.Valid (heap6.mk' pab).2 := a6.alloc
    obtain ⟨a8, c8⟩ := m8 t a7
    refine ⟨a8, fun hd => ?_⟩
    rw [c8 hd]
    show (Heap.mk (heap6.arrays ++ [pab])).bytes t = _
    rw [Heap.bytes_alloc_valid a6, c6]

/-- Reading an iovec that may go beyond its slice. -/
theorem Iov.read_beyond (env : Env) {h : Heap} {s : Slice} (hv : s.Valid h) (n : Nat) :
    ∃ beyond, Iov.read env h ⟨s.arr, s.off, n⟩ = (h.bytes s).take n ++ beyond ∧
      beyond.length = n - s.len ∧ (s.off + n ≤ (h.arrayOf s.arr).length →
        beyond = ((h.arrayOf s.arr).drop (s.off + s.len)).take (n - s.len)) := by
  by_cases hn : n ≤ s.len
  · exact ⟨[], by rw [Iov.read_eq env hv n hn]; simp, by simp; omega, fun _ => by
      rw [show n - s.len = 0 by omega]; rfl⟩
  · refine ⟨(((h.arrayOf s.arr).drop (s.off + s.len)).take (n - s.len)) ++
      (List.range (n - (((h.arrayOf s.arr).drop s.off).take n).length)).map (env.behind s.arr), ?_, ?_, ?_⟩
    · unfold Iov.read Heap.bytes
      simp only [List.take_take, ← List.append_assoc]
      congr 1
      rw [show min n s.len = s.len by omega, ← List.drop_drop]
      rw [show n = s.len + (n - s.len) by omega, List.take_add]
      rw [show s.len + (n - s.len) - s.len = n - s.len by omega]
    · have := hv.1; have := hv.2
      simp only [List.length_append, List.length_take, List.length_drop, List.length_map, List.length_range]
      omega
    · intro hm
      have : n - (((h.arrayOf s.arr).drop s.off).take n).length = 0 := by
        rw [List.length_take, List.length_drop]; omega
      rw [this]
      simp

/-- The counters `SetVerdict` updates. -/
def counted (verdict : U32) (q : NfQueue) : NfQueue :=
  if verdict = 1 then { q with accepted := q.accepted + 1 } else { q with dropped := q.dropped + 1 }

/-- The header `SetVerdict` assembles. -/
def v1Head (e : Endian) (qn : U16) (verdict id : U32) (plen : U16) : List Byte :=
  hdrBytes e ⟨32 + (nfaLength plen).setWidth 32, 0x301, 1, 0, 0⟩ ++ ([0, 0] ++ enc16 .big qn)
    ++ (enc16 e 12 ++ enc16 e 2) ++ (enc32 .big verdict ++ enc32 e id)

@[simp] theorem v1Head_length (e : Endian) (qn : U16) (verdict id : U32) (plen : U16) :
    (v1Head e qn verdict id plen).length = 32 := by simp [v1Head]

theorem serialize_eq (e : Endian) (h : NlMsghdr) : serializeNlMsgHdr e h = .ok (hdrBytes e h) :=
  Props.serialize_bytes e h

theorem nfgenWire_eq (m : NfqGenMsg) :
    m.toWireFormat = .ok ([m.family, m.version] ++ enc16 .big m.resID) := by
  rw [Props.C03_wire, bytes16_eq]; simp

theorem verdictHdrWire_eq (e : Endian) (verdict id : U32) :
    verdictHdrWire e verdict id = .ok (enc32 .big verdict ++ enc32 e id) := by cases e <;> rfl

/-- `SetVerdict`: what it sends, also beyond the packet, and what it does to memory. -/
theorem setVerdict_spec_mem (env : Env) (K : Kernel QEv) (qa verdict plen id : U32) (packet : Slice)
    (w : W) (qh : Handle) (hh : w.st.handle = some qh) (hp : packet.Valid w.heap) :
    ∃ r w' beyond, setVerdict env K qa verdict plen id packet w =
        (if packet.len + padOf (plen.setWidth 16) = 0 then .panic else .ok ((), w')) ∧
      w'.trace = w.trace ++ [.sendmsg qh.fd (v1Bytes env.e w.st.queueNum verdict id (plen.setWidth 16)
        ((w.heap.bytes packet ++ zeros (padOf (plen.setWidth 16))).take (nfaAlign (plen.setWidth 16)).toNat
          ++ beyond)) r] ∧
      beyond.length = (nfaAlign (plen.setWidth 16)).toNat - (packet.len + padOf (plen.setWidth 16)) ∧
      w'.st = counted verdict w.st ∧
      (∀ t : Slice, t.Valid w.heap → t.Valid w'.heap ∧
        ((t.arr ≠ packet.arr ∨ t.off + t.len ≤ packet.off + packet.len ∨
          packet.off + packet.len + padOf (plen.setWidth 16) ≤ t.off ∨
          packet.cap < packet.len + padOf (plen.setWidth 16)) → w'.heap.bytes t = w.heap.bytes t)) ∧
      (packet.len + padOf (plen.setWidth 16) ≤ packet.cap →
        w'.heap.bytes { packet with len := packet.len + padOf (plen.setWidth 16) }
          = w.heap.bytes packet ++ zeros (padOf (plen.setWidth 16))) ∧
      (packet.len + padOf (plen.setWidth 16) ≤ packet.cap →
        packet.off + (nfaAlign (plen.setWidth 16)).toNat ≤ (w.heap.arrayOf packet.arr).length →
        beyond = ((w.heap.arrayOf packet.arr).drop (packet.off + (packet.len + padOf (plen.setWidth 16)))).take
          ((nfaAlign (plen.setWidth 16)).toNat - (packet.len + padOf (plen.setWidth 16)))) := by
  obtain ⟨tr, heap, q⟩ := w
  simp only at hh hp ⊢
  generalize hpl : plen.setWidth 16 = pl
  have hq : (counted verdict q).queueNum = q.queueNum ∧ (counted verdict q).handle = q.handle := by
    unfold counted; split <;> exact ⟨rfl, rfl⟩
  generalize hha : v1Head env.e q.queueNum verdict id pl = hab
  have hhal : hab.length = 32 := by rw [← hha]; simp
  have hv6 := Heap.valid_mk' heap hab
  have hb6 := Heap.bytes_mk' heap hab
  generalize hpa : enc16 env.e (nfaLength pl) ++ enc16 env.e 10 = pab
  have hpabl : pab.length = 4 := by rw [← hpa]; simp
  have hv7 := Heap.valid_mk' (heap.mk' hab).2 pab
  have hb7 := Heap.bytes_mk' (heap.mk' hab).2 pab
  have hpv6 : packet.Valid (heap.mk' hab).2 := hp.alloc
  have hpv7 : packet.Valid ((heap.mk' hab).2.mk' pab).2 := hpv6.alloc
  have hSv7 : (heap.mk' hab).1.Valid ((heap.mk' hab).2.mk' pab).2 := hv6.alloc
  obtain ⟨p', h8, e8, b8, v8, l8, m8, i8, k8⟩ := padPacket_spec env
    (w := ⟨tr, ((heap.mk' hab).2.mk' pab).2, counted verdict q⟩) hpv7 (padOf pl)
  simp only at b8 m8 i8
  -- a fresh array is not touched by the padding
  have fresh : ∀ (H : Heap) (bs : List Byte) (x : Slice), x.Valid ((heap.mk' hab).2.mk' pab).2 →
      packet.Valid H → x.arr = H.arrays.length → x.off = 0 →
      h8.bytes x = ((heap.mk' hab).2.mk' pab).2.bytes x := by
    intro H bs x hx hpH hxa hxo
    apply (m8 x hx).2
    by_cases hxp : x.arr = packet.arr
    · have hz : packet.cap = 0 ∧ packet.off = 0 ∧ packet.len = 0 := by
        have h2 := hpH.2
        have : H.arrayOf packet.arr = [] := by
          unfold Heap.arrayOf
          rw [List.getElem?_eq_none (by omega)]; rfl
        rw [this] at h2; simp at h2; have := hpH.1; omega
      by_cases hpad : padOf pl = 0
      · right; right; left; omega
      · right; right; right; omega
    · exact Or.inl hxp
  have hS8 : h8.bytes (heap.mk' hab).1 = hab := by
    rw [fresh heap hab _ hSv7 hp rfl rfl]
    show (Heap.mk ((heap.mk' hab).2.arrays ++ [pab])).bytes _ = _
    rw [Heap.bytes_alloc_valid hv6, hb6]
  have hP8a : h8.bytes ((heap.mk' hab).2.mk' pab).1 = pab := by
    rw [fresh (heap.mk' hab).2 pab _ hv7 hpv6 rfl rfl, hb7]
  have hP8 : h8.bytes p' = heap.bytes packet ++ zeros (padOf pl) := by
    rw [b8]
    show (Heap.mk ((heap.mk' hab).2.arrays ++ [pab])).bytes packet ++ _ = _
    rw [Heap.bytes_alloc_valid hpv6]
    show (Heap.mk (heap.arrays ++ [hab])).bytes packet ++ _ = _
    rw [Heap.bytes_alloc_valid hp]
  obtain ⟨beyond, hrb, hbl, hbm⟩ := Iov.read_beyond env v8 (nfaAlign pl).toNat
  obtain ⟨r, hsm⟩ := sendmsg_spec env K qh.fd
    [⟨(heap.mk' hab).1.arr, (heap.mk' hab).1.off, hab.length⟩,
     ⟨((heap.mk' hab).2.mk' pab).1.arr, ((heap.mk' hab).2.mk' pab).1.off, pab.length⟩,
     ⟨p'.arr, p'.off, (nfaAlign pl).toNat⟩] ⟨tr, h8, counted verdict q⟩
  refine ⟨r, ⟨tr ++ [.sendmsg qh.fd (v1Bytes env.e q.queueNum verdict id pl
      ((heap.bytes packet ++ zeros (padOf pl)).take (nfaAlign pl).toNat ++ beyond)) r], h8, counted verdict q⟩,
    beyond, ?_, rfl, by rw [hbl, l8], rfl, ?_, fun hc => by rw [← k8 hc]; exact hP8, ?_⟩
  · have hbytes : [(⟨(heap.mk' hab).1.arr, (heap.mk' hab).1.off, hab.length⟩ : Iov),
        ⟨((heap.mk' hab).2.mk' pab).1.arr, ((heap.mk' hab).2.mk' pab).1.off, pab.length⟩,
        ⟨p'.arr, p'.off, (nfaAlign pl).toNat⟩].flatMap (Iov.read env h8)
        = v1Bytes env.e q.queueNum verdict id pl
          ((heap.bytes packet ++ zeros (padOf pl)).take (nfaAlign pl).toNat ++ beyond) := by
      simp only [List.flatMap_cons, List.flatMap_nil, List.append_nil]
      rw [Iov.read_eq env (m8 _ hSv7).1 hab.length (Nat.le_refl _),
        Iov.read_eq env (m8 _ hv7).1 pab.length (Nat.le_refl _), hrb, hS8, hP8a, hP8]
      rw [List.take_of_length_le (Nat.le_refl _), List.take_of_length_le (Nat.le_refl _), ← hha, ← hpa]
      simp only [v1Bytes, v1Head, List.append_assoc]
    simp only at hsm
    rw [hbytes] at hsm
    rw [← hsm]
    subst hpl
    have hstep : setVerdict env K qa verdict plen id packet ⟨tr, heap, q⟩ =
        (allocM hab >>= fun hs => baseOf hs 32 >>= fun v0 => allocM pab >>= fun ps =>
          baseOf ps pab.length >>= fun v1 => padPacket env packet (padOf (plen.setWidth 16)) >>= fun p =>
          baseOf p (nfaAlign (plen.setWidth 16)).toNat >>= fun v2 =>
            sendmsg env K qh.fd [v0, v1, v2] : M Unit) ⟨tr, heap, counted verdict q⟩ := by
      unfold setVerdict
      subst hpa hha
      by_cases hv : verdict = 1
      · simp only [hv, if_true, counted, GoM.bind_apply, getQ, modifyQ, Res.ok_bind, GoM.lift_apply,
          attrWire_eq, serialize_eq, nfgenWire_eq, verdictHdrWire_eq, hh]
        rfl
      · simp only [hv, if_false, counted, GoM.bind_apply, getQ, modifyQ, Res.ok_bind, GoM.lift_apply,
          attrWire_eq, serialize_eq, nfgenWire_eq, verdictHdrWire_eq, hh]
        rfl
    rw [hstep]
    simp only [GoM.bind_apply]
    refine bind_of_eq (allocM_eq _ _) ?_
    refine bind_of_eq (baseOf_eq _ (by rw [show (Heap.mk' _ _).1.len = 32 from hhal]; decide) _) ?_
    refine bind_of_eq (allocM_eq _ _) ?_
    refine bind_of_eq (baseOf_eq _ (by rw [show (Heap.mk' _ _).1.len = 4 from hpabl]; decide) _) ?_
    refine bind_of_eq e8 ?_
    by_cases hn1 : packet.len + padOf (plen.setWidth 16) = 0
    · rw [if_pos hn1]
      have : p'.len = 0 := by omega
      simp only [baseOf]
      rw [if_pos this]; rfl
    · rw [if_neg hn1]
      have hn2 : p'.len ≠ 0 := by omega
      refine bind_of_eq (baseOf_eq _ hn2 _) ?_
      rw [show hab.length = 32 from hhal]
  · intro t ht
    have a6 : t.Valid (heap.mk' hab).2 := ht.alloc
    have a7 : t.Valid ((heap.mk' hab).2.mk' pab).2 := a6.alloc
    obtain ⟨a8, c8⟩ := m8 t a7
    refine ⟨a8, fun hd => ?_⟩
    rw [c8 hd]
    show (Heap.mk ((heap.mk' hab).2.arrays ++ [pab])).bytes t = _
    rw [Heap.bytes_alloc_valid a6]
    show (Heap.mk (heap.arrays ++ [hab])).bytes t = _
    rw [Heap.bytes_alloc_valid ht]
  · intro hcap hmem
    have hk := k8 hcap
    subst hk
    -- the packet's array is not a fresh one, and is longer than what is sent
    by_cases hz : (nfaAlign pl).toNat - (packet.len + padOf pl) = 0
    · rw [hz, List.take_zero]
      exact List.eq_nil_of_length_eq_zero (by rw [hbl]; exact hz)
    have hpos : 0 < (heap.arrayOf packet.arr).length := by omega
    have hlt : packet.arr < heap.arrays.length := Heap.lt_of_arrayOf_pos hpos
    have harr : ((heap.mk' hab).2.mk' pab).2.arrayOf packet.arr = heap.arrayOf packet.arr := by
      show (Heap.mk ((heap.arrays ++ [hab]) ++ [pab])).arrayOf packet.arr = _
      unfold Heap.arrayOf
      rw [List.getElem?_append_left (by simp; omega), List.getElem?_append_left hlt]
    have hge : (heap.arrayOf packet.arr).length ≤ (h8.arrayOf packet.arr).length := by
      rcases Nat.lt_or_ge (h8.arrayOf packet.arr).length (heap.arrayOf packet.arr).length with hx | hx
      · exfalso
        have h9 := i8 packet.arr ((heap.arrayOf packet.arr).length - 1) (by
          right; right; left; omega) (by rw [harr]; omega)
        rw [harr, List.getElem?_eq_none (by omega), List.getElem?_eq_getElem (by omega)] at h9
        cases h9
      · exact hx
    have hbm := hbm (by show packet.off + _ ≤ (h8.arrayOf packet.arr).length; omega)
    rw [hbm]
    show ((h8.arrayOf packet.arr).drop (packet.off + (packet.len + padOf pl))).take
      ((nfaAlign pl).toNat - (packet.len + padOf pl)) = _
    apply List.ext_getElem?
    intro i
    rw [List.getElem?_take, List.getElem?_take]
    split
    · rename_i hi
      rw [List.getElem?_drop, List.getElem?_drop, i8 packet.arr _ (by right; right; left; omega)
        (by rw [harr]; omega), harr]
    · rfl

/-- `SetVerdict`: what it sends and what it does to memory. -/
theorem setVerdict_spec (env : Env) (K : Kernel QEv) (qa verdict plen id : U32) (packet : Slice)
    (w : W) (qh : Handle) (hh : w.st.handle = some qh) (hp : packet.Valid w.heap) :
    ∃ r w' beyond, setVerdict env K qa verdict plen id packet w =
        (if packet.len + padOf (plen.setWidth 16) = 0 then .panic else .ok ((), w')) ∧
      w'.trace = w.trace ++ [.sendmsg qh.fd (v1Bytes env.e w.st.queueNum verdict id (plen.setWidth 16)
        ((w.heap.bytes packet ++ zeros (padOf (plen.setWidth 16))).take (nfaAlign (plen.setWidth 16)).toNat
          ++ beyond)) r] ∧
      beyond.length = (nfaAlign (plen.setWidth 16)).toNat - (packet.len + padOf (plen.setWidth 16)) ∧
      w'.st = counted verdict w.st ∧
      (∀ t : Slice, t.Valid w.heap → t.Valid w'.heap ∧
        ((t.arr ≠ packet.arr ∨ t.off + t.len ≤ packet.off + packet.len ∨
          packet.off + packet.len + padOf (plen.setWidth 16) ≤ t.off ∨
          packet.cap < packet.len + padOf (plen.setWidth 16)) → w'.heap.bytes t = w.heap.bytes t)) ∧
      (packet.len + padOf (plen.setWidth 16) ≤ packet.cap →
        w'.heap.bytes { packet with len := packet.len + padOf (plen.setWidth 16) }
          = w.heap.bytes packet ++ zeros (padOf (plen.setWidth 16))) := by
  obtain ⟨r, w', beyond, h1, h2, h3, h4, h5, h6, _⟩ := setVerdict_spec_mem env K qa verdict plen id packet w qh hh hp
  exact ⟨r, w', beyond, h1, h2, h3, h4, h5, h6⟩

end Verif.NfQueue
