import Verif.NfQueue.Verdict
/-! What one receive of `ProcessPackets` does. -/
namespace Verif.NfQueue
open Common Sys Spec

/-- A queue that `ProcessPackets` can serve: socket open, receive buffer real (any size from 20 bytes to below 4 GiB),
scratch header real and not sharing memory with the receive buffer, an entry for each interesting attribute. -/
structure Serving (w : W) (qh : Handle) : Prop where
  handle : w.st.handle = some qh
  buf : w.st.buf.Valid w.heap
  small : w.st.buf.len + 3 < 2 ^ 32
  hdr : w.st.hdrSlice.Valid w.heap
  hdr40 : w.st.hdrSlice.len = 40
  sep : w.st.buf.arr ≠ w.st.hdrSlice.arr
  reg : ∀ k, (w.st.attrs k).isSome = decide (k = 1 ∨ k = 3 ∨ k = 10)

/-- The memory right after datagram `d` has been stored. -/
def stored (w : W) (d : List Byte) : Heap := w.heap.write w.st.buf.arr w.st.buf.off d

/-- The attributes of datagram `d` in the receive buffer. -/
def attrSlice (w : W) (d : List Byte) : Slice :=
  ⟨w.st.buf.arr, w.st.buf.off + 20, d.length - 20, w.st.buf.cap - 20⟩

theorem stored_valid {w : W} (hb : w.st.buf.Valid w.heap) {d : List Byte} (hd : d.length ≤ w.st.buf.len)
    {t : Slice} (ht : t.Valid w.heap) : t.Valid (stored w d) :=
  ht.write (by have := hb.1; have := hb.2; omega)

theorem stored_other {w : W} (hb : w.st.buf.Valid w.heap) {d : List Byte} (hd : d.length ≤ w.st.buf.len)
    {t : Slice} (ht : t.arr ≠ w.st.buf.arr) : (stored w d).bytes t = w.heap.bytes t :=
  Heap.bytes_write_disjoint (by have := hb.1; have := hb.2; omega) (Or.inl (fun h => ht h.symm))

theorem bytes_prefix {h : Heap} {s : Slice} {n : Nat} {c : Nat} (hn : n ≤ s.len) :
    h.bytes ⟨s.arr, s.off + 0, n - 0, c⟩ = (h.bytes s).take n := by
  simp only [Heap.bytes, List.take_take]
  congr 1; omega

theorem view_bytes {w : W} (hb : w.st.buf.Valid w.heap) {d : List Byte} (hd : d.length ≤ w.st.buf.len) :
    ∃ v, w.st.buf.to d.length = .ok v ∧ (stored w d).bytes v = d ∧
      v = ⟨w.st.buf.arr, w.st.buf.off, d.length, w.st.buf.cap⟩ := by
  refine ⟨⟨w.st.buf.arr, w.st.buf.off, d.length, w.st.buf.cap⟩, ?_, ?_, rfl⟩
  · unfold Slice.to
    rw [Slice.sub_eq_ok]
    have := hb.1
    exact ⟨by omega, by omega, rfl⟩
  · have := bytes_prefix (h := stored w d) (s := w.st.buf) (n := d.length) (c := w.st.buf.cap) hd
    simp only [Nat.add_zero, Nat.sub_zero] at this
    rw [this, stored, bytes_after_recv hb hd]
    simp

theorem attrSlice_bytes {w : W} (hb : w.st.buf.Valid w.heap) {d : List Byte} (hd : d.length ≤ w.st.buf.len)
    (h20 : 20 ≤ d.length) : (stored w d).bytes (attrSlice w d) = d.drop 20 ∧ (attrSlice w d).Valid (stored w d) := by
  obtain ⟨v, hv, hvb, hve⟩ := view_bytes hb hd
  have hs : v.sub 20 d.length = .ok (attrSlice w d) := by
    rw [Slice.sub_eq_ok, hve]
    have := hb.1
    exact ⟨h20, by simp; omega, rfl⟩
  refine ⟨?_, ?_⟩
  · rw [Heap.bytes_sub hs (by rw [hve]; exact Nat.le_refl _), hvb, List.take_of_length_le (by simp)]
  · apply Slice.sub_valid _ hs
    rw [hve]
    exact stored_valid hb hd (t := ⟨_, _, _, _⟩) ⟨by have := hb.1; show d.length ≤ w.st.buf.cap; omega, hb.2⟩

/-- The datagram is an error message from the kernel with a non-zero code. -/
def ErrMsg (e : Endian) (d : List Byte) : Prop := num16 e d 4 = some 2 ∧ num32 e d 16 ≠ some 0

/-- The error `err` tells why this receive failed: the errno of the system call, the code of the kernel's error message, or
that an attribute is bad. -/
def Told (e : Endian) : Except Nat (List Byte) → Err → Prop
  | .error n, err => err = .wrap "Unable to read from socket %v" (.errno n)
  | .ok d, err => (ErrMsg e d → ∃ c : Int, err = .netlink c ∧ numI32 e d 16 = some c) ∧
      (¬ ErrMsg e d → err = .msg "Bad Attr")

/-- What decoding does with datagram `d` in the receive buffer. -/
theorem decode_step (env : Env) (w w1 : W) (qh : Handle) (hS : Serving w qh) {d : List Byte}
    (hd : d.length ≤ w.st.buf.len) (hm : w1.heap = stored w d) (hst : w1.st = w.st) :
    (d.length < 20 → decodeM env w.st.buf d.length w1 = .panic) ∧
    (20 ≤ d.length → ErrMsg env.e d → ∃ err, Told env.e (.ok d) err ∧
      decodeM env w.st.buf d.length w1 = .ok ((none, none, some err), w1)) ∧
    (20 ≤ d.length → ¬ ErrMsg env.e d →
      ∃ g, decodeM env w.st.buf d.length w1 =
        match netlinkMessageToNfAttrStruct env.e (stored w d) (attrSlice w d) w.st.attrs with
        | .ok (m', _, err) => .ok ((some g, some m', err), { w1 with st := { w.st with attrs := m' } })
        | .panic => .panic
        | .diverge => .diverge) := by
  obtain ⟨v, hv, hvb, hve⟩ := view_bytes hS.buf hd
  have hstart : decodeM env w.st.buf d.length w1 = (do
      let (hdr, payload, err) ← GoM.lift (netlinkMessageToStruct env.e d)
      match hdr with
      | none => GoM.panic
      | some hdr =>
        let early ← (if hdr.type = 2 then do
            let (_, code) ← GoM.lift (netlinkErrMessagetoStruct env.e payload)
            if code ≠ 0 then pure (some (Err.netlink code)) else pure none
          else pure none : M (Option Err))
        match early with
        | some ne => pure (none, none, some ne)
        | none =>
          match err with
          | some err => pure (none, none, some (.wrap "Netlink message format invalid : %v" err))
          | none =>
            let (nfgen, _) ← GoM.lift (netlinkMessageToNfGenStruct payload)
            let p16 ← GoM.lift (v.from' 16)
            let p20 ← GoM.lift (p16.from' 4)
            let (m', err) ← parseAttrs env p20
            pure (some nfgen, some m', err) : M (Option NfqGenMsg × Option AttrMap × Option Err)) w1 := by
    unfold decodeM
    simp only [GoM.bind_apply, GoM.lift_apply, hv, Res.ok_bind]
    refine bind_of_eq (show readBytes v w1 = _ from congrArg (fun b => Res.ok (b, w1)) (hm ▸ hvb)) ?_
    rfl
  refine ⟨?_, ?_, ?_⟩
  · intro hlt
    rw [hstart]
    by_cases h16 : d.length < 16
    · have : netlinkMessageToStruct env.e d = .ok (none, [], some (.msg "Buffer is empty")) := by
        unfold netlinkMessageToStruct; rw [if_pos (by omega)]; rfl
      simp only [GoM.bind_apply, GoM.lift_apply, this, Res.ok_bind]
      rfl
    · obtain ⟨h, hh, _, ht, _⟩ := parse_hdr env.e d (by omega)
      simp only [GoM.bind_apply, GoM.lift_apply, hh, Res.ok_bind]
      by_cases h2 : h.type = 2
      · have : netlinkErrMessagetoStruct env.e (d.drop 16) = .panic := by
          unfold netlinkErrMessagetoStruct
          rw [(dec32_panic_iff _ _).mpr (by simp; omega)]; rfl
        simp only [if_pos h2, GoM.bind_apply, GoM.lift_apply, this, Res.panic_bind]
      · have : netlinkMessageToNfGenStruct (d.drop 16) = .panic := by
          have hl : (d.drop 16).length < 4 := by simp; omega
          match d.drop 16, hl with
          | [], _ => rfl
          | [_], _ => rfl
          | [_, _], _ => rfl
          | [_, _, _], _ => rfl
        simp only [if_neg h2, GoM.bind_apply, GoM.lift_apply, GoM.pure_apply, Res.ok_bind, this, Res.panic_bind]
  · intro h20 herr
    obtain ⟨h, hh, _, ht, _⟩ := parse_hdr env.e d (by omega)
    obtain ⟨hd2, v2, he, hn⟩ := parse_err env.e (d.drop 16) (by simp; omega)
    have h2 : h.type = 2 := by
      have := herr.1
      rw [ht] at this
      apply BitVec.eq_of_toNat_eq
      simpa using this
    have hc : v2.toInt ≠ 0 := by
      intro h0
      apply herr.2
      rw [show num32 env.e d 16 = num32 env.e (d.drop 16) 0 by simp [num32], hn, (toInt_eq_zero_iff v2).mp h0]
    refine ⟨.netlink v2.toInt, ⟨fun _ => ⟨_, rfl, ?_⟩, fun h => absurd herr h⟩, ?_⟩
    · exact numI32_of ((show num32 env.e d 16 = num32 env.e (d.drop 16) 0 by simp [num32]).trans hn)
    rw [hstart]
    simp only [GoM.bind_apply, GoM.lift_apply, hh, Res.ok_bind, if_pos h2, he, if_pos hc, GoM.pure_apply]
  · intro h20 herr
    obtain ⟨h, hh, _, ht, _⟩ := parse_hdr env.e d (by omega)
    obtain ⟨hd2, v2, he, hn⟩ := parse_err env.e (d.drop 16) (by simp; omega)
    have hgen : ∃ g r, netlinkMessageToNfGenStruct (d.drop 16) = .ok (g, r) := by
      have hl : 4 ≤ (d.drop 16).length := by simp; omega
      match d.drop 16, hl with
      | a :: b :: c :: f :: t, _ => exact ⟨⟨a, b, join16 c f⟩, t, by simp [netlinkMessageToNfGenStruct, idx, sliceFrom, dec16]⟩
    obtain ⟨g, rg, hg⟩ := hgen
    have hf : v.from' 16 = .ok ⟨w.st.buf.arr, w.st.buf.off + 16, d.length - 16, w.st.buf.cap - 16⟩ := by
      have := hS.buf.1
      unfold Slice.from'; rw [Slice.sub_eq_ok, hve]
      exact ⟨by show 16 ≤ d.length; omega, by show d.length ≤ w.st.buf.cap; omega, rfl⟩
    have hf2 : (⟨w.st.buf.arr, w.st.buf.off + 16, d.length - 16, w.st.buf.cap - 16⟩ : Slice).from' 4
        = .ok (attrSlice w d) := by
      have := hS.buf.1
      unfold Slice.from'; rw [Slice.sub_eq_ok]
      refine ⟨by show 4 ≤ d.length - 16; omega, by show d.length - 16 ≤ w.st.buf.cap - 16; omega, ?_⟩
      unfold attrSlice
      simp only [Slice.mk.injEq, true_and]
      omega
    refine ⟨g, ?_⟩
    rw [hstart]
    simp only [GoM.bind_apply, GoM.lift_apply, hh, Res.ok_bind]
    have hearly : (if h.type = 2 then (do
            let (_, code) ← GoM.lift (netlinkErrMessagetoStruct env.e (d.drop 16))
            if code ≠ 0 then pure (some (Err.netlink code)) else pure none)
          else pure none : M (Option Err)) w1 = .ok (none, w1) := by
      by_cases h2 : h.type = 2
      · have hc : v2.toInt = 0 := by
          rw [toInt_eq_zero_iff]
          apply Classical.byContradiction
          intro h0
          apply herr
          refine ⟨by rw [ht, h2]; rfl, ?_⟩
          rw [show num32 env.e d 16 = num32 env.e (d.drop 16) 0 by simp [num32], hn]
          simpa using h0
        rw [if_pos h2]
        simp [he, hc]
      · rw [if_neg h2]; rfl
    refine bind_of_eq hearly ?_
    simp only [GoM.bind_apply, GoM.lift_apply, hg, hf, hf2, Res.ok_bind, parseAttrs, hst]
    rw [← hm]
    rcases netlinkMessageToNfAttrStruct env.e w1.heap (attrSlice w d) w.st.attrs with ⟨m', x, err⟩ | _ | _
    · rfl
    · rfl
    · rfl

/-- What `Recv` does with a datagram. -/
theorem recv_step (env : Env) (K : Kernel QEv) (w : W) (qh : Handle) (hS : Serving w qh) :
    (∃ n, K.recv w.trace qh.fd = .error n ∧ recv env K w = .ok ((none, none,
        some (.wrap "Unable to read from socket %v" (.errno n))),
        { w with trace := w.trace ++ [.recvfrom qh.fd w.st.buf.len 0x100 (.error n)] })) ∨
    (∃ d0 d, K.recv w.trace qh.fd = .ok d0 ∧ d = d0.take w.st.buf.len ∧ d.length ≤ w.st.buf.len ∧
      (let w1 : W := ⟨w.trace ++ [.recvfrom qh.fd w.st.buf.len 0x100 (.ok d)], stored w d, w.st⟩
       (d.length < 20 → recv env K w = .panic) ∧
       (20 ≤ d.length → ErrMsg env.e d → ∃ err, Told env.e (.ok d) err ∧ recv env K w = .ok ((none, none, some err), w1)) ∧
       (20 ≤ d.length → ¬ ErrMsg env.e d →
        ∃ g, recv env K w =
          match netlinkMessageToNfAttrStruct env.e (stored w d) (attrSlice w d) w.st.attrs with
          | .ok (m', _, err) => .ok ((some g, some m', err), { w1 with st := { w.st with attrs := m' } })
          | .panic => .panic
          | .diverge => .diverge))) := by
  rcases hk : K.recv w.trace qh.fd with n | d0
  · left
    refine ⟨n, rfl, ?_⟩
    have hr : recvInto K qh.fd w.st.buf 0x100 w = .ok (.error n,
        { w with trace := w.trace ++ [.recvfrom qh.fd w.st.buf.len 0x100 (.error n)] }) := by
      simp [recvInto, recvfrom, rawRecvfrom, hk, World.log, Except.map]
    unfold recv
    simp only [GoM.bind_apply, getQ, Res.ok_bind, hS.handle, hr]
    rfl
  · right
    refine ⟨d0, d0.take w.st.buf.len, rfl, rfl, by simp; omega, ?_⟩
    have hd : (d0.take w.st.buf.len).length ≤ w.st.buf.len := by simp; omega
    have hr : recvInto K qh.fd w.st.buf 0x100 w = .ok (.ok (d0.take w.st.buf.len).length,
        ⟨w.trace ++ [.recvfrom qh.fd w.st.buf.len 0x100 (.ok (d0.take w.st.buf.len))],
          stored w (d0.take w.st.buf.len), w.st⟩) := by
      simp [recvInto, recvfrom, rawRecvfrom, hk, World.log, Except.map, stored]
    generalize d0.take w.st.buf.len = d at hd hr
    intro w1
    have hstart : recv env K w = decodeM env w.st.buf d.length w1 := by
      unfold recv
      simp only [GoM.bind_apply, getQ, Res.ok_bind, hS.handle]
      exact bind_of_eq hr rfl
    rw [hstart]
    exact decode_step env w w1 qh hS hd rfl rfl

/-- A receive that failed: a system error, an error message from the kernel, or an attribute that runs over the
end of the datagram (`Visits`: the positions a walk over the attributes comes by). -/
def Failed (e : Endian) : Except Nat (List Byte) → Prop
  | .error _ => True
  | .ok d => ErrMsg e d ∨ ∃ j l t, Visits e (d.drop 20) 0 j ∧ HeaderAt e (d.drop 20) j l t ∧
      (d.drop 20).length < j + l

/-- Attribute slices the queue remembers are real memory; those for id and mark hold four bytes. -/
def AttrsOk (w : W) : Prop :=
  ∀ k s, w.st.attrs k = some s → s.Valid w.heap ∧ (k = 1 ∨ k = 3 → 4 ≤ s.len)

theorem Serving.after {w : W} {qh : Handle} (hS : Serving w qh) {d : List Byte} (hd : d.length ≤ w.st.buf.len)
    {w1 : W} (hh : w1.heap = stored w d) (h1 : w1.st.handle = w.st.handle) (h2 : w1.st.buf = w.st.buf)
    (h3 : w1.st.hdrSlice = w.st.hdrSlice) (hm : ∀ k, (w1.st.attrs k).isSome = (w.st.attrs k).isSome) :
    Serving w1 qh where
  handle := h1.trans hS.handle
  buf := by rw [h2, hh]; exact stored_valid hS.buf hd hS.buf
  small := by rw [h2]; exact hS.small
  hdr := by rw [h3, hh]; exact stored_valid hS.buf hd hS.hdr
  hdr40 := by rw [h3]; exact hS.hdr40
  sep := by rw [h2, h3]; exact hS.sep
  reg := fun k => (hm k).trans (hS.reg k)

/-- Parsing the attributes of a stored datagram. -/
theorem attrs_parse {e : Endian} {w : W} {qh : Handle} (hS : Serving w qh) {d : List Byte}
    (hd : d.length ≤ w.st.buf.len) (h20 : 20 ≤ d.length) {m' : AttrMap} {rest : Option Slice} {err : Option Err}
    (h : netlinkMessageToNfAttrStruct e (stored w d) (attrSlice w d) w.st.attrs = .ok (m', rest, err)) :
    (∀ k, (m' k).isSome = (w.st.attrs k).isSome) ∧
    (err ≠ none ↔ ∃ j l t, Visits e (d.drop 20) 0 j ∧ HeaderAt e (d.drop 20) j l t ∧ (d.drop 20).length < j + l) := by
  obtain ⟨hb, hv⟩ := attrSlice_bytes hS.buf hd h20
  have hs : (attrSlice w d).len + 3 < 2 ^ 32 := by
    have := hS.small
    show d.length - 20 + 3 < _
    omega
  have h1 := Props.C06_bad_attr_iff e _ _ hv hs _ _ _ _ h
  refine ⟨fun k => (Props.C06_inside e _ _ hv hs _ _ _ _ h k).1, ?_⟩
  rw [h1.1, hb]
  show (∃ j l t, _ ∧ _ ∧ d.length - 20 < j + l) ↔ _
  rw [List.length_drop]

theorem attrs_err {e : Endian} {w : W} {qh : Handle} (hS : Serving w qh) {d : List Byte}
    (hd : d.length ≤ w.st.buf.len) (h20 : 20 ≤ d.length) {m' : AttrMap} {rest : Option Slice} {err : Err}
    (h : netlinkMessageToNfAttrStruct e (stored w d) (attrSlice w d) w.st.attrs = .ok (m', rest, some err)) :
    err = .msg "Bad Attr" := by
  obtain ⟨hb, hv⟩ := attrSlice_bytes hS.buf hd h20
  have hs : (attrSlice w d).len + 3 < 2 ^ 32 := by
    have := hS.small
    show d.length - 20 + 3 < _
    omega
  have h1 := Props.C06_bad_attr_iff e _ _ hv hs _ _ _ _ h
  rcases h1.2.1 with h | h
  · cases h
  · cases h; rfl

/-- A datagram whose attributes are exactly `attrs` (after the 20 bytes of headers). -/
def Carries (e : Endian) (d : List Byte) (attrs : List (Nat × List Byte)) : Prop :=
  ∃ head : List Byte, head.length = 20 ∧ d = head ++ encodeAttrs e attrs ∧
    ∀ a ∈ attrs, a.1 < 65536 ∧ a.2.length ≤ 65531

/-- What the packet callback is given agrees with the attributes `attrs`, as far as they go: packet id (attribute
1, host order), mark (attribute 3, network order), payload (attribute 10); later attributes win. -/
def Agrees (e : Endian) (attrs : List (Nat × List Byte)) (b : List Byte) (mark id : Nat) : Prop :=
  (∀ p, lastOf 1 attrs = some p → num32 e p 0 = some id) ∧
  (∀ p, lastOf 3 attrs = some p → be32 p 0 = some mark) ∧
  (∀ p, lastOf 10 attrs = some p → b = p)

theorem info_of {e : Endian} {h : Heap} {m : AttrMap} {id mark : Nat} {pkt : Option Slice}
    (hi : getPacketInfo e h (some m) = .ok (id, mark, pkt)) :
    (∀ s, m 1 = some s → num32 e (h.bytes s) 0 = some id) ∧
    (∀ s, m 3 = some s → be32 (h.bytes s) 0 = some mark) ∧ pkt = m 10 := by
  unfold getPacketInfo at hi
  simp only at hi
  have key : ∀ (x : Nat), (match m 3 with
      | some s => do let v ← dec32 .big (h.bytes s); let mark ← pure v.toNat; pure (x, mark, m 10)
      | none => do let mark ← pure 0; pure (x, mark, m 10)) = Res.ok (id, mark, pkt) →
      x = id ∧ (∀ s, m 3 = some s → be32 (h.bytes s) 0 = some mark) ∧ pkt = m 10 := by
    intro x hx
    cases h3 : m 3 with
    | none => rw [h3] at hx; simp at hx; exact ⟨hx.1, by simp, hx.2.2.symm⟩
    | some s =>
      rw [h3] at hx
      simp only at hx
      obtain ⟨v, hv, hx⟩ := Res.bind_eq_ok.mp hx
      simp at hx
      refine ⟨hx.1, ?_, hx.2.2.symm⟩
      rintro s' h; cases h
      rw [← hx.2.1]
      exact num32_eq .big _ 0 v (by simpa using hv)
  cases h1 : m 1 with
  | none => rw [h1] at hi; exact ⟨by simp, (key 0 hi).2⟩
  | some s =>
    rw [h1] at hi
    simp only at hi
    obtain ⟨v, hv, hi⟩ := Res.bind_eq_ok.mp hi
    have := key v.toNat hi
    refine ⟨?_, this.2⟩
    rintro s' h; cases h
    rw [← this.1]
    exact num32_eq e _ 0 v (by simpa using hv)

/-- After parsing a datagram with these attributes the remembered slices show them. -/
theorem carried {e : Endian} {w : W} {qh : Handle} (hS : Serving w qh) {d : List Byte}
    (hd : d.length ≤ w.st.buf.len) {m' : AttrMap} {rest : Option Slice} {err : Option Err}
    (h : netlinkMessageToNfAttrStruct e (stored w d) (attrSlice w d) w.st.attrs = .ok (m', rest, err))
    {attrs : List (Nat × List Byte)} (hc : Carries e d attrs) (k : Nat) (hk : k = 1 ∨ k = 3 ∨ k = 10) :
    match lastOf k attrs with
    | some p => ∃ s, m' k = some s ∧ (stored w d).bytes s = p
    | none => m' k = w.st.attrs k := by
  obtain ⟨head, h20, rfl, hall⟩ := hc
  obtain ⟨hb, hv⟩ := attrSlice_bytes hS.buf hd (by simp [h20])
  have hs : (attrSlice w (head ++ encodeAttrs e attrs)).len + 3 < 2 ^ 32 := by
    have := hS.small
    show (head ++ encodeAttrs e attrs).length - 20 + 3 < _
    omega
  rw [List.drop_left' h20] at hb
  obtain ⟨m2, h2, hm2⟩ := Props.C05_parse_encode e _ _ hv hs attrs hall hb w.st.attrs
  rw [h] at h2
  simp only [Res.ok.injEq, Prod.mk.injEq] at h2
  obtain ⟨rfl, _, _⟩ := h2
  have hsome := hS.reg k
  rw [decide_eq_true hk, Option.isSome_iff_exists] at hsome
  obtain ⟨old, hold⟩ := hsome
  have := (hm2 k).2.1 old hold
  cases hl : lastOf k attrs with
  | none => rw [hl] at this; simp only at this ⊢; rw [this, hold]
  | some p => rw [hl] at this; exact this (by omega)

/-- One receive with callbacks installed, if it does not crash. -/
theorem receiveOne_spec (env : Env) (K : Kernel QEv) (w w' : W) (qh : Handle) (cb ecb : Nat)
    (hS : Serving w qh) (hcb : w.st.callback = some cb) (hecb : w.st.errorCallback = some ecb)
    (h : receiveOne env K w = .ok ((), w')) :
    ∃ r w1, w' = env.cbEffect w1 ∧ Serving w1 qh ∧ (∀ a, (w.heap.arrayOf a).length = (w1.heap.arrayOf a).length) ∧
      ((Failed env.e r ∧ (∃ err g, Told env.e r err ∧ w1.trace = w.trace ++
            [.recvfrom qh.fd w.st.buf.len 0x100 r, .app (.error ecb (.wrap "Netlink error %v" err) g)]) ∧
          ∃ m', w1.st = { w.st with attrs := m' }) ∨
       (¬ Failed env.e r ∧ (∃ d b mark id, r = .ok d ∧ (∀ attrs, Carries env.e d attrs → Agrees env.e attrs b mark id) ∧
            w1.trace = w.trace ++
            [.recvfrom qh.fd w.st.buf.len 0x100 r, .app (.packet cb b mark id w.st.privateData)]) ∧
          ∃ m', w1.st = { w.st with attrs := m', processed := w.st.processed + 1 })) := by
  unfold receiveOne at h
  simp only [GoM.bind_apply] at h
  obtain ⟨⟨⟨g, attr, err⟩, w2⟩, hrecv, h⟩ := Res.bind_eq_ok.mp h
  simp only [getQ, Res.ok_bind] at h
  have hlen : ∀ d : List Byte, d.length ≤ w.st.buf.len → ∀ a, (w.heap.arrayOf a).length = ((stored w d).arrayOf a).length := by
    intro d hd a
    have := hS.buf.1; have := hS.buf.2
    exact (Heap.arrayOf_length_write (by omega)).symm
  rcases recv_step env K w qh hS with ⟨n, _, he⟩ | ⟨d0, d, _, _, hd, hA, hB, hC⟩
  · rw [he] at hrecv
    simp only [Res.ok.injEq, Prod.mk.injEq] at hrecv
    obtain ⟨⟨rfl, rfl, rfl⟩, rfl⟩ := hrecv
    simp only [hecb] at h
    simp only [GoM.bind_apply, emit, runCallback, Res.ok_bind, Res.ok.injEq, Prod.mk.injEq, true_and] at h
    refine ⟨.error n, _, h.symm, ?_, fun _ => rfl, Or.inl ⟨trivial, ⟨_, none, rfl, by simp [World.log]⟩, w.st.attrs, rfl⟩⟩
    exact ⟨hS.handle, hS.buf, hS.small, hS.hdr, hS.hdr40, hS.sep, hS.reg⟩
  · by_cases h20 : d.length < 20
    · rw [hA h20] at hrecv; cases hrecv
    by_cases hE : ErrMsg env.e d
    · obtain ⟨err', hT, he⟩ := hB (by omega) hE
      rw [he] at hrecv
      simp only [Res.ok.injEq, Prod.mk.injEq] at hrecv
      obtain ⟨⟨rfl, rfl, rfl⟩, rfl⟩ := hrecv
      simp only [hecb] at h
      simp only [GoM.bind_apply, emit, runCallback, Res.ok_bind, Res.ok.injEq, Prod.mk.injEq, true_and] at h
      refine ⟨.ok d, _, h.symm, ?_, hlen d hd, Or.inl ⟨Or.inl hE, ⟨err', none, hT, by simp [World.log]⟩, w.st.attrs, rfl⟩⟩
      exact hS.after hd rfl rfl rfl rfl (fun _ => rfl)
    · obtain ⟨g', he⟩ := hC (by omega) hE
      rw [he] at hrecv
      rcases hn : netlinkMessageToNfAttrStruct env.e (stored w d) (attrSlice w d) w.st.attrs
        with ⟨m', rest, err'⟩ | _ | _
      · rw [hn] at hrecv
        simp only [Res.ok.injEq, Prod.mk.injEq] at hrecv
        obtain ⟨⟨rfl, rfl, rfl⟩, rfl⟩ := hrecv
        obtain ⟨hreg, hbad⟩ := attrs_parse hS hd (by omega) hn
        cases err' with
        | some err' =>
          simp only [hecb] at h
          simp only [GoM.bind_apply, emit, runCallback, Res.ok_bind, Res.ok.injEq, Prod.mk.injEq, true_and] at h
          refine ⟨.ok d, _, h.symm, ?_, hlen d hd,
            Or.inl ⟨Or.inr (hbad.mp (by simp)), ⟨err', some g', ⟨fun h => absurd h hE, fun _ => attrs_err hS hd (by omega) hn⟩, by simp [World.log]⟩, m', by simp [World.log, hecb]⟩⟩
          exact hS.after hd rfl rfl rfl rfl hreg
        | none =>
          simp only [GoM.bind_apply, packetInfoM] at h
          obtain ⟨⟨⟨id, mark, pkt⟩, w3⟩, hp, h⟩ := Res.bind_eq_ok.mp h
          obtain ⟨q3, hp1, hp2⟩ := Res.bind_eq_ok.mp hp
          simp only [Res.ok.injEq, Prod.mk.injEq] at hp2
          obtain ⟨rfl, rfl⟩ := hp2
          simp only [modifyQ, Res.ok_bind, hcb] at h
          simp only [GoM.bind_apply, emitPacket, runCallback, Res.ok_bind, Res.ok.injEq, Prod.mk.injEq, true_and] at h
          refine ⟨.ok d, _, h.symm, ?_, hlen d hd, Or.inr ⟨?_, ⟨d, optBytes (stored w d) pkt, mark, id, rfl, ?_, by simp [World.log]⟩, m', by simp [World.log, hcb]⟩⟩
          · exact hS.after hd rfl rfl rfl rfl hreg
          · rintro (hf | hf)
            · exact hE hf
            · exact hbad.mpr hf rfl
          · intro attrs hcar
            obtain ⟨i1, i3, rfl⟩ := info_of hp1
            refine ⟨?_, ?_, ?_⟩
            · intro p hp
              have := carried hS hd hn hcar 1 (by simp)
              rw [hp] at this
              obtain ⟨s, hs, hb⟩ := this
              rw [← hb]; exact i1 s hs
            · intro p hp
              have := carried hS hd hn hcar 3 (by simp)
              rw [hp] at this
              obtain ⟨s, hs, hb⟩ := this
              rw [← hb]; exact i3 s hs
            · intro p hp
              have := carried hS hd hn hcar 10 (by simp)
              rw [hp] at this
              obtain ⟨s, hs, hb⟩ := this
              rw [← hb, hs]; rfl
      · rw [hn] at hrecv; cases hrecv
      · rw [hn] at hrecv; cases hrecv

end Verif.NfQueue
