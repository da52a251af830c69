import Verif.NfQueue.Model
import Verif.NfQueue.Spec
import Verif.Spec.Lemmas
/-! Helper lemmas about the `nfqueue` model: sending, receiving, querying. -/
namespace Verif.NfQueue
open Common Sys Spec

theorem wireBytes_eq (e : Endian) (msg : NetlinkMessage) :
    wireBytes e msg = .ok (hdrBytes e msg.header ++ msg.data) := by
  have hz : zeros (16 + msg.data.length) = zeros 16 ++ zeros msg.data.length := by
    unfold zeros; exact List.replicate_append_replicate.symm
  have key : ∀ (d : List Byte), (do
      let buf ← writeAt (zeros 16 ++ d) 0 (enc32 e msg.header.len)
      let buf ← writeAt buf 4 (enc16 e msg.header.type)
      let buf ← writeAt buf 6 (enc16 e msg.header.flags)
      let buf ← writeAt buf 8 (enc32 e msg.header.seq)
      writeAt buf 12 (enc32 e msg.header.pid)) = .ok (hdrBytes e msg.header ++ d) := by
    intro d
    cases e <;> simp [writeAt, splice, zeros, enc32, enc16, hdrBytes, List.replicate]
  unfold wireBytes
  rw [hz]
  have k := key (zeros msg.data.length)
  simp only [Res.bind_eq_ok] at k
  obtain ⟨b1, h1, b2, h2, b3, h3, b4, h4, h5⟩ := k
  simp only [h1, h2, h3, h4, h5, Res.ok_bind]
  unfold writeAt
  rw [if_pos (by simp)]
  congr 1
  unfold splice
  rw [List.take_left' (by simp), List.drop_eq_nil_of_le (by simp)]
  simp

theorem sendto_spec (K : Kernel QEv) (fd : Nat) (bytes : List Byte) (w : W) :
    ∃ r evs, sendto K fd bytes 0 w = .ok (r, { w with trace := w.trace ++ evs }) ∧
      SendEvs fd bytes r evs := by
  rcases h : K.send w.trace fd bytes with _ | e1
  · exact ⟨none, [.sendto fd bytes 0 none], by simp [sendto, rawSendto, h, World.log],
      Or.inl ⟨rfl, rfl⟩⟩
  · exact ⟨_, [.sendto fd bytes 0 (some e1), .sendto fd bytes 0
        (K.send (w.trace ++ [.sendto fd bytes 0 (some e1)]) fd bytes)],
      by simp [sendto, rawSendto, h, World.log], Or.inr ⟨e1, rfl⟩⟩

theorem send_spec (env : Env) (K : Kernel QEv) (qh : Handle) (msg : NetlinkMessage) (w : W) :
    ∃ r evs, qh.send env K msg w = .ok (r.map Err.errno, { w with trace := w.trace ++ evs }) ∧
      SendEvs qh.fd (hdrBytes env.e msg.header ++ msg.data) r evs := by
  obtain ⟨r, evs, h1, h2⟩ := sendto_spec K qh.fd (hdrBytes env.e msg.header ++ msg.data) w
  refine ⟨r, evs, ?_, h2⟩
  unfold Handle.send
  simp only [GoM.bind_apply, GoM.lift_apply, wireBytes_eq, Res.ok_bind, h1]
  cases r <;> rfl

theorem recvInto_spec {α τ : Type} (K : Kernel α) (fd : Nat) (buf : Slice) (flags : Nat) (w : World α τ) :
    (∃ err, recvInto K fd buf flags w
        = .ok (.error err, { w with trace := w.trace ++ [.recvfrom fd buf.len flags (.error err)] })) ∨
    (∃ d, d.length ≤ buf.len ∧ recvInto K fd buf flags w
        = .ok (.ok d.length, { w with trace := w.trace ++ [.recvfrom fd buf.len flags (.ok d)],
                                      heap := w.heap.write buf.arr buf.off d })) := by
  rcases h : K.recv w.trace fd with err | d
  · left
    exact ⟨err, by simp [recvInto, recvfrom, rawRecvfrom, h, World.log, Except.map]⟩
  · right
    refine ⟨d.take buf.len, by simp; omega, ?_⟩
    simp [recvInto, recvfrom, rawRecvfrom, h, World.log, Except.map]

/-- After receiving `d` into `buf`, the buffer shows `d` followed by what was there before. -/
theorem bytes_after_recv {h : Heap} {buf : Slice} (hv : buf.Valid h) {d : List Byte}
    (hd : d.length ≤ buf.len) :
    (h.write buf.arr buf.off d).bytes buf = d ++ (h.bytes buf).drop d.length := by
  have := Heap.bytes_write_inside (i := 0) (bs := d) hv (by omega)
  simp only [Nat.add_zero] at this
  rw [this]; simp [splice]

theorem num16_append_left {e : Endian} {a b : List Byte} {i : Nat} (h : i + 2 ≤ a.length) :
    num16 e (a ++ b) i = num16 e a i := by
  unfold num16
  rw [List.getElem?_append_left (by omega), List.getElem?_append_left (by omega)]

theorem num32_append_left {e : Endian} {a b : List Byte} {i : Nat} (h : i + 4 ≤ a.length) :
    num32 e (a ++ b) i = num32 e a i := by
  unfold num32
  rw [List.getElem?_append_left (by omega), List.getElem?_append_left (by omega),
    List.getElem?_append_left (by omega), List.getElem?_append_left (by omega)]

theorem exists_dec32 (e : Endian) (b : List Byte) (i : Nat) (h : i + 4 ≤ b.length) :
    ∃ v, dec32 e (b.drop i) = .ok v :=
  (dec32_ok_iff e _).mpr (by simp; omega)

/-- Parsing a buffer of at least 16 bytes yields the numbers at the header's offsets. -/
theorem parse_hdr (e : Endian) (b : List Byte) (hb : 16 ≤ b.length) :
    ∃ h, netlinkMessageToStruct e b = .ok (some h, b.drop 16, none) ∧
      num32 e b 0 = some h.len.toNat ∧ num16 e b 4 = some h.type.toNat ∧
      num16 e b 6 = some h.flags.toNat := by
  obtain ⟨v0, h0⟩ := exists_dec32 e b 0 (by omega)
  obtain ⟨v4, h4⟩ := exists_dec16 e b 4 (by omega)
  obtain ⟨v6, h6⟩ := exists_dec16 e b 6 (by omega)
  obtain ⟨v8, h8⟩ := exists_dec32 e b 8 (by omega)
  obtain ⟨v12, h12⟩ := exists_dec32 e b 12 (by omega)
  refine ⟨⟨v0, v4, v6, v8, v12⟩, ?_, num32_eq _ _ _ _ h0, num16_eq _ _ _ _ h4, num16_eq _ _ _ _ h6⟩
  unfold netlinkMessageToStruct
  rw [if_neg (by omega)]
  have s : ∀ i, i ≤ 16 → sliceFrom b i = .ok (b.drop i) := by
    intro i hi; unfold sliceFrom; rw [if_pos (by omega)]
  rw [List.drop_zero] at h0
  simp [s, h0, h4, h6, h8, h12]

/-- Parsing an error message payload of at least 4 bytes. -/
theorem parse_err (e : Endian) (b : List Byte) (hb : 4 ≤ b.length) :
    ∃ hd, ∃ v : U32, netlinkErrMessagetoStruct e b = .ok (hd, BitVec.toInt v) ∧ num32 e b 0 = some v.toNat := by
  obtain ⟨v, hv⟩ := exists_dec32 e b 0 (by omega)
  have hn := num32_eq _ _ _ _ hv
  rw [List.drop_zero] at hv
  have hs : sliceFrom b 4 = .ok (b.drop 4) := by unfold sliceFrom; rw [if_pos hb]
  by_cases h16 : 16 ≤ (b.drop 4).length
  · obtain ⟨h, hh, _⟩ := parse_hdr e (b.drop 4) h16
    exact ⟨some h, v, by unfold netlinkErrMessagetoStruct; simp [hv, hs, hh], hn⟩
  · have : netlinkMessageToStruct e (b.drop 4) = .ok (none, [], some (.msg "Buffer is empty")) := by
      unfold netlinkMessageToStruct; rw [if_pos (by omega)]; rfl
    exact ⟨none, v, by unfold netlinkErrMessagetoStruct; simp [hv, hs, this], hn⟩

theorem numI32_of {e : Endian} {b : List Byte} {i : Nat} {v : U32} (h : num32 e b i = some v.toNat) :
    numI32 e b i = some v.toInt := by
  unfold numI32
  rw [h]
  show some (signed32 v.toNat) = _
  rw [BitVec.toInt_eq_toNat_cond]
  unfold signed32
  have := v.isLt
  congr 1
  split <;> split <;> omega

theorem toInt_eq_zero_iff (v : U32) : v.toInt = 0 ↔ v.toNat = 0 := by
  constructor
  · intro h
    have : v = 0 := by
      have h2 : v.toInt = (0 : U32).toInt := by rw [h]; rfl
      exact BitVec.eq_of_toInt_eq h2
    rw [this]; rfl
  · intro h
    have : v = 0 := BitVec.eq_of_toNat_eq (by rw [h]; rfl)
    rw [this]; rfl

/-- World after receiving `d` on a configuration socket. -/
def afterRecv (w : W) (qh : Handle) (d : List Byte) : W :=
  { w with trace := w.trace ++ [.recvfrom qh.fd qh.buf.len 0 (.ok d)],
           heap := w.heap.write qh.buf.arr qh.buf.off d }

theorem netlinkMsg_ne_diverge (e : Endian) (b : List Byte) : netlinkMessageToStruct e b ≠ .diverge := by
  by_cases h : 16 ≤ b.length
  · obtain ⟨_, h, _⟩ := parse_hdr e b h; rw [h]; simp
  · unfold netlinkMessageToStruct; rw [if_pos (by omega)]; simp

theorem netlinkErr_ne_diverge (e : Endian) (b : List Byte) : netlinkErrMessagetoStruct e b ≠ .diverge := by
  by_cases h : 4 ≤ b.length
  · obtain ⟨_, _, h, _⟩ := parse_err e b h; rw [h]; simp
  · unfold netlinkErrMessagetoStruct
    rw [(dec32_panic_iff e b).mpr (by omega)]; simp

/-- `recv` on a reply of 20 bytes or more that leaves room for one more byte in the buffer. -/
theorem recv_ok_of_recvInto (env : Env) (K : Kernel QEv) (qh : Handle) (w : W)
    (hv : qh.buf.Valid w.heap) (hcap : qh.buf.cap = qh.buf.len) (d : List Byte)
    (h20 : 20 ≤ d.length) (hlt : d.length < qh.buf.len)
    (he : recvInto K qh.fd qh.buf 0 w = .ok (.ok d.length,
      { w with trace := w.trace ++ [.recvfrom qh.fd qh.buf.len 0 (.ok d)],
               heap := w.heap.write qh.buf.arr qh.buf.off d })) :
    ∃ r, qh.recv env K w = .ok (r, afterRecv w qh d) ∧ (r = none ↔ ¬ Refusal env.e d) ∧
      (Refusal env.e d → ∃ c : Int, r = some (.netlink c) ∧ numI32 env.e d 16 = some c) := by
  have hd : d.length ≤ qh.buf.len := by omega
  have hvw : qh.buf.Valid (w.heap.write qh.buf.arr qh.buf.off d) := by
    apply Slice.Valid.write hv
    have := hv.1; have := hv.2; omega
  -- evaluate after the receive, given the view
  have hview : ∀ view, qh.buf.to (d.length + 1) = .ok view → d.length < qh.buf.len →
      ∃ x, (w.heap.write qh.buf.arr qh.buf.off d).bytes view = d ++ [x] := by
    intro view hvw' hlt
    have hb := Heap.bytes_sub (h := w.heap.write qh.buf.arr qh.buf.off d) hvw' (by omega)
    rw [bytes_after_recv hv hd] at hb
    have hlen : ((w.heap.bytes qh.buf).drop d.length).length = qh.buf.len - d.length := by
      rw [List.length_drop, Heap.bytes_length hv]
    match hdr : (w.heap.bytes qh.buf).drop d.length with
    | [] => rw [hdr] at hlen; simp at hlen; omega
    | x :: xs =>
      refine ⟨x, ?_⟩
      rw [hb, hdr]
      simp [List.take_append]
      rw [List.take_of_length_le (by omega)]
  have hto : ∃ view, qh.buf.to (d.length + 1) = .ok view := by
    unfold Slice.to Slice.sub
    rw [if_pos ⟨by omega, by have := hv.1; omega⟩]; exact ⟨_, rfl⟩
  obtain ⟨view, hto⟩ := hto
  obtain ⟨x, hx⟩ := hview view hto hlt
  obtain ⟨hdr, hp, _, ht, _⟩ := parse_hdr env.e (d ++ [x]) (by simp; omega)
  rw [num16_append_left (by omega)] at ht
  have e20 : (d ++ [x]).drop 16 = d.drop 16 ++ [x] := by
    rw [List.drop_append_of_le_length (by omega)]
  obtain ⟨hd2, v, hpe, hv0⟩ := parse_err env.e ((d ++ [x]).drop 16) (by simp; omega)
  rw [e20, num32_append_left (by simp; omega)] at hv0
  have hv16 : num32 env.e d 16 = some v.toNat := by
    rw [← hv0]; simp [num32]
  unfold Handle.recv
  simp only [GoM.bind_apply, he, Res.ok_bind, GoM.lift_apply, hto, readBytes, hx, hp]
  by_cases h2 : hdr.type = 2
  · simp only [h2, ↓reduceIte, GoM.bind_apply, GoM.lift_apply, hpe, Res.ok_bind]
    by_cases hc : v.toInt = 0
    · have hno : ¬ Refusal env.e d := by
        intro href
        apply href.2
        rw [hv16, (toInt_eq_zero_iff v).mp hc]
      exact ⟨none, by simp [hc, afterRecv], by simpa using hno, fun h => absurd h hno⟩
    · refine ⟨some (.netlink v.toInt), by simp [hc, afterRecv], ?_, fun _ => ⟨_, rfl, numI32_of hv16⟩⟩
      simp only [reduceCtorEq, false_iff, Classical.not_not]
      refine ⟨by rw [ht, h2]; rfl, ?_⟩
      rw [hv16]
      intro h0
      simp only [Option.some.injEq] at h0
      exact hc ((toInt_eq_zero_iff v).mpr h0)
  · simp only [h2, ↓reduceIte]
    suffices hno : ¬ Refusal env.e d from ⟨none, rfl, by simpa using hno, fun h => absurd h hno⟩
    intro href
    apply h2
    have := href.1
    rw [ht] at this
    simp only [Option.some.injEq] at this
    exact BitVec.eq_of_toNat_eq this

/-- What `recv` does: fails with the receive error; or receives `d`, then crashes or returns, and
returns properly for replies of 20 bytes or more that do not fill the buffer. -/
theorem recv_spec (env : Env) (K : Kernel QEv) (qh : Handle) (w : W) (hv : qh.buf.Valid w.heap)
    (hcap : qh.buf.cap = qh.buf.len) :
    (∃ n, qh.recv env K w = .ok (some (.wrap "Recvfrom returned error %v" (.errno n)),
        { w with trace := w.trace ++ [.recvfrom qh.fd qh.buf.len 0 (.error n)] })) ∨
    (∃ d, d.length ≤ qh.buf.len ∧
      (20 ≤ d.length → d.length < qh.buf.len →
        ∃ r, qh.recv env K w = .ok (r, afterRecv w qh d) ∧ (r = none ↔ ¬ Refusal env.e d) ∧
        (Refusal env.e d → ∃ c : Int, r = some (.netlink c) ∧ numI32 env.e d 16 = some c)) ∧
      (qh.recv env K w = .panic ∨
        d.length < qh.buf.len ∧ ∃ r, qh.recv env K w = .ok (r, afterRecv w qh d))) := by
  rcases recvInto_spec K qh.fd qh.buf 0 w with ⟨err, he⟩ | ⟨d, hd, he⟩
  · left
    exact ⟨err, by
      unfold Handle.recv; simp only [GoM.bind_apply, he, Res.ok_bind]; rfl⟩
  · right
    have hok := fun h20 hlt => recv_ok_of_recvInto env K qh w hv hcap d h20 hlt he
    refine ⟨d, hd, hok, ?_⟩
    unfold Handle.recv
    simp only [GoM.bind_apply, he, Res.ok_bind, GoM.lift_apply, readBytes]
    by_cases hto : d.length + 1 ≤ qh.buf.cap
    · have : qh.buf.to (d.length + 1) = .ok ⟨qh.buf.arr, qh.buf.off + 0, d.length + 1 - 0, qh.buf.cap - 0⟩ := by
        unfold Slice.to Slice.sub; rw [if_pos ⟨by omega, hto⟩]
      rw [this]
      simp only [Res.ok_bind]
      generalize (w.heap.write qh.buf.arr qh.buf.off d).bytes _ = bytes
      rcases hp : netlinkMessageToStruct env.e bytes with ⟨hdr, next, err⟩ | _ | _
      · simp only [Res.ok_bind]
        rcases hdr with _ | hdr
        · left; rfl
        · simp only
          by_cases h2 : hdr.type = 2
          · simp only [h2, ↓reduceIte, GoM.bind_apply, GoM.lift_apply]
            rcases hpe : netlinkErrMessagetoStruct env.e next with ⟨hd2, v⟩ | _ | _
            · right
              refine ⟨by omega, if v = 0 then none else some (.netlink v), ?_⟩
              by_cases hc : v = 0 <;> simp [hc, afterRecv]
            · left; rfl
            · exact absurd hpe (netlinkErr_ne_diverge _ _)
          · right
            exact ⟨by omega, none, by rw [if_neg h2]; rfl⟩
      · left; rfl
      · exact absurd hp (netlinkMsg_ne_diverge _ _)
    · left
      have : qh.buf.to (d.length + 1) = .panic := by
        unfold Slice.to Slice.sub; rw [if_neg (by omega)]
      rw [this]; rfl

/-- A query appends its events, may change the contents of the receive buffer, and nothing else. -/
theorem query_spec (env : Env) (K : Kernel QEv) (qh : Handle) (msg : NetlinkMessage) (w : W)
    (hv : qh.buf.Valid w.heap) (hcap : qh.buf.cap = qh.buf.len) (r : Option Err) (w' : W)
    (h : qh.query env K msg w = .ok (r, w')) :
    ∃ evs, QueryOut env.e qh.fd qh.buf.len (hdrBytes env.e msg.header ++ msg.data) r evs ∧
      w'.trace = w.trace ++ evs ∧ w'.st = w.st ∧
      (w'.heap = w.heap ∨ ∃ d, d.length ≤ qh.buf.len ∧ w'.heap = w.heap.write qh.buf.arr qh.buf.off d) := by
  obtain ⟨r1, evs1, hs, hse⟩ := send_spec env K qh msg w
  unfold Handle.query at h
  simp only [GoM.bind_apply, hs, Res.ok_bind] at h
  rcases r1 with _ | n
  · simp only [Option.map_none] at h
    rcases recv_spec env K qh { w with trace := w.trace ++ evs1 } hv hcap with
      ⟨n, hr⟩ | ⟨d, hd, hok, hcase⟩
    · rw [hr] at h
      simp only [Res.ok.injEq, Prod.mk.injEq] at h
      obtain ⟨rfl, rfl⟩ := h
      exact ⟨_, .recvFailed (n := n) hse, by simp, rfl, Or.inl rfl⟩
    · rcases hcase with hp | ⟨hlt, r', hr⟩
      · rw [hp] at h; cases h
      · have h' := h
        rw [hr] at h
        simp only [Res.ok.injEq, Prod.mk.injEq] at h
        obtain ⟨rfl, rfl⟩ := h
        refine ⟨_, .replied (d := d) hse hlt ?_ ?_, by simp [afterRecv], rfl, Or.inr ⟨d, hd, rfl⟩⟩
        · intro h20
          obtain ⟨r2, hr2, hiff, _⟩ := hok h20 hlt
          rw [hr] at hr2
          simp only [Res.ok.injEq, Prod.mk.injEq] at hr2
          rw [hr2.1]; exact hiff
        · intro h20
          obtain ⟨r2, hr2, _, hcode⟩ := hok h20 hlt
          rw [hr] at hr2
          simp only [Res.ok.injEq, Prod.mk.injEq] at hr2
          rw [hr2.1]; exact hcode
  · simp only [Option.map_some, GoM.pure_apply, Res.ok.injEq, Prod.mk.injEq] at h
    obtain ⟨rfl, rfl⟩ := h
    exact ⟨evs1, .sendFailed hse, rfl, rfl, Or.inl rfl⟩

/-- A query returns (does not crash) whenever replies have 20 bytes or more and leave room. -/
theorem query_returns (env : Env) (K : Kernel QEv) (qh : Handle) (msg : NetlinkMessage) (w : W)
    (hv : qh.buf.Valid w.heap) (hcap : qh.buf.cap = qh.buf.len)
    (hk : ∀ evs d, K.recv (w.trace ++ evs) qh.fd = .ok d → 20 ≤ d.length ∧ d.length < qh.buf.len) :
    ∃ r w', qh.query env K msg w = .ok (r, w') := by
  obtain ⟨r1, evs1, hs, hse⟩ := send_spec env K qh msg w
  unfold Handle.query
  simp only [GoM.bind_apply, hs, Res.ok_bind]
  rcases r1 with _ | n
  · simp only [Option.map_none]
    rcases h : K.recv (w.trace ++ evs1) qh.fd with err | d
    · have : recvInto K qh.fd qh.buf 0 { w with trace := w.trace ++ evs1 }
          = .ok (.error err, { w with trace := w.trace ++ evs1 ++ [.recvfrom qh.fd qh.buf.len 0 (.error err)] }) := by
        simp [recvInto, recvfrom, rawRecvfrom, h, World.log, Except.map]
      unfold Handle.recv
      simp only [GoM.bind_apply, this, Res.ok_bind]
      exact ⟨_, _, rfl⟩
    · obtain ⟨h20, hlt⟩ := hk _ _ h
      rcases recv_spec env K qh { w with trace := w.trace ++ evs1 } hv hcap with
        ⟨n, hr⟩ | ⟨d', hd', hok, hcase⟩
      · exact ⟨_, _, hr⟩
      · rcases hcase with hp | ⟨_, r', hr⟩
        · exfalso
          have hri : recvInto K qh.fd qh.buf 0 { w with trace := w.trace ++ evs1 }
              = .ok (.ok d.length, { w with trace := w.trace ++ evs1 ++ [.recvfrom qh.fd qh.buf.len 0 (.ok d)],
                                            heap := w.heap.write qh.buf.arr qh.buf.off d }) := by
            simp [recvInto, recvfrom, rawRecvfrom, h, World.log, Except.map,
              List.take_of_length_le (Nat.le_of_lt hlt)]
          obtain ⟨r2, hr2⟩ := recv_ok_of_recvInto env K qh { w with trace := w.trace ++ evs1 } hv hcap d h20 hlt hri
          rw [hr2.1] at hp; cases hp
        · exact ⟨_, _, hr⟩
  · exact ⟨_, _, rfl⟩

end Verif.NfQueue
