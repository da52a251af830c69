import Verif.Props.NfQueueEcho
import Verif.Spec.Kernel
/-! C82-C84: what the receive loop does not promise. -/
namespace Verif.Props
open Verif.Common Verif.Sys Verif.Spec Verif.NfQueue

/-! ### C82 -/

theorem bytes_of_stored {w : W} (hb : w.st.buf.Valid w.heap) {d : List Byte} (hd : d.length ≤ w.st.buf.len)
    (k n c : Nat) (hk : k + n ≤ d.length) :
    (stored w d).bytes ⟨w.st.buf.arr, w.st.buf.off + k, n, c⟩ = (d.drop k).take n := by
  obtain ⟨v, _, hvb, rfl⟩ := view_bytes hb hd
  have hr : (d.drop k).take n = (((stored w d).bytes ⟨w.st.buf.arr, w.st.buf.off, d.length, w.st.buf.cap⟩).drop k).take n := by
    rw [hvb]
  rw [hr]
  simp only [Heap.bytes, List.drop_take, List.drop_drop, List.take_take]
  congr 1
  omega

/-- Two packets in a row: what the slice delivered for the first one shows after the second. -/
theorem received_twice (env : Env) (hidle : ∀ w, env.cbEffect w = w) (K : Kernel QEv) (w : W) (qh : Handle)
    (cb ecb priv size : Nat) (queue : U16) (hI : EchoInv w qh cb ecb priv size queue)
    (d1 d2 : List Byte) (id1 id2 : Nat) (p1 p2 : List Byte)
    (h1 : K.recv w.trace qh.fd = .ok d1) (h2 : ∀ evs, evs ≠ [] → K.recv (w.trace ++ evs) qh.fd = .ok d2)
    (hl : d1.length ≤ d2.length) (hs : d2.length ≤ size)
    (hP1 : PacketMsg env.e d1 id1 p1) (hP2 : PacketMsg env.e d2 id2 p2)
    (hE1 : ¬ ErrMsg env.e d1) (hE2 : ¬ ErrMsg env.e d2) :
    ∃ (w1 w2 : W) (s : Slice) (mark1 mark2 k : Nat),
      receiveOne env K w = .ok ((), w1) ∧ w1.trace = w.trace ++
        [.recvfrom qh.fd size 0x100 (.ok d1), .app (.packet cb p1 mark1 id1 priv)] ∧
      w1.st.attrs 10 = some s ∧ w1.heap.bytes s = p1 ∧
      receiveOne env K w1 = .ok ((), w2) ∧ w2.trace = w1.trace ++
        [.recvfrom qh.fd size 0x100 (.ok d2), .app (.packet cb p2 mark2 id2 priv)] ∧
      k + p1.length ≤ d1.length ∧ (d1.drop k).take p1.length = p1 ∧
      w2.heap.bytes s = (d2.drop k).take p1.length ∧
      VReady w2 qh ∧ s.Valid w2.heap ∧ s.len = p1.length ∧ s.arr ≠ w2.st.hdrSlice.arr ∧ w2.st.queueNum = queue := by
  obtain ⟨⟨hS, hcb, hecb, rfl, rfl⟩, hO, hsep, rfl⟩ := hI
  have t1 : d1.take w.st.buf.len = d1 := List.take_of_length_le (by omega)
  have t2 : d2.take w.st.buf.len = d2 := List.take_of_length_le hs
  obtain ⟨mark1, m1, s, e1, a1, v1, b1, sep1, reg1, ok1, pl1, pl2, pl3, _⟩ := receive_packet (env := env) hS hO hsep hcb h1
    (by rw [t1]; exact hP1) (by rw [t1]; exact hE1)
  rw [t1, hidle] at e1
  rw [t1] at b1 pl3 v1 ok1
  generalize hw1 : (⟨w.trace ++ [.recvfrom qh.fd w.st.buf.len 0x100 (.ok d1),
          .app (.packet cb p1 mark1 id1 w.st.privateData)], stored w d1,
          { w.st with attrs := m1, processed := w.st.processed + 1 }⟩ : W) = w1 at e1
  have f1 : w1.heap = stored w d1 := by rw [← hw1]
  have f2 : w1.st = { w.st with attrs := m1, processed := w.st.processed + 1 } := by rw [← hw1]
  have f3 : w1.trace = w.trace ++ [.recvfrom qh.fd w.st.buf.len 0x100 (.ok d1),
          .app (.packet cb p1 mark1 id1 w.st.privateData)] := by rw [← hw1]
  have hS1 : Serving w1 qh := by
    rw [← hw1]
    exact hS.after (by omega) rfl rfl rfl rfl reg1
  have hO1 : AttrsOk w1 := by
    intro k t hk
    rw [f2] at hk
    rw [f1]
    exact ok1 k t hk
  have hb1 : w1.st.buf = w.st.buf := by rw [f2]
  obtain ⟨mark2, m2, s2, e2, _⟩ := receive_packet (env := env) (w := w1) hS1 hO1
    (by rw [f2]; exact sep1) (by rw [f2]; exact hcb) (by rw [f3]; exact h2 _ (by simp))
    (by rw [hb1, t2]; exact hP2) (by rw [hb1, t2]; exact hE2)
  rw [hb1, t2, hidle] at e2
  have hsl : s.len = p1.length := by rw [← b1, Heap.bytes_length v1]
  have hs' : s = ⟨w1.st.buf.arr, w1.st.buf.off + (s.off - w1.st.buf.off), p1.length, s.cap⟩ := by
    rw [hb1, ← hsl]
    cases s
    simp only at pl1 pl2 ⊢
    rw [pl1]
    congr 1
    omega
  have hk : s.off - w1.st.buf.off + p1.length ≤ d1.length := by rw [hb1]; omega
  refine ⟨w1, _, s, mark1, mark2, s.off - w1.st.buf.off, e1, f3, by rw [f2]; exact a1, by rw [f1]; exact b1, e2,
    by rw [f2], hk, ?_, ?_, ⟨?_, ?_, ?_⟩, ?_, hsl, ?_, by rw [f2]⟩
  · have := bytes_of_stored hS.buf (d := d1) (by omega) (s.off - w1.st.buf.off) p1.length s.cap hk
    rw [hb1] at this hs'
    rw [hb1, ← this, ← hs', b1]
  · have := bytes_of_stored hS1.buf (d := d2) (by rw [hb1]; exact hs) (s.off - w1.st.buf.off) p1.length s.cap (by omega)
    rw [← this, ← hs']
  · exact hS1.handle
  · exact stored_valid hS1.buf (by rw [hb1]; exact hs) hS1.hdr
  · exact hS1.hdr40
  · exact stored_valid hS1.buf (by rw [hb1]; exact hs) (by rw [f1]; exact v1)
  · show s.arr ≠ w1.st.hdrSlice.arr
    rw [f2]
    exact sep1 10 s a1

/-- C82, the part of the claim that holds in general: for an application whose callback does nothing, after one packet
datagram `d1` and then another `d2` at least as long, the memory the first callback was given as the packet
(slice `s`, which then held the packet) holds the bytes that are at the packet's place in `d2`. -/
theorem C82_payload_reused_violated (env : Env) (hidle : ∀ w, env.cbEffect w = w) (K : Kernel QEv) (w : W) (qh : Handle)
    (cb ecb priv size : Nat) (queue : U16) (hI : EchoInv w qh cb ecb priv size queue)
    (d1 d2 : List Byte) (id1 id2 : Nat) (p1 p2 : List Byte)
    (h1 : K.recv w.trace qh.fd = .ok d1) (h2 : ∀ evs, evs ≠ [] → K.recv (w.trace ++ evs) qh.fd = .ok d2)
    (hl : d1.length ≤ d2.length) (hs : d2.length ≤ size)
    (hP1 : PacketMsg env.e d1 id1 p1) (hP2 : PacketMsg env.e d2 id2 p2)
    (hE1 : ¬ ErrMsg env.e d1) (hE2 : ¬ ErrMsg env.e d2) :
    ∃ (w1 w2 : W) (s : Slice) (mark1 mark2 k : Nat),
      receiveOne env K w = .ok ((), w1) ∧ w1.trace = w.trace ++
        [.recvfrom qh.fd size 0x100 (.ok d1), .app (.packet cb p1 mark1 id1 priv)] ∧
      w1.st.attrs 10 = some s ∧ w1.heap.bytes s = p1 ∧
      receiveOne env K w1 = .ok ((), w2) ∧ w2.trace = w1.trace ++
        [.recvfrom qh.fd size 0x100 (.ok d2), .app (.packet cb p2 mark2 id2 priv)] ∧
      k + p1.length ≤ d1.length ∧ (d1.drop k).take p1.length = p1 ∧
      w2.heap.bytes s = (d2.drop k).take p1.length := by
  obtain ⟨w1, w2, s, mark1, mark2, k, a, b, c, d, e, f, g, h, i, _⟩ := received_twice env hidle K w qh cb ecb priv size queue hI
    d1 d2 id1 id2 p1 p2 h1 h2 hl hs hP1 hP2 hE1 hE2
  exact ⟨w1, w2, s, mark1, mark2, k, a, b, c, d, e, f, g, h, i⟩

/-- A packet like `dgram1` with other payload bytes. -/
def dgram3 : List Byte := zeros 20 ++ encodeAttrs .little [(1, [2, 0, 0, 0]), (3, [0, 0, 0, 7]), (10, [9, 8, 7, 6])]

/-- Delivers `dgram1`, then `dgram3` for ever. -/
def reusing : Kernel QEv := { yesKernel with recv := fun tr _ => .ok (if tr.length = 0 then dgram1 else dgram3) }

theorem readerWorld_inv : EchoInv readerWorld ⟨3, Slice.nil⟩ 1 2 3 64 5 := by
  refine ⟨readerWorld_setup, readerWorld_attrsOk, ?_, rfl⟩
  intro k s hk
  simp only [readerWorld] at hk ⊢
  by_cases k1 : k = 1
  · simp [k1] at hk; subst hk; simp
  by_cases k3 : k = 3
  · simp [k3] at hk; subst hk; simp
  by_cases k10 : k = 10
  · simp [k10] at hk; subst hk; simp
  simp [k1, k3, k10] at hk

/-- C82, a concrete case: the callback was given 1 2 3 4; after the next packet its slice reads 9 8 7 6. -/
theorem C82_example : ∃ (w1 w2 : W) (s : Slice),
    receiveOne someEnv reusing readerWorld = .ok ((), w1) ∧ w1.st.attrs 10 = some s ∧
    w1.heap.bytes s = [1, 2, 3, 4] ∧
    receiveOne someEnv reusing w1 = .ok ((), w2) ∧ w2.heap.bytes s = [9, 8, 7, 6] := by
  obtain ⟨w1, w2, s, _, _, k, h1, _, h2, h3, h4, _, h5, h6, h7⟩ :=
    C82_payload_reused_violated someEnv (fun _ => rfl) reusing readerWorld ⟨3, Slice.nil⟩ 1 2 3 64 5 readerWorld_inv
      dgram1 dgram3 1 2 [1, 2, 3, 4] [9, 8, 7, 6] rfl
      (by intro evs h; cases evs with
          | nil => exact absurd rfl h
          | cons => rfl) (by decide) (by decide) dgram1_msg
      ⟨[(1, [2, 0, 0, 0]), (3, [0, 0, 0, 7]), (10, [9, 8, 7, 6])], [2, 0, 0, 0], ⟨zeros 20, rfl, rfl, by decide⟩,
        by decide, rfl, rfl, rfl, by decide⟩
      (by unfold ErrMsg; decide) (by unfold ErrMsg; decide)
  refine ⟨w1, w2, s, h1, h2, h3, h4, ?_⟩
  rw [h7]
  have hall : ∀ k, k < 60 → (dgram1.drop k).take 4 = [1, 2, 3, 4] → (dgram3.drop k).take 4 = [9, 8, 7, 6] := by decide
  exact hall k (by have : dgram1.length < 60 := by decide
                   omega) h6

/-! ### C83 -/

/-- C83 is violated: the type of a message is not looked at. A message of any type, if it consists of attributes,
among them an id and a payload, is handed to the packet callback as a packet. -/
theorem C83_any_type_violated (env : Env) (K : Kernel QEv) (w : W) (qh : Handle)
    (cb ecb priv size : Nat) (queue : U16) (hI : EchoInv w qh cb ecb priv size queue)
    (d : List Byte) (id : Nat) (payload : List Byte) (hd : K.recv w.trace qh.fd = .ok d) (hl : d.length ≤ size)
    (hP : PacketMsg env.e d id payload) (type : Nat) (_ht : num16 env.e d 4 = some type) (hnp : type ≠ 0x300)
    (hne : type ≠ 2) :
    ∃ (w1 : W) (mark : Nat), w1.trace = w.trace ++
        [.recvfrom qh.fd size 0x100 (.ok d), .app (.packet cb payload mark id priv)] ∧
      receiveOne env K w = .ok ((), env.cbEffect w1) := by
  obtain ⟨⟨hS, hcb, hecb, rfl, rfl⟩, hO, hsep, rfl⟩ := hI
  have t1 : d.take w.st.buf.len = d := List.take_of_length_le hl
  obtain ⟨mark, m1, s, e1, _⟩ := receive_packet (env := env) hS hO hsep hcb hd (by rw [t1]; exact hP)
    (by rw [t1]; rintro ⟨h, _⟩; rw [h] at _ht; cases _ht; exact hne rfl)
  rw [t1] at e1
  exact ⟨_, mark, rfl, e1⟩

/-- `dgram1` has type 0. -/
example : num16 .little dgram1 4 = some 0 := by decide

theorem num16_drop (e : Endian) (d : List Byte) (n i : Nat) : num16 e (d.drop n) i = num16 e d (n + i) := by
  unfold num16
  simp [List.getElem?_drop, Nat.add_assoc]

/-- One turn in which an acknowledgement arrives, on a little-endian host. -/
theorem ack_turn (env : Env) (he : env.e = .little) (K : Kernel QEv) (w : W) (qh : Handle)
    (cb ecb priv size : Nat) (queue : U16) (hI : EchoInv w qh cb ecb priv size queue) (hl : 36 ≤ size)
    (d : List Byte) (reqLen : Nat) (hA : IsAck env.e d reqLen) (h16 : 16 < reqLen) (h64 : reqLen < 65536)
    (hd : K.recv w.trace qh.fd = .ok d) :
    ∃ (h' : Heap) (nf : Option NfqGenMsg), (∀ t : Slice, t.Valid w.heap → t.Valid h') ∧
      receiveOne env K w = .ok ((), env.cbEffect ⟨w.trace ++
        [.recvfrom qh.fd size 0x100 (.ok d), .app (.error ecb (.wrap "Netlink error %v" (.msg "Bad Attr")) nf)], h', w.st⟩) := by
  obtain ⟨⟨hS, hcb, hecb, rfl, rfl⟩, hO, hsep, rfl⟩ := hI
  obtain ⟨hlen, hty, hc, hr⟩ := hA
  rcases recv_step env K w qh hS with ⟨n, hn, _⟩ | ⟨d1, d2, hd1, hd2, hle, _, _, hC⟩
  · rw [hd] at hn; cases hn
  rw [hd] at hd1
  cases hd1
  rw [List.take_of_length_le (by omega)] at hd2
  subst hd2
  obtain ⟨g, he2⟩ := hC (by omega) (by rintro ⟨_, h⟩; exact h hc)
  obtain ⟨hb, hv⟩ := attrSlice_bytes hS.buf hle (by omega)
  have hs : (attrSlice w d2).len + 3 < 2 ^ 32 := by
    show d2.length - 20 + 3 < _
    omega
  have hh : HeaderAt env.e ((stored w d2).bytes (attrSlice w d2)) 0 reqLen 0 := by
    rw [hb, he]
    rw [he] at hr
    have hlow : num16 .little d2 20 = some reqLen ∧ num16 .little d2 22 = some 0 := by
      unfold num32 at hr
      unfold num16
      split at hr
      · rename_i x y z t h1 h2 h3 h4
        rw [Option.some.injEq] at hr
        simp only at hr
        simp only [h1, h2, h3, h4, Option.some.injEq]
        have hx := x.isLt; have hy := y.isLt; have hz := z.isLt; have ht := t.isLt
        omega
      · cases hr
    refine ⟨by simp; omega, ?_, ?_⟩
    · rw [num16_drop]; exact hlow.1
    · rw [num16_drop]; exact hlow.2
  have hbad : netlinkMessageToNfAttrStruct env.e (stored w d2) (attrSlice w d2) w.st.attrs
      = .ok (w.st.attrs, none, some (.msg "Bad Attr")) := by
    have hbody := attrBody_at (m := w.st.attrs) hv hs hh
    rw [if_neg (by simp only [attrSlice]; omega)] at hbody
    unfold netlinkMessageToNfAttrStruct
    rw [loop_unfold, hbody]
  rw [hbad] at he2
  have he3 : recv env K w = .ok ((some g, some w.st.attrs, some (.msg "Bad Attr")),
      ⟨w.trace ++ [.recvfrom qh.fd w.st.buf.len 0x100 (.ok d2)], stored w d2, w.st⟩) := he2
  refine ⟨stored w d2, some g, fun t ht => stored_valid hS.buf hle ht, ?_⟩
  unfold receiveOne
  simp only [GoM.bind_apply, he3, Res.ok_bind, getQ, hecb]
  simp [emit, runCallback, World.log]

/-- C83 is violated: on little-endian hosts every acknowledgement of a request longer than 16 bytes (all of them)
that arrives on the queue is reported to the application as an error. -/
theorem C83_ack_reported_violated (env : Env) (he : env.e = .little) (K : Kernel QEv) (w : W) (qh : Handle)
    (cb ecb priv size : Nat) (queue : U16) (hI : EchoInv w qh cb ecb priv size queue) (hl : 36 ≤ size)
    (d : List Byte) (reqLen : Nat) (hA : IsAck env.e d reqLen) (h16 : 16 < reqLen) (h64 : reqLen < 65536)
    (hd : K.recv w.trace qh.fd = .ok d) :
    ∃ (w1 : W) (nf : Option NfqGenMsg), w1.trace = w.trace ++
        [.recvfrom qh.fd size 0x100 (.ok d), .app (.error ecb (.wrap "Netlink error %v" (.msg "Bad Attr")) nf)] ∧
      receiveOne env K w = .ok ((), env.cbEffect w1) := by
  obtain ⟨h', nf, _, h⟩ := ack_turn env he K w qh cb ecb priv size queue hI hl d reqLen hA h16 h64 hd
  exact ⟨_, nf, rfl, h⟩

/-- C83 is violated: on big-endian hosts every acknowledgement makes the reader hang. -/
theorem C83_ack_hangs_violated (env : Env) (he : env.e = .big) (K : Kernel QEv) (w : W) (qh : Handle)
    (cb ecb priv size : Nat) (queue : U16) (hI : EchoInv w qh cb ecb priv size queue) (hl : 36 ≤ size)
    (d : List Byte) (reqLen : Nat) (hA : IsAck env.e d reqLen) (h16 : 16 ≤ reqLen) (h64 : reqLen < 65536)
    (hd : K.recv w.trace qh.fd = .ok d) : receiveOne env K w = .diverge := by
  obtain ⟨⟨hS, hcb, hecb, rfl, rfl⟩, hO, hsep, rfl⟩ := hI
  obtain ⟨hlen, hty, hc, hr⟩ := hA
  rcases recv_step env K w qh hS with ⟨n, hn, _⟩ | ⟨d1, d2, hd1, hd2, hle, _, _, hC⟩
  · rw [hd] at hn; cases hn
  rw [hd] at hd1
  cases hd1
  rw [List.take_of_length_le (by omega)] at hd2
  subst hd2
  obtain ⟨g, he2⟩ := hC (by omega) (by rintro ⟨_, h⟩; exact h hc)
  obtain ⟨hb, hv⟩ := attrSlice_bytes hS.buf hle (by omega)
  have hs : (attrSlice w d2).len + 3 < 2 ^ 32 := by
    show d2.length - 20 + 3 < _
    omega
  have hh : HeaderAt env.e ((stored w d2).bytes (attrSlice w d2)) 0 0 reqLen := by
    rw [hb, he]
    rw [he] at hr
    have hlow : num16 .big d2 20 = some 0 ∧ num16 .big d2 22 = some reqLen := by
      unfold num32 at hr
      unfold num16
      split at hr
      · rename_i x y z t h1 h2 h3 h4
        rw [Option.some.injEq] at hr
        simp only at hr
        simp only [h1, h2, h3, h4, Option.some.injEq]
        have hx := x.isLt; have hy := y.isLt; have hz := z.isLt; have ht := t.isLt
        omega
      · cases hr
    refine ⟨by simp; omega, ?_, ?_⟩
    · rw [num16_drop]; exact hlow.1
    · rw [num16_drop]; exact hlow.2
  rw [C07_loops_forever env.e _ _ hv hs _ reqLen hh (.inl (by omega))] at he2
  unfold receiveOne
  simp only [GoM.bind_apply, he2]
  rfl

/-- An acknowledgement of a 28-byte request, on either byte order. -/
example : IsAck .little ([36, 0, 0, 0, 2, 0, 0, 0] ++ zeros 8 ++ [0, 0, 0, 0] ++ [28, 0, 0, 0] ++ zeros 12) 28 ∧
    IsAck .big ([0, 0, 0, 36, 0, 2, 0, 0] ++ zeros 8 ++ [0, 0, 0, 0] ++ [0, 0, 0, 28] ++ zeros 12) 28 := by
  unfold IsAck; decide

/-! ### C84 -/

/-- StopQueue leaves the queue in the state the reader works on. -/
theorem stop_serving (env : Env) (K : Kernel QEv) (w w' : W) (qh : Handle) (r : Option Err)
    (hR : Ready w qh) (h : stopQueue env K w = .ok (r, w')) :
    w'.st = w.st ∧ SameShape w.heap w'.heap := by
  unfold stopQueue at h
  simp only [GoM.bind_apply] at h
  obtain ⟨⟨rd, w1⟩, hd, h⟩ := Res.bind_eq_ok.mp h
  rw [nfqDestroyQueue_eq] at hd
  obtain ⟨evs, hx, ht, hst, hR1, z1, _⟩ := exchange_of_query hR (enc_unbind _ _) hd
  rcases rd with _ | err
  · simp only [GoM.bind_apply, getQ, Res.ok_bind, hR1.1, Handle.close] at h
    obtain ⟨rc, cl, hc, hcl⟩ := NfQueue.close_spec K qh.fd w1
    simp only [hc, Res.ok_bind, GoM.pure_apply, Res.ok.injEq, Prod.mk.injEq] at h
    obtain ⟨rfl, rfl⟩ := h
    exact ⟨hst, z1⟩
  · simp only [GoM.pure_apply, Res.ok.injEq, Prod.mk.injEq] at h
    obtain ⟨rfl, rfl⟩ := h
    exact ⟨hst, z1⟩

/-- What the application sees of the reader at each turn after the queue was stopped. -/
def badTurn (fd size ecb : Nat) : List (Ev QEv) :=
  [.recvfrom fd size 0x100 (.error 9), .app (.error ecb (.wrap "Netlink error %v" (.wrap "Unable to read from socket %v" (.errno 9))) none)]

theorem spin (env : Env) (hidle : ∀ w, env.cbEffect w = w) (hrun : ∀ tr, env.ctxDone tr = false) (K : Kernel QEv)
    (qh : Handle) (ecb : Nat) (n : Nat) : ∀ w : W, Serving w qh → w.st.errorCallback = some ecb →
    (∀ evs, K.recv (w.trace ++ evs) qh.fd = .error 9) →
    processPackets env K n w = .ok (false,
      { w with trace := w.trace ++ (List.replicate n (badTurn qh.fd w.st.buf.len ecb)).flatten }) := by
  induction n with
  | zero => intro w _ _ _; simp [processPackets]
  | succ n ih =>
    intro w hS hecb hK
    have hK0 := hK []
    rw [List.append_nil] at hK0
    have hr : receiveOne env K w = .ok ((), { w with trace := w.trace ++ badTurn qh.fd w.st.buf.len ecb }) := by
      have hi : recvInto K qh.fd w.st.buf 0x100 w = .ok (.error 9,
          { w with trace := w.trace ++ [.recvfrom qh.fd w.st.buf.len 0x100 (.error 9)] }) := by
        simp [recvInto, recvfrom, rawRecvfrom, hK0, World.log, Except.map]
      have he : recv env K w = .ok ((none, none, some (.wrap "Unable to read from socket %v" (.errno 9))),
          { w with trace := w.trace ++ [.recvfrom qh.fd w.st.buf.len 0x100 (.error 9)] }) := by
        unfold recv
        simp only [GoM.bind_apply, getQ, Res.ok_bind, hS.handle, hi]
        rfl
      unfold receiveOne
      simp only [GoM.bind_apply, he, Res.ok_bind, getQ, hecb]
      simp [emit, runCallback, World.log, hidle, badTurn]
    have hi := ih { w with trace := w.trace ++ badTurn qh.fd w.st.buf.len ecb }
      ⟨hS.handle, hS.buf, hS.small, hS.hdr, hS.hdr40, hS.sep, hS.reg⟩ hecb
      (fun evs => by
        show K.recv (w.trace ++ badTurn qh.fd w.st.buf.len ecb ++ evs) qh.fd = _
        rw [List.append_assoc]
        exact hK _)
    unfold processPackets
    simp only [GoM.bind_apply, processIter, if_neg (show ¬ env.ctxDone w.trace = true by simp [hrun]), hr, Res.ok_bind,
      GoM.pure_apply, Bool.false_eq_true, if_false]
    rw [hi]
    simp [List.replicate_succ]

/-- C84 is violated: after StopQueue succeeded (queue unbound, socket closed) the reader goes on receiving on
the closed descriptor: it does not return, and for every n its next n turns are n failed receives, each reported to
the error callback, with nothing in between. -/
theorem C84_spins_violated (env : Env) (hidle : ∀ w, env.cbEffect w = w) (hrun : ∀ tr, env.ctxDone tr = false)
    (K : Kernel QEv) (w w' : W) (qh : Handle) (cb ecb priv size : Nat) (hS : Setup w qh cb ecb priv size)
    (hR : Ready w qh) (hstop : stopQueue env K w = .ok (none, w'))
    (hK : ∀ evs, K.recv (w'.trace ++ evs) qh.fd = .error 9) (n : Nat) :
    (∃ pre cl, w'.trace = w.trace ++ (pre ++ cl) ∧ CloseEvs qh.fd cl) ∧
    ∃ w'', processPackets env K n w' = .ok (false, w'') ∧
      w''.trace = w'.trace ++ (List.replicate n (badTurn qh.fd size ecb)).flatten := by
  obtain ⟨evs, cl, ht, _, hc, _, _⟩ := C29_stop env K w w' qh none hR hstop
  obtain ⟨hst, hz⟩ := stop_serving env K w w' qh none hR hstop
  obtain ⟨hS, hcb, hecb, rfl, rfl⟩ := hS
  have hS' : Serving w' qh := ⟨by rw [hst]; exact hS.handle, by rw [hst]; exact hz.valid hS.buf,
    by rw [hst]; exact hS.small, by rw [hst]; exact hz.valid hS.hdr, by rw [hst]; exact hS.hdr40,
    by rw [hst]; exact hS.sep, by rw [hst]; exact hS.reg⟩
  have := spin env hidle hrun K qh ecb n w' hS' (by rw [hst]; exact hecb) hK
  rw [hst] at this
  exact ⟨⟨evs, cl, ht, hc rfl⟩, _, this, rfl⟩

/-- C84 is violated: when the context is cancelled after StopQueue succeeded, the reader closes the
descriptor a second time (by then it may be another file's). -/
theorem C84_closes_again_violated (env : Env) (K : Kernel QEv) (w w' : W) (qh : Handle)
    (hR : Ready w qh) (hstop : stopQueue env K w = .ok (none, w')) (hdone : env.ctxDone w'.trace = true) (n : Nat) :
    ∃ pre cl cl2 w'', processPackets env K (n + 1) w' = .ok (true, w'') ∧
      w''.trace = w.trace ++ pre ++ cl ++ cl2 ∧ CloseEvs qh.fd cl ∧ CloseEvs qh.fd cl2 := by
  obtain ⟨evs, cl, ht, _, hc, _, hst⟩ := C29_stop env K w w' qh none hR hstop
  obtain ⟨cl2, h2, hc2⟩ := C25_stops env K w' qh (by rw [hst]; exact hR.1) hdone n
  exact ⟨evs, cl, cl2, _, h2, by simp [ht], hc rfl, hc2⟩

/-- A kernel that acknowledges requests, until the descriptor is closed. -/
def closingKernel : Kernel QEv :=
  { ackKernel 0 with recv := fun tr fd => if tr.any NfQueue.isClose then .error 9 else (ackKernel 0).recv tr fd }

/-- `readerWorld` with a receive buffer for the replies to configuration requests. -/
def stopWorld : W :=
  { readerWorld with
    heap := ⟨[zeros 64, zeros 40, zeros 4, zeros 4, zeros 4, zeros 64]⟩
    st := { readerWorld.st with handle := some ⟨3, ⟨5, 0, 64, 64⟩⟩ } }

/-- The call returned nil. -/
def stopped : Res (Option Err × W) → Bool
  | .ok (none, _) => true
  | _ => false

/-- C84, non-vacuous: there StopQueue succeeds, and afterwards receives fail. -/
theorem C84_example : Setup stopWorld ⟨3, ⟨5, 0, 64, 64⟩⟩ 1 2 3 64 ∧ Ready stopWorld ⟨3, ⟨5, 0, 64, 64⟩⟩ ∧
    ∃ w', stopQueue someEnv closingKernel stopWorld = .ok (none, w') ∧
      ∀ evs, closingKernel.recv (w'.trace ++ evs) 3 = .error 9 := by
  have hR : Ready stopWorld ⟨3, ⟨5, 0, 64, 64⟩⟩ := ⟨rfl, ⟨Nat.le_refl _, by decide⟩, rfl⟩
  refine ⟨⟨⟨rfl, ⟨Nat.le_refl _, by decide⟩, by decide, ⟨Nat.le_refl _, by decide⟩, rfl, by decide,
    readerWorld_serving.reg⟩, rfl, rfl, rfl, rfl⟩, hR, ?_⟩
  have h : ∃ w', stopQueue someEnv closingKernel stopWorld = .ok (none, w') := by
    have hs : stopped (stopQueue someEnv closingKernel stopWorld) = true := by decide +kernel
    revert hs
    cases stopQueue someEnv closingKernel stopWorld with
    | ok p =>
      obtain ⟨_ | err, w'⟩ := p
      · exact fun _ => ⟨w', rfl⟩
      · intro hs; cases hs
    | panic => intro hs; cases hs
    | diverge => intro hs; cases hs
  obtain ⟨w', hw⟩ := h
  refine ⟨w', hw, fun evs => ?_⟩
  obtain ⟨pre, cl, ht, _, hc, _⟩ := C29_stop _ _ _ _ _ _ hR hw
  have hany : (w'.trace ++ evs).any NfQueue.isClose = true := by
    rw [ht]
    rcases hc rfl with rfl | ⟨a, b, rfl⟩ <;> simp [NfQueue.isClose]
  show (if (w'.trace ++ evs).any NfQueue.isClose then _ else _) = _
  rw [if_pos hany]

end Verif.Props
