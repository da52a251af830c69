import Verif.Props.NfQueueLimits
import Verif.Props.NfQueueVerdict
/-! C98 and C99: verdicts given late, and packets that arrive while the queue is being configured. -/
namespace Verif.Props
open Verif.Common Verif.Sys Verif.Spec Verif.NfQueue

/-! ### C98 -/

theorem PacketMsg.size {e : Endian} {d : List Byte} {id : Nat} {payload : List Byte} (h : PacketMsg e d id payload) :
    1 ≤ payload.length ∧ payload.length ≤ 65531 := by
  obtain ⟨attrs, p, hc, _, _, _, hl10, hne⟩ := h
  refine ⟨List.length_pos_iff.mpr hne, ?_⟩
  obtain ⟨_, _, _, hall⟩ := hc
  unfold lastOf at hl10
  rw [Option.map_eq_some_iff] at hl10
  obtain ⟨a, ha, rfl⟩ := hl10
  exact (hall a ((List.mem_filter.mp (List.mem_of_getLast? ha)).1)).2

/-- C98 is violated: an application that keeps the packet it was given and answers after the reader has received the
next one (`d2`, at least as long) makes the kernel accept the first packet with the bytes that are at its place in the
second datagram. For every verdict, mark and pair of packets. -/
theorem C98_late_verdict_violated (env : Env) (hidle : ∀ w, env.cbEffect w = w) (K : Kernel QEv) (w : W) (qh : Handle)
    (cb ecb priv size : Nat) (queue : U16) (hI : EchoInv w qh cb ecb priv size queue)
    (d1 d2 : List Byte) (id1 id2 : Nat) (p1 p2 : List Byte)
    (h1 : K.recv w.trace qh.fd = .ok d1) (h2 : ∀ evs, evs ≠ [] → K.recv (w.trace ++ evs) qh.fd = .ok d2)
    (hl : d1.length ≤ d2.length) (hs : d2.length ≤ size)
    (hP1 : PacketMsg env.e d1 id1 p1) (hP2 : PacketMsg env.e d2 id2 p2)
    (hE1 : ¬ ErrMsg env.e d1) (hE2 : ¬ ErrMsg env.e d2) (verdict mark : U32) :
    ∃ (w1 w2 w3 : W) (s : Slice) (mark1 mark2 k : Nat) (b : List Byte) (r : Option Nat),
      -- the first packet is received, and the callback given the slice `s`, which holds the packet
      receiveOne env K w = .ok ((), w1) ∧ w1.trace = w.trace ++
        [.recvfrom qh.fd size 0x100 (.ok d1), .app (.packet cb p1 mark1 id1 priv)] ∧
      w1.st.attrs 10 = some s ∧ w1.heap.bytes s = p1 ∧
      -- the second is received
      receiveOne env K w1 = .ok ((), w2) ∧ w2.trace = w1.trace ++
        [.recvfrom qh.fd size 0x100 (.ok d2), .app (.packet cb p2 mark2 id2 priv)] ∧
      -- the verdict on the first is given
      setVerdict2 env K (queue.setWidth 32) verdict mark (BitVec.ofNat 32 p1.length) (BitVec.ofNat 32 id1) s w2 = .ok ((), w3) ∧
      w3.trace = w2.trace ++ [.sendmsg qh.fd b r] ∧
      -- it carries bytes of the second datagram: those at the place `p1` had in the first
      (d1.drop k).take p1.length = p1 ∧
      decodeNf env.e b = some ⟨44 + p1.length, 0x301, 1, 0, 0, 0, 0, queue.toNat,
        [verdictAttr env.e verdict.toNat id1, markAttr mark.toNat, payloadAttr ((d2.drop k).take p1.length)]⟩ := by
  obtain ⟨w1, w2, s, mark1, mark2, k, a, b, c, d, e, f, g, h, i, hV, hv, hsl, hne, hq⟩ :=
    received_twice env hidle K w qh cb ecb priv size queue hI d1 d2 id1 id2 p1 p2 h1 h2 hl hs hP1 hP2 hE1 hE2
  have hsz := hP1.size
  have hid : id1 < 2 ^ 32 := by
    obtain ⟨_, p, _, _, _, hn, _⟩ := hP1
    exact num32_lt hn
  obtain ⟨bs, r, w3, j1, j2, j3⟩ := C17_verdict2_partial env K (queue.setWidth 32) verdict mark (BitVec.ofNat 32 p1.length)
    (BitVec.ofNat 32 id1) s w2 qh hV hv hne (by rw [BitVec.toNat_ofNat]; omega) (by omega) (by omega)
  rw [hq, BitVec.toNat_ofNat, Nat.mod_eq_of_lt hid, hsl, i] at j3
  exact ⟨w1, w2, w3, s, mark1, mark2, k, bs, r, a, b, c, d, e, f, j1, j2, h, j3⟩

/-- C98, a concrete case: packet 1 (1 2 3 4) is accepted with the payload 9 8 7 6 of packet 2. -/
theorem C98_example : ∃ (w1 w2 w3 : W) (s : Slice) (b : List Byte) (r : Option Nat),
    receiveOne someEnv reusing readerWorld = .ok ((), w1) ∧ w1.st.attrs 10 = some s ∧ w1.heap.bytes s = [1, 2, 3, 4] ∧
    receiveOne someEnv reusing w1 = .ok ((), w2) ∧
    setVerdict2 someEnv reusing 5 1 0 4 1 s w2 = .ok ((), w3) ∧ w3.trace = w2.trace ++ [.sendmsg 3 b r] ∧
    decodeNf .little b = some ⟨48, 0x301, 1, 0, 0, 0, 0, 5,
      [verdictAttr .little 1 1, markAttr 0, payloadAttr [9, 8, 7, 6]]⟩ := by
  obtain ⟨w1, w2, w3, s, _, _, k, b, r, h1, _, h2, h3, h4, _, h5, h6, h7, h8⟩ :=
    C98_late_verdict_violated someEnv (fun _ => rfl) reusing readerWorld ⟨3, Slice.nil⟩ 1 2 3 64 5 readerWorld_inv
      dgram1 dgram3 1 2 [1, 2, 3, 4] [9, 8, 7, 6] rfl
      (by intro evs h; cases evs with
          | nil => exact absurd rfl h
          | cons => rfl) (by decide) (by decide) dgram1_msg
      ⟨[(1, [2, 0, 0, 0]), (3, [0, 0, 0, 7]), (10, [9, 8, 7, 6])], [2, 0, 0, 0], ⟨zeros 20, rfl, rfl, by decide⟩,
        by decide, rfl, rfl, rfl, by decide⟩
      (by unfold ErrMsg; decide) (by unfold ErrMsg; decide) 1 0
  have hall : ∀ k, k < 60 → (dgram1.drop k).take 4 = [1, 2, 3, 4] → (dgram3.drop k).take 4 = [9, 8, 7, 6] := by decide
  have hk : k < 60 := by
    refine Nat.lt_of_not_le fun hk => ?_
    rw [List.drop_of_length_le (by have : dgram1.length < 60 := by decide
                                   omega)] at h7
    simp at h7
  rw [show ([1, 2, 3, 4] : List Byte).length = 4 from rfl] at h7 h8
  rw [hall k hk h7] at h8
  exact ⟨w1, w2, w3, s, b, r, h1, h2, h3, h4, h5, h6, h8⟩

/-! ### C99 -/

/-- A configuration call whose request is accepted and that receives `d`, whatever `d` is, if it is no error message:
it returns nil, and what it received is gone. -/
theorem config_takes (env : Env) (K : Kernel QEv) (c : ConfigCall) (w : W) (qh : Handle) (hR : Ready w qh)
    (hs : ∀ b, K.send w.trace qh.fd b = none) (d : List Byte)
    (hr : ∀ b, K.recv (w.trace ++ [.sendto qh.fd b 0 none]) qh.fd = .ok d)
    (h20 : 20 ≤ d.length) (hlt : d.length < qh.buf.len) (hE : ¬ ErrMsg env.e d) :
    ∃ b w', c.run env K w = .ok (none, w') ∧ Encodes env.e b (c.req w.st.queueNum) ∧
      w'.trace = w.trace ++ [.sendto qh.fd b 0 none, .recvfrom qh.fd qh.buf.len 0 (.ok d)] ∧
      w'.st = c.record w.st ∧ SameShape w.heap w'.heap := by
  obtain ⟨msg, he, henc⟩ := run_eq env K c w
  have hh : (c.record w.st).handle = some qh := by cases c <;> exact hR.1
  have hsend : qh.send env K msg { w with st := c.record w.st } = .ok (none, { w with
      trace := w.trace ++ [.sendto qh.fd (hdrBytes env.e msg.header ++ msg.data) 0 none], st := c.record w.st }) := by
    unfold Handle.send
    simp [wireBytes_eq, sendto, rawSendto, hs, World.log]
  have hri : recvInto K qh.fd qh.buf 0 { w with
        trace := w.trace ++ [.sendto qh.fd (hdrBytes env.e msg.header ++ msg.data) 0 none], st := c.record w.st }
      = .ok (.ok d.length, { w with heap := w.heap.write qh.buf.arr qh.buf.off d, st := c.record w.st, trace := w.trace ++
          [.sendto qh.fd (hdrBytes env.e msg.header ++ msg.data) 0 none] ++ [.recvfrom qh.fd qh.buf.len 0 (.ok d)] }) := by
    simp [recvInto, recvfrom, rawRecvfrom, hr, World.log, Except.map,
      List.take_of_length_le (Nat.le_of_lt hlt)]
  obtain ⟨r, ha, hb, _⟩ := recv_ok_of_recvInto env K qh { w with
        trace := w.trace ++ [.sendto qh.fd (hdrBytes env.e msg.header ++ msg.data) 0 none], st := c.record w.st }
    hR.2.1 hR.2.2 d h20 hlt hri
  have hr0 : r = none := hb.mpr hE
  subst hr0
  refine ⟨hdrBytes env.e msg.header ++ msg.data, afterRecv { w with
        trace := w.trace ++ [.sendto qh.fd (hdrBytes env.e msg.header ++ msg.data) 0 none], st := c.record w.st } qh d,
    ?_, henc, by simp [afterRecv], rfl, ?_⟩
  · rw [he]
    unfold queryOrFail
    simp only [GoM.bind_apply, getQ, Res.ok_bind, hh]
    unfold Handle.query
    simp only [GoM.bind_apply, hsend, Res.ok_bind]
    exact ha
  · intro a
    have h1 := hR.2.1.1
    have h2 := hR.2.1.2
    exact (Heap.arrayOf_length_write (by omega)).symm

/-- C99 is violated: a packet that is next in the socket's queue when a configuration call on a served queue awaits
its reply is taken for the acknowledgement: the call returns nil, and no callback is ever told of the packet. The
acknowledgement itself then reaches the reader, which (little-endian hosts) reports it to the application as an error;
nobody looked at what it says. -/
theorem C99_packet_taken_violated (env : Env) (he : env.e = .little) (K : Kernel QEv) (c : ConfigCall) (w : W) (qh : Handle)
    (cb ecb priv size : Nat) (queue : U16) (hI : EchoInv w qh cb ecb priv size queue) (hR : Ready w qh) (h36 : 36 ≤ size)
    (hc : ∀ num cb ecb pd, c ≠ .createQueue num cb ecb pd) (hs : ∀ b, K.send w.trace qh.fd b = none)
    (d ack : List Byte) (id : Nat) (payload : List Byte) (reqLen : Nat)
    (hP : PacketMsg env.e d id payload) (hE : ¬ ErrMsg env.e d) (hlt : d.length < qh.buf.len)
    (hA : IsAck env.e ack reqLen) (h16 : 16 < reqLen) (h64 : reqLen < 65536)
    (hr : ∀ b, K.recv (w.trace ++ [.sendto qh.fd b 0 none]) qh.fd = .ok d)
    (hr' : ∀ b, K.recv (w.trace ++ [.sendto qh.fd b 0 none, .recvfrom qh.fd qh.buf.len 0 (.ok d)]) qh.fd = .ok ack) :
    ∃ b w1 w2 nf, Encodes env.e b (c.req queue) ∧ c.run env K w = .ok (none, w1) ∧
      w1.trace = w.trace ++ [.sendto qh.fd b 0 none, .recvfrom qh.fd qh.buf.len 0 (.ok d)] ∧
      receiveOne env K w1 = .ok ((), env.cbEffect w2) ∧
      w2.trace = w1.trace ++ [.recvfrom qh.fd size 0x100 (.ok ack), .app (.error ecb (.wrap "Netlink error %v" (.msg "Bad Attr")) nf)] := by
  have h20 : 20 ≤ d.length := by
    obtain ⟨attrs, p, hc, h4, _⟩ := hP
    exact (carries_proper hc h4).1
  obtain ⟨b, w1, r1, r2, r3, r4, r5⟩ := config_takes env K c w qh hR hs d hr h20 hlt hE
  have hrec : c.record w.st = w.st := by
    cases c with
    | createQueue num cb ecb pd => exact absurd rfl (hc num cb ecb pd)
    | _ => rfl
  rw [hrec] at r4
  obtain ⟨⟨hS, hcb, hecb, rfl, rfl⟩, hO, hsep, rfl⟩ := hI
  have hI1 : EchoInv w1 qh cb ecb w.st.privateData w.st.buf.len w.st.queueNum := by
    refine ⟨⟨⟨by rw [r4]; exact hS.handle, by rw [r4]; exact r5.valid hS.buf, by rw [r4]; exact hS.small,
      by rw [r4]; exact r5.valid hS.hdr, by rw [r4]; exact hS.hdr40, by rw [r4]; exact hS.sep,
      by rw [r4]; exact hS.reg⟩, by rw [r4]; exact hcb, by rw [r4]; exact hecb, by rw [r4], by rw [r4]⟩, ?_, ?_, by rw [r4]⟩
    · intro k s hk
      rw [r4] at hk
      exact ⟨r5.valid (hO k s hk).1, (hO k s hk).2⟩
    · intro k s hk
      rw [r4] at hk ⊢
      exact hsep k s hk
  obtain ⟨w2, nf, t2, e2⟩ := C83_ack_reported_violated env he K w1 qh cb ecb _ _ _ hI1 h36 ack reqLen hA h16 h64
    (by rw [r3]; exact hr' b)
  exact ⟨b, w1, w2, nf, r2, r1, r3, e2, t2⟩

/-- Delivers `dgram1`, then (once two events have happened) acknowledgements of a 28-byte request. -/
def lateAck : Kernel QEv :=
  { yesKernel with recv := fun tr _ => .ok (if tr.length = 1 then dgram1 else
      [36, 0, 0, 0, 2, 0, 0, 0] ++ zeros 8 ++ [0, 0, 0, 0] ++ [28, 0, 0, 0] ++ zeros 12) }

/-- C99, a concrete case: SetQueueMaxLen(100) on the queue of `stopWorld`. -/
theorem C99_example : ∃ b w1 w2 nf, Encodes .little b (.setMaxLen 5 100) ∧
      nfqSetQueueMaxLen someEnv lateAck 100 stopWorld = .ok (none, w1) ∧
      w1.trace = [.sendto 3 b 0 none, .recvfrom 3 64 0 (.ok dgram1)] ∧
      receiveOne someEnv lateAck w1 = .ok ((), w2) ∧
      w2.trace = w1.trace ++ [.recvfrom 3 64 0x100 (.ok ([36, 0, 0, 0, 2, 0, 0, 0] ++ zeros 8 ++ [0, 0, 0, 0]
        ++ [28, 0, 0, 0] ++ zeros 12)), .app (.error 2 (.wrap "Netlink error %v" (.msg "Bad Attr")) nf)] := by
  have hI : EchoInv stopWorld ⟨3, ⟨5, 0, 64, 64⟩⟩ 1 2 3 64 5 := by
    refine ⟨C84_example.1, ?_, readerWorld_inv.sep, rfl⟩
    intro k s hk
    have h := readerWorld_attrsOk k s hk
    refine ⟨⟨h.1.1, ?_⟩, h.2⟩
    have h2 := h.1.2
    simp only [stopWorld, readerWorld] at hk
    by_cases k1 : k = 1
    · simp [k1] at hk; subst hk; decide
    by_cases k3 : k = 3
    · simp [k3] at hk; subst hk; decide
    by_cases k10 : k = 10
    · simp [k10] at hk; subst hk; decide
    simp [k1, k3, k10] at hk
  obtain ⟨b, w1, w2, nf, h1, h2, h3, h4, h5⟩ := C99_packet_taken_violated someEnv rfl lateAck (.setMaxLen 100) stopWorld _
    1 2 3 64 5 hI C84_example.2.1 (by decide) (by intros; simp) (fun _ => rfl) dgram1
    ([36, 0, 0, 0, 2, 0, 0, 0] ++ zeros 8 ++ [0, 0, 0, 0] ++ [28, 0, 0, 0] ++ zeros 12) 1 [1, 2, 3, 4] 28
    dgram1_msg (by unfold ErrMsg; decide) (by decide) (by unfold IsAck; decide) (by decide) (by decide)
    (fun _ => rfl) (fun _ => rfl)
  exact ⟨b, w1, w2, nf, h1, h2, h3, h4, h5⟩

end Verif.Props
