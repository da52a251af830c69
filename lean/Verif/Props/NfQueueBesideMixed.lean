import Verif.Props.NfQueueBesideKernel
import Verif.Props.NfQueueStale
/-!
C141: a configuration call beside the reader writes the kernel's reply into the buffer the reader decodes its packet from.
-/
namespace Verif.Props
open Verif.Common Verif.Sys Verif.Spec Verif.NfQueue

/-- Two writes at the same place. -/
theorem write_over {h : Heap} {arr off : Nat} {d a : List Byte} (hd : off + d.length ≤ (h.arrayOf arr).length) (ha : a.length ≤ d.length)
    (h0 : 0 < d.length) : (h.write arr off d).write arr off a = h.write arr off (a ++ d.drop a.length) := by
  have hlt : arr < h.arrays.length := Heap.lt_of_arrayOf_pos (by omega)
  have h1 := Heap.arrayOf_write_same (i := off) (bs := d) hlt
  have hs : splice (splice (h.arrayOf arr) off d) off a = splice (h.arrayOf arr) off (a ++ d.drop a.length) := by
    apply List.ext_getElem?
    intro j
    have hl : (splice (h.arrayOf arr) off d).length = (h.arrayOf arr).length := splice_length _ _ _ hd
    have hl' : (a ++ d.drop a.length).length = d.length := by simp; omega
    rw [splice_getElem? _ _ a (by omega), splice_getElem? _ _ d hd, splice_getElem? _ _ (a ++ d.drop a.length) (by omega), hl']
    by_cases hj : off ≤ j ∧ j < off + d.length
    · rw [if_pos hj, if_pos hj]
      by_cases hj' : off ≤ j ∧ j < off + a.length
      · rw [if_pos hj', List.getElem?_append_left (by omega)]
      · rw [if_neg hj', List.getElem?_append_right (by omega), List.getElem?_drop]
        congr 1
        omega
    · rw [if_neg hj, if_neg hj, if_neg (by omega)]
  unfold Heap.write at *
  rw [h1, hs, List.set_set]

theorem recvInto_known {K : Kernel QEv} {fd flags : Nat} {buf : Slice} {w : W} {d : List Byte} (h : K.recv w.trace fd = .ok d) (hd : d.length ≤ buf.len) :
    recvInto K fd buf flags w = .ok (.ok d.length, ⟨w.trace ++ [.recvfrom fd buf.len flags (.ok d)], w.heap.write buf.arr buf.off d, w.st⟩) := by
  simp [recvInto, recvfrom, rawRecvfrom, h, World.log, List.take_of_length_le hd, Except.map]

theorem send_known {env : Env} {K : Kernel QEv} {qh : Handle} {msg : NetlinkMessage} {w : W}
    (h : K.send w.trace qh.fd (hdrBytes env.e msg.header ++ msg.data) = none) :
    qh.send env K msg w = .ok (none, { w with trace := w.trace ++ [.sendto qh.fd (hdrBytes env.e msg.header ++ msg.data) 0 none] }) := by
  obtain ⟨r, evs, h1, h2⟩ := send_spec env K qh msg w
  obtain ⟨evs', h3, hg⟩ := records_send env qh msg w _ _ h1
  simp only [List.append_cancel_left_eq] at h3
  subst h3
  rcases h2 with ⟨rfl, rfl⟩ | ⟨e1, rfl⟩
  · exact h1
  · exfalso
    cases hg with
    | cons ha _ =>
      have : some e1 = K.send w.trace qh.fd (hdrBytes env.e msg.header ++ msg.data) := ha
      rw [h] at this
      cases this

/-- An acknowledgement with the end of a packet message behind it reads, on a little-endian host, like a message with one attribute of type 0 and
whatever attributes begin where the acknowledged request would end. -/
theorem mixed_carries {a d : List Byte} {reqLen : Nat} {rest : List (Nat × List Byte)} (hA : IsAck .little a reqLen) (h16 : 16 ≤ reqLen)
    (h64 : reqLen < 65536) (h4 : reqLen % 4 = 0) (hlen : 20 + reqLen ≤ d.length) (hrest : d.drop (20 + reqLen) = encodeAttrs .little rest)
    (hall : ∀ x ∈ rest, x.1 < 65536 ∧ x.2.length ≤ 65531) :
    ∃ x, Carries .little (a ++ d.drop 36) ((0, x) :: rest) := by
  obtain ⟨ha, _, _, hr⟩ := hA
  have hbytes : (a.drop 20).take 4 = bytes16 .little reqLen ++ bytes16 .little 0 := by
    unfold num32 at hr
    split at hr
    · rename_i b0 b1 b2 b3 e0 e1 e2 e3
      simp only [Option.some.injEq] at hr
      have f0 := b0.isLt; have f1 := b1.isLt; have f2 := b2.isLt; have f3 := b3.isLt
      have hl : (a.drop 20).take 4 = [b0, b1, b2, b3] := by
        apply List.ext_getElem?
        intro i
        rw [List.getElem?_take, List.getElem?_drop]
        match i with
        | 0 => simpa using e0
        | 1 => simpa using e1
        | 2 => simpa using e2
        | 3 => simpa using e3
        | i + 4 => rw [if_neg (by omega)]; rfl
      rw [hl]
      simp only [bytes16, List.cons_append, List.nil_append, List.cons.injEq, and_true]
      refine ⟨?_, ?_, ?_, ?_⟩ <;> apply BitVec.eq_of_toNat_eq <;> simp only [BitVec.toNat_ofNat] <;> omega
    · cases hr
  refine ⟨((a ++ d.drop 36).drop 24).take (reqLen - 4), a.take 20, by simp; omega, ?_, ?_⟩
  · generalize hm : a ++ d.drop 36 = m
    have hml : m.length = d.length := by rw [← hm]; simp; omega
    have h1 : m.take 20 = a.take 20 := by rw [← hm, List.take_append_of_le_length (by omega)]
    have h2 : (m.drop 20).take 4 = bytes16 .little reqLen ++ bytes16 .little 0 := by
      rw [← hbytes, ← hm, List.drop_append_of_le_length (by omega), List.take_append_of_le_length (by simp; omega)]
    have h3 : m.drop (20 + reqLen) = encodeAttrs .little rest := by
      rw [← hrest, ← hm, List.drop_append, List.drop_eq_nil_of_le (by omega), List.nil_append, List.drop_drop]
      congr 1
      omega
    have hx : (((m.drop 24).take (reqLen - 4)).length) = reqLen - 4 := by simp; omega
    have hpad : roundUp4 (reqLen - 4) - (reqLen - 4) = 0 := by unfold roundUp4; omega
    rw [← h1, encodeAttrs, List.flatMap_cons, encodeAttr, hx, hpad, List.replicate_zero, List.append_nil,
      show reqLen - 4 + 4 = reqLen from by omega, ← h2, ← encodeAttrs, ← h3]
    have e1 : m = m.take 20 ++ m.drop 20 := (List.take_append_drop 20 m).symm
    have e2 : m.drop 20 = (m.drop 20).take 4 ++ m.drop 24 := by
      have := (List.take_append_drop 4 (m.drop 20)).symm
      rwa [List.drop_drop] at this
    have e3 : m.drop 24 = (m.drop 24).take (reqLen - 4) ++ m.drop (20 + reqLen) := by
      have := (List.take_append_drop (reqLen - 4) (m.drop 24)).symm
      rwa [List.drop_drop, show 24 + (reqLen - 4) = 20 + reqLen from by omega] at this
    calc m = m.take 20 ++ ((m.drop 20).take 4 ++ ((m.drop 24).take (reqLen - 4) ++ m.drop (20 + reqLen))) := by rw [← e3, ← e2, ← e1]
      _ = _ := by simp only [List.append_assoc]
  · intro x hx
    rcases List.mem_cons.mp hx with rfl | hx
    · simp; omega
    · exact hall x hx

/-- What the packet callback gets if an acknowledgement is received into the buffer between the receive of a packet and its decoding. -/
theorem mixed_turn (env : Env) (he : env.e = .little) (K : Kernel QEv) (a : Ask) (w : W) (qh : Handle) (cb ecb priv size : Nat) (queue : U16)
    (hI : EchoInv w qh cb ecb priv size queue) (hbuf : qh.buf = w.st.buf) (hrec : a.call.record w.st = w.st)
    (d ack : List Byte) (reqLen : Nat) (rest : List (Nat × List Byte)) (p : List Byte) (hds : d.length ≤ size)
    (hA : IsAck .little ack reqLen) (h16 : 16 ≤ reqLen) (h64 : reqLen < 65536) (h4 : reqLen % 4 = 0) (hlen : 20 + reqLen ≤ d.length)
    (hrest : d.drop (20 + reqLen) = encodeAttrs .little rest) (hall : ∀ x ∈ rest, x.1 < 65536 ∧ x.2.length ≤ 65531)
    (hmin : ∀ x ∈ rest, x.1 = 1 ∨ x.1 = 3 → 4 ≤ x.2.length) (hid : lastOf 1 rest = none) (hp : lastOf 10 rest = some p)
    (hd : K.recv w.trace qh.fd = .ok d)
    (hsend : ∀ b, Encodes .little b (a.call.req w.st.queueNum) → K.send (w.trace ++ [.recvfrom qh.fd size 0x100 (.ok d)]) qh.fd b = none)
    (hack : ∀ b, Encodes .little b (a.call.req w.st.queueNum) →
      K.recv (w.trace ++ [.recvfrom qh.fd size 0x100 (.ok d), .sendto qh.fd b 0 none]) qh.fd = .ok ack) :
    ∃ b w' mark id, Encodes .little b (a.call.req w.st.queueNum) ∧
      bsched env K a [true, false, false, true, true, true] ⟨.idle, .start, w⟩ = .ok ⟨.idle, .got qh 36, env.cbEffect w'⟩ ∧
      w'.trace = w.trace ++ [.recvfrom qh.fd size 0x100 (.ok d), .sendto qh.fd b 0 none, .recvfrom qh.fd size 0 (.ok ack),
        .app (.packet cb p mark id priv)] ∧
      ∀ t, w.st.attrs 1 = some t → num32 .little ((stored w (ack ++ d.drop 36)).bytes t) 0 = some id := by
  obtain ⟨⟨hS, hcb, hecb, rfl, rfl⟩, hO, hsep, rfl⟩ := hI
  have hb := msg_encodes env.e a.call w.st.queueNum
  rw [he] at hb
  generalize hB : hdrBytes .little (a.call.msg .little w.st.queueNum).header ++ (a.call.msg .little w.st.queueNum).data = b at hb
  have hsend := hsend b hb
  have hack := hack b hb
  have ha36 := hA.1
  obtain ⟨x, hc⟩ := mixed_carries hA h16 h64 h4 hlen hrest hall
  generalize hm : ack ++ d.drop 36 = m at *
  have hml : m.length = d.length := by rw [← hm]; simp; omega
  -- the reader receives
  have s1 : rstep env K .idle w = .ok (.got w.st.buf d.length, ⟨w.trace ++ [.recvfrom qh.fd w.st.buf.len 0x100 (.ok d)], stored w d, w.st⟩) := by
    simp only [rstep, GoM.bind_apply, getQ, Res.ok_bind, hS.handle, recvInto_known hd hds]
    rfl
  generalize hw1 : (⟨w.trace ++ [.recvfrom qh.fd w.st.buf.len 0x100 (.ok d)], stored w d, w.st⟩ : W) = w1 at s1
  have t1 : w1.trace = w.trace ++ [.recvfrom qh.fd w.st.buf.len 0x100 (.ok d)] := by rw [← hw1]
  have u1 : w1.st = w.st := by rw [← hw1]
  have v1 : w1.heap = stored w d := by rw [← hw1]
  -- the caller sends
  have s2 : astep env K a .start w1 = .ok (.sent qh, { w1 with trace := w1.trace ++ [.sendto qh.fd b 0 none] }) := by
    have hks := send_known (env := env) (K := K) (qh := qh) (msg := a.call.msg env.e w.st.queueNum) (w := w1)
      (by rw [he, hB, t1]; exact hsend)
    rw [he, hB, ← he] at hks
    have hr1 : a.call.record w1.st = w1.st := by rw [u1, hrec]
    have hh1 : w1.st.handle = some qh := by rw [u1]; exact hS.handle
    have hq1 : w1.st.queueNum = w.st.queueNum := by rw [u1]
    simp only [astep, GoM.bind_apply, getQ, Res.ok_bind, modifyQ, hr1, hh1, hq1]
    simp only [hks, Res.ok_bind]
    rfl
  -- and receives the reply
  have s3 : astep env K a (.sent qh) { w1 with trace := w1.trace ++ [.sendto qh.fd b 0 none] } =
      .ok (.got qh 36, ⟨w1.trace ++ [.sendto qh.fd b 0 none] ++ [.recvfrom qh.fd w.st.buf.len 0 (.ok ack)], stored w m, w.st⟩) := by
    have hk : K.recv ({ w1 with trace := w1.trace ++ [.sendto qh.fd b 0 none] } : W).trace qh.fd = .ok ack := by
      show K.recv (w1.trace ++ _) _ = _
      rw [t1, List.append_assoc]
      exact hack
    simp only [astep, GoM.bind_apply]
    rw [recvInto_known (buf := qh.buf) (flags := 0) hk (by rw [hbuf]; omega)]
    have hover : (stored w d).write w.st.buf.arr w.st.buf.off ack = stored w m := by
      unfold stored
      have h1 := hS.buf.1
      have h2 := hS.buf.2
      rw [write_over (by omega) (by omega) (by omega), ha36, hm]
    simp only [Res.ok_bind, hbuf, v1, hover, u1, ha36]
    rfl
  generalize hw3 : (⟨w1.trace ++ [.sendto qh.fd b 0 none] ++ [.recvfrom qh.fd w.st.buf.len 0 (.ok ack)], stored w m, w.st⟩ : W) = w3 at s3
  have t3 : w3.trace = w.trace ++ [.recvfrom qh.fd w.st.buf.len 0x100 (.ok d), .sendto qh.fd b 0 none, .recvfrom qh.fd w.st.buf.len 0 (.ok ack)] := by
    rw [← hw3, t1]; simp
  have u3 : w3.st = w.st := by rw [← hw3]
  have v3 : w3.heap = stored w m := by rw [← hw3]
  -- the reader decodes what is now in the buffer
  have hle : m.length ≤ w.st.buf.len := by omega
  have hmin' : ∀ y ∈ (0, x) :: rest, y.1 = 1 ∨ y.1 = 3 → 4 ≤ y.2.length := by
    intro y hy h
    rcases List.mem_cons.mp hy with rfl | hy
    · simp at h
    · exact hmin y hy h
  have hPr := carries_proper hc hmin'
  have hE : ¬ ErrMsg env.e m := by
    rintro ⟨_, h⟩
    refine h ?_
    rw [he, ← hA.2.2.1, ← hm]
    unfold num32
    rw [List.getElem?_append_left (by omega), List.getElem?_append_left (by omega), List.getElem?_append_left (by omega),
      List.getElem?_append_left (by omega)]
  obtain ⟨_, _, hC⟩ := decode_step env w w3 qh hS hle v3 u3
  obtain ⟨g, hdec⟩ := hC hPr.1 hE
  obtain ⟨hbs, hv⟩ := attrSlice_bytes hS.buf hle hPr.1
  have hs : (attrSlice w m).len + 3 < 2 ^ 32 := by
    have := hS.small
    show m.length - 20 + 3 < _
    omega
  have hc' := hc
  obtain ⟨head, h20, hdecm, hallm⟩ := hc'
  obtain ⟨m', hm', _⟩ := C05_parse_encode .little _ _ hv hs _ hallm (by rw [hbs, hdecm, List.drop_left' h20]) w.st.attrs
  rw [he, hm'] at hdec
  simp only at hdec
  have s4 : rstep env K (.got w.st.buf d.length) w3 = .ok (.parsed (some g) (some m') none, { w3 with st := { w.st with attrs := m' } }) := by
    simp only [rstep, GoM.bind_apply]
    rw [← hml, hdec]
    rfl
  -- and looks at it
  have hOk := attrsOk_parse hS hO hle hPr hm'
  obtain ⟨⟨id, mark, pkt⟩, hi⟩ := info_returns (e := .little) hOk
  obtain ⟨i1, i3, i10⟩ := info_of hi
  have c1 := carried hS hle hm' hc 1 (by simp)
  have c10 := carried hS hle hm' hc 10 (by simp)
  have l1 : lastOf 1 ((0, x) :: rest) = none := by rw [← hid]; simp [lastOf]
  have l10 : lastOf 10 ((0, x) :: rest) = some p := by rw [← hp]; simp [lastOf]
  rw [l1] at c1
  rw [l10] at c10
  obtain ⟨s10, hs10, hb10⟩ := c10
  have s5 : rstep env K (.parsed (some g) (some m') none) { w3 with st := { w.st with attrs := m' } } =
      .ok (.ready id mark pkt, { w3 with st := { w.st with attrs := m', processed := w.st.processed + 1 } }) := by
    simp only [rstep, GoM.bind_apply, getQ, Res.ok_bind, packetInfoM, v3, he, hi, modifyQ]
    rfl
  have s6 : rstep env K (.ready id mark pkt) { w3 with st := { w.st with attrs := m', processed := w.st.processed + 1 } } =
      .ok (.idle, env.cbEffect ⟨w3.trace ++ [.app (.packet cb p mark id w.st.privateData)], stored w m,
        { w.st with attrs := m', processed := w.st.processed + 1 }⟩) := by
    simp only [rstep, GoM.bind_apply, getQ, Res.ok_bind, hcb, emitPacket, runCallback, World.log, v3, i10, hs10, optBytes, hb10]
    rfl
  refine ⟨b, ⟨w3.trace ++ [.app (.packet cb p mark id w.st.privateData)], stored w m, { w.st with attrs := m', processed := w.st.processed + 1 }⟩,
    mark, id, hb, ?_, by rw [t3]; simp, fun t ht => i1 t (by rw [c1]; exact ht)⟩
  simp only [bsched, bstep, s1, s2, s3, s4, s5, s6, Res.ok_bind, pure]

theorem encodeAttrs_append (e : Endian) (xs ys : List (Nat × List Byte)) : encodeAttrs e (xs ++ ys) = encodeAttrs e xs ++ encodeAttrs e ys := by
  simp [encodeAttrs]

/-- C141, refuted. "A packet is handed to the packet callback with its own id." For every little-endian host, kernel and started queue, every call
that does not change the record (`NfqSetMode`, `NfqSetQueueMaxLen`, `StopQueue`, …) made by another goroutine, and every first packet message
whose attributes up to some boundary take as many bytes as the call's request and whose id stands among them: if the reader has received the message, and the
call sends its request and receives the acknowledgement before the reader decodes, the packet callback is called with the packet's payload and
id 0, whatever its id was. -/
theorem C141_wrong_id_violated (env : Env) (he : env.e = .little) (K : Kernel QEv) (queueID : U16) (maxLen size : U32) (cb ecb pd : Nat) (w0 w : W)
    (hstart : createAndStart env K queueID maxLen size (some cb) (some ecb) pd w0 = .ok (none, w))
    (a : Ask) (hca : ∀ num c ec p, a ≠ .config (.createQueue num c ec p))
    (d ack : List Byte) (reqLen : Nat) (first rest : List (Nat × List Byte)) (p : List Byte) (hds : d.length ≤ 76800)
    (hd : Carries .little d (first ++ rest)) (hfirst : (encodeAttrs .little first).length = reqLen) (h16 : 16 ≤ reqLen) (h64 : reqLen < 65536)
    (hmin : ∀ x ∈ rest, x.1 = 1 ∨ x.1 = 3 → 4 ≤ x.2.length) (hid : lastOf 1 rest = none) (hp : lastOf 10 rest = some p)
    (hA : IsAck .little ack reqLen) (hrecv : ∀ fd, K.recv w.trace fd = .ok d)
    (hsend : ∀ fd b, Encodes .little b (a.call.req queueID) → K.send (w.trace ++ [.recvfrom fd 76800 0x100 (.ok d)]) fd b = none)
    (hack : ∀ fd b, Encodes .little b (a.call.req queueID) →
      K.recv (w.trace ++ [.recvfrom fd 76800 0x100 (.ok d), .sendto fd b 0 none]) fd = .ok ack) :
    ∃ qh b w' mark, w.st.handle = some qh ∧ Encodes .little b (a.call.req queueID) ∧
      bsched env K a [true, false, false, true, true, true] ⟨.idle, .start, w⟩ = .ok ⟨.idle, .got qh 36, env.cbEffect w'⟩ ∧
      w'.trace = w.trace ++ [.recvfrom qh.fd 76800 0x100 (.ok d), .sendto qh.fd b 0 none, .recvfrom qh.fd 76800 0 (.ok ack),
        .app (.packet cb p mark 0 pd)] := by
  obtain ⟨qh, hI⟩ := started_echo env K queueID maxLen size cb ecb pd w0 w hstart
  obtain ⟨evs, ht, ho, hc⟩ := start_spec env K queueID maxLen size (some cb) (some ecb) pd w0 w none hstart
  obtain ⟨⟨c1, c2, c3, c4⟩, qh', hR, _, hfr⟩ := hc rfl
  have hh : w.st.handle = some qh := hI.setup.1.handle
  have hbq : qh.buf = w.st.buf := by rw [hfr.2.2.2.2.1 qh hh, hfr.2.1]
  have hrec : a.call.record w.st = w.st := by
    cases a with
    | stop => rfl
    | config c =>
      cases c with
      | createQueue num c ec p => exact absurd rfl (hca num c ec p)
      | _ => rfl
  obtain ⟨head, h20, hdd, hall⟩ := hd
  rw [encodeAttrs_append] at hdd
  have h4 : reqLen % 4 = 0 := by
    rw [← hfirst]
    clear hdd hall hA hfirst h16 h64
    induction first with
    | nil => rfl
    | cons x xs ih =>
      rw [encodeAttrs, List.flatMap_cons, ← encodeAttrs, List.length_append]
      have : (encodeAttr .little x.1 x.2).length % 4 = 0 := by
        simp only [encodeAttr, List.length_append, List.length_replicate, bytes16, List.length_cons, List.length_nil, roundUp4]
        omega
      omega
  obtain ⟨b, w', mark, id, hb, hs, htr, hidw⟩ := mixed_turn env he K a w qh cb ecb pd 76800 queueID hI hbq hrec d ack reqLen rest p hds hA h16 h64 h4
    (by rw [hdd]; simp; omega) (by rw [hdd, ← List.append_assoc, List.drop_left' (by simp; omega)])
    (fun x hx => hall x (List.mem_append_right _ hx)) hmin hid hp (hrecv _) (by rw [c1]; exact hsend _) (by rw [c1]; exact hack _)
  rw [c1] at hb
  have hid0 : id = 0 := by
    have hat : w.st.attrs 1 = some ⟨w0.heap.arrays.length + 2, 0, nfnlBuffSize, nfnlBuffSize⟩ := by
      rw [hfr.2.2.2.1]; simp [newNFQueue, Heap.mk']
    have := hidw _ hat
    have hb0 : w.st.buf = _ := hfr.2.1.trans (newNFQueue_heap w0.heap).2
    have hby : (stored w (ack ++ d.drop 36)).bytes ⟨w0.heap.arrays.length + 2, 0, nfnlBuffSize, nfnlBuffSize⟩ = zeros nfnlBuffSize := by
      unfold Heap.bytes stored
      rw [Heap.arrayOf_write_ne (by rw [hb0]; simp), hfr.2.2.2.2.2 _ (by rw [(newNFQueue_heap w0.heap).2]; simp)]
      unfold Heap.arrayOf
      rw [(newNFQueue_heap w0.heap).1, List.getElem?_append_right (by simp)]
      simp only [Nat.add_sub_cancel_left, List.getElem?_cons_succ, List.getElem?_cons_zero, Option.getD_some, List.drop_zero]
      exact List.take_of_length_le (by simp)
    rw [hby] at this
    have hz : num32 .little (zeros nfnlBuffSize) 0 = some 0 := by
      unfold num32 zeros
      simp only [List.getElem?_replicate]
      rfl
    rw [hz] at this
    exact (Option.some.inj this).symm
  subst hid0
  exact ⟨qh, b, w', mark, hh, hb, hs, htr⟩

/-- The kernel's acknowledgement of a request of 28 bytes. -/
def ack28 : List Byte := [36, 0, 0, 0, 2, 0, 0, 0] ++ zeros 8 ++ [0, 0, 0, 0] ++ [28, 0, 0, 0] ++ zeros 12

/-- The first attributes of a packet message: header with id 77, incoming interface, mark. -/
def firstAttrs : List (Nat × List Byte) := [(1, [77, 0, 0, 0, 8, 0, 1]), (5, [0, 0, 0, 2]), (3, [0, 0, 0, 11])]
/-- The remaining one: the packet. -/
def lastAttrs : List (Nat × List Byte) := [(10, [69, 0, 0, 20])]
def mixPacket : List Byte := zeros 20 ++ encodeAttrs .little (firstAttrs ++ lastAttrs)

/-- A kernel that acknowledges every request it has just been sent, and else hands out the packet. -/
def mixKernel : Kernel QEv :=
  { yesKernel with
    recv := fun tr _ => match tr.getLast? with
      | some (.sendto ..) => .ok ack28
      | _ => .ok mixPacket }

def endsElse (w : W) : Bool := match w.trace.getLast? with
  | some (.sendto ..) => false
  | _ => true

/-- Has returned no error, in a world passing a test. -/
def succeeds (r : Res (Option Err × W)) (f : W → Bool) : Bool :=
  match r with
  | .ok (none, w) => f w
  | _ => false

theorem succeeds_ok {r : Res (Option Err × W)} {f : W → Bool} (h : succeeds r f = true) : ∃ w, r = .ok (none, w) ∧ f w = true := by
  unfold succeeds at h
  split at h
  · exact ⟨_, rfl, h⟩
  · cases h

theorem mix_test : succeeds (createAndStart someEnv mixKernel 10 100 50 (some 1) (some 2) 0 ⟨[], ⟨[]⟩, (newNFQueue ⟨[]⟩).1⟩) endsElse = true := by
  decide +kernel

/-- C141: the hypotheses are met: a packet with id 77 is handed over with id 0 if `NfqSetQueueMaxLen` is called meanwhile. -/
theorem C141_example : ∃ w qh b w' mark, createAndStart someEnv mixKernel 10 100 50 (some 1) (some 2) 0 ⟨[], ⟨[]⟩, (newNFQueue ⟨[]⟩).1⟩ = .ok (none, w) ∧
    w.st.handle = some qh ∧
    bsched someEnv mixKernel (.config (.setMaxLen 200)) [true, false, false, true, true, true] ⟨.idle, .start, w⟩ = .ok ⟨.idle, .got qh 36, someEnv.cbEffect w'⟩ ∧
    w'.trace = w.trace ++ [.recvfrom qh.fd 76800 0x100 (.ok mixPacket), .sendto qh.fd b 0 none, .recvfrom qh.fd 76800 0 (.ok ack28),
      .app (.packet 1 [69, 0, 0, 20] mark 0 0)] := by
  obtain ⟨w, h, hl⟩ := succeeds_ok mix_test
  have hm : mixPacket.length = 56 := by decide
  have hack : ∀ fd b, mixKernel.recv (w.trace ++ [.recvfrom fd 76800 0x100 (.ok mixPacket), .sendto fd b 0 none]) fd = .ok ack28 := by
    intro fd b
    simp [mixKernel]
  have hrecv : ∀ fd, mixKernel.recv w.trace fd = .ok mixPacket := by
    intro fd
    unfold endsElse at hl
    simp only [mixKernel]
    split at hl
    · cases hl
    · rfl
  obtain ⟨qh, b, w', mark, a1, _, a3, a4⟩ := C141_wrong_id_violated someEnv rfl mixKernel 10 100 50 1 2 0 _ w h (.config (.setMaxLen 200))
    (by intro _ _ _ _ h; cases h) mixPacket ack28 28 firstAttrs lastAttrs [69, 0, 0, 20] (by omega)
    ⟨zeros 20, by decide, rfl, by decide⟩ (by decide) (by omega) (by omega) (by decide) (by decide) (by decide)
    ⟨by decide, by decide, by decide, by decide⟩ hrecv (fun _ _ _ => rfl) (fun fd b _ => hack fd b)
  exact ⟨w, qh, b, w', mark, h, a1, a3, a4⟩

end Verif.Props
