import Verif.Props.NfQueueLimits
/-!
C22, what is delivered for a packet without mark (the kernel leaves out the mark attribute when the mark is 0): the exact
value after a marked packet, and the proof that it is 0 as long as no packet was marked.
-/
namespace Verif.Props
open Verif.Common Verif.Sys Verif.Spec Verif.NfQueue

/-- The bytes at a place inside the receive buffer. -/
theorem bytes_inside {h : Heap} {buf t : Slice} {k : Nat} (ha : t.arr = buf.arr) (ho : t.off = buf.off + k)
    (hl : k + t.len ≤ buf.len) : h.bytes t = ((h.bytes buf).drop k).take t.len := by
  unfold Heap.bytes
  rw [ha, ho, List.drop_take, List.drop_drop, List.take_take]
  congr 1
  omega

theorem be32_window (b : List Byte) (k n : Nat) (hn : 4 ≤ n) : be32 ((b.drop k).take n) 0 = be32 b k := by
  have key : ∀ i, i < 4 → ((b.drop k).take n)[0 + i]? = b[k + i]? := by
    intro i hi
    rw [List.getElem?_take, if_pos (by omega), List.getElem?_drop]
    congr 1
    omega
  have h0 := key 0 (by omega)
  simp only [Nat.add_zero] at h0
  unfold be32 num32
  rw [key 1 (by omega), key 2 (by omega), key 3 (by omega), h0]

/-- C22 is violated by every packet without mark that follows one with a mark: its callback is given, as the mark, the four
bytes that are now at the place in the receive buffer where the *previous* packet's mark was — that is, four bytes of
the new datagram (of its payload, say), or of the old one if the new one is shorter. -/
theorem C22_missing_mark_violated (env : Env) (hidle : ∀ w, env.cbEffect w = w) (K : Kernel QEv) (w : W) (qh : Handle)
    (cb ecb priv size : Nat) (queue : U16) (hI : EchoInv w qh cb ecb priv size queue)
    (d1 d2 : List Byte) (id1 id2 : Nat) (p1 p2 : List Byte)
    (h1 : K.recv w.trace qh.fd = .ok d1) (h2 : ∀ evs, evs ≠ [] → K.recv (w.trace ++ evs) qh.fd = .ok d2)
    (hs1 : d1.length ≤ size) (hs2 : d2.length ≤ size)
    (hP1 : PacketMsg env.e d1 id1 p1) (hP2 : PacketMsg env.e d2 id2 p2)
    (hE1 : ¬ ErrMsg env.e d1) (hE2 : ¬ ErrMsg env.e d2)
    (attrs1 attrs2 : List (Nat × List Byte)) (hc1 : Carries env.e d1 attrs1) (hc2 : Carries env.e d2 attrs2)
    (hm1 : ∃ p, lastOf 3 attrs1 = some p) (hm2 : lastOf 3 attrs2 = none) :
    ∃ (w1 w2 : W) (mark1 mark2 k : Nat),
      receiveOne env K w = .ok ((), w1) ∧ w1.trace = w.trace ++
        [.recvfrom qh.fd size 0x100 (.ok d1), .app (.packet cb p1 mark1 id1 priv)] ∧
      receiveOne env K w1 = .ok ((), w2) ∧ w2.trace = w1.trace ++
        [.recvfrom qh.fd size 0x100 (.ok d2), .app (.packet cb p2 mark2 id2 priv)] ∧
      be32 d1 k = some mark1 ∧ be32 (d2 ++ d1.drop d2.length) k = some mark2 := by
  obtain ⟨⟨hS, hcb, hecb, rfl, rfl⟩, hO, hsep, rfl⟩ := hI
  obtain ⟨q1, hm1⟩ := hm1
  have t1 : d1.take w.st.buf.len = d1 := List.take_of_length_le hs1
  have t2 : d2.take w.st.buf.len = d2 := List.take_of_length_le hs2
  obtain ⟨mark1, m1, s, e1, a1, v1, b1, sep1, reg1, ok1, _, _, _, im1, loc1⟩ := receive_packet (env := env) hS hO hsep hcb h1
    (by rw [t1]; exact hP1) (by rw [t1]; exact hE1)
  rw [t1, hidle] at e1
  rw [t1] at ok1 im1 loc1
  have loc := loc1 attrs1 hc1
  rw [hm1] at loc
  obtain ⟨t, ht, htb, pa, po, pl⟩ := loc
  generalize hw1 : (⟨w.trace ++ [.recvfrom qh.fd w.st.buf.len 0x100 (.ok d1),
          .app (.packet cb p1 mark1 id1 w.st.privateData)], stored w d1,
          { w.st with attrs := m1, processed := w.st.processed + 1 }⟩ : W) = w1 at e1
  have f1 : w1.heap = stored w d1 := by rw [← hw1]
  have f2 : w1.st = { w.st with attrs := m1, processed := w.st.processed + 1 } := by rw [← hw1]
  have f3 : w1.trace = w.trace ++ [.recvfrom qh.fd w.st.buf.len 0x100 (.ok d1),
          .app (.packet cb p1 mark1 id1 w.st.privateData)] := by rw [← hw1]
  have hS1 : Serving w1 qh := by
    rw [← hw1]
    exact hS.after hs1 rfl rfl rfl rfl reg1
  have hO1 : AttrsOk w1 := by
    intro k t hk
    rw [f2] at hk
    rw [f1]
    exact ok1 k t hk
  have hb1 : w1.st.buf = w.st.buf := by rw [f2]
  obtain ⟨mark2, m2, s2, e2, _, _, _, _, _, _, _, _, _, im2, loc2⟩ := receive_packet (env := env) (w := w1) hS1 hO1
    (by rw [f2]; exact sep1) (by rw [f2]; exact hcb) (by rw [f3]; exact h2 _ (by simp))
    (by rw [hb1, t2]; exact hP2) (by rw [hb1, t2]; exact hE2)
  rw [hb1, t2, hidle] at e2
  rw [hb1, t2] at im2 loc2
  have l2 := loc2 attrs2 hc2
  rw [hm2] at l2
  have hm2t : m2 3 = some t := by
    have l2' : m2 3 = w1.st.attrs 3 := l2
    rw [l2', f2]
    exact ht
  have g1 := im1 t ht
  have g2 := im2 t hm2t
  have hlen4 : 4 ≤ t.len := (ok1 3 t ht).2 (.inr rfl)
  have hin : t.off = w.st.buf.off + (t.off - w.st.buf.off) := by omega
  rw [bytes_inside pa hin (by omega), be32_window _ _ _ hlen4] at g1 g2
  have c1 : (stored w d1).bytes w.st.buf = d1 ++ (w.heap.bytes w.st.buf).drop d1.length :=
    bytes_after_recv hS.buf hs1
  have c2 : (stored w1 d2).bytes w.st.buf = d2 ++ ((stored w d1).bytes w.st.buf).drop d2.length := by
    have := bytes_after_recv hS1.buf (d := d2) (by rw [hb1]; exact hs2)
    rw [← f1]
    unfold stored
    rw [hb1] at this ⊢
    exact this
  have key : ∀ (a x y : List Byte) (k : Nat), k + 4 ≤ a.length → (∀ i, i < a.length → x[i]? = y[i]?) →
      be32 x k = be32 y k := by
    intro a x y k hk h
    unfold be32 num32
    rw [h k (by omega), h (k + 1) (by omega), h (k + 2) (by omega), h (k + 3) (by omega)]
  refine ⟨w1, _, mark1, mark2, t.off - w.st.buf.off, e1, f3, e2, by rw [f2], ?_, ?_⟩
  · rw [← g1]
    refine key d1 _ _ _ (by omega) fun i hi => ?_
    rw [c1, List.getElem?_append_left hi]
  · rw [← g2]
    refine key d1 _ _ _ (by omega) fun i hi => ?_
    rw [c2, c1]
    by_cases hi2 : i < d2.length
    · rw [List.getElem?_append_left hi2, List.getElem?_append_left hi2]
    · rw [List.getElem?_append_right (by omega), List.getElem?_append_right (by omega), List.getElem?_drop,
        List.getElem?_drop, List.getElem?_append_left (by omega)]

/-- A datagram without a mark attribute (type 3), well formed or not. -/
def NoMark (e : Endian) (d : List Byte) : Prop :=
  ∀ j l t, Visits e (d.drop 20) 0 j → HeaderAt e (d.drop 20) j l t → t ≠ 3

/-- No packet received so far had a mark: the remembered mark is still the initial one, outside the receive buffer, 0. -/
def Unmarked (w : W) : Prop :=
  ∃ s, w.st.attrs 3 = some s ∧ s.arr ≠ w.st.buf.arr ∧ be32 (w.heap.bytes s) 0 = some 0

/-- An application that does not write into memory of the queue (other than the receive buffer, which holds the packet
it is given). -/
def LeavesMark (env : Env) : Prop :=
  ∀ w s, w.st.attrs 3 = some s → s.arr ≠ w.st.buf.arr → (env.cbEffect w).heap.bytes s = w.heap.bytes s

/-- Every packet handed to the packet callback had mark 0. -/
def ZeroMarks (evs : List (Ev QEv)) : Prop :=
  ∀ cb b mark id pd, Ev.app (.packet cb b mark id pd) ∈ evs → mark = 0

theorem unmarked_turn {env : Env} {K : Kernel QEv} {w w' : W} {qh : Handle} {cb ecb : Nat}
    (hS : Serving w qh) (hcb : w.st.callback = some cb) (hecb : w.st.errorCallback = some ecb) (hU : Unmarked w)
    (hK : ∀ d, K.recv w.trace qh.fd = .ok d → NoMark env.e (d.take w.st.buf.len))
    (h : receiveOne env K w = .ok ((), w')) :
    ∃ w1 evs, w' = env.cbEffect w1 ∧ Unmarked w1 ∧ w1.trace = w.trace ++ evs ∧ ZeroMarks evs := by
  unfold receiveOne at h
  simp only [GoM.bind_apply] at h
  obtain ⟨⟨⟨g, attr, err⟩, w2⟩, hrecv, h⟩ := Res.bind_eq_ok.mp h
  simp only [getQ, Res.ok_bind] at h
  have hU' : ∀ d : List Byte, d.length ≤ w.st.buf.len → ∀ w1 : W, w1.heap = stored w d → w1.st.buf = w.st.buf →
      w1.st.attrs 3 = w.st.attrs 3 → Unmarked w1 := by
    intro d hd w1 h1 h2 h3
    obtain ⟨s, a, b, c⟩ := hU
    exact ⟨s, by rw [h3, a], by rw [h2]; exact b, by rw [h1, stored_other hS.buf hd b]; exact c⟩
  rcases recv_step env K w qh hS with ⟨n, _, he⟩ | ⟨d0, d, hd0, hdt, hd, hA, hB, hC⟩
  · rw [he] at hrecv
    simp only [Res.ok.injEq, Prod.mk.injEq] at hrecv
    obtain ⟨⟨rfl, rfl, rfl⟩, rfl⟩ := hrecv
    simp only [hecb] at h
    simp only [GoM.bind_apply, emit, runCallback, Res.ok_bind, Res.ok.injEq, Prod.mk.injEq, true_and] at h
    obtain ⟨s, a, b, c⟩ := hU
    refine ⟨_, [.recvfrom qh.fd w.st.buf.len 0x100 (.error n), .app (.error ecb (.wrap "Netlink error %v" (.wrap "Unable to read from socket %v" (.errno n))) none)], h.symm, ⟨s, a, b, c⟩,
      by simp [World.log], ?_⟩
    intro cb b mark id pd hm
    simp at hm
  · by_cases h20 : d.length < 20
    · rw [hA h20] at hrecv; cases hrecv
    by_cases hE : ErrMsg env.e d
    · obtain ⟨err', hT, he⟩ := hB (by omega) hE
      rw [he] at hrecv
      simp only [Res.ok.injEq, Prod.mk.injEq] at hrecv
      obtain ⟨⟨rfl, rfl, rfl⟩, rfl⟩ := hrecv
      simp only [hecb] at h
      simp only [GoM.bind_apply, emit, runCallback, Res.ok_bind, Res.ok.injEq, Prod.mk.injEq, true_and] at h
      refine ⟨_, [.recvfrom qh.fd w.st.buf.len 0x100 (.ok d), .app (.error ecb (.wrap "Netlink error %v" err') none)], h.symm,
        hU' d hd _ rfl rfl rfl, by simp [World.log], ?_⟩
      intro cb b mark id pd hm
      simp at hm
    · obtain ⟨g', he⟩ := hC (by omega) hE
      rw [he] at hrecv
      rcases hn : netlinkMessageToNfAttrStruct env.e (stored w d) (attrSlice w d) w.st.attrs
        with ⟨m', rest, err'⟩ | _ | _
      · rw [hn] at hrecv
        simp only [Res.ok.injEq, Prod.mk.injEq] at hrecv
        obtain ⟨⟨rfl, rfl, rfl⟩, rfl⟩ := hrecv
        have hm3 : m' 3 = w.st.attrs 3 := by
          obtain ⟨hb, hv⟩ := attrSlice_bytes hS.buf hd (by omega)
          have hs : (attrSlice w d).len + 3 < 2 ^ 32 := by
            have := hS.small
            show d.length - 20 + 3 < _
            omega
          obtain ⟨_, _, r3⟩ := (attr_walk_aux env.e _ _ hv hs (attrSlice w d).len 0 w.st.attrs rfl (by omega)).2 m' rest _ hn
          rcases (r3 3).2 with q | ⟨j, l, a, b, _⟩
          · exact q
          · rw [hb] at a b
            rw [hdt] at a b
            exact absurd rfl (hK d0 hd0 j l 3 a b)
        cases err' with
        | some err' =>
          simp only [hecb] at h
          simp only [GoM.bind_apply, emit, runCallback, Res.ok_bind, Res.ok.injEq, Prod.mk.injEq, true_and] at h
          refine ⟨_, [.recvfrom qh.fd w.st.buf.len 0x100 (.ok d), .app (.error ecb (.wrap "Netlink error %v" err') (some g'))], h.symm,
            hU' d hd _ rfl rfl hm3, by simp [World.log], ?_⟩
          intro cb b mark id pd hm
          simp at hm
        | none =>
          simp only [GoM.bind_apply, packetInfoM] at h
          obtain ⟨⟨⟨id, mark, pkt⟩, w3⟩, hp, h⟩ := Res.bind_eq_ok.mp h
          obtain ⟨q3, hp1, hp2⟩ := Res.bind_eq_ok.mp hp
          simp only [Res.ok.injEq, Prod.mk.injEq] at hp2
          obtain ⟨rfl, rfl⟩ := hp2
          simp only [modifyQ, Res.ok_bind, hcb] at h
          simp only [GoM.bind_apply, emitPacket, runCallback, Res.ok_bind, Res.ok.injEq, Prod.mk.injEq, true_and] at h
          refine ⟨_, [.recvfrom qh.fd w.st.buf.len 0x100 (.ok d),
            .app (.packet cb (optBytes (stored w d) pkt) mark id w.st.privateData)], h.symm,
            hU' d hd _ rfl rfl hm3, by simp [World.log], ?_⟩
          intro cb b mark' id pd hm
          simp only [List.mem_cons, reduceCtorEq, Ev.app.injEq, QEv.packet.injEq, List.not_mem_nil, or_false,
            false_or] at hm
          obtain ⟨_, _, rfl, _⟩ := hm
          obtain ⟨s, a, b, c⟩ := hU
          have := (info_of hp1).2.1 s (hm3.trans a)
          rw [stored_other hS.buf hd b, c] at this
          exact (Option.some.inj this).symm
      · rw [hn] at hrecv; cases hrecv
      · rw [hn] at hrecv; cases hrecv

/-- C22, the part that holds for marks: as long as no datagram had a mark attribute, every packet is delivered with mark 0,
in every run of every length, whatever else the datagrams contain. -/
theorem C22_unmarked_partial (env : Env) (K : Kernel QEv) (hA : AppOk env) (hL : LeavesMark env) (qh : Handle)
    (cb ecb priv size : Nat) (hK : ∀ tr d, K.recv tr qh.fd = .ok d → NoMark env.e (d.take size)) (n : Nat) :
    ∀ (w w' : W) (fin : Bool), Setup w qh cb ecb priv size → Unmarked w →
    processPackets env K n w = .ok (fin, w') → ∃ evs, w'.trace = w.trace ++ evs ∧ ZeroMarks evs := by
  induction n with
  | zero =>
    intro w w' fin _ _ h
    simp only [processPackets, GoM.pure_apply, Res.ok.injEq, Prod.mk.injEq] at h
    obtain ⟨_, rfl⟩ := h
    exact ⟨[], by simp, by intro cb b mark id pd h; simp at h⟩
  | succ n ih =>
    intro w w' fin hS hU h
    by_cases hd : env.ctxDone w.trace = true
    · obtain ⟨closes, h1, h2⟩ := C25_stops env K w qh hS.serving.handle hd n
      rw [h1] at h
      simp only [Res.ok.injEq, Prod.mk.injEq] at h
      obtain ⟨_, rfl⟩ := h
      refine ⟨closes, rfl, ?_⟩
      intro cb b mark id pd hm
      rcases h2 with rfl | ⟨e1, r, rfl⟩
      · simp at hm
      · simp at hm
    · unfold processPackets at h
      simp only [GoM.bind_apply, processIter, if_neg hd] at h
      obtain ⟨⟨b, w1⟩, h1, h⟩ := Res.bind_eq_ok.mp h
      obtain ⟨⟨u, w2⟩, h3, h4⟩ := Res.bind_eq_ok.mp h1
      simp only [GoM.pure_apply, Res.ok.injEq, Prod.mk.injEq] at h4
      obtain ⟨rfl, rfl⟩ := h4
      simp only [Bool.false_eq_true, if_false] at h
      obtain ⟨w1, evs, rfl, hU1, ht1, hz⟩ := unmarked_turn hS.serving hS.cb hS.ecb hU
        (by rw [hS.size]; exact hK w.trace) h3
      obtain ⟨g, ht2, _, hS2, _⟩ := receiveOne_turn hA hS h3
      obtain ⟨evs2, htr, hq⟩ := hA.trace w1
      have hU2 : Unmarked (env.cbEffect w1) := by
        obtain ⟨a, d, hst⟩ := hA.st w1
        obtain ⟨s, x, y, z⟩ := hU1
        refine ⟨s, by rw [hst]; exact x, by rw [hst]; exact y, ?_⟩
        rw [hL w1 s x y]
        exact z
      obtain ⟨evs3, ht3, hz3⟩ := ih _ _ _ hS2 hU2 h
      refine ⟨evs ++ evs2 ++ evs3, by rw [ht3, htr, ht1]; simp, ?_⟩
      intro cb b mark id pd hm
      rw [List.mem_append, List.mem_append] at hm
      rcases hm with (hm | hm) | hm
      · exact hz _ _ _ _ _ hm
      · have := hq _ hm
        simp [quiet] at this
      · exact hz3 _ _ _ _ _ hm

/-- A queue that was just started is unmarked. -/
theorem started_unmarked (env : Env) (K : Kernel QEv) (queueID : U16) (maxLen size : U32) (cb ecb pd : Nat) (w w' : W)
    (h : createAndStart env K queueID maxLen size (some cb) (some ecb) pd w = .ok (none, w')) : Unmarked w' := by
  obtain ⟨evs, _, _, hc⟩ := start_spec env K queueID maxLen size (some cb) (some ecb) pd w w' none h
  obtain ⟨_, qh, _, _, _, hbuf, _, hattrs, _, hsame⟩ := hc rfl
  obtain ⟨ha, hb⟩ := newNFQueue_heap w.heap
  have h3 : w'.st.attrs 3 = some ⟨w.heap.arrays.length + 3, 0, nfnlBuffSize, nfnlBuffSize⟩ := by
    rw [hattrs]
    simp [newNFQueue, Heap.mk']
  rw [hb] at hsame
  refine ⟨_, h3, by rw [hbuf, hb]; simp, ?_⟩
  have harr : w'.heap.arrayOf (w.heap.arrays.length + 3) = zeros nfnlBuffSize := by
    rw [hsame _ (by simp)]
    unfold Heap.arrayOf
    rw [ha, List.getElem?_append_right (by omega)]
    simp
  have hz : ∀ i, i < nfnlBuffSize → (zeros nfnlBuffSize)[i]? = some (0 : Byte) := by
    intro i hi
    unfold zeros
    rw [List.getElem?_replicate, if_pos hi]
  have hn : 4 ≤ nfnlBuffSize := by decide
  unfold Heap.bytes
  simp only [harr, List.drop_zero]
  rw [List.take_of_length_le (by simp)]
  unfold be32 num32
  rw [hz 0 (by omega), hz (0 + 1) (by omega), hz (0 + 2) (by omega), hz (0 + 3) (by omega)]
  rfl

/-- Positions closed under moving on to the next attribute contain every position the walk visits. -/
theorem visits_closed {e : Endian} {b : List Byte} {S : List Nat} (hS : ∀ i ∈ S, ∀ l ∈ num16 e b i,
    i + 4 ≤ b.length → roundUp4 (i + l) ∈ S) {i j : Nat} (h : Visits e b i j) (hi : i ∈ S) : j ∈ S := by
  induction h with
  | here => exact hi
  | step h4 hl _ _ ih => exact ih (hS _ hi _ hl h4)

/-- The hypotheses are met: the second of the example packets carries no mark. -/
example : LeavesMark someEnv ∧ Unmarked readerWorld ∧ NoMark .little dgram2 := by
  refine ⟨fun _ _ _ _ => rfl, ⟨⟨3, 0, 4, 4⟩, rfl, by decide, by decide⟩, ?_⟩
  intro j l t hv ht h3
  subst h3
  have hj := visits_closed (S := [0, 8, 16]) (by decide +kernel) hv (by simp)
  simp only [List.mem_cons, List.not_mem_nil, or_false] at hj
  obtain ⟨h1, _, h2⟩ := ht
  rcases hj with rfl | rfl | rfl
  · exact absurd h2 (by decide +kernel)
  · exact absurd h2 (by decide +kernel)
  · exact absurd h1 (by decide +kernel)

/-- A concrete case of the violation: `dgram2` after `dgram1`. -/
example : ∃ (w1 w2 : W) (mark1 mark2 k : Nat),
    receiveOne someEnv twoPackets readerWorld = .ok ((), w1) ∧ receiveOne someEnv twoPackets w1 = .ok ((), w2) ∧
    w2.trace = w1.trace ++ [.recvfrom 3 64 0x100 (.ok dgram2), .app (.packet 1 [9, 9, 9, 9] mark2 2 3)] ∧
    be32 dgram1 k = some mark1 ∧ be32 (dgram2 ++ dgram1.drop dgram2.length) k = some mark2 := by
  obtain ⟨w1, w2, mark1, mark2, k, h1, _, h2, h3, h4, h5⟩ :=
    C22_missing_mark_violated someEnv (fun _ => rfl) twoPackets readerWorld ⟨3, Slice.nil⟩ 1 2 3 64 5 readerWorld_inv
      dgram1 dgram2 1 2 [1, 2, 3, 4] [9, 9, 9, 9] rfl
      (by intro evs h; cases evs with
          | nil => exact absurd rfl h
          | cons => rfl) (by decide) (by decide) dgram1_msg
      ⟨[(1, [2, 0, 0, 0]), (10, [9, 9, 9, 9])], [2, 0, 0, 0], ⟨zeros 20, rfl, rfl, by decide⟩,
        by decide, rfl, rfl, rfl, by decide⟩
      (by unfold ErrMsg; decide) (by unfold ErrMsg; decide)
      [(1, [1, 0, 0, 0]), (3, [0, 0, 0, 7]), (10, [1, 2, 3, 4])] [(1, [2, 0, 0, 0]), (10, [9, 9, 9, 9])]
      ⟨zeros 20, rfl, rfl, by decide⟩ ⟨zeros 20, rfl, rfl, by decide⟩ ⟨_, rfl⟩ rfl
  exact ⟨w1, w2, mark1, mark2, k, h1, h2, h3, h4, h5⟩

end Verif.Props
