import Verif.Props.NfQueueManyStart
import Verif.Props.NfQueueLimits
/-!
C122: a stopped queue and the queues started after it.

For every process, every kernel: a queue is started and stopped, another is started and gets the descriptor number that became
free.
-/
namespace Verif.Props
open Verif.Common Verif.Sys Verif.Spec Verif.NfQueue

/-- A function called on queue `j` of a process. -/
def onQueue {α : Type} (j : Nat) (f : M α) : GoM MW α := fun w =>
  f (w.view j) >>= fun x => .ok (x.1, ⟨x.2.trace, x.2.heap, fun k => if k = j then x.2.st else w.st k⟩)

/-- `CreateAndStartNfQueue` with these arguments. -/
def StartArgs.start (a : StartArgs) (env : Env) (K : Kernel QEv) : M (Option Err) :=
  createAndStart env K a.queueID a.maxLen a.size (some a.cb) (some a.ecb) a.priv

/-- The descriptor number of the socket of queue `j`. -/
def fdOf (w : MW) (j : Nat) : Option Nat := (w.st j).handle.map (·.fd)

theorem valid_grow {h h' : Heap} (hk : ∀ a, a < h.arrays.length → h'.arrayOf a = h.arrayOf a) {s : Slice} (hv : s.Valid h) :
    s.Valid h' := by
  by_cases ha : s.arr < h.arrays.length
  · exact valid_of_arrayOf (hk _ ha) hv
  · have : h.arrayOf s.arr = [] := by unfold Heap.arrayOf; rw [List.getElem?_eq_none (by omega)]; rfl
    have h2 := hv.2
    rw [this] at h2
    exact ⟨hv.1, Nat.le_trans h2 (by simp)⟩

theorem onQueue_ok {α : Type} {j : Nat} {f : M α} {w w' : MW} {r : α} (h : onQueue j f w = .ok (r, w')) :
    ∃ v, f (w.view j) = .ok (r, v) ∧ w' = ⟨v.trace, v.heap, fun k => if k = j then v.st else w.st k⟩ := by
  unfold onQueue at h
  obtain ⟨⟨r1, v⟩, h1, h⟩ := Res.bind_eq_ok.mp h
  simp only [Res.ok.injEq, Prod.mk.injEq] at h
  obtain ⟨rfl, rfl⟩ := h
  exact ⟨v, h1, rfl⟩

/-- The stopped queue is still set up, on its old descriptor number. -/
theorem stopped_setup (env : Env) (K : Kernel QEv) (a b : StartArgs) (w0 w1 w2 w3 : MW)
    (ha : onQueue 0 (StartArgs.start a env K) w0 = .ok (none, w1))
    (hs : onQueue 0 (stopQueue env K) w1 = .ok (none, w2))
    (hb : onQueue 1 (StartArgs.start b env K) w2 = .ok (none, w3)) :
    ∃ qh, Setup (w3.view 0) qh a.cb a.ecb a.priv 76800 ∧ AttrsOk (w3.view 0) ∧
      (∀ k s, (w3.st 0).attrs k = some s → s.arr ≠ (w3.st 0).hdrSlice.arr) ∧ (w3.st 0).handle = some qh ∧
      (w3.st 0).queueNum = a.queueID ∧
      ∃ pre cl mid, w3.trace = w0.trace ++ pre ++ cl ++ mid ∧ CloseEvs qh.fd cl := by
  obtain ⟨v1, ha', rfl⟩ := onQueue_ok ha
  obtain ⟨v2, hs', rfl⟩ := onQueue_ok hs
  obtain ⟨v3, hb', rfl⟩ := onQueue_ok hb
  clear ha hs hb
  unfold StartArgs.start at ha' hb'
  have hview : MW.view ⟨v1.trace, v1.heap, fun k => if k = 0 then v1.st else w0.st k⟩ 0 = v1 := by simp [MW.view]
  rw [hview] at hs'
  obtain ⟨qh, hS, hO, hR⟩ := started_setup env K _ _ _ _ _ _ _ _ ha'
  obtain ⟨l1, l2, l3, l4, l5, _⟩ := started_layout env K _ _ _ _ _ _ _ _ ha'
  obtain ⟨hst, hz⟩ := stop_serving env K v1 v2 qh none hR hs'
  obtain ⟨x1, cl, ht, _, hcl, _, _⟩ := C29_stop env K v1 v2 qh none hR hs'
  obtain ⟨_, _, _, _, _, hkeep⟩ := started_layout env K _ _ _ _ _ _ _ _ hb'
  obtain ⟨evs, htb, _, _⟩ := start_spec env K _ _ _ _ _ _ _ _ _ hb'
  obtain ⟨evs0, hta, _, _⟩ := start_spec env K _ _ _ _ _ _ _ _ _ ha'
  have hview2 : MW.view ⟨v3.trace, v3.heap, fun k => if k = 1 then v3.st else if k = 0 then v2.st else
      (if k = 0 then v1.st else w0.st k)⟩ 0 = ⟨v3.trace, v3.heap, v1.st⟩ := by simp [MW.view, hst]
  dsimp only [MW.view] at hkeep htb hta
  have hv : ∀ s : Slice, s.Valid v1.heap → s.Valid v3.heap := fun s hs => valid_grow hkeep (hz.valid hs)
  refine ⟨qh, ?_, ?_, ?_, ?_, ?_, evs0 ++ x1, cl, evs, ?_, hcl rfl⟩
  · rw [hview2]
    obtain ⟨hS, c1, c2, c3, c4⟩ := hS
    exact ⟨⟨hS.handle, hv _ hS.buf, hS.small, hv _ hS.hdr, hS.hdr40, hS.sep, hS.reg⟩, c1, c2, c3, c4⟩
  · rw [hview2]
    intro k s hk
    exact ⟨hv _ (hO k s hk).1, (hO k s hk).2⟩
  · intro k s hk
    simp only [hst, if_neg (by decide : ¬ (0 : Nat) = 1), if_pos] at hk ⊢
    have := l3 k s hk
    omega
  · simp only [hst, if_neg (by decide : ¬ (0 : Nat) = 1), if_pos]
    exact hS.serving.handle
  · simp only [hst, if_neg (by decide : ¬ (0 : Nat) = 1), if_pos]
    exact l5
  · rw [htb, ht, hta]
    simp

/-- C122 is false of the code: queue A is started and stopped, and StopQueue returned nil; queue B is started and gets the
descriptor number that became free.  The reader of A is still at work: it takes the next packet sent to B and hands it to A's
callback, with A's private data.  (A's context is not cancelled: StopQueue has no way to do so.) -/
theorem C122_takes_anothers_packet_violated (env : Env) (hidle : ∀ w, env.cbEffect w = w) (K : Kernel QEv) (a b : StartArgs)
    (w0 w1 w2 w3 : MW)
    (ha : onQueue 0 (StartArgs.start a env K) w0 = .ok (none, w1))
    (hs : onQueue 0 (stopQueue env K) w1 = .ok (none, w2))
    (hb : onQueue 1 (StartArgs.start b env K) w2 = .ok (none, w3))
    (fd : Nat) (hfd : fdOf w3 1 = some fd) (hre : fdOf w3 0 = some fd) (hrun : env.ctxDone w3.trace = false)
    (d : List Byte) (hK : K.recv w3.trace fd = .ok d) (id : Nat) (payload : List Byte)
    (hP : PacketMsg env.e (d.take 76800) id payload) (hE : ¬ ErrMsg env.e (d.take 76800)) :
    ∃ mark w4, onQueue 0 (processPackets env K 1) w3 = .ok (false, w4) ∧
      w4.trace = w3.trace ++ [.recvfrom fd 76800 0x100 (.ok (d.take 76800)), .app (.packet a.cb payload mark id a.priv)] ∧
      w4.st 1 = w3.st 1 := by
  obtain ⟨qh, hS, hO, hsep, hh, _, _⟩ := stopped_setup env K a b w0 w1 w2 w3 ha hs hb
  have hq : qh.fd = fd := by
    unfold fdOf at hre
    rw [hh] at hre
    exact Option.some.inj hre
  subst hq
  have hsz : (w3.view 0).st.buf.len = 76800 := hS.size
  obtain ⟨mark, m', s, hr, _⟩ := receive_packet (env := env) (K := K) hS.serving hO hsep hS.cb hK
    (by rw [hsz]; exact hP) (by rw [hsz]; exact hE)
  rw [hidle, hsz] at hr
  have hpp : processPackets env K 1 (w3.view 0) = .ok (false, ⟨w3.trace ++
      [.recvfrom qh.fd 76800 0x100 (.ok (d.take 76800)), .app (.packet a.cb payload mark id a.priv)],
      stored (w3.view 0) (d.take 76800),
      { (w3.view 0).st with attrs := m', processed := (w3.view 0).st.processed + 1 }⟩) := by
    have hpr := hS.priv
    rw [hpr] at hr
    have hd : ¬ env.ctxDone (w3.view 0).trace = true := by simp [MW.view, hrun]
    have hi : processIter env K (w3.view 0) = .ok (false, ⟨w3.trace ++
      [.recvfrom qh.fd 76800 0x100 (.ok (d.take 76800)), .app (.packet a.cb payload mark id a.priv)],
      stored (w3.view 0) (d.take 76800),
      { (w3.view 0).st with attrs := m', processed := (w3.view 0).st.processed + 1 }⟩) := by
      unfold processIter
      rw [if_neg hd, GoM.bind_apply, hr]
      rfl
    unfold processPackets
    rw [GoM.bind_apply, hi]
    rfl
  have hon : onQueue 0 (processPackets env K 1) w3 = .ok (false, ⟨w3.trace ++
      [.recvfrom qh.fd 76800 0x100 (.ok (d.take 76800)), .app (.packet a.cb payload mark id a.priv)],
      stored (w3.view 0) (d.take 76800), fun k => if k = 0 then
        { (w3.view 0).st with attrs := m', processed := (w3.view 0).st.processed + 1 } else w3.st k⟩) := by
    unfold onQueue
    rw [hpp]
    rfl
  exact ⟨mark, _, hon, rfl, rfl⟩

/-- … and when the context given to A is cancelled at last, A's reader closes the socket of B. -/
theorem C122_closes_anothers_socket_violated (env : Env) (K : Kernel QEv) (a b : StartArgs)
    (w0 w1 w2 w3 : MW)
    (ha : onQueue 0 (StartArgs.start a env K) w0 = .ok (none, w1))
    (hs : onQueue 0 (stopQueue env K) w1 = .ok (none, w2))
    (hb : onQueue 1 (StartArgs.start b env K) w2 = .ok (none, w3))
    (fd : Nat) (hfd : fdOf w3 1 = some fd) (hre : fdOf w3 0 = some fd) (hdone : env.ctxDone w3.trace = true) (n : Nat) :
    ∃ cl w4, onQueue 0 (processPackets env K (n + 1)) w3 = .ok (true, w4) ∧ w4.trace = w3.trace ++ cl ∧ CloseEvs fd cl ∧
      fdOf w4 1 = some fd := by
  obtain ⟨qh, hS, hO, hsep, hh, _, _⟩ := stopped_setup env K a b w0 w1 w2 w3 ha hs hb
  have hq : qh.fd = fd := by
    unfold fdOf at hre
    rw [hh] at hre
    exact Option.some.inj hre
  subst hq
  obtain ⟨cl, h1, h2⟩ := C25_stops env K (w3.view 0) qh hh hdone n
  refine ⟨cl, _, by unfold onQueue; rw [h1]; rfl, rfl, h2, ?_⟩
  exact hfd

/-- `StopQueue` succeeds when the kernel accepts the request and does not refuse it. -/
theorem stop_succeeds (env : Env) (K : Kernel QEv) (w : W) (qh : Handle) (hR : Ready w qh)
    (hs : ∀ tr b, K.send tr qh.fd b = none)
    (ha : ∀ tr, ∃ d, K.recv tr qh.fd = .ok d ∧ 20 ≤ d.length ∧ d.length < qh.buf.len ∧ ¬ Refusal env.e d) :
    ∃ w', stopQueue env K w = .ok (none, w') ∧ w'.st = w.st := by
  obtain ⟨w1, h1, h2, h3⟩ := queryOrFail_succeeds (cfgMsg env.e w.st.queueNum 1 4 [2, 0, 0, 0]) hR hs ha
  obtain ⟨rc, cl, hc, _⟩ := NfQueue.close_spec K qh.fd w1
  unfold stopQueue
  simp only [GoM.bind_apply]
  rw [nfqDestroyQueue_eq, h1]
  simp only [Res.ok_bind, GoM.bind_apply, getQ, h3.1, Handle.close, hc, GoM.pure_apply]
  exact ⟨_, rfl, h2⟩

/-- C122, a concrete case: the kernel hands out the lowest free number, 3, both times, and the next datagram on it is the
packet `dgram1` (id 1, payload 1 2 3 4) of queue 11; callback 1, that of queue 10, is called with it. -/
theorem C122_example (w0 : MW) : ∃ w1 w2 w3 mark w4,
    onQueue 0 (StartArgs.start ⟨10, 2000, 0xffff, 1, 3, 5⟩ someEnv packetKernel) w0 = .ok (none, w1) ∧
    onQueue 0 (stopQueue someEnv packetKernel) w1 = .ok (none, w2) ∧
    onQueue 1 (StartArgs.start ⟨11, 2000, 0xffff, 2, 3, 6⟩ someEnv packetKernel) w2 = .ok (none, w3) ∧
    onQueue 0 (processPackets someEnv packetKernel 1) w3 = .ok (false, w4) ∧
    w4.trace = w3.trace ++ [.recvfrom 3 76800 0x100 (.ok dgram1), .app (.packet 1 [1, 2, 3, 4] mark 1 5)] := by
  have hr : ∀ tr fd, ∃ d, packetKernel.recv tr fd = .ok d ∧ 20 ≤ d.length ∧ d.length < nfnlBuffSize ∧ ¬ Refusal someEnv.e d :=
    fun _ _ => ⟨dgram1, rfl, by decide, by decide, by unfold Refusal; decide⟩
  obtain ⟨v1, b1, ha, hR, hl⟩ := start_succeeds_on someEnv packetKernel 10 2000 0xffff (some 1) (some 3) 5 (w0.view 0) 3 rfl
    (fun _ => rfl) (fun _ _ => rfl) (fun tr => hr tr 3)
  have ha' : onQueue 0 (StartArgs.start ⟨10, 2000, 0xffff, 1, 3, 5⟩ someEnv packetKernel) w0 =
      .ok (none, ⟨v1.trace, v1.heap, fun k => if k = 0 then v1.st else w0.st k⟩) := by
    unfold onQueue StartArgs.start; rw [ha]; rfl
  obtain ⟨v2, hs, hst⟩ := stop_succeeds someEnv packetKernel v1 ⟨3, b1⟩ hR (fun _ _ => rfl)
    (fun tr => by rw [hl]; exact hr tr 3)
  have hs' : onQueue 0 (stopQueue someEnv packetKernel) ⟨v1.trace, v1.heap, fun k => if k = 0 then v1.st else w0.st k⟩ =
      .ok (none, ⟨v2.trace, v2.heap, fun k => if k = 0 then v2.st else
        (⟨v1.trace, v1.heap, fun k => if k = 0 then v1.st else w0.st k⟩ : MW).st k⟩) := by
    unfold onQueue
    have : MW.view ⟨v1.trace, v1.heap, fun k => if k = 0 then v1.st else w0.st k⟩ 0 = v1 := by simp [MW.view]
    rw [this, hs]; rfl
  generalize hw2 : (⟨v2.trace, v2.heap, fun k => if k = 0 then v2.st else
        (⟨v1.trace, v1.heap, fun k => if k = 0 then v1.st else w0.st k⟩ : MW).st k⟩ : MW) = w2 at hs'
  obtain ⟨v3, b3, hb, hR3, _⟩ := start_succeeds_on someEnv packetKernel 11 2000 0xffff (some 2) (some 3) 6 (MW.view w2 1) 3 rfl
    (fun _ => rfl) (fun _ _ => rfl) (fun tr => hr tr 3)
  have hb' : onQueue 1 (StartArgs.start ⟨11, 2000, 0xffff, 2, 3, 6⟩ someEnv packetKernel) w2 =
      .ok (none, ⟨v3.trace, v3.heap, fun k => if k = 1 then v3.st else w2.st k⟩) := by
    unfold onQueue StartArgs.start; rw [hb]; rfl
  have h0 : w2.st 0 = v1.st := by rw [← hw2]; exact hst
  have ht : dgram1.take 76800 = dgram1 := List.take_of_length_le (by decide)
  obtain ⟨mark, w4, h4, h5, _⟩ := C122_takes_anothers_packet_violated someEnv (fun _ => rfl) packetKernel _ _ _ _ _ _ ha' hs' hb' 3
    (by simp [fdOf, hR3.1]) (by simp [fdOf, h0, hR.1]) rfl dgram1 rfl 1 [1, 2, 3, 4]
    (by rw [ht]; exact dgram1_msg) (by rw [ht]; unfold ErrMsg; decide)
  rw [ht] at h5
  exact ⟨_, _, _, mark, w4, ha', hs', hb', h4, h5⟩

end Verif.Props
