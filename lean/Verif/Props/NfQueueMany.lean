import Verif.NfQueue.Many
import Verif.Props.NfQueueServe
/-! C117: the queues of one process do not disturb each other. -/
namespace Verif.Props
open Verif.Common Verif.Sys Verif.Spec Verif.NfQueue

/-- What was done by goroutines of queue `j`. -/
def doneBy (j : Nat) (log : List (Nat × Ev QEv)) : List (Ev QEv) :=
  (log.filter fun x => x.1 == j).map (·.2)

/-- Number of turns given to goroutine `i` of queue `j`. -/
def turnsOf (j : Nat) (i : Option Nat) (is : List (Nat × Option Nat)) : Nat := is.countP fun x => x.1 == j && x.2 == i

/-- How `n` queues of a process share its memory before the run. -/
structure Together (w : MW) (n : Nat) (qh : Nat → Handle) (cb ecb priv size : Nat → Nat) (calls : Nat → List VCall) : Prop where
  /-- each queue is being served -/
  setup : ∀ j, j < n → Setup (w.view j) (qh j) (cb j) (ecb j) (priv j) (size j)
  attrs : ∀ j, j < n → AttrsOk (w.view j)
  size : ∀ j, j < n → 20 ≤ size j
  /-- no two queues share a scratch header or a receive buffer -/
  hdrs : ∀ j k, j < n → k < n → j ≠ k → (w.st j).hdrSlice.arr ≠ (w.st k).hdrSlice.arr
  bufs : ∀ j k, j < n → k < n → j ≠ k → (w.st j).buf.arr ≠ (w.st k).buf.arr
  hdrBuf : ∀ j k, j < n → k < n → (w.st j).hdrSlice.arr ≠ (w.st k).buf.arr
  /-- attributes remembered from earlier datagrams are in memory of their own or in the queue's own buffer -/
  kept : ∀ j, j < n → ∀ a s, (w.st j).attrs a = some s → s.arr < w.heap.arrays.length ∧
    (∀ k, k < n → s.arr ≠ (w.st k).hdrSlice.arr) ∧ (∀ k, k < n → j ≠ k → s.arr ≠ (w.st k).buf.arr) ∧
    ∀ k, k < n → ∀ c ∈ calls k, s.arr ≠ c.packet.arr
  /-- the packets are in memory of the application -/
  ok : ∀ j, j < n → ∀ c ∈ calls j, c.Ok w.heap (w.st j).hdrSlice
  packet : ∀ j k, j < n → k < n → ∀ c ∈ calls j, c.packet.arr ≠ (w.st k).hdrSlice.arr ∧ c.packet.arr ≠ (w.st k).buf.arr
  sep : ∀ j k, j < n → k < n → ∀ c ∈ calls j, ∀ d ∈ calls k, Sep c d

/-- What stays fixed for queue `j`. -/
def manyCtx (env : Env) (w : MW) (n : Nat) (calls : Nat → List VCall) (j : Nat) : Ctx :=
  ⟨env.e, (w.st j).queueNum, (w.st j).hdrSlice, calls j, w.heap, some (w.st j).buf.arr,
    fun c => ∃ k, k < n ∧ c ∈ calls k,
    fun a => ∃ k, k < n ∧ k ≠ j ∧ (a = (w.st k).hdrSlice.arr ∨ a = (w.st k).buf.arr)⟩

section
variable {env : Env} {w0 : MW} {n : Nat} {qh : Nat → Handle} {cb ecb priv size : Nat → Nat} {calls : Nat → List VCall}

theorem Together.buf_lt (T : Together w0 n qh cb ecb priv size calls) {j : Nat} (hj : j < n) :
    (w0.st j).buf.arr < w0.heap.arrays.length := by
  have hs := (T.setup j hj).serving
  have h1 := hs.buf.1; have h2 := hs.buf.2; have h3 := (T.setup j hj).size; have := T.size j hj
  have hpos : 0 < ((w0.view j).heap.arrayOf (w0.view j).st.buf.arr).length := by omega
  exact Heap.lt_of_arrayOf_pos hpos

theorem Together.hdr_lt (T : Together w0 n qh cb ecb priv size calls) {j : Nat} (hj : j < n) :
    (w0.st j).hdrSlice.arr < w0.heap.arrays.length := by
  have hs := (T.setup j hj).serving
  have h1 := hs.hdr.1; have h2 := hs.hdr.2; have h3 := hs.hdr40
  have hpos : 0 < ((w0.view j).heap.arrayOf (w0.view j).st.hdrSlice.arr).length := by omega
  exact Heap.lt_of_arrayOf_pos hpos

theorem Together.room (T : Together w0 n qh cb ecb priv size calls) {j : Nat} :
    ∀ a, (∃ k, k < n ∧ k ≠ j ∧ (a = (w0.st k).hdrSlice.arr ∨ a = (w0.st k).buf.arr)) → a < w0.heap.arrays.length := by
  rintro a ⟨k, hk, _, rfl | rfl⟩
  · exact T.hdr_lt hk
  · exact T.buf_lt hk

theorem Together.callsOk (T : Together w0 n qh cb ecb priv size calls) {j : Nat} (hj : j < n) :
    Calls (manyCtx env w0 n calls j) := by
  have hs := (T.setup j hj).serving
  refine ⟨⟨hs.hdr, hs.hdr40⟩, T.ok j hj, fun c hc => ⟨j, hj, hc⟩, ?_, ⟨?_, ?_⟩, ?_, ?_⟩
  · rintro c ⟨k, hk, hc⟩ d hd
    exact T.sep k j hk hj c hc d hd
  · intro h
    exact T.hdrBuf j j hj hj (Option.some.inj h).symm
  · intro c hc h
    exact (T.packet j j hj hj c hc).2 (Option.some.inj h).symm
  · rintro ⟨k, hk, hne, h | h⟩
    · exact T.hdrs j k hj hk (fun e => hne e.symm) h
    · exact T.hdrBuf j k hj hk h
  · rintro c hc ⟨k, hk, hne, h | h⟩
    · exact (T.packet j k hj hk c hc).1 h
    · exact (T.packet j k hj hk c hc).2 h

theorem Together.init (T : Together w0 n qh cb ecb priv size calls) {j : Nat} (hj : j < n) :
    CInv (manyCtx env w0 n calls j) env.e (qh j) (cb j) (ecb j) (priv j) (size j) (w0.view j) (w0.view j)
      .idle allStart [] [] [] [] 0 := by
  have hs := (T.setup j hj).serving
  have hV : VReady (w0.view j) (qh j) := ⟨hs.handle, hs.hdr, hs.hdr40⟩
  refine ⟨ginv_init hV env _ _ T.room, ⟨T.setup j hj, T.attrs j hj, ?_, ⟨T.buf_lt hj, hs.sep, ?_⟩, ?_, ?_, rfl⟩, rfl, by simp,
    by simp [counting], by simp⟩
  · intro a s hk
    obtain ⟨h1, h2, h3, h4⟩ := T.kept j hj a s hk
    exact ⟨h1, h2 j hj, fun c ⟨k, hk, hc⟩ => h4 k hk c hc⟩
  · rintro c ⟨k, hk, hc⟩ h
    exact (T.packet k j hk hj c hc).2 h.symm
  · rintro a s hk ⟨k, hk', hne, h | h⟩
    · exact (T.kept j hj a s hk).2.1 k hk' h
    · exact (T.kept j hj a s hk).2.2.1 k hk' (fun e => hne e.symm) h
  · rintro ⟨k, hk, hne, h | h⟩
    · exact T.hdrBuf k j hk hj h.symm
    · exact T.bufs j k hj hk (fun e => hne e.symm) h

/-- What a step of queue `k` may do to memory, seen from queue `j`. -/
theorem many_evolve (T : Together w0 n qh cb ecb priv size calls) {j k : Nat} (hk : k < n) (hne : k ≠ j)
    {h h' : Heap} (ev : Evolve (manyCtx env w0 n calls k) h h') : Evolve (manyCtx env w0 n calls j) h h' := by
  refine ⟨ev.len, ?_, ev.size, ?_⟩
  · intro a ha hlt _
    refine ev.priv a ha hlt ?_
    rintro ⟨m, hm, _, h1⟩
    have hb : w0.heap.arrays.length ≤ a := ha
    rcases h1 with h1 | h1
    · have := T.hdr_lt hm; omega
    · have := T.buf_lt hm; omega
  intro a ha hS hR hO i
  refine ev.old a ha (fun e => hO ⟨k, hk, hne, Or.inl e⟩) (fun e => hO ⟨k, hk, hne, Or.inr (Option.some.inj e).symm⟩) ?_ i
  rintro ⟨m, hm, _, h1⟩
  by_cases hmj : m = j
  · subst hmj
    rcases h1 with h1 | h1
    · exact hS h1
    · exact hR (by rw [h1]; rfl)
  · exact hO ⟨m, hm, hmj, h1⟩

/-- A step of queue `k` is not noticed by queue `j`. -/
theorem Together.other (T : Together w0 n qh cb ecb priv size calls) {j k : Nat} (hj : j < n) (hk : k < n) (hne : k ≠ j)
    {v v' : W} {pc : RPc} {pcs : Nat → Pc} {order : List Nat} {ts : List (List (Ev QEv))} {pend log : List (Ev QEv)} {m : Nat}
    (inv : CInv (manyCtx env w0 n calls j) env.e (qh j) (cb j) (ecb j) (priv j) (size j) (w0.view j) v pc pcs order ts pend log m)
    (hst : v'.st = v.st)
    (ha : ∀ a, a ≠ (w0.st k).buf.arr → (manyCtx env w0 n calls k).aside a → v'.heap.arrayOf a = v.heap.arrayOf a)
    (ev : Evolve (manyCtx env w0 n calls k) v.heap v'.heap) :
    CInv (manyCtx env w0 n calls j) env.e (qh j) (cb j) (ecb j) (priv j) (size j) (w0.view j) v' pc pcs order ts pend log m := by
  have ev' := many_evolve T (j := j) hk hne ev
  have hc := T.callsOk (env := env) hj
  have hS : v'.heap.arrayOf (manyCtx env w0 n calls j).S.arr = v.heap.arrayOf (manyCtx env w0 n calls j).S.arr := by
    apply ha
    · exact T.hdrBuf j k hj hk
    · refine ⟨hc.scratch_lt, T.hdrs j k hj hk (fun e => hne e.symm), ?_⟩
      rintro c ⟨m, hm, hcm⟩ e
      exact (T.packet m j hm hj c hcm).1 e.symm
  have hst' : ∃ acc drp, v'.st = { v.st with accepted := acc, dropped := drp } := ⟨_, _, hst⟩
  have hasd : ∀ a, (manyCtx env w0 n calls j).aside a → ¬ (manyCtx env w0 n calls j).others a →
      v'.heap.arrayOf a = v.heap.arrayOf a := by
    intro a hAs hO
    apply ha
    · exact fun e => hO ⟨k, hk, hne, Or.inr e⟩
    · exact ⟨hAs.1, fun e => hO ⟨k, hk, hne, Or.inl e⟩, hAs.2.2⟩
  refine ⟨?_, inv.r.mono (by rw [inv.g.winv.hdr]; exact hc.scratch_lt) hasd ev' hst', inv.t.mono inv.r hasd hst', inv.turns,
    by rw [hst]; exact inv.processed, inv.steps⟩
  have := inv.g.reader hc (w' := v') (es := []) ev' (bytes_of_arrayOf hS) ⟨_, _, hst⟩ rfl rfl
  rwa [List.append_nil, List.append_nil] at this

/-- What holds of the whole process after every schedule. -/
structure MInv (env : Env) (w0 : MW) (n : Nat) (qh : Nat → Handle) (cb ecb priv size : Nat → Nat) (calls : Nat → List VCall)
    (w : MW) (s : MPc) (order : Nat → List Nat) (ts : Nat → List (List (Ev QEv))) (pend : Nat → List (Ev QEv))
    (log : List (Nat × Ev QEv)) (cnt : Nat → Nat) : Prop where
  trace : w.trace = w0.trace ++ log.map (·.2)
  each : ∀ j, j < n → CInv (manyCtx env w0 n calls j) env.e (qh j) (cb j) (ecb j) (priv j) (size j) (w0.view j) (w.view j)
    (s j).1 (s j).2 (order j) (ts j) (pend j) (doneBy j log) (cnt j)

theorem doneBy_same (j : Nat) (log : List (Nat × Ev QEv)) (es : List (Ev QEv)) :
    doneBy j (log ++ es.map (j, ·)) = doneBy j log ++ es := by
  unfold doneBy
  rw [List.filter_append, List.map_append]
  congr 1
  induction es with
  | nil => rfl
  | cons e es ih => simpa using ih

theorem doneBy_other {j k : Nat} (h : k ≠ j) (log : List (Nat × Ev QEv)) (es : List (Ev QEv)) :
    doneBy j (log ++ es.map (k, ·)) = doneBy j log := by
  unfold doneBy
  rw [List.filter_append, List.map_append]
  have : (es.map (k, ·)).filter (fun x => x.1 == j) = [] := by
    rw [List.filter_eq_nil_iff]
    intro x hx
    obtain ⟨e, _, rfl⟩ := List.mem_map.mp hx
    simp [h]
  rw [this]; simp

theorem minv_step (T : Together w0 n qh cb ecb priv size calls) (hidle : ∀ w, env.cbEffect w = w) (K : Kernel QEv)
    (lock : Nat → Bool) (hl : ∀ j, j < n → lock j = true ∨ ∀ c ∈ calls j, c.isV2 = false)
    (hK : ∀ j, j < n → ∀ evs d, K.recv (w0.trace ++ evs) (qh j).fd = .ok d → Decent env.e (d.take (size j)))
    {w : MW} {s : MPc} {order : Nat → List Nat} {ts : Nat → List (List (Ev QEv))} {pend : Nat → List (Ev QEv)}
    {log : List (Nat × Ev QEv)} {cnt : Nat → Nat}
    (inv : MInv env w0 n qh cb ecb priv size calls w s order ts pend log cnt) (ji : Nat × Option Nat) :
    ∃ (s' : MPc) (l : List (Nat × Ev QEv)) (w' : MW) (order' : Nat → List Nat) (ts' : Nat → List (List (Ev QEv)))
      (pend' : Nat → List (Ev QEv)), mstep env K n lock calls ji s w = .ok ((s', l), w') ∧
      MInv env w0 n qh cb ecb priv size calls w' s' order' ts' pend' (log ++ l)
        (fun j => cnt j + if ji.1 = j ∧ ji.2 = none then 1 else 0) := by
  obtain ⟨k, i⟩ := ji
  by_cases hk : k < n
  · have ik := inv.each k hk
    obtain ⟨pc', pcs', v', o', t', p', es, h1, ht, inv1, ha, ev⟩ :=
      cinv_step (T.callsOk (env := env) hk) env rfl hidle K (lock k) (hl k hk)
        (fun d hd => hK k hk (log.map (·.2)) d (by rw [← inv.trace]; exact hd)) ik i
    have hdrop : v'.trace.drop w.trace.length = es := by
      rw [ht]; exact List.drop_left
    have hb : (w.st k).buf.arr = (w0.st k).buf.arr := by
      have := ik.r.arr
      exact (Option.some.inj this).symm
    refine ⟨fun j => if j = k then (pc', pcs') else s j, es.map (k, ·),
      ⟨v'.trace, v'.heap, fun j => if j = k then v'.st else w.st j⟩, fun j => if j = k then o' else order j,
      fun j => if j = k then t' else ts j, fun j => if j = k then p' else pend j, ?_, ?_, ?_⟩
    · unfold mstep
      rw [if_pos hk]
      simp only
      have h1' : cstep env K (lock k) (calls k) i (s k) (w.view k) = .ok ((pc', pcs'), v') := h1
      rw [h1']
      simp only [hdrop]
    · simp only
      have : v'.trace = w.trace ++ es := ht
      rw [this, inv.trace]
      simp [Function.comp_def]
    · intro j hj
      by_cases hjk : j = k
      · subst hjk
        simp only [if_true, true_and, MW.view, doneBy_same]
        exact inv1
      · have hkj : k ≠ j := fun e => hjk e.symm
        simp only [hjk, hkj, if_false, false_and, MW.view, doneBy_other hkj, Nat.add_zero]
        refine T.other hj hk hkj (inv.each j hj) rfl ?_ ev
        intro a h1 h2
        exact ha a (by rw [← hb] at h1; exact h1) h2
  · refine ⟨s, [], w, order, ts, pend, ?_, ?_, ?_⟩
    · unfold mstep; rw [if_neg hk]
    · simpa using inv.trace
    · intro j hj
      have : k ≠ j := by omega
      simpa [this] using inv.each j hj

theorem turnsOf_cons (j : Nat) (i : Option Nat) (x : Nat × Option Nat) (is : List (Nat × Option Nat)) :
    turnsOf j i (x :: is) = (if x.1 = j ∧ x.2 = i then 1 else 0) + turnsOf j i is := by
  unfold turnsOf
  rw [List.countP_cons]
  by_cases h : x.1 = j ∧ x.2 = i
  · simp [h.1, h.2]; omega
  · rw [if_neg h]
    have : (x.1 == j && x.2 == i) = false := by
      cases hb : (x.1 == j && x.2 == i)
      · rfl
      · simp at hb; exact absurd hb h
    simp [this]

theorem minv_sched (T : Together w0 n qh cb ecb priv size calls) (hidle : ∀ w, env.cbEffect w = w) (K : Kernel QEv)
    (lock : Nat → Bool) (hl : ∀ j, j < n → lock j = true ∨ ∀ c ∈ calls j, c.isV2 = false)
    (hK : ∀ j, j < n → ∀ evs d, K.recv (w0.trace ++ evs) (qh j).fd = .ok d → Decent env.e (d.take (size j)))
    (is : List (Nat × Option Nat)) :
    ∀ {w : MW} {s : MPc} {order : Nat → List Nat} {ts : Nat → List (List (Ev QEv))} {pend : Nat → List (Ev QEv)}
    {log : List (Nat × Ev QEv)} {cnt : Nat → Nat},
    MInv env w0 n qh cb ecb priv size calls w s order ts pend log cnt →
    ∃ (s' : MPc) (l : List (Nat × Ev QEv)) (w' : MW) (order' : Nat → List Nat) (ts' : Nat → List (List (Ev QEv)))
      (pend' : Nat → List (Ev QEv)), msched env K n lock calls is s w = .ok ((s', l), w') ∧
      MInv env w0 n qh cb ecb priv size calls w' s' order' ts' pend' (log ++ l) (fun j => cnt j + turnsOf j none is) := by
  induction is with
  | nil =>
    intro w s order ts pend log cnt inv
    exact ⟨s, [], w, order, ts, pend, rfl, by simpa [turnsOf] using inv⟩
  | cons x is ih =>
    intro w s order ts pend log cnt inv
    obtain ⟨s1, l1, w1, o1, t1, p1, h1, i1⟩ := minv_step T hidle K lock hl hK inv x
    obtain ⟨s2, l2, w2, o2, t2, p2, h2, i2⟩ := ih i1
    refine ⟨s2, l1 ++ l2, w2, o2, t2, p2, ?_, ?_⟩
    · show (mstep env K n lock calls x s w >>= _) = _
      rw [h1]
      show (msched env K n lock calls is s1 w1 >>= _) = _
      rw [h2]; rfl
    · rw [← List.append_assoc]
      simpa only [turnsOf_cons, Nat.add_assoc] using i2

end

/-- Every goroutine at its start. -/
def allIdle : MPc := fun _ => (.idle, allStart)

/-- C117 (partial: on each queue the applications serialise their `SetVerdict2` calls or use only `SetVerdict`, and the packets
have been copied out of the receive buffers, see C100).  Any number of queues in one process, each served by its reader and
with any number of verdict calls in flight, in any interleaving of all their goroutines and for any kernel sending well-formed datagrams
or failing: nothing crashes, and each queue behaves as if it were the only one — what its goroutines
did is, in the order in which its calls finish, one datagram for each finished call, byte for byte what that call
would have sent alone; and complete turns of its reader, each delivering to its callback the contents of the
datagram received on its own socket; its counters count its own packets and verdicts. -/
theorem C117_queues_independent_partial (env : Env) (hidle : ∀ w, env.cbEffect w = w) (K : Kernel QEv) (n : Nat)
    (lock : Nat → Bool) (calls : Nat → List VCall) (w : MW) (qh : Nat → Handle) (cb ecb priv size : Nat → Nat)
    (T : Together w n qh cb ecb priv size calls)
    (hl : ∀ j, j < n → lock j = true ∨ ∀ c ∈ calls j, c.isV2 = false)
    (hK : ∀ j, j < n → ∀ evs d, K.recv (w.trace ++ evs) (qh j).fd = .ok d → Decent env.e (d.take (size j)))
    (is : List (Nat × Option Nat)) :
    ∃ (s : MPc) (log : List (Nat × Ev QEv)) (w' : MW),
      msched env K n lock calls is allIdle w = .ok ((s, log), w') ∧ w'.trace = w.trace ++ log.map (·.2) ∧
      ∀ j, j < n → ∃ (order : List Nat) (msg : Nat → List Byte) (turns : List (List (Ev QEv))) (rest : List (Ev QEv)),
        -- the verdicts
        order.Nodup ∧ (∀ i, i ∈ order ↔ i < (calls j).length ∧ (s j).2 i = .done) ∧
        sentOf (doneBy j log) = order.map msg ∧
        (∀ i ∈ order, ∃ c, (calls j)[i]? = some c ∧ SendsAlone env K (w.view j) c (msg i)) ∧
        -- the reader
        othersOf (doneBy j log) = turns.flatten ++ rest ∧
        (∀ g ∈ turns, Turn env.e (qh j) (cb j) (ecb j) (priv j) (size j) g) ∧
        (rest = [] ∨ ∃ r, rest = [.recvfrom (qh j).fd (size j) 0x100 r]) ∧
        turnsOf j none is ≤ 4 * turns.length + 3 ∧
        -- the counters
        (rest = [] → (w'.st j).processed = (w.st j).processed + BitVec.ofNat 64 (turns.flatten.countP isPacket)) ∧
        (w'.st j).accepted = (w.st j).accepted + BitVec.ofNat 64 (begun (calls j) (s j).2 VCall.accepts) ∧
        (w'.st j).dropped = (w.st j).dropped + BitVec.ofNat 64 (begun (calls j) (s j).2 VCall.drops) := by
  have i0 : MInv env w n qh cb ecb priv size calls w allIdle (fun _ => []) (fun _ => []) (fun _ => []) [] (fun _ => 0) :=
    ⟨by simp, fun j hj => T.init hj⟩
  obtain ⟨s, log, w', order, ts, pend, h1, inv⟩ := minv_sched T hidle K lock hl hK is i0
  rw [List.nil_append] at inv
  refine ⟨s, log, w', h1, inv.trace, ?_⟩
  intro j hj
  have ij := inv.each j hj
  have hs := (T.setup j hj).serving
  have hV : VReady (w.view j) (qh j) := ⟨hs.handle, hs.hdr, hs.hdr40⟩
  obtain ⟨e2, e3⟩ := ij.g.sent
  have ht := ij.t
  refine ⟨order j, _, ts j, pend j, ij.g.nodup, ij.g.fin, e3, ?_, e2, ij.turns, ?_, ?_, ?_, ij.g.acc, ij.g.drp⟩
  · intro i hi
    have hlt' := ((ij.g.fin i).mp hi).1
    exact ⟨(calls j)[i], List.getElem?_eq_getElem hlt', sendsAlone hV env K _ _ (T.ok j hj) (List.getElem?_eq_getElem hlt')⟩
  · cases hp : (s j).1 with
    | idle => rw [hp] at ht; exact Or.inl ht
    | got => rw [hp] at ht; obtain ⟨_, d, hd, _⟩ := ht; exact Or.inr ⟨_, hd⟩
    | parsed => rw [hp] at ht; obtain ⟨r, hr, _⟩ := ht; exact Or.inr ⟨_, hr⟩
    | ready => rw [hp] at ht; obtain ⟨d, hd, _⟩ := ht; exact Or.inr ⟨_, hd⟩
  · have := ij.steps
    have : progress (s j).1 ≤ 3 := by cases (s j).1 <;> simp [progress]
    omega
  · intro hrest
    have hpr := ij.processed
    cases hp : (s j).1 with
    | idle => rw [hp] at hpr; simpa [counting, MW.view] using hpr
    | got => rw [hp] at ht; obtain ⟨_, d, hd, _⟩ := ht; rw [hrest] at hd; cases hd
    | parsed => rw [hp] at ht; obtain ⟨r, hr, _⟩ := ht; rw [hrest] at hr; cases hr
    | ready => rw [hp] at ht; obtain ⟨d, hd, _⟩ := ht; rw [hrest] at hd; cases hd

theorem mstep_rank {env : Env} {w0 : MW} {n : Nat} {qh : Nat → Handle} {cb ecb priv size : Nat → Nat} {calls : Nat → List VCall}
    (T : Together w0 n qh cb ecb priv size calls) (K : Kernel QEv) (lock : Nat → Bool)
    {w : MW} {s : MPc} {order : Nat → List Nat} {ts : Nat → List (List (Ev QEv))} {pend : Nat → List (Ev QEv)}
    {log : List (Nat × Ev QEv)} {cnt : Nat → Nat}
    (inv : MInv env w0 n qh cb ecb priv size calls w s order ts pend log cnt) (ji : Nat × Option Nat)
    {s' : MPc} {l : List (Nat × Ev QEv)} {w' : MW} (h : mstep env K n lock calls ji s w = .ok ((s', l), w'))
    {j : Nat} (hj : j < n) (hlock : lock j = false) (hv : ∀ c ∈ calls j, c.isV2 = false) (i : Nat) (c : VCall)
    (hi : (calls j)[i]? = some c) :
    rank c ((s' j).2 i) = rank c ((s j).2 i) - (if ji.1 = j ∧ ji.2 = some i then 1 else 0) := by
  obtain ⟨k, x⟩ := ji
  unfold mstep at h
  by_cases hk : k < n
  · rw [if_pos hk] at h
    simp only at h
    rcases hc : cstep env K (lock k) (calls k) x (s k) (w.view k) with ⟨s1, v⟩ | _ | _
    · rw [hc] at h
      simp only [Res.ok.injEq, Prod.mk.injEq] at h
      rw [← h.1.1]
      by_cases hjk : j = k
      · subst hjk
        simp only [if_true, true_and]
        cases x with
        | none =>
          obtain ⟨y, _, hy⟩ := Res.bind_eq_ok.mp hc
          simp only [GoM.pure_apply, Res.ok.injEq, Prod.mk.injEq] at hy
          rw [← hy.1]; simp
        | some x =>
          obtain ⟨⟨p, w2⟩, hx, hy⟩ := Res.bind_eq_ok.mp hc
          simp only [GoM.pure_apply, Res.ok.injEq, Prod.mk.injEq] at hy
          rw [← hy.1]
          rw [hlock] at hx
          have := rank_step (T.callsOk (env := env) hj) env rfl K hv (inv.each j hj).g hx i c hi
          simpa using this
      · have : ¬ k = j := fun e => hjk e.symm
        simp [hjk, this]
    · rw [hc] at h; simp at h
    · rw [hc] at h; simp at h
  · rw [if_neg hk] at h
    simp only [Res.ok.injEq, Prod.mk.injEq] at h
    rw [← h.1.1]
    have : ¬ k = j := by omega
    simp [this]

theorem msched_rank {env : Env} {w0 : MW} {n : Nat} {qh : Nat → Handle} {cb ecb priv size : Nat → Nat} {calls : Nat → List VCall}
    (T : Together w0 n qh cb ecb priv size calls) (hidle : ∀ w, env.cbEffect w = w) (K : Kernel QEv) (lock : Nat → Bool)
    (hl : ∀ j, j < n → lock j = true ∨ ∀ c ∈ calls j, c.isV2 = false)
    (hK : ∀ j, j < n → ∀ evs d, K.recv (w0.trace ++ evs) (qh j).fd = .ok d → Decent env.e (d.take (size j)))
    {j : Nat} (hj : j < n) (hlock : lock j = false) (hv : ∀ c ∈ calls j, c.isV2 = false) (i : Nat) (c : VCall)
    (hi : (calls j)[i]? = some c) (is : List (Nat × Option Nat)) :
    ∀ {w : MW} {s : MPc} {order : Nat → List Nat} {ts : Nat → List (List (Ev QEv))} {pend : Nat → List (Ev QEv)}
    {log : List (Nat × Ev QEv)} {cnt : Nat → Nat},
    MInv env w0 n qh cb ecb priv size calls w s order ts pend log cnt →
    ∀ {s' : MPc} {l : List (Nat × Ev QEv)} {w' : MW}, msched env K n lock calls is s w = .ok ((s', l), w') →
    rank c ((s' j).2 i) = rank c ((s j).2 i) - turnsOf j (some i) is := by
  induction is with
  | nil =>
    intro w s order ts pend log cnt inv s' l w' h
    simp only [msched, GoM.pure_apply, Res.ok.injEq, Prod.mk.injEq] at h
    rw [← h.1.1]; simp [turnsOf]
  | cons x is ih =>
    intro w s order ts pend log cnt inv s' l w' h
    obtain ⟨s1, l1, w1, o1, t1, p1, h1, i1⟩ := minv_step T hidle K lock hl hK inv x
    have hr := mstep_rank T K lock inv x h1 hj hlock hv i c hi
    have h' : (mstep env K n lock calls x s w >>= fun y =>
        (msched env K n lock calls is y.1.1 y.2 >>= fun z => .ok ((z.1.1, y.1.2 ++ z.1.2), z.2))) = .ok ((s', l), w') := h
    rw [h1, Res.ok_bind] at h'
    obtain ⟨⟨⟨s2, l2⟩, w2⟩, h2, hz⟩ := Res.bind_eq_ok.mp h'
    simp only [Res.ok.injEq, Prod.mk.injEq] at hz
    have := ih i1 h2
    rw [← hz.1.1, this, hr, turnsOf_cons]
    omega

/-- C117, completion: `SetVerdict` on one queue waits neither for its reader nor for any other queue: a goroutine
that is given five turns has sent its message and returned. -/
theorem C117_completes (env : Env) (hidle : ∀ w, env.cbEffect w = w) (K : Kernel QEv) (n : Nat)
    (lock : Nat → Bool) (calls : Nat → List VCall) (w : MW) (qh : Nat → Handle) (cb ecb priv size : Nat → Nat)
    (T : Together w n qh cb ecb priv size calls)
    (hl : ∀ j, j < n → lock j = true ∨ ∀ c ∈ calls j, c.isV2 = false)
    (hK : ∀ j, j < n → ∀ evs d, K.recv (w.trace ++ evs) (qh j).fd = .ok d → Decent env.e (d.take (size j)))
    (is : List (Nat × Option Nat)) {s : MPc} {log : List (Nat × Ev QEv)} {w' : MW}
    (h : msched env K n lock calls is allIdle w = .ok ((s, log), w')) (j : Nat) (hj : j < n) (hlock : lock j = false)
    (hv : ∀ c ∈ calls j, c.isV2 = false) (i : Nat) (hi : i < (calls j).length) (h5 : 5 ≤ turnsOf j (some i) is) :
    (s j).2 i = .done := by
  have i0 : MInv env w n qh cb ecb priv size calls w allIdle (fun _ => []) (fun _ => []) (fun _ => []) [] (fun _ => 0) :=
    ⟨by simp, fun j hj => T.init hj⟩
  obtain ⟨s1, log1, w1, order, ts, pend, h1, inv⟩ := minv_sched T hidle K lock hl hK is i0
  rw [h] at h1
  simp only [Res.ok.injEq, Prod.mk.injEq] at h1
  obtain ⟨⟨rfl, rfl⟩, rfl⟩ := h1
  have hg : (calls j)[i]? = some (calls j)[i] := List.getElem?_eq_getElem hi
  have hr := msched_rank T hidle K lock hl hK hj hlock hv i _ hg is i0 h
  have hv' := hv (calls j)[i] (List.getElem_mem hi)
  have ht := (inv.each j hj).g.tinv i (calls j)[i] hg
  have h0 : rank (calls j)[i] ((s j).2 i) = 0 := by
    rw [hr]; simp [allIdle, allStart, rank, hv']; omega
  cases hp : (s j).2 i with
  | done => rfl
  | start => rw [hp] at h0; simp [rank, hv'] at h0
  | counted => rw [hp] at h0; simp [rank] at h0
  | headed => rw [hp] at h0; simp [rank] at h0
  | attred => rw [hp] at h0; simp [rank] at h0
  | padded => rw [hp] at h0; simp [rank] at h0
  | filled k j =>
    rw [hp] at ht
    have := ht.1
    rw [hv'] at this; cases this

end Verif.Props
