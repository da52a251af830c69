import Verif.NfQueue.Receive
import Verif.NfQueue.Start
import Verif.Props.NfQueueVerdict
/-!
Properties C22–C26: what `ProcessPackets` delivers, for every kernel, every application that
returns from its callbacks, and every number of loop iterations.
-/
namespace Verif.Props
open Verif.Common Verif.Sys Verif.Spec Verif.NfQueue

/-- Not a receive, not a callback, not a close: what an application callback may cause. -/
def quiet : Ev QEv → Bool
  | .recvfrom _ _ _ _ => false
  | .app _ => false
  | .close _ _ => false
  | _ => true

def isRecv : Ev QEv → Bool
  | .recvfrom _ _ _ _ => true
  | _ => false

/-- A callback invocation. -/
def isCallback : Ev QEv → Bool
  | .app (.packet _ _ _ _ _) => true
  | .app (.error _ _ _) => true
  | _ => false

/-- A packet callback invocation. -/
def isPacket : Ev QEv → Bool
  | .app (.packet _ _ _ _ _) => true
  | _ => false

/-- An application whose callbacks return, do not receive from or close the queue's socket, and change the handle
at most by setting verdicts (the two verdict counters). They may write any memory and make other calls. -/
structure AppOk (env : Env) : Prop where
  st : ∀ w, ∃ a d, (env.cbEffect w).st = { w.st with accepted := a, dropped := d }
  heap : ∀ w a, (w.heap.arrayOf a).length ≤ ((env.cbEffect w).heap.arrayOf a).length
  trace : ∀ w, ∃ evs, (env.cbEffect w).trace = w.trace ++ evs ∧ ∀ ev ∈ evs, quiet ev = true

theorem valid_mono {h h' : Heap} (hl : ∀ a, (h.arrayOf a).length ≤ (h'.arrayOf a).length) {s : Slice}
    (hs : s.Valid h) : s.Valid h' :=
  ⟨hs.1, Nat.le_trans hs.2 (hl _)⟩

theorem AppOk.serving {env : Env} (hA : AppOk env) {w : W} {qh : Handle} (hS : Serving w qh) :
    Serving (env.cbEffect w) qh := by
  obtain ⟨a, d, hst⟩ := hA.st w
  have hh := hA.heap w
  exact ⟨by rw [hst]; exact hS.handle, by rw [hst]; exact valid_mono hh hS.buf, by rw [hst]; exact hS.small,
    by rw [hst]; exact valid_mono hh hS.hdr, by rw [hst]; exact hS.hdr40, by rw [hst]; exact hS.sep,
    by rw [hst]; exact hS.reg⟩

/-- The queue as `ProcessPackets` is to serve it: ready, with these callbacks, private data and receive buffer
size. -/
structure Setup (w : W) (qh : Handle) (cb ecb priv size : Nat) : Prop where
  serving : Serving w qh
  cb : w.st.callback = some cb
  ecb : w.st.errorCallback = some ecb
  priv : w.st.privateData = priv
  size : w.st.buf.len = size

/-- What one turn of the receive loop looks like from outside: one receive, then exactly one callback — the error
callback, told why, if the receive failed, else the packet callback with the private data and with the contents of
this very datagram — then whatever the callback causes. -/
def Turn (e : Endian) (qh : Handle) (cb ecb priv size : Nat) (g : List (Ev QEv)) : Prop :=
  ∃ r rest, (∀ ev ∈ rest, quiet ev = true) ∧
    ((Failed e r ∧ ∃ err nf, Told e r err ∧
        g = .recvfrom qh.fd size 0x100 r :: .app (.error ecb (.wrap "Netlink error %v" err) nf) :: rest) ∨
     (¬ Failed e r ∧ ∃ d b mark id, r = .ok d ∧ (∀ attrs, Carries e d attrs → Agrees e attrs b mark id) ∧
        g = .recvfrom qh.fd size 0x100 r :: .app (.packet cb b mark id priv) :: rest))

theorem receiveOne_turn {env : Env} {K : Kernel QEv} {w w' : W} {qh : Handle} {cb ecb priv size : Nat}
    (hA : AppOk env) (hS : Setup w qh cb ecb priv size) (h : receiveOne env K w = .ok ((), w')) :
    ∃ g, w'.trace = w.trace ++ g ∧ Turn env.e qh cb ecb priv size g ∧ Setup w' qh cb ecb priv size ∧
      w'.st.processed = w.st.processed + BitVec.ofNat 64 (g.countP isPacket) := by
  obtain ⟨hS, hcb, hecb, rfl, rfl⟩ := hS
  obtain ⟨r, w1, rfl, hS1, _, hcase⟩ := receiveOne_spec env K w w' qh cb ecb hS hcb hecb h
  obtain ⟨a, d, hst⟩ := hA.st w1
  obtain ⟨evs, htr, hq⟩ := hA.trace w1
  have hq0 : evs.countP isPacket = 0 := by
    rw [List.countP_eq_zero]
    intro ev hev
    have := hq ev hev
    cases ev <;> simp_all [quiet, isPacket]
  rcases hcase with ⟨hf, ⟨err, g, hT, ht⟩, m', hst1⟩ | ⟨hf, ⟨dg, b, mark, id, rfl, hag, ht⟩, m', hst1⟩
  · refine ⟨.recvfrom qh.fd w.st.buf.len 0x100 r :: .app (.error ecb (.wrap "Netlink error %v" err) g) :: evs, ?_, ?_, ?_, ?_⟩
    · rw [htr, ht]; simp
    · exact ⟨r, evs, hq, Or.inl ⟨hf, err, g, hT, rfl⟩⟩
    · exact ⟨hA.serving hS1, by rw [hst, hst1]; exact hcb, by rw [hst, hst1]; exact hecb, by rw [hst, hst1],
        by rw [hst, hst1]⟩
    · rw [hst, hst1, List.countP_cons_of_neg (by simp [isPacket]), List.countP_cons_of_neg (by simp [isPacket]), hq0]
      simp
  · refine ⟨.recvfrom qh.fd w.st.buf.len 0x100 (.ok dg) :: .app (.packet cb b mark id w.st.privateData) :: evs, ?_, ?_, ?_, ?_⟩
    · rw [htr, ht]; simp
    · exact ⟨.ok dg, evs, hq, Or.inr ⟨hf, dg, b, mark, id, rfl, hag, rfl⟩⟩
    · exact ⟨hA.serving hS1, by rw [hst, hst1]; exact hcb, by rw [hst, hst1]; exact hecb, by rw [hst, hst1],
        by rw [hst, hst1]⟩
    · rw [hst, hst1, List.countP_cons_of_neg (by simp [isPacket]), List.countP_cons_of_pos (by simp [isPacket]), hq0]
      rfl

theorem processPackets_turns (env : Env) (K : Kernel QEv) (hA : AppOk env) (qh : Handle)
    (cb ecb priv size : Nat) : ∀ (n : Nat) (w w' : W) (fin : Bool),
    Setup w qh cb ecb priv size → processPackets env K n w = .ok (fin, w') →
    ∃ (gs : List (List (Ev QEv))) (closes : List (Ev QEv)), w'.trace = w.trace ++ (gs.flatten ++ closes) ∧
      (∀ g ∈ gs, Turn env.e qh cb ecb priv size g) ∧
      (∀ i, i < gs.length → env.ctxDone (w.trace ++ (gs.take i).flatten) = false) ∧
      (fin = true → CloseEvs qh.fd closes ∧ gs.length < n ∧ env.ctxDone (w.trace ++ gs.flatten) = true) ∧
      (fin = false → closes = [] ∧ gs.length = n) ∧
      w'.st.processed = w.st.processed + BitVec.ofNat 64 (gs.flatten.countP isPacket) ∧
      Setup w' qh cb ecb priv size := by
  intro n
  induction n with
  | zero =>
    intro w w' fin hS h
    simp only [processPackets, GoM.pure_apply, Res.ok.injEq, Prod.mk.injEq] at h
    obtain ⟨rfl, rfl⟩ := h
    exact ⟨[], [], by simp, by simp, by simp, by simp, by simp, by simp, hS⟩
  | succ n ih =>
    intro w w' fin hS h
    unfold processPackets at h
    simp only [GoM.bind_apply, processIter] at h
    obtain ⟨⟨b, w1⟩, h1, h⟩ := Res.bind_eq_ok.mp h
    by_cases hd : env.ctxDone w.trace = true
    · obtain ⟨evs, hc, hce⟩ := nfqClose_spec K hS.serving.handle
      rw [if_pos hd, hc] at h1
      simp only [Res.ok_bind, GoM.pure_apply, Res.ok.injEq, Prod.mk.injEq] at h1
      obtain ⟨rfl, rfl⟩ := h1
      simp only [if_true, GoM.pure_apply, Res.ok.injEq, Prod.mk.injEq] at h
      obtain ⟨rfl, rfl⟩ := h
      refine ⟨[], evs, by simp, by simp, by simp, fun _ => ⟨hce, by simp, by simpa using hd⟩, by simp, by simp, ?_⟩
      exact ⟨⟨hS.serving.1, hS.serving.2, hS.serving.3, hS.serving.4, hS.serving.5, hS.serving.6, hS.serving.7⟩,
        hS.cb, hS.ecb, hS.priv, hS.size⟩
    · rw [if_neg hd] at h1
      obtain ⟨⟨u, w2⟩, h2, h1⟩ := Res.bind_eq_ok.mp h1
      simp only [GoM.pure_apply, Res.ok.injEq, Prod.mk.injEq] at h1
      obtain ⟨rfl, rfl⟩ := h1
      obtain ⟨g, hg1, hg2, hg3, hg4⟩ := receiveOne_turn hA hS h2
      simp only [Bool.false_eq_true, if_false] at h
      obtain ⟨gs, closes, i1, i2, i3, i4, i5, i6, i7⟩ := ih w2 w' fin hg3 h
      refine ⟨g :: gs, closes, ?_, ?_, ?_, ?_, ?_, ?_, i7⟩
      · rw [i1, hg1]; simp
      · intro x hx
        rcases List.mem_cons.mp hx with rfl | hx
        · exact hg2
        · exact i2 x hx
      · intro i hi
        cases i with
        | zero => simpa using hd
        | succ i =>
          have := i3 i (by simpa using hi)
          rw [hg1] at this
          simpa using this
      · intro hf
        obtain ⟨a1, a2, a3⟩ := i4 hf
        refine ⟨a1, by simpa using a2, ?_⟩
        rw [hg1] at a3
        simpa using a3
      · intro hf
        obtain ⟨a1, a2⟩ := i5 hf
        exact ⟨a1, by simpa using a2⟩
      · rw [i6, hg4, List.flatten_cons, List.countP_append, BitVec.ofNat_add, BitVec.add_assoc]

/-- C23: with both callbacks installed, in every run of `ProcessPackets` (observed for any number
`n` of iterations; `fin` = it has returned) the events are exactly one `Turn` per receive, in the order of arrival —
one packet callback per good datagram, one error callback per failure, nothing else — followed by the
closing of the socket if it returned; and the processed-packets counter grew by the number of packet callbacks. -/
theorem C23_delivery (env : Env) (K : Kernel QEv) (hA : AppOk env) (qh : Handle) (cb ecb priv size : Nat)
    (n : Nat) (w w' : W) (fin : Bool) (hS : Setup w qh cb ecb priv size)
    (h : processPackets env K n w = .ok (fin, w')) :
    ∃ (gs : List (List (Ev QEv))) (closes : List (Ev QEv)), w'.trace = w.trace ++ (gs.flatten ++ closes) ∧
      (∀ g ∈ gs, Turn env.e qh cb ecb priv size g) ∧
      (fin = true → CloseEvs qh.fd closes) ∧ (fin = false → closes = [] ∧ gs.length = n) ∧
      w'.st.processed = w.st.processed + BitVec.ofNat 64 (gs.flatten.countP isPacket) := by
  obtain ⟨gs, closes, a, b, _, d, e, f, _⟩ := processPackets_turns env K hA qh cb ecb priv size n w w' fin hS h
  exact ⟨gs, closes, a, b, fun hf => (d hf).1, e, f⟩

/-! ### Where in the run a receive or a callback can be -/

theorem quiet_not {ev : Ev QEv} (h : quiet ev = true) : isRecv ev = false ∧ isCallback ev = false ∧ isPacket ev = false := by
  cases ev <;> simp_all [quiet, isRecv, isCallback, isPacket]

theorem closes_not {fd : Nat} {cl : List (Ev QEv)} (h : cl = [] ∨ CloseEvs fd cl) :
    ∀ ev ∈ cl, isRecv ev = false ∧ isCallback ev = false ∧ isPacket ev = false := by
  intro ev hm
  rcases h with rfl | rfl | ⟨e1, r, rfl⟩
  · simp at hm
  · simp at hm; subst hm; exact ⟨rfl, rfl, rfl⟩
  · simp at hm; rcases hm with rfl | rfl <;> exact ⟨rfl, rfl, rfl⟩

/-- Every receive followed by an event, and every packet callback, is found at the head of a turn. -/
theorem find_turn {e : Endian} {qh : Handle} {cb ecb priv size : Nat} {closes : List (Ev QEv)}
    (hcl : ∀ ev ∈ closes, isRecv ev = false ∧ isCallback ev = false ∧ isPacket ev = false) :
    ∀ (gs : List (List (Ev QEv))) (pre post : List (Ev QEv)) (x y : Ev QEv),
      (∀ g ∈ gs, Turn e qh cb ecb priv size g) → gs.flatten ++ closes = pre ++ x :: y :: post →
      (isRecv x = true ∨ isPacket y = true) → ∃ g ∈ gs, ∃ rest, g = x :: y :: rest := by
  intro gs
  induction gs with
  | nil =>
    intro pre post x y _ h hx
    simp only [List.flatten_nil, List.nil_append] at h
    have h1 := hcl x (by rw [h]; simp)
    have h2 := hcl y (by rw [h]; simp)
    rcases hx with hx | hx
    · rw [h1.1] at hx; simp at hx
    · rw [h2.2.2] at hx; simp at hx
  | cons g gs ih =>
    intro pre post x y hT h hx
    have hg := hT g (by simp)
    have : ∃ a b rest, g = a :: b :: rest ∧ isRecv a = true ∧ isRecv b = false ∧ isPacket a = false ∧
        ∀ ev ∈ rest, quiet ev = true := by
      obtain ⟨r, rest, hq, ⟨_, err, nf, _, rfl⟩ | ⟨_, d, b, mark, id, _, _, rfl⟩⟩ := hg <;>
        exact ⟨_, _, rest, rfl, rfl, rfl, rfl, hq⟩
    obtain ⟨a, b, rest, rfl, ha, hb, hap, hq⟩ := this
    match pre, h with
    | [], h =>
      simp only [List.flatten_cons, List.cons_append, List.nil_append, List.cons.injEq] at h
      obtain ⟨rfl, rfl, _⟩ := h
      exact ⟨_, by simp, rest, rfl⟩
    | [c], h =>
      simp only [List.flatten_cons, List.cons_append, List.nil_append, List.cons.injEq] at h
      obtain ⟨rfl, rfl, h'⟩ := h
      exfalso
      rcases hx with hx | hx
      · rw [hb] at hx; simp at hx
      · clear h hg
        match rest, h', hq with
        | r0 :: rest, h, hq =>
          simp only [List.cons_append, List.cons.injEq] at h
          have := (quiet_not (hq r0 (by simp))).2.2
          rw [h.1, hx] at this; simp at this
        | [], h, _ =>
          match gs, h, hT with
          | [], h, _ =>
            simp only [List.flatten_nil, List.nil_append] at h
            have := (hcl y (by rw [h]; simp)).2.2
            rw [hx] at this; simp at this
          | g2 :: gs2, h, hT =>
            obtain ⟨r, rest, hq, ⟨_, err, nf, _, rfl⟩ | ⟨_, d, b, mark, id, _, _, rfl⟩⟩ := hT g2 (by simp) <;>
            · simp only [List.flatten_cons, List.cons_append, List.nil_append, List.cons.injEq] at h
              rw [← h.1] at hx; simp [isPacket] at hx
    | c :: c2 :: pre, h =>
      simp only [List.flatten_cons, List.cons_append, List.cons.injEq] at h
      obtain ⟨_, _, h⟩ := h
      -- drop `rest` as far as it goes
      by_cases hlen : rest.length ≤ pre.length
      · obtain ⟨p2, rfl⟩ : ∃ p2, pre = rest ++ p2 := by
          refine ⟨pre.drop rest.length, ?_⟩
          have := congrArg (List.take rest.length) h
          rw [List.append_assoc, List.take_left' rfl, List.take_append_of_le_length hlen] at this
          conv => lhs; rw [← List.take_append_drop rest.length pre, ← this]
        rw [List.append_assoc, List.append_assoc, List.append_cancel_left_eq] at h
        obtain ⟨g', hg', r'⟩ := ih p2 post x y (fun g hg => hT g (by simp [hg])) h hx
        exact ⟨g', by simp [hg'], r'⟩
      · exfalso
        have hxr : x ∈ rest := by
          have h1 := congrArg (fun l => l[pre.length]?) h
          simp only [List.append_assoc] at h1
          rw [List.getElem?_append_left (by omega)] at h1
          rw [List.getElem?_append_right (by omega)] at h1
          simp at h1
          exact List.mem_of_getElem? h1
        rcases hx with hx | hx
        · rw [(quiet_not (hq x hxr)).1] at hx; simp at hx
        · by_cases hl2 : rest.length = pre.length + 1
          · have h1 := congrArg (List.drop rest.length) h
            rw [List.append_assoc, List.drop_left' rfl, hl2, show pre ++ x :: y :: post = (pre ++ [x]) ++ y :: post by simp,
              List.drop_left' (by simp)] at h1
            match gs, h1, hT with
            | [], h1, _ =>
              simp only [List.flatten_nil, List.nil_append] at h1
              have := (hcl y (by rw [h1]; simp)).2.2
              rw [hx] at this; simp at this
            | g2 :: gs2, h1, hT =>
              obtain ⟨r, rest, hq, ⟨_, err, nf, _, rfl⟩ | ⟨_, d, b, mark, id, _, _, rfl⟩⟩ := hT g2 (by simp) <;>
              · simp only [List.flatten_cons, List.cons_append, List.cons.injEq] at h1
                rw [← h1.1] at hx; simp [isPacket] at hx
          · have hyr : y ∈ rest := by
              have h1 := congrArg (fun l => l[pre.length + 1]?) h
              simp only [List.append_assoc] at h1
              rw [List.getElem?_append_left (by omega)] at h1
              rw [List.getElem?_append_right (by omega)] at h1
              simp at h1
              exact List.mem_of_getElem? h1
            rw [(quiet_not (hq y hyr)).2.2] at hx; simp at hx

/-- C22: in every run (any history of datagrams), every packet delivered carries the id, mark and payload
attributes of the datagram received just before, as far as that datagram carries them.
What is missing for the full property: an attribute the datagram does not carry should read as 0 or empty; see
`C22_stale`. -/
theorem C22_own_contents_partial (env : Env) (K : Kernel QEv) (hA : AppOk env) (qh : Handle) (cb ecb priv size : Nat)
    (n : Nat) (w w' : W) (fin : Bool) (hS : Setup w qh cb ecb priv size)
    (h : processPackets env K n w = .ok (fin, w')) (pre post : List (Ev QEv)) (x : Ev QEv)
    (cb' priv' : Nat) (b : List Byte) (mark id : Nat)
    (hx : w'.trace = w.trace ++ (pre ++ x :: .app (.packet cb' b mark id priv') :: post)) :
    ∃ d, x = .recvfrom qh.fd size 0x100 (.ok d) ∧
      ∀ attrs, Carries env.e d attrs → Agrees env.e attrs b mark id := by
  obtain ⟨gs, closes, ht, hT, _, hc, hc', _⟩ := processPackets_turns env K hA qh cb ecb priv size n w w' fin hS h
  rw [hx, List.append_cancel_left_eq] at ht
  have hcl : closes = [] ∨ CloseEvs qh.fd closes := by
    cases fin
    · exact Or.inl (hc' rfl).1
    · exact Or.inr (hc rfl).1
  obtain ⟨g, hg, rest, rfl⟩ := find_turn (closes_not hcl) gs pre post _ _ hT ht.symm (Or.inr rfl)
  obtain ⟨r, rest', _, ⟨_, err, nf, he⟩ | ⟨_, d, b', mark', id', rfl, hag, he⟩⟩ := hT _ hg
  · simp at he
  · simp only [List.cons.injEq, Ev.app.injEq, QEv.packet.injEq] at he
    obtain ⟨rfl, ⟨rfl, rfl, rfl, rfl, rfl⟩, _⟩ := he
    exact ⟨d, rfl, hag⟩

/-- C24: with an error callback installed, the packet callback is invoked only right after a receive that did
not fail. What is missing: without an error callback it is not so, see `C24_no_error_callback`. -/
theorem C24_only_good_partial (env : Env) (K : Kernel QEv) (hA : AppOk env) (qh : Handle) (cb ecb priv size : Nat)
    (n : Nat) (w w' : W) (fin : Bool) (hS : Setup w qh cb ecb priv size)
    (h : processPackets env K n w = .ok (fin, w')) (pre post : List (Ev QEv)) (x : Ev QEv)
    (cb' priv' : Nat) (b : List Byte) (mark id : Nat)
    (hx : w'.trace = w.trace ++ (pre ++ x :: .app (.packet cb' b mark id priv') :: post)) :
    ∃ r, x = .recvfrom qh.fd size 0x100 r ∧ ¬ Failed env.e r := by
  obtain ⟨gs, closes, ht, hT, _, hc, hc', _⟩ := processPackets_turns env K hA qh cb ecb priv size n w w' fin hS h
  rw [hx, List.append_cancel_left_eq] at ht
  have hcl : closes = [] ∨ CloseEvs qh.fd closes := by
    cases fin
    · exact Or.inl (hc' rfl).1
    · exact Or.inr (hc rfl).1
  obtain ⟨g, hg, rest, rfl⟩ := find_turn (closes_not hcl) gs pre post _ _ hT ht.symm (Or.inr rfl)
  obtain ⟨r, rest', _, ⟨_, err, nf, he⟩ | ⟨hnf, d, b', mark', id', rfl, hag, he⟩⟩ := hT _ hg
  · simp at he
  · simp only [List.cons.injEq, Ev.app.injEq, QEv.packet.injEq] at he
    exact ⟨_, he.1, hnf⟩

/-- C24 is violated without an error callback: whenever the receive fails with a system error, the packet callback
is invoked all the same, with no data, mark 0 and id 0. -/
theorem C24_no_error_callback (env : Env) (K : Kernel QEv) (w : W) (qh : Handle) (cb n : Nat) (hS : Serving w qh)
    (hcb : w.st.callback = some cb) (hecb : w.st.errorCallback = none) (hr : K.recv w.trace qh.fd = .error n) :
    ∃ w1, receiveOne env K w = .ok ((), env.cbEffect w1) ∧
      w1.trace = w.trace ++ [.recvfrom qh.fd w.st.buf.len 0x100 (.error n), .app (.packet cb [] 0 0 w.st.privateData)] := by
  rcases recv_step env K w qh hS with ⟨n', hn', he⟩ | ⟨d0, d, hd0, _⟩
  · rw [hr] at hn'; cases hn'
    refine ⟨({ w with trace := w.trace ++ [.recvfrom qh.fd w.st.buf.len 0x100 (.error n)],
                      st := { w.st with processed := w.st.processed + 1 } } : W).log
        (.app (.packet cb [] 0 0 w.st.privateData)), ?_, ?_⟩
    · unfold receiveOne
      simp only [GoM.bind_apply, he, Res.ok_bind, getQ, hecb]
      simp only [GoM.bind_apply, packetInfoM, getPacketInfo, Res.ok_bind, modifyQ, hcb]
      simp only [emitPacket, runCallback, Res.ok_bind]
      simp [World.log, optBytes, hecb]
    · simp [World.log]
  · rw [hr] at hd0; cases hd0

/-! ### Cancelling -/

/-- C25: when the context is done at the top of the loop, `ProcessPackets` closes the socket (once; repeated only
if that failed), does nothing else and returns. -/
theorem C25_stops (env : Env) (K : Kernel QEv) (w : W) (qh : Handle) (hh : w.st.handle = some qh)
    (hd : env.ctxDone w.trace = true) (n : Nat) :
    ∃ closes, processPackets env K (n + 1) w = .ok (true, { w with trace := w.trace ++ closes }) ∧
      CloseEvs qh.fd closes := by
  obtain ⟨evs, hc, hce⟩ := nfqClose_spec K hh
  refine ⟨evs, ?_, hce⟩
  unfold processPackets
  simp only [GoM.bind_apply, processIter, if_pos hd, hc, Res.ok_bind, GoM.pure_apply, if_true]

theorem after_done {done : List (Ev QEv) → Bool} (hmono : ∀ a b, done a = true → done (a ++ b) = true)
    {e : Endian} {qh : Handle} {cb ecb priv size : Nat} {closes : List (Ev QEv)}
    (hcl : ∀ ev ∈ closes, isRecv ev = false ∧ isCallback ev = false ∧ isPacket ev = false) :
    ∀ (gs : List (List (Ev QEv))) (t p q : List (Ev QEv)),
      (∀ g ∈ gs, Turn e qh cb ecb priv size g) →
      (∀ i, i < gs.length → done (t ++ (gs.take i).flatten) = false) →
      gs.flatten ++ closes = p ++ q → done (t ++ p) = true →
      q.countP isRecv = 0 ∧ q.countP isCallback ≤ 1 := by
  intro gs
  induction gs with
  | nil =>
    intro t p q _ _ h hd
    simp only [List.flatten_nil, List.nil_append] at h
    have hm : ∀ ev ∈ q, ev ∈ closes := fun ev he => by rw [h]; simp [he]
    have h1 : q.countP isRecv = 0 := by
      rw [List.countP_eq_zero]; intro ev he; simp [(hcl ev (hm ev he)).1]
    have h2 : q.countP isCallback = 0 := by
      rw [List.countP_eq_zero]; intro ev he; simp [(hcl ev (hm ev he)).2.1]
    omega
  | cons g gs ih =>
    intro t p q hT hnd h hd
    by_cases hlen : g.length ≤ p.length
    · obtain ⟨p2, rfl⟩ : ∃ p2, p = g ++ p2 := by
        refine ⟨p.drop g.length, ?_⟩
        have := congrArg (List.take g.length) h
        rw [List.flatten_cons, List.append_assoc, List.take_left' rfl, List.take_append_of_le_length hlen] at this
        conv => lhs; rw [← List.take_append_drop g.length p, ← this]
      rw [List.flatten_cons, List.append_assoc, List.append_assoc, List.append_cancel_left_eq] at h
      refine ih (t ++ g) p2 q (fun g hg => hT g (by simp [hg])) ?_ h (by simpa using hd)
      intro i hi
      have := hnd (i + 1) (by simpa using hi)
      simpa using this
    · have hp0 : p ≠ [] := by
        rintro rfl
        have := hnd 0 (by simp)
        simp at this hd
        rw [this] at hd; cases hd
      obtain ⟨g2, rfl⟩ : ∃ g2, g = p ++ g2 := by
        refine ⟨g.drop p.length, ?_⟩
        have := congrArg (List.take p.length) h
        rw [List.flatten_cons, List.append_assoc, List.take_left' rfl, List.take_append_of_le_length (by omega)] at this
        conv => lhs; rw [← List.take_append_drop p.length g, this]
      have hgs : gs = [] := by
        match gs, hnd with
        | [], _ => rfl
        | g' :: gs', hnd =>
          exfalso
          have := hnd 1 (by simp)
          simp only [List.take_succ_cons, List.take_zero, List.flatten_cons, List.flatten_nil, List.append_nil,
            ← List.append_assoc] at this
          rw [hmono _ g2 hd] at this; cases this
      subst hgs
      simp only [List.flatten_cons, List.flatten_nil, List.append_nil, List.append_assoc, List.append_cancel_left_eq] at h
      subst h
      have c1 : closes.countP isRecv = 0 := by
        rw [List.countP_eq_zero]; intro ev he; simp [(hcl ev he).1]
      have c2 : closes.countP isCallback = 0 := by
        rw [List.countP_eq_zero]; intro ev he; simp [(hcl ev he).2.1]
      rw [List.countP_append, List.countP_append, c1, c2]
      match p, hp0 with
      | a :: p, _ =>
        obtain ⟨r, rest, hq, hg⟩ := hT (a :: p ++ g2) (by simp)
        have q1 : rest.countP isRecv = 0 := by
          rw [List.countP_eq_zero]; intro ev he; simp [(quiet_not (hq ev he)).1]
        have q2 : rest.countP isCallback = 0 := by
          rw [List.countP_eq_zero]; intro ev he; simp [(quiet_not (hq ev he)).2.1]
        have : ∃ x, p ++ g2 = x :: rest ∧ isRecv x = false := by
          rcases hg with ⟨_, err, nf, _, hg⟩ | ⟨_, d, b, mark, id, _, _, hg⟩
          · simp only [List.cons_append, List.cons.injEq] at hg
            exact ⟨_, hg.2, rfl⟩
          · simp only [List.cons_append, List.cons.injEq] at hg
            exact ⟨_, hg.2, rfl⟩
        obtain ⟨x, hx, hxr⟩ := this
        have k1 : p.countP isRecv + g2.countP isRecv = 0 := by
          rw [← List.countP_append, hx, List.countP_cons_of_neg (by simp [hxr]), q1]
        have k2 : p.countP isCallback + g2.countP isCallback ≤ 1 := by
          rw [← List.countP_append, hx, List.countP_cons, q2]
          split <;> omega
        omega

/-- C25: if the context, once done, stays done, then after any point of any run at which it is done there
is no further receive and at most one further callback (for the datagram just received). -/
theorem C25_at_most_one (env : Env) (K : Kernel QEv) (hA : AppOk env) (qh : Handle) (cb ecb priv size : Nat)
    (hmono : ∀ a b, env.ctxDone a = true → env.ctxDone (a ++ b) = true)
    (n : Nat) (w w' : W) (fin : Bool) (hS : Setup w qh cb ecb priv size)
    (h : processPackets env K n w = .ok (fin, w')) (p q : List (Ev QEv))
    (hsplit : w'.trace = w.trace ++ (p ++ q)) (hd : env.ctxDone (w.trace ++ p) = true) :
    q.countP isRecv = 0 ∧ q.countP isCallback ≤ 1 := by
  obtain ⟨gs, closes, ht, hT, hnd, hc, hc', _⟩ := processPackets_turns env K hA qh cb ecb priv size n w w' fin hS h
  rw [hsplit, List.append_cancel_left_eq] at ht
  have hcl : closes = [] ∨ CloseEvs qh.fd closes := by
    cases fin
    · exact Or.inl (hc' rfl).1
    · exact Or.inr (hc rfl).1
  exact after_done hmono (closes_not hcl) gs w.trace p q hT hnd ht.symm hd

/-! ### Crashes -/

/-- A datagram `Recv` can digest: at least 20 bytes and, unless it is an error message, no attribute header on the
walk states length 0, or a length below 4 with one of the types 1, 3 and 10. -/
def Digestible (e : Endian) (d : List Byte) : Prop :=
  20 ≤ d.length ∧ (ErrMsg e d ∨ ∀ j l t, Visits e (d.drop 20) 0 j → HeaderAt e (d.drop 20) j l t →
    j + l ≤ (d.drop 20).length → ¬ (l = 0 ∨ (l < 4 ∧ (t = 1 ∨ t = 3 ∨ t = 10))))

/-- C26: `Recv` returns exactly when the system call fails or the datagram (as cut to the buffer) is digestible;
on every other datagram the process crashes or hangs. The full property (it always returns) is false of the code. -/
theorem C26_recv_returns_iff_partial (env : Env) (K : Kernel QEv) (w : W) (qh : Handle) (hS : Serving w qh) :
    (∃ r, recv env K w = .ok r) ↔
      ∀ d, K.recv w.trace qh.fd = .ok d → Digestible env.e (d.take w.st.buf.len) := by
  rcases recv_step env K w qh hS with ⟨n, hn, he⟩ | ⟨d0, d, hd0, hd, hle, hA, hB, hC⟩
  · rw [he, hn]; simp
  · rw [hd0]
    simp only [Except.ok.injEq, forall_eq']
    rw [← hd]
    by_cases h20 : d.length < 20
    · rw [hA h20]
      simp only [reduceCtorEq, exists_false, false_iff]
      rintro ⟨h, _⟩; omega
    by_cases hE : ErrMsg env.e d
    · obtain ⟨err, hT, he⟩ := hB (by omega) hE
      rw [he]
      exact ⟨fun _ => ⟨by omega, Or.inl hE⟩, fun _ => ⟨_, rfl⟩⟩
    · obtain ⟨g, he⟩ := hC (by omega) hE
      obtain ⟨hb, hv⟩ := attrSlice_bytes hS.buf hle (by omega)
      have hs : (attrSlice w d).len + 3 < 2 ^ 32 := by
        have := hS.small
        show d.length - 20 + 3 < _
        omega
      have h7 := C07_returns_iff_partial env.e _ _ hv hs w.st.attrs
      rw [hb] at h7
      have hlen : (attrSlice w d).len = (d.drop 20).length := by rw [List.length_drop]; rfl
      rw [hlen] at h7
      have hreg : ∀ t, t < 11 ∧ (w.st.attrs t).isSome = true ↔ t = 1 ∨ t = 3 ∨ t = 10 := by
        intro t
        rw [hS.reg t]
        simp only [decide_eq_true_eq]
        omega
      constructor
      · rintro ⟨r, hr⟩
        refine ⟨by omega, Or.inr ?_⟩
        have : ∃ r, netlinkMessageToNfAttrStruct env.e (stored w d) (attrSlice w d) w.st.attrs = .ok r := by
          rw [he] at hr
          rcases hn : netlinkMessageToNfAttrStruct env.e (stored w d) (attrSlice w d) w.st.attrs with x | _ | _
          · exact ⟨x, rfl⟩
          · rw [hn] at hr; cases hr
          · rw [hn] at hr; cases hr
        intro j l t h1 h2 h3 h4
        refine h7.mp this j l t h1 h2 h3 ?_
        rw [hreg]; exact h4
      · rintro ⟨_, h | h⟩
        · exact absurd h hE
        · obtain ⟨⟨m', rest, err⟩, hr⟩ := h7.mpr (by
            intro j l t h1 h2 h3
            rw [hreg]
            exact h j l t h1 h2 h3)
          rw [he, hr]
          exact ⟨_, rfl⟩

/-- A datagram whose attributes all state a length of at least 4, and at least 8 for the id and mark. -/
def Proper (e : Endian) (d : List Byte) : Prop :=
  20 ≤ d.length ∧ ∀ j l t, Visits e (d.drop 20) 0 j → HeaderAt e (d.drop 20) j l t →
    4 ≤ l ∧ (t = 1 ∨ t = 3 → 8 ≤ l)

/-- A datagram the reader copes with: an error message, or one that is `Proper`. -/
def Decent (e : Endian) (d : List Byte) : Prop := 20 ≤ d.length ∧ (¬ ErrMsg e d → Proper e d)

theorem Proper.decent {e : Endian} {d : List Byte} (h : Proper e d) : Decent e d := ⟨h.1, fun _ => h⟩

theorem attrsOk_parse {e : Endian} {w : W} {qh : Handle} (hS : Serving w qh) (hO : AttrsOk w) {d : List Byte}
    (hd : d.length ≤ w.st.buf.len) (hP : Proper e d) {m' : AttrMap} {rest : Option Slice} {err : Option Err}
    (h : netlinkMessageToNfAttrStruct e (stored w d) (attrSlice w d) w.st.attrs = .ok (m', rest, err)) :
    ∀ k s, m' k = some s → s.Valid (stored w d) ∧ (k = 1 ∨ k = 3 → 4 ≤ s.len) := by
  obtain ⟨hb, hv⟩ := attrSlice_bytes hS.buf hd hP.1
  have hs : (attrSlice w d).len + 3 < 2 ^ 32 := by
    have := hS.small
    show d.length - 20 + 3 < _
    omega
  intro k s hk
  rcases (C06_inside e _ _ hv hs _ _ _ _ h k).2 with heq | ⟨j, l, s', h1, h2, h3, h4, h5, h6, h7⟩
  · rw [heq] at hk
    obtain ⟨a, b⟩ := hO k s hk
    exact ⟨stored_valid hS.buf hd a, b⟩
  · rw [h5] at hk
    cases hk
    refine ⟨h6, fun hk => ?_⟩
    rw [hb] at h1 h2 h7
    have := (hP.2 j l k h1 h2).2 hk
    have hl := congrArg List.length h7
    rw [Heap.bytes_length h6] at hl
    have : (attrSlice w d).len = (d.drop 20).length := by rw [List.length_drop]; rfl
    simp only [List.length_drop, List.length_take] at hl this
    omega

theorem info_returns {e : Endian} {h : Heap} {m : AttrMap}
    (hm : ∀ k s, m k = some s → s.Valid h ∧ (k = 1 ∨ k = 3 → 4 ≤ s.len)) :
    ∃ r, getPacketInfo e h (some m) = .ok r := by
  have hdec : ∀ (e : Endian) k s, (k = 1 ∨ k = 3) → m k = some s → ∃ v, dec32 e (h.bytes s) = .ok v := by
    intro e k s hk hs
    obtain ⟨a, b⟩ := hm k s hs
    rw [dec32_ok_iff, Heap.bytes_length a]
    exact b hk
  unfold getPacketInfo
  cases h1 : m 1 with
  | none =>
    cases h3 : m 3 with
    | none => simp [h1, h3]
    | some s3 =>
      obtain ⟨v3, hv3⟩ := hdec .big 3 s3 (by simp) h3
      simp [h1, h3, hv3]
  | some s1 =>
    obtain ⟨v1, hv1⟩ := hdec e 1 s1 (by simp) h1
    cases h3 : m 3 with
    | none => simp [h1, h3, hv1]
    | some s3 =>
      obtain ⟨v3, hv3⟩ := hdec .big 3 s3 (by simp) h3
      simp [h1, h3, hv1, hv3]

theorem AppOk.attrsOk {env : Env} (hA : AppOk env) {w : W} (hO : AttrsOk w) : AttrsOk (env.cbEffect w) := by
  obtain ⟨a, d, hst⟩ := hA.st w
  intro k s hk
  rw [hst] at hk
  obtain ⟨h1, h2⟩ := hO k s hk
  exact ⟨valid_mono (hA.heap w) h1, h2⟩

/-- One turn does not crash on a proper datagram. -/
theorem receiveOne_returns {env : Env} {K : Kernel QEv} (hA : AppOk env) {w : W} {qh : Handle} {cb : Nat}
    (hS : Serving w qh) (hO : AttrsOk w) (hcb : w.st.callback = some cb)
    (hP : ∀ d, K.recv w.trace qh.fd = .ok d → Proper env.e (d.take w.st.buf.len)) :
    ∃ w', receiveOne env K w = .ok ((), w') ∧ AttrsOk w' ∧ Serving w' qh ∧ w'.st.callback = some cb ∧
      w'.st.buf = w.st.buf := by
  have fin : ∀ w2 attr err g, recv env K w = .ok ((g, attr, err), w2) → w2.st.callback = some cb →
      (w2.st.errorCallback = w.st.errorCallback) → Serving w2 qh → AttrsOk w2 → w2.st.buf = w.st.buf →
      (attr = none ∨ attr = some w2.st.attrs) →
      ∃ w', receiveOne env K w = .ok ((), w') ∧ AttrsOk w' ∧ Serving w' qh ∧ w'.st.callback = some cb ∧
        w'.st.buf = w.st.buf := by
    intro w2 attr err g hr hc he hS2 hO2 hbuf hattr
    have hpk : ∃ w', (do
        let (id, mark, packet) ← packetInfoM env attr
        modifyQ fun q => { q with processed := q.processed + 1 }
        match w2.st.callback with
        | none => GoM.panic
        | some cb =>
          emitPacket cb packet mark id w2.st.privateData
          runCallback env : M Unit) w2 = .ok ((), w') ∧ AttrsOk w' ∧ Serving w' qh ∧ w'.st.callback = some cb ∧
            w'.st.buf = w.st.buf := by
      obtain ⟨⟨id, mark, pkt⟩, hi⟩ : ∃ r, getPacketInfo env.e w2.heap attr = .ok r := by
        rcases hattr with rfl | rfl
        · exact ⟨_, rfl⟩
        · exact info_returns hO2
      refine ⟨env.cbEffect (({ w2 with st := { w2.st with processed := w2.st.processed + 1 } } : W).log
        (.app (.packet cb (optBytes w2.heap pkt) mark id w2.st.privateData))), ?_, ?_, ?_, ?_, ?_⟩
      · simp only [GoM.bind_apply, packetInfoM, hi, Res.ok_bind, modifyQ, hc]
        simp only [emitPacket, runCallback, Res.ok_bind]
      · apply hA.attrsOk
        exact hO2
      · apply hA.serving
        exact ⟨hS2.1, hS2.2, hS2.3, hS2.4, hS2.5, hS2.6, hS2.7⟩
      · obtain ⟨a, d, hst⟩ := hA.st (({ w2 with st := { w2.st with processed := w2.st.processed + 1 } } : W).log
          (.app (.packet cb (optBytes w2.heap pkt) mark id w2.st.privateData)))
        rw [hst]; exact hc
      · obtain ⟨a, d, hst⟩ := hA.st (({ w2 with st := { w2.st with processed := w2.st.processed + 1 } } : W).log
          (.app (.packet cb (optBytes w2.heap pkt) mark id w2.st.privateData)))
        rw [hst]; exact hbuf
    unfold receiveOne
    simp only [GoM.bind_apply, hr, Res.ok_bind, getQ]
    cases err with
    | none => exact hpk
    | some err =>
      cases hecb : w2.st.errorCallback with
      | none => exact hpk
      | some ecb =>
        refine ⟨env.cbEffect (w2.log (.app (.error ecb (.wrap "Netlink error %v" err) g))), by simp [emit, runCallback], ?_, ?_, ?_, ?_⟩
        · apply hA.attrsOk
          exact hO2
        · apply hA.serving
          exact ⟨hS2.1, hS2.2, hS2.3, hS2.4, hS2.5, hS2.6, hS2.7⟩
        · obtain ⟨a, d, hst⟩ := hA.st (w2.log (.app (.error ecb (.wrap "Netlink error %v" err) g)))
          rw [hst]; exact hc
        · obtain ⟨a, d, hst⟩ := hA.st (w2.log (.app (.error ecb (.wrap "Netlink error %v" err) g)))
          rw [hst]; exact hbuf
  rcases recv_step env K w qh hS with ⟨n, hn, he⟩ | ⟨d0, d, hd0, hd, hle, hA', hB, hC⟩
  · exact fin _ _ _ _ he hcb rfl ⟨hS.1, hS.2, hS.3, hS.4, hS.5, hS.6, hS.7⟩ hO rfl (Or.inl rfl)
  · have hPd := hP d0 hd0
    rw [← hd] at hPd
    have hOst : AttrsOk (⟨w.trace ++ [.recvfrom qh.fd w.st.buf.len 0x100 (.ok d)], stored w d, w.st⟩ : W) := by
      intro k s hk
      obtain ⟨a, b⟩ := hO k s hk
      exact ⟨stored_valid hS.buf hle a, b⟩
    by_cases hE : ErrMsg env.e d
    · obtain ⟨err, hT, he⟩ := hB hPd.1 hE
      exact fin _ _ _ _ he hcb rfl (hS.after hle rfl rfl rfl rfl (fun _ => rfl)) hOst rfl (Or.inl rfl)
    · obtain ⟨g, he⟩ := hC hPd.1 hE
      obtain ⟨hb, hv⟩ := attrSlice_bytes hS.buf hle hPd.1
      have hs : (attrSlice w d).len + 3 < 2 ^ 32 := by
        have := hS.small
        show d.length - 20 + 3 < _
        omega
      obtain ⟨⟨m', rest, err⟩, hr⟩ := C07_returns_partial env.e _ _ hv hs w.st.attrs (by
        intro j l t h1 h2
        rw [hb] at h1 h2
        exact (hPd.2 j l t h1 h2).1)
      rw [hr] at he
      have hreg := (attrs_parse hS hle hPd.1 hr).1
      refine fin _ _ _ _ he hcb rfl (hS.after hle rfl rfl rfl rfl hreg) ?_ rfl (Or.inr rfl)
      exact attrsOk_parse hS hO hle hPd hr

/-- C26: if every datagram the kernel delivers is proper, `ProcessPackets` runs for any number of iterations
without crashing or hanging in the parser, with or without an error callback. The full property (for all
datagrams) is false of the code, see `C26_recv_returns_iff_partial`. -/
theorem C26_loop_never_crashes_partial (env : Env) (K : Kernel QEv) (hA : AppOk env) (qh : Handle) (cb : Nat)
    (n : Nat) : ∀ (w : W), Serving w qh → AttrsOk w → w.st.callback = some cb →
    (∀ tr d, K.recv tr qh.fd = .ok d → Proper env.e (d.take w.st.buf.len)) →
    ∃ fin w', processPackets env K n w = .ok (fin, w') := by
  induction n with
  | zero => intro w _ _ _ _; exact ⟨false, w, rfl⟩
  | succ n ih =>
    intro w hS hO hcb hP
    by_cases hd : env.ctxDone w.trace = true
    · obtain ⟨closes, h, _⟩ := C25_stops env K w qh hS.handle hd n
      exact ⟨_, _, h⟩
    · obtain ⟨w1, h1, h2, h3, h4, h5⟩ := receiveOne_returns hA hS hO hcb (hP w.trace)
      obtain ⟨fin, w', h6⟩ := ih w1 h3 h2 h4 (by rw [h5]; exact hP)
      refine ⟨fin, w', ?_⟩
      unfold processPackets
      simp only [GoM.bind_apply, processIter, if_neg hd, h1, Res.ok_bind, GoM.pure_apply, Bool.false_eq_true, if_false]
      exact h6

/-! ### Stale attributes, and concrete cases -/

/-- A queue being served: receive buffer of 64 bytes (array 0), scratch header (1), one initial buffer per
attribute. -/
def readerWorld : W :=
  { trace := [], heap := ⟨[zeros 64, zeros 40, zeros 4, zeros 4, zeros 4]⟩
    st := { subscribed := 8, queueNum := 5, callback := some 1, errorCallback := some 2, privateData := 3
            handle := some ⟨3, Slice.nil⟩, notification := ⟨100, [], false⟩, buf := ⟨0, 0, 64, 64⟩
            attrs := fun k => if k = 1 then some ⟨2, 0, 4, 4⟩ else if k = 3 then some ⟨3, 0, 4, 4⟩
              else if k = 10 then some ⟨4, 0, 4, 4⟩ else none
            hdrSlice := ⟨1, 0, 40, 40⟩, accepted := 0, dropped := 0, processed := 0 } }

theorem readerWorld_serving : Serving readerWorld ⟨3, Slice.nil⟩ where
  handle := rfl
  buf := ⟨Nat.le_refl _, by decide⟩
  small := by decide
  hdr := ⟨Nat.le_refl _, by decide⟩
  hdr40 := rfl
  sep := by decide
  reg := by
    intro k
    simp only [readerWorld]
    by_cases h1 : k = 1
    · simp [h1]
    by_cases h3 : k = 3
    · simp [h3]
    by_cases h10 : k = 10
    · simp [h10]
    simp [h1, h3, h10]

theorem readerWorld_setup : Setup readerWorld ⟨3, Slice.nil⟩ 1 2 3 64 := ⟨readerWorld_serving, rfl, rfl, rfl, rfl⟩

theorem readerWorld_attrsOk : AttrsOk readerWorld := by
  intro k s hk
  simp only [readerWorld] at hk
  by_cases h1 : k = 1
  · simp [h1] at hk; subst hk; exact ⟨⟨Nat.le_refl _, by decide⟩, by simp⟩
  by_cases h3 : k = 3
  · simp [h3] at hk; subst hk; exact ⟨⟨Nat.le_refl _, by decide⟩, by simp⟩
  by_cases h10 : k = 10
  · simp [h10] at hk; subst hk; exact ⟨⟨Nat.le_refl _, by decide⟩, by simp⟩
  simp [h1, h3, h10] at hk

/-- A packet with id 1, mark 7 and payload 1 2 3 4. -/
def dgram1 : List Byte := zeros 20 ++ encodeAttrs .little [(1, [1, 0, 0, 0]), (3, [0, 0, 0, 7]), (10, [1, 2, 3, 4])]
/-- A packet with id 2, no mark, payload 9 9 9 9. -/
def dgram2 : List Byte := zeros 20 ++ encodeAttrs .little [(1, [2, 0, 0, 0]), (10, [9, 9, 9, 9])]

/-- Delivers the first packet, then the second for ever. -/
def twoPackets : Kernel QEv := { yesKernel with recv := fun tr _ => .ok (if tr.length = 0 then dgram1 else dgram2) }

/-- One turn, computed. -/
theorem receiveOne_good {env : Env} {K : Kernel QEv} {w : W} {qh : Handle} {cb id mark : Nat} {d : List Byte}
    {m' : AttrMap} {rest : Option Slice} {pkt : Option Slice} (hS : Serving w qh) (hcb : w.st.callback = some cb)
    (hK : K.recv w.trace qh.fd = .ok d) (hle : d.length ≤ w.st.buf.len) (h20 : 20 ≤ d.length) (hE : ¬ ErrMsg env.e d)
    (hp : netlinkMessageToNfAttrStruct env.e (stored w d) (attrSlice w d) w.st.attrs = .ok (m', rest, none))
    (hi : getPacketInfo env.e (stored w d) (some m') = .ok (id, mark, pkt)) :
    receiveOne env K w = .ok ((), env.cbEffect ⟨w.trace ++ [.recvfrom qh.fd w.st.buf.len 0x100 (.ok d),
        .app (.packet cb (optBytes (stored w d) pkt) mark id w.st.privateData)], stored w d,
      { w.st with attrs := m', processed := w.st.processed + 1 }⟩) := by
  rcases recv_step env K w qh hS with ⟨n, hn, _⟩ | ⟨d0, d', hd0, hd', _, _, _, hC⟩
  · rw [hK] at hn; cases hn
  · rw [hK] at hd0
    cases hd0
    rw [List.take_of_length_le hle] at hd'
    subst hd'
    obtain ⟨g, he⟩ := hC h20 hE
    rw [hp] at he
    unfold receiveOne
    simp only [GoM.bind_apply, he, Res.ok_bind, getQ]
    simp only [GoM.bind_apply, packetInfoM, hi, Res.ok_bind, modifyQ, hcb]
    simp [emitPacket, runCallback, World.log]

/-- Where the first packet's attributes are in the receive buffer. -/
def map1 : AttrMap :=
  ((readerWorld.st.attrs.setData 1 ⟨0, 24, 4, 40⟩).setData 3 ⟨0, 32, 4, 32⟩).setData 10 ⟨0, 40, 4, 24⟩
def map2 : AttrMap := (map1.setData 1 ⟨0, 24, 4, 40⟩).setData 10 ⟨0, 32, 4, 32⟩

/-- The queue after the first packet. -/
def readerWorld1 : W :=
  ⟨[.recvfrom 3 64 0x100 (.ok dgram1), .app (.packet 1 [1, 2, 3, 4] 7 1 3)], stored readerWorld dgram1,
    { readerWorld.st with attrs := map1, processed := readerWorld.st.processed + 1 }⟩

set_option maxRecDepth 4000 in
theorem turn1 : receiveOne someEnv twoPackets readerWorld = .ok ((), readerWorld1) := by
  have hp : netlinkMessageToNfAttrStruct someEnv.e (stored readerWorld dgram1) (attrSlice readerWorld dgram1)
      readerWorld.st.attrs = .ok (map1, none, none) := loop_eq_of_loopN 4 rfl (by simp)
  have := receiveOne_good (env := someEnv) (K := twoPackets) (d := dgram1) (m' := map1) (id := 1) (mark := 7)
    (pkt := some ⟨0, 40, 4, 24⟩) readerWorld_serving rfl rfl (by decide) (by decide)
    (by unfold ErrMsg; decide) hp rfl
  rw [show optBytes (stored readerWorld dgram1) (some ⟨0, 40, 4, 24⟩) = [1, 2, 3, 4] by decide] at this
  exact this

theorem readerWorld1_serving : Serving readerWorld1 ⟨3, Slice.nil⟩ := by
  refine readerWorld_serving.after (d := dgram1) (by decide) rfl rfl rfl rfl ?_
  intro k
  simp only [readerWorld1, map1, AttrMap.setData, readerWorld]
  by_cases h1 : k = 1
  · simp [h1]
  by_cases h3 : k = 3
  · simp [h3]
  by_cases h10 : k = 10
  · simp [h10]
  simp [h1, h3, h10]

set_option maxRecDepth 4000 in
/-- C22 is violated: the second packet carries no mark, yet the callback is given the mark 0x09090909, read
from the place in the receive buffer where the first packet's mark used to be. -/
theorem C22_stale : ∃ w', processPackets someEnv twoPackets 2 readerWorld = .ok (false, w') ∧
    w'.trace = [.recvfrom 3 64 0x100 (.ok dgram1), .app (.packet 1 [1, 2, 3, 4] 7 1 3),
      .recvfrom 3 64 0x100 (.ok dgram2), .app (.packet 1 [9, 9, 9, 9] 0x09090909 2 3)] ∧
    Carries .little dgram2 [(1, [2, 0, 0, 0]), (10, [9, 9, 9, 9])] ∧
    lastOf 3 [(1, ([2, 0, 0, 0] : List Byte)), (10, [9, 9, 9, 9])] = none := by
  have hp : netlinkMessageToNfAttrStruct someEnv.e (stored readerWorld1 dgram2) (attrSlice readerWorld1 dgram2)
      readerWorld1.st.attrs = .ok (map2, none, none) := loop_eq_of_loopN 3 rfl (by simp)
  have h2 := receiveOne_good (env := someEnv) (K := twoPackets) (d := dgram2) (m' := map2) (id := 2)
    (mark := 0x09090909) (pkt := some ⟨0, 32, 4, 32⟩) readerWorld1_serving rfl rfl (by decide) (by decide)
    (by unfold ErrMsg; decide) hp rfl
  rw [show optBytes (stored readerWorld1 dgram2) (some ⟨0, 32, 4, 32⟩) = [9, 9, 9, 9] by decide] at h2
  refine ⟨⟨readerWorld1.trace ++ [.recvfrom 3 64 0x100 (.ok dgram2), .app (.packet 1 [9, 9, 9, 9] 0x09090909 2 3)],
    stored readerWorld1 dgram2, { readerWorld1.st with attrs := map2, processed := readerWorld1.st.processed + 1 }⟩,
    ?_, rfl, ⟨zeros 20, rfl, rfl, by decide⟩, rfl⟩
  unfold processPackets
  simp only [GoM.bind_apply, processIter]
  rw [if_neg (by simp [someEnv]), turn1]
  simp only [Res.ok_bind, GoM.pure_apply, Bool.false_eq_true, if_false]
  unfold processPackets
  simp only [GoM.bind_apply, processIter]
  rw [if_neg (by simp [someEnv]), h2]
  rfl

/-- The datagrams are proper, and the application that does nothing is admissible. -/
theorem someEnv_appOk : AppOk someEnv where
  st := fun w => ⟨w.st.accepted, w.st.dropped, rfl⟩
  heap := fun _ _ => Nat.le_refl _
  trace := fun w => ⟨[], by simp [someEnv], by simp⟩

/-- The hypotheses of the theorems above hold of every queue that was started: right after a successful
`CreateAndStartNfQueue` with both callbacks the queue is set up, with a receive buffer of 76800 bytes, and its
remembered attributes are in order. -/
theorem started_setup (env : Env) (K : Kernel QEv) (queueID : U16) (maxLen size : U32) (cb ecb pd : Nat) (w w' : W)
    (h : createAndStart env K queueID maxLen size (some cb) (some ecb) pd w = .ok (none, w')) :
    ∃ qh, Setup w' qh cb ecb pd 76800 ∧ AttrsOk w' ∧ Ready w' qh := by
  obtain ⟨evs, ht, ho, hc⟩ := start_spec env K queueID maxLen size (some cb) (some ecb) pd w w' none h
  obtain ⟨⟨_, c2, c3, c4⟩, qh, hR, _, hz, hbuf, hhdr, hattrs, _⟩ := hc rfl
  obtain ⟨ha, hb⟩ := newNFQueue_heap w.heap
  have harr : ∀ i x, [zeros nfnlBuffSize, zeros 40, zeros nfnlBuffSize, zeros nfnlBuffSize, zeros nfnlBuffSize][i]? = some x →
      (w'.heap.arrayOf (w.heap.arrays.length + i)).length = x.length := by
    intro i x hx
    rw [← hz]
    unfold Heap.arrayOf
    rw [ha, List.getElem?_append_right (by omega)]
    simp only [Nat.add_sub_cancel_left, hx, Option.getD_some]
  have h0 := harr 0 _ rfl
  have h1 := harr 1 _ rfl
  have h2 := harr 2 _ rfl
  have h3 := harr 3 _ rfl
  have h4 := harr 4 _ rfl
  simp only [zeros_length, Nat.add_zero] at h0 h1 h2 h3 h4
  have hhdr' : w'.st.hdrSlice = ⟨w.heap.arrays.length + 1, 0, 40, 40⟩ := by
    rw [hhdr]
    have : 20 + BitVec.toNat (nfaLength 8#16) + BitVec.toNat (nfaLength 4#16) = 40 := by decide
    simp [newNFQueue, Heap.mk', this]
  have hat : w'.st.attrs = fun k => if k = 1 then some ⟨w.heap.arrays.length + 2, 0, nfnlBuffSize, nfnlBuffSize⟩
      else if k = 3 then some ⟨w.heap.arrays.length + 3, 0, nfnlBuffSize, nfnlBuffSize⟩
      else if k = 10 then some ⟨w.heap.arrays.length + 4, 0, nfnlBuffSize, nfnlBuffSize⟩ else none := by
    rw [hattrs]
    funext k
    simp [newNFQueue, Heap.mk']
  rw [hb] at hbuf
  refine ⟨qh, ⟨⟨hR.1, ?_, ?_, ?_, ?_, ?_, ?_⟩, c2, c3, c4, ?_⟩, ?_, hR⟩
  · rw [hbuf]; exact ⟨Nat.le_refl _, by simp [h0]⟩
  · rw [hbuf]; show nfnlBuffSize + 3 < 2 ^ 32; decide
  · rw [hhdr']; exact ⟨Nat.le_refl _, by simp [h1]⟩
  · rw [hhdr']
  · rw [hbuf, hhdr']; simp
  · intro k
    rw [hat]
    by_cases k1 : k = 1
    · simp [k1]
    by_cases k3 : k = 3
    · simp [k3]
    by_cases k10 : k = 10
    · simp [k10]
    simp [k1, k3, k10]
  · rw [hbuf]; rfl
  · intro k s hk
    rw [hat] at hk
    have h4le : 4 ≤ nfnlBuffSize := by decide
    by_cases k1 : k = 1
    · simp [k1] at hk; subst hk; exact ⟨⟨Nat.le_refl _, by simp [h2]⟩, fun _ => h4le⟩
    by_cases k3 : k = 3
    · simp [k3] at hk; subst hk; exact ⟨⟨Nat.le_refl _, by simp [h3]⟩, fun _ => h4le⟩
    by_cases k10 : k = 10
    · simp [k10] at hk; subst hk; exact ⟨⟨Nat.le_refl _, by simp [h4]⟩, fun _ => h4le⟩
    simp [k1, k3, k10] at hk

/-- C23 from the start: everything `ProcessPackets` does after a successful `CreateAndStartNfQueue`. -/
theorem C23_from_start (env : Env) (K : Kernel QEv) (hA : AppOk env) (queueID : U16) (maxLen size : U32)
    (cb ecb pd : Nat) (w0 w w' : W) (n : Nat) (fin : Bool)
    (hstart : createAndStart env K queueID maxLen size (some cb) (some ecb) pd w0 = .ok (none, w))
    (h : processPackets env K n w = .ok (fin, w')) :
    ∃ (qh : Handle) (gs : List (List (Ev QEv))) (closes : List (Ev QEv)), w.st.handle = some qh ∧
      w'.trace = w.trace ++ (gs.flatten ++ closes) ∧
      (∀ g ∈ gs, Turn env.e qh cb ecb pd 76800 g) ∧
      (fin = true → CloseEvs qh.fd closes) ∧ (fin = false → closes = [] ∧ gs.length = n) := by
  obtain ⟨qh, hS, _, hR⟩ := started_setup env K queueID maxLen size cb ecb pd w0 w hstart
  obtain ⟨gs, closes, a, b, c, d, _⟩ := C23_delivery env K hA qh cb ecb pd 76800 n w w' fin hS h
  exact ⟨qh, gs, closes, hR.1, a, b, c, d⟩

/-- The walk over encoded attributes stops only at attribute boundaries. -/
theorem visits_encode {e : Endian} : ∀ (attrs : List (Nat × List Byte)) (pre : List Byte) (j : Nat),
    (∀ a ∈ attrs, a.1 < 65536 ∧ a.2.length ≤ 65531) → pre.length % 4 = 0 →
    Visits e (pre ++ encodeAttrs e attrs) pre.length j →
    ∃ a1 a2, attrs = a1 ++ a2 ∧ j = pre.length + (encodeAttrs e a1).length := by
  intro attrs
  induction attrs with
  | nil =>
    intro pre j _ _ h
    cases h with
    | here => exact ⟨[], [], rfl, by simp [encodeAttrs]⟩
    | step h4 _ _ _ => simp [encodeAttrs] at h4; omega
  | cons a attrs ih =>
    intro pre j hall h4 h
    have henc : pre ++ encodeAttrs e (a :: attrs) = (pre ++ encodeAttr e a.1 a.2) ++ encodeAttrs e attrs := by
      simp [encodeAttrs]
    have hh := headerAt_encodeAttr e a.1 a.2 (hall a (by simp)).1 (hall a (by simp)).2 pre (encodeAttrs e attrs)
    rw [henc] at h
    cases h with
    | here => exact ⟨[], a :: attrs, rfl, by simp [encodeAttrs]⟩
    | step _ hl _ hv =>
      rw [hh.2.1] at hl
      cases hl
      have hpos : roundUp4 (pre.length + (a.2.length + 4)) = (pre ++ encodeAttr e a.1 a.2).length := by
        rw [List.length_append, encodeAttr_length]
        unfold roundUp4; omega
      rw [hpos] at hv
      obtain ⟨a1, a2, rfl, hj⟩ := ih (pre ++ encodeAttr e a.1 a.2) j (fun x hx => hall x (by simp [hx])) (by
        rw [List.length_append, encodeAttr_length]
        unfold roundUp4; omega) hv
      refine ⟨a :: a1, a2, rfl, ?_⟩
      rw [hj, List.length_append]
      simp [encodeAttrs]; omega

/-- Datagrams made of well-formed attributes whose id and mark have at least four bytes are proper. -/
theorem carries_proper {e : Endian} {d : List Byte} {attrs : List (Nat × List Byte)} (h : Carries e d attrs)
    (h4 : ∀ a ∈ attrs, a.1 = 1 ∨ a.1 = 3 → 4 ≤ a.2.length) : Proper e d := by
  obtain ⟨head, h20, rfl, hall⟩ := h
  refine ⟨by simp [h20], ?_⟩
  rw [List.drop_left' h20]
  intro j l t hv hh
  obtain ⟨a1, a2, rfl, hj⟩ := visits_encode (pre := []) attrs j hall rfl (by simpa using hv)
  match a2, hh with
  | [], hh =>
    have := hh.1
    rw [hj] at this
    simp at this
    omega
  | a :: a2, hh =>
    have hh' := headerAt_encodeAttr e a.1 a.2 (hall a (by simp)).1 (hall a (by simp)).2 (encodeAttrs e a1) (encodeAttrs e a2)
    have heq : encodeAttrs e (a1 ++ a :: a2) = encodeAttrs e a1 ++ encodeAttr e a.1 a.2 ++ encodeAttrs e a2 := by
      simp [encodeAttrs]
    rw [heq] at hh
    simp only [List.length_nil, Nat.zero_add] at hj
    subst hj
    obtain ⟨rfl, rfl⟩ := headerAt_unique hh hh'
    refine ⟨by omega, fun ht => ?_⟩
    have := h4 a (by simp) ht
    omega

/-- The concrete datagrams are proper. -/
example : Proper .little dgram1 ∧ Proper .little dgram2 := by
  refine ⟨carries_proper ⟨zeros 20, rfl, rfl, by decide⟩ (by decide),
    carries_proper ⟨zeros 20, rfl, rfl, by decide⟩ (by decide)⟩

/-- C26: a datagram of fewer than 20 bytes crashes the process. -/
theorem C26_short_crashes (env : Env) (K : Kernel QEv) (w : W) (qh : Handle) (hS : Serving w qh) (d : List Byte)
    (hK : K.recv w.trace qh.fd = .ok d) (h20 : (d.take w.st.buf.len).length < 20) : recv env K w = .panic := by
  rcases recv_step env K w qh hS with ⟨n, hn, _⟩ | ⟨d0, d', hd0, hd', _, hA, _⟩
  · rw [hK] at hn; cases hn
  · rw [hK] at hd0; cases hd0
    rw [← hd'] at h20
    exact hA h20

end Verif.Props
