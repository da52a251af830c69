import Verif.Props.NfQueueKernel
import Verif.NfQueue.QueueKernel
/-! C131 on a kernel whose calls do not fail: a queue that is free can be started, packets or not. -/
namespace Verif.Props
open Verif.Common Verif.Sys Verif.Spec Verif.NfQueue

theorem num32_zero {e : Endian} {d : List Byte} {i : Nat} (h : numI32 e d i = some 0) : num32 e d i = some 0 := by
  unfold numI32 at h
  rw [Option.map_eq_some_iff] at h
  obtain ⟨n, hn, hs⟩ := h
  have := num32_lt hn
  unfold signed32 at hs
  have : n = 0 := by split at hs <;> omega
  rw [this] at hn
  exact hn

theorem note_not_refusal {e : Endian} {d : List Byte} {n : Note} (h : NoteIs e d n) (hc : ∀ c, n = .ack c → c = 0) :
    20 ≤ d.length ∧ d.length < 76800 ∧ ¬ Refusal e d := by
  cases n with
  | ack c =>
    rw [hc c rfl] at h
    obtain ⟨⟨h1, _, h3⟩, h4, _⟩ := h
    exact ⟨h1, h4, fun hr => hr.2 (num32_zero h3)⟩
  | packet id mark payload =>
    obtain ⟨attrs, head, h1, h2, rfl, h4, _⟩ := h
    refine ⟨by simp [h1], h4, fun hr => ?_⟩
    have : num16 e (head ++ encodeAttrs e attrs) 4 = num16 e head 4 := by
      unfold num16
      rw [List.getElem?_append_left (by omega), List.getElem?_append_left (by omega)]
    rw [Refusal, this, h2] at hr
    simp at hr

/-- A request that the kernel grants does not fail. -/
theorem not_failed {e : Endian} {F : Nat → Prop} {K : Kernel QEv} {st : List (Ev QEv) → KState} (hK : Keeps e F K st) (hH : Healthy K st)
    {fd size : Nat} {req : QReq} {err : Err} {evs tr : List (Ev QEv)} (hx : Exchange e fd size req (some err) evs)
    (hg : Genuine K tr evs) (hop : ∃ d t p, Ev.socket d t p (.ok fd) ∈ tr) (hf : Fine fd (st tr))
    (hcode : ∀ b, Encodes e b req → ∀ s1, Meanwhile F (st tr) s1 → (s1.serve e fd b).1 = 0) : False := by
  obtain ⟨b, hb, hq⟩ := hx
  have hsend : ∀ {r evs1 rest}, NfQueue.SendEvs fd b r evs1 → Genuine K tr (evs1 ++ rest) → r = none ∧ evs1 = [.sendto fd b 0 none] := by
    intro r evs1 rest hs hg
    rcases hs with h | ⟨e1, rfl⟩
    · exact h
    · cases hg with
      | cons h1 _ =>
        have : some e1 = K.send tr fd b := h1
        rw [hH.send tr fd b hop] at this
        cases this
  cases hq with
  | sendFailed hs =>
    obtain ⟨h, _⟩ := hsend (rest := []) hs (by simpa using hg)
    cases h
  | @recvFailed n evs1 hs =>
    obtain ⟨_, he⟩ := hsend hs hg
    subst he
    obtain ⟨g1, g2⟩ := hg.split
    obtain ⟨_, hne⟩ := sent_fine hb hs (Run.of_genuine hK g1) hf (hcode b hb)
    obtain ⟨d, hd⟩ := hH.recv _ fd hne
    cases g2 with
    | cons h1 _ =>
      have : Except.error n = (K.recv (tr ++ [.sendto fd b 0 none]) fd).map (fun x : List Byte => x.take size) := h1
      rw [hd] at this
      cases this
  | @replied d r evs1 hs hlt hi _ =>
    obtain ⟨_, he⟩ := hsend hs hg
    subst he
    obtain ⟨g1, g2⟩ := hg.split
    obtain ⟨f1, _⟩ := sent_fine hb hs (Run.of_genuine hK g1) hf (hcode b hb)
    obtain ⟨s3, n, rest, d', m4, hin, hn, hdd, m5⟩ := (Run.of_genuine hK g2).got
    have hd0 := take_of_lt hdd hlt
    subst hd0
    have f3 := f1.meanwhile m4
    obtain ⟨h20, _, hnr⟩ := note_not_refusal hn (fun c hc => f3 c (by rw [hin, hc]; simp))
    have := (hi h20).mpr hnr
    cases this

theorem genuine_bind {K : Kernel QEv} {st : List (Ev QEv) → KState} (hH : Healthy K st) {tr : List (Ev QEv)} {fd n : Nat}
    {bevs rest : List (Ev QEv)} (hb : NfQueue.BindEvs fd (some n) bevs) (hg : Genuine K tr (bevs ++ rest)) : False := by
  rcases hb with ⟨h, _⟩ | ⟨e1, rfl⟩
  · cases h
  · cases hg with
    | cons h1 _ =>
      have : some e1 = K.bind tr fd := h1
      rw [hH.bind] at this
      cases this

/-- What such a kernel sends is neither too short nor too long for the library. -/
theorem keeps_len {e : Endian} {K : Kernel QEv} {F : Nat → Prop} {st : List (Ev QEv) → KState} (hK : Keeps e F K st) {tr : List (Ev QEv)}
    {fd : Nat} {d : List Byte} (hd : K.recv tr fd = .ok d) : 20 ≤ d.length ∧ d.length < nfnlBuffSize := by
  have ha : Answers K tr (.recvfrom fd (d.length + 1) 0 (.ok d)) := by
    show Except.ok d = (K.recv tr fd).map _
    rw [hd]
    show Except.ok d = Except.ok (d.take (d.length + 1))
    rw [List.take_of_length_le (by omega)]
  obtain ⟨s1, s2, m1, hs, m2⟩ := hK _ _ ha
  have hr : Run e F s1 [.recvfrom fd (d.length + 1) 0 (.ok d)] s2 := .cons .refl hs (.nil .refl)
  obtain ⟨s3, n, rest, d', _, _, hn, hdd, _⟩ := hr.got
  have hd0 := take_of_lt hdd (by omega)
  subst hd0
  have h75 : nfnlBuffSize = 76800 := rfl
  rw [h75]
  cases n with
  | ack c => exact ⟨hn.1.1, hn.2.1⟩
  | packet id mark payload =>
    obtain ⟨attrs, head, h1, h2, rfl, h4, _⟩ := hn
    exact ⟨by simp [h1], h4⟩

/-- C131. On a kernel whose calls do not fail, a queue that is free (and that nobody else uses) can be started: the start returns nil,
whatever packets come meanwhile. -/
theorem C131_works (env : Env) (K : Kernel QEv) (F : Nat → Prop) (st : List (Ev QEv) → KState) (hK : Keeps env.e F K st) (hH : Healthy K st)
    (queueID : U16) (maxLen size : U32) (cb ecb : Option Nat) (pd : Nat) (w : W) (hF : ¬ F queueID.toNat)
    (hfree : (st w.trace).queues queueID.toNat = none) :
    ∃ w', createAndStart env K queueID maxLen size cb ecb pd w = .ok (none, w') := by
  have hlen : ∀ evs fd d, K.recv (w.trace ++ evs) fd = .ok d → 20 ≤ d.length ∧ d.length < nfnlBuffSize := fun evs fd d => keeps_len hK
  obtain ⟨r, w', h⟩ := start_returns env K queueID maxLen size cb ecb pd w hlen
  cases r with
  | none => exact ⟨w', h⟩
  | some err =>
    exfalso
    obtain ⟨evs, ht, hout, _⟩ := start_spec env K queueID maxLen size cb ecb pd w w' (some err) h
    obtain ⟨evs', ht', hg⟩ := records_createAndStart env queueID maxLen size cb ecb pd w (some err) w' h
    rw [ht, List.append_cancel_left_eq] at ht'
    subst ht'
    generalize hq : queueID.toNat = q at *
    cases hout with
    | noSocket =>
      cases hg with
      | @cons _ _ _ h1 _ =>
        obtain ⟨fd, hfd⟩ := hH.socket w.trace
        have : Except.error _ = K.socket w.trace := h1
        rw [hfd] at this
        cases this
    | noBind hb =>
      obtain ⟨_, g2⟩ := hg.split
      exact genuine_bind (rest := []) hH hb (by simpa using g2)
    | @refused fd err bevs opts mid cl hb ho hre htr hc =>
      obtain ⟨hg, _⟩ := hg.split
      obtain ⟨hg, gmid⟩ := hg.split
      have r0 := Run.of_genuine hK hg
      generalize htr0 : w.trace ++ ([Ev.socket 16 3 12 (Except.ok fd)] ++ bevs ++ opts) = tr at *
      have hop : ∃ d t p, Ev.socket d t p (.ok fd) ∈ tr := ⟨16, 3, 12, by rw [← htr0]; simp⟩
      have hopa : ∀ l, ∃ d t p, Ev.socket d t p (.ok fd) ∈ tr ++ l := by
        intro l
        obtain ⟨d, t, p, hm⟩ := hop
        exact ⟨d, t, p, List.mem_append_left _ hm⟩
      obtain ⟨t3, ra, rb⟩ := r0.split
      obtain ⟨m1, n1, i1⟩ := run_open hb ra
      have m2 := rb.of_silent ho.silent
      have n2 : ∀ q, ¬ (st tr).Owns fd q := fun q hq => n1 q ((m2.owns fd q).mp hq)
      have i2 : (st tr).inbox fd = [] := by rw [m2.inbox n1]; exact i1
      have hno : ¬ (st w.trace).Owns fd q := fun h => n2 q (((m1.trans m2).owns fd q).mpr h)
      have a2 : Apart F fd q (st w.trace) (st tr) :=
        ⟨fun q' _ hF => (m1.trans m2).conf (.inl hF), fun hF => .inl ((m1.trans m2).conf (.inl hF)), fun q' _ => n2 q'⟩
      have f2 : Fine fd (st tr) := by intro c hc; rw [i2] at hc; cases hc
      have pf : ∀ req, req = QReq.pfUnbind ∨ req = QReq.pfBind → ∀ (s : KState) b, Encodes env.e b req → ∀ s1, Meanwhile F s s1 →
          (s1.serve env.e fd b).1 = 0 := by
        intro req hr s b hb s1 _
        rw [serve_pf hb hr]
      have freeQ : ∀ s, Apart F fd q (st w.trace) s → (∀ q, ¬ s.Owns fd q) → ∀ b, Encodes env.e b (.bindQueue q) → ∀ s1, Meanwhile F s s1 →
          (s1.serve env.e fd b).1 = 0 := by
        intro s ha hn b hb s1 hm
        rw [serve_bind hb]
        have hc := (ha.meanwhile hm).this hF
        have : s1.queues q = none := by
          rcases hc with hc | ⟨_, hc⟩
          · unfold KState.conf at hc
            rw [hfree] at hc
            cases hs1 : s1.queues q with
            | none => rfl
            | some k => rw [hs1] at hc; cases hc
          · exact absurd ((hm.owns fd q).mp hc) (hn q)
        rw [this]
      have held : ∀ (s s1 : KState) (c : KQueue), c.owner = .sock fd → Held fd q c [] s → Meanwhile F s s1 →
          ∃ k, s1.queues q = some k ∧ k.owner = .sock fd := by
        intro s s1 c hco hh hm
        obtain ⟨k, k1, k2, _⟩ := hm.held hco hh
        exact ⟨k, k1, by rw [(conf_parts k2).1]; exact hco⟩
      cases hre with
      | pfUnbind h1 => exact not_failed hK hH h1 gmid hop f2 (pf _ (.inl rfl) _)
      | pfBind h1 h2 =>
        obtain ⟨ga, gb⟩ := gmid.split
        have r1 := Run.of_genuine hK ga
        have f3 := acked_fine h1 r1 f2 (pf _ (.inl rfl) _)
        exact not_failed hK hH h2 gb (hopa _) f3 (pf _ (.inr rfl) _)
      | bindQueue h1 h2 h3 =>
        obtain ⟨g, gc⟩ := gmid.split
        obtain ⟨ga, gb⟩ := g.split
        have r1 := Run.of_genuine hK ga
        have r2 := Run.of_genuine hK gb
        rw [List.append_assoc] at r2
        have f3 := acked_fine h1 r1 f2 (pf _ (.inl rfl) _)
        obtain ⟨n3, i3⟩ := r1.acked_pf h1 (.inl rfl) n2 i2
        have f4 := acked_fine h2 r2 f3 (pf _ (.inr rfl) _)
        obtain ⟨n4, i4⟩ := r2.acked_pf h2 (.inr rfl) n3 i3
        have a4 := (a2.run hno r1 (h1.ours (.inl rfl))).run hno r2 (h2.ours (.inr (.inl rfl)))
        exact not_failed hK hH h3 gc (hopa _) f4 (freeQ _ a4 n4)
      | setMode h1 h2 h3 h4 h5 =>
        obtain ⟨g, _⟩ := gmid.split
        obtain ⟨g, gd⟩ := g.split
        obtain ⟨g, gc⟩ := g.split
        obtain ⟨ga, gb⟩ := g.split
        have r1 := Run.of_genuine hK ga
        have r2 := Run.of_genuine hK gb
        have r3 := Run.of_genuine hK gc
        rw [List.append_assoc] at r2 r3
        have f3 := acked_fine h1 r1 f2 (pf _ (.inl rfl) _)
        obtain ⟨n3, i3⟩ := r1.acked_pf h1 (.inl rfl) n2 i2
        have f4 := acked_fine h2 r2 f3 (pf _ (.inr rfl) _)
        obtain ⟨n4, i4⟩ := r2.acked_pf h2 (.inr rfl) n3 i3
        have a4 := (a2.run hno r1 (h1.ours (.inl rfl))).run hno r2 (h2.ours (.inr (.inl rfl)))
        have f5 := acked_fine h3 r3 f4 (freeQ _ a4 n4)
        obtain ⟨b5, _⟩ := r3.acked_bind h3 n4 i4
        refine not_failed hK hH h4 gd (hopa _) f5 ?_
        intro b hb s1 hm
        obtain ⟨k, hk, hko⟩ := held _ s1 (KQueue.new fd) rfl b5 hm
        rw [serve_mode hb, hk]
        simp [hko]
      | setMaxLen h1 h2 h3 h4 h5 h6 =>
        obtain ⟨g, _⟩ := gmid.split
        obtain ⟨g, ge⟩ := g.split
        obtain ⟨g, gd⟩ := g.split
        obtain ⟨g, gc⟩ := g.split
        obtain ⟨ga, gb⟩ := g.split
        have r1 := Run.of_genuine hK ga
        have r2 := Run.of_genuine hK gb
        have r3 := Run.of_genuine hK gc
        have r4 := Run.of_genuine hK gd
        rw [List.append_assoc tr] at r2 r3 r4
        have f3 := acked_fine h1 r1 f2 (pf _ (.inl rfl) _)
        obtain ⟨n3, i3⟩ := r1.acked_pf h1 (.inl rfl) n2 i2
        have f4 := acked_fine h2 r2 f3 (pf _ (.inr rfl) _)
        obtain ⟨n4, i4⟩ := r2.acked_pf h2 (.inr rfl) n3 i3
        have a4 := (a2.run hno r1 (h1.ours (.inl rfl))).run hno r2 (h2.ours (.inr (.inl rfl)))
        have f5 := acked_fine h3 r3 f4 (freeQ _ a4 n4)
        obtain ⟨b5, _⟩ := r3.acked_bind h3 n4 i4
        have b6 := r4.configured h4 (c := KQueue.new fd) (c' := ⟨.sock fd, 2, clip size.toNat, 1024, []⟩) rfl rfl (by simp) (by
          intro b hb t k hk hc
          obtain ⟨c1, c2⟩ := setMode_conf size.toNat hc
          refine ⟨k.setMode 2 size.toNat, c1, c2, ?_⟩
          rw [serve_mode hb, hk]
          have ho : k.owner = .sock fd := (conf_parts hc).1
          simp [ho]) b5
        have f6 := acked_fine h4 r4 f5 (by
          intro b hb s1 hm
          obtain ⟨k, hk, hko⟩ := held _ s1 (KQueue.new fd) rfl b5 hm
          rw [serve_mode hb, hk]
          simp [hko])
        refine not_failed hK hH h5 ge (hopa _) f6 ?_
        intro b hb s1 hm
        obtain ⟨k, hk, hko⟩ := held _ s1 ⟨.sock fd, 2, clip size.toNat, 1024, []⟩ rfl b6 hm
        rw [serve_maxLen hb, hk]
        simp [hko]

/-- C133. On a kernel whose calls do not fail, stopping a queue of the handle's socket, in which no error lies, returns nil: the queue is
gone. -/
theorem C133_works (env : Env) (K : Kernel QEv) (F : Nat → Prop) (st : List (Ev QEv) → KState) (hK : Keeps env.e F K st) (hH : Healthy K st)
    (w : W) (qh : Handle) (hR : Ready w qh) (hbuf : qh.buf.len = 76800) (hop : ∃ d t p, .socket d t p (.ok qh.fd) ∈ w.trace) (k : KQueue)
    (hk : (st w.trace).queues w.st.queueNum.toNat = some k) (ho : k.owner = .sock qh.fd) (hf : Fine qh.fd (st w.trace)) :
    ∃ w', stopQueue env K w = .ok (none, w') ∧ GoneQueue F qh.fd w.st.queueNum.toNat k.waiting (st w'.trace) := by
  have hret : ∃ r w', stopQueue env K w = .ok (r, w') := by
    unfold stopQueue
    simp only [GoM.bind_apply, nfqDestroyQueue_eq]
    obtain ⟨r, w1, h1⟩ := queryOrFail_returns (env := env) (K := K) (cfgMsg env.e w.st.queueNum 1 4 [2, 0, 0, 0]) hR
      (fun evs d hd => by rw [hbuf]; exact keeps_len hK hd)
    obtain ⟨_, _, _, _, hR1, _⟩ := exchange_of_query hR (enc_unbind _ _) h1
    rw [h1]
    rcases r with _ | err
    · simp only [Res.ok_bind, GoM.bind_apply, getQ, hR1.1, Handle.close]
      obtain ⟨rc, cl, hc, _⟩ := NfQueue.close_spec K qh.fd w1
      exact ⟨none, { w1 with trace := w1.trace ++ cl }, by simp [hc]⟩
    · exact ⟨some err, w1, rfl⟩
  obtain ⟨r, w', h⟩ := hret
  cases r with
  | none =>
    refine ⟨w', h, ?_⟩
    rcases (C133_stop env K F st hK w w' qh hR k hk ho none h).1 with hg | ⟨n, hn, _⟩
    · exact hg
    · cases hn
  | some err =>
    exfalso
    obtain ⟨evs, cl, ht, hx, _, hn, _⟩ := C29_stop env K w w' qh _ hR h
    obtain ⟨evs', ht', hg⟩ := records_stopQueue env w _ w' h
    rw [ht, List.append_cancel_left_eq] at ht'
    subst ht'
    rw [hn (by simp), List.append_nil] at hg
    refine not_failed hK hH hx hg hop hf ?_
    intro b hb s1 hm
    obtain ⟨k1, a1, a2, _⟩ := hm.waiting hk ho
    have ho1 : k1.owner = .sock qh.fd := (congrArg KQueue.owner a2).trans ho
    rw [serve_unbind hb, a1]
    simp [ho1]

/-! Non-vacuity: a kernel in which another program (number 7) has queue 5; packets come to queues 5 and 10 all the time. -/

/-- The state at the beginning. -/
def someQueues : KState := ⟨fun q => if q = 5 then some ⟨.other 7, 2, 100, 3, []⟩ else none, fun _ => [], [], []⟩

/-- Packets 1, 2, 3, … come to queues 5 and 10, one to each after every event. -/
def someScript (tr : List (Ev QEv)) : List (Nat × Pkt) := [(5, ⟨tr.length, 0, [1, 2, 3, 4]⟩), (10, ⟨tr.length, 7, [5, 6, 7]⟩)]

theorem someQueues_untouched : Untouched someQueues := by
  refine ⟨?_, fun _ => rfl⟩
  rintro fd q ⟨k, hk, ho⟩
  unfold someQueues at hk
  simp only at hk
  split at hk
  · cases hk; cases ho
  · cases hk

/-- C131: queue 10 can be started there; it then belongs to the handle's socket, and queue 5 is the other program's, as before. -/
theorem C131_example : ∃ w' qh k, createAndStart someEnv (queueKernel .little someQueues someScript) 10 100 50 (some 1) (some 2) 0
      ⟨[], ⟨[]⟩, (newNFQueue ⟨[]⟩).1⟩ = .ok (none, w') ∧ w'.st.handle = some qh ∧
    (stateAfter .little someQueues someScript w'.trace).queues 10 = some k ∧ k.owner = .sock qh.fd ∧ k.mode = 2 ∧ k.range = 50 ∧
    k.maxLen = 100 ∧ (stateAfter .little someQueues someScript w'.trace).conf 5 = some ⟨.other 7, 2, 100, 3, []⟩ := by
  have hK := queueKernel_keeps .little someQueues_untouched someScript (fun _ => False)
  obtain ⟨w', h⟩ := C131_works someEnv _ _ _ hK (queueKernel_healthy _ _ _) 10 100 50 (some 1) (some 2) 0 ⟨[], ⟨[]⟩, (newNFQueue ⟨[]⟩).1⟩
    (fun h => h) rfl
  obtain ⟨h1, _, h3⟩ := C131_start someEnv _ _ _ hK _ _ _ _ _ _ _ w' _ h
  obtain ⟨qh, k, a, b, c, d, e, f, _⟩ := h1 rfl
  exact ⟨w', qh, k, h, a, b, c, d, e, f, h3 5 (fun h => h) (.inl (by decide))⟩

/-- C131: queue 5 is taken, so a start of it that returns fails. -/
theorem C131_taken_example (w' : W) (r : Option Err) (h : createAndStart someEnv (queueKernel .little someQueues someScript) 5 100 50 (some 1)
      (some 2) 0 ⟨[], ⟨[]⟩, (newNFQueue ⟨[]⟩).1⟩ = .ok (r, w')) : r ≠ none :=
  C131_taken someEnv _ _ _ (queueKernel_keeps .little someQueues_untouched someScript (fun _ => False)) 5 100 50 (some 1) (some 2) 0 _ w' r h
    (fun h => h) (by decide)

/-- C133: started and stopped again, queue 10 is free. -/
theorem C133_example : ∃ w' w'', createAndStart someEnv (queueKernel .little someQueues someScript) 10 100 50 (some 1) (some 2) 0
      ⟨[], ⟨[]⟩, (newNFQueue ⟨[]⟩).1⟩ = .ok (none, w') ∧
    stopQueue someEnv (queueKernel .little someQueues someScript) w' = .ok (none, w'') ∧
    (stateAfter .little someQueues someScript w''.trace).queues 10 = none := by
  have hK := queueKernel_keeps .little someQueues_untouched someScript (fun _ => False)
  have hH := queueKernel_healthy .little someQueues someScript
  obtain ⟨w', h⟩ := C131_works someEnv _ _ _ hK hH 10 100 50 (some 1) (some 2) 0 ⟨[], ⟨[]⟩, (newNFQueue ⟨[]⟩).1⟩ (fun h => h) rfl
  obtain ⟨evs, ht, _, hc⟩ := start_spec someEnv _ _ _ _ _ _ _ _ w' _ h
  obtain ⟨⟨c1, _⟩, qh, hR, hm, hfr⟩ := hc rfl
  obtain ⟨qh', k, a, b, c, _, _, _, _, e, _⟩ := (C131_start someEnv _ _ _ hK _ _ _ _ _ _ _ w' _ h).1 rfl
  have : qh' = qh := by
    have := hR.1
    rw [a] at this
    exact Option.some.inj this
  subst this
  have hq : w'.st.queueNum.toNat = 10 := by rw [c1]; rfl
  obtain ⟨w'', h2, h3⟩ := C133_works someEnv _ _ _ hK hH w' qh' hR (hfr.len _ hR.1) ⟨16, 3, 12, by rw [ht]; simpa using hm⟩ k
    (by rw [hq]; exact b) c e
  refine ⟨w', w'', h, h2, ?_⟩
  have := h3.free (fun h => h)
  rw [hq] at this
  exact this

end Verif.Props
