import Verif.NfQueue.Fine
import Verif.NfQueue.Records
import Verif.Props.NfQueueEcho
import Verif.Props.NfQueueConfig
/-!
C131, C133: the library and a kernel that keeps packet queues (NfQueue/Queues.lean).  Starting a queue takes it and configures it as asked,
or leaves everything as it was; stopping gives it up.
-/
namespace Verif.Props
open Verif.Common Verif.Sys Verif.Spec Verif.NfQueue

/-- The opened and bound socket. -/
theorem run_open {e : Endian} {F : Nat → Prop} {fd : Nat} {r : Option Nat} {bevs : List (Ev QEv)} {s s' : KState} (hb : NfQueue.BindEvs fd r bevs)
    (h : Run e F s ([.socket 16 3 12 (.ok fd)] ++ bevs) s') :
    Meanwhile F s s' ∧ (∀ q, ¬ s'.Owns fd q) ∧ s'.inbox fd = [] := by
  obtain ⟨t, h1, h2⟩ := h.split
  obtain ⟨s1, a, b, c, d⟩ := h1.opened
  have m := d.trans (h2.of_silent hb.silent)
  exact ⟨a.trans m, fun q hq => b q ((m.owns fd q).mp hq), by rw [m.inbox b]; exact c⟩

theorem setMode_conf {k c : KQueue} (range : Nat) (h : k.conf = c.conf) :
    (k.setMode 2 range).conf = ({ c with mode := 2, range := clip range } : KQueue).conf ∧ (k.setMode 2 range).waiting = k.waiting := by
  cases k; cases c
  simp_all [KQueue.conf, KQueue.setMode]

theorem maxLen_conf {k c : KQueue} (n : Nat) (h : k.conf = c.conf) :
    ({ k with maxLen := n } : KQueue).conf = ({ c with maxLen := n } : KQueue).conf ∧ ({ k with maxLen := n } : KQueue).waiting = k.waiting := by
  cases k; cases c
  simp_all [KQueue.conf]

/-- The whole successful start, seen from the kernel. -/
theorem run_started {e : Endian} {F : Nat → Prop} {fd q maxLen size : Nat} {bevs opts e1 e2 e3 e4 e5 : List (Ev QEv)} {s s' : KState}
    (hb : NfQueue.BindEvs fd none bevs) (ho : NfQueue.OptEvs fd opts) (h1 : Acked e fd .pfUnbind e1) (h2 : Acked e fd .pfBind e2)
    (h3 : Acked e fd (.bindQueue q) e3) (h4 : Acked e fd (.setMode q 2 size) e4) (h5 : Acked e fd (.setMaxLen q maxLen) e5)
    (h : Run e F s ([.socket 16 3 12 (.ok fd)] ++ bevs ++ opts ++ e1 ++ e2 ++ e3 ++ e4 ++ e5 ++ [.app .spawnReader]) s') :
    Held fd q ⟨.sock fd, 2, clip size, maxLen, []⟩ [] s' ∧ Fine fd s' ∧ (¬ F q → s.queues q = none) ∧ (∀ q', q' ≠ q → ¬ F q' → s'.conf q' = s.conf q') := by
  obtain ⟨t8, h, r9⟩ := h.split
  obtain ⟨t7, h, r8⟩ := h.split
  obtain ⟨t6, h, r7⟩ := h.split
  obtain ⟨t5, h, r6⟩ := h.split
  obtain ⟨t4, h, r5⟩ := h.split
  obtain ⟨t3, h, r4⟩ := h.split
  obtain ⟨t2, h, r3⟩ := h.split
  obtain ⟨m1, n1, i1⟩ := run_open hb h
  have m2 := r3.of_silent ho.silent
  have n2 : ∀ q, ¬ t3.Owns fd q := fun q hq => n1 q ((m2.owns fd q).mp hq)
  have i2 : t3.inbox fd = [] := by rw [m2.inbox n1]; exact i1
  obtain ⟨n3, i3⟩ := r4.acked_pf h1 (.inl rfl) n2 i2
  obtain ⟨n4, i4⟩ := r5.acked_pf h2 (.inr rfl) n3 i3
  obtain ⟨b5, f5⟩ := r6.acked_bind h3 n4 i4
  have b6 : Held fd q ⟨.sock fd, 2, clip size, 1024, []⟩ [] t7 := by
    refine r7.configured h4 (c := KQueue.new fd) rfl rfl (by simp) ?_ b5
    intro b hb t k hk hc
    obtain ⟨c1, c2⟩ := setMode_conf size hc
    refine ⟨k.setMode 2 size, c1, c2, ?_⟩
    rw [serve_mode hb, hk]
    have ho : k.owner = .sock fd := (conf_parts hc).1
    simp [ho]
  have b7 : Held fd q ⟨.sock fd, 2, clip size, maxLen, []⟩ [] t8 := by
    refine r8.configured h5 (c := ⟨.sock fd, 2, clip size, 1024, []⟩) rfl rfl (by simp) ?_ b6
    intro b hb t k hk hc
    obtain ⟨c1, c2⟩ := maxLen_conf maxLen hc
    refine ⟨{ k with maxLen := maxLen }, c1, c2, ?_⟩
    rw [serve_maxLen hb, hk]
    have ho : k.owner = .sock fd := (conf_parts hc).1
    simp [ho]
  have m9 : Meanwhile F t8 s' := r9.of_silent (by simp [Silent, handedOver])
  have a3 : Apart F fd q s t3 := ⟨fun q' _ hF => (m1.trans m2).conf (.inl hF), fun hF => .inl ((m1.trans m2).conf (.inl hF)), fun q' _ => n2 q'⟩
  have hno : ¬ s.Owns fd q := fun hq => n2 q (((m1.trans m2).owns fd q).mpr hq)
  have a8 : Apart F fd q s t8 := by
    have := a3.run hno r4 (h1.ours (.inl rfl))
    have := this.run hno r5 (h2.ours (.inr (.inl rfl)))
    have := this.run hno r6 (h3.ours (.inr (.inr rfl)))
    have := this.run hno r7 (h4.ours (.inr (.inr rfl)))
    exact this.run hno r8 (h5.ours (.inr (.inr rfl)))
  have f6 : Fine fd t6 := by
    obtain ⟨k, _, _, k3, k4, _⟩ := b5
    intro c hc
    rw [k4 (k3 rfl)] at hc
    cases hc
  have held : ∀ (x y : KState) (c : KQueue), c.owner = .sock fd → Held fd q c [] x → Meanwhile F x y →
      ∃ k, y.queues q = some k ∧ k.owner = .sock fd := by
    intro x y c hco hh hm
    obtain ⟨k, k1, k2, _⟩ := hm.held hco hh
    exact ⟨k, k1, by rw [(conf_parts k2).1]; exact hco⟩
  have f7 : Fine fd t7 := acked_fine h4 r7 f6 (by
    intro b hb y hm
    obtain ⟨k, hk, hko⟩ := held _ y (KQueue.new fd) rfl b5 hm
    rw [serve_mode hb, hk]
    simp [hko])
  have f8 : Fine fd t8 := acked_fine h5 r8 f7 (by
    intro b hb y hm
    obtain ⟨k, hk, hko⟩ := held _ y ⟨.sock fd, 2, clip size, 1024, []⟩ rfl b6 hm
    rw [serve_maxLen hb, hk]
    simp [hko])
  refine ⟨m9.held rfl b7, f8.meanwhile m9, fun hF => ?_, (a8.meanwhile m9).others⟩
  have h0 := f5 hF
  have a5 : Apart F fd q s t5 := (a3.run hno r4 (h1.ours (.inl rfl))).run hno r5 (h2.ours (.inr (.inl rfl)))
  rcases a5.this hF with hc | ⟨_, hc⟩
  · unfold KState.conf at hc
    rw [h0] at hc
    cases hq : s.queues q with
    | none => rfl
    | some k => rw [hq] at hc; cases hc
  · exact absurd hc (n4 q)

/-- A start that fails, seen from the kernel. -/
theorem run_refused {e : Endian} {F : Nat → Prop} {fd q maxLen size : Nat} {err : Err} {bevs opts mid cl : List (Ev QEv)} {s s' : KState}
    (hb : NfQueue.BindEvs fd none bevs) (ho : NfQueue.OptEvs fd opts) (hr : Refused e fd q maxLen size err mid) (hc : NfQueue.CloseEvs fd cl)
    (h : Run e F s ([.socket 16 3 12 (.ok fd)] ++ bevs ++ opts ++ mid ++ cl) s') :
    (∀ q', ¬ F q' → s'.conf q' = s.conf q') ∧ ∀ q', ¬ s'.Owns fd q' := by
  obtain ⟨t4, h, r5⟩ := h.split
  obtain ⟨t3, h, r4⟩ := h.split
  obtain ⟨t2, h, r3⟩ := h.split
  obtain ⟨m1, n1, i1⟩ := run_open hb h
  have m2 := r3.of_silent ho.silent
  have n2 : ∀ q, ¬ t3.Owns fd q := fun q hq => n1 q ((m2.owns fd q).mp hq)
  have hno : ∀ q, ¬ s.Owns fd q := fun q hq => n2 q (((m1.trans m2).owns fd q).mpr hq)
  have a3 : Apart F fd q s t3 := ⟨fun q' _ hF => (m1.trans m2).conf (.inl hF), fun hF => .inl ((m1.trans m2).conf (.inl hF)), fun q' _ => n2 q'⟩
  have a4 := a3.run (hno q) r4 hr.ours
  obtain ⟨s1, s2, c1, c2, c3⟩ := r5.closes hc
  obtain ⟨d1, d2⟩ := (a4.meanwhile c1).released hno
  have f1 : ∀ q', ¬ F q' → s2.conf q' = s.conf q' := fun q' hF => by rw [c2.conf (.inl hF)]; exact d1 q' hF
  have f2 : ∀ q', ¬ s2.Owns fd q' := fun q' ho => d2 q' ((c2.owns fd q').mp ho)
  rcases c3 with rfl | c3
  · exact ⟨f1, f2⟩
  · have a5 : Apart F fd q s s2 := ⟨fun q' _ hF => f1 q' hF, fun hF => .inl (f1 q hF), fun q' _ => f2 q'⟩
    obtain ⟨g1, g2⟩ := a5.released hno
    exact ⟨fun q' hF => by rw [c3.conf (.inl hF)]; exact g1 q' hF, fun q' ho => g2 q' ((c3.owns fd q').mp ho)⟩

/-- The socket of a successful start is the one it opened. -/
theorem started_fd {fd fd' : Nat} {r : Option Nat} {bevs opts e1 e2 e3 e4 e5 : List (Ev QEv)} (hb : NfQueue.BindEvs fd r bevs)
    (ho : NfQueue.OptEvs fd opts) (hne : ∀ ev ∈ e1 ++ e2 ++ e3 ++ e4 ++ e5, NfQueue.isTransfer ev = true)
    (hm : .socket 16 3 12 (.ok fd') ∈ [.socket 16 3 12 (.ok fd)] ++ bevs ++ opts ++ e1 ++ e2 ++ e3 ++ e4 ++ e5 ++ [.app .spawnReader]) :
    fd' = fd := by
  simp only [List.append_assoc, List.mem_append, List.mem_cons, List.not_mem_nil, or_false] at hm
  rcases hm with hm | hm | hm | hm
  · cases hm; rfl
  · have := hb.silent _ hm; exact this.elim
  · have := ho.silent _ hm; exact this.elim
  · have : Ev.socket 16 3 12 (Except.ok fd') ∈ e1 ++ e2 ++ e3 ++ e4 ++ e5 := by
      simp only [List.append_assoc, List.mem_append]
      rcases hm with hm | hm | hm | hm | hm | hm
      · exact .inl hm
      · exact .inr (.inl hm)
      · exact .inr (.inr (.inl hm))
      · exact .inr (.inr (.inr (.inl hm)))
      · exact .inr (.inr (.inr (.inr hm)))
      · cases hm
    have := hne _ this
    cases this

/-- C131. Against every kernel that keeps queues, whatever calls fail and whatever happens meanwhile:
if the start succeeds, the queue belongs to the socket of the handle, delivers packets, with the copy range asked for (as the kernel
clips it) and the maximum length asked for - and it was free before, if nobody else uses it; if no packet waits in it, nothing lies in
the socket, and no error lies there in any case;
if it fails, no queue belongs to its socket;
all other queues (and, if it fails, this one too) that nobody else uses are configured as they were. -/
theorem C131_start (env : Env) (K : Kernel QEv) (F : Nat → Prop) (st : List (Ev QEv) → KState) (hK : Keeps env.e F K st)
    (queueID : U16) (maxLen size : U32) (cb ecb : Option Nat) (pd : Nat) (w w' : W) (r : Option Err)
    (h : createAndStart env K queueID maxLen size cb ecb pd w = .ok (r, w')) :
    (r = none → ∃ qh k, w'.st.handle = some qh ∧ (st w'.trace).queues queueID.toNat = some k ∧ k.owner = .sock qh.fd ∧ k.mode = 2 ∧
      k.range = clip size.toNat ∧ k.maxLen = maxLen.toNat ∧ (k.waiting = [] → (st w'.trace).inbox qh.fd = []) ∧
      Fine qh.fd (st w'.trace) ∧
      (¬ F queueID.toNat → (st w.trace).queues queueID.toNat = none)) ∧
    (r ≠ none → ∃ evs, w'.trace = w.trace ++ evs ∧
      ∀ d t p fd, .socket d t p (.ok fd) ∈ evs → ∀ q, ¬ (st w'.trace).Owns fd q) ∧
    ∀ q, ¬ F q → q ≠ queueID.toNat ∨ r ≠ none → (st w'.trace).conf q = (st w.trace).conf q := by
  obtain ⟨evs, ht, hout, hr⟩ := start_spec env K queueID maxLen size cb ecb pd w w' r h
  obtain ⟨evs', ht', hg⟩ := records_createAndStart env queueID maxLen size cb ecb pd w r w' h
  rw [ht, List.append_cancel_left_eq] at ht'
  subst ht'
  have hrun := Run.of_genuine hK hg
  rw [← ht] at hrun
  cases hout with
  | noSocket =>
    have m := hrun.of_silent (by simp [Silent, handedOver])
    exact ⟨fun h => (by cases h), fun _ => ⟨_, ht, fun d t p fd hm => by simp at hm⟩, fun q hF _ => m.conf (.inl hF)⟩
  | @noBind fd n bevs hb =>
    obtain ⟨m, n1, _⟩ := run_open hb hrun
    refine ⟨fun h => (by cases h), fun _ => ⟨_, ht, fun d t p fd' hm => ?_⟩, fun q hF _ => m.conf (.inl hF)⟩
    have : fd' = fd := by
      rcases hb with ⟨h, _⟩ | ⟨e1, rfl⟩
      · cases h
      · simp at hm
        exact hm.2.2.2
    rw [this]; exact n1
  | @refused fd err bevs opts mid cl hb ho hre htr hc =>
    obtain ⟨a, b⟩ := run_refused hb ho hre hc hrun
    refine ⟨fun h => (by cases h), fun _ => ⟨_, ht, fun d t p fd' hm => ?_⟩, fun q hF _ => a q hF⟩
    have : fd' = fd := by
      simp only [List.append_assoc, List.mem_append, List.mem_cons, List.not_mem_nil, or_false] at hm
      rcases hm with hm | hm | hm | hm | hm
      · cases hm; rfl
      · have := hb.silent _ hm; exact this.elim
      · have := ho.silent _ hm; exact this.elim
      · have := htr _ hm; cases this
      · rcases hc with rfl | ⟨_, _, rfl⟩ <;> simp at hm
    rw [this]; exact b
  | @started fd bevs opts e1 e2 e3 e4 e5 hb ho h1 h2 h3 h4 h5 hne =>
    obtain ⟨a, a', b, c⟩ := run_started hb ho h1 h2 h3 h4 h5 hrun
    refine ⟨fun _ => ?_, fun hn => absurd rfl hn, fun q hF hq => ?_⟩
    · obtain ⟨_, qh, hR, hm, _⟩ := hr rfl
      have hfd : qh.fd = fd := started_fd hb ho hne hm
      obtain ⟨k, k1, k2, k3, k4, k5⟩ := a
      obtain ⟨p1, p2, p3, p4⟩ := conf_parts k2
      exact ⟨qh, k, hR.1, k1, by rw [p1, hfd], p2, p3, p4, by rw [hfd]; exact k4, by rw [hfd]; exact a', b⟩
    · rcases hq with hq | hq
      · exact c q hq hF
      · exact absurd rfl hq

/-- C131. A queue that someone has cannot be started: the start fails. -/
theorem C131_taken (env : Env) (K : Kernel QEv) (F : Nat → Prop) (st : List (Ev QEv) → KState) (hK : Keeps env.e F K st)
    (queueID : U16) (maxLen size : U32) (cb ecb : Option Nat) (pd : Nat) (w w' : W) (r : Option Err)
    (h : createAndStart env K queueID maxLen size cb ecb pd w = .ok (r, w')) (hF : ¬ F queueID.toNat)
    (ht : (st w.trace).queues queueID.toNat ≠ none) : r ≠ none := by
  intro hr
  obtain ⟨_, _, _, _, _, _, _, _, _, _, h0⟩ := (C131_start env K F st hK queueID maxLen size cb ecb pd w w' r h).1 hr
  exact ht (h0 hF)

/-- The queue is gone, and with it the packets that waited. -/
structure GoneQueue (F : Nat → Prop) (fd q : Nat) (waited : List Pkt) (s : KState) : Prop where
  ours : ¬ s.Owns fd q
  free : ¬ F q → s.queues q = none
  dropped : ∀ p ∈ waited, ⟨q, p, 0⟩ ∈ s.out

theorem GoneQueue.meanwhile {F : Nat → Prop} {fd q : Nat} {l : List Pkt} {s s' : KState} (h : GoneQueue F fd q l s) (hm : Meanwhile F s s') :
    GoneQueue F fd q l s' where
  ours ho := h.ours ((hm.owns fd q).mp ho)
  free hF := by
    have := hm.conf (.inl hF) (q := q)
    unfold KState.conf at this
    rw [h.free hF] at this
    cases hq : s'.queues q with
    | none => rfl
    | some k => rw [hq] at this; cases this
  dropped p hp := hm.out_mono (h.dropped p hp)

theorem GoneQueue.release {F : Nat → Prop} {fd q : Nat} {l : List Pkt} {s : KState} (h : GoneQueue F fd q l s) :
    GoneQueue F fd q l (s.release fd) where
  ours := release_owns s fd q
  free hF := by
    unfold KState.release
    simp only [h.free hF]
    rfl
  dropped p hp := List.mem_append_left _ (h.dropped p hp)

theorem GoneQueue.same {F : Nat → Prop} {fd q : Nat} {l : List Pkt} {s s' : KState} (h : GoneQueue F fd q l s) (h1 : s'.queues = s.queues)
    (h2 : s'.out = s.out) : GoneQueue F fd q l s' where
  ours := by unfold KState.Owns; rw [h1]; exact h.ours
  free := by rw [h1]; exact h.free
  dropped := by rw [h2]; exact h.dropped

/-- Once the unbind request is sent the queue is gone. -/
theorem run_unbind {e : Endian} {F : Nat → Prop} {fd q : Nat} {b : List Byte} {evs : List (Ev QEv)} {s s' : KState} {k : KQueue}
    (hb : Encodes e b (.unbindQueue q)) (hs : NfQueue.SendEvs fd b none evs) (hr : Run e F s evs s') (hk : s.queues q = some k)
    (ho : k.owner = .sock fd) : GoneQueue F fd q k.waiting s' := by
  obtain ⟨s1, s2, m1, m2, m3⟩ := hr.sent hs
  obtain ⟨k1, a1, a2, a3⟩ := m1.waiting hk ho
  have ho1 : k1.owner = .sock fd := (congrArg KQueue.owner a2).trans ho
  rw [serve_unbind hb, a1] at m2 m3
  simp only [ho1, ne_eq, not_true_eq_false, if_false] at m2 m3
  have g1 : GoneQueue F fd q k.waiting { s1.setQueue q none with out := s1.out ++ flushed q k1 } := by
    refine ⟨?_, fun _ => setQueue_same _ _ _, fun p hp => List.mem_append_right _ (List.mem_map.mpr ⟨p, a3 p hp, rfl⟩)⟩
    rintro ⟨x, hx, _⟩
    have : (s1.setQueue q none).queues q = none := setQueue_same _ _ _
    rw [show ({ s1.setQueue q none with out := s1.out ++ flushed q k1 } : KState).queues q = (s1.setQueue q none).queues q from rfl, this] at hx
    cases hx
  have g2 := g1.meanwhile m2
  exact (g2.same (answer_queues _ _ _ _) (by unfold KState.answer; split <;> rfl)).meanwhile m3

theorem GoneQueue.recv {e : Endian} {F : Nat → Prop} {fd q size flags : Nat} {r : Except Nat (List Byte)} {l : List Pkt} {s s' : KState}
    (h : GoneQueue F fd q l s) (hr : Run e F s [.recvfrom fd size flags r] s') : GoneQueue F fd q l s' := by
  cases r with
  | error n => exact h.meanwhile (hr.of_silent (by simp [Silent, handedOver]))
  | ok d =>
    obtain ⟨s1, n, rest, d', m, _, _, _, m'⟩ := hr.got
    exact ((h.meanwhile m).same (s' := s1.setInbox fd rest) rfl rfl).meanwhile m'

/-- C133. Stopping a queue that belongs to the handle's socket: unless the request could not be sent (then that error is returned, and the
queue is as it was), the queue is gone afterwards - free, if nobody else uses it - and every packet that waited in it is dropped; that
is so if the result is nil, and if it is any other error.  Queues that nobody else uses and that belong to other sockets are configured
as they were. -/
theorem C133_stop (env : Env) (K : Kernel QEv) (F : Nat → Prop) (st : List (Ev QEv) → KState) (hK : Keeps env.e F K st) (w w' : W)
    (qh : Handle) (hR : Ready w qh) (k : KQueue) (hk : (st w.trace).queues w.st.queueNum.toNat = some k) (ho : k.owner = .sock qh.fd)
    (r : Option Err) (h : stopQueue env K w = .ok (r, w')) :
    (GoneQueue F qh.fd w.st.queueNum.toNat k.waiting (st w'.trace) ∨
      ∃ n, r = some (.errno n) ∧ (st w'.trace).conf w.st.queueNum.toNat = some k.conf) ∧
    ∀ q, q ≠ w.st.queueNum.toNat → ¬ F q → ¬ (st w.trace).Owns qh.fd q → (st w'.trace).conf q = (st w.trace).conf q := by
  obtain ⟨evs, cl, ht, hx, hc, hn, _⟩ := C29_stop env K w w' qh r hR h
  obtain ⟨evs', ht', hg⟩ := records_stopQueue env w r w' h
  rw [ht, List.append_cancel_left_eq] at ht'
  subst ht'
  have hrun := Run.of_genuine hK hg
  rw [← ht] at hrun
  obtain ⟨t, r1, r2⟩ := hrun.split
  generalize w.st.queueNum.toNat = q at *
  have hothers : ∀ q', q' ≠ q → ¬ F q' → t.conf q' = (st w.trace).conf q' ∧ (¬ (st w.trace).Owns qh.fd q' → ¬ t.Owns qh.fd q') := by
    intro q' hq' hF
    have hours := hx.ours (.inr (.inr rfl) : About q (.unbindQueue q))
    clear h hR hc hn r2 hrun hg ht
    generalize st w.trace = s at *
    clear hk hx
    induction evs generalizing s with
    | nil => exact ⟨r1.meanwhile.conf (.inl hF), fun hn ho => hn ((r1.meanwhile.owns _ _).mp ho)⟩
    | cons ev evs ih =>
      cases r1 with
      | @cons _ s1 s2 _ _ _ h1 h2 h3 =>
        obtain ⟨i1, i2⟩ := ih (fun x hx => hours x (by simp [hx])) s2 h3
        have step : s2.queues q' = s1.queues q' ∨ (s2.conf q' = s1.conf q' ∧ (s2.Owns qh.fd q' ↔ s1.Owns qh.fd q')) := by
          cases h2 with
          | @handed s3 _ fd b ha hm =>
            rcases hours ev (by simp) with hs | ⟨_, _, _, rfl⟩ | ⟨b', req, hb, he, hab⟩
            · cases ev <;> simp_all [Silent, handedOver]
            · simp [handedOver] at ha
            · rw [ha] at hb
              simp only [Option.some.injEq, Prod.mk.injEq] at hb
              obtain ⟨rfl, rfl⟩ := hb
              have hsame : (s1.serve env.e qh.fd b).2.queues q' = s1.queues q' := by
                rcases serve_about he hab s1 qh.fd with h | ⟨h, _⟩
                · rw [h]
                · exact h q' hq'
              right
              have e1 : (s3.answer env.e qh.fd b (s1.serve env.e qh.fd b).1).queues = s3.queues := answer_queues _ _ _ _
              constructor
              · have := hm.conf (.inl hF) (q := q')
                unfold KState.conf at *
                rw [e1, this, hsame]
              · have := hm.owns qh.fd q'
                unfold KState.Owns at *
                rw [e1, this, hsame]
          | received _ _ => exact .inl rfl
          | opened _ _ => exact .inl rfl
          | closed =>
            rcases hours _ (List.mem_cons_self) with hs | ⟨_, _, _, hs⟩ | ⟨b, req, hb, he, hab⟩
            · exact hs.elim
            · cases hs
            · simp [handedOver] at hb
          | silent _ => exact .inl rfl
        have step' : s2.conf q' = s1.conf q' ∧ (s2.Owns qh.fd q' ↔ s1.Owns qh.fd q') := by
          rcases step with h | h
          · unfold KState.conf KState.Owns
            rw [h]; exact ⟨rfl, Iff.rfl⟩
          · exact h
        refine ⟨by rw [i1, step'.1, h1.conf (.inl hF)], fun hn => i2 ?_⟩
        rw [step'.2, h1.owns]
        exact hn
  have hgone : GoneQueue F qh.fd q k.waiting t ∨ ∃ n, r = some (.errno n) ∧ t.conf q = some k.conf := by
    obtain ⟨b, hb, hq⟩ := hx
    cases hq with
    | @sendFailed n _ hs =>
      right
      refine ⟨n, rfl, ?_⟩
      have m : Meanwhile F (st w.trace) t := by
        refine r1.of_silent ?_
        rcases hs with ⟨h, _⟩ | ⟨e1, rfl⟩
        · cases h
        · simp [Silent, handedOver]
      rw [m.conf (.inr ⟨qh.fd, k, hk, ho⟩)]
      unfold KState.conf
      rw [hk]; rfl
    | recvFailed hs =>
      obtain ⟨t1, r3, r4⟩ := r1.split
      exact .inl ((run_unbind hb hs r3 hk ho).recv r4)
    | replied hs _ _ _ =>
      obtain ⟨t1, r3, r4⟩ := r1.split
      exact .inl ((run_unbind hb hs r3 hk ho).recv r4)
  by_cases hr : r = none
  · obtain ⟨s1, s2, m1, m2, m3⟩ := r2.closes (hc hr)
    constructor
    · left
      rcases hgone with hgone | ⟨n, hn, _⟩
      · have g := (hgone.meanwhile m1).release.meanwhile m2
        rcases m3 with rfl | m3
        · exact g
        · exact g.release.meanwhile m3
      · rw [hr] at hn; cases hn
    · intro q' hq' hF hno
      obtain ⟨c1, c2⟩ := hothers q' hq' hF
      have n1 : ∀ {x y : KState}, ¬ x.Owns qh.fd q' → Meanwhile F x y → ¬ y.Owns qh.fd q' := fun h m ho => h ((m.owns _ _).mp ho)
      have rel : ∀ {x : KState}, ¬ x.Owns qh.fd q' → (x.release qh.fd).conf q' = x.conf q' := by
        intro x hx
        rw [release_conf]
        unfold KState.conf
        cases hq : x.queues q' with
        | none => rfl
        | some y =>
          have : y.owner ≠ .sock qh.fd := fun hy => hx ⟨y, hq, hy⟩
          simp [Option.filter, KQueue.conf, this]
      have n0 := n1 (c2 hno) m1
      have e2 : s2.conf q' = (st w.trace).conf q' := by rw [m2.conf (.inl hF), rel n0, m1.conf (.inl hF), c1]
      rcases m3 with rfl | m3
      · exact e2
      · rw [m3.conf (.inl hF), rel (n1 (release_owns s1 qh.fd q') m2), e2]
  · rw [hn hr] at r2
    have m := r2.meanwhile
    constructor
    · rcases hgone with hgone | ⟨n, h1, h2⟩
      · exact .inl (hgone.meanwhile m)
      · refine .inr ⟨n, h1, ?_⟩
        rw [m.conf ?_, h2]
        right
        refine ⟨qh.fd, ?_⟩
        unfold KState.conf at h2
        rw [Option.map_eq_some_iff] at h2
        obtain ⟨y, hy, hyc⟩ := h2
        exact ⟨y, hy, (congrArg KQueue.owner hyc).trans ho⟩
    · intro q' hq' hF hno
      rw [m.conf (.inl hF), (hothers q' hq' hF).1]

end Verif.Props
