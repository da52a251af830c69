import Verif.Props.NfQueueBeside
import Verif.Props.NfQueueKernelWorks
/-!
C139, seen from a kernel that keeps queues: what becomes of a queue that is stopped while its own goroutine reads, and callbacks give verdicts.
-/
namespace Verif.Props
open Verif.Common Verif.Sys Verif.Spec Verif.NfQueue

/-- The packet with this id has left queue `q`: it was given a verdict, or dropped. -/
def HasLeft (q id : Nat) (s : KState) : Prop := ∃ g ∈ s.out, g.queue = q ∧ g.pkt.id = id

/-- The queue is the socket's, and each of these packets waits in it or has left it. -/
def Here (fd q : Nat) (l : List Pkt) (s : KState) : Prop :=
  ∃ k, s.queues q = some k ∧ k.owner = .sock fd ∧ ∀ p ∈ l, p ∈ k.waiting ∨ HasLeft q p.id s

/-- The queue is gone - free, if nobody else uses it -, and each of these packets has left it. -/
structure Off (F : Nat → Prop) (fd q : Nat) (l : List Pkt) (s : KState) : Prop where
  ours : ¬ s.Owns fd q
  free : ¬ F q → s.queues q = none
  left : ∀ p ∈ l, HasLeft q p.id s

variable {e : Endian} {F : Nat → Prop} {fd q : Nat} {l : List Pkt}

theorem HasLeft.mono {id : Nat} {s s' : KState} (h : HasLeft q id s) (hm : ∀ g ∈ s.out, g ∈ s'.out) : HasLeft q id s' := by
  obtain ⟨g, hg, h1, h2⟩ := h
  exact ⟨g, hm g hg, h1, h2⟩

theorem Here.meanwhile {s s' : KState} (h : Here fd q l s) (hm : Meanwhile F s s') : Here fd q l s' := by
  obtain ⟨k, h1, h2, h3⟩ := h
  obtain ⟨k', a1, a2, a3⟩ := hm.waiting h1 h2
  refine ⟨k', a1, (congrArg KQueue.owner a2).trans h2, fun p hp => ?_⟩
  rcases h3 p hp with h | h
  · exact .inl (a3 p h)
  · exact .inr (h.mono fun g hg => hm.out_mono hg)

theorem Here.same {s s' : KState} (h : Here fd q l s) (h1 : s'.queues = s.queues) (h2 : s'.out = s.out) : Here fd q l s' := by
  obtain ⟨k, a1, a2, a3⟩ := h
  refine ⟨k, by rw [h1]; exact a1, a2, fun p hp => ?_⟩
  rcases a3 p hp with h | h
  · exact .inl h
  · exact .inr (h.mono (by rw [h2]; exact fun _ h => h))

theorem Off.gone {s : KState} (h : Off F fd q l s) : GoneQueue F fd q [] s := ⟨h.ours, h.free, by simp⟩

theorem Off.of {s s' : KState} (h : Off F fd q l s) (g : GoneQueue F fd q [] s') (hm : ∀ x ∈ s.out, x ∈ s'.out) : Off F fd q l s' :=
  ⟨g.ours, g.free, fun p hp => (h.left p hp).mono hm⟩

theorem Off.meanwhile {s s' : KState} (h : Off F fd q l s) (hm : Meanwhile F s s') : Off F fd q l s' :=
  h.of (h.gone.meanwhile hm) fun _ hg => hm.out_mono hg

theorem Off.same {s s' : KState} (h : Off F fd q l s) (h1 : s'.queues = s.queues) (h2 : s'.out = s.out) : Off F fd q l s' :=
  h.of (h.gone.same h1 h2) (by rw [h2]; exact fun _ h => h)

theorem Off.release {s : KState} (h : Off F fd q l s) : Off F fd q l (s.release fd) :=
  h.of h.gone.release fun _ hg => List.mem_append_left _ hg

/-- A verdict: nothing changes, or one packet leaves a queue of the socket that sent it. -/
theorem verdict_cases (s : KState) (fd' : Nat) (m : NfMsg) :
    (s.verdict fd' m).2 = s ∨ ∃ k p g, s.queues m.resId = some k ∧ k.owner = .sock fd' ∧ p ∈ k.waiting ∧ g.queue = m.resId ∧ g.pkt.id = p.id ∧
      (s.verdict fd' m).2 = { s.setQueue m.resId (some { k with waiting := k.waiting.filter fun x => decide (x.id ≠ p.id) }) with
        out := s.out ++ [g] } := by
  unfold KState.verdict
  split
  · exact .inl rfl
  · rename_i k hk
    split
    · exact .inl rfl
    · rename_i ho
      split
      · split
        · exact .inl rfl
        · split
          · exact .inl rfl
          · rename_i v id _ _ _ p hf
            have h1 := List.find?_some hf
            simp only [decide_eq_true_eq] at h1
            subst h1
            exact .inr ⟨k, p, _, hk, by simpa using ho, List.mem_of_find?_eq_some hf, rfl, rfl, rfl⟩
      · exact .inl rfl

theorem Here.verdict {s : KState} (h : Here fd q l s) (fd' : Nat) (m : NfMsg) : Here fd q l (s.verdict fd' m).2 := by
  rcases verdict_cases s fd' m with h1 | ⟨k, p, g, h1, h2, h3, h4, h5, h6⟩
  · rw [h1]; exact h
  · rw [h6]
    obtain ⟨k0, a1, a2, a3⟩ := h
    have hmono : ∀ x ∈ s.out, x ∈ s.out ++ [g] := fun _ hx => List.mem_append_left _ hx
    by_cases hq : q = m.resId
    · subst hq
      rw [a1] at h1
      cases h1
      refine ⟨_, setQueue_same _ _ _, a2, fun x hx => ?_⟩
      rcases a3 x hx with hw | hw
      · by_cases hid : x.id = p.id
        · exact .inr ⟨g, by simp, h4, by rw [hid]; exact h5⟩
        · exact .inl (by simp [hw, hid])
      · exact .inr (hw.mono hmono)
    · refine ⟨k0, by rw [← a1]; exact setQueue_other _ _ hq, a2, fun x hx => ?_⟩
      rcases a3 x hx with hw | hw
      · exact .inl hw
      · exact .inr (hw.mono hmono)

theorem Off.verdict {s : KState} (h : Off F fd q l s) (fd' : Nat) (m : NfMsg) : Off F fd q l (s.verdict fd' m).2 := by
  rcases verdict_cases s fd' m with h1 | ⟨k, p, g, h1, h2, h3, h4, h5, h6⟩
  · rw [h1]; exact h
  · rw [h6]
    have hmono : ∀ x ∈ s.out, x ∈ s.out ++ [g] := fun _ hx => List.mem_append_left _ hx
    refine ⟨?_, ?_, fun x hx => (h.left x hx).mono hmono⟩
    · rintro ⟨y, hy, hyo⟩
      by_cases hq : q = m.resId
      · subst hq
        have : some { k with waiting := k.waiting.filter fun x => decide (x.id ≠ p.id) } = some y := by
          rw [← hy]; exact (setQueue_same _ _ _).symm
        cases this
        exact h.ours ⟨k, h1, hyo⟩
      · exact h.ours ⟨y, by rw [← hy]; exact (setQueue_other _ _ hq).symm, hyo⟩
    · intro hF
      by_cases hq : q = m.resId
      · subst hq
        rw [h.free hF] at h1
        cases h1
      · rw [← h.free hF]; exact setQueue_other _ _ hq

theorem serve_verdictish {s : KState} {fd' : Nat} {b : List Byte} (hb : ∀ m, decodeNf e b = some m → m.type ≠ 0x302) :
    (s.serve e fd' b).2 = s ∨ ∃ m, (s.serve e fd' b).2 = (s.verdict fd' m).2 := by
  unfold KState.serve
  split
  · rename_i m hm
    rw [if_neg (hb m hm)]
    split
    · exact .inr ⟨m, rfl⟩
    · exact .inl rfl
  · exact .inl rfl

/-- What a property must survive to survive everything the reader and the callbacks do. -/
structure Kept (F : Nat → Prop) (P : KState → Prop) : Prop where
  meanwhile : ∀ s s', P s → Meanwhile F s s' → P s'
  same : ∀ s s', P s → s'.queues = s.queues → s'.out = s.out → P s'
  verdict : ∀ s fd m, P s → P (s.verdict fd m).2

theorem kept_here : Kept F (Here fd q l) := ⟨fun _ _ h => h.meanwhile, fun _ _ h => h.same, fun _ _ _ h => h.verdict _ _⟩

theorem kept_off : Kept F (Off F fd q l) := ⟨fun _ _ h => h.meanwhile, fun _ _ h => h.same, fun _ _ _ h => h.verdict _ _⟩

theorem Kept.run {P : KState → Prop} (hP : Kept F P) : ∀ {evs : List (Ev QEv)} {s s' : KState}, P s → Run e F s evs s' →
    (∀ ev ∈ evs, Verdictish e ev ∨ ∃ fd size flags r, ev = .recvfrom fd size flags r) → P s' := by
  intro evs
  induction evs with
  | nil => intro s s' h hr _; exact hP.meanwhile _ _ h hr.meanwhile
  | cons ev evs ih =>
    intro s s' h hr hv
    cases hr with
    | @cons _ s1 s2 _ _ _ h1 h2 h3 =>
      refine ih ?_ h3 (fun x hx => hv x (List.mem_cons_of_mem _ hx))
      have hp1 := hP.meanwhile _ _ h h1
      have hev := hv ev List.mem_cons_self
      cases h2 with
      | @handed s3 _ fd' b ha hm =>
        have hb : ∀ m, decodeNf e b = some m → m.type ≠ 0x302 := by
          rcases hev with hev | ⟨_, _, _, _, rfl⟩
          · cases ev with
            | sendmsg f b' r =>
              cases r with
              | none =>
                simp only [handedOver, Option.some.injEq, Prod.mk.injEq] at ha
                obtain ⟨_, rfl⟩ := ha
                exact hev
              | some n => cases ha
            | _ => first | exact hev.elim | cases ha
          · simp [handedOver] at ha
        have hp2 : P (s1.serve e fd' b).2 := by
          rcases serve_verdictish (s := s1) (fd' := fd') hb with h | ⟨m, h⟩
          · rw [h]; exact hp1
          · rw [h]; exact hP.verdict _ _ _ hp1
        exact hP.same _ _ (hP.meanwhile _ _ hp2 hm) (answer_queues _ _ _ _) (by unfold KState.answer; split <;> rfl)
      | received _ _ => exact hP.same _ _ hp1 rfl rfl
      | opened _ _ => exact hp1
      | closed =>
        rcases hev with hev | ⟨_, _, _, _, h⟩
        · exact hev.elim
        · cases h
      | silent _ => exact hp1

/-- Sending the unbind request. -/
theorem here_unbind {b : List Byte} {evs : List (Ev QEv)} {s s' : KState} (hb : Encodes e b (.unbindQueue q)) (hs : NfQueue.SendEvs fd b none evs)
    (hr : Run e F s evs s') (h : Here fd q l s) : Off F fd q l s' := by
  obtain ⟨s1, s2, m1, m2, m3⟩ := hr.sent hs
  obtain ⟨k, a1, a2, a3⟩ := h.meanwhile m1
  rw [serve_unbind hb, a1] at m2 m3
  simp only [a2, ne_eq, not_true_eq_false, if_false] at m2 m3
  have g1 : Off F fd q l { s1.setQueue q none with out := s1.out ++ flushed q k } := by
    refine ⟨?_, fun _ => setQueue_same _ _ _, fun p hp => ?_⟩
    · rintro ⟨x, hx, _⟩
      have : (s1.setQueue q none).queues q = none := setQueue_same _ _ _
      rw [show ({ s1.setQueue q none with out := s1.out ++ flushed q k } : KState).queues q = (s1.setQueue q none).queues q from rfl, this] at hx
      cases hx
    · rcases a3 p hp with h | h
      · exact ⟨⟨q, p, 0⟩, List.mem_append_right _ (List.mem_map.mpr ⟨p, h, rfl⟩), rfl, rfl⟩
      · exact h.mono fun _ hg => List.mem_append_left _ hg
  exact ((g1.meanwhile m2).same (answer_queues _ _ _ _) (by unfold KState.answer; split <;> rfl)).meanwhile m3

/-- Has the request been handed over? -/
def HasAsked : CPc → Prop
  | .start => False
  | .done (some (.errno _)) => False
  | _ => True

/-- C139. StopQueue, called while the queue's goroutine reads from the socket and callbacks give verdicts, on a kernel that keeps queues: for
every interleaving, as soon as the request has gone out the queue is gone - free, if nobody else uses it -, and stays so to the end
whatever the call gets to receive (the reader's packets, or nothing because the reader took the reply) and whatever it returns; every
packet that waited when it was called has left the queue, by a verdict or by being dropped.  Before, or if the request could not be sent
(then that error is what is returned), the queue is the socket's still, and no packet is lost. -/
theorem C139_given_up (env : Env) (K : Kernel QEv) (hM : Minds env K) (F : Nat → Prop) (st : List (Ev QEv) → KState) (hK : Keeps env.e F K st)
    (w : W) (qh : Handle) (hh : w.st.handle = some qh) (k : KQueue) (hk : (st w.trace).queues w.st.queueNum.toNat = some k)
    (ho : k.owner = .sock qh.fd) (rpc : RPc) (xs : List Bool) (s : Both) (h : bsched env K .stop xs ⟨rpc, .start, w⟩ = .ok s) :
    (HasAsked s.caller → Off F qh.fd w.st.queueNum.toNat k.waiting (st s.w.trace)) ∧
    (¬ HasAsked s.caller → Here qh.fd w.st.queueNum.toNat k.waiting (st s.w.trace)) := by
  have key : ∀ (xs : List Bool) (s0 s : Both) (evs : List (Ev QEv)), Beside env K .stop qh w s0 evs →
      ((HasAsked s0.caller → Off F qh.fd w.st.queueNum.toNat k.waiting (st s0.w.trace)) ∧
        (¬ HasAsked s0.caller → Here qh.fd w.st.queueNum.toNat k.waiting (st s0.w.trace))) → bsched env K .stop xs s0 = .ok s →
      ((HasAsked s.caller → Off F qh.fd w.st.queueNum.toNat k.waiting (st s.w.trace)) ∧
        (¬ HasAsked s.caller → Here qh.fd w.st.queueNum.toNat k.waiting (st s.w.trace))) := by
    intro xs
    induction xs with
    | nil =>
      intro s0 s evs hB hI h
      cases h
      exact hI
    | cons x xs ih =>
      intro s0 s evs hB hI h
      simp only [bsched] at h
      obtain ⟨s1, h1, h2⟩ := Res.bind_eq_ok.mp h
      obtain ⟨es, hB1, ht, hg, hc⟩ := beside_step hM hB h1
      refine ih s1 s _ hB1 ?_ h2
      have hrun := Run.of_genuine hK hg
      rw [← ht] at hrun
      rcases hc with ⟨_, hc, hv⟩ | ⟨_, _, hc⟩
      · rw [hc]
        have hv' : ∀ ev ∈ es, Verdictish env.e ev ∨ ∃ fd size flags r, ev = .recvfrom fd size flags r := by
          intro ev hev
          rcases hv ev hev with h | ⟨a, b, r, rfl⟩
          · exact .inl h
          · exact .inr ⟨a, b, _, r, rfl⟩
        exact ⟨fun ha => kept_off.run (hI.1 ha) hrun hv', fun ha => kept_here.run (hI.2 ha) hrun hv'⟩
      · obtain ⟨es', ht', _, _, _, _, _, hmv⟩ := caller_step hB.handle hB.queue hB.own hc
        rw [ht, List.append_cancel_left_eq] at ht'
        subst ht'
        have hb := msg_encodes env.e Ask.stop.call w.st.queueNum
        generalize hdrBytes env.e (Ask.stop.call.msg env.e w.st.queueNum).header ++ (Ask.stop.call.msg env.e w.st.queueNum).data = b at *
        have hb : Encodes env.e b (.unbindQueue w.st.queueNum.toNat) := hb
        generalize s0.caller = pc0 at *
        generalize s1.caller = pc1 at *
        cases hmv with
        | sent hs => exact ⟨fun _ => here_unbind hb hs hrun (hI.2 id), fun h => (h trivial).elim⟩
        | unsent hs =>
          refine ⟨fun h => h.elim, fun _ => (hI.2 id).meanwhile (hrun.of_silent ?_)⟩
          rcases hs with ⟨h, _⟩ | ⟨e1, rfl⟩
          · cases h
          · simp [Silent, handedOver]
        | got => exact ⟨fun _ => kept_off.run (hI.1 trivial) hrun (by simp), fun h => (h trivial).elim⟩
        | unanswered => exact ⟨fun _ => kept_off.run (hI.1 trivial) hrun (by simp), fun h => (h trivial).elim⟩
        | refused => exact ⟨fun _ => (hI.1 trivial).meanwhile hrun.meanwhile, fun h => (h trivial).elim⟩
        | acked => exact ⟨fun _ => (hI.1 trivial).meanwhile hrun.meanwhile, fun h => (h trivial).elim⟩
        | configured => exact ⟨fun _ => (hI.1 trivial).meanwhile hrun.meanwhile, fun h => (h trivial).elim⟩
        | closed hcl =>
          refine ⟨fun _ => ?_, fun h => (h trivial).elim⟩
          obtain ⟨t1, t2, m1, m2, m3⟩ := hrun.closes hcl
          have g := ((hI.1 trivial).meanwhile m1).release.meanwhile m2
          rcases m3 with rfl | m3
          · exact g
          · exact g.release.meanwhile m3
        | over => exact ⟨fun h => (hI.1 h).meanwhile hrun.meanwhile, fun h => (hI.2 h).meanwhile hrun.meanwhile⟩
  exact key xs _ s [] (beside_init env K .stop hh rpc) ⟨fun h => h.elim, fun _ => ⟨k, hk, ho, fun p hp => .inl hp⟩⟩ h

/-! ### C140: the reader takes the reply -/

/-- Something that is no system call. -/
def IsApp (ev : Ev QEv) : Prop := ∃ a, ev = .app a

/-- Nothing lies in the socket, and no queue belongs to it that could put something there. -/
def Dry (fd : Nat) (s : KState) : Prop := (∀ q, ¬ s.Owns fd q) ∧ s.inbox fd = []

theorem Dry.meanwhile {s s' : KState} (h : Dry fd s) (hm : Meanwhile F s s') : Dry fd s' :=
  ⟨fun q ho => h.1 q ((hm.owns fd q).mp ho), (hm.inbox h.1).trans h.2⟩

/-- From a dry socket nothing is received, and it stays dry, if nothing is sent. -/
theorem Dry.run : ∀ {evs : List (Ev QEv)} {s s' : KState}, Dry fd s → Run e F s evs s' →
    (∀ ev ∈ evs, IsApp ev ∨ ∃ size flags r, ev = .recvfrom fd size flags r) →
    Dry fd s' ∧ ∀ size flags d, .recvfrom fd size flags (.ok d) ∉ evs := by
  intro evs
  induction evs with
  | nil => intro s s' h hr _; exact ⟨h.meanwhile hr.meanwhile, by simp⟩
  | cons ev evs ih =>
    intro s s' h hr hv
    cases hr with
    | @cons _ s1 s2 _ _ _ h1 h2 h3 =>
      have hd := h.meanwhile h1
      have key : s2 = s1 ∧ ∀ size flags d, ev ≠ .recvfrom fd size flags (.ok d) := by
        rcases hv ev List.mem_cons_self with ⟨a, rfl⟩ | ⟨size, flags, r, rfl⟩
        · exact ⟨h2.of_silent rfl, by intro _ _ _ h; cases h⟩
        · cases r with
          | error n => exact ⟨h2.of_silent rfl, by intro _ _ _ h; cases h⟩
          | ok d =>
            exfalso
            cases h2 with
            | handed ha _ => cases ha
            | received hi _ => rw [hd.2] at hi; cases hi
            | silent hs => exact hs
      obtain ⟨rfl, hne⟩ := key
      obtain ⟨i1, i2⟩ := ih hd h3 (fun x hx => hv x (List.mem_cons_of_mem _ hx))
      refine ⟨i1, fun size flags d hm => ?_⟩
      rcases List.mem_cons.mp hm with hm | hm
      · exact hne _ _ _ hm.symm
      · exact i2 _ _ _ hm

/-- A failed receive from the socket. -/
def RecvFails (fd : Nat) (evs : List (Ev QEv)) : Prop := ∃ size flags n, .recvfrom fd size flags (.error n) ∈ evs

theorem Does.minds {env : Env} {K : Kernel QEv} (h : Does IsApp env K) : Minds env K := by
  intro w
  obtain ⟨l, h1, h2, h3, h4⟩ := h w
  refine ⟨l, h1, h2, fun ev hev => ?_, h4⟩
  obtain ⟨a, rfl⟩ := h3 ev hev
  trivial

/-- Once the reply is taken, the call waits for ever: it goes on only if a receive fails. -/
theorem stuck {env : Env} {K : Kernel QEv} (hD : Does IsApp env K) {st : List (Ev QEv) → KState} (hK : Keeps env.e F K st) {qh : Handle} {w0 : W}
    (xs : List Bool) : ∀ (s0 s : Both) (evs0 : List (Ev QEv)), Beside env K .stop qh w0 s0 evs0 →
      (RecvFails qh.fd evs0 ∨ s0.caller = .sent qh ∧ Dry qh.fd (st s0.w.trace)) → bsched env K .stop xs s0 = .ok s →
      ∃ evs, Beside env K .stop qh w0 s evs ∧ (RecvFails qh.fd evs ∨ s.caller = .sent qh ∧ Dry qh.fd (st s.w.trace)) := by
  induction xs with
  | nil =>
    intro s0 s evs0 hB hI h
    cases h
    exact ⟨evs0, hB, hI⟩
  | cons x xs ih =>
    intro s0 s evs0 hB hI h
    simp only [bsched] at h
    obtain ⟨s1, h1, h2⟩ := Res.bind_eq_ok.mp h
    obtain ⟨es, hB1, ht, hg, hc⟩ := beside_step hD.minds hB h1
    refine ih s1 s _ hB1 ?_ h2
    rcases hI with ⟨a, b, c, hm⟩ | ⟨hcl, hdry⟩
    · exact .inl ⟨a, b, c, List.mem_append_left _ hm⟩
    · have hrun := Run.of_genuine hK hg
      rw [← ht] at hrun
      rcases hc with ⟨rfl, hc, _⟩ | ⟨_, _, hc⟩
      · right
        refine ⟨hc.trans hcl, ?_⟩
        simp only [bstep] at h1
        obtain ⟨⟨pc, w1⟩, h3, h4⟩ := Res.bind_eq_ok.mp h1
        cases h4
        obtain ⟨es', ht', _, hev, _⟩ := reader_does (fun a => ⟨a, rfl⟩) hD h3
        simp only at ht
        rw [ht, List.append_cancel_left_eq] at ht'
        subst ht'
        refine (hdry.run hrun ?_).1
        rcases hev with ⟨_, qh', r, hq, rfl⟩ | hev
        · rw [hB.handle] at hq
          cases hq
          intro ev hev
          simp only [List.mem_singleton] at hev
          exact .inr ⟨_, _, _, hev⟩
        · exact fun ev hev' => .inl (hev ev hev')
      · obtain ⟨es', ht', _, _, _, _, _, hmv⟩ := caller_step hB.handle hB.queue hB.own hc
        rw [ht, List.append_cancel_left_eq] at ht'
        subst ht'
        rw [hcl] at hmv
        clear hc h2 hB1 h1
        generalize s1.caller = pc1 at *
        cases hmv with
        | got => exact absurd List.mem_cons_self ((hdry.run hrun (by simp)).2 _ _ _)
        | unanswered => exact .inl ⟨_, _, _, List.mem_append_right _ List.mem_cons_self⟩

/-- After the only queue of a socket is unbound it has none. -/
theorem unbound {b : List Byte} {evs : List (Ev QEv)} {s s' : KState} (hb : Encodes e b (.unbindQueue q)) (hs : NfQueue.SendEvs fd b none evs)
    (hr : Run e F s evs s') (ho : s.Owns fd q) (hon : ∀ q', s.Owns fd q' → q' = q) : ∀ q', ¬ s'.Owns fd q' := by
  obtain ⟨s1, s2, m1, m2, m3⟩ := hr.sent hs
  obtain ⟨k, a1, a2⟩ := (m1.owns fd q).mpr ho
  rw [serve_unbind hb, a1] at m2 m3
  simp only [a2, ne_eq, not_true_eq_false, if_false] at m2 m3
  intro q' ho'
  have h1 := (m3.owns fd q').mp ho'
  have h2 : s2.Owns fd q' := by
    unfold KState.Owns at *
    rw [answer_queues] at h1
    exact h1
  obtain ⟨y, hy, hyo⟩ := (m2.owns fd q').mp h2
  by_cases hq : q' = q
  · subst hq
    have : (s1.setQueue q' none).queues q' = none := setQueue_same _ _ _
    rw [show ({ s1.setQueue q' none with out := s1.out ++ flushed q' k } : KState).queues q' = (s1.setQueue q' none).queues q' from rfl, this] at hy
    cases hy
  · refine hq (hon q' ((m1.owns fd q').mp ⟨y, ?_, hyo⟩))
    rw [← hy]
    exact (setQueue_other _ _ hq).symm

/-- C140, violated: StopQueue on a running queue need not return.  On every kernel that keeps queues and whose calls do not fail, when no packet
comes in: if the reader, waiting in its receive, gets the kernel's reply instead of the caller - after the schedule "caller sends, reader
receives" - then however the two go on, the call has not returned, and never received anything, unless a receive failed. -/
theorem C140_returns_violated (env : Env) (K : Kernel QEv) (hD : Does IsApp env K) (F : Nat → Prop) (st : List (Ev QEv) → KState)
    (hK : Keeps env.e F K st) (hH : Healthy K st) (w : W) (qh : Handle) (hh : w.st.handle = some qh)
    (hop : ∃ d t p, .socket d t p (.ok qh.fd) ∈ w.trace) (ho : (st w.trace).Owns qh.fd w.st.queueNum.toNat)
    (hon : ∀ q, (st w.trace).Owns qh.fd q → q = w.st.queueNum.toNat)
    (hcalm : ∀ b, Encodes env.e b (.unbindQueue w.st.queueNum.toNat) → (st (w.trace ++ [.sendto qh.fd b 0 none])).inbox qh.fd = [.ack 0]) :
    (∃ s, bsched env K .stop [false, true] ⟨.idle, .start, w⟩ = .ok s) ∧
    ∀ xs s, bsched env K .stop (false :: true :: xs) ⟨.idle, .start, w⟩ = .ok s →
      ∃ evs, s.w.trace = w.trace ++ evs ∧ (RecvFails qh.fd evs ∨ s.caller = .sent qh ∧ Dry qh.fd (st s.w.trace)) := by
  have hb := msg_encodes env.e Ask.stop.call w.st.queueNum
  generalize hB : hdrBytes env.e (Ask.stop.call.msg env.e w.st.queueNum).header ++ (Ask.stop.call.msg env.e w.st.queueNum).data = b at hb
  have hb : Encodes env.e b (.unbindQueue w.st.queueNum.toNat) := hb
  -- the caller sends
  have hsend : ∃ w1, astep env K .stop .start w = .ok (.sent qh, w1) ∧ w1.trace = w.trace ++ [.sendto qh.fd b 0 none] ∧
      w1.st.handle = some qh ∧ Genuine K w.trace [.sendto qh.fd b 0 none] := by
    have hst : astep env K .stop .start w = .ok (.sent qh, { w with trace := w.trace ++ [.sendto qh.fd b 0 none] }) := by
      obtain ⟨r, evs, h3, h4⟩ := send_spec env K qh (Ask.stop.call.msg env.e w.st.queueNum) w
      obtain ⟨evs', ht', hg⟩ := records_send env qh _ _ _ _ h3
      simp only [List.append_cancel_left_eq] at ht'
      subst ht'
      rw [hB] at h4
      have hr : r = none ∧ evs = [.sendto qh.fd b 0 none] := by
        rcases h4 with h4 | ⟨e1, rfl⟩
        · exact h4
        · exfalso
          cases hg with
          | cons ha _ =>
            have : some e1 = K.send w.trace qh.fd b := ha
            rw [hH.send _ _ _ hop] at this
            cases this
      obtain ⟨rfl, rfl⟩ := hr
      have hrec : Ask.stop.call.record w.st = w.st := rfl
      simp only [astep, GoM.bind_apply, getQ, Res.ok_bind, modifyQ, hrec, hh]
      rw [h3]
      rfl
    refine ⟨_, hst, rfl, hh, ?_⟩
    refine .cons ?_ .nil
    exact (hH.send _ _ _ hop).symm
  obtain ⟨w1, h1, ht1, hh1, hg1⟩ := hsend
  have hrun1 := Run.of_genuine hK hg1
  have hno := unbound hb (.inl ⟨rfl, rfl⟩) hrun1 ho hon
  have hi := hcalm b hb
  rw [← ht1] at hno hi
  -- the reader receives
  have hrecv : ∃ pc w2, rstep env K .idle w1 = .ok (pc, w2) := by
    rcases recvInto_spec K qh.fd w1.st.buf 0x100 w1 with ⟨n, h3⟩ | ⟨d, _, h3⟩
    · exact ⟨_, _, by simp only [rstep, GoM.bind_apply, getQ, Res.ok_bind, hh1, h3]; rfl⟩
    · exact ⟨_, _, by simp only [rstep, GoM.bind_apply, getQ, Res.ok_bind, hh1, h3]; rfl⟩
  obtain ⟨pc, w2, h2⟩ := hrecv
  have hs1 : bstep env K .stop false ⟨.idle, .start, w⟩ = .ok ⟨.idle, .sent qh, w1⟩ := by simp only [bstep, h1, Res.ok_bind]; rfl
  have hs2 : bstep env K .stop true ⟨.idle, .sent qh, w1⟩ = .ok ⟨pc, .sent qh, w2⟩ := by simp only [bstep, h2, Res.ok_bind]; rfl
  refine ⟨⟨⟨pc, .sent qh, w2⟩, by simp only [bsched, hs1, hs2, Res.ok_bind]; rfl⟩, fun xs s h => ?_⟩
  simp only [bsched, hs1, hs2, Res.ok_bind] at h
  obtain ⟨es1, hB1, _⟩ := beside_step hD.minds (beside_init env K .stop hh .idle) hs1
  obtain ⟨es2, hB2, _⟩ := beside_step hD.minds hB1 hs2
  have hdry : Dry qh.fd (st w2.trace) := by
    obtain ⟨es, ht2, hg2, hev, _⟩ := reader_does (fun a => ⟨a, rfl⟩) hD h2
    rcases hev with ⟨_, qh', r, hq, rfl⟩ | hev
    · rw [hh1] at hq
      cases hq
      have hrun2 := Run.of_genuine hK hg2
      rw [← ht2] at hrun2
      cases r with
      | error n =>
        exfalso
        obtain ⟨d, hd⟩ := hH.recv w1.trace qh.fd (by rw [hi]; simp)
        cases hg2 with
        | cons ha _ =>
          have : Except.error n = (K.recv w1.trace qh.fd).map (fun d : List Byte => d.take w1.st.buf.len) := ha
          rw [hd] at this
          cases this
      | ok d =>
        obtain ⟨t1, n, rest, d', m, hin, _, _, m'⟩ := hrun2.got
        rw [m.inbox hno, hi] at hin
        cases hin
        have hno' : ∀ q, ¬ (t1.setInbox qh.fd []).Owns qh.fd q := fun q ho => hno q ((m.owns _ _).mp ho)
        exact Dry.meanwhile ⟨hno', setInbox_same _ _ _⟩ m'
    · exfalso
      simp only [rstep, GoM.bind_apply, getQ, Res.ok_bind, hh1] at h2
      rcases recvInto_spec K qh.fd w1.st.buf 0x100 w1 with ⟨n, h3⟩ | ⟨d, _, h3⟩
      · rw [h3] at h2
        cases h2
        simp only [List.append_cancel_left_eq] at ht2
        subst ht2
        obtain ⟨a, ha⟩ := hev _ List.mem_cons_self
        cases ha
      · rw [h3] at h2
        cases h2
        simp only [List.append_cancel_left_eq] at ht2
        subst ht2
        obtain ⟨a, ha⟩ := hev _ List.mem_cons_self
        cases ha
  obtain ⟨evs, hBs, hfin⟩ := stuck hD hK xs _ s _ hB2 (.inr ⟨rfl, hdry⟩) h
  exact ⟨evs, hBs.trace, hfin⟩

/-! Non-vacuity: queue 10 is started on a kernel to which no packets come. -/

/-- The kernel: another program has queue 5, no packets come. -/
abbrev calmKernel : Kernel QEv := queueKernel .little someQueues fun _ => []

/-- Its states. -/
abbrev calmState : List (Ev QEv) → KState := stateAfter .little someQueues fun _ => []

theorem someEnv_does (K : Kernel QEv) : Does IsApp someEnv K := fun w => ⟨[], (List.append_nil _).symm, .nil, by simp, rfl, rfl⟩

/-- A test of the result. -/
def passes (r : Res (Option Err × W)) (f : W → Bool) : Bool :=
  match r with
  | .ok (_, w) => f w
  | _ => false

theorem result_passes {r : Res (Option Err × W)} {f : W → Bool} {x : Option Err} {w : W} (h : passes r f = true) (hr : r = .ok (x, w)) : f w = true := by
  subst hr; exact h

theorem calm_test : passes (createAndStart someEnv (queueKernel .little someQueues fun _ => []) 10 100 50 (some 1) (some 2) 0 ⟨[], ⟨[]⟩, (newNFQueue ⟨[]⟩).1⟩)
    (fun w => ((calmState w.trace).queues 10).all fun k => decide (k.waiting = [])) = true := by decide +kernel

theorem calm_started : ∃ w qh k, createAndStart someEnv calmKernel 10 100 50 (some 1) (some 2) 0 ⟨[], ⟨[]⟩, (newNFQueue ⟨[]⟩).1⟩ = .ok (none, w) ∧
    w.st.handle = some qh ∧ (∃ d t p, .socket d t p (.ok qh.fd) ∈ w.trace) ∧ w.st.queueNum = 10 ∧ Ready w qh ∧ qh.buf.len = 76800 ∧
    (calmState w.trace).queues 10 = some k ∧ k.owner = .sock qh.fd ∧ Fine qh.fd (calmState w.trace) ∧
    (∀ q, (calmState w.trace).Owns qh.fd q → q = 10) ∧ (calmState w.trace).inbox qh.fd = [] := by
  have hK := queueKernel_keeps .little someQueues_untouched (fun _ => []) (fun _ => False)
  have hH := queueKernel_healthy .little someQueues fun _ => []
  obtain ⟨w, h⟩ := C131_works someEnv _ _ _ hK hH 10 100 50 (some 1) (some 2) 0 ⟨[], ⟨[]⟩, (newNFQueue ⟨[]⟩).1⟩ (fun h => h) rfl
  obtain ⟨evs, ht, _, hc⟩ := start_spec someEnv _ _ _ _ _ _ _ _ w _ h
  obtain ⟨⟨c1, _⟩, qh, hR, hm, hfr⟩ := hc rfl
  obtain ⟨g1, _, g3⟩ := C131_start someEnv _ _ _ hK _ _ _ _ _ _ _ w _ h
  obtain ⟨qh', k, a, b, c, _, _, _, f, e, _⟩ := g1 rfl
  have : qh' = qh := by
    have := hR.1
    rw [a] at this
    exact Option.some.inj this
  subst this
  have hw : k.waiting = [] := by
    have b' := result_passes calm_test h
    have b'' : (calmState w.trace).queues 10 = some k := b
    rw [b''] at b'
    simpa using b'
  refine ⟨w, qh', k, h, a, ⟨16, 3, 12, by rw [ht]; simpa using hm⟩, c1, hR, hfr.len _ hR.1, b, c, e, ?_, f hw⟩
  rintro q ⟨y, hy, hyo⟩
  by_cases hq : q = 10
  · exact hq
  · exfalso
    have := g3 q (fun h => h) (.inl hq)
    unfold KState.conf at this
    rw [hy] at this
    have h5 : stateAfter Endian.little someQueues (fun _ => []) ([] : List (Ev QEv)) = someQueues := rfl
    rw [h5] at this
    unfold someQueues at this
    simp only at this
    split at this
    · simp only [Option.map_some, Option.some.injEq] at this
      have := congrArg KQueue.owner this
      rw [show y.conf.owner = y.owner from rfl, hyo] at this
      cases this
    · cases this

/-- C139: stopped while its goroutine waits - the caller sends, receives, judges, and closes -, queue 10 is gone. -/
theorem C139_example : ∃ w s, createAndStart someEnv calmKernel 10 100 50 (some 1) (some 2) 0 ⟨[], ⟨[]⟩, (newNFQueue ⟨[]⟩).1⟩ = .ok (none, w) ∧
    bsched someEnv calmKernel .stop [false, false, false, false] ⟨.idle, .start, w⟩ = .ok s ∧ s.caller = .done none ∧
    (calmState s.w.trace).queues 10 = none := by
  have hK := queueKernel_keeps .little someQueues_untouched (fun _ => []) (fun _ => False)
  have hH := queueKernel_healthy .little someQueues fun _ => []
  obtain ⟨w, qh, k, h1, h2, h3, h4, h5, h6, h7, h8, h9, _, _⟩ := calm_started
  have hq : w.st.queueNum.toNat = 10 := by rw [h4]; rfl
  obtain ⟨w', h, _⟩ := C133_works someEnv _ _ _ hK hH w qh h5 h6 h3 k (by rw [hq]; exact h7) h8 h9
  have ha := asks_alone someEnv calmKernel .stop w
  simp only [Ask.run, h, Res.ok_bind] at ha
  have hs : ∀ n pc w pc' w', arun someEnv calmKernel .stop n pc w = .ok (pc', w') →
      bsched someEnv calmKernel .stop (List.replicate n false) ⟨.idle, pc, w⟩ = .ok ⟨.idle, pc', w'⟩ := by
    intro n
    induction n with
    | zero => intro pc w pc' w' h; cases h; rfl
    | succ n ih =>
      intro pc w pc' w' h
      simp only [arun, GoM.bind_apply] at h
      obtain ⟨⟨pc1, w1⟩, i1, i2⟩ := Res.bind_eq_ok.mp h
      simp only [List.replicate_succ, bsched, bstep, i1, Res.ok_bind]
      exact ih _ _ _ _ i2
  have hsch := hs 4 _ _ _ _ ha
  refine ⟨w, _, h1, hsch, rfl, ?_⟩
  have := ((C139_given_up someEnv calmKernel (someEnv_does _).minds _ _ hK w qh h2 k (by rw [hq]; exact h7) h8 .idle _ _ hsch).1 trivial).free (fun h => h)
  rw [hq] at this
  exact this

/-- C140: the hypotheses are met, so there the call waits for ever. -/
theorem C140_example : ∃ w qh, createAndStart someEnv calmKernel 10 100 50 (some 1) (some 2) 0 ⟨[], ⟨[]⟩, (newNFQueue ⟨[]⟩).1⟩ = .ok (none, w) ∧
    (∃ s, bsched someEnv calmKernel .stop [false, true] ⟨.idle, .start, w⟩ = .ok s) ∧
    ∀ xs s, bsched someEnv calmKernel .stop (false :: true :: xs) ⟨.idle, .start, w⟩ = .ok s →
      ∃ evs, s.w.trace = w.trace ++ evs ∧ (RecvFails qh.fd evs ∨ s.caller = .sent qh ∧ Dry qh.fd (calmState s.w.trace)) := by
  have hK := queueKernel_keeps .little someQueues_untouched (fun _ => []) (fun _ => False)
  have hH := queueKernel_healthy .little someQueues fun _ => []
  obtain ⟨w, qh, k, h1, h2, h3, h4, h5, h6, h7, h8, h9, h10, h11⟩ := calm_started
  have hq : w.st.queueNum.toNat = 10 := by rw [h4]; rfl
  refine ⟨w, qh, h1, C140_returns_violated someEnv calmKernel (someEnv_does _) _ _ hK hH w qh h2 h3 ?_ ?_ ?_⟩
  · rw [hq]; exact ⟨k, h7, h8⟩
  · rw [hq]; exact h10
  · intro b hb
    rw [hq] at hb
    have hop : qh.fd ∈ openedIn w.trace := by
      obtain ⟨d, t, p, h⟩ := h3
      exact List.mem_filterMap.mpr ⟨_, h, rfl⟩
    obtain ⟨_, _, _, hw, _⟩ := Encodes.decoded hb
    have hb : Encodes .little b (.unbindQueue 10) := hb
    have hw : wantsAck .little b = true := hw
    have hsv := serve_unbind hb (calmState w.trace) qh.fd
    rw [h7] at hsv
    simp only [h8, ne_eq, not_true_eq_false, if_false] at hsv
    rw [stateAfter_snoc]
    simp only [List.foldl_nil, KState.after, handedOver, hop, if_true]
    have : stateAfter .little someQueues (fun _ => []) w.trace = calmState w.trace := rfl
    rw [this, hsv]
    simp only [KState.answer, hw, or_true, if_true, setInbox_same]
    have : ({ (calmState w.trace).setQueue 10 none with out := (calmState w.trace).out ++ flushed 10 k } : KState).inbox qh.fd =
      (calmState w.trace).inbox qh.fd := rfl
    rw [this, h11]
    rfl

end Verif.Props
