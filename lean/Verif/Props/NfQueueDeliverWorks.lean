import Verif.Props.NfQueueDeliver
import Verif.Props.NfQueueKernelWorks
/-! C132: concrete cases, and what goes wrong in them. -/
namespace Verif.Props
open Verif.Common Verif.Sys Verif.Spec Verif.NfQueue

/-- Accept what begins with 1, with mark 11; drop the rest. -/
def somePolicy (b : List Byte) : U32 × U32 := if b.head? = some 1 then (1, 11) else (0, 0)

theorem somePolicy_valid : ValidPolicy somePolicy := by
  intro b
  unfold somePolicy
  split <;> decide

/-- A queue object before its first start. -/
def newWorld : W := ⟨[], ⟨[]⟩, (newNFQueue ⟨[]⟩).1⟩

/-- Three packets come to queue 10 when the reader has been started: one of three bytes, one of 60, one of two. -/
def lateScript (tr : List (Ev QEv)) : List (Nat × Pkt) :=
  match tr.getLast? with
  | some (.app .spawnReader) => [(10, ⟨1, 5, [1, 2, 3]⟩), (10, ⟨2, 0, List.replicate 60 1⟩), (10, ⟨3, 0, [9, 9]⟩)]
  | _ => []

/-- The kernel of that script. -/
abbrev lateKernel : Kernel QEv := queueKernel .little someQueues lateScript

/-- A packet comes to queue 10 as soon as it can. -/
def earlyScript (_ : List (Ev QEv)) : List (Nat × Pkt) := [(10, ⟨1, 0, [1, 2, 3, 4]⟩)]

/-- The kernel of that script. -/
abbrev earlyKernel : Kernel QEv := queueKernel .little someQueues earlyScript

/-- The three packets. -/
def threePackets : List Pkt := [⟨1, 5, [1, 2, 3]⟩, ⟨2, 0, List.replicate 60 1⟩, ⟨3, 0, [9, 9]⟩]

theorem late_started : ∃ w qh k, createAndStart (decideEnv someEnv lateKernel somePolicy) lateKernel 10 100 50 (some 1) (some 2) 0 newWorld = .ok (none, w) ∧
    w.st.handle = some qh ∧ (stateAfter .little someQueues lateScript w.trace).queues 10 = some k ∧ k.waiting = threePackets ∧
    (stateAfter .little someQueues lateScript w.trace).leftFrom 10 = [] ∧
    (stateAfter .little someQueues lateScript w.trace).inbox qh.fd = threePackets.map (Pkt.note 50) := by
  have h : (match createAndStart (decideEnv someEnv lateKernel somePolicy) lateKernel 10 100 50 (some 1) (some 2) 0 newWorld with
    | .ok (none, w) => (match w.st.handle, (stateAfter .little someQueues lateScript w.trace).queues 10 with
      | some qh, some k => decide (k.waiting = threePackets ∧ (stateAfter .little someQueues lateScript w.trace).leftFrom 10 = [] ∧
        (stateAfter .little someQueues lateScript w.trace).inbox qh.fd = threePackets.map (Pkt.note 50))
      | _, _ => false)
    | _ => false) = true := by decide +kernel
  split at h
  · rename_i w hw
    split at h
    · rename_i qh k h1 h2
      obtain ⟨h3, h4⟩ := of_decide_eq_true h
      exact ⟨w, qh, k, hw, h1, h2, h3, h4⟩
    · cases h
  · cases h

/-- A packet that comes as early as it can. -/
theorem early_started : ∃ w qh k, createAndStart (decideEnv someEnv earlyKernel somePolicy) earlyKernel 10 100 50 (some 1) (some 2) 0 newWorld = .ok (none, w) ∧
    w.st.handle = some qh ∧ (stateAfter .little someQueues earlyScript w.trace).queues 10 = some k ∧ k.waiting = [⟨1, 0, [1, 2, 3, 4]⟩] ∧
    (stateAfter .little someQueues earlyScript w.trace).inbox qh.fd = [.ack 0] := by
  have h : (match createAndStart (decideEnv someEnv earlyKernel somePolicy) earlyKernel 10 100 50 (some 1) (some 2) 0 newWorld with
    | .ok (none, w) => (match w.st.handle, (stateAfter .little someQueues earlyScript w.trace).queues 10 with
      | some qh, some k => decide (k.waiting = [⟨1, 0, [1, 2, 3, 4]⟩] ∧ (stateAfter .little someQueues earlyScript w.trace).inbox qh.fd = [.ack 0])
      | _, _ => false)
    | _ => false) = true := by decide +kernel
  split at h
  · rename_i w hw
    split at h
    · rename_i qh k h1 h2
      obtain ⟨h3, h4⟩ := of_decide_eq_true h
      exact ⟨w, qh, k, hw, h1, h2, h3, h4⟩
    · cases h
  · cases h

/-- Without cancellation the loop does not end. -/
theorem never_done {env : Env} {K : Kernel QEv} (h : ∀ tr, env.ctxDone tr = false) (n : Nat) :
    ∀ (w w' : W) (fin : Bool), processPackets env K n w = .ok (fin, w') → fin = false := by
  induction n with
  | zero =>
    intro w w' fin hr
    cases hr
    rfl
  | succ n ih =>
    intro w w' fin hr
    unfold processPackets at hr
    simp only [GoM.bind_apply, processIter, h, Bool.false_eq_true, if_false] at hr
    cases hx : receiveOne env K w with
    | ok x =>
      simp only [hx, Res.ok_bind, GoM.pure_apply, Bool.false_eq_true, if_false] at hr
      exact ih _ _ _ hr
    | panic => rw [hx] at hr; cases hr
    | diverge => rw [hx] at hr; cases hr

/-- C132, a concrete case: queue 10, copy range 50; three packets wait when the start returns; after three turns they have left, as decided. -/
theorem C132_example : ∃ w w' k rest, createAndStart (decideEnv someEnv lateKernel somePolicy) lateKernel 10 100 50 (some 1) (some 2) 0 newWorld =
      .ok (none, w) ∧ (stateAfter .little someQueues lateScript w.trace).queues 10 = some k ∧ k.waiting = threePackets ∧
    processPackets (decideEnv someEnv lateKernel somePolicy) lateKernel 3 w = .ok (false, w') ∧
    (stateAfter .little someQueues lateScript w'.trace).leftFrom 10 =
      [⟨10, ⟨1, 11, [1, 2, 3]⟩, 1⟩, ⟨10, ⟨2, 11, List.replicate 50 1⟩, 1⟩, ⟨10, ⟨3, 0, [9, 9]⟩, 0⟩] ++ rest := by
  obtain ⟨w, qh, k, h1, h2, h3, h4, h5, h6⟩ := late_started
  have hK : Keeps someEnv.e (fun _ => False) lateKernel _ := queueKernel_keeps .little someQueues_untouched lateScript (fun _ => False)
  have hH := queueKernel_healthy .little someQueues lateScript
  obtain ⟨_, _, _, _, _, hs⟩ := C132_serves someEnv lateKernel _ _ hK somePolicy somePolicy_valid 10 100 50 1 2 0 newWorld w qh k h1 h2 h3 (.inl rfl)
  obtain ⟨fin, w', _, _, _, _, _, _, hp, _⟩ := hs 3
  have hf := never_done (env := decideEnv someEnv lateKernel somePolicy) (fun _ => rfl) 3 _ _ _ hp
  subst hf
  obtain ⟨missed, first, m1, _, m3, ha⟩ := C132_all someEnv lateKernel _ _ hK hH somePolicy somePolicy_valid 10 100 50 1 2 0 newWorld w qh k h1 h2 h3
    (.inl rfl)
  have hm : missed = [] := by
    cases missed with
    | nil => rfl
    | cons p l =>
      have := m3 (by simp)
      rw [h6] at this
      simp [threePackets, Pkt.note] at this
  subst hm
  rw [List.nil_append, h4] at m1
  subst m1
  obtain ⟨new, i, k', _, a2, _, _, a5⟩ := ha 3 w' hp
  have hi : 3 ≤ i := by rcases a5 with a5 | a5 <;> simpa [threePackets] using a5
  have a2' := a2
  rw [List.take_append, List.take_of_length_le (by simpa [threePackets] using hi), List.map_append] at a2'
  refine ⟨w, w', k, (new.take (i - threePackets.length)).map (decided somePolicy 10 (clip 50)), h1, h3, h4, hp, ?_⟩
  have e10 : (10 : U16).toNat = 10 := rfl
  have e50 : (50 : U32).toNat = 50 := rfl
  rw [e10, e50] at a2'
  rw [a2', h5]
  rfl

/-- C132 is violated: a packet that is longer than the copy range and accepted leaves the queue cut (here to 50 of 60 bytes). -/
theorem C132_cut_violated : ∃ w w' k, createAndStart (decideEnv someEnv lateKernel somePolicy) lateKernel 10 100 50 (some 1) (some 2) 0 newWorld =
      .ok (none, w) ∧ (stateAfter .little someQueues lateScript w.trace).queues 10 = some k ∧ ⟨2, 0, List.replicate 60 1⟩ ∈ k.waiting ∧
    processPackets (decideEnv someEnv lateKernel somePolicy) lateKernel 3 w = .ok (false, w') ∧
    ⟨10, ⟨2, 11, List.replicate 50 1⟩, 1⟩ ∈ (stateAfter .little someQueues lateScript w'.trace).out := by
  obtain ⟨w, w', k, rest, h1, h2, h3, h4, h5⟩ := C132_example
  refine ⟨w, w', k, h1, h2, by rw [h3]; simp [threePackets], h4, ?_⟩
  have : (⟨10, ⟨2, 11, List.replicate 50 1⟩, 1⟩ : Gone) ∈ (stateAfter .little someQueues lateScript w'.trace).leftFrom 10 := by
    rw [h5]; simp
  exact (List.mem_filter.mp this).1

/-- C132 is violated: the packet that comes as early as it can is taken for the acknowledgement of the next request: the start returns
nil, and whatever number of turns later the packet still waits. -/
theorem C132_missed_violated : ∃ w, createAndStart (decideEnv someEnv earlyKernel somePolicy) earlyKernel 10 100 50 (some 1) (some 2) 0 newWorld =
      .ok (none, w) ∧ ∀ n, ∃ w' k', processPackets (decideEnv someEnv earlyKernel somePolicy) earlyKernel n w = .ok (false, w') ∧
    (stateAfter .little someQueues earlyScript w'.trace).queues 10 = some k' ∧ ⟨1, 0, [1, 2, 3, 4]⟩ ∈ k'.waiting := by
  obtain ⟨w, qh, k, h1, h2, h3, h4, h5⟩ := early_started
  have hK : Keeps someEnv.e (fun _ => False) earlyKernel _ := queueKernel_keeps .little someQueues_untouched earlyScript (fun _ => False)
  obtain ⟨missed, first, m1, _, _, hs⟩ := C132_serves someEnv earlyKernel _ _ hK somePolicy somePolicy_valid 10 100 50 1 2 0 newWorld w qh k h1 h2 h3
    (.inl rfl)
  have hm : missed = [⟨1, 0, [1, 2, 3, 4]⟩] := by
    rw [h4] at m1
    cases missed with
    | nil =>
      rw [List.nil_append] at m1
      subst m1
      obtain ⟨fin, w', evs, del, new, pend, s', k', a1, a2, a3, a4, a5, a6, a7, a8, a9, a10, a11, a12, _⟩ := hs 0
      cases a1
      obtain rfl := a12 rfl
      rw [h5] at a11
      have hp : pend = [] := by
        cases pend with
        | nil => rfl
        | cons p l => cases a11
      have hd : del = [] := by
        have h0 : evs = [] := by simpa using a2.symm
        rw [h0] at a5
        cases del with
        | nil => rfl
        | cons p l => cases a5
      rw [hp, hd] at a4
      cases a4
    | cons p l =>
      have := congrArg List.length m1
      simp only [List.length_cons, List.length_append, List.length_nil] at this
      have hl : l = [] := List.length_eq_zero_iff.mp (by omega)
      subst hl
      simp only [List.cons_append, List.nil_append, List.cons.injEq] at m1
      rw [m1.1]
  refine ⟨w, h1, fun n => ?_⟩
  obtain ⟨fin, w', evs, del, new, pend, s', k', a1, a2, a3, a4, a5, a6, a7, a8, a9, a10, a11, a12, _⟩ := hs n
  have hf := never_done (env := decideEnv someEnv earlyKernel somePolicy) (fun _ => rfl) n _ _ _ a1
  subst hf
  obtain rfl := a12 rfl
  exact ⟨w', k', a1, a8, by rw [a10, hm]; simp⟩

end Verif.Props
