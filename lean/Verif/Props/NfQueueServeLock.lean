import Verif.Props.NfQueueServe
import Verif.Props.NfQueueLock
/-!
C100, completion of verdict calls of both kinds beside the reader, when the application holds a mutex around `SetVerdict2`.
-/
namespace Verif.Props
open Verif.Common Verif.Sys Verif.Spec Verif.NfQueue

/-- A stretch of turns either lets no verdict goroutine do anything, and none of those that had a turn could, or leaves
fewer steps to do. -/
theorem cround_counts {X : Ctx} (hc : Calls X) (env : Env) (he : env.e = X.e) (hidle : ∀ w, env.cbEffect w = w)
    (K : Kernel QEv) {qh : Handle} {cb ecb priv size : Nat} {w0 : W}
    (hK : ∀ evs d, K.recv (w0.trace ++ evs) qh.fd = .ok d → Decent env.e (d.take size)) (is : List (Option Nat)) :
    ∀ {w : W} {pc : RPc} {pcs : Nat → Pc} {order : List Nat} {ts : List (List (Ev QEv))} {pend log : List (Ev QEv)} {n : Nat},
    w.trace = w0.trace ++ log → CInv X env.e qh cb ecb priv size w0 w pc pcs order ts pend log n →
    ∃ (pc' : RPc) (pcs' : Nat → Pc) (w' : W) (order' : List Nat) (ts' : List (List (Ev QEv))) (pend' log' : List (Ev QEv))
      (n' : Nat),
      csched env K true X.calls is (pc, pcs) w = .ok ((pc', pcs'), w') ∧ w'.trace = w0.trace ++ log' ∧
      CInv X env.e qh cb ecb priv size w0 w' pc' pcs' order' ts' pend' log' n' ∧
      ((pcs' = pcs ∧ ∀ j, some j ∈ is → Halted X.calls pcs j) ∨ leftAll X.calls pcs' + 1 ≤ leftAll X.calls pcs) := by
  induction is with
  | nil =>
    intro w pc pcs order ts pend log n ht inv
    exact ⟨pc, pcs, w, order, ts, pend, log, n, rfl, ht, inv, .inl ⟨rfl, by simp⟩⟩
  | cons i is ih =>
    intro w pc pcs order ts pend log n ht inv
    obtain ⟨pc1, pcs1, w1, o1, t1, d1, es, h1, ht1, inv1, _⟩ :=
      cinv_step hc env he hidle K true (.inl rfl) (fun d hd => hK log d (ht ▸ hd)) inv i
    obtain ⟨p2, q2, w2, o2, t2, d2, l2, n2, h2, ht2, inv2, hr⟩ := ih (by rw [ht1, ht, List.append_assoc]) inv1
    refine ⟨p2, q2, w2, o2, t2, d2, l2, n2, bind_of_eq h1 h2, ht2, inv2, ?_⟩
    cases i with
    | none =>
      have hsame : pcs1 = pcs := by
        simp only [cstep, GoM.bind_apply] at h1
        obtain ⟨⟨a, b⟩, _, h3⟩ := Res.bind_eq_ok.mp h1
        simp only [GoM.pure_apply, Res.ok.injEq, Prod.mk.injEq] at h3
        exact h3.1.2.symm
      subst hsame
      rcases hr with ⟨e, ha⟩ | hr
      · refine .inl ⟨e, fun j hj => ha j ?_⟩
        rcases List.mem_cons.mp hj with hj | hj
        · cases hj
        · exact hj
      · exact .inr hr
    | some i =>
      have hs : ∃ w3, schedStep env K true X.calls i pcs w = .ok (pcs1, w3) := by
        simp only [cstep, GoM.bind_apply] at h1
        obtain ⟨⟨a, b⟩, h3, h4⟩ := Res.bind_eq_ok.mp h1
        simp only [GoM.pure_apply, Res.ok.injEq, Prod.mk.injEq] at h4
        exact ⟨b, by rw [h3, h4.1.2]⟩
      obtain ⟨w3, hs⟩ := hs
      rcases turn_counts hc env he K inv.g hs with ⟨rfl, _, hh⟩ | hlt
      · rcases hr with ⟨e, ha⟩ | hr
        · refine .inl ⟨e, fun j hj => ?_⟩
          rcases List.mem_cons.mp hj with hj | hj
          · cases hj; exact hh
          · exact ha j hj
        · exact .inr hr
      · right
        rcases hr with ⟨rfl, _⟩ | hr <;> omega

theorem csched_append (env : Env) (K : Kernel QEv) (lock : Bool) (calls : List VCall) : ∀ (a b : List (Option Nat))
    (s : RPc × (Nat → Pc)) (w : W), csched env K lock calls (a ++ b) s w =
      (csched env K lock calls a s w).bind fun x => csched env K lock calls b x.1 x.2 := by
  intro a b
  induction a with
  | nil => intro s w; rfl
  | cons x xs iha =>
    intro s w
    simp only [List.cons_append, csched, GoM.bind_apply]
    rcases cstep env K lock calls x s w with ⟨s', w'⟩ | _ | _
    · exact iha s' w'
    · rfl
    · rfl

/-- Finished goroutines stay finished. -/
theorem done_stays {calls : List VCall} (env : Env) (K : Kernel QEv) (lock : Bool) :
    ∀ (is : List (Option Nat)) {pc pc' : RPc} {pcs pcs' : Nat → Pc} {w w' : W},
    csched env K lock calls is (pc, pcs) w = .ok ((pc', pcs'), w') → ∀ i, pcs i = .done → pcs' i = .done := by
  intro is
  induction is with
  | nil =>
    intro pc pc' pcs pcs' w w' h i hi
    simp only [csched, GoM.pure_apply, Res.ok.injEq, Prod.mk.injEq] at h
    rw [← h.1.2]; exact hi
  | cons x xs ih =>
    intro pc pc' pcs pcs' w w' h i hi
    simp only [csched, GoM.bind_apply] at h
    obtain ⟨⟨⟨pc1, pcs1⟩, w1⟩, h1, h2⟩ := Res.bind_eq_ok.mp h
    refine ih h2 i ?_
    cases x with
    | none =>
      simp only [cstep, GoM.bind_apply] at h1
      obtain ⟨⟨a, b⟩, _, h3⟩ := Res.bind_eq_ok.mp h1
      simp only [GoM.pure_apply, Res.ok.injEq, Prod.mk.injEq] at h3
      rw [← h3.1.2]; exact hi
    | some j =>
      simp only [cstep, GoM.bind_apply] at h1
      obtain ⟨⟨a, b⟩, h3, h4⟩ := Res.bind_eq_ok.mp h1
      simp only [GoM.pure_apply, Res.ok.injEq, Prod.mk.injEq] at h4
      rw [← h4.1.2]
      unfold schedStep at h3
      cases hj : calls[j]? with
      | none =>
        simp only [hj, GoM.pure_apply, Res.ok.injEq, Prod.mk.injEq] at h3
        rw [← h3.1]; exact hi
      | some d =>
        simp only [hj] at h3
        split at h3
        · simp only [GoM.pure_apply, Res.ok.injEq, Prod.mk.injEq] at h3
          rw [← h3.1]; exact hi
        · simp only [GoM.bind_apply] at h3
          obtain ⟨⟨pc2, w2⟩, h5, h6⟩ := Res.bind_eq_ok.mp h3
          simp only [GoM.pure_apply, Res.ok.injEq, Prod.mk.injEq] at h6
          rw [← h6.1]
          by_cases hij : i = j
          · subst hij
            have hv : vstep env K d .done = pure Pc.done := by cases d <;> rfl
            rw [hi, hv] at h5
            simp only [GoM.pure_apply, Res.ok.injEq, Prod.mk.injEq] at h5
            simp [h5.1]
          · simp [hij, hi]

/-- C100, completion with the mutex: beside a reader that never stops receiving, no verdict call of either kind waits
forever.  Any schedule of at least nine rounds per call, in each of which every verdict goroutine gets at least one turn
(among any number of turns of the reader and of the others), lets every call finish. -/
theorem C100_lock_completes (env : Env) (hidle : ∀ w, env.cbEffect w = w) (K : Kernel QEv)
    (calls : List VCall) (w : W) (qh : Handle) (cb ecb priv size : Nat)
    (hS : Setup w qh cb ecb priv size) (hO : AttrsOk w) (hA : Apart w calls)
    (hok : ∀ c ∈ calls, c.Ok w.heap w.st.hdrSlice) (hsep : ∀ c ∈ calls, ∀ d ∈ calls, Sep c d) (h20 : 20 ≤ size)
    (hK : ∀ evs d, K.recv (w.trace ++ evs) qh.fd = .ok d → Decent env.e (d.take size))
    (rounds : List (List (Option Nat))) (hr : ∀ r ∈ rounds, ∀ i, i < calls.length → some i ∈ r)
    (hn : 9 * calls.length ≤ rounds.length) :
    ∃ pc pcs w', csched env K true calls rounds.flatten (.idle, allStart) w = .ok ((pc, pcs), w') ∧
      ∀ i, i < calls.length → pcs i = .done := by
  obtain ⟨hc, i0⟩ := cinv_init (env := env) hS hO hA hok hsep h20
  have key : ∀ (rounds : List (List (Option Nat))), (∀ r ∈ rounds, ∀ i, i < calls.length → some i ∈ r) →
      ∀ {w1 : W} {pc : RPc} {pcs : Nat → Pc} {order : List Nat} {ts : List (List (Ev QEv))} {pend log : List (Ev QEv)} {n : Nat},
      w1.trace = w.trace ++ log →
      CInv (soloCtx env w calls (some w.st.buf.arr)) env.e qh cb ecb priv size w w1 pc pcs order ts pend log n →
      leftAll calls pcs ≤ rounds.length →
      ∃ pc' pcs' w', csched env K true calls rounds.flatten (pc, pcs) w1 = .ok ((pc', pcs'), w') ∧
        ∀ i, i < calls.length → pcs' i = .done := by
    intro rounds
    induction rounds with
    | nil =>
      intro _ w1 pc pcs order ts pend log n _ inv hle
      refine ⟨pc, pcs, w1, rfl, fun i hi => ?_⟩
      have h0 : leftAll calls pcs = 0 := by simpa using hle
      have hz : leftOf calls pcs i = 0 := sum_range_zero h0 hi
      have hg : calls[i]? = some calls[i] := List.getElem?_eq_getElem hi
      rcases Classical.em (pcs i = .done) with hd | hd
      · exact hd
      · obtain ⟨pc', w2, hs, st⟩ := step_ok hc (List.mem_of_getElem? hg) inv.g.winv env rfl K hd (inv.g.tinv i calls[i] hg)
        have := st.rank
        unfold leftOf at hz
        rw [hg] at hz
        simp only at hz
        omega
    | cons r rs ih =>
      intro hr w1 pc pcs order ts pend log n ht inv hle
      obtain ⟨pc1, pcs1, w2, o1, t1, d1, l1, n1, h1, ht1, inv1, hlt⟩ := cround_counts hc env rfl hidle K hK r ht inv
      have h1 : csched env K true calls r (pc, pcs) w1 = .ok ((pc1, pcs1), w2) := h1
      rcases hlt with ⟨rfl, hh⟩ | hlt
      · have hd := fun i (hi : i < calls.length) =>
          halted_done (calls := calls) (fun j hj => hh j (hr r List.mem_cons_self j hj)) hi
        obtain ⟨pc3, pcs3, w3, o3, t3, d3, l3, n3, h3, _, _, _⟩ := cround_counts hc env rfl hidle K hK rs.flatten ht1 inv1
        have h3 : csched env K true calls rs.flatten (pc1, pcs1) w2 = .ok ((pc3, pcs3), w3) := h3
        refine ⟨pc3, pcs3, w3, ?_, fun i hi => done_stays env K true _ h3 i (hd i hi)⟩
        rw [List.flatten_cons, csched_append, h1]
        exact h3
      · have hlt : leftAll calls pcs1 + 1 ≤ leftAll calls pcs := hlt
        obtain ⟨pc3, pcs3, w3, h3, hd⟩ := ih (fun r h => hr r (List.mem_cons_of_mem _ h)) ht1 inv1
          (by simp only [List.length_cons] at hle; omega)
        refine ⟨pc3, pcs3, w3, ?_, hd⟩
        rw [List.flatten_cons, csched_append, h1]
        exact h3
  exact key rounds hr (by simp) i0 (Nat.le_trans (leftAll_start calls) hn)

/-- C100, a concrete case of completion with the mutex: two verdict calls that pass a copy of the packet, nine rounds for
each of them, the reader's turns between theirs. -/
example : ∃ pc pcs w', csched someEnv packetKernel true copied (List.replicate 18 [none, some 1, none, some 0]).flatten
      (.idle, allStart) servingWorld = .ok ((pc, pcs), w') ∧ copied.length = 2 ∧
      ∀ i, i < copied.length → pcs i = .done := by
  obtain ⟨hS, hO, hA, hok, hsep⟩ := serving_ok
  have hK : ∀ evs d, packetKernel.recv (servingWorld.trace ++ evs) 3 = .ok d → Decent .little (d.take 64) := by
    intro evs d hd
    have hd' : d = dgram1 := (Except.ok.inj hd).symm
    rw [hd', show dgram1.take 64 = dgram1 by decide]
    obtain ⟨attrs, p, hc, h4, _⟩ := dgram1_msg
    exact (carries_proper hc h4).decent
  obtain ⟨pc, pcs, w', h1, h2⟩ := C100_lock_completes someEnv (fun _ => rfl) packetKernel copied servingWorld ⟨3, Slice.nil⟩ 1 2
    3 64 hS hO hA hok hsep (by decide) hK (List.replicate 18 [none, some 1, none, some 0])
    (by
      intro r hr i hi
      rw [List.eq_of_mem_replicate hr]
      match i, hi with
      | 0, _ => simp
      | 1, _ => simp)
    (by decide)
  exact ⟨pc, pcs, w', h1, rfl, h2⟩

end Verif.Props
