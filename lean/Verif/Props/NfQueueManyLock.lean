import Verif.Props.NfQueueManyStart
import Verif.Props.NfQueueLock
/-!
C117, completion of verdict calls of both kinds on one queue of several, when the application holds that queue's mutex around
`SetVerdict2`.
-/
namespace Verif.Props
open Verif.Common Verif.Sys Verif.Spec Verif.NfQueue

variable {env : Env} {w0 : MW} {n : Nat} {qh : Nat → Handle} {cb ecb priv size : Nat → Nat} {calls : Nat → List VCall}

/-- One turn: the verdict goroutines of queue `j` are where they were, and if one of them had the turn it could do nothing; or
they have fewer steps to do. -/
theorem mturn_counts (T : Together w0 n qh cb ecb priv size calls) (K : Kernel QEv) (lock : Nat → Bool)
    {j : Nat} (hj : j < n) (hlock : lock j = true)
    {w w1 : MW} {s s1 : MPc} {order : Nat → List Nat} {ts : Nat → List (List (Ev QEv))} {pend : Nat → List (Ev QEv)}
    {log l : List (Nat × Ev QEv)} {cnt : Nat → Nat}
    (inv : MInv env w0 n qh cb ecb priv size calls w s order ts pend log cnt) {x : Nat × Option Nat}
    (h : mstep env K n lock calls x s w = .ok ((s1, l), w1)) :
    ((s1 j).2 = (s j).2 ∧ ∀ i, x = (j, some i) → Halted (calls j) (s j).2 i) ∨
      leftAll (calls j) (s1 j).2 + 1 ≤ leftAll (calls j) (s j).2 := by
  obtain ⟨k, o⟩ := x
  unfold mstep at h
  by_cases hk : k < n
  · rw [if_pos hk] at h
    simp only at h
    rcases hc : cstep env K (lock k) (calls k) o (s k) (w.view k) with ⟨s', v⟩ | _ | _
    · rw [hc] at h
      simp only [Res.ok.injEq, Prod.mk.injEq] at h
      obtain ⟨⟨rfl, _⟩, _⟩ := h
      by_cases hjk : j = k
      · subst hjk
        simp only [if_true]
        cases o with
        | none =>
          left
          simp only [cstep, GoM.bind_apply] at hc
          obtain ⟨⟨a, b⟩, _, h3⟩ := Res.bind_eq_ok.mp hc
          simp only [GoM.pure_apply, Res.ok.injEq, Prod.mk.injEq] at h3
          exact ⟨by rw [← h3.1], fun i hi => by simp at hi⟩
        | some i =>
          simp only [cstep, GoM.bind_apply, hlock] at hc
          obtain ⟨⟨a, b⟩, h3, h4⟩ := Res.bind_eq_ok.mp hc
          simp only [GoM.pure_apply, Res.ok.injEq, Prod.mk.injEq] at h4
          rw [← h4.1]
          rcases turn_counts (T.callsOk (env := env) hj) env rfl K (inv.each j hj).g h3 with ⟨e, _, hh⟩ | hlt
          · refine .inl ⟨e, fun i' hi' => ?_⟩
            simp only [Prod.mk.injEq, true_and, Option.some.injEq] at hi'
            subst hi'
            exact hh
          · right
            have hlt : leftAll (calls j) a + 1 = leftAll (calls j) (s j).2 := hlt
            simp only
            omega
      · left
        simp only [hjk, if_false]
        exact ⟨trivial, fun i hi => by simp only [Prod.mk.injEq] at hi; exact absurd hi.1.symm hjk⟩
    · rw [hc] at h; simp at h
    · rw [hc] at h; simp at h
  · rw [if_neg hk] at h
    simp only [Res.ok.injEq, Prod.mk.injEq] at h
    obtain ⟨⟨rfl, _⟩, _⟩ := h
    left
    exact ⟨rfl, fun i hi => by simp only [Prod.mk.injEq] at hi; omega⟩

theorem mround_counts (T : Together w0 n qh cb ecb priv size calls) (hidle : ∀ w, env.cbEffect w = w) (K : Kernel QEv)
    (lock : Nat → Bool) (hl : ∀ j, j < n → lock j = true ∨ ∀ c ∈ calls j, c.isV2 = false)
    (hK : ∀ j, j < n → ∀ evs d, K.recv (w0.trace ++ evs) (qh j).fd = .ok d → Decent env.e (d.take (size j)))
    {j : Nat} (hj : j < n) (hlock : lock j = true) (is : List (Nat × Option Nat)) :
    ∀ {w : MW} {s : MPc} {order : Nat → List Nat} {ts : Nat → List (List (Ev QEv))} {pend : Nat → List (Ev QEv)}
    {log : List (Nat × Ev QEv)} {cnt : Nat → Nat},
    MInv env w0 n qh cb ecb priv size calls w s order ts pend log cnt →
    ∃ (s' : MPc) (l : List (Nat × Ev QEv)) (w' : MW) (order' : Nat → List Nat) (ts' : Nat → List (List (Ev QEv)))
      (pend' : Nat → List (Ev QEv)) (cnt' : Nat → Nat), msched env K n lock calls is s w = .ok ((s', l), w') ∧
      MInv env w0 n qh cb ecb priv size calls w' s' order' ts' pend' (log ++ l) cnt' ∧
      (((s' j).2 = (s j).2 ∧ ∀ i, (j, some i) ∈ is → Halted (calls j) (s j).2 i) ∨
        leftAll (calls j) (s' j).2 + 1 ≤ leftAll (calls j) (s j).2) := by
  induction is with
  | nil =>
    intro w s order ts pend log cnt inv
    exact ⟨s, [], w, order, ts, pend, cnt, rfl, by simpa using inv, .inl ⟨rfl, by simp⟩⟩
  | cons x is ih =>
    intro w s order ts pend log cnt inv
    obtain ⟨s1, l1, w1, o1, t1, p1, h1, i1⟩ := minv_step T hidle K lock hl hK inv x
    obtain ⟨s2, l2, w2, o2, t2, p2, c2, h2, i2, hr⟩ := ih i1
    refine ⟨s2, l1 ++ l2, w2, o2, t2, p2, c2, ?_, ?_, ?_⟩
    · show (mstep env K n lock calls x s w >>= _) = _
      rw [h1]
      show (msched env K n lock calls is s1 w1 >>= _) = _
      rw [h2]; rfl
    · rw [← List.append_assoc]; exact i2
    · rcases mturn_counts T K lock hj hlock inv h1 with ⟨e1, g1⟩ | hlt
      · rcases hr with ⟨e2, g2⟩ | hr
        · refine .inl ⟨e2.trans e1, fun i hi => ?_⟩
          rcases List.mem_cons.mp hi with hi | hi
          · exact g1 i hi.symm
          · rw [← e1]; exact g2 i hi
        · right; rw [← e1]; exact hr
      · right
        rcases hr with ⟨e2, _⟩ | hr
        · rw [e2]; exact hlt
        · omega

theorem msched_append (K : Kernel QEv) (lock : Nat → Bool) : ∀ (a b : List (Nat × Option Nat)) (s : MPc) (w : MW)
    {s1 s2 : MPc} {l1 l2 : List (Nat × Ev QEv)} {w1 w2 : MW}, msched env K n lock calls a s w = .ok ((s1, l1), w1) →
    msched env K n lock calls b s1 w1 = .ok ((s2, l2), w2) →
    msched env K n lock calls (a ++ b) s w = .ok ((s2, l1 ++ l2), w2) := by
  intro a b
  induction a with
  | nil =>
    intro s w s1 s2 l1 l2 w1 w2 h1 h2
    simp only [msched, GoM.pure_apply, Res.ok.injEq, Prod.mk.injEq] at h1
    obtain ⟨⟨rfl, rfl⟩, rfl⟩ := h1
    exact h2
  | cons x xs ih =>
    intro s w s1 s2 l1 l2 w1 w2 h1 h2
    simp only [msched, GoM.bind_apply] at h1
    obtain ⟨⟨⟨s3, l3⟩, w3⟩, h3, h4⟩ := Res.bind_eq_ok.mp h1
    simp only at h4
    obtain ⟨⟨⟨s4, l4⟩, w4⟩, h5, h6⟩ := Res.bind_eq_ok.mp h4
    simp only [GoM.pure_apply, Res.ok.injEq, Prod.mk.injEq] at h6
    obtain ⟨⟨rfl, rfl⟩, rfl⟩ := h6
    have h7 := ih s3 w3 h5 h2
    simp only [List.cons_append, msched, GoM.bind_apply, h3, Res.ok_bind, h7, GoM.pure_apply, List.append_assoc]

/-- When no step was left to do, none is later, and so every goroutine is finished. -/
theorem mdone_stays (T : Together w0 n qh cb ecb priv size calls) (K : Kernel QEv)
    {w' : MW} {s s' : MPc} {order' : Nat → List Nat} {ts' : Nat → List (List (Ev QEv))}
    {pend' : Nat → List (Ev QEv)} {log : List (Nat × Ev QEv)} {cnt' : Nat → Nat}
    (inv' : MInv env w0 n qh cb ecb priv size calls w' s' order' ts' pend' log cnt')
    {j : Nat} (hj : j < n)
    (hle : leftAll (calls j) (s' j).2 ≤ leftAll (calls j) (s j).2) (hz : leftAll (calls j) (s j).2 = 0)
    {i : Nat} (hi : i < (calls j).length) : (s' j).2 i = .done := by
  have hz' : leftOf (calls j) (s' j).2 i = 0 := sum_range_zero (by omega : leftAll (calls j) (s' j).2 = 0) hi
  have hg : (calls j)[i]? = some (calls j)[i] := List.getElem?_eq_getElem hi
  rcases Classical.em ((s' j).2 i = .done) with hd | hd
  · exact hd
  · obtain ⟨pc', w2, hs, st⟩ := step_ok (T.callsOk (env := env) hj) (List.mem_of_getElem? hg) (inv'.each j hj).g.winv env rfl K hd
      ((inv'.each j hj).g.tinv i (calls j)[i] hg)
    have := st.rank
    unfold leftOf at hz'
    rw [hg] at hz'
    simp only at hz'
    omega

theorem leftAll_done {calls : List VCall} {pcs : Nat → Pc} (h : ∀ i, i < calls.length → pcs i = .done) :
    leftAll calls pcs = 0 := by
  have hi : ∀ i, leftOf calls pcs i = 0 := by
    intro i
    unfold leftOf
    cases hg : calls[i]? with
    | none => rfl
    | some c =>
      have hlt := (List.getElem?_eq_some_iff.mp hg).1
      rw [h i hlt]
      simp [rank]
  unfold leftAll
  have : (List.range calls.length).map (leftOf calls pcs) = (List.range calls.length).map (fun _ => 0) :=
    List.map_congr_left fun i _ => hi i
  rw [this]
  generalize List.range calls.length = l
  induction l with
  | nil => rfl
  | cons a l ih => simpa using ih

/-- C117, completion with the mutex: verdict calls of either kind on one queue wait neither for that queue's reader nor for any
other queue.  Any schedule of at least nine rounds per call of queue `j`, in each of which every verdict goroutine of queue `j`
gets at least one turn (among any number of turns of all the other goroutines of the process), lets each of them finish. -/
theorem C117_lock_completes (env : Env) (hidle : ∀ w, env.cbEffect w = w) (K : Kernel QEv) (n : Nat)
    (lock : Nat → Bool) (calls : Nat → List VCall) (w : MW) (qh : Nat → Handle) (cb ecb priv size : Nat → Nat)
    (T : Together w n qh cb ecb priv size calls)
    (hl : ∀ j, j < n → lock j = true ∨ ∀ c ∈ calls j, c.isV2 = false)
    (hK : ∀ j, j < n → ∀ evs d, K.recv (w.trace ++ evs) (qh j).fd = .ok d → Decent env.e (d.take (size j)))
    (j : Nat) (hj : j < n) (hlock : lock j = true)
    (rounds : List (List (Nat × Option Nat))) (hr : ∀ r ∈ rounds, ∀ i, i < (calls j).length → (j, some i) ∈ r)
    (hn : 9 * (calls j).length ≤ rounds.length) :
    ∃ s log w', msched env K n lock calls rounds.flatten allIdle w = .ok ((s, log), w') ∧
      ∀ i, i < (calls j).length → (s j).2 i = .done := by
  have i0 : MInv env w n qh cb ecb priv size calls w allIdle (fun _ => []) (fun _ => []) (fun _ => []) [] (fun _ => 0) :=
    ⟨by simp, fun j hj => T.init hj⟩
  have key : ∀ (rounds : List (List (Nat × Option Nat))), (∀ r ∈ rounds, ∀ i, i < (calls j).length → (j, some i) ∈ r) →
      ∀ {w1 : MW} {s : MPc} {order : Nat → List Nat} {ts : Nat → List (List (Ev QEv))} {pend : Nat → List (Ev QEv)}
      {log : List (Nat × Ev QEv)} {cnt : Nat → Nat},
      MInv env w n qh cb ecb priv size calls w1 s order ts pend log cnt →
      leftAll (calls j) (s j).2 ≤ rounds.length →
      ∃ s' l w', msched env K n lock calls rounds.flatten s w1 = .ok ((s', l), w') ∧
        ∀ i, i < (calls j).length → (s' j).2 i = .done := by
    intro rounds
    induction rounds with
    | nil =>
      intro _ w1 s order ts pend log cnt inv hle
      refine ⟨s, [], w1, rfl, fun i hi => ?_⟩
      have h0 : leftAll (calls j) (s j).2 = 0 := by simpa using hle
      exact mdone_stays T K inv hj (Nat.le_refl _) h0 hi
    | cons r rs ih =>
      intro hr w1 s order ts pend log cnt inv hle
      obtain ⟨s1, l1, w2, o1, t1, p1, c1, h1, inv1, hlt⟩ := mround_counts T hidle K lock hl hK hj hlock r inv
      rcases hlt with ⟨e, hh⟩ | hlt
      · have hd := fun i (hi : i < (calls j).length) =>
          halted_done (calls := calls j) (fun i hi => hh i (hr r List.mem_cons_self i hi)) hi
        have hz := leftAll_done hd
        obtain ⟨s3, l3, w3, o3, t3, p3, c3, h3, inv3, hlt3⟩ := mround_counts T hidle K lock hl hK hj hlock rs.flatten inv1
        refine ⟨s3, l1 ++ l3, w3, ?_, fun i hi => ?_⟩
        · rw [List.flatten_cons]; exact msched_append K lock _ _ _ _ h1 h3
        · refine mdone_stays T K inv3 hj ?_ (by rw [e]; exact hz) hi
          rcases hlt3 with ⟨e3, _⟩ | hlt3
          · rw [e3]; exact Nat.le_refl _
          · omega
      · obtain ⟨s3, l3, w3, h3, hd⟩ := ih (fun r h => hr r (List.mem_cons_of_mem _ h)) inv1
          (by simp only [List.length_cons] at hle; omega)
        exact ⟨s3, l1 ++ l3, w3, by rw [List.flatten_cons]; exact msched_append K lock _ _ _ _ h1 h3, hd⟩
  exact key rounds hr i0 (Nat.le_trans (leftAll_start (calls j)) hn)

/-- C117, a concrete case: four queues just started, a mutex for each; the two verdict calls of queue 1, of both kinds, finish
although the readers and the other queue's call take turns. -/
example : ∃ w s log w', startAll someEnv manyKernel 0 fourQueues threeCopies = .ok (none, w) ∧
    msched someEnv manyKernel 4 (fun _ => true) threeCalls
      (List.replicate 18 [(0, none), (1, some 1), (0, some 0), (2, none), (1, some 0), (1, none)]).flatten allIdle w = .ok ((s, log), w') ∧
    (s 1).2 0 = .done ∧ (s 1).2 1 = .done := by
  obtain ⟨w, hw⟩ := startAll_succeeds someEnv manyKernel (fun tr => ⟨_, rfl⟩) (fun _ _ => rfl) (fun _ _ _ => rfl)
    (fun _ _ => ⟨dgram1, rfl, by decide, by decide, by unfold Refusal; decide⟩) fourQueues 0 threeCopies
  obtain ⟨qh, T, _⟩ := C117_started_apart someEnv manyKernel fourQueues threeCopies w hw threeCalls threeCalls_ok
  obtain ⟨s, log, w', h, hd⟩ := C117_lock_completes someEnv (fun _ => rfl) manyKernel 4 (fun _ => true) threeCalls w
    qh _ _ _ _ T (fun _ _ => Or.inl rfl) (fun j hj evs d hd => by
      have hd' : d = dgram1 := (Except.ok.inj hd).symm
      rw [hd', List.take_of_length_le (by decide)]
      obtain ⟨attrs, p, hc, h4, _⟩ := dgram1_msg
      exact (carries_proper hc h4).decent) 1 (by decide) rfl
    (List.replicate 18 [(0, none), (1, some 1), (0, some 0), (2, none), (1, some 0), (1, none)])
    (by
      intro r hr i hi
      rw [List.eq_of_mem_replicate hr]
      match i, hi with
      | 0, _ => simp
      | 1, _ => simp)
    (by decide)
  exact ⟨w, s, log, w', hw, h, hd 0 (by decide), hd 1 (by decide)⟩

end Verif.Props
