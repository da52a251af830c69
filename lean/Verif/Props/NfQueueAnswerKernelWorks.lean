import Verif.Props.NfQueueAnswerKernel
import Verif.Props.NfQueueDeliverWorks
/-! C144: a concrete case. -/
namespace Verif.Props
open Verif.Common Verif.Sys Verif.Spec Verif.NfQueue

/-- `somePolicy`, given with `SetVerdict2` to whatever queue. -/
def byHead : Nat → Policy := fun _ _ b _ _ => .verdict2 (somePolicy b).1 (somePolicy b).2

/-- Two queues. -/
def tenEleven : List StartArgs := [⟨10, 100, 50, 1, 2, 0⟩, ⟨11, 100, 50, 3, 4, 0⟩]

/-- A process that has just begun. -/
def newProcess : MW := ⟨[], ⟨[]⟩, fun _ => (newNFQueue ⟨[]⟩).1⟩

theorem ten_started : ∃ w k fd, createAndStart someEnv lateKernel 10 100 50 (some 1) (some 2) 0 (newProcess.view 0) = .ok (none, w) ∧
    (stateAfter .little someQueues lateScript w.trace).queues 10 = some k ∧ k.waiting = threePackets ∧ k.owner = .sock fd ∧
    (stateAfter .little someQueues lateScript w.trace).leftFrom 10 = [] ∧
    (stateAfter .little someQueues lateScript w.trace).inbox fd = threePackets.map (Pkt.note 50) := by
  have h : (match createAndStart someEnv lateKernel 10 100 50 (some 1) (some 2) 0 (newProcess.view 0) with
    | .ok (none, w) => (match (stateAfter .little someQueues lateScript w.trace).queues 10 with
      | some k => (match k.owner with
        | .sock fd => decide (k.waiting = threePackets ∧ (stateAfter .little someQueues lateScript w.trace).leftFrom 10 = [] ∧
          (stateAfter .little someQueues lateScript w.trace).inbox fd = threePackets.map (Pkt.note 50))
        | _ => false)
      | _ => false)
    | _ => false) = true := by decide +kernel
  split at h
  · rename_i w hw
    split at h
    · rename_i k h2
      split at h
      · rename_i fd h1
        obtain ⟨h3, h4, h5⟩ := of_decide_eq_true h
        exact ⟨w, k, fd, hw, h2, h3, h1, h4, h5⟩
      · cases h
    · cases h
  · cases h

theorem byHead_takes (j range : Nat) : Takes (byHead j) range := by
  intro n b mark id _
  show (somePolicy b).1.toNat % 256 ≤ 5 ∧ (somePolicy b).1.toNat % 256 ≠ 2
  unfold somePolicy
  split <;> decide

theorem byHead_answers (j : Nat) (evs : List (Ev QEv)) : ∀ n, answersOf (byHead j) n evs = (shownIn evs).map fun x => byHead j 0 x.1 0 0 := by
  induction evs with
  | nil => intro n; rfl
  | cons ev evs ih =>
    intro n
    by_cases h : isPacket ev = true
    · cases ev with
      | app q =>
        cases q with
        | packet cb b mark id priv =>
          show byHead j n b mark id :: answersOf (byHead j) (n + 1) evs = _
          rw [ih (n + 1)]
          rfl
        | _ => cases h
      | _ => cases h
    · rw [answersOf_cons _ _ _ _ (by simpa using h), ih n]
      congr 1
      cases ev with
      | app q =>
        cases q with
        | packet => exact absurd rfl h
        | _ => rfl
      | _ => rfl

theorem byGo_all {l : List (Option Nat × Ev QEv)} (h : ∀ x ∈ l, x.1 = none) : byGo none l = l.map (·.2) := by
  unfold byGo
  rw [List.filter_eq_self.mpr]
  intro x hx
  simp [h x hx]

/-- C144, a concrete case: queues 10 and 11, copy range 50; three packets wait in queue 10 when it has been started; once its goroutine has
made 53 steps, however they are mixed with the start of queue 11 and the steps of its goroutine, the three packets have been given to
the application, the second cut to 50 bytes, and the first two have left with the application's verdicts. -/
theorem C144_example (is : List (Option Nat)) (h53 : 53 ≤ is.count (some 0)) :
    ∃ s1 log1 w1 s2 log2 w2 shown rest, psched someEnv lateKernel (fun _ _ => false) byHead [none] (atStart tenEleven) newProcess = .ok ((s1, log1), w1) ∧
      psched someEnv lateKernel (fun _ _ => false) byHead is s1 w1 = .ok ((s2, log2), w2) ∧
      (shownIn (byGo (some 0) log2)).map (·.1) = [[1, 2, 3], List.replicate 50 1, [9, 9]] ++ shown ∧
      (stateAfter .little someQueues lateScript w2.trace).leftFrom 10 = [⟨10, ⟨1, 11, [1, 2, 3]⟩, 1⟩, ⟨10, ⟨2, 11, List.replicate 50 1⟩, 1⟩] ++ rest := by
  have hK : Keeps .little (fun _ => False) lateKernel _ := queueKernel_keeps .little someQueues_untouched lateScript (fun _ => False)
  have hH := queueKernel_healthy .little someQueues lateScript
  obtain ⟨s1, log1, w1, s2, log2, w2, h1, h2, ht1, ht2, starts1, starts2, n1, _, m1, _, hj⟩ := C144_progress someEnv rfl (fun _ => rfl) lateKernel _ _ hK hH
    (fun _ _ => false) byHead tenEleven (fun j a _ => byHead_takes j _) newProcess [none] is
  obtain ⟨v, k, fd, hv, q1, q2, q3, q4, q5⟩ := ten_started
  have hv' := h1
  simp only [psched, GoM.bind_apply, pstep, atStart, tenEleven, hv, Res.ok_bind, GoM.pure_apply, Res.ok.injEq, Prod.mk.injEq, List.append_nil] at hv'
  obtain ⟨⟨hs1, hlog1⟩, hw1⟩ := hv'
  have hrun : Runs s1 0 := by rw [← hs1]; rfl
  have htr : w1.trace = v.trace := by rw [← hw1]
  obtain ⟨a, fd', turns, rest, evs, before, after, missed, first, del, new, ha, hst, hsock, hcut, _, hb, hans, hbeg, hacc, hsent, hprog⟩ := hj 0 hrun
  have haa : a = ⟨10, 100, 50, 1, 2, 0⟩ := (Option.some.inj ha).symm
  subst haa
  have hall : ∀ x ∈ log1, x.1 = none := by
    intro x hx
    rw [← hlog1] at hx
    obtain ⟨y, _, rfl⟩ := List.mem_map.mp hx
    rfl
  have hb0 : before = [] := by
    rw [byGo_all (fun x hx => hall x (by rw [hcut]; simp [hx])), List.take_zero] at hb
    simpa using hb
  have hs : starts1 = [(none, evs)] := by
    cases starts1 with
    | nil => cases hst
    | cons x l =>
      cases l with
      | nil => cases hst; rfl
      | cons y l =>
        have : (x :: y :: l).length ≤ 1 := by rw [n1]; exact Nat.min_le_right _ _
        simp at this
  have hevs : evs = w1.trace := by
    rw [hs, byGo_all hall] at m1
    rw [ht1]
    simpa [newProcess] using m1.symm
  subst hb0
  have htr1 : newProcess.trace ++ List.map (·.2) ([] : List (Option Nat × Ev QEv)) ++ evs = v.trace := by rw [hevs, ← htr]; rfl
  rw [htr1] at hbeg hacc hprog
  have hk : (stateAfter .little someQueues lateScript v.trace).queues (BitVec.toNat (10 : U16)) = some k := q1
  obtain ⟨k', k1, k2, k3, k4, k5, k6⟩ := hbeg.waiting
  have hkk : k' = k := Option.some.inj (k1.symm.trans hk)
  subst hkk
  have hfd : fd' = fd := by rw [k2] at q3; cases q3; rfl
  subst hfd
  have hm : missed = [] := by
    have := hbeg.acks
    rw [q5] at this
    have : ([] : List Note) = List.replicate missed.length (.ack 0) := this
    cases missed with
    | nil => rfl
    | cons => simp [List.replicate_succ] at this
  subst hm
  rw [List.nil_append, q2] at k6
  subst k6
  have hnc : ¬ NfQueue.CloseEvs fd' rest := by
    intro hc
    rcases hans.2.2.1 with h | ⟨⟨_, _, _, h⟩, _⟩
    · rcases h with rfl | ⟨r, rfl⟩ | ⟨d, id, pl, m, _, _, rfl⟩ <;> rcases hc with hc | ⟨_, _, hc⟩ <;> simp at hc
    · cases h
  rcases hprog with h | ⟨hnew, hprog⟩
  · exact absurd h hnc
  have hg0 : byGo (some 0) log1 = [] := by
    unfold byGo
    rw [List.map_eq_nil_iff, List.filter_eq_nil_iff]
    intro x hx
    simp [hall x hx]
  rw [hg0] at hprog
  rw [htr] at hnew
  have hnew : new = [] := by
    have := congrArg List.length hnew
    rw [List.length_append] at this
    exact List.length_eq_zero_iff.mp (by omega)
  subst hnew
  rw [List.append_nil] at hprog
  have h3 : threePackets.length = 3 := rfl
  rw [h3] at hprog
  have hlen : 3 ≤ del.length := by
    rcases hprog with h | h
    · simp [shownIn] at h; omega
    · exact h
  cases hacc with
  | closed hc => exact absurd hc hnc
  | @runs new' hand pend _ L =>
    match del, hlen, L, hsent with
    | x1 :: x2 :: x3 :: del, _, L, hsent =>
      have hord := L.order
      simp only [threePackets, List.cons_append, List.nil_append, List.map_cons, List.cons.injEq] at hord
      obtain ⟨p1, p2, p3, _⟩ := hord
      have hshown := L.tells.shown
      have hansw := L.tells.answers
      rw [byHead_answers, hshown] at hansw
      simp only [List.map_cons, List.cons.injEq, List.map_map] at hansw
      obtain ⟨a1, a2, _⟩ := hansw
      have e50 : clip (50 : U32).toNat = 50 := rfl
      rw [e50] at a1 a2 hshown
      rw [← p1] at a1
      rw [← p2] at a2
      have hev : turns.flatten ++ rest = byGo (some 0) log2 := by
        have := hans.1
        rw [byGo_append, hg0, List.nil_append] at this
        exact this.symm
      have t1 : x1.sent = some true := by
        have h1 := L.done.1 x1 (by simp [List.dropLast])
        have h2 := hsent x1 (by simp)
        cases hx : x1.sent with
        | none => rw [← a1] at h1; cases h1 hx
        | some b => cases b with
          | true => rfl
          | false => exact absurd hx h2
      have t2 : x2.sent = some true := by
        have h1 := L.done.1 x2 (by simp [List.dropLast])
        have h2 := hsent x2 (by simp)
        cases hx : x2.sent with
        | none => rw [← a2] at h1; cases h1 hx
        | some b => cases b with
          | true => rfl
          | false => exact absurd hx h2
      refine ⟨s1, log1, w1, s2, log2, w2, del.map fun x => x.pkt.data.take 50, (x3 :: del).filterMap (Dealt.leaves 10 50), h1, h2, ?_, ?_⟩
      · rw [← hev, hshown]
        simp only [List.map_cons, List.map_map, ← p1, ← p2, ← p3]
        rfl
      · have hleft := L.left
        have hw2 : v.trace ++ (after ++ log2).map (·.2) = w2.trace := by
          have ha : after = [] := by
            have h4 := congrArg (fun l => (l.map (·.2)).length) hcut
            have h5 : (log1.map (·.2)) = evs := by rw [hevs, ht1]; rfl
            simp only [h5, List.nil_append, List.map_append, List.length_append, List.length_map] at h4
            exact List.length_eq_zero_iff.mp (by omega)
          rw [ha, List.nil_append, ht2, htr]
        rw [hw2] at hleft
        have hleft : (stateAfter .little someQueues lateScript w2.trace).leftFrom 10 = (stateAfter .little someQueues lateScript v.trace).leftFrom 10 ++
          (x1 :: x2 :: x3 :: del).filterMap (Dealt.leaves 10 50) := hleft
        rw [hleft, q4, List.nil_append]
        have l1 : x1.leaves 10 50 = some ⟨10, ⟨1, 11, [1, 2, 3]⟩, 1⟩ := by
          unfold Dealt.leaves
          rw [← a1, t1, ← p1]; rfl
        have l2 : x2.leaves 10 50 = some ⟨10, ⟨2, 11, List.replicate 50 1⟩, 1⟩ := by
          unfold Dealt.leaves
          rw [← a2, t2, ← p2]; rfl
        rw [List.filterMap_cons_some l1, List.filterMap_cons_some l2]
        rfl

end Verif.Props
