import Verif.Props.NfQueueConcurrent
/-!
C20, completion of verdict calls of both kinds when the application holds a mutex around `SetVerdict2`.
-/
namespace Verif.Props
open Verif.Common Verif.Sys Verif.Spec Verif.NfQueue

/-- Steps goroutine `i` has still to do. -/
def leftOf (calls : List VCall) (pcs : Nat → Pc) (i : Nat) : Nat :=
  match calls[i]? with
  | some c => rank c (pcs i)
  | none => 0

/-- Steps left altogether. -/
def leftAll (calls : List VCall) (pcs : Nat → Pc) : Nat :=
  ((List.range calls.length).map (leftOf calls pcs)).sum

theorem sum_range_less {f g : Nat → Nat} {n i : Nat} (hi : i < n) (h : ∀ j, j ≠ i → g j = f j) (h1 : g i + 1 = f i) :
    ((List.range n).map g).sum + 1 = ((List.range n).map f).sum := by
  induction n with
  | zero => omega
  | succ n ih =>
    rw [List.range_succ, List.map_append, List.map_append, List.sum_append, List.sum_append]
    simp only [List.map_cons, List.map_nil, List.sum_cons, List.sum_nil, Nat.add_zero]
    by_cases hin : i = n
    · subst hin
      have : (List.range i).map g = (List.range i).map f := by
        apply List.map_congr_left
        intro x hx
        have := List.mem_range.mp hx
        exact h x (by omega)
      rw [this]; omega
    · have := ih (by omega)
      have := h n (fun e => hin e.symm)
      omega

theorem sum_range_le {f : Nat → Nat} {b : Nat} (h : ∀ i, f i ≤ b) (n : Nat) : ((List.range n).map f).sum ≤ b * n := by
  induction n with
  | zero => simp
  | succ n ih =>
    rw [List.range_succ, List.map_append, List.sum_append, Nat.mul_succ]
    simp only [List.map_cons, List.map_nil, List.sum_cons, List.sum_nil, Nat.add_zero]
    have := h n
    omega

theorem sum_range_zero {f : Nat → Nat} {n : Nat} (h : ((List.range n).map f).sum = 0) {i : Nat} (hi : i < n) : f i = 0 := by
  induction n with
  | zero => omega
  | succ n ih =>
    rw [List.range_succ, List.map_append, List.sum_append] at h
    simp only [List.map_cons, List.map_nil, List.sum_cons, List.sum_nil, Nat.add_zero] at h
    by_cases hin : i = n
    · subst hin; omega
    · exact ih (by omega) (by omega)

/-- Goroutine `i` cannot do anything: it does not exist, has finished, or waits for the mutex. -/
def Halted (calls : List VCall) (pcs : Nat → Pc) (i : Nat) : Prop :=
  calls.length ≤ i ∨ pcs i = .done ∨ (pcs i = .start ∧ busy2 calls pcs i = true)

/-- A turn either changes nothing, because the goroutine cannot do anything, or leaves one step less to do. -/
theorem turn_counts {X : Ctx} (hc : Calls X) (env : Env) (he : env.e = X.e) (K : Kernel QEv) {qh : Handle} {w0 w w1 : W}
    {pcs p1 : Nat → Pc} {order : List Nat} {extra log : List (Ev QEv)} (g : GInv X qh w0 w pcs order extra log) {j : Nat}
    (h1 : schedStep env K true X.calls j pcs w = .ok (p1, w1)) :
    (p1 = pcs ∧ w1 = w ∧ Halted X.calls pcs j) ∨ leftAll X.calls p1 + 1 = leftAll X.calls pcs := by
  unfold schedStep at h1
  cases hj : X.calls[j]? with
  | none =>
    simp only [hj, GoM.pure_apply, Res.ok.injEq, Prod.mk.injEq] at h1
    exact .inl ⟨h1.1.symm, h1.2.symm, .inl (List.getElem?_eq_none_iff.mp hj)⟩
  | some d =>
    simp only [hj, true_and] at h1
    split at h1
    · rename_i hblk
      simp only [GoM.pure_apply, Res.ok.injEq, Prod.mk.injEq] at h1
      exact .inl ⟨h1.1.symm, h1.2.symm, .inr (.inr ⟨hblk.2.1, hblk.2.2⟩)⟩
    · by_cases hd : pcs j = .done
      · have hv : vstep env K d .done = pure Pc.done := by cases d <;> rfl
        simp only [GoM.bind_apply] at h1
        rw [hd, hv] at h1
        simp only [GoM.pure_apply, Res.ok_bind, Res.ok.injEq, Prod.mk.injEq] at h1
        refine .inl ⟨?_, h1.2.symm, .inr (.inl hd)⟩
        rw [← h1.1]
        funext k
        by_cases hk : k = j
        · subst hk; simp [hd]
        · simp [hk]
      · obtain ⟨pc', w2, hs, st⟩ := step_ok hc (List.mem_of_getElem? hj) g.winv env he K hd (g.tinv j d hj)
        simp only [GoM.bind_apply] at h1
        rw [hs] at h1
        simp only [GoM.pure_apply, Res.ok_bind, Res.ok.injEq, Prod.mk.injEq] at h1
        right
        rw [← h1.1]
        unfold leftAll
        apply sum_range_less (List.getElem?_eq_some_iff.mp hj).1
        · intro k hk
          simp [leftOf, hk]
        · have := st.rank
          simp only [leftOf, hj, if_true]
          exact this

/-- A stretch of turns either changes nothing, and none of the goroutines that had a turn could do anything, or leaves
fewer steps to do. -/
theorem round_counts {X : Ctx} (hc : Calls X) (env : Env) (he : env.e = X.e) (K : Kernel QEv) {qh : Handle} {w0 : W}
    (is : List Nat) :
    ∀ {w : W} {pcs : Nat → Pc} {order : List Nat} {extra log : List (Ev QEv)}, GInv X qh w0 w pcs order extra log →
    ∃ pcs' w' order' es, sched env K true X.calls is pcs w = .ok (pcs', w') ∧
      GInv X qh w0 w' pcs' order' extra (log ++ es) ∧
      ((pcs' = pcs ∧ ∀ j ∈ is, Halted X.calls pcs j) ∨ leftAll X.calls pcs' + 1 ≤ leftAll X.calls pcs) := by
  induction is with
  | nil => intro w pcs order extra log g; exact ⟨pcs, w, order, [], rfl, by simpa using g, .inl ⟨rfl, by simp⟩⟩
  | cons i is ih =>
    intro w pcs order extra log g
    obtain ⟨p1, w1, o1, es1, h1, t1, g1, _⟩ := ginv_step hc env he K true (.inl rfl) g i
    obtain ⟨p2, w2, o2, es2, h2, g2, hr⟩ := ih g1
    refine ⟨p2, w2, o2, es1 ++ es2, bind_of_eq h1 h2, by rw [← List.append_assoc]; exact g2, ?_⟩
    rcases turn_counts hc env he K g h1 with ⟨rfl, rfl, hh⟩ | hlt
    · rcases hr with ⟨rfl, ha⟩ | hr
      · refine .inl ⟨rfl, fun j hj => ?_⟩
        rcases List.mem_cons.mp hj with rfl | hj
        · exact hh
        · exact ha j hj
      · exact .inr hr
    · right
      rcases hr with ⟨rfl, _⟩ | hr <;> omega

/-- If nobody can do anything, everybody has finished: there is no deadlock. -/
theorem halted_done {calls : List VCall} {pcs : Nat → Pc} (h : ∀ j, j < calls.length → Halted calls pcs j) {i : Nat}
    (hi : i < calls.length) : pcs i = .done := by
  rcases h i hi with h1 | h1 | ⟨_, hb⟩
  · omega
  · exact h1
  · unfold busy2 at hb
    obtain ⟨k, hk, hb⟩ := List.any_eq_true.mp hb
    rw [Bool.and_eq_true, decide_eq_true_eq] at hb
    rcases h k (List.mem_range.mp hk) with h2 | h2 | ⟨h2, _⟩
    · have := List.mem_range.mp hk; omega
    · exact absurd h2 hb.1.2.2
    · exact absurd h2 hb.1.2.1

theorem leftAll_start (calls : List VCall) : leftAll calls allStart ≤ 9 * calls.length := by
  apply sum_range_le
  intro i
  unfold leftOf allStart
  split
  · simp only [rank]; split <;> omega
  · omega

theorem rounds_count {X : Ctx} (hc : Calls X) (env : Env) (he : env.e = X.e) (K : Kernel QEv) {qh : Handle} {w0 : W}
    (rounds : List (List Nat)) (hr : ∀ r ∈ rounds, ∀ i, i < X.calls.length → i ∈ r) :
    ∀ {w : W} {pcs : Nat → Pc} {order : List Nat} {extra log : List (Ev QEv)}, GInv X qh w0 w pcs order extra log →
    ∃ pcs' w', sched env K true X.calls rounds.flatten pcs w = .ok (pcs', w') ∧
      ((∀ i, i < X.calls.length → pcs' i = .done) ∨ leftAll X.calls pcs' + rounds.length ≤ leftAll X.calls pcs) := by
  induction rounds with
  | nil => intro w pcs order extra log g; exact ⟨pcs, w, rfl, .inr (by simp)⟩
  | cons r rs ih =>
    intro w pcs order extra log g
    obtain ⟨p1, w1, o1, es1, h1, g1, hr1⟩ := round_counts hc env he K r g
    obtain ⟨p2, w2, h2, hr2⟩ := ih (fun r h => hr r (List.mem_cons_of_mem _ h)) g1
    refine ⟨p2, w2, ?_, ?_⟩
    · have hap : ∀ (a b : List Nat) (p : Nat → Pc) (w : W), sched env K true X.calls (a ++ b) p w =
          (sched env K true X.calls a p w).bind fun x => sched env K true X.calls b x.1 x.2 := by
        intro a b
        induction a with
        | nil => intro p w; rfl
        | cons x xs iha =>
          intro p w
          simp only [List.cons_append, sched, GoM.bind_apply]
          rcases schedStep env K true X.calls x p w with ⟨p', w'⟩ | _ | _
          · exact iha p' w'
          · rfl
          · rfl
      rw [List.flatten_cons, hap, h1]
      exact h2
    · rcases hr1 with ⟨rfl, hh⟩ | hlt
      · left
        have hd := fun i (hi : i < X.calls.length) =>
          halted_done (fun j hj => hh j (hr r List.mem_cons_self j hj)) hi
        have h0 : leftAll X.calls p1 = 0 := by
          have : ((List.range X.calls.length).map (leftOf X.calls p1)) = (List.range X.calls.length).map fun _ => 0 := by
            apply List.map_congr_left
            intro i hi
            unfold leftOf
            rw [List.getElem?_eq_getElem (List.mem_range.mp hi), hd i (List.mem_range.mp hi)]
            rfl
          unfold leftAll
          rw [this]
          have := sum_range_le (f := fun _ => 0) (b := 0) (fun _ => Nat.le_refl _) X.calls.length
          omega
        -- nothing changes any more
        rcases hr2 with h3 | h3
        · exact h3
        · have hz : leftAll X.calls p2 = 0 := by omega
          have hrs : rs = [] := by
            cases rs with
            | nil => rfl
            | cons _ _ => simp at h3; omega
          subst hrs
          simp only [List.flatten_nil, sched, GoM.pure_apply, Res.ok.injEq, Prod.mk.injEq] at h2
          rw [← h2.1]
          exact hd
      · rcases hr2 with h3 | h3
        · exact .inl h3
        · right; simp only [List.length_cons]; omega

/-- C20, completion with the mutex: nobody waits forever.  For any number of calls of both kinds, any kernel and any
starting state, any schedule of at least nine rounds per call, in each of which every goroutine gets at least one turn
(in any order, and as many turns as one likes), lets every call finish; exactly one message per call has then been sent,
each byte for byte what that call would have sent alone. -/
theorem C20_lock_completes (env : Env) (K : Kernel QEv) (calls : List VCall) (w : W) (qh : Handle)
    (hV : VReady w qh) (hok : ∀ c ∈ calls, c.Ok w.heap w.st.hdrSlice)
    (hsep : ∀ c ∈ calls, ∀ d ∈ calls, Sep c d) (rounds : List (List Nat))
    (hr : ∀ r ∈ rounds, ∀ i, i < calls.length → i ∈ r) (hn : 9 * calls.length ≤ rounds.length) :
    ∃ pcs w', sched env K true calls rounds.flatten allStart w = .ok (pcs, w') ∧
      (∀ i, i < calls.length → pcs i = .done) ∧
      ∃ (order : List Nat) (evs : List (Ev QEv)), w'.trace = w.trace ++ evs ∧ order.Nodup ∧
        (∀ i, i ∈ order ↔ i < calls.length) ∧
        ∃ msg : Nat → List Byte, sentOf evs = order.map msg ∧
          ∀ i ∈ order, ∃ c, calls[i]? = some c ∧ SendsAlone env K w c (msg i) := by
  have hc : Calls (soloCtx env w calls none) := ⟨hV.2, hok, fun _ h => h, hsep, by simp [soloCtx], by simp [soloCtx]⟩
  have g0 : GInv (soloCtx env w calls none) qh w w allStart [] [] [] :=
    ginv_init (R := none) (calls := calls) hV env _ _ (fun _ h => h.elim)
  obtain ⟨pcs, w', h1, h2⟩ := rounds_count hc env rfl K rounds hr g0
  have hdone : ∀ i, i < calls.length → pcs i = .done := by
    rcases h2 with h2 | h2
    · exact h2
    · have h3 := leftAll_start calls
      have h4 : leftAll calls pcs + rounds.length ≤ leftAll calls allStart := h2
      have h0 : leftAll calls pcs = 0 := by omega
      obtain ⟨p3, w3, o3, es3, h7, _, g3⟩ := ginv_sched hc env rfl K true (.inl rfl) rounds.flatten g0
      rw [h1] at h7
      simp only [Res.ok.injEq, Prod.mk.injEq] at h7
      obtain ⟨rfl, rfl⟩ := h7
      intro i hi
      have hz : leftOf calls pcs i = 0 := sum_range_zero h0 hi
      have hg : calls[i]? = some calls[i] := List.getElem?_eq_getElem hi
      have ht := g3.tinv i calls[i] hg
      unfold leftOf at hz
      rw [hg] at hz
      simp only at hz
      cases hp : pcs i with
      | done => rfl
      | start => rw [hp] at hz; simp only [rank] at hz; split at hz <;> omega
      | counted => rw [hp] at hz; simp [rank] at hz
      | headed => rw [hp] at hz; simp [rank] at hz
      | attred => rw [hp] at hz; simp [rank] at hz
      | padded => rw [hp] at hz; simp [rank] at hz
      | filled k j =>
        obtain ⟨pc', w2, hs, st⟩ := step_ok hc (List.mem_of_getElem? hg) g3.winv env rfl K (by rw [hp]; simp) ht
        have := st.rank
        rw [hz] at this
        omega
  obtain ⟨pcs', w'', h5, order, evs, h6, h7, h8, _, msg, h9, h10⟩ :=
    C20_no_mixing_partial env K true calls w qh hV hok hsep (.inl rfl) rounds.flatten
  have h1 : sched env K true calls rounds.flatten allStart w = .ok (pcs, w') := h1
  rw [h1] at h5
  simp only [Res.ok.injEq, Prod.mk.injEq] at h5
  obtain ⟨rfl, rfl⟩ := h5
  exact ⟨pcs, w', h1, hdone, order, evs, h6, h7, fun i => ⟨fun h => ((h8 i).mp h).1, fun h => (h8 i).mpr ⟨h, hdone i h⟩⟩,
    msg, h9, h10⟩

/-- Non-vacuous: the two calls that can mix without the mutex, eighteen rounds. -/
example : ∃ pcs w', sched someEnv yesKernel true twoCalls (List.replicate 18 [1, 0, 1]).flatten allStart verdictWorld =
    .ok (pcs, w') ∧ ∀ i, i < 2 → pcs i = .done := by
  obtain ⟨pcs, w', h1, h2, _⟩ := C20_lock_completes someEnv yesKernel twoCalls verdictWorld ⟨3, Slice.nil⟩
    ⟨rfl, ⟨Nat.le_refl _, by decide⟩, rfl⟩
    (by simp [twoCalls, VCall.Ok, VCall.packet, VCall.plen, Slice.Valid, verdictWorld, Heap.arrayOf])
    (by simp [twoCalls, Sep, VCall.packet]) (List.replicate 18 [1, 0, 1])
    (by intro r hr i hi
        rw [List.mem_replicate] at hr
        rw [hr.2]
        have : i < 2 := hi
        simp; omega)
    (by simp [twoCalls])
  exact ⟨pcs, w', h1, h2⟩

end Verif.Props
