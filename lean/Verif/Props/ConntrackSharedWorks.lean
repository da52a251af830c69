import Verif.Props.ConntrackShared
import Verif.Props.ConntrackTableWorks
import Verif.Props.ConntrackConcurrent
/-!
C145 on a kernel whose system calls do not fail: every call returns; and a kernel that meets all the hypotheses, for every initial table.
-/
namespace Verif.Props.Ct
open Verif.Conntrack Verif.Sys Verif.Spec Verif.Common

theorem replayAll_snoc (e : Endian) (t0 : Table) (tr : List (Ev CEv)) (ev : Ev CEv) : replayAll e t0 (tr ++ [ev]) = match ev with
    | .sendto fd b _ none => ((serve e b (replayAll e t0 tr).1).2,
        fun f => if f = fd then (serve e b (replayAll e t0 tr).1).1 else (replayAll e t0 tr).2 f)
    | _ => replayAll e t0 tr := by
  unfold replayAll
  rw [List.foldl_append]
  rfl

/-- What happens on other sockets does not change the reply that is waiting on this one. -/
theorem replayAll_untouched (e : Endian) (t0 : Table) (fd : Nat) (tr mid : List (Ev CEv)) (h : ∀ x ∈ mid, Prog.touches fd x = false) :
    (replayAll e t0 (tr ++ mid)).2 fd = (replayAll e t0 tr).2 fd := by
  suffices ∀ l : List (Ev CEv), (∀ x ∈ l, Prog.touches fd x = false) → (replayAll e t0 (tr ++ l.reverse)).2 fd = (replayAll e t0 tr).2 fd by
    have := this mid.reverse (fun x hx => h x (List.mem_reverse.1 hx))
    rwa [List.reverse_reverse] at this
  intro l
  induction l with
  | nil => intro _; simp
  | cons ev l ih =>
    intro hl
    have hev := hl ev (List.mem_cons_self ..)
    have ih := ih fun x hx => hl x (List.mem_cons_of_mem _ hx)
    rw [List.reverse_cons, ← List.append_assoc, replayAll_snoc]
    cases ev with
    | sendto f b fl r =>
      cases r with
      | some n => exact ih
      | none =>
        have hne : fd ≠ f := by
          intro hh
          subst hh
          simp [Prog.touches, Prog.onFd] at hev
        simp only [if_neg hne]
        exact ih
    | _ => exact ih

theorem change_keys (e : Endian) (as : List Attr) (x : Entry) : (x.change e as).2.orig = x.orig ∧ (x.change e as).2.reply = x.reply := by
  unfold Entry.change
  split
  · exact ⟨rfl, rfl⟩
  · dsimp only
    split <;> split <;> (try split) <;> exact ⟨rfl, rfl⟩

/-- Serving a request leaves the tuples as they are. -/
theorem serve_keys (e : Endian) (b : List Byte) (t : Table) : ∀ y ∈ (serve e b t).2, ∃ z ∈ t, y.orig = z.orig ∧ y.reply = z.reply := by
  intro y hy
  unfold serve at hy
  split at hy
  · split at hy
    · split at hy
      · split at hy
        · obtain ⟨z, hz, rfl⟩ := List.mem_map.1 hy
          refine ⟨z, hz, ?_⟩
          split
          · exact change_keys _ _ _
          · exact ⟨rfl, rfl⟩
        · exact ⟨y, hy, rfl, rfl⟩
      · exact ⟨y, hy, rfl, rfl⟩
    · exact ⟨y, hy, rfl, rfl⟩
  · exact ⟨y, hy, rfl, rfl⟩

theorem replayAll_protos (e : Endian) (t0 : Table) (h0 : ∀ y ∈ t0, y.orig.proto = y.reply.proto) (tr : List (Ev CEv)) :
    ∀ y ∈ (replayAll e t0 tr).1, y.orig.proto = y.reply.proto := by
  suffices ∀ l : List (Ev CEv), ∀ y ∈ (replayAll e t0 l.reverse).1, y.orig.proto = y.reply.proto by
    have := this tr.reverse
    rwa [List.reverse_reverse] at this
  intro l
  induction l with
  | nil => exact h0
  | cons ev l ih =>
    rw [List.reverse_cons, replayAll_snoc]
    cases ev with
    | sendto f b fl r =>
      cases r with
      | some n => exact ih
      | none =>
        intro y hy
        obtain ⟨z, hz, h1, h2⟩ := serve_keys _ _ _ y hy
        rw [h1, h2]
        exact ih z hz
    | _ => exact ih

/-- For every initial table there is a kernel that keeps it, answers each socket for itself, undisturbed and without failing. -/
theorem sharedTable_serves (e : Endian) (t0 : Table) (h0 : ∀ y ∈ t0, y.orig.proto = y.reply.proto) :
    ServesTable e (sharedTable e t0) (fun tr => (replayAll e t0 tr).1) ∧ Undisturbed (fun tr => (replayAll e t0 tr).1) ∧
      Works (sharedTable e t0) ∧ Prog.Orderly (sharedTable e t0) ∧ Proper (sharedTable e t0) := by
  refine ⟨⟨?_, ?_, replayAll_protos e t0 h0⟩, ?_, ⟨fun _ => ⟨_, rfl⟩, fun _ _ => rfl, fun _ _ _ => rfl, fun _ _ => ⟨_, rfl⟩⟩,
    ⟨?_, fun _ _ _ => rfl⟩, ⟨fun _ => ⟨_, rfl⟩, fun _ _ => rfl, ?_⟩⟩
  · intro tr fd b f
    rw [replayAll_snoc]
  · intro tr fd b f mid d hmid hd
    have hd : Except.ok (replyBytes e ((replayAll e t0 (tr ++ [.sendto fd b f none] ++ mid)).2 fd)) = Except.ok d := hd
    rw [Except.ok.injEq, replayAll_untouched e t0 fd _ mid hmid, replayAll_snoc] at hd
    simp only [if_true] at hd
    subst hd
    obtain ⟨h1, h2⟩ := serve_code e b (replayAll e t0 tr).1
    exact replyBytes_is e ⟨h1, by omega⟩
  · intro tr ev hev
    dsimp only
    rw [replayAll_snoc]
    split
    · cases hev
    · rfl
  · intro tr fd h
    have h : countingKernel.socket tr = .ok fd := h
    exact counting_orderly.fresh tr fd h
  · intro tr fd d h
    simp only [sharedTable, Except.ok.injEq] at h
    subst h
    right
    exact Nat.le_of_eq (replyBytes_length e _).symm

/-- C145: on a kernel that does not fail, any number of calls that name connections, interleaved in any way, all return once they had eight turns
for each flow given to them; each returns what its requests met. -/
theorem C145_completes {env : Env} {K : Kernel CEv} {tab : List (Ev CEv) → Table} (hK : ServesTable env.e K tab) (hO : Prog.Orderly K)
    (hW : Works K) (hP : Proper K) (calls : List Call) (hs : ∀ c ∈ calls, Sound env c) (conn : Nat → Conn)
    (hn : ∀ (i : Nat) (c : Call), calls[i]? = some c → c.names env (conn i)) (is : List Nat) (tr : List (Ev CEv)) :
    ∃ s log tr', Prog.sched K is (callProgs env calls) tr = .ok ((s, log), tr') ∧
      ∀ (i : Nat) (c : Call), calls[i]? = some c → turns c ≤ is.count i →
        ∃ r, s i = .ret r ∧ RightResult (conn i) ((moments i tr log).map tab) c r ∧ NotFailed r.2 := by
  obtain ⟨s, log, tr', h, hr⟩ := C120_completes env K hP calls hs is tr
  refine ⟨s, log, tr', h, fun i c hc ht => ?_⟩
  obtain ⟨r, hr⟩ := hr i c hc ht
  obtain ⟨h1, h2⟩ := C145_result hK hO is h i c hc (hs c (List.mem_of_getElem? hc)) (conn i) (hn i c hc) r hr
  exact ⟨r, hr, h1, h2 hW⟩

/-! ### A concrete case -/

theorem threeCalls_names (i : Nat) (c : Call) (h : threeCalls[i]? = some c) : c.names sampleEnv sampleConn := by
  have hc := List.mem_of_getElem? h
  simp only [threeCalls, List.mem_cons, List.not_mem_nil, or_false] at hc
  rcases hc with rfl | rfl | rfl <;> exact sample_names

/-- C145, a concrete case: a mark update, a bulk mark update and a bulk label update of the same connection, taking turns. -/
theorem C145_example : ∃ s log tr', Prog.sched (sharedTable .little sampleTable) ((List.range 48).map (· % 3))
      (callProgs sampleEnv threeCalls) [] = .ok ((s, log), tr') ∧
    ∀ (i : Nat) (c : Call), threeCalls[i]? = some c → ∃ r, s i = .ret r ∧
      RightResult sampleConn ((moments i [] log).map fun tr => (replayAll .little sampleTable tr).1) c r ∧ NotFailed r.2 := by
  obtain ⟨h1, _, h3, h4, h5⟩ := sharedTable_serves .little sampleTable (by decide)
  obtain ⟨s, log, tr', h, hr⟩ := C145_completes (env := sampleEnv) h1 h4 h3 h5 threeCalls threeCalls_sound (fun _ => sampleConn)
    threeCalls_names ((List.range 48).map (· % 3)) []
  refine ⟨s, log, tr', h, fun i c hc => hr i c hc ?_⟩
  have hi : i < 3 := by
    have := (List.getElem?_eq_some_iff.1 hc).1
    simpa [threeCalls] using this
  have : i = 0 ∨ i = 1 ∨ i = 2 := by omega
  rcases this with rfl | rfl | rfl <;> cases hc <;> decide

/-- The results, the order of the requests, and the entry at the end: two requests of the bulk update and the others' between them. -/
theorem C145_example_results : (match Prog.sched (sharedTable .little sampleTable) ((List.range 48).map (· % 3))
      (callProgs sampleEnv threeCalls) [] with
    | .ok ((s, log), tr') => (match s 0, s 1, s 2 with
      | .ret (none, none), .ret (some a, none), .ret (some b, none) => decide (a = matching [sampleFlow, otherFlow] sampleConn ∧
          b = matching [otherFlow, sampleFlow] sampleConn)
      | _, _, _ => false) && decide ((replayAll .little sampleTable tr').1.map (·.mark) = [8, 0, 1, 1]) && decide (requesters log ≠ [])
    | _ => false) = true := by decide +kernel

end Verif.Props.Ct
