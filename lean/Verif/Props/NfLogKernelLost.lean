import Verif.Props.NfLogKernelWorks
/-! C136, C137: what logs that arrive during the start do to it. -/
namespace Verif.Props.Log
open Verif.Sys Verif.Spec Verif.NfLog

/-- C136 fails when many logs arrive meanwhile, see `C136_violated`.  What holds: as long as no log arrives during it, a start that returns nil
has bound every group asked for, each of them with the copy range asked for. -/
theorem C136_partial (env : Env) (F : Nat → Prop) (K : Kernel LEv) (st : List (Ev LEv) → KState) (hK : Keeps env.e F K st)
    (groups : List U16) (size : U32) (cb ecb : Option Nat) (w w' : W) (h : bindAndListen env K groups size cb ecb w = .ok (none, w'))
    {evs : List (Ev LEv)} (ht : w'.trace = w.trace ++ evs) (hl : logDatagrams env.e evs = []) :
    ∃ fd, OpenOn w' fd ∧ ∀ g ∈ groups, Served (st w'.trace) fd g.toNat size.toNat := by
  obtain ⟨evs', fd, ht', hfd, hB⟩ := start_began hK h
  have he : evs' = evs := List.append_cancel_left (ht'.symm.trans ht)
  subst he
  exact ⟨fd, hfd, (hB.undisturbed hl).2.1⟩

/-- C137 fails, see `C137_violated`.  What holds for a group that was free and that no other program uses: what was logged to it since the
call is, in order, what the call itself has received (nothing, if no log arrived during it) followed by what is still to be received or
collected. -/
theorem C137_partial (env : Env) (F : Nat → Prop) (K : Kernel LEv) (st : List (Ev LEv) → KState) (hK : Keeps env.e F K st)
    (groups : List U16) (size : U32) (cb ecb : Option Nat) (w w' : W) (h : bindAndListen env K groups size cb ecb w = .ok (none, w')) :
    ∃ evs fd lost, w'.trace = w.trace ++ evs ∧ OpenOn w' fd ∧ (logDatagrams env.e evs = [] → lost = []) ∧
      ∀ g, ¬ F g → Free (st w.trace) g →
        (st w'.trace).loggedTo g = (st w.trace).loggedTo g ++ (lost.filter fun x => decide (x.group = g)) ++ (st w'.trace).pending fd g := by
  obtain ⟨evs, fd, ht, hfd, hB⟩ := start_began hK h
  obtain ⟨read, h1, _, h3⟩ := hB.flow
  exact ⟨evs, fd, read, ht, hfd, h1, h3⟩

/-- The result, as a test, of asking for groups 10 and 11 with nothing logged in the meantime. -/
def quietSuccess : Bool :=
  match bindAndListen someEnv (groupKernel .little someGroups fun _ => []) [10, 11] 64 (some 1) (some 2) ⟨[], ⟨[]⟩, newNFLog⟩ with
  | .ok (none, w') => (logDatagrams .little w'.trace).isEmpty
  | _ => false

theorem quietSuccess_true : quietSuccess = true := by decide +kernel

/-- Non-vacuity of C136_partial. -/
example : ∃ w' fd, bindAndListen someEnv (groupKernel .little someGroups fun _ => []) [10, 11] 64 (some 1) (some 2) ⟨[], ⟨[]⟩, newNFLog⟩ =
    .ok (none, w') ∧ OpenOn w' fd ∧ ∀ g ∈ [10, 11], Served (stateAfter .little someGroups (fun _ => []) w'.trace) fd (BitVec.toNat (w := 16) g) 64 := by
  have ht := quietSuccess_true
  unfold quietSuccess at ht
  split at ht
  · rename_i w' h
    obtain ⟨fd, h1, h2⟩ := C136_partial someEnv (fun _ => False) _ _ (groupKernel_keeps .little someGroups_untouched (fun _ => []) _) _ _ _ _ _ w' h
      (evs := w'.trace) rfl (List.isEmpty_iff.mp ht)
    exact ⟨w', fd, h, h1, h2⟩
  · cases ht

/-! ### Three logs at the wrong time

Group 2 belongs to another program.  We ask for groups 1 and 2.  As soon as group 1 is ours, three packets are logged to it, and sent at once. -/

/-- How many datagrams were received so far? -/
def gotCount (tr : List (Ev LEv)) : Nat := (tr.filter fun | .recvfrom _ _ _ (.ok _) => true | _ => false).length

/-- Was the last thing that happened a datagram received? -/
def justGot (tr : List (Ev LEv)) : Bool := match tr.getLast? with
  | some (.recvfrom _ _ _ (.ok _)) => true
  | _ => false

/-- Three packets logged to group 1 when the first datagram (the acknowledgement that group 1 is ours) was received. -/
def threeLogs (tr : List (Ev LEv)) : List Act :=
  if gotCount tr = 1 ∧ justGot tr = true then
    [.log 1 none [69, 0, 0, 1], .flush 1, .log 1 none [69, 0, 0, 2], .flush 1, .log 1 none [69, 0, 0, 3], .flush 1]
  else []

/-- Asking for some groups. -/
def lossyStart (groups : List U16) : Res (Option Err × W) :=
  bindAndListen someEnv (groupKernel .little someGroups threeLogs) groups 64 (some 1) (some 2) ⟨[], ⟨[]⟩, newNFLog⟩

/-- Asking for groups 1 and 2 returns nil; group 2 belongs to the other program; its refusals, and the acknowledgement for group 1, are still
in the socket. -/
def falseSuccess : Bool :=
  match lossyStart [1, 2] with
  | .ok (none, w') =>
    let s := stateAfter .little someGroups threeLogs w'.trace
    decide (s.groups 2 = some ⟨.other 7, 2, 100, []⟩) && decide (w'.st.socket.map (·.fd) = some 3) &&
      decide (s.inbox 3 = [.ack (-1), .ack 0, .ack (-1)])
  | _ => false

theorem falseSuccess_true : falseSuccess = true := by decide +kernel

/-- Asking for group 1 alone returns nil; three packets were logged to it; only two of them are to be received. -/
def lostLog : Bool :=
  match lossyStart [1] with
  | .ok (none, w') =>
    let s := stateAfter .little someGroups threeLogs w'.trace
    decide (s.loggedTo 1 = [⟨1, none, [69, 0, 0, 1], 65531⟩, ⟨1, none, [69, 0, 0, 2], 65531⟩, ⟨1, none, [69, 0, 0, 3], 65531⟩]) &&
      decide (s.pending 3 1 = [⟨1, none, [69, 0, 0, 2], 65531⟩, ⟨1, none, [69, 0, 0, 3], 65531⟩]) && decide (w'.st.socket.map (·.fd) = some 3) &&
      w'.trace.all fun | .app (.log _ _) => false | .app (.error _ _ _) => false | _ => true
  | _ => false

theorem lostLog_true : lostLog = true := by decide +kernel

theorem open_three {w : W} {fd : Nat} (h : w.st.socket.map (·.fd) = some 3) (ho : OpenOn w fd) : fd = 3 := by
  obtain ⟨n, hn⟩ := ho
  rw [hn] at h
  simpa using h

/-- C136 is false: on a kernel that keeps log groups and whose calls do not fail, a start can return nil although one of the groups asked for
belongs to another program: the logs of the first group are taken for acknowledgements. -/
theorem C136_violated : ¬ ∀ (env : Env) (F : Nat → Prop) (K : Kernel LEv) (st : List (Ev LEv) → KState), Keeps env.e F K st → Healthy K st →
    ∀ (groups : List U16) (size : U32) (cb ecb : Option Nat) (w w' : W), groups.Nodup →
      bindAndListen env K groups size cb ecb w = .ok (none, w') →
      ∀ fd, OpenOn w' fd → ∀ g ∈ groups, (st w'.trace).Owns fd g.toNat := by
  intro hc
  have ht := falseSuccess_true
  unfold falseSuccess at ht
  split at ht
  · rename_i w' h
    simp only [Bool.and_eq_true, decide_eq_true_eq] at ht
    obtain ⟨⟨h1, h2⟩, _⟩ := ht
    have ho : OpenOn w' 3 := by
      unfold OpenOn
      cases hs : w'.st.socket with
      | none => rw [hs] at h2; cases h2
      | some x =>
        rw [hs] at h2
        simp only [Option.map_some, Option.some.injEq] at h2
        exact ⟨x.bufLen, by rw [← h2]⟩
    obtain ⟨k, hk, hko⟩ := hc someEnv (fun _ => False) _ _ (groupKernel_keeps .little someGroups_untouched threeLogs _)
      (groupKernel_healthy _ _ _) [1, 2] 64 (some 1) (some 2) _ w' (by decide) h 3 ho 2 (by simp)
    have h1 : (stateAfter .little someGroups threeLogs w'.trace).groups 2 = _ := h1
    have e2 : BitVec.toNat (2 : U16) = 2 := rfl
    rw [e2, h1] at hk
    cases hk
    cases hko
  · cases ht

/-- C137 is false: on a kernel that keeps log groups and whose calls do not fail, a packet logged to a free group we asked for can get lost:
the datagram is received by the start itself, and dropped. -/
theorem C137_violated : ¬ ∀ (env : Env) (F : Nat → Prop) (K : Kernel LEv) (st : List (Ev LEv) → KState), Keeps env.e F K st → Healthy K st →
    ∀ (groups : List U16) (size : U32) (cb ecb : Option Nat) (w w' : W), groups.Nodup →
      (∀ g ∈ groups, ¬ F g.toNat ∧ Free (st w.trace) g.toNat) → bindAndListen env K groups size cb ecb w = .ok (none, w') →
      ∀ fd, OpenOn w' fd → ∀ g ∈ groups, (st w'.trace).loggedTo g.toNat = (st w.trace).loggedTo g.toNat ++ (st w'.trace).pending fd g.toNat := by
  intro hc
  have ht := lostLog_true
  unfold lostLog at ht
  split at ht
  · rename_i w' h
    simp only [Bool.and_eq_true, decide_eq_true_eq] at ht
    obtain ⟨⟨⟨h1, h2⟩, h3⟩, _⟩ := ht
    have ho : OpenOn w' 3 := by
      unfold OpenOn
      cases hs : w'.st.socket with
      | none => rw [hs] at h3; cases h3
      | some x =>
        rw [hs] at h3
        simp only [Option.map_some, Option.some.injEq] at h3
        exact ⟨x.bufLen, by rw [← h3]⟩
    have := hc someEnv (fun _ => False) _ _ (groupKernel_keeps .little someGroups_untouched threeLogs _)
      (groupKernel_healthy _ _ _) [1] 64 (some 1) (some 2) _ w' (by decide) (by
        intro g hg
        simp only [List.mem_singleton] at hg
        subst hg
        exact ⟨fun h => h, rfl⟩) h 3 ho 1 (by simp)
    have e1 : BitVec.toNat (1 : U16) = 1 := rfl
    rw [e1] at this
    have h1 : (stateAfter .little someGroups threeLogs w'.trace).loggedTo 1 = _ := h1
    have h2 : (stateAfter .little someGroups threeLogs w'.trace).pending 3 1 = _ := h2
    rw [h1, h2] at this
    have h0 : (stateAfter .little someGroups threeLogs []).loggedTo 1 = [] := rfl
    have := this.trans (congrArg (· ++ _) h0)
    simp at this
  · cases ht

end Verif.Props.Log
