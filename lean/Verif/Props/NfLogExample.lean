import Verif.NfLog.Example
import Verif.Props.NfLogKernelRead
/-! C158: the example program of nflog. -/
namespace Verif.Props.Log
open Verif.Common Verif.Sys Verif.Spec Verif.NfLog Verif.Packet

/-- C158. The example program, on a kernel that keeps log groups and whose calls do not fail, when group 32 is free and nobody else uses it and
only ordinary packets are logged to it: it starts without error, its reader never crashes, and what it prints is, in order and each once, the
packets logged to group 32 since the start, but for those the start itself received; what it has not yet printed is still to be received, as
long as the reader goes on, and the reader ends only if a receive fails. -/
theorem C158_prints (F : Nat → Prop) (K : Kernel LEv) (st : List (Ev LEv) → KState) (hK : Keeps .little F K st) (hH : Healthy K st)
    (hF : ¬ F 32) (w : W) (hfree : Free (st w.trace) 32) (hP : ∀ tr, ∀ x ∈ (st tr).logged, x.group = 32 → Ordinary x.packet) :
    ∃ (w1 : W) (start : List (Ev LEv)) (fd : Nat) (lost : List Entry), exampleMain K 0 w = .ok ((none, false), w1) ∧
    w1.trace = w.trace ++ start ∧ OpenOn w1 fd ∧ (logDatagrams .little start = [] → lost = []) ∧
    ∀ n, ∃ fin w' evs ms read rest, exampleMain K n w = .ok ((none, fin), w') ∧ w'.trace = w.trace ++ start ++ evs ∧
      logs evs = ms.map (1, ·) ∧ Reports ms read ∧
      (st w'.trace).loggedTo 32 = (st w.trace).loggedTo 32 ++ (lost.filter fun x => decide (x.group = 32)) ++
        (read.filter fun x => decide (x.group = 32)) ++ rest ∧
      (fin = false → rest = (st w'.trace).pending fd 32) ∧
      (fin = true → ∃ e ∈ failures evs, e ≠ 105) := by
  obtain ⟨w1, h1⟩ := C135_works exampleEnv F K st hK hH [32] 64 (some 1) (some 2) w (by decide)
    (fun g hg => by cases List.mem_singleton.mp hg; exact hF) (fun g hg => by cases List.mem_singleton.mp hg; exact hfree)
  obtain ⟨start, fd, lost, g1, g2, g3, g4⟩ := C138_reported exampleEnv rfl F K st hK (someEnv_calm K) [32] 64 (.inr (by decide)) 1 (some 2)
    (fun tr x hx hg => by
      obtain ⟨g, h, hg⟩ := hg
      cases List.mem_singleton.mp h
      exact hP tr x hx hg.symm) w w1 h1
  refine ⟨w1, start, fd, lost, ?_, g1, g2, g3, fun n => ?_⟩
  · unfold exampleMain
    simp only [GoM.bind_apply, h1, Res.ok_bind]
    rfl
  obtain ⟨fin, w', evs, ms, read, k1, k2, k3, k4, _, _, k5, k6⟩ := g4 n
  obtain ⟨rest, k7, k8⟩ := k6 32 hF hfree
  refine ⟨fin, w', evs, ms, read, rest, ?_, by rw [k2, g1], k3, k4, k7, k8, fun h => ?_⟩
  · unfold exampleMain
    simp only [GoM.bind_apply, h1, k1, Res.ok_bind]
    rfl
  · obtain ⟨early, e, a, b, _⟩ := k5 h
    exact ⟨e, by rw [a]; simp, b⟩

/-- C158: if the start fails - because group 32 is taken, say - the program logs the error and reads nothing. -/
theorem C158_refused (F : Nat → Prop) (K : Kernel LEv) (st : List (Ev LEv) → KState) (hK : Keeps .little F K st) (w w1 : W) (r : Option Err)
    (h : bindAndListen exampleEnv K [32] 64 (some 1) (some 2) w = .ok (r, w1)) {evs : List (Ev LEv)} (ht : w1.trace = w.trace ++ evs)
    (hl : logDatagrams .little evs = []) (hF : ¬ F 32) (hbad : ¬ Free (st w.trace) 32) (n : Nat) :
    ∃ err, exampleMain K n w = .ok ((some err, true), w1) ∧ ∀ g, ¬ F g → (st w1.trace).conf g = (st w.trace).conf g := by
  have hr := C135_taken exampleEnv F K st hK [32] 64 (some 1) (some 2) w w1 r h ht hl (.inr ⟨32, by simp, hF, hbad⟩)
  obtain ⟨evs', _, _, a⟩ := C135_start exampleEnv F K st hK [32] 64 (some 1) (some 2) w w1 r h
  rcases r with _ | err
  · exact absurd rfl hr
  · refine ⟨err, ?_, (a hr).2⟩
    unfold exampleMain
    simp only [GoM.bind_apply, h, Res.ok_bind]
    rfl

/-! ### A concrete case -/

/-- When the reader is started two packets are logged to group 32, the first one under the prefix "A", and one to group 10; all are sent. -/
def twoShown (tr : List (Ev LEv)) : List Act :=
  match tr.getLast? with
  | some (.app .spawnReader) => [.log 32 (some [65]) tcp44, .log 10 none tcp44, .log 32 none tcp44, .flush 32, .flush 10]
  | _ => []

/-- After the start they lie in the socket. -/
def shownReady : Bool :=
  match bindAndListen exampleEnv (groupKernel .little someGroups twoShown) [32] 64 (some 1) (some 2) ⟨[], ⟨[]⟩, newNFLog⟩ with
  | .ok (none, w') => decide (w'.st.socket.map (·.fd) = some 3) &&
      decide ((stateAfter .little someGroups twoShown w'.trace).inbox 3 = [.logs [⟨32, some [65], tcp44, 64⟩, ⟨32, none, tcp44, 64⟩]])
  | _ => false

theorem shownReady_true : shownReady = true := by decide +kernel

theorem twoShown_ordinary (tr : List (Ev LEv)) : ∀ x ∈ (stateAfter .little someGroups twoShown tr).logged, Ordinary x.packet :=
  scripted_logged .little someGroups twoShown (fun _ p => Ordinary p) rfl (by
    intro tr g pfx p h
    unfold twoShown at h
    split at h
    · simp only [List.mem_cons, Act.log.injEq, List.not_mem_nil, or_false, reduceCtorEq] at h
      rcases h with ⟨_, _, rfl⟩ | ⟨_, _, rfl⟩ | ⟨_, _, rfl⟩ <;> exact ⟨tcp44_whole, .inl (by decide)⟩
    · cases h) tr

/-- C158, a concrete case: this kernel meets what `C158_prints` asks for, and after one turn of its reader the program has printed the two
packets of group 32: one under the prefix "A", one under none. -/
theorem C158_example :
    Keeps .little (fun _ => False) (groupKernel .little someGroups twoShown) (stateAfter .little someGroups twoShown) ∧
    Healthy (groupKernel .little someGroups twoShown) (stateAfter .little someGroups twoShown) ∧
    Free (stateAfter .little someGroups twoShown []) 32 ∧
    (∀ tr, ∀ x ∈ (stateAfter .little someGroups twoShown tr).logged, Ordinary x.packet) ∧
    ∃ w' start evs a b, exampleMain (groupKernel .little someGroups twoShown) 1 ⟨[], ⟨[]⟩, newNFLog⟩ = .ok ((none, false), w') ∧
      w'.trace = start ++ evs ∧ logs evs = [(1, a), (1, b)] ∧ a.prefix' = [65] ∧ b.prefix' = [] := by
  refine ⟨groupKernel_keeps .little someGroups_untouched twoShown _, groupKernel_healthy _ _ _, rfl, twoShown_ordinary, ?_⟩
  have ht := shownReady_true
  unfold shownReady at ht
  split at ht
  · rename_i w1 h
    simp only [Bool.and_eq_true, decide_eq_true_eq] at ht
    obtain ⟨h1, h2⟩ := ht
    obtain ⟨fd, ⟨k, ho⟩, hrun⟩ := C138_delivered exampleEnv rfl (fun _ => False) _ _ (groupKernel_keeps .little someGroups_untouched twoShown _)
      (groupKernel_healthy _ _ _) (someEnv_calm _) [32] 64 (.inr (by decide)) 1 (some 2) (fun tr x hx _ => twoShown_ordinary tr x hx) _ w1 h
    have hfd : fd = 3 := by
      rw [ho] at h1
      simpa using h1
    subst hfd
    have h2 : (stateAfter .little someGroups twoShown w1.trace).inbox 3 = _ := h2
    obtain ⟨w', evs, ms, a1, a2, a3, a4, _⟩ := hrun 1 (by rw [h2]; decide)
    rw [h2] at a4
    have e1 : entriesOf (List.take 1 [Note.logs [⟨32, some [65], tcp44, 64⟩, ⟨32, none, tcp44, 64⟩]]) =
      [⟨32, some [65], tcp44, 64⟩, ⟨32, none, tcp44, 64⟩] := by simp
    rw [e1] at a4
    cases a4 with
    | @cons a _ ms _ ha a4 =>
      cases a4 with
      | @cons b _ ms _ hb a4 =>
        cases a4
        refine ⟨w', w1.trace, evs, a, b, ?_, a2, by rw [a3]; rfl, ?_, ?_⟩
        · unfold exampleMain
          simp only [GoM.bind_apply, h, a1, Res.ok_bind]
          rfl
        · obtain ⟨p1, _⟩ := ha
          exact p1
        · obtain ⟨p1, _⟩ := hb
          exact p1
  · cases ht

end Verif.Props.Log
