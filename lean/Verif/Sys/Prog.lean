import Verif.Sys.Lemmas
/-!
Code that shares no memory with other goroutines, cut at its system calls.

A `Prog` is what is left of such a piece of code: the next raw system call together with what follows for each answer.  Several
of them are run by a scheduler that lets one make its next system call at a time; between two system calls of its own a
goroutine works on its own memory only, so what others do in between makes no difference to it.  Nothing in this file
models a particular function of /repo; the wrappers restate syscalls.go (as Sys/Model.lean does).
-/
namespace Verif.Sys

/-- What is left to do: the next system call and what follows for each answer. -/
inductive Prog (α R : Type) where
  | ret (r : R)
  /-- a Go panic, which ends the process -/
  | crash
  /-- an endless loop without system calls -/
  | hang
  | socket (domain typ proto : Nat) (k : Except Nat Nat → Prog α R)
  | bind (fd : Nat) (k : Option Nat → Prog α R)
  | close (fd : Nat) (k : Option Nat → Prog α R)
  | sendto (fd : Nat) (bytes : List Byte) (flags : Nat) (k : Option Nat → Prog α R)
  | recvfrom (fd size flags : Nat) (k : Except Nat (List Byte) → Prog α R)

namespace Prog
variable {α τ R S : Type}

/-- Sequencing. -/
def andThen : Prog α R → (R → Prog α S) → Prog α S
  | ret r, f => f r
  | crash, _ => crash
  | hang, _ => hang
  | socket d t p k, f => socket d t p fun x => (k x).andThen f
  | bind fd k, f => bind fd fun x => (k x).andThen f
  | close fd k, f => close fd fun x => (k x).andThen f
  | sendto fd b fl k, f => sendto fd b fl fun x => (k x).andThen f
  | recvfrom fd s fl k, f => recvfrom fd s fl fun x => (k x).andThen f

instance : Monad (Prog α) where
  pure := ret
  bind := andThen

/-- Code without system calls. -/
def ofRes : Res R → Prog α R
  | .ok r => ret r
  | .panic => crash
  | .diverge => hang

/-- common/syscallwrappers/syscalls.go:20-26 `Socket`. -/
def sysSocket (d t p : Nat) : Prog α (Except Nat Nat) := socket d t p ret
/-- common/syscallwrappers/syscalls.go:13-18 `Bind`. -/
def sysBind (fd : Nat) : Prog α (Option Nat) :=
  bind fd fun r => if r.isSome then bind fd ret else ret none
/-- common/syscallwrappers/syscalls.go:35-40 `Close`. -/
def sysClose (fd : Nat) : Prog α (Option Nat) :=
  close fd fun r => if r.isSome then close fd ret else ret none
/-- common/syscallwrappers/syscalls.go:50-55 `Sendto`. -/
def sysSendto (fd : Nat) (b : List Byte) (fl : Nat) : Prog α (Option Nat) :=
  sendto fd b fl fun r => if r.isSome then sendto fd b fl ret else ret none
/-- common/syscallwrappers/syscalls.go:42-48 `Recvfrom`. -/
def sysRecvfrom (fd size fl : Nat) : Prog α (Except Nat (List Byte)) := recvfrom fd size fl ret

/-- Running a program alone, to its end. -/
def toM (K : Kernel α) : Prog α R → GoM (World α τ) R
  | ret r => fun w => .ok (r, w)
  | crash => fun _ => .panic
  | hang => fun _ => .diverge
  | socket d t p k => fun w => rawSocket K d t p w >>= fun x => toM K (k x.1) x.2
  | bind fd k => fun w => rawBind K fd w >>= fun x => toM K (k x.1) x.2
  | close fd k => fun w => rawClose K fd w >>= fun x => toM K (k x.1) x.2
  | sendto fd b fl k => fun w => rawSendto K fd b fl w >>= fun x => toM K (k x.1) x.2
  | recvfrom fd s fl k => fun w => rawRecvfrom K fd s fl w >>= fun x => toM K (k x.1) x.2

theorem toM_andThen (K : Kernel α) (p : Prog α R) (f : R → Prog α S) (w : World α τ) :
    toM K (p.andThen f) w = toM K p w >>= fun x => toM K (f x.1) x.2 := by
  induction p generalizing w with
  | ret r => rfl
  | crash => rfl
  | hang => rfl
  | socket d t p k ih => exact ih _ _
  | bind fd k ih => exact ih _ _
  | close fd k ih => exact ih _ _
  | sendto fd b fl k ih => exact ih _ _
  | recvfrom fd s fl k ih => exact ih _ _

/-- The next system call of a program, answered by the kernel: what is left afterwards, and what was seen. -/
def step (K : Kernel α) (tr : List (Ev α)) : Prog α R → Option (Prog α R × Ev α)
  | ret _ => none
  | crash => none
  | hang => none
  | socket d t p k => some (k (K.socket tr), .socket d t p (K.socket tr))
  | bind fd k => some (k (K.bind tr fd), .bind fd (K.bind tr fd))
  | close fd k => some (k (K.close tr fd), .close fd (K.close tr fd))
  | sendto fd b fl k => some (k (K.send tr fd b), .sendto fd b fl (K.send tr fd b))
  | recvfrom fd s fl k =>
    some (k ((K.recv tr fd).map (·.take s)), .recvfrom fd s fl ((K.recv tr fd).map (·.take s)))

/-- A program made these system calls, with these answers, and this is left of it. -/
inductive Follows : Prog α R → List (Ev α) → Prog α R → Prop
  | refl (p) : Follows p [] p
  | socket {d t p k x evs q} : Follows (k x) evs q → Follows (socket d t p k) (.socket d t p x :: evs) q
  | bind {fd k x evs q} : Follows (k x) evs q → Follows (bind fd k) (.bind fd x :: evs) q
  | close {fd k x evs q} : Follows (k x) evs q → Follows (close fd k) (.close fd x :: evs) q
  | sendto {fd b fl k x evs q} : Follows (k x) evs q → Follows (sendto fd b fl k) (.sendto fd b fl x :: evs) q
  | recvfrom {fd s fl k x evs q} : (∀ d, x = .ok d → d.length ≤ s) → Follows (k x) evs q →
      Follows (recvfrom fd s fl k) (.recvfrom fd s fl x :: evs) q

theorem Follows.trans {p q r : Prog α R} {as bs : List (Ev α)} (h : Follows p as q) (h' : Follows q bs r) :
    Follows p (as ++ bs) r := by
  induction h with
  | refl => exact h'
  | socket _ ih => exact .socket (ih h')
  | bind _ ih => exact .bind (ih h')
  | close _ ih => exact .close (ih h')
  | sendto _ ih => exact .sendto (ih h')
  | recvfrom hl _ ih => exact .recvfrom hl (ih h')

theorem cut_length (r : Except Nat (List Byte)) (s : Nat) : ∀ d, r.map (·.take s) = .ok d → d.length ≤ s := by
  intro d h
  cases r with
  | error e => cases h
  | ok b =>
    simp only [Except.map, Except.ok.injEq] at h
    subst h
    simp
    omega

theorem step_follows {K : Kernel α} {tr : List (Ev α)} {p q : Prog α R} {ev : Ev α}
    (h : step K tr p = some (q, ev)) : Follows p [ev] q := by
  cases p <;> simp only [step, reduceCtorEq, Option.some.injEq, Prod.mk.injEq] at h
  all_goals obtain ⟨rfl, rfl⟩ := h
  · exact .socket (.refl _)
  · exact .bind (.refl _)
  · exact .close (.refl _)
  · exact .sendto (.refl _)
  · exact .recvfrom (cut_length _ _) (.refl _)

/-- The kernel that answers like the events listed, from the moment the history is `n` long, and otherwise like `K`. -/
def replay (K : Kernel α) (n : Nat) (evs : List (Ev α)) : Kernel α where
  socket tr := match evs[tr.length - n]? with
    | some (.socket _ _ _ r) => r
    | _ => K.socket tr
  bind tr fd := match evs[tr.length - n]? with
    | some (.bind _ r) => r
    | _ => K.bind tr fd
  setsockopt := K.setsockopt
  close tr fd := match evs[tr.length - n]? with
    | some (.close _ r) => r
    | _ => K.close tr fd
  send tr fd b := match evs[tr.length - n]? with
    | some (.sendto _ _ _ r) => r
    | _ => K.send tr fd b
  recv tr fd := match evs[tr.length - n]? with
    | some (.recvfrom _ _ _ r) => r
    | _ => K.recv tr fd

/-- How a finished run ends. -/
def outcome (w : World α τ) : Prog α R → Res (R × World α τ)
  | ret r => .ok (r, w)
  | crash => .panic
  | hang => .diverge
  | _ => .diverge

/-- A program that has nothing left to call. -/
def stopped : Prog α R → Bool
  | ret _ => true
  | crash => true
  | hang => true
  | _ => false

/-- Whatever a program did among others, it does alone against a kernel giving the same answers. -/
theorem follows_toM (K : Kernel α) {p q : Prog α R} {evs : List (Ev α)} (h : Follows p evs q) (hq : q.stopped = true) :
    ∀ (pre : List (Ev α)) (w : World α τ) (n : Nat), w.trace.length = n + pre.length →
      toM (replay K n (pre ++ evs)) p w = outcome { w with trace := w.trace ++ evs } q := by
  induction h with
  | refl p =>
    intro pre w n hn
    have : ({ w with trace := w.trace ++ [] } : World α τ) = w := by simp
    rw [this]
    cases p <;> simp [stopped] at hq <;> rfl
  | @socket d t p k x evs q _ ih =>
    intro pre w n hn
    have hx : (pre ++ Ev.socket d t p x :: evs)[w.trace.length - n]? = some (.socket d t p x) := by
      rw [hn, Nat.add_sub_cancel_left, List.getElem?_append_right (Nat.le_refl _)]; simp
    have hK : (replay K n (pre ++ Ev.socket d t p x :: evs)).socket w.trace = x := by
      simp only [replay, hx]
    have := ih hq (pre ++ [.socket d t p x]) (w.log (.socket d t p x)) n (by simp [World.log, hn]; omega)
    simp only [List.append_assoc, List.singleton_append, World.log] at this
    simp only [toM, rawSocket, hK, Res.ok_bind, World.log]
    exact this
  | @bind fd k x evs q _ ih =>
    intro pre w n hn
    have hx : (pre ++ Ev.bind fd x :: evs)[w.trace.length - n]? = some (.bind fd x) := by
      rw [hn, Nat.add_sub_cancel_left, List.getElem?_append_right (Nat.le_refl _)]; simp
    have hK : (replay K n (pre ++ Ev.bind fd x :: evs)).bind w.trace fd = x := by
      simp only [replay, hx]
    have := ih hq (pre ++ [.bind fd x]) (w.log (.bind fd x)) n (by simp [World.log, hn]; omega)
    simp only [List.append_assoc, List.singleton_append, World.log] at this
    simp only [toM, rawBind, hK, Res.ok_bind, World.log]
    exact this
  | @close fd k x evs q _ ih =>
    intro pre w n hn
    have hx : (pre ++ Ev.close fd x :: evs)[w.trace.length - n]? = some (.close fd x) := by
      rw [hn, Nat.add_sub_cancel_left, List.getElem?_append_right (Nat.le_refl _)]; simp
    have hK : (replay K n (pre ++ Ev.close fd x :: evs)).close w.trace fd = x := by
      simp only [replay, hx]
    have := ih hq (pre ++ [.close fd x]) (w.log (.close fd x)) n (by simp [World.log, hn]; omega)
    simp only [List.append_assoc, List.singleton_append, World.log] at this
    simp only [toM, rawClose, hK, Res.ok_bind, World.log]
    exact this
  | @sendto fd b fl k x evs q _ ih =>
    intro pre w n hn
    have hx : (pre ++ Ev.sendto fd b fl x :: evs)[w.trace.length - n]? = some (.sendto fd b fl x) := by
      rw [hn, Nat.add_sub_cancel_left, List.getElem?_append_right (Nat.le_refl _)]; simp
    have hK : (replay K n (pre ++ Ev.sendto fd b fl x :: evs)).send w.trace fd b = x := by
      simp only [replay, hx]
    have := ih hq (pre ++ [.sendto fd b fl x]) (w.log (.sendto fd b fl x)) n (by simp [World.log, hn]; omega)
    simp only [List.append_assoc, List.singleton_append, World.log] at this
    simp only [toM, rawSendto, hK, Res.ok_bind, World.log]
    exact this
  | @recvfrom fd s fl k x evs q hl _ ih =>
    intro pre w n hn
    have hx : (pre ++ Ev.recvfrom fd s fl x :: evs)[w.trace.length - n]? = some (.recvfrom fd s fl x) := by
      rw [hn, Nat.add_sub_cancel_left, List.getElem?_append_right (Nat.le_refl _)]; simp
    have hK : (replay K n (pre ++ Ev.recvfrom fd s fl x :: evs)).recv w.trace fd = x := by
      simp only [replay, hx]
    have hm : x.map (·.take s) = x := by
      cases x with
      | error e => rfl
      | ok d => simp [Except.map, List.take_of_length_le (hl d rfl)]
    have := ih hq (pre ++ [.recvfrom fd s fl x]) (w.log (.recvfrom fd s fl x)) n (by simp [World.log, hn]; omega)
    simp only [List.append_assoc, List.singleton_append, World.log] at this
    simp only [toM, rawRecvfrom, hK, hm, Res.ok_bind, World.log]
    exact this

/-! ### Several goroutines -/

/-- The scheduler lets goroutine `i` make its next system call.  A goroutine that is at a panic takes the process down; one
that has returned does nothing. -/
def pick (K : Kernel α) (i : Nat) (s : Nat → Prog α R) : GoM (List (Ev α)) ((Nat → Prog α R) × List (Nat × Ev α)) :=
  fun tr =>
    match s i with
    | crash => .panic
    | p => match step K tr p with
      | none => .ok ((s, []), tr)
      | some (q, ev) => .ok ((fun k => if k = i then q else s k, [(i, ev)]), tr ++ [ev])

/-- A whole schedule; the result tells what is left of each, and who made which system call. -/
def sched (K : Kernel α) : List Nat → (Nat → Prog α R) →
    GoM (List (Ev α)) ((Nat → Prog α R) × List (Nat × Ev α))
  | [], s => fun tr => .ok ((s, []), tr)
  | i :: is, s => fun tr =>
    pick K i s tr >>= fun x => sched K is x.1.1 x.2 >>= fun y => .ok ((y.1.1, x.1.2 ++ y.1.2), y.2)

/-- The system calls of goroutine `i`. -/
def madeBy (i : Nat) (log : List (Nat × Ev α)) : List (Ev α) := (log.filter fun x => x.1 == i).map (·.2)

theorem madeBy_append (i : Nat) (a b : List (Nat × Ev α)) : madeBy i (a ++ b) = madeBy i a ++ madeBy i b := by
  simp [madeBy]

theorem pick_spec {K : Kernel α} {i : Nat} {s s' : Nat → Prog α R} {l : List (Nat × Ev α)} {tr tr' : List (Ev α)}
    (h : pick K i s tr = .ok ((s', l), tr')) :
    (s' = s ∧ l = [] ∧ tr' = tr ∧ (s i).stopped = true ∧ s i ≠ crash) ∨
    ∃ q ev, step K tr (s i) = some (q, ev) ∧ s' = (fun k => if k = i then q else s k) ∧ l = [(i, ev)] ∧
      tr' = tr ++ [ev] := by
  unfold pick at h
  cases hp : s i <;> rw [hp] at h <;> simp only [step, Res.ok.injEq, Prod.mk.injEq, reduceCtorEq] at h
  all_goals obtain ⟨⟨h1, h2⟩, h3⟩ := h
  all_goals first
    | exact .inl ⟨h1.symm, h2.symm, h3.symm, rfl, by simp⟩
    | exact .inr ⟨_, _, rfl, h1.symm, h2.symm, h3.symm⟩

theorem sched_follows {K : Kernel α} (is : List Nat) : ∀ {s s' : Nat → Prog α R} {l : List (Nat × Ev α)}
    {tr tr' : List (Ev α)}, sched K is s tr = .ok ((s', l), tr') →
    tr' = tr ++ l.map (·.2) ∧ ∀ i, Follows (s i) (madeBy i l) (s' i) := by
  induction is with
  | nil =>
    intro s s' l tr tr' h
    simp only [sched, Res.ok.injEq, Prod.mk.injEq] at h
    obtain ⟨⟨rfl, rfl⟩, rfl⟩ := h
    exact ⟨by simp, fun i => .refl _⟩
  | cons i is ih =>
    intro s s' l tr tr' h
    simp only [sched] at h
    obtain ⟨⟨⟨s1, l1⟩, tr1⟩, h1, h⟩ := Res.bind_eq_ok.mp h
    obtain ⟨⟨⟨s2, l2⟩, tr2⟩, h2, h⟩ := Res.bind_eq_ok.mp h
    simp only [Res.ok.injEq, Prod.mk.injEq] at h
    obtain ⟨⟨rfl, rfl⟩, rfl⟩ := h
    obtain ⟨ht, hf⟩ := ih h2
    dsimp only at ht
    rcases pick_spec h1 with ⟨rfl, rfl, rfl, _, _⟩ | ⟨q, ev, hs, rfl, rfl, rfl⟩
    · exact ⟨by simpa using ht, fun i => by simpa using hf i⟩
    · refine ⟨by simp [ht], fun j => ?_⟩
      rw [madeBy_append]
      have := hf j
      dsimp only at this
      by_cases hj : j = i
      · subst hj
        rw [if_pos rfl] at this
        have h0 : madeBy j [(j, ev)] = [ev] := by simp [madeBy]
        rw [h0]
        exact (step_follows hs).trans this
      · rw [if_neg hj] at this
        have h0 : madeBy j [(i, ev)] = [] := by simp [madeBy, Ne.symm hj]
        rw [h0]
        exact this

/-! ### Descriptors -/

/-- Whether descriptor `fd` is open after the history: opened by `socket`, and not closed since. -/
def opened (fd : Nat) (tr : List (Ev α)) : Bool :=
  tr.foldl (fun b ev => match ev with
    | .socket _ _ _ (.ok f) => if f = fd then true else b
    | .close f none => if f = fd then false else b
    | _ => b) false

/-- The goroutine that holds descriptor `fd`: the one that opened it, until it is closed. -/
def holder (fd : Nat) (log : List (Nat × Ev α)) : Option Nat :=
  log.foldl (fun h x => match x.2 with
    | .socket _ _ _ (.ok f) => if f = fd then some x.1 else h
    | .close f none => if f = fd then none else h
    | _ => h) none

/-- The descriptor a system call is made on. -/
def onFd : Ev α → Option Nat
  | .bind fd _ => some fd
  | .setsockopt fd _ _ _ _ => some fd
  | .linger fd _ => some fd
  | .close fd _ => some fd
  | .sendto fd _ _ _ => some fd
  | .recvfrom fd _ _ _ => some fd
  | .sendmsg fd _ _ => some fd
  | .socket _ _ _ _ => none
  | .app _ => none

/-- A kernel that never hands out a descriptor that is open, and closes an open one at the first attempt. -/
structure Orderly (K : Kernel α) : Prop where
  fresh : ∀ tr fd, K.socket tr = .ok fd → opened fd tr = false
  close : ∀ tr fd, opened fd tr = true → K.close tr fd = none

/-- A program that holds at most one descriptor (`o`), makes system calls on that one only, and ends with `Q`. -/
def Uses (Q : R → Option Nat → Prop) : Option Nat → Prog α R → Prop
  | o, ret r => Q r o
  | _, crash => True
  | _, hang => True
  | o, socket _ _ _ k => o = none ∧ (∀ n, Uses Q none (k (.error n))) ∧ ∀ fd, Uses Q (some fd) (k (.ok fd))
  | o, bind fd k => o = some fd ∧ ∀ x, Uses Q o (k x)
  | o, close fd k => o = some fd ∧ Uses Q none (k none)
  | o, sendto fd _ _ k => o = some fd ∧ ∀ x, Uses Q o (k x)
  | o, recvfrom fd _ _ k => o = some fd ∧ ∀ x, Uses Q o (k x)

theorem Uses.andThen {Q : R → Option Nat → Prop} {Q' : S → Option Nat → Prop} {p : Prog α R} {f : R → Prog α S}
    {o : Option Nat} (h : Uses Q o p) (hf : ∀ r o', Q r o' → Uses Q' o' (f r)) : Uses Q' o (p.andThen f) := by
  induction p generalizing o with
  | ret r => exact hf r o h
  | crash => trivial
  | hang => trivial
  | socket d t p k ih => exact ⟨h.1, fun n => ih _ (h.2.1 n), fun fd => ih _ (h.2.2 fd)⟩
  | bind fd k ih => exact ⟨h.1, fun x => ih x (h.2 x)⟩
  | close fd k ih => exact ⟨h.1, ih _ h.2⟩
  | sendto fd b fl k ih => exact ⟨h.1, fun x => ih x (h.2 x)⟩
  | recvfrom fd s fl k ih => exact ⟨h.1, fun x => ih x (h.2 x)⟩

/-- What is known while such programs run: who holds what, and that it is open. -/
structure Apart (Q : R → Option Nat → Prop) (s : Nat → Prog α R) (tr0 : List (Ev α)) (log : List (Nat × Ev α))
    (own : Nat → Option Nat) : Prop where
  uses : ∀ i, Uses Q (own i) (s i)
  holds : ∀ i fd, own i = some fd ↔ holder fd log = some i
  openFd : ∀ i fd, own i = some fd → opened fd (tr0 ++ log.map (·.2)) = true
  calls : ∀ pre i ev post fd, log = pre ++ (i, ev) :: post → onFd ev = some fd → holder fd pre = some i

theorem opened_snoc (fd : Nat) (tr : List (Ev α)) (ev : Ev α) : opened fd (tr ++ [ev]) = match ev with
    | .socket _ _ _ (.ok f) => if f = fd then true else opened fd tr
    | .close f none => if f = fd then false else opened fd tr
    | _ => opened fd tr := by
  simp only [opened, List.foldl_append, List.foldl_cons, List.foldl_nil]

theorem holder_snoc (fd : Nat) (log : List (Nat × Ev α)) (i : Nat) (ev : Ev α) : holder fd (log ++ [(i, ev)]) = match ev with
    | .socket _ _ _ (.ok f) => if f = fd then some i else holder fd log
    | .close f none => if f = fd then none else holder fd log
    | _ => holder fd log := by
  simp only [holder, List.foldl_append, List.foldl_cons, List.foldl_nil]

theorem calls_snoc {log : List (Nat × Ev α)} {i : Nat} {ev : Ev α}
    (h : ∀ pre i ev post fd, log = pre ++ (i, ev) :: post → onFd ev = some fd → holder fd pre = some i)
    (hev : ∀ fd, onFd ev = some fd → holder fd log = some i) :
    ∀ pre j ev' post fd, log ++ [(i, ev)] = pre ++ (j, ev') :: post → onFd ev' = some fd → holder fd pre = some j := by
  intro pre j ev' post fd he hfd
  rcases List.eq_nil_or_concat post with rfl | ⟨post', x, rfl⟩
  · have := List.append_inj' he rfl
    obtain ⟨rfl, h2⟩ := this
    simp only [List.cons.injEq, Prod.mk.injEq, and_true] at h2
    obtain ⟨rfl, rfl⟩ := h2
    exact hev fd hfd
  · have he' : log ++ [(i, ev)] = (pre ++ (j, ev') :: post') ++ [x] := by rw [he]; simp
    obtain ⟨rfl, _⟩ := List.append_inj' he' rfl
    exact h pre j ev' post' fd rfl hfd

theorem Apart.stay {Q : R → Option Nat → Prop} {s : Nat → Prog α R} {tr0 : List (Ev α)} {log : List (Nat × Ev α)}
    {own : Nat → Option Nat} (A : Apart Q s tr0 log own) {i fd : Nat} {q : Prog α R} {ev : Ev α} (ho : own i = some fd)
    (hq : Uses Q (own i) q) (hfd : onFd ev = some fd) (hns : ∀ f, ev ≠ .close f none) :
    Apart Q (fun k => if k = i then q else s k) tr0 (log ++ [(i, ev)]) own := by
  have h1 : ∀ f, holder f (log ++ [(i, ev)]) = holder f log := by
    intro f
    rw [holder_snoc]
    cases ev <;> simp only [onFd, reduceCtorEq] at hfd <;> try rfl
    rename_i r
    cases r with
    | none => exact absurd rfl (hns _)
    | some n => rfl
  have h2 : ∀ f, opened f (tr0 ++ (log ++ [(i, ev)]).map (·.2)) = opened f (tr0 ++ log.map (·.2)) := by
    intro f
    rw [List.map_append, ← List.append_assoc, List.map_cons, List.map_nil, opened_snoc]
    cases ev <;> simp only [onFd, reduceCtorEq] at hfd <;> try rfl
    rename_i r
    cases r with
    | none => exact absurd rfl (hns _)
    | some n => rfl
  refine ⟨?_, ?_, ?_, calls_snoc A.calls ?_⟩
  · intro k
    by_cases hk : k = i
    · rw [if_pos hk, hk]; exact hq
    · rw [if_neg hk]; exact A.uses k
  · intro k f; rw [h1]; exact A.holds k f
  · intro k f hk; rw [h2]; exact A.openFd k f hk
  · intro f hf
    rw [hfd] at hf
    cases hf
    exact (A.holds i fd).mp ho

/-- One more system call of one of them keeps them apart. -/
theorem Apart.step {Q : R → Option Nat → Prop} {K : Kernel α} (hK : Orderly K) {s : Nat → Prog α R}
    {tr0 : List (Ev α)} {log : List (Nat × Ev α)} {own : Nat → Option Nat} (A : Apart Q s tr0 log own) {i : Nat} {q : Prog α R}
    {ev : Ev α} (hs : Prog.step K (tr0 ++ log.map (·.2)) (s i) = some (q, ev)) :
    ∃ own', Apart Q (fun k => if k = i then q else s k) tr0 (log ++ [(i, ev)]) own' := by
  have hu := A.uses i
  cases hp : s i <;> rw [hp] at hs hu <;> simp only [Prog.step, reduceCtorEq, Option.some.injEq, Prod.mk.injEq] at hs
  · rename_i d t p k
    obtain ⟨rfl, rfl⟩ := hs
    obtain ⟨ho, he, hk⟩ := hu
    cases hr : K.socket (tr0 ++ log.map (·.2)) with
    | error n =>
      refine ⟨own, ?_, ?_, ?_, calls_snoc A.calls (fun fd h => by cases h)⟩
      · intro j
        by_cases hj : j = i
        · rw [if_pos hj, hj, ho]; exact he n
        · rw [if_neg hj]; exact A.uses j
      · intro j f; rw [holder_snoc]; exact A.holds j f
      · intro j f hj
        rw [List.map_append, ← List.append_assoc, List.map_cons, List.map_nil, opened_snoc]
        exact A.openFd j f hj
    | ok fd =>
      have hfresh := hK.fresh _ _ hr
      refine ⟨fun j => if j = i then some fd else own j, ?_, ?_, ?_, calls_snoc A.calls (fun fd h => by cases h)⟩
      · intro j
        by_cases hj : j = i
        · rw [if_pos hj, if_pos hj]; exact hk fd
        · rw [if_neg hj, if_neg hj]; exact A.uses j
      · intro j f
        rw [holder_snoc]
        dsimp only
        by_cases hji : j = i
        · rw [if_pos hji]
          by_cases hf : fd = f
          · rw [if_pos hf, hf, hji]
            exact ⟨fun _ => rfl, fun _ => rfl⟩
          · rw [if_neg hf]
            constructor
            · intro h; cases h; exact absurd rfl hf
            · intro h
              rw [hji] at h
              have := (A.holds i f).mpr h
              rw [ho] at this; cases this
        · rw [if_neg hji]
          by_cases hf : fd = f
          · rw [if_pos hf]
            constructor
            · intro h; subst hf; have := A.openFd j _ h; rw [hfresh] at this; cases this
            · intro h; cases h; exact absurd rfl hji
          · rw [if_neg hf]; exact A.holds j f
      · intro j f hj
        rw [List.map_append, ← List.append_assoc, List.map_cons, List.map_nil, opened_snoc]
        dsimp only
        by_cases hf : fd = f
        · rw [if_pos hf]
        · rw [if_neg hf]
          by_cases hji : j = i
          · rw [if_pos hji] at hj; cases hj; exact absurd rfl hf
          · rw [if_neg hji] at hj; exact A.openFd j f hj
  · obtain ⟨rfl, rfl⟩ := hs
    obtain ⟨ho, hk⟩ := hu
    exact ⟨own, A.stay ho (hk _) rfl (fun f h => by cases h)⟩
  · rename_i fd k
    obtain ⟨rfl, rfl⟩ := hs
    obtain ⟨ho, hk⟩ := hu
    have hc := hK.close _ _ (A.openFd i fd ho)
    rw [hc]
    have hother : ∀ j, j ≠ i → ∀ f, own j = some f → fd ≠ f := by
      intro j hj f hjf hf
      subst hf
      have h1 := (A.holds j _).mp hjf
      have h2 := (A.holds i _).mp ho
      rw [h1] at h2
      cases h2
      exact hj rfl
    refine ⟨fun j => if j = i then none else own j, ?_, ?_, ?_, calls_snoc A.calls ?_⟩
    · intro j
      by_cases hj : j = i
      · rw [if_pos hj, if_pos hj]; exact hk
      · rw [if_neg hj, if_neg hj]; exact A.uses j
    · intro j f
      rw [holder_snoc]
      dsimp only
      by_cases hji : j = i
      · rw [if_pos hji]
        by_cases hf : fd = f
        · rw [if_pos hf]
          constructor <;> intro h <;> cases h
        · rw [if_neg hf]
          constructor
          · intro h; cases h
          · intro h
            rw [hji] at h
            have := (A.holds i f).mpr h
            rw [ho] at this
            cases this
            exact absurd rfl hf
      · rw [if_neg hji]
        by_cases hf : fd = f
        · rw [if_pos hf]
          constructor
          · intro h; exact absurd hf (hother j hji f h)
          · intro h; cases h
        · rw [if_neg hf]; exact A.holds j f
    · intro j f hj
      by_cases hji : j = i
      · rw [if_pos hji] at hj; cases hj
      · rw [if_neg hji] at hj
        rw [List.map_append, ← List.append_assoc, List.map_cons, List.map_nil, opened_snoc]
        dsimp only
        rw [if_neg (hother j hji f hj)]
        exact A.openFd j f hj
    · intro f hf
      cases hf
      exact (A.holds i fd).mp ho
  · obtain ⟨rfl, rfl⟩ := hs
    obtain ⟨ho, hk⟩ := hu
    exact ⟨own, A.stay ho (hk _) rfl (fun f h => by cases h)⟩
  · obtain ⟨rfl, rfl⟩ := hs
    obtain ⟨ho, hk⟩ := hu
    exact ⟨own, A.stay ho (hk _) rfl (fun f h => by cases h)⟩

theorem Apart.sched {Q : R → Option Nat → Prop} {K : Kernel α} (hK : Orderly K) {tr0 : List (Ev α)} (is : List Nat) :
    ∀ {s s' : Nat → Prog α R} {log l : List (Nat × Ev α)} {own : Nat → Option Nat} {tr' : List (Ev α)},
      Apart Q s tr0 log own → Prog.sched K is s (tr0 ++ log.map (·.2)) = .ok ((s', l), tr') →
      ∃ own', Apart Q s' tr0 (log ++ l) own' := by
  induction is with
  | nil =>
    intro s s' log l own tr' A h
    simp only [Prog.sched, Res.ok.injEq, Prod.mk.injEq] at h
    obtain ⟨⟨rfl, rfl⟩, rfl⟩ := h
    exact ⟨own, by simpa using A⟩
  | cons i is ih =>
    intro s s' log l own tr' A h
    simp only [Prog.sched] at h
    obtain ⟨⟨⟨s1, l1⟩, tr1⟩, h1, h⟩ := Res.bind_eq_ok.mp h
    obtain ⟨⟨⟨s2, l2⟩, tr2⟩, h2, h⟩ := Res.bind_eq_ok.mp h
    simp only [Res.ok.injEq, Prod.mk.injEq] at h
    obtain ⟨⟨rfl, rfl⟩, rfl⟩ := h
    rcases pick_spec h1 with ⟨rfl, rfl, rfl, _, _⟩ | ⟨q, ev, hs, rfl, rfl, rfl⟩
    · exact ih A h2
    · obtain ⟨own1, A1⟩ := A.step hK hs
      have := ih (l := l2) (tr' := tr2) (s' := s2) A1 (by
        rw [List.map_append, ← List.append_assoc]; exact h2)
      rw [List.append_assoc] at this
      exact this

theorem Apart.init {Q : R → Option Nat → Prop} {s : Nat → Prog α R} (tr0 : List (Ev α)) (h : ∀ i, Uses Q none (s i)) :
    Apart Q s tr0 [] fun _ => none :=
  ⟨h, fun _ _ => ⟨fun h => (by cases h), fun h => (by cases h)⟩, fun _ _ h => (by cases h), fun pre i ev post fd h => (by simp at h)⟩

/-! ### Bounded programs, and programs that do not crash -/

/-- At most `n` system calls are left. -/
def Within : Nat → Prog α R → Prop
  | _, ret _ => True
  | _, crash => True
  | _, hang => True
  | 0, _ => False
  | n + 1, socket _ _ _ k => ∀ x, Within n (k x)
  | n + 1, bind _ k => ∀ x, Within n (k x)
  | n + 1, close _ k => ∀ x, Within n (k x)
  | n + 1, sendto _ _ _ k => ∀ x, Within n (k x)
  | n + 1, recvfrom _ _ _ k => ∀ x, Within n (k x)

theorem Within.mono {n m : Nat} {p : Prog α R} (h : Within n p) (hm : n ≤ m) : Within m p := by
  induction p generalizing n m with
  | ret r => cases m <;> trivial
  | crash => cases m <;> trivial
  | hang => cases m <;> trivial
  | socket d t p k ih | bind fd k ih | close fd k ih | sendto fd b fl k ih | recvfrom fd s fl k ih =>
    cases n with
    | zero => exact absurd h (by simp [Within])
    | succ n =>
      cases m with
      | zero => omega
      | succ m => exact fun x => ih x (h x) (by omega)

theorem Within.andThen {n m : Nat} {p : Prog α R} {f : R → Prog α S} (h : Within n p) (hf : ∀ r, Within m (f r)) :
    Within (n + m) (p.andThen f) := by
  induction p generalizing n with
  | ret r => exact (hf r).mono (by omega)
  | crash => cases h : n + m <;> trivial
  | hang => cases h : n + m <;> trivial
  | socket d t p k ih | bind fd k ih | close fd k ih | sendto fd b fl k ih | recvfrom fd s fl k ih =>
    cases n with
    | zero => exact absurd h (by simp [Within])
    | succ n =>
      rw [Nat.succ_add]
      exact fun x => ih x (h x)

theorem Within.step {K : Kernel α} {tr : List (Ev α)} {n : Nat} {p q : Prog α R} {ev : Ev α} (h : Within n p)
    (hs : Prog.step K tr p = some (q, ev)) : ∃ m, n = m + 1 ∧ Within m q := by
  cases p <;> simp only [Prog.step, reduceCtorEq, Option.some.injEq, Prod.mk.injEq] at hs
  all_goals obtain ⟨rfl, rfl⟩ := hs
  all_goals
    cases n with
    | zero => exact absurd h (by simp [Within])
    | succ n => exact ⟨n, rfl, h _⟩

/-- A goroutine that gets its turn often enough comes to its end. -/
theorem Within.sched {K : Kernel α} (is : List Nat) : ∀ {s s' : Nat → Prog α R} {l : List (Nat × Ev α)}
    {tr tr' : List (Ev α)} {i n : Nat}, Prog.sched K is s tr = .ok ((s', l), tr') → Within n (s i) →
      n ≤ is.count i → (s' i).stopped = true := by
  induction is with
  | nil =>
    intro s s' l tr tr' i n h hw hn
    simp only [Prog.sched, Res.ok.injEq, Prod.mk.injEq] at h
    obtain ⟨⟨rfl, rfl⟩, rfl⟩ := h
    simp only [List.count_nil, Nat.le_zero_eq] at hn
    subst hn
    cases hp : s i <;> rw [hp] at hw <;> simp [Within] at hw <;> rfl
  | cons j is ih =>
    intro s s' l tr tr' i n h hw hn
    simp only [Prog.sched] at h
    obtain ⟨⟨⟨s1, l1⟩, tr1⟩, h1, h⟩ := Res.bind_eq_ok.mp h
    obtain ⟨⟨⟨s2, l2⟩, tr2⟩, h2, h⟩ := Res.bind_eq_ok.mp h
    simp only [Res.ok.injEq, Prod.mk.injEq] at h
    obtain ⟨⟨rfl, rfl⟩, rfl⟩ := h
    by_cases hij : j = i
    · subst hij
      rw [List.count_cons_self] at hn
      rcases pick_spec h1 with ⟨rfl, rfl, rfl, hst, _⟩ | ⟨q, ev, hs, rfl, rfl, rfl⟩
      · refine ih (n := 0) h2 ?_ (by omega)
        dsimp only
        cases hp : s1 j <;> rw [hp] at hst <;> simp [stopped] at hst <;> trivial
      · obtain ⟨m, rfl, hm⟩ := hw.step hs
        refine ih (n := m) h2 ?_ (by omega)
        dsimp only
        rw [if_pos rfl]; exact hm
    · rw [List.count_cons_of_ne (fun h => hij h)] at hn
      refine ih (n := n) h2 ?_ hn
      rcases pick_spec h1 with ⟨rfl, rfl, rfl, _, _⟩ | ⟨q, ev, hs, rfl, rfl, rfl⟩
      · exact hw
      · dsimp only
        rw [if_neg (Ne.symm hij)]; exact hw

/-- A program that neither crashes nor hangs as long as the answers are `good`. -/
def Safe (good : Ev α → Prop) : Prog α R → Prop
  | ret _ => True
  | crash => False
  | hang => False
  | socket d t p k => ∀ x, good (.socket d t p x) → Safe good (k x)
  | bind fd k => ∀ x, good (.bind fd x) → Safe good (k x)
  | close fd k => ∀ x, good (.close fd x) → Safe good (k x)
  | sendto fd b fl k => ∀ x, good (.sendto fd b fl x) → Safe good (k x)
  | recvfrom fd s fl k => ∀ x, good (.recvfrom fd s fl x) → Safe good (k x)

theorem Safe.andThen {good : Ev α → Prop} {p : Prog α R} {f : R → Prog α S} (h : Safe good p)
    (hf : ∀ r, Safe good (f r)) : Safe good (p.andThen f) := by
  induction p with
  | ret r => exact hf r
  | crash => exact h
  | hang => exact h
  | socket d t p k ih | bind fd k ih | close fd k ih | sendto fd b fl k ih | recvfrom fd s fl k ih =>
    exact fun x hx => ih x (h x hx)

theorem Safe.step {good : Ev α → Prop} {K : Kernel α} {tr : List (Ev α)} {p q : Prog α R} {ev : Ev α}
    (h : Safe good p) (hs : Prog.step K tr p = some (q, ev)) (hev : good ev) : Safe good q := by
  cases p <;> simp only [Prog.step, reduceCtorEq, Option.some.injEq, Prod.mk.injEq] at hs
  all_goals obtain ⟨rfl, rfl⟩ := hs
  all_goals exact h _ hev

/-- Under such a kernel every schedule can be run, and whatever has stopped has returned. -/
theorem Safe.sched {good : Ev α → Prop} {K : Kernel α}
    (hK : ∀ tr (p q : Prog α R) ev, Prog.step K tr p = some (q, ev) → Safe good p → good ev) (is : List Nat) :
    ∀ {s : Nat → Prog α R} (tr : List (Ev α)), (∀ i, Safe good (s i)) →
      ∃ s' l tr', Prog.sched K is s tr = .ok ((s', l), tr') ∧ ∀ i, Safe good (s' i) := by
  induction is with
  | nil => intro s tr h; exact ⟨s, [], tr, rfl, h⟩
  | cons i is ih =>
    intro s tr h
    have hi := h i
    rcases hst : Prog.step K tr (s i) with _ | ⟨q, ev⟩
    · have hp : pick K i s tr = .ok ((s, []), tr) := by
        unfold pick
        cases hsi : s i <;> rw [hsi] at hi hst <;> simp only [Prog.step, reduceCtorEq, Safe] at hi hst ⊢
      obtain ⟨s', l, tr', h1, h2⟩ := ih tr h
      refine ⟨s', l, tr', ?_, h2⟩
      simp only [Prog.sched, hp, Res.ok_bind, h1, List.nil_append]
    · have hp : pick K i s tr = .ok ((fun k => if k = i then q else s k, [(i, ev)]), tr ++ [ev]) := by
        unfold pick
        cases hsi : s i <;> rw [hsi] at hi hst <;>
          simp only [Prog.step, reduceCtorEq, Safe, Option.some.injEq, Prod.mk.injEq] at hi hst ⊢
        all_goals obtain ⟨rfl, rfl⟩ := hst
        all_goals exact rfl
      obtain ⟨s', l, tr', h1, h2⟩ := ih (s := fun k => if k = i then q else s k) (tr ++ [ev]) (by
        intro k
        by_cases hk : k = i
        · rw [if_pos hk]; exact hi.step hst (hK tr _ _ _ hst hi)
        · rw [if_neg hk]; exact h k)
      refine ⟨s', (i, ev) :: l, tr', ?_, h2⟩
      simp only [Prog.sched, hp, Res.ok_bind, h1, List.singleton_append]

end Prog
end Verif.Sys
