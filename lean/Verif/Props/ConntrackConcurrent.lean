import Verif.Conntrack.Prog
import Verif.Props.Conntrack
/-!
C120: conntrack updates made at the same time do not mix.  C121: closing touches only one's own descriptor.

For any number of calls of the update functions made at the same time, on one handle or several; every interleaving of their
system calls; every kernel.
-/
namespace Verif.Props.Ct
open Verif.Common Verif.Sys Verif.Spec Verif.Conntrack

/-- The system calls made by goroutine `i`, in order. -/
def callsOf (i : Nat) (log : List (Nat × Ev CEv)) : List (Ev CEv) := (log.filter fun x => x.1 == i).map (·.2)

/-- A call that came to its end saw what it would have seen alone, facing some kernel. -/
theorem alone_of_finished (env : Env) (K : Kernel CEv) (calls : List Call) (is : List Nat) (tr tr' : List (Ev CEv))
    (s : Nat → P (Option Int × Option Err)) (log : List (Nat × Ev CEv))
    (h : Prog.sched K is (callProgs env calls) tr = .ok ((s, log), tr')) (i : Nat) (c : Call) (hc : calls[i]? = some c)
    (r : Option Int × Option Err) (hr : s i = .ret r) (w : W) :
    ∃ K', c.run env K' w = .ok (r, { w with trace := w.trace ++ callsOf i log }) := by
  obtain ⟨_, hf⟩ := Prog.sched_follows is h
  have hi := hf i
  rw [callProgs, hc, hr] at hi
  refine ⟨Prog.replay K w.trace.length (callsOf i log), ?_⟩
  have := Prog.follows_toM (τ := Unit) K hi rfl [] w w.trace.length rfl
  rw [← Call.prog_alone]
  exact this

/-- What a finished call must have done and returned: the system calls `evs` are one exchange, or one for each flow of the named
connection up to the first failure, each over a request that names exactly that connection and that value; and the result is the
outcome of those. -/
def DoneRight (env : Env) : Call → Option Int × Option Err → List (Ev CEv) → Prop
  | .mark s d p sp dp m, (n, r), evs => ∀ c, Names env s d p sp dp c →
      n = none ∧ Exchange env.e (MarkReq env.e c m) r evs
  | .bulkMark fs s d p sp dp m, (n, r), evs => ∀ c, Names env s d p sp dp c → m ≠ 0 → (∀ f ∈ fs, V4Flow f) →
      ∃ first, Updates env.e (MarkReq env.e c m) (matching fs c) first evs ∧ r = first.map (.wrap "Error %v") ∧
        n = some (if r = none then (matching fs c : Int) else 0)
  | .bulkLabel fs s d p sp dp m, (n, r), evs => ∀ c, Names env s d p sp dp c → (∀ f ∈ fs, V4Flow f) →
      Updates env.e (LabelRequest env.e c m) (matching fs c) r evs ∧
        n = some (if r = none then (matching fs c : Int) else 0)

theorem run_done (env : Env) (K : Kernel CEv) (c : Call) (r : Option Int × Option Err) (w : W) (evs : List (Ev CEv))
    (h : c.run env K w = .ok (r, { w with trace := w.trace ++ evs })) : DoneRight env c r evs := by
  have key : ∀ evs' : List (Ev CEv), ({ w with trace := w.trace ++ evs } : W) = { w with trace := w.trace ++ evs' } →
      evs = evs' := by
    intro evs' h
    exact List.append_cancel_left (congrArg World.trace h)
  obtain ⟨n, r⟩ := r
  cases c with
  | mark s d p sp dp m =>
    intro c hn
    simp only [Call.run, GoM.bind_apply] at h
    obtain ⟨⟨r1, w1⟩, h1, h⟩ := Res.bind_eq_ok.mp h
    simp only [GoM.pure_apply, Res.ok.injEq, Prod.mk.injEq] at h
    obtain ⟨⟨rfl, rfl⟩, rfl⟩ := h
    obtain ⟨evs', h2, h3⟩ := C39_mark_update env K m hn w _ r1 h1
    cases key evs' h3
    exact ⟨rfl, h2⟩
  | bulkMark fs s d p sp dp m =>
    intro c hn hm hf
    simp only [Call.run, GoM.bind_apply] at h
    obtain ⟨⟨⟨n1, r1⟩, w1⟩, h1, h⟩ := Res.bind_eq_ok.mp h
    simp only [GoM.pure_apply, Res.ok.injEq, Prod.mk.injEq] at h
    obtain ⟨⟨rfl, rfl⟩, rfl⟩ := h
    obtain ⟨first, evs', h2, h3, h4, h5⟩ := C42_bulk_mark env K hn hm fs hf n1 r1 w _ h1
    cases key evs' h3
    exact ⟨first, h2, h4, by rw [h5]⟩
  | bulkLabel fs s d p sp dp m =>
    intro c hn hf
    simp only [Call.run, GoM.bind_apply] at h
    obtain ⟨⟨⟨n1, r1⟩, w1⟩, h1, h⟩ := Res.bind_eq_ok.mp h
    simp only [GoM.pure_apply, Res.ok.injEq, Prod.mk.injEq] at h
    obtain ⟨⟨rfl, rfl⟩, rfl⟩ := h
    obtain ⟨evs', h2, h3, h4⟩ := C43_bulk_label env K hn fs hf n1 r1 w _ h1
    cases key evs' h3
    exact ⟨h2, by rw [h4]⟩

/-- C120: whatever calls are made at the same time, however their system calls interleave and whatever the kernel answers: the
system calls made by a call that returned, taken by themselves, are one proper exchange for each request, over requests naming
its connection and its value and nothing else, and its result is that of its own exchanges. -/
theorem C120_own_result (env : Env) (K : Kernel CEv) (calls : List Call) (is : List Nat) (tr tr' : List (Ev CEv))
    (s : Nat → P (Option Int × Option Err)) (log : List (Nat × Ev CEv))
    (h : Prog.sched K is (callProgs env calls) tr = .ok ((s, log), tr')) :
    tr' = tr ++ log.map (·.2) ∧
      ∀ i c r, calls[i]? = some c → s i = .ret r → DoneRight env c r (callsOf i log) := by
  refine ⟨(Prog.sched_follows is h).1, fun i c r hc hr => ?_⟩
  obtain ⟨K', hK⟩ := alone_of_finished env K calls is tr tr' s log h i c hc r hr ⟨[], ⟨[]⟩, ()⟩
  exact run_done env K' c r _ _ hK

/-! ### Descriptors -/

theorem uses_sysBind (Q : Option Nat → Option Nat → Prop) (fd : Nat) (h : ∀ x, Q x (some fd)) :
    Prog.Uses Q (some fd) (Prog.sysBind fd : P _) := by
  refine ⟨rfl, fun x => ?_⟩
  cases x with
  | none => exact h none
  | some n => exact ⟨rfl, fun y => h y⟩

theorem uses_sysSendto (Q : Option Nat → Option Nat → Prop) (fd : Nat) (b : List Byte) (fl : Nat)
    (h : ∀ x, Q x (some fd)) : Prog.Uses Q (some fd) (Prog.sysSendto fd b fl : P _) := by
  refine ⟨rfl, fun x => ?_⟩
  cases x with
  | none => exact h none
  | some n => exact ⟨rfl, fun y => h y⟩

theorem uses_ofRes {R : Type} (Q : R → Option Nat → Prop) (o : Option Nat) (r : Res R) (h : ∀ x, Q x o) :
    Prog.Uses Q o (Prog.ofRes r : P R) := by
  cases r with
  | ok x => exact h x
  | panic => trivial
  | diverge => trivial

theorem uses_queryP (env : Env) (fd : Nat) (msg : NetlinkMessage) :
    Prog.Uses (fun _ o => o = some fd) (some fd) (queryP env fd msg) := by
  refine Prog.Uses.andThen (Q := fun _ o => o = some fd) ?_ ?_
  · refine Prog.Uses.andThen (Q := fun _ o => o = some fd) (uses_ofRes _ _ _ fun _ => rfl) ?_
    rintro b _ rfl
    refine Prog.Uses.andThen (Q := fun _ o => o = some fd) (uses_sysSendto _ _ _ _ fun _ => rfl) ?_
    rintro r _ rfl
    cases r <;> rfl
  · rintro r _ rfl
    cases r with
    | some err => rfl
    | none =>
      refine Prog.Uses.andThen (Q := fun _ o => o = some fd) (p := Prog.sysRecvfrom fd _ 0) ⟨rfl, fun x => rfl⟩ ?_
      rintro r _ rfl
      cases r with
      | error n => rfl
      | ok d => exact uses_ofRes _ _ _ fun _ => rfl

/-- After `open`: the descriptor returned is held. -/
def GotFd {X : Type} : Except X Nat → Option Nat → Prop
  | .error _, _ => True
  | .ok fd, o => o = some fd

theorem uses_sendMessageP (env : Env) (hdr : NlMsghdr) (data : List Byte) :
    Prog.Uses (fun _ o => o = none) none (sendMessageP env hdr data) := by
  refine Prog.Uses.andThen (p := openSockP)
    (Q := GotFd) ?_ ?_
  · refine Prog.Uses.andThen (p := Prog.sysSocket 16 3 12)
      (Q := GotFd) ⟨rfl, fun n => trivial, fun fd => rfl⟩ ?_
    intro r o h
    cases r with
    | error n => trivial
    | ok fd =>
      cases h
      refine Prog.Uses.andThen (Q := fun _ o => o = some fd) (uses_sysBind _ _ fun _ => rfl) ?_
      rintro r _ rfl
      cases r with
      | none => exact rfl
      | some n => exact trivial
  · intro r o h
    cases r with
    | error n => trivial
    | ok fd =>
      cases h
      refine Prog.Uses.andThen (uses_queryP env fd _) ?_
      rintro r _ rfl
      exact ⟨rfl, rfl⟩

theorem uses_updateMarkP (env : Env) (s d : String) (p : Byte) (sp dp : U16) (m : U32) :
    Prog.Uses (fun _ o => o = none) none (updateMarkP env s d p sp dp m) := by
  refine Prog.Uses.andThen (Q := fun _ o => o = none) (uses_ofRes _ _ _ fun _ => rfl) ?_
  rintro r _ rfl
  exact uses_sendMessageP env _ _

theorem uses_markLoopP (env : Env) (s d : String) (p : Byte) (sp dp : U16) (m : U32) (fs : List Flow) :
    ∀ n, Prog.Uses (fun _ o => o = none) none (markLoopP env s d p sp dp m fs n) := by
  induction fs with
  | nil => intro n; rfl
  | cons f fs ih =>
    intro n
    refine Prog.Uses.andThen (Q := fun _ o => o = none) (uses_ofRes _ _ _ fun _ => rfl) ?_
    rintro b _ rfl
    by_cases hb : (b && m != 0) = true
    · rw [if_pos hb]
      refine Prog.Uses.andThen (uses_updateMarkP env s d p sp dp m) ?_
      rintro r _ rfl
      cases r with
      | some err => rfl
      | none => exact ih _
    · rw [if_neg hb]; exact ih _

theorem uses_labelLoopP (env : Env) (s d : String) (p : Byte) (sp dp : U16) (m : U32) (fs : List Flow) :
    ∀ n, Prog.Uses (fun _ o => o = none) none (labelLoopP env s d p sp dp m fs n) := by
  induction fs with
  | nil => intro n; rfl
  | cons f fs ih =>
    intro n
    refine Prog.Uses.andThen (Q := fun _ o => o = none) (uses_ofRes _ _ _ fun _ => rfl) ?_
    rintro b _ rfl
    by_cases hb : b = true
    · rw [if_pos hb]
      refine Prog.Uses.andThen (Q := fun _ o => o = none) (uses_ofRes _ _ _ fun _ => rfl) ?_
      rintro msg _ rfl
      refine Prog.Uses.andThen (uses_sendMessageP env _ _) ?_
      rintro r _ rfl
      cases r with
      | some err => rfl
      | none => exact ih _
    · rw [if_neg hb]; exact ih _

theorem uses_call (env : Env) (c : Call) : Prog.Uses (fun _ o => o = none) none (c.prog env) := by
  cases c with
  | mark s d p sp dp m =>
    refine Prog.Uses.andThen (uses_updateMarkP env s d p sp dp m) ?_
    rintro r _ rfl
    rfl
  | bulkMark fs s d p sp dp m =>
    refine Prog.Uses.andThen (Q := fun _ o => o = none) ?_ (fun r o h => h)
    refine Prog.Uses.andThen (uses_markLoopP env s d p sp dp m fs 0) ?_
    rintro ⟨n, r⟩ _ rfl
    cases r with
    | some err => rfl
    | none => dsimp only; rw [if_pos (Int.natCast_nonneg n)]; rfl
  | bulkLabel fs s d p sp dp m =>
    refine Prog.Uses.andThen (Q := fun _ o => o = none) ?_ (fun r o h => h)
    refine Prog.Uses.andThen (uses_labelLoopP env s d p sp dp m fs 0) ?_
    rintro ⟨n, r⟩ _ rfl
    cases r with
    | some err => rfl
    | none => dsimp only; rw [if_pos (Int.natCast_nonneg n)]; rfl

theorem uses_progs (env : Env) (calls : List Call) (i : Nat) :
    Prog.Uses (fun _ o => o = none) none (callProgs env calls i) := by
  unfold callProgs
  cases calls[i]? with
  | none => rfl
  | some c => exact uses_call env c

/-- C120: if the kernel never hands out a descriptor that is open and closes an open one at the first attempt, every system call
on a descriptor is made by the call that opened it and has not closed it yet, and a call that returned holds nothing any more. -/
theorem C120_own_socket (env : Env) (K : Kernel CEv) (hK : Prog.Orderly K) (calls : List Call) (is : List Nat)
    (tr tr' : List (Ev CEv)) (s : Nat → P (Option Int × Option Err)) (log : List (Nat × Ev CEv))
    (h : Prog.sched K is (callProgs env calls) tr = .ok ((s, log), tr')) :
    (∀ pre i ev post fd, log = pre ++ (i, ev) :: post → Prog.onFd ev = some fd → Prog.holder fd pre = some i) ∧
      ∀ i r fd, s i = .ret r → Prog.holder fd log ≠ some i := by
  have A := Prog.Apart.init tr (uses_progs env calls)
  obtain ⟨own, A⟩ := A.sched hK is (l := log) (tr' := tr') (s' := s) (by
    simp only [List.map_nil, List.append_nil]; exact h)
  rw [List.nil_append] at A
  refine ⟨A.calls, fun i r fd hr hh => ?_⟩
  have hu := A.uses i
  rw [hr] at hu
  rw [(A.holds i fd).mpr hh] at hu
  cases hu

/-! ### Every call returns -/

/-- A call with IPv4 addresses, over IPv4 flows. -/
def Sound (env : Env) : Call → Prop
  | .mark s d p sp dp _ => ∃ c, Names env s d p sp dp c
  | .bulkMark fs s d p sp dp _ => (∃ c, Names env s d p sp dp c) ∧ ∀ f ∈ fs, V4Flow f
  | .bulkLabel fs s d p sp dp _ => (∃ c, Names env s d p sp dp c) ∧ ∀ f ∈ fs, V4Flow f

/-- As many turns as a call can need: eight system calls for a request. -/
def turns : Call → Nat
  | .mark .. => 8
  | .bulkMark fs .. => 8 * fs.length
  | .bulkLabel fs .. => 8 * fs.length

/-- The answers of a kernel whose sockets work and whose replies are not 16 to 19 bytes long. -/
def GoodAnswer : Ev CEv → Prop
  | .socket _ _ _ r => ∃ fd, r = .ok fd
  | .bind _ r => r = none
  | .recvfrom _ size _ r => ∀ d, r = .ok d → d.length < 16 ∨ 20 ≤ d.length ∨ d.length = size
  | _ => True

theorem good_of_proper {R : Type} {K : Kernel CEv} (hK : Proper K) (tr : List (Ev CEv)) (p q : P R) (ev : Ev CEv)
    (h : Prog.step K tr p = some (q, ev)) : GoodAnswer ev := by
  cases p <;> simp only [Prog.step, reduceCtorEq, Option.some.injEq, Prod.mk.injEq] at h
  all_goals obtain ⟨rfl, rfl⟩ := h
  · exact hK.socket tr
  · exact hK.bind tr _
  · trivial
  · trivial
  · intro d hd
    rename_i fd sz fl k
    cases hr : K.recv tr fd with
    | error n => rw [hr] at hd; cases hd
    | ok b =>
      rw [hr] at hd
      simp only [Except.map, Except.ok.injEq] at hd
      subst hd
      have := hK.recv tr fd b hr
      simp only [List.length_take]
      omega

theorem safe_sendMessageP (env : Env) (hdr : NlMsghdr) (data : List Byte) (hlen : 4 ≤ data.length) :
    Prog.Safe GoodAnswer (sendMessageP env hdr data) := by
  intro x hx
  obtain ⟨fd, rfl⟩ := hx
  intro y hy
  cases hy
  show Prog.Safe GoodAnswer ((queryP env fd ⟨hdr, data⟩).andThen fun r => (Prog.sysClose fd).andThen fun _ => .ret r)
  refine Prog.Safe.andThen ?_ ?_
  · refine Prog.Safe.andThen (p := sendP env fd ⟨hdr, data⟩) ?_ ?_
    · unfold sendP
      rw [wireBytes_eq]
      intro x _
      cases x with
      | none => trivial
      | some n => intro y _; cases y <;> trivial
    · intro r
      cases r with
      | some err => trivial
      | none =>
        intro x hx
        cases x with
        | error n => trivial
        | ok d =>
          have hd := hx d rfl
          show Prog.Safe GoodAnswer (Prog.ofRes (readReply env.e d))
          rcases readReply_cases env.e d with ⟨_, err, hr⟩ | ⟨h1, h2, _⟩ | ⟨_, r, hr, _⟩
          · rw [hr]; trivial
          · exfalso
            simp only at hd
            omega
          · rw [hr]; trivial
  · intro r x _
    cases x with
    | none => trivial
    | some n => intro y _; trivial

theorem within_sendMessageP (env : Env) (hdr : NlMsghdr) (data : List Byte) :
    Prog.Within 8 (sendMessageP env hdr data) := by
  intro x
  cases x with
  | error n => trivial
  | ok fd =>
    have hq : ∀ n, 5 ≤ n → Prog.Within n
        ((queryP env fd ⟨hdr, data⟩).andThen fun r => (Prog.sysClose fd).andThen fun _ => .ret r) := by
      intro n hn
      refine Prog.Within.mono (n := 3 + 2) (Prog.Within.andThen ?_ ?_) (by omega)
      · refine Prog.Within.andThen (n := 2) (m := 1) ?_ ?_
        · unfold sendP
          rw [wireBytes_eq]
          intro x
          cases x with
          | none => trivial
          | some n => intro y; cases y <;> trivial
        · intro r
          cases r with
          | some err => trivial
          | none =>
            intro x
            cases x with
            | error n => trivial
            | ok d =>
              show Prog.Within 0 (Prog.ofRes (readReply env.e d))
              cases readReply env.e d <;> trivial
      · intro r x
        cases x with
        | none => trivial
        | some n => intro y; trivial
    intro y
    cases y with
    | none => exact hq 6 (by omega)
    | some n =>
      intro z
      cases z with
      | none => exact hq 5 (by omega)
      | some n => trivial

theorem safe_updateMarkP (env : Env) {s d : String} {p : Byte} {sp dp : U16} {c : Conn} (m : U32)
    (h : Names env s d p sp dp c) : Prog.Safe GoodAnswer (updateMarkP env s d p sp dp m) := by
  unfold updateMarkP
  rw [markMessage_eq env m h.taken]
  exact safe_sendMessageP env _ _ (by simp)

theorem within_ofRes {R S : Type} (r : Res R) (f : R → P S) (n : Nat) (h : ∀ x, Prog.Within n (f x)) :
    Prog.Within n ((Prog.ofRes r).andThen f) := by
  cases r with
  | ok x => exact h x
  | panic => cases n <;> trivial
  | diverge => cases n <;> trivial

theorem within_updateMarkP (env : Env) (s d : String) (p : Byte) (sp dp : U16) (m : U32) :
    Prog.Within 8 (updateMarkP env s d p sp dp m) :=
  within_ofRes _ _ _ fun _ => within_sendMessageP env _ _

theorem safe_markLoopP (env : Env) {s d : String} {p : Byte} {sp dp : U16} {c : Conn} (m : U32)
    (h : Names env s d p sp dp c) (fs : List Flow) (hf : ∀ f ∈ fs, V4Flow f) :
    ∀ n, Prog.Safe GoodAnswer (markLoopP env s d p sp dp m fs n) := by
  induction fs with
  | nil => intro n; trivial
  | cons f fs ih =>
    intro n
    have ih := ih fun g hg => hf g (List.mem_cons_of_mem _ hg)
    unfold markLoopP
    rw [check_v4 env h (hf f (List.mem_cons_self ..))]
    show Prog.Safe GoodAnswer (if _ then _ else _)
    split
    · refine Prog.Safe.andThen (safe_updateMarkP env m h) fun r => ?_
      cases r with
      | some err => trivial
      | none => exact ih _
    · exact ih _

theorem within_markLoopP (env : Env) (s d : String) (p : Byte) (sp dp : U16) (m : U32) (fs : List Flow) :
    ∀ n, Prog.Within (8 * fs.length) (markLoopP env s d p sp dp m fs n) := by
  induction fs with
  | nil => intro n; trivial
  | cons f fs ih =>
    intro n
    refine within_ofRes _ _ _ fun b => ?_
    split
    · refine Prog.Within.mono (Prog.Within.andThen (m := 8 * fs.length) (within_updateMarkP env s d p sp dp m) fun r => ?_)
        (by simp; omega)
      cases r with
      | some err => cases 8 * fs.length <;> trivial
      | none => exact ih _
    · exact (ih _).mono (by simp; omega)

theorem safe_labelLoopP (env : Env) {s d : String} {p : Byte} {sp dp : U16} {c : Conn} (m : U32)
    (h : Names env s d p sp dp c) (fs : List Flow) (hf : ∀ f ∈ fs, V4Flow f) :
    ∀ n, Prog.Safe GoodAnswer (labelLoopP env s d p sp dp m fs n) := by
  obtain ⟨hdr, data, hmsg, h4⟩ := labelMessage_ok env m h
  induction fs with
  | nil => intro n; trivial
  | cons f fs ih =>
    intro n
    have ih := ih fun g hg => hf g (List.mem_cons_of_mem _ hg)
    unfold labelLoopP
    rw [check_v4 env h (hf f (List.mem_cons_self ..)), hmsg]
    show Prog.Safe GoodAnswer (if _ then _ else _)
    split
    · refine Prog.Safe.andThen (p := sendMessageP env hdr data) (safe_sendMessageP env hdr data h4) fun r => ?_
      cases r with
      | some err => trivial
      | none => exact ih _
    · exact ih _

theorem within_labelLoopP (env : Env) (s d : String) (p : Byte) (sp dp : U16) (m : U32) (fs : List Flow) :
    ∀ n, Prog.Within (8 * fs.length) (labelLoopP env s d p sp dp m fs n) := by
  induction fs with
  | nil => intro n; trivial
  | cons f fs ih =>
    intro n
    refine within_ofRes _ _ _ fun b => ?_
    split
    · refine within_ofRes _ _ _ fun msg => ?_
      refine Prog.Within.mono (Prog.Within.andThen (m := 8 * fs.length) (within_sendMessageP env _ _) fun r => ?_)
        (by simp; omega)
      cases r with
      | some err => cases 8 * fs.length <;> trivial
      | none => exact ih _
    · exact (ih _).mono (by simp; omega)

theorem safe_call (env : Env) (c : Call) (h : Sound env c) : Prog.Safe GoodAnswer (c.prog env) := by
  cases c with
  | mark s d p sp dp m =>
    obtain ⟨c, h⟩ := h
    exact Prog.Safe.andThen (safe_updateMarkP env m h) fun r => trivial
  | bulkMark fs s d p sp dp m =>
    obtain ⟨⟨c, h⟩, hf⟩ := h
    refine Prog.Safe.andThen (Prog.Safe.andThen (safe_markLoopP env m h fs hf 0) fun r => ?_) fun r => trivial
    obtain ⟨n, r⟩ := r
    cases r with
    | some err => trivial
    | none => dsimp only; rw [if_pos (Int.natCast_nonneg n)]; trivial
  | bulkLabel fs s d p sp dp m =>
    obtain ⟨⟨c, h⟩, hf⟩ := h
    refine Prog.Safe.andThen (Prog.Safe.andThen (safe_labelLoopP env m h fs hf 0) fun r => ?_) fun r => trivial
    obtain ⟨n, r⟩ := r
    cases r with
    | some err => trivial
    | none => dsimp only; rw [if_pos (Int.natCast_nonneg n)]; trivial

theorem within_call (env : Env) (c : Call) : Prog.Within (turns c) (c.prog env) := by
  cases c with
  | mark s d p sp dp m => exact Prog.Within.andThen (m := 0) (within_updateMarkP env s d p sp dp m) fun r => trivial
  | bulkMark fs s d p sp dp m =>
    refine Prog.Within.andThen (m := 0) (Prog.Within.andThen (m := 0) (within_markLoopP env s d p sp dp m fs 0) fun r => ?_)
      fun r => trivial
    obtain ⟨n, r⟩ := r
    cases r with
    | some err => trivial
    | none => dsimp only; rw [if_pos (Int.natCast_nonneg n)]; trivial
  | bulkLabel fs s d p sp dp m =>
    refine Prog.Within.andThen (m := 0) (Prog.Within.andThen (m := 0) (within_labelLoopP env s d p sp dp m fs 0) fun r => ?_)
      fun r => trivial
    obtain ⟨n, r⟩ := r
    cases r with
    | some err => trivial
    | none => dsimp only; rw [if_pos (Int.natCast_nonneg n)]; trivial

/-- C120: if sockets can be opened and replies are not 16 to 19 bytes long, no interleaving crashes the process or hangs a call: a
call that got its turn eight times for each flow given to it has returned. -/
theorem C120_completes (env : Env) (K : Kernel CEv) (hK : Proper K) (calls : List Call) (hc : ∀ c ∈ calls, Sound env c)
    (is : List Nat) (tr : List (Ev CEv)) :
    ∃ s log tr', Prog.sched K is (callProgs env calls) tr = .ok ((s, log), tr') ∧
      ∀ i c, calls[i]? = some c → turns c ≤ is.count i → ∃ r, s i = .ret r := by
  obtain ⟨s, log, tr', h, hs⟩ := Prog.Safe.sched (good := GoodAnswer) (K := K) (R := Option Int × Option Err)
    (fun tr p q ev h _ => good_of_proper hK tr p q ev h) is (s := callProgs env calls) tr (by
      intro i
      unfold callProgs
      cases hi : calls[i]? with
      | none => trivial
      | some c => exact safe_call env c (hc c (List.mem_of_getElem? hi)))
  refine ⟨s, log, tr', h, fun i c hi hn => ?_⟩
  have hst := Prog.Within.sched (n := turns c) is h (by
    unfold callProgs; rw [hi]; exact within_call env c) hn
  have hsi := hs i
  cases hsi' : s i <;> rw [hsi'] at hst hsi <;> simp [Prog.stopped] at hst <;> first | exact ⟨_, rfl⟩ | cases hsi

/-! ### A concrete case -/

/-- A kernel handing out ever larger descriptors and acknowledging everything. -/
def countingKernel : Kernel CEv where
  socket tr := .ok (tr.foldl (fun n ev => match ev with | .socket _ _ _ (.ok f) => max n (f + 1) | _ => n) 3)
  bind _ _ := none
  setsockopt _ _ := none
  close _ _ := none
  send _ _ _ := none
  recv _ _ := .ok sampleAck

theorem counting_above (fd : Nat) (tr : List (Ev CEv)) : Prog.opened fd tr = true →
    fd < tr.foldl (fun n ev => match ev with | .socket _ _ _ (.ok f) => max n (f + 1) | _ => n) 3 := by
  suffices ∀ l : List (Ev CEv), Prog.opened fd l.reverse = true →
      fd < l.reverse.foldl (fun n ev => match ev with | .socket _ _ _ (.ok f) => max n (f + 1) | _ => n) 3 by
    have := this tr.reverse
    rwa [List.reverse_reverse] at this
  intro l
  induction l with
  | nil => intro h; cases h
  | cons ev tr ih =>
    intro h
    rw [List.reverse_cons] at h ⊢
    rw [Prog.opened_snoc] at h
    rw [List.foldl_append, List.foldl_cons, List.foldl_nil]
    cases ev with
    | socket d t p r =>
      cases r with
      | error n => exact ih h
      | ok f =>
        dsimp only at h ⊢
        by_cases hf : f = fd
        · omega
        · rw [if_neg hf] at h
          have := ih h
          omega
    | close f r =>
      cases r with
      | none =>
        dsimp only at h
        by_cases hf : f = fd
        · rw [if_pos hf] at h; cases h
        · rw [if_neg hf] at h; exact ih h
      | some n => exact ih h
    | app a => cases a
    | _ => exact ih h

theorem counting_orderly : Prog.Orderly countingKernel := by
  refine ⟨fun tr fd h => ?_, fun _ _ _ => rfl⟩
  simp only [countingKernel, Except.ok.injEq] at h
  cases ho : Prog.opened fd tr with
  | false => rfl
  | true =>
    have := counting_above fd tr ho
    omega

theorem counting_proper : Proper countingKernel := by
  refine ⟨fun _ => ⟨_, rfl⟩, fun _ _ => rfl, ?_⟩
  intro tr fd d h
  cases h
  right; decide

def threeCalls : List Call :=
  [.mark "10.0.0.1" "10.0.0.2" 17 1000 53 9, .bulkMark [sampleFlow, otherFlow] "10.0.0.1" "10.0.0.2" 17 1000 53 8,
    .bulkLabel [otherFlow, sampleFlow] "10.0.0.1" "10.0.0.2" 17 1000 53 7]

theorem threeCalls_sound : ∀ c ∈ threeCalls, Sound sampleEnv c := by
  have hf : ∀ f ∈ [sampleFlow, otherFlow], V4Flow f := by
    intro f hf
    simp only [List.mem_cons, List.not_mem_nil, or_false] at hf
    rcases hf with rfl | rfl
    · exact sampleFlow_v4
    · exact otherFlow_v4
  intro c hc
  simp only [threeCalls, List.mem_cons, List.not_mem_nil, or_false] at hc
  rcases hc with rfl | rfl | rfl
  · exact ⟨_, sample_names⟩
  · exact ⟨⟨_, sample_names⟩, hf⟩
  · exact ⟨⟨_, sample_names⟩, fun f h => hf f (by
      simp only [List.mem_cons, List.not_mem_nil, or_false] at h ⊢
      exact h.symm)⟩

/-- C120, a concrete case: a mark update, a bulk mark update and a bulk label update taking turns, sixteen each. -/
theorem C120_example : ∃ s log tr', Prog.sched countingKernel ((List.range 48).map (· % 3)) (callProgs sampleEnv threeCalls) [] =
      .ok ((s, log), tr') ∧ (∀ i, i < 3 → ∃ r, s i = .ret r) ∧
      (∀ pre i ev post fd, log = pre ++ (i, ev) :: post → Prog.onFd ev = some fd → Prog.holder fd pre = some i) ∧
      ∀ i c r, threeCalls[i]? = some c → s i = .ret r → DoneRight sampleEnv c r (callsOf i log) := by
  obtain ⟨s, log, tr', h, hr⟩ := C120_completes sampleEnv countingKernel counting_proper threeCalls threeCalls_sound
    ((List.range 48).map (· % 3)) []
  refine ⟨s, log, tr', h, ?_, (C120_own_socket sampleEnv countingKernel counting_orderly threeCalls _ _ _ s log h).1,
    (C120_own_result sampleEnv countingKernel threeCalls _ _ _ s log h).2⟩
  intro i hi
  have : i = 0 ∨ i = 1 ∨ i = 2 := by omega
  rcases this with rfl | rfl | rfl
  · exact hr 0 _ rfl (by decide)
  · exact hr 1 _ rfl (by decide)
  · exact hr 2 _ rfl (by decide)

/-! ### C121 -/

theorem sched_cons (K : Kernel CEv) {R : Type} (i : Nat) (is : List Nat) (s : Nat → P R) (tr : List (Ev CEv)) (q : P R)
    (ev : Ev CEv) (h : Prog.step K tr (s i) = some (q, ev)) :
    Prog.sched K (i :: is) s tr = Prog.sched K is (fun k => if k = i then q else s k) (tr ++ [ev]) >>= fun y =>
      .ok ((y.1.1, (i, ev) :: y.1.2), y.2) := by
  have hp : Prog.pick K i s tr = .ok ((fun k => if k = i then q else s k, [(i, ev)]), tr ++ [ev]) := by
    unfold Prog.pick
    cases hsi : s i <;> rw [hsi] at h <;> simp only [Prog.step, reduceCtorEq, Option.some.injEq, Prod.mk.injEq] at h ⊢
    all_goals obtain ⟨rfl, rfl⟩ := h
    all_goals exact rfl
  simp only [Prog.sched, hp, Res.ok_bind, List.singleton_append]

/-- What is left of a mark update once the reply has been read. -/
def closing (fd : Nat) (r : Option Err) : P (Option Int × Option Err) :=
  .close fd fun x => if x.isSome then .close fd fun _ => .ret (none, r) else .ret (none, r)

/-- A mark update that meets no failure, up to its `close`. -/
theorem mark_steps (env : Env) (K : Kernel CEv) (tr : List (Ev CEv)) {s d : String} {p : Byte} {sp dp : U16} {c : Conn} (m : U32)
    (h : Names env s d p sp dp c) {fd : Nat} {rep : List Byte} (h20 : 20 ≤ rep.length)
    (hs : K.socket tr = .ok fd) (hb : ∀ l, K.bind (tr ++ l) fd = none) (hse : ∀ l b, K.send (tr ++ l) fd b = none)
    (hr : ∀ l, K.recv (tr ++ l) fd = .ok rep) :
    ∃ b size r p1 p2 p3, MarkReq env.e c m b ∧
      Prog.step K tr ((Call.mark s d p sp dp m).prog env) = some (p1, .socket 16 3 12 (.ok fd)) ∧
      Prog.step K (tr ++ [.socket 16 3 12 (.ok fd)]) p1 = some (p2, .bind fd none) ∧
      Prog.step K (tr ++ [.socket 16 3 12 (.ok fd), .bind fd none]) p2 = some (p3, .sendto fd b 0 none) ∧
      Prog.step K (tr ++ [.socket 16 3 12 (.ok fd), .bind fd none, .sendto fd b 0 none]) p3 =
        some (closing fd r, .recvfrom fd size 0 (.ok (rep.take size))) ∧
      ∃ k1 k2, p1 = .bind fd k1 ∧ (∀ n, k1 (some n) = .bind fd k2) ∧ ∀ n, k2 (some n) = .crash := by
  obtain ⟨hls, hld⟩ := names_len h.taken
  let data := [2, 0, 0, 0] ++ origBytes env.e c ++ markTail env.e m
  let hdr : NlMsghdr := ⟨80, 0x100, 5, 0, 0⟩
  have hreq : MarkReq env.e c m (hdrBytes env.e hdr ++ data) := markReq_ok env.e hls hld m
  have hlen : 20 ≤ 16 + data.length := by simp only [data]; simp; omega
  have hp : (Call.mark s d p sp dp m).prog env = (sendMessageP env hdr data).andThen fun r => .ret (none, r) := by
    show (updateMarkP env s d p sp dp m).andThen (fun r => .ret (none, r)) = _
    unfold updateMarkP
    rw [markMessage_eq env m h.taken]
    rfl
  obtain ⟨r, hrep⟩ : ∃ r, readReply env.e (rep.take (16 + data.length)) = .ok r := by
    rcases readReply_cases env.e (rep.take (16 + data.length)) with ⟨h1, _⟩ | ⟨h1, h2, _⟩ | ⟨_, r, hr, _⟩
    · simp at h1; omega
    · simp at h2; omega
    · exact ⟨r, hr⟩
  let tail : Option Err → P (Option Int × Option Err) := fun r =>
    ((Prog.sysClose fd).andThen fun _ => .ret r).andThen fun r => .ret (none, r)
  have htail : ∀ r, tail r = closing fd r := by
    intro r
    show Prog.close fd _ = Prog.close fd _
    congr 1
    funext x
    cases x <;> rfl
  let p1 : P (Option Int × Option Err) := (((Prog.sysBind fd : P (Option Nat)).andThen fun r => match r with
      | some n => (.ret (.error (.errno n)) : P (Except Err Nat))
      | none => .ret (.ok fd)).andThen fun r => match r with
      | .error _ => (Prog.crash : P (Option Err))
      | .ok fd => (queryP env fd ⟨hdr, data⟩).andThen fun r => (Prog.sysClose fd).andThen fun _ => .ret r).andThen
        fun r => .ret (none, r)
  have hq : ((queryP env fd ⟨hdr, data⟩).andThen fun r => (Prog.sysClose fd).andThen fun _ => .ret r).andThen
        (fun r => (.ret (none, r) : P (Option Int × Option Err))) =
      .sendto fd (hdrBytes env.e hdr ++ data) 0 fun x => ((((if x.isSome then .sendto fd (hdrBytes env.e hdr ++ data) 0 .ret else
        .ret none : P (Option Nat)).andThen fun y => match y with
          | some n => (.ret (some (.errno n)) : P (Option Err))
          | none => .ret none).andThen fun z => match z with
            | some err => .ret (some err)
            | none => recvP env fd (16 + data.length)).andThen fun r => (Prog.sysClose fd).andThen fun _ => .ret r).andThen
              fun r => .ret (none, r) := by
    unfold queryP sendP
    rw [wireBytes_eq]
    rfl
  refine ⟨hdrBytes env.e hdr ++ data, 16 + data.length, r, p1,
    ((queryP env fd ⟨hdr, data⟩).andThen fun r => (Prog.sysClose fd).andThen fun _ => .ret r).andThen
        (fun r => (.ret (none, r) : P (Option Int × Option Err))),
    ((recvP env fd (16 + data.length)).andThen fun r => (Prog.sysClose fd).andThen fun _ => .ret r).andThen
        (fun r => (.ret (none, r) : P (Option Int × Option Err))), hreq, ?_, ?_, ?_, ?_,
    _, _, rfl, fun n => rfl, fun n => rfl⟩
  · rw [hp]
    show some (_, Ev.socket 16 3 12 (K.socket tr)) = _
    rw [hs]
    rfl
  · show some (_, Ev.bind fd (K.bind _ fd)) = _
    rw [hb]
    rfl
  · rw [hq]
    show some (_, Ev.sendto fd _ 0 (K.send _ fd _)) = _
    rw [hse]
    rfl
  · show some (_, Ev.recvfrom fd _ 0 ((K.recv _ fd).map _)) = _
    rw [hr]
    simp only [Except.map, Option.some.injEq, Prod.mk.injEq, and_true]
    rw [← htail]
    show ((Prog.ofRes (readReply env.e (rep.take (16 + data.length)))).andThen fun r =>
      (Prog.sysClose fd).andThen fun _ => .ret r).andThen (fun r => .ret (none, r)) = tail r
    rw [hrep]
    rfl

/-- A kernel that, as Linux does, gives up the descriptor even when `close` reports an error `n`, and hands it out again: `bind`
works on it until it is closed, and fails afterwards. -/
structure ReleasesOnError (K : Kernel CEv) (fd n : Nat) (rep : List Byte) : Prop where
  socket : ∀ tr, K.socket tr = .ok fd
  bind : ∀ tr, .close fd none ∉ tr → K.bind tr fd = none
  bindClosed : ∀ tr, .close fd none ∈ tr → ∃ e, K.bind tr fd = some e
  send : ∀ tr b, K.send tr fd b = none
  recv : ∀ tr, K.recv tr fd = .ok rep
  close : ∀ tr, (∀ r, .close fd r ∉ tr) → K.close tr fd = some n
  again : ∀ tr, .close fd (some n) ∈ tr → K.close tr fd = none

/-- C121, violated: two mark updates at the same time.  The first one's `close` reports an error; the kernel has given up the
descriptor and hands it to the second; the first closes it again, and so closes the socket of the second, whose `bind` then fails,
which crashes the process. -/
theorem C121_closes_anothers_violated (env : Env) (K : Kernel CEv) {s d s' d' : String} {p p' : Byte} {sp dp sp' dp' : U16}
    {c c' : Conn} (m m' : U32) (h : Names env s d p sp dp c) (h' : Names env s' d' p' sp' dp' c') {fd n : Nat} {rep : List Byte}
    (h20 : 20 ≤ rep.length) (hK : ReleasesOnError K fd n rep) :
    (∃ b size st tr, Prog.sched K [0, 0, 0, 0, 0, 1, 0]
        (callProgs env [.mark s d p sp dp m, .mark s' d' p' sp' dp' m']) [] =
      .ok ((st, [(0, .socket 16 3 12 (.ok fd)), (0, .bind fd none), (0, .sendto fd b 0 none),
        (0, .recvfrom fd size 0 (.ok (rep.take size))), (0, .close fd (some n)), (1, .socket 16 3 12 (.ok fd)),
        (0, .close fd none)]), tr)) ∧
    Prog.sched K [0, 0, 0, 0, 0, 1, 0, 1, 1, 1]
        (callProgs env [.mark s d p sp dp m, .mark s' d' p' sp' dp' m']) [] = .panic := by
  -- the first call, up to its close
  let K0 : Kernel CEv := { K with bind := fun _ _ => none }
  obtain ⟨b, size, r, p1, p2, p3, _, h1, h2, h3, h4, _⟩ := mark_steps env K0 [] m h (fd := fd) h20 (hK.socket _) (fun _ => rfl)
    (fun _ _ => hK.send _ _) (fun _ => hK.recv _)
  simp only [List.nil_append] at h2 h3 h4
  have e0 : ∀ (q : P (Option Int × Option Err)) tr, .close fd none ∉ tr → (∀ f k, q = .bind f k → f = fd) →
      Prog.step K tr q = Prog.step K0 tr q := by
    intro q tr htr hq
    cases q <;> try rfl
    rename_i f k
    have hf := hq f k rfl
    show some (k (K.bind tr f), Ev.bind f (K.bind tr f)) = some (k none, Ev.bind f none)
    rw [hf]
    rw [hK.bind tr htr]
  have g1 := h1
  rw [← e0 _ [] (by simp) (by intro f k hq; rw [hq] at h1; simp [Prog.step] at h1)] at g1
  have g2 := h2
  rw [← e0 _ _ (by simp) (by
    intro f k hq; rw [hq] at h2; simp [Prog.step] at h2; exact h2.2.1)] at g2
  have g3 := h3
  rw [← e0 _ _ (by simp) (by intro f k hq; rw [hq] at h3; simp [Prog.step] at h3)] at g3
  have g4 := h4
  rw [← e0 _ _ (by simp) (by intro f k hq; rw [hq] at h4; simp [Prog.step] at h4)] at g4
  -- the second call
  let T6 : List (Ev CEv) := [.socket 16 3 12 (.ok fd), .bind fd none, .sendto fd b 0 none,
    .recvfrom fd size 0 (.ok (rep.take size)), .close fd (some n)]
  obtain ⟨_, _, _, q1, _, _, _, h5, _, _, _, k1, k2, hq1, hk1, hk2⟩ := mark_steps env K0 T6 m' h' (fd := fd) h20
    (hK.socket _) (fun _ => rfl) (fun _ _ => hK.send _ _) (fun _ => hK.recv _)
  have g5 := h5
  rw [← e0 _ _ (by simp [T6]) (by intro f k hq; rw [hq] at h5; simp [Prog.step] at h5)] at g5
  have gc : Prog.step K [.socket 16 3 12 (.ok fd), .bind fd none, .sendto fd b 0 none,
      .recvfrom fd size 0 (.ok (rep.take size))] (closing fd r) =
      some (.close fd fun _ => .ret (none, r), .close fd (some n)) := by
    show some (_, Ev.close fd (K.close _ fd)) = _
    rw [hK.close _ (by simp)]
    rfl
  have gc2 : Prog.step K (T6 ++ [.socket 16 3 12 (.ok fd)])
      (.close fd fun _ => .ret (none, r) : P (Option Int × Option Err)) = some (.ret (none, r), .close fd none) := by
    show some (_, Ev.close fd (K.close _ fd)) = _
    rw [hK.again _ (by simp [T6])]
  obtain ⟨e1, hb1⟩ := hK.bindClosed (T6 ++ [.socket 16 3 12 (.ok fd), .close fd none]) (by simp [T6])
  have gb : Prog.step K (T6 ++ [.socket 16 3 12 (.ok fd), .close fd none]) q1 = some (.bind fd k2, .bind fd (some e1)) := by
    rw [hq1]
    show some (k1 (K.bind _ fd), Ev.bind fd (K.bind _ fd)) = _
    rw [hb1, hk1]
  obtain ⟨e2, hb2⟩ := hK.bindClosed (T6 ++ [.socket 16 3 12 (.ok fd), .close fd none, .bind fd (some e1)]) (by simp [T6])
  have gb2 : Prog.step K (T6 ++ [.socket 16 3 12 (.ok fd), .close fd none, .bind fd (some e1)])
      (.bind fd k2 : P (Option Int × Option Err)) = some (.crash, .bind fd (some e2)) := by
    show some (k2 (K.bind _ fd), Ev.bind fd (K.bind _ fd)) = _
    rw [hb2, hk2]
  have key : ∀ is, Prog.sched K ([0, 0, 0, 0, 0, 1, 0] ++ is)
      (callProgs env [.mark s d p sp dp m, .mark s' d' p' sp' dp' m']) [] = Prog.sched K is (fun k => if k = 0 then .ret (none, r)
        else if k = 1 then q1 else .ret (none, none)) (T6 ++ [.socket 16 3 12 (.ok fd), .close fd none]) >>= fun y =>
      .ok ((y.1.1, [(0, .socket 16 3 12 (.ok fd)), (0, .bind fd none), (0, .sendto fd b 0 none),
        (0, .recvfrom fd size 0 (.ok (rep.take size))), (0, .close fd (some n)), (1, .socket 16 3 12 (.ok fd)),
        (0, .close fd none)] ++ y.1.2), y.2) := by
    intro is
    simp only [List.cons_append, List.nil_append]
    rw [sched_cons K 0 _ _ _ _ _ g1, sched_cons K 0 _ _ _ p2 _ g2, sched_cons K 0 _ _ _ p3 _ g3,
      sched_cons K 0 _ _ _ (closing fd r) _ g4, sched_cons K 0 _ _ _ _ _ gc, sched_cons K 1 _ _ _ q1 _ g5,
      sched_cons K 0 _ _ _ _ _ gc2]
    simp only [Res.bind_assoc', Res.ok_bind]
    have hst : (fun k => if k = 0 then Prog.ret (none, r) else if k = 1 then q1 else
        if k = 0 then Prog.close fd fun _ => Prog.ret (none, r) else if k = 0 then closing fd r else if k = 0 then p3 else
        if k = 0 then p2 else if k = 0 then p1 else callProgs env [.mark s d p sp dp m, .mark s' d' p' sp' dp' m'] k) =
        (fun k => if k = 0 then Prog.ret (none, r) else if k = 1 then q1 else Prog.ret (none, none)) := by
      funext k
      by_cases h0 : k = 0
      · simp [h0]
      · by_cases hk : k = 1
        · simp [hk]
        · simp only [h0, hk, if_false]
          unfold callProgs
          have : ([.mark s d p sp dp m, .mark s' d' p' sp' dp' m'] : List Call)[k]? = none := by
            apply List.getElem?_eq_none; simp; omega
          rw [this]
    have ht : ([] : List (Ev CEv)) ++ [.socket 16 3 12 (.ok fd)] ++ [.bind fd none] ++ [.sendto fd b 0 none] ++
        [.recvfrom fd size 0 (.ok (rep.take size))] ++ [.close fd (some n)] ++ [.socket 16 3 12 (.ok fd)] ++ [.close fd none] =
        T6 ++ [.socket 16 3 12 (.ok fd), .close fd none] := rfl
    rw [hst, ht]
  refine ⟨⟨b, size, _, _, (by rw [← List.append_nil [0, 0, 0, 0, 0, 1, 0]]; exact key [])⟩, ?_⟩
  · have := key [1, 1, 1]
    rw [show ([0, 0, 0, 0, 0, 1, 0, 1, 1, 1] : List Nat) = [0, 0, 0, 0, 0, 1, 0] ++ [1, 1, 1] from rfl, this]
    rw [sched_cons K 1 _ _ _ _ _ gb, sched_cons K 1 _ _ _ _ _ (by simpa using gb2)]
    rfl

/-- This is a `close` of `fd`; `ok`: a successful one. -/
def closes (fd : Nat) (ok : Bool) : Ev CEv → Bool
  | .close f r => f == fd && (!ok || r.isNone)
  | _ => false

/-- The kernel of the scenario: one descriptor; its first `close` is interrupted (EINTR). -/
def interrupted : Kernel CEv where
  socket _ := .ok 7
  bind tr fd := if tr.any (closes fd true) then some 9 else none
  setsockopt _ _ := none
  close tr fd := if tr.any (closes fd false) then none else some 4
  send _ _ _ := none
  recv _ _ := .ok sampleAck

theorem interrupted_releases : ReleasesOnError interrupted 7 4 sampleAck where
  socket _ := rfl
  bind tr h := by
    refine if_neg (fun ha => ?_)
    obtain ⟨ev, hm, hc⟩ := List.any_eq_true.mp ha
    cases ev with
    | close f r =>
      cases r with
      | none => simp [closes] at hc; rw [hc] at hm; exact h hm
      | some n => simp [closes] at hc
    | _ => cases hc
  bindClosed tr h := ⟨9, if_pos (List.any_eq_true.mpr ⟨_, h, rfl⟩)⟩
  send _ _ := rfl
  recv _ := rfl
  close tr h := by
    refine if_neg (fun ha => ?_)
    obtain ⟨ev, hm, hc⟩ := List.any_eq_true.mp ha
    cases ev with
    | close f r =>
      simp [closes] at hc
      rw [hc] at hm
      exact h r hm
    | _ => cases hc
  again tr h := if_pos (List.any_eq_true.mpr ⟨_, h, rfl⟩)

/-- C121, a concrete case. -/
theorem C121_example : Prog.sched interrupted [0, 0, 0, 0, 0, 1, 0, 1, 1, 1] (callProgs sampleEnv
    [.mark "10.0.0.1" "10.0.0.2" 17 1000 53 9, .mark "10.0.0.1" "10.0.0.2" 17 1000 53 8]) [] = .panic :=
  (C121_closes_anothers_violated sampleEnv interrupted 9 8 sample_names sample_names (by decide)
    interrupted_releases).2

end Verif.Props.Ct
