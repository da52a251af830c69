import Verif.Props.NfQueueFail
import Verif.Props.NfQueueReceive
import Verif.Props.NfQueueEcho
import Verif.Props.NfQueueLimits
import Verif.Props.NfLogConfig
import Verif.Props.Conntrack
/-! C116: the error a call returns says why it failed: it is made of the errno of the system call that failed, or of the
code in the kernel's error message, and no later clean-up hides it. -/
namespace Verif.Props
open Verif.Common Verif.Sys Verif.Spec

/-- The error at the bottom of a chain of `fmt.Errorf` formats. -/
def _root_.Verif.Err.reason : Err → Err
  | .wrap _ err => err.reason
  | err => err

/-- This event is why a call failed with reason `err`: a system call that returned this errno, or the receipt of a netlink
error message (type 2) with this code, which is not 0. -/
inductive Cause {α : Type} (e : Endian) : Ev α → Err → Prop
  | socket {d t p n} : Cause e (.socket d t p (.error n)) (.errno n)
  | bind {fd n} : Cause e (.bind fd (some n)) (.errno n)
  | send {fd b fl n} : Cause e (.sendto fd b fl (some n)) (.errno n)
  | recv {fd s fl n} : Cause e (.recvfrom fd s fl (.error n)) (.errno n)
  | refused {fd s fl d c} : num16 e d 4 = some 2 → numI32 e d 16 = some c → c ≠ 0 →
      Cause e (.recvfrom fd s fl (.ok d)) (.netlink c)

/-- No datagram received is too short to hold a netlink header and an error code. -/
def LongReplies {α : Type} (evs : List (Ev α)) : Prop :=
  ∀ fd s fl d, .recvfrom fd s fl (.ok d) ∈ evs → 20 ≤ d.length

/-- The last of these events is why a call failed with reason `err`. -/
def EndsBy {α : Type} (e : Endian) (evs : List (Ev α)) (err : Err) : Prop :=
  ∃ pre ev, evs = pre ++ [ev] ∧ Cause e ev err

theorem EndsBy.append {α : Type} {e : Endian} {evs : List (Ev α)} {err : Err} (pre : List (Ev α))
    (h : EndsBy e evs err) : EndsBy e (pre ++ evs) err := by
  obtain ⟨p, ev, rfl, hc⟩ := h
  exact ⟨pre ++ p, ev, by simp, hc⟩

theorem LongReplies.left {α : Type} {a b : List (Ev α)} (h : LongReplies (a ++ b)) : LongReplies a :=
  fun fd s fl d hm => h fd s fl d (List.mem_append_left _ hm)

theorem LongReplies.right {α : Type} {a b : List (Ev α)} (h : LongReplies (a ++ b)) : LongReplies b :=
  fun fd s fl d hm => h fd s fl d (List.mem_append_right _ hm)

theorem code_ne {e : Endian} {d : List Byte} {c : Int} (h : num32 e d 16 ≠ some 0) (hc : numI32 e d 16 = some c) :
    c ≠ 0 := by
  intro h0
  subst h0
  unfold numI32 at hc
  cases hn : num32 e d 16 with
  | none => simp [hn] at hc
  | some v =>
    rw [hn] at hc h
    simp only [Option.map_some, Option.some.injEq] at hc
    unfold signed32 at hc
    apply h
    rw [Option.some.injEq]
    split at hc
    · omega
    · have := num32_lt hn
      omega

theorem sys_bind_ends {α : Type} {e : Endian} {fd n : Nat} {evs : List (Ev α)} (h : Sys.BindEvs fd (some n) evs) :
    EndsBy e evs (.errno n) := by
  rcases h with ⟨h, _⟩ | ⟨e1, rfl⟩
  · cases h
  · exact ⟨[_], _, rfl, .bind⟩

theorem sys_send_ends {α : Type} {e : Endian} {fd n : Nat} {b : List Byte} {evs : List (Ev α)}
    (h : Sys.SendEvs fd b (some n) evs) : EndsBy e evs (.errno n) := by
  rcases h with ⟨h, _⟩ | ⟨e1, rfl⟩
  · cases h
  · exact ⟨[_], _, rfl, .send⟩

section Queue
open Verif.NfQueue

theorem q_exchange_ends {e : Endian} {fd size : Nat} {req : QReq} {err : Err} {evs : List (Ev QEv)}
    (h : NfQueue.Exchange e fd size req (some err) evs) (hl : LongReplies evs) : EndsBy e evs err.reason := by
  obtain ⟨b, _, hq⟩ := h
  cases hq with
  | sendFailed hs => exact sys_send_ends hs
  | recvFailed hs => exact ⟨_, _, rfl, .recv⟩
  | @replied d _ evs1 hs hlt hiff hcode =>
    have h20 : 20 ≤ d.length := hl _ _ _ d (List.mem_append_right _ (List.mem_singleton.mpr rfl))
    have href : NfQueue.Refusal e d := Classical.byContradiction fun hn => by
      have := (hiff h20).mpr hn
      cases this
    obtain ⟨c, hr, hc⟩ := hcode h20 href
    cases hr
    exact ⟨_, _, rfl, .refused href.1 hc (code_ne href.2 hc)⟩

/-- C116: a configuration call of a queue that fails ends with the event that made it fail, and returns its reason. -/
theorem C116_queue_config (env : Env) (K : Kernel QEv) (c : ConfigCall) (w w' : W) (qh : Handle) (err : Err)
    (hR : Ready w qh) (h : c.run env K w = .ok (some err, w')) :
    ∃ evs, w'.trace = w.trace ++ evs ∧ (LongReplies evs → EndsBy env.e evs err.reason) := by
  obtain ⟨evs, hx, ht, _⟩ := run_exchange c hR h
  exact ⟨evs, ht, q_exchange_ends hx⟩

/-- C116: when CreateAndStartNfQueue fails, its error is the reason of the step that failed: after that step came only
clean-up (the request to unbind the queue, and the closing of the socket), whose own outcome is not what is reported. -/
theorem C116_queue_start (env : Env) (K : Kernel QEv) (queueID : U16) (maxLen size : U32) (cb ecb : Option Nat) (pd : Nat)
    (w w' : W) (err : Err) (h : createAndStart env K queueID maxLen size cb ecb pd w = .ok (some err, w')) :
    ∃ evs unb cl, w'.trace = w.trace ++ evs ++ unb ++ cl ∧
      (LongReplies evs → EndsBy env.e evs err.reason) ∧
      ((unb = [] ∧ cl = []) ∨ ∃ fd, NfQueue.CloseEvs fd cl ∧
        (unb = [] ∨ ∃ n r, NfQueue.Exchange env.e fd n (.unbindQueue queueID.toNat) r unb)) := by
  rcases C110_failed_start env K queueID maxLen size cb ecb pd w w' err h with
    ⟨n, rfl, ht⟩ | ⟨fd, n, bevs, rfl, ht, hb⟩ | ⟨fd, bevs, opts, mid, cl, ht, hb, ho, hr, hcl⟩
  · exact ⟨[.socket 16 3 12 (.error n)], [], [], by rw [ht]; simp, fun _ => ⟨[], _, rfl, .socket⟩, Or.inl ⟨rfl, rfl⟩⟩
  · exact ⟨[.socket 16 3 12 (.ok fd)] ++ bevs, [], [], by rw [ht]; simp, fun _ => (EndsBy.append _ (sys_bind_ends hb)), Or.inl ⟨rfl, rfl⟩⟩
  · have plain : ∀ {pre ev : List (Ev QEv)} {inner : Err} {req n}, mid = pre ++ ev →
        NfQueue.Exchange env.e fd n req (some inner) ev → err.reason = inner.reason →
        ∃ evs unb cl, w'.trace = w.trace ++ evs ++ unb ++ cl ∧ (LongReplies evs → EndsBy env.e evs err.reason) ∧
          ((unb = [] ∧ cl = []) ∨ ∃ fd, NfQueue.CloseEvs fd cl ∧
            (unb = [] ∨ ∃ n r, NfQueue.Exchange env.e fd n (.unbindQueue queueID.toNat) r unb)) := by
      intro pre ev inner req n hm hx hi
      refine ⟨[.socket 16 3 12 (.ok fd)] ++ bevs ++ opts ++ pre ++ ev, [], cl, ?_, fun hl => ?_, Or.inr ⟨fd, hcl, Or.inl rfl⟩⟩
      · rw [ht, hm]; simp
      · rw [hi]; exact EndsBy.append _ (q_exchange_ends hx hl.right)
    have unbound : ∀ {pre ev ed : List (Ev QEv)} {inner : Err} {req n n' r}, mid = pre ++ ev ++ ed →
        NfQueue.Exchange env.e fd n req (some inner) ev → err.reason = inner.reason →
        NfQueue.Exchange env.e fd n' (.unbindQueue queueID.toNat) r ed →
        ∃ evs unb cl, w'.trace = w.trace ++ evs ++ unb ++ cl ∧ (LongReplies evs → EndsBy env.e evs err.reason) ∧
          ((unb = [] ∧ cl = []) ∨ ∃ fd, NfQueue.CloseEvs fd cl ∧
            (unb = [] ∨ ∃ n r, NfQueue.Exchange env.e fd n (.unbindQueue queueID.toNat) r unb)) := by
      intro pre ev ed inner req n n' r hm hx hi hu
      refine ⟨[.socket 16 3 12 (.ok fd)] ++ bevs ++ opts ++ pre ++ ev, ed, cl, ?_, fun hl => ?_,
        Or.inr ⟨fd, hcl, Or.inr ⟨_, _, hu⟩⟩⟩
      · rw [ht, hm]; simp
      · rw [hi]; exact EndsBy.append _ (q_exchange_ends hx hl.right)
    cases hr with
    | pfUnbind hx => exact plain (pre := []) rfl hx rfl
    | pfBind _ hx => exact plain rfl hx rfl
    | bindQueue _ _ hx => exact plain rfl hx rfl
    | setMode _ _ _ hx hu => exact unbound rfl hx rfl hu
    | setMaxLen _ _ _ _ hx hu => exact unbound rfl hx rfl hu

/-- C116: StopQueue that fails ends with the event that made it fail, and returns its reason. -/
theorem C116_queue_stop (env : Env) (K : Kernel QEv) (w w' : W) (qh : Handle) (err : Err) (hR : Ready w qh)
    (h : stopQueue env K w = .ok (some err, w')) :
    ∃ evs, w'.trace = w.trace ++ evs ∧ (LongReplies evs → EndsBy env.e evs err.reason) := by
  obtain ⟨evs, cl, ht, hx, _, hn, _⟩ := C29_stop env K w w' qh _ hR h
  rw [hn (by simp), List.append_nil] at ht
  exact ⟨evs, ht, q_exchange_ends hx⟩

/-- An error handed to the error callback `ecb` was made of the receive the turn began with: its errno, the code of the
kernel's error message, or the report of a bad attribute in a datagram that is no error message. -/
def Explained (e : Endian) (fd size ecb : Nat) (g : List (Ev QEv)) : Prop :=
  ∀ k err nf, .app (.error k err nf) ∈ g → k = ecb ∧ ∃ r, g.head? = some (.recvfrom fd size 0x100 r) ∧
    (Cause (α := QEv) e (.recvfrom fd size 0x100 r) err.reason ∨
      (err.reason = .msg "Bad Attr" ∧ ∃ d, r = .ok d ∧ ¬ (num16 e d 4 = some 2 ∧ num32 e d 16 ≠ some 0)))

theorem turn_explained {e : Endian} {qh : Handle} {cb ecb priv size : Nat} {g : List (Ev QEv)}
    (h : Turn e qh cb ecb priv size g) : Explained e qh.fd size ecb g := by
  obtain ⟨r, rest, hq, hc⟩ := h
  intro k err nf hm
  have hrest : ∀ k err nf, Ev.app (QEv.error k err nf) ∉ rest := by
    intro k err nf hm
    have := hq _ hm
    simp [quiet] at this
  rcases hc with ⟨hf, err', nf', hT, rfl⟩ | ⟨hf, d, b, mark, id, rfl, _, rfl⟩
  · simp only [List.mem_cons, reduceCtorEq, false_or, Ev.app.injEq, QEv.error.injEq] at hm
    rcases hm with ⟨rfl, rfl, rfl⟩ | hm
    · refine ⟨rfl, r, rfl, ?_⟩
      cases r with
      | error n =>
        rw [show err' = _ from hT]
        exact Or.inl .recv
      | ok d =>
        by_cases hE : ErrMsg e d
        · obtain ⟨c, rfl, hc⟩ := hT.1 hE
          exact Or.inl (.refused hE.1 hc (code_ne hE.2 hc))
        · rw [hT.2 hE]
          exact Or.inr ⟨rfl, d, rfl, hE⟩
    · exact absurd hm (hrest _ _ _)
  · simp only [List.mem_cons, reduceCtorEq, false_or, Ev.app.injEq] at hm
    exact absurd hm (hrest _ _ _)

/-- C116: in every run of ProcessPackets, each error handed to the error callback was made of the failed receive of its
turn. -/
theorem C116_queue_callback {env : Env} {K : Kernel QEv} {qh : Handle} {cb ecb priv size : Nat} (hA : AppOk env)
    (n : Nat) (w w' : W) (fin : Bool) (hS : Setup w qh cb ecb priv size)
    (h : processPackets env K n w = .ok (fin, w')) :
    ∃ (gs : List (List (Ev QEv))) (closes : List (Ev QEv)), w'.trace = w.trace ++ (gs.flatten ++ closes) ∧
      (∀ ev ∈ closes, NfQueue.isClose ev = true) ∧
      ∀ g ∈ gs, Explained env.e qh.fd size ecb g := by
  obtain ⟨gs, cl, ht, hg, _, h1, h2, _⟩ := processPackets_turns env K hA qh cb ecb priv size n w w' fin hS h
  refine ⟨gs, cl, ht, ?_, fun g hm => turn_explained (hg g hm)⟩
  cases fin with
  | true =>
    rcases (h1 rfl).1 with rfl | ⟨e1, r, rfl⟩ <;> simp [NfQueue.isClose]
  | false => simp [(h2 rfl).1]

/-- The hypotheses of `C116_queue_start` are met: the kernel refuses the copy mode, and the queue is unbound again. -/
example (w : W) : ∃ (w' : W) (err : Err) (c : Int), createAndStart someEnv (judgeKernel 2) 7 100 1500 (some 0) none 0 w =
    .ok (some err, w') ∧ err.reason = .netlink c := by
  obtain ⟨w', _, _, _, _, _, _, _, _, c, h, _⟩ := C110_mode_denied someEnv (judgeKernel 2) 7 100 1500 (some 0) none 0 w 3
    (refuseType 2) (judgeKernel_judges 2) (refuseType_grants (fun t p h => by rw [h.1]; decide))
    (refuseType_grants (fun t p h => by rw [h.1]; decide)) (refuseType_grants (fun t p h => by rw [h.1]; decide))
    (refuseType_denies (fun t p h => h.1))
  exact ⟨w', _, c, h, rfl⟩
example : ∃ ev : Ev QEv, Cause .little ev (.netlink (-17)) :=
  ⟨.recvfrom 3 100 0 (.ok [36, 0, 0, 0, 2, 0, 0, 0, 0, 0, 0, 0, 0, 0, 0, 0, 239, 255, 255, 255]),
    .refused (by decide) (by decide +kernel) (by decide)⟩

/-- The hypotheses of `C116_queue_stop`, `C116_queue_config` and `C116_queue_callback` are met: a queue in use whose
socket fails. -/
example : Ready stopWorld ⟨3, ⟨5, 0, 64, 64⟩⟩ := ⟨rfl, ⟨Nat.le_refl _, by decide⟩, rfl⟩
example : (match stopQueue someEnv { ackKernel 0 with send := fun _ _ _ => some 9 } stopWorld with
    | .ok (some err, _) => decide (err.reason = .errno 9)
    | _ => false) = true := by decide +kernel
example : (match (ConfigCall.run someEnv { ackKernel 0 with recv := fun _ _ => .error 105 } (.setMaxLen 100) stopWorld) with
    | .ok (some err, _) => decide (err.reason = .errno 105)
    | _ => false) = true := by decide +kernel
example : (match processPackets someEnv { ackKernel 0 with recv := fun _ _ => .error 105 } 2 readerWorld with
    | .ok (false, w) => decide ((w.trace.filterMap fun
        | .app (.error k err _) => some (k, err.reason)
        | _ => none) = [(2, .errno 105), (2, .errno 105)])
    | _ => false) = true := by decide +kernel

end Queue

section Log
open Verif.NfLog

theorem l_exchange_ends {e : Endian} {fd : Nat} {req : LReq} {err : Err} {evs : List (Ev LEv)}
    (h : NfLog.Exchange e fd req (some err) evs) (hl : LongReplies evs) : EndsBy e evs err.reason := by
  obtain ⟨b, _, hq⟩ := h
  cases hq with
  | sendFailed hs => exact sys_send_ends hs
  | recvFailed hs => exact ⟨_, _, rfl, .recv⟩
  | @replied d _ evs1 hs hlt hiff hcode =>
    have h20 : 20 ≤ d.length := hl _ _ _ d (List.mem_append_right _ (List.mem_singleton.mpr rfl))
    have href : NfLog.Refusal e d := Classical.byContradiction fun hn => by
      have := hiff.mpr ⟨h20, hn⟩
      cases this
    obtain ⟨c, hr, hc⟩ := hcode (by omega) href
    cases hr
    exact ⟨_, _, rfl, .refused href.1 hc (code_ne href.2 hc)⟩

theorem l_groups_ends {e : Endian} {fd : Nat} {req : Nat → LReq} : ∀ {gs : List U16} {r : Option Err} {err : Err}
    {evs : List (Ev LEv)}, GroupsOut e fd req gs r evs → r = some err → LongReplies evs → EndsBy e evs err.reason := by
  intro gs r err evs h
  induction h with
  | nil => intro hr; cases hr
  | cons hx _ ih => intro hr hl; exact EndsBy.append _ (ih hr hl.right)
  | stop hx => intro hr hl; cases hr; exact l_exchange_ends hx hl

/-- C116: a configuration call of a log handle that fails ends with the event that made it fail, and returns its reason. -/
theorem C116_log_config (env : Env) (K : Kernel LEv) (c : Log.LogCall) (w w' : W) (fd : Nat) (err : Err)
    (ho : OpenOn w fd) (h : c.run env K w = .ok (some err, w')) :
    ∃ evs, w'.trace = w.trace ++ evs ∧ (LongReplies evs → EndsBy env.e evs err.reason) := by
  obtain ⟨evs, hg, ht, _⟩ := Log.run_spec env K c w w' fd _ ho h
  exact ⟨evs, ht, l_groups_ends hg rfl⟩

/-- C116: when BindAndListenForLogs fails, its error is the reason of the step that failed; after that step the socket
was closed, if it had been opened and bound, and nothing else happened. -/
theorem C116_log_start (env : Env) (K : Kernel LEv) (groups : List U16) (size : U32) (cb ecb : Option Nat) (w w' : W)
    (err : Err) (h : bindAndListen env K groups size cb ecb w = .ok (some err, w')) :
    ∃ evs cl, w'.trace = w.trace ++ evs ++ cl ∧ (LongReplies evs → EndsBy env.e evs err.reason) ∧
      (cl = [] ∨ ∃ fd, Sys.CloseEvs fd cl) := by
  obtain ⟨evs, ht, ho, _⟩ := Log.C32_outcomes env K groups size cb ecb w w' _ h
  cases ho with
  | @noSocket n => exact ⟨[.socket 16 3 12 (.error n)], [], by rw [ht]; simp, fun _ => ⟨[], _, rfl, .socket⟩, Or.inl rfl⟩
  | @noBind fd n bevs hb => exact ⟨[.socket 16 3 12 (.ok fd)] ++ bevs, [], by rw [ht]; simp, fun _ => EndsBy.append _ (sys_bind_ends hb), Or.inl rfl⟩
  | @noGroup fd err bevs opts evs cl hb hopt hg hcl =>
    exact ⟨[.socket 16 3 12 (.ok fd)] ++ bevs ++ opts ++ evs, cl, by rw [ht]; simp,
      fun hl => EndsBy.append _ (l_groups_ends (err := err) hg rfl hl.right), Or.inr ⟨fd, hcl⟩⟩
  | @noMode fd err bevs opts evs evs' cl hb hopt _ hg hcl =>
    exact ⟨[.socket 16 3 12 (.ok fd)] ++ bevs ++ opts ++ evs ++ evs', cl, by rw [ht]; simp,
      fun hl => EndsBy.append _ (l_groups_ends (err := err) hg rfl hl.right), Or.inr ⟨fd, hcl⟩⟩

/-- The hypotheses of `C116_log_start` are met: no socket can be opened (EMFILE). -/
example (w : W) : ∃ err w', bindAndListen Log.someEnv { Log.ackKernel with socket := fun _ => .error 24 } [10] 64 (some 0)
    none w = .ok (some err, w') ∧ err.reason = .errno 24 := ⟨_, _, rfl, rfl⟩

end Log

section Conntrack
open Verif.Conntrack Verif.Props.Ct

/-- A request failed for reason `err`, after which its socket was closed. -/
def FailsBy (e : Endian) (evs : List (Ev CEv)) (err : Err) : Prop :=
  ∃ pre cl fd, evs = pre ++ cl ∧ Sys.CloseEvs fd cl ∧ EndsBy e pre err

theorem c_exchange_ends {e : Endian} {req : List Byte → Prop} {err : Err} {evs : List (Ev CEv)}
    (h : Conntrack.Exchange e req (some err) evs) (hl : LongReplies evs) : FailsBy e evs err.reason := by
  obtain ⟨b, fd, bnd, q, cl, _, rfl, hb, hq, hcl⟩ := h
  refine ⟨.socket 16 3 12 (.ok fd) :: (bnd ++ q), cl, fd, by simp, hcl, ?_⟩
  have hl' : LongReplies q := by
    intro fd s fl d hm
    exact hl fd s fl d (by simp [hm])
  suffices EndsBy e q err.reason from EndsBy.append (.socket 16 3 12 (.ok fd) :: bnd) this
  cases hq with
  | sendFailed hs => exact sys_send_ends hs
  | recvFailed hs => exact ⟨_, _, rfl, .recv⟩
  | @replied d _ evs1 _ hs hlt hiff hcode =>
    have h20 : 20 ≤ d.length := hl' _ _ _ d (List.mem_append_right _ (List.mem_singleton.mpr rfl))
    have href : Conntrack.Refusal e d := Classical.byContradiction fun hn => by
      have := hiff.mpr ⟨h20, hn⟩
      cases this
    obtain ⟨c, hr, hc⟩ := hcode (by omega) href
    cases hr
    exact ⟨_, _, rfl, .refused href.1 hc (code_ne href.2 hc)⟩

theorem c_updates_ends {e : Endian} {req : List Byte → Prop} : ∀ {k : Nat} {r : Option Err} {err : Err}
    {evs : List (Ev CEv)}, Updates e req k r evs → r = some err → LongReplies evs → FailsBy e evs err.reason := by
  intro k r err evs h
  induction h with
  | nil => intro hr; cases hr
  | cons hx _ ih =>
    intro hr hl
    obtain ⟨pre, cl, fd, rfl, hc, he⟩ := ih hr hl.right
    exact ⟨_ ++ pre, cl, fd, (List.append_assoc _ _ _).symm, hc, EndsBy.append _ he⟩
  | stop hx => intro hr hl; cases hr; exact c_exchange_ends hx hl

/-- C116: a mark update that fails returns the reason of the request that failed. -/
theorem C116_mark (env : Env) (K : Kernel CEv) {ipSrc ipDst : String} {p : Byte} {sp dp : U16} {c : Conn}
    (mark : U32) (h : Names env ipSrc ipDst p sp dp c) (w w' : W) (err : Err)
    (hr : updateMark env K ipSrc ipDst p sp dp mark w = .ok (some err, w')) :
    ∃ evs, w'.trace = w.trace ++ evs ∧ (LongReplies evs → FailsBy env.e evs err.reason) := by
  obtain ⟨evs, hx, rfl⟩ := C39_mark_update env K mark h w w' _ hr
  exact ⟨evs, rfl, c_exchange_ends hx⟩

/-- C116: a bulk mark update that fails returns the reason of the request that failed, which was its last. -/
theorem C116_bulk_mark (env : Env) (K : Kernel CEv) {ipSrc ipDst : String} {p : Byte} {sp dp : U16} {c : Conn}
    {mark : U32} (h : Names env ipSrc ipDst p sp dp c) (hm : mark ≠ 0) (flows : List Flow) (hf : ∀ f ∈ flows, V4Flow f)
    (n : Int) (err : Err) (w w' : W)
    (hr : updateMarkForAvailableFlow env K flows ipSrc ipDst p sp dp mark w = .ok ((n, some err), w')) :
    ∃ evs, w'.trace = w.trace ++ evs ∧ (LongReplies evs → FailsBy env.e evs err.reason) := by
  obtain ⟨first, evs, hu, rfl, hfst, _⟩ := C42_bulk_mark env K h hm flows hf n _ w w' hr
  cases first with
  | none => cases hfst
  | some inner =>
    simp only [Option.map_some, Option.some.injEq] at hfst
    subst hfst
    exact ⟨evs, rfl, c_updates_ends (err := inner) hu rfl⟩

/-- C116: a bulk label update that fails returns the reason of the request that failed, which was its last. -/
theorem C116_bulk_label (env : Env) (K : Kernel CEv) {ipSrc ipDst : String} {p : Byte} {sp dp : U16} {c : Conn}
    {label : U32} (h : Names env ipSrc ipDst p sp dp c) (flows : List Flow) (hf : ∀ f ∈ flows, V4Flow f)
    (n : Int) (err : Err) (w w' : W)
    (hr : updateLabel env K flows ipSrc ipDst p sp dp label w = .ok ((n, some err), w')) :
    ∃ evs, w'.trace = w.trace ++ evs ∧ (LongReplies evs → FailsBy env.e evs err.reason) := by
  obtain ⟨evs, hu, rfl, _⟩ := C43_bulk_label env K h flows hf n _ w w' hr
  exact ⟨evs, rfl, c_updates_ends hu rfl⟩

/-- The hypotheses of `C116_mark` are met: a kernel that refuses every message with EPERM, and one that replies with the
error code -2 (ENOENT). -/
example : (match updateMark sampleEnv { sampleKernel with send := fun _ _ _ => some 1 } "10.0.0.1" "10.0.0.2" 17 1000 53 9
    sampleWorld with
    | .ok (some err, _) => decide (err.reason = .errno 1)
    | _ => false) = true := by decide +kernel
example : (match updateMark sampleEnv { sampleKernel with
      recv := fun _ _ => .ok [20, 0, 0, 0, 2, 0, 0, 0, 0, 0, 0, 0, 0, 0, 0, 0, 254, 255, 255, 255] }
      "10.0.0.1" "10.0.0.2" 17 1000 53 9 sampleWorld with
    | .ok (some err, _) => decide (err.reason = .netlink (-2))
    | _ => false) = true := by decide +kernel
/-- And so are those of the bulk updates: the second of two requests fails. -/
example : (match updateMarkForAvailableFlow sampleEnv { sampleKernel with
      send := fun tr _ _ => if tr.length < 4 then none else some 105 } [sampleFlow, otherFlow, sampleFlow] "10.0.0.1"
      "10.0.0.2" 17 1000 53 9 sampleWorld with
    | .ok ((0, some err), _) => decide (err.reason = .errno 105)
    | _ => false) = true := by decide +kernel
example : (match updateLabel sampleEnv { sampleKernel with
      send := fun tr _ _ => if tr.length < 4 then none else some 105 } [sampleFlow, otherFlow, sampleFlow] "10.0.0.1"
      "10.0.0.2" 17 1000 53 9 sampleWorld with
    | .ok ((0, some err), _) => decide (err.reason = .errno 105)
    | _ => false) = true := by decide +kernel

end Conntrack
end Verif.Props
