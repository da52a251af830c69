import Verif.NfQueue.Reader
import Verif.Props.NfQueueConfig
/-!
A goroutine that configures or stops a queue while the queue's own goroutine reads from the same socket into the same buffer: the bodies of
the configuration calls (nfqueue/nfqueue.go:230-339, 507-528, 571-591) and of `StopQueue` (nfqueue/nfqueue.go:562-568) cut at every system
call and before the look at the receive buffer.

Simplification: the look at the received reply (at most the first 20 bytes) is one step.
-/
namespace Verif.NfQueue
open Common Sys Spec Props

/-- A call made beside the reader. -/
inductive Ask where
  | config (c : ConfigCall)
  | stop

/-- The call as a whole. -/
def Ask.run (env : Env) (K : Kernel QEv) : Ask → M (Option Err)
  | .config c => c.run env K
  | .stop => stopQueue env K

/-- The configuration call whose request is sent: `StopQueue` begins with `NfqDestroyQueue`. -/
def Ask.call : Ask → ConfigCall
  | .config c => c
  | .stop => .destroyQueue

/-- The message each call builds: nfqueue/nfqueue.go:232-250, 509-521, 269-283, 296-309, 321-333, 572-585. -/
def _root_.Verif.Props.ConfigCall.msg (e : Endian) (queueNum : U16) : ConfigCall → NetlinkMessage
  | .unbindPf => cfgMsg e 0 1 4 [4, 116, 0, 2]
  | .bindPf => cfgMsg e 0 1 4 [3, 0, 0, 2]
  | .createQueue num _ _ _ => cfgMsg e num 1 4 [1, 0, 0, 0]
  | .setMode mode size => cfgMsg e queueNum 2 8 (enc32 .big size ++ [mode.setWidth 8, 0, 0, 0])
  | .setMaxLen n => cfgMsg e queueNum 3 4 (enc32 .big n)
  | .destroyQueue => cfgMsg e queueNum 1 4 [2, 0, 0, 0]

/-- Where the caller is, with the locals still needed. -/
inductive CPc where
  | start
  /-- the request has been sent; about to receive -/
  | sent (qh : Handle)
  /-- `n` bytes have been received -/
  | got (qh : Handle) (n : Nat)
  /-- the reply was no error; about to close (`StopQueue` only) -/
  | acked
  | done (r : Option Err)

/-- nfqueue/nfqueue.go:201-211: what `recv` makes of the first `n + 1` bytes of the buffer. -/
def judge (env : Env) (buf : Slice) (n : Nat) : M (Option Err) := do
  let view ← GoM.lift (buf.to (n + 1))
  let bytes ← readBytes view
  let (hdr, next, _) ← GoM.lift (netlinkMessageToStruct env.e bytes)
  match hdr with
  | none => GoM.panic
  | some hdr =>
    if hdr.type = 2 then
      let (_, code) ← GoM.lift (netlinkErrMessagetoStruct env.e next)
      if code ≠ 0 then pure (some (.netlink code)) else pure none
    else pure none

/-- One step of the caller: build and send (nfqueue/nfqueue.go:168), receive (197-200), look (201-211), close (566). -/
def astep (env : Env) (K : Kernel QEv) (a : Ask) : CPc → M CPc
  | .start => do
    let q0 ← getQ
    modifyQ a.call.record
    let q ← getQ
    match q.handle with
    | none => pure (.done (some (.msg "NfqOpen was not called. No Socket open")))
    | some qh =>
      match ← qh.send env K (a.call.msg env.e q0.queueNum) with
      | some err => pure (.done (some err))
      | none => pure (.sent qh)
  | .sent qh => do
    match ← recvInto K qh.fd qh.buf 0 with
    | .error n => pure (.done (some (.wrap "Recvfrom returned error %v" (.errno n))))
    | .ok n => pure (.got qh n)
  | .got qh n => do
    match ← judge env qh.buf n with
    | some err => pure (.done (some err))
    | none =>
      match a with
      | .stop => pure .acked
      | .config _ => pure (.done none)
  | .acked => do
    let q ← getQ
    match q.handle with
    | none => GoM.panic
    | some qh => do
      qh.close K
      pure (.done none)
  | .done r => pure (.done r)

/-- The caller running alone, `n` steps. -/
def arun (env : Env) (K : Kernel QEv) (a : Ask) : Nat → CPc → M CPc
  | 0, pc => pure pc
  | n + 1, pc => do
    let pc' ← astep env K a pc
    arun env K a n pc'

theorem arun_done (env : Env) (K : Kernel QEv) (a : Ask) (r : Option Err) (n : Nat) (w : W) :
    arun env K a n (.done r) w = .ok (.done r, w) := by
  induction n with
  | zero => rfl
  | succ n ih => simp only [arun, GoM.bind_apply, astep, GoM.pure_apply, Res.ok_bind, ih]

/-- Which message a call sends. -/
theorem config_eq (env : Env) (K : Kernel QEv) (c : ConfigCall) (w : W) :
    c.run env K w = queryOrFail env K (c.msg env.e w.st.queueNum) { w with st := c.record w.st } := by
  cases c with
  | unbindPf => exact congrFun (unbindPf_eq env K) w
  | bindPf => exact congrFun (bindPf_eq env K) w
  | createQueue num cb ecb pd => exact createQueue_eq env K num cb ecb pd w
  | setMode mode size => exact nfqSetMode_eq env K mode size w
  | setMaxLen n => exact nfqSetQueueMaxLen_eq env K n w
  | destroyQueue => exact nfqDestroyQueue_eq env K w

theorem msg_encodes (e : Endian) (c : ConfigCall) (q : U16) :
    Encodes e (hdrBytes e (c.msg e q).header ++ (c.msg e q).data) (c.req q) := by
  cases c with
  | unbindPf => exact enc_pfUnbind _
  | bindPf => exact enc_pfBind _
  | createQueue num cb ecb pd => exact enc_bind _ _
  | setMode mode size => exact enc_mode _ _ _ _
  | setMaxLen n => exact enc_maxLen _ _ _
  | destroyQueue => exact enc_unbind _ _

theorem recv_judge (env : Env) (K : Kernel QEv) (qh : Handle) (w : W) :
    qh.recv env K w = (do
      match ← recvInto K qh.fd qh.buf 0 with
      | .error n => pure (some (.wrap "Recvfrom returned error %v" (.errno n)))
      | .ok n => judge env qh.buf n : M (Option Err)) w := rfl

/-- Left alone, the caller does in four steps exactly what the call does. -/
theorem asks_alone (env : Env) (K : Kernel QEv) (a : Ask) (w : W) :
    arun env K a 4 .start w = (a.run env K w >>= fun x => .ok (.done x.1, x.2)) := by
  have key : ∀ (f : Option Err → M (Option Err)) (k : Nat),
      (∀ err w, f (some err) w = .ok (some err, w)) →
      (∀ w, (match a with
        | .stop => pure CPc.acked
        | .config _ => pure (CPc.done none) : M CPc) w >>= (fun x => arun env K a 1 x.1 x.2) =
          (f none w >>= fun x => .ok (.done x.1, x.2))) →
      arun env K a 4 .start w = ((a.call.run env K >>= f) w >>= fun x => .ok (.done x.1, x.2)) := by
    intro f _ hf hn
    simp only [arun, GoM.bind_apply, astep, getQ, Res.ok_bind, modifyQ, config_eq, queryOrFail]
    cases (a.call.record w.st).handle with
    | none => simp only [GoM.pure_apply, Res.ok_bind, hf]
    | some qh =>
      simp only [Handle.query, GoM.bind_apply]
      rcases qh.send env K (a.call.msg env.e w.st.queueNum) { w with st := a.call.record w.st } with ⟨r, w1⟩ | _ | _
      · cases r with
        | some err => simp only [Res.ok_bind, GoM.pure_apply, hf]
        | none =>
          simp only [Res.ok_bind, GoM.pure_apply, recv_judge, GoM.bind_apply]
          rcases recvInto K qh.fd qh.buf 0 w1 with ⟨r, w2⟩ | _ | _
          · cases r with
            | error n => simp only [Res.ok_bind, GoM.pure_apply, hf]
            | ok n =>
              simp only [Res.ok_bind, GoM.pure_apply, GoM.bind_apply]
              rcases judge env qh.buf n w2 with ⟨r, w3⟩ | _ | _
              · cases r with
                | some err => simp only [Res.ok_bind, GoM.pure_apply, hf]
                | none =>
                  simp only [Res.ok_bind]
                  rw [← hn w3]
                  simp only [arun, GoM.bind_apply]
                  rfl
              · rfl
              · rfl
          · rfl
          · rfl
      · rfl
      · rfl
  cases a with
  | config c =>
    refine (key pure 0 (fun _ _ => rfl) (fun w => rfl)).trans ?_
    simp only [GoM.bind_apply, Ask.call, Ask.run]
    rcases c.run env K w with ⟨r, w1⟩ | _ | _ <;> rfl
  | stop =>
    refine key _ 0 (fun _ _ => rfl) (fun w => ?_)
    simp only [GoM.pure_apply, Res.ok_bind, arun, astep, GoM.bind_apply, getQ]
    cases w.st.handle with
    | none => rfl
    | some qh =>
      simp only [Handle.close, GoM.bind_apply]
      rcases Sys.close K qh.fd w with ⟨r, w1⟩ | _ | _ <;> rfl

/-- Both goroutines: where each is, and the world. -/
structure Both where
  reader : RPc
  caller : CPc
  w : W

/-- One step of the reader (`true`) or the caller. -/
noncomputable def bstep (env : Env) (K : Kernel QEv) (a : Ask) : Bool → Both → Res Both
  | true, s => do
    let (pc, w) ← rstep env K s.reader s.w
    pure ⟨pc, s.caller, w⟩
  | false, s => do
    let (pc, w) ← astep env K a s.caller s.w
    pure ⟨s.reader, pc, w⟩

/-- A whole schedule. -/
noncomputable def bsched (env : Env) (K : Kernel QEv) (a : Ask) : List Bool → Both → Res Both
  | [], s => pure s
  | x :: xs, s => do
    let s' ← bstep env K a x s
    bsched env K a xs s'

end Verif.NfQueue
