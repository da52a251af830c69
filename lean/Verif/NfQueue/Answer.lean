import Verif.NfQueue.Many
/-!
An application that answers in its packet callback (as nfqueue/examples/example.go:15-31 does): the callback runs in
the reader's goroutine (nfqueue/nfqueue.go:494-501), so the verdict call it makes runs there too, in the steps of
`Concurrent.lean`, while the goroutines of other queues go on.
-/
namespace Verif.NfQueue
open Common Sys Spec Props

/-- What an application does about a packet before its callback returns: nothing, `SetVerdict`, or `SetVerdict2`. -/
inductive Answer where
  | silent
  | verdict (v : U32)
  | verdict2 (v mark : U32)
deriving DecidableEq

/-- The call the callback makes: nfqueue/examples/example.go:19 and 26, `SetVerdict2(uint32(QueueNum), v, mark,
uint32(len(Buffer)), uint32(ID), Buffer)`, and likewise for `SetVerdict`. -/
def Answer.call (qn : U16) (id : Nat) (buf : Slice) : Answer → Option VCall
  | .silent => none
  | .verdict v => some (.v1 (qn.setWidth 32) v (BitVec.ofNat 32 buf.len) (BitVec.ofNat 32 id) buf)
  | .verdict2 v m => some (.v2 (qn.setWidth 32) v m (BitVec.ofNat 32 buf.len) (BitVec.ofNat 32 id) buf)

/-- What an application answers to the packets of one queue: the `n`-th packet given to it (from 0), its payload, mark
and id. -/
abbrev Policy := Nat → List Byte → Nat → Nat → Answer

/-- Where the goroutine of one queue is. -/
inductive APc where
  | read (pc : RPc)
  /-- inside the callback, inside its verdict call -/
  | verdict (c : VCall) (pc : Pc)
  /-- the context was done, the socket has been closed -/
  | stopped

/-- A goroutine: how many packets it has given to the application, and where it is. -/
structure AG where
  given : Nat
  pc : APc

/-- One step of the goroutine of one queue: one turn of `ProcessPackets` (nfqueue/nfqueue.go:472-505) cut as in `rstep`, the
call of the packet callback (494-501), and the verdict call cut as in `vstep`.  `cancel`: the context is done, as a
function of what has happened in the process.  Simplification: closing the socket (474-477) is one step. -/
noncomputable def estep (env : Env) (K : Kernel QEv) (cancel : List (Ev QEv) → Bool) (policy : Policy) : AG → M AG
  | ⟨n, .read .idle⟩ => fun w =>
    if cancel w.trace then (nfqClose K >>= fun _ => pure ⟨n, .stopped⟩) w
    else (rstep env K .idle >>= fun pc => pure ⟨n, .read pc⟩) w
  | ⟨n, .read (.ready id mark pkt)⟩ => fun w =>
    match w.st.callback with
    | none => .panic
    | some cb =>
      match (policy n (optBytes w.heap pkt) mark id).call w.st.queueNum id (pkt.getD Slice.nil) with
      | none => (emitPacket cb pkt mark id w.st.privateData >>= fun _ => pure ⟨n + 1, .read .idle⟩) w
      | some c => (emitPacket cb pkt mark id w.st.privateData >>= fun _ => pure ⟨n + 1, .verdict c .start⟩) w
  | ⟨n, .read pc⟩ => rstep env K pc >>= fun pc' => pure ⟨n, .read pc'⟩
  | ⟨n, .verdict c pc⟩ => vstep env K c pc >>= fun pc' => pure ⟨n, if pc' = .done then .read .idle else .verdict c pc'⟩
  | ⟨n, .stopped⟩ => pure ⟨n, .stopped⟩

/-- One goroutine running alone, `k` steps. -/
noncomputable def erun (env : Env) (K : Kernel QEv) (cancel : List (Ev QEv) → Bool) (policy : Policy) : Nat → AG → M AG
  | 0, g => pure g
  | k + 1, g => estep env K cancel policy g >>= fun g' => erun env K cancel policy k g'

/-- The process: the main goroutine has still to start the queues `todo`, the first of them with number `next`; and where the
goroutines of the queues are (`none`: not started, or its start failed). -/
structure Proc where
  todo : List StartArgs
  next : Nat
  run : Nat → Option AG

/-- What is left of the process after its main goroutine has tried to start the next queue. -/
def Proc.started (s : Proc) (ok : Bool) : Proc :=
  ⟨s.todo.tail, s.next + 1, fun k => if k = s.next then (if ok then some ⟨0, .read .idle⟩ else none) else s.run k⟩

/-- The scheduler picks the main goroutine (`none`), which starts the next queue (nfqueue/examples/example.go:34-39; like the
example it goes on with the next one if that fails; nfqueue/nfqueue.go:125 starts the goroutine), or the goroutine of queue `j`.  The
result tells also what the step did to the outside world.  Simplification: a start is one step. -/
noncomputable def pstep (env : Env) (K : Kernel QEv) (cancel : Nat → List (Ev QEv) → Bool) (policy : Nat → Policy)
    (i : Option Nat) (s : Proc) : GoM MW (Proc × List (Option Nat × Ev QEv)) := fun w =>
  match i with
  | none =>
    match s.todo with
    | [] => .ok ((s, []), w)
    | a :: _ =>
      match createAndStart env K a.queueID a.maxLen a.size (some a.cb) (some a.ecb) a.priv (w.view s.next) with
      | .ok (r, v) => .ok ((s.started r.isNone, (v.trace.drop w.trace.length).map (none, ·)),
          ⟨v.trace, v.heap, fun k => if k = s.next then v.st else w.st k⟩)
      | .panic => .panic
      | .diverge => .diverge
  | some j =>
    match s.run j with
    | none => .ok ((s, []), w)
    | some g =>
      match estep env K (cancel j) (policy j) g (w.view j) with
      | .ok (g', v) => .ok ((⟨s.todo, s.next, fun k => if k = j then some g' else s.run k⟩,
            (v.trace.drop w.trace.length).map (some j, ·)),
          ⟨v.trace, v.heap, fun k => if k = j then v.st else w.st k⟩)
      | .panic => .panic
      | .diverge => .diverge

/-- A whole schedule; the result tells what was done, and by which goroutine. -/
noncomputable def psched (env : Env) (K : Kernel QEv) (cancel : Nat → List (Ev QEv) → Bool) (policy : Nat → Policy) :
    List (Option Nat) → Proc → GoM MW (Proc × List (Option Nat × Ev QEv))
  | [], s => pure (s, [])
  | i :: is, s => do
    let (s', l) ← pstep env K cancel policy i s
    let (s'', l') ← psched env K cancel policy is s'
    pure (s'', l ++ l')

/-- One turn as a whole: `receiveOne` (nfqueue/nfqueue.go:479-502) where the packet callback makes the call, and the error callback
does nothing; `n`: packets given to the application so far. -/
noncomputable def answerOne (env : Env) (K : Kernel QEv) (policy : Policy) (n : Nat) : M Nat := do
  let (nfgen, attr, err) ← recv env K
  let q ← getQ
  match err, q.errorCallback with
  | some err, some ecb =>
    emit (.error ecb (.wrap "Netlink error %v" err) nfgen)
    pure n
  | _, _ =>
    let (id, mark, packet) ← packetInfoM env attr
    modifyQ fun q => { q with processed := q.processed + 1 }
    match q.callback with
    | none => GoM.panic
    | some cb =>
      emitPacket cb packet mark id q.privateData
      let w ← GoM.get
      match (policy n (optBytes w.heap packet) mark id).call q.queueNum id (packet.getD Slice.nil) with
      | none => pure (n + 1)
      | some c =>
        c.run env K
        pure (n + 1)

end Verif.NfQueue
