import Verif.NfQueue.Reader
/-!
A process with several queues (as nfqueue/examples/example.go:34-39, which creates four): each has its own
`NfQueue` structure (nfqueue/nfqueue.go:29-42) and its own goroutines; memory and kernel are shared.
-/
namespace Verif.NfQueue
open Common Sys Spec Props

/-- The process: one memory, one history of system calls and callbacks, one structure for each queue. -/
abbrev MW := World QEv (Nat → NfQueue)

/-- What the goroutines of queue `j` can see. -/
def MW.view (w : MW) (j : Nat) : W := ⟨w.trace, w.heap, w.st j⟩

/-- Where the goroutines are: for each queue its reader and its verdict calls. -/
abbrev MPc := Nat → RPc × (Nat → Pc)

/-- The scheduler picks a goroutine of queue `j < n`: its reader, or verdict call `i`.  `lock j`: the application
serialises its `SetVerdict2` calls on queue `j` (calls on different queues are never serialised).  Besides the new positions the
result tells what the step did to the outside world. -/
noncomputable def mstep (env : Env) (K : Kernel QEv) (n : Nat) (lock : Nat → Bool) (calls : Nat → List VCall)
    (ji : Nat × Option Nat) (s : MPc) : GoM MW (MPc × List (Nat × Ev QEv)) := fun w =>
  if ji.1 < n then
    match cstep env K (lock ji.1) (calls ji.1) ji.2 (s ji.1) (w.view ji.1) with
    | .ok (s', v) => .ok ((fun k => if k = ji.1 then s' else s k, (v.trace.drop w.trace.length).map (ji.1, ·)),
        ⟨v.trace, v.heap, fun k => if k = ji.1 then v.st else w.st k⟩)
    | .panic => .panic
    | .diverge => .diverge
  else .ok ((s, []), w)

/-- A whole schedule; the result tells what was done, and by a goroutine of which queue. -/
noncomputable def msched (env : Env) (K : Kernel QEv) (n : Nat) (lock : Nat → Bool) (calls : Nat → List VCall) :
    List (Nat × Option Nat) → MPc → GoM MW (MPc × List (Nat × Ev QEv))
  | [], s => pure (s, [])
  | i :: is, s => do
    let (s', l) ← mstep env K n lock calls i s
    let (s'', l') ← msched env K n lock calls is s'
    pure (s'', l ++ l')

/-- The arguments of `CreateAndStartNfQueue` (nfqueue/nfqueue.go:97). -/
structure StartArgs where
  queueID : U16
  maxLen : U32
  size : U32
  cb : Nat
  ecb : Nat
  priv : Nat

/-- nfqueue/examples/example.go:34-39: start queues one after the other; `nfqAppHdl[j], _ = ...` becomes structure
number `j`.  Simplifications: stops at the first error (the example ignores errors); the readers of the queues already started
are at work only after the last one is started. -/
def startAll (env : Env) (K : Kernel QEv) : Nat → List StartArgs → GoM MW (Option Err)
  | _, [] => fun w => .ok (none, w)
  | j, a :: as => fun w =>
    match createAndStart env K a.queueID a.maxLen a.size (some a.cb) (some a.ecb) a.priv (w.view j) with
    | .ok (none, v) => startAll env K (j + 1) as ⟨v.trace, v.heap, fun k => if k = j then v.st else w.st k⟩
    | .ok (some err, v) => .ok (some err, ⟨v.trace, v.heap, fun k => if k = j then v.st else w.st k⟩)
    | .panic => .panic
    | .diverge => .diverge

end Verif.NfQueue
