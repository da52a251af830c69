import Verif.NfQueue.Model
/-!
Model of the example application shipped with the library (/repo/nfqueue/examples/example.go): both its
packet callbacks accept every packet with mark 11, and its error callback does nothing.
-/
namespace Verif.NfQueue
open Common Sys

/-- nfqueue/examples/example.go:15-31 `passNetVerdict`, `passVerdict`, `errorCallback`:
`SetVerdict2(uint32(QueueNum), 1, 11, uint32(len(Buffer)), uint32(ID), Buffer)`.
The callback is entered with its own invocation as the last event; the `Buffer` it is given is the queue's
payload attribute (nfqueue/nfqueue.go:486-497), or an empty slice.  A crash of the callback would be a crash
of the process; here it leaves the world unchanged, without a verdict (the theorems show that a verdict is
sent for every packet, so this does not happen). -/
def echoCallback (env : Env) (K : Kernel QEv) (w : W) : W :=
  match w.trace.getLast? with
  | some (.app (.packet _ _ _ id _)) =>
    let buffer := (w.st.attrs 10).getD Slice.nil
    match setVerdict2 env K (w.st.queueNum.setWidth 32) 1 11 (BitVec.ofNat 32 buffer.len) (BitVec.ofNat 32 id) buffer w with
    | .ok (_, w') => w'
    | _ => w
  | _ => w

/-- The environment of a process running the example application. -/
def echoEnv (env : Env) (K : Kernel QEv) : Env := { env with cbEffect := echoCallback env K }

/-- An application like the example (nfqueue/examples/example.go:15-31) that looks at the packet: the verdict and the mark are a function
`π` of the bytes it is given, the rest is as there. -/
def decideCallback (env : Env) (K : Kernel QEv) (π : List Byte → U32 × U32) (w : W) : W :=
  match w.trace.getLast? with
  | some (.app (.packet _ bytes _ id _)) =>
    let buffer := (w.st.attrs 10).getD Slice.nil
    match setVerdict2 env K (w.st.queueNum.setWidth 32) (π bytes).1 (π bytes).2 (BitVec.ofNat 32 buffer.len) (BitVec.ofNat 32 id) buffer w with
    | .ok (_, w') => w'
    | _ => w
  | _ => w

/-- The environment of a process running such an application. -/
def decideEnv (env : Env) (K : Kernel QEv) (π : List Byte → U32 × U32) : Env := { env with cbEffect := decideCallback env K π }

/-- The example is one: it accepts everything, with mark 11. -/
theorem echo_decides (env : Env) (K : Kernel QEv) : echoEnv env K = decideEnv env K fun _ => (1, 11) := rfl

end Verif.NfQueue
