import Verif.Props.NfQueueVerdict
import Verif.NfQueue.Bounded
import Verif.NfLog.Bounded
import Verif.Conntrack.Bounded
/-! C161: no call retries, waits or loops without bound.  (The receive loops, Recv, ProcessPackets and ReadLogs, are other matters: C07,
C26, C36.)  `Bounded n r m`: `m` does not run forever by itself, and whenever it returns it has made at most `n` system calls, at most `r` of
which wait for a datagram. -/
namespace Verif.Props
open Verif.Common Verif.Sys Verif.Spec Verif.NfQueue

/-- C161 for package nfqueue: on any handle in any state, whatever the kernel does, a configuration call makes at most three system calls
(a request, sent a second time if the first attempt fails, and one wait for the answer), a verdict at most one, which does not wait. -/
theorem C161_nfqueue (env : Env) (K : Kernel QEv) (c : ConfigCall) (v : VCall) (id : U16) (maxLen size : U32)
    (cb ecb : Option Nat) (pd : Nat) :
    Bounded 10 0 (nfqOpen K) ∧ Bounded 3 1 (c.run env K) ∧ Bounded 1 0 (v.run env K) ∧ Bounded 5 1 (stopQueue env K) ∧
    Bounded 2 0 (nfqClose K) ∧ Bounded 30 6 (createAndStart env K id maxLen size cb ecb pd) := by
  refine ⟨b_open, ?_, ?_, b_stopQueue env, b_nfqClose, b_createAndStart env id maxLen size cb ecb pd⟩
  · cases c with
    | unbindPf => exact b_unbindPf env
    | bindPf => exact b_bindPf env
    | createQueue n cb ecb pd => exact b_createQueue env n cb ecb pd
    | setMode m s => exact b_setMode env m s
    | setMaxLen n => exact b_setMaxLen env n
    | destroyQueue => exact b_destroy env
  · cases v with
    | v1 qa v l id p => exact b_setVerdict env qa v l id p
    | v2 qa v m l id p => exact b_setVerdict2 env qa v m l id p

/-- C161 for package nflog: at most three system calls and one wait per group that is bound or configured. -/
theorem C161_nflog (env : NfLog.Env) (K : Kernel NfLog.LEv) (gs : List U16) (size : U32) (cb ecb : Option Nat) :
    Bounded 5 0 (NfLog.nflogOpen K) ∧ Bounded 3 1 (NfLog.nflogUnbind env K) ∧ Bounded 3 1 (NfLog.nflogBind env K) ∧
    Bounded (3 * gs.length) gs.length (NfLog.nflogBindGroup env K gs cb ecb) ∧
    Bounded (3 * gs.length) gs.length (NfLog.nflogSetMode env K gs size) ∧ Bounded 2 0 (NfLog.nflogClose K) ∧
    Bounded (6 * gs.length + 7) (2 * gs.length) (NfLog.bindAndListen env K gs size cb ecb) :=
  ⟨NfLog.b_open, NfLog.b_unbind env, NfLog.b_bind env, NfLog.b_bindGroup env gs cb ecb, NfLog.b_setMode env gs size, NfLog.b_nflogClose,
    (NfLog.b_bindAndListen env gs size cb ecb).le (by omega) (by omega)⟩

/-- C161 for package conntrack: at most eight system calls and one wait per flow in the list given. -/
theorem C161_conntrack (env : Conntrack.Env) (K : Kernel Conntrack.CEv) (fs : List Conntrack.Flow) (src dst : String) (proto : Byte)
    (sp dp : U16) (mark : U32) :
    Bounded 8 1 (Conntrack.updateMark env K src dst proto sp dp mark) ∧
    Bounded (8 * fs.length) fs.length (Conntrack.updateMarkForAvailableFlow env K fs src dst proto sp dp mark) ∧
    Bounded (8 * fs.length) fs.length (Conntrack.updateLabel env K fs src dst proto sp dp mark) :=
  ⟨Conntrack.b_updateMark env src dst proto sp dp mark, Conntrack.b_bulkMark env fs src dst proto sp dp mark,
    Conntrack.b_bulkLabel env fs src dst proto sp dp mark⟩

/-- A kernel that refuses every first attempt to send and then acknowledges. -/
def reluctant : Kernel QEv := { ackKernel 0 with
  send := fun tr _ _ => match tr.getLast? with
    | some (.sendto _ _ _ _) => none
    | _ => some 105 }

/-- The bound is reached, not just respected: binding on that kernel takes exactly three system calls, one of which waits, and succeeds. -/
theorem C161_reached : ∃ w', bindPf someEnv reluctant smallWorld = .ok (none, w') ∧
    w'.trace.countP isCall = 3 ∧ w'.trace.countP isWait = 1 := ⟨_, rfl, rfl, rfl⟩

end Verif.Props
