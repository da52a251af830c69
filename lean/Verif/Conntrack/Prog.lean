import Verif.Sys.Prog
import Verif.Conntrack.Exec
/-!
The update calls of package `conntrack`, cut at their system calls, so that several can run at the same time.

A call works on its own memory only: `Handles` (conntrack/types.go:25-28) carries the stateless system call wrappers, which
`open` (conntrack/sockets.go:12-28) copies into a `SockHandles` made for the call; the message is built in local variables and
`sh.buf` belongs to that `SockHandles`.  (The flows given to a bulk call are only read.)  Every program below is proved to do, when run alone, exactly what the
function of Conntrack/Model.lean does (`*_alone`).
-/
namespace Verif.Conntrack
open Common Sys

/-- What is left of a conntrack call. -/
abbrev P := Prog CEv

/-- conntrack/sockets.go:12-28 `open` -/
def openSockP : P (Except Err Nat) := do
  match ← Prog.sysSocket 16 3 12 with
  | .error n => pure (.error (.errno n))
  | .ok fd =>
    match ← Prog.sysBind fd with
    | some n => pure (.error (.errno n))
    | none => pure (.ok fd)

/-- conntrack/sockets.go:64-74 `send` -/
def sendP (env : Env) (fd : Nat) (msg : NetlinkMessage) : P (Option Err) := do
  let buf ← Prog.ofRes (wireBytes env.e msg)
  match ← Prog.sysSendto fd buf 0 with
  | some n => pure (some (.errno n))
  | none => pure none

/-- conntrack/sockets.go:38-62 `recv` -/
def recvP (env : Env) (fd bufLen : Nat) : P (Option Err) := do
  match ← Prog.sysRecvfrom fd bufLen 0 with
  | .error n => pure (some (.wrap "Recvfrom returned error %v" (.errno n)))
  | .ok d => Prog.ofRes (readReply env.e d)

/-- conntrack/sockets.go:30-36 `query` -/
def queryP (env : Env) (fd : Nat) (msg : NetlinkMessage) : P (Option Err) := do
  match ← sendP env fd msg with
  | some err => pure (some err)
  | none => recvP env fd (16 + msg.data.length)

/-- conntrack/conntrack.go:248-261 `sendMessage` -/
def sendMessageP (env : Env) (hdr : NlMsghdr) (data : List Byte) : P (Option Err) := do
  match ← openSockP with
  | .error _ => Prog.crash
  | .ok fd => do
    let r ← queryP env fd { header := hdr, data := data }
    let _ ← Prog.sysClose fd
    pure r

/-- conntrack/conntrack.go:65-75 `ConntrackTableUpdateMark` -/
def updateMarkP (env : Env) (ipSrc ipDst : String) (protonum : Byte) (srcport dstport : U16) (newmark : U32) :
    P (Option Err) := do
  let msg ← Prog.ofRes (markMessage env ipSrc ipDst protonum srcport dstport newmark)
  sendMessageP env msg.1 msg.2

/-- conntrack/conntrack.go:45-55 -/
def markLoopP (env : Env) (ipSrc ipDst : String) (protonum : Byte) (srcport dstport : U16) (newmark : U32) :
    List Flow → Nat → P (Nat × Option Err)
  | [], n => pure (n, none)
  | f :: fs, n => do
    let present ← Prog.ofRes (checkTuplesInFlow env f ipSrc ipDst protonum srcport dstport)
    if present && newmark != 0 then do
      match ← updateMarkP env ipSrc ipDst protonum srcport dstport newmark with
      | some err => pure (0, some err)
      | none => markLoopP env ipSrc ipDst protonum srcport dstport newmark fs (n + 1)
    else markLoopP env ipSrc ipDst protonum srcport dstport newmark fs n

/-- conntrack/conntrack.go:41-62 `ConntrackTableUpdateMarkForAvailableFlow` -/
def updateMarkForAvailableFlowP (env : Env) (flows : List Flow) (ipSrc ipDst : String) (protonum : Byte)
    (srcport dstport : U16) (newmark : U32) : P (Int × Option Err) := do
  match ← markLoopP env ipSrc ipDst protonum srcport dstport newmark flows 0 with
  | (_, some err) => pure (0, some (.wrap "Error %v" err))
  | (n, none) => if (n : Int) ≥ 0 then pure ((n : Int), none) else pure (-1, some (.msg "Entry not present"))

/-- conntrack/conntrack.go:85-104 -/
def labelLoopP (env : Env) (ipSrc ipDst : String) (protonum : Byte) (srcport dstport : U16) (newlabels : U32) :
    List Flow → Nat → P (Nat × Option Err)
  | [], n => pure (n, none)
  | f :: fs, n => do
    let present ← Prog.ofRes (checkTuplesInFlow env f ipSrc ipDst protonum srcport dstport)
    if present then do
      let msg ← Prog.ofRes (labelMessage env ipSrc ipDst protonum srcport dstport newlabels)
      match ← sendMessageP env msg.1 msg.2 with
      | some err => pure (0, some err)
      | none => labelLoopP env ipSrc ipDst protonum srcport dstport newlabels fs (n + 1)
    else labelLoopP env ipSrc ipDst protonum srcport dstport newlabels fs n

/-- conntrack/conntrack.go:80-111 `ConntrackTableUpdateLabel` -/
def updateLabelP (env : Env) (flows : List Flow) (ipSrc ipDst : String) (protonum : Byte) (srcport dstport : U16)
    (newlabels : U32) : P (Int × Option Err) := do
  match ← labelLoopP env ipSrc ipDst protonum srcport dstport newlabels flows 0 with
  | (_, some err) => pure (0, some err)
  | (n, none) => if (n : Int) ≥ 0 then pure ((n : Int), none) else pure (0, some (.msg "Entry not present"))

/-! ### Run alone, they do what the functions do -/

section
variable {R S : Type} (K : Kernel CEv)

theorem toM_bind (p : P R) (f : R → P S) (w : W) :
    Prog.toM K (p >>= f) w = Prog.toM K p w >>= fun x => Prog.toM K (f x.1) x.2 := Prog.toM_andThen K p f w

theorem toM_pure (r : R) (w : W) : Prog.toM K (pure r : P R) w = .ok (r, w) := rfl

theorem toM_ofRes (r : Res R) (w : W) : Prog.toM K (Prog.ofRes r : P R) w = (GoM.lift r : M R) w := by
  cases r <;> rfl

theorem toM_sysSocket (d t p : Nat) (w : W) : Prog.toM K (Prog.sysSocket d t p) w = socket K d t p w := by
  simp only [Prog.sysSocket, Prog.toM, socket, GoM.bind_apply, rawSocket, Res.ok_bind]
  cases K.socket w.trace <;> rfl

theorem toM_sysBind (fd : Nat) (w : W) : Prog.toM K (Prog.sysBind fd) w = Sys.bind K fd w := by
  simp only [Prog.sysBind, Prog.toM, Sys.bind, GoM.bind_apply, rawBind, Res.ok_bind]
  cases K.bind w.trace fd <;> rfl

theorem toM_sysClose (fd : Nat) (w : W) : Prog.toM K (Prog.sysClose fd) w = Sys.close K fd w := by
  simp only [Prog.sysClose, Prog.toM, Sys.close, GoM.bind_apply, rawClose, Res.ok_bind]
  cases K.close w.trace fd <;> rfl

theorem toM_sysSendto (fd : Nat) (b : List Byte) (fl : Nat) (w : W) :
    Prog.toM K (Prog.sysSendto fd b fl) w = Sys.sendto K fd b fl w := by
  simp only [Prog.sysSendto, Prog.toM, Sys.sendto, GoM.bind_apply, rawSendto, Res.ok_bind]
  cases K.send w.trace fd b <;> rfl

theorem toM_sysRecvfrom (fd s fl : Nat) (w : W) :
    Prog.toM K (Prog.sysRecvfrom fd s fl) w = Sys.recvfrom K fd s fl w := by
  simp only [Prog.sysRecvfrom, Prog.toM, Sys.recvfrom, GoM.bind_apply, rawRecvfrom, Res.ok_bind]
  cases K.recv w.trace fd <;> rfl
end

theorem res_congr {A B : Type} {m : Res A} {f g : A → Res B} (h : ∀ a, f a = g a) : (m >>= f) = (m >>= g) := by
  cases m <;> simp [h]

theorem openSockP_alone (K : Kernel CEv) (w : W) : Prog.toM K openSockP w = openSock K w := by
  unfold openSockP openSock
  rw [toM_bind, GoM.bind_apply, toM_sysSocket]
  refine res_congr fun ⟨r, w1⟩ => ?_
  cases r with
  | error n => rfl
  | ok fd =>
    dsimp only
    rw [toM_bind, GoM.bind_apply, toM_sysBind]
    refine res_congr fun ⟨r, w2⟩ => ?_
    cases r <;> rfl

theorem sendP_alone (env : Env) (K : Kernel CEv) (fd : Nat) (msg : NetlinkMessage) (w : W) :
    Prog.toM K (sendP env fd msg) w = send env K fd msg w := by
  unfold sendP send
  rw [toM_bind, GoM.bind_apply, toM_ofRes]
  refine res_congr fun ⟨b, w1⟩ => ?_
  rw [toM_bind, GoM.bind_apply, toM_sysSendto]
  refine res_congr fun ⟨r, w2⟩ => ?_
  cases r <;> rfl

theorem recvP_alone (env : Env) (K : Kernel CEv) (fd n : Nat) (w : W) :
    Prog.toM K (recvP env fd n) w = recv env K fd n w := by
  unfold recvP recv
  rw [toM_bind, GoM.bind_apply, toM_sysRecvfrom]
  refine res_congr fun ⟨r, w2⟩ => ?_
  cases r with
  | error n => rfl
  | ok d => exact toM_ofRes K _ _

theorem queryP_alone (env : Env) (K : Kernel CEv) (fd : Nat) (msg : NetlinkMessage) (w : W) :
    Prog.toM K (queryP env fd msg) w = query env K fd msg w := by
  unfold queryP query
  rw [toM_bind, GoM.bind_apply, sendP_alone]
  refine res_congr fun ⟨r, w2⟩ => ?_
  cases r with
  | some n => rfl
  | none => exact recvP_alone env K fd _ _

theorem sendMessageP_alone (env : Env) (K : Kernel CEv) (hdr : NlMsghdr) (data : List Byte) (w : W) :
    Prog.toM K (sendMessageP env hdr data) w = sendMessage env K hdr data w := by
  unfold sendMessageP sendMessage
  rw [toM_bind, GoM.bind_apply, openSockP_alone]
  refine res_congr fun ⟨r, w1⟩ => ?_
  cases r with
  | error n => rfl
  | ok fd =>
    dsimp only
    rw [toM_bind, GoM.bind_apply, queryP_alone]
    refine res_congr fun ⟨r, w2⟩ => ?_
    unfold closeSock
    rw [toM_bind, GoM.bind_apply, GoM.bind_apply, toM_sysClose, Res.bind_assoc']
    exact res_congr fun ⟨_, _⟩ => rfl

theorem updateMarkP_alone (env : Env) (K : Kernel CEv) (ipSrc ipDst : String) (p : Byte) (sp dp : U16) (m : U32) (w : W) :
    Prog.toM K (updateMarkP env ipSrc ipDst p sp dp m) w = updateMark env K ipSrc ipDst p sp dp m w := by
  unfold updateMarkP updateMark
  rw [toM_bind, GoM.bind_apply, toM_ofRes]
  exact res_congr fun ⟨_, _⟩ => sendMessageP_alone env K _ _ _

theorem markLoopP_alone (env : Env) (K : Kernel CEv) (ipSrc ipDst : String) (p : Byte) (sp dp : U16) (m : U32)
    (fs : List Flow) : ∀ (n : Nat) (w : W),
    Prog.toM K (markLoopP env ipSrc ipDst p sp dp m fs n) w = markLoop env K ipSrc ipDst p sp dp m fs n w := by
  induction fs with
  | nil => intro n w; rfl
  | cons f fs ih =>
    intro n w
    unfold markLoopP markLoop
    rw [toM_bind, GoM.bind_apply, toM_ofRes]
    refine res_congr fun ⟨b, w1⟩ => ?_
    dsimp only
    by_cases hb : (b && m != 0) = true
    · rw [if_pos hb, if_pos hb, toM_bind, GoM.bind_apply, updateMarkP_alone]
      refine res_congr fun ⟨r, w2⟩ => ?_
      cases r with
      | some n => rfl
      | none => exact ih _ _
    · rw [if_neg hb, if_neg hb]
      exact ih _ _

theorem labelLoopP_alone (env : Env) (K : Kernel CEv) (ipSrc ipDst : String) (p : Byte) (sp dp : U16) (m : U32)
    (fs : List Flow) : ∀ (n : Nat) (w : W),
    Prog.toM K (labelLoopP env ipSrc ipDst p sp dp m fs n) w = labelLoop env K ipSrc ipDst p sp dp m fs n w := by
  induction fs with
  | nil => intro n w; rfl
  | cons f fs ih =>
    intro n w
    unfold labelLoopP labelLoop
    rw [toM_bind, GoM.bind_apply, toM_ofRes]
    refine res_congr fun ⟨b, w1⟩ => ?_
    dsimp only
    by_cases hb : b = true
    · rw [if_pos hb, if_pos hb, toM_bind, GoM.bind_apply, toM_ofRes]
      refine res_congr fun ⟨msg, w2⟩ => ?_
      rw [toM_bind, GoM.bind_apply, sendMessageP_alone]
      refine res_congr fun ⟨r, w3⟩ => ?_
      cases r with
      | some n => rfl
      | none => exact ih _ _
    · rw [if_neg hb, if_neg hb]
      exact ih _ _

theorem updateMarkForAvailableFlowP_alone (env : Env) (K : Kernel CEv) (flows : List Flow) (ipSrc ipDst : String) (p : Byte)
    (sp dp : U16) (m : U32) (w : W) : Prog.toM K (updateMarkForAvailableFlowP env flows ipSrc ipDst p sp dp m) w =
      updateMarkForAvailableFlow env K flows ipSrc ipDst p sp dp m w := by
  unfold updateMarkForAvailableFlowP updateMarkForAvailableFlow
  rw [toM_bind, GoM.bind_apply, markLoopP_alone]
  refine res_congr fun ⟨⟨n, r⟩, w1⟩ => ?_
  cases r with
  | some n => rfl
  | none =>
    dsimp only
    rw [if_pos (Int.natCast_nonneg n), if_pos (Int.natCast_nonneg n)]
    rfl

theorem updateLabelP_alone (env : Env) (K : Kernel CEv) (flows : List Flow) (ipSrc ipDst : String) (p : Byte)
    (sp dp : U16) (m : U32) (w : W) : Prog.toM K (updateLabelP env flows ipSrc ipDst p sp dp m) w =
      updateLabel env K flows ipSrc ipDst p sp dp m w := by
  unfold updateLabelP updateLabel
  rw [toM_bind, GoM.bind_apply, labelLoopP_alone]
  refine res_congr fun ⟨⟨n, r⟩, w1⟩ => ?_
  cases r with
  | some n => rfl
  | none =>
    dsimp only
    rw [if_pos (Int.natCast_nonneg n), if_pos (Int.natCast_nonneg n)]
    rfl

/-! ### Calls -/

/-- A call of one of the update functions with its arguments. -/
inductive Call where
  | mark (ipSrc ipDst : String) (protonum : Byte) (srcport dstport : U16) (newmark : U32)
  | bulkMark (flows : List Flow) (ipSrc ipDst : String) (protonum : Byte) (srcport dstport : U16) (newmark : U32)
  | bulkLabel (flows : List Flow) (ipSrc ipDst : String) (protonum : Byte) (srcport dstport : U16) (newlabels : U32)

/-- The function called, run alone.  The number of entries is `none` for `ConntrackTableUpdateMark`, which does not
return one. -/
def Call.run (env : Env) (K : Kernel CEv) : Call → M (Option Int × Option Err)
  | .mark s d p sp dp m => do let r ← updateMark env K s d p sp dp m; pure (none, r)
  | .bulkMark fs s d p sp dp m => do let r ← updateMarkForAvailableFlow env K fs s d p sp dp m; pure (some r.1, r.2)
  | .bulkLabel fs s d p sp dp m => do let r ← updateLabel env K fs s d p sp dp m; pure (some r.1, r.2)

/-- The function called, cut at its system calls. -/
def Call.prog (env : Env) : Call → P (Option Int × Option Err)
  | .mark s d p sp dp m => do let r ← updateMarkP env s d p sp dp m; pure (none, r)
  | .bulkMark fs s d p sp dp m => do let r ← updateMarkForAvailableFlowP env fs s d p sp dp m; pure (some r.1, r.2)
  | .bulkLabel fs s d p sp dp m => do let r ← updateLabelP env fs s d p sp dp m; pure (some r.1, r.2)

theorem Call.prog_alone (env : Env) (K : Kernel CEv) (c : Call) (w : W) :
    Prog.toM K (c.prog env) w = c.run env K w := by
  cases c <;> simp only [Call.prog, Call.run] <;> rw [toM_bind, GoM.bind_apply]
  · rw [updateMarkP_alone]; exact res_congr fun ⟨_, _⟩ => rfl
  · rw [updateMarkForAvailableFlowP_alone]; exact res_congr fun ⟨_, _⟩ => rfl
  · rw [updateLabelP_alone]; exact res_congr fun ⟨_, _⟩ => rfl

/-- The goroutines of a process that made these calls at the same time: goroutine `i` makes call `i`. -/
def callProgs (env : Env) (calls : List Call) (i : Nat) : P (Option Int × Option Err) :=
  match calls[i]? with
  | some c => c.prog env
  | none => .ret (none, none)

end Verif.Conntrack
