import Verif.Sys.Genuine
import Verif.NfQueue.Example
/-! Every function of package nfqueue records what the kernel answered, and nothing else. -/
namespace Verif.NfQueue
open Sys Common
variable {K : Kernel QEv}

theorem records_getQ : Records K getQ := .none fun w x w' h => by cases h; rfl
theorem records_modifyQ (f : NfQueue → NfQueue) : Records K (modifyQ f) := .none fun w x w' h => by cases h; rfl
theorem records_readBytes (s : Slice) : Records K (readBytes s) := .none fun w x w' h => by cases h; rfl
theorem records_emit (a : QEv) : Records K (emit a) := .one fun w x w' h => by cases h; exact ⟨_, rfl, trivial⟩
theorem records_allocM (b : List Byte) : Records K (allocM b) := .none fun w x w' h => by cases h; rfl
theorem records_appendM (env : Env) (s : Slice) (b : List Byte) : Records K (appendM env s b) := .none fun w x w' h => by cases h; rfl
theorem records_putBytes (s : Slice) (b : List Byte) : Records K (putBytes s b) := .none fun w x w' h => by cases h; rfl
theorem records_freshQueue : Records K freshQueue := .none fun w x w' h => by cases h; rfl

theorem records_nfqOpen : Records K (nfqOpen K) := by
  unfold nfqOpen
  refine records_getQ.bind fun q => (records_modifyQ _).bind fun _ => (records_socket K _ _ _).bind fun r => ?_
  cases r with
  | error n => exact .pure _
  | ok fd =>
    refine (records_bind K fd).bind fun r => ?_
    cases r with
    | some n => exact .pure _
    | none =>
      exact (records_setsockoptInt K _ _ _ _).bind fun _ => (records_setsockoptInt K _ _ _ _).bind fun _ =>
        (records_setsockoptInt K _ _ _ _).bind fun _ => (records_rawLinger K _).bind fun _ =>
        (records_modifyQ _).bind fun _ => .pure _

theorem records_send (env : Env) (qh : Handle) (msg : NetlinkMessage) : Records K (qh.send env K msg) := by
  unfold Handle.send
  refine (Records.lift _).bind fun buf => (records_sendto K _ _ _).bind fun r => ?_
  cases r <;> exact .pure _

theorem records_hrecv (env : Env) (qh : Handle) : Records K (qh.recv env K) := by
  unfold Handle.recv
  refine (records_recvInto K _ _ _).bind fun r => ?_
  cases r with
  | error n => exact .pure _
  | ok n =>
    refine (Records.lift _).bind fun view => (records_readBytes _).bind fun bytes => (Records.lift _).bind fun x => ?_
    obtain ⟨hdr, next, e⟩ := x
    cases hdr with
    | none => exact .panic
    | some hdr =>
      refine .ite ?_ (.pure _)
      refine (Records.lift _).bind fun y => ?_
      exact .ite (.pure _) (.pure _)

theorem records_query (env : Env) (qh : Handle) (msg : NetlinkMessage) : Records K (qh.query env K msg) := by
  unfold Handle.query
  refine (records_send env qh msg).bind fun r => ?_
  cases r with
  | some err => exact .pure _
  | none => exact records_hrecv env qh

theorem records_hclose (qh : Handle) : Records K (qh.close K) := by
  unfold Handle.close
  exact (records_close K _).bind fun _ => .pure _

theorem records_queryOrFail (env : Env) (msg : NetlinkMessage) : Records K (queryOrFail env K msg) := by
  unfold queryOrFail
  refine records_getQ.bind fun q => ?_
  cases q.handle with
  | some qh => exact records_query env qh msg
  | none => exact .pure _

theorem records_unbindPf (env : Env) : Records K (unbindPf env K) := by
  unfold unbindPf
  exact (Records.lift _).bind fun _ => (Records.lift _).bind fun _ => (Records.lift _).bind fun _ => records_queryOrFail env _
theorem records_bindPf (env : Env) : Records K (bindPf env K) := by
  unfold bindPf
  exact (Records.lift _).bind fun _ => (Records.lift _).bind fun _ => (Records.lift _).bind fun _ => records_queryOrFail env _
theorem records_createQueue (env : Env) (num : U16) (cb ecb : Option Nat) (pd : Nat) : Records K (createQueue env K num cb ecb pd) := by
  unfold createQueue
  exact (records_modifyQ _).bind fun _ => (Records.lift _).bind fun _ => (Records.lift _).bind fun _ => (Records.lift _).bind fun _ =>
    records_queryOrFail env _
theorem records_nfqSetMode (env : Env) (mode : U64) (size : U32) : Records K (nfqSetMode env K mode size) := by
  unfold nfqSetMode
  exact records_getQ.bind fun _ => (Records.lift _).bind fun _ => (Records.lift _).bind fun _ => (Records.lift _).bind fun _ =>
    records_queryOrFail env _
theorem records_nfqSetQueueMaxLen (env : Env) (n : U32) : Records K (nfqSetQueueMaxLen env K n) := by
  unfold nfqSetQueueMaxLen
  exact records_getQ.bind fun _ => (Records.lift _).bind fun _ => (Records.lift _).bind fun _ => (Records.lift _).bind fun _ =>
    records_queryOrFail env _
theorem records_nfqDestroyQueue (env : Env) : Records K (nfqDestroyQueue env K) := by
  unfold nfqDestroyQueue
  exact records_getQ.bind fun _ => (Records.lift _).bind fun _ => (Records.lift _).bind fun _ => (Records.lift _).bind fun _ =>
    records_queryOrFail env _

theorem records_nfqClose : Records K (nfqClose K) := by
  unfold nfqClose
  refine records_getQ.bind fun q => ?_
  cases q.handle with
  | some qh => exact records_hclose qh
  | none => exact .pure _

theorem records_stopQueue (env : Env) : Records K (stopQueue env K) := by
  unfold stopQueue
  refine (records_nfqDestroyQueue env).bind fun r => ?_
  cases r with
  | some err => exact .pure _
  | none =>
    refine records_getQ.bind fun q => ?_
    cases q.handle with
    | some qh => exact (records_hclose qh).bind fun _ => .pure _
    | none => exact .panic

theorem records_createAndStart (env : Env) (q : U16) (maxLen size : U32) (cb ecb : Option Nat) (pd : Nat) :
    Records K (createAndStart env K q maxLen size cb ecb pd) := by
  unfold createAndStart
  refine records_freshQueue.bind fun _ => records_nfqOpen.bind fun r => ?_
  cases r with
  | error err => exact .pure _
  | ok _ =>
  refine (records_unbindPf env).bind fun r => ?_
  cases r with
  | some err => exact records_nfqClose.bind fun _ => .pure _
  | none =>
  refine (records_bindPf env).bind fun r => ?_
  cases r with
  | some err => exact records_nfqClose.bind fun _ => .pure _
  | none =>
  refine (records_createQueue env _ _ _ _).bind fun r => ?_
  cases r with
  | some err => exact records_nfqClose.bind fun _ => .pure _
  | none =>
  refine (records_nfqSetMode env _ _).bind fun r => ?_
  cases r with
  | some err => exact (records_nfqDestroyQueue env).bind fun _ => records_nfqClose.bind fun _ => .pure _
  | none =>
  refine (records_nfqSetQueueMaxLen env _).bind fun r => ?_
  cases r with
  | some err => exact (records_nfqDestroyQueue env).bind fun _ => records_nfqClose.bind fun _ => .pure _
  | none => exact (records_emit _).bind fun _ => .pure _

theorem records_sendmsg (env : Env) (fd : Nat) (iovs : List Iov) : Records K (sendmsg env K fd iovs) := by
  intro w x w' h
  unfold sendmsg at h
  rcases hr : syscallSendmsg K fd (iovs.flatMap (Iov.read env w.heap)) w with ⟨r, w1⟩ | _ | _
  · rw [hr] at h
    cases h
    exact records_syscallSendmsg K _ _ w r _ hr
  · rw [hr] at h; cases h
  · rw [hr] at h; cases h

theorem records_baseOf (s : Slice) (n : Nat) : Records K (baseOf s n) := by
  unfold baseOf
  exact .ite .panic (.pure _)
theorem records_padPacket (env : Env) (s : Slice) (n : Nat) : Records K (padPacket env s n) := by
  unfold padPacket
  exact .ite (records_appendM env _ _) (.pure _)
theorem records_fillFrom (s : Slice) (i : Nat) (f : List Byte → Res (List Byte × Nat)) : Records K (fillFrom s i f) := by
  unfold fillFrom
  exact (Records.lift _).bind fun _ => (records_readBytes _).bind fun _ => (Records.lift _).bind fun _ =>
    (records_putBytes _ _).bind fun _ => .pure _

theorem records_setVerdict (env : Env) (a b c d : U32) (p : Slice) : Records K (setVerdict env K a b c d p) := by
  unfold setVerdict
  have key : ∀ m : M Unit, Records K m → Records K (if b = 1 then
      modifyQ (fun q => { q with accepted := q.accepted + 1 }) >>= fun _ => m else
      modifyQ (fun q => { q with dropped := q.dropped + 1 }) >>= fun _ => m) := fun m hm =>
    .ite ((records_modifyQ _).bind fun _ => hm) ((records_modifyQ _).bind fun _ => hm)
  refine key _ ?_
  refine records_getQ.bind fun q => (Records.lift _).bind fun _ => (Records.lift _).bind fun _ =>
    (Records.lift _).bind fun _ => (Records.lift _).bind fun _ => (Records.lift _).bind fun _ => (records_allocM _).bind fun _ =>
    (records_baseOf _ _).bind fun _ => (records_allocM _).bind fun _ => (records_baseOf _ _).bind fun _ =>
    (records_padPacket env _ _).bind fun _ => (records_baseOf _ _).bind fun _ => ?_
  cases q.handle with
  | none => exact .panic
  | some qh => exact records_sendmsg env _ _

theorem records_setVerdict2 (env : Env) (a b c d e : U32) (p : Slice) : Records K (setVerdict2 env K a b c d e p) := by
  unfold setVerdict2
  refine records_getQ.bind fun q => (Records.lift _).bind fun _ => (records_fillFrom _ _ _).bind fun _ =>
    (records_fillFrom _ _ _).bind fun _ => (records_fillFrom _ _ _).bind fun _ => (records_fillFrom _ _ _).bind fun _ =>
    (records_fillFrom _ _ _).bind fun _ => (records_fillFrom _ _ _).bind fun _ => (records_baseOf _ _).bind fun _ =>
    (records_allocM _).bind fun _ => (records_baseOf _ _).bind fun _ =>
    (records_padPacket env _ _).bind fun _ => (records_baseOf _ _).bind fun _ => ?_
  cases q.handle with
  | none => exact .panic
  | some qh => exact records_sendmsg env _ _

theorem records_parseAttrs (env : Env) (buf : Slice) : Records K (parseAttrs env buf) := by
  intro w x w' h
  unfold parseAttrs at h
  rcases hr : netlinkMessageToNfAttrStruct env.e w.heap buf w.st.attrs with ⟨m, r, err⟩ | _ | _
  · rw [hr] at h; cases h; exact ⟨[], by simp, .nil⟩
  · rw [hr] at h; cases h
  · rw [hr] at h; cases h

theorem records_decodeM (env : Env) (buf : Slice) (n : Nat) : Records K (decodeM env buf n) := by
  unfold decodeM
  refine (Records.lift _).bind fun view => (records_readBytes _).bind fun bytes => (Records.lift _).bind fun x => ?_
  obtain ⟨hdr, payload, err⟩ := x
  cases hdr with
  | none => exact .panic
  | some hdr =>
    have h1 : Records K (if hdr.type = 2 then do
        let (_, code) ← GoM.lift (netlinkErrMessagetoStruct env.e payload)
        if code ≠ 0 then pure (some (Err.netlink code)) else pure none
      else pure none : M (Option Err)) := by
      refine .ite ((Records.lift _).bind fun y => ?_) (.pure _)
      exact .ite (.pure _) (.pure _)
    refine h1.bind fun early => ?_
    cases early with
    | some ne => exact .pure _
    | none =>
      cases err with
      | some err => exact .pure _
      | none =>
        exact (Records.lift _).bind fun _ => (Records.lift _).bind fun _ => (Records.lift _).bind fun _ =>
          (records_parseAttrs env _).bind fun _ => .pure _

theorem records_recv (env : Env) : Records K (recv env K) := by
  unfold recv
  refine records_getQ.bind fun q => ?_
  cases q.handle with
  | none => exact .panic
  | some qh =>
    refine (records_recvInto K _ _ _).bind fun r => ?_
    cases r with
    | error n => exact .pure _
    | ok n => exact records_decodeM env _ _

/-- Application code that records only what happens. -/
def CallbackRecords (K : Kernel QEv) (env : Env) : Prop :=
  ∀ w, ∃ evs, (env.cbEffect w).trace = w.trace ++ evs ∧ Genuine K w.trace evs

theorem records_receiveOne {env : Env} (hcb : CallbackRecords K env) : Records K (receiveOne env K) := by
  have hrun : Records K (runCallback env) := by
    intro w x w' h
    cases h
    exact hcb w
  have hinfo : ∀ a, Records K (packetInfoM env a) := by
    intro a
    refine .none fun w x w' h => ?_
    unfold packetInfoM at h
    obtain ⟨y, _, h2⟩ := Res.bind_eq_ok.mp h
    cases h2; rfl
  unfold receiveOne
  refine (records_recv env).bind fun x => ?_
  obtain ⟨nfgen, attr, err⟩ := x
  refine records_getQ.bind fun q => ?_
  have htail : Records K (do
      let (id, mark, packet) ← packetInfoM env attr
      modifyQ fun q => { q with processed := q.processed + 1 }
      match q.callback with
      | none => GoM.panic
      | some cb =>
        emitPacket cb packet mark id q.privateData
        runCallback env : M Unit) := by
    refine (hinfo _).bind fun x => ?_
    obtain ⟨id, mark, packet⟩ := x
    refine (records_modifyQ _).bind fun _ => ?_
    cases q.callback with
    | none => exact .panic
    | some cb =>
      refine Records.bind ?_ fun _ => hrun
      exact .one fun w x w' h => by cases h; exact ⟨_, rfl, trivial⟩
  cases err with
  | none => exact htail
  | some err =>
    cases q.errorCallback with
    | none => simp only; exact htail
    | some ecb => simp only; exact (records_emit _).bind fun _ => hrun

theorem records_processIter {env : Env} (hcb : CallbackRecords K env) : Records K (processIter env K) := by
  intro w x w' h
  unfold processIter at h
  split at h
  · exact (records_nfqClose.bind fun _ => .pure _) w x w' h
  · exact ((records_receiveOne hcb).bind fun _ => .pure _) w x w' h

theorem records_processPackets {env : Env} (hcb : CallbackRecords K env) : ∀ n, Records K (processPackets env K n) := by
  intro n
  induction n with
  | zero => exact .pure _
  | succ n ih =>
    unfold processPackets
    refine (records_processIter hcb).bind fun b => ?_
    cases b with
    | true => exact .pure _
    | false => exact ih

theorem echo_records (env : Env) : CallbackRecords K (echoEnv env K) := by
  intro w
  show ∃ evs, (echoCallback env K w).trace = w.trace ++ evs ∧ Genuine K w.trace evs
  unfold echoCallback
  split
  · dsimp only
    split
    · rename_i w' hv
      exact records_setVerdict2 env _ _ _ _ _ _ w _ w' hv
    · exact ⟨[], by simp, .nil⟩
  · exact ⟨[], by simp, .nil⟩

end Verif.NfQueue
