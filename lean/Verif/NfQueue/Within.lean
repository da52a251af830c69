import Verif.Sys.Prog
import Verif.NfQueue.Example
/-! What the functions of package nfqueue, but `NfqOpen` and `CreateQueue`, do to a queue and the system: the queue stays the one it is, and every
system call is on its descriptor. -/
namespace Verif.NfQueue
open Sys Common
/-- What makes a queue the queue it is: its descriptor, number, callbacks, private data and notification channel. -/
structure Ident where
  fd : Option Nat
  num : U16
  cb : Option Nat
  ecb : Option Nat
  priv : Nat
  chan : Chan

variable {K : Kernel QEv} {I : Ident} {β γ : Type} {fd : Nat}

/-- Of a queue. -/
def identOf (q : NfQueue) : Ident := ⟨q.handle.map (·.fd), q.queueNum, q.callback, q.errorCallback, q.privateData, q.notification⟩

/-- What happens is done by queue `I`: a system call on its descriptor, or a call of its callbacks. -/
def OfQueue (I : Ident) : Ev QEv → Prop
  | .app (.packet cb _ _ _ priv) => I.cb = some cb ∧ priv = I.priv
  | .app (.error ecb _ _) => I.ecb = some ecb
  | .app .spawnReader => False
  | ev => ∃ fd, Prog.onFd ev = some fd ∧ I.fd = some fd

/-- The program `m` does only what queue `I` does, and leaves it the queue it is. -/
def Within (I : Ident) (m : M β) : Prop :=
  ∀ w x w', identOf w.st = I → m w = .ok (x, w') → identOf w'.st = I ∧ ∃ evs, w'.trace = w.trace ++ evs ∧ ∀ ev ∈ evs, OfQueue I ev

theorem Within.none {m : M β} (h : ∀ w x w', m w = .ok (x, w') → identOf w'.st = identOf w.st ∧ w'.trace = w.trace) : Within I m := by
  intro w x w' hI hm
  obtain ⟨h1, h2⟩ := h w x w' hm
  exact ⟨h1.trans hI, [], by simp [h2], by simp⟩

theorem Within.one {m : M β} (h : ∀ w x w', identOf w.st = I → m w = .ok (x, w') → identOf w'.st = identOf w.st ∧
    ∃ ev, w'.trace = w.trace ++ [ev] ∧ OfQueue I ev) : Within I m := by
  intro w x w' hI hm
  obtain ⟨h1, ev, h2, h3⟩ := h w x w' hI hm
  exact ⟨h1.trans hI, [ev], h2, by simpa using h3⟩

theorem Within.pure (x : β) : Within I (Pure.pure x : M β) := .none fun w y w' h => by
  rw [GoM.pure_apply] at h; cases h; exact ⟨rfl, rfl⟩

theorem Within.lift (x : Res β) : Within I (GoM.lift x : M β) := .none fun w y w' h => by
  rw [GoM.lift_apply] at h
  cases x with
  | ok a => cases h; exact ⟨rfl, rfl⟩
  | panic => cases h
  | diverge => cases h

theorem Within.panic : Within I (GoM.panic : M β) := by
  intro w x w' _ h; cases h

theorem Within.bind {m : M β} {f : β → M γ} (hm : Within I m) (hf : ∀ x, Within I (f x)) : Within I (m >>= f) := by
  intro w x w' hI h
  rw [GoM.bind_apply] at h
  obtain ⟨⟨y, w1⟩, h1, h2⟩ := Res.bind_eq_ok.mp h
  obtain ⟨i1, a, ha, ga⟩ := hm w y w1 hI h1
  obtain ⟨i2, b, hb, gb⟩ := hf y w1 x w' i1 h2
  refine ⟨i2, a ++ b, by rw [hb, ha, List.append_assoc], fun ev hev => ?_⟩
  rcases List.mem_append.mp hev with hev | hev
  · exact ga ev hev
  · exact gb ev hev

theorem Within.ite {c : Prop} [Decidable c] {m n : M β} (hm : Within I m) (hn : Within I n) : Within I (if c then m else n) := by
  split
  · exact hm
  · exact hn

/-- Reading the queue gives the queue. -/
theorem Within.getQ {f : NfQueue → M γ} (hf : ∀ q, identOf q = I → Within I (f q)) : Within I (NfQueue.getQ >>= f) := by
  intro w x w' hI h
  exact hf w.st hI w x w' hI h

theorem within_modifyQ (f : NfQueue → NfQueue) (hf : ∀ q, identOf (f q) = identOf q) : Within I (modifyQ f) :=
  .none fun w x w' h => by cases h; exact ⟨hf _, rfl⟩

theorem fd_of {I : Ident} {q : NfQueue} {qh : Handle} (h : identOf q = I) (hq : q.handle = some qh) : I.fd = some qh.fd := by
  rw [← h]
  show q.handle.map (·.fd) = _
  rw [hq]; rfl

theorem within_rawClose (hI : I.fd = some fd) : Within I (rawClose K fd : M _) :=
  .one fun w x w' _ h => by cases h; exact ⟨rfl, _, rfl, fd, rfl, hI⟩
theorem within_rawSendto (hI : I.fd = some fd) (b : List Byte) (f : Nat) : Within I (rawSendto K fd b f : M _) :=
  .one fun w x w' _ h => by cases h; exact ⟨rfl, _, rfl, fd, rfl, hI⟩
theorem within_rawSendmsg (hI : I.fd = some fd) (b : List Byte) : Within I (rawSendmsg K fd b : M _) :=
  .one fun w x w' _ h => by cases h; exact ⟨rfl, _, rfl, fd, rfl, hI⟩
theorem within_rawRecvfrom (hI : I.fd = some fd) (size f : Nat) : Within I (rawRecvfrom K fd size f : M _) :=
  .one fun w x w' _ h => by cases h; exact ⟨rfl, _, rfl, fd, rfl, hI⟩
theorem within_close (hI : I.fd = some fd) : Within I (Sys.close K fd : M _) := by
  unfold Sys.close
  exact (within_rawClose hI).bind fun x => .ite (within_rawClose hI) (.pure _)
theorem within_recvfrom (hI : I.fd = some fd) (size f : Nat) : Within I (recvfrom K fd size f : M _) := by
  unfold recvfrom
  refine (within_rawRecvfrom hI size f).bind fun x => ?_
  cases x <;> exact .pure _
theorem within_sendto (hI : I.fd = some fd) (b : List Byte) (f : Nat) : Within I (sendto K fd b f : M _) := by
  unfold sendto
  exact (within_rawSendto hI b f).bind fun x => .ite (within_rawSendto hI b f) (.pure _)
theorem within_syscallSendmsg (hI : I.fd = some fd) (b : List Byte) : Within I (syscallSendmsg K fd b : M _) := by
  unfold syscallSendmsg
  refine (within_rawSendmsg hI b).bind fun x => ?_
  cases x <;> exact .pure _
theorem within_recvInto (hI : I.fd = some fd) (buf : Slice) (f : Nat) : Within I (recvInto K fd buf f : M _) := by
  intro w x w' hw h
  unfold recvInto at h
  rcases hr : recvfrom K fd buf.len f w with ⟨r, w1⟩ | _ | _
  · rw [hr] at h
    obtain ⟨h1, h2⟩ := within_recvfrom hI buf.len f w r w1 hw hr
    cases r <;> (cases h; exact ⟨h1, h2⟩)
  · rw [hr] at h; cases h
  · rw [hr] at h; cases h

theorem within_readBytes (s : Slice) : Within I (readBytes s) := .none fun w x w' h => by cases h; exact ⟨rfl, rfl⟩
theorem within_allocM (b : List Byte) : Within I (allocM b) := .none fun w x w' h => by cases h; exact ⟨rfl, rfl⟩
theorem within_appendM (env : Env) (s : Slice) (b : List Byte) : Within I (appendM env s b) := .none fun w x w' h => by cases h; exact ⟨rfl, rfl⟩
theorem within_putBytes (s : Slice) (b : List Byte) : Within I (putBytes s b) := .none fun w x w' h => by cases h; exact ⟨rfl, rfl⟩

theorem within_send (env : Env) (qh : Handle) (hI : I.fd = some qh.fd) (msg : NetlinkMessage) : Within I (qh.send env K msg) := by
  unfold Handle.send
  refine (Within.lift _).bind fun buf => (within_sendto hI _ _).bind fun r => ?_
  cases r <;> exact .pure _

theorem within_hrecv (env : Env) (qh : Handle) (hI : I.fd = some qh.fd) : Within I (qh.recv env K) := by
  unfold Handle.recv
  refine (within_recvInto hI _ _).bind fun r => ?_
  cases r with
  | error n => exact .pure _
  | ok n =>
    refine (Within.lift _).bind fun view => (within_readBytes _).bind fun bytes => (Within.lift _).bind fun x => ?_
    obtain ⟨hdr, next, e⟩ := x
    cases hdr with
    | none => exact .panic
    | some hdr =>
      refine .ite ?_ (.pure _)
      refine (Within.lift _).bind fun y => ?_
      exact .ite (.pure _) (.pure _)

theorem within_query (env : Env) (qh : Handle) (hI : I.fd = some qh.fd) (msg : NetlinkMessage) : Within I (qh.query env K msg) := by
  unfold Handle.query
  refine (within_send env qh hI msg).bind fun r => ?_
  cases r with
  | some err => exact .pure _
  | none => exact within_hrecv env qh hI

theorem within_hclose (qh : Handle) (hI : I.fd = some qh.fd) : Within I (qh.close K) := by
  unfold Handle.close
  exact (within_close hI).bind fun _ => .pure _

theorem within_queryOrFail (env : Env) (msg : NetlinkMessage) : Within I (queryOrFail env K msg) := by
  unfold queryOrFail
  refine Within.getQ fun q hq => ?_
  cases hh : q.handle with
  | some qh => exact within_query env qh (fd_of hq hh) msg
  | none => exact .pure _

theorem within_unbindPf (env : Env) : Within I (unbindPf env K) := by
  unfold unbindPf
  exact (Within.lift _).bind fun _ => (Within.lift _).bind fun _ => (Within.lift _).bind fun _ => within_queryOrFail env _
theorem within_bindPf (env : Env) : Within I (bindPf env K) := by
  unfold bindPf
  exact (Within.lift _).bind fun _ => (Within.lift _).bind fun _ => (Within.lift _).bind fun _ => within_queryOrFail env _
theorem within_nfqSetMode (env : Env) (mode : U64) (size : U32) : Within I (nfqSetMode env K mode size) := by
  unfold nfqSetMode
  exact Within.getQ fun _ _ => (Within.lift _).bind fun _ => (Within.lift _).bind fun _ => (Within.lift _).bind fun _ => within_queryOrFail env _
theorem within_nfqSetQueueMaxLen (env : Env) (n : U32) : Within I (nfqSetQueueMaxLen env K n) := by
  unfold nfqSetQueueMaxLen
  exact Within.getQ fun _ _ => (Within.lift _).bind fun _ => (Within.lift _).bind fun _ => (Within.lift _).bind fun _ => within_queryOrFail env _
theorem within_nfqDestroyQueue (env : Env) : Within I (nfqDestroyQueue env K) := by
  unfold nfqDestroyQueue
  exact Within.getQ fun _ _ => (Within.lift _).bind fun _ => (Within.lift _).bind fun _ => (Within.lift _).bind fun _ => within_queryOrFail env _

/-- `CreateQueue` makes it the queue with the number, the callbacks and the data given, whether it succeeds or not; its descriptor stays. -/
theorem createQueue_within (env : Env) (num : U16) (cb ecb : Option Nat) (pd : Nat) (w : W) (r : Option Err) (w' : W)
    (h : createQueue env K num cb ecb pd w = .ok (r, w')) :
    identOf w'.st = ⟨(identOf w.st).fd, num, cb, ecb, pd, (identOf w.st).chan⟩ ∧
      ∃ evs, w'.trace = w.trace ++ evs ∧ ∀ ev ∈ evs, OfQueue ⟨(identOf w.st).fd, num, cb, ecb, pd, (identOf w.st).chan⟩ ev := by
  unfold createQueue at h
  rw [GoM.bind_apply] at h
  have key : Within ⟨(identOf w.st).fd, num, cb, ecb, pd, (identOf w.st).chan⟩ (do
      let a ← GoM.lift (buildNfgenMsg 0 0 num (buildNlMsgHeader 0x302 5 0)).1.toWireFormat
      let b ← GoM.lift ((buildNfAttrMsg 1 (buildNfgenMsg 0 0 num (buildNlMsgHeader 0x302 5 0)).2 configCommandLength).1.toWireFormat env.e)
      let c ← GoM.lift (configCommandWire 1 0 0)
      queryOrFail env K { header := (buildNfAttrMsg 1 (buildNfgenMsg 0 0 num (buildNlMsgHeader 0x302 5 0)).2 configCommandLength).2, data := a ++ b ++ c } : M (Option Err)) :=
    (Within.lift _).bind fun _ => (Within.lift _).bind fun _ => (Within.lift _).bind fun _ => within_queryOrFail env _
  simp only [modifyQ, Res.ok_bind] at h
  exact key ({ w with st := { w.st with queueNum := num, callback := cb, errorCallback := ecb, privateData := pd } } : W) r w' rfl h

theorem within_nfqClose : Within I (nfqClose K) := by
  unfold nfqClose
  refine Within.getQ fun q hq => ?_
  cases hh : q.handle with
  | some qh => exact within_hclose qh (fd_of hq hh)
  | none => exact .pure _

theorem within_stopQueue (env : Env) : Within I (stopQueue env K) := by
  unfold stopQueue
  refine (within_nfqDestroyQueue env).bind fun r => ?_
  cases r with
  | some err => exact .pure _
  | none =>
    refine Within.getQ fun q hq => ?_
    cases hh : q.handle with
    | some qh => exact (within_hclose qh (fd_of hq hh)).bind fun _ => .pure _
    | none => exact .panic

theorem within_sendmsg (env : Env) (hI : I.fd = some fd) (iovs : List Iov) : Within I (sendmsg env K fd iovs) := by
  intro w x w' hw h
  unfold sendmsg at h
  rcases hr : syscallSendmsg K fd (iovs.flatMap (Iov.read env w.heap)) w with ⟨r, w1⟩ | _ | _
  · rw [hr] at h
    cases h
    exact within_syscallSendmsg hI _ w r _ hw hr
  · rw [hr] at h; cases h
  · rw [hr] at h; cases h

theorem within_baseOf (s : Slice) (n : Nat) : Within I (baseOf s n) := by
  unfold baseOf
  exact .ite .panic (.pure _)
theorem within_padPacket (env : Env) (s : Slice) (n : Nat) : Within I (padPacket env s n) := by
  unfold padPacket
  exact .ite (within_appendM env _ _) (.pure _)
theorem within_fillFrom (s : Slice) (i : Nat) (f : List Byte → Res (List Byte × Nat)) : Within I (fillFrom s i f) := by
  unfold fillFrom
  exact (Within.lift _).bind fun _ => (within_readBytes _).bind fun _ => (Within.lift _).bind fun _ =>
    (within_putBytes _ _).bind fun _ => .pure _

theorem within_setVerdict (env : Env) (a b c d : U32) (p : Slice) : Within I (setVerdict env K a b c d p) := by
  unfold setVerdict
  have key : ∀ m : M Unit, Within I m → Within I (if b = 1 then
      modifyQ (fun q => { q with accepted := q.accepted + 1 }) >>= fun _ => m else
      modifyQ (fun q => { q with dropped := q.dropped + 1 }) >>= fun _ => m) := fun m hm =>
    .ite ((within_modifyQ _ (by intro q; rfl)).bind fun _ => hm) ((within_modifyQ _ (by intro q; rfl)).bind fun _ => hm)
  refine key _ ?_
  refine Within.getQ fun q hq => (Within.lift _).bind fun _ => (Within.lift _).bind fun _ =>
    (Within.lift _).bind fun _ => (Within.lift _).bind fun _ => (Within.lift _).bind fun _ => (within_allocM _).bind fun _ =>
    (within_baseOf _ _).bind fun _ => (within_allocM _).bind fun _ => (within_baseOf _ _).bind fun _ =>
    (within_padPacket env _ _).bind fun _ => (within_baseOf _ _).bind fun _ => ?_
  cases hh : q.handle with
  | none => exact .panic
  | some qh => exact within_sendmsg env (fd_of hq hh) _

theorem within_setVerdict2 (env : Env) (a b c d e : U32) (p : Slice) : Within I (setVerdict2 env K a b c d e p) := by
  unfold setVerdict2
  refine Within.getQ fun q hq => (Within.lift _).bind fun _ => (within_fillFrom _ _ _).bind fun _ =>
    (within_fillFrom _ _ _).bind fun _ => (within_fillFrom _ _ _).bind fun _ => (within_fillFrom _ _ _).bind fun _ =>
    (within_fillFrom _ _ _).bind fun _ => (within_fillFrom _ _ _).bind fun _ => (within_baseOf _ _).bind fun _ =>
    (within_allocM _).bind fun _ => (within_baseOf _ _).bind fun _ =>
    (within_padPacket env _ _).bind fun _ => (within_baseOf _ _).bind fun _ => ?_
  cases hh : q.handle with
  | none => exact .panic
  | some qh => exact within_sendmsg env (fd_of hq hh) _

theorem within_parseAttrs (env : Env) (buf : Slice) : Within I (parseAttrs env buf) := by
  refine .none fun w x w' h => ?_
  unfold parseAttrs at h
  rcases hr : netlinkMessageToNfAttrStruct env.e w.heap buf w.st.attrs with ⟨m, r, err⟩ | _ | _
  · rw [hr] at h; cases h; exact ⟨rfl, rfl⟩
  · rw [hr] at h; cases h
  · rw [hr] at h; cases h

theorem within_decodeM (env : Env) (buf : Slice) (n : Nat) : Within I (decodeM env buf n) := by
  unfold decodeM
  refine (Within.lift _).bind fun view => (within_readBytes _).bind fun bytes => (Within.lift _).bind fun x => ?_
  obtain ⟨hdr, payload, err⟩ := x
  cases hdr with
  | none => exact .panic
  | some hdr =>
    have h1 : Within I (if hdr.type = 2 then do
        let (_, code) ← GoM.lift (netlinkErrMessagetoStruct env.e payload)
        if code ≠ 0 then pure (some (Err.netlink code)) else pure none
      else pure none : M (Option Err)) := by
      refine .ite ((Within.lift _).bind fun y => ?_) (.pure _)
      exact .ite (.pure _) (.pure _)
    refine h1.bind fun early => ?_
    cases early with
    | some ne => exact .pure _
    | none =>
      cases err with
      | some err => exact .pure _
      | none =>
        exact (Within.lift _).bind fun _ => (Within.lift _).bind fun _ => (Within.lift _).bind fun _ =>
          (within_parseAttrs env _).bind fun _ => .pure _

theorem within_recv (env : Env) : Within I (recv env K) := by
  unfold recv
  refine Within.getQ fun q hq => ?_
  cases hh : q.handle with
  | none => exact .panic
  | some qh =>
    refine (within_recvInto (fd_of hq hh) _ _).bind fun r => ?_
    cases r with
    | error n => exact .pure _
    | ok n => exact within_decodeM env _ _

/-- A callback that uses the queue, if at all, by other calls than `NfqOpen` and `CreateQueue`, and no other socket. -/
def CallbackWithin (env : Env) : Prop :=
  ∀ w, identOf (env.cbEffect w).st = identOf w.st ∧ ∃ evs, (env.cbEffect w).trace = w.trace ++ evs ∧ ∀ ev ∈ evs, OfQueue (identOf w.st) ev

theorem within_receiveOne {env : Env} (hcb : CallbackWithin env) : Within I (receiveOne env K) := by
  have hrun : Within I (runCallback env) := by
    intro w x w' hI h
    cases h
    obtain ⟨h1, h2⟩ := hcb w
    rw [hI] at h1 h2
    exact ⟨h1, h2⟩
  have hinfo : ∀ a, Within I (packetInfoM env a) := by
    intro a
    refine .none fun w x w' h => ?_
    unfold packetInfoM at h
    obtain ⟨y, _, h2⟩ := Res.bind_eq_ok.mp h
    cases h2; exact ⟨rfl, rfl⟩
  unfold receiveOne
  refine (within_recv env).bind fun x => ?_
  obtain ⟨nfgen, attr, err⟩ := x
  refine Within.getQ fun q hq => ?_
  have htail : Within I (do
      let (id, mark, packet) ← packetInfoM env attr
      modifyQ fun q => { q with processed := q.processed + 1 }
      match q.callback with
      | none => GoM.panic
      | some cb =>
        emitPacket cb packet mark id q.privateData
        runCallback env : M Unit) := by
    refine (hinfo _).bind fun x => ?_
    obtain ⟨id, mark, packet⟩ := x
    refine (within_modifyQ _ (by intro q; rfl)).bind fun _ => ?_
    cases hc : q.callback with
    | none => exact .panic
    | some cb =>
      refine Within.bind ?_ fun _ => hrun
      refine .one fun w x w' _ h => ?_
      cases h
      refine ⟨rfl, _, rfl, ?_⟩
      rw [← hq]
      exact ⟨hc, rfl⟩
  cases err with
  | none => exact htail
  | some err =>
    cases hc : q.errorCallback with
    | none => simp only; exact htail
    | some ecb =>
      simp only
      refine Within.bind ?_ fun _ => hrun
      refine .one fun w x w' _ h => ?_
      cases h
      refine ⟨rfl, _, rfl, ?_⟩
      rw [← hq]
      exact hc

theorem within_processPackets {env : Env} (hcb : CallbackWithin env) : ∀ n, Within I (processPackets env K n) := by
  have hiter : Within I (processIter env K) := by
    intro w x w' hI h
    unfold processIter at h
    split at h
    · exact (within_nfqClose.bind fun _ => .pure _) w x w' hI h
    · exact ((within_receiveOne hcb).bind fun _ => .pure _) w x w' hI h
  intro n
  induction n with
  | zero => exact .pure _
  | succ n ih =>
    unfold processPackets
    refine hiter.bind fun b => ?_
    cases b with
    | true => exact .pure _
    | false => exact ih

/-- The callbacks of the example are such. -/
theorem decide_within (env : Env) (K : Kernel QEv) (π : List Byte → U32 × U32) : CallbackWithin (decideEnv env K π) := by
  intro w
  show identOf (decideCallback env K π w).st = _ ∧ ∃ evs, (decideCallback env K π w).trace = _ ∧ _
  unfold decideCallback
  have same : identOf w.st = identOf w.st ∧ ∃ evs, w.trace = w.trace ++ evs ∧ ∀ ev ∈ evs, OfQueue (identOf w.st) ev := ⟨rfl, [], by simp, by simp⟩
  split
  · simp only
    split
    · rename_i hv
      exact within_setVerdict2 env _ _ _ _ _ _ _ _ _ rfl hv
    · exact same
  · exact same

/-- The number, callbacks and data of a queue. -/
def restOf (q : NfQueue) : U16 × Option Nat × Option Nat × Nat × Chan :=
  (q.queueNum, q.callback, q.errorCallback, q.privateData, q.notification)

/-- The program `m` leaves the queue its number, callbacks and data. -/
def KeepsIdent (m : M β) : Prop := ∀ w x w', m w = .ok (x, w') → restOf w'.st = restOf w.st

theorem KeepsIdent.pure (x : β) : KeepsIdent (Pure.pure x : M β) := by
  intro w y w' h
  rw [GoM.pure_apply] at h; cases h; rfl

theorem KeepsIdent.bind {m : M β} {f : β → M γ} (hm : KeepsIdent m) (hf : ∀ x, KeepsIdent (f x)) : KeepsIdent (m >>= f) := by
  intro w x w' h
  rw [GoM.bind_apply] at h
  obtain ⟨⟨y, w1⟩, h1, h2⟩ := Res.bind_eq_ok.mp h
  exact (hf y w1 x w' h2).trans (hm w y w1 h1)

theorem keepsI_modifyQ (f : NfQueue → NfQueue) (hf : ∀ q, restOf (f q) = restOf q) : KeepsIdent (modifyQ f) := by
  intro w x w' h
  cases h; exact hf _

theorem keepsI_socket (a b c : Nat) : KeepsIdent (Sys.socket K a b c : M _) := by
  intro w x w' h
  rcases hs : K.socket w.trace with n | fd
  all_goals
    simp only [Sys.socket, rawSocket, GoM.bind_apply, Res.ok_bind, hs, GoM.pure_apply, World.log] at h
    cases h; rfl

theorem keepsI_bind (fd : Nat) : KeepsIdent (Sys.bind K fd : M _) := by
  intro w x w' h
  obtain ⟨r, evs, h1, _⟩ := bind_spec K fd w
  rw [h1] at h
  cases h; rfl

theorem keepsI_setsockoptInt (fd l o v : Nat) : KeepsIdent (setsockoptInt K fd l o v : M _) := by
  intro w x w' h
  obtain ⟨r, evs, h1, _⟩ := setsockopt_spec K fd l o v w
  rw [h1] at h
  cases h; rfl

theorem keepsI_rawLinger (fd : Nat) : KeepsIdent (rawLinger K fd : M _) := by
  intro w x w' h
  cases h; rfl

/-- `NfqOpen` leaves the queue its number, callbacks and data. -/
theorem nfqOpen_keeps : KeepsIdent (nfqOpen K) := by
  unfold nfqOpen
  have hg : KeepsIdent getQ := by intro w x w' h; cases h; rfl
  refine hg.bind fun q => KeepsIdent.bind (keepsI_modifyQ _ (by intro q; rfl)) fun _ => ?_
  refine (keepsI_socket 16 3 12).bind fun r => ?_
  cases r with
  | error n => exact .pure _
  | ok fd =>
    refine (keepsI_bind fd).bind fun r => ?_
    cases r with
    | some n => exact .pure _
    | none =>
      exact (keepsI_setsockoptInt _ _ _ _).bind fun _ => (keepsI_setsockoptInt _ _ _ _).bind fun _ =>
        (keepsI_setsockoptInt _ _ _ _).bind fun _ => (keepsI_rawLinger _).bind fun _ =>
        (keepsI_modifyQ _ (by intro q; rfl)).bind fun _ => .pure _

end Verif.NfQueue
