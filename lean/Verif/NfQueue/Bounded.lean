import Verif.Sys.Bounded
import Verif.NfQueue.Config
/-! How many system calls the functions of package nfqueue make. -/
namespace Verif.NfQueue
open Sys Common

variable {K : Kernel QEv} {β : Type}

theorem b_getQ : Bounded 0 0 getQ := .local' (fun w h => by cases h) fun w y w' h => by cases h; rfl
theorem b_modifyQ (f : NfQueue → NfQueue) : Bounded 0 0 (modifyQ f) := .local' (fun w h => by cases h) fun w y w' h => by cases h; rfl
theorem b_readBytes (s : Slice) : Bounded 0 0 (readBytes s) := .local' (fun w h => by cases h) fun w y w' h => by cases h; rfl
theorem b_allocM (b : List Byte) : Bounded 0 0 (allocM b) := .local' (fun w h => by cases h) fun w y w' h => by cases h; rfl
theorem b_appendM (env : Env) (s : Slice) (b : List Byte) : Bounded 0 0 (appendM env s b) := .local' (fun w h => by cases h) fun w y w' h => by cases h; rfl
theorem b_putBytes (s : Slice) (b : List Byte) : Bounded 0 0 (putBytes s b) := .local' (fun w h => by cases h) fun w y w' h => by cases h; rfl
theorem b_emit (a : QEv) : Bounded 0 0 (emit a) := fun w =>
  ⟨fun h => by (cases h), fun x w' h => by (cases h; exact ⟨[.app a], rfl, by simp [isCall], by simp [isWait]⟩)⟩
theorem b_freshQueue : Bounded 0 0 freshQueue := .local' (fun w h => by cases h) fun w y w' h => by cases h; rfl

theorem b_open : Bounded 10 0 (nfqOpen K) := by
  unfold nfqOpen
  refine Bounded.bind (n2 := 10) (r2 := 0) b_getQ fun q => Bounded.bind (n2 := 10) (r2 := 0) (b_modifyQ _) fun _ =>
    Bounded.bind (n2 := 9) (r2 := 0) (.socket _ _ _) fun r => ?_
  cases r with
  | error n => exact .pure _
  | ok fd =>
    refine Bounded.bind (n2 := 7) (r2 := 0) (.sysBind _) fun r => ?_
    cases r with
    | some n => exact .pure _
    | none =>
      exact Bounded.bind (n2 := 5) (r2 := 0) (.setsockoptInt _ _ _ _) fun _ => Bounded.bind (n2 := 3) (r2 := 0) (.setsockoptInt _ _ _ _) fun _ =>
        Bounded.bind (n2 := 1) (r2 := 0) (.setsockoptInt _ _ _ _) fun _ => Bounded.bind (n2 := 0) (r2 := 0) (.rawLinger _) fun _ =>
        Bounded.bind (n2 := 0) (r2 := 0) (b_modifyQ _) fun _ => .pure _

theorem b_hclose (qh : Handle) : Bounded 2 0 (qh.close K) := by
  unfold Handle.close
  exact Bounded.bind (n2 := 0) (r2 := 0) (.close _) fun _ => .pure _

theorem b_send (env : Env) (qh : Handle) (msg : NetlinkMessage) : Bounded 2 0 (qh.send env K msg) := by
  unfold Handle.send
  refine Bounded.bind (n2 := 2) (r2 := 0) (.lift (by rw [wireBytes_eq]; exact Ends.ok _)) fun b =>
    Bounded.bind (n2 := 0) (r2 := 0) (.sendto _ _ _) fun r => ?_
  cases r <;> exact .pure _

theorem b_hrecv (env : Env) (qh : Handle) : Bounded 1 1 (qh.recv env K) := by
  unfold Handle.recv
  refine Bounded.bind (n2 := 0) (r2 := 0) (.recvInto _ _ _) fun r => ?_
  cases r with
  | error n => exact .pure _
  | ok n =>
    refine Bounded.bind (n2 := 0) (r2 := 0) (.lift (Ends.sub _ _ _)) fun view => Bounded.bind (n2 := 0) (r2 := 0) (b_readBytes _) fun bytes =>
      Bounded.bind (n2 := 0) (r2 := 0) (.lift (Ends.message _ _)) fun x => ?_
    obtain ⟨hdr, next, e⟩ := x
    cases hdr with
    | none => exact .panic
    | some hdr =>
      refine .ite ?_ (.pure _)
      exact Bounded.bind (n2 := 0) (r2 := 0) (.lift (Ends.errMessage _ _)) fun y => .ite (.pure _) (.pure _)

theorem b_query (env : Env) (qh : Handle) (msg : NetlinkMessage) : Bounded 3 1 (qh.query env K msg) := by
  unfold Handle.query
  refine Bounded.bind (n2 := 1) (r2 := 1) (b_send env qh msg) fun r => ?_
  cases r with
  | some err => exact .pure _
  | none => exact b_hrecv env qh

theorem b_queryOrFail (env : Env) (msg : NetlinkMessage) : Bounded 3 1 (queryOrFail env K msg) := by
  unfold queryOrFail
  refine Bounded.bind (n2 := 3) (r2 := 1) b_getQ fun q => ?_
  cases q.handle with
  | some qh => exact b_query env qh msg
  | none => exact .pure _

/-- What amounts to a query, after a change of the queue, is bounded like it. -/
theorem b_of_eq {m : M (Option Err)} {env : Env} (h : ∀ w, ∃ msg q, m w = queryOrFail env K msg { w with st := q }) : Bounded 3 1 m := by
  intro w
  obtain ⟨msg, q, h⟩ := h w
  rw [h]
  exact b_queryOrFail env msg _

theorem b_unbindPf (env : Env) : Bounded 3 1 (unbindPf env K) := by rw [unbindPf_eq]; exact b_queryOrFail _ _
theorem b_bindPf (env : Env) : Bounded 3 1 (bindPf env K) := by rw [bindPf_eq]; exact b_queryOrFail _ _
theorem b_createQueue (env : Env) (n : U16) (cb ecb : Option Nat) (pd : Nat) : Bounded 3 1 (createQueue env K n cb ecb pd) :=
  b_of_eq fun w => ⟨_, _, createQueue_eq env K n cb ecb pd w⟩
theorem b_setMode (env : Env) (mode : U64) (size : U32) : Bounded 3 1 (nfqSetMode env K mode size) :=
  b_of_eq fun w => ⟨_, _, nfqSetMode_eq env K mode size w⟩
theorem b_setMaxLen (env : Env) (n : U32) : Bounded 3 1 (nfqSetQueueMaxLen env K n) :=
  b_of_eq fun w => ⟨_, _, nfqSetQueueMaxLen_eq env K n w⟩
theorem b_destroy (env : Env) : Bounded 3 1 (nfqDestroyQueue env K) :=
  b_of_eq fun w => ⟨_, _, nfqDestroyQueue_eq env K w⟩

theorem b_nfqClose : Bounded 2 0 (nfqClose K) := by
  unfold nfqClose
  refine Bounded.bind (n2 := 2) (r2 := 0) b_getQ fun q => ?_
  cases q.handle with
  | some qh => exact b_hclose qh
  | none => exact .pure _

theorem b_stopQueue (env : Env) : Bounded 5 1 (stopQueue env K) := by
  unfold stopQueue
  refine Bounded.bind (n2 := 2) (r2 := 0) (b_destroy env) fun r => ?_
  cases r with
  | some err => exact .pure _
  | none =>
    refine Bounded.bind (n2 := 2) (r2 := 0) b_getQ fun q => ?_
    cases q.handle with
    | some qh => exact Bounded.bind (n2 := 0) (r2 := 0) (b_hclose qh) fun _ => .pure _
    | none => exact .panic

/-- Giving up a start. -/
theorem b_giveUp (err : Option Err) : Bounded 2 0 (do nfqClose K; pure err : M (Option Err)) :=
  Bounded.bind (n2 := 0) (r2 := 0) b_nfqClose fun _ => .pure _

theorem b_destroyAndGiveUp (env : Env) (err : Option Err) : Bounded 5 1 (do let _ ← nfqDestroyQueue env K; nfqClose K; pure err : M (Option Err)) :=
  Bounded.bind (n2 := 2) (r2 := 0) (b_destroy env) fun _ => b_giveUp err

theorem b_createAndStart (env : Env) (id : U16) (maxLen size : U32) (cb ecb : Option Nat) (pd : Nat) :
    Bounded 30 6 (createAndStart env K id maxLen size cb ecb pd) := by
  unfold createAndStart
  refine Bounded.bind (n2 := 30) (r2 := 6) b_freshQueue fun _ => Bounded.bind (n2 := 20) (r2 := 6) b_open fun r => ?_
  cases r with
  | error err => exact .pure _
  | ok _ =>
    refine Bounded.bind (n2 := 17) (r2 := 5) (b_unbindPf env) fun r => ?_
    cases r with
    | some err => exact (b_giveUp _).le (by decide) (by decide)
    | none =>
      refine Bounded.bind (n2 := 14) (r2 := 4) (b_bindPf env) fun r => ?_
      cases r with
      | some err => exact (b_giveUp _).le (by decide) (by decide)
      | none =>
        refine Bounded.bind (n2 := 11) (r2 := 3) (b_createQueue env _ _ _ _) fun r => ?_
        cases r with
        | some err => exact (b_giveUp _).le (by decide) (by decide)
        | none =>
          refine Bounded.bind (n2 := 8) (r2 := 2) (b_setMode env _ _) fun r => ?_
          cases r with
          | some err => exact (b_destroyAndGiveUp env _).le (by decide) (by decide)
          | none =>
            refine Bounded.bind (n2 := 5) (r2 := 1) (b_setMaxLen env _) fun r => ?_
            cases r with
            | some err => exact b_destroyAndGiveUp env _
            | none => exact Bounded.bind (n2 := 5) (r2 := 1) (b_emit _) fun _ => .pure _

theorem b_sendmsg (env : Env) (fd : Nat) (iovs : List Iov) : Bounded 1 0 (sendmsg env K fd iovs) := by
  intro w
  obtain ⟨hd, ho⟩ := Bounded.syscallSendmsg (K := K) fd (iovs.flatMap (Iov.read env w.heap)) w
  unfold sendmsg
  rcases hr : syscallSendmsg K fd (iovs.flatMap (Iov.read env w.heap)) w with ⟨r, w1⟩ | _ | _
  · exact ⟨fun h => by (cases h), fun y w' h => by (cases h; exact ho r w1 hr)⟩
  · exact ⟨fun h => by (cases h), fun y w' h => by (cases h)⟩
  · exact absurd hr hd

theorem b_baseOf (s : Slice) (n : Nat) : Bounded 0 0 (baseOf s n) := by
  unfold baseOf
  exact .ite .panic (.pure _)
theorem b_padPacket (env : Env) (s : Slice) (n : Nat) : Bounded 0 0 (padPacket env s n) := by
  unfold padPacket
  exact .ite (b_appendM env _ _) (.pure _)
theorem b_fillFrom (s : Slice) (i : Nat) (f : List Byte → Res (List Byte × Nat)) (hf : ∀ b, Ends (f b)) : Bounded 0 0 (fillFrom s i f) := by
  unfold fillFrom
  exact Bounded.bind (n2 := 0) (r2 := 0) (.lift (Ends.sub _ _ _)) fun _ => Bounded.bind (n2 := 0) (r2 := 0) (b_readBytes _) fun _ =>
    Bounded.bind (n2 := 0) (r2 := 0) (.lift (hf _)) fun _ => Bounded.bind (n2 := 0) (r2 := 0) (b_putBytes _ _) fun _ => .pure _

theorem ends_verdictHdr (e : Endian) (v id : U32) : Ends (verdictHdrWire e v id) := by unfold verdictHdrWire; ends
theorem ends_verdictHdrBuf (e : Endian) (v id : U32) (b : List Byte) : Ends (verdictHdrWireBuf e v id b) := by unfold verdictHdrWireBuf; ends
theorem ends_markHdrBuf (m : U32) (b : List Byte) : Ends (markHdrWireBuf m b) := by unfold markHdrWireBuf; ends

theorem b_then {m : M Unit} {m' : M β} (h : Bounded 0 0 m) (h' : Bounded 1 0 m') : Bounded 1 0 (m >>= fun _ => m') := h.bind fun _ => h'
theorem b_step {γ : Type} {m : M γ} {f : γ → M β} (h : Bounded 0 0 m) (h' : ∀ x, Bounded 1 0 (f x)) : Bounded 1 0 (m >>= f) := h.bind h'

theorem b_setVerdict (env : Env) (a b c d : U32) (p : Slice) : Bounded 1 0 (setVerdict env K a b c d p) := by
  unfold setVerdict
  have key : ∀ m : M Unit, Bounded 1 0 m → Bounded 1 0 (if b = 1 then
      modifyQ (fun q => { q with accepted := q.accepted + 1 }) >>= fun _ => m else
      modifyQ (fun q => { q with dropped := q.dropped + 1 }) >>= fun _ => m) := fun m hm =>
    .ite (b_then (b_modifyQ _) hm) (b_then (b_modifyQ _) hm)
  refine key _ ?_
  refine b_step b_getQ fun q => b_step (.lift (Ends.attr _ _)) fun _ => b_step (.lift (Ends.serialize _ _)) fun _ =>
    b_step (.lift (Ends.nfgen _)) fun _ => b_step (.lift (Ends.attr _ _)) fun _ => b_step (.lift (ends_verdictHdr _ _ _)) fun _ =>
    b_step (b_allocM _) fun _ => b_step (b_baseOf _ _) fun _ => b_step (b_allocM _) fun _ => b_step (b_baseOf _ _) fun _ =>
    b_step (b_padPacket env _ _) fun _ => b_step (b_baseOf _ _) fun _ => ?_
  cases q.handle with
  | none => exact .panic
  | some qh => exact b_sendmsg env _ _

theorem b_setVerdict2 (env : Env) (a b c d e : U32) (p : Slice) : Bounded 1 0 (setVerdict2 env K a b c d e p) := by
  unfold setVerdict2
  refine b_step b_getQ fun q => b_step (.lift (Ends.attr _ _)) fun _ => b_step (b_fillFrom _ _ _ (Ends.serializeBuf _ _)) fun _ =>
    b_step (b_fillFrom _ _ _ (Ends.nfgenBuf _)) fun _ => b_step (b_fillFrom _ _ _ (Ends.attrBuf _ _)) fun _ =>
    b_step (b_fillFrom _ _ _ (ends_verdictHdrBuf _ _ _)) fun _ => b_step (b_fillFrom _ _ _ (Ends.attrBuf _ _)) fun _ =>
    b_step (b_fillFrom _ _ _ (ends_markHdrBuf _)) fun _ => b_step (b_baseOf _ _) fun _ => b_step (b_allocM _) fun _ =>
    b_step (b_baseOf _ _) fun _ => b_step (b_padPacket env _ _) fun _ => b_step (b_baseOf _ _) fun _ => ?_
  cases q.handle with
  | none => exact .panic
  | some qh => exact b_sendmsg env _ _

end Verif.NfQueue
