import Verif.Sys.Prog
import Verif.NfLog.Calm
/-! What the functions of package nflog, but `NFlogOpen` and `NFlogBindGroup`, do to a handle and the system: the handle stays the one it is, and
every system call is on its descriptor. -/
namespace Verif.NfLog
open Sys Common
/-- What makes a log handle the handle it is: its descriptor and callbacks. -/
structure Ident where
  fd : Option Nat
  cb : Option Nat
  ecb : Option Nat

variable {K : Kernel LEv} {I : Ident} {β γ : Type} {fd : Nat}

/-- Of a handle. -/
def identOf (l : NfLog) : Ident := ⟨l.socket.map (·.fd), l.callback, l.errorCallback⟩

/-- What happens is done by handle `I`: a system call on its descriptor, or a call of its callbacks. -/
def OfLog (I : Ident) : Ev LEv → Prop
  | .app (.log cb _) => I.cb = some cb
  | .app (.error ecb _ _) => I.ecb = some ecb
  | .app .spawnReader => False
  | ev => ∃ fd, Prog.onFd ev = some fd ∧ I.fd = some fd

/-- From `w` to `w'` only what handle `I` does happened, and it stayed the handle it is. -/
def Did (I : Ident) (w w' : W) : Prop :=
  identOf w.st = I → identOf w'.st = I ∧ ∃ evs, w'.trace = w.trace ++ evs ∧ ∀ ev ∈ evs, OfLog I ev

theorem Did.refl (w : W) : Did I w w := fun h => ⟨h, [], by simp, by simp⟩

theorem Did.trans {a b c : W} (h : Did I a b) (h' : Did I b c) : Did I a c := by
  intro hI
  obtain ⟨i1, e1, t1, g1⟩ := h hI
  obtain ⟨i2, e2, t2, g2⟩ := h' i1
  refine ⟨i2, e1 ++ e2, by rw [t2, t1, List.append_assoc], fun ev hev => ?_⟩
  exact (List.mem_append.mp hev).elim (g1 ev) (g2 ev)

/-- The program `m` does only what handle `I` does, and leaves it the handle it is. -/
def Within (I : Ident) (m : M β) : Prop := ∀ w x w', m w = .ok (x, w') → Did I w w'

theorem Within.pure (x : β) : Within I (Pure.pure x : M β) := fun w y w' h => by
  rw [GoM.pure_apply] at h; cases h; exact .refl w

theorem Within.lift (x : Res β) : Within I (GoM.lift x : M β) := fun w y w' h => by
  rw [GoM.lift_apply] at h
  cases x with
  | ok a => cases h; exact .refl w
  | panic => cases h
  | diverge => cases h

theorem Within.panic : Within I (GoM.panic : M β) := by
  intro w x w' h; cases h

theorem Within.bind {m : M β} {f : β → M γ} (hm : Within I m) (hf : ∀ x, Within I (f x)) : Within I (m >>= f) := by
  intro w x w' h
  rw [GoM.bind_apply] at h
  obtain ⟨⟨y, w1⟩, h1, h2⟩ := Res.bind_eq_ok.mp h
  exact (hm w y w1 h1).trans (hf y w1 x w' h2)

theorem Within.ite {c : Prop} [Decidable c] {m n : M β} (hm : Within I m) (hn : Within I n) : Within I (if c then m else n) := by
  split
  · exact hm
  · exact hn

/-- Reading the handle gives the handle. -/
theorem Within.getL {f : NfLog → M γ} (hf : ∀ l, identOf l = I → Within I (f l)) : Within I (NfLog.getL >>= f) := by
  intro w x w' h hI
  exact hf w.st hI w x w' h hI

theorem fd_of {l : NfLog} {sh : Handle} (h : identOf l = I) (hl : l.socket = some sh) : I.fd = some sh.fd := by
  rw [← h]
  show l.socket.map (·.fd) = _
  rw [hl]; rfl

theorem Within.one {m : M β} (h : ∀ w x w', m w = .ok (x, w') → w'.st = w.st ∧ ∃ ev, w'.trace = w.trace ++ [ev] ∧ OfLog I ev) :
    Within I m := by
  intro w x w' hm hI
  obtain ⟨h1, ev, h2, h3⟩ := h w x w' hm
  exact ⟨by rw [h1]; exact hI, [ev], h2, by simpa using h3⟩

theorem within_rawClose (hI : I.fd = some fd) : Within I (rawClose K fd : M _) :=
  .one fun w x w' h => by cases h; exact ⟨rfl, _, rfl, fd, rfl, hI⟩
theorem within_rawSendto (hI : I.fd = some fd) (b : List Byte) (f : Nat) : Within I (rawSendto K fd b f : M _) :=
  .one fun w x w' h => by cases h; exact ⟨rfl, _, rfl, fd, rfl, hI⟩
theorem within_rawRecvfrom (hI : I.fd = some fd) (size f : Nat) : Within I (rawRecvfrom K fd size f : M _) :=
  .one fun w x w' h => by cases h; exact ⟨rfl, _, rfl, fd, rfl, hI⟩
theorem within_close (hI : I.fd = some fd) : Within I (Sys.close K fd : M _) := by
  unfold Sys.close
  exact (within_rawClose hI).bind fun x => .ite (within_rawClose hI) (.pure _)
theorem within_recvfrom (hI : I.fd = some fd) (size f : Nat) : Within I (recvfrom K fd size f : M _) := by
  unfold recvfrom
  refine (within_rawRecvfrom hI size f).bind fun x => ?_
  cases x <;> exact .pure _
theorem within_sendto (hI : I.fd = some fd) (b : List Byte) (f : Nat) : Within I (sendto K fd b f : M _) := by
  unfold sendto
  exact (within_rawSendto hI b f).bind fun x => .ite (within_rawSendto hI b f) (.pure _)

theorem within_send (env : Env) (sh : Handle) (hI : I.fd = some sh.fd) (msg : NetlinkMessage) : Within I (send env K sh msg) := by
  unfold send
  refine (Within.lift _).bind fun buf => Within.bind ?_ fun _ => (within_sendto hI _ _).bind fun r => ?_
  · intro w x w' h hw
    cases h
    refine ⟨?_, [], by simp, by simp⟩
    subst hw
    show (⟨some sh.fd, _, _⟩ : Ident) = _
    rw [← hI]
    rfl
  · cases r <;> exact .pure _

theorem within_recv (env : Env) (hI : I.fd = some fd) (n : Nat) : Within I (recv env K fd n) := by
  unfold recv
  refine (within_recvfrom hI n 0).bind fun r => ?_
  cases r with
  | error n => exact .pure _
  | ok d => exact .lift _

theorem within_query (env : Env) (sh : Handle) (hI : I.fd = some sh.fd) (msg : NetlinkMessage) : Within I (query env K sh msg) := by
  unfold query
  refine (within_send env sh hI msg).bind fun r => ?_
  cases r with
  | some err => exact .pure _
  | none => exact within_recv env hI _

theorem within_queryOrFail (env : Env) (msg : NetlinkMessage) : Within I (queryOrFail env K msg) := by
  unfold queryOrFail
  refine Within.getL fun l hl => ?_
  cases hs : l.socket with
  | some sh => exact within_query env sh (fd_of hl hs) msg
  | none => exact .pure _

theorem within_queryOrSkip (env : Env) (msg : NetlinkMessage) : Within I (queryOrSkip env K msg) := by
  unfold queryOrSkip
  refine Within.getL fun l hl => ?_
  cases hs : l.socket with
  | some sh => exact within_query env sh (fd_of hl hs) msg
  | none => exact .pure _

theorem within_forGroups (env : Env) (mk : U16 → Res NetlinkMessage) : ∀ gs, Within I (forGroups env K mk gs)
  | [] => .pure _
  | g :: gs => by
    unfold forGroups
    refine (Within.lift _).bind fun msg => (within_queryOrSkip env msg).bind fun r => ?_
    cases r with
    | some err => exact .pure _
    | none => exact within_forGroups env mk gs

theorem within_nflogUnbind (env : Env) : Within I (nflogUnbind env K) := by
  unfold nflogUnbind
  exact (Within.lift _).bind fun _ => within_queryOrFail env _
theorem within_nflogBind (env : Env) : Within I (nflogBind env K) := by
  unfold nflogBind
  exact (Within.lift _).bind fun _ => within_queryOrFail env _
theorem within_nflogSetMode (env : Env) (gs : List U16) (n : U32) : Within I (nflogSetMode env K gs n) := by
  unfold nflogSetMode
  exact within_forGroups env _ gs

/-- `NFlogBindGroup` makes it the handle with the callbacks given, whether it succeeds or not; its descriptor stays. -/
theorem nflogBindGroup_within (env : Env) (gs : List U16) (cb ecb : Option Nat) (w : W) (r : Option Err) (w' : W)
    (h : nflogBindGroup env K gs cb ecb w = .ok (r, w')) :
    identOf w'.st = ⟨(identOf w.st).fd, cb, ecb⟩ ∧
      ∃ evs, w'.trace = w.trace ++ evs ∧ ∀ ev ∈ evs, OfLog ⟨(identOf w.st).fd, cb, ecb⟩ ev := by
  unfold nflogBindGroup at h
  rw [GoM.bind_apply] at h
  simp only [modifyL, Res.ok_bind] at h
  exact within_forGroups env (commandMsg env 1) gs ({ w with st := { w.st with callback := cb, errorCallback := ecb } } : W) r w' h rfl

theorem within_nflogClose : Within I (nflogClose K) := by
  unfold nflogClose
  refine Within.getL fun l hl => ?_
  cases hs : l.socket with
  | some sh =>
    show Within I (closeHandle K sh)
    unfold closeHandle
    exact (within_close (fd_of hl hs)).bind fun _ => .pure _
  | none => exact .pure _

/-- A callback that uses the handle, if at all, by other calls than `NFlogOpen` and `NFlogBindGroup`, and no other socket. -/
def CallbackWithin (env : Env) : Prop := ∀ w, Did (identOf w.st) w (env.cbEffect w)

variable {env : Env}

theorem did_call (hcb : CallbackWithin env) (w : W) (a : LEv) (ha : identOf w.st = I → OfLog I (.app a)) :
    Did I w (env.cbEffect (w.log (.app a))) := by
  intro hI
  have h0 : identOf (w.log (.app a)).st = I := hI
  obtain ⟨h1, evs, h2, h3⟩ := (h0 ▸ hcb (w.log (.app a))) h0
  refine ⟨h1, .app a :: evs, by rw [h2]; simp [World.log], fun ev hev => ?_⟩
  rcases List.mem_cons.mp hev with rfl | hev
  · exact ha hI
  · exact h3 ev hev

theorem did_covers (hcb : CallbackWithin env) : Covers env (Did I) where
  refl := .refl
  trans h h' := h.trans h'
  heap w h := fun hI => ⟨hI, [], by simp, by simp⟩
  call w cb m hc := did_call hcb w _ fun hI => by rw [← hI]; exact hc

theorem within_report (hcb : CallbackWithin env) (kind : String) (err : Err) : Within I (report env kind err) := by
  intro w x w' h
  unfold report at h
  rcases hc : w.st.errorCallback with _ | ecb
  · rw [hc] at h
    simp only [Res.ok.injEq, Prod.mk.injEq] at h
    rw [← h.2]; exact .refl w
  · rw [hc] at h
    simp only [Res.ok.injEq, Prod.mk.injEq] at h
    rw [← h.2]
    exact did_call hcb w _ fun hI => by rw [← hI]; exact hc

theorem within_handleDatagram (hcb : CallbackWithin env) (d : List Byte) : Within I (handleDatagram env d) := by
  unfold handleDatagram
  refine Within.bind (fun w x w' h => parseLog_covered (did_covers hcb) h) fun r => ?_
  cases r with
  | some err => exact (within_report hcb _ _).bind fun _ => .pure _
  | none => exact .pure _

theorem within_handleFailure (hcb : CallbackWithin env) (n : Nat) : Within I (handleFailure env K n) := by
  unfold handleFailure
  exact (within_report hcb _ _).bind fun _ => .ite (.pure _) (within_nflogClose.bind fun _ => .pure _)

theorem within_readIter (hcb : CallbackWithin env) : Within I (readIter env K) := by
  unfold readIter
  refine Within.getL fun l hl => ?_
  cases hs : l.socket with
  | none => exact .panic
  | some sh =>
    refine (within_recvfrom (fd_of hl hs) _ _).bind fun r => ?_
    cases r with
    | error n => exact within_handleFailure hcb n
    | ok d => exact within_handleDatagram hcb d

theorem within_readLogs (hcb : CallbackWithin env) : ∀ n, Within I (readLogs env K n) := by
  intro n
  induction n with
  | zero => exact .pure _
  | succ n ih =>
    unfold readLogs
    refine (within_readIter hcb).bind fun b => ?_
    cases b with
    | true => exact .pure _
    | false => exact ih

end Verif.NfLog
