import Verif.Sys.Bounded
import Verif.NfLog.Config
/-! How many system calls the functions of package nflog make. -/
namespace Verif.NfLog
open Sys Common

variable {K : Kernel LEv} {β : Type}

theorem b_getL : Bounded 0 0 getL := .local' (fun w h => by cases h) fun w y w' h => by cases h; rfl
theorem b_modifyL (f : NfLog → NfLog) : Bounded 0 0 (modifyL f) := .local' (fun w h => by cases h) fun w y w' h => by cases h; rfl
theorem b_freshLog : Bounded 0 0 freshLog := .local' (fun w h => by cases h) fun w y w' h => by cases h; rfl
theorem b_emit (a : LEv) : Bounded 0 0 (emit a) := fun w =>
  ⟨fun h => by (cases h), fun x w' h => by (cases h; exact ⟨[.app a], rfl, by simp [isCall], by simp [isWait]⟩)⟩

theorem b_open : Bounded 5 0 (nflogOpen K) := by
  unfold nflogOpen
  refine Bounded.bind (n2 := 4) (r2 := 0) (.socket _ _ _) fun r => ?_
  cases r with
  | error n => exact .pure _
  | ok fd =>
    refine Bounded.bind (n2 := 2) (r2 := 0) (.sysBind _) fun r => ?_
    cases r with
    | some n => exact .pure _
    | none =>
      exact Bounded.bind (n2 := 0) (r2 := 0) (.setsockoptInt _ _ _ _) fun _ => Bounded.bind (n2 := 0) (r2 := 0) (b_modifyL _) fun _ => .pure _

theorem b_send (env : Env) (sh : Handle) (msg : NetlinkMessage) : Bounded 2 0 (send env K sh msg) := by
  unfold send
  refine Bounded.bind (n2 := 2) (r2 := 0) (.lift (by rw [wireBytes_eq]; exact Ends.ok _)) fun b =>
    Bounded.bind (n2 := 2) (r2 := 0) (b_modifyL _) fun _ => Bounded.bind (n2 := 0) (r2 := 0) (.sendto _ _ _) fun r => ?_
  cases r <;> exact .pure _

theorem ends_readReply (e : Endian) (d : List Byte) : Ends (readReply e d) := by
  unfold readReply
  refine (Ends.message e d).bind fun x => ?_
  obtain ⟨hdr, next, err⟩ := x
  cases err with
  | some err => exact .ok _
  | none =>
    cases hdr with
    | none => exact .panic
    | some hdr =>
      simp only
      split
      · refine (Ends.errMessage _ _).bind fun _ => ?_
        split
        · exact .ok _
        · exact (Ends.nfgenStruct _).bind fun _ => .ok _
      · exact (Ends.nfgenStruct _).bind fun _ => .ok _

theorem b_recv (env : Env) (fd n : Nat) : Bounded 1 1 (recv env K fd n) := by
  unfold recv
  refine Bounded.bind (n2 := 0) (r2 := 0) (.recvfrom _ _ _) fun r => ?_
  cases r with
  | error n => exact .pure _
  | ok d => exact .lift (ends_readReply _ _)

theorem b_query (env : Env) (sh : Handle) (msg : NetlinkMessage) : Bounded 3 1 (query env K sh msg) := by
  unfold query
  refine Bounded.bind (n2 := 1) (r2 := 1) (b_send env sh msg) fun r => ?_
  cases r with
  | some err => exact .pure _
  | none => exact b_recv env _ _

theorem b_queryOrFail (env : Env) (msg : NetlinkMessage) : Bounded 3 1 (queryOrFail env K msg) := by
  unfold queryOrFail
  refine Bounded.bind (n2 := 3) (r2 := 1) b_getL fun l => ?_
  cases l.socket with
  | some sh => exact b_query env sh msg
  | none => exact .pure _

theorem b_queryOrSkip (env : Env) (msg : NetlinkMessage) : Bounded 3 1 (queryOrSkip env K msg) := by
  unfold queryOrSkip
  refine Bounded.bind (n2 := 3) (r2 := 1) b_getL fun l => ?_
  cases l.socket with
  | some sh => exact b_query env sh msg
  | none => exact .pure _

theorem ends_commandMsg (env : Env) (c : Byte) (g : U16) : Ends (commandMsg env c g) := by rw [commandMsg_eq]; exact .ok _
theorem ends_modeMsg (env : Env) (size : U32) (g : U16) : Ends (modeMsg env size g) := by rw [modeMsg_eq]; exact .ok _

theorem b_unbind (env : Env) : Bounded 3 1 (nflogUnbind env K) := by
  unfold nflogUnbind
  exact Bounded.bind (n2 := 3) (r2 := 1) (.lift (ends_commandMsg _ _ _)) fun _ => b_queryOrFail env _
theorem b_bind (env : Env) : Bounded 3 1 (nflogBind env K) := by
  unfold nflogBind
  exact Bounded.bind (n2 := 3) (r2 := 1) (.lift (ends_commandMsg _ _ _)) fun _ => b_queryOrFail env _

theorem b_forGroups (env : Env) (mk : U16 → Res NetlinkMessage) (hmk : ∀ g, Ends (mk g)) :
    ∀ gs : List U16, Bounded (3 * gs.length) gs.length (forGroups env K mk gs)
  | [] => .pure _
  | g :: gs => by
    unfold forGroups
    refine Bounded.bind (n2 := 3 * gs.length + 3) (r2 := gs.length + 1) (.lift (hmk g)) fun msg =>
      Bounded.bind (n2 := 3 * gs.length) (r2 := gs.length) (b_queryOrSkip env msg) fun r => ?_
    cases r with
    | some err => exact .pure _
    | none => exact b_forGroups env mk hmk gs

theorem b_bindGroup (env : Env) (gs : List U16) (cb ecb : Option Nat) : Bounded (3 * gs.length) gs.length (nflogBindGroup env K gs cb ecb) := by
  unfold nflogBindGroup
  exact Bounded.bind (n2 := 3 * gs.length) (r2 := gs.length) (b_modifyL _) fun _ => b_forGroups env _ (ends_commandMsg env 1) gs
theorem b_setMode (env : Env) (gs : List U16) (size : U32) : Bounded (3 * gs.length) gs.length (nflogSetMode env K gs size) :=
  b_forGroups env _ (ends_modeMsg env size) gs

theorem b_nflogClose : Bounded 2 0 (nflogClose K) := by
  unfold nflogClose
  refine Bounded.bind (n2 := 2) (r2 := 0) b_getL fun l => ?_
  cases l.socket with
  | some sh =>
    show Bounded 2 0 (closeHandle K sh)
    unfold closeHandle
    exact Bounded.bind (n2 := 0) (r2 := 0) (.close _) fun _ => .pure _
  | none => exact .pure _

theorem b_giveUp (err : Option Err) : Bounded 2 0 (do nflogClose K; pure err : M (Option Err)) :=
  Bounded.bind (n2 := 0) (r2 := 0) b_nflogClose fun _ => .pure _

theorem b_bindAndListen (env : Env) (gs : List U16) (size : U32) (cb ecb : Option Nat) :
    Bounded (2 + 3 * gs.length + 3 * gs.length + 5) (0 + gs.length + gs.length + 0) (bindAndListen env K gs size cb ecb) := by
  unfold bindAndListen
  refine Bounded.bind (n2 := 2 + 3 * gs.length + 3 * gs.length + 5) (r2 := 0 + gs.length + gs.length + 0) b_freshLog fun _ =>
    Bounded.bind (n2 := 2 + 3 * gs.length + 3 * gs.length) (r2 := 0 + gs.length + gs.length) b_open fun r => ?_
  cases r with
  | error err => exact .pure _
  | ok _ =>
    refine Bounded.bind (n2 := 2 + 3 * gs.length) (r2 := 0 + gs.length) (b_bindGroup env gs cb ecb) fun r => ?_
    cases r with
    | some err => exact (b_giveUp _).le (by omega) (by omega)
    | none =>
      refine Bounded.bind (n2 := 2) (r2 := 0) (b_setMode env gs size) fun r => ?_
      cases r with
      | some err => exact b_giveUp _
      | none => exact Bounded.bind (n2 := 2) (r2 := 0) (b_emit _) fun _ => .pure _

end Verif.NfLog
