import Verif.Sys.Genuine
import Verif.NfLog.Model
/-! Starting to listen records what the kernel answered, and nothing else. -/
namespace Verif.NfLog
open Sys Common
variable {K : Kernel LEv}

theorem records_getL : Records K getL := .none fun w x w' h => by cases h; rfl
theorem records_modifyL (f : NfLog → NfLog) : Records K (modifyL f) := .none fun w x w' h => by cases h; rfl
theorem records_emit (a : LEv) : Records K (emit a) := .one fun w x w' h => by cases h; exact ⟨_, rfl, trivial⟩
theorem records_freshLog : Records K freshLog := .none fun w x w' h => by cases h; rfl

theorem records_nflogOpen : Records K (nflogOpen K) := by
  unfold nflogOpen
  refine (records_socket K _ _ _).bind fun r => ?_
  cases r with
  | error n => exact .pure _
  | ok fd =>
    refine (records_bind K fd).bind fun r => ?_
    cases r with
    | some n => exact .pure _
    | none => exact (records_setsockoptInt K _ _ _ _).bind fun _ => (records_modifyL _).bind fun _ => .pure _

theorem records_query (env : Env) (sh : Handle) (msg : NetlinkMessage) : Records K (query env K sh msg) := by
  unfold query send recv
  refine Records.bind ((Records.lift _).bind fun buf => (records_modifyL _).bind fun _ => (records_sendto K _ _ _).bind fun r => ?_) fun r => ?_
  · cases r <;> exact .pure _
  · cases r with
    | some err => exact .pure _
    | none =>
      refine (records_recvfrom K _ _ _).bind fun r => ?_
      cases r with
      | error n => exact .pure _
      | ok d => exact .lift _

theorem records_forGroups (env : Env) (mk : U16 → Res NetlinkMessage) : ∀ gs, Records K (forGroups env K mk gs) := by
  intro gs
  induction gs with
  | nil => exact .pure _
  | cons g gs ih =>
    unfold forGroups queryOrSkip
    refine (Records.lift _).bind fun msg => Records.bind (records_getL.bind fun l => ?_) fun r => ?_
    · cases l.socket with
      | some sh => exact records_query env sh msg
      | none => exact .pure _
    · cases r with
      | some err => exact .pure _
      | none => exact ih

theorem records_nflogClose : Records K (nflogClose K) := by
  unfold nflogClose closeHandle
  refine records_getL.bind fun l => ?_
  cases l.socket with
  | some sh => exact (records_close K _).bind fun _ => .pure _
  | none => exact .pure _

theorem records_bindAndListen (env : Env) (groups : List U16) (size : U32) (cb ecb : Option Nat) :
    Records K (bindAndListen env K groups size cb ecb) := by
  unfold bindAndListen nflogBindGroup nflogSetMode
  refine records_freshLog.bind fun _ => records_nflogOpen.bind fun r => ?_
  cases r with
  | error err => exact .pure _
  | ok _ =>
    refine Records.bind ((records_modifyL _).bind fun _ => records_forGroups env _ _) fun r => ?_
    cases r with
    | some err => exact records_nflogClose.bind fun _ => .pure _
    | none =>
      refine (records_forGroups env _ _).bind fun r => ?_
      cases r with
      | some err => exact records_nflogClose.bind fun _ => .pure _
      | none => exact (records_emit _).bind fun _ => .pure _

end Verif.NfLog
