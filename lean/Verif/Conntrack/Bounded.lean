import Verif.Sys.Bounded
import Verif.Conntrack.Lemmas
/-! How many system calls the functions of package conntrack make. -/
namespace Verif.Conntrack
open Sys Common

variable {K : Kernel CEv} {β : Type}

theorem b_openSock : Bounded 3 0 (openSock K) := by
  unfold openSock
  refine Bounded.bind (n2 := 2) (r2 := 0) (.socket _ _ _) fun r => ?_
  cases r with
  | error n => exact .pure _
  | ok fd =>
    refine Bounded.bind (n2 := 0) (r2 := 0) (.sysBind _) fun r => ?_
    cases r <;> exact .pure _

theorem b_send (env : Env) (fd : Nat) (msg : NetlinkMessage) : Bounded 2 0 (send env K fd msg) := by
  unfold send
  refine Bounded.bind (n2 := 2) (r2 := 0) (.lift (by rw [wireBytes_eq]; exact Ends.ok _)) fun b =>
    Bounded.bind (n2 := 0) (r2 := 0) (.sendto _ _ _) fun r => ?_
  cases r <;> exact .pure _

theorem ends_readReply (e : Endian) (d : List Byte) : Ends (readReply e d) := by
  unfold readReply
  refine (Ends.message e d).bind fun x => ?_
  obtain ⟨hdr, next, err⟩ := x
  cases err with
  | some err => exact .ok _
  | none =>
    cases hdr with
    | none => exact .panic
    | some hdr =>
      simp only
      split
      · refine (Ends.errMessage _ _).bind fun _ => ?_
        split
        · exact .ok _
        · exact (Ends.nfgenStruct _).bind fun _ => .ok _
      · exact (Ends.nfgenStruct _).bind fun _ => .ok _

theorem b_recv (env : Env) (fd n : Nat) : Bounded 1 1 (recv env K fd n) := by
  unfold recv
  refine Bounded.bind (n2 := 0) (r2 := 0) (.recvfrom _ _ _) fun r => ?_
  cases r with
  | error n => exact .pure _
  | ok d => exact .lift (ends_readReply _ _)

theorem b_query (env : Env) (fd : Nat) (msg : NetlinkMessage) : Bounded 3 1 (query env K fd msg) := by
  unfold query
  refine Bounded.bind (n2 := 1) (r2 := 1) (b_send env fd msg) fun r => ?_
  cases r with
  | some err => exact .pure _
  | none => exact b_recv env _ _

theorem b_closeSock (fd : Nat) : Bounded 2 0 (closeSock K fd) := by
  unfold closeSock
  exact Bounded.bind (n2 := 0) (r2 := 0) (.close _) fun _ => .pure _

theorem b_sendMessage (env : Env) (hdr : NlMsghdr) (data : List Byte) : Bounded 8 1 (sendMessage env K hdr data) := by
  unfold sendMessage
  refine Bounded.bind (n2 := 5) (r2 := 1) b_openSock fun r => ?_
  cases r with
  | error _ => exact .panic
  | ok fd =>
    exact Bounded.bind (n2 := 2) (r2 := 0) (b_query env fd _) fun _ => Bounded.bind (n2 := 0) (r2 := 0) (b_closeSock fd) fun _ => .pure _

theorem ends_appendAt {f : List Byte → Res (List Byte × Nat)} (hf : ∀ b, Ends (f b)) (s : List Byte × Nat) : Ends (appendAt f s) := by
  unfold appendAt
  exact (Ends.sliceFrom _ _).bind fun _ => (hf _).bind fun _ => .ok _

theorem ends_build (env : Env) (a b : String) (p : Byte) (sp dp : U16) : Ends (buildConntrackUpdateRequest env a b p sp dp) := by
  unfold buildConntrackUpdateRequest
  refine (Ends.ip _).bind fun src => (Ends.ip _).bind fun dst => (Ends.nfgenBuf _ _).bind fun _ =>
    (ends_appendAt (Ends.attrBuf _ _) _).bind fun _ => (ends_appendAt (Ends.attrBuf _ _) _).bind fun _ =>
    (ends_appendAt (Ends.attrBuf _ _) _).bind fun _ => (ends_appendAt (Ends.v32Buf _) _).bind fun _ =>
    (ends_appendAt (Ends.attrBuf _ _) _).bind fun _ => (ends_appendAt (Ends.v32Buf _) _).bind fun _ =>
    (ends_appendAt (Ends.attrBuf _ _) _).bind fun _ => (ends_appendAt (Ends.attrBuf _ _) _).bind fun _ =>
    (ends_appendAt (Ends.v8Buf _) _).bind fun _ => (ends_appendAt (Ends.attrBuf _ _) _).bind fun _ =>
    (ends_appendAt (Ends.v16Buf _) _).bind fun _ => (ends_appendAt (Ends.attrBuf _ _) _).bind fun _ =>
    (ends_appendAt (Ends.v16Buf _) _).bind fun _ => .ok _

theorem ends_appendMark (env : Env) (m : U32) (h : NlMsghdr) : Ends (appendMark env m h) := by
  unfold appendMark
  exact (Ends.attr _ _).bind fun _ => (Ends.v32 _).bind fun _ => .ok _
theorem ends_appendLabel (env : Env) (m : U32) (h : NlMsghdr) : Ends (appendLabel env m h) := by
  unfold appendLabel
  exact (Ends.writeAt _ _ _).bind fun _ => (Ends.attr _ _).bind fun _ => .ok _
theorem ends_appendProtoInfo (env : Env) (h : NlMsghdr) : Ends (appendProtoInfo env h) := by
  unfold appendProtoInfo
  exact (Ends.attr _ _).bind fun _ => (Ends.attr _ _).bind fun _ => (Ends.attr _ _).bind fun _ => (Ends.v16 _).bind fun _ =>
    (Ends.attr _ _).bind fun _ => (Ends.v16 _).bind fun _ => .ok _

theorem ends_markMessage (env : Env) (a b : String) (p : Byte) (sp dp : U16) (m : U32) : Ends (markMessage env a b p sp dp m) := by
  unfold markMessage
  exact (ends_build env a b p sp dp).bind fun _ => (ends_appendMark env _ _).bind fun _ => .ok _
theorem ends_labelMessage (env : Env) (a b : String) (p : Byte) (sp dp : U16) (m : U32) : Ends (labelMessage env a b p sp dp m) := by
  unfold labelMessage
  refine (ends_build env a b p sp dp).bind fun x => ?_
  obtain ⟨hdr, data⟩ := x
  simp only
  split
  · exact (ends_appendProtoInfo env _).bind fun _ => (ends_appendLabel env _ _).bind fun _ => .ok _
  · exact (ends_appendLabel env _ _).bind fun _ => .ok _

theorem ends_sameIP (env : Env) (a : List Byte) (s : String) : Ends (sameIP env a s) := by
  unfold sameIP
  exact (Ends.ip _).bind fun _ => (Ends.ip _).bind fun _ => .ok _
theorem ends_andThen {x y : Res Bool} (hx : Ends x) (hy : Ends y) : Ends (andThen x y) := by
  unfold andThen
  refine hx.bind fun a => ?_
  split
  · exact hy
  · exact .ok _
theorem ends_check (env : Env) (f : Flow) (a b : String) (p : Byte) (sp dp : U16) : Ends (checkTuplesInFlow env f a b p sp dp) := by
  unfold checkTuplesInFlow
  exact (ends_andThen (ends_sameIP _ _ _) (ends_sameIP _ _ _)).bind fun _ => (ends_andThen (ends_sameIP _ _ _) (ends_sameIP _ _ _)).bind fun _ => .ok _

theorem b_updateMark (env : Env) (a b : String) (p : Byte) (sp dp : U16) (m : U32) : Bounded 8 1 (updateMark env K a b p sp dp m) := by
  unfold updateMark
  exact Bounded.bind (n2 := 8) (r2 := 1) (.lift (ends_markMessage env a b p sp dp m)) fun _ => b_sendMessage env _ _

theorem b_markLoop (env : Env) (a b : String) (p : Byte) (sp dp : U16) (m : U32) :
    ∀ (fs : List Flow) (n : Nat), Bounded (8 * fs.length) fs.length (markLoop env K a b p sp dp m fs n)
  | [], _ => .pure _
  | f :: fs, n => by
    unfold markLoop
    refine Bounded.bind (n2 := 8 * fs.length + 8) (r2 := fs.length + 1) (.lift (ends_check env f a b p sp dp)) fun present => ?_
    refine .ite ?_ ((b_markLoop env a b p sp dp m fs n).le (by omega) (by omega))
    refine Bounded.bind (n2 := 8 * fs.length) (r2 := fs.length) (b_updateMark env a b p sp dp m) fun r => ?_
    cases r with
    | some err => exact .pure _
    | none => exact b_markLoop env a b p sp dp m fs (n + 1)

theorem b_labelLoop (env : Env) (a b : String) (p : Byte) (sp dp : U16) (m : U32) :
    ∀ (fs : List Flow) (n : Nat), Bounded (8 * fs.length) fs.length (labelLoop env K a b p sp dp m fs n)
  | [], _ => .pure _
  | f :: fs, n => by
    unfold labelLoop
    refine Bounded.bind (n2 := 8 * fs.length + 8) (r2 := fs.length + 1) (.lift (ends_check env f a b p sp dp)) fun present => ?_
    refine .ite ?_ ((b_labelLoop env a b p sp dp m fs n).le (by omega) (by omega))
    refine Bounded.bind (n2 := 8 * fs.length + 8) (r2 := fs.length + 1) (.lift (ends_labelMessage env a b p sp dp m)) fun _ =>
      Bounded.bind (n2 := 8 * fs.length) (r2 := fs.length) (b_sendMessage env _ _) fun r => ?_
    cases r with
    | some err => exact .pure _
    | none => exact b_labelLoop env a b p sp dp m fs (n + 1)

theorem b_bulkMark (env : Env) (fs : List Flow) (a b : String) (p : Byte) (sp dp : U16) (m : U32) :
    Bounded (8 * fs.length) fs.length (updateMarkForAvailableFlow env K fs a b p sp dp m) := by
  unfold updateMarkForAvailableFlow
  refine Bounded.le (n1 := 0 + 8 * fs.length) (r1 := 0 + fs.length)
    (Bounded.bind (n2 := 0) (r2 := 0) (b_markLoop (K := K) env a b p sp dp m fs 0) ?_) (by omega) (by omega)
  rintro ⟨n, err⟩
  cases err with
  | some err => exact .pure _
  | none => exact .ite (.pure _) (.pure _)

theorem b_bulkLabel (env : Env) (fs : List Flow) (a b : String) (p : Byte) (sp dp : U16) (m : U32) :
    Bounded (8 * fs.length) fs.length (updateLabel env K fs a b p sp dp m) := by
  unfold updateLabel
  refine Bounded.le (n1 := 0 + 8 * fs.length) (r1 := 0 + fs.length)
    (Bounded.bind (n2 := 0) (r2 := 0) (b_labelLoop (K := K) env a b p sp dp m fs 0) ?_) (by omega) (by omega)
  rintro ⟨n, err⟩
  cases err with
  | some err => exact .pure _
  | none => exact .ite (.pure _) (.pure _)

end Verif.Conntrack
