import Verif.Sys.Lemmas
import Verif.Common.Model
/-! Programs that end after a bounded number of system calls (nothing in this file models code of /repo). -/
namespace Verif.Sys
open Common
variable {α τ β γ : Type}

/-- Does not run forever. -/
def Ends (x : Res β) : Prop := x ≠ .diverge

namespace Ends
theorem ok (a : β) : Ends (.ok a : Res β) := by intro h; cases h
theorem pure (a : β) : Ends (Pure.pure a : Res β) := by intro h; cases h
theorem panic : Ends (.panic : Res β) := by intro h; cases h
theorem bind {x : Res β} {f : β → Res γ} (hx : Ends x) (hf : ∀ a, Ends (f a)) : Ends (x >>= f) := by
  cases x with
  | ok a => exact hf a
  | panic => intro h; cases h
  | diverge => exact absurd rfl hx
theorem writeAt (b : List Byte) (i : Nat) (bs : List Byte) : Ends (writeAt b i bs) := by
  unfold Verif.writeAt; split <;> (intro h; cases h)
theorem copyByte (b : List Byte) (i : Nat) (x : Byte) : Ends (copyByte b i x) := by
  unfold Common.copyByte; split
  · exact ok _
  · split
    · exact ok _
    · exact panic
theorem sliceFrom (b : List Byte) (i : Nat) : Ends (sliceFrom b i) := by
  unfold Verif.sliceFrom; split <;> (intro h; cases h)
theorem slice (b : List Byte) (i j : Nat) : Ends (slice b i j) := by
  unfold Verif.slice; split <;> (intro h; cases h)
theorem idx (b : List Byte) (i : Nat) : Ends (idx b i) := by
  unfold Verif.idx; split <;> (intro h; cases h)
theorem dec16 (e : Endian) (b : List Byte) : Ends (dec16 e b) := by
  unfold Verif.dec16; split <;> (intro h; cases h)
theorem dec32 (e : Endian) (b : List Byte) : Ends (dec32 e b) := by
  unfold Verif.dec32; split <;> (intro h; cases h)
theorem sub (s : Slice) (i j : Nat) : Ends (s.sub i j) := by
  unfold Slice.sub; split <;> (intro h; cases h)

/-- Straight-line code ends. -/
macro "ends" : tactic => `(tactic| repeat' (first
  | exact Ends.ok _ | exact Ends.pure _ | exact Ends.panic | exact Ends.writeAt _ _ _ | exact Ends.copyByte _ _ _
  | exact Ends.sliceFrom _ _ | exact Ends.slice _ _ _ | exact Ends.idx _ _ | exact Ends.dec16 _ _ | exact Ends.dec32 _ _
  | exact Ends.sub _ _ _ | (refine Ends.bind ?_ fun _ => ?_) | split))

theorem serialize (e : Endian) (h : NlMsghdr) : Ends (serializeNlMsgHdr e h) := by unfold serializeNlMsgHdr; ends
theorem serializeBuf (e : Endian) (h : NlMsghdr) (b : List Byte) : Ends (serializeNlMsgHdrBuf e h b) := by unfold serializeNlMsgHdrBuf; ends
theorem nfgen (r : NfqGenMsg) : Ends r.toWireFormat := by unfold NfqGenMsg.toWireFormat; ends
theorem nfgenBuf (r : NfqGenMsg) (b : List Byte) : Ends (r.toWireFormatBuf b) := by unfold NfqGenMsg.toWireFormatBuf; ends
theorem attr (e : Endian) (r : NfAttr) : Ends (r.toWireFormat e) := by unfold NfAttr.toWireFormat; ends
theorem attrBuf (e : Endian) (r : NfAttr) (b : List Byte) : Ends (r.toWireFormatBuf e b) := by unfold NfAttr.toWireFormatBuf; ends
theorem v8Buf (v : Byte) (b : List Byte) : Ends (value8ToWireFormatBuf v b) := by unfold value8ToWireFormatBuf; ends
theorem v16Buf (v : U16) (b : List Byte) : Ends (value16ToWireFormatBuf v b) := by unfold value16ToWireFormatBuf; ends
theorem v32Buf (v : U32) (b : List Byte) : Ends (value32ToWireFormatBuf v b) := by unfold value32ToWireFormatBuf; ends
theorem v16 (v : U16) : Ends (value16ToWireFormat v) := by unfold value16ToWireFormat; ends
theorem v32 (v : U32) : Ends (value32ToWireFormat v) := by unfold value32ToWireFormat; ends
theorem message (e : Endian) (b : List Byte) : Ends (netlinkMessageToStruct e b) := by unfold netlinkMessageToStruct; ends
theorem nfgenStruct (b : List Byte) : Ends (netlinkMessageToNfGenStruct b) := by unfold netlinkMessageToNfGenStruct; ends
theorem errMessage (e : Endian) (b : List Byte) : Ends (netlinkErrMessagetoStruct e b) := by
  unfold netlinkErrMessagetoStruct
  exact (dec32 _ _).bind fun _ => (sliceFrom _ _).bind fun _ => (message _ _).bind fun _ => pure _
theorem ip (b : List Byte) : Ends (ip2int b) := by unfold ip2int; ends
end Ends

/-- A system call (what the application sees of itself is none). -/
def isCall : Ev α → Bool
  | .app _ => false
  | _ => true

/-- Waiting for a datagram. -/
def isWait : Ev α → Bool
  | .recvfrom _ _ _ _ => true
  | _ => false

/-- The program does not run forever by itself, and if it returns, it has made at most `n` system calls, at most `r` of which wait for
a datagram. -/
def Bounded (n r : Nat) (m : GoM (World α τ) β) : Prop :=
  ∀ w, m w ≠ .diverge ∧ ∀ x w', m w = .ok (x, w') →
    ∃ evs, w'.trace = w.trace ++ evs ∧ evs.countP isCall ≤ n ∧ evs.countP isWait ≤ r

variable {n r n1 r1 n2 r2 : Nat} {m : GoM (World α τ) β} {f : β → GoM (World α τ) γ} {K : Kernel α}
namespace Bounded

theorem le (h : Bounded n1 r1 m) (hn : n1 ≤ n) (hr : r1 ≤ r) : Bounded n r m := fun w =>
  ⟨(h w).1, fun x w' hm => by
    obtain ⟨evs, a, b, c⟩ := (h w).2 x w' hm
    exact ⟨evs, a, Nat.le_trans b hn, Nat.le_trans c hr⟩⟩

theorem bind (hm : Bounded n1 r1 m) (hf : ∀ x, Bounded n2 r2 (f x)) : Bounded (n2 + n1) (r2 + r1) (m >>= f) := by
  intro w
  rw [GoM.bind_apply]
  refine ⟨Ends.bind (hm w).1 fun p => (hf p.1 p.2).1, fun x w' h => ?_⟩
  obtain ⟨⟨y, w1⟩, h1, h2⟩ := Res.bind_eq_ok.mp h
  obtain ⟨a, ha, ca, ra⟩ := (hm w).2 y w1 h1
  obtain ⟨b, hb, cb, rb⟩ := (hf y w1).2 x w' h2
  refine ⟨a ++ b, by rw [hb, ha, List.append_assoc], ?_, ?_⟩
  · rw [List.countP_append]; omega
  · rw [List.countP_append]; omega

/-- Code that makes no system call. -/
theorem local' (he : ∀ w, m w ≠ .diverge) (h : ∀ w x w', m w = .ok (x, w') → w'.trace = w.trace) : Bounded n r m := fun w =>
  ⟨he w, fun x w' hm => ⟨[], by simp [h w x w' hm], by simp, by simp⟩⟩

theorem pure (x : β) : Bounded n r (Pure.pure x : GoM (World α τ) β) := local' (fun w h => by rw [GoM.pure_apply] at h; cases h)
  fun w y w' h => by rw [GoM.pure_apply] at h; cases h; rfl

theorem panic : Bounded n r (GoM.panic : GoM (World α τ) β) := local' (fun w h => by cases h) fun w y w' h => by cases h

theorem lift {x : Res β} (h : Ends x) : Bounded 0 0 (GoM.lift x : GoM (World α τ) β) := by
  refine local' (fun w => ?_) fun w y w' hm => ?_
  · rw [GoM.lift_apply]
    exact Ends.bind h fun _ => Ends.ok _
  · rw [GoM.lift_apply] at hm
    obtain ⟨a, _, h2⟩ := Res.bind_eq_ok.mp hm
    cases h2; rfl

theorem ite {c : Prop} [Decidable c] {m' : GoM (World α τ) β} (h : Bounded n r m) (h' : Bounded n r m') : Bounded n r (if c then m else m') := by
  split
  · exact h
  · exact h'

theorem one {m : GoM (World α τ) β} {ev : World α τ → Ev α} (h : ∀ w, ∃ x w', m w = .ok (x, w') ∧ w'.trace = w.trace ++ [ev w])
    (hr : ∀ w, isWait (ev w) = false) : Bounded 1 0 m := by
  intro w
  obtain ⟨x, w', h1, h2⟩ := h w
  rw [h1]
  refine ⟨fun h => by (cases h), fun y w'' h => ?_⟩
  cases h
  refine ⟨[ev w], h2, ?_, ?_⟩
  · simp only [List.countP_singleton]; split <;> omega
  · simp [hr w]

theorem wait {m : GoM (World α τ) β} {ev : World α τ → Ev α} (h : ∀ w, ∃ x w', m w = .ok (x, w') ∧ w'.trace = w.trace ++ [ev w]) : Bounded 1 1 m := by
  intro w
  obtain ⟨x, w', h1, h2⟩ := h w
  rw [h1]
  refine ⟨fun h => by (cases h), fun y w'' h => ?_⟩
  cases h
  refine ⟨[ev w], h2, ?_, ?_⟩ <;> (simp only [List.countP_singleton]; split <;> omega)

theorem rawSocket (a b c : Nat) : Bounded 1 0 (rawSocket K a b c : GoM (World α τ) _) := one (fun _ => ⟨_, _, rfl, rfl⟩) fun _ => rfl
theorem rawBind (fd : Nat) : Bounded 1 0 (rawBind K fd : GoM (World α τ) _) := one (fun _ => ⟨_, _, rfl, rfl⟩) fun _ => rfl
theorem rawSetsockopt (a b c d : Nat) : Bounded 1 0 (rawSetsockopt K a b c d : GoM (World α τ) _) := one (fun _ => ⟨_, _, rfl, rfl⟩) fun _ => rfl
theorem rawLinger (fd : Nat) : Bounded 1 0 (rawLinger K fd : GoM (World α τ) _) := one (fun _ => ⟨_, _, rfl, rfl⟩) fun _ => rfl
theorem rawClose (fd : Nat) : Bounded 1 0 (rawClose K fd : GoM (World α τ) _) := one (fun _ => ⟨_, _, rfl, rfl⟩) fun _ => rfl
theorem rawSendto (fd : Nat) (b : List Byte) (x : Nat) : Bounded 1 0 (rawSendto K fd b x : GoM (World α τ) _) := one (fun _ => ⟨_, _, rfl, rfl⟩) fun _ => rfl
theorem rawSendmsg (fd : Nat) (b : List Byte) : Bounded 1 0 (rawSendmsg K fd b : GoM (World α τ) _) := one (fun _ => ⟨_, _, rfl, rfl⟩) fun _ => rfl
theorem rawRecvfrom (a b c : Nat) : Bounded 1 1 (rawRecvfrom K a b c : GoM (World α τ) _) := wait fun _ => ⟨_, _, rfl, rfl⟩

theorem socket (a b c : Nat) : Bounded 1 0 (socket K a b c : GoM (World α τ) _) := by
  unfold Sys.socket
  refine (rawSocket a b c).bind (n2 := 0) (r2 := 0) fun x => ?_
  cases x <;> exact pure _
theorem sysBind (fd : Nat) : Bounded 2 0 (Sys.bind K fd : GoM (World α τ) _) := by
  unfold Sys.bind
  exact (rawBind fd).bind fun _ => ite (rawBind fd) (pure _)
theorem setsockoptInt (a b c d : Nat) : Bounded 2 0 (setsockoptInt K a b c d : GoM (World α τ) _) := by
  unfold Sys.setsockoptInt
  exact (rawSetsockopt a b c d).bind fun _ => ite (rawSetsockopt a b c d) (pure _)
theorem close (fd : Nat) : Bounded 2 0 (Sys.close K fd : GoM (World α τ) _) := by
  unfold Sys.close
  exact (rawClose fd).bind fun _ => ite (rawClose fd) (pure _)
theorem recvfrom (a b c : Nat) : Bounded 1 1 (recvfrom K a b c : GoM (World α τ) _) := by
  unfold Sys.recvfrom
  refine (rawRecvfrom a b c).bind (n2 := 0) (r2 := 0) fun x => ?_
  cases x <;> exact pure _
theorem sendto (fd : Nat) (b : List Byte) (x : Nat) : Bounded 2 0 (sendto K fd b x : GoM (World α τ) _) := by
  unfold Sys.sendto
  exact (rawSendto fd b x).bind fun _ => ite (rawSendto fd b x) (pure _)
theorem syscallSendmsg (fd : Nat) (b : List Byte) : Bounded 1 0 (syscallSendmsg K fd b : GoM (World α τ) _) := by
  unfold Sys.syscallSendmsg
  refine (rawSendmsg fd b).bind (n2 := 0) (r2 := 0) fun x => ?_
  cases x <;> exact pure _
theorem recvInto (fd : Nat) (buf : Slice) (x : Nat) : Bounded 1 1 (recvInto K fd buf x : GoM (World α τ) _) := by
  intro w
  obtain ⟨hd, ho⟩ := recvfrom (K := K) fd buf.len x w
  unfold Sys.recvInto
  rcases hr : Sys.recvfrom K fd buf.len x w with ⟨r, w1⟩ | _ | _
  · have h1 := ho r w1 hr
    cases r
    · exact ⟨fun h => by (cases h), fun y w' h => by (cases h; exact h1)⟩
    · exact ⟨fun h => by (cases h), fun y w' h => by (cases h; exact h1)⟩
  · exact ⟨fun h => by (cases h), fun y w' h => by (cases h)⟩
  · exact absurd hr hd

end Bounded
end Verif.Sys
