import Verif.Sys.Model
/-! Property C11: the system call wrappers. -/
namespace Verif.Props
open Verif.Sys

variable {α τ : Type}

/-- Behaviour of a wrapper that retries once: it made one call of `mkEv` when that succeeded and
two when the first failed, the result is that of the last call, memory and package state are
untouched. -/
def RetriesOnce (mkEv : Option Nat → Ev α) (w : World α τ)
    (out : Res (Option Nat × World α τ)) : Prop :=
  ∃ r evs, out = .ok (r, { w with trace := w.trace ++ evs }) ∧
    ((r = none ∧ evs = [mkEv none]) ∨ (∃ e1, evs = [mkEv (some e1), mkEv r]))

/-- C11: Bind, SetsockoptInt, Close and Sendto make exactly one raw call if it succeeds, exactly two
with the same arguments if the first fails, and return the last result. -/
theorem C11_retry_once (K : Kernel α) (w : World α τ) (fd level opt value flags : Nat)
    (bytes : List Byte) :
    RetriesOnce (.bind fd) w (Sys.bind K fd w) ∧
    RetriesOnce (.setsockopt fd level opt value) w (setsockoptInt K fd level opt value w) ∧
    RetriesOnce (.close fd) w (close K fd w) ∧
    RetriesOnce (.sendto fd bytes flags) w (sendto K fd bytes flags w) := by
  refine ⟨?_, ?_, ?_, ?_⟩
  · unfold RetriesOnce
    rcases h : K.bind w.trace fd with _ | e1
    · exact ⟨none, [.bind fd none], by simp [Sys.bind, rawBind, h, World.log], Or.inl ⟨rfl, rfl⟩⟩
    · exact ⟨_, [.bind fd (some e1), .bind fd (K.bind (w.trace ++ [.bind fd (some e1)]) fd)],
        by simp [Sys.bind, rawBind, h, World.log], Or.inr ⟨e1, rfl⟩⟩
  · unfold RetriesOnce
    rcases h : K.setsockopt w.trace fd with _ | e1
    · exact ⟨none, [.setsockopt fd level opt value none],
        by simp [setsockoptInt, rawSetsockopt, h, World.log], Or.inl ⟨rfl, rfl⟩⟩
    · exact ⟨_, [.setsockopt fd level opt value (some e1), .setsockopt fd level opt value
          (K.setsockopt (w.trace ++ [.setsockopt fd level opt value (some e1)]) fd)],
        by simp [setsockoptInt, rawSetsockopt, h, World.log], Or.inr ⟨e1, rfl⟩⟩
  · unfold RetriesOnce
    rcases h : K.close w.trace fd with _ | e1
    · exact ⟨none, [.close fd none], by simp [close, rawClose, h, World.log], Or.inl ⟨rfl, rfl⟩⟩
    · exact ⟨_, [.close fd (some e1), .close fd (K.close (w.trace ++ [.close fd (some e1)]) fd)],
        by simp [close, rawClose, h, World.log], Or.inr ⟨e1, rfl⟩⟩
  · unfold RetriesOnce
    rcases h : K.send w.trace fd bytes with _ | e1
    · exact ⟨none, [.sendto fd bytes flags none], by simp [sendto, rawSendto, h, World.log],
        Or.inl ⟨rfl, rfl⟩⟩
    · exact ⟨_, [.sendto fd bytes flags (some e1), .sendto fd bytes flags
          (K.send (w.trace ++ [.sendto fd bytes flags (some e1)]) fd bytes)],
        by simp [sendto, rawSendto, h, World.log], Or.inr ⟨e1, rfl⟩⟩

/-- C11: Socket, Recvfrom and Syscall make exactly one raw call and report its result. -/
theorem C11_single (K : Kernel α) (w : World α τ) (domain typ proto fd size flags : Nat)
    (bytes : List Byte) :
    (∃ r, socket K domain typ proto w
        = .ok (r, { w with trace := w.trace ++ [.socket domain typ proto r] })) ∧
    (∃ r, recvfrom K fd size flags w
        = .ok (r, { w with trace := w.trace ++ [.recvfrom fd size flags r] }) ∧
        ∀ d, r = .ok d → d.length ≤ size) ∧
    (∃ r, syscallSendmsg K fd bytes w
        = .ok (r, { w with trace := w.trace ++ [.sendmsg fd bytes r] })) := by
  refine ⟨?_, ?_, ?_⟩
  · rcases h : K.socket w.trace with e | f
    · exact ⟨.error e, by simp [socket, rawSocket, h, World.log]⟩
    · exact ⟨.ok f, by simp [socket, rawSocket, h, World.log]⟩
  · rcases h : K.recv w.trace fd with e | d
    · exact ⟨.error e, by simp [recvfrom, rawRecvfrom, h, World.log, Except.map], by simp⟩
    · refine ⟨.ok (d.take size), by simp [recvfrom, rawRecvfrom, h, World.log, Except.map], ?_⟩
      intro d' hd
      simp only [Except.ok.injEq] at hd
      rw [← hd]; simp; omega
  · rcases h : K.send w.trace fd bytes with _ | e
    · exact ⟨none, by simp [syscallSendmsg, rawSendmsg, h, World.log]⟩
    · exact ⟨some e, by simp [syscallSendmsg, rawSendmsg, h, World.log]⟩

/-- The message was accepted by the kernel in this event. -/
def accepted (fd : Nat) (bytes : List Byte) : Ev α → Bool
  | .sendto f b _ none => f == fd && b == bytes
  | _ => false

/-- C11: Sendto returns nil exactly when the kernel accepted the message, and then exactly once;
on failure it accepted it zero times. -/
theorem C11_send_once (K : Kernel α) (w : World α τ) (fd flags : Nat) (bytes : List Byte) :
    ∃ r evs, sendto K fd bytes flags w = .ok (r, { w with trace := w.trace ++ evs }) ∧
      (r = none → evs.countP (accepted fd bytes) = 1) ∧
      (r ≠ none → evs.countP (accepted fd bytes) = 0) := by
  obtain ⟨r, evs, h, hc⟩ := (C11_retry_once K w fd 0 0 0 flags bytes).2.2.2
  refine ⟨r, evs, h, ?_, ?_⟩
  · rintro rfl
    rcases hc with ⟨_, rfl⟩ | ⟨e1, rfl⟩ <;> simp [accepted]
  · intro hr
    rcases hc with ⟨rfl, _⟩ | ⟨e1, rfl⟩
    · exact absurd rfl hr
    · cases r with
      | none => exact absurd rfl hr
      | some e2 => simp [accepted]

/-- A kernel that refuses the first send with EINTR (4) and accepts the retry: two calls, nil. -/
def flaky : Kernel Unit :=
  { socket := fun _ => .ok 3, bind := fun _ _ => none, setsockopt := fun _ _ => none,
    close := fun _ _ => none, send := fun h _ _ => if h.isEmpty then some 4 else none,
    recv := fun _ _ => .error 11 }
example : sendto flaky 3 [1, 2] 0 (⟨[], ⟨[]⟩, ()⟩ : World Unit Unit)
    = .ok (none, ⟨[.sendto 3 [1, 2] 0 (some 4), .sendto 3 [1, 2] 0 none], ⟨[]⟩, ()⟩) := by rfl

end Verif.Props
