import Verif.Sys.Model
/-!
What the system call wrappers look like from outside, for any package.
-/
namespace Verif.Sys

variable {α τ : Type}

/-- The raw calls of a wrapper-level Sendto: one, or two with the same bytes when the first failed;
`r` is the final result. -/
def SendEvs (fd : Nat) (bytes : List Byte) (r : Option Nat) (evs : List (Ev α)) : Prop :=
  (r = none ∧ evs = [.sendto fd bytes 0 none]) ∨
    ∃ e1, evs = [.sendto fd bytes 0 (some e1), .sendto fd bytes 0 r]

/-- The raw calls of a wrapper-level Bind, and its result. -/
def BindEvs (fd : Nat) (r : Option Nat) (evs : List (Ev α)) : Prop :=
  (r = none ∧ evs = [.bind fd none]) ∨ ∃ e1, evs = [.bind fd (some e1), .bind fd r]

/-- The raw calls of a wrapper-level Close. -/
def CloseEvs (fd : Nat) (evs : List (Ev α)) : Prop :=
  evs = [.close fd none] ∨ ∃ e1 r, evs = [.close fd (some e1), .close fd r]

/-- The raw calls of a wrapper-level SetsockoptInt: option `o` of level `l` of `fd` is set to `v`, with
one more try if the first fails. -/
def SetOpt (fd l o v : Nat) (evs : List (Ev α)) : Prop :=
  evs = [.setsockopt fd l o v none] ∨
    ∃ e1 r, evs = [.setsockopt fd l o v (some e1), .setsockopt fd l o v r]

/-- Option NETLINK_NO_ENOBUFS (5) of level SOL_NETLINK (270) was set to 1 on `fd`. -/
def OptEvs (fd : Nat) (evs : List (Ev α)) : Prop := SetOpt fd 270 5 1 evs

/-- A close of any descriptor. -/
def isClose : Ev α → Bool
  | .close _ _ => true
  | _ => false

/-- A socket was opened or asked for. -/
def isSocket : Ev α → Bool
  | .socket _ _ _ _ => true
  | _ => false

/-- A message sent or received. -/
def isTransfer : Ev α → Bool
  | .sendto _ _ _ _ => true
  | .recvfrom _ _ _ _ => true
  | _ => false

/-- An application event. -/
def isApp : Ev α → Bool
  | .app _ => true
  | _ => false

theorem bind_spec (K : Kernel α) (fd : Nat) (w : World α τ) :
    ∃ r evs, Sys.bind K fd w = .ok (r, { w with trace := w.trace ++ evs }) ∧ BindEvs fd r evs ∧
      ∃ tr, r = K.bind tr fd := by
  rcases h : K.bind w.trace fd with _ | e1
  · exact ⟨none, [.bind fd none], by simp [Sys.bind, rawBind, h, World.log], Or.inl ⟨rfl, rfl⟩, _, h.symm⟩
  · exact ⟨_, [.bind fd (some e1), .bind fd (K.bind (w.trace ++ [.bind fd (some e1)]) fd)],
      by simp [Sys.bind, rawBind, h, World.log], Or.inr ⟨e1, rfl⟩, _, rfl⟩

theorem setsockopt_spec (K : Kernel α) (fd l o v : Nat) (w : World α τ) :
    ∃ r evs, setsockoptInt K fd l o v w = .ok (r, { w with trace := w.trace ++ evs }) ∧
      SetOpt fd l o v evs := by
  rcases h : K.setsockopt w.trace fd with _ | e1
  · exact ⟨none, [.setsockopt fd l o v none], by simp [setsockoptInt, rawSetsockopt, h, World.log],
      Or.inl rfl⟩
  · exact ⟨K.setsockopt (w.trace ++ [.setsockopt fd l o v (some e1)]) fd,
      [.setsockopt fd l o v (some e1), .setsockopt fd l o v
        (K.setsockopt (w.trace ++ [.setsockopt fd l o v (some e1)]) fd)],
      by simp [setsockoptInt, rawSetsockopt, h, World.log], Or.inr ⟨_, _, rfl⟩⟩

theorem SetOpt.mem {fd l o v : Nat} {evs : List (Ev α)} (h : SetOpt fd l o v evs) :
    ∀ ev ∈ evs, ∃ r, ev = .setsockopt fd l o v r := by
  intro ev hm
  rcases h with rfl | ⟨e1, r, rfl⟩
  · simp at hm; exact ⟨_, hm⟩
  · simp at hm; rcases hm with h | h <;> exact ⟨_, h⟩

theorem close_spec (K : Kernel α) (fd : Nat) (w : World α τ) :
    ∃ r evs, Sys.close K fd w = .ok (r, { w with trace := w.trace ++ evs }) ∧ CloseEvs fd evs := by
  rcases h : K.close w.trace fd with _ | e1
  · exact ⟨none, [.close fd none], by simp [Sys.close, rawClose, h, World.log], Or.inl rfl⟩
  · exact ⟨K.close (w.trace ++ [.close fd (some e1)]) fd,
      [.close fd (some e1), .close fd (K.close (w.trace ++ [.close fd (some e1)]) fd)],
      by simp [Sys.close, rawClose, h, World.log], Or.inr ⟨e1, _, rfl⟩⟩

theorem sendto_spec (K : Kernel α) (fd : Nat) (bytes : List Byte) (w : World α τ) :
    ∃ r evs, sendto K fd bytes 0 w = .ok (r, { w with trace := w.trace ++ evs }) ∧
      SendEvs fd bytes r evs ∧ ∃ tr, r = K.send tr fd bytes := by
  rcases h : K.send w.trace fd bytes with _ | e1
  · exact ⟨none, [.sendto fd bytes 0 none], by simp [sendto, rawSendto, h, World.log],
      Or.inl ⟨rfl, rfl⟩, _, h.symm⟩
  · exact ⟨_, [.sendto fd bytes 0 (some e1),
      .sendto fd bytes 0 (K.send (w.trace ++ [.sendto fd bytes 0 (some e1)]) fd bytes)],
      by simp [sendto, rawSendto, h, World.log], Or.inr ⟨e1, rfl⟩, _, rfl⟩

theorem recvfrom_spec (K : Kernel α) (fd size flags : Nat) (w : World α τ) :
    (∃ n, K.recv w.trace fd = .error n ∧ recvfrom K fd size flags w =
        .ok (.error n, { w with trace := w.trace ++ [.recvfrom fd size flags (.error n)] })) ∨
    (∃ d, K.recv w.trace fd = .ok d ∧ recvfrom K fd size flags w =
        .ok (.ok (d.take size), { w with trace := w.trace ++ [.recvfrom fd size flags (.ok (d.take size))] })) := by
  rcases h : K.recv w.trace fd with n | d
  · exact .inl ⟨n, rfl, by simp [recvfrom, rawRecvfrom, h, World.log, Except.map]⟩
  · exact .inr ⟨d, rfl, by simp [recvfrom, rawRecvfrom, h, World.log, Except.map]⟩

theorem socket_spec (K : Kernel α) (a b c : Nat) (w : World α τ) :
    Sys.socket K a b c w = .ok (K.socket w.trace,
      { w with trace := w.trace ++ [.socket a b c (K.socket w.trace)] }) := by
  rcases h : K.socket w.trace with n | fd <;> simp [Sys.socket, rawSocket, h, World.log]

theorem SendEvs.clean {fd : Nat} {b : List Byte} {r : Option Nat} {evs : List (Ev α)}
    (h : SendEvs fd b r evs) : ∀ ev ∈ evs, isTransfer ev = true := by
  intro ev hm
  rcases h with ⟨_, rfl⟩ | ⟨e1, rfl⟩
  · simp at hm; subst hm; rfl
  · simp at hm; rcases hm with rfl | rfl <;> rfl

theorem SendEvs.mem {fd : Nat} {b : List Byte} {r : Option Nat} {evs : List (Ev α)}
    (h : SendEvs fd b r evs) : ∀ ev ∈ evs, ∃ x, ev = .sendto fd b 0 x := by
  intro ev hm
  rcases h with ⟨_, rfl⟩ | ⟨e1, rfl⟩
  · exact ⟨_, by simpa using hm⟩
  · rcases (by simpa using hm : _ ∨ _) with h | h
    · exact ⟨_, h⟩
    · exact ⟨_, h⟩

theorem isTransfer_not {ev : Ev α} (h : isTransfer ev = true) :
    isClose ev = false ∧ isApp ev = false ∧ isSocket ev = false ∧ ∀ a b, ev ≠ .bind a b := by
  cases ev <;> simp [isTransfer] at h <;> simp [isClose, isApp, isSocket]

theorem BindEvs.clean {fd : Nat} {r : Option Nat} {evs : List (Ev α)} (h : BindEvs fd r evs) :
    ∀ ev ∈ evs, isClose ev = false ∧ isApp ev = false ∧ isSocket ev = false := by
  intro ev hm
  rcases h with ⟨_, rfl⟩ | ⟨e1, rfl⟩
  · simp at hm; subst hm; exact ⟨rfl, rfl, rfl⟩
  · simp at hm; rcases hm with rfl | rfl <;> exact ⟨rfl, rfl, rfl⟩

theorem OptEvs.clean {fd : Nat} {evs : List (Ev α)} (h : OptEvs fd evs) :
    ∀ ev ∈ evs, isClose ev = false ∧ isApp ev = false ∧ isSocket ev = false := by
  intro ev hm
  obtain ⟨_, rfl⟩ := SetOpt.mem h ev hm
  exact ⟨rfl, rfl, rfl⟩

theorem CloseEvs.clean {fd : Nat} {evs : List (Ev α)} (h : CloseEvs fd evs) :
    ∀ ev ∈ evs, isClose ev = true ∧ isApp ev = false ∧ isSocket ev = false := by
  intro ev hm
  rcases h with rfl | ⟨e1, r, rfl⟩
  · simp at hm; subst hm; exact ⟨rfl, rfl, rfl⟩
  · simp at hm; rcases hm with rfl | rfl <;> exact ⟨rfl, rfl, rfl⟩

end Verif.Sys
