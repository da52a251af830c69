import Verif.Sys.Lemmas
/-!
What is recorded in a history is what the kernel answered.  `Genuine K tr evs`: each of the events `evs` that followed the history `tr`
is a system call answered by `K`, or an application event.
-/
namespace Verif.Sys
variable {α τ β γ : Type}

/-- The result recorded in this event is what the kernel answers after the history `tr`. -/
def Answers (K : Kernel α) (tr : List (Ev α)) : Ev α → Prop
  | .socket _ _ _ r => r = K.socket tr
  | .bind fd r => r = K.bind tr fd
  | .setsockopt fd _ _ _ r => r = K.setsockopt tr fd
  | .linger fd r => r = K.setsockopt tr fd
  | .close fd r => r = K.close tr fd
  | .sendto fd b _ r => r = K.send tr fd b
  | .recvfrom fd size _ r => r = (K.recv tr fd).map (·.take size)
  | .sendmsg fd b r => r = K.send tr fd b
  | .app _ => True

/-- Each of these events is. -/
inductive Genuine (K : Kernel α) : List (Ev α) → List (Ev α) → Prop
  | nil {tr} : Genuine K tr []
  | cons {tr ev evs} : Answers K tr ev → Genuine K (tr ++ [ev]) evs → Genuine K tr (ev :: evs)

theorem Genuine.append {K : Kernel α} {tr a b : List (Ev α)} (ha : Genuine K tr a) (hb : Genuine K (tr ++ a) b) :
    Genuine K tr (a ++ b) := by
  induction ha with
  | nil => simpa using hb
  | cons h _ ih => exact .cons h (ih (by simpa using hb))

theorem Genuine.split {K : Kernel α} {b : List (Ev α)} : ∀ {a tr : List (Ev α)}, Genuine K tr (a ++ b) →
    Genuine K tr a ∧ Genuine K (tr ++ a) b := by
  intro a
  induction a with
  | nil => intro tr h; exact ⟨.nil, by simpa using h⟩
  | cons ev a ih =>
    intro tr h
    cases h with
    | cons h1 h2 =>
      obtain ⟨h3, h4⟩ := ih h2
      exact ⟨.cons h1 h3, by simpa using h4⟩

/-- All that the program `m` adds to the history is genuine. -/
def Records (K : Kernel α) (m : GoM (World α τ) β) : Prop :=
  ∀ w x w', m w = .ok (x, w') → ∃ evs, w'.trace = w.trace ++ evs ∧ Genuine K w.trace evs

theorem Records.one {K : Kernel α} {m : GoM (World α τ) β} (h : ∀ w x w', m w = .ok (x, w') →
    ∃ ev, w'.trace = w.trace ++ [ev] ∧ Answers K w.trace ev) : Records K m := by
  intro w x w' hm
  obtain ⟨ev, h1, h2⟩ := h w x w' hm
  exact ⟨[ev], h1, .cons h2 .nil⟩

theorem Records.none {K : Kernel α} {m : GoM (World α τ) β} (h : ∀ w x w', m w = .ok (x, w') → w'.trace = w.trace) : Records K m := by
  intro w x w' hm
  exact ⟨[], by simp [h w x w' hm], .nil⟩

theorem Records.pure {K : Kernel α} (x : β) : Records K (Pure.pure x : GoM (World α τ) β) :=
  .none fun w y w' h => by
    rw [GoM.pure_apply] at h
    cases h; rfl

theorem Records.lift {K : Kernel α} (x : Res β) : Records K (GoM.lift x : GoM (World α τ) β) :=
  .none fun w y w' h => by
    rw [GoM.lift_apply] at h
    cases x with
    | ok a => cases h; rfl
    | panic => cases h
    | diverge => cases h

theorem Records.panic {K : Kernel α} : Records K (GoM.panic : GoM (World α τ) β) := by
  intro w x w' h; cases h

theorem Records.bind {K : Kernel α} {m : GoM (World α τ) β} {f : β → GoM (World α τ) γ} (hm : Records K m) (hf : ∀ x, Records K (f x)) :
    Records K (m >>= f) := by
  intro w x w' h
  rw [GoM.bind_apply] at h
  obtain ⟨⟨y, w1⟩, h1, h2⟩ := Res.bind_eq_ok.mp h
  obtain ⟨a, ha, ga⟩ := hm w y w1 h1
  obtain ⟨b, hb, gb⟩ := hf y w1 x w' h2
  refine ⟨a ++ b, by rw [hb, ha, List.append_assoc], ga.append ?_⟩
  rw [← ha]; exact gb

theorem Records.ite {K : Kernel α} {c : Prop} [Decidable c] {m n : GoM (World α τ) β} (hm : Records K m) (hn : Records K n) :
    Records K (if c then m else n) := by
  split
  · exact hm
  · exact hn

theorem records_rawSocket (K : Kernel α) (d t p : Nat) : Records K (rawSocket K d t p : GoM (World α τ) _) :=
  .one fun w x w' h => by cases h; exact ⟨_, rfl, rfl⟩
theorem records_rawBind (K : Kernel α) (fd : Nat) : Records K (rawBind K fd : GoM (World α τ) _) :=
  .one fun w x w' h => by cases h; exact ⟨_, rfl, rfl⟩
theorem records_rawSetsockopt (K : Kernel α) (fd l o v : Nat) : Records K (rawSetsockopt K fd l o v : GoM (World α τ) _) :=
  .one fun w x w' h => by cases h; exact ⟨_, rfl, rfl⟩
theorem records_rawLinger (K : Kernel α) (fd : Nat) : Records K (rawLinger K fd : GoM (World α τ) _) :=
  .one fun w x w' h => by cases h; exact ⟨_, rfl, rfl⟩
theorem records_rawClose (K : Kernel α) (fd : Nat) : Records K (rawClose K fd : GoM (World α τ) _) :=
  .one fun w x w' h => by cases h; exact ⟨_, rfl, rfl⟩
theorem records_rawSendto (K : Kernel α) (fd : Nat) (b : List Byte) (f : Nat) : Records K (rawSendto K fd b f : GoM (World α τ) _) :=
  .one fun w x w' h => by cases h; exact ⟨_, rfl, rfl⟩
theorem records_rawSendmsg (K : Kernel α) (fd : Nat) (b : List Byte) : Records K (rawSendmsg K fd b : GoM (World α τ) _) :=
  .one fun w x w' h => by cases h; exact ⟨_, rfl, rfl⟩
theorem records_rawRecvfrom (K : Kernel α) (fd size f : Nat) : Records K (rawRecvfrom K fd size f : GoM (World α τ) _) :=
  .one fun w x w' h => by cases h; exact ⟨_, rfl, rfl⟩

theorem records_bind (K : Kernel α) (fd : Nat) : Records K (Sys.bind K fd : GoM (World α τ) _) := by
  unfold Sys.bind
  exact (records_rawBind K fd).bind fun x => .ite (records_rawBind K fd) (.pure _)
theorem records_socket (K : Kernel α) (d t p : Nat) : Records K (Sys.socket K d t p : GoM (World α τ) _) := by
  unfold Sys.socket
  refine (records_rawSocket K d t p).bind fun x => ?_
  cases x <;> exact .pure _
theorem records_setsockoptInt (K : Kernel α) (fd l o v : Nat) : Records K (setsockoptInt K fd l o v : GoM (World α τ) _) := by
  unfold setsockoptInt
  exact (records_rawSetsockopt K fd l o v).bind fun x => .ite (records_rawSetsockopt K fd l o v) (.pure _)
theorem records_close (K : Kernel α) (fd : Nat) : Records K (Sys.close K fd : GoM (World α τ) _) := by
  unfold Sys.close
  exact (records_rawClose K fd).bind fun x => .ite (records_rawClose K fd) (.pure _)
theorem records_recvfrom (K : Kernel α) (fd size f : Nat) : Records K (recvfrom K fd size f : GoM (World α τ) _) := by
  unfold recvfrom
  refine (records_rawRecvfrom K fd size f).bind fun x => ?_
  cases x <;> exact .pure _
theorem records_sendto (K : Kernel α) (fd : Nat) (b : List Byte) (f : Nat) : Records K (sendto K fd b f : GoM (World α τ) _) := by
  unfold sendto
  exact (records_rawSendto K fd b f).bind fun x => .ite (records_rawSendto K fd b f) (.pure _)
theorem records_syscallSendmsg (K : Kernel α) (fd : Nat) (b : List Byte) : Records K (syscallSendmsg K fd b : GoM (World α τ) _) := by
  unfold syscallSendmsg
  refine (records_rawSendmsg K fd b).bind fun x => ?_
  cases x <;> exact .pure _
theorem records_recvInto (K : Kernel α) (fd : Nat) (buf : Slice) (f : Nat) : Records K (recvInto K fd buf f : GoM (World α τ) _) := by
  intro w x w' h
  unfold recvInto at h
  rcases hr : recvfrom K fd buf.len f w with ⟨r, w1⟩ | _ | _
  · rw [hr] at h
    obtain ⟨evs, h1, h2⟩ := records_recvfrom K fd buf.len f w r w1 hr
    cases r <;> (cases h; exact ⟨evs, h1, h2⟩)
  · rw [hr] at h; cases h
  · rw [hr] at h; cases h

end Verif.Sys
