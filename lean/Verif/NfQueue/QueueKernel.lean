import Verif.NfQueue.Fine
import Verif.Common.Lemmas
/-!
Kernels that keep queues exist: for every initial state in which none of the queues is ours, and every script saying which packets come
when, there is one that does exactly what Queues.lean says and whose calls do not fail.
-/
namespace Verif.NfQueue
open Sys Spec Common

/-- The descriptors given out in a history. -/
def openedIn (tr : List (Ev QEv)) : List Nat := tr.filterMap fun
  | .socket _ _ _ (.ok fd) => some fd
  | _ => none

/-- A descriptor not given out before. -/
def freshFd (tr : List (Ev QEv)) : Nat := (openedIn tr).foldr max 2 + 1

/-- May packet `p` come to queue `k`? -/
def CanCome (k : KQueue) (p : Pkt) : Prop :=
  k.mode ≠ 0 ∧ k.waiting.length < k.maxLen ∧ p.id < 2 ^ 32 ∧ p.mark < 2 ^ 32 ∧ p.data ≠ [] ∧ (∀ x ∈ k.waiting, x.id ≠ p.id) ∧
    k.range ≤ 65531

instance (k : KQueue) (p : Pkt) : Decidable (CanCome k p) := by unfold CanCome; infer_instance

/-- It comes, if it may. -/
def KState.come (s : KState) (x : Nat × Pkt) : KState :=
  match s.queues x.1 with
  | some k => if CanCome k x.2 then s.arrive x.1 k x.2 else s
  | none => s

/-- What an event does. -/
def KState.after (s : KState) (e : Endian) (opened : List Nat) (ev : Ev QEv) : KState :=
  match ev with
  | .close fd _ => s.release fd
  | .recvfrom fd _ _ (.ok _) => s.setInbox fd ((s.inbox fd).drop 1)
  | ev => match handedOver ev with
    | some (fd, b) => if fd ∈ opened then (s.serve e fd b).2.answer e fd b (s.serve e fd b).1 else s
    | none => s

/-- The history so far and the state: one more event, then the packets of the script. -/
def advance (e : Endian) (script : List (Ev QEv) → List (Nat × Pkt)) (p : List (Ev QEv) × KState) (ev : Ev QEv) : List (Ev QEv) × KState :=
  (p.1 ++ [ev], (script (p.1 ++ [ev])).foldl KState.come (p.2.after e (openedIn p.1) ev))

/-- The state after a history. -/
def stateAfter (e : Endian) (s0 : KState) (script : List (Ev QEv) → List (Nat × Pkt)) (tr : List (Ev QEv)) : KState :=
  (tr.foldl (advance e script) ([], s0)).2

/-- A message for a note (an acknowledgement shows the header of a request of 28 bytes). -/
def noteBytes (e : Endian) : Note → List Byte
  | .ack code => replyBytes e code ++ (bytes32 e 28 ++ zeros 12)
  | .packet id mark payload =>
    bytes32 e 0 ++ bytes16 e 0x300 ++ bytes16 e 0 ++ bytes32 e 0 ++ bytes32 e 0 ++ [2, 0, 0, 0] ++
      encodeAttrs e ([(1, bytes32 .big id ++ [8, 0, 1])] ++ (if mark = 0 then [] else [(3, bytes32 .big mark)]) ++
        (if payload = [] then [] else [(10, payload)]))

/-- The kernel. -/
def queueKernel (e : Endian) (s0 : KState) (script : List (Ev QEv) → List (Nat × Pkt)) : Kernel QEv where
  socket := fun tr => .ok (freshFd tr)
  bind := fun _ _ => none
  setsockopt := fun _ _ => none
  close := fun _ _ => none
  send := fun tr fd _ => if fd ∈ openedIn tr then none else some 9
  recv := fun tr fd => match (stateAfter e s0 script tr).inbox fd with
    | n :: _ => .ok (noteBytes e n)
    | [] => .error 11

theorem history_fst (e : Endian) (script : List (Ev QEv) → List (Nat × Pkt)) (tr : List (Ev QEv)) :
    ∀ p : List (Ev QEv) × KState, (tr.foldl (advance e script) p).1 = p.1 ++ tr := by
  induction tr with
  | nil => intro p; simp
  | cons ev tr ih => intro p; rw [List.foldl_cons, ih]; simp [advance]

theorem stateAfter_snoc (e : Endian) (s0 : KState) (script : List (Ev QEv) → List (Nat × Pkt)) (tr : List (Ev QEv)) (ev : Ev QEv) :
    stateAfter e s0 script (tr ++ [ev]) =
      (script (tr ++ [ev])).foldl KState.come ((stateAfter e s0 script tr).after e (openedIn tr) ev) := by
  unfold stateAfter
  rw [List.foldl_append, List.foldl_cons, List.foldl_nil]
  have := history_fst e script tr ([], s0)
  simp only [List.nil_append] at this
  simp only [advance, this]

theorem come_meanwhile (F : Nat → Prop) (l : List (Nat × Pkt)) : ∀ s : KState, Meanwhile F s (l.foldl KState.come s) := by
  induction l with
  | nil => intro s; exact .refl
  | cons x l ih =>
    intro s
    rw [List.foldl_cons]
    refine Meanwhile.trans ?_ (ih _)
    unfold KState.come
    split
    · rename_i k hk
      split
      · rename_i hc
        obtain ⟨h1, h2, h3, h4, h5, h6, _⟩ := hc
        exact .tail .refl (.arrive hk h1 h2 h3 h4 h5 h6)
      · exact .refl
    · exact .refl

/-- Notes that fit into messages. -/
def NoteOk : Note → Prop
  | .ack c => c ≤ 0 ∧ -4095 ≤ c
  | .packet id mark payload => id < 2 ^ 32 ∧ mark < 2 ^ 32 ∧ payload.length ≤ 65531

theorem be32_append (n : Nat) (h : n < 2 ^ 32) (rest : List Byte) : be32 (bytes32 .big n ++ rest) 0 = some n := by
  have := num32_bytes32 .big n h
  unfold be32
  rw [← this]
  rfl

theorem noteBytes_is (e : Endian) {n : Note} (h : NoteOk n) : NoteIs e (noteBytes e n) n := by
  cases n with
  | ack c =>
    have hl : (noteBytes e (.ack c)).length = 36 := by
      simp only [noteBytes, List.length_append, replyBytes_length, zeros, List.length_replicate]
      cases e <;> rfl
    have h16 : ∀ i, i + 1 < 20 → num16 e (noteBytes e (.ack c)) i = num16 e (replyBytes e c) i := by
      intro i hi
      unfold num16 noteBytes
      have := replyBytes_length e c
      rw [List.getElem?_append_left (by omega), List.getElem?_append_left (by omega)]
    have h32 : num32 e (noteBytes e (.ack c)) 16 = num32 e (replyBytes e c) 16 := by
      unfold num32 noteBytes
      have := replyBytes_length e c
      rw [List.getElem?_append_left (by omega), List.getElem?_append_left (by omega), List.getElem?_append_left (by omega),
        List.getElem?_append_left (by omega)]
    obtain ⟨r1, r2, r3⟩ := replyBytes_is e h
    refine ⟨⟨by omega, by rw [h16 4 (by omega)]; exact r2, ?_⟩, by omega, ?_⟩
    · unfold numI32 at r3 ⊢
      rw [h32]; exact r3
    · rintro rfl
      refine ⟨28, ⟨hl, by rw [h16 4 (by omega)]; exact r2, ?_, ?_⟩, by decide, by decide⟩ <;> cases e <;> decide
  | packet id mark payload =>
    obtain ⟨h1, h2, h3⟩ := h
    have hb1 := be32_append id h1 [8, 0, 1]
    have hb3 := be32_append mark h2 []
    rw [List.append_nil] at hb3
    have l32 : ∀ e n, (bytes32 e n).length = 4 := by intro e n; cases e <;> rfl
    have l16 : ∀ e n, (bytes16 e n).length = 2 := by intro e n; cases e <;> rfl
    have hr : roundUp4 payload.length ≤ 65532 := by unfold roundUp4; omega
    refine ⟨_, _, ?_, ?_, rfl, ?_, ?_, ?_, ?_, ?_, ?_⟩
    · simp [l32, l16]
    · cases e <;> rfl
    · simp only [noteBytes, List.length_append, l32, l16, List.length_cons, List.length_nil, encodeAttrs, List.flatMap_append]
      have r7 : roundUp4 7 = 8 := rfl
      have r4 : roundUp4 4 = 4 := rfl
      split <;> split <;> simp [l32, r7, r4] <;> omega
    · intro a ha
      simp only [List.mem_append] at ha
      rcases ha with (ha | ha) | ha
      · simp only [List.mem_singleton] at ha; subst ha; simp [l32]
      · split at ha
        · cases ha
        · simp only [List.mem_singleton] at ha; subst ha; simp [l32]
      · split at ha
        · cases ha
        · simp only [List.mem_singleton] at ha; subst ha; exact ⟨by simp, h3⟩
    · intro a ha hk
      simp only [List.mem_append] at ha
      rcases ha with (ha | ha) | ha
      · simp only [List.mem_singleton] at ha; subst ha; simp [l32]
      · split at ha
        · cases ha
        · simp only [List.mem_singleton] at ha; subst ha; simp [l32]
      · split at ha
        · cases ha
        · simp only [List.mem_singleton] at ha; subst ha; simp at hk
    · by_cases hm : mark = 0 <;> by_cases hp : payload = [] <;> (simp [lastOf, hm, hp]; exact hb1)
    · by_cases hm : mark = 0 <;> by_cases hp : payload = [] <;> simp [lastOf, hm, hp, hb3]
    · by_cases hm : mark = 0 <;> by_cases hp : payload = [] <;> simp [lastOf, hm, hp]

/-- What holds in every state of this kernel. -/
structure KInv (tr : List (Ev QEv)) (s : KState) : Prop where
  owns : ∀ fd q, s.Owns fd q → fd ∈ openedIn tr
  inbox : ∀ fd, s.inbox fd ≠ [] → fd ∈ openedIn tr
  ok : ∀ fd, ∀ n ∈ s.inbox fd, NoteOk n

theorem openedIn_snoc {tr : List (Ev QEv)} {ev : Ev QEv} {fd : Nat} (h : fd ∈ openedIn tr) : fd ∈ openedIn (tr ++ [ev]) := by
  unfold openedIn at *
  rw [List.filterMap_append]
  exact List.mem_append_left _ h

theorem KInv.come {tr : List (Ev QEv)} {s : KState} (h : KInv tr s) (x : Nat × Pkt) : KInv tr (s.come x) := by
  unfold KState.come
  split
  · rename_i k hk
    split
    · rename_i hc
      obtain ⟨_, _, c3, c4, c5, c6, c7⟩ := hc
      have hb : ∀ fd, ∀ n ∈ (s.arrive x.1 k x.2).inbox fd, n ∈ s.inbox fd ∨
          (k.owner = .sock fd ∧ n = .packet x.2.id x.2.mark (x.2.data.take k.range)) := by
        intro fd n hn
        by_cases ho : k.owner = .sock fd
        · rw [arrive_inbox_of ho] at hn
          rcases List.mem_append.mp hn with hn | hn
          · exact .inl hn
          · exact .inr ⟨ho, by simpa using hn⟩
        · rw [arrive_inbox_other ho] at hn
          exact .inl hn
      refine ⟨fun fd q ho => h.owns fd q ?_, fun fd hn => ?_, fun fd n hn => ?_⟩
      · obtain ⟨y, hy, hyo⟩ := ho
        rw [arrive_queues] at hy
        by_cases hq : q = x.1
        · subst hq
          rw [setQueue_same] at hy
          cases hy
          exact ⟨k, hk, hyo⟩
        · rw [setQueue_other _ _ hq] at hy
          exact ⟨y, hy, hyo⟩
      · obtain ⟨n, hn'⟩ := List.exists_mem_of_ne_nil _ hn
        rcases hb fd n hn' with h1 | ⟨h1, _⟩
        · exact h.inbox fd (List.ne_nil_of_mem h1)
        · exact h.owns fd x.1 ⟨k, hk, h1⟩
      · rcases hb fd n hn with h1 | ⟨_, rfl⟩
        · exact h.ok fd n h1
        · refine ⟨c3, c4, ?_⟩
          rw [List.length_take]
          omega
    · exact h
  · exact h

theorem KInv.comes {tr : List (Ev QEv)} (l : List (Nat × Pkt)) : ∀ {s : KState}, KInv tr s → KInv tr (l.foldl KState.come s) := by
  induction l with
  | nil => intro s h; exact h
  | cons x l ih => intro s h; exact ih (h.come x)

theorem config_codes (s : KState) (fd : Nat) (m : NfMsg) : (s.config fd m).1 ≤ 0 ∧ -4095 ≤ (s.config fd m).1 := by
  unfold KState.config
  simp only
  split
  · constructor <;> simp
  · split
    · split
      · constructor <;> simp
      · split
        · constructor <;> simp
        · split
          · constructor <;> simp
          · split <;> constructor <;> simp
    · split
      · constructor <;> simp
      · split
        · constructor <;> simp
        · split <;> constructor <;> simp

theorem verdict_codes (s : KState) (fd : Nat) (m : NfMsg) : (s.verdict fd m).1 ≤ 0 ∧ -4095 ≤ (s.verdict fd m).1 := by
  unfold KState.verdict
  split
  · constructor <;> simp
  · split
    · constructor <;> simp
    · split
      · split
        · constructor <;> simp
        · split <;> constructor <;> simp
      · constructor <;> simp

theorem serve_codes (s : KState) (e : Endian) (fd : Nat) (b : List Byte) : (s.serve e fd b).1 ≤ 0 ∧ -4095 ≤ (s.serve e fd b).1 := by
  unfold KState.serve
  split
  · split
    · exact config_codes _ _ _
    · split
      · exact verdict_codes _ _ _
      · constructor <;> simp
  · constructor <;> simp

theorem tune_owner (k : KQueue) (as : List Attr) : (k.tune as).owner = k.owner := by
  have : ∀ mode range, (k.setMode mode range).owner = k.owner := by
    intro mode range
    unfold KQueue.setMode
    split
    · rfl
    · split <;> rfl
  unfold KQueue.tune
  simp only
  split
  · split
    · exact this _ _
    · rfl
  · split
    · exact this _ _
    · rfl

theorem setQueue_owns {s : KState} {q fd : Nat} {v : Option KQueue} (hv : ∀ k, v = some k → k.owner = .sock fd) {fd' q' : Nat}
    (h : (s.setQueue q v).Owns fd' q') : fd' = fd ∨ s.Owns fd' q' := by
  obtain ⟨k, hk, ho⟩ := h
  by_cases hq : q' = q
  · subst hq
    rw [setQueue_same] at hk
    rw [hv k hk] at ho
    cases ho
    exact .inl rfl
  · rw [setQueue_other _ _ hq] at hk
    exact .inr ⟨k, hk, ho⟩

theorem serve_owns {s : KState} {e : Endian} {fd : Nat} {b : List Byte} {fd' q' : Nat} (h : (s.serve e fd b).2.Owns fd' q') :
    fd' = fd ∨ s.Owns fd' q' := by
  have hc : ∀ m, (s.config fd m).2.Owns fd' q' → fd' = fd ∨ s.Owns fd' q' := by
    intro m h
    unfold KState.config at h
    simp only at h
    split at h
    · exact .inr h
    · split at h
      · rename_i k _
        split at h
        · exact .inr h
        · rename_i ho
          simp only [ne_eq, Decidable.not_not] at ho
          split at h
          · exact setQueue_owns (by intro k' hk'; cases hk'; rw [tune_owner]; exact ho) h
          · split at h
            · exact .inr h
            · split at h
              · exact setQueue_owns (fd := fd) (v := none) (by intro k' hk'; cases hk') h
              · exact .inr h
      · split at h
        · exact .inr h
        · split at h
          · exact setQueue_owns (by intro k' hk'; cases hk'; rw [tune_owner]; rfl) h
          · split at h <;> exact .inr h
  have hv : ∀ m, (s.verdict fd m).2.Owns fd' q' → fd' = fd ∨ s.Owns fd' q' := by
    intro m h
    unfold KState.verdict at h
    split at h
    · exact .inr h
    · rename_i k _
      split at h
      · exact .inr h
      · rename_i ho
        simp only [ne_eq, Decidable.not_not] at ho
        split at h
        · split at h
          · exact .inr h
          · split at h
            · exact .inr h
            · exact setQueue_owns (v := some { k with waiting := _ }) (by intro k' hk'; cases hk'; exact ho) h
        · exact .inr h
  unfold KState.serve at h
  split at h
  · split at h
    · exact hc _ h
    · split at h
      · exact hv _ h
      · exact .inr h
  · exact .inr h

theorem KInv.handed {tr : List (Ev QEv)} {s : KState} (h : KInv tr s) (e : Endian) (ev : Ev QEv) {fd : Nat} {b : List Byte}
    (hfd : fd ∈ openedIn tr) : KInv (tr ++ [ev]) ((s.serve e fd b).2.answer e fd b (s.serve e fd b).1) := by
  have hb : ∀ fd', ∀ n ∈ ((s.serve e fd b).2.answer e fd b (s.serve e fd b).1).inbox fd', n ∈ s.inbox fd' ∨ (fd' = fd ∧ NoteOk n) := by
    intro fd' n hn
    unfold KState.answer at hn
    split at hn
    · by_cases hf : fd' = fd
      · subst hf
        rw [setInbox_same, serve_inbox] at hn
        rcases List.mem_append.mp hn with hn | hn
        · exact .inl hn
        · simp only [List.mem_singleton] at hn
          subst hn
          exact .inr ⟨rfl, serve_codes s e fd' b⟩
      · rw [setInbox_other _ _ hf, serve_inbox] at hn
        exact .inl hn
    · rw [serve_inbox] at hn
      exact .inl hn
  refine ⟨fun fd' q ho => openedIn_snoc ?_, fun fd' hn => openedIn_snoc ?_, fun fd' n hn => ?_⟩
  · have : (s.serve e fd b).2.Owns fd' q := by
      unfold KState.Owns at *
      rw [answer_queues] at ho
      exact ho
    rcases serve_owns this with rfl | h1
    · exact hfd
    · exact h.owns fd' q h1
  · obtain ⟨n, hn'⟩ := List.exists_mem_of_ne_nil _ hn
    rcases hb fd' n hn' with h1 | ⟨rfl, _⟩
    · exact h.inbox fd' (List.ne_nil_of_mem h1)
    · exact hfd
  · rcases hb fd' n hn with h1 | ⟨_, h1⟩
    · exact h.ok fd' n h1
    · exact h1

theorem KInv.snoc {tr : List (Ev QEv)} {s : KState} (h : KInv tr s) (ev : Ev QEv) : KInv (tr ++ [ev]) s :=
  ⟨fun fd q ho => openedIn_snoc (h.owns fd q ho), fun fd hn => openedIn_snoc (h.inbox fd hn), h.ok⟩

theorem KInv.release {tr : List (Ev QEv)} {s : KState} (h : KInv tr s) (fd : Nat) : KInv tr (s.release fd) := by
  have hsub : ∀ fd', ∀ n ∈ (s.release fd).inbox fd', n ∈ s.inbox fd' := by
    intro fd' n hn
    unfold KState.release at hn
    simp only at hn
    split at hn
    · cases hn
    · exact hn
  refine ⟨fun fd' q ho => h.owns fd' q ?_, fun fd' hn => ?_, fun fd' n hn => h.ok fd' n (hsub fd' n hn)⟩
  · obtain ⟨k, hk, hko⟩ := ho
    unfold KState.release at hk
    simp only [Option.filter_eq_some_iff] at hk
    exact ⟨k, hk.1, hko⟩
  · obtain ⟨n, hn'⟩ := List.exists_mem_of_ne_nil _ hn
    exact h.inbox fd' (List.ne_nil_of_mem (hsub fd' n hn'))

theorem KInv.popped {tr : List (Ev QEv)} {s : KState} (h : KInv tr s) (fd : Nat) : KInv tr (s.setInbox fd ((s.inbox fd).drop 1)) := by
  have hsub : ∀ fd', ∀ n ∈ (s.setInbox fd ((s.inbox fd).drop 1)).inbox fd', n ∈ s.inbox fd' := by
    intro fd' n hn
    by_cases hf : fd' = fd
    · subst hf
      rw [setInbox_same] at hn
      exact List.mem_of_mem_drop hn
    · rw [setInbox_other _ _ hf] at hn
      exact hn
  refine ⟨h.owns, fun fd' hn => ?_, fun fd' n hn => h.ok fd' n (hsub fd' n hn)⟩
  obtain ⟨n, hn'⟩ := List.exists_mem_of_ne_nil _ hn
  exact h.inbox fd' (List.ne_nil_of_mem (hsub fd' n hn'))

theorem KInv.after {tr : List (Ev QEv)} {s : KState} (h : KInv tr s) (e : Endian) (ev : Ev QEv) :
    KInv (tr ++ [ev]) (s.after e (openedIn tr) ev) := by
  unfold KState.after
  split
  · exact (h.release _).snoc _
  · exact (h.popped _).snoc _
  · split
    · split
      · rename_i hfd
        exact h.handed e _ hfd
      · exact h.snoc _
    · exact h.snoc _

theorem snoc_ind {α : Type} {P : List α → Prop} (h0 : P []) (h1 : ∀ l x, P l → P (l ++ [x])) : ∀ l, P l := by
  intro l
  suffices h : ∀ r : List α, P r.reverse by simpa using h l.reverse
  intro r
  induction r with
  | nil => exact h0
  | cons x r ih => rw [List.reverse_cons]; exact h1 _ _ ih

/-- A state in which no queue is ours and nothing lies in our sockets. -/
def Untouched (s : KState) : Prop := (∀ fd q, ¬ s.Owns fd q) ∧ ∀ fd, s.inbox fd = []

theorem stateAfter_inv (e : Endian) {s0 : KState} (h0 : Untouched s0) (script : List (Ev QEv) → List (Nat × Pkt)) :
    ∀ tr, KInv tr (stateAfter e s0 script tr) := by
  refine snoc_ind ?_ ?_
  · exact ⟨fun fd q ho => absurd ho (h0.1 fd q), fun fd hn => absurd (h0.2 fd) hn, fun fd n hn => by
      have : (stateAfter e s0 script []).inbox fd = [] := h0.2 fd
      rw [this] at hn; cases hn⟩
  · intro tr ev ih
    rw [stateAfter_snoc]
    exact (ih.after e ev).comes _

theorem foldr_max_le (l : List Nat) : ∀ x ∈ l, x ≤ l.foldr max 2 := by
  induction l with
  | nil => intro x hx; cases hx
  | cons y l ih =>
    intro x hx
    rw [List.foldr_cons]
    rcases List.mem_cons.mp hx with rfl | hx
    · exact Nat.le_max_left _ _
    · exact Nat.le_trans (ih x hx) (Nat.le_max_right _ _)

theorem freshFd_new (tr : List (Ev QEv)) : freshFd tr ∉ openedIn tr := by
  intro h
  have := foldr_max_le _ _ h
  unfold freshFd at this
  omega

/-- It keeps queues. -/
theorem queueKernel_keeps (e : Endian) {s0 : KState} (h0 : Untouched s0) (script : List (Ev QEv) → List (Nat × Pkt)) (F : Nat → Prop) :
    Keeps e F (queueKernel e s0 script) (stateAfter e s0 script) := by
  intro tr ev ha
  have hinv := stateAfter_inv e h0 script tr
  rw [stateAfter_snoc]
  suffices h : ∃ s2, KStep e F (stateAfter e s0 script tr) ev s2 ∧ s2 = (stateAfter e s0 script tr).after e (openedIn tr) ev by
    obtain ⟨s2, h1, rfl⟩ := h
    exact ⟨_, _, .refl, h1, come_meanwhile F _ _⟩
  have hdef : ∀ fd, (queueKernel e s0 script).recv tr fd = match (stateAfter e s0 script tr).inbox fd with
    | n :: _ => .ok (noteBytes e n)
    | [] => .error 11 := fun _ => rfl
  generalize stateAfter e s0 script tr = s at *
  cases ev with
  | socket d t p r =>
    have : r = .ok (freshFd tr) := ha
    subst this
    exact ⟨s, .opened (fun q ho => freshFd_new tr (hinv.owns _ q ho)) (by
      cases hi : s.inbox (freshFd tr) with
      | nil => rfl
      | cons n l => exact absurd (hinv.inbox _ (by rw [hi]; simp)) (freshFd_new tr)), rfl⟩
  | bind fd r => exact ⟨s, .silent rfl, rfl⟩
  | setsockopt fd l o v r => exact ⟨s, .silent rfl, rfl⟩
  | linger fd r => exact ⟨s, .silent rfl, rfl⟩
  | close fd r => exact ⟨_, .closed, rfl⟩
  | app a => exact ⟨s, .silent rfl, rfl⟩
  | sendto fd b f r =>
    have hr : r = if fd ∈ openedIn tr then none else some 9 := ha
    by_cases hfd : fd ∈ openedIn tr
    · rw [if_pos hfd] at hr
      subst hr
      refine ⟨_, .handed rfl .refl, ?_⟩
      simp [KState.after, handedOver, hfd]
    · rw [if_neg hfd] at hr
      subst hr
      exact ⟨s, .silent rfl, rfl⟩
  | sendmsg fd b r =>
    have hr : r = if fd ∈ openedIn tr then none else some 9 := ha
    by_cases hfd : fd ∈ openedIn tr
    · rw [if_pos hfd] at hr
      subst hr
      refine ⟨_, .handed rfl .refl, ?_⟩
      simp [KState.after, handedOver, hfd]
    · rw [if_neg hfd] at hr
      subst hr
      exact ⟨s, .silent rfl, rfl⟩
  | recvfrom fd size f r =>
    have hr : r = (match s.inbox fd with
      | n :: _ => Except.ok (noteBytes e n)
      | [] => Except.error 11).map (fun d : List Byte => d.take size) := by rw [← hdef]; exact ha
    cases hi : s.inbox fd with
    | nil =>
      rw [hi] at hr
      subst hr
      exact ⟨s, .silent rfl, rfl⟩
    | cons n l =>
      rw [hi] at hr
      subst hr
      refine ⟨_, .received hi (noteBytes_is e (hinv.ok fd n (by rw [hi]; simp))), ?_⟩
      simp [KState.after, Except.map, hi]

/-- Its calls do not fail. -/
theorem queueKernel_healthy (e : Endian) (s0 : KState) (script : List (Ev QEv) → List (Nat × Pkt)) :
    Healthy (queueKernel e s0 script) (stateAfter e s0 script) where
  socket tr := ⟨_, rfl⟩
  bind _ _ := rfl
  send tr fd b h := by
    obtain ⟨d, t, p, h⟩ := h
    have : fd ∈ openedIn tr := List.mem_filterMap.mpr ⟨_, h, rfl⟩
    exact if_pos this
  recv tr fd h := by
    cases hi : (stateAfter e s0 script tr).inbox fd with
    | nil => exact absurd hi h
    | cons n l => exact ⟨noteBytes e n, by simp only [queueKernel, hi]⟩

end Verif.NfQueue
