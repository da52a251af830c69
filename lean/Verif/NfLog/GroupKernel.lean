import Verif.NfLog.Boot
/-!
Kernels that keep log groups exist: for every initial state in which none of the groups is ours, and every script saying what is logged and sent
when, there is one that does exactly what Groups.lean says and whose calls do not fail.
-/
namespace Verif.NfLog
open Sys Spec

/-- The descriptors given out in a history. -/
def openedIn (tr : List (Ev LEv)) : List Nat := tr.filterMap fun
  | .socket _ _ _ (.ok fd) => some fd
  | _ => none

/-- A descriptor not given out before. -/
def freshFd (tr : List (Ev LEv)) : Nat := (openedIn tr).foldr max 2 + 1

/-- A packet is logged to a group, or what a group has collected is sent. -/
inductive Act where
  | log (g : Nat) (pfx : Option (List Byte)) (packet : List Byte)
  | flush (g : Nat)

/-- A message for an entry. -/
def entryBytes (e : Endian) (r : Entry) : List Byte :=
  msgBytes e 0x400 (List.replicate 10 0) (([2, 0] ++ bytes16 .big r.group) ++ encodeAttrs e ((r.pfx.toList.map fun p => (10, p ++ [0])) ++
    if r.packet.take r.range = [] then [] else [(9, r.packet.take r.range)]))

/-- The bytes of a code. -/
def codeBytes (e : Endian) (code : Int) : List Byte := bytes32 e (if code < 0 then (code + 4294967296).toNat else code.toNat)

/-- A datagram for a note. -/
def noteBytes (e : Endian) : Note → List Byte
  | .ack code => msgBytes e 2 (List.replicate 10 0) (codeBytes e code ++ (bytes32 e 28 ++ List.replicate 12 0))
  | .logs l => l.flatMap (entryBytes e) ++ if 1 < l.length then msgBytes e 3 (List.replicate 10 0) [0, 0, 0, 0] else []

/-- Notes that fit into datagrams. -/
def NoteOk (e : Endian) : Note → Prop
  | .ack c => c ≤ 0 ∧ -4095 ≤ c
  | .logs l => l ≠ [] ∧ (∀ r ∈ l, r.group < 65536 ∧ r.range ≤ 65531 ∧ r.pfx.elim 0 List.length ≤ 65530) ∧ (noteBytes e (.logs l)).length < 65536

instance (e : Endian) (n : Note) : Decidable (NoteOk e n) := by
  cases n <;> (unfold NoteOk; infer_instance)

/-- It happens, if it may. -/
def KState.act (e : Endian) (s : KState) : Act → KState
  | .log g pfx packet => match s.groups g with
    | some k => if NoteOk e (.logs (k.batch ++ [⟨g, pfx, packet, k.range⟩])) then s.log g k pfx packet else s
    | none => s
  | .flush g => match s.groups g with
    | some k => if k.batch = [] then s else s.flush g k
    | none => s

/-- What an event does. -/
def KState.after (s : KState) (e : Endian) (opened : List Nat) (ev : Ev LEv) : KState :=
  match ev with
  | .close fd _ => s.release fd
  | .recvfrom fd _ _ (.ok _) => s.setInbox fd ((s.inbox fd).drop 1)
  | ev => match handedOver ev with
    | some (fd, b) => if fd ∈ opened then (s.serve e fd b).2.answer e fd b (s.serve e fd b).1 else s
    | none => s

/-- The history so far and the state: one more event, then what the script says. -/
def advance (e : Endian) (script : List (Ev LEv) → List Act) (p : List (Ev LEv) × KState) (ev : Ev LEv) : List (Ev LEv) × KState :=
  (p.1 ++ [ev], (script (p.1 ++ [ev])).foldl (KState.act e) (p.2.after e (openedIn p.1) ev))

/-- The state after a history. -/
def stateAfter (e : Endian) (s0 : KState) (script : List (Ev LEv) → List Act) (tr : List (Ev LEv)) : KState :=
  (tr.foldl (advance e script) ([], s0)).2

/-- The kernel. -/
def groupKernel (e : Endian) (s0 : KState) (script : List (Ev LEv) → List Act) : Kernel LEv where
  socket := fun tr => .ok (freshFd tr)
  bind := fun _ _ => none
  setsockopt := fun _ _ => none
  close := fun _ _ => none
  send := fun tr fd _ => if fd ∈ openedIn tr then none else some 9
  recv := fun tr fd => match (stateAfter e s0 script tr).inbox fd with
    | n :: _ => .ok (noteBytes e n)
    | [] => .error 11

theorem history_fst (e : Endian) (script : List (Ev LEv) → List Act) (tr : List (Ev LEv)) :
    ∀ p : List (Ev LEv) × KState, (tr.foldl (advance e script) p).1 = p.1 ++ tr := by
  induction tr with
  | nil => intro p; simp
  | cons ev tr ih => intro p; rw [List.foldl_cons, ih]; simp [advance]

theorem stateAfter_snoc (e : Endian) (s0 : KState) (script : List (Ev LEv) → List Act) (tr : List (Ev LEv)) (ev : Ev LEv) :
    stateAfter e s0 script (tr ++ [ev]) =
      (script (tr ++ [ev])).foldl (KState.act e) ((stateAfter e s0 script tr).after e (openedIn tr) ev) := by
  unfold stateAfter
  rw [List.foldl_append, List.foldl_cons, List.foldl_nil]
  have := history_fst e script tr ([], s0)
  simp only [List.nil_append] at this
  simp only [advance, this]

theorem act_meanwhile (e : Endian) (F : Nat → Prop) (l : List Act) : ∀ s : KState, Meanwhile F s (l.foldl (KState.act e) s) := by
  induction l with
  | nil => intro s; exact .refl
  | cons x l ih =>
    intro s
    rw [List.foldl_cons]
    refine Meanwhile.trans ?_ (ih _)
    cases x with
    | log g pfx packet =>
      simp only [KState.act]
      split
      · rename_i k hk
        split
        · exact .tail .refl (.log hk)
        · exact .refl
      · exact .refl
    | flush g =>
      simp only [KState.act]
      split
      · rename_i k hk
        split
        · exact .refl
        · rename_i hb
          exact .tail .refl (.flush hk hb)
      · exact .refl

theorem entryBytes_is (e : Endian) {r : Entry} (h : r.group < 65536 ∧ r.range ≤ 65531 ∧ r.pfx.elim 0 List.length ≤ 65530) :
    EntryIs e (entryBytes e r) r := by
  obtain ⟨h1, h2, h3⟩ := h
  refine ⟨List.replicate 10 0, [2, 0] ++ bytes16 .big r.group, r.pfx.toList.map fun p => (10, p ++ [0]), by simp, by simp [bytes16], ?_, ?_, ?_,
    ?_, rfl⟩
  · unfold be16 num16
    simp only [bytes16, List.cons_append, List.nil_append, List.getElem?_cons_zero, List.getElem?_cons_succ, BitVec.toNat_ofNat]
    rw [Option.some.injEq]; omega
  · intro a ha
    cases hp : r.pfx with
    | none => rw [hp] at ha; cases ha
    | some p =>
      rw [hp] at ha h3
      simp only [Option.toList, List.map_cons, List.map_nil, List.mem_singleton] at ha
      subst ha
      simp only [Option.elim] at h3
      simp; omega
  · intro a ha _
    cases hp : r.pfx with
    | none => rw [hp] at ha; cases ha
    | some p =>
      rw [hp] at ha
      simp only [Option.toList, List.map_cons, List.map_nil, List.mem_singleton] at ha
      subst ha
      exact ⟨p, rfl, rfl⟩
  · intro p hp
    rw [hp]; simp

theorem numI32_code (e : Endian) {c : Int} (h : c ≤ 0 ∧ -4095 ≤ c) (rest : List Byte) : numI32 e (codeBytes e c ++ rest) 0 = some c := by
  have hn : (if c < 0 then (c + 4294967296).toNat else c.toNat) < 2 ^ 32 := by split <;> omega
  have hs : signed32 (if c < 0 then (c + 4294967296).toNat else c.toNat) = c := by
    unfold signed32
    split <;> split <;> omega
  unfold codeBytes numI32
  generalize (if c < 0 then (c + 4294967296).toNat else c.toNat) = v at hn hs
  have : num32 e (bytes32 e v ++ rest) 0 = num32 e (bytes32 e v) 0 := by cases e <;> rfl
  rw [this, num32_bytes32 e v hn, Option.map_some, hs]

theorem noteBytes_is (e : Endian) {n : Note} (h : NoteOk e n) : NoteIs e (noteBytes e n) n := by
  cases n with
  | ack c =>
    refine ⟨List.replicate 10 0, codeBytes e c ++ (bytes32 e 28 ++ List.replicate 12 0), by simp, ?_, numI32_code e h _, rfl, ?_⟩
    · cases e <;> simp [codeBytes, bytes32]
    · rw [noteBytes, length_msgBytes (by simp)]
      cases e <;> simp [codeBytes, bytes32]
  | logs l =>
    obtain ⟨h1, h2, h3⟩ := h
    refine ⟨h1, l.flatMap (entryBytes e), ?_, h3, List.replicate 10 0, [0, 0, 0, 0], by simp, by simp, rfl⟩
    clear h1 h3
    induction l with
    | nil => exact .nil
    | cons r l ih =>
      rw [List.flatMap_cons]
      exact .cons (entryBytes_is e (h2 r (by simp))) (ih fun x hx => h2 x (by simp [hx]))

/-- What holds in every state of this kernel. -/
structure KInv (e : Endian) (tr : List (Ev LEv)) (s : KState) : Prop where
  owns : ∀ fd g, s.Owns fd g → fd ∈ openedIn tr
  inbox : ∀ fd, s.inbox fd ≠ [] → fd ∈ openedIn tr
  ok : ∀ fd, ∀ n ∈ s.inbox fd, NoteOk e n
  batch : ∀ g k fd, s.groups g = some k → k.owner = .sock fd → k.batch ≠ [] → NoteOk e (.logs k.batch)

theorem openedIn_snoc {tr : List (Ev LEv)} {ev : Ev LEv} {fd : Nat} (h : fd ∈ openedIn tr) : fd ∈ openedIn (tr ++ [ev]) := by
  unfold openedIn at *
  rw [List.filterMap_append]
  exact List.mem_append_left _ h

variable {e : Endian}

/-- Changing one group keeps it, if the group stays with its owner and its entries are in order. -/
theorem KInv.set {tr : List (Ev LEv)} {s s' : KState} (h : KInv e tr s) {g0 : Nat} {k' : KGroup}
    (hg : s'.groups = (s.setGroup g0 (some k')).groups) (hfd : ∀ fd, k'.owner = .sock fd → fd ∈ openedIn tr)
    (hb : ∀ fd, k'.owner = .sock fd → k'.batch ≠ [] → NoteOk e (.logs k'.batch))
    (hin : ∀ fd, ∀ n ∈ s'.inbox fd, n ∈ s.inbox fd ∨ (fd ∈ openedIn tr ∧ NoteOk e n)) : KInv e tr s' := by
  refine ⟨fun fd g ho => ?_, fun fd hn => ?_, fun fd n hn => ?_, fun g k fd hk ho hne => ?_⟩
  · obtain ⟨k, hk, ho⟩ := ho
    rw [hg] at hk
    by_cases hq : g = g0
    · subst hq
      rw [setGroup_same] at hk
      cases hk
      exact hfd fd ho
    · rw [setGroup_other _ _ hq] at hk
      exact h.owns fd g ⟨k, hk, ho⟩
  · obtain ⟨n, hn'⟩ := List.exists_mem_of_ne_nil _ hn
    rcases hin fd n hn' with h1 | ⟨h1, _⟩
    · exact h.inbox fd (List.ne_nil_of_mem h1)
    · exact h1
  · rcases hin fd n hn with h1 | ⟨_, h1⟩
    · exact h.ok fd n h1
    · exact h1
  · rw [hg] at hk
    by_cases hq : g = g0
    · subst hq
      rw [setGroup_same] at hk
      cases hk
      exact hb fd ho hne
    · rw [setGroup_other _ _ hq] at hk
      exact h.batch g k fd hk ho hne

theorem KInv.act {tr : List (Ev LEv)} {s : KState} (h : KInv e tr s) (x : Act) : KInv e tr (s.act e x) := by
  cases x with
  | log g pfx packet =>
    simp only [KState.act]
    split
    · rename_i k hk
      split
      · rename_i hc
        exact h.set (log_groups s g k pfx packet) (fun fd ho => h.owns fd g ⟨k, hk, ho⟩) (fun fd _ _ => hc) (fun fd n hn => .inl hn)
      · exact h
    · exact h
  | flush g =>
    simp only [KState.act]
    split
    · rename_i k hk
      split
      · exact h
      · rename_i hb
        refine h.set (flush_groups s g k) (fun fd ho => h.owns fd g ⟨k, hk, ho⟩) (fun fd _ hc => absurd rfl hc) (fun fd n hn => ?_)
        by_cases ho : k.owner = .sock fd
        · rw [flush_inbox_of ho] at hn
          rcases List.mem_append.mp hn with hn | hn
          · exact .inl hn
          · simp only [List.mem_singleton] at hn
            subst hn
            exact .inr ⟨h.owns fd g ⟨k, hk, ho⟩, h.batch g k fd hk ho hb⟩
        · rw [flush_inbox_other ho] at hn
          exact .inl hn
    · exact h

theorem KInv.acts {tr : List (Ev LEv)} (l : List Act) : ∀ {s : KState}, KInv e tr s → KInv e tr (l.foldl (KState.act e) s) := by
  induction l with
  | nil => intro s h; exact h
  | cons x l ih => intro s h; exact ih (h.act x)

theorem tune_same (k : KGroup) (as : List Attr) : (k.tune as).owner = k.owner ∧ (k.tune as).batch = k.batch := by
  unfold KGroup.tune
  split
  · unfold KGroup.setMode
    split
    · exact ⟨rfl, rfl⟩
    · split <;> exact ⟨rfl, rfl⟩
  · exact ⟨rfl, rfl⟩

theorem KInv.config {tr : List (Ev LEv)} {s : KState} (h : KInv e tr s) {fd : Nat} (hfd : fd ∈ openedIn tr) (m : NfMsg) :
    KInv e tr (s.config fd m).2 ∧ (s.config fd m).1 ≤ 0 ∧ -4095 ≤ (s.config fd m).1 := by
  unfold KState.config
  simp only
  split
  · exact ⟨h, by simp, by simp⟩
  · split
    · rename_i k hk
      split
      · exact ⟨h, by simp, by simp⟩
      · rename_i ho
        simp only [ne_eq, Decidable.not_not] at ho
        split
        · refine ⟨h.set rfl (fun fd' ho' => ?_) (fun fd' _ hb => ?_) (fun fd' n hn => .inl hn), by simp, by simp⟩
          · rw [(tune_same k m.attrs).1, ho] at ho'
            cases ho'
            exact hfd
          · rw [(tune_same k m.attrs).2] at hb ⊢
            exact h.batch _ k fd hk ho hb
        · split
          · exact ⟨h, by simp, by simp⟩
          · split
            · refine ⟨⟨fun fd' g ho' => ?_, fun fd' hn => ?_, fun fd' n hn => ?_, fun g k' fd' hk' ho' hb => ?_⟩, by simp, by simp⟩
              · obtain ⟨k', hk', ho'⟩ := ho'
                rw [setInbox_groups] at hk'
                by_cases hq : g = m.resId
                · subst hq
                  rw [setGroup_same] at hk'
                  cases hk'
                · rw [setGroup_other _ _ hq] at hk'
                  exact h.owns fd' g ⟨k', hk', ho'⟩
              · by_cases hf : fd' = fd
                · subst hf; exact hfd
                · rw [setInbox_other _ _ hf] at hn
                  exact h.inbox fd' hn
              · by_cases hf : fd' = fd
                · subst hf
                  rw [setInbox_same] at hn
                  rcases List.mem_append.mp hn with hn | hn
                  · exact h.ok fd' n hn
                  · split at hn
                    · cases hn
                    · rename_i hb
                      simp only [List.mem_singleton] at hn
                      subst hn
                      exact h.batch _ k fd' hk ho hb
                · rw [setInbox_other _ _ hf] at hn
                  exact h.ok fd' n hn
              · rw [setInbox_groups] at hk'
                by_cases hq : g = m.resId
                · subst hq
                  rw [setGroup_same] at hk'
                  cases hk'
                · rw [setGroup_other _ _ hq] at hk'
                  exact h.batch g k' fd' hk' ho' hb
            · exact ⟨h, by simp, by simp⟩
    · split
      · exact ⟨h, by simp, by simp⟩
      · split
        · refine ⟨h.set rfl (fun fd' ho' => ?_) (fun fd' _ hb => ?_) (fun fd' n hn => .inl hn), by simp, by simp⟩
          · rw [(tune_same _ m.attrs).1] at ho'
            cases ho'
            exact hfd
          · rw [(tune_same _ m.attrs).2] at hb
            exact absurd rfl hb
        · split <;> exact ⟨h, by simp, by simp⟩

theorem KInv.serve {tr : List (Ev LEv)} {s : KState} (h : KInv e tr s) {fd : Nat} (hfd : fd ∈ openedIn tr) (b : List Byte) :
    KInv e tr (s.serve e fd b).2 ∧ (s.serve e fd b).1 ≤ 0 ∧ -4095 ≤ (s.serve e fd b).1 := by
  unfold KState.serve
  split
  · split
    · exact h.config hfd _
    · exact ⟨h, by simp, by simp⟩
  · exact ⟨h, by simp, by simp⟩

theorem KInv.answer {tr : List (Ev LEv)} {s : KState} (h : KInv e tr s) {fd : Nat} (hfd : fd ∈ openedIn tr) (b : List Byte) {c : Int}
    (hc : c ≤ 0 ∧ -4095 ≤ c) : KInv e tr (s.answer e fd b c) := by
  unfold KState.answer
  split
  · refine ⟨h.owns, fun fd' hn => ?_, fun fd' n hn => ?_, h.batch⟩
    · by_cases hf : fd' = fd
      · subst hf; exact hfd
      · rw [setInbox_other _ _ hf] at hn
        exact h.inbox fd' hn
    · by_cases hf : fd' = fd
      · subst hf
        rw [setInbox_same] at hn
        rcases List.mem_append.mp hn with hn | hn
        · exact h.ok fd' n hn
        · simp only [List.mem_singleton] at hn
          subst hn
          exact hc
      · rw [setInbox_other _ _ hf] at hn
        exact h.ok fd' n hn
  · exact h

theorem KInv.snoc {tr : List (Ev LEv)} {s : KState} (h : KInv e tr s) (ev : Ev LEv) : KInv e (tr ++ [ev]) s :=
  ⟨fun fd g ho => openedIn_snoc (h.owns fd g ho), fun fd hn => openedIn_snoc (h.inbox fd hn), h.ok, h.batch⟩

theorem KInv.release {tr : List (Ev LEv)} {s : KState} (h : KInv e tr s) (fd : Nat) : KInv e tr (s.release fd) := by
  have hsub : ∀ fd', ∀ n ∈ (s.release fd).inbox fd', n ∈ s.inbox fd' := by
    intro fd' n hn
    unfold KState.release at hn
    simp only at hn
    split at hn
    · cases hn
    · exact hn
  have hgr : ∀ g k, (s.release fd).groups g = some k → s.groups g = some k := by
    intro g k hk
    unfold KState.release at hk
    simp only [Option.filter_eq_some_iff] at hk
    exact hk.1
  refine ⟨fun fd' g ho => ?_, fun fd' hn => ?_, fun fd' n hn => h.ok fd' n (hsub fd' n hn), fun g k fd' hk => h.batch g k fd' (hgr g k hk)⟩
  · obtain ⟨k, hk, hko⟩ := ho
    exact h.owns fd' g ⟨k, hgr g k hk, hko⟩
  · obtain ⟨n, hn'⟩ := List.exists_mem_of_ne_nil _ hn
    exact h.inbox fd' (List.ne_nil_of_mem (hsub fd' n hn'))

theorem KInv.popped {tr : List (Ev LEv)} {s : KState} (h : KInv e tr s) (fd : Nat) : KInv e tr (s.setInbox fd ((s.inbox fd).drop 1)) := by
  have hsub : ∀ fd', ∀ n ∈ (s.setInbox fd ((s.inbox fd).drop 1)).inbox fd', n ∈ s.inbox fd' := by
    intro fd' n hn
    by_cases hf : fd' = fd
    · subst hf
      rw [setInbox_same] at hn
      exact List.mem_of_mem_drop hn
    · rw [setInbox_other _ _ hf] at hn
      exact hn
  refine ⟨h.owns, fun fd' hn => ?_, fun fd' n hn => h.ok fd' n (hsub fd' n hn), h.batch⟩
  obtain ⟨n, hn'⟩ := List.exists_mem_of_ne_nil _ hn
  exact h.inbox fd' (List.ne_nil_of_mem (hsub fd' n hn'))

theorem KInv.after {tr : List (Ev LEv)} {s : KState} (h : KInv e tr s) (ev : Ev LEv) :
    KInv e (tr ++ [ev]) (s.after e (openedIn tr) ev) := by
  unfold KState.after
  split
  · exact (h.release _).snoc _
  · exact (h.popped _).snoc _
  · split
    · split
      · rename_i hfd
        obtain ⟨h1, h2⟩ := h.serve hfd _
        exact (h1.answer hfd _ h2).snoc _
      · exact h.snoc _
    · exact h.snoc _

theorem snoc_ind {α : Type} {P : List α → Prop} (h0 : P []) (h1 : ∀ l x, P l → P (l ++ [x])) : ∀ l, P l := by
  intro l
  suffices h : ∀ r : List α, P r.reverse by simpa using h l.reverse
  intro r
  induction r with
  | nil => exact h0
  | cons x r ih => rw [List.reverse_cons]; exact h1 _ _ ih

/-- A state in which no group is ours and nothing lies in our sockets. -/
def Untouched (s : KState) : Prop := (∀ fd g, ¬ s.Owns fd g) ∧ ∀ fd, s.inbox fd = []

theorem stateAfter_inv (e : Endian) {s0 : KState} (h0 : Untouched s0) (script : List (Ev LEv) → List Act) :
    ∀ tr, KInv e tr (stateAfter e s0 script tr) := by
  refine snoc_ind ?_ ?_
  · refine ⟨fun fd q ho => absurd ho (h0.1 fd q), fun fd hn => absurd (h0.2 fd) hn, fun fd n hn => ?_, fun g k fd hk ho _ => ?_⟩
    · have : (stateAfter e s0 script []).inbox fd = [] := h0.2 fd
      rw [this] at hn; cases hn
    · exact absurd ⟨k, hk, ho⟩ (h0.1 fd g)
  · intro tr ev ih
    rw [stateAfter_snoc]
    exact (ih.after ev).acts _

theorem foldr_max_le (l : List Nat) : ∀ x ∈ l, x ≤ l.foldr max 2 := by
  induction l with
  | nil => intro x hx; cases hx
  | cons y l ih =>
    intro x hx
    rw [List.foldr_cons]
    rcases List.mem_cons.mp hx with rfl | hx
    · exact Nat.le_max_left _ _
    · exact Nat.le_trans (ih x hx) (Nat.le_max_right _ _)

theorem freshFd_new (tr : List (Ev LEv)) : freshFd tr ∉ openedIn tr := by
  intro h
  have := foldr_max_le _ _ h
  unfold freshFd at this
  omega

/-- It keeps log groups. -/
theorem groupKernel_keeps (e : Endian) {s0 : KState} (h0 : Untouched s0) (script : List (Ev LEv) → List Act) (F : Nat → Prop) :
    Keeps e F (groupKernel e s0 script) (stateAfter e s0 script) := by
  intro tr ev ha
  have hinv := stateAfter_inv e h0 script tr
  rw [stateAfter_snoc]
  suffices h : ∃ s2, KStep e F (stateAfter e s0 script tr) ev s2 ∧ s2 = (stateAfter e s0 script tr).after e (openedIn tr) ev by
    obtain ⟨s2, h1, rfl⟩ := h
    exact ⟨_, _, .refl, h1, act_meanwhile e F _ _⟩
  have hdef : ∀ fd, (groupKernel e s0 script).recv tr fd = match (stateAfter e s0 script tr).inbox fd with
    | n :: _ => .ok (noteBytes e n)
    | [] => .error 11 := fun _ => rfl
  generalize stateAfter e s0 script tr = s at *
  cases ev with
  | socket d t p r =>
    have : r = .ok (freshFd tr) := ha
    subst this
    exact ⟨s, .opened (fun q ho => freshFd_new tr (hinv.owns _ q ho)) (by
      cases hi : s.inbox (freshFd tr) with
      | nil => rfl
      | cons n l => exact absurd (hinv.inbox _ (by rw [hi]; simp)) (freshFd_new tr)), rfl⟩
  | bind fd r => exact ⟨s, .silent rfl, rfl⟩
  | setsockopt fd l o v r => exact ⟨s, .silent rfl, rfl⟩
  | linger fd r => exact ⟨s, .silent rfl, rfl⟩
  | close fd r => exact ⟨_, .closed, rfl⟩
  | app a => exact ⟨s, .silent rfl, rfl⟩
  | sendto fd b f r =>
    have hr : r = if fd ∈ openedIn tr then none else some 9 := ha
    by_cases hfd : fd ∈ openedIn tr
    · rw [if_pos hfd] at hr
      subst hr
      refine ⟨_, .handed rfl .refl, ?_⟩
      simp [KState.after, handedOver, hfd]
    · rw [if_neg hfd] at hr
      subst hr
      exact ⟨s, .silent rfl, rfl⟩
  | sendmsg fd b r =>
    have hr : r = if fd ∈ openedIn tr then none else some 9 := ha
    by_cases hfd : fd ∈ openedIn tr
    · rw [if_pos hfd] at hr
      subst hr
      refine ⟨_, .handed rfl .refl, ?_⟩
      simp [KState.after, handedOver, hfd]
    · rw [if_neg hfd] at hr
      subst hr
      exact ⟨s, .silent rfl, rfl⟩
  | recvfrom fd size f r =>
    have hr : r = (match s.inbox fd with
      | n :: _ => Except.ok (noteBytes e n)
      | [] => Except.error 11).map (fun d : List Byte => d.take size) := by rw [← hdef]; exact ha
    cases hi : s.inbox fd with
    | nil =>
      rw [hi] at hr
      subst hr
      exact ⟨s, .silent rfl, rfl⟩
    | cons n l =>
      rw [hi] at hr
      subst hr
      refine ⟨_, .received hi (noteBytes_is e (hinv.ok fd n (by rw [hi]; simp))), ?_⟩
      simp [KState.after, Except.map, hi]

/-- Its calls do not fail. -/
theorem groupKernel_healthy (e : Endian) (s0 : KState) (script : List (Ev LEv) → List Act) :
    Healthy (groupKernel e s0 script) (stateAfter e s0 script) where
  socket tr := ⟨_, rfl⟩
  bind _ _ := rfl
  send tr fd b h := by
    obtain ⟨d, t, p, h⟩ := h
    have : fd ∈ openedIn tr := List.mem_filterMap.mpr ⟨_, h, rfl⟩
    exact if_pos this
  recv tr fd h := by
    cases hi : (stateAfter e s0 script tr).inbox fd with
    | nil => exact absurd hi h
    | cons n l => exact ⟨noteBytes e n, by simp only [groupKernel, hi]⟩

end Verif.NfLog
