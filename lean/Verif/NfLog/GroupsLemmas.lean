import Verif.NfLog.Groups
import Verif.NfLog.Config
/-! Lemmas about kernels that keep log groups. -/
namespace Verif.NfLog
open Sys Spec
variable {e : Endian} {F : Nat → Prop}

/-- The configuration of a group: the group without what it has collected. -/
def KGroup.conf (k : KGroup) : KGroup := { k with batch := [] }

/-- The configuration of group `g`, if it exists. -/
def KState.conf (s : KState) (g : Nat) : Option KGroup := (s.groups g).map KGroup.conf

/-- A history, step by step. -/
inductive Run (e : Endian) (F : Nat → Prop) : KState → List (Ev LEv) → KState → Prop
  | nil {s s'} : Meanwhile F s s' → Run e F s [] s'
  | cons {s s1 s2 s' ev evs} : Meanwhile F s s1 → KStep e F s1 ev s2 → Run e F s2 evs s' → Run e F s (ev :: evs) s'

theorem Meanwhile.trans {a b c : KState} (h : Meanwhile F a b) (h' : Meanwhile F b c) : Meanwhile F a c := by
  induction h' with
  | refl => exact h
  | tail _ st ih => exact .tail ih st

theorem Run.before {a b c : KState} {evs : List (Ev LEv)} (h : Meanwhile F a b) (h' : Run e F b evs c) : Run e F a evs c := by
  cases h' with
  | nil h1 => exact .nil (h.trans h1)
  | cons h1 h2 h3 => exact .cons (h.trans h1) h2 h3

theorem Run.of_genuine {K : Kernel LEv} {st : List (Ev LEv) → KState} (hK : Keeps e F K st) :
    ∀ {evs tr}, Genuine K tr evs → Run e F (st tr) evs (st (tr ++ evs)) := by
  intro evs
  induction evs with
  | nil => intro tr _; simpa using Run.nil .refl
  | cons ev evs ih =>
    intro tr h
    cases h with
    | cons h1 h2 =>
      obtain ⟨s1, s2, a, b, c⟩ := hK tr ev h1
      have := ih h2
      rw [List.append_assoc] at this
      exact .cons a b (this.before c)

theorem Run.split {b : List (Ev LEv)} : ∀ {a : List (Ev LEv)} {s s' : KState}, Run e F s (a ++ b) s' → ∃ t, Run e F s a t ∧ Run e F t b s' := by
  intro a
  induction a with
  | nil => intro s s' h; exact ⟨s, .nil .refl, h⟩
  | cons ev a ih =>
    intro s s' h
    cases h with
    | cons h1 h2 h3 =>
      obtain ⟨t, h4, h5⟩ := ih h3
      exact ⟨t, .cons h1 h2 h4, h5⟩

theorem Run.meanwhile {a b : KState} (h : Run e F a [] b) : Meanwhile F a b := by
  cases h with
  | nil h => exact h

theorem KStep.of_silent {a b : KState} {ev : Ev LEv} (h : KStep e F a ev b) (hs : Silent ev) : b = a := by
  cases h with
  | handed h _ => cases ev <;> simp_all [Silent, handedOver]
  | received _ _ => exact hs.elim
  | opened _ _ => exact hs.elim
  | closed => exact hs.elim
  | silent _ => rfl

theorem Run.of_silent : ∀ {evs : List (Ev LEv)} {a b : KState}, Run e F a evs b → (∀ ev ∈ evs, Silent ev) → Meanwhile F a b := by
  intro evs
  induction evs with
  | nil => intro a b h _; exact h.meanwhile
  | cons ev evs ih =>
    intro a b h hs
    cases h with
    | cons h1 h2 h3 =>
      rw [h2.of_silent (hs ev (by simp))] at h3
      exact h1.trans (ih h3 fun x hx => hs x (by simp [hx]))

/-! ### What happens without us -/

@[simp] theorem setGroup_same (s : KState) (g : Nat) (v : Option KGroup) : (s.setGroup g v).groups g = v := by simp [KState.setGroup]
theorem setGroup_other (s : KState) {g g' : Nat} (v : Option KGroup) (h : g' ≠ g) : (s.setGroup g v).groups g' = s.groups g' := by
  simp [KState.setGroup, h]
@[simp] theorem setGroup_inbox (s : KState) (g : Nat) (v : Option KGroup) : (s.setGroup g v).inbox = s.inbox := rfl
@[simp] theorem setGroup_logged (s : KState) (g : Nat) (v : Option KGroup) : (s.setGroup g v).logged = s.logged := rfl
@[simp] theorem setInbox_groups (s : KState) (fd : Nat) (l : List Note) : (s.setInbox fd l).groups = s.groups := rfl
@[simp] theorem setInbox_logged (s : KState) (fd : Nat) (l : List Note) : (s.setInbox fd l).logged = s.logged := rfl
@[simp] theorem setInbox_same (s : KState) (fd : Nat) (l : List Note) : (s.setInbox fd l).inbox fd = l := by simp [KState.setInbox]
theorem setInbox_other (s : KState) {fd fd' : Nat} (l : List Note) (h : fd' ≠ fd) : (s.setInbox fd l).inbox fd' = s.inbox fd' := by
  simp [KState.setInbox, h]

@[simp] theorem log_groups (s : KState) (g : Nat) (k : KGroup) (pfx : Option (List Byte)) (p : List Byte) :
    (s.log g k pfx p).groups = (s.setGroup g (some { k with batch := k.batch ++ [⟨g, pfx, p, k.range⟩] })).groups := rfl
@[simp] theorem log_inbox (s : KState) (g : Nat) (k : KGroup) (pfx : Option (List Byte)) (p : List Byte) :
    (s.log g k pfx p).inbox = s.inbox := rfl
@[simp] theorem log_logged (s : KState) (g : Nat) (k : KGroup) (pfx : Option (List Byte)) (p : List Byte) :
    (s.log g k pfx p).logged = s.logged ++ [⟨g, pfx, p, k.range⟩] := rfl

@[simp] theorem flush_groups (s : KState) (g : Nat) (k : KGroup) :
    (s.flush g k).groups = (s.setGroup g (some { k with batch := [] })).groups := by
  unfold KState.flush
  cases k.owner <;> rfl
@[simp] theorem flush_logged (s : KState) (g : Nat) (k : KGroup) : (s.flush g k).logged = s.logged := by
  unfold KState.flush
  cases k.owner <;> rfl
theorem flush_inbox_of {s : KState} {g fd : Nat} {k : KGroup} (h : k.owner = .sock fd) :
    (s.flush g k).inbox fd = s.inbox fd ++ [.logs k.batch] := by
  unfold KState.flush
  rw [h]
  simp
theorem flush_inbox_other {s : KState} {g fd : Nat} {k : KGroup} (h : k.owner ≠ .sock fd) : (s.flush g k).inbox fd = s.inbox fd := by
  unfold KState.flush
  cases ho : k.owner with
  | sock fd' =>
    have : fd ≠ fd' := by intro hc; subst hc; exact h ho
    simp [KState.setInbox, this]
  | other n => rfl

theorem Owns.of_eq {s s' : KState} {fd g : Nat} (h : s'.groups g = s.groups g) : s'.Owns fd g ↔ s.Owns fd g := by
  unfold KState.Owns; rw [h]

theorem Owns.set {s s' : KState} {g0 : Nat} {k k' : KGroup} (hk : s.groups g0 = some k) (ho : k'.owner = k.owner)
    (he : s'.groups = (s.setGroup g0 (some k')).groups) (fd g : Nat) : s'.Owns fd g ↔ s.Owns fd g := by
  unfold KState.Owns
  rw [he]
  by_cases hg : g = g0
  · subst hg; simp [hk, ho]
  · rw [setGroup_other _ _ hg]

theorem conf_set {s s' : KState} {g0 : Nat} {k k' : KGroup} (hk : s.groups g0 = some k) (ho : k'.conf = k.conf)
    (he : s'.groups = (s.setGroup g0 (some k')).groups) (g : Nat) : s'.conf g = s.conf g := by
  unfold KState.conf
  rw [he]
  by_cases hg : g = g0
  · subst hg; simp [hk, ho]
  · rw [setGroup_other _ _ hg]

theorem Env1.owns {s s' : KState} (h : Env1 F s s') (fd g : Nat) : s'.Owns fd g ↔ s.Owns fd g := by
  cases h with
  | @log g0 k pfx p hk => exact Owns.set (k' := { k with batch := k.batch ++ [⟨g0, pfx, p, k.range⟩] }) hk rfl (log_groups _ _ _ _ _) fd g
  | @flush g0 k hk _ => exact Owns.set (k' := { k with batch := [] }) hk rfl (flush_groups _ _ _) fd g
  | others _ _ hq =>
    unfold KState.Owns
    rcases hq g with h | ⟨_, h1, h2⟩
    · rw [h]
    · constructor
      · rintro ⟨k, hk, ho⟩
        rw [hk] at h2
        obtain ⟨n, hn⟩ := h2
        rw [ho] at hn; cases hn
      · rintro ⟨k, hk, ho⟩
        rw [hk] at h1
        obtain ⟨n, hn⟩ := h1
        rw [ho] at hn; cases hn

theorem Meanwhile.owns {s s' : KState} (h : Meanwhile F s s') (fd g : Nat) : s'.Owns fd g ↔ s.Owns fd g := by
  induction h with
  | refl => exact Iff.rfl
  | tail _ h ih => exact (h.owns fd g).trans ih

theorem Env1.conf {s s' : KState} (h : Env1 F s s') {g : Nat} (hg : ¬ F g ∨ ∃ fd, s.Owns fd g) : s'.conf g = s.conf g := by
  cases h with
  | @log g0 k pfx p hk => exact conf_set (k' := { k with batch := k.batch ++ [⟨g0, pfx, p, k.range⟩] }) hk rfl (log_groups _ _ _ _ _) g
  | @flush g0 k hk _ => exact conf_set (k' := { k with batch := [] }) hk rfl (flush_groups _ _ _) g
  | others _ _ hgs =>
    unfold KState.conf
    rcases hgs g with h | ⟨h0, h1, h2⟩
    · rw [h]
    · rcases hg with hg | ⟨fd, k, hk, ho⟩
      · exact absurd h0 hg
      · rw [hk] at h1
        obtain ⟨n, hn⟩ := h1
        rw [ho] at hn; cases hn

theorem Meanwhile.conf {s s' : KState} (h : Meanwhile F s s') {g : Nat} (hg : ¬ F g ∨ ∃ fd, s.Owns fd g) : s'.conf g = s.conf g := by
  induction h with
  | refl => rfl
  | tail h1 h ih =>
    rw [h.conf ?_, ih]
    rcases hg with hg | ⟨fd, hg⟩
    · exact .inl hg
    · exact .inr ⟨fd, (h1.owns fd g).mpr hg⟩

theorem conf_none {s : KState} {g : Nat} : s.conf g = none ↔ s.groups g = none := by
  unfold KState.conf
  cases s.groups g <;> simp

theorem conf_parts {k c : KGroup} (h : k.conf = c.conf) : k.owner = c.owner ∧ k.mode = c.mode ∧ k.range = c.range := by
  cases k; cases c
  simp_all [KGroup.conf]

/-- The acknowledgements and errors that lie in a socket. -/
def codesOf (l : List Note) : List Int := l.filterMap fun | .ack c => some c | .logs _ => none

/-- The entries that lie in a socket. -/
def entriesOf (l : List Note) : List Entry := l.flatMap fun | .ack _ => [] | .logs l => l

@[simp] theorem codesOf_nil : codesOf [] = [] := rfl
@[simp] theorem entriesOf_nil : entriesOf [] = [] := rfl
@[simp] theorem codesOf_append (a b : List Note) : codesOf (a ++ b) = codesOf a ++ codesOf b := by simp [codesOf]
@[simp] theorem entriesOf_append (a b : List Note) : entriesOf (a ++ b) = entriesOf a ++ entriesOf b := by simp [entriesOf]
@[simp] theorem codesOf_ack (c : Int) (l : List Note) : codesOf (.ack c :: l) = c :: codesOf l := rfl
@[simp] theorem codesOf_logs (x : List Entry) (l : List Note) : codesOf (.logs x :: l) = codesOf l := rfl
@[simp] theorem entriesOf_ack (c : Int) (l : List Note) : entriesOf (.ack c :: l) = entriesOf l := rfl
@[simp] theorem entriesOf_logs (x : List Entry) (l : List Note) : entriesOf (.logs x :: l) = x ++ entriesOf l := rfl

theorem Env1.codes {s s' : KState} (h : Env1 F s s') (fd : Nat) : codesOf (s'.inbox fd) = codesOf (s.inbox fd) := by
  cases h with
  | log => rfl
  | @flush g k hk _ =>
    by_cases ho : k.owner = .sock fd
    · rw [flush_inbox_of ho]; simp
    · rw [flush_inbox_other ho]
  | others h1 _ _ => rw [h1]

theorem Meanwhile.codes {s s' : KState} (h : Meanwhile F s s') (fd : Nat) : codesOf (s'.inbox fd) = codesOf (s.inbox fd) := by
  induction h with
  | refl => rfl
  | tail _ h ih => rw [h.codes, ih]

theorem Env1.inbox_grows {s s' : KState} (h : Env1 F s s') (fd : Nat) : ∃ l, s'.inbox fd = s.inbox fd ++ l := by
  cases h with
  | log => exact ⟨[], by simp⟩
  | @flush g k hk _ =>
    by_cases ho : k.owner = .sock fd
    · exact ⟨_, flush_inbox_of ho⟩
    · exact ⟨[], by rw [flush_inbox_other ho]; simp⟩
  | others h1 _ _ => exact ⟨[], by rw [h1]; simp⟩

theorem Meanwhile.inbox_grows {s s' : KState} (h : Meanwhile F s s') (fd : Nat) : ∃ l, s'.inbox fd = s.inbox fd ++ l := by
  induction h with
  | refl => exact ⟨[], by simp⟩
  | tail _ h ih =>
    obtain ⟨a, ha⟩ := ih
    obtain ⟨b, hb⟩ := h.inbox_grows fd
    exact ⟨a ++ b, by rw [hb, ha]; simp⟩

/-! ### Entries: what was logged to our groups -/

/-- What was logged to group `g`. -/
def KState.loggedTo (s : KState) (g : Nat) : List Entry := s.logged.filter fun x => decide (x.group = g)

/-- What group `g` of socket `fd` has collected and not yet sent. -/
def KState.batchOf (s : KState) (fd g : Nat) : List Entry :=
  match s.groups g with
  | some k => if k.owner = .sock fd then k.batch else []
  | none => []

/-- What was logged to group `g` of socket `fd` and is still to be received: it lies in the socket or is collected. -/
def KState.pending (s : KState) (fd g : Nat) : List Entry :=
  ((entriesOf (s.inbox fd)).filter fun x => decide (x.group = g)) ++ s.batchOf fd g

/-- The groups of socket `fd` have collected only entries of theirs. -/
def Tidy (fd : Nat) (s : KState) : Prop := ∀ g k, s.groups g = some k → k.owner = .sock fd → ∀ x ∈ k.batch, x.group = g

/-- Group `g` is ours, or free and used by no one else. -/
def Usable (F : Nat → Prop) (fd g : Nat) (s : KState) : Prop := s.Owns fd g ∨ (s.groups g = none ∧ ¬ F g)

/-- Group `g` is usable; since there were the entries `base`, `read` were received; all others logged to it are to be received. -/
structure Flow (F : Nat → Prop) (fd g : Nat) (base read : List Entry) (s : KState) : Prop where
  usable : Usable F fd g s
  flow : s.loggedTo g = base ++ (read.filter fun x => decide (x.group = g)) ++ s.pending fd g

theorem filter_all {l : List Entry} {g : Nat} (h : ∀ x ∈ l, x.group = g) : l.filter (fun x => decide (x.group = g)) = l :=
  List.filter_eq_self.mpr fun x hx => by simp [h x hx]

theorem filter_none {l : List Entry} {g g' : Nat} (h : ∀ x ∈ l, x.group = g') (hne : g' ≠ g) :
    l.filter (fun x => decide (x.group = g)) = [] :=
  List.filter_eq_nil_iff.mpr fun x hx => by simp [h x hx, hne]

theorem Env1.tidy {s s' : KState} (h : Env1 F s s') {fd : Nat} (ht : Tidy fd s) : Tidy fd s' := by
  intro g k' hk' ho'
  cases h with
  | @log g0 k pfx p hk =>
    rw [log_groups] at hk'
    by_cases hg : g = g0
    · subst hg
      simp only [setGroup_same, Option.some.injEq] at hk'
      subst hk'
      intro x hx
      rcases List.mem_append.mp hx with hx | hx
      · exact ht g k hk ho' x hx
      · simp only [List.mem_cons, List.not_mem_nil, or_false] at hx; subst hx; rfl
    · rw [setGroup_other _ _ hg] at hk'
      exact ht g k' hk' ho'
  | @flush g0 k hk _ =>
    rw [flush_groups] at hk'
    by_cases hg : g = g0
    · subst hg
      simp only [setGroup_same, Option.some.injEq] at hk'
      subst hk'
      intro x hx; cases hx
    · rw [setGroup_other _ _ hg] at hk'
      exact ht g k' hk' ho'
  | others _ _ hq =>
    rcases hq g with h | ⟨_, _, h2⟩
    · rw [h] at hk'; exact ht g k' hk' ho'
    · rw [hk'] at h2
      obtain ⟨n, hn⟩ := h2
      rw [ho'] at hn; cases hn

theorem Meanwhile.tidy {s s' : KState} (h : Meanwhile F s s') {fd : Nat} (ht : Tidy fd s) : Tidy fd s' := by
  induction h with
  | refl => exact ht
  | tail _ h ih => exact h.tidy ih

theorem Env1.usable {s s' : KState} (h : Env1 F s s') {fd g : Nat} (hu : Usable F fd g s) : Usable F fd g s' := by
  rcases hu with hu | ⟨hu, hF⟩
  · exact .inl ((h.owns fd g).mpr hu)
  · refine .inr ⟨?_, hF⟩
    rw [← conf_none, h.conf (.inl hF), conf_none]; exact hu

theorem Meanwhile.usable {s s' : KState} (h : Meanwhile F s s') {fd g : Nat} (hu : Usable F fd g s) : Usable F fd g s' := by
  induction h with
  | refl => exact hu
  | tail _ h ih => exact h.usable ih

/-- What is received and to be received is what was logged. -/
theorem Env1.flows {s s' : KState} (h : Env1 F s s') {fd g : Nat} (ht : Tidy fd s) (hu : Usable F fd g s) :
    ∃ l, s'.loggedTo g = s.loggedTo g ++ l ∧ s'.pending fd g = s.pending fd g ++ l := by
  cases h with
  | @log g0 k pfx p hk =>
    by_cases hg : g = g0
    · subst hg
      rcases hu with ⟨k', hk', ho⟩ | ⟨hu, _⟩
      · rw [hk] at hk'; cases hk'
        refine ⟨[⟨g, pfx, p, k.range⟩], ?_, ?_⟩
        · simp [KState.loggedTo]
        · simp [KState.pending, KState.batchOf, ho, hk]
      · rw [hk] at hu; cases hu
    · refine ⟨[], ?_, ?_⟩
      · simp [KState.loggedTo, Ne.symm hg]
      · simp [KState.pending, KState.batchOf, setGroup_other _ _ hg]
  | @flush g0 k hk _ =>
    refine ⟨[], ?_, ?_⟩
    · simp [KState.loggedTo]
    · by_cases ho : k.owner = .sock fd
      · by_cases hg : g = g0
        · subst hg
          simp [KState.pending, KState.batchOf, flush_inbox_of ho, ho, hk, filter_all (ht g k hk ho)]
        · simp [KState.pending, KState.batchOf, flush_inbox_of ho, setGroup_other _ _ hg, filter_none (ht g0 k hk ho) (Ne.symm hg)]
      · by_cases hg : g = g0
        · subst hg
          simp [KState.pending, KState.batchOf, flush_inbox_other ho, hk, ho]
        · simp [KState.pending, KState.batchOf, flush_inbox_other ho, setGroup_other _ _ hg]
  | others h1 h2 hq =>
    refine ⟨[], ?_, ?_⟩
    · simp [KState.loggedTo, h2]
    · have : s'.groups g = s.groups g := by
        rcases hq g with h | ⟨h0, h, _⟩
        · exact h
        · rcases hu with ⟨k, hk, ho⟩ | ⟨_, hF⟩
          · rw [hk] at h
            obtain ⟨n, hn⟩ := h
            rw [ho] at hn; cases hn
          · exact absurd h0 hF
      simp [KState.pending, KState.batchOf, h1, this]

theorem Meanwhile.flows {s s' : KState} (h : Meanwhile F s s') {fd g : Nat} (ht : Tidy fd s) (hu : Usable F fd g s) :
    ∃ l, s'.loggedTo g = s.loggedTo g ++ l ∧ s'.pending fd g = s.pending fd g ++ l := by
  induction h with
  | refl => exact ⟨[], by simp, by simp⟩
  | tail h1 h ih =>
    obtain ⟨a, a1, a2⟩ := ih
    obtain ⟨b, b1, b2⟩ := h.flows (h1.tidy ht) (h1.usable hu)
    exact ⟨a ++ b, by rw [b1, a1]; simp, by rw [b2, a2]; simp⟩

theorem Meanwhile.flow {s s' : KState} (h : Meanwhile F s s') {fd g : Nat} {base read : List Entry} (ht : Tidy fd s)
    (hf : Flow F fd g base read s) : Flow F fd g base read s' := by
  obtain ⟨l, h1, h2⟩ := h.flows ht hf.usable
  refine ⟨h.usable hf.usable, ?_⟩
  rw [h1, h2, hf.flow]; simp

/-- The entries in the socket belong to groups of the socket. -/
def Sorted (fd : Nat) (s : KState) : Prop := ∀ x ∈ entriesOf (s.inbox fd), s.Owns fd x.group

theorem Env1.sorted {s s' : KState} (h : Env1 F s s') {fd : Nat} (ht : Tidy fd s) (hs : Sorted fd s) : Sorted fd s' := by
  intro x hx
  rw [h.owns]
  cases h with
  | log => exact hs x hx
  | @flush g k hk _ =>
    by_cases ho : k.owner = .sock fd
    · rw [flush_inbox_of ho] at hx
      simp only [entriesOf_append, entriesOf_logs, entriesOf_nil, List.append_nil, List.mem_append] at hx
      rcases hx with hx | hx
      · exact hs x hx
      · rw [ht g k hk ho x hx]; exact ⟨k, hk, ho⟩
    · rw [flush_inbox_other ho] at hx; exact hs x hx
  | others h1 _ _ => rw [h1] at hx; exact hs x hx

theorem Meanwhile.sorted {s s' : KState} (h : Meanwhile F s s') {fd : Nat} (ht : Tidy fd s) (hs : Sorted fd s) : Sorted fd s' := by
  induction h with
  | refl => exact hs
  | tail h1 h ih => exact h.sorted (h1.tidy ht) ih

/-! ### Serving the requests of the library -/

theorem Encodes.decoded {b : List Byte} {req : LReq} (h : Encodes e b req) :
    ∃ t p, req.AttrIs t p ∧ wantsAck e b = true ∧
      ∀ (s : KState) (fd : Nat), s.serve e fd b = s.config fd ⟨b.length, 4 * 256 + 1, 5, 0, 0, req.family, 0, req.group, [⟨t, false, p⟩]⟩ := by
  obtain ⟨t, p, h1, h2⟩ := h
  refine ⟨t, p, h2, ?_, ?_⟩
  · unfold wantsAck; rw [h1]; simp
  · intro s fd
    unfold KState.serve
    rw [h1]; rfl

theorem Encodes.answered {b : List Byte} {req : LReq} (h : Encodes e b req) (s : KState) (fd : Nat) (c : Int) :
    s.answer e fd b c = s.setInbox fd (s.inbox fd ++ [.ack c]) := by
  obtain ⟨_, _, _, hw, _⟩ := h.decoded
  unfold KState.answer
  rw [hw]; simp

theorem attrOf_one (k t : Nat) (p : List Byte) : attrOf k [⟨t, false, p⟩] = if t = k then some p else none := by
  unfold attrOf
  by_cases h : t = k <;> simp [h]

theorem serve_bind {b : List Byte} {g : Nat} (h : Encodes e b (.bindGroup g)) (s : KState) (fd : Nat) :
    s.serve e fd b = match s.groups g with
      | some k => (if k.owner ≠ .sock fd then -1 else -16, s)
      | none => (0, s.setGroup g (some (KGroup.new fd))) := by
  obtain ⟨t, p, h1, _, h2⟩ := h.decoded
  rw [h2]
  obtain ⟨rfl, hc⟩ := h1
  rw [Option.map_eq_some_iff] at hc
  obtain ⟨x, hx, hc⟩ := hc
  simp only [KState.config, attrOf_one, LReq.group]
  cases hq : s.groups g with
  | some k => by_cases ho : k.owner = .sock fd <;> simp [hx, hc, ho]
  | none => simp [hx, hc, KGroup.tune, attrOf_one]

theorem serve_mode {b : List Byte} {g range : Nat} (h : Encodes e b (.copyPacket g range)) (s : KState) (fd : Nat) :
    s.serve e fd b = match s.groups g with
      | some k => if k.owner ≠ .sock fd then (-1, s) else (0, s.setGroup g (some { k with mode := 2, range := clip range }))
      | none => (-19, s) := by
  obtain ⟨t, p, h1, _, h2⟩ := h.decoded
  rw [h2]
  obtain ⟨rfl, hr, hm⟩ := h1
  simp only [KState.config, attrOf_one, LReq.group]
  rw [Option.map_eq_some_iff] at hm
  obtain ⟨x, hx, hm⟩ := hm
  cases hq : s.groups g with
  | some k =>
    by_cases ho : k.owner = .sock fd
    · simp [ho, KGroup.tune, attrOf_one, hr, hx, KGroup.setMode, hm]
    · simp [ho]
  | none => simp

/-- Sending: what was sent is served and answered. -/
theorem Run.sent {fd : Nat} {b : List Byte} {evs : List (Ev LEv)} {s s' : KState} (h : SendEvs fd b none evs) (hr : Run e F s evs s') :
    ∃ s1 s2, Meanwhile F s s1 ∧ Meanwhile F (s1.serve e fd b).2 s2 ∧ Meanwhile F (s2.answer e fd b (s1.serve e fd b).1) s' := by
  have one : ∀ {t}, Run e F t [.sendto fd b 0 none] s' →
      ∃ s1 s2, Meanwhile F t s1 ∧ Meanwhile F (s1.serve e fd b).2 s2 ∧ Meanwhile F (s2.answer e fd b (s1.serve e fd b).1) s' := by
    intro t ht
    cases ht with
    | cons h1 h2 h3 =>
      cases h2 with
      | handed ha hb => simp only [handedOver, Option.some.injEq, Prod.mk.injEq] at ha; obtain ⟨rfl, rfl⟩ := ha; exact ⟨_, _, h1, hb, h3.meanwhile⟩
      | silent hs => simp [Silent, handedOver] at hs
  rcases h with ⟨_, rfl⟩ | ⟨e1, rfl⟩
  · exact one hr
  · cases hr with
    | cons h1 h2 h3 =>
      rw [h2.of_silent (by simp [Silent, handedOver])] at h3
      obtain ⟨s1, s2, a, b, c⟩ := one h3
      exact ⟨s1, s2, h1.trans a, b, c⟩

/-- Receiving. -/
theorem Run.got {fd size flags : Nat} {d : List Byte} {s s' : KState} (hr : Run e F s [.recvfrom fd size flags (.ok d)] s') :
    ∃ s1 n rest d', Meanwhile F s s1 ∧ s1.inbox fd = n :: rest ∧ NoteIs e d' n ∧ d = d'.take size ∧ Meanwhile F (s1.setInbox fd rest) s' := by
  cases hr with
  | cons h1 h2 h3 =>
    cases h2 with
    | handed ha _ => simp [handedOver] at ha
    | received ha hb => exact ⟨_, _, _, _, h1, ha, hb, rfl, h3.meanwhile⟩
    | silent hs => exact hs.elim

/-- Opening a socket. -/
theorem Run.opened {d t p fd : Nat} {s s' : KState} (h : Run e F s [.socket d t p (.ok fd)] s') :
    ∃ s1, Meanwhile F s s1 ∧ (∀ g, ¬ s1.Owns fd g) ∧ s1.inbox fd = [] ∧ Meanwhile F s1 s' := by
  cases h with
  | cons h1 h2 h3 =>
    cases h2 with
    | handed ha _ => simp [handedOver] at ha
    | opened ha hb => exact ⟨_, h1, ha, hb, h3.meanwhile⟩
    | silent hs => exact hs.elim

/-- Closing a socket. -/
theorem Run.closes {fd : Nat} {evs : List (Ev LEv)} {s s' : KState} (hc : CloseEvs fd evs) (h : Run e F s evs s') :
    ∃ s1 s2, Meanwhile F s s1 ∧ Meanwhile F (s1.release fd) s2 ∧ (s' = s2 ∨ Meanwhile F (s2.release fd) s') := by
  rcases hc with rfl | ⟨e1, r, rfl⟩
  · cases h with
    | cons h1 h2 h3 =>
      cases h2 with
      | handed ha _ => simp [handedOver] at ha
      | closed => exact ⟨_, _, h1, h3.meanwhile, .inl rfl⟩
      | silent hs => exact hs.elim
  · cases h with
    | cons h1 h2 h3 =>
      cases h2 with
      | handed ha _ => simp [handedOver] at ha
      | silent hs => exact hs.elim
      | closed =>
        cases h3 with
        | cons h4 h5 h6 =>
          cases h5 with
          | handed ha _ => simp [handedOver] at ha
          | silent hs => exact hs.elim
          | closed => exact ⟨_, _, h1, h4, .inr h6.meanwhile⟩

theorem bind_silent {fd : Nat} {r : Option Nat} {evs : List (Ev LEv)} (h : BindEvs fd r evs) : ∀ ev ∈ evs, Silent ev := by
  unfold BindEvs at h
  rcases h with ⟨_, rfl⟩ | ⟨_, rfl⟩ <;> simp [Silent, handedOver]

theorem opt_silent {fd : Nat} {evs : List (Ev LEv)} (h : OptEvs fd evs) : ∀ ev ∈ evs, Silent ev := by
  intro ev hev
  obtain ⟨_, rfl⟩ := SetOpt.mem h ev hev
  simp [Silent, handedOver]

theorem release_conf (s : KState) (fd g : Nat) : (s.release fd).conf g = (s.conf g).filter fun k => decide (k.owner ≠ .sock fd) := by
  unfold KState.conf KState.release
  simp only
  cases s.groups g with
  | none => rfl
  | some k => by_cases h : k.owner = .sock fd <;> simp [Option.filter, h, KGroup.conf]

theorem release_owns (s : KState) (fd g : Nat) : ¬ (s.release fd).Owns fd g := by
  rintro ⟨k, hk, ho⟩
  unfold KState.release at hk
  simp only [Option.filter_eq_some_iff] at hk
  simp [ho] at hk

end Verif.NfLog
