import Verif.NfQueue.Tally
/-! What is done on one socket leaves the queue of another alone; and nothing that left a queue comes back. -/
namespace Verif.NfQueue
open Sys Spec
variable {e : Endian} {F : Nat → Prop} {fd fd' q : Nat}

/-- An event that means nothing to queues, or that is about descriptor `fd`. -/
def EvOn (fd : Nat) : Ev QEv → Prop
  | .socket _ _ _ (.ok f) => f = fd
  | .recvfrom f _ _ (.ok _) => f = fd
  | .close f _ => f = fd
  | ev => ∀ f b, handedOver ev = some (f, b) → f = fd

/-- An event that means nothing to queues, or that is about a descriptor other than `fd`. -/
def EvOff (fd : Nat) : Ev QEv → Prop
  | .socket _ _ _ (.ok f) => f ≠ fd
  | .recvfrom f _ _ (.ok _) => f ≠ fd
  | .close f _ => f ≠ fd
  | ev => ∀ f b, handedOver ev = some (f, b) → f ≠ fd

theorem EvOn.off {ev : Ev QEv} (h : EvOn fd' ev) (hne : fd' ≠ fd) : EvOff fd ev := by
  cases ev with
  | socket d t p r =>
    cases r with
    | ok f => rw [show f = fd' from h]; exact hne
    | error _ => intro f b hb; cases hb
  | recvfrom f s g r =>
    cases r with
    | ok _ => rw [show f = fd' from h]; exact hne
    | error _ => intro f b hb; cases hb
  | close f r => rw [show f = fd' from h]; exact hne
  | sendto f b g r => intro f' b' hb; rw [h f' b' hb]; exact hne
  | sendmsg f b r => intro f' b' hb; rw [h f' b' hb]; exact hne
  | _ => intro f b hb; cases hb

theorem EvOn.of_silent {ev : Ev QEv} (h : Silent ev) : EvOn fd ev := by
  cases ev with
  | socket d t p r =>
    cases r with
    | ok _ => exact h.elim
    | error _ => intro f b hb; cases hb
  | recvfrom f s g r =>
    cases r with
    | ok _ => exact h.elim
    | error _ => intro f b hb; cases hb
  | close f r => exact h.elim
  | sendto f b g r =>
    intro f' b' hb
    rw [show handedOver (.sendto f b g r) = none from h] at hb; cases hb
  | sendmsg f b r =>
    intro f' b' hb
    rw [show handedOver (.sendmsg f b r) = none from h] at hb; cases hb
  | _ => intro f b hb; cases hb

theorem EvOff.of_silent {ev : Ev QEv} (h : Silent ev) : EvOff fd ev :=
  EvOn.off (fd' := fd + 1) (.of_silent h) (by omega)

/-- An event handing something over on another descriptor. -/
theorem EvOff.handed {ev : Ev QEv} {f : Nat} {b : List Byte} (h : EvOff fd ev) (hb : handedOver ev = some (f, b)) : f ≠ fd := by
  cases ev with
  | sendto f1 b1 g r => exact h _ _ hb
  | sendmsg f1 b1 r => exact h _ _ hb
  | _ => cases hb

/-- Queue `q` of socket `fd`, what lies in the socket, what came to the queue and left it, are the same; and the socket has no new
queues. -/
structure SameFor (fd q : Nat) (s s' : KState) : Prop where
  queue : s'.queues q = s.queues q
  owns : ∀ q', s'.Owns fd q' → s.Owns fd q'
  inbox : s'.inbox fd = s.inbox fd
  came : s'.came = s.came
  left : s'.leftFrom q = s.leftFrom q

theorem SameFor.refl (s : KState) : SameFor fd q s s := ⟨rfl, fun _ h => h, rfl, rfl, rfl⟩

theorem sock_ne (hne : fd' ≠ fd) : Owner.sock fd' ≠ .sock fd := by intro h; cases h; exact hne rfl

theorem SameFor.setInbox (hne : fd' ≠ fd) (s : KState) (l : List Note) : SameFor fd q s (s.setInbox fd' l) where
  queue := rfl
  owns _ h := h
  inbox := setInbox_other _ _ (Ne.symm hne)
  came := rfl
  left := rfl

/-- Another queue is replaced by one that is not the socket's. -/
theorem SameFor.setQueue {s : KState} {q0 : Nat} {v : Option KQueue} {l : List Gone} (h : q0 ≠ q) (hv : ∀ k, v = some k → k.owner ≠ .sock fd)
    (hl : ∀ g ∈ l, g.queue ≠ q) : SameFor fd q s { s.setQueue q0 v with out := s.out ++ l } where
  queue := setQueue_other _ _ (Ne.symm h)
  owns q' ho := by
    obtain ⟨k, hk, ho⟩ := ho
    have hk : (s.setQueue q0 v).queues q' = some k := hk
    by_cases hq : q' = q0
    · subst hq
      rw [setQueue_same] at hk
      exact absurd ho (hv k hk)
    · rw [setQueue_other _ _ hq] at hk
      exact ⟨k, hk, ho⟩
  inbox := rfl
  came := rfl
  left := by
    unfold KState.leftFrom
    have h0 : l.filter (fun g => decide (g.queue = q)) = [] := List.filter_eq_nil_iff.mpr (fun g hg => by simpa using hl g hg)
    show (s.out ++ l).filter _ = _
    rw [List.filter_append, h0, List.append_nil]

theorem setQueue_out (s : KState) (q0 : Nat) (v : Option KQueue) : s.setQueue q0 v = { s.setQueue q0 v with out := s.out ++ [] } := by
  simp [KState.setQueue]

theorem setMode_owner (k : KQueue) (a b : Nat) : (k.setMode a b).owner = k.owner := by
  unfold KQueue.setMode
  repeat' split
  all_goals rfl

theorem tune_owner (k : KQueue) (as : List Attr) : (k.tune as).owner = k.owner := by
  unfold KQueue.tune
  simp only
  repeat' split
  all_goals first | rfl | exact setMode_owner _ _ _

theorem flushed_queue {q0 : Nat} {k : KQueue} {g : Gone} (h : g ∈ flushed q0 k) : g.queue = q0 := by
  obtain ⟨p, _, rfl⟩ := List.mem_map.mp h
  rfl

theorem SameFor.config (hne : fd' ≠ fd) {s : KState} (hown : s.Owns fd q) (m : NfMsg) : SameFor fd q s (s.config fd' m).2 := by
  unfold KState.config
  simp only
  split
  · exact .refl s
  · cases hg : s.queues m.resId with
    | some k =>
      simp only
      split
      · exact .refl s
      · rename_i _ ho
        have ho : k.owner = .sock fd' := by
          rcases Decidable.em (k.owner = .sock fd') with h | h
          · exact h
          · exact absurd h ho
        have hq : m.resId ≠ q := by
          rintro rfl
          obtain ⟨k', hk', ho'⟩ := hown
          rw [hg] at hk'; cases hk'
          rw [ho] at ho'
          exact sock_ne hne ho'
        split
        · rw [setQueue_out]
          refine .setQueue hq (fun k' hk' => ?_) (by simp)
          cases hk'
          rw [tune_owner, ho]
          exact sock_ne hne
        · split
          · exact .refl s
          · split
            · refine .setQueue hq (by intro k hk; cases hk) (fun g hg => ?_)
              rw [flushed_queue hg]; exact hq
            · exact .refl s
    | none =>
      simp only
      have hq : m.resId ≠ q := by
        rintro rfl
        obtain ⟨k', hk', _⟩ := hown
        rw [hg] at hk'; cases hk'
      split
      · exact .refl s
      · split
        · rw [setQueue_out]
          refine .setQueue hq (fun k' hk' => ?_) (by simp)
          cases hk'
          rw [tune_owner]
          exact sock_ne hne
        · split
          · exact .refl s
          · exact .refl s

theorem SameFor.verdict (hne : fd' ≠ fd) {s : KState} (hown : s.Owns fd q) (m : NfMsg) : SameFor fd q s (s.verdict fd' m).2 := by
  unfold KState.verdict
  cases hg : s.queues m.resId with
  | none => exact .refl s
  | some k =>
    simp only
    split
    · exact .refl s
    · rename_i ho
      have ho : k.owner = .sock fd' := by
        rcases Decidable.em (k.owner = .sock fd') with h | h
        · exact h
        · exact absurd h ho
      have hq : m.resId ≠ q := by
        rintro rfl
        obtain ⟨k', hk', ho'⟩ := hown
        rw [hg] at hk'; cases hk'
        rw [ho] at ho'
        exact sock_ne hne ho'
      split
      · split
        · exact .refl s
        · split
          · exact .refl s
          · refine .setQueue hq (fun k' hk' => ?_) (fun g hg => ?_)
            · cases hk'
              show k.owner ≠ _
              rw [ho]
              exact sock_ne hne
            · simp only [List.mem_singleton] at hg
              subst hg
              exact hq
      · exact .refl s

theorem SameFor.serve (hne : fd' ≠ fd) {s : KState} (hown : s.Owns fd q) (b : List Byte) : SameFor fd q s (s.serve e fd' b).2 := by
  unfold KState.serve
  split
  · split
    · exact .config hne hown _
    · split
      · exact .verdict hne hown _
      · exact .refl s
  · exact .refl s

theorem SameFor.answer (hne : fd' ≠ fd) (s : KState) (b : List Byte) (c : Int) : SameFor fd q s (s.answer e fd' b c) := by
  unfold KState.answer
  split
  · exact .setInbox hne _ _
  · exact .refl s

theorem flush_left (s : KState) (fd q n : Nat) :
    ((List.range n).flatMap fun q => ((s.queues q).toList.filter fun k => decide (k.owner = .sock fd)).flatMap (flushed q)).filter
      (fun g => decide (g.queue = q)) = if q < n then ((s.queues q).toList.filter fun k => decide (k.owner = .sock fd)).flatMap (flushed q) else [] := by
  have hall : ∀ q', ∀ g ∈ ((s.queues q').toList.filter fun k => decide (k.owner = .sock fd)).flatMap (flushed q'), g.queue = q' := by
    intro q' g hg
    obtain ⟨k, _, hk⟩ := List.mem_flatMap.mp hg
    exact flushed_queue hk
  induction n with
  | zero => simp
  | succ n ih =>
    rw [List.range_succ, List.flatMap_append, List.filter_append, ih]
    simp only [List.flatMap_cons, List.flatMap_nil, List.append_nil]
    by_cases hq : q = n
    · subst hq
      rw [if_neg (by omega), if_pos (by omega), List.nil_append, List.filter_eq_self.mpr]
      intro g hg
      simpa using hall q g hg
    · have h0 : (((s.queues n).toList.filter fun k => decide (k.owner = .sock fd)).flatMap (flushed n)).filter (fun g => decide (g.queue = q)) = [] := by
        rw [List.filter_eq_nil_iff]
        intro g hg h
        exact hq ((of_decide_eq_true h).symm.trans (hall n g hg))
      rw [h0, List.append_nil]
      by_cases hlt : q < n
      · rw [if_pos hlt, if_pos (by omega)]
      · rw [if_neg hlt, if_neg (by omega)]

/-- What left queue `q` when socket `fd` is closed. -/
theorem release_left (s : KState) (fd q : Nat) :
    (s.release fd).leftFrom q = s.leftFrom q ++ (if q < 65536 then
      ((s.queues q).toList.filter fun k => decide (k.owner = .sock fd)).flatMap (flushed q) else []) := by
  rw [← flush_left]
  unfold KState.leftFrom KState.release
  rw [List.filter_append]

theorem SameFor.release (hne : fd' ≠ fd) {s : KState} (hown : s.Owns fd q) : SameFor fd q s (s.release fd') where
  queue := by
    obtain ⟨k, hk, ho⟩ := hown
    show (s.queues q).filter _ = _
    rw [hk]
    simp [Option.filter, ho, Ne.symm hne]
  owns q' h := by
    obtain ⟨k, hk, ho⟩ := h
    have hk' : (s.queues q').filter (fun k => decide (k.owner ≠ .sock fd')) = some k := hk
    rw [Option.filter_eq_some_iff] at hk'
    exact ⟨k, hk'.1, ho⟩
  inbox := by
    show (if fd = fd' then [] else s.inbox fd) = _
    rw [if_neg (Ne.symm hne)]
  came := rfl
  left := by
    obtain ⟨k, hk, ho⟩ := hown
    rw [release_left, hk]
    simp [ho, Ne.symm hne]

/-- What is kept while nothing is done on the socket is kept by what is done on another one. -/
theorem KStep.off {Q : KState → Prop} (ho : ∀ {s}, Q s → s.Owns fd q) (hm : ∀ {s s'}, Q s → Meanwhile F s s' → Q s')
    (hs : ∀ {s s'}, Q s → SameFor fd q s s' → Q s') {s s' : KState} {ev : Ev QEv} (h : KStep e F s ev s') (hev : EvOff fd ev) (hQ : Q s) : Q s' := by
  cases h with
  | @handed s1 _ f b hb hmw =>
    have hf := hev.handed hb
    exact hs (hm (hs hQ (.serve hf (ho hQ) b)) hmw) (.answer hf _ _ _)
  | received hin hn => exact hs hQ (.setInbox hev _ _)
  | opened _ _ => exact hQ
  | closed => exact hs hQ (.release hev (ho hQ))
  | silent _ => exact hQ

theorem Run.off {Q : KState → Prop} (ho : ∀ {s}, Q s → s.Owns fd q) (hm : ∀ {s s'}, Q s → Meanwhile F s s' → Q s')
    (hs : ∀ {s s'}, Q s → SameFor fd q s s' → Q s') : ∀ {evs : List (Ev QEv)} {s s' : KState}, Run e F s evs s' → (∀ ev ∈ evs, EvOff fd ev) → Q s → Q s' := by
  intro evs
  induction evs with
  | nil => intro s s' h _ hQ; exact hm hQ h.meanwhile
  | cons ev evs ih =>
    intro s s' h hev hQ
    cases h with
    | cons h1 h2 h3 => exact ih h3 (fun x hx => hev x (List.mem_cons_of_mem _ hx)) (h2.off ho hm hs (hev ev List.mem_cons_self) (hm hQ h1))

variable {acks : Nat} {c : KQueue} {came rest pend : List Pkt} {left : List Gone} {s s' : KState}

theorem Tally.owns (h : Tally fd q c came left rest pend acks s) (hc : c.owner = .sock fd) : s.Owns fd q := by
  obtain ⟨k, h1, h2, _⟩ := h.queue
  exact ⟨k, h1, by rw [(conf_parts h2).1, hc]⟩

theorem Tally.same (h : Tally fd q c came left rest pend acks s) (hs : SameFor fd q s s') : Tally fd q c came left rest pend acks s' := by
  refine ⟨by rw [hs.queue]; exact h.queue, fun q' hq' ho => h.only q' hq' (hs.owns q' ho), ?_, by rw [hs.left]; exact h.left,
    by rw [hs.inbox]; exact h.notes, by rw [hs.inbox]; exact h.acks, h.distinct, h.sound⟩
  rw [← h.came]
  unfold KState.cameTo
  rw [hs.came]

/-- Whatever is done on other descriptors: packets may come, and that is all. -/
theorem Tally.off {evs : List (Ev QEv)} (h : Tally fd q c came left rest pend acks s) (hc : c.owner = .sock fd) (hr : Run e F s evs s')
    (hev : ∀ ev ∈ evs, EvOff fd ev) : ∃ new, Tally fd q c came left rest (pend ++ new) acks s' := by
  refine hr.off (q := q) (Q := fun s => ∃ new, Tally fd q c came left rest (pend ++ new) acks s) ?_ ?_ ?_ hev ⟨[], by simpa using h⟩
  · rintro s ⟨new, t⟩
    exact t.owns hc
  · rintro s s' ⟨new, t⟩ hm
    obtain ⟨n1, t1, _⟩ := t.meanwhile hc hm
    exact ⟨new ++ n1, by rw [← List.append_assoc]; exact t1⟩
  · rintro s s' ⟨new, t⟩ hs
    exact ⟨new, t.same hs⟩

/-! ### What came and what left stays so -/

/-- What left queues is what left them before, and more; so is what came. -/
def More (s s' : KState) : Prop := (∃ l, s'.out = s.out ++ l) ∧ ∃ l, s'.came = s.came ++ l

theorem More.refl (s : KState) : More s s := ⟨⟨[], by simp⟩, [], by simp⟩
theorem More.of_out {s s' : KState} {l : List Gone} (h : s'.out = s.out ++ l) (h' : s'.came = s.came) : More s s' := ⟨⟨l, h⟩, [], by simp [h']⟩
theorem More.trans {a b c : KState} (h : More a b) (h' : More b c) : More a c := by
  obtain ⟨⟨x, hx⟩, z, hz⟩ := h
  obtain ⟨⟨y, hy⟩, t, ht⟩ := h'
  exact ⟨⟨x ++ y, by rw [hy, hx, List.append_assoc]⟩, z ++ t, by rw [ht, hz, List.append_assoc]⟩

theorem Env1.more (h : Env1 F s s') : More s s' := by
  cases h with
  | @arrive q k p =>
    refine ⟨⟨[], by rw [arrive_out]; simp⟩, [(q, p)], ?_⟩
    unfold KState.arrive
    simp only
    split <;> simp [KState.setInbox, KState.setQueue]
  | others _ h' h _ _ => exact .of_out h h'

theorem Meanwhile.more (h : Meanwhile F s s') : More s s' := by
  induction h with
  | refl => exact .refl _
  | tail _ h ih => exact ih.trans h.more

theorem serve_more (s : KState) (fd : Nat) (b : List Byte) : More s (s.serve e fd b).2 := by
  unfold KState.serve KState.config KState.verdict
  simp only
  repeat' split
  all_goals first | exact .refl _ | exact .of_out rfl rfl | exact .of_out (l := []) (by simp [KState.setQueue]) (by simp [KState.setQueue])

theorem KStep.more {ev : Ev QEv} (h : KStep e F s ev s') : More s s' := by
  cases h with
  | @handed s1 _ f b hb hmw =>
    refine ((serve_more s f b).trans hmw.more).trans ?_
    unfold KState.answer
    split
    · exact .of_out (l := []) (by simp) rfl
    · exact .refl _
  | received => exact .of_out (l := []) (by simp) rfl
  | opened => exact .refl _
  | closed => exact .of_out rfl rfl
  | silent => exact .refl _

theorem Run.more : ∀ {evs : List (Ev QEv)} {s s' : KState}, Run e F s evs s' → More s s' := by
  intro evs
  induction evs with
  | nil => intro s s' h; exact h.meanwhile.more
  | cons ev evs ih =>
    intro s s' h
    cases h with
    | cons h1 h2 h3 => exact (h1.more.trans h2.more).trans (ih h3)

theorem more_left (h : More s s') (q : Nat) : ∃ l, s'.leftFrom q = s.leftFrom q ++ l := by
  obtain ⟨l, hl⟩ := h.1
  exact ⟨_, by unfold KState.leftFrom; rw [hl, List.filter_append]⟩

theorem more_came (h : More s s') (q : Nat) : ∃ l, s'.cameTo q = s.cameTo q ++ l := by
  obtain ⟨l, hl⟩ := h.2
  exact ⟨_, by unfold KState.cameTo; rw [hl, List.filter_append, List.map_append]⟩

/-- The socket is closed: what waited in its queue is dropped, in order. -/
theorem Tally.closed {evs : List (Ev QEv)} (h : Tally fd q c came left rest pend acks s) (hc : c.owner = .sock fd) (hq : q < 65536)
    (hcl : CloseEvs fd evs) (hr : Run e F s evs s') : ∃ new later,
      s'.leftFrom q = left ++ (rest ++ pend ++ new).map (fun p => ⟨q, p, 0⟩) ++ later ∧ ¬ s'.Owns fd q := by
  obtain ⟨s1, s2, m1, m2, m3⟩ := hr.closes hcl
  obtain ⟨new, t1, _⟩ := h.meanwhile hc m1
  obtain ⟨k, k1, k2, k3⟩ := t1.queue
  have ho : k.owner = .sock fd := by rw [(conf_parts k2).1, hc]
  have h1 : (s1.release fd).leftFrom q = left ++ (rest ++ pend ++ new).map (fun p => ⟨q, p, 0⟩) := by
    rw [release_left, if_pos hq, k1, t1.left]
    simp [ho, flushed, k3]
  have hno2 : ¬ s2.Owns fd q := fun ho => release_owns s1 fd q ((m2.owns fd q).mp ho)
  rcases m3 with m3 | m3
  · obtain ⟨l, hl⟩ := more_left m2.more q
    exact ⟨new, l, by rw [m3, hl, h1], by rw [m3]; exact hno2⟩
  · have hmo : More s2 (s2.release fd) := .of_out rfl rfl
    obtain ⟨l, hl⟩ := more_left ((m2.more.trans hmo).trans m3.more) q
    exact ⟨new, l, by rw [hl, h1], fun ho => release_owns s2 fd q ((m3.owns fd q).mp ho)⟩

end Verif.NfQueue
