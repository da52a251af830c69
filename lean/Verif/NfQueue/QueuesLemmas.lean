import Verif.NfQueue.Queues
import Verif.NfQueue.Start
/-! Lemmas about kernels that keep queues. -/
namespace Verif.NfQueue
open Sys Spec
variable {e : Endian} {F : Nat → Prop}

/-- The configuration of a queue: the queue without its packets. -/
def KQueue.conf (k : KQueue) : KQueue := { k with waiting := [] }

/-- The configuration of queue `q`, if it exists. -/
def KState.conf (s : KState) (q : Nat) : Option KQueue := (s.queues q).map KQueue.conf

/-- A history, step by step. -/
inductive Run (e : Endian) (F : Nat → Prop) : KState → List (Ev QEv) → KState → Prop
  | nil {s s'} : Meanwhile F s s' → Run e F s [] s'
  | cons {s s1 s2 s' ev evs} : Meanwhile F s s1 → KStep e F s1 ev s2 → Run e F s2 evs s' → Run e F s (ev :: evs) s'

theorem Meanwhile.trans {a b c : KState} (h : Meanwhile F a b) (h' : Meanwhile F b c) : Meanwhile F a c := by
  induction h' with
  | refl => exact h
  | tail _ st ih => exact .tail ih st

theorem Run.before {a b c : KState} {evs : List (Ev QEv)} (h : Meanwhile F a b) (h' : Run e F b evs c) : Run e F a evs c := by
  cases h' with
  | nil h1 => exact .nil (h.trans h1)
  | cons h1 h2 h3 => exact .cons (h.trans h1) h2 h3

theorem Run.of_genuine {K : Kernel QEv} {st : List (Ev QEv) → KState} (hK : Keeps e F K st) :
    ∀ {evs tr}, Genuine K tr evs → Run e F (st tr) evs (st (tr ++ evs)) := by
  intro evs
  induction evs with
  | nil => intro tr _; simpa using Run.nil .refl
  | cons ev evs ih =>
    intro tr h
    cases h with
    | cons h1 h2 =>
      obtain ⟨s1, s2, a, b, c⟩ := hK tr ev h1
      have := ih h2
      rw [List.append_assoc] at this
      exact .cons a b (this.before c)

theorem Run.split {b : List (Ev QEv)} : ∀ {a : List (Ev QEv)} {s s' : KState}, Run e F s (a ++ b) s' → ∃ t, Run e F s a t ∧ Run e F t b s' := by
  intro a
  induction a with
  | nil => intro s s' h; exact ⟨s, .nil .refl, h⟩
  | cons ev a ih =>
    intro s s' h
    cases h with
    | cons h1 h2 h3 =>
      obtain ⟨t, h4, h5⟩ := ih h3
      exact ⟨t, .cons h1 h2 h4, h5⟩

theorem Run.meanwhile {a b : KState} (h : Run e F a [] b) : Meanwhile F a b := by
  cases h with
  | nil h => exact h

theorem KStep.of_silent {a b : KState} {ev : Ev QEv} (h : KStep e F a ev b) (hs : Silent ev) : b = a := by
  cases h with
  | handed h _ => cases ev <;> simp_all [Silent, handedOver]
  | received _ _ => exact hs.elim
  | opened _ _ => exact hs.elim
  | closed => exact hs.elim
  | silent _ => rfl

theorem Run.of_silent : ∀ {evs : List (Ev QEv)} {a b : KState}, Run e F a evs b → (∀ ev ∈ evs, Silent ev) → Meanwhile F a b := by
  intro evs
  induction evs with
  | nil => intro a b h _; exact h.meanwhile
  | cons ev evs ih =>
    intro a b h hs
    cases h with
    | cons h1 h2 h3 =>
      rw [h2.of_silent (hs ev (by simp))] at h3
      exact h1.trans (ih h3 fun x hx => hs x (by simp [hx]))

/-! ### What happens without us -/

@[simp] theorem setQueue_same (s : KState) (q : Nat) (v : Option KQueue) : (s.setQueue q v).queues q = v := by simp [KState.setQueue]
theorem setQueue_other (s : KState) {q q' : Nat} (v : Option KQueue) (h : q' ≠ q) : (s.setQueue q v).queues q' = s.queues q' := by
  simp [KState.setQueue, h]
@[simp] theorem setInbox_queues (s : KState) (fd : Nat) (l : List Note) : (s.setInbox fd l).queues = s.queues := rfl
@[simp] theorem setInbox_came (s : KState) (fd : Nat) (l : List Note) : (s.setInbox fd l).came = s.came := rfl
@[simp] theorem setInbox_out (s : KState) (fd : Nat) (l : List Note) : (s.setInbox fd l).out = s.out := rfl
@[simp] theorem setInbox_same (s : KState) (fd : Nat) (l : List Note) : (s.setInbox fd l).inbox fd = l := by simp [KState.setInbox]
theorem setInbox_other (s : KState) {fd fd' : Nat} (l : List Note) (h : fd' ≠ fd) : (s.setInbox fd l).inbox fd' = s.inbox fd' := by
  simp [KState.setInbox, h]

theorem arrive_queues (s : KState) (q : Nat) (k : KQueue) (p : Pkt) :
    (s.arrive q k p).queues = (s.setQueue q (some { k with waiting := k.waiting ++ [p] })).queues := by
  unfold KState.arrive
  cases k.owner <;> rfl
theorem arrive_came (s : KState) (q : Nat) (k : KQueue) (p : Pkt) : (s.arrive q k p).came = s.came ++ [(q, p)] := by
  unfold KState.arrive
  cases k.owner <;> rfl
theorem arrive_out (s : KState) (q : Nat) (k : KQueue) (p : Pkt) : (s.arrive q k p).out = s.out := by
  unfold KState.arrive
  cases k.owner <;> rfl
theorem arrive_inbox_of {s : KState} {q : Nat} {k : KQueue} {p : Pkt} {fd : Nat} (h : k.owner = .sock fd) :
    (s.arrive q k p).inbox fd = s.inbox fd ++ [.packet p.id p.mark (p.data.take k.range)] := by
  unfold KState.arrive
  rw [h]
  simp [KState.setInbox, KState.setQueue]
theorem arrive_inbox_other {s : KState} {q : Nat} {k : KQueue} {p : Pkt} {fd : Nat} (h : k.owner ≠ .sock fd) :
    (s.arrive q k p).inbox fd = s.inbox fd := by
  unfold KState.arrive
  cases ho : k.owner with
  | sock fd' =>
    have : fd ≠ fd' := by intro hc; subst hc; exact h ho
    simp [KState.setInbox, KState.setQueue, this]
  | other n => rfl

theorem Env1.owns {s s' : KState} (h : Env1 F s s') (fd q : Nat) : s'.Owns fd q ↔ s.Owns fd q := by
  cases h with
  | @arrive q' k p hq _ _ _ _ _ _ =>
    unfold KState.Owns
    rw [arrive_queues]
    by_cases hqq : q = q'
    · subst hqq; simp [hq]
    · rw [setQueue_other _ _ hqq]
  | others _ _ _ _ hq =>
    unfold KState.Owns
    rcases hq q with h | ⟨_, h1, h2⟩
    · rw [h]
    · constructor
      · rintro ⟨k, hk, ho⟩
        rw [hk] at h2
        obtain ⟨n, hn⟩ := h2
        rw [ho] at hn; cases hn
      · rintro ⟨k, hk, ho⟩
        rw [hk] at h1
        obtain ⟨n, hn⟩ := h1
        rw [ho] at hn; cases hn

theorem Meanwhile.owns {s s' : KState} (h : Meanwhile F s s') (fd q : Nat) : s'.Owns fd q ↔ s.Owns fd q := by
  induction h with
  | refl => exact Iff.rfl
  | tail _ h ih => exact (h.owns fd q).trans ih

theorem Env1.conf {s s' : KState} (h : Env1 F s s') {q : Nat} (hq : ¬ F q ∨ ∃ fd, s.Owns fd q) : s'.conf q = s.conf q := by
  cases h with
  | @arrive q' k p hk _ _ _ _ _ _ =>
    unfold KState.conf
    rw [arrive_queues]
    by_cases hqq : q = q'
    · subst hqq; simp [hk, KQueue.conf]
    · rw [setQueue_other _ _ hqq]
  | others _ _ _ _ hqs =>
    unfold KState.conf
    rcases hqs q with h | ⟨h0, h1, h2⟩
    · rw [h]
    · rcases hq with hq | ⟨fd, k, hk, ho⟩
      · exact absurd h0 hq
      · rw [hk] at h1
        obtain ⟨n, hn⟩ := h1
        rw [ho] at hn; cases hn

theorem Meanwhile.conf {s s' : KState} (h : Meanwhile F s s') {q : Nat} (hq : ¬ F q ∨ ∃ fd, s.Owns fd q) : s'.conf q = s.conf q := by
  induction h with
  | refl => rfl
  | tail h1 h ih =>
    rw [h.conf ?_, ih]
    rcases hq with hq | ⟨fd, hq⟩
    · exact .inl hq
    · exact .inr ⟨fd, (h1.owns fd q).mpr hq⟩

/-- Nothing comes into a socket that owns no queue. -/
theorem Env1.inbox {s s' : KState} (h : Env1 F s s') {fd : Nat} (hn : ∀ q k, s.queues q = some k → k.owner = .sock fd → k.mode = 0) :
    s'.inbox fd = s.inbox fd := by
  cases h with
  | @arrive q' k p hk hm _ _ _ _ _ =>
    by_cases ho : k.owner = .sock fd
    · exact absurd (hn q' k hk ho) hm
    · exact arrive_inbox_other ho
  | others h1 _ _ _ _ => rw [h1]

theorem Meanwhile.inbox {s s' : KState} (h : Meanwhile F s s') {fd : Nat} (hn : ∀ q, ¬ s.Owns fd q) : s'.inbox fd = s.inbox fd := by
  induction h with
  | refl => rfl
  | tail h1 h ih =>
    rw [h.inbox, ih]
    intro q k hk ho
    exact absurd ((h1.owns fd q).mp ⟨k, hk, ho⟩) (hn q)

theorem Env1.out_mono {s s' : KState} (h : Env1 F s s') {g : Gone} (hg : g ∈ s.out) : g ∈ s'.out := by
  cases h with
  | arrive => rw [arrive_out]; exact hg
  | others _ _ h _ _ => rw [h]; exact List.mem_append_left _ hg

theorem Meanwhile.out_mono {s s' : KState} (h : Meanwhile F s s') {g : Gone} (hg : g ∈ s.out) : g ∈ s'.out := by
  induction h with
  | refl => exact hg
  | tail _ h ih => exact h.out_mono ih

/-- Packets in a queue of ours stay there. -/
theorem Env1.waiting {s s' : KState} (h : Env1 F s s') {fd q : Nat} {k : KQueue} (hk : s.queues q = some k) (ho : k.owner = .sock fd) :
    ∃ k', s'.queues q = some k' ∧ k'.conf = k.conf ∧ ∀ p ∈ k.waiting, p ∈ k'.waiting := by
  cases h with
  | @arrive q' k' p hk' _ _ _ _ _ _ =>
    rw [arrive_queues]
    by_cases hqq : q = q'
    · subst hqq
      rw [hk] at hk'; cases hk'
      exact ⟨_, setQueue_same _ _ _, rfl, fun p hp => List.mem_append_left _ hp⟩
    · exact ⟨k, by rw [setQueue_other _ _ hqq]; exact hk, rfl, fun p hp => hp⟩
  | others _ _ _ _ hq =>
    rcases hq q with h | ⟨_, h, _⟩
    · exact ⟨k, by rw [h]; exact hk, rfl, fun p hp => hp⟩
    · rw [hk] at h
      obtain ⟨n, hn⟩ := h
      rw [ho] at hn; cases hn

theorem Meanwhile.waiting {s s' : KState} (h : Meanwhile F s s') {fd q : Nat} {k : KQueue} (hk : s.queues q = some k)
    (ho : k.owner = .sock fd) : ∃ k', s'.queues q = some k' ∧ k'.conf = k.conf ∧ ∀ p ∈ k.waiting, p ∈ k'.waiting := by
  induction h with
  | refl => exact ⟨k, hk, rfl, fun p hp => hp⟩
  | tail _ h ih =>
    obtain ⟨k1, a1, a2, a3⟩ := ih
    have ho1 : k1.owner = .sock fd := by
      have := congrArg KQueue.owner a2
      exact this.trans ho
    obtain ⟨k2, b1, b2, b3⟩ := h.waiting a1 ho1
    exact ⟨k2, b1, b2.trans a2, fun p hp => b3 p (a3 p hp)⟩

/-! ### The queue while it is being set up -/

/-- Socket `fd` owns queue `q`, configured like `c`, and no other; as long as no packet waits there, `l` is what lies in the socket; and
none waits if no packets are wanted. -/
def Held (fd q : Nat) (c : KQueue) (l : List Note) (s : KState) : Prop :=
  ∃ k, s.queues q = some k ∧ k.conf = c.conf ∧ (c.mode = 0 → k.waiting = []) ∧ (k.waiting = [] → s.inbox fd = l) ∧
    ∀ q', q' ≠ q → ¬ s.Owns fd q'

theorem conf_parts {k c : KQueue} (h : k.conf = c.conf) : k.owner = c.owner ∧ k.mode = c.mode ∧ k.range = c.range ∧ k.maxLen = c.maxLen := by
  cases k; cases c
  simp_all [KQueue.conf]

theorem Env1.held {s s' : KState} (h : Env1 F s s') {fd q : Nat} {c : KQueue} {l : List Note} (hc : c.owner = .sock fd)
    (hh : Held fd q c l s) : Held fd q c l s' := by
  obtain ⟨k, h1, h2, h3, h4, h5⟩ := hh
  obtain ⟨p1, p2, p3, p4⟩ := conf_parts h2
  have hoth : ∀ q', q' ≠ q → ¬ s'.Owns fd q' := fun q' hq' ho => h5 q' hq' ((h.owns fd q').mp ho)
  cases h with
  | @arrive q' k' p hk hm _ _ _ _ _ =>
    by_cases hqq : q' = q
    · subst hqq
      rw [h1] at hk; cases hk
      refine ⟨{ k with waiting := k.waiting ++ [p] }, by rw [arrive_queues]; simp, h2, fun h0 => ?_, fun h0 => by simp at h0, hoth⟩
      rw [p2] at hm
      exact absurd h0 hm
    · refine ⟨k, by rw [arrive_queues, setQueue_other _ _ (Ne.symm hqq)]; exact h1, h2, h3, fun h0 => ?_, hoth⟩
      rw [arrive_inbox_other]
      · exact h4 h0
      · intro ho
        exact h5 q' hqq ⟨k', hk, ho⟩
  | others a1 _ _ _ a5 =>
    have : s'.queues q = s.queues q := by
      rcases a5 q with h | ⟨_, h, _⟩
      · exact h
      · rw [h1] at h
        obtain ⟨n, hn⟩ := h
        rw [p1, hc] at hn; cases hn
    exact ⟨k, by rw [this, h1], h2, h3, fun h0 => by rw [a1]; exact h4 h0, hoth⟩

theorem Meanwhile.held {s s' : KState} (h : Meanwhile F s s') {fd q : Nat} {c : KQueue} {l : List Note} (hc : c.owner = .sock fd)
    (hh : Held fd q c l s) : Held fd q c l s' := by
  induction h with
  | refl => exact hh
  | tail _ h ih => exact h.held hc ih

/-! ### Serving the requests of the library -/

theorem Encodes.decoded {b : List Byte} {req : QReq} (h : Encodes e b req) :
    ∃ t p, req.AttrIs t p ∧ wantsAck e b = true ∧
      ∀ (s : KState) (fd : Nat), s.serve e fd b = s.config fd ⟨b.length, 3 * 256 + 2, 5, 0, 0, 0, 0, req.queue, [⟨t, false, p⟩]⟩ := by
  obtain ⟨t, p, h1, h2⟩ := h
  refine ⟨t, p, h2, ?_, ?_⟩
  · unfold wantsAck; rw [h1]; simp
  · intro s fd
    unfold KState.serve
    rw [h1]; rfl

theorem attrOf_one (k t : Nat) (p : List Byte) : attrOf k [⟨t, false, p⟩] = if t = k then some p else none := by
  unfold attrOf
  by_cases h : t = k <;> simp [h]

theorem serve_pf {b : List Byte} {req : QReq} (h : Encodes e b req) (hr : req = .pfUnbind ∨ req = .pfBind) (s : KState) (fd : Nat) :
    s.serve e fd b = (0, s) := by
  obtain ⟨t, p, h1, _, h2⟩ := h.decoded
  rw [h2]
  rcases hr with rfl | rfl
  · obtain ⟨rfl, _, hc, _⟩ := h1
    simp [KState.config, attrOf_one, hc]
  · obtain ⟨rfl, _, hc, _⟩ := h1
    simp [KState.config, attrOf_one, hc]

theorem serve_bind {b : List Byte} {q : Nat} (h : Encodes e b (.bindQueue q)) (s : KState) (fd : Nat) :
    s.serve e fd b = match s.queues q with
      | some k => (if k.owner ≠ .sock fd then -1 else -16, s)
      | none => (0, s.setQueue q (some (KQueue.new fd))) := by
  obtain ⟨t, p, h1, _, h2⟩ := h.decoded
  rw [h2]
  obtain ⟨rfl, _, hc, _⟩ := h1
  simp only [KState.config, attrOf_one, QReq.queue]
  cases hq : s.queues q with
  | some k => by_cases ho : k.owner = .sock fd <;> simp [hc, ho]
  | none => simp [hc, KQueue.tune, attrOf_one]

theorem serve_unbind {b : List Byte} {q : Nat} (h : Encodes e b (.unbindQueue q)) (s : KState) (fd : Nat) :
    s.serve e fd b = match s.queues q with
      | some k => if k.owner ≠ .sock fd then (-1, s) else (0, { s.setQueue q none with out := s.out ++ flushed q k })
      | none => (-19, s) := by
  obtain ⟨t, p, h1, _, h2⟩ := h.decoded
  rw [h2]
  obtain ⟨rfl, _, hc, _⟩ := h1
  simp only [KState.config, attrOf_one, QReq.queue]
  cases hq : s.queues q with
  | some k => by_cases ho : k.owner = .sock fd <;> simp [hc, ho]
  | none => simp [hc]

theorem serve_mode {b : List Byte} {q mode range : Nat} (h : Encodes e b (.setMode q mode range)) (s : KState) (fd : Nat) :
    s.serve e fd b = match s.queues q with
      | some k => if k.owner ≠ .sock fd then (-1, s) else (0, s.setQueue q (some (k.setMode mode range)))
      | none => (-19, s) := by
  obtain ⟨t, p, h1, _, h2⟩ := h.decoded
  rw [h2]
  obtain ⟨rfl, hr, hm⟩ := h1
  simp only [KState.config, attrOf_one, QReq.queue]
  rw [Option.map_eq_some_iff] at hm
  obtain ⟨x, hx, rfl⟩ := hm
  cases hq : s.queues q with
  | some k =>
    by_cases ho : k.owner = .sock fd
    · simp [ho, KQueue.tune, attrOf_one, hr, hx]
    · simp [ho]
  | none => simp

theorem serve_maxLen {b : List Byte} {q n : Nat} (h : Encodes e b (.setMaxLen q n)) (s : KState) (fd : Nat) :
    s.serve e fd b = match s.queues q with
      | some k => if k.owner ≠ .sock fd then (-1, s) else (0, s.setQueue q (some { k with maxLen := n }))
      | none => (-19, s) := by
  obtain ⟨t, p, h1, _, h2⟩ := h.decoded
  rw [h2]
  obtain ⟨rfl, hl, hr⟩ := h1
  simp only [KState.config, attrOf_one, QReq.queue]
  cases hq : s.queues q with
  | some k => by_cases ho : k.owner = .sock fd <;> simp [ho, KQueue.tune, attrOf_one, hr]
  | none => simp

/-- Sending: what was sent is served and answered. -/
theorem Run.sent {fd : Nat} {b : List Byte} {evs : List (Ev QEv)} {s s' : KState} (h : SendEvs fd b none evs) (hr : Run e F s evs s') :
    ∃ s1 s2, Meanwhile F s s1 ∧ Meanwhile F (s1.serve e fd b).2 s2 ∧ Meanwhile F (s2.answer e fd b (s1.serve e fd b).1) s' := by
  have one : ∀ {t}, Run e F t [.sendto fd b 0 none] s' →
      ∃ s1 s2, Meanwhile F t s1 ∧ Meanwhile F (s1.serve e fd b).2 s2 ∧ Meanwhile F (s2.answer e fd b (s1.serve e fd b).1) s' := by
    intro t ht
    cases ht with
    | cons h1 h2 h3 =>
      cases h2 with
      | handed ha hb => simp only [handedOver, Option.some.injEq, Prod.mk.injEq] at ha; obtain ⟨rfl, rfl⟩ := ha; exact ⟨_, _, h1, hb, h3.meanwhile⟩
      | silent hs => simp [Silent, handedOver] at hs
  rcases h with ⟨_, rfl⟩ | ⟨e1, rfl⟩
  · exact one hr
  · cases hr with
    | cons h1 h2 h3 =>
      rw [h2.of_silent (by simp [Silent, handedOver])] at h3
      obtain ⟨s1, s2, a, b, c⟩ := one h3
      exact ⟨s1, s2, h1.trans a, b, c⟩

/-- Receiving. -/
theorem Run.got {fd size flags : Nat} {d : List Byte} {s s' : KState} (hr : Run e F s [.recvfrom fd size flags (.ok d)] s') :
    ∃ s1 n rest d', Meanwhile F s s1 ∧ s1.inbox fd = n :: rest ∧ NoteIs e d' n ∧ d = d'.take size ∧ Meanwhile F (s1.setInbox fd rest) s' := by
  cases hr with
  | cons h1 h2 h3 =>
    cases h2 with
    | handed ha _ => simp [handedOver] at ha
    | received ha hb => exact ⟨_, _, _, _, h1, ha, hb, rfl, h3.meanwhile⟩
    | silent hs => exact hs.elim

theorem take_of_lt {d d' : List Byte} {size : Nat} (h : d = d'.take size) (hl : d.length < size) : d = d' := by
  subst h
  rw [List.length_take] at hl
  exact List.take_of_length_le (by omega)

/-- An acknowledged exchange on a socket in which nothing lies and that owns nothing. -/
theorem Run.acked_pf {fd : Nat} {req : QReq} {evs : List (Ev QEv)} {s s' : KState} (ha : Acked e fd req evs)
    (hreq : req = .pfUnbind ∨ req = .pfBind) (hr : Run e F s evs s') (hn : ∀ q, ¬ s.Owns fd q) (hi : s.inbox fd = []) :
    (∀ q, ¬ s'.Owns fd q) ∧ s'.inbox fd = [] := by
  obtain ⟨b, d, size, evs1, hb, hs, rfl, hlt, href⟩ := ha
  obtain ⟨t, r1, r2⟩ := hr.split
  obtain ⟨s1, s2, m1, m2, m3⟩ := r1.sent hs
  obtain ⟨s3, n, rest, d', m4, hin, hd, rfl, m5⟩ := r2.got
  rw [serve_pf hb hreq] at m2 m3
  simp only at m2 m3
  obtain ⟨_, _, _, hw, _⟩ := hb.decoded
  have n1 : ∀ q, ¬ s1.Owns fd q := fun q h => hn q ((m1.owns fd q).mp h)
  have n2 : ∀ q, ¬ s2.Owns fd q := fun q h => n1 q ((m2.owns fd q).mp h)
  have i2 : s2.inbox fd = [] := by rw [m2.inbox n1, m1.inbox hn, hi]
  have ea : s2.answer e fd b 0 = s2.setInbox fd [.ack 0] := by unfold KState.answer; rw [hw, i2]; simp
  rw [ea] at m3
  have n3 : ∀ q, ¬ (s2.setInbox fd [.ack 0]).Owns fd q := n2
  have i3 : s3.inbox fd = [.ack 0] := by
    rw [m4.inbox (fun q h => n3 q ((m3.owns fd q).mp h)), m3.inbox n3]; simp
  rw [i3] at hin
  cases hin
  have n4 : ∀ q, ¬ (s3.setInbox fd []).Owns fd q := fun q h => n3 q ((m3.owns fd q).mp ((m4.owns fd q).mp h))
  exact ⟨fun q h => n4 q ((m5.owns fd q).mp h), by rw [m5.inbox n4]; simp⟩

theorem refusal_of_reply {d : List Byte} {c : Int} (h : ReplyIs e d c) (hc : c ≠ 0) : Refusal e d := by
  obtain ⟨_, h2, h3⟩ := h
  refine ⟨h2, fun h0 => hc ?_⟩
  unfold numI32 at h3
  rw [h0] at h3
  simpa [signed32] using h3.symm

/-- An acknowledged bind: the queue was free and is ours now. -/
theorem Run.acked_bind {fd q : Nat} {evs : List (Ev QEv)} {s s' : KState} (ha : Acked e fd (.bindQueue q) evs)
    (hr : Run e F s evs s') (hn : ∀ q, ¬ s.Owns fd q) (hi : s.inbox fd = []) :
    Held fd q (KQueue.new fd) [] s' ∧ (¬ F q → s.queues q = none) := by
  obtain ⟨b, d, size, evs1, hb, hs, rfl, hlt, href⟩ := ha
  obtain ⟨t, r1, r2⟩ := hr.split
  obtain ⟨s1, s2, m1, m2, m3⟩ := r1.sent hs
  obtain ⟨s3, n, rest, d', m4, hin, hd, hdd, m5⟩ := r2.got
  have hd0 := take_of_lt hdd hlt
  subst hd0
  rw [serve_bind hb] at m2 m3
  obtain ⟨_, _, _, hw, _⟩ := hb.decoded
  have n1 : ∀ q, ¬ s1.Owns fd q := fun q h => hn q ((m1.owns fd q).mp h)
  have i1 : s1.inbox fd = [] := by rw [m1.inbox hn, hi]
  cases hq : s1.queues q with
  | some k =>
    exfalso
    have ho : k.owner ≠ .sock fd := fun ho => n1 q ⟨k, hq, ho⟩
    rw [hq] at m2 m3
    simp only [if_pos ho] at m2 m3
    have n2 : ∀ q, ¬ s2.Owns fd q := fun q h => n1 q ((m2.owns fd q).mp h)
    have i2 : s2.inbox fd = [] := by rw [m2.inbox n1, i1]
    have ea : s2.answer e fd b (-1) = s2.setInbox fd [.ack (-1)] := by unfold KState.answer; rw [hw, i2]; simp
    rw [ea] at m3
    have n3 : ∀ q, ¬ (s2.setInbox fd [.ack (-1)]).Owns fd q := n2
    have i3 : s3.inbox fd = [.ack (-1)] := by
      rw [m4.inbox (fun q h => n3 q ((m3.owns fd q).mp h)), m3.inbox n3]; simp
    rw [i3] at hin
    cases hin
    exact href hd.1.1 (refusal_of_reply hd.1 (by decide))
  | none =>
    rw [hq] at m2 m3
    simp only at m2 m3
    have hnew : (KQueue.new fd).owner = .sock fd := rfl
    have h0 : Held fd q (KQueue.new fd) [] (s1.setQueue q (some (KQueue.new fd))) := by
      refine ⟨KQueue.new fd, by simp, rfl, fun _ => rfl, fun _ => i1, fun q' hq' => ?_⟩
      rintro ⟨k, hk, ho⟩
      rw [setQueue_other _ _ hq'] at hk
      exact n1 q' ⟨k, hk, ho⟩
    have h1 := m2.held hnew h0
    have h2 : Held fd q (KQueue.new fd) [.ack 0] (s2.answer e fd b 0) := by
      obtain ⟨k, a1, a2, a3, a4, a5⟩ := h1
      have ea : s2.answer e fd b 0 = s2.setInbox fd (s2.inbox fd ++ [.ack 0]) := by unfold KState.answer; rw [hw]; simp
      rw [ea]
      exact ⟨k, a1, a2, a3, fun h => by simp [a4 h], a5⟩
    have h3 := m4.held hnew (m3.held hnew h2)
    have h4 : Held fd q (KQueue.new fd) [] (s3.setInbox fd rest) := by
      obtain ⟨k, a1, a2, a3, a4, a5⟩ := h3
      have := a4 (a3 rfl)
      rw [hin] at this
      cases this
      exact ⟨k, a1, a2, a3, fun _ => by simp, a5⟩
    refine ⟨m5.held hnew h4, fun hF => ?_⟩
    have := m1.conf (.inl hF) (q := q)
    unfold KState.conf at this
    rw [hq] at this
    cases hs0 : s.queues q with
    | none => rfl
    | some k => rw [hs0] at this; cases this

/-- A configuration request for a queue of ours, acknowledged or not: it is done. -/
theorem Run.configured {fd q : Nat} {req : QReq} {evs : List (Ev QEv)} {s s' : KState} {c c' : KQueue} (ha : Acked e fd req evs)
    (hr : Run e F s evs s') (hc : c.owner = .sock fd) (hc' : c'.owner = .sock fd) (hm : c'.mode ≠ 0)
    (hserve : ∀ b, Encodes e b req → ∀ (t : KState) (k : KQueue), t.queues q = some k → k.conf = c.conf →
      ∃ k', k'.conf = c'.conf ∧ k'.waiting = k.waiting ∧ t.serve e fd b = (0, t.setQueue q (some k')))
    (h : Held fd q c [] s) : Held fd q c' [] s' := by
  obtain ⟨b, d, size, evs1, hb, hs, rfl, hlt, href⟩ := ha
  obtain ⟨t, r1, r2⟩ := hr.split
  obtain ⟨s1, s2, m1, m2, m3⟩ := r1.sent hs
  obtain ⟨s3, n, rest, d', m4, hin, hd, rfl, m5⟩ := r2.got
  obtain ⟨_, _, _, hw, _⟩ := hb.decoded
  have h1 := m1.held hc h
  obtain ⟨k, a1, a2, a3, a4, a5⟩ := h1
  obtain ⟨k', b1, b2, b3⟩ := hserve b hb s1 k a1 a2
  rw [b3] at m2 m3
  simp only at m2 m3
  have h2 : Held fd q c' [] (s1.setQueue q (some k')) := by
    refine ⟨k', by simp, b1, fun h0 => absurd h0 hm, fun h0 => a4 (by rw [← b2]; exact h0), fun q' hq' => ?_⟩
    rintro ⟨x, hx, ho⟩
    rw [setQueue_other _ _ hq'] at hx
    exact a5 q' hq' ⟨x, hx, ho⟩
  have h3 := m2.held hc' h2
  have h4 : Held fd q c' [.ack 0] (s2.answer e fd b 0) := by
    obtain ⟨k, a1, a2, a3, a4, a5⟩ := h3
    have ea : s2.answer e fd b 0 = s2.setInbox fd (s2.inbox fd ++ [.ack 0]) := by unfold KState.answer; rw [hw]; simp
    rw [ea]
    exact ⟨k, a1, a2, a3, fun h => by simp [a4 h], a5⟩
  have h5 := m4.held hc' (m3.held hc' h4)
  refine m5.held hc' ?_
  obtain ⟨k, a1, a2, a3, a4, a5⟩ := h5
  refine ⟨k, a1, a2, a3, fun h0 => ?_, a5⟩
  have := a4 h0
  rw [hin] at this
  cases this
  simp

/-! ### Other queues -/

/-- A request of the library about queue `q`, or about the protocol family. -/
def About (q : Nat) (req : QReq) : Prop := req = .pfUnbind ∨ req = .pfBind ∨ req.queue = q

/-- Serving a request of the library changes at most the queue it is about, and that only if it is free or belongs to the socket; then it
is free or belongs to the socket afterwards. -/
theorem serve_about {b : List Byte} {req : QReq} {q : Nat} (hb : Encodes e b req) (ha : About q req) (s : KState) (fd : Nat) :
    (s.serve e fd b).2.queues = s.queues ∨ ((∀ q', q' ≠ q → (s.serve e fd b).2.queues q' = s.queues q') ∧
      (s.queues q = none ∨ s.Owns fd q) ∧ ((s.serve e fd b).2.queues q = none ∨ (s.serve e fd b).2.Owns fd q)) := by
  cases req with
  | pfUnbind => left; rw [serve_pf hb (.inl rfl)]
  | pfBind => left; rw [serve_pf hb (.inr rfl)]
  | bindQueue x =>
    have : x = q := by simpa [About, QReq.queue] using ha
    subst this
    rw [serve_bind hb]
    cases hq : s.queues x with
    | some k => left; rfl
    | none => exact .inr ⟨fun q' hq' => setQueue_other _ _ hq', .inl rfl, .inr ⟨_, setQueue_same _ _ _, rfl⟩⟩
  | unbindQueue x =>
    have : x = q := by simpa [About, QReq.queue] using ha
    subst this
    rw [serve_unbind hb]
    cases hq : s.queues x with
    | some k =>
      by_cases ho : k.owner = .sock fd
      · simp only [ho, ne_eq, not_true_eq_false, if_false]
        exact .inr ⟨fun q' hq' => setQueue_other _ _ hq', .inr ⟨k, hq, ho⟩, .inl (setQueue_same _ _ _)⟩
      · simp [ho]
    | none => left; rfl
  | setMode x mode range =>
    have : x = q := by simpa [About, QReq.queue] using ha
    subst this
    rw [serve_mode hb]
    cases hq : s.queues x with
    | some k =>
      by_cases ho : k.owner = .sock fd
      · simp only [ho, ne_eq, not_true_eq_false, if_false]
        refine .inr ⟨fun q' hq' => setQueue_other _ _ hq', .inr ⟨k, hq, ho⟩, .inr ⟨_, setQueue_same _ _ _, ?_⟩⟩
        unfold KQueue.setMode
        split
        · exact ho
        · split <;> exact ho
      · simp [ho]
    | none => left; rfl
  | setMaxLen x n =>
    have : x = q := by simpa [About, QReq.queue] using ha
    subst this
    rw [serve_maxLen hb]
    cases hq : s.queues x with
    | some k =>
      by_cases ho : k.owner = .sock fd
      · simp only [ho, ne_eq, not_true_eq_false, if_false]
        exact .inr ⟨fun q' hq' => setQueue_other _ _ hq', .inr ⟨k, hq, ho⟩, .inr ⟨_, setQueue_same _ _ _, rfl⟩⟩
      · simp [ho]
    | none => left; rfl

/-- Since the state `s0`: the other queues nobody else uses are configured as they were; queue `q` is as it was too, or was free and
belongs to socket `fd` now; the socket has no other queue. -/
structure Apart (F : Nat → Prop) (fd q : Nat) (s0 s : KState) : Prop where
  others : ∀ q', q' ≠ q → ¬ F q' → s.conf q' = s0.conf q'
  this : ¬ F q → s.conf q = s0.conf q ∨ (s0.conf q = none ∧ s.Owns fd q)
  only : ∀ q', q' ≠ q → ¬ s.Owns fd q'

theorem Apart.meanwhile {fd q : Nat} {s0 s s' : KState} (h : Apart F fd q s0 s) (hm : Meanwhile F s s') : Apart F fd q s0 s' where
  others q' h1 h2 := by rw [hm.conf (.inl h2)]; exact h.others q' h1 h2
  this h1 := by
    rw [hm.conf (.inl h1)]
    rcases h.this h1 with h2 | ⟨h2, h3⟩
    · exact .inl h2
    · exact .inr ⟨h2, (hm.owns fd q).mpr h3⟩
  only q' h1 h2 := h.only q' h1 ((hm.owns fd q').mp h2)

theorem Apart.queues {fd q : Nat} {s0 s s' : KState} (h : Apart F fd q s0 s) (he : s'.queues = s.queues) : Apart F fd q s0 s' where
  others q' h1 h2 := by
    have := h.others q' h1 h2
    unfold KState.conf at *
    rw [he]; exact this
  this h1 := by
    have := h.this h1
    unfold KState.conf KState.Owns at *
    rw [he]; exact this
  only q' h1 h2 := by
    have := h.only q' h1
    unfold KState.Owns at *
    rw [he] at h2
    exact this h2

theorem Apart.serve {fd q : Nat} {s0 s : KState} (h : Apart F fd q s0 s) (hno : ¬ s0.Owns fd q) {b : List Byte} {req : QReq} (hb : Encodes e b req) (ha : About q req) :
    Apart F fd q s0 (s.serve e fd b).2 := by
  rcases serve_about hb ha s fd with h1 | ⟨h1, h2, h3⟩
  · exact h.queues h1
  · refine ⟨fun q' hq' hF => ?_, fun hF => ?_, fun q' hq' ho => h.only q' hq' ?_⟩
    · have := h.others q' hq' hF
      unfold KState.conf at *
      rw [h1 q' hq']; exact this
    · have hc0 : s0.conf q = none := by
        rcases h.this hF with h4 | ⟨h4, _⟩
        · rcases h2 with h2 | ⟨k, hk, ho⟩
          · rw [← h4]; unfold KState.conf; rw [h2]; rfl
          · exfalso
            apply hno
            unfold KState.conf at h4
            rw [hk] at h4
            cases hs0 : s0.queues q with
            | none => rw [hs0] at h4; cases h4
            | some k0 =>
              rw [hs0] at h4
              simp only [Option.map_some, Option.some.injEq] at h4
              exact ⟨k0, hs0, by rw [← (conf_parts h4).1]; exact ho⟩
        · exact h4
      rcases h3 with h3 | h3
      · left; rw [hc0]; unfold KState.conf; rw [h3]; rfl
      · exact .inr ⟨hc0, h3⟩
    · unfold KState.Owns at *
      rw [h1 q' hq'] at ho; exact ho

/-- An event of an exchange on socket `fd` about queue `q`. -/
def Ours (e : Endian) (fd q : Nat) (ev : Ev QEv) : Prop :=
  Silent ev ∨ (∃ size flags r, ev = .recvfrom fd size flags r) ∨
    ∃ b req, handedOver ev = some (fd, b) ∧ Encodes e b req ∧ About q req

theorem answer_queues (s : KState) (fd : Nat) (b : List Byte) (c : Int) : (s.answer e fd b c).queues = s.queues := by
  unfold KState.answer
  split <;> rfl

theorem Apart.run {fd q : Nat} {s0 : KState} (hno : ¬ s0.Owns fd q) : ∀ {evs : List (Ev QEv)} {s s' : KState}, Apart F fd q s0 s →
    Run e F s evs s' → (∀ ev ∈ evs, Ours e fd q ev) → Apart F fd q s0 s' := by
  intro evs
  induction evs with
  | nil => intro s s' h hr _; exact h.meanwhile hr.meanwhile
  | cons ev evs ih =>
    intro s s' h hr ho
    cases hr with
    | cons h1 h2 h3 =>
      refine ih ?_ h3 fun x hx => ho x (by simp [hx])
      have h4 := h.meanwhile h1
      cases h2 with
      | handed ha hm =>
        rcases ho ev (by simp) with hs | ⟨_, _, _, rfl⟩ | ⟨b, req, hb, he, hab⟩
        · cases ev <;> simp_all [Silent, handedOver]
        · simp [handedOver] at ha
        · rw [ha] at hb
          simp only [Option.some.injEq, Prod.mk.injEq] at hb
          obtain ⟨rfl, rfl⟩ := hb
          exact ((h4.serve hno he hab).meanwhile hm).queues (answer_queues _ _ _ _)
      | received _ _ => exact h4.queues rfl
      | opened _ _ => exact h4
      | closed =>
        rcases ho _ (List.mem_cons_self) with hs | ⟨_, _, _, hs⟩ | ⟨b, req, hb, he, hab⟩
        · exact hs.elim
        · cases hs
        · simp [handedOver] at hb
      | silent _ => exact h4

theorem release_conf (s : KState) (fd q : Nat) : (s.release fd).conf q = (s.conf q).filter fun k => decide (k.owner ≠ .sock fd) := by
  unfold KState.conf KState.release
  simp only
  cases s.queues q with
  | none => rfl
  | some k => by_cases h : k.owner = .sock fd <;> simp [Option.filter, h, KQueue.conf]

theorem release_owns (s : KState) (fd q : Nat) : ¬ (s.release fd).Owns fd q := by
  rintro ⟨k, hk, ho⟩
  unfold KState.release at hk
  simp only [Option.filter_eq_some_iff] at hk
  simp [ho] at hk

/-- After the socket is closed queue `q` is as it was. -/
theorem Apart.released {fd q : Nat} {s0 s : KState} (h : Apart F fd q s0 s) (h0 : ∀ q', ¬ s0.Owns fd q') :
    (∀ q', ¬ F q' → (s.release fd).conf q' = s0.conf q') ∧ ∀ q', ¬ (s.release fd).Owns fd q' := by
  have keep : ∀ q', s.conf q' = s0.conf q' → (s.release fd).conf q' = s0.conf q' := by
    intro q' hq'
    rw [release_conf, hq']
    unfold KState.conf
    cases hs : s0.queues q' with
    | none => rfl
    | some k =>
      have : k.owner ≠ .sock fd := fun ho => h0 q' ⟨k, hs, ho⟩
      simp [Option.filter, KQueue.conf, this]
  refine ⟨fun q' hF => ?_, fun q' => release_owns s fd q'⟩
  by_cases hq : q' = q
  · subst hq
    rcases h.this hF with h1 | ⟨h1, k, hk, ho⟩
    · exact keep q' h1
    · rw [release_conf, h1]
      unfold KState.conf
      rw [hk]
      simp [Option.filter, KQueue.conf, ho]
  · exact keep q' (h.others q' hq hF)

theorem SendEvs.ours {fd q : Nat} {b : List Byte} {req : QReq} {r : Option Nat} {evs : List (Ev QEv)} (h : SendEvs fd b r evs)
    (hb : Encodes e b req) (ha : About q req) : ∀ ev ∈ evs, Ours e fd q ev := by
  have one : ∀ r, Ours e fd q (.sendto fd b 0 r) := by
    intro r
    cases r with
    | none => exact .inr (.inr ⟨b, req, rfl, hb, ha⟩)
    | some n => exact .inl (by simp [Silent, handedOver])
  rcases h with ⟨_, rfl⟩ | ⟨e1, rfl⟩
  · simpa using one none
  · simp only [List.mem_cons, List.not_mem_nil, or_false]
    rintro ev (rfl | rfl)
    · exact one _
    · exact one _

theorem ours_recv {fd q size flags : Nat} (r : Except Nat (List Byte)) : Ours e fd q (.recvfrom fd size flags r) :=
  .inr (.inl ⟨size, flags, r, rfl⟩)

theorem Exchange.ours {fd size q : Nat} {req : QReq} {r : Option Err} {evs : List (Ev QEv)} (h : Exchange e fd size req r evs)
    (ha : About q req) : ∀ ev ∈ evs, Ours e fd q ev := by
  obtain ⟨b, hb, hq⟩ := h
  cases hq with
  | sendFailed hs => exact hs.ours hb ha
  | recvFailed hs =>
    intro ev hev
    rcases List.mem_append.mp hev with h | h
    · exact hs.ours hb ha ev h
    · simp only [List.mem_cons, List.not_mem_nil, or_false] at h; subst h; exact ours_recv _
  | replied hs _ _ _ =>
    intro ev hev
    rcases List.mem_append.mp hev with h | h
    · exact hs.ours hb ha ev h
    · simp only [List.mem_cons, List.not_mem_nil, or_false] at h; subst h; exact ours_recv _

theorem Acked.ours {fd q : Nat} {req : QReq} {evs : List (Ev QEv)} (h : Acked e fd req evs) (ha : About q req) :
    ∀ ev ∈ evs, Ours e fd q ev := by
  obtain ⟨b, d, size, evs1, hb, hs, rfl, _, _⟩ := h
  intro ev hev
  rcases List.mem_append.mp hev with h | h
  · exact hs.ours hb ha ev h
  · simp only [List.mem_cons, List.not_mem_nil, or_false] at h; subst h; exact ours_recv _

theorem ours_append {fd q : Nat} {a b : List (Ev QEv)} (ha : ∀ ev ∈ a, Ours e fd q ev) (hb : ∀ ev ∈ b, Ours e fd q ev) :
    ∀ ev ∈ a ++ b, Ours e fd q ev := by
  intro ev h
  rcases List.mem_append.mp h with h | h
  · exact ha ev h
  · exact hb ev h

theorem Refused.ours {fd q maxLen size : Nat} {err : Err} {evs : List (Ev QEv)} (h : Refused e fd q maxLen size err evs) :
    ∀ ev ∈ evs, Ours e fd q ev := by
  cases h with
  | pfUnbind h1 => exact h1.ours (.inl rfl)
  | pfBind h1 h2 => exact ours_append (h1.ours (.inl rfl)) (h2.ours (.inr (.inl rfl)))
  | bindQueue h1 h2 h3 => exact ours_append (ours_append (h1.ours (.inl rfl)) (h2.ours (.inr (.inl rfl)))) (h3.ours (.inr (.inr rfl)))
  | setMode h1 h2 h3 h4 h5 =>
    exact ours_append (ours_append (ours_append (ours_append (h1.ours (.inl rfl)) (h2.ours (.inr (.inl rfl)))) (h3.ours (.inr (.inr rfl))))
      (h4.ours (.inr (.inr rfl)))) (h5.ours (.inr (.inr rfl)))
  | setMaxLen h1 h2 h3 h4 h5 h6 =>
    exact ours_append (ours_append (ours_append (ours_append (ours_append (h1.ours (.inl rfl)) (h2.ours (.inr (.inl rfl)))) (h3.ours (.inr (.inr rfl))))
      (h4.ours (.inr (.inr rfl)))) (h5.ours (.inr (.inr rfl)))) (h6.ours (.inr (.inr rfl)))

/-- Opening a socket. -/
theorem Run.opened {d t p fd : Nat} {s s' : KState} (h : Run e F s [.socket d t p (.ok fd)] s') :
    ∃ s1, Meanwhile F s s1 ∧ (∀ q, ¬ s1.Owns fd q) ∧ s1.inbox fd = [] ∧ Meanwhile F s1 s' := by
  cases h with
  | cons h1 h2 h3 =>
    cases h2 with
    | handed ha _ => simp [handedOver] at ha
    | opened ha hb => exact ⟨_, h1, ha, hb, h3.meanwhile⟩
    | silent hs => exact hs.elim

/-- Closing a socket. -/
theorem Run.closes {fd : Nat} {evs : List (Ev QEv)} {s s' : KState} (hc : CloseEvs fd evs) (h : Run e F s evs s') :
    ∃ s1 s2, Meanwhile F s s1 ∧ Meanwhile F (s1.release fd) s2 ∧ (s' = s2 ∨ Meanwhile F (s2.release fd) s') := by
  rcases hc with rfl | ⟨e1, r, rfl⟩
  · cases h with
    | cons h1 h2 h3 =>
      cases h2 with
      | handed ha _ => simp [handedOver] at ha
      | closed => exact ⟨_, _, h1, h3.meanwhile, .inl rfl⟩
      | silent hs => exact hs.elim
  · cases h with
    | cons h1 h2 h3 =>
      cases h2 with
      | handed ha _ => simp [handedOver] at ha
      | silent hs => exact hs.elim
      | closed =>
        cases h3 with
        | cons h4 h5 h6 =>
          cases h5 with
          | handed ha _ => simp [handedOver] at ha
          | silent hs => exact hs.elim
          | closed => exact ⟨_, _, h1, h4, .inr h6.meanwhile⟩

theorem BindEvs.silent {fd : Nat} {r : Option Nat} {evs : List (Ev QEv)} (h : BindEvs fd r evs) : ∀ ev ∈ evs, Silent ev := by
  unfold BindEvs at h
  rcases h with ⟨_, rfl⟩ | ⟨_, rfl⟩ <;> simp [Silent, handedOver]

theorem OptEvs.silent {fd : Nat} {evs : List (Ev QEv)} (h : OptEvs fd evs) : ∀ ev ∈ evs, Silent ev := by
  intro ev hev
  rcases h.mem ev hev with ⟨_, _, _, _, rfl⟩ | ⟨_, rfl⟩ <;> simp [Silent, handedOver]

end Verif.NfQueue
