import Verif.NfQueue.Fine
import Verif.NfQueue.Receive
/-!
Bookkeeping about one queue of ours in a kernel that keeps queues (Queues.lean): which packets came, which left and how, which still wait,
and for which of those a message still lies in the socket.
-/
namespace Verif.NfQueue
open Sys Spec Common

/-- The packets that came to queue `q`, in order. -/
def KState.cameTo (s : KState) (q : Nat) : List Pkt := (s.came.filter fun x => decide (x.1 = q)).map Prod.snd

/-- The packets that left queue `q`, in order. -/
def KState.leftFrom (s : KState) (q : Nat) : List Gone := s.out.filter fun g => decide (g.queue = q)

/-- Is it about a packet? -/
def Note.isPacket : Note → Bool
  | .packet _ _ _ => true
  | .ack _ => false

/-- What the owner of a queue with this copy range is told about a packet. -/
def Pkt.note (range : Nat) (p : Pkt) : Note := .packet p.id p.mark (p.data.take range)

/-- Socket `fd` owns queue `q`, configured like `c`, and no other queue.  `came ++ pend` came to it, `left` left it, `rest ++ pend` wait in
it; in the socket lie the messages about `pend`, in order, and `acks` acknowledgements.  Ids are distinct. -/
structure Tally (fd q : Nat) (c : KQueue) (came : List Pkt) (left : List Gone) (rest pend : List Pkt) (acks : Nat) (s : KState) : Prop where
  queue : ∃ k, s.queues q = some k ∧ k.conf = c.conf ∧ k.waiting = rest ++ pend
  only : ∀ q', q' ≠ q → ¬ s.Owns fd q'
  came : s.cameTo q = came ++ pend
  left : s.leftFrom q = left
  notes : (s.inbox fd).filter Note.isPacket = pend.map (Pkt.note c.range)
  acks : (s.inbox fd).filter (fun n => !n.isPacket) = List.replicate acks (.ack 0)
  distinct : ((rest ++ pend).map Pkt.id).Nodup
  sound : ∀ p ∈ rest ++ pend, p.id < 2 ^ 32 ∧ p.mark < 2 ^ 32 ∧ p.data ≠ []

variable {e : Endian} {F : Nat → Prop} {fd q acks : Nat} {c : KQueue} {came rest pend : List Pkt} {left : List Gone} {s s' : KState}

theorem arrive_cameTo (s : KState) (q q' : Nat) (k : KQueue) (p : Pkt) :
    (s.arrive q' k p).cameTo q = if q' = q then s.cameTo q ++ [p] else s.cameTo q := by
  unfold KState.cameTo
  rw [arrive_came, List.filter_append, List.map_append]
  by_cases h : q' = q <;> simp [h]

/-- Something happens without us. -/
theorem Tally.env1 (h : Tally fd q c came left rest pend acks s) (hc : c.owner = .sock fd) (hm : Env1 F s s') :
    ∃ new, Tally fd q c came left rest (pend ++ new) acks s' ∧ s'.inbox fd = s.inbox fd ++ new.map (Pkt.note c.range) ∧
      (c.mode = 0 → new = []) := by
  obtain ⟨k, h1, h2, h3⟩ := h.queue
  obtain ⟨p1, p2, p3, p4⟩ := conf_parts h2
  have honly : ∀ q', q' ≠ q → ¬ s'.Owns fd q' := fun q' hq' ho => h.only q' hq' ((hm.owns fd q').mp ho)
  cases hm with
  | @arrive q' k' p hk hmode _ hid hmark hdata hnew =>
    by_cases hq : q' = q
    · subst hq
      rw [h1] at hk
      cases hk
      have ho : k.owner = .sock fd := by rw [p1, hc]
      have hin := arrive_inbox_of (s := s) (q := q') (p := p) ho
      rw [p3] at hin
      refine ⟨[p], ⟨⟨{ k with waiting := k.waiting ++ [p] }, by rw [arrive_queues, setQueue_same], ?_, by simp [h3]⟩, honly, ?_, ?_, ?_, ?_, ?_, ?_⟩,
        hin, fun h0 => absurd (p2.trans h0) hmode⟩
      · rw [← h2]; rfl
      · rw [arrive_cameTo, if_pos rfl, h.came]; simp
      · unfold KState.leftFrom; rw [arrive_out]; exact h.left
      · rw [hin, List.filter_append, h.notes]; simp [Pkt.note, Note.isPacket]
      · rw [hin, List.filter_append, h.acks]; simp [Note.isPacket]
      · rw [← List.append_assoc, List.map_append, List.nodup_append]
        refine ⟨h.distinct, by simp, ?_⟩
        intro a ha b hb
        rw [← h3] at ha
        obtain ⟨x, hx, rfl⟩ := List.mem_map.mp ha
        simp only [List.map_cons, List.map_nil, List.mem_singleton] at hb
        rw [hb]
        exact hnew x hx
      · intro x hx
        rw [← List.append_assoc] at hx
        rcases List.mem_append.mp hx with hx | hx
        · exact h.sound x hx
        · simp only [List.mem_singleton] at hx
          subst hx
          exact ⟨hid, hmark, hdata⟩
    · have ho : k'.owner ≠ .sock fd := fun ho => h.only q' hq ⟨k', hk, ho⟩
      have hin := arrive_inbox_other (s := s) (q := q') (p := p) ho
      refine ⟨[], ⟨⟨k, ?_, h2, by simpa using h3⟩, honly, ?_, ?_, ?_, ?_, by simpa using h.distinct, by simpa using h.sound⟩, by simp [hin], fun _ => rfl⟩
      · rw [arrive_queues, setQueue_other _ _ (Ne.symm hq)]; exact h1
      · rw [arrive_cameTo, if_neg hq, h.came]; simp
      · unfold KState.leftFrom; rw [arrive_out]; exact h.left
      · rw [hin, h.notes]; simp
      · rw [hin, h.acks]
  | @others _ l o1 o2 o3 o4 o5 =>
    have hours : ¬ NotOurs (s.queues q) := by
      rw [h1]
      rintro ⟨n, hn⟩
      rw [p1, hc] at hn
      cases hn
    refine ⟨[], ⟨⟨k, ?_, h2, by simpa using h3⟩, honly, ?_, ?_, ?_, ?_, by simpa using h.distinct, by simpa using h.sound⟩, by simp [o1], fun _ => rfl⟩
    · rcases o5 q with h5 | ⟨_, h5, _⟩
      · rw [h5]; exact h1
      · exact absurd h5 hours
    · rw [List.append_nil, ← h.came]; unfold KState.cameTo; rw [o2]
    · unfold KState.leftFrom
      rw [o3, List.filter_append]
      have : l.filter (fun g => decide (g.queue = q)) = [] := by
        rw [List.filter_eq_nil_iff]
        intro g hg hq
        obtain ⟨_, h5⟩ := o4 g hg
        rw [of_decide_eq_true hq] at h5
        exact hours h5
      rw [this, List.append_nil]
      exact h.left
    · rw [o1, h.notes]; simp
    · rw [o1, h.acks]

theorem Tally.meanwhile (h : Tally fd q c came left rest pend acks s) (hc : c.owner = .sock fd) (hm : Meanwhile F s s') :
    ∃ new, Tally fd q c came left rest (pend ++ new) acks s' ∧ s'.inbox fd = s.inbox fd ++ new.map (Pkt.note c.range) ∧
      (c.mode = 0 → new = []) := by
  induction hm with
  | refl => exact ⟨[], by simpa using h, by simp, fun _ => rfl⟩
  | tail _ hm ih =>
    obtain ⟨n1, t1, i1, z1⟩ := ih
    obtain ⟨n2, t2, i2, z2⟩ := t1.env1 hc hm
    exact ⟨n1 ++ n2, by rw [← List.append_assoc]; exact t2, by rw [i2, i1]; simp, fun h0 => by rw [z1 h0, z2 h0]; rfl⟩

/-- A message is received: an acknowledgement, or the next packet. -/
theorem Tally.received (h : Tally fd q c came left rest pend acks s) {n : Note} {l : List Note} (hi : s.inbox fd = n :: l) :
    (n = .ack 0 ∧ ∃ a, acks = a + 1 ∧ Tally fd q c came left rest pend a (s.setInbox fd l)) ∨
    ∃ p pend', pend = p :: pend' ∧ n = p.note c.range ∧ Tally fd q c (came ++ [p]) left (rest ++ [p]) pend' acks (s.setInbox fd l) := by
  have hn := h.notes
  have ha := h.acks
  rw [hi] at hn ha
  cases n with
  | ack x =>
    left
    simp only [Note.isPacket, List.filter_cons, Bool.false_eq_true, if_false, Bool.not_false, if_true] at hn ha
    cases acks with
    | zero => cases ha
    | succ a =>
      rw [List.replicate_succ] at ha
      simp only [List.cons.injEq] at ha
      exact ⟨ha.1, a, rfl, ⟨h.queue, h.only, h.came, h.left, by rw [setInbox_same]; exact hn, by rw [setInbox_same]; exact ha.2, h.distinct, h.sound⟩⟩
  | packet a b d =>
    right
    simp only [Note.isPacket, List.filter_cons, Bool.false_eq_true, if_false, Bool.not_true, if_true] at hn ha
    cases pend with
    | nil => cases hn
    | cons p pend' =>
      simp only [List.map_cons, List.cons.injEq] at hn
      refine ⟨p, pend', rfl, hn.1, ?_⟩
      have e1 : rest ++ p :: pend' = rest ++ [p] ++ pend' := by simp
      have e2 : came ++ p :: pend' = came ++ [p] ++ pend' := by simp
      exact ⟨by rw [← e1]; exact h.queue, h.only, by rw [← e2]; exact h.came, h.left, by rw [setInbox_same]; exact hn.2,
        by rw [setInbox_same]; exact ha, by rw [← e1]; exact h.distinct, by rw [← e1]; exact h.sound⟩

theorem filter_last {l1 l2 : List Pkt} {p : Pkt} (hd : ((l1 ++ [p] ++ l2).map Pkt.id).Nodup) :
    (l1 ++ [p] ++ l2).filter (fun x => decide (x.id ≠ p.id)) = l1 ++ l2 ∧ (l1 ++ [p] ++ l2).find? (fun x => decide (x.id = p.id)) = some p := by
  have h1 : ∀ x ∈ l1, x.id ≠ p.id := by
    intro x hx he
    rw [List.append_assoc, List.map_append, List.nodup_append] at hd
    exact hd.2.2 x.id (List.mem_map.mpr ⟨x, hx, rfl⟩) p.id (by simp) he
  have h2 : ∀ x ∈ l2, x.id ≠ p.id := by
    intro x hx he
    rw [List.map_append, List.nodup_append] at hd
    exact hd.2.2 p.id (by simp) x.id (List.mem_map.mpr ⟨x, hx, rfl⟩) he.symm
  constructor
  · have g1 : l1.filter (fun x => decide (x.id ≠ p.id)) = l1 := List.filter_eq_self.mpr (by simpa using h1)
    have g2 : l2.filter (fun x => decide (x.id ≠ p.id)) = l2 := List.filter_eq_self.mpr (by simpa using h2)
    rw [List.filter_append, List.filter_append, g1, g2]
    simp
  · rw [List.append_assoc, List.find?_append, List.find?_eq_none.mpr (by simpa using h1)]
    simp

/-- A verdict on the packet received last is served. -/
theorem Tally.verdict {p : Pkt} (h : Tally fd q c came left (rest ++ [p]) pend acks s) (hc : c.owner = .sock fd) {m : NfMsg} (hq : m.resId = q)
    {v : Nat} (h2 : (attrOf 2 m.attrs).bind (be32 · 0) = some v) (h3 : (attrOf 2 m.attrs).bind (be32 · 4) = some p.id)
    (hv : v % 256 ≤ 5 ∧ v % 256 ≠ 2) :
    (s.verdict fd m).1 = 0 ∧ Tally fd q c came (left ++ [⟨q, p.rewritten m.attrs, v⟩]) rest pend acks (s.verdict fd m).2 ∧
      (s.verdict fd m).2.inbox = s.inbox := by
  obtain ⟨k, k1, k2, k3⟩ := h.queue
  obtain ⟨p1, p2, p3, p4⟩ := conf_parts k2
  have hd := h.distinct
  obtain ⟨f1, f2⟩ := filter_last hd
  have he : s.verdict fd m = (0, { s.setQueue q (some { k with waiting := rest ++ pend }) with
      out := s.out ++ [⟨q, p.rewritten m.attrs, v⟩] }) := by
    unfold KState.verdict
    rw [hq, k1]
    simp only
    rw [if_neg (by rw [p1, hc]; simp), h2, h3]
    simp only
    rw [if_neg (by omega), k3, f2]
    simp only [f1]
  rw [he]
  refine ⟨rfl, ⟨⟨{ k with waiting := rest ++ pend }, ?_, ?_, rfl⟩, ?_, h.came, ?_, h.notes, h.acks, ?_, ?_⟩, rfl⟩
  · show (s.setQueue q _).queues q = _
    rw [setQueue_same]
  · rw [← k2]; rfl
  · rintro q' hq' ⟨y, hy, ho⟩
    refine h.only q' hq' ⟨y, ?_, ho⟩
    have : (s.setQueue q (some { k with waiting := rest ++ pend })).queues q' = some y := hy
    rw [setQueue_other _ _ hq'] at this
    exact this
  · unfold KState.leftFrom
    rw [List.filter_append]
    have := h.left
    unfold KState.leftFrom at this
    rw [this]
    simp
  · have : (rest ++ pend).Sublist (rest ++ [p] ++ pend) := by
      rw [List.append_assoc]
      exact List.Sublist.append_left (List.sublist_append_right _ _) _
    exact (this.map _).nodup hd
  · intro x hx
    refine h.sound x ?_
    rcases List.mem_append.mp hx with hx | hx <;> simp [hx]

/-- The kernel's answer to a request that is granted and asks for it. -/
theorem Tally.answered (h : Tally fd q c came left rest pend acks s) {b : List Byte} (hw : wantsAck e b = true) :
    Tally fd q c came left rest pend (acks + 1) (s.answer e fd b 0) := by
  unfold KState.answer
  rw [if_pos (.inr hw)]
  refine ⟨h.queue, h.only, h.came, h.left, ?_, ?_, h.distinct, h.sound⟩
  · rw [setInbox_same, List.filter_append, h.notes]; simp [Note.isPacket]
  · rw [setInbox_same, List.filter_append, h.acks]
    simp [Note.isPacket, List.replicate_succ']

/-- The queue is configured anew; before, no packets were wanted, or the copy range stays. -/
theorem Tally.configured {c' k' : KQueue} (h : Tally fd q c came left rest pend acks s) (hr : pend = [] ∨ c'.range = c.range)
    (h1 : k'.conf = c'.conf) (h2 : k'.waiting = rest ++ pend) : Tally fd q c' came left rest pend acks (s.setQueue q (some k')) := by
  refine ⟨⟨k', setQueue_same _ _ _, h1, h2⟩, ?_, h.came, h.left, ?_, h.acks, h.distinct, h.sound⟩
  · rintro q' hq' ⟨y, hy, ho⟩
    rw [setQueue_other _ _ hq'] at hy
    exact h.only q' hq' ⟨y, hy, ho⟩
  · show (s.inbox fd).filter Note.isPacket = _
    rw [h.notes]
    rcases hr with rfl | hr
    · rfl
    · rw [hr]

/-- A configuration request with its reply: that reply may be a packet's message instead. -/
theorem Tally.acked {c' : KQueue} {req : QReq} {evs : List (Ev QEv)} (ha : Acked e fd req evs) (hrun : Run e F s evs s')
    (hc : c.owner = .sock fd) (hc' : c'.owner = .sock fd) (hr : c.mode = 0 ∧ pend = [] ∨ c'.range = c.range)
    (hserve : ∀ b, Encodes e b req → ∀ (t : KState) (k : KQueue), t.queues q = some k → k.conf = c.conf →
      ∃ k', k'.conf = c'.conf ∧ k'.waiting = k.waiting ∧ t.serve e fd b = (0, t.setQueue q (some k')))
    (h : Tally fd q c came left rest pend acks s) :
    ∃ extra pend', extra.length ≤ 1 ∧ Tally fd q c' (came ++ extra) left (rest ++ extra) pend' (acks + extra.length) s' := by
  obtain ⟨b, d, size, evs1, hb, hs, rfl, _, _⟩ := ha
  obtain ⟨t, r1, r2⟩ := hrun.split
  obtain ⟨s1, s2, m1, m2, m3⟩ := r1.sent hs
  obtain ⟨n1, t1, _, z1⟩ := h.meanwhile hc m1
  obtain ⟨k, k1, k2, k3⟩ := t1.queue
  obtain ⟨k', a1, a2, a3⟩ := hserve b hb s1 k k1 k2
  rw [a3] at m2 m3
  have t2 : Tally fd q c' came left rest (pend ++ n1) acks (s1.setQueue q (some k')) := by
    refine t1.configured ?_ a1 (by rw [a2, k3])
    rcases hr with ⟨h0, hp⟩ | hr
    · left; rw [hp, z1 h0]; rfl
    · exact .inr hr
  obtain ⟨n2, t3, _, _⟩ := t2.meanwhile hc' m2
  obtain ⟨_, _, _, hw, _⟩ := hb.decoded
  have t4 := t3.answered hw
  obtain ⟨n3, t5, _, _⟩ := t4.meanwhile hc' m3
  obtain ⟨s3, n, l, d', m4, hin, _, _, m5⟩ := r2.got
  obtain ⟨n4, t6, _, _⟩ := t5.meanwhile hc' m4
  rcases t6.received hin with ⟨_, a, ha, t7⟩ | ⟨p, pend', _, _, t7⟩
  · have : a = acks := by omega
    subst this
    obtain ⟨n5, t8, _, _⟩ := t7.meanwhile hc' m5
    exact ⟨[], _, by simp, by simpa using t8⟩
  · obtain ⟨n5, t8, _, _⟩ := t7.meanwhile hc' m5
    exact ⟨[p], _, by simp, t8⟩

end Verif.NfQueue
