import Verif.NfQueue.Elsewhere
import Verif.Props.NfQueueAnswer
import Verif.Props.NfQueueDeliver
/-!
For C144: what becomes of the packets of one queue, seen from a kernel that keeps queues (Queues.lean), if its goroutine makes turns
as in C119 while other goroutines do things with other sockets.
-/
namespace Verif.Props
open Verif.Common Verif.Sys Verif.Spec Verif.NfQueue

/-- An acknowledgement left over from the start of a queue. -/
def Stray (d : List Byte) : Prop := ∃ n, IsAck .little d n ∧ 20 ≤ n ∧ n < 65536

/-- Its attribute header, on a little-endian host. -/
theorem Stray.header {d : List Byte} (h : Stray d) : ∃ n, 20 ≤ n ∧ d.length = 36 ∧ HeaderAt .little (d.drop 20) 0 n 0 := by
  obtain ⟨n, ⟨hlen, hty, hc, hr⟩, h20, h64⟩ := h
  refine ⟨n, h20, hlen, ?_⟩
  have hlow : num16 .little d 20 = some n ∧ num16 .little d 22 = some 0 := by
    unfold num32 at hr
    unfold num16
    split at hr
    · rename_i x y z t h1 h2 h3 h4
      rw [Option.some.injEq] at hr
      simp only at hr
      simp only [h1, h2, h3, h4, Option.some.injEq]
      have hx := x.isLt; have hy := y.isLt; have hz := z.isLt; have ht := t.isLt
      omega
    · cases hr
  refine ⟨by simp; omega, ?_, ?_⟩
  · rw [num16_drop]; exact hlow.1
  · rw [num16_drop]; exact hlow.2

theorem stray_fails : OddFails Stray .little := by
  intro d h
  obtain ⟨n, h20, hlen, hh⟩ := h.header
  have hl : (d.drop 20).length = 16 := by rw [List.length_drop]; omega
  refine ⟨⟨by omega, fun _ => ⟨by omega, ?_⟩⟩, .inr ⟨0, n, 0, .here 0, hh, by omega⟩⟩
  intro j l t hv hj
  cases hv with
  | here =>
    have h1 : l = n := Option.some.inj (hj.2.1.symm.trans hh.2.1)
    have h2 : t = 0 := Option.some.inj (hj.2.2.symm.trans hh.2.2)
    omega
  | @step _ _ l' h1 h2 h3 _ =>
    have : l' = n := Option.some.inj (h2.symm.trans hh.2.1)
    omega

/-- It is not a packet. -/
theorem Stray.not_packet {d : List Byte} (h : Stray d) (id : Nat) (payload : List Byte) : ¬ PacketMsg .little d id payload := by
  rintro ⟨attrs, _, hcar, _⟩
  obtain ⟨n, h20, hlen, hh⟩ := h.header
  exact carries_good hcar (by omega) ⟨0, n, 0, .here 0, hh, by rw [List.length_drop]; omega⟩

/-- The attributes of a datagram are determined by its bytes. -/
theorem carries_same {e : Endian} {d : List Byte} {as bs : List (Nat × List Byte)} (ha : Carries e d as) (hb : Carries e d bs)
    (hs : d.length + 3 < 2 ^ 32) {k : Nat} (hk : k < 11) {p q : List Byte} (hp : lastOf k as = some p) (hq : lastOf k bs = some q) : p = q := by
  obtain ⟨h1, a1, a2, a3⟩ := ha
  obtain ⟨h2, b1, b2, b3⟩ := hb
  have da : d.drop 20 = encodeAttrs e as := by rw [a2, List.drop_left' a1]
  have db : d.drop 20 = encodeAttrs e bs := by rw [b2, List.drop_left' b1]
  have hby : (⟨[d.drop 20]⟩ : Heap).bytes ⟨0, 0, (d.drop 20).length, (d.drop 20).length⟩ = d.drop 20 := by
    simp [Heap.bytes, Heap.arrayOf, List.take_of_length_le]
  have hv : (⟨0, 0, (d.drop 20).length, (d.drop 20).length⟩ : Slice).Valid ⟨[d.drop 20]⟩ := by
    simp [Slice.Valid, Heap.arrayOf]
  have hs' : (⟨0, 0, (d.drop 20).length, (d.drop 20).length⟩ : Slice).len + 3 < 2 ^ 32 := by
    show (d.drop 20).length + 3 < _
    rw [List.length_drop]; omega
  obtain ⟨m1, hm1, g1⟩ := C05_parse_encode e _ _ hv hs' as a3 (by rw [hby, da]) (fun _ => some Slice.nil)
  obtain ⟨m2, hm2, g2⟩ := C05_parse_encode e _ _ hv hs' bs b3 (by rw [hby, db]) (fun _ => some Slice.nil)
  rw [hm1] at hm2
  cases hm2
  have x1 := (g1 k).2.1 _ rfl
  have x2 := (g2 k).2.1 _ rfl
  rw [hp] at x1
  rw [hq] at x2
  obtain ⟨s1, y1, z1⟩ := x1 hk
  obtain ⟨s2, y2, z2⟩ := x2 hk
  rw [y1] at y2
  cases y2
  rw [← z1, z2]

/-- A packet message is about one packet. -/
theorem packet_same {e : Endian} {d : List Byte} {i j : Nat} {p q : List Byte} (h : PacketMsg e d i p) (h' : PacketMsg e d j q)
    (hs : d.length + 3 < 2 ^ 32) : i = j ∧ p = q := by
  obtain ⟨as, x, a1, _, a3, a4, a5, _⟩ := h
  obtain ⟨bs, y, b1, _, b3, b4, b5, _⟩ := h'
  have hxy := carries_same a1 b1 hs (k := 1) (by decide) a3 b3
  subst hxy
  exact ⟨Option.some.inj (a4.symm.trans b4), carries_same a1 b1 hs (k := 10) (by decide) a5 b5⟩

/-! ### The account -/

/-- A packet that was given to the application: as it waited in the queue, the mark and the id shown to the application, the application's
answer, and whether the message with the answer was sent (`none`: there is none, or not yet). -/
structure Dealt where
  pkt : Pkt
  mark : Nat
  id : Nat
  answer : Answer
  sent : Option Bool

/-- The bytes, padded with zeros to a multiple of four. -/
def padded (b : List Byte) : List Byte := b ++ List.replicate ((4 - b.length % 4) % 4) 0

/-- How a packet leaves queue `q` that copies `range` bytes, if its verdict was sent.  After `SetVerdict`: with its mark, and with the copied
bytes, padded; after `SetVerdict2`: with the mark of the verdict, and the copied bytes. -/
def Dealt.leaves (q range : Nat) (x : Dealt) : Option Gone :=
  match x.answer, x.sent with
  | .verdict v, some true => some ⟨q, ⟨x.pkt.id, x.pkt.mark, padded (x.pkt.data.take range)⟩, v.toNat⟩
  | .verdict2 v m, some true => some ⟨q, ⟨x.pkt.id, m.toNat, x.pkt.data.take range⟩, v.toNat⟩
  | _, _ => none

/-- The packets that were not answered (or whose verdict was not sent). -/
def unsentOf (del : List Dealt) : List Pkt := (del.filter fun x => decide (x.sent ≠ some true)).map Dealt.pkt

/-- What the application was shown: bytes, mark and id of each packet. -/
def shownIn (evs : List (Ev QEv)) : List (List Byte × Nat × Nat) := evs.filterMap fun
  | .app (.packet _ b mark id _) => some (b, mark, id)
  | _ => none

/-- The application was shown the right id (in host order), and the right mark if there is one. -/
def Dealt.Right (e : Endian) (x : Dealt) : Prop := be32 (bytes32 e x.id) 0 = some x.pkt.id ∧ (x.pkt.mark ≠ 0 → x.mark = x.pkt.mark)

/-- A verdict the kernel takes: drop, accept, queue, repeat, stop; and `SetVerdict` can send no more than 65528 bytes. -/
def TakesIt (b : List Byte) : Answer → Prop
  | .silent => True
  | .verdict v => (v.toNat % 256 ≤ 5 ∧ v.toNat % 256 ≠ 2) ∧ b.length ≤ 65528
  | .verdict2 v _ => v.toNat % 256 ≤ 5 ∧ v.toNat % 256 ≠ 2

/-- The application only gives such verdicts. -/
def Takes (policy : Policy) (range : Nat) : Prop := ∀ n b mark id, b.length ≤ range → TakesIt b (policy n b mark id)

/-- Events of goroutine `j`, and events of others that are not about descriptor `fd`. -/
def OffBut (j fd : Nat) (l : List (Option Nat × Ev QEv)) : Prop := ∀ x ∈ l, x.1 = some j ∨ EvOff fd x.2

theorem OffBut.left {j fd : Nat} {a b : List (Option Nat × Ev QEv)} (h : OffBut j fd (a ++ b)) : OffBut j fd a :=
  fun x hx => h x (List.mem_append_left _ hx)
theorem OffBut.right {j fd : Nat} {a b : List (Option Nat × Ev QEv)} (h : OffBut j fd (a ++ b)) : OffBut j fd b :=
  fun x hx => h x (List.mem_append_right _ hx)

theorem byGo_append (i : Option Nat) (a b : List (Option Nat × Ev QEv)) : byGo i (a ++ b) = byGo i a ++ byGo i b := by
  unfold byGo
  rw [List.filter_append, List.map_append]

theorem byGo_cons_same (i : Option Nat) (ev : Ev QEv) (l : List (Option Nat × Ev QEv)) : byGo i ((i, ev) :: l) = ev :: byGo i l := by
  simp [byGo]

theorem byGo_cons_other {i k : Option Nat} (h : k ≠ i) (ev : Ev QEv) (l : List (Option Nat × Ev QEv)) : byGo i ((k, ev) :: l) = byGo i l := by
  simp [byGo, h]

/-- A log is cut where the events of one goroutine are. -/
theorem byGo_split (i : Option Nat) : ∀ (l : List (Option Nat × Ev QEv)) (a b : List (Ev QEv)), byGo i l = a ++ b →
    ∃ x y, l = x ++ y ∧ byGo i x = a ∧ byGo i y = b := by
  intro l
  induction l with
  | nil =>
    intro a b h
    have h : [] = a ++ b := h
    obtain ⟨rfl, rfl⟩ := List.append_eq_nil_iff.mp h.symm
    exact ⟨[], [], rfl, rfl, rfl⟩
  | cons x l ih =>
    intro a b h
    obtain ⟨k, ev⟩ := x
    cases a with
    | nil => exact ⟨[], _, rfl, rfl, h⟩
    | cons c a =>
      by_cases hk : k = i
      · subst hk
        rw [byGo_cons_same, List.cons_append, List.cons.injEq] at h
        obtain ⟨rfl, h⟩ := h
        obtain ⟨x, y, rfl, h1, h2⟩ := ih a b h
        exact ⟨(k, ev) :: x, y, rfl, by rw [byGo_cons_same, h1], h2⟩
      · rw [byGo_cons_other hk] at h
        obtain ⟨x, y, rfl, h1, h2⟩ := ih _ _ h
        exact ⟨(k, ev) :: x, y, rfl, by rw [byGo_cons_other hk, h1], h2⟩

/-- The one event of a goroutine. -/
theorem byGo_one {i : Option Nat} {ev : Ev QEv} {l : List (Option Nat × Ev QEv)} (h : byGo i l = [ev]) :
    ∃ x y, l = x ++ (i, ev) :: y ∧ byGo i x = [] ∧ byGo i y = [] := by
  induction l with
  | nil => cases h
  | cons z l ih =>
    obtain ⟨k, e1⟩ := z
    by_cases hk : k = i
    · subst hk
      rw [byGo_cons_same, List.cons.injEq] at h
      obtain ⟨rfl, h⟩ := h
      exact ⟨[], l, rfl, rfl, h⟩
    · rw [byGo_cons_other hk] at h
      obtain ⟨x, y, rfl, h1, h2⟩ := ih h
      exact ⟨(k, e1) :: x, y, rfl, by rw [byGo_cons_other hk, h1], h2⟩

/-- Events of others and silent ones of the goroutine itself. -/
theorem OffBut.off {j fd : Nat} {l : List (Option Nat × Ev QEv)} (h : OffBut j fd l) (hs : ∀ ev ∈ byGo (some j) l, Silent ev) :
    ∀ ev ∈ l.map (·.2), EvOff fd ev := by
  intro ev hev
  obtain ⟨x, hx, rfl⟩ := List.mem_map.mp hev
  rcases h x hx with h1 | h1
  · refine .of_silent (hs _ ?_)
    unfold byGo
    exact List.mem_map.mpr ⟨x, List.mem_filter.mpr ⟨hx, by simp [h1]⟩, rfl⟩
  · exact h1

variable {F : Nat → Prop} {K : Kernel QEv} {st : List (Ev QEv) → KState} {fd q j acks : Nat} {c : KQueue} {came rest pend : List Pkt} {left : List Gone}
  {tr : List (Ev QEv)} {all : List (Option Nat × Ev QEv)} {e : Endian}

/-- Nothing is done on the socket. -/
theorem tally_others (hT : Tally fd q c came left rest pend acks (st tr)) (hK : Keeps e F K st) (hc : c.owner = .sock fd)
    (hg : Genuine K tr (all.map (·.2))) (ho : OffBut j fd all) (hs : ∀ ev ∈ byGo (some j) all, Silent ev) :
    ∃ new, Tally fd q c came left rest (pend ++ new) acks (st (tr ++ all.map (·.2))) :=
  hT.off hc (Run.of_genuine hK hg) (ho.off hs)

/-- One thing is done on the socket. -/
theorem tally_own {ev : Ev QEv} (hT : Tally fd q c came left rest pend acks (st tr)) (hK : Keeps e F K st) (hc : c.owner = .sock fd)
    (hg : Genuine K tr (all.map (·.2))) (ho : OffBut j fd all) (h1 : byGo (some j) all = [ev]) :
    ∃ tr1 new s2, (∃ x, tr1 = tr ++ x) ∧ Tally fd q c came left rest (pend ++ new) acks (st tr1) ∧ Answers K tr1 ev ∧ Run e F (st tr1) [ev] s2 ∧
      ∀ came' left' rest' pend' acks', Tally fd q c came' left' rest' pend' acks' s2 →
        ∃ new', Tally fd q c came' left' rest' (pend' ++ new') acks' (st (tr ++ all.map (·.2))) := by
  obtain ⟨x, y, rfl, hx, hy⟩ := byGo_one h1
  rw [List.map_append, List.map_cons] at hg ⊢
  obtain ⟨g1, g2⟩ := hg.split
  obtain ⟨new, t1⟩ := tally_others hT hK hc g1 ho.left (by rw [hx]; simp)
  have hans : Answers K (tr ++ x.map (·.2)) ev := by
    cases g2 with
    | cons h _ => exact h
  have hga : Genuine K (tr ++ x.map (·.2)) ([ev] ++ y.map (·.2)) := g2
  obtain ⟨g3, g4⟩ := hga.split
  refine ⟨_, new, _, ⟨_, rfl⟩, t1, hans, Run.of_genuine hK g3, ?_⟩
  intro came' left' rest' pend' acks' t2
  have ho' : OffBut j fd y := fun z hz => ho z (by simp [hz])
  obtain ⟨new', t3⟩ := tally_others t2 hK hc g4 ho' (by rw [hy]; simp)
  exact ⟨new', by simpa using t3⟩

/-- Something is received: an acknowledgement left over, or the message about the next packet. -/
theorem tally_got {s s' : KState} {d : List Byte} {flags : Nat} (hT : Tally fd q c came left rest pend acks s) (hc : c.owner = .sock fd) (hr : 0 < c.range)
    (hrun : Run .little F s [.recvfrom fd 76800 flags (.ok d)] s') :
    (Stray d ∧ ∃ a new, acks = a + 1 ∧ Tally fd q c came left rest (pend ++ new) a s') ∨
    (∃ new p pend' id, pend ++ new = p :: pend' ∧ PacketMsg .little d id (p.data.take c.range) ∧ ¬ ErrMsg .little d ∧ ¬ Stray d ∧ d.length < 76800 ∧
      (∀ pre : List Byte, pre.length = 4 → be32 (pre ++ bytes32 .little id) 4 = some p.id) ∧ be32 (bytes32 .little id) 0 = some p.id ∧
      (∀ mark, (∀ attrs b, Carries .little d attrs → lastOf 3 attrs = some b → be32 b 0 = some mark) → p.mark ≠ 0 → mark = p.mark) ∧
      Tally fd q c (came ++ [p]) left (rest ++ [p]) pend' acks s') := by
  obtain ⟨s1, n, l, d', m1, hin, hn, hdd, m2⟩ := hrun.got
  obtain ⟨n1, t1, _, _⟩ := hT.meanwhile hc m1
  rcases t1.received hin with ⟨rfl, a, rfl, t2⟩ | ⟨p, pend1, hp, rfl, t2⟩
  · obtain ⟨reqLen, hA, h20, h64⟩ := hn.2.2 rfl
    have hlen : d'.length = 36 := hA.1
    rw [List.take_of_length_le (by omega)] at hdd
    subst hdd
    obtain ⟨n2, t3, _, _⟩ := t2.meanwhile hc m2
    exact .inl ⟨⟨reqLen, hA, h20, h64⟩, a, n1 ++ n2, rfl, by simpa using t3⟩
  · obtain ⟨n2, t3, _, _⟩ := t2.meanwhile hc m2
    have hsound := t2.sound p (by simp)
    obtain ⟨id, hP, hE, hid⟩ := packet_understood hn hr hsound.2.2
    obtain ⟨attrs, head, h1, h2, h3, hlen, h4, h5, h6, h7, h8⟩ := hn
    rw [List.take_of_length_le (Nat.le_of_lt hlen)] at hdd
    subst hdd
    refine .inr ⟨n1 ++ n2, p, pend1 ++ n2, id, ?_, hP, hE, ?_, hlen, hid, ?_, ?_, t3⟩
    · rw [← List.append_assoc, hp]; rfl
    · rintro ⟨n, ⟨_, ht, _⟩, _⟩
      have : num16 .little d 4 = num16 .little head 4 := by
        rw [h3]
        unfold num16
        rw [List.getElem?_append_left (by omega), List.getElem?_append_left (by omega)]
      rw [this, h2] at ht
      simp at ht
    · exact hid [0, 0, 0, 0] rfl
    · intro mark hm h0
      rw [if_neg h0] at h7
      cases hl : lastOf 3 attrs with
      | none => rw [hl] at h7; cases h7
      | some b =>
        rw [hl, Option.bind_some] at h7
        have := hm attrs b ⟨head, h1, h3, h4⟩ hl
        rw [h7] at this
        exact (Option.some.inj this).symm

/-- The kernel is told a verdict about the packet that was received last. -/
theorem tally_told {s s' : KState} {b : List Byte} {m : NfMsg} {p : Pkt} {v : U32} {id : Nat}
    (hT : Tally fd q c came left (rest ++ [p]) pend acks s) (hc : c.owner = .sock fd) (hb : decodeNf e b = some m) (ht : m.type = 0x301) (hf : m.flags = 1)
    (hq : m.resId = q) (h2 : attrOf 2 m.attrs = some (bytes32 .big v.toNat ++ bytes32 e id))
    (hid : ∀ pre : List Byte, pre.length = 4 → be32 (pre ++ bytes32 e id) 4 = some p.id) (hv : v.toNat % 256 ≤ 5 ∧ v.toNat % 256 ≠ 2)
    (hrun : Run e F s [.sendmsg fd b none] s') :
    ∃ new, Tally fd q c came (left ++ [⟨q, p.rewritten m.attrs, v.toNat⟩]) rest (pend ++ new) acks s' := by
  obtain ⟨s4, s5, m4, m5, m6⟩ := Run.sentmsg hrun
  obtain ⟨n4, t5, _, _⟩ := hT.meanwhile hc m4
  have hserve : s4.serve e fd b = s4.verdict fd m := by
    unfold KState.serve
    rw [hb]
    simp [ht]
  have hwant : wantsAck e b = false := by
    unfold wantsAck
    rw [hb]
    simp [hf]
  have e1 : be32 (bytes32 .big v.toNat ++ bytes32 e id) 0 = some v.toNat := by
    have := num32_bytes32 .big v.toNat v.isLt
    unfold be32
    rw [← this]; rfl
  obtain ⟨v1, v2, v3⟩ := t5.verdict hc (m := m) (v := v.toNat) hq (by rw [h2, Option.bind_some, e1]) (by rw [h2, Option.bind_some, hid _ rfl]) hv
  rw [hserve] at m5 m6
  rw [v1] at m6
  have hans : ∀ x : KState, x.answer e fd b 0 = x := by
    intro x
    unfold KState.answer
    rw [hwant]
    simp
  rw [hans] at m6
  obtain ⟨n5, t6, _, _⟩ := v2.meanwhile hc (m5.trans m6)
  exact ⟨n4 ++ n5, by simpa using t6⟩

/-- What the events say about the packets given to the application; `n` were given before. -/
structure Tells (policy : Policy) (range n : Nat) (evs : List (Ev QEv)) (del : List Dealt) : Prop where
  shown : shownIn evs = del.map fun x => (x.pkt.data.take range, x.mark, x.id)
  right : ∀ x ∈ del, x.Right .little
  answers : answersOf policy n evs = del.map Dealt.answer
  sent : verdictsSent evs = del.filterMap Dealt.sent
  silent : ∀ x ∈ del, x.answer = .silent → x.sent = none

theorem shownIn_append (a b : List (Ev QEv)) : shownIn (a ++ b) = shownIn a ++ shownIn b := by
  unfold shownIn; rw [List.filterMap_append]
theorem verdictsSent_append (a b : List (Ev QEv)) : verdictsSent (a ++ b) = verdictsSent a ++ verdictsSent b := by
  unfold verdictsSent; rw [List.filterMap_append]
theorem unsentOf_append (a b : List Dealt) : unsentOf (a ++ b) = unsentOf a ++ unsentOf b := by
  unfold unsentOf; rw [List.filter_append, List.map_append]

theorem Tells.append {policy : Policy} {range n : Nat} {a b : List (Ev QEv)} {d1 d2 : List Dealt} (h : Tells policy range n a d1)
    (h' : Tells policy range (n + a.countP isPacket) b d2) : Tells policy range n (a ++ b) (d1 ++ d2) where
  shown := by rw [shownIn_append, h.shown, h'.shown, List.map_append]
  right x hx := by
    rcases List.mem_append.mp hx with hx | hx
    · exact h.right x hx
    · exact h'.right x hx
  answers := by rw [answersOf_append, h.answers, h'.answers, List.map_append]
  sent := by rw [verdictsSent_append, h.sent, h'.sent, List.filterMap_append]
  silent x hx := by
    rcases List.mem_append.mp hx with hx | hx
    · exact h.silent x hx
    · exact h'.silent x hx

theorem Tells.nothing {policy : Policy} {range n : Nat} {evs : List (Ev QEv)} (h1 : shownIn evs = []) (h2 : evs.countP isPacket = 0)
    (h3 : verdictsSent evs = []) : Tells policy range n evs [] :=
  ⟨h1, by simp, answersOf_none _ _ _ h2, h3, by simp⟩

/-- What has become of the packets after these events: `del` were given to the application. -/
def Became (fd q : Nat) (c : KQueue) (came rest pend : List Pkt) (left : List Gone) (acks : Nat) (del : List Dealt) (new hand pend' : List Pkt) (acks' : Nat)
    (s : KState) : Prop :=
  pend ++ new = del.map Dealt.pkt ++ hand ++ pend' ∧ acks' ≤ acks ∧
  Tally fd q c (came ++ del.map Dealt.pkt ++ hand) (left ++ del.filterMap (Dealt.leaves q c.range)) (rest ++ unsentOf del ++ hand) pend' acks' s

/-- Every packet given to the application is answered, or was not to be. -/
def AllDone (del : List Dealt) : Prop := ∀ x ∈ del, x.sent = none → x.answer = .silent

/-- The zeros after the bytes. -/
theorem padded_eq {b : List Byte} {pad : Nat} (h : pad < 4) (h' : (b.length + pad) % 4 = 0) : b ++ List.replicate pad 0 = padded b := by
  unfold padded
  have : pad = (4 - b.length % 4) % 4 := by omega
  rw [this]

/-- The packet was shown to the application, which now answers. -/
theorem answer_account (hK : Keeps .little F K st) (hc : c.owner = .sock fd) {p : Pkt} {mark id : Nat} {a : Answer} {evs : List (Ev QEv)}
    (ha : TakesIt (p.data.take c.range) a) (hans : Answered .little fd q id (p.data.take c.range) a evs)
    (hid : ∀ pre : List Byte, pre.length = 4 → be32 (pre ++ bytes32 .little id) 4 = some p.id)
    (hg : Genuine K tr (all.map (·.2))) (ho : OffBut j fd all) (hby : byGo (some j) all = evs)
    (hT : Tally fd q c came left (rest ++ [p]) pend acks (st tr)) :
    ∃ sent new, shownIn evs = [] ∧ evs.countP isPacket = 0 ∧ verdictsSent evs = sent.toList ∧ (a = .silent ↔ sent = none) ∧
      Tally fd q c came (left ++ (Dealt.leaves q c.range ⟨p, mark, id, a, sent⟩).toList) (rest ++ unsentOf [⟨p, mark, id, a, sent⟩]) (pend ++ new) acks
        (st (tr ++ all.map (·.2))) ∧ (Healthy K st → (∃ d t p, .socket d t p (.ok fd) ∈ tr) → sent ≠ some false) := by
  have send : ∀ (b : List Byte) (r : Option Nat), evs = [.sendmsg fd b r] → (∃ new, Tally fd q c came
        (left ++ (if r = none then Dealt.leaves q c.range ⟨p, mark, id, a, some true⟩ else none).toList)
        (rest ++ if r = none then [] else [p]) (pend ++ new) acks (st (tr ++ all.map (·.2)))) → a ≠ .silent →
      ∃ sent new, shownIn evs = [] ∧ evs.countP isPacket = 0 ∧ verdictsSent evs = sent.toList ∧ (a = .silent ↔ sent = none) ∧
      Tally fd q c came (left ++ (Dealt.leaves q c.range ⟨p, mark, id, a, sent⟩).toList) (rest ++ unsentOf [⟨p, mark, id, a, sent⟩]) (pend ++ new) acks
        (st (tr ++ all.map (·.2))) ∧ (Healthy K st → (∃ d t p, .socket d t p (.ok fd) ∈ tr) → sent ≠ some false) := by
    rintro b r rfl ⟨new, t⟩ hne
    refine ⟨some (decide (r = none)), new, rfl, rfl, rfl, by simp [hne], ?_, ?_⟩
    · cases r with
      | none => simpa [unsentOf] using t
      | some n =>
        have : Dealt.leaves q c.range ⟨p, mark, id, a, some (decide (some n = none))⟩ = none := by
          unfold Dealt.leaves
          cases a <;> simp
        rw [this]
        simpa [unsentOf] using t
    · rintro hH ⟨x, y, z, hop⟩
      obtain ⟨tr1, _, _, ⟨l, rfl⟩, _, hAns, _⟩ := tally_own hT hK hc hg ho hby
      have : r = K.send _ fd b := hAns
      rw [hH.send _ _ _ ⟨x, y, z, by simp [hop]⟩] at this
      simp [this]
  cases a with
  | silent =>
    have hans : evs = [] := hans
    subst hans
    obtain ⟨new, t⟩ := tally_others hT hK hc hg ho (by rw [hby]; simp)
    exact ⟨none, new, rfl, rfl, rfl, by simp, by simpa [unsentOf, Dealt.leaves] using t, by simp⟩
  | verdict v =>
    obtain ⟨b, r, rfl, hdec⟩ := hans
    obtain ⟨pad, hp1, hp2, hdec⟩ := hdec ha.2
    refine send b r rfl ?_ (by intro h; cases h)
    cases r with
    | some n =>
      obtain ⟨new, t⟩ := tally_others hT hK hc hg ho (by rw [hby]; simp [Silent, handedOver])
      exact ⟨new, by simpa using t⟩
    | none =>
      obtain ⟨tr1, n1, s2, _, t1, _, hrun, hend⟩ := tally_own hT hK hc hg ho hby
      obtain ⟨n2, t2⟩ := tally_told (v := v) (id := id) t1 hc hdec rfl rfl rfl (by simp [Spec.attrOf]) hid ha.1 hrun
      obtain ⟨n3, t3⟩ := hend _ _ _ _ _ t2
      have hrew : p.rewritten [⟨2, false, bytes32 .big v.toNat ++ bytes32 .little id⟩, ⟨10, false, p.data.take c.range ++ List.replicate pad 0⟩] =
          ⟨p.id, p.mark, padded (p.data.take c.range)⟩ := by
        rw [padded_eq hp1 hp2]
        simp [Pkt.rewritten, Spec.attrOf]
      rw [hrew] at t3
      exact ⟨n1 ++ n2 ++ n3, by simpa [Dealt.leaves] using t3⟩
  | verdict2 v m =>
    obtain ⟨b, r, rfl, hdec⟩ := hans
    refine send b r rfl ?_ (by intro h; cases h)
    cases r with
    | some n =>
      obtain ⟨new, t⟩ := tally_others hT hK hc hg ho (by rw [hby]; simp [Silent, handedOver])
      exact ⟨new, by simpa using t⟩
    | none =>
      obtain ⟨tr1, n1, s2, _, t1, _, hrun, hend⟩ := tally_own hT hK hc hg ho hby
      obtain ⟨n2, t2⟩ := tally_told (v := v) (id := id) t1 hc hdec rfl rfl rfl (by simp [Spec.attrOf]) hid ha hrun
      obtain ⟨n3, t3⟩ := hend _ _ _ _ _ t2
      have hrew : p.rewritten [⟨2, false, bytes32 .big v.toNat ++ bytes32 .little id⟩, ⟨3, false, bytes32 .big m.toNat⟩, ⟨10, false, p.data.take c.range⟩] =
          ⟨p.id, m.toNat, p.data.take c.range⟩ := by
        have : be32 (bytes32 .big m.toNat) 0 = some m.toNat := num32_bytes32 .big m.toNat m.isLt
        simp [Pkt.rewritten, Spec.attrOf, this]
      rw [hrew] at t3
      exact ⟨n1 ++ n2 ++ n3, by simpa [Dealt.leaves] using t3⟩

theorem take_le (b : List Byte) (n : Nat) : (b.take n).length ≤ n := by rw [List.length_take]; omega

/-- One turn. -/
theorem turn_account {policy : Policy} {n cb ecb priv : Nat} {t : List (Ev QEv)} (hK : Keeps .little F K st) (hc : c.owner = .sock fd) (hr : 0 < c.range)
    (hpol : Takes policy c.range) (ht : AnswerTurn Stray .little fd q cb ecb priv 76800 (policy n) t)
    (hg : Genuine K tr (all.map (·.2))) (ho : OffBut j fd all) (hby : byGo (some j) all = t)
    (hT : Tally fd q c came left rest pend acks (st tr)) :
    ∃ del new pend' acks', Tells policy c.range n t del ∧ AllDone del ∧
      Became fd q c came rest pend left acks del new [] pend' acks' (st (tr ++ all.map (·.2))) ∧
      (Healthy K st → (∃ d t p, .socket d t p (.ok fd) ∈ tr) → (∀ x ∈ del, x.sent ≠ some false) ∧
        (pend ≠ [] → del.length + (acks - acks') = 1)) := by
  rcases ht with ⟨r, err, nf, hodd, _, rfl⟩ | ⟨d, id, payload, mark, evs, hP, hE, hmark, rfl, hans⟩
  · have hn : Tells policy c.range n [.recvfrom fd 76800 0x100 r, .app (.error ecb (.wrap "Netlink error %v" err) nf)] [] := .nothing rfl rfl rfl
    cases r with
    | error m =>
      obtain ⟨new, t⟩ := tally_others hT hK hc hg ho (by rw [hby]; simp [Silent, handedOver])
      refine ⟨[], new, pend ++ new, acks, hn, by simp [AllDone], ⟨by simp, Nat.le_refl _, by simpa [unsentOf] using t⟩, fun hH hop => ⟨by simp, fun hne => ?_⟩⟩
      obtain ⟨x, y, rfl, hx, hy⟩ := byGo_split (some j) all [.recvfrom fd 76800 0x100 (.error m)] _ hby
      rw [List.map_append] at hg
      obtain ⟨tr1, n1, _, _, t1, hA, _⟩ := tally_own hT hK hc hg.split.1 ho.left hx
      obtain ⟨d, hd⟩ := hH.recv tr1 fd (Tally.inbox t1 (by simp [hne]))
      have hA : Except.error m = (K.recv tr1 fd).map _ := hA
      rw [hd] at hA
      cases hA
    | ok d =>
      obtain ⟨x, y, rfl, hx, hy⟩ := byGo_split (some j) all [.recvfrom fd 76800 0x100 (.ok d)] [.app (.error ecb (.wrap "Netlink error %v" err) nf)] hby
      rw [List.map_append] at hg ⊢
      obtain ⟨g1, g2⟩ := hg.split
      obtain ⟨tr1, n1, s2, _, t1, _, hrun, hend⟩ := tally_own hT hK hc g1 ho.left hx
      rcases tally_got t1 hc hr hrun with ⟨_, a, n2, rfl, t2⟩ | ⟨_, p, _, _, _, _, h1, h2, _⟩
      · obtain ⟨n3, t3⟩ := hend _ _ _ _ _ t2
        obtain ⟨n4, t4⟩ := tally_others t3 hK hc g2 ho.right (by rw [hy]; simp [Silent, handedOver])
        rw [List.append_assoc tr] at t4
        refine ⟨[], n1 ++ n2 ++ n3 ++ n4, pend ++ n1 ++ n2 ++ n3 ++ n4, a, hn, by simp [AllDone], ⟨by simp, by omega, ?_⟩, fun _ _ => ⟨by simp, fun _ => ?_⟩⟩
        · simpa [unsentOf] using t4
        · simp
      · rcases hodd d rfl with h | h
        · exact absurd h h1
        · exact absurd h h2
  · obtain ⟨x, y, rfl, hx, hy⟩ := byGo_split (some j) all [.recvfrom fd 76800 0x100 (.ok d)] (.app (.packet cb payload mark id priv) :: evs) hby
    obtain ⟨y, z, rfl, hy, hz⟩ := byGo_split (some j) y [.app (.packet cb payload mark id priv)] evs hy
    rw [List.map_append, List.map_append] at hg
    obtain ⟨g1, g2⟩ := hg.split
    obtain ⟨g2, g3⟩ := g2.split
    obtain ⟨tr1, n1, s2, _, t1, _, hrun, hend⟩ := tally_own hT hK hc g1 ho.left hx
    rcases tally_got t1 hc hr hrun with ⟨hs, _⟩ | ⟨n2, p, pend2, id', hp, hP', _, _, hlen, hid, hid0, hmk, t2⟩
    · exact absurd hP (hs.not_packet _ _)
    · obtain ⟨rfl, rfl⟩ := packet_same hP' hP (by omega)
      obtain ⟨n3, t3⟩ := hend _ _ _ _ _ t2
      obtain ⟨n4, t4⟩ := tally_others t3 hK hc g2 ho.right.left (by rw [hy]; simp [Silent, handedOver])
      obtain ⟨sent, n5, a1, a2, a3, a4, t5, a6⟩ := answer_account (mark := mark) hK hc (hpol n _ mark id' (take_le _ _)) hans hid g3 ho.right.right hz t4
      have hend' : tr ++ x.map (·.2) ++ y.map (·.2) ++ z.map (·.2) = tr ++ (x ++ (y ++ z)).map (·.2) := by simp
      rw [hend'] at t5
      refine ⟨[⟨p, mark, id', policy n (p.data.take c.range) mark id', sent⟩], n1 ++ n2 ++ n3 ++ n4 ++ n5, pend2 ++ n3 ++ n4 ++ n5, acks, ⟨?_, ?_, ?_, ?_, ?_⟩, ?_, ⟨?_, Nat.le_refl _, ?_⟩, fun hH hop => ⟨?_, fun _ => by simp⟩⟩
      · show shownIn ([Ev.recvfrom fd 76800 256 (.ok d), Ev.app (.packet cb (List.take c.range p.data) mark id' priv)] ++ evs) = _
        rw [shownIn_append, a1]; rfl
      · intro y hy
        rw [List.mem_singleton] at hy
        subst hy
        exact ⟨hid0, fun h => hmk mark hmark h⟩
      · show answersOf policy n ([Ev.recvfrom fd 76800 256 (.ok d), Ev.app (.packet cb (List.take c.range p.data) mark id' priv)] ++ evs) = _
        rw [answersOf_append, answersOf_none _ _ evs a2]; rfl
      · show verdictsSent ([Ev.recvfrom fd 76800 256 (.ok d), Ev.app (.packet cb (List.take c.range p.data) mark id' priv)] ++ evs) = _
        rw [verdictsSent_append, a3]
        cases sent <;> rfl
      · intro y hy
        rw [List.mem_singleton] at hy
        subst hy
        exact a4.mp
      · intro y hy
        rw [List.mem_singleton] at hy
        subst hy
        exact a4.mpr
      · simp only [← List.append_assoc]
        rw [hp]; simp
      · have hl : ∀ y : Dealt, [y].filterMap (Dealt.leaves q c.range) = (y.leaves q c.range).toList := by
          intro y
          cases h : y.leaves q c.range <;> simp [h]
        rw [hl]
        simpa using t5
      · intro y hy
        rw [List.mem_singleton] at hy
        subst hy
        obtain ⟨x, y, z, hop⟩ := hop
        exact a6 hH ⟨x, y, z, by simp [hop]⟩

/-- One part after another. -/
theorem Became.append {d1 d2 : List Dealt} {n1 n2 pend1 hand pend2 : List Pkt} {a1 a2 : Nat} {s1 s2 : KState}
    (h : Became fd q c came rest pend left acks d1 n1 [] pend1 a1 s1)
    (h' : Became fd q c (came ++ d1.map Dealt.pkt) (rest ++ unsentOf d1) pend1 (left ++ d1.filterMap (Dealt.leaves q c.range)) a1 d2 n2 hand pend2 a2 s2) :
    Became fd q c came rest pend left acks (d1 ++ d2) (n1 ++ n2) hand pend2 a2 s2 := by
  obtain ⟨x1, x2, _⟩ := h
  obtain ⟨y1, y2, y3⟩ := h'
  refine ⟨?_, by omega, ?_⟩
  · rw [List.append_nil] at x1
    rw [← List.append_assoc, x1, List.append_assoc, y1]
    simp
  · rw [unsentOf_append]
    simpa using y3

theorem Became.tally {d1 : List Dealt} {n1 pend1 : List Pkt} {a1 : Nat} {s1 : KState} (h : Became fd q c came rest pend left acks d1 n1 [] pend1 a1 s1) :
    Tally fd q c (came ++ d1.map Dealt.pkt) (left ++ d1.filterMap (Dealt.leaves q c.range)) (rest ++ unsentOf d1) pend1 a1 s1 := by
  simpa using h.2.2

/-- The turns. -/
theorem turns_account {policy : Policy} {cb ecb priv : Nat} (hK : Keeps .little F K st) (hc : c.owner = .sock fd) (hr : 0 < c.range)
    (hpol : Takes policy c.range) : ∀ (ts : List (List (Ev QEv))) (n : Nat) (tr : List (Ev QEv)) (all : List (Option Nat × Ev QEv))
    (came rest pend : List Pkt) (left : List Gone) (acks : Nat),
    (∀ i t, ts[i]? = some t → AnswerTurn Stray .little fd q cb ecb priv 76800 (policy (n + (ts.take i).flatten.countP isPacket)) t) →
    Genuine K tr (all.map (·.2)) → OffBut j fd all → byGo (some j) all = ts.flatten →
    Tally fd q c came left rest pend acks (st tr) →
    ∃ del new pend' acks', Tells policy c.range n ts.flatten del ∧ AllDone del ∧
      Became fd q c came rest pend left acks del new [] pend' acks' (st (tr ++ all.map (·.2))) ∧
      (Healthy K st → (∃ d t p, .socket d t p (.ok fd) ∈ tr) → (∀ x ∈ del, x.sent ≠ some false) ∧
        (ts.length ≤ del.length + (acks - acks') ∨ pend.length ≤ del.length)) := by
  intro ts
  induction ts with
  | nil =>
    intro n tr all came rest pend left acks _ hg ho hby hT
    obtain ⟨new, t⟩ := tally_others hT hK hc hg ho (by rw [hby]; simp)
    exact ⟨[], new, pend ++ new, acks, .nothing rfl rfl rfl, by simp [AllDone], ⟨by simp, Nat.le_refl _, by simpa [unsentOf] using t⟩,
      fun _ _ => ⟨by simp, .inl (by simp)⟩⟩
  | cons t ts ih =>
    intro n tr all came rest pend left acks hts hg ho hby hT
    rw [List.flatten_cons] at hby
    obtain ⟨x, y, rfl, hx, hy⟩ := byGo_split (some j) all _ _ hby
    rw [List.map_append] at hg ⊢
    obtain ⟨g1, g2⟩ := hg.split
    obtain ⟨d1, n1, p1, a1, b1, b2, b3, b4⟩ := turn_account (policy := policy) (n := n) hK hc hr hpol (hts 0 t rfl) g1 ho.left hx hT
    obtain ⟨d2, n2, p2, a2, c1, c2, c3, c4⟩ := ih (n + t.countP isPacket) _ y _ _ _ _ _ (by
      intro i u hu
      have := hts (i + 1) u (by simpa using hu)
      rw [List.take_succ_cons, List.flatten_cons, List.countP_append, ← Nat.add_assoc] at this
      exact this) g2 ho.right hy b3.tally
    rw [← List.append_assoc]
    refine ⟨d1 ++ d2, n1 ++ n2, p2, a2, b1.append c1, ?_, b3.append c3, ?_⟩
    · intro z hz
      rcases List.mem_append.mp hz with hz | hz
      · exact b2 z hz
      · exact c2 z hz
    · rintro hH ⟨u, v, z, hop⟩
      obtain ⟨x1, x2⟩ := b4 hH ⟨u, v, z, hop⟩
      obtain ⟨y1, y2⟩ := c4 hH ⟨u, v, z, by simp [hop]⟩
      refine ⟨?_, ?_⟩
      · intro z hz
        rcases List.mem_append.mp hz with hz | hz
        · exact x1 z hz
        · exact y1 z hz
      · have z1 := b3.2.1
        have z2 := c3.2.1
        have z3 := congrArg List.length b3.1
        simp only [List.length_append, List.length_map, List.length_cons, List.length_nil] at z3 ⊢
        cases hp : pend with
        | nil => right; simp
        | cons p ps =>
          have x3 := x2 (by rw [hp]; simp)
          rw [hp] at z3
          simp only [List.length_cons] at z3 ⊢
          rcases y2 with y2 | y2
          · left; omega
          · right; omega

/-- The unfinished turn. -/
theorem rest_account {policy : Policy} {n cb priv : Nat} {rem : List (Ev QEv)} (hK : Keeps .little F K st) (hc : c.owner = .sock fd) (hr : 0 < c.range)
    (hp : Pending .little fd cb priv 76800 rem) (hg : Genuine K tr (all.map (·.2))) (ho : OffBut j fd all) (hby : byGo (some j) all = rem)
    (hT : Tally fd q c came left rest pend acks (st tr)) :
    ∃ del new hand pend' acks', Tells policy c.range n rem del ∧ (rem.countP isPacket = 0 → del = []) ∧ (∀ x ∈ del, x.sent = none) ∧
      (hand ≠ [] → ∃ d p, hand = [p] ∧ rem = [.recvfrom fd 76800 0x100 (.ok d)]) ∧
      Became fd q c came rest pend left acks del new hand pend' acks' (st (tr ++ all.map (·.2))) := by
  have none : (∀ ev ∈ rem, Silent ev) → shownIn rem = [] → rem.countP isPacket = 0 → verdictsSent rem = [] →
      ∃ del new hand pend' acks', Tells policy c.range n rem del ∧ (rem.countP isPacket = 0 → del = []) ∧ (∀ x ∈ del, x.sent = none) ∧
      (hand ≠ [] → ∃ d p, hand = [p] ∧ rem = [.recvfrom fd 76800 0x100 (.ok d)]) ∧
      Became fd q c came rest pend left acks del new hand pend' acks' (st (tr ++ all.map (·.2))) := by
    intro hs h1 h2 h3
    obtain ⟨new, t⟩ := tally_others hT hK hc hg ho (by rw [hby]; exact hs)
    exact ⟨[], new, [], pend ++ new, acks, .nothing h1 h2 h3, fun _ => rfl, by simp, by simp, by simp, Nat.le_refl _, by simpa [unsentOf] using t⟩
  rcases hp with rfl | ⟨r, rfl⟩ | ⟨d, id, payload, mark, hP, hmark, rfl⟩
  · exact none (by simp) rfl rfl rfl
  · cases r with
    | error m => exact none (by simp [Silent, handedOver]) rfl rfl rfl
    | ok d =>
      have hn : Tells policy c.range n [.recvfrom fd 76800 0x100 (.ok d)] [] := .nothing rfl rfl rfl
      obtain ⟨tr1, n1, s2, _, t1, _, hrun, hend⟩ := tally_own hT hK hc hg ho hby
      rcases tally_got t1 hc hr hrun with ⟨_, a, n2, rfl, t2⟩ | ⟨n2, p, pend2, id, hp, hP, _, _, _, _, _, _, t2⟩
      · obtain ⟨n3, t3⟩ := hend _ _ _ _ _ t2
        exact ⟨[], n1 ++ n2 ++ n3, [], pend ++ n1 ++ n2 ++ n3, a, hn, fun _ => rfl, by simp, by simp, by simp, by omega, by simpa [unsentOf] using t3⟩
      · obtain ⟨n3, t3⟩ := hend _ _ _ _ _ t2
        refine ⟨[], n1 ++ n2 ++ n3, [p], pend2 ++ n3, acks, hn, fun _ => rfl, by simp, fun _ => ⟨d, p, rfl, rfl⟩, ?_, Nat.le_refl _, by simpa [unsentOf] using t3⟩
        simp only [← List.append_assoc]
        rw [hp]; simp
  · obtain ⟨x, y, rfl, hx, hy⟩ := byGo_split (some j) all [.recvfrom fd 76800 0x100 (.ok d)] [.app (.packet cb payload mark id priv)] hby
    rw [List.map_append] at hg ⊢
    obtain ⟨g1, g2⟩ := hg.split
    obtain ⟨tr1, n1, s2, _, t1, _, hrun, hend⟩ := tally_own hT hK hc g1 ho.left hx
    rcases tally_got t1 hc hr hrun with ⟨hs, _⟩ | ⟨n2, p, pend2, id', hp, hP', _, _, hlen, hid, hid0, hmk, t2⟩
    · exact absurd hP (hs.not_packet _ _)
    · obtain ⟨rfl, rfl⟩ := packet_same hP' hP (by omega)
      obtain ⟨n3, t3⟩ := hend _ _ _ _ _ t2
      obtain ⟨n4, t4⟩ := tally_others t3 hK hc g2 ho.right (by rw [hy]; simp [Silent, handedOver])
      rw [List.append_assoc tr] at t4
      refine ⟨[⟨p, mark, id', policy n (p.data.take c.range) mark id', .none⟩], n1 ++ n2 ++ n3 ++ n4, [], pend2 ++ n3 ++ n4, acks, ⟨rfl, ?_, rfl, rfl, by simp⟩,
        (fun h => by simp [List.countP_cons, isPacket] at h), by simp, by simp, ?_, Nat.le_refl _, ?_⟩
      · intro y hy
        rw [List.mem_singleton] at hy
        subst hy
        exact ⟨hid0, fun h => hmk mark hmark h⟩
      · simp only [← List.append_assoc]
        rw [hp]; simp
      · have hl : [(⟨p, mark, id', policy n (p.data.take c.range) mark id', .none⟩ : Dealt)].filterMap (Dealt.leaves q c.range) = [] := by
          have : Dealt.leaves q c.range ⟨p, mark, id', policy n (p.data.take c.range) mark id', .none⟩ = .none := by
            unfold Dealt.leaves
            cases policy n (p.data.take c.range) mark id' <;> rfl
          simp [this]
        rw [hl]
        simpa [unsentOf] using t4

end Verif.Props
