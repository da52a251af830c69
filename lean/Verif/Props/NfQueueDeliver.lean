import Verif.NfQueue.Tally
import Verif.Props.NfQueueKernel
import Verif.Props.NfQueueLimits
/-!
C132: an application that decides on each packet by its bytes, on a kernel that keeps queues: every packet that comes is handed over once,
in order, and leaves the queue with its verdict and mark.
-/
namespace Verif.Props
open Verif.Common Verif.Sys Verif.Spec Verif.NfQueue

/-- The packets handed to callbacks. -/
def handedBytes (evs : List (Ev QEv)) : List (List Byte) := evs.filterMap fun
  | .app (.packet _ b _ _ _) => some b
  | _ => none

/-- The outcomes of sending verdicts: did it succeed? -/
def verdictsSent (evs : List (Ev QEv)) : List Bool := evs.filterMap fun
  | .sendmsg _ _ r => some (decide (r = none))
  | _ => none

/-- How the packet leaves: with the verdict and the mark decided on, and the bytes that were copied. -/
def decided (π : List Byte → U32 × U32) (q range : Nat) (p : Pkt) : Gone :=
  ⟨q, ⟨p.id, (π (p.data.take range)).2.toNat, p.data.take range⟩, (π (p.data.take range)).1.toNat⟩

/-- Of these packets, handed over with these outcomes, those whose verdict was sent. -/
def answeredOf (del : List (Pkt × Bool)) : List Pkt := (del.filter fun x => x.2).map Prod.fst

/-- Those whose verdict was not sent. -/
def unansweredOf (del : List (Pkt × Bool)) : List Pkt := (del.filter fun x => !x.2).map Prod.fst

/-- Verdicts the kernel takes: drop, accept, queue, repeat, stop. -/
def ValidPolicy (π : List Byte → U32 × U32) : Prop := ∀ b, (π b).1.toNat % 256 ≤ 5 ∧ (π b).1.toNat % 256 ≠ 2

theorem decide_records {K : Kernel QEv} (env : Env) (π : List Byte → U32 × U32) : CallbackRecords K (decideEnv env K π) := by
  intro w
  show ∃ evs, (decideCallback env K π w).trace = w.trace ++ evs ∧ Genuine K w.trace evs
  unfold decideCallback
  split
  · dsimp only
    split
    · rename_i w' hv
      exact records_setVerdict2 env _ _ _ _ _ _ w _ w' hv
    · exact ⟨[], by simp, .nil⟩
  · exact ⟨[], by simp, .nil⟩

theorem Run.sentmsg {e : Endian} {F : Nat → Prop} {fd : Nat} {b : List Byte} {s s' : KState} (hr : Run e F s [.sendmsg fd b none] s') :
    ∃ s1 s2, Meanwhile F s s1 ∧ Meanwhile F (s1.serve e fd b).2 s2 ∧ Meanwhile F (s2.answer e fd b (s1.serve e fd b).1) s' := by
  cases hr with
  | cons h1 h2 h3 =>
    cases h2 with
    | handed ha hb => simp only [handedOver, Option.some.injEq, Prod.mk.injEq] at ha; obtain ⟨rfl, rfl⟩ := ha; exact ⟨_, _, h1, hb, h3.meanwhile⟩
    | silent hs => simp [Silent, handedOver] at hs

/-- Writing back the number that was read in host order restores the bytes. -/
theorem be32_echoed {e : Endian} {p : List Byte} {x : Nat} (h : num32 e p 0 = some x) (pre : List Byte) (h4 : pre.length = 4) :
    be32 (pre ++ bytes32 e x) 4 = be32 p 0 := by
  match pre, h4 with
  | [p0, p1, p2, p3], _ =>
  have hx : ∃ a b c d : Byte, p[0]? = some a ∧ p[1]? = some b ∧ p[2]? = some c ∧ p[3]? = some d := by
    unfold num32 at h
    split at h
    · rename_i ha hb hc hd
      exact ⟨_, _, _, _, ha, hb, hc, hd⟩
    · cases h
  obtain ⟨a, b, c, d, ha, hb, hc, hd⟩ := hx
  have hr : be32 p 0 = some (((a.toNat * 256 + b.toNat) * 256 + c.toNat) * 256 + d.toNat) := by
    unfold be32 num32
    simp only [Nat.zero_add, ha, hb, hc, hd]
  have la := a.isLt
  have lb := b.isLt
  have lc := c.isLt
  have ld := d.isLt
  rw [hr]
  unfold num32 at h
  simp only [Nat.zero_add, ha, hb, hc, hd, Option.some.injEq] at h
  generalize a.toNat = a at *
  generalize b.toNat = b at *
  generalize c.toNat = c at *
  generalize d.toNat = d at *
  cases e with
  | big =>
    have h : ((a * 256 + b) * 256 + c) * 256 + d = x := h
    show some (((((BitVec.ofNat 8 (x / 16777216)).toNat * 256 + (BitVec.ofNat 8 (x / 65536)).toNat) * 256 + (BitVec.ofNat 8 (x / 256)).toNat) * 256 +
      (BitVec.ofNat 8 x).toNat)) = _
    have x0 : x % 256 = d := by omega
    have x1 : x / 256 % 256 = c := by omega
    have x2 : x / 65536 % 256 = b := by omega
    have x3 : x / 16777216 % 256 = a := by omega
    have p8 : (2 : Nat) ^ 8 = 256 := rfl
    simp only [BitVec.toNat_ofNat, p8, x0, x1, x2, x3]
  | little =>
    have h : ((d * 256 + c) * 256 + b) * 256 + a = x := h
    show some (((((BitVec.ofNat 8 x).toNat * 256 + (BitVec.ofNat 8 (x / 256)).toNat) * 256 + (BitVec.ofNat 8 (x / 65536)).toNat) * 256 +
      (BitVec.ofNat 8 (x / 16777216)).toNat)) = _
    have x0 : x % 256 = a := by omega
    have x1 : x / 256 % 256 = b := by omega
    have x2 : x / 65536 % 256 = c := by omega
    have x3 : x / 16777216 % 256 = d := by omega
    have p8 : (2 : Nat) ^ 8 = 256 := rfl
    simp only [BitVec.toNat_ofNat, p8, x0, x1, x2, x3]

/-- The message about a packet is one that the library understands. -/
theorem packet_understood {e : Endian} {d : List Byte} {range : Nat} {p : Pkt} (h : NoteIs e d (p.note range)) (hr : 0 < range) (hd : p.data ≠ []) :
    ∃ id, PacketMsg e d id (p.data.take range) ∧ ¬ ErrMsg e d ∧ (∀ pre : List Byte, pre.length = 4 → be32 (pre ++ bytes32 e id) 4 = some p.id) := by
  obtain ⟨attrs, head, h1, h2, rfl, _, h4, h5, h6, _, h8⟩ := h
  have hne : p.data.take range ≠ [] := by
    intro h0
    have := congrArg List.length h0
    rw [List.length_take] at this
    have h1 := List.length_pos_iff.mpr hd
    simp only [List.length_nil] at this
    omega
  rw [if_neg hne] at h8
  cases hp : lastOf 1 attrs with
  | none => rw [hp] at h6; cases h6
  | some b =>
    rw [hp, Option.bind_some] at h6
    have hex : ∃ x, num32 e b 0 = some x := by
      unfold be32 num32 at h6
      split at h6
      · rename_i ha hb hc hd
        unfold num32
        rw [ha, hb, hc, hd]
        exact ⟨_, rfl⟩
      · cases h6
    obtain ⟨x, hx⟩ := hex
    refine ⟨x, ⟨attrs, b, ⟨head, h1, rfl, h4⟩, h5, hp, hx, h8, hne⟩, ?_, fun pre hpre => ?_⟩
    · intro he
      have : num16 e (head ++ encodeAttrs e attrs) 4 = num16 e head 4 := by
        unfold num16
        rw [List.getElem?_append_left (by omega), List.getElem?_append_left (by omega)]
      rw [ErrMsg, this, h2] at he
      simp at he
    · rw [be32_echoed hx pre hpre]
      exact h6

/-- If messages about packets are pending, something lies in the socket. -/
theorem Tally.inbox {fd q acks : Nat} {c : KQueue} {came rest pend : List Pkt} {left : List Gone} {s : KState}
    (h : Tally fd q c came left rest pend acks s) (hp : pend ≠ []) : s.inbox fd ≠ [] := by
  intro h0
  have := h.notes
  rw [h0] at this
  cases pend with
  | nil => exact hp rfl
  | cons p l => cases this

variable {env : Env} {K : Kernel QEv} {F : Nat → Prop} {st : List (Ev QEv) → KState} {π : List Byte → U32 × U32} {qh : Handle} {cb ecb priv : Nat}
  {queue : U16} {c : KQueue} {came rest pend : List Pkt} {left : List Gone} {acks : Nat}

/-- One turn of the loop. -/
theorem decide_turn (hK : Keeps env.e F K st) (hπ : ValidPolicy π) (hc : c.owner = .sock qh.fd) (hr : 0 < c.range) {w : W}
    (hI : EchoInv w qh cb ecb priv 76800 queue) (hT : Tally qh.fd queue.toNat c came left rest pend acks (st w.trace))
    (ha0 : env.e = .little ∨ acks = 0) :
    ∃ w' evs del new pend' acks', receiveOne (decideEnv env K π) K w = .ok ((), w') ∧ w'.trace = w.trace ++ evs ∧
      EchoInv w' qh cb ecb priv 76800 queue ∧ pend ++ new = del.map Prod.fst ++ pend' ∧
      handedBytes evs = del.map (fun x => x.1.data.take c.range) ∧ verdictsSent evs = del.map Prod.snd ∧
      Tally qh.fd queue.toNat c (came ++ del.map Prod.fst) (left ++ (answeredOf del).map (decided π queue.toNat c.range)) (rest ++ unansweredOf del)
        pend' acks' (st w'.trace) ∧ acks' ≤ acks ∧
      (del.length + (acks - acks') = if (K.recv w.trace qh.fd).isOk then 1 else 0) ∧
      (Healthy K st → (∃ d t p, .socket d t p (.ok qh.fd) ∈ w.trace) → ∀ x ∈ del, x.2 = true) := by
  cases hrecv : K.recv w.trace qh.fd with
  | error n =>
    obtain ⟨⟨hS, hcb, hecb, rfl, hsz⟩, hO, hsep, rfl⟩ := hI
    obtain ⟨r, err, h', h1, h2, hT1, h3⟩ := receive_failed (env := decideEnv env K π) hS hecb (.inl ⟨n, hrecv⟩)
    have hcb' : (decideEnv env K π).cbEffect ⟨w.trace ++ [.recvfrom qh.fd w.st.buf.len 0x100 r,
        .app (.error ecb (.wrap "Netlink error %v" err) none)], h', w.st⟩ = ⟨w.trace ++ [.recvfrom qh.fd w.st.buf.len 0x100 r,
        .app (.error ecb (.wrap "Netlink error %v" err) none)], h', w.st⟩ := by
      show decideCallback env K π _ = _
      unfold decideCallback
      simp
    rw [hcb'] at h1
    obtain ⟨evs', ht', hg⟩ := records_receiveOne (decide_records env π) w _ _ h1
    rw [List.append_cancel_left_eq] at ht'
    subst ht'
    have hre : r = .error n := by
      cases hg with
      | cons ha _ =>
        have : r = (K.recv w.trace qh.fd).map _ := ha
        rw [hrecv] at this
        exact this
    subst hre
    have m := (Run.of_genuine hK hg).of_silent (by
      intro ev hev
      simp only [List.mem_cons, List.not_mem_nil, or_false] at hev
      rcases hev with rfl | rfl <;> simp [Silent, handedOver])
    obtain ⟨new, t1, _, _⟩ := hT.meanwhile hc m
    refine ⟨_, _, [], new, pend ++ new, acks, h1, rfl, ⟨⟨⟨hS.handle, h3 _ hS.buf, hS.small, h3 _ hS.hdr, hS.hdr40, hS.sep, hS.reg⟩, hcb, hecb, rfl, hsz⟩,
      fun k s hk => ⟨h3 _ (hO k s hk).1, (hO k s hk).2⟩, hsep, rfl⟩, by simp, by simp [handedBytes], by simp [verdictsSent], ?_, Nat.le_refl _, by simp [Except.isOk, Except.toBool], by simp⟩
    simpa [answeredOf, unansweredOf] using t1
  | ok d0 =>
    have ha : Answers K w.trace (.recvfrom qh.fd 76800 0x100 (.ok (d0.take 76800))) := by
      show Except.ok _ = (K.recv w.trace qh.fd).map _
      rw [hrecv]; rfl
    have hr1 := Run.of_genuine hK (.cons ha .nil)
    obtain ⟨s1, n, l, d', m1, hin, hn, hdd, m2⟩ := hr1.got
    obtain ⟨n1, t1, _, _⟩ := hT.meanwhile hc m1
    rcases t1.received hin with ⟨rfl, a, rfl, t2⟩ | ⟨p, pend1, hp, rfl, t2⟩
    · have he : env.e = .little := by
        rcases ha0 with h | h
        · exact h
        · cases h
      obtain ⟨reqLen, hA, h20, h64⟩ := hn.2.2 rfl
      have hd0 : d0 = d' := by
        have hl := hA.1
        have : (d0.take 76800).length = d'.length := by rw [hdd, List.take_of_length_le (by omega)]
        rw [List.length_take] at this
        rw [List.take_of_length_le (by omega), List.take_of_length_le (by omega)] at hdd
        exact hdd
      subst hd0
      obtain ⟨h', nf, hv, h1⟩ := ack_turn (decideEnv env K π) he K w qh cb ecb priv 76800 queue hI (by decide) d0 reqLen hA (by omega) h64 hrecv
      obtain ⟨⟨hS, hcb, hecb, rfl, hsz⟩, hO, hsep, rfl⟩ := hI
      have hcb' : (decideEnv env K π).cbEffect ⟨w.trace ++ [.recvfrom qh.fd 76800 0x100 (.ok d0),
          .app (.error ecb (.wrap "Netlink error %v" (.msg "Bad Attr")) nf)], h', w.st⟩ = ⟨w.trace ++ [.recvfrom qh.fd 76800 0x100 (.ok d0),
          .app (.error ecb (.wrap "Netlink error %v" (.msg "Bad Attr")) nf)], h', w.st⟩ := by
        show decideCallback env K π _ = _
        unfold decideCallback
        simp
      rw [hcb'] at h1
      obtain ⟨evs', ht', hg⟩ := records_receiveOne (decide_records env π) w _ _ h1
      rw [List.append_cancel_left_eq] at ht'
      subst ht'
      have hg' : Genuine K w.trace ([.recvfrom qh.fd 76800 256 (.ok d0)] ++ [.app (.error ecb (.wrap "Netlink error %v" (.msg "Bad Attr")) nf)]) := hg
      obtain ⟨_, g2⟩ := hg'.split
      have hlen : d0.length = 36 := hA.1
      rw [List.take_of_length_le (by omega)] at m2
      have m3 := (Run.of_genuine hK g2).of_silent (by
        intro ev hev
        simp only [List.mem_cons, List.not_mem_nil, or_false] at hev
        subst hev
        simp [Silent, handedOver])
      obtain ⟨n2, t3, _, _⟩ := t2.meanwhile hc (m2.trans m3)
      have hend : w.trace ++ [.recvfrom qh.fd 76800 256 (.ok d0)] ++ [.app (.error ecb (.wrap "Netlink error %v" (.msg "Bad Attr")) nf)] =
        w.trace ++ [.recvfrom qh.fd 76800 256 (.ok d0), .app (.error ecb (.wrap "Netlink error %v" (.msg "Bad Attr")) nf)] := by simp
      rw [hend] at t3
      refine ⟨_, _, [], n1 ++ n2, pend ++ n1 ++ n2, a, h1, rfl, ⟨⟨⟨hS.handle, hv _ hS.buf, hS.small, hv _ hS.hdr, hS.hdr40, hS.sep, hS.reg⟩,
        hcb, hecb, rfl, hsz⟩, fun k s hk => ⟨hv _ (hO k s hk).1, (hO k s hk).2⟩, hsep, rfl⟩, by simp, by simp [handedBytes], by simp [verdictsSent],
        ?_, by omega, ?_, by simp⟩
      · simpa [answeredOf, unansweredOf] using t3
      · simp [Except.isOk, Except.toBool]
    obtain ⟨n2, t3, _, _⟩ := t2.meanwhile hc m2
    have hsound := t2.sound p (by simp)
    have hlen : d'.length < 76800 := by
      obtain ⟨_, _, _, _, _, h, _⟩ := hn
      exact h
    rw [List.take_of_length_le (Nat.le_of_lt hlen)] at hdd
    obtain ⟨id, hP, hE, hid⟩ := packet_understood hn hr hsound.2.2
    rw [← hdd] at hP hE
    obtain ⟨w', mark, b, r, h1, h2, h3, h4⟩ := decide_packet (π := π) hI hrecv hP hE
    obtain ⟨evs', ht', hg⟩ := records_receiveOne (decide_records env π) w _ _ h1
    rw [h2, List.append_cancel_left_eq] at ht'
    subst ht'
    have hg' : Genuine K w.trace ([.recvfrom qh.fd 76800 256 (.ok (d0.take 76800))] ++ ([.app (.packet cb (p.data.take c.range) mark id priv)] ++
      [.sendmsg qh.fd b r])) := hg
    obtain ⟨_, g2⟩ := hg'.split
    obtain ⟨g3, g4⟩ := g2.split
    have m3 := (Run.of_genuine hK g3).of_silent (by
      intro ev hev
      simp only [List.mem_cons, List.not_mem_nil, or_false] at hev
      subst hev
      simp [Silent, handedOver])
    have hr4 := Run.of_genuine hK g4
    obtain ⟨n3, t4, _, _⟩ := t3.meanwhile hc m3
    have hend : w.trace ++ [.recvfrom qh.fd 76800 256 (.ok (d0.take 76800))] ++ [.app (.packet cb (p.data.take c.range) mark id priv)] ++
      [.sendmsg qh.fd b r] = w'.trace := by rw [h2]; simp
    rw [hend] at hr4
    cases r with
    | some e1 =>
      have m4 := hr4.of_silent (by
        intro ev hev
        simp only [List.mem_cons, List.not_mem_nil, or_false] at hev
        subst hev
        simp [Silent, handedOver])
      obtain ⟨n4, t5, _, _⟩ := t4.meanwhile hc m4
      refine ⟨w', _, [(p, false)], n1 ++ n2 ++ n3 ++ n4, pend1 ++ n2 ++ n3 ++ n4, acks, h1, h2, h4, ?_, by simp [handedBytes], by simp [verdictsSent], ?_, Nat.le_refl _,
        by simp [Except.isOk, Except.toBool],
        fun hH ⟨x, y, z, hop⟩ => ?_⟩
      rotate_left 2
      · cases g4 with
        | cons g5 _ =>
          have : some e1 = K.send _ qh.fd b := g5
          rw [hH.send _ _ _ ⟨x, y, z, by simp [hop]⟩] at this
          cases this
      · simp only [← List.append_assoc]
        rw [hp]; simp
      · simpa [answeredOf, unansweredOf] using t5
    | none =>
      obtain ⟨s4, s5, m4, m5, m6⟩ := Run.sentmsg hr4
      obtain ⟨n4, t5, _, _⟩ := t4.meanwhile hc m4
      have hserve : s4.serve env.e qh.fd b = s4.verdict qh.fd ⟨44 + (p.data.take c.range).length, 0x301, 1, 0, 0, 0, 0, queue.toNat,
          [⟨2, false, bytes32 .big (π (p.data.take c.range)).1.toNat ++ bytes32 env.e id⟩, ⟨3, false, bytes32 .big (π (p.data.take c.range)).2.toNat⟩,
            ⟨10, false, p.data.take c.range⟩]⟩ := by
        unfold KState.serve
        rw [h3]
        simp
      have hwant : wantsAck env.e b = false := by
        unfold wantsAck
        rw [h3]
        simp
      generalize hv : (π (p.data.take c.range)).1 = v at *
      generalize hm : (π (p.data.take c.range)).2 = m at *
      have l4 : (bytes32 .big v.toNat).length = 4 := rfl
      have hb2 : attrOf 2 [⟨2, false, bytes32 .big v.toNat ++ bytes32 env.e id⟩, ⟨3, false, bytes32 .big m.toNat⟩, ⟨10, false, p.data.take c.range⟩] =
          some (bytes32 .big v.toNat ++ bytes32 env.e id) := by simp [attrOf]
      have hb3 : attrOf 3 [⟨2, false, bytes32 .big v.toNat ++ bytes32 env.e id⟩, ⟨3, false, bytes32 .big m.toNat⟩, ⟨10, false, p.data.take c.range⟩] =
          some (bytes32 .big m.toNat) := by simp [attrOf]
      have hb10 : attrOf 10 [⟨2, false, bytes32 .big v.toNat ++ bytes32 env.e id⟩, ⟨3, false, bytes32 .big m.toNat⟩, ⟨10, false, p.data.take c.range⟩] =
          some (p.data.take c.range) := by simp [attrOf]
      have e1 : be32 (bytes32 .big v.toNat ++ bytes32 env.e id) 0 = some v.toNat := by
        have := num32_bytes32 .big v.toNat v.isLt
        unfold be32
        rw [← this]; rfl
      obtain ⟨v1, v2, v3⟩ := t5.verdict hc (m := ⟨44 + (p.data.take c.range).length, 0x301, 1, 0, 0, 0, 0, queue.toNat,
          [⟨2, false, bytes32 .big v.toNat ++ bytes32 env.e id⟩, ⟨3, false, bytes32 .big m.toNat⟩, ⟨10, false, p.data.take c.range⟩]⟩) (v := v.toNat) rfl
        (by rw [hb2, Option.bind_some, e1]) (by rw [hb2, Option.bind_some, hid _ l4])
        (by have := hπ (p.data.take c.range); rw [hv] at this; exact this)
      rw [hserve] at m5 m6
      rw [v1] at m6
      have hans : ∀ x : KState, x.answer env.e qh.fd b 0 = x := by
        intro x
        unfold KState.answer
        rw [hwant]
        simp
      rw [hans] at m6
      obtain ⟨n5, t6, _, _⟩ := v2.meanwhile hc (m5.trans m6)
      have hrew : p.rewritten [⟨2, false, bytes32 .big v.toNat ++ bytes32 env.e id⟩, ⟨3, false, bytes32 .big m.toNat⟩, ⟨10, false, p.data.take c.range⟩] =
          ⟨p.id, m.toNat, p.data.take c.range⟩ := by
        unfold Pkt.rewritten
        rw [hb3, hb10, Option.bind_some]
        have : be32 (bytes32 .big m.toNat) 0 = some m.toNat := num32_bytes32 .big m.toNat m.isLt
        rw [this]; rfl
      rw [hrew] at t6
      refine ⟨w', _, [(p, true)], n1 ++ n2 ++ n3 ++ n4 ++ n5, pend1 ++ n2 ++ n3 ++ n4 ++ n5, acks, h1, h2, h4, ?_, by simp [handedBytes], by simp [verdictsSent], ?_,
        Nat.le_refl _, by simp [Except.isOk, Except.toBool],
        fun _ _ => by simp⟩
      · simp only [← List.append_assoc]
        rw [hp]; simp
      · simpa [answeredOf, unansweredOf, decided, hv, hm] using t6


/-- What a successful start leaves behind, seen from the kernel. -/
theorem tally_started {e : Endian} {fd q maxLen size : Nat} {bevs opts e1 e2 e3 e4 e5 : List (Ev QEv)} {s s' : KState}
    (hb : NfQueue.BindEvs fd none bevs) (ho : NfQueue.OptEvs fd opts) (h1 : Acked e fd .pfUnbind e1) (h2 : Acked e fd .pfBind e2)
    (h3 : Acked e fd (.bindQueue q) e3) (h4 : Acked e fd (.setMode q 2 size) e4) (h5 : Acked e fd (.setMaxLen q maxLen) e5)
    (h : Run e F s ([.socket 16 3 12 (.ok fd)] ++ bevs ++ opts ++ e1 ++ e2 ++ e3 ++ e4 ++ e5 ++ [.app .spawnReader]) s') :
    ∃ came left missed pend, missed.length ≤ 2 ∧
      Tally fd q ⟨.sock fd, 2, clip size, maxLen, []⟩ came left missed pend missed.length s' := by
  obtain ⟨t8, h, r9⟩ := h.split
  obtain ⟨t7, h, r8⟩ := h.split
  obtain ⟨t6, h, r7⟩ := h.split
  obtain ⟨t5, h, r6⟩ := h.split
  obtain ⟨t4, h, r5⟩ := h.split
  obtain ⟨t3, h, r4⟩ := h.split
  obtain ⟨t2, h, r3⟩ := h.split
  obtain ⟨m1, n1, i1⟩ := run_open hb h
  have m2 := r3.of_silent ho.silent
  have n2 : ∀ q, ¬ t3.Owns fd q := fun q hq => n1 q ((m2.owns fd q).mp hq)
  have i2 : t3.inbox fd = [] := by rw [m2.inbox n1]; exact i1
  obtain ⟨n3, i3⟩ := r4.acked_pf h1 (.inl rfl) n2 i2
  obtain ⟨n4, i4⟩ := r5.acked_pf h2 (.inr rfl) n3 i3
  obtain ⟨⟨k, k1, k2, k3, k4, k5⟩, _⟩ := r6.acked_bind h3 n4 i4
  have hw := k3 rfl
  have hi := k4 hw
  have a6 : Tally fd q (KQueue.new fd) (t6.cameTo q) (t6.leftFrom q) [] [] 0 t6 :=
    ⟨⟨k, k1, k2, by simp [hw]⟩, k5, by simp, rfl, by simp [hi], by simp [hi], by simp, by simp⟩
  obtain ⟨x1, p1, l1, a7⟩ := a6.acked (c' := ⟨.sock fd, 2, clip size, 1024, []⟩) h4 r7 rfl rfl (.inl ⟨rfl, rfl⟩) (by
    intro b hb t k hk hc
    obtain ⟨c1, c2⟩ := setMode_conf size hc
    refine ⟨k.setMode 2 size, c1, c2, ?_⟩
    rw [serve_mode hb, hk]
    have ho : k.owner = .sock fd := (conf_parts hc).1
    simp [ho])
  obtain ⟨x2, p2, l2, a8⟩ := a7.acked (c := ⟨.sock fd, 2, clip size, 1024, []⟩) (c' := ⟨.sock fd, 2, clip size, maxLen, []⟩) h5 r8 rfl rfl (.inr rfl) (by
    intro b hb t k hk hc
    obtain ⟨c1, c2⟩ := maxLen_conf maxLen hc
    refine ⟨{ k with maxLen := maxLen }, c1, c2, ?_⟩
    rw [serve_maxLen hb, hk]
    have ho : k.owner = .sock fd := (conf_parts hc).1
    simp [ho])
  have m9 : Meanwhile F t8 s' := r9.of_silent (by simp [Silent, handedOver])
  obtain ⟨p3, a9, _, _⟩ := a8.meanwhile rfl m9
  exact ⟨t6.cameTo q ++ x1 ++ x2, t6.leftFrom q, x1 ++ x2, p2 ++ p3, by simp; omega, by simpa using a9⟩

/-- C132. What a successful start leaves behind: of the packets waiting in the queue, messages about all but the first `missed` lie in the
socket, in order; `missed` are those that were taken for acknowledgements: at most two, and for each of them an acknowledgement lies in
the socket. -/
theorem C132_start (env : Env) (K : Kernel QEv) (F : Nat → Prop) (st : List (Ev QEv) → KState) (hK : Keeps env.e F K st)
    (queueID : U16) (maxLen size : U32) (cb ecb : Option Nat) (pd : Nat) (w w' : W)
    (h : createAndStart env K queueID maxLen size cb ecb pd w = .ok (none, w')) :
    ∃ qh came left missed pend, w'.st.handle = some qh ∧ missed.length ≤ 2 ∧
      Tally qh.fd queueID.toNat ⟨.sock qh.fd, 2, clip size.toNat, maxLen.toNat, []⟩ came left missed pend missed.length (st w'.trace) := by
  obtain ⟨evs, ht, hout, hr⟩ := start_spec env K queueID maxLen size cb ecb pd w w' none h
  obtain ⟨evs', ht', hg⟩ := records_createAndStart env queueID maxLen size cb ecb pd w none w' h
  rw [ht, List.append_cancel_left_eq] at ht'
  subst ht'
  have hrun := Run.of_genuine hK hg
  rw [← ht] at hrun
  obtain ⟨_, qh, hR, hm, _⟩ := hr rfl
  cases hout with
  | started hb ho h1 h2 h3 h4 h5 hne =>
    have hfd := started_fd hb ho hne hm
    obtain ⟨came, left, missed, pend, hl, hT⟩ := tally_started hb ho h1 h2 h3 h4 h5 hrun
    exact ⟨qh, came, left, missed, pend, hR.1, hl, by rw [hfd]; exact hT⟩

/-- A queue that is given up because its socket is closed. -/
theorem release_gone {fd q : Nat} {s : KState} {k : KQueue} (hk : s.queues q = some k) (ho : k.owner = .sock fd) (hq : q < 65536) :
    GoneQueue F fd q k.waiting (s.release fd) where
  ours := release_owns s fd q
  free _ := by
    show (s.queues q).filter _ = none
    rw [hk]
    simp [Option.filter, ho]
  dropped p hp := by
    refine List.mem_append_right _ (List.mem_flatMap.mpr ⟨q, List.mem_range.mpr hq, ?_⟩)
    rw [hk]
    refine List.mem_flatMap.mpr ⟨k, by simp [ho], List.mem_map.mpr ⟨p, hp, rfl⟩⟩

/-- The loop. -/
theorem decide_loop (hK : Keeps env.e F K st) (hπ : ValidPolicy π) (hc : c.owner = .sock qh.fd) (hr : 0 < c.range) (n : Nat) :
    ∀ (w : W) (came rest pend : List Pkt) (left : List Gone) (acks : Nat), EchoInv w qh cb ecb priv 76800 queue →
    Tally qh.fd queue.toNat c came left rest pend acks (st w.trace) → env.e = .little ∨ acks = 0 →
    ∃ (fin : Bool) (w' : W) (evs : List (Ev QEv)) (del : List (Pkt × Bool)) (new pend' : List Pkt) (s' : KState) (acks' : Nat),
      processPackets (decideEnv env K π) K n w = .ok (fin, w') ∧ w'.trace = w.trace ++ evs ∧ pend ++ new = del.map Prod.fst ++ pend' ∧
      handedBytes evs = del.map (fun x => x.1.data.take c.range) ∧ verdictsSent evs = del.map Prod.snd ∧
      Tally qh.fd queue.toNat c (came ++ del.map Prod.fst) (left ++ (answeredOf del).map (decided π queue.toNat c.range)) (rest ++ unansweredOf del)
        pend' acks' s' ∧ acks' ≤ acks ∧
      (fin = false → s' = st w'.trace ∧ EchoInv w' qh cb ecb priv 76800 queue) ∧
      (fin = true → GoneQueue F qh.fd queue.toNat (rest ++ unansweredOf del ++ pend') (st w'.trace)) ∧
      (Healthy K st → (∃ d t p, .socket d t p (.ok qh.fd) ∈ w.trace) →
        (∀ x ∈ del, x.2 = true) ∧ (fin = false → n ≤ del.length + (acks - acks') ∨ pend.length ≤ del.length)) := by
  induction n with
  | zero =>
    intro w came rest pend left acks hI hT ha0
    exact ⟨false, w, [], [], [], pend, _, acks, rfl, by simp, by simp, rfl, rfl, by simpa [answeredOf, unansweredOf] using hT, Nat.le_refl _, fun _ => ⟨rfl, hI⟩,
      (fun h => by cases h), fun _ _ => ⟨by simp, fun _ => .inl (Nat.zero_le _)⟩⟩
  | succ n ih =>
    intro w came rest pend left acks hI hT ha0
    by_cases hd : (decideEnv env K π).ctxDone w.trace = true
    · obtain ⟨closes, hcl, hce⟩ := nfqClose_spec K hI.setup.serving.handle
      obtain ⟨evs', ht', hg⟩ := records_nfqClose w _ _ hcl
      rw [List.append_cancel_left_eq] at ht'
      subst ht'
      obtain ⟨s1, s2, m1, m2, m3⟩ := (Run.of_genuine hK hg).closes hce
      obtain ⟨new, t1, _, _⟩ := hT.meanwhile hc m1
      refine ⟨true, { w with trace := w.trace ++ closes }, closes, [], new, pend ++ new, s1, acks, ?_, rfl, by simp, ?_, ?_,
        by simpa [answeredOf, unansweredOf] using t1, Nat.le_refl _, (fun h => by cases h), fun _ => ?_, fun _ _ => ⟨by simp, fun h => by cases h⟩⟩
      · unfold processPackets
        simp only [GoM.bind_apply, processIter, if_pos hd, hcl, Res.ok_bind, GoM.pure_apply, if_true]
      · rcases hce with rfl | ⟨_, _, rfl⟩ <;> rfl
      · rcases hce with rfl | ⟨_, _, rfl⟩ <;> rfl
      · obtain ⟨k, k1, k2, k3⟩ := t1.queue
        have ho : k.owner = .sock qh.fd := by rw [(conf_parts k2).1]; exact hc
        have g := (release_gone (F := F) k1 ho queue.isLt).meanwhile m2
        rw [k3] at g
        have hun : unansweredOf [] = [] := rfl
        rw [hun, List.append_nil]
        rcases m3 with m3 | m3
        · have m3' : st (w.trace ++ closes) = s2 := m3
          show GoneQueue F qh.fd _ _ (st (w.trace ++ closes))
          rw [m3']; exact g
        · exact g.release.meanwhile m3
    · obtain ⟨w1, e1, d1, n1, p1, k1, a1, a2, a3, a4, a5, a6, a7, a7', a8, a9⟩ := decide_turn hK hπ hc hr hI hT ha0
      obtain ⟨fin, w', e2, d2, n2, p2, s', k2, b1, b2, b3, b4, b5, b6, b6', b7, b8, b9⟩ := ih w1 _ _ _ _ _ a3 a7 (ha0.imp id (by omega))
      have hans : answeredOf (d1 ++ d2) = answeredOf d1 ++ answeredOf d2 := by simp [answeredOf]
      have hun : unansweredOf (d1 ++ d2) = unansweredOf d1 ++ unansweredOf d2 := by simp [unansweredOf]
      refine ⟨fin, w', e1 ++ e2, d1 ++ d2, n1 ++ n2, p2, s', k2, ?_, by rw [b2, a2]; simp, ?_, ?_, ?_, ?_, by omega, b7, fun h => ?_, fun hH hop => ?_⟩
      · unfold processPackets
        simp only [GoM.bind_apply, processIter, if_neg hd, a1, Res.ok_bind, GoM.pure_apply, Bool.false_eq_true, if_false]
        exact b1
      · rw [← List.append_assoc, a4, List.append_assoc, b3]; simp
      · rw [handedBytes, List.filterMap_append]
        show handedBytes e1 ++ handedBytes e2 = _
        rw [a5, b4]; simp
      · rw [verdictsSent, List.filterMap_append]
        show verdictsSent e1 ++ verdictsSent e2 = _
        rw [a6, b5]; simp
      · rw [hans, hun]
        simpa using b6
      · rw [hun, ← List.append_assoc]
        exact b8 h
      · have hop1 : ∃ d t p, Ev.socket d t p (.ok qh.fd) ∈ w1.trace := by
          obtain ⟨x, y, z, h⟩ := hop
          exact ⟨x, y, z, by rw [a2]; simp [h]⟩
        obtain ⟨c1, c2⟩ := b9 hH hop1
        constructor
        · intro x hx
          rcases List.mem_append.mp hx with hx | hx
          · exact a9 hH hop x hx
          · exact c1 x hx
        · intro hf
          rw [List.length_append]
          cases hp : pend with
          | nil => right; simp
          | cons p ps =>
            have hne : (st w.trace).inbox qh.fd ≠ [] := Tally.inbox hT (by rw [hp]; simp)
            obtain ⟨d, hd⟩ := hH.recv _ _ hne
            rw [hd] at a8
            have a8 : d1.length + (acks - k1) = 1 := a8
            have hl := congrArg List.length a4
            rw [hp] at hl
            simp only [List.length_append, List.length_map, List.length_cons] at hl
            rcases c2 hf with c2 | c2
            · left; omega
            · right; simp only [List.length_cons]; omega

theorem all_true {del : List (Pkt × Bool)} (h : ∀ x ∈ del, x.2 = true) : answeredOf del = del.map Prod.fst ∧ unansweredOf del = [] := by
  constructor
  · unfold answeredOf
    rw [List.filter_eq_self.mpr h]
  · unfold unansweredOf
    rw [List.map_eq_nil_iff, List.filter_eq_nil_iff]
    intro x hx
    simp [h x hx]

theorem clip_pos (n : Nat) : 0 < clip n := by
  unfold clip
  split
  · decide
  · omega

/-- What the loop starts from. -/
theorem decide_started (hK : Keeps env.e F K st) {maxLen size : U32} {w0 w : W} {qh : Handle} {k : KQueue}
    (hstart : createAndStart (decideEnv env K π) K queue maxLen size (some cb) (some ecb) priv w0 = .ok (none, w))
    (hh : w.st.handle = some qh) (hk : (st w.trace).queues queue.toNat = some k) :
    ∃ came missed pend, EchoInv w qh cb ecb priv 76800 queue ∧ (∃ d t p, .socket d t p (.ok qh.fd) ∈ w.trace) ∧
      k.waiting = missed ++ pend ∧ missed.length ≤ 2 ∧ (missed ≠ [] → .ack 0 ∈ (st w.trace).inbox qh.fd) ∧
      (st w.trace).cameTo queue.toNat = came ++ pend ∧ Tally qh.fd queue.toNat ⟨.sock qh.fd, 2, clip size.toNat, maxLen.toNat, []⟩ came
        ((st w.trace).leftFrom queue.toNat) missed pend missed.length (st w.trace) := by
  obtain ⟨qh1, hI⟩ := started_echo (decideEnv env K π) K queue maxLen size cb ecb priv w0 w hstart
  obtain ⟨qh2, came, left, missed, pend, h2, hm2, hT⟩ := C132_start (decideEnv env K π) K F st hK queue maxLen size (some cb) (some ecb) priv w0 w hstart
  obtain ⟨evs, ht, _, hr⟩ := start_spec (decideEnv env K π) K queue maxLen size (some cb) (some ecb) priv w0 w none hstart
  obtain ⟨_, qh3, hR, hm, _⟩ := hr rfl
  have e1 : qh1 = qh := by have := hI.setup.serving.handle; rw [hh] at this; exact (Option.some.inj this).symm
  have e2 : qh2 = qh := by rw [hh] at h2; exact (Option.some.inj h2).symm
  have e3 : qh3 = qh := by have := hR.1; rw [hh] at this; exact (Option.some.inj this).symm
  subst e1 e2 e3
  obtain ⟨k', k1, _, k3⟩ := hT.queue
  rw [hk] at k1
  cases k1
  refine ⟨came, missed, pend, hI, ⟨16, 3, 12, by rw [ht]; simp [hm]⟩, k3, hm2, fun hne => ?_, hT.came, ?_⟩
  · have := hT.acks
    cases missed with
    | nil => exact absurd rfl hne
    | cons p l =>
      have hy : Note.ack 0 ∈ ((st w.trace).inbox qh3.fd).filter (fun n => !n.isPacket) := by rw [this]; simp
      exact (List.mem_filter.mp hy).1
  · rw [hT.left]
    exact hT

/-- C132. An application that decides by the packets' bytes (verdicts valid), whatever calls fail and whatever happens meanwhile, on a
little-endian host, or if no acknowledgement is left in the socket when the start returns.  Of the packets that wait then, the first `missed`
(at most two, none unless an acknowledgement was left) are never handed over: they wait until the queue is gone.  After any number of turns:
the other packets that waited and those that came since, in order, are those handed over (once each, cut to the copy range) and those whose
messages still lie in the socket;
those handed over whose verdict was sent have left the queue with that verdict, that mark and the bytes that were copied, in order, and
nothing else has left it;
the others still wait in it, in order.
When the context is cancelled the loop ends, the queue is gone, and what waited is dropped. -/
theorem C132_serves (env : Env) (K : Kernel QEv) (F : Nat → Prop) (st : List (Ev QEv) → KState) (hK : Keeps env.e F K st)
    (π : List Byte → U32 × U32) (hπ : ValidPolicy π) (queueID : U16) (maxLen size : U32) (cb ecb pd : Nat) (w0 w : W) (qh : Handle) (k : KQueue)
    (hstart : createAndStart (decideEnv env K π) K queueID maxLen size (some cb) (some ecb) pd w0 = .ok (none, w))
    (hh : w.st.handle = some qh) (hk : (st w.trace).queues queueID.toNat = some k)
    (hack : env.e = .little ∨ .ack 0 ∉ (st w.trace).inbox qh.fd) :
    ∃ missed first : List Pkt, k.waiting = missed ++ first ∧ missed.length ≤ 2 ∧ (missed ≠ [] → .ack 0 ∈ (st w.trace).inbox qh.fd) ∧
    ∀ n : Nat, ∃ (fin : Bool) (w' : W) (evs : List (Ev QEv)) (del : List (Pkt × Bool)) (new pend : List Pkt) (s' : KState) (k' : KQueue),
      processPackets (decideEnv env K π) K n w = .ok (fin, w') ∧ w'.trace = w.trace ++ evs ∧
      s'.cameTo queueID.toNat = (st w.trace).cameTo queueID.toNat ++ new ∧ first ++ new = del.map Prod.fst ++ pend ∧
      handedBytes evs = del.map (fun x => x.1.data.take (clip size.toNat)) ∧ verdictsSent evs = del.map Prod.snd ∧
      s'.leftFrom queueID.toNat = (st w.trace).leftFrom queueID.toNat ++ (answeredOf del).map (decided π queueID.toNat (clip size.toNat)) ∧
      s'.queues queueID.toNat = some k' ∧ k'.owner = .sock qh.fd ∧ k'.waiting = missed ++ unansweredOf del ++ pend ∧
      (s'.inbox qh.fd).filter Note.isPacket = pend.map (Pkt.note (clip size.toNat)) ∧
      (fin = false → s' = st w'.trace) ∧ (fin = true → GoneQueue F qh.fd queueID.toNat k'.waiting (st w'.trace)) := by
  obtain ⟨came, missed, first, hI, hop, hw, h2, hm, hcame, hT⟩ := decide_started hK hstart hh hk
  refine ⟨missed, first, hw, h2, hm, fun n => ?_⟩
  have ha0 : env.e = .little ∨ missed.length = 0 := by
    refine hack.imp id fun hn => ?_
    cases missed with
    | nil => rfl
    | cons p l => exact absurd (hm (by simp)) hn
  obtain ⟨fin, w', evs, del, new, pend, s', acks', b1, b2, b3, b4, b5, b6, _, b7, b8, _⟩ :=
    decide_loop (c := ⟨.sock qh.fd, 2, clip size.toNat, maxLen.toNat, []⟩) hK hπ rfl (clip_pos _) n w _ _ _ _ _ hI hT ha0
  obtain ⟨k', k1, k2, k3⟩ := b6.queue
  refine ⟨fin, w', evs, del, new, pend, s', k', b1, b2, ?_, b3, b4, b5, b6.left, k1, (conf_parts k2).1, k3, b6.notes,
    fun h => (b7 h).1, fun h => ?_⟩
  · rw [b6.came, hcame, List.append_assoc, List.append_assoc, b3]
  · rw [k3]; exact b8 h

/-- C132, if no call fails: apart from those missed, the packets that waited or came are handed over and answered one by one, in order; so
many of them have left the queue, each as decided; the others wait.  In every turn one is, as long as any of those that waited at the
beginning are left (and but for one turn for each packet missed). -/
theorem C132_all (env : Env) (K : Kernel QEv) (F : Nat → Prop) (st : List (Ev QEv) → KState) (hK : Keeps env.e F K st) (hH : Healthy K st)
    (π : List Byte → U32 × U32) (hπ : ValidPolicy π) (queueID : U16) (maxLen size : U32) (cb ecb pd : Nat) (w0 w : W) (qh : Handle) (k : KQueue)
    (hstart : createAndStart (decideEnv env K π) K queueID maxLen size (some cb) (some ecb) pd w0 = .ok (none, w))
    (hh : w.st.handle = some qh) (hk : (st w.trace).queues queueID.toNat = some k)
    (hack : env.e = .little ∨ .ack 0 ∉ (st w.trace).inbox qh.fd) :
    ∃ missed first : List Pkt, k.waiting = missed ++ first ∧ missed.length ≤ 2 ∧ (missed ≠ [] → .ack 0 ∈ (st w.trace).inbox qh.fd) ∧
    ∀ (n : Nat) (w' : W), processPackets (decideEnv env K π) K n w = .ok (false, w') →
    ∃ (new : List Pkt) (i : Nat) (k' : KQueue), (st w'.trace).cameTo queueID.toNat = (st w.trace).cameTo queueID.toNat ++ new ∧
      (st w'.trace).leftFrom queueID.toNat = (st w.trace).leftFrom queueID.toNat ++
        ((first ++ new).take i).map (decided π queueID.toNat (clip size.toNat)) ∧
      (st w'.trace).queues queueID.toNat = some k' ∧ k'.waiting = missed ++ (first ++ new).drop i ∧
      (n ≤ i + missed.length ∨ first.length ≤ i) := by
  obtain ⟨came, missed, first, hI, hop, hw, hm2, hm, hcame, hT⟩ := decide_started hK hstart hh hk
  refine ⟨missed, first, hw, hm2, hm, fun n w' hrun => ?_⟩
  have ha0 : env.e = .little ∨ missed.length = 0 := by
    refine hack.imp id fun hn => ?_
    cases missed with
    | nil => rfl
    | cons p l => exact absurd (hm (by simp)) hn
  obtain ⟨fin, w'', evs, del, new, pend, s', acks', b1, b2, b3, b4, b5, b6, b6', b7, b8, b9⟩ :=
    decide_loop (c := ⟨.sock qh.fd, 2, clip size.toNat, maxLen.toNat, []⟩) hK hπ rfl (clip_pos _) n w _ _ _ _ _ hI hT ha0
  rw [hrun] at b1
  cases b1
  obtain ⟨h1, h2⟩ := b9 hH hop
  obtain ⟨h3, h4⟩ := all_true h1
  obtain ⟨rfl, _⟩ := b7 rfl
  obtain ⟨k', k1, k2, k3⟩ := b6.queue
  have ht : (first ++ new).take del.length = del.map Prod.fst := by rw [b3, List.take_left' (by simp)]
  have hd : (first ++ new).drop del.length = pend := by rw [b3, List.drop_left' (by simp)]
  refine ⟨new, del.length, k', ?_, ?_, k1, ?_, ?_⟩
  · rw [b6.came, hcame, List.append_assoc, List.append_assoc, b3]
  · rw [b6.left, h3, ht]
  · rw [k3, h4, hd]; simp
  · rcases h2 rfl with h2 | h2
    · left; omega
    · exact .inr h2

end Verif.Props
