import Verif.NfQueue.Answer
import Verif.Props.NfQueueManyStart
/-! C119: an application that starts queues one after the other and answers packets in its callbacks, while everything runs. -/
namespace Verif.Props
open Verif.Common Verif.Sys Verif.Spec Verif.NfQueue

/-- What the kernel is told about the packet with this id and payload: nothing; or one message which decodes to exactly this
verdict on this packet (its payload padded with zeros to a multiple of four; if it is not too long for the length field); or one
message which decodes to exactly this verdict and mark on this packet. -/
def Answered (e : Endian) (fd queue id : Nat) (payload : List Byte) : Answer → List (Ev QEv) → Prop
  | .silent, evs => evs = []
  | .verdict v, evs => ∃ b r, evs = [.sendmsg fd b r] ∧ (payload.length ≤ 65528 → ∃ pad, pad < 4 ∧ (payload.length + pad) % 4 = 0 ∧
      decodeNf e b = some ⟨36 + (payload.length + pad), 0x301, 1, 0, 0, 0, 0, queue,
        [⟨2, false, bytes32 .big v.toNat ++ bytes32 e id⟩, ⟨10, false, payload ++ List.replicate pad 0⟩]⟩)
  | .verdict2 v m, evs => ∃ b r, evs = [.sendmsg fd b r] ∧
      decodeNf e b = some ⟨44 + payload.length, 0x301, 1, 0, 0, 0, 0, queue,
        [⟨2, false, bytes32 .big v.toNat ++ bytes32 e id⟩, ⟨3, false, bytes32 .big m.toNat⟩, ⟨10, false, payload⟩]⟩

/-- What one turn of a queue looks like from outside: a failed receive (or a kernel error message) and the error callback, which is told
why; or a packet, its callback, and the answer the application gives to this very packet.  `odd`: messages that are taken for
failures although they are neither packets nor errors (none, in C119). -/
def AnswerTurn (odd : List Byte → Prop) (e : Endian) (fd queue cb ecb priv size : Nat) (answer : List Byte → Nat → Nat → Answer) (g : List (Ev QEv)) : Prop :=
  (∃ r err nf, (∀ d, r = .ok d → ErrMsg e d ∨ odd d) ∧ Told e r err ∧
    g = [.recvfrom fd size 0x100 r, .app (.error ecb (.wrap "Netlink error %v" err) nf)]) ∨
  (∃ d id payload mark evs, PacketMsg e d id payload ∧ ¬ ErrMsg e d ∧
    (∀ attrs p, Carries e d attrs → lastOf 3 attrs = some p → be32 p 0 = some mark) ∧
    g = .recvfrom fd size 0x100 (.ok d) :: .app (.packet cb payload mark id priv) :: evs ∧
    Answered e fd queue id payload (answer payload mark id) evs)

/-- The message of the call an application makes is the answer. -/
theorem call_answers {e : Endian} {qn qa : U16} {s : Slice} {id : Nat} {payload : List Byte} (hid : id < 2 ^ 32)
    (hl : s.len = payload.length) (h1 : 1 ≤ payload.length) (h2 : payload.length ≤ 65531) {a : Answer} {c : VCall}
    (hc : a.call qa id s = some c) (fd : Nat) (r : Option Nat) :
    Answered e fd qn.toNat id payload a [.sendmsg fd (callMsg e qn c payload) r] := by
  have hid' : (BitVec.ofNat 32 id).toNat = id := by rw [BitVec.toNat_ofNat]; exact Nat.mod_eq_of_lt hid
  have hl16 : ((BitVec.ofNat 32 s.len).setWidth 16).toNat = payload.length := by
    rw [BitVec.toNat_setWidth, BitVec.toNat_ofNat, hl]; omega
  cases a with
  | silent => cases hc
  | verdict v =>
    cases hc
    refine ⟨_, r, rfl, fun h => ⟨padOf ((BitVec.ofNat 32 s.len).setWidth 16), padOf_lt _, ?_, ?_⟩⟩
    · have hpad := padOf_eq ((BitVec.ofNat 32 s.len).setWidth 16)
      rw [hl16] at hpad
      have := roundUp4_ge payload.length
      rw [hpad]; unfold roundUp4 at *; omega
    · have hpad := padOf_eq ((BitVec.ofNat 32 s.len).setWidth 16)
      rw [hl16] at hpad
      have hge := roundUp4_ge payload.length
      have hal : (nfaAlign ((BitVec.ofNat 32 s.len).setWidth 16)).toNat = roundUp4 payload.length := by
        rw [nfaAlign_toNat, hl16, if_pos (by omega)]; rfl
      simp only [callMsg]
      generalize (BitVec.ofNat 32 s.len).setWidth 16 = pl at *
      rw [List.take_of_length_le (by rw [List.length_append, zeros_length]; omega)]
      rw [v1_decodes _ _ _ _ _ _ (by rw [List.length_append, zeros_length]; rw [hl16]; omega) (by omega)]
      simp [hid', verdictAttr, payloadAttr, zeros]
  | verdict2 v m =>
    cases hc
    refine ⟨_, r, rfl, ?_⟩
    simp only [callMsg]
    rw [v2_decodes _ _ _ _ _ _ _ (by omega) (by omega)]
    simp [hid', verdictAttr, payloadAttr, markAttr]

/-- A datagram that consists of attributes has no bad one. -/
theorem carries_good {e : Endian} {d : List Byte} {attrs : List (Nat × List Byte)} (hc : Carries e d attrs)
    (hs : d.length + 3 < 2 ^ 32) :
    ¬ ∃ j l t, Visits e (d.drop 20) 0 j ∧ HeaderAt e (d.drop 20) j l t ∧ (d.drop 20).length < j + l := by
  obtain ⟨head, h20, hdec, hall⟩ := hc
  have hdr : d.drop 20 = encodeAttrs e attrs := by rw [hdec, List.drop_left' h20]
  have hb : (⟨[d.drop 20]⟩ : Heap).bytes ⟨0, 0, (d.drop 20).length, (d.drop 20).length⟩ = d.drop 20 := by
    simp [Heap.bytes, Heap.arrayOf, List.take_of_length_le]
  have hv : (⟨0, 0, (d.drop 20).length, (d.drop 20).length⟩ : Slice).Valid ⟨[d.drop 20]⟩ := by
    simp [Slice.Valid, Heap.arrayOf]
  have hs' : (⟨0, 0, (d.drop 20).length, (d.drop 20).length⟩ : Slice).len + 3 < 2 ^ 32 := by
    show (d.drop 20).length + 3 < _
    rw [List.length_drop]; omega
  obtain ⟨m', hm, _⟩ := C05_parse_encode e _ _ hv hs' attrs hall (by rw [hb, hdr]) (fun _ => none)
  have := (C06_bad_attr_iff e _ _ hv hs' _ _ _ _ hm).1
  rw [hb] at this
  intro h
  exact absurd rfl (this.mpr h)

theorem Sends.decent {e : Endian} {d : List Byte} (h : Sends e d) : Decent e d := by
  rcases h with ⟨h1, h2⟩ | ⟨_, _, attrs, p, hc, h4, _⟩
  · exact ⟨h1, fun h => absurd h2 h⟩
  · exact (carries_proper hc h4).decent

/-- What the kernel sends is taken for a failure only if it is an error message. -/
theorem Sends.failed {e : Endian} {d : List Byte} (h : Sends e d) (hs : d.length + 3 < 2 ^ 32) (hf : Failed e (.ok d)) : ErrMsg e d := by
  rcases hf with hf | hf
  · exact hf
  · rcases h with ⟨_, h2⟩ | ⟨_, _, attrs, p, hc, _⟩
    · exact h2
    · exact absurd hf (carries_good hc hs)

/-- What a kernel may send that sends also odd messages. -/
def Deals (odd : List Byte → Prop) (e : Endian) (d : List Byte) : Prop := Sends e d ∨ odd d

/-- Odd messages do no harm, but are taken for failures. -/
def OddFails (odd : List Byte → Prop) (e : Endian) : Prop := ∀ d, odd d → Decent e d ∧ Failed e (.ok d)

theorem Deals.decent {odd : List Byte → Prop} {e : Endian} {d : List Byte} (hA : OddFails odd e) (h : Deals odd e d) : Decent e d := by
  rcases h with h | h
  · exact h.decent
  · exact (hA d h).1

theorem Deals.failed {odd : List Byte → Prop} {e : Endian} {d : List Byte} (h : Deals odd e d) (hs : d.length + 3 < 2 ^ 32)
    (hf : Failed e (.ok d)) : ErrMsg e d ∨ odd d := by
  rcases h with h | h
  · exact .inl (h.failed hs hf)
  · exact .inr h

variable {odd : List Byte → Prop}

/-- Memory may grow; what is outside `P` stays as it is, and nothing changes its size. -/
structure Frame (P : Nat → Prop) (h h' : Heap) : Prop where
  len : h.arrays.length ≤ h'.arrays.length
  same : ∀ a, a < h.arrays.length → ¬ P a → h'.arrayOf a = h.arrayOf a
  size : ∀ a, a < h.arrays.length → (h'.arrayOf a).length = (h.arrayOf a).length

theorem Frame.refl (P : Nat → Prop) (h : Heap) : Frame P h h := ⟨Nat.le_refl _, fun _ _ _ => rfl, fun _ _ => rfl⟩

/-- A running queue: the world just after its start, its handle, the arguments of its start, where its memory begins. -/
structure QData where
  v0 : W
  qh : Handle
  args : StartArgs
  lo : Nat

/-- The memory of a queue: the five arrays made by its start. -/
def QData.mem (D : QData) (a : Nat) : Prop := D.lo ≤ a ∧ a ≤ D.lo + 4

/-- What stays fixed for the reader of a queue. -/
def readCtx (e : Endian) (D : QData) : Ctx :=
  ⟨e, D.args.queueID, D.v0.st.hdrSlice, [], D.v0.heap, some D.v0.st.buf.arr, fun _ => False, fun a => ¬ D.mem a⟩

/-- What stays fixed during a verdict call in a callback, if memory `F` belongs to the other queues. -/
def callCtx (e : Endian) (D : QData) (c : VCall) (h1 : Heap) (F : Nat → Prop) : Ctx :=
  ⟨e, D.args.queueID, D.v0.st.hdrSlice, [c], h1, none, fun x => x = c, F⟩

/-- The verdict call in progress. -/
structure Busy (e : Endian) (D : QData) (F : Nat → Prop) (v : W) (c : VCall) (pc : Pc) (h1 : Heap) : Prop where
  calls : Calls (callCtx e D c h1 F)
  winv : WInv (callCtx e D c h1 F) D.qh v
  tinv : TInv (callCtx e D c h1 F) v.heap c pc
  mem : D.mem c.packet.arr
  base : D.v0.heap.arrays.length ≤ h1.arrays.length

/-- What the goroutine of a queue knows at each of its steps; `pend` are the events of the turn so far, `n` the packets given to the application. -/
def At (odd : List Byte → Prop) (e : Endian) (policy : Policy) (D : QData) (F : Nat → Prop) (v : W) (n : Nat) (pend : List (Ev QEv)) : APc → Prop
  | .read pc => RAt e D.qh 76800 v pend pc ∧ ∀ d, pend = [.recvfrom D.qh.fd 76800 0x100 (.ok d)] → Deals odd e d ∧ d.length ≤ 76800
  | .verdict c pc => pc ≠ .done ∧ ∃ d id payload mark h1, PacketMsg e d id payload ∧ ¬ ErrMsg e d ∧
      (∀ attrs p, Carries e d attrs → lastOf 3 attrs = some p → be32 p 0 = some mark) ∧
      pend = [.recvfrom D.qh.fd 76800 0x100 (.ok d), .app (.packet D.args.cb payload mark id D.args.priv)] ∧
      (∀ r, Answered e D.qh.fd D.args.queueID.toNat id payload (policy (n - 1) payload mark id)
        [.sendmsg D.qh.fd (callMsg e D.args.queueID c payload) r]) ∧
      h1.bytes c.packet = payload ∧ Busy e D F v c pc h1
  | .stopped => CloseEvs D.qh.fd pend

/-- Steps of its turn a goroutine has behind it (at most). -/
def done' : APc → Nat
  | .read pc => progress pc
  | .verdict c pc => 13 - rank c pc
  | .stopped => 0

/-- Steps a goroutine still takes (at most) once its context is done. -/
def left : APc → Nat
  | .read .idle => 1
  | .read pc => 14 - progress pc
  | .verdict c pc => 1 + rank c pc
  | .stopped => 0

/-- Packets counted but not yet given to the application. -/
def waiting : APc → Nat
  | .read pc => counting pc
  | _ => 0

/-- What the application answers to the packets among these events, if it has been given `n` before. -/
def answersOf (policy : Policy) : Nat → List (Ev QEv) → List Answer
  | _, [] => []
  | n, .app (.packet _ b mark id _) :: es => policy n b mark id :: answersOf policy (n + 1) es
  | n, _ :: es => answersOf policy n es

/-- A `SetVerdict` that accepts. -/
def Answer.accepts : Answer → Bool
  | .verdict v => v == 1
  | _ => false
/-- A `SetVerdict` that does not accept. -/
def Answer.drops : Answer → Bool
  | .verdict v => v != 1
  | _ => false

theorem answersOf_cons (policy : Policy) (n : Nat) (ev : Ev QEv) (es : List (Ev QEv)) (h : isPacket ev = false) :
    answersOf policy n (ev :: es) = answersOf policy n es := by
  cases ev with
  | app a =>
    cases a with
    | packet => cases h
    | error => rfl
    | spawnReader => rfl
  | _ => rfl

theorem answersOf_append (policy : Policy) (as bs : List (Ev QEv)) : ∀ n,
    answersOf policy n (as ++ bs) = answersOf policy n as ++ answersOf policy (n + as.countP isPacket) bs := by
  induction as with
  | nil => intro n; rfl
  | cons ev as ih =>
    intro n
    by_cases h : isPacket ev = true
    · have hcp : (ev :: as).countP isPacket = as.countP isPacket + 1 := by rw [List.countP_cons, if_pos h]
      cases ev with
      | app a =>
        cases a with
        | packet cb b m i p =>
          simp only [List.cons_append, answersOf, ih, hcp]
          rw [Nat.add_assoc, Nat.add_comm 1]
        | error => cases h
        | spawnReader => cases h
      | _ => cases h
    · have h' : isPacket ev = false := by simpa using h
      rw [List.cons_append, answersOf_cons _ _ _ _ h', answersOf_cons _ _ _ _ h', ih, List.countP_cons, if_neg h, Nat.add_zero]

theorem answersOf_none (policy : Policy) (n : Nat) (es : List (Ev QEv)) (h : es.countP isPacket = 0) : answersOf policy n es = [] := by
  induction es with
  | nil => rfl
  | cons ev es ih =>
    by_cases hp : isPacket ev = true
    · rw [List.countP_cons, if_pos hp] at h; omega
    · rw [List.countP_cons, if_neg hp, Nat.add_zero] at h
      rw [answersOf_cons _ _ _ _ (by simpa using hp), ih h]

/-- A `SetVerdict` call that has still to count itself. -/
def due (p : VCall → Bool) : APc → Nat
  | .verdict c .start => if p c then 1 else 0
  | _ => 0

/-- The verdict counters are right, up to a call that has just begun. -/
def Counts (policy : Policy) (v : W) (pc : APc) (evs : List (Ev QEv)) : Prop :=
  v.st.accepted + BitVec.ofNat 64 (due VCall.accepts pc) = BitVec.ofNat 64 ((answersOf policy 0 evs).countP Answer.accepts) ∧
  v.st.dropped + BitVec.ofNat 64 (due VCall.drops pc) = BitVec.ofNat 64 ((answersOf policy 0 evs).countP Answer.drops)

/-- Steps that give no packet to the application and count no verdict. -/
theorem Counts.quiet {policy : Policy} {v v' : W} {pc pc' : APc} {evs es evs' : List (Ev QEv)} (h : Counts policy v pc evs)
    (he : evs' = evs ++ es) (hes : es.countP isPacket = 0) (ha : v'.st.accepted = v.st.accepted) (hd : v'.st.dropped = v.st.dropped)
    (h1 : due VCall.accepts pc' = due VCall.accepts pc) (h2 : due VCall.drops pc' = due VCall.drops pc) : Counts policy v' pc' evs' := by
  unfold Counts
  rw [he, answersOf_append, answersOf_none _ _ _ hes, List.append_nil, ha, hd, h1, h2]
  exact h

/-- Number of packets given to the application. -/
def packetsIn (ts : List (List (Ev QEv))) : Nat := ts.flatten.countP isPacket

/-- What holds of a running queue; `F` is the memory of the others, `ts` its complete turns, `pend` the events of the
unfinished one, `n` the number of its steps. -/
structure QInv (odd : List Byte → Prop) (e : Endian) (policy : Policy) (D : QData) (F : Nat → Prop) (v : W) (g : AG) (ts : List (List (Ev QEv)))
    (pend : List (Ev QEv)) (n : Nat) : Prop where
  rd : Rd (readCtx e D) D.qh D.args.cb D.args.ecb D.args.priv 76800 v
  hdr : v.st.hdrSlice = D.v0.st.hdrSlice
  num : v.st.queueNum = D.args.queueID
  own : D.mem D.v0.st.hdrSlice.arr
  old : ∀ a, D.mem a → a < D.v0.heap.arrays.length
  apart : ∀ a, D.mem a → ¬ F a
  room : ∀ a, F a → a < v.heap.arrays.length
  len : D.v0.heap.arrays.length ≤ v.heap.arrays.length
  pos : At odd e policy D F v g.given pend g.pc
  turns : ∀ i t, ts[i]? = some t → AnswerTurn odd e D.qh.fd D.args.queueID.toNat D.args.cb D.args.ecb D.args.priv 76800
    (policy (packetsIn (ts.take i))) t
  given : g.given = packetsIn ts + pend.countP isPacket
  processed : v.st.processed = BitVec.ofNat 64 (g.given + waiting g.pc)
  counts : Counts policy v g.pc (ts.flatten ++ pend)
  steps : g.pc = .stopped ∨ n ≤ 13 * ts.length + done' g.pc

/-- Attributes, receive buffer and scratch header stay usable if they keep their sizes. -/
theorem Rd.sized {e : Endian} {D : QData} {qh : Handle} {cb ecb priv size : Nat} {w w' : W} (r : Rd (readCtx e D) qh cb ecb priv size w)
    (hown : D.mem w.st.hdrSlice.arr) (ha : ∀ a, D.mem a → (w'.heap.arrayOf a).length = (w.heap.arrayOf a).length)
    (hst : ∃ acc drp, w'.st = { w.st with accepted := acc, dropped := drp }) : Rd (readCtx e D) qh cb ecb priv size w' := by
  obtain ⟨acc, drp, hst⟩ := hst
  have val : ∀ s : Slice, D.mem s.arr → s.Valid w.heap → s.Valid w'.heap := by
    intro s hs hv
    unfold Slice.Valid; rw [ha _ hs]; exact hv
  have m1 : ∀ k s, w.st.attrs k = some s → D.mem s.arr := fun k s hk => Classical.byContradiction (r.own k s hk)
  have m2 : D.mem w.st.buf.arr := Classical.byContradiction r.bufOwn
  obtain ⟨⟨hs, h1, h2, h3, h4⟩, h5, h6, h7, h8, h9, h10⟩ := r
  refine ⟨⟨⟨?_, ?_, ?_, ?_, ?_, ?_, ?_⟩, ?_, ?_, ?_, ?_⟩, ?_, ?_, ?_, ?_, ?_, ?_⟩ <;> try rw [hst]
  · exact hs.handle
  · exact val _ m2 hs.buf
  · exact hs.small
  · exact val _ hown hs.hdr
  · exact hs.hdr40
  · exact hs.sep
  · exact hs.reg
  · exact h1
  · exact h2
  · exact h3
  · exact h4
  · intro k s hk
    rw [hst] at hk
    exact ⟨val _ (m1 k s hk) (h5 k s hk).1, (h5 k s hk).2⟩
  · exact h6
  · exact h7
  · exact h8
  · exact h9
  · exact h10

/-- More memory of other queues appears. -/
theorem Busy.other {e : Endian} {D : QData} {F F' Q : Nat → Prop} {v v' : W} {c : VCall} {pc : Pc} {h1 : Heap}
    (b : Busy e D F v c pc h1) (hown : D.mem D.v0.st.hdrSlice.arr) (hold : ∀ a, D.mem a → a < v.heap.arrays.length)
    (hst : v'.st = v.st) (fr : Frame Q v.heap v'.heap) (hQ : ∀ a, Q a → F' a) (hF : ∀ a, F a → F' a)
    (hnew : ∀ a, F' a → F a ∨ v.heap.arrays.length ≤ a) (hroom : ∀ a, F' a → a < v'.heap.arrays.length)
    (hdis : ∀ a, D.mem a → ¬ F' a) : Busy e D F' v' c pc h1 := by
  obtain ⟨hc, hw, ht, hm, hb⟩ := b
  have hlen : h1.arrays.length ≤ v.heap.arrays.length := hw.ev.len
  have hev : Evolve (callCtx e D c h1 F') v.heap v'.heap := by
    refine ⟨fr.len, ?_, ?_, ?_⟩
    · intro a _ hl ho
      exact fr.same a hl (fun h => ho (hQ a h))
    · intro a ha
      exact fr.size a (Nat.lt_of_lt_of_le ha hlen)
    · intro a ha _ _ ho i
      exact Or.inl (by rw [fr.same a (Nat.lt_of_lt_of_le ha hlen) (fun h => ho (hQ a h))])
  have hc' : Calls (callCtx e D c h1 F') := by
    refine ⟨hc.scratch, hc.ok, hc.mine, hc.sep, hc.reader, hdis _ hown, ?_⟩
    intro x hx
    have : x = c := by simpa [callCtx] using hx
    subst this
    exact hdis _ hm
  have hS : v'.heap.bytes D.v0.st.hdrSlice = v.heap.bytes D.v0.st.hdrSlice :=
    bytes_of_arrayOf (fr.same _ (hold _ hown) (fun h => hdis _ hown (hQ _ h)))
  have priv : ∀ s bs, Priv (callCtx e D c h1 F) v.heap s bs → Priv (callCtx e D c h1 F') v.heap s bs := by
    rintro s bs ⟨⟨p1, p2⟩, p3, p4⟩
    exact ⟨⟨p1, fun h => (hnew _ h).elim p2 (fun h => by omega)⟩, p3, p4⟩
  have head : ∀ hs, HeadAt (callCtx e D c h1 F) v.heap c hs → HeadAt (callCtx e D c h1 F') v.heap c hs := by
    intro hs h
    cases c with
    | v1 => exact priv _ _ h
    | v2 => exact h
  have ht' : TInv (callCtx e D c h1 F') v.heap c pc := by
    cases pc with
    | start => trivial
    | done => trivial
    | counted => exact ht
    | filled k i => exact ht
    | headed x => exact ⟨ht.1, head _ ht.2⟩
    | attred x y => exact ⟨head _ ht.1, priv _ _ ht.2⟩
    | padded x y z =>
      refine ⟨head _ ht.1, priv _ _ ht.2.1, ht.2.2.1, ht.2.2.2.1, ht.2.2.2.2.1, ?_⟩
      rcases ht.2.2.2.2.2 with ⟨⟨p1, p2⟩, p3⟩ | h
      · exact Or.inl ⟨⟨p1, fun h => (hnew _ h).elim p2 (fun h => by omega)⟩, p3⟩
      · exact Or.inr h
  refine ⟨hc', ⟨Evolve.trans ?_ hev, by rw [hst]; exact hw.handle, by rw [hst]; exact hw.hdr, by rw [hst]; exact hw.qn, hroom⟩,
    TInv.mono hc' (by simp [callCtx]) hev (fun _ => hS) ht', hm, hb⟩
  exact ⟨hw.ev.len, fun a h1 h2 h3 => hw.ev.priv a h1 h2 (fun h => h3 (hF a h)), hw.ev.size,
    fun a h1 h2 h3 h4 => hw.ev.old a h1 h2 h3 (fun h => h4 (hF a h))⟩

/-- Steps of other queues, and starts of further queues, are not noticed. -/
theorem QInv.other {e : Endian} {policy : Policy} {D : QData} {F F' Q : Nat → Prop} {v v' : W} {g : AG} {ts : List (List (Ev QEv))}
    {pend : List (Ev QEv)} {n : Nat} (inv : QInv odd e policy D F v g ts pend n)
    (hst : v'.st = v.st) (fr : Frame Q v.heap v'.heap) (hQ : ∀ a, Q a → F' a) (hF : ∀ a, F a → F' a)
    (hnew : ∀ a, F' a → F a ∨ v.heap.arrays.length ≤ a) (hroom : ∀ a, F' a → a < v'.heap.arrays.length)
    (hdis : ∀ a, D.mem a → ¬ F' a) : QInv odd e policy D F' v' g ts pend n := by
  have hold : ∀ a, D.mem a → a < v.heap.arrays.length := fun a ha => Nat.lt_of_lt_of_le (inv.old a ha) inv.len
  have hst' : ∃ acc drp, v'.st = { v.st with accepted := acc, dropped := drp } := ⟨_, _, hst⟩
  refine ⟨inv.rd.sized (by rw [inv.hdr]; exact inv.own) (fun a ha => fr.size a (hold a ha)) hst', by rw [hst]; exact inv.hdr,
    by rw [hst]; exact inv.num, inv.own, inv.old, hdis, hroom, Nat.le_trans inv.len fr.len, ?_, inv.turns, inv.given,
    by rw [hst]; exact inv.processed, by unfold Counts; rw [hst]; exact inv.counts, inv.steps⟩
  have hp := inv.pos
  cases hg : g.pc with
  | read pc =>
    rw [hg] at hp
    refine ⟨hp.1.mono inv.rd ?_ hst', hp.2⟩
    intro a _ ho
    have hm : D.mem a := Classical.byContradiction ho
    exact fr.same a (hold a hm) (fun h => hdis a hm (hQ a h))
  | verdict c pc =>
    rw [hg] at hp
    obtain ⟨h0, d, id, payload, mark, h1, a1, a2, a3, a4, a5, a6, b⟩ := hp
    exact ⟨h0, d, id, payload, mark, h1, a1, a2, a3, a4, a5, a6, b.other inv.own hold hst fr hQ hF hnew hroom hdis⟩
  | stopped => rw [hg] at hp; exact hp

theorem packetsIn_snoc (ts : List (List (Ev QEv))) (t : List (Ev QEv)) :
    packetsIn (ts ++ [t]) = packetsIn ts + t.countP isPacket := by
  simp [packetsIn, List.countP_append]

theorem turns_snoc {P : Nat → List (Ev QEv) → Prop} {ts : List (List (Ev QEv))} {t0 : List (Ev QEv)}
    (h : ∀ i t, ts[i]? = some t → P (packetsIn (ts.take i)) t) (h0 : P (packetsIn ts) t0) :
    ∀ i t, (ts ++ [t0])[i]? = some t → P (packetsIn ((ts ++ [t0]).take i)) t := by
  intro i t hi
  by_cases hlt : i < ts.length
  · rw [List.getElem?_append_left hlt] at hi
    rw [List.take_append_of_le_length (by omega)]
    exact h i t hi
  · rw [List.getElem?_append_right (by omega)] at hi
    have hi0 : i = ts.length := by
      have := (List.getElem?_eq_some_iff.mp hi).1
      simp only [List.length_singleton] at this
      omega
    subst hi0
    simp only [Nat.sub_self, List.getElem?_cons_zero, Option.some.injEq] at hi
    subst hi
    rw [List.take_left]
    exact h0

/-- What a step of a running queue gives. -/
def OwnStep (odd : List Byte → Prop) (env : Env) (K : Kernel QEv) (cancel : List (Ev QEv) → Bool) (policy : Policy) (D : QData) (F : Nat → Prop)
    (v : W) (g : AG) (ts : List (List (Ev QEv))) (pend : List (Ev QEv)) (n : Nat) : Prop :=
  ∃ (g' : AG) (v' : W) (es : List (Ev QEv)) (ts' : List (List (Ev QEv))) (pend' : List (Ev QEv)),
    estep env K cancel policy g v = .ok (g', v') ∧ v'.trace = v.trace ++ es ∧ Frame D.mem v.heap v'.heap ∧
    QInv odd env.e policy D F v' g' ts' pend' (n + 1) ∧ (ts <+: ts' ∧ ts'.flatten ++ pend' = ts.flatten ++ pend ++ es) ∧
    (g'.pc = .stopped → g.pc = .stopped ∨ cancel v.trace = true) ∧ (cancel v.trace = true → left g'.pc ≤ left g.pc - 1)

/-- A step of the reader before the packet callback. -/
theorem own_read (env : Env) (hidle : ∀ w, env.cbEffect w = w) (K : Kernel QEv) (cancel : List (Ev QEv) → Bool) (policy : Policy)
    {D : QData} {F : Nat → Prop} {v : W} {k : Nat} {pc : RPc} {ts : List (List (Ev QEv))} {pend : List (Ev QEv)} {n : Nat}
    (hA : OddFails odd env.e) (hK : ∀ d, K.recv v.trace D.qh.fd = .ok d → Deals odd env.e (d.take 76800)) (hpc : progress pc < 3)
    (hcan : pc = .idle → cancel v.trace ≠ true)
    (hrun : estep env K cancel policy ⟨k, .read pc⟩ v = (rstep env K pc >>= fun pc' => pure ⟨k, .read pc'⟩ : M AG) v)
    (inv : QInv odd env.e policy D F v ⟨k, .read pc⟩ ts pend n) : OwnStep odd env K cancel policy D F v ⟨k, .read pc⟩ ts pend n := by
  have hp := inv.pos
  obtain ⟨hat, hsends⟩ := hp
  obtain ⟨pc', v', es, h1, ht, hr, ⟨m, p, hst⟩, harr, hev, hcase⟩ :=
    rstep_ok env hidle K (fun d hd => (hK d hd).decent hA) inv.rd hat hpc
  have hbuf : D.mem v.st.buf.arr := Classical.byContradiction inv.rd.bufOwn
  have fr : Frame D.mem v.heap v'.heap := by
    refine ⟨hev.len, fun a _ hm => harr a (fun h => hm (h ▸ hbuf)), fun a ha => ?_⟩
    by_cases hab : a = v.st.buf.arr
    · exact hev.size a (by rw [hab]; exact inv.rd.buf.1)
    · rw [harr a hab]
  have hrun' : estep env K cancel policy ⟨k, .read pc⟩ v = .ok (⟨k, .read pc'⟩, v') := by
    rw [hrun, GoM.bind_apply, h1]; rfl
  have hroom : ∀ a, F a → a < v'.heap.arrays.length := fun a ha => Nat.lt_of_lt_of_le (inv.room a ha) hev.len
  have hsteps := inv.steps
  have hstep' : n ≤ 13 * ts.length + progress pc := by
    rcases hsteps with h | h
    · cases h
    · exact h
  have hproc := inv.processed
  have hgiv : k = packetsIn ts + pend.countP isPacket := inv.given
  simp only [waiting] at hproc
  have hcnt0 : counting pc = 0 := by cases pc <;> first | rfl | (simp [progress] at hpc)
  rw [hcnt0, Nat.add_zero] at hproc
  rcases hcase with ⟨hpr, hat', hpv, hes⟩ | ⟨rfl, hpv, x, err, gm, hpend, hf, hT, rfl⟩
  · have hes0 : es.countP isPacket = 0 := by rcases hes with rfl | ⟨x, rfl, _⟩ <;> rfl
    refine ⟨⟨k, .read pc'⟩, v', es, ts, pend ++ es, hrun', ht, fr, ?_, by simp, (fun h => by cases h), ?_⟩
    rotate_left
    · intro hc
      show left (.read pc') ≤ left (.read pc) - 1
      cases pc with
      | idle => exact absurd hc (hcan rfl)
      | ready => simp [progress] at hpc
      | got =>
        cases pc' <;> simp only [left, progress] at hpr ⊢ <;> omega
      | parsed =>
        cases pc' <;> simp only [left, progress] at hpr ⊢ <;> omega
    refine ⟨hr, by rw [hst]; exact inv.hdr, by rw [hst]; exact inv.num, inv.own, inv.old, inv.apart, hroom, Nat.le_trans inv.len hev.len,
      ⟨hat', ?_⟩, inv.turns, ?_, ?_, inv.counts.quiet (es := es) (by simp) hes0 (by rw [hst]) (by rw [hst]) rfl rfl, Or.inr ?_⟩
    · intro d hd
      rcases hes with rfl | ⟨x, rfl, hx⟩
      · exact hsends d (by simpa using hd)
      · have hx2 : pend = [] ∧ x = .ok d := by
          cases pend with
          | nil => simp at hd; exact ⟨rfl, hd⟩
          | cons a as => simp at hd
        obtain ⟨d0, hd0, rfl⟩ := hx d hx2.2
        exact ⟨hK d0 hd0, by simp; omega⟩
    · show k = _
      have : es.countP isPacket = 0 := by rcases hes with rfl | ⟨x, rfl, _⟩ <;> rfl
      rw [List.countP_append]; omega
    · rw [hpv, hproc]
      simp only [waiting]
      rw [BitVec.ofNat_add]
    · simp only [done']; omega
  · refine ⟨⟨k, .read .idle⟩, v', _, ts ++ [pend ++ [Ev.app (QEv.error D.args.ecb (.wrap "Netlink error %v" err) gm)]], [], hrun', ht, fr, ?_,
      by simp, (fun h => by cases h), ?_⟩
    rotate_left
    · intro hc
      show 1 ≤ left (.read pc) - 1
      cases pc with
      | idle => exact absurd hc (hcan rfl)
      | ready => simp [progress] at hpc
      | got => simp [left, progress]
      | parsed => simp [left, progress]
    have hcp : (pend ++ [Ev.app (QEv.error D.args.ecb (.wrap "Netlink error %v" err) gm)]).countP isPacket = 0 := by
      rw [hpend]; rfl
    refine ⟨hr, by rw [hst]; exact inv.hdr, by rw [hst]; exact inv.num, inv.own, inv.old, inv.apart, hroom, Nat.le_trans inv.len hev.len,
      ⟨rfl, fun d hd => by cases hd⟩, turns_snoc (P := fun m t => AnswerTurn odd env.e D.qh.fd D.args.queueID.toNat D.args.cb D.args.ecb
        D.args.priv 76800 (policy m) t) inv.turns ?_, ?_, ?_, inv.counts.quiet (es := [Ev.app (QEv.error D.args.ecb (.wrap "Netlink error %v" err) gm)])
        (by simp) rfl (by rw [hst]) (by rw [hst]) rfl rfl, Or.inr ?_⟩
    · refine Or.inl ⟨x, err, gm, ?_, hT, by rw [hpend]; rfl⟩
      rintro d rfl
      obtain ⟨hsd, hle⟩ := hsends d hpend
      exact hsd.failed (by omega) hf
    · show k = _
      have : pend.countP isPacket = 0 := by rw [hpend]; rfl
      rw [packetsIn_snoc, hcp, List.countP_nil]; omega
    · rw [hpv, hproc]; rfl
    · simp only [List.length_append, List.length_singleton, done', progress]; omega

theorem Answer.call_none {qn : U16} {id : Nat} {s : Slice} {a : Answer} (h : a.call qn id s = none) : a = .silent := by
  cases a with
  | silent => rfl
  | verdict => cases h
  | verdict2 => cases h

theorem Answer.call_packet {qn : U16} {id : Nat} {s : Slice} {a : Answer} {c : VCall} (h : a.call qn id s = some c) :
    c.packet = s ∧ c.plen ≤ s.len := by
  have h16 : (BitVec.ofNat 32 s.len).toNat % 65536 ≤ s.len := by
    rw [BitVec.toNat_ofNat]
    have := Nat.mod_le s.len (2 ^ 32)
    have := Nat.mod_le (s.len % 2 ^ 32) 65536
    omega
  cases a with
  | silent => cases h
  | verdict => cases h; exact ⟨rfl, h16⟩
  | verdict2 => cases h; exact ⟨rfl, h16⟩

theorem Answer.call_accepts {qn : U16} {id : Nat} {s : Slice} {a : Answer} {c : VCall} (h : a.call qn id s = some c) :
    VCall.accepts c = Answer.accepts a := by
  cases a with
  | silent => cases h
  | verdict => cases h; rfl
  | verdict2 => cases h; rfl

theorem Answer.call_drops {qn : U16} {id : Nat} {s : Slice} {a : Answer} {c : VCall} (h : a.call qn id s = some c) :
    VCall.drops c = Answer.drops a := by
  cases a with
  | silent => cases h
  | verdict => cases h; rfl
  | verdict2 => cases h; rfl

/-- The callback: the application is given the packet and answers at once, or begins its verdict call. -/
theorem own_ready (env : Env) (K : Kernel QEv) (cancel : List (Ev QEv) → Bool) (policy : Policy) (hA : OddFails odd env.e)
    {D : QData} {F : Nat → Prop} {v : W} {k id mark : Nat} {pkt : Option Slice} {ts : List (List (Ev QEv))} {pend : List (Ev QEv)} {n : Nat}
    (inv : QInv odd env.e policy D F v ⟨k, .read (.ready id mark pkt)⟩ ts pend n) :
    OwnStep odd env K cancel policy D F v ⟨k, .read (.ready id mark pkt)⟩ ts pend n := by
  obtain ⟨⟨d, hpend, hnf, hpkt, hag⟩, hsends⟩ := inv.pos
  obtain ⟨hsd, hle⟩ := hsends d hpend
  have hE : ¬ ErrMsg env.e d := fun h => hnf (Or.inl h)
  rcases hsd with (⟨_, h⟩ | ⟨id', payload, hP⟩) | hodd
  · exact absurd h hE
  rotate_left
  · exact absurd (hA d hodd).2 hnf
  have hP' := hP
  obtain ⟨attrs, p, hc, h4, hl1, hid, hl10, hne⟩ := hP'
  obtain ⟨g1, g3, g10⟩ := hag attrs hc
  have hidd : id' = id := by
    have := g1 p hl1
    rw [hid] at this
    exact Option.some.inj this
  subst hidd
  have hb : optBytes v.heap pkt = payload := g10 payload hl10
  obtain ⟨s, hs⟩ : ∃ s, v.st.attrs 10 = some s := Option.isSome_iff_exists.mp (by rw [inv.rd.setup.serving.reg]; rfl)
  have hps : pkt = some s := hpkt.trans hs
  subst hps
  have hsb : v.heap.bytes s = payload := hb
  have hsv := (inv.rd.attrs 10 s hs).1
  have hsl : s.len = payload.length := by rw [← hsb, Heap.bytes_length hsv]
  have hpl : payload.length ≤ 65531 ∧ 1 ≤ payload.length := by
    refine ⟨?_, List.length_pos_iff.mpr hne⟩
    obtain ⟨_, _, _, hall⟩ := hc
    unfold lastOf at hl10
    rw [Option.map_eq_some_iff] at hl10
    obtain ⟨a, ha, rfl⟩ := hl10
    exact (hall a ((List.mem_filter.mp (List.mem_of_getLast? ha)).1)).2
  have hmark : ∀ attrs p, Carries env.e d attrs → lastOf 3 attrs = some p → be32 p 0 = some mark :=
    fun attrs p hc hp => (hag attrs hc).2.1 p hp
  have hstep' : n ≤ 13 * ts.length + 3 := by
    rcases inv.steps with h | h
    · cases h
    · exact h
  have hgiv : k = packetsIn ts := by
    have : k = packetsIn ts + pend.countP isPacket := inv.given
    have : pend.countP isPacket = 0 := by rw [hpend]; rfl
    omega
  have hproc : v.st.processed = BitVec.ofNat 64 (k + 1) := inv.processed
  have hall : 0 + (ts.flatten ++ pend).countP isPacket = k := by
    have : k = packetsIn ts + pend.countP isPacket := inv.given
    rw [this, List.countP_append]; unfold packetsIn; omega
  have htr := inv.rd.trace (v.trace ++ [Ev.app (QEv.packet D.args.cb payload mark id' D.args.priv)])
  generalize hans : policy k payload mark id' = ans
  cases hcall : ans.call v.st.queueNum id' s with
  | none =>
    have hsil := Answer.call_none hcall
    subst hsil
    refine ⟨⟨k + 1, .read .idle⟩, { v with trace := v.trace ++ [Ev.app (QEv.packet D.args.cb payload mark id' D.args.priv)] },
      [Ev.app (QEv.packet D.args.cb payload mark id' D.args.priv)],
      ts ++ [pend ++ [Ev.app (QEv.packet D.args.cb payload mark id' D.args.priv)]], [], ?_, rfl, Frame.refl _ _, ?_, by simp, (fun h => by cases h),
      fun _ => by simp [left, progress]⟩
    · simp only [estep, inv.rd.setup.cb, hb, hans, Option.getD_some, hcall]
      simp only [GoM.bind_apply, emitPacket, Res.ok_bind, World.log, hb, inv.rd.setup.priv]
      rfl
    · have hcp : (pend ++ [Ev.app (QEv.packet D.args.cb payload mark id' D.args.priv)]).countP isPacket = 1 := by rw [hpend]; rfl
      refine ⟨htr, inv.hdr, inv.num, inv.own, inv.old, inv.apart, inv.room, inv.len, ⟨rfl, fun d hd => by cases hd⟩,
        turns_snoc (P := fun m t => AnswerTurn odd env.e D.qh.fd D.args.queueID.toNat D.args.cb D.args.ecb
          D.args.priv 76800 (policy m) t) inv.turns ?_, ?_, hproc, ?_, Or.inr ?_⟩
      · refine Or.inr ⟨d, id', payload, mark, [], hP, hE, hmark, by rw [hpend]; rfl, ?_⟩
        rw [← hgiv, hans]; rfl
      · show k + 1 = _
        rw [packetsIn_snoc, hcp, List.countP_nil]; omega
      · have hcn := inv.counts
        have hfl : (ts ++ [pend ++ [Ev.app (QEv.packet D.args.cb payload mark id' D.args.priv)]]).flatten ++ []
          = (ts.flatten ++ pend) ++ [Ev.app (QEv.packet D.args.cb payload mark id' D.args.priv)] := by simp
        unfold Counts at hcn ⊢
        rw [hfl, answersOf_append, hall]
        simp only [due, List.countP_append, answersOf, hans]
        exact hcn
      · simp only [List.length_append, List.length_singleton, done', progress]; omega
  | some c =>
    obtain ⟨hcp, hcl⟩ := Answer.call_packet hcall
    have hmem : D.mem s.arr := Classical.byContradiction (inv.rd.own 10 s hs)
    have hha := (inv.rd.aside 10 s hs).2.1
    refine ⟨⟨k + 1, .verdict c .start⟩, { v with trace := v.trace ++ [Ev.app (QEv.packet D.args.cb payload mark id' D.args.priv)] },
      [Ev.app (QEv.packet D.args.cb payload mark id' D.args.priv)],
      ts, pend ++ [Ev.app (QEv.packet D.args.cb payload mark id' D.args.priv)], ?_, rfl, Frame.refl _ _, ?_, by simp, (fun h => by cases h),
      fun _ => by simp only [left, progress, rank]; split <;> omega⟩
    · simp only [estep, inv.rd.setup.cb, hb, hans, Option.getD_some, hcall]
      simp only [GoM.bind_apply, emitPacket, Res.ok_bind, World.log, hb, inv.rd.setup.priv]
      rfl
    · refine ⟨htr, inv.hdr, inv.num, inv.own, inv.old, inv.apart, inv.room, inv.len, ⟨by simp, d, id', payload, mark, v.heap, hP, hE, hmark,
        by rw [hpend]; rfl, ?_, by rw [hcp]; exact hsb, ?_⟩, inv.turns, ?_, hproc, ?_, Or.inr ?_⟩
      · intro r
        have := call_answers (e := env.e) (qn := D.args.queueID) (num32_lt hid) hsl hpl.2 hpl.1 hcall D.qh.fd r
        rw [Nat.add_sub_cancel, hans]
        exact this
      · refine ⟨⟨⟨?_, ?_⟩, ?_, ?_, ?_, ⟨by simp [callCtx], by simp [callCtx]⟩, inv.apart _ inv.own, ?_⟩, ⟨Evolve.refl _ _, inv.rd.setup.serving.handle,
          inv.hdr, inv.num, inv.room⟩, trivial, by rw [hcp]; exact hmem, inv.len⟩
        · show D.v0.st.hdrSlice.Valid v.heap
          rw [← inv.hdr]; exact inv.rd.setup.serving.hdr
        · show D.v0.st.hdrSlice.len = 40
          rw [← inv.hdr]; exact inv.rd.setup.serving.hdr40
        · intro x hx
          have : x = c := by simpa [callCtx] using hx
          subst this
          refine ⟨by rw [hcp]; exact hsv, ?_, by rw [hcp, hsl]; exact hpl.2, by rw [hcp]; exact hcl⟩
          rw [hcp]; exact hha
        · intro x hx
          simpa [callCtx] using hx
        · intro x hx y hy
          have h1 : x = c := hx
          have h2 : y = c := by simpa [callCtx] using hy
          subst h1; subst h2
          exact Or.inr (Or.inl (Nat.le_refl _))
        · intro x hx
          have : x = c := by simpa [callCtx] using hx
          subst this
          rw [hcp]; exact inv.apart _ hmem
      · show k + 1 = _
        rw [hpend, hgiv]; rfl
      · have hcn := inv.counts
        unfold Counts at hcn ⊢
        rw [← List.append_assoc, answersOf_append, hall]
        simp only [due, List.countP_append, answersOf, hans] at hcn ⊢
        have h1 : (if VCall.accepts c = true then 1 else 0) = [ans].countP Answer.accepts := by rw [Answer.call_accepts hcall]; simp [List.countP_cons]
        have h2 : (if VCall.drops c = true then 1 else 0) = [ans].countP Answer.drops := by rw [Answer.call_drops hcall]; simp [List.countP_cons]
        rw [h1, h2, BitVec.ofNat_add, BitVec.ofNat_add, ← hcn.1, ← hcn.2]
        constructor <;> simp
      · simp only [done', rank]
        split <;> omega

theorem due_verdict {c : VCall} {pc : Pc} (p : VCall → Bool) (h : pc ≠ .start) : due p (.verdict c pc) = 0 := by
  cases pc with
  | start => exact absurd rfl h
  | _ => rfl

/-- A step of the verdict call made in the callback. -/
theorem own_verdict (env : Env) (K : Kernel QEv) (cancel : List (Ev QEv) → Bool) (policy : Policy)
    {D : QData} {F : Nat → Prop} {v : W} {k : Nat} {c : VCall} {pc : Pc} {ts : List (List (Ev QEv))} {pend : List (Ev QEv)} {n : Nat}
    (inv : QInv odd env.e policy D F v ⟨k, .verdict c pc⟩ ts pend n) : OwnStep odd env K cancel policy D F v ⟨k, .verdict c pc⟩ ts pend n := by
  obtain ⟨hnd, d, id, payload, mark, h1, hP, hE, hmark, hpend, hans, hpb, hcalls, hwinv, htinv, hmem, hbase⟩ := inv.pos
  obtain ⟨pc', v', hs, st⟩ := step_ok hcalls (by simp [callCtx]) hwinv env rfl K hnd htinv
  have hSlt := hcalls.scratch_lt
  have hPlt := hcalls.packet_lt (c := c) (by simp [callCtx])
  have hlen : h1.arrays.length ≤ v.heap.arrays.length := hwinv.ev.len
  have fr : Frame D.mem v.heap v'.heap := by
    refine ⟨st.ev.len, ?_, ?_⟩
    · intro a ha hm
      refine st.spared a ⟨ha, fun h => hm (by rw [h]; exact inv.own), ?_⟩
      rintro x rfl h
      exact hm (by rw [h]; exact hmem)
    · intro a ha
      by_cases h2 : a < h1.arrays.length
      · exact st.ev.size a h2
      · have : v'.heap.arrayOf a = v.heap.arrayOf a := by
          refine st.spared a ⟨ha, fun h => h2 (by rw [h]; exact hSlt), ?_⟩
          rintro x rfl h
          exact h2 (by rw [h]; exact hPlt)
        rw [this]
  have hcnt : ∃ acc drp, v'.st = { v.st with accepted := acc, dropped := drp } := by
    rw [st.count]
    unfold countOf
    split
    · unfold counted; split
      · exact ⟨_, _, rfl⟩
      · exact ⟨_, _, rfl⟩
    · exact ⟨_, _, rfl⟩
  have hold : ∀ a, D.mem a → a < v.heap.arrays.length := fun a ha => Nat.lt_of_lt_of_le (inv.old a ha) inv.len
  have hrd := inv.rd.sized (w' := v') (by rw [inv.hdr]; exact inv.own) (fun a ha => fr.size a (hold a ha)) hcnt
  have hroom : ∀ a, F a → a < v'.heap.arrays.length := fun a ha => Nat.lt_of_lt_of_le (inv.room a ha) fr.len
  obtain ⟨acc, drp, hst⟩ := hcnt
  have hstep' : n ≤ 13 * ts.length + (13 - rank c pc) := by
    rcases inv.steps with h | h
    · cases h
    · exact h
  have hgiv : k = packetsIn ts + 1 := by
    have : k = packetsIn ts + pend.countP isPacket := inv.given
    rw [hpend] at this
    exact this
  have hproc : v.st.processed = BitVec.ofNat 64 (k + 0) := inv.processed
  have hrank := st.rank
  have hrun : estep env K cancel policy ⟨k, .verdict c pc⟩ v
      = .ok (⟨k, if pc' = .done then .read .idle else .verdict c pc'⟩, v') := by
    simp only [estep, GoM.bind_apply, hs, Res.ok_bind]; rfl
  have hr13 : rank c pc ≤ 13 := by
    cases pc <;> simp only [rank] <;> first | omega | (split <;> omega)
  have hcn : v'.st.accepted + BitVec.ofNat 64 0 = BitVec.ofNat 64 ((answersOf policy 0 (ts.flatten ++ pend)).countP Answer.accepts) ∧
      v'.st.dropped + BitVec.ofNat 64 0 = BitVec.ofNat 64 ((answersOf policy 0 (ts.flatten ++ pend)).countP Answer.drops) := by
    have h := inv.counts
    unfold Counts at h
    rw [← h.1, ← h.2, st.count]
    cases pc with
    | start =>
      cases c with
      | v2 => simp [countOf, due, VCall.accepts, VCall.drops]
      | v1 q vd l i pk =>
        by_cases hv : vd = 1
        · simp [countOf, counted, due, VCall.accepts, VCall.drops, hv]
        · have hv' : ¬ vd = 1#32 := hv
          simp [countOf, counted, due, VCall.accepts, VCall.drops, hv']
    | _ => cases c <;> simp [countOf, due]
  rcases st.sent with ⟨hnd', htr⟩ | ⟨rfl, r, htr⟩
  · have hstart' : pc' ≠ .start := st.started
    rw [if_neg hnd'] at hrun
    refine ⟨⟨k, .verdict c pc'⟩, v', [], ts, pend, hrun, by rw [htr]; simp, fr, ?_, by simp, (fun h => by cases h),
      fun _ => by simp only [left]; omega⟩
    refine ⟨hrd, by rw [hst]; exact inv.hdr, by rw [hst]; exact inv.num, inv.own, inv.old, inv.apart, hroom, Nat.le_trans inv.len fr.len,
      ⟨hnd', d, id, payload, mark, h1, hP, hE, hmark, hpend, hans, hpb, hcalls, st.winv, st.tinv, hmem, hbase⟩, inv.turns, inv.given,
      by rw [hst]; exact hproc, by unfold Counts; rw [due_verdict _ hstart', due_verdict _ hstart']; exact hcn, Or.inr ?_⟩
    simp only [done']; omega
  · rw [if_pos rfl] at hrun
    have hmsg : callMsg (callCtx env.e D c h1 F).e (callCtx env.e D c h1 F).qn c ((callCtx env.e D c h1 F).h0.bytes c.packet)
        = callMsg env.e D.args.queueID c payload := by
      show callMsg env.e D.args.queueID c (h1.bytes c.packet) = _
      rw [hpb]
    rw [hmsg] at htr
    refine ⟨⟨k, .read .idle⟩, v', _, ts ++ [pend ++ [.sendmsg D.qh.fd (callMsg env.e D.args.queueID c payload) r]], [], hrun, htr, fr, ?_,
      by simp, (fun h => by cases h), fun _ => by simp only [left]; omega⟩
    refine ⟨hrd, by rw [hst]; exact inv.hdr, by rw [hst]; exact inv.num, inv.own, inv.old, inv.apart, hroom, Nat.le_trans inv.len fr.len,
      ⟨rfl, fun d hd => by cases hd⟩, turns_snoc (P := fun m t => AnswerTurn odd env.e D.qh.fd D.args.queueID.toNat D.args.cb D.args.ecb
          D.args.priv 76800 (policy m) t) inv.turns ?_, ?_, by rw [hst]; exact hproc, ?_, Or.inr ?_⟩
    · refine Or.inr ⟨d, id, payload, mark, _, hP, hE, hmark, by rw [hpend]; rfl, ?_⟩
      have := hans r
      rw [hgiv, Nat.add_sub_cancel] at this
      exact this
    · show k = _
      rw [packetsIn_snoc, hpend, hgiv]; rfl
    · have hfl : (ts ++ [pend ++ [Ev.sendmsg D.qh.fd (callMsg env.e D.args.queueID c payload) r]]).flatten ++ []
          = (ts.flatten ++ pend) ++ [Ev.sendmsg D.qh.fd (callMsg env.e D.args.queueID c payload) r] := by simp
      unfold Counts
      rw [hfl, answersOf_append, answersOf_none _ _ [Ev.sendmsg _ _ _] rfl, List.append_nil]
      exact hcn
    · simp only [List.length_append, List.length_singleton, done', progress]; omega

/-- Every step of a running queue succeeds and keeps what holds of it. -/
theorem own_step (env : Env) (hidle : ∀ w, env.cbEffect w = w) (K : Kernel QEv) (cancel : List (Ev QEv) → Bool) (policy : Policy)
    {D : QData} {F : Nat → Prop} {v : W} {g : AG} {ts : List (List (Ev QEv))} {pend : List (Ev QEv)} {n : Nat}
    (hA : OddFails odd env.e) (hK : g.pc ≠ .stopped → ∀ d, K.recv v.trace D.qh.fd = .ok d → Deals odd env.e (d.take 76800))
    (inv : QInv odd env.e policy D F v g ts pend n) : OwnStep odd env K cancel policy D F v g ts pend n := by
  obtain ⟨k, pc⟩ := g
  cases pc with
  | stopped =>
    refine ⟨⟨k, .stopped⟩, v, [], ts, pend, rfl, by simp, Frame.refl _ _, ?_, by simp, fun _ => Or.inl rfl, fun _ => Nat.le_refl _⟩
    exact { inv with steps := Or.inl rfl }
  | verdict c pc => exact own_verdict env K cancel policy inv
  | read pc =>
    cases pc with
    | ready id mark pkt => exact own_ready env K cancel policy hA inv
    | got buf m => exact own_read env hidle K cancel policy hA (hK (by simp)) (by simp [progress]) (by simp) rfl inv
    | parsed a b c => exact own_read env hidle K cancel policy hA (hK (by simp)) (by simp [progress]) (by simp) rfl inv
    | idle =>
      by_cases hcan : cancel v.trace = true
      · obtain ⟨evs, hcl, hev⟩ := nfqClose_spec K inv.rd.setup.serving.handle
        have hp : pend = [] := inv.pos.1
        subst hp
        refine ⟨⟨k, .stopped⟩, { v with trace := v.trace ++ evs }, evs, ts, evs, ?_, rfl, Frame.refl _ _, ?_, by simp, fun _ => Or.inr hcan, fun _ => Nat.le_refl _⟩
        · simp only [estep, if_pos hcan, GoM.bind_apply, hcl, Res.ok_bind]; rfl
        · have hz : evs.countP isPacket = 0 := by
            rcases hev with rfl | ⟨_, _, rfl⟩ <;> rfl
          refine ⟨inv.rd.trace _, inv.hdr, inv.num, inv.own, inv.old, inv.apart, inv.room, inv.len, hev, inv.turns, ?_, inv.processed,
            inv.counts.quiet (es := evs) (by simp) hz rfl rfl rfl rfl, Or.inl rfl⟩
          rw [hz]; exact inv.given
      · refine own_read env hidle K cancel policy hA (hK (by simp)) (by simp [progress]) (fun _ => hcan) ?_ inv
        simp only [estep, if_neg hcan]

/-- Whatever becomes of a start, nothing that was there before is touched. -/
theorem start_frame (env : Env) (K : Kernel QEv) (a : StartArgs) (v v' : W) (r : Option Err)
    (h : createAndStart env K a.queueID a.maxLen a.size (some a.cb) (some a.ecb) a.priv v = .ok (r, v')) :
    Frame (fun _ => False) v.heap v'.heap := by
  obtain ⟨hz, hk, _⟩ := start_keeps _ _ _ _ _ _ _ _ _ _ _ h
  obtain ⟨ha, hb⟩ := newNFQueue_heap v.heap
  have same : ∀ a, a < v.heap.arrays.length → v'.heap.arrayOf a = v.heap.arrayOf a := by
    intro a hlt
    rw [hk a (by rw [hb]; simp; omega)]
    unfold Heap.arrayOf
    rw [ha, List.getElem?_append_left hlt]
  refine ⟨?_, fun a hl _ => same a hl, fun a hl => by rw [same a hl]⟩
  have : v.heap.arrays.length + 4 < v'.heap.arrays.length := by
    apply Heap.lt_of_arrayOf_pos
    rw [← hz]
    unfold Heap.arrayOf
    rw [ha, List.getElem?_append_right (by omega)]
    simp [nfnlBuffSize]
  omega

/-- A queue just started. -/
theorem QInv.born {env : Env} {K : Kernel QEv} {a : StartArgs} {v v' : W}
    (h : createAndStart env K a.queueID a.maxLen a.size (some a.cb) (some a.ecb) a.priv v = .ok (none, v'))
    (policy : Policy) {F : Nat → Prop} (hF : ∀ x, F x → x < v.heap.arrays.length) :
    ∃ qh, v'.st.handle = some qh ∧ (∀ x, (⟨v', qh, a, v.heap.arrays.length⟩ : QData).mem x → x < v'.heap.arrays.length) ∧
      QInv odd env.e policy ⟨v', qh, a, v.heap.arrays.length⟩ F v' ⟨0, .read .idle⟩ [] [] 0 := by
  obtain ⟨l1, l2, l3, l4, l5, l6⟩ := started_layout _ _ _ _ _ _ _ _ _ _ h
  obtain ⟨qh, hS, hO, _⟩ := started_setup _ _ _ _ _ _ _ _ _ _ h
  obtain ⟨_, _, hz⟩ := start_keeps _ _ _ _ _ _ _ _ _ _ _ h
  have hold : ∀ x, (⟨v', qh, a, v.heap.arrays.length⟩ : QData).mem x → x < v'.heap.arrays.length := by
    intro x hx
    have h2 : x ≤ v.heap.arrays.length + 4 := hx.2
    omega
  have hfr := (start_frame env K a v v' none h).len
  refine ⟨qh, hS.serving.handle, hold, ⟨?_, rfl, l5, ?_, hold, ?_, ?_, Nat.le_refl _, ⟨rfl, fun d hd => by cases hd⟩, ?_, rfl, (hz rfl).1,
    ⟨by simp [due, (hz rfl).2.1, answersOf], by simp [due, (hz rfl).2.2, answersOf]⟩, Or.inr (Nat.zero_le _)⟩⟩
  · refine ⟨hS, hO, ?_, ⟨?_, ?_, fun _ h => h.elim⟩, ?_, ?_, rfl⟩
    · intro k s hk
      have := l3 k s hk
      refine ⟨?_, ?_, fun _ h => h.elim⟩
      · show s.arr < v'.heap.arrays.length
        omega
      · show s.arr ≠ v'.st.hdrSlice.arr
        omega
    · show v'.st.buf.arr < v'.heap.arrays.length
      omega
    · show v'.st.buf.arr ≠ v'.st.hdrSlice.arr
      omega
    · intro k s hk hn
      have := l3 k s hk
      exact hn ⟨by show v.heap.arrays.length ≤ _; omega, by show _ ≤ v.heap.arrays.length + 4; omega⟩
    · intro hn
      exact hn ⟨by show v.heap.arrays.length ≤ _; omega, by show _ ≤ v.heap.arrays.length + 4; omega⟩
  · exact ⟨by show v.heap.arrays.length ≤ v'.st.hdrSlice.arr; omega, by show v'.st.hdrSlice.arr ≤ v.heap.arrays.length + 4; omega⟩
  · intro x hx hf
    have h1 : v.heap.arrays.length ≤ x := hx.1
    have := hF x hf
    omega
  · intro x hx
    have := hF x hx
    omega
  · intro i t ht
    simp at ht

/-- What was done by one goroutine. -/
def byGo (i : Option Nat) (log : List (Option Nat × Ev QEv)) : List (Ev QEv) :=
  (log.filter fun x => x.1 == i).map (·.2)

theorem byGo_same (i : Option Nat) (log : List (Option Nat × Ev QEv)) (es : List (Ev QEv)) :
    byGo i (log ++ es.map (i, ·)) = byGo i log ++ es := by
  unfold byGo
  rw [List.filter_append, List.map_append]
  congr 1
  induction es with
  | nil => rfl
  | cons e es ih => simpa using ih

theorem byGo_other {i k : Option Nat} (h : k ≠ i) (log : List (Option Nat × Ev QEv)) (es : List (Ev QEv)) :
    byGo i (log ++ es.map (k, ·)) = byGo i log := by
  unfold byGo
  rw [List.filter_append, List.map_append]
  have : (es.map (k, ·)).filter (fun x => x.1 == i) = [] := by
    rw [List.filter_eq_nil_iff]
    intro x hx
    obtain ⟨e, _, rfl⟩ := List.mem_map.mp hx
    simp [h]
  rw [this]; simp

theorem log_snoc (i : Option Nat) (log : List (Option Nat × Ev QEv)) (es : List (Ev QEv)) :
    (log ++ es.map (fun x => (i, x))).map (fun x => x.2) = log.map (fun x => x.2) ++ es := by
  rw [List.map_append, List.map_map]
  simp [Function.comp_def]

/-- The memory of the running queues other than `j`. -/
def memOthers (s : Proc) (D : Nat → QData) (j : Nat) (a : Nat) : Prop := ∃ k g, k ≠ j ∧ s.run k = some g ∧ (D k).mem a

/-- What is known of each queue: its data, its complete turns, the events of the unfinished one, the number of its steps. -/
structure Book where
  D : Nat → QData
  ts : Nat → List (List (Ev QEv))
  pend : Nat → List (Ev QEv)
  n : Nat → Nat
  starts : List (Option Err × List (Ev QEv))

/-- What holds of the process throughout; `todo0` are the queues to be started, `w0` the world before. -/
structure PInv (odd : List Byte → Prop) (env : Env) (K : Kernel QEv) (cancel : Nat → List (Ev QEv) → Bool) (policy : Nat → Policy) (todo0 : List StartArgs) (w0 w : MW) (s : Proc)
    (log : List (Option Nat × Ev QEv)) (B : Book) : Prop where
  trace : w.trace = w0.trace ++ log.map (·.2)
  todo : s.todo = todo0.drop s.next
  next : s.next ≤ todo0.length
  fresh : ∀ j, s.next ≤ j → s.run j = none
  each : ∀ j g, s.run j = some g → QInv odd env.e (policy j) (B.D j) (memOthers s B.D j) (w.view j) g (B.ts j) (B.pend j) (B.n j)
  args : ∀ j g, s.run j = some g → todo0[j]? = some (B.D j).args
  events : ∀ j g, s.run j = some g → byGo (some j) log = (B.ts j).flatten ++ B.pend j
  quiet : ∀ j, s.run j = none → byGo (some j) log = []
  stop : ∀ j g, s.run j = some g → g.pc = .stopped → ∃ l1 l2, log = l1 ++ l2 ∧ cancel j (w0.trace ++ l1.map (·.2)) = true
  main : byGo none log = (B.starts.map (·.2)).flatten
  nstarts : B.starts.length = s.next
  starts : ∀ i x, B.starts[i]? = some x → ∃ a, todo0[i]? = some a ∧
    StartOut env.e a.queueID.toNat a.maxLen.toNat a.size.toNat x.1 x.2 ∧ (x.1 = none ↔ ∃ g, s.run i = some g) ∧
    (x.1 = none → .socket 16 3 12 (.ok (B.D i).qh.fd) ∈ x.2)

/-- The kernel sends proper datagrams: something with a header that fits the buffer while a queue is started, and packets and error
messages to the queues that run. -/
structure Honest (env : Env) (K : Kernel QEv) (todo : List StartArgs) (w0 : MW) : Prop where
  size : ∀ evs fd d, K.recv (w0.trace ++ evs) fd = .ok d → 20 ≤ d.length ∧ d.length < 75 * 1024
  packets : ∀ a, a ∈ todo → ∀ v v', (∃ evs, v.trace = w0.trace ++ evs) →
    createAndStart env K a.queueID a.maxLen a.size (some a.cb) (some a.ecb) a.priv v = .ok (none, v') →
    ∀ qh, v'.st.handle = some qh → ∀ evs d, K.recv (v'.trace ++ evs) qh.fd = .ok d → Sends env.e d

/-- What the main goroutine does in a step: nothing, if no queue is left to start; or it starts the next one. -/
def StartMove (env : Env) (K : Kernel QEv) (s : Proc) (w : MW) (s' : Proc) (w' : MW) (l : List (Option Nat × Ev QEv)) (B B' : Book) : Prop :=
  (s' = s ∧ w' = w ∧ l = [] ∧ B' = B) ∨ ∃ a rest r v' evs, s.todo = a :: rest ∧ s.run s.next = none ∧
    createAndStart env K a.queueID a.maxLen a.size (some a.cb) (some a.ecb) a.priv (w.view s.next) = .ok (r, v') ∧
    v'.trace = w.trace ++ evs ∧ w'.trace = v'.trace ∧ l = evs.map (none, ·) ∧ B'.starts = B.starts ++ [(r, evs)] ∧
    (∀ k, k ≠ s.next → s'.run k = s.run k ∧ B'.D k = B.D k) ∧ (r ≠ none → s'.run s.next = none) ∧
    (r = none → s'.run s.next = some ⟨0, .read .idle⟩ ∧ (B'.D s.next).args = a ∧ v'.st.handle = some (B'.D s.next).qh) ∧
    (∀ k, k ≠ s.next → B'.ts k = B.ts k)

/-- What the goroutine of queue `j` does in a step: nothing, if there is none; or a step of its own. -/
def QueueMove (env : Env) (K : Kernel QEv) (cancel : Nat → List (Ev QEv) → Bool) (policy : Nat → Policy) (j : Nat) (s : Proc) (w : MW) (s' : Proc)
    (w' : MW) (l : List (Option Nat × Ev QEv)) (B B' : Book) : Prop :=
  (s' = s ∧ w' = w ∧ l = [] ∧ B' = B) ∨ ∃ g g' v' es, s.run j = some g ∧
    estep env K (cancel j) (policy j) g (w.view j) = .ok (g', v') ∧
    v'.trace = w.trace ++ es ∧ w'.trace = v'.trace ∧ l = es.map (some j, ·) ∧ B'.D = B.D ∧ B'.starts = B.starts ∧
    (s'.run = fun k => if k = j then some g' else s.run k) ∧ ∀ k, B.ts k <+: B'.ts k

/-- What one step does. -/
def Moved (env : Env) (K : Kernel QEv) (cancel : Nat → List (Ev QEv) → Bool) (policy : Nat → Policy) (s : Proc) (w : MW) (s' : Proc) (w' : MW)
    (l : List (Option Nat × Ev QEv)) (B B' : Book) : Option Nat → Prop
  | none => StartMove env K s w s' w' l B B'
  | some j => QueueMove env K cancel policy j s w s' w' l B B'

/-- What one step of the process gives. -/
def ProcStep (odd : List Byte → Prop) (env : Env) (K : Kernel QEv) (cancel : Nat → List (Ev QEv) → Bool) (policy : Nat → Policy) (todo0 : List StartArgs) (w0 w : MW)
    (s : Proc) (log : List (Option Nat × Ev QEv)) (B : Book) (i : Option Nat) : Prop :=
  ∃ s' w' l B', pstep env K cancel policy i s w = .ok ((s', l), w') ∧ PInv odd env K cancel policy todo0 w0 w' s' (log ++ l) B' ∧
    (s'.next = min todo0.length (s.next + [i].count none)) ∧ Moved env K cancel policy s w s' w' l B B' i ∧
    ∀ j g, s.run j = some g → (∃ g', s'.run j = some g' ∧
      (cancel j w.trace = true → left g'.pc ≤ left g.pc - [i].count (some j))) ∧ B'.n j = B.n j + [i].count (some j)

/-- The main goroutine starts the next queue. -/
theorem pinv_start {env : Env} {K : Kernel QEv} {cancel : Nat → List (Ev QEv) → Bool} {policy : Nat → Policy} {todo0 : List StartArgs} {w0 w : MW}
    {s : Proc} {log : List (Option Nat × Ev QEv)} {B : Book}
    (H : ∀ evs fd d, K.recv (w.trace ++ evs) fd = .ok d → 20 ≤ d.length ∧ d.length < 75 * 1024)
    (P : PInv odd env K cancel policy todo0 w0 w s log B) : ProcStep odd env K cancel policy todo0 w0 w s log B none := by
  cases htodo : s.todo with
  | nil =>
    refine ⟨s, w, [], B, by simp [pstep, htodo], by rw [List.append_nil]; exact P, ?_, .inl ⟨rfl, rfl, rfl, rfl⟩, fun j g hj => ⟨⟨g, hj, fun _ => by simp⟩, by simp⟩⟩
    have h1 := P.next
    have h2 : todo0.length ≤ s.next := by
      have := P.todo
      rw [htodo] at this
      exact List.drop_eq_nil_iff.mp this.symm
    omega
  | cons a rest =>
    have hdrop := P.todo
    rw [htodo] at hdrop
    have hlt : s.next < todo0.length := by
      apply Classical.byContradiction
      intro h
      rw [List.drop_eq_nil_of_le (by omega)] at hdrop
      cases hdrop
    have hget : todo0[s.next]? = some a := by
      rw [← Nat.add_zero s.next, ← List.getElem?_drop, ← hdrop]; rfl
    have htail : rest = todo0.drop (s.next + 1) := by
      rw [← List.tail_drop, ← hdrop]; rfl
    obtain ⟨r, v', hc⟩ := start_returns env K a.queueID a.maxLen a.size (some a.cb) (some a.ecb) a.priv (w.view s.next)
      (fun evs fd d hd => H evs fd d hd)
    obtain ⟨evs, htr, hout, hsk⟩ := start_spec _ _ _ _ _ _ _ _ _ _ _ hc
    have htr' : v'.trace = w.trace ++ evs := htr
    have fr : Frame (fun _ => False) w.heap v'.heap := start_frame env K a (w.view s.next) v' r hc
    have hnone : s.run s.next = none := P.fresh _ (Nat.le_refl _)
    have hstep : pstep env K cancel policy none s w = .ok ((s.started r.isNone, evs.map (none, ·)),
        ⟨v'.trace, v'.heap, fun k => if k = s.next then v'.st else w.st k⟩) := by
      simp only [pstep, htodo, hc]
      rw [htr', List.drop_left]
    have hne : ∀ j g, s.run j = some g → j ≠ s.next := by
      rintro j g hj rfl
      rw [hnone] at hj; cases hj
    have hrun : ∀ j, j ≠ s.next → (s.started r.isNone).run j = s.run j := by
      intro j hj
      simp [Proc.started, hj]
    have hview : ∀ j, j ≠ s.next →
        MW.view ⟨v'.trace, v'.heap, fun k => if k = s.next then v'.st else w.st k⟩ j = ⟨v'.trace, v'.heap, w.st j⟩ := by
      intro j hj
      simp [MW.view, hj]
    have hoth : ∀ j, byGo (some j) (log ++ evs.map (none, ·)) = byGo (some j) log := fun j => byGo_other (by simp) _ _
    have hmain : byGo none (log ++ evs.map (none, ·)) = ((B.starts ++ [(r, evs)]).map (·.2)).flatten := by
      rw [byGo_same, P.main]; simp
    have hstarts : ∀ D : Nat → QData, (∀ k, k < s.next → D k = B.D k) → (r = none ↔ ∃ g, (s.started r.isNone).run s.next = some g) →
        (r = none → Ev.socket 16 3 12 (.ok (D s.next).qh.fd) ∈ evs) → ∀ i x, (B.starts ++ [(r, evs)])[i]? = some x → ∃ a, todo0[i]? = some a ∧
        StartOut env.e a.queueID.toNat a.maxLen.toNat a.size.toNat x.1 x.2 ∧ (x.1 = none ↔ ∃ g, (s.started r.isNone).run i = some g) ∧
        (x.1 = none → .socket 16 3 12 (.ok (D i).qh.fd) ∈ x.2) := by
      intro D hD hr hfd i x hi
      by_cases hil : i < B.starts.length
      · rw [List.getElem?_append_left hil] at hi
        rw [hrun i (by have := P.nstarts; omega), hD i (by have := P.nstarts; omega)]
        exact P.starts i x hi
      · rw [List.getElem?_append_right (by omega)] at hi
        have hi0 : i = s.next := by
          have := (List.getElem?_eq_some_iff.mp hi).1
          have h2 := P.nstarts
          simp only [List.length_singleton] at this
          omega
        subst hi0
        have hx : (r, evs) = x := by
          rw [P.nstarts, Nat.sub_self] at hi
          simpa using hi
        subst hx
        exact ⟨a, hget, hout, hr, hfd⟩
    have hroom : ∀ j a, memOthers s B.D j a → a < w.heap.arrays.length := by
      rintro j a ⟨k, g, _, hk, hm⟩
      exact Nat.lt_of_lt_of_le ((P.each k g hk).old a hm) (P.each k g hk).len
    have hlog : w.trace = w0.trace ++ log.map (·.2) := P.trace
    have hstop : ∀ j g, s.run j = some g → g.pc = .stopped → ∃ l1 l2, log ++ evs.map (none, ·) = l1 ++ l2 ∧ cancel j (w0.trace ++ l1.map (·.2)) = true := by
      intro j g hj hg
      obtain ⟨l1, l2, h1, h2⟩ := P.stop j g hj hg
      exact ⟨l1, l2 ++ evs.map (none, ·), by rw [h1, List.append_assoc], h2⟩
    have htr0 : v'.trace = w0.trace ++ (log ++ evs.map (none, ·)).map (fun x : Option Nat × Ev QEv => x.2) := by
      rw [htr', hlog, log_snoc, List.append_assoc]
    have hnx : ∀ b, (s.started b).next = min todo0.length (s.next + [(none : Option Nat)].count none) := by
      intro b
      show s.next + 1 = min todo0.length (s.next + 1)
      omega
    cases r with
    | some err =>
      rw [show (some err : Option Err).isNone = false from rfl] at hstep hrun hstarts
      refine ⟨_, _, _, { B with starts := B.starts ++ [(some err, evs)] }, hstep, ?_, hnx false, .inr ⟨a, rest, some err, v', evs, htodo, hnone, hc, htr', rfl, rfl, rfl,
        fun k hk => ⟨hrun k hk, rfl⟩, fun _ => by simp [Proc.started], (fun h => by cases h), fun _ _ => rfl⟩, ?_⟩
      · have hno : (s.started false).run s.next = none := by simp [Proc.started]
        have hmem : memOthers (s.started false) B.D = memOthers s B.D := by
          funext j a
          apply propext
          constructor
          · rintro ⟨k, g, h1, h2, h3⟩
            by_cases hk : k = s.next
            · subst hk; rw [show (s.started false).run s.next = none from hno] at h2; cases h2
            · exact ⟨k, g, h1, by rw [← hrun k hk]; exact h2, h3⟩
          · rintro ⟨k, g, h1, h2, h3⟩
            exact ⟨k, g, h1, by rw [show (s.started false).run k = s.run k from hrun k (hne k g h2)]; exact h2, h3⟩
        have hwas : ∀ j g, (s.started false).run j = some g → s.run j = some g := by
          intro j g hj
          by_cases hk : j = s.next
          · subst hk; rw [hno] at hj; cases hj
          · rw [← hrun j hk]; exact hj
        refine ⟨htr0, by rw [show (s.started false).todo = rest by simp [Proc.started, htodo]]; exact htail, hlt, ?_, ?_, ?_, ?_, ?_, ?_, hmain, ?_, hstarts B.D (fun _ _ => rfl) ?_ (fun h => by cases h)⟩
        · intro j hj
          have hj' : s.next + 1 ≤ j := hj
          rw [show (s.started false).run j = s.run j from hrun j (by omega)]
          exact P.fresh j (by omega)
        · intro j g hj
          have hj' := hwas j g hj
          rw [hview j (hne j g hj'), show memOthers (s.started false) B.D = memOthers s B.D from hmem]
          exact (P.each j g hj').other (Q := fun _ => False) rfl fr (fun _ h => h.elim) (fun _ h => h) (fun _ h => Or.inl h)
            (fun a ha => Nat.lt_of_lt_of_le (hroom j a ha) fr.len) (P.each j g hj').apart
        · intro j g hj
          exact P.args j g (hwas j g hj)
        · intro j g hj
          rw [hoth]; exact P.events j g (hwas j g hj)
        · intro j hj
          rw [hoth]
          apply P.quiet
          by_cases hk : j = s.next
          · subst hk; exact hnone
          · rw [← hrun j hk]; exact hj
        · intro j g hj
          exact hstop j g (hwas j g hj)
        · show (B.starts ++ [(some err, evs)]).length = s.next + 1
          rw [List.length_append, P.nstarts]; rfl
        · constructor
          · intro h; cases h
          · rintro ⟨g, hg⟩
            rw [show (s.started false).run s.next = none from hno] at hg; cases hg
      · intro j g hj
        exact ⟨⟨g, by rw [hrun j (hne j g hj)]; exact hj, fun _ => by simp⟩, by simp⟩
    | none =>
      rw [show (none : Option Err).isNone = true from rfl] at hstep hrun hstarts
      obtain ⟨qh, hqh, hold, hq⟩ := QInv.born hc (policy s.next) (F := memOthers s B.D s.next) (hroom s.next)
      let Dn : Nat → QData := fun k => if k = s.next then ⟨v', qh, a, (w.view s.next).heap.arrays.length⟩ else B.D k
      refine ⟨_, _, _, ⟨Dn, fun k => if k = s.next then [] else B.ts k, fun k => if k = s.next then [] else B.pend k,
        fun k => if k = s.next then 0 else B.n k, B.starts ++ [(none, evs)]⟩, hstep, ?_, hnx true, .inr ⟨a, rest, none, v', evs, htodo, hnone, hc, htr', rfl, rfl, rfl,
        fun k hk => ⟨hrun k hk, if_neg hk⟩, fun h => absurd rfl h, fun _ => ⟨by simp [Proc.started], ?_, ?_⟩, fun k hk => if_neg hk⟩, ?_⟩
      rotate_left
      · show (Dn s.next).args = a
        rw [show Dn s.next = ⟨v', qh, a, (w.view s.next).heap.arrays.length⟩ from if_pos rfl]
      · show v'.st.handle = some (Dn s.next).qh
        rw [show Dn s.next = ⟨v', qh, a, (w.view s.next).heap.arrays.length⟩ from if_pos rfl]; exact hqh
      rotate_left
      · have hDn : ∀ k, k ≠ s.next → Dn k = B.D k := fun k hk => if_neg hk
        have hDs : Dn s.next = ⟨v', qh, a, (w.view s.next).heap.arrays.length⟩ := if_pos rfl
        have hyes : (s.started true).run s.next = some ⟨0, .read .idle⟩ := by simp [Proc.started]
        have hwas : ∀ j g, j ≠ s.next → (s.started true).run j = some g → s.run j = some g := by
          intro j g hk hj
          rw [← hrun j hk]; exact hj
        have hmems : memOthers (s.started true) Dn s.next = memOthers s B.D s.next := by
          funext x
          apply propext
          constructor
          · rintro ⟨k, g, h1, h2, h3⟩
            exact ⟨k, g, h1, hwas k g h1 h2, by rw [← hDn k h1]; exact h3⟩
          · rintro ⟨k, g, h1, h2, h3⟩
            exact ⟨k, g, h1, by rw [show (s.started true).run k = s.run k from hrun k h1]; exact h2, by rw [hDn k h1]; exact h3⟩
        have hmemo : ∀ j, j ≠ s.next → ∀ x, memOthers (s.started true) Dn j x ↔ (memOthers s B.D j x ∨ (Dn s.next).mem x) := by
          intro j hj x
          constructor
          · rintro ⟨k, g, h1, h2, h3⟩
            by_cases hk : k = s.next
            · subst hk; exact Or.inr h3
            · exact Or.inl ⟨k, g, h1, hwas k g hk h2, by rw [← hDn k hk]; exact h3⟩
          · rintro (⟨k, g, h1, h2, h3⟩ | h)
            · have hk := hne k g h2
              exact ⟨k, g, h1, by rw [show (s.started true).run k = s.run k from hrun k hk]; exact h2, by rw [hDn k hk]; exact h3⟩
            · exact ⟨s.next, _, fun h => hj h.symm, hyes, h⟩
        refine ⟨htr0, by rw [show (s.started true).todo = rest by simp [Proc.started, htodo]]; exact htail, hlt, ?_, ?_, ?_, ?_, ?_, ?_, hmain, ?_, hstarts Dn (fun k hk => hDn k (by omega)) ?_ (fun _ => ?_)⟩
        · intro j hj
          have hj' : s.next + 1 ≤ j := hj
          rw [show (s.started true).run j = s.run j from hrun j (by omega)]
          exact P.fresh j (by omega)
        · intro j g hj
          by_cases hk : j = s.next
          · subst hk
            have hg : g = ⟨0, .read .idle⟩ := by
              have : some g = some ⟨0, .read .idle⟩ := hj.symm.trans hyes
              exact Option.some.inj this
            subst hg
            show QInv odd env.e (policy s.next) (Dn s.next) (memOthers (s.started true) Dn s.next) _ _ (if s.next = s.next then [] else _) (if s.next = s.next then [] else _) (if s.next = s.next then 0 else _)
            rw [hmems, hDs, if_pos rfl, if_pos rfl, if_pos rfl]
            have : MW.view ⟨v'.trace, v'.heap, fun k => if k = s.next then v'.st else w.st k⟩ s.next = v' := by
              simp [MW.view]
            rw [this]
            exact hq
          · have hj' := hwas j g hk hj
            rw [hview j hk]
            show QInv odd env.e (policy j) (Dn j) (memOthers (s.started true) Dn j) _ _ (if j = s.next then [] else _) (if j = s.next then [] else _) (if j = s.next then 0 else _)
            rw [hDn j hk, if_neg hk, if_neg hk, if_neg hk]
            have inv := P.each j g hj'
            have hbase : ∀ x, (Dn s.next).mem x → w.heap.arrays.length ≤ x ∧ x < v'.heap.arrays.length := by
              intro x hx
              rw [hDs] at hx
              exact ⟨hx.1, hold x hx⟩
            refine inv.other (Q := fun _ => False) rfl fr (fun _ h => h.elim) ?_ ?_ ?_ ?_
            · intro x hx
              exact (hmemo j hk x).mpr (Or.inl hx)
            · intro x hx
              exact ((hmemo j hk x).mp hx).imp id (fun h => (hbase x h).1)
            · intro x hx
              rcases (hmemo j hk x).mp hx with h | h
              · exact Nat.lt_of_lt_of_le (hroom j x h) fr.len
              · exact (hbase x h).2
            · intro x hx h
              rcases (hmemo j hk x).mp h with h | h
              · exact inv.apart x hx h
              · have h1 := (hbase x h).1
                have h2 : x < w.heap.arrays.length := Nat.lt_of_lt_of_le (inv.old x hx) inv.len
                omega
        · intro j g hj
          show todo0[j]? = some (Dn j).args
          by_cases hk : j = s.next
          · subst hk; rw [hDs]; exact hget
          · rw [hDn j hk]; exact P.args j g (hwas j g hk hj)
        · intro j g hj
          rw [hoth]
          show _ = (if j = s.next then [] else B.ts j).flatten ++ (if j = s.next then [] else B.pend j)
          by_cases hk : j = s.next
          · subst hk
            rw [if_pos rfl, if_pos rfl]; exact P.quiet _ hnone
          · rw [if_neg hk, if_neg hk]; exact P.events j g (hwas j g hk hj)
        · intro j hj
          rw [hoth]
          apply P.quiet
          by_cases hk : j = s.next
          · subst hk; exact hnone
          · rw [← hrun j hk]; exact hj
        · intro j g hj hg
          by_cases hk : j = s.next
          · subst hk
            have : some g = some ⟨0, .read .idle⟩ := hj.symm.trans hyes
            cases this
            cases hg
          · exact hstop j g (hwas j g hk hj) hg
        · show (B.starts ++ [(none, evs)]).length = s.next + 1
          rw [List.length_append, P.nstarts]; rfl
        · exact ⟨fun _ => ⟨_, hyes⟩, fun _ => rfl⟩
        · obtain ⟨_, qh', hR, hin, _⟩ := hsk rfl
          have : qh' = qh := Option.some.inj (hR.1.symm.trans hqh)
          rw [hDs, ← this]; exact hin
      · intro j g hj
        refine ⟨⟨g, by rw [hrun j (hne j g hj)]; exact hj, fun _ => by simp⟩, ?_⟩
        show (if j = s.next then 0 else B.n j) = _
        rw [if_neg (hne j g hj)]; simp

/-- The goroutine of a queue takes a step. -/
theorem pinv_queue {env : Env} (hidle : ∀ w, env.cbEffect w = w) {K : Kernel QEv} {cancel : Nat → List (Ev QEv) → Bool} {policy : Nat → Policy} {todo0 : List StartArgs} {w0 w : MW}
    {s : Proc} {log : List (Option Nat × Ev QEv)} {B : Book} (hA : OddFails odd env.e) (P : PInv odd env K cancel policy todo0 w0 w s log B) (j : Nat)
    (hK : ∀ g, s.run j = some g → g.pc ≠ .stopped → ∀ d, K.recv w.trace (B.D j).qh.fd = .ok d → Deals odd env.e d ∧ d.length < 75 * 1024) : ProcStep odd env K cancel policy todo0 w0 w s log B (some j) := by
  have hnx : s.next = min todo0.length (s.next + [some j].count none) := by
    have := P.next
    have : [some j].count none = 0 := rfl
    omega
  cases hj : s.run j with
  | none =>
    refine ⟨s, w, [], B, by simp [pstep, hj], by rw [List.append_nil]; exact P, hnx, .inl ⟨rfl, rfl, rfl, rfl⟩, fun k g hk => ⟨⟨g, hk, fun _ => ?_⟩, ?_⟩⟩
    · have : j ≠ k := by rintro rfl; rw [hj] at hk; cases hk
      simp [this]
    have : j ≠ k := by rintro rfl; rw [hj] at hk; cases hk
    simp [this]
  | some g =>
    have inv := P.each j g hj
    obtain ⟨g', v', es, ts', pend', hs, htr, fr, inv', ⟨hpre, hfl⟩, hst, hlt⟩ := own_step env hidle K (cancel j) (policy j)
      hA (by
        intro hns d hd
        obtain ⟨h1, h2⟩ := hK g hj hns d hd
        rw [List.take_of_length_le (by omega)]
        exact h1) inv
    have htr' : v'.trace = w.trace ++ es := htr
    have fr' : Frame (B.D j).mem w.heap v'.heap := fr
    have hstep : pstep env K cancel policy (some j) s w = .ok ((⟨s.todo, s.next, fun k => if k = j then some g' else s.run k⟩, es.map (some j, ·)),
        ⟨v'.trace, v'.heap, fun k => if k = j then v'.st else w.st k⟩) := by
      simp only [pstep, hj, hs]
      rw [htr', List.drop_left]
    have hmem : memOthers ⟨s.todo, s.next, fun k => if k = j then some g' else s.run k⟩ B.D = memOthers s B.D := by
      funext k a
      apply propext
      constructor
      · rintro ⟨m, x, h1, h2, h3⟩
        by_cases hm : m = j
        · subst hm; exact ⟨m, g, h1, hj, h3⟩
        · simp only [if_neg hm] at h2
          exact ⟨m, x, h1, h2, h3⟩
      · rintro ⟨m, x, h1, h2, h3⟩
        by_cases hm : m = j
        · subst hm; exact ⟨m, g', h1, by simp, h3⟩
        · exact ⟨m, x, h1, by simp only [if_neg hm]; exact h2, h3⟩
    have hrun : ∀ k x, (if k = j then some g' else s.run k) = some x → (k = j ∧ x = g') ∨ (k ≠ j ∧ s.run k = some x) := by
      intro k x h
      by_cases hk : k = j
      · rw [if_pos hk] at h; exact Or.inl ⟨hk, (Option.some.inj h).symm⟩
      · rw [if_neg hk] at h; exact Or.inr ⟨hk, h⟩
    have hlog : w.trace = w0.trace ++ log.map (·.2) := P.trace
    refine ⟨_, _, _, ⟨B.D, fun k => if k = j then ts' else B.ts k, fun k => if k = j then pend' else B.pend k,
      fun k => if k = j then B.n j + 1 else B.n k, B.starts⟩, hstep, ⟨?_, P.todo, P.next, ?_, ?_, ?_, ?_, ?_, ?_, ?_, P.nstarts, ?_⟩, hnx,
      .inr ⟨g, g', v', es, hj, hs, htr', rfl, rfl, rfl, rfl, rfl, fun k => (by
        show B.ts k <+: if k = j then ts' else B.ts k
        split
        · rename_i h; rw [h]; exact hpre
        · exact List.prefix_rfl)⟩, ?_⟩
    · show v'.trace = _
      rw [htr', hlog, log_snoc, List.append_assoc]
    · intro k hk
      have hk' : s.next ≤ k := hk
      have : k ≠ j := by rintro rfl; rw [P.fresh k hk'] at hj; cases hj
      show (if k = j then some g' else s.run k) = none
      rw [if_neg this]; exact P.fresh k hk'
    · intro k x hk
      show QInv odd env.e (policy k) (B.D k) (memOthers _ B.D k) _ _ (if k = j then ts' else B.ts k) (if k = j then pend' else B.pend k) (if k = j then B.n j + 1 else B.n k)
      rw [hmem]
      rcases hrun k x hk with ⟨rfl, rfl⟩ | ⟨hne, hk⟩
      · rw [if_pos rfl, if_pos rfl, if_pos rfl]
        have : MW.view ⟨v'.trace, v'.heap, fun m => if m = k then v'.st else w.st m⟩ k = v' := by
          simp [MW.view]
        rw [this]; exact inv'
      · rw [if_neg hne, if_neg hne, if_neg hne]
        have : MW.view ⟨v'.trace, v'.heap, fun m => if m = j then v'.st else w.st m⟩ k = ⟨v'.trace, v'.heap, w.st k⟩ := by
          simp [MW.view, hne]
        rw [this]
        have invk := P.each k x hk
        exact invk.other (Q := (B.D j).mem) rfl fr' (fun a ha => ⟨j, g, fun h => hne h.symm, hj, ha⟩) (fun _ h => h) (fun _ h => Or.inl h)
          (fun a ha => Nat.lt_of_lt_of_le (invk.room a ha) fr'.len) invk.apart
    · intro k x hk
      rcases hrun k x hk with ⟨rfl, rfl⟩ | ⟨_, hk⟩
      · exact P.args k g hj
      · exact P.args k x hk
    · intro k x hk
      show _ = (if k = j then ts' else B.ts k).flatten ++ (if k = j then pend' else B.pend k)
      rcases hrun k x hk with ⟨rfl, rfl⟩ | ⟨hne, hk⟩
      · rw [if_pos rfl, if_pos rfl, byGo_same, P.events k g hj]; exact hfl.symm
      · rw [if_neg hne, if_neg hne, byGo_other (by simpa using fun h => hne h.symm)]
        exact P.events k x hk
    · intro k hk
      have hk' : (if k = j then some g' else s.run k) = none := hk
      have hne : k ≠ j := by rintro rfl; rw [if_pos rfl] at hk'; cases hk'
      rw [if_neg hne] at hk'
      rw [byGo_other (by simpa using fun h => hne h.symm)]
      exact P.quiet k hk'
    · intro k x hk hx
      rcases hrun k x hk with ⟨rfl, rfl⟩ | ⟨hne, hk⟩
      · rcases hst hx with h | h
        · obtain ⟨l1, l2, h1, h2⟩ := P.stop k g hj h
          exact ⟨l1, l2 ++ es.map (some k, ·), by rw [h1, List.append_assoc], h2⟩
        · refine ⟨log, _, rfl, ?_⟩
          rw [← hlog]; exact h
      · obtain ⟨l1, l2, h1, h2⟩ := P.stop k x hk hx
        exact ⟨l1, l2 ++ es.map (some j, ·), by rw [h1, List.append_assoc], h2⟩
    · rw [byGo_other (by simp)]; exact P.main
    · intro i x hi
      obtain ⟨a, h1, h2, h3, h4⟩ := P.starts i x hi
      refine ⟨a, h1, h2, h3.trans ?_, h4⟩
      show _ ↔ ∃ y, (if i = j then some g' else s.run i) = some y
      by_cases hij : i = j
      · subst hij; rw [if_pos rfl]
        exact ⟨fun _ => ⟨_, rfl⟩, fun _ => ⟨g, hj⟩⟩
      · rw [if_neg hij]
    · intro k x hk
      refine ⟨?_, ?_⟩
      · show ∃ y, (if k = j then some g' else s.run k) = some y ∧ _
        by_cases hkj : k = j
        · subst hkj
          rw [if_pos rfl]
          refine ⟨_, rfl, fun hcan => ?_⟩
          have hxg : x = g := Option.some.inj (hk.symm.trans hj)
          have := hlt hcan
          rw [hxg]
          simpa using this
        · rw [if_neg hkj]
          have : j ≠ k := fun h => hkj h.symm
          exact ⟨x, hk, fun _ => by simp [this]⟩
      · show (if k = j then B.n j + 1 else B.n k) = _
        by_cases hkj : k = j
        · subst hkj; simp
        · rw [if_neg hkj]
          have : j ≠ k := fun h => hkj h.symm
          simp [this]

/-- A property of process states that makes sure that the kernel behaves, and that every step keeps. -/
structure Carried (odd : List Byte → Prop) (env : Env) (K : Kernel QEv) (cancel : Nat → List (Ev QEv) → Bool) (policy : Nat → Policy)
    (todo0 : List StartArgs) (w0 : MW) (X : MW → Proc → List (Option Nat × Ev QEv) → Book → Prop) : Prop where
  size : ∀ {w s log B}, PInv odd env K cancel policy todo0 w0 w s log B → X w s log B →
    ∀ evs fd d, K.recv (w.trace ++ evs) fd = .ok d → 20 ≤ d.length ∧ d.length < 75 * 1024
  deals : ∀ {w s log B}, PInv odd env K cancel policy todo0 w0 w s log B → X w s log B → ∀ j g, s.run j = some g → g.pc ≠ .stopped →
    ∀ d, K.recv w.trace (B.D j).qh.fd = .ok d → Deals odd env.e d
  step : ∀ {w s log B w' s' l B' i}, PInv odd env K cancel policy todo0 w0 w s log B → X w s log B →
    Moved env K cancel policy s w s' w' l B B' i → PInv odd env K cancel policy todo0 w0 w' s' (log ++ l) B' → X w' s' (log ++ l) B'

/-- Any schedule, from a state in which the invariant holds. -/
theorem carried_sched {env : Env} (hidle : ∀ w, env.cbEffect w = w) {K : Kernel QEv} {cancel : Nat → List (Ev QEv) → Bool} {policy : Nat → Policy} {todo0 : List StartArgs} {w0 : MW}
    {X : MW → Proc → List (Option Nat × Ev QEv) → Book → Prop} (hA : OddFails odd env.e) (H : Carried odd env K cancel policy todo0 w0 X)
    (is : List (Option Nat)) : ∀ {w : MW} {s : Proc} {log : List (Option Nat × Ev QEv)} {B : Book},
    PInv odd env K cancel policy todo0 w0 w s log B → X w s log B →
    ∃ s' w' l B', psched env K cancel policy is s w = .ok ((s', l), w') ∧ PInv odd env K cancel policy todo0 w0 w' s' (log ++ l) B' ∧
      X w' s' (log ++ l) B' ∧ s'.next = min todo0.length (s.next + is.count none) ∧
      ∀ j g, s.run j = some g → (∃ g', s'.run j = some g' ∧
        ((∀ evs, cancel j (w.trace ++ evs) = true) → left g'.pc ≤ left g.pc - is.count (some j))) ∧ B'.n j = B.n j + is.count (some j) := by
  induction is with
  | nil =>
    intro w s log B P hX
    exact ⟨s, w, [], B, rfl, by rw [List.append_nil]; exact P, by rw [List.append_nil]; exact hX, by have := P.next; rw [List.count_nil]; omega,
      fun j g hj => ⟨⟨g, hj, fun _ => by simp⟩, by simp⟩⟩
  | cons i is ih =>
    intro w s log B P hX
    obtain ⟨s1, w1, l1, B1, h1, P1, hx1, hM1, hn1⟩ : ProcStep odd env K cancel policy todo0 w0 w s log B i := by
      cases i with
      | none => exact pinv_start (H.size P hX) P
      | some j =>
        refine pinv_queue hidle hA P j fun g hg hns d hd => ⟨H.deals P hX j g hg hns d hd, (H.size P hX [] (B.D j).qh.fd d ?_).2⟩
        rw [List.append_nil]; exact hd
    have hX1 := H.step P hX hM1 P1
    obtain ⟨s2, w2, l2, B2, h2, P2, hX2, hx2, hn2⟩ := ih P1 hX1
    refine ⟨s2, w2, l1 ++ l2, B2, ?_, by rw [← List.append_assoc]; exact P2, by rw [← List.append_assoc]; exact hX2, ?_, ?_⟩
    · simp only [psched, GoM.bind_apply, h1, Res.ok_bind, h2, GoM.pure_apply]
    · have : (i :: is).count none = [i].count none + is.count none := by
        rw [← List.count_append]; rfl
      omega
    · intro j g hj
      obtain ⟨⟨g1, hg1, hl1⟩, e1⟩ := hn1 j g hj
      obtain ⟨⟨g2, hg2, hl2⟩, e2⟩ := hn2 j g1 hg1
      have : (i :: is).count (some j) = [i].count (some j) + is.count (some j) := by
        rw [← List.count_append]; rfl
      refine ⟨⟨g2, hg2, fun hcan => ?_⟩, ?_⟩
      · have h3 := hl1 (by have := hcan []; rwa [List.append_nil] at this)
        have h4 := hl2 (fun evs => by
          rw [P1.trace, List.map_append, ← List.append_assoc, ← P.trace, List.append_assoc]
          exact hcan _)
        omega
      omega

/-- An honest kernel sends the running queues nothing but packets and errors. -/
theorem honest_carried {env : Env} {K : Kernel QEv} {cancel : Nat → List (Ev QEv) → Bool} {policy : Nat → Policy} {todo0 : List StartArgs} {w0 : MW}
    (H : Honest env K todo0 w0) : Carried (fun _ => False) env K cancel policy todo0 w0
      (fun w s _ B => ∀ j g, s.run j = some g → ∀ evs d, K.recv (w.trace ++ evs) (B.D j).qh.fd = .ok d → Sends env.e d) where
  size := by
    intro w s log B P _ evs fd d hd
    have : K.recv (w0.trace ++ (log.map (·.2) ++ evs)) fd = .ok d := by
      rw [← List.append_assoc, ← P.trace]; exact hd
    exact H.size _ _ _ this
  deals := by
    intro w s log B _ hX j g hg _ d hd
    refine .inl (hX j g hg [] d ?_)
    rw [List.append_nil]; exact hd
  step := by
    intro w s log B w' s' l B' i P hX hM P' j g hj evs' d hd
    cases i with
    | none =>
      rcases hM with ⟨rfl, rfl, rfl, rfl⟩ | ⟨a, rest, r, v', evs, htodo, hnone, hc, htr, htr', rfl, _, hold, hfail, hok, _⟩
      · exact hX j g hj evs' d hd
      · rw [htr'] at hd
        by_cases hk : j = s.next
        · subst hk
          have hr : r = none := by
            cases r with
            | none => rfl
            | some err => rw [hfail (by simp)] at hj; cases hj
          subst hr
          obtain ⟨_, ha, hh⟩ := hok rfl
          have hmem : a ∈ todo0 := by
            have h1 : a ∈ s.todo := by rw [htodo]; exact List.mem_cons_self
            rw [P.todo] at h1
            exact List.mem_of_mem_drop h1
          exact H.packets a hmem (w.view s.next) v' ⟨_, P.trace⟩ hc _ hh evs' d hd
        · obtain ⟨h1, h2⟩ := hold j hk
          rw [h1] at hj
          rw [h2, htr, List.append_assoc] at hd
          exact hX j g hj _ d hd
    | some k =>
      rcases hM with ⟨rfl, rfl, rfl, rfl⟩ | ⟨g0, g', v', es, hg0, _, htr, htr', rfl, hD, _, hrun, _⟩
      · exact hX j g hj evs' d hd
      · rw [htr', htr, List.append_assoc, hD] at hd
        rw [hrun] at hj
        by_cases hk : j = k
        · subst hk; exact hX j g0 hg0 _ d hd
        · simp only [if_neg hk] at hj
          exact hX j g hj _ d hd

/-! ### From one moment to another -/

/-- What has not changed, or has only been added to, since the process was as in `s1`, `B1`. -/
structure Since (s1 : Proc) (B1 : Book) (s : Proc) (B : Book) : Prop where
  starts : B1.starts <+: B.starts
  runs : ∀ j g1, s1.run j = some g1 → ∃ g, s.run j = some g ∧ (g1.pc = .stopped → g.pc = .stopped)
  turns : ∀ j g1, s1.run j = some g1 → B1.ts j <+: B.ts j
  data : ∀ j g1, s1.run j = some g1 → B.D j = B1.D j

theorem Since.refl (s : Proc) (B : Book) : Since s B s B := ⟨List.prefix_rfl, fun _ g h => ⟨g, h, id⟩, fun _ _ _ => List.prefix_rfl, fun _ _ _ => rfl⟩

theorem Since.step {env : Env} {K : Kernel QEv} {cancel : Nat → List (Ev QEv) → Bool} {policy : Nat → Policy} {s1 s s' : Proc} {B1 B B' : Book} {w w' : MW}
    {l : List (Option Nat × Ev QEv)} {i : Option Nat} (h : Since s1 B1 s B) (hM : Moved env K cancel policy s w s' w' l B B' i) : Since s1 B1 s' B' := by
  cases i with
  | none =>
    rcases hM with ⟨rfl, _, _, rfl⟩ | ⟨a, rest, r, v', evs, htodo, hnone, hc, htr, htr', rfl, hst, hold, hfail, hok, hts⟩
    · exact h
    · have hne : ∀ j g1, s1.run j = some g1 → j ≠ s.next := by
        rintro j g1 h1 rfl
        obtain ⟨g, h2, _⟩ := h.runs _ g1 h1
        rw [hnone] at h2; cases h2
      refine ⟨h.starts.trans (by rw [hst]; exact List.prefix_append _ _), fun j g1 h1 => ?_, fun j g1 h1 => ?_, fun j g1 h1 => by rw [(hold j (hne j g1 h1)).2]; exact h.data j g1 h1⟩
      · rw [(hold j (hne j g1 h1)).1]; exact h.runs j g1 h1
      · rw [hts j (hne j g1 h1)]; exact h.turns j g1 h1
  | some k =>
    rcases hM with ⟨rfl, _, _, rfl⟩ | ⟨g0, g', v', es, hg0, hes, htr, htr', rfl, hD, hst, hrun, hts⟩
    · exact h
    · refine ⟨by rw [hst]; exact h.starts, fun j g1 h1 => ?_, fun j g1 h1 => (h.turns j g1 h1).trans (hts j), fun j g1 h1 => by rw [hD]; exact h.data j g1 h1⟩
      obtain ⟨g, h2, h3⟩ := h.runs j g1 h1
      rw [hrun]
      by_cases hj : j = k
      · subst hj
        have hgg : g0 = g := Option.some.inj (hg0.symm.trans h2)
        subst hgg
        refine ⟨g', by simp, fun h4 => ?_⟩
        have h5 := h3 h4
        obtain ⟨n, pc⟩ := g0
        have h5 : pc = .stopped := h5
        subst h5
        have hes : Res.ok (_, w.view j) = Res.ok (g', v') := hes
        simp only [Res.ok.injEq, Prod.mk.injEq] at hes
        rw [← hes.1]
      · exact ⟨g, by simp [hj, h2], h3⟩

theorem Carried.since {env : Env} {K : Kernel QEv} {cancel : Nat → List (Ev QEv) → Bool} {policy : Nat → Policy} {todo0 : List StartArgs} {w0 : MW}
    {X : MW → Proc → List (Option Nat × Ev QEv) → Book → Prop} (H : Carried odd env K cancel policy todo0 w0 X) (s1 : Proc) (B1 : Book) :
    Carried odd env K cancel policy todo0 w0 (fun w s log B => X w s log B ∧ Since s1 B1 s B) where
  size P h := H.size P h.1
  deals P h := H.deals P h.1
  step P h hM P' := ⟨H.step P h.1 hM P', h.2.step hM⟩

/-- The count of steps begins anew. -/
def Book.anew (B : Book) (s : Proc) : Book :=
  { B with n := fun j => match s.run j with | some g => 13 * (B.ts j).length + done' g.pc | none => 0 }

theorem PInv.anew {env : Env} {K : Kernel QEv} {cancel : Nat → List (Ev QEv) → Bool} {policy : Nat → Policy} {todo0 : List StartArgs} {w0 w : MW} {s : Proc}
    {log : List (Option Nat × Ev QEv)} {B : Book} (P : PInv odd env K cancel policy todo0 w0 w s log B) : PInv odd env K cancel policy todo0 w0 w s log (B.anew s) :=
  { P with
    each := fun j g hg => { P.each j g hg with steps := .inr (by show (match s.run j with | some g => _ | none => _) ≤ _; rw [hg]; exact Nat.le_refl _) } }

theorem done'_le (pc : APc) : done' pc ≤ 13 := by
  cases pc with
  | read pc => cases pc <;> simp [done', progress]
  | verdict => simp only [done']; omega
  | stopped => simp [done']

/-- Two runs, one after the other: what each queue that runs after the first does in the second. -/
theorem carried_twice {env : Env} (hidle : ∀ w, env.cbEffect w = w) {K : Kernel QEv} {cancel : Nat → List (Ev QEv) → Bool} {policy : Nat → Policy} {todo0 : List StartArgs} {w0 : MW}
    {X : MW → Proc → List (Option Nat × Ev QEv) → Book → Prop} (hA : OddFails odd env.e) (H : Carried odd env K cancel policy todo0 w0 X)
    (hX : ∀ w s log B B', X w s log B → B'.D = B.D → B'.ts = B.ts → B'.pend = B.pend → B'.starts = B.starts → X w s log B')
    (is1 is2 : List (Option Nat)) {w : MW} {s : Proc} {log : List (Option Nat × Ev QEv)} {B : Book}
    (P : PInv odd env K cancel policy todo0 w0 w s log B) (x : X w s log B) :
    ∃ s1 w1 l1 B1 s2 w2 l2 B2, psched env K cancel policy is1 s w = .ok ((s1, l1), w1) ∧ psched env K cancel policy is2 s1 w1 = .ok ((s2, l2), w2) ∧
      PInv odd env K cancel policy todo0 w0 w1 s1 (log ++ l1) B1 ∧ PInv odd env K cancel policy todo0 w0 w2 s2 (log ++ l1 ++ l2) B2 ∧
      X w1 s1 (log ++ l1) B1 ∧ X w2 s2 (log ++ l1 ++ l2) B2 ∧ Since s1 B1 s2 B2 ∧
      s1.next = min todo0.length (s.next + is1.count none) ∧ s2.next = min todo0.length (s1.next + is2.count none) ∧
      ∀ j g1, s1.run j = some g1 → ∃ g2 more, s2.run j = some g2 ∧ B2.ts j = B1.ts j ++ more ∧
        (g2.pc = .stopped ∨ (g1.pc ≠ .stopped ∧ is2.count (some j) ≤ 13 * (more.length + 1))) ∧
        ((∀ evs, cancel j (w1.trace ++ evs) = true) → left g2.pc ≤ left g1.pc - is2.count (some j)) := by
  obtain ⟨s1, w1, l1, B1, h1, P1, x1, n1, _⟩ := carried_sched hidle hA H is1 P x
  have hS : Since s1 B1 s1 (B1.anew s1) :=
    ⟨List.prefix_rfl, fun _ g h => ⟨g, h, id⟩, fun _ _ _ => List.prefix_rfl, fun _ _ _ => rfl⟩
  obtain ⟨s2, w2, l2, B2, h2, P2, ⟨x2, S⟩, n2, e2⟩ := carried_sched hidle hA (H.since s1 B1) is2 P1.anew
    (show X w1 s1 (log ++ l1) (B1.anew s1) ∧ Since s1 B1 s1 (B1.anew s1) from ⟨hX _ _ _ _ _ x1 rfl rfl rfl rfl, hS⟩)
  refine ⟨s1, w1, l1, B1, s2, w2, l2, B2, h1, h2, P1, P2, x1, x2, S, n1, n2, fun j g1 hg1 => ?_⟩
  obtain ⟨⟨g2, hg2, hl⟩, hn⟩ := e2 j g1 hg1
  obtain ⟨more, hmore⟩ := S.turns j g1 hg1
  refine ⟨g2, more, hg2, hmore.symm, ?_, hl⟩
  by_cases hs : g2.pc = .stopped
  · exact .inl hs
  · right
    refine ⟨fun h => ?_, ?_⟩
    · obtain ⟨g, h3, h4⟩ := S.runs j g1 hg1
      rw [hg2] at h3
      cases h3
      exact hs (h4 h)
    · have h5 := (P2.each j g2 hg2).steps.resolve_left hs
      have h6 : (B1.anew s1).n j = 13 * (B1.ts j).length + done' g1.pc := by
        show (match s1.run j with | some g => _ | none => _) = _
        rw [hg1]
      have h7 := congrArg List.length hmore
      rw [List.length_append] at h7
      have h8 := done'_le g2.pc
      omega

/-- Any schedule, on an honest kernel. -/
theorem pinv_sched {env : Env} (hidle : ∀ w, env.cbEffect w = w) {K : Kernel QEv} {cancel : Nat → List (Ev QEv) → Bool} {policy : Nat → Policy} {todo0 : List StartArgs} {w0 : MW}
    (H : Honest env K todo0 w0) (is : List (Option Nat)) {w : MW} {s : Proc} {log : List (Option Nat × Ev QEv)} {B : Book}
    (P : PInv (fun _ => False) env K cancel policy todo0 w0 w s log B)
    (hX : ∀ j g, s.run j = some g → ∀ evs d, K.recv (w.trace ++ evs) (B.D j).qh.fd = .ok d → Sends env.e d) :
    ∃ s' w' l B', psched env K cancel policy is s w = .ok ((s', l), w') ∧ PInv (fun _ => False) env K cancel policy todo0 w0 w' s' (log ++ l) B' ∧
      (∀ j g, s'.run j = some g → ∀ evs d, K.recv (w'.trace ++ evs) (B'.D j).qh.fd = .ok d → Sends env.e d) ∧
      s'.next = min todo0.length (s.next + is.count none) ∧
      ∀ j g, s.run j = some g → (∃ g', s'.run j = some g' ∧
        ((∀ evs, cancel j (w.trace ++ evs) = true) → left g'.pc ≤ left g.pc - is.count (some j))) ∧ B'.n j = B.n j + is.count (some j) :=
  carried_sched hidle (fun _ h => h.elim) (honest_carried H) is P hX

/-- The part of a turn that has been done: nothing yet, something has been received, or the application has been given a packet and is
about to answer. -/
def Pending (e : Endian) (fd cb priv size : Nat) (rest : List (Ev QEv)) : Prop :=
  rest = [] ∨ (∃ r, rest = [.recvfrom fd size 0x100 r]) ∨
  ∃ d id payload mark, PacketMsg e d id payload ∧ (∀ attrs p, Carries e d attrs → lastOf 3 attrs = some p → be32 p 0 = some mark) ∧
    rest = [.recvfrom fd size 0x100 (.ok d), .app (.packet cb payload mark id priv)]

/-- What is seen of a queue that was started with arguments `a` and got descriptor `fd`, if its goroutine has done `evs`: turns, one
after the other; the `k`-th packet (from 0) is answered as `policy k` says; then an unfinished turn, or (only if its context was
cancelled) its socket closed.  Its counters count the packets given to the application and its verdicts. -/
def Answering (odd : List Byte → Prop) (e : Endian) (policy : Policy) (a : StartArgs) (fd : Nat) (cancelled : Prop) (q : NfQueue) (evs : List (Ev QEv))
    (turns : List (List (Ev QEv))) (rest : List (Ev QEv)) : Prop :=
  evs = turns.flatten ++ rest ∧
  (∀ i t, turns[i]? = some t → AnswerTurn odd e fd a.queueID.toNat a.cb a.ecb a.priv (75 * 1024) (policy ((turns.take i).flatten.countP isPacket)) t) ∧
  (Pending e fd a.cb a.priv (75 * 1024) rest ∨ (cancelled ∧ CloseEvs fd rest)) ∧
  ((∀ r, rest ≠ [.recvfrom fd (75 * 1024) 0x100 r]) → q.processed = BitVec.ofNat 64 (evs.countP isPacket)) ∧
  (rest.countP isPacket = 0 → q.accepted = BitVec.ofNat 64 ((answersOf policy 0 evs).countP Answer.accepts) ∧
    q.dropped = BitVec.ofNat 64 ((answersOf policy 0 evs).countP Answer.drops))

/-- The process before anything has been started. -/
def atStart (todo : List StartArgs) : Proc := ⟨todo, 0, fun _ => none⟩

theorem PInv.init (env : Env) (K : Kernel QEv) (cancel : Nat → List (Ev QEv) → Bool) (policy : Nat → Policy) (todo : List StartArgs) (w0 : MW) :
    PInv odd env K cancel policy todo w0 w0 (atStart todo) [] ⟨fun _ => ⟨w0.view 0, ⟨0, Slice.nil⟩, ⟨0, 0, 0, 0, 0, 0⟩, 0⟩, fun _ => [], fun _ => [], fun _ => 0, []⟩ := by
  refine ⟨by simp, rfl, Nat.zero_le _, fun _ _ => rfl, ?_, ?_, ?_, fun _ _ => rfl, ?_, rfl, rfl, ?_⟩
  · intro j g h; cases h
  · intro j g h; cases h
  · intro j g h; cases h
  · intro j g h; cases h
  · intro i x h; simp at h

/-- What is seen of a running queue. -/
theorem PInv.answering {env : Env} {K : Kernel QEv} {cancel : Nat → List (Ev QEv) → Bool} {policy : Nat → Policy} {todo : List StartArgs} {w0 w : MW}
    {s : Proc} {log : List (Option Nat × Ev QEv)} {B : Book} (P : PInv odd env K cancel policy todo w0 w s log B) {j : Nat} {g : AG} (hg : s.run j = some g) :
    Answering odd env.e (policy j) (B.D j).args (B.D j).qh.fd (∃ l1 l2, log = l1 ++ l2 ∧ cancel j (w0.trace ++ l1.map (·.2)) = true)
      (w.st j) (byGo (some j) log) (B.ts j) (B.pend j) := by
  have inv := P.each j g hg
  have hev := P.events j g hg
  have hp := inv.pos
  refine ⟨hev, inv.turns, ?_, ?_, ?_⟩
  · cases hpc : g.pc with
    | stopped =>
      rw [hpc] at hp
      exact Or.inr ⟨P.stop j g hg hpc, hp⟩
    | verdict c pc =>
      rw [hpc] at hp
      obtain ⟨_, d, id, payload, mark, _, h1, _, h3, h4, _⟩ := hp
      exact Or.inl (Or.inr (Or.inr ⟨d, id, payload, mark, h1, h3, h4⟩))
    | read pc =>
      rw [hpc] at hp
      refine Or.inl ?_
      cases pc with
      | idle => exact Or.inl hp.1
      | got => obtain ⟨⟨_, d, h, _⟩, _⟩ := hp; exact Or.inr (Or.inl ⟨_, h⟩)
      | parsed => obtain ⟨⟨r, h, _⟩, _⟩ := hp; exact Or.inr (Or.inl ⟨_, h⟩)
      | ready => obtain ⟨⟨d, h, _⟩, _⟩ := hp; exact Or.inr (Or.inl ⟨_, h⟩)
  · intro hne
    have hw : waiting g.pc = 0 := by
      cases hpc : g.pc with
      | stopped => rfl
      | verdict => rfl
      | read pc =>
        rw [hpc] at hp
        cases pc with
        | idle => rfl
        | got => rfl
        | parsed => rfl
        | ready => obtain ⟨⟨d, h, _⟩, _⟩ := hp; exact absurd h (hne _)
    have h := inv.processed
    rw [hw, Nat.add_zero, inv.given] at h
    rw [hev, List.countP_append]
    exact h
  · intro h0
    have hd : ∀ p, due p g.pc = 0 := by
      intro p
      cases hpc : g.pc with
      | stopped => rfl
      | read => rfl
      | verdict c pc =>
        rw [hpc] at hp
        obtain ⟨_, d, id, payload, mark, _, _, _, _, h4, _⟩ := hp
        rw [h4] at h0
        cases h0
    have h := inv.counts
    unfold Counts at h
    rw [hd, hd] at h
    rw [hev]
    simp only [BitVec.add_zero] at h
    exact h

/-- C119: an application whose main goroutine starts queues one after the other, whose goroutines run from the moment their queue is
started, and which answers (or not, or differently every time) packets in its callback: under every schedule nothing crashes; the main
goroutine does exactly its starts; and every queue that was started hands each packet to its callback and tells the kernel exactly the
answer the callback gave, about that very packet, on the descriptor of that queue, before it receives the next one; a queue
whose start failed does nothing. -/
theorem C119_answers (env : Env) (hidle : ∀ w, env.cbEffect w = w) (K : Kernel QEv) (cancel : Nat → List (Ev QEv) → Bool)
    (policy : Nat → Policy) (todo : List StartArgs) (w0 : MW) (H : Honest env K todo w0) (is : List (Option Nat)) :
    ∃ (s : Proc) (log : List (Option Nat × Ev QEv)) (w : MW) (starts : List (Option Err × List (Ev QEv))),
      psched env K cancel policy is (atStart todo) w0 = .ok ((s, log), w) ∧ w.trace = w0.trace ++ log.map (·.2) ∧
      -- the main goroutine
      starts.length = min todo.length (is.count none) ∧ byGo none log = (starts.map (·.2)).flatten ∧
      ∀ j a, todo[j]? = some a →
        (starts[j]? = none ∧ byGo (some j) log = []) ∨
        (∃ err evs, starts[j]? = some (some err, evs) ∧ StartOut env.e a.queueID.toNat a.maxLen.toNat a.size.toNat (some err) evs ∧
          byGo (some j) log = []) ∨
        -- the goroutine of a queue that was started
        (∃ evs fd turns rest, starts[j]? = some (none, evs) ∧ StartOut env.e a.queueID.toNat a.maxLen.toNat a.size.toNat none evs ∧
          .socket 16 3 12 (.ok fd) ∈ evs ∧
          Answering (fun _ => False) env.e (policy j) a fd (∃ l1 l2, log = l1 ++ l2 ∧ cancel j (w0.trace ++ l1.map (·.2)) = true)
            (w.st j) (byGo (some j) log) turns rest) := by
  obtain ⟨s, w, log, B, h1, P, _, hnx, _⟩ := pinv_sched hidle H is (PInv.init env K cancel policy todo w0) (fun j g h => by cases h)
  rw [List.nil_append] at P
  refine ⟨s, log, w, B.starts, h1, P.trace, ?_, P.main, ?_⟩
  · rw [P.nstarts, hnx]; show min _ (0 + _) = _; rw [Nat.zero_add]
  · intro j a ha
    cases hj : B.starts[j]? with
    | none =>
      refine Or.inl ⟨rfl, P.quiet j (P.fresh j ?_)⟩
      have := List.getElem?_eq_none_iff.mp hj
      have := P.nstarts
      omega
    | some x =>
      obtain ⟨r, evs⟩ := x
      obtain ⟨a', ha', hout, hiff, hfd⟩ := P.starts j _ hj
      have haa : a' = a := Option.some.inj (ha'.symm.trans ha)
      subst haa
      cases r with
      | some err =>
        refine Or.inr (Or.inl ⟨err, evs, rfl, hout, P.quiet j ?_⟩)
        cases hr : s.run j with
        | none => rfl
        | some g => exact absurd (hiff.mpr ⟨g, hr⟩) (by simp)
      | none =>
        obtain ⟨g, hg⟩ := hiff.mp rfl
        refine Or.inr (Or.inr ⟨evs, (B.D j).qh.fd, B.ts j, B.pend j, rfl, hout, hfd rfl, ?_⟩)
        have hargs : (B.D j).args = a' := Option.some.inj ((P.args j g hg).symm.trans ha)
        have := P.answering hg
        rw [hargs] at this
        exact this

/-- A queue that runs after schedule `is1`. -/
def Runs (s : Proc) (j : Nat) : Prop := (s.run j).isSome = true

/-- C119, progress: given `13 * (k + 1)` steps, from any moment on, a queue that runs completes more than `k` turns, whatever the others do,
unless its context is cancelled; and once it is cancelled for good, 13 steps are enough for it to close its socket. -/
theorem C119_progress (env : Env) (hidle : ∀ w, env.cbEffect w = w) (K : Kernel QEv) (cancel : Nat → List (Ev QEv) → Bool)
    (policy : Nat → Policy) (todo : List StartArgs) (w0 : MW) (H : Honest env K todo w0) (is1 is2 : List (Option Nat)) :
    ∃ s1 log1 w1 s2 log2 w2, psched env K cancel policy is1 (atStart todo) w0 = .ok ((s1, log1), w1) ∧
      psched env K cancel policy is2 s1 w1 = .ok ((s2, log2), w2) ∧
      ∀ j, Runs s1 j → ∃ a fd turns rest more rest', todo[j]? = some a ∧
        Answering (fun _ => False) env.e (policy j) a fd (∃ l1 l2, log1 = l1 ++ l2 ∧ cancel j (w0.trace ++ l1.map (·.2)) = true)
          (w1.st j) (byGo (some j) log1) turns rest ∧
        Answering (fun _ => False) env.e (policy j) a fd (∃ l1 l2, log1 ++ log2 = l1 ++ l2 ∧ cancel j (w0.trace ++ l1.map (·.2)) = true)
          (w2.st j) (byGo (some j) (log1 ++ log2)) (turns ++ more) rest' ∧
        (CloseEvs fd rest' ∨ is2.count (some j) ≤ 13 * (more.length + 1)) ∧
        ((∀ evs, cancel j (w1.trace ++ evs) = true) → 13 ≤ is2.count (some j) → CloseEvs fd rest') := by
  obtain ⟨s1, w1, log1, B1, s2, w2, log2, B2, h1, h2, P1, P2, _, _, S, _, _, hn⟩ := carried_twice hidle (fun _ h => h.elim) (honest_carried (cancel := cancel) (policy := policy) H)
    (fun w s log B B' h hD _ _ _ => by intro j g hj; rw [hD]; exact h j g hj) is1 is2 (PInv.init env K cancel policy todo w0) (fun j g h => by cases h)
  rw [List.nil_append] at P1 P2
  refine ⟨s1, log1, w1, s2, log2, w2, h1, h2, ?_⟩
  intro j hj
  obtain ⟨g1, hg1⟩ := Option.isSome_iff_exists.mp hj
  obtain ⟨g2, more, hg2, hts, hst, hl⟩ := hn j g1 hg1
  have hstop : g2.pc = .stopped → CloseEvs (B2.D j).qh.fd (B2.pend j) := by
    intro h
    have := (P2.each j g2 hg2).pos
    rw [h] at this
    exact this
  have hA1 := P1.answering hg1
  have hA2 := P2.answering hg2
  rw [← S.data j g1 hg1] at hA1
  rw [hts] at hA2
  refine ⟨(B2.D j).args, (B2.D j).qh.fd, B1.ts j, B1.pend j, more, B2.pend j, P2.args j g2 hg2, hA1, hA2, ?_, ?_⟩
  · rcases hst with h | h
    · exact .inl (hstop h)
    · exact .inr h.2
  · intro hcan h13
    apply hstop
    have h3 := hl hcan
    have h4 : left g1.pc ≤ 13 := by
      cases hpc : g1.pc with
      | read pc => cases pc <;> simp [left, progress]
      | stopped => simp [left]
      | verdict c pc =>
        simp only [left]
        cases pc <;> simp only [rank] <;> first | omega | (split <;> omega)
    have h5 : left g2.pc = 0 := by omega
    cases hpc : g2.pc with
    | stopped => rfl
    | verdict => rw [hpc] at h5; simp [left] at h5
    | read pc => rw [hpc] at h5; cases pc <;> simp [left, progress] at h5

/-- Positions a call passes through. -/
def OnPath : VCall → Pc → Prop
  | .v1 .., .filled .. => False
  | .v2 .., .counted => False
  | .v2 .., .headed _ => False
  | .v2 .., .filled k _ => k ≤ 6
  | _, .done => False
  | _, _ => True

theorem vstep_path {env : Env} {K : Kernel QEv} {c : VCall} {pc pc' : Pc} {w w' : W} (hp : OnPath c pc)
    (h : vstep env K c pc w = .ok (pc', w')) : (pc' = .done ∧ rank c pc = 1) ∨ (OnPath c pc' ∧ pc' ≠ .done ∧ rank c pc' + 1 = rank c pc) := by
  have send : ∀ hs ps p n0 n2, vSend env K hs ps p n0 n2 w = .ok (pc', w') → pc' = .done := by
    intro hs ps p n0 n2 h
    unfold vSend at h
    simp only [GoM.bind_apply] at h
    obtain ⟨x1, _, h⟩ := Res.bind_eq_ok.mp h
    obtain ⟨x2, _, h⟩ := Res.bind_eq_ok.mp h
    obtain ⟨x3, _, h⟩ := Res.bind_eq_ok.mp h
    obtain ⟨x4, _, h⟩ := Res.bind_eq_ok.mp h
    cases hh : x4.1.handle with
    | none => rw [hh] at h; cases h
    | some qh =>
      rw [hh] at h
      simp only [GoM.bind_apply] at h
      obtain ⟨x5, _, h⟩ := Res.bind_eq_ok.mp h
      cases h
      rfl
  have fill : ∀ v m l id k i, v2Fill env v m l id k i w = .ok (pc', w') → ∃ j, pc' = .filled (k + 1) j := by
    intro v m l id k i h
    unfold v2Fill at h
    simp only [GoM.bind_apply] at h
    obtain ⟨x1, _, h⟩ := Res.bind_eq_ok.mp h
    obtain ⟨x2, _, h⟩ := Res.bind_eq_ok.mp h
    cases h
    exact ⟨_, rfl⟩
  cases c with
  | v1 q v l id p =>
    cases pc with
    | start =>
      simp only [vstep, GoM.bind_apply] at h
      obtain ⟨x, _, h⟩ := Res.bind_eq_ok.mp h
      cases h
      exact Or.inr ⟨trivial, by simp, rfl⟩
    | counted =>
      simp only [vstep, GoM.bind_apply] at h
      obtain ⟨x, _, h⟩ := Res.bind_eq_ok.mp h
      cases h
      exact Or.inr ⟨trivial, by simp, rfl⟩
    | headed =>
      simp only [vstep, GoM.bind_apply] at h
      obtain ⟨x, _, h⟩ := Res.bind_eq_ok.mp h
      cases h
      exact Or.inr ⟨trivial, by simp, rfl⟩
    | attred =>
      simp only [vstep, GoM.bind_apply] at h
      obtain ⟨x, _, h⟩ := Res.bind_eq_ok.mp h
      cases h
      exact Or.inr ⟨trivial, by simp, rfl⟩
    | padded => exact Or.inl ⟨send _ _ _ _ _ h, rfl⟩
    | filled => exact hp.elim
    | done => exact hp.elim
  | v2 q v m l id p =>
    cases pc with
    | start =>
      obtain ⟨j, rfl⟩ := fill _ _ _ _ _ _ h
      exact Or.inr ⟨by show 0 + 1 ≤ 6; omega, by simp, rfl⟩
    | filled k i =>
      have hk : k ≤ 6 := hp
      by_cases hk6 : k < 6
      · simp only [vstep, if_pos hk6] at h
        obtain ⟨j, rfl⟩ := fill _ _ _ _ _ _ h
        refine Or.inr ⟨by show k + 1 ≤ 6; omega, by simp, ?_⟩
        simp only [rank]; omega
      · simp only [vstep, if_neg hk6, GoM.bind_apply] at h
        obtain ⟨x1, _, h⟩ := Res.bind_eq_ok.mp h
        obtain ⟨x2, _, h⟩ := Res.bind_eq_ok.mp h
        cases h
        refine Or.inr ⟨trivial, by simp, ?_⟩
        simp only [rank]; omega
    | attred =>
      simp only [vstep, GoM.bind_apply] at h
      obtain ⟨x, _, h⟩ := Res.bind_eq_ok.mp h
      cases h
      exact Or.inr ⟨trivial, by simp, rfl⟩
    | padded => exact Or.inl ⟨send _ _ _ _ _ h, rfl⟩
    | counted => exact hp.elim
    | headed => exact hp.elim
    | done => exact hp.elim

/-- The verdict call inside the callback, left alone. -/
theorem erun_verdict (env : Env) (K : Kernel QEv) (cancel : List (Ev QEv) → Bool) (policy : Policy) (n : Nat) (c : VCall) :
    ∀ (k : Nat) (pc : Pc) (w : W), OnPath c pc → rank c pc = k →
      erun env K cancel policy k ⟨n, .verdict c pc⟩ w = (vrun env K c k pc w >>= fun x => .ok (⟨n, .read .idle⟩, x.2)) := by
  intro k
  induction k with
  | zero =>
    intro pc w hp hr
    exfalso
    cases c <;> cases pc <;> simp [rank, OnPath, VCall.isV2] at hp hr <;> omega
  | succ k ih =>
    intro pc w hp hr
    simp only [erun, vrun, GoM.bind_apply, estep]
    rcases hv : vstep env K c pc w with ⟨pc', w'⟩ | _ | _
    · simp only [Res.ok_bind]
      rcases vstep_path hp hv with ⟨rfl, h1⟩ | ⟨h1, h2, h3⟩
      · have : k = 0 := by omega
        subst this
        rfl
      · rw [if_neg h2]
        exact ih pc' w' h1 (by omega)
    · rfl
    · rfl

theorem rank_start_path (c : VCall) : OnPath c .start := by cases c <;> trivial

/-- The call in a callback: so many steps make exactly the call. -/
theorem erun_call (env : Env) (K : Kernel QEv) (cancel : List (Ev QEv) → Bool) (policy : Policy) (n : Nat) (c : VCall) (w : W) :
    erun env K cancel policy (rank c .start) ⟨n, .verdict c .start⟩ w = (c.run env K w >>= fun x => .ok (⟨n, .read .idle⟩, x.2)) := by
  rw [erun_verdict _ _ _ _ _ _ _ _ _ (rank_start_path c) rfl]
  cases c with
  | v1 q v l id p =>
    show (vrun env K (.v1 q v l id p) 5 .start w >>= _) = _
    rw [alone_v1, Res.bind_assoc']
    rfl
  | v2 q v m l id p =>
    show (vrun env K (.v2 q v m l id p) 9 .start w >>= _) = _
    rw [alone_v2, Res.bind_assoc']
    rfl

theorem erun_succ (env : Env) (K : Kernel QEv) (cancel : List (Ev QEv) → Bool) (policy : Policy) (k : Nat) (g : AG) (w : W) :
    erun env K cancel policy (k + 1) g w = (estep env K cancel policy g w >>= fun x => erun env K cancel policy k x.1 x.2) := rfl

/-- Left alone, the goroutine of a queue does in at most 13 steps exactly what one turn does. -/
theorem C119_alone (env : Env) (hidle : ∀ w, env.cbEffect w = w) (K : Kernel QEv) (cancel : List (Ev QEv) → Bool) (policy : Policy) (n : Nat) (w : W)
    (hcan : cancel w.trace = false) :
    ∃ k, 1 ≤ k ∧ k ≤ 13 ∧ erun env K cancel policy k ⟨n, .read .idle⟩ w
      = (answerOne env K policy n w >>= fun x => .ok (⟨x.1, .read .idle⟩, x.2)) := by
  have ready : ∀ (id mark : Nat) (pkt : Option Slice) (w1 : W),
      ∃ k, 1 ≤ k ∧ k ≤ 10 ∧ erun env K cancel policy k ⟨n, .read (.ready id mark pkt)⟩ w1 =
        ((match w1.st.callback with
          | none => GoM.panic
          | some cb => (do
            emitPacket cb pkt mark id w1.st.privateData
            let w ← GoM.get
            match (policy n (optBytes w.heap pkt) mark id).call w1.st.queueNum id (pkt.getD Slice.nil) with
            | none => pure (n + 1)
            | some c =>
              c.run env K
              pure (n + 1) : M Nat)) w1 >>= fun x => .ok (⟨x.1, .read .idle⟩, x.2)) := by
    intro id mark pkt w1
    cases hcb : w1.st.callback with
    | none =>
      refine ⟨1, by omega, by omega, ?_⟩
      rw [erun_succ]
      simp only [estep, hcb]
      rfl
    | some cb =>
      cases hcall : (policy n (optBytes w1.heap pkt) mark id).call w1.st.queueNum id (pkt.getD Slice.nil) with
      | none =>
        refine ⟨1, by omega, by omega, ?_⟩
        rw [erun_succ]
        simp only [GoM.bind_apply, estep, hcb, hcall, emitPacket, Res.ok_bind, GoM.get, World.log]
        rfl
      | some c =>
        refine ⟨rank c .start + 1, by omega, ?_, ?_⟩
        · simp only [rank]; split <;> omega
        · rw [erun_succ]
          simp only [GoM.bind_apply, estep, hcb, hcall, emitPacket, Res.ok_bind, GoM.get, World.log, GoM.pure_apply]
          rw [erun_call, Res.bind_assoc']
          rfl
  have parsed : ∀ (g a err) (w1 : W), recv env K w = .ok ((g, a, err), w1) →
      ∃ k, 1 ≤ k ∧ k ≤ 11 ∧ erun env K cancel policy k ⟨n, .read (.parsed g a err)⟩ w1 =
        (answerOne env K policy n w >>= fun x => .ok (⟨x.1, .read .idle⟩, x.2)) := by
    intro g a err w1 hr
    have hpk : ∃ k, 1 ≤ k ∧ k ≤ 10 ∧ ((do
          let (id, mark, packet) ← packetInfoM env a
          modifyQ fun q => { q with processed := q.processed + 1 }
          pure (.ready id mark packet) : M RPc) w1 >>= fun x => erun env K cancel policy k ⟨n, .read x.1⟩ x.2) =
        ((do
          let (id, mark, packet) ← packetInfoM env a
          modifyQ fun q => { q with processed := q.processed + 1 }
          match w1.st.callback with
          | none => GoM.panic
          | some cb =>
            emitPacket cb packet mark id w1.st.privateData
            let w ← GoM.get
            match (policy n (optBytes w.heap packet) mark id).call w1.st.queueNum id (packet.getD Slice.nil) with
            | none => pure (n + 1)
            | some c =>
              c.run env K
              pure (n + 1) : M Nat) w1 >>= fun x => .ok (⟨x.1, .read .idle⟩, x.2)) := by
      simp only [GoM.bind_apply, packetInfoM]
      rcases getPacketInfo env.e w1.heap a with ⟨id, mark, pkt⟩ | _ | _
      · obtain ⟨k, k1, k2, hk⟩ := ready id mark pkt { w1 with st := { w1.st with processed := w1.st.processed + 1 } }
        exact ⟨k, k1, k2, hk⟩
      · exact ⟨1, by omega, by omega, rfl⟩
      · exact ⟨1, by omega, by omega, rfl⟩
    have hl : answerOne env K policy n w = (match err, w1.st.errorCallback with
        | some err, some ecb => (do
          emit (.error ecb (.wrap "Netlink error %v" err) g)
          pure n : M Nat)
        | _, _ => (do
          let (id, mark, packet) ← packetInfoM env a
          modifyQ fun q => { q with processed := q.processed + 1 }
          match w1.st.callback with
          | none => GoM.panic
          | some cb =>
            emitPacket cb packet mark id w1.st.privateData
            let w ← GoM.get
            match (policy n (optBytes w.heap packet) mark id).call w1.st.queueNum id (packet.getD Slice.nil) with
            | none => pure (n + 1)
            | some c =>
              c.run env K
              pure (n + 1) : M Nat)) w1 := by
      unfold answerOne
      simp only [GoM.bind_apply, hr, Res.ok_bind, getQ]
      rfl
    rw [hl]
    clear hl hr
    have hrr : ∀ k, erun env K cancel policy (k + 1) ⟨n, .read (.parsed g a err)⟩ w1 = ((match err, w1.st.errorCallback with
        | some err, some ecb => (do
          emit (.error ecb (.wrap "Netlink error %v" err) g)
          runCallback env
          pure .idle : M RPc)
        | _, _ => (do
          let (id, mark, packet) ← packetInfoM env a
          modifyQ fun q => { q with processed := q.processed + 1 }
          pure (.ready id mark packet) : M RPc)) w1 >>= fun x => erun env K cancel policy k ⟨n, .read x.1⟩ x.2) := by
      intro k
      simp only [erun, estep, rstep, GoM.bind_apply, getQ, Res.ok_bind, Res.bind_assoc']
      rfl
    cases err with
    | none =>
      obtain ⟨k, k1, k2, hk⟩ := hpk
      exact ⟨k + 1, by omega, by omega, (hrr k).trans hk⟩
    | some e =>
      cases hecb : w1.st.errorCallback with
      | none =>
        rw [hecb] at hrr
        obtain ⟨k, k1, k2, hk⟩ := hpk
        exact ⟨k + 1, by omega, by omega, (hrr k).trans hk⟩
      | some ecb =>
        rw [hecb] at hrr
        refine ⟨1, by omega, by omega, (hrr 0).trans ?_⟩
        simp only [GoM.bind_apply, emit, runCallback, Res.ok_bind, hidle, GoM.pure_apply, erun]
  have hidle0 : estep env K cancel policy ⟨n, .read .idle⟩ w = (rstep env K .idle w >>= fun x => .ok (⟨n, .read x.1⟩, x.2)) := by
    have hcan' : ¬ cancel w.trace = true := by simp [hcan]
    simp only [estep, if_neg hcan']
    rfl
  have h1 : ∀ (k : Nat) (pc : RPc) (w1 : W), rstep env K .idle w = .ok (pc, w1) →
      erun env K cancel policy (k + 1) ⟨n, .read .idle⟩ w = erun env K cancel policy k ⟨n, .read pc⟩ w1 := by
    intro k pc w1 h
    rw [erun_succ, hidle0, h]
    rfl
  have fail : rstep env K .idle w = .panic → recv env K w = .panic →
      ∃ k, 1 ≤ k ∧ k ≤ 13 ∧ erun env K cancel policy k ⟨n, .read .idle⟩ w
        = (answerOne env K policy n w >>= fun x => .ok (⟨x.1, .read .idle⟩, x.2)) := by
    intro ha hb
    refine ⟨1, by omega, by omega, ?_⟩
    unfold answerOne
    rw [erun_succ, hidle0, ha, GoM.bind_apply, hb]
    rfl
  have stuck : rstep env K .idle w = .diverge → recv env K w = .diverge →
      ∃ k, 1 ≤ k ∧ k ≤ 13 ∧ erun env K cancel policy k ⟨n, .read .idle⟩ w
        = (answerOne env K policy n w >>= fun x => .ok (⟨x.1, .read .idle⟩, x.2)) := by
    intro ha hb
    refine ⟨1, by omega, by omega, ?_⟩
    unfold answerOne
    rw [erun_succ, hidle0, ha, GoM.bind_apply, hb]
    rfl
  cases hq : w.st.handle with
  | none =>
    apply fail
    · simp only [rstep, GoM.bind_apply, getQ, Res.ok_bind, hq]; rfl
    · unfold recv
      simp only [GoM.bind_apply, getQ, Res.ok_bind, hq]; rfl
  | some qh =>
    rcases hr : recvInto K qh.fd w.st.buf 0x100 w with ⟨r, w1⟩ | _ | _
    · cases r with
      | error m =>
        have hrs : rstep env K .idle w = .ok (.parsed none none (some (.wrap "Unable to read from socket %v" (.errno m))), w1) := by
          simp only [rstep, GoM.bind_apply, getQ, Res.ok_bind, hq, hr]; rfl
        have hrv : recv env K w = .ok ((none, none, some (.wrap "Unable to read from socket %v" (.errno m))), w1) := by
          unfold recv
          simp only [GoM.bind_apply, getQ, Res.ok_bind, hq, hr]; rfl
        obtain ⟨k, k1, k2, hk⟩ := parsed _ _ _ _ hrv
        exact ⟨k + 1, by omega, by omega, by rw [h1 k _ _ hrs, hk]⟩
      | ok m =>
        have hrs : rstep env K .idle w = .ok (.got w.st.buf m, w1) := by
          simp only [rstep, GoM.bind_apply, getQ, Res.ok_bind, hq, hr]; rfl
        have hrv : recv env K w = decodeM env w.st.buf m w1 := by
          unfold recv
          simp only [GoM.bind_apply, getQ, Res.ok_bind, hq, hr]
        have hgot : ∀ k, erun env K cancel policy (k + 1) ⟨n, .read (.got w.st.buf m)⟩ w1
            = (decodeM env w.st.buf m w1 >>= fun x => erun env K cancel policy k ⟨n, .read (.parsed x.1.1 x.1.2.1 x.1.2.2)⟩ x.2) := by
          intro k
          simp only [erun, estep, rstep, GoM.bind_apply, Res.bind_assoc']
          rfl
        rcases hd : decodeM env w.st.buf m w1 with ⟨⟨g, a, err⟩, w2⟩ | _ | _
        · obtain ⟨k, k1, k2, hk⟩ := parsed g a err w2 (hrv.trans hd)
          refine ⟨k + 2, by omega, by omega, ?_⟩
          rw [h1 (k + 1) _ _ hrs, ← hk, hgot, hd]
          rfl
        · refine ⟨2, by omega, by omega, ?_⟩
          rw [h1 1 _ _ hrs, hgot, hd]
          unfold answerOne
          simp only [GoM.bind_apply, hrv, hd, Res.panic_bind]
        · refine ⟨2, by omega, by omega, ?_⟩
          rw [h1 1 _ _ hrs, hgot, hd]
          unfold answerOne
          simp only [GoM.bind_apply, hrv, hd, Res.diverge_bind]
    · apply fail
      · simp only [rstep, GoM.bind_apply, getQ, Res.ok_bind, hq, hr]; rfl
      · unfold recv
        simp only [GoM.bind_apply, getQ, Res.ok_bind, hq, hr]; rfl
    · apply stuck
      · simp only [rstep, GoM.bind_apply, getQ, Res.ok_bind, hq, hr]; rfl
      · unfold recv
        simp only [GoM.bind_apply, getQ, Res.ok_bind, hq, hr]; rfl

/-- The kernel of the example is honest. -/
theorem manyKernel_honest (w0 : MW) : Honest someEnv manyKernel fourQueues w0 := by
  have hrec : ∀ tr fd d, manyKernel.recv tr fd = .ok d → d = dgram1 := fun _ _ d h => (Except.ok.inj h).symm
  refine ⟨?_, ?_⟩
  · intro evs fd d hd
    rw [hrec _ _ _ hd]; decide
  · intro a _ v v' _ _ qh _ evs d hd
    rw [hrec _ _ _ hd]
    exact Or.inr ⟨_, _, dgram1_msg⟩

/-- C119, a concrete case: the queues of nfqueue/examples/example.go:34-39, answered alternately in three ways and never cancelled.  All
hypotheses hold, and if the first queue's goroutine gets 14 turns, however they are mixed with the other goroutines', it has
answered a packet. -/
theorem C119_example (w0 : MW) (is : List (Option Nat)) (h14 : 14 ≤ is.count (some 0)) :
    ∃ (s1 : Proc) (log1 : List (Option Nat × Ev QEv)) (w1 : MW) (s2 : Proc) (log2 : List (Option Nat × Ev QEv)) (w2 : MW) (fd : Nat)
      (turns : List (List (Ev QEv))) (rest : List (Ev QEv)),
      psched someEnv manyKernel (fun _ _ => false) (fun _ n _ _ _ => if n % 3 = 0 then .verdict 1 else if n % 3 = 1 then .verdict2 1 11 else .silent)
        [none] (atStart fourQueues) w0 = .ok ((s1, log1), w1) ∧
      psched someEnv manyKernel (fun _ _ => false) (fun _ n _ _ _ => if n % 3 = 0 then .verdict 1 else if n % 3 = 1 then .verdict2 1 11 else .silent)
        is s1 w1 = .ok ((s2, log2), w2) ∧
      byGo (some 0) (log1 ++ log2) = turns.flatten ++ rest ∧ 1 ≤ turns.length ∧
      ∀ t, turns[0]? = some t → AnswerTurn (fun _ => False) .little fd 10 1 3 0 (75 * 1024) (fun _ _ _ => .verdict 1) t := by
  obtain ⟨s1, log1, w1, s2, log2, w2, h1, h2, hj⟩ := C119_progress someEnv (fun _ => rfl) manyKernel (fun _ _ => false)
    (fun _ n _ _ _ => if n % 3 = 0 then .verdict 1 else if n % 3 = 1 then .verdict2 1 11 else .silent) fourQueues w0 (manyKernel_honest w0) [none] is
  have hrun : Runs s1 0 := by
    obtain ⟨v, hv⟩ := C15_starts someEnv manyKernel 10 2000 0xffff (some 1) (some 3) 0 (w0.view 0) _ rfl
      (fun _ => rfl) (fun _ _ => rfl) (fun _ => ⟨dgram1, rfl, by decide, by decide, by unfold Refusal; decide⟩)
    simp only [psched, GoM.bind_apply, pstep, atStart, fourQueues, hv, Res.ok_bind, GoM.pure_apply, Res.ok.injEq, Prod.mk.injEq] at h1
    rw [← h1.1.1]
    rfl
  obtain ⟨a, fd, turns, _, more, rest, ha, _, hans, hp, _⟩ := hj 0 hrun
  have haa : a = ⟨10, 2000, 0xffff, 1, 3, 0⟩ := (Option.some.inj ha).symm
  subst haa
  have hlen : 1 ≤ (turns ++ more).length := by
    rw [List.length_append]
    rcases hp with hc | hp
    · rcases hans.2.2.1 with h | ⟨⟨_, _, _, h⟩, _⟩
      · exfalso
        rcases h with rfl | ⟨r, rfl⟩ | ⟨d, id, pl, m, _, _, rfl⟩ <;> rcases hc with hc | ⟨_, _, hc⟩ <;> simp at hc
      · cases h
    · omega
  refine ⟨s1, log1, w1, s2, log2, w2, fd, turns ++ more, rest, h1, h2, hans.1, hlen, fun t ht => ?_⟩
  exact hans.2.1 0 t ht

end Verif.Props
