import Verif.Props.PacketTcpPeer
/-! C153, C154: sequence number adjustments and checksum updates between two ends. -/
namespace Verif.Packet
open Verif.Spec

/-- The calls that adjust sequence and acknowledgement numbers and renew or check checksums; the IP checksum calls are for IPv4. -/
def TcpOp.adjusts (v : IPver) : TcpOp → Prop
  | .incSeq _ | .decSeq _ | .incAck _ | .decAck _ | .updateTCP | .verifyTCP => True
  | .updateIP | .verifyIP => v = .V4
  | _ => False

/-- The sequence number after the calls. -/
def seqAfter (s : U32) : List TcpOp → U32
  | [] => s
  | .incSeq n :: t => seqAfter (s + n) t
  | .decSeq n :: t => seqAfter (s - n) t
  | _ :: t => seqAfter s t

/-- The acknowledgement number after the calls. -/
def ackAfter (s : U32) : List TcpOp → U32
  | [] => s
  | .incAck n :: t => ackAfter (s + n) t
  | .decAck n :: t => ackAfter (s - n) t
  | _ :: t => ackAfter s t

/-- A packet that, with the options and data attached to it, is complete. -/
structure Complete (h : Heap) (p : Packet) : Prop where
  inv : TcpInv h p
  first : FirstByte p.version (h.bytes p.buffer)
  total : p.ipTotalLength.toNat = (p.GetTCPBytes h).length
  atLeast : 20 ≤ p.TCPDataStartBytes.toNat
  inside : p.ipHeaderLen.toNat + p.TCPDataStartBytes.toNat ≤ (p.GetTCPBytes h).length
  even : EvenParts ((h.bytes p.buffer).drop p.ipHeaderLen.toNat) (h.bytes p.tcpOptions) (h.bytes p.tcpData)

/-- The options of the whole packet. -/
def wholeOptions (h : Heap) (p : Packet) : List Byte :=
  ((p.GetTCPBytes h).drop (p.IPHeaderLen.toNat + 20)).take (p.TCPDataStartBytes.toNat - 20)

/-- The data of the whole packet. -/
def wholeData (h : Heap) (p : Packet) : List Byte := (p.GetTCPBytes h).drop (p.IPHeaderLen.toNat + p.TCPDataStartBytes.toNat)

theorem Complete.size {h : Heap} {p : Packet} (hc : Complete h p) :
    (p.GetTCPBytes h).length = p.buffer.len + p.tcpOptions.len + p.tcpData.len ∧ (p.GetTCPBytes h).length < 65536 := by
  refine ⟨?_, by rw [← hc.total]; exact p.ipTotalLength.isLt⟩
  unfold Packet.GetTCPBytes
  rw [List.length_append, List.length_append, Heap.bytes_length hc.inv.buf, Heap.bytes_length hc.inv.opts, Heap.bytes_length hc.inv.data]

theorem Complete.mem {h : Heap} {p : Packet} (hc : Complete h p) : TcpMem h p :=
  hc.inv.mem (by have := hc.size; omega)

/-- A complete packet is one on the wire. -/
theorem Complete.wire {h : Heap} {p : Packet} (hc : Complete h p) :
    TcpWire p.version (p.GetTCPBytes h) p.sourceAddress p.destinationAddress p.SourcePort.toNat p.DestPort.toNat p.tcpSeq.toNat p.tcpAck.toNat
      p.GetTCPFlags (wholeOptions h p) (wholeData h p) ∧ FirstByte p.version (p.GetTCPBytes h) := by
  have hi := hc.inv
  have W := hi.onWire
  have hbl := Heap.bytes_length hi.buf
  have hr := hi.room
  have hs := hc.size
  have ht := hc.total
  have hin : p.IPHeaderLen.toNat + p.TCPDataStartBytes.toNat ≤ _ := hc.inside
  have hge := hc.atLeast
  have hH : p.IPHeaderLen.toNat = hdrLen p.version := by
    rcases hi.hdr.nat with ⟨g1, g2⟩ | ⟨g1, g2⟩ <;> rw [g1] <;> exact g2
  have hr : p.IPHeaderLen.toNat + 20 ≤ p.buffer.len := hr
  have hg : 20 ≤ p.IPHeaderLen.toNat := hi.ge.1
  have low : ∀ i, i < p.buffer.len → (p.GetTCPBytes h)[i]? = (h.bytes p.buffer)[i]? := by
    intro i hx
    unfold Packet.GetTCPBytes
    rw [List.append_assoc, List.getElem?_append_left (by omega)]
  obtain ⟨t1, t2, t3, t4, ⟨d, t5, t5'⟩, t6, _⟩ := W.transport.tcp hi.proto
  have hol : (wholeOptions h p).length = p.TCPDataStartBytes.toNat - 20 := by
    unfold wholeOptions
    rw [List.length_take, List.length_drop]
    omega
  have hdl : (wholeData h p).length = (p.GetTCPBytes h).length - (p.IPHeaderLen.toNat + p.TCPDataStartBytes.toNat) := List.length_drop
  have hseg : Segment (p.GetTCPBytes h) p.IPHeaderLen.toNat p.SourcePort.toNat p.DestPort.toNat p.tcpSeq.toNat p.tcpAck.toNat p.GetTCPFlags
      (wholeOptions h p) (wholeData h p) := by
    refine ⟨?_, ?_, ?_, ?_, ?_, ⟨d, ?_, ?_⟩, ?_, ?_, ?_⟩
    · rw [hol, hdl]; omega
    · rw [← t1]; exact be16_congr (fun j _ _ => low j (by omega))
    · rw [← t2]; exact be16_congr (fun j _ _ => low j (by omega))
    · rw [← t3]; exact be32_congr (fun j _ _ => low j (by omega))
    · rw [← t4]; exact be32_congr (fun j _ _ => low j (by omega))
    · rw [low _ (by omega), t5]
    · rw [← t5', hol]; omega
    · rw [low _ (by omega), t6]
    · rw [hol]; rfl
    · rw [hol]
      unfold wholeData
      congr 1
      omega
  have hfirst : FirstByte p.version (p.GetTCPBytes h) := by
    have := hc.first
    unfold FirstByte at this ⊢
    rw [low 0 (by omega)]
    exact this
  refine ⟨?_, hfirst⟩
  rw [hH] at hseg
  cases hcase : p.version with
  | V4 =>
    rw [hcase] at hseg
    obtain ⟨g1, _, g2, g3, g4⟩ := W.ip4 hcase
    refine ⟨?_, ?_, ?_, ?_, hseg⟩
    · rw [← ht]
      refine Eq.trans ?_ g1
      exact be16_congr (fun j _ _ => low j (by omega))
    · rw [low 9 (by omega), g2, show p.IPProto = 6 from hi.proto]
    · refine Eq.trans ?_ g3
      exact part_congr (fun j _ _ => low j (by omega))
    · refine Eq.trans ?_ g4
      exact part_congr (fun j _ _ => low j (by omega))
  | V6 =>
    rw [hcase] at hseg hH
    have hH : p.IPHeaderLen.toNat = 40 := hH
    obtain ⟨⟨n, k1, k2⟩, g2, g3, g4⟩ := W.ip6 hcase
    have hb16 : be16 (p.GetTCPBytes h) 4 = some n := by
      rw [← k1]
      exact be16_congr (fun j _ _ => low j (by omega))
    have hn64 : n < 65536 := by
      rw [be16_u16at (by omega)] at hb16
      have := (u16at (p.GetTCPBytes h) 4).isLt
      have := Option.some.inj hb16
      omega
    have k2 : p.ipTotalLength.toNat = (40 + n) % 65536 := k2
    have hslen : (p.GetTCPBytes h).length = 40 + 20 + (wholeOptions h p).length + (wholeData h p).length := hseg.length
    refine ⟨?_, ?_, ?_, ?_, hseg⟩
    · rw [hb16]
      congr 1
      omega
    · rw [low 6 (by omega), g2, show p.IPProto = 6 from hi.proto]
    · refine Eq.trans ?_ g3
      exact part_congr (fun j _ _ => low j (by omega))
    · refine Eq.trans ?_ g4
      exact part_congr (fun j _ _ => low j (by omega))

/-- What an adjusting call does. -/
structure Adjusted (h : Heap) (p : Packet) (op : TcpOp) (h' : Heap) (p' : Packet) : Prop where
  inv : TcpInv h' p'
  rest : p' = { p with tcpSeq := p'.tcpSeq, tcpAck := p'.tcpAck, tcpChecksum := p'.tcpChecksum, ipChecksum := p'.ipChecksum }
  seq : p'.tcpSeq = seqAfter p.tcpSeq [op]
  ack : p'.tcpAck = ackAfter p.tcpAck [op]
  mem : OnlyChanged h h' p.buffer (fun i => p.ipHeaderLen.toNat ≤ i ∧ i < p.ipHeaderLen.toNat + 20 ∨ i = 10 ∨ i = 11)
  sum : ChecksumRight h p ∨ op = .updateIP → ChecksumRight h' p'
  ipOnly : op = .updateIP → OnlyChanged h h' p.buffer (fun i => i = 10 ∨ i = 11)
  same : op = .verifyIP ∨ op = .verifyTCP → h' = h ∧ p' = p

theorem ChecksumRight.spliced {h : Heap} {p p' : Packet} (hi : TcpInv h p) {i : Nat} {bs : List Byte} (h1 : p.ipHeaderLen.toNat ≤ i)
    (h2 : i + bs.length ≤ p.ipHeaderLen.toNat + 20) (hi' : TcpInv (put h p.buffer (splice (window h p.buffer) i bs)) p')
    (hb : p'.buffer = p.buffer) (hv : p'.version = p.version) (hc : ChecksumRight h p) :
    ChecksumRight (put h p.buffer (splice (window h p.buffer) i bs)) p' := by
  have hwl := window_length hi.buf
  have hr := hi.room
  have hcap := hi.buf.1
  have hg := hi.ge.1
  rw [ChecksumRight_iff hi] at hc
  rw [ChecksumRight_iff hi', hv, hb, window_put hi.buf (by rw [splice_length _ _ _ (by omega)]; exact hwl)]
  intro h4
  exact (CsumOk_above (by omega) (by omega)).mpr (hc h4)

theorem adjust_step (grow : Nat → Nat) {h : Heap} {p : Packet} (hi : TcpInv h p)
    (hs : p.buffer.len - p.ipHeaderLen.toNat + p.tcpOptions.len + p.tcpData.len < 65536) (op : TcpOp) (ha : op.adjusts p.version) :
    ∃ h' p', op.run grow h p = .ok (h', p') ∧ Adjusted h p op h' p' := by
  have hr := hi.room
  have hc := hi.buf.1
  have hwl := window_length hi.buf
  have hg := hi.ge.1
  have on : ∀ (i : Nat) (bs : List Byte), p.ipHeaderLen.toNat ≤ i → i + bs.length ≤ p.ipHeaderLen.toNat + 20 →
      OnlyChanged h (put h p.buffer (splice (window h p.buffer) i bs)) p.buffer
        (fun i => p.ipHeaderLen.toNat ≤ i ∧ i < p.ipHeaderLen.toNat + 20 ∨ i = 10 ∨ i = 11) := fun i bs h1 h2 =>
    (splice_onlyChanged hi.buf (by omega)).mono (fun j hj => .inl (by omega))
  have none : OnlyChanged h h p.buffer (fun i => p.ipHeaderLen.toNat ≤ i ∧ i < p.ipHeaderLen.toNat + 20 ∨ i = 10 ∨ i = 11) :=
    ⟨rfl, fun _ _ _ => rfl⟩
  cases op with
  | incSeq n =>
    have inv := hi.setTcp (i := p.ipHeaderLen.toNat + 4) (bs := enc32 .big (p.tcpSeq + n)) (by omega) (by simp) { p with tcpSeq := p.tcpSeq + n } rfl (hi.tcp.setSeq (by omega) _)
    exact ⟨_, _, IncSeq_eq hi.buf hr n, inv, rfl, rfl, rfl, on _ _ (by omega) (by simp), fun x => ChecksumRight.spliced hi (by omega) (by simp) inv rfl rfl
      (x.resolve_right (fun y => nomatch y)), fun x => (nomatch x), fun x => x.elim (fun y => nomatch y) (fun y => nomatch y)⟩
  | decSeq n =>
    have inv := hi.setTcp (i := p.ipHeaderLen.toNat + 4) (bs := enc32 .big (p.tcpSeq - n)) (by omega) (by simp) { p with tcpSeq := p.tcpSeq - n } rfl (hi.tcp.setSeq (by omega) _)
    exact ⟨_, _, DecSeq_eq hi.buf hr n, inv, rfl, rfl, rfl, on _ _ (by omega) (by simp), fun x => ChecksumRight.spliced hi (by omega) (by simp) inv rfl rfl
      (x.resolve_right (fun y => nomatch y)), fun x => (nomatch x), fun x => x.elim (fun y => nomatch y) (fun y => nomatch y)⟩
  | incAck n =>
    have inv := hi.setTcp (i := p.ipHeaderLen.toNat + 8) (bs := enc32 .big (p.tcpAck + n)) (by omega) (by simp) { p with tcpAck := p.tcpAck + n } rfl (hi.tcp.setAck (by omega) _)
    exact ⟨_, _, IncAck_eq hi.buf hr n, inv, rfl, rfl, rfl, on _ _ (by omega) (by simp), fun x => ChecksumRight.spliced hi (by omega) (by simp) inv rfl rfl
      (x.resolve_right (fun y => nomatch y)), fun x => (nomatch x), fun x => x.elim (fun y => nomatch y) (fun y => nomatch y)⟩
  | decAck n =>
    have inv := hi.setTcp (i := p.ipHeaderLen.toNat + 8) (bs := enc32 .big (p.tcpAck - n)) (by omega) (by simp) { p with tcpAck := p.tcpAck - n } rfl (hi.tcp.setAck (by omega) _)
    exact ⟨_, _, DecAck_eq hi.buf hr n, inv, rfl, rfl, rfl, on _ _ (by omega) (by simp), fun x => ChecksumRight.spliced hi (by omega) (by simp) inv rfl rfl
      (x.resolve_right (fun y => nomatch y)), fun x => (nomatch x), fun x => x.elim (fun y => nomatch y) (fun y => nomatch y)⟩
  | updateIP =>
    obtain ⟨h', p', e, inv, _⟩ := run_ok grow hi .updateIP ha
    have h4 : p.version = .V4 := ha
    have h20 : p.ipHeaderLen = 20 := by
      rcases hi.hdr with ⟨_, h1⟩ | ⟨h1, _⟩
      · exact h1
      · rw [h4] at h1; exact absurd h1 (by decide)
    have e0 := UpdateIPv4_eq hi.buf h20 (by omega) (by omega)
    have e' : UpdateIPv4Checksum h p = .ok (h', p') := e
    rw [e0] at e'
    simp only [Res.ok.injEq, Prod.mk.injEq] at e'
    obtain ⟨rfl, rfl⟩ := e'
    refine ⟨_, _, e, inv, rfl, rfl, rfl, (splice_onlyChanged hi.buf (by simp; omega)).mono (fun j hj => .inr (by simp at hj; omega)), fun _ => ?_,
      fun _ => (splice_onlyChanged hi.buf (by simp; omega)).mono (fun j hj => by simp at hj; omega), fun x => x.elim (fun y => nomatch y) (fun y => nomatch y)⟩
    rw [ChecksumRight_iff inv]
    intro _
    have hl : (splice (window h p.buffer) 10 (enc16 .big (cks (splice ((window h p.buffer).take 20) 10 [0, 0])))).length = p.buffer.cap := by
      rw [splice_length _ _ _ (by simp; omega)]; exact hwl
    show CsumOk (window (put h p.buffer _) p.buffer)
    rw [window_put hi.buf hl]
    unfold CsumOk
    rw [u16at_splice_same (by omega), ipv4HeaderChecksum_eq, zeroed_csum (by omega), cks_toNat]
    rfl
  | verifyIP =>
    have h4 : p.version = .V4 := ha
    have h20 : p.ipHeaderLen = 20 := by
      rcases hi.hdr with ⟨_, h1⟩ | ⟨h1, _⟩
      · exact h1
      · rw [h4] at h1; exact absurd h1 (by decide)
    refine ⟨h, p, ?_, hi, rfl, rfl, rfl, none, fun x => x.resolve_right (fun y => nomatch y), fun x => (nomatch x), fun _ => ⟨rfl, rfl⟩⟩
    refine res_bind (VerifyIPv4_eq hi.buf h20 (by omega) (by omega)) ?_
    simp only
    rw [← hi.ip.csum4 h4, enc16_u16at, splice_u16at (by omega), put_self]
  | updateTCP =>
    have hm := hi.mem hs
    have inv := hi.setTcp (i := p.ipHeaderLen.toNat + 16) (bs := enc16 .big (tcpCks p (window h p.buffer) (h.bytes p.tcpOptions) (h.bytes p.tcpData)))
      (by omega) (by simp) { p with tcpChecksum := tcpCks p (window h p.buffer) (h.bytes p.tcpOptions) (h.bytes p.tcpData) } rfl
      (hi.tcp.setCsum (by omega) _)
    exact ⟨_, _, UpdateTCP_eq hm, inv, rfl, rfl, rfl, on _ _ (by omega) (by simp), fun x => ChecksumRight.spliced hi (by omega) (by simp) inv rfl rfl
      (x.resolve_right (fun y => nomatch y)), fun x => (nomatch x), fun x => x.elim (fun y => nomatch y) (fun y => nomatch y)⟩
  | verifyTCP =>
    have hm := hi.mem hs
    exact ⟨h, p, res_bind (VerifyTCP_eq hm) rfl, hi, rfl, rfl, rfl, none, fun x => x.resolve_right (fun y => nomatch y), fun x => (nomatch x), fun _ => ⟨rfl, rfl⟩⟩
  | _ => exact absurd ha (fun x => x)

/-- The TCP checksum of the whole packet is right. -/
def TcpSumRight (h : Heap) (p : Packet) : Prop :=
  be16 (p.GetTCPBytes h) (p.IPHeaderLen.toNat + 16) = some (rfcTcpChecksum p.IPversion (p.GetTCPBytes h))

/-- Whether the TCP checksum is right after the calls: renewing it makes it so, changing a number may spoil it. -/
def tcpSumAfter (b : Prop) : List TcpOp → Prop
  | [] => b
  | .updateTCP :: t => tcpSumAfter True t
  | .verifyTCP :: t | .verifyIP :: t | .updateIP :: t => tcpSumAfter b t
  | _ :: t => tcpSumAfter False t

theorem Adjusted.whole {h h' : Heap} {p p' : Packet} {op : TcpOp} (A : Adjusted h p op h' p') (hc : Complete h p) {P : Nat → Prop}
    (hP : ∀ i, P i → i < p.ipHeaderLen.toNat + 20) (hm : OnlyChanged h h' p.buffer P) :
    SameExcept P (p'.GetTCPBytes h') (p.GetTCPBytes h) ∧ h'.bytes p'.tcpOptions = h.bytes p.tcpOptions ∧
      h'.bytes p'.tcpData = h.bytes p.tcpData ∧ (h'.bytes p'.buffer).length = (h.bytes p.buffer).length := by
  have eb : p'.buffer = p.buffer := by rw [A.rest]
  have eo : p'.tcpOptions = p.tcpOptions := by rw [A.rest]
  have ed : p'.tcpData = p.tcpData := by rw [A.rest]
  have ho := hm.clear hP hc.inv.optsClear
  have hd := hm.clear hP hc.inv.dataClear
  have hbl := Heap.bytes_length hc.inv.buf
  have hbl' := Heap.bytes_length A.inv.buf
  rw [eb] at hbl'
  have hs : SameExcept P (h'.bytes p.buffer) (h.bytes p.buffer) := ⟨by omega, fun i hi => hm.bytes hi⟩
  refine ⟨?_, by rw [eo, ho], by rw [ed, hd], by rw [eb]; exact hs.1⟩
  unfold Packet.GetTCPBytes
  rw [eb, eo, ed, ho, hd]
  exact (hs.append _).append _

/-- One adjusting call keeps a packet complete, and keeps its options and data. -/
theorem Adjusted.complete {h h' : Heap} {p p' : Packet} {op : TcpOp} (A : Adjusted h p op h' p') (hc : Complete h p) :
    Complete h' p' ∧ wholeOptions h' p' = wholeOptions h p ∧ wholeData h' p' = wholeData h p := by
  have hlt : ∀ i, p.ipHeaderLen.toNat ≤ i ∧ i < p.ipHeaderLen.toNat + 20 ∨ i = 10 ∨ i = 11 → i < p.ipHeaderLen.toNat + 20 := by
    intro i hi; have := hc.inv.ge.1; omega
  obtain ⟨w1, w2, w3, w4⟩ := A.whole hc hlt A.mem
  have eb : p'.buffer = p.buffer := by rw [A.rest]
  have eh : p'.ipHeaderLen = p.ipHeaderLen := by rw [A.rest]
  have ev : p'.version = p.version := by rw [A.rest]
  have et : p'.ipTotalLength = p.ipTotalLength := by rw [A.rest]
  have es : p'.TCPDataStartBytes = p.TCPDataStartBytes := by rw [A.rest]; rfl
  have e20 := hc.atLeast
  have edrop : ∀ n, 20 ≤ n → (p'.GetTCPBytes h').drop (p.ipHeaderLen.toNat + n) = (p.GetTCPBytes h).drop (p.ipHeaderLen.toNat + n) := by
    intro n hn
    exact w1.drop (fun i hi => by have := hlt i hi; omega)
  refine ⟨⟨A.inv, ?_, ?_, ?_, ?_, ?_⟩, ?_, ?_⟩
  · have := hc.first
    unfold FirstByte at this ⊢
    rw [ev, eb, A.mem.bytes (by have := hc.inv.ge.1; omega)]
    exact this
  · rw [et, w1.1]; exact hc.total
  · rw [es]; exact hc.atLeast
  · rw [es, eh, w1.1]; exact hc.inside
  · have := hc.even
    unfold EvenParts at this ⊢
    rw [w2, w3, eh, List.length_drop, w4]
    rw [List.length_drop] at this
    exact this
  · unfold wholeOptions Packet.IPHeaderLen
    rw [eh, es, edrop 20 (by omega)]
  · unfold wholeData Packet.IPHeaderLen
    rw [eh, es, edrop _ e20]

theorem rfc_same {v : IPver} {a b : List Byte} (hs : SameExcept (fun i => i = 10 ∨ i = 11) a b) (h4 : v = .V4) :
    rfcTcpChecksum v a = rfcTcpChecksum v b := by
  rw [rfc_covered, rfc_covered, h4]
  simp only
  rw [hs.drop (n := 20) (fun i hi => by omega), part_congr (a := a) (b := b) (i := 12) (n := 4) (fun j _ _ => hs.2 j (by omega)),
    part_congr (a := a) (b := b) (i := 16) (n := 4) (fun j _ _ => hs.2 j (by omega))]

/-- The TCP checksum after one adjusting call. -/
theorem Adjusted.tcpSum (grow : Nat → Nat) {h h' : Heap} {p p' : Packet} {op : TcpOp} (A : Adjusted h p op h' p') (hc : Complete h p)
    (ha : op.adjusts p.version) (e : op.run grow h p = .ok (h', p')) {b : Prop} (hb : b → TcpSumRight h p) :
    ∃ b' : Prop, (∀ t, tcpSumAfter b (op :: t) = tcpSumAfter b' t) ∧ (b' → TcpSumRight h' p') := by
  have eh : p'.ipHeaderLen = p.ipHeaderLen := by rw [A.rest]
  have ev : p'.version = p.version := by rw [A.rest]
  cases op with
  | updateTCP =>
    refine ⟨True, fun _ => rfl, fun _ => ?_⟩
    obtain ⟨h2, p2, e2, _, _, e3, _, e4, e5⟩ := C54_update_tcp hc.mem
    have e : UpdateTCPChecksum h p = .ok (h', p') := e
    rw [e2] at e
    cases e
    have := e5 hc.even
    unfold TcpSumRight Packet.IPHeaderLen Packet.IPversion
    rw [eh, ev, show be16 (p'.GetTCPBytes h') (p.ipHeaderLen.toNat + 16) = _ from e4, this]
    rfl
  | verifyTCP =>
    refine ⟨b, fun _ => rfl, fun x => ?_⟩
    obtain ⟨rfl, rfl⟩ := A.same (.inr rfl)
    exact hb x
  | verifyIP =>
    refine ⟨b, fun _ => rfl, fun x => ?_⟩
    obtain ⟨rfl, rfl⟩ := A.same (.inl rfl)
    exact hb x
  | updateIP =>
    refine ⟨b, fun _ => rfl, fun x => ?_⟩
    have h4 : p.version = .V4 := ha
    have hg := hc.inv.ge.1
    obtain ⟨w, _⟩ := A.whole hc (fun i hi => by omega) (A.ipOnly rfl)
    have hx := hb x
    unfold TcpSumRight Packet.IPHeaderLen Packet.IPversion at hx ⊢
    rw [eh, ev, rfc_same w h4, ← hx]
    exact be16_congr (fun j _ _ => w.2 j (by omega))
  | incSeq => exact ⟨False, fun _ => rfl, fun x => x.elim⟩
  | decSeq => exact ⟨False, fun _ => rfl, fun x => x.elim⟩
  | incAck => exact ⟨False, fun _ => rfl, fun x => x.elim⟩
  | decAck => exact ⟨False, fun _ => rfl, fun x => x.elim⟩
  | _ => exact absurd ha (fun x => x)

theorem seqAfter_cons (s : U32) (op : TcpOp) (t : List TcpOp) : seqAfter s (op :: t) = seqAfter (seqAfter s [op]) t := by
  cases op <;> rfl

theorem ackAfter_cons (s : U32) (op : TcpOp) (t : List TcpOp) : ackAfter s (op :: t) = ackAfter (ackAfter s [op]) t := by
  cases op <;> rfl

/-- What a sequence of adjusting calls does to a complete packet. -/
structure AdjustedBy (h : Heap) (p : Packet) (ops : List TcpOp) (h' : Heap) (p' : Packet) : Prop where
  done : Complete h' p'
  version : p'.version = p.version
  hlen : p'.ipHeaderLen = p.ipHeaderLen
  src : p'.sourceAddress = p.sourceAddress
  dst : p'.destinationAddress = p.destinationAddress
  sport : p'.SourcePort = p.SourcePort
  dport : p'.DestPort = p.DestPort
  flags : p'.GetTCPFlags = p.GetTCPFlags
  seq : p'.tcpSeq = seqAfter p.tcpSeq ops
  ack : p'.tcpAck = ackAfter p.tcpAck ops
  opts : wholeOptions h' p' = wholeOptions h p
  data : wholeData h' p' = wholeData h p
  sum : ChecksumRight h p ∨ .updateIP ∈ ops → ChecksumRight h' p'
  tcpSum : tcpSumAfter (TcpSumRight h p) ops → TcpSumRight h' p'

theorem run_adjusts (grow : Nat → Nat) (ops : List TcpOp) {h : Heap} {p : Packet} (hc : Complete h p)
    (ha : ∀ op ∈ ops, op.adjusts p.version) : ∃ h' p', runOps grow h p ops = .ok (h', p') ∧ AdjustedBy h p ops h' p' := by
  suffices H : ∀ (ops : List TcpOp) {h : Heap} {p : Packet} (_ : Complete h p) (_ : ∀ op ∈ ops, op.adjusts p.version) {b : Prop}
      (_ : b → TcpSumRight h p), ∃ h' p', runOps grow h p ops = .ok (h', p') ∧ AdjustedBy h p ops h' p' ∧ (tcpSumAfter b ops → TcpSumRight h' p') by
    obtain ⟨h', p', e, A, _⟩ := H ops hc ha (b := TcpSumRight h p) (fun x => x)
    exact ⟨h', p', e, A⟩
  intro ops
  induction ops with
  | nil =>
    intro h p hc _ b hb
    exact ⟨h, p, rfl, ⟨hc, rfl, rfl, rfl, rfl, rfl, rfl, rfl, rfl, rfl, rfl, rfl, fun x => x.resolve_right (by simp), fun x => x⟩, hb⟩
  | cons op t ih =>
    intro h p hc ha b hb
    have hs := hc.size
    obtain ⟨h1, p1, e1, A1⟩ := adjust_step grow hc.inv (by omega) op (ha op List.mem_cons_self)
    obtain ⟨c1, c2, c3⟩ := A1.complete hc
    have ev : p1.version = p.version := by rw [A1.rest]
    have ep : p1.ipProto = p.ipProto := by rw [A1.rest]
    obtain ⟨b1, k1, k2⟩ := A1.tcpSum grow hc (ha op List.mem_cons_self) e1 hb
    obtain ⟨b2, k3, k4⟩ := A1.tcpSum grow hc (ha op List.mem_cons_self) e1 (b := TcpSumRight h p) (fun x => x)
    obtain ⟨h2, p2, e2, B, S⟩ := ih c1 (fun o ho => by rw [ev]; exact ha o (List.mem_cons_of_mem _ ho)) (b := b1 ∨ b2) (fun x => x.elim k2 k4)
    have mono : ∀ (l : List TcpOp) {x y : Prop}, (x → y) → tcpSumAfter x l → tcpSumAfter y l := by
      intro l
      induction l with
      | nil => intro x y hxy; exact hxy
      | cons o l ihl => intro x y hxy; cases o <;> first | exact fun z => z | exact ihl hxy
    refine ⟨h2, p2, ?_, ⟨B.done, B.version.trans ev, B.hlen.trans (by rw [A1.rest]), B.src.trans (by rw [A1.rest]), B.dst.trans (by rw [A1.rest]),
      B.sport.trans (by rw [A1.rest]; rfl), B.dport.trans (by rw [A1.rest]; rfl), B.flags.trans (by rw [A1.rest]; rfl), ?_, ?_, B.opts.trans c2,
      B.data.trans c3, ?_, ?_⟩, ?_⟩
    · show (op.run grow h p >>= _) = _
      rw [e1, Res.ok_bind]
      exact e2
    · rw [B.seq, A1.seq, ← seqAfter_cons]
    · rw [B.ack, A1.ack, ← ackAfter_cons]
    · rintro (x | x)
      · exact B.sum (.inl (A1.sum (.inl x)))
      · rcases List.mem_cons.mp x with x | x
        · exact B.sum (.inl (A1.sum (.inr x.symm)))
        · exact B.sum (.inr x)
    · rw [k3]
      exact fun x => S (mono t .inr x)
    · rw [k1]
      exact fun x => S (mono t .inl x)

/-- A complete packet, adjusted, at the receiver. -/
theorem adjusted_at_peer (grow : Nat → Nat) {h : Heap} {p : Packet} (hc : Complete h p) (ops : List TcpOp)
    (ha : ∀ op ∈ ops, op.adjusts p.IPversion) :
    ∃ h' p', runOps grow h p ops = .ok (h', p') ∧
      ∀ (hR : Heap) (s : Slice) (c2 : U64) (m2 : List Char), s.Valid hR → hR.bytes s = p'.GetTCPBytes h' →
        ∃ q, (∀ lv, New hR c2 s m2 lv = .ok (some q, none)) ∧
          TcpReads hR q p.IPversion (p'.GetTCPBytes h') p.SourceAddress p.DestinationAddress p.SourcePort.toNat p.DestPort.toNat
            (seqAfter p.tcpSeq ops).toNat (ackAfter p.tcpAck ops).toNat p.GetTCPFlags (wholeOptions h p) (wholeData h p) ∧
          (tcpSumAfter (TcpSumRight h p) ops → VerifyTCPChecksum hR q = .ok (true, hR)) ∧
          (p.IPversion = .V4 → ChecksumRight h p ∨ .updateIP ∈ ops → VerifyIPv4Checksum hR q = .ok (true, hR)) := by
  obtain ⟨h', p', e, B⟩ := run_adjusts grow ops hc ha
  refine ⟨h', p', e, fun hR s c2 m2 hsv hsb => ?_⟩
  have hsz := B.done.size
  have hsl := Heap.bytes_length hsv
  have hsn : s.len < 65536 := by rw [← hsl, hsb]; exact hsz.2
  have hsq : s.len = p'.buffer.len + p'.tcpOptions.len + p'.tcpData.len := by rw [← hsl, hsb]; exact hsz.1
  obtain ⟨W, F⟩ := B.done.wire
  rw [B.version, B.src, B.dst, B.sport, B.dport, B.seq, B.ack, B.flags, B.opts, B.data, ← hsb] at W
  rw [B.version, ← hsb] at F
  obtain ⟨q, n1, n2, n3⟩ := C151_complete_packet_read hsv c2 m2 W F (by omega)
  rw [hsb] at n2
  have hqv : q.IPversion = p.IPversion := n2.version
  have hqH : q.IPHeaderLen.toNat = p'.IPHeaderLen.toNat := by
    have hqi := accepted_inv hsv (n1 true) n2.proto (by omega)
    have e1 : q.ipHeaderLen.toNat = hdrLen p.version := by
      rcases hqi.hdr.nat with ⟨g1, g2⟩ | ⟨g1, g2⟩ <;> rw [show q.version = p.version from hqv] at g1 <;> rw [g1] <;> exact g2
    have e2 : p.ipHeaderLen.toNat = hdrLen p.version := by
      rcases hc.inv.hdr.nat with ⟨g1, g2⟩ | ⟨g1, g2⟩ <;> rw [g1] <;> exact g2
    show q.ipHeaderLen.toNat = p'.ipHeaderLen.toNat
    rw [e1, B.hlen, e2]
  refine ⟨q, n1, n2, fun x => ?_, fun x4 x => ?_⟩
  · obtain ⟨b, b1, b2⟩ := C54_verify_tcp hsv (n1 true) n2.proto (by omega)
    rw [b1]
    have : b = true := by
      rw [b2, n3, hsb, hqv, hqH]
      have := B.tcpSum x
      unfold TcpSumRight at this
      rw [this]
      show some (rfcTcpChecksum p'.version _) = some (rfcTcpChecksum p.version _)
      rw [B.version]
    rw [this]
  · have hlen : (hR.bytes s).length = _ := congrArg List.length hsb
    have hr := B.done.inv.room
    obtain ⟨b, b1, b2⟩ := (C52_verify_ipv4 hsv (n1 true) (hqv.trans x4)).1 (by rw [n3]; omega)
    rw [b1]
    have : b = true := by
      rw [b2, hsb]
      have h4 := B.sum x (B.version.trans x4)
      have hg := B.done.inv.ge.1
      have hl := Heap.bytes_length B.done.inv.buf
      unfold ipv4ChecksumOk ipv4HeaderChecksum at h4 ⊢
      unfold Packet.GetTCPBytes
      rw [List.append_assoc, List.take_append_of_le_length (by omega), ← h4]
      exact be16_congr (fun j _ _ => by rw [List.getElem?_append_left (by omega)])
    rw [this]

theorem accepted_complete {h : Heap} {bytes : Slice} (hv : bytes.Valid h) {c : U64} {m : List Char}
    {p : Packet} (ha : New h c bytes m true = .ok (some p, none)) (ht : p.IPProto = 6) (hn : bytes.len < 65536)
    (h20 : 20 ≤ p.TCPDataStartBytes.toNat) (hin : p.IPHeaderLen.toNat + p.TCPDataStartBytes.toNat ≤ p.buffer.len) :
    Complete h p ∧ p.GetTCPBytes h = h.bytes p.buffer := by
  have hi := accepted_inv hv ha ht hn
  obtain ⟨_, _, _, _, e1, e2, _, _, _, _, h11⟩ := accepted_tcp hv ha ht
  have htot := (h11 rfl hn).1
  have hbl := Heap.bytes_length hi.buf
  have hB : p.GetTCPBytes h = h.bytes p.buffer := by
    unfold Packet.GetTCPBytes
    rw [e1, e2, nil_bytes, List.append_nil, List.append_nil]
  refine ⟨⟨hi, accepted_first_tcp hv ha ht (by have := hi.room; omega), ?_, h20, ?_, ?_⟩, hB⟩
  · rw [hB, hbl, htot]
  · rw [hB, hbl]; exact hin
  · rw [e1, e2, nil_bytes]
    exact ⟨.inr ⟨rfl, rfl⟩, .inl rfl⟩

/-- C153. An accepted TCP packet whose data offset lies inside it, adjusted by any sequence of calls that change its sequence and acknowledgement
numbers and renew or check its checksums: wherever its bytes arrive they are accepted, with or without validation of lengths, and everything the
receiver reads is what the sender's packet said, except that the numbers are the sums of the adjustments.  The receiver finds the TCP checksum right
if it was renewed after the last adjustment (or was right and nothing was adjusted), and the header checksum right if it was right or renewed. -/
theorem C153_adjusted_at_peer {h : Heap} {bytes : Slice} (hv : bytes.Valid h) {c : U64} {m : List Char}
    {p : Packet} (ha : New h c bytes m true = .ok (some p, none)) (ht : p.IPProto = 6) (hn : bytes.len < 65536)
    (h20 : 20 ≤ p.TCPDataStartBytes.toNat) (hin : p.IPHeaderLen.toNat + p.TCPDataStartBytes.toNat ≤ p.buffer.len)
    (grow : Nat → Nat) (ops : List TcpOp) (hops : ∀ op ∈ ops, op.adjusts p.IPversion) :
    ∃ h' p', runOps grow h p ops = .ok (h', p') ∧
      ∀ (hR : Heap) (s : Slice) (c2 : U64) (m2 : List Char), s.Valid hR → hR.bytes s = p'.GetTCPBytes h' →
        ∃ q, (∀ lv, New hR c2 s m2 lv = .ok (some q, none)) ∧
          TcpReads hR q p.IPversion (p'.GetTCPBytes h') p.SourceAddress p.DestinationAddress p.SourcePort.toNat p.DestPort.toNat
            (seqAfter p.tcpSeq ops).toNat (ackAfter p.tcpAck ops).toNat p.GetTCPFlags
            (((h.bytes p.buffer).drop (p.IPHeaderLen.toNat + 20)).take (p.TCPDataStartBytes.toNat - 20))
            ((h.bytes p.buffer).drop (p.IPHeaderLen.toNat + p.TCPDataStartBytes.toNat)) ∧
          (tcpSumAfter (be16 (h.bytes p.buffer) (p.IPHeaderLen.toNat + 16) = some (rfcTcpChecksum p.IPversion (h.bytes p.buffer))) ops →
            VerifyTCPChecksum hR q = .ok (true, hR)) ∧
          (p.IPversion = .V4 → ChecksumRight h p ∨ .updateIP ∈ ops → VerifyIPv4Checksum hR q = .ok (true, hR)) := by
  obtain ⟨hc, hB⟩ := accepted_complete hv ha ht hn h20 hin
  have := adjusted_at_peer grow hc ops hops
  unfold wholeOptions wholeData TcpSumRight at this
  rw [hB] at this
  exact this

/-! ### C154 -/

/-- What an attach leaves is a complete packet. -/
theorem attach_complete {h : Heap} {bytes : Slice} (hv : bytes.Valid h) {c : U64} {m : List Char}
    {p : Packet} (ha : New h c bytes m true = .ok (some p, none)) (ht : p.IPProto = 6) (hn : bytes.len < 65536)
    {o : U16} (hd : Detachable p o) (h4 : o.toNat % 4 = 0) (grow : Nat → Nat) {h1 : Heap} {p1 : Packet}
    (e1 : TCPDataDetach h p o = .ok (h1, p1)) {opts data : Slice} (hov : opts.Valid h1) (hf : Foreign h1 p1 data) (hm4 : opts.len % 4 = 0)
    (hfit : p1.TCPDataStartBytes.toNat + opts.len ≤ 60) (hsz : p1.IPTotalLen.toNat + opts.len + data.len < 65536) :
    ∃ h2 p2, TCPDataAttach grow h1 p1.DropTCPDetachedBytes opts data = .ok (h2, p2, none) ∧ Complete h2 p2 ∧
      p2.tcpSeq = p.tcpSeq ∧ p2.tcpAck = p.tcpAck := by
  obtain ⟨h1', p1', e1', hall⟩ := C58_attach_consistent hv ha ht hn hd h4 grow
  rw [e1] at e1'
  cases e1'
  obtain ⟨h1', p1', e1', _, _, D3, _, D5, D6, D7, D8, _⟩ := C56_detach_splits hv ha ht hn hd h4
  rw [e1] at e1'
  cases e1'
  obtain ⟨h2, p2, e2, A1, A2, A3, _, A5, A6, A7, A8, A9⟩ := hall opts data hov hf hm4 hfit hsz
  have hi := accepted_inv hv ha ht hn
  have hdk := Detachable.ok hi hd
  obtain ⟨h1', p1', e1', hD⟩ := Detach_full hi hdk
  rw [e1] at e1'
  cases e1'
  have hbl := Heap.bytes_length hi.buf
  obtain ⟨d1, d2, d3⟩ := id hd
  have hg := hi.ge.1
  have hr1 := hD.inv.room
  have hds := hi.dataStart
  have hlen : p1.buffer.len = p.IPHeaderLen.toNat + p.TCPDataStartBytes.toNat - o.toNat := by
    rw [hds]; rw [hD.buf]; rfl
  have hhl : p1.ipHeaderLen = p.ipHeaderLen := hD.hlen
  have hi1 : TcpInv h1 p1.DropTCPDetachedBytes :=
    TcpInv.setParts hD.inv (b := p1.buffer) (o := Slice.nil) (d := Slice.nil) rfl hr1 hD.inv.buf.1 (nil_valid _)
      (nil_valid _) (nil_clear _ _ _) (nil_clear _ _ _) (fun _ => rfl)
  have hgo : p1.DropTCPDetachedBytes.TCPDataStartBytes
      = BitVec.ofNat 16 (p1.DropTCPDetachedBytes.buffer.len - p1.DropTCPDetachedBytes.ipHeaderLen.toNat) := by
    apply BitVec.eq_of_toNat_eq
    rw [BitVec.toNat_ofNat]
    show p1.TCPDataStartBytes.toNat = (p1.buffer.len - p1.ipHeaderLen.toNat) % 2 ^ 16
    rw [D6, hlen, hhl]
    show _ = (p.ipHeaderLen.toNat + _ - _ - p.ipHeaderLen.toNat) % 2 ^ 16
    omega
  have hds1 := hD.inv.dataStart
  obtain ⟨h2', p2', e2', hA⟩ := Attach_full grow hi1 (o := opts) (d := data) rfl hov hf.1 hf.clear
    (by show p1.tcpDataOffset.toNat + opts.len / 4 ≤ 15; omega) (.inl hgo)
  rw [e2] at e2'
  cases e2'
  have hpb : p2.buffer = p1.buffer := hA.buf
  have hol := Heap.bytes_length hov
  have hdl := Heap.bytes_length hf.1
  have hbl2 := Heap.bytes_length hA.inv.buf
  have hh2 : p2.ipHeaderLen = p.ipHeaderLen := A9
  have hBl : (p2.GetTCPBytes h2).length = p1.buffer.len + opts.len + data.len := by
    rw [A1, List.length_append, List.length_append, hol, hdl, hbl2, hpb]
  refine ⟨h2, p2, e2, ⟨hA.inv, ?_, A3, ?_, ?_, ?_⟩, ?_, ?_⟩
  · have hfb := accepted_first_tcp hv ha ht (by have := hi.room; omega)
    have hv2 : p2.version = p.version := A8
    have hpos : (0 : Nat) < p.IPHeaderLen.toNat + p.TCPDataStartBytes.toNat - o.toNat := by omega
    have h0 : (h2.bytes p2.buffer)[0]? = (h.bytes p.buffer)[0]? := by
      have hnot : ¬ (LenField p.IPversion 0 ∨ 0 = p.IPHeaderLen.toNat + 12) := by
        rintro (hx | hx)
        · revert hx
          unfold LenField
          cases p.IPversion <;> decide
        · omega
      rw [A2.2 0 hnot, List.getElem?_take, if_pos hpos]
    unfold FirstByte at hfb ⊢
    rw [hv2, h0]
    exact hfb
  · rw [A7, D6]; omega
  · rw [hBl, A7, D6, hh2, hlen]
    show p.ipHeaderLen.toNat + _ ≤ p.ipHeaderLen.toNat + _ - _ + _ + _
    omega
  · rw [hA.data, hA.opts]
    refine ⟨.inl ?_, .inl ?_⟩
    · rw [List.length_drop, hbl2, hpb, hlen, hh2]
      show (p.ipHeaderLen.toNat + _ - _ - p.ipHeaderLen.toNat) % 2 = 0
      omega
    · rw [hol]; omega
  · rw [hA.seq]; exact hD.seq
  · rw [hA.ack]; exact hD.ack

/-- C154. The whole exchange with adjustments: detach, drop, attach, then any adjusting calls.  Wherever the bytes arrive they are accepted; the
receiver reads the endpoints and flags of the original packet, the numbers as adjusted, the options kept followed by those attached, and the data
attached, and finds the TCP checksum right if it was renewed after the last adjustment. -/
theorem C154_attached_adjusted_at_peer {h : Heap} {bytes : Slice} (hv : bytes.Valid h) {c : U64} {m : List Char}
    {p : Packet} (ha : New h c bytes m true = .ok (some p, none)) (ht : p.IPProto = 6) (hn : bytes.len < 65536)
    {o : U16} (hd : Detachable p o) (h4 : o.toNat % 4 = 0) (grow : Nat → Nat) :
    ∃ h1 p1, TCPDataDetach h p o = .ok (h1, p1) ∧
    ∀ opts data : Slice, opts.Valid h1 → Foreign h1 p1 data → opts.len % 4 = 0 →
      p1.TCPDataStartBytes.toNat + opts.len ≤ 60 → p1.IPTotalLen.toNat + opts.len + data.len < 65536 →
    ∃ h2 p2, TCPDataAttach grow h1 p1.DropTCPDetachedBytes opts data = .ok (h2, p2, none) ∧
    ∀ ops : List TcpOp, (∀ op ∈ ops, op.adjusts p.IPversion) → ∃ h3 p3, runOps grow h2 p2 ops = .ok (h3, p3) ∧
    ∀ (hR : Heap) (s : Slice) (c2 : U64) (m2 : List Char), s.Valid hR → hR.bytes s = p3.GetTCPBytes h3 →
    ∃ q, (∀ lv, New hR c2 s m2 lv = .ok (some q, none)) ∧
      TcpReads hR q p.IPversion (p3.GetTCPBytes h3) p.SourceAddress p.DestinationAddress p.SourcePort.toNat p.DestPort.toNat
        (seqAfter p.tcpSeq ops).toNat (ackAfter p.tcpAck ops).toNat p.GetTCPFlags (keptOptions h p o ++ h1.bytes opts) (h1.bytes data) ∧
      (tcpSumAfter False ops → VerifyTCPChecksum hR q = .ok (true, hR)) ∧
      (p.IPversion = .V4 → ChecksumRight h p ∨ .updateIP ∈ ops → VerifyIPv4Checksum hR q = .ok (true, hR)) := by
  obtain ⟨h1, p1, e1, X⟩ := C152_exchange hv ha ht hn hd h4 grow
  obtain ⟨h1', p1', e1', hall⟩ := C58_attach_consistent hv ha ht hn hd h4 grow
  rw [e1] at e1'
  cases e1'
  refine ⟨h1, p1, e1, fun opts data hov hf hm4 hfit hsz => ?_⟩
  obtain ⟨h2, p2, e2, hc, q1, q2⟩ := attach_complete hv ha ht hn hd h4 grow e1 hov hf hm4 hfit hsz
  obtain ⟨h2', p2', e2', P⟩ := X opts data hov hf hm4 hfit hsz
  rw [e2] at e2'
  cases e2'
  obtain ⟨h2', p2', e2', A1, A2, A3, A4, A5, A6, A7, A8, A9⟩ := hall opts data hov hf hm4 hfit hsz
  rw [e2] at e2'
  cases e2'
  refine ⟨h2, p2, e2, fun ops hops => ?_⟩
  obtain ⟨h3, p3, e3, Q⟩ := adjusted_at_peer grow hc ops (fun op ho => by rw [A8]; exact hops op ho)
  refine ⟨h3, p3, e3, fun hR s c2 m2 hsv hsb => ?_⟩
  obtain ⟨q, n1, n2, n3, n4⟩ := Q hR s c2 m2 hsv hsb
  -- what the receiver would read without adjustments
  obtain ⟨r, r1, r2, _⟩ := P ⟨[p2.GetTCPBytes h2]⟩ ⟨0, 0, (p2.GetTCPBytes h2).length, (p2.GetTCPBytes h2).length⟩ 0 []
    (by unfold Slice.Valid; exact ⟨Nat.le_refl _, by show 0 + (p2.GetTCPBytes h2).length ≤ (p2.GetTCPBytes h2).length; omega⟩)
    (by show ((p2.GetTCPBytes h2).drop 0).take _ = _; rw [List.drop_zero, List.take_length])
  obtain ⟨h0, p0, e0, Q0⟩ := adjusted_at_peer grow hc [] (fun _ ho => nomatch ho)
  cases e0
  obtain ⟨r', r1', r2', _⟩ := Q0 ⟨[p2.GetTCPBytes h2]⟩ ⟨0, 0, (p2.GetTCPBytes h2).length, (p2.GetTCPBytes h2).length⟩ 0 []
    (by unfold Slice.Valid; exact ⟨Nat.le_refl _, by show 0 + (p2.GetTCPBytes h2).length ≤ (p2.GetTCPBytes h2).length; omega⟩)
    (by show ((p2.GetTCPBytes h2).drop 0).take _ = _; rw [List.drop_zero, List.take_length])
  have hrr := (r1 true).symm.trans (r1' true)
  simp only [Res.ok.injEq, Prod.mk.injEq, Option.some.injEq, and_true] at hrr
  subst hrr
  have num : ∀ {a b : U16}, a.toNat = b.toNat → a = b := fun x => BitVec.eq_of_toNat_eq x
  have g1 : p2.SourceAddress = p.SourceAddress := r2'.source.symm.trans r2.source
  have g2 : p2.DestinationAddress = p.DestinationAddress := r2'.dest.symm.trans r2.dest
  have g3 : p2.SourcePort.toNat = p.SourcePort.toNat := r2'.sport.symm.trans r2.sport
  have g4 : p2.DestPort.toNat = p.DestPort.toNat := r2'.dport.symm.trans r2.dport
  have g5 : p2.GetTCPFlags = p.GetTCPFlags := r2'.flag.symm.trans r2.flag
  have g6 : wholeData h2 p2 = h1.bytes data := A4
  have g7 : wholeOptions h2 p2 = keptOptions h p o ++ h1.bytes opts := by
    obtain ⟨h1', p1', e1', _, _, _, _, _, D6, _⟩ := C56_detach_splits hv ha ht hn hd h4
    rw [e1] at e1'
    cases e1'
    have hi := accepted_inv hv ha ht hn
    have hbl := Heap.bytes_length hi.buf
    have hol := Heap.bytes_length hov
    obtain ⟨d1, d2, d3⟩ := id hd
    have hge : 20 ≤ p.IPHeaderLen.toNat := hi.ge.1
    have hkl : (h2.bytes p2.buffer).length = p.IPHeaderLen.toNat + p.TCPDataStartBytes.toNat - o.toNat := by
      rw [A2.1, List.length_take]; omega
    have hkept : (keptOptions h p o).length = p.TCPDataStartBytes.toNat - 20 - o.toNat := by
      unfold keptOptions
      rw [List.length_take, List.length_drop]
      omega
    have hcut : p.IPHeaderLen.toNat + 20 + (p.TCPDataStartBytes.toNat - 20 - o.toNat)
        = p.IPHeaderLen.toNat + p.TCPDataStartBytes.toNat - o.toNat := by omega
    have hlen : p2.TCPDataStartBytes.toNat - 20 = p.TCPDataStartBytes.toNat - 20 - o.toNat + opts.len := by
      rw [A7, D6]; omega
    unfold wholeOptions
    rw [A9, hlen, List.take_add, List.drop_drop, hcut]
    congr 1
    · refine part_congr (fun j _ _ => ?_)
      rw [A1, List.append_assoc, List.getElem?_append_left (by omega),
        A2.2 _ (fun hy => hy.elim (fun hz => by have := hz.lt; omega) (fun hz => by omega)), List.getElem?_take, if_pos (by omega)]
    · rw [A1, List.append_assoc, ← hkl, List.drop_left', List.take_left' hol]
      rfl
  rw [A8, g1, g2, g3, g4, g5, g6, g7, q1, q2] at n2
  have mono : ∀ (l : List TcpOp) {x y : Prop}, (x → y) → tcpSumAfter x l → tcpSumAfter y l := by
    intro l
    induction l with
    | nil => intro x y hxy; exact hxy
    | cons o l ihl => intro x y hxy; cases o <;> first | exact fun z => z | exact ihl hxy
  refine ⟨q, n1, n2, fun x => n3 (mono ops False.elim x), fun x4 x => n4 (A8.trans x4) ?_⟩
  rcases x with x | x
  · exact .inl (A6 x)
  · exact .inr x

/-- C153 applies to an accepted packet of 52 bytes: after the sequence number is moved on, the acknowledgement number back and the checksums renewed,
the peer reads the numbers moved, the same ports and payload, and finds both checksums right. -/
theorem C153_example (grow : Nat → Nat) : ∃ h' p' q,
    runOps grow exHeap exPacket [.incSeq 7, .decAck 3, .updateTCP, .updateIP] = .ok (h', p') ∧
    New ⟨[p'.GetTCPBytes h']⟩ 0 ⟨0, 0, (p'.GetTCPBytes h').length, (p'.GetTCPBytes h').length⟩ [] true = .ok (some q, none) ∧
    q.tcpSeq.toNat = (exPacket.tcpSeq + 7).toNat ∧ q.tcpAck.toNat = (exPacket.tcpAck - 3).toNat ∧ q.SourcePort = exPacket.SourcePort ∧
    (∃ d, q.ReadTCPData = .ok d ∧ Heap.bytes ⟨[p'.GetTCPBytes h']⟩ d = [65, 66, 67, 68, 69, 70, 71, 72]) ∧
    VerifyTCPChecksum ⟨[p'.GetTCPBytes h']⟩ q = .ok (true, ⟨[p'.GetTCPBytes h']⟩) ∧
    VerifyIPv4Checksum ⟨[p'.GetTCPBytes h']⟩ q = .ok (true, ⟨[p'.GetTCPBytes h']⟩) := by
  obtain ⟨h', p', e, P⟩ := C153_adjusted_at_peer ex_valid ex_accepted rfl (by decide) (by decide) (by decide) grow
    [.incSeq 7, .decAck 3, .updateTCP, .updateIP] (by
      intro op ho
      simp only [List.mem_cons, List.not_mem_nil, or_false] at ho
      rcases ho with rfl | rfl | rfl | rfl
      · trivial
      · trivial
      · trivial
      · exact rfl)
  refine ⟨h', p', ?_⟩
  generalize p'.GetTCPBytes h' = B at *
  obtain ⟨q, n1, n2, n3, n4⟩ := P ⟨[B]⟩ ⟨0, 0, B.length, B.length⟩ 0 []
    (by unfold Slice.Valid; exact ⟨Nat.le_refl _, by show 0 + B.length ≤ B.length; omega⟩)
    (by show (B.drop 0).take B.length = B; rw [List.drop_zero, List.take_length])
  refine ⟨q, e, n1 true, n2.seqno, n2.ackno, BitVec.eq_of_toNat_eq n2.sport, ?_, n3 trivial, n4 rfl (.inr ?_)⟩
  · obtain ⟨d, d1, d2⟩ := n2.payload
    exact ⟨d, d1, d2.trans (by decide)⟩
  · simp

/-- C154 applies to it: the option taken off, four bytes and the packet's own data attached, the sequence number moved and the TCP checksum renewed. -/
theorem C154_example (grow : Nat → Nat) : ∃ h1 p1 h2 p2 h3 p3 q, TCPDataDetach exHeap exPacket 4 = .ok (h1, p1) ∧
    TCPDataAttach grow h1 p1.DropTCPDetachedBytes ⟨1, 0, 4, 4⟩ p1.GetTCPData = .ok (h2, p2, none) ∧
    runOps grow h2 p2 [.incSeq 4, .updateTCP] = .ok (h3, p3) ∧
    New ⟨[p3.GetTCPBytes h3]⟩ 0 ⟨0, 0, (p3.GetTCPBytes h3).length, (p3.GetTCPBytes h3).length⟩ [] true = .ok (some q, none) ∧
    q.tcpSeq.toNat = (exPacket.tcpSeq + 4).toNat ∧
    (∃ d, q.ReadTCPData = .ok d ∧ Heap.bytes ⟨[p3.GetTCPBytes h3]⟩ d = [65, 66, 67, 68, 69, 70, 71, 72]) ∧
    VerifyTCPChecksum ⟨[p3.GetTCPBytes h3]⟩ q = .ok (true, ⟨[p3.GetTCPBytes h3]⟩) ∧
    VerifyIPv4Checksum ⟨[p3.GetTCPBytes h3]⟩ q = .ok (true, ⟨[p3.GetTCPBytes h3]⟩) := by
  have hi := accepted_inv ex_valid ex_accepted rfl (by decide)
  obtain ⟨h1, p1, e1, hall⟩ := C154_attached_adjusted_at_peer ex_valid ex_accepted rfl (by decide) ex_detachable.1 (by decide) grow
  have hdk := Detachable.ok hi ex_detachable.1
  obtain ⟨h1', p1', e1', hD⟩ := Detach_full hi hdk
  rw [e1] at e1'
  cases e1'
  have hl : h1.arrayOf 1 = exHeap.arrayOf 1 := by
    apply List.ext_getElem?
    intro i
    exact hD.mem.2 1 i (fun hx => absurd hx.1 (by decide))
  have hov : (⟨1, 0, 4, 4⟩ : Slice).Valid h1 := by
    unfold Slice.Valid
    rw [hl]; decide
  have hb : p1.buffer = ⟨0, 0, 40, 52⟩ := by rw [hD.buf]; decide
  have hdd : p1.tcpData = ⟨0, 44, 8, 8⟩ := by rw [hD.data]; decide
  have hdb : h1.bytes p1.tcpData = [65, 66, 67, 68, 69, 70, 71, 72] := by
    rw [(hD.bytes hi hdk rfl rfl).1]; decide
  have hh : p1.ipHeaderLen = 20 := hD.hlen
  have ho : p1.tcpDataOffset.toNat = 5 := by rw [hD.off]; decide
  have ht : p1.ipTotalLength = 40 := by rw [hD.tot]; decide
  have hf : Foreign h1 p1 p1.GetTCPData := by
    refine ⟨hD.inv.data, .inr (.inr ?_)⟩
    show p1.buffer.off + p1.ipHeaderLen.toNat + 20 ≤ p1.tcpData.off
    rw [hb, hdd, hh]; decide
  obtain ⟨h2, p2, e2, hops⟩ := hall ⟨1, 0, 4, 4⟩ p1.GetTCPData hov hf (by decide)
    (by rw [hD.inv.dataStart, ho]; decide)
    (by show p1.ipTotalLength.toNat + 4 + p1.tcpData.len < 65536; rw [ht, hdd]; decide)
  obtain ⟨h3, p3, e3, P⟩ := hops [.incSeq 4, .updateTCP] (by
    intro op ho
    simp only [List.mem_cons, List.not_mem_nil, or_false] at ho
    rcases ho with rfl | rfl <;> trivial)
  refine ⟨h1, p1, h2, p2, h3, p3, ?_⟩
  generalize p3.GetTCPBytes h3 = B at *
  obtain ⟨q, n1, n2, n3, n4⟩ := P ⟨[B]⟩ ⟨0, 0, B.length, B.length⟩ 0 []
    (by unfold Slice.Valid; exact ⟨Nat.le_refl _, by show 0 + B.length ≤ B.length; omega⟩)
    (by show (B.drop 0).take B.length = B; rw [List.drop_zero, List.take_length])
  refine ⟨q, e1, e2, e3, n1 true, n2.seqno, ?_, n3 trivial, n4 rfl (.inl ex_checksum)⟩
  obtain ⟨d, d1, d2⟩ := n2.payload
  exact ⟨d, d1, d2.trans hdb⟩

/-- Adjusting calls on a complete packet are allowed. -/
theorem Complete.allowed (grow : Nat → Nat) (ops : List TcpOp) : ∀ {h : Heap} {p : Packet}, Complete h p →
    (∀ op ∈ ops, op.adjusts p.version) → AllAllowed grow h p ops := by
  induction ops with
  | nil => intro h p _ _; trivial
  | cons op t ih =>
    intro h p hc ha
    have hs := hc.size
    have hop := ha op List.mem_cons_self
    refine ⟨?_, fun h' p' e => ?_⟩
    · have hsz : p.buffer.len - p.ipHeaderLen.toNat + p.tcpOptions.len + p.tcpData.len < 65536 := by omega
      cases op <;> first | trivial | exact hop | exact hsz | exact hop.elim
    · obtain ⟨h1, p1, e1, A⟩ := adjust_step grow hc.inv (by omega) op hop
      rw [e] at e1
      cases e1
      obtain ⟨c1, _⟩ := A.complete hc
      have ev : p'.version = p.version := by rw [A.rest]
      exact ih c1 (fun o ho => by rw [ev]; exact ha o (List.mem_cons_of_mem _ ho))

end Verif.Packet
