import Verif.Props.PacketUdp
import Verif.Props.PacketHash
/-! C146: whole histories of UDP operations. -/
namespace Verif.Packet
open Verif.Spec

/-! ### Specification -/

/-- The exported operations that change a UDP packet. -/
inductive UdpOp where
  | detach
  | attachData (header data : Slice)
  | attachToken (marker token : Slice)
  | reverse
  | updateIP

/-- One call (common/packet/helpers.go:29-36, 272-346); memory and packet afterwards. -/
noncomputable def UdpOp.run (grow : Nat → Nat) (h : Heap) (p : Packet) : UdpOp → Res (Heap × Packet)
  | .detach => do let p ← UDPDataDetach p; .ok (h, p)
  | .attachData a b => UDPDataAttach grow h p a b
  | .attachToken a b => UDPTokenAttach grow h p a b
  | .reverse => CreateReverseFlowPacket h p
  | .updateIP => UpdateIPv4Checksum h p

/-- A whole history of calls. -/
noncomputable def runUdp (grow : Nat → Nat) (h : Heap) (p : Packet) : List UdpOp → Res (Heap × Packet)
  | [] => .ok (h, p)
  | op :: t => do
    let r ← op.run grow h p
    runUdp grow r.1 r.2 t

/-- The slices given to a call. -/
def UdpOp.args : UdpOp → List Slice
  | .attachData a b => [a, b]
  | .attachToken a b => [a, b]
  | _ => []

/-- What a UDP packet is: its endpoints, its payload, the lengths its IP and UDP headers state, and whether its IPv4
header checksum and its UDP checksum are known to be right. -/
structure UdpState where
  src : List Byte
  dst : List Byte
  sport : U16
  dport : U16
  payload : List Byte
  total : Nat
  udpLen : Nat
  sumOk : Prop
  udpSumOk : Prop

/-- What each call should do (`H`: length of the IP header; the given slices as they are in `h`): attaching adds at the end; `UDPDataAttach`
states the length there is, `UDPTokenAttach` adds to the length that was stated; detaching only cuts. -/
def UdpState.step (H : Nat) (h : Heap) (s : UdpState) : UdpOp → UdpState
  | .detach => { s with payload := [], udpSumOk := False }
  | .attachData a b =>
    let pl := s.payload ++ (h.bytes a ++ h.bytes b)
    { s with payload := pl, total := H + 8 + pl.length, udpLen := 8 + pl.length, udpSumOk := True }
  | .attachToken a b =>
    let pl := s.payload ++ (h.bytes a ++ h.bytes b)
    { s with payload := pl, total := (s.total + (a.len + b.len)) % 65536, udpLen := 8 + pl.length, udpSumOk := True }
  | .reverse => ⟨s.dst, s.src, s.dport, s.sport, [], H + 8, 8, True, True⟩
  | .updateIP => { s with sumOk := True }

/-- After a history. -/
def UdpState.run (H : Nat) (h : Heap) (s : UdpState) : List UdpOp → UdpState
  | [] => s
  | op :: t => (s.step H h op).run H h t

/-- `UpdateIPv4Checksum` is for IPv4 packets. -/
def UdpOp.allowed (v : IPver) : UdpOp → Prop
  | .updateIP => v = .V4
  | _ => True

/-- The packet never becomes longer than 65535 bytes, and `UpdateIPv4Checksum` is called on IPv4 packets only. -/
def Fits (v : IPver) (H : Nat) (h : Heap) (s : UdpState) : List UdpOp → Prop
  | [] => True
  | op :: t => H + 8 + (s.step H h op).payload.length < 65536 ∧ op.allowed v ∧
      Fits v H h (s.step H h op) t

/-- The packet is as the state says, in what it reports and on the wire. -/
structure UdpState.Shown (s : UdpState) (h : Heap) (p : Packet) : Prop where
  source : p.SourceAddress = s.src
  dest : p.DestinationAddress = s.dst
  sport : p.SourcePort = s.sport
  dport : p.DestPort = s.dport
  proto : p.IPProto = 17
  total : p.IPTotalLen.toNat = s.total
  /-- `GetUDPData` is the payload. -/
  data : ∃ d, p.GetUDPData = .ok d ∧ h.bytes d = s.payload
  /-- The packet is the headers and the payload. -/
  length : (h.bytes p.buffer).length = p.IPHeaderLen.toNat + 8 + s.payload.length
  payload : (h.bytes p.buffer).drop (p.IPHeaderLen.toNat + 8) = s.payload
  /-- The wire says the same. -/
  wire4 : p.IPversion = .V4 → ((h.bytes p.buffer).drop 12).take 4 = s.src ∧ ((h.bytes p.buffer).drop 16).take 4 = s.dst ∧
    be16 (h.bytes p.buffer) 2 = some s.total ∧ (h.bytes p.buffer)[9]? = some 17
  wire6 : p.IPversion = .V6 → ((h.bytes p.buffer).drop 8).take 16 = s.src ∧ ((h.bytes p.buffer).drop 24).take 16 = s.dst ∧
    be16 (h.bytes p.buffer) 4 = some ((s.total + 65496) % 65536) ∧ (h.bytes p.buffer)[6]? = some 17
  ports : be16 (h.bytes p.buffer) p.IPHeaderLen.toNat = some s.sport.toNat ∧
    be16 (h.bytes p.buffer) (p.IPHeaderLen.toNat + 2) = some s.dport.toNat
  ulen : be16 (h.bytes p.buffer) (p.IPHeaderLen.toNat + 4) = some s.udpLen
  sum : p.IPversion = .V4 → s.sumOk → ipv4ChecksumOk (h.bytes p.buffer)
  usum : s.udpSumOk → UdpSummed p.IPversion (h.bytes p.buffer)

/-- The lengths stated are those there are. -/
def UdpState.Consistent (H : Nat) (s : UdpState) : Prop := s.total = H + 8 + s.payload.length ∧ s.udpLen = 8 + s.payload.length

/-- An accepted packet, to begin with. -/
def UdpState.start (h : Heap) (p : Packet) : UdpState where
  src := p.SourceAddress
  dst := p.DestinationAddress
  sport := p.udpSourcePort
  dport := p.udpDestinationPort
  payload := (h.bytes p.buffer).drop (p.IPHeaderLen.toNat + 8)
  total := p.IPTotalLen.toNat
  udpLen := numAt (h.bytes p.buffer) (p.IPHeaderLen.toNat + 4)
  sumOk := ipv4ChecksumOk (h.bytes p.buffer)
  udpSumOk := UdpSummed p.IPversion (h.bytes p.buffer)

/-! ### One step -/

/-- The invariant. -/
structure Tracks (h0 : Heap) (a0 : Nat) (k : Option Byte) (v : IPver) (H : Nat) (args : List Slice) (s : UdpState) (h : Heap) (p : Packet) : Prop where
  inv : UdpInv h p
  first : (h.bytes p.buffer)[0]? = k
  ver : p.version = v
  hlen : p.ipHeaderLen.toNat = H
  src : p.sourceAddress = s.src
  dst : p.destinationAddress = s.dst
  sp : p.udpSourcePort = s.sport
  dp : p.udpDestinationPort = s.dport
  tot : p.ipTotalLength.toNat = s.total
  pay : (h.bytes p.buffer).drop (H + 8) = s.payload
  ulen : (u16at (h.bytes p.buffer) (H + 4)).toNat = s.udpLen
  sum : v = .V4 → s.sumOk → CsumOk (h.bytes p.buffer)
  usum : s.udpSumOk → UdpSummed v (h.bytes p.buffer)
  given : ∀ t ∈ args, t.Valid h ∧ Away p.buffer t ∧ h.bytes t = h0.bytes t
  other : ∀ t ∈ args, 0 < t.len → t.arr ≠ a0 → t.arr ≠ p.buffer.arr

theorem head_away {s t : Slice} {n : Nat} (ha : Away s t) : Away (head s n) t := ha

theorem grown_tracks {h0 : Heap} {a0 : Nat} {k : Option Byte} {v : IPver} {H : Nat} {args : List Slice} {s : UdpState} {h h' : Heap} {p p' : Packet}
    {data : List Byte} {new : U16} (hT : Tracks h0 a0 k v H args s h p) (hg : GrownTo h p data new h' p') :
    Tracks h0 a0 k v H args ⟨s.src, s.dst, s.sport, s.dport, s.payload ++ data, new.toNat,
      (BitVec.ofNat 16 (8 + (s.payload ++ data).length)).toNat, s.sumOk, True⟩ h' p' := by
  have hr := hT.inv.room
  have hbl := Heap.bytes_length hT.inv.buf
  have hlen := hg.len hT.inv
  have hH := hT.hlen
  have hpl : s.payload.length = p.buffer.len - (H + 8) := by rw [← hT.pay, List.length_drop, hbl]
  have hf : (h'.bytes p'.buffer)[0]? = k := by
    rw [hg.same.2 0 (fun hx => ?_), List.getElem?_append_left (by omega)]
    · exact hT.first
    · rcases hx with hx | hx
      · unfold LenField at hx
        cases hv : p.version <;> rw [hv] at hx <;> simp only at hx <;> omega
      · omega
  refine ⟨hg.inv, hf, hg.ver.trans hT.ver, by rw [hg.hlen]; exact hT.hlen, hg.src.trans hT.src, hg.dst.trans hT.dst, hg.sp.trans hT.sp,
    hg.dp.trans hT.dp, by rw [hg.states], ?_, ?_, ?_, ?_, ?_,
    fun t ht hl ha => hg.other t (hT.given t ht).1 hl (hT.other t ht hl ha)⟩
  · show (h'.bytes p'.buffer).drop (H + 8) = s.payload ++ data
    rw [← hH, hg.same.dropEq (n := p.ipHeaderLen.toNat + 8) (fun i hx => by rw [hT.inv.hdr.len]; exact hx.lt),
      List.drop_append_of_le_length (by omega), hH, hT.pay]
  · show (u16at (h'.bytes p'.buffer) (H + 4)).toNat = (BitVec.ofNat 16 (8 + (s.payload ++ data).length)).toNat
    rw [← hH, hg.ulen]
    congr 2
    rw [List.length_append]
    omega
  · intro h4 hs
    exact hg.ipcs (hT.ver.trans h4) (hT.sum h4 hs)
  · intro _
    have := hg.inv.summed (fun x => by rw [hg.hlen]; exact hg.cs4 (hg.ver.symm.trans x))
      (fun x => by rw [hg.hlen, hg.src, hg.dst]; exact hg.cs6 (hg.ver.symm.trans x))
    rw [hg.ver, hT.ver] at this
    exact this
  · intro t ht
    obtain ⟨a1, a2, a3⟩ := hT.given t ht
    obtain ⟨b1, b2⟩ := hg.frame t a1
    exact ⟨b1, hg.away t a1 a2, by rw [b2 (a2.clear _ _), a3]⟩

theorem step_tracks (grow : Nat → Nat) {h0 : Heap} {a0 : Nat} {k : Option Byte} {v : IPver} {H : Nat} {args : List Slice} {s : UdpState} {h : Heap} {p : Packet}
    (hT : Tracks h0 a0 k v H args s h p) (op : UdpOp) (ha : ∀ t ∈ op.args, t ∈ args)
    (hn : H + 8 + (s.step H h0 op).payload.length < 65536) (h4 : op.allowed v) :
    ∃ h' p', op.run grow h p = .ok (h', p') ∧ Tracks h0 a0 k v H args (s.step H h0 op) h' p' ∧ p'.l4flowhash = p.l4flowhash := by
  have hr := hT.inv.room
  have hbl := Heap.bytes_length hT.inv.buf
  have hH := hT.hlen
  have hge := hT.inv.hdr.ge
  have hpl : s.payload.length = p.buffer.len - (H + 8) := by rw [← hT.pay, List.length_drop, hbl]
  cases op with
  | detach =>
    obtain ⟨e, hb, hi⟩ := detach_inv hT.inv
    have hf : (h.bytes (head p.buffer (p.ipHeaderLen.toNat + 8)))[0]? = k := by
      rw [hb, List.getElem?_take, if_pos (by omega)]; exact hT.first
    refine ⟨h, _, res_bind e rfl, ⟨hi, hf, hT.ver, hT.hlen, hT.src, hT.dst, hT.sp, hT.dp, hT.tot, ?_, ?_, ?_, False.elim, ?_, hT.other⟩, rfl⟩
    · show (h.bytes (head p.buffer (p.ipHeaderLen.toNat + 8))).drop (H + 8) = []
      rw [hb]
      apply List.drop_eq_nil_of_le
      rw [List.length_take]
      omega
    · show (u16at (h.bytes (head p.buffer (p.ipHeaderLen.toNat + 8))) (H + 4)).toNat = s.udpLen
      rw [hb, u16at_take (by omega)]
      exact hT.ulen
    · intro hv4 hs
      show CsumOk (h.bytes (head p.buffer (p.ipHeaderLen.toNat + 8)))
      refine (CsumOk_congr ?_).mp (hT.sum hv4 hs)
      rw [hb, List.take_take, Nat.min_eq_left (by omega)]
    · intro t ht
      obtain ⟨a1, a2, a3⟩ := hT.given t ht
      exact ⟨a1, head_away a2, a3⟩
  | attachData a b =>
    obtain ⟨a1, a2, a3⟩ := hT.given a (ha a (List.mem_cons_self ..))
    obtain ⟨b1, b2, b3⟩ := hT.given b (ha b (List.mem_cons_of_mem _ (List.mem_cons_self ..)))
    have hal := Heap.bytes_length a1
    have hbbl := Heap.bytes_length b1
    simp only [UdpState.step, List.length_append, ← a3, ← b3] at hn
    have hdb : (h.append grow p.buffer (h.bytes a)).2.bytes b = h.bytes b :=
      ((append_edited grow hT.inv.buf (h.bytes a)).2.2.2 b b1).2 (b2.clear _ _)
    obtain ⟨h', p', e, G⟩ := Data_full grow hT.inv a1 b1 (by omega)
    rw [hdb] at G
    have K := grown_tracks hT G.toGrownTo
    refine ⟨h', p', e, ?_, G.hash⟩
    have hlen := G.len hT.inv
    rw [List.length_append] at hlen
    have e1 : p'.ipTotalLength.toNat = H + 8 + (s.payload ++ (h0.bytes a ++ h0.bytes b)).length := by
      rw [G.tot, hlen, List.length_append, List.length_append, ← a3, ← b3]
      omega
    have e2 : (BitVec.ofNat 16 (8 + (s.payload ++ (h.bytes a ++ h.bytes b)).length)).toNat =
        8 + (s.payload ++ (h0.bytes a ++ h0.bytes b)).length := by
      rw [← a3, ← b3, BitVec.toNat_ofNat, Nat.mod_eq_of_lt]
      rw [List.length_append, List.length_append]
      omega
    rw [e1, e2, a3, b3] at K
    exact K
  | attachToken a b =>
    obtain ⟨a1, a2, a3⟩ := hT.given a (ha a (List.mem_cons_self ..))
    obtain ⟨b1, b2, b3⟩ := hT.given b (ha b (List.mem_cons_of_mem _ (List.mem_cons_self ..)))
    have hal := Heap.bytes_length a1
    have hbbl := Heap.bytes_length b1
    simp only [UdpState.step, List.length_append, ← a3, ← b3] at hn
    obtain ⟨h', p', e, G⟩ := Token_any grow hT.inv a1 b1 (by omega)
    have K := grown_tracks hT G
    refine ⟨h', p', e, ?_, G.hash⟩
    have e1 : (p.ipTotalLength + BitVec.ofNat 16 (a.len + b.len)).toNat = (s.total + (a.len + b.len)) % 65536 := by
      rw [BitVec.toNat_add, BitVec.toNat_ofNat, hT.tot]
      omega
    have e2 : (BitVec.ofNat 16 (8 + (s.payload ++ (h.bytes a ++ h.bytes b)).length)).toNat =
        8 + (s.payload ++ (h0.bytes a ++ h0.bytes b)).length := by
      rw [← a3, ← b3, BitVec.toNat_ofNat, Nat.mod_eq_of_lt]
      rw [List.length_append, List.length_append]
      omega
    rw [e1, e2, a3, b3] at K
    exact K
  | reverse =>
    obtain ⟨h', p', e, R⟩ := Reverse_full hT.inv
    have hb : p'.buffer.len = p.ipHeaderLen.toNat + 8 := by rw [R.buf]; rfl
    have hf : (h'.bytes p'.buffer)[0]? = k := by
      rw [R.same.2 0 (fun hx => ?_), List.getElem?_take, if_pos (by omega)]
      · exact hT.first
      · unfold LenField hdrLen addrLen at hx
        cases hv : p.version <;> rw [hv] at hx <;> simp only at hx <;> omega
    refine ⟨h', p', e, ⟨R.inv, hf, R.ver.trans hT.ver, by rw [R.hlen]; exact hT.hlen, R.src.trans hT.dst, R.dst.trans hT.src,
      R.sp.trans hT.dp, R.dp.trans hT.sp, by rw [R.tot, hH]; rfl, ?_, ?_, ?_, ?_, ?_, by rw [R.buf]; exact hT.other⟩, R.hash⟩
    · apply List.drop_eq_nil_of_le
      rw [Heap.bytes_length R.inv.buf, hb]
      omega
    · rw [← hH, R.ulen]; rfl
    · intro hv4 _
      exact R.ipcs (hT.ver.trans hv4)
    · intro _
      have := R.inv.summed (fun x => by rw [R.hlen]; exact R.cs4 (R.ver.symm.trans x))
        (fun x => by rw [R.hlen, R.src, R.dst]; exact R.cs6 (R.ver.symm.trans x))
      rw [R.ver, hT.ver] at this
      exact this
    · intro t ht
      obtain ⟨a1, a2, a3⟩ := hT.given t ht
      obtain ⟨b1, b2⟩ := R.frame t a1
      refine ⟨b1, ?_, by rw [b2 (a2.clear _ _), a3]⟩
      rw [R.buf]
      exact head_away a2
  | updateIP =>
    have h4 : v = .V4 := h4
    have hv4 : p.version = .V4 := hT.ver.trans h4
    obtain ⟨h', c, e, B, E, S, M, C⟩ := updateV4_edited hT.inv.buf hT.inv.hdr (by omega) hT.inv.sync
    have e : UpdateIPv4Checksum h p = .ok (h', { p with ipChecksum := c }) := by
      have k : updateV4 h p = UpdateIPv4Checksum h p := by unfold updateV4; rw [hv4]
      rw [k] at e
      exact e
    refine ⟨h', { p with ipChecksum := c }, e, ⟨⟨E.valid, hT.inv.hdr, hT.inv.proto, ?_⟩, ?_, hT.ver, hT.hlen, hT.src, hT.dst, hT.sp, hT.dp,
      hT.tot, ?_, ?_, ?_, ?_, ?_, hT.other⟩, rfl⟩
    · show UdpSync _ (h'.bytes p.buffer)
      rw [E.bytes]; exact S
    · show (h'.bytes p.buffer)[0]? = k
      rw [E.bytes, M.2 0 (fun hx => ?_)]
      · exact hT.first
      · rw [hv4] at hx
        unfold LenField at hx
        simp only at hx
        omega
    · show (h'.bytes p.buffer).drop (H + 8) = s.payload
      rw [E.bytes, M.dropEq (n := H + 8) (fun i hx => by
        have := hx.lt; omega)]
      exact hT.pay
    · show (u16at (h'.bytes p.buffer) (H + 4)).toNat = s.udpLen
      rw [E.bytes, ← hT.ulen]
      have := M.dropEq (n := H + 4) (fun i hx => by have := hx.lt; omega)
      have k : ∀ X : List Byte, u16at X (H + 4) = u16at (X.drop (H + 4)) 0 := by
        intro X
        rw [u16at_drop]
      rw [k, this, ← k]
    · intro _ _
      show CsumOk (h'.bytes p.buffer)
      rw [E.bytes]
      exact C hv4
    · intro hu
      have hu := hT.usum hu
      rw [h4] at hu ⊢
      have hu : be16 (h.bytes p.buffer) 26 = some 0 := hu
      show be16 (h'.bytes p.buffer) 26 = some 0
      rw [E.bytes, ← hu]
      have := M.dropEq (n := 26) (fun i hx => by have := hx.lt; omega)
      have k : ∀ X : List Byte, be16 X 26 = be16 (X.drop 26) 0 := by
        intro X
        unfold be16 num16
        rw [List.getElem?_drop, List.getElem?_drop]
      rw [k, this, ← k]
    · intro t ht
      obtain ⟨a1, a2, a3⟩ := hT.given t ht
      obtain ⟨b1, b2⟩ := E.frame t a1
      exact ⟨b1, a2, by rw [b2 (a2.clear _ _), a3]⟩

theorem run_tracks (grow : Nat → Nat) {h0 : Heap} {a0 : Nat} {k : Option Byte} {v : IPver} {H : Nat} {args : List Slice} (ops : List UdpOp) :
    ∀ {s : UdpState} {h : Heap} {p : Packet}, Tracks h0 a0 k v H args s h p → (∀ op ∈ ops, ∀ t ∈ op.args, t ∈ args) →
      Fits v H h0 s ops → ∃ h' p', runUdp grow h p ops = .ok (h', p') ∧ Tracks h0 a0 k v H args (s.run H h0 ops) h' p' ∧
        p'.l4flowhash = p.l4flowhash := by
  induction ops with
  | nil => intro s h p hT _ _; exact ⟨h, p, rfl, hT, rfl⟩
  | cons op t ih =>
    intro s h p hT ha hf
    obtain ⟨h1, p1, e1, T1, f1⟩ := step_tracks grow hT op (ha op (List.mem_cons_self ..)) hf.1 hf.2.1
    obtain ⟨h2, p2, e2, T2, f2⟩ := ih T1 (fun o ho => ha o (List.mem_cons_of_mem _ ho)) hf.2.2
    exact ⟨h2, p2, res_bind e1 e2, T2, f2.trans f1⟩

theorem Tracks.shown {h0 : Heap} {a0 : Nat} {k : Option Byte} {v : IPver} {H : Nat} {args : List Slice} {s : UdpState} {h : Heap} {p : Packet}
    (hT : Tracks h0 a0 k v H args s h p) : s.Shown h p := by
  have hr := hT.inv.room
  have hbl := Heap.bytes_length hT.inv.buf
  have hH := hT.hlen
  have hp := hT.inv.proto
  have hge := hT.inv.hdr.ge
  have hpl : s.payload.length = p.buffer.len - (H + 8) := by rw [← hT.pay, List.length_drop, hbl]
  have hip : IPWire p.version p.ipTotalLength p.ipChecksum p.ipProto p.sourceAddress p.destinationAddress
    (h.bytes p.buffer) := hT.inv.sync.ip
  have hne : ¬ p.ipProto = IPProtocolTCP := by rw [hp]; decide
  refine ⟨hT.src, hT.dst, (if_neg hne).trans hT.sp, (if_neg hne).trans hT.dp, hp, hT.tot, ?_, ?_, ?_, ?_, ?_, ⟨?_, ?_⟩, ?_, ?_, ?_⟩
  · refine ⟨tail p.buffer (p.ipHeaderLen.toNat + 8), ?_, ?_⟩
    · unfold Packet.GetUDPData
      rw [hdr8 hT.inv.hdr, from_eq hT.inv.buf, if_pos hr]
    · rw [bytes_tail, hH]; exact hT.pay
  · show (h.bytes p.buffer).length = p.ipHeaderLen.toNat + 8 + s.payload.length
    omega
  · show (h.bytes p.buffer).drop (p.ipHeaderLen.toNat + 8) = s.payload
    rw [hH]; exact hT.pay
  · intro h4
    have h4 : p.version = .V4 := h4
    refine ⟨(hip.src4 h4).trans hT.src, (hip.dst4 h4).trans hT.dst, ?_, ?_⟩
    · rw [be16_u16at (by omega), hip.tot4 h4, hT.tot]
    · rw [u8at_some (by omega), hip.proto4 h4, hp]
  · intro h6
    have h6 : p.version = .V6 := h6
    refine ⟨(hip.src6 h6).trans hT.src, (hip.dst6 h6).trans hT.dst, ?_, ?_⟩
    · rw [be16_u16at (by omega), hip.tot6 h6, BitVec.toNat_sub, hT.tot]
      have k : (65536 - 40 + s.total) % 65536 = (s.total + 65496) % 65536 := by rw [Nat.add_comm]
      exact congrArg some k
    · rw [u8at_some (by omega), hip.proto6 h6, hp]
  · show be16 _ p.ipHeaderLen.toNat = _
    rw [be16_u16at (by omega), hT.inv.sync.sp, hT.sp]
  · show be16 _ (p.ipHeaderLen.toNat + 2) = _
    rw [be16_u16at (by omega), hT.inv.sync.dp, hT.dp]
  · show be16 _ (p.ipHeaderLen.toNat + 4) = _
    rw [be16_u16at (by omega), hH, hT.ulen]
  · intro h4 hs
    have h4 : p.version = .V4 := h4
    exact hT.inv.csum.mp (hT.sum (hT.ver.symm.trans h4) hs)
  · intro hs
    show UdpSummed p.version _
    rw [hT.ver]
    exact hT.usum hs

theorem start_tracks {h : Heap} {p : Packet} (hi : UdpInv h p) {args : List Slice} (ha : ∀ t ∈ args, t.Valid h ∧ Away p.buffer t) :
    Tracks h p.buffer.arr (h.bytes p.buffer)[0]? p.version p.ipHeaderLen.toNat args (UdpState.start h p) h p := by
  have hr := hi.room
  have hbl := Heap.bytes_length hi.buf
  refine ⟨hi, rfl, rfl, rfl, rfl, rfl, rfl, rfl, rfl, rfl, ?_, fun h4 hs => hi.csum.mpr hs, id,
    fun t ht => ⟨(ha t ht).1, (ha t ht).2, rfl⟩, fun t _ _ hx => hx⟩
  show _ = numAt (h.bytes p.buffer) (p.ipHeaderLen.toNat + 4)
  rw [numAt_eq (by omega)]

/-! ### C146 -/

/-- C146. On every accepted UDP packet that has room for its headers, every history of the exported operations (with arguments in memory the
packet does not extend over, and as long as the packet stays within 65535 bytes) runs through, and the packet is then, in what it reports and on
the wire, exactly what the history says.  First byte, version, header length and flow hash stay, slices outside the packet (the given ones among them) still hold what they held, and whenever the
stated lengths are those there are the packet is a complete UDP packet. -/
theorem C146_any_sequence {h : Heap} {bytes : Slice} (hv : bytes.Valid h) {c : U64} {m : List Char}
    {lv : Bool} {p : Packet} (ha : New h c bytes m lv = .ok (some p, none)) (hu : p.IPProto = 17)
    (hr : p.IPHeaderLen.toNat + 8 ≤ p.buffer.len) (grow : Nat → Nat) (ops : List UdpOp)
    (hargs : ∀ op ∈ ops, ∀ t ∈ op.args, t.Valid h ∧ Away p.buffer t)
    (hfit : Fits p.IPversion p.IPHeaderLen.toNat h (UdpState.start h p) ops) :
    ∃ h' p', runUdp grow h p ops = .ok (h', p') ∧
      ((UdpState.start h p).run p.IPHeaderLen.toNat h ops).Shown h' p' ∧
      p'.IPversion = p.IPversion ∧ p'.IPHeaderLen = p.IPHeaderLen ∧ p'.L4FlowHash = p.L4FlowHash ∧
      (h'.bytes p'.buffer)[0]? = (h.bytes p.buffer)[0]? ∧
      (∀ t : Slice, t.Valid h → Away p.buffer t → t.Valid h' ∧ h'.bytes t = h.bytes t ∧ Away p'.buffer t ∧
        (0 < t.len → t.arr ≠ p.buffer.arr → t.arr ≠ p'.buffer.arr)) ∧
      (((UdpState.start h p).run p.IPHeaderLen.toNat h ops).Consistent p.IPHeaderLen.toNat →
        UdpOnWire h' p' ((UdpState.start h p).run p.IPHeaderLen.toNat h ops).payload) := by
  have hi := (accepted_udp hv ha hu hr).1
  have T0 := start_tracks hi (args := ops.flatMap UdpOp.args) (fun t ht => by
    obtain ⟨op, h1, h2⟩ := List.mem_flatMap.mp ht
    exact hargs op h1 t h2)
  obtain ⟨h', p', e, T, f⟩ := run_tracks grow ops T0 (fun op ho t ht => List.mem_flatMap.mpr ⟨op, ho, ht⟩) hfit
  have hb := Heap.bytes_length T.inv.buf
  have hrm := T.inv.room
  have hhl : p'.ipHeaderLen = p.ipHeaderLen := BitVec.eq_of_toNat_eq T.hlen
  refine ⟨h', p', e, T.shown, T.ver, hhl, f, T.first,
    fun t ht hw => ?_, fun hc => ?_⟩
  · have T1 := start_tracks hi (args := t :: ops.flatMap UdpOp.args) (fun x hx => by
      rcases List.mem_cons.mp hx with rfl | hx
      · exact ⟨ht, hw⟩
      · obtain ⟨op, h1, h2⟩ := List.mem_flatMap.mp hx
        exact hargs op h1 x h2)
    obtain ⟨h1, p1, e1, T2, _⟩ := run_tracks grow ops T1
      (fun op ho x hx => List.mem_cons_of_mem _ (List.mem_flatMap.mpr ⟨op, ho, hx⟩)) hfit
    rw [e] at e1
    cases e1
    obtain ⟨a1, a2, a3⟩ := T2.given t (List.mem_cons_self ..)
    exact ⟨a1, a3, a2, T2.other t (List.mem_cons_self ..)⟩
  have hH := T.hlen
  obtain ⟨c1, c2⟩ := hc
  have c1 : ((UdpState.start h p).run p.ipHeaderLen.toNat h ops).total = p.ipHeaderLen.toNat + 8 + _ := c1
  have hpl := congrArg List.length T.pay
  rw [List.length_drop, hb] at hpl
  refine T.inv.wire ?_ ?_ ?_
  · rw [T.tot, c1]
    show _ = _
    have : ((UdpState.start h p).run p.IPHeaderLen.toNat h ops).payload.length =
      ((UdpState.start h p).run p.ipHeaderLen.toNat h ops).payload.length := rfl
    omega
  · rw [hH, T.ulen]
    refine Eq.trans c2 ?_
    have : ((UdpState.start h p).run p.IPHeaderLen.toNat h ops).payload.length =
      ((UdpState.start h p).run p.ipHeaderLen.toNat h ops).payload.length := rfl
    omega
  · rw [hH]; exact T.pay

/-- The calls that state the actual lengths, whatever was stated before. -/
def UdpOp.settles : UdpOp → Prop
  | .attachData _ _ => True
  | .reverse => True
  | _ => False

theorem run_append (H : Nat) (h : Heap) (xs ys : List UdpOp) : ∀ s : UdpState, s.run H h (xs ++ ys) = (s.run H h xs).run H h ys := by
  induction xs with
  | nil => intro s; rfl
  | cons op t ih => intro s; exact ih _

theorem settled (H : Nat) (h : Heap) {op : UdpOp} (ho : op.settles) (s : UdpState) : (s.step H h op).Consistent H := by
  cases op with
  | attachData a b => exact ⟨rfl, rfl⟩
  | reverse => exact ⟨rfl, rfl⟩
  | detach => exact ho.elim
  | attachToken _ _ => exact ho.elim
  | updateIP => exact ho.elim

theorem step_consistent {H : Nat} {h : Heap} {op : UdpOp} {s : UdpState} (hs : s.Consistent H) (hd : op ≠ .detach)
    (hv : ∀ t ∈ op.args, t.Valid h) (hn : H + 8 + (s.step H h op).payload.length < 65536) : (s.step H h op).Consistent H := by
  obtain ⟨c1, c2⟩ := hs
  cases op with
  | attachData a b => exact ⟨rfl, rfl⟩
  | reverse => exact ⟨rfl, rfl⟩
  | detach => exact absurd rfl hd
  | attachToken a b =>
    have ha := Heap.bytes_length (hv a (List.mem_cons_self ..))
    have hb := Heap.bytes_length (hv b (List.mem_cons_of_mem _ (List.mem_cons_self ..)))
    refine ⟨?_, rfl⟩
    have hn : H + 8 + (s.payload ++ (h.bytes a ++ h.bytes b)).length < 65536 := hn
    show (s.total + (a.len + b.len)) % 65536 = H + 8 + (s.payload ++ (h.bytes a ++ h.bytes b)).length
    rw [List.length_append, List.length_append, ha, hb] at hn ⊢
    rw [Nat.mod_eq_of_lt (by omega)]
    omega
  | updateIP => exact ⟨c1, c2⟩

theorem run_consistent {H : Nat} {h : Heap} {v : IPver} (ops : List UdpOp) : ∀ {s : UdpState}, s.Consistent H →
    (∀ op ∈ ops, op ≠ .detach) → (∀ op ∈ ops, ∀ t ∈ op.args, t.Valid h) → Fits v H h s ops → (s.run H h ops).Consistent H := by
  induction ops with
  | nil => intro s hs _ _ _; exact hs
  | cons op t ih =>
    intro s hs hd ha hf
    exact ih (step_consistent hs (hd op (List.mem_cons_self ..)) (ha op (List.mem_cons_self ..)) hf.1)
      (fun o ho => hd o (List.mem_cons_of_mem _ ho)) (fun o ho => ha o (List.mem_cons_of_mem _ ho)) hf.2.2

theorem Fits.right {v : IPver} {H : Nat} {h : Heap} (xs : List UdpOp) {ys : List UdpOp} : ∀ {s : UdpState},
    Fits v H h s (xs ++ ys) → Fits v H h (s.run H h xs) ys := by
  induction xs with
  | nil => intro s hf; exact hf
  | cons op t ih => intro s hf; exact ih hf.2.2

/-- C146, complete packets. Whatever went before, `UDPDataAttach` or `CreateReverseFlowPacket` makes the packet a complete UDP packet with the
payload and endpoints of the history, and it stays one until the next `UDPDataDetach`. -/
theorem C146_complete {h : Heap} {bytes : Slice} (hv : bytes.Valid h) {c : U64} {m : List Char}
    {lv : Bool} {p : Packet} (ha : New h c bytes m lv = .ok (some p, none)) (hu : p.IPProto = 17)
    (hr : p.IPHeaderLen.toNat + 8 ≤ p.buffer.len) (grow : Nat → Nat) (before after : List UdpOp) (op : UdpOp)
    (hs : op.settles) (hd : ∀ o ∈ after, o ≠ .detach)
    (hargs : ∀ o ∈ before ++ op :: after, ∀ t ∈ o.args, t.Valid h ∧ Away p.buffer t)
    (hfit : Fits p.IPversion p.IPHeaderLen.toNat h (UdpState.start h p) (before ++ op :: after)) :
    ∃ h' p', runUdp grow h p (before ++ op :: after) = .ok (h', p') ∧
      UdpOnWire h' p' ((UdpState.start h p).run p.IPHeaderLen.toNat h (before ++ op :: after)).payload ∧
      ((UdpState.start h p).run p.IPHeaderLen.toNat h (before ++ op :: after)).Shown h' p' ∧
      p'.IPTotalLen.toNat = (h'.bytes p'.buffer).length := by
  obtain ⟨h', p', e, S, _, HL, _, _, _, W⟩ := C146_any_sequence hv ha hu hr grow (before ++ op :: after) hargs hfit
  have hc : ((UdpState.start h p).run p.IPHeaderLen.toNat h (before ++ op :: after)).Consistent p.IPHeaderLen.toNat := ?_
  · refine ⟨h', p', e, W hc, S, ?_⟩
    rw [S.total, S.length, HL]
    exact hc.1
  rw [run_append]
  have hf := hfit.right before
  refine run_consistent after (settled _ h hs _) hd (fun o ho t ht => (hargs o ?_ t ht).1) hf.2.2
  exact List.mem_append_right _ (List.mem_cons_of_mem _ ho)

/-- C146, from the start. On a packet whose length was checked and whose UDP length is right, every history without `UDPDataDetach` leaves a
complete UDP packet. -/
theorem C146_without_detach {h : Heap} {bytes : Slice} (hv : bytes.Valid h) {c : U64} {m : List Char}
    {p : Packet} (ha : New h c bytes m true = .ok (some p, none)) (hu : p.IPProto = 17) (hb : bytes.len < 65536)
    (hr : p.IPHeaderLen.toNat + 8 ≤ p.buffer.len)
    (hl : numAt (h.bytes p.buffer) (p.IPHeaderLen.toNat + 4) = p.buffer.len - p.IPHeaderLen.toNat)
    (grow : Nat → Nat) (ops : List UdpOp) (hd : ∀ o ∈ ops, o ≠ .detach)
    (hargs : ∀ o ∈ ops, ∀ t ∈ o.args, t.Valid h ∧ Away p.buffer t)
    (hfit : Fits p.IPversion p.IPHeaderLen.toNat h (UdpState.start h p) ops) :
    ∃ h' p', runUdp grow h p ops = .ok (h', p') ∧
      UdpOnWire h' p' ((UdpState.start h p).run p.IPHeaderLen.toNat h ops).payload := by
  obtain ⟨h', p', e, S, _, _, _, _, _, W⟩ := C146_any_sequence hv ha hu hr grow ops hargs hfit
  obtain ⟨hi, _, _, _, htot⟩ := accepted_udp hv ha hu hr
  have hbl := Heap.bytes_length hi.buf
  refine ⟨h', p', e, W (run_consistent ops ⟨?_, ?_⟩ hd (fun o ho t ht => (hargs o ho t ht).1) hfit)⟩
  · show p.ipTotalLength.toNat = p.IPHeaderLen.toNat + 8 + ((h.bytes p.buffer).drop (p.IPHeaderLen.toNat + 8)).length
    rw [htot rfl hb, List.length_drop, hbl]
    omega
  · show numAt (h.bytes p.buffer) (p.IPHeaderLen.toNat + 4) = 8 + ((h.bytes p.buffer).drop (p.IPHeaderLen.toNat + 8)).length
    rw [hl, List.length_drop, hbl]
    omega

/-! ### C147 -/

/-- C147 is violated. Replacing the payload of a packet (its length checked, its UDP length right) by a marker and a token with `UDPDataDetach` and
`UDPTokenAttach` succeeds, but the IP header then states a total length that is too large by the length of the old payload: the packet sent is not
a complete UDP packet, unless there was no payload. -/
theorem C147_token_replaces_payload_violated {h : Heap} {bytes : Slice} (hv : bytes.Valid h) {c : U64} {m : List Char}
    {p : Packet} (ha : New h c bytes m true = .ok (some p, none)) (hu : p.IPProto = 17) (hb : bytes.len < 65536)
    (hr : p.IPHeaderLen.toNat + 8 ≤ p.buffer.len) (grow : Nat → Nat) {marker token : Slice}
    (hm : marker.Valid h) (ht : token.Valid h) (hn : p.buffer.len + marker.len + token.len < 65536) :
    ∃ p1 h2 p2, UDPDataDetach p = .ok p1 ∧ UDPTokenAttach grow h p1 marker token = .ok (h2, p2) ∧
      (h2.bytes p2.buffer).length = p.IPHeaderLen.toNat + 8 + marker.len + token.len ∧
      p2.IPTotalLen.toNat = (h2.bytes p2.buffer).length + (p.buffer.len - (p.IPHeaderLen.toNat + 8)) ∧
      (p.IPHeaderLen.toNat + 8 < p.buffer.len → ∀ data, ¬ UdpOnWire h2 p2 data) := by
  obtain ⟨hi, _, _, _, htot⟩ := accepted_udp hv ha hu hr
  obtain ⟨e1, b1, i1⟩ := detach_inv hi
  have hr : p.ipHeaderLen.toNat + 8 ≤ p.buffer.len := hr
  obtain ⟨h2, p2, e2, G⟩ := Token_any grow i1 hm ht (by
    show p.ipHeaderLen.toNat + 8 + marker.len + token.len < 65536
    omega)
  have hlen := G.len i1
  rw [List.length_append, Heap.bytes_length hm, Heap.bytes_length ht] at hlen
  have hlen : p2.buffer.len = p.ipHeaderLen.toNat + 8 + (marker.len + token.len) := hlen
  have hbl := Heap.bytes_length G.inv.buf
  have hst : p2.ipTotalLength.toNat = p.buffer.len + (marker.len + token.len) := by
    rw [G.states]
    exact add_len (htot rfl hb) (by omega)
  refine ⟨_, h2, p2, e1, e2, ?_, ?_, ?_⟩
  · show _ = p.ipHeaderLen.toNat + 8 + marker.len + token.len
    omega
  · show p2.ipTotalLength.toNat = _ + (p.buffer.len - (p.ipHeaderLen.toNat + 8))
    omega
  · intro hlt data hw
    have hlt : p.ipHeaderLen.toNat + 8 < p.buffer.len := hlt
    have hip : IPWire p2.version p2.ipTotalLength p2.ipChecksum p2.ipProto p2.sourceAddress p2.destinationAddress
      (h2.bytes p2.buffer) := G.inv.sync.ip
    have hw : UdpWire p2.version (h2.bytes p2.buffer) p2.sourceAddress p2.destinationAddress p2.udpSourcePort.toNat
      p2.udpDestinationPort.toNat data := hw
    have hge := hi.hdr.ge
    cases hv2 : p2.version with
    | V4 =>
      rw [hv2] at hw hip
      have := hw.total
      rw [be16_u16at (by omega), hip.tot4 rfl] at this
      simp only [Option.some.injEq] at this
      omega
    | V6 =>
      rw [hv2] at hw hip
      have h40 := G.inv.hdr.len
      rw [hv2] at h40
      have h40 : p2.ipHeaderLen.toNat = 40 := h40
      have hrm := G.inv.room
      have := hw.plen
      have hl6 := hw.length
      have hsub : (p2.ipTotalLength - 40).toNat = p2.ipTotalLength.toNat - 40 := by
        rw [BitVec.toNat_sub]
        have := p2.ipTotalLength.isLt
        show (65536 - 40 + _) % 65536 = _
        omega
      rw [be16_u16at (by omega), hip.tot6 rfl, hsub] at this
      simp only [Option.some.injEq] at this
      omega

/-! ### Concrete cases -/

/-- A history on `zPacket`: cut the payload, add marker and token, turn round, add the token twice. -/
def zOps : List UdpOp := [.detach, .attachToken ⟨1, 0, 20, 23⟩ ⟨1, 20, 3, 3⟩, .reverse, .attachToken ⟨1, 20, 3, 3⟩ ⟨1, 20, 1, 3⟩,
  .attachData ⟨1, 20, 3, 3⟩ ⟨1, 20, 3, 3⟩]

/-- C146 applies: the packet goes from [::2]:64499 to [::1]:1000 and carries QRSQQRSQRS. -/
theorem C146_example (grow : Nat → Nat) : ∃ h' p', runUdp grow zHeap zPacket zOps = .ok (h', p') ∧
    Udp6 (h'.bytes p'.buffer) [0, 0, 0, 0, 0, 0, 0, 0, 0, 0, 0, 0, 0, 0, 0, 2]
      [0, 0, 0, 0, 0, 0, 0, 0, 0, 0, 0, 0, 0, 0, 0, 1] 64499 1000 [81, 82, 83, 81, 81, 82, 83, 81, 82, 83] := by
  obtain ⟨h', p', e, S, V, _, _, _, _, W⟩ := C146_any_sequence z_valid z_accepted rfl (by decide) grow zOps
    (by
      intro op ho t ht
      have k : ∀ t ∈ zOps.flatMap UdpOp.args, t.Valid zHeap ∧ Away zPacket.buffer t := by unfold Slice.Valid Away; decide
      exact k t (List.mem_flatMap.mpr ⟨op, ho, ht⟩)) (by
      simp only [zOps, Fits, UdpState.step, UdpState.start, UdpOp.allowed]; decide +kernel)
  have hc : ((UdpState.start zHeap zPacket).run 40 zHeap zOps).payload = [81, 82, 83, 81, 81, 82, 83, 81, 82, 83] := by decide +kernel
  have W := W ⟨rfl, rfl⟩
  have V : p'.version = .V6 := V
  have W : UdpWire p'.version (h'.bytes p'.buffer) p'.sourceAddress p'.destinationAddress p'.udpSourcePort.toNat
    p'.udpDestinationPort.toNat ((UdpState.start zHeap zPacket).run 40 zHeap zOps).payload := W
  have s1 : p'.sourceAddress = [0, 0, 0, 0, 0, 0, 0, 0, 0, 0, 0, 0, 0, 0, 0, 2] := S.source
  have s2 : p'.destinationAddress = [0, 0, 0, 0, 0, 0, 0, 0, 0, 0, 0, 0, 0, 0, 0, 1] := S.dest
  have hne : ¬ p'.ipProto = IPProtocolTCP := by rw [show p'.ipProto = 17 from S.proto]; decide
  have s3 : p'.udpSourcePort = 64499 := (if_neg hne).symm.trans S.sport
  have s4 : p'.udpDestinationPort = 1000 := (if_neg hne).symm.trans S.dport
  rw [V, hc, s1, s2, s3, s4] at W
  exact ⟨h', p', e, W⟩

/-- C147 happens on it: 71 bytes that say they are 72. -/
theorem C147_example (grow : Nat → Nat) : ∃ p1 h2 p2, UDPDataDetach zPacket = .ok p1 ∧
    UDPTokenAttach grow zHeap p1 ⟨1, 0, 20, 23⟩ ⟨1, 20, 3, 3⟩ = .ok (h2, p2) ∧
    (h2.bytes p2.buffer).length = 71 ∧ p2.IPTotalLen.toNat = 72 ∧ ∀ data, ¬ UdpOnWire h2 p2 data := by
  obtain ⟨v1, v2, _, _, _⟩ := z_slices
  obtain ⟨p1, h2, p2, e1, e2, l, t, w⟩ := C147_token_replaces_payload_violated z_valid z_accepted rfl (by decide) (by decide) grow v1 v2
    (by decide)
  have l : (h2.bytes p2.buffer).length = 71 := l
  refine ⟨p1, h2, p2, e1, e2, l, ?_, w (by decide)⟩
  rw [t, l]; rfl

end Verif.Packet
