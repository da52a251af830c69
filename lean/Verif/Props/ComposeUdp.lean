import Verif.Props.Compose
import Verif.Props.PacketUdpPeer
/-! C150: packet library and queue library together, UDP: the kernel receives the edited packet. -/
namespace Verif.Props
open Verif.Sys Verif.Spec Verif.Common Verif.NfQueue Verif.Packet

/-- C150. An application takes a UDP packet of the queue (any slice `bytes` outside the queue's scratch header), parses it, makes any sequence of
calls that leaves a complete packet (C146), and gives `SetVerdict2` the packet's buffer.  Then the kernel receives one message with the given
verdict, mark and id whose payload is a complete UDP packet with the endpoints and the payload of the sequence of calls, over IPv4 with a right
header checksum if the sequence makes or keeps it right. -/
theorem C150_edited_packet (env : Env) (K : Kernel QEv) (qa verdict mark id : U32) (w : W) (qh : Handle)
    (hV : VReady w qh) {bytes : Slice} (hv : bytes.Valid w.heap) (hne : bytes.arr ≠ w.st.hdrSlice.arr)
    {c : U64} {m : List Char} {lv : Bool} {p : Packet.Packet} (ha : New w.heap c bytes m lv = .ok (some p, none)) (hu : p.IPProto = 17)
    (hr : p.IPHeaderLen.toNat + 8 ≤ p.buffer.len) (grow : Nat → Nat) (before after : List UdpOp) (op : UdpOp)
    (hs : op.settles) (hd : ∀ o ∈ after, o ≠ .detach)
    (hargs : ∀ o ∈ before ++ op :: after, ∀ t ∈ o.args, t.Valid w.heap ∧ Away p.buffer t)
    (hfit : Fits p.IPversion p.IPHeaderLen.toNat w.heap (UdpState.start w.heap p) (before ++ op :: after)) :
    ∃ h' p' s st, runUdp grow w.heap p (before ++ op :: after) = .ok (h', p') ∧ p'.GetBuffer 0 = .ok s ∧
      (UdpState.start w.heap p).run p.IPHeaderLen.toNat w.heap (before ++ op :: after) = st ∧
      s.len = p.IPHeaderLen.toNat + 8 + st.payload.length ∧
      (s.len ≤ 65531 → ∃ b r w', setVerdict2 env K qa verdict mark (BitVec.ofNat 32 s.len) id s
          { w with heap := h' } = .ok ((), w') ∧
        w'.trace = w.trace ++ [.sendmsg qh.fd b r] ∧
        decodeNf env.e b = some ⟨44 + s.len, 0x301, 1, 0, 0, 0, 0, w.st.queueNum.toNat,
          [verdictAttr env.e verdict.toNat id.toNat, markAttr mark.toNat, payloadAttr (h'.bytes s)]⟩ ∧
        UdpWire p.IPversion (h'.bytes s) st.src st.dst st.sport.toNat st.dport.toNat st.payload ∧
        FirstByte p.IPversion (h'.bytes s) ∧
        (st.udpSumOk → UdpSummed p.IPversion (h'.bytes s)) ∧
        (p.IPversion = .V4 → st.sumOk → ipv4ChecksumOk (h'.bytes s))) := by
  obtain ⟨h', p', e, W, S, L⟩ := C146_complete hv ha hu hr grow before after op hs hd hargs hfit
  obtain ⟨h'', p'', e', _, V, HL, _, F, A, _⟩ := C146_any_sequence hv ha hu hr grow (before ++ op :: after) hargs hfit
  rw [e] at e'
  cases e'
  obtain ⟨hi, _, hpb, hle, _⟩ := accepted_udp hv ha hu hr
  have hfb := accepted_first hv ha (by omega) hpb hle
  obtain ⟨v1, v2, v3⟩ := hV
  have hpa : p.buffer.arr = bytes.arr := by rw [hpb]; rfl
  obtain ⟨a1, _, _, a4⟩ := A w.st.hdrSlice v2 (.inl (by rw [hpa]; exact fun x => hne x.symm))
  have hother := a4 (by omega) (by rw [hpa]; exact fun x => hne x.symm)
  generalize hst : (UdpState.start w.heap p).run p.IPHeaderLen.toNat w.heap (before ++ op :: after) = st at *
  have V : p'.version = p.version := V
  have hbv : p'.buffer.Valid h' := by
    have hT := run_tracks grow (before ++ op :: after) (start_tracks hi (args := (before ++ op :: after).flatMap UdpOp.args) (fun t ht => by
      obtain ⟨o, h1, h2⟩ := List.mem_flatMap.mp ht
      exact hargs o h1 t h2)) (fun o ho t ht => List.mem_flatMap.mpr ⟨o, ho, ht⟩) hfit
    obtain ⟨h1, p1, e1, T, _⟩ := hT
    rw [e] at e1
    cases e1
    exact T.inv.buf
  have hbl := Heap.bytes_length hbv
  have hsb : h'.bytes (tail p'.buffer 0) = h'.bytes p'.buffer := by rw [bytes_tail, List.drop_zero]
  have hsl : (tail p'.buffer 0).len = p'.buffer.len := rfl
  refine ⟨h', p', tail p'.buffer 0, st, e, ?_, rfl, ?_, fun hl => ?_⟩
  · unfold Packet.Packet.GetBuffer
    rw [from_eq hbv, if_pos (Nat.zero_le _)]
  · rw [hsl, ← hbl, S.length, HL]
  · have hlen := S.length
    obtain ⟨b, r, w', k1, k2, k3⟩ := C17_verdict2_partial env K qa verdict mark (BitVec.ofNat 32 (tail p'.buffer 0).len) id
      (tail p'.buffer 0) { w with heap := h' } qh ⟨v1, a1, v3⟩ (tail_valid hbv (Nat.zero_le _))
      (fun x => hother x.symm) (by rw [BitVec.toNat_ofNat]; omega) (by omega) hl
    rw [hsb] at k3 ⊢
    have hnt : ¬ p'.ipProto = IPProtocolTCP := by rw [show p'.ipProto = 17 from S.proto]; decide
    have W : UdpWire p'.version (h'.bytes p'.buffer) p'.sourceAddress p'.destinationAddress p'.udpSourcePort.toNat
      p'.udpDestinationPort.toNat st.payload := W
    have s1 : p'.sourceAddress = st.src := S.source
    have s2 : p'.destinationAddress = st.dst := S.dest
    have s3 : p'.udpSourcePort = st.sport := (if_neg hnt).symm.trans S.sport
    have s4 : p'.udpDestinationPort = st.dport := (if_neg hnt).symm.trans S.dport
    rw [V, s1, s2, s3, s4] at W
    refine ⟨b, r, w', k1, k2, k3, W, ?_, fun hx => ?_, fun h4 hx => S.sum (V.trans h4) hx⟩
    · show FirstByte p.version _
      unfold FirstByte at hfb ⊢
      rw [F]; exact hfb
    · have := S.usum hx
      have this : UdpSummed p'.version (h'.bytes p'.buffer) := this
      rw [V] at this
      exact this

/-- A queue whose scratch header is array 2; array 0 holds the packet of `zHeap`, array 1 a marker and a token. -/
def composeUdpWorld : W :=
  { verdictWorld with
    heap := ⟨zHeap.arrays ++ [List.replicate 40 7]⟩
    st := { verdictWorld.st with hdrSlice := ⟨2, 0, 40, 40⟩ } }

/-- C150 applies to it: turned round and given marker and token, the kernel gets a packet of 71 bytes from [::2]:64499 to [::1]:1000. -/
theorem C150_example (qa : U32) : ∃ b r w' s h', setVerdict2 someEnv yesKernel qa 1 9 71 77 s { composeUdpWorld with heap := h' } = .ok ((), w') ∧
    w'.trace = [.sendmsg 3 b r] ∧
    (decodeNf .little b).map NfMsg.attrs = some [verdictAttr .little 1 77, markAttr 9, payloadAttr (h'.bytes s)] ∧
    Udp6 (h'.bytes s) [0, 0, 0, 0, 0, 0, 0, 0, 0, 0, 0, 0, 0, 0, 0, 2] [0, 0, 0, 0, 0, 0, 0, 0, 0, 0, 0, 0, 0, 0, 0, 1] 64499 1000
      (CreateUDPAuthMarker 0x2F ++ [81, 82, 83]) := by
  have hv : (⟨0, 0, 49, 49⟩ : Slice).Valid composeUdpWorld.heap := ⟨Nat.le_refl _, by decide⟩
  have ha : New composeUdpWorld.heap 0 ⟨0, 0, 49, 49⟩ [] true = .ok (some zPacket, none) := by decide +kernel
  obtain ⟨h', p', s, st, e1, e2, e3, e4, hall⟩ := C150_edited_packet someEnv yesKernel qa 1 9 77 composeUdpWorld ⟨3, Slice.nil⟩
    ⟨rfl, ⟨Nat.le_refl _, by decide⟩, rfl⟩ hv (by decide) ha rfl (by decide) id []
    [.attachToken ⟨1, 0, 20, 23⟩ ⟨1, 20, 3, 3⟩] .reverse trivial (by
      intro o ho
      cases List.mem_singleton.mp ho
      exact fun x => UdpOp.noConfusion x) (by
      intro o ho t ht
      have k : ∀ t ∈ ([] ++ UdpOp.reverse :: [.attachToken ⟨1, 0, 20, 23⟩ ⟨1, 20, 3, 3⟩]).flatMap UdpOp.args,
        t.Valid composeUdpWorld.heap ∧ Away zPacket.buffer t := by unfold Slice.Valid Away; decide
      exact k t (List.mem_flatMap.mpr ⟨o, ho, ht⟩)) (by
      simp only [List.nil_append, Fits, UdpState.step, UdpState.start, UdpOp.allowed]; decide +kernel)
  have hst : st.payload = CreateUDPAuthMarker 0x2F ++ [81, 82, 83] ∧ st.src = [0, 0, 0, 0, 0, 0, 0, 0, 0, 0, 0, 0, 0, 0, 0, 2] ∧
      st.dst = [0, 0, 0, 0, 0, 0, 0, 0, 0, 0, 0, 0, 0, 0, 0, 1] ∧ st.sport = 64499 ∧ st.dport = 1000 := by
    rw [← e3]
    refine ⟨by decide +kernel, rfl, rfl, rfl, rfl⟩
  obtain ⟨q1, q2, q3, q4, q5⟩ := hst
  have hsl : s.len = 71 := by rw [e4, q1]; decide +kernel
  obtain ⟨b, r, w', k1, k2, k3, k4, _⟩ := hall (by omega)
  rw [hsl] at k1
  rw [q1, q2, q3, q4, q5] at k4
  refine ⟨b, r, w', s, h', k1, k2, ?_, k4⟩
  have k3' : decodeNf .little b = _ := k3
  rw [k3']
  rfl

end Verif.Props
