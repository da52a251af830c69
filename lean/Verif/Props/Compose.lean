import Verif.Props.NfQueueVerdict
import Verif.Props.PacketCopy
import Verif.Props.PacketChecksum
/-! C109: packet library and queue library together: a rewritten packet reaches the kernel as rewritten. -/
namespace Verif.Props
open Verif.Sys Verif.Spec Verif.Common Verif.NfQueue Verif.Packet

theorem get_append {B X : List Byte} {i : Nat} {b : Byte} (h : B[i]? = some b) : (B ++ X)[i]? = some b := by
  obtain ⟨hl, he⟩ := List.getElem?_eq_some_iff.mp h
  rw [List.getElem?_append_left hl]; exact h

theorem be16_append {B X : List Byte} {i n : Nat} (h : be16 B i = some n) : be16 (B ++ X) i = some n := by
  unfold be16 num16 at h ⊢
  split at h
  · rename_i x y hx hy
    rw [get_append hx, get_append hy]; exact h
  · cases h

theorem be32_append {B X : List Byte} {i n : Nat} (h : be32 B i = some n) : be32 (B ++ X) i = some n := by
  unfold be32 num32 at h ⊢
  split at h
  · rename_i x y z u hx hy hz hu
    rw [get_append hx, get_append hy, get_append hz, get_append hu]; exact h
  · cases h

theorem part_append {B X : List Byte} {i n : Nat} (h : i + n ≤ B.length) :
    ((B ++ X).drop i).take n = (B.drop i).take n := by
  rw [List.drop_append_of_le_length (by omega), List.take_append_of_le_length (by simp; omega)]

/-- What is on the wire stays there when bytes follow. -/
theorem OnWire.append {p : Packet.Packet} {B : List Byte} (h : OnWire p B) (hp : p.IPProto = 6)
    (h4 : p.IPversion = .V4 → 20 ≤ B.length)
    (h6 : p.IPversion = .V6 → 40 ≤ B.length) (X : List Byte) : OnWire p (B ++ X) := by
  refine ⟨fun hv => ?_, fun hv => ?_, ?_, ?_, h.transport.other⟩
  · obtain ⟨a, b, c, d, e⟩ := h.ip4 hv
    have := h4 hv
    exact ⟨be16_append a, be16_append b, get_append c, by rw [part_append (by omega)]; exact d,
      by rw [part_append (by omega)]; exact e⟩
  · obtain ⟨⟨n, a, b⟩, c, d, e⟩ := h.ip6 hv
    have := h6 hv
    exact ⟨⟨n, be16_append a, b⟩, get_append c, by rw [part_append (by omega)]; exact d,
      by rw [part_append (by omega)]; exact e⟩
  · intro ht
    obtain ⟨a, b, c, d, ⟨x, e1, e2⟩, f, g⟩ := h.transport.tcp ht
    exact ⟨be16_append a, be16_append b, be32_append c, be32_append d, ⟨x, get_append e1, e2⟩, get_append f,
      be16_append g⟩
  · intro hu
    rw [hp] at hu
    exact absurd hu (by decide)

/-- C109. An application takes a packet of the queue (any slice `bytes` outside the queue's scratch header),
parses it, makes any allowed sequence of operations, and gives `SetVerdict2` the result of `GetTCPBytes`.
Then the kernel receives one message with the given verdict, mark and id, whose payload is the rewritten
packet: its headers say what the accessors say, and behind buffer and options come the data attached. -/
theorem C109_rewritten_packet (env : Env) (K : Kernel QEv) (qa verdict mark id : U32) (w : W) (qh : Handle)
    (hV : VReady w qh) {bytes : Slice} (hv : bytes.Valid w.heap) (hne : bytes.arr ≠ w.st.hdrSlice.arr)
    {c : U64} {m : List Char} {p : Packet.Packet} (ha : New w.heap c bytes m true = .ok (some p, none))
    (ht : p.IPProto = 6) (hn : bytes.len < 65536)
    (grow : Nat → Nat) (ops : List TcpOp) (hall : AllAllowed grow w.heap p ops) :
    ∃ h1 p1 s h2, runOps grow w.heap p ops = .ok (h1, p1) ∧ p1.GetTCPBytesMem grow h1 = (s, h2) ∧
      (s.len ≤ 65531 → ∃ b r w', setVerdict2 env K qa verdict mark (BitVec.ofNat 32 s.len) id s
          { w with heap := h2 } = .ok ((), w') ∧
        w'.trace = w.trace ++ [.sendmsg qh.fd b r] ∧
        decodeNf env.e b = some ⟨44 + s.len, 0x301, 1, 0, 0, 0, 0, w.st.queueNum.toNat,
          [verdictAttr env.e verdict.toNat id.toNat, markAttr mark.toNat, payloadAttr (h2.bytes s)]⟩ ∧
        OnWire p1 (h2.bytes s) ∧
        h2.bytes s = h1.bytes p1.buffer ++ h1.bytes p1.tcpOptions ++ h1.bytes p1.tcpData) := by
  obtain ⟨h1, p1, e1, hi, _, hf⟩ := runOps_frame grow ops (accepted_inv hv ha ht hn) hall
  obtain ⟨s1, s2, s3, s4⟩ := getTCPBytes_spec grow hi.buf (by have := hi.room; omega) hi.opts hi.data
  rcases hr : p1.GetTCPBytesMem grow h1 with ⟨s, h2⟩
  rw [hr] at s1 s2 s3 s4
  simp only at s1 s2 s3 s4
  refine ⟨h1, p1, s, h2, e1, hr, fun hl => ?_⟩
  obtain ⟨v1, v2, v3⟩ := hV
  have hx : w.st.hdrSlice.Valid h1 := (hf _ v2 (.inl (by rw [(accepted_place hv ha).1]; exact fun e => hne e.symm))).1
  have hx2 := (s3 _ hx).1
  have hlt : w.st.hdrSlice.arr < h1.arrays.length := Heap.lt_of_arrayOf_pos (by
    have := hx.1; have := hx.2; omega)
  have hsl : 1 ≤ s.len := by
    have e := congrArg List.length s1
    unfold Packet.GetTCPBytes at e
    rw [Heap.bytes_length s2, List.length_append, List.length_append, Heap.bytes_length hi.buf] at e
    have := hi.room
    omega
  obtain ⟨b, r, w', k1, k2, k3⟩ := C17_verdict2_partial env K qa verdict mark (BitVec.ofNat 32 s.len) id s
    { w with heap := h2 } qh ⟨v1, hx2, v3⟩ s2 (by show s.arr ≠ w.st.hdrSlice.arr; omega)
    (by rw [BitVec.toNat_ofNat]; omega) hsl hl
  refine ⟨b, r, w', k1, k2, k3, ?_, s1⟩
  rw [s1]
  unfold Packet.GetTCPBytes
  rw [List.append_assoc]
  have hbl := Heap.bytes_length hi.buf
  have hr2 := hi.room
  have hg := hi.ge
  exact OnWire.append hi.onWire hi.proto (fun _ => by omega) (fun h6 => by have := hg.2 h6; omega) _

theorem allowed_append (grow : Nat → Nat) (b : List TcpOp) : ∀ (a : List TcpOp) {h : Heap} {p : Packet.Packet},
    AllAllowed grow h p (a ++ b) → AllAllowed grow h p a ∧
      ∀ h' p', runOps grow h p a = .ok (h', p') → AllAllowed grow h' p' b ∧
        runOps grow h p (a ++ b) = runOps grow h' p' b
  | [], h, p, hall => ⟨trivial, fun h' p' he => by cases he; exact ⟨hall, rfl⟩⟩
  | op :: t, h, p, hall => by
    refine ⟨⟨hall.1, fun h' p' he => (allowed_append grow b t (hall.2 _ _ he)).1⟩, fun h' p' he => ?_⟩
    have he' : (op.run grow h p >>= fun r => runOps grow r.1 r.2 t) = .ok (h', p') := he
    rcases ho : op.run grow h p with ⟨h1, p1⟩ | _ | _
    · rw [ho, Res.ok_bind] at he'
      obtain ⟨k1, k2⟩ := (allowed_append grow b t (hall.2 _ _ ho)).2 _ _ he'
      refine ⟨k1, ?_⟩
      show (op.run grow h p >>= fun r => runOps grow r.1 r.2 (t ++ b)) = _
      rw [ho, Res.ok_bind]
      exact k2
    · rw [ho] at he'; cases he'
    · rw [ho] at he'; cases he'

/-- C109, with the checksum updated last and attached parts of even length (the last one excepted): the
payload the kernel receives carries the RFC 793/8200 checksum of that very payload. -/
theorem C109_checksummed {h : Heap} {bytes : Slice} (hv : bytes.Valid h)
    {c : U64} {m : List Char} {p : Packet.Packet} (ha : New h c bytes m true = .ok (some p, none))
    (ht : p.IPProto = 6) (hn : bytes.len < 65536) (grow : Nat → Nat) (ops : List TcpOp)
    (hall : AllAllowed grow h p (ops ++ [.updateTCP])) :
    ∃ h1 p1 s h2, runOps grow h p (ops ++ [.updateTCP]) = .ok (h1, p1) ∧ p1.GetTCPBytesMem grow h1 = (s, h2) ∧
      ((p1.buffer.len - p1.IPHeaderLen.toNat) % 2 = 0 ∨ (p1.TCPOptionLength = 0 ∧ p1.TCPDataLength = 0) →
        p1.TCPOptionLength % 2 = 0 ∨ p1.TCPDataLength = 0 →
        be16 (h2.bytes s) (p1.IPHeaderLen.toNat + 16) = some (rfcTcpChecksum p1.IPversion (h2.bytes s))) := by
  obtain ⟨a1, a2⟩ := allowed_append grow _ ops hall
  obtain ⟨h0, p0, e0, hi0, _, _⟩ := runOps_frame grow ops (accepted_inv hv ha ht hn) a1
  obtain ⟨b1, b2⟩ := a2 _ _ e0
  have hm := hi0.mem b1.1
  obtain ⟨h1, p1, u1, _, _, u4, u5, u6, u7⟩ := C54_update_tcp hm
  obtain ⟨s1, s2, s3, s4⟩ := getTCPBytes_spec grow u5.buf (by have := u5.room; omega) u5.opts u5.data
  rcases hr : p1.GetTCPBytesMem grow h1 with ⟨s, h2⟩
  rw [hr] at s1 s2 s3 s4
  simp only at s1 s2 s3 s4
  refine ⟨h1, p1, s, h2, b2.trans (res_bind (f := fun r : Heap × Packet.Packet => runOps grow r.1 r.2 []) u1 rfl), hr,
    fun c1 c2 => ?_⟩
  have ev : EvenParts ((h0.bytes p0.buffer).drop p0.IPHeaderLen.toNat) (h0.bytes p0.tcpOptions) (h0.bytes p0.tcpData) := by
    have l1 := Heap.bytes_length hm.buf
    have l2 := Heap.bytes_length hm.opts
    have l3 := Heap.bytes_length hm.data
    have c1' : (p0.buffer.len - p0.ipHeaderLen.toNat) % 2 = 0 ∨ (p0.tcpOptions.len = 0 ∧ p0.tcpData.len = 0) := by
      rw [u4] at c1; exact c1
    have c2' : p0.tcpOptions.len % 2 = 0 ∨ p0.tcpData.len = 0 := by rw [u4] at c2; exact c2
    refine ⟨?_, ?_⟩
    · rw [List.length_drop, l1]
      rcases c1' with k | ⟨k, k'⟩
      · exact .inl k
      · exact .inr ⟨List.eq_nil_of_length_eq_zero (by omega), List.eq_nil_of_length_eq_zero (by omega)⟩
    · rw [l2]
      rcases c2' with k | k
      · exact .inl k
      · exact .inr (List.eq_nil_of_length_eq_zero (by omega))
  have hver : p1.IPversion = p0.IPversion := by rw [u4]; rfl
  have hhl : p1.IPHeaderLen = p0.IPHeaderLen := by rw [u4]; rfl
  rw [s1, hver, hhl, u6, u7 ev]

/-- A queue whose scratch header is array 2, with the example packet in array 0. -/
def composeWorld : W :=
  { verdictWorld with
    heap := ⟨exHeap.arrays ++ [List.replicate 40 7]⟩
    st := { verdictWorld.st with hdrSlice := ⟨2, 0, 40, 40⟩ } }

/-- C109 applies to it: with 5 added to the sequence number 1, the kernel gets a packet with number 6. -/
theorem C109_example (qa : U32) : ∃ b r w' s h2, setVerdict2 someEnv yesKernel qa 1 9 52 77 s
      { composeWorld with heap := h2 } = .ok ((), w') ∧ w'.trace = [.sendmsg 3 b r] ∧
    (decodeNf .little b).map NfMsg.attrs =
      some [verdictAttr .little 1 77, markAttr 9, payloadAttr (h2.bytes s)] ∧
    be32 (h2.bytes s) 24 = some 6 ∧ be16 (h2.bytes s) 22 = some 80 := by
  have hv : (⟨0, 0, 52, 52⟩ : Slice).Valid composeWorld.heap := ⟨Nat.le_refl _, by decide⟩
  have ha : New composeWorld.heap 0 ⟨0, 0, 52, 52⟩ [] true = .ok (some exPacket, none) := by decide +kernel
  obtain ⟨h1, p1, s, h2, e1, e2, hall⟩ := C109_rewritten_packet someEnv yesKernel qa 1 9 77 composeWorld ⟨3, Slice.nil⟩
    ⟨rfl, ⟨Nat.le_refl _, by decide⟩, rfl⟩ hv (by decide) ha rfl (by decide) id [.incSeq 5] ⟨trivial, fun _ _ _ => trivial⟩
  have hi := accepted_inv hv ha rfl (by decide)
  have e0 := res_bind (f := fun r : Heap × Packet.Packet => runOps id r.1 r.2 []) (IncSeq_eq hi.buf (by decide) 5) rfl
  have e1' := e1
  cases e0.symm.trans e1
  have hi1 := (runOps_ok id [.incSeq 5] hi ⟨trivial, fun _ _ _ => trivial⟩)
  obtain ⟨hx, px, ex, hix, _⟩ := hi1
  cases e0.symm.trans ex
  have hsl : s.len = 52 := by
    obtain ⟨s1, s2, _, _⟩ := getTCPBytes_spec id hix.buf (by decide) hix.opts hix.data
    rw [e2] at s1 s2
    have e := congrArg List.length s1
    unfold Packet.GetTCPBytes at e
    rw [Heap.bytes_length s2, List.length_append, List.length_append, Heap.bytes_length hix.buf,
      Heap.bytes_length hix.opts, Heap.bytes_length hix.data] at e
    exact e
  obtain ⟨b, r, w', k1, k2, k3, k4, _⟩ := hall (by omega)
  rw [hsl] at k1
  obtain ⟨_, d, sq, _⟩ := k4.transport.tcp rfl
  refine ⟨b, r, w', s, h2, k1, k2, ?_, sq, d⟩
  have k3' : decodeNf .little b = _ := k3
  rw [k3']
  rfl

end Verif.Props
