import Verif.Props.PacketChecksum
import Verif.Props.PacketExamples
/-! C165: where a packet lies in memory does not matter. -/
namespace Verif.Packet.Moved
open Verif.Packet

/-- `q`, in the memory `g`, is `p`, in the memory `h`, lying somewhere else: every field is the same but the
slice the packet sits in, which has the same length and capacity and the same contents. -/
def Moved (h : Heap) (p : Packet) (g : Heap) (q : Packet) : Prop :=
  q = { p with buffer := q.buffer } ∧ q.buffer.len = p.buffer.len ∧ q.buffer.cap = p.buffer.cap
    ∧ g.bytes { q.buffer with len := q.buffer.cap } = h.bytes { p.buffer with len := p.buffer.cap }

/-- Two slices of the same length, capacity and contents, up to the capacity. -/
def Copy (h : Heap) (s : Slice) (g : Heap) (t : Slice) : Prop :=
  t.len = s.len ∧ t.cap = s.cap ∧ g.bytes { t with len := t.cap } = h.bytes { s with len := s.cap }

/-- Two results of parsing agree: both crash, or both return with the same error and packets that agree. -/
def Agree (h g : Heap) : Res (Packet × Option Err) → Res (Packet × Option Err) → Prop
  | .panic, .panic => True
  | .ok (p, e), .ok (q, e') => Moved h p g q ∧ e' = e
  | _, _ => False

theorem Copy.window {h g : Heap} {s t : Slice} (hc : Copy h s g t) : window g t = window h s := hc.2.2

theorem copy_head {h g : Heap} {s t : Slice} (hc : Copy h s g t) (n : Nat) : Copy h (head s n) g (head t n) :=
  ⟨rfl, hc.2.1, hc.2.2⟩

theorem moved_of {h g : Heap} {s t : Slice} (hc : Copy h s g t) (p : Packet) :
    Moved h { p with buffer := s } g { p with buffer := t } := ⟨rfl, hc⟩

theorem agree_transport {h g : Heap} {b b' s t : Slice} (hv : s.Valid h) (hv' : t.Valid g) (hc : Copy h s g t)
    (hb : b.Valid h) (hb' : b'.Valid g) (hcb : Copy h b g b') (p : Packet) :
    Agree h g (parseTransport h { p with buffer := b } s) (parseTransport g { p with buffer := b' } t) := by
  rw [parseTransport_eq hv (p := { p with buffer := b }) hb, parseTransport_eq hv' (p := { p with buffer := b' }) hb']
  simp only [hc.window, hc.1, hc.2.1, hcb.1]
  split
  · split
    · exact ⟨moved_of hcb p, rfl⟩
    · split
      · refine ⟨⟨?_, hcb⟩, rfl⟩
        simp only [withHash, fillTCP, hcb.1]
        rfl
      · trivial
  · split
    · split
      · exact ⟨moved_of hcb p, rfl⟩
      · split
        · exact ⟨⟨rfl, hcb⟩, rfl⟩
        · trivial
    · exact ⟨⟨rfl, hcb⟩, rfl⟩

theorem agree_checked {h g : Heap} {s t : Slice} (hc : Copy h s g t) (tot : U16) (lv : Bool) :
    (checkedBuf tot s lv = none ∧ checkedBuf tot t lv = none) ∨
      ∃ b b', checkedBuf tot s lv = some b ∧ checkedBuf tot t lv = some b' ∧ Copy h b g b' := by
  unfold checkedBuf
  rw [hc.1]
  split
  · split
    · exact .inr ⟨_, _, rfl, rfl, copy_head hc _⟩
    · exact .inl ⟨rfl, rfl⟩
  · exact .inr ⟨_, _, rfl, rfl, hc⟩

theorem agree4 {h g : Heap} {s t : Slice} (hv : s.Valid h) (hv' : t.Valid g) (hc : Copy h s g t) (c : U64)
    (m : List Char) (lv : Bool) :
    Agree h g (parseIPv4Packet h (start c m .V4) s lv) (parseIPv4Packet g (start c m .V4) t lv) := by
  have hnil : ∀ p : Packet, p.buffer = Slice.nil → Moved h p g p := by
    intro p hp
    refine ⟨rfl, rfl, rfl, ?_⟩
    rw [hp]; simp [Slice.nil, Heap.bytes]
  by_cases h20 : s.len < 20
  · unfold parseIPv4Packet
    rw [if_pos (by exact h20), if_pos (by rw [hc.1]; exact h20)]
    exact ⟨hnil _ rfl, rfl⟩
  · have h20' : 20 ≤ s.len := by omega
    have h20t : 20 ≤ t.len := by rw [hc.1]; exact h20'
    by_cases hl : (u8at (Packet.window h s) 0 &&& 0x0F) * 4 = (20 : Byte)
    · have hl' := hl
      rw [← hc.window] at hl'
      rw [parseIPv4_eq hv lv h20' hl, parseIPv4_eq hv' lv h20t hl', hc.window]
      rcases agree_checked hc (u16at (Packet.window h s) 2) lv with ⟨e1, e2⟩ | ⟨b, b', e1, e2, hcb⟩
      · rw [e1, e2]
        exact ⟨⟨rfl, hc⟩, rfl⟩
      · rw [e1, e2]
        exact agree_transport hv hv' hc (checkedBuf_valid hv e1).1 (checkedBuf_valid hv' e2).1 hcb
          (fill4 (start c m .V4) (Packet.window h s) s)
    · have hc1 := hv.1
      have hc2 := hv'.1
      have hl' := hl
      rw [← hc.window] at hl'
      unfold parseIPv4Packet
      rw [if_neg (by simp [minIPv4HdrSize]; omega), if_neg (by simp [minIPv4HdrSize]; omega)]
      simp only [at_eq hv, rd16_eq hv, rdN_eq, ipv4HdrLenPos, ipv4ProtoPos, ipv4LengthPos, ipv4IDPos,
        ipv4ChecksumPos, ipv4SourceAddrPos, ipv4DestAddrPos, at_eq hv', rd16_eq hv', hc.1, hc.2.1, hc.window]
      rw [if_pos (by omega), if_pos (by omega), if_pos (by omega), if_pos (by omega), if_pos (by omega),
        if_pos (by omega), if_pos (by omega)]
      simp only [Res.ok_bind, ipv4HdrLenMask]
      simp only [hl, show BitVec.ofNat 8 minIPv4HdrSize = (20 : Byte) from rfl, ne_eq, not_false_eq_true,
        if_true]
      exact ⟨hnil _ rfl, rfl⟩

theorem agree6 {h g : Heap} {s t : Slice} (hv : s.Valid h) (hv' : t.Valid g) (hc : Copy h s g t) (c : U64)
    (m : List Char) (lv : Bool) :
    Agree h g (parseIPv6Packet h (start c m .V6) s lv) (parseIPv6Packet g (start c m .V6) t lv) := by
  by_cases hq : 7 ≤ s.len ∧ 40 ≤ s.cap
  · have hq' : 7 ≤ t.len ∧ 40 ≤ t.cap := by rw [hc.1, hc.2.1]; exact hq
    rw [parseIPv6_eq hv lv hq.1 hq.2, parseIPv6_eq hv' lv hq'.1 hq'.2, hc.window, hc.1, hc.2.1]
    rcases agree_checked hc (40 + u16at (Packet.window h s) 4) lv with ⟨e1, e2⟩ | ⟨b, b', e1, e2, hcb⟩
    · rw [e1, e2]
      exact ⟨⟨rfl, hc⟩, rfl⟩
    · rw [e1, e2]
      simp only [hcb.1]
      split
      · split
        · have := agree_transport hv hv' hc (checkedBuf_valid hv e1).1 (checkedBuf_valid hv' e2).1 hcb
            (fillTCP (fill6 (start c m .V6) (Packet.window h s) b) (Packet.window h s) 40)
          have e : (fillTCP (fill6 (start c m .V6) (Packet.window h s) b') (Packet.window h s) 40)
              = { fillTCP (fill6 (start c m .V6) (Packet.window h s) b) (Packet.window h s) 40 with buffer := b' } := by
            simp only [fillTCP, fill6, hcb.1]
          rw [e]
          exact this
        · trivial
      · exact agree_transport hv hv' hc (checkedBuf_valid hv e1).1 (checkedBuf_valid hv' e2).1 hcb
          (fill6 (start c m .V6) (Packet.window h s) s)
  · have h1 := parseIPv6_crash (p := start c m .V6) (lv := lv) hv
    have h2 := parseIPv6_crash (p := start c m .V6) (lv := lv) hv'
    rw [h1 (by omega), h2 (by rw [hc.1, hc.2.1]; omega)]
    trivial

/-- C165: two slices of the same length, capacity and contents - in the same memory or in two, at any place -
are parsed alike: both calls crash, or both return, with the same error and with packets that agree in every
field and lie each in its own slice. -/
theorem C165_parse {h g : Heap} {s t : Slice} (hv : s.Valid h) (hv' : t.Valid g) (hc : Copy h s g t) (c : U64)
    (m : List Char) (lv : Bool) :
    (New h c s m lv = .panic ∧ New g c t m lv = .panic) ∨
      ∃ p q e, New h c s m lv = .ok (some p, e) ∧ New g c t m lv = .ok (some q, e) ∧ Moved h p g q := by
  rw [New_eq hv, New_eq hv', hc.window, hc.1]
  split
  · exact .inl ⟨rfl, rfl⟩
  · split
    · have ha := agree4 hv hv' hc c m lv
      revert ha
      cases parseIPv4Packet h (start c m .V4) s lv <;> cases parseIPv4Packet g (start c m .V4) t lv <;> intro ha
      all_goals first
        | exact ha.elim
        | exact .inl ⟨rfl, rfl⟩
        | exact .inr ⟨_, _, _, rfl, by rw [Res.ok_bind, ha.2], ha.1⟩
    · have ha := agree6 hv hv' hc c m lv
      revert ha
      cases parseIPv6Packet h (start c m .V6) s lv <;> cases parseIPv6Packet g (start c m .V6) t lv <;> intro ha
      all_goals first
        | exact ha.elim
        | exact .inl ⟨rfl, rfl⟩
        | exact .inr ⟨_, _, _, rfl, by rw [Res.ok_bind, ha.2], ha.1⟩

theorem moved_bytes {h g : Heap} {p q : Packet} (hm : Moved h p g q) (hl : p.buffer.len ≤ p.buffer.cap) :
    g.bytes q.buffer = h.bytes p.buffer := by
  obtain ⟨_, h1, h2, h3⟩ := hm
  have e : ∀ (x : Heap) (b : Slice), b.len ≤ b.cap → x.bytes b = (x.bytes { b with len := b.cap }).take b.len := by
    intro x b hb
    simp only [Heap.bytes, List.take_take, Nat.min_eq_left hb]
  rw [e g q.buffer (by omega), e h p.buffer hl, h3, h1]

/-- C165: for an accepted TCP packet: the copy is accepted too, is the same packet on the wire, and the checks
of the TCP and of the IPv4 checksum answer the same in both places. -/
theorem C165_accepted {h g : Heap} {s t : Slice} (hv : s.Valid h) (hv' : t.Valid g) (hc : Copy h s g t) {c : U64}
    {m : List Char} {p : Packet} (ha : New h c s m true = .ok (some p, none)) (ht : p.IPProto = 6)
    (hn : s.len < 65536) :
    ∃ q, New g c t m true = .ok (some q, none) ∧ Moved h p g q ∧ q.GetTCPBytes g = p.GetTCPBytes h ∧
      (∃ ok h' g', VerifyTCPChecksum h p = .ok (ok, h') ∧ VerifyTCPChecksum g q = .ok (ok, g')) ∧
      (p.IPversion = .V4 →
        ∃ ok h' g', VerifyIPv4Checksum h p = .ok (ok, h') ∧ VerifyIPv4Checksum g q = .ok (ok, g')) := by
  rcases C165_parse hv hv' hc c m true with ⟨h1, _⟩ | ⟨p', q, e, h1, h2, hm⟩
  · rw [h1] at ha; cases ha
  · rw [h1] at ha
    cases ha
    obtain ⟨hq, k1, k2, k3⟩ := id hm
    have mp := accepted_mem hv h1 ht hn
    have mq := accepted_mem hv' h2 (by rw [hq]; exact ht) (by rw [hc.1]; exact hn)
    have hl := mp.buf.1
    have np : p.tcpOptions = Slice.nil ∧ p.tcpData = Slice.nil := by
      obtain ⟨_, _, _, _, h5, h6, _⟩ := accepted_tcp hv h1 ht
      exact ⟨h5, h6⟩
    have ho : q.tcpOptions = Slice.nil := by rw [hq]; exact np.1
    have hd : q.tcpData = Slice.nil := by rw [hq]; exact np.2
    have hw : Packet.window g q.buffer = Packet.window h p.buffer := k3
    refine ⟨q, h2, hm, ?_, ⟨_, h, g, VerifyTCP_eq mp, ?_⟩, ?_⟩
    · unfold Packet.GetTCPBytes
      rw [moved_bytes hm hl, ho, hd, np.1, np.2]
      simp only [nil_bytes]
    · rw [VerifyTCP_eq mq, hw, ho, hd, np.1, np.2]
      simp only [nil_bytes]
      have e1 : q.tcpChecksum = p.tcpChecksum := by rw [hq]
      have e2 : tcpCks q (Packet.window h p.buffer) [] [] = tcpCks p (Packet.window h p.buffer) [] [] := by
        have a1 : q.version = p.version := by rw [hq]
        have a2 : q.ipHeaderLen = p.ipHeaderLen := by rw [hq]
        unfold tcpCks tcpSum wireAddrs
        rw [a1, a2, k1]
      rw [e1, e2]
    · intro h4
      have hv4 : p.version = .V4 := h4
      have h20 : p.ipHeaderLen = 20 := by
        rcases mp.hdr with ⟨_, e⟩ | ⟨e, _⟩
        · exact e
        · rw [hv4] at e; cases e
      have a2 : q.ipHeaderLen = 20 := by rw [hq]; exact h20
      have a3 : q.ipChecksum = p.ipChecksum := by rw [hq]
      have r := mp.room
      have hn20 : p.ipHeaderLen.toNat = 20 := by rw [h20]; rfl
      have x := VerifyIPv4_eq mq.buf a2 (by omega) (by omega)
      rw [hw, a3] at x
      exact ⟨_, _, _, VerifyIPv4_eq mp.buf h20 (by omega) (by omega), x⟩

/-- A packet at the start of a block of memory and its copy in another memory, 3 bytes into a block. -/
def exMoved : Heap := ⟨[[], [], [7, 7, 7] ++ exHeap.arrayOf 0]⟩

theorem C165_example : ∃ q, New exMoved 0 ⟨2, 3, 52, 52⟩ [] true = .ok (some q, none) ∧ q.tcpSeq = 1 ∧ q.tcpAck = 2 ∧
    q.GetTCPBytes exMoved = exHeap.arrayOf 0 := by
  obtain ⟨q, h1, h2, h3, _⟩ := C165_accepted (h := exHeap) (g := exMoved) (s := ⟨0, 0, 52, 52⟩) (t := ⟨2, 3, 52, 52⟩)
    ex_valid (by unfold Slice.Valid; decide) ⟨rfl, rfl, by decide +kernel⟩ ex_accepted rfl (by decide)
  refine ⟨q, h1, by rw [h2.1]; rfl, by rw [h2.1]; rfl, ?_⟩
  rw [h3]
  decide +kernel

end Verif.Packet.Moved
