import Verif.Props.PacketMoved
/-! C166: a packet accepted in one place is accepted wherever the same bytes are. -/
namespace Verif.Packet.Placed
open Verif.Packet

/-- Two slices of the same bytes. What follows them in memory, and how much of it is in their capacity, may differ. -/
def Same (h : Heap) (s : Slice) (g : Heap) (t : Slice) : Prop := t.len = s.len ∧ g.bytes t = h.bytes s

/-- `q`, in the memory `g`, is `p`, in the memory `h`, lying somewhere else: every field is the same but the
slice the packet sits in, which holds the same bytes. -/
def Moved (h : Heap) (p : Packet) (g : Heap) (q : Packet) : Prop :=
  q = { p with buffer := q.buffer } ∧ Same h p.buffer g q.buffer

/-- Two results of parsing agree: both crash, or both return with the same error and packets that agree. -/
def Agree (h g : Heap) : Res (Packet × Option Err) → Res (Packet × Option Err) → Prop
  | .panic, .panic => True
  | .ok (p, e), .ok (q, e') => Moved h p g q ∧ e' = e
  | _, _ => False

theorem Same.window {h g : Heap} {s t : Slice} (hv : s.Valid h) (hv' : t.Valid g) (hc : Same h s g t) :
    (window g t).take s.len = (window h s).take s.len := by
  have e := hc.2
  rw [bytes_eq_window hv, bytes_eq_window hv', hc.1] at e
  exact e

theorem fillTCP_same {p : Packet} {W V : List Byte} {n o : Nat} (e : V.take n = W.take n) (hn : o + 20 ≤ n) :
    fillTCP p V o = fillTCP p W o := by
  have k : ∀ U : List Byte, fillTCP p U o = fillTCP p (U.take n) o := by
    intro U
    unfold fillTCP
    rw [u16at_take (by omega), u16at_take (by omega), u16at_take (by omega), u32at_take (by omega),
      u32at_take (by omega), u8at_take (by omega), u8at_take (by omega)]
  rw [k V, k W, e]

theorem fillUDP_same {p : Packet} {W V : List Byte} {n o : Nat} (e : V.take n = W.take n) (hn : o + 20 ≤ n) :
    fillUDP p V o = fillUDP p W o := by
  have k : ∀ U : List Byte, fillUDP p U o = fillUDP p (U.take n) o := by
    intro U
    unfold fillUDP
    rw [u16at_take (by omega), u16at_take (by omega), u16at_take (by omega)]
  rw [k V, k W, e]

theorem fill4_same {p : Packet} {W V : List Byte} {b : Slice} {n : Nat} (e : V.take n = W.take n) (hn : 40 ≤ n) :
    fill4 p V b = fill4 p W b := by
  have k : ∀ U : List Byte, fill4 p U b = fill4 p (U.take n) b := by
    intro U
    unfold fill4
    rw [u16at_take (by omega), u16at_take (by omega), u16at_take (by omega), u8at_take (by omega),
      part_take (by omega), part_take (by omega)]
  rw [k V, k W, e]

theorem fill6_same {p : Packet} {W V : List Byte} {b : Slice} {n : Nat} (e : V.take n = W.take n) (hn : 60 ≤ n) :
    fill6 p V b = fill6 p W b := by
  have k : ∀ U : List Byte, fill6 p U b = fill6 p (U.take n) b := by
    intro U
    unfold fill6
    rw [u16at_take (by omega), u8at_take (by omega), part_take (by omega), part_take (by omega)]
  rw [k V, k W, e]

theorem u16_same {W V : List Byte} {n i : Nat} (e : V.take n = W.take n) (hn : i + 1 < n) : u16at V i = u16at W i := by
  rw [← u16at_take hn, e, u16at_take hn]

theorem u8_same {W V : List Byte} {n i : Nat} (e : V.take n = W.take n) (hn : i < n) : u8at V i = u8at W i := by
  rw [← u8at_take hn, e, u8at_take hn]

theorem agree_transport {h g : Heap} {b b' s t : Slice} (hv : s.Valid h) (hv' : t.Valid g) (hc : Same h s g t)
    (hb : b.Valid h) (hb' : b'.Valid g) (hcb : Same h b g b') (p : Packet) (ho : p.ipHeaderLen.toNat + 20 ≤ s.len) :
    Agree h g (parseTransport h { p with buffer := b } s) (parseTransport g { p with buffer := b' } t) := by
  rw [parseTransport_eq hv (p := { p with buffer := b }) hb, parseTransport_eq hv' (p := { p with buffer := b' }) hb']
  have e := hc.window hv hv'
  have l1 := hv.1
  have l2 := hv'.1
  have l3 := hc.1
  have l4 := hcb.1
  simp only [fillTCP_same e ho, fillUDP_same e ho]
  have c1 : (p.ipHeaderLen.toNat + 14 ≤ s.len ∧ p.ipHeaderLen.toNat + 18 ≤ s.cap ∧ p.ipHeaderLen.toNat ≤ b.len)
      ↔ p.ipHeaderLen.toNat ≤ b.len := by omega
  have c2 : (p.ipHeaderLen.toNat + 14 ≤ t.len ∧ p.ipHeaderLen.toNat + 18 ≤ t.cap ∧ p.ipHeaderLen.toNat ≤ b'.len)
      ↔ p.ipHeaderLen.toNat ≤ b.len := by omega
  have c3 : (p.ipHeaderLen.toNat ≤ s.len ∧ p.ipHeaderLen.toNat + 8 ≤ s.cap) ↔ True := by
    refine ⟨fun _ => trivial, fun _ => ?_⟩; omega
  have c4 : (p.ipHeaderLen.toNat ≤ t.len ∧ p.ipHeaderLen.toNat + 8 ≤ t.cap) ↔ True := by
    refine ⟨fun _ => trivial, fun _ => ?_⟩; omega
  simp only [c1, c2, c3, c4, if_true]
  split
  · split
    · exact ⟨⟨rfl, hcb⟩, rfl⟩
    · split
      · refine ⟨⟨?_, hcb⟩, rfl⟩
        simp only [withHash, fillTCP, hcb.1]
        rfl
      · trivial
  · split
    · split
      · exact ⟨⟨rfl, hcb⟩, rfl⟩
      · exact ⟨⟨rfl, hcb⟩, rfl⟩
    · exact ⟨⟨rfl, hcb⟩, rfl⟩

theorem same_head {h g : Heap} {s t : Slice} (hc : Same h s g t) {n : Nat} (hn : n ≤ s.len) :
    Same h (head s n) g (head t n) := by
  refine ⟨rfl, ?_⟩
  have k : ∀ (x : Heap) (b : Slice), n ≤ b.len → x.bytes (head b n) = (x.bytes b).take n := by
    intro x b hb
    simp only [Heap.bytes, head, List.take_take, Nat.min_eq_left hb]
  rw [k g t (by rw [hc.1]; exact hn), k h s hn, hc.2]

theorem agree_checked {h g : Heap} {s t : Slice} (hc : Same h s g t) (tot : U16) (lv : Bool) :
    (checkedBuf tot s lv = none ∧ checkedBuf tot t lv = none) ∨
      ∃ b b', checkedBuf tot s lv = some b ∧ checkedBuf tot t lv = some b' ∧ Same h b g b' := by
  unfold checkedBuf
  rw [hc.1]
  split
  · split
    · rename_i hlt
      have h1 := BitVec.lt_def.mp hlt
      have h2 := ofNat16_le s.len
      exact .inr ⟨_, _, rfl, rfl, same_head hc (by omega)⟩
    · exact .inl ⟨rfl, rfl⟩
  · exact .inr ⟨_, _, rfl, rfl, hc⟩

theorem agree4 {h g : Heap} {s t : Slice} (hv : s.Valid h) (hv' : t.Valid g) (hc : Same h s g t) (c : U64)
    (m : List Char) (lv : Bool) (hn : 40 ≤ s.len) (hl : (u8at (Packet.window h s) 0 &&& 0x0F) * 4 = (20 : Byte)) :
    Agree h g (parseIPv4Packet h (start c m .V4) s lv) (parseIPv4Packet g (start c m .V4) t lv) := by
  have e := hc.window hv hv'
  have hl' := hl
  rw [← u8_same e (by omega)] at hl'
  rw [parseIPv4_eq hv lv (by omega) hl, parseIPv4_eq hv' lv (by rw [hc.1]; omega) hl', u16_same e (by omega)]
  simp only [fill4_same e hn]
  rcases agree_checked hc (u16at (Packet.window h s) 2) lv with ⟨e1, e2⟩ | ⟨b, b', e1, e2, hcb⟩
  · rw [e1, e2]
    exact ⟨⟨rfl, hc⟩, rfl⟩
  · rw [e1, e2]
    exact agree_transport hv hv' hc (checkedBuf_valid hv e1).1 (checkedBuf_valid hv' e2).1 hcb
      (fill4 (start c m .V4) (Packet.window h s) s) (by show 20 + 20 ≤ s.len; omega)

theorem agree6 {h g : Heap} {s t : Slice} (hv : s.Valid h) (hv' : t.Valid g) (hc : Same h s g t) (c : U64)
    (m : List Char) (lv : Bool) (hn : 60 ≤ s.len) :
    Agree h g (parseIPv6Packet h (start c m .V6) s lv) (parseIPv6Packet g (start c m .V6) t lv) := by
  have e := hc.window hv hv'
  have l1 := hv.1
  have l2 := hv'.1
  have l3 := hc.1
  rw [parseIPv6_eq hv lv (by omega) (by omega), parseIPv6_eq hv' lv (by omega) (by omega), u16_same e (by omega), hc.1]
  simp only [fill6_same e hn, fillTCP_same e (o := 40) (by omega)]
  rcases agree_checked hc (40 + u16at (Packet.window h s) 4) lv with ⟨e1, e2⟩ | ⟨b, b', e1, e2, hcb⟩
  · rw [e1, e2]
    exact ⟨⟨rfl, hc⟩, rfl⟩
  · rw [e1, e2]
    have l4 := hcb.1
    have c1 : (40 + 14 ≤ s.len ∧ 40 + 18 ≤ s.cap ∧ 40 ≤ b.len) ↔ 40 ≤ b.len := by omega
    have c2 : (40 + 14 ≤ s.len ∧ 40 + 18 ≤ t.cap ∧ 40 ≤ b'.len) ↔ 40 ≤ b.len := by omega
    simp only [c1, c2]
    split
    · split
      · have := agree_transport hv hv' hc (checkedBuf_valid hv e1).1 (checkedBuf_valid hv' e2).1 hcb
          (fillTCP (fill6 (start c m .V6) (Packet.window h s) b) (Packet.window h s) 40) (by show 40 + 20 ≤ s.len; omega)
        have e' : (fillTCP (fill6 (start c m .V6) (Packet.window h s) b') (Packet.window h s) 40)
            = { fillTCP (fill6 (start c m .V6) (Packet.window h s) b) (Packet.window h s) 40 with buffer := b' } := by
          simp only [fillTCP, fill6, hcb.1]
        rw [e']
        exact this
      · trivial
    · exact agree_transport hv hv' hc (checkedBuf_valid hv e1).1 (checkedBuf_valid hv' e2).1 hcb
        (fill6 (start c m .V6) (Packet.window h s) s) (by show 40 + 20 ≤ s.len; omega)

/-- C166: an accepted TCP packet (below 64 KiB) is accepted from every slice of the same bytes, wherever it lies
and whatever follows it in memory, as the same packet. -/
theorem C166_bytes {h g : Heap} {s t : Slice} (hv : s.Valid h) (hv' : t.Valid g) (hlen : t.len = s.len)
    (hbytes : g.bytes t = h.bytes s) {c : U64} {m : List Char} {p : Packet}
    (ha : New h c s m true = .ok (some p, none)) (ht : p.IPProto = 6) (hn : s.len < 65536) :
    ∃ q, New g c t m true = .ok (some q, none) ∧ q = { p with buffer := q.buffer } ∧
      g.bytes q.buffer = h.bytes p.buffer ∧ q.GetTCPBytes g = p.GetTCPBytes h := by
  have hc : Same h s g t := ⟨hlen, hbytes⟩
  have e := hc.window hv hv'
  obtain ⟨_, _, hh, _, ho, hd, _, _, hle, _, hr⟩ := accepted_tcp hv ha ht
  obtain ⟨_, room⟩ := hr rfl hn
  have finish : (∃ q, New g c t m true = .ok (some q, none) ∧ Moved h p g q) → ∃ q, New g c t m true = .ok (some q, none) ∧
      q = { p with buffer := q.buffer } ∧ g.bytes q.buffer = h.bytes p.buffer ∧ q.GetTCPBytes g = p.GetTCPBytes h := by
    rintro ⟨q, k1, k2, k3⟩
    refine ⟨q, k1, k2, k3.2, ?_⟩
    have o1 : q.tcpOptions = Slice.nil := by rw [k2]; exact ho
    have o2 : q.tcpData = Slice.nil := by rw [k2]; exact hd
    unfold Packet.GetTCPBytes
    rw [k3.2, o1, o2, ho, hd]
    simp only [nil_bytes]
  apply finish
  have h20 : 20 ≤ p.ipHeaderLen.toNat := by
    rcases hh with ⟨_, e⟩ | ⟨_, e⟩ <;> rw [e] <;> decide
  have ha0 := ha
  rw [New_eq hv, if_neg (by omega)] at ha
  rw [New_eq hv', if_neg (by omega), u8_same e (by omega)]
  by_cases h4 : u8at (Packet.window h s) 0 &&& 0xF0 = 0x40
  · rw [if_pos h4] at ha
    rw [if_pos h4]
    by_cases hl : (u8at (Packet.window h s) 0 &&& 0x0F) * 4 = (20 : Byte)
    · have ag := agree4 hv hv' hc c m true (by omega) hl
      revert ag ha
      cases parseIPv4Packet h (start c m .V4) s true <;> cases parseIPv4Packet g (start c m .V4) t true <;> intro ha ag
      all_goals first
        | exact ag.elim
        | cases ha; done
        | (rename_i a b
           have hx : a.1 = p ∧ a.2 = none := by simpa [Res.ok_bind] using ha
           exact ⟨b.1, by rw [Res.ok_bind, ag.2, hx.2], hx.1 ▸ ag.1⟩)
    · obtain ⟨q, er, hq⟩ := parseIPv4_options (p := start c m .V4) (lv := true) hv (by omega) hl
      rw [hq] at ha
      cases ha
  · rw [if_neg h4] at ha
    rw [if_neg h4]
    have h6 : 60 ≤ s.len := by
      rcases hh with ⟨hver, _⟩ | ⟨_, e40⟩
      · have k := (C47_ipv4_fields hv ha0 hver).1
        exact absurd (by unfold u8at; rw [k]; decide) h4
      · have : p.ipHeaderLen.toNat = 40 := by rw [e40]; rfl
        omega
    have ag := agree6 hv hv' hc c m true h6
    revert ag ha
    cases parseIPv6Packet h (start c m .V6) s true <;> cases parseIPv6Packet g (start c m .V6) t true <;> intro ha ag
    all_goals first
      | exact ag.elim
      | cases ha; done
      | (rename_i a b
         have hx : a.1 = p ∧ a.2 = none := by simpa [Res.ok_bind] using ha
         exact ⟨b.1, by rw [Res.ok_bind, ag.2, hx.2], hx.1 ▸ ag.1⟩)

/-- The packet as the whole of a block, and as the start of a read buffer with old bytes after it. -/
def exReused : Heap := ⟨[[], exHeap.arrayOf 0 ++ [9, 9, 9, 9, 9]]⟩

theorem C166_example : ∃ q, New exReused 0 ⟨1, 0, 52, 57⟩ [] true = .ok (some q, none) ∧ q.tcpSeq = 1 ∧
    q.GetTCPBytes exReused = exHeap.arrayOf 0 := by
  obtain ⟨q, h1, h2, _, h4⟩ := C166_bytes (h := exHeap) (g := exReused) (s := ⟨0, 0, 52, 52⟩) (t := ⟨1, 0, 52, 57⟩)
    ex_valid (by unfold Slice.Valid; decide) rfl (by decide +kernel) ex_accepted rfl (by decide)
  refine ⟨q, h1, by rw [h2]; rfl, ?_⟩
  rw [h4]
  decide +kernel

end Verif.Packet.Placed
