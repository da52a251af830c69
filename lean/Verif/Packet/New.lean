import Verif.Packet.Parse
/-! When `New` accepts, refuses or crashes, and what an accepted packet contains. -/
namespace Verif.Packet

/-- The packet `New` starts from. -/
def start (context : U64) (mark : List Char) (v : IPver) : Packet :=
  { Packet.zero with mark := mark, context := context, version := v }

theorem New_eq {h : Heap} {bytes : Slice} (hv : bytes.Valid h) (c : U64) (m : List Char) (lv : Bool) :
    New h c bytes m lv =
      if bytes.len = 0 then .panic
      else if u8at (window h bytes) 0 &&& 0xF0 = 0x40 then
        (parseIPv4Packet h (start c m .V4) bytes lv >>= fun r => .ok (some r.1, r.2))
      else (parseIPv6Packet h (start c m .V6) bytes lv >>= fun r => .ok (some r.1, r.2)) := by
  unfold New
  rw [if_neg (by simp [ipv4HdrLenPos])]
  rw [at_eq hv]
  by_cases h0 : bytes.len = 0
  · rw [if_pos h0, if_neg (by simp [ipv4HdrLenPos, h0])]; rfl
  · rw [if_neg h0, if_pos (by simp [ipv4HdrLenPos]; omega)]
    simp only [Res.ok_bind]
    by_cases h4 : u8at (window h bytes) 0 &&& 0xF0 = 0x40
    · rw [if_pos (by exact h4), if_pos h4]; rfl
    · rw [if_neg (by exact h4), if_neg h4]; rfl

theorem parseIPv4_short {h : Heap} {p : Packet} {bytes : Slice} {lv : Bool} (hl : bytes.len < 20) :
    ∃ e, parseIPv4Packet h p bytes lv = .ok (p, some e) := by
  unfold parseIPv4Packet
  rw [if_pos (by exact hl)]
  exact ⟨_, rfl⟩

theorem parseIPv4_options {h : Heap} {p : Packet} {bytes : Slice} {lv : Bool} (hv : bytes.Valid h)
    (h20 : 20 ≤ bytes.len) (hl : (u8at (window h bytes) 0 &&& 0x0F) * 4 ≠ (20 : Byte)) :
    ∃ q e, parseIPv4Packet h p bytes lv = .ok (q, some e) := by
  unfold parseIPv4Packet
  have hc := hv.1
  rw [if_neg (by simp [minIPv4HdrSize]; omega)]
  simp only [at_eq hv, rd16_eq hv, rdN_eq, ipv4HdrLenPos, ipv4ProtoPos, ipv4LengthPos, ipv4IDPos,
    ipv4ChecksumPos, ipv4SourceAddrPos, ipv4DestAddrPos]
  rw [if_pos (by omega), if_pos (by omega), if_pos (by omega), if_pos (by omega), if_pos (by omega),
    if_pos (by omega), if_pos (by omega)]
  simp only [Res.ok_bind, ipv4HdrLenMask]
  simp only [show BitVec.ofNat 8 minIPv4HdrSize = (20 : Byte) from rfl, ne_eq, hl, not_false_eq_true,
    if_true]
  exact ⟨_, _, rfl⟩

theorem parseIPv6_crash {h : Heap} {p : Packet} {bytes : Slice} {lv : Bool} (hv : bytes.Valid h)
    (hl : bytes.len < 7 ∨ bytes.cap < 40) : parseIPv6Packet h p bytes lv = .panic := by
  unfold parseIPv6Packet
  have hc := hv.1
  simp only [at_eq hv, rd16_eq hv, rdN_eq, ipv6ProtoPos, ipv6PayloadLenPos, ipv6SourceAddrPos,
    ipv6DestAddrPos]
  by_cases h7 : 6 < bytes.len
  · rw [if_pos h7, if_pos (by omega)]
    simp only [Res.ok_bind]
    by_cases h24 : 8 + 16 ≤ bytes.cap
    · rw [if_pos h24]
      simp only [Res.ok_bind]
      rw [if_neg (by omega)]; rfl
    · rw [if_neg h24]; rfl
  · rw [if_neg h7]; rfl

theorem nibbles {b : Byte} (h1 : b &&& 0xF0 = 0x40) (h2 : (b &&& 0x0F) * 4 = (20 : Byte)) : b = 0x45 := by
  revert b; decide

theorem nibble5 {b : Byte} : (b &&& 0x0F) * 4 = (20 : Byte) ↔ b.toNat % 16 = 5 := by
  revert b; decide

theorem nibble4 {b : Byte} : b &&& 0xF0 = 0x40 ↔ b.toNat / 16 = 4 := by
  revert b; decide

/-- The three ways the transport part can accept. -/
inductive Accepted (p : Packet) (W : List Byte) (bytes : Slice) : Packet → Prop
  | tcp : p.ipProto = 6 → ¬ p.ipTotalLength - p.ipHeaderLen.setWidth 16 < 20 →
      p.ipHeaderLen.toNat + 14 ≤ bytes.len → p.ipHeaderLen.toNat + 18 ≤ bytes.cap →
      p.ipHeaderLen.toNat ≤ p.buffer.len →
      Accepted p W bytes (withHash (fillTCP p W p.ipHeaderLen.toNat))
  | udp : p.ipProto = 17 → ¬ p.ipTotalLength - p.ipHeaderLen.setWidth 16 < 8 →
      p.ipHeaderLen.toNat ≤ bytes.len → p.ipHeaderLen.toNat + 8 ≤ bytes.cap →
      Accepted p W bytes (withHash (fillUDP p W p.ipHeaderLen.toNat))
  | other : p.ipProto ≠ 6 → p.ipProto ≠ 17 → Accepted p W bytes (withHash p)

theorem parseTransport_accept {h : Heap} {p q : Packet} {bytes : Slice} (hv : bytes.Valid h)
    (hb : p.buffer.Valid h) (ha : parseTransport h p bytes = .ok (q, none)) :
    Accepted p (window h bytes) bytes q := by
  rw [parseTransport_eq hv hb] at ha
  by_cases ht : p.ipProto = 6
  · rw [if_pos ht] at ha
    by_cases hs : p.ipTotalLength - p.ipHeaderLen.setWidth 16 < 20
    · rw [if_pos hs] at ha; simp at ha
    · rw [if_neg hs] at ha
      split at ha
      · rename_i hq
        simp only [Res.ok.injEq, Prod.mk.injEq, and_true] at ha
        rw [← ha]
        exact .tcp ht hs hq.1 hq.2.1 hq.2.2
      · simp at ha
  · rw [if_neg ht] at ha
    by_cases hu : p.ipProto = 17
    · rw [if_pos hu] at ha
      by_cases hs : p.ipTotalLength - p.ipHeaderLen.setWidth 16 < 8
      · rw [if_pos hs] at ha; simp at ha
      · rw [if_neg hs] at ha
        split at ha
        · rename_i hq
          simp only [Res.ok.injEq, Prod.mk.injEq, and_true] at ha
          rw [← ha]
          exact .udp hu hs hq.1 hq.2
        · simp at ha
    · rw [if_neg hu] at ha
      simp only [Res.ok.injEq, Prod.mk.injEq, and_true] at ha
      rw [← ha]
      exact .other ht hu

/-- What `New` accepted. -/
theorem New_accept {h : Heap} {bytes : Slice} (hv : bytes.Valid h) {c : U64} {m : List Char} {lv : Bool}
    {p : Packet} (ha : New h c bytes m lv = .ok (some p, none)) :
    (20 ≤ bytes.len ∧ u8at (window h bytes) 0 = 0x45 ∧
      ∃ b, checkedBuf (u16at (window h bytes) 2) bytes lv = some b ∧
        Accepted (fill4 (start c m .V4) (window h bytes) b) (window h bytes) bytes p) ∨
    (7 ≤ bytes.len ∧ 40 ≤ bytes.cap ∧ (u8at (window h bytes) 0).toNat / 16 ≠ 4 ∧
      ∃ b, checkedBuf (40 + u16at (window h bytes) 4) bytes lv = some b ∧
        ((¬ (lv ∧ 40 + u16at (window h bytes) 4 ≠ BitVec.ofNat 16 bytes.len) ∧
            Accepted (fill6 (start c m .V6) (window h bytes) b) (window h bytes) bytes p) ∨
          (40 + 18 ≤ bytes.cap ∧ 40 + 14 ≤ bytes.len ∧ 40 ≤ b.len ∧
            Accepted (fillTCP (fill6 (start c m .V6) (window h bytes) b) (window h bytes) 40)
              (window h bytes) bytes p))) := by
  rw [New_eq hv] at ha
  by_cases h0 : bytes.len = 0
  · rw [if_pos h0] at ha; simp at ha
  rw [if_neg h0] at ha
  by_cases h4 : u8at (window h bytes) 0 &&& 0xF0 = 0x40
  · rw [if_pos h4] at ha
    left
    by_cases h20 : 20 ≤ bytes.len
    · by_cases hl : (u8at (window h bytes) 0 &&& 0x0F) * 4 = (20 : Byte)
      · refine ⟨h20, nibbles h4 hl, ?_⟩
        rw [parseIPv4_eq hv lv h20 hl] at ha
        cases hcb : checkedBuf (u16at (window h bytes) 2) bytes lv with
        | none => rw [hcb] at ha; simp at ha
        | some b =>
          rw [hcb] at ha
          simp only at ha
          obtain ⟨⟨q, e⟩, h1, h2⟩ := Res.bind_eq_ok.mp ha
          simp only [Res.ok.injEq, Prod.mk.injEq, Option.some.injEq] at h2
          obtain ⟨rfl, rfl⟩ := h2
          exact ⟨b, rfl, parseTransport_accept hv (checkedBuf_valid hv hcb).1 h1⟩
      · obtain ⟨q, e, he⟩ := parseIPv4_options (p := start c m .V4) (lv := lv) hv h20 hl
        rw [he] at ha; simp at ha
    · obtain ⟨e, he⟩ := parseIPv4_short (h := h) (p := start c m .V4) (lv := lv)
        (by omega : bytes.len < 20)
      rw [he] at ha; simp at ha
  · rw [if_neg h4] at ha
    right
    by_cases hs : bytes.len < 7 ∨ bytes.cap < 40
    · rw [parseIPv6_crash hv hs] at ha; simp at ha
    · refine ⟨by omega, by omega, fun hn => h4 (nibble4.mpr hn), ?_⟩
      rw [parseIPv6_eq hv lv (by omega) (by omega)] at ha
      cases hcb : checkedBuf (40 + u16at (window h bytes) 4) bytes lv with
      | none => rw [hcb] at ha; simp at ha
      | some b =>
        rw [hcb] at ha
        simp only at ha
        refine ⟨b, rfl, ?_⟩
        obtain ⟨⟨q, e⟩, h1, h2⟩ := Res.bind_eq_ok.mp ha
        simp only [Res.ok.injEq, Prod.mk.injEq, Option.some.injEq] at h2
        obtain ⟨rfl, rfl⟩ := h2
        have hb := (checkedBuf_valid hv hcb).1
        split at h1
        · split at h1
          · rename_i hq
            right
            exact ⟨hq.2.1, hq.1, hq.2.2, parseTransport_accept hv (by exact hb) h1⟩
          · simp at h1
        · rename_i hq
          left
          exact ⟨hq, parseTransport_accept hv (by exact hb) h1⟩

end Verif.Packet
