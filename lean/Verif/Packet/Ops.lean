import Verif.Packet.Mem
import Verif.Packet.Checksum
/-! The packet operations as functions on the bytes of the buffer. -/
namespace Verif.Packet
open Verif.Spec

/-- The checksum as a 16-bit word. -/
def cks (b : List Byte) : U16 := BitVec.ofNat 16 (inetChecksum b)

theorem inetChecksum_le (b : List Byte) : inetChecksum b ≤ 65535 := by unfold inetChecksum; omega

theorem cks_toNat (b : List Byte) : (cks b).toNat = inetChecksum b := by
  unfold cks
  rw [BitVec.toNat_ofNat]
  have := inetChecksum_le b
  omega

theorem wsum_lt {b : List Byte} (hb : b.length ≤ 131074) : wsum b < 2 ^ 32 := by
  have := wsum_le b
  omega

theorem finalize_cks {b : List Byte} (hb : b.length ≤ 131074) :
    finalizeChecksum (BitVec.ofNat 32 (wsum b)) = .ok (cks b) := by
  obtain ⟨c, h1, h2⟩ := finalize_sum (wsum_lt hb)
  rw [h1]
  congr 1
  apply BitVec.eq_of_toNat_eq
  rw [h2, cks_toNat, inetChecksum_eq]

theorem checksum_cks {b : List Byte} (hb : b.length ≤ 131074) : checksum b = .ok (cks b) := by
  rw [checksum_eq, finalize_cks hb]

theorem computeIPv4Checksum_eq {h : Heap} {p : Packet} (hb : p.buffer.Valid h) (h20 : p.ipHeaderLen = 20)
    (h12 : 12 ≤ p.buffer.len) (hc : 20 ≤ p.buffer.cap) :
    computeIPv4Checksum h p =
      .ok (cks (splice ((window h p.buffer).take 20) 10 [0, 0]),
        put h p.buffer (splice (window h p.buffer) 10 (enc16 .big p.ipChecksum))) := by
  generalize hW : window h p.buffer = W
  have hl : W.length = p.buffer.cap := by rw [← hW]; exact window_length hb
  unfold computeIPv4Checksum
  have e0 : h = put h p.buffer W := by rw [← hW, put_self]
  conv => lhs; rw [e0]
  rw [wr8_put0 hb hl, if_pos (by simp only [ipv4ChecksumPos]; omega), Res.ok_bind,
    wr8_put0 hb (by rw [splice_length _ _ _ (by simp [ipv4ChecksumPos]; omega)]; exact hl),
    if_pos (by simp only [ipv4ChecksumPos]; omega), Res.ok_bind,
    splice_two (by simp only [ipv4ChecksumPos]; omega), h20, to_eq, if_pos (by simpa using hc), Res.ok_bind]
  have hl2 : (splice W ipv4ChecksumPos [0, 0]).length = p.buffer.cap := by
    rw [splice_length _ _ _ (by simp [ipv4ChecksumPos]; omega)]; exact hl
  have hbytes : (put h p.buffer (splice W ipv4ChecksumPos [0, 0])).bytes (head p.buffer (BitVec.toNat (20 : Byte)))
      = splice (W.take 20) 10 [0, 0] := by
    have hv : (head p.buffer 20).Valid (put h p.buffer (splice W ipv4ChecksumPos [0, 0])) :=
      head_valid (put_valid hb hl2 hb) hc
    show (put h p.buffer (splice W ipv4ChecksumPos [0, 0])).bytes (head p.buffer 20) = _
    rw [bytes_eq_window hv]
    rw [window_head, window_put hb hl2]
    show List.take 20 (splice W 10 [0, 0]) = _
    rw [take_splice_lt (by simp; omega) (by simp)]
  rw [hbytes, checksum_cks (by rw [splice_length _ _ _ (by simp; omega)]; simp; omega), Res.ok_bind,
    wr16_put0 hb hl2, if_pos (by simp only [ipv4ChecksumPos]; omega), Res.ok_bind,
    splice_over (by simp [ipv4ChecksumPos]; omega) (by simp)]
  rfl

/-- The RFC 1624 update as a 16-bit word. -/
def inc (start old new : U16) : U16 :=
  BitVec.ofNat 16 (65535 - red ((65535 - start.toNat) + (65535 - old.toNat) + new.toNat))

theorem incCsum16_inc (start old new : U16) : incCsum16 start old new = .ok (inc start old new) := by
  obtain ⟨c, h1, h2⟩ := incCsum16_eq start old new
  rw [h1]
  congr 1
  apply BitVec.eq_of_toNat_eq
  rw [h2, inc, BitVec.toNat_ofNat]
  omega

/-- The packet after the IP length is changed. -/
def fixed (p : Packet) (old new : U16) : Packet :=
  { p with ipChecksum := inc p.ipChecksum old new, ipTotalLength := p.ipTotalLength + new - old }

/-- The bytes after the IP length is changed. -/
def fixedBytes (p : Packet) (W : List Byte) (old new : U16) : List Byte :=
  match p.version with
  | .V4 => splice (splice W 2 (enc16 .big (p.ipTotalLength + new - old))) 10
      (enc16 .big (inc p.ipChecksum old new))
  | .V6 => splice W 4 (enc16 .big (p.ipTotalLength + new - old - p.ipHeaderLen.setWidth 16))

theorem fixedBytes_length {p : Packet} {W : List Byte} (hW : 12 ≤ W.length) (old new : U16) :
    (fixedBytes p W old new).length = W.length := by
  unfold fixedBytes
  split
  · rw [splice_length, splice_length _ _ _ (by simp; omega)]
    rw [splice_length _ _ _ (by simp; omega)]; simp; omega
  · rw [splice_length _ _ _ (by simp; omega)]

theorem Fixup_eq {h : Heap} {p : Packet} (hb : p.buffer.Valid h) {W : List Byte}
    (hW : W.length = p.buffer.cap) (h12 : 12 ≤ p.buffer.cap) (old new : U16) :
    FixupIPHdrOnDataModify (put h p.buffer W) p old new =
      .ok (put h p.buffer (fixedBytes p W old new), fixed p old new) := by
  unfold FixupIPHdrOnDataModify
  rw [incCsum16_inc, Res.ok_bind]
  simp only
  cases hv : p.version with
  | V4 =>
    simp only
    rw [wr16_put0 hb hW, if_pos (by simp only [ipv4LengthPos]; omega), Res.ok_bind,
      wr16_put0 hb (by rw [splice_length _ _ _ (by simp [ipv4LengthPos]; omega)]; exact hW),
      if_pos (by simp only [ipv4ChecksumPos]; omega), Res.ok_bind]
    simp only [fixedBytes, hv, fixed, ipv4LengthPos, ipv4ChecksumPos]
  | V6 =>
    simp only
    rw [wr16_put0 hb hW, if_pos (by simp only [ipv6PayloadLenPos]; omega), Res.ok_bind]
    simp only [fixedBytes, hv, fixed, ipv6PayloadLenPos]

theorem VerifyIPv4_eq {h : Heap} {p : Packet} (hb : p.buffer.Valid h) (h20 : p.ipHeaderLen = 20)
    (h12 : 12 ≤ p.buffer.len) (hc : 20 ≤ p.buffer.cap) :
    VerifyIPv4Checksum h p =
      .ok (cks (splice ((window h p.buffer).take 20) 10 [0, 0]) == p.ipChecksum,
        put h p.buffer (splice (window h p.buffer) 10 (enc16 .big p.ipChecksum))) := by
  unfold VerifyIPv4Checksum
  rw [computeIPv4Checksum_eq hb h20 h12 hc]
  rfl

theorem UpdateIPv4_eq {h : Heap} {p : Packet} (hb : p.buffer.Valid h) (h20 : p.ipHeaderLen = 20)
    (h12 : 12 ≤ p.buffer.len) (hc : 20 ≤ p.buffer.cap) :
    UpdateIPv4Checksum h p =
      .ok (put h p.buffer (splice (window h p.buffer) 10
          (enc16 .big (cks (splice ((window h p.buffer).take 20) 10 [0, 0])))),
        { p with ipChecksum := cks (splice ((window h p.buffer).take 20) 10 [0, 0]) }) := by
  have hl := window_length hb
  unfold UpdateIPv4Checksum
  rw [computeIPv4Checksum_eq hb h20 h12 hc, Res.ok_bind]
  simp only
  have hl2 : (splice (window h p.buffer) 10 (enc16 .big p.ipChecksum)).length = p.buffer.cap := by
    rw [splice_length _ _ _ (by simp; omega)]; exact hl
  rw [wr16_put0 hb hl2, if_pos (by simp only [ipv4ChecksumPos]; omega), Res.ok_bind]
  simp only [ipv4ChecksumPos]
  rw [splice_over (by simp; omega) (by simp)]

/-! ### TCP checksum -/

/-- The slice `t` does not reach into the `n` bytes at offset `i` of `s`. -/
def Clear (s t : Slice) (i n : Nat) : Prop :=
  t.arr ≠ s.arr ∨ t.off + t.len ≤ s.off + i ∨ s.off + i + n ≤ t.off

theorem bytes_splice_clear {h : Heap} {s t : Slice} (hv : s.Valid h) {W : List Byte}
    (hW : W.length = s.cap) {i : Nat} {bs : List Byte} (hi : i + bs.length ≤ s.cap)
    (hc : Clear s t i bs.length) : (put h s (splice W i bs)).bytes t = (put h s W).bytes t := by
  rw [← write_put hv hW hi]
  apply Heap.bytes_write_disjoint
  · have hv' := put_valid hv hW hv
    have := hv'.2
    omega
  · rcases hc with hc | hc | hc
    · left; exact fun x => hc x.symm
    · right; right; omega
    · right; left; omega

/-- The addresses as they are on the wire. -/
def wireAddrs (p : Packet) (W : List Byte) : List Byte :=
  match p.version with
  | .V4 => (W.drop 12).take 4 ++ (W.drop 16).take 4
  | .V6 => (W.drop 8).take 16 ++ (W.drop 24).take 16

/-- What the code sums for a TCP segment: addresses, protocol, length, and the three parts, each
part padded on its own. -/
def tcpSum (p : Packet) (W opts data : List Byte) : Nat :=
  wsum (wireAddrs p W) + wsum [0, 6] +
  wsum (enc16 .big (BitVec.ofNat 16 (p.buffer.len - p.ipHeaderLen.toNat + data.length + opts.length))) +
  wsum (splice ((W.take p.buffer.len).drop p.ipHeaderLen.toNat) 16 [0, 0]) + wsum opts + wsum data

theorem addrSum_eq {h : Heap} {p : Packet} (hb : p.buffer.Valid h) (h20 : 20 ≤ p.buffer.cap)
    (h40 : p.version = .V6 → 40 ≤ p.buffer.cap) :
    addrSum h p = .ok (BitVec.ofNat 32 (wsum (wireAddrs p (window h p.buffer)))) := by
  have hl := window_length hb
  unfold addrSum wireAddrs
  cases hv : p.version with
  | V4 =>
    simp only
    rw [rdN_eq, if_pos (by simp only [ipv4SourceAddrPos]; omega), Res.ok_bind, rdN_eq,
      if_pos (by simp only [ipv4DestAddrPos]; omega), Res.ok_bind, partialChecksum_eq, partialChecksum_eq,
      wsum_append _ (by simp; omega), BitVec.ofNat_add]
    simp [ipv4SourceAddrPos, ipv4DestAddrPos]
  | V6 =>
    have := h40 hv
    simp only
    rw [rdN_eq, if_pos (by simp only [ipv6SourceAddrPos]; omega), Res.ok_bind, rdN_eq,
      if_pos (by simp only [ipv6DestAddrPos]; omega), Res.ok_bind, partialChecksum_eq, partialChecksum_eq,
      wsum_append _ (by simp; omega), BitVec.ofNat_add]
    simp [ipv6SourceAddrPos, ipv6DestAddrPos]

theorem wireAddrs_splice {p : Packet} {W : List Byte} {i : Nat} {bs : List Byte}
    (hi : i + bs.length ≤ W.length) (hp : (p.version = .V4 ∧ 20 ≤ i) ∨ 40 ≤ i) :
    wireAddrs p (splice W i bs) = wireAddrs p W := by
  have key : ∀ a n, a + n ≤ i → ((splice W i bs).drop a).take n = (W.drop a).take n := by
    intro a n han
    apply List.ext_getElem?
    intro k
    rw [List.getElem?_take, List.getElem?_take]
    split
    · rw [List.getElem?_drop, List.getElem?_drop, splice_getElem? _ _ _ hi, if_neg (by omega)]
    · rfl
  unfold wireAddrs
  cases hv : p.version with
  | V4 => simp only; rw [key 12 4 (by rcases hp with hp | hp <;> omega), key 16 4 (by rcases hp with hp | hp <;> omega)]
  | V6 =>
    simp only
    have : 40 ≤ i := by
      rcases hp with hp | hp
      · rw [hv] at hp; simp at hp
      · exact hp
    rw [key 8 16 (by omega), key 24 16 (by omega)]

/-- The header length fits the version. -/
def HdrOk (p : Packet) : Prop := p.version = .V4 ∧ p.ipHeaderLen = 20 ∨ p.version = .V6 ∧ p.ipHeaderLen = 40

theorem HdrOk.nat {p : Packet} (hv : HdrOk p) :
    (p.version = .V4 ∧ p.ipHeaderLen.toNat = 20) ∨ (p.version = .V6 ∧ p.ipHeaderLen.toNat = 40) := by
  rcases hv with ⟨h1, h2⟩ | ⟨h1, h2⟩
  · left; rw [h2]; exact ⟨h1, rfl⟩
  · right; rw [h2]; exact ⟨h1, rfl⟩

theorem computeTCP_eq {h : Heap} {p : Packet} (hb : p.buffer.Valid h) (hv : HdrOk p)
    (hlen : p.ipHeaderLen.toNat + 18 ≤ p.buffer.len)
    (ho : p.tcpOptions.Valid h) (hd : p.tcpData.Valid h)
    (hoc : Clear p.buffer p.tcpOptions (p.ipHeaderLen.toNat + 16) 2)
    (hdc : Clear p.buffer p.tcpData (p.ipHeaderLen.toNat + 16) 2) :
    computeTCPChecksum h p =
      (finalizeChecksum (BitVec.ofNat 32 (tcpSum p (window h p.buffer) (h.bytes p.tcpOptions)
        (h.bytes p.tcpData))) >>= fun c => .ok (c, h)) := by
  generalize hW : window h p.buffer = W
  have hl : W.length = p.buffer.cap := by rw [← hW]; exact window_length hb
  have hcap := hb.1
  have hn := hv.nat
  have e0 : put h p.buffer W = h := by rw [← hW, put_self]
  generalize hH : p.ipHeaderLen.toNat = H at *
  have hl2 : (splice W (H + 16) [0]).length = p.buffer.cap := by
    rw [splice_length _ _ _ (by simp; omega)]; exact hl
  have hl3 : (splice W (H + 16) [0, 0]).length = p.buffer.cap := by
    rw [splice_length _ _ _ (by simp; omega)]; exact hl
  have hopt : (put h p.buffer (splice W (H + 16) [0, 0])).bytes p.tcpOptions = h.bytes p.tcpOptions := by
    rw [bytes_splice_clear hb hl (by simp; omega) hoc, e0]
  have hdat : (put h p.buffer (splice W (H + 16) [0, 0])).bytes p.tcpData = h.bytes p.tcpData := by
    rw [bytes_splice_clear hb hl (by simp; omega) hdc, e0]
  have hbuf : (put h p.buffer (splice W (H + 16) [0, 0])).bytes (tail p.buffer H)
      = splice ((W.take p.buffer.len).drop H) 16 [0, 0] := by
    rw [bytes_tail, bytes_put hb hl3, take_splice_lt (by simp; omega) (by simp; omega),
      drop_splice_lt (by simp; omega)]
  unfold computeTCPChecksum
  rw [hH, from_eq hb, if_pos (by omega), Res.ok_bind]
  simp only [tcpChecksumPos]
  rw [at_eq (tail_valid hb (by omega)), if_pos (by simp [tail]; omega), Res.ok_bind,
    at_eq (tail_valid hb (by omega)), if_pos (by simp [tail]; omega), Res.ok_bind]
  conv => lhs; rw [← e0]
  rw [wr8_put hb hl, if_pos (by omega), Res.ok_bind, wr8_put hb hl2, if_pos (by omega), Res.ok_bind,
    show H + (16 + 1) = H + 16 + 1 from rfl, splice_two (by omega)]
  rw [addrSum_eq (put_valid hb hl3 hb) (by omega) (by intro hx; rcases hn with ⟨h1, h2⟩ | ⟨h1, h2⟩; rw [h1] at hx; simp at hx; omega),
    Res.ok_bind, window_put hb hl3, hopt, hdat, hbuf,
    wireAddrs_splice (by simp; omega) (by rcases hn with ⟨h1, h2⟩ | ⟨h1, h2⟩; exact .inl ⟨h1, by omega⟩; exact .inr (by omega))]
  simp only [partialChecksum_eq, ← BitVec.ofNat_add]
  have hs : wsum (wireAddrs p W) + wsum [0, 6] +
        wsum (enc16 Endian.big (BitVec.ofNat 16 ((tail p.buffer H).len + p.tcpData.len + p.tcpOptions.len))) +
        wsum (splice (List.drop H (List.take p.buffer.len W)) 16 [0, 0]) + wsum (h.bytes p.tcpOptions) +
        wsum (h.bytes p.tcpData) = tcpSum p W (h.bytes p.tcpOptions) (h.bytes p.tcpData) := by
    unfold tcpSum
    rw [hH, Heap.bytes_length ho, Heap.bytes_length hd]
    rfl
  have hwt : window (put h p.buffer W) (tail p.buffer H) = W.drop H := by
    rw [window_tail, window_put hb hl]
  rw [hs, hwt]
  have hcont : ∀ c : U16, (do
      let h_1 ← wr8 (put h p.buffer (splice W (H + 16) [0, 0])) (tail p.buffer H) 16 (u8at (List.drop H W) 16)
      let h ← wr8 h_1 (tail p.buffer H) (16 + 1) (u8at (List.drop H W) (16 + 1))
      Res.ok (c, h)) = Res.ok (c, h) := by
    intro c
    rw [wr8_put hb hl3, if_pos (by omega), Res.ok_bind]
    rw [wr8_put hb (by rw [splice_length _ _ _ (by rw [hl3]; simp only [List.length_cons, List.length_nil]; omega)]; exact hl3), if_pos (by omega), Res.ok_bind,
      show H + (16 + 1) = H + 16 + 1 from rfl, splice_two (by rw [hl3]; omega), splice_over (by simp; omega) (by simp),
      u8at_drop, u8at_drop, show H + (16 + 1) = H + 16 + 1 from rfl, splice_u16at (by omega), e0]
  simp only [hcont]

/-- The bytes covered by the TCP checksum (RFC 793, RFC 8200): pseudo header, then the segment with a
zero checksum field. -/
def tcpCovered (v : IPver) (src dst seg : List Byte) : List Byte :=
  match v with
  | .V4 => src ++ dst ++ [0, 6] ++ bytes16 .big seg.length ++ patch seg 16 [0, 0]
  | .V6 => pseudo6 src dst seg.length 6 ++ patch seg 16 [0, 0]

theorem wsum_append' {a b : List Byte} (h : a.length % 2 = 0 ∨ b = []) : wsum (a ++ b) = wsum a + wsum b := by
  rcases h with h | h
  · exact wsum_append b h
  · subst h; simp

theorem bytes16_length (e : Endian) (n : Nat) : (bytes16 e n).length = 2 := by cases e <;> rfl

theorem wsum_bytes16 {n : Nat} (hn : n < 65536) : wsum (bytes16 .big n) = n := by
  show (n / 256 % 256 * 256 + n % 256 + 0 : Nat) = n
  omega

theorem splice_append_left {a b bs : List Byte} {i : Nat} (h : i + bs.length ≤ a.length) :
    splice (a ++ b) i bs = splice a i bs ++ b := by
  unfold splice
  rw [List.take_append_of_le_length (by omega), List.drop_append_of_le_length h]
  simp only [List.append_assoc]

/-- The parts of a segment are summed at even offsets. -/
def EvenParts (buf opts data : List Byte) : Prop :=
  (buf.length % 2 = 0 ∨ (opts = [] ∧ data = [])) ∧ (opts.length % 2 = 0 ∨ data = [])

theorem wsum_enc16 (v : U16) : wsum (enc16 .big v) = v.toNat := by
  show ((hi8 v).toNat * 256 + (lo8 v).toNat + 0 : Nat) = _
  rw [hi8_toNat, lo8_toNat]; omega

theorem wsum_bytes32 {n : Nat} (hn : n < 65536) : wsum (bytes32 .big n) = n := by
  show ((n / 16777216 % 256 * 256 + n / 65536 % 256) + ((n / 256 % 256 * 256 + n % 256) + 0) : Nat) = n
  omega

/-- Source address on the wire. -/
def wireSrc (p : Packet) (W : List Byte) : List Byte :=
  match p.version with
  | .V4 => (W.drop 12).take 4
  | .V6 => (W.drop 8).take 16

/-- Destination address on the wire. -/
def wireDst (p : Packet) (W : List Byte) : List Byte :=
  match p.version with
  | .V4 => (W.drop 16).take 4
  | .V6 => (W.drop 24).take 16

theorem wireAddrs_eq (p : Packet) (W : List Byte) : wireAddrs p W = wireSrc p W ++ wireDst p W := by
  unfold wireAddrs wireSrc wireDst; cases p.version <;> rfl

theorem wire_even {p : Packet} {W : List Byte} (hv : HdrOk p) (hl : p.ipHeaderLen.toNat ≤ W.length) :
    (wireSrc p W).length % 2 = 0 ∧ (wireDst p W).length % 2 = 0 := by
  unfold wireSrc wireDst
  rcases hv.nat with ⟨h1, h2⟩ | ⟨h1, h2⟩ <;> rw [h1] <;> simp <;> omega

theorem tcpSum_eq {p : Packet} {W opts data : List Byte} (hv : HdrOk p)
    (hl : p.buffer.len ≤ W.length) (hlen : p.ipHeaderLen.toNat + 18 ≤ p.buffer.len)
    (he : EvenParts ((W.take p.buffer.len).drop p.ipHeaderLen.toNat) opts data)
    (hs : p.buffer.len - p.ipHeaderLen.toNat + opts.length + data.length < 65536) :
    tcpSum p W opts data = wsum (tcpCovered p.version (wireSrc p W) (wireDst p W)
      ((W.take p.buffer.len).drop p.ipHeaderLen.toNat ++ opts ++ data)) := by
  obtain ⟨ev1, ev2⟩ := wire_even (W := W) hv (by omega)
  generalize hB : (W.take p.buffer.len).drop p.ipHeaderLen.toNat = B at *
  have hBl : B.length = p.buffer.len - p.ipHeaderLen.toNat := by rw [← hB]; simp; omega
  have hpatch : patch (B ++ opts ++ data) 16 [0, 0] = splice B 16 [0, 0] ++ opts ++ data := by
    show splice (B ++ opts ++ data) 16 [0, 0] = _
    rw [List.append_assoc, splice_append_left (by simp; omega), List.append_assoc]
  have hsl : (splice B 16 [0, 0]).length = B.length := splice_length _ _ _ (by simp; omega)
  have hsum : wsum (patch (B ++ opts ++ data) 16 [0, 0]) = wsum (splice B 16 [0, 0]) + wsum opts + wsum data := by
    rw [hpatch, List.append_assoc, wsum_append', wsum_append' he.2]
    · omega
    · rw [hsl]
      rcases he.1 with h | ⟨h, h'⟩
      · left; exact h
      · right; simp [h, h']
  have hsegl : (B ++ opts ++ data).length < 65536 := by simp; omega
  unfold tcpSum
  rw [hB, wireAddrs_eq, wsum_append _ ev1, wsum_enc16, BitVec.toNat_ofNat, Nat.mod_eq_of_lt (by omega)]
  have hseg : (B ++ opts ++ data).length = p.buffer.len - p.ipHeaderLen.toNat + data.length + opts.length := by
    simp; omega
  unfold tcpCovered
  cases p.version with
  | V4 =>
    simp only
    rw [wsum_append _ (by simp; omega), hsum,
      wsum_append _ (by simp; omega), wsum_append _ (by simp; omega), wsum_append _ ev1,
      wsum_bytes16 hsegl, hseg]
    omega
  | V6 =>
    simp only
    unfold pseudo6
    have h32 : ∀ n, (bytes32 .big n).length = 4 := fun _ => rfl
    have h06 : wsum ([0, 0, 0, BitVec.ofNat 8 6] : List Byte) = wsum [0, 6] := rfl
    rw [wsum_append _ (by simp [h32]; omega), hsum, wsum_append _ (by simp [h32]; omega), h06,
      wsum_append _ (by simp; omega), wsum_append _ ev1, wsum_bytes32 hsegl, hseg]
    omega

/-- What the code computes, as a 16-bit word. -/
def tcpCks (p : Packet) (W opts data : List Byte) : U16 :=
  BitVec.ofNat 16 (65535 - red (tcpSum p W opts data))

theorem tcpSum_lt {p : Packet} {W opts data : List Byte} (hv : HdrOk p) (hl : p.buffer.len ≤ W.length)
    (hlen : p.ipHeaderLen.toNat + 18 ≤ p.buffer.len)
    (hs : p.buffer.len - p.ipHeaderLen.toNat + opts.length + data.length < 65536) :
    tcpSum p W opts data < 2 ^ 32 := by
  unfold tcpSum
  have h1 := wsum_le (wireAddrs p W)
  have h1l : (wireAddrs p W).length ≤ 32 := by
    unfold wireAddrs; cases p.version <;> simp <;> omega
  have h2 : wsum [0, 6] = 6 := rfl
  have h3 := wsum_le (splice ((W.take p.buffer.len).drop p.ipHeaderLen.toNat) 16 [0, 0])
  rw [splice_length _ _ _ (by simp; omega)] at h3
  have h3l : ((W.take p.buffer.len).drop p.ipHeaderLen.toNat).length = p.buffer.len - p.ipHeaderLen.toNat := by
    simp; omega
  rw [h3l] at h3
  have h4 := wsum_le opts
  have h5 := wsum_le data
  rw [wsum_enc16]
  have h6 := (BitVec.ofNat 16 (p.buffer.len - p.ipHeaderLen.toNat + data.length + opts.length)).isLt
  omega

theorem finalize_tcp {p : Packet} {W opts data : List Byte} (hv : HdrOk p) (hl : p.buffer.len ≤ W.length)
    (hlen : p.ipHeaderLen.toNat + 18 ≤ p.buffer.len)
    (hs : p.buffer.len - p.ipHeaderLen.toNat + opts.length + data.length < 65536) :
    finalizeChecksum (BitVec.ofNat 32 (tcpSum p W opts data)) = .ok (tcpCks p W opts data) := by
  obtain ⟨c, h1, h2⟩ := finalize_sum (tcpSum_lt hv hl hlen hs)
  rw [h1]; congr 1
  apply BitVec.eq_of_toNat_eq
  rw [h2, tcpCks, BitVec.toNat_ofNat]; omega

/-- The TCP parts of a packet lie in memory, outside the checksum field, and make a segment of
less than 64 KiB. -/
structure TcpMem (h : Heap) (p : Packet) : Prop where
  buf : p.buffer.Valid h
  hdr : HdrOk p
  room : p.ipHeaderLen.toNat + 20 ≤ p.buffer.len
  opts : p.tcpOptions.Valid h
  data : p.tcpData.Valid h
  optsClear : Clear p.buffer p.tcpOptions 0 (p.ipHeaderLen.toNat + 20)
  dataClear : Clear p.buffer p.tcpData 0 (p.ipHeaderLen.toNat + 20)
  size : p.buffer.len - p.ipHeaderLen.toNat + p.tcpOptions.len + p.tcpData.len < 65536

theorem Clear.mono {s t : Slice} {i n i' n' : Nat} (hc : Clear s t i n) (h1 : i ≤ i') (h2 : i' + n' ≤ i + n) :
    Clear s t i' n' := by
  unfold Clear at *; omega

theorem computeTCP_mem {h : Heap} {p : Packet} (hm : TcpMem h p) :
    computeTCPChecksum h p =
      .ok (tcpCks p (window h p.buffer) (h.bytes p.tcpOptions) (h.bytes p.tcpData), h) := by
  have hr := hm.room
  have hw := window_length hm.buf
  have hc := hm.buf.1
  rw [computeTCP_eq hm.buf hm.hdr (by omega) hm.opts hm.data (hm.optsClear.mono (by omega) (by omega))
    (hm.dataClear.mono (by omega) (by omega)),
    finalize_tcp hm.hdr (by omega) (by omega)
      (by rw [Heap.bytes_length hm.opts, Heap.bytes_length hm.data]; exact hm.size)]
  rfl

theorem VerifyTCP_eq {h : Heap} {p : Packet} (hm : TcpMem h p) :
    VerifyTCPChecksum h p =
      .ok (tcpCks p (window h p.buffer) (h.bytes p.tcpOptions) (h.bytes p.tcpData) == p.tcpChecksum, h) := by
  unfold VerifyTCPChecksum
  rw [computeTCP_mem hm]; rfl

theorem UpdateTCP_eq {h : Heap} {p : Packet} (hm : TcpMem h p) :
    UpdateTCPChecksum h p =
      .ok (put h p.buffer (splice (window h p.buffer) (p.ipHeaderLen.toNat + 16)
          (enc16 .big (tcpCks p (window h p.buffer) (h.bytes p.tcpOptions) (h.bytes p.tcpData)))),
        { p with tcpChecksum := tcpCks p (window h p.buffer) (h.bytes p.tcpOptions) (h.bytes p.tcpData) }) := by
  have hr := hm.room
  have hw := window_length hm.buf
  have hc := hm.buf.1
  unfold UpdateTCPChecksum
  rw [from_eq hm.buf, if_pos (by omega), Res.ok_bind, computeTCP_mem hm, Res.ok_bind]
  simp only
  have e0 : put h p.buffer (window h p.buffer) = h := put_self _ _
  have := wr16_put hm.buf hw p.ipHeaderLen.toNat tcpChecksumPos
    (tcpCks p (window h p.buffer) (h.bytes p.tcpOptions) (h.bytes p.tcpData))
  rw [e0] at this
  rw [this, if_pos (by simp only [tcpChecksumPos]; omega)]
  rfl

end Verif.Packet
