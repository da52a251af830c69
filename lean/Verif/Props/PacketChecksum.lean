import Verif.Packet.Valid
import Verif.Props.PacketParse
/-! C51-C55: checksums. -/
namespace Verif.Packet
open Verif.Spec

/-! ### C51 -/

/-- C51. For every buffer of up to 131074 bytes (128 KiB and two bytes) `checksum` is the RFC 1071
checksum. -/
theorem C51_checksum_is_rfc1071 (b : List Byte) (hb : b.length ≤ 131074) :
    ∃ c, checksum b = .ok c ∧ c.toNat = inetChecksum b :=
  ⟨_, checksum_cks hb, cks_toNat b⟩

/-- C51. Partial checksums over the pieces of a buffer give the same result when every piece but
the last has even length. -/
theorem C51_running_sums (pieces : List (List Byte)) (last : List Byte)
    (he : ∀ x ∈ pieces, x.length % 2 = 0) (hb : (pieces.flatten ++ last).length ≤ 131074) :
    ∃ c, finalizeChecksum (partialChecksum (pieces.foldl partialChecksum 0) last) = .ok c ∧
      c.toNat = inetChecksum (pieces.flatten ++ last) := by
  have key : ∀ (ps : List (List Byte)) (s : U32), (∀ x ∈ ps, x.length % 2 = 0) →
      ps.foldl partialChecksum s = s + BitVec.ofNat 32 (wsum ps.flatten) ∧ ps.flatten.length % 2 = 0 := by
    intro ps
    induction ps with
    | nil => intro s _; simp
    | cons x t ih =>
      intro s hx
      have h1 := hx x (by simp)
      obtain ⟨h2, h3⟩ := ih (partialChecksum s x) (fun y hy => hx y (by simp [hy]))
      refine ⟨?_, by simp only [List.flatten_cons, List.length_append]; omega⟩
      rw [List.foldl_cons, h2, partialChecksum_eq, List.flatten_cons, wsum_append _ h1, BitVec.add_assoc,
        ← BitVec.ofNat_add]
  obtain ⟨h1, h2⟩ := key pieces 0 he
  refine ⟨cks (pieces.flatten ++ last), ?_, cks_toNat _⟩
  rw [h1, partialChecksum_eq, BitVec.add_assoc, ← BitVec.ofNat_add, ← wsum_append _ h2]
  have := finalize_cks hb
  simpa using this

theorem words_ff (k : Nat) : words (List.replicate (2 * k) 0xff) = List.replicate k 65535 := by
  induction k with
  | zero => rfl
  | succ k ih =>
    rw [show 2 * (k + 1) = 2 * k + 1 + 1 by omega, List.replicate_succ, List.replicate_succ, List.replicate_succ]
    unfold words
    rw [ih]; rfl

theorem sum_rep (k n : Nat) : (List.replicate k n).sum = k * n := by
  induction k with
  | zero => simp
  | succ k ih => rw [List.replicate_succ, List.sum_cons, ih, Nat.succ_mul]; omega

/-- C51, the bound is tight: on 131076 bytes of 0xff the 32-bit sum overflows and `checksum` returns
1 where RFC 1071 gives 0. -/
theorem C51_bound_is_tight :
    (List.replicate (2 * 65538) (0xff : Byte)).length = 131076 ∧
    checksum (List.replicate (2 * 65538) 0xff) = .ok 1 ∧
    inetChecksum (List.replicate (2 * 65538) 0xff) = 0 := by
  have hs : wsum (List.replicate (2 * 65538) 0xff) = 65538 * 65535 := by
    unfold wsum; rw [words_ff, sum_rep]
  refine ⟨by rw [List.length_replicate], ?_, ?_⟩
  · obtain ⟨c, h1, h2⟩ := finalize_eq (BitVec.ofNat 32 (65538 * 65535))
    rw [checksum_eq, hs, h1]
    have hc : c = 1 := by
      apply BitVec.eq_of_toNat_eq
      rw [h2, BitVec.toNat_ofNat]
      simp [red]
    rw [hc]
  · rw [inetChecksum_eq, hs]; simp [red]

/-- C51, concrete (RFC 1071 section 3): the one's complement sum of 00 01 f2 03 f4 f5 f6 f7 is
ddf2. -/
theorem C51_example : checksum [0x00, 0x01, 0xf2, 0x03, 0xf4, 0xf5, 0xf6, 0xf7] = .ok 0x220d := by
  rw [checksum_cks (by decide)]; decide

/-! ### What parsing gives for IPv4 -/

theorem accepted_v4 {h : Heap} {bytes : Slice} (hv : bytes.Valid h) {c : U64} {m : List Char}
    {lv : Bool} {p : Packet} (ha : New h c bytes m lv = .ok (some p, none)) (h4 : p.IPversion = .V4) :
    p.buffer.Valid h ∧ p.ipHeaderLen = 20 ∧ p.buffer.arr = bytes.arr ∧ p.buffer.off = bytes.off ∧
    p.buffer.cap = bytes.cap ∧ p.buffer.len ≤ bytes.len ∧ 20 ≤ bytes.len ∧
    window h p.buffer = window h bytes ∧ V4Bytes p (window h bytes) := by
  have hwl := window_length hv
  have hc := hv.1
  rcases New_accept hv ha with ⟨h20, h45, b, hcb, hacc⟩ | ⟨_, _, _, b, hcb, hacc⟩
  · obtain ⟨_, e2, e3, e4, e5, e6, e7, e8, e9, _⟩ := hacc.same_ip
    obtain ⟨k1, k2, k3⟩ := checkedBuf_valid hv hcb
    have e9' : p.buffer = b := e9
    rw [e9']
    refine ⟨k1, e2, ?_, ?_, ?_, k2, h20, ?_, ?_, ?_, e4.symm, e6.symm⟩
    · rw [k3]; rfl
    · rw [k3]; rfl
    · rw [k3]; rfl
    · rw [k3]; rfl
    · omega
    · rw [h45]; decide
  · have hv6 : p.version = .V6 := by
      rcases hacc with ⟨_, hacc⟩ | ⟨_, _, _, hacc⟩
      · rw [hacc.same_ip.1]; rfl
      · rw [hacc.same_ip.1]; rfl
    have : p.version = .V4 := h4
    rw [this] at hv6; exact absurd hv6 (by decide)

theorem hdr_bytes {h : Heap} {bytes : Slice} (hv : bytes.Valid h) (h20 : 20 ≤ bytes.len) :
    zeroed (window h bytes) = zeroed (h.bytes bytes) ∧
    u16at (window h bytes) 10 = u16at (h.bytes bytes) 10 ∧
    u16at (window h bytes) 2 = u16at (h.bytes bytes) 2 := by
  rw [bytes_eq_window hv]
  refine ⟨?_, ?_, ?_⟩
  · unfold zeroed
    rw [List.take_take, Nat.min_eq_left h20]
  · rw [u16at_take (by omega)]
  · rw [u16at_take (by omega)]

theorem CsumOk_window {h : Heap} {bytes : Slice} (hv : bytes.Valid h) (h20 : 20 ≤ bytes.len) :
    CsumOk (window h bytes) ↔ ipv4ChecksumOk (h.bytes bytes) := by
  obtain ⟨h1, h2, _⟩ := hdr_bytes hv h20
  rw [← CsumOk_iff (by rw [Heap.bytes_length hv]; omega)]
  unfold CsumOk
  rw [ipv4HeaderChecksum_eq, ipv4HeaderChecksum_eq, h1, h2]

/-! ### C52 -/

/-- C52. On every freshly parsed IPv4 packet whose buffer holds the checksum field,
`VerifyIPv4Checksum` returns true iff the header checksum on the wire is the RFC 791 one, and
memory is afterwards exactly as before.  (A packet trimmed to fewer than 12 bytes, possible for
other protocols than TCP and UDP or for bogus UDP lengths, makes it crash.) -/
theorem C52_verify_ipv4 {h : Heap} {bytes : Slice} (hv : bytes.Valid h) {c : U64} {m : List Char}
    {lv : Bool} {p : Packet} (ha : New h c bytes m lv = .ok (some p, none)) (h4 : p.IPversion = .V4) :
    (12 ≤ p.buffer.len → ∃ b, VerifyIPv4Checksum h p = .ok (b, h) ∧
      (b = true ↔ ipv4ChecksumOk (h.bytes bytes))) ∧
    (p.buffer.len < 12 → VerifyIPv4Checksum h p = .panic) := by
  obtain ⟨k1, k2, _, _, k5, _, k7, k8, k9⟩ := accepted_v4 hv ha h4
  have hc := hv.1
  have hwl := window_length hv
  constructor
  · intro h12
    refine ⟨cks (splice ((window h p.buffer).take 20) 10 [0, 0]) == p.ipChecksum, ?_, ?_⟩
    · rw [VerifyIPv4_eq k1 k2 h12 (by omega)]
      congr 2
      rw [k8, ← k9.csum, enc16_u16at, splice_u16at (by omega), ← k8, put_self]
    · rw [← CsumOk_window hv k7, k8]
      unfold CsumOk
      rw [k9.csum, ipv4HeaderChecksum_eq, ← cks_toNat, beq_iff_eq, BitVec.toNat_inj]
      exact eq_comm
  · intro h12
    unfold VerifyIPv4Checksum computeIPv4Checksum
    by_cases h10 : 10 < p.buffer.len
    · have e0 : wr8 h p.buffer ipv4ChecksumPos 0 = .ok (put h p.buffer (splice (window h p.buffer) 10 [0])) := by
        exact wr8_mem (n := 0) k1 (by simp only [ipv4ChecksumPos]; omega) 0
      have e1 : wr8 (put h p.buffer (splice (window h p.buffer) 10 [0])) p.buffer (ipv4ChecksumPos + 1) 0 = .panic := by
        rw [wr8_put0 k1 (by rw [splice_length _ _ _ (by rw [k8]; simp; omega), k8, k5]; exact hwl),
          if_neg (by simp only [ipv4ChecksumPos]; omega)]
      rw [e0, Res.ok_bind, e1]; rfl
    · have : wr8 h p.buffer ipv4ChecksumPos 0 = .panic := by
        unfold wr8 Heap.store
        rw [if_neg (by simp [ipv4ChecksumPos]; omega)]
      rw [this]; rfl

/-! ### C53 -/

/-- The receiver's check of RFC 1071: the one's complement sum over the header, checksum included,
is all ones. -/
def receiverAccepts (hdr : List Byte) : Prop := ocSum (words hdr) = 65535

theorem receiver_ok {W : List Byte} (hl : 20 ≤ W.length) (hv : CsumOk W) : receiverAccepts (W.take 20) := by
  unfold receiverAccepts
  rw [ocSum_eq]
  have h1 := wsum_splice16 (b := W.take 20) (i := 10) (by simp; omega) (by omega) 0
  have h2 : splice (W.take 20) 10 (enc16 .big 0) = zeroed W := rfl
  rw [h2, u16at_take (by omega)] at h1
  unfold CsumOk at hv
  rw [ipv4HeaderChecksum_eq, inetChecksum_eq] at hv
  rw [hv] at h1
  have h3 := red_le (wsum (zeroed W))
  have h4 := red_mod (wsum (zeroed W))
  have h5 : (0 : U16).toNat = 0 := rfl
  have : red (wsum (W.take 20)) = red 65535 := by
    have hz := @red_eq_zero (wsum (zeroed W))
    apply red_congr
    · omega
    · omega
  rw [this]; decide

/-- C53. After `UpdateIPv4Checksum` on any accepted IPv4 packet (with room for the checksum field):
the header checksum on the wire is the RFC 791 one, `VerifyIPv4Checksum` is true, the receiver's
check passes, and of all memory only bytes 10 and 11 of the packet may have changed. -/
theorem C53_update_ipv4 {h : Heap} {bytes : Slice} (hv : bytes.Valid h) {c : U64} {m : List Char}
    {lv : Bool} {p : Packet} (ha : New h c bytes m lv = .ok (some p, none)) (h4 : p.IPversion = .V4)
    (h12 : 12 ≤ p.buffer.len) :
    ∃ h' p', UpdateIPv4Checksum h p = .ok (h', p') ∧ ipv4ChecksumOk (h'.bytes bytes) ∧
      VerifyIPv4Checksum h' p' = .ok (true, h') ∧ receiverAccepts ((h'.bytes bytes).take 20) ∧
      OnlyChanged h h' bytes (fun i => i = 10 ∨ i = 11) ∧
      p' = { p with ipChecksum := p'.ipChecksum } := by
  obtain ⟨k1, k2, ka, ko, k5, _, k7, k8, k9⟩ := accepted_v4 hv ha h4
  have hc := hv.1
  have hwl := window_length hv
  have hpb : ∀ W, put h p.buffer W = put h bytes W := by
    intro W; unfold put; rw [ka, ko]
  generalize hC : cks (splice ((window h p.buffer).take 20) 10 [0, 0]) = C
  have hCn : C.toNat = ipv4HeaderChecksum (window h bytes) := by
    rw [← hC, cks_toNat, k8]; rfl
  have hl2 : (splice (window h bytes) 10 (enc16 .big C)).length = bytes.cap := by
    rw [splice_length _ _ _ (by simp; omega)]; exact hwl
  have hv' := put_valid hv hl2 hv
  have hw' : window (put h bytes (splice (window h bytes) 10 (enc16 .big C))) bytes
      = splice (window h bytes) 10 (enc16 .big C) := window_put hv hl2
  have hok : CsumOk (splice (window h bytes) 10 (enc16 .big C)) := by
    unfold CsumOk
    rw [u16at_splice_same (by omega), hCn, ipv4HeaderChecksum_eq, ipv4HeaderChecksum_eq, zeroed_csum (by omega)]
  refine ⟨put h bytes (splice (window h bytes) 10 (enc16 .big C)), { p with ipChecksum := C }, ?_, ?_, ?_, ?_, ?_, ?_⟩
  · rw [UpdateIPv4_eq k1 k2 h12 (by omega), hC, k8, hpb]
  · rw [← CsumOk_window hv' k7, hw']
    exact hok
  · have hb' : ({ p with ipChecksum := C } : Packet).buffer.Valid
        (put h bytes (splice (window h bytes) 10 (enc16 .big C))) := put_valid hv hl2 k1
    have hwb : window (put h bytes (splice (window h bytes) 10 (enc16 .big C))) p.buffer
        = splice (window h bytes) 10 (enc16 .big C) := by
      refine Eq.trans ?_ hw'
      show ((Heap.arrayOf _ p.buffer.arr).drop p.buffer.off).take p.buffer.cap = _
      rw [ka, ko, k5]; rfl
    have := VerifyIPv4_eq (p := { p with ipChecksum := C }) hb' k2 h12 (by show 20 ≤ p.buffer.cap; omega)
    rw [this]
    simp only
    rw [hwb]
    congr 2
    · have hz : splice ((splice (window h bytes) 10 (enc16 .big C)).take 20) 10 [0, 0] = zeroed (window h bytes) :=
        zeroed_csum (by omega) C
      rw [hz, beq_iff_eq, ← hC, k8]; rfl
    · rw [splice_over (by simp; omega) (by simp)]
      unfold put
      rw [ka, ko]
      have := put_put hv hl2 hl2
      unfold put at this
      exact this
  · have := receiver_ok (W := splice (window h bytes) 10 (enc16 .big C)) (by omega) hok
    rw [bytes_eq_window hv', hw', List.take_take, Nat.min_eq_left k7]
    exact this
  · exact (splice_onlyChanged hv (by simp; omega)).mono (fun i hi => by simp at hi; omega)
  · rfl

/-- C53, non-vacuous: a concrete header with a wrong checksum is accepted. -/
theorem C53_example :
    ∃ p, New ⟨[[0x45, 0, 0, 40, 0, 7, 0, 0, 64, 6, 1, 2, 10, 0, 0, 1, 10, 0, 0, 2, 4, 210, 0, 80,
        0, 0, 0, 1, 0, 0, 0, 2, 0x50, 0x18, 1, 0, 0, 0, 0, 0]]⟩ 0 ⟨0, 0, 40, 40⟩ [] true
      = .ok (some p, none) ∧ p.IPversion = .V4 ∧ 12 ≤ p.buffer.len ∧
      ¬ ipv4ChecksumOk [0x45, 0, 0, 40, 0, 7, 0, 0, 64, 6, 1, 2, 10, 0, 0, 1, 10, 0, 0, 2, 4, 210, 0, 80,
        0, 0, 0, 1, 0, 0, 0, 2, 0x50, 0x18, 1, 0, 0, 0, 0, 0] := by
  refine ⟨_, rfl, ?_⟩
  unfold ipv4ChecksumOk
  decide

/-! ### C54 -/

/-- The RFC 793/8200 checksum of a whole packet of version `v`. -/
def rfcTcpChecksum (v : IPver) (pkt : List Byte) : Nat :=
  match v with
  | .V4 => packetTcpChecksum4 pkt
  | .V6 => packetTcpChecksum6 pkt

theorem rfc_covered (v : IPver) (pkt : List Byte) : rfcTcpChecksum v pkt =
    inetChecksum (match v with
      | .V4 => tcpCovered .V4 ((pkt.drop 12).take 4) ((pkt.drop 16).take 4) (pkt.drop 20)
      | .V6 => tcpCovered .V6 ((pkt.drop 8).take 16) ((pkt.drop 24).take 16) (pkt.drop 40)) := by
  cases v <;> rfl

theorem take_drop_append {W : List Byte} {n i k : Nat} (hn : n ≤ W.length) (h : i + k ≤ n) (t : List Byte) :
    ((W.take n ++ t).drop i).take k = (W.drop i).take k := by
  apply List.ext_getElem?
  intro j
  rw [List.getElem?_take, List.getElem?_take]
  split
  · rw [List.getElem?_drop, List.getElem?_drop, List.getElem?_append_left (by simp; omega), List.getElem?_take,
      if_pos (by omega)]
  · rfl

/-- What the code computes is the RFC checksum of the assembled packet, if its parts are summed at
even offsets. -/
theorem tcpCks_rfc {p : Packet} {W opts data : List Byte} (hv : HdrOk p)
    (hl : p.buffer.len ≤ W.length) (hlen : p.ipHeaderLen.toNat + 18 ≤ p.buffer.len)
    (he : EvenParts ((W.take p.buffer.len).drop p.ipHeaderLen.toNat) opts data)
    (hs : p.buffer.len - p.ipHeaderLen.toNat + opts.length + data.length < 65536) :
    (tcpCks p W opts data).toNat = rfcTcpChecksum p.version (W.take p.buffer.len ++ opts ++ data) := by
  unfold tcpCks
  rw [BitVec.toNat_ofNat, Nat.mod_eq_of_lt (by omega), tcpSum_eq hv hl hlen he hs, rfc_covered, inetChecksum_eq]
  rw [List.append_assoc, List.append_assoc (W.take p.buffer.len)]
  rcases hv.nat with ⟨h1, h2⟩ | ⟨h1, h2⟩
  · unfold wireSrc wireDst
    rw [h1, h2]
    simp only
    rw [take_drop_append hl (by omega), take_drop_append hl (by omega), List.drop_append_of_le_length (by simp; omega)]
  · unfold wireSrc wireDst
    rw [h1, h2]
    simp only
    rw [take_drop_append hl (by omega), take_drop_append hl (by omega), List.drop_append_of_le_length (by simp; omega)]

theorem tcpSum_csum {p : Packet} {W opts data : List Byte} (hv : HdrOk p) (hl : p.buffer.len ≤ W.length)
    (hlen : p.ipHeaderLen.toNat + 18 ≤ p.buffer.len) (c x : U16) :
    tcpCks { p with tcpChecksum := x } (splice W (p.ipHeaderLen.toNat + 16) (enc16 .big c)) opts data
      = tcpCks p W opts data := by
  have ha : wireAddrs { p with tcpChecksum := x } (splice W (p.ipHeaderLen.toNat + 16) (enc16 .big c)) = wireAddrs p W := by
    rw [wireAddrs_splice (by simp; omega)
      (by rcases hv.nat with ⟨h1, h2⟩ | ⟨h1, h2⟩; exact .inl ⟨h1, by omega⟩; exact .inr (by omega))]
    rfl
  unfold tcpCks tcpSum
  rw [ha]
  simp only
  rw [take_splice_lt (by simp; omega) (by simp; omega), drop_splice_lt (by simp; omega),
    splice_over (by simp; omega) (by simp)]

/-- C54. For every TCP packet in memory (freshly parsed, or with options and data attached):
`UpdateTCPChecksum` succeeds, `VerifyTCPChecksum` is then true, of all memory only the two checksum
bytes change, and the checksum is the RFC 793/8200 one of the assembled packet whenever each part
but the last has even length. -/
theorem C54_update_tcp {h : Heap} {p : Packet} (hm : TcpMem h p) :
    ∃ h' p', UpdateTCPChecksum h p = .ok (h', p') ∧ VerifyTCPChecksum h' p' = .ok (true, h') ∧
      OnlyChanged h h' p.buffer (fun i => i = p.IPHeaderLen.toNat + 16 ∨ i = p.IPHeaderLen.toNat + 17) ∧
      p' = { p with tcpChecksum := p'.tcpChecksum } ∧ TcpMem h' p' ∧
      be16 (p'.GetTCPBytes h') (p.IPHeaderLen.toNat + 16) = some p'.tcpChecksum.toNat ∧
      (EvenParts ((h.bytes p.buffer).drop p.IPHeaderLen.toNat) (h.bytes p.tcpOptions) (h.bytes p.tcpData) →
        p'.tcpChecksum.toNat = rfcTcpChecksum p.IPversion (p'.GetTCPBytes h')) := by
  have hr := hm.room
  have hwl := window_length hm.buf
  have hc := hm.buf.1
  have hol := Heap.bytes_length hm.opts
  have hdl := Heap.bytes_length hm.data
  have hsz := hm.size
  have hbl := Heap.bytes_length hm.buf
  generalize hC : tcpCks p (window h p.buffer) (h.bytes p.tcpOptions) (h.bytes p.tcpData) = C
  have hl2 : (splice (window h p.buffer) (p.ipHeaderLen.toNat + 16) (enc16 .big C)).length = p.buffer.cap := by
    rw [splice_length _ _ _ (by simp; omega)]; exact hwl
  have hb' := put_valid hm.buf hl2 hm.buf
  have hw' := window_put hm.buf hl2
  have hob : (put h p.buffer (splice (window h p.buffer) (p.ipHeaderLen.toNat + 16) (enc16 .big C))).bytes p.tcpOptions
      = h.bytes p.tcpOptions := by
    rw [bytes_splice_clear hm.buf hwl (by simp; omega) (hm.optsClear.mono (by omega) (by simp)), put_self]
  have hdb : (put h p.buffer (splice (window h p.buffer) (p.ipHeaderLen.toNat + 16) (enc16 .big C))).bytes p.tcpData
      = h.bytes p.tcpData := by
    rw [bytes_splice_clear hm.buf hwl (by simp; omega) (hm.dataClear.mono (by omega) (by simp)), put_self]
  have hm' : TcpMem (put h p.buffer (splice (window h p.buffer) (p.ipHeaderLen.toNat + 16) (enc16 .big C)))
      { p with tcpChecksum := C } :=
    ⟨hb', hm.hdr, hm.room, put_valid hm.buf hl2 hm.opts, put_valid hm.buf hl2 hm.data, hm.optsClear, hm.dataClear, hm.size⟩
  have hbb : (put h p.buffer (splice (window h p.buffer) (p.ipHeaderLen.toNat + 16) (enc16 .big C))).bytes p.buffer
      = splice (h.bytes p.buffer) (p.ipHeaderLen.toNat + 16) (enc16 .big C) := by
    rw [bytes_put hm.buf hl2, take_splice_lt (by simp; omega) (by simp; omega), ← bytes_eq_window hm.buf]
  have hpk : ({ p with tcpChecksum := C } : Packet).GetTCPBytes
      (put h p.buffer (splice (window h p.buffer) (p.ipHeaderLen.toNat + 16) (enc16 .big C)))
      = splice (h.bytes p.buffer) (p.ipHeaderLen.toNat + 16) (enc16 .big C) ++ h.bytes p.tcpOptions ++ h.bytes p.tcpData := by
    unfold Packet.GetTCPBytes
    simp only
    rw [hbb, hob, hdb]
  refine ⟨put h p.buffer (splice (window h p.buffer) (p.ipHeaderLen.toNat + 16) (enc16 .big C)),
    { p with tcpChecksum := C }, ?_, ?_, ?_, rfl, hm', ?_, ?_⟩
  · rw [UpdateTCP_eq hm, hC]
  · rw [VerifyTCP_eq hm']
    simp only
    rw [hw', hob, hdb, tcpSum_csum hm.hdr (by omega) (by omega), hC]
    simp
  · exact (splice_onlyChanged hm.buf (by simp; omega)).mono (fun i hi => by
      simp only [Packet.IPHeaderLen]; simp at hi; omega)
  · rw [hpk, be16_u16at (by simp only [Packet.IPHeaderLen, List.length_append]; rw [splice_length _ _ _ (by simp; omega)]; omega)]
    congr 2
    show u16at _ (p.ipHeaderLen.toNat + 16) = C
    rw [List.append_assoc, ← splice_append_left (by simp; omega)]
    exact u16at_splice_same (by simp; omega)
  · intro he
    show C.toNat = _
    have hC2 : tcpCks { p with tcpChecksum := C } (splice (window h p.buffer) (p.ipHeaderLen.toNat + 16) (enc16 .big C))
        (h.bytes p.tcpOptions) (h.bytes p.tcpData) = C := (tcpSum_csum hm.hdr (by omega) (by omega) C C).trans hC
    rw [hpk]
    have := tcpCks_rfc (p := { p with tcpChecksum := C })
      (W := splice (window h p.buffer) (p.ipHeaderLen.toNat + 16) (enc16 .big C))
      (opts := h.bytes p.tcpOptions) (data := h.bytes p.tcpData) hm.hdr (by rw [hl2]; exact hc)
      (by show p.ipHeaderLen.toNat + 18 ≤ p.buffer.len; omega)
      (by
        unfold EvenParts at he ⊢
        refine ⟨?_, he.2⟩
        rcases he.1 with h1 | h1
        · left
          simp only [List.length_drop, List.length_take, hl2]
          simp only [List.length_drop, hbl, Packet.IPHeaderLen] at h1
          rw [Nat.min_eq_left hc]
          exact h1
        · right; exact h1)
      (by show p.buffer.len - p.ipHeaderLen.toNat + _ + _ < 65536; omega)
    rw [hC2] at this
    rw [this]
    show rfcTcpChecksum p.version _ = _
    congr 3
    rw [take_splice_lt (by simp; omega) (by show _ ≤ p.buffer.len; simp; omega)]
    show splice (List.take p.buffer.len (window h p.buffer)) _ _ = _
    rw [← bytes_eq_window hm.buf]

theorem nil_valid (h : Heap) : Slice.nil.Valid h := ⟨Nat.le_refl _, Nat.zero_le _⟩

theorem nil_clear (s : Slice) (i n : Nat) : Clear s Slice.nil i n := by
  right; left; simp [Slice.nil]

theorem nil_bytes (h : Heap) : h.bytes Slice.nil = [] := by simp [Heap.bytes, Slice.nil]

/-- Every TCP packet accepted with validated lengths (below 64 KiB) is as C54 and the other TCP
properties need it. -/
theorem accepted_mem {h : Heap} {bytes : Slice} (hv : bytes.Valid h) {c : U64} {m : List Char}
    {p : Packet} (ha : New h c bytes m true = .ok (some p, none)) (ht : p.IPProto = 6)
    (hn : bytes.len < 65536) : TcpMem h p := by
  obtain ⟨h1, h2, h3, _, h5, h6, _, _, h9, _, h11⟩ := accepted_tcp hv ha ht
  obtain ⟨_, h12⟩ := h11 rfl hn
  refine ⟨h1, h3, h12, ?_, ?_, ?_, ?_, ?_⟩
  · rw [h5]; exact nil_valid h
  · rw [h6]; exact nil_valid h
  · rw [h5]; exact nil_clear _ _ _
  · rw [h6]; exact nil_clear _ _ _
  · rw [h5, h6]; simp [Slice.nil]; omega

theorem accepted_checksum {h : Heap} {bytes : Slice} (hv : bytes.Valid h) {c : U64} {m : List Char}
    {lv : Bool} {p : Packet} (ha : New h c bytes m lv = .ok (some p, none)) (ht : p.IPProto = 6) :
    be16 (window h bytes) (p.IPHeaderLen.toNat + 16) = some p.tcpChecksum.toNat := by
  cases hver : p.IPversion with
  | V4 =>
    obtain ⟨_, e, _, _, _, _, _, _, _, _, _, hf⟩ := C47_ipv4_fields hv ha hver
    rw [e]; exact (hf.tcp ht).2.2.2.2.2.2
  | V6 =>
    obtain ⟨e, hf⟩ : p.IPHeaderLen = 40 ∧ TransportFields p (window h bytes) 40 := by
      have := C48_ipv6_fields hv ha hver
      exact ⟨this.2.1, this.2.2.2.2.2.2.2.2⟩
    rw [e]; exact (hf.tcp ht).2.2.2.2.2.2

/-- C54. On a freshly parsed TCP packet `VerifyTCPChecksum` returns true iff the checksum on the wire
is the RFC 793/8200 one, and changes nothing. -/
theorem C54_verify_tcp {h : Heap} {bytes : Slice} (hv : bytes.Valid h) {c : U64} {m : List Char}
    {p : Packet} (ha : New h c bytes m true = .ok (some p, none)) (ht : p.IPProto = 6)
    (hn : bytes.len < 65536) :
    ∃ b, VerifyTCPChecksum h p = .ok (b, h) ∧
      (b = true ↔ be16 (h.bytes p.buffer) (p.IPHeaderLen.toNat + 16)
        = some (rfcTcpChecksum p.IPversion (h.bytes p.buffer))) := by
  have hm := accepted_mem hv ha ht hn
  obtain ⟨h1, h2, h3, _, h5, h6, _, h8, h9, _, h11⟩ := accepted_tcp hv ha ht
  have hcs := accepted_checksum hv ha ht
  have hr := hm.room
  have hc := hm.buf.1
  have hwl := window_length hm.buf
  have hbw := bytes_eq_window hm.buf
  have hbl := Heap.bytes_length hm.buf
  refine ⟨tcpCks p (window h p.buffer) (h.bytes p.tcpOptions) (h.bytes p.tcpData) == p.tcpChecksum,
    VerifyTCP_eq hm, ?_⟩
  have hrfc := tcpCks_rfc (p := p) (W := window h p.buffer) (opts := []) (data := []) hm.hdr (by omega) (by omega)
    ⟨.inr ⟨rfl, rfl⟩, .inl rfl⟩ (by have := hm.size; simp; omega)
  rw [← hbw] at hrfc
  simp only [List.append_nil] at hrfc
  have hwire : be16 (h.bytes p.buffer) (p.IPHeaderLen.toNat + 16) = some p.tcpChecksum.toNat := by
    rw [← hcs, ← h8]
    have hr' : p.IPHeaderLen.toNat + 20 ≤ p.buffer.len := hr
    rw [be16_u16at (by omega), be16_u16at (by omega), hbw, u16at_take (by omega)]
  rw [hwire, h5, h6, nil_bytes, beq_iff_eq, Option.some.injEq]
  show _ ↔ _ = rfcTcpChecksum p.version _
  rw [← hrfc, BitVec.toNat_inj]
  exact eq_comm

/-- A TCP packet with one payload byte, and one more byte of memory that is attached as data. -/
def oddHeap : Heap := ⟨[[0x45, 0, 0, 41, 0, 7, 0, 0, 64, 6, 0, 0, 10, 0, 0, 1, 10, 0, 0, 2, 4, 210, 0, 80,
  0, 0, 0, 1, 0, 0, 0, 2, 0x50, 0x18, 1, 0, 0, 0, 0, 0, 65], [66]]⟩

/-- What `New` returns for the first cell of `oddHeap`. -/
def oddPacket : Packet where
  context := 0
  mark := []
  buffer := ⟨0, 0, 41, 41⟩
  ipHeaderLen := 20
  ipProto := 6
  ipTotalLength := 41
  ipID := 7
  ipChecksum := 0
  version := .V4
  sourceAddress := [10, 0, 0, 1]
  destinationAddress := [10, 0, 0, 2]
  tcpOptions := Slice.nil
  tcpData := Slice.nil
  tcpSourcePort := 1234
  tcpDestinationPort := 80
  tcpSeq := 1
  tcpAck := 2
  tcpDataOffset := 5
  tcpFlags := 0x18
  tcpChecksum := 0
  tcpTotalLength := 21
  udpSourcePort := 0
  udpDestinationPort := 0
  udpChecksum := 0
  udpData := []
  l4flowhash := "10.0.0.1:10.0.0.2:1234:80".toList

/-- C54 does not extend to attachments after an odd number of bytes: a packet with one payload byte
and one attached data byte gets a checksum that is not the RFC 793 one of its bytes, and a receiver
would reject it. -/
theorem C54_odd_attachment :
    ∃ p, New oddHeap 0 ⟨0, 0, 41, 41⟩ [] true = .ok (some p, none) ∧
    ∃ h' p', UpdateTCPChecksum oddHeap (p.SetTCPData ⟨1, 0, 1, 1⟩) = .ok (h', p') ∧
      VerifyTCPChecksum h' p' = .ok (true, h') ∧
      p'.tcpChecksum.toNat ≠ rfcTcpChecksum p.IPversion (p'.GetTCPBytes h') := by
  refine ⟨oddPacket, by decide +kernel, ?_⟩
  have hm : TcpMem oddHeap (oddPacket.SetTCPData ⟨1, 0, 1, 1⟩) := by
    refine ⟨by unfold Slice.Valid; decide, .inl ⟨rfl, rfl⟩, by decide, by unfold Slice.Valid; decide,
      by unfold Slice.Valid; decide, ?_, ?_, by decide⟩ <;> (unfold Clear; decide)
  obtain ⟨h', p', hu, hv, _, hp', _, _, _⟩ := C54_update_tcp hm
  refine ⟨h', p', ?_, hv, ?_⟩
  · exact hu
  · rw [UpdateTCP_eq hm] at hu
    simp only [Res.ok.injEq, Prod.mk.injEq] at hu
    rw [← hu.1, ← hu.2]
    decide +kernel

/-! ### C55 -/

/-- C55. If an IPv4 packet's header checksum is valid, then changing the length with
`FixupIPHdrOnDataModify(current length, new)` gives, for every `new`, a header stating `new` with a
valid checksum again; of all memory only bytes 2, 3, 10 and 11 may change. -/
theorem C55_incremental_length {h : Heap} {bytes : Slice} (hv : bytes.Valid h) {c : U64} {m : List Char}
    {lv : Bool} {p : Packet} (ha : New h c bytes m lv = .ok (some p, none)) (h4 : p.IPversion = .V4)
    (hok : ipv4ChecksumOk (h.bytes bytes)) (new : U16) :
    ∃ h' p', FixupIPHdrOnDataModify h p p.IPTotalLen new = .ok (h', p') ∧
      be16 (h'.bytes bytes) 2 = some new.toNat ∧ p'.IPTotalLen = new ∧ ipv4ChecksumOk (h'.bytes bytes) ∧
      receiverAccepts ((h'.bytes bytes).take 20) ∧
      OnlyChanged h h' bytes (fun i => i = 2 ∨ i = 3 ∨ i = 10 ∨ i = 11) := by
  obtain ⟨k1, k2, ka, ko, k5, _, k7, k8, k9⟩ := accepted_v4 hv ha h4
  have hc := hv.1
  have hwl := window_length hv
  have hpb : ∀ W, put h p.buffer W = put h bytes W := by
    intro W; unfold put; rw [ka, ko]
  have hl2 : (fixedBytes p (window h bytes) p.ipTotalLength new).length = bytes.cap := by
    rw [fixedBytes_length (by omega)]; exact hwl
  obtain ⟨s1, s2⟩ := fixedBytes_step h4 k9 new
  have s3 := s2 ((CsumOk_window hv k7).mpr hok)
  have hv' := put_valid hv hl2 hv
  have hw' := window_put hv hl2
  have e0 : put h p.buffer (window h bytes) = h := by rw [hpb, put_self]
  refine ⟨put h bytes (fixedBytes p (window h bytes) p.ipTotalLength new), fixed p p.ipTotalLength new, ?_, ?_, ?_, ?_, ?_, ?_⟩
  · have := Fixup_eq k1 (W := window h bytes) (by omega) (by omega) p.ipTotalLength new
    rw [e0, hpb] at this
    exact this
  · rw [be16_u16at (by rw [Heap.bytes_length hv']; omega), ← (hdr_bytes hv' k7).2.2, hw', s1.total, fixed_total]
  · exact fixed_total p new
  · rw [← CsumOk_window hv' k7, hw']; exact s3
  · have := receiver_ok (W := fixedBytes p (window h bytes) p.ipTotalLength new) (by omega) s3
    rw [bytes_eq_window hv', hw', List.take_take, Nat.min_eq_left k7]
    exact this
  · refine put_onlyChanged hv hl2 (fun j hj => ?_)
    exact fixedBytes_other (by omega) _ _ j (.inl ⟨h4, by omega, by omega, by omega, by omega⟩)

/-- C55, non-vacuous: a concrete accepted packet with a valid header checksum (0x66c7). -/
theorem C55_example :
    ∃ p, New ⟨[[0x45, 0, 0, 40, 0, 7, 0, 0, 64, 6, 0x66, 0xc7, 10, 0, 0, 1, 10, 0, 0, 2, 4, 210, 0, 80,
        0, 0, 0, 1, 0, 0, 0, 2, 0x50, 0x18, 1, 0, 0, 0, 0, 0]]⟩ 0 ⟨0, 0, 40, 40⟩ [] true
      = .ok (some p, none) ∧ p.IPversion = .V4 ∧
      ipv4ChecksumOk [0x45, 0, 0, 40, 0, 7, 0, 0, 64, 6, 0x66, 0xc7, 10, 0, 0, 1, 10, 0, 0, 2, 4, 210, 0, 80,
        0, 0, 0, 1, 0, 0, 0, 2, 0x50, 0x18, 1, 0, 0, 0, 0, 0] := by
  refine ⟨_, rfl, ?_⟩
  unfold ipv4ChecksumOk
  decide

end Verif.Packet
