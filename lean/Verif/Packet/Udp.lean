import Verif.Packet.Split
import Verif.Common.Lemmas
/-! The UDP operations as functions on the bytes of the packet. -/
namespace Verif.Packet
open Verif.Spec

/-- Memory `h'` is memory `h` with the bytes of `s` replaced by `B`; slices that do not reach into
`s` still show what they showed. -/
structure Edited (h h' : Heap) (s : Slice) (B : List Byte) : Prop where
  valid : s.Valid h'
  bytes : h'.bytes s = B
  frame : ∀ t : Slice, t.Valid h → t.Valid h' ∧ (Clear s t 0 s.len → h'.bytes t = h.bytes t)

theorem Edited.refl {h : Heap} {s : Slice} (hv : s.Valid h) : Edited h h s (h.bytes s) :=
  ⟨hv, rfl, fun _ ht => ⟨ht, fun _ => rfl⟩⟩

theorem Edited.trans {h h1 h2 : Heap} {s : Slice} {A B : List Byte} (a : Edited h h1 s A) (b : Edited h1 h2 s B) :
    Edited h h2 s B := by
  refine ⟨b.valid, b.bytes, fun t ht => ?_⟩
  obtain ⟨x1, x2⟩ := a.frame t ht
  obtain ⟨y1, y2⟩ := b.frame t x1
  exact ⟨y1, fun hc => (y2 hc).trans (x2 hc)⟩

theorem put_edited {h : Heap} {s : Slice} (hv : s.Valid h) {W : List Byte}
    (hs : SameExcept (fun i => i < s.len) W (window h s)) : Edited h (put h s W) s (W.take s.len) := by
  have hl := hs.1.trans (window_length hv)
  refine ⟨put_valid hv hl hv, bytes_put hv hl, fun t ht => ⟨put_valid hv hl ht, fun hc => ?_⟩⟩
  exact (put_same hv hs).clear (fun i hi => hi) hc

theorem splice_edited {h : Heap} {s : Slice} (hv : s.Valid h) {i : Nat} {bs : List Byte} (hi : i + bs.length ≤ s.len) :
    Edited h (put h s (splice (window h s) i bs)) s (splice (h.bytes s) i bs) := by
  have hwl := window_length hv
  have hc := hv.1
  have hs := (splice_same (b := window h s) (i := i) (bs := bs) (by omega)).mono
    (Q := fun i => i < s.len) (fun j hj => by omega)
  have := put_edited hv hs
  rw [take_splice_lt (by omega) hi, ← bytes_eq_window hv] at this
  exact this

theorem wr16_edited {h : Heap} {s : Slice} (hv : s.Valid h) {n i : Nat} (hi : n + i + 2 ≤ s.len) (v : U16) :
    ∃ h', wr16 h (tail s n) i v = .ok h' ∧ Edited h h' s (splice (h.bytes s) (n + i) (enc16 .big v)) :=
  ⟨_, wr16_mem hv (by have := hv.1; omega) v, splice_edited hv (by simp; omega)⟩

theorem wr8_edited {h : Heap} {s : Slice} (hv : s.Valid h) {n i : Nat} (hi : n + i + 1 ≤ s.len) (v : Byte) :
    ∃ h', wr8 h (tail s n) i v = .ok h' ∧ Edited h h' s (splice (h.bytes s) (n + i) [v]) :=
  ⟨_, wr8_mem hv (by omega) v, splice_edited hv (by simp; omega)⟩

theorem copySub_edited {h : Heap} {s : Slice} (hv : s.Valid h) {i n : Nat} {bs : List Byte} (hn : bs.length = n)
    (hi : i + n ≤ s.len) :
    ∃ h', copySub h s i n bs = .ok h' ∧ Edited h h' s (splice (h.bytes s) i bs) := by
  have := copySub_put hv (window_length hv) hn (by have := hv.1; omega : i + n ≤ s.cap)
  rw [put_self] at this
  exact ⟨_, this, splice_edited hv (by omega)⟩

theorem fixedBytes_take {p : Packet} {W : List Byte} {n : Nat} (hl : 12 ≤ W.length) (hn : 12 ≤ n) (old new : U16) :
    (fixedBytes p W old new).take n = fixedBytes p (W.take n) old new := by
  unfold fixedBytes
  cases p.version with
  | V4 =>
    simp only
    rw [take_splice_lt (by rw [splice_length _ _ _ (by simp; omega)]; simp; omega) (by simp; omega),
      take_splice_lt (by simp; omega) (by simp; omega)]
  | V6 => simp only; rw [take_splice_lt (by simp; omega) (by simp; omega)]

theorem Fixup_edited {h : Heap} {p : Packet} (hb : p.buffer.Valid h) (h20 : 20 ≤ p.buffer.len) (old new : U16) :
    ∃ h', FixupIPHdrOnDataModify h p old new = .ok (h', fixed p old new) ∧
      Edited h h' p.buffer (fixedBytes p (h.bytes p.buffer) old new) := by
  have hwl := window_length hb
  have hc := hb.1
  have := Fixup_eq hb hwl (by omega) old new
  rw [put_self] at this
  refine ⟨_, this, ?_⟩
  have hs := (fixedBytes_same (p := p) (W := window h p.buffer) (by omega) old new).mono
    (Q := fun i => i < p.buffer.len) (fun j hj => by have := hj.lt; omega)
  have h2 := put_edited hb hs
  rw [fixedBytes_take (by omega) (by omega), ← bytes_eq_window hb] at h2
  exact h2

theorem UpdateIPv4_edited {h : Heap} {p : Packet} (hb : p.buffer.Valid h) (h20 : 20 ≤ p.buffer.len)
    (hl : p.ipHeaderLen = 20) :
    ∃ h', UpdateIPv4Checksum h p = .ok (h', { p with ipChecksum := cks (zeroed (h.bytes p.buffer)) }) ∧
      Edited h h' p.buffer (splice (h.bytes p.buffer) 10 (enc16 .big (cks (zeroed (h.bytes p.buffer))))) := by
  have hc := hb.1
  have := UpdateIPv4_eq hb hl (by omega) (by omega)
  have e : splice ((window h p.buffer).take 20) 10 [0, 0] = zeroed (h.bytes p.buffer) := by
    rw [← (hdr_bytes hb h20).1]; rfl
  rw [e] at this
  exact ⟨_, this, splice_edited hb (by simp; omega)⟩

/-! ### Length and checksum of the datagram -/

/-- The two closing steps of every UDP change. -/
noncomputable def finishUDP (h : Heap) (p : Packet) : Res (Heap × Packet) := do
  let h ← fixupUDPHdr h p
  fixupUDPChecksum h p

/-- The bytes after those steps, with checksum `cs`. -/
def finished (H : Nat) (B : List Byte) (cs : U16) : List Byte :=
  splice (splice B (H + 4) (enc16 .big (BitVec.ofNat 16 (B.length - H)))) (H + 6) (enc16 .big cs)

theorem finished_length {H : Nat} {B : List Byte} (hl : H + 8 ≤ B.length) (cs : U16) :
    (finished H B cs).length = B.length := by
  unfold finished
  rw [splice_length, splice_length _ _ _ (by simp; omega)]
  rw [splice_length _ _ _ (by simp; omega)]; simp; omega

theorem wsum_enc32 {n : Nat} (hn : n < 65536) : wsum (enc32 .big (BitVec.ofNat 32 n)) = n := by
  have : enc32 .big (BitVec.ofNat 32 n) = bytes32 .big n := (Verif.Common.bytes32_eq .big n).symm
  rw [this, wsum_bytes32 hn]

theorem enc16_zero : enc16 .big (0 : U16) = [0, 0] := by decide

theorem fixupUDPChecksum_v4 {p : Packet} (hv : p.version = .V4) (h : Heap) :
    fixupUDPChecksum h p = (do
      let buffer ← p.buffer.from' p.ipHeaderLen.toNat
      let h ← wr8 h buffer udpChecksumPos 0
      let h ← wr8 h buffer (udpChecksumPos + 1) 0
      .ok (h, p)) := by
  unfold fixupUDPChecksum; rw [hv]

theorem fixupUDPChecksum_v6 {p : Packet} (hv : p.version = .V6) (h : Heap) :
    fixupUDPChecksum h p = updateUDPv6Checksum h p := by
  unfold fixupUDPChecksum; rw [hv]

theorem finish_edited {h : Heap} {p : Packet} (hb : p.buffer.Valid h) (hh : HdrOk p)
    (hr : p.ipHeaderLen.toNat + 8 ≤ p.buffer.len) (hn : p.buffer.len < 65536)
    (hs : p.version = .V6 → p.sourceAddress.length = 16) (hd : p.version = .V6 → p.destinationAddress.length = 16) :
    ∃ h' cs u, finishUDP h p = .ok (h', { p with udpChecksum := u }) ∧
      Edited h h' p.buffer (finished p.ipHeaderLen.toNat (h.bytes p.buffer) cs) ∧
      (p.version = .V4 → cs = 0) ∧
      (p.version = .V6 → u = cs ∧ cs.toNat = udpSum6 p.sourceAddress p.destinationAddress
        ((finished p.ipHeaderLen.toNat (h.bytes p.buffer) cs).drop p.ipHeaderLen.toNat)) := by
  have hbl := Heap.bytes_length hb
  generalize hH : p.ipHeaderLen.toNat = H at *
  generalize hB : h.bytes p.buffer = B at *
  obtain ⟨h1, e1, E1⟩ := wr16_edited hb (n := H) (i := 4) (by omega) (BitVec.ofNat 16 (p.buffer.len - H))
  have f1 : fixupUDPHdr h p = .ok h1 := by
    unfold fixupUDPHdr
    rw [hH]
    exact res_bind (by rw [from_eq hb, if_pos (by omega)]) e1
  rw [hB, ← hbl] at E1
  have hl1 : (splice B (H + 4) (enc16 .big (BitVec.ofNat 16 (B.length - H)))).length = B.length :=
    splice_length _ _ _ (by simp; omega)
  obtain ⟨h2, e2, E2⟩ := wr8_edited E1.valid (n := H) (i := 6) (by omega) 0
  obtain ⟨h3, e3, E3⟩ := wr8_edited E2.valid (n := H) (i := 7) (by omega) 0
  rw [E1.bytes] at E2
  rw [E2.bytes, show H + 7 = H + 6 + 1 from rfl, splice_two (by omega)] at E3
  have E03 := (E1.trans E2).trans E3
  unfold finishUDP
  have hver : p.version = .V4 ∨ p.version = .V6 := by cases p.version <;> simp
  rcases hver with hv | hv
  · refine ⟨h3, 0, p.udpChecksum, ?_, ?_, fun _ => rfl, fun x => by rw [hv] at x; simp at x⟩
    · refine res_bind f1 ?_
      rw [show fixupUDPChecksum h1 p = _ from fixupUDPChecksum_v4 hv h1]
      rw [hH, from_eq E1.valid, if_pos (by omega), Res.ok_bind]
      refine res_bind e2 (res_bind e3 ?_)
      rfl
    · unfold finished
      rw [enc16_zero]
      exact E03
  · have hs := hs hv
    have hd := hd hv
    have hH40 : H = 40 := by
      rcases hh.nat with ⟨a, b⟩ | ⟨a, b⟩
      · rw [hv] at a; simp at a
      · omega
    generalize hZ : splice (splice B (H + 4) (enc16 .big (BitVec.ofNat 16 (B.length - H)))) (H + 6) [0, 0] = Z at *
    have hZl : Z.length = B.length := by rw [← hZ, splice_length _ _ _ (by simp; omega)]; exact hl1
    have hZd : (Z.drop H).length = B.length - H := by rw [List.length_drop, hZl]
    generalize hL : pseudo6 p.sourceAddress p.destinationAddress (B.length - H) 17 ++ Z.drop H = L
    have h32 : ∀ n, (bytes32 .big n).length = 4 := fun _ => rfl
    have hLl : L.length ≤ 131074 := by
      rw [← hL]; unfold pseudo6; simp only [List.length_append, hZd, h32, hs, hd, List.length_cons, List.length_nil]; omega
    have hLs : wsum L = wsum p.sourceAddress + wsum p.destinationAddress + (B.length - H) + 17 + wsum (Z.drop H) := by
      rw [← hL]
      unfold pseudo6
      rw [wsum_append _ (by simp [h32, hs, hd]), wsum_append _ (by simp [h32, hs, hd]),
        wsum_append _ (by simp [hs, hd]), wsum_append _ (by omega), wsum_bytes32 (by omega)]
      have : wsum ([0, 0, 0, BitVec.ofNat 8 17] : List Byte) = 17 := rfl
      rw [this]
    obtain ⟨h4, e4, E4⟩ := wr16_edited E3.valid (n := H) (i := 6) (by omega) (cks L)
    have E04 := E03.trans E4
    rw [E3.bytes, ← hZ, splice_over (by simp; omega) (by simp)] at E04
    refine ⟨h4, cks L, cks L, ?_, E04, fun x => by rw [hv] at x; simp at x, fun _ => ⟨rfl, ?_⟩⟩
    · refine res_bind f1 ?_
      rw [show fixupUDPChecksum h1 p = _ from fixupUDPChecksum_v6 hv h1]
      unfold updateUDPv6Checksum
      rw [hH]
      refine res_bind (a := tail p.buffer H) (by rw [from_eq E1.valid, if_pos (by omega)]) ?_
      refine res_bind e2 (res_bind e3 ?_)
      refine res_bind (a := cks L) ?_ (res_bind e4 rfl)
      simp only [partialChecksum_eq, bytes_tail, E3.bytes]
      rw [← finalize_cks hLl, hLs, wsum_enc32 (by show p.buffer.len - H < 65536; omega),
        show wsum ([0, 0, 0, 17] : List Byte) = 17 from rfl, show (tail p.buffer H).len = B.length - H from by
          rw [hbl]; rfl]
      simp only [BitVec.ofNat_add]
      rw [show (0 : U32) + BitVec.ofNat 32 (wsum p.sourceAddress) = _ from BitVec.zero_add _]
    · rw [cks_toNat]
      unfold udpSum6
      congr 1
      have hfl := finished_length (H := H) (B := B) (by omega) (cks L)
      rw [List.length_drop, hfl]
      refine hL.symm.trans ?_
      congr 1
      show Z.drop H = splice ((finished H B (cks L)).drop H) 6 [0, 0]
      rw [← drop_splice_lt (by rw [hfl]; simp; omega)]
      congr 1
      unfold finished
      rw [splice_over (by simp; omega) (by simp), hZ]

/-! ### The invariant -/

theorem IPWire.congr {v : IPver} {tot csum : U16} {proto : Byte} {src dst W W' : List Byte}
    (hs : IPWire v tot csum proto src dst W) {n : Nat} (h4 : v = .V4 → 20 ≤ n) (h6 : v = .V6 → 40 ≤ n)
    (he : W'.take n = W.take n) : IPWire v tot csum proto src dst W' := by
  have k8 : ∀ i, i < n → u8at W' i = u8at W i := by
    intro i hi
    rw [← u8at_take hi, he, u8at_take hi]
  have k16 : ∀ i, i + 1 < n → u16at W' i = u16at W i := by
    intro i hi
    rw [← u16at_take hi, he, u16at_take hi]
  have kp : ∀ a k, a + k ≤ n → (W'.drop a).take k = (W.drop a).take k := by
    intro a k hk
    have : ∀ X : List Byte, (X.drop a).take k = ((X.take n).drop a).take k := by
      intro X
      rw [List.drop_take, List.take_take]
      congr 1; omega
    rw [this W', he, ← this W]
  refine ⟨fun e => ?_, fun e => ?_, fun e => ?_, fun e => ?_, fun e => ?_, fun e => ?_, fun e => ?_,
    fun e => ?_, fun e => ?_, fun e => ?_⟩
  · have := h4 e; rw [k8 _ (by omega)]; exact hs.first4 e
  · have := h4 e; rw [k16 _ (by omega)]; exact hs.tot4 e
  · have := h4 e; rw [k16 _ (by omega)]; exact hs.csum4 e
  · have := h4 e; rw [k8 _ (by omega)]; exact hs.proto4 e
  · have := h4 e; rw [kp _ _ (by omega)]; exact hs.src4 e
  · have := h4 e; rw [kp _ _ (by omega)]; exact hs.dst4 e
  · have := h6 e; rw [k16 _ (by omega)]; exact hs.tot6 e
  · have := h6 e; rw [k8 _ (by omega)]; exact hs.proto6 e
  · have := h6 e; rw [kp _ _ (by omega)]; exact hs.src6 e
  · have := h6 e; rw [kp _ _ (by omega)]; exact hs.dst6 e

theorem part_same {b : List Byte} {i : Nat} {bs : List Byte} (hb : i + bs.length ≤ b.length) {n : Nat}
    (hn : bs.length = n) : ((splice b i bs).drop i).take n = bs := by
  have := drop_splice_lt (b := b) (i := 0) (n := i) (bs := bs) (by omega)
  rw [Nat.add_zero] at this
  rw [this]
  unfold splice
  rw [List.take_zero, List.nil_append, List.take_append_of_le_length (by omega), List.take_of_length_le (by omega)]

/-- Exchanging the addresses on the wire. -/
def swapped (v : IPver) (src dst B : List Byte) : List Byte :=
  match v with
  | .V4 => splice (splice B 12 dst) 16 src
  | .V6 => splice (splice B 8 dst) 24 src

/-- Length of an address. -/
def addrLen : IPver → Nat
  | .V4 => 4
  | .V6 => 16

/-- Length of the IP header. -/
def hdrLen : IPver → Nat
  | .V4 => 20
  | .V6 => 40

theorem HdrOk.len {p : Packet} (hh : HdrOk p) : p.ipHeaderLen.toNat = hdrLen p.version := by
  rcases hh.nat with ⟨a, b⟩ | ⟨a, b⟩ <;> rw [a, b] <;> rfl

theorem IPWire.addrs {v : IPver} {tot csum : U16} {proto : Byte} {src dst W : List Byte}
    (hs : IPWire v tot csum proto src dst W) (hl : hdrLen v ≤ W.length) :
    src.length = addrLen v ∧ dst.length = addrLen v := by
  cases v with
  | V4 =>
    have : 20 ≤ W.length := hl
    rw [← hs.src4 rfl, ← hs.dst4 rfl]
    simp [addrLen]; omega
  | V6 =>
    have : 40 ≤ W.length := hl
    rw [← hs.src6 rfl, ← hs.dst6 rfl]
    simp [addrLen]; omega

theorem swapped_length {v : IPver} {src dst B : List Byte} (hs : src.length = addrLen v) (hd : dst.length = addrLen v)
    (hl : hdrLen v ≤ B.length) : (swapped v src dst B).length = B.length := by
  cases v with
  | V4 =>
    have hl : 20 ≤ B.length := hl
    have hs : src.length = 4 := hs
    have hd : dst.length = 4 := hd
    unfold swapped
    simp only
    rw [splice_length, splice_length _ _ _ (by omega)]
    rw [splice_length _ _ _ (by omega)]; omega
  | V6 =>
    have hl : 40 ≤ B.length := hl
    have hs : src.length = 16 := hs
    have hd : dst.length = 16 := hd
    unfold swapped
    simp only
    rw [splice_length, splice_length _ _ _ (by omega)]
    rw [splice_length _ _ _ (by omega)]; omega

theorem IPWire.swap {v : IPver} {tot csum : U16} {proto : Byte} {src dst W : List Byte}
    (hs : IPWire v tot csum proto src dst W) (hl : hdrLen v ≤ W.length) :
    IPWire v tot csum proto dst src (swapped v src dst W) := by
  obtain ⟨l1, l2⟩ := hs.addrs hl
  cases v with
  | V4 =>
    have hl : 20 ≤ W.length := hl
    have l1 : src.length = 4 := l1
    have l2 : dst.length = 4 := l2
    have e1 : 12 + dst.length ≤ W.length := by omega
    have e2 : 16 + src.length ≤ (splice W 12 dst).length := by rw [splice_length _ _ _ e1]; omega
    refine ⟨fun e => ?_, fun e => ?_, fun e => ?_, fun e => ?_, fun e => ?_, fun e => ?_, fun e => by simp at e,
      fun e => by simp at e, fun e => by simp at e, fun e => by simp at e⟩ <;> unfold swapped <;> simp only
    · rw [u8at_splice_ne e2 (by omega), u8at_splice_ne e1 (by omega)]; exact hs.first4 e
    · rw [u16at_splice_ne e2 (by omega), u16at_splice_ne e1 (by omega)]; exact hs.tot4 e
    · rw [u16at_splice_ne e2 (by omega), u16at_splice_ne e1 (by omega)]; exact hs.csum4 e
    · rw [u8at_splice_ne e2 (by omega), u8at_splice_ne e1 (by omega)]; exact hs.proto4 e
    · rw [part_splice e2 (by omega), part_same e1 l2]
    · rw [part_same e2 l1]
  | V6 =>
    have hl : 40 ≤ W.length := hl
    have l1 : src.length = 16 := l1
    have l2 : dst.length = 16 := l2
    have e1 : 8 + dst.length ≤ W.length := by omega
    have e2 : 24 + src.length ≤ (splice W 8 dst).length := by rw [splice_length _ _ _ e1]; omega
    refine ⟨fun e => by simp at e, fun e => by simp at e, fun e => by simp at e, fun e => by simp at e,
      fun e => by simp at e, fun e => by simp at e, fun e => ?_, fun e => ?_, fun e => ?_, fun e => ?_⟩ <;> unfold swapped <;> simp only
    · rw [u16at_splice_ne e2 (by omega), u16at_splice_ne e1 (by omega)]; exact hs.tot6 e
    · rw [u8at_splice_ne e2 (by omega), u8at_splice_ne e1 (by omega)]; exact hs.proto6 e
    · rw [part_splice e2 (by omega), part_same e1 l2]
    · rw [part_same e2 l1]

/-- The structure of a UDP packet says what is in the bytes `B`. -/
structure UdpSync (p : Packet) (B : List Byte) : Prop where
  room : p.ipHeaderLen.toNat + 8 ≤ B.length
  ip : p.IPSync B
  sp : u16at B p.ipHeaderLen.toNat = p.udpSourcePort
  dp : u16at B (p.ipHeaderLen.toNat + 2) = p.udpDestinationPort

/-- What holds of a UDP packet whose buffer holds both headers. -/
structure UdpInv (h : Heap) (p : Packet) : Prop where
  buf : p.buffer.Valid h
  hdr : HdrOk p
  proto : p.ipProto = 17
  sync : UdpSync p (h.bytes p.buffer)

theorem UdpInv.room {h : Heap} {p : Packet} (hi : UdpInv h p) : p.ipHeaderLen.toNat + 8 ≤ p.buffer.len := by
  have := hi.sync.room
  rw [Heap.bytes_length hi.buf] at this
  exact this

theorem UdpSync.congr {p : Packet} {B B' : List Byte} (hs : UdpSync p B) (hh : HdrOk p)
    (he : B'.take (p.ipHeaderLen.toNat + 8) = B.take (p.ipHeaderLen.toNat + 8)) : UdpSync p B' := by
  have hr := hs.room
  have hn := hh.nat
  refine ⟨?_, ?_, ?_, ?_⟩
  · have := congrArg List.length he
    simp only [List.length_take] at this
    omega
  · refine hs.ip.congr (n := p.ipHeaderLen.toNat + 8) ?_ ?_ he
    · intro e; rcases hn with ⟨a, b⟩ | ⟨a, b⟩ <;> omega
    · intro e; rw [e] at hn; rcases hn with ⟨a, b⟩ | ⟨a, b⟩
      · simp at a
      · omega
  · rw [← u16at_take (n := p.ipHeaderLen.toNat + 8) (by omega), he, u16at_take (by omega)]; exact hs.sp
  · rw [← u16at_take (n := p.ipHeaderLen.toNat + 8) (by omega), he, u16at_take (by omega)]; exact hs.dp

/-- Writing the length and checksum of the datagram. -/
theorem UdpSync.finished {p : Packet} {B : List Byte} (hs : UdpSync p B) (hh : HdrOk p) (cs : U16) :
    UdpSync p (finished p.ipHeaderLen.toNat B cs) := by
  have hr := hs.room
  have hg : 20 ≤ p.ipHeaderLen.toNat ∧ (p.version = .V6 → 40 ≤ p.ipHeaderLen.toNat) := by
    rcases hh.nat with ⟨h1, h2⟩ | ⟨h1, h2⟩ <;> rw [h1, h2]
    · exact ⟨Nat.le_refl _, fun e => absurd e (by decide)⟩
    · exact ⟨by omega, fun _ => Nat.le_refl _⟩
  have e1 : p.ipHeaderLen.toNat + 4 + (enc16 .big (BitVec.ofNat 16 (B.length - p.ipHeaderLen.toNat))).length ≤ B.length := by
    simp; omega
  have l1 := splice_length _ _ _ e1
  have e2 : p.ipHeaderLen.toNat + 6 + (enc16 .big cs).length ≤ (splice B (p.ipHeaderLen.toNat + 4)
      (enc16 .big (BitVec.ofNat 16 (B.length - p.ipHeaderLen.toNat)))).length := by rw [l1]; simp; omega
  unfold Packet.finished
  refine ⟨?_, ?_, ?_, ?_⟩
  · rw [splice_length _ _ _ e2, l1]; exact hr
  · exact (hs.ip.above e1 (by omega) (fun e => by have := hg.2 e; omega)).above e2 (by omega) (fun e => by have := hg.2 e; omega)
  · rw [u16at_splice_ne e2 (by omega), u16at_splice_ne e1 (by omega)]; exact hs.sp
  · rw [u16at_splice_ne e2 (by omega), u16at_splice_ne e1 (by omega)]; exact hs.dp

theorem UdpSync.fixed {p : Packet} {B : List Byte} (hs : UdpSync p B) (hh : HdrOk p) (old new : U16) :
    UdpSync (fixed p old new) (fixedBytes p B old new) := by
  have hr := hs.room
  have hg : 20 ≤ p.ipHeaderLen.toNat := by
    rcases hh.nat with ⟨h1, h2⟩ | ⟨h1, h2⟩ <;> omega
  have hsame := fixedBytes_same (p := p) (W := B) (by omega) old new
  refine ⟨?_, IPSync_fixed hh hs.ip (by omega) old new, ?_, ?_⟩
  · rw [hsame.1]; exact hr
  · show u16at _ p.ipHeaderLen.toNat = p.udpSourcePort
    rw [← hs.sp]
    unfold u16at
    rw [hsame.u8 (fun e => by have := e.lt; omega), hsame.u8 (fun e => by have := e.lt; omega)]
  · show u16at _ (p.ipHeaderLen.toNat + 2) = p.udpDestinationPort
    rw [← hs.dp]
    unfold u16at
    rw [hsame.u8 (fun e => by have := e.lt; omega), hsame.u8 (fun e => by have := e.lt; omega)]

/-! ### Appending to the packet -/

/-- `append` to the buffer, as an edit of a longer slice. -/
theorem append_edited (grow : Nat → Nat) {h : Heap} {s : Slice} (hv : s.Valid h) (bs : List Byte) :
    (h.append grow s bs).1.Valid (h.append grow s bs).2 ∧
    (h.append grow s bs).2.bytes (h.append grow s bs).1 = h.bytes s ++ bs ∧
    (h.append grow s bs).1.len = s.len + bs.length ∧
    ∀ t : Slice, t.Valid h → t.Valid (h.append grow s bs).2 ∧
      (Clear s t s.len bs.length → (h.append grow s bs).2.bytes t = h.bytes t) := by
  obtain ⟨a1, a2, a3, a4, _⟩ := Heap.append_spec grow hv bs
  refine ⟨a2, a1, a3, fun t ht => ⟨(a4 t ht).1, fun hc => (a4 t ht).2 ?_⟩⟩
  unfold Clear at hc
  omega

theorem append_clear (grow : Nat → Nat) {h : Heap} {s t : Slice} (ht : t.Valid h) (bs : List Byte) (k : Nat)
    (hc : Clear s t 0 (s.len + bs.length + k)) :
    Clear (h.append grow s bs).1 t 0 ((h.append grow s bs).1.len + k) := by
  unfold Heap.append
  split
  · exact hc
  · unfold Clear
    simp only
    by_cases hx : t.arr = h.arrays.length
    · right; left
      have h2 := ht.2
      rw [hx] at h2
      have : h.arrayOf h.arrays.length = [] := by simp [Heap.arrayOf]
      rw [this] at h2
      have := ht.1
      simp only [List.length_nil] at h2
      omega
    · exact .inl hx

/-- The slice `t` lies in other memory than `s`, or before it: extending `s` does not reach it. -/
def Away (s t : Slice) : Prop := t.arr ≠ s.arr ∨ t.off + t.len ≤ s.off

theorem Away.clear {s t : Slice} (ha : Away s t) (i n : Nat) : Clear s t i n := by
  unfold Away at ha
  unfold Clear
  omega

theorem append_away (grow : Nat → Nat) {h : Heap} {s t : Slice} (ht : t.Valid h) (bs : List Byte) (ha : Away s t) :
    Away (h.append grow s bs).1 t := by
  unfold Heap.append
  split
  · exact ha
  · unfold Away
    simp only
    by_cases hx : t.arr = h.arrays.length
    · right
      have h2 := ht.2
      rw [hx] at h2
      have : h.arrayOf h.arrays.length = [] := by simp [Heap.arrayOf]
      rw [this] at h2
      have := ht.1
      simp only [List.length_nil] at h2
      omega
    · exact .inl hx

theorem append_other (grow : Nat → Nat) {h : Heap} {s t : Slice} (ht : t.Valid h) (hl : 0 < t.len) (bs : List Byte) (ha : t.arr ≠ s.arr) :
    t.arr ≠ (h.append grow s bs).1.arr := by
  unfold Heap.append
  split
  · exact ha
  · intro hx
    have hx : t.arr = h.arrays.length := hx
    have h2 := ht.2
    rw [hx] at h2
    have : h.arrayOf h.arrays.length = [] := by simp [Heap.arrayOf]
    rw [this] at h2
    have := ht.1
    simp only [List.length_nil] at h2
    omega

theorem finished_at {H : Nat} {B : List Byte} (hl : H + 8 ≤ B.length) (cs : U16) :
    u16at (finished H B cs) (H + 4) = BitVec.ofNat 16 (B.length - H) ∧ u16at (finished H B cs) (H + 6) = cs ∧
    SameExcept (fun i => H + 4 ≤ i ∧ i < H + 8) (finished H B cs) B := by
  have e1 : H + 4 + (enc16 .big (BitVec.ofNat 16 (B.length - H))).length ≤ B.length := by simp; omega
  have l1 := splice_length _ _ _ e1
  have e2 : H + 6 + (enc16 .big cs).length ≤ (splice B (H + 4) (enc16 .big (BitVec.ofNat 16 (B.length - H)))).length := by
    rw [l1]; simp; omega
  unfold finished
  refine ⟨?_, ?_, ?_⟩
  · rw [u16at_splice_ne e2 (by omega), u16at_splice_same (by omega)]
  · rw [u16at_splice_same (by rw [l1]; omega)]
  · refine SameExcept.trans ((splice_same e2).mono fun i hi => ?_) ((splice_same e1).mono fun i hi => ?_)
    · simp only [enc16_length] at hi; omega
    · simp only [enc16_length] at hi; omega

theorem CsumOk_congr {A B : List Byte} (he : A.take 20 = B.take 20) : CsumOk A ↔ CsumOk B := by
  unfold CsumOk
  rw [ipv4HeaderChecksum_eq, ipv4HeaderChecksum_eq, ← u16at_take (b := A) (n := 20) (by omega),
    ← u16at_take (b := B) (n := 20) (by omega), he]
  unfold zeroed
  rw [he]

theorem SameExcept.takeEq {P : Nat → Prop} {a b : List Byte} (h1 : SameExcept P a b) {n : Nat} (hn : ∀ i, P i → n ≤ i) :
    a.take n = b.take n := by
  apply List.ext_getElem?
  intro i
  rw [List.getElem?_take, List.getElem?_take]
  split
  · rename_i hi
    exact h1.2 i (fun hp => by have := hn i hp; omega)
  · rfl

/-- The bytes a UDP change may write besides the data: the IP length field, for IPv4 the header
checksum, and the UDP length and checksum. -/
def UdpField (v : IPver) (i : Nat) : Prop := LenField v i ∨ hdrLen v + 4 ≤ i ∧ i < hdrLen v + 8

/-- Everything about adding `data` at the end of a UDP packet and stating the total length `new`. -/
structure GrownTo (h : Heap) (p : Packet) (data : List Byte) (new : U16) (h' : Heap) (p' : Packet) : Prop where
  inv : UdpInv h' p'
  ver : p'.version = p.version
  hlen : p'.ipHeaderLen = p.ipHeaderLen
  src : p'.sourceAddress = p.sourceAddress
  dst : p'.destinationAddress = p.destinationAddress
  sp : p'.udpSourcePort = p.udpSourcePort
  dp : p'.udpDestinationPort = p.udpDestinationPort
  hash : p'.l4flowhash = p.l4flowhash
  states : p'.ipTotalLength = new
  same : SameExcept (UdpField p.version) (h'.bytes p'.buffer) (h.bytes p.buffer ++ data)
  ulen : u16at (h'.bytes p'.buffer) (p.ipHeaderLen.toNat + 4) = BitVec.ofNat 16 (p'.buffer.len - p.ipHeaderLen.toNat)
  cs4 : p.version = .V4 → u16at (h'.bytes p'.buffer) (p.ipHeaderLen.toNat + 6) = 0
  cs6 : p.version = .V6 → (u16at (h'.bytes p'.buffer) (p.ipHeaderLen.toNat + 6)).toNat =
    udpSum6 p.sourceAddress p.destinationAddress ((h'.bytes p'.buffer).drop p.ipHeaderLen.toNat)
  ipcs : p.version = .V4 → CsumOk (h.bytes p.buffer) → CsumOk (h'.bytes p'.buffer)
  frame : ∀ t : Slice, t.Valid h → t.Valid h' ∧
    (Clear p.buffer t 0 (p.buffer.len + data.length) → h'.bytes t = h.bytes t)
  away : ∀ t : Slice, t.Valid h → Away p.buffer t → Away p'.buffer t
  other : ∀ t : Slice, t.Valid h → 0 < t.len → t.arr ≠ p.buffer.arr → t.arr ≠ p'.buffer.arr

/-- The total length stated is the actual one. -/
structure Grown (h : Heap) (p : Packet) (data : List Byte) (h' : Heap) (p' : Packet) : Prop extends
    GrownTo h p data p'.ipTotalLength h' p' where
  tot : p'.ipTotalLength.toNat = p'.buffer.len

theorem GrownTo.len {h : Heap} {p : Packet} {data : List Byte} {new : U16} {h' : Heap} {p' : Packet} (hi : UdpInv h p)
    (hg : GrownTo h p data new h' p') : p'.buffer.len = p.buffer.len + data.length := by
  have := hg.same.1
  rw [Heap.bytes_length hg.inv.buf, List.length_append, Heap.bytes_length hi.buf] at this
  exact this

theorem GrownTo.grown {h : Heap} {p : Packet} {data : List Byte} {new : U16} {h' : Heap} {p' : Packet} (hi : UdpInv h p)
    (hg : GrownTo h p data new h' p') (hn : new.toNat = p.buffer.len + data.length) : Grown h p data h' p' := by
  have hl := hg.len hi
  have hs := hg.states
  subst hs
  exact ⟨hg, by omega⟩

theorem HdrOk.ge {p : Packet} (hh : HdrOk p) : 20 ≤ p.ipHeaderLen.toNat := by
  rcases hh.nat with ⟨h1, h2⟩ | ⟨h1, h2⟩ <;> omega

theorem UdpSync.v4 {p : Packet} {B : List Byte} (hs : UdpSync p B) (hh : HdrOk p) (h4 : p.version = .V4) : V4Bytes p B :=
  ⟨by have := hh.ge; have := hs.room; omega, hs.ip.first4 h4, hs.ip.tot4 h4, hs.ip.csum4 h4⟩

theorem grown_finish {h h2 : Heap} {p : Packet} {b2 : Slice} {ud data : List Byte} {new : U16} (hi : UdpInv h p)
    (hb2 : b2.Valid h2) (hby : h2.bytes b2 = fixedBytes p (h.bytes p.buffer ++ data) p.ipTotalLength new)
    (hlt : p.buffer.len + data.length < 65536)
    (hfr : ∀ t : Slice, t.Valid h → t.Valid h2 ∧ (Clear p.buffer t 0 (p.buffer.len + data.length) →
      h2.bytes t = h.bytes t ∧ Clear b2 t 0 b2.len))
    (haw : ∀ t : Slice, t.Valid h → Away p.buffer t → Away b2 t)
    (hot : ∀ t : Slice, t.Valid h → 0 < t.len → t.arr ≠ p.buffer.arr → t.arr ≠ b2.arr) :
    ∃ h' p', finishUDP h2 { fixed p p.ipTotalLength new with buffer := b2, udpData := ud } = .ok (h', p') ∧
      GrownTo h p data new h' p' := by
  have hr := hi.room
  have hg := hi.hdr.ge
  have hbl := Heap.bytes_length hi.buf
  have hsB : UdpSync p (h.bytes p.buffer ++ data) := hi.sync.congr hi.hdr (by
    rw [List.take_append_of_le_length (by omega)])
  have hsF := hsB.fixed hi.hdr p.ipTotalLength new
  have hsm := fixedBytes_same (p := p) (W := h.bytes p.buffer ++ data) (by rw [List.length_append]; omega) p.ipTotalLength new
  have hl2 : b2.len = p.buffer.len + data.length := by
    rw [← Heap.bytes_length hb2, hby, hsm.1, List.length_append, hbl]
  have hadr := hi.sync.ip.addrs (by rw [← hi.hdr.len]; omega)
  generalize hp2 : ({ fixed p p.ipTotalLength new with buffer := b2, udpData := ud } : Packet) = p2
  have q1 : p2.buffer = b2 := by rw [← hp2]
  have q2 : p2.ipHeaderLen = p.ipHeaderLen := by rw [← hp2]; rfl
  have q3 : p2.version = p.version := by rw [← hp2]; rfl
  have q4 : p2.sourceAddress = p.sourceAddress := by rw [← hp2]; rfl
  have q5 : p2.destinationAddress = p.destinationAddress := by rw [← hp2]; rfl
  have q6 : p2.ipTotalLength = new := by rw [← hp2]; exact fixed_total p new
  have q7 : p2.udpSourcePort = p.udpSourcePort := by rw [← hp2]; rfl
  have q8 : p2.udpDestinationPort = p.udpDestinationPort := by rw [← hp2]; rfl
  have q9 : p2.ipProto = 17 := by rw [← hp2]; exact hi.proto
  have q10 : p2.l4flowhash = p.l4flowhash := by rw [← hp2]; rfl
  have hh2 : HdrOk p2 := by unfold HdrOk; rw [q2, q3]; exact hi.hdr
  have hs2 : UdpSync p2 (h2.bytes b2) := by
    rw [hby, ← hp2]
    exact ⟨hsF.room, hsF.ip, hsF.sp, hsF.dp⟩
  obtain ⟨h', cs, u, e, E, c4, c6⟩ := finish_edited (h := h2) (p := p2) (by rw [q1]; exact hb2) hh2
    (by rw [q1, q2]; omega) (by rw [q1]; omega)
    (by intro x; rw [q4, hadr.1, ← q3, x]; rfl) (by intro x; rw [q5, hadr.2, ← q3, x]; rfl)
  rw [q1] at E c6
  rw [q2] at E c6
  rw [q4, q5, q3] at c6
  rw [q3] at c4
  have hl2' : (h2.bytes b2).length = b2.len := Heap.bytes_length hb2
  obtain ⟨a1, a2, a3⟩ := finished_at (H := p.ipHeaderLen.toNat) (B := h2.bytes b2) (by omega) cs
  refine ⟨h', _, e, ?_⟩
  have hpb : ({ p2 with udpChecksum := u } : Packet).buffer = b2 := q1
  have hsf := hs2.finished hh2 cs
  rw [q2] at hsf
  refine ⟨⟨?_, hh2, q9, ?_⟩, q3, q2, q4, q5, q7, q8, q10, ?_, ?_, ?_, ?_, ?_, ?_, ?_, ?_, ?_⟩
  · rw [hpb]; exact E.valid
  · rw [hpb, E.bytes]
    exact ⟨hsf.room, hsf.ip, hsf.sp, hsf.dp⟩
  · exact q6
  · rw [hpb, E.bytes]
    refine (a3.mono (Q := UdpField p.version) fun i hx => .inr ?_).trans ?_
    · rw [← hi.hdr.len]; exact hx
    · rw [hby]; exact hsm.mono fun i hx => .inl hx
  · rw [hpb, E.bytes, a1, hl2']
  · intro h4
    rw [hpb, E.bytes, a2]; exact c4 h4
  · intro h6
    rw [hpb, E.bytes, a2]; exact (c6 h6).2
  · intro h4 hv
    rw [hpb, E.bytes]
    refine (CsumOk_congr (a3.takeEq fun i hx => by omega)).mpr ?_
    rw [hby]
    refine (fixedBytes_step h4 (hsB.v4 hi.hdr h4) new).2 ?_
    exact (CsumOk_congr (by rw [List.take_append_of_le_length (by omega)])).mpr hv
  · intro t ht
    obtain ⟨x1, x2⟩ := hfr t ht
    obtain ⟨y1, y2⟩ := E.frame t x1
    refine ⟨y1, fun hc => ?_⟩
    rw [y2 (x2 hc).2, (x2 hc).1]
  · intro t ht ha
    rw [hpb]; exact haw t ht ha
  · intro t ht hl ha
    rw [hpb]; exact hot t ht hl ha

theorem splice_append_right {a b bs : List Byte} {i : Nat} (h : i + bs.length ≤ a.length) :
    splice a i bs ++ b = splice (a ++ b) i bs := (splice_append_left h).symm

theorem fixedBytes_append {p : Packet} {W : List Byte} (hl : 12 ≤ W.length) (d : List Byte) (old new : U16) :
    fixedBytes p W old new ++ d = fixedBytes p (W ++ d) old new := by
  unfold fixedBytes
  cases p.version with
  | V4 =>
    simp only
    rw [splice_append_right (by rw [splice_length _ _ _ (by simp; omega)]; simp; omega),
      splice_append_right (by simp; omega)]
  | V6 => simp only; rw [splice_append_right (by simp; omega)]

theorem add_len {t : U16} {n k : Nat} (h : t.toNat = n) (hn : n + k < 65536) :
    (t + BitVec.ofNat 16 k).toNat = n + k := by
  rw [BitVec.toNat_add, BitVec.toNat_ofNat, h]; omega

theorem Token_any (grow : Nat → Nat) {h : Heap} {p : Packet} {a b : Slice} (hi : UdpInv h p)
    (ha : a.Valid h) (hb : b.Valid h) (hn : p.buffer.len + a.len + b.len < 65536) :
    ∃ h' p', UDPTokenAttach grow h p a b = .ok (h', p') ∧
      GrownTo h p (h.bytes a ++ h.bytes b) (p.ipTotalLength + BitVec.ofNat 16 (a.len + b.len)) h' p' := by
  have hr := hi.room
  have hg := hi.hdr.ge
  have hbl := Heap.bytes_length hi.buf
  have hal := Heap.bytes_length ha
  have hbbl := Heap.bytes_length hb
  generalize hD : h.bytes a ++ h.bytes b = D
  have hDl : D.length = a.len + b.len := by rw [← hD, List.length_append, hal, hbbl]
  generalize hN : p.ipTotalLength + BitVec.ofNat 16 (a.len + b.len) = new
  obtain ⟨h1, e1, E1⟩ := Fixup_edited (p := { p with udpData := D }) hi.buf (by show 20 ≤ p.buffer.len; omega)
    p.ipTotalLength new
  have E1 : Edited h h1 p.buffer (fixedBytes p (h.bytes p.buffer) p.ipTotalLength new) := E1
  obtain ⟨r1, r2, r3, r4⟩ := append_edited grow E1.valid D
  obtain ⟨h', p', e, G⟩ := grown_finish (p := p) (ud := D) (data := D) (new := new) hi r1
    (by rw [r2, E1.bytes, fixedBytes_append (by omega)]) (by omega) (by
      intro t ht
      obtain ⟨x1, x2⟩ := E1.frame t ht
      refine ⟨(r4 t x1).1, fun hc => ⟨?_, append_clear grow x1 D 0 hc⟩⟩
      rw [(r4 t x1).2 (hc.mono (by omega) (by omega)), x2 (hc.mono (by omega) (by omega))])
    (fun t ht hw => append_away grow (E1.frame t ht).1 D hw)
    (fun t ht hl hw => append_other grow (E1.frame t ht).1 hl D hw)
  refine ⟨h', p', ?_, G⟩
  unfold UDPTokenAttach
  rw [hD]
  simp only
  rw [hN]
  refine res_bind e1 ?_
  exact e

theorem Token_full (grow : Nat → Nat) {h : Heap} {p : Packet} {a b : Slice} (hi : UdpInv h p)
    (htot : p.ipTotalLength.toNat = p.buffer.len) (ha : a.Valid h) (hb : b.Valid h)
    (hn : p.buffer.len + a.len + b.len < 65536) :
    ∃ h' p', UDPTokenAttach grow h p a b = .ok (h', p') ∧ Grown h p (h.bytes a ++ h.bytes b) h' p' := by
  obtain ⟨h', p', e, G⟩ := Token_any grow hi ha hb hn
  refine ⟨h', p', e, G.grown hi ?_⟩
  rw [add_len htot (by omega), List.length_append, Heap.bytes_length ha, Heap.bytes_length hb]

theorem Data_full (grow : Nat → Nat) {h : Heap} {p : Packet} {a b : Slice} (hi : UdpInv h p)
    (ha : a.Valid h) (hb : b.Valid h) (hn : p.buffer.len + a.len + b.len < 65536) :
    ∃ h' p', UDPDataAttach grow h p a b = .ok (h', p') ∧
      Grown h p (h.bytes a ++ (h.append grow p.buffer (h.bytes a)).2.bytes b) h' p' := by
  have hr := hi.room
  have hg := hi.hdr.ge
  have hbl := Heap.bytes_length hi.buf
  have hal := Heap.bytes_length ha
  obtain ⟨r1, r2, r3, r4⟩ := append_edited grow hi.buf (h.bytes a)
  have rc := fun t (ht : Slice.Valid t h) => append_clear grow (s := p.buffer) ht (h.bytes a)
  have ra := fun t (ht : Slice.Valid t h) => append_away grow (s := p.buffer) ht (h.bytes a)
  have ro := fun t (ht : Slice.Valid t h) hl => append_other grow (s := p.buffer) ht hl (h.bytes a)
  unfold UDPDataAttach
  generalize h.append grow p.buffer (h.bytes a) = r at *
  simp only
  have hb1 := (r4 b hb).1
  have hbbl := Heap.bytes_length hb1
  obtain ⟨s1, s2, s3, s4⟩ := append_edited grow r1 (r.2.bytes b)
  have sc := fun t (ht : Slice.Valid t r.2) => append_clear grow (s := r.1) ht (r.2.bytes b)
  have sa := fun t (ht : Slice.Valid t r.2) => append_away grow (s := r.1) ht (r.2.bytes b)
  have so := fun t (ht : Slice.Valid t r.2) hl => append_other grow (s := r.1) ht hl (r.2.bytes b)
  generalize r.2.append grow r.1 (r.2.bytes b) = s at *
  generalize hD : h.bytes a ++ r.2.bytes b = D
  have hDl : D.length = a.len + b.len := by rw [← hD, List.length_append, hal, hbbl]
  have hsl : s.1.len = p.buffer.len + D.length := by omega
  have hnew : (BitVec.ofNat 16 s.1.len).toNat = p.buffer.len + D.length := by
    rw [BitVec.toNat_ofNat, hsl, Nat.mod_eq_of_lt (by omega)]
  obtain ⟨h1, e1, E1⟩ := Fixup_edited (p := { p with buffer := s.1 }) s1 (by show 20 ≤ s.1.len; omega)
    p.ipTotalLength (BitVec.ofNat 16 s.1.len)
  have E1 : Edited s.2 h1 s.1 (fixedBytes p (s.2.bytes s.1) p.ipTotalLength (BitVec.ofNat 16 s.1.len)) := E1
  rw [s2, r2, List.append_assoc, hD] at E1
  obtain ⟨h', p', e, G⟩ := grown_finish (p := p) (ud := p.udpData) (data := D) hi E1.valid E1.bytes (by omega) (by
      intro t ht
      obtain ⟨x1, x2⟩ := r4 t ht
      obtain ⟨y1, y2⟩ := s4 t x1
      obtain ⟨z1, z2⟩ := E1.frame t y1
      refine ⟨z1, fun hc => ?_⟩
      have c1 := rc t ht b.len (hc.mono (by omega) (by omega))
      have c2 := sc t x1 0 (c1.mono (by omega) (by omega))
      refine ⟨?_, c2⟩
      rw [z2 c2, y2 (c1.mono (by omega) (by omega)), x2 (hc.mono (by omega) (by omega))])
    (fun t ht hw => sa t (r4 t ht).1 (ra t ht hw))
    (fun t ht hl hw => so t (r4 t ht).1 hl (ro t ht hl hw))
  refine ⟨h', p', res_bind e1 ?_, G.grown hi hnew⟩
  exact e

/-! ### Turning the packet round -/

/-- Everything about turning a UDP packet round. -/
structure Reversed (h : Heap) (p : Packet) (h' : Heap) (p' : Packet) : Prop where
  inv : UdpInv h' p'
  ver : p'.version = p.version
  hlen : p'.ipHeaderLen = p.ipHeaderLen
  src : p'.sourceAddress = p.destinationAddress
  dst : p'.destinationAddress = p.sourceAddress
  sp : p'.udpSourcePort = p.udpDestinationPort
  dp : p'.udpDestinationPort = p.udpSourcePort
  hash : p'.l4flowhash = p.l4flowhash
  tot : p'.ipTotalLength.toNat = p.ipHeaderLen.toNat + 8
  buf : p'.buffer = head p.buffer (p.ipHeaderLen.toNat + 8)
  same : SameExcept (fun i => LenField p.version i ∨ hdrLen p.version - 2 * addrLen p.version ≤ i ∧ i < hdrLen p.version + 8)
    (h'.bytes p'.buffer) ((h.bytes p.buffer).take (p.ipHeaderLen.toNat + 8))
  ulen : u16at (h'.bytes p'.buffer) (p.ipHeaderLen.toNat + 4) = 8
  cs4 : p.version = .V4 → u16at (h'.bytes p'.buffer) (p.ipHeaderLen.toNat + 6) = 0
  cs6 : p.version = .V6 → (u16at (h'.bytes p'.buffer) (p.ipHeaderLen.toNat + 6)).toNat =
    udpSum6 p.destinationAddress p.sourceAddress ((h'.bytes p'.buffer).drop p.ipHeaderLen.toNat)
  ipcs : p.version = .V4 → CsumOk (h'.bytes p'.buffer)
  frame : ∀ t : Slice, t.Valid h → t.Valid h' ∧ (Clear p.buffer t 0 p.buffer.len → h'.bytes t = h.bytes t)

theorem hdr8 {p : Packet} (hh : HdrOk p) : (p.ipHeaderLen + UDPDataPos).toNat = p.ipHeaderLen.toNat + 8 := by
  rcases hh with ⟨_, e⟩ | ⟨_, e⟩ <;> rw [e] <;> rfl

theorem hdr8w {p : Packet} (hh : HdrOk p) : ((p.ipHeaderLen + UDPDataPos).setWidth 16 : U16).toNat = p.ipHeaderLen.toNat + 8 := by
  rcases hh with ⟨_, e⟩ | ⟨_, e⟩ <;> rw [e] <;> rfl

theorem swap_edited {h : Heap} {p : Packet} (hb : p.buffer.Valid h) (hl : hdrLen p.version ≤ p.buffer.len)
    (hs : p.sourceAddress.length = addrLen p.version) (hd : p.destinationAddress.length = addrLen p.version) :
    ∃ h', swapWireAddrs h p = .ok h' ∧
      Edited h h' p.buffer (swapped p.version p.sourceAddress p.destinationAddress (h.bytes p.buffer)) := by
  unfold swapWireAddrs
  cases hv : p.version with
  | V4 =>
    rw [hv] at hl hs hd
    have hl : 20 ≤ p.buffer.len := hl
    have hs : p.sourceAddress.length = 4 := hs
    have hd : p.destinationAddress.length = 4 := hd
    obtain ⟨h1, e1, E1⟩ := copySub_edited hb (i := 12) hd (by omega)
    obtain ⟨h2, e2, E2⟩ := copySub_edited E1.valid (i := 16) hs (by omega)
    rw [E1.bytes] at E2
    exact ⟨h2, res_bind e1 e2, E1.trans E2⟩
  | V6 =>
    rw [hv] at hl hs hd
    have hl : 40 ≤ p.buffer.len := hl
    have hs : p.sourceAddress.length = 16 := hs
    have hd : p.destinationAddress.length = 16 := hd
    obtain ⟨h1, e1, E1⟩ := copySub_edited hb (i := 8) hd (by omega)
    obtain ⟨h2, e2, E2⟩ := copySub_edited E1.valid (i := 24) hs (by omega)
    rw [E1.bytes] at E2
    exact ⟨h2, res_bind e1 e2, E1.trans E2⟩

theorem swapped_same {v : IPver} {src dst B : List Byte} (hs : src.length = addrLen v) (hd : dst.length = addrLen v)
    (hl : hdrLen v ≤ B.length) :
    SameExcept (fun i => hdrLen v - 2 * addrLen v ≤ i ∧ i < hdrLen v) (swapped v src dst B) B := by
  cases v with
  | V4 =>
    have hl : 20 ≤ B.length := hl
    have hs : src.length = 4 := hs
    have hd : dst.length = 4 := hd
    have e1 : 12 + dst.length ≤ B.length := by omega
    have l1 := splice_length _ _ _ e1
    refine SameExcept.trans ((splice_same (b := splice B 12 dst) (i := 16) (bs := src) (by omega)).mono fun i hi => ?_)
      ((splice_same e1).mono fun i hi => ?_) <;> (simp only [hdrLen, addrLen]; omega)
  | V6 =>
    have hl : 40 ≤ B.length := hl
    have hs : src.length = 16 := hs
    have hd : dst.length = 16 := hd
    have e1 : 8 + dst.length ≤ B.length := by omega
    have l1 := splice_length _ _ _ e1
    refine SameExcept.trans ((splice_same (b := splice B 8 dst) (i := 24) (bs := src) (by omega)).mono fun i hi => ?_)
      ((splice_same e1).mono fun i hi => ?_) <;> (simp only [hdrLen, addrLen]; omega)

/-- The step that recomputes the IPv4 checksum. -/
noncomputable def updateV4 (h : Heap) (p : Packet) : Res (Heap × Packet) :=
  match p.version with
  | .V4 => UpdateIPv4Checksum h p
  | .V6 => .ok (h, p)

theorem updateV4_edited {h : Heap} {p : Packet} (hb : p.buffer.Valid h) (hh : HdrOk p) (h20 : 20 ≤ p.buffer.len)
    (hs : UdpSync p (h.bytes p.buffer)) :
    ∃ h' c, updateV4 h p = .ok (h', { p with ipChecksum := c }) ∧
      ∃ B, Edited h h' p.buffer B ∧ UdpSync { p with ipChecksum := c } B ∧ SameExcept (LenField p.version) B (h.bytes p.buffer) ∧
        (p.version = .V4 → CsumOk B) := by
  have hbl := Heap.bytes_length hb
  have hr := hs.room
  have hver : p.version = .V4 ∨ p.version = .V6 := by cases p.version <;> simp
  rcases hver with hv | hv
  · have hl20 : p.ipHeaderLen = 20 := by
      rcases hh with ⟨_, e⟩ | ⟨x, _⟩
      · exact e
      · rw [hv] at x; simp at x
    have hln : p.ipHeaderLen.toNat = 20 := by rw [hl20]; rfl
    obtain ⟨h', e, E⟩ := UpdateIPv4_edited hb h20 hl20
    have e1 : 10 + (enc16 .big (cks (zeroed (h.bytes p.buffer)))).length ≤ (h.bytes p.buffer).length := by simp; omega
    refine ⟨h', cks (zeroed (h.bytes p.buffer)), ?_, _, E, ⟨?_, ?_, ?_, ?_⟩, ?_, ?_⟩
    · rw [← e]; unfold updateV4; rw [hv]
    · rw [splice_length _ _ _ e1]; exact hr
    · have := hs.ip
      unfold Packet.IPSync at this ⊢
      show IPWire p.version _ _ _ _ _ _
      rw [hv] at this ⊢
      exact this.setCsum4 (by omega) _
    · rw [u16at_splice_ne e1 (by rw [enc16_length]; show _ ∨ 10 + 2 ≤ p.ipHeaderLen.toNat; omega)]; exact hs.sp
    · rw [u16at_splice_ne e1 (by rw [enc16_length]; show _ ∨ 10 + 2 ≤ p.ipHeaderLen.toNat + 2; omega)]; exact hs.dp
    · refine (splice_same e1).mono fun i hi => ?_
      rw [enc16_length] at hi
      unfold LenField
      rw [hv]
      simp only
      omega
    · intro _
      unfold CsumOk
      rw [u16at_splice_same (by omega), ipv4HeaderChecksum_eq, zeroed_csum (by omega), cks_toNat]
  · refine ⟨h, p.ipChecksum, ?_, _, Edited.refl hb, hs, ⟨rfl, fun _ _ => rfl⟩, fun x => by rw [hv] at x; simp at x⟩
    unfold updateV4
    rw [hv]
    cases p
    simp only at hv
    rw [hv]

theorem reverse_unfold (h : Heap) (p : Packet) : CreateReverseFlowPacket h p = (do
    let h ← swapWireAddrs h p
    let buffer ← p.buffer.from' p.ipHeaderLen.toNat
    let h ← wr16 h buffer udpSourcePortPos p.udpDestinationPort
    let h ← wr16 h buffer udpDestPortPos p.udpSourcePort
    let p := { p with
      sourceAddress := p.destinationAddress, destinationAddress := p.sourceAddress,
      udpSourcePort := p.udpDestinationPort, udpDestinationPort := p.udpSourcePort }
    let b ← p.buffer.to (p.ipHeaderLen + UDPDataPos).toNat
    let p := { p with buffer := b }
    let r ← FixupIPHdrOnDataModify h p p.ipTotalLength ((p.ipHeaderLen + UDPDataPos).setWidth 16)
    let r ← updateV4 r.1 r.2
    finishUDP r.1 r.2) := rfl

theorem Reverse_full {h : Heap} {p : Packet} (hi : UdpInv h p) :
    ∃ h' p', CreateReverseFlowPacket h p = .ok (h', p') ∧ Reversed h p h' p' := by
  have hr := hi.room
  have hg := hi.hdr.ge
  have hbl := Heap.bytes_length hi.buf
  have hlen := hi.hdr.len
  have hadr := hi.sync.ip.addrs (by rw [← hlen]; omega)
  obtain ⟨h1, e1, E1⟩ := swap_edited hi.buf (by omega) hadr.1 hadr.2
  have sm1 := swapped_same (B := h.bytes p.buffer) hadr.1 hadr.2 (by omega)
  have ip1 := hi.sync.ip.swap (by omega)
  generalize swapped p.version p.sourceAddress p.destinationAddress (h.bytes p.buffer) = B1 at *
  have hB1 := sm1.1
  obtain ⟨h2, e2, E2⟩ := wr16_edited E1.valid (n := p.ipHeaderLen.toNat) (i := 0) (by omega) p.udpDestinationPort
  rw [E1.bytes] at E2
  obtain ⟨h3, e3, E3⟩ := wr16_edited E2.valid (n := p.ipHeaderLen.toNat) (i := 2) (by omega) p.udpSourcePort
  rw [E2.bytes] at E3
  have E03 := (E1.trans E2).trans E3
  have g1 : p.ipHeaderLen.toNat + 0 + (enc16 .big p.udpDestinationPort).length ≤ B1.length := by simp; omega
  have l2 := splice_length _ _ _ g1
  generalize hB2 : splice B1 (p.ipHeaderLen.toNat + 0) (enc16 .big p.udpDestinationPort) = B2 at *
  have g2 : p.ipHeaderLen.toNat + 2 + (enc16 .big p.udpSourcePort).length ≤ B2.length := by simp; omega
  have l3 := splice_length _ _ _ g2
  generalize hB3 : splice B2 (p.ipHeaderLen.toNat + 2) (enc16 .big p.udpSourcePort) = B3 at *
  have h6 : p.version = .V6 → 40 ≤ p.ipHeaderLen.toNat := by intro x; rw [hlen, x]; exact Nat.le_refl _
  generalize hp3 : ({ p with
      sourceAddress := p.destinationAddress, destinationAddress := p.sourceAddress,
      udpSourcePort := p.udpDestinationPort, udpDestinationPort := p.udpSourcePort,
      buffer := head p.buffer (p.ipHeaderLen.toNat + 8) } : Packet) = p3
  have k1 : p3.ipHeaderLen = p.ipHeaderLen := by rw [← hp3]
  have k2 : p3.version = p.version := by rw [← hp3]
  have k3 : p3.buffer = head p.buffer (p.ipHeaderLen.toNat + 8) := by rw [← hp3]
  have k4 : p3.ipTotalLength = p.ipTotalLength := by rw [← hp3]
  have hh3 : HdrOk p3 := by unfold HdrOk; rw [k1, k2]; exact hi.hdr
  have s3 : UdpSync p3 B3 := by
    rw [← hp3]
    refine ⟨by show p.ipHeaderLen.toNat + 8 ≤ _; omega, ?_, ?_, ?_⟩
    · rw [← hB3]
      refine IPWire.above ?_ g2 (by omega) (fun x => by have := h6 x; omega)
      rw [← hB2]
      exact ip1.above g1 (by omega) (fun x => by have := h6 x; omega)
    · show u16at B3 p.ipHeaderLen.toNat = p.udpDestinationPort
      rw [← hB3, u16at_splice_ne g2 (by omega), ← hB2]
      exact u16at_splice_same (by omega)
    · show u16at B3 (p.ipHeaderLen.toNat + 2) = p.udpSourcePort
      rw [← hB3, u16at_splice_same (by omega)]
  have hv3 : p3.buffer.Valid h3 := by rw [k3]; exact head_valid E3.valid (by have := hi.buf.1; omega)
  have hby3 : h3.bytes p3.buffer = B3.take (p.ipHeaderLen.toNat + 8) := by rw [k3, bytes_head (by omega), E3.bytes]
  have s3' : UdpSync p3 (h3.bytes p3.buffer) := by
    rw [hby3]
    exact s3.congr hh3 (by rw [k1, List.take_take, Nat.min_self])
  have lb3 : p3.buffer.len = p.ipHeaderLen.toNat + 8 := by rw [k3]; rfl
  obtain ⟨h4, e4, E4⟩ := Fixup_edited hv3 (by omega) p.ipTotalLength ((p.ipHeaderLen + UDPDataPos).setWidth 16)
  have s4 := s3'.fixed hh3 p.ipTotalLength ((p.ipHeaderLen + UDPDataPos).setWidth 16)
  have m4 := fixedBytes_same (p := p3) (W := h3.bytes p3.buffer) (by rw [Heap.bytes_length hv3]; omega) p.ipTotalLength
    ((p.ipHeaderLen + UDPDataPos).setWidth 16)
  have t4 : (fixed p3 p.ipTotalLength ((p.ipHeaderLen + UDPDataPos).setWidth 16)).ipTotalLength
      = (p.ipHeaderLen + UDPDataPos).setWidth 16 := by rw [← k4]; exact fixed_total _ _
  generalize hp4 : fixed p3 p.ipTotalLength ((p.ipHeaderLen + UDPDataPos).setWidth 16) = p4 at *
  have b4 : p4.buffer = p3.buffer := by rw [← hp4]; rfl
  have v4 : p4.version = p.version := by rw [← k2, ← hp4]; rfl
  have hl4 : p4.ipHeaderLen = p.ipHeaderLen := by rw [← k1, ← hp4]; rfl
  have hh4 : HdrOk p4 := by unfold HdrOk; rw [hl4, v4]; exact hi.hdr
  rw [← E4.bytes] at s4 m4
  rw [← b4] at E4 s4 m4 lb3 hv3
  obtain ⟨h5, c, e5, B5, E5, s5, m5, c5⟩ := updateV4_edited E4.valid hh4 (by omega) s4
  have q2 : p4.sourceAddress = p.destinationAddress := by rw [← hp4, ← hp3]; rfl
  have q3 : p4.destinationAddress = p.sourceAddress := by rw [← hp4, ← hp3]; rfl
  have q4 : p4.udpSourcePort = p.udpDestinationPort := by rw [← hp4, ← hp3]; rfl
  have q5 : p4.udpDestinationPort = p.udpSourcePort := by rw [← hp4, ← hp3]; rfl
  have q6 : p4.l4flowhash = p.l4flowhash := by rw [← hp4, ← hp3]; rfl
  have q7 : p4.ipProto = 17 := by rw [← hp4, ← hp3]; exact hi.proto
  have hn8 : p.ipHeaderLen.toNat + 8 < 65536 := by have := p.ipHeaderLen.isLt; omega
  obtain ⟨h', cs, u, e, E, cs4, cs6⟩ := finish_edited (h := h5) (p := { p4 with ipChecksum := c }) E5.valid hh4
    (by show p4.ipHeaderLen.toNat + 8 ≤ p4.buffer.len; rw [lb3, hl4]; omega)
    (by show p4.buffer.len < 65536; omega)
    (by intro x; show p4.sourceAddress.length = 16; rw [q2, hadr.2]; have : p4.version = .V6 := x; rw [v4] at this; rw [this]; rfl)
    (by intro x; show p4.destinationAddress.length = 16; rw [q3, hadr.1]; have : p4.version = .V6 := x; rw [v4] at this; rw [this]; rfl)
  have E : Edited h5 h' p4.buffer (finished p4.ipHeaderLen.toNat (h5.bytes p4.buffer) cs) := E
  have cs4 : p4.version = .V4 → cs = 0 := cs4
  have cs6 : p4.version = .V6 → u = cs ∧ cs.toNat = udpSum6 p4.sourceAddress p4.destinationAddress
    ((finished p4.ipHeaderLen.toNat (h5.bytes p4.buffer) cs).drop p4.ipHeaderLen.toNat) := cs6
  rw [E5.bytes, hl4] at E cs6
  rw [v4] at cs4 cs6
  rw [q2, q3] at cs6
  have s6 := s5.finished hh4 cs
  have l5 : B5.length = p.ipHeaderLen.toNat + 8 := by rw [m5.1, Heap.bytes_length E4.valid]; omega
  obtain ⟨a1, a2, a3⟩ := finished_at (H := p.ipHeaderLen.toNat) (B := B5) (by omega) cs
  refine ⟨h', { p4 with ipChecksum := c, udpChecksum := u }, ?_, ?_⟩
  · rw [reverse_unfold]
    refine res_bind e1 ?_
    refine res_bind (a := tail p.buffer p.ipHeaderLen.toNat) (by rw [from_eq hi.buf, if_pos (by omega)]) ?_
    refine res_bind e2 (res_bind e3 ?_)
    refine res_bind (a := head p.buffer (p.ipHeaderLen.toNat + 8)) (by
      rw [hdr8 hi.hdr, to_eq, if_pos (by have := hi.buf.1; show _ ≤ p.buffer.cap; omega)]) ?_
    simp only
    rw [hp3]
    exact res_bind e4 (res_bind e5 e)
  · have hbf : ({ p4 with ipChecksum := c, udpChecksum := u } : Packet).buffer = p4.buffer := rfl
    have key : SameExcept (fun i => LenField p.version i ∨ hdrLen p.version - 2 * addrLen p.version ≤ i ∧ i < hdrLen p.version + 8)
      (finished p.ipHeaderLen.toNat B5 cs) ((h.bytes p.buffer).take (p.ipHeaderLen.toNat + 8)) := by
      refine (a3.mono fun i hx => .inr ⟨by omega, by omega⟩).trans ?_
      refine (m5.mono fun i hx => .inl (v4 ▸ hx)).trans ?_
      refine (m4.mono fun i hx => .inl (k2 ▸ hx)).trans ?_
      rw [b4, hby3]
      refine SameExcept.take ?_ _
      rw [← hB3]
      refine ((splice_same g2).mono fun i hx => .inr (by rw [enc16_length] at hx; omega)).trans ?_
      rw [← hB2]
      refine ((splice_same g1).mono fun i hx => .inr (by rw [enc16_length] at hx; omega)).trans ?_
      exact sm1.mono fun i hx => .inr ⟨hx.1, by omega⟩
    refine ⟨⟨?_, hh4, q7, ?_⟩, v4, hl4, q2, q3, q4, q5, q6, ?_, ?_, ?_, ?_, ?_, ?_, ?_, ?_⟩
    · exact E.valid
    · rw [hbf, E.bytes]
      have s6 : UdpSync { p4 with ipChecksum := c } (finished p4.ipHeaderLen.toNat B5 cs) := s6
      rw [← hl4]
      exact ⟨s6.room, s6.ip, s6.sp, s6.dp⟩
    · show p4.ipTotalLength.toNat = _
      rw [t4, hdr8w hi.hdr]
    · show p4.buffer = _
      rw [b4, k3]
    · rw [hbf, E.bytes]; exact key
    · rw [hbf, E.bytes, a1, l5, Nat.add_sub_cancel_left]; rfl
    · intro h4; rw [hbf, E.bytes, a2]; exact cs4 h4
    · intro h6; rw [hbf, E.bytes, a2]; exact (cs6 h6).2
    · intro h4
      rw [hbf, E.bytes]
      exact (CsumOk_congr (a3.takeEq fun i hx => by omega)).mpr (c5 (v4.trans h4))
    · intro t ht
      obtain ⟨x1, x2⟩ := E03.frame t ht
      obtain ⟨y1, y2⟩ := E4.frame t x1
      obtain ⟨z1, z2⟩ := E5.frame t y1
      obtain ⟨w1, w2⟩ := E.frame t z1
      refine ⟨w1, fun hc => ?_⟩
      have hc' : Clear p4.buffer t 0 p4.buffer.len := by
        rw [lb3, b4, k3]
        exact Clear.mono hc (by omega) (by omega)
      rw [w2 hc', z2 hc', y2 hc', x2 hc]

end Verif.Packet
