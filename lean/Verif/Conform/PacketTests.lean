import Verif.Packet.Ops
import Verif.Packet.Model
/-!
The repository's own tests of package `packet` (/repo/common/packet/packet_test.go), replayed on the model: what the authors expect of the
code holds of the model.  These are tests of the model's fidelity, not properties; `TestPartialChecksum`, which samples random bytes, is
proved for all of them.  The loops run as they do in the model (`loop_fuel` bounds the number of iterations by a number that suffices).
-/
namespace Verif.Conform.PacketTests
open Verif Verif.Packet

/-- `t.Error` unless `b`. -/
def want (b : Bool) : Res Unit := if b then .ok () else .panic

theorem loop_fuel {σ α : Type} {body : σ → Res (Step σ α)} (n : Nat) {s : σ} (h : loopN body n s ≠ .diverge) :
    loop body s = loopN body n s := loop_eq_of_loopN n rfl h

theorem convert_fuel : csumConvert32To16bit = fun s => loopN csumConvertBody 4 s := by
  funext s
  apply loop_fuel
  have big : ∀ s : U32, s > 0xffff ↔ 65535 < s.toNat := fun s => by simp [BitVec.lt_def]
  have step : ∀ (n : Nat) (s : U32), loopN csumConvertBody (n + 1) s =
      if s > 0xffff then loopN csumConvertBody n ((s >>> 16) + (s &&& 0xffff)) else .ok (s.setWidth 16) := by
    intro n s
    by_cases h : s > 0xffff
    · have hb : csumConvertBody s = .ok (.next ((s >>> 16) + (s &&& 0xffff))) := by unfold csumConvertBody; exact if_pos h
      rw [if_pos h]
      conv => lhs; unfold loopN
      rw [hb]
    · have hb : csumConvertBody s = .ok (.done (s.setWidth 16)) := by unfold csumConvertBody; exact if_neg h
      rw [if_neg h]
      conv => lhs; unfold loopN
      rw [hb]
  have hs := s.isLt
  rw [step]
  split
  case isFalse => simp
  rename_i h0; rw [big] at h0
  have e1 := fold_toNat s
  rw [step]
  split
  case isFalse => simp
  rename_i h1; rw [big] at h1
  have e2 := fold_toNat ((s >>> 16) + (s &&& 0xffff))
  rw [step]
  split
  case isFalse => simp
  rename_i h2; rw [big] at h2
  have e3 := fold_toNat ((((s >>> 16) + (s &&& 0xffff)) >>> 16) + (((s >>> 16) + (s &&& 0xffff)) &&& 0xffff))
  omega

theorem auth_fuel (b : List Byte) : loop (authOptionBody b) 0 = loopN (authOptionBody b) (b.length + 1) 0 := by
  apply loop_fuel
  suffices ∀ n i, b.length ≤ i + n → loopN (authOptionBody b) (n + 1) i ≠ .diverge from this _ _ (by omega)
  have one : ∀ i, (authOptionBody b i ≠ .diverge) ∧ ∀ j, authOptionBody b i = .ok (.next j) → i < j ∧ i < b.length := by
    intro i
    have hx : ∀ j, idx b j = .panic ∨ ∃ x, idx b j = .ok x := by
      intro j
      unfold idx
      cases b[j]? <;> simp
    unfold authOptionBody
    by_cases hi : i < b.length
    · rw [if_pos hi]
      rcases hx i with h | ⟨k, h⟩ <;> rw [h]
      · exact ⟨(by intro h; cases h), (by intro j h; cases h)⟩
      · simp only [Res.ok_bind]
        by_cases h01 : k = 0 ∨ k = 1
        · rw [if_pos h01]
          refine ⟨(by intro h; cases h), ?_⟩
          intro j h; cases h; omega
        · rw [if_neg h01]
          by_cases hk : k ≠ TCPAuthenticationOption
          · rw [if_pos hk]
            by_cases hl : b.length ≤ i + 1
            · rw [if_pos hl]
              exact ⟨(by intro h; cases h), (by intro j h; cases h)⟩
            · rw [if_neg hl]
              rcases hx (i + 1) with h | ⟨l, h⟩ <;> rw [h]
              · exact ⟨(by intro h; cases h), (by intro j h; cases h)⟩
              · simp only [Res.ok_bind]
                by_cases h0 : l.toNat = 0
                · rw [if_pos h0]
                  exact ⟨(by intro h; cases h), (by intro j h; cases h)⟩
                · rw [if_neg h0]
                  refine ⟨(by intro h; cases h), ?_⟩
                  intro j h; cases h; omega
          · rw [if_neg hk]
            exact ⟨(by intro h; cases h), (by intro j h; cases h)⟩
    · rw [if_neg hi]
      exact ⟨(by intro h; cases h), (by intro j h; cases h)⟩
  intro n
  induction n with
  | zero =>
    intro i hi
    unfold loopN
    have := one i
    split
    · rename_i s' h
      have := (this.2 s' h).2
      omega
    · simp
    · simp
    · rename_i h; exact absurd h this.1
  | succ n ih =>
    intro i hi
    unfold loopN
    have := one i
    split
    · rename_i s' h
      exact ih s' (by have := (this.2 s' h).1; omega)
    · simp
    · simp
    · rename_i h; exact absurd h this.1

/-- common/packet/packet_test.go:27-77 `testPackets[synBadTCPChecksum]` -/
def synBadTCPChecksum : List Byte :=
  [69, 16, 0, 60, 170, 46, 64, 0, 64, 6, 146, 123, 127, 0, 0, 1, 127, 0, 0, 1, 178, 100, 0, 99, 88, 209, 36, 217, 0, 0,
   0, 0, 160, 2, 170, 170, 254, 48, 0, 0, 2, 4, 255, 215, 4, 2, 8, 10, 0, 197, 142, 247, 0, 0, 0, 0, 1, 3, 3, 7]

/-- common/packet/packet_test.go:27-77 `testPackets[synGoodTCPChecksum]` -/
def synGoodTCPChecksum : List Byte :=
  [69, 16, 0, 60, 236, 108, 64, 0, 64, 6, 80, 61, 127, 0, 0, 1, 127, 0, 0, 1, 140, 128, 0, 99, 44, 50, 168, 214, 0, 0,
   0, 0, 160, 2, 170, 170, 254, 136, 0, 0, 2, 4, 255, 215, 4, 2, 8, 10, 255, 255, 68, 186, 0, 0, 0, 0, 1, 3, 3, 7]

/-- common/packet/packet_test.go:27-77 `testPackets[synIHLTooBig]` -/
def synIHLTooBig : List Byte :=
  [70, 16, 0, 60, 170, 46, 64, 0, 64, 6, 146, 123, 127, 0, 0, 1, 127, 0, 0, 1, 178, 100, 0, 99, 88, 209, 36, 217, 0, 0,
   0, 0, 160, 2, 170, 170, 254, 48, 0, 0, 2, 4, 255, 215, 4, 2, 8, 10, 0, 197, 142, 247, 0, 0, 0, 0, 1, 3, 3, 7]

/-- common/packet/packet_test.go:27-77 `testPackets[synIPLenTooSmall]` -/
def synIPLenTooSmall : List Byte :=
  [69, 16, 0, 38, 170, 46, 64, 0, 64, 6, 146, 123, 127, 0, 0, 1, 127, 0, 0, 1, 178, 100, 0, 99, 88, 209, 36, 217, 0, 0,
   0, 0, 160, 2, 170, 170, 254, 48]

/-- common/packet/packet_test.go:27-77 `testPackets[synMissingBytes]` -/
def synMissingBytes : List Byte :=
  [69, 16, 0, 60, 170, 46, 64, 0, 64, 6, 146, 123, 127, 0, 0, 1, 127, 0, 0, 1, 178, 100, 0, 99, 88, 209, 36, 217, 0, 0,
   0, 0, 160, 2, 170, 170, 254, 48, 0, 0, 2, 4, 255, 215, 4, 2, 8, 10, 0, 197, 142, 247, 0, 0, 0, 0, 1, 3]

/-- common/packet/packet_test.go:27-77 `testPackets[synBadIPChecksum]` -/
def synBadIPChecksum : List Byte :=
  [69, 16, 0, 60, 170, 46, 64, 0, 64, 6, 0, 0, 127, 0, 0, 1, 127, 0, 0, 1, 178, 100, 0, 99, 88, 209, 36, 217, 0, 0, 0,
   0, 160, 2, 170, 170, 254, 48, 0, 0, 2, 4, 255, 215, 4, 2, 8, 10, 0, 197, 142, 247, 0, 0, 0, 0, 1, 3, 3, 7]

/-- common/packet/packet_test.go:25 `ipv6UDPPacket` -/
def ipv6UDPPacket : List Byte :=
  [96, 0, 0, 0, 0, 159, 17, 63, 32, 1, 4, 112, 229, 191, 16, 150, 0, 2, 0, 153, 0, 193, 0, 16, 32, 1, 4, 112, 229, 191,
   16, 1, 28, 199, 115, 255, 101, 245, 162, 247, 0, 161, 180, 209, 0, 159, 211, 201, 48, 129, 148, 2, 1, 3, 48, 17, 2,
   4, 41, 205, 177, 128, 2, 3, 0, 255, 207, 4, 1, 3, 2, 1, 3, 4, 65, 48, 63, 4, 20, 128, 0, 79, 77, 177, 170, 220, 173,
   188, 137, 175, 250, 17, 141, 189, 83, 130, 76, 107, 5, 2, 1, 3, 2, 3, 1, 10, 29, 4, 7, 116, 97, 99, 104, 121, 111,
   110, 4, 12, 144, 105, 164, 69, 83, 47, 32, 217, 165, 120, 68, 247, 4, 8, 140, 140, 17, 12, 91, 191, 94, 216, 4, 57,
   170, 252, 90, 166, 198, 200, 54, 75, 19, 241, 76, 128, 117, 98, 229, 7, 147, 171, 195, 30, 153, 23, 10, 255, 215,
   23, 169, 105, 176, 50, 17, 47, 93, 249, 242, 165, 169, 230, 97, 36, 60, 250, 77, 55, 97, 78, 10, 202, 136, 12, 116,
   136, 19, 37, 34, 40, 49]

/-- common/packet/packet_test.go:390 -/
def udpPacket : List Byte :=
  [69, 0, 0, 75, 26, 41, 64, 0, 64, 17, 8, 185, 10, 128, 128, 128, 10, 12, 130, 180, 0, 53, 14, 23, 0, 55, 30, 49, 110,
   79, 129, 128, 0, 1, 0, 1, 0, 0, 0, 0, 3, 97, 112, 105, 6, 98, 114, 97, 110, 99, 104, 2, 105, 111, 0, 0, 1, 0, 1,
   192, 12, 0, 1, 0, 1, 0, 0, 0, 59, 0, 4, 99, 84, 233, 250]

/-- common/packet/packet_test.go:436 -/
def AuthpacketByte : List Byte :=
  [69, 0, 0, 64, 123, 214, 64, 0, 64, 6, 205, 157, 10, 176, 72, 5, 10, 180, 147, 223, 1, 187, 135, 120, 45, 169, 175,
   241, 77, 137, 204, 235, 176, 18, 255, 255, 231, 100, 0, 0, 2, 4, 5, 80, 1, 3, 3, 11, 4, 2, 8, 10, 189, 28, 115, 67,
   34, 99, 155, 157, 34, 4, 0, 0]

/-- common/packet/packet_test.go:438 -/
def NonAuthpacketByte : List Byte :=
  [69, 0, 0, 64, 123, 214, 64, 0, 64, 6, 205, 157, 10, 176, 72, 5, 11, 180, 147, 223, 1, 187, 135, 120, 45, 169, 175,
   241, 77, 137, 204, 235, 176, 18, 255, 255, 231, 100, 0, 0, 2, 4, 5, 80, 1, 3, 3, 11, 4, 2, 8, 10, 189, 28, 115, 67,
   34, 99, 155, 0, 2, 0, 0, 0]

/-- A fresh copy of the bytes in memory (`tmp := make(...); copy(tmp, ...)`). -/
def mem (b : List Byte) : Slice × Heap := (Heap.mk []).mk' b

/-- common/packet/packet_test.go:502-513 `getTestPacket`: memory and packet. -/
def getTestPacket (b : List Byte) : Res (Heap × Packet) := do
  let (s, h) := mem b
  match ← New h 0 s "0".toList true with
  | (some p, none) => .ok (h, p)
  | _ => .panic

/-- common/packet/packet_test.go:515-522 `getTestPacketWithError`: did it fail? -/
def getTestPacketWithError (b : List Byte) : Res Bool := do
  let (s, h) := mem b
  let (_, err) ← New h 0 s "0".toList true
  .ok err.isSome

/-- common/packet/packet_test.go:20 `loopbackAddress` -/
def loopbackAddress : List Char := "127.0.0.1".toList

/-- common/packet/packet_test.go:73-94 -/
noncomputable def TestGoodPacket : Res Unit := do
  let (h, pkt) ← getTestPacket synGoodTCPChecksum
  let (ok, h) ← VerifyIPv4Checksum h pkt
  want ok
  let (ok, _) ← VerifyTCPChecksum h pkt
  want ok
  want (pkt.DestPort == 99)
  want (pkt.SourcePort == 35968)

theorem TestGoodPacket_passes : TestGoodPacket = .ok () := by
  unfold TestGoodPacket VerifyIPv4Checksum VerifyTCPChecksum computeIPv4Checksum computeTCPChecksum checksum finalizeChecksum
  simp only [convert_fuel]
  decide +kernel

/-- common/packet/packet_test.go:96-107 -/
noncomputable def TestBadTCPChecknum : Res Unit := do
  let (h, pkt) ← getTestPacket synBadTCPChecksum
  let (ok, h) ← VerifyIPv4Checksum h pkt
  want ok
  let (ok, _) ← VerifyTCPChecksum h pkt
  want (!ok)

theorem TestBadTCPChecknum_passes : TestBadTCPChecknum = .ok () := by
  unfold TestBadTCPChecknum VerifyIPv4Checksum VerifyTCPChecksum computeIPv4Checksum computeTCPChecksum checksum finalizeChecksum
  simp only [convert_fuel]
  decide +kernel

/-- common/packet/packet_test.go:109-150 `TestPartialChecksum`, for all bytes instead of 1000 random ones: a checksum computed in parts of
even length is the checksum of the whole. -/
theorem TestPartialChecksum_passes (a b c : List Byte) (ha : a.length % 2 = 0) (hb : b.length % 2 = 0) :
    finalizeChecksum (partialChecksum (partialChecksum (partialChecksum 0 a) b) c) = checksum (a ++ b ++ c) := by
  have key : ∀ (n : Nat) (x y : List Byte) (s : U32), x.length = n → x.length % 2 = 0 →
      checksumDelta (checksumDelta s x) y = checksumDelta s (x ++ y) := by
    intro n
    induction n using Nat.strongRecOn with
    | _ n ih =>
      intro x y s hn he
      match x with
      | [] => rfl
      | [_] => simp at he
      | u :: v :: t =>
        simp only [checksumDelta, List.cons_append]
        exact ih t.length (by simp at hn; omega) t y _ rfl (by simp at he ⊢; omega)
  unfold partialChecksum checksum finalizeChecksum
  rw [key _ a b 0 rfl ha, key _ (a ++ b) c 0 rfl (by rw [List.length_append]; omega)]

/-- common/packet/packet_test.go:152-165 -/
def TestAddresses : Res Unit := do
  let (_, pkt) ← getTestPacket synBadTCPChecksum
  want (ipString pkt.SourceAddress == loopbackAddress)
  want (ipString pkt.DestinationAddress == loopbackAddress)

theorem TestAddresses_passes : TestAddresses = .ok () := by decide +kernel

/-- common/packet/packet_test.go:167-176 -/
def TestEmptyPacketNoPayload : Res Unit := do
  let (_, pkt) ← getTestPacket synBadTCPChecksum
  want (pkt.buffer.len == 60)

theorem TestEmptyPacketNoPayload_passes : TestEmptyPacketNoPayload = .ok () := by decide +kernel

/-- common/packet/packet_test.go:201-216 -/
noncomputable def TestExtractedBytesStillGood : Res Unit := do
  let (h, pkt) ← getTestPacket synBadTCPChecksum
  match ← New h 0 pkt.buffer "0".toList true with
  | (some pkt2, none) => do
    let (ok, _) ← VerifyIPv4Checksum h pkt2
    want ok
  | _ => .panic

theorem TestExtractedBytesStillGood_passes : TestExtractedBytesStillGood = .ok () := by
  unfold TestExtractedBytesStillGood VerifyIPv4Checksum computeIPv4Checksum checksum
  simp only [convert_fuel]
  decide +kernel

/-- common/packet/packet_test.go:218-226 -/
def TestLongerIPHeader : Res Unit := do want (← getTestPacketWithError synIHLTooBig)

theorem TestLongerIPHeader_passes : TestLongerIPHeader = .ok () := by decide +kernel

/-- common/packet/packet_test.go:228-236 -/
def TestShortPacketLength : Res Unit := do want (← getTestPacketWithError synIPLenTooSmall)

theorem TestShortPacketLength_passes : TestShortPacketLength = .ok () := by decide +kernel

/-- common/packet/packet_test.go:238-246 -/
def TestShortBuffer : Res Unit := do want (← getTestPacketWithError synMissingBytes)

theorem TestShortBuffer_passes : TestShortBuffer = .ok () := by decide +kernel

/-- common/packet/packet_test.go:248-262 -/
noncomputable def TestSetChecksum : Res Unit := do
  let (h, pkt) ← getTestPacket synBadIPChecksum
  let (ok, h) ← VerifyIPv4Checksum h pkt
  want (!ok)
  let (h, pkt) ← UpdateIPv4Checksum h pkt
  let (ok, _) ← VerifyIPv4Checksum h pkt
  want ok

theorem TestSetChecksum_passes : TestSetChecksum = .ok () := by
  unfold TestSetChecksum VerifyIPv4Checksum UpdateIPv4Checksum computeIPv4Checksum checksum
  simp only [convert_fuel]
  decide +kernel

/-- common/packet/packet_test.go:264-278 -/
noncomputable def TestSetTCPChecksum : Res Unit := do
  let (h, pkt) ← getTestPacket synBadTCPChecksum
  let (ok, h) ← VerifyTCPChecksum h pkt
  want (!ok)
  let (h, pkt) ← UpdateTCPChecksum h pkt
  let (ok, _) ← VerifyTCPChecksum h pkt
  want ok

theorem TestSetTCPChecksum_passes : TestSetTCPChecksum = .ok () := by
  unfold TestSetTCPChecksum VerifyTCPChecksum UpdateTCPChecksum computeTCPChecksum finalizeChecksum
  simp only [convert_fuel]
  decide +kernel

/-- common/packet/packet_test.go:389-409 -/
def TestUDP : Res Unit := do
  let (_, pkt) ← getTestPacket udpPacket
  want (ipString pkt.SourceAddress == "10.128.128.128".toList)
  want (ipString pkt.DestinationAddress == "10.12.130.180".toList)
  want (pkt.SourcePort == 53)
  want (pkt.DestPort == 3607)

theorem TestUDP_passes : TestUDP = .ok () := by decide +kernel

/-- common/packet/packet_test.go:411-432 -/
noncomputable def TestRawChecksums : Res Unit := do
  let c ← checksum [0x01, 0x00, 0xF2, 0x03, 0xF4, 0xF5, 0xF6, 0xF7, 0x00, 0x00]
  want (c == 0x210E)
  let c2 ← checksum [0x01, 0x00, 0xF2, 0x03, 0xF4, 0xF5, 0xF6, 0xF7, 0x00]
  want (c2 == 0x210E)
  let c3 ← checksum [0x45, 0x00, 0x00, 0x3c, 0x1c, 0x46, 0x40, 0x00, 0x40, 0x06, 0x00, 0x00, 0xac, 0x10, 0x0a, 0x63, 0xac, 0x10, 0x0a, 0x0c]
  want (c3 == 0xB1E6)

theorem TestRawChecksums_passes : TestRawChecksums = .ok () := by
  unfold TestRawChecksums checksum
  simp only [convert_fuel]
  decide +kernel

/-- common/packet/packet_test.go:434-455 -/
noncomputable def TestAuthOptions : Res Unit := do
  let (s, h) := mem AuthpacketByte
  match ← New h 1 s "2".toList true with
  | (some pkt, none) => do
    let err ← pkt.CheckTCPAuthenticationOption h
    want err.isNone
  | _ => .panic
  let (s, h) := mem NonAuthpacketByte
  match ← New h 1 s "2".toList true with
  | (some pkt, none) => do
    let err ← pkt.CheckTCPAuthenticationOption h
    want err.isSome
  | _ => .panic

theorem TestAuthOptions_passes : TestAuthOptions = .ok () := by
  unfold TestAuthOptions Packet.CheckTCPAuthenticationOption
  simp only [auth_fuel]
  decide +kernel

/-- common/packet/packet_test.go:457-500 (without `Print`, which only prints) -/
def TestNewPacketFunctions : Res Unit := do
  let (_, pkt) ← getTestPacket synGoodTCPChecksum
  want (pkt.TCPOptionLength == 0)
  want (pkt.TCPDataLength == 0)
  want (pkt.SourcePort == 35968)
  want (pkt.DestPort == 99)
  want (ipString pkt.SourceAddress == loopbackAddress)
  want (ipString pkt.DestinationAddress == loopbackAddress)
  want (pkt.IPProto == IPProtocolTCP)
  want (pkt.IPTotalLen == 60)
  want (pkt.IPHeaderLen == 20)
  want (pkt.GetTCPFlags == 2)

theorem TestNewPacketFunctions_passes : TestNewPacketFunctions = .ok () := by decide +kernel

/-- common/packet/packet_test.go:524-530 -/
def TestIPV6PacketParsing : Res Unit := do
  let (_, pkt) ← getTestPacket ipv6UDPPacket
  want (ipString pkt.SourceAddress == "2001:470:e5bf:1096:2:99:c1:10".toList)
  want (ipString pkt.DestinationAddress == "2001:470:e5bf:1001:1cc7:73ff:65f5:a2f7".toList)

theorem TestIPV6PacketParsing_passes : TestIPV6PacketParsing = .ok () := by decide +kernel

/-- common/packet/packet_test.go:532-540 -/
noncomputable def TestReverseFlowPacket : Res Unit := do
  let (h, pkt) ← getTestPacket ipv6UDPPacket
  let (_, pkt) ← CreateReverseFlowPacket h pkt
  want (ipString pkt.SourceAddress == "2001:470:e5bf:1001:1cc7:73ff:65f5:a2f7".toList)
  want (ipString pkt.DestinationAddress == "2001:470:e5bf:1096:2:99:c1:10".toList)

theorem TestReverseFlowPacket_passes : TestReverseFlowPacket = .ok () := by
  unfold TestReverseFlowPacket CreateReverseFlowPacket FixupIPHdrOnDataModify fixupUDPChecksum updateUDPv6Checksum UpdateIPv4Checksum
    computeIPv4Checksum checksum finalizeChecksum
  simp only [convert_fuel, incCsum16_inc]
  decide +kernel

/-- common/packet/constants.go:147 `UDPSynAckMask` -/
def UDPSynAckMask : Byte := 0x20

/-- common/packet/packet_test.go:542-556 -/
noncomputable def TestUDPTokenAttach : Res Unit := do
  let (h, pkt) ← getTestPacket ipv6UDPPacket
  let (opts, h) := h.mk' (CreateUDPAuthMarker UDPSynAckMask)
  let (h, pkt) ← CreateReverseFlowPacket h pkt
  let (tok, h) := h.mk' ("helloworld".toList.map fun c => BitVec.ofNat 8 c.toNat)
  let (h, pkt) ← UDPTokenAttach (fun n => n) h pkt opts tok
  let t ← ReadUDPToken h pkt
  want (t == "helloworld".toList.map fun c => BitVec.ofNat 8 c.toNat)

theorem TestUDPTokenAttach_passes : TestUDPTokenAttach = .ok () := by
  unfold TestUDPTokenAttach UDPTokenAttach CreateReverseFlowPacket FixupIPHdrOnDataModify fixupUDPChecksum updateUDPv6Checksum UpdateIPv4Checksum
    computeIPv4Checksum checksum finalizeChecksum
  simp only [convert_fuel, incCsum16_inc]
  decide +kernel

end Verif.Conform.PacketTests
