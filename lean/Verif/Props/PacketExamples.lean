import Verif.Props.PacketAlias
/-! A concrete packet that meets the hypotheses of C56-C62, C68 and C75. -/
namespace Verif.Packet
open Verif.Spec

/-- A TCP packet with one 4-byte option of kind 34, 8 bytes of data and a valid IP checksum; a second
array holds bytes to attach. -/
def exHeap : Heap := ⟨[[69, 0, 0, 52, 0, 7, 0, 0, 64, 6, 102, 187, 10, 0, 0, 1, 10, 0, 0, 2, 4, 210, 0, 80, 0, 0, 0, 1, 0, 0, 0, 2, 96, 24, 1, 0, 0, 0, 0, 0, 34, 4, 9, 9, 65, 66, 67, 68, 69, 70, 71, 72], [1, 2, 3, 4]]⟩

/-- What `New` returns for it. -/
def exPacket : Packet where
  context := 0
  mark := []
  buffer := ⟨0, 0, 52, 52⟩
  ipHeaderLen := 20
  ipProto := 6
  ipTotalLength := 52
  ipID := 7
  ipChecksum := 26299
  version := .V4
  sourceAddress := [10, 0, 0, 1]
  destinationAddress := [10, 0, 0, 2]
  tcpOptions := Slice.nil
  tcpData := Slice.nil
  tcpSourcePort := 1234
  tcpDestinationPort := 80
  tcpSeq := 1
  tcpAck := 2
  tcpDataOffset := 6
  tcpFlags := 0x18
  tcpChecksum := 0
  tcpTotalLength := 32
  udpSourcePort := 0
  udpDestinationPort := 0
  udpChecksum := 0
  udpData := []
  l4flowhash := "10.0.0.1:10.0.0.2:1234:80".toList

theorem ex_valid : (⟨0, 0, 52, 52⟩ : Slice).Valid exHeap := by unfold Slice.Valid; decide

theorem ex_accepted : New exHeap 0 ⟨0, 0, 52, 52⟩ [] true = .ok (some exPacket, none) := by decide +kernel

theorem ex_detachable : Detachable exPacket 4 ∧ Detachable exPacket 0 := by
  unfold Detachable; decide

theorem ex_checksum : ChecksumRight exHeap exPacket := by
  intro _; unfold ipv4ChecksumOk; decide +kernel

/-- C56-C58 apply: detaching the option and the data, dropping and attaching four other bytes. -/
theorem C58_example (grow : Nat → Nat) : ∃ h1 p1 h2 p2, TCPDataDetach exHeap exPacket 4 = .ok (h1, p1) ∧
    TCPDataAttach grow h1 p1.DropTCPDetachedBytes ⟨1, 0, 4, 4⟩ p1.GetTCPData = .ok (h2, p2, none) ∧
    p2.IPTotalLen.toNat = (p2.GetTCPBytes h2).length := by
  have hi := accepted_inv ex_valid ex_accepted rfl (by decide)
  obtain ⟨h1, p1, e1, hall⟩ := C58_attach_consistent ex_valid ex_accepted rfl (by decide) ex_detachable.1 (by decide) grow
  have hdk := Detachable.ok hi ex_detachable.1
  obtain ⟨h1', p1', e1', hD⟩ := Detach_full hi hdk
  rw [e1] at e1'
  cases e1'
  have hov : (⟨1, 0, 4, 4⟩ : Slice).Valid h1 := by
    have hl : h1.arrayOf 1 = exHeap.arrayOf 1 := by
      apply List.ext_getElem?
      intro i
      exact hD.mem.2 1 i (fun hx => absurd hx.1 (by decide))
    unfold Slice.Valid
    rw [hl]; decide
  have hb : p1.buffer = ⟨0, 0, 40, 52⟩ := by rw [hD.buf]; decide
  have hdd : p1.tcpData = ⟨0, 44, 8, 8⟩ := by rw [hD.data]; decide
  have hh : p1.ipHeaderLen = 20 := hD.hlen
  have ho : p1.tcpDataOffset.toNat = 5 := by rw [hD.off]; decide
  have ht : p1.ipTotalLength = 40 := by rw [hD.tot]; decide
  have hf : Foreign h1 p1 p1.GetTCPData := by
    refine ⟨hD.inv.data, .inr (.inr ?_)⟩
    show p1.buffer.off + p1.ipHeaderLen.toNat + 20 ≤ p1.tcpData.off
    rw [hb, hdd, hh]; decide
  obtain ⟨h2, p2, e2, _, _, e3, _⟩ := hall ⟨1, 0, 4, 4⟩ p1.GetTCPData hov hf (by decide)
    (by rw [hD.inv.dataStart, ho]; decide)
    (by show p1.ipTotalLength.toNat + 4 + p1.tcpData.len < 65536; rw [ht, hdd]; decide)
  exact ⟨h1, p1, h2, p2, e1, e2, e3⟩

/-- C57 applies to it. -/
theorem C57_example (grow : Nat → Nat) : ∃ h1 p1 h2 p2, TCPDataDetach exHeap exPacket 4 = .ok (h1, p1) ∧
    TCPDataAttach grow h1 p1.DropTCPDetachedBytes p1.GetTCPOptions p1.GetTCPData = .ok (h2, p2, none) ∧
    p2.GetTCPBytes h2 = exHeap.bytes exPacket.buffer := by
  obtain ⟨h1, p1, h2, p2, e1, e2, e3, _⟩ := C57_detach_attach_restores ex_valid ex_accepted rfl (by decide) ex_detachable.1
    (by decide) ex_checksum ⟨0x60, by decide, by decide⟩ grow
  exact ⟨h1, p1, h2, p2, e1, e2, e3⟩

/-- C59's violation happens on it: the first four of the eight detached bytes are overwritten. -/
theorem C59_example_violated (grow : Nat → Nat) : ∃ h1 p1 h2 p2, TCPDataDetach exHeap exPacket 4 = .ok (h1, p1) ∧
    h1.bytes p1.GetTCPData = [65, 66, 67, 68, 69, 70, 71, 72] ∧
    TCPDataAttach grow h1 p1 ⟨1, 0, 4, 4⟩ p1.GetTCPData = .ok (h2, p2, none) ∧
    h2.bytes p2.GetTCPData = [1, 2, 3, 4, 69, 70, 71, 72] := by
  have hi := accepted_inv ex_valid ex_accepted rfl (by decide)
  obtain ⟨h1, p1, e1, hall⟩ := C59_attach_overwrites_violated ex_valid ex_accepted rfl (by decide) ex_detachable.1
    (by decide) (by decide) grow
  have hdk := Detachable.ok hi ex_detachable.1
  obtain ⟨h1', p1', e1', hD⟩ := Detach_full hi hdk
  rw [e1] at e1'
  cases e1'
  have hl : h1.arrayOf 1 = exHeap.arrayOf 1 := by
    apply List.ext_getElem?
    intro i
    exact hD.mem.2 1 i (fun hx => absurd hx.1 (by decide))
  have hov : (⟨1, 0, 4, 4⟩ : Slice).Valid h1 := by
    unfold Slice.Valid
    rw [hl]; decide
  have hdd : p1.tcpData = ⟨0, 44, 8, 8⟩ := by rw [hD.data]; decide
  have hb : h1.bytes p1.tcpData = [65, 66, 67, 68, 69, 70, 71, 72] := by
    rw [(hD.bytes hi hdk rfl rfl).1]; decide
  obtain ⟨h2, p2, e2, e3, e4⟩ := hall ⟨1, 0, 4, 4⟩ hov (by decide) (by show 4 ≤ p1.tcpData.len; rw [hdd]; decide)
  refine ⟨h1, p1, h2, p2, e1, hb, e2, ?_⟩
  rw [e3, e4]
  show h1.bytes ⟨1, 0, 4, 4⟩ ++ (h1.bytes p1.tcpData).drop 4 = _
  rw [hb]
  unfold Heap.bytes
  rw [hl]
  decide

/-- C61 applies to it. -/
theorem C61_example : ∃ h' p', ConvertAcktoFinAck exHeap exPacket = .ok (h', p') ∧
    (p'.GetTCPBytes h').length = 44 ∧ p'.GetTCPFlags = 0x11 := by
  obtain ⟨h', p', e1, e2, _, e3, _⟩ := C61_fin_ack ex_valid ex_accepted rfl (by decide) ex_detachable.2
  refine ⟨h', p', e1, ?_, e3⟩
  rw [e2.1]; decide

/-- C62 applies to it and finds the option; without it (kind 35 instead) nothing is found. -/
theorem C62_example : exPacket.CheckTCPAuthenticationOption exHeap = .ok none := by
  obtain ⟨e, e1, e2⟩ := C62_auth_option ex_valid ex_accepted rfl (by decide)
  have : e = none := e2.mpr ⟨by decide, 0, .start, by decide⟩
  rw [e1, this]

/-- C75 applies: a history of calls on it, each allowed when it is made. -/
theorem C75_example (grow : Nat → Nat) : ∃ h' p', runOps grow exHeap exPacket
      [.incSeq 7, .detach 4, .dropAll, .toFinAck] = .ok (h', p') ∧ OnWire p' (h'.bytes p'.buffer) := by
  apply C75_accessors_match_wire ex_valid ex_accepted rfl (by decide) grow
  have hi := accepted_inv ex_valid ex_accepted rfl (by decide)
  refine ⟨trivial, fun h1 p1 e1 => ?_⟩
  obtain ⟨h1', p1', r1, hi1, _⟩ := run_ok grow hi (.incSeq 7) trivial
  rw [e1] at r1; cases r1
  have e1' : IncreaseTCPSeq exHeap exPacket 7 = .ok (h1, p1) := e1
  rw [IncSeq_eq ex_valid (by decide)] at e1'
  simp only [Res.ok.injEq, Prod.mk.injEq] at e1'
  obtain ⟨_, rfl⟩ := e1'
  have hdt : Detachable { exPacket with tcpSeq := exPacket.tcpSeq + 7 } 4 := by unfold Detachable; decide
  refine ⟨hdt, fun h2 p2 e2 => ⟨trivial, fun h3 p3 e3 => ⟨?_, fun _ _ _ => trivial⟩⟩⟩
  have e2' : TCPDataDetach h1 { exPacket with tcpSeq := exPacket.tcpSeq + 7 } 4 = .ok (h2, p2) := e2
  obtain ⟨h2', p2', r2, hD⟩ := Detach_full hi1 (Detachable.ok hi1 hdt)
  rw [e2'] at r2; cases r2
  have e3' : (h2, p2.DropTCPDetachedBytes) = (h3, p3) := by
    have : (Res.ok (h2, p2.DropTCPDetachedBytes) : Res (Heap × Packet)) = .ok (h3, p3) := e3
    exact Res.ok.inj this
  cases e3'
  have hb : p2.buffer = ⟨0, 0, 40, 52⟩ := by rw [hD.buf]; decide
  have hh : p2.ipHeaderLen = 20 := hD.hlen
  have ho : p2.tcpDataOffset.toNat = 5 := by rw [hD.off]; decide
  show Detachable p2.DropTCPDetachedBytes 0
  unfold Detachable
  have hds : p2.DropTCPDetachedBytes.TCPDataStartBytes.toNat = 20 := by
    have := hD.inv.dataStart
    rw [ho] at this; exact this
  rw [hds]
  show 20 + 0 ≤ 20 ∧ p2.ipHeaderLen.toNat + 20 ≤ p2.buffer.len ∧ p2.buffer.len - p2.ipHeaderLen.toNat < 65536
  rw [hb, hh]
  decide

end Verif.Packet
