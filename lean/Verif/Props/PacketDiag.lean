import Verif.Props.PacketMore
/-! C92, C93: the diagnostic functions of the packet library. -/
namespace Verif.Packet
open Verif.Spec

/-! ### C92 -/

/-- The text of the first entry of `table` whose bit is set in `flags`, or nothing. -/
def firstText (flags : U64) : List (U64 × String) → String
  | [] => ""
  | (bit, text) :: t => if flags &&& bit = 0 then firstText flags t else text

/-- The comment of a diagnostic line: packet type, stage and reason of failure. -/
def stageText (flags : U64) : String :=
  firstText flags [(0x2000, "Application"), (0x1000, "Network")] ++
  firstText flags [(0x100, "-Incoming"), (0x800, "-Outgoing"), (0x200, "-Auth"), (0x400, "-Service")] ++
  firstText flags [(0x10, "-(Fail Create)"), (0x20, "-(Fail Auth)"), (0x40, "-(Fail Service)")]

theorem firstText_cons {flags bit : U64} {text rest : String} {t : List (U64 × String)}
    (h : firstText flags t = rest) :
    (if flags &&& bit ≠ 0 then text else rest) = firstText flags ((bit, text) :: t) := by
  show _ = if flags &&& bit = 0 then firstText flags t else text
  by_cases hb : flags &&& bit = 0
  · rw [if_pos hb, if_neg (fun hn => hn hb), h]
  · rw [if_neg hb, if_pos hb]

theorem comment_text (flags : U64) : flagsToStr flags = stageText flags := by
  unfold flagsToStr stageText
  refine congr (congrArg _ (congr (congrArg _ ?_) ?_)) ?_
  · exact firstText_cons (firstText_cons rfl).symm
  · exact firstText_cons (firstText_cons (firstText_cons (firstText_cons rfl).symm).symm).symm
  · exact firstText_cons (firstText_cons (firstText_cons rfl).symm).symm

/-- What one diagnostic line says about a packet in memory `h`, printed for stage flags `context`: the
packet's identification, endpoints, flags, sequence numbers, data offset and stated checksum; "Bad Checksum"
exactly when checksum verification fails; and the dump is a 14-byte Ethernet header followed by the packet
as it would be sent. -/
structure Describes (h : Heap) (p : Packet) (context : U64) (o : PrintOut) : Prop where
  id : o.line.id = p.ipID
  dir : o.line.dir = if (p.context ||| context) &&& 0x2000 ≠ 0 then "<<<<<"
    else if (p.context ||| context) &&& 0x1000 ≠ 0 then ">>>>>" else "xxxxx"
  comment : o.line.comment = stageText (p.context ||| context)
  src : o.line.src = ipString p.SourceAddress ∧ o.line.sport = p.SourcePort
  dst : o.line.dst = ipString p.DestinationAddress ∧ o.line.dport = p.DestPort
  seq : o.line.seq = p.tcpSeq ∧ o.line.ack = p.tcpAck
  urgent : 'U' ∈ o.line.flags ↔ p.GetTCPFlags &&& 0x20 ≠ 0
  ackf : 'A' ∈ o.line.flags ↔ p.GetTCPFlags &&& 0x10 ≠ 0
  push : 'P' ∈ o.line.flags ↔ p.GetTCPFlags &&& 0x08 ≠ 0
  rst : 'R' ∈ o.line.flags ↔ p.GetTCPFlags &&& 0x04 ≠ 0
  syn : 'S' ∈ o.line.flags ↔ p.GetTCPFlags &&& 0x02 ≠ 0
  fin : 'F' ∈ o.line.flags ↔ p.GetTCPFlags &&& 0x01 ≠ 0
  offset : o.line.offset = p.tcpDataOffset
  stated : o.line.stated = p.tcpChecksum
  verdict : ∃ b, VerifyTCPChecksum h p = .ok (b, h) ∧ (o.line.verdict = "Bad Checksum" ↔ b = false)
  dump : o.dump = [0, 0, 0, 0, 0, 1, 0, 0, 0, 0, 0, 2, 8, 0] ++ p.GetTCPBytes h

theorem flags_letters : ∀ f : Byte,
    ('U' ∈ tcpFlagsToStr f ↔ f &&& 0x20 ≠ 0) ∧ ('A' ∈ tcpFlagsToStr f ↔ f &&& 0x10 ≠ 0) ∧
    ('P' ∈ tcpFlagsToStr f ↔ f &&& 0x08 ≠ 0) ∧ ('R' ∈ tcpFlagsToStr f ↔ f &&& 0x04 ≠ 0) ∧
    ('S' ∈ tcpFlagsToStr f ↔ f &&& 0x02 ≠ 0) ∧ ('F' ∈ tcpFlagsToStr f ↔ f &&& 0x01 ≠ 0) := by
  decide +kernel

/-- What `Print` hands to the logger, in closed form. -/
noncomputable def printed (h : Heap) (n : Nat) (p : Packet) (context : U64) : PrintOut where
  titles := decide (n % 200 = 0)
  line :=
    { id := p.ipID, dir := flagsToDir (p.context ||| context), comment := flagsToStr (p.context ||| context),
      src := ipString p.sourceAddress, sport := p.tcpSourcePort,
      dst := ipString p.destinationAddress, dport := p.tcpDestinationPort,
      flags := tcpFlagsToStr p.GetTCPFlags, seq := p.tcpSeq, ack := p.tcpAck
      dataLen := BitVec.ofNat 16 (p.buffer.len - p.ipHeaderLen.toNat) - p.TCPDataStartBytes
      expAck := p.tcpSeq + (BitVec.ofNat 16 (p.buffer.len - p.ipHeaderLen.toNat) - p.TCPDataStartBytes).setWidth 32
        + (if p.GetTCPFlags &&& TCPSynMask = TCPSynMask then 1 else 0)
      expSeq := p.tcpSeq + (BitVec.ofNat 16 (p.buffer.len - p.ipHeaderLen.toNat) - p.TCPDataStartBytes).setWidth 32
        + (if p.GetTCPFlags &&& TCPSynMask = TCPSynMask then 1 else 0)
      offset := p.tcpDataOffset, stated := p.tcpChecksum
      computed := tcpCks p (window h p.buffer) (h.bytes p.tcpOptions) (h.bytes p.tcpData)
      verdict := if p.tcpChecksum ≠ tcpCks p (window h p.buffer) (h.bytes p.tcpOptions) (h.bytes p.tcpData)
        then "Bad Checksum" else "" }
  dump := etherHeader ++ h.bytes p.buffer ++ h.bytes p.tcpOptions ++ h.bytes p.tcpData

/-- The result of `Print` when a line is printed. -/
theorem Print_eq {h : Heap} {p : Packet} (hm : TcpMem h p) (hp : p.ipProto = 6) (n : Nat) {ctx : U64} {lv : Bool}
    (hl : lv = true ∨ ctx = 0) :
    ∃ o, Print h n p ctx lv = .ok (h, n + 1, some o) ∧ (o.titles = true ↔ n % 200 = 0) ∧
      o.line.dataLen = BitVec.ofNat 16 (p.buffer.len - p.ipHeaderLen.toNat) - p.TCPDataStartBytes ∧
      o.line.expAck = p.tcpSeq + o.line.dataLen.setWidth 32 +
        (if p.GetTCPFlags &&& TCPSynMask = TCPSynMask then 1 else 0) ∧
      o.line.expSeq = o.line.expAck ∧
      o.line.computed = tcpCks p (window h p.buffer) (h.bytes p.tcpOptions) (h.bytes p.tcpData) ∧
      Describes h p ctx o := by
  have hr := hm.room
  have hfrom := from_eq hm.buf p.ipHeaderLen.toNat
  rw [if_pos (by omega)] at hfrom
  have hnp : ¬ p.ipProto ≠ IPProtocolTCP := fun hne => hne hp
  have hsp : p.tcpSourcePort = p.SourcePort := by
    unfold Packet.SourcePort; rw [hp]; rfl
  have hdp : p.tcpDestinationPort = p.DestPort := by
    unfold Packet.DestPort; rw [hp]; rfl
  have hpr : Print h n p ctx lv = .ok (h, n + 1, some (printed h n p ctx)) := by
    unfold Print
    rw [if_neg hnp, if_pos hl]
    simp only [hfrom, Res.ok_bind, computeTCP_mem hm]
    rfl
  refine ⟨_, hpr, ?_, rfl, rfl, rfl, rfl, ?_⟩
  · exact decide_eq_true_iff
  · have hf := flags_letters p.GetTCPFlags
    refine ⟨rfl, rfl, comment_text _, ⟨rfl, hsp⟩, ⟨rfl, hdp⟩, ⟨rfl, rfl⟩, hf.1, hf.2.1, hf.2.2.1, hf.2.2.2.1, hf.2.2.2.2.1,
      hf.2.2.2.2.2, rfl, rfl, ⟨_, VerifyTCP_eq hm, ?_⟩, ?_⟩
    · simp only [printed]
      by_cases hc : p.tcpChecksum = tcpCks p (window h p.buffer) (h.bytes p.tcpOptions) (h.bytes p.tcpData)
      · rw [if_neg (fun hne => hne hc), beq_eq_false_iff_ne]
        constructor
        · intro hne; exact absurd hne (by decide)
        · intro hne; exact absurd hc.symm hne
      · rw [if_pos hc, beq_eq_false_iff_ne]
        exact ⟨fun _ he => hc he.symm, fun _ => rfl⟩
    · show etherHeader ++ h.bytes p.buffer ++ h.bytes p.tcpOptions ++ h.bytes p.tcpData = _
      unfold etherHeader Packet.GetTCPBytes
      simp only [List.append_assoc]

/-- C92. `Print` never changes the packet's memory and always returns, after any allowed sequence of
operations on an accepted TCP packet whose assembled segment stays below 64 KiB.  It says nothing unless the
packet log level is on or the stage flags are 0; otherwise it counts one more line, gives the column titles
on every two hundredth line, and describes the packet. -/
theorem C92_print {h : Heap} {bytes : Slice} (hv : bytes.Valid h) {c : U64} {m : List Char}
    {p : Packet} (ha : New h c bytes m true = .ok (some p, none)) (ht : p.IPProto = 6) (hn : bytes.len < 65536)
    (grow : Nat → Nat) (ops : List TcpOp) (hall : AllAllowed grow h p ops) :
    ∃ h' p', runOps grow h p ops = .ok (h', p') ∧
      ((p'.GetTCPBytes h').length < p'.IPHeaderLen.toNat + 65536 →
        ∀ (n : Nat) (ctx : U64) (lv : Bool),
          (lv = false → ctx ≠ 0 → Print h' n p' ctx lv = .ok (h', n, none)) ∧
          (lv = true ∨ ctx = 0 → ∃ o, Print h' n p' ctx lv = .ok (h', n + 1, some o) ∧
            (o.titles = true ↔ n % 200 = 0) ∧ Describes h' p' ctx o)) := by
  obtain ⟨h', p', h1, h2, _⟩ := runOps_ok grow ops (accepted_inv hv ha ht hn) hall
  refine ⟨h', p', h1, fun hs n ctx lv => ⟨fun hl hc => ?_, fun hl => ?_⟩⟩
  · unfold Print
    have hno : ¬ (lv = true ∨ ctx = 0) := by
      rintro (hx | hx)
      · rw [hl] at hx; exact absurd hx (by decide)
      · exact hc hx
    rw [if_neg (fun hne => hne h2.proto), if_neg hno]
  · have hs' : p'.buffer.len - p'.ipHeaderLen.toNat + p'.tcpOptions.len + p'.tcpData.len < 65536 := by
      have hs2 : (h'.bytes p'.buffer ++ h'.bytes p'.tcpOptions ++ h'.bytes p'.tcpData).length
        < p'.ipHeaderLen.toNat + 65536 := hs
      rw [List.length_append, List.length_append, Heap.bytes_length h2.buf, Heap.bytes_length h2.opts,
        Heap.bytes_length h2.data] at hs2
      have := h2.room
      omega
    obtain ⟨o, k1, k2, _, _, _, _, k7⟩ := Print_eq (h2.mem hs') h2.proto n hl
    exact ⟨o, k1, k2, k7⟩

/-- C92, packets of other protocols: `Print` does nothing. -/
theorem C92_other_protocols (h : Heap) (n : Nat) {p : Packet} (hp : p.IPProto ≠ 6) (ctx : U64) (lv : Bool) :
    Print h n p ctx lv = .ok (h, n, none) := by
  unfold Print
  exact if_pos hp

/-- C92, on a freshly parsed TCP packet whose data offset lies inside it: the printed length is that of the
data, the expected acknowledgement is sequence number + data length + 1 for a SYN (modulo 2^32), and the
computed checksum is the RFC 793/2460 one of the whole packet. -/
theorem C92_expected {h : Heap} {bytes : Slice} (hv : bytes.Valid h) {c : U64} {m : List Char}
    {p : Packet} (ha : New h c bytes m true = .ok (some p, none)) (ht : p.IPProto = 6) (hn : bytes.len < 65536)
    (hoff : p.IPHeaderLen.toNat + p.TCPDataStartBytes.toNat ≤ p.buffer.len)
    (n : Nat) {ctx : U64} {lv : Bool} (hl : lv = true ∨ ctx = 0) :
    ∃ o data, Print h n p ctx lv = .ok (h, n + 1, some o) ∧ p.ReadTCPDataString h = .ok data ∧
      o.line.dataLen.toNat = data.length ∧
      o.line.expAck.toNat =
        (p.tcpSeq.toNat + data.length + if p.GetTCPFlags &&& 2 = 2 then 1 else 0) % 2 ^ 32 ∧
      o.line.expSeq = o.line.expAck ∧
      o.line.computed.toNat = rfcTcpChecksum p.IPversion (h.bytes p.buffer) := by
  have hm := accepted_mem hv ha ht hn
  obtain ⟨h1, h2, h3, _, h5, h6, _, h8, h9, _, h11⟩ := accepted_tcp hv ha ht
  have hr := hm.room
  have hc := hm.buf.1
  have hwl := window_length hm.buf
  have hbw := bytes_eq_window hm.buf
  have hbl := Heap.bytes_length hm.buf
  obtain ⟨s, hs1, hs2⟩ := ((C71_payload hv ha ht hn).1 hoff).2
  obtain ⟨o, k1, k2, k3, k4, k5, k6, k7⟩ := Print_eq hm ht n hl
  have hoff' : p.ipHeaderLen.toNat + p.TCPDataStartBytes.toNat ≤ p.buffer.len := hoff
  have hdl : o.line.dataLen.toNat = (h.bytes s).length := by
    rw [k3, hs2, List.length_drop, hbl]
    show _ = p.buffer.len - (p.ipHeaderLen.toNat + p.TCPDataStartBytes.toNat)
    rw [BitVec.toNat_sub, BitVec.toNat_ofNat]
    omega
  refine ⟨o, h.bytes s, k1, ?_, hdl, ?_, k5, ?_⟩
  · unfold Packet.ReadTCPDataString
    rw [hs1]; rfl
  · rw [k4, BitVec.toNat_add, BitVec.toNat_add, BitVec.toNat_setWidth, hdl]
    have hlt : (h.bytes s).length < 65536 := by rw [← hdl]; exact o.line.dataLen.isLt
    show ((_ : Nat) + ((if p.GetTCPFlags &&& 2 = 2 then 1 else 0 : U32)).toNat) % 2 ^ 32 = _
    split
    · show ((_ : Nat) + 1) % 2 ^ 32 = _; omega
    · show ((_ : Nat) + 0) % 2 ^ 32 = _; omega
  · have hrfc := tcpCks_rfc (p := p) (W := window h p.buffer) (opts := []) (data := []) hm.hdr (by omega) (by omega)
      ⟨.inr ⟨rfl, rfl⟩, .inl rfl⟩ (by have := hm.size; simp; omega)
    rw [← hbw] at hrfc
    simp only [List.append_nil] at hrfc
    rw [k6, h5, h6, nil_bytes]
    exact hrfc

/-- C92 on the example packet: 8 bytes of data, expected acknowledgement 1 + 8, and a stated checksum of 0
that the line calls bad. -/
theorem C92_example : ∃ o, Print exHeap 200 exPacket 0 false = .ok (exHeap, 201, some o) ∧ o.titles = true ∧
    o.line.dataLen = 8 ∧ o.line.expAck = 9 ∧ o.line.flags = ".AP...".toList ∧
    o.line.verdict = "Bad Checksum" ∧ stageText 0x2220 = "Application-Auth-(Fail Auth)" := by
  have hm := accepted_mem ex_valid ex_accepted rfl (by decide)
  obtain ⟨o, k1, k2, k3, k4, k5, k6, k7⟩ := Print_eq hm rfl 200 (ctx := 0) (lv := false) (.inr rfl)
  have hd : o.line.dataLen = 8 := by rw [k3]; decide
  refine ⟨o, k1, k2.mpr (by decide), hd, ?_, ?_, ?_, by decide⟩
  · rw [k4, hd]; decide
  · obtain ⟨o', e1, e2⟩ : ∃ o', Print exHeap 200 exPacket 0 false = .ok (exHeap, 201, some o') ∧
        o'.line.flags = tcpFlagsToStr 0x18 := by
      unfold Print
      rw [if_neg (by decide), if_pos (.inr rfl)]
      have hfrom := from_eq hm.buf exPacket.ipHeaderLen.toNat
      rw [if_pos (by decide)] at hfrom
      simp only [hfrom, Res.ok_bind, computeTCP_mem hm]
      exact ⟨_, rfl, rfl⟩
    rw [k1] at e1
    cases e1
    rw [e2]; decide
  · obtain ⟨b, v1, v2⟩ := k7.verdict
    refine v2.mpr ?_
    have : VerifyTCPChecksum exHeap exPacket = .ok (false, exHeap) := by
      obtain ⟨b', w1, w2⟩ := C54_verify_tcp ex_valid ex_accepted rfl (by decide)
      have : ¬ b' = true := fun hb => absurd (w2.mp hb) (by decide +kernel)
      rw [w1]
      cases b'
      · rfl
      · exact absurd rfl this
    rw [this] at v1
    cases v1
    rfl

/-! ### C93 -/

theorem hexBytes_inj : ∀ {a b : List Byte}, hexBytes a = hexBytes b → a = b := by
  intro a
  induction a with
  | nil => intro b h; cases b <;> simp_all [hexBytes]
  | cons x t ih =>
    intro b h
    cases b with
    | nil => simp [hexBytes] at h
    | cons y u =>
      simp only [hexBytes, List.cons.injEq] at h
      have hx := x.isLt
      have hy := y.isLt
      have e1 := digitChar_inj ⟨x.toNat / 16, by omega⟩ ⟨y.toNat / 16, by omega⟩ h.1
      have e2 := digitChar_inj ⟨x.toNat % 16, by omega⟩ ⟨y.toNat % 16, by omega⟩ h.2.1
      have e1' : x.toNat / 16 = y.toNat / 16 := congrArg Fin.val e1
      have e2' : x.toNat % 16 = y.toNat % 16 := congrArg Fin.val e2
      rw [ih h.2.2, BitVec.eq_of_toNat_eq (x := x) (y := y) (by omega)]

theorem digitChar_word : ∀ a : Fin 16, a.val.digitChar ≠ ' ' ∧ a.val.digitChar ≠ 't' ∧ a.val.digitChar ≠ '=' := by decide

theorem hexBytes_no {a : List Byte} {c : Char} (h : c ∈ hexBytes a) : c ≠ ' ' ∧ c ≠ 't' ∧ c ≠ '=' := by
  induction a with
  | nil => simp [hexBytes] at h
  | cons x t ih =>
    simp only [hexBytes, List.mem_cons] at h
    have hx := x.isLt
    rcases h with h | h | h
    · rw [h]; exact digitChar_word ⟨x.toNat / 16, by omega⟩
    · rw [h]; exact digitChar_word ⟨x.toNat % 16, by omega⟩
    · exact ih h

theorem hex_word : ∀ {n : Nat} {c : Char}, c ∈ hex n → c ≠ ' ' ∧ c ≠ 't' ∧ c ≠ '=' := by
  intro n
  induction n using Nat.strongRecOn with
  | ind n ih =>
    intro c h
    rw [hex_eq] at h
    split at h
    · rw [List.mem_singleton.mp h]; exact digitChar_word ⟨n, by omega⟩
    · rcases List.mem_append.mp h with h | h
      · exact ih _ (by omega) h
      · rw [List.mem_singleton.mp h]; exact digitChar_word ⟨n % 16, by omega⟩

/-- C93. The string form of a packet determines it: if two packets whose IPv4 headers parse have the same
string, then their headers print alike, and ports, stated checksum and the complete assembled bytes are
equal - whatever text the `ipv4` library gives for a header. -/
theorem C93_string_determines_packet (header : List Byte → Option (List Char)) (h h' : Heap) (p p' : Packet)
    {t t' : List Char} (h1 : header (h.bytes p.buffer) = some t) (h2 : header (h'.bytes p'.buffer) = some t') :
    p.PacketToStringTCP header h = p'.PacketToStringTCP header h' ↔
      t = t' ∧ p.SourcePort = p'.SourcePort ∧ p.DestPort = p'.DestPort ∧ p.tcpChecksum = p'.tcpChecksum ∧
      p.GetTCPBytes h = p'.GetTCPBytes h' := by
  unfold Packet.PacketToStringTCP
  rw [h1, h2]
  simp only
  constructor
  · intro e
    have key : ∀ (t : List Char) (a b c : Nat) (d : List Byte),
        t ++ " srcport=".toList ++ itoa a ++ " dstport=".toList ++ itoa b ++ " tcpcksum=".toList ++ "0x".toList
          ++ hex c ++ " data".toList ++ hexBytes d =
        (((t ++ ' ' :: ("srcport=".toList ++ itoa a)) ++ ' ' :: ("dstport=".toList ++ itoa b))
          ++ ' ' :: ("tcpcksum=0x".toList ++ hex c)) ++ ' ' :: ("data".toList ++ hexBytes d) := by
      intro t a b c d
      simp
    rw [key, key] at e
    have n1 : ∀ d : List Byte, ' ' ∉ "data".toList ++ hexBytes d := by
      intro d hm
      rcases List.mem_append.mp hm with hm | hm
      · exact absurd hm (by decide)
      · exact (hexBytes_no hm).1 rfl
    have n2 : ∀ c : Nat, ' ' ∉ "tcpcksum=0x".toList ++ hex c := by
      intro c hm
      rcases List.mem_append.mp hm with hm | hm
      · exact absurd hm (by decide)
      · exact (hex_word hm).1 rfl
    have n3 : ∀ b : Nat, ' ' ∉ "dstport=".toList ++ itoa b := by
      intro c hm
      rcases List.mem_append.mp hm with hm | hm
      · exact absurd hm (by decide)
      · exact itoa_not (by decide) hm
    have n4 : ∀ b : Nat, ' ' ∉ "srcport=".toList ++ itoa b := by
      intro c hm
      rcases List.mem_append.mp hm with hm | hm
      · exact absurd hm (by decide)
      · exact itoa_not (by decide) hm
    obtain ⟨e, ed⟩ := sep_inj_last (n1 _) (n1 _) e
    obtain ⟨e, ec⟩ := sep_inj_last (n2 _) (n2 _) e
    obtain ⟨e, eb⟩ := sep_inj_last (n3 _) (n3 _) e
    obtain ⟨e, ea⟩ := sep_inj_last (n4 _) (n4 _) e
    exact ⟨e, BitVec.eq_of_toNat_eq (itoa_inj (List.append_cancel_left ea)),
      BitVec.eq_of_toNat_eq (itoa_inj (List.append_cancel_left eb)),
      BitVec.eq_of_toNat_eq (hex_inj (List.append_cancel_left ec)), hexBytes_inj (List.append_cancel_left ed)⟩
  · rintro ⟨e1, e2, e3, e4, e5⟩
    rw [e1, e2, e3, e4, e5]

/-- C93, when the header does not parse the string is "(error)", whatever the packet. -/
theorem C93_error (header : List Byte → Option (List Char)) (h : Heap) (p : Packet)
    (h1 : header (h.bytes p.buffer) = none) : p.PacketToStringTCP header h = "(error)".toList := by
  unfold Packet.PacketToStringTCP
  rw [h1]

/-- C93, non-vacuous. -/
theorem C93_example : exPacket.PacketToStringTCP (fun _ => some "ver=4".toList) exHeap =
    ("ver=4 srcport=1234 dstport=80 tcpcksum=0x0 data45000034000700004006" ++
     "66bb0a0000010a00000204d2005000000001000000026018010000000000220409094142434445464748").toList := by
  decide +kernel

/-! ### C106 -/

/-- C106, what holds: a packet built by `TestGetTCPPacket` is a TCP packet that reports the endpoints it was
built from, and its reverse flow hash is that of every parsed packet with the same endpoints. -/
theorem C106_test_packet_partial (src dst : List Byte) (sport dport : U16) :
    (TestGetTCPPacket src dst sport dport).IPProto = 6 ∧
    (TestGetTCPPacket src dst sport dport).SourceAddress = src ∧
    (TestGetTCPPacket src dst sport dport).DestinationAddress = dst ∧
    (TestGetTCPPacket src dst sport dport).SourcePort = sport ∧
    (TestGetTCPPacket src dst sport dport).DestPort = dport ∧
    ∀ {h : Heap} {bytes : Slice} {c : U64} {m : List Char} {lv : Bool} {p : Packet}, bytes.Valid h →
      New h c bytes m lv = .ok (some p, none) → p.SourceAddress = src → p.DestinationAddress = dst →
      p.SourcePort = sport → p.DestPort = dport →
      (TestGetTCPPacket src dst sport dport).L4ReverseFlowHash = p.L4ReverseFlowHash := by
  refine ⟨rfl, rfl, rfl, rfl, rfl, ?_⟩
  intro h bytes c m lv p _ _ h1 h2 h3 h4
  have e1 : (TestGetTCPPacket src dst sport dport).L4ReverseFlowHash = flowText dst src dport sport := rfl
  have e2 : p.L4ReverseFlowHash = flowText p.DestinationAddress p.SourceAddress p.DestPort p.SourcePort := rfl
  rw [e1, e2, h1, h2, h3, h4]

/-- C106 is violated. The flow hash of a test packet is empty, whatever its endpoints; no parsed packet has
an empty flow hash, so a test packet never hashes like the packet it stands for. -/
theorem C106_test_packet_hash_violated (src dst : List Byte) (sport dport : U16) :
    (TestGetTCPPacket src dst sport dport).L4FlowHash = [] ∧
    ∀ {h : Heap} {bytes : Slice} {c : U64} {m : List Char} {lv : Bool} {p : Packet}, bytes.Valid h →
      New h c bytes m lv = .ok (some p, none) →
      (TestGetTCPPacket src dst sport dport).L4FlowHash ≠ p.L4FlowHash := by
  refine ⟨rfl, ?_⟩
  intro h bytes c m lv p hv ha he
  have ea : p.L4FlowHash = flowText p.SourceAddress p.DestinationAddress p.SourcePort p.DestPort := (accepted_hash hv ha).1
  have he' : ([] : List Char) = p.L4FlowHash := he
  rw [ea] at he'
  have := congrArg List.length he'
  simp [flowText] at this

/-- C106 on the endpoints of the example packet. -/
theorem C106_example : exPacket.L4FlowHash = "10.0.0.1:10.0.0.2:1234:80".toList ∧
    (TestGetTCPPacket [10, 0, 0, 1] [10, 0, 0, 2] 1234 80).L4FlowHash = [] ∧
    (TestGetTCPPacket [10, 0, 0, 1] [10, 0, 0, 2] 1234 80).L4ReverseFlowHash = exPacket.L4ReverseFlowHash := by
  decide +kernel

end Verif.Packet
