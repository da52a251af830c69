import Verif.NfLog.ReadLoop
import Verif.Props.Common
import Verif.Props.NfLogConfig
/-!
Properties C33–C38, C76, C77: reading logs.

Everything is for every host, every memory, every application whose callbacks return without replacing
the handle's callbacks (`Polite`; `Quiet` where closing and receiving matter), and every kernel.
-/
namespace Verif.Props.Log
open Verif.Common Verif.Sys Verif.Spec Verif.NfLog Verif.Packet

/-! ### C01 -/

/-- C01 for nflog's own `NfaAlign16`. -/
theorem C01_align16_log (n : U16) :
    (n.toNat ≤ 2 ^ 16 - 4 → IsRoundUp4 n.toNat (nfaAlign16 n).toNat) ∧
    (2 ^ 16 - 4 < n.toNat → nfaAlign16 n = 0) := by
  have he : nfaAlign16 n = nfaAlign n := by
    unfold nfaAlign16 nfaAlign
    rw [show (n + 4 - 1 : U16) = n + 3 from by
      rw [BitVec.sub_eq_add_neg, BitVec.add_assoc]; rfl]
    rfl
  rw [he]
  exact Verif.Props.C01_align16 n

example : nfaAlign16 5 = 8 ∧ nfaAlign16 65533 = 0 := by decide

/-! ### C33 -/

/-- C33: for every buffer, parsing a log message ends, by returning or by crashing, after at most one
iteration per four bytes (and two). -/
theorem C33_parsing_a_message_ends (env : Env) (b : List Byte) (w : W) :
    parsePacket env b w ≠ .diverge ∧
    loopN (tlvBody env) (b.length / 4 + 2) ⟨b.drop 4, NfPacket.zero, w⟩ = parsePacket env b w := by
  refine ⟨parsePacket_ne_diverge env b w, ?_⟩
  have h := tlv_bounded env (b.length / 4 + 1) ⟨b.drop 4, NfPacket.zero, w⟩ (by
    have := List.length_drop (i := 4) (l := b)
    simp only; omega)
  exact (loop_eq_of_loopN _ rfl h).symm

/-! ### C34 -/

/-- C34: a message body made of a 4-byte header and well-formed attributes is parsed without error, and
the callback is invoked exactly with the reports it must produce, in order, each under its prefix. -/
theorem C34_message_delivered (env : Env) (hp : Polite env) (cb : Nat) (hdr : List Byte) (hh : hdr.length = 4)
    (attrs : List (Nat × List Byte)) (hall : ∀ a ∈ attrs, AttrOk a) (w : W) (hcb : w.st.callback = some cb) :
    ∃ w' ms, parsePacket env (hdr ++ encodeAttrs .little attrs) w = .ok (none, w') ∧
      Reported [] attrs ms ∧ Invoked cb ms w w' := by
  obtain ⟨w', ms, a, b, c⟩ := parsePacket_ok hp hh hall w hcb
  exact ⟨w', ms, a, c, b⟩

/-! ### C35 -/

theorem Reported_last {q : List Byte} : ∀ {attrs : List (Nat × List Byte)} {pfx : List Byte} {ms : List NfPacket},
    Reported pfx (attrs ++ [(9, q)]) ms →
    ∃ ms' m pfx', ms = ms' ++ [m] ∧ Describes m pfx' q (padded q) := by
  intro attrs
  induction attrs with
  | nil =>
    intro pfx ms h
    rw [List.nil_append] at h
    cases h with
    | payload hd h => cases h; exact ⟨[], _, pfx, rfl, hd⟩
    | other h9 _ _ => exact absurd rfl h9
  | cons a attrs ih =>
    intro pfx ms h
    rw [List.cons_append] at h
    cases h with
    | «prefix» h => exact ih h
    | payload hd h =>
      obtain ⟨ms', m, pfx', rfl, hm⟩ := ih h
      exact ⟨_ :: ms', m, pfx', rfl, hm⟩
    | other _ _ h => exact ih h

theorem one_message (env : Env) (hp : Polite env) (cb : Nat) (mid hdr : List Byte) (hm : mid.length = 10)
    (attrs : List (Nat × List Byte)) (hok : MsgOk hdr attrs)
    (hlen : (Item.log mid hdr attrs).bytes.length < 4294967296) (w : W) (hcb : w.st.callback = some cb) :
    ∃ w' ms, parseLog env (Item.log mid hdr attrs).bytes w = .ok (none, w') ∧
      Reported [] (cutLast attrs) ms ∧ Invoked cb ms w w' := by
  have hd : datagram [Item.log mid hdr attrs] = (Item.log mid hdr attrs).bytes := by simp [datagram]
  obtain ⟨w', ms, hl, hi, hr⟩ := parse_items hp (cb := cb) [.log mid hdr attrs] [] w
    (by rw [List.append_nil, hd]; exact hlen) (by simpa using ⟨hm, hok⟩) hcb
  rw [List.append_nil, log_end, hd] at hl
  refine ⟨w', ms, hl, ?_, hi⟩
  cases hr with
  | log h1 h2 => cases h2; simpa using h1

/-- C35, the part that holds: when the payload comes last and its length is not a multiple of four, the
callback gets all its bytes. Missing: lengths that are multiples of four, for which it is false
(`C35_violated`). -/
theorem C35_last_byte_partial (env : Env) (hp : Polite env) (cb : Nat) (mid hdr : List Byte) (hm : mid.length = 10)
    (hh : hdr.length = 4) (attrs : List (Nat × List Byte)) (p : List Byte) (hall : ∀ a ∈ attrs ++ [(9, p)], AttrOk a)
    (h4 : p.length % 4 ≠ 0)
    (hlen : (Item.log mid hdr (attrs ++ [(9, p)])).bytes.length < 4294967296) (w : W) (hcb : w.st.callback = some cb) :
    ∃ w' ms m pfx, parseLog env (Item.log mid hdr (attrs ++ [(9, p)])).bytes w = .ok (none, w') ∧
      Reported [] (attrs ++ [(9, p)]) (ms ++ [m]) ∧ Invoked cb (ms ++ [m]) w w' ∧
      Describes m pfx p (padded p) := by
  have hcut : cut p = p := by unfold cut; rw [if_neg h4]
  have hok : MsgOk hdr (attrs ++ [(9, p)]) := by
    refine ⟨hh, by rw [cutLast_append, hcut]; exact hall, ?_⟩
    intro a ha
    simp at ha
    subst ha
    rintro rfl
    exact h4 rfl
  obtain ⟨w', ms, h1, h2, h3⟩ := one_message env hp cb mid hdr hm _ hok hlen w hcb
  rw [cutLast_append, hcut] at h2
  obtain ⟨ms', m, pfx, rfl, hd⟩ := Reported_last h2
  exact ⟨w', ms', m, pfx, h1, h2, h3, hd⟩

/-- C35 is violated: when the payload comes last and its length is a positive multiple of four, the last
byte of what the callback gets is 0, whatever it was. -/
theorem C35_violated (env : Env) (hp : Polite env) (cb : Nat) (mid hdr : List Byte) (hm : mid.length = 10)
    (hh : hdr.length = 4) (attrs : List (Nat × List Byte)) (p : List Byte) (hall : ∀ a ∈ attrs, AttrOk a)
    (hpos : p ≠ []) (h4 : p.length % 4 = 0) (hl : p.length + 4 < 65536) (hacc : Accepts (p.dropLast ++ [0]))
    (hlen : (Item.log mid hdr (attrs ++ [(9, p)])).bytes.length < 4294967296) (w : W) (hcb : w.st.callback = some cb) :
    ∃ w' ms m, parseLog env (Item.log mid hdr (attrs ++ [(9, p)])).bytes w = .ok (none, w') ∧
      Invoked cb (ms ++ [m]) w w' ∧ m.payload = p.dropLast ++ [0] := by
  have hcut : cut p = p.dropLast ++ [0] := by unfold cut; rw [if_pos h4]
  have hclen : (p.dropLast ++ [(0 : Byte)]).length = p.length := by
    have := List.length_pos_iff.mpr hpos
    simp; omega
  have hpad : padded (p.dropLast ++ [0]) = p.dropLast ++ [0] := by
    unfold padded
    rw [hclen, show roundUp4 p.length - p.length = 0 from by unfold roundUp4; omega]
    simp
  have hok : MsgOk hdr (attrs ++ [(9, p)]) := by
    refine ⟨hh, ?_, ?_⟩
    · rw [cutLast_append, hcut]
      intro a ha
      rcases List.mem_append.mp ha with ha | ha
      · exact hall a ha
      · simp only [List.mem_singleton] at ha
        subst ha
        exact ⟨(by simp), by simp only [hclen]; exact hl, (by simp), fun _ => by simp only [hpad]; exact hacc⟩
    · intro a ha
      simp at ha
      subst ha
      exact hpos
  obtain ⟨w', ms, h1, h2, h3⟩ := one_message env hp cb mid hdr hm _ hok hlen w hcb
  rw [cutLast_append, hcut] at h2
  obtain ⟨ms', m, pfx, rfl, hd⟩ := Reported_last h2
  exact ⟨w', ms', m, h1, h3, hd.2.1⟩

/-- C35: an empty last attribute makes the message fail with an error after everything else was delivered. -/
theorem C35_empty_last_violated (env : Env) (hp : Polite env) (cb : Nat) (mid hdr : List Byte) (hm : mid.length = 10)
    (hh : hdr.length = 4) (attrs : List (Nat × List Byte)) (t : Nat) (hall : ∀ a ∈ attrs, AttrOk a)
    (hlen : (Item.log mid hdr (attrs ++ [(t, [])])).bytes.length < 4294967296) (w : W) (hcb : w.st.callback = some cb) :
    ∃ w' ms, parseLog env (Item.log mid hdr (attrs ++ [(t, [])])).bytes w =
        .ok (some (.wrap "Failed to parse NFPacket: %v" (.msg "unexpected EOF")), w') ∧
      Reported [] attrs ms ∧ Invoked cb ms w w' := by
  obtain ⟨m1, w1, ms1, hl, hi, hr⟩ := parse_attrs hp attrs (attrHdr t 0).dropLast NfPacket.zero w hall hcb
  have hb : (hdr ++ encodeAttrs .little (attrs ++ [(t, [])])).dropLast.drop 4 =
      encodeAttrs .little attrs ++ (attrHdr t 0).dropLast := by
    have h1 : hdr ++ encodeAttrs .little (attrs ++ [(t, [])]) =
        hdr ++ (encodeAttrs .little attrs ++ attrHdr t 0) := by
      simp [encodeAttrs, encodeAttr_split, padded, roundUp4]
    have h2 : attrHdr t 0 ≠ [] := by simp [attrHdr, bytes16]
    rw [h1, List.dropLast_append_of_ne_nil (by simp [h2]), List.drop_left' hh,
      List.dropLast_append_of_ne_nil h2]
  have hpp : parsePacket env (hdr ++ encodeAttrs .little (attrs ++ [(t, [])])).dropLast w =
      .ok (some (.msg "unexpected EOF"), w1) := by
    unfold parsePacket
    rw [hb, hl, loop_unfold]
    rfl
  have hne : hdr ++ encodeAttrs .little (attrs ++ [(t, [])]) ≠ [] := by
    intro h
    have := congrArg List.length h
    rw [List.length_append, hh] at this
    simp at this
  refine ⟨w1, ms1, ?_, by simpa [NfPacket.zero] using hr [] [] .nil, hi⟩
  unfold parseLog
  rw [loop_unfold]
  have hs := msg_step env (rest := []) hm (body := hdr ++ encodeAttrs .little (attrs ++ [(t, [])]))
    (type := 4 * 256) (by rw [List.append_nil]; exact hlen) w
  rw [parseMessage_log env hm hne (by rw [List.append_nil]; exact hlen), hpp, List.append_nil] at hs
  unfold Item.bytes
  rw [hs]
  rfl

/-! ### C36 -/

/-- C36, the part that holds: parsing a datagram ends if at every place where a message is looked for there is a
complete header stating a length other than 0. Missing: all other datagrams, for which it is false
(`C36_violated`). -/
theorem C36_parsing_a_datagram_ends_partial (env : Env) (b : List Byte) (hlen : b.length < 4294967296) (w : W)
    (hv : ∀ i, Steps b 0 i → i < b.length → i + 16 ≤ b.length ∧ num32 .little b i ≠ some 0) :
    parseLog env b w ≠ .diverge :=
  log_terminates env b hlen w hv

/-- C36 is violated: after any well-formed messages, 1 to 15 trailing bytes, or a message of another type stating
length 0, make the reader loop forever. -/
theorem C36_violated (env : Env) (hp : Polite env) (cb : Nat) (items : List Item) (rest : List Byte)
    (hlen : (datagram items ++ rest).length < 4294967296) (hall : ∀ i ∈ items, ItemOk i) (w : W)
    (hcb : w.st.callback = some cb)
    (hbad : (rest ≠ [] ∧ rest.length < 16) ∨
      (16 ≤ rest.length ∧ num32 .little rest 0 = some 0 ∧ num16 .little rest 4 ≠ some (4 * 256))) :
    parseLog env (datagram items ++ rest) w = .diverge := by
  obtain ⟨w', ms, hl, _, _⟩ := parse_items hp items rest w hlen hall hcb
  unfold parseLog
  rw [hl]
  rcases hbad with ⟨h0, h1⟩ | ⟨h0, h1, h2⟩
  · exact log_trailing env h0 h1 w'
  · exact log_zero env h0 h1 h2 w'

/-! ### C37 -/

/-- C37: a datagram made of well-formed messages is parsed without error: the reports of its log messages are
delivered in order, other messages are skipped. -/
theorem C37_datagram_delivered (env : Env) (hp : Polite env) (cb : Nat) (items : List Item)
    (hlen : (datagram items).length < 4294967296) (hall : ∀ i ∈ items, ItemOk i) (w : W)
    (hcb : w.st.callback = some cb) :
    ∃ w' ms, parseLog env (datagram items) w = .ok (none, w') ∧ AllReported items ms ∧ Invoked cb ms w w' := by
  obtain ⟨w', ms, hl, hi, hr⟩ := parse_items hp items [] w (by rw [List.append_nil]; exact hlen) hall hcb
  rw [List.append_nil, log_end] at hl
  exact ⟨w', ms, hl, hr, hi⟩

/-- C37: a message stating a length that exceeds what is left stops the parsing with an error that carries the packet parser's, after what came before
was delivered. -/
theorem C37_stops_at_truncated (env : Env) (hp : Polite env) (cb : Nat) (items : List Item) (rest : List Byte)
    (hlen : (datagram items ++ rest).length < 4294967296) (hall : ∀ i ∈ items, ItemOk i) (w : W)
    (hcb : w.st.callback = some cb) (h16 : 16 ≤ rest.length) (n : Nat) (hn : num32 .little rest 0 = some n)
    (hgt : rest.length < n) :
    ∃ w' ms, parseLog env (datagram items ++ rest) w = .ok (some (.msg "Message was truncated"), w') ∧
      AllReported items ms ∧ Invoked cb ms w w' := by
  obtain ⟨w', ms, hl, hi, hr⟩ := parse_items hp items rest w hlen hall hcb
  refine ⟨w', ms, ?_, hr, hi⟩
  unfold parseLog
  rw [hl, loop_unfold]
  have hd : ∃ v t, readHeader rest = .ok (v, t) ∧ v.toNat = n := by
    unfold readHeader
    rw [if_neg (by omega)]
    obtain ⟨v, hv⟩ := (dec32_ok_iff .little rest).mpr (by omega)
    obtain ⟨t, ht⟩ := dec16_of_le .little (b := rest.drop 4) (by simp; omega)
    rw [hv, ht]
    refine ⟨v, t, rfl, ?_⟩
    have := num32_eq .little rest 0 v (by simpa using hv)
    rw [hn] at this
    simpa using this.symm
  obtain ⟨v, t, hrd, hv⟩ := hd
  have hrl : rest.length < 4294967296 := by rw [List.length_append] at hlen; omega
  have : logBody env (rest, w') = .ok (.done (some (.msg "Message was truncated"), w')) := by
    unfold logBody
    simp only
    rw [if_neg (by omega), hrd]
    simp only [Res.ok_bind]
    rw [if_pos (by
      rw [gt_iff_lt, BitVec.lt_def, BitVec.toNat_ofNat, hv]
      omega)]
  rw [this]

/-- The packet parser refuses a captured packet with these bytes with the error `err`. -/
def ParserSays (bytes : List Byte) (err : Err) : Prop :=
  ∃ h s pk, h.bytes s = bytes ∧ s.Valid h ∧ New h PacketTypeNetwork s [] false = .ok (pk, some err)

theorem deliver_reject (env : Env) {payload : List Byte} {n : U16} {m : NfPacket} {w : W}
    (ha : ¬ Accepts payload) (hc : ¬ Crashes payload false) :
    ∃ err, ParserSays payload err ∧
      deliver env payload n m w = .ok (.error err, { w with heap := (w.heap.mk' payload).2 }) := by
  have hcap : (w.heap.mk' payload).1.cap = (w.heap.mk' payload).1.len := by simp [Heap.mk']
  have hN := mt (C50_crash_set (Heap.valid_mk' w.heap payload) hcap PacketTypeNetwork [] false (by simp)).mp
    (by rw [Heap.bytes_mk']; exact hc)
  have hA := mt (C50_accept_set (Heap.valid_mk' w.heap payload) hcap PacketTypeNetwork []).mp
    (by rw [Heap.bytes_mk']; exact ha)
  have hD := C50_parsing_ends (Heap.valid_mk' w.heap payload) PacketTypeNetwork [] false
  have hS : ∀ p, New (w.heap.mk' payload).2 PacketTypeNetwork (w.heap.mk' payload).1 [] false ≠ .ok (p, none) := by
    intro p hp
    obtain ⟨q, rfl⟩ := New_some (Heap.valid_mk' w.heap payload) hp
    exact hA ⟨q, hp⟩
  unfold deliver
  simp only
  rcases hr : New (w.heap.mk' payload).2 PacketTypeNetwork (w.heap.mk' payload).1 [] false with ⟨p, _ | err⟩ | _ | _
  · exact absurd hr (hS p)
  · exact ⟨err, ⟨_, _, _, Heap.bytes_mk' _ _, Heap.valid_mk' _ _, hr⟩, rfl⟩
  · exact absurd hr hN
  · exact absurd hr hD

/-- A message with this body, after well-formed messages. -/
theorem after_items {env : Env} (hp : Polite env) {cb : Nat} {items : List Item} {mid body rest : List Byte}
    (hm : mid.length = 10) (hb : body ≠ [])
    (hlen : (datagram items ++ (nlBytes (4 * 256) mid body ++ rest)).length < 4294967296)
    (hall : ∀ i ∈ items, ItemOk i) (w : W) (hcb : w.st.callback = some cb) :
    ∃ w1 ms, AllReported items ms ∧ Invoked cb ms w w1 ∧
      parseLog env (datagram items ++ (nlBytes (4 * 256) mid body ++ rest)) w = (do
        let (r, w2) ← parsePacket env body.dropLast w1
        match r with
        | some err => .ok (some (.wrap "Failed to parse NFPacket: %v" err), w2)
        | none => loop (logBody env) (rest, w2)) := by
  obtain ⟨w1, ms, hl, hi, hr⟩ := parse_items hp items _ w hlen hall hcb
  refine ⟨w1, ms, hr, hi, ?_⟩
  have hlen' : (nlBytes (4 * 256) mid body ++ rest).length < 4294967296 := by
    rw [List.length_append] at hlen; omega
  unfold parseLog
  rw [hl, loop_unfold, msg_step env hm hlen', parseMessage_log env hm hb hlen']
  rcases parsePacket env body.dropLast w1 with ⟨r, w2⟩ | _ | _
  · cases r <;> rfl
  · rfl
  · rfl

/-- The body of a log message with a payload `p` that is not its last attribute, cut by a byte. -/
theorem body_cut {hdr : List Byte} (hh : hdr.length = 4) (attrs more : List (Nat × List Byte)) (p : List Byte)
    (hmore : more ≠ []) : ∃ rest, (hdr ++ encodeAttrs .little (attrs ++ (9, p) :: more)).dropLast.drop 4 =
      encodeAttrs .little attrs ++ (attrHdr 9 p.length ++ (padded p ++ rest)) := by
  have h1 : hdr ++ encodeAttrs .little (attrs ++ (9, p) :: more) =
      hdr ++ (encodeAttrs .little attrs ++ (attrHdr 9 p.length ++ (padded p ++ encodeAttrs .little more))) := by
    simp [encodeAttrs, encodeAttr_split]
  have h2 : encodeAttrs .little more ≠ [] := by
    cases more with
    | nil => exact absurd rfl hmore
    | cons a l => simp [encodeAttrs, encodeAttr_split, attrHdr, bytes16]
  refine ⟨(encodeAttrs .little more).dropLast, ?_⟩
  rw [h1, List.dropLast_append_of_ne_nil (by simp [h2]), List.drop_left' hh,
    List.dropLast_append_of_ne_nil (by simp [h2]), List.dropLast_append_of_ne_nil (by simp [h2]),
    List.dropLast_append_of_ne_nil h2]

theorem payload_step {env : Env} {p rest : List Byte} (hl : p.length + 4 < 65536) (m : NfPacket) (w : W) :
    tlvBody env ⟨attrHdr 9 p.length ++ (padded p ++ rest), m, w⟩ = (do
      let (r, w) ← deliver env (padded p) (BitVec.ofNat 16 p.length) m w
      match r with
      | .error err => .ok (.done (some err, w))
      | .ok m => .ok (.next ⟨rest, m, w⟩)) := by
  rw [tlv_header]
  unfold attrStep
  simp only [len_sub4, align16_toNat hl]
  rw [if_neg (by decide), if_pos (by rfl), readPayload_exact (padded_length p), List.drop_left' (padded_length p)]
  rfl

/-- C37: a log message with a payload that is not an acceptable IP packet (nor one that crashes the parser) stops the
parsing with an error that carries the packet parser's, after everything before that payload was delivered; nothing after it is. -/
theorem C37_stops_at_rejected (env : Env) (hp : Polite env) (cb : Nat) (items : List Item) (mid hdr : List Byte)
    (hm : mid.length = 10) (hh : hdr.length = 4) (attrs more : List (Nat × List Byte)) (p rest : List Byte)
    (hmore : more ≠ []) (hok : ∀ a ∈ attrs, AttrOk a) (hl : p.length + 4 < 65536)
    (ha : ¬ Accepts (padded p)) (hc : ¬ Crashes (padded p) false)
    (hlen : (datagram items ++ ((Item.log mid hdr (attrs ++ (9, p) :: more)).bytes ++ rest)).length < 4294967296)
    (hall : ∀ i ∈ items, ItemOk i) (w : W) (hcb : w.st.callback = some cb) :
    ∃ w' err ms ms', parseLog env (datagram items ++ ((Item.log mid hdr (attrs ++ (9, p) :: more)).bytes ++ rest)) w =
        .ok (some (.wrap "Failed to parse NFPacket: %v" err), w') ∧ ParserSays (padded p) err ∧
      AllReported items ms ∧ Reported [] attrs ms' ∧ Invoked cb (ms ++ ms') w w' := by
  have hne : hdr ++ encodeAttrs .little (attrs ++ (9, p) :: more) ≠ [] := by
    intro h
    have := congrArg List.length h
    rw [List.length_append, hh] at this
    simp at this
  obtain ⟨w1, ms, hr, hi, he⟩ := after_items hp hm hne hlen hall w hcb
  obtain ⟨rest', hb⟩ := body_cut hh attrs more p hmore
  obtain ⟨m2, w2, ms2, hl2, hi2, hr2⟩ := parse_attrs hp attrs (attrHdr 9 p.length ++ (padded p ++ rest'))
    NfPacket.zero w1 hok (by rw [hi.1]; exact hcb)
  obtain ⟨err, hps, hd⟩ := deliver_reject env (n := BitVec.ofNat 16 p.length) (m := m2) (w := w2) ha hc
  have hpp : parsePacket env (hdr ++ encodeAttrs .little (attrs ++ (9, p) :: more)).dropLast w1 =
      .ok (some err, { w2 with heap := (w2.heap.mk' (padded p)).2 }) := by
    unfold parsePacket
    rw [hb, hl2, loop_unfold, payload_step hl, hd]
    rfl
  rw [hpp] at he
  refine ⟨_, err, ms, ms2, he, hps, hr, by simpa [NfPacket.zero] using hr2 [] [] .nil, ?_⟩
  obtain ⟨a, b⟩ := hi.trans hi2
  exact ⟨a, b⟩

/-! ### C77 -/

/-- C77 is violated: a log message with a payload whose IP or transport header is cut short (see `Crashes`) crashes
the reader. -/
theorem C77_truncated_payload_violated (env : Env) (hp : Polite env) (cb : Nat) (items : List Item) (mid hdr : List Byte)
    (hm : mid.length = 10) (hh : hdr.length = 4) (attrs more : List (Nat × List Byte)) (p rest : List Byte)
    (hmore : more ≠ []) (hok : ∀ a ∈ attrs, AttrOk a) (hl : p.length + 4 < 65536) (hc : Crashes (padded p) false)
    (hlen : (datagram items ++ ((Item.log mid hdr (attrs ++ (9, p) :: more)).bytes ++ rest)).length < 4294967296)
    (hall : ∀ i ∈ items, ItemOk i) (w : W) (hcb : w.st.callback = some cb) :
    parseLog env (datagram items ++ ((Item.log mid hdr (attrs ++ (9, p) :: more)).bytes ++ rest)) w = .panic := by
  have hne : hdr ++ encodeAttrs .little (attrs ++ (9, p) :: more) ≠ [] := by
    intro h
    have := congrArg List.length h
    rw [List.length_append, hh] at this
    simp at this
  obtain ⟨w1, ms, hr, hi, he⟩ := after_items hp hm hne hlen hall w hcb
  obtain ⟨rest', hb⟩ := body_cut hh attrs more p hmore
  obtain ⟨m2, w2, ms2, hl2, hi2, hr2⟩ := parse_attrs hp attrs (attrHdr 9 p.length ++ (padded p ++ rest'))
    NfPacket.zero w1 hok (by rw [hi.1]; exact hcb)
  have hpp : parsePacket env (hdr ++ encodeAttrs .little (attrs ++ (9, p) :: more)).dropLast w1 = .panic := by
    unfold parsePacket
    rw [hb, hl2, loop_unfold, payload_step hl, deliver_crash env hc]
    rfl
  rw [hpp] at he
  exact he

/-- C77 is violated: a log message that states a length of 16 or less crashes the reader. -/
theorem C77_short_message_violated (env : Env) (hp : Polite env) (cb : Nat) (items : List Item) (rest : List Byte)
    (hlen : (datagram items ++ rest).length < 4294967295) (hall : ∀ i ∈ items, ItemOk i) (w : W)
    (hcb : w.st.callback = some cb) (h16 : 16 ≤ rest.length) (n : Nat) (hn : num32 .little rest 0 = some n)
    (ht : num16 .little rest 4 = some (4 * 256)) (hle : n ≤ 16) :
    parseLog env (datagram items ++ rest) w = .panic := by
  obtain ⟨w', ms, hl, hi, hr⟩ := parse_items hp items rest w (by omega) hall hcb
  unfold parseLog
  rw [hl, loop_unfold]
  have hrl : rest.length < 4294967295 := by rw [List.length_append] at hlen; omega
  have hd : ∃ v, readHeader rest = .ok (v, 0x400) ∧ v.toNat = n := by
    unfold readHeader
    rw [if_neg (by omega)]
    obtain ⟨v, hv⟩ := (dec32_ok_iff .little rest).mpr (by omega)
    obtain ⟨t, htt⟩ := dec16_of_le .little (b := rest.drop 4) (by simp; omega)
    rw [hv, htt]
    have h1 := num32_eq .little rest 0 v (by simpa using hv)
    have h2 := num16_eq .little rest 4 t htt
    rw [hn] at h1
    rw [ht] at h2
    refine ⟨v, ?_, by simpa using h1.symm⟩
    have : t = 0x400 := by
      apply BitVec.eq_of_toNat_eq
      simpa using h2.symm
    rw [this]; rfl
  obtain ⟨v, hrd, hv⟩ := hd
  have : logBody env (rest, w') = .panic := by
    unfold logBody
    simp only
    rw [if_neg (by omega), hrd]
    simp only [Res.ok_bind]
    rw [if_neg (by
      rw [gt_iff_lt, BitVec.lt_def, BitVec.toNat_ofNat, hv]
      omega)]
    unfold parseMessage
    rw [if_pos rfl]
    have h1 : (v - 1 : U32).toNat = if n = 0 then 4294967295 else n - 1 := by
      rw [BitVec.toNat_sub, hv]
      simp
      split <;> omega
    unfold slice
    rw [if_neg (by
      rw [h1]
      rintro ⟨ha, hb⟩
      by_cases h0 : n = 0
      · rw [if_pos h0] at hb; omega
      · rw [if_neg h0] at ha; omega)]
    rfl
  rw [this]

/-! ### C76 -/

/-- C76 is violated: the IP version of every report is 4, whatever the packet. -/
theorem C76_version_violated (env : Env) (hq : Quiet env) (b : List Byte) (w w' : W) (r : Option Err)
    (h : parseLog env b w = .ok (r, w')) :
    ∃ evs, w'.trace = w.trace ++ evs ∧ ∀ x ∈ logs evs, x.2.version = 4 := by
  obtain ⟨_, evs, ht, _, hl, _⟩ := parseLog_reads hq h
  exact ⟨evs, ht, fun x hx => (hl x hx).2⟩

/-! ### C38 -/

/-- C38: in every run of `ReadLogs` (observed for any number `n` of iterations; `fin` = it has returned) the events
are exactly one `LogTurn` per receive; the turn that stops it, if it returned, is the last. -/
theorem C38_turns (env : Env) (hq : Quiet env) (K : Kernel LEv) (sh : Handle) (n : Nat) (w w' : W) (fin : Bool)
    (hs : w.st.socket = some sh) (h : readLogs env K n w = .ok (fin, w')) :
    ∃ (gs : List (List (Ev LEv))) (last : List (Ev LEv)), w'.trace = w.trace ++ (gs.flatten ++ last) ∧
      (∀ g ∈ gs, LogTurn sh.fd w.st.callback w.st.errorCallback false g) ∧
      (fin = false → last = [] ∧ gs.length = n) ∧
      (fin = true → LogTurn sh.fd w.st.callback w.st.errorCallback true last ∧ gs.length < n) :=
  (readLogs_turns hq n w w' fin hs h).2

/-- The failed receives of a history. -/
def receiveErrors (tr : List (Ev LEv)) : List Nat :=
  tr.filterMap fun | .recvfrom _ _ _ (.error n) => some n | _ => none

/-- The receive errors handed to the error callback `ecb`. -/
def toldErrors (ecb : Nat) (tr : List (Ev LEv)) : List Nat :=
  tr.filterMap fun
    | .app (.error cb "Netlink error" (.errno n)) => if cb = ecb then some n else none
    | _ => none

theorem receiveErrors_append (a b : List (Ev LEv)) : receiveErrors (a ++ b) = receiveErrors a ++ receiveErrors b := by
  simp [receiveErrors]

theorem toldErrors_append (c : Nat) (a b : List (Ev LEv)) : toldErrors c (a ++ b) = toldErrors c a ++ toldErrors c b := by
  simp [toldErrors]

theorem receiveErrors_nil {l : List (Ev LEv)} (h : ∀ ev ∈ l, isRecv ev = false) : receiveErrors l = [] := by
  apply filterMap_none
  intro ev hm
  have := h ev hm
  cases ev <;> simp_all [isRecv]

theorem toldErrors_nil {c : Nat} {l : List (Ev LEv)} (h : errors l = []) : toldErrors c l = [] := by
  apply filterMap_none
  intro ev hm
  have := List.filterMap_eq_nil_iff.mp h ev hm
  cases ev with
  | app a => cases a with
    | error => simp [errored] at this
    | _ => rfl
  | _ => rfl

theorem ErrReport.facts {ecb : Nat} {k : String} {err : Err} {l : List (Ev LEv)} (h : ErrReport (some ecb) k err l) :
    receiveErrors l = [] ∧ (∀ ev ∈ l, isRecv ev = false ∧ isClose ev = false) ∧
    (∀ n, k = "Netlink error" → err = .errno n → toldErrors ecb l = [n]) ∧
    (k ≠ "Netlink error" → toldErrors ecb l = []) := by
  cases h with
  | silent h => simp at h
  | told hc hl he ho =>
    simp only [Option.some.injEq] at hc
    subst hc
    refine ⟨?_, ?_, ?_, ?_⟩
    · rw [receiveErrors, List.filterMap_cons_none rfl]
      exact receiveErrors_nil fun ev hm => (ho ev hm).1
    · intro ev hm
      rcases List.mem_cons.mp hm with rfl | hm
      · exact ⟨rfl, rfl⟩
      · exact ho ev hm
    · rintro n rfl rfl
      rw [toldErrors, List.filterMap_cons_some (b := n) (by simp)]
      have := toldErrors_nil (c := ecb) he
      rw [toldErrors] at this
      rw [this]
    · intro hk
      rw [toldErrors, List.filterMap_cons_none (by
        split
        · rename_i heq
          simp only [Ev.app.injEq, LEv.error.injEq] at heq
          exact absurd heq.2.1 hk
        · rfl)]
      exact toldErrors_nil he

/-- What a turn contributes: its receive error, reported; a close only in the last one. -/
theorem LogTurn.facts {fd : Nat} {cb : Option Nat} {ecb : Nat} {stop : Bool} {g : List (Ev LEv)}
    (h : LogTurn fd cb (some ecb) stop g) :
    toldErrors ecb g = receiveErrors g ∧
    (stop = false → (∀ n ∈ receiveErrors g, n = 105) ∧ ∀ ev ∈ g, isClose ev = false) ∧
    (stop = true → (∃ n, n ≠ 105 ∧ receiveErrors g = [n]) ∧
      ∃ pre closes, g = pre ++ closes ∧ CloseEvs fd closes ∧ ∀ ev ∈ pre, isClose ev = false) := by
  cases h with
  | overrun hE =>
    obtain ⟨h1, h2, h3, _⟩ := ErrReport.facts hE
    refine ⟨?_, ?_, by simp⟩
    · rw [show ∀ (x : Ev LEv) l, x :: l = [x] ++ l from fun _ _ => rfl, toldErrors_append, receiveErrors_append,
        h1, h3 105 rfl rfl]
      rfl
    · intro _
      refine ⟨?_, ?_⟩
      · intro n hn
        rw [show ∀ (x : Ev LEv) l, x :: l = [x] ++ l from fun _ _ => rfl, receiveErrors_append, h1] at hn
        simpa [receiveErrors] using hn
      · intro ev hm
        rcases List.mem_cons.mp hm with rfl | hm
        · rfl
        · exact (h2 ev hm).2
  | @failed n rep closes hn hE hc =>
    obtain ⟨h1, h2, h3, _⟩ := ErrReport.facts hE
    have hcl : receiveErrors closes = [] := receiveErrors_nil (by
      intro ev hm
      have := (hc.clean ev hm).1
      cases ev <;> simp_all [isClose, isRecv])
    have htl : toldErrors ecb closes = [] := toldErrors_nil (filterMap_none (by
      intro ev hm
      have := (hc.clean ev hm).1
      cases ev <;> simp_all [isClose, errored]))
    have e1 : receiveErrors (.recvfrom fd 65536 0 (.error n) :: (rep ++ closes)) = [n] := by
      rw [show ∀ (x : Ev LEv) l, x :: l = [x] ++ l from fun _ _ => rfl, receiveErrors_append, receiveErrors_append,
        h1, hcl]
      rfl
    refine ⟨?_, by simp, fun _ => ⟨⟨n, hn, e1⟩, .recvfrom fd 65536 0 (.error n) :: rep, closes, by simp, hc, ?_⟩⟩
    · rw [e1, show ∀ (x : Ev LEv) l, x :: l = [x] ++ l from fun _ _ => rfl, toldErrors_append, toldErrors_append,
        htl, h3 n rfl rfl]
      rfl
    · intro ev hm
      rcases List.mem_cons.mp hm with rfl | hm
      · rfl
      · exact (h2 ev hm).2
  | @parsed d evs rep r he hl ho h0 h1 _ =>
    have hrep : receiveErrors rep = [] ∧ toldErrors ecb rep = [] ∧ ∀ ev ∈ rep, isClose ev = false := by
      cases r with
      | none => rw [h0 rfl]; simp [receiveErrors, toldErrors]
      | some err =>
        obtain ⟨a, b, _, c⟩ := ErrReport.facts (h1 err rfl)
        exact ⟨a, c (by decide), fun ev hm => (b ev hm).2⟩
    have e1 : receiveErrors (.recvfrom fd 65536 0 (.ok d) :: (evs ++ rep)) = [] := by
      rw [show ∀ (x : Ev LEv) l, x :: l = [x] ++ l from fun _ _ => rfl, receiveErrors_append, receiveErrors_append,
        hrep.1, receiveErrors_nil fun ev hm => (ho ev hm).1]
      rfl
    refine ⟨?_, fun _ => ⟨by rw [e1]; simp, ?_⟩, by simp⟩
    · rw [e1, show ∀ (x : Ev LEv) l, x :: l = [x] ++ l from fun _ _ => rfl, toldErrors_append, toldErrors_append,
        hrep.2.1, toldErrors_nil he]
      rfl
    · intro ev hm
      rcases List.mem_cons.mp hm with rfl | hm
      · rfl
      · rcases List.mem_append.mp hm with hm | hm
        · exact (ho ev hm).2
        · exact hrep.2.2 ev hm

theorem turns_facts {fd : Nat} {cb : Option Nat} {ecb : Nat} : ∀ {gs : List (List (Ev LEv))},
    (∀ g ∈ gs, LogTurn fd cb (some ecb) false g) →
    toldErrors ecb gs.flatten = receiveErrors gs.flatten ∧ (∀ n ∈ receiveErrors gs.flatten, n = 105) ∧
    ∀ ev ∈ gs.flatten, isClose ev = false := by
  intro gs
  induction gs with
  | nil => intro _; simp [toldErrors, receiveErrors]
  | cons g gs ih =>
    intro h
    obtain ⟨a, b, c⟩ := ih fun x hx => h x (by simp [hx])
    obtain ⟨a1, b1, _⟩ := LogTurn.facts (h g (by simp))
    obtain ⟨b1, c1⟩ := b1 rfl
    rw [List.flatten_cons, toldErrors_append, receiveErrors_append, a, a1]
    refine ⟨rfl, ?_, ?_⟩
    · intro n hn
      exact (List.mem_append.mp hn).elim (b1 n) (b n)
    · intro ev hm
      exact (List.mem_append.mp hm).elim (c1 ev) (c ev)

/-- C38: with an error callback installed, in every run of `ReadLogs` the receive errors reported to it are exactly
those that occurred, in order; it continues after each overrun (ENOBUFS = 105) and stops right after the first
other one; and it closes its socket exactly once, at the very end, and only if it stopped. -/
theorem C38_reports_and_stops (env : Env) (hq : Quiet env) (K : Kernel LEv) (sh : Handle) (ecb n : Nat) (w w' : W)
    (fin : Bool) (hs : w.st.socket = some sh) (he : w.st.errorCallback = some ecb)
    (h : readLogs env K n w = .ok (fin, w')) :
    ∃ evs, w'.trace = w.trace ++ evs ∧ toldErrors ecb evs = receiveErrors evs ∧
      (fin = false → (∀ n ∈ receiveErrors evs, n = 105) ∧ ∀ ev ∈ evs, isClose ev = false) ∧
      (fin = true → (∃ over n, receiveErrors evs = over ++ [n] ∧ (∀ m ∈ over, m = 105) ∧ n ≠ 105) ∧
        ∃ pre closes, evs = pre ++ closes ∧ CloseEvs sh.fd closes ∧ ∀ ev ∈ pre, isClose ev = false) := by
  obtain ⟨gs, last, ht, hg, h0, h1⟩ := C38_turns env hq K sh n w w' fin hs h
  rw [he] at hg h1
  obtain ⟨a, b, c⟩ := turns_facts hg
  refine ⟨_, ht, ?_, ?_, ?_⟩
  · rw [toldErrors_append, receiveErrors_append, a]
    cases fin with
    | false => rw [(h0 rfl).1]; rfl
    | true => rw [(LogTurn.facts (h1 rfl).1).1]
  · intro hf
    rw [(h0 hf).1, List.append_nil]
    exact ⟨b, c⟩
  · intro hf
    obtain ⟨_, _, hl⟩ := LogTurn.facts (h1 hf).1
    obtain ⟨⟨m, hm, hr⟩, pre, closes, rfl, hc, hp⟩ := hl rfl
    refine ⟨⟨receiveErrors gs.flatten, m, by rw [receiveErrors_append, hr], b, hm⟩,
      gs.flatten ++ pre, closes, by simp, hc, ?_⟩
    intro ev hx
    exact (List.mem_append.mp hx).elim (c ev) (hp ev)

/-- C38: with both callbacks installed and only well-formed datagrams arriving, the reader never crashes or hangs,
for any number of iterations. Missing: malformed datagrams, some of which crash it or make it hang
(`C36_violated`, `C77_truncated_payload_violated`). -/
theorem C38_runs_well_formed (env : Env) (hq : Quiet env) (K : Kernel LEv) (sh : Handle) (cb n : Nat) (w : W)
    (hs : w.st.socket = some sh) (hcb : w.st.callback = some cb)
    (hK : ∀ tr d, K.recv tr sh.fd = .ok d →
      ∃ items, d.take 65536 = datagram items ∧ ∀ i ∈ items, ItemOk i) :
    ∃ fin w', readLogs env K n w = .ok (fin, w') :=
  readLogs_runs hq hK n w hs hcb

/-! ### The hypotheses are satisfiable -/

/-- Callbacks that do nothing. -/
theorem someEnv_quiet : Quiet someEnv where
  keeps := fun _ => rfl
  appends := fun w => ⟨[], by simp [someEnv], by simp, by simp⟩
  only := fun w evs h => by
    have : evs = [] := by
      have h2 : w.trace ++ [] = w.trace ++ evs := by rw [List.append_nil]; exact h
      exact (List.append_cancel_left h2).symm
    simp [this]

/-- An ICMP packet of 24 bytes. -/
def icmp : List Byte :=
  [0x45, 0, 0, 24, 0x12, 0x34, 0, 0, 64, 1, 0, 0, 10, 0, 0, 1, 10, 0, 0, 2, 8, 0, 0xf7, 0xff]

/-- A UDP packet of 29 bytes. -/
def udp29 : List Byte :=
  [0x45, 0, 0, 29, 0, 7, 0, 0, 64, 17, 0, 0, 10, 0, 0, 1, 10, 0, 0, 2, 0, 53, 4, 210, 0, 9, 0, 0, 0x55]

theorem icmp_accepts : Accepts icmp := by
  left; unfold TransportFits; decide

theorem udp29_accepts : Accepts (padded udp29) := by
  left; unfold TransportFits; decide

/-- A log message with a prefix, a UDP payload and an attribute of another type. -/
def sampleAttrs : List (Nat × List Byte) := [(10, [0x61, 0x62, 0]), (9, udp29), (1, [8, 0, 0, 0])]

theorem sample_ok : ∀ a ∈ sampleAttrs, AttrOk a := by
  intro a ha
  simp only [sampleAttrs, List.mem_cons, List.not_mem_nil, or_false] at ha
  rcases ha with rfl | rfl | rfl
  · exact ⟨by decide, by decide, by simp, by simp⟩
  · exact ⟨by decide, by decide, by simp, fun _ => udp29_accepts⟩
  · exact ⟨by decide, by decide, by simp, by simp⟩

/-- The world once listening. -/
def readWorld : W :=
  { trace := [], heap := ⟨[]⟩,
    st := { callback := some 1, errorCallback := some 2, socket := some ⟨3, 28⟩, opened := true } }

/-- C34: delivered under the prefix "ab" with ports 53 and 1234 and id 7. -/
example : ∃ w' m, parsePacket someEnv ([2, 0, 0, 5] ++ encodeAttrs .little sampleAttrs) readWorld = .ok (none, w') ∧
    Invoked 1 [m] readWorld w' ∧ m.prefix' = [0x61, 0x62] ∧ m.payload = udp29 ∧ m.srcPort = 53 ∧
    m.dstPort = 1234 ∧ m.id = ['7'] ∧ m.dstIP = [10, 0, 0, 2] := by
  obtain ⟨w', ms, h1, h2, h3⟩ := C34_message_delivered someEnv someEnv_quiet.toPolite 1 [2, 0, 0, 5] rfl sampleAttrs
    sample_ok readWorld rfl
  unfold sampleAttrs at h2
  cases h2 with
  | «prefix» h2 =>
    cases h2 with
    | @payload _ _ m _ _ hd h2 =>
      cases h2 with
      | other _ _ h2 =>
        cases h2
        obtain ⟨a, b, hd⟩ := hd
        refine ⟨w', m, h1, h3, a, b, ?_⟩
        have hpad : padded udp29 = udp29 ++ [0, 0, 0] := by decide
        rw [hpad] at hd
        rcases hd with ⟨_, hpr, _, _, hdst, ⟨n, hn, hid⟩, hports, _⟩ | ⟨⟨b, hb, hne⟩, _⟩
        · have hp17 : m.protocol = 17 := by simpa [udp29] using hpr.symm
          obtain ⟨hs, hd⟩ := hports (.inr (by rw [hp17]; rfl))
          have hn7 : n = 7 := by
            have : be16 (udp29 ++ [0, 0, 0]) 4 = some 7 := by decide
            rw [this] at hn; simpa using hn.symm
          have hs' : be16 (udp29 ++ [0, 0, 0]) 20 = some 53 := by decide
          have hd' : be16 (udp29 ++ [0, 0, 0]) (20 + 2) = some 1234 := by decide
          rw [hs'] at hs
          rw [hd'] at hd
          refine ⟨?_, ?_, by rw [hid, hn7]; rfl, by rw [← hdst]; decide⟩
          · apply BitVec.eq_of_toNat_eq; simpa using hs.symm
          · apply BitVec.eq_of_toNat_eq; simpa using hd.symm
        · have : (udp29 ++ [0, 0, 0])[0]? = some 0x45 := by decide
          rw [this] at hb
          simp only [Option.some.injEq] at hb
          subst hb
          exact absurd rfl hne
    | other h => exact absurd rfl h
  | other _ h => exact absurd rfl h

/-- C35: the last byte, 0xff, of the ICMP packet is lost. -/
example : ∃ w' ms m, parseLog someEnv (Item.log (List.replicate 10 0) [2, 0, 0, 5] ([] ++ [(9, icmp)])).bytes readWorld =
    .ok (none, w') ∧ Invoked 1 (ms ++ [m]) readWorld w' ∧ m.payload ≠ icmp := by
  obtain ⟨w', ms, m, a, b, c⟩ := C35_violated someEnv someEnv_quiet.toPolite 1 (List.replicate 10 0) [2, 0, 0, 5] rfl rfl
    [] icmp (by simp) (by decide) (by decide) (by decide) (by left; unfold TransportFits; decide) (by decide)
    readWorld rfl
  exact ⟨w', ms, m, a, b, by rw [c]; decide⟩

/-- A datagram: the sample message and a message of another type. -/
def sampleItems : List Item :=
  [.log (List.replicate 10 0) [2, 0, 0, 5] sampleAttrs, .other 3 (List.replicate 10 0) [0, 0, 0, 0]]

theorem sampleItems_ok : ∀ i ∈ sampleItems, ItemOk i := by
  intro i hi
  simp only [sampleItems, List.mem_cons, List.not_mem_nil, or_false] at hi
  rcases hi with rfl | rfl
  · refine ⟨rfl, rfl, ?_, ?_⟩
    · have : cutLast sampleAttrs = sampleAttrs := by decide
      rw [this]; exact sample_ok
    · intro a ha
      have : sampleAttrs.getLast? = some (1, [8, 0, 0, 0]) := by decide
      rw [this] at ha
      simp only [Option.some.injEq] at ha
      subst ha; decide
  · exact ⟨rfl, by decide, by decide⟩

/-- C37, C36: it is parsed; with a byte appended it is parsed forever. -/
example : (∃ w' ms, parseLog someEnv (datagram sampleItems) readWorld = .ok (none, w') ∧ AllReported sampleItems ms ∧
      Invoked 1 ms readWorld w') ∧
    parseLog someEnv (datagram sampleItems ++ [0]) readWorld = .diverge :=
  ⟨C37_datagram_delivered someEnv someEnv_quiet.toPolite 1 sampleItems (by decide) sampleItems_ok readWorld rfl,
   C36_violated someEnv someEnv_quiet.toPolite 1 sampleItems [0] (by decide) sampleItems_ok readWorld rfl
    (.inl ⟨by decide, by decide⟩)⟩

/-- C77: with a copy range of 32 bytes every TCP packet over IPv4 crashes the reader: here SYN from 10.0.0.1. -/
example : parseLog someEnv (datagram [] ++ ((Item.log (List.replicate 10 0) [2, 0, 0, 5] ([] ++
      (9, [0x45, 0, 0, 40, 0, 1, 0, 0, 64, 6, 0, 0, 10, 0, 0, 1, 10, 0, 0, 2, 4, 210, 0, 80, 0, 0, 0, 1, 0, 0, 0, 0]) ::
      [(1, [0, 0, 0, 0])])).bytes ++ [])) readWorld = .panic := by
  refine C77_truncated_payload_violated someEnv someEnv_quiet.toPolite 1 [] (List.replicate 10 0) [2, 0, 0, 5] rfl rfl [] [(1, [0, 0, 0, 0])] _ []
    (by simp) (by simp) (by decide) ?_ (by decide) (by simp) readWorld rfl
  unfold Crashes
  right; left
  decide

/-- C37: a payload with IP options is rejected, no crash. -/
example : ¬ Accepts (padded (0x46 :: List.replicate 27 0)) ∧ ¬ Crashes (padded (0x46 :: List.replicate 27 0)) false := by
  constructor
  · unfold Accepts TransportFits; decide
  · unfold Crashes; decide

/-- C38: a kernel that delivers the sample, then an overrun, then a fatal error (EBADF = 9). -/
def sampleKernel : Kernel LEv :=
  { ackKernel with
    recv := fun tr _ =>
      if (tr.filter isRecv).length = 0 then .ok (datagram sampleItems)
      else if (tr.filter isRecv).length = 1 then .error 105
      else .error 9 }

example (n : Nat) : ∃ fin w', readLogs someEnv sampleKernel n readWorld = .ok (fin, w') := by
  refine C38_runs_well_formed someEnv someEnv_quiet sampleKernel ⟨3, 28⟩ 1 n readWorld rfl rfl ?_
  intro tr d hd
  refine ⟨sampleItems, ?_, sampleItems_ok⟩
  simp only [sampleKernel] at hd
  split at hd
  · simp only [Except.ok.injEq] at hd
    rw [← hd]
    exact List.take_of_length_le (by decide)
  · split at hd <;> simp at hd

end Verif.Props.Log
