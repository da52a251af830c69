import Verif.NfLog.ReadSpec
import Verif.Props.PacketAccept
import Verif.Common.Lemmas
import Verif.Sys.Lemmas
/-! Reading logs: lemmas. -/
namespace Verif.NfLog
open Common Sys Spec Packet

/-! ### Termination -/

theorem deliver_ne_diverge (env : Env) (payload : List Byte) (n : U16) (m : NfPacket) (w : W) :
    deliver env payload n m w ≠ .diverge := by
  have hn := C50_parsing_ends (Heap.valid_mk' w.heap payload) PacketTypeNetwork [] false
  unfold deliver
  simp only
  rcases hN : New (w.heap.mk' payload).2 PacketTypeNetwork (w.heap.mk' payload).1 [] false with ⟨p, err⟩ | _ | _
  · simp only [Res.ok_bind]
    cases err with
    | some err => simp
    | none =>
      simp only
      unfold Slice.to Slice.sub invoke
      split
      · simp only [Res.ok_bind]
        split <;> simp
      · simp
  · simp
  · exact absurd hN hn

theorem attrStep_ne_diverge (env : Env) (len type : U16) (rest : List Byte) (m : NfPacket) (w : W) :
    attrStep env len type rest m w ≠ .diverge := by
  unfold attrStep
  simp only
  split
  · unfold slice; split <;> simp
  · split
    · have := deliver_ne_diverge env (readPayload (nfaAlign16 (len - 4)).toNat rest) (len - 4) m w
      rcases hd : deliver env (readPayload (nfaAlign16 (len - 4)).toNat rest) (len - 4) m w with ⟨r, w'⟩ | _ | _
      · cases r <;> simp
      · simp
      · exact absurd hd this
    · simp

theorem attrStep_next {env : Env} {len type : U16} {rest : List Byte} {m : NfPacket} {w : W} {s : TlvState}
    (h : attrStep env len type rest m w = .ok (.next s)) :
    s.rest = rest.drop (nfaAlign16 (len - 4)).toNat := by
  unfold attrStep at h
  simp only at h
  split at h
  · obtain ⟨_, _, h⟩ := Res.bind_eq_ok.mp h
    simp only [Res.ok.injEq, Step.next.injEq] at h
    rw [← h]
  · split at h
    · obtain ⟨⟨r, w'⟩, _, h⟩ := Res.bind_eq_ok.mp h
      cases r with
      | error e => simp at h
      | ok m => simp only [Res.ok.injEq, Step.next.injEq] at h; rw [← h]
    · simp only [Res.ok.injEq, Step.next.injEq] at h
      rw [← h]

theorem dec16_of_le (e : Endian) {b : List Byte} (h : 2 ≤ b.length) : ∃ v, dec16 e b = .ok v :=
  (dec16_ok_iff e b).mpr h

theorem tlvBody_ne_diverge (env : Env) (s : TlvState) : tlvBody env s ≠ .diverge := by
  unfold tlvBody
  split
  · simp
  · split
    · simp
    · obtain ⟨l, hl⟩ := dec16_of_le .little (b := s.rest) (by omega)
      obtain ⟨t, ht⟩ := dec16_of_le .little (b := s.rest.drop 2) (by simp; omega)
      simp only [hl, ht, Res.ok_bind]
      exact attrStep_ne_diverge _ _ _ _ _ _

theorem tlvBody_next {env : Env} {s s' : TlvState} (h : tlvBody env s = .ok (.next s')) :
    s'.rest.length + 4 ≤ s.rest.length := by
  unfold tlvBody at h
  split at h
  · simp at h
  · split at h
    · simp at h
    · obtain ⟨l, hl⟩ := dec16_of_le .little (b := s.rest) (by omega)
      obtain ⟨t, ht⟩ := dec16_of_le .little (b := s.rest.drop 2) (by simp; omega)
      simp only [hl, ht, Res.ok_bind] at h
      rw [attrStep_next h]
      simp; omega

/-- It ends within one iteration per 4 bytes (and one to notice the end). -/
theorem tlv_bounded (env : Env) : ∀ (n : Nat) (s : TlvState), s.rest.length / 4 < n →
    loopN (tlvBody env) (n + 1) s ≠ .diverge := by
  intro n
  induction n with
  | zero => intro s h; omega
  | succ n ih =>
    intro s h
    unfold loopN
    rcases hb : tlvBody env s with (s' | a) | _ | _
    · simp only
      have := tlvBody_next hb
      by_cases h0 : s.rest.length / 4 = 0
      · omega
      · exact ih s' (by omega)
    · simp
    · simp
    · exact absurd hb (tlvBody_ne_diverge env s)

theorem parsePacket_ne_diverge (env : Env) (b : List Byte) (w : W) : parsePacket env b w ≠ .diverge := by
  have h := tlv_bounded env ((b.drop 4).length / 4 + 1) ⟨b.drop 4, NfPacket.zero, w⟩ (Nat.lt_succ_self _)
  unfold parsePacket
  rw [loop_eq_of_loopN _ rfl h]
  exact h

/-! ### One attribute -/

theorem align16_toNat {n : Nat} (hn : n + 4 < 65536) : (nfaAlign16 (BitVec.ofNat 16 n)).toNat = roundUp4 n := by
  have h := nfaAlign_toNat (BitVec.ofNat 16 n)
  have he : nfaAlign16 (BitVec.ofNat 16 n) = nfaAlign (BitVec.ofNat 16 n) := by
    unfold nfaAlign16 nfaAlign
    rw [show (BitVec.ofNat 16 n + 4 - 1 : U16) = BitVec.ofNat 16 n + 3 from by
      apply BitVec.eq_of_toNat_eq; simp; omega]
    rfl
  have h2 : (BitVec.ofNat 16 n).toNat = n := by rw [BitVec.toNat_ofNat]; exact Nat.mod_eq_of_lt (by omega)
  rw [he, h, h2, if_pos (by omega)]
  rfl

theorem len_sub4 {n : Nat} : (BitVec.ofNat 16 (n + 4) - 4 : U16) = BitVec.ofNat 16 n := by
  rw [BitVec.ofNat_add, show (4 : U16) = BitVec.ofNat 16 4 from rfl, BitVec.add_sub_cancel]

theorem ofNat16_toNat' {n : Nat} (hn : n + 4 < 65536) : (BitVec.ofNat 16 n).toNat = n := by
  rw [BitVec.toNat_ofNat]; exact Nat.mod_eq_of_lt (by omega)

@[simp] theorem padded_length (p : List Byte) : (padded p).length = roundUp4 p.length := by
  simp [padded]; unfold roundUp4; omega

theorem readPayload_exact {n : Nat} {p rest : List Byte} (h : p.length = n) : readPayload n (p ++ rest) = p := by
  unfold readPayload
  rw [List.take_append_of_le_length (by omega), List.take_of_length_le (by omega)]
  simp [h, zeros]

theorem readPayload_short {n : Nat} {p : List Byte} (h : p.length ≤ n) :
    readPayload n p = p ++ zeros (n - p.length) := by
  unfold readPayload
  rw [List.take_of_length_le h]

theorem itoa_toString (n : Nat) : itoa n = (toString n).toList := by
  show _ = (Nat.repr n).toList
  unfold Nat.repr itoa
  simp

/-- What an accepted packet looks like in a report. -/
theorem describes_of_new {h : Heap} {s : Slice} (hv : s.Valid h) (hc : s.cap = s.len) {c : U64}
    {mk : List Char} {p : Packet} (ha : New h c s mk false = .ok (some p, none)) (m : NfPacket)
    (pay : List Byte) (at' : Slice) :
    Describes { fillFrom m (some p) with payload := pay, payloadAt := at' } m.prefix' pay (h.bytes s) := by
  have hw : window h s = h.bytes s := (window_is_the_buffer hv).2 hc
  refine ⟨rfl, rfl, ?_⟩
  have tf : ∀ o, TransportFields p (h.bytes s) o →
      PortsAre { fillFrom m (some p) with payload := pay, payloadAt := at' } (h.bytes s) o := by
    intro o ht
    have e6 : ∀ n : Nat, n < 256 → (p.IPProto = BitVec.ofNat 8 n ↔ p.IPProto.toNat = n) :=
      fun n hn => byte_eq_iff _ _ hn
    refine ⟨?_, ?_⟩
    · rintro (h6 | h17)
      · have := ht.tcp ((e6 6 (by omega)).mpr h6)
        exact ⟨this.1, this.2.1⟩
      · have := ht.udp ((e6 17 (by omega)).mpr h17)
        exact ⟨this.1, this.2.1⟩
    · intro h6 h17
      exact ht.other (fun h => h6 ((e6 6 (by omega)).mp h)) (fun h => h17 ((e6 17 (by omega)).mp h))
  rcases hver : p.IPversion
  · left
    have := C47_ipv4_fields hv ha hver
    rw [hw] at this
    obtain ⟨a, _, b, c1, _, d, _, e, _, f, _, g⟩ := this
    exact ⟨a, b, c1, e, f, ⟨_, d, itoa_toString _⟩, tf _ g⟩
  · right
    have := C48_ipv6_fields hv ha hver
    rw [hw] at this
    obtain ⟨a, _, b, c1, e, _, f, _, g⟩ := this
    refine ⟨a, b, c1, e, f, ?_, tf _ g⟩
    have hid : p.ipID = 0 := by
      rcases New_accept hv ha with ⟨_, _, b, _, hacc⟩ | ⟨_, _, _, b, _, ⟨_, hacc⟩ | ⟨_, _, _, hacc⟩⟩
      · exfalso
        have := hacc.same_ip.1
        have h2 : p.version = .V6 := hver
        rw [h2] at this; cases this
      · rw [hacc.same_ip.2.2.2.2.1]; rfl
      · rw [hacc.same_ip.2.2.2.2.1]; rfl
    show itoa p.ipID.toNat = _
    rw [hid]; rfl

/-- The world right after the callback was invoked with `m`. -/
def afterLog (env : Env) (w : W) (cb : Nat) (m : NfPacket) (payload : List Byte) : W :=
  env.cbEffect ({ w with heap := (w.heap.mk' payload).2 }.log (.app (.log cb m)))

theorem deliver_ok (env : Env) {payload p : List Byte} {m : NfPacket} {w : W} {cb : Nat}
    (hp : payload = padded p) (hlen : p.length + 4 < 65536)
    (hacc : Accepts payload) (hcb : w.st.callback = some cb) :
    ∃ m', deliver env payload (BitVec.ofNat 16 p.length) m w = .ok (.ok m', afterLog env w cb m' payload) ∧
      Describes m' m.prefix' p payload := by
  obtain ⟨pk, hN⟩ := (C50_accept_set (Heap.valid_mk' w.heap payload) (by simp [Heap.mk']) PacketTypeNetwork
    []).mpr (by rw [Heap.bytes_mk']; exact hacc)
  have hd := describes_of_new (Heap.valid_mk' w.heap payload) (by simp [Heap.mk']) hN m p
    ⟨w.heap.arrays.length, 0, p.length, payload.length⟩
  rw [Heap.bytes_mk'] at hd
  refine ⟨_, ?_, hd⟩
  unfold deliver
  simp only [hN, Res.ok_bind, ofNat16_toNat' hlen]
  have hs : (w.heap.mk' payload).1.to p.length = .ok ⟨w.heap.arrays.length, 0, p.length, payload.length⟩ := by
    unfold Slice.to Slice.sub
    rw [if_pos ⟨by omega, by rw [hp]; simp [Heap.mk', padded]⟩]
    simp [Heap.mk']
  have hb : (w.heap.mk' payload).2.bytes ⟨w.heap.arrays.length, 0, p.length, payload.length⟩ = p := by
    rw [hp]
    simp [Heap.mk', Heap.bytes, Heap.arrayOf, padded]
  rw [hs]
  simp only [Res.ok_bind, hb, invoke, hcb]
  rfl

theorem deliver_crash (env : Env) {payload : List Byte} {n : U16} {m : NfPacket} {w : W}
    (hc : Crashes payload false) : deliver env payload n m w = .panic := by
  have hN := (C50_crash_set (Heap.valid_mk' w.heap payload) (by simp [Heap.mk']) PacketTypeNetwork []
    false (by simp)).mpr (by rw [Heap.bytes_mk']; exact hc)
  unfold deliver
  simp only [hN]
  rfl

/-- An attribute header followed by anything. -/
def attrHdr (t n : Nat) : List Byte := bytes16 .little (n + 4) ++ bytes16 .little t

theorem tlv_header (env : Env) {t n : Nat} {body : List Byte} {m : NfPacket} {w : W} :
    tlvBody env ⟨attrHdr t n ++ body, m, w⟩ =
      attrStep env (BitVec.ofNat 16 (n + 4)) (BitVec.ofNat 16 t) body m w := by
  unfold tlvBody attrHdr
  simp only [bytes16_eq]
  rw [if_neg (by simp), if_neg (by simp; omega)]
  simp only [List.append_assoc, dec16_enc16, Res.ok_bind]
  rw [List.drop_left' (by simp)]
  simp only [dec16_enc16, Res.ok_bind]
  rw [show List.drop 4 (enc16 .little (BitVec.ofNat 16 (n + 4)) ++ (enc16 .little (BitVec.ofNat 16 t) ++ body))
    = body from by rw [← List.append_assoc]; exact List.drop_left' (by simp)]

theorem type_eq {t k : Nat} (ht : t < 65536) (hk : k < 65536) : BitVec.ofNat 16 t = BitVec.ofNat 16 k ↔ t = k := by
  constructor
  · intro h
    have := congrArg BitVec.toNat h
    simpa [Nat.mod_eq_of_lt ht, Nat.mod_eq_of_lt hk] using this
  · rintro rfl; rfl

/-- What is required of an attribute for it to be processed: a prefix has its NUL, a payload is an
acceptable IP packet. -/
def AttrOk (a : Nat × List Byte) : Prop :=
  a.1 < 65536 ∧ a.2.length + 4 < 65536 ∧ (a.1 = 10 → a.2 ≠ []) ∧ (a.1 = 9 → Accepts (padded a.2))

theorem logs_append (a b : List (Ev LEv)) : logs (a ++ b) = logs a ++ logs b := by simp [logs]
theorem errors_append (a b : List (Ev LEv)) : errors (a ++ b) = errors a ++ errors b := by simp [errors]

theorem filterMap_none {α β : Type} {f : α → Option β} : ∀ {l : List α}, (∀ x ∈ l, f x = none) → l.filterMap f = [] := by
  intro l h
  rw [List.filterMap_eq_nil_iff]
  exact h

/-- Between `w` and `w'` the log callback was invoked exactly with `ms`, in order, and the error callback
was not; the handle is as it was. -/
def Invoked (cb : Nat) (ms : List NfPacket) (w w' : W) : Prop :=
  w'.st = w.st ∧ ∃ evs, w'.trace = w.trace ++ evs ∧ logs evs = ms.map (cb, ·) ∧ errors evs = []

theorem Invoked.refl (cb : Nat) (w : W) : Invoked cb [] w w := ⟨rfl, [], by simp, rfl, rfl⟩

theorem Invoked.trans {cb : Nat} {ms ms' : List NfPacket} {w w' w'' : W} (h : Invoked cb ms w w')
    (h' : Invoked cb ms' w' w'') : Invoked cb (ms ++ ms') w w'' := by
  obtain ⟨s, evs, t, l, e⟩ := h
  obtain ⟨s', evs', t', l', e'⟩ := h'
  refine ⟨s'.trans s, evs ++ evs', by rw [t', t, List.append_assoc], ?_, ?_⟩
  · rw [logs_append, l, l', List.map_append]
  · rw [errors_append, e, e']; rfl

theorem afterLog_invoked {env : Env} (hp : Polite env) (w : W) (cb : Nat) (m : NfPacket) (payload : List Byte) :
    Invoked cb [m] w (afterLog env w cb m payload) := by
  obtain ⟨evs, ht, hl, he⟩ := hp.appends ({ w with heap := (w.heap.mk' payload).2 }.log (.app (.log cb m)))
  refine ⟨?_, [.app (.log cb m)] ++ evs, ?_, ?_, ?_⟩
  · unfold afterLog; rw [hp.keeps]; rfl
  · unfold afterLog; rw [ht]; simp [World.log]
  · rw [logs_append]
    simp [logs, logged]
    exact hl
  · rw [errors_append]
    simp [errors, errored]
    exact he

/-- One attribute, given what is read as its (padded) payload. -/
theorem attr_ok {env : Env} (hp : Polite env) {cb : Nat} {t : Nat} {p body : List Byte} (hok : AttrOk (t, p))
    (hr : readPayload (roundUp4 p.length) body = padded p) (m : NfPacket) (w : W)
    (hcb : w.st.callback = some cb) :
    ∃ m' w' ms, attrStep env (BitVec.ofNat 16 (p.length + 4)) (BitVec.ofNat 16 t) body m w =
        .ok (.next ⟨body.drop (roundUp4 p.length), m', w'⟩) ∧
      Invoked cb ms w w' ∧
      ∀ as2 ms2, Reported m'.prefix' as2 ms2 → Reported m.prefix' ((t, p) :: as2) (ms ++ ms2) := by
  obtain ⟨h1, h2, h3, h4⟩ := hok
  simp only at h1 h2 h3 h4
  unfold attrStep
  simp only [len_sub4, align16_toNat h2, hr]
  by_cases ht10 : t = 10
  · subst ht10
    rw [if_pos (by rfl)]
    have hne := h3 rfl
    have hpos : 0 < p.length := List.length_pos_iff.mpr hne
    have hsub : (BitVec.ofNat 16 p.length - 1 : U16).toNat = p.length - 1 := by
      rw [show p.length = (p.length - 1) + 1 from by omega, BitVec.ofNat_add,
        show (1 : U16) = BitVec.ofNat 16 1 from rfl, BitVec.add_sub_cancel, BitVec.toNat_ofNat]
      omega
    have hs : slice (padded p) 0 (p.length - 1) = .ok p.dropLast := by
      unfold slice
      rw [if_pos ⟨by omega, by simp; unfold roundUp4; omega⟩]
      simp only [List.drop_zero, Nat.sub_zero, padded]
      rw [List.take_append_of_le_length (by omega), List.dropLast_eq_take]
    rw [hsub, hs]
    simp only [Res.ok_bind]
    refine ⟨_, w, [], rfl, .refl cb w, ?_⟩
    intro as2 ms2 hrep
    exact .prefix hrep
  · rw [if_neg (by rw [show (10 : U16) = BitVec.ofNat 16 10 from rfl, type_eq h1 (by omega)]; exact ht10)]
    by_cases ht9 : t = 9
    · subst ht9
      rw [if_pos (by rfl)]
      obtain ⟨m', hd, hdesc⟩ := deliver_ok env (m := m) rfl h2 (h4 rfl) hcb
      rw [hd]
      simp only [Res.ok_bind]
      refine ⟨m', _, [m'], rfl, afterLog_invoked hp w cb m' _, ?_⟩
      intro as2 ms2 hrep
      rw [hdesc.1] at hrep
      exact .payload hdesc hrep
    · rw [if_neg (by rw [show (9 : U16) = BitVec.ofNat 16 9 from rfl, type_eq h1 (by omega)]; exact ht9)]
      exact ⟨m, w, [], rfl, .refl cb w, fun as2 ms2 hrep => .other ht9 ht10 hrep⟩

theorem encodeAttr_split (t : Nat) (p : List Byte) :
    encodeAttr .little t p = attrHdr t p.length ++ padded p := by
  simp [encodeAttr, attrHdr, padded]

/-- All attributes of a message. -/
theorem parse_attrs {env : Env} (hp : Polite env) {cb : Nat} : ∀ (attrs : List (Nat × List Byte)) (rest : List Byte)
    (m : NfPacket) (w : W), (∀ a ∈ attrs, AttrOk a) → w.st.callback = some cb →
    ∃ m' w' ms, loop (tlvBody env) ⟨encodeAttrs .little attrs ++ rest, m, w⟩ =
        loop (tlvBody env) ⟨rest, m', w'⟩ ∧
      Invoked cb ms w w' ∧
      ∀ as2 ms2, Reported m'.prefix' as2 ms2 → Reported m.prefix' (attrs ++ as2) (ms ++ ms2) := by
  intro attrs
  induction attrs with
  | nil =>
    intro rest m w _ _
    exact ⟨m, w, [], by simp [encodeAttrs], .refl cb w, fun _ _ h => h⟩
  | cons a attrs ih =>
    intro rest m w hall hcb
    obtain ⟨t, p⟩ := a
    have hb : encodeAttrs .little ((t, p) :: attrs) ++ rest =
        attrHdr t p.length ++ (padded p ++ (encodeAttrs .little attrs ++ rest)) := by
      simp [encodeAttrs, encodeAttr_split]
    obtain ⟨m1, w1, ms1, hs, hi, hrep⟩ := attr_ok hp (hall (t, p) (by simp))
      (readPayload_exact (rest := encodeAttrs .little attrs ++ rest) (padded_length p)) m w hcb
    rw [List.drop_left' (padded_length p)] at hs
    obtain ⟨m2, w2, ms2, hl, hi2, hrep2⟩ := ih rest m1 w1 (fun a ha => hall a (by simp [ha]))
      (by rw [hi.1]; exact hcb)
    refine ⟨m2, w2, ms1 ++ ms2, ?_, hi.trans hi2, ?_⟩
    · rw [hb, loop_unfold, tlv_header, hs]
      exact hl
    · intro as2 ms3 h
      have := hrep _ _ (hrep2 _ _ h)
      simpa using this

theorem parse_end (env : Env) (m : NfPacket) (w : W) : loop (tlvBody env) ⟨[], m, w⟩ = .ok (none, w) := by
  rw [loop_unfold]; rfl

end Verif.NfLog
