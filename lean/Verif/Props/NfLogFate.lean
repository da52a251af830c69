import Verif.Props.NfLogRead
/-!
C36, C77 exactly: what becomes of reading a datagram of logs, for every datagram.

`Fate` and the relations below are a specification over bytes alone: numbers at offsets, `Accepts`/`Crashes` (which
captured packets the packet parser takes or dies on, C50), lists.
-/
namespace Verif.Props.Log
open Verif.Common Verif.Sys Verif.Spec Verif.NfLog Verif.Packet

/-- The four things that can happen. -/
inductive Fate where
  /-- everything is read: nil -/
  | read
  /-- an error is returned -/
  | refused
  /-- the process crashes -/
  | crash
  /-- the reader never comes back -/
  | hang
deriving DecidableEq

/-- Payload length of an attribute stating the total length `len` (16-bit arithmetic: below 4 it wraps). -/
def claimed (len : Nat) : Nat := (len + 65532) % 65536

/-- Bytes consumed for it: rounded up to 4 (16-bit arithmetic: 65533 and more round to 0). -/
def taken (len : Nat) : Nat := roundUp4 (claimed len) % 65536

/-- The bytes seen as its payload with padding: what is there, completed with zeros. -/
def seen (len : Nat) (rest : List Byte) : List Byte := (rest ++ List.replicate (taken len) 0).take (taken len)

/-- The fate of reading the attributes `b` of a log message. -/
inductive AttrsFate : List Byte → Fate → Prop
  /-- nothing left -/
  | done : AttrsFate [] .read
  /-- an incomplete attribute header -/
  | eof {b} : b ≠ [] → b.length < 4 → AttrsFate b .refused
  /-- an attribute that is skipped -/
  | other {b len type f} : 4 ≤ b.length → num16 .little b 0 = some len → num16 .little b 2 = some type →
      type ≠ 9 → type ≠ 10 → AttrsFate (b.drop (4 + taken len)) f → AttrsFate b f
  /-- a prefix -/
  | pfx {b len f} : 4 ≤ b.length → num16 .little b 0 = some len → num16 .little b 2 = some 10 →
      len = 0 ∨ 4 < len → AttrsFate (b.drop (4 + taken len)) f → AttrsFate b f
  /-- a prefix too short for its terminating NUL -/
  | pfxShort {b len} : 4 ≤ b.length → num16 .little b 0 = some len → num16 .little b 2 = some 10 →
      1 ≤ len → len ≤ 4 → AttrsFate b .crash
  /-- a payload holding a packet the parser takes -/
  | payload {b len f} : 4 ≤ b.length → num16 .little b 0 = some len → num16 .little b 2 = some 9 →
      Accepts (seen len (b.drop 4)) → AttrsFate (b.drop (4 + taken len)) f → AttrsFate b f
  /-- a payload the parser refuses -/
  | payloadBad {b len} : 4 ≤ b.length → num16 .little b 0 = some len → num16 .little b 2 = some 9 →
      ¬ Accepts (seen len (b.drop 4)) → ¬ Crashes (seen len (b.drop 4)) false → AttrsFate b .refused
  /-- a payload the parser dies on -/
  | payloadCrash {b len} : 4 ≤ b.length → num16 .little b 0 = some len → num16 .little b 2 = some 9 →
      Crashes (seen len (b.drop 4)) false → AttrsFate b .crash

/-- The fate of reading a datagram. -/
inductive DatagramFate : List Byte → Fate → Prop
  /-- nothing left -/
  | done : DatagramFate [] .read
  /-- an incomplete message header -/
  | trailing {b} : b ≠ [] → b.length < 16 → DatagramFate b .hang
  /-- a message stating more bytes than there are -/
  | truncated {b n} : 16 ≤ b.length → num32 .little b 0 = some n → b.length < n → DatagramFate b .refused
  /-- a message of another type stating no length -/
  | stuck {b type} : 16 ≤ b.length → num32 .little b 0 = some 0 → num16 .little b 4 = some type → type ≠ 4 * 256 →
      DatagramFate b .hang
  /-- a message of another type is skipped -/
  | other {b n type f} : 16 ≤ b.length → num32 .little b 0 = some n → num16 .little b 4 = some type →
      type ≠ 4 * 256 → 0 < n → n ≤ b.length → DatagramFate (b.drop n) f → DatagramFate b f
  /-- a log message stating no more than its header -/
  | short {b n} : 16 ≤ b.length → num32 .little b 0 = some n → num16 .little b 4 = some (4 * 256) →
      n ≤ 16 → DatagramFate b .crash
  /-- a log message that can be read (without its last byte) -/
  | log {b n f} : 16 ≤ b.length → num32 .little b 0 = some n → num16 .little b 4 = some (4 * 256) →
      16 < n → n ≤ b.length → AttrsFate ((b.take (n - 1)).drop 20) .read → DatagramFate (b.drop n) f → DatagramFate b f
  /-- a log message that cannot -/
  | logBad {b n f} : 16 ≤ b.length → num32 .little b 0 = some n → num16 .little b 4 = some (4 * 256) →
      16 < n → n ≤ b.length → AttrsFate ((b.take (n - 1)).drop 20) f → f ≠ .read → DatagramFate b f

/-! ### The attributes -/

theorem claimed_eq (len : U16) : (len - 4 : U16).toNat = claimed len.toNat := by
  have h : (len - 4 : U16).toNat = (65536 - 4 + len.toNat) % 65536 := by
    rw [BitVec.toNat_sub]; rfl
  rw [h]
  unfold claimed
  omega

theorem taken_eq (len : U16) : (nfaAlign16 (len - 4)).toNat = taken len.toNat := by
  have he : nfaAlign16 (len - 4) = nfaAlign (len - 4) := by
    unfold nfaAlign16 nfaAlign
    rw [show ((len - 4) + 4 - 1 : U16) = (len - 4) + 3 from by
      generalize len - 4 = x
      rw [BitVec.sub_eq_add_neg, BitVec.add_assoc]; rfl]
    rfl
  rw [he, nfaAlign_toNat, claimed_eq]
  unfold taken roundUp4
  have : claimed len.toNat < 65536 := Nat.mod_lt _ (by omega)
  split <;> omega

theorem seen_eq (len : Nat) (rest : List Byte) : readPayload (taken len) rest = seen len rest := by
  unfold readPayload seen zeros
  rw [List.take_append, List.length_take, List.take_replicate]
  congr 2
  omega

theorem seen_length (len : Nat) (rest : List Byte) : (seen len rest).length = taken len := by
  simp [seen]

theorem claimed_le_taken {len : Nat} (h : taken len ≠ 0) : claimed len ≤ taken len := by
  unfold taken roundUp4 at *
  have : claimed len < 65536 := Nat.mod_lt _ (by omega)
  omega

theorem deliver_take {env : Env} (hp : Polite env) {payload : List Byte} {n : U16} {m : NfPacket} {w : W} {cb : Nat}
    (hcb : w.st.callback = some cb) (hacc : Accepts payload) (hn : n.toNat ≤ payload.length) :
    ∃ m' w', deliver env payload n m w = .ok (.ok m', w') ∧ w'.st = w.st := by
  obtain ⟨pk, hN⟩ := (C50_accept_set (Heap.valid_mk' w.heap payload) (by simp [Heap.mk']) PacketTypeNetwork
    []).mpr (by rw [Heap.bytes_mk']; exact hacc)
  unfold deliver
  simp only [hN, Res.ok_bind]
  have hs : (w.heap.mk' payload).1.to n.toNat = .ok ⟨w.heap.arrays.length, 0, n.toNat, payload.length⟩ := by
    unfold Slice.to Slice.sub
    rw [if_pos ⟨by omega, hn⟩]
    rfl
  rw [hs]
  simp only [Res.ok_bind, invoke, hcb]
  exact ⟨_, _, rfl, hp.keeps _⟩

/-- The outcome `r` of a reading function is the fate `f`; when everything was read the application's state is as before. -/
def Meets (w : W) (r : Res (Option Err × W)) : Fate → Prop
  | .read => ∃ w', r = .ok (none, w') ∧ w'.st = w.st
  | .refused => ∃ err w', r = .ok (some err, w') ∧ w'.st = w.st
  | .crash => r = .panic
  | .hang => r = .diverge

theorem Meets.trans {w w' : W} {r : Res (Option Err × W)} {f : Fate} (h : Meets w' r f) (hs : w'.st = w.st) :
    Meets w r f := by
  cases f with
  | read => obtain ⟨w2, h1, h2⟩ := h; exact ⟨w2, h1, h2.trans hs⟩
  | refused => obtain ⟨e, w2, h1, h2⟩ := h; exact ⟨e, w2, h1, h2.trans hs⟩
  | crash => exact h
  | hang => exact h

theorem tlv_at {env : Env} {b : List Byte} {len type : Nat} {m : NfPacket} {w : W} (h4 : 4 ≤ b.length)
    (hl : num16 .little b 0 = some len) (ht : num16 .little b 2 = some type) :
    ∃ (l t : U16), l.toNat = len ∧ t.toNat = type ∧ tlvBody env ⟨b, m, w⟩ = attrStep env l t (b.drop 4) m w := by
  obtain ⟨l, hl'⟩ := dec16_of_le .little (b := b) (by omega)
  obtain ⟨t, ht'⟩ := dec16_of_le .little (b := b.drop 2) (by simp; omega)
  refine ⟨l, t, ?_, ?_, ?_⟩
  · have := num16_eq .little b 0 l (by simpa using hl')
    rw [hl] at this
    exact (Option.some.inj this).symm
  · have := num16_eq .little b 2 t ht'
    rw [ht] at this
    exact (Option.some.inj this).symm
  · unfold tlvBody
    rw [if_neg (by show ¬ b.length = 0; omega), if_neg (by show ¬ b.length < 4; omega)]
    simp only [hl', ht', Res.ok_bind]

theorem accepts_ne_nil {B : List Byte} (h : Accepts B) : B.length ≠ 0 := by
  rcases h with h | h
  · have := h.2.2.1; omega
  · have := h.2.1; omega

/-- The fate of the attributes is what happens. -/
theorem attrs_fate {env : Env} (hp : Polite env) {cb : Nat} {b : List Byte} {f : Fate} (h : AttrsFate b f) :
    ∀ (m : NfPacket) (w : W), w.st.callback = some cb → Meets w (loop (tlvBody env) ⟨b, m, w⟩) f := by
  induction h with
  | done => intro m w _; rw [parse_end]; exact ⟨w, rfl, rfl⟩
  | @eof b h0 h4 =>
    intro m w _
    have := List.length_pos_iff.mpr h0
    rw [loop_unfold]
    unfold tlvBody
    rw [if_neg (by show ¬ b.length = 0; omega), if_pos h4]
    exact ⟨_, w, rfl, rfl⟩
  | @other b len type f h4 hl ht h9 h10 _ ih =>
    intro m w hcb
    obtain ⟨l, t, rfl, rfl, hb⟩ := tlv_at (env := env) (m := m) (w := w) h4 hl ht
    have hs : attrStep env l t (b.drop 4) m w = .ok (.next ⟨b.drop (4 + taken l.toNat), m, w⟩) := by
      unfold attrStep
      simp only
      rw [if_neg (show ¬ t = (10 : U16) from fun e => h10 (by rw [e]; rfl)), if_neg (show ¬ t = (9 : U16) from fun e => h9 (by rw [e]; rfl)), taken_eq, List.drop_drop]
    rw [loop_unfold, hb, hs]
    exact ih m w hcb
  | @pfx b len f h4 hl ht hlen _ ih =>
    intro m w hcb
    obtain ⟨l, t, rfl, ht', hb⟩ := tlv_at (env := env) (m := m) (w := w) h4 hl ht
    have hlt := l.isLt
    have hs : ∃ p, slice (seen l.toNat (b.drop 4)) 0 (l - 4 - 1).toNat = .ok p := by
      unfold slice
      refine ⟨_, if_pos ⟨by omega, ?_⟩⟩
      rw [seen_length]
      have h1 : (l - 4 - 1 : U16).toNat = (65536 - 1 + claimed l.toNat) % 65536 := by
        rw [BitVec.toNat_sub, claimed_eq]; rfl
      rw [h1]
      unfold taken roundUp4 claimed
      omega
    obtain ⟨p, hs⟩ := hs
    have ha : attrStep env l t (b.drop 4) m w = .ok (.next ⟨b.drop (4 + taken l.toNat), { m with prefix' := p }, w⟩) := by
      unfold attrStep
      simp only
      rw [if_pos (show t = (10 : U16) from BitVec.eq_of_toNat_eq (by rw [ht']; rfl)), taken_eq, seen_eq, hs, List.drop_drop]
      rfl
    rw [loop_unfold, hb, ha]
    exact ih _ w hcb
  | @pfxShort b len h4 hl ht h1 h2 =>
    intro m w hcb
    obtain ⟨l, t, rfl, ht', hb⟩ := tlv_at (env := env) (m := m) (w := w) h4 hl ht
    have hs : slice (seen l.toNat (b.drop 4)) 0 (l - 4 - 1).toNat = .panic := by
      unfold slice
      rw [if_neg]
      rw [seen_length]
      have h1 : (l - 4 - 1 : U16).toNat = (65536 - 1 + claimed l.toNat) % 65536 := by
        rw [BitVec.toNat_sub, claimed_eq]; rfl
      rw [h1]
      unfold taken roundUp4 claimed
      omega
    have ha : attrStep env l t (b.drop 4) m w = .panic := by
      unfold attrStep
      simp only
      rw [if_pos (show t = (10 : U16) from BitVec.eq_of_toNat_eq (by rw [ht']; rfl)), taken_eq, seen_eq, hs]
      rfl
    rw [loop_unfold, hb, ha]
    rfl
  | @payload b len f h4 hl ht hacc _ ih =>
    intro m w hcb
    obtain ⟨l, t, rfl, ht', hb⟩ := tlv_at (env := env) (m := m) (w := w) h4 hl ht
    have hne := accepts_ne_nil hacc
    rw [seen_length] at hne
    obtain ⟨m', w', hd, hst⟩ := deliver_take hp (n := l - 4) (m := m) hcb hacc
      (by rw [seen_length, claimed_eq]; exact claimed_le_taken hne)
    have ha : attrStep env l t (b.drop 4) m w = .ok (.next ⟨b.drop (4 + taken l.toNat), m', w'⟩) := by
      unfold attrStep
      simp only
      rw [if_neg (show ¬ t = (10 : U16) from fun e => by rw [e] at ht'; exact absurd ht' (by decide)),
        if_pos (show t = (9 : U16) from BitVec.eq_of_toNat_eq (by rw [ht']; rfl)), taken_eq, seen_eq, hd, List.drop_drop]
      rfl
    rw [loop_unfold, hb, ha]
    exact (ih m' w' (by rw [hst]; exact hcb)).trans hst
  | @payloadBad b len h4 hl ht hacc hcr =>
    intro m w hcb
    obtain ⟨l, t, rfl, ht', hb⟩ := tlv_at (env := env) (m := m) (w := w) h4 hl ht
    obtain ⟨err, _, hd⟩ := deliver_reject env (n := l - 4) (m := m) (w := w) hacc hcr
    have ha : attrStep env l t (b.drop 4) m w =
        .ok (.done (some err, { w with heap := (w.heap.mk' (seen l.toNat (b.drop 4))).2 })) := by
      unfold attrStep
      simp only
      rw [if_neg (show ¬ t = (10 : U16) from fun e => by rw [e] at ht'; exact absurd ht' (by decide)),
        if_pos (show t = (9 : U16) from BitVec.eq_of_toNat_eq (by rw [ht']; rfl)), taken_eq, seen_eq, hd]
      rfl
    rw [loop_unfold, hb, ha]
    exact ⟨_, _, rfl, rfl⟩
  | @payloadCrash b len h4 hl ht hcr =>
    intro m w hcb
    obtain ⟨l, t, rfl, ht', hb⟩ := tlv_at (env := env) (m := m) (w := w) h4 hl ht
    have ha : attrStep env l t (b.drop 4) m w = .panic := by
      unfold attrStep
      simp only
      rw [if_neg (show ¬ t = (10 : U16) from fun e => by rw [e] at ht'; exact absurd ht' (by decide)),
        if_pos (show t = (9 : U16) from BitVec.eq_of_toNat_eq (by rw [ht']; rfl)), taken_eq, seen_eq,
        deliver_crash env hcr]
      rfl
    rw [loop_unfold, hb, ha]
    rfl

theorem num16_some {b : List Byte} {i : Nat} (h : i + 2 ≤ b.length) : ∃ n, num16 .little b i = some n := by
  obtain ⟨v, hv⟩ := dec16_of_le .little (b := b.drop i) (by simp; omega)
  exact ⟨_, num16_eq .little b i v hv⟩

theorem num16_lt' {b : List Byte} {i n : Nat} (h : num16 .little b i = some n) : n < 65536 := by
  unfold num16 at h
  split at h
  · rename_i x y _ _
    have := x.isLt; have := y.isLt
    simp only [Option.some.injEq] at h
    omega
  · cases h

/-- Every attribute area has a fate. -/
theorem attrs_total (b : List Byte) : ∃ f, AttrsFate b f := by
  induction hn : b.length using Nat.strongRecOn generalizing b with
  | _ n ih =>
    by_cases h0 : b = []
    · subst h0; exact ⟨_, .done⟩
    by_cases h4 : b.length < 4
    · exact ⟨_, .eof h0 h4⟩
    obtain ⟨len, hl⟩ := num16_some (b := b) (i := 0) (by omega)
    obtain ⟨type, ht⟩ := num16_some (b := b) (i := 2) (by omega)
    obtain ⟨f, hf⟩ := ih (b.drop (4 + taken len)).length (by simp; omega) _ rfl
    by_cases h10 : type = 10
    · subst h10
      by_cases hs : 1 ≤ len ∧ len ≤ 4
      · exact ⟨_, .pfxShort (by omega) hl ht hs.1 hs.2⟩
      · exact ⟨f, .pfx (by omega) hl ht (by omega) hf⟩
    by_cases h9 : type = 9
    · subst h9
      by_cases ha : Accepts (seen len (b.drop 4))
      · exact ⟨f, .payload (by omega) hl ht ha hf⟩
      by_cases hc : Crashes (seen len (b.drop 4)) false
      · exact ⟨_, .payloadCrash (by omega) hl ht hc⟩
      · exact ⟨_, .payloadBad (by omega) hl ht ha hc⟩
    · exact ⟨f, .other (by omega) hl ht h9 h10 hf⟩

/-! ### The messages -/

theorem header_at {b : List Byte} {n type : Nat} (h16 : 16 ≤ b.length) (hn : num32 .little b 0 = some n)
    (ht : num16 .little b 4 = some type) : ∃ (l : U32) (t : U16), l.toNat = n ∧ t.toNat = type ∧ readHeader b = .ok (l, t) := by
  obtain ⟨v, hv⟩ := (dec32_ok_iff .little b).mpr (by omega)
  obtain ⟨t, ht'⟩ := dec16_of_le .little (b := b.drop 4) (by simp; omega)
  refine ⟨v, t, ?_, ?_, ?_⟩
  · have := num32_eq .little b 0 v (by simpa using hv)
    rw [hn] at this
    exact (Option.some.inj this).symm
  · have := num16_eq .little b 4 t ht'
    rw [ht] at this
    exact (Option.some.inj this).symm
  · unfold readHeader
    rw [if_neg (by omega), hv, ht']
    rfl

theorem body_of {b : List Byte} {n : U32} (h : 16 < n.toNat) (hn : n.toNat ≤ b.length) :
    ∃ body, slice b 16 (n - 1).toNat = .ok body ∧ body.drop 4 = (b.take (n.toNat - 1)).drop 20 := by
  have hm : (n - 1 : U32).toNat = n.toNat - 1 := by
    rw [BitVec.toNat_sub]
    have := n.isLt
    show (2 ^ 32 - 1 + n.toNat) % 2 ^ 32 = _
    omega
  unfold slice
  rw [hm, if_pos ⟨by omega, by omega⟩]
  refine ⟨_, rfl, ?_⟩
  rw [List.take_drop, List.drop_drop]
  congr 2
  omega

/-- The fate of the datagram is what happens. -/
theorem datagram_fate {env : Env} (hp : Polite env) {cb : Nat} {b : List Byte} {f : Fate} (h : DatagramFate b f) :
    ∀ w : W, b.length < 4294967295 → w.st.callback = some cb → Meets w (loop (logBody env) (b, w)) f := by
  have le_of : ∀ {b : List Byte} {l : U32}, b.length < 4294967295 → l.toNat ≤ b.length → ¬ l > BitVec.ofNat 32 b.length := by
    intro b l h1 h2
    rw [gt_iff_lt, BitVec.lt_def, BitVec.toNat_ofNat]
    omega
  induction h with
  | done => intro w _ _; rw [log_end]; exact ⟨w, rfl, rfl⟩
  | trailing h0 h16 => intro w _ _; exact log_trailing env h0 h16 w
  | @truncated b n h16 hn hlt =>
    intro w hb _
    obtain ⟨type, ht⟩ := num16_some (b := b) (i := 4) (by omega)
    obtain ⟨l, t, rfl, rfl, hr⟩ := header_at h16 hn ht
    rw [loop_unfold]
    unfold logBody
    simp only
    rw [if_neg (by omega), hr]
    simp only [Res.ok_bind]
    rw [if_pos (by rw [gt_iff_lt, BitVec.lt_def, BitVec.toNat_ofNat]; omega)]
    exact ⟨_, w, rfl, rfl⟩
  | stuck h16 hn ht hne =>
    intro w _ _
    refine log_zero env h16 hn (fun h => hne ?_) w
    rw [ht] at h
    exact Option.some.inj h
  | @other b n type f h16 hn ht hne h0 hle _ ih =>
    intro w hb hcb
    obtain ⟨l, t, rfl, rfl, hr⟩ := header_at h16 hn ht
    have hs : logBody env (b, w) = .ok (.next (b.drop l.toNat, w)) := by
      unfold logBody
      simp only
      rw [if_neg (by omega), hr]
      simp only [Res.ok_bind]
      rw [if_neg (le_of hb hle)]
      unfold parseMessage
      rw [if_neg (show ¬ t = (1024 : U16) from fun e => hne (by rw [e]; rfl))]
      simp only [Res.ok_bind]
      unfold sliceFrom
      rw [if_pos hle]
      rfl
    rw [loop_unfold, hs]
    exact ih w (by simp; omega) hcb
  | @short b n h16 hn ht hle =>
    intro w hb hcb
    obtain ⟨l, t, rfl, ht', hr⟩ := header_at h16 hn ht
    have hs : logBody env (b, w) = .panic := by
      unfold logBody
      simp only
      rw [if_neg (by omega), hr]
      simp only [Res.ok_bind]
      rw [if_neg (le_of hb (by omega))]
      unfold parseMessage
      rw [if_pos (show t = (1024 : U16) from BitVec.eq_of_toNat_eq (by rw [ht']; rfl))]
      have : slice b 16 (l - 1).toNat = .panic := by
        unfold slice
        rw [if_neg]
        have h1 : (l - 1 : U32).toNat = (2 ^ 32 - 1 + l.toNat) % 2 ^ 32 := by rw [BitVec.toNat_sub]; rfl
        rw [h1]
        omega
      rw [this]
      rfl
    rw [loop_unfold, hs]
    rfl
  | @log b n f h16 hn ht h1 hle ha _ ih =>
    intro w hb hcb
    obtain ⟨l, t, rfl, ht', hr⟩ := header_at h16 hn ht
    obtain ⟨body, hbody, hd⟩ := body_of h1 hle
    obtain ⟨w', hp', hst⟩ := attrs_fate hp ha NfPacket.zero w hcb
    have hs : logBody env (b, w) = .ok (.next (b.drop l.toNat, w')) := by
      unfold logBody
      simp only
      rw [if_neg (by omega), hr]
      simp only [Res.ok_bind]
      rw [if_neg (le_of hb hle)]
      unfold parseMessage
      rw [if_pos (show t = (1024 : U16) from BitVec.eq_of_toNat_eq (by rw [ht']; rfl)), hbody]
      simp only [Res.ok_bind]
      unfold parsePacket
      rw [hd, hp']
      simp only [Res.ok_bind]
      unfold sliceFrom
      rw [if_pos hle]
      rfl
    rw [loop_unfold, hs]
    exact (ih w' (by simp; omega) (by rw [hst]; exact hcb)).trans hst
  | @logBad b n f h16 hn ht h1 hle ha hne =>
    intro w hb hcb
    obtain ⟨l, t, rfl, ht', hr⟩ := header_at h16 hn ht
    obtain ⟨body, hbody, hd⟩ := body_of h1 hle
    have hm := attrs_fate hp ha NfPacket.zero w hcb
    have hs : logBody env (b, w) = (loop (tlvBody env) ⟨(b.take (l.toNat - 1)).drop 20, NfPacket.zero, w⟩ >>= fun x =>
        match x.1 with
        | some err => .ok (.done (some (.wrap "Failed to parse NFPacket: %v" err), x.2))
        | none => do
          let buffer ← sliceFrom b l.toNat
          .ok (.next (buffer, x.2))) := by
      unfold logBody
      simp only
      rw [if_neg (by omega), hr]
      simp only [Res.ok_bind]
      rw [if_neg (le_of hb hle)]
      unfold parseMessage
      rw [if_pos (show t = (1024 : U16) from BitVec.eq_of_toNat_eq (by rw [ht']; rfl)), hbody]
      simp only [Res.ok_bind]
      unfold parsePacket
      rw [hd]
      rfl
    rw [loop_unfold, hs]
    cases f with
    | read => exact absurd rfl hne
    | refused =>
      obtain ⟨err, w', h2, h3⟩ := hm
      rw [h2]
      exact ⟨_, w', rfl, h3⟩
    | crash =>
      have h2 : loop (tlvBody env) ⟨(b.take (l.toNat - 1)).drop 20, NfPacket.zero, w⟩ = .panic := hm
      rw [h2]
      rfl
    | hang =>
      have h2 : loop (tlvBody env) ⟨(b.take (l.toNat - 1)).drop 20, NfPacket.zero, w⟩ = .diverge := hm
      rw [h2]
      rfl

/-- Every datagram has a fate. -/
theorem datagram_total (b : List Byte) : ∃ f, DatagramFate b f := by
  induction hn : b.length using Nat.strongRecOn generalizing b with
  | _ n ih =>
    by_cases h0 : b = []
    · subst h0; exact ⟨_, .done⟩
    by_cases h16 : b.length < 16
    · exact ⟨_, .trailing h0 h16⟩
    obtain ⟨v, hv⟩ := (dec32_ok_iff .little b).mpr (by omega)
    have hl := num32_eq .little b 0 v (by simpa using hv)
    generalize v.toNat = len at hl
    obtain ⟨type, ht⟩ := num16_some (b := b) (i := 4) (by omega)
    by_cases htr : b.length < len
    · exact ⟨_, .truncated (by omega) hl htr⟩
    by_cases h4 : type = 4 * 256
    · subst h4
      by_cases hs : len ≤ 16
      · exact ⟨_, .short (by omega) hl ht hs⟩
      obtain ⟨f, hf⟩ := ih (b.drop len).length (by simp; omega) _ rfl
      obtain ⟨g, hg⟩ := attrs_total ((b.take (len - 1)).drop 20)
      by_cases hgr : g = .read
      · subst hgr; exact ⟨f, .log (by omega) hl ht (by omega) (by omega) hg hf⟩
      · exact ⟨g, .logBad (by omega) hl ht (by omega) (by omega) hg hgr⟩
    · by_cases hz : len = 0
      · subst hz; exact ⟨_, .stuck (by omega) hl ht h4⟩
      · obtain ⟨f, hf⟩ := ih (b.drop len).length (by simp; omega) _ rfl
        exact ⟨f, .other (by omega) hl ht h4 (by omega) (by omega) hf⟩

theorem Meets.unique {w : W} {r : Res (Option Err × W)} {f g : Fate} (h : Meets w r f) (h' : Meets w r g) : f = g := by
  cases f <;> cases g <;> simp only [Meets] at h h' <;> first | rfl | (obtain ⟨_, h, _⟩ := h; simp [h] at h') | skip
  all_goals first
    | (obtain ⟨_, _, h, _⟩ := h; simp [h] at h')
    | (simp [h] at h')

theorem meets_iff {env : Env} (hp : Polite env) {cb : Nat} (b : List Byte) (hlen : b.length < 4294967295) (w : W)
    (hcb : w.st.callback = some cb) (f : Fate) : Meets w (parseLog env b w) f ↔ DatagramFate b f := by
  constructor
  · intro h
    obtain ⟨g, hg⟩ := datagram_total b
    have := Meets.unique h (datagram_fate hp hg w hlen hcb)
    subst this
    exact hg
  · intro h
    exact datagram_fate hp h w hlen hcb

/-- C36, exactly: the datagrams on which the reader never comes back. -/
theorem C36_hang_set (env : Env) (hp : Polite env) (cb : Nat) (b : List Byte) (hlen : b.length < 4294967295) (w : W)
    (hcb : w.st.callback = some cb) : parseLog env b w = .diverge ↔ DatagramFate b .hang :=
  meets_iff hp b hlen w hcb .hang

/-- C77, exactly: the datagrams that crash the process. -/
theorem C77_crash_set (env : Env) (hp : Polite env) (cb : Nat) (b : List Byte) (hlen : b.length < 4294967295) (w : W)
    (hcb : w.st.callback = some cb) : parseLog env b w = .panic ↔ DatagramFate b .crash :=
  meets_iff hp b hlen w hcb .crash

/-- C36 and C77 together: the datagrams read to the end, and those refused with an error; every datagram has exactly one of
the four fates. -/
theorem C77_read_set (env : Env) (hp : Polite env) (cb : Nat) (b : List Byte) (hlen : b.length < 4294967295) (w : W)
    (hcb : w.st.callback = some cb) :
    ((∃ w', parseLog env b w = .ok (none, w')) ↔ DatagramFate b .read) ∧
    ((∃ err w', parseLog env b w = .ok (some err, w')) ↔ DatagramFate b .refused) ∧
    ∃ f, DatagramFate b f ∧ ∀ g, DatagramFate b g → g = f := by
  obtain ⟨f, hf⟩ := datagram_total b
  have hm := datagram_fate hp hf w hlen hcb
  refine ⟨⟨?_, fun h => ?_⟩, ⟨?_, fun h => ?_⟩, f, hf, fun g hg => ?_⟩
  · rintro ⟨w', h⟩
    have hm' : Meets w (parseLog env b w) f := hm
    cases f with
    | read => exact hf
    | refused => obtain ⟨_, _, h2, _⟩ := hm'; rw [h] at h2; cases h2
    | crash => rw [show parseLog env b w = .panic from hm'] at h; cases h
    | hang => rw [show parseLog env b w = .diverge from hm'] at h; cases h
  · obtain ⟨w', h1, _⟩ := datagram_fate hp h w hlen hcb
    exact ⟨w', h1⟩
  · rintro ⟨err, w', h⟩
    have hm' : Meets w (parseLog env b w) f := hm
    cases f with
    | refused => exact hf
    | read => obtain ⟨_, h2, _⟩ := hm'; rw [h] at h2; cases h2
    | crash => rw [show parseLog env b w = .panic from hm'] at h; cases h
    | hang => rw [show parseLog env b w = .diverge from hm'] at h; cases h
  · obtain ⟨err, w', h1, _⟩ := datagram_fate hp h w hlen hcb
    exact ⟨err, w', h1⟩
  · exact (Meets.unique hm (datagram_fate hp hg w hlen hcb)).symm

/-- A prefix attribute without room for its NUL crashes the reader: a 24-byte message that states so. -/
example : DatagramFate ([25, 0, 0, 0, 0, 4, 0, 0] ++ zeros 8 ++ [2, 0, 0, 5] ++ [4, 0, 10, 0] ++ [0]) .crash :=
  .logBad (n := 25) (by decide +kernel) (by decide +kernel) (by decide +kernel) (by decide +kernel) (by decide +kernel) (.pfxShort (len := 4) (by decide +kernel) (by decide +kernel) (by decide +kernel) (by decide +kernel) (by decide +kernel)) (by decide +kernel)

/-- An acknowledgement is skipped, then 4 stray bytes hang the reader. -/
example : DatagramFate ([20, 0, 0, 0, 2, 0, 0, 0] ++ zeros 12 ++ zeros 4) .hang :=
  .other (n := 20) (type := 2) (by decide +kernel) (by decide +kernel) (by decide +kernel) (by decide +kernel) (by decide +kernel) (by decide +kernel) (.trailing (by decide +kernel) (by decide +kernel))

/-- The sample datagram (logs with prefixes and packets) is one that is read to the end. -/
example : DatagramFate (datagram sampleItems) .read := by
  obtain ⟨w', ms, h, _⟩ := C37_datagram_delivered someEnv someEnv_quiet.toPolite 1 sampleItems (by decide) sampleItems_ok
    readWorld rfl
  exact (C77_read_set someEnv someEnv_quiet.toPolite 1 _ (by decide) readWorld rfl).1.mp ⟨w', h⟩

end Verif.Props.Log
