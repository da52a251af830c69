import Verif.NfQueue.Verdict
import Verif.Props.NfQueueConfig
/-!
Properties C17–C19, C21, C27, C28: verdicts.

`VReady w qh`: the queue's socket is open (handle `qh`) and its scratch header of 40 bytes exists, as
`NewNFQueue` and `NfqOpen` leave it.  A packet handed to a verdict call is any slice of memory other
than the queue's private scratch header.
-/
namespace Verif.Props
open Verif.Sys Verif.Spec Verif.Common Verif.NfQueue

/-! ### What is decoded -/

/-- The verdict attribute: verdict in network order, then the id in the byte order of the host
(the form in which `GetPacketInfo` hands it out, see C21). -/
def verdictAttr (e : Endian) (verdict id : Nat) : Attr := ⟨2, false, bytes32 .big verdict ++ bytes32 e id⟩
/-- The mark attribute, network order. -/
def markAttr (mark : Nat) : Attr := ⟨3, false, bytes32 .big mark⟩
/-- The payload attribute. -/
def payloadAttr (p : List Byte) : Attr := ⟨10, false, p⟩

theorem bytes32_toNat (e : Endian) (v : U32) : bytes32 e v.toNat = enc32 e v := by
  rw [bytes32_eq]; simp

theorem u16_add4 {pl : U16} (h : pl.toNat ≤ 65531) : (pl + 4).toNat = pl.toNat + 4 := by
  rw [BitVec.toNat_add]
  have : (4 : U16).toNat = 4 := rfl
  rw [this]; omega

theorem setWidth_toNat {plen : U32} {n : Nat} (h : plen.toNat = n) (hn : n < 65536) :
    (plen.setWidth 16).toNat = n := by
  rw [BitVec.toNat_setWidth]; omega

theorem v2_decodes (e : Endian) (qn : U16) (verdict mark id : U32) (pl : U16) (p : List Byte)
    (h1 : p.length = pl.toNat) (h2 : p.length ≤ 65531) :
    decodeNf e (v2Bytes e qn verdict mark id pl p)
      = some ⟨44 + p.length, 0x301, 1, 0, 0, 0, 0, qn.toNat,
          [verdictAttr e verdict.toNat id.toNat, markAttr mark.toNat, payloadAttr p]⟩ := by
  have h4 := u16_add4 (pl := pl) (by omega)
  have hlen : (40 + (pl + 4).setWidth 32 : U32).toNat = 44 + p.length := by
    rw [BitVec.toNat_add, BitVec.toNat_setWidth, h4]
    have : (40 : U32).toNat = 40 := rfl
    rw [this]; omega
  have hlast := decodeAttrs_last e (pl + 4) 10 p (by omega)
  have hm := decodeAttrs_cons_aligned e 8 3 (enc32 .big mark) _ _ (by simp) (by simp) hlast
  have hv := decodeAttrs_cons_aligned e 12 2 (enc32 .big verdict ++ enc32 e id) _ _ (by simp) (by simp) hm
  have hd := decodeNf_parts e ⟨40 + (pl + 4).setWidth 32, 0x301, 1, 0, 0⟩ 0 0 qn _ (zeros (padOf pl)) _
    (by simp; omega) hv
  have heq : v2Bytes e qn verdict mark id pl p = hdrBytes e ⟨40 + (pl + 4).setWidth 32, 0x301, 1, 0, 0⟩ ++
      ([0, 0] ++ enc16 .big qn) ++ (enc16 e 12 ++ enc16 e 2 ++ (enc32 .big verdict ++ enc32 e id) ++
        (enc16 e 8 ++ enc16 e 3 ++ enc32 .big mark ++ (enc16 e (pl + 4) ++ enc16 e 10 ++ p))) ++
      zeros (padOf pl) := by
    simp only [v2Bytes, v2Head, List.append_assoc]
  rw [heq, hd]
  simp only [hlen, verdictAttr, markAttr, payloadAttr, bytes32_toNat]
  rfl

/-- C17 (partial: non-empty packets; an empty one crashes, see below, and a packet of 65532 bytes or more
fits in no attribute, see `C17_too_long`).  For every verdict, mark, id, queue and packet
with the right length given, whatever the scratch buffer and memory contain, `SetVerdict2` hands
exactly one datagram to the kernel, which decodes to a verdict message for this queue carrying
exactly this verdict, mark, id and packet, and stating the length up to the end of the payload. -/
theorem C17_verdict2_partial (env : Env) (K : Kernel QEv) (qa verdict mark plen id : U32)
    (packet : Slice) (w : W) (qh : Handle) (hV : VReady w qh) (hp : packet.Valid w.heap)
    (hne : packet.arr ≠ w.st.hdrSlice.arr) (hl : plen.toNat = packet.len)
    (h1 : 1 ≤ packet.len) (h2 : packet.len ≤ 65531) :
    ∃ b r w', setVerdict2 env K qa verdict mark plen id packet w = .ok ((), w') ∧
      w'.trace = w.trace ++ [.sendmsg qh.fd b r] ∧
      decodeNf env.e b = some ⟨44 + packet.len, 0x301, 1, 0, 0, 0, 0, w.st.queueNum.toNat,
        [verdictAttr env.e verdict.toNat id.toNat, markAttr mark.toNat,
          payloadAttr (w.heap.bytes packet)]⟩ := by
  obtain ⟨r, w', he, ht, _⟩ := setVerdict2_spec env K qa verdict mark plen id packet w qh hV hp hne
  rw [if_neg (by omega)] at he
  refine ⟨_, r, w', he, ht, ?_⟩
  have hpl := setWidth_toNat hl (by omega)
  have hbl := Heap.bytes_length hp
  rw [v2_decodes _ _ _ _ _ _ _ (by omega) (by omega), hbl]

/-- C17 is false for empty packets: the call crashes. -/
theorem C17_empty_crashes (env : Env) (K : Kernel QEv) (qa verdict mark id : U32)
    (packet : Slice) (w : W) (qh : Handle) (hV : VReady w qh) (hp : packet.Valid w.heap)
    (hne : packet.arr ≠ w.st.hdrSlice.arr) (hl : packet.len = 0) :
    setVerdict2 env K qa verdict mark 0 id packet w = .panic := by
  obtain ⟨r, w', he, _⟩ := setVerdict2_spec env K qa verdict mark 0 id packet w qh hV hp hne
  rw [he, if_pos]
  rw [hl]; rfl

theorem decodeAttrsN_payload (e : Endian) : ∀ (n : Nat) (b : List Byte) (as : List Attr),
    decodeAttrsN e n b = some as → ∀ a ∈ as, a.payload.length ≤ 65531 := by
  intro n
  induction n with
  | zero =>
    intro b as h
    cases b with
    | nil => simp [decodeAttrsN] at h; subst h; simp
    | cons x xs => simp [decodeAttrsN] at h
  | succ n ih =>
    intro b as h
    cases b with
    | nil => simp [decodeAttrsN] at h; subst h; simp
    | cons x xs =>
      unfold decodeAttrsN at h
      split at h
      · rename_i l t hl ht
        split at h
        · rename_i hc
          split at h
          · rename_i as' has
            simp only [Option.some.injEq] at h
            subst h
            intro a ha
            rcases List.mem_cons.mp ha with rfl | ha
            · have := num16_lt hl
              simp only [List.length_drop, List.length_take]; omega
            · exact ih _ _ has a ha
          · simp at h
        · simp at h
      · simp at h

/-- The restriction of C17 to 65531 bytes is one of the wire format: no message whatsoever decodes to
one with a longer payload. -/
theorem C17_too_long (e : Endian) (b : List Byte) (m : NfMsg) (h : decodeNf e b = some m) :
    ∀ a ∈ m.attrs, a.payload.length ≤ 65531 := by
  unfold decodeNf at h
  split at h
  · split at h
    · rename_i as has
      simp only [Option.some.injEq] at h
      subst h
      exact decodeAttrsN_payload e _ _ _ has
    · simp at h
  · simp at h

theorem v1_decodes (e : Endian) (qn : U16) (verdict id : U32) (pl : U16) (p : List Byte)
    (h1 : p.length = roundUp4 pl.toNat) (h2 : pl.toNat ≤ 65528) :
    decodeNf e (v1Bytes e qn verdict id pl p)
      = some ⟨36 + p.length, 0x301, 1, 0, 0, 0, 0, qn.toNat,
          [verdictAttr e verdict.toNat id.toNat, payloadAttr p]⟩ := by
  have h4 := nfaLength_toNat pl h2
  have h5 : roundUp4 (pl.toNat + 4) = p.length + 4 := by rw [h1]; unfold roundUp4; omega
  have h6 : p.length ≤ 65528 := by rw [h1]; unfold roundUp4; omega
  have hlen : (32 + (nfaLength pl).setWidth 32 : U32).toNat = 36 + p.length := by
    rw [BitVec.toNat_add, BitVec.toNat_setWidth, h4]
    have : (32 : U32).toNat = 32 := rfl
    rw [this]; omega
  have hlast := decodeAttrs_last e (nfaLength pl) 10 p (by omega)
  have hv := decodeAttrs_cons_aligned e 12 2 (enc32 .big verdict ++ enc32 e id) _ _ (by simp) (by simp) hlast
  have hd := decodeNf_parts e ⟨32 + (nfaLength pl).setWidth 32, 0x301, 1, 0, 0⟩ 0 0 qn _ [] _
    (by simp; omega) hv
  have heq : v1Bytes e qn verdict id pl p = hdrBytes e ⟨32 + (nfaLength pl).setWidth 32, 0x301, 1, 0, 0⟩ ++
      ([0, 0] ++ enc16 .big qn) ++ (enc16 e 12 ++ enc16 e 2 ++ (enc32 .big verdict ++ enc32 e id) ++
        (enc16 e (nfaLength pl) ++ enc16 e 10 ++ p)) ++ [] := by
    simp only [v1Bytes, List.append_assoc, List.append_nil]
  rw [heq, hd]
  simp only [hlen, verdictAttr, payloadAttr, bytes32_toNat]
  rfl

/-- C18 (partial: exact only for non-empty packets whose length is a multiple of four; otherwise the
kernel is told a payload with up to three zero bytes appended).  For every verdict, id, queue and packet with
the right length given, `SetVerdict` hands exactly one datagram to the kernel, which decodes to a verdict
message for this queue with exactly this verdict and id, and the packet followed by
fewer than four zero bytes, none if the length is a multiple of four. -/
theorem C18_verdict_partial (env : Env) (K : Kernel QEv) (qa verdict plen id : U32)
    (packet : Slice) (w : W) (qh : Handle) (hh : w.st.handle = some qh) (hp : packet.Valid w.heap)
    (hl : plen.toNat = packet.len) (h1 : 1 ≤ packet.len) (h2 : packet.len ≤ 65528) :
    ∃ b r w' pad, setVerdict env K qa verdict plen id packet w = .ok ((), w') ∧
      w'.trace = w.trace ++ [.sendmsg qh.fd b r] ∧
      pad < 4 ∧ (packet.len + pad) % 4 = 0 ∧
      decodeNf env.e b = some ⟨36 + (packet.len + pad), 0x301, 1, 0, 0, 0, 0, w.st.queueNum.toNat,
        [verdictAttr env.e verdict.toNat id.toNat,
          payloadAttr (w.heap.bytes packet ++ List.replicate pad 0)]⟩ := by
  obtain ⟨r, w', beyond, he, ht, hb, _⟩ := setVerdict_spec env K qa verdict plen id packet w qh hh hp
  rw [if_neg (by omega)] at he
  have hpl := setWidth_toNat hl (by omega)
  have hbl := Heap.bytes_length hp
  have hpad := padOf_eq (plen.setWidth 16)
  rw [hpl] at hpad
  have hal : (nfaAlign (plen.setWidth 16)).toNat = roundUp4 packet.len := by
    rw [nfaAlign_toNat, hpl, if_pos (by omega)]; rfl
  have hru : packet.len + padOf (plen.setWidth 16) = roundUp4 packet.len := by
    have := roundUp4_ge packet.len; omega
  have hb0 : beyond = [] := List.length_eq_zero_iff.mp (by omega)
  refine ⟨_, r, w', padOf (plen.setWidth 16), he, ht, padOf_lt _, by rw [hru]; unfold roundUp4; omega, ?_⟩
  rw [hb0, List.append_nil, List.take_of_length_le (by simp [hbl]; omega)]
  rw [v1_decodes _ _ _ _ _ _ (by simp [hbl, hpl]; omega) (by omega)]
  simp [hbl, zeros]

/-- C18 is false for every packet whose length is not a multiple of four: what the kernel decodes
is not a message with this payload. -/
theorem C18_inexact (env : Env) (K : Kernel QEv) (qa verdict plen id : U32)
    (packet : Slice) (w : W) (qh : Handle) (hh : w.st.handle = some qh) (hp : packet.Valid w.heap)
    (hl : plen.toNat = packet.len) (h2 : packet.len ≤ 65528) (h4 : packet.len % 4 ≠ 0) :
    ∃ b r w' m, setVerdict env K qa verdict plen id packet w = .ok ((), w') ∧
      w'.trace = w.trace ++ [.sendmsg qh.fd b r] ∧ decodeNf env.e b = some m ∧
      payloadAttr (w.heap.bytes packet) ∉ m.attrs := by
  obtain ⟨b, r, w', pad, he, ht, hp4, hmod, hd⟩ :=
    C18_verdict_partial env K qa verdict plen id packet w qh hh hp hl (by omega) h2
  refine ⟨b, r, w', _, he, ht, hd, ?_⟩
  simp only [List.mem_cons, List.not_mem_nil, or_false, not_or]
  refine ⟨by simp [payloadAttr, verdictAttr], ?_⟩
  simp only [payloadAttr, Attr.mk.injEq, true_and]
  intro h
  have := congrArg List.length h
  simp at this; omega

/-- C18 is false for empty packets: the call crashes. -/
theorem C18_empty_crashes (env : Env) (K : Kernel QEv) (qa verdict id : U32)
    (packet : Slice) (w : W) (qh : Handle) (hh : w.st.handle = some qh) (hp : packet.Valid w.heap)
    (hl : packet.len = 0) :
    setVerdict env K qa verdict 0 id packet w = .panic := by
  obtain ⟨r, w', b, he, _⟩ := setVerdict_spec env K qa verdict 0 id packet w qh hh hp
  rw [he, if_pos]
  rw [hl]; rfl

/-! ### Histories -/

/-- A verdict call and its arguments. -/
inductive VCall where
  | v1 (queueArg verdict plen id : U32) (packet : Slice)
  | v2 (queueArg verdict mark plen id : U32) (packet : Slice)

/-- The packet of a call. -/
def VCall.packet : VCall → Slice
  | .v1 _ _ _ _ p => p
  | .v2 _ _ _ _ _ p => p

/-- The stated packet length of a call, as the 16-bit number the code uses. -/
def VCall.plen : VCall → Nat
  | .v1 _ _ l _ _ => l.toNat % 65536
  | .v2 _ _ _ l _ _ => l.toNat % 65536

/-- Perform a call. -/
def VCall.run (env : Env) (K : Kernel QEv) : VCall → M Unit
  | .v1 qa v l id p => setVerdict env K qa v l id p
  | .v2 qa v m l id p => setVerdict2 env K qa v m l id p

/-- Perform calls one after the other. -/
def runCalls (env : Env) (K : Kernel QEv) : List VCall → M Unit
  | [] => pure ()
  | c :: cs => do
    c.run env K
    runCalls env K cs

/-- The datagrams sent with `sendmsg`. -/
def sentOf (evs : List (Ev QEv)) : List (List Byte) :=
  evs.filterMap fun ev => match ev with | .sendmsg _ b _ => some b | _ => none

/-- A call an application may make in memory `h`: a non-empty packet in real memory outside the queue's private
scratch header, with a stated length not beyond the packet. -/
def VCall.Ok (h : Heap) (scratch : Slice) (c : VCall) : Prop :=
  c.packet.Valid h ∧ c.packet.arr ≠ scratch.arr ∧ 1 ≤ c.packet.len ∧ c.plen ≤ c.packet.len

/-- Padding the packet of `c` (at most three bytes right after it) does not touch that of `d`. -/
def Sep (c d : VCall) : Prop :=
  d.packet.arr ≠ c.packet.arr ∨ d.packet.off + d.packet.len ≤ c.packet.off + c.packet.len ∨
    c.packet.off + c.packet.len + 3 ≤ d.packet.off

/-- The message a call sends, from its arguments, the host byte order, the queue's number and
the contents of the packet. -/
def callMsg (e : Endian) (qn : U16) (c : VCall) (p : List Byte) : List Byte :=
  match c with
  | .v1 _ v l id _ => v1Bytes e qn v id (l.setWidth 16)
      ((p ++ zeros (padOf (l.setWidth 16))).take (nfaAlign (l.setWidth 16)).toNat)
  | .v2 _ v m l id _ => v2Bytes e qn v m id (l.setWidth 16) p

theorem call_step (env : Env) (K : Kernel QEv) (c : VCall) (w : W) (qh : Handle) (hV : VReady w qh)
    (hc : c.Ok w.heap w.st.hdrSlice) :
    ∃ r w', c.run env K w = .ok ((), w') ∧
      w'.trace = w.trace ++ [.sendmsg qh.fd (callMsg env.e w.st.queueNum c (w.heap.bytes c.packet)) r] ∧
      VReady w' qh ∧ w'.st.hdrSlice = w.st.hdrSlice ∧ w'.st.queueNum = w.st.queueNum ∧
      (∀ t : Slice, t.Valid w.heap → t.arr ≠ w.st.hdrSlice.arr → t.Valid w'.heap ∧
        ((t.arr ≠ c.packet.arr ∨ t.off + t.len ≤ c.packet.off + c.packet.len ∨
          c.packet.off + c.packet.len + 3 ≤ t.off) → w'.heap.bytes t = w.heap.bytes t)) := by
  obtain ⟨hp, hne, h1, hl⟩ := hc
  cases c with
  | v1 qa v l id p =>
    obtain ⟨r, w', beyond, he, ht, hb, hst, hm, _⟩ := setVerdict_spec env K qa v l id p w qh hV.1 hp
    simp only [VCall.packet, VCall.plen] at *
    rw [if_neg (by omega)] at he
    have hpl : (l.setWidth 16).toNat = l.toNat % 65536 := by rw [BitVec.toNat_setWidth]
    have hpad := padOf_eq (l.setWidth 16)
    rw [hpl] at hpad
    have hal : (nfaAlign (l.setWidth 16)).toNat ≤ roundUp4 (l.toNat % 65536) := by
      rw [nfaAlign_toNat, hpl]; unfold roundUp4; split <;> omega
    have hb0 : beyond = [] := List.length_eq_zero_iff.mp (by
      have := roundUp4_ge (l.toNat % 65536); omega)
    subst hb0
    have hcs : w'.st.handle = w.st.handle ∧ w'.st.hdrSlice = w.st.hdrSlice ∧ w'.st.queueNum = w.st.queueNum := by
      rw [hst]; unfold counted; split <;> exact ⟨rfl, rfl, rfl⟩
    refine ⟨r, w', he, ?_, ⟨by rw [hcs.1]; exact hV.1, ?_, by rw [hcs.2.1]; exact hV.2.2⟩, hcs.2.1, hcs.2.2, ?_⟩
    · rw [ht]; simp [callMsg]
    · rw [hcs.2.1]; exact (hm _ hV.2.1).1
    · intro t ht _
      refine ⟨(hm t ht).1, fun hd => (hm t ht).2 ?_⟩
      have := padOf_lt (l.setWidth 16)
      rcases hd with hd | hd | hd
      · exact Or.inl hd
      · exact Or.inr (Or.inl hd)
      · right; right; left; omega
  | v2 qa v m l id p =>
    simp only [VCall.packet] at hp hne h1 hl ⊢
    obtain ⟨r, w', he, ht, hst, hsv, hm, _⟩ := setVerdict2_spec env K qa v m l id p w qh hV hp hne
    rw [if_neg (by omega)] at he
    refine ⟨r, w', he, ht, ⟨by rw [hst]; exact hV.1, by rw [hst]; exact hsv, by rw [hst]; exact hV.2.2⟩,
      by rw [hst], by rw [hst], ?_⟩
    intro t ht hn
    refine ⟨(hm t ht hn).1, fun hd => (hm t ht hn).2 ?_⟩
    have := padOf_lt (l.setWidth 16)
    rcases hd with hd | hd | hd
    · exact Or.inl hd
    · exact Or.inr (Or.inl hd)
    · right; right; left; omega

/-- C19: there is a function of a call's arguments, the queue number, the host byte order and the
packet's bytes such that in every sequence of verdict calls, of any length, from any state of the queue (any
scratch contents, any history), call number i sends exactly one datagram, the value of that function on call i.
The packets may share memory provided no call's padding runs into a later call's packet. -/
theorem C19_history_free : ∃ msg : Endian → U16 → VCall → List Byte → List Byte,
    ∀ (env : Env) (K : Kernel QEv) (calls : List VCall) (w : W) (qh : Handle), VReady w qh →
      (∀ c ∈ calls, c.Ok w.heap w.st.hdrSlice) → calls.Pairwise Sep →
      ∃ w', runCalls env K calls w = .ok ((), w') ∧
        (∃ evs, w'.trace = w.trace ++ evs ∧ evs.length = calls.length ∧
          sentOf evs = calls.map fun c => msg env.e w.st.queueNum c (w.heap.bytes c.packet)) := by
  refine ⟨callMsg, ?_⟩
  intro env K calls
  induction calls with
  | nil => intro w qh _ _ _; exact ⟨w, rfl, [], by simp, rfl, rfl⟩
  | cons c cs ih =>
    intro w qh hV hok hsep
    obtain ⟨r, w1, he, ht, hV1, hS, hq, hm⟩ := call_step env K c w qh hV (hok c (by simp))
    rw [List.pairwise_cons] at hsep
    have hok1 : ∀ d ∈ cs, d.Ok w1.heap w1.st.hdrSlice := by
      intro d hd
      obtain ⟨a1, a2, a3, a4⟩ := hok d (by simp [hd])
      exact ⟨(hm _ a1 a2).1, by rw [hS]; exact a2, a3, a4⟩
    obtain ⟨w', he', evs, ht', hl', hs'⟩ := ih w1 qh hV1 hok1 hsep.2
    refine ⟨w', ?_, .sendmsg qh.fd (callMsg env.e w.st.queueNum c (w.heap.bytes c.packet)) r :: evs, ?_, ?_, ?_⟩
    · show (c.run env K w) >>= (fun p => runCalls env K cs p.2) = _
      rw [he]; exact he'
    · rw [ht', ht, List.append_assoc]; rfl
    · simp [hl']
    · show callMsg _ _ _ _ :: sentOf evs = _
      rw [hs', hq, List.map_cons]
      congr 1
      apply List.map_congr_left
      intro d hd
      obtain ⟨a1, a2, _⟩ := hok d (by simp [hd])
      rw [(hm _ a1 a2).2 (hsep.1 d hd)]

/-! ### The packet id -/

theorem getPacketInfo_id {e : Endian} {h : Heap} {m : AttrMap} {s : Slice} {idOut markOut : Nat}
    {pkt : Option Slice} (hs : m 1 = some s)
    (hinfo : getPacketInfo e h (some m) = .ok (idOut, markOut, pkt)) :
    ∃ v, dec32 e (h.bytes s) = .ok v ∧ v.toNat = idOut := by
  unfold getPacketInfo at hinfo
  simp only [hs] at hinfo
  rcases hd : dec32 e (h.bytes s) with v | _ | _ <;> rw [hd] at hinfo
  · refine ⟨v, rfl, ?_⟩
    simp only [Res.ok_bind, Res.pure_eq] at hinfo
    cases h3 : m 3 with
    | none => rw [h3] at hinfo; simp at hinfo; exact hinfo.1
    | some s3 =>
      rw [h3] at hinfo
      simp only at hinfo
      rcases hd3 : dec32 .big (h.bytes s3) with v3 | _ | _ <;> rw [hd3] at hinfo <;> simp at hinfo
      exact hinfo.1
  · simp at hinfo
  · simp at hinfo

/-- C21: whatever id attribute the kernel sent with a packet (at least four bytes), if
`GetPacketInfo` hands out `id` for it, then `SetVerdict2` called with that id puts the very same four bytes
into the verdict message, on both byte orders. -/
theorem C21_id_roundtrip (env : Env) (K : Kernel QEv) (qa verdict mark plen : U32)
    (packet : Slice) (w : W) (qh : Handle) (hV : VReady w qh) (hp : packet.Valid w.heap)
    (hne : packet.arr ≠ w.st.hdrSlice.arr) (hl : plen.toNat = packet.len)
    (h1 : 1 ≤ packet.len) (h2 : packet.len ≤ 65531)
    (h : Heap) (m : AttrMap) (s : Slice) (idOut markOut : Nat) (pkt : Option Slice)
    (hs : m 1 = some s) (hinfo : getPacketInfo env.e h (some m) = .ok (idOut, markOut, pkt)) :
    ∃ b r w' rest, setVerdict2 env K qa verdict mark plen (BitVec.ofNat 32 idOut) packet w = .ok ((), w') ∧
      w'.trace = w.trace ++ [.sendmsg qh.fd b r] ∧
      (decodeNf env.e b).map NfMsg.attrs =
        some (⟨2, false, bytes32 .big verdict.toNat ++ (h.bytes s).take 4⟩ :: rest) := by
  obtain ⟨b, r, w', he, ht, hd⟩ := C17_verdict2_partial env K qa verdict mark plen (BitVec.ofNat 32 idOut)
    packet w qh hV hp hne hl h1 h2
  refine ⟨b, r, w', [markAttr mark.toNat, payloadAttr (w.heap.bytes packet)], he, ht, ?_⟩
  rw [hd]
  simp only [Option.map_some, verdictAttr]
  obtain ⟨v, hv, hi⟩ := getPacketInfo_id hs hinfo
  subst hi
  have hcast : BitVec.ofNat 32 v.toNat = v := by simp
  rw [hcast, bytes32_toNat env.e v, enc32_dec32 _ _ _ hv]

/-- C21 for `SetVerdict`. -/
theorem C21_id_roundtrip_v1 (env : Env) (K : Kernel QEv) (qa verdict plen : U32)
    (packet : Slice) (w : W) (qh : Handle) (hh : w.st.handle = some qh) (hp : packet.Valid w.heap)
    (hl : plen.toNat = packet.len) (h1 : 1 ≤ packet.len) (h2 : packet.len ≤ 65528)
    (h : Heap) (m : AttrMap) (s : Slice) (idOut markOut : Nat) (pkt : Option Slice)
    (hs : m 1 = some s) (hinfo : getPacketInfo env.e h (some m) = .ok (idOut, markOut, pkt)) :
    ∃ b r w' rest, setVerdict env K qa verdict plen (BitVec.ofNat 32 idOut) packet w = .ok ((), w') ∧
      w'.trace = w.trace ++ [.sendmsg qh.fd b r] ∧
      (decodeNf env.e b).map NfMsg.attrs =
        some (⟨2, false, bytes32 .big verdict.toNat ++ (h.bytes s).take 4⟩ :: rest) := by
  obtain ⟨b, r, w', pad, he, ht, _, _, hd⟩ := C18_verdict_partial env K qa verdict plen (BitVec.ofNat 32 idOut)
    packet w qh hh hp hl h1 h2
  refine ⟨b, r, w', [payloadAttr (w.heap.bytes packet ++ List.replicate pad 0)], he, ht, ?_⟩
  rw [hd]
  simp only [Option.map_some, verdictAttr]
  obtain ⟨v, hv, hi⟩ := getPacketInfo_id hs hinfo
  subst hi
  have hcast : BitVec.ofNat 32 v.toNat = v := by simp
  rw [hcast, bytes32_toNat env.e v, enc32_dec32 _ _ _ hv]

/-! ### The caller's memory -/

/-- Every byte of memory outside array `private'` is unchanged, except that bytes at most three
positions behind the end of `packet`, inside its capacity, may have become zero. -/
def OnlyPadded (h h' : Heap) (private' : Nat) (packet : Slice) : Prop :=
  ∀ a i x, (h.arrayOf a)[i]? = some x → a ≠ private' → (h'.arrayOf a)[i]? = some x ∨
    (a = packet.arr ∧ packet.off + packet.len ≤ i ∧ i < packet.off + packet.len + 3 ∧
      i < packet.off + packet.cap ∧ (h'.arrayOf a)[i]? = some 0)

theorem one_byte {h : Heap} {a i : Nat} {x : Byte} (hx : (h.arrayOf a)[i]? = some x) :
    (⟨a, i, 1, 1⟩ : Slice).Valid h ∧ h.bytes ⟨a, i, 1, 1⟩ = [x] := by
  have hlt : i < (h.arrayOf a).length := by
    rw [List.getElem?_eq_some_iff] at hx; exact hx.1
  refine ⟨⟨Nat.le_refl _, by simp; omega⟩, ?_⟩
  unfold Heap.bytes
  simp only
  apply List.ext_getElem?
  intro j
  rw [List.getElem?_take, List.getElem?_drop]
  cases j with
  | zero => simp [hx]
  | succ j => simp

theorem byte_of_one {h : Heap} {a i : Nat} {x : Byte} (hb : h.bytes ⟨a, i, 1, 1⟩ = [x]) :
    (h.arrayOf a)[i]? = some x := by
  have h0 := congrArg (fun l => l[0]?) hb
  simp only [Heap.bytes, List.getElem?_take, List.getElem?_drop] at h0
  simpa using h0

theorem onlyPadded_of {h h' : Heap} {priv : Nat} {packet : Slice} {pad : Nat} (hpad : pad < 4)
    (hm : ∀ t : Slice, t.Valid h → t.arr ≠ priv → t.Valid h' ∧
      ((t.arr ≠ packet.arr ∨ t.off + t.len ≤ packet.off + packet.len ∨
      packet.off + packet.len + pad ≤ t.off ∨ packet.cap < packet.len + pad) → h'.bytes t = h.bytes t))
    (hz : packet.len + pad ≤ packet.cap →
      h'.bytes { packet with len := packet.len + pad } = h.bytes packet ++ zeros pad)
    (hp : packet.Valid h) : OnlyPadded h h' priv packet := by
  intro a i x hx ha
  obtain ⟨hv, hb⟩ := one_byte hx
  by_cases hc : a ≠ packet.arr ∨ i + 1 ≤ packet.off + packet.len ∨ packet.off + packet.len + pad ≤ i ∨
      packet.cap < packet.len + pad
  · left
    have := (hm _ hv ha).2 hc
    rw [hb] at this
    exact byte_of_one this
  · right
    simp only [not_or, Decidable.not_not] at hc
    obtain ⟨c1, c2, c3, c4⟩ := hc
    refine ⟨c1, by omega, by omega, by omega, ?_⟩
    have := congrArg (fun l => l[i - packet.off]?) (hz (by omega))
    simp only [Heap.bytes, List.getElem?_take, List.getElem?_drop] at this
    have hl : (List.take packet.len (List.drop packet.off (h.arrayOf packet.arr))).length = packet.len :=
      Heap.bytes_length hp
    rw [if_pos (by omega), List.getElem?_append_right (by omega), hl] at this
    rw [c1]
    rw [show packet.off + (i - packet.off) = i by omega] at this
    rw [this, zeros, List.getElem?_replicate, if_pos (by omega)]

/-- C27: `SetVerdict2`, for every argument (right or wrong length) and any memory, leaves
every byte of the packet unchanged, and changes no other memory of the caller than at most three bytes right
behind the packet within its capacity, which become zero. -/
theorem C27_verdict2_memory (env : Env) (K : Kernel QEv) (qa verdict mark plen id : U32)
    (packet : Slice) (w w' : W) (qh : Handle) (hV : VReady w qh) (hp : packet.Valid w.heap)
    (hne : packet.arr ≠ w.st.hdrSlice.arr)
    (h : setVerdict2 env K qa verdict mark plen id packet w = .ok ((), w')) :
    w'.heap.bytes packet = w.heap.bytes packet ∧
      OnlyPadded w.heap w'.heap w.st.hdrSlice.arr packet := by
  obtain ⟨r, w2, he, ht, hst, hsv, hm, hz⟩ := setVerdict2_spec env K qa verdict mark plen id packet w qh hV hp hne
  rw [he] at h
  split at h
  · simp at h
  · simp only [Res.ok.injEq, Prod.mk.injEq, true_and] at h
    subst h
    exact ⟨(hm packet hp hne).2 (Or.inr (Or.inl (Nat.le_refl _))), onlyPadded_of (padOf_lt _) hm hz hp⟩

/-- C27 for `SetVerdict`, which writes no private memory at all: any array index may be named as the exempt one. -/
theorem C27_verdict_memory (env : Env) (K : Kernel QEv) (qa verdict plen id : U32)
    (packet : Slice) (w w' : W) (qh : Handle) (hh : w.st.handle = some qh) (hp : packet.Valid w.heap)
    (h : setVerdict env K qa verdict plen id packet w = .ok ((), w')) :
    w'.heap.bytes packet = w.heap.bytes packet ∧ ∀ a, OnlyPadded w.heap w'.heap a packet := by
  obtain ⟨r, w2, beyond, he, ht, hb, hst, hm, hz⟩ := setVerdict_spec env K qa verdict plen id packet w qh hh hp
  rw [he] at h
  split at h
  · simp at h
  · simp only [Res.ok.injEq, Prod.mk.injEq, true_and] at h
    subst h
    exact ⟨(hm packet hp).2 (Or.inr (Or.inl (Nat.le_refl _))),
      fun a => onlyPadded_of (padOf_lt _) (fun t ht _ => hm t ht) hz hp⟩

/-! ### No other memory is sent -/

/-- C28 (`SetVerdict2`): for every stated length, right or wrong, the datagram is a 44-byte head that
does not depend on memory at all, then the bytes of the packet slice, then fewer than four zero bytes. -/
theorem C28_verdict2 : ∃ head : Endian → U16 → U32 → U32 → U32 → U32 → List Byte,
    (∀ e qn v m l id, (head e qn v m l id).length = 44) ∧
    ∀ (env : Env) (K : Kernel QEv) (qa verdict mark plen id : U32)
      (packet : Slice) (w w' : W) (qh : Handle), VReady w qh → packet.Valid w.heap →
      packet.arr ≠ w.st.hdrSlice.arr →
      setVerdict2 env K qa verdict mark plen id packet w = .ok ((), w') →
      ∃ pad r, pad < 4 ∧ w'.trace = w.trace ++ [.sendmsg qh.fd
        (head env.e w.st.queueNum verdict mark plen id ++ w.heap.bytes packet ++ List.replicate pad 0) r] := by
  refine ⟨fun e qn v m l id => v2Head e qn v m id (l.setWidth 16) ++ (enc16 e (l.setWidth 16 + 4) ++ enc16 e 10),
    fun e qn v m l id => by simp, ?_⟩
  intro env K qa verdict mark plen id packet w w' qh hV hp hne h
  obtain ⟨r, w2, he, ht, _⟩ := setVerdict2_spec env K qa verdict mark plen id packet w qh hV hp hne
  rw [he] at h
  split at h
  · simp at h
  · simp only [Res.ok.injEq, Prod.mk.injEq, true_and] at h
    subst h
    exact ⟨padOf (plen.setWidth 16), r, padOf_lt _, by rw [ht]; simp [v2Bytes, zeros, List.append_assoc]⟩

/-- C28 (`SetVerdict`; partial: only when the stated length, modulo 65536, is not beyond the packet): the datagram is a 36-byte head
that does not depend on memory, then an initial part of "the packet, then fewer than four zero bytes". -/
theorem C28_verdict_partial : ∃ head : Endian → U16 → U32 → U32 → U32 → List Byte,
    (∀ e qn v l id, (head e qn v l id).length = 36) ∧
    ∀ (env : Env) (K : Kernel QEv) (qa verdict plen id : U32)
      (packet : Slice) (w w' : W) (qh : Handle), w.st.handle = some qh → packet.Valid w.heap →
      plen.toNat % 65536 ≤ packet.len →
      setVerdict env K qa verdict plen id packet w = .ok ((), w') →
      ∃ pad n r, pad < 4 ∧ w'.trace = w.trace ++ [.sendmsg qh.fd
        (head env.e w.st.queueNum verdict plen id ++
          (w.heap.bytes packet ++ List.replicate pad 0).take n) r] := by
  refine ⟨fun e qn v l id => v1Head e qn v id (l.setWidth 16) ++ (enc16 e (nfaLength (l.setWidth 16)) ++ enc16 e 10),
    fun e qn v l id => by simp, ?_⟩
  intro env K qa verdict plen id packet w w' qh hh hp hle h
  obtain ⟨r, w2, beyond, he, ht, hb, _⟩ := setVerdict_spec env K qa verdict plen id packet w qh hh hp
  rw [he] at h
  split at h
  · simp at h
  · simp only [Res.ok.injEq, Prod.mk.injEq, true_and] at h
    subst h
    have hpl : (plen.setWidth 16).toNat = plen.toNat % 65536 := by rw [BitVec.toNat_setWidth]
    have hpad := padOf_eq (plen.setWidth 16)
    rw [hpl] at hpad
    have hal : (nfaAlign (plen.setWidth 16)).toNat ≤ roundUp4 (plen.toNat % 65536) := by
      rw [nfaAlign_toNat, hpl]; unfold roundUp4; split <;> omega
    have hb0 : beyond = [] := List.length_eq_zero_iff.mp (by
      have := roundUp4_ge (plen.toNat % 65536); omega)
    subst hb0
    exact ⟨padOf (plen.setWidth 16), (nfaAlign (plen.setWidth 16)).toNat, r, padOf_lt _,
      by rw [ht]; simp [v1Bytes, v1Head, zeros, List.append_assoc]⟩

/-! ### Concrete cases -/

/-- A queue with an open socket, a scratch header full of old bytes, and a heap with a packet of three bytes
followed by the application's own data in the same array. -/
def verdictWorld : W :=
  { trace := [], heap := ⟨[List.replicate 40 7, [0x45, 1, 2, 0xaa, 0xbb, 0xcc, 0xdd, 0xee]]⟩
    st := { subscribed := 8, queueNum := 5, callback := none, errorCallback := none, privateData := 0
            handle := some ⟨3, Slice.nil⟩, notification := ⟨100, [], false⟩, buf := Slice.nil, attrs := fun _ => none
            hdrSlice := ⟨0, 0, 40, 40⟩, accepted := 0, dropped := 0, processed := 0 } }

/-- A kernel that accepts everything. -/
def yesKernel : Kernel QEv :=
  { socket := fun _ => .ok 3, bind := fun _ _ => none, setsockopt := fun _ _ => none
    close := fun _ _ => none, send := fun _ _ _ => none, recv := fun _ _ => .ok [] }

example : VReady verdictWorld ⟨3, Slice.nil⟩ := ⟨rfl, ⟨Nat.le_refl _, by decide⟩, rfl⟩
example : (⟨1, 0, 3, 3⟩ : Slice).Valid verdictWorld.heap := ⟨Nat.le_refl _, by decide⟩
example : VCall.Ok verdictWorld.heap ⟨0, 0, 40, 40⟩ (.v2 0 1 9 3 77 ⟨1, 0, 3, 3⟩) :=
  ⟨⟨Nat.le_refl _, by decide⟩, by decide, by decide, by decide⟩
/-- Two calls on the two halves of one array. -/
example : [VCall.v2 0 1 9 3 77 ⟨1, 0, 3, 3⟩, .v1 0 0 2 78 ⟨1, 6, 2, 2⟩].Pairwise Sep := by
  simp [Sep, VCall.packet]

/-- C28 is false for `SetVerdict` told a length beyond the packet: here the packet slice is three
bytes with no spare capacity, the stated length is 8, and the kernel is given the five bytes that follow the
packet in memory, which are not the caller's to send. -/
theorem C28_verdict_overread : ∃ w' head,
    setVerdict someEnv yesKernel 0 1 8 77 ⟨1, 0, 3, 3⟩ verdictWorld = .ok ((), w') ∧
    w'.trace = [.sendmsg 3 (head ++ [0x45, 1, 2, 0xaa, 0xbb, 0xcc, 0xdd, 0xee]) none] ∧
    verdictWorld.heap.bytes ⟨1, 0, 3, 3⟩ = [0x45, 1, 2] := by
  refine ⟨_, v1Head someEnv.e 5 1 77 8 ++ (enc16 someEnv.e 12 ++ enc16 someEnv.e 10), rfl, ?_, rfl⟩
  rfl

/-- C28 is false for every `SetVerdict` call told a length beyond the packet: for every packet that is not empty, has
room for the padding and lies in an array that goes on for the stated length `n` (rounded up to a multiple of four),
the datagram ends with the packet, the padding and the `n - len(packet)` bytes of memory that follow these. -/
theorem C28_overread_violated (env : Env) (K : Kernel QEv) (qa verdict plen id : U32) (packet : Slice)
    (w : W) (qh : Handle) (hh : w.st.handle = some qh) (hp : packet.Valid w.heap) {n pad : Nat}
    (hn : n = plen.toNat % 65536) (hpad : IsRoundUp4 n (n + pad)) (hfit : n + pad < 65536)
    (h0 : 0 < packet.len) (hlong : packet.len < n) (hroom : packet.len + pad ≤ packet.cap)
    (hmem : packet.off + (n + pad) ≤ (w.heap.arrayOf packet.arr).length) :
    ∃ r w' head leaked, setVerdict env K qa verdict plen id packet w = .ok ((), w') ∧
      w'.trace = w.trace ++ [.sendmsg qh.fd (head ++ w.heap.bytes packet ++ List.replicate pad 0 ++ leaked) r] ∧
      head.length = 36 ∧ leaked.length = n - packet.len ∧
      leaked = ((w.heap.arrayOf packet.arr).drop (packet.off + packet.len + pad)).take (n - packet.len) := by
  have hnn : (plen.setWidth 16).toNat = n := by rw [BitVec.toNat_setWidth, hn]
  have hru : roundUp4 n = n + pad := by
    obtain ⟨h1, h2, h3⟩ := hpad
    have := h3 ((n + 3) / 4 * 4) (by omega) (by omega)
    unfold roundUp4
    omega
  have hpo : padOf (plen.setWidth 16) = pad := by rw [padOf_eq, hnn, hru]; omega
  have hal : (nfaAlign (plen.setWidth 16)).toNat = n + pad := by
    have := hru
    unfold roundUp4 at this
    rw [nfaAlign_toNat, hnn, if_pos (by omega)]
    exact hru
  obtain ⟨r, w', beyond, h1, h2, h3, _, _, _, h4⟩ := setVerdict_spec_mem env K qa verdict plen id packet w qh hh hp
  rw [hpo, hal] at h2 h3 h4
  rw [hpo, if_neg (by omega)] at h1
  have hb := h4 hroom hmem
  have hl := Heap.bytes_length hp
  rw [List.take_of_length_le (by simp only [List.length_append, hl, zeros, List.length_replicate]; omega)] at h2
  refine ⟨r, w', v1Head env.e w.st.queueNum verdict id (plen.setWidth 16) ++
    (enc16 env.e (nfaLength (plen.setWidth 16)) ++ enc16 env.e 10), beyond, h1, ?_, by simp, by omega, ?_⟩
  · rw [h2]
    simp only [v1Bytes, v1Head, List.append_assoc, zeros]
  · rw [hb, show n + pad - (packet.len + pad) = n - packet.len by omega, Nat.add_assoc]

/-- Non-vacuous: the case above. -/
example : ∃ r w' head leaked, setVerdict someEnv yesKernel 0 1 8 77 ⟨1, 0, 3, 3⟩ verdictWorld = .ok ((), w') ∧
    w'.trace = [.sendmsg 3 (head ++ [0x45, 1, 2] ++ [] ++ leaked) r] ∧ head.length = 36 ∧ leaked.length = 5 := by
  obtain ⟨r, w', head, leaked, h1, h2, h3, h4, _⟩ := C28_overread_violated someEnv yesKernel 0 1 8 77 ⟨1, 0, 3, 3⟩ verdictWorld
    ⟨3, Slice.nil⟩ rfl ⟨by decide, by decide⟩ (n := 8) (pad := 0) rfl ⟨by decide, by decide, fun m _ h => h⟩ (by decide) (by decide)
    (by decide) (by decide) (by decide)
  exact ⟨r, w', head, leaked, h1, h2, h3, h4⟩

end Verif.Props
