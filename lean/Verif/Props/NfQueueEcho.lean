import Verif.NfQueue.Example
import Verif.Props.NfQueueReceive
/-! C81: the example application accepts every packet it is given, exactly once, unchanged. -/
namespace Verif.Props
open Verif.Common Verif.Sys Verif.Spec Verif.NfQueue

/-- A packet message as the kernel sends it: it consists of attributes, among them an id of at least four
bytes and a payload that is not empty; ids and marks have at least four bytes. -/
def PacketMsg (e : Endian) (d : List Byte) (id : Nat) (payload : List Byte) : Prop :=
  ∃ attrs p, Carries e d attrs ∧ (∀ a ∈ attrs, a.1 = 1 ∨ a.1 = 3 → 4 ≤ a.2.length) ∧
    lastOf 1 attrs = some p ∧ num32 e p 0 = some id ∧ lastOf 10 attrs = some payload ∧ payload ≠ []

/-- What one turn of the receive loop of the example application looks like from outside: a failed receive
(or a kernel error message) and the error callback, nothing sent; or a packet, its callback, and exactly one
message to the kernel, which decodes to: accept (verdict 1) the packet with this id on this queue, with mark 11
and this very payload. -/
def EchoTurn (e : Endian) (fd queue cb ecb priv size : Nat) (g : List (Ev QEv)) : Prop :=
  (∃ r err nf, (∀ d, r = .ok d → ErrMsg e d) ∧ Told e r err ∧
    g = [.recvfrom fd size 0x100 r, .app (.error ecb (.wrap "Netlink error %v" err) nf)]) ∨
  (∃ d id payload mark b r, PacketMsg e d id payload ∧
    g = [.recvfrom fd size 0x100 (.ok d), .app (.packet cb payload mark id priv), .sendmsg fd b r] ∧
    decodeNf e b = some ⟨44 + payload.length, 0x301, 1, 0, 0, 0, 0, queue,
      [⟨2, false, bytes32 .big 1 ++ bytes32 e id⟩, ⟨3, false, bytes32 .big 11⟩, ⟨10, false, payload⟩]⟩)

/-- The queue as the loop finds it at each turn. -/
structure EchoInv (w : W) (qh : Handle) (cb ecb priv size : Nat) (queue : U16) : Prop where
  setup : Setup w qh cb ecb priv size
  attrs : AttrsOk w
  sep : ∀ k s, w.st.attrs k = some s → s.arr ≠ w.st.hdrSlice.arr
  queue : w.st.queueNum = queue

theorem attr_location (e : Endian) (h : Heap) (buf : Slice) (hv : buf.Valid h)
    (hlen : buf.len + 3 < 2 ^ 32) (m m' : AttrMap) (rest : Option Slice) (err : Option Err)
    (hr : netlinkMessageToNfAttrStruct e h buf m = .ok (m', rest, err)) (k : Nat) :
    m' k = m k ∨ ∃ s, m' k = some s ∧ s.arr = buf.arr := by
  obtain ⟨_, _, r3⟩ := (attr_walk_aux e h buf hv hlen buf.len 0 m rfl (by omega)).2 m' rest err hr
  rcases (r3 k).2 with q2 | ⟨j, l, a, b, _, c, d, f⟩
  · exact .inl q2
  · exact .inr ⟨_, f, rfl⟩

theorem num32_lt {e : Endian} {p : List Byte} {i n : Nat} (h : num32 e p i = some n) : n < 2 ^ 32 := by
  unfold num32 at h
  split at h
  · rename_i x y z t _ _ _ _
    have hx := x.isLt; have hy := y.isLt; have hz := z.isLt; have ht := t.isLt
    rw [Option.some.injEq] at h
    cases e <;> simp only at h <;> omega
  · cases h

/-- One turn that receives a packet message. -/
theorem receive_packet {env : Env} {K : Kernel QEv} {w : W} {qh : Handle} {cb : Nat} (hS : Serving w qh)
    (hO : AttrsOk w) (hsep : ∀ k s, w.st.attrs k = some s → s.arr ≠ w.st.hdrSlice.arr)
    (hcb : w.st.callback = some cb) {d0 : List Byte} (hK : K.recv w.trace qh.fd = .ok d0) {id : Nat}
    {payload : List Byte} (hP : PacketMsg env.e (d0.take w.st.buf.len) id payload)
    (hE : ¬ ErrMsg env.e (d0.take w.st.buf.len)) :
    ∃ mark m' s, receiveOne env K w = .ok ((), env.cbEffect ⟨w.trace ++
        [.recvfrom qh.fd w.st.buf.len 0x100 (.ok (d0.take w.st.buf.len)),
          .app (.packet cb payload mark id w.st.privateData)],
        stored w (d0.take w.st.buf.len), { w.st with attrs := m', processed := w.st.processed + 1 }⟩) ∧
      m' 10 = some s ∧ s.Valid (stored w (d0.take w.st.buf.len)) ∧
      (stored w (d0.take w.st.buf.len)).bytes s = payload ∧ (∀ k s, m' k = some s → s.arr ≠ w.st.hdrSlice.arr) ∧
      (∀ k, (m' k).isSome = (w.st.attrs k).isSome) ∧
      (∀ k s, m' k = some s → s.Valid (stored w (d0.take w.st.buf.len)) ∧ (k = 1 ∨ k = 3 → 4 ≤ s.len)) ∧
      s.arr = w.st.buf.arr ∧ w.st.buf.off ≤ s.off ∧
      s.off + s.len ≤ w.st.buf.off + (d0.take w.st.buf.len).length ∧
      (∀ t, m' 3 = some t → be32 ((stored w (d0.take w.st.buf.len)).bytes t) 0 = some mark) ∧
      (∀ attrs, Carries env.e (d0.take w.st.buf.len) attrs →
        match lastOf 3 attrs with
        | none => m' 3 = w.st.attrs 3
        | some p => ∃ t, m' 3 = some t ∧ (stored w (d0.take w.st.buf.len)).bytes t = p ∧ t.arr = w.st.buf.arr ∧
            w.st.buf.off ≤ t.off ∧ t.off + t.len ≤ w.st.buf.off + (d0.take w.st.buf.len).length) := by
  have hle : (d0.take w.st.buf.len).length ≤ w.st.buf.len := by simp; omega
  generalize hd' : d0.take w.st.buf.len = d at hP hE hle ⊢
  obtain ⟨attrs, p, hc, h4, hl1, hid, hl10, hne⟩ := hP
  have hPr := carries_proper hc h4
  rcases recv_step env K w qh hS with ⟨n, hn, _⟩ | ⟨d1, d2, hd1, hd2, _, _, _, hC⟩
  · rw [hK] at hn; cases hn
  rw [hK] at hd1
  cases hd1
  rw [hd'] at hd2
  subst hd2
  obtain ⟨g, he⟩ := hC hPr.1 hE
  obtain ⟨hb, hv⟩ := attrSlice_bytes hS.buf hle hPr.1
  have hs : (attrSlice w d2).len + 3 < 2 ^ 32 := by
    have := hS.small
    show d2.length - 20 + 3 < _
    omega
  have hc' := hc
  obtain ⟨head, h20, hdec, hall⟩ := hc'
  obtain ⟨m', hm', _⟩ := C05_parse_encode env.e _ _ hv hs attrs hall (by rw [hb, hdec, List.drop_left' h20]) w.st.attrs
  rw [hm'] at he
  have hOk := attrsOk_parse hS hO hle hPr hm'
  have hreg := (attrs_parse hS hle hPr.1 hm').1
  obtain ⟨⟨id', mark, pkt⟩, hi⟩ := info_returns (e := env.e) hOk
  obtain ⟨i1, i3, i10⟩ := info_of hi
  have c1 := carried hS hle hm' hc 1 (by simp)
  have c10 := carried hS hle hm' hc 10 (by simp)
  rw [hl1] at c1
  rw [hl10] at c10
  obtain ⟨s1, hs1, hb1⟩ := c1
  obtain ⟨s10, hs10, hb10⟩ := c10
  have hid' : id' = id := by
    have := i1 s1 hs1
    rw [hb1, hid] at this
    exact (Option.some.inj this).symm
  subst hid'
  have hplace : s10.arr = w.st.buf.arr ∧ w.st.buf.off ≤ s10.off ∧ s10.off + s10.len ≤ w.st.buf.off + d2.length := by
    obtain ⟨t, ht, _, t1, t2, t3⟩ := C05_shares_buffer env.e _ _ hv hs attrs hall (by rw [hb, hdec, List.drop_left' h20])
      w.st.attrs m' hm' 10 (by omega) (by rw [hS.reg]; simp) hl10
    rw [hs10] at ht
    cases ht
    have := hPr.1
    simp only [attrSlice] at t1 t2 t3
    exact ⟨t1, by omega, by omega⟩
  refine ⟨mark, m', s10, ?_, hs10, (hOk 10 s10 hs10).1, hb10, ?_, hreg, hOk, hplace.1, hplace.2.1, hplace.2.2, i3, ?_⟩
  · unfold receiveOne
    simp only [GoM.bind_apply, he, Res.ok_bind, getQ]
    simp only [GoM.bind_apply, packetInfoM, hi, Res.ok_bind, modifyQ, hcb]
    simp [emitPacket, runCallback, World.log, i10, hs10, optBytes, hb10]
  · intro k t hk
    rcases attr_location env.e _ _ hv hs _ _ _ _ hm' k with heq | ⟨s, hs', harr⟩
    · rw [hk] at heq
      exact hsep _ _ heq.symm
    · rw [hk] at hs'
      cases hs'
      rw [harr]
      exact hS.sep
  · intro attrs' hc'
    have c3 := carried hS hle hm' hc' 3 (by simp)
    obtain ⟨head', h20', hdec', hall'⟩ := hc'
    cases hl3 : lastOf 3 attrs' with
    | none => rw [hl3] at c3; exact c3
    | some p3 =>
      rw [hl3] at c3
      obtain ⟨t, ht, htb⟩ := c3
      obtain ⟨t', ht', _, t1, t2, t3⟩ := C05_shares_buffer env.e _ _ hv hs attrs' hall'
        (by rw [hb, hdec', List.drop_left' h20']) w.st.attrs m' hm' 3 (by omega) (by rw [hS.reg]; simp) hl3
      rw [ht] at ht'
      cases ht'
      have := hPr.1
      simp only [attrSlice] at t1 t2 t3
      exact ⟨t, ht, htb, t1, by omega, by omega⟩

/-- One turn in which the receive fails or the kernel reports an error. -/
theorem receive_failed {env : Env} {K : Kernel QEv} {w : W} {qh : Handle} {ecb : Nat} (hS : Serving w qh)
    (hecb : w.st.errorCallback = some ecb)
    (hK : (∃ n, K.recv w.trace qh.fd = .error n) ∨
      ∃ d, K.recv w.trace qh.fd = .ok d ∧ 20 ≤ (d.take w.st.buf.len).length ∧ ErrMsg env.e (d.take w.st.buf.len)) :
    ∃ r err h', receiveOne env K w = .ok ((), env.cbEffect ⟨w.trace ++
        [.recvfrom qh.fd w.st.buf.len 0x100 r, .app (.error ecb (.wrap "Netlink error %v" err) none)], h', w.st⟩) ∧
      (∀ d, r = .ok d → ErrMsg env.e d) ∧ Told env.e r err ∧ (∀ t : Slice, t.Valid w.heap → t.Valid h') := by
  rcases recv_step env K w qh hS with ⟨n, hn, he⟩ | ⟨d1, d2, hd1, hd2, hle, _, hB, _⟩
  · refine ⟨.error n, _, w.heap, ?_, (by intro d hd; cases hd), rfl, fun _ h => h⟩
    unfold receiveOne
    simp only [GoM.bind_apply, he, Res.ok_bind, getQ, hecb]
    simp [emit, runCallback, World.log]
  · rcases hK with ⟨n, hn⟩ | ⟨d, hd, h20, hE⟩
    · rw [hd1] at hn; cases hn
    · rw [hd1] at hd
      cases hd
      rw [← hd2] at h20 hE
      obtain ⟨err, hT, he⟩ := hB h20 hE
      refine ⟨.ok d2, err, stored w d2, ?_, (by intro d hd; cases hd; exact hE), hT,
        fun t ht => stored_valid hS.buf hle ht⟩
      unfold receiveOne
      simp only [GoM.bind_apply, he, Res.ok_bind, getQ, hecb]
      simp [emit, runCallback, World.log]

/-- What the kernel sends to the example application: error messages and packets. -/
def Sends (e : Endian) (d : List Byte) : Prop :=
  20 ≤ d.length ∧ ErrMsg e d ∨ ∃ id payload, PacketMsg e d id payload

/-- One turn in which a packet message arrives: the packet is handed over and the verdict sent. -/
theorem decide_packet {env : Env} {K : Kernel QEv} {π : List Byte → U32 × U32} {w : W} {qh : Handle} {cb ecb priv size : Nat} {queue : U16}
    (hI : EchoInv w qh cb ecb priv size queue) {d0 : List Byte} (hr : K.recv w.trace qh.fd = .ok d0) {id : Nat} {payload : List Byte}
    (hP : PacketMsg env.e (d0.take size) id payload) (hE : ¬ ErrMsg env.e (d0.take size)) :
    ∃ w' mark b r, receiveOne (decideEnv env K π) K w = .ok ((), w') ∧ w'.trace = w.trace ++ [.recvfrom qh.fd size 0x100 (.ok (d0.take size)),
        .app (.packet cb payload mark id priv), .sendmsg qh.fd b r] ∧
      decodeNf env.e b = some ⟨44 + payload.length, 0x301, 1, 0, 0, 0, 0, queue.toNat,
        [⟨2, false, bytes32 .big (π payload).1.toNat ++ bytes32 env.e id⟩, ⟨3, false, bytes32 .big (π payload).2.toNat⟩, ⟨10, false, payload⟩]⟩ ∧
      EchoInv w' qh cb ecb priv size queue := by
  obtain ⟨⟨hS, hcb, hecb, rfl, rfl⟩, hO, hsep, rfl⟩ := hI
  have hle : (d0.take w.st.buf.len).length ≤ w.st.buf.len := by simp; omega
  obtain ⟨mark, m', s, h1, h2, h3, h4, h5, h6, h7, _⟩ := receive_packet (env := decideEnv env K π) hS hO hsep hcb hr hP hE
  generalize hd : d0.take w.st.buf.len = d at *
  obtain ⟨attrs, p, hc, h8, hl1, hid, hl10, hne⟩ := hP
  have hpl : payload.length ≤ 65531 ∧ 1 ≤ payload.length := by
    refine ⟨?_, List.length_pos_iff.mpr hne⟩
    obtain ⟨_, _, _, hall⟩ := hc
    unfold lastOf at hl10
    rw [Option.map_eq_some_iff] at hl10
    obtain ⟨a, ha, rfl⟩ := hl10
    exact (hall a ((List.mem_filter.mp (List.mem_of_getLast? ha)).1)).2
  have hsl : s.len = payload.length := by rw [← h4, Heap.bytes_length h3]
  generalize hw1 : (⟨w.trace ++ [.recvfrom qh.fd w.st.buf.len 0x100 (.ok d),
      .app (.packet cb payload mark id w.st.privateData)], stored w d,
      { w.st with attrs := m', processed := w.st.processed + 1 }⟩ : W) = w1 at h1
  have hS1 : Serving w1 qh := by
    rw [← hw1]
    exact hS.after hle rfl rfl rfl rfl h6
  have e1 : w1.heap = stored w d := by rw [← hw1]
  have e2 : w1.st = { w.st with attrs := m', processed := w.st.processed + 1 } := by rw [← hw1]
  have e3 : w1.trace = w.trace ++ [.recvfrom qh.fd w.st.buf.len 0x100 (.ok d),
      .app (.packet cb payload mark id w.st.privateData)] := by rw [← hw1]
  obtain ⟨r, w2, hv, ht, hst, hhdr, hmem⟩ := setVerdict2_spec env K (w1.st.queueNum.setWidth 32) (π payload).1 (π payload).2
    (BitVec.ofNat 32 s.len) (BitVec.ofNat 32 id) s w1 qh ⟨hS1.handle, hS1.hdr, hS1.hdr40⟩
    (by rw [e1]; exact h3) (by rw [e2]; exact h5 10 s h2)
  rw [if_neg (by omega)] at hv
  have hcb' : (decideEnv env K π).cbEffect w1 = w2 := by
    show decideCallback env K π w1 = w2
    unfold decideCallback
    have hlast : w1.trace.getLast? = some (.app (.packet cb payload mark id w.st.privateData)) := by
      rw [e3]; simp
    have hat : (w1.st.attrs 10).getD Slice.nil = s := by rw [e2]; simp [h2]
    rw [hlast]
    simp only [hat, hv]
  rw [hcb'] at h1
  have hidlt := num32_lt hid
  have hlen32 : (BitVec.ofNat 32 s.len).setWidth 16 = BitVec.ofNat 16 s.len := by
    apply BitVec.eq_of_toNat_eq
    rw [BitVec.toNat_setWidth, BitVec.toNat_ofNat, BitVec.toNat_ofNat]
    omega
  refine ⟨w2, mark, v2Bytes env.e w.st.queueNum (π payload).1 (π payload).2 (BitVec.ofNat 32 id)
      (BitVec.ofNat 16 s.len) payload, r, h1, ?_, ?_, ?_⟩
  · rw [ht, e3, e1, h4, e2, hlen32]; simp
  · have hdec := v2_decodes env.e w.st.queueNum (π payload).1 (π payload).2 (BitVec.ofNat 32 id) (BitVec.ofNat 16 s.len) payload
      (by rw [BitVec.toNat_ofNat]; omega) (by omega)
    rw [hdec]
    have : (BitVec.ofNat 32 id).toNat = id := by rw [BitVec.toNat_ofNat]; exact Nat.mod_eq_of_lt hidlt
    rw [this]
    rfl
  · have hval : ∀ t : Slice, t.Valid (stored w d) → t.arr ≠ w.st.hdrSlice.arr → t.Valid w2.heap := by
      intro t ht1 ht2
      refine (hmem.1 t (by rw [e1]; exact ht1) ?_).1
      rw [e2]; exact ht2
    refine ⟨⟨⟨by rw [hst]; exact hS1.handle, ?_, by rw [hst]; exact hS1.small, by rw [hst]; exact hhdr,
      by rw [hst]; exact hS1.hdr40, by rw [hst]; exact hS1.sep, by rw [hst]; exact hS1.reg⟩,
      by rw [hst, e2]; exact hcb, by rw [hst, e2]; exact hecb, by rw [hst, e2], by rw [hst, e2]⟩, ?_, ?_,
      by rw [hst, e2]⟩
    · rw [hst, e2]
      exact hval _ (stored_valid hS.buf hle hS.buf) hS.sep
    · intro k t hk
      rw [hst, e2] at hk
      exact ⟨hval t (h7 k t hk).1 (h5 k t hk), (h7 k t hk).2⟩
    · intro k t hk
      rw [hst, e2] at hk ⊢
      exact h5 k t hk

/-- The same for the example. -/
theorem echo_packet {env : Env} {K : Kernel QEv} {w : W} {qh : Handle} {cb ecb priv size : Nat} {queue : U16}
    (hI : EchoInv w qh cb ecb priv size queue) {d0 : List Byte} (hr : K.recv w.trace qh.fd = .ok d0) {id : Nat} {payload : List Byte}
    (hP : PacketMsg env.e (d0.take size) id payload) (hE : ¬ ErrMsg env.e (d0.take size)) :
    ∃ w' mark b r, receiveOne (echoEnv env K) K w = .ok ((), w') ∧ w'.trace = w.trace ++ [.recvfrom qh.fd size 0x100 (.ok (d0.take size)),
        .app (.packet cb payload mark id priv), .sendmsg qh.fd b r] ∧
      decodeNf env.e b = some ⟨44 + payload.length, 0x301, 1, 0, 0, 0, 0, queue.toNat,
        [⟨2, false, bytes32 .big 1 ++ bytes32 env.e id⟩, ⟨3, false, bytes32 .big 11⟩, ⟨10, false, payload⟩]⟩ ∧
      EchoInv w' qh cb ecb priv size queue :=
  decide_packet (π := fun _ => (1, 11)) hI hr hP hE

theorem echo_turn {env : Env} {K : Kernel QEv} {w : W} {qh : Handle} {cb ecb priv size : Nat} {queue : U16}
    (hI : EchoInv w qh cb ecb priv size queue)
    (hK : ∀ d, K.recv w.trace qh.fd = .ok d → Sends env.e (d.take size)) :
    ∃ w' g, receiveOne (echoEnv env K) K w = .ok ((), w') ∧ w'.trace = w.trace ++ g ∧
      EchoTurn env.e qh.fd queue.toNat cb ecb priv size g ∧ EchoInv w' qh cb ecb priv size queue := by
  obtain ⟨⟨hS, hcb, hecb, rfl, rfl⟩, hO, hsep, rfl⟩ := hI
  by_cases hF : (∃ n, K.recv w.trace qh.fd = .error n) ∨
      ∃ d, K.recv w.trace qh.fd = .ok d ∧ 20 ≤ (d.take w.st.buf.len).length ∧ ErrMsg env.e (d.take w.st.buf.len)
  · obtain ⟨r, err, h', h1, h2, hT, h3⟩ := receive_failed (env := echoEnv env K) hS hecb hF
    have hcb' : (echoEnv env K).cbEffect ⟨w.trace ++ [.recvfrom qh.fd w.st.buf.len 0x100 r,
        .app (.error ecb (.wrap "Netlink error %v" err) none)], h', w.st⟩ = ⟨w.trace ++ [.recvfrom qh.fd w.st.buf.len 0x100 r,
        .app (.error ecb (.wrap "Netlink error %v" err) none)], h', w.st⟩ := by
      show echoCallback env K _ = _
      unfold echoCallback
      simp
    rw [hcb'] at h1
    refine ⟨_, _, h1, rfl, .inl ⟨r, err, none, h2, hT, rfl⟩, ⟨⟨⟨hS.handle, h3 _ hS.buf, hS.small, h3 _ hS.hdr, hS.hdr40,
      hS.sep, hS.reg⟩, hcb, hecb, rfl, rfl⟩, ?_, hsep, rfl⟩⟩
    intro k s hk
    exact ⟨h3 _ (hO k s hk).1, (hO k s hk).2⟩
  · cases hr : K.recv w.trace qh.fd with
    | error n => exact absurd (.inl ⟨n, hr⟩) hF
    | ok d0 =>
      have hsend := hK d0 hr
      rcases hsend with ⟨a, b⟩ | ⟨id, payload, hP⟩
      · exact absurd (.inr ⟨d0, hr, a, b⟩) hF
      have h20 : 20 ≤ (d0.take w.st.buf.len).length := by
        obtain ⟨attrs, p, hc, h4, _⟩ := hP
        exact (carries_proper hc h4).1
      have hE : ¬ ErrMsg env.e (d0.take w.st.buf.len) := fun hE => hF (.inr ⟨d0, hr, h20, hE⟩)
      have hle : (d0.take w.st.buf.len).length ≤ w.st.buf.len := by simp; omega
      obtain ⟨w2, mark, b, r, h1, h2, h3, h4⟩ := echo_packet (w := w) (ecb := ecb) ⟨⟨hS, hcb, hecb, rfl, rfl⟩, hO, hsep, rfl⟩ hr hP hE
      exact ⟨w2, _, h1, h2, .inr ⟨_, id, payload, mark, b, r, hP, rfl, h3⟩, h4⟩

theorem echo_loop {env : Env} {K : Kernel QEv} {qh : Handle} {cb ecb priv size : Nat} {queue : U16}
    (n : Nat) : ∀ w : W,
    (∀ evs d, K.recv (w.trace ++ evs) qh.fd = .ok d → Sends env.e (d.take size)) →
    EchoInv w qh cb ecb priv size queue →
    ∃ (fin : Bool) (w' : W) (gs : List (List (Ev QEv))) (closes : List (Ev QEv)), processPackets (echoEnv env K) K n w = .ok (fin, w') ∧
      w'.trace = w.trace ++ (gs.flatten ++ closes) ∧
      (∀ g ∈ gs, EchoTurn env.e qh.fd queue.toNat cb ecb priv size g) ∧
      (fin = true → CloseEvs qh.fd closes) ∧ (fin = false → closes = [] ∧ gs.length = n) := by
  induction n with
  | zero => intro w _ _; exact ⟨false, w, [], [], rfl, by simp, by simp, by simp, by simp⟩
  | succ n ih =>
    intro w hK hI
    by_cases hd : (echoEnv env K).ctxDone w.trace = true
    · obtain ⟨closes, hc, hce⟩ := nfqClose_spec K hI.setup.serving.handle
      refine ⟨true, { w with trace := w.trace ++ closes }, [], closes, ?_, ?_, by simp, fun _ => hce, by simp⟩
      · unfold processPackets
        simp only [GoM.bind_apply, processIter, if_pos hd, hc, Res.ok_bind, GoM.pure_apply, if_true]
      · simp
    · obtain ⟨w1, g, h1, h2, h3, h4⟩ := echo_turn hI
        (fun d hd => hK [] d (by simpa using hd))
      obtain ⟨fin, w', gs, closes, i1, i2, i3, i4, i5⟩ := ih w1
        (fun evs d hd => hK (g ++ evs) d (by rw [← List.append_assoc, ← h2]; exact hd)) h4
      refine ⟨fin, w', g :: gs, closes, ?_, ?_, ?_, i4, fun hf => ⟨(i5 hf).1, by simp [(i5 hf).2]⟩⟩
      · unfold processPackets
        simp only [GoM.bind_apply, processIter, if_neg hd, h1, Res.ok_bind, GoM.pure_apply, Bool.false_eq_true, if_false]
        exact i1
      · rw [i2, h2]; simp
      · intro x hx
        rcases List.mem_cons.mp hx with rfl | hx
        · exact h3
        · exact i3 x hx

/-- Right after a successful start the queue is in the state the loop needs. -/
theorem started_echo (env : Env) (K : Kernel QEv) (queueID : U16) (maxLen size : U32) (cb ecb pd : Nat) (w w' : W)
    (h : createAndStart env K queueID maxLen size (some cb) (some ecb) pd w = .ok (none, w')) :
    ∃ qh, EchoInv w' qh cb ecb pd 76800 queueID := by
  obtain ⟨qh, hS, hO, _⟩ := started_setup env K queueID maxLen size cb ecb pd w w' h
  obtain ⟨evs, ht, ho, hc⟩ := start_spec env K queueID maxLen size (some cb) (some ecb) pd w w' none h
  obtain ⟨⟨c1, c2, c3, c4⟩, qh', hR, _, hz, hbuf, hhdr, hattrs, _⟩ := hc rfl
  refine ⟨qh, hS, hO, ?_, c1⟩
  intro k s hk
  rw [hattrs] at hk
  rw [hhdr]
  simp only [newNFQueue, Heap.mk'] at hk ⊢
  by_cases k1 : k = 1
  · simp [k1] at hk; subst hk; simp
  by_cases k3 : k = 3
  · simp [k3] at hk; subst hk; simp
  by_cases k10 : k = 10
  · simp [k10] at hk; subst hk; simp
  simp [k1, k3, k10] at hk

/-- C81. For every kernel that, once the queue is started, sends packet and error messages on its socket (and
may fail any call), and any number of iterations: the example application, started on a queue, never crashes, and answers every
packet with exactly one message: accept, with the packet's id, mark 11 and the unchanged packet, on its queue;
nothing else is sent. -/
theorem C81_echo (env : Env) (K : Kernel QEv) (queueID : U16) (maxLen size : U32) (cb ecb pd : Nat) (w0 w : W)
    (hstart : createAndStart (echoEnv env K) K queueID maxLen size (some cb) (some ecb) pd w0 = .ok (none, w))
    (hK : ∀ evs fd d, K.recv (w.trace ++ evs) fd = .ok d → Sends env.e (d.take 76800)) (n : Nat) :
    ∃ (qh : Handle) (fin : Bool) (w' : W) (gs : List (List (Ev QEv))) (closes : List (Ev QEv)), w.st.handle = some qh ∧ processPackets (echoEnv env K) K n w = .ok (fin, w') ∧
      w'.trace = w.trace ++ (gs.flatten ++ closes) ∧
      (∀ g ∈ gs, EchoTurn env.e qh.fd queueID.toNat cb ecb pd 76800 g) ∧
      (fin = true → CloseEvs qh.fd closes) ∧ (fin = false → closes = [] ∧ gs.length = n) := by
  obtain ⟨qh, hI⟩ := started_echo (echoEnv env K) K queueID maxLen size cb ecb pd w0 w hstart
  obtain ⟨fin, w', gs, closes, h1, h2, h3, h4, h5⟩ := echo_loop n w (fun evs d => hK evs qh.fd d) hI
  exact ⟨qh, fin, w', gs, closes, hI.setup.serving.handle, h1, h2, h3, h4, h5⟩

/-- A kernel that answers everything with the packet `dgram1` (id 1, mark 7, payload 1 2 3 4); as a reply to
the configuration requests it passes for an acknowledgement. -/
def packetKernel : Kernel QEv := { yesKernel with recv := fun _ _ => .ok dgram1 }

theorem dgram1_msg : PacketMsg .little dgram1 1 [1, 2, 3, 4] :=
  ⟨[(1, [1, 0, 0, 0]), (3, [0, 0, 0, 7]), (10, [1, 2, 3, 4])], [1, 0, 0, 0], ⟨zeros 20, rfl, rfl, by decide⟩,
    by decide, rfl, rfl, rfl, by decide⟩

/-- C81, non-vacuous: with that kernel the queue starts, and the hypothesis holds. -/
theorem C81_example (w0 : W) : ∃ w, createAndStart (echoEnv someEnv packetKernel) packetKernel 10 2000 0xffff
      (some 1) (some 2) 0 w0 = .ok (none, w) ∧
    ∀ evs fd d, packetKernel.recv (w.trace ++ evs) fd = .ok d → Sends someEnv.e (d.take 76800) := by
  obtain ⟨w, hw⟩ := C15_starts (echoEnv someEnv packetKernel) packetKernel 10 2000 0xffff (some 1) (some 2) 0 w0
    3 rfl (fun _ => rfl) (fun _ _ => rfl)
    (fun _ => ⟨dgram1, rfl, by decide, by decide, by unfold Refusal; decide⟩)
  refine ⟨w, hw, fun evs fd d hd => ?_⟩
  cases hd
  rw [List.take_of_length_le (by decide)]
  exact .inr ⟨1, [1, 2, 3, 4], dgram1_msg⟩

end Verif.Props
