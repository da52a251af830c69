import Verif.NfQueue.Lemmas
/-! The configuration calls reduce to one query with a well-formed request. -/
namespace Verif.NfQueue
open Common Sys Spec

/-- A configuration message with one attribute. -/
def cfgMsg (e : Endian) (rid at' len : U16) (payload : List Byte) : NetlinkMessage :=
  ⟨⟨24 + len.setWidth 32, 0x302, 5, 0, 0⟩,
   ([0, 0] ++ enc16 .big rid) ++ (enc16 e (len + 4) ++ enc16 e at' ++ payload)⟩

theorem unbindPf_eq (env : Env) (K : Kernel QEv) :
    unbindPf env K = queryOrFail env K (cfgMsg env.e 0 1 4 [4, 116, 0, 2]) := by
  unfold unbindPf; rcases env with ⟨e, _⟩; cases e <;> rfl

theorem bindPf_eq (env : Env) (K : Kernel QEv) :
    bindPf env K = queryOrFail env K (cfgMsg env.e 0 1 4 [3, 0, 0, 2]) := by
  unfold bindPf; rcases env with ⟨e, _⟩; cases e <;> rfl

theorem createQueue_eq (env : Env) (K : Kernel QEv) (num : U16) (cb ecb : Option Nat) (pd : Nat) (w : W) :
    createQueue env K num cb ecb pd w = queryOrFail env K (cfgMsg env.e num 1 4 [1, 0, 0, 0])
      { w with st := { w.st with queueNum := num, callback := cb, errorCallback := ecb, privateData := pd } } := by
  unfold createQueue; rcases env with ⟨e, _⟩; cases e <;> rfl

theorem nfqSetMode_eq (env : Env) (K : Kernel QEv) (mode : U64) (size : U32) (w : W) :
    nfqSetMode env K mode size w = queryOrFail env K (cfgMsg env.e w.st.queueNum 2 8
      (enc32 .big size ++ [mode.setWidth 8, 0, 0, 0])) w := by
  unfold nfqSetMode; rcases env with ⟨e, _⟩; cases e <;> rfl

theorem nfqSetQueueMaxLen_eq (env : Env) (K : Kernel QEv) (n : U32) (w : W) :
    nfqSetQueueMaxLen env K n w
      = queryOrFail env K (cfgMsg env.e w.st.queueNum 3 4 (enc32 .big n)) w := by
  unfold nfqSetQueueMaxLen; rcases env with ⟨e, _⟩; cases e <;> rfl

theorem nfqDestroyQueue_eq (env : Env) (K : Kernel QEv) (w : W) :
    nfqDestroyQueue env K w
      = queryOrFail env K (cfgMsg env.e w.st.queueNum 1 4 [2, 0, 0, 0]) w := by
  unfold nfqDestroyQueue; rcases env with ⟨e, _⟩; cases e <;> rfl

theorem cfgMsg_decodes (e : Endian) (rid at' len : U16) (payload : List Byte)
    (hlen : len.toNat = payload.length) (h4 : len.toNat + 4 < 65536) (hat : at'.toNat < 16384) :
    let b := hdrBytes e (cfgMsg e rid at' len payload).header ++ (cfgMsg e rid at' len payload).data
    decodeNf e b = some ⟨b.length, 3 * 256 + 2, 5, 0, 0, 0, 0, rid.toNat, [⟨at'.toNat, false, payload⟩]⟩ := by
  have hl4 : (len + 4).toNat = payload.length + 4 := by
    rw [BitVec.toNat_add]; show (len.toNat + 4) % 65536 = _; omega
  have hda := decodeAttrs_last e (len + 4) at' payload hl4
  have hhl : ((24 : U32) + len.setWidth 32).toNat = 24 + payload.length := by
    rw [BitVec.toNat_add, BitVec.toNat_setWidth]
    show (24 + len.toNat % 4294967296) % 4294967296 = _; omega
  have := decodeNf_parts e ⟨24 + len.setWidth 32, 0x302, 5, 0, 0⟩ 0 0 rid
    (enc16 e (len + 4) ++ enc16 e at' ++ payload) [] _ (by simp only [hhl]; simp; omega) hda
  intro b
  have hb : b = hdrBytes e ⟨24 + len.setWidth 32, 0x302, 5, 0, 0⟩ ++ ([0, 0] ++ enc16 .big rid)
      ++ (enc16 e (len + 4) ++ enc16 e at' ++ payload) ++ [] := by
    simp [b, cfgMsg]
  have hbl : b.length = 24 + payload.length := by rw [hb]; simp; omega
  rw [hb, this, ← hb, hbl, hhl]
  have h1 : at'.toNat % 16384 = at'.toNat := Nat.mod_eq_of_lt hat
  have h2 : at'.toNat / 32768 % 2 = 0 := by omega
  rw [h1, h2]
  rfl

theorem num32_enc32_big (v : U32) (rest : List Byte) : num32 .big (enc32 .big v ++ rest) 0 = some v.toNat :=
  num32_eq .big _ 0 v (by simp)

theorem enc_pfUnbind (e : Endian) : Encodes e
    (hdrBytes e (cfgMsg e 0 1 4 [4, 116, 0, 2]).header ++ (cfgMsg e 0 1 4 [4, 116, 0, 2]).data) .pfUnbind :=
  ⟨1, _, cfgMsg_decodes e 0 1 4 [4, 116, 0, 2] rfl (by decide) (by decide), rfl, rfl, rfl, rfl⟩
theorem enc_pfBind (e : Endian) : Encodes e
    (hdrBytes e (cfgMsg e 0 1 4 [3, 0, 0, 2]).header ++ (cfgMsg e 0 1 4 [3, 0, 0, 2]).data) .pfBind :=
  ⟨1, _, cfgMsg_decodes e 0 1 4 [3, 0, 0, 2] rfl (by decide) (by decide), rfl, rfl, rfl, rfl⟩
theorem enc_bind (e : Endian) (q : U16) : Encodes e
    (hdrBytes e (cfgMsg e q 1 4 [1, 0, 0, 0]).header ++ (cfgMsg e q 1 4 [1, 0, 0, 0]).data) (.bindQueue q.toNat) :=
  ⟨1, _, cfgMsg_decodes e q 1 4 [1, 0, 0, 0] rfl (by decide) (by decide), rfl, rfl, rfl, rfl⟩
theorem enc_unbind (e : Endian) (q : U16) : Encodes e
    (hdrBytes e (cfgMsg e q 1 4 [2, 0, 0, 0]).header ++ (cfgMsg e q 1 4 [2, 0, 0, 0]).data) (.unbindQueue q.toNat) :=
  ⟨1, _, cfgMsg_decodes e q 1 4 [2, 0, 0, 0] rfl (by decide) (by decide), rfl, rfl, rfl, rfl⟩
theorem enc_mode (e : Endian) (q : U16) (mode : U64) (size : U32) : Encodes e
    (hdrBytes e (cfgMsg e q 2 8 (enc32 .big size ++ [mode.setWidth 8, 0, 0, 0])).header
      ++ (cfgMsg e q 2 8 (enc32 .big size ++ [mode.setWidth 8, 0, 0, 0])).data)
    (.setMode q.toNat (mode.toNat % 256) size.toNat) :=
  ⟨2, _, cfgMsg_decodes e q 2 8 _ (by simp) (by decide) (by decide), rfl, num32_enc32_big _ _, by
    simp [enc32]⟩
theorem enc_maxLen (e : Endian) (q : U16) (n : U32) : Encodes e
    (hdrBytes e (cfgMsg e q 3 4 (enc32 .big n)).header ++ (cfgMsg e q 3 4 (enc32 .big n)).data)
    (.setMaxLen q.toNat n.toNat) :=
  ⟨3, _, cfgMsg_decodes e q 3 4 _ (by simp) (by decide) (by decide), rfl, by simp, by
    simpa using num32_enc32_big n []⟩

/-- All arrays have the same lengths in both memories. -/
def SameShape (h h' : Heap) : Prop := ∀ a, (h.arrayOf a).length = (h'.arrayOf a).length

theorem SameShape.valid {h h' : Heap} (hs : SameShape h h') {s : Slice} (hv : s.Valid h) : s.Valid h' :=
  ⟨hv.1, by rw [← hs]; exact hv.2⟩

/-- A configuration call on an open socket is one exchange, and leaves the package state alone. -/
theorem exchange_of_query {env : Env} {K : Kernel QEv} {msg : NetlinkMessage} {req : QReq} {w w' : W}
    {qh : Handle} {r : Option Err} (hR : Ready w qh)
    (henc : Encodes env.e (hdrBytes env.e msg.header ++ msg.data) req)
    (h : queryOrFail env K msg w = .ok (r, w')) :
    ∃ evs, Exchange env.e qh.fd qh.buf.len req r evs ∧ w'.trace = w.trace ++ evs ∧ w'.st = w.st ∧
      Ready w' qh ∧ SameShape w.heap w'.heap ∧ ∀ a, a ≠ qh.buf.arr → w'.heap.arrayOf a = w.heap.arrayOf a := by
  obtain ⟨h1, h2, h3⟩ := hR
  have hq : queryOrFail env K msg w = qh.query env K msg w := by
    unfold queryOrFail
    simp only [GoM.bind_apply, getQ, Res.ok_bind, h1]
  rw [hq] at h
  obtain ⟨evs, q1, q2, q3, q4⟩ := query_spec env K qh msg w h2 h3 r w' h
  have hz : SameShape w.heap w'.heap := by
    rcases q4 with q4 | ⟨d, hd, q4⟩
    · rw [q4]; intro a; rfl
    · rw [q4]
      intro a
      exact (Heap.arrayOf_length_write (by have := h2.1; have := h2.2; omega)).symm
  refine ⟨evs, ⟨_, henc, q1⟩, q2, q3, ⟨by rw [q3]; exact h1, hz.valid h2, h3⟩, hz, ?_⟩
  intro a ha
  rcases q4 with q4 | ⟨d, hd, q4⟩
  · rw [q4]
  · rw [q4, Heap.arrayOf_write_ne (fun h => ha h.symm)]

/-- It returns whenever replies have between 20 bytes and one byte less than the buffer. -/
theorem queryOrFail_returns {env : Env} {K : Kernel QEv} (msg : NetlinkMessage) {w : W}
    {qh : Handle} (hR : Ready w qh)
    (hk : ∀ evs d, K.recv (w.trace ++ evs) qh.fd = .ok d → 20 ≤ d.length ∧ d.length < qh.buf.len) :
    ∃ r w', queryOrFail env K msg w = .ok (r, w') := by
  obtain ⟨h1, h2, h3⟩ := hR
  have hq : queryOrFail env K msg w = qh.query env K msg w := by
    unfold queryOrFail
    simp only [GoM.bind_apply, getQ, Res.ok_bind, h1]
  rw [hq]
  exact query_returns env K qh msg w h2 h3 hk

theorem queryOrFail_closed {env : Env} {K : Kernel QEv} (msg : NetlinkMessage) {w : W}
    (h : w.st.handle = none) : ∃ err, queryOrFail env K msg w = .ok (some err, w) := by
  unfold queryOrFail
  simp only [GoM.bind_apply, getQ, Res.ok_bind, h]
  exact ⟨_, rfl⟩

end Verif.NfQueue
