import Verif.NfQueue.Concurrent
/-!
The receive loop as one more goroutine beside those giving verdicts: one turn of the `default` branch of
`ProcessPackets` (nfqueue/nfqueue.go:479-502), cut at the system call, after decoding, and before the callback.

Simplifications: decoding one datagram is one step (only the reader writes the receive buffer and the attribute map; see
`Rd.mono` in `Props/NfQueueServe.lean` for why verdict calls cannot be seen in between); the context is never cancelled.
-/
namespace Verif.NfQueue
open Common Sys Spec Props

/-- Where the reader is inside its turn, with the locals still needed. -/
inductive RPc where
  | idle
  /-- `n` bytes have been received into `buf` -/
  | got (buf : Slice) (n : Nat)
  /-- `Recv` has returned -/
  | parsed (g : Option NfqGenMsg) (a : Option AttrMap) (err : Option Err)
  /-- `GetPacketInfo` has returned and the packet has been counted -/
  | ready (id mark : Nat) (pkt : Option Slice)

/-- One step of the reader: nfqueue/nfqueue.go:443-449 (receive), 450-470 (decode), 480-493 (error callback, or
look up and count), 494-501 (packet callback). -/
noncomputable def rstep (env : Env) (K : Kernel QEv) : RPc → M RPc
  | .idle => do
    let q ← getQ
    match q.handle with
    | none => GoM.panic
    | some qh =>
      match ← recvInto K qh.fd q.buf 0x100 with
      | .error n => pure (.parsed none none (some (.wrap "Unable to read from socket %v" (.errno n))))
      | .ok n => pure (.got q.buf n)
  | .got buf n => do
    let (g, a, err) ← decodeM env buf n
    pure (.parsed g a err)
  | .parsed g a err => do
    let q ← getQ
    match err, q.errorCallback with
    | some err, some ecb =>
      emit (.error ecb (.wrap "Netlink error %v" err) g)
      runCallback env
      pure .idle
    | _, _ =>
      let (id, mark, packet) ← packetInfoM env a
      modifyQ fun q => { q with processed := q.processed + 1 }
      pure (.ready id mark packet)
  | .ready id mark packet => do
    let q ← getQ
    match q.callback with
    | none => GoM.panic
    | some cb =>
      emitPacket cb packet mark id q.privateData
      runCallback env
      pure .idle

/-- The reader running alone, `n` steps. -/
noncomputable def rrun (env : Env) (K : Kernel QEv) : Nat → RPc → M RPc
  | 0, pc => pure pc
  | n + 1, pc => do
    let pc' ← rstep env K pc
    rrun env K n pc'

/-- Left alone, the reader does in two, three or four steps exactly what one turn of the loop does. -/
theorem reader_alone (env : Env) (K : Kernel QEv) (w : W) :
    ∃ k, 2 ≤ k ∧ k ≤ 4 ∧ rrun env K k .idle w = (receiveOne env K w >>= fun x => .ok (.idle, x.2)) := by
  have tail : ∀ (g a err) (w1 : W), recv env K w = .ok ((g, a, err), w1) →
      ∃ k, 1 ≤ k ∧ k ≤ 2 ∧ rrun env K k (.parsed g a err) w1 = (receiveOne env K w >>= fun x => .ok (.idle, x.2)) := by
    intro g a err w1 hr
    have hpk : ((do
          let (id, mark, packet) ← packetInfoM env a
          modifyQ fun q => { q with processed := q.processed + 1 }
          pure (.ready id mark packet) : M RPc) w1 >>= fun x => rrun env K 1 x.1 x.2) =
        ((do
          let (id, mark, packet) ← packetInfoM env a
          modifyQ fun q => { q with processed := q.processed + 1 }
          match w1.st.callback with
          | none => GoM.panic
          | some cb =>
            emitPacket cb packet mark id w1.st.privateData
            runCallback env : M Unit) w1 >>= fun x => .ok (.idle, x.2)) := by
      simp only [GoM.bind_apply, packetInfoM]
      rcases getPacketInfo env.e w1.heap a with ⟨id, mark, pkt⟩ | _ | _
      · simp only [Res.ok_bind, modifyQ, GoM.pure_apply, rrun, rstep, GoM.bind_apply, getQ]
        cases w1.st.callback with
        | none => rfl
        | some cb => rfl
      · rfl
      · rfl
    have hl : receiveOne env K w = (match err, w1.st.errorCallback with
        | some err, some ecb => (do
          emit (.error ecb (.wrap "Netlink error %v" err) g)
          runCallback env : M Unit)
        | _, _ => (do
          let (id, mark, packet) ← packetInfoM env a
          modifyQ fun q => { q with processed := q.processed + 1 }
          match w1.st.callback with
          | none => GoM.panic
          | some cb =>
            emitPacket cb packet mark id w1.st.privateData
            runCallback env : M Unit)) w1 := by
      unfold receiveOne
      simp only [GoM.bind_apply, hr, Res.ok_bind, getQ]
      rfl
    rw [hl]
    clear hl hr
    have hrr : ∀ k, rrun env K (k + 1) (.parsed g a err) w1 = ((match err, w1.st.errorCallback with
        | some err, some ecb => (do
          emit (.error ecb (.wrap "Netlink error %v" err) g)
          runCallback env
          pure .idle : M RPc)
        | _, _ => (do
          let (id, mark, packet) ← packetInfoM env a
          modifyQ fun q => { q with processed := q.processed + 1 }
          pure (.ready id mark packet) : M RPc)) w1 >>= fun x => rrun env K k x.1 x.2) := by
      intro k
      simp only [rrun, rstep, GoM.bind_apply, getQ, Res.ok_bind]
    cases err with
    | none => exact ⟨2, by omega, by omega, (hrr 1).trans hpk⟩
    | some e =>
      cases hecb : w1.st.errorCallback with
      | none =>
        rw [hecb] at hrr
        exact ⟨2, by omega, by omega, (hrr 1).trans hpk⟩
      | some ecb =>
        rw [hecb] at hrr
        exact ⟨1, by omega, by omega, (hrr 0).trans rfl⟩
  have h1 : ∀ (n : Nat) (pc : RPc) (w1 : W), rstep env K .idle w = .ok (pc, w1) →
      rrun env K (n + 1) .idle w = rrun env K n pc w1 := by
    intro n pc w1 h
    simp only [rrun, GoM.bind_apply, h, Res.ok_bind]
  have fail : rstep env K .idle w = .panic → recv env K w = .panic →
      ∃ k, 2 ≤ k ∧ k ≤ 4 ∧ rrun env K k .idle w = (receiveOne env K w >>= fun x => .ok (.idle, x.2)) := by
    intro ha hb
    refine ⟨2, by omega, by omega, ?_⟩
    unfold receiveOne
    simp only [rrun, GoM.bind_apply, ha, hb, Res.panic_bind]
  have stuck : rstep env K .idle w = .diverge → recv env K w = .diverge →
      ∃ k, 2 ≤ k ∧ k ≤ 4 ∧ rrun env K k .idle w = (receiveOne env K w >>= fun x => .ok (.idle, x.2)) := by
    intro ha hb
    refine ⟨2, by omega, by omega, ?_⟩
    unfold receiveOne
    simp only [rrun, GoM.bind_apply, ha, hb, Res.diverge_bind]
  cases hq : w.st.handle with
  | none =>
    apply fail
    · simp only [rstep, GoM.bind_apply, getQ, Res.ok_bind, hq]; rfl
    · unfold recv
      simp only [GoM.bind_apply, getQ, Res.ok_bind, hq]; rfl
  | some qh =>
    rcases hr : recvInto K qh.fd w.st.buf 0x100 w with ⟨r, w1⟩ | _ | _
    · cases r with
      | error n =>
        have hrs : rstep env K .idle w = .ok (.parsed none none (some (.wrap "Unable to read from socket %v" (.errno n))), w1) := by
          simp only [rstep, GoM.bind_apply, getQ, Res.ok_bind, hq, hr]; rfl
        have hrv : recv env K w = .ok ((none, none, some (.wrap "Unable to read from socket %v" (.errno n))), w1) := by
          unfold recv
          simp only [GoM.bind_apply, getQ, Res.ok_bind, hq, hr]; rfl
        obtain ⟨k, k1, k2, hk⟩ := tail _ _ _ _ hrv
        exact ⟨k + 1, by omega, by omega, by rw [h1 k _ _ hrs, hk]⟩
      | ok n =>
        have hrs : rstep env K .idle w = .ok (.got w.st.buf n, w1) := by
          simp only [rstep, GoM.bind_apply, getQ, Res.ok_bind, hq, hr]; rfl
        have hrv : recv env K w = decodeM env w.st.buf n w1 := by
          unfold recv
          simp only [GoM.bind_apply, getQ, Res.ok_bind, hq, hr]
        rcases hd : decodeM env w.st.buf n w1 with ⟨⟨g, a, err⟩, w2⟩ | _ | _
        · obtain ⟨k, k1, k2, hk⟩ := tail g a err w2 (hrv.trans hd)
          refine ⟨k + 2, by omega, by omega, ?_⟩
          rw [h1 (k + 1) _ _ hrs, ← hk]
          show (rstep env K (.got w.st.buf n) >>= fun pc' => rrun env K k pc') w1 = _
          simp only [rstep, GoM.bind_apply, hd, Res.ok_bind]
          rfl
        · refine ⟨2, by omega, by omega, ?_⟩
          rw [h1 1 _ _ hrs]
          unfold receiveOne
          simp only [rrun, rstep, GoM.bind_apply, hd, hrv, Res.panic_bind]
        · refine ⟨2, by omega, by omega, ?_⟩
          rw [h1 1 _ _ hrs]
          unfold receiveOne
          simp only [rrun, rstep, GoM.bind_apply, hd, hrv, Res.diverge_bind]
    · apply fail
      · simp only [rstep, GoM.bind_apply, getQ, Res.ok_bind, hq, hr, Res.panic_bind]
      · unfold recv
        simp only [GoM.bind_apply, getQ, Res.ok_bind, hq, hr, Res.panic_bind]
    · apply stuck
      · simp only [rstep, GoM.bind_apply, getQ, Res.ok_bind, hq, hr, Res.diverge_bind]
      · unfold recv
        simp only [GoM.bind_apply, getQ, Res.ok_bind, hq, hr, Res.diverge_bind]

/-- The scheduler picks the reader (`none`) or verdict goroutine `i`. -/
noncomputable def cstep (env : Env) (K : Kernel QEv) (lock : Bool) (calls : List VCall) :
    Option Nat → RPc × (Nat → Pc) → M (RPc × (Nat → Pc))
  | none, (rpc, pcs) => do
    let rpc' ← rstep env K rpc
    pure (rpc', pcs)
  | some i, (rpc, pcs) => do
    let pcs' ← schedStep env K lock calls i pcs
    pure (rpc, pcs')

/-- A whole schedule. -/
noncomputable def csched (env : Env) (K : Kernel QEv) (lock : Bool) (calls : List VCall) :
    List (Option Nat) → RPc × (Nat → Pc) → M (RPc × (Nat → Pc))
  | [], s => pure s
  | i :: is, s => do
    let s' ← cstep env K lock calls i s
    csched env K lock calls is s'

end Verif.NfQueue
