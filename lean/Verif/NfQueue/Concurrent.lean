import Verif.Props.NfQueueVerdict
/-!
Verdict calls as interleaved goroutines: the bodies of `SetVerdict` (nfqueue/nfqueue.go:342-383) and
`SetVerdict2` (nfqueue/nfqueue.go:386-439) cut into steps at every access to shared memory.
Locals live in the program counter; the queue, its scratch header and the callers' arrays are shared.

Simplifications: the fill of one field of the scratch header, the `append` of up to three zero bytes and the
kernel's gathering of the three iovecs are one step each.
-/
namespace Verif.NfQueue
open Common Sys Spec Props

/-- Where a goroutine is inside a verdict call, with the locals still needed. -/
inductive Pc where
  | start
  /-- `SetVerdict`: the counter has been increased -/
  | counted
  /-- `SetVerdict2`: `k` fields of the scratch header written, `copyIndex = i` -/
  | filled (k i : Nat)
  /-- `SetVerdict`: private header built -/
  | headed (hs : Slice)
  /-- header and payload-attribute header ready -/
  | attred (hs ps : Slice)
  /-- packet padded -/
  | padded (hs ps p : Slice)
  | done
deriving DecidableEq

/-- nfqueue/nfqueue.go:343-347: the atomic increment. -/
def bump (verdict : U32) : M Unit :=
  if verdict = 1 then modifyQ fun q => { q with accepted := q.accepted + 1 }
  else modifyQ fun q => { q with dropped := q.dropped + 1 }

/-- nfqueue/nfqueue.go:348-370: build the header in private memory. -/
def v1Build (env : Env) (verdict plen id : U32) : M Slice := do
  let q ← getQ
  let hdr := buildNlMsgHeader 0x301 1 0
  let (nfgen, hdr) := buildNfgenMsg 0 0 q.queueNum hdr
  let (verdicthdr, hdr) := buildNfAttrMsg 2 hdr 8
  let hdr := { hdr with len := hdr.len + (nfaLength (plen.setWidth 16)).setWidth 32 }
  let b0 ← GoM.lift (serializeNlMsgHdr env.e hdr)
  let b1 ← GoM.lift nfgen.toWireFormat
  let b2 ← GoM.lift (verdicthdr.toWireFormat env.e)
  let b3 ← GoM.lift (verdictHdrWire env.e verdict id)
  allocM (b0 ++ b1 ++ b2 ++ b3)

/-- The payload attribute header: nfqueue/nfqueue.go:362-364 and 407-412. -/
def attrBuild (env : Env) (nfaLen : U16) : M Slice := do
  let buf ← GoM.lift ((⟨nfaLen, 10⟩ : NfAttr).toWireFormat env.e)
  allocM buf

/-- nfqueue/nfqueue.go:415-420: the six writers into the scratch header, in order. -/
def v2Writer (e : Endian) (qn : U16) (verdict mark plen id : U32) : Nat → List Byte → Res (List Byte × Nat)
  | 0 => serializeNlMsgHdrBuf e ⟨40 + (plen.setWidth 16 + 4 : U16).setWidth 32, 0x301, 1, 0, 0⟩
  | 1 => NfqGenMsg.toWireFormatBuf ⟨0, 0, qn⟩
  | 2 => NfAttr.toWireFormatBuf e ⟨12, 2⟩
  | 3 => verdictHdrWireBuf e verdict id
  | 4 => NfAttr.toWireFormatBuf e ⟨8, 3⟩
  | _ => markHdrWireBuf mark

/-- One of the six writes into the scratch header. -/
def v2Fill (env : Env) (verdict mark plen id : U32) (k i : Nat) : M Pc := do
  let q ← getQ
  let n ← fillFrom q.hdrSlice i (v2Writer env.e q.queueNum verdict mark plen id k)
  pure (.filled (k + 1) (i + n))

/-- nfqueue/nfqueue.go:382 and 437: hand the three pieces to the kernel; `n0`, `n2` are the lengths put into the
first and third iovec. -/
def vSend (env : Env) (K : Kernel QEv) (hs ps p : Slice) (n0 n2 : Nat) : M Pc := do
  let v0 ← baseOf hs n0
  let v1 ← baseOf ps 4
  let v2 ← baseOf p n2
  let q ← getQ
  match q.handle with
  | none => GoM.panic
  | some qh => do
    sendmsg env K qh.fd [v0, v1, v2]
    pure .done

/-- One step of a goroutine inside a verdict call. -/
def vstep (env : Env) (K : Kernel QEv) : VCall → Pc → M Pc
  | .v1 _ v _ _ _, .start => do
    bump v
    pure .counted
  | .v1 _ v l id _, .counted => do
    let hs ← v1Build env v l id
    pure (.headed hs)
  | .v1 _ _ l _ _, .headed hs => do
    let ps ← attrBuild env (nfaLength (l.setWidth 16))
    pure (.attred hs ps)
  | .v1 _ _ l _ p, .attred hs ps => do
    let p' ← padPacket env p (padOf (l.setWidth 16))
    pure (.padded hs ps p')
  | .v1 _ _ l _ _, .padded hs ps p => vSend env K hs ps p 32 (nfaAlign (l.setWidth 16)).toNat
  | .v2 _ v m l id _, .start => v2Fill env v m l id 0 0
  | .v2 _ v m l id _, .filled k i =>
    if k < 6 then v2Fill env v m l id k i
    else do
      let q ← getQ
      let ps ← attrBuild env (l.setWidth 16 + 4)
      pure (.attred q.hdrSlice ps)
  | .v2 _ _ _ l _ p, .attred hs ps => do
    let p' ← padPacket env p (padOf (l.setWidth 16))
    pure (.padded hs ps p')
  | .v2 _ _ _ _ _ _, .padded hs ps p => vSend env K hs ps p 40 p.len
  | _, pc => pure pc

/-- A goroutine running alone, `n` steps. -/
def vrun (env : Env) (K : Kernel QEv) (c : VCall) : Nat → Pc → M Pc
  | 0, pc => pure pc
  | n + 1, pc => do
    let pc' ← vstep env K c pc
    vrun env K c n pc'

/-- A call of `SetVerdict2`. -/
def _root_.Verif.Props.VCall.isV2 : VCall → Bool
  | .v2 .. => true
  | .v1 .. => false

/-- `SetVerdict2` callers other than `i` that have started and not finished. -/
def busy2 (calls : List VCall) (pcs : Nat → Pc) (i : Nat) : Bool :=
  (List.range calls.length).any fun j =>
    decide (j ≠ i ∧ pcs j ≠ .start ∧ pcs j ≠ .done) && (calls[j]?.any VCall.isV2)

/-- The scheduler picks goroutine `i`.  With `lock`, applications hold a mutex around
`SetVerdict2`: a goroutine at its start waits while another one is inside. -/
def schedStep (env : Env) (K : Kernel QEv) (lock : Bool) (calls : List VCall) (i : Nat) (pcs : Nat → Pc) :
    M (Nat → Pc) :=
  match calls[i]? with
  | none => pure pcs
  | some c =>
    if lock ∧ c.isV2 ∧ pcs i = .start ∧ busy2 calls pcs i then pure pcs
    else do
      let pc' ← vstep env K c (pcs i)
      pure fun j => if j = i then pc' else pcs j

/-- A whole schedule. -/
def sched (env : Env) (K : Kernel QEv) (lock : Bool) (calls : List VCall) : List Nat → (Nat → Pc) →
    M (Nat → Pc)
  | [], pcs => pure pcs
  | i :: is, pcs => do
    let pcs' ← schedStep env K lock calls i pcs
    sched env K lock calls is pcs'

/-! ### The steps compose to the calls -/

theorem attrBuild_eq (env : Env) (n : U16) :
    attrBuild env n = allocM (enc16 env.e n ++ enc16 env.e 10) := by
  funext w
  unfold attrBuild
  simp only [GoM.bind_apply, GoM.lift_apply, attrWire_eq, Res.ok_bind]

theorem v1Build_eq (env : Env) (v l id : U32) (w : W) :
    v1Build env v l id w = allocM (v1Head env.e w.st.queueNum v id (l.setWidth 16)) w := by
  unfold v1Build
  simp only [GoM.bind_apply, GoM.lift_apply, getQ, attrWire_eq, serialize_eq, nfgenWire_eq,
    verdictHdrWire_eq, Res.ok_bind]
  rfl

theorem padPacket_st (env : Env) (p : Slice) (n : Nat) (w : W) :
    ∃ p' h, padPacket env p n w = .ok (p', { w with heap := h }) := by
  unfold padPacket
  split
  · exact ⟨_, _, rfl⟩
  · exact ⟨_, _, rfl⟩

theorem alone_v1 (env : Env) (K : Kernel QEv) (qa v l id : U32) (p : Slice) (w : W) :
    vrun env K (.v1 qa v l id p) 5 .start w
      = (setVerdict env K qa v l id p w >>= fun x => .ok (Pc.done, x.2)) := by
  obtain ⟨tr, heap, q⟩ := w
  have key : ∀ q : NfQueue, 
      (do let hs ← v1Build env v l id; vrun env K (.v1 qa v l id p) 3 (.headed hs) : M Pc) ⟨tr, heap, q⟩
      = ((allocM (v1Head env.e q.queueNum v id (l.setWidth 16)) >>= fun hs => baseOf hs 32 >>= fun v0 =>
          allocM (enc16 env.e (nfaLength (l.setWidth 16)) ++ enc16 env.e 10) >>= fun ps =>
          baseOf ps 4 >>= fun v1 => padPacket env p (padOf (l.setWidth 16)) >>= fun p =>
          baseOf p (nfaAlign (l.setWidth 16)).toNat >>= fun v2 =>
            match q.handle with
            | none => GoM.panic
            | some qh => sendmsg env K qh.fd [v0, v1, v2] : M Unit) ⟨tr, heap, q⟩ >>= fun x => .ok (Pc.done, x.2)) := by
    intro q
    simp only [GoM.bind_apply, v1Build_eq, allocM_eq, Res.ok_bind, vrun, vstep, attrBuild_eq, GoM.pure_apply]
    rw [baseOf_eq 32 (by simp [Heap.mk'])]
    simp only [Res.ok_bind]
    rw [baseOf_eq 4 (by simp [Heap.mk'])]
    simp only [Res.ok_bind]
    generalize hh2 : ((heap.mk' (v1Head env.e q.queueNum v id (l.setWidth 16))).2.mk'
      (enc16 env.e (nfaLength (l.setWidth 16)) ++ enc16 env.e 10)).2 = heap2
    obtain ⟨p', h, hp⟩ := padPacket_st env p (padOf (l.setWidth 16)) ⟨tr, heap2, q⟩
    rw [hp]
    simp only [Res.ok_bind, vSend, GoM.bind_apply]
    rw [baseOf_eq 32 (by simp [Heap.mk'])]
    simp only [Res.ok_bind]
    rw [baseOf_eq 4 (by simp [Heap.mk'])]
    simp only [Res.ok_bind]
    by_cases h0 : p'.len = 0
    · simp only [baseOf, if_pos h0, GoM.panic_apply, Res.panic_bind]
    · rw [baseOf_eq _ h0]
      simp only [Res.ok_bind, getQ]
      cases q.handle with
      | none => rfl
      | some qh =>
        simp only [GoM.bind_apply, Res.bind_assoc']
        rfl
  have hL : vrun env K (.v1 qa v l id p) 5 .start ⟨tr, heap, q⟩
      = (do let hs ← v1Build env v l id; vrun env K (.v1 qa v l id p) 3 (.headed hs) : M Pc)
          ⟨tr, heap, counted v q⟩ := by
    show (bump v ⟨tr, heap, q⟩ >>= _) >>= _ = _
    unfold bump counted
    split <;> 
    · simp only [modifyQ, Res.ok_bind, GoM.pure_apply, vrun, vstep, GoM.bind_apply, Res.bind_assoc']
  rw [hL, key]
  congr 1
  unfold setVerdict
  by_cases hv : v = 1
  · simp only [hv, if_true, counted, GoM.bind_apply, getQ, modifyQ, Res.ok_bind, GoM.lift_apply,
      attrWire_eq, serialize_eq, nfgenWire_eq, verdictHdrWire_eq, List.length_append, enc16_length]
    rfl
  · simp only [hv, if_false, counted, GoM.bind_apply, getQ, modifyQ, Res.ok_bind, GoM.lift_apply,
      attrWire_eq, serialize_eq, nfgenWire_eq, verdictHdrWire_eq, List.length_append, enc16_length]
    rfl

theorem fillFrom_st (s : Slice) (i : Nat) (f : List Byte → Res (List Byte × Nat)) (w : W) :
    fillFrom s i f w = .panic ∨ fillFrom s i f w = .diverge ∨
      ∃ n h, fillFrom s i f w = .ok (n, { w with heap := h }) := by
  unfold fillFrom
  simp only [GoM.bind_apply, GoM.lift_apply]
  rcases s.from' i with t | _ | _
  · simp only [Res.ok_bind, readBytes]
    rcases f (w.heap.bytes t) with ⟨b, n⟩ | _ | _
    · exact Or.inr (Or.inr ⟨_, _, rfl⟩)
    · exact Or.inl rfl
    · exact Or.inr (Or.inl rfl)
  · exact Or.inl rfl
  · exact Or.inr (Or.inl rfl)

theorem fill_alone (env : Env) (K : Kernel QEv) (qa v m l id : U32) (p : Slice) (k i n : Nat) (hk : k < 6)
    (w : W) :
    vrun env K (.v2 qa v m l id p) (n + 1) (.filled k i) w
      = (fillFrom w.st.hdrSlice i (v2Writer env.e w.st.queueNum v m l id k) w >>= fun x =>
          vrun env K (.v2 qa v m l id p) n (.filled (k + 1) (i + x.1)) x.2) := by
  simp only [vrun, vstep, if_pos hk, v2Fill, GoM.bind_apply, getQ, Res.ok_bind, Res.bind_assoc',
    GoM.pure_apply]

theorem bind_congr_ok {α β : Type} {r : Res α} {f g : α → Res β} (h : ∀ a, r = .ok a → f a = g a) :
    (r >>= f) = (r >>= g) := by
  rcases r with a | _ | _
  · exact h a rfl
  · rfl
  · rfl

theorem fillFrom_ok_st {s : Slice} {i : Nat} {f : List Byte → Res (List Byte × Nat)} {w : W} {x : Nat × W}
    (h : fillFrom s i f w = .ok x) : x.2.st = w.st := by
  rcases fillFrom_st s i f w with h' | h' | ⟨n, hp, h'⟩
  · rw [h'] at h; simp at h
  · rw [h'] at h; simp at h
  · rw [h'] at h; simp only [Res.ok.injEq] at h; rw [← h]

theorem alone_v2 (env : Env) (K : Kernel QEv) (qa v m l id : U32) (p : Slice) (w : W) :
    vrun env K (.v2 qa v m l id p) 9 .start w
      = (setVerdict2 env K qa v m l id p w >>= fun x => .ok (Pc.done, x.2)) := by
  have h0 : vrun env K (.v2 qa v m l id p) 9 .start w
      = vrun env K (.v2 qa v m l id p) 9 (.filled 0 0) w := rfl
  rw [h0, fill_alone _ _ _ _ _ _ _ _ _ _ _ (by omega)]
  unfold setVerdict2
  simp only [GoM.bind_apply, getQ, Res.ok_bind, GoM.lift_apply, attrWire_eq, Res.bind_assoc']
  refine bind_congr_ok fun x1 e1 => ?_
  have s1 := fillFrom_ok_st e1
  rw [fill_alone _ _ _ _ _ _ _ _ _ _ _ (by omega), s1, Nat.zero_add]
  refine bind_congr_ok fun x2 e2 => ?_
  have s2 := (fillFrom_ok_st e2).trans s1
  rw [fill_alone _ _ _ _ _ _ _ _ _ _ _ (by omega), s2]
  refine bind_congr_ok fun x3 e3 => ?_
  have s3 := (fillFrom_ok_st e3).trans s2
  rw [fill_alone _ _ _ _ _ _ _ _ _ _ _ (by omega), s3]
  refine bind_congr_ok fun x4 e4 => ?_
  have s4 := (fillFrom_ok_st e4).trans s3
  rw [fill_alone _ _ _ _ _ _ _ _ _ _ _ (by omega), s4]
  refine bind_congr_ok fun x5 e5 => ?_
  have s5 := (fillFrom_ok_st e5).trans s4
  rw [fill_alone _ _ _ _ _ _ _ _ _ _ _ (by omega), s5]
  refine bind_congr_ok fun x6 e6 => ?_
  have s6 := (fillFrom_ok_st e6).trans s5
  obtain ⟨n6, tr, heap, q⟩ := x6
  simp only at s6 ⊢
  subst s6
  simp only [vrun, vstep, GoM.bind_apply, getQ, Res.ok_bind, attrBuild_eq, allocM_eq, GoM.pure_apply,
    Nat.zero_add, Nat.lt_irrefl, if_false]
  obtain ⟨p', h, hp⟩ := padPacket_st env p (padOf (l.setWidth 16))
    ⟨tr, (heap.mk' (enc16 env.e (l.setWidth 16 + 4) ++ enc16 env.e 10)).2, w.st⟩
  have hp' := hp
  unfold padOf at hp'
  by_cases hs : w.st.hdrSlice.len = 0
  · simp only [baseOf, if_pos hs, GoM.panic_apply, Res.panic_bind, hp, Res.ok_bind, vSend, GoM.bind_apply]
  · simp only [hp, Res.ok_bind, vSend, GoM.bind_apply]
    have hmk : ∀ n w', baseOf (heap.mk' (enc16 env.e (l.setWidth 16 + 4) ++ enc16 env.e 10)).1 n w'
        = .ok (⟨(heap.mk' (enc16 env.e (l.setWidth 16 + 4) ++ enc16 env.e 10)).1.arr,
            (heap.mk' (enc16 env.e (l.setWidth 16 + 4) ++ enc16 env.e 10)).1.off, n⟩, w') :=
      fun n w' => baseOf_eq n (by simp [Heap.mk']) w'
    have hsc : ∀ n w', baseOf w.st.hdrSlice n w' = .ok (⟨w.st.hdrSlice.arr, w.st.hdrSlice.off, n⟩, w') :=
      fun n w' => baseOf_eq n hs w'
    simp only [hsc, hmk, Res.ok_bind]
    rw [hp']
    simp only [Res.ok_bind]
    by_cases h0 : p'.len = 0
    · simp only [baseOf, if_pos h0, GoM.panic_apply, Res.panic_bind]
    · rw [baseOf_eq _ h0]
      simp only [Res.ok_bind, List.length_append, enc16_length, getQ]
      cases hh : w.st.handle with
      | none => rfl
      | some qh =>
        simp only [GoM.bind_apply, Res.bind_assoc']
        rfl

end Verif.NfQueue
