import Verif.Props.NfQueueLimits
/-! C102–C105: a queue handle before it is opened, opened twice, and after it was closed. -/
namespace Verif.Props
open Verif.Common Verif.Sys Verif.Spec Verif.NfQueue

/-! ### C102 -/

/-- C102 is violated: after NfqClose a verdict is still sent, over the number of the closed descriptor. Whatever happened
in between (`other`: for instance another part of the process obtained the same number for a socket or file of its own),
the verdict message goes there. -/
theorem C102_verdict_after_close_violated (env : Env) (K : Kernel QEv) (c : VCall) (w : W) (qh : Handle) (hV : VReady w qh)
    (hc : c.Ok w.heap w.st.hdrSlice) (other : List (Ev QEv)) :
    ∃ w1 cl b r w2, nfqClose K w = .ok ((), w1) ∧ w1.trace = w.trace ++ cl ∧ CloseEvs qh.fd cl ∧
      c.run env K { w1 with trace := w1.trace ++ other } = .ok ((), w2) ∧
      w2.trace = w1.trace ++ other ++ [.sendmsg qh.fd b r] := by
  obtain ⟨cl, h1, h2⟩ := nfqClose_spec K hV.1
  obtain ⟨r, w2, h3, h4, _⟩ := call_step env K c { w with trace := w.trace ++ cl ++ other } qh hV hc
  exact ⟨_, cl, _, r, w2, h1, rfl, h2, h3, h4⟩

/-- Descriptor 3 is closed, handed out again for another socket, and receives the verdict. -/
example : ∃ w1 cl b r w2, nfqClose yesKernel verdictWorld = .ok ((), w1) ∧ w1.trace = verdictWorld.trace ++ cl ∧
    CloseEvs 3 cl ∧ setVerdict2 someEnv yesKernel 0 1 9 3 77 ⟨1, 0, 3, 3⟩
      { w1 with trace := w1.trace ++ [.socket 2 1 0 (.ok 3)] } = .ok ((), w2) ∧
    w2.trace = w1.trace ++ [.socket 2 1 0 (.ok 3)] ++ [.sendmsg 3 b r] :=
  C102_verdict_after_close_violated someEnv yesKernel (.v2 0 1 9 3 77 ⟨1, 0, 3, 3⟩) verdictWorld ⟨3, Slice.nil⟩
    ⟨rfl, ⟨Nat.le_refl _, by decide⟩, rfl⟩ ⟨⟨Nat.le_refl _, by decide⟩, by decide, by decide, by decide⟩ _

/-! ### C103 -/

/-- C103 is violated: opening an open queue again, successfully, forgets the first socket: NfqClose then closes the
second only, and no descriptor with the first number is ever closed. -/
theorem C103_reopen_leaks_violated (K : Kernel QEv) (w : W) (fd1 fd2 : Nat) (hne : fd1 ≠ fd2)
    (hs1 : K.socket w.trace = .ok fd1) (hs2 : ∀ evs, evs ≠ [] → K.socket (w.trace ++ evs) = .ok fd2)
    (hb : ∀ tr fd, K.bind tr fd = none) :
    ∃ w1 w2 w3 evs, nfqOpen K w = .ok (.ok (), w1) ∧ nfqOpen K w1 = .ok (.ok (), w2) ∧ nfqClose K w2 = .ok ((), w3) ∧
      w3.trace = w.trace ++ evs ∧ .socket 16 3 12 (.ok fd1) ∈ evs ∧ ∀ r, .close fd1 r ∉ evs := by
  have key : ∀ (w : W) (fd : Nat), K.socket w.trace = .ok fd → ∃ w1 evs, nfqOpen K w = .ok (.ok (), w1) ∧
      w1.trace = w.trace ++ evs ∧ .socket 16 3 12 (.ok fd) ∈ evs ∧ (∀ f r, .close f r ∉ evs) ∧
      w1.st.handle = some ⟨fd, w.st.buf⟩ := by
    intro w fd hs
    rcases nfqOpen_spec K w with ⟨n, w1, hk, _⟩ | ⟨fd', hfd, ⟨n, bevs, w1, ⟨tr, hn⟩, _⟩ | ⟨bevs, opts, w1, ho, hbe, hop, ht, _, hst⟩⟩
    · rw [hs] at hk; cases hk
    · rw [hb] at hn; cases hn
    · rw [hs] at hfd
      simp only [Except.ok.injEq] at hfd
      subst hfd
      refine ⟨w1, _, ho, ht, by simp, ?_, by rw [hst]⟩
      intro f r hm
      rcases List.mem_append.mp hm with hm | hm
      · rcases List.mem_append.mp hm with hm | hm
        · simp at hm
        · exact absurd (hbe.clean _ hm) (by simp [isClose])
      · exact absurd (hop.clean _ hm) (by simp [isClose])
  obtain ⟨w1, e1, h1, t1, m1, c1, _⟩ := key w fd1 hs1
  obtain ⟨w2, e2, h2, t2, m2, c2, hh⟩ := key w1 fd2 (by rw [t1]; exact hs2 e1 (by rintro rfl; simp at m1))
  obtain ⟨e3, h3, h4⟩ := nfqClose_spec K hh
  refine ⟨w1, w2, _, e1 ++ e2 ++ e3, h1, h2, h3, by simp [t2, t1], by simp [m1], ?_⟩
  intro r hm
  rcases List.mem_append.mp hm with hm | hm
  · rcases List.mem_append.mp hm with hm | hm
    · exact c1 _ _ hm
    · exact c2 _ _ hm
  · rcases h4 with rfl | ⟨a, b, rfl⟩
    · simp at hm; exact hne hm.1
    · simp at hm; rcases hm with hm | hm <;> exact hne hm.1

/-- A kernel that numbers descriptors 3, 4. -/
example : ∃ K : Kernel QEv, K.socket verdictWorld.trace = .ok 3 ∧
    (∀ evs, evs ≠ [] → K.socket (verdictWorld.trace ++ evs) = .ok 4) ∧ ∀ tr fd, K.bind tr fd = none :=
  ⟨{ yesKernel with socket := fun tr => .ok (if tr = [] then 3 else 4) }, rfl,
    fun evs h => by simp [verdictWorld, h], fun _ _ => rfl⟩

/-! ### C104 -/

theorem panic_bind {α β : Type} {m : M α} {f : α → M β} {w : W} (hm : m w ≠ .diverge)
    (hf : ∀ a w', f a w' = .panic) : (m >>= f) w = .panic := by
  show (m w >>= fun p => f p.1 p.2) = .panic
  rcases h : m w with ⟨a, w'⟩ | _ | _
  · exact hf a w'
  · rfl
  · exact absurd h hm

theorem lift_ne {α : Type} {r : Res α} (h : r ≠ .diverge) (w : W) : (GoM.lift r : M α) w ≠ .diverge := by
  rcases r with a | _ | _
  · simp
  · simp
  · exact absurd rfl h

theorem baseOf_ne (s : Slice) (n : Nat) (w : W) : baseOf s n w ≠ .diverge := by
  unfold baseOf; split <;> simp [GoM.panic]

theorem allocM_ne (bs : List Byte) (w : W) : allocM bs w ≠ .diverge := by simp [allocM]

theorem padPacket_ne (env : Env) (s : Slice) (n : Nat) (w : W) : padPacket env s n w ≠ .diverge := by
  unfold padPacket
  by_cases h : n > 0
  · rw [if_pos h]; simp [appendM]
  · rw [if_neg h]; simp

theorem bind_ne {α β : Type} {r : Res α} {f : α → Res β} (h : r ≠ .diverge) (hf : ∀ a, f a ≠ .diverge) :
    (r >>= f) ≠ .diverge := by
  rcases r with a | _ | _
  · exact hf a
  · simp
  · exact absurd rfl h

theorem writeAt_ne (b : List Byte) (i : Nat) (bs : List Byte) : writeAt b i bs ≠ .diverge := by
  unfold writeAt; split <;> simp

theorem copyByte_ne (b : List Byte) (i : Nat) (x : Byte) : copyByte b i x ≠ .diverge := by
  unfold copyByte
  split
  · simp
  · split <;> simp

theorem fillFrom_ne (s : Slice) (i : Nat) {f : List Byte → Res (List Byte × Nat)} (hf : ∀ b, f b ≠ .diverge) (w : W) :
    fillFrom s i f w ≠ .diverge := by
  unfold fillFrom
  refine bind_ne (lift_ne ?_ w) fun a => ?_
  · unfold Slice.from' Slice.sub
    split <;> simp
  refine bind_ne (by simp [readBytes]) fun b => ?_
  refine bind_ne (lift_ne (hf _) _) fun c => ?_
  simp [putBytes]

/-- C104 is violated: on a handle that was never opened, SetVerdict, SetVerdict2 and Recv crash the process, for every
argument. -/
theorem C104_no_socket_violated (env : Env) (K : Kernel QEv) (w : W) (hn : w.st.handle = none) :
    (∀ qa verdict plen id packet, setVerdict env K qa verdict plen id packet w = .panic) ∧
    (∀ qa verdict mark plen id packet, setVerdict2 env K qa verdict mark plen id packet w = .panic) ∧
    recv env K w = .panic := by
  refine ⟨?_, ?_, ?_⟩
  · intro qa verdict plen id packet
    have key : ∀ w : W, w.st.handle = none → (do
        let q ← getQ
        let hdr := buildNlMsgHeader 0x301 1 0
        let (nfgen, hdr) := buildNfgenMsg 0 0 q.queueNum hdr
        let (verdicthdr, hdr) := buildNfAttrMsg 2 hdr 8
        let iovecLen := hdr.len
        let payloadnfattr : NfAttr := { nfaLen := nfaLength (plen.setWidth 16), nfaType := 10 }
        let payloadnfattrbuf ← GoM.lift (payloadnfattr.toWireFormat env.e)
        let hdr := { hdr with len := hdr.len + payloadnfattr.nfaLen.setWidth 32 }
        let b0 ← GoM.lift (serializeNlMsgHdr env.e hdr)
        let b1 ← GoM.lift nfgen.toWireFormat
        let b2 ← GoM.lift (verdicthdr.toWireFormat env.e)
        let b3 ← GoM.lift (verdictHdrWire env.e verdict id)
        let hs ← allocM (b0 ++ b1 ++ b2 ++ b3)
        let v0 ← baseOf hs iovecLen.toNat
        let ps ← allocM payloadnfattrbuf
        let v1 ← baseOf ps payloadnfattrbuf.length
        let padLen := (nfaAlign (plen.setWidth 16) - plen.setWidth 16).toNat
        let packet ← padPacket env packet padLen
        let v2 ← baseOf packet (nfaAlign (plen.setWidth 16)).toNat
        match q.handle with
        | none => GoM.panic
        | some qh => sendmsg env K qh.fd [v0, v1, v2] : M Unit) w = .panic := by
      intro w hn
      rw [GoM.bind_apply]
      simp only [getQ, Res.ok_bind, hn]
      refine panic_bind (lift_ne (by rw [attrWire_eq]; simp) _) fun _ _ => ?_
      refine panic_bind (lift_ne (by rw [serialize_eq]; simp) _) fun _ _ => ?_
      refine panic_bind (lift_ne (by rw [nfgenWire_eq]; simp) _) fun _ _ => ?_
      refine panic_bind (lift_ne (by rw [attrWire_eq]; simp) _) fun _ _ => ?_
      refine panic_bind (lift_ne (by rw [verdictHdrWire_eq]; simp) _) fun _ _ => ?_
      refine panic_bind (allocM_ne _ _) fun _ _ => ?_
      refine panic_bind (baseOf_ne _ _ _) fun _ _ => ?_
      refine panic_bind (allocM_ne _ _) fun _ _ => ?_
      refine panic_bind (baseOf_ne _ _ _) fun _ _ => ?_
      refine panic_bind (padPacket_ne _ _ _ _) fun _ _ => ?_
      exact panic_bind (baseOf_ne _ _ _) fun _ _ => rfl
    unfold setVerdict
    split
    · exact key { w with st := _ } hn
    · exact key { w with st := _ } hn
  · intro qa verdict mark plen id packet
    unfold setVerdict2
    rw [GoM.bind_apply]
    simp only [getQ, Res.ok_bind, hn]
    refine panic_bind (lift_ne (by rw [attrWire_eq]; simp) _) fun _ _ => ?_
    refine panic_bind (fillFrom_ne _ _ (fun b => ?_) _) fun _ _ => ?_
    · unfold serializeNlMsgHdrBuf
      repeat refine bind_ne (writeAt_ne _ _ _) fun _ => ?_
      simp
    refine panic_bind (fillFrom_ne _ _ (fun b => ?_) _) fun _ _ => ?_
    · unfold NfqGenMsg.toWireFormatBuf
      refine bind_ne (copyByte_ne _ _ _) fun _ => ?_
      refine bind_ne (copyByte_ne _ _ _) fun _ => ?_
      refine bind_ne (writeAt_ne _ _ _) fun _ => ?_
      simp
    refine panic_bind (fillFrom_ne _ _ (fun b => ?_) _) fun _ _ => ?_
    · unfold NfAttr.toWireFormatBuf
      repeat refine bind_ne (writeAt_ne _ _ _) fun _ => ?_
      simp
    refine panic_bind (fillFrom_ne _ _ (fun b => ?_) _) fun _ _ => ?_
    · unfold verdictHdrWireBuf
      repeat refine bind_ne (writeAt_ne _ _ _) fun _ => ?_
      simp
    refine panic_bind (fillFrom_ne _ _ (fun b => ?_) _) fun _ _ => ?_
    · unfold NfAttr.toWireFormatBuf
      repeat refine bind_ne (writeAt_ne _ _ _) fun _ => ?_
      simp
    refine panic_bind (fillFrom_ne _ _ (fun b => ?_) _) fun _ _ => ?_
    · unfold markHdrWireBuf
      repeat refine bind_ne (writeAt_ne _ _ _) fun _ => ?_
      simp
    refine panic_bind (baseOf_ne _ _ _) fun _ _ => ?_
    refine panic_bind (allocM_ne _ _) fun _ _ => ?_
    refine panic_bind (baseOf_ne _ _ _) fun _ _ => ?_
    refine panic_bind (padPacket_ne _ _ _ _) fun _ _ => ?_
    exact panic_bind (baseOf_ne _ _ _) fun _ _ => rfl
  · unfold recv
    simp only [GoM.bind_apply, getQ, Res.ok_bind, hn]
    rfl

/-- A new handle is such a handle. -/
example (h : Heap) : (newNFQueue h).1.handle = none := rfl

/-! ### C105 -/

/-- C105 is violated: the queue number given to SetVerdict and SetVerdict2 is ignored. Given the number of another queue
they still send the verdict to the handle's own queue: the message the kernel decodes names that one. -/
theorem C105_queue_ignored_violated (env : Env) (K : Kernel QEv) (qa verdict mark plen id : U32)
    (packet : Slice) (w : W) (qh : Handle) (hV : VReady w qh) (hp : packet.Valid w.heap)
    (hne : packet.arr ≠ w.st.hdrSlice.arr) (hl : plen.toNat = packet.len)
    (h1 : 1 ≤ packet.len) (h2 : packet.len ≤ 65528) (hq : qa.toNat ≠ w.st.queueNum.toNat) :
    (∃ b r w' m, setVerdict2 env K qa verdict mark plen id packet w = .ok ((), w') ∧
      w'.trace = w.trace ++ [.sendmsg qh.fd b r] ∧ decodeNf env.e b = some m ∧ m.resId = w.st.queueNum.toNat ∧
      m.resId ≠ qa.toNat) ∧
    (∃ b r w' m, setVerdict env K qa verdict plen id packet w = .ok ((), w') ∧
      w'.trace = w.trace ++ [.sendmsg qh.fd b r] ∧ decodeNf env.e b = some m ∧ m.resId = w.st.queueNum.toNat ∧
      m.resId ≠ qa.toNat) := by
  constructor
  · obtain ⟨b, r, w', e1, e2, e3⟩ := C17_verdict2_partial env K qa verdict mark plen id packet w qh hV hp hne hl h1 (by omega)
    exact ⟨b, r, w', _, e1, e2, e3, rfl, fun h => hq h.symm⟩
  · obtain ⟨b, r, w', pad, e1, e2, _, _, e3⟩ := C18_verdict_partial env K qa verdict plen id packet w qh hV.1 hp hl h1 h2
    exact ⟨b, r, w', _, e1, e2, e3, rfl, fun h => hq h.symm⟩

/-- The handle of `verdictWorld` serves queue 5; a verdict for queue 7 is sent to queue 5. -/
example : (7 : U32).toNat ≠ verdictWorld.st.queueNum.toNat ∧ VReady verdictWorld ⟨3, Slice.nil⟩ ∧
    (⟨1, 0, 3, 3⟩ : Slice).Valid verdictWorld.heap :=
  ⟨by decide, ⟨rfl, ⟨Nat.le_refl _, by decide⟩, rfl⟩, ⟨Nat.le_refl _, by decide⟩⟩

end Verif.Props
