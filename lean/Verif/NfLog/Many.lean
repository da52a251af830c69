import Verif.NfLog.ReadLoop
/-!
A process that listens for logs several times: each `BindAndListenForLogs` (nflog/nflog.go:26-46) makes its own `NfLog`
structure and its own goroutine running `ReadLogs` (nflog/nflog.go:215-238); memory and kernel are shared.  The goroutine is
cut at its system calls and after every attribute of a log message, that is, between any two calls of a callback.

Simplifications: starting to listen is one step, and so is a close together with its second attempt
(common/syscallwrappers: `Close`).
-/
namespace Verif.NfLog
open Common Sys Spec

/-- Where a listener is, with the locals still needed. -/
inductive LPc where
  /-- `BindAndListenForLogs` was not called yet -/
  | unstarted
  /-- `BindAndListenForLogs` returned an error: there is no goroutine -/
  | off
  /-- `ReadLogs` is about to receive -/
  | idle
  /-- `parseLog` is about to look at the message at the beginning of `b` -/
  | msgs (b : List Byte)
  /-- `parsePacket` is inside the message at the beginning of `b`, which states the length `msgLen`: `rest` is left to read, `m` was
  assembled so far -/
  | attrs (rest : List Byte) (m : NfPacket) (msgLen : U32) (b : List Byte)
  /-- `parseLog` has returned an error -/
  | parseErr (err : Err)
  /-- receiving has failed -/
  | failed (n : Nat)
  /-- the loop was left, the deferred close is to be run -/
  | closing
  /-- `ReadLogs` has returned -/
  | done

/-- One step of `ReadLogs` (nflog/nflog.go:215-238), `parseLog` (240-265) and `parsePacket` (267-326). -/
def lstep (env : Env) (K : Kernel LEv) : LPc → M LPc
  | .idle => do
    let l ← getL
    match l.socket with
    | none => GoM.panic
    | some sh =>
      match ← recvfrom K sh.fd 65536 0 with
      | .error n => pure (.failed n)
      | .ok d => pure (.msgs d)
  | .msgs b => fun w =>
    if b.length = 0 then .ok (.idle, w)
    else do
      let (msgLen, type) ← readHeader b
      if msgLen > BitVec.ofNat 32 b.length then .ok (.parseErr (.msg "Message was truncated"), w)
      else if type = 0x400 then do
        let body ← slice b 16 (msgLen - 1).toNat
        .ok (.attrs (body.drop 4) NfPacket.zero msgLen b, w)
      else do
        let b' ← sliceFrom b msgLen.toNat
        .ok (.msgs b', w)
  | .attrs rest m msgLen b => fun w => do
    match ← tlvBody env ⟨rest, m, w⟩ with
    | .next s => .ok (.attrs s.rest s.m msgLen b, s.w)
    | .done (some err, w) => .ok (.parseErr (.wrap "Failed to parse NFPacket: %v" err), w)
    | .done (none, w) => do
      let b' ← sliceFrom b msgLen.toNat
      .ok (.msgs b', w)
  | .parseErr err => do
    report env "Parse error" err
    pure .idle
  | .failed n => do
    report env "Netlink error" (.errno n)
    pure (if n = 105 then .idle else .closing)
  | .closing => do
    nflogClose K
    pure .done
  | .unstarted => pure .unstarted
  | .off => pure .off
  | .done => pure .done

/-- The goroutine running alone, `n` steps. -/
def lrun (env : Env) (K : Kernel LEv) : Nat → LPc → M LPc
  | 0, pc => pure pc
  | n + 1, pc => do
    let pc' ← lstep env K pc
    lrun env K n pc'

/-- The arguments of `BindAndListenForLogs` (nflog/nflog.go:26). -/
structure ListenArgs where
  groups : List U16
  size : U32
  cb : Option Nat
  ecb : Option Nat

/-- The process: one memory, one history of system calls and callbacks, one structure for each listener. -/
abbrev MW := World LEv (Nat → NfLog)

/-- What the goroutine of listener `i` can see. -/
def MW.view (w : MW) (i : Nat) : W := ⟨w.trace, w.heap, w.st i⟩

/-- One step of listener `i`: to start listening, or a step of its goroutine. -/
def listenStep (env : Env) (K : Kernel LEv) (a : ListenArgs) : LPc → M LPc
  | .unstarted => do
    match ← bindAndListen env K a.groups a.size a.cb a.ecb with
    | none => pure .idle
    | some _ => pure .off
  | pc => lstep env K pc

/-- The scheduler picks listener `i` of `args`.  Besides the new positions the result tells what the step did to the outside
world. -/
def mstep (env : Env) (K : Kernel LEv) (args : List ListenArgs) (i : Nat) (s : Nat → LPc) :
    GoM MW ((Nat → LPc) × List (Nat × Ev LEv)) := fun w =>
  match args[i]? with
  | none => .ok ((s, []), w)
  | some a =>
    match listenStep env K a (s i) (w.view i) with
    | .ok (pc, v) => .ok ((fun k => if k = i then pc else s k, (v.trace.drop w.trace.length).map (i, ·)),
        ⟨v.trace, v.heap, fun k => if k = i then v.st else w.st k⟩)
    | .panic => .panic
    | .diverge => .diverge

/-- A whole schedule; the result tells what was done, and by which listener. -/
def msched (env : Env) (K : Kernel LEv) (args : List ListenArgs) :
    List Nat → (Nat → LPc) → GoM MW ((Nat → LPc) × List (Nat × Ev LEv))
  | [], s => pure (s, [])
  | i :: is, s => do
    let (s', l) ← mstep env K args i s
    let (s'', l') ← msched env K args is s'
    pure (s'', l ++ l')

/-! ### Alone, the steps make up the loop -/

variable {env : Env} {K : Kernel LEv}

theorem lrun_step {pc pc1 : LPc} {w w1 : W} (h : lstep env K pc w = .ok (pc1, w1)) (k : Nat) :
    lrun env K (k + 1) pc w = lrun env K k pc1 w1 := by
  simp only [lrun, GoM.bind_apply, h, Res.ok_bind]

theorem lrun_panic {pc : LPc} {w : W} (h : lstep env K pc w = .panic) : lrun env K 1 pc w = .panic := by
  simp only [lrun, GoM.bind_apply, h, Res.panic_bind]

/-- After the attributes of a message: on to the next message, or the error. -/
def afterAttrs (msgLen : U32) (b : List Byte) (a : Option Err × W) : Res (LPc × W) :=
  match a.1 with
  | some err => .ok (.parseErr (.wrap "Failed to parse NFPacket: %v" err), a.2)
  | none => do
    let b' ← sliceFrom b msgLen.toNat
    .ok (.msgs b', a.2)

theorem lstep_attrs (rest : List Byte) (m : NfPacket) (msgLen : U32) (b : List Byte) (w : W) :
    lstep env K (.attrs rest m msgLen b) w = (do
      match ← tlvBody env ⟨rest, m, w⟩ with
      | .next s => .ok (.attrs s.rest s.m msgLen b, s.w)
      | .done a => afterAttrs msgLen b a) := by
  simp only [lstep]
  rcases tlvBody env ⟨rest, m, w⟩ with (s | ⟨e | e, w'⟩) | _ | _ <;> rfl

theorem attrs_alone (msgLen : U32) (b : List Byte) : ∀ (n : Nat) (s : TlvState) (r : Res (Option Err × W)),
    loopN (tlvBody env) n s = r → r ≠ .diverge →
    ∃ k, 0 < k ∧ ∀ pc w, lstep env K pc w = .ok (.attrs s.rest s.m msgLen b, s.w) →
      (∀ j pc' w', (r >>= afterAttrs msgLen b) = .ok (pc', w') → lrun env K (1 + k + j) pc w = lrun env K j pc' w') ∧
      ((r >>= afterAttrs msgLen b) = .panic → lrun env K (1 + k) pc w = .panic) := by
  intro n
  induction n with
  | zero => intro s r h hr; simp only [loopN] at h; exact absurd h.symm hr
  | succ n ih =>
    intro s r h hr
    unfold loopN at h
    rcases hb : tlvBody env s with (s' | a) | _ | _
    · rw [hb] at h
      obtain ⟨k, h0, hk⟩ := ih s' r h hr
      refine ⟨1 + k, by omega, ?_⟩
      intro pc w hpc
      have h1 : lstep env K (.attrs s.rest s.m msgLen b) s.w = .ok (.attrs s'.rest s'.m msgLen b, s'.w) := by
        rw [lstep_attrs, hb]; rfl
      obtain ⟨ha, hp⟩ := hk _ _ h1
      refine ⟨?_, ?_⟩
      · intro j pc' w' hj
        rw [show 1 + (1 + k) + j = (1 + k + j) + 1 from by omega, lrun_step hpc, ha j pc' w' hj]
      · intro hj
        rw [show 1 + (1 + k) = (1 + k) + 1 from by omega, lrun_step hpc, hp hj]
    · rw [hb] at h
      simp only at h
      subst h
      refine ⟨1, by omega, ?_⟩
      intro pc w hpc
      have h1 : lstep env K (.attrs s.rest s.m msgLen b) s.w = afterAttrs msgLen b a := by
        rw [lstep_attrs, hb]; rfl
      refine ⟨?_, ?_⟩
      · intro j pc' w' hj
        rw [show 1 + 1 + j = (j + 1) + 1 from by omega, lrun_step hpc, lrun_step (h1.trans hj)]
      · intro hj
        rw [lrun_step hpc, lrun_panic (h1.trans hj)]
    · rw [hb] at h
      simp only at h
      subst h
      refine ⟨1, by omega, ?_⟩
      intro pc w hpc
      have h1 : lstep env K (.attrs s.rest s.m msgLen b) s.w = .panic := by
        rw [lstep_attrs, hb]; rfl
      refine ⟨fun j pc' w' hj => (by cases hj), ?_⟩
      intro _
      rw [lrun_step hpc, lrun_panic h1]
    · rw [hb] at h
      exact absurd h.symm hr

/-- After a whole datagram: receive again, or the error. -/
def afterMsgs (a : Option Err × W) : LPc × W :=
  match a.1 with
  | some err => (.parseErr err, a.2)
  | none => (.idle, a.2)

theorem msgs_alone : ∀ (n : Nat) (s : List Byte × W) (r : Res (Option Err × W)),
    loopN (logBody env) n s = r → r ≠ .diverge →
    ∃ k, (∀ a, r = .ok a → ∀ j, lrun env K (k + j) (.msgs s.1) s.2 = lrun env K j (afterMsgs a).1 (afterMsgs a).2) ∧
      (r = .panic → lrun env K k (.msgs s.1) s.2 = .panic) := by
  intro n
  induction n with
  | zero => intro s r h hr; simp only [loopN] at h; exact absurd h.symm hr
  | succ n ih =>
    intro s r h hr
    obtain ⟨b, w⟩ := s
    unfold loopN logBody at h
    simp only at h
    by_cases h0 : b.length = 0
    · rw [if_pos h0] at h
      subst h
      refine ⟨1, ?_, by intro h; cases h⟩
      intro a ha j
      simp only [Res.ok.injEq] at ha
      subst ha
      rw [show 1 + j = j + 1 from by omega, lrun_step (pc1 := .idle) (w1 := w) (by simp only [lstep]; rw [if_pos h0])]
      rfl
    · rw [if_neg h0] at h
      have hst : lstep env K (.msgs b) w = (do
          let (msgLen, type) ← readHeader b
          if msgLen > BitVec.ofNat 32 b.length then .ok (.parseErr (.msg "Message was truncated"), w)
          else if type = 0x400 then do
            let body ← slice b 16 (msgLen - 1).toNat
            .ok (.attrs (body.drop 4) NfPacket.zero msgLen b, w)
          else do
            let b' ← sliceFrom b msgLen.toNat
            .ok (.msgs b', w)) := by
        simp only [lstep]; rw [if_neg h0]
      rcases hh : readHeader b with ⟨msgLen, type⟩ | _ | _
      · rw [hh] at h hst
        simp only [Res.ok_bind] at h hst
        by_cases hl : msgLen > BitVec.ofNat 32 b.length
        · rw [if_pos hl] at h hst
          simp only at h
          subst h
          refine ⟨1, ?_, by intro h; cases h⟩
          intro a ha j
          simp only [Res.ok.injEq] at ha
          subst ha
          rw [show 1 + j = j + 1 from by omega, lrun_step hst]
          rfl
        · rw [if_neg hl] at h hst
          unfold parseMessage at h
          by_cases ht : type = 0x400
          · rw [if_pos ht] at h hst
            rcases hs : slice b 16 (msgLen - 1).toNat with body | _ | _
            · rw [hs] at h hst
              simp only [Res.ok_bind] at h hst
              have hpd : parsePacket env body w ≠ .diverge := by
                intro hd
                rw [hd] at h
                exact hr h.symm
              obtain ⟨n1, hn1⟩ := loopN_of_loop (r := parsePacket env body w) rfl hpd
              obtain ⟨k1, hk0, hk1⟩ := attrs_alone (env := env) (K := K) msgLen b n1 ⟨body.drop 4, NfPacket.zero, w⟩ _ hn1 hpd
              obtain ⟨hA, hP⟩ := hk1 _ _ hst
              rcases hp : parsePacket env body w with ⟨e, w1⟩ | _ | _
              · rw [hp] at h hA hP
                simp only [Res.ok_bind] at h
                cases e with
                | some err =>
                  simp only at h
                  subst h
                  refine ⟨1 + k1, ?_, by intro h; cases h⟩
                  intro a ha j
                  simp only [Res.ok.injEq] at ha
                  subst ha
                  rw [hA j _ _ rfl]
                  rfl
                | none =>
                  simp only at h
                  rcases hsf : sliceFrom b msgLen.toNat with b' | _ | _
                  · rw [hsf] at h
                    simp only [Res.ok_bind] at h
                    obtain ⟨k2, h2, h3⟩ := ih (b', w1) r h hr
                    have hgo : ∀ j, lrun env K (1 + k1 + j) (.msgs b) w = lrun env K j (.msgs b') w1 :=
                      fun j => hA j _ _ (by simp only [Res.ok_bind, afterAttrs, hsf])
                    refine ⟨1 + k1 + k2, ?_, ?_⟩
                    · intro a ha j
                      rw [show 1 + k1 + k2 + j = 1 + k1 + (k2 + j) from by omega, hgo, h2 a ha j]
                    · intro ha
                      rw [hgo, h3 ha]
                  · rw [hsf] at h
                    simp only [Res.panic_bind] at h
                    subst h
                    refine ⟨1 + k1, ?_, ?_⟩
                    · intro a h; cases h
                    intro _
                    exact hP (by simp only [Res.ok_bind, afterAttrs, hsf, Res.panic_bind])
                  · rw [hsf] at h
                    exact absurd h.symm hr
              · rw [hp] at h hP
                simp only [Res.panic_bind] at h
                subst h
                exact ⟨1 + k1, by (intro a h; cases h), fun _ => hP rfl⟩
              · exact absurd hp hpd
            · rw [hs] at h hst
              simp only [Res.panic_bind] at h hst
              subst h
              exact ⟨1, by (intro a h; cases h), fun _ => lrun_panic hst⟩
            · rw [hs] at h
              exact absurd h.symm hr
          · rw [if_neg ht] at h hst
            simp only [Res.ok_bind] at h
            rcases hsf : sliceFrom b msgLen.toNat with b' | _ | _
            · rw [hsf] at h hst
              simp only [Res.ok_bind] at h hst
              obtain ⟨k2, h2, h3⟩ := ih (b', w) r h hr
              refine ⟨k2 + 1, ?_, ?_⟩
              · intro a ha j
                rw [show k2 + 1 + j = (k2 + j) + 1 from by omega, lrun_step hst, h2 a ha j]
              · intro ha
                rw [lrun_step hst, h3 ha]
            · rw [hsf] at h hst
              simp only [Res.panic_bind] at h hst
              subst h
              exact ⟨1, by (intro a h; cases h), fun _ => lrun_panic hst⟩
            · rw [hsf] at h
              exact absurd h.symm hr
      · rw [hh] at h hst
        simp only [Res.panic_bind] at h hst
        subst h
        exact ⟨1, by (intro a h; cases h), fun _ => lrun_panic hst⟩
      · rw [hh] at h
        exact absurd h.symm hr

/-- Left alone, the goroutine does in some number of steps exactly what one turn of the loop does: with the same outcome, or
crashing. -/
theorem listener_alone (env : Env) (K : Kernel LEv) (w : W) :
    (∀ fin w', readIter env K w = .ok (fin, w') → ∃ n, lrun env K n .idle w = .ok (if fin then .done else .idle, w')) ∧
    (readIter env K w = .panic → ∃ n, lrun env K n .idle w = .panic) := by
  rcases hs : w.st.socket with _ | sh
  · have h1 : lstep env K .idle w = .panic := by
      simp only [lstep, GoM.bind_apply, getL, Res.ok_bind, hs]; rfl
    have h2 : readIter env K w = .panic := by
      simp only [readIter, GoM.bind_apply, getL, Res.ok_bind, hs]; rfl
    refine ⟨?_, fun _ => ⟨1, lrun_panic h1⟩⟩
    intro fin w' h
    rw [h2] at h
    cases h
  · rcases recvfrom_spec K sh.fd 65536 0 w with ⟨n, _, hr⟩ | ⟨d, _, hr⟩
    · have h1 : lstep env K .idle w = .ok (.failed n, { w with trace := w.trace ++ [.recvfrom sh.fd 65536 0 (.error n)] }) := by
        simp only [lstep, GoM.bind_apply, getL, Res.ok_bind, hs, hr]; rfl
      have h2 : readIter env K w = handleFailure env K n { w with trace := w.trace ++ [.recvfrom sh.fd 65536 0 (.error n)] } := by
        simp only [readIter, GoM.bind_apply, getL, Res.ok_bind, hs, hr]
      rw [h2]
      generalize ({ w with trace := w.trace ++ [.recvfrom sh.fd 65536 0 (.error n)] } : W) = w1 at h1
      unfold handleFailure
      simp only [GoM.bind_apply]
      rcases hrep : report env "Netlink error" (.errno n) w1 with ⟨⟨⟩, w2⟩ | _ | _
      · have h3 : lstep env K (.failed n) w1 = .ok (if n = 105 then .idle else .closing, w2) := by
          simp only [lstep, GoM.bind_apply, hrep, Res.ok_bind]; rfl
        simp only [Res.ok_bind]
        by_cases h105 : n = 105
        · rw [if_pos h105] at h3 ⊢
          refine ⟨?_, by intro h; cases h⟩
          intro fin w' h
          simp only [GoM.pure_apply, Res.ok.injEq, Prod.mk.injEq] at h
          obtain ⟨rfl, rfl⟩ := h
          exact ⟨2, by rw [lrun_step h1, lrun_step h3]; rfl⟩
        · rw [if_neg h105] at h3 ⊢
          have h4 : lstep env K .closing w2 = (nflogClose K w2 >>= fun x => .ok (.done, x.2)) := rfl
          simp only [GoM.bind_apply]
          rcases hc : nflogClose K w2 with ⟨⟨⟩, w3⟩ | _ | _
          · rw [hc] at h4
            refine ⟨?_, by intro h; cases h⟩
            intro fin w' h
            simp only [Res.ok_bind, GoM.pure_apply, Res.ok.injEq, Prod.mk.injEq] at h
            obtain ⟨rfl, rfl⟩ := h
            exact ⟨3, by rw [lrun_step h1, lrun_step h3, lrun_step h4]; rfl⟩
          · rw [hc] at h4
            refine ⟨(by intro fin w' h; cases h), fun _ => ⟨3, ?_⟩⟩
            rw [lrun_step h1, lrun_step h3, lrun_panic h4]
          · refine ⟨(by intro fin w' h; cases h), (by intro h; cases h)⟩
      · have h3 : lstep env K (.failed n) w1 = .panic := by
          simp only [lstep, GoM.bind_apply, hrep, Res.panic_bind]
        refine ⟨(by intro fin w' h; cases h), fun _ => ⟨2, ?_⟩⟩
        rw [lrun_step h1, lrun_panic h3]
      · refine ⟨(by intro fin w' h; cases h), (by intro h; cases h)⟩
    · have h1 : lstep env K .idle w = .ok (.msgs (d.take 65536), { w with trace := w.trace ++ [.recvfrom sh.fd 65536 0 (.ok (d.take 65536))] }) := by
        simp only [lstep, GoM.bind_apply, getL, Res.ok_bind, hs, hr]; rfl
      have h2 : readIter env K w = handleDatagram env (d.take 65536) { w with trace := w.trace ++ [.recvfrom sh.fd 65536 0 (.ok (d.take 65536))] } := by
        simp only [readIter, GoM.bind_apply, getL, Res.ok_bind, hs, hr]
      rw [h2]
      generalize ({ w with trace := w.trace ++ [.recvfrom sh.fd 65536 0 (.ok (d.take 65536))] } : W) = w1 at h1
      generalize d.take 65536 = b at h1
      have hd : handleDatagram env b w1 = (parseLog env b w1 >>= fun x => (match x.1 with
          | some err => (do
            report env "Parse error" err
            pure false : M Bool)
          | none => pure false) x.2) := rfl
      rw [hd]
      clear hd
      by_cases hpd : parseLog env b w1 = .diverge
      · rw [hpd]
        refine ⟨(by intro fin w' h; cases h), (by intro h; cases h)⟩
      · obtain ⟨n, hn⟩ := loopN_of_loop (r := parseLog env b w1) rfl hpd
        obtain ⟨k, hA, hP⟩ := msgs_alone (env := env) (K := K) n (b, w1) _ hn hpd
        rcases hp : parseLog env b w1 with ⟨e, w2⟩ | _ | _
        · have hA := hA _ hp
          simp only [Res.ok_bind]
          cases e with
          | none =>
            refine ⟨?_, by intro h; cases h⟩
            intro fin w' h
            simp only [GoM.pure_apply, Res.ok.injEq, Prod.mk.injEq] at h
            obtain ⟨rfl, rfl⟩ := h
            refine ⟨(k + 0) + 1, ?_⟩
            rw [lrun_step h1]
            exact hA 0
          | some err =>
            have h4 : lstep env K (.parseErr err) w2 = (report env "Parse error" err w2 >>= fun x => .ok (.idle, x.2)) := rfl
            have hA : ∀ j, lrun env K (k + j) (.msgs b) w1 = lrun env K j (.parseErr err) w2 := hA
            simp only [GoM.bind_apply]
            rcases hrep : report env "Parse error" err w2 with ⟨⟨⟩, w3⟩ | _ | _
            · rw [hrep] at h4
              refine ⟨?_, by intro h; cases h⟩
              intro fin w' h
              simp only [Res.ok_bind, GoM.pure_apply, Res.ok.injEq, Prod.mk.injEq] at h
              obtain ⟨rfl, rfl⟩ := h
              refine ⟨(k + 1) + 1, ?_⟩
              rw [lrun_step h1, hA 1, lrun_step h4]
              rfl
            · rw [hrep] at h4
              refine ⟨(by intro fin w' h; cases h), fun _ => ⟨(k + 1) + 1, ?_⟩⟩
              rw [lrun_step h1, hA 1, lrun_panic h4]
            · refine ⟨(by intro fin w' h; cases h), (by intro h; cases h)⟩
        · refine ⟨(by intro fin w' h; cases h), fun _ => ⟨k + 1, ?_⟩⟩
          rw [lrun_step h1]
          exact hP hp
        · exact absurd hp hpd

end Verif.NfLog
