import Verif.NfQueue.Beside
import Verif.NfQueue.QueueKernel
import Verif.Props.NfQueueKernel
/-!
C139: a call made while the queue's own goroutine reads from the socket (NfQueue/Beside.lean), under every interleaving: which system calls
it makes, and what becomes of the queue.
-/
namespace Verif.Props
open Verif.Common Verif.Sys Verif.Spec Verif.NfQueue

/-- System calls the reader and the callbacks considered here do not make: sends of configuration requests, receives without flags, closes. -/
def ofCaller : Ev QEv → Bool
  | .sendto .. => true
  | .close .. => true
  | .recvfrom _ _ flags _ => flags == 0
  | _ => false

/-- The caller's own system calls. -/
def callerEvs (evs : List (Ev QEv)) : List (Ev QEv) := evs.filter ofCaller

/-- What callbacks may do here: application events, and messages that are no configuration requests (verdicts). -/
def Verdictish (e : Endian) : Ev QEv → Prop
  | .app _ => True
  | .sendmsg _ b _ => ∀ m, decodeNf e b = some m → m.type ≠ 0x302
  | _ => False

/-- What the reader's goroutine does: that, and receiving with MSG_WAITALL. -/
def Harmless (e : Endian) (ev : Ev QEv) : Prop := Verdictish e ev ∨ ∃ fd size r, ev = .recvfrom fd size 0x100 r

/-- Application code that does only things of `P`, and nothing with the queue's handle. -/
def Does (P : Ev QEv → Prop) (env : Env) (K : Kernel QEv) : Prop :=
  ∀ w, ∃ l, (env.cbEffect w).trace = w.trace ++ l ∧ Genuine K w.trace l ∧ (∀ ev ∈ l, P ev) ∧
    (env.cbEffect w).st.handle = w.st.handle ∧ (env.cbEffect w).st.queueNum = w.st.queueNum

/-- Application code that may give verdicts, but does nothing else with sockets or with the queue's handle. -/
def Minds (env : Env) (K : Kernel QEv) : Prop := Does (Verdictish env.e) env K

theorem Harmless.callerEvs {e : Endian} {evs : List (Ev QEv)} (h : ∀ ev ∈ evs, Harmless e ev) : callerEvs evs = [] := by
  unfold Props.callerEvs
  rw [List.filter_eq_nil_iff]
  intro ev hev
  rcases h ev hev with h | ⟨fd, size, r, rfl⟩
  · cases ev <;> simp_all [Verdictish, ofCaller]
  · simp [ofCaller]

/-! ### The steps -/

/-- Changes nothing but the attribute map. -/
def Stays {α : Type} (m : M α) : Prop :=
  ∀ w x w', m w = .ok (x, w') → w'.trace = w.trace ∧ w'.heap = w.heap ∧ w'.st.handle = w.st.handle ∧ w'.st.queueNum = w.st.queueNum

theorem Stays.pure {α : Type} (x : α) : Stays (Pure.pure x : M α) := by
  intro w y w' h
  rw [GoM.pure_apply] at h
  cases h
  exact ⟨rfl, rfl, rfl, rfl⟩

theorem Stays.lift {α : Type} (x : Res α) : Stays (GoM.lift x : M α) := by
  intro w y w' h
  rw [GoM.lift_apply] at h
  cases x with
  | ok a => cases h; exact ⟨rfl, rfl, rfl, rfl⟩
  | panic => cases h
  | diverge => cases h

theorem Stays.panic {α : Type} : Stays (GoM.panic : M α) := by
  intro w x w' h; cases h

theorem Stays.bind {α β : Type} {m : M α} {f : α → M β} (hm : Stays m) (hf : ∀ x, Stays (f x)) : Stays (m >>= f) := by
  intro w y w' h
  rw [GoM.bind_apply] at h
  obtain ⟨⟨x, w1⟩, h1, h2⟩ := Res.bind_eq_ok.mp h
  obtain ⟨a, b, c, d⟩ := hm w x w1 h1
  obtain ⟨a', b', c', d'⟩ := hf x w1 y w' h2
  exact ⟨a'.trans a, b'.trans b, c'.trans c, d'.trans d⟩

theorem Stays.ite {α : Type} {p : Prop} [Decidable p] {m n : M α} (hm : Stays m) (hn : Stays n) : Stays (if p then m else n) := by
  split
  · exact hm
  · exact hn

theorem stays_readBytes (s : Slice) : Stays (readBytes s) := by
  intro w x w' h; cases h; exact ⟨rfl, rfl, rfl, rfl⟩

theorem stays_decodeM (env : Env) (buf : Slice) (n : Nat) : Stays (decodeM env buf n) := by
  unfold decodeM
  refine (Stays.lift _).bind fun view => (stays_readBytes _).bind fun bytes => (Stays.lift _).bind fun x => ?_
  obtain ⟨hdr, payload, err⟩ := x
  cases hdr with
  | none => exact .panic
  | some hdr =>
    have h1 : Stays (if hdr.type = 2 then do
        let (_, code) ← GoM.lift (netlinkErrMessagetoStruct env.e payload)
        if code ≠ 0 then pure (some (Err.netlink code)) else pure none
      else pure none : M (Option Err)) := by
      refine .ite ((Stays.lift _).bind fun y => ?_) (.pure _)
      exact .ite (.pure _) (.pure _)
    refine h1.bind fun early => ?_
    cases early with
    | some ne => exact .pure _
    | none =>
      cases err with
      | some err => exact .pure _
      | none =>
        refine (Stays.lift _).bind fun x => (Stays.lift _).bind fun p16 => (Stays.lift _).bind fun p20 => ?_
        refine Stays.bind ?_ fun y => .pure _
        intro w x w' h
        unfold parseAttrs at h
        split at h
        · cases h; exact ⟨rfl, rfl, rfl, rfl⟩
        · cases h
        · cases h

theorem stays_judge (env : Env) (buf : Slice) (n : Nat) : Stays (judge env buf n) := by
  unfold judge
  refine (Stays.lift _).bind fun view => (stays_readBytes _).bind fun bytes => (Stays.lift _).bind fun x => ?_
  obtain ⟨hdr, payload, err⟩ := x
  cases hdr with
  | none => exact .panic
  | some hdr =>
    refine .ite ((Stays.lift _).bind fun y => ?_) (.pure _)
    exact .ite (.pure _) (.pure _)

/-- The reader's step: its events, and the handle stays. -/
theorem reader_does {env : Env} {K : Kernel QEv} {P : Ev QEv → Prop} (hP : ∀ a, P (.app a)) (hM : Does P env K) {pc pc' : RPc} {w w' : W} (h : rstep env K pc w = .ok (pc', w')) :
    ∃ evs, w'.trace = w.trace ++ evs ∧ Genuine K w.trace evs ∧ (pc = .idle ∧ (∃ qh r, w.st.handle = some qh ∧ evs = [.recvfrom qh.fd w.st.buf.len 0x100 r]) ∨ ∀ ev ∈ evs, P ev) ∧ w'.st.handle = w.st.handle ∧
      w'.st.queueNum = w.st.queueNum := by
  cases pc with
  | idle =>
    simp only [rstep, GoM.bind_apply, getQ, Res.ok_bind] at h
    cases hh : w.st.handle with
    | none => rw [hh] at h; cases h
    | some qh =>
      rw [hh] at h
      simp only [GoM.bind_apply] at h
      obtain ⟨⟨r, w1⟩, h1, h2⟩ := Res.bind_eq_ok.mp h
      have hrec := records_recvInto K qh.fd w.st.buf 0x100 w _ _ h1
      have hw : w' = w1 := by
        cases r with
        | error n => simp only [GoM.pure_apply, Res.ok.injEq, Prod.mk.injEq] at h2; exact h2.2.symm
        | ok n => simp only [GoM.pure_apply, Res.ok.injEq, Prod.mk.injEq] at h2; exact h2.2.symm
      subst hw
      rcases recvInto_spec K qh.fd w.st.buf 0x100 w with ⟨e1, h3⟩ | ⟨d, _, h3⟩
      · rw [h3] at h1
        simp only [Res.ok.injEq, Prod.mk.injEq] at h1
        obtain ⟨_, rfl⟩ := h1
        obtain ⟨evs, h4, h5⟩ := hrec
        simp only [List.append_cancel_left_eq] at h4
        subst h4
        exact ⟨_, rfl, h5, .inl ⟨rfl, qh, _, rfl, rfl⟩, hh, rfl⟩
      · rw [h3] at h1
        simp only [Res.ok.injEq, Prod.mk.injEq] at h1
        obtain ⟨_, rfl⟩ := h1
        obtain ⟨evs, h4, h5⟩ := hrec
        simp only [List.append_cancel_left_eq] at h4
        subst h4
        exact ⟨_, rfl, h5, .inl ⟨rfl, qh, _, rfl, rfl⟩, hh, rfl⟩
  | got buf n =>
    simp only [rstep, GoM.bind_apply] at h
    obtain ⟨⟨x, w1⟩, h1, h2⟩ := Res.bind_eq_ok.mp h
    simp only [GoM.pure_apply, Res.ok.injEq, Prod.mk.injEq] at h2
    obtain ⟨_, rfl⟩ := h2
    obtain ⟨a, _, c, d⟩ := stays_decodeM env buf n w _ _ h1
    exact ⟨[], by simp [a], .nil, by simp, c, d⟩
  | parsed g at' err =>
    simp only [rstep, GoM.bind_apply, getQ, Res.ok_bind] at h
    have good : ∀ ev : QEv, (do
        emit ev
        runCallback env
        pure .idle : M RPc) w = .ok (pc', w') → ∃ evs, w'.trace = w.trace ++ evs ∧ Genuine K w.trace evs ∧ (∀ ev ∈ evs, P ev) ∧
          w'.st.handle = w.st.handle ∧ w'.st.queueNum = w.st.queueNum := by
      intro ev he
      simp only [emit, GoM.bind_apply, Res.ok_bind, runCallback, GoM.pure_apply, Res.ok.injEq, Prod.mk.injEq] at he
      obtain ⟨_, rfl⟩ := he
      obtain ⟨l, a, b, c, d, f⟩ := hM (w.log (.app ev))
      refine ⟨.app ev :: l, by rw [a]; simp [World.log], .cons trivial b, ?_, d, f⟩
      intro x hx
      rcases List.mem_cons.mp hx with rfl | hx
      · exact hP _
      · exact c x hx
    have quiet : (do
        let (id, mark, packet) ← packetInfoM env at'
        modifyQ fun q => { q with processed := q.processed + 1 }
        pure (.ready id mark packet) : M RPc) w = .ok (pc', w') → ∃ evs, w'.trace = w.trace ++ evs ∧ Genuine K w.trace evs ∧
          (∀ ev ∈ evs, P ev) ∧ w'.st.handle = w.st.handle ∧ w'.st.queueNum = w.st.queueNum := by
      intro he
      simp only [GoM.bind_apply, packetInfoM] at he
      obtain ⟨⟨⟨id, mark, pkt⟩, w1⟩, h1, h2⟩ := Res.bind_eq_ok.mp he
      obtain ⟨y, h3, h4⟩ := Res.bind_eq_ok.mp h1
      simp only [Res.ok.injEq, Prod.mk.injEq] at h4
      obtain ⟨_, rfl⟩ := h4
      simp only [modifyQ, Res.ok_bind, GoM.pure_apply, Res.ok.injEq, Prod.mk.injEq] at h2
      obtain ⟨_, rfl⟩ := h2
      exact ⟨[], by simp, .nil, by simp, rfl, rfl⟩
    cases err with
    | none =>
      obtain ⟨evs, h1, h2, h3, h4, h5⟩ := quiet h
      exact ⟨evs, h1, h2, .inr h3, h4, h5⟩
    | some err =>
      cases hecb : w.st.errorCallback with
      | none =>
        rw [hecb] at h
        obtain ⟨evs, h1, h2, h3, h4, h5⟩ := quiet h
        exact ⟨evs, h1, h2, .inr h3, h4, h5⟩
      | some ecb =>
        rw [hecb] at h
        obtain ⟨evs, h1, h2, h3, h4, h5⟩ := good _ h
        exact ⟨evs, h1, h2, .inr h3, h4, h5⟩
  | ready id mark pkt =>
    simp only [rstep, GoM.bind_apply, getQ, Res.ok_bind] at h
    cases hcb : w.st.callback with
    | none => rw [hcb] at h; cases h
    | some cb =>
      rw [hcb] at h
      simp only [emitPacket, GoM.bind_apply, Res.ok_bind, runCallback, GoM.pure_apply, Res.ok.injEq, Prod.mk.injEq] at h
      obtain ⟨_, rfl⟩ := h
      obtain ⟨l, a, b, c, d, f⟩ := hM (w.log (.app (.packet cb (optBytes w.heap pkt) mark id w.st.privateData)))
      have hv : ∀ ev ∈ .app (.packet cb (optBytes w.heap pkt) mark id w.st.privateData) :: l, P ev := by
        intro x hx
        rcases List.mem_cons.mp hx with rfl | hx
        · exact hP _
        · exact c x hx
      exact ⟨.app (.packet cb (optBytes w.heap pkt) mark id w.st.privateData) :: l, by rw [a]; simp [World.log], .cons trivial b,
        .inr hv, d, f⟩

/-- The reader's step: its events are harmless. -/
theorem reader_minds {env : Env} {K : Kernel QEv} (hM : Minds env K) {pc pc' : RPc} {w w' : W} (h : rstep env K pc w = .ok (pc', w')) :
    ∃ evs, w'.trace = w.trace ++ evs ∧ Genuine K w.trace evs ∧ (∀ ev ∈ evs, Harmless env.e ev) ∧ w'.st.handle = w.st.handle ∧
      w'.st.queueNum = w.st.queueNum := by
  obtain ⟨evs, h1, h2, h3, h4, h5⟩ := reader_does (fun _ => trivial) hM h
  refine ⟨evs, h1, h2, ?_, h4, h5⟩
  rcases h3 with ⟨_, qh, r, _, rfl⟩ | h3
  · simp [Harmless]
  · exact fun ev hev => .inl (h3 ev hev)

/-! ### The caller's system calls -/

/-- How a call that returned went, with request `b` on the socket of `qh`: what it returned, and its system calls. -/
inductive Finished (a : Ask) (qh : Handle) (b : List Byte) : Option Err → List (Ev QEv) → Prop
  | unsent {n l} : NfQueue.SendEvs qh.fd b (some n) l → Finished a qh b (some (.errno n)) l
  | unanswered {n l} : NfQueue.SendEvs qh.fd b none l →
      Finished a qh b (some (.wrap "Recvfrom returned error %v" (.errno n))) (l ++ [.recvfrom qh.fd qh.buf.len 0 (.error n)])
  | refused {c l d} : c ≠ 0 → NfQueue.SendEvs qh.fd b none l → Finished a qh b (some (.netlink c)) (l ++ [.recvfrom qh.fd qh.buf.len 0 (.ok d)])
  | configured {c l d} : a = .config c → NfQueue.SendEvs qh.fd b none l → Finished a qh b none (l ++ [.recvfrom qh.fd qh.buf.len 0 (.ok d)])
  | stopped {l d cl} : a = .stop → NfQueue.SendEvs qh.fd b none l → NfQueue.CloseEvs qh.fd cl →
      Finished a qh b none (l ++ [.recvfrom qh.fd qh.buf.len 0 (.ok d)] ++ cl)

/-- The caller's system calls so far. -/
def Progress (a : Ask) (qh : Handle) (b : List Byte) : CPc → List (Ev QEv) → Prop
  | .start, l => l = []
  | .sent qh', l => qh' = qh ∧ NfQueue.SendEvs qh.fd b none l
  | .got qh' n, l => qh' = qh ∧ ∃ s d, NfQueue.SendEvs qh.fd b none s ∧ l = s ++ [.recvfrom qh.fd qh.buf.len 0 (.ok d)] ∧ d.length = n
  | .acked, l => a = .stop ∧ ∃ s d, NfQueue.SendEvs qh.fd b none s ∧ l = s ++ [.recvfrom qh.fd qh.buf.len 0 (.ok d)]
  | .done r, l => Finished a qh b r l

theorem judge_error {env : Env} {buf : Slice} {n : Nat} {w w' : W} {err : Err} (h : judge env buf n w = .ok (some err, w')) :
    ∃ c, c ≠ 0 ∧ err = .netlink c := by
  unfold judge at h
  simp only [GoM.bind_apply, GoM.lift_apply] at h
  obtain ⟨⟨v, w1⟩, _, h⟩ := Res.bind_eq_ok.mp h
  obtain ⟨⟨bytes, w2⟩, _, h⟩ := Res.bind_eq_ok.mp h
  obtain ⟨⟨⟨hdr, next, er⟩, w3⟩, _, h⟩ := Res.bind_eq_ok.mp h
  cases hdr with
  | none => cases h
  | some hdr =>
    simp only at h
    split at h
    · simp only [GoM.bind_apply, GoM.lift_apply] at h
      obtain ⟨⟨⟨_, code⟩, w4⟩, _, h⟩ := Res.bind_eq_ok.mp h
      simp only at h
      split at h
      · rename_i hc
        simp only [GoM.pure_apply, Res.ok.injEq, Prod.mk.injEq, Option.some.injEq] at h
        exact ⟨code, hc, h.1.symm⟩
      · simp [GoM.pure_apply] at h
    · simp [GoM.pure_apply] at h

theorem SendEvs.ofCaller {fd : Nat} {b : List Byte} {r : Option Nat} {l : List (Ev QEv)} (h : NfQueue.SendEvs fd b r l) : callerEvs l = l := by
  rcases h with ⟨_, rfl⟩ | ⟨_, rfl⟩ <;> simp [callerEvs, Props.ofCaller]

theorem CloseEvs.ofCaller {fd : Nat} {l : List (Ev QEv)} (h : NfQueue.CloseEvs fd l) : callerEvs l = l := by
  rcases h with rfl | ⟨_, _, rfl⟩ <;> simp [callerEvs, Props.ofCaller]

theorem record_keeps (c : ConfigCall) (q : NfQueue) : (c.record q).handle = q.handle := by cases c <;> rfl

/-- One step of the caller, with its system calls. -/
inductive Move (qh : Handle) (b : List Byte) : CPc → CPc → List (Ev QEv) → Prop
  | sent {es} : NfQueue.SendEvs qh.fd b none es → Move qh b .start (.sent qh) es
  | unsent {n es} : NfQueue.SendEvs qh.fd b (some n) es → Move qh b .start (.done (some (.errno n))) es
  | got {d} : Move qh b (.sent qh) (.got qh d.length) [.recvfrom qh.fd qh.buf.len 0 (.ok d)]
  | unanswered {n} : Move qh b (.sent qh) (.done (some (.wrap "Recvfrom returned error %v" (.errno n)))) [.recvfrom qh.fd qh.buf.len 0 (.error n)]
  | refused {n c} : Move qh b (.got qh n) (.done (some (.netlink c))) []
  | acked {n} : Move qh b (.got qh n) .acked []
  | configured {n} : Move qh b (.got qh n) (.done none) []
  | closed {es} : NfQueue.CloseEvs qh.fd es → Move qh b .acked (.done none) es
  | over {r} : Move qh b (.done r) (.done r) []

/-- One step of the caller: the events `es`, all its own. -/
theorem caller_step {env : Env} {K : Kernel QEv} {a : Ask} {pc pc' : CPc} {w w' : W} {qh : Handle} {l : List (Ev QEv)} {queueNum : U16}
    (hh : w.st.handle = some qh) (hq : pc = .start → w.st.queueNum = queueNum)
    (hP : Progress a qh (hdrBytes env.e (a.call.msg env.e queueNum).header ++ (a.call.msg env.e queueNum).data) pc l)
    (h : astep env K a pc w = .ok (pc', w')) :
    ∃ es, w'.trace = w.trace ++ es ∧ Genuine K w.trace es ∧ callerEvs es = es ∧ w'.st.handle = some qh ∧ (pc' ≠ .start) ∧
      Progress a qh (hdrBytes env.e (a.call.msg env.e queueNum).header ++ (a.call.msg env.e queueNum).data) pc' (l ++ es) ∧
      Move qh (hdrBytes env.e (a.call.msg env.e queueNum).header ++ (a.call.msg env.e queueNum).data) pc pc' es := by
  generalize hb : hdrBytes env.e (a.call.msg env.e queueNum).header ++ (a.call.msg env.e queueNum).data = b at *
  cases pc with
  | start =>
    have hl : l = [] := hP
    subst hl
    simp only [astep, GoM.bind_apply, getQ, Res.ok_bind, modifyQ, record_keeps, hh] at h
    obtain ⟨⟨r, w1⟩, h1, h2⟩ := Res.bind_eq_ok.mp h
    obtain ⟨evs', ht', hg⟩ := records_send env qh _ _ _ _ h1
    obtain ⟨r0, evs, h3, h4⟩ := send_spec env K qh (a.call.msg env.e w.st.queueNum) { w with st := a.call.record w.st }
    rw [hq rfl] at h3 h4 h1
    rw [hb] at h4
    rw [h3] at h1
    simp only [Res.ok.injEq, Prod.mk.injEq] at h1
    obtain ⟨rfl, rfl⟩ := h1
    simp only [List.append_cancel_left_eq] at ht'
    subst ht'
    cases r0 with
    | some n =>
      simp only [Option.map_some, GoM.pure_apply, Res.ok.injEq, Prod.mk.injEq] at h2
      obtain ⟨rfl, rfl⟩ := h2
      exact ⟨evs, rfl, hg, SendEvs.ofCaller h4, by simp [record_keeps, hh], (by intro h; cases h), .unsent h4, .unsent h4⟩
    | none =>
      simp only [Option.map_none, GoM.pure_apply, Res.ok.injEq, Prod.mk.injEq] at h2
      obtain ⟨rfl, rfl⟩ := h2
      exact ⟨evs, rfl, hg, SendEvs.ofCaller h4, by simp [record_keeps, hh], (by intro h; cases h), ⟨rfl, h4⟩, .sent h4⟩
  | sent qh' =>
    obtain ⟨rfl, hs⟩ := hP
    simp only [astep, GoM.bind_apply] at h
    obtain ⟨⟨r, w1⟩, h1, h2⟩ := Res.bind_eq_ok.mp h
    obtain ⟨evs', ht', hg⟩ := records_recvInto K _ _ _ _ _ _ h1
    rcases recvInto_spec K qh'.fd qh'.buf 0 w with ⟨n, h3⟩ | ⟨d, _, h3⟩
    · rw [h3] at h1
      simp only [Res.ok.injEq, Prod.mk.injEq] at h1
      obtain ⟨rfl, rfl⟩ := h1
      simp only [List.append_cancel_left_eq] at ht'
      subst ht'
      simp only [GoM.pure_apply, Res.ok.injEq, Prod.mk.injEq] at h2
      obtain ⟨rfl, rfl⟩ := h2
      exact ⟨_, rfl, hg, by simp [callerEvs, ofCaller], hh, (by intro h; cases h), .unanswered hs, .unanswered⟩
    · rw [h3] at h1
      simp only [Res.ok.injEq, Prod.mk.injEq] at h1
      obtain ⟨rfl, rfl⟩ := h1
      simp only [List.append_cancel_left_eq] at ht'
      subst ht'
      simp only [GoM.pure_apply, Res.ok.injEq, Prod.mk.injEq] at h2
      obtain ⟨rfl, rfl⟩ := h2
      exact ⟨_, rfl, hg, by simp [callerEvs, ofCaller], hh, (by intro h; cases h), ⟨rfl, l, d, hs, rfl, rfl⟩, .got⟩
  | got qh' n =>
    obtain ⟨rfl, s, d, hs, rfl, _⟩ := hP
    simp only [astep, GoM.bind_apply] at h
    obtain ⟨⟨r, w1⟩, h1, h2⟩ := Res.bind_eq_ok.mp h
    obtain ⟨i1, _, i3, _⟩ := stays_judge env _ _ _ _ _ h1
    cases r with
    | some err =>
      obtain ⟨c, hc, rfl⟩ := judge_error h1
      simp only [GoM.pure_apply, Res.ok.injEq, Prod.mk.injEq] at h2
      obtain ⟨rfl, rfl⟩ := h2
      exact ⟨[], by simp [i1], .nil, rfl, i3.trans hh, (by intro h; cases h), (by rw [List.append_nil]; exact .refused hc hs), .refused⟩
    | none =>
      cases a with
      | stop =>
        simp only [GoM.pure_apply, Res.ok.injEq, Prod.mk.injEq] at h2
        obtain ⟨rfl, rfl⟩ := h2
        exact ⟨[], by simp [i1], .nil, rfl, i3.trans hh, (by intro h; cases h), ⟨rfl, s, d, hs, by simp⟩, .acked⟩
      | config c =>
        simp only [GoM.pure_apply, Res.ok.injEq, Prod.mk.injEq] at h2
        obtain ⟨rfl, rfl⟩ := h2
        exact ⟨[], by simp [i1], .nil, rfl, i3.trans hh, (by intro h; cases h), (by rw [List.append_nil]; exact .configured rfl hs), .configured⟩
  | acked =>
    obtain ⟨rfl, s, d, hs, rfl⟩ := hP
    simp only [astep, GoM.bind_apply, getQ, Res.ok_bind, hh, Handle.close] at h
    obtain ⟨⟨r, w1⟩, h1, h2⟩ := Res.bind_eq_ok.mp h
    obtain ⟨⟨r', w2⟩, h1', h3⟩ := Res.bind_eq_ok.mp h1
    obtain ⟨evs', ht', hg⟩ := records_close K _ _ _ _ h1'
    obtain ⟨rc, cl, hc, hcl⟩ := NfQueue.close_spec K qh.fd w
    rw [hc] at h1'
    simp only [Res.ok.injEq, Prod.mk.injEq] at h1'
    obtain ⟨rfl, rfl⟩ := h1'
    simp only [List.append_cancel_left_eq] at ht'
    subst ht'
    simp only [GoM.pure_apply, Res.ok.injEq, Prod.mk.injEq] at h2 h3
    obtain ⟨_, rfl⟩ := h3
    obtain ⟨rfl, rfl⟩ := h2
    exact ⟨cl, rfl, hg, CloseEvs.ofCaller hcl, hh, (by intro h; cases h), .stopped rfl hs hcl, .closed hcl⟩
  | done r =>
    simp only [astep, GoM.pure_apply, Res.ok.injEq, Prod.mk.injEq] at h
    obtain ⟨rfl, rfl⟩ := h
    exact ⟨[], by simp, .nil, rfl, hh, (by intro h; cases h), (by rw [List.append_nil]; exact hP), .over⟩

/-- What holds at every moment. -/
structure Beside (env : Env) (K : Kernel QEv) (a : Ask) (qh : Handle) (w0 : W) (s : Both) (evs : List (Ev QEv)) : Prop where
  trace : s.w.trace = w0.trace ++ evs
  genuine : Genuine K w0.trace evs
  handle : s.w.st.handle = some qh
  queue : s.caller = .start → s.w.st.queueNum = w0.st.queueNum
  own : Progress a qh (hdrBytes env.e (a.call.msg env.e w0.st.queueNum).header ++ (a.call.msg env.e w0.st.queueNum).data) s.caller (callerEvs evs)

theorem callerEvs_append (a b : List (Ev QEv)) : callerEvs (a ++ b) = callerEvs a ++ callerEvs b := List.filter_append _ _

theorem beside_step {env : Env} {K : Kernel QEv} (hM : Minds env K) {a : Ask} {qh : Handle} {w0 : W} {s s' : Both} {evs : List (Ev QEv)} {x : Bool}
    (hB : Beside env K a qh w0 s evs) (h : bstep env K a x s = .ok s') :
    ∃ es, Beside env K a qh w0 s' (evs ++ es) ∧ s'.w.trace = s.w.trace ++ es ∧ Genuine K s.w.trace es ∧
      (x = true ∧ s'.caller = s.caller ∧ (∀ ev ∈ es, Harmless env.e ev) ∨
        x = false ∧ s'.reader = s.reader ∧ astep env K a s.caller s.w = .ok (s'.caller, s'.w)) := by
  cases x with
  | true =>
    simp only [bstep] at h
    obtain ⟨⟨pc, w⟩, h1, h2⟩ := Res.bind_eq_ok.mp h
    cases h2
    obtain ⟨es, e1, e2, e3, e4, e5⟩ := reader_minds hM h1
    refine ⟨es, ⟨by rw [← List.append_assoc, ← hB.trace]; exact e1, hB.genuine.append (by rw [← hB.trace]; exact e2), e4.trans hB.handle,
      fun hc => e5.trans (hB.queue hc), ?_⟩, e1, e2, .inl ⟨rfl, rfl, e3⟩⟩
    rw [callerEvs_append, Harmless.callerEvs e3, List.append_nil]
    exact hB.own
  | false =>
    simp only [bstep] at h
    obtain ⟨⟨pc, w⟩, h1, h2⟩ := Res.bind_eq_ok.mp h
    cases h2
    obtain ⟨es, e1, e2, e3, e4, e5, e6, _⟩ := caller_step hB.handle hB.queue hB.own h1
    refine ⟨es, ⟨by rw [← List.append_assoc, ← hB.trace]; exact e1, hB.genuine.append (by rw [← hB.trace]; exact e2), e4,
      fun hc => absurd hc e5, ?_⟩, e1, e2, .inr ⟨rfl, rfl, h1⟩⟩
    rw [callerEvs_append, e3]
    exact e6

theorem beside_init (env : Env) (K : Kernel QEv) (a : Ask) {qh : Handle} {w : W} (hh : w.st.handle = some qh) (rpc : RPc) :
    Beside env K a qh w ⟨rpc, .start, w⟩ [] := ⟨by simp, .nil, hh, fun _ => rfl, rfl⟩

/-- C139. A configuration call or StopQueue made while the queue's goroutine reads and its callbacks give verdicts: for every interleaving and
every kernel, at every moment, the request that encodes what the call is to do has been sent at most once (twice, verbatim, if the first
attempt failed), then at most one message has been received; StopQueue closes the socket if it returns nil, and only then, and only then
once (twice only if the first attempt failed); the call returns nil only after it received something, and what it returns otherwise
says what failed. -/
theorem C139_calls (env : Env) (K : Kernel QEv) (hM : Minds env K) (a : Ask) (w : W) (qh : Handle) (hh : w.st.handle = some qh) (rpc : RPc)
    (xs : List Bool) (s : Both) (h : bsched env K a xs ⟨rpc, .start, w⟩ = .ok s) :
    ∃ b evs, Encodes env.e b (a.call.req w.st.queueNum) ∧ s.w.trace = w.trace ++ evs ∧ Progress a qh b s.caller (callerEvs evs) := by
  have key : ∀ (xs : List Bool) (s0 s : Both) (evs : List (Ev QEv)), Beside env K a qh w s0 evs → bsched env K a xs s0 = .ok s →
      ∃ evs', Beside env K a qh w s evs' := by
    intro xs
    induction xs with
    | nil =>
      intro s0 s evs hB h
      cases h
      exact ⟨evs, hB⟩
    | cons x xs ih =>
      intro s0 s evs hB h
      simp only [bsched] at h
      obtain ⟨s1, h1, h2⟩ := Res.bind_eq_ok.mp h
      obtain ⟨es, hB1, _⟩ := beside_step hM hB h1
      exact ih s1 s _ hB1 h2
  obtain ⟨evs, hB⟩ := key xs _ s [] (beside_init env K a hh rpc) h
  exact ⟨_, evs, msg_encodes _ _ _, hB.trace, hB.own⟩

end Verif.Props
