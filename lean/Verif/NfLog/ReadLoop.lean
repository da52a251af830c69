import Verif.NfLog.ReadLog
import Verif.Sys.Lemmas
/-! Reading logs: the receive loop. -/
namespace Verif.NfLog
open Common Sys Spec Packet

/-- A receive. -/
def isRecv : Ev LEv → Bool
  | .recvfrom _ _ _ _ => true
  | _ => false

/-- Callbacks that moreover neither receive from nor close any socket. -/
structure Quiet (env : Env) : Prop extends Polite env where
  only : ∀ (w : W) evs, (env.cbEffect w).trace = w.trace ++ evs →
    ∀ ev ∈ evs, isRecv ev = false ∧ isClose ev = false

/-- Between `w` and `w'` the handle is as it was, and what happened are calls of the log callback `cb` and what
callbacks do; every report shows version 4. -/
def Reads (cb : Option Nat) (w w' : W) : Prop :=
  w'.st = w.st ∧ ∃ evs, w'.trace = w.trace ++ evs ∧ errors evs = [] ∧
    (∀ x ∈ logs evs, cb = some x.1 ∧ x.2.version = 4) ∧ ∀ ev ∈ evs, isRecv ev = false ∧ isClose ev = false

theorem Reads.refl (cb : Option Nat) (w : W) : Reads cb w w := ⟨rfl, [], by simp, rfl, by simp [logs], by simp⟩

theorem Reads.trans {cb : Option Nat} {w w' w'' : W} (h : Reads cb w w') (h' : Reads cb w' w'') : Reads cb w w'' := by
  obtain ⟨s, evs, t, e, l, q⟩ := h
  obtain ⟨s', evs', t', e', l', q'⟩ := h'
  refine ⟨s'.trans s, evs ++ evs', by rw [t', t, List.append_assoc], by rw [errors_append, e, e']; rfl, ?_, ?_⟩
  · intro x hx
    rw [logs_append, List.mem_append] at hx
    exact hx.elim (l x) (l' x)
  · intro ev hx
    exact (List.mem_append.mp hx).elim (q ev) (q' ev)

theorem callback_reads {env : Env} (hq : Quiet env) {cb : Nat} {w : W} {m : NfPacket} (hv : m.version = 4) :
    Reads (some cb) w (env.cbEffect (w.log (.app (.log cb m)))) := by
  obtain ⟨evs, ht, hl, he⟩ := hq.appends (w.log (.app (.log cb m)))
  have ho := hq.only _ _ ht
  refine ⟨by rw [hq.keeps]; rfl, [.app (.log cb m)] ++ evs, by rw [ht]; simp [World.log], ?_, ?_, ?_⟩
  · rw [errors_append]
    simp [errors, errored]
    exact he
  · intro x hx
    rw [logs_append, List.mem_append] at hx
    rcases hx with hx | hx
    · simp [logs, logged] at hx; subst hx; exact ⟨rfl, hv⟩
    · unfold logs at hx; rw [filterMap_none hl] at hx; simp at hx
  · intro ev hx
    rcases List.mem_append.mp hx with hx | hx
    · simp at hx; subst hx; exact ⟨rfl, rfl⟩
    · exact ho ev hx

/-- `New` yields a packet whenever it yields no error. -/
theorem New_some {h : Heap} {bytes : Slice} (hv : bytes.Valid h) {c : U64} {mk : List Char} {lv : Bool}
    {p : Option Packet} (hN : New h c bytes mk lv = .ok (p, none)) : ∃ q, p = some q := by
  rcases p with _ | p
  · rw [New_eq hv] at hN
    split at hN
    · simp at hN
    · split at hN
      · obtain ⟨_, _, hN⟩ := Res.bind_eq_ok.mp hN; simp at hN
      · obtain ⟨_, _, hN⟩ := Res.bind_eq_ok.mp hN; simp at hN
  · exact ⟨p, rfl⟩

theorem deliver_reads {env : Env} (hq : Quiet env) {payload : List Byte} {n : U16} {m : NfPacket} {w w' : W}
    {r : Except Err NfPacket} (h : deliver env payload n m w = .ok (r, w')) : Reads w.st.callback w w' := by
  unfold deliver at h
  simp only at h
  obtain ⟨⟨p, err⟩, hN, h⟩ := Res.bind_eq_ok.mp h
  cases err with
  | some err =>
    simp only [Res.ok.injEq, Prod.mk.injEq] at h
    rw [← h.2]
    exact ⟨rfl, [], by simp, rfl, by simp [logs], by simp⟩
  | none =>
    simp only at h
    obtain ⟨_, _, h⟩ := Res.bind_eq_ok.mp h
    obtain ⟨w1, h1, h⟩ := Res.bind_eq_ok.mp h
    simp only [Res.ok.injEq, Prod.mk.injEq] at h
    rw [← h.2]
    unfold invoke at h1
    simp only at h1
    rcases hcb : w.st.callback with _ | cb
    · rw [hcb] at h1; simp at h1
    · rw [hcb] at h1
      simp only [Res.ok.injEq] at h1
      rw [← h1]
      obtain ⟨q, rfl⟩ := New_some (Heap.valid_mk' w.heap payload) hN
      exact callback_reads (w := { w with heap := (w.heap.mk' payload).2 }) hq rfl

/-- The world a step leads to. -/
def stepWorld : Step TlvState (Option Err × W) → W
  | .next s => s.w
  | .done r => r.2

theorem attrStep_reads {env : Env} (hq : Quiet env) {len type : U16} {rest : List Byte} {m : NfPacket} {w : W}
    {x : Step TlvState (Option Err × W)} (h : attrStep env len type rest m w = .ok x) :
    Reads w.st.callback w (stepWorld x) := by
  unfold attrStep at h
  simp only at h
  split at h
  · obtain ⟨_, _, h⟩ := Res.bind_eq_ok.mp h
    simp only [Res.ok.injEq] at h
    rw [← h]
    exact .refl _ w
  · split at h
    · obtain ⟨⟨r, w'⟩, hd, h⟩ := Res.bind_eq_ok.mp h
      have := deliver_reads hq hd
      cases r with
      | error e => simp only [Res.ok.injEq] at h; rw [← h]; exact this
      | ok m => simp only [Res.ok.injEq] at h; rw [← h]; exact this
    · simp only [Res.ok.injEq] at h
      rw [← h]
      exact .refl _ w

theorem tlvBody_reads {env : Env} (hq : Quiet env) {s : TlvState} {x : Step TlvState (Option Err × W)}
    (h : tlvBody env s = .ok x) : Reads s.w.st.callback s.w (stepWorld x) := by
  unfold tlvBody at h
  split at h
  · simp only [Res.ok.injEq] at h; rw [← h]; exact .refl _ _
  · split at h
    · simp only [Res.ok.injEq] at h; rw [← h]; exact .refl _ _
    · obtain ⟨_, _, h⟩ := Res.bind_eq_ok.mp h
      obtain ⟨_, _, h⟩ := Res.bind_eq_ok.mp h
      exact attrStep_reads hq h

/-- A property of all iterations of a loop that returned. -/
theorem loop_ok_of_inv {σ α : Type} {body : σ → Res (Step σ α)} {P : σ → Prop} {Q : α → Prop}
    (hn : ∀ s s', P s → body s = .ok (.next s') → P s') (hd : ∀ s a, P s → body s = .ok (.done a) → Q a)
    {s : σ} {a : α} (hs : P s) (h : loop body s = .ok a) : Q a := by
  obtain ⟨n, hN⟩ := loopN_of_loop h (by simp)
  clear h
  induction n generalizing s with
  | zero => simp [loopN] at hN
  | succ n ih =>
    unfold loopN at hN
    rcases hb : body s with (s' | b) | _ | _
    · rw [hb] at hN; exact ih (hn s s' hs hb) hN
    · rw [hb] at hN
      simp only [Res.ok.injEq] at hN
      rw [← hN]; exact hd s b hs hb
    · rw [hb] at hN; simp at hN
    · rw [hb] at hN; simp at hN

theorem parsePacket_reads {env : Env} (hq : Quiet env) {b : List Byte} {w w' : W} {r : Option Err}
    (h : parsePacket env b w = .ok (r, w')) : Reads w.st.callback w w' := by
  unfold parsePacket at h
  refine loop_ok_of_inv (P := fun s => Reads w.st.callback w s.w) (Q := fun a => Reads w.st.callback w a.2)
    ?_ ?_ (.refl _ w) h
  · intro s s' hs hb
    have h1 := tlvBody_reads hq hb
    rw [hs.1] at h1
    exact hs.trans h1
  · intro s a hs hb
    have h1 := tlvBody_reads hq hb
    rw [hs.1] at h1
    exact hs.trans h1

/-- The world a step leads to. -/
def logWorld : Step (List Byte × W) (Option Err × W) → W
  | .next s => s.2
  | .done r => r.2

theorem logBody_reads {env : Env} (hq : Quiet env) {s : List Byte × W}
    {x : Step (List Byte × W) (Option Err × W)} (h : logBody env s = .ok x) :
    Reads s.2.st.callback s.2 (logWorld x) := by
  unfold logBody at h
  split at h
  · simp only [Res.ok.injEq] at h; rw [← h]; exact .refl _ _
  · obtain ⟨⟨n, t⟩, _, h⟩ := Res.bind_eq_ok.mp h
    simp only at h
    split at h
    · simp only [Res.ok.injEq] at h; rw [← h]; exact .refl _ _
    · obtain ⟨⟨r, w1⟩, hm, h⟩ := Res.bind_eq_ok.mp h
      have h1 : Reads s.2.st.callback s.2 w1 := by
        unfold parseMessage at hm
        split at hm
        · obtain ⟨b, _, hm⟩ := Res.bind_eq_ok.mp hm
          exact parsePacket_reads hq hm
        · simp only [Res.ok.injEq, Prod.mk.injEq] at hm; rw [← hm.2]; exact .refl _ _
      cases r with
      | some err => simp only [Res.ok.injEq] at h; rw [← h]; exact h1
      | none =>
        simp only at h
        obtain ⟨b, _, h⟩ := Res.bind_eq_ok.mp h
        simp only [Res.ok.injEq] at h; rw [← h]; exact h1

theorem parseLog_reads {env : Env} (hq : Quiet env) {b : List Byte} {w w' : W} {r : Option Err}
    (h : parseLog env b w = .ok (r, w')) : Reads w.st.callback w w' := by
  unfold parseLog at h
  refine loop_ok_of_inv (P := fun s => Reads w.st.callback w s.2) (Q := fun a => Reads w.st.callback w a.2)
    ?_ ?_ (.refl _ w) h
  · intro s s' hs hb
    have h1 := logBody_reads hq hb
    rw [hs.1] at h1
    exact hs.trans h1
  · intro s a hs hb
    have h1 := logBody_reads hq hb
    rw [hs.1] at h1
    exact hs.trans h1

/-! ### Reports of errors -/

/-- What a report of an error looks like from outside: a call of the error callback, if there is one, and
whatever that causes. -/
inductive ErrReport (ecb : Option Nat) (kind : String) (err : Err) : List (Ev LEv) → Prop
  | silent : ecb = none → ErrReport ecb kind err []
  | told {cb rest} : ecb = some cb → logs rest = [] → errors rest = [] →
      (∀ ev ∈ rest, isRecv ev = false ∧ isClose ev = false) →
      ErrReport ecb kind err (.app (.error cb kind err) :: rest)

theorem report_spec {env : Env} (hq : Quiet env) (kind : String) (err : Err) (w : W) :
    ∃ w' evs, report env kind err w = .ok ((), w') ∧ w'.st = w.st ∧ w'.trace = w.trace ++ evs ∧
      ErrReport w.st.errorCallback kind err evs := by
  unfold report
  rcases hcb : w.st.errorCallback with _ | cb
  · exact ⟨w, [], rfl, rfl, by simp, .silent rfl⟩
  · obtain ⟨evs, ht, hl, he⟩ := hq.appends (w.log (.app (.error cb kind err)))
    have ho := hq.only _ _ ht
    refine ⟨_, .app (.error cb kind err) :: evs, rfl, by rw [hq.keeps]; rfl, by rw [ht]; simp [World.log], ?_⟩
    exact .told rfl (filterMap_none hl) (filterMap_none he) ho

/-! ### Turns -/

/-- What one turn of `ReadLogs` on descriptor `fd` looks like from outside, with the callbacks `cb`, `ecb`;
`stop` = it is the last one.  Always exactly one receive comes first.
* An overrun (ENOBUFS = 105) is reported.
* Any other receive error is reported and the socket closed; this is the last turn.
* A datagram is parsed, which only calls the log callback; if that fails, the error is reported.  A
  well-formed datagram is parsed without error and reported as it should be. -/
inductive LogTurn (fd : Nat) (cb ecb : Option Nat) : Bool → List (Ev LEv) → Prop
  | overrun {rep} : ErrReport ecb "Netlink error" (.errno 105) rep →
      LogTurn fd cb ecb false (.recvfrom fd 65536 0 (.error 105) :: rep)
  | failed {n rep closes} : n ≠ 105 → ErrReport ecb "Netlink error" (.errno n) rep → CloseEvs fd closes →
      LogTurn fd cb ecb true (.recvfrom fd 65536 0 (.error n) :: (rep ++ closes))
  | parsed {d evs rep} {r : Option Err} : errors evs = [] → (∀ x ∈ logs evs, cb = some x.1 ∧ x.2.version = 4) →
      (∀ ev ∈ evs, isRecv ev = false ∧ isClose ev = false) →
      (r = none → rep = []) → (∀ err, r = some err → ErrReport ecb "Parse error" err rep) →
      (∀ items, d = datagram items → (∀ i ∈ items, ItemOk i) → cb.isSome = true → r = none ∧ ∃ ms,
        AllReported items ms ∧ (logs evs).map Prod.snd = ms) →
      LogTurn fd cb ecb false (.recvfrom fd 65536 0 (.ok d) :: (evs ++ rep))

theorem readIter_turn {env : Env} (hq : Quiet env) {K : Kernel LEv} {w w' : W} {sh : Handle} {fin : Bool}
    (hs : w.st.socket = some sh) (h : readIter env K w = .ok (fin, w')) :
    w'.st = w.st ∧ ∃ g, w'.trace = w.trace ++ g ∧ LogTurn sh.fd w.st.callback w.st.errorCallback fin g := by
  unfold readIter at h
  simp only [GoM.bind_apply, getL, Res.ok_bind, hs] at h
  rcases recvfrom_spec K sh.fd 65536 0 w with ⟨n, _, hr⟩ | ⟨d, _, hr⟩
  · rw [hr] at h
    simp only [Res.ok_bind] at h
    unfold handleFailure at h
    obtain ⟨w1, evs, hrep, hst, htr, hE⟩ := report_spec hq "Netlink error" (.errno n)
      ({ w with trace := w.trace ++ [.recvfrom sh.fd 65536 0 (.error n)] } : W)
    simp only [GoM.bind_apply, hrep, Res.ok_bind] at h
    by_cases h105 : n = 105
    · subst h105
      rw [if_pos rfl] at h
      simp only [GoM.pure_apply, Res.ok.injEq, Prod.mk.injEq] at h
      obtain ⟨rfl, rfl⟩ := h
      exact ⟨hst, _, by rw [htr]; simp, .overrun hE⟩
    · rw [if_neg h105] at h
      have hs1 : w1.st.socket = some sh := by rw [hst]; exact hs
      obtain ⟨rc, cl, hc, hce⟩ := close_spec K sh.fd w1
      simp only [GoM.bind_apply, nflogClose, getL, Res.ok_bind, hs1, closeHandle, hc, GoM.pure_apply, Res.ok.injEq,
        Prod.mk.injEq] at h
      obtain ⟨rfl, rfl⟩ := h
      exact ⟨hst, _, by simp only; rw [htr]; simp, .failed h105 hE hce⟩
  · rw [hr] at h
    simp only [Res.ok_bind] at h
    unfold handleDatagram at h
    obtain ⟨⟨r, w1⟩, hp, h⟩ := Res.bind_eq_ok.mp h
    obtain ⟨hst, evs, htr, he, hl, hn⟩ := parseLog_reads hq hp
    have hwf : ∀ items, d.take 65536 = datagram items → (∀ i ∈ items, ItemOk i) → w.st.callback.isSome = true →
        r = none ∧ ∃ ms, AllReported items ms ∧ (logs evs).map Prod.snd = ms := by
      intro items hd hall hcb
      obtain ⟨cb, hcb⟩ := Option.isSome_iff_exists.mp hcb
      have hlen : (datagram items ++ []).length < 4294967296 := by
        rw [List.append_nil, ← hd, List.length_take]; omega
      obtain ⟨w2, ms, hl2, ⟨_, evs2, ht2, hlog2, _⟩, hr2⟩ := parse_items hq.toPolite (cb := cb) items []
        ({ w with trace := w.trace ++ [.recvfrom sh.fd 65536 0 (.ok (d.take 65536))] } : W) hlen hall hcb
      rw [List.append_nil, log_end, ← hd] at hl2
      have heq : (Res.ok (r, w1) : Res (Option Err × W)) = .ok (none, w2) := by
        rw [← hp, ← hl2]; rfl
      simp only [Res.ok.injEq, Prod.mk.injEq] at heq
      obtain ⟨rfl, rfl⟩ := heq
      have : evs = evs2 := List.append_cancel_left (htr.symm.trans ht2)
      subst this
      exact ⟨rfl, ms, hr2, by rw [hlog2, List.map_map]; exact List.map_id' ms⟩
    cases r with
    | none =>
      simp only [GoM.pure_apply, Res.ok.injEq, Prod.mk.injEq] at h
      obtain ⟨rfl, rfl⟩ := h
      refine ⟨hst, _, by rw [htr]; simp; rfl, ?_⟩
      have := LogTurn.parsed (fd := sh.fd) (cb := w.st.callback) (ecb := w.st.errorCallback) (d := d.take 65536)
        (rep := []) (r := none) he hl hn (fun _ => rfl) (by simp) hwf
      simpa using this
    | some err =>
      obtain ⟨w2, evs2, hrep, hst2, htr2, hE⟩ := report_spec hq "Parse error" err w1
      simp only [GoM.bind_apply, hrep, Res.ok_bind, GoM.pure_apply, Res.ok.injEq, Prod.mk.injEq] at h
      obtain ⟨rfl, rfl⟩ := h
      refine ⟨hst2.trans hst, _, by rw [htr2, htr]; simp; rfl, ?_⟩
      refine .parsed (r := some err) he hl hn (by simp) ?_ hwf
      intro e he
      simp only [Option.some.injEq] at he
      subst he
      rw [hst] at hE
      exact hE

theorem readLogs_turns {env : Env} (hq : Quiet env) {K : Kernel LEv} {sh : Handle} : ∀ (n : Nat) (w w' : W) (fin : Bool),
    w.st.socket = some sh → readLogs env K n w = .ok (fin, w') →
    w'.st = w.st ∧ ∃ (gs : List (List (Ev LEv))) (last : List (Ev LEv)), w'.trace = w.trace ++ (gs.flatten ++ last) ∧
      (∀ g ∈ gs, LogTurn sh.fd w.st.callback w.st.errorCallback false g) ∧
      (fin = false → last = [] ∧ gs.length = n) ∧
      (fin = true → LogTurn sh.fd w.st.callback w.st.errorCallback true last ∧ gs.length < n) := by
  intro n
  induction n with
  | zero =>
    intro w w' fin hs h
    simp only [readLogs, GoM.pure_apply, Res.ok.injEq, Prod.mk.injEq] at h
    obtain ⟨rfl, rfl⟩ := h
    exact ⟨rfl, [], [], by simp, by simp, by simp, by simp⟩
  | succ n ih =>
    intro w w' fin hs h
    unfold readLogs at h
    simp only [GoM.bind_apply] at h
    obtain ⟨⟨b, w1⟩, h1, h⟩ := Res.bind_eq_ok.mp h
    obtain ⟨hst, g, htr, hg⟩ := readIter_turn hq hs h1
    cases b with
    | true =>
      simp only [if_true, GoM.pure_apply, Res.ok.injEq, Prod.mk.injEq] at h
      obtain ⟨rfl, rfl⟩ := h
      exact ⟨hst, [], g, by simpa using htr, by simp, by simp, fun _ => ⟨hg, by simp⟩⟩
    | false =>
      simp only [Bool.false_eq_true, if_false] at h
      obtain ⟨hst2, gs, last, htr2, h2, h3, h4⟩ := ih w1 w' fin (by rw [hst]; exact hs) h
      rw [hst] at h2 h4
      refine ⟨hst2.trans hst, g :: gs, last, by rw [htr2, htr]; simp, ?_, ?_, ?_⟩
      · intro x hx
        rcases List.mem_cons.mp hx with rfl | hx
        · exact hg
        · exact h2 x hx
      · intro hf; obtain ⟨a, b⟩ := h3 hf; exact ⟨a, by simpa using b⟩
      · intro hf; obtain ⟨a, b⟩ := h4 hf; exact ⟨a, by simpa using b⟩

/-- It does not crash on well-formed datagrams. -/
theorem readIter_runs {env : Env} (hq : Quiet env) {K : Kernel LEv} {w : W} {sh : Handle} {cb : Nat}
    (hs : w.st.socket = some sh) (hcb : w.st.callback = some cb)
    (hK : ∀ d, K.recv w.trace sh.fd = .ok d → ∃ items, d.take 65536 = datagram items ∧ ∀ i ∈ items, ItemOk i) :
    ∃ fin w', readIter env K w = .ok (fin, w') := by
  unfold readIter
  simp only [GoM.bind_apply, getL, Res.ok_bind, hs]
  rcases recvfrom_spec K sh.fd 65536 0 w with ⟨n, _, hr⟩ | ⟨d, hd, hr⟩
  · rw [hr]
    simp only [Res.ok_bind]
    unfold handleFailure
    obtain ⟨w1, evs, hrep, hst, _, _⟩ := report_spec hq "Netlink error" (.errno n)
      ({ w with trace := w.trace ++ [.recvfrom sh.fd 65536 0 (.error n)] } : W)
    simp only [GoM.bind_apply, hrep, Res.ok_bind]
    split
    · exact ⟨_, _, rfl⟩
    · have hs1 : w1.st.socket = some sh := by rw [hst]; exact hs
      obtain ⟨rc, cl, hc, hce⟩ := close_spec K sh.fd w1
      simp only [GoM.bind_apply, nflogClose, getL, Res.ok_bind, hs1, closeHandle, hc]
      exact ⟨_, _, rfl⟩
  · rw [hr]
    simp only [Res.ok_bind]
    obtain ⟨items, he, hall⟩ := hK d hd
    have hlen : (datagram items ++ []).length < 4294967296 := by
      rw [List.append_nil, ← he, List.length_take]; omega
    obtain ⟨w2, ms, hl2, _, _⟩ := parse_items hq.toPolite (cb := cb) items []
      ({ w with trace := w.trace ++ [.recvfrom sh.fd 65536 0 (.ok (d.take 65536))] } : W) hlen hall hcb
    rw [List.append_nil, log_end, ← he] at hl2
    exact ⟨false, w2, (congrArg (· >>= _) hl2).trans rfl⟩

theorem readLogs_runs {env : Env} (hq : Quiet env) {K : Kernel LEv} {sh : Handle} {cb : Nat}
    (hK : ∀ tr d, K.recv tr sh.fd = .ok d → ∃ items, d.take 65536 = datagram items ∧ ∀ i ∈ items, ItemOk i) :
    ∀ (n : Nat) (w : W), w.st.socket = some sh → w.st.callback = some cb →
      ∃ fin w', readLogs env K n w = .ok (fin, w') := by
  intro n
  induction n with
  | zero => intro w _ _; exact ⟨false, w, rfl⟩
  | succ n ih =>
    intro w hs hcb
    obtain ⟨fin, w1, h1⟩ := readIter_runs hq hs hcb (hK w.trace)
    obtain ⟨hst, _, _, _⟩ := readIter_turn hq hs h1
    unfold readLogs
    simp only [GoM.bind_apply, h1, Res.ok_bind]
    cases fin with
    | true => exact ⟨true, w1, rfl⟩
    | false => exact ih w1 (by rw [hst]; exact hs) (by rw [hst]; exact hcb)

end Verif.NfLog
