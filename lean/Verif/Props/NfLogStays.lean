import Verif.Props.NfLogRead
/-! C123: a log report keeps its contents: what the application was shown is not overwritten by what is read later. -/
namespace Verif.Props.Log
open Verif.Common Verif.Sys Verif.Spec Verif.NfLog Verif.Packet

/-- Callbacks that may allocate memory but do not write to memory that exists. -/
def OnlyAllocates (env : Env) : Prop := ∀ w : W, w.heap.arrays <+: (env.cbEffect w).heap.arrays

/-- In memory `h`, the payload slice of the report `m` shows the bytes it showed when it was reported, and the memory it is a window of
still is the packet whose addresses, ports, ... the report gives. -/
def Intact (h : Heap) (m : NfPacket) : Prop :=
  h.bytes m.payloadAt = m.payload ∧ Describes m m.prefix' m.payload (h.arrayOf m.payloadAt.arr)

/-- Between `w` and `w'`, existing memory was not written to; every report made is intact at `w'`, in memory that did not exist at `w`
and is not shared with another report. -/
def Stays (w w' : W) : Prop :=
  w.heap.arrays <+: w'.heap.arrays ∧ ∃ evs, w'.trace = w.trace ++ evs ∧
    ((logs evs).map fun x : Nat × NfPacket => x.2.payloadAt.arr).Pairwise (· < ·) ∧
    ∀ x ∈ logs evs, w.heap.arrays.length ≤ x.2.payloadAt.arr ∧ x.2.payloadAt.arr < w'.heap.arrays.length ∧
      Intact w'.heap x.2

theorem arrayOf_prefix {h h' : Heap} (hp : h.arrays <+: h'.arrays) {a : Nat} (ha : a < h.arrays.length) :
    h'.arrayOf a = h.arrayOf a := by
  obtain ⟨t, ht⟩ := hp
  unfold Heap.arrayOf
  rw [← ht, List.getElem?_append_left ha]

theorem Intact.mono {h h' : Heap} {m : NfPacket} (hp : h.arrays <+: h'.arrays) (ha : m.payloadAt.arr < h.arrays.length)
    (hi : Intact h m) : Intact h' m := by
  unfold Intact Heap.bytes at *
  rw [arrayOf_prefix hp ha]
  exact hi

theorem Stays.refl (w : W) : Stays w w := ⟨List.prefix_refl _, [], by simp, by simp [logs], by simp [logs]⟩

theorem Stays.trans {w w' w'' : W} (h : Stays w w') (h' : Stays w' w'') : Stays w w'' := by
  obtain ⟨p, evs, t, o, l⟩ := h
  obtain ⟨p', evs', t', o', l'⟩ := h'
  refine ⟨p.trans p', evs ++ evs', by rw [t', t, List.append_assoc], ?_, ?_⟩
  · rw [logs_append, List.map_append, List.pairwise_append]
    refine ⟨o, o', ?_⟩
    intro a ha b hb
    obtain ⟨x, hx, rfl⟩ := List.mem_map.mp ha
    obtain ⟨y, hy, rfl⟩ := List.mem_map.mp hb
    have := (l x hx).2.1
    have := (l' y hy).1
    show x.2.payloadAt.arr < y.2.payloadAt.arr
    omega
  · intro x hx
    rw [logs_append, List.mem_append] at hx
    rcases hx with hx | hx
    · obtain ⟨a, b, c⟩ := l x hx
      exact ⟨a, Nat.lt_of_lt_of_le b p'.length_le, c.mono p' b⟩
    · obtain ⟨a, b, c⟩ := l' x hx
      exact ⟨Nat.le_trans p.length_le a, b, c⟩

/-- Something that makes no report and leaves memory alone. -/
theorem Stays.silent {w w' : W} {evs : List (Ev LEv)} (hp : w.heap.arrays <+: w'.heap.arrays) (ht : w'.trace = w.trace ++ evs)
    (hl : logs evs = []) : Stays w w' := ⟨hp, evs, ht, by simp [hl], by simp [hl]⟩

theorem deliver_stays {env : Env} (hq : Quiet env) (ha : OnlyAllocates env) {payload : List Byte} {n : U16} {m : NfPacket}
    {w w' : W} {r : Except Err NfPacket} (h : deliver env payload n m w = .ok (r, w')) : Stays w w' := by
  have hpre : w.heap.arrays <+: (w.heap.mk' payload).2.arrays := List.prefix_append _ _
  unfold deliver at h
  simp only at h
  obtain ⟨⟨p, err⟩, hN, h⟩ := Res.bind_eq_ok.mp h
  cases err with
  | some err =>
    simp only [Res.ok.injEq, Prod.mk.injEq] at h
    rw [← h.2]
    exact .silent (evs := []) hpre (by simp) rfl
  | none =>
    simp only at h
    obtain ⟨shown, hs, h⟩ := Res.bind_eq_ok.mp h
    obtain ⟨w1, h1, h⟩ := Res.bind_eq_ok.mp h
    simp only [Res.ok.injEq, Prod.mk.injEq] at h
    rw [← h.2]
    unfold invoke at h1
    simp only at h1
    rcases hcb : w.st.callback with _ | cb
    · rw [hcb] at h1; simp at h1
    · rw [hcb] at h1
      simp only [Res.ok.injEq] at h1
      obtain ⟨q, rfl⟩ := New_some (Heap.valid_mk' w.heap payload) hN
      have hd := describes_of_new (Heap.valid_mk' w.heap payload) (by simp [Heap.mk']) hN m
        ((w.heap.mk' payload).2.bytes shown) shown
      rw [Heap.bytes_mk'] at hd
      have harr : shown.arr = w.heap.arrays.length := by
        unfold Slice.to Slice.sub at hs
        split at hs
        · simp only [Res.ok.injEq] at hs
          rw [← hs]; rfl
        · simp at hs
      have hat : (w.heap.mk' payload).2.arrayOf w.heap.arrays.length = payload := by
        simp [Heap.mk', Heap.arrayOf]
      have hlt : w.heap.arrays.length < (w.heap.mk' payload).2.arrays.length := by simp [Heap.mk']
      rw [← h1]
      generalize hmm : ({ fillFrom m (some q) with payload := (w.heap.mk' payload).2.bytes shown, payloadAt := shown } : NfPacket) = m' at hd
      have hm' : m'.payloadAt = shown ∧ m'.payload = (w.heap.mk' payload).2.bytes shown ∧ m'.prefix' = m.prefix' := by
        rw [← hmm]; exact ⟨rfl, rfl, rfl⟩
      have hint : Intact (w.heap.mk' payload).2 m' := by
        refine ⟨by rw [hm'.1, hm'.2.1], ?_⟩
        rw [hm'.1, harr, hat, hm'.2.1, hm'.2.2]
        exact hd
      obtain ⟨evs, ht, hl, _⟩ := hq.appends (({ w with heap := (w.heap.mk' payload).2 } : W).log (.app (.log cb m')))
      have hmem := ha (({ w with heap := (w.heap.mk' payload).2 } : W).log (.app (.log cb m')))
      have hlogs : logs ([Ev.app (.log cb m')] ++ evs) = [(cb, m')] := by
        rw [logs_append]
        unfold logs
        rw [filterMap_none hl]
        rfl
      refine ⟨hpre.trans hmem, [Ev.app (.log cb m')] ++ evs, by rw [ht]; simp [World.log], ?_, ?_⟩
      · rw [hlogs]; simp
      · intro x hx
        rw [hlogs] at hx
        simp only [List.mem_singleton] at hx
        subst hx
        refine ⟨?_, ?_, hint.mono hmem ?_⟩
        · show _ ≤ m'.payloadAt.arr
          rw [hm'.1, harr]
          exact Nat.le_refl _
        · show m'.payloadAt.arr < _
          rw [hm'.1, harr]
          exact Nat.lt_of_lt_of_le hlt hmem.length_le
        · show m'.payloadAt.arr < _
          rw [hm'.1, harr]
          exact hlt

theorem attrStep_stays {env : Env} (hq : Quiet env) (ha : OnlyAllocates env) {len type : U16} {rest : List Byte} {m : NfPacket} {w : W}
    {x : Step TlvState (Option Err × W)} (h : attrStep env len type rest m w = .ok x) :
    Stays w (stepWorld x) := by
  unfold attrStep at h
  simp only at h
  split at h
  · obtain ⟨_, _, h⟩ := Res.bind_eq_ok.mp h
    simp only [Res.ok.injEq] at h
    rw [← h]
    exact .refl w
  · split at h
    · obtain ⟨⟨r, w'⟩, hd, h⟩ := Res.bind_eq_ok.mp h
      have := deliver_stays hq ha hd
      cases r with
      | error e => simp only [Res.ok.injEq] at h; rw [← h]; exact this
      | ok m => simp only [Res.ok.injEq] at h; rw [← h]; exact this
    · simp only [Res.ok.injEq] at h
      rw [← h]
      exact .refl w

theorem tlvBody_stays {env : Env} (hq : Quiet env) (ha : OnlyAllocates env) {s : TlvState} {x : Step TlvState (Option Err × W)}
    (h : tlvBody env s = .ok x) : Stays s.w (stepWorld x) := by
  unfold tlvBody at h
  split at h
  · simp only [Res.ok.injEq] at h; rw [← h]; exact .refl _
  · split at h
    · simp only [Res.ok.injEq] at h; rw [← h]; exact .refl _
    · obtain ⟨_, _, h⟩ := Res.bind_eq_ok.mp h
      obtain ⟨_, _, h⟩ := Res.bind_eq_ok.mp h
      exact attrStep_stays hq ha h

theorem parsePacket_stays {env : Env} (hq : Quiet env) (ha : OnlyAllocates env) {b : List Byte} {w w' : W} {r : Option Err}
    (h : parsePacket env b w = .ok (r, w')) : Stays w w' := by
  unfold parsePacket at h
  refine loop_ok_of_inv (P := fun s => Stays w s.w) (Q := fun a => Stays w a.2) ?_ ?_ (.refl w) h
  · intro s s' hs hb
    exact hs.trans (tlvBody_stays hq ha hb)
  · intro s a hs hb
    exact hs.trans (tlvBody_stays hq ha hb)

theorem logBody_stays {env : Env} (hq : Quiet env) (ha : OnlyAllocates env) {s : List Byte × W}
    {x : Step (List Byte × W) (Option Err × W)} (h : logBody env s = .ok x) : Stays s.2 (logWorld x) := by
  unfold logBody at h
  split at h
  · simp only [Res.ok.injEq] at h; rw [← h]; exact .refl _
  · obtain ⟨⟨n, t⟩, _, h⟩ := Res.bind_eq_ok.mp h
    simp only at h
    split at h
    · simp only [Res.ok.injEq] at h; rw [← h]; exact .refl _
    · obtain ⟨⟨r, w1⟩, hm, h⟩ := Res.bind_eq_ok.mp h
      have h1 : Stays s.2 w1 := by
        unfold parseMessage at hm
        split at hm
        · obtain ⟨b, _, hm⟩ := Res.bind_eq_ok.mp hm
          exact parsePacket_stays hq ha hm
        · simp only [Res.ok.injEq, Prod.mk.injEq] at hm; rw [← hm.2]; exact .refl _
      cases r with
      | some err => simp only [Res.ok.injEq] at h; rw [← h]; exact h1
      | none =>
        simp only at h
        obtain ⟨b, _, h⟩ := Res.bind_eq_ok.mp h
        simp only [Res.ok.injEq] at h; rw [← h]; exact h1

theorem parseLog_stays {env : Env} (hq : Quiet env) (ha : OnlyAllocates env) {b : List Byte} {w w' : W} {r : Option Err}
    (h : parseLog env b w = .ok (r, w')) : Stays w w' := by
  unfold parseLog at h
  refine loop_ok_of_inv (P := fun s => Stays w s.2) (Q := fun a => Stays w a.2) ?_ ?_ (.refl w) h
  · intro s s' hs hb
    exact hs.trans (logBody_stays hq ha hb)
  · intro s a hs hb
    exact hs.trans (logBody_stays hq ha hb)

theorem report_stays {env : Env} (hq : Quiet env) (ha : OnlyAllocates env) {kind : String} {err : Err} {w w' : W}
    (h : report env kind err w = .ok ((), w')) : Stays w w' := by
  unfold report at h
  rcases hcb : w.st.errorCallback with _ | cb
  · rw [hcb] at h
    simp only [Res.ok.injEq, Prod.mk.injEq, true_and] at h
    rw [← h]; exact .refl _
  · rw [hcb] at h
    simp only [Res.ok.injEq, Prod.mk.injEq, true_and] at h
    obtain ⟨evs, ht, hl, he⟩ := hq.appends (w.log (.app (.error cb kind err)))
    rw [← h]
    refine .silent (evs := .app (.error cb kind err) :: evs) (ha (w.log (.app (.error cb kind err)))) (by rw [ht]; simp [World.log]) ?_
    show logs ([.app (.error cb kind err)] ++ evs) = []
    rw [logs_append]
    unfold logs
    rw [filterMap_none hl]
    rfl

theorem closeEvs_logs {fd : Nat} {evs : List (Ev LEv)} (h : CloseEvs fd evs) : logs evs = [] := by
  rcases h with rfl | ⟨_, _, rfl⟩ <;> rfl

theorem readIter_stays {env : Env} (hq : Quiet env) (ha : OnlyAllocates env) {K : Kernel LEv} {w w' : W} {fin : Bool}
    (h : readIter env K w = .ok (fin, w')) : Stays w w' := by
  unfold readIter at h
  simp only [GoM.bind_apply, getL, Res.ok_bind] at h
  rcases hs : w.st.socket with _ | sh
  · rw [hs] at h; simp [GoM.panic] at h
  rw [hs] at h
  simp only [GoM.bind_apply] at h
  rcases recvfrom_spec K sh.fd 65536 0 w with ⟨n, _, hr⟩ | ⟨d, _, hr⟩
  · rw [hr] at h
    simp only [Res.ok_bind] at h
    unfold handleFailure at h
    simp only [GoM.bind_apply] at h
    obtain ⟨⟨⟨⟩, w1⟩, hrep, h⟩ := Res.bind_eq_ok.mp h
    have h0 : Stays w ({ w with trace := w.trace ++ [.recvfrom sh.fd 65536 0 (.error n)] } : W) :=
      .silent (evs := [.recvfrom sh.fd 65536 0 (.error n)]) (List.prefix_refl _) rfl rfl
    have h1 := report_stays hq ha hrep
    by_cases h105 : n = 105
    · rw [if_pos h105] at h
      simp only [GoM.pure_apply, Res.ok.injEq, Prod.mk.injEq] at h
      rw [← h.2]
      exact h0.trans h1
    · rw [if_neg h105] at h
      simp only [GoM.bind_apply, nflogClose, getL, Res.ok_bind] at h
      obtain ⟨⟨⟨⟩, w2⟩, hc2, h⟩ := Res.bind_eq_ok.mp h
      simp only [GoM.pure_apply, Res.ok.injEq, Prod.mk.injEq] at h
      rw [← h.2]
      refine (h0.trans h1).trans ?_
      rcases hs1 : w1.st.socket with _ | sh1
      · rw [hs1] at hc2
        simp only [GoM.pure_apply, Res.ok.injEq, Prod.mk.injEq, true_and] at hc2
        rw [← hc2]; exact .refl _
      · rw [hs1] at hc2
        obtain ⟨rc, cl, hc, hce⟩ := close_spec K sh1.fd w1
        simp only [closeHandle, GoM.bind_apply, hc, Res.ok_bind, GoM.pure_apply, Res.ok.injEq, Prod.mk.injEq, true_and] at hc2
        rw [← hc2]
        exact .silent (evs := cl) (List.prefix_refl _) rfl (closeEvs_logs hce)
  · rw [hr] at h
    simp only [Res.ok_bind] at h
    unfold handleDatagram at h
    obtain ⟨⟨r, w1⟩, hp, h⟩ := Res.bind_eq_ok.mp h
    have h0 : Stays w ({ w with trace := w.trace ++ [.recvfrom sh.fd 65536 0 (.ok (d.take 65536))] } : W) :=
      .silent (evs := [.recvfrom sh.fd 65536 0 (.ok (d.take 65536))]) (List.prefix_refl _) rfl rfl
    have h1 := h0.trans (parseLog_stays hq ha hp)
    cases r with
    | none =>
      simp only [GoM.pure_apply, Res.ok.injEq, Prod.mk.injEq] at h
      rw [← h.2]; exact h1
    | some err =>
      simp only [GoM.bind_apply] at h
      obtain ⟨⟨⟨⟩, w2⟩, hrep, h⟩ := Res.bind_eq_ok.mp h
      simp only [GoM.pure_apply, Res.ok.injEq, Prod.mk.injEq] at h
      rw [← h.2]
      exact h1.trans (report_stays hq ha hrep)

/-- C123: however long the reader goes on, with whatever datagrams arriving, every report it has made so far is intact: its payload shows
the bytes it showed when the application was given it, the memory behind it still is the packet that the report's addresses, ports, ...
describe, this memory did not exist before the reader was started and no two reports share it (the array numbers of successive reports increase). Memory that existed before is not
written to either. -/
theorem C123_reports_stay (env : Env) (hq : Quiet env) (ha : OnlyAllocates env) (K : Kernel LEv) : ∀ (n : Nat) (w w' : W) (fin : Bool),
    readLogs env K n w = .ok (fin, w') →
    w.heap.arrays <+: w'.heap.arrays ∧ ∃ evs, w'.trace = w.trace ++ evs ∧
      ((logs evs).map fun x : Nat × NfPacket => x.2.payloadAt.arr).Pairwise (· < ·) ∧
      ∀ x ∈ logs evs, w.heap.arrays.length ≤ x.2.payloadAt.arr ∧ x.2.payloadAt.arr < w'.heap.arrays.length ∧
        w'.heap.bytes x.2.payloadAt = x.2.payload ∧
        Describes x.2 x.2.prefix' x.2.payload (w'.heap.arrayOf x.2.payloadAt.arr) := by
  have main : ∀ (n : Nat) (w w' : W) (fin : Bool), readLogs env K n w = .ok (fin, w') → Stays w w' := by
    intro n
    induction n with
    | zero =>
      intro w w' fin h
      simp only [readLogs, GoM.pure_apply, Res.ok.injEq, Prod.mk.injEq] at h
      rw [← h.2]; exact .refl _
    | succ n ih =>
      intro w w' fin h
      unfold readLogs at h
      simp only [GoM.bind_apply] at h
      obtain ⟨⟨b, w1⟩, h1, h⟩ := Res.bind_eq_ok.mp h
      have hs := readIter_stays hq ha h1
      cases b with
      | true =>
        simp only [if_true, GoM.pure_apply, Res.ok.injEq, Prod.mk.injEq] at h
        rw [← h.2]; exact hs
      | false =>
        simp only [Bool.false_eq_true, if_false] at h
        exact hs.trans (ih w1 w' fin h)
  exact main

/-! ### A concrete case -/

/-- A kernel that delivers the sample datagram again and again. -/
def repeating : Kernel LEv := { ackKernel with recv := fun _ _ => .ok (datagram sampleItems) }

theorem sample_reports {ms : List NfPacket} (h : AllReported sampleItems ms) : ∃ m, ms = [m] ∧ m.payload = udp29 := by
  unfold sampleItems at h
  cases h with
  | log h1 h2 =>
    cases h2 with
    | other h2 =>
      cases h2
      have hc : cutLast sampleAttrs = sampleAttrs := by decide
      rw [hc] at h1
      unfold sampleAttrs at h1
      cases h1 with
      | «prefix» h1 =>
        cases h1 with
        | @payload _ _ m _ _ hd h1 =>
          cases h1 with
          | other _ _ h1 => cases h1; exact ⟨m, rfl, hd.2.1⟩
        | other h => exact absurd rfl h
      | other _ h => exact absurd rfl h

theorem repeating_turn (w : W) (hst : w.st = readWorld.st) : ∃ w' m, readIter someEnv repeating w = .ok (false, w') ∧
    w'.st = readWorld.st ∧ m.payload = udp29 ∧ ∃ evs, w'.trace = w.trace ++ evs ∧ logs evs = [(1, m)] := by
  obtain ⟨w', ms, h1, h2, h3⟩ := C37_datagram_delivered someEnv someEnv_quiet.toPolite 1 sampleItems (by decide) sampleItems_ok
    ({ w with trace := w.trace ++ [.recvfrom 3 65536 0 (.ok (datagram sampleItems))] } : W) (by rw [hst]; rfl)
  obtain ⟨m, rfl, hm⟩ := sample_reports h2
  obtain ⟨h3, evs, h4, h5, _⟩ := h3
  refine ⟨w', m, ?_, h3.trans hst, hm, [.recvfrom 3 65536 0 (.ok (datagram sampleItems))] ++ evs, by rw [h4]; simp, ?_⟩
  · have hs : w.st.socket = some ⟨3, 28⟩ := by rw [hst]; rfl
    have htake : (datagram sampleItems).take 65536 = datagram sampleItems := List.take_of_length_le (by decide)
    unfold readIter
    simp only [GoM.bind_apply, getL, Res.ok_bind, hs]
    simp only [recvfrom, rawRecvfrom, repeating, Res.ok_bind, Except.map, World.log, htake, GoM.bind_apply, GoM.pure_apply]
    show handleDatagram someEnv (datagram sampleItems) _ = _
    unfold handleDatagram
    exact (congrArg (· >>= _) h1).trans rfl
  · rw [logs_append, h5]; rfl

/-- C123, a concrete case: after reading the sample datagram twice there are two reports, each of the same 29 bytes, in different memory,
both still showing them. -/
theorem C123_example : ∃ w' m1 m2 evs, readLogs someEnv repeating 2 readWorld = .ok (false, w') ∧
    w'.trace = readWorld.trace ++ evs ∧ logs evs = [(1, m1), (1, m2)] ∧ m1.payloadAt.arr < m2.payloadAt.arr ∧
    w'.heap.bytes m1.payloadAt = udp29 ∧ w'.heap.bytes m2.payloadAt = udp29 := by
  obtain ⟨w1, m1, a1, a2, a3, evs1, a4, a5⟩ := repeating_turn readWorld rfl
  obtain ⟨w2, m2, b1, b2, b3, evs2, b4, b5⟩ := repeating_turn w1 a2
  have hrun : readLogs someEnv repeating 2 readWorld = .ok (false, w2) := by
    unfold readLogs
    simp only [GoM.bind_apply, a1, Res.ok_bind, Bool.false_eq_true, if_false]
    unfold readLogs
    simp only [GoM.bind_apply, b1, Res.ok_bind, Bool.false_eq_true, if_false]
    rfl
  obtain ⟨_, evs, ht, ho, hi⟩ := C123_reports_stay someEnv someEnv_quiet (fun _ => List.prefix_refl _) repeating 2 readWorld w2 false hrun
  have he : evs = evs1 ++ evs2 := by
    refine List.append_cancel_left (as := readWorld.trace) ?_
    rw [← ht, b4, a4, List.append_assoc]
  have hl : logs evs = [(1, m1), (1, m2)] := by rw [he, logs_append, a5, b5]; rfl
  rw [hl] at ho hi
  refine ⟨w2, m1, m2, evs, hrun, ht, hl, ?_, ?_, ?_⟩
  · simpa using ho
  · rw [← a3]; exact (hi (1, m1) (by simp)).2.2.1
  · rw [← b3]; exact (hi (1, m2) (by simp)).2.2.1

end Verif.Props.Log
