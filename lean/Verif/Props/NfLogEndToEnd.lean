import Verif.Props.NfLogCapture
/-! C126: listening for logs, from the call that starts it to the end of the reader. -/
namespace Verif.Props.Log
open Verif.Common Verif.Sys Verif.Spec Verif.NfLog Verif.Packet

/-- What arrives: a datagram of messages, or the notice that some were dropped (ENOBUFS = 105). -/
inductive Arrival where
  | messages (items : List Item)
  | overrun

/-- The outcome of the receive that shows it. -/
def Arrival.outcome : Arrival → Except Nat (List Byte)
  | .messages items => .ok (datagram items)
  | .overrun => .error 105

/-- The messages in it. -/
def Arrival.items : Arrival → List Item
  | .messages items => items
  | .overrun => []

/-- Datagrams of well-formed messages that fit the reader's buffer. -/
def Arrival.Ok : Arrival → Prop
  | .messages items => (∀ i ∈ items, ItemOk i) ∧ (datagram items).length ≤ 65536
  | .overrun => True

/-- From the history `tr` on, the receives on `fd` show these arrivals, in order. -/
def Arrives (K : Kernel LEv) (fd : Nat) (tr : List (Ev LEv)) (as : List Arrival) : Prop :=
  ∀ evs a, as[(evs.filter isRecv).length]? = some a → K.recv (tr ++ evs) fd = a.outcome

/-- What the error callback, if there is one, is told when receiving failed with `e`. -/
def told (ecb : Option Nat) (e : Nat) : List (Nat × String × Err) :=
  ecb.toList.map fun c => (c, "Netlink error", .errno e)

/-- What the error callback is told about overruns. -/
def overruns (ecb : Option Nat) (as : List Arrival) : List (Nat × String × Err) :=
  as.flatMap fun a => match a with
    | .overrun => told ecb 105
    | .messages _ => []

theorem AllReported.append' {items items' : List Item} {ms ms' : List NfPacket} (h : AllReported items ms)
    (h' : AllReported items' ms') : AllReported (items ++ items') (ms ++ ms') := by
  induction h with
  | nil => exact h'
  | log hr _ ih => rw [List.append_assoc]; exact .log hr ih
  | other _ ih => exact .other ih

theorem no_recv {evs : List (Ev LEv)} (h : ∀ ev ∈ evs, isRecv ev = false ∧ isClose ev = false) : evs.filter isRecv = [] := by
  rw [List.filter_eq_nil_iff]
  intro ev hm
  simp [(h ev hm).1]

/-- One arrival. -/
theorem arrival_turn {env : Env} (hq : Quiet env) {K : Kernel LEv} {w : W} {sh : Handle} {cb : Nat} {a : Arrival} (ha : a.Ok)
    (hs : w.st.socket = some sh) (hcb : w.st.callback = some cb) (hK : K.recv w.trace sh.fd = a.outcome) :
    ∃ w' evs ms, readIter env K w = .ok (false, w') ∧ w'.st = w.st ∧ w'.trace = w.trace ++ evs ∧ (evs.filter isRecv).length = 1 ∧
      AllReported a.items ms ∧ logs evs = ms.map (cb, ·) ∧ errors evs = overruns w.st.errorCallback [a] := by
  cases a with
  | overrun =>
    have hK' : K.recv w.trace sh.fd = .error 105 := hK
    obtain ⟨w1, evs, hrep, hst, htr, hE⟩ := report_spec hq "Netlink error" (.errno 105)
      ({ w with trace := w.trace ++ [.recvfrom sh.fd 65536 0 (.error 105)] } : W)
    refine ⟨w1, .recvfrom sh.fd 65536 0 (.error 105) :: evs, [], ?_, hst, by rw [htr]; simp, ?_, .nil, ?_, ?_⟩
    · unfold readIter
      simp only [GoM.bind_apply, getL, Res.ok_bind, hs]
      rcases recvfrom_spec K sh.fd 65536 0 w with ⟨n, hn, hr⟩ | ⟨d, hd, hr⟩
      · rw [hK'] at hn
        cases hn
        rw [hr]
        simp only [Res.ok_bind]
        unfold handleFailure
        simp only [GoM.bind_apply, hrep, Res.ok_bind]
        rfl
      · rw [hK'] at hd; cases hd
    · cases hE with
      | silent => rfl
      | told _ _ _ h =>
        rw [List.filter_cons_of_pos (by rfl), List.filter_cons_of_neg (by simp [isRecv]), no_recv h]
        rfl
    · cases hE with
      | silent => rfl
      | told _ h _ _ =>
        show logs ([Ev.recvfrom sh.fd 65536 0 (.error 105), _] ++ _) = []
        rw [logs_append, h]
        rfl
    · cases hE with
      | silent h =>
        have h' : w.st.errorCallback = none := h
        rw [h']; rfl
      | told h0 _ h _ =>
        have h' : w.st.errorCallback = some _ := h0
        rw [h']
        show errors ([Ev.recvfrom sh.fd 65536 0 (.error 105), _] ++ _) = _
        rw [errors_append, h]
        rfl
  | messages items =>
    obtain ⟨hall, hlen⟩ := ha
    have hK' : K.recv w.trace sh.fd = .ok (datagram items) := hK
    obtain ⟨w', ms, h1, h2, h3, evs, h4, h5, h6⟩ := C37_datagram_delivered env hq.toPolite cb items (by omega) hall
      ({ w with trace := w.trace ++ [.recvfrom sh.fd 65536 0 (.ok (datagram items))] } : W) hcb
    obtain ⟨_, evs', h4', _, _, hno⟩ := parseLog_reads hq h1
    have he : evs' = evs := List.append_cancel_left (h4'.symm.trans h4)
    subst he
    refine ⟨w', .recvfrom sh.fd 65536 0 (.ok (datagram items)) :: evs', ms, ?_, h3, by rw [h4]; simp, ?_, h2, ?_, ?_⟩
    · unfold readIter
      simp only [GoM.bind_apply, getL, Res.ok_bind, hs]
      rcases recvfrom_spec K sh.fd 65536 0 w with ⟨n, hn, hr⟩ | ⟨d, hd, hr⟩
      · rw [hK'] at hn; cases hn
      · rw [hK'] at hd
        cases hd
        rw [List.take_of_length_le hlen] at hr
        rw [hr]
        simp only [Res.ok_bind]
        unfold handleDatagram
        exact (congrArg (· >>= _) h1).trans rfl
    · rw [List.filter_cons_of_pos (by rfl), no_recv hno]
      rfl
    · show logs ([Ev.recvfrom sh.fd 65536 0 (.ok (datagram items))] ++ evs') = _
      rw [logs_append, h5]
      rfl
    · show errors ([Ev.recvfrom sh.fd 65536 0 (.ok (datagram items))] ++ evs') = _
      rw [errors_append, h6]
      rfl

/-- Any number of arrivals. -/
theorem arrivals_run {env : Env} (hq : Quiet env) {K : Kernel LEv} {sh : Handle} {cb : Nat} : ∀ (as : List Arrival) (w : W),
    (∀ a ∈ as, a.Ok) → w.st.socket = some sh → w.st.callback = some cb →
    ∀ more, Arrives K sh.fd w.trace (as ++ more) →
    ∃ w' evs ms, w'.st = w.st ∧ w'.trace = w.trace ++ evs ∧ (evs.filter isRecv).length = as.length ∧
      AllReported (as.flatMap Arrival.items) ms ∧ logs evs = ms.map (cb, ·) ∧ errors evs = overruns w.st.errorCallback as ∧
      (∀ k, readLogs env K (as.length + k) w = readLogs env K k w') ∧ Arrives K sh.fd w'.trace more := by
  intro as
  induction as with
  | nil =>
    intro w _ _ _ more hA
    exact ⟨w, [], [], rfl, by simp, rfl, .nil, rfl, rfl, fun k => by simp, hA⟩
  | cons a as ih =>
    intro w hok hs hcb more hA
    have hK : K.recv w.trace sh.fd = a.outcome := by simpa using hA [] a rfl
    obtain ⟨w1, evs1, ms1, h1, hst1, ht1, hr1, hm1, hl1, he1⟩ := arrival_turn hq (hok a (by simp)) hs hcb hK
    have hA1 : Arrives K sh.fd w1.trace (as ++ more) := by
      intro evs b hb
      rw [ht1, List.append_assoc]
      refine hA (evs1 ++ evs) b ?_
      rw [List.filter_append, List.length_append, hr1, Nat.add_comm]
      exact hb
    obtain ⟨w2, evs2, ms2, hst2, ht2, hr2, hm2, hl2, he2, hrun, hA2⟩ := ih w1 (fun a h => hok a (by simp [h]))
      (by rw [hst1]; exact hs) (by rw [hst1]; exact hcb) more hA1
    refine ⟨w2, evs1 ++ evs2, ms1 ++ ms2, hst2.trans hst1, by rw [ht2, ht1, List.append_assoc], ?_, ?_, ?_, ?_, ?_, hA2⟩
    · rw [List.filter_append, List.length_append, hr1, hr2, List.length_cons, Nat.add_comm]
    · rw [List.flatMap_cons]
      exact AllReported.append' hm1 hm2
    · rw [logs_append, hl1, hl2, List.map_append]
    · rw [errors_append, he1, he2, hst1]
      simp [overruns]
    · intro k
      rw [List.length_cons, show as.length + 1 + k = (as.length + k) + 1 by omega]
      rw [← hrun k]
      show (readIter env K >>= fun b => if b then pure true else readLogs env K (as.length + k)) w = _
      rw [GoM.bind_apply, h1]
      rfl

/-- C126: once listening was started with a log callback `cb`, whatever sequence of well-formed datagrams and overruns arrives on
the socket that was opened, the reader goes on; every message of every datagram has been reported
to `cb`, in order, as `AllReported` says, and every overrun has been reported to the error callback, if there is one. -/
theorem C126_all_reported (env : Env) (hq : Quiet env) (K : Kernel LEv) (groups : List U16) (size : U32) (cb : Nat) (ecb : Option Nat)
    (w w1 : W) (hstart : bindAndListen env K groups size (some cb) ecb w = .ok (none, w1)) :
    ∃ fd start, w1.trace = w.trace ++ start ∧ .socket 16 3 12 (.ok fd) ∈ start ∧
      ∀ as : List Arrival, (∀ a ∈ as, a.Ok) → Arrives K fd w1.trace as →
      ∃ w' evs ms, readLogs env K as.length w1 = .ok (false, w') ∧ w'.trace = w1.trace ++ evs ∧
        (evs.filter isRecv).length = as.length ∧
        AllReported (as.flatMap Arrival.items) ms ∧ logs evs = ms.map (cb, ·) ∧ errors evs = overruns ecb as := by
  obtain ⟨start, ht, _, h⟩ := C32_outcomes env K groups size (some cb) ecb w w1 none hstart
  obtain ⟨hcb, hecb, fd, ⟨n, ho⟩, hfd⟩ := h rfl
  refine ⟨fd, start, ht, hfd, ?_⟩
  intro as hok hA
  obtain ⟨w', evs, ms, hst, ht', hr, hm, hl, he, hrun, _⟩ := arrivals_run hq as w1 hok ho hcb [] (by rw [List.append_nil]; exact hA)
  refine ⟨w', evs, ms, ?_, ht', hr, hm, hl, by rw [he, hecb]⟩
  rw [show as.length = as.length + 0 from rfl, hrun 0]
  rfl

/-- C126: and when after these arrivals a receive fails for another reason `e`, the reader reports it to the error callback, if there is one, closes
the socket, reports nothing else, and returns. -/
theorem C126_ends (env : Env) (hq : Quiet env) (K : Kernel LEv) (groups : List U16) (size : U32) (cb : Nat) (ecb : Option Nat)
    (w w1 : W) (hstart : bindAndListen env K groups size (some cb) ecb w = .ok (none, w1)) :
    ∃ fd start, w1.trace = w.trace ++ start ∧ .socket 16 3 12 (.ok fd) ∈ start ∧
      ∀ (as : List Arrival) (e : Nat), (∀ a ∈ as, a.Ok) → Arrives K fd w1.trace as → e ≠ 105 →
      (∀ evs, (evs.filter isRecv).length = as.length → K.recv (w1.trace ++ evs) fd = .error e) →
      ∀ k, ∃ w' evs cl ms, readLogs env K (as.length + 1 + k) w1 = .ok (true, w') ∧ w'.trace = w1.trace ++ (evs ++ cl) ∧
        CloseEvs fd cl ∧ (∀ ev ∈ cl, isClose ev = true) ∧ AllReported (as.flatMap Arrival.items) ms ∧ logs (evs ++ cl) = ms.map (cb, ·) ∧
        errors (evs ++ cl) = overruns ecb as ++ told ecb e := by
  obtain ⟨start, ht, _, h⟩ := C32_outcomes env K groups size (some cb) ecb w w1 none hstart
  obtain ⟨hcb, hecb, fd, ⟨n, ho⟩, hfd⟩ := h rfl
  refine ⟨fd, start, ht, hfd, ?_⟩
  intro as e hok hA he105 hE k
  obtain ⟨w2, evs, ms, hst, ht', hr, hm, hl, he, hrun, _⟩ := arrivals_run hq as w1 hok ho hcb [] (by rw [List.append_nil]; exact hA)
  have hK : K.recv w2.trace fd = .error e := by rw [ht']; exact hE evs hr
  have ho2 : w2.st.socket = some ⟨fd, n⟩ := by rw [hst]; exact ho
  obtain ⟨w3, rep, hrep, hst3, htr3, hR⟩ := report_spec hq "Netlink error" (.errno e)
    ({ w2 with trace := w2.trace ++ [.recvfrom fd 65536 0 (.error e)] } : W)
  have ho3 : w3.st.socket = some ⟨fd, n⟩ := by rw [hst3]; exact ho2
  obtain ⟨rc, cl, hc, hce⟩ := close_spec K fd w3
  have hiter : readIter env K w2 = .ok (true, { w3 with trace := w3.trace ++ cl }) := by
    unfold readIter
    simp only [GoM.bind_apply, getL, Res.ok_bind, ho2]
    rcases recvfrom_spec K fd 65536 0 w2 with ⟨n', hn, hr'⟩ | ⟨d, hd, hr'⟩
    · rw [hK] at hn
      cases hn
      rw [hr']
      simp only [Res.ok_bind]
      unfold handleFailure
      simp only [GoM.bind_apply, hrep, Res.ok_bind]
      rw [if_neg he105]
      simp only [GoM.bind_apply, nflogClose, getL, Res.ok_bind, ho3, closeHandle, hc]
      rfl
    · rw [hK] at hd; cases hd
  have hcl : logs cl = [] ∧ errors cl = [] ∧ ∀ ev ∈ cl, isClose ev = true := by
    rcases hce with rfl | ⟨_, _, rfl⟩
    · exact ⟨rfl, rfl, by intro ev h; simp at h; subst h; rfl⟩
    · exact ⟨rfl, rfl, by intro ev h; simp at h; rcases h with rfl | rfl <;> rfl⟩
  refine ⟨{ w3 with trace := w3.trace ++ cl }, evs ++ (.recvfrom fd 65536 0 (.error e) :: rep), cl, ms, ?_, ?_, hce, hcl.2.2, hm, ?_, ?_⟩
  · rw [Nat.add_assoc, hrun (1 + k), Nat.add_comm 1 k]
    show (readIter env K >>= fun b => if b then pure true else readLogs env K k) w2 = _
    rw [GoM.bind_apply, hiter]
    rfl
  · show w3.trace ++ cl = _
    rw [htr3]
    show w2.trace ++ [Ev.recvfrom fd 65536 0 (.error e)] ++ rep ++ cl = _
    rw [ht']
    simp
  · rw [logs_append, logs_append, hl, hcl.1]
    have : logs (.recvfrom fd 65536 0 (.error e) :: rep) = [] := by
      cases hR with
      | silent => rfl
      | told _ h _ _ =>
        show logs ([Ev.recvfrom fd 65536 0 (.error e), _] ++ _) = []
        rw [logs_append, h]
        rfl
    rw [this]
    simp
  · rw [errors_append, errors_append, he, hcl.2.1, hecb]
    have : errors (.recvfrom fd 65536 0 (.error e) :: rep) = told ecb e := by
      cases hR with
      | silent h =>
        have h' : w2.st.errorCallback = none := h
        rw [hst, hecb] at h'
        rw [h']; rfl
      | told h0 _ h _ =>
        have h' : w2.st.errorCallback = some _ := h0
        rw [hst, hecb] at h'
        rw [h']
        show errors ([Ev.recvfrom fd 65536 0 (.error e), _] ++ _) = _
        rw [errors_append, h]
        rfl
    rw [this]
    simp

/-! ### A concrete case -/

/-- A kernel that acknowledges the two requests made for one group, then delivers the sample datagram, then an overrun, then fails with EBADF. -/
def scripted : Kernel LEv :=
  { ackKernel with
    recv := fun tr fd =>
      match (tr.filter isRecv).length with
      | 0 | 1 => ackKernel.recv tr fd
      | 2 => .ok (datagram sampleItems)
      | 3 => .error 105
      | _ => .error 9 }

/-- Before anything happened. -/
def blank : W := { trace := [], heap := ⟨[]⟩, st := newNFLog }

theorem scripted_starts : ∃ w1, bindAndListen someEnv scripted [10] 64 (some 1) (some 2) blank = .ok (none, w1) ∧
    (w1.trace.filter isRecv).length = 2 := by
  have h : (match bindAndListen someEnv scripted [10] 64 (some 1) (some 2) blank with
      | .ok (none, w1) => decide ((w1.trace.filter isRecv).length = 2)
      | _ => false) = true := by decide +kernel
  split at h
  · rename_i w1 hw
    exact ⟨w1, hw, of_decide_eq_true h⟩
  · cases h

/-- C126, a concrete case: the program listens, one log is reported to callback 1, the overrun and the failure to callback 2, and the reader ends. -/
theorem C126_example : ∃ w1 w' evs m, bindAndListen someEnv scripted [10] 64 (some 1) (some 2) blank = .ok (none, w1) ∧
    readLogs someEnv scripted 3 w1 = .ok (true, w') ∧ w'.trace = w1.trace ++ evs ∧ logs evs = [(1, m)] ∧ m.payload = udp29 ∧
    errors evs = [(2, "Netlink error", .errno 105), (2, "Netlink error", .errno 9)] := by
  obtain ⟨w1, hw, hc⟩ := scripted_starts
  obtain ⟨fd, _, _, _, h⟩ := C126_ends someEnv someEnv_quiet scripted [10] 64 1 (some 2) blank w1 hw
  obtain ⟨w', evs, cl, ms, a, b, _, _, d, f, g⟩ := h [.messages sampleItems, .overrun] 9 (by
      intro a ha
      simp only [List.mem_cons, List.not_mem_nil, or_false] at ha
      rcases ha with rfl | rfl
      · exact ⟨sampleItems_ok, by decide⟩
      · trivial) (by
      intro evs a ha
      have hn : ((w1.trace ++ evs).filter isRecv).length = 2 + (evs.filter isRecv).length := by
        rw [List.filter_append, List.length_append, hc]
      unfold scripted
      simp only [hn]
      rcases hk : (evs.filter isRecv).length with _ | _ | k
      · rw [hk] at ha
        simp at ha
        subst ha
        rfl
      · rw [hk] at ha
        simp at ha
        subst ha
        rfl
      · rw [hk] at ha
        simp at ha) (by decide) (by
      intro evs hk
      have hn : ((w1.trace ++ evs).filter isRecv).length = 4 := by
        rw [List.filter_append, List.length_append, hc, hk]
        rfl
      unfold scripted
      simp only [hn]) 0
  obtain ⟨m, rfl, hm⟩ := sample_reports (by simpa [Arrival.items] using d)
  exact ⟨w1, w', evs ++ cl, m, hw, a, b, f, hm, g⟩

end Verif.Props.Log
