import Verif.Props.NfLogLimits
import Verif.Props.NfLogFate
/-! C101: logs that arrive while a group is being configured. C103 (nflog part): a handle opened twice. -/
namespace Verif.Props.Log
open Verif.Common Verif.Sys Verif.Spec Verif.NfLog

theorem num16_take {e : Endian} {d : List Byte} {n : Nat} (h : 20 ≤ n) : num16 e (d.take n) 4 = num16 e d 4 := by
  unfold num16
  rw [List.getElem?_take_of_lt (by omega), List.getElem?_take_of_lt (by omega)]

/-- Whatever is first in line, of at least 20 bytes and not an error message, passes for the acknowledgement. -/
theorem query_takes (env : Env) (K : Kernel LEv) (sh : Handle) (msg : NetlinkMessage) (w : W) (d : List Byte)
    (hlen : 4 ≤ msg.data.length) (h20 : 20 ≤ d.length) (hne : num16 env.e d 4 ≠ some 2)
    (hs : K.send w.trace sh.fd (hdrBytes env.e msg.header ++ msg.data) = none)
    (hr : K.recv (w.trace ++ [.sendto sh.fd (hdrBytes env.e msg.header ++ msg.data) 0 none]) sh.fd = .ok d) :
    query env K sh msg w = .ok (none, { w with
      trace := w.trace ++ [.sendto sh.fd (hdrBytes env.e msg.header ++ msg.data) 0 none,
        .recvfrom sh.fd (16 + msg.data.length) 0 (.ok (d.take (16 + msg.data.length)))],
      st := sent w.st sh.fd (16 + msg.data.length) }) := by
  have hl : (hdrBytes env.e msg.header ++ msg.data).length = 16 + msg.data.length := by simp
  have hrr : readReply env.e (d.take (16 + msg.data.length)) = .ok none := by
    rcases readReply_cases env.e (d.take (16 + msg.data.length)) with ⟨a, _⟩ | ⟨_, a, _⟩ | ⟨_, r, b, c, _⟩
    · simp at a; omega
    · simp at a; omega
    · rw [b, c.mpr]
      rintro ⟨h, _⟩
      rw [num16_take (by omega)] at h
      exact hne h
  unfold query send recv
  simp only [GoM.bind_apply, GoM.lift_apply, wireBytes_eq, Res.ok_bind, modifyL, hl]
  simp [sendto, rawSendto, hs, World.log, recvfrom, rawRecvfrom, hr, Except.map, hrr, sent]

/-- A call about one group makes one exchange. -/
theorem run_one (env : Env) (K : Kernel LEv) (c : LogCall) (w : W) (sh : Handle) (g : U16) (hg : c.groups = [g])
    (hh : w.st.socket = some sh) : ∃ msg, Encodes env.e (hdrBytes env.e msg.header ++ msg.data) (c.req g.toNat) ∧
      4 ≤ msg.data.length ∧ ∀ w', query env K sh msg { w with st := c.record w.st } = .ok (none, w') →
        c.run env K w = .ok (none, w') := by
  cases c with
  | unbind =>
    refine ⟨_, enc_pfUnbind env.e, by simp [cfgMsg], fun w' h => ?_⟩
    simp only [LogCall.run, nflogUnbind, GoM.bind_apply, commandMsg_eq, GoM.lift_apply, Res.ok_bind, queryOrFail, getL, hh]
    exact h
  | bind =>
    refine ⟨_, enc_pfBind env.e, by simp [cfgMsg], fun w' h => ?_⟩
    simp only [LogCall.run, nflogBind, GoM.bind_apply, commandMsg_eq, GoM.lift_apply, Res.ok_bind, queryOrFail, getL, hh]
    exact h
  | bindGroup gs cb ecb =>
    have hg' : gs = [g] := hg
    subst hg'
    refine ⟨_, enc_bind env.e g, by simp [cfgMsg], fun w' h => ?_⟩
    simp only [LogCall.run, nflogBindGroup, GoM.bind_apply, modifyL, Res.ok_bind, forGroups, commandMsg_eq, GoM.lift_apply,
      queryOrSkip, getL, hh]
    simp only [LogCall.record, hh] at h
    rw [h]
    rfl
  | setMode gs size =>
    have hg' : gs = [g] := hg
    subst hg'
    refine ⟨_, enc_mode env.e g size, by simp [cfgMsg], fun w' h => ?_⟩
    simp only [LogCall.run, nflogSetMode, GoM.bind_apply, Res.ok_bind, forGroups, modeMsg_eq, GoM.lift_apply,
      queryOrSkip, getL, hh]
    simp only [LogCall.record] at h
    rw [h]
    rfl

/-- A datagram of one message of another type is read without effect. -/
theorem parseLog_skips (env : Env) (d : List Byte) (w : W) (h16 : 16 ≤ d.length) (h32 : d.length < 4294967296)
    (hl : num32 .little d 0 = some d.length) (ht : num16 .little d 4 = some 2) : parseLog env d w = .ok (none, w) := by
  obtain ⟨l, t, h1, h2, hr⟩ := header_at h16 hl ht
  have hs : logBody env (d, w) = .ok (.next ([], w)) := by
    unfold logBody
    simp only
    rw [if_neg (by omega), hr]
    simp only [Res.ok_bind]
    rw [if_neg (by rw [gt_iff_lt, BitVec.lt_def, BitVec.toNat_ofNat]; omega)]
    unfold parseMessage
    rw [if_neg (show ¬ t = (1024 : U16) from fun e => by rw [e] at h2; exact absurd h2 (by decide))]
    simp only [Res.ok_bind]
    unfold sliceFrom
    rw [if_pos (by omega)]
    simp [h1]
  unfold parseLog
  rw [loop_unfold, hs]
  exact log_end env w

/-- C101 is violated: a datagram of logs that is next in line when NFlogBindGroup, NFlogSetMode, NFlogBind or
NFlogUnbind awaits its answer passes for the acknowledgement. It is cut to the length of the request and given to
nobody, and the call returns nil. The answer itself, even if it refuses the request, is then skipped by the reader
(little-endian hosts) without a word: the only thing that happens is that it is received. -/
theorem C101_log_taken_violated (env : Env) (he : env.e = .little) (K : Kernel LEv) (c : LogCall) (w : W) (sh : Handle)
    (hh : w.st.socket = some sh) (g : U16) (hg : c.groups = [g]) (d answer : List Byte)
    (h20 : 20 ≤ d.length) (hlog : num16 env.e d 4 = some (4 * 256))
    (hs : ∀ b, K.send w.trace sh.fd b = none)
    (hr : ∀ b, K.recv (w.trace ++ [.sendto sh.fd b 0 none]) sh.fd = .ok d)
    (hl : num32 env.e answer 0 = some answer.length) (ht : num16 env.e answer 4 = some 2)
    (h16 : 16 ≤ answer.length) (h64 : answer.length ≤ 65536)
    (hr' : ∀ b n, K.recv (w.trace ++ [.sendto sh.fd b 0 none, .recvfrom sh.fd n 0 (.ok (d.take n))]) sh.fd = .ok answer) :
    ∃ b w1 w2, Encodes env.e b (c.req g.toNat) ∧ c.run env K w = .ok (none, w1) ∧
      w1.trace = w.trace ++ [.sendto sh.fd b 0 none, .recvfrom sh.fd b.length 0 (.ok (d.take b.length))] ∧
      readIter env K w1 = .ok (false, w2) ∧
      w2.trace = w1.trace ++ [.recvfrom sh.fd 65536 0 (.ok answer)] ∧ w2.st = w1.st := by
  obtain ⟨msg, henc, hlen, hrun⟩ := run_one env K c w sh g hg hh
  have hbl : (hdrBytes env.e msg.header ++ msg.data).length = 16 + msg.data.length := by simp
  have hq := query_takes env K sh msg { w with st := c.record w.st } d hlen h20 (by rw [hlog]; decide) (hs _) (hr _)
  generalize hw1 : ({ w with
      trace := w.trace ++ [.sendto sh.fd (hdrBytes env.e msg.header ++ msg.data) 0 none,
        .recvfrom sh.fd (16 + msg.data.length) 0 (.ok (d.take (16 + msg.data.length)))],
      st := sent (c.record w.st) sh.fd (16 + msg.data.length) } : W) = w1 at hq
  refine ⟨_, w1, { w1 with trace := w1.trace ++ [.recvfrom sh.fd 65536 0 (.ok answer)] }, henc, hrun _ hq,
    by rw [hbl, ← hw1], ?_, rfl, rfl⟩
  subst hw1
  unfold readIter
  simp only [GoM.bind_apply, getL, Res.ok_bind, sent]
  rw [he] at hl ht
  have hp : ∀ w, parseLog env answer w = .ok (none, w) := fun w => parseLog_skips env answer w h16 (by omega) hl ht
  have hrv := hr' (hdrBytes env.e msg.header ++ msg.data) (16 + msg.data.length)
  simp only [recvfrom, rawRecvfrom, GoM.bind_apply, hrv, Except.map, World.log, Res.ok_bind, GoM.pure_apply,
    List.take_of_length_le h64, handleDatagram]
  exact (congrArg (· >>= _) (hp _)).trans rfl

/-- Delivers a small log message first, then the refusal (EBUSY) of a 28-byte request. -/
def lateRefusal : Kernel LEv :=
  { ackKernel with recv := fun tr _ => .ok (if tr.length = 1 then
      [24, 0, 0, 0, 0, 4, 0, 0] ++ zeros 8 ++ [2, 0, 0, 5] ++ [4, 0, 7, 0] else
      [36, 0, 0, 0, 2, 0, 0, 0] ++ zeros 8 ++ [0xF0, 0xFF, 0xFF, 0xFF] ++ zeros 16) }

/-- C101, a concrete case: binding group 11 on a socket already receiving logs of another group. The refusal of group
11 is never reported. -/
theorem C101_example : ∃ b w1 w2, Encodes .little b (.bindGroup 11) ∧
      nflogBindGroup someEnv lateRefusal [11] (some 1) (some 2) { readWorld with trace := [] } = .ok (none, w1) ∧
      w1.trace = [.sendto 3 b 0 none, .recvfrom 3 b.length 0
        (.ok (([24, 0, 0, 0, 0, 4, 0, 0] ++ zeros 8 ++ [2, 0, 0, 5] ++ [4, 0, 7, 0]).take b.length))] ∧
      readIter someEnv lateRefusal w1 = .ok (false, w2) ∧
      w2.trace = w1.trace ++ [.recvfrom 3 65536 0 (.ok ([36, 0, 0, 0, 2, 0, 0, 0] ++ zeros 8 ++
        [0xF0, 0xFF, 0xFF, 0xFF] ++ zeros 16))] ∧ w2.st = w1.st :=
  C101_log_taken_violated someEnv rfl lateRefusal (.bindGroup [11] (some 1) (some 2)) { readWorld with trace := [] }
    ⟨3, 28⟩ rfl 11 rfl _ _ (by decide) (by decide) (fun _ => rfl) (fun _ => rfl) (by decide) (by decide) (by decide)
    (by decide) (fun _ _ => rfl)

/-! ### C103 -/

/-- C103 is violated for logs too: opening an open log handle again, successfully, forgets the first socket: NFlogClose
then closes the second only, and no descriptor with the first number is ever closed. -/
theorem C103_nflog_reopen_leaks_violated (K : Kernel LEv) (w : W) (fd1 fd2 : Nat) (hne : fd1 ≠ fd2)
    (hs1 : K.socket w.trace = .ok fd1) (hs2 : ∀ evs, evs ≠ [] → K.socket (w.trace ++ evs) = .ok fd2)
    (hb : ∀ tr fd, K.bind tr fd = none) :
    ∃ w1 w2 w3 evs, nflogOpen K w = .ok (.ok (), w1) ∧ nflogOpen K w1 = .ok (.ok (), w2) ∧
      nflogClose K w2 = .ok ((), w3) ∧
      w3.trace = w.trace ++ evs ∧ .socket 16 3 12 (.ok fd1) ∈ evs ∧ ∀ r, .close fd1 r ∉ evs := by
  have key : ∀ (w : W) (fd : Nat), K.socket w.trace = .ok fd → ∃ w1 evs, nflogOpen K w = .ok (.ok (), w1) ∧
      w1.trace = w.trace ++ evs ∧ .socket 16 3 12 (.ok fd) ∈ evs ∧ (∀ f r, .close f r ∉ evs) ∧ OpenOn w1 fd := by
    intro w fd hs
    rcases nflogOpen_spec K w with ⟨n, w1, hk, _⟩ | ⟨fd', hfd, ⟨n, bevs, w1, ⟨tr, hn⟩, _⟩ |
      ⟨bevs, opts, w1, _, ho, hbe, hop, ht, _, hst⟩⟩
    · rw [hs] at hk; cases hk
    · rw [hb] at hn; cases hn
    · rw [hs] at hfd
      simp only [Except.ok.injEq] at hfd
      subst hfd
      refine ⟨w1, _, ho, ht, by simp, ?_, ⟨0, by rw [hst]⟩⟩
      intro f r hm
      rcases List.mem_append.mp hm with hm | hm
      · rcases List.mem_append.mp hm with hm | hm
        · simp at hm
        · exact absurd (hbe.clean _ hm).1 (by simp [isClose])
      · exact absurd (hop.clean _ hm).1 (by simp [isClose])
  obtain ⟨w1, e1, h1, t1, m1, c1, _⟩ := key w fd1 hs1
  obtain ⟨w2, e2, h2, t2, m2, c2, hh⟩ := key w1 fd2 (by rw [t1]; exact hs2 e1 (by rintro rfl; simp at m1))
  obtain ⟨e3, h3, h4⟩ := nflogClose_spec K hh
  refine ⟨w1, w2, _, e1 ++ e2 ++ e3, h1, h2, h3, by simp [t2, t1], by simp [m1], ?_⟩
  intro r hm
  rcases List.mem_append.mp hm with hm | hm
  · rcases List.mem_append.mp hm with hm | hm
    · exact c1 _ _ hm
    · exact c2 _ _ hm
  · rcases h4 with rfl | ⟨a, b, rfl⟩
    · simp at hm; exact hne hm.1
    · simp at hm; rcases hm with hm | hm <;> exact hne hm.1

/-- A kernel that numbers descriptors 3, 4. -/
example : ∃ K : Kernel LEv, K.socket ([] : List (Ev LEv)) = .ok 3 ∧
    (∀ evs, evs ≠ [] → K.socket ([] ++ evs) = .ok 4) ∧ ∀ tr fd, K.bind tr fd = none :=
  ⟨{ ackKernel with socket := fun tr => .ok (if tr = [] then 3 else 4) }, rfl,
    fun evs h => by simp [h], fun _ _ => rfl⟩

end Verif.Props.Log
