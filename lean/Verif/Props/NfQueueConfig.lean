import Verif.NfQueue.Start
/-!
Properties C12–C16 and C29: configuring, starting and stopping a queue.
-/
namespace Verif.Props
open Verif.Sys Verif.Spec Verif.NfQueue

/-- The configuration calls of the API with their arguments. -/
inductive ConfigCall where
  | unbindPf
  | bindPf
  | createQueue (num : U16) (callback errorCallback : Option Nat) (privateData : Nat)
  | setMode (mode : U64) (packetSize : U32)
  | setMaxLen (n : U32)
  | destroyQueue

/-- Perform a call. -/
def ConfigCall.run (env : Env) (K : Kernel QEv) : ConfigCall → M (Option Err)
  | .unbindPf => NfQueue.unbindPf env K
  | .bindPf => NfQueue.bindPf env K
  | .createQueue num cb ecb pd => NfQueue.createQueue env K num cb ecb pd
  | .setMode mode size => NfQueue.nfqSetMode env K mode size
  | .setMaxLen n => NfQueue.nfqSetQueueMaxLen env K n
  | .destroyQueue => NfQueue.nfqDestroyQueue env K

/-- The request a call is supposed to make, given the queue number the handle was created for. -/
def ConfigCall.req (queueNum : U16) : ConfigCall → QReq
  | .unbindPf => .pfUnbind
  | .bindPf => .pfBind
  | .createQueue num _ _ _ => .bindQueue num.toNat
  | .setMode mode size => .setMode queueNum.toNat (mode.toNat % 256) size.toNat
  | .setMaxLen n => .setMaxLen queueNum.toNat n.toNat
  | .destroyQueue => .unbindQueue queueNum.toNat

/-- What a call changes in the handle: only `CreateQueue` records its arguments. -/
def ConfigCall.record (c : ConfigCall) (q : NfQueue) : NfQueue :=
  match c with
  | .createQueue num cb ecb pd =>
    { q with queueNum := num, callback := cb, errorCallback := ecb, privateData := pd }
  | _ => q

theorem run_eq (env : Env) (K : Kernel QEv) (c : ConfigCall) (w : W) :
    ∃ msg, c.run env K w = queryOrFail env K msg { w with st := c.record w.st } ∧
      Encodes env.e (hdrBytes env.e msg.header ++ msg.data) (c.req w.st.queueNum) := by
  cases c with
  | unbindPf => exact ⟨_, congrFun (unbindPf_eq env K) w, enc_pfUnbind _⟩
  | bindPf => exact ⟨_, congrFun (bindPf_eq env K) w, enc_pfBind _⟩
  | createQueue num cb ecb pd => exact ⟨_, createQueue_eq env K num cb ecb pd w, enc_bind _ _⟩
  | setMode mode size => exact ⟨_, nfqSetMode_eq env K mode size w, enc_mode _ _ _ _⟩
  | setMaxLen n => exact ⟨_, nfqSetQueueMaxLen_eq env K n w, enc_maxLen _ _ _⟩
  | destroyQueue => exact ⟨_, nfqDestroyQueue_eq env K w, enc_unbind _ _⟩

theorem run_exchange {env : Env} {K : Kernel QEv} (c : ConfigCall) {w w' : W} {qh : Handle}
    {r : Option Err} (hR : Ready w qh) (h : c.run env K w = .ok (r, w')) :
    ∃ evs, Exchange env.e qh.fd qh.buf.len (c.req w.st.queueNum) r evs ∧
      w'.trace = w.trace ++ evs ∧ w'.st = c.record w.st ∧ Ready w' qh := by
  obtain ⟨msg, he, henc⟩ := run_eq env K c w
  rw [he] at h
  have hR' : Ready { w with st := c.record w.st } qh := by
    refine ⟨?_, hR.2⟩
    cases c <;> exact hR.1
  obtain ⟨evs, a, b, c, d, _⟩ := exchange_of_query hR' henc h
  exact ⟨evs, a, b, c, d⟩

/-- C12: every configuration call on an open socket that returns has sent exactly one message
(repeated once verbatim only if the first attempt failed), which decodes as exactly the intended
request and states its true length, followed by at most one receive; nothing else happened. The
handle changed at most by what `CreateQueue` records. -/
theorem C12_requests (env : Env) (K : Kernel QEv) (c : ConfigCall) (w w' : W) (qh : Handle)
    (r : Option Err) (hR : Ready w qh) (h : c.run env K w = .ok (r, w')) :
    ∃ b sends rest, w'.trace = w.trace ++ (sends ++ rest) ∧
      Encodes env.e b (c.req w.st.queueNum) ∧
      (∃ res, SendEvs qh.fd b res sends) ∧
      (rest = [] ∨ ∃ d, rest = [.recvfrom qh.fd qh.buf.len 0 d]) ∧
      w'.st = c.record w.st := by
  obtain ⟨evs, ⟨b, henc, hq⟩, ht, hst, _⟩ := run_exchange c hR h
  cases hq with
  | sendFailed hs => exact ⟨b, evs, [], by simpa using ht, henc, ⟨_, hs⟩, Or.inl rfl, hst⟩
  | recvFailed hs => exact ⟨b, _, _, ht, henc, ⟨_, hs⟩, Or.inr ⟨_, rfl⟩, hst⟩
  | replied hs _ _ _ => exact ⟨b, _, _, ht, henc, ⟨_, hs⟩, Or.inr ⟨_, rfl⟩, hst⟩

set_option maxRecDepth 4000 in
/-- A little-endian host's request to bind queue 7, byte by byte. -/
example : Encodes .little
    [28, 0, 0, 0, 2, 3, 5, 0, 0, 0, 0, 0, 0, 0, 0, 0, 0, 0, 0, 7, 8, 0, 1, 0, 1, 0, 0, 0] (.bindQueue 7) :=
  ⟨1, [1, 0, 0, 0], by rfl, rfl, rfl, rfl, rfl⟩

/-- C13: without an open socket every configuration call returns an error and makes no system call. -/
theorem C13_no_socket (env : Env) (K : Kernel QEv) (c : ConfigCall) (w : W) (hn : w.st.handle = none) :
    ∃ err w', c.run env K w = .ok (some err, w') ∧ w'.trace = w.trace ∧ w'.heap = w.heap := by
  obtain ⟨msg, he, _⟩ := run_eq env K c w
  have hn' : ({ w with st := c.record w.st } : W).st.handle = none := by cases c <;> exact hn
  obtain ⟨err, h⟩ := queryOrFail_closed (env := env) (K := K) msg hn'
  exact ⟨err, _, he.trans h, rfl, rfl⟩

/-- A new queue has no socket. -/
example : (newNFQueue ⟨[]⟩).1.handle = none := rfl

theorem sendEvs_mem {fd : Nat} {b : List Byte} {r : Option Nat} {evs : List (Ev QEv)}
    (h : SendEvs fd b r evs) : ∀ ev ∈ evs, ∃ x, ev = .sendto fd b 0 x := by
  intro ev hm
  rcases h with ⟨_, rfl⟩ | ⟨e1, rfl⟩
  · exact ⟨_, by simpa using hm⟩
  · rcases (by simpa using hm : _ ∨ _) with h | h
    · exact ⟨_, h⟩
    · exact ⟨_, h⟩

/-- C14: every configuration call that returns, having received no reply shorter than 20 bytes,
returns nil exactly when the request was sent, a reply was received, and the reply is not an error
message with a non-zero code. -/
theorem C14_nil_iff_acked (env : Env) (K : Kernel QEv) (c : ConfigCall) (w w' : W) (qh : Handle)
    (r : Option Err) (hR : Ready w qh) (h : c.run env K w = .ok (r, w')) :
    ∃ evs, w'.trace = w.trace ++ evs ∧
      ((∀ fd size d, .recvfrom fd size 0 (.ok d) ∈ evs → 20 ≤ d.length) →
        (r = none ↔ ∃ b sends d, Encodes env.e b (c.req w.st.queueNum) ∧ SendEvs qh.fd b none sends ∧
          evs = sends ++ [.recvfrom qh.fd qh.buf.len 0 (.ok d)] ∧ ¬ Refusal env.e d)) := by
  obtain ⟨evs, ⟨b, henc, hq⟩, ht, _, _⟩ := run_exchange c hR h
  refine ⟨evs, ht, ?_⟩
  intro h20
  cases hq with
  | sendFailed hs =>
    simp only [reduceCtorEq, false_iff]
    rintro ⟨b', s', d', _, _, h3, _⟩
    have := sendEvs_mem hs (.recvfrom qh.fd qh.buf.len 0 (.ok d')) (by rw [h3]; simp)
    simp at this
  | recvFailed hs =>
    simp only [reduceCtorEq, false_iff]
    rintro ⟨b', s', d', _, _, h3, _⟩
    have := List.append_inj_right' h3 rfl
    simp at this
  | @replied d _ evs1 hs hlt hiff _ =>
    have hd := h20 qh.fd qh.buf.len d (by simp)
    rw [hiff hd]
    constructor
    · intro hn; exact ⟨b, _, d, henc, hs, rfl, hn⟩
    · rintro ⟨b', s', d', _, _, h3, hn⟩
      have := List.append_inj_right' h3 rfl
      simp only [List.cons.injEq, Ev.recvfrom.injEq, Except.ok.injEq, true_and, and_true] at this
      rw [this]; exact hn

/-- C14: and it does return (no crash) when replies have between 20 bytes and one byte less than the
receive buffer. -/
theorem C14_returns (env : Env) (K : Kernel QEv) (c : ConfigCall) (w : W) (qh : Handle) (hR : Ready w qh)
    (hk : ∀ evs d, K.recv (w.trace ++ evs) qh.fd = .ok d → 20 ≤ d.length ∧ d.length < qh.buf.len) :
    ∃ r w', c.run env K w = .ok (r, w') := by
  obtain ⟨msg, he, _⟩ := run_eq env K c w
  have hR' : Ready { w with st := c.record w.st } qh := by
    refine ⟨?_, hR.2⟩
    cases c <;> exact hR.1
  rw [he]
  exact queryOrFail_returns (env := env) msg hR' hk

/-- A kernel that acknowledges everything (36-byte NLMSG_ERROR with code 0) or refuses with `code`. -/
def ackKernel (code : Byte) : Kernel QEv :=
  { socket := fun _ => .ok 3, bind := fun _ _ => none, setsockopt := fun _ _ => none,
    close := fun _ _ => none, send := fun _ _ _ => none,
    recv := fun _ _ => .ok ([36, 0, 0, 0, 2, 0, 0, 0, 0, 0, 0, 0, 0, 0, 0, 0, code, 0, 0, 0] ++ zeros 16) }
/-- A handle on descriptor 3 with a 64-byte receive buffer. -/
def smallWorld : W :=
  ⟨[], ⟨[zeros 64]⟩, { (newNFQueue ⟨[]⟩).1 with handle := some ⟨3, ⟨0, 0, 64, 64⟩⟩ }⟩
/-- Some surroundings on a little-endian host. -/
def someEnv : Env :=
  ⟨.little, fun n => n, fun _ _ => 0, fun _ => false, fun w => w⟩

/-- The hypotheses of C12 and C14 are met by a concrete open queue and kernel; acknowledged requests
give nil, refused ones an error. -/
example : Ready smallWorld ⟨3, ⟨0, 0, 64, 64⟩⟩ ∧
    (∀ evs d, (ackKernel 0).recv (smallWorld.trace ++ evs) 3 = .ok d → 20 ≤ d.length ∧ d.length < 64) := by
  refine ⟨⟨rfl, by unfold Slice.Valid; decide, rfl⟩, ?_⟩
  intro tr d h
  simp only [ackKernel, Except.ok.injEq] at h
  subst h; decide

/-! ### Starting -/

/-- C15: CreateAndStartNfQueue returns a handle only if: a netfilter netlink socket was opened and
bound; then, on that descriptor and in this order, "unbind AF_INET", "bind AF_INET", "bind queue",
"copy mode = packet with the given size" and "max length" were each sent and acknowledged; then the
reader was started. The handle is set up for that queue, those callbacks and private data. -/
theorem C15_started (env : Env) (K : Kernel QEv) (queueID : U16) (maxLen size : U32)
    (cb ecb : Option Nat) (pd : Nat) (w w' : W)
    (h : createAndStart env K queueID maxLen size cb ecb pd w = .ok (none, w')) :
    ∃ fd bevs opts e1 e2 e3 e4 e5,
      w'.trace = w.trace ++ ([.socket 16 3 12 (.ok fd)] ++ bevs ++ opts ++ e1 ++ e2 ++ e3 ++ e4 ++ e5
        ++ [.app .spawnReader]) ∧
      BindEvs fd none bevs ∧ OptEvs fd opts ∧
      Acked env.e fd .pfUnbind e1 ∧ Acked env.e fd .pfBind e2 ∧
      Acked env.e fd (.bindQueue queueID.toNat) e3 ∧
      Acked env.e fd (.setMode queueID.toNat 2 size.toNat) e4 ∧
      Acked env.e fd (.setMaxLen queueID.toNat maxLen.toNat) e5 ∧
      w'.st.queueNum = queueID ∧ w'.st.callback = cb ∧ w'.st.errorCallback = ecb ∧
      w'.st.privateData = pd := by
  obtain ⟨evs, ht, ho, hc⟩ := start_spec env K queueID maxLen size cb ecb pd w w' none h
  obtain ⟨⟨c1, c2, c3, c4⟩, _⟩ := hc rfl
  cases ho with
  | started hb hopt a1 a2 a3 a4 a5 _ =>
    exact ⟨_, _, _, _, _, _, _, _, ht, hb, hopt, a1, a2, a3, a4, a5, c1, c2, c3, c4⟩

/-- C15: when it returns an error, the reader was not started. -/
theorem C15_error_no_reader (env : Env) (K : Kernel QEv) (queueID : U16) (maxLen size : U32)
    (cb ecb : Option Nat) (pd : Nat) (w w' : W) (err : Err)
    (h : createAndStart env K queueID maxLen size cb ecb pd w = .ok (some err, w')) :
    ∃ evs, w'.trace = w.trace ++ evs ∧ ∀ ev ∈ evs, isSpawn ev = false := by
  obtain ⟨evs, ht, ho, _⟩ := start_spec env K queueID maxLen size cb ecb pd w w' _ h
  refine ⟨evs, ht, ?_⟩
  intro ev hm
  cases ho with
  | noSocket => simp at hm; subst hm; rfl
  | noBind hb =>
    rcases List.mem_append.mp hm with hm | hm
    · simp at hm; subst hm; rfl
    · exact (hb.clean ev hm).2
  | refused hb hopt href hmid hcl =>
    simp only [List.mem_append, List.mem_singleton] at hm
    rcases hm with (((rfl | hm) | hm) | hm) | hm
    · rfl
    · exact (hb.clean ev hm).2
    · exact (hopt.clean ev hm).2
    · exact (isTransfer_not (hmid ev hm)).2.1
    · exact hcl.noSpawn ev hm

/-- C15: it does start when the kernel grants socket and bind, accepts every message and answers each with a message
of 20 bytes or more that is no refusal. -/
theorem C15_starts (env : Env) (K : Kernel QEv) (queueID : U16) (maxLen size : U32)
    (cb ecb : Option Nat) (pd : Nat) (w : W) (fd : Nat) (hsock : K.socket w.trace = .ok fd)
    (hbind : ∀ tr, K.bind tr fd = none) (hs : ∀ tr b, K.send tr fd b = none)
    (hr : ∀ tr, ∃ d, K.recv tr fd = .ok d ∧ 20 ≤ d.length ∧ d.length < 75 * 1024 ∧ ¬ Refusal env.e d) :
    ∃ w', createAndStart env K queueID maxLen size cb ecb pd w = .ok (none, w') :=
  start_succeeds env K queueID maxLen size cb ecb pd w fd hsock hbind hs hr

/-- C15, it comes back: whatever the kernel grants, refuses or fails, so long as its datagrams have a header and fit the buffer. -/
theorem C15_returns (env : Env) (K : Kernel QEv) (queueID : U16) (maxLen size : U32)
    (cb ecb : Option Nat) (pd : Nat) (w : W)
    (hk : ∀ evs fd d, K.recv (w.trace ++ evs) fd = .ok d → 20 ≤ d.length ∧ d.length < 75 * 1024) :
    ∃ r w', createAndStart env K queueID maxLen size cb ecb pd w = .ok (r, w') :=
  start_returns env K queueID maxLen size cb ecb pd w hk

/-- The acknowledging kernel meets the hypotheses of `C15_starts`: a queue is started. -/
example (w : W) : ∃ w', createAndStart someEnv (ackKernel 0) 7 100 1500 (some 0) none 0 w = .ok (none, w') := by
  refine C15_starts someEnv (ackKernel 0) 7 100 1500 (some 0) none 0 w 3 rfl
    (fun _ => rfl) (fun _ _ => rfl) (fun _ => ⟨_, rfl, ?_, ?_, ?_⟩)
  · decide
  · decide
  · unfold Refusal; decide

/-- `fd` was closed exactly once, as the last thing. (One Close of the wrapper is one raw call, or two
when the first fails.) -/
def ClosedOnceAtEnd (fd : Nat) (evs : List (Ev QEv)) : Prop :=
  ∃ pre cl, evs = pre ++ cl ∧ CloseEvs fd cl ∧ ∀ ev ∈ pre, isClose ev = false

/-- C16 (partial: the full claim "every socket opened by a failed start is closed" is false when bind(2)
fails, see `C16_bind_failure_leaks`): when CreateAndStartNfQueue returns an error after a successful bind,
the socket it opened has been closed exactly once, at the end. -/
theorem C16_closed_partial (env : Env) (K : Kernel QEv) (queueID : U16) (maxLen size : U32)
    (cb ecb : Option Nat) (pd : Nat) (w w' : W) (err : Err)
    (h : createAndStart env K queueID maxLen size cb ecb pd w = .ok (some err, w')) :
    ∃ evs, w'.trace = w.trace ++ evs ∧
      ∀ fd, .socket 16 3 12 (.ok fd) ∈ evs → .bind fd none ∈ evs → ClosedOnceAtEnd fd evs := by
  obtain ⟨evs, ht, ho, _⟩ := start_spec env K queueID maxLen size cb ecb pd w w' _ h
  refine ⟨evs, ht, ?_⟩
  intro fd hfd hbd
  cases ho with
  | noSocket => simp at hfd
  | @noBind fd' n bevs hb =>
    exfalso
    rcases hb with ⟨hb, _⟩ | ⟨e1, rfl⟩
    · cases hb
    · simp at hbd
  | @refused fd' _ bevs opts mid cl hb hopt href hmid hcl =>
    have hfd' : fd = fd' := by
      by_cases hne : fd = fd'
      · exact hne
      · exfalso
        simp only [List.mem_append, List.mem_singleton] at hbd
        rcases hbd with (((hbd | hbd) | hbd) | hbd) | hbd
        · cases hbd
        · rcases hb with ⟨_, rfl⟩ | ⟨e1, rfl⟩ <;> simp at hbd <;> exact hne hbd
        · rcases hopt.mem _ hbd with ⟨_, _, _, _, h⟩ | ⟨_, h⟩ <;> cases h
        · exact (isTransfer_not (hmid _ hbd)).2.2.2 _ _ rfl
        · rcases hcl with rfl | ⟨_, _, rfl⟩ <;> simp at hbd
    subst hfd'
    refine ⟨_, cl, rfl, hcl, ?_⟩
    intro ev hm
    simp only [List.mem_append, List.mem_singleton] at hm
    rcases hm with ((rfl | hm) | hm) | hm
    · rfl
    · exact (hb.clean ev hm).1
    · exact (hopt.clean ev hm).1
    · exact (isTransfer_not (hmid ev hm)).1

/-- C16 fails in one place: if bind(2) keeps failing, CreateAndStartNfQueue opens a socket, returns an
error and never closes it, for every such kernel. -/
theorem C16_bind_failure_leaks (env : Env) (K : Kernel QEv) (queueID : U16) (maxLen size : U32)
    (cb ecb : Option Nat) (pd : Nat) (w : W) (fd : Nat) (hs : K.socket w.trace = .ok fd)
    (hb : ∀ tr, ∃ n, K.bind tr fd = some n) :
    ∃ err w' evs, createAndStart env K queueID maxLen size cb ecb pd w = .ok (some err, w') ∧
      w'.trace = w.trace ++ evs ∧ .socket 16 3 12 (.ok fd) ∈ evs ∧ ∀ ev ∈ evs, isClose ev = false := by
  unfold createAndStart
  simp only [freshQueue, GoM.bind_apply, Res.ok_bind]
  rcases nfqOpen_spec K ⟨w.trace, (newNFQueue w.heap).2, (newNFQueue w.heap).1⟩ with
    ⟨n, w1, hk, _⟩ | ⟨fd', hfd, ⟨n, bevs, w1, _, ho, hbe, ht, _, _⟩ | ⟨bevs, opts, w1, ho, hbe, _⟩⟩
  · rw [hs] at hk; cases hk
  · rw [hs] at hfd
    simp only [Except.ok.injEq] at hfd
    subst hfd
    rw [ho]
    refine ⟨_, w1, _, rfl, ht, by simp, ?_⟩
    intro ev hm
    rcases List.mem_append.mp hm with hm | hm
    · simp at hm; subst hm; rfl
    · exact (hbe.clean ev hm).1
  · exfalso
    rw [hs] at hfd
    simp only [Except.ok.injEq] at hfd
    subst hfd
    obtain ⟨n0, h0⟩ := hb (w.trace ++ [.socket 16 3 12 (.ok fd)])
    obtain ⟨n1, h1⟩ := hb (w.trace ++ [.socket 16 3 12 (.ok fd), .bind fd (some n0)])
    simp [nfqOpen, getQ, modifyQ, socket, rawSocket, hs, World.log, Sys.bind, rawBind, h0, h1] at ho

/-- A kernel refusing bind with EADDRINUSE meets those hypotheses. -/
example : ∀ tr, ∃ n, ({ ackKernel 0 with bind := fun _ _ => some 98 } : Kernel QEv).bind tr 3 = some n :=
  fun _ => ⟨98, rfl⟩

/-- C16, other direction: a successful start closes nothing. -/
theorem C16_success_keeps_open (env : Env) (K : Kernel QEv) (queueID : U16) (maxLen size : U32)
    (cb ecb : Option Nat) (pd : Nat) (w w' : W)
    (h : createAndStart env K queueID maxLen size cb ecb pd w = .ok (none, w')) :
    ∃ evs, w'.trace = w.trace ++ evs ∧ ∀ ev ∈ evs, isClose ev = false := by
  obtain ⟨evs, ht, ho, _⟩ := start_spec env K queueID maxLen size cb ecb pd w w' none h
  refine ⟨evs, ht, ?_⟩
  intro ev hm
  cases ho with
  | started hb hopt _ _ _ _ _ hcl =>
    simp only [List.append_assoc, List.mem_append, List.mem_singleton] at hm
    rcases hm with rfl | hm | hm | hm | hm | hm | hm | hm | rfl
    · rfl
    · exact (hb.clean ev hm).1
    · exact (hopt.clean ev hm).1
    all_goals first | rfl | exact (isTransfer_not (hcl ev (by simp [hm]))).1

/-! ### Stopping -/

/-- C29: StopQueue on an open queue sends the unbind request for the handle's queue; if that was
acknowledged it closes the socket once and returns nil; otherwise it returns the error and closes
nothing. -/
theorem C29_stop (env : Env) (K : Kernel QEv) (w w' : W) (qh : Handle) (r : Option Err)
    (hR : Ready w qh) (h : stopQueue env K w = .ok (r, w')) :
    ∃ evs cl, w'.trace = w.trace ++ (evs ++ cl) ∧
      Exchange env.e qh.fd qh.buf.len (.unbindQueue w.st.queueNum.toNat) r evs ∧
      (r = none → CloseEvs qh.fd cl) ∧ (r ≠ none → cl = []) ∧ w'.st = w.st := by
  unfold stopQueue at h
  simp only [GoM.bind_apply] at h
  obtain ⟨⟨rd, w1⟩, hd, h⟩ := Res.bind_eq_ok.mp h
  rw [nfqDestroyQueue_eq] at hd
  obtain ⟨evs, hx, ht, hst, hR1, z1, _⟩ := exchange_of_query hR (enc_unbind _ _) hd
  rcases rd with _ | err
  · simp only [GoM.bind_apply, getQ, Res.ok_bind, hR1.1, Handle.close] at h
    obtain ⟨rc, cl, hc, hcl⟩ := close_spec K qh.fd w1
    simp only [hc, Res.ok_bind, GoM.pure_apply, Res.ok.injEq, Prod.mk.injEq] at h
    obtain ⟨rfl, rfl⟩ := h
    exact ⟨evs, cl, by simp [ht], hx, fun _ => hcl, by simp, hst⟩
  · simp only [GoM.pure_apply, Res.ok.injEq, Prod.mk.injEq] at h
    obtain ⟨rfl, rfl⟩ := h
    exact ⟨evs, [], by simp [ht], hx, by simp, fun _ => rfl, hst⟩

/-- C29: StopQueue without an open socket returns an error and makes no system call. -/
theorem C29_stop_unopened (env : Env) (K : Kernel QEv) (w : W) (hn : w.st.handle = none) :
    ∃ err, stopQueue env K w = .ok (some err, w) := by
  unfold stopQueue
  simp only [GoM.bind_apply]
  rw [nfqDestroyQueue_eq]
  obtain ⟨err, h⟩ := queryOrFail_closed (env := env) (K := K)
    (cfgMsg env.e w.st.queueNum 1 4 [2, 0, 0, 0]) hn
  rw [h]
  exact ⟨err, rfl⟩

end Verif.Props
