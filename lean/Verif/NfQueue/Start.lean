import Verif.NfQueue.Config
/-! Opening, starting, stopping: lemmas. -/
namespace Verif.NfQueue
open Common Sys Spec

/-- The raw calls of a wrapper-level Bind, and its result. -/
def BindEvs (fd : Nat) (r : Option Nat) (evs : List (Ev QEv)) : Prop :=
  (r = none ∧ evs = [.bind fd none]) ∨ ∃ e1, evs = [.bind fd (some e1), .bind fd r]

/-- The raw calls of a wrapper-level SetsockoptInt: option `o` of level `l` of `fd` is set to `v`, with
one more try if the first fails. -/
def SetOpt (fd l o v : Nat) (evs : List (Ev QEv)) : Prop :=
  evs = [.setsockopt fd l o v none] ∨
    ∃ e1 r, evs = [.setsockopt fd l o v (some e1), .setsockopt fd l o v r]

/-- The socket options of a queue's socket `fd` were set: NETLINK_NO_ENOBUFS (5) of SOL_NETLINK (270) to
1, SO_RCVBUFFORCE (33) and SO_SNDBUFFORCE (32) of SOL_SOCKET (1) to 500 * 75 KiB, then SO_LINGER. -/
def OptEvs (fd : Nat) (evs : List (Ev QEv)) : Prop :=
  ∃ a b c r, evs = a ++ b ++ c ++ [.linger fd r] ∧ SetOpt fd 270 5 1 a ∧
    SetOpt fd 1 33 (500 * (75 * 1024)) b ∧ SetOpt fd 1 32 (500 * (75 * 1024)) c

theorem bind_spec (K : Kernel QEv) (fd : Nat) (w : W) :
    ∃ r evs, Sys.bind K fd w = .ok (r, { w with trace := w.trace ++ evs }) ∧ BindEvs fd r evs ∧
      ∃ tr, r = K.bind tr fd := by
  rcases h : K.bind w.trace fd with _ | e1
  · exact ⟨none, [.bind fd none], by simp [Sys.bind, rawBind, h, World.log], Or.inl ⟨rfl, rfl⟩, _, h.symm⟩
  · exact ⟨_, [.bind fd (some e1), .bind fd (K.bind (w.trace ++ [.bind fd (some e1)]) fd)],
      by simp [Sys.bind, rawBind, h, World.log], Or.inr ⟨e1, rfl⟩, _, rfl⟩

theorem setsockopt_spec (K : Kernel QEv) (fd l o v : Nat) (w : W) :
    ∃ r evs, setsockoptInt K fd l o v w = .ok (r, { w with trace := w.trace ++ evs }) ∧
      SetOpt fd l o v evs := by
  rcases h : K.setsockopt w.trace fd with _ | e1
  · exact ⟨none, [.setsockopt fd l o v none], by simp [setsockoptInt, rawSetsockopt, h, World.log],
      Or.inl rfl⟩
  · exact ⟨K.setsockopt (w.trace ++ [.setsockopt fd l o v (some e1)]) fd,
      [.setsockopt fd l o v (some e1), .setsockopt fd l o v
        (K.setsockopt (w.trace ++ [.setsockopt fd l o v (some e1)]) fd)],
      by simp [setsockoptInt, rawSetsockopt, h, World.log], Or.inr ⟨_, _, rfl⟩⟩

theorem SetOpt.mem {fd l o v : Nat} {evs : List (Ev QEv)} (h : SetOpt fd l o v evs) :
    ∀ ev ∈ evs, ∃ r, ev = .setsockopt fd l o v r := by
  intro ev hm
  rcases h with rfl | ⟨e1, r, rfl⟩
  · simp at hm; exact ⟨_, hm⟩
  · simp at hm; rcases hm with h | h <;> exact ⟨_, h⟩

theorem OptEvs.mem {fd : Nat} {evs : List (Ev QEv)} (h : OptEvs fd evs) :
    ∀ ev ∈ evs, (∃ l o v r, ev = .setsockopt fd l o v r) ∨ ∃ r, ev = .linger fd r := by
  obtain ⟨a, b, c, r, rfl, ha, hb, hc⟩ := h
  intro ev hm
  simp only [List.mem_append, List.mem_singleton] at hm
  rcases hm with ((hm | hm) | hm) | rfl
  · obtain ⟨r, h⟩ := ha.mem ev hm; exact Or.inl ⟨_, _, _, r, h⟩
  · obtain ⟨r, h⟩ := hb.mem ev hm; exact Or.inl ⟨_, _, _, r, h⟩
  · obtain ⟨r, h⟩ := hc.mem ev hm; exact Or.inl ⟨_, _, _, r, h⟩
  · exact Or.inr ⟨_, rfl⟩

theorem close_spec (K : Kernel QEv) (fd : Nat) (w : W) :
    ∃ r evs, Sys.close K fd w = .ok (r, { w with trace := w.trace ++ evs }) ∧ CloseEvs fd evs := by
  rcases h : K.close w.trace fd with _ | e1
  · exact ⟨none, [.close fd none], by simp [Sys.close, rawClose, h, World.log], Or.inl rfl⟩
  · exact ⟨K.close (w.trace ++ [.close fd (some e1)]) fd, [.close fd (some e1), .close fd (K.close (w.trace ++ [.close fd (some e1)]) fd)],
      by simp [Sys.close, rawClose, h, World.log], Or.inr ⟨e1, _, rfl⟩⟩

/-- What opening does. -/
theorem nfqOpen_spec (K : Kernel QEv) (w : W) :
    (∃ n w', K.socket w.trace = .error n ∧ nfqOpen K w = .ok (.error (.errno n), w') ∧
      w'.trace = w.trace ++ [.socket 16 3 12 (.error n)] ∧ w'.heap = w.heap ∧
      w'.st.handle = w.st.handle) ∨
    (∃ fd, K.socket w.trace = .ok fd ∧
      ((∃ n bevs w', (∃ tr, K.bind tr fd = some n) ∧ nfqOpen K w = .ok (.error (.errno n), w') ∧ BindEvs fd (some n) bevs ∧
        w'.trace = w.trace ++ ([.socket 16 3 12 (.ok fd)] ++ bevs) ∧ w'.heap = w.heap ∧
        w'.st.handle = w.st.handle) ∨
      (∃ bevs opts w', nfqOpen K w = .ok (.ok (), w') ∧ BindEvs fd none bevs ∧ OptEvs fd opts ∧
        w'.trace = w.trace ++ ([.socket 16 3 12 (.ok fd)] ++ bevs ++ opts) ∧ w'.heap = w.heap ∧
        w'.st = { w.st with subscribed := w.st.subscribed ||| 8,
                            handle := some ⟨fd, w.st.buf⟩ }))) := by
  unfold nfqOpen
  simp only [GoM.bind_apply, getQ, modifyQ, Res.ok_bind]
  rcases hs : K.socket w.trace with n | fd
  · left
    simp only [socket, rawSocket, GoM.bind_apply, Res.ok_bind, hs, GoM.pure_apply, World.log]
    exact ⟨n, _, rfl, rfl, rfl, rfl, rfl⟩
  · right
    refine ⟨fd, rfl, ?_⟩
    simp only [socket, rawSocket, GoM.bind_apply, Res.ok_bind, hs, GoM.pure_apply, World.log]
    generalize hw1 : (World.mk (w.trace ++ [.socket 16 3 12 (.ok fd)]) w.heap
      { w.st with subscribed := w.st.subscribed ||| 8 } : W) = w1
    have ht1 : w1.trace = w.trace ++ [.socket 16 3 12 (.ok fd)] := by rw [← hw1]
    obtain ⟨rb, bevs, hb, hbe, btr, hbtr⟩ := bind_spec K fd w1
    rw [hb]
    rcases rb with _ | n
    · right
      simp only [Res.ok_bind, GoM.bind_apply]
      obtain ⟨r1, o1, h1, ho1⟩ := setsockopt_spec K fd 270 5 1 { w1 with trace := w1.trace ++ bevs }
      rw [h1]; simp only [Res.ok_bind]
      obtain ⟨r2, o2, h2, ho2⟩ := setsockopt_spec K fd 1 33 (500 * nfnlBuffSize)
        { w1 with trace := w1.trace ++ bevs ++ o1 }
      rw [h2]; simp only [Res.ok_bind]
      obtain ⟨r3, o3, h3, ho3⟩ := setsockopt_spec K fd 1 32 (500 * nfnlBuffSize)
        { w1 with trace := w1.trace ++ bevs ++ o1 ++ o2 }
      rw [h3]; simp only [Res.ok_bind, rawLinger, World.log]
      refine ⟨bevs, o1 ++ o2 ++ o3 ++ [.linger fd
          (K.setsockopt (w1.trace ++ bevs ++ o1 ++ o2 ++ o3) fd)], _, rfl, hbe, ?_, ?_, ?_, ?_⟩
      · exact ⟨_, _, _, _, rfl, ho1, ho2, ho3⟩
      · simp [ht1]
      · simp [← hw1]
      · simp [← hw1]
    · left
      refine ⟨n, bevs, _, ⟨btr, hbtr.symm⟩, rfl, hbe, ?_, ?_, ?_⟩
      · simp [ht1]
      · simp [← hw1]
      · simp [← hw1]

theorem nfqClose_spec (K : Kernel QEv) {w : W} {qh : Handle} (h : w.st.handle = some qh) :
    ∃ evs, nfqClose K w = .ok ((), { w with trace := w.trace ++ evs }) ∧ CloseEvs qh.fd evs := by
  obtain ⟨r, evs, h1, h2⟩ := close_spec K qh.fd w
  refine ⟨evs, ?_, h2⟩
  unfold nfqClose Handle.close
  simp only [GoM.bind_apply, getQ, Res.ok_bind, h, h1]
  rfl

theorem Exchange.acked {e : Endian} {fd size : Nat} {req : QReq} {evs : List (Ev QEv)}
    (h : Exchange e fd size req none evs) : Acked e fd req evs := by
  obtain ⟨b, hb, hq⟩ := h
  cases hq with
  | replied hs hlt hi _ => exact ⟨b, _, size, _, hb, hs, rfl, hlt, fun h20 => (hi h20).mp rfl⟩

theorem isTransfer_not {ev : Ev QEv} (h : isTransfer ev = true) :
    isClose ev = false ∧ isSpawn ev = false ∧ (∀ a b c d, ev ≠ .socket a b c d) ∧ ∀ a b, ev ≠ .bind a b := by
  cases ev <;> simp [isTransfer] at h <;> simp [isClose, isSpawn]

theorem SendEvs.clean {fd : Nat} {b : List Byte} {r : Option Nat} {evs : List (Ev QEv)}
    (h : SendEvs fd b r evs) : ∀ ev ∈ evs, isTransfer ev = true := by
  intro ev hm
  rcases h with ⟨_, rfl⟩ | ⟨e1, rfl⟩
  · simp at hm; subst hm; rfl
  · simp at hm; rcases hm with rfl | rfl <;> rfl

theorem Exchange.clean {e : Endian} {fd size : Nat} {req : QReq} {r : Option Err} {evs : List (Ev QEv)}
    (h : Exchange e fd size req r evs) : ∀ ev ∈ evs, isTransfer ev = true := by
  obtain ⟨b, _, hq⟩ := h
  intro ev hm
  cases hq with
  | sendFailed hs => exact hs.clean ev hm
  | recvFailed hs =>
    rcases List.mem_append.mp hm with h | h
    · exact hs.clean ev h
    · simp at h; subst h; rfl
  | replied hs _ _ _ =>
    rcases List.mem_append.mp hm with h | h
    · exact hs.clean ev h
    · simp at h; subst h; rfl

theorem BindEvs.clean {fd : Nat} {r : Option Nat} {evs : List (Ev QEv)} (h : BindEvs fd r evs) :
    ∀ ev ∈ evs, isClose ev = false ∧ isSpawn ev = false := by
  intro ev hm
  rcases h with ⟨_, rfl⟩ | ⟨e1, rfl⟩
  · simp at hm; subst hm; exact ⟨rfl, rfl⟩
  · simp at hm; rcases hm with rfl | rfl <;> exact ⟨rfl, rfl⟩

theorem OptEvs.clean {fd : Nat} {evs : List (Ev QEv)} (h : OptEvs fd evs) :
    ∀ ev ∈ evs, isClose ev = false ∧ isSpawn ev = false := by
  intro ev hm
  rcases h.mem ev hm with ⟨_, _, _, _, rfl⟩ | ⟨_, rfl⟩ <;> exact ⟨rfl, rfl⟩

theorem CloseEvs.noSpawn {fd : Nat} {evs : List (Ev QEv)} (h : CloseEvs fd evs) :
    ∀ ev ∈ evs, isSpawn ev = false := by
  intro ev hm
  rcases h with rfl | ⟨e1, r, rfl⟩
  · simp at hm; subst hm; rfl
  · simp at hm; rcases hm with rfl | rfl <;> rfl

/-- The requests of a start that was turned down, up to and including the request that failed and, if the
queue had been bound by then, the request to unbind it. -/
inductive Refused (e : Endian) (fd q maxLen size : Nat) : Err → List (Ev QEv) → Prop
  | pfUnbind {n err e1} : Exchange e fd n .pfUnbind (some err) e1 →
      Refused e fd q maxLen size (.wrap "Error unbinding existing NFQ handler from AfInet protocol family: %v " err) e1
  | pfBind {n err e1 e2} : Acked e fd .pfUnbind e1 → Exchange e fd n .pfBind (some err) e2 →
      Refused e fd q maxLen size (.wrap "Error binding to AfInet protocol family: %v " err) (e1 ++ e2)
  | bindQueue {n err e1 e2 e3} : Acked e fd .pfUnbind e1 → Acked e fd .pfBind e2 →
      Exchange e fd n (.bindQueue q) (some err) e3 →
      Refused e fd q maxLen size (.wrap "Error binding to queue: %v " err) (e1 ++ e2 ++ e3)
  | setMode {n n' err r e1 e2 e3 e4 ed} : Acked e fd .pfUnbind e1 → Acked e fd .pfBind e2 →
      Acked e fd (.bindQueue q) e3 → Exchange e fd n (.setMode q 2 size) (some err) e4 →
      Exchange e fd n' (.unbindQueue q) r ed →
      Refused e fd q maxLen size (.wrap "Unable to set packets copy mode: %v " err) (e1 ++ e2 ++ e3 ++ e4 ++ ed)
  | setMaxLen {n n' err r e1 e2 e3 e4 e5 ed} : Acked e fd .pfUnbind e1 → Acked e fd .pfBind e2 →
      Acked e fd (.bindQueue q) e3 → Acked e fd (.setMode q 2 size) e4 →
      Exchange e fd n (.setMaxLen q maxLen) (some err) e5 →
      Exchange e fd n' (.unbindQueue q) r ed →
      Refused e fd q maxLen size (.wrap "Unable to set max packets in queue: %v " err) (e1 ++ e2 ++ e3 ++ e4 ++ e5 ++ ed)

/-- Everything that can happen when a queue is started. -/
inductive StartOut (e : Endian) (q : Nat) (maxLen size : Nat) : Option Err → List (Ev QEv) → Prop
  | noSocket {n} : StartOut e q maxLen size (some (.wrap "Error opening NFQueue handle: %v " (.errno n))) [.socket 16 3 12 (.error n)]
  | noBind {fd n bevs} : BindEvs fd (some n) bevs →
      StartOut e q maxLen size (some (.wrap "Error opening NFQueue handle: %v " (.errno n))) ([.socket 16 3 12 (.ok fd)] ++ bevs)
  | refused {fd err bevs opts mid cl} : BindEvs fd none bevs → OptEvs fd opts →
      Refused e fd q maxLen size err mid → (∀ ev ∈ mid, isTransfer ev = true) → CloseEvs fd cl →
      StartOut e q maxLen size (some err) ([.socket 16 3 12 (.ok fd)] ++ bevs ++ opts ++ mid ++ cl)
  | started {fd bevs opts e1 e2 e3 e4 e5} : BindEvs fd none bevs → OptEvs fd opts →
      Acked e fd .pfUnbind e1 → Acked e fd .pfBind e2 → Acked e fd (.bindQueue q) e3 →
      Acked e fd (.setMode q 2 size) e4 → Acked e fd (.setMaxLen q maxLen) e5 →
      (∀ ev ∈ e1 ++ e2 ++ e3 ++ e4 ++ e5, isTransfer ev = true) →
      StartOut e q maxLen size none ([.socket 16 3 12 (.ok fd)] ++ bevs ++ opts ++ e1 ++ e2 ++ e3 ++ e4 ++ e5
        ++ [.app .spawnReader])

theorem newNFQueue_heap (h : Heap) :
    (newNFQueue h).2.arrays = h.arrays ++ [zeros nfnlBuffSize, zeros 40, zeros nfnlBuffSize,
      zeros nfnlBuffSize, zeros nfnlBuffSize] ∧
    (newNFQueue h).1.buf = ⟨h.arrays.length, 0, nfnlBuffSize, nfnlBuffSize⟩ := by
  constructor
  · have : 20 + BitVec.toNat (nfaLength 8#16) + BitVec.toNat (nfaLength 4#16) = 40 := by decide
    simp [newNFQueue, Heap.mk', this]
  · simp [newNFQueue, Heap.mk', zeros]

theorem newNFQueue_buf_valid (h : Heap) : (newNFQueue h).1.buf.Valid (newNFQueue h).2 := by
  obtain ⟨h1, h2⟩ := newNFQueue_heap h
  rw [h2]
  unfold Slice.Valid Heap.arrayOf
  rw [h1]
  simp [zeros]

/-- The state of a started queue. -/
def Configured (q : NfQueue) (queueID : U16) (cb ecb : Option Nat) (pd : Nat) : Prop :=
  q.queueNum = queueID ∧ q.callback = cb ∧ q.errorCallback = ecb ∧ q.privateData = pd

/-- The buffers of `w` are those `NewNFQueue` makes when memory is `h`. -/
def Fresh (h : Heap) (w : W) : Prop :=
  SameShape (newNFQueue h).2 w.heap ∧ w.st.buf = (newNFQueue h).1.buf ∧
    w.st.hdrSlice = (newNFQueue h).1.hdrSlice ∧ w.st.attrs = (newNFQueue h).1.attrs ∧
    (∀ qh, w.st.handle = some qh → qh.buf = (newNFQueue h).1.buf) ∧
    ∀ a, a ≠ (newNFQueue h).1.buf.arr → w.heap.arrayOf a = (newNFQueue h).2.arrayOf a

theorem Fresh.len {h : Heap} {w : W} (hf : Fresh h w) (qh : Handle) (hq : w.st.handle = some qh) : qh.buf.len = nfnlBuffSize := by
  rw [hf.2.2.2.2.1 qh hq, (newNFQueue_heap h).2]

theorem clean_append {a b : List (Ev QEv)} (ha : ∀ ev ∈ a, isTransfer ev = true)
    (hb : ∀ ev ∈ b, isTransfer ev = true) :
    ∀ ev ∈ a ++ b, isTransfer ev = true := by
  intro ev hm
  rcases List.mem_append.mp hm with h | h
  · exact ha ev h
  · exact hb ev h

theorem start_spec (env : Env) (K : Kernel QEv) (queueID : U16) (maxLen size : U32)
    (cb ecb : Option Nat) (pd : Nat) (w w' : W) (r : Option Err)
    (h : createAndStart env K queueID maxLen size cb ecb pd w = .ok (r, w')) :
    ∃ evs, w'.trace = w.trace ++ evs ∧ StartOut env.e queueID.toNat maxLen.toNat size.toNat r evs ∧
      (r = none → Configured w'.st queueID cb ecb pd ∧ ∃ qh, Ready w' qh ∧
        .socket 16 3 12 (.ok qh.fd) ∈ evs ∧ Fresh w.heap w') := by
  unfold createAndStart at h
  simp only [freshQueue, GoM.bind_apply, Res.ok_bind] at h
  generalize hw0 : (World.mk w.trace (newNFQueue w.heap).2 (newNFQueue w.heap).1 : W) = w0 at h
  have ht0 : w0.trace = w.trace := by rw [← hw0]
  rcases nfqOpen_spec K w0 with ⟨n, w1, _, ho, ht, _, _⟩ | ⟨fd, _, ⟨n, bevs, w1, _, ho, hb, ht, _, _⟩ |
    ⟨bevs, opts, w1, ho, hb, hopt, ht, hh, hst⟩⟩
  · rw [ho] at h
    simp only [Res.ok_bind, GoM.pure_apply, Res.ok.injEq, Prod.mk.injEq] at h
    obtain ⟨rfl, rfl⟩ := h
    exact ⟨_, by rw [ht, ht0], .noSocket, by simp⟩
  · rw [ho] at h
    simp only [Res.ok_bind, GoM.pure_apply, Res.ok.injEq, Prod.mk.injEq] at h
    obtain ⟨rfl, rfl⟩ := h
    exact ⟨_, by rw [ht, ht0], .noBind hb, by simp⟩
  · rw [ho] at h
    simp only [Res.ok_bind, GoM.bind_apply] at h
    have hR1 : Ready w1 ⟨fd, w0.st.buf⟩ := by
      refine ⟨by rw [hst], ?_, ?_⟩
      · rw [hh, ← hw0]; exact newNFQueue_buf_valid _
      · rw [← hw0]; simp [newNFQueue, Heap.mk']
    -- first request
    rw [unbindPf_eq] at h
    obtain ⟨⟨r1, w2⟩, h1, h⟩ := Res.bind_eq_ok.mp h
    obtain ⟨e1, x1, t1, s1, hR2, z2, y2⟩ := exchange_of_query hR1 (enc_pfUnbind _) h1
    simp only at h
    have fin : ∀ (wi : W) (err : Err) (mid : List (Ev QEv)), Ready wi ⟨fd, w0.st.buf⟩ →
        wi.trace = w1.trace ++ mid → Refused env.e fd queueID.toNat maxLen.toNat size.toNat err mid → (∀ ev ∈ mid, isTransfer ev = true) →
        ((do nfqClose K; pure (some err)) : M (Option Err)) wi = .ok (r, w') →
        ∃ evs, w'.trace = w.trace ++ evs ∧ StartOut env.e queueID.toNat maxLen.toNat size.toNat r evs ∧
          (r = none → Configured w'.st queueID cb ecb pd ∧ ∃ qh, Ready w' qh ∧
            .socket 16 3 12 (.ok qh.fd) ∈ evs ∧ Fresh w.heap w') := by
      intro wi err mid hRi hti href hmid hx
      obtain ⟨cl, hc, hcl⟩ := nfqClose_spec K hRi.1
      simp only [GoM.bind_apply, hc, Res.ok_bind, GoM.pure_apply, Res.ok.injEq, Prod.mk.injEq] at hx
      obtain ⟨rfl, rfl⟩ := hx
      refine ⟨_, ?_, .refused hb hopt href hmid hcl, by simp⟩
      simp only [hti, ht, ht0, List.append_assoc]
    rcases r1 with _ | err
    case some => exact fin w2 _ e1 hR2 t1 (.pfUnbind x1) x1.clean h
    simp only [GoM.bind_apply] at h
    rw [bindPf_eq] at h
    obtain ⟨⟨r2, w3⟩, h2, h⟩ := Res.bind_eq_ok.mp h
    obtain ⟨e2, x2, t2, s2, hR3, z3, y3⟩ := exchange_of_query hR2 (enc_pfBind _) h2
    simp only at h
    rcases r2 with _ | err
    case some =>
      exact fin w3 _ (e1 ++ e2) hR3 (by rw [t2, t1, List.append_assoc]) (.pfBind x1.acked x2) (clean_append x1.clean x2.clean) h
    simp only [GoM.bind_apply] at h
    obtain ⟨⟨r3, w4⟩, h3, h⟩ := Res.bind_eq_ok.mp h
    rw [createQueue_eq] at h3
    obtain ⟨e3, x3, t3, s3, hR4, z4, y4⟩ := exchange_of_query (qh := ⟨fd, w0.st.buf⟩) (by exact ⟨hR3.1, hR3.2⟩) (enc_bind _ _) h3
    simp only at h t3
    rcases r3 with _ | err
    case some =>
      exact fin w4 _ (e1 ++ e2 ++ e3) hR4 (by rw [t3, t2, t1]; simp)
        (.bindQueue x1.acked x2.acked x3) (clean_append (clean_append x1.clean x2.clean) x3.clean) h
    have hq4 : w4.st.queueNum = queueID := by rw [s3]
    simp only [GoM.bind_apply] at h
    obtain ⟨⟨r4, w5⟩, h4, h⟩ := Res.bind_eq_ok.mp h
    rw [nfqSetMode_eq] at h4
    obtain ⟨e4, x4, t4, s4, hR5, z5, y5⟩ := exchange_of_query hR4 (enc_mode _ _ _ _) h4
    simp only at h
    have hq5 : w5.st.queueNum = queueID := by rw [s4, hq4]
    rcases r4 with _ | err
    case some =>
      simp only [GoM.bind_apply] at h
      obtain ⟨⟨rd, w6⟩, hd, h⟩ := Res.bind_eq_ok.mp h
      rw [nfqDestroyQueue_eq] at hd
      obtain ⟨ed, xd, td, sd, hR6, z6, y6⟩ := exchange_of_query hR5 (enc_unbind _ _) hd
      exact fin w6 _ (e1 ++ e2 ++ e3 ++ e4 ++ ed) hR6 (by rw [td, t4, t3, t2, t1]; simp)
        (.setMode x1.acked x2.acked x3.acked (hq4 ▸ x4) (hq5 ▸ xd)) (clean_append (clean_append (clean_append (clean_append x1.clean x2.clean) x3.clean) x4.clean) xd.clean) h
    simp only [GoM.bind_apply] at h
    obtain ⟨⟨r5, w6⟩, h5, h⟩ := Res.bind_eq_ok.mp h
    rw [nfqSetQueueMaxLen_eq] at h5
    obtain ⟨e5, x5, t5, s5, hR6, z6, y6⟩ := exchange_of_query hR5 (enc_maxLen _ _ _) h5
    simp only at h
    have hq6 : w6.st.queueNum = queueID := by rw [s5, hq5]
    rcases r5 with _ | err
    case some =>
      simp only [GoM.bind_apply] at h
      obtain ⟨⟨rd, w7⟩, hd, h⟩ := Res.bind_eq_ok.mp h
      rw [nfqDestroyQueue_eq] at hd
      obtain ⟨ed, xd, td, sd, hR7, z7, y7⟩ := exchange_of_query hR6 (enc_unbind _ _) hd
      exact fin w7 _ (e1 ++ e2 ++ e3 ++ e4 ++ e5 ++ ed) hR7 (by rw [td, t5, t4, t3, t2, t1]; simp)
        (.setMaxLen x1.acked x2.acked x3.acked (hq4 ▸ x4.acked) (hq5 ▸ x5) (hq6 ▸ xd)) (clean_append (clean_append (clean_append (clean_append (clean_append x1.clean x2.clean) x3.clean)
          x4.clean) x5.clean) xd.clean) h
    simp only [emit, GoM.bind_apply, Res.ok_bind, GoM.pure_apply, Res.ok.injEq, Prod.mk.injEq,
      World.log] at h
    obtain ⟨rfl, rfl⟩ := h
    rw [hq4] at x4
    rw [hq5] at x5
    refine ⟨_, ?_, .started hb hopt x1.acked x2.acked x3.acked x4.acked x5.acked
      (clean_append (clean_append (clean_append (clean_append x1.clean x2.clean) x3.clean) x4.clean) x5.clean),
      fun _ => ⟨?_, ⟨fd, w0.st.buf⟩, ?_, by simp, ?_⟩⟩
    · simp only [t5, t4, t3, t2, t1, ht, ht0, List.append_assoc]
    · show Configured w6.st _ _ _ _
      rw [s5, s4, s3]; exact ⟨rfl, rfl, rfl, rfl⟩
    · exact ⟨hR6.1, hR6.2⟩
    · have hz : SameShape w0.heap w6.heap := by
        intro a
        rw [← hh, z2 a, z3 a, ← z6 a, ← z5 a, ← z4 a]
      have hy : ∀ a, a ≠ w0.st.buf.arr → w6.heap.arrayOf a = w0.heap.arrayOf a := by
        intro a ha
        rw [y6 a ha, y5 a ha, y4 a ha]
        show w3.heap.arrayOf a = _
        rw [y3 a ha, y2 a ha, hh]
      rw [← hw0] at hz hst hy
      refine ⟨hz, ?_, ?_, ?_, ?_, hy⟩
      rotate_left 3
      · intro qh hqh
        have h6 : w6.st.handle = some ⟨fd, w0.st.buf⟩ := hR6.1
        have h6' : w6.st.handle = some qh := hqh
        rw [h6] at h6'
        cases h6'
        rw [← hw0]
      · show w6.st.buf = _
        rw [s5, s4, s3, s2, s1, hst]
      · show w6.st.hdrSlice = _
        rw [s5, s4, s3, s2, s1, hst]
      · show w6.st.attrs = _
        rw [s5, s4, s3, s2, s1, hst]

/-- Whatever becomes of a start, it writes only to the new queue's receive buffer; if it succeeds, the counters are zero. -/
theorem start_keeps (env : Env) (K : Kernel QEv) (queueID : U16) (maxLen size : U32)
    (cb ecb : Option Nat) (pd : Nat) (w w' : W) (r : Option Err)
    (h : createAndStart env K queueID maxLen size cb ecb pd w = .ok (r, w')) :
    SameShape (newNFQueue w.heap).2 w'.heap ∧
    (∀ a, a ≠ (newNFQueue w.heap).1.buf.arr → w'.heap.arrayOf a = (newNFQueue w.heap).2.arrayOf a) ∧
    (r = none → w'.st.processed = 0 ∧ w'.st.accepted = 0 ∧ w'.st.dropped = 0) := by
  unfold createAndStart at h
  simp only [freshQueue, GoM.bind_apply, Res.ok_bind] at h
  generalize hw0 : (World.mk w.trace (newNFQueue w.heap).2 (newNFQueue w.heap).1 : W) = w0 at h
  have e0 : (newNFQueue w.heap).2 = w0.heap := by rw [← hw0]
  have e1 : (newNFQueue w.heap).1.buf = w0.st.buf := by rw [← hw0]
  rw [e0, e1]
  rcases nfqOpen_spec K w0 with ⟨n, w1, _, ho, ht, hh, _⟩ | ⟨fd, _, ⟨n, bevs, w1, _, ho, hb, ht, hh, _⟩ |
    ⟨bevs, opts, w1, ho, hb, hopt, ht, hh, hst⟩⟩
  · rw [ho] at h
    simp only [Res.ok_bind, GoM.pure_apply, Res.ok.injEq, Prod.mk.injEq] at h
    obtain ⟨rfl, rfl⟩ := h
    rw [hh]; exact ⟨fun _ => rfl, fun _ _ => rfl, by simp⟩
  · rw [ho] at h
    simp only [Res.ok_bind, GoM.pure_apply, Res.ok.injEq, Prod.mk.injEq] at h
    obtain ⟨rfl, rfl⟩ := h
    rw [hh]; exact ⟨fun _ => rfl, fun _ _ => rfl, by simp⟩
  · rw [ho] at h
    simp only [Res.ok_bind, GoM.bind_apply] at h
    have hR1 : Ready w1 ⟨fd, w0.st.buf⟩ := by
      refine ⟨by rw [hst], ?_, ?_⟩
      · rw [hh, ← hw0]; exact newNFQueue_buf_valid _
      · rw [← hw0]; simp [newNFQueue, Heap.mk']
    have Kp : ∀ {x y : W}, (SameShape w0.heap x.heap ∧ ∀ a, a ≠ w0.st.buf.arr → x.heap.arrayOf a = w0.heap.arrayOf a) →
        SameShape x.heap y.heap → (∀ a, a ≠ w0.st.buf.arr → y.heap.arrayOf a = x.heap.arrayOf a) →
        (SameShape w0.heap y.heap ∧ ∀ a, a ≠ w0.st.buf.arr → y.heap.arrayOf a = w0.heap.arrayOf a) :=
      fun hx z y => ⟨fun a => (hx.1 a).trans (z a), fun a ha => (y a ha).trans (hx.2 a ha)⟩
    have k1 : SameShape w0.heap w1.heap ∧ ∀ a, a ≠ w0.st.buf.arr → w1.heap.arrayOf a = w0.heap.arrayOf a := by
      rw [hh]; exact ⟨fun _ => rfl, fun _ _ => rfl⟩
    have fin : ∀ (wi : W) (err : Err), Ready wi ⟨fd, w0.st.buf⟩ →
        (SameShape w0.heap wi.heap ∧ ∀ a, a ≠ w0.st.buf.arr → wi.heap.arrayOf a = w0.heap.arrayOf a) →
        ((do nfqClose K; pure (some err)) : M (Option Err)) wi = .ok (r, w') →
        SameShape w0.heap w'.heap ∧ (∀ a, a ≠ w0.st.buf.arr → w'.heap.arrayOf a = w0.heap.arrayOf a) ∧
        (r = none → w'.st.processed = 0 ∧ w'.st.accepted = 0 ∧ w'.st.dropped = 0) := by
      intro wi err hRi hk hx
      obtain ⟨cl, hc, hcl⟩ := nfqClose_spec K hRi.1
      simp only [GoM.bind_apply, hc, Res.ok_bind, GoM.pure_apply, Res.ok.injEq, Prod.mk.injEq] at hx
      obtain ⟨rfl, rfl⟩ := hx
      exact ⟨hk.1, hk.2, by simp⟩
    rw [unbindPf_eq] at h
    obtain ⟨⟨r1, w2⟩, h1, h⟩ := Res.bind_eq_ok.mp h
    obtain ⟨_, _, _, s1, hR2, z2, y2⟩ := exchange_of_query hR1 (enc_pfUnbind _) h1
    have k2 := Kp k1 z2 y2
    simp only at h
    rcases r1 with _ | err
    case some => exact fin w2 _ hR2 k2 h
    simp only [GoM.bind_apply] at h
    rw [bindPf_eq] at h
    obtain ⟨⟨r2, w3⟩, h2, h⟩ := Res.bind_eq_ok.mp h
    obtain ⟨_, _, _, s2, hR3, z3, y3⟩ := exchange_of_query hR2 (enc_pfBind _) h2
    have k3 := Kp k2 z3 y3
    simp only at h
    rcases r2 with _ | err
    case some => exact fin w3 _ hR3 k3 h
    simp only [GoM.bind_apply] at h
    obtain ⟨⟨r3, w4⟩, h3, h⟩ := Res.bind_eq_ok.mp h
    rw [createQueue_eq] at h3
    obtain ⟨_, _, _, s3, hR4, z4, y4⟩ := exchange_of_query (qh := ⟨fd, w0.st.buf⟩) (by exact ⟨hR3.1, hR3.2⟩) (enc_bind _ _) h3
    have k4 := Kp k3 z4 y4
    simp only at h
    rcases r3 with _ | err
    case some => exact fin w4 _ hR4 k4 h
    simp only [GoM.bind_apply] at h
    obtain ⟨⟨r4, w5⟩, h4, h⟩ := Res.bind_eq_ok.mp h
    rw [nfqSetMode_eq] at h4
    obtain ⟨_, _, _, s4, hR5, z5, y5⟩ := exchange_of_query hR4 (enc_mode _ _ _ _) h4
    have k5 := Kp k4 z5 y5
    simp only at h
    rcases r4 with _ | err
    case some =>
      simp only [GoM.bind_apply] at h
      obtain ⟨⟨rd, w6⟩, hd, h⟩ := Res.bind_eq_ok.mp h
      rw [nfqDestroyQueue_eq] at hd
      obtain ⟨_, _, _, sd, hR6, z6, y6⟩ := exchange_of_query hR5 (enc_unbind _ _) hd
      exact fin w6 _ hR6 (Kp k5 z6 y6) h
    simp only [GoM.bind_apply] at h
    obtain ⟨⟨r5, w6⟩, h5, h⟩ := Res.bind_eq_ok.mp h
    rw [nfqSetQueueMaxLen_eq] at h5
    obtain ⟨_, _, _, s5, hR6, z6, y6⟩ := exchange_of_query hR5 (enc_maxLen _ _ _) h5
    have k6 := Kp k5 z6 y6
    simp only at h
    rcases r5 with _ | err
    case some =>
      simp only [GoM.bind_apply] at h
      obtain ⟨⟨rd, w7⟩, hd, h⟩ := Res.bind_eq_ok.mp h
      rw [nfqDestroyQueue_eq] at hd
      obtain ⟨_, _, _, sd, hR7, z7, y7⟩ := exchange_of_query hR6 (enc_unbind _ _) hd
      exact fin w7 _ hR7 (Kp k6 z7 y7) h
    simp only [emit, GoM.bind_apply, Res.ok_bind, GoM.pure_apply, Res.ok.injEq, Prod.mk.injEq,
      World.log] at h
    obtain ⟨rfl, rfl⟩ := h
    refine ⟨k6.1, k6.2, fun _ => ?_⟩
    show w6.st.processed = 0 ∧ w6.st.accepted = 0 ∧ w6.st.dropped = 0
    rw [s5, s4, s3, s2, s1, hst, ← hw0]
    exact ⟨rfl, rfl, rfl⟩

/-- A start returns, whatever the kernel grants or refuses, so long as what it sends is neither too short nor too long. -/
theorem start_returns (env : Env) (K : Kernel QEv) (queueID : U16) (maxLen size : U32)
    (cb ecb : Option Nat) (pd : Nat) (w : W)
    (hk : ∀ evs fd d, K.recv (w.trace ++ evs) fd = .ok d → 20 ≤ d.length ∧ d.length < nfnlBuffSize) :
    ∃ r w', createAndStart env K queueID maxLen size cb ecb pd w = .ok (r, w') := by
  unfold createAndStart
  simp only [freshQueue, GoM.bind_apply, Res.ok_bind]
  generalize hw0 : (World.mk w.trace (newNFQueue w.heap).2 (newNFQueue w.heap).1 : W) = w0
  rcases nfqOpen_spec K w0 with ⟨n, w1, _, ho, ht, hh, _⟩ | ⟨fd, _, ⟨n, bevs, w1, _, ho, hb, ht, hh, _⟩ |
    ⟨bevs, opts, w1, ho, hb, hopt, ht, hh, hst⟩⟩
  · rw [ho]; exact ⟨_, _, rfl⟩
  · rw [ho]; exact ⟨_, _, rfl⟩
  · rw [ho]
    simp only [Res.ok_bind, GoM.bind_apply]
    have hR1 : Ready w1 ⟨fd, w0.st.buf⟩ := by
      refine ⟨by rw [hst], ?_, ?_⟩
      · rw [hh, ← hw0]; exact newNFQueue_buf_valid _
      · rw [← hw0]; simp [newNFQueue, Heap.mk']
    have hlt' : (Handle.mk fd w0.st.buf).buf.len = nfnlBuffSize := by
      rw [← hw0]; show (newNFQueue w.heap).1.buf.len = _
      rw [(newNFQueue_heap w.heap).2]
    have ht1 : ∃ evs, w1.trace = w.trace ++ evs := by
      rw [ht, ← hw0]; exact ⟨_, rfl⟩
    have step : ∀ (msg : NetlinkMessage) (req : QReq) (wi : W), Ready wi ⟨fd, w0.st.buf⟩ → (∃ evs, wi.trace = w.trace ++ evs) →
        Encodes env.e (hdrBytes env.e msg.header ++ msg.data) req →
        ∃ r w', queryOrFail env K msg wi = .ok (r, w') ∧ Ready w' ⟨fd, w0.st.buf⟩ ∧ ∃ evs, w'.trace = w.trace ++ evs := by
      intro msg req wi hRi ⟨evs, hevs⟩ henc
      obtain ⟨r, w', hq⟩ := queryOrFail_returns (env := env) (K := K) msg hRi (by
        intro evs' d hd
        rw [hevs, List.append_assoc] at hd
        rw [hlt']
        exact hk _ _ d hd)
      obtain ⟨es, _, h2, _, h3, _⟩ := exchange_of_query hRi henc hq
      exact ⟨r, w', hq, h3, evs ++ es, by rw [h2, hevs, List.append_assoc]⟩
    have fin : ∀ (wi : W) (err : Err), Ready wi ⟨fd, w0.st.buf⟩ →
        ∃ r w', ((do nfqClose K; pure (some err)) : M (Option Err)) wi = .ok (r, w') := by
      intro wi err hRi
      obtain ⟨cl, hc, hcl⟩ := nfqClose_spec K hRi.1
      simp only [GoM.bind_apply, hc, Res.ok_bind, GoM.pure_apply]
      exact ⟨_, _, rfl⟩
    rw [unbindPf_eq]
    obtain ⟨r1, w2, h1, hR2, t2⟩ := step _ _ w1 hR1 ht1 (enc_pfUnbind _)
    rw [h1]
    simp only [Res.ok_bind]
    rcases r1 with _ | err
    case some => exact fin w2 _ hR2
    simp only [GoM.bind_apply]
    rw [bindPf_eq]
    obtain ⟨r2, w3, h2, hR3, t3⟩ := step _ _ w2 hR2 t2 (enc_pfBind _)
    rw [h2]
    simp only [Res.ok_bind]
    rcases r2 with _ | err
    case some => exact fin w3 _ hR3
    simp only [GoM.bind_apply]
    rw [createQueue_eq]
    obtain ⟨r3, w4, h3, hR4, t4⟩ := step _ _
      { w3 with st := { w3.st with queueNum := queueID, callback := cb, errorCallback := ecb, privateData := pd } }
      ⟨hR3.1, hR3.2⟩ t3 (enc_bind _ queueID)
    rw [h3]
    simp only [Res.ok_bind]
    rcases r3 with _ | err
    case some => exact fin w4 _ hR4
    simp only [GoM.bind_apply]
    rw [nfqSetMode_eq]
    obtain ⟨r4, w5, h4, hR5, t5⟩ := step _ _ w4 hR4 t4 (enc_mode _ w4.st.queueNum 2 size)
    rw [h4]
    simp only [Res.ok_bind]
    rcases r4 with _ | err
    case some =>
      simp only [GoM.bind_apply]
      rw [nfqDestroyQueue_eq]
      obtain ⟨rd, w6, hd, hR6, _⟩ := step _ _ w5 hR5 t5 (enc_unbind _ w5.st.queueNum)
      rw [hd]
      exact fin w6 _ hR6
    simp only [GoM.bind_apply]
    rw [nfqSetQueueMaxLen_eq]
    obtain ⟨r5, w6, h5, hR6, t6⟩ := step _ _ w5 hR5 t5 (enc_maxLen _ w5.st.queueNum maxLen)
    rw [h5]
    simp only [Res.ok_bind]
    rcases r5 with _ | err
    case some =>
      simp only [GoM.bind_apply]
      rw [nfqDestroyQueue_eq]
      obtain ⟨rd, w7, hd, hR7, _⟩ := step _ _ w6 hR6 t6 (enc_unbind _ w6.st.queueNum)
      rw [hd]
      exact fin w7 _ hR7
    simp only [emit, GoM.bind_apply, Res.ok_bind, GoM.pure_apply]
    exact ⟨_, _, rfl⟩

/-- A request that is accepted and answered with `d`: it succeeds exactly if `d` is no refusal. -/
theorem queryOrFail_answered {env : Env} {K : Kernel QEv} (msg : NetlinkMessage) {w : W}
    {qh : Handle} (hR : Ready w qh) (hs : ∀ b, K.send w.trace qh.fd b = none) {d : List Byte}
    (hr : K.recv (w.trace ++ [.sendto qh.fd (hdrBytes env.e msg.header ++ msg.data) 0 none]) qh.fd = .ok d)
    (h20 : 20 ≤ d.length) (hlt : d.length < qh.buf.len) :
    ∃ r w', queryOrFail env K msg w = .ok (r, w') ∧ ((r = none ↔ ¬ Refusal env.e d) ∧
        (Refusal env.e d → ∃ c : Int, r = some (.netlink c) ∧ numI32 env.e d 16 = some c)) ∧ w'.st = w.st ∧ Ready w' qh ∧
      w'.trace = w.trace ++ [.sendto qh.fd (hdrBytes env.e msg.header ++ msg.data) 0 none,
        .recvfrom qh.fd qh.buf.len 0 (.ok d)] := by
  obtain ⟨h1, h2, h3⟩ := hR
  have hq : queryOrFail env K msg w = qh.query env K msg w := by
    unfold queryOrFail
    simp only [GoM.bind_apply, getQ, Res.ok_bind, h1]
  have hsend : qh.send env K msg w = .ok (none, { w with trace := w.trace ++
      [.sendto qh.fd (hdrBytes env.e msg.header ++ msg.data) 0 none] }) := by
    unfold Handle.send
    simp [wireBytes_eq, sendto, rawSendto, hs, World.log]
  have hri : recvInto K qh.fd qh.buf 0 { w with trace := w.trace ++
        [.sendto qh.fd (hdrBytes env.e msg.header ++ msg.data) 0 none] }
      = .ok (.ok d.length, { w with heap := w.heap.write qh.buf.arr qh.buf.off d, trace := w.trace ++
          [.sendto qh.fd (hdrBytes env.e msg.header ++ msg.data) 0 none] ++ [.recvfrom qh.fd qh.buf.len 0 (.ok d)] }) := by
    simp [recvInto, recvfrom, rawRecvfrom, hr, World.log, Except.map,
      List.take_of_length_le (Nat.le_of_lt hlt)]
  obtain ⟨r, ha, hb⟩ := recv_ok_of_recvInto env K qh { w with trace := w.trace ++
    [.sendto qh.fd (hdrBytes env.e msg.header ++ msg.data) 0 none] } h2 h3 d h20 hlt hri
  refine ⟨r, afterRecv { w with trace := w.trace ++
    [.sendto qh.fd (hdrBytes env.e msg.header ++ msg.data) 0 none] } qh d, ?_, hb, rfl, ?_, by simp [afterRecv]⟩
  · rw [hq]; unfold Handle.query
    simp only [GoM.bind_apply, hsend, Res.ok_bind]
    exact ha
  · refine ⟨h1, ?_, h3⟩
    apply Slice.Valid.write h2
    have := h2.1; have := h2.2; omega

/-- If the kernel accepts every message and answers with something that refuses nothing, requests succeed. -/
theorem queryOrFail_succeeds {env : Env} {K : Kernel QEv} (msg : NetlinkMessage) {w : W}
    {qh : Handle} (hR : Ready w qh) (hs : ∀ tr b, K.send tr qh.fd b = none)
    (ha : ∀ tr, ∃ d, K.recv tr qh.fd = .ok d ∧ 20 ≤ d.length ∧ d.length < qh.buf.len ∧ ¬ Refusal env.e d) :
    ∃ w', queryOrFail env K msg w = .ok (none, w') ∧ w'.st = w.st ∧ Ready w' qh := by
  obtain ⟨d, hr, h20, hlt, hn⟩ := ha (w.trace ++ [.sendto qh.fd (hdrBytes env.e msg.header ++ msg.data) 0 none])
  obtain ⟨r, w', h1, h2, h3, h4, _⟩ := queryOrFail_answered msg hR (hs _) hr h20 hlt
  rw [h2.1.mpr hn] at h1
  exact ⟨w', h1, h3, h4⟩

/-- … and the queue is on the descriptor the kernel gave. -/
theorem start_succeeds_on (env : Env) (K : Kernel QEv) (queueID : U16) (maxLen size : U32)
    (cb ecb : Option Nat) (pd : Nat) (w : W) (fd : Nat) (hsock : K.socket w.trace = .ok fd)
    (hbind : ∀ tr, K.bind tr fd = none) (hs : ∀ tr b, K.send tr fd b = none)
    (hr : ∀ tr, ∃ d, K.recv tr fd = .ok d ∧ 20 ≤ d.length ∧ d.length < nfnlBuffSize ∧ ¬ Refusal env.e d) :
    ∃ w' buf, createAndStart env K queueID maxLen size cb ecb pd w = .ok (none, w') ∧ Ready w' ⟨fd, buf⟩ ∧
      buf.len = nfnlBuffSize := by
  unfold createAndStart
  simp only [freshQueue, GoM.bind_apply, Res.ok_bind]
  generalize hw0 : (World.mk w.trace (newNFQueue w.heap).2 (newNFQueue w.heap).1 : W) = w0
  have hsock : K.socket w0.trace = .ok fd := by rw [← hw0]; exact hsock
  rcases nfqOpen_spec K w0 with ⟨n, w1, hk, ho, ht, _, _⟩ | ⟨fd', hfd, ⟨n, bevs, w1, ⟨tr, hk⟩, _⟩ |
    ⟨bevs, opts, w1, ho, hb, hopt, ht, hh, hst⟩⟩
  · rw [hsock] at hk; cases hk
  · rw [hsock] at hfd
    simp only [Except.ok.injEq] at hfd
    subst hfd
    rw [hbind] at hk; cases hk
  · rw [hsock] at hfd
    simp only [Except.ok.injEq] at hfd
    subst hfd
    rw [ho]
    simp only [Res.ok_bind, GoM.bind_apply]
    have hR1 : Ready w1 ⟨fd, w0.st.buf⟩ := by
      refine ⟨by rw [hst], ?_, ?_⟩
      · rw [hh, ← hw0]; exact newNFQueue_buf_valid _
      · rw [← hw0]; simp [newNFQueue, Heap.mk']
    have hlt' : (Handle.mk fd w0.st.buf).buf.len = nfnlBuffSize := by
      rw [← hw0]; show (newNFQueue w.heap).1.buf.len = _
      rw [(newNFQueue_heap w.heap).2]
    have step : ∀ (msg : NetlinkMessage) (wi : W), Ready wi ⟨fd, w0.st.buf⟩ →
        ∃ w', queryOrFail env K msg wi = .ok (none, w') ∧ w'.st = wi.st ∧ Ready w' ⟨fd, w0.st.buf⟩ :=
      fun msg wi hRi => queryOrFail_succeeds msg hRi hs (by rw [hlt']; exact hr)
    rw [unbindPf_eq]
    obtain ⟨w2, h2, s2, hR2⟩ := step (cfgMsg env.e 0 1 4 [4, 116, 0, 2]) w1 hR1
    rw [h2]
    simp only [Res.ok_bind, GoM.bind_apply]
    rw [bindPf_eq]
    obtain ⟨w3, h3, s3, hR3⟩ := step (cfgMsg env.e 0 1 4 [3, 0, 0, 2]) w2 hR2
    rw [h3]
    simp only [Res.ok_bind, GoM.bind_apply]
    rw [createQueue_eq]
    obtain ⟨w4, h4, s4, hR4⟩ := step (cfgMsg env.e queueID 1 4 [1, 0, 0, 0])
      { w3 with st := { w3.st with queueNum := queueID, callback := cb, errorCallback := ecb, privateData := pd } }
      ⟨hR3.1, hR3.2⟩
    rw [h4]
    simp only [Res.ok_bind, GoM.bind_apply]
    rw [nfqSetMode_eq]
    obtain ⟨w5, h5, s5, hR5⟩ := step (cfgMsg env.e w4.st.queueNum 2 8
      (enc32 .big size ++ [(2 : U64).setWidth 8, 0, 0, 0])) w4 hR4
    rw [h5]
    simp only [Res.ok_bind, GoM.bind_apply]
    rw [nfqSetQueueMaxLen_eq]
    obtain ⟨w6, h6, s6, hR6⟩ := step (cfgMsg env.e w5.st.queueNum 3 4 (enc32 .big maxLen)) w5 hR5
    rw [h6]
    simp only [Res.ok_bind, GoM.bind_apply, emit, GoM.pure_apply]
    exact ⟨_, _, rfl, ⟨hR6.1, hR6.2⟩, hlt'⟩

theorem start_succeeds (env : Env) (K : Kernel QEv) (queueID : U16) (maxLen size : U32)
    (cb ecb : Option Nat) (pd : Nat) (w : W) (fd : Nat) (hsock : K.socket w.trace = .ok fd)
    (hbind : ∀ tr, K.bind tr fd = none) (hs : ∀ tr b, K.send tr fd b = none)
    (hr : ∀ tr, ∃ d, K.recv tr fd = .ok d ∧ 20 ≤ d.length ∧ d.length < nfnlBuffSize ∧ ¬ Refusal env.e d) :
    ∃ w', createAndStart env K queueID maxLen size cb ecb pd w = .ok (none, w') := by
  obtain ⟨w', _, h, _⟩ := start_succeeds_on env K queueID maxLen size cb ecb pd w fd hsock hbind hs hr
  exact ⟨w', h⟩

end Verif.NfQueue
