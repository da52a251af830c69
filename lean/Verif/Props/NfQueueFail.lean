import Verif.Props.NfQueueConfig
/-! C110: what a start that fails leaves behind. -/
namespace Verif.Props
open Verif.Common Verif.Sys Verif.Spec Verif.NfQueue

/-- C110: everything CreateAndStartNfQueue can have done when it returns an error, for every kernel: it could not open
or bind a socket; or it set the socket's options, sent its requests up to the first one that failed, then, if the queue
was bound by then, the request to unbind that queue (whatever became of it), and then closed the socket. The text of the
error names the request that failed. -/
theorem C110_failed_start (env : Env) (K : Kernel QEv) (queueID : U16) (maxLen size : U32)
    (cb ecb : Option Nat) (pd : Nat) (w w' : W) (err : Err)
    (h : createAndStart env K queueID maxLen size cb ecb pd w = .ok (some err, w')) :
    (∃ n, err = .wrap "Error opening NFQueue handle: %v " (.errno n) ∧ w'.trace = w.trace ++ [.socket 16 3 12 (.error n)]) ∨
    (∃ fd n bevs, err = .wrap "Error opening NFQueue handle: %v " (.errno n) ∧
      w'.trace = w.trace ++ ([.socket 16 3 12 (.ok fd)] ++ bevs) ∧ BindEvs fd (some n) bevs) ∨
    (∃ fd bevs opts mid cl, w'.trace = w.trace ++ ([.socket 16 3 12 (.ok fd)] ++ bevs ++ opts ++ mid ++ cl) ∧
      BindEvs fd none bevs ∧ OptEvs fd opts ∧
      Refused env.e fd queueID.toNat maxLen.toNat size.toNat err mid ∧ CloseEvs fd cl) := by
  obtain ⟨evs, ht, ho, _⟩ := start_spec env K queueID maxLen size cb ecb pd w w' _ h
  cases ho with
  | noSocket => exact Or.inl ⟨_, rfl, ht⟩
  | noBind hb => exact Or.inr (Or.inl ⟨_, _, _, rfl, ht, hb⟩)
  | refused hb hopt href _ hcl => exact Or.inr (Or.inr ⟨_, _, _, _, _, ht, hb, hopt, href, hcl⟩)

/-- C110: in particular, once the kernel has bound the queue, a start that fails asks it to unbind that queue, as the last
thing before the socket is closed. -/
theorem C110_unbinds (e : Endian) (fd q maxLen size : Nat) (err : Err) (mid : List (Ev QEv))
    (h : Refused e fd q maxLen size err mid) :
    (∃ n r inner pre ed, mid = pre ++ ed ∧ Exchange e fd n (.unbindQueue q) r ed ∧
      (err = .wrap "Unable to set packets copy mode: %v " inner ∨
        err = .wrap "Unable to set max packets in queue: %v " inner)) ∨
    -- or the last request was one up to and including the binding of the queue, and it failed
    (∃ n err' req pre el, mid = pre ++ el ∧ Exchange e fd n req (some err') el ∧
      (req = .pfUnbind ∨ req = .pfBind ∨ req = .bindQueue q)) := by
  cases h with
  | pfUnbind h => exact Or.inr ⟨_, _, _, [], _, rfl, h, Or.inl rfl⟩
  | pfBind _ h => exact Or.inr ⟨_, _, _, _, _, rfl, h, Or.inr (Or.inl rfl)⟩
  | bindQueue _ _ h => exact Or.inr ⟨_, _, _, _, _, rfl, h, Or.inr (Or.inr rfl)⟩
  | setMode _ _ _ _ h => exact Or.inl ⟨_, _, _, _, _, rfl, h, Or.inl rfl⟩
  | setMaxLen _ _ _ _ _ h => exact Or.inl ⟨_, _, _, _, _, rfl, h, Or.inr rfl⟩

/-- The kernel grants socket and bind, takes every message sent on `fd` and answers it with `judge` of its bytes. -/
def Judges (K : Kernel QEv) (fd : Nat) (judge : List Byte → List Byte) : Prop :=
  (∀ tr, K.socket tr = .ok fd) ∧ (∀ tr, K.bind tr fd = none) ∧ (∀ tr b, K.send tr fd b = none) ∧
    (∀ tr b, K.recv (tr ++ [.sendto fd b 0 none]) fd = .ok (judge b)) ∧
    ∀ b, 20 ≤ (judge b).length ∧ (judge b).length < 75 * 1024

/-- `judge` grants request `req`, however it is encoded. -/
def Grants (e : Endian) (judge : List Byte → List Byte) (req : QReq) : Prop :=
  ∀ b, Encodes e b req → ¬ Refusal e (judge b)
/-- `judge` refuses request `req`, however it is encoded. -/
def Denies (e : Endian) (judge : List Byte → List Byte) (req : QReq) : Prop :=
  ∀ b, Encodes e b req → Refusal e (judge b)

/-- One answered request. -/
def Asked (e : Endian) (fd : Nat) (judge : List Byte → List Byte) (req : QReq) (evs : List (Ev QEv)) : Prop :=
  ∃ b, Encodes e b req ∧ evs = [.sendto fd b 0 none, .recvfrom fd (75 * 1024) 0 (.ok (judge b))]

/-- One request that was answered with an error message whose code is `c`. -/
def AskedRefused (e : Endian) (fd : Nat) (judge : List Byte → List Byte) (req : QReq) (c : Int)
    (evs : List (Ev QEv)) : Prop :=
  ∃ b, Encodes e b req ∧ evs = [.sendto fd b 0 none, .recvfrom fd (75 * 1024) 0 (.ok (judge b))] ∧
    numI32 e (judge b) 16 = some c

theorem asked (env : Env) (K : Kernel QEv) (fd : Nat) (judge : List Byte → List Byte) (hJ : Judges K fd judge)
    (msg : NetlinkMessage) (req : QReq) (w : W) (qh : Handle) (hfd : qh.fd = fd) (hl : qh.buf.len = 75 * 1024)
    (hR : Ready w qh) (henc : Encodes env.e (hdrBytes env.e msg.header ++ msg.data) req) :
    ∃ r w' evs, queryOrFail env K msg w = .ok (r, w') ∧ (Grants env.e judge req → r = none) ∧
      (Denies env.e judge req → ∃ c, r = some (.netlink c) ∧ AskedRefused env.e fd judge req c evs) ∧ w'.st = w.st ∧ Ready w' qh ∧
      w'.trace = w.trace ++ evs ∧ Asked env.e fd judge req evs := by
  obtain ⟨_, _, hs, hr, hlen⟩ := hJ
  subst hfd
  obtain ⟨r, w', h1, h2, h3, h4, h5⟩ := queryOrFail_answered (env := env) msg hR (hs _)
    (hr w.trace (hdrBytes env.e msg.header ++ msg.data)) (hlen _).1 (by rw [hl]; exact (hlen _).2)
  rw [hl] at h5
  refine ⟨r, w', _, h1, fun hg => h2.1.mpr (hg _ henc), fun hd => ?_, h3, h4, h5, _, henc, rfl⟩
  obtain ⟨c, hc, hn⟩ := h2.2 (hd _ henc)
  exact ⟨c, hc, _, henc, rfl, hn⟩

/-- C110: a kernel that grants everything up to the binding of the queue and refuses the copy mode: the start fails, and
the requests the kernel saw are those four and then the one to unbind the queue. -/
theorem C110_mode_denied (env : Env) (K : Kernel QEv) (queueID : U16) (maxLen size : U32)
    (cb ecb : Option Nat) (pd : Nat) (w : W) (fd : Nat) (judge : List Byte → List Byte) (hJ : Judges K fd judge)
    (h1 : Grants env.e judge .pfUnbind) (h2 : Grants env.e judge .pfBind)
    (h3 : Grants env.e judge (.bindQueue queueID.toNat))
    (h4 : Denies env.e judge (.setMode queueID.toNat 2 size.toNat)) :
    ∃ w' bevs opts e1 e2 e3 e4 e5 cl c,
      createAndStart env K queueID maxLen size cb ecb pd w =
        .ok (some (.wrap "Unable to set packets copy mode: %v " (.netlink c)), w') ∧
      w'.trace = w.trace ++ ([.socket 16 3 12 (.ok fd)] ++ bevs ++ opts ++ e1 ++ e2 ++ e3 ++ e4 ++ e5 ++ cl) ∧
      BindEvs fd none bevs ∧ OptEvs fd opts ∧ Asked env.e fd judge .pfUnbind e1 ∧ Asked env.e fd judge .pfBind e2 ∧
      Asked env.e fd judge (.bindQueue queueID.toNat) e3 ∧
      AskedRefused env.e fd judge (.setMode queueID.toNat 2 size.toNat) c e4 ∧
      Asked env.e fd judge (.unbindQueue queueID.toNat) e5 ∧ CloseEvs fd cl := by
  unfold createAndStart
  simp only [freshQueue, GoM.bind_apply, Res.ok_bind]
  generalize hw0 : (World.mk w.trace (newNFQueue w.heap).2 (newNFQueue w.heap).1 : W) = w0
  have ht0 : w0.trace = w.trace := by rw [← hw0]
  rcases nfqOpen_spec K w0 with ⟨n, w1, hk, ho, ht, _, _⟩ | ⟨fd', hfd, ⟨n, bevs, w1, ⟨tr, hk⟩, _⟩ |
    ⟨bevs, opts, w1, ho, hb, hopt, ht, hh, hst⟩⟩
  · rw [hJ.1] at hk; cases hk
  · rw [hJ.1] at hfd
    simp only [Except.ok.injEq] at hfd
    subst hfd
    rw [hJ.2.1] at hk; cases hk
  · rw [hJ.1] at hfd
    simp only [Except.ok.injEq] at hfd
    subst hfd
    rw [ho]
    simp only [Res.ok_bind, GoM.bind_apply]
    have hR1 : Ready w1 ⟨fd, w0.st.buf⟩ := by
      refine ⟨by rw [hst], ?_, ?_⟩
      · rw [hh, ← hw0]; exact newNFQueue_buf_valid _
      · rw [← hw0]; simp [newNFQueue, Heap.mk']
    have hlt' : (Handle.mk fd w0.st.buf).buf.len = 75 * 1024 := by
      rw [← hw0]; show (newNFQueue w.heap).1.buf.len = _
      rw [(newNFQueue_heap w.heap).2]; rfl
    rw [unbindPf_eq]
    obtain ⟨r, w2, e1, q1, g1, _, s1, hR2, t1, a1⟩ := asked env K fd judge hJ _ _ w1 _ rfl hlt' hR1 (enc_pfUnbind _)
    rw [q1, g1 h1]
    simp only [Res.ok_bind, GoM.bind_apply]
    rw [bindPf_eq]
    obtain ⟨r, w3, e2, q2, g2, _, s2, hR3, t2, a2⟩ := asked env K fd judge hJ _ _ w2 _ rfl hlt' hR2 (enc_pfBind _)
    rw [q2, g2 h2]
    simp only [Res.ok_bind, GoM.bind_apply]
    rw [createQueue_eq]
    obtain ⟨r, w4, e3, q3, g3, _, s3, hR4, t3, a3⟩ := asked env K fd judge hJ _ _
      { w3 with st := { w3.st with queueNum := queueID, callback := cb, errorCallback := ecb, privateData := pd } }
      _ rfl hlt' ⟨hR3.1, hR3.2⟩ (enc_bind _ queueID)
    rw [q3, g3 h3]
    have hq4 : w4.st.queueNum = queueID := by rw [s3]
    simp only [Res.ok_bind, GoM.bind_apply]
    rw [nfqSetMode_eq, hq4]
    obtain ⟨r, w5, e4, q4, _, d4, s4, hR5, t4, a4⟩ := asked env K fd judge hJ _ _ w4 _ rfl hlt' hR4
      (enc_mode _ queueID 2 size)
    obtain ⟨c, hr, hrf⟩ := d4 h4
    rw [q4, hr]
    have hq5 : w5.st.queueNum = queueID := by rw [s4, hq4]
    simp only [Res.ok_bind, GoM.bind_apply]
    rw [nfqDestroyQueue_eq, hq5]
    obtain ⟨r, w6, e5, q5, _, _, s5, hR6, t5, a5⟩ := asked env K fd judge hJ _ _ w5 _ rfl hlt' hR5 (enc_unbind _ queueID)
    rw [q5]
    obtain ⟨cl, hc, hcl⟩ := nfqClose_spec K hR6.1
    simp only [Res.ok_bind, hc, GoM.pure_apply]
    refine ⟨_, bevs, opts, e1, e2, e3, e4, e5, cl, c, rfl, ?_, hb, hopt, a1, a2, a3, hrf, a5, hcl⟩
    simp only [t5, t4, t3, t2, t1, ht, ht0, List.append_assoc]

/-- C110: and the same for a kernel that refuses the maximum length. -/
theorem C110_maxLen_denied (env : Env) (K : Kernel QEv) (queueID : U16) (maxLen size : U32)
    (cb ecb : Option Nat) (pd : Nat) (w : W) (fd : Nat) (judge : List Byte → List Byte) (hJ : Judges K fd judge)
    (h1 : Grants env.e judge .pfUnbind) (h2 : Grants env.e judge .pfBind)
    (h3 : Grants env.e judge (.bindQueue queueID.toNat))
    (h4 : Grants env.e judge (.setMode queueID.toNat 2 size.toNat))
    (h5 : Denies env.e judge (.setMaxLen queueID.toNat maxLen.toNat)) :
    ∃ w' bevs opts e1 e2 e3 e4 e5 e6 cl c,
      createAndStart env K queueID maxLen size cb ecb pd w =
        .ok (some (.wrap "Unable to set max packets in queue: %v " (.netlink c)), w') ∧
      w'.trace = w.trace ++ ([.socket 16 3 12 (.ok fd)] ++ bevs ++ opts ++ e1 ++ e2 ++ e3 ++ e4 ++ e5 ++ e6 ++ cl) ∧
      BindEvs fd none bevs ∧ OptEvs fd opts ∧ Asked env.e fd judge .pfUnbind e1 ∧ Asked env.e fd judge .pfBind e2 ∧
      Asked env.e fd judge (.bindQueue queueID.toNat) e3 ∧
      Asked env.e fd judge (.setMode queueID.toNat 2 size.toNat) e4 ∧
      AskedRefused env.e fd judge (.setMaxLen queueID.toNat maxLen.toNat) c e5 ∧
      Asked env.e fd judge (.unbindQueue queueID.toNat) e6 ∧ CloseEvs fd cl := by
  unfold createAndStart
  simp only [freshQueue, GoM.bind_apply, Res.ok_bind]
  generalize hw0 : (World.mk w.trace (newNFQueue w.heap).2 (newNFQueue w.heap).1 : W) = w0
  have ht0 : w0.trace = w.trace := by rw [← hw0]
  rcases nfqOpen_spec K w0 with ⟨n, w1, hk, ho, ht, _, _⟩ | ⟨fd', hfd, ⟨n, bevs, w1, ⟨tr, hk⟩, _⟩ |
    ⟨bevs, opts, w1, ho, hb, hopt, ht, hh, hst⟩⟩
  · rw [hJ.1] at hk; cases hk
  · rw [hJ.1] at hfd
    simp only [Except.ok.injEq] at hfd
    subst hfd
    rw [hJ.2.1] at hk; cases hk
  · rw [hJ.1] at hfd
    simp only [Except.ok.injEq] at hfd
    subst hfd
    rw [ho]
    simp only [Res.ok_bind, GoM.bind_apply]
    have hR1 : Ready w1 ⟨fd, w0.st.buf⟩ := by
      refine ⟨by rw [hst], ?_, ?_⟩
      · rw [hh, ← hw0]; exact newNFQueue_buf_valid _
      · rw [← hw0]; simp [newNFQueue, Heap.mk']
    have hlt' : (Handle.mk fd w0.st.buf).buf.len = 75 * 1024 := by
      rw [← hw0]; show (newNFQueue w.heap).1.buf.len = _
      rw [(newNFQueue_heap w.heap).2]; rfl
    rw [unbindPf_eq]
    obtain ⟨r, w2, e1, q1, g1, _, s1, hR2, t1, a1⟩ := asked env K fd judge hJ _ _ w1 _ rfl hlt' hR1 (enc_pfUnbind _)
    rw [q1, g1 h1]
    simp only [Res.ok_bind, GoM.bind_apply]
    rw [bindPf_eq]
    obtain ⟨r, w3, e2, q2, g2, _, s2, hR3, t2, a2⟩ := asked env K fd judge hJ _ _ w2 _ rfl hlt' hR2 (enc_pfBind _)
    rw [q2, g2 h2]
    simp only [Res.ok_bind, GoM.bind_apply]
    rw [createQueue_eq]
    obtain ⟨r, w4, e3, q3, g3, _, s3, hR4, t3, a3⟩ := asked env K fd judge hJ _ _
      { w3 with st := { w3.st with queueNum := queueID, callback := cb, errorCallback := ecb, privateData := pd } }
      _ rfl hlt' ⟨hR3.1, hR3.2⟩ (enc_bind _ queueID)
    rw [q3, g3 h3]
    have hq4 : w4.st.queueNum = queueID := by rw [s3]
    simp only [Res.ok_bind, GoM.bind_apply]
    rw [nfqSetMode_eq, hq4]
    obtain ⟨r, w5, e4, q4, g4, _, s4, hR5, t4, a4⟩ := asked env K fd judge hJ _ _ w4 _ rfl hlt' hR4
      (enc_mode _ queueID 2 size)
    rw [q4, g4 h4]
    have hq5 : w5.st.queueNum = queueID := by rw [s4, hq4]
    simp only [Res.ok_bind, GoM.bind_apply]
    rw [nfqSetQueueMaxLen_eq, hq5]
    obtain ⟨r, w6, e5, q5, _, d5, s5, hR6, t5, a5⟩ := asked env K fd judge hJ _ _ w5 _ rfl hlt' hR5 (enc_maxLen _ queueID maxLen)
    obtain ⟨c, hr, hrf⟩ := d5 h5
    rw [q5, hr]
    have hq6 : w6.st.queueNum = queueID := by rw [s5, hq5]
    simp only [Res.ok_bind, GoM.bind_apply]
    rw [nfqDestroyQueue_eq, hq6]
    obtain ⟨r, w7, e6, q6, _, _, s6, hR7, t6, a6⟩ := asked env K fd judge hJ _ _ w6 _ rfl hlt' hR6 (enc_unbind _ queueID)
    rw [q6]
    obtain ⟨cl, hc, hcl⟩ := nfqClose_spec K hR7.1
    simp only [Res.ok_bind, hc, GoM.pure_apply]
    refine ⟨_, bevs, opts, e1, e2, e3, e4, e5, e6, cl, c, rfl, ?_, hb, hopt, a1, a2, a3, a4, hrf, a6, hcl⟩
    simp only [t6, t5, t4, t3, t2, t1, ht, ht0, List.append_assoc]

/-- An acknowledgement, or a refusal with error code 1. -/
def reply (code : Byte) : List Byte :=
  [36, 0, 0, 0, 2, 0, 0, 0, 0, 0, 0, 0, 0, 0, 0, 0, code, 0, 0, 0] ++ zeros 16
/-- Refuses the requests whose attribute has type `t`, on a little-endian host. -/
def refuseType (t : Nat) (b : List Byte) : List Byte :=
  reply (if ((decodeNf .little b).map fun m => m.attrs.map (·.type)) = some [t] then 1 else 0)
/-- A kernel that answers with `refuseType t`. -/
def judgeKernel (t : Nat) : Kernel QEv :=
  { ackKernel 0 with
    recv := fun tr _ => match tr.getLast? with
      | some (.sendto _ b _ _) => .ok (refuseType t b)
      | _ => .error 11 }

theorem judgeKernel_judges (t : Nat) : Judges (judgeKernel t) 3 (refuseType t) := by
  refine ⟨fun _ => rfl, fun _ => rfl, fun _ _ => rfl, fun tr b => ?_, fun b => ?_⟩
  · show (match (tr ++ [Ev.sendto 3 b 0 none]).getLast? with
      | some (.sendto _ b _ _) => .ok (refuseType t b)
      | _ => .error 11 : Except Nat (List Byte)) = _
    rw [List.getLast?_concat]
  · unfold refuseType reply
    simp [zeros]

theorem refuseType_grants {t : Nat} {req : QReq} (h : ∀ t' p, req.AttrIs t' p → t' ≠ t) :
    Grants .little (refuseType t) req := by
  rintro b ⟨t', p, hd, ha⟩
  have hne := h t' p ha
  unfold refuseType
  rw [hd, if_neg (by simpa using hne)]
  unfold Refusal; decide

theorem refuseType_denies {t : Nat} {req : QReq} (h : ∀ t' p, req.AttrIs t' p → t' = t) :
    Denies .little (refuseType t) req := by
  rintro b ⟨t', p, hd, ha⟩
  have hne := h t' p ha
  unfold refuseType
  rw [hd, if_pos (by simpa using hne)]
  unfold Refusal; decide

/-- The hypotheses of `C110_mode_denied` and `C110_maxLen_denied` are met by concrete kernels. -/
example (w : W) : ∃ (w' : W) (c : Int), createAndStart someEnv (judgeKernel 2) 7 100 1500 (some 0) none 0 w =
    .ok (some (.wrap "Unable to set packets copy mode: %v " (.netlink c)), w') := by
  obtain ⟨w', _, _, _, _, _, _, _, _, c, h, _⟩ := C110_mode_denied someEnv (judgeKernel 2) 7 100 1500 (some 0) none 0 w 3
    (refuseType 2) (judgeKernel_judges 2) (refuseType_grants (fun t p h => by rw [h.1]; decide))
    (refuseType_grants (fun t p h => by rw [h.1]; decide)) (refuseType_grants (fun t p h => by rw [h.1]; decide))
    (refuseType_denies (fun t p h => h.1))
  exact ⟨w', c, h⟩
example (w : W) : ∃ (w' : W) (c : Int), createAndStart someEnv (judgeKernel 3) 7 100 1500 (some 0) none 0 w =
    .ok (some (.wrap "Unable to set max packets in queue: %v " (.netlink c)), w') := by
  obtain ⟨w', _, _, _, _, _, _, _, _, _, c, h, _⟩ := C110_maxLen_denied someEnv (judgeKernel 3) 7 100 1500 (some 0) none 0 w 3
    (refuseType 3) (judgeKernel_judges 3) (refuseType_grants (fun t p h => by rw [h.1]; decide))
    (refuseType_grants (fun t p h => by rw [h.1]; decide)) (refuseType_grants (fun t p h => by rw [h.1]; decide))
    (refuseType_grants (fun t p h => by rw [h.1]; decide)) (refuseType_denies (fun t p h => h.1))
  exact ⟨w', c, h⟩

end Verif.Props
