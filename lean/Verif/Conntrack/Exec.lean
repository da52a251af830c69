import Verif.Conntrack.Lemmas
/-! Conntrack: what the calls do. -/
namespace Verif.Conntrack
open Common Sys Spec

theorem readReply_cases (e : Endian) (d : List Byte) :
    (d.length < 16 ∧ ∃ err, readReply e d = .ok (some err)) ∨
    (16 ≤ d.length ∧ d.length < 20 ∧ readReply e d = .panic) ∨
    (20 ≤ d.length ∧ ∃ r, readReply e d = .ok r ∧ (r = none ↔ ¬ Refusal e d) ∧
      (Refusal e d → ∃ c : Int, r = some (.netlink c) ∧ numI32 e d 16 = some c)) :=
  NfLog.readReply_cases e d

theorem send_spec (env : Env) (K : Kernel CEv) (fd : Nat) (msg : NetlinkMessage) (w : W) :
    ∃ r evs, send env K fd msg w = .ok (r.map Err.errno, { w with trace := w.trace ++ evs }) ∧
      SendEvs fd (hdrBytes env.e msg.header ++ msg.data) r evs ∧
      ∃ tr, r = K.send tr fd (hdrBytes env.e msg.header ++ msg.data) := by
  obtain ⟨r, evs, h1, h2, h3⟩ := sendto_spec K fd (hdrBytes env.e msg.header ++ msg.data) w
  refine ⟨r, evs, ?_, h2, h3⟩
  unfold send
  simp only [GoM.bind_apply, GoM.lift_apply, wireBytes_eq, Res.ok_bind, h1]
  cases r <;> rfl

theorem query_spec (env : Env) (K : Kernel CEv) (fd : Nat) (msg : NetlinkMessage) (w w' : W)
    (r : Option Err) (h : query env K fd msg w = .ok (r, w')) :
    ∃ evs, QueryOut env.e fd (hdrBytes env.e msg.header ++ msg.data) r evs ∧
      w' = { w with trace := w.trace ++ evs } := by
  obtain ⟨rs, evs, h1, h2, _⟩ := send_spec env K fd msg w
  unfold query at h
  simp only [GoM.bind_apply, h1, Res.ok_bind] at h
  rcases rs with _ | n
  · simp only [Option.map_none] at h
    unfold recv at h
    simp only [GoM.bind_apply] at h
    rcases recvfrom_spec K fd (16 + msg.data.length) 0 ({ w with trace := w.trace ++ evs } : W) with
      ⟨n, _, hr⟩ | ⟨d, _, hr⟩
    · rw [hr] at h
      simp only [Res.ok_bind, GoM.pure_apply, Res.ok.injEq, Prod.mk.injEq] at h
      obtain ⟨rfl, rfl⟩ := h
      exact ⟨_, .recvFailed (n := n) (size := 16 + msg.data.length) h2, by simp⟩
    · rw [hr] at h
      simp only [Res.ok_bind, GoM.lift_apply] at h
      obtain ⟨r', hr', h⟩ := Res.bind_eq_ok.mp h
      simp only [Res.ok.injEq, Prod.mk.injEq] at h
      obtain ⟨rfl, rfl⟩ := h
      refine ⟨_, .replied (d := d.take (16 + msg.data.length)) (size := 16 + msg.data.length) h2
        (by simp; omega) ?_ ?_, by simp⟩
      · unfold Ack
        rcases readReply_cases env.e (d.take (16 + msg.data.length)) with ⟨a, err, b⟩ | ⟨a, b, c⟩ |
          ⟨a, r2, b, c, _⟩
        · rw [b] at hr'
          simp only [Res.ok.injEq] at hr'
          subst hr'
          simp only [reduceCtorEq, false_iff]
          rintro ⟨h, _⟩; omega
        · rw [c] at hr'; cases hr'
        · rw [b] at hr'
          simp only [Res.ok.injEq] at hr'
          subst hr'
          rw [c]
          exact ⟨fun h => ⟨a, h⟩, fun h => h.2⟩
      · intro h16 href
        rcases readReply_cases env.e (d.take (16 + msg.data.length)) with ⟨a, _⟩ | ⟨a, b, c⟩ |
          ⟨a, r2, b, _, c⟩
        · omega
        · rw [c] at hr'; cases hr'
        · rw [b] at hr'
          simp only [Res.ok.injEq] at hr'
          subst hr'
          exact c href
  · simp only [Option.map_some, GoM.pure_apply, Res.ok.injEq, Prod.mk.injEq] at h
    obtain ⟨rfl, rfl⟩ := h
    exact ⟨evs, .sendFailed h2, rfl⟩

/-- It returns unless the (truncated) reply has 16 to 19 bytes. -/
theorem query_returns (env : Env) (K : Kernel CEv) (fd : Nat) (msg : NetlinkMessage) (w : W)
    (hlen : 4 ≤ msg.data.length)
    (hk : ∀ tr d, K.recv tr fd = .ok d → d.length < 16 ∨ 20 ≤ d.length) :
    ∃ r w', query env K fd msg w = .ok (r, w') := by
  obtain ⟨rs, evs, h1, h2, _⟩ := send_spec env K fd msg w
  unfold query
  simp only [GoM.bind_apply, h1, Res.ok_bind]
  rcases rs with _ | n
  · simp only [Option.map_none]
    unfold recv
    simp only [GoM.bind_apply]
    rcases recvfrom_spec K fd (16 + msg.data.length) 0 ({ w with trace := w.trace ++ evs } : W) with
      ⟨n, _, hr⟩ | ⟨d, hd, hr⟩
    · rw [hr]; exact ⟨_, _, rfl⟩
    · rw [hr]
      simp only [Res.ok_bind, GoM.lift_apply]
      rcases readReply_cases env.e (d.take (16 + msg.data.length)) with ⟨a, err, b⟩ | ⟨a, b, c⟩ |
          ⟨a, r2, b, c, _⟩
      · rw [b]; exact ⟨_, _, rfl⟩
      · exfalso
        rcases hk _ _ hd with h | h
        · simp at a; omega
        · simp at b; omega
      · rw [b]; exact ⟨_, _, rfl⟩
  · exact ⟨_, _, rfl⟩

/-- It returns nil when the kernel accepts the message and answers with an acknowledgement. -/
theorem query_succeeds (env : Env) (K : Kernel CEv) (fd : Nat) (msg : NetlinkMessage) (w : W)
    (hlen : 4 ≤ msg.data.length) (hs : ∀ tr b, K.send tr fd b = none) {d : List Byte}
    (h20 : 20 ≤ d.length) (hack : ∀ n, 20 ≤ n → ¬ Refusal env.e (d.take n))
    (hr : ∀ tr, K.recv tr fd = .ok d) :
    ∃ w', query env K fd msg w = .ok (none, w') := by
  obtain ⟨rs, evs, h1, h2, tr', h3⟩ := send_spec env K fd msg w
  rw [hs] at h3
  subst h3
  unfold query
  simp only [GoM.bind_apply, h1, Res.ok_bind, Option.map_none]
  unfold recv
  simp only [GoM.bind_apply]
  rcases recvfrom_spec K fd (16 + msg.data.length) 0 ({ w with trace := w.trace ++ evs } : W) with
      ⟨n, hn, hr'⟩ | ⟨d', hd, hr'⟩
  · rw [hr] at hn; cases hn
  · rw [hr] at hd
    simp only [Except.ok.injEq] at hd
    subst hd
    rw [hr']
    simp only [Res.ok_bind, GoM.lift_apply]
    rcases readReply_cases env.e (d.take (16 + msg.data.length)) with ⟨a, err, b⟩ | ⟨a, b, c⟩ |
          ⟨a, r2, b, c, _⟩
    · simp at a; omega
    · simp at b; omega
    · rw [b, c.mpr (hack _ (by omega))]
      exact ⟨_, rfl⟩

/-- Opening a socket. -/
theorem openSock_spec (K : Kernel CEv) (w : W) :
    (∃ n w', K.socket w.trace = .error n ∧ openSock K w = .ok (.error (.errno n), w')) ∨
    (∃ fd, K.socket w.trace = .ok fd ∧
      ((∃ n w', openSock K w = .ok (.error (.errno n), w') ∧ ∃ tr, K.bind tr fd = some n) ∨
      (∃ bevs, (∃ tr, K.bind tr fd = none) ∧
        openSock K w = .ok (.ok fd, { w with trace := w.trace ++ .socket 16 3 12 (.ok fd) :: bevs }) ∧
        BindEvs fd none bevs))) := by
  unfold openSock
  simp only [GoM.bind_apply, socket_spec, Res.ok_bind]
  rcases hs : K.socket w.trace with n | fd
  · exact .inl ⟨n, _, rfl, rfl⟩
  · right
    refine ⟨fd, rfl, ?_⟩
    simp only [GoM.bind_apply]
    obtain ⟨rb, bevs, hb, hbe, btr, hbtr⟩ := bind_spec K fd
      ({ w with trace := w.trace ++ [.socket 16 3 12 (.ok fd)] } : W)
    rw [hb]
    rcases rb with _ | n
    · right
      exact ⟨bevs, ⟨btr, hbtr.symm⟩, by simp, hbe⟩
    · left
      exact ⟨n, _, rfl, btr, hbtr.symm⟩

theorem sendMessage_spec (env : Env) (K : Kernel CEv) (hdr : NlMsghdr) (data : List Byte) (w w' : W) (r : Option Err)
    {req : List Byte → Prop} (hreq : req (hdrBytes env.e hdr ++ data))
    (h : sendMessage env K hdr data w = .ok (r, w')) :
    ∃ evs, Exchange env.e req r evs ∧ w' = { w with trace := w.trace ++ evs } := by
  unfold sendMessage at h
  simp only [GoM.bind_apply] at h
  rcases openSock_spec K w with ⟨n, w1, _, ho⟩ | ⟨fd, _, ⟨n, w1, ho, _⟩ | ⟨bevs, _, ho, hb⟩⟩
  · rw [ho] at h; cases h
  · rw [ho] at h; cases h
  · rw [ho] at h
    simp only [Res.ok_bind, GoM.bind_apply] at h
    obtain ⟨⟨r1, w1⟩, h1, h⟩ := Res.bind_eq_ok.mp h
    obtain ⟨evs, hq, rfl⟩ := query_spec env K fd ⟨hdr, data⟩ _ w1 r1 h1
    obtain ⟨rc, cl, hc, hcl⟩ := close_spec K fd
      ({ w with trace := w.trace ++ .socket 16 3 12 (.ok fd) :: bevs ++ evs } : W)
    unfold closeSock at h
    simp only [GoM.bind_apply] at h
    rw [hc] at h
    simp only [Res.ok_bind, GoM.pure_apply, Res.ok.injEq, Prod.mk.injEq] at h
    obtain ⟨rfl, rfl⟩ := h
    exact ⟨_, ⟨_, fd, bevs, evs, cl, hreq, rfl, hb, hq, hcl⟩, by simp⟩

/-- When the socket cannot be opened or bound, the process crashes. -/
theorem sendMessage_noSocket (env : Env) (K : Kernel CEv) (hdr : NlMsghdr) (data : List Byte) (w : W)
    (hk : (∃ n, K.socket w.trace = .error n) ∨ ∃ fd, K.socket w.trace = .ok fd ∧ ∀ tr, K.bind tr fd ≠ none) :
    sendMessage env K hdr data w = .panic := by
  unfold sendMessage
  simp only [GoM.bind_apply]
  rcases openSock_spec K w with ⟨n, w1, _, ho⟩ | ⟨fd, hs, ⟨n, w1, ho, _⟩ | ⟨bevs, ⟨tr, ht⟩, ho, hb⟩⟩
  · rw [ho]; rfl
  · rw [ho]; rfl
  · exfalso
    rcases hk with ⟨n, h⟩ | ⟨fd', h, h'⟩
    · rw [hs] at h; cases h
    · rw [hs] at h
      simp only [Except.ok.injEq] at h
      subst h
      exact h' tr ht

/-- A kernel that gives out sockets, accepts requests and answers each with `d`. -/
structure Accepting (e : Endian) (K : Kernel CEv) (d : List Byte) : Prop where
  socket : ∀ tr, ∃ fd, K.socket tr = .ok fd
  bind : ∀ tr fd, K.bind tr fd = none
  send : ∀ tr fd b, K.send tr fd b = none
  recv : ∀ tr fd, K.recv tr fd = .ok d
  long : 20 ≤ d.length
  ack : ∀ n, 20 ≤ n → ¬ Refusal e (d.take n)

theorem sendMessage_succeeds (env : Env) (K : Kernel CEv) (hdr : NlMsghdr) (data : List Byte) (w : W) {d : List Byte}
    (hlen : 4 ≤ data.length) (ha : Accepting env.e K d) : ∃ w', sendMessage env K hdr data w = .ok (none, w') := by
  unfold sendMessage
  simp only [GoM.bind_apply]
  rcases openSock_spec K w with ⟨n, w1, hs, ho⟩ | ⟨fd, _, ⟨n, w1, ho, tr, hb⟩ | ⟨bevs, _, ho, hb⟩⟩
  · obtain ⟨fd, h⟩ := ha.socket w.trace; rw [h] at hs; cases hs
  · rw [ha.bind] at hb; cases hb
  · rw [ho]
    simp only [Res.ok_bind, GoM.bind_apply]
    obtain ⟨w1, h1⟩ := query_succeeds env K fd ⟨hdr, data⟩
      ({ w with trace := w.trace ++ .socket 16 3 12 (.ok fd) :: bevs } : W) hlen
      (fun tr b => ha.send tr fd b) ha.long ha.ack (fun tr => ha.recv tr fd)
    rw [h1]
    obtain ⟨rc, cl, hc, hcl⟩ := close_spec K fd w1
    unfold closeSock
    simp only [Res.ok_bind, GoM.bind_apply, hc]
    exact ⟨_, rfl⟩

/-- A kernel whose sockets work and whose replies are not 16 to 19 bytes long. -/
structure Proper (K : Kernel CEv) : Prop where
  socket : ∀ tr, ∃ fd, K.socket tr = .ok fd
  bind : ∀ tr fd, K.bind tr fd = none
  recv : ∀ tr fd d, K.recv tr fd = .ok d → d.length < 16 ∨ 20 ≤ d.length

theorem sendMessage_returns (env : Env) (K : Kernel CEv) (hdr : NlMsghdr) (data : List Byte) (w : W)
    (hlen : 4 ≤ data.length) (ha : Proper K) : ∃ r w', sendMessage env K hdr data w = .ok (r, w') := by
  unfold sendMessage
  simp only [GoM.bind_apply]
  rcases openSock_spec K w with ⟨n, w1, hs, ho⟩ | ⟨fd, _, ⟨n, w1, ho, tr, hb⟩ | ⟨bevs, _, ho, hb⟩⟩
  · obtain ⟨fd, h⟩ := ha.socket w.trace; rw [h] at hs; cases hs
  · rw [ha.bind] at hb; cases hb
  · rw [ho]
    simp only [Res.ok_bind, GoM.bind_apply]
    obtain ⟨r1, w1, h1⟩ := query_returns env K fd ⟨hdr, data⟩
      ({ w with trace := w.trace ++ .socket 16 3 12 (.ok fd) :: bevs } : W) hlen
      (fun tr d => ha.recv tr fd d)
    rw [h1]
    obtain ⟨rc, cl, hc, hcl⟩ := close_spec K fd w1
    unfold closeSock
    simp only [Res.ok_bind, GoM.bind_apply, hc]
    exact ⟨_, _, rfl⟩

/-! ### Matching -/

theorem sameIP_v4 (env : Env) {ip a b : List Byte} {s : String} (h : IsV4 ip a) (hs : IsV4 (env.parseIP s) b) :
    sameIP env ip s = .ok (decide (IsV4 ip b)) := by
  unfold sameIP
  rw [ip2int_v4 h, ip2int_v4 hs]
  simp only [Res.ok_bind]
  congr 1
  by_cases hab : a = b
  · subst hab
    simp [h]
  · have h1 : ¬ IsV4 ip b := fun h' => hab (h.unique h')
    have h2 : v4num a ≠ v4num b := fun h' => hab (v4num_inj h.1 hs.1 h')
    simp [h1, h2]

theorem andThen_ok (x y : Bool) : andThen (.ok x) (.ok y) = .ok (x && y) := by cases x <;> rfl

theorem check_v4 (env : Env) {ipSrc ipDst : String} {p : Byte} {sp dp : U16} {c : Conn} {f : Flow}
    (h : Names env ipSrc ipDst p sp dp c) (hf : V4Flow f) :
    checkTuplesInFlow env f ipSrc ipDst p sp dp = .ok (decide (FlowOf f c)) := by
  obtain ⟨h1, h2, rfl, rfl, rfl⟩ := h
  obtain ⟨⟨a1, f1⟩, ⟨a2, f2⟩, ⟨a3, f3⟩, ⟨a4, f4⟩⟩ := hf
  unfold checkTuplesInFlow
  rw [sameIP_v4 env f1 h1, sameIP_v4 env f2 h2, sameIP_v4 env f3 h2, sameIP_v4 env f4 h1, andThen_ok, andThen_ok]
  simp only [Res.ok_bind]
  congr 1
  rw [Bool.eq_iff_iff]
  simp only [Bool.and_eq_true, decide_eq_true_eq, beq_iff_eq]
  unfold FlowOf
  constructor
  · rintro ⟨⟨⟨⟨⟨a, b⟩, d, e⟩, g, h⟩, i, j⟩, k, l⟩
    exact ⟨a, d, k, g, i, b, e, l, h, j⟩
  · rintro ⟨a, d, k, g, i, b, e, l, h, j⟩
    exact ⟨⟨⟨⟨⟨a, b⟩, d, e⟩, g, h⟩, i, j⟩, k, l⟩

/-! ### The loops -/

/-- What a loop sending `send` once per matching flow does. -/
theorem markLoop_spec (env : Env) (K : Kernel CEv) {ipSrc ipDst : String} {p : Byte} {sp dp : U16} {c : Conn}
    {m : U32} (h : Names env ipSrc ipDst p sp dp c) (hm : m ≠ 0) :
    ∀ (flows : List Flow) (k n : Nat) (r : Option Err) (w w' : W), (∀ f ∈ flows, V4Flow f) →
      markLoop env K ipSrc ipDst p sp dp m flows k w = .ok ((n, r), w') →
      ∃ evs, Updates env.e (MarkReq env.e c m) (matching flows c) r evs ∧
        w' = { w with trace := w.trace ++ evs } ∧ n = if r = none then k + matching flows c else 0 := by
  intro flows
  induction flows with
  | nil =>
    intro k n r w w' _ hl
    simp only [markLoop, GoM.pure_apply, Res.ok.injEq, Prod.mk.injEq] at hl
    obtain ⟨⟨rfl, rfl⟩, rfl⟩ := hl
    exact ⟨[], .nil, by simp, by simp [matching]⟩
  | cons f fs ih =>
    intro k n r w w' hf hl
    have hfs : ∀ f ∈ fs, V4Flow f := fun g hg => hf g (List.mem_cons_of_mem _ hg)
    unfold markLoop at hl
    simp only [GoM.bind_apply, GoM.lift_apply, check_v4 env h (hf f (List.mem_cons_self ..)), Res.ok_bind] at hl
    by_cases hF : FlowOf f c
    · have hmat : matching (f :: fs) c = matching fs c + 1 := by simp [matching, hF]
      simp only [hF, decide_true, bne_iff_ne, ne_eq, hm, not_false_eq_true, Bool.true_and, if_true, updateMark,
        GoM.bind_apply, GoM.lift_apply, markMessage_eq env m h.taken, Res.ok_bind] at hl
      obtain ⟨⟨r1, w1⟩, h1, hl⟩ := Res.bind_eq_ok.mp hl
      obtain ⟨hs, hd⟩ := names_len h.taken
      obtain ⟨ev1, hx, rfl⟩ := sendMessage_spec env K _ _ w w1 r1 (req := MarkReq env.e c m)
        (markReq_ok env.e hs hd m) h1
      rcases r1 with _ | err
      · simp only at hl
        obtain ⟨evs, hu, rfl, hn⟩ := ih (k + 1) n r _ w' hfs hl
        refine ⟨ev1 ++ evs, hmat ▸ .cons hx hu, by simp, ?_⟩
        rw [hn, hmat]
        split <;> omega
      · simp only [GoM.pure_apply, Res.ok.injEq, Prod.mk.injEq] at hl
        obtain ⟨⟨rfl, rfl⟩, rfl⟩ := hl
        exact ⟨ev1, hmat ▸ .stop hx, rfl, by simp⟩
    · have hmat : matching (f :: fs) c = matching fs c := by simp [matching, hF]
      simp only [hF, decide_false, Bool.false_and, Bool.false_eq_true, if_false] at hl
      rw [hmat]
      exact ih k n r w w' hfs hl

theorem labelLoop_spec (env : Env) (K : Kernel CEv) {ipSrc ipDst : String} {p : Byte} {sp dp : U16} {c : Conn}
    {m : U32} {req : List Byte → Prop} (h : Names env ipSrc ipDst p sp dp c)
    (hreq : ∃ hdr data, labelMessage env ipSrc ipDst p sp dp m = .ok (hdr, data) ∧ req (hdrBytes env.e hdr ++ data)) :
    ∀ (flows : List Flow) (k n : Nat) (r : Option Err) (w w' : W), (∀ f ∈ flows, V4Flow f) →
      labelLoop env K ipSrc ipDst p sp dp m flows k w = .ok ((n, r), w') →
      ∃ evs, Updates env.e req (matching flows c) r evs ∧
        w' = { w with trace := w.trace ++ evs } ∧ n = if r = none then k + matching flows c else 0 := by
  obtain ⟨hdr, data, hmsg, hreq⟩ := hreq
  intro flows
  induction flows with
  | nil =>
    intro k n r w w' _ hl
    simp only [labelLoop, GoM.pure_apply, Res.ok.injEq, Prod.mk.injEq] at hl
    obtain ⟨⟨rfl, rfl⟩, rfl⟩ := hl
    exact ⟨[], .nil, by simp, by simp [matching]⟩
  | cons f fs ih =>
    intro k n r w w' hf hl
    have hfs : ∀ f ∈ fs, V4Flow f := fun g hg => hf g (List.mem_cons_of_mem _ hg)
    unfold labelLoop at hl
    simp only [GoM.bind_apply, GoM.lift_apply, check_v4 env h (hf f (List.mem_cons_self ..)), Res.ok_bind] at hl
    by_cases hF : FlowOf f c
    · have hmat : matching (f :: fs) c = matching fs c + 1 := by simp [matching, hF]
      simp only [hF, decide_true, if_true, GoM.bind_apply, GoM.lift_apply, hmsg, Res.ok_bind] at hl
      obtain ⟨⟨r1, w1⟩, h1, hl⟩ := Res.bind_eq_ok.mp hl
      obtain ⟨ev1, hx, rfl⟩ := sendMessage_spec env K _ _ w w1 r1 (req := req) hreq h1
      rcases r1 with _ | err
      · simp only at hl
        obtain ⟨evs, hu, rfl, hn⟩ := ih (k + 1) n r _ w' hfs hl
        refine ⟨ev1 ++ evs, hmat ▸ .cons hx hu, by simp, ?_⟩
        rw [hn, hmat]
        split <;> omega
      · simp only [GoM.pure_apply, Res.ok.injEq, Prod.mk.injEq] at hl
        obtain ⟨⟨rfl, rfl⟩, rfl⟩ := hl
        exact ⟨ev1, hmat ▸ .stop hx, rfl, by simp⟩
    · have hmat : matching (f :: fs) c = matching fs c := by simp [matching, hF]
      simp only [hF, decide_false, Bool.false_eq_true, if_false] at hl
      rw [hmat]
      exact ih k n r w w' hfs hl

theorem markLoop_returns (env : Env) (K : Kernel CEv) (hK : Proper K) {ipSrc ipDst : String} {p : Byte} {sp dp : U16}
    {c : Conn} {m : U32} (h : Names env ipSrc ipDst p sp dp c) :
    ∀ (flows : List Flow) (k : Nat) (w : W), (∀ f ∈ flows, V4Flow f) →
      ∃ n r w', markLoop env K ipSrc ipDst p sp dp m flows k w = .ok ((n, r), w') := by
  intro flows
  induction flows with
  | nil => intro k w _; exact ⟨_, _, _, rfl⟩
  | cons f fs ih =>
    intro k w hf
    have hfs : ∀ f ∈ fs, V4Flow f := fun g hg => hf g (List.mem_cons_of_mem _ hg)
    unfold markLoop
    simp only [GoM.bind_apply, GoM.lift_apply, check_v4 env h (hf f (List.mem_cons_self ..)), Res.ok_bind]
    by_cases hc : (decide (FlowOf f c) && m != 0) = true
    · rw [if_pos hc]
      simp only [updateMark, GoM.bind_apply, GoM.lift_apply, markMessage_eq env m h.taken, Res.ok_bind]
      obtain ⟨r1, w1, h1⟩ := sendMessage_returns env K ⟨80, 0x100, 5, 0, 0⟩
        ([2, 0, 0, 0] ++ origBytes env.e c ++ markTail env.e m) w (by simp) hK
      rw [h1]
      simp only [Res.ok_bind]
      rcases r1 with _ | err
      · exact ih _ _ hfs
      · exact ⟨_, _, _, rfl⟩
    · rw [if_neg hc]
      exact ih _ _ hfs

theorem labelLoop_returns (env : Env) (K : Kernel CEv) (hK : Proper K) {ipSrc ipDst : String} {p : Byte} {sp dp : U16}
    {c : Conn} {m : U32} (h : Names env ipSrc ipDst p sp dp c)
    (hm : ∃ hdr data, labelMessage env ipSrc ipDst p sp dp m = .ok (hdr, data) ∧ 4 ≤ data.length) :
    ∀ (flows : List Flow) (k : Nat) (w : W), (∀ f ∈ flows, V4Flow f) →
      ∃ n r w', labelLoop env K ipSrc ipDst p sp dp m flows k w = .ok ((n, r), w') := by
  obtain ⟨hdr, data, hm, h4⟩ := hm
  intro flows
  induction flows with
  | nil => intro k w _; exact ⟨_, _, _, rfl⟩
  | cons f fs ih =>
    intro k w hf
    have hfs : ∀ f ∈ fs, V4Flow f := fun g hg => hf g (List.mem_cons_of_mem _ hg)
    unfold labelLoop
    simp only [GoM.bind_apply, GoM.lift_apply, check_v4 env h (hf f (List.mem_cons_self ..)), Res.ok_bind]
    by_cases hc : decide (FlowOf f c) = true
    · rw [if_pos hc]
      simp only [GoM.bind_apply, GoM.lift_apply, hm, Res.ok_bind]
      obtain ⟨r1, w1, h1⟩ := sendMessage_returns env K hdr data w h4 hK
      rw [h1]
      simp only [Res.ok_bind]
      rcases r1 with _ | err
      · exact ih _ _ hfs
      · exact ⟨_, _, _, rfl⟩
    · rw [if_neg hc]
      exact ih _ _ hfs

theorem labelMessage_ok (env : Env) {ipSrc ipDst : String} {p : Byte} {sp dp : U16} {c : Conn} (m : U32)
    (h : Names env ipSrc ipDst p sp dp c) :
    ∃ hdr data, labelMessage env ipSrc ipDst p sp dp m = .ok (hdr, data) ∧ 4 ≤ data.length := by
  by_cases hp : p = 6
  · subst hp
    exact ⟨_, _, labelMessage_tcp env m h.taken, by simp⟩
  · exact ⟨_, _, labelMessage_eq env m h.taken hp, by simp⟩

/-! ### The bulk updates -/

theorem bulkMark_eq (env : Env) (K : Kernel CEv) (flows : List Flow) (ipSrc ipDst : String) (p : Byte) (sp dp : U16)
    (m : U32) (w w' : W) (k : Nat) (r : Option Err)
    (h : markLoop env K ipSrc ipDst p sp dp m flows 0 w = .ok ((k, r), w')) :
    updateMarkForAvailableFlow env K flows ipSrc ipDst p sp dp m w =
      .ok ((if r = none then (k : Int) else 0, r.map (.wrap "Error %v")), w') := by
  unfold updateMarkForAvailableFlow
  simp only [GoM.bind_apply, h, Res.ok_bind]
  rcases r with _ | err
  · have : (k : Int) ≥ 0 := Int.natCast_nonneg k
    simp only [this, if_true]
    rfl
  · rfl

theorem bulkMark_ok (env : Env) (K : Kernel CEv) (flows : List Flow) (ipSrc ipDst : String) (p : Byte) (sp dp : U16)
    (m : U32) (w w' : W) (n : Int) (r : Option Err)
    (h : updateMarkForAvailableFlow env K flows ipSrc ipDst p sp dp m w = .ok ((n, r), w')) :
    ∃ k e, markLoop env K ipSrc ipDst p sp dp m flows 0 w = .ok ((k, e), w') ∧
      n = (if e = none then (k : Int) else 0) ∧ r = e.map (.wrap "Error %v") := by
  rcases hl : markLoop env K ipSrc ipDst p sp dp m flows 0 w with ⟨⟨k, e⟩, w1⟩ | _ | _
  · rw [bulkMark_eq env K flows ipSrc ipDst p sp dp m w w1 k e hl] at h
    simp only [Res.ok.injEq, Prod.mk.injEq] at h
    obtain ⟨⟨h1, h2⟩, h3⟩ := h
    exact ⟨k, e, by rw [h3], h1.symm, h2.symm⟩
  · unfold updateMarkForAvailableFlow at h
    simp only [GoM.bind_apply, hl] at h
    cases h
  · unfold updateMarkForAvailableFlow at h
    simp only [GoM.bind_apply, hl] at h
    cases h

theorem bulkLabel_eq (env : Env) (K : Kernel CEv) (flows : List Flow) (ipSrc ipDst : String) (p : Byte) (sp dp : U16)
    (m : U32) (w w' : W) (k : Nat) (r : Option Err)
    (h : labelLoop env K ipSrc ipDst p sp dp m flows 0 w = .ok ((k, r), w')) :
    updateLabel env K flows ipSrc ipDst p sp dp m w = .ok ((if r = none then (k : Int) else 0, r), w') := by
  unfold updateLabel
  simp only [GoM.bind_apply, h, Res.ok_bind]
  rcases r with _ | err
  · have : (k : Int) ≥ 0 := Int.natCast_nonneg k
    simp only [this, if_true]
    rfl
  · rfl

theorem bulkLabel_ok (env : Env) (K : Kernel CEv) (flows : List Flow) (ipSrc ipDst : String) (p : Byte) (sp dp : U16)
    (m : U32) (w w' : W) (n : Int) (r : Option Err)
    (h : updateLabel env K flows ipSrc ipDst p sp dp m w = .ok ((n, r), w')) :
    ∃ k, labelLoop env K ipSrc ipDst p sp dp m flows 0 w = .ok ((k, r), w') ∧
      n = (if r = none then (k : Int) else 0) := by
  rcases hl : labelLoop env K ipSrc ipDst p sp dp m flows 0 w with ⟨⟨k, e⟩, w1⟩ | _ | _
  · rw [bulkLabel_eq env K flows ipSrc ipDst p sp dp m w w1 k e hl] at h
    simp only [Res.ok.injEq, Prod.mk.injEq] at h
    obtain ⟨⟨h1, h2⟩, h3⟩ := h
    exact ⟨k, by rw [h3, h2], by rw [← h2]; exact h1.symm⟩
  · unfold updateLabel at h
    simp only [GoM.bind_apply, hl] at h
    cases h
  · unfold updateLabel at h
    simp only [GoM.bind_apply, hl] at h
    cases h

end Verif.Conntrack
