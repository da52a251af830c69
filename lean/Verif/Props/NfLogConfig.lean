import Verif.NfLog.Config
/-!
Properties C13, C16 (the nflog parts), C30–C32: configuring log groups and starting to listen.
-/
namespace Verif.Props.Log
open Verif.Sys Verif.Spec Verif.NfLog

/-- The four configuration calls of the nflog API with their arguments. -/
inductive LogCall where
  | unbind
  | bind
  | bindGroup (groups : List U16) (callback errorCallback : Option Nat)
  | setMode (groups : List U16) (packetSize : U32)

/-- Perform a call. -/
def LogCall.run (env : Env) (K : Kernel LEv) : LogCall → M (Option Err)
  | .unbind => nflogUnbind env K
  | .bind => nflogBind env K
  | .bindGroup gs cb ecb => nflogBindGroup env K gs cb ecb
  | .setMode gs size => nflogSetMode env K gs size

/-- The groups a call is about (family-wide calls are about group 0). -/
def LogCall.groups : LogCall → List U16
  | .unbind => [0]
  | .bind => [0]
  | .bindGroup gs _ _ => gs
  | .setMode gs _ => gs

/-- The request a call makes for group `g`. -/
def LogCall.req : LogCall → Nat → LReq
  | .unbind, _ => .pfUnbind
  | .bind, _ => .pfBind
  | .bindGroup _ _ _, g => .bindGroup g
  | .setMode _ size, g => .copyPacket g size.toNat

/-- The callbacks a call records in the handle. -/
def LogCall.record (c : LogCall) (l : NfLog) : NfLog :=
  match c with
  | .bindGroup _ cb ecb => { l with callback := cb, errorCallback := ecb }
  | _ => l

theorem mk_command (env : Env) (c : Byte) : ∀ g, ∃ msg, commandMsg env c g = .ok msg ∧ 4 ≤ msg.data.length := by
  intro g
  refine ⟨_, commandMsg_eq env c g, ?_⟩
  simp [cfgMsg]

theorem mk_mode (env : Env) (size : U32) : ∀ g, ∃ msg, modeMsg env size g = .ok msg ∧ 4 ≤ msg.data.length := by
  intro g
  refine ⟨_, modeMsg_eq env size g, ?_⟩
  simp [cfgMsg]

/-- One exchange per group. -/
theorem run_spec (env : Env) (K : Kernel LEv) (c : LogCall) (w w' : W) (fd : Nat) (r : Option Err)
    (ho : OpenOn w fd) (h : c.run env K w = .ok (r, w')) :
    ∃ evs, GroupsOut env.e fd c.req c.groups r evs ∧ w'.trace = w.trace ++ evs ∧ w'.heap = w.heap ∧
      OpenOn w' fd ∧ w'.st = { c.record w.st with socket := w'.st.socket } := by
  have one : ∀ (cmd : Byte) (req : LReq) (_ : Encodes env.e (cfgBytes env.e 2 0 1 4 [cmd, 0, 0, 0]) req)
      (_ : (do let msg ← GoM.lift (commandMsg env cmd 0); queryOrFail env K msg : M (Option Err)) w =
        .ok (r, w')),
      ∃ evs, GroupsOut env.e fd (fun _ => req) [0] r evs ∧ w'.trace = w.trace ++ evs ∧ w'.heap = w.heap ∧
        OpenOn w' fd ∧ w'.st = { w.st with socket := w'.st.socket } := by
    intro cmd req henc h
    obtain ⟨n, hn⟩ := ho
    simp only [GoM.bind_apply, commandMsg_eq, GoM.lift_apply, Res.ok_bind, queryOrFail, getL, hn] at h
    obtain ⟨evs, hq, rfl⟩ := query_spec env K ⟨fd, n⟩ _ w w' r h
    refine ⟨evs, ?_, rfl, rfl, ⟨_, rfl⟩, rfl⟩
    rcases r with _ | err
    · have := GroupsOut.cons (gs := []) (g := (0 : U16)) (req := fun _ => req) (r := none) (evs := [])
        ⟨_, henc, hq⟩ .nil
      simpa using this
    · exact .stop ⟨_, henc, hq⟩
  cases c with
  | unbind => exact one 4 .pfUnbind (enc_pfUnbind _) h
  | bind => exact one 3 .pfBind (enc_pfBind _) h
  | bindGroup gs cb ecb =>
    change nflogBindGroup env K gs cb ecb w = _ at h
    unfold nflogBindGroup at h
    simp only [GoM.bind_apply, modifyL, Res.ok_bind] at h
    obtain ⟨n, hn⟩ := ho
    exact forGroups_spec env K (commandMsg env 1) LReq.bindGroup fd
      (fun g => ⟨_, commandMsg_eq env 1 g, enc_bind _ _⟩) gs
      ({ w with st := { w.st with callback := cb, errorCallback := ecb } } : W) w' r ⟨n, hn⟩ h
  | setMode gs size =>
    exact forGroups_spec env K (modeMsg env size) (fun g => .copyPacket g size.toNat) fd
      (fun g => ⟨_, modeMsg_eq env size g, enc_mode _ _ _⟩) gs _ w' r ho h

/-! ### C13 -/

/-- C13: without an open socket NFlogBind and NFlogUnbind return an error and make no system call. -/
theorem C13_nflog_no_socket (env : Env) (K : Kernel LEv) (w : W) (hn : w.st.socket = none) :
    (∃ err, nflogBind env K w = .ok (some err, w)) ∧ (∃ err, nflogUnbind env K w = .ok (some err, w)) := by
  constructor
  · unfold nflogBind
    simp only [GoM.bind_apply, commandMsg_eq, GoM.lift_apply, Res.ok_bind, queryOrFail, getL, hn]
    exact ⟨_, rfl⟩
  · unfold nflogUnbind
    simp only [GoM.bind_apply, commandMsg_eq, GoM.lift_apply, Res.ok_bind, queryOrFail, getL, hn]
    exact ⟨_, rfl⟩

/-- A new handle has no socket. -/
example : newNFLog.socket = none := rfl

/-! ### C30 -/

/-- C30: on an open socket, a call that returns has made one exchange per group in order (each sending
exactly the request for that group and awaiting its reply), up to the first one that failed, and returns
that one's error, or nil if none failed.  Beside the receive buffer the handle only records the
callbacks. -/
theorem C30_requests (env : Env) (K : Kernel LEv) (c : LogCall) (w w' : W) (fd : Nat) (r : Option Err)
    (ho : OpenOn w fd) (h : c.run env K w = .ok (r, w')) :
    ∃ evs, w'.trace = w.trace ++ evs ∧ GroupsOut env.e fd c.req c.groups r evs ∧
      OpenOn w' fd ∧ w'.st.callback = (c.record w.st).callback ∧
      w'.st.errorCallback = (c.record w.st).errorCallback := by
  obtain ⟨evs, a, b, _, d, e⟩ := run_spec env K c w w' fd r ho h
  exact ⟨evs, b, a, d, by rw [e], by rw [e]⟩

theorem Exchange_none {e : Endian} {fd : Nat} {req : LReq} {evs : List (Ev LEv)}
    (h : Exchange e fd req none evs) : Acked e fd req evs := by
  obtain ⟨b, hb, hq⟩ := h
  cases hq with
  | replied hs _ hi => exact ⟨b, _, _, _, hb, hs, rfl, hi.mp rfl⟩

theorem Exchange_some {e : Endian} {fd : Nat} {req : LReq} {err : Err} {evs : List (Ev LEv)}
    (h : Exchange e fd req (some err) evs) :
    (∃ n b, SendEvs fd b (some n) evs ∧ err = .errno n) ∨
    ∃ evs1 size x b, SendEvs fd b none evs1 ∧ evs = evs1 ++ [.recvfrom fd size 0 x] ∧
      ∀ d, x = .ok d → ¬ Ack e d := by
  obtain ⟨b, hb, hq⟩ := h
  cases hq with
  | sendFailed hs => exact .inl ⟨_, b, hs, rfl⟩
  | recvFailed hs => exact .inr ⟨_, _, _, b, hs, rfl, by simp⟩
  | replied hs _ hi _ =>
    refine .inr ⟨_, _, _, b, hs, rfl, ?_⟩
    intro d hd hack
    simp only [Except.ok.injEq] at hd
    subst hd
    exact absurd (hi.mpr hack) (by simp)

theorem allAcked_of {e : Endian} {fd : Nat} {req : Nat → LReq} {gs : List U16} {r : Option Err}
    {evs : List (Ev LEv)} (h : GroupsOut e fd req gs r evs) (hr : r = none) : AllAcked e fd req gs evs := by
  induction h with
  | nil => exact .nil
  | cons hx _ ih => exact .cons (Exchange_none hx) (ih hr)
  | stop hx => cases hr

/-- Events of an exchange that failed do not extend to a run in which it was acknowledged. -/
theorem not_acked_of_failed {e : Endian} {fd : Nat} {req : LReq} {err : Err} {ev1 ev2 r1 r2 : List (Ev LEv)}
    (h : Exchange e fd req (some err) ev1) (ha : Acked e fd req ev2) (heq : ev1 ++ r1 = ev2 ++ r2) : False := by
  obtain ⟨b, d, size, s, _, hs, rfl, hack⟩ := ha
  rcases Exchange_some h with ⟨n, b', hs', _⟩ | ⟨evs1, size', x, b', hs', rfl, hx⟩
  · rcases hs with ⟨_, rfl⟩ | ⟨e1, rfl⟩ <;> rcases hs' with ⟨h0, _⟩ | ⟨e1', rfl⟩ <;>
      first | cases h0 | (simp at heq)
  · rcases hs with ⟨_, rfl⟩ | ⟨e1, rfl⟩ <;> rcases hs' with ⟨h0, rfl⟩ | ⟨e1', rfl⟩ <;> simp at heq
    · exact hx d heq.2.1.2 hack
    · exact hx d heq.2.2.1.2 hack

theorem acked_prefix {e : Endian} {fd : Nat} {req : LReq} {ev1 ev2 r1 r2 : List (Ev LEv)}
    (h : Acked e fd req ev1) (ha : Acked e fd req ev2) (heq : ev1 ++ r1 = ev2 ++ r2) : r1 = r2 := by
  obtain ⟨b, d, size, s, _, hs, rfl, hack⟩ := ha
  obtain ⟨b', d', size', s', _, hs', rfl, hack'⟩ := h
  rcases hs with ⟨_, rfl⟩ | ⟨e1, rfl⟩ <;> rcases hs' with ⟨h0, rfl⟩ | ⟨e1', rfl⟩ <;> simp at heq
  · exact heq.2.2
  · exact heq.2.2.2

theorem not_allAcked_of {e : Endian} {fd : Nat} {req : Nat → LReq} {gs : List U16} {r : Option Err}
    {evs : List (Ev LEv)} (h : GroupsOut e fd req gs r evs) : ∀ err, r = some err →
    ∀ rest evs2, evs ++ rest = evs2 → ¬ AllAcked e fd req gs evs2 := by
  induction h with
  | nil => intro _ h; cases h
  | cons hx _ ih =>
    intro err hr rest evs2 heq ha
    cases ha with
    | cons ha1 ha2 =>
      rw [List.append_assoc] at heq
      have := acked_prefix (Exchange_none hx) ha1 heq
      exact ih err hr rest _ this ha2
  | stop hx =>
    intro err hr rest evs2 heq ha
    cases ha with
    | cons ha1 ha2 => exact not_acked_of_failed hx ha1 heq

/-- C30: it returns nil exactly when every group's request was sent, answered and acknowledged, in
order. -/
theorem C30_nil_iff_all_acked (env : Env) (K : Kernel LEv) (c : LogCall) (w w' : W) (fd : Nat)
    (r : Option Err) (ho : OpenOn w fd) (h : c.run env K w = .ok (r, w')) :
    ∃ evs, w'.trace = w.trace ++ evs ∧ (r = none ↔ AllAcked env.e fd c.req c.groups evs) := by
  obtain ⟨evs, a, b, _⟩ := run_spec env K c w w' fd r ho h
  refine ⟨evs, b, fun hr => allAcked_of a hr, ?_⟩
  intro ha
  rcases r with _ | err
  · rfl
  · exact absurd ha (not_allAcked_of a err rfl [] evs (by simp))

/-- C30: it does return, without crashing, as long as no reply has 16 to 19 bytes. -/
theorem C30_returns (env : Env) (K : Kernel LEv) (c : LogCall) (w : W) (fd : Nat) (ho : OpenOn w fd)
    (hk : ∀ evs d, K.recv (w.trace ++ evs) fd = .ok d → d.length < 16 ∨ 20 ≤ d.length) :
    ∃ r w', c.run env K w = .ok (r, w') := by
  have one : ∀ cmd : Byte, ∃ r w', (do let msg ← GoM.lift (commandMsg env cmd 0); queryOrFail env K msg
      : M (Option Err)) w = .ok (r, w') := by
    intro cmd
    obtain ⟨n, hn⟩ := ho
    simp only [GoM.bind_apply, commandMsg_eq, GoM.lift_apply, Res.ok_bind, queryOrFail, getL, hn]
    exact query_returns env K ⟨fd, n⟩ _ w (by simp [cfgMsg]) hk
  cases c with
  | unbind => exact one 4
  | bind => exact one 3
  | bindGroup gs cb ecb =>
    change ∃ r w', nflogBindGroup env K gs cb ecb w = _
    unfold nflogBindGroup
    simp only [GoM.bind_apply, modifyL, Res.ok_bind]
    obtain ⟨n, hn⟩ := ho
    exact forGroups_returns env K (commandMsg env 1) fd (mk_command env 1) gs _ ⟨n, hn⟩ hk
  | setMode gs size => exact forGroups_returns env K (modeMsg env size) fd (mk_mode env size) gs w ho hk

/-- C30: a reply of 16 to 19 bytes crashes the process instead of being reported as an error: so does the
first request of every call about at least one group. -/
theorem C30_short_reply_crashes (env : Env) (K : Kernel LEv) (c : LogCall) (w : W) (fd : Nat)
    (ho : OpenOn w fd) (hg : c.groups ≠ []) (hs : ∀ tr b, K.send tr fd b = none)
    (hk : ∀ tr, ∃ d, K.recv tr fd = .ok d ∧ 16 ≤ d.length ∧ d.length < 20) :
    c.run env K w = .panic := by
  obtain ⟨n, hn⟩ := ho
  have hq : ∀ (msg : NetlinkMessage) (w : W), 4 ≤ msg.data.length → query env K ⟨fd, n⟩ msg w = .panic := by
    intro msg w hlen
    obtain ⟨rs, evs, h1, h2, tr', h3⟩ := send_spec env K ⟨fd, n⟩ msg w
    rw [hs] at h3
    subst h3
    unfold query
    simp only [GoM.bind_apply, h1, Res.ok_bind, Option.map_none]
    unfold recv
    simp only [GoM.bind_apply]
    rcases recvfrom_spec K fd (16 + msg.data.length) 0
      ({ w with trace := w.trace ++ evs, st := sent w.st fd (16 + msg.data.length) } : W) with
      ⟨m, hm, _⟩ | ⟨d, hd, hr⟩
    · obtain ⟨d, hd, _⟩ := hk (w.trace ++ evs)
      rw [hd] at hm; cases hm
    · rw [hr]
      simp only [Res.ok_bind, GoM.lift_apply]
      obtain ⟨d', hd', h16, h20⟩ := hk (w.trace ++ evs)
      rw [hd'] at hd
      simp only [Except.ok.injEq] at hd
      subst hd
      rw [List.take_of_length_le (by omega)]
      rcases readReply_cases env.e d' with ⟨a, _⟩ | ⟨_, _, b⟩ | ⟨a, _⟩
      · omega
      · rw [b]; rfl
      · omega
  have group : ∀ (mk : U16 → Res NetlinkMessage) (gs : List U16) (w : W), w.st.socket = some ⟨fd, n⟩ →
      gs ≠ [] → (∀ g, ∃ msg, mk g = .ok msg ∧ 4 ≤ msg.data.length) → forGroups env K mk gs w = .panic := by
    intro mk gs w hn hne hmk
    cases gs with
    | nil => exact absurd rfl hne
    | cons g gs =>
      obtain ⟨msg, hm, hl⟩ := hmk g
      unfold forGroups
      simp only [GoM.bind_apply, hm, GoM.lift_apply, Res.ok_bind, queryOrSkip, getL, hn, hq _ _ hl]
      rfl
  have one : ∀ cmd : Byte, (do let msg ← GoM.lift (commandMsg env cmd 0); queryOrFail env K msg
      : M (Option Err)) w = .panic := by
    intro cmd
    simp only [GoM.bind_apply, commandMsg_eq, GoM.lift_apply, Res.ok_bind, queryOrFail, getL, hn]
    exact hq _ _ (by simp [cfgMsg])
  cases c with
  | unbind => exact one 4
  | bind => exact one 3
  | bindGroup gs cb ecb =>
    change nflogBindGroup env K gs cb ecb w = _
    unfold nflogBindGroup
    simp only [GoM.bind_apply, modifyL, Res.ok_bind]
    exact group (commandMsg env 1) gs _ hn hg (mk_command env 1)
  | setMode gs size => exact group (modeMsg env size) gs w hn hg (mk_mode env size)

set_option maxRecDepth 4000 in
/-- A little-endian host's request to copy up to 256 bytes of group 10's packets, byte by byte. -/
example : Encodes .little
    [32, 0, 0, 0, 1, 4, 5, 0, 0, 0, 0, 0, 0, 0, 0, 0, 0, 0, 0, 10, 12, 0, 2, 0, 0, 0, 1, 0, 2, 0, 0, 0]
    (.copyPacket 10 256) :=
  ⟨2, [0, 0, 1, 0, 2, 0, 0, 0], by rfl, rfl, rfl, rfl⟩

/-! ### C31 -/

/-- C31 fails: with no socket open, NFlogBindGroup and NFlogSetMode return nil for every list of groups
although nothing is sent. -/
theorem C31_violated (env : Env) (K : Kernel LEv) (w : W) (groups : List U16) (cb ecb : Option Nat)
    (size : U32) (hn : w.st.socket = none) :
    (∃ w', nflogBindGroup env K groups cb ecb w = .ok (none, w') ∧ w'.trace = w.trace) ∧
    nflogSetMode env K groups size w = .ok (none, w) := by
  have group : ∀ (mk : U16 → Res NetlinkMessage) (gs : List U16) (w : W), w.st.socket = none →
      (∀ g, ∃ msg, mk g = .ok msg ∧ 4 ≤ msg.data.length) → forGroups env K mk gs w = .ok (none, w) := by
    intro mk gs
    induction gs with
    | nil => intro w _ _; rfl
    | cons g gs ih =>
      intro w hn hmk
      obtain ⟨msg, hm, hl⟩ := hmk g
      unfold forGroups
      simp only [GoM.bind_apply, hm, GoM.lift_apply, Res.ok_bind, queryOrSkip, getL, hn, GoM.pure_apply]
      exact ih w hn hmk
  constructor
  · unfold nflogBindGroup
    simp only [GoM.bind_apply, modifyL, Res.ok_bind]
    exact ⟨_, group _ _ _ hn (mk_command env 1), rfl⟩
  · exact group _ _ _ hn (mk_mode env size)

/-- A new handle meets the hypothesis: asking it to bind group 10 "succeeds". -/
example (env : Env) (K : Kernel LEv) : ∃ w', nflogBindGroup env K [10] (some 0) none
    ⟨[], ⟨[]⟩, newNFLog⟩ = .ok (none, w') ∧ w'.trace = [] :=
  (C31_violated env K ⟨[], ⟨[]⟩, newNFLog⟩ [10] (some 0) none 0 rfl).1

/-! ### Starting to listen -/

theorem Exchange_clean {e : Endian} {fd : Nat} {req : LReq} {r : Option Err} {evs : List (Ev LEv)}
    (h : Exchange e fd req r evs) : ∀ ev ∈ evs, isTransfer ev = true := by
  obtain ⟨b, _, hq⟩ := h
  intro ev hm
  cases hq with
  | sendFailed hs => exact hs.clean ev hm
  | recvFailed hs =>
    rcases List.mem_append.mp hm with h | h
    · exact hs.clean ev h
    · simp at h; subst h; rfl
  | replied hs _ _ =>
    rcases List.mem_append.mp hm with h | h
    · exact hs.clean ev h
    · simp at h; subst h; rfl

theorem GroupsOut_clean {e : Endian} {fd : Nat} {req : Nat → LReq} {gs : List U16} {r : Option Err}
    {evs : List (Ev LEv)} (h : GroupsOut e fd req gs r evs) : ∀ ev ∈ evs, isTransfer ev = true := by
  induction h with
  | nil => intro ev hm; cases hm
  | cons hx _ ih =>
    intro ev hm
    rcases List.mem_append.mp hm with h | h
    · exact Exchange_clean hx ev h
    · exact ih ev h
  | stop hx => exact Exchange_clean hx

/-- Everything that can happen when listening is started, with the result (none = success). An error
states what failed and the error of that step. -/
inductive ListenOut (e : Endian) (groups : List U16) (size : Nat) : Option Err → List (Ev LEv) → Prop
  /-- no socket could be opened -/
  | noSocket {n} : ListenOut e groups size (some (.wrap "Error opening NFLog handle: %v " (.errno n)))
      [.socket 16 3 12 (.error n)]
  /-- the socket could not be bound -/
  | noBind {fd n bevs} : BindEvs fd (some n) bevs →
      ListenOut e groups size (some (.wrap "Error opening NFLog handle: %v " (.errno n)))
        ([.socket 16 3 12 (.ok fd)] ++ bevs)
  /-- a group could not be bound: the socket is closed -/
  | noGroup {fd err bevs opts evs cl} : BindEvs fd none bevs → OptEvs fd opts →
      GroupsOut e fd .bindGroup groups (some err) evs → CloseEvs fd cl →
      ListenOut e groups size (some (.wrap "Error binding to nflog group: %v " err))
        ([.socket 16 3 12 (.ok fd)] ++ bevs ++ opts ++ evs ++ cl)
  /-- a group's copy mode could not be set: the socket is closed -/
  | noMode {fd err bevs opts evs evs' cl} : BindEvs fd none bevs → OptEvs fd opts →
      GroupsOut e fd .bindGroup groups none evs →
      GroupsOut e fd (fun g => .copyPacket g size) groups (some err) evs' → CloseEvs fd cl →
      ListenOut e groups size (some (.wrap "Unable to set copy packet mode: %v " err))
        ([.socket 16 3 12 (.ok fd)] ++ bevs ++ opts ++ evs ++ evs' ++ cl)
  /-- everything was granted: the reader starts -/
  | started {fd bevs opts evs evs'} : BindEvs fd none bevs → OptEvs fd opts →
      GroupsOut e fd .bindGroup groups none evs →
      GroupsOut e fd (fun g => .copyPacket g size) groups none evs' →
      ListenOut e groups size none
        ([.socket 16 3 12 (.ok fd)] ++ bevs ++ opts ++ evs ++ evs' ++ [.app .spawnReader])

/-- C32: everything BindAndListenForLogs can do, for every kernel. On success the handle holds the open
socket and the callbacks given. -/
theorem C32_outcomes (env : Env) (K : Kernel LEv) (groups : List U16) (size : U32) (cb ecb : Option Nat)
    (w w' : W) (r : Option Err) (h : bindAndListen env K groups size cb ecb w = .ok (r, w')) :
    ∃ evs, w'.trace = w.trace ++ evs ∧ ListenOut env.e groups size.toNat r evs ∧
      (r = none → w'.st.callback = cb ∧ w'.st.errorCallback = ecb ∧
        ∃ fd, OpenOn w' fd ∧ .socket 16 3 12 (.ok fd) ∈ evs) := by
  unfold bindAndListen at h
  simp only [GoM.bind_apply, freshLog, Res.ok_bind] at h
  rcases nflogOpen_spec K ({ w with st := newNFLog } : W) with
    ⟨n, w1, _, ho, ht, _⟩ | ⟨fd, _, ⟨n, bevs, w1, _, ho, hb, ht, _⟩ |
      ⟨bevs, opts, w1, _, ho, hb, hopt, ht, hh, hst⟩⟩
  · rw [ho] at h
    simp only [Res.ok_bind, GoM.pure_apply, Res.ok.injEq, Prod.mk.injEq] at h
    obtain ⟨rfl, rfl⟩ := h
    exact ⟨_, ht, .noSocket, by simp⟩
  · rw [ho] at h
    simp only [Res.ok_bind, GoM.pure_apply, Res.ok.injEq, Prod.mk.injEq] at h
    obtain ⟨rfl, rfl⟩ := h
    exact ⟨_, ht, .noBind hb, by simp⟩
  · rw [ho] at h
    simp only [Res.ok_bind, GoM.bind_apply] at h
    have ho1 : OpenOn w1 fd := ⟨0, by rw [hst]⟩
    obtain ⟨⟨r1, w2⟩, h1, h⟩ := Res.bind_eq_ok.mp h
    obtain ⟨ev1, g1, t1, _, o1, s1⟩ := run_spec env K (.bindGroup groups cb ecb) w1 w2 fd r1 ho1 h1
    rcases r1 with _ | err
    · simp only [GoM.bind_apply] at h
      obtain ⟨⟨r2, w3⟩, h2, h⟩ := Res.bind_eq_ok.mp h
      obtain ⟨ev2, g2, t2, _, o2, s2⟩ := run_spec env K (.setMode groups size) w2 w3 fd r2 o1 h2
      rcases r2 with _ | err
      · simp only [GoM.bind_apply, emit, Res.ok_bind, GoM.pure_apply, Res.ok.injEq, Prod.mk.injEq,
          World.log] at h
        obtain ⟨rfl, rfl⟩ := h
        refine ⟨_, ?_, .started hb hopt g1 g2, ?_⟩
        · simp [t2, t1, ht]
        · intro _
          refine ⟨?_, ?_, fd, o2, by simp⟩
          · show w3.st.callback = cb
            rw [s2]; show w2.st.callback = cb; rw [s1]; rfl
          · show w3.st.errorCallback = ecb
            rw [s2]; show w2.st.errorCallback = ecb; rw [s1]; rfl
      · simp only [GoM.bind_apply] at h
        obtain ⟨cl, hc, hcl⟩ := nflogClose_spec K o2
        simp only [hc, Res.ok_bind, GoM.pure_apply, Res.ok.injEq, Prod.mk.injEq] at h
        obtain ⟨rfl, rfl⟩ := h
        refine ⟨_, ?_, .noMode hb hopt g1 g2 hcl, by simp⟩
        simp [t2, t1, ht]
    · simp only [GoM.bind_apply] at h
      obtain ⟨cl, hc, hcl⟩ := nflogClose_spec K o1
      simp only [hc, Res.ok_bind, GoM.pure_apply, Res.ok.injEq, Prod.mk.injEq] at h
      obtain ⟨rfl, rfl⟩ := h
      refine ⟨_, ?_, .noGroup hb hopt g1 hcl, by simp⟩
      simp [t1, ht]

theorem GroupsOut_quiet {e : Endian} {fd : Nat} {req : Nat → LReq} {gs : List U16} {r : Option Err}
    {evs : List (Ev LEv)} (h : GroupsOut e fd req gs r evs) :
    ∀ ev ∈ evs, isClose ev = false ∧ isSpawn ev = false := by
  intro ev hm
  have := GroupsOut_clean h ev hm
  cases ev <;> simp [isTransfer] at this <;> exact ⟨rfl, rfl⟩

theorem isSpawn_of_isApp {ev : Ev LEv} (h : isApp ev = false) : isSpawn ev = false := by
  cases ev <;> first | rfl | simp [isApp] at h

/-- C32: it returns a handle exactly when it started the reader, and it started the reader exactly when
socket and bind were granted and every group was bound and then configured, all acknowledged. -/
theorem C32_started_iff (env : Env) (K : Kernel LEv) (groups : List U16) (size : U32) (cb ecb : Option Nat)
    (w w' : W) (r : Option Err) (h : bindAndListen env K groups size cb ecb w = .ok (r, w')) :
    ∃ evs, w'.trace = w.trace ++ evs ∧
      (r = none ↔ .app .spawnReader ∈ evs) ∧
      (.app .spawnReader ∈ evs → ∃ fd bevs opts e1 e2,
        evs = [.socket 16 3 12 (.ok fd)] ++ bevs ++ opts ++ e1 ++ e2 ++ [.app .spawnReader] ∧
        BindEvs fd none bevs ∧ OptEvs fd opts ∧ AllAcked env.e fd .bindGroup groups e1 ∧
        AllAcked env.e fd (fun g => .copyPacket g size.toNat) groups e2) := by
  obtain ⟨evs, ht, ho, _⟩ := C32_outcomes env K groups size cb ecb w w' r h
  refine ⟨evs, ht, ?_⟩
  have no : ∀ {err : Err}, r = some err → (∀ ev ∈ evs, isSpawn ev = false) →
      ((r = none ↔ .app .spawnReader ∈ evs) ∧
      (.app .spawnReader ∈ evs → ∃ fd bevs opts e1 e2,
        evs = [.socket 16 3 12 (.ok fd)] ++ bevs ++ opts ++ e1 ++ e2 ++ [.app .spawnReader] ∧
        BindEvs fd none bevs ∧ OptEvs fd opts ∧ AllAcked env.e fd .bindGroup groups e1 ∧
        AllAcked env.e fd (fun g => .copyPacket g size.toNat) groups e2)) := by
    intro err hr hn
    have : .app .spawnReader ∉ evs := fun hm => by simpa [isSpawn] using hn _ hm
    exact ⟨⟨fun h => (by rw [hr] at h; cases h), fun h => absurd h this⟩, fun h => absurd h this⟩
  cases ho with
  | noSocket => exact no rfl (by simp [isSpawn])
  | noBind hb =>
    refine no rfl ?_
    intro ev hm
    simp only [List.mem_append, List.mem_singleton] at hm
    rcases hm with rfl | hm
    · rfl
    · exact isSpawn_of_isApp (hb.clean ev hm).2.1
  | noGroup hb hopt g1 hcl =>
    refine no rfl ?_
    intro ev hm
    simp only [List.mem_append, List.mem_singleton] at hm
    rcases hm with (((rfl | hm) | hm) | hm) | hm
    · rfl
    · exact isSpawn_of_isApp (hb.clean ev hm).2.1
    · exact isSpawn_of_isApp (hopt.clean ev hm).2.1
    · exact (GroupsOut_quiet g1 ev hm).2
    · exact isSpawn_of_isApp (hcl.clean ev hm).2.1
  | noMode hb hopt g1 g2 hcl =>
    refine no rfl ?_
    intro ev hm
    simp only [List.mem_append, List.mem_singleton] at hm
    rcases hm with ((((rfl | hm) | hm) | hm) | hm) | hm
    · rfl
    · exact isSpawn_of_isApp (hb.clean ev hm).2.1
    · exact isSpawn_of_isApp (hopt.clean ev hm).2.1
    · exact (GroupsOut_quiet g1 ev hm).2
    · exact (GroupsOut_quiet g2 ev hm).2
    · exact isSpawn_of_isApp (hcl.clean ev hm).2.1
  | started hb hopt g1 g2 =>
    exact ⟨⟨fun _ => by simp, fun _ => rfl⟩,
      fun _ => ⟨_, _, _, _, _, rfl, hb, hopt, allAcked_of g1 rfl, allAcked_of g2 rfl⟩⟩

/-- `fd` was closed exactly once, as the last thing. (One Close of the wrapper is one raw call, or two
when the first fails.) -/
def ClosedOnceAtEnd (fd : Nat) (evs : List (Ev LEv)) : Prop :=
  ∃ pre cl, evs = pre ++ cl ∧ CloseEvs fd cl ∧ ∀ ev ∈ pre, isClose ev = false

/-- C32: on failure after opening and binding the socket, it is closed exactly once, at the end. -/
theorem C32_failure_closes (env : Env) (K : Kernel LEv) (groups : List U16) (size : U32)
    (cb ecb : Option Nat) (w w' : W) (err : Err)
    (h : bindAndListen env K groups size cb ecb w = .ok (some err, w')) :
    ∃ evs, w'.trace = w.trace ++ evs ∧ (∀ ev ∈ evs, isSpawn ev = false) ∧
      ∀ fd, .bind fd none ∈ evs → .socket 16 3 12 (.ok fd) ∈ evs ∧ ClosedOnceAtEnd fd evs := by
  obtain ⟨evs, ht, ho, _⟩ := C32_outcomes env K groups size cb ecb w w' _ h
  obtain ⟨evs', ht', hs, _⟩ := C32_started_iff env K groups size cb ecb w w' _ h
  have : evs' = evs := List.append_cancel_left (ht'.symm.trans ht)
  subst this
  refine ⟨evs', ht, ?_, ?_⟩
  · intro ev hm
    cases ev with
    | app a =>
      cases a with
      | spawnReader => exact absurd (hs.mpr hm) (by simp)
      | _ => rfl
    | _ => rfl
  · intro fd hbd
    cases ho with
    | noSocket => simp at hbd
    | noBind hb =>
      exfalso
      rcases hb with ⟨hb, _⟩ | ⟨e1, rfl⟩
      · cases hb
      · simp at hbd
    | @noGroup fd' _ bevs opts ev1 cl hb hopt g1 hcl =>
      have hfd' : fd = fd' := by
        simp only [List.mem_append, List.mem_singleton] at hbd
        rcases hbd with (((hbd | hbd) | hbd) | hbd) | hbd
        · cases hbd
        · rcases hb with ⟨_, rfl⟩ | ⟨e1, rfl⟩ <;> simpa using hbd
        · obtain ⟨_, h⟩ := SetOpt.mem hopt _ hbd; cases h
        · exact absurd rfl ((isTransfer_not (GroupsOut_clean g1 _ hbd)).2.2.2 _ _)
        · rcases hcl with rfl | ⟨_, _, rfl⟩ <;> simp at hbd
      subst hfd'
      refine ⟨by simp, _, cl, rfl, hcl, ?_⟩
      intro ev hm
      simp only [List.mem_append, List.mem_singleton] at hm
      rcases hm with ((rfl | hm) | hm) | hm
      · rfl
      · exact (hb.clean ev hm).1
      · exact (hopt.clean ev hm).1
      · exact (GroupsOut_quiet g1 ev hm).1
    | @noMode fd' _ bevs opts ev1 ev2 cl hb hopt g1 g2 hcl =>
      have hfd' : fd = fd' := by
        simp only [List.mem_append, List.mem_singleton] at hbd
        rcases hbd with ((((hbd | hbd) | hbd) | hbd) | hbd) | hbd
        · cases hbd
        · rcases hb with ⟨_, rfl⟩ | ⟨e1, rfl⟩ <;> simpa using hbd
        · obtain ⟨_, h⟩ := SetOpt.mem hopt _ hbd; cases h
        · exact absurd rfl ((isTransfer_not (GroupsOut_clean g1 _ hbd)).2.2.2 _ _)
        · exact absurd rfl ((isTransfer_not (GroupsOut_clean g2 _ hbd)).2.2.2 _ _)
        · rcases hcl with rfl | ⟨_, _, rfl⟩ <;> simp at hbd
      subst hfd'
      refine ⟨by simp, _, cl, rfl, hcl, ?_⟩
      intro ev hm
      simp only [List.mem_append, List.mem_singleton] at hm
      rcases hm with (((rfl | hm) | hm) | hm) | hm
      · rfl
      · exact (hb.clean ev hm).1
      · exact (hopt.clean ev hm).1
      · exact (GroupsOut_quiet g1 ev hm).1
      · exact (GroupsOut_quiet g2 ev hm).1

/-- C32: a successful start closes nothing. -/
theorem C32_success_keeps_open (env : Env) (K : Kernel LEv) (groups : List U16) (size : U32)
    (cb ecb : Option Nat) (w w' : W) (h : bindAndListen env K groups size cb ecb w = .ok (none, w')) :
    ∃ evs, w'.trace = w.trace ++ evs ∧ ∀ ev ∈ evs, isClose ev = false := by
  obtain ⟨evs, ht, ho, _⟩ := C32_outcomes env K groups size cb ecb w w' _ h
  refine ⟨evs, ht, ?_⟩
  intro ev hm
  cases ho with
  | started hb hopt g1 g2 =>
    simp only [List.mem_append, List.mem_singleton] at hm
    rcases hm with ((((rfl | hm) | hm) | hm) | hm) | rfl
    · rfl
    · exact (hb.clean ev hm).1
    · exact (hopt.clean ev hm).1
    · exact (GroupsOut_quiet g1 ev hm).1
    · exact (GroupsOut_quiet g2 ev hm).1
    · rfl

/-- C32: it does start when the kernel grants socket and bind, accepts every message and answers with
messages of 20 bytes or more that are no refusals. -/
theorem C32_starts (env : Env) (K : Kernel LEv) (groups : List U16) (size : U32)
    (cb ecb : Option Nat) (w : W) (fd : Nat) (hsock : ∀ tr, K.socket tr = .ok fd)
    (hbind : ∀ tr, K.bind tr fd = none) (hs : ∀ tr b, K.send tr fd b = none)
    (hr : ∀ tr, ∃ d, K.recv tr fd = .ok d ∧ 20 ≤ d.length ∧ ∀ n, 20 ≤ n → ¬ Refusal env.e (d.take n)) :
    ∃ w', bindAndListen env K groups size cb ecb w = .ok (none, w') := by
  unfold bindAndListen
  simp only [GoM.bind_apply, freshLog, Res.ok_bind]
  rcases nflogOpen_spec K ({ w with st := newNFLog } : W) with
    ⟨n, w1, h, _⟩ | ⟨fd', hfd, ⟨n, bevs, w1, ⟨tr, h⟩, _⟩ |
      ⟨bevs, opts, w1, _, ho, hb, hopt, ht, hh, hst⟩⟩
  · rw [hsock] at h; cases h
  · rw [hsock] at hfd
    simp only [Except.ok.injEq] at hfd
    subst hfd
    rw [hbind] at h; cases h
  · rw [hsock] at hfd
    simp only [Except.ok.injEq] at hfd
    subst hfd
    rw [ho]
    simp only [Res.ok_bind, GoM.bind_apply, nflogBindGroup, modifyL]
    have ho1 : OpenOn ({ w1 with st := { w1.st with callback := cb, errorCallback := ecb } } : W) fd :=
      ⟨0, by rw [hst]⟩
    obtain ⟨w2, h2⟩ := forGroups_succeeds env K (commandMsg env 1) fd (mk_command env 1) hs hr
      groups _ ho1
    obtain ⟨_, _, _, _, ho2, _⟩ := forGroups_spec env K (commandMsg env 1) LReq.bindGroup fd
      (fun g => ⟨_, commandMsg_eq env 1 g, enc_bind _ _⟩) groups _ w2 none ho1 h2
    rw [h2]
    simp only [Res.ok_bind, GoM.bind_apply, nflogSetMode]
    obtain ⟨w3, h3⟩ := forGroups_succeeds env K (modeMsg env size) fd (mk_mode env size) hs hr
      groups _ ho2
    rw [h3]
    exact ⟨_, rfl⟩

/-- An acknowledging kernel. -/
def ackKernel : Kernel LEv where
  socket := fun _ => .ok 3
  bind := fun _ _ => none
  setsockopt := fun _ _ => none
  close := fun _ _ => none
  send := fun _ _ _ => none
  recv := fun _ _ => .ok [20, 0, 0, 0, 2, 0, 0, 0, 0, 0, 0, 0, 0, 0, 0, 0, 0, 0, 0, 0]

/-- A little-endian host whose callbacks do nothing. -/
def someEnv : Env := ⟨.little, id⟩

/-- With it, listening to groups 10 and 11 starts. -/
example (w : W) : ∃ w', bindAndListen someEnv ackKernel [10, 11] 64 (some 0) (some 1) w = .ok (none, w') := by
  refine C32_starts someEnv ackKernel [10, 11] 64 (some 0) (some 1) w 3 (fun _ => rfl)
    (fun _ => rfl) (fun _ _ => rfl) (fun _ => ⟨_, rfl, ?_, ?_⟩)
  · decide
  · intro n hn
    rw [List.take_of_length_le (by simpa using hn)]
    unfold Refusal; decide

/-! ### C16 -/

/-- C16 (partial: false when bind(2) fails, see `C16_nflog_bind_failure_leaks`): when
BindAndListenForLogs returns an error after a successful bind, the socket it opened has been closed
exactly once, at the end. -/
theorem C16_nflog_closed_partial (env : Env) (K : Kernel LEv) (groups : List U16) (size : U32)
    (cb ecb : Option Nat) (w w' : W) (err : Err)
    (h : bindAndListen env K groups size cb ecb w = .ok (some err, w')) :
    ∃ evs, w'.trace = w.trace ++ evs ∧
      ∀ fd, .socket 16 3 12 (.ok fd) ∈ evs → .bind fd none ∈ evs → ClosedOnceAtEnd fd evs := by
  obtain ⟨evs, ht, _, hc⟩ := C32_failure_closes env K groups size cb ecb w w' err h
  exact ⟨evs, ht, fun fd _ hb => (hc fd hb).2⟩

/-- C16 fails in one place: if bind(2) keeps failing, BindAndListenForLogs opens a socket, returns an
error and never closes it, for every such kernel. -/
theorem C16_nflog_bind_failure_leaks (env : Env) (K : Kernel LEv) (groups : List U16) (size : U32)
    (cb ecb : Option Nat) (w : W) (fd : Nat) (hs : K.socket w.trace = .ok fd)
    (hb : ∀ tr, ∃ n, K.bind tr fd = some n) :
    ∃ err w' evs, bindAndListen env K groups size cb ecb w = .ok (some err, w') ∧
      w'.trace = w.trace ++ evs ∧ .socket 16 3 12 (.ok fd) ∈ evs ∧ ∀ ev ∈ evs, isClose ev = false := by
  unfold bindAndListen
  simp only [GoM.bind_apply, freshLog, Res.ok_bind]
  rcases nflogOpen_spec K ({ w with st := newNFLog } : W) with
    ⟨n, w1, h, _⟩ | ⟨fd', hfd, ⟨n, bevs, w1, _, ho, hbe, ht, _⟩ | ⟨bevs, opts, w1, ⟨tr, h⟩, _⟩⟩
  · rw [show ({ w with st := newNFLog } : W).trace = w.trace from rfl, hs] at h; cases h
  · rw [show ({ w with st := newNFLog } : W).trace = w.trace from rfl, hs] at hfd
    simp only [Except.ok.injEq] at hfd
    subst hfd
    rw [ho]
    refine ⟨_, w1, _, rfl, ht, by simp, ?_⟩
    intro ev hm
    simp only [List.mem_append, List.mem_singleton] at hm
    rcases hm with rfl | hm
    · rfl
    · exact (hbe.clean ev hm).1
  · rw [show ({ w with st := newNFLog } : W).trace = w.trace from rfl, hs] at hfd
    simp only [Except.ok.injEq] at hfd
    subst hfd
    obtain ⟨n, hn⟩ := hb tr
    rw [hn] at h; cases h

/-- A kernel refusing bind with EADDRINUSE meets those hypotheses. -/
example : ∀ tr, ∃ n, ({ ackKernel with bind := fun _ _ => some 98 } : Kernel LEv).bind tr 3 = some n :=
  fun _ => ⟨98, rfl⟩

end Verif.Props.Log
