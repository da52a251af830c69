import Verif.Props.NfQueueAnswerAccount
/-! C144: an application that answers packets in its callbacks, several queues, on a kernel that keeps queues. -/
namespace Verif.Props
open Verif.Common Verif.Sys Verif.Spec Verif.NfQueue

/-! ### Steps record what happens -/

theorem records_idle {env : Env} (hidle : ∀ w, env.cbEffect w = w) (K : Kernel QEv) : Records K (runCallback env) := by
  intro w x w' h
  cases h
  exact ⟨[], by rw [hidle]; simp, .nil⟩

theorem records_packetInfo {K : Kernel QEv} (env : Env) (a : Option AttrMap) : Records K (packetInfoM env a) := by
  refine .none fun w x w' h => ?_
  unfold packetInfoM at h
  obtain ⟨y, _, h2⟩ := Res.bind_eq_ok.mp h
  cases h2; rfl

theorem records_emitPacket {K : Kernel QEv} (cb : Nat) (p : Option Slice) (mark id priv : Nat) : Records K (emitPacket cb p mark id priv) :=
  .one fun w x w' h => by cases h; exact ⟨_, rfl, trivial⟩

theorem records_rstep {env : Env} (hidle : ∀ w, env.cbEffect w = w) (K : Kernel QEv) (pc : RPc) : Records K (rstep env K pc) := by
  cases pc with
  | idle =>
    unfold rstep
    refine records_getQ.bind fun q => ?_
    cases q.handle with
    | none => exact .panic
    | some qh =>
      refine (records_recvInto K _ _ _).bind fun r => ?_
      cases r with
      | error n => exact .pure _
      | ok n => exact .pure _
  | got buf n =>
    unfold rstep
    exact (records_decodeM env _ _).bind fun x => .pure _
  | parsed g a err =>
    unfold rstep
    refine records_getQ.bind fun q => ?_
    have tail : Records K (do
        let (id, mark, packet) ← packetInfoM env a
        modifyQ fun q => { q with processed := q.processed + 1 }
        pure (RPc.ready id mark packet) : M RPc) :=
      (records_packetInfo env a).bind fun _ => (records_modifyQ _).bind fun _ => .pure _
    cases err with
    | none => exact tail
    | some err =>
      cases q.errorCallback with
      | none => simp only; exact tail
      | some ecb => simp only; exact (records_emit _).bind fun _ => (records_idle hidle K).bind fun _ => .pure _
  | ready id mark packet =>
    unfold rstep
    refine records_getQ.bind fun q => ?_
    cases q.callback with
    | none => exact .panic
    | some cb => exact (records_emitPacket _ _ _ _ _).bind fun _ => (records_idle hidle K).bind fun _ => .pure _

theorem records_vstep (env : Env) (K : Kernel QEv) (c : VCall) (pc : Pc) : Records K (vstep env K c pc) := by
  have send : ∀ hs ps p n0 n2, Records K (vSend env K hs ps p n0 n2) := by
    intro hs ps p n0 n2
    unfold vSend
    refine (records_baseOf _ _).bind fun _ => (records_baseOf _ _).bind fun _ => (records_baseOf _ _).bind fun _ => records_getQ.bind fun q => ?_
    cases q.handle with
    | none => exact .panic
    | some qh => exact (records_sendmsg env _ _).bind fun _ => .pure _
  have fill : ∀ v m l id k i, Records K (v2Fill env v m l id k i) := by
    intro v m l id k i
    unfold v2Fill
    exact records_getQ.bind fun q => (records_fillFrom _ _ _).bind fun _ => .pure _
  have attr : ∀ n, Records K (attrBuild env n) := by
    intro n
    unfold attrBuild
    exact (Records.lift _).bind fun _ => records_allocM _
  have build : ∀ v l id, Records K (v1Build env v l id) := by
    intro v l id
    unfold v1Build
    exact records_getQ.bind fun _ => (Records.lift _).bind fun _ => (Records.lift _).bind fun _ => (Records.lift _).bind fun _ => (Records.lift _).bind fun _ => records_allocM _
  have bmp : ∀ v, Records K (bump v) := by
    intro v
    unfold bump
    exact .ite (records_modifyQ _) (records_modifyQ _)
  cases c with
  | v1 q v l id p =>
    cases pc with
    | start => exact (bmp v).bind fun _ => .pure _
    | counted => exact (build _ _ _).bind fun _ => .pure _
    | headed => exact (attr _).bind fun _ => .pure _
    | attred => exact (records_padPacket _ _ _).bind fun _ => .pure _
    | padded => exact send _ _ _ _ _
    | filled => exact .pure _
    | done => exact .pure _
  | v2 q v m l id p =>
    cases pc with
    | start => exact fill _ _ _ _ _ _
    | filled k i =>
      simp only [vstep]
      refine .ite (fill _ _ _ _ _ _) (records_getQ.bind fun _ => (attr _).bind fun _ => .pure _)
    | attred => exact (records_padPacket _ _ _).bind fun _ => .pure _
    | padded => exact send _ _ _ _ _
    | counted => exact .pure _
    | headed => exact .pure _
    | done => exact .pure _

theorem records_estep {env : Env} (hidle : ∀ w, env.cbEffect w = w) (K : Kernel QEv) (cancel : List (Ev QEv) → Bool) (policy : Policy) (g : AG) :
    Records K (estep env K cancel policy g) := by
  obtain ⟨n, pc⟩ := g
  cases pc with
  | stopped => exact .pure _
  | verdict c pc => exact (records_vstep env K c pc).bind fun _ => .pure _
  | read pc =>
    cases pc with
    | idle =>
      intro w x w' h
      simp only [estep] at h
      split at h
      · exact (records_nfqClose.bind fun _ => .pure _) w x w' h
      · exact ((records_rstep hidle K .idle).bind fun _ => .pure _) w x w' h
    | got => exact (records_rstep hidle K _).bind fun _ => .pure _
    | parsed => exact (records_rstep hidle K _).bind fun _ => .pure _
    | ready id mark pkt =>
      intro w x w' h
      simp only [estep] at h
      split at h
      · cases h
      · split at h
        · exact ((records_emitPacket _ _ _ _ _).bind fun _ => .pure _) w x w' h
        · exact ((records_emitPacket _ _ _ _ _).bind fun _ => .pure _) w x w' h

/-! ### The kernel's datagrams -/

variable {F : Nat → Prop} {K : Kernel QEv} {st : List (Ev QEv) → KState}

/-- What a kernel that keeps queues has to say: the first note of the socket. -/
theorem keeps_note {e : Endian} (hK : Keeps e F K st) {tr : List (Ev QEv)} {fd : Nat} {d : List Byte} (h : K.recv tr fd = .ok d) :
    ∃ s1 n l, Meanwhile F (st tr) s1 ∧ s1.inbox fd = n :: l ∧ NoteIs e d n ∧ d.length < 76800 := by
  have ha : Answers K tr (.recvfrom fd (d.length + 76800) 0 (.ok d)) := by
    show _ = (K.recv tr fd).map _
    rw [h]
    show _ = Except.ok (d.take _)
    rw [List.take_of_length_le (by omega)]
  have hg : Genuine K tr [.recvfrom fd (d.length + 76800) 0 (.ok d)] := .cons ha .nil
  obtain ⟨s1, n, l, d', m1, hin, hn, hdd, _⟩ := (Run.of_genuine hK hg).got
  have hl : d'.length < 76800 := by
    cases n with
    | ack c => exact hn.2.1
    | packet id mark p =>
      obtain ⟨_, _, _, _, _, h, _⟩ := hn
      exact h
  rw [List.take_of_length_le (by omega)] at hdd
  subst hdd
  exact ⟨s1, n, l, m1, hin, hn, hl⟩

theorem keeps_size {e : Endian} (hK : Keeps e F K st) {tr : List (Ev QEv)} {fd : Nat} {d : List Byte} (h : K.recv tr fd = .ok d) :
    20 ≤ d.length ∧ d.length < 75 * 1024 := by
  obtain ⟨_, n, _, _, _, hn, hl⟩ := keeps_note hK h
  refine ⟨?_, hl⟩
  cases n with
  | ack c => exact hn.1.1
  | packet id mark p =>
    obtain ⟨_, _, h1, _, h2, _⟩ := hn
    rw [h2, List.length_append]; omega

/-- What a socket with a tally is sent. -/
theorem tally_deals (hK : Keeps .little F K st) {fd q : Nat} {c : KQueue} {came rest pend : List Pkt} {left : List Gone} {acks : Nat}
    (hc : c.owner = .sock fd) (hr : 0 < c.range) {tr : List (Ev QEv)} (hT : Tally fd q c came left rest pend acks (st tr)) {d : List Byte}
    (h : K.recv tr fd = .ok d) : Deals Stray .little d := by
  obtain ⟨s1, n, l, m1, hin, hn, hl⟩ := keeps_note hK h
  obtain ⟨n1, t1, _, _⟩ := hT.meanwhile hc m1
  rcases t1.received hin with ⟨rfl, a, rfl, t2⟩ | ⟨p, pend1, hp, rfl, t2⟩
  · exact .inr (hn.2.2 rfl)
  · have hsound := t2.sound p (by simp)
    obtain ⟨id, hP, hE, hid⟩ := packet_understood hn hr hsound.2.2
    exact .inl (.inr ⟨id, _, hP⟩)

/-! ### Whose events -/

theorem ours_on {e : Endian} {fd q : Nat} {ev : Ev QEv} (h : Ours e fd q ev) : EvOn fd ev := by
  rcases h with h | ⟨size, flags, r, rfl⟩ | ⟨b, _, h, _⟩
  · exact .of_silent h
  · cases r with
    | ok d => rfl
    | error n => exact .of_silent (by simp [Silent, handedOver])
  · cases ev with
    | sendto f b1 g r =>
      intro f' b' h'
      rw [h] at h'
      simp only [Option.some.injEq, Prod.mk.injEq] at h'
      exact h'.1.symm
    | sendmsg f b1 r =>
      intro f' b' h'
      rw [h] at h'
      simp only [Option.some.injEq, Prod.mk.injEq] at h'
      exact h'.1.symm
    | _ => cases h

theorem closing_on {fd : Nat} {evs : List (Ev QEv)} (h : NfQueue.CloseEvs fd evs) : ∀ ev ∈ evs, EvOn fd ev ∧ NfQueue.isClose ev = true := by
  intro ev hev
  rcases h with rfl | ⟨_, _, rfl⟩
  · simp only [List.mem_singleton] at hev; subst hev; exact ⟨rfl, rfl⟩
  · simp only [List.mem_cons, List.not_mem_nil, or_false] at hev
    rcases hev with rfl | rfl <;> exact ⟨rfl, rfl⟩

theorem recv_on (fd size flags : Nat) (r : Except Nat (List Byte)) : EvOn fd (.recvfrom fd size flags r : Ev QEv) := by
  cases r with
  | ok d => rfl
  | error n => exact .of_silent (by simp [Silent, handedOver])

theorem sendmsg_on (fd : Nat) (b : List Byte) (r : Option Nat) : EvOn fd (.sendmsg fd b r : Ev QEv) := by
  intro f b' h
  cases r with
  | none => simp only [handedOver, Option.some.injEq, Prod.mk.injEq] at h; exact h.1.symm
  | some _ => cases h

theorem app_on (fd : Nat) (a : QEv) : EvOn fd (.app a : Ev QEv) := .of_silent (by simp [Silent, handedOver])

theorem turn_on {odd : List Byte → Prop} {e : Endian} {fd q cb ecb priv size : Nat} {ans : List Byte → Nat → Nat → Answer} {t : List (Ev QEv)}
    (h : AnswerTurn odd e fd q cb ecb priv size ans t) : ∀ ev ∈ t, EvOn fd ev ∧ NfQueue.isClose ev = false := by
  intro ev hev
  rcases h with ⟨r, err, nf, _, _, rfl⟩ | ⟨d, id, payload, mark, evs, _, _, _, rfl, ha⟩
  · simp only [List.mem_cons, List.not_mem_nil, or_false] at hev
    rcases hev with rfl | rfl
    · exact ⟨recv_on _ _ _ _, rfl⟩
    · exact ⟨app_on _ _, rfl⟩
  · simp only [List.mem_cons] at hev
    rcases hev with rfl | rfl | hev
    · exact ⟨recv_on _ _ _ _, rfl⟩
    · exact ⟨app_on _ _, rfl⟩
    · cases hans : ans payload mark id with
      | silent => rw [hans] at ha; have ha : evs = [] := ha; subst ha; cases hev
      | verdict v =>
        rw [hans] at ha
        obtain ⟨b, r, rfl, _⟩ := ha
        simp only [List.mem_singleton] at hev
        subst hev
        exact ⟨sendmsg_on _ _ _, rfl⟩
      | verdict2 v m =>
        rw [hans] at ha
        obtain ⟨b, r, rfl, _⟩ := ha
        simp only [List.mem_singleton] at hev
        subst hev
        exact ⟨sendmsg_on _ _ _, rfl⟩

theorem pending_on {e : Endian} {fd cb priv size : Nat} {t : List (Ev QEv)} (h : Pending e fd cb priv size t) : ∀ ev ∈ t, EvOn fd ev := by
  intro ev hev
  rcases h with rfl | ⟨r, rfl⟩ | ⟨d, id, payload, mark, _, _, rfl⟩
  · cases hev
  · simp only [List.mem_singleton] at hev
    subst hev
    exact recv_on _ _ _ _
  · simp only [List.mem_cons, List.not_mem_nil, or_false] at hev
    rcases hev with rfl | rfl
    · exact recv_on _ _ _ _
    · exact app_on _ _

/-- What an attempt to start a queue does is about the descriptor it was given. -/
theorem start_on {e : Endian} {q maxLen size : Nat} {r : Option Err} {evs : List (Ev QEv)} (h : StartOut e q maxLen size r evs) :
    (r ≠ none ∧ ∀ ev ∈ evs, Silent ev) ∨ ∃ fd rest, evs = .socket 16 3 12 (.ok fd) :: rest ∧ ∀ ev ∈ evs, EvOn fd ev := by
  cases h with
  | noSocket => exact .inl ⟨by simp, by intro ev hev; simp only [List.mem_singleton] at hev; subst hev; rfl⟩
  | @noBind fd n bevs hb =>
    refine .inr ⟨fd, bevs, rfl, ?_⟩
    intro ev hev
    simp only [List.cons_append, List.nil_append, List.mem_cons] at hev
    rcases hev with rfl | hev
    · rfl
    · exact .of_silent (hb.silent ev hev)
  | @refused fd err bevs opts mid cl hb ho hr _ hc =>
    refine .inr ⟨fd, bevs ++ opts ++ mid ++ cl, by simp, ?_⟩
    intro ev hev
    simp only [List.mem_append, List.mem_singleton] at hev
    rcases hev with (((rfl | hev) | hev) | hev) | hev
    · rfl
    · exact .of_silent (hb.silent ev hev)
    · exact .of_silent (ho.silent ev hev)
    · exact ours_on (hr.ours ev hev)
    · exact (closing_on hc ev hev).1
  | @started fd bevs opts e1 e2 e3 e4 e5 hb ho h1 h2 h3 h4 h5 =>
    refine .inr ⟨fd, bevs ++ opts ++ e1 ++ e2 ++ e3 ++ e4 ++ e5 ++ [.app .spawnReader], by simp, ?_⟩
    intro ev hev
    simp only [List.mem_append, List.mem_singleton] at hev
    rcases hev with (((((((rfl | hev) | hev) | hev) | hev) | hev) | hev) | hev) | rfl
    · rfl
    · exact .of_silent (hb.silent ev hev)
    · exact .of_silent (ho.silent ev hev)
    · exact ours_on (h1.ours (q := q) (.inl rfl) ev hev)
    · exact ours_on (h2.ours (q := q) (.inr (.inl rfl)) ev hev)
    · exact ours_on (h3.ours (.inr (.inr rfl)) ev hev)
    · exact ours_on (h4.ours (.inr (.inr rfl)) ev hev)
    · exact ours_on (h5.ours (.inr (.inr rfl)) ev hev)
    · exact app_on _ _

/-! ### One queue on the kernel -/

/-- How the kernel knows a queue started with `a`. -/
def confOf (a : StartArgs) (fd : Nat) : KQueue := ⟨.sock fd, 2, clip a.size.toNat, a.maxLen.toNat, []⟩

/-- The goroutine of queue `j` has its place in the log: it was started by `evs`, after `l0`, and `l1` happened since. -/
structure Hosted (st : List (Ev QEv) → KState) (tr0 : List (Ev QEv)) (j : Nat) (a : StartArgs) (fd : Nat) (log : List (Option Nat × Ev QEv)) (halted : Prop)
    (evs : List (Ev QEv)) (l0 l1 : List (Option Nat × Ev QEv)) (came : List Pkt) (left : List Gone) (missed first : List Pkt) : Prop where
  cut : log = l0 ++ evs.map (none, ·) ++ l1
  before : byGo (some j) l0 = []
  start : StartOut .little a.queueID.toNat a.maxLen.toNat a.size.toNat none evs
  sock : .socket 16 3 12 (.ok fd) ∈ evs
  few : missed.length ≤ 2
  tally : Tally fd a.queueID.toNat (confOf a fd) came left missed first missed.length (st (tr0 ++ l0.map (·.2) ++ evs))
  live : ¬ halted → OffBut j fd l1
  dead : halted → ∃ la lb lc, l1 = la ++ lb.map (some j, ·) ++ lc ∧ OffBut j fd la ∧ NfQueue.CloseEvs fd lb ∧
    (∀ ev ∈ byGo (some j) la, NfQueue.isClose ev = false) ∧ byGo (some j) lc = []

theorem byGo_map_same (i : Option Nat) (es : List (Ev QEv)) : byGo i (es.map (i, ·)) = es := by
  simpa [byGo] using byGo_same i [] es
theorem byGo_map_other {i k : Option Nat} (h : k ≠ i) (es : List (Ev QEv)) : byGo i (es.map (k, ·)) = [] := by
  simpa [byGo] using byGo_other h [] es
theorem map_snd (i : Option Nat) (es : List (Ev QEv)) : (es.map (i, ·)).map (·.2) = es := by
  simpa using log_snoc i [] es

section
variable {tr0 evs : List (Ev QEv)} {j fd : Nat} {a : StartArgs} {log l l0 l1 : List (Option Nat × Ev QEv)} {halted halted' : Prop} {came missed first : List Pkt} {left : List Gone}

theorem Hosted.own (h : Hosted st tr0 j a fd log halted evs l0 l1 came left missed first) : byGo (some j) log = byGo (some j) l1 := by
  rw [h.cut, byGo_append, byGo_append, h.before, byGo_map_other (by simp)]
  rfl

/-- Others do something. -/
theorem Hosted.others (h : Hosted st tr0 j a fd log halted evs l0 l1 came left missed first) (hl : ¬ halted → OffBut j fd l) (hb : byGo (some j) l = []) :
    Hosted st tr0 j a fd (log ++ l) halted evs l0 (l1 ++ l) came left missed first := by
  refine ⟨by rw [h.cut]; simp, h.before, h.start, h.sock, h.few, h.tally, ?_, ?_⟩
  · intro hn x hx
    rcases List.mem_append.mp hx with hx | hx
    · exact h.live hn x hx
    · exact hl hn x hx
  · intro hd
    obtain ⟨la, lb, lc, rfl, h2, h3, h4, h5⟩ := h.dead hd
    exact ⟨la, lb, lc ++ l, by simp, h2, h3, h4, by rw [byGo_append, h5, hb]; rfl⟩

/-- It does something itself. -/
theorem Hosted.acts (h : Hosted st tr0 j a fd log halted evs l0 l1 came left missed first) (hn : ¬ halted) (hn' : ¬ halted') (es : List (Ev QEv)) :
    Hosted st tr0 j a fd (log ++ es.map (some j, ·)) halted' evs l0 (l1 ++ es.map (some j, ·)) came left missed first := by
  refine ⟨by rw [h.cut]; simp, h.before, h.start, h.sock, h.few, h.tally, ?_, fun h => absurd h hn'⟩
  intro _ x hx
  rcases List.mem_append.mp hx with hx | hx
  · exact h.live hn x hx
  · obtain ⟨_, _, rfl⟩ := List.mem_map.mp hx
    exact .inl rfl

/-- It closes its socket. -/
theorem Hosted.halts (h : Hosted st tr0 j a fd log halted evs l0 l1 came left missed first) (hn : ¬ halted) (hy : halted') {es : List (Ev QEv)}
    (hc : NfQueue.CloseEvs fd es) (hno : ∀ ev ∈ byGo (some j) l1, NfQueue.isClose ev = false) :
    Hosted st tr0 j a fd (log ++ es.map (some j, ·)) halted' evs l0 (l1 ++ es.map (some j, ·)) came left missed first := by
  refine ⟨by rw [h.cut]; simp, h.before, h.start, h.sock, h.few, h.tally, fun h => absurd hy h, fun _ => ?_⟩
  exact ⟨l1, es, [], by simp, h.live hn, hc, hno, rfl⟩

theorem Hosted.split (h : Hosted st tr0 j a fd log halted evs l0 l1 came left missed first) (hg : Genuine K tr0 (log.map (·.2))) :
    Genuine K (tr0 ++ l0.map (·.2) ++ evs) (l1.map (·.2)) ∧ tr0 ++ log.map (·.2) = tr0 ++ l0.map (·.2) ++ evs ++ l1.map (·.2) := by
  have e1 : log.map (·.2) = l0.map (·.2) ++ evs ++ l1.map (·.2) := by
    rw [h.cut, List.map_append, List.map_append, map_snd]
  rw [e1] at hg ⊢
  obtain ⟨_, g2⟩ := hg.split
  rw [← List.append_assoc] at g2
  exact ⟨g2, by simp⟩

end

/-- What has become of the packets of queue `q`, which copies `range` bytes and belongs to socket `fd`, between its start (kernel state
`s0`) and now (`s`): `missed ++ first` waited in it when it was started, `new` came since; `del` were given to the application, `hand` was
received and is about to be, `pend` are yet to be received; `rest`: what was done in the unfinished turn. -/
structure Ledger (policy : Policy) (fd q range : Nat) (s0 s : KState) (missed first : List Pkt) (evs rest : List (Ev QEv)) (del : List Dealt)
    (new hand pend : List Pkt) : Prop where
  tells : Tells policy range 0 evs del
  came : s.cameTo q = s0.cameTo q ++ new
  order : first ++ new = del.map Dealt.pkt ++ hand ++ pend
  left : s.leftFrom q = s0.leftFrom q ++ del.filterMap (Dealt.leaves q range)
  waiting : ∃ k, s.queues q = some k ∧ k.owner = .sock fd ∧ k.mode = 2 ∧ k.range = range ∧ k.waiting = missed ++ unsentOf del ++ hand ++ pend
  notes : (s.inbox fd).filter Note.isPacket = pend.map (Pkt.note range)
  done : AllDone del.dropLast ∧ (rest.countP isPacket = 0 → AllDone del)
  hand : hand ≠ [] → ∃ d p, hand = [p] ∧ rest = [.recvfrom fd 76800 0x100 (.ok d)]

theorem AllDone.append {a b : List Dealt} (h : AllDone a) (h' : AllDone b) : AllDone (a ++ b) := by
  intro x hx
  rcases List.mem_append.mp hx with hx | hx
  · exact h x hx
  · exact h' x hx

theorem pending_shown {e : Endian} {fd cb priv size : Nat} {t : List (Ev QEv)} (h : Pending e fd cb priv size t) : (shownIn t).length ≤ 1 := by
  rcases h with rfl | ⟨r, rfl⟩ | ⟨d, id, payload, mark, _, _, rfl⟩ <;> simp [shownIn]

/-- The books of a queue, `l` after its start. -/
theorem ledger (hK : Keeps .little F K st) {policy : Policy} {a : StartArgs} {fd j : Nat} (hpol : Takes policy (clip a.size.toNat)) {tr : List (Ev QEv)} {came missed first : List Pkt} {left : List Gone}
    {l : List (Option Nat × Ev QEv)} {ts : List (List (Ev QEv))} {rest : List (Ev QEv)}
    (hT : Tally fd a.queueID.toNat (confOf a fd) came left missed first missed.length (st tr)) (hg : Genuine K tr (l.map (·.2))) (ho : OffBut j fd l)
    (hby : byGo (some j) l = ts.flatten ++ rest)
    (hts : ∀ i t, ts[i]? = some t → AnswerTurn Stray .little fd a.queueID.toNat a.cb a.ecb a.priv 76800 (policy (packetsIn (ts.take i))) t)
    (hp : Pending .little fd a.cb a.priv 76800 rest) :
    ∃ del new hand pend acks came' left' rest', Ledger policy fd a.queueID.toNat (clip a.size.toNat) (st tr) (st (tr ++ l.map (·.2))) missed first (byGo (some j) l) rest del new hand pend ∧
      Tally fd a.queueID.toNat (confOf a fd) came' left' rest' pend acks (st (tr ++ l.map (·.2))) ∧ (rest = [] → hand = []) ∧
      rest' = missed ++ unsentOf del ++ hand ∧ acks ≤ missed.length ∧
      (Healthy K st → (∃ d t p, .socket d t p (.ok fd) ∈ tr) → (∀ x ∈ del, x.sent ≠ some false) ∧
        (ts.length ≤ del.length + missed.length ∨ first.length ≤ del.length)) := by
  have hc : (confOf a fd).owner = .sock fd := rfl
  have hr : 0 < (confOf a fd).range := clip_pos _
  obtain ⟨x, y, rfl, hx, hy⟩ := byGo_split (some j) l _ _ hby
  rw [List.map_append] at hg ⊢
  obtain ⟨g1, g2⟩ := hg.split
  obtain ⟨d1, n1, p1, a1, b1, b2, b3, b4⟩ := turns_account (policy := policy) (cb := a.cb) (ecb := a.ecb) (priv := a.priv) hK hc hr hpol ts 0 tr x came missed first left
    missed.length (fun i t h => by rw [Nat.zero_add]; exact hts i t h) g1 ho.left hx hT
  obtain ⟨d2, n2, hand, p2, a2, c1, c2, c3, c4, c5⟩ := rest_account (policy := policy) (n := 0 + ts.flatten.countP isPacket) hK hc hr hp g2 ho.right hy b3.tally
  rw [List.append_assoc tr] at c5
  have B := b3.append c5
  have hlen : d2.length ≤ 1 := by
    have h1 := pending_shown hp
    rw [c1.shown] at h1
    simpa using h1
  obtain ⟨k, k1, k2, k3⟩ := B.2.2.queue
  obtain ⟨q1, q2, q3, q4⟩ := conf_parts k2
  refine ⟨d1 ++ d2, n1 ++ n2, hand, p2, a2, _, _, _, ⟨?_, ?_, B.1, ?_, ?_, B.2.2.notes, ⟨?_, ?_⟩, c4⟩, B.2.2, ?_, rfl, B.2.1, ?_⟩
  · rw [byGo_append, hx, hy]; exact b1.append c1
  · rw [B.2.2.came, hT.came, List.append_assoc, List.append_assoc, ← List.append_assoc (List.map _ _), ← B.1, ← List.append_assoc]
  · rw [B.2.2.left, hT.left]; rfl
  · exact ⟨k, k1, by rw [q1]; rfl, by rw [q2]; rfl, by rw [q3]; rfl, k3⟩
  · match d2, hlen with
    | [], _ =>
      rw [List.append_nil]
      intro z hz
      exact b2 z (List.dropLast_subset _ hz)
    | [z], _ => rw [List.dropLast_concat]; exact b2
  · intro h
    rw [c2 h, List.append_nil]; exact b2
  · rintro rfl
    apply Classical.byContradiction
    intro h
    obtain ⟨_, _, _, h⟩ := c4 h
    cases h
  · intro hH hop
    obtain ⟨e1, e2⟩ := b4 hH hop
    refine ⟨?_, ?_⟩
    · intro z hz
      rcases List.mem_append.mp hz with hz | hz
      · exact e1 z hz
      · rw [c3 z hz]; simp
    · rw [List.length_append]
      rcases e2 with e2 | e2
      · left; omega
      · right; omega

/-! ### The whole process -/

/-- What holds of the process on the kernel. -/
structure KInv (st : List (Ev QEv) → KState) (K : Kernel QEv) (w0 : MW) (s : Proc) (log : List (Option Nat × Ev QEv)) (B : Book) : Prop where
  gen : Genuine K w0.trace (log.map (·.2))
  each : ∀ j g, s.run j = some g → ∃ evs l0 l1 came left missed first, B.starts[j]? = some (none, evs) ∧
    byGo none l0 = ((B.starts.take j).map (·.2)).flatten ∧
    Hosted st w0.trace j (B.D j).args (B.D j).qh.fd log (g.pc = .stopped) evs l0 l1 came left missed first
  apart : ∀ j k g h, s.run j = some g → s.run k = some h → g.pc ≠ .stopped → h.pc ≠ .stopped → j ≠ k → (B.D j).qh.fd ≠ (B.D k).qh.fd

/-- The goroutine that stops closes its socket. -/
theorem estep_stops {env : Env} {K : Kernel QEv} {cancel : List (Ev QEv) → Bool} {policy : Policy} {g g' : AG} {v v' : W}
    (h : estep env K cancel policy g v = .ok (g', v')) (h' : g'.pc = .stopped) (hn : g.pc ≠ .stopped) :
    g.pc = .read .idle ∧ nfqClose K v = .ok ((), v') := by
  obtain ⟨n, pc⟩ := g
  cases pc with
  | stopped => exact absurd rfl hn
  | verdict c pc =>
    simp only [estep, GoM.bind_apply] at h
    obtain ⟨x, _, h⟩ := Res.bind_eq_ok.mp h
    cases h
    simp only at h'
    split at h' <;> cases h'
  | read pc =>
    cases pc with
    | idle =>
      simp only [estep] at h
      split at h
      · simp only [GoM.bind_apply] at h
        obtain ⟨x, hx, h⟩ := Res.bind_eq_ok.mp h
        cases h
        exact ⟨rfl, hx⟩
      · simp only [GoM.bind_apply] at h
        obtain ⟨x, _, h⟩ := Res.bind_eq_ok.mp h
        cases h
        cases h'
    | got =>
      simp only [estep, GoM.bind_apply] at h
      obtain ⟨x, _, h⟩ := Res.bind_eq_ok.mp h
      cases h
      cases h'
    | parsed =>
      simp only [estep, GoM.bind_apply] at h
      obtain ⟨x, _, h⟩ := Res.bind_eq_ok.mp h
      cases h
      cases h'
    | ready id mark pkt =>
      simp only [estep] at h
      split at h
      · cases h
      · split at h
        · simp only [GoM.bind_apply] at h
          obtain ⟨x, _, h⟩ := Res.bind_eq_ok.mp h
          cases h
          cases h'
        · simp only [GoM.bind_apply] at h
          obtain ⟨x, _, h⟩ := Res.bind_eq_ok.mp h
          cases h
          cases h'

section
variable {env : Env} {cancel : Nat → List (Ev QEv) → Bool} {policy : Nat → Policy} {todo0 : List StartArgs} {w0 w : MW} {s : Proc}
  {log : List (Option Nat × Ev QEv)} {B : Book}

/-- What is going on in a queue that has not been stopped. -/
theorem PInv.pending (P : PInv Stray env K cancel policy todo0 w0 w s log B) (he : env.e = .little) {j : Nat} {g : AG} (hg : s.run j = some g)
    (hn : g.pc ≠ .stopped) : Pending .little (B.D j).qh.fd (B.D j).args.cb (B.D j).args.priv 76800 (B.pend j) := by
  have hp := (P.each j g hg).pos
  rw [he] at hp
  cases hpc : g.pc with
  | stopped => exact absurd hpc hn
  | verdict c pc =>
    rw [hpc] at hp
    obtain ⟨_, d, id, payload, mark, _, h1, _, h3, h4, _⟩ := hp
    exact Or.inr (Or.inr ⟨d, id, payload, mark, h1, h3, h4⟩)
  | read pc =>
    rw [hpc] at hp
    cases pc with
    | idle => exact Or.inl hp.1
    | got => obtain ⟨⟨_, d, h, _⟩, _⟩ := hp; exact Or.inr (Or.inl ⟨_, h⟩)
    | parsed => obtain ⟨⟨r, h, _⟩, _⟩ := hp; exact Or.inr (Or.inl ⟨_, h⟩)
    | ready => obtain ⟨⟨d, h, _⟩, _⟩ := hp; exact Or.inr (Or.inl ⟨_, h⟩)

/-- What a queue does is about its own descriptor. -/
theorem PInv.own_on (P : PInv Stray env K cancel policy todo0 w0 w s log B) (he : env.e = .little) {j : Nat} {g : AG} (hg : s.run j = some g) :
    ∀ ev ∈ byGo (some j) log, EvOn (B.D j).qh.fd ev := by
  intro ev hev
  rw [P.events j g hg] at hev
  rcases List.mem_append.mp hev with hev | hev
  · obtain ⟨t, ht, hev⟩ := List.mem_flatten.mp hev
    obtain ⟨i, hi, rfl⟩ := List.mem_iff_getElem.mp ht
    exact (turn_on ((P.each j g hg).turns i _ (List.getElem?_eq_getElem hi)) ev hev).1
  · by_cases hs : g.pc = .stopped
    · have := (P.each j g hg).pos
      rw [hs] at this
      exact (closing_on this ev hev).1
    · exact pending_on (P.pending he hg hs) ev hev

/-- Nothing in its turns closes anything. -/
theorem PInv.no_close (P : PInv Stray env K cancel policy todo0 w0 w s log B) {j : Nat} {g : AG} (hg : s.run j = some g) :
    ∀ ev ∈ (B.ts j).flatten, NfQueue.isClose ev = false := by
  intro ev hev
  obtain ⟨t, ht, hev⟩ := List.mem_flatten.mp hev
  obtain ⟨i, hi, rfl⟩ := List.mem_iff_getElem.mp ht
  exact (turn_on ((P.each j g hg).turns i _ (List.getElem?_eq_getElem hi)) ev hev).2

variable (he : env.e = .little) (hK : Keeps .little F K st)
  (hpol : ∀ j a, todo0[j]? = some a → Takes (policy j) (clip a.size.toNat))
include he hK hpol

/-- The kernel keeps the queue of a goroutine that has not been stopped. -/
theorem KInv.tally (P : PInv Stray env K cancel policy todo0 w0 w s log B) (X : KInv st K w0 s log B) {j : Nat} {g : AG} (hg : s.run j = some g)
    (hn : g.pc ≠ .stopped) : ∃ came left rest pend acks, Tally (B.D j).qh.fd (B.D j).args.queueID.toNat (confOf (B.D j).args (B.D j).qh.fd) came left rest pend acks (st w.trace) := by
  obtain ⟨evs, l0, l1, came, left, missed, first, _, _, H⟩ := X.each j g hg
  obtain ⟨g2, e2⟩ := H.split X.gen
  have hts := (P.each j g hg).turns
  rw [he] at hts
  obtain ⟨del, new, hand, pend, acks, came', left', rest', _, t, _⟩ := ledger hK (hpol j _ (P.args j g hg)) H.tally g2 (H.live hn)
    (by rw [← H.own]; exact P.events j g hg) hts (P.pending he hg hn)
  rw [← e2, ← P.trace] at t
  exact ⟨came', left', rest', pend, acks, t⟩

/-- A new socket is nobody else's. -/
theorem KInv.fresh (P : PInv Stray env K cancel policy todo0 w0 w s log B) (X : KInv st K w0 s log B) {j : Nat} {g : AG} (hg : s.run j = some g)
    (hn : g.pc ≠ .stopped) {d t p fd : Nat} {rest : List (Ev QEv)} (hgen : Genuine K w.trace (.socket d t p (.ok fd) :: rest)) : fd ≠ (B.D j).qh.fd := by
  rintro rfl
  obtain ⟨came, left, rst, pend, acks, tl⟩ := X.tally he hK hpol P hg hn
  have hgen' : Genuine K w.trace ([.socket d t p (.ok (B.D j).qh.fd)] ++ rest) := hgen
  obtain ⟨g1, _⟩ := hgen'.split
  obtain ⟨s1, m1, hno, _, _⟩ := (Run.of_genuine hK g1).opened
  obtain ⟨_, t1, _⟩ := tl.meanwhile rfl m1
  exact hno _ (t1.owns rfl)

/-- Every step keeps it. -/
theorem keeps_carried (hidle : ∀ w, env.cbEffect w = w) :
    Carried Stray env K cancel policy todo0 w0 (fun _ s log B => KInv st K w0 s log B) where
  size := by
    intro w s log B _ _ evs fd d hd
    exact keeps_size hK hd
  deals := by
    intro w s log B P X j g hg hn d hd
    obtain ⟨came, left, rest, pend, acks, t⟩ := X.tally he hK hpol P hg hn
    rw [he]
    exact tally_deals hK rfl (clip_pos _) t hd
  step := by
    intro w s log B w' s' l B' i P X hM P'
    cases i with
    | none =>
      rcases hM with ⟨rfl, rfl, rfl, rfl⟩ | ⟨a, rest, r, v', evs, htodo, hnone, hc, htr, htr', rfl, hst, hold, hfail, hok, _⟩
      · rw [List.append_nil]; exact X
      · obtain ⟨evs', ht', hgen⟩ := records_createAndStart env a.queueID a.maxLen a.size (some a.cb) (some a.ecb) a.priv _ r v' hc
        have ht' : v'.trace = w.trace ++ evs' := ht'
        have hee : evs' = evs := List.append_cancel_left (ht'.symm.trans htr)
        subst hee
        have hgen : Genuine K w.trace evs' := hgen
        have hso := P'.starts s.next (r, evs') (by rw [hst, List.getElem?_append_right (by rw [P.nstarts]; exact Nat.le_refl _), P.nstarts, Nat.sub_self]; rfl)
        obtain ⟨a', ha', hout, hiff, hsk⟩ := hso
        rw [he] at hout
        have hoff : ∀ j g, s.run j = some g → g.pc ≠ .stopped → ∀ ev ∈ evs', EvOff (B.D j).qh.fd ev := by
          intro j g hg hn ev hev
          rcases start_on hout with ⟨_, h⟩ | ⟨fd, rest, rfl, h⟩
          · exact .of_silent (h ev hev)
          · exact (h ev hev).off (X.fresh he hK hpol P hg hn hgen)
        have hlt : ∀ j g, s.run j = some g → j < s.next := by
          intro j g hg
          apply Classical.byContradiction
          intro h
          rw [P.fresh j (by omega)] at hg; cases hg
        have hnew : ∀ g, s'.run s.next = some g → r = none := by
          intro g hg
          cases r with
          | none => rfl
          | some err => rw [hfail (by simp)] at hg; cases hg
        have hdiff : ∀ j g, s.run j = some g → g.pc ≠ .stopped → r = none → (B.D j).qh.fd ≠ (B'.D s.next).qh.fd := by
          intro j g hg hn hr h
          rcases start_on hout with ⟨h1, _⟩ | ⟨fd, rest, rfl, h1⟩
          · exact h1 hr
          · have h2 : (B'.D s.next).qh.fd = fd := h1 _ (hsk hr)
            exact X.fresh he hK hpol P hg hn hgen (by rw [h, h2])
        refine ⟨?_, ?_, ?_⟩
        · rw [log_snoc]
          exact X.gen.append (by rw [← P.trace]; exact hgen)
        · intro j g hj
          by_cases hk : j = s.next
          · subst hk
            have hr := hnew g hj
            subst hr
            obtain ⟨h1, h2, h3⟩ := hok rfl
            have hgi : g = ⟨0, .read .idle⟩ := Option.some.inj (hj.symm.trans h1)
            subst hgi
            obtain ⟨qh, came, left, missed, first, h4, h5, h6⟩ := C132_start env K F st (by rw [he]; exact hK) a.queueID a.maxLen a.size (some a.cb) (some a.ecb) a.priv _ v' hc
            have hqh : qh = (B'.D s.next).qh := Option.some.inj (h4.symm.trans h3)
            subst hqh
            have haa : a' = a := by
              have := P'.args s.next _ hj
              rw [h2] at this
              exact Option.some.inj (ha'.symm.trans this)
            subst haa
            rw [h2]
            refine ⟨evs', log, [], came, left, missed, first, ?_, ?_, by simp, P.quiet _ hnone, hout, hsk rfl, h5, ?_, ?_, fun h => (by cases h)⟩
            · rw [hst, List.getElem?_append_right (by rw [P.nstarts]; exact Nat.le_refl _), P.nstarts, Nat.sub_self]; rfl
            · rw [hst, List.take_append_of_le_length (by rw [P.nstarts]; exact Nat.le_refl _), ← P.nstarts, List.take_length]; exact P.main
            · rw [← P.trace, ← htr]; exact h6
            · intro _ x hx; cases hx
          · obtain ⟨h1, h2⟩ := hold j hk
            rw [h1] at hj
            rw [h2]
            obtain ⟨ev, l0, l1, came, left, missed, first, h3, h4, H⟩ := X.each j g hj
            refine ⟨ev, l0, l1 ++ evs'.map (none, ·), came, left, missed, first, ?_, ?_, H.others ?_ (byGo_map_other (by simp) _)⟩
            · rw [hst, List.getElem?_append_left (by rw [P.nstarts]; exact hlt j g hj)]; exact h3
            · rw [hst, List.take_append_of_le_length (by rw [P.nstarts]; exact Nat.le_of_lt (hlt j g hj))]; exact h4
            · intro hn x hx
              obtain ⟨y, hy, rfl⟩ := List.mem_map.mp hx
              exact .inr (hoff j g hj hn y hy)
        · intro j k g h hj hk hgn hhn hne
          by_cases h1 : j = s.next
          · have h2 : k ≠ s.next := by rintro rfl; exact hne h1
            subst h1
            obtain ⟨h3, h4⟩ := hold k h2
            rw [h3] at hk
            rw [h4]
            exact (hdiff k h hk hhn (hnew g hj)).symm
          · obtain ⟨h3, h4⟩ := hold j h1
            rw [h3] at hj
            rw [h4]
            by_cases h2 : k = s.next
            · subst h2
              exact hdiff j g hj hgn (hnew h hk)
            · obtain ⟨h5, h6⟩ := hold k h2
              rw [h5] at hk
              rw [h6]
              exact X.apart j k g h hj hk hgn hhn hne
    | some k =>
      rcases hM with ⟨rfl, rfl, rfl, rfl⟩ | ⟨g0, g', v', es, hg0, hes, htr, htr', rfl, hD, hst, hrun, _⟩
      · rw [List.append_nil]; exact X
      · obtain ⟨es', ht', hgen⟩ := records_estep hidle K (cancel k) (policy k) g0 _ g' v' hes
        have ht' : v'.trace = w.trace ++ es' := ht'
        have hee : es' = es := List.append_cancel_left (ht'.symm.trans htr)
        subst hee
        have hgen : Genuine K w.trace es' := hgen
        have hstop : g0.pc = .stopped → es' = [] ∧ g' = g0 := by
          intro h
          obtain ⟨n, pc⟩ := g0
          have h : pc = .stopped := h
          subst h
          have hes : Res.ok (_, w.view k) = Res.ok (g', v') := hes
          simp only [Res.ok.injEq, Prod.mk.injEq] at hes
          obtain ⟨e1, e2⟩ := hes
          refine ⟨?_, e1.symm⟩
          rw [← e2] at htr
          have htr : w.trace = w.trace ++ es' := htr
          simpa using htr.symm
        have hk' : s'.run k = some g' := by rw [hrun]; simp
        have hon : ∀ ev ∈ es', EvOn (B.D k).qh.fd ev := by
          intro ev hev
          have := P'.own_on he hk' ev (by rw [byGo_same]; exact List.mem_append_right _ hev)
          rw [hD] at this
          exact this
        refine ⟨?_, ?_, ?_⟩
        · rw [log_snoc]
          exact X.gen.append (by rw [← P.trace]; exact hgen)
        · intro j g hj
          rw [hD, hst]
          by_cases hjk : j = k
          · subst hjk
            have hgg : g = g' := Option.some.inj (hj.symm.trans hk')
            subst hgg
            obtain ⟨ev, l0, l1, came, left, missed, first, h3, h4, H⟩ := X.each j g0 hg0
            by_cases h0 : g0.pc = .stopped
            · obtain ⟨rfl, rfl⟩ := hstop h0
              exact ⟨ev, l0, l1, came, left, missed, first, h3, h4, by simpa using H⟩
            · by_cases h1 : g.pc = .stopped
              · obtain ⟨hidl, hcl⟩ := estep_stops hes h1 h0
                have hpos := (P.each j g0 hg0).pos
                rw [hidl] at hpos
                have hpend : B.pend j = [] := hpos.1
                obtain ⟨cl, hcl2, hce⟩ := nfqClose_spec K (P.each j g0 hg0).rd.setup.serving.handle
                rw [hcl] at hcl2
                simp only [Res.ok.injEq, Prod.mk.injEq, true_and] at hcl2
                have hcl3 : cl = es' := by
                  have : v'.trace = w.trace ++ cl := by rw [hcl2]; rfl
                  exact List.append_cancel_left (this.symm.trans htr)
                subst hcl3
                refine ⟨ev, l0, _, came, left, missed, first, h3, h4, H.halts h0 h1 hce ?_⟩
                rw [← H.own, P.events j g0 hg0, hpend, List.append_nil]
                exact P.no_close hg0
              · exact ⟨ev, l0, _, came, left, missed, first, h3, h4, H.acts h0 h1 es'⟩
          · have hj' : s.run j = some g := by rw [hrun] at hj; simpa [hjk] using hj
            obtain ⟨ev, l0, l1, came, left, missed, first, h3, h4, H⟩ := X.each j g hj'
            refine ⟨ev, l0, l1 ++ es'.map (some k, ·), came, left, missed, first, h3, h4, H.others ?_ (byGo_map_other (by simpa using fun h => hjk h.symm) _)⟩
            intro hn x hx
            obtain ⟨y, hy, rfl⟩ := List.mem_map.mp hx
            by_cases h0 : g0.pc = .stopped
            · rw [(hstop h0).1] at hy; cases hy
            · exact .inr ((hon y hy).off (X.apart k j g0 g hg0 hj' h0 hn (fun h => hjk h.symm)))
        · have back : ∀ j g, s'.run j = some g → g.pc ≠ .stopped → ∃ g1, s.run j = some g1 ∧ g1.pc ≠ .stopped := by
            intro j g hj hn
            by_cases hjk : j = k
            · subst hjk
              have hgg : g = g' := Option.some.inj (hj.symm.trans hk')
              subst hgg
              refine ⟨g0, hg0, fun h => hn ?_⟩
              rw [(hstop h).2]; exact h
            · rw [hrun] at hj
              exact ⟨g, by simpa [hjk] using hj, hn⟩
          intro j i g h hj hi hgn hhn hne
          obtain ⟨g1, x1, x2⟩ := back j g hj hgn
          obtain ⟨g2, y1, y2⟩ := back i h hi hhn
          rw [hD]
          exact X.apart j i g1 g2 x1 y1 x2 y2 hne

end

theorem KInv.init (st : List (Ev QEv) → KState) (K : Kernel QEv) (w0 : MW) (todo : List StartArgs) (B : Book) : KInv st K w0 (atStart todo) [] B :=
  ⟨.nil, (fun j g h => by cases h), fun j k g h hj => by cases hj⟩

/-- Turns close nothing, so what closes is known. -/
theorem closes_apart {a b x y : List (Ev QEv)} (h : a ++ b = x ++ y) (ha : ∀ ev ∈ a, NfQueue.isClose ev = false) (hx : ∀ ev ∈ x, NfQueue.isClose ev = false)
    (hb : ∀ ev ∈ b, NfQueue.isClose ev = true) (hy : ∀ ev ∈ y, NfQueue.isClose ev = true) : a = x ∧ b = y := by
  have h1 := congrArg (List.filter NfQueue.isClose) h
  have f1 : a.filter NfQueue.isClose = [] := List.filter_eq_nil_iff.mpr (fun ev hev => by simp [ha ev hev])
  have f2 : x.filter NfQueue.isClose = [] := List.filter_eq_nil_iff.mpr (fun ev hev => by simp [hx ev hev])
  rw [List.filter_append, List.filter_append, f1, f2, List.filter_eq_self.mpr hb, List.filter_eq_self.mpr hy] at h1
  have h1 : b = y := h1
  subst h1
  exact ⟨List.append_cancel_right h, rfl⟩

/-- When a queue has been started with arguments `a` on socket `fd`: `missed ++ first` wait in it; messages about `first` lie in the socket,
in order, and an acknowledgement for each of `missed`, of which there are at most two. -/
structure Begins (a : StartArgs) (fd : Nat) (missed first : List Pkt) (s0 : KState) : Prop where
  few : missed.length ≤ 2
  waiting : ∃ k, s0.queues a.queueID.toNat = some k ∧ k.owner = .sock fd ∧ k.mode = 2 ∧ k.range = clip a.size.toNat ∧ k.maxLen = a.maxLen.toNat ∧
    k.waiting = missed ++ first
  notes : (s0.inbox fd).filter Note.isPacket = first.map (Pkt.note (clip a.size.toNat))
  acks : (s0.inbox fd).filter (fun n => !n.isPacket) = List.replicate missed.length (.ack 0)

/-- A queue in whose goroutine `turns` and `rest` were done, `after` having happened since it was started (`tr1`): the books of a queue that
still runs; or those of a queue at the moment its socket was closed: whatever waited then was dropped, in order. -/
inductive Accounted (st : List (Ev QEv) → KState) (policy : Policy) (a : StartArgs) (j fd : Nat) (tr1 : List (Ev QEv)) (after : List (Option Nat × Ev QEv))
    (missed first : List Pkt) (turns : List (List (Ev QEv))) (rest : List (Ev QEv)) (del : List Dealt) : Prop
  | runs {new hand pend : List Pkt} : Pending .little fd a.cb a.priv 76800 rest →
      Ledger policy fd a.queueID.toNat (clip a.size.toNat) (st tr1) (st (tr1 ++ after.map (·.2))) missed first (turns.flatten ++ rest) rest del new hand pend →
      Accounted st policy a j fd tr1 after missed first turns rest del
  | closed {la lc : List (Option Nat × Ev QEv)} {new pend more : List Pkt} {late : List Gone} : NfQueue.CloseEvs fd rest →
      after = la ++ rest.map (some j, ·) ++ lc → byGo (some j) la = turns.flatten → byGo (some j) lc = [] →
      Ledger policy fd a.queueID.toNat (clip a.size.toNat) (st tr1) (st (tr1 ++ la.map (·.2))) missed first turns.flatten [] del new [] pend →
      (st (tr1 ++ after.map (·.2))).leftFrom a.queueID.toNat = (st (tr1 ++ la.map (·.2))).leftFrom a.queueID.toNat ++
        (missed ++ unsentOf del ++ pend ++ more).map (fun p => ⟨a.queueID.toNat, p, 0⟩) ++ late →
      Accounted st policy a j fd tr1 after missed first turns rest del

/-- The account of a queue that runs. -/
theorem accounted {env : Env} {cancel : Nat → List (Ev QEv) → Bool} {policy : Nat → Policy} {todo0 : List StartArgs} {w0 w : MW} {s : Proc}
    {log : List (Option Nat × Ev QEv)} {B : Book} (he : env.e = .little) (hK : Keeps .little F K st)
    (hpol : ∀ j a, todo0[j]? = some a → Takes (policy j) (clip a.size.toNat))
    (P : PInv Stray env K cancel policy todo0 w0 w s log B) (X : KInv st K w0 s log B) {j : Nat} {g : AG} (hg : s.run j = some g) :
    ∃ evs before after missed first del, B.starts[j]? = some (none, evs) ∧ log = before ++ evs.map (none, ·) ++ after ∧
      (byGo (some j) before = [] ∧ byGo none before = ((B.starts.take j).map (·.2)).flatten ∧
        ∃ came left, Hosted st w0.trace j (B.D j).args (B.D j).qh.fd log (g.pc = .stopped) evs before after came left missed first) ∧
      Begins (B.D j).args (B.D j).qh.fd missed first (st (w0.trace ++ before.map (·.2) ++ evs)) ∧
      Accounted st (policy j) (B.D j).args j (B.D j).qh.fd (w0.trace ++ before.map (·.2) ++ evs) after missed first (B.ts j) (B.pend j) del ∧
      (Healthy K st → (∀ x ∈ del, x.sent ≠ some false) ∧ ((B.ts j).length ≤ del.length + missed.length ∨ first.length ≤ del.length)) := by
  obtain ⟨evs, l0, l1, came, left, missed, first, h1, hm, H⟩ := X.each j g hg
  obtain ⟨g2, e2⟩ := H.split X.gen
  have hts := (P.each j g hg).turns
  rw [he] at hts
  have hev := P.events j g hg
  rw [H.own] at hev
  have hb : Begins (B.D j).args (B.D j).qh.fd missed first (st (w0.trace ++ l0.map (·.2) ++ evs)) := by
    obtain ⟨k, k1, k2, k3⟩ := H.tally.queue
    obtain ⟨q1, q2, q3, q4⟩ := conf_parts k2
    exact ⟨H.few, ⟨k, k1, by rw [q1]; rfl, by rw [q2]; rfl, by rw [q3]; rfl, by rw [q4]; rfl, k3⟩, H.tally.notes, H.tally.acks⟩
  have hsk : ∃ d t p, .socket d t p (.ok (B.D j).qh.fd) ∈ w0.trace ++ l0.map (·.2) ++ evs := ⟨_, _, _, List.mem_append_right _ H.sock⟩
  by_cases hn : g.pc = .stopped
  · obtain ⟨la, lb, lc, rfl, d1, d2, d3, d4⟩ := H.dead hn
    rw [byGo_append, byGo_append, d4, List.append_nil, byGo_map_same] at hev
    have hpos := (P.each j g hg).pos
    rw [hn] at hpos
    obtain ⟨ea, rfl⟩ := closes_apart hev d3 (P.no_close hg) (fun ev h => (closing_on d2 ev h).2) (fun ev h => (closing_on hpos ev h).2)
    rw [List.map_append, List.map_append, map_snd] at g2
    obtain ⟨g3, g4⟩ := g2.split
    obtain ⟨g5, g6⟩ := g3.split
    obtain ⟨del, new, hand, pend, acks, came', left', rest', L, t, hh, hr, _, hH⟩ := ledger hK (hpol j _ (P.args j g hg)) H.tally g5 d1
      (by rw [ea]; exact (List.append_nil _).symm) hts (.inl rfl)
    have := hh rfl
    subst this
    obtain ⟨more, late, c1, _⟩ := t.closed rfl (B.D j).args.queueID.isLt d2 (Run.of_genuine hK g6)
    obtain ⟨l, hl⟩ := more_left (Run.more (Run.of_genuine hK g4)) (B.D j).args.queueID.toNat
    rw [← List.append_assoc] at hl
    refine ⟨evs, l0, _, missed, first, del, h1, H.cut, ⟨H.before, hm, _, _, H⟩, hb, .closed (more := more) (late := late ++ l) hpos rfl ea d4 (by rw [← ea]; exact L) ?_, fun h => hH h hsk⟩
    rw [List.map_append, List.map_append, map_snd, ← List.append_assoc, ← List.append_assoc, hl, c1, t.left, hr]
    simp
  · obtain ⟨del, new, hand, pend, acks, came', left', rest', L, t, _, _, _, hH⟩ := ledger hK (hpol j _ (P.args j g hg)) H.tally g2 (H.live hn) hev hts (P.pending he hg hn)
    exact ⟨evs, l0, l1, missed, first, del, h1, H.cut, ⟨H.before, hm, _, _, H⟩, hb, .runs (P.pending he hg hn) (by rw [← hev]; exact L), fun h => hH h hsk⟩

/-- What is seen of queue `j` of the process: the main goroutine has not tried to start it yet; it could not be started; or it runs (or ran)
as in C119 — but that it may be sent acknowledgements left over from its start, which it takes for errors — and its packets are
accounted for. -/
def Fate (st : List (Ev QEv) → KState) (tr0 : List (Ev QEv)) (policy : Policy) (a : StartArgs) (j : Nat) (cancelled : Prop) (q : NfQueue)
    (starts : List (Option Err × List (Ev QEv))) (log : List (Option Nat × Ev QEv)) (more : List Pkt → List Pkt → List Dealt → List (List (Ev QEv)) → Prop) : Prop :=
  (starts[j]? = none ∧ byGo (some j) log = []) ∨
  (∃ err evs, starts[j]? = some (some err, evs) ∧ StartOut .little a.queueID.toNat a.maxLen.toNat a.size.toNat (some err) evs ∧ byGo (some j) log = []) ∨
  ∃ evs fd turns rest before after missed first del,
    starts[j]? = some (none, evs) ∧ StartOut .little a.queueID.toNat a.maxLen.toNat a.size.toNat none evs ∧ .socket 16 3 12 (.ok fd) ∈ evs ∧
    log = before ++ evs.map (none, ·) ++ after ∧ byGo (some j) before = [] ∧ byGo none before = ((starts.take j).map (·.2)).flatten ∧
    Answering Stray .little policy a fd cancelled q (byGo (some j) log) turns rest ∧
    Begins a fd missed first (st (tr0 ++ before.map (·.2) ++ evs)) ∧
    Accounted st policy a j fd (tr0 ++ before.map (·.2) ++ evs) after missed first turns rest del ∧ more missed first del turns

theorem fate {env : Env} {cancel : Nat → List (Ev QEv) → Bool} {policy : Nat → Policy} {todo0 : List StartArgs} {w0 w : MW} {s : Proc}
    {log : List (Option Nat × Ev QEv)} {B : Book} (he : env.e = .little) (hK : Keeps .little F K st)
    (hpol : ∀ j a, todo0[j]? = some a → Takes (policy j) (clip a.size.toNat))
    (P : PInv Stray env K cancel policy todo0 w0 w s log B) (X : KInv st K w0 s log B) {j : Nat} {a : StartArgs} (ha : todo0[j]? = some a) :
    Fate st w0.trace (policy j) a j (∃ l1 l2, log = l1 ++ l2 ∧ cancel j (w0.trace ++ l1.map (·.2)) = true) (w.st j) B.starts log
      (fun missed first del turns => Healthy K st → (∀ x ∈ del, x.sent ≠ some false) ∧ (turns.length ≤ del.length + missed.length ∨ first.length ≤ del.length)) := by
  cases hj : B.starts[j]? with
  | none =>
    refine Or.inl ⟨hj, P.quiet j (P.fresh j ?_)⟩
    have := List.getElem?_eq_none_iff.mp hj
    have := P.nstarts
    omega
  | some x =>
    obtain ⟨r, evs⟩ := x
    obtain ⟨a', ha', hout, hiff, hfd⟩ := P.starts j _ hj
    have haa : a' = a := Option.some.inj (ha'.symm.trans ha)
    subst haa
    rw [he] at hout
    cases r with
    | some err =>
      refine Or.inr (Or.inl ⟨err, evs, hj, hout, P.quiet j ?_⟩)
      cases hr : s.run j with
      | none => rfl
      | some g => exact absurd (hiff.mpr ⟨g, hr⟩) (by simp)
    | none =>
      obtain ⟨g, hg⟩ := hiff.mp rfl
      have hargs : (B.D j).args = a' := Option.some.inj ((P.args j g hg).symm.trans ha)
      have hA := P.answering hg
      obtain ⟨evs1, before, after, missed, first, del, h1, h2, h3, h4, h5, h6⟩ := accounted he hK hpol P X hg
      rw [hj] at h1
      have : evs1 = evs := by cases h1; rfl
      subst this
      rw [hargs] at h4 h5 hA
      rw [he] at hA
      exact Or.inr (Or.inr ⟨evs1, (B.D j).qh.fd, B.ts j, B.pend j, before, after, missed, first, del, hj, hout, hfd rfl, h2, h3.1, h3.2.1, hA, h4, h5, h6⟩)

/-- C144: an application that starts queues one after the other and answers packets in its callbacks, on a little-endian kernel that keeps
packet queues, whatever else uses the kernel, under every schedule of its goroutines.  Nothing crashes; each queue that was started is
fed by its own kernel queue: every packet that waited when it was started or came later — but for at most two that were taken
for acknowledgements while it was started — is given to its own callback exactly once, in the order in which it came, with its id, mark and
bytes; it leaves the kernel queue exactly with the callback's answer once that has been sent, and waits otherwise; when the socket is
closed, what still waits is dropped.  The kernel does not do anything else to the packets of the queue. -/
theorem C144_several (env : Env) (he : env.e = .little) (hidle : ∀ w, env.cbEffect w = w) (K : Kernel QEv) (F : Nat → Prop) (st : List (Ev QEv) → KState)
    (hK : Keeps .little F K st) (cancel : Nat → List (Ev QEv) → Bool) (policy : Nat → Policy) (todo : List StartArgs)
    (hpol : ∀ j a, todo[j]? = some a → Takes (policy j) (clip a.size.toNat)) (w0 : MW) (is : List (Option Nat)) :
    ∃ (s : Proc) (log : List (Option Nat × Ev QEv)) (w : MW) (starts : List (Option Err × List (Ev QEv))),
      psched env K cancel policy is (atStart todo) w0 = .ok ((s, log), w) ∧ w.trace = w0.trace ++ log.map (·.2) ∧
      starts.length = min todo.length (is.count none) ∧ byGo none log = (starts.map (·.2)).flatten ∧
      ∀ j a, todo[j]? = some a → Fate st w0.trace (policy j) a j (∃ l1 l2, log = l1 ++ l2 ∧ cancel j (w0.trace ++ l1.map (·.2)) = true) (w.st j) starts log
        (fun missed first del turns =>
          -- if the kernel does not fail
          Healthy K st → (∀ x ∈ del, x.sent ≠ some false) ∧ (turns.length ≤ del.length + missed.length ∨ first.length ≤ del.length)) := by
  obtain ⟨s, w, log, B, h1, P, X, hnx, _⟩ := carried_sched hidle (by rw [he]; exact stray_fails) (keeps_carried (w0 := w0) (cancel := cancel) he hK hpol hidle) is
    (PInv.init env K cancel policy todo w0) (KInv.init st K w0 todo _)
  rw [List.nil_append] at P X
  refine ⟨s, log, w, B.starts, h1, P.trace, ?_, P.main, fun j a ha => fate he hK hpol P X ha⟩
  rw [P.nstarts, hnx]; show min _ (0 + _) = _; rw [Nat.zero_add]

/-- What has been started has its place in the log. -/
theorem cut_unique {es : List (Ev QEv)} {a b x y : List (Option Nat × Ev QEv)} (he : es ≠ [])
    (h : a ++ es.map (none, ·) ++ x = b ++ es.map (none, ·) ++ y) (hb : byGo none a = byGo none b) : a = b ∧ x = y := by
  have key : ∀ {a c x y : List (Option Nat × Ev QEv)}, byGo none c = [] → es.map ((none : Option Nat), ·) ++ x = c ++ (es.map (none, ·) ++ y) → c = [] := by
    intro a c x y hc h
    cases c with
    | nil => rfl
    | cons z c =>
      cases es with
      | nil => exact absurd rfl he
      | cons ev es =>
        simp only [List.map_cons, List.cons_append, List.cons.injEq] at h
        rw [← h.1, byGo_cons_same] at hc
        cases hc
  rw [List.append_assoc, List.append_assoc] at h
  have hab : a = b := by
    rcases List.append_eq_append_iff.mp h with ⟨c, rfl, h2⟩ | ⟨c, rfl, h2⟩
    · rw [byGo_append] at hb
      have hc : byGo none c = [] := by simpa using hb
      rw [key (a := a) hc h2, List.append_nil]
    · rw [byGo_append] at hb
      have hc : byGo none c = [] := by simpa using hb
      rw [key (a := b) hc h2, List.append_nil]
  subst hab
  exact ⟨rfl, List.append_cancel_left (List.append_cancel_left h)⟩

theorem pending_short {e : Endian} {fd cb priv size : Nat} {t : List (Ev QEv)} (h : Pending e fd cb priv size t) : t.length ≤ 2 := by
  rcases h with rfl | ⟨r, rfl⟩ | ⟨d, id, payload, mark, _, _, rfl⟩ <;> simp

theorem turn_long {odd : List Byte → Prop} {e : Endian} {fd q cb ecb priv size : Nat} {ans : List Byte → Nat → Nat → Answer} {t : List (Ev QEv)}
    (h : AnswerTurn odd e fd q cb ecb priv size ans t) : 2 ≤ t.length := by
  rcases h with ⟨_, _, _, _, _, rfl⟩ | ⟨_, _, _, _, _, _, _, _, rfl, _⟩ <;> simp

/-- What came until `l1` has happened is given to the application in the turns that begin later, but for as many turns as packets were
missed. -/
theorem served_since (hK : Keeps .little F K st) {policy : Policy} {a : StartArgs} {fd j : Nat} (hpol : Takes policy (clip a.size.toNat)) {tr : List (Ev QEv)} {came missed first : List Pkt} {left : List Gone}
    {l1 l2 : List (Option Nat × Ev QEv)} {ts more : List (List (Ev QEv))} {rest1 rest : List (Ev QEv)}
    (hT : Tally fd a.queueID.toNat (confOf a fd) came left missed first missed.length (st tr)) (hg : Genuine K tr ((l1 ++ l2).map (·.2))) (ho : OffBut j fd (l1 ++ l2))
    (hby1 : byGo (some j) l1 = ts.flatten ++ rest1) (hby : byGo (some j) (l1 ++ l2) = (ts ++ more).flatten ++ rest)
    (hts : ∀ i t, (ts ++ more)[i]? = some t → AnswerTurn Stray .little fd a.queueID.toNat a.cb a.ecb a.priv 76800 (policy (packetsIn ((ts ++ more).take i))) t)
    (hp1 : Pending .little fd a.cb a.priv 76800 rest1) (hH : Healthy K st)
    (hs : ∃ d t p, .socket d t p (.ok fd) ∈ tr) :
    ∃ new, (st (tr ++ l1.map (·.2))).cameTo a.queueID.toNat = (st tr).cameTo a.queueID.toNat ++ new ∧
      ((first ++ new).length ≤ (shownIn (byGo (some j) (l1 ++ l2))).length ∨
        more.length + (shownIn (byGo (some j) l1)).length ≤ (shownIn (byGo (some j) (l1 ++ l2))).length + missed.length + 1) := by
  have hg' := hg
  rw [List.map_append] at hg'
  obtain ⟨g1, g2⟩ := hg'.split
  have htake : ∀ n, n ≤ (ts ++ more).length → ∀ i t, ((ts ++ more).take n)[i]? = some t →
      AnswerTurn Stray .little fd a.queueID.toNat a.cb a.ecb a.priv 76800 (policy (packetsIn (((ts ++ more).take n).take i))) t := by
    intro n hn i t h
    have hi : i < n := by
      apply Classical.byContradiction
      intro hc
      rw [List.getElem?_take_eq_none (by omega)] at h
      cases h
    rw [List.getElem?_take_of_lt hi] at h
    rw [List.take_take, Nat.min_eq_left (by omega)]
    exact hts i t h
  obtain ⟨new, hnew⟩ := more_came (Run.more (Run.of_genuine hK g1)) a.queueID.toNat
  refine ⟨new, hnew, ?_⟩
  rw [byGo_append] at hby
  rw [hby1] at hby
  cases more with
  | nil => right; rw [byGo_append, shownIn_append, List.length_append, List.length_nil]; omega
  | cons t more =>
    have hlong : 2 ≤ t.length := turn_long (hts ts.length t (by simp))
    have hshort := pending_short hp1
    rw [List.flatten_append, List.flatten_cons, List.append_assoc, List.append_assoc, List.append_assoc] at hby
    have hby := List.append_cancel_left hby
    obtain ⟨t2, rfl⟩ : ∃ t2, t = rest1 ++ t2 := by
      rcases List.append_eq_append_iff.mp hby with ⟨c, h1, _⟩ | ⟨c, h1, _⟩
      · exact ⟨c, h1⟩
      · have := congrArg List.length h1
        rw [List.length_append] at this
        have hc : c = [] := List.length_eq_zero_iff.mp (by omega)
        subst hc
        exact ⟨[], by rw [List.append_nil] at h1 ⊢; exact h1.symm⟩
    rw [List.append_assoc] at hby
    have hby := List.append_cancel_left hby
    obtain ⟨x, y, rfl, hx, hy⟩ := byGo_split (some j) l2 _ _ hby
    obtain ⟨y1, y2, rfl, hy1, hy2⟩ := byGo_split (some j) y _ _ hy
    rw [List.map_append, List.map_append] at g2
    obtain ⟨g3, g4⟩ := g2.split
    obtain ⟨g5, _⟩ := g4.split
    have hbx : byGo (some j) (l1 ++ x) = (ts ++ [rest1 ++ t2]).flatten ++ [] := by
      rw [byGo_append, hby1, hx]; simp
    have htt : (ts ++ (rest1 ++ t2) :: more).take (ts.length + 1) = ts ++ [rest1 ++ t2] := by
      rw [List.take_append, List.take_of_length_le (by omega), Nat.add_sub_cancel_left]; rfl
    have h1 := htake (ts.length + 1) (by simp)
    rw [htt] at h1
    obtain ⟨del, new', hand, pend, acks, came', left', rest', L, t, hh, _, hac, _⟩ := ledger hK hpol hT (l := l1 ++ x) (by rw [List.map_append]; exact g1.append g3)
      (fun z hz => ho z (by rcases List.mem_append.mp hz with h | h <;> simp [h])) hbx h1 (.inl rfl)
    have := hh rfl
    subst this
    have hlen := congrArg List.length L.order
    simp only [List.append_nil, List.length_append, List.length_map] at hlen
    have hnn : new.length ≤ new'.length := by
      obtain ⟨l, hl⟩ := more_came (Run.more (Run.of_genuine hK g3)) a.queueID.toNat
      have h2 := L.came
      rw [List.map_append, ← List.append_assoc, hl, hnew, List.append_assoc] at h2
      have := congrArg List.length (List.append_cancel_left h2)
      rw [List.length_append] at this
      omega
    have hsa := congrArg List.length L.tells.shown
    rw [List.length_map, byGo_append, shownIn_append, List.length_append] at hsa
    obtain ⟨d', n', p', a', b1, _, _, b4⟩ := turns_account (policy := policy) (cb := a.cb) (ecb := a.ecb) (priv := a.priv) (j := j) hK rfl (clip_pos _) hpol more
      (packetsIn (ts ++ [rest1 ++ t2])) _ y1 _ _ _ _ _ (by
        intro i u hu
        have := hts (ts.length + 1 + i) u (by
          rw [List.getElem?_append_right (by omega), show ts.length + 1 + i - ts.length = i + 1 by omega]
          exact hu)
        rw [List.take_append, List.take_of_length_le (by omega), show ts.length + 1 + i - ts.length = i + 1 by omega, List.take_succ_cons] at this
        have e : packetsIn (ts ++ (rest1 ++ t2) :: more.take i) = packetsIn (ts ++ [rest1 ++ t2]) + (more.take i).flatten.countP isPacket := by
          unfold packetsIn
          rw [← List.countP_append, ← List.flatten_append]; simp
        rw [e] at this
        exact this) (by rw [List.map_append, ← List.append_assoc]; exact g5) (fun z hz => ho z (by simp [hz])) hy1 t
    obtain ⟨_, hb⟩ := b4 hH (by obtain ⟨d, t, p, h⟩ := hs; exact ⟨d, t, p, List.mem_append_left _ h⟩)
    have hsb := congrArg List.length b1.shown
    rw [List.length_map, ← hy1] at hsb
    have htot : (shownIn (byGo (some j) (l1 ++ (x ++ (y1 ++ y2))))).length = del.length + d'.length + (shownIn (byGo (some j) y2)).length := by
      simp only [byGo_append, shownIn_append, List.length_append]; omega
    rw [htot, List.length_append, List.length_cons]
    rcases hb with hb | hb
    · right; omega
    · left; omega

/-- C144, on a kernel that does not fail: whatever has come to a queue by any moment (but for `missed`) has been given to the application once
its goroutine, not cancelled, has made more than 13 steps for each of those packets that was yet to be given, for each of `missed`, and
13 more. -/
theorem C144_progress (env : Env) (he : env.e = .little) (hidle : ∀ w, env.cbEffect w = w) (K : Kernel QEv) (F : Nat → Prop) (st : List (Ev QEv) → KState)
    (hK : Keeps .little F K st) (hH : Healthy K st) (cancel : Nat → List (Ev QEv) → Bool) (policy : Nat → Policy) (todo : List StartArgs)
    (hpol : ∀ j a, todo[j]? = some a → Takes (policy j) (clip a.size.toNat)) (w0 : MW) (is1 is2 : List (Option Nat)) :
    ∃ s1 log1 w1 s2 log2 w2, psched env K cancel policy is1 (atStart todo) w0 = .ok ((s1, log1), w1) ∧
      psched env K cancel policy is2 s1 w1 = .ok ((s2, log2), w2) ∧ w1.trace = w0.trace ++ log1.map (·.2) ∧ w2.trace = w1.trace ++ log2.map (·.2) ∧
      ∃ starts1 starts2 : List (Option Err × List (Ev QEv)), starts1.length = min todo.length (is1.count none) ∧
      (starts1 ++ starts2).length = min todo.length (is1.count none + is2.count none) ∧
      byGo none log1 = (starts1.map (·.2)).flatten ∧ byGo none log2 = (starts2.map (·.2)).flatten ∧
      ∀ j, Runs s1 j → ∃ a fd turns rest evs before after missed first del new, todo[j]? = some a ∧ starts1[j]? = some (none, evs) ∧
        .socket 16 3 12 (.ok fd) ∈ evs ∧ log1 = before ++ evs.map (none, ·) ++ after ∧
        byGo (some j) before = [] ∧ byGo none before = ((starts1.take j).map (·.2)).flatten ∧
        Answering Stray .little (policy j) a fd (∃ l1 l2, log1 ++ log2 = l1 ++ l2 ∧ cancel j (w0.trace ++ l1.map (·.2)) = true)
          (w2.st j) (byGo (some j) (log1 ++ log2)) turns rest ∧
        Begins a fd missed first (st (w0.trace ++ before.map (·.2) ++ evs)) ∧
        Accounted st (policy j) a j fd (w0.trace ++ before.map (·.2) ++ evs) (after ++ log2) missed first turns rest del ∧
        (∀ x ∈ del, x.sent ≠ some false) ∧
        (NfQueue.CloseEvs fd rest ∨
          (st w1.trace).cameTo a.queueID.toNat = (st (w0.trace ++ before.map (·.2) ++ evs)).cameTo a.queueID.toNat ++ new ∧
          (is2.count (some j) ≤ 13 * ((first ++ new).length - (shownIn (byGo (some j) log1)).length + missed.length + 1) ∨
            (first ++ new).length ≤ del.length)) := by
  obtain ⟨s1, w1, log1, B1, s2, w2, log2, B2, h1, h2, P1, P2, X1, X2, S, hn1, hn2, hn⟩ := carried_twice hidle (by rw [he]; exact stray_fails)
    (keeps_carried (w0 := w0) (cancel := cancel) he hK hpol hidle) (fun w s log B B' h hD _ _ hS => by
      refine ⟨h.gen, fun j g hg => ?_, fun j k g g' => ?_⟩
      · rw [hD, hS]; exact h.each j g hg
      · rw [hD]; exact h.apart j k g g') is1 is2 (PInv.init env K cancel policy todo w0) (KInv.init st K w0 todo _)
  rw [List.nil_append] at P1 P2 X1 X2
  have hn1 : s1.next = min todo.length (0 + is1.count none) := hn1
  obtain ⟨starts2, hst⟩ := S.starts
  have hmain := P2.main
  rw [← hst, byGo_append, P1.main, List.map_append, List.flatten_append] at hmain
  refine ⟨s1, log1, w1, s2, log2, w2, h1, h2, P1.trace, ?_, B1.starts, starts2, ?_, ?_, P1.main, List.append_cancel_left hmain, ?_⟩
  · rw [P2.trace, P1.trace, List.map_append, List.append_assoc]
  · rw [P1.nstarts, hn1, Nat.zero_add]
  · rw [hst, P2.nstarts, hn2, hn1]; omega
  intro j hj
  obtain ⟨g1, hg1⟩ := Option.isSome_iff_exists.mp hj
  obtain ⟨g2, more, hg2, hts, hstop, _⟩ := hn j g1 hg1
  have inv := P2.each j g2 hg2
  obtain ⟨evs, before, after', missed, first, del, x1, x2, x3, x4, x5, x6⟩ := accounted he hK hpol P2 X2 hg2
  obtain ⟨evs2, before2, after, _, _, _, z1, z2, z3, _⟩ := accounted he hK hpol P1 X1 hg1
  have hjl : j < B1.starts.length := (List.getElem?_eq_some_iff.mp z1).1
  have hx1 := x1
  rw [← hst, List.getElem?_append_left hjl, z1] at hx1
  have hev : evs2 = evs := by cases hx1; rfl
  subst hev
  obtain ⟨a', _, _, _, hfd⟩ := P2.starts j _ x1
  have hfd := hfd rfl
  have x3' := x3.2.1
  rw [← hst, List.take_append_of_le_length (Nat.le_of_lt hjl)] at x3'
  obtain ⟨rfl, rfl⟩ : before = before2 ∧ after' = after ++ log2 := by
    refine cut_unique (es := evs2) (fun h => ?_) ?_ (x3'.trans z3.2.1.symm)
    · rw [h] at hfd; cases hfd
    · rw [← x2]
      conv => lhs; rw [z2]
      rw [List.append_assoc _ after]
  obtain ⟨y1, _⟩ := x6 hH
  have hA := P2.answering hg2
  rw [he] at hA
  suffices h : ∃ new, NfQueue.CloseEvs (B2.D j).qh.fd (B2.pend j) ∨
      (st w1.trace).cameTo (B2.D j).args.queueID.toNat = (st (w0.trace ++ before.map (·.2) ++ evs2)).cameTo (B2.D j).args.queueID.toNat ++ new ∧
      (is2.count (some j) ≤ 13 * ((first ++ new).length - (shownIn (byGo (some j) log1)).length + missed.length + 1) ∨ (first ++ new).length ≤ del.length) by
    obtain ⟨new, h⟩ := h
    exact ⟨(B2.D j).args, (B2.D j).qh.fd, B2.ts j, B2.pend j, evs2, before, after, missed, first, del, new, P2.args j g2 hg2, z1, hfd, z2, x3.1, x3', hA, x4, x5, y1, h⟩
  rcases hstop with h | ⟨hs1, hcount⟩
  · refine ⟨[], .inl ?_⟩
    have hp := inv.pos
    rw [h] at hp
    exact hp
  · by_cases hs2 : g2.pc = .stopped
    · refine ⟨[], .inl ?_⟩
      have hp := inv.pos
      rw [hs2] at hp
      exact hp
    · obtain ⟨came, left, H⟩ := x3.2.2
      have hts2 := inv.turns
      rw [he, hts] at hts2
      obtain ⟨gg, _⟩ := H.split X2.gen
      have hev1 := P1.events j g1 hg1
      rw [z2, byGo_append, byGo_append, z3.1, byGo_map_other (by simp), List.nil_append, List.nil_append] at hev1
      have hev2 := P2.events j g2 hg2
      rw [H.own, hts] at hev2
      have hp1 := P1.pending he hg1 hs1
      rw [← S.data j g1 hg1] at hp1
      obtain ⟨new, hnew, hserved⟩ := served_since hK (hpol j _ (P2.args j g2 hg2)) H.tally gg (H.live hs2) hev1 hev2 hts2 hp1 hH
        ⟨_, _, _, List.mem_append_right _ H.sock⟩
      refine ⟨new, .inr ⟨?_, ?_⟩⟩
      · rw [P1.trace, ← hnew]
        conv => lhs; rw [z2]
        rw [List.map_append, List.map_append, map_snd, ← List.append_assoc, ← List.append_assoc]
      · have hd : del.length = (shownIn (byGo (some j) (after ++ log2))).length := by
          cases x5 with
          | runs _ L =>
            rw [hev2, ← hts, L.tells.shown, List.length_map]
          | closed hc _ _ _ _ =>
            have hp := P2.pending he hg2 hs2
            exfalso
            rcases hp with h | ⟨_, h⟩ | ⟨_, _, _, _, _, _, h⟩ <;> rw [h] at hc <;> rcases hc with hc | ⟨_, _, hc⟩ <;> simp at hc
        have hl1 : byGo (some j) log1 = byGo (some j) after := by
          rw [z2, byGo_append, byGo_append, z3.1, byGo_map_other (by simp), List.nil_append, List.nil_append]
        rw [hd, hl1]
        rcases hserved with h | h
        · exact .inr h
        · by_cases hl : (first ++ new).length ≤ (shownIn (byGo (some j) (after ++ log2))).length
          · exact .inr hl
          · left; omega
end Verif.Props
