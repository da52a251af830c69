import Verif.Conntrack.SharedTable
import Verif.Conntrack.TableLemmas
import Verif.Props.ConntrackConcurrent
import Verif.Props.ConntrackTable
/-!
C145: conntrack updates made at the same time, on a kernel that keeps a connection table.

For any number of calls of the update functions made at the same time; every interleaving of their system calls; every kernel that keeps
a table and answers each socket for itself (Conntrack/SharedTable.lean).
-/
namespace Verif.Props.Ct
open Verif.Common Verif.Sys Verif.Spec Verif.Conntrack

/-! ### Serving the requests of a call -/

/-- The requests of a call that names `x`. -/
def ReqOf (e : Endian) (x : Conn) : Call → List Byte → Prop
  | .mark _ _ _ _ _ m, b => MarkReq e x m b
  | .bulkMark _ _ _ _ _ _ m, b => MarkReq e x m b
  | .bulkLabel _ _ _ p _ _ l, b => if p = 6 then LabelReqTCP e x l (flagsBytes e) b else LabelReq e x l b

theorem serve_label_first {e : Endian} {b : List Byte} {c : Conn} {l : U32} (h : LabelReq e c l b) (t : Table) :
    serve e b t = match t.find? fun y => decide (y.Is c) with
      | none => (-2, t)
      | some y => (if y.labels = none then -28 else 0, t.setLabels c (bytes32 e l.toNat)) := by
  obtain ⟨as, h1, h2⟩ := serve_update h (by rfl) t
  have h4 : attrOf 4 as = none := h1 4 (by omega)
  have h8 : attrOf 8 as = none := h1 8 (by omega)
  have h22 : attrOf 22 as = some (bytes32 e l.toNat) := h1 22 (by omega)
  have hc : ∀ x : Entry, x.change e as = (if x.labels = none then -28 else 0,
      { x with labels := x.labels.map fun _ => padLabels (bytes32 e l.toNat) }) := by
    intro x
    unfold Entry.change infoOk
    rcases x with ⟨a, b, m, _ | ls⟩ <;> simp [h4, h8, h22]
  rw [h2]
  rcases hf : t.find? (fun x => decide (x.Is c)) with _ | x
  · simp only [hf]
  · simp only [hf, hc, Table.setLabels]

theorem find_none {t : Table} {x : Conn} (h : t.find? (fun y => decide (y.Is x)) = none) : ¬ t.Has x := by
  rw [has_iff, h]; simp

theorem setLabels_absent (t : Table) (c : Conn) (p : List Byte) (h : ¬ t.Has c) : t.setLabels c p = t := by
  unfold Table.setLabels
  conv => rhs; rw [← List.map_id t]
  apply List.map_congr_left
  intro x hx
  rw [if_neg (fun hc => h ⟨x, hx, hc⟩)]; rfl

theorem serve_call {env : Env} {c : Call} {x : Conn} (hn : c.names env x) {b : List Byte} (hb : ReqOf env.e x c b) (t : Table)
    (hp : ∀ y ∈ t, y.orig.proto = y.reply.proto) : serve env.e b t = (c.code x t, c.effect env.e x t) := by
  have hmark : ∀ m : U32, MarkReq env.e x m b →
      serve env.e b t = (match t.find? (fun y => decide (y.Is x)) with | none => -2 | some _ => 0, t.setMark x m.toNat) := by
    intro m hm
    rcases serve_mark hm t with ⟨hh, hx⟩ | ⟨hh, hx⟩
    · obtain ⟨y, hy⟩ := (has_iff t x).mp hh
      rw [hx, hy]
    · rcases hf : t.find? (fun y => decide (y.Is x)) with _ | y
      · rw [hx, setMark_absent t x _ hh]; simp only [hf]
      · exact absurd ((has_iff t x).mpr ⟨y, hf⟩) hh
  cases c with
  | mark s d p sp dp m =>
    rw [hmark m hb]
    unfold Call.code Call.effect
    rcases t.find? (fun y => decide (y.Is x)) with _ | y <;> rfl
  | bulkMark fs s d p sp dp m =>
    rw [hmark m hb]
    unfold Call.code Call.effect
    rcases t.find? (fun y => decide (y.Is x)) with _ | y <;> rfl
  | bulkLabel fs s d p sp dp l =>
    simp only [ReqOf] at hb
    by_cases h6 : p = 6
    · rw [if_pos h6] at hb
      have hx6 : x.proto = 6 := by
        have : p = x.proto := hn.2.2.1
        rw [← this]; exact h6
      have htcp : ∀ y ∈ t, y.Is x → y.orig.proto = 6 := by
        intro y hy hyx
        rcases hyx with h | h
        · rw [h]; exact hx6
        · rw [hp y hy, h]; exact hx6
      unfold Call.code Call.effect
      simp only [h6, if_true]
      rcases serve_label_tcp hb t htcp with ⟨hh, hx⟩ | ⟨hh, hx⟩
      · obtain ⟨y, hy⟩ := (has_iff t x).mp hh
        rw [hx, hy]
      · rcases hf : t.find? (fun y => decide (y.Is x)) with _ | y
        · rw [hx]; simp only [hf]
        · exact absurd ((has_iff t x).mpr ⟨y, hf⟩) hh
    · rw [if_neg h6] at hb
      rw [serve_label_first hb]
      unfold Call.code Call.effect
      simp only [h6, if_false]
      rcases hf : t.find? (fun y => decide (y.Is x)) with _ | y
      · simp only [hf, setLabels_absent t x _ (find_none hf)]
      · simp only [hf]

/-! ### The requests of a call are those -/

theorem sends_ofRes {R : Type} {Q : List Byte → Prop} (r : Res R) : Prog.Sends Q (Prog.ofRes r : P R) := by cases r <;> trivial

theorem sends_sendMessageP {Q : List Byte → Prop} (env : Env) (hdr : NlMsghdr) (data : List Byte) (h : Q (hdrBytes env.e hdr ++ data)) :
    Prog.Sends Q (sendMessageP env hdr data) := by
  refine Prog.Sends.andThen (p := openSockP) ?_ ?_
  · intro x
    cases x with
    | error n => trivial
    | ok fd => intro y; cases y with
      | none => trivial
      | some n => intro z; cases z <;> trivial
  · intro r
    cases r with
    | error n => trivial
    | ok fd =>
      refine Prog.Sends.andThen (p := queryP env fd ⟨hdr, data⟩) ?_ ?_
      · refine Prog.Sends.andThen (p := sendP env fd ⟨hdr, data⟩) ?_ ?_
        · unfold sendP
          rw [wireBytes_eq]
          refine ⟨h, fun x => ?_⟩
          cases x with
          | none => trivial
          | some n => exact ⟨h, fun y => by cases y <;> trivial⟩
        · intro r
          cases r with
          | some err => trivial
          | none =>
            intro x
            cases x with
            | error n => trivial
            | ok d => exact sends_ofRes _
      · intro r x
        cases x with
        | none => trivial
        | some n => intro y; trivial

theorem sends_updateMarkP {Q : List Byte → Prop} (env : Env) {s d : String} {p : Byte} {sp dp : U16} {c : Conn} (m : U32)
    (h : Names env s d p sp dp c) (hQ : ∀ b, MarkReq env.e c m b → Q b) : Prog.Sends Q (updateMarkP env s d p sp dp m) := by
  obtain ⟨hs, hd⟩ := names_len h.taken
  unfold updateMarkP
  rw [markMessage_eq env m h.taken]
  exact sends_sendMessageP env _ _ (hQ _ (markReq_ok env.e hs hd m))

theorem label_message (env : Env) {s d : String} {p : Byte} {sp dp : U16} {c : Conn} (l : U32) (h : Names env s d p sp dp c) :
    ∃ hdr data, labelMessage env s d p sp dp l = .ok (hdr, data) ∧ 4 ≤ data.length ∧
      if p = 6 then LabelReqTCP env.e c l (flagsBytes env.e) (hdrBytes env.e hdr ++ data)
      else LabelReq env.e c l (hdrBytes env.e hdr ++ data) := by
  obtain ⟨hs, hd⟩ := names_len h.taken
  by_cases h6 : p = 6
  · subst h6
    exact ⟨_, _, labelMessage_tcp env l h.taken, by simp, by rw [if_pos rfl]; exact labelReqTCP_ok env.e hs hd l⟩
  · exact ⟨_, _, labelMessage_eq env l h.taken h6, by simp, by rw [if_neg h6]; exact labelReq_ok env.e hs hd l⟩

theorem sends_markLoopP {Q : List Byte → Prop} (env : Env) {s d : String} {p : Byte} {sp dp : U16} {c : Conn} (m : U32)
    (h : Names env s d p sp dp c) (hQ : ∀ b, MarkReq env.e c m b → Q b) (fs : List Flow) :
    ∀ n, Prog.Sends Q (markLoopP env s d p sp dp m fs n) := by
  induction fs with
  | nil => intro n; trivial
  | cons f fs ih =>
    intro n
    refine Prog.Sends.andThen (sends_ofRes _) fun b => ?_
    split
    · refine Prog.Sends.andThen (sends_updateMarkP env m h hQ) fun r => ?_
      cases r with
      | some err => trivial
      | none => exact ih _
    · exact ih _

theorem sends_labelLoopP {Q : List Byte → Prop} (env : Env) {s d : String} {p : Byte} {sp dp : U16} {c : Conn} (l : U32)
    (h : Names env s d p sp dp c)
    (hQ : ∀ b, (if p = 6 then LabelReqTCP env.e c l (flagsBytes env.e) b else LabelReq env.e c l b) → Q b) (fs : List Flow) :
    ∀ n, Prog.Sends Q (labelLoopP env s d p sp dp l fs n) := by
  obtain ⟨hdr, data, hm, _, hreq⟩ := label_message env l h
  induction fs with
  | nil => intro n; trivial
  | cons f fs ih =>
    intro n
    refine Prog.Sends.andThen (sends_ofRes _) fun b => ?_
    split
    · rw [hm]
      refine Prog.Sends.andThen (p := sendMessageP env hdr data) (sends_sendMessageP env _ _ (hQ _ hreq)) fun r => ?_
      cases r with
      | some err => trivial
      | none => exact ih _
    · exact ih _

theorem sends_call (env : Env) {c : Call} {x : Conn} (h : c.names env x) : Prog.Sends (ReqOf env.e x c) (c.prog env) := by
  cases c with
  | mark s d p sp dp m => exact Prog.Sends.andThen (sends_updateMarkP env m h fun _ hb => hb) fun r => trivial
  | bulkMark fs s d p sp dp m =>
    refine Prog.Sends.andThen (Prog.Sends.andThen (sends_markLoopP env m h (fun _ hb => hb) fs 0) fun r => ?_) fun r => trivial
    obtain ⟨n, r⟩ := r
    cases r with
    | some err => trivial
    | none => dsimp only; rw [if_pos (Int.natCast_nonneg n)]; trivial
  | bulkLabel fs s d p sp dp l =>
    refine Prog.Sends.andThen (Prog.Sends.andThen (sends_labelLoopP env l h (fun _ hb => hb) fs 0) fun r => ?_) fun r => trivial
    obtain ⟨n, r⟩ := r
    cases r with
    | some err => trivial
    | none => dsimp only; rw [if_pos (Int.natCast_nonneg n)]; trivial

/-- Every request of the goroutine of a call is one of that call. -/
theorem request_of {env : Env} {K : Kernel CEv} {calls : List Call} {is : List Nat} {tr tr' : List (Ev CEv)}
    {s : Nat → P (Option Int × Option Err)} {log : List (Nat × Ev CEv)}
    (h : Prog.sched K is (callProgs env calls) tr = .ok ((s, log), tr')) {i : Nat} {c : Call} (hc : calls[i]? = some c) {x : Conn}
    (hn : c.names env x) {pre post : List (Nat × Ev CEv)} {fd : Nat} {b : List Byte} {fl : Nat} {r : Option Nat}
    (hl : log = pre ++ (i, .sendto fd b fl r) :: post) : ReqOf env.e x c b := by
  have hr := Prog.sched_placed is h i
  unfold callProgs at hr
  rw [hc] at hr
  refine (sends_call env hn).runsAt hr (tr ++ pre.map (·.2), .sendto fd b fl r) ?_ fd b fl r rfl
  rw [hl, Prog.placed_append]
  simp [Prog.placed]

/-! ### The reply a goroutine gets is to its own request -/

/-- What is received right after a request is the reply to it, cut to the buffer. -/
def Fed (e : Endian) (tab : List (Ev CEv) → Table) (l : List (List (Ev CEv) × Ev CEv)) : Prop :=
  ∀ a b h fd bts fl h' sz fl' d, l = a ++ (h, .sendto fd bts fl none) :: (h', .recvfrom fd sz fl' (.ok d)) :: b →
    ∃ d0, ReplyIs e d0 (serve e bts (tab h)).1 ∧ d = d0.take sz

theorem Fed.left {e : Endian} {tab : List (Ev CEv) → Table} {l1 l2 : List (List (Ev CEv) × Ev CEv)} (h : Fed e tab (l1 ++ l2)) :
    Fed e tab l1 := fun a b h0 fd bts fl h' sz fl' d hl => h a (b ++ l2) h0 fd bts fl h' sz fl' d (by rw [hl]; simp)

theorem Fed.right {e : Endian} {tab : List (Ev CEv) → Table} {l1 l2 : List (List (Ev CEv) × Ev CEv)} (h : Fed e tab (l1 ++ l2)) :
    Fed e tab l2 := fun a b h0 fd bts fl h' sz fl' d hl => h (l1 ++ a) b h0 fd bts fl h' sz fl' d (by rw [hl]; simp)

theorem runsAt_recv {R : Type} {K : Kernel CEv} {p q : P R} {l a b : List (List (Ev CEv) × Ev CEv)} {h : List (Ev CEv)}
    {fd sz fl : Nat} {d : List Byte} (hr : Prog.RunsAt K p l q) (hl : l = a ++ (h, .recvfrom fd sz fl (.ok d)) :: b) :
    ∃ d0, K.recv h fd = .ok d0 ∧ d = d0.take sz := by
  induction a generalizing l p with
  | nil =>
    subst hl
    cases hr with
    | step hs _ =>
      cases p <;> simp only [Prog.step, reduceCtorEq, Option.some.injEq, Prod.mk.injEq, Ev.recvfrom.injEq, and_false] at hs
      obtain ⟨_, rfl, rfl, _, hd⟩ := hs
      rename_i fd' _ _ _ _ _
      cases hk : K.recv h fd' with
      | error n => rw [hk] at hd; cases hd
      | ok d0 =>
        rw [hk] at hd
        simp only [Except.map, Except.ok.injEq] at hd
        exact ⟨d0, rfl, hd.symm⟩
  | cons y a ih =>
    subst hl
    cases hr with
    | step _ hr => exact ih hr rfl

theorem fed_placed {env : Env} {K : Kernel CEv} {tab : List (Ev CEv) → Table} (hK : ServesTable env.e K tab) (hO : Prog.Orderly K)
    {calls : List Call} {is : List Nat} {tr tr' : List (Ev CEv)} {s : Nat → P (Option Int × Option Err)} {log : List (Nat × Ev CEv)}
    (h : Prog.sched K is (callProgs env calls) tr = .ok ((s, log), tr')) (i : Nat) : Fed env.e tab (Prog.placed i tr log) := by
  intro a b h0 fd bts fl h' sz fl' d hl
  obtain ⟨mid, rfl, hm⟩ := Prog.placed_next (fd := fd) (C120_own_socket env K hO calls is tr tr' s log h).1
    (Prog.sched_fresh hO h) hl rfl (fun f hf => by cases hf)
  obtain ⟨d0, h1, h2⟩ := runsAt_recv (a := a ++ [(h0, .sendto fd bts fl none)]) (b := b)
    (h := h0 ++ [.sendto fd bts fl none] ++ mid) (fd := fd) (sz := sz) (fl := fl') (d := d) (Prog.sched_placed is h i)
    (by rw [hl]; simp)
  exact ⟨d0, hK.replies h0 fd bts fl mid d0 hm h1, h2⟩

/-! ### One request, and several -/

/-- The tables met by the requests among these. -/
def met (tab : List (Ev CEv) → Table) (l : List (List (Ev CEv) × Ev CEv)) : List Table :=
  (l.filter fun y => isRequest y.2).map fun y => tab y.1

theorem met_append (tab : List (Ev CEv) → Table) (a b : List (List (Ev CEv) × Ev CEv)) : met tab (a ++ b) = met tab a ++ met tab b := by
  simp [met]

theorem met_none {R : Type} {tab : List (Ev CEv) → Table} {K : Kernel CEv} {p q : P R} {l : List (List (Ev CEv) × Ev CEv)}
    (hp : Prog.Sends (fun _ => False) p) (hr : Prog.RunsAt K p l q) : met tab l = [] := by
  unfold met
  rw [List.map_eq_nil_iff, List.filter_eq_nil_iff]
  intro y hy
  have := hp.runsAt hr y hy
  rcases y with ⟨h, ev⟩
  cases ev with
  | sendto fd b fl r => exact absurd rfl (fun he => this fd b fl r he)
  | _ => simp [isRequest]

theorem sends_sysClose (fd : Nat) : Prog.Sends (fun _ => False) (Prog.sysClose fd : P (Option Nat)) := by
  intro x
  cases x with
  | none => trivial
  | some n => intro y; trivial

theorem sends_openSockP : Prog.Sends (fun _ => False) (openSockP : P (Except Err Nat)) := by
  intro x
  cases x with
  | error n => trivial
  | ok fd => intro y; cases y with
    | none => trivial
    | some n => intro z; cases z <;> trivial

/-- The result does not tell that a system call failed. -/
def Answered (r : Option Err) : Prop := r = none ∨ ∃ c, r = some (.netlink c)

theorem outcome_one {env : Env} {K : Kernel CEv} {tab : List (Ev CEv) → Table} {hdr : NlMsghdr} {data : List Byte}
    {l : List (List (Ev CEv) × Ev CEv)} {r : Option Err} {code : Table → Int} (hF : Fed env.e tab l) (hlen : 4 ≤ data.length)
    (hcode : ∀ h, (serve env.e (hdrBytes env.e hdr ++ data) (tab h)).1 = code (tab h))
    (hr : Prog.RunsAt K (sendMessageP env hdr data) l (.ret r)) : Outcome 1 ((met tab l).map code) r ∧ (Works K → Answered r) := by
  obtain ⟨l1, l2, x, rfl, ho, hr⟩ := Prog.RunsAt.of_andThen (p := openSockP) hr
  rw [met_append, met_none sends_openSockP ho, List.nil_append]
  cases x with
  | error err => cases hr with | step hs _ => cases hs
  | ok fd =>
    have hF := hF.right
    obtain ⟨l2, l3, r1, rfl, hq, hr⟩ := Prog.RunsAt.of_andThen (p := queryP env fd ⟨hdr, data⟩) hr
    obtain ⟨l3, l4, r2, rfl, hc, hr⟩ := Prog.RunsAt.of_andThen (p := Prog.sysClose fd) hr
    obtain ⟨rfl, hr⟩ := Prog.RunsAt.of_ret hr
    cases hr
    rw [met_append, List.append_nil, met_none (sends_sysClose fd) hc, List.append_nil]
    have hF := hF.left
    clear hc
    obtain ⟨ls, lr, rs, rfl, hs, hq⟩ := Prog.RunsAt.of_andThen (p := sendP env fd ⟨hdr, data⟩) hq
    unfold sendP at hs
    rw [wireBytes_eq] at hs
    -- the send
    have hsend : (∃ h n, ls = h ∧ met tab h = [] ∧ rs = some (.errno n) ∧ ¬ Works K) ∨
        ∃ a h, ls = a ++ [(h, .sendto fd (hdrBytes env.e hdr ++ data) 0 none)] ∧ met tab a = [] ∧ rs = none := by
      obtain ⟨la, lb, y, rfl, h1, h2⟩ := Prog.RunsAt.of_andThen (p := Prog.sysSendto fd (hdrBytes env.e hdr ++ data) 0) hs
      have hlb : lb = [] ∧ rs = y.map .errno := by
        cases y with
        | none => obtain ⟨h3, h4⟩ := Prog.RunsAt.of_ret h2; cases h4; exact ⟨h3, rfl⟩
        | some n => obtain ⟨h3, h4⟩ := Prog.RunsAt.of_ret h2; cases h4; exact ⟨h3, rfl⟩
      obtain ⟨rfl, rfl⟩ := hlb
      rw [List.append_nil]
      cases h1 with
      | @step h _ _ ev la' _ hst h1 =>
        simp only [Prog.sysSendto, Prog.step, Option.some.injEq, Prod.mk.injEq] at hst
        obtain ⟨rfl, rfl⟩ := hst
        cases hk : K.send h fd (hdrBytes env.e hdr ++ data) with
        | none =>
          rw [hk] at h1
          obtain ⟨rfl, h4⟩ := Prog.RunsAt.of_ret h1
          cases h4
          exact .inr ⟨[], h, rfl, rfl, rfl⟩
        | some n =>
          rw [hk] at h1
          cases h1 with
          | @step h' _ _ ev la' _ hst h1 =>
            simp only [Prog.step] at hst
            obtain ⟨rfl, rfl⟩ := hst
            obtain ⟨rfl, h4⟩ := Prog.RunsAt.of_ret h1
            cases h4
            cases hk' : K.send h' fd (hdrBytes env.e hdr ++ data) with
            | none => exact .inr ⟨[(h, .sendto fd (hdrBytes env.e hdr ++ data) 0 (some n))], h', rfl, rfl, rfl⟩
            | some n' => exact .inl ⟨_, n', rfl, rfl, rfl, fun hW => by rw [hW.send] at hk'; cases hk'⟩
    rcases hsend with ⟨_, n, rfl, h2, rfl, hW⟩ | ⟨a, h, rfl, h2, rfl⟩
    · obtain ⟨rfl, h4⟩ := Prog.RunsAt.of_ret hq
      cases h4
      rw [List.append_nil, h2]
      exact ⟨.unsent, fun h => absurd h hW⟩
    · obtain ⟨la, lb, y, rfl, h1, h3⟩ := Prog.RunsAt.of_andThen (p := Prog.sysRecvfrom fd (16 + data.length) 0) hq
      have hlb : lb = [] := by
        cases y with
        | error n => exact (Prog.RunsAt.of_ret h3).1
        | ok d =>
          cases hd : readReply env.e d with
          | ok v => simp only [hd] at h3; exact (Prog.RunsAt.of_ret h3).1
          | panic => simp only [hd] at h3; cases h3 with | step hs _ => cases hs
          | diverge => simp only [hd] at h3; cases h3 with | step hs _ => cases hs
      subst hlb
      cases h1 with
      | @step h' _ _ ev la' _ hst h1 =>
        simp only [Prog.sysRecvfrom, Prog.step, Option.some.injEq, Prod.mk.injEq] at hst
        obtain ⟨rfl, rfl⟩ := hst
        obtain ⟨rfl, h4⟩ := Prog.RunsAt.of_ret h1
        cases h4
        have hmet : met tab (a ++ [(h, .sendto fd (hdrBytes env.e hdr ++ data) 0 none)] ++
            ([(h', .recvfrom fd (16 + data.length) 0 ((K.recv h' fd).map (·.take (16 + data.length))))] ++ [])) = [tab h] := by
          rw [met_append, met_append, h2]; rfl
        rw [hmet]
        cases hk : K.recv h' fd with
        | error n =>
          rw [hk] at h3
          obtain ⟨_, h4⟩ := Prog.RunsAt.of_ret h3
          cases h4
          exact ⟨.lost, fun hW => by obtain ⟨d, hd⟩ := hW.recv h' fd; rw [hk] at hd; cases hd⟩
        | ok d =>
          rw [hk] at h3 hF
          obtain ⟨d0, hd1, hd2⟩ := hF a [] h fd (hdrBytes env.e hdr ++ data) 0 h' (16 + data.length) 0
            (d.take (16 + data.length)) (by simp [Except.map])
          have hrep := take_reply hd1 (16 + data.length) (by omega)
          rw [← hd2] at hrep
          simp only [Except.map, readReply_reply hrep, hcode] at h3
          obtain ⟨_, h4⟩ := Prog.RunsAt.of_ret h3
          cases h4
          by_cases h0 : code (tab h) = 0
          · rw [if_pos h0, List.map_cons, h0]; exact ⟨.next .done, fun _ => .inl rfl⟩
          · rw [if_neg h0]; exact ⟨.refused h0, fun _ => .inr ⟨_, rfl⟩⟩

theorem outcome_cons {c1 c2 : List Int} {k : Nat} {r : Option Err} (h1 : Outcome 1 c1 none) (h2 : Outcome k c2 r) :
    Outcome (k + 1) (c1 ++ c2) r := by
  cases h1 with
  | next h => cases h with | done => exact .next h2

theorem outcome_stop {c1 : List Int} {k : Nat} {err : Err} (h1 : Outcome 1 c1 (some err)) : Outcome (k + 1) c1 (some err) := by
  cases h1 with
  | next h => cases h
  | refused h => exact .refused h
  | lost => exact .lost
  | unsent => exact .unsent

/-- The number of requests of the loop over the flows. -/
def toMark (m : U32) (fs : List Flow) (x : Conn) : Nat := if m = 0 then 0 else matching fs x

theorem outcome_markLoop {env : Env} {K : Kernel CEv} {tab : List (Ev CEv) → Table} {s d : String} {p : Byte} {sp dp : U16} {x : Conn}
    {m : U32} (h : Names env s d p sp dp x) {code : Table → Int}
    (hcode : ∀ b, MarkReq env.e x m b → ∀ h, (serve env.e b (tab h)).1 = code (tab h)) (fs : List Flow) :
    ∀ (l : List (List (Ev CEv) × Ev CEv)) (n k : Nat) (r : Option Err), (∀ f ∈ fs, V4Flow f) → Fed env.e tab l →
      Prog.RunsAt K (markLoopP env s d p sp dp m fs n) l (.ret (k, r)) →
      Outcome (toMark m fs x) ((met tab l).map code) r ∧ (k = if r = none then n + toMark m fs x else 0) ∧ (Works K → Answered r) := by
  obtain ⟨hs, hd⟩ := names_len h.taken
  induction fs with
  | nil =>
    intro l n k r _ _ hr
    obtain ⟨rfl, h1⟩ := Prog.RunsAt.of_ret hr
    cases h1
    have : toMark m [] x = 0 := by simp [toMark, matching]
    rw [this]
    exact ⟨.done, rfl, fun _ => .inl rfl⟩
  | cons f fs ih =>
    intro l n k r hf hF hr
    have hfs : ∀ f ∈ fs, V4Flow f := fun g hg => hf g (List.mem_cons_of_mem _ hg)
    unfold markLoopP at hr
    rw [check_v4 env h (hf f (List.mem_cons_self ..))] at hr
    have hr : Prog.RunsAt K (if (decide (FlowOf f x) && m != 0) = true then
        (updateMarkP env s d p sp dp m).andThen fun r => match r with
          | some err => .ret (0, some err)
          | none => markLoopP env s d p sp dp m fs (n + 1)
        else markLoopP env s d p sp dp m fs n) l (.ret (k, r)) := hr
    by_cases hb : (decide (FlowOf f x) && m != 0) = true
    · rw [if_pos hb] at hr
      simp only [Bool.and_eq_true, decide_eq_true_eq, bne_iff_ne, ne_eq] at hb
      have hm : toMark m (f :: fs) x = toMark m fs x + 1 := by
        unfold toMark
        rw [if_neg hb.2, if_neg hb.2]
        simp [matching, hb.1]
      obtain ⟨l1, l2, r1, rfl, h1, h2⟩ := Prog.RunsAt.of_andThen hr
      unfold updateMarkP at h1
      rw [markMessage_eq env m h.taken] at h1
      obtain ⟨h1', hw1⟩ := outcome_one (code := code) hF.left (by simp) (hcode _ (markReq_ok env.e hs hd m)) h1
      rw [met_append, List.map_append, hm]
      cases r1 with
      | some err =>
        obtain ⟨rfl, h3⟩ := Prog.RunsAt.of_ret h2
        cases h3
        refine ⟨?_, by simp, hw1⟩
        have : met tab [] = [] := rfl
        rw [this, List.map_nil, List.append_nil]
        exact outcome_stop h1'
      | none =>
        obtain ⟨h3, h4, h5⟩ := ih l2 (n + 1) k r hfs hF.right h2
        refine ⟨outcome_cons h1' h3, ?_, h5⟩
        rw [h4]
        split <;> omega
    · rw [if_neg hb] at hr
      have hm : toMark m (f :: fs) x = toMark m fs x := by
        simp only [Bool.and_eq_true, decide_eq_true_eq, bne_iff_ne, ne_eq, not_and, Decidable.not_not] at hb
        unfold toMark
        by_cases h0 : m = 0
        · simp [h0]
        · rw [if_neg h0, if_neg h0]
          simp only [matching]
          rw [List.countP_cons_of_neg (by simp; exact fun hx => h0 (hb hx))]
      rw [hm]
      exact ih l n k r hfs hF hr

theorem outcome_labelLoop {env : Env} {K : Kernel CEv} {tab : List (Ev CEv) → Table} {s d : String} {p : Byte} {sp dp : U16} {x : Conn}
    {v : U32} (h : Names env s d p sp dp x) {code : Table → Int}
    (hcode : ∀ b, (if p = 6 then LabelReqTCP env.e x v (flagsBytes env.e) b else LabelReq env.e x v b) →
      ∀ h, (serve env.e b (tab h)).1 = code (tab h)) (fs : List Flow) :
    ∀ (l : List (List (Ev CEv) × Ev CEv)) (n k : Nat) (r : Option Err), (∀ f ∈ fs, V4Flow f) → Fed env.e tab l →
      Prog.RunsAt K (labelLoopP env s d p sp dp v fs n) l (.ret (k, r)) →
      Outcome (matching fs x) ((met tab l).map code) r ∧ (k = if r = none then n + matching fs x else 0) ∧ (Works K → Answered r) := by
  obtain ⟨hdr, data, hm, h4, hreq⟩ := label_message env v h
  induction fs with
  | nil =>
    intro l n k r _ _ hr
    obtain ⟨rfl, h1⟩ := Prog.RunsAt.of_ret hr
    cases h1
    have : matching [] x = 0 := by simp [matching]
    rw [this]
    exact ⟨.done, rfl, fun _ => .inl rfl⟩
  | cons f fs ih =>
    intro l n k r hf hF hr
    have hfs : ∀ f ∈ fs, V4Flow f := fun g hg => hf g (List.mem_cons_of_mem _ hg)
    unfold labelLoopP at hr
    rw [check_v4 env h (hf f (List.mem_cons_self ..)), hm] at hr
    have hr : Prog.RunsAt K (if decide (FlowOf f x) = true then
        (sendMessageP env hdr data).andThen fun r => match r with
          | some err => .ret (0, some err)
          | none => labelLoopP env s d p sp dp v fs (n + 1)
        else labelLoopP env s d p sp dp v fs n) l (.ret (k, r)) := hr
    by_cases hb : decide (FlowOf f x) = true
    · rw [if_pos hb] at hr
      have hm : matching (f :: fs) x = matching fs x + 1 := by
        simp only [decide_eq_true_eq] at hb; simp [matching, hb]
      obtain ⟨l1, l2, r1, rfl, h1, h2⟩ := Prog.RunsAt.of_andThen hr
      obtain ⟨h1', hw1⟩ := outcome_one (code := code) hF.left h4 (hcode _ hreq) h1
      rw [met_append, List.map_append, hm]
      cases r1 with
      | some err =>
        obtain ⟨rfl, h3⟩ := Prog.RunsAt.of_ret h2
        cases h3
        refine ⟨?_, by simp, hw1⟩
        have : met tab [] = [] := rfl
        rw [this, List.map_nil, List.append_nil]
        exact outcome_stop h1'
      | none =>
        obtain ⟨h3, h4, h5⟩ := ih l2 (n + 1) k r hfs hF.right h2
        refine ⟨outcome_cons h1' h3, ?_, h5⟩
        rw [h4]
        split <;> omega
    · rw [if_neg hb] at hr
      have hm : matching (f :: fs) x = matching fs x := by
        simp only [decide_eq_true_eq] at hb; simp [matching, hb]
      rw [hm]
      exact ih l n k r hfs hF hr

/-- The same for the calls, one of which wraps the error. -/
def NotFailed (r : Option Err) : Prop := r = none ∨ ∃ c, r = some (.netlink c) ∨ r = some (.wrap "Error %v" (.netlink c))

theorem result_of_run {env : Env} {K : Kernel CEv} {tab : List (Ev CEv) → Table} (hp : ∀ h, ∀ y ∈ tab h, y.orig.proto = y.reply.proto)
    {c : Call} (hs : Sound env c) {x : Conn} (hn : c.names env x) {l : List (List (Ev CEv) × Ev CEv)} (hF : Fed env.e tab l)
    {r : Option Int × Option Err} (hr : Prog.RunsAt K (c.prog env) l (.ret r)) :
    RightResult x (met tab l) c r ∧ (Works K → NotFailed r.2) := by
  have hcode : ∀ b, ReqOf env.e x c b → ∀ h, (serve env.e b (tab h)).1 = c.code x (tab h) := by
    intro b hb h
    rw [serve_call hn hb (tab h) (hp h)]
  obtain ⟨n, r⟩ := r
  cases c with
  | mark s d p sp dp m =>
    obtain ⟨l1, l2, r1, rfl, h1, h2⟩ := Prog.RunsAt.of_andThen (p := updateMarkP env s d p sp dp m) hr
    obtain ⟨rfl, h3⟩ := Prog.RunsAt.of_ret h2
    cases h3
    rw [List.append_nil] at hF ⊢
    unfold updateMarkP at h1
    have hn' : Names env s d p sp dp x := hn
    obtain ⟨hl, hd⟩ := names_len hn'.taken
    rw [markMessage_eq env m hn'.taken] at h1
    obtain ⟨h2, h3⟩ := outcome_one hF (by simp) (hcode _ (markReq_ok env.e hl hd m)) h1
    refine ⟨⟨rfl, h2⟩, fun hW => ?_⟩
    rcases h3 hW with h | ⟨c, h⟩
    · exact .inl h
    · exact .inr ⟨c, .inl h⟩
  | bulkMark fs s d p sp dp m =>
    obtain ⟨l1, l2, r1, rfl, h1, h2⟩ := Prog.RunsAt.of_andThen (p := updateMarkForAvailableFlowP env fs s d p sp dp m) hr
    obtain ⟨rfl, h3⟩ := Prog.RunsAt.of_ret h2
    cases h3
    obtain ⟨l2, l3, ⟨k, r2⟩, rfl, h0, h2⟩ := Prog.RunsAt.of_andThen (p := markLoopP env s d p sp dp m fs 0) h1
    have h2 : Prog.RunsAt K (match r2 with
      | some err => .ret (0, some (.wrap "Error %v" err))
      | none => .ret ((k : Int), none)) l3 (.ret r1) := by
      cases r2 with
      | some err => exact h2
      | none => dsimp only at h2; rw [if_pos (Int.natCast_nonneg k)] at h2; exact h2
    have hl3 : l3 = [] ∧ r1 = (if r2 = none then (k : Int) else 0, r2.map (.wrap "Error %v")) := by
      cases r2 with
      | some err => obtain ⟨h3, h4⟩ := Prog.RunsAt.of_ret h2; cases h4; exact ⟨h3, rfl⟩
      | none => obtain ⟨h3, h4⟩ := Prog.RunsAt.of_ret h2; cases h4; exact ⟨h3, rfl⟩
    obtain ⟨rfl, rfl⟩ := hl3
    rw [List.append_nil, List.append_nil] at hF ⊢
    obtain ⟨h3, h4, h5⟩ := outcome_markLoop hn hcode fs l2 0 k r2 hs.2 hF h0
    refine ⟨⟨r2, h3, rfl, ?_⟩, fun hW => by
      rcases h5 hW with h | ⟨c, h⟩
      · exact .inl (by rw [h]; rfl)
      · exact .inr ⟨c, .inr (by rw [h]; rfl)⟩⟩
    cases r2 with
    | some err => rfl
    | none =>
      simp only [if_true, Nat.zero_add] at h4
      subst h4
      simp [toMark]
  | bulkLabel fs s d p sp dp m =>
    obtain ⟨l1, l2, r1, rfl, h1, h2⟩ := Prog.RunsAt.of_andThen (p := updateLabelP env fs s d p sp dp m) hr
    obtain ⟨rfl, h3⟩ := Prog.RunsAt.of_ret h2
    cases h3
    obtain ⟨l2, l3, ⟨k, r2⟩, rfl, h0, h2⟩ := Prog.RunsAt.of_andThen (p := labelLoopP env s d p sp dp m fs 0) h1
    have h2 : Prog.RunsAt K (match r2 with
      | some err => .ret (0, some err)
      | none => .ret ((k : Int), none)) l3 (.ret r1) := by
      cases r2 with
      | some err => exact h2
      | none => dsimp only at h2; rw [if_pos (Int.natCast_nonneg k)] at h2; exact h2
    have hl3 : l3 = [] ∧ r1 = (if r2 = none then (k : Int) else 0, r2) := by
      cases r2 with
      | some err => obtain ⟨h3, h4⟩ := Prog.RunsAt.of_ret h2; cases h4; exact ⟨h3, rfl⟩
      | none => obtain ⟨h3, h4⟩ := Prog.RunsAt.of_ret h2; cases h4; exact ⟨h3, rfl⟩
    obtain ⟨rfl, rfl⟩ := hl3
    rw [List.append_nil, List.append_nil] at hF ⊢
    obtain ⟨h3, h4, h5⟩ := outcome_labelLoop hn hcode fs l2 0 k r2 hs.2 hF h0
    refine ⟨⟨h3, ?_⟩, fun hW => by
      rcases h5 hW with h | ⟨c, h⟩
      · exact .inl h
      · exact .inr ⟨c, .inl h⟩⟩
    cases r2 with
    | some err => rfl
    | none =>
      simp only [if_true, Nat.zero_add] at h4
      subst h4
      simp

/-! ### C145 -/

/-- C145: whatever calls are made at the same time and however their system calls interleave: the result of a call that returned is the
outcome of its own requests on the tables they met, one after the other.  In particular (`Outcome`) nil means that every request found the
connection in the table at the moment it reached the kernel, and ENOENT that one did not.  If system calls do not fail, it is nil or a code
of the kernel. -/
theorem C145_result {env : Env} {K : Kernel CEv} {tab : List (Ev CEv) → Table} (hK : ServesTable env.e K tab) (hO : Prog.Orderly K)
    {calls : List Call} (is : List Nat) {tr tr' : List (Ev CEv)} {s : Nat → P (Option Int × Option Err)} {log : List (Nat × Ev CEv)}
    (h : Prog.sched K is (callProgs env calls) tr = .ok ((s, log), tr')) (i : Nat) (c : Call) (hc : calls[i]? = some c)
    (hs : Sound env c) (x : Conn) (hn : c.names env x) (r : Option Int × Option Err) (hr : s i = .ret r) :
    RightResult x ((moments i tr log).map tab) c r ∧ (Works K → NotFailed r.2) := by
  have hrun := Prog.sched_placed is h i
  have hp : callProgs env calls i = c.prog env := by unfold callProgs; rw [hc]
  rw [hr, hp] at hrun
  have := result_of_run hK.protos hs hn (fed_placed hK hO h i) hrun
  unfold met at this
  unfold moments
  rw [List.map_map]
  exact this

/-- C145: each request changes the table at the moment it reaches the kernel, by what its call is to change and nothing else; this holds also
for calls that have not returned yet, or never do. -/
theorem C145_atomic {env : Env} {K : Kernel CEv} {tab : List (Ev CEv) → Table} (hK : ServesTable env.e K tab)
    {calls : List Call} (is : List Nat) {tr tr' : List (Ev CEv)} {s : Nat → P (Option Int × Option Err)} {log : List (Nat × Ev CEv)}
    (h : Prog.sched K is (callProgs env calls) tr = .ok ((s, log), tr')) (i : Nat) (c : Call) (hc : calls[i]? = some c)
    (x : Conn) (hn : c.names env x) (pre post : List (Nat × Ev CEv)) (ev : Ev CEv) (hl : log = pre ++ (i, ev) :: post)
    (hev : isRequest ev = true) : tab (tr ++ pre.map (·.2) ++ [ev]) = c.effect env.e x (tab (tr ++ pre.map (·.2))) := by
  cases ev with
  | sendto fd b fl r =>
    cases r with
    | some n => cases hev
    | none =>
      rw [hK.serves, serve_call hn (request_of h hc hn hl) _ (hK.protos _)]
  | _ => cases hev

/-- A goroutine that makes no call of the list makes no system call. -/
theorem index_of_event {env : Env} {K : Kernel CEv} {calls : List Call} (is : List Nat) {tr tr' : List (Ev CEv)}
    {s : Nat → P (Option Int × Option Err)} {log : List (Nat × Ev CEv)}
    (h : Prog.sched K is (callProgs env calls) tr = .ok ((s, log), tr')) (y : Nat × Ev CEv) (hy : y ∈ log) :
    ∃ c, calls[y.1]? = some c := by
  obtain ⟨i, ev⟩ := y
  cases hc : calls[i]? with
  | some c => exact ⟨c, rfl⟩
  | none =>
    exfalso
    have hr := Prog.sched_placed is h i
    unfold callProgs at hr
    rw [hc] at hr
    have := Prog.placed_none (Prog.RunsAt.of_ret hr).1 (i, ev) hy
    exact this rfl

/-- C145: when nothing else changes the table, it is at any time what the requests made so far, in the order in which they reached the kernel,
make of the table there was: the interleaving amounts to some order of the requests. -/
theorem C145_serial {env : Env} {K : Kernel CEv} {tab : List (Ev CEv) → Table} (hK : ServesTable env.e K tab) (hU : Undisturbed tab)
    {calls : List Call} (is : List Nat) {tr tr' : List (Ev CEv)} {s : Nat → P (Option Int × Option Err)} {log : List (Nat × Ev CEv)}
    (h : Prog.sched K is (callProgs env calls) tr = .ok ((s, log), tr')) (conn : Nat → Conn)
    (hn : ∀ (i : Nat) (c : Call), calls[i]? = some c → c.names env (conn i)) :
    tab tr' = (requesters log).foldl (fun t i => match calls[i]? with
      | some c => c.effect env.e (conn i) t
      | none => t) (tab tr) := by
  have htr := (Prog.sched_follows is h).1
  suffices key : ∀ l : List (Nat × Ev CEv), ∀ post, log = l.reverse ++ post →
      tab (tr ++ l.reverse.map (·.2)) = (requesters l.reverse).foldl (fun t i => match calls[i]? with
        | some c => c.effect env.e (conn i) t
        | none => t) (tab tr) by
    have := key log.reverse [] (by simp)
    rw [List.reverse_reverse] at this
    rw [htr]
    exact this
  intro l
  induction l with
  | nil => intro post _; simp [requesters]
  | cons y l ih =>
    intro post hlog
    obtain ⟨i, ev⟩ := y
    rw [List.reverse_cons] at hlog ⊢
    have hlog' : log = l.reverse ++ (i, ev) :: post := by rw [hlog]; simp
    have ih := ih _ hlog'
    rw [List.map_append, ← List.append_assoc, List.map_cons, List.map_nil]
    cases hev : isRequest ev with
    | false =>
      have : requesters (l.reverse ++ [(i, ev)]) = requesters l.reverse := by
        simp [requesters, List.filter_append, hev]
      rw [hU _ _ hev, ih, this]
    | true =>
      have hreq : requesters (l.reverse ++ [(i, ev)]) = requesters l.reverse ++ [i] := by
        simp [requesters, List.filter_append, hev]
      obtain ⟨c, hc⟩ := index_of_event is h (i, ev) (by rw [hlog']; simp)
      have hc : calls[i]? = some c := hc
      rw [C145_atomic hK is h i c hc (conn i) (hn i c hc) _ _ ev hlog' hev, ih, hreq, List.foldl_append]
      simp only [List.foldl_cons, List.foldl_nil, hc]

/-- C145, for a call of `ConntrackTableUpdateMark`: either nothing reached the kernel, and the errno of the send is returned; or one request did,
at a moment between the start of the call and its return, and at that very moment the mark of `x` was set in the table and nothing else
was changed; nil means that `x` was in the table then, ENOENT that it was not. -/
theorem C145_mark {env : Env} {K : Kernel CEv} {tab : List (Ev CEv) → Table} (hK : ServesTable env.e K tab) (hO : Prog.Orderly K)
    {calls : List Call} (is : List Nat) {tr tr' : List (Ev CEv)} {s : Nat → P (Option Int × Option Err)} {log : List (Nat × Ev CEv)}
    (h : Prog.sched K is (callProgs env calls) tr = .ok ((s, log), tr')) (i : Nat) {ipSrc ipDst : String} {p : Byte} {sp dp : U16}
    {mark : U32} (hc : calls[i]? = some (.mark ipSrc ipDst p sp dp mark)) (x : Conn) (hn : Names env ipSrc ipDst p sp dp x)
    (n : Option Int) (r : Option Err) (hr : s i = .ret (n, r)) :
    n = none ∧ (((∀ y ∈ log, y.1 = i → isRequest y.2 = false) ∧ (∃ e, r = some (.errno e)) ∧ ¬ Works K) ∨
      ∃ pre ev post, log = pre ++ (i, ev) :: post ∧ isRequest ev = true ∧
        (∀ y ∈ pre, y.1 = i → isRequest y.2 = false) ∧ (∀ y ∈ post, y.1 = i → isRequest y.2 = false) ∧
        tab (tr ++ pre.map (·.2) ++ [ev]) = (tab (tr ++ pre.map (·.2))).setMark x mark.toNat ∧
        ((r = none ∧ (tab (tr ++ pre.map (·.2))).Has x) ∨ (r = some (.netlink (-2)) ∧ ¬ (tab (tr ++ pre.map (·.2))).Has x) ∨
          (∃ e, r = some (.wrap "Recvfrom returned error %v" (.errno e))) ∧ ¬ Works K)) := by
  obtain ⟨⟨h1, h2⟩, h3⟩ := C145_result hK hO is h i _ hc ⟨x, hn⟩ x hn (n, r) hr
  refine ⟨h1, ?_⟩
  have hmem : ∀ (tr : List (Ev CEv)) (l : List (Nat × Ev CEv)), moments i tr l = [] → ∀ y ∈ l, y.1 = i → isRequest y.2 = false := by
    intro tr l
    unfold moments
    induction l generalizing tr with
    | nil => intro _ y hy; cases hy
    | cons z l ih =>
      obtain ⟨j, ev⟩ := z
      intro h0 y hy hyi
      simp only [Prog.placed] at h0
      by_cases hj : j = i
      · rw [if_pos hj] at h0
        cases hev : isRequest ev with
        | true => rw [List.filter_cons_of_pos (by simpa using hev)] at h0; simp at h0
        | false =>
          rw [List.filter_cons_of_neg (by simp [hev])] at h0
          rcases List.mem_cons.mp hy with rfl | hy
          · exact hev
          · exact ih _ h0 y hy hyi
      · rw [if_neg hj] at h0
        rcases List.mem_cons.mp hy with rfl | hy
        · exact absurd hyi hj
        · exact ih _ h0 y hy hyi
  have hone : ∀ m, moments i tr log = [m] → ∃ pre ev post, log = pre ++ (i, ev) :: post ∧ isRequest ev = true ∧
      (∀ y ∈ pre, y.1 = i → isRequest y.2 = false) ∧ (∀ y ∈ post, y.1 = i → isRequest y.2 = false) ∧
      m = tr ++ pre.map (·.2) := by
    intro m hm
    unfold moments at hm
    obtain ⟨⟨m', ev⟩, hf, rfl⟩ : ∃ z, (Prog.placed i tr log).filter (fun y => isRequest y.2) = [z] ∧ z.1 = m := by
      rcases hf : (Prog.placed i tr log).filter (fun y => isRequest y.2) with _ | ⟨z, _ | ⟨z', l⟩⟩
      · rw [hf] at hm; cases hm
      · rw [hf] at hm; exact ⟨z, hf, by simpa using hm⟩
      · rw [hf] at hm; simp at hm
    have hin : (m', ev) ∈ (Prog.placed i tr log).filter (fun y => isRequest y.2) := by rw [hf]; simp
    obtain ⟨hin, hev⟩ := List.mem_filter.mp hin
    obtain ⟨a, b, hab⟩ := List.append_of_mem hin
    obtain ⟨pre, post, hlog, rfl, ha, hb⟩ := Prog.placed_split i hab
    rw [hab, List.filter_append, List.filter_cons_of_pos (by simpa using hev)] at hf
    have hlen := congrArg List.length hf
    simp only [List.length_append, List.length_cons, List.length_nil] at hlen
    refine ⟨pre, ev, post, hlog, hev, hmem tr pre ?_, hmem (tr ++ pre.map (·.2) ++ [ev]) post ?_, rfl⟩
    · unfold moments; rw [ha, List.map_eq_nil_iff]; exact List.eq_nil_of_length_eq_zero (by omega)
    · unfold moments; rw [hb, List.map_eq_nil_iff]; exact List.eq_nil_of_length_eq_zero (by omega)
  have hnW : ∀ e, r = some e → (∀ c, e ≠ .netlink c) → (∀ c, e ≠ .wrap "Error %v" (.netlink c)) → ¬ Works K := by
    intro e he h1 h2 hW
    rcases h3 hW with h | ⟨c, h | h⟩
    · rw [he] at h; cases h
    · rw [he] at h; exact h1 c (Option.some.inj h)
    · rw [he] at h; exact h2 c (Option.some.inj h)
  have hcode : ∀ t, Call.code (.mark ipSrc ipDst p sp dp mark) x t = 0 ∧ t.Has x ∨
      Call.code (.mark ipSrc ipDst p sp dp mark) x t = -2 ∧ ¬ t.Has x := by
    intro t
    rw [has_iff]
    unfold Call.code
    rcases hf : t.find? (fun y => decide (y.Is x)) with _ | y
    · right; simp [hf]
    · left; simp [hf]
  have fin : ∀ m, moments i tr log = [m] →
      ((r = none ∧ (tab m).Has x) ∨ (r = some (.netlink (-2)) ∧ ¬ (tab m).Has x) ∨
          (∃ e, r = some (.wrap "Recvfrom returned error %v" (.errno e))) ∧ ¬ Works K) →
      ∃ pre ev post, log = pre ++ (i, ev) :: post ∧ isRequest ev = true ∧
        (∀ y ∈ pre, y.1 = i → isRequest y.2 = false) ∧ (∀ y ∈ post, y.1 = i → isRequest y.2 = false) ∧
        tab (tr ++ pre.map (·.2) ++ [ev]) = (tab (tr ++ pre.map (·.2))).setMark x mark.toNat ∧
        ((r = none ∧ (tab (tr ++ pre.map (·.2))).Has x) ∨ (r = some (.netlink (-2)) ∧ ¬ (tab (tr ++ pre.map (·.2))).Has x) ∨
          (∃ e, r = some (.wrap "Recvfrom returned error %v" (.errno e))) ∧ ¬ Works K) := by
    intro m hm hres
    obtain ⟨pre, ev, post, hl, hev, ha, hb, rfl⟩ := hone m hm
    exact ⟨pre, ev, post, hl, hev, ha, hb, C145_atomic hK is h i _ hc x hn pre post ev hl hev, hres⟩
  generalize hcs : ((moments i tr log).map tab).map (Call.code (.mark ipSrc ipDst p sp dp mark) x) = cs at h2
  rw [List.map_map] at hcs
  have hsingle : ∀ c, cs = [c] → ∃ m, moments i tr log = [m] ∧ Call.code (.mark ipSrc ipDst p sp dp mark) x (tab m) = c := by
    intro c hc
    rw [hc] at hcs
    rcases hm : moments i tr log with _ | ⟨m, _ | ⟨m', l⟩⟩
    · rw [hm] at hcs; cases hcs
    · rw [hm] at hcs; exact ⟨m, rfl, by simpa using hcs⟩
    · rw [hm] at hcs; simp at hcs
  cases h2 with
  | next h =>
    cases h
    obtain ⟨m, hm, hc0⟩ := hsingle _ rfl
    right
    refine fin m hm (.inl ⟨rfl, ?_⟩)
    rcases hcode (tab m) with ⟨_, h⟩ | ⟨h, _⟩
    · exact h
    · rw [h] at hc0; cases hc0
  | refused h =>
    obtain ⟨m, hm, hc0⟩ := hsingle _ rfl
    right
    refine fin m hm (.inr (.inl ?_))
    rcases hcode (tab m) with ⟨h', _⟩ | ⟨h', h''⟩
    · rw [h'] at hc0; exact absurd hc0.symm h
    · rw [h'] at hc0; rw [← hc0]; exact ⟨rfl, h''⟩
  | lost =>
    obtain ⟨m, hm, hc0⟩ := hsingle _ rfl
    right
    exact fin m hm (.inr (.inr ⟨⟨_, rfl⟩, hnW _ rfl (fun _ h => by cases h) (fun _ h => by simp at h)⟩))
  | unsent =>
    left
    refine ⟨hmem tr log ?_, ⟨_, rfl⟩, hnW _ rfl (fun _ h => by cases h) (fun _ h => by simp at h)⟩
    exact List.map_eq_nil_iff.mp hcs

/-! ### No update is lost -/

theorem effect_keys (e : Endian) (c : Call) (x : Conn) (t : Table) :
    (c.effect e x t).map (fun y => (y.orig, y.reply)) = t.map (fun y => (y.orig, y.reply)) := by
  have h1 : ∀ m, (t.setMark x m).map (fun y => (y.orig, y.reply)) = t.map (fun y => (y.orig, y.reply)) := by
    intro m
    unfold Table.setMark
    rw [List.map_map]
    apply List.map_congr_left
    intro y _
    simp only [Function.comp]
    split <;> rfl
  cases c with
  | mark s d p sp dp m => exact h1 _
  | bulkMark fs s d p sp dp m => exact h1 _
  | bulkLabel fs s d p sp dp l =>
    unfold Call.effect
    simp only
    split
    · rfl
    · unfold Table.setLabels
      rw [List.map_map]
      apply List.map_congr_left
      intro y _
      simp only [Function.comp]
      split <;> rfl

/-- The mark the call sets; `none`: it sets labels. -/
def Call.sets : Call → Option U32
  | .mark _ _ _ _ _ m => some m
  | .bulkMark _ _ _ _ _ _ m => some m
  | .bulkLabel .. => none

/-- An effect keeps the marks of the entries it does not name. -/
theorem effect_keeps {e : Endian} {c : Call} {x x' : Conn} {t : Table} {m : Nat} (h : ∀ y ∈ t, y.Is x → y.mark = m)
    (ha : Call.sets c = none ∨ ∀ y ∈ t, y.Is x → ¬ y.Is x') : ∀ y ∈ c.effect e x' t, y.Is x → y.mark = m := by
  have h1 : ∀ v, (∀ y ∈ t, y.Is x → ¬ y.Is x') → ∀ y ∈ t.setMark x' v, y.Is x → y.mark = m := by
    intro v ha y hy hyx
    obtain ⟨z, hz, rfl⟩ := List.mem_map.mp hy
    by_cases hzx : z.Is x'
    · rw [if_pos hzx] at hyx
      exact absurd hzx (ha z hz hyx)
    · rw [if_neg hzx] at hyx ⊢
      exact h z hz hyx
  cases c with
  | mark s d p sp dp v =>
    rcases ha with ha | ha
    · cases ha
    · exact h1 _ ha
  | bulkMark fs s d p sp dp v =>
    rcases ha with ha | ha
    · cases ha
    · exact h1 _ ha
  | bulkLabel fs s d p sp dp l =>
    intro y hy hyx
    unfold Call.effect at hy
    simp only at hy
    split at hy
    · exact h y hy hyx
    · obtain ⟨z, hz, rfl⟩ := List.mem_map.mp hy
      by_cases hzx : z.Is x'
      · rw [if_pos hzx] at hyx ⊢
        exact h z hz hyx
      · rw [if_neg hzx] at hyx ⊢
        exact h z hz hyx

theorem is_of_keys {t t' : Table} (hk : t.map (fun y => (y.orig, y.reply)) = t'.map (fun y => (y.orig, y.reply))) {x x' : Conn}
    (h : ∀ y ∈ t, y.Is x → ¬ y.Is x') : ∀ y ∈ t', y.Is x → ¬ y.Is x' := by
  intro y hy hyx hyx'
  have : (y.orig, y.reply) ∈ t.map (fun y => (y.orig, y.reply)) := by rw [hk]; exact List.mem_map.mpr ⟨y, hy, rfl⟩
  obtain ⟨z, hz, he⟩ := List.mem_map.mp this
  simp only [Prod.mk.injEq] at he
  refine h z hz ?_ ?_
  · unfold Entry.Is at hyx ⊢; rw [he.1, he.2]; exact hyx
  · unfold Entry.Is at hyx' ⊢; rw [he.1, he.2]; exact hyx'

/-- C145: the last request wins, and none is lost: a mark set by a request of a call that names `conn i` is the mark of that connection's
entries at the end, unless a later request sets the mark of one of these entries. -/
theorem C145_last_wins {env : Env} {K : Kernel CEv} {tab : List (Ev CEv) → Table} (hK : ServesTable env.e K tab) (hU : Undisturbed tab)
    {calls : List Call} (is : List Nat) {tr tr' : List (Ev CEv)} {s : Nat → P (Option Int × Option Err)} {log : List (Nat × Ev CEv)}
    (h : Prog.sched K is (callProgs env calls) tr = .ok ((s, log), tr')) (conn : Nat → Conn)
    (hn : ∀ (i : Nat) (c : Call), calls[i]? = some c → c.names env (conn i)) (i : Nat) (c : Call) (hc : calls[i]? = some c) (m : U32)
    (hm : Call.sets c = some m) (pre post : List (Nat × Ev CEv)) (ev : Ev CEv) (hl : log = pre ++ (i, ev) :: post)
    (hev : isRequest ev = true)
    (hlater : ∀ y ∈ post, isRequest y.2 = true → ∀ c', calls[y.1]? = some c' →
      Call.sets c' = none ∨ ∀ z ∈ tab tr, z.Is (conn i) → ¬ z.Is (conn y.1)) :
    ∀ y ∈ tab tr', y.Is (conn i) → y.mark = m.toNat := by
  have htr := (Prog.sched_follows is h).1
  have hkeys : ∀ l : List (Nat × Ev CEv), ∀ q, log = l.reverse ++ q →
      (tab (tr ++ l.reverse.map (·.2))).map (fun y => (y.orig, y.reply)) = (tab tr).map (fun y => (y.orig, y.reply)) := by
    intro l
    induction l with
    | nil => intro q _; simp
    | cons y l ih =>
      intro q hq
      obtain ⟨j, ev'⟩ := y
      rw [List.reverse_cons] at hq ⊢
      have hq' : log = l.reverse ++ (j, ev') :: q := by rw [hq]; simp
      rw [List.map_append, ← List.append_assoc, List.map_cons, List.map_nil]
      cases hev' : isRequest ev' with
      | false => rw [hU _ _ hev']; exact ih _ hq'
      | true =>
        obtain ⟨c', hc'⟩ := index_of_event is h (j, ev') (by rw [hq']; simp)
        have hc' : calls[j]? = some c' := hc'
        rw [C145_atomic hK is h j c' hc' (conn j) (hn j c' hc') _ _ ev' hq' hev', effect_keys]
        exact ih _ hq'
  suffices key : ∀ l : List (Nat × Ev CEv), ∀ q, post = l.reverse ++ q →
      ∀ y ∈ tab (tr ++ (pre ++ (i, ev) :: l.reverse).map (·.2)), y.Is (conn i) → y.mark = m.toNat by
    have := key post.reverse [] (by simp)
    rw [List.reverse_reverse, ← hl, ← htr] at this
    exact this
  intro l
  induction l with
  | nil =>
    intro q _
    have he : tr ++ (pre ++ (i, ev) :: List.reverse []).map (·.2) = tr ++ pre.map (·.2) ++ [ev] := by simp
    rw [he, C145_atomic hK is h i c hc (conn i) (hn i c hc) _ _ ev hl hev]
    have h1 : ∀ t : Table, ∀ y ∈ t.setMark (conn i) m.toNat, y.Is (conn i) → y.mark = m.toNat := by
      intro t y hy hyx
      obtain ⟨z, hz, rfl⟩ := List.mem_map.mp hy
      by_cases hzx : z.Is (conn i)
      · rw [if_pos hzx]
      · rw [if_neg hzx] at hyx; exact absurd hyx hzx
    cases c with
    | mark s d p sp dp v => cases hm; exact h1 _
    | bulkMark fs s d p sp dp v => cases hm; exact h1 _
    | bulkLabel fs s d p sp dp v => cases hm
  | cons y l ih =>
    intro q hq
    obtain ⟨j, ev'⟩ := y
    rw [List.reverse_cons] at hq
    have hq' : post = l.reverse ++ (j, ev') :: q := by rw [hq]; simp
    have ih := ih _ hq'
    have hlog : log = (pre ++ (i, ev) :: l.reverse) ++ (j, ev') :: q := by rw [hl, hq']; simp
    have he : tr ++ (pre ++ (i, ev) :: List.reverse ((j, ev') :: l)).map (·.2) =
        tr ++ (pre ++ (i, ev) :: l.reverse).map (·.2) ++ [ev'] := by simp
    rw [he]
    cases hev' : isRequest ev' with
    | false => rw [hU _ _ hev']; exact ih
    | true =>
      obtain ⟨c', hc'⟩ := index_of_event is h (j, ev') (by rw [hlog]; simp)
      have hc' : calls[j]? = some c' := hc'
      rw [C145_atomic hK is h j c' hc' (conn j) (hn j c' hc') _ _ ev' hlog hev']
      refine effect_keeps ih ?_
      rcases hlater (j, ev') (by rw [hq']; simp) hev' c' hc' with h1 | h1
      · exact .inl h1
      · right
        refine is_of_keys ?_ h1
        have := hkeys (pre ++ (i, ev) :: l.reverse).reverse ((j, ev') :: q) (by rw [List.reverse_reverse]; exact hlog)
        rw [List.reverse_reverse] at this
        exact this.symm

end Verif.Props.Ct
