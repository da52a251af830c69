import Verif.Props.NfQueueVerdict
import Verif.NfQueue.Within
/-! C160: a queue handle used by hand (NewNFQueue, NfqOpen, BindPf, CreateQueue, ..., SetVerdict2, ProcessPackets, NfqClose), through its
life, next to whatever else the application does. -/
namespace Verif.Props
open Verif.Common Verif.Sys Verif.Spec Verif.NfQueue

/-- The calls on a queue handle.  `serve n` is ProcessPackets, looked at after `n` packets or its return, whichever comes first. -/
inductive QHCall where
  | open'
  | config (c : ConfigCall)
  | verdict (c : VCall)
  | recv
  | serve (n : Nat)
  | stop
  | close

/-- Perform a call; did it succeed?  (SetVerdict, SetVerdict2, ProcessPackets and NfqClose tell nothing.) -/
noncomputable def QHCall.run (env : Env) (K : Kernel QEv) : QHCall → M Bool
  | .open' => nfqOpen K >>= fun r => pure (match r with | .ok () => true | .error _ => false)
  | .config c => c.run env K >>= fun r => pure r.isNone
  | .verdict c => c.run env K >>= fun _ => pure true
  | .recv => NfQueue.recv env K >>= fun r => pure r.2.2.isNone
  | .serve n => processPackets env K n >>= fun _ => pure true
  | .stop => stopQueue env K >>= fun r => pure r.isNone
  | .close => nfqClose K >>= fun _ => pure true

/-- A call that was made: its outcome, and what it did. -/
structure QMade where
  call : QHCall
  ok : Bool
  evs : List (Ev QEv)

/-- `QLife env K w ms w'`: from the world `w` the calls `ms` on the handle were made, one after the other, and all returned.  Meanwhile the
rest of the application may have done anything but write into the handle. -/
inductive QLife (env : Env) (K : Kernel QEv) (w : W) : List QMade → W → Prop
  | nil : QLife env K w [] w
  | other {ms w1 w2} : QLife env K w ms w1 → w2.st = w1.st → QLife env K w ms w2
  | snoc {ms m w1 w2} : QLife env K w ms w1 → m.call.run env K w1 = .ok (m.ok, w2) → w2.trace = w1.trace ++ m.evs →
      QLife env K w (ms ++ [m]) w2

/-- The descriptor a successful open obtained. -/
def QMade.obtained (m : QMade) : Option Nat :=
  match m.call, m.ok with
  | .open', true => m.evs.findSome? fun ev => match ev with
    | .socket _ _ _ (.ok fd) => some fd
    | _ => none
  | _, _ => none

/-- What the application was given and gave, after one more call: a successful NfqOpen a descriptor, CreateQueue, successful or not, a
number, callbacks and private data. -/
def giveNext (I : Ident) (m : QMade) : Ident :=
  match m.call with
  | .open' => { I with fd := m.obtained.or I.fd }
  | .config (.createQueue num cb ecb pd) => ⟨I.fd, num, cb, ecb, pd, I.chan⟩
  | _ => I

/-- What was given by all the calls: the last descriptor, the last number, callbacks and data; at first none. -/
def given (ms : List QMade) : Ident := ms.foldl giveNext ⟨none, 0, none, none, 0, ⟨100, [], false⟩⟩

theorem given_snoc (ms : List QMade) (m : QMade) : given (ms ++ [m]) = giveNext (given ms) m := by
  unfold given
  rw [List.foldl_append]; rfl

theorem within_config (env : Env) (K : Kernel QEv) (I : Ident) (c : ConfigCall) (hc : ∀ n cb ecb pd, c ≠ .createQueue n cb ecb pd) :
    Within I (c.run env K) := by
  cases c with
  | unbindPf => exact within_unbindPf env
  | bindPf => exact within_bindPf env
  | createQueue n cb ecb pd => exact absurd rfl (hc n cb ecb pd)
  | setMode m s => exact within_nfqSetMode env m s
  | setMaxLen n => exact within_nfqSetQueueMaxLen env n
  | destroyQueue => exact within_nfqDestroyQueue env

theorem within_vcall (env : Env) (K : Kernel QEv) (I : Ident) (c : VCall) : Within I (c.run env K) := by
  cases c with
  | v1 qa v l id p => exact within_setVerdict env qa v l id p
  | v2 qa v m l id p => exact within_setVerdict2 env qa v m l id p

/-- What an open does: a socket is made; whatever else happens, happens to that. -/
def OpenEvs (evs : List (Ev QEv)) : Prop :=
  (∃ n, evs = [.socket 16 3 12 (.error n)]) ∨
    ∃ fd rest, evs = .socket 16 3 12 (.ok fd) :: rest ∧ ∀ ev ∈ rest, Prog.onFd ev = some fd

theorem bindEvs_on {fd : Nat} {r : Option Nat} {evs : List (Ev QEv)} (h : NfQueue.BindEvs fd r evs) : ∀ ev ∈ evs, Prog.onFd ev = some fd := by
  rcases h with ⟨_, rfl⟩ | ⟨_, rfl⟩ <;> simp [Prog.onFd]

theorem optEvs_on {fd : Nat} {evs : List (Ev QEv)} (h : NfQueue.OptEvs fd evs) : ∀ ev ∈ evs, Prog.onFd ev = some fd := by
  intro ev hm
  rcases h.mem ev hm with ⟨_, _, _, _, rfl⟩ | ⟨_, rfl⟩ <;> rfl

theorem ident_ext {q : NfQueue} {I : Ident} (h1 : q.handle.map (·.fd) = I.fd) (h2 : restOf q = (I.num, I.cb, I.ecb, I.priv, I.chan)) :
    identOf q = I := by
  obtain ⟨fd, num, cb, ecb, pd, ch⟩ := I
  unfold restOf at h2
  simp only [Prod.mk.injEq] at h2
  obtain ⟨a, b, c, d, e⟩ := h2
  unfold identOf
  rw [h1, a, b, c, d, e]

/-- One call. -/
theorem qhcall_spec {env : Env} {K : Kernel QEv} (hcb : CallbackWithin env) {m : QMade} {w w' : W}
    (h : m.call.run env K w = .ok (m.ok, w')) (ht : w'.trace = w.trace ++ m.evs) :
    identOf w'.st = giveNext (identOf w.st) m ∧
      (m.call = .open' → OpenEvs m.evs) ∧ (m.call ≠ .open' → ∀ ev ∈ m.evs, OfQueue (giveNext (identOf w.st) m) ev) := by
  obtain ⟨call, ok, evs⟩ := m
  simp only at h ht
  have evs_eq : ∀ {l}, w'.trace = w.trace ++ l → evs = l := fun hl => List.append_cancel_left (ht.symm.trans hl)
  have fin : ∀ {β : Type} {f : β → Bool} {p : M β}, (p >>= fun r => pure (f r)) w = .ok (ok, w') → ∃ r, p w = .ok (r, w') ∧ f r = ok := by
    intro β f p h
    rw [GoM.bind_apply] at h
    obtain ⟨⟨r, w1⟩, h1, h2⟩ := Res.bind_eq_ok.mp h
    rw [GoM.pure_apply] at h2
    cases h2
    exact ⟨r, h1, rfl⟩
  have stays : ∀ {β : Type} {f : β → Bool} {p : M β}, call ≠ .open' → giveNext (identOf w.st) ⟨call, ok, evs⟩ = identOf w.st →
      Within (identOf w.st) p → (p >>= fun r => pure (f r)) w = .ok (ok, w') →
      identOf w'.st = giveNext (identOf w.st) ⟨call, ok, evs⟩ ∧
      (call = .open' → OpenEvs evs) ∧ (call ≠ .open' → ∀ ev ∈ evs, OfQueue (giveNext (identOf w.st) ⟨call, ok, evs⟩) ev) := by
    intro β f p hno hg hw hp
    obtain ⟨r, h1, _⟩ := fin hp
    obtain ⟨a, l, b, c⟩ := hw w r w' rfl h1
    rw [hg, evs_eq b]
    exact ⟨a, fun h => absurd h hno, fun _ => c⟩
  cases call with
  | open' =>
    obtain ⟨r, h1, hr⟩ := fin h
    have hk : restOf w'.st = restOf w.st := nfqOpen_keeps w r w' h1
    rcases nfqOpen_spec K w with ⟨n, w1, _, h2, ht1, _, hs1⟩ | ⟨fd, hfd, ⟨n, bevs, w1, _, h2, hb, ht1, _, hs1⟩ | ⟨bevs, opts, w1, h2, hb, ho, ht1, _, hs1⟩⟩
    · rw [h2] at h1
      cases h1
      have he := evs_eq ht1
      simp only at hr
      subst hr
      refine ⟨ident_ext ?_ hk, fun _ => he ▸ .inl ⟨n, rfl⟩, fun h => absurd rfl h⟩
      rw [hs1]
      rfl
    · rw [h2] at h1
      cases h1
      have he := evs_eq ht1
      simp only at hr
      subst hr
      refine ⟨ident_ext ?_ hk, fun _ => he ▸ .inr ⟨fd, bevs, rfl, bindEvs_on hb⟩, fun h => absurd rfl h⟩
      rw [hs1]
      rfl
    · rw [h2] at h1
      cases h1
      have he := evs_eq ht1
      simp only at hr
      subst hr
      refine ⟨ident_ext ?_ hk, fun _ => he ▸ .inr ⟨fd, bevs ++ opts, by simp, ?_⟩, fun h => absurd rfl h⟩
      · rw [hs1, he]
        rfl
      · intro ev hm
        rcases List.mem_append.mp hm with hm | hm
        · exact bindEvs_on hb ev hm
        · exact optEvs_on ho ev hm
  | config c =>
    by_cases hc : ∃ n cb ecb pd, c = .createQueue n cb ecb pd
    · obtain ⟨n, cb, ecb, pd, rfl⟩ := hc
      obtain ⟨r, h1, _⟩ := fin h
      obtain ⟨a, l, b, c⟩ := createQueue_within env n cb ecb pd w r w' h1
      refine ⟨a, fun h => (by cases h), fun _ => ?_⟩
      show ∀ ev ∈ evs, _
      rw [evs_eq b]
      exact c
    · have hc' : ∀ n cb ecb pd, c ≠ .createQueue n cb ecb pd := fun n cb ecb pd e => hc ⟨n, cb, ecb, pd, e⟩
      refine stays (by simp) ?_ (within_config env K _ c hc') h
      cases c with
      | createQueue n cb ecb pd => exact absurd rfl (hc' n cb ecb pd)
      | _ => rfl
  | verdict c => exact stays (by simp) rfl (within_vcall env K _ c) h
  | recv => exact stays (by simp) rfl (within_recv env) h
  | serve n => exact stays (by simp) rfl (within_processPackets hcb n) h
  | stop => exact stays (by simp) rfl (within_stopQueue env) h
  | close => exact stays (by simp) rfl within_nfqClose h

theorem qlife_inv {env : Env} {K : Kernel QEv} (hcb : CallbackWithin env) {w w' : W} {ms : List QMade} (hl : QLife env K w ms w')
    (hw : identOf w.st = ⟨none, 0, none, none, 0, ⟨100, [], false⟩⟩) : identOf w'.st = given ms := by
  induction hl with
  | nil => exact hw
  | other _ he ih => rw [he, ih]
  | snoc _ hr ht ih => rw [given_snoc, (qhcall_spec hcb hr ht).1, ih]

theorem last_call {env : Env} {K : Kernel QEv} {w w' : W} {ms : List QMade} {m : QMade} (hl : QLife env K w (ms ++ [m]) w') :
    ∃ w1 w2, QLife env K w ms w1 ∧ m.call.run env K w1 = .ok (m.ok, w2) ∧ w2.trace = w1.trace ++ m.evs := by
  generalize hms : ms ++ [m] = l at hl
  induction hl with
  | nil => simp at hms
  | other _ _ ih => exact ih hms
  | @snoc ms' m' w1 w2 hl hr ht _ =>
    obtain ⟨rfl, h⟩ := List.append_inj' hms rfl
    cases h
    exact ⟨w1, w2, hl, hr, ht⟩

/-- C160: on a handle made by NewNFQueue, whatever calls were made on it before: every call but NfqOpen makes system calls on no other
descriptor than the one the last successful NfqOpen obtained (none, if there was none), and runs no other callbacks than those of the last
CreateQueue, the packet callback with the private data given there.  NfqOpen itself touches no other socket than the one it makes. -/
theorem C160_acts (env : Env) (K : Kernel QEv) (hcb : CallbackWithin env) (w w' : W) (h : Heap) (ms : List QMade) (m : QMade)
    (hw : w.st = (newNFQueue h).1) (hl : QLife env K w (ms ++ [m]) w') :
    (m.call = .open' → OpenEvs m.evs) ∧ (m.call ≠ .open' → ∀ ev ∈ m.evs, OfQueue (given (ms ++ [m])) ev) := by
  obtain ⟨w1, w2, hl1, hr, ht⟩ := last_call hl
  have hi := qlife_inv hcb hl1 (by rw [hw]; rfl)
  obtain ⟨_, a, b⟩ := qhcall_spec hcb hr ht
  rw [given_snoc, ← hi]
  exact ⟨a, b⟩

/-- C160: and a configuration call on it, if a socket was opened, first sends the request meant, for the queue number last given to
CreateQueue, on that socket; if none was, it fails and does nothing. -/
theorem C160_requests (env : Env) (K : Kernel QEv) (hcb : CallbackWithin env) (w w' : W) (h : Heap) (ms : List QMade) (c : ConfigCall)
    (ok : Bool) (evs : List (Ev QEv)) (hw : w.st = (newNFQueue h).1) (hl : QLife env K w (ms ++ [⟨.config c, ok, evs⟩]) w') :
    ((given ms).fd = none → ok = false ∧ evs = []) ∧
    ∀ fd, (given ms).fd = some fd → ∃ b x rest, evs = .sendto fd b 0 x :: rest ∧ Encodes env.e b (c.req (given ms).num) := by
  obtain ⟨w1, w2, hl1, hr, ht⟩ := last_call hl
  have hi := qlife_inv hcb hl1 (by rw [hw]; rfl)
  rw [← hi]
  change (c.run env K >>= fun r => pure r.isNone) w1 = .ok (ok, w2) at hr
  change w2.trace = w1.trace ++ evs at ht
  rw [GoM.bind_apply] at hr
  obtain ⟨⟨r, w3⟩, h1, h2⟩ := Res.bind_eq_ok.mp hr
  have h3 : r.isNone = ok ∧ w3 = w2 := by
    rw [GoM.pure_apply] at h2
    cases h2
    exact ⟨rfl, rfl⟩
  obtain ⟨rfl, rfl⟩ := h3
  constructor
  · intro hn
    have hn' : w1.st.handle = none := by
      cases hh : w1.st.handle with
      | none => rfl
      | some qh =>
        have : (identOf w1.st).fd = some qh.fd := fd_of rfl hh
        rw [this] at hn; cases hn
    obtain ⟨err, w4, he, ht4, _⟩ := C13_no_socket env K c w1 hn'
    rw [he] at h1
    cases h1
    refine ⟨rfl, ?_⟩
    rw [ht4] at ht
    simpa using ht
  · intro fd hfd
    have ⟨qh, hh, hq⟩ : ∃ qh, w1.st.handle = some qh ∧ qh.fd = fd := by
      cases hh : w1.st.handle with
      | none =>
        have : (identOf w1.st).fd = none := by unfold identOf; rw [hh]; rfl
        rw [this] at hfd; cases hfd
      | some qh =>
        have : (identOf w1.st).fd = some qh.fd := fd_of rfl hh
        rw [this] at hfd; cases hfd; exact ⟨qh, rfl, rfl⟩
    obtain ⟨msg, he, henc⟩ := run_eq env K c w1
    rw [he] at h1
    have hh' : ({ w1 with st := c.record w1.st } : W).st.handle = some qh := by cases c <;> exact hh
    unfold queryOrFail at h1
    simp only [GoM.bind_apply, getQ, Res.ok_bind] at h1
    rw [hh'] at h1
    simp only at h1
    unfold Handle.query at h1
    rw [GoM.bind_apply] at h1
    obtain ⟨r1, sevs, hs, hse⟩ := send_spec env K qh msg { w1 with st := c.record w1.st }
    rw [hs] at h1
    simp only [Res.ok_bind] at h1
    have hpre : ∃ x rest, sevs = .sendto fd (hdrBytes env.e msg.header ++ msg.data) 0 x :: rest := by
      rw [hq] at hse
      rcases hse with ⟨_, rfl⟩ | ⟨_, rfl⟩ <;> exact ⟨_, _, rfl⟩
    obtain ⟨x, rest, rfl⟩ := hpre
    have hrec : ∃ l, w3.trace = w1.trace ++ (.sendto fd (hdrBytes env.e msg.header ++ msg.data) 0 x :: rest) ++ l := by
      cases r1 with
      | some n =>
        cases h1
        exact ⟨[], by simp⟩
      | none =>
        obtain ⟨_, l, hl, _⟩ := within_hrecv (I := identOf (c.record w1.st)) env qh (fd_of rfl hh') _ r w3 (by rfl) h1
        exact ⟨l, hl⟩
    obtain ⟨l, hl⟩ := hrec
    refine ⟨_, x, rest ++ l, ?_, henc⟩
    rw [ht, List.append_assoc] at hl
    exact List.append_cancel_left hl

/-- Callbacks that do nothing are such. -/
theorem idle_callback : CallbackWithin someEnv := fun w => ⟨rfl, [], by simp [someEnv], by simp⟩

/-- A handle that was asked to bind queue 7 before it had a socket, then opened, then closed, then asked to set the copy mode: the first
fails without a trace, the last sends its request, for queue 7, on descriptor 3 (and gets no answer). -/
theorem C160_example (h : Heap) : ∃ ms w', QLife someEnv { ackKernel 0 with recv := fun _ _ => .error 11 }
      ⟨[], (newNFQueue h).2, (newNFQueue h).1⟩ ms w' ∧
    ms.map (fun m => (m.ok, m.evs.map Prog.onFd)) = [(false, []),
      (true, [none, some 3, some 3, some 3, some 3, some 3]), (true, [some 3]), (false, [some 3, some 3])] ∧
    given ms = ⟨some 3, 7, some 1, none, 99, ⟨100, [], false⟩⟩ := by
  refine ⟨_, _, .snoc (m := ⟨.config (.setMode 2 64), false, _⟩) (.snoc (m := ⟨.close, true, [.close 3 none]⟩) (.snoc (m := ⟨.open', true, [.socket 16 3 12 (.ok 3), .bind 3 none, .setsockopt 3 270 5 1 none,
      .setsockopt 3 1 33 38400000 none, .setsockopt 3 1 32 38400000 none, .linger 3 none]⟩)
    (.snoc (m := ⟨.config (.createQueue 7 (some 1) none 99), false, []⟩) .nil rfl (by simp)) rfl
      (by simp [World.log, ackKernel, nfnlBuffSize])) rfl rfl) rfl (by exact List.append_assoc _ _ _), rfl, rfl⟩
end Verif.Props
