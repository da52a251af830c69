import Verif.Props.NfLogHandle
import Verif.Props.NfLogStays
import Verif.NfLog.Within
/-! C163: a log handle used by hand, ReadLogs included, through its life, next to whatever else the application does. -/
namespace Verif.Props.Log
open Verif.Common Verif.Sys Verif.Sys.Prog Verif.Spec Verif.NfLog

/-- The calls on a log handle: those of `HCall`, and ReadLogs, looked at after `n` datagrams or its return, whichever comes first. -/
inductive LCall where
  | hand (c : HCall)
  | serve (n : Nat)

/-- Perform a call; did it succeed?  (ReadLogs returns nothing.) -/
noncomputable def LCall.run (env : Env) (K : Kernel LEv) : LCall → M Bool
  | .hand c => c.run env K
  | .serve n => readLogs env K n >>= fun _ => pure true

/-- A call that was made: its outcome, and what it did. -/
structure LMade where
  call : LCall
  ok : Bool
  evs : List (Ev LEv)

/-- `LLife env K w ms w'`: from the world `w` the calls `ms` on the handle were made, one after the other, and all returned (or, for ReadLogs,
were looked at).  Meanwhile the rest of the application may have done anything but write into the handle. -/
inductive LLife (env : Env) (K : Kernel LEv) (w : W) : List LMade → W → Prop
  | nil : LLife env K w [] w
  | other {ms w1 w2} : LLife env K w ms w1 → w2.st = w1.st → LLife env K w ms w2
  | snoc {ms m w1 w2} : LLife env K w ms w1 → m.call.run env K w1 = .ok (m.ok, w2) → w2.trace = w1.trace ++ m.evs →
      LLife env K w (ms ++ [m]) w2

/-- The descriptor a successful open obtained. -/
def LMade.obtained (m : LMade) : Option Nat :=
  match m.call, m.ok with
  | .hand .open', true => m.evs.findSome? fun ev => match ev with
    | .socket _ _ _ (.ok fd) => some fd
    | _ => none
  | _, _ => none

/-- What the application was given and gave, after one more call: a successful NFlogOpen a descriptor, NFlogBindGroup, successful or not,
callbacks. -/
def giveLog (I : Ident) (m : LMade) : Ident :=
  match m.call with
  | .hand .open' => { I with fd := m.obtained.or I.fd }
  | .hand (.call (.bindGroup _ cb ecb)) => ⟨I.fd, cb, ecb⟩
  | _ => I

/-- What was given by all the calls: the last descriptor, the last callbacks; at first none. -/
def givenLog (ms : List LMade) : Ident := ms.foldl giveLog ⟨none, none, none⟩

theorem givenLog_snoc (ms : List LMade) (m : LMade) : givenLog (ms ++ [m]) = giveLog (givenLog ms) m := by
  unfold givenLog
  rw [List.foldl_append]; rfl

theorem within_logCall (env : Env) (K : Kernel LEv) (I : Ident) (c : LogCall) (hc : ∀ gs cb ecb, c ≠ .bindGroup gs cb ecb) :
    Within I (c.run env K) := by
  cases c with
  | unbind => exact within_nflogUnbind env
  | bind => exact within_nflogBind env
  | bindGroup gs cb ecb => exact absurd rfl (hc gs cb ecb)
  | setMode gs n => exact within_nflogSetMode env gs n

/-- What an open does: a socket is made; whatever else happens, happens to that. -/
def OpenLogEvs (evs : List (Ev LEv)) : Prop :=
  (∃ n, evs = [.socket 16 3 12 (.error n)]) ∨
    ∃ fd rest, evs = .socket 16 3 12 (.ok fd) :: rest ∧ ∀ ev ∈ rest, onFd ev = some fd

theorem bindEvs_onFd {fd : Nat} {r : Option Nat} {evs : List (Ev LEv)} (h : BindEvs fd r evs) : ∀ ev ∈ evs, onFd ev = some fd := by
  rcases h with ⟨_, rfl⟩ | ⟨_, rfl⟩ <;> simp [onFd]

theorem optEvs_onFd {fd : Nat} {evs : List (Ev LEv)} (h : OptEvs fd evs) : ∀ ev ∈ evs, onFd ev = some fd := by
  intro ev hm
  rcases h with rfl | ⟨_, _, rfl⟩
  · rw [List.mem_singleton] at hm
    subst hm; rfl
  · simp only [List.mem_cons, List.not_mem_nil, or_false] at hm
    rcases hm with rfl | rfl <;> rfl

/-- One call. -/
theorem lcall_spec {env : Env} {K : Kernel LEv} (hcb : CallbackWithin env) {m : LMade} {w w' : W}
    (h : m.call.run env K w = .ok (m.ok, w')) (ht : w'.trace = w.trace ++ m.evs) :
    identOf w'.st = giveLog (identOf w.st) m ∧ (m.call = .hand .open' → OpenLogEvs m.evs) ∧
      (m.call ≠ .hand .open' → ∀ ev ∈ m.evs, OfLog (giveLog (identOf w.st) m) ev) := by
  obtain ⟨call, ok, evs⟩ := m
  simp only at h ht
  have evs_eq : ∀ {l}, w'.trace = w.trace ++ l → evs = l := fun hl => List.append_cancel_left (ht.symm.trans hl)
  have stays : ∀ {β : Type} {f : β → M Bool} {p : M β}, call ≠ .hand .open' → giveLog (identOf w.st) ⟨call, ok, evs⟩ = identOf w.st →
      Within (identOf w.st) p → (∀ x, Within (identOf w.st) (f x)) → (p >>= f) w = .ok (ok, w') →
      identOf w'.st = giveLog (identOf w.st) ⟨call, ok, evs⟩ ∧ (call = .hand .open' → OpenLogEvs evs) ∧
      (call ≠ .hand .open' → ∀ ev ∈ evs, OfLog (giveLog (identOf w.st) ⟨call, ok, evs⟩) ev) := by
    intro β f p hno hg hw hf hp
    obtain ⟨a, l, b, c⟩ := hw.bind hf w ok w' hp rfl
    rw [hg, evs_eq b]
    exact ⟨a, fun h => absurd h hno, fun _ => c⟩
  cases call with
  | serve n => exact stays (by simp) rfl (within_readLogs hcb n) (fun _ => .pure _) h
  | hand c =>
    cases c with
    | open' =>
      change HCall.run env K .open' w = _ at h
      unfold HCall.run at h
      simp only [GoM.bind_apply] at h
      rcases nflogOpen_spec K w with ⟨n, w1, _, h1, ht1, hs1⟩ | ⟨fd, hfd, ⟨n, bevs, w1, _, h1, hb, ht1, hs1⟩ | ⟨bevs, opts, w1, _, h1, hb, ho, ht1, _, hs1⟩⟩
      · rw [h1] at h
        cases h
        rw [hs1, evs_eq ht1]
        exact ⟨rfl, fun _ => .inl ⟨n, rfl⟩, fun h => absurd rfl h⟩
      · rw [h1] at h
        cases h
        rw [hs1, evs_eq ht1]
        exact ⟨rfl, fun _ => .inr ⟨fd, bevs, rfl, bindEvs_onFd hb⟩, fun h => absurd rfl h⟩
      · rw [h1] at h
        cases h
        rw [hs1, evs_eq ht1]
        refine ⟨rfl, fun _ => .inr ⟨fd, bevs ++ opts, by simp, ?_⟩, fun h => absurd rfl h⟩
        intro ev hm
        rcases List.mem_append.mp hm with hm | hm
        · exact bindEvs_onFd hb ev hm
        · exact optEvs_onFd ho ev hm
    | call c =>
      have hfin : ∀ x : Option Err, Within (identOf w.st) (match x with | none => pure true | some _ => pure false : M Bool) := by
        intro x
        cases x <;> exact .pure _
      by_cases hc : ∃ gs cb ecb, c = .bindGroup gs cb ecb
      · obtain ⟨gs, cb, ecb, rfl⟩ := hc
        change HCall.run env K (.call (.bindGroup gs cb ecb)) w = _ at h
        simp only [HCall.run, GoM.bind_apply] at h
        obtain ⟨⟨r, w1⟩, h1, h2⟩ := Res.bind_eq_ok.mp h
        have hw : w1 = w' := by cases r <;> (cases h2; rfl)
        subst hw
        obtain ⟨a, l, b, c⟩ := nflogBindGroup_within env gs cb ecb w r w1 h1
        refine ⟨a, fun h => (by cases h), fun _ => ?_⟩
        show ∀ ev ∈ evs, _
        rw [evs_eq b]
        exact c
      · have hc' : ∀ gs cb ecb, c ≠ .bindGroup gs cb ecb := fun gs cb ecb e => hc ⟨gs, cb, ecb, e⟩
        refine stays (by simp) ?_ (within_logCall env K _ c hc') hfin h
        cases c with
        | bindGroup gs cb ecb => exact absurd rfl (hc' gs cb ecb)
        | _ => rfl
    | close => exact stays (by simp) rfl within_nflogClose (fun _ => .pure _) h

theorem llife_inv {env : Env} {K : Kernel LEv} (hcb : CallbackWithin env) {w w' : W} {ms : List LMade} (hl : LLife env K w ms w')
    (hw : w.st = newNFLog) : identOf w'.st = givenLog ms := by
  induction hl with
  | nil => rw [hw]; rfl
  | other _ he ih => rw [he, ih]
  | snoc _ hr ht ih => rw [givenLog_snoc, (lcall_spec hcb hr ht).1, ih]

theorem last_lcall {env : Env} {K : Kernel LEv} {w w' : W} {ms : List LMade} {m : LMade} (hl : LLife env K w (ms ++ [m]) w') :
    ∃ w1 w2, LLife env K w ms w1 ∧ m.call.run env K w1 = .ok (m.ok, w2) ∧ w2.trace = w1.trace ++ m.evs := by
  generalize hms : ms ++ [m] = l at hl
  induction hl with
  | nil => simp at hms
  | other _ _ ih => exact ih hms
  | @snoc ms' m' w1 w2 hl hr ht _ =>
    obtain ⟨rfl, h⟩ := List.append_inj' hms rfl
    cases h
    exact ⟨w1, w2, hl, hr, ht⟩

/-- C163: on a handle made by NewNFLog, whatever calls were made on it before: every call but NFlogOpen, ReadLogs included, makes system
calls on no other descriptor than the one the last successful NFlogOpen obtained (none, if there was none), and runs no other callbacks
than those given to the last NFlogBindGroup.  NFlogOpen itself touches no other socket than the one it makes. -/
theorem C163_acts (env : Env) (K : Kernel LEv) (hcb : CallbackWithin env) (w w' : W) (ms : List LMade) (m : LMade)
    (hw : w.st = newNFLog) (hl : LLife env K w (ms ++ [m]) w') :
    (m.call = .hand .open' → OpenLogEvs m.evs) ∧ (m.call ≠ .hand .open' → ∀ ev ∈ m.evs, OfLog (givenLog (ms ++ [m])) ev) := by
  obtain ⟨w1, w2, hl1, hr, ht⟩ := last_lcall hl
  have hi := llife_inv hcb hl1 hw
  obtain ⟨_, a, b⟩ := lcall_spec hcb hr ht
  rw [givenLog_snoc, ← hi]
  exact ⟨a, b⟩

/-- C163: a configuration call on it, if a socket was opened, has with the kernel, on that socket, the exchanges meant, one per group, up to
the first that fails; if none was, it does nothing. -/
theorem C163_requests (env : Env) (K : Kernel LEv) (hcb : CallbackWithin env) (w w' : W) (ms : List LMade) (c : LogCall)
    (ok : Bool) (evs : List (Ev LEv)) (hw : w.st = newNFLog) (hl : LLife env K w (ms ++ [⟨.hand (.call c), ok, evs⟩]) w') :
    ((givenLog ms).fd = none → evs = []) ∧
    ∀ fd, (givenLog ms).fd = some fd → ∃ r : Option Err, (ok = true ↔ r = none) ∧ GroupsOut env.e fd c.req c.groups r evs := by
  obtain ⟨w1, w2, hl1, hr, ht⟩ := last_lcall hl
  have hi := llife_inv hcb hl1 hw
  rw [← hi]
  change HCall.run env K (.call c) w1 = .ok (ok, w2) at hr
  change w2.trace = w1.trace ++ evs at ht
  simp only [HCall.run, GoM.bind_apply] at hr
  obtain ⟨⟨r, w3⟩, h1, h2⟩ := Res.bind_eq_ok.mp hr
  have h3 : (ok = true ↔ r = none) ∧ w3 = w2 := by
    cases r <;> (cases h2; simp)
  obtain ⟨h3, rfl⟩ := h3
  rcases socket_cases w1 with hn | ⟨fd', ho⟩
  · have hf : (identOf w1.st).fd = none := by unfold identOf; rw [hn]; rfl
    rw [hf]
    refine ⟨fun _ => ?_, fun fd h => (by cases h)⟩
    rw [(run_none env K c w1 w3 r hn h1).1] at ht
    simpa using ht
  · have hf : (identOf w1.st).fd = some fd' := by
      obtain ⟨n, hn⟩ := ho
      exact fd_of rfl hn
    rw [hf]
    refine ⟨fun h => (by cases h), fun fd h => ?_⟩
    cases h
    obtain ⟨evs', hg, ht', _⟩ := run_spec env K c w1 w3 _ r ho h1
    rw [ht'] at ht
    rw [← List.append_cancel_left ht]
    exact ⟨r, h3, hg⟩

/-- C163: ReadLogs on a handle whose last NFlogBindGroup gave a nil error callback reports no error to anyone, and every log it reports
goes to the log callback given there. -/
theorem C163_reports (env : Env) (K : Kernel LEv) (hcb : CallbackWithin env) (w w' : W) (ms : List LMade) (n : Nat) (ok : Bool)
    (evs : List (Ev LEv)) (hw : w.st = newNFLog) (hl : LLife env K w (ms ++ [⟨.serve n, ok, evs⟩]) w') :
    (∀ cb m, .app (.log cb m) ∈ evs → (givenLog ms).cb = some cb) ∧
    (∀ ecb k err, .app (.error ecb k err) ∈ evs → (givenLog ms).ecb = some ecb) := by
  have h := (C163_acts env K hcb w w' ms _ hw hl).2 (by simp)
  rw [givenLog_snoc] at h
  exact ⟨fun cb m hm => h _ hm, fun ecb k err hm => h _ hm⟩

/-- Callbacks that do nothing are such. -/
theorem idle_log_callback : CallbackWithin someEnv := fun w => .refl w

theorem serve_once (w : W) (n : Nat) (hc : w.st.callback = some 1) (hs : w.st.socket = some ⟨3, n⟩) :
    ∃ w' evs m, LCall.run someEnv repeating (.serve 1) w = .ok (true, w') ∧ w'.trace = w.trace ++ evs ∧ logs evs = [(1, m)] ∧
      m.payload = udp29 := by
  obtain ⟨w', ms, h1, h2, h3⟩ := C37_datagram_delivered someEnv someEnv_quiet.toPolite 1 sampleItems (by decide) sampleItems_ok
    ({ w with trace := w.trace ++ [.recvfrom 3 65536 0 (.ok (datagram sampleItems))] } : W) hc
  obtain ⟨m, rfl, hm⟩ := sample_reports h2
  obtain ⟨h3, evs, h4, h5, _⟩ := h3
  refine ⟨w', [.recvfrom 3 65536 0 (.ok (datagram sampleItems))] ++ evs, m, ?_, by rw [h4]; simp, ?_, hm⟩
  · have htake : (datagram sampleItems).take 65536 = datagram sampleItems := List.take_of_length_le (by decide)
    have hit : readIter someEnv repeating w = .ok (false, w') := by
      unfold readIter
      simp only [GoM.bind_apply, getL, Res.ok_bind, hs]
      simp only [Sys.recvfrom, rawRecvfrom, repeating, Res.ok_bind, Except.map, World.log, htake, GoM.bind_apply, GoM.pure_apply]
      show handleDatagram someEnv (datagram sampleItems) _ = _
      unfold handleDatagram
      exact (congrArg (· >>= _) h1).trans rfl
    unfold LCall.run readLogs
    simp only [GoM.bind_apply, hit, Res.ok_bind, Bool.false_eq_true, if_false]
    rfl
  · rw [logs_append, h5]; rfl

/-- A handle given callbacks 7 and 8 before it had a socket (nothing happens), then opened, then given callback 1 and no error callback, then
read once while the rest of the application does something: the log received on descriptor 3 goes to callback 1. -/
theorem C163_example : ∃ ms w' evs m, LLife someEnv repeating ⟨[], ⟨[]⟩, newNFLog⟩ (ms ++ [⟨.serve 1, true, evs⟩]) w' ∧
    givenLog ms = ⟨some 3, some 1, none⟩ ∧ logs evs = [(1, m)] ∧ m.payload = udp29 ∧ ms.length = 3 := by
  have h : ∃ ms w1, LLife someEnv repeating ⟨[], ⟨[]⟩, newNFLog⟩ ms w1 ∧ givenLog ms = ⟨some 3, some 1, none⟩ ∧ ms.length = 3 ∧
      w1.st.callback = some 1 ∧ w1.st.socket = some ⟨3, 0⟩ := by
    refine ⟨_, _, .snoc (m := ⟨.hand (.call (.bindGroup [] (some 1) none)), true, []⟩)
      (.snoc (m := ⟨.hand .open', true, [.socket 16 3 12 (.ok 3), .bind 3 none, .setsockopt 3 270 5 1 none]⟩)
      (.snoc (m := ⟨.hand (.call (.bindGroup [5] (some 7) (some 8))), true, []⟩) .nil rfl rfl) rfl rfl) rfl rfl, rfl, rfl, rfl, rfl⟩
  obtain ⟨ms, w1, hl, hg, hn, hc, hs⟩ := h
  have hl' : LLife someEnv repeating ⟨[], ⟨[]⟩, newNFLog⟩ ms (w1.log (.close 9 none)) := .other hl rfl
  obtain ⟨w2, evs, m, h1, h2, h3, h4⟩ := serve_once (w1.log (.close 9 none)) 0 hc hs
  exact ⟨ms, w2, evs, m, .snoc hl' h1 h2, hg, h3, h4, hn⟩

end Verif.Props.Log
