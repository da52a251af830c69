import Verif.Props.NfLogConfig
import Verif.Sys.Prog
/-! C127, C128: a log handle used by hand (NewNFLog, NFlogOpen, NFlogBindGroup, ..., NFlogClose), through its life. -/
namespace Verif.Props.Log
open Verif.Common Verif.Sys Verif.Sys.Prog Verif.Spec Verif.NfLog

/-- The calls on a log handle. -/
inductive HCall where
  | open'
  | call (c : LogCall)
  | close

/-- Perform a call; did it succeed?  (NFlogClose returns nothing.) -/
def HCall.run (env : Env) (K : Kernel LEv) : HCall → M Bool
  | .open' => do
    match ← nflogOpen K with
    | .ok () => pure true
    | .error _ => pure false
  | .call c => do
    match ← c.run env K with
    | none => pure true
    | some _ => pure false
  | .close => do
    nflogClose K
    pure true

/-- A call that was made: its outcome, and the system calls it made. -/
structure Made where
  call : HCall
  ok : Bool
  evs : List (Ev LEv)

/-- `Life env K w ms w'`: from the world `w` the calls `ms` were made, one after the other, and all returned. -/
inductive Life (env : Env) (K : Kernel LEv) (w : W) : List Made → W → Prop
  | nil : Life env K w [] w
  | snoc {ms m w1 w2} : Life env K w ms w1 → m.call.run env K w1 = .ok (m.ok, w2) → w2.trace = w1.trace ++ m.evs →
      Life env K w (ms ++ [m]) w2

/-- The descriptor a successful open obtained. -/
def Made.obtained (m : Made) : Option Nat :=
  match m.call, m.ok with
  | .open', true => m.evs.findSome? fun ev => match ev with
    | .socket _ _ _ (.ok fd) => some fd
    | _ => none
  | _, _ => none

/-- The descriptor of the last successful open. -/
def current (ms : List Made) : Option Nat := ms.reverse.findSome? Made.obtained

theorem current_snoc (ms : List Made) (m : Made) : current (ms ++ [m]) = m.obtained.or (current ms) := by
  unfold current
  rw [List.reverse_append]
  simp only [List.reverse_cons, List.reverse_nil, List.nil_append, List.singleton_append, List.findSome?_cons]
  cases m.obtained <;> rfl

theorem queryOrSkip_none (env : Env) (K : Kernel LEv) (msg : NetlinkMessage) (w : W) (h : w.st.socket = none) :
    queryOrSkip env K msg w = .ok (none, w) := by
  unfold queryOrSkip
  simp only [GoM.bind_apply, getL, Res.ok_bind, h]
  rfl

theorem forGroups_none (env : Env) (K : Kernel LEv) (mk : U16 → Res NetlinkMessage) (hmk : ∀ g, ∃ m, mk g = .ok m) :
    ∀ (gs : List U16) (w : W), w.st.socket = none → forGroups env K mk gs w = .ok (none, w)
  | [], _, _ => rfl
  | g :: gs, w, h => by
    obtain ⟨m, hm⟩ := hmk g
    unfold forGroups
    simp only [GoM.bind_apply, hm, GoM.lift_apply, Res.ok_bind, queryOrSkip_none env K m w h]
    exact forGroups_none env K mk hmk gs w h

/-- A configuration call without a socket does nothing to the system, nor to the handle but record callbacks. -/
theorem run_none (env : Env) (K : Kernel LEv) (c : LogCall) (w w' : W) (r : Option Err) (hn : w.st.socket = none)
    (h : c.run env K w = .ok (r, w')) : w'.trace = w.trace ∧ w'.st = c.record w.st := by
  cases c with
  | unbind =>
    obtain ⟨_, err, he⟩ := C13_nflog_no_socket env K w hn
    change nflogUnbind env K w = _ at h
    rw [he] at h
    cases h
    exact ⟨rfl, rfl⟩
  | bind =>
    obtain ⟨⟨err, he⟩, _⟩ := C13_nflog_no_socket env K w hn
    change nflogBind env K w = _ at h
    rw [he] at h
    cases h
    exact ⟨rfl, rfl⟩
  | bindGroup gs cb ecb =>
    change nflogBindGroup env K gs cb ecb w = _ at h
    unfold nflogBindGroup at h
    simp only [GoM.bind_apply, modifyL, Res.ok_bind] at h
    rw [forGroups_none env K _ (fun g => ⟨_, commandMsg_eq env 1 g⟩) gs
      ({ w with st := { w.st with callback := cb, errorCallback := ecb } } : W) hn] at h
    cases h
    exact ⟨rfl, rfl⟩
  | setMode gs size =>
    change nflogSetMode env K gs size w = _ at h
    unfold nflogSetMode at h
    rw [forGroups_none env K _ (fun g => ⟨_, modeMsg_eq env size g⟩) gs w hn] at h
    cases h
    exact ⟨rfl, rfl⟩

theorem sends_on {fd : Nat} {b : List Byte} {r : Option Nat} {evs : List (Ev LEv)} (h : SendEvs fd b r evs) :
    ∀ ev ∈ evs, onFd ev = some fd := by
  rcases h with ⟨_, rfl⟩ | ⟨_, rfl⟩ <;> simp [onFd]

theorem query_on {e : Endian} {fd : Nat} {b : List Byte} {r : Option Err} {evs : List (Ev LEv)} (h : QueryOut e fd b r evs) :
    ∀ ev ∈ evs, onFd ev = some fd := by
  cases h with
  | sendFailed hs => exact sends_on hs
  | recvFailed hs =>
    intro ev hm
    rcases List.mem_append.mp hm with hm | hm
    · exact sends_on hs ev hm
    · rw [List.mem_singleton] at hm; subst hm; rfl
  | replied hs _ _ _ =>
    intro ev hm
    rcases List.mem_append.mp hm with hm | hm
    · exact sends_on hs ev hm
    · rw [List.mem_singleton] at hm; subst hm; rfl

theorem groups_on {e : Endian} {fd : Nat} {req : Nat → LReq} {gs : List U16} {r : Option Err} {evs : List (Ev LEv)}
    (h : GroupsOut e fd req gs r evs) : ∀ ev ∈ evs, onFd ev = some fd := by
  induction h with
  | nil => simp
  | cons hx _ ih =>
    obtain ⟨_, _, hq⟩ := hx
    intro ev hm
    rcases List.mem_append.mp hm with hm | hm
    · exact query_on hq ev hm
    · exact ih ev hm
  | stop hx =>
    obtain ⟨_, _, hq⟩ := hx
    exact query_on hq

theorem socket_cases (w : W) : w.st.socket = none ∨ ∃ fd, OpenOn w fd := by
  rcases h : w.st.socket with _ | ⟨fd, n⟩
  · exact .inl rfl
  · exact .inr ⟨fd, n, h⟩

/-- One call: what it does to the handle, and where its system calls go. -/
theorem hcall_spec {env : Env} {K : Kernel LEv} {m : Made} {w w' : W} (h : m.call.run env K w = .ok (m.ok, w'))
    (ht : w'.trace = w.trace ++ m.evs) :
    (m.call = .open' ∧ m.ok = true ∧ w'.st.opened = true ∧ m.obtained.isSome ∧ w'.st.socket.map (·.fd) = m.obtained) ∨
    (¬ (m.call = .open' ∧ m.ok = true) ∧ w'.st.opened = w.st.opened ∧ m.obtained = none ∧
      w'.st.socket.map (·.fd) = w.st.socket.map (·.fd) ∧
      (m.call ≠ .open' → ∀ ev ∈ m.evs, onFd ev = w.st.socket.map (·.fd) ∧ (onFd ev).isSome)) := by
  obtain ⟨call, ok, evs⟩ := m
  simp only at h ht
  have fin : ∀ {a b : W} {x y : Bool}, (Res.ok (x, a) : Res (Bool × W)) = .ok (y, b) → x = y ∧ a = b := by
    intro a b x y h; cases h; exact ⟨rfl, rfl⟩
  cases call with
  | open' =>
    unfold HCall.run at h
    simp only [GoM.bind_apply] at h
    rcases nflogOpen_spec K w with ⟨n, w1, _, h1, _, hs1⟩ | ⟨fd, hfd, ⟨n, bevs, w1, _, h1, _, _, hs1⟩ | ⟨bevs, opts, w1, _, h1, hb, ho, ht1, _, hs1⟩⟩
    · rw [h1] at h
      obtain ⟨rfl, rfl⟩ := fin h
      refine .inr ⟨by simp, by rw [hs1], rfl, by rw [hs1], by simp⟩
    · rw [h1] at h
      obtain ⟨rfl, rfl⟩ := fin h
      refine .inr ⟨by simp, by rw [hs1], rfl, by rw [hs1], by simp⟩
    · rw [h1] at h
      obtain ⟨rfl, rfl⟩ := fin h
      have he : evs = [.socket 16 3 12 (.ok fd)] ++ bevs ++ opts := by
        rw [ht1] at ht
        exact (List.append_cancel_left ht).symm
      have hob : (Made.mk .open' true evs).obtained = some fd := by
        subst he
        rfl
      refine .inl ⟨rfl, rfl, by rw [hs1], by rw [hob]; rfl, by rw [hob, hs1]; rfl⟩
  | call c =>
    have hrun : ∃ r, c.run env K w = .ok (r, w') := by
      unfold HCall.run at h
      simp only [GoM.bind_apply] at h
      obtain ⟨⟨r, w1⟩, h1, h2⟩ := Res.bind_eq_ok.mp h
      refine ⟨r, ?_⟩
      rw [h1]
      have : w1 = w' := by
        cases r with
        | none => exact (fin h2).2
        | some _ => exact (fin h2).2
      rw [this]
    obtain ⟨r, hr⟩ := hrun
    refine .inr ⟨by simp, ?_⟩
    rcases socket_cases w with hn | ⟨fd, ho⟩
    · obtain ⟨a, b⟩ := run_none env K c w w' r hn hr
      have hev : evs = [] := by
        rw [a] at ht
        simpa using ht
      have hob : (c.record w.st).opened = w.st.opened ∧ (c.record w.st).socket = w.st.socket := by cases c <;> exact ⟨rfl, rfl⟩
      refine ⟨by rw [b, hob.1], rfl, by rw [b, hob.2], ?_⟩
      subst hev
      simp
    · obtain ⟨evs', hg, ht', _, ho', hst⟩ := run_spec env K c w w' fd r ho hr
      have hev : evs = evs' := by
        rw [ht'] at ht
        exact (List.append_cancel_left ht).symm
      have hob : (c.record w.st).opened = w.st.opened := by cases c <;> rfl
      obtain ⟨n, hn⟩ := ho
      obtain ⟨n', hn'⟩ := ho'
      refine ⟨by rw [hst]; exact hob, rfl, by rw [hn, hn']; rfl, ?_⟩
      intro _ ev hm
      subst hev
      have := groups_on hg ev hm
      rw [this, hn]
      exact ⟨rfl, rfl⟩
  | close =>
    unfold HCall.run at h
    simp only [GoM.bind_apply] at h
    refine .inr ⟨by simp, ?_⟩
    rcases socket_cases w with hn | ⟨fd, ho⟩
    · have hc : nflogClose K w = .ok ((), w) := by
        unfold nflogClose
        simp only [GoM.bind_apply, getL, Res.ok_bind, hn]
        rfl
      rw [hc] at h
      obtain ⟨_, rfl⟩ := fin h
      have hev : evs = [] := by simpa using ht
      subst hev
      exact ⟨rfl, rfl, rfl, by simp⟩
    · obtain ⟨evs', hc, hce⟩ := nflogClose_spec K ho
      rw [hc] at h
      obtain ⟨_, rfl⟩ := fin h
      have hev : evs = evs' := (List.append_cancel_left ht).symm
      subst hev
      refine ⟨rfl, rfl, rfl, ?_⟩
      intro _ ev hm
      obtain ⟨n, hn⟩ := ho
      rw [hn]
      rcases hce with rfl | ⟨_, _, rfl⟩
      · rw [List.mem_singleton] at hm; subst hm; exact ⟨rfl, rfl⟩
      · simp only [List.mem_cons, List.not_mem_nil, or_false] at hm
        rcases hm with rfl | rfl <;> exact ⟨rfl, rfl⟩

theorem life_inv {env : Env} {K : Kernel LEv} {w w' : W} {ms : List Made} (hl : Life env K w ms w') (hw : w.st = newNFLog) :
    (getNFloghandle w'.st = true ↔ ∃ m ∈ ms, m.call = .open' ∧ m.ok = true) ∧ w'.st.socket.map (·.fd) = current ms := by
  induction hl with
  | nil => rw [hw]; exact ⟨by simp [getNFloghandle, newNFLog], rfl⟩
  | @snoc ms m w1 w2 _ hr ht ih =>
    obtain ⟨h1, h2⟩ := ih
    rcases hcall_spec hr ht with ⟨ha, hb, hc, hd, he⟩ | ⟨ha, hb, hc, hd, _⟩
    · refine ⟨⟨fun _ => ⟨m, by simp, ha, hb⟩, fun _ => hc⟩, ?_⟩
      rw [current_snoc, he]
      cases ho : m.obtained with
      | none => rw [ho] at hd; cases hd
      | some fd => rfl
    · constructor
      · unfold getNFloghandle at h1 ⊢
        rw [hb, h1]
        constructor
        · rintro ⟨x, hx, hy⟩
          exact ⟨x, List.mem_append_left _ hx, hy⟩
        · rintro ⟨x, hx, hy⟩
          rcases List.mem_append.mp hx with hx | hx
          · exact ⟨x, hx, hy⟩
          · rw [List.mem_singleton] at hx; subst hx; exact absurd hy ha
      · rw [current_snoc, hc, hd, h2]
        rfl

/-- C127: GetNFloghandle on a handle made by NewNFLog, after any calls, gives the handle exactly if some NFlogOpen succeeded (else nil). -/
theorem C127_handle (env : Env) (K : Kernel LEv) (w w' : W) (ms : List Made) (hw : w.st = newNFLog) (hl : Life env K w ms w') :
    getNFloghandle w'.st = true ↔ ∃ m ∈ ms, m.call = .open' ∧ m.ok = true :=
  (life_inv hl hw).1

/-- C127: and every system call made by a call other than NFlogOpen is on the descriptor the last successful NFlogOpen obtained; before
the first such, no system call is made. -/
theorem C127_descriptor (env : Env) (K : Kernel LEv) (w w' : W) (ms : List Made) (m : Made) (hw : w.st = newNFLog)
    (hl : Life env K w (ms ++ [m]) w') (hm : m.call ≠ .open') : ∀ ev ∈ m.evs, ∃ fd, onFd ev = some fd ∧ current ms = some fd := by
  generalize hms : ms ++ [m] = l at hl
  cases hl with
  | nil => simp at hms
  | @snoc ms' m' w1 _ hl hr ht =>
    obtain ⟨rfl, h⟩ := List.append_inj' hms rfl
    cases h
    rcases hcall_spec hr ht with ⟨ha, _⟩ | ⟨_, _, _, _, h⟩
    · exact absurd ha hm
    · intro ev hev
      obtain ⟨a, b⟩ := h hm ev hev
      rw [(life_inv hl hw).2] at a
      rcases hc : current ms with _ | fd
      · rw [a, hc] at b; cases b
      · exact ⟨fd, by rw [a, hc], rfl⟩

/-- C128 (violated): NFlogClose leaves the descriptor in the handle: after it, NFlogClose closes that descriptor again, and a configuration
call for at least one group sends its request on it, whatever it stands for by then. -/
theorem C128_close_forgets_violated (env : Env) (K : Kernel LEv) (w : W) (fd : Nat) (ho : OpenOn w fd) :
    ∃ w1 evs, nflogClose K w = .ok ((), w1) ∧ w1.trace = w.trace ++ evs ∧ CloseEvs fd evs ∧
      (∃ w2 evs2, nflogClose K w1 = .ok ((), w2) ∧ w2.trace = w1.trace ++ evs2 ∧ CloseEvs fd evs2) ∧
      (∀ (c : LogCall) (r : Option Err) (w2 : W), c.run env K w1 = .ok (r, w2) → c.groups ≠ [] →
        ∃ b x rest, w2.trace = w1.trace ++ .sendto fd b 0 x :: rest ∧ Encodes env.e b (c.req (c.groups.headD 0).toNat)) := by
  obtain ⟨evs, hc, hce⟩ := nflogClose_spec K ho
  have ho1 : OpenOn ({ w with trace := w.trace ++ evs } : W) fd := ho
  obtain ⟨evs2, hc2, hce2⟩ := nflogClose_spec K ho1
  refine ⟨_, evs, hc, rfl, hce, ⟨_, evs2, hc2, rfl, hce2⟩, ?_⟩
  intro c r w2 hr hne
  obtain ⟨evs3, hg, ht, _⟩ := run_spec env K c _ w2 fd r ho1 hr
  have key : ∀ {b : List Byte} {r : Option Nat} {l : List (Ev LEv)}, SendEvs fd b r l → ∃ x rest, l = .sendto fd b 0 x :: rest := by
    intro b r l h
    rcases h with ⟨_, rfl⟩ | ⟨_, rfl⟩
    · exact ⟨_, _, rfl⟩
    · exact ⟨_, _, rfl⟩
  have key2 : ∀ {req : LReq} {r : Option Err} {l : List (Ev LEv)}, Exchange env.e fd req r l →
      ∃ b x rest, l = .sendto fd b 0 x :: rest ∧ Encodes env.e b req := by
    intro req r l h
    obtain ⟨b, hb, hq⟩ := h
    cases hq with
    | sendFailed hs =>
      obtain ⟨x, rest, rfl⟩ := key hs
      exact ⟨b, x, _, rfl, hb⟩
    | recvFailed hs =>
      obtain ⟨x, rest, rfl⟩ := key hs
      exact ⟨b, x, _, rfl, hb⟩
    | replied hs _ _ _ =>
      obtain ⟨x, rest, rfl⟩ := key hs
      exact ⟨b, x, _, rfl, hb⟩
  generalize c.groups = gs at hg hne
  cases hg with
  | nil => exact absurd rfl hne
  | cons hx _ =>
    obtain ⟨b, x, rest, rfl, hb⟩ := key2 hx
    exact ⟨b, x, _, ht, hb⟩
  | stop hx =>
    obtain ⟨b, x, rest, rfl, hb⟩ := key2 hx
    exact ⟨b, x, _, ht, hb⟩

/-- A handle that was opened, bound to group 32, closed, and then asked to set the copy mode: the request goes to descriptor 3 all the same. -/
theorem C128_example (w : W) (hw : w.st = newNFLog) : ∃ ms w', Life someEnv ackKernel w ms w' ∧
    ms.map (fun m => (m.ok, m.evs.map onFd)) = [(true, [none, some 3, some 3]), (true, [some 3, some 3]), (true, [some 3]), (true, [some 3, some 3])] ∧
    getNFloghandle w'.st = true ∧ current ms = some 3 := by
  obtain ⟨tr, h, st⟩ := w
  simp only at hw
  subst hw
  refine ⟨_, _, .snoc (m := ⟨.call (.setMode [32] 64), true, _⟩) (.snoc (m := ⟨.close, true, _⟩)
    (.snoc (m := ⟨.call (.bindGroup [32] (some 1) none), true, _⟩) (.snoc (m := ⟨.open', true, [.socket 16 3 12 (.ok 3), .bind 3 none, .setsockopt 3 270 5 1 none]⟩) .nil rfl
      (by simp [World.log, ackKernel])) rfl (List.append_assoc _ _ _)) rfl rfl) rfl
    (List.append_assoc _ _ _), rfl, rfl, rfl⟩
end Verif.Props.Log
