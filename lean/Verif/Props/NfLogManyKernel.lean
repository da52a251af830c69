import Verif.NfLog.Elsewhere
import Verif.Props.NfLogMany
import Verif.Props.NfLogKernelRead
/-! C143: several listeners on a kernel that keeps log groups. -/
namespace Verif.Props.Log
open Verif.Common Verif.Sys Verif.Spec Verif.NfLog

/-! ### Specification -/

/-- Descriptor `fd` was given out in the history, and not closed since. -/
def StillOpen (tr : List (Ev LEv)) (fd : Nat) : Prop :=
  ∃ a b d t p, tr = a ++ .socket d t p (.ok fd) :: b ∧ ∀ r, .close fd r ∉ b

/-- The kernel gives out no descriptor that is still open. -/
def NoneTwice (K : Kernel LEv) : Prop := ∀ tr fd, K.socket tr = .ok fd → ¬ StillOpen tr fd

/-- What can be said of a listener called with the arguments `a`, log callback `cb`, when the history is `tr`, its own part of it
`evs`, and it is at `pc`: it did nothing yet; listening could not be started; or it was started, by `start`, after the history `before`,
on a socket `fd` of its own, and then did `later`. -/
inductive Account (F : Nat → Prop) (st : List (Ev LEv) → KState) (a : ListenArgs) (cb : Nat) (tr evs : List (Ev LEv)) (pc : LPc) : Prop
  | nothing : pc = .unstarted → evs = [] → Account F st a cb tr evs pc
  | refused {err : Err} : pc = .off → ListenOut .little a.groups a.size.toNat (some err) evs → Account F st a cb tr evs pc
  | started {fd : Nat} {before start after later : List (Ev LEv)} {lost read : List Entry} {ms : List NfPacket} {shown due : List Nat} :
      ListenOut .little a.groups a.size.toNat none start → .socket 16 3 12 (.ok fd) ∈ start → tr = before ++ start ++ after →
      evs = start ++ later →
      -- each of the entries `read` was reported, in order, to its own callback
      logs later = ms.map (cb, ·) → Reports ms read →
      -- failed receives were reported to its own error callback, except perhaps the one that just happened
      failures later = shown ++ due → errors later = shown.flatMap (told a.ecb) → due.length ≤ 1 → (pc = .idle ∨ pc = .done → due = []) →
      (pc = .idle → ∀ e ∈ failures later, e = 105) →
      (pc = .done → ∃ early e, failures later = early ++ [e] ∧ e ≠ 105 ∧ ∀ x ∈ early, x = 105) →
      -- what the start received and dropped
      (logDatagrams .little start = [] → lost = []) →
      -- for each group it was the first to ask for: what was logged to it, in order
      (∀ g ∈ a.groups, ¬ F g.toNat → Free (st before) g.toNat → ∃ rest,
        (st tr).loggedTo g.toNat = (st before).loggedTo g.toNat ++ (lost.filter fun x => decide (x.group = g.toNat)) ++
          (read.filter fun x => decide (x.group = g.toNat)) ++ rest ∧
        (pc ≠ .done → ∃ hand : List Entry, rest = (hand.filter fun x => decide (x.group = g.toNat)) ++ (st tr).pending fd g.toNat ∧
          (pc = .idle → hand = []))) →
      Account F st a cb tr evs pc

/-! ### One listener -/

/-- Each of the groups of `Q` belongs to the socket; of what was logged to it, `read` was received since `base`. -/
def Holds (F Q : Nat → Prop) (base : Nat → List Entry) (fd : Nat) (read : List Entry) (s : KState) : Prop :=
  ∀ g, Q g → s.Owns fd g ∧ Flow F fd g (base g) read s

/-- What holds of a started listener, by position. -/
inductive KPos (F G Q : Nat → Prop) (base : Nat → List Entry) (fd cb : Nat) (ecb : Option Nat) (later : List (Ev LEv)) (s : KState) : LPc → Prop
  | idle {ms read} : logs later = ms.map (cb, ·) → Reports ms read → errors later = (failures later).flatMap (told ecb) →
      (∀ e ∈ failures later, e = 105) → Reading G fd s → Holds F Q base fd read s → KPos F G Q base fd cb ecb later s .idle
  | parsing {pc ms ms1 read items} {n : Note} : logs later = (ms ++ ms1).map (cb, ·) → Reports ms read →
      (∀ x, AllReported items x → Reports x (entriesOf [n])) → Owes items ms1 pc → errors later = (failures later).flatMap (told ecb) →
      (∀ e ∈ failures later, e = 105) → Reading G fd s → Holds F Q base fd (read ++ entriesOf [n]) s → KPos F G Q base fd cb ecb later s pc
  | failed {n fs ms read} : logs later = ms.map (cb, ·) → Reports ms read → failures later = fs ++ [n] → errors later = fs.flatMap (told ecb) →
      (∀ e ∈ fs, e = 105) → Reading G fd s → Holds F Q base fd read s → KPos F G Q base fd cb ecb later s (.failed n)
  | closing {n fs ms read} : logs later = ms.map (cb, ·) → Reports ms read → failures later = fs ++ [n] →
      errors later = (failures later).flatMap (told ecb) → (∀ e ∈ fs, e = 105) → n ≠ 105 → Reading G fd s → Holds F Q base fd read s →
      KPos F G Q base fd cb ecb later s .closing
  | done {n fs ms read} : logs later = ms.map (cb, ·) → Reports ms read → failures later = fs ++ [n] →
      errors later = (failures later).flatMap (told ecb) → (∀ e ∈ fs, e = 105) → n ≠ 105 →
      (∀ g, Q g → ∃ rest, s.loggedTo g = base g ++ (read.filter fun x => decide (x.group = g)) ++ rest) →
      KPos F G Q base fd cb ecb later s .done

variable {F G Q : Nat → Prop} {base : Nat → List Entry} {fd cb : Nat} {ecb : Option Nat} {later : List (Ev LEv)} {s s' : KState} {pc : LPc}

theorem Reading.same (h : Reading G fd s) (hs : SameFor fd s s') : Reading G fd s' where
  shown := hs.shown h.shown
  tidy := hs.tidy h.tidy
  sorted := hs.sorted h.sorted
  only g ho := h.only g ((hs.owns g).mp ho)

theorem Holds.meanwhile {read : List Entry} (h : Holds F Q base fd read s) (ht : NfLog.Tidy fd s) (hm : Meanwhile F s s') :
    Holds F Q base fd read s' := fun g hg => ⟨(hm.owns fd g).mpr (h g hg).1, hm.flow ht (h g hg).2⟩

theorem Holds.same {read : List Entry} (h : Holds F Q base fd read s) (hs : SameFor fd s s') : Holds F Q base fd read s' := by
  intro g hg
  obtain ⟨h1, h2⟩ := h g hg
  refine ⟨(hs.owns g).mpr h1, .inl ((hs.owns g).mpr h1), ?_⟩
  rw [hs.pending]
  unfold KState.loggedTo
  rw [hs.logged]
  exact h2.flow

/-- A change of the kernel that keeps what matters keeps the position. -/
theorem KPos.change (h : KPos F G Q base fd cb ecb later s pc) (hR : Reading G fd s → Reading G fd s')
    (hH : ∀ read, Reading G fd s → Holds F Q base fd read s → Holds F Q base fd read s') (hl : ∃ l, s'.logged = s.logged ++ l) :
    KPos F G Q base fd cb ecb later s' pc := by
  cases h with
  | idle a b c d r k => exact .idle a b c d (hR r) (hH _ r k)
  | parsing a b c d e f r k => exact .parsing a b c d e f (hR r) (hH _ r k)
  | failed a b c d e r k => exact .failed a b c d e (hR r) (hH _ r k)
  | closing a b c d e f r k => exact .closing a b c d e f (hR r) (hH _ r k)
  | done a b c d e f k =>
    refine .done a b c d e f fun g hg => ?_
    obtain ⟨rest, hrest⟩ := k g hg
    obtain ⟨l, hl⟩ := loggedTo_grows hl g
    exact ⟨rest ++ l, by rw [hl, hrest, List.append_assoc]⟩

theorem KPos.meanwhile (h : KPos F G Q base fd cb ecb later s pc) (hm : Meanwhile F s s') : KPos F G Q base fd cb ecb later s' pc :=
  h.change (fun r => r.meanwhile hm) (fun _ r k => k.meanwhile r.tidy hm) (Meanwhile.logged_grows hm)

theorem KPos.same (h : KPos F G Q base fd cb ecb later s pc) (hs : SameFor fd s s') : KPos F G Q base fd cb ecb later s' pc :=
  h.change (fun r => r.same hs) (fun _ _ k => k.same hs) ⟨[], by rw [hs.logged]; simp⟩

/-- Others do something. -/
theorem KPos.others {e : Endian} {evs : List (Ev LEv)} (h : KPos F G Q base fd cb ecb later s pc) (hr : Run e F s evs s')
    (ho : pc = .done ∨ ∃ f, f ≠ fd ∧ ∀ ev ∈ evs, EvOn f ev) : KPos F G Q base fd cb ecb later s' pc := by
  rcases ho with rfl | ⟨f, hf, hev⟩
  · cases h with
    | parsing _ _ _ d => exact d.elim
    | done a b c d e f k =>
      refine .done a b c d e f fun g hg => ?_
      obtain ⟨rest, hrest⟩ := k g hg
      obtain ⟨l, hl⟩ := loggedTo_grows hr.logged_more g
      exact ⟨rest ++ l, by rw [hl, hrest, List.append_assoc]⟩
  · exact hr.elsewhere (Q := fun s => KPos F G Q base fd cb ecb later s pc) (fun h hm => KPos.meanwhile h hm) (fun h hs => KPos.same h hs) hf hev h

theorem silent_no_close {evs : List (Ev LEv)} (h : ∀ ev ∈ evs, Silent ev) (fd : Nat) (r : Option Nat) : .close fd r ∉ evs :=
  fun hm => (h _ hm).elim

theorem silent_failures {evs : List (Ev LEv)} (h : ∀ ev ∈ evs, isRecv ev = false) : failures evs = [] := failures_none h

/-- The parsing steps, calmly. -/
theorem parse_calm {env : Env} {K : Kernel LEv} (hc : Calm env K) {pc pc' : LPc} {w w' : W} {items : List Item} {ms : List NfPacket}
    (hO : Owes items ms pc) (h : lstep env K pc w = .ok (pc', w')) :
    ∃ evs, w'.trace = w.trace ++ evs ∧ Genuine K w.trace evs ∧ (∀ ev ∈ evs, Silent ev) ∧ ∀ ev ∈ evs, isRecv ev = false := by
  have hpc : (∃ b, pc = .msgs b) ∨ ∃ rest m msgLen b, pc = .attrs rest m msgLen b := by
    cases pc with
    | msgs b => exact .inl ⟨b, rfl⟩
    | attrs a b c d => exact .inr ⟨a, b, c, d, rfl⟩
    | _ => exact hO.elim
  obtain ⟨⟨_, evs, ht, _, _, hno⟩, _⟩ := parse_reads hc.toQuiet hpc h
  have hcalm : Calmly K w w' := by
    rcases hpc with ⟨b, rfl⟩ | ⟨rest, m, msgLen, b, rfl⟩
    · have hw : w' = w := by
        simp only [lstep] at h
        split at h
        · simp only [Res.ok.injEq, Prod.mk.injEq] at h; exact h.2.symm
        · obtain ⟨⟨n, t⟩, _, h⟩ := Res.bind_eq_ok.mp h
          simp only at h
          split at h
          · simp only [Res.ok.injEq, Prod.mk.injEq] at h; exact h.2.symm
          · split at h
            · obtain ⟨_, _, h⟩ := Res.bind_eq_ok.mp h
              simp only [Res.ok.injEq, Prod.mk.injEq] at h; exact h.2.symm
            · obtain ⟨_, _, h⟩ := Res.bind_eq_ok.mp h
              simp only [Res.ok.injEq, Prod.mk.injEq] at h; exact h.2.symm
      subst hw
      exact .refl K _
    · rw [lstep_attrs] at h
      obtain ⟨x, hx, h⟩ := Res.bind_eq_ok.mp h
      have hcov := tlvBody_covered (calm_covers hc) hx
      cases x with
      | next s =>
        simp only [Res.ok.injEq, Prod.mk.injEq] at h
        rw [← h.2]; exact hcov
      | done a =>
        have : w' = a.2 := by
          simp only [afterAttrs] at h
          split at h
          · simp only [Res.ok.injEq, Prod.mk.injEq] at h; exact h.2.symm
          · obtain ⟨_, _, h⟩ := Res.bind_eq_ok.mp h
            simp only [Res.ok.injEq, Prod.mk.injEq] at h; exact h.2.symm
        subst this
        exact hcov
  obtain ⟨evs', ht', hg, hs⟩ := hcalm
  have : evs' = evs := List.append_cancel_left (ht'.symm.trans ht)
  subst this
  exact ⟨evs', ht', hg, hs, fun ev hev => (hno ev hev).1⟩

/-- One step of a started listener. -/
theorem kpos_step {env : Env} {K : Kernel LEv} {st : List (Ev LEv) → KState} (hc : Calm env K) (hK : Keeps .little F K st)
    (hP : ∀ tr, ∀ x ∈ (st tr).logged, G x.group → Ordinary x.packet) {w : W} {m : Nat} (hs : w.st.socket = some ⟨fd, m⟩)
    (hcb : w.st.callback = some cb) (hecb : w.st.errorCallback = ecb) (h : KPos F G Q base fd cb ecb later (st w.trace) pc) :
    ∃ pc' w' evs, lstep env K pc w = .ok (pc', w') ∧ w'.st = w.st ∧ w'.trace = w.trace ++ evs ∧ Genuine K w.trace evs ∧
      (∀ ev ∈ evs, EvOn fd ev) ∧ (pc' ≠ .done → ∀ r, .close fd r ∉ evs) ∧ KPos F G Q base fd cb ecb (later ++ evs) (st w'.trace) pc' := by
  cases h with
  | @idle ms read hl hr he hf hR hH =>
    simp only [lstep, GoM.bind_apply, getL, Res.ok_bind, hs]
    rcases recvfrom_spec K fd 65536 0 w with ⟨n, hn, hrc⟩ | ⟨d, hd, hrc⟩
    · rw [hrc]
      have hm : (Except.error n : Except Nat (List Byte)).map (·.take 65536) = .error n := rfl
      have hg : Genuine K w.trace [.recvfrom fd 65536 0 (.error n)] := .cons (by show _ = (K.recv w.trace fd).map _; rw [hn, hm]) .nil
      have hsil : ∀ ev ∈ [(.recvfrom fd 65536 0 (.error n) : Ev LEv)], Silent ev := by
        intro ev hev; simp only [List.mem_singleton] at hev; subst hev; rfl
      have hmw := (Run.of_genuine hK hg).of_silent hsil
      refine ⟨.failed n, _, [.recvfrom fd 65536 0 (.error n)], rfl, rfl, rfl, hg, fun ev hev => .of_silent (hsil ev hev),
        fun _ => silent_no_close hsil fd, ?_⟩
      refine .failed (n := n) (fs := failures later) (ms := ms) (read := read) ?_ hr ?_ ?_ hf (hR.meanwhile hmw) (hH.meanwhile hR.tidy hmw)
      · rw [logs_append, hl]; exact List.append_nil _
      · rw [failures_append]; rfl
      · rw [errors_append, he]; exact List.append_nil _
    · rw [hrc]
      have ha : Answers K w.trace (.recvfrom fd 65536 0 (.ok (d.take 65536))) := by
        show _ = (K.recv w.trace fd).map _
        rw [hd]; rfl
      have hg : Genuine K w.trace [.recvfrom fd 65536 0 (.ok (d.take 65536))] := .cons ha .nil
      obtain ⟨s3, x, rest, d', m3, hin, hn, hdd, m4⟩ := (Run.of_genuine hK hg).got
      have hen := next_enough hR m3 hin m4 (hP _)
      obtain ⟨items, hdi, hall, hlen, hrep⟩ := note_items hn hen
      rw [List.take_of_length_le (by omega : d'.length ≤ 65536)] at hdd
      have hR3 := hR.meanwhile m3
      have hR4 := hR3.popped hin
      refine ⟨.msgs (d.take 65536), _, [.recvfrom fd 65536 0 (.ok (d.take 65536))], rfl, rfl, rfl, hg, ?_, ?_, ?_⟩
      · intro ev hev; simp only [List.mem_singleton] at hev; subst hev; rfl
      · intro _ r hm; simp at hm
      · refine .parsing (ms := ms) (ms1 := []) (read := read) (items := items) (n := x) ?_ hr hrep ?_ ?_ ?_ (hR4.meanwhile m4) ?_
        · rw [logs_append, hl, List.append_nil]; exact List.append_nil _
        · rw [hdd, hdi]
          exact ⟨items, rfl, hall, by rw [← hdi]; omega, fun ms2 h => h⟩
        · rw [errors_append, failures_append, he, List.flatMap_append]; rfl
        · rw [failures_append]
          intro e' he'
          rcases List.mem_append.mp he' with h | h
          · exact hf e' h
          · simp [failures] at h
        · refine Holds.meanwhile ?_ hR4.tidy m4
          intro g hg
          obtain ⟨h1, h2⟩ := (hH.meanwhile hR.tidy m3) g hg
          refine ⟨h1, h2.usable, ?_⟩
          have := h2.flow
          unfold KState.pending at this ⊢
          rw [hin] at this
          rw [setInbox_same]
          have e1 : entriesOf (x :: rest) = entriesOf [x] ++ entriesOf rest := by rw [← entriesOf_append]; rfl
          rw [e1] at this
          simp only [List.filter_append, List.append_assoc] at this ⊢
          exact this
  | @parsing _ ms ms1 read items n hl hr hrep hO he hf hR hH =>
    obtain ⟨pc', w', ms', hst, ⟨hsame, evs, ht, hlg, her⟩, _, hor⟩ := owes_step hc.toPolite K hcb hO
    obtain ⟨evs', ht', hg, hsil, hno⟩ := parse_calm hc hO hst
    have : evs' = evs := List.append_cancel_left (ht'.symm.trans ht)
    subst this
    have hmw : Meanwhile F (st w.trace) (st w'.trace) := by
      rw [ht']; exact (Run.of_genuine hK hg).of_silent hsil
    have hfl : failures (later ++ evs') = failures later := by rw [failures_append, failures_none hno, List.append_nil]
    have hll : logs (later ++ evs') = (ms ++ (ms1 ++ ms')).map (cb, ·) := by
      rw [logs_append, hl, hlg]; simp
    have hee : errors (later ++ evs') = (failures (later ++ evs')).flatMap (told ecb) := by
      rw [hfl, errors_append, her, List.append_nil, he]
    refine ⟨pc', w', evs', hst, hsame, ht', hg, fun ev hev => .of_silent (hsil ev hev), fun _ => silent_no_close hsil fd, ?_⟩
    rcases hor with ⟨rfl, hall⟩ | hO'
    · exact .idle hll (hr.append (hrep _ hall)) hee (by rw [hfl]; exact hf) (hR.meanwhile hmw) (hH.meanwhile hR.tidy hmw)
    · exact .parsing hll hr hrep hO' hee (by rw [hfl]; exact hf) (hR.meanwhile hmw) (hH.meanwhile hR.tidy hmw)
  | @failed n fs ms read hl hr hfs he hf hR hH =>
    obtain ⟨w1, rep, hrep, hsame, ht, hE⟩ := report_spec hc.toQuiet "Netlink error" (.errno n) w
    obtain ⟨rep', ht', hg, hsil⟩ := calm_report hc hrep
    have : rep' = rep := List.append_cancel_left (ht'.symm.trans ht)
    subst this
    rw [hecb] at hE
    obtain ⟨e1, e2⟩ := errReport_told hE
    have hno := report_no_recv hE
    have hmw : Meanwhile F (st w.trace) (st w1.trace) := by
      rw [ht']; exact (Run.of_genuine hK hg).of_silent hsil
    have hfl : failures (later ++ rep') = fs ++ [n] := by rw [failures_append, failures_none hno, List.append_nil, hfs]
    have hll : logs (later ++ rep') = ms.map (cb, ·) := by rw [logs_append, hl, e1, List.append_nil]
    have hee : errors (later ++ rep') = (failures (later ++ rep')).flatMap (told ecb) := by
      rw [hfl, errors_append, he, e2, List.flatMap_append]; simp
    simp only [lstep, GoM.bind_apply, hrep, Res.ok_bind, GoM.pure_apply]
    refine ⟨_, w1, rep', rfl, hsame, ht', hg, fun ev hev => .of_silent (hsil ev hev), fun _ => silent_no_close hsil fd, ?_⟩
    by_cases h105 : n = 105
    · rw [if_pos h105]
      refine .idle hll hr hee ?_ (hR.meanwhile hmw) (hH.meanwhile hR.tidy hmw)
      rw [hfl]
      intro e' he'
      rcases List.mem_append.mp he' with h | h
      · exact hf e' h
      · simp only [List.mem_singleton] at h; rw [h]; exact h105
    · rw [if_neg h105]
      exact .closing hll hr hfl hee hf h105 (hR.meanwhile hmw) (hH.meanwhile hR.tidy hmw)
  | @closing n fs ms read hl hr hfs he hf hne hR hH =>
    obtain ⟨cl, hcl, hce⟩ := nflogClose_spec K (w := w) ⟨m, hs⟩
    obtain ⟨cl', ht', hg⟩ := records_nflogClose (K := K) w _ _ hcl
    have : cl' = cl := List.append_cancel_left ht'.symm
    subst this
    obtain ⟨c1, c2, c3⟩ := close_no hce
    simp only [lstep, GoM.bind_apply, hcl, Res.ok_bind, GoM.pure_apply]
    have hrun := Run.of_genuine hK hg
    refine ⟨.done, _, cl', rfl, rfl, rfl, hg, ?_, fun h => absurd rfl h, ?_⟩
    · intro ev hev
      rcases hce with rfl | ⟨_, _, rfl⟩
      · simp only [List.mem_singleton] at hev; subst hev; rfl
      · simp only [List.mem_cons, List.not_mem_nil, or_false] at hev
        rcases hev with rfl | rfl <;> rfl
    · refine .done (n := n) (fs := fs) (ms := ms) (read := read) (by rw [logs_append, hl, c2, List.append_nil]) hr
        (by rw [failures_append, hfs, failures_none c1, List.append_nil])
        (by rw [errors_append, failures_append, he, c3, failures_none c1, List.append_nil, List.append_nil]) hf hne fun g hg => ?_
      obtain ⟨l, hl⟩ := loggedTo_grows hrun.logged_more g
      exact ⟨_, by rw [hl, (hH g hg).2.flow, List.append_assoc]⟩
  | @done n fs ms read hl hr hfs he hf hne hk =>
    exact ⟨.done, w, [], rfl, rfl, by simp, .nil, by simp, fun h => absurd rfl h, by
      rw [List.append_nil]; exact .done hl hr hfs he hf hne hk⟩

/-! ### Starting -/

theorem exchange_on {e : Endian} {req : LReq} {r : Option Err} {evs : List (Ev LEv)} (h : Exchange e fd req r evs) :
    ∀ ev ∈ evs, EvOn fd ev ∧ ∀ f c, ev ≠ .close f c := by
  have send : ∀ {b : List Byte} {r : Option Nat} {evs : List (Ev LEv)}, SendEvs fd b r evs → ∀ ev ∈ evs, EvOn fd ev ∧ ∀ f c, ev ≠ .close f c := by
    intro b r evs h ev hev
    have one : ∀ r : Option Nat, EvOn fd (.sendto fd b 0 r) := by
      intro r f b' h
      cases r with
      | none => simp only [handedOver, Option.some.injEq, Prod.mk.injEq] at h; exact h.1.symm
      | some _ => cases h
    rcases h with ⟨_, rfl⟩ | ⟨_, rfl⟩
    · simp only [List.mem_singleton] at hev
      subst hev
      exact ⟨one _, fun f c h => by cases h⟩
    · simp only [List.mem_cons, List.not_mem_nil, or_false] at hev
      rcases hev with rfl | rfl
      · exact ⟨one _, fun f c h => by cases h⟩
      · exact ⟨one _, fun f c h => by cases h⟩
  obtain ⟨b, _, hq⟩ := h
  cases hq with
  | sendFailed h => exact send h
  | recvFailed h =>
    intro ev hev
    rcases List.mem_append.mp hev with hev | hev
    · exact send h ev hev
    · simp only [List.mem_singleton] at hev
      subst hev
      exact ⟨fun f b h => (by cases h), fun f c h => by cases h⟩
  | replied h =>
    intro ev hev
    rcases List.mem_append.mp hev with hev | hev
    · exact send h ev hev
    · simp only [List.mem_singleton] at hev
      subst hev
      exact ⟨rfl, fun f c h => by cases h⟩

theorem groups_evOn {e : Endian} {req : Nat → LReq} {gs : List U16} {r : Option Err} {evs : List (Ev LEv)} (h : GroupsOut e fd req gs r evs) :
    ∀ ev ∈ evs, EvOn fd ev ∧ ∀ f c, ev ≠ .close f c := by
  induction h with
  | nil => simp
  | cons h _ ih =>
    intro ev hev
    rcases List.mem_append.mp hev with hev | hev
    · exact exchange_on h ev hev
    · exact ih ev hev
  | stop h => exact exchange_on h

theorem closes_on {evs : List (Ev LEv)} (h : CloseEvs fd evs) : ∀ ev ∈ evs, EvOn fd ev := by
  intro ev hev
  rcases h with rfl | ⟨_, _, rfl⟩
  · simp only [List.mem_singleton] at hev; subst hev; rfl
  · simp only [List.mem_cons, List.not_mem_nil, or_false] at hev
    rcases hev with rfl | rfl <;> rfl

/-- What an attempt to start does is about the descriptor it was given; one that succeeds closes nothing. -/
theorem listen_on {e : Endian} {gs : List U16} {size : Nat} {r : Option Err} {evs : List (Ev LEv)} (h : ListenOut e gs size r evs) :
    (r ≠ none ∧ ∀ ev ∈ evs, Silent ev) ∨ ∃ fd rest, evs = .socket 16 3 12 (.ok fd) :: rest ∧ (∀ ev ∈ evs, EvOn fd ev) ∧
      (r = none → ∀ f c, .close f c ∉ rest) := by
  have sil : ∀ {fd} {evs : List (Ev LEv)}, (∀ ev ∈ evs, Silent ev) → ∀ ev ∈ evs, EvOn fd ev ∧ ∀ f c, ev ≠ .close f c := by
    intro fd evs h ev hev
    exact ⟨.of_silent (h ev hev), fun f c hc => by subst hc; exact (h _ hev).elim⟩
  cases h with
  | noSocket => exact .inl ⟨by simp, by intro ev hev; simp only [List.mem_singleton] at hev; subst hev; rfl⟩
  | @noBind fd n bevs hb =>
    refine .inr ⟨fd, bevs, rfl, ?_, by simp⟩
    intro ev hev
    simp only [List.cons_append, List.nil_append, List.mem_cons] at hev
    rcases hev with rfl | hev
    · rfl
    · exact .of_silent (bind_silent hb ev hev)
  | @noGroup fd err bevs opts evs cl hb ho hg hc =>
    refine .inr ⟨fd, bevs ++ opts ++ evs ++ cl, by simp, ?_, by simp⟩
    intro ev hev
    simp only [List.mem_append, List.mem_singleton] at hev
    rcases hev with (((rfl | hev) | hev) | hev) | hev
    · rfl
    · exact .of_silent (bind_silent hb ev hev)
    · exact .of_silent (opt_silent ho ev hev)
    · exact (groups_evOn hg ev hev).1
    · exact closes_on hc ev hev
  | @noMode fd err bevs opts evs evs' cl hb ho hg hg' hc =>
    refine .inr ⟨fd, bevs ++ opts ++ evs ++ evs' ++ cl, by simp, ?_, by simp⟩
    intro ev hev
    simp only [List.mem_append, List.mem_singleton] at hev
    rcases hev with ((((rfl | hev) | hev) | hev) | hev) | hev
    · rfl
    · exact .of_silent (bind_silent hb ev hev)
    · exact .of_silent (opt_silent ho ev hev)
    · exact (groups_evOn hg ev hev).1
    · exact (groups_evOn hg' ev hev).1
    · exact closes_on hc ev hev
  | @started fd bevs opts evs evs' hb ho hg hg' =>
    refine .inr ⟨fd, bevs ++ opts ++ evs ++ evs' ++ [.app .spawnReader], by simp, ?_, ?_⟩
    · intro ev hev
      simp only [List.mem_append, List.mem_singleton] at hev
      rcases hev with ((((rfl | hev) | hev) | hev) | hev) | rfl
      · rfl
      · exact .of_silent (bind_silent hb ev hev)
      · exact .of_silent (opt_silent ho ev hev)
      · exact (groups_evOn hg ev hev).1
      · exact (groups_evOn hg' ev hev).1
      · exact .of_silent rfl
    · intro _ f c hm
      simp only [List.mem_append, List.mem_singleton] at hm
      rcases hm with (((hm | hm) | hm) | hm) | hm
      · exact (sil (fd := fd) (bind_silent hb) _ hm).2 f c rfl
      · exact (sil (fd := fd) (opt_silent ho) _ hm).2 f c rfl
      · exact (groups_evOn hg _ hm).2 f c rfl
      · exact (groups_evOn hg' _ hm).2 f c rfl
      · cases hm

/-- Datagrams of such a kernel are at least 20 bytes long. -/
theorem keeps_long {K : Kernel LEv} {st : List (Ev LEv) → KState} (hK : Keeps .little F K st) (tr : List (Ev LEv)) (fd : Nat) (d : List Byte)
    (h : K.recv tr fd = .ok d) : 20 ≤ d.length := by
  have ha : Answers K tr (.recvfrom fd (d.length + 65536) 0 (.ok d)) := by
    show _ = (K.recv tr fd).map _
    rw [h]
    show _ = Except.ok (d.take _)
    rw [List.take_of_length_le (by omega)]
  have hg : Genuine K tr [.recvfrom fd (d.length + 65536) 0 (.ok d)] := .cons ha .nil
  obtain ⟨_, n, _, d', _, _, hn, hdd, _⟩ := (Run.of_genuine hK hg).got
  have h16 : ∀ (t : Nat) (mid body : List Byte), mid.length = 10 → (msgBytes .little t mid body).length = 16 + body.length := by
    intro t mid body hm
    unfold msgBytes
    simp [bytes32, bytes16, hm]
    omega
  have hl : 20 ≤ d'.length ∧ d'.length < 65536 := by
    cases n with
    | ack c =>
      obtain ⟨mid, body, hm, hb, _, rfl, hlt⟩ := hn
      rw [h16 _ _ _ hm] at hlt ⊢
      omega
    | logs l =>
      obtain ⟨hne, d0, he, hlt, mid, body, hm, hb, hd⟩ := hn
      refine ⟨?_, hlt⟩
      cases he with
      | nil => exact absurd rfl hne
      | cons h1 _ =>
        obtain ⟨mid1, hdr, attrs, hm1, hh, _, _, _, _, rfl⟩ := h1
        rw [hd]
        simp only [List.length_append, h16 _ _ _ hm1]
        omega
  rw [List.take_of_length_le (by omega)] at hdd
  rw [hdd]; exact hl.1

/-! ### All listeners -/

/-- The groups listener `a` asked for. -/
def askedBy (a : ListenArgs) (g : Nat) : Prop := ∃ x ∈ a.groups, x.toNat = g

/-- The groups listener `a` asked for that were free and used by no other program. -/
def grantedTo (F : Nat → Prop) (a : ListenArgs) (s : KState) (g : Nat) : Prop := askedBy a g ∧ ¬ F g ∧ Free s g

/-- One listener, on the kernel. -/
def OnKernel (F : Nat → Prop) (st : List (Ev LEv) → KState) (a : ListenArgs) (cb : Nat) (tr : List (Ev LEv)) (n : NfLog)
    (evs : List (Ev LEv)) (pc : LPc) : Prop :=
  (pc = .unstarted ∧ evs = []) ∨ (pc = .off ∧ ∃ err, ListenOut .little a.groups a.size.toNat (some err) evs) ∨
  ∃ fd before start after later lost, ListenOut .little a.groups a.size.toNat none start ∧ .socket 16 3 12 (.ok fd) ∈ start ∧
    tr = before ++ start ++ after ∧ evs = start ++ later ∧ (logDatagrams .little start = [] → lost = []) ∧
    n.callback = some cb ∧ n.errorCallback = a.ecb ∧ (∃ m, n.socket = some ⟨fd, m⟩) ∧ (pc ≠ .done → StillOpen tr fd) ∧
    KPos F (askedBy a) (grantedTo F a (st before))
      (fun g => (st before).loggedTo g ++ lost.filter fun x => decide (x.group = g)) fd cb a.ecb later (st tr) pc

theorem KPos.here (h : KPos F G Q base fd cb ecb later s pc) : pc ≠ .unstarted ∧ pc ≠ .off := by
  cases h with
  | parsing _ _ _ d => exact ⟨by rintro rfl; exact d.elim, by rintro rfl; exact d.elim⟩
  | _ => exact ⟨by simp, by simp⟩

theorem StillOpen.append {tr evs : List (Ev LEv)} (h : StillOpen tr fd) (he : ∀ r, .close fd r ∉ evs) : StillOpen (tr ++ evs) fd := by
  obtain ⟨a, b, d, t, p, rfl, hb⟩ := h
  refine ⟨a, b ++ evs, d, t, p, by simp, fun r hr => ?_⟩
  rcases List.mem_append.mp hr with hr | hr
  · exact hb r hr
  · exact he r hr

/-- A listener, while another one makes a step. -/
theorem OnKernel.others {K : Kernel LEv} {st : List (Ev LEv) → KState} (hK : Keeps .little F K st) {a : ListenArgs} {tr evs0 evs : List (Ev LEv)}
    {n : NfLog} (h : OnKernel F st a cb tr n evs0 pc) (hg : Genuine K tr evs)
    (ho : ∀ fd m, n.socket = some ⟨fd, m⟩ → pc ≠ .unstarted → pc ≠ .off → pc ≠ .done → StillOpen tr fd → ∃ f, f ≠ fd ∧ ∀ ev ∈ evs, EvOn f ev) :
    OnKernel F st a cb (tr ++ evs) n evs0 pc := by
  rcases h with h | h | ⟨fd, before, start, after, later, lost, h1, h2, h3, h4, h5, h6, h7, ⟨m, h8⟩, h9, h10⟩
  · exact .inl h
  · exact .inr (.inl h)
  · have hh := h10.here
    refine .inr (.inr ⟨fd, before, start, after ++ evs, later, lost, h1, h2, by rw [h3]; simp, h4, h5, h6, h7, ⟨m, h8⟩, ?_, ?_⟩)
    · intro hd
      obtain ⟨f, hf, hev⟩ := ho fd m h8 hh.1 hh.2 hd (h9 hd)
      exact (h9 hd).append fun r hr => hf (EvOn.close (hev _ hr)).symm
    · refine h10.others (Run.of_genuine hK hg) ?_
      by_cases hd : pc = .done
      · exact .inl hd
      · exact .inr (ho fd m h8 hh.1 hh.2 hd (h9 hd))

/-- A step of the listener itself: it does not crash; what it does is about its own descriptor, which is new or its own already. -/
theorem OnKernel.step {env : Env} {K : Kernel LEv} {st : List (Ev LEv) → KState} (he : env.e = .little) (hc : Calm env K) (hK : Keeps .little F K st)
    {a : ListenArgs} (hcb : a.cb = some cb) (hsize : a.size.toNat = 0 ∨ 57 ≤ a.size.toNat)
    (hP : ∀ tr, ∀ x ∈ (st tr).logged, askedBy a x.group → Ordinary x.packet)
    {evs0 : List (Ev LEv)} {w : W} (h : OnKernel F st a cb w.trace w.st evs0 pc) :
    ∃ pc' w' evs, listenStep env K a pc w = .ok (pc', w') ∧ w'.trace = w.trace ++ evs ∧ Genuine K w.trace evs ∧
      OnKernel F st a cb w'.trace w'.st (evs0 ++ evs) pc' ∧
      ((∀ ev ∈ evs, Silent ev) ∨
        (∃ fd m, w.st.socket = some ⟨fd, m⟩ ∧ pc ≠ .unstarted ∧ pc ≠ .off ∧ pc ≠ .done ∧ ∀ ev ∈ evs, EvOn fd ev) ∨
        ∃ fd, K.socket w.trace = .ok fd ∧ ∀ ev ∈ evs, EvOn fd ev) ∧
      ∀ fd m, w'.st.socket = some ⟨fd, m⟩ → pc' ≠ .unstarted → pc' ≠ .off → pc' ≠ .done →
        (w.st.socket = some ⟨fd, m⟩ ∧ pc ≠ .unstarted ∧ pc ≠ .off ∧ pc ≠ .done) ∨ K.socket w.trace = .ok fd := by
  rcases h with ⟨rfl, rfl⟩ | ⟨rfl, err, hL⟩ | ⟨fd, before, start, after, later, lost, h1, h2, h3, h4, h5, h6, h7, ⟨m, h8⟩, h9, h10⟩
  · obtain ⟨r, w1, hb⟩ := start_returns env K a.groups a.size a.cb a.ecb w (fun evs fd d hd => .inr (keeps_long hK _ _ _ hd))
    obtain ⟨evs, ht, hL, hst⟩ := C32_outcomes env K a.groups a.size a.cb a.ecb w w1 r hb
    obtain ⟨evs', ht', hg⟩ := records_bindAndListen (K := K) env a.groups a.size a.cb a.ecb w r w1 hb
    have : evs' = evs := List.append_cancel_left (ht'.symm.trans ht)
    subst this
    rw [he] at hL
    have hon : (∀ ev ∈ evs', Silent ev) ∨ ∃ fd, K.socket w.trace = .ok fd ∧ ∀ ev ∈ evs', EvOn fd ev := by
      rcases listen_on hL with ⟨_, h⟩ | ⟨fd, rest, rfl, h, _⟩
      · exact .inl h
      · cases hg with
        | cons ha _ => exact .inr ⟨fd, ha.symm, h⟩
    simp only [listenStep, GoM.bind_apply, hb, Res.ok_bind]
    cases r with
    | some err =>
      refine ⟨.off, w1, evs', rfl, ht, hg, .inr (.inl ⟨rfl, err, hL⟩), ?_, fun _ _ _ _ h => absurd rfl h⟩
      rcases hon with h | h
      · exact .inl h
      · exact .inr (.inr h)
    | none =>
      obtain ⟨start, fd, ht2, ⟨k, ho⟩, hB, hR⟩ := start_reading (by rw [he]; exact hK) hsize hb
      have : start = evs' := List.append_cancel_left (ht2.symm.trans ht)
      subst this
      obtain ⟨hcb1, hecb, fd', ⟨k', ho'⟩, hm⟩ := hst rfl
      rw [ho] at ho'
      simp only [Option.some.injEq, Handle.mk.injEq] at ho'
      obtain ⟨rfl, _⟩ := ho'
      obtain ⟨lost, hl1, hl2, hl3⟩ := hB.flow
      rw [he] at hl1
      rcases listen_on hL with ⟨h, _⟩ | ⟨fd2, rest, hev, hon2, hnc⟩
      · exact absurd rfl h
      · have hfd : fd2 = fd := by
          have := hon2 _ hm
          exact Eq.symm this
        subst hfd
        subst hev
        have hsock : K.socket w.trace = .ok fd2 := by
          cases hg with
          | cons ha _ => exact ha.symm
        refine ⟨.idle, w1, _, rfl, ht, hg, .inr (.inr ⟨fd2, w.trace, _, [], [], lost, hL, hm, by rw [ht]; simp, by simp, hl1,
          by rw [hcb1]; exact hcb, hecb, ⟨k, ho⟩, ?_, ?_⟩), .inr (.inr ⟨fd2, hsock, hon2⟩), ?_⟩
        · intro _
          exact ⟨w.trace, rest, 16, 3, 12, ht, fun r hr => hnc rfl _ _ hr⟩
        · refine .idle (ms := []) (read := []) rfl .nil rfl (by simp [failures]) hR ?_
          intro g hg
          obtain ⟨⟨x, hx, rfl⟩, hF, hf⟩ := hg
          obtain ⟨q, hq, hqo, _⟩ := hB.bound x hx hF hf
          refine ⟨⟨q, hq, hqo⟩, .inl ⟨q, hq, hqo⟩, ?_⟩
          simpa using hl3 x.toNat hF hf
        · intro fd m hm _ _ _
          rw [ho] at hm
          simp only [Option.some.injEq, Handle.mk.injEq] at hm
          rw [← hm.1]
          exact .inr hsock
  · refine ⟨.off, w, [], rfl, by simp, .nil, .inr (.inl ⟨rfl, err, by simpa using hL⟩), .inl (by simp), fun _ _ _ _ h => absurd rfl h⟩
  · have hh := h10.here
    obtain ⟨pc', w', evs, hst, hsame, ht, hg, hon, hncl, hk⟩ := kpos_step hc hK hP h8 h6 h7 h10
    have hl : listenStep env K a pc w = lstep env K pc w := by
      cases pc with
      | unstarted => exact absurd rfl hh.1
      | _ => rfl
    have hh' := hk.here
    by_cases hd : pc = .done
    · subst hd
      have h0 : lstep env K .done w = .ok (.done, w) := rfl
      rw [h0] at hst
      simp only [Res.ok.injEq, Prod.mk.injEq] at hst
      obtain ⟨rfl, rfl⟩ := hst
      have : evs = [] := by simpa using ht.symm
      subst this
      refine ⟨.done, w, [], rfl, by simp, .nil, ?_, .inl (by simp), fun _ _ _ _ _ h => absurd rfl h⟩
      rw [List.append_nil]
      exact .inr (.inr ⟨fd, before, start, after, later, lost, h1, h2, h3, h4, h5, h6, h7, ⟨m, h8⟩, h9, h10⟩)
    · refine ⟨pc', w', evs, hl.trans hst, ht, hg, .inr (.inr ⟨fd, before, start, after ++ evs, later ++ evs, lost, h1, h2,
        by rw [ht, h3]; simp, by rw [h4]; simp, h5, by rw [hsame]; exact h6, by rw [hsame]; exact h7, by rw [hsame]; exact ⟨m, h8⟩, ?_, hk⟩),
        .inr (.inl ⟨fd, m, h8, hh.1, hh.2, hd, hon⟩), ?_⟩
      · intro hd'
        rw [ht]
        exact (h9 hd).append (hncl hd')
      · intro fd' m' h _ _ _
        rw [hsame] at h
        exact .inl ⟨h, hh.1, hh.2, hd⟩

/-- Listener `i` reads from descriptor `fd`. -/
def LiveOn (w : MW) (s : Nat → LPc) (i fd : Nat) : Prop :=
  s i ≠ .unstarted ∧ s i ≠ .off ∧ s i ≠ .done ∧ ∃ m, (w.st i).socket = some ⟨fd, m⟩

/-- All listeners: each of them is on the kernel, and no two read from the same descriptor. -/
def AllOnKernel (F : Nat → Prop) (st : List (Ev LEv) → KState) (args : List ListenArgs) (l : List (Nat × Ev LEv)) (w : MW) (s : Nat → LPc) : Prop :=
  (∀ i a cb, args[i]? = some a → a.cb = some cb → OnKernel F st a cb w.trace (w.st i) (ownEvents i l) (s i)) ∧
  ∀ i j fd, i < args.length → j < args.length → LiveOn w s i fd → LiveOn w s j fd → i = j

theorem OnKernel.open {st : List (Ev LEv) → KState} {a : ListenArgs} {tr evs : List (Ev LEv)} {n : NfLog} {m : Nat}
    (h : OnKernel F st a cb tr n evs pc) (hs : n.socket = some ⟨fd, m⟩) (h1 : pc ≠ .unstarted) (h2 : pc ≠ .off) (h3 : pc ≠ .done) :
    StillOpen tr fd := by
  rcases h with ⟨h, _⟩ | ⟨h, _⟩ | ⟨fd', _, _, _, _, _, _, _, _, _, _, _, _, ⟨m', h8⟩, h9, _⟩
  · exact absurd h h1
  · exact absurd h h2
  · rw [hs] at h8
    simp only [Option.some.injEq, Handle.mk.injEq] at h8
    rw [h8.1]
    exact h9 h3

theorem mstep_onKernel {env : Env} {K : Kernel LEv} {st : List (Ev LEv) → KState} (he : env.e = .little) (hc : Calm env K) (hK : Keeps .little F K st)
    (hN : NoneTwice K) {args : List ListenArgs} (hA : ∀ a ∈ args, a.cb.isSome = true ∧ (a.size.toNat = 0 ∨ 57 ≤ a.size.toNat))
    (hP : ∀ tr, ∀ x ∈ (st tr).logged, ∀ a ∈ args, askedBy a x.group → Ordinary x.packet)
    {l : List (Nat × Ev LEv)} {w : MW} {s : Nat → LPc} (i : Nat) (h : AllOnKernel F st args l w s) :
    ∃ s' l' w', mstep env K args i s w = .ok ((s', l'), w') ∧ AllOnKernel F st args (l ++ l') w' s' := by
  unfold mstep
  cases ha : args[i]? with
  | none => exact ⟨s, [], w, rfl, by rw [List.append_nil]; exact h⟩
  | some a =>
    have hmem := List.mem_of_getElem? ha
    have hlt := (List.getElem?_eq_some_iff.mp ha).1
    obtain ⟨hcb, hsize⟩ := hA a hmem
    obtain ⟨cb, hcb⟩ := Option.isSome_iff_exists.mp hcb
    obtain ⟨pc', v, evs, hst, ht, hg, hon, hwhere, hnew⟩ := OnKernel.step (w := w.view i) he hc hK hcb hsize
      (fun tr x hx hx' => hP tr x hx a hmem hx') (h.1 i a cb ha hcb)
    have ht : v.trace = w.trace ++ evs := ht
    have hd : v.trace.drop w.trace.length = evs := by rw [ht, List.drop_left]
    simp only [hst]
    refine ⟨_, _, _, rfl, ?_, ?_⟩
    · intro k b c hb hc'
      simp only [hd]
      rw [ownEvents_append]
      by_cases hk : k = i
      · subst hk
        rw [ha] at hb
        simp only [Option.some.injEq] at hb
        subst hb
        rw [hcb] at hc'
        simp only [Option.some.injEq] at hc'
        subst hc'
        rw [ownEvents_own]
        simp only [if_true]
        exact hon
      · rw [ownEvents_other (fun h => hk h.symm)]
        simp only [if_neg hk, List.append_nil]
        rw [ht]
        have hkk := h.1 k b c hb hc'
        refine hkk.others hK hg ?_
        intro fd m hs h1 h2 h3 hop
        rcases hwhere with hsil | ⟨f, m', hf, p1, p2, p3, hev⟩ | ⟨f, hf, hev⟩
        · exact ⟨fd + 1, by omega, fun ev hev => .of_silent (hsil ev hev)⟩
        · refine ⟨f, ?_, hev⟩
          rintro rfl
          exact hk (h.2 k i f (List.getElem?_eq_some_iff.mp hb).1 hlt ⟨h1, h2, h3, m, hs⟩ ⟨p1, p2, p3, m', hf⟩)
        · refine ⟨f, ?_, hev⟩
          rintro rfl
          exact hN _ _ hf hop
    · have other : ∀ j fd, j ≠ i → j < args.length →
          LiveOn (⟨v.trace, v.heap, fun k => if k = i then v.st else w.st k⟩ : MW) (fun k => if k = i then pc' else s k) j fd → LiveOn w s j fd := by
        intro j fd hj _ hl
        unfold LiveOn at hl ⊢
        simp only [if_neg hj] at hl
        exact hl
      have key : ∀ j fd, j ≠ i → j < args.length →
          LiveOn (⟨v.trace, v.heap, fun k => if k = i then v.st else w.st k⟩ : MW) (fun k => if k = i then pc' else s k) i fd →
          LiveOn (⟨v.trace, v.heap, fun k => if k = i then v.st else w.st k⟩ : MW) (fun k => if k = i then pc' else s k) j fd → False := by
        intro j fd hj hjl hi hj'
        have hj2 := other j fd hj hjl hj'
        unfold LiveOn at hi
        simp only [if_true] at hi
        obtain ⟨p1, p2, p3, m, hm⟩ := hi
        rcases hnew fd m hm p1 p2 p3 with ⟨q1, q2, q3, q4⟩ | hsock
        · exact hj (h.2 j i fd hjl hlt hj2 ⟨q2, q3, q4, m, q1⟩)
        · obtain ⟨r1, r2, r3, m', r4⟩ := hj2
          have hb : args[j]? = some args[j] := List.getElem?_eq_getElem hjl
          obtain ⟨c, hc'⟩ := Option.isSome_iff_exists.mp (hA args[j] (List.getElem_mem hjl)).1
          exact hN _ _ hsock ((h.1 j _ c hb hc').open r4 r1 r2 r3)
      intro j k fd hj hk lj lk
      by_cases hji : j = i
      · subst hji
        by_cases hki : k = j
        · exact hki.symm
        · exact (key k fd hki hk lj lk).elim
      · by_cases hki : k = i
        · subst hki
          exact (key j fd hji hj lk lj).elim
        · exact h.2 j k fd hj hk (other j fd hji hj lj) (other k fd hki hk lk)

theorem msched_onKernel {env : Env} {K : Kernel LEv} {st : List (Ev LEv) → KState} (he : env.e = .little) (hc : Calm env K) (hK : Keeps .little F K st)
    (hN : NoneTwice K) {args : List ListenArgs} (hA : ∀ a ∈ args, a.cb.isSome = true ∧ (a.size.toNat = 0 ∨ 57 ≤ a.size.toNat))
    (hP : ∀ tr, ∀ x ∈ (st tr).logged, ∀ a ∈ args, askedBy a x.group → Ordinary x.packet) : ∀ (is : List Nat)
    (l : List (Nat × Ev LEv)) (w : MW) (s : Nat → LPc), AllOnKernel F st args l w s →
    ∃ s' l' w', msched env K args is s w = .ok ((s', l'), w') ∧ AllOnKernel F st args (l ++ l') w' s' := by
  intro is
  induction is with
  | nil => intro l w s h; exact ⟨s, [], w, rfl, by rw [List.append_nil]; exact h⟩
  | cons i is ih =>
    intro l w s h
    obtain ⟨s1, l1, w1, h1, h2⟩ := mstep_onKernel he hc hK hN hA hP i h
    obtain ⟨s2, l2, w2, h3, h4⟩ := ih _ _ _ h2
    refine ⟨s2, l1 ++ l2, w2, ?_, by rw [← List.append_assoc]; exact h4⟩
    simp only [msched, GoM.bind_apply, h1, Res.ok_bind, h3]
    rfl

/-! ### The theorem -/

theorem Reports.split {xs : List Entry} : ∀ {ms more : List NfPacket}, Reports (ms ++ more) xs → ∃ a b, xs = a ++ b ∧ Reports ms a := by
  intro ms
  induction ms generalizing xs with
  | nil => intro more _; exact ⟨[], xs, rfl, .nil⟩
  | cons m ms ih =>
    intro more h
    cases h with
    | cons h1 h2 =>
      obtain ⟨a, b, rfl, h3⟩ := ih h2
      exact ⟨_ :: a, b, rfl, .cons h1 h3⟩

theorem OnKernel.account {env : Env} (hq : Quiet env) {st : List (Ev LEv) → KState} {a : ListenArgs} {tr evs : List (Ev LEv)} {n : NfLog}
    (h : OnKernel F st a cb tr n evs pc) : Account F st a cb tr evs pc := by
  rcases h with ⟨h1, h2⟩ | ⟨h1, err, h2⟩ | ⟨fd, before, start, after, later, lost, h1, h2, h3, h4, h5, _, _, _, _, h10⟩
  · exact .nothing h1 h2
  · exact .refused h1 h2
  · cases h10 with
    | @idle ms read hl hr he hf hR hH =>
      refine .started (shown := failures later) (due := []) h1 h2 h3 h4 hl hr (List.append_nil _).symm he (by simp) (fun _ => rfl) (fun _ => hf)
        (by intro h; cases h) h5 fun g hg hF hfr => ?_
      exact ⟨_, (hH g.toNat ⟨⟨g, hg, rfl⟩, hF, hfr⟩).2.flow, fun _ => ⟨[], by simp, fun _ => rfl⟩⟩
    | @parsing _ ms ms1 read items nt hl hr hrep hO he hf hR hH =>
      obtain ⟨more, hm⟩ := hO.more hq.toPolite (w := ⟨[], ⟨[]⟩, ⟨some cb, none, none, false⟩⟩) (cb := cb) rfl
      obtain ⟨r1, r2, hxs, hr1⟩ := (hrep _ hm).split
      have hni : pc ≠ .idle := by rintro rfl; exact hO.elim
      have hnd : pc ≠ .done := by rintro rfl; exact hO.elim
      refine .started (shown := failures later) (due := []) h1 h2 h3 h4 hl (hr.append hr1) (List.append_nil _).symm he (by simp) (fun _ => rfl)
        (fun h => absurd h hni) (fun h => absurd h hnd) h5 fun g hg hF hfr => ?_
      refine ⟨_, ?_, fun _ => ⟨r2, rfl, fun h => absurd h hni⟩⟩
      have := (hH g.toNat ⟨⟨g, hg, rfl⟩, hF, hfr⟩).2.flow
      rw [hxs] at this
      rw [this]
      simp only [List.filter_append, List.append_assoc]
    | @failed k fs ms read hl hr hfs he hf hR hH =>
      refine .started (shown := fs) (due := [k]) h1 h2 h3 h4 hl hr hfs he (by simp) (by rintro (h | h) <;> cases h) (by intro h; cases h)
        (by intro h; cases h) h5 fun g hg hF hfr => ?_
      exact ⟨_, (hH g.toNat ⟨⟨g, hg, rfl⟩, hF, hfr⟩).2.flow, fun _ => ⟨[], by simp, fun _ => rfl⟩⟩
    | @closing k fs ms read hl hr hfs he hf hne hR hH =>
      refine .started (shown := failures later) (due := []) h1 h2 h3 h4 hl hr (List.append_nil _).symm he (by simp) (fun _ => rfl)
        (by intro h; cases h) (by intro h; cases h) h5 fun g hg hF hfr => ?_
      exact ⟨_, (hH g.toNat ⟨⟨g, hg, rfl⟩, hF, hfr⟩).2.flow, fun _ => ⟨[], by simp, fun _ => rfl⟩⟩
    | @done k fs ms read hl hr hfs he hf hne hk =>
      refine .started (shown := failures later) (due := []) h1 h2 h3 h4 hl hr (List.append_nil _).symm he (by simp) (fun _ => rfl)
        (by intro h; cases h) (fun _ => ⟨fs, k, hfs, hne, hf⟩) h5 fun g hg hF hfr => ?_
      obtain ⟨rest, hrest⟩ := hk g.toNat ⟨⟨g, hg, rfl⟩, hF, hfr⟩
      exact ⟨rest, hrest, fun h => absurd rfl h⟩

/-- C143: several listeners in one process, on a kernel that keeps log groups and gives out no descriptor that is still open, each with a
log callback and a copy range of 0 or at least 57, when only ordinary packets are logged to the groups they ask for and callbacks leave log
groups alone: no schedule crashes the process, and each listener, whatever the others do, accounts for every group it was the first to ask
for: what was logged to it since is, in order, what its start dropped (nothing if no log arrived during it), what was reported to its own
callback, each once, and, as long as it goes on, what it has in hand and what is still to be received.  Its failed receives are reported to its
own error callback, and it ends only by one that is not ENOBUFS (105). -/
theorem C143_reported (env : Env) (he : env.e = .little) (F : Nat → Prop) (K : Kernel LEv) (st : List (Ev LEv) → KState) (hK : Keeps .little F K st)
    (hN : NoneTwice K) (hc : Calm env K) (args : List ListenArgs)
    (hA : ∀ a ∈ args, a.cb.isSome = true ∧ (a.size.toNat = 0 ∨ 57 ≤ a.size.toNat))
    (hP : ∀ tr, ∀ x ∈ (st tr).logged, (∃ a ∈ args, ∃ g ∈ a.groups, g.toNat = x.group) → Ordinary x.packet) (is : List Nat) (w : MW) :
    ∃ s l w', msched env K args is (fun _ => .unstarted) w = .ok ((s, l), w') ∧
      ∀ i a cb, args[i]? = some a → a.cb = some cb → Account F st a cb w'.trace (ownEvents i l) (s i) := by
  obtain ⟨s, l, w', h1, h2⟩ := msched_onKernel he hc hK hN hA (fun tr x hx a ha hg => hP tr x hx ⟨a, ha, hg⟩) is [] w (fun _ => .unstarted)
    ⟨fun _ _ _ _ _ => .inl ⟨rfl, rfl⟩, fun i j fd _ _ h _ => absurd rfl h.1⟩
  exact ⟨s, l, w', h1, fun i a cb ha hcb => (h2.1 i a cb ha hcb).account hc.toQuiet⟩


/-! ### A concrete case -/

theorem openedIn_of_socket {tr : List (Ev LEv)} {fd : Nat} (h : StillOpen tr fd) : fd ∈ openedIn tr := by
  obtain ⟨a, b, d, t, p, rfl, _⟩ := h
  unfold openedIn
  simp

theorem groupKernel_noneTwice (e : Endian) (s0 : KState) (script : List (Ev LEv) → List Act) : NoneTwice (groupKernel e s0 script) := by
  intro tr fd h ho
  have h : (Except.ok (freshFd tr) : Except Nat Nat) = .ok fd := h
  simp only [Except.ok.injEq] at h
  subst h
  exact freshFd_new tr (openedIn_of_socket ho)

/-- Whenever a listener has been started, a packet is logged to group 10, under the prefix "A", and one to group 11, and both are sent. -/
def bothLogs (tr : List (Ev LEv)) : List Act :=
  match tr.getLast? with
  | some (.app .spawnReader) => [.log 10 (some [65]) tcp44, .log 11 none tcp44, .flush 10, .flush 11]
  | _ => []

theorem bothLogs_ordinary (tr : List (Ev LEv)) : ∀ x ∈ (stateAfter .little someGroups bothLogs tr).logged, Ordinary x.packet :=
  scripted_logged .little someGroups bothLogs (fun _ p => Ordinary p) rfl (by
    intro tr g pfx p h
    unfold bothLogs at h
    split at h
    · simp only [List.mem_cons, Act.log.injEq, List.not_mem_nil, or_false, reduceCtorEq] at h
      rcases h with ⟨_, _, rfl⟩ | ⟨_, _, rfl⟩ <;> exact ⟨tcp44_whole, .inl (by decide)⟩
    · cases h) tr

def sharedTest : Bool :=
  match msched someEnv (groupKernel .little someGroups bothLogs) twoListeners mixed (fun _ => .unstarted) ⟨[], ⟨[]⟩, fun _ => newNFLog⟩ with
  | .ok ((_, l), _) =>
    decide ((logs (ownEvents 0 l)).map (fun x => (x.1, x.2.prefix')) = [(1, [65]), (1, [65])]) &&
    decide ((logs (ownEvents 1 l)).map (fun x => (x.1, x.2.prefix')) = [(3, [])])
  | _ => false

theorem sharedTest_true : sharedTest = true := by decide +kernel

/-- C143, a concrete case: of three packets logged to two groups, two are reported to the listener of the one and one to the other, and the
kernel meets the hypotheses of the theorem. -/
theorem C143_example : ∃ s l w', msched someEnv (groupKernel .little someGroups bothLogs) twoListeners mixed (fun _ => .unstarted)
      ⟨[], ⟨[]⟩, fun _ => newNFLog⟩ = .ok ((s, l), w') ∧
    (logs (ownEvents 0 l)).map (fun x => (x.1, x.2.prefix')) = [(1, [65]), (1, [65])] ∧
    (logs (ownEvents 1 l)).map (fun x => (x.1, x.2.prefix')) = [(3, [])] ∧
    Account (fun _ => False) (stateAfter .little someGroups bothLogs) ⟨[10], 64, some 1, some 2⟩ 1 w'.trace (ownEvents 0 l) (s 0) ∧
    Account (fun _ => False) (stateAfter .little someGroups bothLogs) ⟨[11], 64, some 3, some 4⟩ 3 w'.trace (ownEvents 1 l) (s 1) := by
  have h := sharedTest_true
  unfold sharedTest at h
  split at h
  · rename_i s l w' hw
    simp only [Bool.and_eq_true, decide_eq_true_eq] at h
    obtain ⟨s2, l2, w2, h2, hacc⟩ := C143_reported someEnv rfl (fun _ => False) _ _ (groupKernel_keeps .little someGroups_untouched bothLogs _)
      (groupKernel_noneTwice _ _ _) (someEnv_calm _) twoListeners (by
        intro a ha
        simp only [twoListeners, List.mem_cons, List.not_mem_nil, or_false] at ha
        rcases ha with rfl | rfl <;> exact ⟨rfl, .inr (by decide)⟩)
      (fun tr x hx _ => bothLogs_ordinary tr x hx) mixed ⟨[], ⟨[]⟩, fun _ => newNFLog⟩
    rw [hw] at h2
    simp only [Res.ok.injEq, Prod.mk.injEq] at h2
    obtain ⟨⟨rfl, rfl⟩, rfl⟩ := h2
    exact ⟨s, l, w', hw, h.1, h.2, hacc 0 _ 1 rfl rfl, hacc 1 _ 3 rfl rfl⟩
  · cases h

end Verif.Props.Log
