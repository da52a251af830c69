import Verif.NfLog.Boot
import Verif.NfLog.Records
import Verif.Props.NfLogConfig
/-! C135: starting to listen, on a kernel that keeps log groups. -/
namespace Verif.Props.Log
open Verif.Sys Verif.Spec Verif.NfLog

/-- Group `g` is free. -/
def Free (s : KState) (g : Nat) : Prop := s.groups g = none

/-- Group `g` belongs to socket `fd`, which is shown its packets, as many bytes as the kernel shows when asked for `size`. -/
def Served (s : KState) (fd g size : Nat) : Prop := ∃ k, s.groups g = some k ∧ k.owner = .sock fd ∧ k.mode = 2 ∧ k.range = clip size

theorem served_conf {s : KState} {fd g size : Nat} : s.conf g = some (modeOf fd size) ↔ Served s fd g size := by
  unfold KState.conf Served
  cases s.groups g with
  | none => simp
  | some k =>
    simp only [Option.map_some, Option.some.injEq]
    cases k
    simp [KGroup.conf, modeOf]

theorem Run.app {e : Endian} {F : Nat → Prop} {a : LEv} {s s' : KState} (h : Run e F s [.app a] s') : Meanwhile F s s' :=
  h.of_silent (by simp [Silent, handedOver])

/-- What is true after a successful start. -/
structure Began (e : Endian) (F : Nat → Prop) (groups : List U16) (size fd : Nat) (evs : List (Ev LEv)) (s s' : KState) : Prop where
  bound : ∀ g ∈ groups, ¬ F g.toNat → Free s g.toNat → Served s' fd g.toNat size
  only : ∀ g, s'.Owns fd g → ∃ x ∈ groups, x.toNat = g
  rest : ∀ g, ¬ F g → ((∀ x ∈ groups, x.toNat ≠ g) ∨ ¬ Free s g) → s'.conf g = s.conf g
  undisturbed : logDatagrams e evs = [] → groups.Nodup ∧ (∀ g ∈ groups, Served s' fd g.toNat size) ∧
    (∀ g ∈ groups, ¬ F g.toNat → Free s g.toNat) ∧ codesOf (s'.inbox fd) = []
  tidy : Tidy fd s'
  sorted : Sorted fd s'
  codes : (codesOf (s'.inbox fd)).length = (logDatagrams e evs).length
  flow : ∃ read : List Entry, (logDatagrams e evs = [] → read = []) ∧ (∀ y ∈ read, s'.Owns fd y.group) ∧
    ∀ g, ¬ F g → Free s g → s'.loggedTo g = s.loggedTo g ++ (read.filter fun x => decide (x.group = g)) ++ s'.pending fd g

theorem loggedTo_free {F : Nat → Prop} {s s' : KState} (h : Meanwhile F s s') {g : Nat} (hF : ¬ F g) (hf : Free s g) :
    s'.loggedTo g = s.loggedTo g := by
  have key : ∀ {s s' : KState}, Env1 F s s' → s.groups g = none → s'.loggedTo g = s.loggedTo g := by
    intro s s' h hf
    cases h with
    | @log g0 k pfx p hk =>
      have : g0 ≠ g := by intro hc; subst hc; rw [hf] at hk; cases hk
      simp [KState.loggedTo, this]
    | flush => simp [KState.loggedTo]
    | others _ h2 _ => simp [KState.loggedTo, h2]
  induction h with
  | refl => rfl
  | tail h1 h ih =>
    rw [key h ?_, ih]
    rw [← conf_none, h1.conf (.inl hF), conf_none]; exact hf

theorem started_began {e : Endian} {F : Nat → Prop} {groups : List U16} {size fd : Nat} {bevs opts ev1 ev2 : List (Ev LEv)} {s s' : KState}
    (hb : BindEvs fd none bevs) (hopt : OptEvs fd opts) (g1 : GroupsOut e fd .bindGroup groups none ev1)
    (g2 : GroupsOut e fd (fun g => .copyPacket g size) groups none ev2)
    (hr : Run e F s ([.socket 16 3 12 (.ok fd)] ++ bevs ++ opts ++ ev1 ++ ev2 ++ [.app .spawnReader]) s') :
    Began e F groups size fd ([.socket 16 3 12 (.ok fd)] ++ bevs ++ opts ++ ev1 ++ ev2 ++ [.app .spawnReader]) s s' := by
  obtain ⟨t5, hr, r6⟩ := hr.split
  obtain ⟨t4, hr, r5⟩ := hr.split
  obtain ⟨t3, hr, r4⟩ := hr.split
  obtain ⟨t2, hr, r3⟩ := hr.split
  obtain ⟨t1, r1, r2⟩ := hr.split
  obtain ⟨s0, m0, hno, hin, m1⟩ := r1.opened
  have m3 : Meanwhile F s0 t3 := (m1.trans (r2.of_silent (bind_silent hb))).trans (r3.of_silent (opt_silent hopt))
  have hG1 : ∀ g ∈ groups, About (fun i => ∃ x ∈ groups, x.toNat = i) (.bindGroup g.toNat) := fun g hg => ⟨g, hg, rfl⟩
  have hG2 : ∀ g ∈ groups, About (fun i => ∃ x ∈ groups, x.toNat = i) (.copyPacket g.toNat size) := fun g hg => ⟨g, hg, rfl⟩
  have A0 : Apart F fd (fun i => ∃ x ∈ groups, x.toNat = i) s0 s0 := ⟨fun _ _ _ => rfl, fun _ _ _ => .inl rfl, fun g _ => hno g⟩
  have A1 := ((Apart.groupsOut hno g2 hG2 (Apart.groupsOut hno g1 hG1 (A0.meanwhile m3) r4) r5).meanwhile (Run.app r6))
  obtain ⟨dn1, rd1, B1, l1, z1, y1, o1, p1, q1⟩ := Boot.bound g1 rfl ((Boot.start hno hin).meanwhile m3) r4
  obtain ⟨dn2, rd2, B2, l2, z2, y2, o2, p2, q2⟩ := Boot.moded g2 rfl B1 r5
  have m6 := Run.app r6
  have B3 := B2.meanwhile m6
  have hcount : (logDatagrams e ([.socket 16 3 12 (.ok fd)] ++ bevs ++ opts ++ ev1 ++ ev2 ++ [.app .spawnReader])).length =
      (logDatagrams e ev1).length + (logDatagrams e ev2).length := by
    have e1 : logDatagrams e bevs = [] := logDatagrams_none fun ev hev fd size flags d hc => by
      subst hc
      rcases hb with ⟨_, rfl⟩ | ⟨_, rfl⟩ <;> simp at hev
    have e2 : logDatagrams e opts = [] := logDatagrams_none fun ev hev fd size flags d hc => by
      obtain ⟨_, h⟩ := SetOpt.mem hopt ev hev
      rw [h] at hc; cases hc
    simp only [logDatagrams_append, e1, e2]
    simp [logDatagrams]
  have freed : ∀ g, ¬ F g → Free s g → t3.groups g = none := by
    intro g hF hf
    rw [← conf_none, m3.conf (.inl hF), m0.conf (.inl hF), conf_none]; exact hf
  have freed' : ∀ g, ¬ F g → t3.groups g = none → Free s g := by
    intro g hF hf
    rw [← conf_none, m3.conf (.inl hF), m0.conf (.inl hF), conf_none] at hf; exact hf
  have hserved : ∀ g ∈ groups, t4.Owns fd g.toNat → Served s' fd g.toNat size := by
    intro g hg ho
    rw [← served_conf, m6.conf (.inr ⟨fd, (o2 _).mpr ho⟩)]
    exact q2 g hg ho
  obtain ⟨p, hp1, hp2⟩ := B3.codes
  have hcodes : (codesOf (s'.inbox fd)).length = (logDatagrams e ev1).length + (logDatagrams e ev2).length := by
    have := congrArg List.length hp1
    simp only [List.length_append, List.length_replicate] at this hp2
    omega
  refine ⟨?_, ?_, ?_, ?_, B3.tidy, B3.sorted, by rw [hcount]; exact hcodes, ?_⟩
  · intro g hg hF hf
    exact hserved g hg (p1 g hg hF (freed _ hF hf))
  · intro g ho
    exact Classical.byContradiction fun hc => A1.only g hc ho
  · intro g hF hg
    have e1 : s0.conf g = s.conf g := m0.conf (.inl hF)
    rw [← e1]
    by_cases hin : ∃ x ∈ groups, x.toNat = g
    · rcases A1.these g hin hF with h | ⟨h, _⟩
      · exact h
      · rcases hg with hg | hg
        · obtain ⟨x, hx, hxg⟩ := hin
          exact absurd hxg (hg x hx)
        · rw [e1] at h
          exact absurd (conf_none.mp h) hg
    · exact A1.others g hin hF
  · intro h0
    rw [h0] at hcount
    have hc0 : codesOf (s'.inbox fd) = [] := by
      apply List.length_eq_zero_iff.mp
      rw [hcodes]; simp at hcount; omega
    have hz : ∀ c ∈ dn1, c = 0 := by
      intro c hc
      have : c ∈ [] ++ dn1 ++ dn2 := by simp [hc]
      rw [hp1, hc0, List.append_nil] at this
      exact (List.mem_replicate.mp this).2
    obtain ⟨n1, n2, _, n4⟩ := q1 hz
    exact ⟨n1, fun g hg => hserved g hg (n2 g hg), fun g hg hF => freed' _ hF (n4 g hg hF), hc0⟩
  · refine ⟨rd1 ++ rd2, ?_, ?_, ?_⟩
    · intro h0
      rw [h0] at hcount
      simp only [List.length_nil] at hcount
      rw [z1 (by omega), z2 (by omega)]; rfl
    · intro y hy
      rw [m6.owns, o2]
      rcases List.mem_append.mp hy with hy | hy
      · exact y1 y hy
      · exact (o2 _).mp (y2 y hy)
    · intro g hF hf
      have hf0 : s0.groups g = none := by
        rw [← conf_none, m0.conf (.inl hF), conf_none]; exact hf
      have := (B3.flows g (.inr ⟨hf0, hF⟩)).flow
      rw [loggedTo_free m0 hF hf] at this
      simpa using this

/-- C135, failure: whatever failed, no group belongs to the socket that was opened, and all groups no other program uses are as they were. -/
theorem failed_clean {e : Endian} {F : Nat → Prop} {groups : List U16} {size : Nat} {err : Err} {evs : List (Ev LEv)} {s s' : KState}
    (h : ListenOut e groups size (some err) evs) (hr : Run e F s evs s') :
    (∀ fd, .socket 16 3 12 (.ok fd) ∈ evs → ∀ g, ¬ s'.Owns fd g) ∧ ∀ g, ¬ F g → s'.conf g = s.conf g := by
  have closed : ∀ {fd : Nat} {s0 t t' : KState} {G : Nat → Prop} {cl : List (Ev LEv)}, Meanwhile F s s0 → (∀ g, ¬ s0.Owns fd g) →
      Apart F fd G s0 t → CloseEvs fd cl → Run e F t cl t' → (∀ g, ¬ t'.Owns fd g) ∧ ∀ g, ¬ F g → t'.conf g = s.conf g := by
    intro fd s0 t t' G cl m0 hno hA hcl hrun
    obtain ⟨u1, u2, a1, a2, a3⟩ := hrun.closes hcl
    obtain ⟨c1, c2⟩ := (hA.meanwhile a1).released hno
    have d1 : ∀ g, ¬ F g → u2.conf g = s.conf g := fun g hF => by rw [a2.conf (.inl hF), c1 g hF, m0.conf (.inl hF)]
    have d2 : ∀ g, ¬ u2.Owns fd g := fun g ho => c2 g ((a2.owns fd g).mp ho)
    rcases a3 with rfl | a3
    · exact ⟨d2, d1⟩
    · refine ⟨fun g ho => release_owns u2 fd g ((a3.owns fd g).mp ho), fun g hF => ?_⟩
      rw [a3.conf (.inl hF), release_conf, d1 g hF]
      have h1 := d1 g hF
      cases hs : s.conf g with
      | none => rfl
      | some k =>
        rw [hs] at h1
        unfold KState.conf at h1
        cases hk : u2.groups g with
        | none => rw [hk] at h1; cases h1
        | some k' =>
          rw [hk] at h1
          simp only [Option.map_some, Option.some.injEq] at h1
          have : k.owner ≠ .sock fd := by
            intro hc
            refine d2 g ⟨k', hk, ?_⟩
            rw [← hc, ← h1]; rfl
          simp [Option.filter, this]
  cases h with
  | noSocket => exact ⟨by simp, fun g hF => (hr.of_silent (by simp [Silent, handedOver])).conf (.inl hF)⟩
  | @noBind fd n bevs hb =>
    obtain ⟨t1, r1, r2⟩ := hr.split
    obtain ⟨s0, m0, hno, hin, m1⟩ := r1.opened
    have m2 := m1.trans (r2.of_silent (bind_silent hb))
    refine ⟨?_, fun g hF => (m0.trans m2).conf (.inl hF)⟩
    intro fd' hm g ho
    have : fd' = fd := by
      simp only [List.mem_append, List.mem_singleton] at hm
      rcases hm with hm | hm
      · cases hm; rfl
      · rcases hb with ⟨_, rfl⟩ | ⟨_, rfl⟩ <;> simp at hm
    subst this
    exact hno g ((m2.owns fd' g).mp ho)
  | @noGroup fd err bevs opts ev1 cl hb hopt g1 hcl =>
    obtain ⟨t4, hr, r5⟩ := hr.split
    obtain ⟨t3, hr, r4⟩ := hr.split
    obtain ⟨t2, hr, r3⟩ := hr.split
    obtain ⟨t1, r1, r2⟩ := hr.split
    obtain ⟨s0, m0, hno, hin, m1⟩ := r1.opened
    have m3 : Meanwhile F s0 t3 := (m1.trans (r2.of_silent (bind_silent hb))).trans (r3.of_silent (opt_silent hopt))
    have A0 : Apart F fd (fun _ => True) s0 s0 := ⟨fun _ _ _ => rfl, fun _ _ _ => .inl rfl, fun g _ => hno g⟩
    have A1 := Apart.groupsOut (G := fun _ => True) hno g1 (fun g _ => trivial) (A0.meanwhile m3) r4
    obtain ⟨c1, c2⟩ := closed m0 hno A1 hcl r5
    refine ⟨?_, c2⟩
    intro fd' hm
    have : fd' = fd := by
      simp only [List.mem_append, List.mem_singleton] at hm
      rcases hm with (((hm | hm) | hm) | hm) | hm
      · cases hm; rfl
      · rcases hb with ⟨_, rfl⟩ | ⟨_, rfl⟩ <;> simp at hm
      · obtain ⟨_, h⟩ := SetOpt.mem hopt _ hm; cases h
      · have := GroupsOut_clean g1 _ hm; simp [isTransfer] at this
      · rcases hcl with rfl | ⟨_, _, rfl⟩ <;> simp at hm
    subst this
    exact c1
  | @noMode fd err bevs opts ev1 ev2 cl hb hopt g1 g2 hcl =>
    obtain ⟨t5, hr, r6⟩ := hr.split
    obtain ⟨t4, hr, r5⟩ := hr.split
    obtain ⟨t3, hr, r4⟩ := hr.split
    obtain ⟨t2, hr, r3⟩ := hr.split
    obtain ⟨t1, r1, r2⟩ := hr.split
    obtain ⟨s0, m0, hno, hin, m1⟩ := r1.opened
    have m3 : Meanwhile F s0 t3 := (m1.trans (r2.of_silent (bind_silent hb))).trans (r3.of_silent (opt_silent hopt))
    have A0 : Apart F fd (fun _ => True) s0 s0 := ⟨fun _ _ _ => rfl, fun _ _ _ => .inl rfl, fun g _ => hno g⟩
    have A1 := Apart.groupsOut (G := fun _ => True) hno g2 (fun g _ => trivial) (Apart.groupsOut (G := fun _ => True) hno g1 (fun g _ => trivial) (A0.meanwhile m3) r4) r5
    obtain ⟨c1, c2⟩ := closed m0 hno A1 hcl r6
    refine ⟨?_, c2⟩
    intro fd' hm
    have : fd' = fd := by
      simp only [List.mem_append, List.mem_singleton] at hm
      rcases hm with ((((hm | hm) | hm) | hm) | hm) | hm
      · cases hm; rfl
      · rcases hb with ⟨_, rfl⟩ | ⟨_, rfl⟩ <;> simp at hm
      · obtain ⟨_, h⟩ := SetOpt.mem hopt _ hm; cases h
      · have := GroupsOut_clean g1 _ hm; simp [isTransfer] at this
      · have := GroupsOut_clean g2 _ hm; simp [isTransfer] at this
      · rcases hcl with rfl | ⟨_, _, rfl⟩ <;> simp at hm
    subst this
    exact c1

/-- The socket a successful start opened is the one the handle holds. -/
theorem start_fd {env : Env} {K : Kernel LEv} {groups : List U16} {size : U32} {cb ecb : Option Nat} {w w' : W}
    (h : bindAndListen env K groups size cb ecb w = .ok (none, w')) :
    ∃ fd bevs opts ev1 ev2, OpenOn w' fd ∧
      w'.trace = w.trace ++ ([.socket 16 3 12 (.ok fd)] ++ bevs ++ opts ++ ev1 ++ ev2 ++ [.app .spawnReader]) ∧
      BindEvs fd none bevs ∧ OptEvs fd opts ∧ GroupsOut env.e fd .bindGroup groups none ev1 ∧
      GroupsOut env.e fd (fun g => .copyPacket g size.toNat) groups none ev2 := by
  obtain ⟨evs, ht, ho, hst⟩ := C32_outcomes env K groups size cb ecb w w' none h
  obtain ⟨_, _, fd, hfd, hm⟩ := hst rfl
  cases ho with
  | @started fd' bevs opts ev1 ev2 hb hopt g1 g2 =>
    have : fd = fd' := by
      simp only [List.mem_append, List.mem_singleton] at hm
      rcases hm with ((((hm | hm) | hm) | hm) | hm) | hm
      · cases hm; rfl
      · rcases hb with ⟨_, rfl⟩ | ⟨_, rfl⟩ <;> simp at hm
      · obtain ⟨_, h⟩ := SetOpt.mem hopt _ hm; cases h
      · have := GroupsOut_clean g1 _ hm; simp [isTransfer] at this
      · have := GroupsOut_clean g2 _ hm; simp [isTransfer] at this
      · cases hm
    subst this
    exact ⟨fd, bevs, opts, ev1, ev2, hfd, ht, hb, hopt, g1, g2⟩

theorem start_began {env : Env} {F : Nat → Prop} {K : Kernel LEv} {st : List (Ev LEv) → KState} (hK : Keeps env.e F K st)
    {groups : List U16} {size : U32} {cb ecb : Option Nat} {w w' : W} (h : bindAndListen env K groups size cb ecb w = .ok (none, w')) :
    ∃ evs fd, w'.trace = w.trace ++ evs ∧ OpenOn w' fd ∧ Began env.e F groups size.toNat fd evs (st w.trace) (st w'.trace) := by
  obtain ⟨fd, bevs, opts, ev1, ev2, hfd, ht, hb, hopt, g1, g2⟩ := start_fd h
  obtain ⟨evs, ht', hg⟩ := records_bindAndListen env groups size cb ecb w none w' h
  have he : evs = [.socket 16 3 12 (.ok fd)] ++ bevs ++ opts ++ ev1 ++ ev2 ++ [.app .spawnReader] := List.append_cancel_left (ht'.symm.trans ht)
  have hr := Run.of_genuine hK hg
  rw [← ht'] at hr
  subst he
  exact ⟨_, fd, ht, hfd, started_began hb hopt g1 g2 hr⟩

/-- C135: BindAndListenForLogs on a kernel that keeps log groups, whatever other programs do and whatever is logged.  When it returns a
handle: every group asked for that was free (and is used by no other program) belongs to its socket now, which is shown the packets; the socket
has no group that was not asked for; the other groups are as they were.  If no log arrived meanwhile, then moreover all groups asked for are
distinct, were free, and belong to the socket.  When it returns an error the socket it opened has no group, and all groups are as they were. -/
theorem C135_start (env : Env) (F : Nat → Prop) (K : Kernel LEv) (st : List (Ev LEv) → KState) (hK : Keeps env.e F K st)
    (groups : List U16) (size : U32) (cb ecb : Option Nat) (w w' : W) (r : Option Err)
    (h : bindAndListen env K groups size cb ecb w = .ok (r, w')) :
    ∃ evs, w'.trace = w.trace ++ evs ∧
      (r = none → ∃ fd, OpenOn w' fd ∧
        (∀ g ∈ groups, ¬ F g.toNat → Free (st w.trace) g.toNat → Served (st w'.trace) fd g.toNat size.toNat) ∧
        (∀ g, (st w'.trace).Owns fd g → ∃ x ∈ groups, x.toNat = g) ∧
        (∀ g, ¬ F g → ((∀ x ∈ groups, x.toNat ≠ g) ∨ ¬ Free (st w.trace) g) → (st w'.trace).conf g = (st w.trace).conf g) ∧
        (logDatagrams env.e evs = [] → groups.Nodup ∧ (∀ g ∈ groups, Served (st w'.trace) fd g.toNat size.toNat) ∧
          ∀ g ∈ groups, ¬ F g.toNat → Free (st w.trace) g.toNat)) ∧
      (r ≠ none → (∀ fd, .socket 16 3 12 (.ok fd) ∈ evs → ∀ g, ¬ (st w'.trace).Owns fd g) ∧
        ∀ g, ¬ F g → (st w'.trace).conf g = (st w.trace).conf g) := by
  cases r with
  | none =>
    obtain ⟨evs, fd, ht, hfd, hB⟩ := start_began hK h
    refine ⟨evs, ht, fun _ => ⟨fd, hfd, hB.bound, hB.only, hB.rest, fun h0 => ?_⟩, fun hc => absurd rfl hc⟩
    obtain ⟨a, b, c, _⟩ := hB.undisturbed h0
    exact ⟨a, b, c⟩
  | some err =>
    obtain ⟨evs, ht, ho, _⟩ := C32_outcomes env K groups size cb ecb w w' _ h
    obtain ⟨evs', ht', hg⟩ := records_bindAndListen env groups size cb ecb w _ w' h
    have he : evs' = evs := List.append_cancel_left (ht'.symm.trans ht)
    subst he
    have hr := Run.of_genuine hK hg
    rw [← ht'] at hr
    exact ⟨evs', ht, fun hc => by simp at hc, fun _ => failed_clean ho hr⟩

/-- C135: a group that is taken, or asked for twice: as long as no log arrives meanwhile, an error is returned. -/
theorem C135_taken (env : Env) (F : Nat → Prop) (K : Kernel LEv) (st : List (Ev LEv) → KState) (hK : Keeps env.e F K st)
    (groups : List U16) (size : U32) (cb ecb : Option Nat) (w w' : W) (r : Option Err)
    (h : bindAndListen env K groups size cb ecb w = .ok (r, w')) {evs : List (Ev LEv)} (ht : w'.trace = w.trace ++ evs)
    (hl : logDatagrams env.e evs = [])
    (hbad : ¬ groups.Nodup ∨ ∃ g ∈ groups, ¬ F g.toNat ∧ ¬ Free (st w.trace) g.toNat) : r ≠ none := by
  rintro rfl
  obtain ⟨evs', fd, ht', _, hB⟩ := start_began hK h
  have he : evs' = evs := List.append_cancel_left (ht'.symm.trans ht)
  subst he
  obtain ⟨a, _, c, _⟩ := hB.undisturbed hl
  rcases hbad with hb | ⟨g, hg, hF, hb⟩
  · exact hb a
  · exact hb (c g hg hF)

end Verif.Props.Log
