import Verif.Props.NfLogKernel
import Verif.NfLog.GroupKernel
/-! C135 on a kernel whose calls do not fail: groups that are free can be listened to, whatever is logged meanwhile. -/
namespace Verif.Props.Log
open Verif.Sys Verif.Spec Verif.NfLog

/-- No error lies in the socket. -/
def Fine (fd : Nat) (s : KState) : Prop := ∀ c ∈ codesOf (s.inbox fd), c = 0

theorem Fine.meanwhile {F : Nat → Prop} {fd : Nat} {s s' : KState} (h : Fine fd s) (hm : Meanwhile F s s') : Fine fd s' := by
  unfold Fine; rw [hm.codes]; exact h

/-- What the kernel does with a request that it grants. -/
def Granted (e : Endian) (F : Nat → Prop) (fd : Nat) (req : LReq) (s : KState) : Prop :=
  ∀ b, Encodes e b req → ∀ s1, Meanwhile F s s1 → (s1.serve e fd b).1 = 0 ∧ (s1.serve e fd b).2.inbox = s1.inbox

theorem answered_fine {e : Endian} {F : Nat → Prop} {fd : Nat} {req : LReq} {s s1 s2 s3 : KState} {b : List Byte} (hf : Fine fd s)
    (hg : Granted e F fd req s) (hb : Encodes e b req) (m1 : Meanwhile F s s1) (m2 : Meanwhile F (s1.serve e fd b).2 s2)
    (m3 : Meanwhile F (s2.setInbox fd (s2.inbox fd ++ [.ack (s1.serve e fd b).1])) s3) : Fine fd s3 ∧ s3.inbox fd ≠ [] := by
  obtain ⟨c0, hi⟩ := hg b hb s1 m1
  rw [c0] at m3
  have f1 := hf.meanwhile m1
  constructor
  · refine Fine.meanwhile (s := s2.setInbox fd (s2.inbox fd ++ [.ack 0])) ?_ m3
    intro c hc
    rw [setInbox_same] at hc
    unfold codesOf at hc
    rw [List.filterMap_append] at hc
    rcases List.mem_append.mp hc with hc | hc
    · refine f1 c ?_
      have : c ∈ codesOf (s2.inbox fd) := hc
      rw [m2.codes, hi] at this
      exact this
    · simpa using hc
  · obtain ⟨l, hl⟩ := m3.inbox_grows fd
    rw [hl, setInbox_same]; simp

/-- A request that the kernel grants does not fail, and no error is left behind. -/
theorem granted {e : Endian} {F : Nat → Prop} {K : Kernel LEv} {st : List (Ev LEv) → KState} (hK : Keeps e F K st) (hH : Healthy K st)
    {fd : Nat} {req : LReq} {r : Option Err} {evs tr : List (Ev LEv)} (hx : Exchange e fd req r evs)
    (hg : Genuine K tr evs) (hop : ∃ d t p, Ev.socket d t p (.ok fd) ∈ tr) (hf : Fine fd (st tr)) (hgr : Granted e F fd req (st tr)) :
    r = none ∧ Fine fd (st (tr ++ evs)) ∧ ∃ b s1, Encodes e b req ∧ Meanwhile F (st tr) s1 ∧
      (∀ g, (st (tr ++ evs)).Owns fd g ↔ (s1.serve e fd b).2.Owns fd g) ∧ ∀ g, ¬ F g → (st (tr ++ evs)).conf g = (s1.serve e fd b).2.conf g := by
  have htr := (Run.of_genuine hK hg).traded hx
  obtain ⟨b, hb, hq⟩ := hx
  have hsend : ∀ {r evs1 rest}, SendEvs fd b r evs1 → Genuine K tr (evs1 ++ rest) → r = none ∧ evs1 = [.sendto fd b 0 none] := by
    intro r evs1 rest hs hg
    rcases hs with h | ⟨e1, rfl⟩
    · exact h
    · cases hg with
      | cons h1 _ =>
        have : some e1 = K.send tr fd b := h1
        rw [hH.send tr fd b hop] at this
        cases this
  cases hq with
  | sendFailed hs =>
    obtain ⟨h, _⟩ := hsend (rest := []) hs (by simpa using hg)
    cases h
  | @recvFailed n evs1 size hs =>
    obtain ⟨_, he⟩ := hsend hs hg
    subst he
    obtain ⟨g1, g2⟩ := hg.split
    obtain ⟨s1, s2, m1, m2, m3⟩ := (Run.of_genuine hK g1).sent hs
    rw [hb.answered] at m3
    obtain ⟨_, hne⟩ := answered_fine hf hgr hb m1 m2 m3
    obtain ⟨d, hd⟩ := hH.recv _ fd hne
    cases g2 with
    | cons h1 _ =>
      have : Except.error n = (K.recv (tr ++ [.sendto fd b 0 none]) fd).map (fun x : List Byte => x.take size) := h1
      rw [hd] at this
      cases this
  | @replied d r evs1 hs _ hi _ =>
    have hrun := Run.of_genuine hK hg
    generalize st (tr ++ (evs1 ++ [Ev.recvfrom fd b.length 0 (Except.ok d)])) = s' at hrun ⊢
    obtain ⟨t, r1, r2⟩ := hrun.split
    obtain ⟨s1, s2, m1, m2, m3⟩ := r1.sent hs
    obtain ⟨s3, x, rest, d', m3', hin, hd, hdd, m4⟩ := r2.got
    rw [hb.answered] at m3
    have m3 := m3.trans m3'
    obtain ⟨c1, _, _, c4⟩ := hd.cut hdd hb.length
    obtain ⟨f3, _⟩ := answered_fine hf hgr hb m1 m2 m3
    have hx : ¬ x.Bad := by
      cases x with
      | logs l => intro h; exact h
      | ack c =>
        have : c = 0 := f3 c (by rw [hin]; simp [codesOf])
        simp [Note.Bad, this]
    refine ⟨hi.mpr ⟨c1, mt c4.mp hx⟩, ?_, b, s1, hb, m1, fun g => ?_, fun g hF => ?_⟩
    · refine Fine.meanwhile (s := s3.setInbox fd rest) ?_ m4
      intro c hc
      rw [setInbox_same] at hc
      refine f3 c ?_
      rw [hin]
      unfold codesOf at hc ⊢
      rw [List.filterMap_cons]
      split <;> simp [hc]
    · rw [m4.owns fd g]
      have : (s3.setInbox fd rest).Owns fd g ↔ s3.Owns fd g := Iff.rfl
      rw [this, m3.owns fd g]
      exact m2.owns fd g
    · rw [m4.conf (.inl hF)]
      show s3.conf g = _
      rw [m3.conf (.inl hF)]
      show s2.conf g = _
      exact m2.conf (.inl hF)

theorem opened_more {fd : Nat} {tr : List (Ev LEv)} (h : ∃ d t p, Ev.socket d t p (.ok fd) ∈ tr) (l : List (Ev LEv)) :
    ∃ d t p, Ev.socket d t p (.ok fd) ∈ tr ++ l := by
  obtain ⟨d, t, p, hm⟩ := h
  exact ⟨d, t, p, List.mem_append_left _ hm⟩

/-- Binding to free groups works. -/
theorem bind_works {e : Endian} {F : Nat → Prop} {K : Kernel LEv} {st : List (Ev LEv) → KState} (hK : Keeps e F K st) (hH : Healthy K st)
    {fd : Nat} {gs : List U16} {r : Option Err} {evs : List (Ev LEv)} (h : GroupsOut e fd .bindGroup gs r evs) :
    ∀ {tr}, Genuine K tr evs → (∃ d t p, Ev.socket d t p (.ok fd) ∈ tr) → Fine fd (st tr) → gs.Nodup → (∀ g ∈ gs, ¬ F g.toNat) →
      (∀ g ∈ gs, (st tr).groups g.toNat = none) →
      r = none ∧ Fine fd (st (tr ++ evs)) ∧ (∀ g, ¬ F g → (st tr).Owns fd g → (st (tr ++ evs)).Owns fd g) ∧
        ∀ g ∈ gs, (st (tr ++ evs)).Owns fd g.toNat := by
  have grant : ∀ {g : U16} {s : KState}, ¬ F g.toNat → s.groups g.toNat = none → Granted e F fd (.bindGroup g.toNat) s ∧
      ∀ b, Encodes e b (.bindGroup g.toNat) → ∀ s1, Meanwhile F s s1 → (s1.serve e fd b).2 = s1.setGroup g.toNat (some (KGroup.new fd)) := by
    intro g s hF hn
    have : ∀ s1, Meanwhile F s s1 → s1.groups g.toNat = none := by
      intro s1 hm
      rw [← conf_none, hm.conf (.inl hF), conf_none]; exact hn
    constructor
    · intro b hb s1 hm
      rw [serve_bind hb, this s1 hm]
      exact ⟨rfl, rfl⟩
    · intro b hb s1 hm
      rw [serve_bind hb, this s1 hm]
  induction h with
  | nil =>
    intro tr _ _ hf _ _ _
    rw [List.append_nil]
    exact ⟨rfl, hf, fun g _ h => h, by simp⟩
  | @cons g gs r ev1 evs hx _ ih =>
    intro tr hg hop hf hnd hF hfree
    obtain ⟨g1, g2⟩ := hg.split
    have hFg := hF g (by simp)
    obtain ⟨a1, a2⟩ := grant hFg (hfree g (by simp))
    obtain ⟨_, f1, b, s1, hb, m1, o1, c1⟩ := granted hK hH hx g1 hop hf a1
    have hs := a2 b hb s1 m1
    rw [hs] at o1 c1
    have own1 : (st (tr ++ ev1)).Owns fd g.toNat := (o1 _).mpr ⟨_, setGroup_same _ _ _, rfl⟩
    have keep : ∀ g', ¬ F g' → (st tr).Owns fd g' → (st (tr ++ ev1)).Owns fd g' := by
      intro g' _ ho
      rw [o1]
      by_cases hq : g' = g.toNat
      · subst hq; exact ⟨_, setGroup_same _ _ _, rfl⟩
      · exact (Owns.of_eq (setGroup_other _ _ hq)).mpr ((m1.owns fd g').mpr ho)
    obtain ⟨i1, i2, i3, i4⟩ := ih g2 (opened_more hop _) f1 (List.nodup_cons.mp hnd).2 (fun g' hg' => hF g' (by simp [hg'])) (by
      intro g' hg'
      have hF' := hF g' (by simp [hg'])
      rw [← conf_none, c1 _ hF']
      have hne : g'.toNat ≠ g.toNat := by
        intro hc
        have : g' = g := BitVec.eq_of_toNat_eq hc
        subst this
        exact (List.nodup_cons.mp hnd).1 hg'
      unfold KState.conf
      rw [setGroup_other _ _ hne]
      show s1.conf g'.toNat = none
      rw [m1.conf (.inl hF'), conf_none]
      exact hfree g' (by simp [hg']))
    rw [List.append_assoc] at i2 i3 i4
    refine ⟨i1, i2, fun g' hF' ho => i3 g' hF' (keep g' hF' ho), fun g' hg' => ?_⟩
    rcases List.mem_cons.mp hg' with rfl | hg'
    · exact i3 _ hFg own1
    · exact i4 g' hg'
  | @stop g gs err ev1 hx =>
    intro tr hg hop hf hnd hF hfree
    obtain ⟨a1, _⟩ := grant (hF g (by simp)) (hfree g (by simp))
    obtain ⟨h, _⟩ := granted hK hH hx hg hop hf a1
    cases h

/-- Setting the mode of groups of ours works. -/
theorem mode_works {e : Endian} {F : Nat → Prop} {K : Kernel LEv} {st : List (Ev LEv) → KState} (hK : Keeps e F K st) (hH : Healthy K st)
    {fd size : Nat} {gs : List U16} {r : Option Err} {evs : List (Ev LEv)} (h : GroupsOut e fd (fun g => .copyPacket g size) gs r evs) :
    ∀ {tr}, Genuine K tr evs → (∃ d t p, Ev.socket d t p (.ok fd) ∈ tr) → Fine fd (st tr) → (∀ g ∈ gs, (st tr).Owns fd g.toNat) →
      r = none ∧ Fine fd (st (tr ++ evs)) := by
  have grant : ∀ {g : U16} {s : KState}, s.Owns fd g.toNat → Granted e F fd (.copyPacket g.toNat size) s ∧
      ∀ b, Encodes e b (.copyPacket g.toNat size) → ∀ s1, Meanwhile F s s1 → ∀ g', s1.Owns fd g' → (s1.serve e fd b).2.Owns fd g' := by
    intro g s ho
    constructor
    · intro b hb s1 hm
      obtain ⟨k, hk, hko⟩ := (hm.owns fd g.toNat).mpr ho
      rw [serve_mode hb, hk]
      simp [hko]
    · intro b hb s1 hm g' ho'
      obtain ⟨k, hk, hko⟩ := (hm.owns fd g.toNat).mpr ho
      rw [serve_mode hb, hk]
      simp only [ne_eq, hko, not_true_eq_false, if_false]
      exact (Owns.set hk hko.symm rfl fd g').mpr ho'
  induction h with
  | nil =>
    intro tr _ _ hf _
    rw [List.append_nil]
    exact ⟨rfl, hf⟩
  | @cons g gs r ev1 evs hx _ ih =>
    intro tr hg hop hf hown
    obtain ⟨g1, g2⟩ := hg.split
    obtain ⟨a1, a2⟩ := grant (hown g (by simp))
    obtain ⟨_, f1, b, s1, hb, m1, o1, _⟩ := granted hK hH hx g1 hop hf a1
    obtain ⟨i1, i2⟩ := ih g2 (opened_more hop _) f1 (fun g' hg' => by
      rw [o1]
      exact a2 b hb s1 m1 _ ((m1.owns fd _).mpr (hown g' (by simp [hg']))))
    rw [List.append_assoc] at i2
    exact ⟨i1, i2⟩
  | @stop g gs err ev1 hx =>
    intro tr hg hop hf hown
    obtain ⟨a1, _⟩ := grant (hown g (by simp))
    obtain ⟨h, _⟩ := granted hK hH hx hg hop hf a1
    cases h

theorem genuine_bind {K : Kernel LEv} {st : List (Ev LEv) → KState} (hH : Healthy K st) {tr : List (Ev LEv)} {fd n : Nat}
    {bevs rest : List (Ev LEv)} (hb : BindEvs fd (some n) bevs) (hg : Genuine K tr (bevs ++ rest)) : False := by
  rcases hb with ⟨h, _⟩ | ⟨e1, rfl⟩
  · cases h
  · cases hg with
    | cons h1 _ =>
      have : some e1 = K.bind tr fd := h1
      rw [hH.bind] at this
      cases this

/-- What such a kernel sends is not too short for the library, and not longer than the library's buffers. -/
theorem keeps_len {e : Endian} {K : Kernel LEv} {F : Nat → Prop} {st : List (Ev LEv) → KState} (hK : Keeps e F K st) {tr : List (Ev LEv)}
    {fd : Nat} {d : List Byte} (hd : K.recv tr fd = .ok d) : 20 ≤ d.length := by
  have ha : Answers K tr (.recvfrom fd (d.length + 20) 0 (.ok d)) := by
    show Except.ok d = (K.recv tr fd).map _
    rw [hd]
    show Except.ok d = Except.ok (d.take (d.length + 20))
    rw [List.take_of_length_le (by omega)]
  obtain ⟨s1, s2, m1, hs, m2⟩ := hK _ _ ha
  have hr : Run e F s1 [.recvfrom fd (d.length + 20) 0 (.ok d)] s2 := .cons .refl hs (.nil .refl)
  obtain ⟨s3, n, rest, d', _, _, hn, hdd, _⟩ := hr.got
  exact (hn.cut hdd (by omega)).1

/-- Starting to listen returns, nil or an error, on a kernel whose replies are not cut off after 16 to 19 bytes. -/
theorem start_returns (env : Env) (K : Kernel LEv) (groups : List U16) (size : U32) (cb ecb : Option Nat) (w : W)
    (hk : ∀ evs fd d, K.recv (w.trace ++ evs) fd = .ok d → d.length < 16 ∨ 20 ≤ d.length) :
    ∃ r w', bindAndListen env K groups size cb ecb w = .ok (r, w') := by
  unfold bindAndListen
  simp only [GoM.bind_apply, freshLog, Res.ok_bind]
  rcases nflogOpen_spec K ({ w with st := newNFLog } : W) with
    ⟨n, w1, _, ho, _⟩ | ⟨fd, hfd, ⟨n, bevs, w1, _, ho, _⟩ | ⟨bevs, opts, w1, _, ho, hb, hopt, ht, hh, hst⟩⟩
  · rw [ho]; exact ⟨_, _, rfl⟩
  · rw [ho]; exact ⟨_, _, rfl⟩
  · rw [ho]
    simp only [Res.ok_bind, GoM.bind_apply, nflogBindGroup, modifyL]
    have ho1 : OpenOn ({ w1 with st := { w1.st with callback := cb, errorCallback := ecb } } : W) fd := ⟨0, by rw [hst]⟩
    obtain ⟨r2, w2, h2⟩ := forGroups_returns env K (commandMsg env 1) fd (mk_command env 1) groups _ ho1 (fun evs d hd => by
      simp only [ht, List.append_assoc] at hd
      exact hk _ _ _ hd)
    obtain ⟨ev2, _, ht2, _, ho2, _⟩ := forGroups_spec env K (commandMsg env 1) LReq.bindGroup fd
      (fun g => ⟨_, commandMsg_eq env 1 g, enc_bind _ _⟩) groups _ w2 r2 ho1 h2
    rw [h2]
    simp only [Res.ok_bind]
    rcases r2 with _ | err
    · simp only [GoM.bind_apply, nflogSetMode]
      obtain ⟨r3, w3, h3⟩ := forGroups_returns env K (modeMsg env size) fd (mk_mode env size) groups _ ho2 (fun evs d hd => by
        simp only [ht2, ht, List.append_assoc] at hd
        exact hk _ _ _ hd)
      obtain ⟨_, _, _, _, ho3, _⟩ := forGroups_spec env K (modeMsg env size) (fun g => LReq.copyPacket g size.toNat) fd
        (fun g => ⟨_, modeMsg_eq env size g, enc_mode _ _ _⟩) groups _ w3 r3 ho2 h3
      rw [h3]
      rcases r3 with _ | err
      · exact ⟨_, _, rfl⟩
      · obtain ⟨evs, hc, _⟩ := nflogClose_spec K ho3
        simp [hc]
    · obtain ⟨evs, hc, _⟩ := nflogClose_spec K ho2
      simp [hc]

/-- C135. On a kernel whose calls do not fail, distinct groups that are free (and that nobody else uses) can be listened to: the start returns
nil, whatever is logged meanwhile. -/
theorem C135_works (env : Env) (F : Nat → Prop) (K : Kernel LEv) (st : List (Ev LEv) → KState) (hK : Keeps env.e F K st) (hH : Healthy K st)
    (groups : List U16) (size : U32) (cb ecb : Option Nat) (w : W) (hnd : groups.Nodup) (hF : ∀ g ∈ groups, ¬ F g.toNat)
    (hfree : ∀ g ∈ groups, Free (st w.trace) g.toNat) :
    ∃ w', bindAndListen env K groups size cb ecb w = .ok (none, w') := by
  obtain ⟨r, w', h⟩ := start_returns env K groups size cb ecb w fun evs fd d hd => .inr (keeps_len hK hd)
  cases r with
  | none => exact ⟨w', h⟩
  | some err =>
    exfalso
    obtain ⟨evs, ht, hout, _⟩ := C32_outcomes env K groups size cb ecb w w' _ h
    obtain ⟨evs', ht', hg⟩ := records_bindAndListen env groups size cb ecb w _ w' h
    rw [ht, List.append_cancel_left_eq] at ht'
    subst ht'
    have opened : ∀ {fd : Nat} {bevs opts : List (Ev LEv)}, BindEvs fd none bevs → OptEvs fd opts →
        Genuine K w.trace ([.socket 16 3 12 (.ok fd)] ++ bevs ++ opts) →
        Fine fd (st (w.trace ++ ([.socket 16 3 12 (.ok fd)] ++ bevs ++ opts))) ∧
          (∃ d t p, Ev.socket d t p (.ok fd) ∈ w.trace ++ ([.socket 16 3 12 (.ok fd)] ++ bevs ++ opts)) ∧
          ∀ g ∈ groups, (st (w.trace ++ ([.socket 16 3 12 (.ok fd)] ++ bevs ++ opts))).groups g.toNat = none := by
      intro fd bevs opts hb ho hg
      have hrun := Run.of_genuine hK hg
      obtain ⟨t2, hr, r3⟩ := hrun.split
      obtain ⟨t1, r1, r2⟩ := hr.split
      obtain ⟨s0, m0, hno, hin, m1⟩ := r1.opened
      have m3 := (m1.trans (r2.of_silent (bind_silent hb))).trans (r3.of_silent (opt_silent ho))
      refine ⟨Fine.meanwhile (s := s0) ?_ m3, ⟨16, 3, 12, by simp⟩, fun g hg => ?_⟩
      · intro c hc
        rw [hin] at hc
        cases hc
      · rw [← conf_none, (m0.trans m3).conf (.inl (hF g hg)), conf_none]
        exact hfree g hg
    cases hout with
    | noSocket =>
      cases hg with
      | @cons _ _ _ h1 _ =>
        obtain ⟨fd, hfd⟩ := hH.socket w.trace
        have : Except.error _ = K.socket w.trace := h1
        rw [hfd] at this
        cases this
    | noBind hb =>
      obtain ⟨_, g2⟩ := hg.split
      exact genuine_bind (rest := []) hH hb (by simpa using g2)
    | noGroup hb ho g1 hc =>
      obtain ⟨hg, _⟩ := hg.split
      obtain ⟨hg, gg⟩ := hg.split
      obtain ⟨f, hop, hfr⟩ := opened hb ho hg
      obtain ⟨h, _⟩ := bind_works hK hH g1 gg hop f hnd hF hfr
      cases h
    | noMode hb ho g1 g2 hc =>
      obtain ⟨hg, _⟩ := hg.split
      obtain ⟨hg, gg2⟩ := hg.split
      obtain ⟨hg, gg1⟩ := hg.split
      obtain ⟨f, hop, hfr⟩ := opened hb ho hg
      obtain ⟨_, f1, _, o1⟩ := bind_works hK hH g1 gg1 hop f hnd hF hfr
      rw [List.append_assoc w.trace] at f1 o1
      obtain ⟨h, _⟩ := mode_works hK hH g2 gg2 (by
        have := opened_more hop
        rw [← List.append_assoc w.trace]
        exact this _) f1 o1
      cases h

/-! Non-vacuity: a kernel in which another program (number 7) has group 2; packets are logged to groups 2 and 10 all the time. -/

/-- The state at the beginning. -/
def someGroups : KState := ⟨fun g => if g = 2 then some ⟨.other 7, 2, 100, []⟩ else none, fun _ => [], []⟩

/-- After every event a packet is logged to groups 2 and 10; what was collected is sent after every second event. -/
def someScript (tr : List (Ev LEv)) : List Act :=
  [.log 2 none [1, 2], .log 10 (some [65]) [BitVec.ofNat 8 tr.length, 3, 4]] ++ if tr.length % 2 = 0 then [.flush 10, .flush 2] else []

theorem someGroups_untouched : Untouched someGroups := by
  refine ⟨?_, fun _ => rfl⟩
  rintro fd g ⟨k, hk, ho⟩
  unfold someGroups at hk
  simp only at hk
  split at hk
  · cases hk; cases ho
  · cases hk

/-- C135: two free groups on such a kernel. -/
theorem start_two {F : Nat → Prop} {K : Kernel LEv} {st : List (Ev LEv) → KState} (hK : Keeps .little F K st) (hH : Healthy K st) {g1 g2 : U16}
    (hne : g1 ≠ g2) (hF : ∀ g, ¬ F g) (h1 : Free (st []) g1.toNat) (h2 : Free (st []) g2.toNat) (g3 : Nat) (h31 : g1.toNat ≠ g3) (h32 : g2.toNat ≠ g3) :
    ∃ w' fd, bindAndListen someEnv K [g1, g2] 64 (some 1) (some 2) ⟨[], ⟨[]⟩, newNFLog⟩ = .ok (none, w') ∧ OpenOn w' fd ∧
      Served (st w'.trace) fd g1.toNat 64 ∧ Served (st w'.trace) fd g2.toNat 64 ∧ (st w'.trace).conf g3 = (st []).conf g3 := by
  obtain ⟨w', h⟩ := C135_works someEnv F K st hK hH [g1, g2] 64 (some 1) (some 2) ⟨[], ⟨[]⟩, newNFLog⟩ (by simp [hne]) (fun _ _ => hF _)
    (by intro g hg; simp at hg; rcases hg with rfl | rfl <;> assumption)
  obtain ⟨evs, _, a1, _⟩ := C135_start someEnv F K st hK _ _ _ _ _ w' _ h
  obtain ⟨fd, a, b, _, c, _⟩ := a1 rfl
  refine ⟨w', fd, h, a, b g1 (by simp) (hF _) h1, b g2 (by simp) (hF _) h2, c g3 (hF _) (.inl ?_)⟩
  intro x hx; simp at hx; rcases hx with rfl | rfl <;> assumption

/-- C135: groups 10 and 11 can be listened to there; they then belong to the handle's socket, and group 2 is the other program's, as before. -/
theorem C135_example : ∃ w' fd, bindAndListen someEnv (groupKernel .little someGroups someScript) [10, 11] 64 (some 1) (some 2) ⟨[], ⟨[]⟩, newNFLog⟩ =
      .ok (none, w') ∧ OpenOn w' fd ∧ Served (stateAfter .little someGroups someScript w'.trace) fd 10 64 ∧
    Served (stateAfter .little someGroups someScript w'.trace) fd 11 64 ∧
    (stateAfter .little someGroups someScript w'.trace).conf 2 = some ⟨.other 7, 2, 100, []⟩ :=
  start_two (groupKernel_keeps .little someGroups_untouched someScript (fun _ => False)) (groupKernel_healthy _ _ _) (g1 := 10) (g2 := 11)
    (by decide) (fun _ h => h) rfl rfl 2 (by decide) (by decide)

/-- The result, as a test, of a start with nothing logged in the meantime. -/
def quietTest (groups : List U16) : Bool :=
  match bindAndListen someEnv (groupKernel .little someGroups fun _ => []) groups 64 (some 1) (some 2) ⟨[], ⟨[]⟩, newNFLog⟩ with
  | .ok (_, w') => (logDatagrams .little w'.trace).isEmpty
  | _ => false

theorem quiet_taken : quietTest [10, 2] = true := by decide +kernel
theorem quiet_twice : quietTest [10, 10] = true := by decide +kernel

/-- C135: a start that meets the test and asks for a group that is taken, or for a group twice, returns an error. -/
theorem quiet_fails (gs : List U16) (ht : quietTest gs = true) (hbad : ¬ gs.Nodup ∨ ∃ g ∈ gs, ¬ Free someGroups g.toNat) : ∃ err w',
    bindAndListen someEnv (groupKernel .little someGroups fun _ => []) gs 64 (some 1) (some 2) ⟨[], ⟨[]⟩, newNFLog⟩ = .ok (some err, w') := by
  unfold quietTest at ht
  split at ht
  · rename_i r w' h
    have hb : ¬ gs.Nodup ∨ ∃ g ∈ gs, ¬ False ∧ ¬ Free (stateAfter .little someGroups (fun _ => []) []) g.toNat := by
      rcases hbad with hb | ⟨g, h1, h2⟩
      · exact .inl hb
      · exact .inr ⟨g, h1, fun h => h, h2⟩
    have := C135_taken someEnv (fun _ => False) _ _ (groupKernel_keeps .little someGroups_untouched (fun _ => []) _) gs 64 (some 1) (some 2) _ w' r h
      (evs := w'.trace) rfl (List.isEmpty_iff.mp ht) hb
    cases r with
    | none => exact absurd rfl this
    | some err => exact ⟨err, w', h⟩
  · cases ht

/-- C135: group 2 is taken: a start with it, with nothing logged meanwhile, returns an error. -/
theorem C135_taken_example : ∃ err w',
    bindAndListen someEnv (groupKernel .little someGroups fun _ => []) [10, 2] 64 (some 1) (some 2) ⟨[], ⟨[]⟩, newNFLog⟩ = .ok (some err, w') :=
  quiet_fails _ quiet_taken (.inr ⟨2, by simp, by unfold Free; decide⟩)

/-- C135: so does one that names group 10 twice. -/
theorem C135_twice_example : ∃ err w',
    bindAndListen someEnv (groupKernel .little someGroups fun _ => []) [10, 10] 64 (some 1) (some 2) ⟨[], ⟨[]⟩, newNFLog⟩ = .ok (some err, w') :=
  quiet_fails _ quiet_twice (.inl (by decide))

end Verif.Props.Log
