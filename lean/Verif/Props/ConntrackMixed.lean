import Verif.Props.ConntrackAny
import Verif.Props.ConntrackFlows
/-! C42–C44, C111 and C112 on tables that list connections of both families. -/
namespace Verif.Props.Ct
open Verif.Common Verif.Sys Verif.Spec Verif.Conntrack

theorem lastFour_v4 {ip a : List Byte} (h : IsV4 ip a) : lastFour ip = a := by
  obtain ⟨ha, rfl | rfl⟩ := h
  · unfold lastFour; rw [ha]; rfl
  · unfold lastFour
    rw [List.length_append, ha]
    exact List.drop_left' rfl

theorem v4_isIP {ip a : List Byte} (h : IsV4 ip a) : IsIP ip := by
  obtain ⟨ha, rfl | rfl⟩ := h
  · exact .inl ha
  · exact .inr (by rw [List.length_append, ha]; rfl)

/-- Arguments that name an IPv4 connection are taken for it. -/
theorem connOf_names {env : Env} {ipSrc ipDst : String} {p : Byte} {sp dp : U16} {c : Conn} (h : Names env ipSrc ipDst p sp dp c) :
    connOf env ipSrc ipDst p sp dp = c := by
  obtain ⟨h1, h2, h3, h4, h5⟩ := h
  obtain ⟨src, dst, proto, sport, dport⟩ := c
  simp only at h3 h4 h5
  subst h3 h4 h5
  unfold connOf
  rw [lastFour_v4 h1, lastFour_v4 h2]

/-- The flow of a connection resembles it. -/
theorem flowOf_resembles {f : Flow} {c : Conn} (h : FlowOf f c) : Resembles f c := by
  obtain ⟨⟨a, b, d, e, g⟩, h, i, j, k, l⟩ := (flowOf_iff f c).mp h
  exact ⟨⟨lastFour_v4 a, lastFour_v4 b, d, e, g⟩, lastFour_v4 h, lastFour_v4 i, j, k, l⟩

theorem resembling_pos {flows : List Flow} {f : Flow} {c : Conn} (hm : f ∈ flows) (h : Resembles f c) : 1 ≤ resembling flows c := by
  unfold resembling
  exact List.countP_pos_iff.mpr ⟨f, hm, by simpa using h⟩

/-- C42 for flows and arguments of either family: when the kernel accepts everything, the number of flows that resemble the connection is
returned, without error. -/
theorem C42_all_acknowledged_either_family (env : Env) (K : Kernel CEv) {d : List Byte} (hK : Accepting env.e K d) {ipSrc ipDst : String}
    {p : Byte} {sp dp : U16} {mark : U32} (hs : IsIP (env.parseIP ipSrc)) (hd : IsIP (env.parseIP ipDst)) (hm : mark ≠ 0)
    (flows : List Flow) (hf : ∀ f ∈ flows, IPFlow f) (w : W) :
    ∃ w', updateMarkForAvailableFlow env K flows ipSrc ipDst p sp dp mark w =
      .ok ((resembling flows (connOf env ipSrc ipDst p sp dp), none), w') := by
  have ht := connOf_taken env p sp dp hs hd
  have hc : ∀ f ∈ flows, checkTuplesInFlow env f ipSrc ipDst p sp dp = .ok (decide (Resembles f (connOf env ipSrc ipDst p sp dp))) :=
    fun f h => check_any env p sp dp hs hd (hf f h)
  generalize connOf env ipSrc ipDst p sp dp = c at *
  suffices ∀ k w, ∃ w', markLoop env K ipSrc ipDst p sp dp mark flows k w = .ok ((k + resembling flows c, none), w') by
    obtain ⟨w', hw⟩ := this 0 w
    rw [Nat.zero_add] at hw
    exact ⟨w', bulkMark_eq env K flows ipSrc ipDst p sp dp mark w w' _ none hw⟩
  clear hf
  induction flows with
  | nil => intro k w; exact ⟨w, rfl⟩
  | cons f fs ih =>
    intro k w
    have ih := ih fun g hg => hc g (List.mem_cons_of_mem _ hg)
    unfold markLoop
    simp only [GoM.bind_apply, GoM.lift_apply, hc f (List.mem_cons_self ..), Res.ok_bind]
    by_cases hF : Resembles f c
    · have hmat : resembling (f :: fs) c = resembling fs c + 1 := by simp [resembling, hF]
      simp only [hF, decide_true, bne_iff_ne, ne_eq, hm, not_false_eq_true, Bool.true_and, if_true, updateMark, GoM.bind_apply,
        GoM.lift_apply, markMessage_eq env mark ht, Res.ok_bind]
      obtain ⟨w1, h1⟩ := sendMessage_succeeds env K ⟨80, 0x100, 5, 0, 0⟩ ([2, 0, 0, 0] ++ origBytes env.e c ++ markTail env.e mark) w
        (by simp) hK
      rw [h1]
      obtain ⟨w2, h2⟩ := ih (k + 1) w1
      refine ⟨w2, h2.trans ?_⟩
      rw [hmat, Nat.add_assoc, Nat.add_comm 1]
    · have hmat : resembling (f :: fs) c = resembling fs c := by simp [resembling, hF]
      simp only [hF, decide_false, Bool.false_and, Bool.false_eq_true, if_false]
      rw [hmat]
      exact ih k w

/-- C43 for flows and arguments of either family: the same for labels. -/
theorem C43_all_acknowledged_either_family (env : Env) (K : Kernel CEv) {d : List Byte} (hK : Accepting env.e K d) {ipSrc ipDst : String}
    {p : Byte} {sp dp : U16} {label : U32} (hs : IsIP (env.parseIP ipSrc)) (hd : IsIP (env.parseIP ipDst))
    (flows : List Flow) (hf : ∀ f ∈ flows, IPFlow f) (w : W) :
    ∃ w', updateLabel env K flows ipSrc ipDst p sp dp label w =
      .ok ((resembling flows (connOf env ipSrc ipDst p sp dp), none), w') := by
  have ht := connOf_taken env p sp dp hs hd
  have hc : ∀ f ∈ flows, checkTuplesInFlow env f ipSrc ipDst p sp dp = .ok (decide (Resembles f (connOf env ipSrc ipDst p sp dp))) :=
    fun f h => check_any env p sp dp hs hd (hf f h)
  generalize connOf env ipSrc ipDst p sp dp = c at *
  obtain ⟨hdr, data, hmsg, h4⟩ : ∃ hdr data, labelMessage env ipSrc ipDst p sp dp label = .ok (hdr, data) ∧ 4 ≤ data.length := by
    by_cases hp : p = 6
    · subst hp
      exact ⟨_, _, labelMessage_tcp env label ht, by simp⟩
    · exact ⟨_, _, labelMessage_eq env label ht hp, by simp⟩
  suffices ∀ k w, ∃ w', labelLoop env K ipSrc ipDst p sp dp label flows k w = .ok ((k + resembling flows c, none), w') by
    obtain ⟨w', hw⟩ := this 0 w
    rw [Nat.zero_add] at hw
    exact ⟨w', bulkLabel_eq env K flows ipSrc ipDst p sp dp label w w' _ none hw⟩
  clear hf
  induction flows with
  | nil => intro k w; exact ⟨w, rfl⟩
  | cons f fs ih =>
    intro k w
    have ih := ih fun g hg => hc g (List.mem_cons_of_mem _ hg)
    unfold labelLoop
    simp only [GoM.bind_apply, GoM.lift_apply, hc f (List.mem_cons_self ..), Res.ok_bind]
    by_cases hF : Resembles f c
    · have hmat : resembling (f :: fs) c = resembling fs c + 1 := by simp [resembling, hF]
      simp only [hF, decide_true, if_true, GoM.bind_apply, GoM.lift_apply, hmsg, Res.ok_bind]
      obtain ⟨w1, h1⟩ := sendMessage_succeeds env K hdr data w h4 hK
      rw [h1]
      obtain ⟨w2, h2⟩ := ih (k + 1) w1
      refine ⟨w2, h2.trans ?_⟩
      rw [hmat, Nat.add_assoc, Nat.add_comm 1]
    · have hmat : resembling (f :: fs) c = resembling fs c := by simp [resembling, hF]
      simp only [hF, decide_false, Bool.false_eq_true, if_false]
      rw [hmat]
      exact ih k w

/-- C44: a bulk update, of a table and with arguments of either family, that returns has handled each request on a socket of its own, one
after the other. -/
theorem C44_bulk_sockets_either_family_partial (env : Env) (K : Kernel CEv) {ipSrc ipDst : String} {p : Byte} {sp dp : U16}
    (hs : IsIP (env.parseIP ipSrc)) (hd : IsIP (env.parseIP ipDst)) (flows : List Flow) (hf : ∀ f ∈ flows, IPFlow f) (value : U32)
    (n : Int) (r : Option Err) (w w' : W)
    (hr : (value ≠ 0 ∧ updateMarkForAvailableFlow env K flows ipSrc ipDst p sp dp value w = .ok ((n, r), w')) ∨
      updateLabel env K flows ipSrc ipDst p sp dp value w = .ok ((n, r), w')) :
    ∃ gs : List (List (Ev CEv)), w' = { w with trace := w.trace ++ gs.flatten } ∧ (∀ g ∈ gs, OwnSocket g) ∧
      gs.length ≤ resembling flows (connOf env ipSrc ipDst p sp dp) ∧ (r = none → (gs.length : Int) = n) := by
  have key : ∃ (req : List Byte → Prop) (first : Option Err) (evs : List (Ev CEv)),
      Updates env.e req (resembling flows (connOf env ipSrc ipDst p sp dp)) first evs ∧ w' = { w with trace := w.trace ++ evs } ∧
      (r = none → first = none) ∧ n = if r = none then (resembling flows (connOf env ipSrc ipDst p sp dp) : Int) else 0 := by
    rcases hr with ⟨hv, hr⟩ | hr
    · obtain ⟨first, evs, h1, h2, h3, h4⟩ := C42_either_family env K hs hd hv flows hf n r w w' hr
      exact ⟨_, first, evs, h1, h2, by rw [h3]; cases first <;> simp, h4⟩
    · obtain ⟨evs, h1, h2, h3⟩ := C43_either_family env K hs hd flows hf n r w w' hr
      exact ⟨_, r, evs, h1, h2, id, h3⟩
  obtain ⟨req, first, evs, h1, h2, hfirst, h3⟩ := key
  obtain ⟨gs, rfl, h4, h5, h6⟩ := updates_own h1
  refine ⟨gs, h2, h4, h5, ?_⟩
  intro hn
  rw [h3, if_pos hn, h6 (hfirst hn)]

/-- If some flow resembles the named connection, requests are made and counted. -/
theorem update_resembling (env : Env) (K : Kernel CEv) {d : List Byte} (hK : Accepting env.e K d) {ipSrc ipDst : String}
    {p : Byte} {sp dp : U16} {c : Conn} {value : U32} (h : Names env ipSrc ipDst p sp dp c) (flows : List Flow)
    (hf : ∀ f ∈ flows, IPFlow f) {f : Flow} (hin : f ∈ flows) (hre : Resembles f c) (w : W) :
    (value ≠ 0 → ∃ (n : Nat) (evs : List (Ev CEv)), updateMarkForAvailableFlow env K flows ipSrc ipDst p sp dp value w =
        .ok (((n : Int), none), { w with trace := w.trace ++ evs }) ∧ 1 ≤ n ∧ Updates env.e (MarkReq env.e c value) n none evs) ∧
    ∃ (n : Nat) (evs : List (Ev CEv)), updateLabel env K flows ipSrc ipDst p sp dp value w =
        .ok (((n : Int), none), { w with trace := w.trace ++ evs }) ∧ 1 ≤ n ∧ Updates env.e (LabelRequest env.e c value) n none evs := by
  have hs := v4_isIP h.1
  have hd := v4_isIP h.2.1
  have hpos := resembling_pos hin hre
  refine ⟨fun hm => ?_, ?_⟩
  · obtain ⟨w', hr⟩ := C42_all_acknowledged_either_family env K hK (p := p) (sp := sp) (dp := dp) hs hd hm flows hf w
    obtain ⟨first, evs, h1, rfl, h3, _⟩ := C42_either_family env K hs hd hm flows hf _ _ w w' hr
    rw [connOf_names h] at h1 hr
    cases first with
    | some e => cases h3
    | none => exact ⟨_, evs, hr, hpos, h1⟩
  · obtain ⟨w', hr⟩ := C43_all_acknowledged_either_family env K hK (p := p) (sp := sp) (dp := dp) (label := value) hs hd flows hf w
    obtain ⟨evs, h1, rfl, _⟩ := C43_either_family env K hs hd flows hf _ _ w w' hr
    rw [connOf_names h] at h1 hr
    exact ⟨_, evs, hr, hpos, h1⟩

/-- C111, the part that holds, on a table that lists connections of both families: an IPv4 connection whose reply tuple mirrors its
original one is found by its original tuple. -/
theorem C111_found_either_family_partial (env : Env) (K : Kernel CEv) {d : List Byte} (hK : Accepting env.e K d) {ipSrc ipDst : String}
    {p : Byte} {sp dp : U16} {c : Conn} {value : U32} (h : Names env ipSrc ipDst p sp dp c) (flows : List Flow)
    (hf : ∀ f ∈ flows, IPFlow f) {f : Flow} (hin : f ∈ flows) (ho : Original f c) (hmi : Mirrored f c) (w : W) :
    (value ≠ 0 → ∃ (n : Nat) (evs : List (Ev CEv)), updateMarkForAvailableFlow env K flows ipSrc ipDst p sp dp value w =
        .ok (((n : Int), none), { w with trace := w.trace ++ evs }) ∧ 1 ≤ n ∧ Updates env.e (MarkReq env.e c value) n none evs) ∧
    ∃ (n : Nat) (evs : List (Ev CEv)), updateLabel env K flows ipSrc ipDst p sp dp value w =
        .ok (((n : Int), none), { w with trace := w.trace ++ evs }) ∧ 1 ≤ n ∧ Updates env.e (LabelRequest env.e c value) n none evs :=
  update_resembling env K hK h flows hf hin (flowOf_resembles ((flowOf_iff f c).mpr ⟨ho, hmi⟩)) w

/-- C112, violated: an IPv6 connection that agrees with the named IPv4 one in the last four bytes of the addresses passes for it: although
the named connection is not listed, requests to update it are sent, and are counted. -/
theorem C112_other_family_violated (env : Env) (K : Kernel CEv) {d : List Byte} (hK : Accepting env.e K d) {ipSrc ipDst : String}
    {p : Byte} {sp dp : U16} {c : Conn} {value : U32} (h : Names env ipSrc ipDst p sp dp c) (flows : List Flow)
    (hf : ∀ f ∈ flows, IPFlow f) {f : Flow} (hin : f ∈ flows) (hre : Resembles f c) (_hn : ∀ g ∈ flows, ¬ FlowOf g c) (w : W) :
    (value ≠ 0 → ∃ (n : Nat) (evs : List (Ev CEv)), updateMarkForAvailableFlow env K flows ipSrc ipDst p sp dp value w =
        .ok (((n : Int), none), { w with trace := w.trace ++ evs }) ∧ 1 ≤ n ∧ Updates env.e (MarkReq env.e c value) n none evs) ∧
    ∃ (n : Nat) (evs : List (Ev CEv)), updateLabel env K flows ipSrc ipDst p sp dp value w =
        .ok (((n : Int), none), { w with trace := w.trace ++ evs }) ∧ 1 ≤ n ∧ Updates env.e (LabelRequest env.e c value) n none evs :=
  update_resembling env K hK h flows hf hin hre w

/-! ### Concrete cases -/

theorem v6Flow_ip : IPFlow v6Flow := by unfold IPFlow; decide
theorem sampleFlow_ip : IPFlow sampleFlow := by unfold IPFlow; decide

/-- C112: only the IPv6 connection is listed, yet the IPv4 one is updated. -/
example : (∃ (n : Nat) (evs : List (Ev CEv)), updateLabel sampleEnv sampleKernel [v6Flow] "10.0.0.1" "10.0.0.2" 17 1000 53 9 sampleWorld =
    .ok (((n : Int), none), { sampleWorld with trace := sampleWorld.trace ++ evs }) ∧ 1 ≤ n ∧
    Updates .little (LabelRequest .little sampleConn 9) n none evs) :=
  (C112_other_family_violated sampleEnv sampleKernel sample_accepting sample_names [v6Flow]
    (by intro f hf; simp only [List.mem_singleton] at hf; subst hf; exact v6Flow_ip) (f := v6Flow) (by simp) (by decide)
    (by intro f hf; simp only [List.mem_singleton] at hf; subst hf; decide) sampleWorld).2

/-- C111: both are listed, the IPv4 one is found. -/
example : (∃ (n : Nat) (evs : List (Ev CEv)), updateLabel sampleEnv sampleKernel [v6Flow, sampleFlow] "10.0.0.1" "10.0.0.2" 17 1000 53 0
    sampleWorld = .ok (((n : Int), none), { sampleWorld with trace := sampleWorld.trace ++ evs }) ∧ 1 ≤ n ∧
    Updates .little (LabelRequest .little sampleConn 0) n none evs) :=
  (C111_found_either_family_partial sampleEnv sampleKernel sample_accepting sample_names [v6Flow, sampleFlow]
    (by intro f hf; simp only [List.mem_cons, List.not_mem_nil, or_false] at hf
        rcases hf with rfl | rfl
        · exact v6Flow_ip
        · exact sampleFlow_ip) (f := sampleFlow) (by simp) (by unfold Original; decide) (by unfold Mirrored; decide) sampleWorld).2

end Verif.Props.Ct
