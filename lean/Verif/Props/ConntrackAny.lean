import Verif.Props.Conntrack
/-!
C42 and C43 for listings of connections of both families: which flows lead to a request, and for which connection.
-/
namespace Verif.Props.Ct
open Verif.Common Verif.Sys Verif.Spec Verif.Conntrack

/-- A flow as the listing gives it: each of its four addresses has 4 or 16 bytes. -/
def IPFlow (f : Flow) : Prop :=
  IsIP f.forward.srcIP ∧ IsIP f.forward.dstIP ∧ IsIP f.reverse.srcIP ∧ IsIP f.reverse.dstIP

/-- The last four bytes of the addresses, the protocol and the ports of the flow are those of `c` in the original
direction, and those of its mirror image in the reply direction. -/
def Resembles (f : Flow) (c : Conn) : Prop :=
  (lastFour f.forward.srcIP = c.src ∧ lastFour f.forward.dstIP = c.dst ∧
    f.forward.protocol = c.proto ∧ f.forward.srcPort = c.sport ∧ f.forward.dstPort = c.dport) ∧
  (lastFour f.reverse.srcIP = c.dst ∧ lastFour f.reverse.dstIP = c.src ∧
    f.reverse.protocol = c.proto ∧ f.reverse.srcPort = c.dport ∧ f.reverse.dstPort = c.sport)

instance (f : Flow) (c : Conn) : Decidable (Resembles f c) := by unfold Resembles; infer_instance

/-- The number of flows that resemble `c`. -/
def resembling (flows : List Flow) (c : Conn) : Nat := flows.countP fun f => decide (Resembles f c)

/-- The connection the arguments are taken for: that between the last four bytes of the two addresses. -/
def connOf (env : Env) (ipSrc ipDst : String) (p : Byte) (sp dp : U16) : Conn :=
  ⟨lastFour (env.parseIP ipSrc), lastFour (env.parseIP ipDst), p, sp, dp⟩

theorem connOf_taken (env : Env) {ipSrc ipDst : String} (p : Byte) (sp dp : U16) (hs : IsIP (env.parseIP ipSrc))
    (hd : IsIP (env.parseIP ipDst)) : Taken env ipSrc ipDst p sp dp (connOf env ipSrc ipDst p sp dp) :=
  ⟨⟨lastFour_length hs, ip2int_lastFour hs⟩, ⟨lastFour_length hd, ip2int_lastFour hd⟩, rfl, rfl, rfl⟩

theorem check_any (env : Env) {ipSrc ipDst : String} (p : Byte) (sp dp : U16) (hs : IsIP (env.parseIP ipSrc))
    (hd : IsIP (env.parseIP ipDst)) {f : Flow} (hf : IPFlow f) :
    checkTuplesInFlow env f ipSrc ipDst p sp dp =
      .ok (decide (Resembles f (connOf env ipSrc ipDst p sp dp))) := by
  obtain ⟨b, h1, h2⟩ := C41_compares_last_four_bytes env (p := p) (sp := sp) (dp := dp) hs hd hf.1 hf.2.1 hf.2.2.1 hf.2.2.2
  rw [h1]
  congr 1
  rw [Bool.eq_iff_iff, h2, decide_eq_true_eq]
  rfl

/-- The loop of the mark update, for every notion of a matching flow. -/
theorem markLoop_any (env : Env) (K : Kernel CEv) {ipSrc ipDst : String} {p : Byte} {sp dp : U16} {c : Conn}
    {m : U32} (h : Taken env ipSrc ipDst p sp dp c) (hm : m ≠ 0) {g : Flow → Bool} :
    ∀ (flows : List Flow) (k n : Nat) (r : Option Err) (w w' : W),
      (∀ f ∈ flows, checkTuplesInFlow env f ipSrc ipDst p sp dp = .ok (g f)) →
      markLoop env K ipSrc ipDst p sp dp m flows k w = .ok ((n, r), w') →
      ∃ evs, Updates env.e (MarkReq env.e c m) (flows.countP g) r evs ∧
        w' = { w with trace := w.trace ++ evs } ∧ n = if r = none then k + flows.countP g else 0 := by
  intro flows
  induction flows with
  | nil =>
    intro k n r w w' _ hl
    simp only [markLoop, GoM.pure_apply, Res.ok.injEq, Prod.mk.injEq] at hl
    obtain ⟨⟨rfl, rfl⟩, rfl⟩ := hl
    exact ⟨[], .nil, by simp, by simp⟩
  | cons f fs ih =>
    intro k n r w w' hf hl
    have hfs : ∀ f ∈ fs, checkTuplesInFlow env f ipSrc ipDst p sp dp = .ok (g f) :=
      fun g hg => hf g (List.mem_cons_of_mem _ hg)
    unfold markLoop at hl
    simp only [GoM.bind_apply, GoM.lift_apply, hf f (List.mem_cons_self ..), Res.ok_bind] at hl
    by_cases hF : g f = true
    · have hmat : (f :: fs).countP g = fs.countP g + 1 := by simp [hF]
      simp only [hF, bne_iff_ne, ne_eq, hm, not_false_eq_true, Bool.true_and, if_true, updateMark,
        GoM.bind_apply, GoM.lift_apply, markMessage_eq env m h, Res.ok_bind] at hl
      obtain ⟨⟨r1, w1⟩, h1, hl⟩ := Res.bind_eq_ok.mp hl
      obtain ⟨hs, hd⟩ := names_len h
      obtain ⟨ev1, hx, rfl⟩ := sendMessage_spec env K _ _ w w1 r1 (req := MarkReq env.e c m)
        (markReq_ok env.e hs hd m) h1
      rcases r1 with _ | err
      · simp only at hl
        obtain ⟨evs, hu, rfl, hn⟩ := ih (k + 1) n r _ w' hfs hl
        refine ⟨ev1 ++ evs, hmat ▸ .cons hx hu, by simp, ?_⟩
        rw [hn, hmat]
        split <;> omega
      · simp only [GoM.pure_apply, Res.ok.injEq, Prod.mk.injEq] at hl
        obtain ⟨⟨rfl, rfl⟩, rfl⟩ := hl
        exact ⟨ev1, hmat ▸ .stop hx, rfl, by simp⟩
    · have hmat : (f :: fs).countP g = fs.countP g := by simp [hF]
      simp only [hF, Bool.false_and, Bool.false_eq_true, if_false] at hl
      rw [hmat]
      exact ih k n r w w' hfs hl

/-- The loop of the label update, for every notion of a matching flow. -/
theorem labelLoop_any (env : Env) (K : Kernel CEv) {ipSrc ipDst : String} {p : Byte} {sp dp : U16}
    {m : U32} {req : List Byte → Prop} {g : Flow → Bool}
    (hreq : ∃ hdr data, labelMessage env ipSrc ipDst p sp dp m = .ok (hdr, data) ∧ req (hdrBytes env.e hdr ++ data)) :
    ∀ (flows : List Flow) (k n : Nat) (r : Option Err) (w w' : W),
      (∀ f ∈ flows, checkTuplesInFlow env f ipSrc ipDst p sp dp = .ok (g f)) →
      labelLoop env K ipSrc ipDst p sp dp m flows k w = .ok ((n, r), w') →
      ∃ evs, Updates env.e req (flows.countP g) r evs ∧
        w' = { w with trace := w.trace ++ evs } ∧ n = if r = none then k + flows.countP g else 0 := by
  obtain ⟨hdr, data, hmsg, hreq⟩ := hreq
  intro flows
  induction flows with
  | nil =>
    intro k n r w w' _ hl
    simp only [labelLoop, GoM.pure_apply, Res.ok.injEq, Prod.mk.injEq] at hl
    obtain ⟨⟨rfl, rfl⟩, rfl⟩ := hl
    exact ⟨[], .nil, by simp, by simp⟩
  | cons f fs ih =>
    intro k n r w w' hf hl
    have hfs : ∀ f ∈ fs, checkTuplesInFlow env f ipSrc ipDst p sp dp = .ok (g f) :=
      fun g hg => hf g (List.mem_cons_of_mem _ hg)
    unfold labelLoop at hl
    simp only [GoM.bind_apply, GoM.lift_apply, hf f (List.mem_cons_self ..), Res.ok_bind] at hl
    by_cases hF : g f = true
    · have hmat : (f :: fs).countP g = fs.countP g + 1 := by simp [hF]
      simp only [hF, if_true, GoM.bind_apply, GoM.lift_apply, hmsg, Res.ok_bind] at hl
      obtain ⟨⟨r1, w1⟩, h1, hl⟩ := Res.bind_eq_ok.mp hl
      obtain ⟨ev1, hx, rfl⟩ := sendMessage_spec env K _ _ w w1 r1 (req := req) hreq h1
      rcases r1 with _ | err
      · simp only at hl
        obtain ⟨evs, hu, rfl, hn⟩ := ih (k + 1) n r _ w' hfs hl
        refine ⟨ev1 ++ evs, hmat ▸ .cons hx hu, by simp, ?_⟩
        rw [hn, hmat]
        split <;> omega
      · simp only [GoM.pure_apply, Res.ok.injEq, Prod.mk.injEq] at hl
        obtain ⟨⟨rfl, rfl⟩, rfl⟩ := hl
        exact ⟨ev1, hmat ▸ .stop hx, rfl, by simp⟩
    · have hmat : (f :: fs).countP g = fs.countP g := by simp [hF]
      simp only [hF, Bool.false_eq_true, if_false] at hl
      rw [hmat]
      exact ih k n r w w' hfs hl

theorem label_req_taken (env : Env) {ipSrc ipDst : String} {p : Byte} {sp dp : U16} {c : Conn} (label : U32)
    (h : Taken env ipSrc ipDst p sp dp c) :
    ∃ hdr data, labelMessage env ipSrc ipDst p sp dp label = .ok (hdr, data) ∧
      LabelRequest env.e c label (hdrBytes env.e hdr ++ data) := by
  obtain ⟨hs, hd⟩ := names_len h
  unfold LabelRequest
  have hpc : p = c.proto := h.2.2.1
  by_cases hp : c.proto = 6
  · have hp' : p = 6 := hpc.trans hp
    subst hp'
    refine ⟨_, _, labelMessage_tcp env label h, ?_⟩
    rw [if_pos hp]
    exact ⟨_, labelReqTCP_ok env.e hs hd label⟩
  · refine ⟨_, _, labelMessage_eq env label h (by rw [hpc]; exact hp), ?_⟩
    rw [if_neg hp]
    exact labelReq_ok env.e hs hd label

/-- C42 for flows and arguments of either family: a bulk mark update with a non-zero mark that returns has sent one
request per flow that resembles the named connection in the last four bytes of its addresses, up to and including the
first that failed, each naming the IPv4 connection between these last four bytes; it returns their number and nil, or 0
and the error of that one behind the text "Error ". -/
theorem C42_either_family (env : Env) (K : Kernel CEv) {ipSrc ipDst : String} {p : Byte} {sp dp : U16}
    {mark : U32} (hs : IsIP (env.parseIP ipSrc)) (hd : IsIP (env.parseIP ipDst)) (hm : mark ≠ 0)
    (flows : List Flow) (hf : ∀ f ∈ flows, IPFlow f) (n : Int) (r : Option Err) (w w' : W)
    (hr : updateMarkForAvailableFlow env K flows ipSrc ipDst p sp dp mark w = .ok ((n, r), w')) :
    ∃ first evs, Updates env.e (MarkReq env.e (connOf env ipSrc ipDst p sp dp) mark)
        (resembling flows (connOf env ipSrc ipDst p sp dp)) first evs ∧
      w' = { w with trace := w.trace ++ evs } ∧ r = first.map (.wrap "Error %v") ∧
      n = if r = none then (resembling flows (connOf env ipSrc ipDst p sp dp) : Int) else 0 := by
  obtain ⟨k, e, hl, rfl, rfl⟩ := bulkMark_ok env K flows ipSrc ipDst p sp dp mark w w' n r hr
  obtain ⟨evs, h1, h2, h3⟩ := markLoop_any env K (connOf_taken env p sp dp hs hd) hm flows 0 k e w w'
    (fun f h => check_any env p sp dp hs hd (hf f h)) hl
  refine ⟨e, evs, h1, h2, rfl, ?_⟩
  rcases e with _ | err
  · rw [if_pos rfl] at h3
    simp only [if_true, Option.map_none]
    show (k : Int) = ((resembling flows _ : Nat) : Int)
    unfold resembling
    omega
  · simp

/-- C42 for flows and arguments of either family: with mark 0 nothing is sent and (0, nil) is returned. -/
theorem C42_mark_zero_either_family (env : Env) (K : Kernel CEv) {ipSrc ipDst : String} {p : Byte} {sp dp : U16}
    (hs : IsIP (env.parseIP ipSrc)) (hd : IsIP (env.parseIP ipDst))
    (flows : List Flow) (hf : ∀ f ∈ flows, IPFlow f) (w : W) :
    updateMarkForAvailableFlow env K flows ipSrc ipDst p sp dp 0 w = .ok ((0, none), w) := by
  refine bulkMark_eq env K flows ipSrc ipDst p sp dp 0 w w 0 none ?_
  induction flows with
  | nil => rfl
  | cons f fs ih =>
    unfold markLoop
    simp only [GoM.bind_apply, GoM.lift_apply, check_any env p sp dp hs hd (hf f (List.mem_cons_self ..)), Res.ok_bind,
      bne_self_eq_false, Bool.and_false, Bool.false_eq_true, if_false]
    exact ih fun g hg => hf g (List.mem_cons_of_mem _ hg)

/-- C42 for flows and arguments of either family: the call returns, whenever sockets can be opened and replies are not
16 to 19 bytes long. -/
theorem C42_returns_either_family (env : Env) (K : Kernel CEv) (hK : Proper K) {ipSrc ipDst : String} {p : Byte}
    {sp dp : U16} {mark : U32} (hs : IsIP (env.parseIP ipSrc)) (hd : IsIP (env.parseIP ipDst)) (flows : List Flow)
    (hf : ∀ f ∈ flows, IPFlow f) (w : W) :
    ∃ n r w', updateMarkForAvailableFlow env K flows ipSrc ipDst p sp dp mark w = .ok ((n, r), w') := by
  suffices ∀ k w, ∃ n r w', markLoop env K ipSrc ipDst p sp dp mark flows k w = .ok ((n, r), w') by
    obtain ⟨n, r, w', hl⟩ := this 0 w
    exact ⟨_, _, _, bulkMark_eq env K flows ipSrc ipDst p sp dp mark w w' n r hl⟩
  induction flows with
  | nil => intro k w; exact ⟨_, _, _, rfl⟩
  | cons f fs ih =>
    intro k w
    have ih := ih fun g hg => hf g (List.mem_cons_of_mem _ hg)
    unfold markLoop
    simp only [GoM.bind_apply, GoM.lift_apply, check_any env p sp dp hs hd (hf f (List.mem_cons_self ..)), Res.ok_bind]
    split
    · simp only [updateMark, GoM.bind_apply, GoM.lift_apply, markMessage_eq env mark (connOf_taken env p sp dp hs hd),
        Res.ok_bind]
      obtain ⟨r1, w1, h1⟩ := sendMessage_returns env K ⟨80, 0x100, 5, 0, 0⟩
        ([2, 0, 0, 0] ++ origBytes env.e (connOf env ipSrc ipDst p sp dp) ++ markTail env.e mark) w (by simp) hK
      rw [h1]
      simp only [Res.ok_bind]
      rcases r1 with _ | err
      · exact ih _ _
      · exact ⟨_, _, _, rfl⟩
    · exact ih _ _

/-- C43 for flows and arguments of either family. -/
theorem C43_either_family (env : Env) (K : Kernel CEv) {ipSrc ipDst : String} {p : Byte} {sp dp : U16}
    {label : U32} (hs : IsIP (env.parseIP ipSrc)) (hd : IsIP (env.parseIP ipDst))
    (flows : List Flow) (hf : ∀ f ∈ flows, IPFlow f) (n : Int) (r : Option Err) (w w' : W)
    (hr : updateLabel env K flows ipSrc ipDst p sp dp label w = .ok ((n, r), w')) :
    ∃ evs, Updates env.e (LabelRequest env.e (connOf env ipSrc ipDst p sp dp) label)
        (resembling flows (connOf env ipSrc ipDst p sp dp)) r evs ∧
      w' = { w with trace := w.trace ++ evs } ∧
      n = if r = none then (resembling flows (connOf env ipSrc ipDst p sp dp) : Int) else 0 := by
  obtain ⟨k, hl, hn⟩ := bulkLabel_ok env K flows ipSrc ipDst p sp dp label w w' n r hr
  obtain ⟨evs, h1, h2, h3⟩ := labelLoop_any env K (label_req_taken env label (connOf_taken env p sp dp hs hd)) flows 0 k
    r w w' (fun f h => check_any env p sp dp hs hd (hf f h)) hl
  refine ⟨evs, h1, h2, ?_⟩
  rw [hn, h3]
  show _ = if r = none then ((resembling flows _ : Nat) : Int) else 0
  unfold resembling
  split <;> omega

/-- C43 for flows and arguments of either family: the call returns, whenever sockets can be opened and replies are not
16 to 19 bytes long. -/
theorem C43_returns_either_family (env : Env) (K : Kernel CEv) (hK : Proper K) {ipSrc ipDst : String} {p : Byte}
    {sp dp : U16} {label : U32} (hs : IsIP (env.parseIP ipSrc)) (hd : IsIP (env.parseIP ipDst)) (flows : List Flow)
    (hf : ∀ f ∈ flows, IPFlow f) (w : W) :
    ∃ n r w', updateLabel env K flows ipSrc ipDst p sp dp label w = .ok ((n, r), w') := by
  obtain ⟨hdr, data, hmsg, h4⟩ : ∃ hdr data, labelMessage env ipSrc ipDst p sp dp label = .ok (hdr, data) ∧
      4 ≤ data.length := by
    by_cases hp : p = 6
    · subst hp
      exact ⟨_, _, labelMessage_tcp env label (connOf_taken env 6 sp dp hs hd), by simp⟩
    · exact ⟨_, _, labelMessage_eq env label (connOf_taken env p sp dp hs hd) hp, by simp⟩
  suffices ∀ k w, ∃ n r w', labelLoop env K ipSrc ipDst p sp dp label flows k w = .ok ((n, r), w') by
    obtain ⟨n, r, w', hl⟩ := this 0 w
    exact ⟨_, _, _, bulkLabel_eq env K flows ipSrc ipDst p sp dp label w w' n r hl⟩
  induction flows with
  | nil => intro k w; exact ⟨_, _, _, rfl⟩
  | cons f fs ih =>
    intro k w
    have ih := ih fun g hg => hf g (List.mem_cons_of_mem _ hg)
    unfold labelLoop
    simp only [GoM.bind_apply, GoM.lift_apply, check_any env p sp dp hs hd (hf f (List.mem_cons_self ..)), Res.ok_bind]
    split
    · simp only [GoM.bind_apply, GoM.lift_apply, hmsg, Res.ok_bind]
      obtain ⟨r1, w1, h1⟩ := sendMessage_returns env K hdr data w h4 hK
      rw [h1]
      simp only [Res.ok_bind]
      rcases r1 with _ | err
      · exact ih _ _
      · exact ⟨_, _, _, rfl⟩
    · exact ih _ _

/-- C42, what this means among IPv4 flows: resembling is being the flow of the connection. -/
theorem C42_resembling_v4 {f : Flow} {c : Conn} (hf : f.forward.srcIP.length = 4 ∧ f.forward.dstIP.length = 4 ∧
    f.reverse.srcIP.length = 4 ∧ f.reverse.dstIP.length = 4) (hs : c.src.length = 4) (hd : c.dst.length = 4) :
    Resembles f c ↔ FlowOf f c := by
  have key : ∀ {ip a : List Byte}, ip.length = 4 → a.length = 4 → (lastFour ip = a ↔ IsV4 ip a) := by
    intro ip a h ha
    have h1 : lastFour ip = ip := by unfold lastFour; rw [h]; rfl
    rw [h1]
    constructor
    · rintro rfl; exact ⟨h, .inl rfl⟩
    · rintro ⟨_, h2 | h2⟩
      · exact h2
      · have := congrArg List.length h2
        simp only [List.length_append] at this
        rw [h, ha] at this
        simp at this
  obtain ⟨h1, h2, h3, h4⟩ := hf
  unfold Resembles FlowOf
  rw [key h1 hs, key h2 hd, key h3 hd, key h4 hs]
  constructor
  · rintro ⟨⟨a, b, d, e, g⟩, h, i, j, k, l⟩
    exact ⟨a, b, d, e, g, h, i, j, k, l⟩
  · rintro ⟨a, b, d, e, g, h, i, j, k, l⟩
    exact ⟨⟨a, b, d, e, g⟩, h, i, j, k, l⟩

/-- Non-vacuous: an IPv6 flow and an IPv4 flow, both resembling the connection 10.0.0.1:1000 to 10.0.0.2:53, count two. -/
example : IPFlow v6Flow ∧ IPFlow sampleFlow ∧
    resembling [v6Flow, sampleFlow, otherFlow] (connOf sampleEnv "10.0.0.1" "10.0.0.2" 17 1000 53) = 2 ∧
    matching [v6Flow, sampleFlow, otherFlow] sampleConn = 1 := by
  unfold IPFlow; decide
example : ∃ n r w', updateMarkForAvailableFlow sampleEnv sampleKernel [v6Flow, sampleFlow] "10.0.0.1" "10.0.0.2" 17 1000
    53 9 sampleWorld = .ok ((n, r), w') :=
  C42_returns_either_family sampleEnv sampleKernel
    ⟨sample_accepting.socket, fun _ _ => sample_accepting.bind .., fun tr fd d hd => by
      rw [sample_accepting.recv] at hd; cases hd; exact .inr sample_accepting.long⟩ (by decide) (by decide) _
    (by intro f hf; simp only [List.mem_cons, List.not_mem_nil, or_false] at hf
        rcases hf with rfl | rfl <;> unfold IPFlow <;> decide) sampleWorld

end Verif.Props.Ct
