import Verif.Props.Conntrack
import Verif.Conntrack.Example
import Verif.Packet.Hash
/-!
Properties C111–C115: updating connections taken from the listing.
-/
namespace Verif.Props.Ct
open Verif.Common Verif.Sys Verif.Spec Verif.Conntrack

/-! ### Vocabulary -/

/-- The original direction of the flow is the connection `c`. -/
def Original (f : Flow) (c : Conn) : Prop :=
  IsV4 f.forward.srcIP c.src ∧ IsV4 f.forward.dstIP c.dst ∧ f.forward.protocol = c.proto ∧
    f.forward.srcPort = c.sport ∧ f.forward.dstPort = c.dport

/-- The replies of the connection `c` are expected as its mirror image: there is no address translation. -/
def Mirrored (f : Flow) (c : Conn) : Prop :=
  IsV4 f.reverse.srcIP c.dst ∧ IsV4 f.reverse.dstIP c.src ∧ f.reverse.protocol = c.proto ∧
    f.reverse.srcPort = c.dport ∧ f.reverse.dstPort = c.sport

theorem flowOf_iff (f : Flow) (c : Conn) : FlowOf f c ↔ Original f c ∧ Mirrored f c := by
  unfold FlowOf Original Mirrored
  constructor
  · rintro ⟨a, b, d, e, g, h, i, j, k, l⟩
    exact ⟨⟨a, b, d, e, g⟩, h, i, j, k, l⟩
  · rintro ⟨⟨a, b, d, e, g⟩, h, i, j, k, l⟩
    exact ⟨a, b, d, e, g, h, i, j, k, l⟩

theorem matching_pos {flows : List Flow} {f : Flow} {c : Conn} (hm : f ∈ flows) (h : FlowOf f c) :
    1 ≤ matching flows c := by
  unfold matching
  exact List.countP_pos_iff.mpr ⟨f, hm, by simpa using h⟩

theorem matching_zero {flows : List Flow} {c : Conn} (h : ∀ f ∈ flows, ¬ FlowOf f c) : matching flows c = 0 := by
  unfold matching
  rw [List.countP_eq_zero]
  intro f hf
  simpa using h f hf

/-- Bulk updates, when no flow is that of the connection: nothing happens, (0, nil) is returned. -/
theorem bulk_none (env : Env) (K : Kernel CEv) {ipSrc ipDst : String} {p : Byte} {sp dp : U16} {c : Conn} (value : U32)
    (h : Names env ipSrc ipDst p sp dp c) (flows : List Flow) (hf : ∀ f ∈ flows, V4Flow f)
    (hn : ∀ f ∈ flows, ¬ FlowOf f c) (w : W) :
    updateMarkForAvailableFlow env K flows ipSrc ipDst p sp dp value w = .ok ((0, none), w) ∧
    updateLabel env K flows ipSrc ipDst p sp dp value w = .ok ((0, none), w) := by
  constructor
  · refine bulkMark_eq env K flows ipSrc ipDst p sp dp value w w 0 none ?_
    induction flows with
    | nil => rfl
    | cons f fs ih =>
      unfold markLoop
      simp only [GoM.bind_apply, GoM.lift_apply, check_v4 env h (hf f (List.mem_cons_self ..)), Res.ok_bind,
        hn f (List.mem_cons_self ..), decide_false, Bool.false_and, Bool.false_eq_true, if_false]
      exact ih (fun g hg => hf g (List.mem_cons_of_mem _ hg)) (fun g hg => hn g (List.mem_cons_of_mem _ hg))
  · refine bulkLabel_eq env K flows ipSrc ipDst p sp dp value w w 0 none ?_
    induction flows with
    | nil => rfl
    | cons f fs ih =>
      unfold labelLoop
      simp only [GoM.bind_apply, GoM.lift_apply, check_v4 env h (hf f (List.mem_cons_self ..)), Res.ok_bind,
        hn f (List.mem_cons_self ..), decide_false, Bool.false_eq_true, if_false]
      exact ih (fun g hg => hf g (List.mem_cons_of_mem _ hg)) (fun g hg => hn g (List.mem_cons_of_mem _ hg))

/-! ### C111 -/

/-- C111, for connections without address translation: an update naming a listed flow by its own original tuple finds it;
on a kernel that acknowledges, at least one update of exactly that connection is made and counted. -/
theorem C111_found_partial (env : Env) (K : Kernel CEv) {d : List Byte} (hK : Accepting env.e K d)
    {ipSrc ipDst : String} {p : Byte} {sp dp : U16} {c : Conn} {mark : U32} (h : Names env ipSrc ipDst p sp dp c)
    (hm : mark ≠ 0) (flows : List Flow) (hf : ∀ f ∈ flows, V4Flow f) {f : Flow} (hin : f ∈ flows) (ho : Original f c)
    (hmi : Mirrored f c) (w : W) :
    ∃ (n : Nat) (evs : List (Ev CEv)),
      updateMarkForAvailableFlow env K flows ipSrc ipDst p sp dp mark w =
        .ok (((n : Int), none), { w with trace := w.trace ++ evs }) ∧
      1 ≤ n ∧ Updates env.e (MarkReq env.e c mark) n none evs := by
  obtain ⟨w', hr⟩ := C42_all_acknowledged env K hK h hm flows hf w
  obtain ⟨first, evs, h1, rfl, h3, _⟩ := C42_bulk_mark env K h hm flows hf _ _ w w' hr
  cases first with
  | some e => cases h3
  | none => exact ⟨matching flows c, evs, hr, matching_pos hin ((flowOf_iff f c).mpr ⟨ho, hmi⟩), h1⟩

/-- C111, the part that holds, for labels: a listed connection whose reply tuple mirrors its original one is found by its
original tuple whatever the label, zero included. -/
theorem C111_label_found_partial (env : Env) (K : Kernel CEv) {d : List Byte} (hK : Accepting env.e K d)
    {ipSrc ipDst : String} {p : Byte} {sp dp : U16} {c : Conn} (label : U32) (h : Names env ipSrc ipDst p sp dp c)
    (flows : List Flow) (hf : ∀ f ∈ flows, V4Flow f) {f : Flow} (hin : f ∈ flows) (ho : Original f c)
    (hmi : Mirrored f c) (w : W) :
    ∃ (n : Nat) (evs : List (Ev CEv)),
      updateLabel env K flows ipSrc ipDst p sp dp label w =
        .ok (((n : Int), none), { w with trace := w.trace ++ evs }) ∧
      1 ≤ n ∧ Updates env.e (LabelRequest env.e c label) n none evs := by
  obtain ⟨w', hr⟩ := C43_all_acknowledged env K hK h flows hf w
  obtain ⟨evs, h1, rfl, _⟩ := C43_bulk_label env K h flows hf _ _ w w' hr
  exact ⟨matching flows c, evs, hr, matching_pos hin ((flowOf_iff f c).mpr ⟨ho, hmi⟩), h1⟩

/-- C111, violated: a listed connection whose addresses or ports are translated is never found by its own original tuple:
no request is made, neither for a mark nor for a label, and (0, nil) is returned. -/
theorem C111_nat_violated (env : Env) (K : Kernel CEv) {ipSrc ipDst : String} {p : Byte} {sp dp : U16} {c : Conn}
    (value : U32) (h : Names env ipSrc ipDst p sp dp c) (flows : List Flow) (hf : ∀ f ∈ flows, V4Flow f)
    (hnat : ∀ f ∈ flows, Original f c → ¬ Mirrored f c) (w : W) :
    updateMarkForAvailableFlow env K flows ipSrc ipDst p sp dp value w = .ok ((0, none), w) ∧
    updateLabel env K flows ipSrc ipDst p sp dp value w = .ok ((0, none), w) :=
  bulk_none env K value h flows hf (fun f hm hF => hnat f hm ((flowOf_iff f c).mp hF).1 ((flowOf_iff f c).mp hF).2) w

/-- A connection to 10.0.0.2 that is redirected to 10.0.0.1, port 5353. -/
def natFlow : Flow := ⟨⟨[10, 0, 0, 1], [10, 0, 0, 2], 17, 1000, 53⟩, ⟨[10, 0, 0, 1], [10, 0, 0, 1], 17, 5353, 1000⟩⟩

theorem natFlow_v4 : V4Flow natFlow :=
  ⟨⟨[10, 0, 0, 1], by decide⟩, ⟨[10, 0, 0, 2], by decide⟩, ⟨[10, 0, 0, 1], by decide⟩, ⟨[10, 0, 0, 1], by decide⟩⟩

example : Original natFlow sampleConn ∧
    updateMarkForAvailableFlow sampleEnv sampleKernel [natFlow] "10.0.0.1" "10.0.0.2" 17 1000 53 9 sampleWorld =
      .ok ((0, none), sampleWorld) :=
  ⟨by unfold Original; decide, (C111_nat_violated sampleEnv sampleKernel 9 sample_names [natFlow]
    (by intro f hf; simp only [List.mem_singleton] at hf; subst hf; exact natFlow_v4)
    (by intro f hf _; simp only [List.mem_singleton] at hf; subst hf; unfold Mirrored; decide) sampleWorld).1⟩

example : ∃ (n : Nat) (evs : List (Ev CEv)),
      updateMarkForAvailableFlow sampleEnv sampleKernel [otherFlow, sampleFlow] "10.0.0.1" "10.0.0.2" 17 1000 53 9 sampleWorld =
        .ok (((n : Int), none), { sampleWorld with trace := sampleWorld.trace ++ evs }) ∧ 1 ≤ n ∧
      Updates .little (MarkReq .little sampleConn 9) n none evs :=
  C111_found_partial sampleEnv sampleKernel sample_accepting sample_names (by decide) [otherFlow, sampleFlow]
    (by
      intro f hf
      simp only [List.mem_cons, List.not_mem_nil, or_false] at hf
      rcases hf with rfl | rfl
      · exact otherFlow_v4
      · exact sampleFlow_v4) (f := sampleFlow) (by simp) (by unfold Original; decide) (by unfold Mirrored; decide) sampleWorld

example : ∃ (n : Nat) (evs : List (Ev CEv)),
      updateLabel sampleEnv sampleKernel [otherFlow, sampleFlow] "10.0.0.1" "10.0.0.2" 17 1000 53 0 sampleWorld =
        .ok (((n : Int), none), { sampleWorld with trace := sampleWorld.trace ++ evs }) ∧ 1 ≤ n ∧
      Updates .little (LabelRequest .little sampleConn 0) n none evs :=
  C111_label_found_partial sampleEnv sampleKernel sample_accepting 0 sample_names [otherFlow, sampleFlow]
    (by
      intro f hf
      simp only [List.mem_cons, List.not_mem_nil, or_false] at hf
      rcases hf with rfl | rfl
      · exact otherFlow_v4
      · exact sampleFlow_v4) (f := sampleFlow) (by simp) (by unfold Original; decide) (by unfold Mirrored; decide) sampleWorld

/-! ### C112 -/

/-- C112, the part that holds: when no listed flow is the named connection, no system call is made. -/
theorem C112_nothing_sent_partial (env : Env) (K : Kernel CEv) {ipSrc ipDst : String} {p : Byte} {sp dp : U16} {c : Conn}
    (value : U32) (h : Names env ipSrc ipDst p sp dp c) (flows : List Flow) (hf : ∀ f ∈ flows, V4Flow f)
    (hn : ∀ f ∈ flows, ¬ FlowOf f c) (w : W) :
    (∃ r, updateMarkForAvailableFlow env K flows ipSrc ipDst p sp dp value w = .ok (r, w)) ∧
    ∃ r, updateLabel env K flows ipSrc ipDst p sp dp value w = .ok (r, w) :=
  ⟨⟨_, (bulk_none env K value h flows hf hn w).1⟩, ⟨_, (bulk_none env K value h flows hf hn w).2⟩⟩

/-- C112, violated: the caller is not told: the error is nil. -/
theorem C112_not_told_violated (env : Env) (K : Kernel CEv) {ipSrc ipDst : String} {p : Byte} {sp dp : U16} {c : Conn}
    (value : U32) (h : Names env ipSrc ipDst p sp dp c) (flows : List Flow) (hf : ∀ f ∈ flows, V4Flow f)
    (hn : ∀ f ∈ flows, ¬ FlowOf f c) (w : W) :
    (∃ n w', updateMarkForAvailableFlow env K flows ipSrc ipDst p sp dp value w = .ok ((n, none), w')) ∧
    ∃ n w', updateLabel env K flows ipSrc ipDst p sp dp value w = .ok ((n, none), w') :=
  ⟨⟨_, _, (bulk_none env K value h flows hf hn w).1⟩, ⟨_, _, (bulk_none env K value h flows hf hn w).2⟩⟩

example : ∃ n w', updateLabel sampleEnv sampleKernel [otherFlow] "10.0.0.1" "10.0.0.2" 17 1000 53 9 sampleWorld =
    .ok ((n, none), w') :=
  (C112_not_told_violated sampleEnv sampleKernel 9 sample_names [otherFlow]
    (by intro f hf; simp only [List.mem_singleton] at hf; subst hf; exact otherFlow_v4)
    (by intro f hf; simp only [List.mem_singleton] at hf; subst hf; decide) sampleWorld).2

/-! ### C113 -/

/-- C113, the part that holds: a single update with mark 0 makes one exchange whose request sets the mark of the named
connection to 0. -/
theorem C113_single_partial (env : Env) (K : Kernel CEv) {ipSrc ipDst : String} {p : Byte} {sp dp : U16} {c : Conn}
    (h : Names env ipSrc ipDst p sp dp c) (w w' : W) (r : Option Err)
    (hr : updateMark env K ipSrc ipDst p sp dp 0 w = .ok (r, w')) :
    ∃ evs, Exchange env.e (fun b => UpdateIs env.e b c [⟨8, false, [0, 0, 0, 0]⟩]) r evs ∧
      w' = { w with trace := w.trace ++ evs } := by
  obtain ⟨evs, ⟨b, fd, bnd, q, cl, hreq, h1, h2, h3, h4⟩, h5⟩ := C39_mark_update env K 0 h w w' r hr
  refine ⟨evs, ⟨b, fd, bnd, q, cl, ?_, h1, h2, h3, h4⟩, h5⟩
  exact hreq

/-- C113, violated: a bulk update with mark 0 leaves the mark of a listed connection as it is: no request is made, and the
call reports success. -/
theorem C113_bulk_zero_violated (env : Env) (K : Kernel CEv) {ipSrc ipDst : String} {p : Byte} {sp dp : U16} {c : Conn}
    (h : Names env ipSrc ipDst p sp dp c) (flows : List Flow) (hf : ∀ f ∈ flows, V4Flow f) {f : Flow} (_hin : f ∈ flows)
    (_hF : FlowOf f c) (w : W) :
    updateMarkForAvailableFlow env K flows ipSrc ipDst p sp dp 0 w = .ok ((0, none), w) :=
  C42_mark_zero env K h flows hf w

example : updateMarkForAvailableFlow sampleEnv sampleKernel [sampleFlow] "10.0.0.1" "10.0.0.2" 17 1000 53 0 sampleWorld =
    .ok ((0, none), sampleWorld) :=
  C113_bulk_zero_violated sampleEnv sampleKernel sample_names [sampleFlow]
    (by intro f hf; simp only [List.mem_singleton] at hf; subst hf; exact sampleFlow_v4) (f := sampleFlow) (by simp) (by decide)
    sampleWorld
example : ∃ w', updateMark sampleEnv sampleKernel "10.0.0.1" "10.0.0.2" 17 1000 53 0 sampleWorld = .ok (none, w') :=
  C39_succeeds sampleEnv sampleKernel sample_accepting 0 sample_names sampleWorld

/-! ### C114 -/

/-- `done` acknowledged requests one after the other, then one that failed with `err`. -/
def DoneThenFailed (e : Endian) (req : List Byte → Prop) (done : Nat) (err : Err) (evs : List (Ev CEv)) : Prop :=
  ∃ (gs : List (List (Ev CEv))) (last : List (Ev CEv)), evs = gs.flatten ++ last ∧ gs.length = done ∧
    (∀ g ∈ gs, Exchange e req none g) ∧ Exchange e req (some err) last

theorem updates_failed {e : Endian} {req : List Byte → Prop} {k : Nat} {r : Option Err} {evs : List (Ev CEv)}
    (h : Updates e req k r evs) : ∀ err, r = some err → ∃ done, done < k ∧ DoneThenFailed e req done err evs := by
  induction h with
  | nil => intro _ h; cases h
  | cons h _ ih =>
    intro err hr
    obtain ⟨done, hlt, gs, last, rfl, rfl, hg, hl⟩ := ih err hr
    refine ⟨gs.length + 1, by omega, _ :: gs, last, by simp; rfl, rfl, ?_, hl⟩
    intro g hm
    simp only [List.mem_cons] at hm
    rcases hm with rfl | hm
    · exact h
    · exact hg g hm
  | stop h =>
    intro err hr
    cases hr
    exact ⟨0, by omega, [], _, rfl, rfl, by simp, h⟩

/-- C114, violated: a bulk update that fails returns 0, however many requests were acknowledged before the failing one. -/
theorem C114_count_lost_violated (env : Env) (K : Kernel CEv) {ipSrc ipDst : String} {p : Byte} {sp dp : U16} {c : Conn}
    {mark : U32} (h : Names env ipSrc ipDst p sp dp c) (hm : mark ≠ 0) (flows : List Flow) (hf : ∀ f ∈ flows, V4Flow f)
    (n : Int) (err : Err) (w w' : W)
    (hr : updateMarkForAvailableFlow env K flows ipSrc ipDst p sp dp mark w = .ok ((n, some err), w')) :
    n = 0 ∧ ∃ done inner evs, done < matching flows c ∧ err = .wrap "Error %v" inner ∧
      w' = { w with trace := w.trace ++ evs } ∧ DoneThenFailed env.e (MarkReq env.e c mark) done inner evs := by
  obtain ⟨first, evs, h1, h2, h3, h4⟩ := C42_bulk_mark env K h hm flows hf n _ w w' hr
  refine ⟨by simpa using h4, ?_⟩
  cases first with
  | none => cases h3
  | some inner =>
    obtain ⟨done, hlt, hd⟩ := updates_failed h1 inner rfl
    exact ⟨done, inner, evs, hlt, by simpa using h3, h2, hd⟩

/-- C114, violated, for labels. -/
theorem C114_label_count_lost_violated (env : Env) (K : Kernel CEv) {ipSrc ipDst : String} {p : Byte} {sp dp : U16}
    {c : Conn} {label : U32} (h : Names env ipSrc ipDst p sp dp c) (flows : List Flow) (hf : ∀ f ∈ flows, V4Flow f)
    (n : Int) (err : Err) (w w' : W)
    (hr : updateLabel env K flows ipSrc ipDst p sp dp label w = .ok ((n, some err), w')) :
    n = 0 ∧ ∃ done evs, done < matching flows c ∧
      w' = { w with trace := w.trace ++ evs } ∧ DoneThenFailed env.e (LabelRequest env.e c label) done err evs := by
  obtain ⟨evs, h1, h2, h3⟩ := C43_bulk_label env K h flows hf n _ w w' hr
  refine ⟨by simpa using h3, ?_⟩
  obtain ⟨done, hlt, hd⟩ := updates_failed h1 err rfl
  exact ⟨done, evs, hlt, h2, hd⟩

/-- Acknowledges the first request, then refuses (ENOENT). -/
def onceKernel : Kernel CEv := { sampleKernel with
  recv := fun tr _ => .ok (if tr.any isClose then
    [36, 0, 0, 0, 2, 0, 0, 0, 0, 0, 0, 0, 0, 0, 0, 0, 0xfe, 0xff, 0xff, 0xff] else sampleAck) }

/-- Such a case: the flow is listed twice, its first update is acknowledged, the second refused. -/
example : (match updateMarkForAvailableFlow sampleEnv onceKernel [sampleFlow, sampleFlow] "10.0.0.1" "10.0.0.2" 17 1000
      53 9 sampleWorld with
    | .ok ((n, some err), w') => decide (n = 0 ∧ err = .wrap "Error %v" (.netlink (-2)) ∧
        w'.trace.any (fun | .recvfrom 7 80 0 (.ok d) => d == sampleAck | _ => false) = true ∧ (w'.trace.filter isClose).length = 2)
    | _ => false) = true := by decide +kernel

/-! ### C115: the example program -/

/-- `net.ParseIP` reads what `net.IP.String` prints, for IPv4 addresses. -/
def ReadsPrinted (env : Env) : Prop := ∀ a : List Byte, a.length = 4 → IsV4 (env.parseIP (ipStr a)) a

theorem isV4_printed {ip a : List Byte} (h : IsV4 ip a) : ipStr ip = ipStr a := by
  obtain ⟨hl, h⟩ := h
  obtain ⟨w, x, y, z, rfl⟩ := length4 hl
  rcases h with rfl | rfl <;> rfl

/-- The library lists the table `flows` (not empty) before and after. -/
def Lists (lib : List (Ev CEv) → Option (List Flow) × Option Err) (tr : List (Ev CEv)) (flows : List Flow) : Prop :=
  lib tr = (some flows, none)

theorem exampleMain_eq (env : Env) (K : Kernel CEv) (lib : List (Ev CEv) → Option (List Flow) × Option Err)
    {f : Flow} {rest : List Flow} (w : W) (hlib : Lists lib w.trace (f :: rest)) {n : Int} {err : Option Err} {w' : W}
    (hu : updateMarkForAvailableFlow env K (f :: rest) (ipStr f.forward.srcIP) (ipStr f.forward.dstIP)
      f.forward.protocol f.forward.srcPort f.forward.dstPort 42 w = .ok ((n, err), w')) {g : Flow} {rest' : List Flow}
    (hlib' : Lists lib w'.trace (g :: rest')) :
    exampleMain env K lib w = .ok (⟨n, err, g⟩, w') := by
  unfold exampleMain
  unfold Lists at hlib hlib'
  simp only [hlib, C46_entries, display, Option.getD_some, Res.ok_bind, hu, hlib']

/-- C115, when the first connection listed is not translated and the table does not become empty: on a kernel that
acknowledges, the example program sets the mark of the first connection listed to 42, reports how many updates it made,
no error, and shows the first entry of the new table. -/
theorem C115_example_partial (env : Env) (K : Kernel CEv) {d : List Byte} (hK : Accepting env.e K d)
    (hp : ReadsPrinted env) (lib : List (Ev CEv) → Option (List Flow) × Option Err) {f : Flow} {rest : List Flow} {c : Conn}
    (w : W) (hlib : Lists lib w.trace (f :: rest)) (hf : ∀ g ∈ f :: rest, V4Flow g) (ho : Original f c)
    (hm : Mirrored f c) (hne : ∀ tr, ∃ g rest', Lists lib tr (g :: rest')) :
    ∃ (n : Nat) (evs : List (Ev CEv)) (g : Flow) (rest' : List Flow),
      exampleMain env K lib w = .ok (⟨n, none, g⟩, { w with trace := w.trace ++ evs }) ∧ 1 ≤ n ∧
      Updates env.e (MarkReq env.e c 42) n none evs ∧ Lists lib (w.trace ++ evs) (g :: rest') := by
  have hN : Names env (ipStr f.forward.srcIP) (ipStr f.forward.dstIP) f.forward.protocol f.forward.srcPort
      f.forward.dstPort c := by
    refine ⟨?_, ?_, ho.2.2.1, ho.2.2.2.1, ho.2.2.2.2⟩
    · rw [isV4_printed ho.1]; exact hp _ ho.1.1
    · rw [isV4_printed ho.2.1]; exact hp _ ho.2.1.1
  obtain ⟨n, evs, h1, h2, h3⟩ := C111_found_partial env K hK hN (mark := 42) (by decide) (f :: rest) hf
    (List.mem_cons_self ..) ho hm w
  obtain ⟨g, rest', hg⟩ := hne (w.trace ++ evs)
  exact ⟨n, evs, g, rest', exampleMain_eq env K lib w hlib h1 hg, h2, h3, hg⟩

/-- C115, violated: on an empty table, or when listing fails, the example program crashes. -/
theorem C115_empty_violated (env : Env) (K : Kernel CEv) (lib : List (Ev CEv) → Option (List Flow) × Option Err) (w : W)
    (h : lib w.trace = (some [], none) ∨ (lib w.trace).1 = none ∨ (lib w.trace).2 ≠ none) :
    exampleMain env K lib w = .panic := by
  have key : ∀ r, (tableList (lib w.trace).1 (lib w.trace).2).1 = r → display r = .panic →
      exampleMain env K lib w = .panic := by
    intro r h1 h2
    unfold exampleMain
    simp only [h1, h2]
    rfl
  rcases h with h | h
  · exact key (some []) (by rw [h]; rfl) rfl
  · obtain ⟨e, he⟩ := C46_error _ _ h
    exact key none (by rw [he]) rfl

/-- C115, violated: when the first connection listed is translated (and not listed untranslated), the example program
makes no request and reports 0 updates without error. -/
theorem C115_nat_violated (env : Env) (K : Kernel CEv) (hp : ReadsPrinted env)
    (lib : List (Ev CEv) → Option (List Flow) × Option Err) {f : Flow} {rest : List Flow} {c : Conn}
    (w : W) (hlib : Lists lib w.trace (f :: rest)) (hf : ∀ g ∈ f :: rest, V4Flow g) (ho : Original f c)
    (hm : ∀ g ∈ f :: rest, Original g c → ¬ Mirrored g c) :
    exampleMain env K lib w = .ok (⟨0, none, f⟩, w) := by
  have hN : Names env (ipStr f.forward.srcIP) (ipStr f.forward.dstIP) f.forward.protocol f.forward.srcPort
      f.forward.dstPort c := by
    refine ⟨?_, ?_, ho.2.2.1, ho.2.2.2.1, ho.2.2.2.2⟩
    · rw [isV4_printed ho.1]; exact hp _ ho.1.1
    · rw [isV4_printed ho.2.1]; exact hp _ ho.2.1.1
  exact exampleMain_eq env K lib w hlib (C111_nat_violated env K 42 hN (f :: rest) hf hm w).1 hlib

/-! #### A `net.ParseIP` for IPv4 -/

/-- Cut at the dots. -/
def cutDots : List Char → List (List Char)
  | [] => [[]]
  | c :: cs => if c = '.' then [] :: cutDots cs else
    match cutDots cs with
    | f :: fs => (c :: f) :: fs
    | [] => [[c]]

/-- A decimal number up to 255. -/
def readField (cs : List Char) : Option Byte :=
  if cs ≠ [] ∧ cs.all Char.isDigit = true ∧ Nat.ofDigitChars 10 cs 0 ≤ 255 then
    some (BitVec.ofNat 8 (Nat.ofDigitChars 10 cs 0)) else none

/-- `net.ParseIP` on dotted decimal: the 16-byte form; anything else is taken to be no address. -/
def parseDotted (s : String) : List Byte :=
  match (cutDots s.toList).map readField with
  | [some a, some b, some c, some d] => List.replicate 10 0 ++ [0xff, 0xff] ++ [a, b, c, d]
  | _ => []

theorem cutDots_plain : ∀ {x : List Char}, '.' ∉ x → cutDots x = [x]
  | [], _ => rfl
  | c :: cs, h => by
    simp only [List.mem_cons, not_or] at h
    unfold cutDots
    rw [if_neg (fun h' => h.1 h'.symm), cutDots_plain h.2]

theorem cutDots_sep : ∀ {x : List Char} (y : List Char), '.' ∉ x → cutDots (x ++ '.' :: y) = x :: cutDots y
  | [], y, _ => by simp [cutDots]
  | c :: cs, y, h => by
    simp only [List.mem_cons, not_or] at h
    rw [List.cons_append, cutDots, if_neg (fun h' => h.1 h'.symm), cutDots_sep y h.2]

theorem readField_itoa (b : Byte) : readField (Packet.itoa b.toNat) = some b := by
  have h1 : Nat.ofDigitChars 10 (Packet.itoa b.toNat) 0 = b.toNat := by
    simp only [Packet.itoa, Nat.ofDigitChars_ten_toDigits]
  have h2 : (Packet.itoa b.toNat).all Char.isDigit = true := by
    rw [List.all_eq_true]
    exact fun c hc => Packet.itoa_digit hc
  have := b.isLt
  unfold readField
  rw [h1, if_pos ⟨Nat.toDigits_ne_nil, h2, by omega⟩, BitVec.ofNat_toNat, BitVec.setWidth_eq]

/-- It reads every printed IPv4 address. -/
theorem parseDotted_reads (e : Endian) : ReadsPrinted ⟨e, parseDotted⟩ := by
  intro a ha
  refine ⟨ha, .inr ?_⟩
  obtain ⟨w, x, y, z, rfl⟩ := length4 ha
  have hd : ∀ b : Byte, '.' ∉ Packet.itoa b.toNat := fun b => Packet.itoa_not rfl
  have : (ipStr [w, x, y, z]).toList = Packet.itoa w.toNat ++ '.' :: (Packet.itoa x.toNat ++ '.' ::
      (Packet.itoa y.toNat ++ '.' :: Packet.itoa z.toNat)) := by
    unfold ipStr
    rw [String.toList_ofList]
    rfl
  show parseDotted _ = _
  unfold parseDotted
  rw [this, cutDots_sep _ (hd w), cutDots_sep _ (hd x), cutDots_sep _ (hd y), cutDots_plain (hd z)]
  simp only [List.map_cons, List.map_nil, readField_itoa]

/-- The example program on a table with one connection. -/
example : ∃ (n : Nat) (evs : List (Ev CEv)) (g : Flow) (rest' : List Flow),
      exampleMain ⟨.little, parseDotted⟩ sampleKernel (fun _ => (some [sampleFlow], none)) sampleWorld =
        .ok (⟨n, none, g⟩, { sampleWorld with trace := sampleWorld.trace ++ evs }) ∧ 1 ≤ n ∧
      Updates .little (MarkReq .little sampleConn 42) n none evs ∧
      Lists (fun _ => (some [sampleFlow], none)) (sampleWorld.trace ++ evs) (g :: rest') :=
  C115_example_partial ⟨.little, parseDotted⟩ sampleKernel sample_accepting (parseDotted_reads .little)
    (fun _ => (some [sampleFlow], none)) (f := sampleFlow) (rest := []) (c := sampleConn) sampleWorld rfl
    (by intro f hf; simp only [List.mem_singleton] at hf; subst hf; exact sampleFlow_v4) (by unfold Original; decide)
    (by unfold Mirrored; decide) (fun _ => ⟨sampleFlow, [], rfl⟩)
example : exampleMain ⟨.little, parseDotted⟩ sampleKernel (fun _ => (some [], none)) sampleWorld = .panic :=
  C115_empty_violated _ sampleKernel _ sampleWorld (.inl rfl)
example : exampleMain ⟨.little, parseDotted⟩ sampleKernel (fun _ => (some [natFlow], none)) sampleWorld =
    .ok (⟨0, none, natFlow⟩, sampleWorld) :=
  C115_nat_violated ⟨.little, parseDotted⟩ sampleKernel (parseDotted_reads .little) _ (c := sampleConn) (rest := [])
    sampleWorld rfl (by intro f hf; simp only [List.mem_singleton] at hf; subst hf; exact natFlow_v4)
    (by unfold Original; decide)
    (by intro f hf _; simp only [List.mem_singleton] at hf; subst hf; unfold Mirrored; decide)

end Verif.Props.Ct
