import Verif.Conntrack.Flows
import Verif.Props.ConntrackTableWorks
/-! C156, C157: `UDPFlowCreate` and the second example program. -/
namespace Verif.Props.Ct
open Verif.Conntrack Verif.Sys Verif.Spec Verif.Common

/-- What is sent. -/
def helloWorld : List Byte := "Hello World".toList.map fun c => BitVec.ofNat 8 c.toNat

/-- The address the flows are made from. -/
def localhost : List Char := "127.0.0.1".toList

/-- An address and a port, as a text: `host:port`. -/
def hostAndPort (host : List Char) (port : U64) : List Char := host ++ ":".toList ++ (toString port.toInt).toList

theorem hello_is : helloBytes = helloWorld := by decide
theorem loopback_is : loopback = localhost := by decide

theorem hostPort_is : hostPort = hostAndPort := by
  funext host port
  unfold hostPort hostAndPort
  rw [List.append_assoc]
  congr 1
  show ':' :: decText port = ':' :: (toString port.toInt).toList
  congr 1
  unfold decText Packet.itoa
  cases h : port.toInt with
  | ofNat n =>
    rw [if_neg (by simp)]
    show Nat.toDigits 10 n = (Nat.repr n).toList
    simp
  | negSucc n =>
    rw [if_pos (Int.negSucc_lt_zero n)]
    show '-' :: Nat.toDigits 10 (n + 1) = ("-" ++ Nat.repr (n + 1)).toList
    simp

/-- One flow: from `laddr` to `raddr` over connection `conn`; what the write answered does not matter. -/
structure MadeFlow where
  laddr : UDPAddr
  raddr : UDPAddr
  conn : Nat
  wrote : Option Err

/-- What is done for one flow: a socket, one datagram "Hello World", and the socket is closed. -/
def MadeFlow.events (f : MadeFlow) : List NEv :=
  [.dial f.laddr f.raddr (.ok f.conn), .write f.conn helloWorld f.wrote, .close f.conn none]

/-- The flows made, one after the other. -/
def made (fs : List MadeFlow) : List NEv := fs.flatMap MadeFlow.events

/-- How a flow can fail, with what was done for it: an address is not understood, there is no socket, or closing it fails. -/
inductive FailedFlow (net : Net) (srcPort : U64) (dstIP : List Char) (dstPort : U64) (i : Nat) (tr : List NEv) (e : Err) : List NEv → Prop
  | server : net.resolve tr (hostAndPort dstIP dstPort) = .error e → FailedFlow net srcPort dstIP dstPort i tr e []
  | source : net.resolve tr (hostAndPort localhost (srcPort + BitVec.ofNat 64 i)) = .error e → FailedFlow net srcPort dstIP dstPort i tr e []
  | dial {l r : UDPAddr} : net.resolve tr (hostAndPort localhost (srcPort + BitVec.ofNat 64 i)) = .ok l →
      net.resolve tr (hostAndPort dstIP dstPort) = .ok r → net.dial tr l r = .error e →
      FailedFlow net srcPort dstIP dstPort i tr e [.dial l r (.error e)]
  | close {l r : UDPAddr} {c : Nat} {x : Option Err} : net.resolve tr (hostAndPort localhost (srcPort + BitVec.ofNat 64 i)) = .ok l →
      net.resolve tr (hostAndPort dstIP dstPort) = .ok r → net.dial tr l r = .ok c →
      net.close (tr ++ [.dial l r (.ok c), .write c helloWorld x]) c = some e →
      FailedFlow net srcPort dstIP dstPort i tr e [.dial l r (.ok c), .write c helloWorld x, .close c (some e)]

theorem udpFlow_none {net : Net} {srcPort : U64} {dstIP : List Char} {dstPort : U64} {i : Nat} {tr tr' : List NEv}
    (h : udpFlow net srcPort dstIP dstPort i tr = (none, tr')) :
    ∃ f : MadeFlow, tr' = tr ++ f.events ∧ net.resolve tr (hostAndPort localhost (srcPort + BitVec.ofNat 64 i)) = .ok f.laddr ∧
      net.resolve tr (hostAndPort dstIP dstPort) = .ok f.raddr ∧ net.dial tr f.laddr f.raddr = .ok f.conn := by
  unfold udpFlow at h
  rw [hostPort_is, loopback_is, hello_is] at h
  split at h
  · cases h
  · rename_i server h1
    split at h
    · cases h
    · rename_i la h2
      split at h
      · cases h
      · rename_i c h3
        obtain ⟨g1, g2⟩ := Prod.mk.inj h
        rw [g1] at g2
        exact ⟨⟨la, server, c, _⟩, by rw [← g2]; simp only [List.append_assoc]; rfl, h2, h1, h3⟩

theorem udpFlow_some {net : Net} {srcPort : U64} {dstIP : List Char} {dstPort : U64} {i : Nat} {tr tr' : List NEv} {e : Err}
    (h : udpFlow net srcPort dstIP dstPort i tr = (some e, tr')) :
    ∃ last, tr' = tr ++ last ∧ FailedFlow net srcPort dstIP dstPort i tr e last := by
  unfold udpFlow at h
  rw [hostPort_is, loopback_is, hello_is] at h
  split at h
  · rename_i x h1
    cases h
    exact ⟨[], (List.append_nil _).symm, .server h1⟩
  · rename_i server h1
    split at h
    · rename_i x h2
      cases h
      exact ⟨[], (List.append_nil _).symm, .source h2⟩
    · rename_i la h2
      split at h
      · rename_i x h3
        cases h
        exact ⟨_, rfl, .dial h2 h1 h3⟩
      · rename_i c h3
        obtain ⟨g1, g2⟩ := Prod.mk.inj h
        rw [g1] at g2
        rw [List.append_assoc] at g1
        exact ⟨_, by rw [← g2, List.append_assoc, List.append_assoc]; rfl, .close h2 h1 h3 g1⟩

/-- What `UDPFlowCreate` does: the flows 0, 1, … one after the other, from consecutive ports, up to the first that fails. -/
def MakesFlows (net : Net) (n : Nat) (srcPort : U64) (dstIP : List Char) (dstPort : U64) (i : Nat) (tr tr' : List NEv) (r : Option Err) : Prop :=
  ∃ (fs : List MadeFlow) (last : List NEv), tr' = tr ++ made fs ++ last ∧
    (∀ j f, fs[j]? = some f →
      net.resolve (tr ++ made (fs.take j)) (hostAndPort localhost (srcPort + BitVec.ofNat 64 (i + j))) = .ok f.laddr ∧
      net.resolve (tr ++ made (fs.take j)) (hostAndPort dstIP dstPort) = .ok f.raddr ∧
      net.dial (tr ++ made (fs.take j)) f.laddr f.raddr = .ok f.conn) ∧
    (r = none → fs.length = n ∧ last = []) ∧
    (∀ e, r = some e → fs.length < n ∧ FailedFlow net srcPort dstIP dstPort (i + fs.length) (tr ++ made fs) e last)

theorem udpFlowLoop_makes (net : Net) (srcPort : U64) (dstIP : List Char) (dstPort : U64) : ∀ (n i : Nat) (tr : List NEv),
    MakesFlows net n srcPort dstIP dstPort i tr (udpFlowLoop net srcPort dstIP dstPort n i tr).2
      (udpFlowLoop net srcPort dstIP dstPort n i tr).1 := by
  intro n
  induction n with
  | zero =>
    intro i tr
    exact ⟨[], [], by simp [udpFlowLoop, made], fun j f h => by simp at h, fun _ => ⟨rfl, rfl⟩, fun e h => by cases h⟩
  | succ n ih =>
    intro i tr
    unfold udpFlowLoop
    rcases hf : udpFlow net srcPort dstIP dstPort i tr with ⟨_ | e, tr1⟩
    · obtain ⟨f, g1, g2, g3, g4⟩ := udpFlow_none hf
      obtain ⟨fs, last, k1, k2, k3, k4⟩ := ih (i + 1) tr1
      have hm : ∀ gs : List MadeFlow, tr ++ made (f :: gs) = tr1 ++ made gs := by
        intro gs
        rw [g1]
        simp [made]
      refine ⟨f :: fs, last, ?_, ?_, ?_, ?_⟩
      · rw [hm]; exact k1
      · intro j x hx
        rcases j with _ | j
        · cases hx
          simp only [List.take_zero, made, List.flatMap_nil, List.append_nil, Nat.add_zero]
          exact ⟨g2, g3, g4⟩
        · rw [List.take_succ_cons, hm]
          have := k2 j x hx
          rw [show i + (j + 1) = i + 1 + j by omega]
          exact this
      · intro h
        obtain ⟨a, b⟩ := k3 h
        exact ⟨by rw [List.length_cons, a], b⟩
      · intro e h
        obtain ⟨a, b⟩ := k4 e h
        refine ⟨by rw [List.length_cons]; omega, ?_⟩
        rw [hm, List.length_cons, show i + (fs.length + 1) = i + 1 + fs.length by omega]
        exact b
    · obtain ⟨last, g1, g2⟩ := udpFlow_some hf
      show MakesFlows net (n + 1) srcPort dstIP dstPort i tr tr1 (some e)
      refine ⟨[], last, by simp only [made, List.flatMap_nil, List.append_nil]; exact g1, fun j f h => by simp at h, (fun h => by cases h), fun e' h => ?_⟩
      cases h
      refine ⟨Nat.succ_pos _, ?_⟩
      simp only [made, List.flatMap_nil, List.append_nil]
      exact g2

/-- C156. `UDPFlowCreate` makes its flows one after the other, the `j`-th from port `srcPort + j` of 127.0.0.1, each with a socket of its own
that sends "Hello World" to the destination and is closed.  It returns nil exactly when all of them were made; otherwise it stops at the
first that fails and returns that error.  A number of flows of 0 or less makes none. -/
theorem C156_makes_flows (net : Net) (flows srcPort : U64) (dstIP : List Char) (dstPort : U64) (tr : List NEv) :
    MakesFlows net flows.toInt.toNat srcPort dstIP dstPort 0 tr (udpFlowCreate net flows srcPort dstIP dstPort tr).2
      (udpFlowCreate net flows srcPort dstIP dstPort tr).1 :=
  udpFlowLoop_makes net srcPort dstIP dstPort _ 0 tr

/-- The connections opened, in order. -/
def opened (evs : List NEv) : List Nat := evs.filterMap fun | .dial _ _ (.ok c) => some c | _ => none

/-- The connections closed, in order. -/
def closed (evs : List NEv) : List Nat := evs.filterMap fun | .close c _ => some c | _ => none

/-- C156: no socket stays open: every connection it opened it closed, once, before it opened the next, whatever failed. -/
theorem C156_no_leak (net : Net) (flows srcPort : U64) (dstIP : List Char) (dstPort : U64) (tr : List NEv) :
    ∃ evs, (udpFlowCreate net flows srcPort dstIP dstPort tr).2 = tr ++ evs ∧ closed evs = opened evs := by
  obtain ⟨fs, last, h1, _, h3, h4⟩ := C156_makes_flows net flows srcPort dstIP dstPort tr
  refine ⟨made fs ++ last, by rw [h1, List.append_assoc], ?_⟩
  have hm : ∀ fs : List MadeFlow, closed (made fs) = opened (made fs) := by
    intro fs
    induction fs with
    | nil => rfl
    | cons f fs ih =>
      unfold closed opened made at *
      rw [List.flatMap_cons, List.filterMap_append, List.filterMap_append, ih]
      rfl
  have hl : closed last = opened last := by
    rcases hr : (udpFlowCreate net flows srcPort dstIP dstPort tr).1 with _ | e
    · rw [(h3 hr).2]; rfl
    · cases (h4 e hr).2 <;> rfl
  have ha : ∀ a b, closed (a ++ b) = closed a ++ closed b := fun a b => List.filterMap_append
  have hb : ∀ a b, opened (a ++ b) = opened a ++ opened b := fun a b => List.filterMap_append
  rw [ha, hb, hm, hl]

/-- The flows a machine on which nothing fails makes: from ports `srcPort`, `srcPort + 1`, … -/
theorem C156_works (net : Net) (n srcPort : Nat) (dstIP : List Char) (dstPort : U64) (tr : List NEv) (server : UDPAddr)
    (hn : n < 2 ^ 63) (hp : srcPort + n ≤ 65536)
    (hserver : ∀ t, net.resolve t (hostAndPort dstIP dstPort) = .ok server)
    (hlocal : ∀ t port, port < 65536 → net.resolve t (hostAndPort localhost (BitVec.ofNat 64 port)) = .ok ⟨[127, 0, 0, 1], port⟩)
    (hdial : ∀ t l r, ∃ c, net.dial t l r = .ok c) (hclose : ∀ t c, net.close t c = none) :
    ∃ fs : List MadeFlow, udpFlowCreate net (BitVec.ofNat 64 n) (BitVec.ofNat 64 srcPort) dstIP dstPort tr = (none, tr ++ made fs) ∧
      fs.map (fun f => (f.laddr, f.raddr)) = (List.range n).map fun j => (⟨[127, 0, 0, 1], srcPort + j⟩, server) := by
  have small : ∀ x : Nat, x < 2 ^ 63 → (BitVec.ofNat 64 x).toInt = x := by
    intro x hx
    rw [BitVec.toInt_eq_toNat_of_lt (by rw [BitVec.toNat_ofNat]; omega), BitVec.toNat_ofNat, Nat.mod_eq_of_lt (by omega)]
  have hloc : ∀ t j, j < n → net.resolve t (hostAndPort localhost (BitVec.ofNat 64 srcPort + BitVec.ofNat 64 j)) = .ok ⟨[127, 0, 0, 1], srcPort + j⟩ := by
    intro t j hj
    rw [← BitVec.ofNat_add]
    exact hlocal t _ (by omega)
  obtain ⟨fs, last, h1, h2, h3, h4⟩ := C156_makes_flows net (BitVec.ofNat 64 n) (BitVec.ofNat 64 srcPort) dstIP dstPort tr
  rw [small n hn] at h3 h4
  have hr : (udpFlowCreate net (BitVec.ofNat 64 n) (BitVec.ofNat 64 srcPort) dstIP dstPort tr).1 = none := by
    rcases hr : (udpFlowCreate net (BitVec.ofNat 64 n) (BitVec.ofNat 64 srcPort) dstIP dstPort tr).1 with _ | e
    · rfl
    · exfalso
      obtain ⟨a, b⟩ := h4 e hr
      rw [Nat.zero_add] at b
      have hfl : fs.length < n := a
      have k1 := hloc (tr ++ made fs) fs.length hfl
      have k2 := hserver (tr ++ made fs)
      cases b with
      | server x => rw [x] at k2; cases k2
      | source x => rw [x] at k1; cases k1
      | @dial l r _ _ x =>
        obtain ⟨c, hc⟩ := hdial (tr ++ made fs) l r
        rw [hc] at x; cases x
      | close _ _ _ x => rw [hclose] at x; cases x
  obtain ⟨a, b⟩ := h3 hr
  have a : fs.length = n := a
  refine ⟨fs, Prod.ext hr (by rw [h1, b, List.append_nil]), ?_⟩
  apply List.ext_getElem?
  intro j
  rw [List.getElem?_map, List.getElem?_map]
  by_cases hj : j < n
  · obtain ⟨f, hf⟩ : ∃ f, fs[j]? = some f := ⟨_, List.getElem?_eq_getElem (by omega)⟩
    obtain ⟨q1, q2, _⟩ := h2 j f hf
    rw [Nat.zero_add, hloc _ j hj] at q1
    rw [hserver] at q2
    rw [hf, List.getElem?_range hj, Option.map_some, Option.map_some, Except.ok.inj q1, Except.ok.inj q2]
  · rw [List.getElem?_eq_none (by omega), List.getElem?_eq_none (by rw [List.length_range]; omega)]
    rfl

/-- C156 on a concrete machine: the five flows of the example program. -/
def plainNet : Net where
  resolve := fun _ s => .ok ⟨[127, 0, 0, 1], ((s.dropWhile (· ≠ ':')).drop 1).foldl (fun n c => 10 * n + (c.toNat - 48)) 0⟩
  dial := fun tr _ _ => .ok tr.length
  write := fun _ _ => none
  close := fun _ _ => none

/-- C156: five flows, from ports 2000 to 2004. -/
theorem C156_example : ∃ fs : List MadeFlow, udpFlowCreate plainNet 5 2000 ['1', '2', '7', '.', '0', '.', '0', '.', '1', '0'] 3000 [] =
      (none, made fs) ∧ fs.map (fun f => (f.laddr.port, f.raddr.port)) = [(2000, 3000), (2001, 3000), (2002, 3000), (2003, 3000), (2004, 3000)] :=
  ⟨[⟨⟨[127, 0, 0, 1], 2000⟩, ⟨[127, 0, 0, 1], 3000⟩, 0, none⟩, ⟨⟨[127, 0, 0, 1], 2001⟩, ⟨[127, 0, 0, 1], 3000⟩, 3, none⟩,
    ⟨⟨[127, 0, 0, 1], 2002⟩, ⟨[127, 0, 0, 1], 3000⟩, 6, none⟩, ⟨⟨[127, 0, 0, 1], 2003⟩, ⟨[127, 0, 0, 1], 3000⟩, 9, none⟩,
    ⟨⟨[127, 0, 0, 1], 2004⟩, ⟨[127, 0, 0, 1], 3000⟩, 12, none⟩], by rfl, rfl⟩

/-- The connection the second example program marks. -/
def example2Conn : Conn := ⟨[10, 0, 2, 15], [10, 0, 2, 2], 6, 22, 57766⟩

/-- C157. The second example program, on a machine that keeps a connection table into which, or not, the flows it makes get entered: it makes its
five flows or stops at the first that fails (C156), and then, whatever became of them, sets the mark of the connection 10.0.2.15:22 →
10.0.2.2:57766 to 24 and changes nothing else in the table as the flows have left it.  It logs the error of the flows, if there was one, and
ENOENT exactly if that connection is not in the table. -/
theorem C157_second_example {env : Env} (net : Net) {K : List NEv → Kernel CEv} {tab : List NEv → List (Ev CEv) → Table}
    (hK : ∀ nt, KeepsTable env.e (K nt) (tab nt)) (hU : ∀ nt, Undisturbed (tab nt)) (hW : ∀ nt, Works (K nt))
    (hs : IsV4 (env.parseIP "10.0.2.15") [10, 0, 2, 15]) (hd : IsV4 (env.parseIP "10.0.2.2") [10, 0, 2, 2]) (nt : List NEv) (w : W) :
    ∃ logged nt' w' flows, example2Main env net K nt w = .ok (logged, nt', w') ∧
      MakesFlows net 5 2000 ['1', '2', '7', '.', '0', '.', '0', '.', '1', '0'] 3000 0 nt nt' flows ∧
      tab nt' w'.trace = (tab nt' w.trace).setMark example2Conn 24 ∧
      (((tab nt' w.trace).Has example2Conn ∧ logged = flows.toList) ∨
        (¬ (tab nt' w.trace).Has example2Conn ∧ logged = flows.toList ++ [Err.netlink (-2)])) := by
  have hm := C156_makes_flows net 5 2000 ['1', '2', '7', '.', '0', '.', '0', '.', '1', '0'] 3000 nt
  obtain ⟨r, w', e, h1, h2⟩ := C129_mark_exact (hK (udpFlowCreate net 5 2000 ['1', '2', '7', '.', '0', '.', '0', '.', '1', '0'] 3000 nt).2)
    (hU _) (hW _) (p := 6) (sp := 22) (dp := 57766) (c := example2Conn) 24 ⟨hs, hd, rfl, rfl, rfl⟩ w
  rcases h2 with ⟨a, rfl⟩ | ⟨a, rfl⟩
  · exact ⟨_, _, w', _, by unfold example2Main; simp only [e, Res.ok_bind]; rfl, hm, h1, .inl ⟨a, List.append_nil _⟩⟩
  · exact ⟨_, _, w', _, by unfold example2Main; simp only [e, Res.ok_bind]; rfl, hm, h1, .inr ⟨a, rfl⟩⟩

/-- C157: the hypotheses are met by the machine that keeps the table of entries `t0` (and that makes no entries for the flows to loopback). -/
theorem C157_met {env : Env} (t0 : Table) (hs : IsV4 (env.parseIP "10.0.2.15") [10, 0, 2, 15])
    (hd : IsV4 (env.parseIP "10.0.2.2") [10, 0, 2, 2]) : ∃ logged nt' w',
    example2Main env plainNet (fun _ => tableKernel env.e t0) [] ⟨[], ⟨[]⟩, ()⟩ = .ok (logged, nt', w') ∧
      replay env.e t0 w'.trace = t0.setMark example2Conn 24 ∧
      (t0.Has example2Conn → logged = []) ∧ (¬ t0.Has example2Conn → logged = [Err.netlink (-2)]) := by
  obtain ⟨k1, k2, k3, k4⟩ := tableKernel_keeps env.e t0
  obtain ⟨logged, nt', w', flows, g1, g2, g3, g4⟩ := C157_second_example plainNet (K := fun _ => tableKernel env.e t0)
    (tab := fun _ => replay env.e t0) (fun _ => k1) (fun _ => k2) (fun _ => k3) hs hd [] ⟨[], ⟨[]⟩, ()⟩
  have k4' : replay env.e t0 (⟨[], ⟨[]⟩, ()⟩ : W).trace = t0 := k4
  rw [k4'] at g3 g4
  have hf : flows = none := by
    obtain ⟨fs, last, h1, h2, h3, h4⟩ := g2
    rcases flows with _ | e
    · rfl
    · exfalso
      obtain ⟨_, b⟩ := h4 e rfl
      cases b with
      | server x => cases x
      | source x => cases x
      | dial _ _ x => cases x
      | close _ _ _ x => cases x
  subst hf
  refine ⟨logged, nt', w', g1, g3, fun h => ?_, fun h => ?_⟩
  · rcases g4 with ⟨_, g⟩ | ⟨g, _⟩
    · exact g
    · exact absurd h g
  · rcases g4 with ⟨g, _⟩ | ⟨_, g⟩
    · exact absurd g h
    · exact g

end Verif.Props.Ct
