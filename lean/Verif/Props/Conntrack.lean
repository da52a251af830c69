import Verif.Conntrack.Exec
/-!
Properties C39–C46, C78: the connection tracking calls.

For every kernel, every world, both byte orders, and every `net.ParseIP`.
-/
namespace Verif.Props.Ct
open Verif.Common Verif.Sys Verif.Spec Verif.Conntrack

/-! ### Consequences of the vocabulary -/

theorem bytes16_inj {a b : U16} (h : bytes16 .big a.toNat = bytes16 .big b.toNat) : a = b := by
  rw [bytes16_eq, bytes16_eq, BitVec.ofNat_toNat, BitVec.ofNat_toNat, BitVec.setWidth_eq, BitVec.setWidth_eq] at h
  have h1 : dec16 .big (enc16 .big a) = .ok a := by simp [enc16, dec16]
  have h2 : dec16 .big (enc16 .big b) = .ok b := by simp [enc16, dec16]
  rw [h, h2] at h1
  cases h1; rfl

theorem bytes32_inj {a b : U32} (h : bytes32 .big a.toNat = bytes32 .big b.toNat) : a = b := by
  rw [bytes32_eq, bytes32_eq, BitVec.ofNat_toNat, BitVec.ofNat_toNat, BitVec.setWidth_eq, BitVec.setWidth_eq] at h
  have h1 := NfQueue.num32_enc32_big a []
  have h2 := NfQueue.num32_enc32_big b []
  rw [h] at h1
  rw [h1] at h2
  exact BitVec.eq_of_toNat_eq (by simpa using h2)

theorem tupleIs_unique {e : Endian} {p : List Byte} {c c' : Conn} (h : TupleIs e p c) (h' : TupleIs e p c') :
    c = c' := by
  obtain ⟨ip, pr, h1, h2, h3⟩ := h
  obtain ⟨ip', pr', h1', h2', h3'⟩ := h'
  rw [h1] at h1'
  simp only [Option.some.injEq, List.cons.injEq, Attr.mk.injEq, true_and, and_true] at h1'
  obtain ⟨rfl, rfl⟩ := h1'
  rw [h2] at h2'
  rw [h3] at h3'
  simp only [Option.some.injEq, List.cons.injEq, Attr.mk.injEq, true_and, and_true] at h2' h3'
  rcases c with ⟨a, b, p, s, d⟩
  rcases c' with ⟨a', b', p', s', d'⟩
  obtain ⟨h, h'⟩ := h2'
  obtain ⟨k, k', k''⟩ := h3'
  cases h; cases h'; cases k; cases bytes16_inj k'; cases bytes16_inj k''
  rfl

theorem updateIs_unique {e : Endian} {b : List Byte} {c c' : Conn} {x x' : List Attr} (h : UpdateIs e b c x)
    (h' : UpdateIs e b c' x') : c = c' ∧ x = x' := by
  obtain ⟨t, h1, h2⟩ := h
  obtain ⟨t', h1', h2'⟩ := h'
  rw [h1] at h1'
  simp only [Option.some.injEq, NfMsg.mk.injEq, List.cons.injEq, Attr.mk.injEq, true_and] at h1'
  obtain ⟨rfl, rfl⟩ := h1'
  exact ⟨tupleIs_unique h2 h2', rfl⟩

/-- An exchange opens its own socket first and closes it last; in between nothing is opened or closed. -/
def OwnSocket (evs : List (Ev CEv)) : Prop :=
  ∃ fd mid cl, evs = .socket 16 3 12 (.ok fd) :: (mid ++ cl) ∧ CloseEvs fd cl ∧
    ∀ ev ∈ mid, isClose ev = false ∧ isSocket ev = false

theorem queryOut_events {e : Endian} {fd : Nat} {b : List Byte} {r : Option Err} {q : List (Ev CEv)}
    (h : QueryOut e fd b r q) : ∀ ev ∈ q, isTransfer ev = true ∧
      ∀ fd' b' x y, ev = .sendto fd' b' x y → b' = b := by
  intro ev hm
  have hs : ∀ {r' evs}, SendEvs fd b r' evs → ev ∈ evs → isTransfer ev = true ∧
      ∀ fd' b' x y, ev = .sendto fd' b' x y → b' = b := by
    intro r' evs hse hme
    obtain ⟨x, rfl⟩ := hse.mem ev hme
    refine ⟨rfl, ?_⟩
    intro _ _ _ _ h
    cases h; rfl
  cases h with
  | sendFailed h => exact hs h hm
  | recvFailed h =>
    rcases List.mem_append.mp hm with h' | h'
    · exact hs h h'
    · simp only [List.mem_singleton] at h'
      subst h'
      exact ⟨rfl, fun _ _ _ _ h => by cases h⟩
  | replied h _ _ _ =>
    rcases List.mem_append.mp hm with h' | h'
    · exact hs h h'
    · simp only [List.mem_singleton] at h'
      subst h'
      exact ⟨rfl, fun _ _ _ _ h => by cases h⟩

theorem bindEvs_not_send {fd : Nat} {r : Option Nat} {evs : List (Ev CEv)} (h : BindEvs fd r evs) :
    ∀ ev ∈ evs, ∀ fd' b x y, ev ≠ .sendto fd' b x y := by
  intro ev hm
  rcases h with ⟨_, rfl⟩ | ⟨e1, rfl⟩ <;> simp at hm
  · subst hm; intros; simp
  · rcases hm with rfl | rfl <;> intros <;> simp

theorem closeEvs_not_send {fd : Nat} {evs : List (Ev CEv)} (h : CloseEvs fd evs) :
    ∀ ev ∈ evs, ∀ fd' b x y, ev ≠ .sendto fd' b x y := by
  intro ev hm
  rcases h with rfl | ⟨e1, r, rfl⟩ <;> simp at hm
  · subst hm; intros; simp
  · rcases hm with rfl | rfl <;> intros <;> simp

theorem exchange_own {e : Endian} {req : List Byte → Prop} {r : Option Err} {evs : List (Ev CEv)}
    (h : Exchange e req r evs) : OwnSocket evs := by
  obtain ⟨b, fd, bnd, q, cl, _, rfl, hb, hq, hc⟩ := h
  refine ⟨fd, bnd ++ q, cl, rfl, hc, ?_⟩
  intro ev hm
  rcases List.mem_append.mp hm with h | h
  · exact ⟨(hb.clean ev h).1, (hb.clean ev h).2.2⟩
  · have := isTransfer_not (queryOut_events hq ev h).1
    exact ⟨this.1, this.2.2.1⟩

theorem exchange_sends {e : Endian} {req : List Byte → Prop} {r : Option Err} {evs : List (Ev CEv)}
    (h : Exchange e req r evs) : ∀ fd b x y, .sendto fd b x y ∈ evs → req b := by
  obtain ⟨b, fd, bnd, q, cl, hreq, rfl, hb, hq, hc⟩ := h
  intro fd' b' x y hm
  simp only [List.mem_cons, reduceCtorEq, List.mem_append, false_or] at hm
  rcases hm with (hm | hm) | hm
  · exact absurd rfl (bindEvs_not_send hb _ hm _ _ _ _)
  · rw [(queryOut_events hq _ hm).2 _ _ _ _ rfl]; exact hreq
  · exact absurd rfl (closeEvs_not_send hc _ hm _ _ _ _)

theorem updates_sends {e : Endian} {req : List Byte → Prop} {k : Nat} {r : Option Err} {evs : List (Ev CEv)}
    (h : Updates e req k r evs) : ∀ fd b x y, .sendto fd b x y ∈ evs → req b := by
  induction h with
  | nil => intro _ _ _ _ h; simp at h
  | cons h _ ih =>
    intro fd b x y hm
    rcases List.mem_append.mp hm with h' | h'
    · exact exchange_sends h fd b x y h'
    · exact ih fd b x y h'
  | stop h => exact exchange_sends h

/-- Requests one after the other, each on its own socket. -/
theorem updates_own {e : Endian} {req : List Byte → Prop} {k : Nat} {r : Option Err} {evs : List (Ev CEv)}
    (h : Updates e req k r evs) :
    ∃ gs : List (List (Ev CEv)), evs = gs.flatten ∧ (∀ g ∈ gs, OwnSocket g) ∧ gs.length ≤ k ∧
      (r = none → gs.length = k) := by
  induction h with
  | nil => exact ⟨[], rfl, by simp, by simp, by simp⟩
  | cons h _ ih =>
    obtain ⟨gs, rfl, hg, hl, hn⟩ := ih
    refine ⟨_ :: gs, by simp; rfl, ?_, by simpa using hl, fun h => by simp [hn h]⟩
    intro g hm
    simp only [List.mem_cons] at hm
    rcases hm with rfl | hm
    · exact exchange_own h
    · exact hg g hm
  | stop h =>
    refine ⟨[_], by simp; rfl, ?_, by simp, by simp⟩
    intro g hm
    simp only [List.mem_singleton] at hm
    subst hm
    exact exchange_own h

/-! ### A concrete world -/

/-- Reads two literals. -/
def sampleEnv : Env := ⟨.little, fun s =>
  if s = "10.0.0.1" then List.replicate 10 0 ++ [0xff, 0xff, 10, 0, 0, 1]
  else if s = "10.0.0.2" then List.replicate 10 0 ++ [0xff, 0xff, 10, 0, 0, 2]
  else if s = "::1" then List.replicate 15 0 ++ [1] else []⟩
def sampleConn : Conn := ⟨[10, 0, 0, 1], [10, 0, 0, 2], 17, 1000, 53⟩
def sampleFlow : Flow := ⟨⟨[10, 0, 0, 1], [10, 0, 0, 2], 17, 1000, 53⟩,
  ⟨List.replicate 10 0 ++ [0xff, 0xff, 10, 0, 0, 2], [10, 0, 0, 1], 17, 53, 1000⟩⟩
def otherFlow : Flow := ⟨⟨[10, 0, 0, 1], [10, 0, 0, 2], 17, 1000, 54⟩, ⟨[10, 0, 0, 2], [10, 0, 0, 1], 17, 54, 1000⟩⟩
/-- An NLMSG_ERROR with code 0. -/
def sampleAck : List Byte := [36, 0, 0, 0, 2, 0, 0, 0, 0, 0, 0, 0, 0, 0, 0, 0, 0, 0, 0, 0]
def sampleKernel : Kernel CEv := ⟨fun _ => .ok 7, fun _ _ => none, fun _ _ => none, fun _ _ => none,
  fun _ _ _ => none, fun _ _ => .ok sampleAck⟩
def sampleWorld : W := ⟨[], ⟨[]⟩, ()⟩

theorem sample_names : Names sampleEnv "10.0.0.1" "10.0.0.2" 17 1000 53 sampleConn := by
  unfold Names; decide
theorem sample_proper : Proper sampleKernel := by
  refine ⟨fun _ => ⟨7, rfl⟩, fun _ _ => rfl, ?_⟩
  intro tr fd d h
  cases h
  right; decide
theorem sample_accepting : Accepting .little sampleKernel sampleAck := by
  refine ⟨fun _ => ⟨7, rfl⟩, fun _ _ => rfl, fun _ _ _ => rfl, fun _ _ => rfl, by decide, ?_⟩
  intro n hn
  rw [List.take_of_length_le (by exact hn)]
  unfold Refusal; decide
theorem sampleFlow_v4 : V4Flow sampleFlow :=
  ⟨⟨[10, 0, 0, 1], by decide⟩, ⟨[10, 0, 0, 2], by decide⟩, ⟨[10, 0, 0, 2], by decide⟩, ⟨[10, 0, 0, 1], by decide⟩⟩
theorem otherFlow_v4 : V4Flow otherFlow :=
  ⟨⟨[10, 0, 0, 1], by decide⟩, ⟨[10, 0, 0, 2], by decide⟩, ⟨[10, 0, 0, 2], by decide⟩, ⟨[10, 0, 0, 1], by decide⟩⟩

/-! ### C39 -/

/-- C39: whatever the kernel does, a mark update that returns has done one exchange, over a request that is exactly an
update of the named connection with that mark; and it returned what the exchange resulted in. -/
theorem C39_mark_update (env : Env) (K : Kernel CEv) {ipSrc ipDst : String} {p : Byte} {sp dp : U16} {c : Conn}
    (mark : U32) (h : Names env ipSrc ipDst p sp dp c) (w w' : W) (r : Option Err)
    (hr : updateMark env K ipSrc ipDst p sp dp mark w = .ok (r, w')) :
    ∃ evs, Exchange env.e (MarkReq env.e c mark) r evs ∧ w' = { w with trace := w.trace ++ evs } := by
  unfold updateMark at hr
  simp only [GoM.bind_apply, GoM.lift_apply, markMessage_eq env mark h.taken, Res.ok_bind] at hr
  obtain ⟨hs, hd⟩ := names_len h.taken
  exact sendMessage_spec env K _ _ w w' r (markReq_ok env.e hs hd mark) hr

/-- C39: the request cannot be read as naming another connection or another mark. -/
theorem C39_unambiguous {e : Endian} {b : List Byte} {c c' : Conn} {m m' : U32} (h : MarkReq e c m b)
    (h' : MarkReq e c' m' b) : c = c' ∧ m = m' := by
  obtain ⟨h1, h2⟩ := updateIs_unique h h'
  simp only [List.cons.injEq, Attr.mk.injEq, true_and, and_true] at h2
  exact ⟨h1, bytes32_inj h2⟩

/-- C39: it returns whenever sockets can be opened and replies are not 16 to 19 bytes long. -/
theorem C39_returns (env : Env) (K : Kernel CEv) (hK : Proper K) {ipSrc ipDst : String} {p : Byte} {sp dp : U16}
    {c : Conn} (mark : U32) (h : Names env ipSrc ipDst p sp dp c) (w : W) :
    ∃ r w', updateMark env K ipSrc ipDst p sp dp mark w = .ok (r, w') := by
  unfold updateMark
  simp only [GoM.bind_apply, GoM.lift_apply, markMessage_eq env mark h.taken, Res.ok_bind]
  exact sendMessage_returns env K _ _ w (by simp) hK

/-- C39: it succeeds on a kernel that accepts and acknowledges. -/
theorem C39_succeeds (env : Env) (K : Kernel CEv) {d : List Byte} (hK : Accepting env.e K d) {ipSrc ipDst : String}
    {p : Byte} {sp dp : U16} {c : Conn} (mark : U32) (h : Names env ipSrc ipDst p sp dp c) (w : W) :
    ∃ w', updateMark env K ipSrc ipDst p sp dp mark w = .ok (none, w') := by
  unfold updateMark
  simp only [GoM.bind_apply, GoM.lift_apply, markMessage_eq env mark h.taken, Res.ok_bind]
  exact sendMessage_succeeds env K _ _ w (by simp) hK

example : ∃ w', updateMark sampleEnv sampleKernel "10.0.0.1" "10.0.0.2" 17 1000 53 9 sampleWorld = .ok (none, w') :=
  C39_succeeds sampleEnv sampleKernel sample_accepting 9 sample_names sampleWorld

/-! ### C41 -/

/-- C41: among IPv4 flows, a flow is considered present exactly when its forward tuple is the named connection and its
reverse tuple the mirror image. -/
theorem C41_exact_partial (env : Env) {ipSrc ipDst : String} {p : Byte} {sp dp : U16} {c : Conn} {f : Flow}
    (h : Names env ipSrc ipDst p sp dp c) (hf : V4Flow f) :
    ∃ b, checkTuplesInFlow env f ipSrc ipDst p sp dp = .ok b ∧ (b = true ↔ FlowOf f c) :=
  ⟨_, check_v4 env h hf, by simp⟩

/-- C41, violated: a flow between 16-byte addresses that are not IPv4 addresses is considered present as soon as the last
four bytes agree. -/
theorem C41_ipv6_violated (env : Env) {ipSrc ipDst : String} {p : Byte} {sp dp : U16} {c : Conn} {f : Flow}
    (h : Names env ipSrc ipDst p sp dp c)
    (h1 : f.forward.srcIP.length = 16 ∧ f.forward.srcIP.drop 12 = c.src)
    (h2 : f.forward.dstIP.length = 16 ∧ f.forward.dstIP.drop 12 = c.dst)
    (h3 : f.reverse.srcIP.length = 16 ∧ f.reverse.srcIP.drop 12 = c.dst)
    (h4 : f.reverse.dstIP.length = 16 ∧ f.reverse.dstIP.drop 12 = c.src)
    (h5 : f.forward.protocol = c.proto ∧ f.reverse.protocol = c.proto)
    (h6 : f.forward.srcPort = c.sport ∧ f.reverse.srcPort = c.dport)
    (h7 : f.forward.dstPort = c.dport ∧ f.reverse.dstPort = c.sport) :
    checkTuplesInFlow env f ipSrc ipDst p sp dp = .ok true := by
  obtain ⟨⟨_, hs⟩, ⟨_, hd⟩, rfl, rfl, rfl⟩ := h.taken
  unfold checkTuplesInFlow sameIP
  rw [ip2int_16 h1.1, ip2int_16 h2.1, ip2int_16 h3.1, ip2int_16 h4.1, hs, hd, h1.2, h2.2, h3.2, h4.2]
  simp only [Res.ok_bind, beq_self_eq_true, andThen_ok, h5, h6, h7, Bool.and_true]

/-- The last four bytes of an address. -/
def lastFour (ip : List Byte) : List Byte := ip.drop (ip.length - 4)

/-- An address as the net package represents one: 4 or 16 bytes. -/
def IsIP (ip : List Byte) : Prop := ip.length = 4 ∨ ip.length = 16

instance (ip : List Byte) : Decidable (IsIP ip) := by unfold IsIP; infer_instance

theorem lastFour_length {ip : List Byte} (h : IsIP ip) : (lastFour ip).length = 4 := by
  unfold lastFour
  rw [List.length_drop]
  rcases h with h | h <;> omega

theorem ip2int_lastFour {ip : List Byte} (h : IsIP ip) : ip2int ip = .ok (v4num (lastFour ip)) := by
  rcases h with h | h
  · have : lastFour ip = ip := by unfold lastFour; rw [h]; rfl
    rw [this]
    exact ip2int_v4 ⟨h, .inl rfl⟩
  · have : lastFour ip = ip.drop 12 := by unfold lastFour; rw [h]
    rw [this]
    exact ip2int_16 h

theorem sameIP_lastFour (env : Env) {ip : List Byte} {s : String} (h : IsIP ip) (hs : IsIP (env.parseIP s)) :
    sameIP env ip s = .ok (decide (lastFour ip = lastFour (env.parseIP s))) := by
  unfold sameIP
  rw [ip2int_lastFour h, ip2int_lastFour hs]
  simp only [Res.ok_bind]
  congr 1
  rw [Bool.eq_iff_iff, beq_iff_eq, decide_eq_true_eq]
  exact ⟨v4num_inj (lastFour_length h) (lastFour_length hs), fun h => by rw [h]⟩

/-- C41, what the code does for addresses of either family: a flow is considered present exactly when ports and protocol
match in both directions and the *last four bytes* of all addresses do. -/
theorem C41_compares_last_four_bytes (env : Env) {ipSrc ipDst : String} {p : Byte} {sp dp : U16} {f : Flow}
    (hs : IsIP (env.parseIP ipSrc)) (hd : IsIP (env.parseIP ipDst)) (h1 : IsIP f.forward.srcIP)
    (h2 : IsIP f.forward.dstIP) (h3 : IsIP f.reverse.srcIP) (h4 : IsIP f.reverse.dstIP) :
    ∃ b, checkTuplesInFlow env f ipSrc ipDst p sp dp = .ok b ∧ (b = true ↔
      (lastFour f.forward.srcIP = lastFour (env.parseIP ipSrc) ∧ lastFour f.forward.dstIP = lastFour (env.parseIP ipDst) ∧
        f.forward.protocol = p ∧ f.forward.srcPort = sp ∧ f.forward.dstPort = dp) ∧
      (lastFour f.reverse.srcIP = lastFour (env.parseIP ipDst) ∧ lastFour f.reverse.dstIP = lastFour (env.parseIP ipSrc) ∧
        f.reverse.protocol = p ∧ f.reverse.srcPort = dp ∧ f.reverse.dstPort = sp)) := by
  unfold checkTuplesInFlow
  rw [sameIP_lastFour env h1 hs, sameIP_lastFour env h2 hd, sameIP_lastFour env h3 hd, sameIP_lastFour env h4 hs,
    andThen_ok, andThen_ok]
  simp only [Res.ok_bind]
  refine ⟨_, rfl, ?_⟩
  simp only [Bool.and_eq_true, decide_eq_true_eq, beq_iff_eq]
  constructor
  · rintro ⟨⟨⟨⟨⟨a, b⟩, d, e⟩, g, h⟩, i, j⟩, k, l⟩
    exact ⟨⟨a, d, k, g, i⟩, b, e, l, h, j⟩
  · rintro ⟨⟨a, d, k, g, i⟩, b, e, l, h, j⟩
    exact ⟨⟨⟨⟨⟨a, b⟩, d, e⟩, g, h⟩, i, j⟩, k, l⟩

/-- C41: an address of a flow that is missing or cut (fewer than 4 bytes) crashes the call. -/
theorem C41_short_address_crashes (env : Env) {ipSrc ipDst : String} {p : Byte} {sp dp : U16} {f : Flow}
    (h1 : f.forward.srcIP.length < 4) : checkTuplesInFlow env f ipSrc ipDst p sp dp = .panic := by
  have : ip2int f.forward.srcIP = .panic := by
    unfold ip2int
    rw [if_neg (by omega)]
    match f.forward.srcIP, h1 with
    | [], _ => rfl
    | [_], _ => rfl
    | [_, _], _ => rfl
    | [_, _, _], _ => rfl
  unfold checkTuplesInFlow sameIP
  rw [this]
  rfl

/-- Such a flow. -/
def v6Flow : Flow := ⟨⟨List.replicate 12 0x20 ++ [10, 0, 0, 1], List.replicate 12 0x20 ++ [10, 0, 0, 2], 17, 1000, 53⟩,
  ⟨List.replicate 12 0x20 ++ [10, 0, 0, 2], List.replicate 12 0x20 ++ [10, 0, 0, 1], 17, 53, 1000⟩⟩

example : checkTuplesInFlow sampleEnv v6Flow "10.0.0.1" "10.0.0.2" 17 1000 53 = .ok true ∧
    ¬ FlowOf v6Flow sampleConn :=
  ⟨C41_ipv6_violated sampleEnv sample_names (by decide) (by decide) (by decide) (by decide) (by decide) (by decide)
    (by decide), by decide⟩
example : ∃ b, checkTuplesInFlow sampleEnv sampleFlow "10.0.0.1" "10.0.0.2" 17 1000 53 = .ok b ∧
    (b = true ↔ FlowOf sampleFlow sampleConn) := C41_exact_partial sampleEnv sample_names sampleFlow_v4
example : FlowOf sampleFlow sampleConn ∧ ¬ FlowOf otherFlow sampleConn := by decide
example : ∃ b, checkTuplesInFlow sampleEnv v6Flow "10.0.0.1" "10.0.0.2" 17 1000 53 = .ok b :=
  (fun ⟨b, h⟩ => ⟨b, h.1⟩) <| C41_compares_last_four_bytes sampleEnv (by decide) (by decide) (by decide) (by decide) (by decide) (by decide)
example : checkTuplesInFlow sampleEnv ⟨⟨[], [], 17, 1000, 53⟩, ⟨[], [], 17, 53, 1000⟩⟩ "10.0.0.1" "10.0.0.2" 17 1000 53 =
    .panic := C41_short_address_crashes sampleEnv (by decide)

/-! ### C42 -/

/-- C42: a bulk mark update with a non-zero mark that returns has sent one request per matching flow, up to and including
the first that failed; it returns their number and nil, or 0 and the error of that one behind the text "Error ". -/
theorem C42_bulk_mark (env : Env) (K : Kernel CEv) {ipSrc ipDst : String} {p : Byte} {sp dp : U16} {c : Conn}
    {mark : U32} (h : Names env ipSrc ipDst p sp dp c) (hm : mark ≠ 0) (flows : List Flow) (hf : ∀ f ∈ flows, V4Flow f)
    (n : Int) (r : Option Err) (w w' : W)
    (hr : updateMarkForAvailableFlow env K flows ipSrc ipDst p sp dp mark w = .ok ((n, r), w')) :
    ∃ first evs, Updates env.e (MarkReq env.e c mark) (matching flows c) first evs ∧
      w' = { w with trace := w.trace ++ evs } ∧ r = first.map (.wrap "Error %v") ∧
      n = if r = none then (matching flows c : Int) else 0 := by
  obtain ⟨k, e, hl, rfl, rfl⟩ := bulkMark_ok env K flows ipSrc ipDst p sp dp mark w w' n r hr
  obtain ⟨evs, h1, h2, h3⟩ := markLoop_spec env K h hm flows 0 k e w w' hf hl
  refine ⟨e, evs, h1, h2, rfl, ?_⟩
  rcases e with _ | err
  · rw [if_pos rfl] at h3
    simp only [if_true, Option.map_none]
    omega
  · simp

/-- C42: with mark 0 nothing is sent and (0, nil) is returned. -/
theorem C42_mark_zero (env : Env) (K : Kernel CEv) {ipSrc ipDst : String} {p : Byte} {sp dp : U16} {c : Conn}
    (h : Names env ipSrc ipDst p sp dp c) (flows : List Flow) (hf : ∀ f ∈ flows, V4Flow f) (w : W) :
    updateMarkForAvailableFlow env K flows ipSrc ipDst p sp dp 0 w = .ok ((0, none), w) := by
  refine bulkMark_eq env K flows ipSrc ipDst p sp dp 0 w w 0 none ?_
  induction flows with
  | nil => rfl
  | cons f fs ih =>
    unfold markLoop
    simp only [GoM.bind_apply, GoM.lift_apply, check_v4 env h (hf f (List.mem_cons_self ..)), Res.ok_bind, bne_self_eq_false,
      Bool.and_false, Bool.false_eq_true, if_false]
    exact ih fun g hg => hf g (List.mem_cons_of_mem _ hg)

/-- C42: it returns whenever sockets can be opened and replies are not 16 to 19 bytes long. -/
theorem C42_returns (env : Env) (K : Kernel CEv) (hK : Proper K) {ipSrc ipDst : String} {p : Byte} {sp dp : U16}
    {c : Conn} {mark : U32} (h : Names env ipSrc ipDst p sp dp c) (flows : List Flow) (hf : ∀ f ∈ flows, V4Flow f)
    (w : W) : ∃ n r w', updateMarkForAvailableFlow env K flows ipSrc ipDst p sp dp mark w = .ok ((n, r), w') := by
  obtain ⟨n, r, w', hl⟩ := markLoop_returns env K hK (m := mark) h flows 0 w hf
  exact ⟨_, _, _, bulkMark_eq env K flows ipSrc ipDst p sp dp mark w w' n r hl⟩

/-- C42: when the kernel accepts everything, the number of matching flows is returned, without error. -/
theorem C42_all_acknowledged (env : Env) (K : Kernel CEv) {d : List Byte} (hK : Accepting env.e K d)
    {ipSrc ipDst : String} {p : Byte} {sp dp : U16} {c : Conn} {mark : U32} (h : Names env ipSrc ipDst p sp dp c)
    (hm : mark ≠ 0) (flows : List Flow) (hf : ∀ f ∈ flows, V4Flow f) (w : W) :
    ∃ w', updateMarkForAvailableFlow env K flows ipSrc ipDst p sp dp mark w = .ok ((matching flows c, none), w') := by
  suffices ∀ k w, ∃ w', markLoop env K ipSrc ipDst p sp dp mark flows k w = .ok ((k + matching flows c, none), w') by
    obtain ⟨w', hw⟩ := this 0 w
    rw [Nat.zero_add] at hw
    exact ⟨w', bulkMark_eq env K flows ipSrc ipDst p sp dp mark w w' _ none hw⟩
  induction flows with
  | nil => intro k w; exact ⟨w, rfl⟩
  | cons f fs ih =>
    intro k w
    have ih := ih fun g hg => hf g (List.mem_cons_of_mem _ hg)
    unfold markLoop
    simp only [GoM.bind_apply, GoM.lift_apply, check_v4 env h (hf f (List.mem_cons_self ..)), Res.ok_bind]
    by_cases hF : FlowOf f c
    · have hmat : matching (f :: fs) c = matching fs c + 1 := by simp [matching, hF]
      simp only [hF, decide_true, bne_iff_ne, ne_eq, hm, not_false_eq_true, Bool.true_and, if_true, GoM.bind_apply]
      obtain ⟨w1, h1⟩ := C39_succeeds env K hK mark h w
      rw [h1]
      obtain ⟨w2, h2⟩ := ih (k + 1) w1
      refine ⟨w2, h2.trans ?_⟩
      rw [hmat, Nat.add_assoc, Nat.add_comm 1]
    · have hmat : matching (f :: fs) c = matching fs c := by simp [matching, hF]
      simp only [hF, decide_false, Bool.false_and, Bool.false_eq_true, if_false]
      rw [hmat]
      exact ih k w

example : ∃ w', updateMarkForAvailableFlow sampleEnv sampleKernel [sampleFlow, otherFlow, sampleFlow] "10.0.0.1"
    "10.0.0.2" 17 1000 53 9 sampleWorld = .ok ((2, none), w') :=
  C42_all_acknowledged sampleEnv sampleKernel sample_accepting sample_names (by decide) _ (by
    intro f hf
    simp only [List.mem_cons, List.not_mem_nil, or_false] at hf
    rcases hf with rfl | rfl | rfl
    · exact sampleFlow_v4
    · exact otherFlow_v4
    · exact sampleFlow_v4) sampleWorld

/-! ### C40, C43 -/

/-- What the request of a label update is: for TCP it also carries protocol information. -/
def LabelRequest (e : Endian) (c : Conn) (label : U32) (b : List Byte) : Prop :=
  if c.proto = 6 then ∃ flags, LabelReqTCP e c label flags b else LabelReq e c label b

/-- What is required of the request for TCP: the flags attributes (FLAGS_ORIGINAL = 4, FLAGS_REPLY = 5) are well formed. -/
def FlagsOk (e : Endian) (flags : List Byte) : Prop :=
  ∃ a b, decodeAttrs e flags = some [⟨4, false, a⟩, ⟨5, false, b⟩]

theorem label_req (env : Env) {ipSrc ipDst : String} {p : Byte} {sp dp : U16} {c : Conn} (label : U32)
    (h : Names env ipSrc ipDst p sp dp c) :
    ∃ hdr data, labelMessage env ipSrc ipDst p sp dp label = .ok (hdr, data) ∧
      LabelRequest env.e c label (hdrBytes env.e hdr ++ data) := by
  obtain ⟨hs, hd⟩ := names_len h.taken
  unfold LabelRequest
  have hpc : p = c.proto := h.2.2.1
  by_cases hp : c.proto = 6
  · have hp' : p = 6 := hpc.trans hp
    subst hp'
    refine ⟨_, _, labelMessage_tcp env label h.taken, ?_⟩
    rw [if_pos hp]
    exact ⟨_, labelReqTCP_ok env.e hs hd label⟩
  · refine ⟨_, _, labelMessage_eq env label h.taken (by rw [hpc]; exact hp), ?_⟩
    rw [if_neg hp]
    exact labelReq_ok env.e hs hd label

/-- C40, except for the TCP flags: everything a label update sends is exactly an update of the named connection with
that label, for TCP together with protocol information. -/
theorem C40_label_update_partial (env : Env) (K : Kernel CEv) {ipSrc ipDst : String} {p : Byte} {sp dp : U16} {c : Conn}
    {label : U32} (h : Names env ipSrc ipDst p sp dp c) (flows : List Flow) (hf : ∀ f ∈ flows, V4Flow f)
    (n : Int) (r : Option Err) (w w' : W)
    (hr : updateLabel env K flows ipSrc ipDst p sp dp label w = .ok ((n, r), w')) :
    ∃ evs, w' = { w with trace := w.trace ++ evs } ∧
      ∀ fd b x y, .sendto fd b x y ∈ evs → LabelRequest env.e c label b := by
  obtain ⟨k, hl, _⟩ := bulkLabel_ok env K flows ipSrc ipDst p sp dp label w w' n r hr
  obtain ⟨evs, h1, h2, h3⟩ := labelLoop_spec env K h (label_req env label h) flows 0 k r w w' hf hl
  exact ⟨evs, h2, updates_sends h1⟩

/-- C40, violated: no request sent for a TCP connection has well-formed flags attributes (their stated length leaves out
their value). -/
theorem C40_tcp_flags_violated (env : Env) (K : Kernel CEv) {ipSrc ipDst : String} {p : Byte} {sp dp : U16} {c : Conn}
    {label : U32} (h : Names env ipSrc ipDst p sp dp c) (hp : p = 6) (flows : List Flow) (hf : ∀ f ∈ flows, V4Flow f)
    (n : Int) (r : Option Err) (w w' : W)
    (hr : updateLabel env K flows ipSrc ipDst p sp dp label w = .ok ((n, r), w')) :
    ∃ evs, w' = { w with trace := w.trace ++ evs } ∧
      ∀ fd b x y, .sendto fd b x y ∈ evs → ∀ flags, LabelReqTCP env.e c label flags b → ¬ FlagsOk env.e flags := by
  subst hp
  obtain ⟨hs, hd⟩ := names_len h.taken
  obtain ⟨k, hl, _⟩ := bulkLabel_ok env K flows ipSrc ipDst 6 sp dp label w w' n r hr
  obtain ⟨evs, h1, h2, h3⟩ := labelLoop_spec env K (req := LabelReqTCP env.e c label (flagsBytes env.e)) h
    ⟨_, _, labelMessage_tcp env label h.taken, labelReqTCP_ok env.e hs hd label⟩ flows 0 k r w w' hf hl
  refine ⟨evs, h2, ?_⟩
  intro fd b x y hm flags hfl
  obtain ⟨i, hu, hi⟩ := updates_sends h1 fd b x y hm
  obtain ⟨i', hu', hi'⟩ := hfl
  obtain ⟨_, hx⟩ := updateIs_unique hu hu'
  simp only [List.cons.injEq, Attr.mk.injEq, true_and, and_true] at hx
  subst hx
  rw [hi] at hi'
  simp only [Option.some.injEq, List.cons.injEq, Attr.mk.injEq, true_and, and_true] at hi'
  subst hi'
  rintro ⟨a, b, hab⟩
  rw [flags_malformed] at hab
  cases hab

/-- C40: a label request cannot be read as naming another connection. -/
theorem C40_unambiguous {e : Endian} {b : List Byte} {c c' : Conn} {l l' : U32} (h : LabelReq e c l b)
    (h' : LabelReq e c' l' b) : c = c' ∧ bytes32 e l.toNat = bytes32 e l'.toNat := by
  obtain ⟨h1, h2⟩ := updateIs_unique h h'
  simp only [List.cons.injEq, Attr.mk.injEq, true_and, and_true] at h2
  exact ⟨h1, h2⟩

/-- C43: a bulk label update that returns has sent one request per matching flow, up to and including the first that
failed; it returns their number and nil, or 0 and the error of that one. -/
theorem C43_bulk_label (env : Env) (K : Kernel CEv) {ipSrc ipDst : String} {p : Byte} {sp dp : U16} {c : Conn}
    {label : U32} (h : Names env ipSrc ipDst p sp dp c) (flows : List Flow) (hf : ∀ f ∈ flows, V4Flow f)
    (n : Int) (r : Option Err) (w w' : W)
    (hr : updateLabel env K flows ipSrc ipDst p sp dp label w = .ok ((n, r), w')) :
    ∃ evs, Updates env.e (LabelRequest env.e c label) (matching flows c) r evs ∧
      w' = { w with trace := w.trace ++ evs } ∧ n = if r = none then (matching flows c : Int) else 0 := by
  obtain ⟨k, hl, hn⟩ := bulkLabel_ok env K flows ipSrc ipDst p sp dp label w w' n r hr
  obtain ⟨evs, h1, h2, h3⟩ := labelLoop_spec env K h (label_req env label h) flows 0 k r w w' hf hl
  exact ⟨evs, h1, h2, by rw [hn, h3]; split <;> omega⟩

/-- C43: it returns whenever sockets can be opened and replies are not 16 to 19 bytes long. -/
theorem C43_returns (env : Env) (K : Kernel CEv) (hK : Proper K) {ipSrc ipDst : String} {p : Byte} {sp dp : U16}
    {c : Conn} {label : U32} (h : Names env ipSrc ipDst p sp dp c) (flows : List Flow) (hf : ∀ f ∈ flows, V4Flow f)
    (w : W) : ∃ n r w', updateLabel env K flows ipSrc ipDst p sp dp label w = .ok ((n, r), w') := by
  obtain ⟨n, r, w', hl⟩ := labelLoop_returns env K hK h (labelMessage_ok env label h) flows 0 w hf
  exact ⟨_, _, _, bulkLabel_eq env K flows ipSrc ipDst p sp dp label w w' n r hl⟩

/-- C43: when the kernel accepts everything, the number of matching flows is returned, without error. -/
theorem C43_all_acknowledged (env : Env) (K : Kernel CEv) {d : List Byte} (hK : Accepting env.e K d)
    {ipSrc ipDst : String} {p : Byte} {sp dp : U16} {c : Conn} {label : U32} (h : Names env ipSrc ipDst p sp dp c)
    (flows : List Flow) (hf : ∀ f ∈ flows, V4Flow f) (w : W) :
    ∃ w', updateLabel env K flows ipSrc ipDst p sp dp label w = .ok ((matching flows c, none), w') := by
  obtain ⟨hdr, data, hmsg, h4⟩ := labelMessage_ok env label h
  suffices ∀ k w, ∃ w', labelLoop env K ipSrc ipDst p sp dp label flows k w = .ok ((k + matching flows c, none), w') by
    obtain ⟨w', hw⟩ := this 0 w
    rw [Nat.zero_add] at hw
    exact ⟨w', bulkLabel_eq env K flows ipSrc ipDst p sp dp label w w' _ none hw⟩
  induction flows with
  | nil => intro k w; exact ⟨w, rfl⟩
  | cons f fs ih =>
    intro k w
    have ih := ih fun g hg => hf g (List.mem_cons_of_mem _ hg)
    unfold labelLoop
    simp only [GoM.bind_apply, GoM.lift_apply, check_v4 env h (hf f (List.mem_cons_self ..)), Res.ok_bind]
    by_cases hF : FlowOf f c
    · have hmat : matching (f :: fs) c = matching fs c + 1 := by simp [matching, hF]
      simp only [hF, decide_true, if_true, GoM.bind_apply, GoM.lift_apply, hmsg, Res.ok_bind]
      obtain ⟨w1, h1⟩ := sendMessage_succeeds env K hdr data w h4 hK
      rw [h1]
      obtain ⟨w2, h2⟩ := ih (k + 1) w1
      refine ⟨w2, h2.trans ?_⟩
      rw [hmat, Nat.add_assoc, Nat.add_comm 1]
    · have hmat : matching (f :: fs) c = matching fs c := by simp [matching, hF]
      simp only [hF, decide_false, Bool.false_eq_true, if_false]
      rw [hmat]
      exact ih k w

example : ∃ w', updateLabel sampleEnv sampleKernel [sampleFlow, otherFlow] "10.0.0.1"
    "10.0.0.2" 17 1000 53 9 sampleWorld = .ok ((1, none), w') :=
  C43_all_acknowledged sampleEnv sampleKernel sample_accepting sample_names _ (by
    intro f hf
    simp only [List.mem_cons, List.not_mem_nil, or_false] at hf
    rcases hf with rfl | rfl
    · exact sampleFlow_v4
    · exact otherFlow_v4) sampleWorld

/-! ### C44 -/

/-- C44: a mark update that returns has opened one socket and closed it at the end. -/
theorem C44_one_socket_partial (env : Env) (K : Kernel CEv) {ipSrc ipDst : String} {p : Byte} {sp dp : U16} {c : Conn}
    (mark : U32) (h : Names env ipSrc ipDst p sp dp c) (w w' : W) (r : Option Err)
    (hr : updateMark env K ipSrc ipDst p sp dp mark w = .ok (r, w')) :
    ∃ evs, w' = { w with trace := w.trace ++ evs } ∧ OwnSocket evs := by
  obtain ⟨evs, h1, h2⟩ := C39_mark_update env K mark h w w' r hr
  exact ⟨evs, h2, exchange_own h1⟩

/-- C44: a bulk update that returns has handled each request on a socket of its own, one after the other. -/
theorem C44_bulk_sockets_partial (env : Env) (K : Kernel CEv) {ipSrc ipDst : String} {p : Byte} {sp dp : U16} {c : Conn}
    (h : Names env ipSrc ipDst p sp dp c) (flows : List Flow) (hf : ∀ f ∈ flows, V4Flow f) (value : U32)
    (n : Int) (r : Option Err) (w w' : W)
    (hr : (value ≠ 0 ∧ updateMarkForAvailableFlow env K flows ipSrc ipDst p sp dp value w = .ok ((n, r), w')) ∨
      updateLabel env K flows ipSrc ipDst p sp dp value w = .ok ((n, r), w')) :
    ∃ gs : List (List (Ev CEv)), w' = { w with trace := w.trace ++ gs.flatten } ∧ (∀ g ∈ gs, OwnSocket g) ∧
      gs.length ≤ matching flows c ∧ (r = none → (gs.length : Int) = n) := by
  have key : ∃ (req : List Byte → Prop) (first : Option Err) (evs : List (Ev CEv)),
      Updates env.e req (matching flows c) first evs ∧ w' = { w with trace := w.trace ++ evs } ∧
      (r = none → first = none) ∧ n = if r = none then (matching flows c : Int) else 0 := by
    rcases hr with ⟨hv, hr⟩ | hr
    · obtain ⟨first, evs, h1, h2, h3, h4⟩ := C42_bulk_mark env K h hv flows hf n r w w' hr
      exact ⟨_, first, evs, h1, h2, by rw [h3]; cases first <;> simp, h4⟩
    · obtain ⟨evs, h1, h2, h3⟩ := C43_bulk_label env K h flows hf n r w w' hr
      exact ⟨_, r, evs, h1, h2, id, h3⟩
  obtain ⟨req, first, evs, h1, h2, hfirst, h3⟩ := key
  obtain ⟨gs, rfl, h4, h5, h6⟩ := updates_own h1
  refine ⟨gs, h2, h4, h5, fun hn => ?_⟩
  rw [h3, if_pos hn, h6 (hfirst hn)]

/-- C44, violated: when the socket cannot be opened, or not bound, an update does not return that error; the process
crashes. -/
theorem C44_no_socket_violated (env : Env) (K : Kernel CEv) {ipSrc ipDst : String} {p : Byte} {sp dp : U16} {c : Conn}
    (mark : U32) (h : Names env ipSrc ipDst p sp dp c) (w : W)
    (hk : (∃ n, K.socket w.trace = .error n) ∨ ∃ fd, K.socket w.trace = .ok fd ∧ ∀ tr, K.bind tr fd ≠ none) :
    updateMark env K ipSrc ipDst p sp dp mark w = .panic := by
  unfold updateMark
  simp only [GoM.bind_apply, GoM.lift_apply, markMessage_eq env mark h.taken, Res.ok_bind]
  exact sendMessage_noSocket env K _ _ w hk

example : updateMark sampleEnv { sampleKernel with socket := fun _ => .error 24 } "10.0.0.1" "10.0.0.2" 17 1000 53 9
    sampleWorld = .panic :=
  C44_no_socket_violated sampleEnv _ 9 sample_names sampleWorld (.inl ⟨24, rfl⟩)

/-! ### C45 -/

theorem ip2int_nil : ip2int [] = .panic := rfl

theorem sameIP_invalid (env : Env) (a : List Byte) {s : String} (h : env.parseIP s = []) : sameIP env a s = .panic := by
  unfold sameIP
  rw [h, ip2int_nil]
  rcases hx : ip2int a with x | _ | _
  · rfl
  · rfl
  · exfalso
    unfold ip2int at hx
    split at hx
    · unfold slice at hx
      split at hx
      · simp only [Res.ok_bind] at hx
        revert hx
        unfold dec32
        repeat' split
        all_goals simp
      · cases hx
    · revert hx
      unfold dec32
      repeat' split
      all_goals simp

theorem build_invalid (env : Env) {ipSrc ipDst : String} (h : env.parseIP ipSrc = [] ∨ env.parseIP ipDst = [])
    (p : Byte) (sp dp : U16) : buildConntrackUpdateRequest env ipSrc ipDst p sp dp = .panic := by
  unfold buildConntrackUpdateRequest
  rcases h with h | h
  · rw [h, ip2int_nil]; rfl
  · have := sameIP_invalid env (env.parseIP ipSrc) h
    unfold sameIP at this
    rw [h, ip2int_nil] at this ⊢
    rcases hx : ip2int (env.parseIP ipSrc) with x | _ | _
    · rfl
    · rfl
    · rw [hx] at this; cases this

/-- C45, violated: a mark update given a string that is not an address crashes, whatever the kernel does. -/
theorem C45_invalid_address_violated (env : Env) (K : Kernel CEv) {ipSrc ipDst : String}
    (h : env.parseIP ipSrc = [] ∨ env.parseIP ipDst = []) (p : Byte) (sp dp : U16) (mark : U32) (w : W) :
    updateMark env K ipSrc ipDst p sp dp mark w = .panic := by
  unfold updateMark markMessage
  simp only [GoM.bind_apply, GoM.lift_apply, build_invalid env h]
  rfl

theorem check_invalid (env : Env) {ipSrc ipDst : String} (h : env.parseIP ipSrc = [] ∨ env.parseIP ipDst = [])
    {f : Flow} (hf : V4Flow f) (p : Byte) (sp dp : U16) : checkTuplesInFlow env f ipSrc ipDst p sp dp = .panic := by
  obtain ⟨⟨a1, f1⟩, ⟨a2, f2⟩, _⟩ := hf
  unfold checkTuplesInFlow
  by_cases hs : env.parseIP ipSrc = []
  · rw [sameIP_invalid env _ hs]; rfl
  · have hd := h.resolve_left hs
    rw [sameIP_invalid env f.forward.dstIP hd, sameIP_invalid env f.reverse.srcIP hd]
    rcases hx : sameIP env f.forward.srcIP ipSrc with x | _ | _
    · cases x <;> rfl
    · rfl
    · exfalso
      unfold sameIP at hx
      rw [ip2int_v4 f1] at hx
      simp only [Res.ok_bind] at hx
      have := sameIP_invalid ⟨env.e, fun _ => []⟩ (env.parseIP ipSrc) (s := "") rfl
      unfold sameIP at this
      rcases hy : ip2int (env.parseIP ipSrc) with y | _ | _ 
      · rw [hy] at hx; cases hx
      · rw [hy] at hx; cases hx
      · rw [hy] at this; cases this

/-- C45, violated: so do the bulk updates, unless there is no flow to compare with. -/
theorem C45_bulk_violated (env : Env) (K : Kernel CEv) {ipSrc ipDst : String}
    (h : env.parseIP ipSrc = [] ∨ env.parseIP ipDst = []) (p : Byte) (sp dp : U16) (value : U32) (w : W)
    (flows : List Flow) (hne : flows ≠ []) (hf : ∀ f ∈ flows, V4Flow f) :
    updateMarkForAvailableFlow env K flows ipSrc ipDst p sp dp value w = .panic ∧
    updateLabel env K flows ipSrc ipDst p sp dp value w = .panic := by
  match flows, hne, hf with
  | f :: fs, _, hf =>
    have hc := check_invalid env h (hf f (List.mem_cons_self ..)) p sp dp
    constructor
    · unfold updateMarkForAvailableFlow markLoop
      simp only [GoM.bind_apply, GoM.lift_apply, hc]
      rfl
    · unfold updateLabel labelLoop
      simp only [GoM.bind_apply, GoM.lift_apply, hc]
      rfl

example : updateMark sampleEnv sampleKernel "nonsense" "10.0.0.2" 17 1000 53 9 sampleWorld = .panic :=
  C45_invalid_address_violated sampleEnv sampleKernel (.inl (by decide)) 17 1000 53 9 sampleWorld

/-! ### C46 -/

/-- C46: exactly the library's entries when it returned a non-nil list without error. -/
theorem C46_entries (l : List Flow) : tableList (some l) none = (some l, none) := rfl

/-- C46: otherwise an error and no entries. -/
theorem C46_error (result : Option (List Flow)) (err : Option Err) (h : result = none ∨ err ≠ none) :
    ∃ e, tableList result err = (none, some e) := by
  refine ⟨.msg "Empty table", ?_⟩
  unfold tableList
  rcases h with rfl | h
  · rfl
  · rcases err with _ | e
    · exact absurd rfl h
    · cases result <;> rfl

/-- C46: flushing reports the library's result. -/
theorem C46_flush (err : Option Err) : tableFlush err = err := rfl

example : tableList (some [sampleFlow]) none = (some [sampleFlow], none) := C46_entries _

/-! ### C78 -/

/-- C78, violated: given 16-byte addresses that are not IPv4 addresses, a mark update that returns has updated the IPv4
connection between their last four bytes. -/
theorem C78_ipv6_update_violated (env : Env) (K : Kernel CEv) {ipSrc ipDst : String} (p : Byte) (sp dp : U16)
    (hs : (env.parseIP ipSrc).length = 16) (hd : (env.parseIP ipDst).length = 16)
    (mark : U32) (w w' : W) (r : Option Err)
    (hr : updateMark env K ipSrc ipDst p sp dp mark w = .ok (r, w')) :
    ∃ evs, Exchange env.e (MarkReq env.e ⟨(env.parseIP ipSrc).drop 12, (env.parseIP ipDst).drop 12, p, sp, dp⟩ mark) r evs ∧
      w' = { w with trace := w.trace ++ evs } := by
  have h : Taken env ipSrc ipDst p sp dp ⟨(env.parseIP ipSrc).drop 12, (env.parseIP ipDst).drop 12, p, sp, dp⟩ :=
    ⟨⟨by simp [hs], ip2int_16 hs⟩, ⟨by simp [hd], ip2int_16 hd⟩, rfl, rfl, rfl⟩
  unfold updateMark at hr
  simp only [GoM.bind_apply, GoM.lift_apply, markMessage_eq env mark h, Res.ok_bind] at hr
  obtain ⟨hs, hd⟩ := names_len h
  exact sendMessage_spec env K _ _ w w' r (markReq_ok env.e hs hd mark) hr

/-- C78: it does return. -/
theorem C78_returns (env : Env) (K : Kernel CEv) {d : List Byte} (hK : Accepting env.e K d) {ipSrc ipDst : String}
    (p : Byte) (sp dp : U16)
    (hs : (env.parseIP ipSrc).length = 16) (hd : (env.parseIP ipDst).length = 16) (mark : U32) (w : W) :
    ∃ w', updateMark env K ipSrc ipDst p sp dp mark w = .ok (none, w') := by
  have h : Taken env ipSrc ipDst p sp dp ⟨(env.parseIP ipSrc).drop 12, (env.parseIP ipDst).drop 12, p, sp, dp⟩ :=
    ⟨⟨by simp [hs], ip2int_16 hs⟩, ⟨by simp [hd], ip2int_16 hd⟩, rfl, rfl, rfl⟩
  unfold updateMark
  simp only [GoM.bind_apply, GoM.lift_apply, markMessage_eq env mark h, Res.ok_bind]
  exact sendMessage_succeeds env K _ _ w (by simp) hK

example : ∃ w', updateMark sampleEnv sampleKernel "::1" "::1" 6 1000 53 9 sampleWorld = .ok (none, w') :=
  C78_returns sampleEnv sampleKernel sample_accepting 6 1000 53 (by decide) (by decide) 9 sampleWorld

end Verif.Props.Ct
