import Verif.NfQueue.Spec
import Verif.Spec.Kernel
import Verif.Sys.Genuine
/-!
Specification of the other side: a kernel that keeps packet queues, holds the packets waiting in them, serves configuration requests and
verdicts, and tells the owner of a queue about its packets (net/netfilter/nfnetlink_queue.c: `nfqnl_recv_config`, `nfqnl_set_mode`,
`nfqnl_recv_verdict`, `__nfqnl_enqueue_packet`, `nfqnl_rcv_nl_event`; net/netlink/af_netlink.c: `netlink_rcv_skb`).  Nothing here refers
to how the library builds or reads its messages.  Simplifications: the caller may configure queues (CAP_NET_ADMIN), socket buffers have
room, mangling a packet does not run out of memory, no batch verdicts, flags or conntrack attributes.
-/
namespace Verif.NfQueue
open Sys Spec

/-- A packet in a queue: its id there, its mark, its bytes. -/
structure Pkt where
  id : Nat
  mark : Nat
  data : List Byte
deriving DecidableEq

/-- Who a queue belongs to: a socket of ours, or someone else. -/
inductive Owner where
  | sock (fd : Nat)
  | other (n : Nat)
deriving DecidableEq

/-- A queue: who it belongs to, the copy mode (0 none, 1 metadata, 2 packets), how many bytes of a packet are copied, how many packets
may wait, the packets that wait. -/
structure KQueue where
  owner : Owner
  mode : Nat
  range : Nat
  maxLen : Nat
  waiting : List Pkt
deriving DecidableEq

/-- What lies in a socket, to be received: an acknowledgement (0) or error (< 0), or a packet. -/
inductive Note where
  | ack (code : Int)
  | packet (id mark : Nat) (payload : List Byte)
deriving DecidableEq

/-- A packet that left queue `queue`, as it left, and the verdict: 0 drop, 1 accept, … -/
structure Gone where
  queue : Nat
  pkt : Pkt
  verdict : Nat
deriving DecidableEq

/-- The queues; what lies in our sockets; the packets that came to queues so far, and those that left them. -/
structure KState where
  queues : Nat → Option KQueue
  inbox : Nat → List Note
  came : List (Nat × Pkt)
  out : List Gone

/-- The state with queue `q` replaced. -/
def KState.setQueue (s : KState) (q : Nat) (v : Option KQueue) : KState := { s with queues := fun i => if i = q then v else s.queues i }

/-- The state with the contents of socket `fd` replaced. -/
def KState.setInbox (s : KState) (fd : Nat) (l : List Note) : KState := { s with inbox := fun i => if i = fd then l else s.inbox i }

/-- `instance_create`: a new queue of socket `fd`. -/
def KQueue.new (fd : Nat) : KQueue := ⟨.sock fd, 0, 65531, 1024, []⟩

/-- The copy range the kernel uses when asked for `range` (`nfqnl_set_mode`). -/
def clip (range : Nat) : Nat := if range = 0 ∨ 65531 < range then 65531 else range

/-- `nfqnl_set_mode`. -/
def KQueue.setMode (k : KQueue) (mode range : Nat) : KQueue :=
  if mode = 0 ∨ mode = 1 then { k with mode := mode, range := 0 }
  else if mode = 2 then { k with mode := 2, range := clip range }
  else k

/-- The parameters a configuration request carries (NFQA_CFG_PARAMS = 2, NFQA_CFG_QUEUE_MAXLEN = 3). -/
def KQueue.tune (k : KQueue) (as : List Attr) : KQueue :=
  let k := match (attrOf 2 as).bind (be32 · 0), (attrOf 2 as).bind (·[4]?) with
    | some range, some mode => k.setMode mode.toNat range
    | _, _ => k
  match (attrOf 3 as).bind (be32 · 0) with
  | some n => { k with maxLen := n }
  | none => k

/-- The packets of a queue that is given up: dropped (`nfqnl_flush`). -/
def flushed (q : Nat) (k : KQueue) : List Gone := k.waiting.map fun p => ⟨q, p, 0⟩

/-- `nfqnl_recv_config`, for a request from socket `fd`: the code and the state afterwards.  -1 = -EPERM, -16 = -EBUSY, -19 = -ENODEV,
-95 = -EOPNOTSUPP. -/
def KState.config (s : KState) (fd : Nat) (m : NfMsg) : Int × KState :=
  let cmd := ((attrOf 1 m.attrs).bind (·[0]?)).map BitVec.toNat
  if cmd = some 3 ∨ cmd = some 4 then (0, s) else
  match s.queues m.resId with
  | some k =>
    if k.owner ≠ .sock fd then (-1, s) else
    match cmd with
    | none => (0, s.setQueue m.resId (some (k.tune m.attrs)))
    | some c =>
      if c = 1 then (-16, s)
      else if c = 2 then (0, { s.setQueue m.resId none with out := s.out ++ flushed m.resId k })
      else (-95, s)
  | none =>
    match cmd with
    | none => (-19, s)
    | some c =>
      if c = 1 then (0, s.setQueue m.resId (some ((KQueue.new fd).tune m.attrs)))
      else if c = 2 then (-19, s)
      else (-95, s)

/-- The packet as the verdict message wants it: the bytes of NFQA_PAYLOAD (10), the mark of NFQA_MARK (3), if they are there. -/
def Pkt.rewritten (p : Pkt) (as : List Attr) : Pkt :=
  ⟨p.id, ((attrOf 3 as).bind (be32 · 0)).getD p.mark, (attrOf 10 as).getD p.data⟩

/-- `nfqnl_recv_verdict`, for a verdict from socket `fd` (NFQA_VERDICT_HDR = 2: verdict and id, in network order).  -22 = -EINVAL,
-2 = -ENOENT. -/
def KState.verdict (s : KState) (fd : Nat) (m : NfMsg) : Int × KState :=
  match s.queues m.resId with
  | none => (-19, s)
  | some k =>
    if k.owner ≠ .sock fd then (-1, s) else
    match (attrOf 2 m.attrs).bind (be32 · 0), (attrOf 2 m.attrs).bind (be32 · 4) with
    | some v, some id =>
      if 5 < v % 256 ∨ v % 256 = 2 then (-22, s) else
      match k.waiting.find? fun p => decide (p.id = id) with
      | none => (-2, s)
      | some p => (0, { s.setQueue m.resId (some { k with waiting := k.waiting.filter fun x => decide (x.id ≠ id) }) with
          out := s.out ++ [⟨m.resId, p.rewritten m.attrs, v⟩] })
    | _, _ => (-22, s)

/-- Serving the bytes that came in on socket `fd`: NFQNL_MSG_CONFIG (2) and NFQNL_MSG_VERDICT (1) of NFNL_SUBSYS_QUEUE (3). -/
def KState.serve (s : KState) (e : Endian) (fd : Nat) (b : List Byte) : Int × KState :=
  match decodeNf e b with
  | some m => if m.type = 0x302 then s.config fd m else if m.type = 0x301 then s.verdict fd m else (-22, s)
  | none => (-22, s)

/-- Does the sender want an acknowledgement (NLM_F_ACK = 4)? -/
def wantsAck (e : Endian) (b : List Byte) : Bool :=
  match decodeNf e b with
  | some m => decide (m.flags / 4 % 2 = 1)
  | none => false

/-- The answer is put into the socket: an error always, success if it was asked for. -/
def KState.answer (s : KState) (e : Endian) (fd : Nat) (b : List Byte) (code : Int) : KState :=
  if code ≠ 0 ∨ wantsAck e b = true then s.setInbox fd (s.inbox fd ++ [.ack code]) else s

/-- A packet comes to queue `q`: it waits there, and the owner is told, with as many bytes of it as the copy range allows. -/
def KState.arrive (s : KState) (q : Nat) (k : KQueue) (p : Pkt) : KState :=
  let s := { s.setQueue q (some { k with waiting := k.waiting ++ [p] }) with came := s.came ++ [(q, p)] }
  match k.owner with
  | .sock fd => s.setInbox fd (s.inbox fd ++ [.packet p.id p.mark (p.data.take k.range)])
  | .other _ => s

/-- The queue, if there is one, is not ours. -/
def NotOurs : Option KQueue → Prop
  | some k => ∃ n, k.owner = .other n
  | none => True

/-- What happens without us.  A packet comes to a queue that takes packets and is not full, under an id not in use there; or others do
something with queues of theirs, or with free ones: those of `F`, the queues other programs use. -/
inductive Env1 (F : Nat → Prop) : KState → KState → Prop
  | arrive {s : KState} {q : Nat} {k : KQueue} {p : Pkt} : s.queues q = some k → k.mode ≠ 0 → k.waiting.length < k.maxLen →
      p.id < 2 ^ 32 → p.mark < 2 ^ 32 → p.data ≠ [] → (∀ x ∈ k.waiting, x.id ≠ p.id) → Env1 F s (s.arrive q k p)
  | others {s s' : KState} {l : List Gone} : s'.inbox = s.inbox → s'.came = s.came → s'.out = s.out ++ l →
      (∀ g ∈ l, F g.queue ∧ NotOurs (s.queues g.queue)) →
      (∀ q, s'.queues q = s.queues q ∨ F q ∧ NotOurs (s.queues q) ∧ NotOurs (s'.queues q)) → Env1 F s s'

/-- Any number of such things. -/
inductive Meanwhile (F : Nat → Prop) : KState → KState → Prop
  | refl {s} : Meanwhile F s s
  | tail {s t u} : Meanwhile F s t → Env1 F t u → Meanwhile F s u

/-- The message the kernel sends for a note.  For a packet: NFQNL_MSG_PACKET (0) with the id (attribute 1, network order), the mark
(attribute 3, network order, absent if 0), the bytes (attribute 10, absent if there are none), and whatever else (interfaces, …).
An acknowledgement (`netlink_ack`) shows the header of the acknowledged request. -/
def NoteIs (e : Endian) (d : List Byte) : Note → Prop
  | .ack code => ReplyIs e d code ∧ d.length < 76800 ∧ (code = 0 → ∃ reqLen, IsAck e d reqLen ∧ 20 ≤ reqLen ∧ reqLen < 65536)
  | .packet id mark payload => ∃ attrs : List (Nat × List Byte), ∃ head : List Byte, head.length = 20 ∧ num16 e head 4 = some 0x300 ∧
      d = head ++ encodeAttrs e attrs ∧ d.length < 76800 ∧ (∀ a ∈ attrs, a.1 < 65536 ∧ a.2.length ≤ 65531) ∧
      (∀ a ∈ attrs, a.1 = 1 ∨ a.1 = 3 → 4 ≤ a.2.length) ∧ (lastOf 1 attrs).bind (be32 · 0) = some id ∧
      (lastOf 3 attrs).bind (be32 · 0) = (if mark = 0 then none else some mark) ∧
      lastOf 10 attrs = (if payload = [] then none else some payload)

/-- Does queue `q` belong to socket `fd`? -/
def KState.Owns (s : KState) (fd q : Nat) : Prop := ∃ k, s.queues q = some k ∧ k.owner = .sock fd

/-- `nfqnl_rcv_nl_event`: socket `fd` is gone, and with it what lay in it, and its queues. -/
def KState.release (s : KState) (fd : Nat) : KState :=
  { s with
    queues := fun q => (s.queues q).filter fun k => decide (k.owner ≠ .sock fd)
    inbox := fun i => if i = fd then [] else s.inbox i
    out := s.out ++ (List.range 65536).flatMap fun q => ((s.queues q).toList.filter fun k => decide (k.owner = .sock fd)).flatMap (flushed q) }

/-- The bytes that this event handed to the kernel, and the socket. -/
def handedOver : Ev QEv → Option (Nat × List Byte)
  | .sendto fd b _ none => some (fd, b)
  | .sendmsg fd b none => some (fd, b)
  | _ => none

/-- Events that mean nothing to the queues: failed calls, options, bind, things in the application. -/
def Silent : Ev QEv → Prop
  | .socket _ _ _ (.ok _) => False
  | .recvfrom _ _ _ (.ok _) => False
  | .close _ _ => False
  | ev => handedOver ev = none

/-- What one event does.  A request is served and then answered; things may happen between the two. -/
inductive KStep (e : Endian) (F : Nat → Prop) : KState → Ev QEv → KState → Prop
  | handed {s s' : KState} {ev : Ev QEv} {fd : Nat} {b : List Byte} : handedOver ev = some (fd, b) → Meanwhile F (s.serve e fd b).2 s' →
      KStep e F s ev (s'.answer e fd b (s.serve e fd b).1)
  | received {s : KState} {fd size flags : Nat} {d : List Byte} {n : Note} {rest : List Note} : s.inbox fd = n :: rest → NoteIs e d n →
      KStep e F s (.recvfrom fd size flags (.ok (d.take size))) (s.setInbox fd rest)
  | opened {s : KState} {d t p fd : Nat} : (∀ q, ¬ s.Owns fd q) → s.inbox fd = [] → KStep e F s (.socket d t p (.ok fd)) s
  | closed {s : KState} {fd : Nat} {r : Option Nat} : KStep e F s (.close fd r) (s.release fd)
  | silent {s : KState} {ev : Ev QEv} : Silent ev → KStep e F s ev s

/-- `K` keeps queues: `st tr` is their state after the history `tr`; each call it answers does what it should, and anything may happen
before and after. -/
def Keeps (e : Endian) (F : Nat → Prop) (K : Kernel QEv) (st : List (Ev QEv) → KState) : Prop :=
  ∀ tr ev, Answers K tr ev → ∃ s1 s2, Meanwhile F (st tr) s1 ∧ KStep e F s1 ev s2 ∧ Meanwhile F s2 (st (tr ++ [ev]))

/-- The calls of `K` do not fail, and what lies in a socket is received. -/
structure Healthy (K : Kernel QEv) (st : List (Ev QEv) → KState) : Prop where
  socket : ∀ tr, ∃ fd, K.socket tr = .ok fd
  bind : ∀ tr fd, K.bind tr fd = none
  send : ∀ tr fd b, (∃ d t p, .socket d t p (.ok fd) ∈ tr) → K.send tr fd b = none
  recv : ∀ tr fd, (st tr).inbox fd ≠ [] → ∃ d, K.recv tr fd = .ok d

end Verif.NfQueue
