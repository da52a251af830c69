import Verif.NfLog.Spec
import Verif.Spec.Kernel
import Verif.Sys.Genuine
/-!
Specification of the other side: a kernel that keeps log groups, serves configuration requests, collects the packets logged to a group and
sends them to its owner (net/netfilter/nfnetlink_log.c: `nfulnl_recv_config`, `nfulnl_set_mode`, `instance_create`, `nfulnl_log_packet`,
`__build_packet_message`, `__nfulnl_send`, `nfulnl_rcv_nl_event`; net/netlink/af_netlink.c: `netlink_rcv_skb`, `netlink_ack`).  Nothing
here refers to how the library builds or reads its messages.  Simplifications: the caller may configure groups (CAP_NET_ADMIN), socket
buffers have room, a datagram is shorter than 65536 bytes, of the settings of a group only the copy mode and range are there.
-/
namespace Verif.NfLog
open Sys Spec

/-- Who a group belongs to: a socket of ours, or someone else. -/
inductive Owner where
  | sock (fd : Nat)
  | other (n : Nat)
deriving DecidableEq

/-- A packet logged to a group, under a prefix or not; up to `range` bytes of it are shown. -/
structure Entry where
  group : Nat
  pfx : Option (List Byte)
  packet : List Byte
  range : Nat
deriving DecidableEq

/-- A group: who it belongs to, the copy mode (2 packets), how many bytes of a packet are copied, the entries collected and not yet sent. -/
structure KGroup where
  owner : Owner
  mode : Nat
  range : Nat
  batch : List Entry
deriving DecidableEq

/-- What lies in a socket, to be received: an acknowledgement (0) or error (< 0), or a datagram of logs. -/
inductive Note where
  | ack (code : Int)
  | logs (l : List Entry)
deriving DecidableEq

/-- The groups; what lies in our sockets; what was logged so far. -/
structure KState where
  groups : Nat → Option KGroup
  inbox : Nat → List Note
  logged : List Entry

/-- The state with group `g` replaced. -/
def KState.setGroup (s : KState) (g : Nat) (v : Option KGroup) : KState := { s with groups := fun i => if i = g then v else s.groups i }

/-- The state with the contents of socket `fd` replaced. -/
def KState.setInbox (s : KState) (fd : Nat) (l : List Note) : KState := { s with inbox := fun i => if i = fd then l else s.inbox i }

/-- `instance_create`: a new group of socket `fd`.  It copies packets from the start. -/
def KGroup.new (fd : Nat) : KGroup := ⟨.sock fd, 2, 65531, []⟩

/-- The copy range the kernel uses when asked for `range` (`nfulnl_set_mode`). -/
def clip (range : Nat) : Nat := if range = 0 ∨ 65531 < range then 65531 else range

/-- `nfulnl_set_mode`. -/
def KGroup.setMode (k : KGroup) (mode range : Nat) : KGroup :=
  if mode = 0 ∨ mode = 1 then { k with mode := mode, range := 0 }
  else if mode = 2 then { k with mode := 2, range := clip range }
  else k

/-- The parameters a configuration request carries (NFULA_CFG_MODE = 2). -/
def KGroup.tune (k : KGroup) (as : List Attr) : KGroup :=
  match (attrOf 2 as).bind (be32 · 0), (attrOf 2 as).bind (·[4]?) with
  | some range, some mode => k.setMode mode.toNat range
  | _, _ => k

/-- `nfulnl_recv_config`, for a request from socket `fd`: the code and the state afterwards.  Commands: 1 bind, 2 unbind, 3 and 4 about the
protocol family.  -1 = -EPERM, -16 = -EBUSY, -19 = -ENODEV, -524 = -ENOTSUPP.  A group that is given up sends what it has collected. -/
def KState.config (s : KState) (fd : Nat) (m : NfMsg) : Int × KState :=
  let cmd := ((attrOf 1 m.attrs).bind (·[0]?)).map BitVec.toNat
  if cmd = some 3 ∨ cmd = some 4 then (0, s) else
  match s.groups m.resId with
  | some k =>
    if k.owner ≠ .sock fd then (-1, s) else
    match cmd with
    | none => (0, s.setGroup m.resId (some (k.tune m.attrs)))
    | some c =>
      if c = 1 then (-16, s)
      else if c = 2 then (0, (s.setGroup m.resId none).setInbox fd (s.inbox fd ++ if k.batch = [] then [] else [.logs k.batch]))
      else (-524, s)
  | none =>
    match cmd with
    | none => (-19, s)
    | some c =>
      if c = 1 then (0, s.setGroup m.resId (some ((KGroup.new fd).tune m.attrs)))
      else if c = 2 then (-19, s)
      else (-524, s)

/-- Serving the bytes that came in on socket `fd`: NFULNL_MSG_CONFIG (1) of NFNL_SUBSYS_ULOG (4). -/
def KState.serve (s : KState) (e : Endian) (fd : Nat) (b : List Byte) : Int × KState :=
  match decodeNf e b with
  | some m => if m.type = 0x401 then s.config fd m else (-22, s)
  | none => (-22, s)

/-- Does the sender want an acknowledgement (NLM_F_ACK = 4)? -/
def wantsAck (e : Endian) (b : List Byte) : Bool :=
  match decodeNf e b with
  | some m => decide (m.flags / 4 % 2 = 1)
  | none => false

/-- The answer is put into the socket: an error always, success if it was asked for. -/
def KState.answer (s : KState) (e : Endian) (fd : Nat) (b : List Byte) (code : Int) : KState :=
  if code ≠ 0 ∨ wantsAck e b = true then s.setInbox fd (s.inbox fd ++ [.ack code]) else s

/-- A packet is logged to group `g`: it is collected there. -/
def KState.log (s : KState) (g : Nat) (k : KGroup) (pfx : Option (List Byte)) (packet : List Byte) : KState :=
  { s.setGroup g (some { k with batch := k.batch ++ [⟨g, pfx, packet, k.range⟩] }) with logged := s.logged ++ [⟨g, pfx, packet, k.range⟩] }

/-- What group `g` has collected is sent to its owner. -/
def KState.flush (s : KState) (g : Nat) (k : KGroup) : KState :=
  let s := s.setGroup g (some { k with batch := [] })
  match k.owner with
  | .sock fd => s.setInbox fd (s.inbox fd ++ [.logs k.batch])
  | .other _ => s

/-- The group, if there is one, is not ours. -/
def NotOurs : Option KGroup → Prop
  | some k => ∃ n, k.owner = .other n
  | none => True

/-- What happens without us.  A packet is logged to a group; what a group has collected is sent (it is full, or its timer fires); or others do
something with groups of theirs, or with free ones: those of `F`, the groups other programs use. -/
inductive Env1 (F : Nat → Prop) : KState → KState → Prop
  | log {s : KState} {g : Nat} {k : KGroup} {pfx : Option (List Byte)} {packet : List Byte} : s.groups g = some k →
      Env1 F s (s.log g k pfx packet)
  | flush {s : KState} {g : Nat} {k : KGroup} : s.groups g = some k → k.batch ≠ [] → Env1 F s (s.flush g k)
  | others {s s' : KState} : s'.inbox = s.inbox → s'.logged = s.logged →
      (∀ g, s'.groups g = s.groups g ∨ F g ∧ NotOurs (s.groups g) ∧ NotOurs (s'.groups g)) → Env1 F s s'

/-- Any number of such things. -/
inductive Meanwhile (F : Nat → Prop) : KState → KState → Prop
  | refl {s} : Meanwhile F s s
  | tail {s t u} : Meanwhile F s t → Env1 F t u → Meanwhile F s u

/-- A netlink message in byte order `e`: total length, type, ten bytes of flags, sequence number and port id, body. -/
def msgBytes (e : Endian) (type : Nat) (mid body : List Byte) : List Byte :=
  bytes32 e (16 + body.length) ++ bytes16 e type ++ mid ++ body

/-- The message about one entry (NFULNL_MSG_PACKET = 0): generic header with the group in network order; the prefix (attribute 10) with a NUL
at its end, if there is one; whatever else (hook, interfaces, time, …); at the end the bytes (attribute 9), if there are any. -/
def EntryIs (e : Endian) (d : List Byte) (r : Entry) : Prop :=
  ∃ mid hdr : List Byte, ∃ attrs : List (Nat × List Byte), mid.length = 10 ∧ hdr.length = 4 ∧ be16 hdr 2 = some r.group ∧
    (∀ a ∈ attrs, a.1 < 65536 ∧ a.1 ≠ 9 ∧ a.2.length ≤ 65531) ∧ (∀ a ∈ attrs, a.1 = 10 → ∃ p, r.pfx = some p ∧ a.2 = p ++ [0]) ∧
    (∀ p, r.pfx = some p → (10, p ++ [0]) ∈ attrs) ∧
    d = msgBytes e 0x400 mid (hdr ++ encodeAttrs e (attrs ++ if r.packet.take r.range = [] then [] else [(9, r.packet.take r.range)]))

/-- The messages about several entries, back to back. -/
inductive EntriesAre (e : Endian) : List Byte → List Entry → Prop
  | nil : EntriesAre e [] []
  | cons {d d' : List Byte} {r : Entry} {l : List Entry} : EntryIs e d r → EntriesAre e d' l → EntriesAre e (d ++ d') (r :: l)

/-- The datagram the kernel sends for a note.  An acknowledgement or error is an NLMSG_ERROR (2) with the code at offset 16 (and at least the
header of the request after it).  After the messages about several entries there is an NLMSG_DONE (3). -/
def NoteIs (e : Endian) (d : List Byte) : Note → Prop
  | .ack code => ∃ mid body : List Byte, mid.length = 10 ∧ 20 ≤ body.length ∧ numI32 e body 0 = some code ∧ d = msgBytes e 2 mid body ∧
      d.length < 65536
  | .logs l => l ≠ [] ∧ ∃ d', EntriesAre e d' l ∧ d.length < 65536 ∧
      ∃ mid body : List Byte, mid.length = 10 ∧ body.length = 4 ∧ d = d' ++ if 1 < l.length then msgBytes e 3 mid body else []

/-- Does group `g` belong to socket `fd`? -/
def KState.Owns (s : KState) (fd g : Nat) : Prop := ∃ k, s.groups g = some k ∧ k.owner = .sock fd

/-- `nfulnl_rcv_nl_event`: socket `fd` is gone, and with it what lay in it, and its groups. -/
def KState.release (s : KState) (fd : Nat) : KState :=
  { s with
    groups := fun g => (s.groups g).filter fun k => decide (k.owner ≠ .sock fd)
    inbox := fun i => if i = fd then [] else s.inbox i }

/-- The bytes that this event handed to the kernel, and the socket. -/
def handedOver : Ev LEv → Option (Nat × List Byte)
  | .sendto fd b _ none => some (fd, b)
  | .sendmsg fd b none => some (fd, b)
  | _ => none

/-- Events that mean nothing to the groups: failed calls, options, bind, things in the application. -/
def Silent : Ev LEv → Prop
  | .socket _ _ _ (.ok _) => False
  | .recvfrom _ _ _ (.ok _) => False
  | .close _ _ => False
  | ev => handedOver ev = none

/-- What one event does.  A request is served and then answered; things may happen between the two. -/
inductive KStep (e : Endian) (F : Nat → Prop) : KState → Ev LEv → KState → Prop
  | handed {s s' : KState} {ev : Ev LEv} {fd : Nat} {b : List Byte} : handedOver ev = some (fd, b) → Meanwhile F (s.serve e fd b).2 s' →
      KStep e F s ev (s'.answer e fd b (s.serve e fd b).1)
  | received {s : KState} {fd size flags : Nat} {d : List Byte} {n : Note} {rest : List Note} : s.inbox fd = n :: rest → NoteIs e d n →
      KStep e F s (.recvfrom fd size flags (.ok (d.take size))) (s.setInbox fd rest)
  | opened {s : KState} {d t p fd : Nat} : (∀ g, ¬ s.Owns fd g) → s.inbox fd = [] → KStep e F s (.socket d t p (.ok fd)) s
  | closed {s : KState} {fd : Nat} {r : Option Nat} : KStep e F s (.close fd r) (s.release fd)
  | silent {s : KState} {ev : Ev LEv} : Silent ev → KStep e F s ev s

/-- `K` keeps log groups: `st tr` is their state after the history `tr`; each call it answers does what it should, and anything may happen
before and after. -/
def Keeps (e : Endian) (F : Nat → Prop) (K : Kernel LEv) (st : List (Ev LEv) → KState) : Prop :=
  ∀ tr ev, Answers K tr ev → ∃ s1 s2, Meanwhile F (st tr) s1 ∧ KStep e F s1 ev s2 ∧ Meanwhile F s2 (st (tr ++ [ev]))

/-- The calls of `K` do not fail, and what lies in a socket is received. -/
structure Healthy (K : Kernel LEv) (st : List (Ev LEv) → KState) : Prop where
  socket : ∀ tr, ∃ fd, K.socket tr = .ok fd
  bind : ∀ tr fd, K.bind tr fd = none
  send : ∀ tr fd b, (∃ d t p, .socket d t p (.ok fd) ∈ tr) → K.send tr fd b = none
  recv : ∀ tr fd, (st tr).inbox fd ≠ [] → ∃ d, K.recv tr fd = .ok d

end Verif.NfLog
