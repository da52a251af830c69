import Verif.Conntrack.Spec
import Verif.Spec.Kernel
/-!
Specification of the other side: a kernel that keeps a connection table and serves the requests of this library on it
(net/netfilter/nf_conntrack_netlink.c: `ctnetlink_new_conntrack`, `ctnetlink_change_conntrack`; `nlattr_to_tcp` of
net/netfilter/nf_conntrack_proto_tcp.c; `nf_connlabels_replace` of net/netfilter/nf_conntrack_labels.c).  Nothing here refers to how
the library builds its messages.
-/
namespace Verif.Conntrack
open Sys Spec

/-- An entry of the table: the tuples of the two directions, the mark, the labels (16 bytes; `none` = the entry has no label area). -/
structure Entry where
  orig : Conn
  reply : Conn
  mark : Nat
  labels : Option (List Byte)
deriving DecidableEq

/-- `c` is one of the two tuples of the entry: how the kernel looks entries up. -/
def Entry.Is (x : Entry) (c : Conn) : Prop := x.orig = c ∨ x.reply = c

instance (x : Entry) (c : Conn) : Decidable (x.Is c) := by unfold Entry.Is; infer_instance

/-- The connection table. -/
abbrev Table := List Entry

/-- The connection a tuple names (`ctnetlink_parse_tuple`). -/
def connOf (e : Endian) (tuple : List Byte) : Option Conn := do
  let as ← decodeAttrs e tuple
  let ips ← decodeAttrs e (← attrOf 1 as)
  let prs ← decodeAttrs e (← attrOf 2 as)
  let proto ← (← attrOf 1 prs)[0]?
  let sport ← be16 (← attrOf 2 prs) 0
  let dport ← be16 (← attrOf 3 prs) 0
  some ⟨← attrOf 1 ips, ← attrOf 2 ips, proto, BitVec.ofNat 16 sport, BitVec.ofNat 16 dport⟩

/-- Attributes as the kernel's parser meets them: up to the first malformed one (`nla_for_each_attr`). -/
def walkAttrs (e : Endian) : Nat → List Byte → List Attr
  | 0, _ => []
  | n + 1, b =>
    match num16 e b 0, num16 e b 2 with
    | some l, some t =>
      if 4 ≤ l ∧ l ≤ b.length then ⟨t % 16384, decide (t / 32768 % 2 = 1), (b.take l).drop 4⟩ :: walkAttrs e n (b.drop (roundUp4 l))
      else []
    | _, _ => []

/-- `tcp_nla_policy`: the flags attributes (4, 5) of CTA_PROTOINFO_TCP hold a `struct nf_ct_tcp_flags`, two bytes. -/
def tcpFlagsOk (e : Endian) (flags : List Byte) : Bool :=
  (walkAttrs e flags.length flags).all fun a => (a.type != 4 && a.type != 5) || decide (2 ≤ a.payload.length)

/-- `nlattr_to_tcp`: is the protocol information, if there is any, acceptable? -/
def infoOk (e : Endian) (as : List Attr) : Bool :=
  match attrOf 4 as with
  | none => true
  | some info =>
    match decodeAttrs e info with
    | none => false
    | some inner => match attrOf 1 inner with
      | none => true
      | some flags => tcpFlagsOk e flags

/-- Sixteen bytes of labels: those given, the rest 0. -/
def padLabels (p : List Byte) : List Byte := (p ++ List.replicate 16 0).take 16

/-- `ctnetlink_change_conntrack` on one entry: the error code (0 = done) and the entry afterwards.  -34 = -ERANGE for short flags of a
TCP connection, then the mark is set, then the labels; -28 = -ENOSPC without a label area. -/
def Entry.change (e : Endian) (as : List Attr) (x : Entry) : Int × Entry :=
  if x.orig.proto = 6 ∧ infoOk e as = false then (-34, x) else
  let x := match (attrOf 8 as).bind (be32 · 0) with
    | some m => { x with mark := m }
    | none => x
  match attrOf 22 as with
  | none => (0, x)
  | some p => match x.labels with
    | none => (-28, x)
    | some _ => (0, { x with labels := some (padLabels p) })

/-- Serving one request (`ctnetlink_new_conntrack` for a message of type IPCTNL_MSG_CT_NEW without NLM_F_CREATE): the code of the reply
and the table afterwards.  -2 = -ENOENT: no such entry; -22 = -EINVAL: not understood. -/
def serve (e : Endian) (b : List Byte) (t : Table) : Int × Table :=
  match decodeNf e b with
  | some m =>
    if m.type = 256 ∧ m.family = 2 then
      match (attrOf 1 m.attrs).bind (connOf e) with
      | some c =>
        match t.find? fun x => decide (x.Is c) with
        | some x => ((x.change e m.attrs).1, t.map fun y => if y.Is c then (y.change e m.attrs).2 else y)
        | none => (-2, t)
      | none => (-22, t)
    else (-22, t)
  | none => (-22, t)

/-- `K` keeps a table: `tab tr` is the table after the history `tr`; a request that is sent is served at once; a reply received right after a
request is the reply to it.  Between requests the table may change in any way (`tab` is not constrained there): packets come and go. -/
structure KeepsTable (e : Endian) (K : Kernel CEv) (tab : List (Ev CEv) → Table) : Prop where
  serves : ∀ tr fd b f, tab (tr ++ [.sendto fd b f none]) = (serve e b (tab tr)).2
  replies : ∀ tr fd b f d, K.recv (tr ++ [.sendto fd b f none]) fd = .ok d → ReplyIs e d (serve e b (tab tr)).1

/-- `ev` is a request handed to the kernel. -/
def isRequest : Ev CEv → Bool
  | .sendto _ _ _ none => true
  | _ => false

/-- Nothing but requests changes the table. -/
def Undisturbed (tab : List (Ev CEv) → Table) : Prop := ∀ tr ev, isRequest ev = false → tab (tr ++ [ev]) = tab tr

/-- The table with the mark of `c` set: the entries one of whose tuples is `c` get that mark, nothing else is different. -/
def Table.setMark (t : Table) (c : Conn) (mark : Nat) : Table := t.map fun x => if x.Is c then { x with mark := mark } else x

/-- The same for labels: the four bytes `p`, the rest 0. -/
def Table.setLabels (t : Table) (c : Conn) (p : List Byte) : Table :=
  t.map fun x => if x.Is c then { x with labels := x.labels.map fun _ => padLabels p } else x

/-- The table has an entry for `c`. -/
def Table.Has (t : Table) (c : Conn) : Prop := ∃ x ∈ t, x.Is c

/-- The other direction. -/
def Conn.mirror (c : Conn) : Conn := ⟨c.dst, c.src, c.proto, c.dport, c.sport⟩

/-- A tuple as the library that lists the table reports it. -/
def Conn.tuple (c : Conn) : Tuple := ⟨c.src, c.dst, c.proto, c.sport, c.dport⟩

/-- The table as listed. -/
def Table.listed (t : Table) : List Flow := t.map fun x => ⟨x.orig.tuple, x.reply.tuple⟩

/-- An IPv4 connection table: every address has four bytes and (the kernel's own invariant) no tuple belongs to two entries. -/
structure Table.Ok (t : Table) : Prop where
  v4 : ∀ x ∈ t, x.orig.src.length = 4 ∧ x.orig.dst.length = 4 ∧ x.reply.src.length = 4 ∧ x.reply.dst.length = 4
  unique : t.Pairwise fun x y => ∀ c, ¬ (x.Is c ∧ y.Is c)

/-- A kernel on which system calls do not fail. -/
structure Works (K : Kernel CEv) : Prop where
  socket : ∀ tr, ∃ fd, K.socket tr = .ok fd
  bind : ∀ tr fd, K.bind tr fd = none
  send : ∀ tr fd b, K.send tr fd b = none
  recv : ∀ tr fd, ∃ d, K.recv tr fd = .ok d

/-! ### Such a kernel exists, for every table -/

/-- The table after a history. -/
def replay (e : Endian) (t0 : Table) (tr : List (Ev CEv)) : Table :=
  tr.foldl (fun t ev => match ev with
    | .sendto _ b _ none => (serve e b t).2
    | _ => t) t0

/-- The kernel that does exactly this. -/
def tableKernel (e : Endian) (t0 : Table) : Kernel CEv where
  socket := fun _ => .ok 3
  bind := fun _ _ => none
  setsockopt := fun _ _ => none
  close := fun _ _ => none
  send := fun _ _ _ => none
  recv := fun tr _ => .ok (replyBytes e (match tr.getLast? with
    | some (.sendto _ b _ none) => (serve e b (replay e t0 tr.dropLast)).1
    | _ => 0))

end Verif.Conntrack
