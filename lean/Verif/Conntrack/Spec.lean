import Verif.Conntrack.Model
import Verif.Sys.Lemmas
import Verif.Spec.Netlink
/-!
Specification vocabulary for conntrack updates, independent of how the code builds messages.  Numbers are those of
include/uapi/linux/netfilter/nfnetlink_conntrack.h.
-/
namespace Verif.Conntrack
open Sys Spec

/-- `ip` is the IPv4 address `a` (four bytes), in 4-byte or in IPv4-mapped 16-byte form. -/
def IsV4 (ip a : List Byte) : Prop :=
  a.length = 4 ∧ (ip = a ∨ ip = List.replicate 10 0 ++ [0xff, 0xff] ++ a)

instance (ip a : List Byte) : Decidable (IsV4 ip a) := by unfold IsV4; infer_instance

/-- A connection: addresses (four bytes each), protocol, ports. -/
structure Conn where
  src : List Byte
  dst : List Byte
  proto : Byte
  sport : U16
  dport : U16
deriving DecidableEq

/-- The bytes `p` are a conntrack tuple naming the connection `c`: CTA_TUPLE_IP (1) with CTA_IP_V4_SRC (1) and
CTA_IP_V4_DST (2), CTA_TUPLE_PROTO (2) with CTA_PROTO_NUM (1), CTA_PROTO_SRC_PORT (2) and CTA_PROTO_DST_PORT (3),
nothing else, ports in network order. -/
def TupleIs (e : Endian) (p : List Byte) (c : Conn) : Prop :=
  ∃ ip proto, decodeAttrs e p = some [⟨1, true, ip⟩, ⟨2, true, proto⟩] ∧
    decodeAttrs e ip = some [⟨1, false, c.src⟩, ⟨2, false, c.dst⟩] ∧
    decodeAttrs e proto = some [⟨1, false, [c.proto]⟩, ⟨2, false, bytes16 .big c.sport.toNat⟩,
      ⟨3, false, bytes16 .big c.dport.toNat⟩]

/-- The bytes `b` are one message updating the conntrack entry of `c` (subsystem NFNL_SUBSYS_CTNETLINK = 1, type
IPCTNL_MSG_CT_NEW = 0, flags REQUEST|ACK = 5, family AF_INET = 2), stating its true length, with the original tuple
(CTA_TUPLE_ORIG = 1) of `c` followed by exactly the attributes `extra`. -/
def UpdateIs (e : Endian) (b : List Byte) (c : Conn) (extra : List Attr) : Prop :=
  ∃ tuple, decodeNf e b = some ⟨b.length, 1 * 256 + 0, 5, 0, 0, 2, 0, 0, ⟨1, true, tuple⟩ :: extra⟩ ∧
    TupleIs e tuple c

/-- An update setting the mark of `c` (CTA_MARK = 8, network order). -/
def MarkReq (e : Endian) (c : Conn) (mark : U32) (b : List Byte) : Prop :=
  UpdateIs e b c [⟨8, false, bytes32 .big mark.toNat⟩]

/-- An update setting the label of `c` (CTA_LABELS = 22, host order), without protocol information. -/
def LabelReq (e : Endian) (c : Conn) (label : U32) (b : List Byte) : Prop :=
  UpdateIs e b c [⟨22, false, bytes32 e label.toNat⟩]

/-- An update setting the label of the TCP connection `c`, with protocol information (CTA_PROTOINFO = 4) consisting of
CTA_PROTOINFO_TCP (1) with contents `flags`. -/
def LabelReqTCP (e : Endian) (c : Conn) (label : U32) (flags b : List Byte) : Prop :=
  ∃ info, UpdateIs e b c [⟨4, true, info⟩, ⟨22, false, bytes32 e label.toNat⟩] ∧
    decodeAttrs e info = some [⟨1, true, flags⟩]

/-- A kernel reply refusing a request: an NLMSG_ERROR (type 2) whose code (at offset 16) is not 0. -/
def Refusal (e : Endian) (d : List Byte) : Prop :=
  num16 e d 4 = some 2 ∧ num32 e d 16 ≠ some 0

/-- A reply that acknowledges: long enough to hold an error code, and no refusal. -/
def Ack (e : Endian) (d : List Byte) : Prop := 20 ≤ d.length ∧ ¬ Refusal e d

/-- What sending `bytes` and awaiting the reply looks like from outside, and the result reported: the errno of the
send, an error if receiving failed, nil for an acknowledgement, the code of a refusal. -/
inductive QueryOut (e : Endian) (fd : Nat) (bytes : List Byte) : Option Err → List (Ev CEv) → Prop
  | sendFailed {n evs} : SendEvs fd bytes (some n) evs → QueryOut e fd bytes (some (.errno n)) evs
  | recvFailed {n evs size} : SendEvs fd bytes none evs →
      QueryOut e fd bytes (some (.wrap "Recvfrom returned error %v" (.errno n)))
        (evs ++ [.recvfrom fd size 0 (.error n)])
  | replied {d r evs size} : SendEvs fd bytes none evs → d.length ≤ size →
      (r = none ↔ Ack e d) →
      (16 ≤ d.length → Refusal e d →
        ∃ c : Int, r = some (.netlink c) ∧ numI32 e d 16 = some c) →
      QueryOut e fd bytes r (evs ++ [.recvfrom fd size 0 (.ok d)])

/-- One request as seen from outside, and its result: a socket (AF_NETLINK, SOCK_RAW, NETLINK_NETFILTER) is opened and
bound, a request satisfying `req` is sent over it and its reply awaited, and it is closed. -/
def Exchange (e : Endian) (req : List Byte → Prop) (r : Option Err) (evs : List (Ev CEv)) : Prop :=
  ∃ b fd bnd q cl, req b ∧ evs = .socket 16 3 12 (.ok fd) :: (bnd ++ q ++ cl) ∧ BindEvs fd none bnd ∧
    QueryOut e fd b r q ∧ CloseEvs fd cl

/-- `k` requests one after the other, up to and including the first that fails; the result is nil if none fails, else
the error of that one. -/
inductive Updates (e : Endian) (req : List Byte → Prop) : Nat → Option Err → List (Ev CEv) → Prop
  | nil : Updates e req 0 none []
  | cons {k r ev1 evs} : Exchange e req none ev1 → Updates e req k r evs → Updates e req (k + 1) r (ev1 ++ evs)
  | stop {k err ev1} : Exchange e req (some err) ev1 → Updates e req (k + 1) (some err) ev1

/-- A flow between IPv4 addresses. -/
def V4Flow (f : Flow) : Prop :=
  (∃ a, IsV4 f.forward.srcIP a) ∧ (∃ a, IsV4 f.forward.dstIP a) ∧ (∃ a, IsV4 f.reverse.srcIP a) ∧
    ∃ a, IsV4 f.reverse.dstIP a

/-- A flow is that of the connection `c`: its forward tuple is `c`, its reverse tuple is the mirror image. -/
def FlowOf (f : Flow) (c : Conn) : Prop :=
  IsV4 f.forward.srcIP c.src ∧ IsV4 f.forward.dstIP c.dst ∧ f.forward.protocol = c.proto ∧
    f.forward.srcPort = c.sport ∧ f.forward.dstPort = c.dport ∧
  IsV4 f.reverse.srcIP c.dst ∧ IsV4 f.reverse.dstIP c.src ∧ f.reverse.protocol = c.proto ∧
    f.reverse.srcPort = c.dport ∧ f.reverse.dstPort = c.sport

instance (f : Flow) (c : Conn) : Decidable (FlowOf f c) := by unfold FlowOf; infer_instance

/-- The number of flows that are those of `c`. -/
def matching (flows : List Flow) (c : Conn) : Nat := flows.countP fun f => decide (FlowOf f c)

/-- The arguments of a call name the connection `c`: the two strings are IPv4 addresses. -/
def Names (env : Env) (ipSrc ipDst : String) (protonum : Byte) (srcport dstport : U16) (c : Conn) : Prop :=
  IsV4 (env.parseIP ipSrc) c.src ∧ IsV4 (env.parseIP ipDst) c.dst ∧ protonum = c.proto ∧ srcport = c.sport ∧
    dstport = c.dport

end Verif.Conntrack
