import Verif.NfLog.Model
import Verif.Sys.Lemmas
import Verif.Spec.Netlink
/-!
Specification vocabulary for nflog configuration, independent of how the code builds messages.
Numbers are those of include/uapi/linux/netfilter/nfnetlink_log.h.
-/
namespace Verif.NfLog
open Sys Spec

/-- The configuration requests of the API. -/
inductive LReq where
  /-- stop logging for the protocol family AF_INET -/
  | pfUnbind
  /-- start logging for the protocol family AF_INET -/
  | pfBind
  /-- bind to group `g` -/
  | bindGroup (g : Nat)
  /-- copy whole packets of group `g`, up to `range` bytes -/
  | copyPacket (g range : Nat)
deriving DecidableEq

/-- The attribute a request carries.  NFULA_CFG_CMD = 1: one command byte (the kernel reads only
that one); NFULA_CFG_MODE = 2: copy range in network order, copy mode (2 = NFULNL_COPY_PACKET). -/
def LReq.AttrIs (r : LReq) (t : Nat) (p : List Byte) : Prop :=
  match r with
  | .pfUnbind => t = 1 ∧ (p[0]?).map BitVec.toNat = some 4
  | .pfBind => t = 1 ∧ (p[0]?).map BitVec.toNat = some 3
  | .bindGroup _ => t = 1 ∧ (p[0]?).map BitVec.toNat = some 1
  | .copyPacket _ range => t = 2 ∧ be32 p 0 = some range ∧ (p[4]?).map BitVec.toNat = some 2

/-- The group (resource id) a request is about; 0 for requests about the protocol family. -/
def LReq.group : LReq → Nat
  | .pfUnbind => 0
  | .pfBind => 0
  | .bindGroup g => g
  | .copyPacket g _ => g

/-- The protocol family in the generic header: AF_INET = 2 for commands. -/
def LReq.family : LReq → Nat
  | .copyPacket _ _ => 0
  | _ => 2

/-- These bytes, decoded by the kernel, are exactly this request: one message of subsystem
NFNL_SUBSYS_ULOG (4), type NFULNL_MSG_CONFIG (1), flags REQUEST|ACK (5), stating its true length, with
exactly one attribute. -/
def Encodes (e : Endian) (b : List Byte) (r : LReq) : Prop :=
  ∃ t p, decodeNf e b = some ⟨b.length, 4 * 256 + 1, 5, 0, 0, r.family, 0, r.group, [⟨t, false, p⟩]⟩ ∧
    r.AttrIs t p

/-- A kernel reply refusing a request: an NLMSG_ERROR (type 2) whose code (at offset 16) is not 0. -/
def Refusal (e : Endian) (d : List Byte) : Prop :=
  num16 e d 4 = some 2 ∧ num32 e d 16 ≠ some 0

/-- A reply that acknowledges: long enough to hold an error code, and no refusal. -/
def Ack (e : Endian) (d : List Byte) : Prop := 20 ≤ d.length ∧ ¬ Refusal e d

/-- What sending `bytes` and awaiting the reply looks like from outside, and the result reported: the
errno of the send, an error if receiving failed, nil for an acknowledgement, the code of a refusal. -/
inductive QueryOut (e : Endian) (fd : Nat) (bytes : List Byte) : Option Err → List (Ev LEv) → Prop
  | sendFailed {n evs} : SendEvs fd bytes (some n) evs → QueryOut e fd bytes (some (.errno n)) evs
  | recvFailed {n evs size} : SendEvs fd bytes none evs →
      QueryOut e fd bytes (some (.wrap "Recvfrom returned error %v" (.errno n)))
        (evs ++ [.recvfrom fd size 0 (.error n)])
  | replied {d r evs} : SendEvs fd bytes none evs → d.length ≤ bytes.length →
      (r = none ↔ Ack e d) →
      (16 ≤ d.length → Refusal e d →
        ∃ c : Int, r = some (.netlink c) ∧ numI32 e d 16 = some c) →
      QueryOut e fd bytes r (evs ++ [.recvfrom fd bytes.length 0 (.ok d)])

/-- The exchange of request `req` over descriptor `fd`: events, result. -/
def Exchange (e : Endian) (fd : Nat) (req : LReq) (r : Option Err) (evs : List (Ev LEv)) : Prop :=
  ∃ b, Encodes e b req ∧ QueryOut e fd b r evs

/-- One exchange per group, in order, up to and including the first that fails; the result is nil
if none fails, else the error of that one. -/
inductive GroupsOut (e : Endian) (fd : Nat) (req : Nat → LReq) :
    List U16 → Option Err → List (Ev LEv) → Prop
  | nil : GroupsOut e fd req [] none []
  | cons {g gs r ev1 evs} : Exchange e fd (req g.toNat) none ev1 → GroupsOut e fd req gs r evs →
      GroupsOut e fd req (g :: gs) r (ev1 ++ evs)
  | stop {g gs err ev1} : Exchange e fd (req g.toNat) (some err) ev1 →
      GroupsOut e fd req (g :: gs) (some err) ev1

/-- A request that was sent, answered and acknowledged. -/
def Acked (e : Endian) (fd : Nat) (req : LReq) (evs : List (Ev LEv)) : Prop :=
  ∃ b d size evs1, Encodes e b req ∧ SendEvs fd b none evs1 ∧
    evs = evs1 ++ [.recvfrom fd size 0 (.ok d)] ∧ Ack e d

/-- All groups acknowledged, in order. -/
inductive AllAcked (e : Endian) (fd : Nat) (req : Nat → LReq) : List U16 → List (Ev LEv) → Prop
  | nil : AllAcked e fd req [] []
  | cons {g gs ev1 evs} : Acked e fd (req g.toNat) ev1 → AllAcked e fd req gs evs →
      AllAcked e fd req (g :: gs) (ev1 ++ evs)

/-- The reader goroutine was started. -/
def isSpawn : Ev LEv → Bool
  | .app .spawnReader => true
  | _ => false

end Verif.NfLog
