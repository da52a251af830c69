import Verif.NfQueue.Model
import Verif.Spec.Netlink
/-!
Specification vocabulary for the nfqueue properties, independent of how the code builds messages:
what a configuration request means, what an exchange with the kernel looks like from outside.
Numbers are those of include/uapi/linux/netfilter/nfnetlink_queue.h.
-/
namespace Verif.NfQueue
open Sys Spec

/-- The configuration requests of the API. -/
inductive QReq where
  /-- stop handling the protocol family AF_INET -/
  | pfUnbind
  /-- start handling the protocol family AF_INET -/
  | pfBind
  /-- bind to queue `q` -/
  | bindQueue (q : Nat)
  /-- unbind from queue `q` -/
  | unbindQueue (q : Nat)
  /-- copy mode and copy range of queue `q` -/
  | setMode (q mode range : Nat)
  /-- maximum length of queue `q` -/
  | setMaxLen (q n : Nat)
deriving DecidableEq

/-- `struct nfqnl_msg_config_cmd`: command, padding, protocol family in network order. -/
def CmdIs (cmd pf : Nat) (p : List Byte) : Prop :=
  p.length = 4 ∧ (p[0]?).map BitVec.toNat = some cmd ∧ be16 p 2 = some pf

/-- `struct nfqnl_msg_config_params`: copy range in network order, copy mode. -/
def ParamsAre (range mode : Nat) (p : List Byte) : Prop :=
  be32 p 0 = some range ∧ (p[4]?).map BitVec.toNat = some mode

/-- The attribute a request carries: type and payload. NFQA_CFG_CMD = 1 with commands BIND = 1,
UNBIND = 2, PF_BIND = 3, PF_UNBIND = 4; NFQA_CFG_PARAMS = 2; NFQA_CFG_QUEUE_MAXLEN = 3. -/
def QReq.AttrIs (r : QReq) (t : Nat) (p : List Byte) : Prop :=
  match r with
  | .pfUnbind => t = 1 ∧ CmdIs 4 2 p
  | .pfBind => t = 1 ∧ CmdIs 3 2 p
  | .bindQueue _ => t = 1 ∧ CmdIs 1 0 p
  | .unbindQueue _ => t = 1 ∧ CmdIs 2 0 p
  | .setMode _ mode range => t = 2 ∧ ParamsAre range mode p
  | .setMaxLen _ n => t = 3 ∧ p.length = 4 ∧ be32 p 0 = some n

/-- The queue (resource id) a request is about; 0 for requests about the protocol family. -/
def QReq.queue : QReq → Nat
  | .pfUnbind => 0
  | .pfBind => 0
  | .bindQueue q => q
  | .unbindQueue q => q
  | .setMode q _ _ => q
  | .setMaxLen q _ => q

/-- These bytes, decoded by the kernel, are exactly this request: one message of subsystem
NFNL_SUBSYS_QUEUE (3), type NFQNL_MSG_CONFIG (2), flags REQUEST|ACK (5), stating its true length, with
exactly one attribute. -/
def Encodes (e : Endian) (b : List Byte) (r : QReq) : Prop :=
  ∃ t p, decodeNf e b = some ⟨b.length, 3 * 256 + 2, 5, 0, 0, 0, 0, r.queue, [⟨t, false, p⟩]⟩ ∧
    r.AttrIs t p

/-- A kernel reply refusing a request: an NLMSG_ERROR (type 2) whose code (at offset 16) is not 0. -/
def Refusal (e : Endian) (d : List Byte) : Prop :=
  num16 e d 4 = some 2 ∧ num32 e d 16 ≠ some 0

/-- The raw calls of a wrapper-level Sendto: one, or two with the same bytes when the first failed;
`r` is the final result. -/
def SendEvs (fd : Nat) (bytes : List Byte) (r : Option Nat) (evs : List (Ev QEv)) : Prop :=
  (r = none ∧ evs = [.sendto fd bytes 0 none]) ∨
    ∃ e1, evs = [.sendto fd bytes 0 (some e1), .sendto fd bytes 0 r]

/-- What sending `bytes` and awaiting the reply looks like from outside, and the result reported.
Replies shorter than 20 bytes cannot carry an error code; nothing is said about them. -/
inductive QueryOut (e : Endian) (fd size : Nat) (bytes : List Byte) : Option Err → List (Ev QEv) → Prop
  | sendFailed {n evs} : SendEvs fd bytes (some n) evs → QueryOut e fd size bytes (some (.errno n)) evs
  | recvFailed {n evs} : SendEvs fd bytes none evs →
      QueryOut e fd size bytes (some (.wrap "Recvfrom returned error %v" (.errno n)))
        (evs ++ [.recvfrom fd size 0 (.error n)])
  | replied {d r evs} : SendEvs fd bytes none evs → d.length < size →
      (20 ≤ d.length → (r = none ↔ ¬ Refusal e d)) →
      (20 ≤ d.length → Refusal e d →
        ∃ c : Int, r = some (.netlink c) ∧ numI32 e d 16 = some c) →
      QueryOut e fd size bytes r (evs ++ [.recvfrom fd size 0 (.ok d)])

/-- The exchange of request `req` over descriptor `fd` with receive buffer `size`: events, result. -/
def Exchange (e : Endian) (fd size : Nat) (req : QReq) (r : Option Err) (evs : List (Ev QEv)) : Prop :=
  ∃ b, Encodes e b req ∧ QueryOut e fd size b r evs

/-- An exchange that the kernel acknowledged: sent, answered, and the answer (if long enough to be
an acknowledgement at all) is no refusal. -/
def Acked (e : Endian) (fd : Nat) (req : QReq) (evs : List (Ev QEv)) : Prop :=
  ∃ b d size evs1, Encodes e b req ∧ SendEvs fd b none evs1 ∧
    evs = evs1 ++ [.recvfrom fd size 0 (.ok d)] ∧ d.length < size ∧ (20 ≤ d.length → ¬ Refusal e d)

/-- The raw calls of a wrapper-level Close. -/
def CloseEvs (fd : Nat) (evs : List (Ev QEv)) : Prop :=
  evs = [.close fd none] ∨ ∃ e1 r, evs = [.close fd (some e1), .close fd r]

/-- A close of any descriptor. -/
def isClose : Ev QEv → Bool
  | .close _ _ => true
  | _ => false

/-- A message sent or received. -/
def isTransfer : Ev QEv → Bool
  | .sendto _ _ _ _ => true
  | .recvfrom _ _ _ _ => true
  | _ => false

/-- The reader goroutine was started. -/
def isSpawn : Ev QEv → Bool
  | .app .spawnReader => true
  | _ => false

/-- The queue's socket is open, and its receive buffer is a real buffer. -/
def Ready (w : W) (qh : Handle) : Prop :=
  w.st.handle = some qh ∧ qh.buf.Valid w.heap ∧ qh.buf.cap = qh.buf.len

end Verif.NfQueue
