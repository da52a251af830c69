import Verif.NfLog.Model
import Verif.Spec.Netlink
/-!
Specification of log delivery, from bytes alone.
-/
namespace Verif.NfLog
open Spec

/-- The ports shown are those at offset `o` of the packet `B`; 0 unless TCP (6) or UDP (17). -/
def PortsAre (m : NfPacket) (B : List Byte) (o : Nat) : Prop :=
  (m.protocol.toNat = 6 ∨ m.protocol.toNat = 17 →
    be16 B o = some m.srcPort.toNat ∧ be16 B (o + 2) = some m.dstPort.toNat) ∧
  (m.protocol.toNat ≠ 6 → m.protocol.toNat ≠ 17 → m.srcPort = 0 ∧ m.dstPort = 0)

/-- `m` is the report of the payload `pay` under the prefix `pfx`: addresses, protocol, total length,
id and ports are those of the IP packet `B` (the payload and its padding). -/
def Describes (m : NfPacket) (pfx pay B : List Byte) : Prop :=
  m.prefix' = pfx ∧ m.payload = pay ∧
  ((B[0]? = some 0x45 ∧ B[9]? = some m.protocol ∧ be16 B 2 = some m.length.toNat ∧
      (B.drop 12).take 4 = m.srcIP ∧ (B.drop 16).take 4 = m.dstIP ∧
      (∃ n, be16 B 4 = some n ∧ m.id = (toString n).toList) ∧ PortsAre m B 20) ∨
   ((∃ b, B[0]? = some b ∧ b.toNat / 16 ≠ 4) ∧ B[6]? = some m.protocol ∧
      (∃ n, be16 B 4 = some n ∧ m.length.toNat = (40 + n) % 65536) ∧
      (B.drop 8).take 16 = m.srcIP ∧ (B.drop 24).take 16 = m.dstIP ∧ m.id = ['0'] ∧ PortsAre m B 40))

/-- A payload with its zero padding. -/
def padded (p : List Byte) : List Byte := p ++ List.replicate (roundUp4 p.length - p.length) 0

/-- The reports a log message with these attributes must produce, in order, when the current prefix is
`pfx`: one per payload attribute (type 9), under the last prefix (type 10) before it, of which the
terminating NUL is dropped. -/
inductive Reported : List Byte → List (Nat × List Byte) → List NfPacket → Prop
  | nil {pfx} : Reported pfx [] []
  | prefix {pfx p attrs ms} : Reported p.dropLast attrs ms → Reported pfx ((10, p) :: attrs) ms
  | payload {pfx p m attrs ms} : Describes m pfx p (padded p) → Reported pfx attrs ms →
      Reported pfx ((9, p) :: attrs) (m :: ms)
  | other {pfx t p attrs ms} : t ≠ 9 → t ≠ 10 → Reported pfx attrs ms → Reported pfx ((t, p) :: attrs) ms

/-- The log callback was invoked. -/
def logged : Sys.Ev LEv → Option (Nat × NfPacket)
  | .app (.log cb m) => some (cb, m)
  | _ => none

/-- The invocations of the log callback in a history, in order. -/
def logs (tr : List (Sys.Ev LEv)) : List (Nat × NfPacket) := tr.filterMap logged

/-- The error callback was invoked. -/
def errored : Sys.Ev LEv → Option (Nat × String × Err)
  | .app (.error cb kind err) => some (cb, kind, err)
  | _ => none

/-- The invocations of the error callback in a history, in order. -/
def errors (tr : List (Sys.Ev LEv)) : List (Nat × String × Err) := tr.filterMap errored

/-- What the theorems ask of application callbacks: they do not replace the handle's callbacks or
socket, and do not themselves forge invocations of callbacks.  They may do anything else: system
calls, writes to memory. -/
structure Polite (env : Env) : Prop where
  keeps : ∀ w : W, (env.cbEffect w).st = w.st
  appends : ∀ w : W, ∃ evs, (env.cbEffect w).trace = w.trace ++ evs ∧
    (∀ ev ∈ evs, logged ev = none) ∧ ∀ ev ∈ evs, errored ev = none

/-- The payload of the last attribute of a message as the reader sees it: its last byte reads as 0 when
the payload has no padding. -/
def cut (p : List Byte) : List Byte := if p.length % 4 = 0 then p.dropLast ++ [0] else p

/-- The attributes of a message as the reader sees them. -/
def cutLast : List (Nat × List Byte) → List (Nat × List Byte)
  | [] => []
  | [(t, p)] => [(t, cut p)]
  | a :: b :: l => a :: cutLast (b :: l)

/-- A netlink message of a given type as the kernel lays it out on a little-endian host: total length,
type, ten bytes of flags, sequence number and port id, body. -/
def nlBytes (type : Nat) (mid body : List Byte) : List Byte :=
  bytes32 .little (16 + body.length) ++ bytes16 .little type ++ mid ++ body

/-- A netlink message: a log message (type NFULNL_MSG_PACKET = 0 of subsystem NFNL_SUBSYS_ULOG = 4) with
a generic header and attributes, or any other message. -/
inductive Item where
  | log (mid hdr : List Byte) (attrs : List (Nat × List Byte))
  | other (type : Nat) (mid body : List Byte)

/-- Its bytes. -/
def Item.bytes : Item → List Byte
  | .log mid hdr attrs => nlBytes (4 * 256) mid (hdr ++ encodeAttrs .little attrs)
  | .other type mid body => nlBytes type mid body

/-- A datagram: messages back to back. -/
def datagram (items : List Item) : List Byte := items.flatMap Item.bytes

/-- The reports a datagram must produce: those of its log messages, in order. -/
inductive AllReported : List Item → List NfPacket → Prop
  | nil : AllReported [] []
  | log {mid hdr attrs ms items ms'} : Reported [] (cutLast attrs) ms → AllReported items ms' →
      AllReported (.log mid hdr attrs :: items) (ms ++ ms')
  | other {type mid body items ms} : AllReported items ms → AllReported (.other type mid body :: items) ms

/-- The places where the walk over a datagram's messages looks for one: from a complete header at `i`
stating a length that fits, it moves on by that length. -/
inductive Steps (b : List Byte) : Nat → Nat → Prop
  | here (i : Nat) : Steps b i i
  | step {i j n : Nat} : i + 16 ≤ b.length → num32 .little b i = some n → i + n ≤ b.length →
      Steps b (i + n) j → Steps b i j

end Verif.NfLog
