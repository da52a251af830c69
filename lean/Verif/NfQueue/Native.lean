import Verif.NfQueue.Model
/-!
Model of the package variable `native` of /repo/nfqueue: nil when the process starts, set by `NewNFQueue`.  Everything else in the model
takes it as set (`Env.e`); this file and Props/NfQueueNative.lean say when that is right.
-/
namespace Verif.NfQueue
open Common Sys

/-- nfqueue/nfqueue.go:69 `var native binary.ByteOrder`: nil at first. -/
def nativeAtStart : Option Endian := none

/-- nfqueue/nfqueue.go:598-608 `nfqueueinit`, called by `NewNFQueue` (:73): `host` is the byte order of the machine. -/
def nfqueueinit (host : Endian) (native : Option Endian) : Option Endian :=
  match native with
  | some e => some e
  | none => some host

/-- nfqueue/helpers.go:14-28 `GetPacketInfo` with the variable: a method call on a nil interface value crashes. -/
def getPacketInfoOf (native : Option Endian) (h : Heap) (attr : Option AttrMap) : Res (Nat × Nat × Option Slice) :=
  match attr with
  | none => .ok (0, 0, none)
  | some m => do
    let packetID ← match m 1 with
      | some s => match native with
        | some e => do let v ← dec32 e (h.bytes s); pure v.toNat
        | none => .panic
      | none => pure 0
    let mark ← match m 3 with
      | some s => do let v ← dec32 .big (h.bytes s); pure v.toNat
      | none => pure 0
    pure (packetID, mark, m 10)

/-- nfqueue/helpers.go:31-36 `(*NfqMsgVerdictHdr).ToWireFormat` with the variable. -/
def verdictHdrWireOf (native : Option Endian) (verdict id : U32) : Res (List Byte) :=
  match native with
  | some e => verdictHdrWire e verdict id
  | none => .panic

/-- Where a goroutine is in `nfqueueinit`: not begun, has read nil and will write, done. -/
inductive InitAt where
  | before
  | sawNil
  | done
deriving DecidableEq

/-- nfqueue/nfqueue.go:598-608 in steps, goroutine `i` makes one: it reads the variable, and writes it if it read nil.  Reads and writes of
the variable are taken as atomic (both values it ever has differ from nil only in the type word). -/
def initStep (host : Endian) (s : Option Endian × (Nat → InitAt)) (i : Nat) : Option Endian × (Nat → InitAt) :=
  match s.2 i with
  | .before => (s.1, fun k => if k = i then (if s.1.isSome then .done else .sawNil) else s.2 k)
  | .sawNil => (some host, fun k => if k = i then .done else s.2 k)
  | .done => s

end Verif.NfQueue
