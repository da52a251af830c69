import Verif.Go.Heap
/-!
System calls and the wrappers of package `syscallwrappers`
(/repo/common/syscallwrappers/syscalls.go).

The kernel is an arbitrary function from the history of everything that happened so far to the
result of the next raw call; theorems quantify over all such functions.  The history records raw
calls with their results, and application-visible events of type `α` (callbacks, goroutine starts).
-/
namespace Verif.Sys

/-- Something observable from outside the process: a raw system call and its result (`none` =
success, `some errno` = failure), or an application event. -/
inductive Ev (α : Type) where
  /-- `socket(domain, type, proto)`: new descriptor or errno -/
  | socket (domain typ proto : Nat) (r : Except Nat Nat)
  | bind (fd : Nat) (r : Option Nat)
  | setsockopt (fd level opt value : Nat) (r : Option Nat)
  /-- `setsockopt(SO_LINGER)` -/
  | linger (fd : Nat) (r : Option Nat)
  | close (fd : Nat) (r : Option Nat)
  /-- `sendto(fd, bytes, flags)` to the local netlink address with port id 0 (the kernel) -/
  | sendto (fd : Nat) (bytes : List Byte) (flags : Nat) (r : Option Nat)
  /-- `recvfrom(fd, buffer of given size, flags)`: bytes stored or errno -/
  | recvfrom (fd size flags : Nat) (r : Except Nat (List Byte))
  /-- `sendmsg(fd, bytes gathered from the iovecs)` -/
  | sendmsg (fd : Nat) (bytes : List Byte) (r : Option Nat)
  | app (a : α)

/-- Arbitrary kernel: results as a function of the history. -/
structure Kernel (α : Type) where
  /-- result of `socket` -/
  socket : List (Ev α) → Except Nat Nat
  /-- result of `bind` on a descriptor -/
  bind : List (Ev α) → Nat → Option Nat
  /-- result of `setsockopt` -/
  setsockopt : List (Ev α) → Nat → Option Nat
  /-- result of `close` -/
  close : List (Ev α) → Nat → Option Nat
  /-- result of `sendto` / `sendmsg` with these bytes -/
  send : List (Ev α) → Nat → List Byte → Option Nat
  /-- the next datagram (cut to the buffer size), or an errno -/
  recv : List (Ev α) → Nat → Except Nat (List Byte)

/-- State of the world as the code sees it: history, memory, and the package's own state `τ`. -/
structure World (α τ : Type) where
  trace : List (Ev α)
  heap : Heap
  st : τ

variable {α τ : Type}

/-- Append an event to the history. -/
def World.log (w : World α τ) (e : Ev α) : World α τ := { w with trace := w.trace ++ [e] }

/-! Raw calls -/

def rawSocket (K : Kernel α) (domain typ proto : Nat) : GoM (World α τ) (Except Nat Nat) := fun w =>
  let r := K.socket w.trace
  .ok (r, w.log (.socket domain typ proto r))

def rawBind (K : Kernel α) (fd : Nat) : GoM (World α τ) (Option Nat) := fun w =>
  let r := K.bind w.trace fd
  .ok (r, w.log (.bind fd r))

def rawSetsockopt (K : Kernel α) (fd level opt value : Nat) : GoM (World α τ) (Option Nat) := fun w =>
  let r := K.setsockopt w.trace fd
  .ok (r, w.log (.setsockopt fd level opt value r))

def rawLinger (K : Kernel α) (fd : Nat) : GoM (World α τ) (Option Nat) := fun w =>
  let r := K.setsockopt w.trace fd
  .ok (r, w.log (.linger fd r))

def rawClose (K : Kernel α) (fd : Nat) : GoM (World α τ) (Option Nat) := fun w =>
  let r := K.close w.trace fd
  .ok (r, w.log (.close fd r))

def rawSendto (K : Kernel α) (fd : Nat) (bytes : List Byte) (flags : Nat) :
    GoM (World α τ) (Option Nat) := fun w =>
  let r := K.send w.trace fd bytes
  .ok (r, w.log (.sendto fd bytes flags r))

def rawSendmsg (K : Kernel α) (fd : Nat) (bytes : List Byte) : GoM (World α τ) (Option Nat) := fun w =>
  let r := K.send w.trace fd bytes
  .ok (r, w.log (.sendmsg fd bytes r))

/-- The kernel stores at most `size` bytes. -/
def rawRecvfrom (K : Kernel α) (fd size flags : Nat) : GoM (World α τ) (Except Nat (List Byte)) :=
  fun w =>
    let r := (K.recv w.trace fd).map (·.take size)
    .ok (r, w.log (.recvfrom fd size flags r))

/-! Wrappers -/

/-- common/syscallwrappers/syscalls.go:13-18 `Bind`. -/
def bind (K : Kernel α) (fd : Nat) : GoM (World α τ) (Option Nat) := do
  if (← rawBind K fd).isSome then rawBind K fd else pure none

/-- common/syscallwrappers/syscalls.go:20-26 `Socket` (the -1 of the error case is the absence
of a descriptor). -/
def socket (K : Kernel α) (domain typ proto : Nat) : GoM (World α τ) (Except Nat Nat) := do
  match ← rawSocket K domain typ proto with
  | .error err => pure (.error err)
  | .ok fd => pure (.ok fd)

/-- common/syscallwrappers/syscalls.go:28-33 `SetsockoptInt`. -/
def setsockoptInt (K : Kernel α) (fd level opt value : Nat) : GoM (World α τ) (Option Nat) := do
  if (← rawSetsockopt K fd level opt value).isSome then rawSetsockopt K fd level opt value
  else pure none

/-- common/syscallwrappers/syscalls.go:35-40 `Close`. -/
def close (K : Kernel α) (fd : Nat) : GoM (World α τ) (Option Nat) := do
  if (← rawClose K fd).isSome then rawClose K fd else pure none

/-- common/syscallwrappers/syscalls.go:42-48 `Recvfrom`: bytes received or errno. -/
def recvfrom (K : Kernel α) (fd size flags : Nat) : GoM (World α τ) (Except Nat (List Byte)) := do
  match ← rawRecvfrom K fd size flags with
  | .error err => pure (.error err)
  | .ok d => pure (.ok d)

/-- common/syscallwrappers/syscalls.go:50-55 `Sendto`. -/
def sendto (K : Kernel α) (fd : Nat) (bytes : List Byte) (flags : Nat) :
    GoM (World α τ) (Option Nat) := do
  if (← rawSendto K fd bytes flags).isSome then rawSendto K fd bytes flags else pure none

/-- common/syscallwrappers/syscalls.go:57-63 `Syscall`, the only use being SYS_SENDMSG. -/
def syscallSendmsg (K : Kernel α) (fd : Nat) (bytes : List Byte) : GoM (World α τ) (Option Nat) := do
  match ← rawSendmsg K fd bytes with
  | some err => pure (some err)
  | none => pure none

/-- `Recvfrom(fd, buf, flags)` into memory: the bytes received land at the front of `buf`;
returns their number. -/
def recvInto (K : Kernel α) (fd : Nat) (buf : Slice) (flags : Nat) :
    GoM (World α τ) (Except Nat Nat) := fun w =>
  match recvfrom K fd buf.len flags w with
  | .ok (.error err, w') => .ok (.error err, w')
  | .ok (.ok d, w') => .ok (.ok d.length, { w' with heap := w'.heap.write buf.arr buf.off d })
  | .panic => .panic
  | .diverge => .diverge

end Verif.Sys
