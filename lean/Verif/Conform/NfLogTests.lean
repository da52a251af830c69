import Verif.Props.NfLogConfig
/-!
The repository's own tests of package `nflog` (/repo/nflog/nflog_test.go), replayed on the model with a kernel that answers as the mocks
do.  These are tests of the model's fidelity, not properties.
-/
namespace Verif.Conform.NfLogTests
open Verif Verif.Sys Verif.Common Verif.NfLog Verif.Spec

/-- nflog_test.go:53, 91: the bytes the tests expect in the buffer of the unbind request -/
def unbindbuf : List Byte :=
  [0x1C, 0x00, 0x00, 0x00, 0x01, 0x04, 0x05, 0x00, 0x00, 0x00, 0x00, 0x00, 0x00, 0x00, 0x00, 0x00, 0x02, 0x00, 0x00, 0x00, 0x08, 0x00,
   0x01, 0x00, 0x04, 0x00, 0x00, 0x00]

/-- nflog_test.go:92: the same for the bind request -/
def bindbuf : List Byte :=
  [0x1C, 0x00, 0x00, 0x00, 0x01, 0x04, 0x05, 0x00, 0x00, 0x00, 0x00, 0x00, 0x00, 0x00, 0x00, 0x00, 0x02, 0x00, 0x00, 0x00, 0x08, 0x00,
   0x01, 0x00, 0x03, 0x00, 0x00, 0x00]

/-- The bytes of the last request. -/
def lastSent (t : List (Ev LEv)) : List Byte :=
  match t.getLast? with
  | some (.sendto _ b _ _) => b
  | _ => []

/-- What the mocks answer: socket 5, everything succeeds, a receive leaves the buffer (the request) as it is and reports 15 bytes. -/
def mock : Kernel LEv where
  socket := fun _ => .ok 5
  bind := fun _ _ => none
  setsockopt := fun _ _ => none
  close := fun _ _ => none
  send := fun _ _ _ => none
  recv := fun t _ => .ok ((lastSent t).take 15)

/-- A little-endian host (the expected bytes of the tests are little-endian); callbacks do nothing. -/
def env : Env := ⟨.little, id⟩

/-- `newNflog := NewNFLog()` -/
def new : W := ⟨[], ⟨[]⟩, newNFLog⟩

/-- The system calls made so far, in short: name, descriptor, two numbers, bytes. -/
def short : Ev LEv → String × Nat × Nat × Nat × List Byte
  | .socket d t p _ => ("socket", d, t, p, [])
  | .bind fd _ => ("bind", fd, 0, 0, [])
  | .setsockopt fd l o v _ => ("setsockopt", fd, 1000 * l + o, v, [])
  | .linger fd _ => ("linger", fd, 0, 0, [])
  | .close fd _ => ("close", fd, 0, 0, [])
  | .sendto fd b f _ => ("sendto", fd, f, 0, b)
  | .recvfrom fd n f _ => ("recvfrom", fd, n, f, [])
  | .sendmsg fd b _ => ("sendmsg", fd, 0, 0, b)
  | .app _ => ("app", 0, 0, 0, [])

/-- Did the run pass, and make exactly these system calls? -/
def passes (t : M Unit) (calls : List (String × Nat × Nat × Nat × List Byte)) : Bool :=
  match t new with
  | .ok (_, w') => w'.trace.map short == calls
  | _ => false

/-- nflog_test.go:27-29: the expected calls of `NFlogOpen` -/
def openCalls : List (String × Nat × Nat × Nat × List Byte) :=
  [("socket", 16, 3, 12, []), ("bind", 5, 0, 0, []), ("setsockopt", 5, 270005, 1, [])]

/-- A request with the given bytes and the receive into a buffer of that size. -/
def ask (b : List Byte) : List (String × Nat × Nat × Nat × List Byte) := [("sendto", 5, 0, 0, b), ("recvfrom", 5, b.length, 0, [])]

/-- `nfSockHandle, err := newNflog.NFlogOpen()`; it should succeed -/
def opens : M Unit := do
  match ← nflogOpen mock with
  | .ok () => pure ()
  | .error _ => GoM.panic

/-- nflog_test.go:13-38 `TestNFlogOpen` -/
theorem TestNFlogOpen_passes : passes opens openCalls = true := by decide +kernel

/-- nflog_test.go:40-74 `TestNFlogUnbind` -/
theorem TestNFlogUnbind_passes : passes (do
    opens
    let _ ← nflogUnbind env mock
    pure ()) (openCalls ++ ask unbindbuf) = true := by decide +kernel

/-- nflog_test.go:76-118 `TestNFlogBind` -/
theorem TestNFlogBind_passes : passes (do
    opens
    let _ ← nflogUnbind env mock
    let _ ← nflogBind env mock
    pure ()) (openCalls ++ ask unbindbuf ++ ask bindbuf) = true := by decide +kernel

end Verif.Conform.NfLogTests
