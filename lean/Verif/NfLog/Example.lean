import Verif.NfLog.Model
/-! Model of the example program nflog/example/example.go. -/
namespace Verif.NfLog
open Sys

/-- nflog/example/example.go:15-21: `packetCallback` prints the packet it is given (the trace shows it as a call of the log callback) and
`errorCallback` does nothing; neither makes any call of the library.  On a little-endian host. -/
def exampleEnv : Env := ⟨.little, id⟩

/-- nflog/example/example.go:23-42 `main`, with the first `n` turns of the reader it has started, if it has: the error it logs, and whether the
reader has ended.  The loop at the end only sleeps. -/
noncomputable def exampleMain (K : Kernel LEv) (n : Nat) : M (Option Err × Bool) := do
  match ← bindAndListen exampleEnv K [32] 64 (some 1) (some 2) with
  | some err => pure (some err, true)
  | none => do
    let fin ← readLogs exampleEnv K n
    pure (none, fin)

end Verif.NfLog
