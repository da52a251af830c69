import Verif.Conntrack.Model
import Verif.Packet.Model
/-! Model of the example program conntrack/examples/example/example.go. -/
namespace Verif.Conntrack
open Sys

/-- `ip.String()` -/
def ipStr (ip : List Byte) : String := String.ofList (Packet.ipString ip)

/-- What the example prints: the number of entries updated, the error of the update if any, and the flow it displays. -/
structure Printed where
  updated : Int
  err : Option Err
  shown : Flow
deriving DecidableEq

/-- conntrack/examples/example/example.go:17-19 `display`: `result[0]`. -/
def display (result : Option (List Flow)) : Res Flow :=
  match result with
  | some (f :: _) => .ok f
  | _ => .panic

/-- conntrack/examples/example/example.go:21-42 `main`.  `lib` is what `netlink.ConntrackTableList` returns, depending on
what happened before.  Errors of the listings are printed and otherwise ignored; only what depends on the table
and the update is kept of the output. -/
def exampleMain (env : Env) (K : Kernel CEv) (lib : List (Ev CEv) → Option (List Flow) × Option Err) : M Printed :=
  fun w => do
    let result := (tableList (lib w.trace).1 (lib w.trace).2).1
    let first ← display result
    let ((n, err), w) ← updateMarkForAvailableFlow env K (result.getD []) (ipStr first.forward.srcIP)
      (ipStr first.forward.dstIP) first.forward.protocol first.forward.srcPort first.forward.dstPort 42 w
    let final := (tableList (lib w.trace).1 (lib w.trace).2).1
    let shown ← display final
    .ok (⟨n, err, shown⟩, w)

end Verif.Conntrack
