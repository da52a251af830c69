import Verif.Conntrack.Model
import Verif.Packet.Model
/-!
Model of conntrack/test_utils.go (`UDPFlowCreate`, exported by package conntrack) and of the program conntrack/examples/example2/main.go.
The functions of package net are parameters, as the kernel is elsewhere.
-/
namespace Verif.Conntrack
open Sys

/-- `net.UDPAddr`: the fields used. -/
structure UDPAddr where
  ip : List Byte
  port : Nat
deriving DecidableEq

/-- What is done with UDP sockets: `net.DialUDP` with its result (a connection or an error), `Conn.Write` (its result is ignored), `Conn.Close`. -/
inductive NEv where
  | dial (laddr raddr : UDPAddr) (res : Except Err Nat)
  | write (conn : Nat) (bytes : List Byte) (err : Option Err)
  | close (conn : Nat) (err : Option Err)

/-- Package net, in every state (history) it can be in: any results. -/
structure Net where
  resolve : List NEv → List Char → Except Err UDPAddr
  dial : List NEv → UDPAddr → UDPAddr → Except Err Nat
  write : List NEv → Nat → Option Err
  close : List NEv → Nat → Option Err

/-- `fmt.Sprintf("%d", x)` for an `int` -/
def decText (x : U64) : List Char :=
  if x.toInt < 0 then '-' :: Packet.itoa x.toInt.natAbs else Packet.itoa x.toInt.natAbs

/-- `fmt.Sprintf("%s:%d", dstIP, dstPort)` -/
def hostPort (host : List Char) (port : U64) : List Char := host ++ ':' :: decText port

/-- `[]byte("Hello World")` -/
def helloBytes : List Byte := [72, 101, 108, 108, 111, 32, 87, 111, 114, 108, 100]

/-- `"127.0.0.1"` -/
def loopback : List Char := ['1', '2', '7', '.', '0', '.', '0', '.', '1']

/-- conntrack/test_utils.go:11-29: one pass of the loop; `none` = it goes on. -/
def udpFlow (net : Net) (srcPort : U64) (dstIP : List Char) (dstPort : U64) (i : Nat) (tr : List NEv) : Option Err × List NEv :=
  match net.resolve tr (hostPort dstIP dstPort) with
  | .error e => (some e, tr)
  | .ok server =>
    match net.resolve tr (hostPort loopback (srcPort + BitVec.ofNat 64 i)) with
    | .error e => (some e, tr)
    | .ok localAddr =>
      match net.dial tr localAddr server with
      | .error e => (some e, tr ++ [.dial localAddr server (.error e)])
      | .ok c =>
        let tr := tr ++ [.dial localAddr server (.ok c)]
        let tr := tr ++ [.write c helloBytes (net.write tr c)]
        let err := net.close tr c
        (err, tr ++ [.close c err])

/-- conntrack/test_utils.go:10: `for i := 0; i < flows; i++`, `n` passes left. -/
def udpFlowLoop (net : Net) (srcPort : U64) (dstIP : List Char) (dstPort : U64) : Nat → Nat → List NEv → Option Err × List NEv
  | 0, _, tr => (none, tr)
  | n + 1, i, tr =>
    match udpFlow net srcPort dstIP dstPort i tr with
    | (some e, tr) => (some e, tr)
    | (none, tr) => udpFlowLoop net srcPort dstIP dstPort n (i + 1) tr

/-- conntrack/test_utils.go:9-31 `UDPFlowCreate` -/
def udpFlowCreate (net : Net) (flows srcPort : U64) (dstIP : List Char) (dstPort : U64) (tr : List NEv) : Option Err × List NEv :=
  udpFlowLoop net srcPort dstIP dstPort flows.toInt.toNat 0 tr

/-- conntrack/examples/example2/main.go:10-25 `main`: the errors it logs.  `K` is the kernel in the state the UDP sockets have left it in;
`runtime.GOMAXPROCS` and `runtime.LockOSThread` have no effect on the model. -/
def example2Main (env : Env) (net : Net) (K : List NEv → Kernel CEv) (nt : List NEv) (w : W) : Res (List Err × List NEv × W) := do
  let r := udpFlowCreate net 5 2000 ['1', '2', '7', '.', '0', '.', '0', '.', '1', '0'] 3000 nt
  let (err, w) ← updateMark env (K r.2) "10.0.2.15" "10.0.2.2" 6 22 57766 24 w
  .ok (r.1.toList ++ err.toList, r.2, w)

end Verif.Conntrack
