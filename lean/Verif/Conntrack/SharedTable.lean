import Verif.Conntrack.Table
import Verif.Conntrack.Prog
import Verif.Sys.Placed
/-!
Specification of the other side when several requests are under way at the same time: a kernel that keeps a connection table and answers
each socket for itself; and what a call should do to the table and report.  The table and how a request is served are those of
Conntrack/Table.lean.
-/
namespace Verif.Conntrack
open Sys Spec

/-- `K` keeps a table: `tab tr` is the table after the history `tr`; a request that is sent is served at once; and what is received on a socket
after a request was sent over it is the reply to that request, whatever happens on other sockets meanwhile.  The two tuples of an
entry are of one protocol.  Between requests the table may change in any way (`tab` is not constrained there). -/
structure ServesTable (e : Endian) (K : Kernel CEv) (tab : List (Ev CEv) → Table) : Prop where
  serves : ∀ tr fd b f, tab (tr ++ [.sendto fd b f none]) = (serve e b (tab tr)).2
  replies : ∀ tr fd b f mid d, (∀ x ∈ mid, Prog.touches fd x = false) → K.recv (tr ++ [.sendto fd b f none] ++ mid) fd = .ok d →
    ReplyIs e d (serve e b (tab tr)).1
  protos : ∀ tr, ∀ y ∈ tab tr, y.orig.proto = y.reply.proto

/-- The arguments of the call name the connection `x`. -/
def Call.names (env : Env) (x : Conn) : Call → Prop
  | .mark s d p sp dp _ => Names env s d p sp dp x
  | .bulkMark _ s d p sp dp _ => Names env s d p sp dp x
  | .bulkLabel _ s d p sp dp _ => Names env s d p sp dp x

/-- What a request of the call, which names `x`, should do to the table: set the mark of `x`, or its labels (host order); for a TCP connection the
labels stay as they are (C40, C130). -/
def Call.effect (e : Endian) (c : Call) (x : Conn) (t : Table) : Table :=
  match c with
  | .mark _ _ _ _ _ m => t.setMark x m.toNat
  | .bulkMark _ _ _ _ _ _ m => t.setMark x m.toNat
  | .bulkLabel _ _ _ p _ _ l => if p = 6 then t else t.setLabels x (bytes32 e l.toNat)

/-- The code the kernel should reply: ENOENT if `x` is not in the table; for labels ERANGE on a TCP connection and ENOSPC on an entry
without a label area; else 0. -/
def Call.code (c : Call) (x : Conn) (t : Table) : Int :=
  match t.find? fun y => decide (y.Is x) with
  | none => -2
  | some y => match c with
    | .mark .. => 0
    | .bulkMark .. => 0
    | .bulkLabel _ _ _ p _ _ _ => if p = 6 then -34 else if y.labels = none then -28 else 0

/-- `k` requests are to be made.  `codes`: the codes of those that reached the kernel, in order; the result: nil if all were answered with 0, else
the first failure, after which no more are made. -/
inductive Outcome : Nat → List Int → Option Err → Prop
  | done : Outcome 0 [] none
  | next {k codes r} : Outcome k codes r → Outcome (k + 1) (0 :: codes) r
  | refused {k c} : c ≠ 0 → Outcome (k + 1) [c] (some (.netlink c))
  | lost {k c n} : Outcome (k + 1) [c] (some (.wrap "Recvfrom returned error %v" (.errno n)))
  | unsent {k n} : Outcome (k + 1) [] (some (.errno n))

/-- What a call that names `x` should return when `tables` are the tables its requests met, in order. -/
def RightResult (x : Conn) (tables : List Table) : Call → Option Int × Option Err → Prop
  | c@(.mark ..), (n, r) => n = none ∧ Outcome 1 (tables.map (c.code x)) r
  | c@(.bulkMark fs _ _ _ _ _ m), (n, r) => ∃ first, Outcome (if m = 0 then 0 else matching fs x) (tables.map (c.code x)) first ∧
      r = first.map (.wrap "Error %v") ∧ n = some (if r = none then ((if m = 0 then 0 else matching fs x : Nat) : Int) else 0)
  | c@(.bulkLabel fs ..), (n, r) => Outcome (matching fs x) (tables.map (c.code x)) r ∧
      n = some (if r = none then (matching fs x : Int) else 0)

/-- The histories right before the requests that goroutine `i` handed to the kernel, in order. -/
def moments (i : Nat) (tr : List (Ev CEv)) (log : List (Nat × Ev CEv)) : List (List (Ev CEv)) :=
  ((Prog.placed i tr log).filter fun y => isRequest y.2).map (·.1)

/-- Who made the requests, in the order in which they reached the kernel. -/
def requesters (log : List (Nat × Ev CEv)) : List Nat := (log.filter fun y => isRequest y.2).map (·.1)

/-! ### Such a kernel exists, for every table -/

/-- The table after a history, and the code of the last reply on each socket. -/
def replayAll (e : Endian) (t0 : Table) (tr : List (Ev CEv)) : Table × (Nat → Int) :=
  tr.foldl (fun s ev => match ev with
    | .sendto fd b _ none => ((serve e b s.1).2, fun f => if f = fd then (serve e b s.1).1 else s.2 f)
    | _ => s) (t0, fun _ => 0)

/-- The kernel that does exactly this, with ever larger descriptors. -/
def sharedTable (e : Endian) (t0 : Table) : Kernel CEv where
  socket tr := .ok (tr.foldl (fun n ev => match ev with | .socket _ _ _ (.ok f) => max n (f + 1) | _ => n) 3)
  bind _ _ := none
  setsockopt _ _ := none
  close _ _ := none
  send _ _ _ := none
  recv tr fd := .ok (replyBytes e ((replayAll e t0 tr).2 fd))

end Verif.Conntrack
