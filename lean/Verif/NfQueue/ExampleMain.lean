import Verif.NfQueue.Answer
/-! Model of the whole program nfqueue/examples/example.go: `main` and the goroutines of its queues. -/
namespace Verif.NfQueue
open Common Sys

/-- nfqueue/examples/example.go:37-42: what is asked for in one call of `CreateAndStartNfQueue`: queue `i`, 2000 packets at most, 0xffff bytes of
each; `passVerdict` (1) for queues 10 and 11, `passNetVerdict` (2) for 12 and 13, `errorCallback` (3), no private data. -/
def exampleArgs (i : Nat) (cb : Nat) : StartArgs := ⟨BitVec.ofNat 16 i, 2000, 0xffff, cb, 3, 0⟩

/-- nfqueue/examples/example.go:37-42: the two loops. -/
def exampleStarts : List StartArgs :=
  (List.range' 10 2).map (exampleArgs · 1) ++ (List.range' 12 2).map (exampleArgs · 2)

/-- nfqueue/examples/example.go:15-31 `passNetVerdict`, `passVerdict`: every packet is answered by `SetVerdict2` with verdict 1 and mark 11. -/
def exampleAnswer : Policy := fun _ _ _ _ => .verdict2 1 11

/-- nfqueue/examples/example.go:33-47 `main` and the goroutines it starts, scheduled by `is`; the context is never done. -/
noncomputable def exampleProcess (env : Env) (K : Kernel QEv) (is : List (Option Nat)) : GoM MW (Proc × List (Option Nat × Ev QEv)) :=
  psched env K (fun _ _ => false) (fun _ => exampleAnswer) is ⟨exampleStarts, 0, fun _ => none⟩

end Verif.NfQueue
