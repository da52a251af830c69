import Verif.Props.NfQueueEcho
/-!
The repository's own tests of package `nfqueue` (/repo/nfqueue/nfqueue_test.go), replayed on the model with a kernel that answers as the
mocks do.  These are tests of the model's fidelity, not properties.
-/
namespace Verif.Conform.NfQueueTests
open Verif Verif.Sys Verif.Common Verif.NfQueue Verif.Spec Verif.Props

/-- nfqueue_test.go:73 `buf`: the 64 bytes the tests put in the receive buffer -/
def buf64 : List Byte :=
  [69, 0, 0, 64, 244, 31, 64, 0, 64, 6, 169, 111, 10, 1, 10, 76, 164, 67, 228, 152, 225, 161, 0, 80, 77, 166, 172, 72,
   0, 0, 0, 0, 176, 2, 255, 255, 107, 108, 0, 0, 2, 4, 5, 180, 1, 3, 3, 5, 1, 1, 8, 10, 27, 79, 55, 56, 0, 0, 0, 0, 4,
   2, 0, 0]

/-- nfqueue_test.go:568 `buf`: the netlink message of `TestProcessPackets` -/
def buf120 : List Byte :=
  [120, 0, 0, 0, 0, 3, 0, 0, 0, 0, 0, 0, 0, 0, 0, 0, 2, 0, 0, 10, 11, 0, 1, 0, 0, 0, 0, 1, 8, 0, 1, 0, 8, 0, 5, 0, 0,
   0, 0, 2, 16, 0, 9, 0, 0, 6, 0, 0, 82, 84, 0, 18, 53, 2, 0, 0, 20, 0, 4, 0, 0, 0, 0, 0, 89, 93, 122, 182, 0, 0, 0, 0,
   0, 14, 105, 227, 44, 0, 10, 0, 69, 0, 0, 40, 108, 29, 0, 0, 64, 6, 246, 162, 10, 0, 2, 2, 10, 0, 2, 15, 0, 80, 222,
   186, 1, 124, 220, 2, 181, 9, 197, 39, 80, 17, 255, 255, 97, 8, 0, 0]

/-- What the mocks answer: socket 5 (or 3), everything succeeds, a receive leaves the buffer as it is and reports 15 bytes. -/
def mock (fd : Nat) (buf : List Byte) : Kernel QEv where
  socket := fun _ => .ok fd
  bind := fun _ _ => none
  setsockopt := fun _ _ => none
  close := fun _ _ => none
  send := fun _ _ _ => none
  recv := fun _ _ => .ok (buf.take 15)

/-- The surroundings: a little-endian host; callbacks do nothing. -/
def env : Env := ⟨.little, fun n => n, fun _ _ => 0, fun _ => false, id⟩

/-- `newNFQ := NewNFQueue()`, with its receive buffer replaced by the given bytes. -/
def newWith (buf : List Byte) : W :=
  let (q, h) := newNFQueue ⟨[]⟩
  let (s, h) := h.mk' buf
  ⟨[], h, { q with buf := s }⟩

/-- `So(b, ShouldBeTrue)` -/
def so (b : Bool) : M Unit := if b then pure () else GoM.panic

/-- The system calls made so far, in short: name, descriptor, value (option and value of a setsockopt). -/
def short : Ev QEv → String × Nat × Nat × Nat
  | .socket d t p _ => ("socket", d, t, p)
  | .bind fd _ => ("bind", fd, 0, 0)
  | .setsockopt fd l o v _ => ("setsockopt", fd, 1000 * l + o, v)
  | .linger fd _ => ("linger", fd, 0, 0)
  | .close fd _ => ("close", fd, 0, 0)
  | .sendto fd _ f _ => ("sendto", fd, f, 0)
  | .recvfrom fd n f _ => ("recvfrom", fd, n, f)
  | .sendmsg fd _ _ => ("sendmsg", fd, 0, 0)
  | .app _ => ("app", 0, 0, 0)

/-- Did the run pass, and make exactly these system calls? -/
def passes (t : M Unit) (w : W) (calls : List (String × Nat × Nat × Nat)) : Bool :=
  match t w with
  | .ok (_, w') => w'.trace.map short == calls
  | _ => false

/-- nfqueue_test.go:43-47: the expected calls of `NfqOpen` (and the SO_LINGER call the mocks do not see) -/
def openCalls (fd : Nat) : List (String × Nat × Nat × Nat) :=
  [("socket", 16, 3, 12), ("bind", fd, 0, 0), ("setsockopt", fd, 270005, 1), ("setsockopt", fd, 1033, 38400000),
    ("setsockopt", fd, 1032, 38400000), ("linger", fd, 0, 0)]

/-- One request and its answer. -/
def ask (fd n : Nat) : List (String × Nat × Nat × Nat) := [("sendto", fd, 0, 0), ("recvfrom", fd, n, 0)]

/-- `nfqHandle, err := newNFQ.NfqOpen()`; it should succeed -/
def opens (K : Kernel QEv) : M Unit := do
  match ← nfqOpen K with
  | .ok () => pure ()
  | .error _ => GoM.panic

/-- nfqueue_test.go:29-57 `TestNfqOpen` -/
theorem TestNfqOpen_passes : passes (opens (mock 5 buf64)) (newWith buf64) (openCalls 5) = true := by decide +kernel

/-- nfqueue_test.go:59-99 `TestUnbindPf` -/
theorem TestUnbindPf_passes : passes (do
    opens (mock 5 buf64)
    so (← unbindPf env (mock 5 buf64)).isNone) (newWith buf64) (openCalls 5 ++ ask 5 64) = true := by decide +kernel

/-- nfqueue_test.go:101-148 `TestBindPf` -/
theorem TestBindPf_passes : passes (do
    opens (mock 5 buf64)
    so (← unbindPf env (mock 5 buf64)).isNone
    so (← bindPf env (mock 5 buf64)).isNone) (newWith buf64) (openCalls 5 ++ ask 5 64 ++ ask 5 64) = true := by decide +kernel

/-- nfqueue_test.go:150-203, 205-266, 268-336: `TestCreateQueue`, `TestNfqSetMode`, `TestNfqSetQueueMaxLen` (each goes one step further) -/
theorem TestNfqSetQueueMaxLen_passes : passes (do
    opens (mock 5 buf64)
    so (← unbindPf env (mock 5 buf64)).isNone
    so (← bindPf env (mock 5 buf64)).isNone
    so (← createQueue env (mock 5 buf64) 10 (some 1) (some 2) 0).isNone
    so (← nfqSetMode env (mock 5 buf64) 2 0xffff).isNone
    so (← nfqSetQueueMaxLen env (mock 5 buf64) 10).isNone) (newWith buf64)
    (openCalls 5 ++ ask 5 64 ++ ask 5 64 ++ ask 5 64 ++ ask 5 64 ++ ask 5 64) = true := by decide +kernel

/-- nfqueue_test.go:338-411 `TestNfqClose` -/
theorem TestNfqClose_passes : passes (do
    opens (mock 5 buf64)
    so (← unbindPf env (mock 5 buf64)).isNone
    so (← bindPf env (mock 5 buf64)).isNone
    so (← createQueue env (mock 5 buf64) 10 (some 1) (some 2) 0).isNone
    so (← nfqSetMode env (mock 5 buf64) 2 0xffff).isNone
    so (← nfqSetQueueMaxLen env (mock 5 buf64) 10).isNone
    nfqClose (mock 5 buf64)) (newWith buf64)
    (openCalls 5 ++ ask 5 64 ++ ask 5 64 ++ ask 5 64 ++ ask 5 64 ++ ask 5 64 ++ [("close", 5, 0, 0)]) = true := by decide +kernel

/-- nfqueue_test.go:413-488 `TestNfqDestroyQueue` -/
theorem TestNfqDestroyQueue_passes : passes (do
    opens (mock 5 buf64)
    so (← unbindPf env (mock 5 buf64)).isNone
    so (← bindPf env (mock 5 buf64)).isNone
    so (← createQueue env (mock 5 buf64) 10 (some 1) (some 2) 0).isNone
    so (← nfqSetMode env (mock 5 buf64) 2 0xffff).isNone
    so (← nfqSetQueueMaxLen env (mock 5 buf64) 10).isNone
    so (← nfqDestroyQueue env (mock 5 buf64)).isNone) (newWith buf64)
    (openCalls 5 ++ ask 5 64 ++ ask 5 64 ++ ask 5 64 ++ ask 5 64 ++ ask 5 64 ++ ask 5 64) = true := by decide +kernel

/-- nfqueue_test.go:490-554 `TestCreateQueueWithoutSocket` -/
theorem TestCreateQueueWithoutSocket_passes : passes (do
    let K := { mock 5 buf64 with socket := fun _ => .error 1 }
    match ← nfqOpen K with
    | .ok () => GoM.panic
    | .error _ => pure ()
    so (← unbindPf env K).isSome
    so (← bindPf env K).isSome
    so (← createQueue env K 10 (some 1) (some 2) 0).isSome
    so (← nfqSetMode env K 2 0xffff).isSome
    so (← nfqSetQueueMaxLen env K 10).isSome
    so (← nfqDestroyQueue env K).isSome) (newWith buf64) [("socket", 16, 3, 12)] = true := by decide +kernel

/-- nfqueue_test.go:581-582, 607: configuration calls are answered with 15 bytes, the reader with the 120 bytes. -/
def mockPackets : Kernel QEv :=
  { mock 3 buf120 with recv := fun tr _ => .ok (if tr.length < 16 then buf120.take 15 else buf120) }

/-- nfqueue_test.go:570-598: the preparations of `TestProcessPackets` -/
def prepare : M Unit := do
  opens mockPackets
  so (← unbindPf env mockPackets).isNone
  so (← bindPf env mockPackets).isNone
  so (← createQueue env mockPackets 10 (some 1) (some 2) 0).isNone
  so (← nfqSetMode env mockPackets 2 0xffff).isNone
  so (← nfqSetQueueMaxLen env mockPackets 10).isNone

/-- The world they lead to. -/
def prepared : W :=
  match prepare (newWith buf120) with
  | .ok (_, w) => w
  | _ => newWith buf120

theorem prepare_passes : passes prepare (newWith buf120)
    (openCalls 3 ++ ask 3 120 ++ ask 3 120 ++ ask 3 120 ++ ask 3 120 ++ ask 3 120) = true := by decide +kernel

/-- nfqueue_test.go:599-601: "Then my queue number should be same" -/
theorem queue_number : prepared.st.queueNum = 10 := by decide +kernel

section
attribute [local irreducible] nfnlBuffSize
set_option maxRecDepth 20000 in
theorem prepared_arrays : prepared.heap.arrays = [zeros nfnlBuffSize, zeros 40, zeros nfnlBuffSize, zeros nfnlBuffSize, zeros nfnlBuffSize,
    prepared.heap.arrayOf 5] := rfl

set_option maxRecDepth 20000 in
theorem prepared_attrs' : prepared.st.attrs = fun k => if k = 1 then some ⟨2, 0, (zeros nfnlBuffSize).length, (zeros nfnlBuffSize).length⟩
    else if k = 3 then some ⟨3, 0, (zeros nfnlBuffSize).length, (zeros nfnlBuffSize).length⟩
    else if k = 10 then some ⟨4, 0, (zeros nfnlBuffSize).length, (zeros nfnlBuffSize).length⟩ else none := rfl
end

theorem prepared_attrs : prepared.st.attrs = fun k => if k = 1 then some ⟨2, 0, 76800, 76800⟩ else if k = 3 then some ⟨3, 0, 76800, 76800⟩
    else if k = 10 then some ⟨4, 0, 76800, 76800⟩ else none := by
  rw [prepared_attrs']
  have : (zeros nfnlBuffSize).length = 76800 := by unfold zeros nfnlBuffSize; rw [List.length_replicate]
  rw [this]

theorem prepared_heap : prepared.heap.arrays = [zeros 76800, zeros 40, zeros 76800, zeros 76800, zeros 76800, buf120] := by
  have h5 : prepared.heap.arrayOf 5 = buf120 := by decide +kernel
  rw [prepared_arrays, h5]
  rfl

theorem prepared_inv : EchoInv prepared ⟨3, ⟨5, 0, 120, 120⟩⟩ 1 2 0 120 10 := by
  have hv : ∀ a n, (prepared.heap.arrays.getD a []).length = n → (⟨a, 0, n, n⟩ : Slice).Valid prepared.heap := by
    intro a n h
    refine ⟨Nat.le_refl _, ?_⟩
    show 0 + n ≤ (prepared.heap.arrays.getD a []).length
    omega
  have hz : (zeros 76800).length = 76800 := by unfold zeros; rw [List.length_replicate]
  have hbuf : prepared.st.buf = ⟨5, 0, 120, 120⟩ := by decide +kernel
  have hhdr : prepared.st.hdrSlice = ⟨1, 0, 40, 40⟩ := by decide +kernel
  have hattr : prepared.st.attrs = fun k => if k = 1 then some ⟨2, 0, 76800, 76800⟩ else if k = 3 then some ⟨3, 0, 76800, 76800⟩
      else if k = 10 then some ⟨4, 0, 76800, 76800⟩ else none := prepared_attrs
  refine ⟨⟨⟨?_, ?_, ?_, ?_, ?_, ?_, ?_⟩, ?_, ?_, ?_, ?_⟩, ?_, ?_, ?_⟩
  · decide +kernel
  · rw [hbuf]; exact hv 5 120 (by rw [prepared_heap]; rfl)
  · rw [hbuf]; decide
  · rw [hhdr]; exact hv 1 40 (by rw [prepared_heap]; rfl)
  · rw [hhdr]
  · rw [hbuf, hhdr]; decide
  · intro k
    rw [hattr]
    by_cases h1 : k = 1
    · simp [h1]
    · by_cases h3 : k = 3
      · simp [h3]
      · by_cases h10 : k = 10 <;> simp [h1, h3, h10]
  · decide +kernel
  · decide +kernel
  · decide +kernel
  · rw [hbuf]
  · intro k s hk
    rw [hattr] at hk
    simp only at hk
    split at hk
    · cases hk; exact ⟨hv 2 76800 (by rw [prepared_heap]; exact hz), fun _ => by decide⟩
    · split at hk
      · cases hk; exact ⟨hv 3 76800 (by rw [prepared_heap]; exact hz), fun _ => by decide⟩
      · split at hk
        · cases hk; exact ⟨hv 4 76800 (by rw [prepared_heap]; exact hz), fun _ => by decide⟩
        · cases hk
  · intro k s hk
    rw [hattr] at hk
    rw [hhdr]
    simp only at hk
    split at hk
    · cases hk; decide
    · split at hk
      · cases hk; decide
      · split at hk
        · cases hk; decide
        · cases hk
  · decide +kernel

/-- The packet in the message. -/
def packet40 : List Byte := buf120.drop 80

theorem buf120_msg : PacketMsg .little buf120 0x01000000 packet40 :=
  ⟨[(1, (buf120.drop 24).take 7), (5, [0, 0, 0, 2]), (9, (buf120.drop 44).take 12), (4, (buf120.drop 60).take 16), (10, packet40)],
    (buf120.drop 24).take 7, ⟨buf120.take 20, rfl, by decide, by decide⟩, by decide, rfl, by decide, rfl, by decide⟩

/-- nfqueue_test.go:556-612 `TestProcessPackets`: "When I try to process packets, I expect the callback to be called": with the packet; and
the callback of the tests, nfqueue_test.go:18-24, sends its verdict by sendmsg (46) on socket 3. -/
theorem TestProcessPackets_passes : ∃ w' mark b r, processPackets (echoEnv env mockPackets) mockPackets 1 prepared = .ok (false, w') ∧
    w'.trace = prepared.trace ++ [.recvfrom 3 120 256 (.ok buf120), .app (.packet 1 packet40 mark 0x01000000 0), .sendmsg 3 b r] ∧
    decodeNf .little b = some ⟨84, 0x301, 1, 0, 0, 0, 0, 10,
      [⟨2, false, [0, 0, 0, 1, 0, 0, 0, 1]⟩, ⟨3, false, [0, 0, 0, 11]⟩, ⟨10, false, packet40⟩]⟩ := by
  have hrecv : mockPackets.recv prepared.trace 3 = .ok buf120 := by
    have hl : prepared.trace.length = 16 := by decide +kernel
    unfold mockPackets
    simp only [hl]
    rfl
  have hE : ¬ ErrMsg .little buf120 := by unfold ErrMsg; decide
  have h120 : buf120.take 120 = buf120 := by decide
  obtain ⟨w', mark, b, r, h1, h2, h3, _⟩ := echo_packet (env := env) (K := mockPackets) prepared_inv hrecv
    (by rw [h120]; exact buf120_msg) (by rw [h120]; exact hE)
  refine ⟨w', mark, b, r, ?_, by rw [h2, h120], h3⟩
  have hi : processIter (echoEnv env mockPackets) mockPackets prepared = .ok (false, w') := by
    unfold processIter
    rw [if_neg (by show ¬ (false = true); decide), GoM.bind_apply, h1]
    rfl
  unfold processPackets
  rw [GoM.bind_apply, hi]
  rfl

end Verif.Conform.NfQueueTests
