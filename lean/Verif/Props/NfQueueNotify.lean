import Verif.Props.NfQueueHandle
import Verif.Props.NfQueueAnswer
import Verif.NfQueue.Records
/-! C162: the channel of GetNotificationChannel. -/
namespace Verif.Props
open Verif.Common Verif.Sys Verif.Spec Verif.NfQueue

/-- Can something be received from the channel without waiting for someone to send? -/
def CanReceive (c : Chan) : Prop := c.pending ≠ [] ∨ c.closed = true

/-- C162 is violated: whatever calls were made on a handle and whatever came of them, GetNotificationChannel hands out the channel made
at NewNFQueue, and nothing was ever sent on it: who waits on it for a packet waits for ever. -/
theorem C162_always_empty_violated (env : Env) (K : Kernel QEv) (hcb : CallbackWithin env) (w w' : W) (h : Heap) (ms : List QMade)
    (hw : w.st = (newNFQueue h).1) (hl : QLife env K w ms w') :
    ∃ c, getNotificationChannel w' = .ok (c, w') ∧ c = ⟨100, [], false⟩ ∧ ¬ CanReceive c := by
  have hi := qlife_inv hcb hl (by rw [hw]; rfl)
  have hg : ∀ ms : List QMade, (given ms).chan = ⟨100, [], false⟩ := by
    intro ms
    suffices ∀ (ms : List QMade) (I : Ident), I.chan = ⟨100, [], false⟩ → (ms.foldl giveNext I).chan = ⟨100, [], false⟩ from
      this ms _ rfl
    intro ms
    induction ms with
    | nil => exact fun _ h => h
    | cons m ms ih =>
      intro I hI
      refine ih _ ?_
      unfold giveNext
      split <;> exact hI
  refine ⟨w'.st.notification, rfl, ?_⟩
  have hc : w'.st.notification = (given ms).chan := congrArg Ident.chan hi
  rw [hg] at hc
  rw [hc]
  exact ⟨rfl, by simp [CanReceive]⟩

/-- Leaves the channel alone. -/
def KeepsChan {β : Type} (m : M β) : Prop := ∀ w x w', m w = .ok (x, w') → w'.st.notification = w.st.notification

theorem KeepsChan.pure {β : Type} (x : β) : KeepsChan (Pure.pure x : M β) := by
  intro w y w' h; rw [GoM.pure_apply] at h; cases h; rfl

theorem KeepsChan.bind {β γ : Type} {m : M β} {f : β → M γ} (hm : KeepsChan m) (hf : ∀ x, KeepsChan (f x)) : KeepsChan (m >>= f) := by
  intro w x w' h
  rw [GoM.bind_apply] at h
  obtain ⟨⟨y, w1⟩, h1, h2⟩ := Res.bind_eq_ok.mp h
  exact (hf y w1 x w' h2).trans (hm w y w1 h1)

theorem KeepsChan.of {β : Type} {m : M β} (h : ∀ I, Within I m) : KeepsChan m := by
  intro w x w' hm
  exact congrArg Ident.chan (h _ w x w' rfl hm).1

/-- C162, for a handle of CreateAndStartNfQueue: it starts with a channel of its own on which nothing was sent, whether or not starting
succeeds; from there ProcessPackets (`C162_always_empty_violated`) sends nothing either. -/
theorem C162_started (env : Env) (K : Kernel QEv) (id : U16) (maxLen size : U32) (cb ecb : Option Nat) (pd : Nat) (w w' : W)
    (r : Option Err) (h : createAndStart env K id maxLen size cb ecb pd w = .ok (r, w')) :
    w'.st.notification = ⟨100, [], false⟩ := by
  have hopen : KeepsChan (nfqOpen K) := fun w r w' h => by
    have := nfqOpen_keeps w r w' h
    unfold restOf at this
    simp only [Prod.mk.injEq] at this
    exact this.2.2.2.2
  have hcq : ∀ n cb ecb pd, KeepsChan (createQueue env K n cb ecb pd) := fun n cb ecb pd w r w' h =>
    congrArg Ident.chan (createQueue_within env n cb ecb pd w r w' h).1
  have hgive : ∀ err : Option Err, KeepsChan (do nfqClose K; pure err : M (Option Err)) := fun err =>
    (KeepsChan.of fun _ => within_nfqClose).bind fun _ => .pure _
  have hdes : ∀ err : Option Err, KeepsChan (do let _ ← nfqDestroyQueue env K; nfqClose K; pure err : M (Option Err)) := fun err =>
    (KeepsChan.of fun _ => within_nfqDestroyQueue env).bind fun _ => hgive err
  have hemit : KeepsChan (emit .spawnReader) := fun w x w' h => by cases h; rfl
  unfold createAndStart at h
  rw [GoM.bind_apply] at h
  obtain ⟨⟨_, w1⟩, h1, h2⟩ := Res.bind_eq_ok.mp h
  have hf : w1.st.notification = ⟨100, [], false⟩ := by
    cases h1; rfl
  rw [← hf]
  refine KeepsChan.bind hopen (fun r => ?_) w1 r w' h2
  cases r with
  | error err => exact .pure _
  | ok _ =>
    refine KeepsChan.bind (.of fun _ => within_unbindPf env) fun r => ?_
    cases r with
    | some err => exact hgive _
    | none =>
      refine KeepsChan.bind (.of fun _ => within_bindPf env) fun r => ?_
      cases r with
      | some err => exact hgive _
      | none =>
        refine KeepsChan.bind (hcq _ _ _ _) fun r => ?_
        cases r with
        | some err => exact hgive _
        | none =>
          refine KeepsChan.bind (.of fun _ => within_nfqSetMode env _ _) fun r => ?_
          cases r with
          | some err => exact hdes _
          | none =>
            refine KeepsChan.bind (.of fun _ => within_nfqSetQueueMaxLen env _) fun r => ?_
            cases r with
            | some err => exact hdes _
            | none => exact hemit.bind fun _ => .pure _

/-- A queue with the buffers of a new one, and a socket, can be served. -/
theorem fresh_serving {h : Heap} {w : W} {qh : Handle} (hh : w.heap = (newNFQueue h).2) (hq : w.st.handle = some qh)
    (hb : w.st.buf = (newNFQueue h).1.buf) (hs : w.st.hdrSlice = (newNFQueue h).1.hdrSlice) (ha : w.st.attrs = (newNFQueue h).1.attrs) :
    Serving w qh ∧ AttrsOk w := by
  obtain ⟨hz, hbuf⟩ := newNFQueue_heap h
  have harr : ∀ i x, [zeros nfnlBuffSize, zeros 40, zeros nfnlBuffSize, zeros nfnlBuffSize, zeros nfnlBuffSize][i]? = some x →
      (w.heap.arrayOf (h.arrays.length + i)).length = x.length := by
    intro i x hx
    rw [hh]
    unfold Heap.arrayOf
    rw [hz, List.getElem?_append_right (by omega)]
    simp only [Nat.add_sub_cancel_left, hx, Option.getD_some]
  have h0 := harr 0 _ rfl
  have h1 := harr 1 _ rfl
  have h2 := harr 2 _ rfl
  have h3 := harr 3 _ rfl
  have h4 := harr 4 _ rfl
  simp only [zeros_length, Nat.add_zero] at h0 h1 h2 h3 h4
  rw [hbuf] at hb
  have hs' : w.st.hdrSlice = ⟨h.arrays.length + 1, 0, 40, 40⟩ := by
    rw [hs]
    have : 20 + BitVec.toNat (nfaLength 8#16) + BitVec.toNat (nfaLength 4#16) = 40 := by decide
    simp [newNFQueue, Heap.mk', this]
  have hat : w.st.attrs = fun k => if k = 1 then some ⟨h.arrays.length + 2, 0, nfnlBuffSize, nfnlBuffSize⟩
      else if k = 3 then some ⟨h.arrays.length + 3, 0, nfnlBuffSize, nfnlBuffSize⟩
      else if k = 10 then some ⟨h.arrays.length + 4, 0, nfnlBuffSize, nfnlBuffSize⟩ else none := by
    rw [ha]
    funext k
    simp [newNFQueue, Heap.mk']
  refine ⟨⟨hq, ?_, ?_, ?_, ?_, ?_, ?_⟩, ?_⟩
  · rw [hb]; exact ⟨Nat.le_refl _, by simp [h0]⟩
  · rw [hb]; show nfnlBuffSize + 3 < 2 ^ 32; decide
  · rw [hs']; exact ⟨Nat.le_refl _, by simp [h1]⟩
  · rw [hs']
  · rw [hb, hs']; simp
  · intro k
    rw [hat]
    by_cases k1 : k = 1
    · simp [k1]
    by_cases k3 : k = 3
    · simp [k3]
    by_cases k10 : k = 10
    · simp [k10]
    simp [k1, k3, k10]
  · intro k s hk
    rw [hat] at hk
    have h4le : 4 ≤ nfnlBuffSize := by decide
    by_cases k1 : k = 1
    · simp [k1] at hk; subst hk; exact ⟨⟨Nat.le_refl _, by simp [h2]⟩, fun _ => h4le⟩
    by_cases k3 : k = 3
    · simp [k3] at hk; subst hk; exact ⟨⟨Nat.le_refl _, by simp [h3]⟩, fun _ => h4le⟩
    by_cases k10 : k = 10
    · simp [k10] at hk; subst hk; exact ⟨⟨Nat.le_refl _, by simp [h4]⟩, fun _ => h4le⟩
    simp [k1, k3, k10] at hk

/-- There are histories in which packets did come: this handle was served until it had handed the packet of `dgram1` (id 1, mark 7,
payload 1 2 3 4) to its callback, with the private data 99; nothing can be received from its channel. -/
theorem C162_not_announced_violated (h : Heap) : ∃ ms w', QLife someEnv { ackKernel 0 with recv := fun _ _ => .ok dgram1 }
      ⟨[], (newNFQueue h).2, (newNFQueue h).1⟩ ms w' ∧
    (∃ m ∈ ms, Ev.app (QEv.packet 1 [1, 2, 3, 4] 7 1 99) ∈ m.evs) ∧
    ∃ c, getNotificationChannel w' = .ok (c, w') ∧ ¬ CanReceive c := by
  let K : Kernel QEv := { ackKernel 0 with recv := fun _ _ => .ok dgram1 }
  let evs3 : List (Ev QEv) := [.socket 16 3 12 (.ok 3), .bind 3 none, .setsockopt 3 270 5 1 none,
      .setsockopt 3 1 33 38400000 none, .setsockopt 3 1 32 38400000 none, .linger 3 none]
  obtain ⟨w3, hlife, e1, e2, e3, e4, e5, e6, e7, e8⟩ : ∃ w3 : W, QLife someEnv K ⟨[], (newNFQueue h).2, (newNFQueue h).1⟩
      [⟨.config (.createQueue 7 (some 1) (some 2) 99), false, []⟩, ⟨.open', true, evs3⟩] w3 ∧
      w3.heap = (newNFQueue h).2 ∧ w3.st.handle = some ⟨3, (newNFQueue h).1.buf⟩ ∧ w3.st.buf = (newNFQueue h).1.buf ∧
      w3.st.hdrSlice = (newNFQueue h).1.hdrSlice ∧ w3.st.attrs = (newNFQueue h).1.attrs ∧ w3.st.callback = some 1 ∧
      w3.st.errorCallback = some 2 ∧ w3.st.privateData = 99 := by
    refine ⟨_, .snoc (m := ⟨.open', true, evs3⟩) (.snoc (ms := []) (m := ⟨.config (.createQueue 7 (some 1) (some 2) 99), false, []⟩)
      .nil rfl (by simp)) rfl (by simp [World.log, K, evs3, ackKernel, nfnlBuffSize]), rfl, rfl, rfl, rfl, rfl, rfl, rfl, rfl⟩
  obtain ⟨hS, hO⟩ := fresh_serving e1 e2 e3 e4 e5
  have hlen : dgram1.length ≤ w3.st.buf.len := by
    rw [e3, (newNFQueue_heap h).2]
    show dgram1.length ≤ nfnlBuffSize
    decide
  have hprop : Proper .little dgram1 := carries_proper ⟨zeros 20, rfl, rfl, by decide⟩ (by decide)
  obtain ⟨w4, hr, _⟩ := receiveOne_returns (K := K) someEnv_appOk hS hO e6 (fun d hd => by
    cases hd
    rw [List.take_of_length_le hlen]; exact hprop)
  obtain ⟨g, hg, hT, _⟩ := receiveOne_turn someEnv_appOk (cb := 1) (ecb := 2) (priv := 99) ⟨hS, e6, e7, e8, rfl⟩ hr
  have hc : Carries .little dgram1 [(1, [1, 0, 0, 0]), (3, [0, 0, 0, 7]), (10, [1, 2, 3, 4])] := ⟨zeros 20, rfl, rfl, by decide⟩
  obtain ⟨g', hg', hgen⟩ := records_receiveOne (K := K) (env := someEnv) (fun w => ⟨[], by simp [someEnv], .nil⟩) w3 () w4 hr
  have he : g = g' := List.append_cancel_left (hg.symm.trans hg')
  subst he
  have hev : Ev.app (QEv.packet 1 [1, 2, 3, 4] 7 1 99) ∈ g := by
    obtain ⟨r, rest, _, hT⟩ := hT
    have hr : ∀ {a}, g = .recvfrom 3 w3.st.buf.len 0x100 r :: a → r = .ok dgram1 := by
      intro a ha
      rw [ha] at hgen
      cases hgen with
      | cons h1 _ =>
        rw [show r = _ from h1]
        show Except.ok (dgram1.take _) = _
        rw [List.take_of_length_le hlen]
    rcases hT with ⟨hf, err, nf, _, hgeq⟩ | ⟨hf, d, b, mark, id, hd, hag, hgeq⟩
    · rw [hr hgeq] at hf
      rcases hf with hf | hf
      · exact absurd hf (by unfold ErrMsg; decide)
      · exact absurd hf (carries_good hc (by decide))
    · rw [hr hgeq] at hd
      cases hd
      obtain ⟨h1, h3, h10⟩ := hag _ hc
      have a : num32 someEnv.e [1, 0, 0, 0] 0 = some id := h1 _ rfl
      have b' : be32 [0, 0, 0, 7] 0 = some mark := h3 _ rfl
      have c : b = [1, 2, 3, 4] := h10 _ rfl
      rw [show num32 someEnv.e [1, 0, 0, 0] 0 = some 1 from rfl] at a
      rw [show be32 [0, 0, 0, 7] 0 = some 7 from rfl] at b'
      cases a
      cases b'
      subst c
      rw [hgeq]
      simp
  have hiter : processIter someEnv K w3 = .ok (false, w4) := by
    show (receiveOne someEnv K >>= fun _ => pure false : M Bool) w3 = _
    rw [GoM.bind_apply, hr]; rfl
  have hproc : processPackets someEnv K 1 w3 = .ok (false, w4) := by
    show (processIter someEnv K >>= _ : M Bool) w3 = _
    rw [GoM.bind_apply, hiter]; rfl
  have hl4 : QLife someEnv K ⟨[], (newNFQueue h).2, (newNFQueue h).1⟩ _ w4 := .snoc (m := ⟨.serve 1, true, g⟩) hlife (by
    show (processPackets someEnv K 1 >>= fun _ => pure true) w3 = _
    rw [GoM.bind_apply, hproc]
    rfl) hg
  obtain ⟨c, h1, _, h2⟩ := C162_always_empty_violated someEnv K idle_callback _ w4 h _ rfl hl4
  exact ⟨_, w4, hl4, ⟨⟨.serve 1, true, g⟩, by simp, hev⟩, c, h1, h2⟩
end Verif.Props
