import Verif.Props.NfQueueMany
import Verif.Props.NfQueueEcho
/-! C117 from the start: queues created one after the other share no memory. -/
namespace Verif.Props
open Verif.Common Verif.Sys Verif.Spec Verif.NfQueue

/-- Where a queue just started keeps its memory: five arrays of its own, the first free ones; everything older is untouched. -/
theorem started_layout (env : Env) (K : Kernel QEv) (queueID : U16) (maxLen size : U32) (cb ecb pd : Nat) (w w' : W)
    (h : createAndStart env K queueID maxLen size (some cb) (some ecb) pd w = .ok (none, w')) :
    w'.st.buf.arr = w.heap.arrays.length ∧ w'.st.hdrSlice.arr = w.heap.arrays.length + 1 ∧
    (∀ k s, w'.st.attrs k = some s → w.heap.arrays.length + 2 ≤ s.arr ∧ s.arr ≤ w.heap.arrays.length + 4) ∧
    w.heap.arrays.length + 4 < w'.heap.arrays.length ∧ w'.st.queueNum = queueID ∧
    (∀ a, a < w.heap.arrays.length → w'.heap.arrayOf a = w.heap.arrayOf a) := by
  obtain ⟨evs, _, _, hc⟩ := start_spec env K queueID maxLen size (some cb) (some ecb) pd w w' none h
  obtain ⟨⟨c1, _, _, _⟩, qh, _, _, hz, hbuf, hhdr, hattrs, _, hkeep⟩ := hc rfl
  obtain ⟨ha, hb⟩ := newNFQueue_heap w.heap
  refine ⟨by rw [hbuf, hb], by rw [hhdr]; simp [newNFQueue, Heap.mk'], ?_, ?_, c1, ?_⟩
  · intro k s hk
    rw [hattrs] at hk
    simp only [newNFQueue, Heap.mk'] at hk
    by_cases k1 : k = 1
    · simp [k1] at hk; subst hk; simp
    by_cases k3 : k = 3
    · simp [k3] at hk; subst hk; simp
    by_cases k10 : k = 10
    · simp [k10] at hk; subst hk; simp
    simp [k1, k3, k10] at hk
  · apply Heap.lt_of_arrayOf_pos
    rw [← hz]
    unfold Heap.arrayOf
    rw [ha, List.getElem?_append_right (by omega)]
    simp [nfnlBuffSize]
  · intro a hlt
    rw [hkeep a (by rw [hb]; simp; omega)]
    unfold Heap.arrayOf
    rw [ha, List.getElem?_append_left hlt]

/-- Queues `0 … m-1` have been started; `b j` is where the memory of queue `j` begins. -/
structure Rows (w0 w : MW) (args : Nat → StartArgs) (m : Nat) (qh : Nat → Handle) (b : Nat → Nat) : Prop where
  setup : ∀ j, j < m → Setup (w.view j) (qh j) (args j).cb (args j).ecb (args j).priv 76800
  attrs : ∀ j, j < m → AttrsOk (w.view j)
  buf : ∀ j, j < m → (w.st j).buf.arr = b j
  hdr : ∀ j, j < m → (w.st j).hdrSlice.arr = b j + 1
  att : ∀ j, j < m → ∀ k s, (w.st j).attrs k = some s → b j + 2 ≤ s.arr ∧ s.arr ≤ b j + 4
  lo : ∀ j, j < m → w0.heap.arrays.length ≤ b j
  hi : ∀ j, j < m → b j + 4 < w.heap.arrays.length
  apart : ∀ j k, j < k → k < m → b j + 4 < b k
  num : ∀ j, j < m → (w.st j).queueNum = (args j).queueID
  grows : w0.heap.arrays.length ≤ w.heap.arrays.length
  old : ∀ a, a < w0.heap.arrays.length → w.heap.arrayOf a = w0.heap.arrayOf a
  trace : ∃ evs, w.trace = w0.trace ++ evs

theorem Rows.next {env : Env} {K : Kernel QEv} {w0 w : MW} {args : Nat → StartArgs} {m : Nat} {qh : Nat → Handle}
    {b : Nat → Nat} (R : Rows w0 w args m qh b) {v : W}
    (h : createAndStart env K (args m).queueID (args m).maxLen (args m).size (some (args m).cb) (some (args m).ecb)
      (args m).priv (w.view m) = .ok (none, v)) :
    ∃ qh' b', Rows w0 ⟨v.trace, v.heap, fun k => if k = m then v.st else w.st k⟩ args (m + 1) qh' b' := by
  obtain ⟨l1, l2, l3, l4, l5, l6⟩ := started_layout _ _ _ _ _ _ _ _ _ _ h
  obtain ⟨q, hS, hO, _⟩ := started_setup _ _ _ _ _ _ _ _ _ _ h
  obtain ⟨evs, ht, _, _⟩ := start_spec _ _ _ _ _ _ _ _ _ _ _ h
  have hwl : (w.view m).heap.arrays.length = w.heap.arrays.length := rfl
  rw [hwl] at l1 l2 l3 l4 l6
  have split : ∀ j, j < m + 1 → j = m ∨ j < m := fun j hj => by omega
  refine ⟨fun j => if j = m then q else qh j, fun j => if j = m then w.heap.arrays.length else b j, ?_⟩
  have hne : ∀ j, j < m → ¬ j = m := fun j hj => by omega
  refine ⟨?_, ?_, ?_, ?_, ?_, ?_, ?_, ?_, ?_, ?_, ?_, ?_⟩
  · intro j hj
    rcases split j hj with rfl | hj
    · simp only [MW.view, if_true]; exact hS
    · simp only [MW.view, hne j hj, if_false]
      have s := R.setup j hj
      have hh := R.hi j hj
      refine ⟨⟨s.serving.handle, valid_of_arrayOf (l6 _ ?_) s.serving.buf, s.serving.small, valid_of_arrayOf (l6 _ ?_) s.serving.hdr,
        s.serving.hdr40, s.serving.sep, s.serving.reg⟩, s.cb, s.ecb, s.priv, s.size⟩
      · have := R.buf j hj
        show (w.st j).buf.arr < _
        omega
      · have := R.hdr j hj
        show (w.st j).hdrSlice.arr < _
        omega
  · intro j hj
    rcases split j hj with rfl | hj
    · simp only [MW.view, if_true]; exact hO
    · simp only [MW.view, hne j hj, if_false]
      intro k s hk
      have := R.att j hj k s hk
      have hh := R.hi j hj
      have := R.attrs j hj k s hk
      exact ⟨valid_of_arrayOf (l6 _ (by omega)) this.1, this.2⟩
  · intro j hj
    rcases split j hj with rfl | hj
    · simp only [if_true]; exact l1
    · simp only [hne j hj, if_false]; exact R.buf j hj
  · intro j hj
    rcases split j hj with rfl | hj
    · simp only [if_true]; exact l2
    · simp only [hne j hj, if_false]; exact R.hdr j hj
  · intro j hj
    rcases split j hj with rfl | hj
    · simp only [if_true]; exact l3
    · simp only [hne j hj, if_false]; exact R.att j hj
  · intro j hj
    rcases split j hj with rfl | hj
    · simp only [if_true]; exact R.grows
    · simp only [hne j hj, if_false]; exact R.lo j hj
  · intro j hj
    rcases split j hj with rfl | hj
    · simp only [if_true]; exact l4
    · simp only [hne j hj, if_false]
      have := R.hi j hj
      omega
  · intro j k hjk hk
    have hj : j < m := by omega
    rcases split k hk with rfl | hk
    · simp only [if_true, hne j hj, if_false]; exact R.hi j hj
    · simp only [hne j hj, hne k hk, if_false]; exact R.apart j k hjk hk
  · intro j hj
    rcases split j hj with rfl | hj
    · simp only [if_true]; exact l5
    · simp only [hne j hj, if_false]; exact R.num j hj
  · have := R.grows
    simp only; omega
  · intro a ha
    have := R.grows
    exact (l6 a (by omega)).trans (R.old a ha)
  · obtain ⟨evs0, h0⟩ := R.trace
    exact ⟨evs0 ++ evs, by rw [ht]; simp [MW.view, h0]⟩

theorem startAll_rows {env : Env} {K : Kernel QEv} {w0 : MW} (args : Nat → StartArgs) (as : List StartArgs) :
    ∀ {m : Nat} {w w' : MW} {qh : Nat → Handle} {b : Nat → Nat}, Rows w0 w args m qh b →
    (∀ i a, as[i]? = some a → args (m + i) = a) → startAll env K m as w = .ok (none, w') →
    ∃ qh' b', Rows w0 w' args (m + as.length) qh' b' := by
  induction as with
  | nil =>
    intro m w w' qh b R _ h
    simp only [startAll, Res.ok.injEq, Prod.mk.injEq, true_and] at h
    subst h
    exact ⟨qh, b, R⟩
  | cons a as ih =>
    intro m w w' qh b R ha h
    have h0 : args m = a := ha 0 a rfl
    unfold startAll at h
    rcases hc : createAndStart env K a.queueID a.maxLen a.size (some a.cb) (some a.ecb) a.priv (w.view m) with ⟨r, v⟩ | _ | _
    · rw [hc] at h
      cases r with
      | some err => simp at h
      | none =>
        simp only at h
        rw [← h0] at hc
        obtain ⟨qh1, b1, R1⟩ := R.next hc
        obtain ⟨qh2, b2, R2⟩ := ih R1 (fun i x hx => by
          rw [show m + 1 + i = m + (i + 1) by omega]
          exact ha (i + 1) x hx) h
        exact ⟨qh2, b2, by rw [List.length_cons, show m + (as.length + 1) = m + 1 + as.length by omega]; exact R2⟩
    · rw [hc] at h; simp at h
    · rw [hc] at h; simp at h

/-- A start that fails leaves the queues started before as they were. -/
theorem Rows.failed {env : Env} {K : Kernel QEv} {w0 w : MW} {args : Nat → StartArgs} {m : Nat} {qh : Nat → Handle}
    {b : Nat → Nat} (R : Rows w0 w args m qh b) {a : StartArgs} {err : Err} {v : W}
    (h : createAndStart env K a.queueID a.maxLen a.size (some a.cb) (some a.ecb) a.priv (w.view m) = .ok (some err, v)) :
    Rows w0 ⟨v.trace, v.heap, fun k => if k = m then v.st else w.st k⟩ args m qh b := by
  obtain ⟨hz, hkeep, _⟩ := start_keeps _ _ _ _ _ _ _ _ _ _ _ h
  obtain ⟨evs, ht, _, _⟩ := start_spec _ _ _ _ _ _ _ _ _ _ _ h
  obtain ⟨ha, hb⟩ := newNFQueue_heap (w.view m).heap
  have hwl : (w.view m).heap.arrays.length = w.heap.arrays.length := rfl
  have l4 : w.heap.arrays.length + 4 < v.heap.arrays.length := by
    apply Heap.lt_of_arrayOf_pos
    rw [← hz]
    unfold Heap.arrayOf
    rw [ha, List.getElem?_append_right (by omega)]
    simp [nfnlBuffSize, hwl]
  have l6 : ∀ x, x < w.heap.arrays.length → v.heap.arrayOf x = w.heap.arrayOf x := by
    intro x hlt
    rw [hkeep x (by rw [hb]; simp only; omega)]
    unfold Heap.arrayOf
    rw [ha, List.getElem?_append_left (by omega)]
    rfl
  have hne : ∀ j, j < m → ¬ j = m := fun j hj => by omega
  refine ⟨?_, ?_, ?_, ?_, ?_, R.lo, ?_, R.apart, ?_, ?_, ?_, ?_⟩
  · intro j hj
    simp only [MW.view, hne j hj, if_false]
    have s := R.setup j hj
    have hh := R.hi j hj
    refine ⟨⟨s.serving.handle, valid_of_arrayOf (l6 _ ?_) s.serving.buf, s.serving.small, valid_of_arrayOf (l6 _ ?_) s.serving.hdr,
      s.serving.hdr40, s.serving.sep, s.serving.reg⟩, s.cb, s.ecb, s.priv, s.size⟩
    · have := R.buf j hj
      show (w.st j).buf.arr < _
      omega
    · have := R.hdr j hj
      show (w.st j).hdrSlice.arr < _
      omega
  · intro j hj
    simp only [MW.view, hne j hj, if_false]
    intro k s hk
    have := R.att j hj k s hk
    have hh := R.hi j hj
    have := R.attrs j hj k s hk
    exact ⟨valid_of_arrayOf (l6 _ (by omega)) this.1, this.2⟩
  · intro j hj
    simp only [hne j hj, if_false]; exact R.buf j hj
  · intro j hj
    simp only [hne j hj, if_false]; exact R.hdr j hj
  · intro j hj
    simp only [hne j hj, if_false]; exact R.att j hj
  · intro j hj
    have := R.hi j hj
    simp only; omega
  · intro j hj
    simp only [hne j hj, if_false]; exact R.num j hj
  · have := R.grows
    simp only; omega
  · intro x hx
    have := R.grows
    exact (l6 x (by omega)).trans (R.old x hx)
  · obtain ⟨evs0, h0⟩ := R.trace
    exact ⟨evs0 ++ evs, by rw [ht]; simp [MW.view, h0]⟩

theorem startAll_rows_failed {env : Env} {K : Kernel QEv} {w0 : MW} (args : Nat → StartArgs) (as : List StartArgs) :
    ∀ {m : Nat} {w w' : MW} {qh : Nat → Handle} {b : Nat → Nat} {err : Err}, Rows w0 w args m qh b →
    (∀ i a, as[i]? = some a → args (m + i) = a) → startAll env K m as w = .ok (some err, w') →
    ∃ k qh' b', k < as.length ∧ Rows w0 w' args (m + k) qh' b' ∧
      ∃ tr h st, (createAndStart env K (args (m + k)).queueID (args (m + k)).maxLen (args (m + k)).size (some (args (m + k)).cb)
        (some (args (m + k)).ecb) (args (m + k)).priv ⟨tr, h, st⟩ = .ok (some err, w'.view (m + k))) := by
  induction as with
  | nil =>
    intro m w w' qh b err R _ h
    simp [startAll] at h
  | cons a as ih =>
    intro m w w' qh b err R ha h
    have h0 : args m = a := ha 0 a rfl
    unfold startAll at h
    rcases hc : createAndStart env K a.queueID a.maxLen a.size (some a.cb) (some a.ecb) a.priv (w.view m) with ⟨r, v⟩ | _ | _
    · rw [hc] at h
      cases r with
      | some err' =>
        simp only [Res.ok.injEq, Prod.mk.injEq, Option.some.injEq] at h
        obtain ⟨rfl, rfl⟩ := h
        refine ⟨0, qh, b, by simp, R.failed hc, w.trace, w.heap, w.st m, ?_⟩
        simp only [Nat.add_zero, h0, MW.view, if_true]
        exact hc
      | none =>
        simp only at h
        rw [← h0] at hc
        obtain ⟨qh1, b1, R1⟩ := R.next hc
        obtain ⟨k, qh2, b2, hk, R2, hx⟩ := ih R1 (fun i x hx => by
          rw [show m + 1 + i = m + (i + 1) by omega]
          exact ha (i + 1) x hx) h
        refine ⟨k + 1, qh2, b2, by simp only [List.length_cons]; omega, ?_, ?_⟩ <;>
          rw [show m + (k + 1) = m + 1 + k by omega]
        · exact R2
        · exact hx
    · rw [hc] at h; simp at h
    · rw [hc] at h; simp at h

/-- Verdict calls on packets that are in memory `h` of the application. -/
structure AppCalls (h : Heap) (n : Nat) (calls : Nat → List VCall) : Prop where
  there : ∀ j, j < n → ∀ c ∈ calls j, c.packet.arr < h.arrays.length ∧ c.packet.Valid h
  some : ∀ j, j < n → ∀ c ∈ calls j, 1 ≤ c.packet.len ∧ c.plen ≤ c.packet.len
  sep : ∀ j k, j < n → k < n → ∀ c ∈ calls j, ∀ d ∈ calls k, Sep c d

/-- Queues started one after the other share no memory with each other, nor with the application. -/
theorem Rows.together {w0 w : MW} {args : Nat → StartArgs} {n : Nat} {qh : Nat → Handle} {b : Nat → Nat}
    (R : Rows w0 w args n qh b) {calls : Nat → List VCall} (hA : AppCalls w0.heap n calls) :
    Together w n qh (fun j => (args j).cb) (fun j => (args j).ecb) (fun j => (args j).priv) (fun _ => 76800) calls := by
  have ap : ∀ j k, j < n → k < n → j ≠ k → b j + 4 < b k ∨ b k + 4 < b j := by
    intro j k hj hk hne
    rcases Nat.lt_or_gt_of_ne hne with h | h
    · exact Or.inl (R.apart j k h hk)
    · exact Or.inr (R.apart k j h hj)
  refine ⟨R.setup, R.attrs, fun _ _ => by omega, ?_, ?_, ?_, ?_, ?_, ?_, hA.sep⟩
  · intro j k hj hk hne
    rw [R.hdr j hj, R.hdr k hk]
    have := ap j k hj hk hne
    omega
  · intro j k hj hk hne
    rw [R.buf j hj, R.buf k hk]
    have := ap j k hj hk hne
    omega
  · intro j k hj hk
    rw [R.hdr j hj, R.buf k hk]
    by_cases hne : j = k
    · subst hne; omega
    · have := ap j k hj hk hne
      omega
  · intro j hj a s hs
    have h1 := R.att j hj a s hs
    have h2 := R.hi j hj
    have h3 := R.lo j hj
    refine ⟨by omega, ?_, ?_, ?_⟩
    · intro k hk
      rw [R.hdr k hk]
      by_cases hne : j = k
      · subst hne; omega
      · have := ap j k hj hk hne
        omega
    · intro k hk hne
      rw [R.buf k hk]
      have := ap j k hj hk hne
      omega
    · intro k hk c hc
      have := (hA.there k hk c hc).1
      omega
  · intro j hj c hc
    have h1 := hA.there j hj c hc
    have h2 := R.lo j hj
    refine ⟨valid_of_arrayOf (R.old _ h1.1) h1.2, ?_, hA.some j hj c hc⟩
    rw [R.hdr j hj]; omega
  · intro j k hj hk c hc
    have h1 := (hA.there j hj c hc).1
    have h2 := R.lo k hk
    rw [R.hdr k hk, R.buf k hk]
    omega

/-- Queues started one after the other share no memory; C117 applies to them. -/
theorem C117_started_apart (env : Env) (K : Kernel QEv) (args : List StartArgs) (w0 w : MW)
    (h : startAll env K 0 args w0 = .ok (none, w)) (calls : Nat → List VCall) (hA : AppCalls w0.heap args.length calls) :
    ∃ qh : Nat → Handle, Together w args.length qh (fun j => (args.getD j ⟨0, 0, 0, 0, 0, 0⟩).cb)
      (fun j => (args.getD j ⟨0, 0, 0, 0, 0, 0⟩).ecb) (fun j => (args.getD j ⟨0, 0, 0, 0, 0, 0⟩).priv) (fun _ => 76800) calls ∧
      ∀ j a, args[j]? = some a → (w.st j).queueNum = a.queueID := by
  have R0 : Rows w0 w0 (fun j => args.getD j ⟨0, 0, 0, 0, 0, 0⟩) 0 (fun _ => ⟨0, Slice.nil⟩) (fun _ => 0) := by
    refine ⟨?_, ?_, ?_, ?_, ?_, ?_, ?_, ?_, ?_, Nat.le_refl _, fun _ _ => rfl, [], by simp⟩ <;>
      (intros; omega)
  obtain ⟨qh, b, R⟩ := startAll_rows _ args R0 (fun i a ha => by simp [List.getD, ha]) h
  rw [Nat.zero_add] at R
  refine ⟨qh, R.together hA, fun j a ha => ?_⟩
  have hlt : j < args.length := (List.getElem?_eq_some_iff.mp ha).1
  have := R.num j hlt
  simpa [List.getD, ha] using this

/-- C117, when a queue cannot be started: the error is that of one of the queues asked for, and the queues started before
that one still share no memory with each other, so what C117 says of queues at work applies to them. -/
theorem C117_failed_start (env : Env) (K : Kernel QEv) (args : List StartArgs) (w0 w : MW) (err : Err)
    (h : startAll env K 0 args w0 = .ok (some err, w)) (calls : Nat → List VCall) (hA : AppCalls w0.heap args.length calls) :
    ∃ m a, args[m]? = some a ∧
      (∃ w1 : W, createAndStart env K a.queueID a.maxLen a.size (some a.cb) (some a.ecb) a.priv w1 = .ok (some err, w.view m)) ∧
      ∃ qh : Nat → Handle, Together w m qh (fun j => (args.getD j ⟨0, 0, 0, 0, 0, 0⟩).cb)
        (fun j => (args.getD j ⟨0, 0, 0, 0, 0, 0⟩).ecb) (fun j => (args.getD j ⟨0, 0, 0, 0, 0, 0⟩).priv) (fun _ => 76800) calls ∧
        ∀ j b, j < m → args[j]? = some b → (w.st j).queueNum = b.queueID := by
  have R0 : Rows w0 w0 (fun j => args.getD j ⟨0, 0, 0, 0, 0, 0⟩) 0 (fun _ => ⟨0, Slice.nil⟩) (fun _ => 0) := by
    refine ⟨?_, ?_, ?_, ?_, ?_, ?_, ?_, ?_, ?_, Nat.le_refl _, fun _ _ => rfl, [], by simp⟩ <;>
      (intros; omega)
  obtain ⟨m, qh, b, hm, R, tr, hp, st, hx⟩ := startAll_rows_failed _ args R0 (fun i a ha => by simp [List.getD, ha]) h
  rw [Nat.zero_add] at R hx
  have hg : args[m]? = some args[m] := List.getElem?_eq_getElem hm
  refine ⟨m, args[m], hg, ⟨⟨tr, hp, st⟩, ?_⟩, qh, R.together ?_, fun j b hj hb => ?_⟩
  · simpa [List.getD, hg] using hx
  · exact ⟨fun j hj => hA.there j (by omega), fun j hj => hA.some j (by omega),
      fun j k hj hk => hA.sep j k (by omega) (by omega)⟩
  · have := R.num j hj
    simpa [List.getD, hb] using this

/-- They do all start when the kernel grants sockets, accepts every message and answers each with a message that is no
refusal. -/
theorem startAll_succeeds (env : Env) (K : Kernel QEv) (hsock : ∀ tr, ∃ fd, K.socket tr = .ok fd)
    (hbind : ∀ tr fd, K.bind tr fd = none) (hs : ∀ tr fd b, K.send tr fd b = none)
    (hr : ∀ tr fd, ∃ d, K.recv tr fd = .ok d ∧ 20 ≤ d.length ∧ d.length < 75 * 1024 ∧ ¬ Refusal env.e d)
    (as : List StartArgs) : ∀ (j : Nat) (w : MW), ∃ w', startAll env K j as w = .ok (none, w') := by
  induction as with
  | nil => intro j w; exact ⟨w, rfl⟩
  | cons a as ih =>
    intro j w
    obtain ⟨fd, hfd⟩ := hsock w.trace
    obtain ⟨v, hv⟩ := C15_starts env K a.queueID a.maxLen a.size (some a.cb) (some a.ecb) a.priv (w.view j) fd hfd
      (fun tr => hbind tr fd) (fun tr b => hs tr fd b) (fun tr => hr tr fd)
    obtain ⟨w', hw'⟩ := ih (j + 1) ⟨v.trace, v.heap, fun k => if k = j then v.st else w.st k⟩
    exact ⟨w', by unfold startAll; rw [hv]; exact hw'⟩

/-- A kernel that gives every socket a number of its own, and sends the packet `dgram1` (id 1, mark 7, payload 1 2 3 4) on all of
them. -/
def manyKernel : Kernel QEv :=
  { packetKernel with socket := fun tr => .ok (3 + tr.countP fun ev => match ev with | .socket .. => true | _ => false) }

/-- The four queues of nfqueue/examples/example.go:34-39. -/
def fourQueues : List StartArgs :=
  [⟨10, 2000, 0xffff, 1, 3, 0⟩, ⟨11, 2000, 0xffff, 1, 3, 0⟩, ⟨12, 2000, 0xffff, 2, 3, 0⟩, ⟨13, 2000, 0xffff, 2, 3, 0⟩]

/-- A process whose application holds copies of three packets in one array. -/
def threeCopies : MW :=
  ⟨[], ⟨[[7, 7, 7, 7, 0, 0, 0, 0, 8, 8, 8, 0, 0, 0, 0, 0, 9, 9]]⟩, fun _ => (newNFQueue ⟨[]⟩).1⟩

/-- Verdicts on these packets: one on queue 0, two on queue 1. -/
def threeCalls : Nat → List VCall
  | 0 => [.v2 10 1 11 4 1 ⟨0, 0, 4, 4⟩]
  | 1 => [.v2 11 1 11 3 1 ⟨0, 8, 3, 4⟩, .v1 11 0 2 5 ⟨0, 16, 2, 2⟩]
  | _ => []

theorem threeCalls_ok : AppCalls threeCopies.heap 4 threeCalls := by
  have cases4 : ∀ (P : Nat → VCall → Prop), P 0 (.v2 10 1 11 4 1 ⟨0, 0, 4, 4⟩) → P 1 (.v2 11 1 11 3 1 ⟨0, 8, 3, 4⟩) →
      P 1 (.v1 11 0 2 5 ⟨0, 16, 2, 2⟩) → ∀ j, ∀ c ∈ threeCalls j, P j c := by
    intro P h1 h2 h3 j c hc
    match j with
    | 0 => simp only [threeCalls, List.mem_singleton] at hc; subst hc; exact h1
    | 1 =>
      simp only [threeCalls, List.mem_cons, List.not_mem_nil, or_false] at hc
      rcases hc with rfl | rfl
      · exact h2
      · exact h3
    | (k + 2) => simp [threeCalls] at hc
  refine ⟨fun j _ => ?_, fun j _ => ?_, fun j k _ _ c hc => ?_⟩
  · exact cases4 (fun _ c => c.packet.arr < threeCopies.heap.arrays.length ∧ c.packet.Valid threeCopies.heap)
      ⟨by decide, by decide, by decide⟩ ⟨by decide, by decide, by decide⟩ ⟨by decide, by decide, by decide⟩ j
  · exact cases4 (fun _ c => 1 ≤ c.packet.len ∧ c.plen ≤ c.packet.len) (by decide) (by decide) (by decide) j
  · have : ∀ j, ∀ c ∈ threeCalls j, ∀ k, ∀ d ∈ threeCalls k, Sep c d := by
      apply cases4 (fun _ c => ∀ k, ∀ d ∈ threeCalls k, Sep c d)
      · exact cases4 (fun _ d => Sep _ d) (by simp [Sep, VCall.packet]) (by simp [Sep, VCall.packet]) (by simp [Sep, VCall.packet])
      · exact cases4 (fun _ d => Sep _ d) (by simp [Sep, VCall.packet]) (by simp [Sep, VCall.packet]) (by simp [Sep, VCall.packet])
      · exact cases4 (fun _ d => Sep _ d) (by simp [Sep, VCall.packet]) (by simp [Sep, VCall.packet]) (by simp [Sep, VCall.packet])
    exact this j c hc k

/-- C117, a concrete case: the four queues start, all hypotheses hold of them, and so under every schedule of their four readers and
three verdict goroutines nothing crashes; a verdict given five turns has been sent. -/
theorem C117_example : ∃ w, startAll someEnv manyKernel 0 fourQueues threeCopies = .ok (none, w) ∧
    (∃ qh, Together w 4 qh (fun j => (fourQueues.getD j ⟨0, 0, 0, 0, 0, 0⟩).cb) (fun j => (fourQueues.getD j ⟨0, 0, 0, 0, 0, 0⟩).ecb)
      (fun j => (fourQueues.getD j ⟨0, 0, 0, 0, 0, 0⟩).priv) (fun _ => 76800) threeCalls) ∧
    ∀ is, ∃ s log w', msched someEnv manyKernel 4 (fun _ => true) threeCalls is allIdle w = .ok ((s, log), w') := by
  obtain ⟨w, hw⟩ := startAll_succeeds someEnv manyKernel (fun tr => ⟨_, rfl⟩) (fun _ _ => rfl) (fun _ _ _ => rfl)
    (fun _ _ => ⟨dgram1, rfl, by decide, by decide, by unfold Refusal; decide⟩) fourQueues 0 threeCopies
  obtain ⟨qh, T, _⟩ := C117_started_apart someEnv manyKernel fourQueues threeCopies w hw threeCalls threeCalls_ok
  refine ⟨w, hw, ⟨qh, T⟩, fun is => ?_⟩
  obtain ⟨s, log, w', h, _⟩ := C117_queues_independent_partial someEnv (fun _ => rfl) manyKernel 4 (fun _ => true) threeCalls w
    qh _ _ _ _ T (fun _ _ => Or.inl rfl) (fun j hj evs d hd => by
      have hd' : d = dgram1 := (Except.ok.inj hd).symm
      rw [hd', List.take_of_length_le (by decide)]
      obtain ⟨attrs, p, hc, h4, _⟩ := dgram1_msg
      exact (carries_proper hc h4).decent) is
  exact ⟨s, log, w', h⟩

/-- As `manyKernel`, but the process may have two sockets only. -/
def scarceKernel : Kernel QEv :=
  { manyKernel with socket := fun tr =>
      if (tr.countP fun ev => match ev with | .socket .. => true | _ => false) < 2 then manyKernel.socket tr else .error 24 }

def failsAt (r : Res (Option Err × MW)) (f : Err → Bool) : Bool :=
  match r with
  | .ok (some err, _) => f err
  | _ => false

theorem scarce_test : failsAt (startAll someEnv scarceKernel 0 fourQueues threeCopies)
    (fun err => decide (err = .wrap "Error opening NFQueue handle: %v " (.errno 24))) = true := by
  decide +kernel

/-- C117, a concrete case of a failed start: the third queue gets no socket. -/
example : ∃ w err m a, startAll someEnv scarceKernel 0 fourQueues threeCopies = .ok (some err, w) ∧ fourQueues[m]? = some a ∧
    ∃ qh, Together w m qh (fun j => (fourQueues.getD j ⟨0, 0, 0, 0, 0, 0⟩).cb) (fun j => (fourQueues.getD j ⟨0, 0, 0, 0, 0, 0⟩).ecb)
      (fun j => (fourQueues.getD j ⟨0, 0, 0, 0, 0, 0⟩).priv) (fun _ => 76800) threeCalls := by
  have h := scarce_test
  unfold failsAt at h
  split at h
  · rename_i err w hs
    obtain ⟨m, a, h1, _, qh, T, _⟩ := C117_failed_start someEnv scarceKernel fourQueues threeCopies w err hs threeCalls threeCalls_ok
    exact ⟨w, err, m, a, hs, h1, qh, T⟩
  · cases h

end Verif.Props
