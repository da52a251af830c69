import Verif.NfQueue.Interleave
/-!
Property C20 (and C73): verdict calls from many goroutines on one queue.

`sched env K lock calls is pcs`: goroutine number `j` executes `calls[j]`, the scheduler
runs one step of goroutine `i` for each `i` of the list `is`, in order (NfQueue/Concurrent.lean, where the steps are
shown to compose to the sequential functions).  With `lock = true` the application serialises its `SetVerdict2` calls.
-/
namespace Verif.Props
open Verif.Sys Verif.Spec Verif.Common Verif.NfQueue

/-- The steps are those of the real calls: a goroutine left alone does exactly what the
sequential function does, crash or not. -/
theorem C20_steps_are_the_calls (env : Env) (K : Kernel QEv) (c : VCall) (w : W) :
    ∃ n, vrun env K c n .start w = (c.run env K w >>= fun x => .ok (Pc.done, x.2)) := by
  cases c with
  | v1 qa v l id p => exact ⟨5, alone_v1 env K qa v l id p w⟩
  | v2 qa v m l id p => exact ⟨9, alone_v2 env K qa v m l id p w⟩

/-- Run alone from world `w`, call `c` hands to the kernel exactly one datagram, `b`. -/
def SendsAlone (env : Env) (K : Kernel QEv) (w : W) (c : VCall) (b : List Byte) : Prop :=
  ∃ fd r w', c.run env K w = .ok ((), w') ∧ w'.trace = w.trace ++ [.sendmsg fd b r]

/-- Everybody at the start. -/
def allStart : Nat → Pc := fun _ => .start

/-- Number of calls with property `P` that have begun. -/
def begun (calls : List VCall) (pcs : Nat → Pc) (P : VCall → Bool) : Nat :=
  (List.range calls.length).countP fun i => decide (pcs i ≠ .start) && calls[i]?.any P

/-- A `SetVerdict` call that accepts. -/
def VCall.accepts : VCall → Bool
  | .v1 _ v _ _ _ => v == 1
  | .v2 .. => false
/-- A `SetVerdict` call that does not accept. -/
def VCall.drops : VCall → Bool
  | .v1 _ v _ _ _ => v != 1
  | .v2 .. => false

/-- The message of goroutine `i`. -/
def msgOf (X : Ctx) (i : Nat) : List Byte :=
  match X.calls[i]? with
  | some c => callMsg X.e X.qn c (X.h0.bytes c.packet)
  | none => []

/-- The events that are no `sendmsg`. -/
def othersOf (evs : List (Ev QEv)) : List (Ev QEv) :=
  evs.filter fun ev => match ev with | .sendmsg _ _ _ => false | _ => true

theorem sent_and_others (evs : List (Ev QEv)) : evs.length = (sentOf evs).length + (othersOf evs).length := by
  induction evs with
  | nil => rfl
  | cons ev evs ih =>
    unfold sentOf othersOf at *
    cases ev <;> simp_all <;> omega

/-- What holds after every schedule; `log` are the events of the queue since the start, `extra` those of them that are not
due to verdict calls. -/
structure GInv (X : Ctx) (qh : Handle) (w0 w : W) (pcs : Nat → Pc) (order : List Nat) (extra log : List (Ev QEv)) : Prop where
  winv : WInv X qh w
  tinv : ∀ i c, X.calls[i]? = some c → TInv X w.heap c (pcs i)
  excl : ∀ i j c d, X.calls[i]? = some c → X.calls[j]? = some d → i ≠ j →
    active2 c (pcs i) → active2 d (pcs j) → False
  nodup : order.Nodup
  fin : ∀ i, i ∈ order ↔ i < X.calls.length ∧ pcs i = .done
  sent : othersOf log = extra ∧ sentOf log = order.map (msgOf X)
  acc : w.st.accepted = w0.st.accepted + BitVec.ofNat 64 (begun X.calls pcs VCall.accepts)
  drp : w.st.dropped = w0.st.dropped + BitVec.ofNat 64 (begun X.calls pcs VCall.drops)

theorem busy2_false {calls : List VCall} {pcs : Nat → Pc} {i : Nat} (h : busy2 calls pcs i = false) {j : Nat}
    {d : VCall} (hj : calls[j]? = some d) (hne : j ≠ i) : ¬ active2 d (pcs j) := by
  rintro ⟨h1, h2, h3⟩
  unfold busy2 at h
  rw [List.any_eq_false] at h
  have hlt : j < calls.length := by
    have := List.getElem?_eq_some_iff.mp hj
    exact this.1
  have := h j (List.mem_range.mpr hlt)
  apply this
  simp [hj, h1, h2, h3, hne]

theorem countP_range_congr (n : Nat) (f g : Nat → Bool) (h : ∀ j, j < n → f j = g j) :
    (List.range n).countP f = (List.range n).countP g := by
  apply List.countP_congr
  intro x hx
  rw [h x (List.mem_range.mp hx)]

theorem countP_range_bump (n i : Nat) (f g : Nat → Bool) (hi : i < n) (hne : ∀ j, j ≠ i → f j = g j)
    (hf : f i = false) (hg : g i = true) : (List.range n).countP g = (List.range n).countP f + 1 := by
  induction n with
  | zero => omega
  | succ n ih =>
    rw [List.range_succ, List.countP_append, List.countP_append]
    by_cases hin : i = n
    · subst hin
      have : (List.range i).countP g = (List.range i).countP f :=
        (countP_range_congr i f g fun j hj => hne j (by omega)).symm
      simp [this, hf, hg]
    · have := ih (by omega)
      have hn : f n = g n := hne n (fun h => hin h.symm)
      simp [this, hn]; omega

/-- A goroutine beginning a call changes the number begun by one if the call counts; any other step by nothing. -/
theorem begun_step {X : Ctx} {pcs : Nat → Pc} {i : Nat} {c : VCall} {pc' : Pc} (hi : X.calls[i]? = some c)
    (hs : pc' ≠ .start) (P : VCall → Bool) :
    begun X.calls (fun j => if j = i then pc' else pcs j) P
      = begun X.calls pcs P + (if pcs i = .start ∧ P c = true then 1 else 0) := by
  have hlt : i < X.calls.length := (List.getElem?_eq_some_iff.mp hi).1
  unfold begun
  by_cases hb : pcs i = .start ∧ P c = true
  · rw [if_pos hb]
    apply countP_range_bump _ i _ _ hlt
    · intro j hj; simp [hj]
    · simp [hb.1]
    · simp [hs, hi, hb.2]
  · rw [if_neg hb, Nat.add_zero]
    apply countP_range_congr
    intro j _
    by_cases hj : j = i
    · subst hj
      simp only [↓reduceIte, hs, ne_eq, not_false_eq_true, decide_true, hi, Option.any_some, Bool.true_and]
      by_cases hp : P c = true
      · have : pcs j ≠ .start := fun h => hb ⟨h, hp⟩
        simp [hp, this]
      · simp [hp]
    · simp [hj]

theorem bv_add_succ (a : U64) (n : Nat) : a + BitVec.ofNat 64 (n + 1) = a + BitVec.ofNat 64 n + 1 := by
  rw [BitVec.add_assoc]; congr 1
  apply BitVec.eq_of_toNat_eq
  simp

theorem ginv_step {X : Ctx} (hc : Calls X) (env : Env) (he : env.e = X.e) (K : Kernel QEv) (lock : Bool)
    (hl : lock = true ∨ ∀ c ∈ X.calls, c.isV2 = false) {qh : Handle} {w0 w : W} {pcs : Nat → Pc} {order : List Nat}
    {extra log : List (Ev QEv)} (g : GInv X qh w0 w pcs order extra log) (i : Nat) :
    ∃ pcs' w' order' es, schedStep env K lock X.calls i pcs w = .ok (pcs', w') ∧ w'.trace = w.trace ++ es ∧
      GInv X qh w0 w' pcs' order' extra (log ++ es) ∧ (∀ a, X.aside a → w'.heap.arrayOf a = w.heap.arrayOf a) ∧
      Evolve X w.heap w'.heap ∧ (∃ acc drp, w'.st = { w.st with accepted := acc, dropped := drp }) := by
  unfold schedStep
  cases hi : X.calls[i]? with
  | none => exact ⟨pcs, w, order, [], rfl, by simp, by simpa using g, fun _ _ => rfl, Evolve.refl _ _, _, _, rfl⟩
  | some c =>
    have hm : c ∈ X.calls := List.mem_of_getElem? hi
    have hlt : i < X.calls.length := (List.getElem?_eq_some_iff.mp hi).1
    simp only
    split
    · exact ⟨pcs, w, order, [], rfl, by simp, by simpa using g, fun _ _ => rfl, Evolve.refl _ _, _, _, rfl⟩
    · rename_i hblk
      by_cases hd : pcs i = .done
      · -- finished goroutine: nothing happens
        refine ⟨fun j => if j = i then .done else pcs j, w, order, [], ?_, by simp, ?_, fun _ _ => rfl, Evolve.refl _ _, _, _, rfl⟩
        · have hv : vstep env K c .done = pure Pc.done := by cases c <;> rfl
          rw [hd, hv]; rfl
        · have : (fun j => if j = i then Pc.done else pcs j) = pcs := by
            funext j; split
            · rename_i h; rw [h, hd]
            · rfl
          rw [this]; simpa using g
      · obtain ⟨pc', w', hs, st⟩ := step_ok hc hm g.winv env he K hd (g.tinv i c hi)
        have hscr : ∀ j d, X.calls[j]? = some d → j ≠ i → active2 d (pcs j) →
            w'.heap.bytes X.S = w.heap.bytes X.S := by
          intro j d hj hne ha
          apply st.scratch
          apply Classical.byContradiction
          intro hv
          have hv2 : c.isV2 = true := by cases h : c.isV2 <;> simp_all
          by_cases hst : pcs i = .start
          · rcases hl with hl | hl
            · have hb : busy2 X.calls pcs i = false := by
                cases hb : busy2 X.calls pcs i
                · rfl
                · exact absurd ⟨hl, hv2, hst, hb⟩ hblk
              exact busy2_false hb hj hne ha
            · exact hv (hl c hm)
          · exact g.excl i j c d hi hj (fun h => hne h.symm) ⟨hv2, hst, hd⟩ ha
        have hexcl : ∀ j d, X.calls[j]? = some d → j ≠ i → active2 c pc' → active2 d (pcs j) → False := by
          intro j d hj hne ha hb
          by_cases hst : pcs i = .start
          · rcases hl with hl | hl
            · have hb' : busy2 X.calls pcs i = false := by
                cases hb : busy2 X.calls pcs i
                · rfl
                · exact absurd ⟨hl, ha.1, hst, hb⟩ hblk
              exact busy2_false hb' hj hne hb
            · have := hl c hm; rw [ha.1] at this; simp at this
          · exact g.excl i j c d hi hj (fun h => hne h.symm) ⟨ha.1, hst, hd⟩ hb
        obtain ⟨e2, e3⟩ := g.sent
        have hcnt : ∀ P, begun X.calls (fun j => if j = i then pc' else pcs j) P
            = begun X.calls pcs P + (if pcs i = .start ∧ P c = true then 1 else 0) :=
          fun P => begun_step hi st.started P
        have hacc : w'.st.accepted = w0.st.accepted +
            BitVec.ofNat 64 (begun X.calls (fun j => if j = i then pc' else pcs j) VCall.accepts) := by
          rw [st.count, hcnt]
          cases c with
          | v2 => simp [VCall.accepts, g.acc, countOf]
          | v1 qa v l id p =>
            by_cases hst : pcs i = .start
            · by_cases hv : v = 1
              · rw [hst, if_pos ⟨rfl, by simp [VCall.accepts, hv]⟩, bv_add_succ, ← g.acc]
                simp [countOf, counted, hv]
              · have hv' : ¬ v = 1#32 := hv
                rw [hst, if_neg (by simp [VCall.accepts, hv'])]
                simp [countOf, counted, hv', g.acc]
            · rw [if_neg (fun h => hst h.1), Nat.add_zero, ← g.acc]
              unfold countOf
              split
              · rename_i h2; exact absurd h2 hst
              · rfl
        have hdrp : w'.st.dropped = w0.st.dropped +
            BitVec.ofNat 64 (begun X.calls (fun j => if j = i then pc' else pcs j) VCall.drops) := by
          rw [st.count, hcnt]
          cases c with
          | v2 => simp [VCall.drops, g.drp, countOf]
          | v1 qa v l id p =>
            by_cases hst : pcs i = .start
            · by_cases hv : v = 1
              · rw [hst, if_neg (by simp [VCall.drops, hv])]
                simp [countOf, counted, hv, g.drp]
              · have hv' : ¬ v = 1#32 := hv
                rw [hst, if_pos ⟨rfl, by simp [VCall.drops, hv']⟩, bv_add_succ, ← g.drp]
                simp [countOf, counted, hv']
            · rw [if_neg (fun h => hst h.1), Nat.add_zero, ← g.drp]
              unfold countOf
              split
              · rename_i h2; exact absurd h2 hst
              · rfl
        have htin : ∀ j d, X.calls[j]? = some d → TInv X w'.heap d (if j = i then pc' else pcs j) := by
          intro j d hj
          by_cases hji : j = i
          · subst hji
            rw [hi] at hj; cases hj
            simpa using st.tinv
          · simp only [hji, if_false]
            exact TInv.mono hc (List.mem_of_getElem? hj) st.ev (hscr j d hj hji) (g.tinv j d hj)
        have hex : ∀ j k d f, X.calls[j]? = some d → X.calls[k]? = some f → j ≠ k →
            active2 d (if j = i then pc' else pcs j) → active2 f (if k = i then pc' else pcs k) → False := by
          intro j k d f hj hk hne ha hb
          by_cases hji : j = i
          · subst hji
            rw [hi] at hj; cases hj
            simp only [if_true] at ha
            have hk' : k ≠ j := fun h => hne h.symm
            simp only [hk', if_false] at hb
            exact hexcl k f hk hk' ha hb
          · simp only [hji, if_false] at ha
            by_cases hki : k = i
            · subst hki
              rw [hi] at hk; cases hk
              simp only [if_true] at hb
              exact hexcl j d hj hji hb ha
            · simp only [hki, if_false] at hb
              exact g.excl j k d f hj hk hne ha hb
        have hst : ∃ acc drp, w'.st = { w.st with accepted := acc, dropped := drp } := by
          rw [st.count]
          unfold countOf counted
          split
          · split
            · exact ⟨_, _, rfl⟩
            · exact ⟨_, _, rfl⟩
          · exact ⟨_, _, rfl⟩
        have hinot : i ∉ order := fun h => hd ((g.fin i).mp h).2
        rcases st.sent with ⟨hnd, htr⟩ | ⟨hpd, r, htr⟩
        · refine ⟨_, w', order, [], bind_of_eq hs rfl, by simpa using htr, ⟨st.winv, htin, hex, g.nodup, ?_,
            by simpa using g.sent, hacc, hdrp⟩, st.aside g.winv.base_le, st.ev, hst⟩
          intro j
          by_cases hji : j = i
          · subst hji; simp [hnd, hinot]
          · simpa [hji] using g.fin j
        · refine ⟨_, w', order ++ [i], [.sendmsg qh.fd (callMsg X.e X.qn c (X.h0.bytes c.packet)) r],
            bind_of_eq hs rfl, htr, ⟨st.winv, htin, hex, ?_, ?_, ⟨?_, ?_⟩, hacc, hdrp⟩,
            st.aside g.winv.base_le, st.ev, hst⟩
          · rw [List.nodup_append]
            exact ⟨g.nodup, by simp, by intro a ha b hb; simp at hb; subst hb; exact fun h => hinot (h ▸ ha)⟩
          · intro j
            by_cases hji : j = i
            · subst hji; simp [hpd, hlt]
            · simpa [hji] using g.fin j
          · unfold othersOf at e2 ⊢
            simp [e2]
          · have : msgOf X i = callMsg X.e X.qn c (X.h0.bytes c.packet) := by simp [msgOf, hi]
            unfold sentOf at e3 ⊢
            rw [List.filterMap_append, e3]
            simp [this]

theorem ginv_sched {X : Ctx} (hc : Calls X) (env : Env) (he : env.e = X.e) (K : Kernel QEv) (lock : Bool)
    (hl : lock = true ∨ ∀ c ∈ X.calls, c.isV2 = false) {qh : Handle} {w0 : W} (is : List Nat) :
    ∀ {w : W} {pcs : Nat → Pc} {order : List Nat} {extra log : List (Ev QEv)}, GInv X qh w0 w pcs order extra log →
    ∃ pcs' w' order' es, sched env K lock X.calls is pcs w = .ok (pcs', w') ∧ w'.trace = w.trace ++ es ∧
      GInv X qh w0 w' pcs' order' extra (log ++ es) := by
  induction is with
  | nil => intro w pcs order extra log g; exact ⟨pcs, w, order, [], rfl, by simp, by simpa using g⟩
  | cons i is ih =>
    intro w pcs order extra log g
    obtain ⟨p1, w1, o1, es1, h1, t1, g1, _⟩ := ginv_step hc env he K lock hl g i
    obtain ⟨p2, w2, o2, es2, h2, t2, g2⟩ := ih g1
    exact ⟨p2, w2, o2, es1 ++ es2, bind_of_eq h1 h2, by rw [t2, t1, List.append_assoc],
      by rw [← List.append_assoc]; exact g2⟩

/-- One queue only. -/
def soloCtx (env : Env) (w : W) (calls : List VCall) (R : Option Nat) : Ctx :=
  ⟨env.e, w.st.queueNum, w.st.hdrSlice, calls, w.heap, R, (· ∈ calls), fun _ => False⟩

theorem ginv_init {calls : List VCall} {w : W} {R : Option Nat} {qh : Handle} (hV : VReady w qh) (env : Env)
    (all : VCall → Prop) (others : Nat → Prop) (hr : ∀ a, others a → a < w.heap.arrays.length) :
    GInv ⟨env.e, w.st.queueNum, w.st.hdrSlice, calls, w.heap, R, all, others⟩ qh w w allStart [] [] [] := by
  have hb : ∀ P, begun calls allStart P = 0 := by
    intro P; unfold begun; simp [allStart]
  exact ⟨⟨Evolve.refl _ _, hV.1, rfl, rfl, hr⟩, fun _ _ _ => trivial, fun _ _ _ _ _ _ _ h => absurd rfl h.2.1,
    by simp, fun i => by simp [allStart], ⟨rfl, rfl⟩, by simp [hb], by simp [hb]⟩

theorem sendsAlone {calls : List VCall} {w : W} {R : Option Nat} {qh : Handle} (hV : VReady w qh) (env : Env) (K : Kernel QEv)
    (all : VCall → Prop) (others : Nat → Prop)
    (hok : ∀ c ∈ calls, c.Ok w.heap w.st.hdrSlice) {i : Nat} {c : VCall} (hi : calls[i]? = some c) :
    SendsAlone env K w c (msgOf ⟨env.e, w.st.queueNum, w.st.hdrSlice, calls, w.heap, R, all, others⟩ i) := by
  obtain ⟨r, w', h1, h2, _⟩ := call_step env K c w qh hV (hok c (List.mem_of_getElem? hi))
  refine ⟨qh.fd, r, w', h1, ?_⟩
  rw [h2]; simp [msgOf, hi]

/-- C20 (partial: the applications serialise their `SetVerdict2` calls, or use only `SetVerdict`; see
`C20_verdict2_mixes`).  For any number of verdict calls in flight, any schedule, any kernel and any starting
state: nothing crashes, and the datagrams handed to the kernel are, in the order in which the calls finish, exactly one per
finished call, each one byte for byte what that call would have sent had it been the only one. -/
theorem C20_no_mixing_partial (env : Env) (K : Kernel QEv) (lock : Bool) (calls : List VCall) (w : W) (qh : Handle)
    (hV : VReady w qh) (hok : ∀ c ∈ calls, c.Ok w.heap w.st.hdrSlice)
    (hsep : ∀ c ∈ calls, ∀ d ∈ calls, Sep c d)
    (hl : lock = true ∨ ∀ c ∈ calls, c.isV2 = false) (is : List Nat) :
    ∃ pcs w', sched env K lock calls is allStart w = .ok (pcs, w') ∧
      ∃ (order : List Nat) (evs : List (Ev QEv)), w'.trace = w.trace ++ evs ∧ order.Nodup ∧
        (∀ i, i ∈ order ↔ i < calls.length ∧ pcs i = .done) ∧
        evs.length = order.length ∧
        ∃ msg : Nat → List Byte, sentOf evs = order.map msg ∧
          ∀ i ∈ order, ∃ c, calls[i]? = some c ∧ SendsAlone env K w c (msg i) := by
  have hc : Calls (soloCtx env w calls none) := ⟨hV.2, hok, fun _ h => h, hsep, by simp [soloCtx], by simp [soloCtx]⟩
  obtain ⟨pcs, w', order, evs, h1, e1, g⟩ := ginv_sched hc env rfl K lock hl is (ginv_init (calls := calls) hV env _ _ (fun _ h => h.elim))
  rw [List.nil_append] at g
  obtain ⟨e2, e3⟩ := g.sent
  have e4 := sent_and_others evs
  rw [e2, e3] at e4
  refine ⟨pcs, w', h1, order, evs, e1, g.nodup, g.fin, by simpa using e4, _, e3, ?_⟩
  intro i hi
  have hlt : i < calls.length := ((g.fin i).mp hi).1
  have hg : calls[i]? = some calls[i] := List.getElem?_eq_getElem hlt
  exact ⟨calls[i], hg, sendsAlone hV env K _ _ hok hg⟩

/-- C73: after every schedule the accepted/dropped counters have grown by exactly the number of accepting/other
`SetVerdict` calls that have begun (modulo 2^64), whatever else is in flight. -/
theorem C73_counters (env : Env) (K : Kernel QEv) (lock : Bool) (calls : List VCall) (w : W) (qh : Handle)
    (hV : VReady w qh) (hok : ∀ c ∈ calls, c.Ok w.heap w.st.hdrSlice)
    (hsep : ∀ c ∈ calls, ∀ d ∈ calls, Sep c d)
    (hl : lock = true ∨ ∀ c ∈ calls, c.isV2 = false) (is : List Nat) :
    ∃ pcs w', sched env K lock calls is allStart w = .ok (pcs, w') ∧
      w'.st.accepted = w.st.accepted + BitVec.ofNat 64 (begun calls pcs VCall.accepts) ∧
      w'.st.dropped = w.st.dropped + BitVec.ofNat 64 (begun calls pcs VCall.drops) := by
  have hc : Calls (soloCtx env w calls none) := ⟨hV.2, hok, fun _ h => h, hsep, by simp [soloCtx], by simp [soloCtx]⟩
  obtain ⟨pcs, w', order, _, h1, _, g⟩ := ginv_sched hc env rfl K lock hl is (ginv_init (calls := calls) hV env _ _ (fun _ h => h.elim))
  exact ⟨pcs, w', h1, g.acc, g.drp⟩

/-- A goroutine that gets a turn has one step less to go; the others are where they were. -/
theorem rank_step {X : Ctx} (hc : Calls X) (env : Env) (he : env.e = X.e) (K : Kernel QEv)
    (hl : ∀ c ∈ X.calls, c.isV2 = false) {qh : Handle} {w0 w w1 : W} {pcs p1 : Nat → Pc} {order : List Nat}
    {extra log : List (Ev QEv)} (g : GInv X qh w0 w pcs order extra log) {j : Nat}
    (h1 : schedStep env K false X.calls j pcs w = .ok (p1, w1)) (i : Nat) (c : VCall) (hi : X.calls[i]? = some c) :
    rank c (p1 i) = rank c (pcs i) - (if j == i then 1 else 0) := by
  unfold schedStep at h1
  cases hj : X.calls[j]? with
  | none =>
    simp only [hj, GoM.pure_apply, Res.ok.injEq, Prod.mk.injEq] at h1
    have hne : j ≠ i := fun e => by rw [e, hi] at hj; simp at hj
    rw [← h1.1]; simp [hne]
  | some d =>
    have hdv := hl d (List.mem_of_getElem? hj)
    simp only [hj, Bool.false_eq_true, false_and, if_false, GoM.bind_apply] at h1
    by_cases hd : pcs j = .done
    · have hv : vstep env K d .done = pure Pc.done := by cases d <;> rfl
      rw [hd, hv] at h1
      simp only [GoM.pure_apply, Res.ok_bind, Res.ok.injEq, Prod.mk.injEq] at h1
      rw [← h1.1]
      by_cases hji : j = i
      · subst hji; simp [hd, rank]
      · have hij : ¬ i = j := fun e => hji e.symm
        simp [hji, hij]
    · obtain ⟨pc', w2, hs, st⟩ := step_ok hc (List.mem_of_getElem? hj) g.winv env he K hd (g.tinv j d hj)
      rw [hs] at h1
      simp only [GoM.pure_apply, Res.ok_bind, Res.ok.injEq, Prod.mk.injEq] at h1
      rw [← h1.1]
      by_cases hji : j = i
      · subst hji
        rw [hi] at hj; cases hj
        have := st.rank
        simp; omega
      · have hij : ¬ i = j := fun e => hji e.symm
        simp [hji, hij]

/-- Steps left decrease with every turn a goroutine is given. -/
theorem rank_sched {X : Ctx} (hc : Calls X) (env : Env) (he : env.e = X.e) (K : Kernel QEv)
    (hl : ∀ c ∈ X.calls, c.isV2 = false) {qh : Handle} {w0 : W} (is : List Nat) :
    ∀ {w : W} {pcs : Nat → Pc} {order : List Nat} {extra log : List (Ev QEv)}, GInv X qh w0 w pcs order extra log →
    ∀ {pcs' w'}, sched env K false X.calls is pcs w = .ok (pcs', w') →
      ∀ i c, X.calls[i]? = some c → rank c (pcs' i) = rank c (pcs i) - is.count i := by
  induction is with
  | nil =>
    intro w pcs order extra log g pcs' w' h i c hi
    simp only [sched, GoM.pure_apply, Res.ok.injEq, Prod.mk.injEq] at h
    rw [← h.1]; simp
  | cons j is ih =>
    intro w pcs order extra log g pcs' w' h i c hi
    obtain ⟨p1, w1, o1, _, h1, _, g1, _⟩ := ginv_step hc env he K false (Or.inr hl) g j
    simp only [sched, GoM.bind_apply, h1, Res.ok_bind] at h
    have := ih g1 h i c hi
    rw [this, List.count_cons]
    have hstep := rank_step hc env he K hl g h1 i c hi
    rw [hstep]; omega

/-- C20, completion: `SetVerdict` never waits.  Whatever the others do, a goroutine that is given five turns has
sent its message and returned; so once everyone has had five turns, exactly one message per call has been sent. -/
theorem C20_completes (env : Env) (K : Kernel QEv) (calls : List VCall) (w : W) (qh : Handle)
    (hV : VReady w qh) (hok : ∀ c ∈ calls, c.Ok w.heap w.st.hdrSlice)
    (hsep : ∀ c ∈ calls, ∀ d ∈ calls, Sep c d)
    (hl : ∀ c ∈ calls, c.isV2 = false) (is : List Nat) :
    ∃ pcs w', sched env K false calls is allStart w = .ok (pcs, w') ∧
      ∀ i, i < calls.length → 5 ≤ is.count i → pcs i = .done := by
  have hc : Calls (soloCtx env w calls none) := ⟨hV.2, hok, fun _ h => h, hsep, by simp [soloCtx], by simp [soloCtx]⟩
  have g0 : GInv (soloCtx env w calls none) qh w w allStart [] [] [] := ginv_init (R := none) (calls := calls) hV env _ _ (fun _ h => h.elim)
  obtain ⟨pcs, w', order, _, h1, _, g⟩ := ginv_sched hc env rfl K false (Or.inr hl) is g0
  refine ⟨pcs, w', h1, ?_⟩
  intro i hi hcnt
  have hg : calls[i]? = some calls[i] := List.getElem?_eq_getElem hi
  have hr := rank_sched hc env rfl K hl is g0 h1 i calls[i] hg
  have hv := hl calls[i] (List.getElem_mem hi)
  have ht := g.tinv i calls[i] hg
  have h0 : rank calls[i] (pcs i) = 0 := by
    rw [hr]; simp [allStart, rank, hv]; omega
  cases hp : pcs i with
  | done => rfl
  | start => rw [hp] at h0; simp [rank, hv] at h0
  | counted => rw [hp] at h0; simp [rank] at h0
  | headed => rw [hp] at h0; simp [rank] at h0
  | attred => rw [hp] at h0; simp [rank] at h0
  | padded => rw [hp] at h0; simp [rank] at h0
  | filled k j =>
    rw [hp] at ht
    have := ht.1
    rw [hv] at this; simp at this

/-! ### The failing case -/

/-- Goroutine 0 accepts packet 77, with mark 9; goroutine 1 drops packet 78. -/
def twoCalls : List VCall := [.v2 0 1 9 2 77 ⟨1, 0, 2, 2⟩, .v2 0 0 0 2 78 ⟨1, 6, 2, 2⟩]

/-- The two calls meet all the conditions on calls. -/
example : VReady verdictWorld ⟨3, Slice.nil⟩ ∧ (∀ c ∈ twoCalls, c.Ok verdictWorld.heap verdictWorld.st.hdrSlice) ∧
    (∀ c ∈ twoCalls, ∀ d ∈ twoCalls, Sep c d) := by
  refine ⟨⟨rfl, ⟨Nat.le_refl _, by decide⟩, rfl⟩, ?_, ?_⟩
  · simp [twoCalls, VCall.Ok, VCall.packet, VCall.plen, Slice.Valid, verdictWorld, Heap.arrayOf]
  · simp [twoCalls, Sep, VCall.packet]

/-- Goroutine 0 writes the first four fields of its header, goroutine 1 does its whole call, goroutine 0 finishes. -/
def badSchedule : List Nat := [0, 0, 0, 0] ++ List.replicate 9 1 ++ [0, 0, 0, 0, 0]

/-- What can be seen of a run of the two goroutines: have they finished, and what was sent. -/
def observe (r : Res ((Nat → Pc) × W)) : Option (Bool × Bool × List (List Byte)) :=
  match r with
  | .ok (pcs, w) => some (pcs 0 == .done, pcs 1 == .done, sentOf w.trace)
  | _ => none

theorem observe_some {r : Res ((Nat → Pc) × W)} {a b : Bool} {l : List (List Byte)} (h : observe r = some (a, b, l)) :
    ∃ pcs w', r = .ok (pcs, w') ∧ (pcs 0 == .done) = a ∧ (pcs 1 == .done) = b ∧ sentOf w'.trace = l := by
  rcases r with ⟨pcs, w⟩ | _ | _
  · simp only [observe, Option.some.injEq, Prod.mk.injEq] at h
    exact ⟨pcs, w, rfl, h.1, h.2.1, h.2.2⟩
  · simp [observe] at h
  · simp [observe] at h

/-- The second message of the bad run. -/
def mixed : List Byte :=
  v2Bytes .little 5 0 9 78 2 [0x45, 1]

set_option maxRecDepth 20000 in
theorem bad_run : observe (sched someEnv yesKernel false twoCalls badSchedule allStart verdictWorld)
    = some (true, true, [v2Bytes .little 5 0 0 78 2 [0xdd, 0xee], mixed]) := by decide +kernel

/-- C20 is false for unserialised `SetVerdict2` calls: here goroutine 0, asked to accept packet 77 with mark 9, sends a
message that drops packet 78 (a second time) giving it mark 9 and the contents of packet 77; packet 77 never gets a verdict. -/
theorem C20_verdict2_mixes : ∃ pcs w' b1 b2 m1 m2,
    sched someEnv yesKernel false twoCalls badSchedule allStart verdictWorld = .ok (pcs, w') ∧
    pcs 0 = .done ∧ pcs 1 = .done ∧ sentOf w'.trace = [b1, b2] ∧
    decodeNf someEnv.e b1 = some m1 ∧ decodeNf someEnv.e b2 = some m2 ∧
    m1.attrs = [verdictAttr someEnv.e 0 78, markAttr 0, payloadAttr [0xdd, 0xee]] ∧
    m2.attrs = [verdictAttr someEnv.e 0 78, markAttr 9, payloadAttr [0x45, 1]] := by
  obtain ⟨pcs, w', h1, h2, h3, h4⟩ := observe_some bad_run
  have d1 := v2_decodes .little 5 0 0 78 2 [0xdd, 0xee] rfl (by decide)
  have d2 := v2_decodes .little 5 0 9 78 2 [0x45, 1] rfl (by decide)
  exact ⟨pcs, w', _, _, _, _, h1, by simpa using h2, by simpa using h3, h4, d1, d2, rfl, rfl⟩

end Verif.Props
