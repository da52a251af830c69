import Verif.Props.NfQueueConcurrent
/-!
Property C20, the negative half in general: *any* two `SetVerdict2` calls that are not serialised can be scheduled so that
one of them sends the other one's verdict.
-/
namespace Verif.Props
open Verif.Sys Verif.Spec Verif.Common Verif.NfQueue

/-- Giving goroutine `i` several turns in a row is running it alone that long. -/
theorem sched_replicate (env : Env) (K : Kernel QEv) (calls : List VCall) {i : Nat} {c : VCall}
    (hi : calls[i]? = some c) : ∀ (n : Nat) (pcs : Nat → Pc) (w : W),
    sched env K false calls (List.replicate n i) pcs w
      = (vrun env K c n (pcs i) w >>= fun x => .ok ((fun j => if j = i then x.1 else pcs j), x.2)) := by
  intro n
  induction n with
  | zero =>
    intro pcs w
    have : (fun j => if j = i then pcs i else pcs j) = pcs := by
      funext j; split
      · rename_i h; rw [h]
      · rfl
    simp only [List.replicate_zero, sched, vrun, GoM.pure_apply, Res.ok_bind, this]
  | succ n ih =>
    intro pcs w
    simp only [List.replicate_succ, sched, vrun, GoM.bind_apply, schedStep, hi, Bool.false_eq_true, false_and, if_false,
      Res.bind_assoc', GoM.pure_apply, Res.ok_bind, ih, if_true]
    refine bind_congr_ok fun x _ => ?_
    refine bind_congr_ok fun y _ => ?_
    congr 2
    funext j
    split <;> rfl

theorem sched_append (env : Env) (K : Kernel QEv) (lock : Bool) (calls : List VCall) : ∀ (a b : List Nat) (pcs : Nat → Pc)
    (w : W), sched env K lock calls (a ++ b) pcs w
      = (sched env K lock calls a pcs w >>= fun x => sched env K lock calls b x.1 x.2) := by
  intro a b
  induction a with
  | nil => intro pcs w; rfl
  | cons i a ih =>
    intro pcs w
    simp only [List.cons_append, sched, GoM.bind_apply, Res.bind_assoc', ih]

/-- A goroutine inside its call, left alone for a while. -/
theorem vrun_ok {X : Ctx} (hc : Calls X) {c : VCall} (hm : c ∈ X.calls) {qh : Handle} (env : Env) (he : env.e = X.e)
    (K : Kernel QEv) : ∀ (n : Nat) {pc : Pc} {w : W}, WInv X qh w → TInv X w.heap c pc → n < rank c pc →
    ∃ pc' w', vrun env K c n pc w = .ok (pc', w') ∧ WInv X qh w' ∧ TInv X w'.heap c pc' ∧
      rank c pc' = rank c pc - n ∧ w'.trace = w.trace ∧ (n ≠ 0 → pc' ≠ .start) := by
  intro n
  induction n with
  | zero => intro pc w hw ht _; exact ⟨pc, w, rfl, hw, ht, rfl, rfl, fun h => absurd rfl h⟩
  | succ n ih =>
    intro pc w hw ht hn
    have hd : pc ≠ .done := fun h => by rw [h] at hn; simp [rank] at hn
    obtain ⟨p1, w1, h1, st⟩ := step_ok hc hm hw env he K hd ht
    have hr := st.rank
    obtain ⟨p2, w2, h2, hw2, ht2, hr2, htr, _⟩ := ih st.winv st.tinv (by omega)
    have hnd : p1 ≠ .done := fun h => by
      have h0 : rank c p1 = 0 := by rw [h]; rfl
      omega
    have ht1 : w1.trace = w.trace := by
      rcases st.sent with h | h
      · exact h.2
      · exact absurd h.1 hnd
    refine ⟨p2, w2, ?_, hw2, ht2, by omega, by rw [htr, ht1], fun _ => ?_⟩
    · simp only [vrun, GoM.bind_apply, h1, Res.ok_bind, h2]
    · intro h
      by_cases hn0 : n = 0
      · subst hn0
        simp only [vrun, GoM.pure_apply, Res.ok.injEq, Prod.mk.injEq] at h2
        rw [← h2.1] at h
        exact st.started h
      · simp_all

/-- Handing the pieces to the kernel changes no memory. -/
theorem vSend_heap (env : Env) (K : Kernel QEv) (hs ps p : Slice) (n0 n2 : Nat) {w w' : W} {pc : Pc}
    (h : vSend env K hs ps p n0 n2 w = .ok (pc, w')) : w'.heap = w.heap := by
  have hb : ∀ (s : Slice) (n : Nat) (w : W) (v : Iov) (w' : W), baseOf s n w = .ok (v, w') → w' = w := by
    intro s n w v w' h
    unfold baseOf at h
    split at h
    · simp at h
    · simp only [GoM.pure_apply, Res.ok.injEq, Prod.mk.injEq] at h
      exact h.2.symm
  unfold vSend at h
  simp only [GoM.bind_apply] at h
  obtain ⟨⟨v0, w0⟩, h0, g0⟩ := Res.bind_eq_ok.mp h
  obtain ⟨⟨v1, w1⟩, h1, g1⟩ := Res.bind_eq_ok.mp g0
  obtain ⟨⟨v2, w2⟩, h2, g2⟩ := Res.bind_eq_ok.mp g1
  have e0 := hb _ _ _ _ _ h0
  have e1 := hb _ _ _ _ _ h1
  have e2 := hb _ _ _ _ _ h2
  simp only at e0 e1 e2
  clear g0 g1 h h0 h1 h2
  subst e0 e1 e2
  simp only [getQ, Res.ok_bind] at g2
  cases hq : w2.st.handle with
  | none =>
    rw [hq] at g2
    exact absurd g2 (by simp [GoM.panic_apply])
  | some qh =>
    rw [hq] at g2
    change ((sendmsg env K qh.fd [v0, v1, v2] w2 >>= fun x => Res.ok (Pc.done, x.2)) = _) at g2
    obtain ⟨⟨u, w3⟩, h3, g3⟩ := Res.bind_eq_ok.mp g2
    simp only [Res.ok.injEq, Prod.mk.injEq] at g3
    obtain ⟨_, rfl⟩ := g3
    obtain ⟨r, hs⟩ := sendmsg_spec env K qh.fd [v0, v1, v2] w2
    rw [hs] at h3
    simp only [Res.ok.injEq, Prod.mk.injEq, true_and] at h3
    rw [← h3]

/-- The schedule: the first goroutine fills in its header, the second does its whole call, the first goes on. -/
def mixSchedule : List Nat := List.replicate 6 0 ++ (List.replicate 9 1 ++ List.replicate 3 0)

/-- Where a goroutine inside `SetVerdict2` is with three steps left. -/
theorem filled_of_rank {X : Ctx} {h : Heap} {c : VCall} {pc : Pc} (t : TInv X h c pc) (hv : c.isV2 = true)
    (hr : rank c pc = 3) : pc = .filled 6 40 := by
  cases pc with
  | start => simp [rank, hv] at hr
  | counted => simp [rank] at hr
  | headed => have := t.1; rw [hv] at this; simp at this
  | attred => simp [rank] at hr
  | padded => simp [rank] at hr
  | done => simp [rank] at hr
  | filled k i =>
    obtain ⟨_, hk, _⟩ := t
    simp only [rank] at hr
    simp only [List.mem_cons, Prod.mk.injEq, List.not_mem_nil, or_false] at hk
    have : k = 6 := by omega
    subst this
    rcases hk with h | h | h | h | h | h
    all_goals simp_all

/-- A goroutine inside `SetVerdict2` with one step left: the scratch header is its own, and stays. -/
theorem last_step {X : Ctx} (hc : Calls X) {c : VCall} (hm : c ∈ X.calls) (hv : c.isV2 = true) {qh : Handle} {w : W}
    (hw : WInv X qh w) (env : Env) (he : env.e = X.e) (K : Kernel QEv) {pc : Pc} (t : TInv X w.heap c pc)
    (hr : rank c pc = 1) :
    ∃ w' r, vstep env K c pc w = .ok (.done, w') ∧ WInv X qh w' ∧ w'.heap.bytes X.S = headOf X.e X.qn c ∧
      w'.trace = w.trace ++ [.sendmsg qh.fd (callMsg X.e X.qn c (X.h0.bytes c.packet)) r] := by
  have hd : pc ≠ .done := fun h => by rw [h] at hr; simp [rank] at hr
  obtain ⟨pc', w', h1, st⟩ := step_ok hc hm hw env he K hd t
  have h0 := st.rank
  have hdone : pc' = .done := by
    cases pc' with
    | done => rfl
    | start => exact absurd rfl st.started
    | counted => rw [hr] at h0; simp [rank] at h0
    | headed => rw [hr] at h0; simp [rank] at h0
    | attred => rw [hr] at h0; simp [rank] at h0
    | padded => rw [hr] at h0; simp [rank] at h0
    | filled k i =>
      obtain ⟨_, hk, _⟩ := st.tinv
      rw [hr] at h0
      simp only [rank] at h0
      simp only [List.mem_cons, Prod.mk.injEq, List.not_mem_nil, or_false] at hk
      omega
  subst hdone
  obtain ⟨r, htr⟩ : ∃ r, w'.trace = w.trace ++ [.sendmsg qh.fd (callMsg X.e X.qn c (X.h0.bytes c.packet)) r] := by
    rcases st.sent with h | h
    · exact absurd rfl h.1
    · exact h.2
  refine ⟨w', r, h1, st.winv, ?_, htr⟩
  cases c with
  | v1 => simp [VCall.isV2] at hv
  | v2 qa v m l id p =>
    cases pc with
    | start => simp [rank, hv] at hr
    | counted => simp [rank] at hr
    | headed => simp [rank] at hr
    | attred => simp [rank] at hr
    | done => exact absurd rfl hd
    | filled k i =>
      obtain ⟨_, hk, _⟩ := t
      simp only [rank] at hr
      simp only [List.mem_cons, Prod.mk.injEq, List.not_mem_nil, or_false] at hk
      omega
    | padded hs ps p' =>
      have : w'.heap = w.heap := vSend_heap env K hs ps p' 40 p'.len h1
      rw [this]
      exact t.1.2

/-- From a filled header on, a `SetVerdict2` call no longer looks at its verdict, mark and packet id. -/
theorem vrun_forgets (env : Env) (K : Kernel QEv) (qa v m l id qa' v' m' id' : U32) (p : Slice) (w : W) :
    vrun env K (.v2 qa v m l id p) 3 (.filled 6 40) w = vrun env K (.v2 qa' v' m' l id' p) 3 (.filled 6 40) w := by
  simp only [vrun, vstep, Nat.lt_irrefl, if_false, GoM.bind_apply, getQ, Res.ok_bind, Res.bind_assoc', GoM.pure_apply]

theorem v2_start_rank {qa v m l id : U32} {p : Slice} : rank (.v2 qa v m l id p) .start = 9 := rfl

/-- C20, violated in general: take any two `SetVerdict2` calls an application may make, for packets of the same length.
They can be scheduled so that both return, the second call gives its packet the verdict asked for, and the
first call gives *the second call's packet* the second call's verdict and mark again, now with the first packet's
contents; no verdict is ever given for the first packet. -/
theorem C20_verdict2_mixes_violated (env : Env) (K : Kernel QEv) (w : W) (qh : Handle) (hV : VReady w qh)
    (qa v m l id : U32) (p : Slice) (qa' v' m' id' : U32) (p' : Slice)
    (hok : ∀ c ∈ [VCall.v2 qa v m l id p, .v2 qa' v' m' l id' p'], c.Ok w.heap w.st.hdrSlice)
    (hsep : ∀ c ∈ [VCall.v2 qa v m l id p, .v2 qa' v' m' l id' p'], ∀ d ∈ [VCall.v2 qa v m l id p, .v2 qa' v' m' l id' p'],
      Sep c d)
    (hl : l.toNat ≤ 65531) (hp : p.len = l.toNat) (hp' : p'.len = l.toNat) :
    ∃ schedule pcs w' r1 r2 b1 b2 d1 d2,
      sched env K false [.v2 qa v m l id p, .v2 qa' v' m' l id' p'] schedule allStart w = .ok (pcs, w') ∧
      pcs 0 = .done ∧ pcs 1 = .done ∧
      w'.trace = w.trace ++ [.sendmsg qh.fd b1 r1, .sendmsg qh.fd b2 r2] ∧
      decodeNf env.e b1 = some d1 ∧ decodeNf env.e b2 = some d2 ∧
      d1.attrs = [verdictAttr env.e v'.toNat id'.toNat, markAttr m'.toNat, payloadAttr (w.heap.bytes p')] ∧
      d2.attrs = [verdictAttr env.e v'.toNat id'.toNat, markAttr m'.toNat, payloadAttr (w.heap.bytes p)] := by
  have hok0 := hok _ (List.mem_cons_self ..)
  have hok1 := hok _ (List.mem_cons_of_mem _ (List.mem_cons_self ..))
  -- the context with a third, fictitious call: the second one's arguments, the first one's packet
  have hc : Calls ⟨env.e, w.st.queueNum, w.st.hdrSlice,
      [.v2 qa v m l id p, .v2 qa' v' m' l id' p', .v2 qa' v' m' l id' p], w.heap, none,
      (· ∈ [.v2 qa v m l id p, .v2 qa' v' m' l id' p', .v2 qa' v' m' l id' p]), fun _ => False⟩ := by
    refine ⟨hV.2, ?_, fun _ h => h, ?_, by simp, by simp⟩
    · intro c hcm
      simp only [List.mem_cons, List.not_mem_nil, or_false] at hcm
      rcases hcm with rfl | rfl | rfl
      · exact hok0
      · exact hok1
      · exact hok0
    · have key : ∀ c ∈ [VCall.v2 qa v m l id p, .v2 qa' v' m' l id' p', .v2 qa' v' m' l id' p],
          ∃ c' ∈ [VCall.v2 qa v m l id p, .v2 qa' v' m' l id' p'], c'.packet = c.packet := by
        intro c hcm
        simp only [List.mem_cons, List.not_mem_nil, or_false] at hcm
        rcases hcm with rfl | rfl | rfl
        · exact ⟨_, List.mem_cons_self .., rfl⟩
        · exact ⟨_, List.mem_cons_of_mem _ (List.mem_cons_self ..), rfl⟩
        · exact ⟨_, List.mem_cons_self .., rfl⟩
      intro c hcm d hdm
      obtain ⟨c', hc', ec⟩ := key c hcm
      obtain ⟨d', hd', ed⟩ := key d hdm
      have := hsep c' hc' d' hd'
      unfold Sep at this ⊢
      rw [← ec, ← ed]
      exact this
  generalize hX : (⟨env.e, w.st.queueNum, w.st.hdrSlice,
      [.v2 qa v m l id p, .v2 qa' v' m' l id' p', .v2 qa' v' m' l id' p], w.heap, none,
      (· ∈ [.v2 qa v m l id p, .v2 qa' v' m' l id' p', .v2 qa' v' m' l id' p]), fun _ => False⟩ : Ctx) = X at hc
  have he : env.e = X.e := by rw [← hX]
  have hqn : w.st.queueNum = X.qn := by rw [← hX]
  have hh0 : w.heap = X.h0 := by rw [← hX]
  have m0 : VCall.v2 qa v m l id p ∈ X.calls := by rw [← hX]; simp
  have m1 : VCall.v2 qa' v' m' l id' p' ∈ X.calls := by rw [← hX]; simp
  have m2 : VCall.v2 qa' v' m' l id' p ∈ X.calls := by rw [← hX]; simp
  have w0 : WInv X qh w := ⟨by rw [← hX]; exact Evolve.refl _ _, hV.1, by rw [← hX], hqn, by rw [← hX]; exact fun _ h => h.elim⟩
  obtain ⟨pa, wa, ha, wia, ta, ra, tra, _⟩ := vrun_ok hc m0 env he K 6 (pc := .start) w0 trivial (by rw [v2_start_rank]; decide)
  have hpa := filled_of_rank ta rfl (by rw [ra]; rfl)
  subst hpa
  obtain ⟨pb, wb, hb, wib, tb, rb, trb, _⟩ := vrun_ok hc m1 env he K 8 (pc := .start) wia trivial (by rw [v2_start_rank]; decide)
  obtain ⟨wc, r1, hcs, wic, hS, trc⟩ := last_step hc m1 rfl wib env he K tb (by rw [rb]; rfl)
  have h9 : vrun env K (.v2 qa' v' m' l id' p') 9 .start wa = .ok (.done, wc) := by
    have split9 : ∀ (n : Nat) (pc : Pc) (u : W), vrun env K (.v2 qa' v' m' l id' p') (n + 1) pc u
        = (vrun env K (.v2 qa' v' m' l id' p') n pc u >>= fun x => vstep env K (.v2 qa' v' m' l id' p') x.1 x.2) := by
      intro n
      induction n with
      | zero =>
        intro pc u
        simp only [vrun, GoM.bind_apply, GoM.pure_apply, Res.ok_bind]
        rcases vstep env K (.v2 qa' v' m' l id' p') pc u with x | _ | _ <;> rfl
      | succ n ih =>
        intro pc u
        conv => lhs; unfold vrun
        conv => rhs; unfold vrun
        simp only [GoM.bind_apply, Res.bind_assoc', ih]
    rw [split9, hb, Res.ok_bind]
    exact hcs
  -- the fictitious call takes over
  have tg : TInv X wc.heap (.v2 qa' v' m' l id' p) (.filled 6 40) :=
    ⟨rfl, by simp, by rw [hS]; rfl⟩
  obtain ⟨pd, wd, hd, wid, td, rd, trd, _⟩ := vrun_ok hc m2 env he K 2 (pc := .filled 6 40) wic tg (by show 2 < 3; decide)
  obtain ⟨we, r2, hes, _, _, tre⟩ := last_step hc m2 rfl wid env he K td (by rw [rd]; rfl)
  have h3 : vrun env K (.v2 qa v m l id p) 3 (.filled 6 40) wc = .ok (.done, we) := by
    rw [vrun_forgets env K qa v m l id qa' v' m' id' p wc]
    simp only [vrun, GoM.bind_apply, GoM.pure_apply] at hd ⊢
    obtain ⟨⟨x1, u1⟩, e1, hd⟩ := Res.bind_eq_ok.mp hd
    obtain ⟨⟨x2, u2⟩, e2, hd⟩ := Res.bind_eq_ok.mp hd
    simp only [Res.ok.injEq, Prod.mk.injEq] at hd
    obtain ⟨rfl, rfl⟩ := hd
    simp only [e1, Res.ok_bind, e2, hes]
  have hlen : (l.setWidth 16 : U16).toNat = l.toNat := by
    rw [BitVec.toNat_setWidth]; omega
  have v1' : (w.heap.bytes p').length = p'.len := Heap.bytes_length hok1.1
  have v0' : (w.heap.bytes p).length = p.len := Heap.bytes_length hok0.1
  have d1 := v2_decodes env.e w.st.queueNum v' m' id' (l.setWidth 16) (w.heap.bytes p')
    (by rw [v1']; exact (hp'.trans hlen.symm)) (by rw [v1']; omega)
  have d2 := v2_decodes env.e w.st.queueNum v' m' id' (l.setWidth 16) (w.heap.bytes p)
    (by rw [v0']; exact (hp.trans hlen.symm)) (by rw [v0']; omega)
  refine ⟨mixSchedule, fun j => if j = 0 then .done else if j = 1 then .done else .start, we, r1, r2, _, _, _, _, ?_, rfl, rfl,
    ?_, d1, d2, rfl, rfl⟩
  · unfold mixSchedule
    rw [sched_append, sched_replicate env K _ (i := 0) rfl]
    show ((vrun env K _ 6 .start w >>= _) >>= _) = _
    rw [ha]
    simp only [Res.ok_bind]
    rw [sched_append, sched_replicate env K _ (i := 1) rfl]
    show ((vrun env K _ 9 .start wa >>= _) >>= _) = _
    rw [h9]
    simp only [Res.ok_bind]
    rw [sched_replicate env K _ (i := 0) rfl]
    show (vrun env K _ 3 (.filled 6 40) wc >>= _) = _
    rw [h3]
    simp only [Res.ok_bind]
    congr 2
    funext j
    by_cases h0 : j = 0
    · simp [h0]
    · by_cases h1 : j = 1
      · simp [h1]
      · simp [h0, h1, allStart]
  · rw [tre, trd, trc, trb, tra, he, hqn, hh0]
    simp only [List.append_assoc, List.cons_append, List.nil_append]
    rfl

example : ∃ schedule pcs w' r1 r2 b1 b2 d1 d2,
    sched someEnv yesKernel false twoCalls schedule allStart verdictWorld = .ok (pcs, w') ∧
    pcs 0 = .done ∧ pcs 1 = .done ∧
    w'.trace = verdictWorld.trace ++ [.sendmsg 3 b1 r1, .sendmsg 3 b2 r2] ∧
    decodeNf someEnv.e b1 = some d1 ∧ decodeNf someEnv.e b2 = some d2 ∧
    d1.attrs = [verdictAttr someEnv.e 0 78, markAttr 0, payloadAttr [0xdd, 0xee]] ∧
    d2.attrs = [verdictAttr someEnv.e 0 78, markAttr 0, payloadAttr [0x45, 1]] :=
  C20_verdict2_mixes_violated someEnv yesKernel verdictWorld ⟨3, Slice.nil⟩
    ⟨rfl, ⟨Nat.le_refl _, by decide⟩, rfl⟩ 0 1 9 2 77 ⟨1, 0, 2, 2⟩ 0 0 0 78 ⟨1, 6, 2, 2⟩
    (by simp [VCall.Ok, VCall.packet, VCall.plen, Slice.Valid, verdictWorld, Heap.arrayOf])
    (by simp [Sep, VCall.packet]) (by decide) rfl rfl

end Verif.Props
