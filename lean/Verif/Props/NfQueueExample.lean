import Verif.NfQueue.ExampleMain
import Verif.Props.NfQueueAnswerKernelWorks
/-! C159: the whole example program of nfqueue on a kernel that keeps packet queues. -/
namespace Verif.Props
open Verif.Common Verif.Sys Verif.Spec Verif.NfQueue
variable {F : Nat → Prop} {st : List (Ev QEv) → KState} {K : Kernel QEv} {q : Nat}

/-- What is handed over, if anything, is a verdict. -/
def OnlyVerdicts (ev : Ev QEv) : Prop := ∀ f b, handedOver ev = some (f, b) → ∃ m, decodeNf .little b = some m ∧ m.type = 0x301

theorem config_free_of_verdict {s : KState} {e : Endian} {fd : Nat} {b : List Byte} {m : NfMsg} (hm : decodeNf e b = some m) (ht : m.type = 0x301)
    (h : s.queues q = none) : (s.serve e fd b).2.queues q = none := by
  unfold KState.serve
  rw [hm]
  simp only [ht]
  rw [if_neg (by decide), if_pos True.intro]
  unfold KState.verdict
  split
  · exact h
  · rename_i k hk
    have hne : q ≠ m.resId := by rintro rfl; rw [h] at hk; cases hk
    split
    · exact h
    · split
      · split
        · exact h
        · split
          · exact h
          · show (s.setQueue m.resId _).queues q = none
            rw [setQueue_other s _ hne]; exact h
      · exact h

theorem free_meanwhile {s s' : KState} (hF : ¬ F q) (h : Meanwhile F s s') (hq : s.queues q = none) : s'.queues q = none := by
  have := h.conf (q := q) (.inl hF)
  unfold KState.conf at this
  rw [hq] at this
  cases hs : s'.queues q with
  | none => rfl
  | some k => rw [hs] at this; cases this

/-- A queue that is free stays free, whatever is done, if only verdicts are handed over. -/
theorem free_run (hF : ¬ F q) : ∀ {evs : List (Ev QEv)} {s s' : KState}, Run .little F s evs s' → (∀ ev ∈ evs, OnlyVerdicts ev) →
    s.queues q = none → s'.queues q = none := by
  intro evs s s' h
  induction h with
  | nil hm => exact fun _ hq => free_meanwhile hF hm hq
  | cons h1 h2 _ ih =>
    intro hv hq
    refine ih (fun ev hev => hv ev (List.mem_cons_of_mem _ hev)) ?_
    have hq := free_meanwhile hF h1 hq
    cases h2 with
    | handed ho hm =>
      obtain ⟨m, hm1, hm2⟩ := hv _ (List.mem_cons_self ..) _ _ ho
      have := free_meanwhile hF hm (config_free_of_verdict hm1 hm2 hq)
      unfold KState.answer
      split
      · exact this
      · exact this
    | received => exact hq
    | opened => exact hq
    | closed =>
      show (Option.filter _ _) = none
      rw [hq]; rfl
    | silent => exact hq

theorem onlyVerdicts_of_silent {ev : Ev QEv} (h : handedOver ev = none) : OnlyVerdicts ev := by
  intro f b hb
  rw [h] at hb; cases hb

/-- The application answers with `SetVerdict2`, or not at all. -/
def Second (policy : Policy) : Prop := ∀ n b mark id, policy n b mark id = .silent ∨ ∃ v m, policy n b mark id = .verdict2 v m

theorem turn_onlyVerdicts {odd : List Byte → Prop} {fd q cb ecb priv size n : Nat} {policy : Policy} (hp : Second policy) {t : List (Ev QEv)}
    (h : AnswerTurn odd .little fd q cb ecb priv size (policy n) t) : ∀ ev ∈ t, OnlyVerdicts ev := by
  intro ev hev
  rcases h with ⟨r, err, nf, _, _, rfl⟩ | ⟨d, id, payload, mark, evs, _, _, _, rfl, ha⟩
  · simp only [List.mem_cons, List.not_mem_nil, or_false] at hev
    rcases hev with rfl | rfl <;> exact onlyVerdicts_of_silent rfl
  · simp only [List.mem_cons] at hev
    rcases hev with rfl | rfl | hev
    · exact onlyVerdicts_of_silent rfl
    · exact onlyVerdicts_of_silent rfl
    · rcases hp n payload mark id with hans | ⟨v, m, hans⟩
      · rw [hans] at ha; have ha : evs = [] := ha; subst ha; cases hev
      · rw [hans] at ha
        obtain ⟨b, r, rfl, hb⟩ := ha
        simp only [List.mem_singleton] at hev
        subst hev
        intro f b' h
        cases r with
        | none =>
          simp only [handedOver, Option.some.injEq, Prod.mk.injEq] at h
          rw [← h.2]
          exact ⟨_, hb, rfl⟩
        | some _ => cases h

section
variable {env : Env} {cancel : Nat → List (Ev QEv) → Bool} {policy : Nat → Policy} {todo0 : List StartArgs} {w0 w : MW} {s : Proc}
  {log : List (Option Nat × Ev QEv)} {B : Book}

/-- The goroutines of the queues hand over nothing but verdicts. -/
theorem own_onlyVerdicts (P : PInv Stray env K cancel policy todo0 w0 w s log B) (he : env.e = .little) (hp : ∀ j, Second (policy j)) {j : Nat} {g : AG}
    (hg : s.run j = some g) : ∀ ev ∈ byGo (some j) log, OnlyVerdicts ev := by
  intro ev hev
  rw [P.events j g hg] at hev
  rcases List.mem_append.mp hev with hev | hev
  · obtain ⟨t, ht, hev⟩ := List.mem_flatten.mp hev
    obtain ⟨i, hi, rfl⟩ := List.mem_iff_getElem.mp ht
    have := (P.each j g hg).turns i _ (List.getElem?_eq_getElem hi)
    rw [he] at this
    exact turn_onlyVerdicts (hp j) this ev hev
  · by_cases hs : g.pc = .stopped
    · have := (P.each j g hg).pos
      rw [hs] at this
      have := (closing_on this ev hev).2
      cases ev <;> first | exact onlyVerdicts_of_silent rfl | cases this
    · rcases P.pending he hg hs with h | ⟨r, h⟩ | ⟨_, _, _, _, _, _, h⟩ <;> rw [h] at hev
      · cases hev
      · simp only [List.mem_singleton] at hev; subst hev; exact onlyVerdicts_of_silent rfl
      · simp only [List.mem_cons, List.not_mem_nil, or_false] at hev
        rcases hev with rfl | rfl <;> exact onlyVerdicts_of_silent rfl

/-- The queues yet to be started are free, and those tried have been started. -/
structure AllStart (st : List (Ev QEv) → KState) (todo0 : List StartArgs) (w : MW) (s : Proc) (B : Book) : Prop where
  free : ∀ i a, s.next ≤ i → todo0[i]? = some a → (st w.trace).queues a.queueID.toNat = none
  started : ∀ x ∈ B.starts, x.1 = none

theorem allStart_carried (he : env.e = .little) (hK : Keeps .little F K st) (hH : Healthy K st)
    (hpol : ∀ j a, todo0[j]? = some a → Takes (policy j) (clip a.size.toNat)) (hidle : ∀ w, env.cbEffect w = w) (hp : ∀ j, Second (policy j))
    (hF : ∀ a ∈ todo0, ¬ F a.queueID.toNat) (hd : (todo0.map fun a => a.queueID.toNat).Nodup) :
    Carried Stray env K cancel policy todo0 w0 (fun w s log B => KInv st K w0 s log B ∧ AllStart st todo0 w s B) where
  size P X := (keeps_carried he hK hpol hidle).size P X.1
  deals P X := (keeps_carried he hK hpol hidle).deals P X.1
  step := by
    intro w s log B w' s' l B' i P X hM P'
    refine ⟨(keeps_carried he hK hpol hidle).step P X.1 hM P', ?_⟩
    cases i with
    | none =>
      rcases hM with ⟨rfl, rfl, rfl, rfl⟩ | ⟨a, rest, r, v', evs, htodo, hnone, hc, htr, htr', rfl, hst, hold, hfail, hok, _⟩
      · exact X.2
      · have hdrop := P.todo
        rw [htodo] at hdrop
        have hget : todo0[s.next]? = some a := by
          rw [← Nat.add_zero s.next, ← List.getElem?_drop, ← hdrop]; rfl
        have hmem : a ∈ todo0 := List.mem_of_getElem? hget
        have hnext : s'.next = s.next + 1 := by
          have := P'.nstarts
          rw [hst, List.length_append, P.nstarts] at this
          exact this.symm
        have hfree := X.2.free s.next a (Nat.le_refl _) hget
        have hfree' : (st (w.view s.next).trace).queues a.queueID.toNat = none := hfree
        obtain ⟨v, hv⟩ := C131_works env K F st (by rw [he]; exact hK) hH a.queueID a.maxLen a.size (some a.cb) (some a.ecb) a.priv _ (hF a hmem) hfree'
        have hr : r = none := by
          rw [hv] at hc
          cases hc; rfl
        subst hr
        obtain ⟨_, _, hothers⟩ := C131_start env K F st (by rw [he]; exact hK) a.queueID a.maxLen a.size (some a.cb) (some a.ecb) a.priv _ v' none hc
        refine ⟨fun i b hi hb => ?_, fun x hx => ?_⟩
        · have hne : b.queueID.toNat ≠ a.queueID.toNat := by
            intro h
            have hlt : s.next < i := by omega
            have h1 : (todo0.map fun a => a.queueID.toNat)[s.next]? = some a.queueID.toNat := by rw [List.getElem?_map, hget]; rfl
            have h2 : (todo0.map fun a => a.queueID.toNat)[i]? = some a.queueID.toNat := by rw [List.getElem?_map, hb, ← h]; rfl
            have hl1 := (List.getElem?_eq_some_iff.mp h1).1
            have := (List.getElem?_inj hl1 hd).mp (h1.trans h2.symm)
            omega
          have h1 := X.2.free i b (by omega) hb
          have h2 := hothers b.queueID.toNat (hF b (List.mem_of_getElem? hb)) (.inl hne)
          rw [htr']
          have h3 : (st v'.trace).conf b.queueID.toNat = (st w.trace).conf b.queueID.toNat := h2
          unfold KState.conf at h3
          rw [h1] at h3
          cases hq : (st v'.trace).queues b.queueID.toNat with
          | none => rfl
          | some k => rw [hq] at h3; cases h3
        · rw [hst] at hx
          rcases List.mem_append.mp hx with hx | hx
          · exact X.2.started x hx
          · simp only [List.mem_singleton] at hx
            rw [hx]
    | some k =>
      rcases hM with ⟨rfl, rfl, rfl, rfl⟩ | ⟨g0, g', v', es, hg0, hes, htr, htr', rfl, hD, hst, hrun, _⟩
      · exact X.2
      · obtain ⟨es', ht', hgen⟩ := records_estep hidle K (cancel k) (policy k) g0 _ g' v' hes
        have ht' : v'.trace = w.trace ++ es' := ht'
        have hee : es' = es := List.append_cancel_left (ht'.symm.trans htr)
        subst hee
        have hgen : Genuine K w.trace es' := hgen
        have hk' : s'.run k = some g' := by rw [hrun]; simp
        have hnext : s'.next = s.next := by
          have := P'.nstarts
          rw [hst, P.nstarts] at this
          exact this.symm
        refine ⟨fun i b hi hb => ?_, fun x hx => X.2.started x (by rw [← hst]; exact hx)⟩
        rw [htr', ht']
        refine free_run (hF b (List.mem_of_getElem? hb)) (Run.of_genuine hK hgen) (fun ev hev => ?_) (X.2.free i b (by omega) hb)
        exact own_onlyVerdicts P' he hp hk' ev (by rw [byGo_same]; exact List.mem_append_right _ hev)

end


/-- C159, any application whose callbacks answer with `SetVerdict2`: on a kernel that does not fail, if its queues are distinct and free
when the program starts, and nobody else uses them, every start succeeds, whatever the other goroutines do meanwhile. -/
theorem C159_starts (env : Env) (he : env.e = .little) (hidle : ∀ w, env.cbEffect w = w) (K : Kernel QEv) (F : Nat → Prop) (st : List (Ev QEv) → KState)
    (hK : Keeps .little F K st) (hH : Healthy K st) (cancel : Nat → List (Ev QEv) → Bool) (policy : Nat → Policy) (todo : List StartArgs)
    (hpol : ∀ j a, todo[j]? = some a → Takes (policy j) (clip a.size.toNat)) (hp : ∀ j, Second (policy j)) (w0 : MW)
    (hfree : ∀ a ∈ todo, ¬ F a.queueID.toNat ∧ (st w0.trace).queues a.queueID.toNat = none) (hd : (todo.map fun a => a.queueID.toNat).Nodup)
    (is : List (Option Nat)) :
    ∃ (s : Proc) (log : List (Option Nat × Ev QEv)) (w : MW) (starts : List (Option Err × List (Ev QEv))),
      psched env K cancel policy is (atStart todo) w0 = .ok ((s, log), w) ∧ w.trace = w0.trace ++ log.map (·.2) ∧
      starts.length = min todo.length (is.count none) ∧ byGo none log = (starts.map (·.2)).flatten ∧ (∀ x ∈ starts, x.1 = none) ∧
      (∀ j, j < starts.length → Runs s j) ∧
      ∀ j a, todo[j]? = some a → Fate st w0.trace (policy j) a j (∃ l1 l2, log = l1 ++ l2 ∧ cancel j (w0.trace ++ l1.map (·.2)) = true) (w.st j) starts log
        (fun missed first del turns => (∀ x ∈ del, x.sent ≠ some false) ∧ (turns.length ≤ del.length + missed.length ∨ first.length ≤ del.length)) := by
  obtain ⟨s, w, log, B, h1, P, X, hnx, _⟩ := carried_sched hidle (by rw [he]; exact stray_fails)
    (allStart_carried (w0 := w0) (cancel := cancel) he hK hH hpol hidle hp (fun a ha => (hfree a ha).1) hd) is
    (PInv.init env K cancel policy todo w0)
    ⟨KInv.init st K w0 todo _, fun i a _ ha => (hfree a (List.mem_of_getElem? ha)).2, fun x hx => by cases hx⟩
  rw [List.nil_append] at P X
  refine ⟨s, log, w, B.starts, h1, P.trace, ?_, P.main, X.2.started, fun j hj => ?_, fun j a ha => ?_⟩
  · rw [P.nstarts, hnx]; show min _ (0 + _) = _; rw [Nat.zero_add]
  · obtain ⟨a, _, _, hiff, _⟩ := P.starts j _ (List.getElem?_eq_getElem hj)
    obtain ⟨g, hg⟩ := hiff.mp (X.2.started _ (List.getElem_mem hj))
    unfold Runs
    rw [hg]; rfl
  · rcases fate he hK hpol P X.1 ha with h | h | ⟨evs, fd, turns, rest, before, after, missed, first, del, x1, x2, x3, x4, x5, x6, x7, x8, x9, x10⟩
    · exact .inl h
    · exact .inr (.inl h)
    · exact .inr (.inr ⟨evs, fd, turns, rest, before, after, missed, first, del, x1, x2, x3, x4, x5, x6, x7, x8, x9, x10 hH⟩)

theorem exampleAnswer_second : Second exampleAnswer := fun _ _ _ _ => .inr ⟨1, 11, rfl⟩

theorem exampleAnswer_takes (range : Nat) : Takes exampleAnswer range := by
  intro n b mark id _
  show (1 : U32).toNat % 256 ≤ 5 ∧ (1 : U32).toNat % 256 ≠ 2
  decide

theorem answersOf_example (n : Nat) (evs : List (Ev QEv)) : ∀ x ∈ answersOf exampleAnswer n evs, x = .verdict2 1 11 := by
  induction evs generalizing n with
  | nil => intro x hx; cases hx
  | cons ev evs ih =>
    intro x hx
    by_cases h : isPacket ev = true
    · cases ev with
      | app q =>
        cases q with
        | packet cb b mark id priv =>
          have hx : x ∈ exampleAnswer n b mark id :: answersOf exampleAnswer (n + 1) evs := hx
          rcases List.mem_cons.mp hx with rfl | hx
          · rfl
          · exact ih _ x hx
        | _ => cases h
      | _ => cases h
    · rw [answersOf_cons _ _ _ _ (by simpa using h)] at hx
      exact ih n x hx

/-- Those of the packets given to the example whose verdict was sent; at most the last one may have to wait for it. -/
theorem example_dealt {q range : Nat} {del : List Dealt} (h1 : ∀ x ∈ del, x.answer = .verdict2 1 11) (h2 : ∀ x ∈ del, x.sent ≠ some false)
    (h3 : AllDone del.dropLast) : ∃ acc cur : List Dealt, del = acc ++ cur ∧ cur.length ≤ 1 ∧
      del.filterMap (Dealt.leaves q range) = acc.map (fun x => ⟨q, ⟨x.pkt.id, 11, x.pkt.data.take range⟩, 1⟩) ∧ unsentOf del = cur.map Dealt.pkt ∧
      (AllDone del → cur = []) := by
  have sentOf : ∀ x, x ∈ del → x.sent ≠ none → x.sent = some true := by
    intro x hx hn
    cases hs : x.sent with
    | none => exact absurd hs hn
    | some b => cases b with
      | true => rfl
      | false => exact absurd hs (h2 x hx)
  have hacc : ∀ l : List Dealt, (∀ x ∈ l, x ∈ del) → (∀ x ∈ l, x.sent = some true) →
      l.filterMap (Dealt.leaves q range) = l.map (fun x => ⟨q, ⟨x.pkt.id, 11, x.pkt.data.take range⟩, 1⟩) ∧ unsentOf l = [] := by
    intro l hl hs
    induction l with
    | nil => exact ⟨rfl, rfl⟩
    | cons x l ih =>
      obtain ⟨i1, i2⟩ := ih (fun y hy => hl y (by simp [hy])) (fun y hy => hs y (by simp [hy]))
      have hx : x.leaves q range = some ⟨q, ⟨x.pkt.id, 11, x.pkt.data.take range⟩, 1⟩ := by
        unfold Dealt.leaves
        rw [h1 x (hl x (by simp)), hs x (by simp)]
        rfl
      refine ⟨by rw [List.filterMap_cons_some hx, i1, List.map_cons], ?_⟩
      have hx2 := hs x (by simp)
      unfold unsentOf at i2 ⊢
      rw [List.filter_cons_of_neg (by simp [hx2])]
      exact i2
  by_cases hdel : del = []
  · subst hdel
    exact ⟨[], [], rfl, by simp, rfl, rfl, fun _ => rfl⟩
  have hcut : del.dropLast ++ [del.getLast hdel] = del := List.dropLast_concat_getLast hdel
  have hmem : del.getLast hdel ∈ del := List.getLast_mem hdel
  have hdl : ∀ x ∈ del.dropLast, x.sent = some true := by
    intro x hx
    have hx' := List.dropLast_subset _ hx
    refine sentOf x hx' (fun hn => ?_)
    have := h3 x hx hn
    rw [h1 x hx'] at this
    cases this
  by_cases hl : (del.getLast hdel).sent = none
  · obtain ⟨i1, i2⟩ := hacc del.dropLast (fun x hx => List.dropLast_subset _ hx) hdl
    refine ⟨del.dropLast, [del.getLast hdel], hcut.symm, by simp, ?_, ?_, fun hall => ?_⟩
    · conv => lhs; rw [← hcut]
      rw [List.filterMap_append, i1]
      have : (del.getLast hdel).leaves q range = none := by
        unfold Dealt.leaves
        rw [h1 _ hmem, hl]
      rw [List.filterMap_cons_none this]
      simp
    · conv => lhs; rw [← hcut]
      rw [unsentOf_append, i2]
      unfold unsentOf
      rw [List.filter_cons_of_pos (by simp [hl])]
      rfl
    · have := hall _ hmem hl
      rw [h1 _ hmem] at this
      cases this
  · obtain ⟨i1, i2⟩ := hacc del (fun x hx => hx) (fun x hx => by
      by_cases hx' : x ∈ del.dropLast
      · exact hdl x hx'
      · rw [← hcut, List.mem_append] at hx
        rcases hx with hx | hx
        · exact absurd hx hx'
        · simp only [List.mem_singleton] at hx
          rw [hx]
          exact sentOf _ hmem hl)
    exact ⟨del, [], by simp, by simp, i1, by rw [i2]; rfl, fun _ => rfl⟩

theorem closeEvs_not_pending {fd fd' cb priv size : Nat} {rest : List (Ev QEv)} (hc : NfQueue.CloseEvs fd rest) :
    ¬ Pending .little fd' cb priv size rest := by
  intro h
  rcases h with rfl | ⟨r, rfl⟩ | ⟨d, id, pl, m, _, _, rfl⟩ <;> rcases hc with hc | ⟨_, _, hc⟩ <;> simp at hc


theorem example_get {j : Nat} (h : j < 4) : exampleStarts[j]? = some (exampleArgs (10 + j) (if j < 2 then 1 else 2)) := by
  match j, h with
  | 0, _ => rfl
  | 1, _ => rfl
  | 2, _ => rfl
  | 3, _ => rfl
  | n + 4, h => omega

theorem example_queue {j cb : Nat} (h : j < 4) : (exampleArgs (10 + j) cb).queueID.toNat = 10 + j := by
  show (BitVec.ofNat 16 (10 + j)).toNat = 10 + j
  rw [BitVec.toNat_ofNat]; omega

theorem example_mem {a : StartArgs} (h : a ∈ exampleStarts) : 10 ≤ a.queueID.toNat ∧ a.queueID.toNat ≤ 13 := by
  have : exampleStarts = [exampleArgs 10 1, exampleArgs 11 1, exampleArgs 12 2, exampleArgs 13 2] := rfl
  rw [this] at h
  simp only [List.mem_cons, List.not_mem_nil, or_false] at h
  rcases h with rfl | rfl | rfl | rfl <;> exact ⟨by decide, by decide⟩

/-- The callback of a queue's packets. -/
theorem turns_callback {policy : Policy} {a : StartArgs} {fd : Nat} {c : Prop} {q : NfQueue} {evs : List (Ev QEv)} {turns : List (List (Ev QEv))}
    {rest : List (Ev QEv)} (h : Answering Stray .little policy a fd c q evs turns rest) {cb id mark priv : Nat} {b : List Byte}
    (hm : .app (.packet cb b mark id priv) ∈ evs) : cb = a.cb := by
  obtain ⟨h1, h2, h3, _⟩ := h
  rw [h1] at hm
  rcases List.mem_append.mp hm with hm | hm
  · obtain ⟨t, ht, hm⟩ := List.mem_flatten.mp hm
    obtain ⟨i, hi, rfl⟩ := List.mem_iff_getElem.mp ht
    rcases h2 i _ (List.getElem?_eq_getElem hi) with ⟨r, err, nf, _, _, he⟩ | ⟨d, id', pl, mk, es, _, _, _, he, ha⟩
    · rw [he] at hm
      simp at hm
    · rw [he] at hm
      simp only [List.mem_cons] at hm
      rcases hm with hm | hm | hm
      · cases hm
      · cases hm; rfl
      · generalize policy _ pl mk id' = ans at ha
        cases ans with
        | silent => have ha : es = [] := ha; subst ha; cases hm
        | verdict v => obtain ⟨_, _, rfl, _⟩ := ha; simp at hm
        | verdict2 v m => obtain ⟨_, _, rfl, _⟩ := ha; simp at hm
  · rcases h3 with h | ⟨_, h⟩
    · rcases h with rfl | ⟨r, rfl⟩ | ⟨d, id', pl, m, _, _, rfl⟩
      · cases hm
      · simp at hm
      · simp only [List.mem_cons, List.not_mem_nil, or_false] at hm
        rcases hm with hm | hm
        · cases hm
        · cases hm; rfl
    · rcases h with rfl | ⟨_, _, rfl⟩ <;> simp at hm

/-- C159: the whole program nfqueue/examples/example.go, on a little-endian kernel that keeps packet queues and does not fail; queues 10 to 13
are free when it starts, and nobody else uses them.  Under every schedule: nothing crashes; every start that is tried succeeds.  A
queue of the four that has been started belongs to the program until the end, with at most 2000 packets and their first 65531 bytes; of the packets that
waited when its start was done, at most the first two stay there (their messages are taken for acknowledgements); all others, and all that
come to it later, are accepted one after the other, in the order in which they came, with mark 11 and their first 65531 bytes; at most one
is in hand, the rest waits in the queue, and nothing is dropped.  Those accepted (and, it may be, the one in hand) have been given to the callback of the queue:
number 1 for queues 10 and 11, number 2 for 12 and 13. -/
theorem C159_example_program (env : Env) (he : env.e = .little) (hidle : ∀ w, env.cbEffect w = w) (K : Kernel QEv) (F : Nat → Prop)
    (st : List (Ev QEv) → KState) (hK : Keeps .little F K st) (hH : Healthy K st) (w0 : MW)
    (hfree : ∀ q, 10 ≤ q → q ≤ 13 → ¬ F q ∧ (st w0.trace).queues q = none) (is : List (Option Nat)) :
    ∃ (s : Proc) (log : List (Option Nat × Ev QEv)) (w : MW) (starts : List (Option Err × List (Ev QEv))),
      exampleProcess env K is w0 = .ok ((s, log), w) ∧ w.trace = w0.trace ++ log.map (·.2) ∧
      starts.length = min 4 (is.count none) ∧ byGo none log = (starts.map (·.2)).flatten ∧ (∀ x ∈ starts, x.1 = none) ∧
      ∀ j, j < starts.length → ∃ (fd : Nat) (before after : List (Option Nat × Ev QEv)) (evs : List (Ev QEv)) (missed first new accepted inHand waits : List Pkt),
        starts[j]? = some (none, evs) ∧ log = before ++ evs.map (none, ·) ++ after ∧ byGo (some j) before = [] ∧
        byGo none before = ((starts.take j).map (·.2)).flatten ∧
        (∃ k, (st (w0.trace ++ before.map (·.2) ++ evs)).queues (10 + j) = some k ∧ k.owner = .sock fd ∧ k.mode = 2 ∧ k.range = 65531 ∧ k.maxLen = 2000 ∧
          k.waiting = missed ++ first) ∧
        missed.length ≤ 2 ∧
        ((st (w0.trace ++ before.map (·.2) ++ evs)).inbox fd).filter (fun n => !n.isPacket) = List.replicate missed.length (.ack 0) ∧
        (st w.trace).cameTo (10 + j) = (st (w0.trace ++ before.map (·.2) ++ evs)).cameTo (10 + j) ++ new ∧
        first ++ new = accepted ++ inHand ++ waits ∧ inHand.length ≤ 1 ∧
        (st w.trace).leftFrom (10 + j) = (st (w0.trace ++ before.map (·.2) ++ evs)).leftFrom (10 + j) ++
          accepted.map (fun p => ⟨10 + j, ⟨p.id, 11, p.data.take 65531⟩, 1⟩) ∧
        (∃ k, (st w.trace).queues (10 + j) = some k ∧ k.owner = .sock fd ∧ k.mode = 2 ∧ k.range = 65531 ∧ k.waiting = missed ++ inHand ++ waits) ∧
        (∃ shown, (shown = [] ∨ shown = inHand) ∧ (shownIn (byGo (some j) log)).map (·.1) = (accepted ++ shown).map (fun p => p.data.take 65531)) ∧
        ∀ cb b mark id priv, .app (.packet cb b mark id priv) ∈ byGo (some j) log → cb = if j < 2 then 1 else 2 := by
  obtain ⟨s, log, w, starts, h1, h2, h3, h4, h5, _, h6⟩ := C159_starts env he hidle K F st hK hH (fun _ _ => false) (fun _ => exampleAnswer) exampleStarts
    (fun _ _ _ => exampleAnswer_takes _) (fun _ => exampleAnswer_second) w0
    (fun a ha => hfree _ (example_mem ha).1 (example_mem ha).2) (by decide) is
  have h3 : starts.length = min 4 (is.count none) := h3
  refine ⟨s, log, w, starts, h1, h2, h3, h4, h5, fun j hj => ?_⟩
  have hj4 : j < 4 := by omega
  have hq : ∀ {cb}, (exampleArgs (10 + j) cb).queueID.toNat = 10 + j := example_queue hj4
  have hr : ∀ {cb}, clip (exampleArgs (10 + j) cb).size.toNat = 65531 := by intro cb; rfl
  rcases h6 j _ (example_get hj4) with ⟨hn, _⟩ | ⟨err, evs, hs, _⟩ | ⟨evs, fd, turns, rest, before, after, missed, first, del, x1, x2, x3, x4, x5, x6, x7, x8, x9, x10, _⟩
  · have := List.getElem?_eq_none_iff.mp hn
    omega
  · have := h5 _ (List.mem_of_getElem? hs)
    cases this
  obtain ⟨k1, y1, y2, y3, y4, y5, y6⟩ := x8.waiting
  rw [hq] at y1
  rw [hr] at y4
  have hp : Pending .little fd (exampleArgs (10 + j) (if j < 2 then 1 else 2)).cb (exampleArgs (10 + j) (if j < 2 then 1 else 2)).priv (75 * 1024) rest := by
    rcases x7.2.2.1 with h | ⟨⟨_, _, _, h⟩, _⟩
    · exact h
    · cases h
  have htr : w0.trace ++ before.map (·.2) ++ evs ++ after.map (·.2) = w.trace := by
    rw [h2, x4, List.map_append, List.map_append, map_snd]
    simp
  cases x9 with
  | closed hc => exact absurd hp (closeEvs_not_pending hc)
  | @runs new hand pend _ L =>
    have hall : ∀ x ∈ del, x.answer = .verdict2 1 11 := fun x hx =>
      answersOf_example _ _ _ (by rw [L.tells.answers]; exact List.mem_map_of_mem hx)
    obtain ⟨acc, cur, d1, d2, d3, d4, d5⟩ := example_dealt (q := 10 + j) (range := 65531) hall x10 L.done.1
    have hcame := L.came
    have hleft := L.left
    obtain ⟨k2, z1, z2, z3, z4, z5⟩ := L.waiting
    rw [htr, hq] at hcame hleft z1
    rw [hr] at hleft z4
    rw [hr] at L
    rw [d3] at hleft
    rw [d4] at z5
    have hshown := L.tells.shown
    rw [← x7.1] at hshown
    have hcases : (cur = [] ∧ hand.length ≤ 1) ∨ hand = [] := by
      by_cases hh : hand = []
      · exact .inr hh
      · obtain ⟨d, p, e1, e2⟩ := L.hand hh
        exact .inl ⟨d5 (L.done.2 (by rw [e2]; rfl)), by rw [e1]; exact Nat.le_refl _⟩
    refine ⟨fd, before, after, evs, missed, first, new, acc.map Dealt.pkt, cur.map Dealt.pkt ++ hand, pend, x1, x4, x5, x6,
      ⟨k1, y1, y2, y3, y4, y5, y6⟩, x8.few, x8.acks, hcame, ?_, ?_, ?_, ⟨k2, z1, z2, z3, z4, by rw [z5]; simp⟩, ⟨cur.map Dealt.pkt, ?_, ?_⟩, ?_⟩
    · rw [L.order, d1]; simp
    · rcases hcases with ⟨rfl, h⟩ | rfl
      · simpa using h
      · simpa using d2
    · rw [hleft, List.map_map]; rfl
    · rcases hcases with ⟨rfl, h⟩ | rfl
      · exact .inl rfl
      · right; simp
    · rw [hshown, d1]; simp only [List.map_append, List.map_map]; rfl
    · intro cb b mark id priv hm
      exact turns_callback x7 hm


theorem psched_append (env : Env) (K : Kernel QEv) (cancel : Nat → List (Ev QEv) → Bool) (policy : Nat → Policy) : ∀ (a b : List (Option Nat)) (s : Proc),
    psched env K cancel policy (a ++ b) s = psched env K cancel policy a s >>= fun x =>
      psched env K cancel policy b x.1 >>= fun y => pure (y.1, x.2 ++ y.2) := by
  intro a
  induction a with
  | nil =>
    intro b s
    funext w
    simp only [List.nil_append, psched, GoM.bind_apply, GoM.pure_apply, Res.ok_bind]
    cases psched env K cancel policy b s w with
    | ok x => rfl
    | panic => rfl
    | diverge => rfl
  | cons i a ih =>
    intro b s
    funext w
    simp only [List.cons_append, psched, GoM.bind_apply]
    cases pstep env K cancel policy i s w with
    | panic => rfl
    | diverge => rfl
    | ok x =>
      obtain ⟨⟨s1, l1⟩, w1⟩ := x
      simp only [Res.ok_bind, ih b s1, GoM.bind_apply]
      cases psched env K cancel policy a s1 w1 with
      | panic => rfl
      | diverge => rfl
      | ok x =>
        obtain ⟨⟨s2, l2⟩, w2⟩ := x
        simp only [Res.ok_bind, GoM.pure_apply]
        cases psched env K cancel policy b s2 w2 with
        | panic => rfl
        | diverge => rfl
        | ok x => simp only [Res.ok_bind, List.append_assoc]

/-- Whatever the process does is answered by the kernel. -/
theorem psched_genuine {env : Env} (hidle : ∀ w, env.cbEffect w = w) {K : Kernel QEv} {cancel : Nat → List (Ev QEv) → Bool} {policy : Nat → Policy} :
    ∀ (is : List (Option Nat)) {s s' : Proc} {w w' : MW} {l : List (Option Nat × Ev QEv)},
    psched env K cancel policy is s w = .ok ((s', l), w') → ∃ evs, w'.trace = w.trace ++ evs ∧ Genuine K w.trace evs := by
  intro is
  induction is with
  | nil =>
    intro s s' w w' l h
    simp only [psched, GoM.pure_apply, Res.ok.injEq, Prod.mk.injEq] at h
    obtain ⟨_, rfl⟩ := h
    exact ⟨[], by simp, .nil⟩
  | cons i is ih =>
    intro s s' w w' l h
    simp only [psched, GoM.bind_apply] at h
    cases h1 : pstep env K cancel policy i s w with
    | panic => rw [h1] at h; cases h
    | diverge => rw [h1] at h; cases h
    | ok x =>
      obtain ⟨⟨s1, l1⟩, w1⟩ := x
      rw [h1] at h
      simp only [Res.ok_bind] at h
      cases h2 : psched env K cancel policy is s1 w1 with
      | panic => rw [h2] at h; cases h
      | diverge => rw [h2] at h; cases h
      | ok x =>
        obtain ⟨⟨s2, l2⟩, w2⟩ := x
        rw [h2] at h
        simp only [Res.ok_bind, GoM.pure_apply, Res.ok.injEq, Prod.mk.injEq] at h
        obtain ⟨_, rfl⟩ := h
        obtain ⟨e2, t2, g2⟩ := ih h2
        have h3 : ∃ e1, w1.trace = w.trace ++ e1 ∧ Genuine K w.trace e1 := by
          unfold pstep at h1
          cases i with
          | none =>
            simp only at h1
            split at h1
            · cases h1; exact ⟨[], by simp, .nil⟩
            · split at h1
              · rename_i hc
                simp only [Res.ok.injEq, Prod.mk.injEq] at h1
                obtain ⟨_, rfl⟩ := h1
                exact records_createAndStart _ _ _ _ _ _ _ _ _ _ hc
              · cases h1
              · cases h1
          | some j =>
            simp only at h1
            split at h1
            · cases h1; exact ⟨[], by simp, .nil⟩
            · split at h1
              · rename_i hc
                simp only [Res.ok.injEq, Prod.mk.injEq] at h1
                obtain ⟨_, rfl⟩ := h1
                exact records_estep hidle _ _ _ _ _ _ _ hc
              · cases h1
              · cases h1
        obtain ⟨e1, t1, g1⟩ := h3
        exact ⟨e1 ++ e2, by rw [t2, t1, List.append_assoc], g1.append (by rw [← t1]; exact g2)⟩

/-- C159, progress: cut any run of the example at any moment.  What waited in a queue whose start was done by then, or came to it until then (`first ++ came`; all but the at
most two packets of `missed`), has been accepted at the end, in order, but for at most one packet that is in hand, if the goroutine of the queue was given enough steps
since: 13 for each such packet not yet shown to the callback, and 13 for each of `missed`, and 13 more. -/
theorem C159_progress (env : Env) (he : env.e = .little) (hidle : ∀ w, env.cbEffect w = w) (K : Kernel QEv) (F : Nat → Prop)
    (st : List (Ev QEv) → KState) (hK : Keeps .little F K st) (hH : Healthy K st) (w0 : MW)
    (hfree : ∀ q, 10 ≤ q → q ≤ 13 → ¬ F q ∧ (st w0.trace).queues q = none) (is1 is2 : List (Option Nat)) :
    ∃ s1 log1 w1 s2 log2 w2, exampleProcess env K is1 w0 = .ok ((s1, log1), w1) ∧
      exampleProcess env K (is1 ++ is2) w0 = .ok ((s2, log1 ++ log2), w2) ∧ w1.trace = w0.trace ++ log1.map (·.2) ∧ w2.trace = w1.trace ++ log2.map (·.2) ∧
      ∃ starts : List (Option Err × List (Ev QEv)), starts.length = min 4 (is1.count none) ∧ byGo none log1 = (starts.map (·.2)).flatten ∧
      ∀ j, j < starts.length → ∃ (fd : Nat) (before after : List (Option Nat × Ev QEv)) (evs : List (Ev QEv)) (missed first came accepted : List Pkt),
        starts[j]? = some (none, evs) ∧ log1 = before ++ evs.map (none, ·) ++ after ∧ byGo (some j) before = [] ∧
        byGo none before = ((starts.take j).map (·.2)).flatten ∧
        (∃ k, (st (w0.trace ++ before.map (·.2) ++ evs)).queues (10 + j) = some k ∧ k.owner = .sock fd ∧ k.waiting = missed ++ first) ∧ missed.length ≤ 2 ∧
        ((st (w0.trace ++ before.map (·.2) ++ evs)).inbox fd).filter (fun n => !n.isPacket) = List.replicate missed.length (.ack 0) ∧
        (st w1.trace).cameTo (10 + j) = (st (w0.trace ++ before.map (·.2) ++ evs)).cameTo (10 + j) ++ came ∧
        (st w2.trace).leftFrom (10 + j) = (st (w0.trace ++ before.map (·.2) ++ evs)).leftFrom (10 + j) ++
          accepted.map (fun p => ⟨10 + j, ⟨p.id, 11, p.data.take 65531⟩, 1⟩) ∧
        (accepted <+: first ++ came ∨ first ++ came <+: accepted) ∧
        (13 * ((first ++ came).length - (shownIn (byGo (some j) log1)).length + missed.length + 1) < is2.count (some j) →
          (first ++ came).length ≤ accepted.length + 1) := by
  obtain ⟨s, log, w, starts, c1, _, c3, _, _, c6, _⟩ := C159_starts env he hidle K F st hK hH (fun _ _ => false) (fun _ => exampleAnswer) exampleStarts
    (fun _ _ _ => exampleAnswer_takes _) (fun _ => exampleAnswer_second) w0
    (fun a ha => hfree _ (example_mem ha).1 (example_mem ha).2) (by decide) is1
  have c3 : starts.length = min 4 (is1.count none) := c3
  obtain ⟨s1, log1, w1, s2, log2, w2, h1, h2, t1, t2, starts1, starts2, n1, n2, m1, m2, hj⟩ := C144_progress env he hidle K F st hK hH (fun _ _ => false)
    (fun _ => exampleAnswer) exampleStarts (fun _ _ _ => exampleAnswer_takes _) w0 is1 is2
  rw [h1] at c1
  simp only [Res.ok.injEq, Prod.mk.injEq] at c1
  obtain ⟨⟨rfl, rfl⟩, rfl⟩ := c1
  refine ⟨s1, log1, w1, s2, log2, w2, h1, ?_, t1, t2, starts1, n1, m1, fun j hlt => ?_⟩
  · have h1 : psched env K (fun _ _ => false) (fun _ => exampleAnswer) is1 (atStart exampleStarts) w0 = .ok ((s1, log1), w1) := h1
    show psched env K (fun _ _ => false) (fun _ => exampleAnswer) (is1 ++ is2) (atStart exampleStarts) w0 = _
    rw [psched_append, GoM.bind_apply, h1, Res.ok_bind, GoM.bind_apply, h2, Res.ok_bind]
    rfl
  have n1 : starts1.length = min 4 (is1.count none) := n1
  have hj4 : j < 4 := by omega
  have hq : ∀ {cb}, (exampleArgs (10 + j) cb).queueID.toNat = 10 + j := example_queue hj4
  obtain ⟨a, fd, turns, rest, evs, before, after, missed, first, del, new, ha, hst, _, hcut, hb0, hb1, hA, hbeg, hacc, hsent, hprog⟩ := hj j (c6 j (by omega))
  have haa : a = exampleArgs (10 + j) (if j < 2 then 1 else 2) := Option.some.inj (ha.symm.trans (example_get hj4))
  subst haa
  have hp : Pending .little fd (exampleArgs (10 + j) (if j < 2 then 1 else 2)).cb (exampleArgs (10 + j) (if j < 2 then 1 else 2)).priv (75 * 1024) rest := by
    rcases hA.2.2.1 with h | ⟨⟨_, _, _, h⟩, _⟩
    · exact h
    · cases h
  have hnc : ¬ NfQueue.CloseEvs fd rest := fun hc => closeEvs_not_pending hc hp
  rcases hprog with h | ⟨hcame, hprog⟩
  · exact absurd h hnc
  rw [hq] at hcame
  obtain ⟨k, k1, k3, _, _, _, k2⟩ := hbeg.waiting
  rw [hq] at k1
  have htr : w0.trace ++ before.map (·.2) ++ evs ++ (after ++ log2).map (·.2) = w2.trace := by
    rw [t2, t1]
    conv => rhs; rw [hcut]
    rw [List.map_append, List.map_append, List.map_append, map_snd]
    simp
  have htr1 : w0.trace ++ before.map (·.2) ++ evs ++ after.map (·.2) = w1.trace := by
    rw [t1]
    conv => rhs; rw [hcut]
    rw [List.map_append, List.map_append, map_snd]
    simp
  cases hacc with
  | closed hc => exact absurd hc hnc
  | @runs all hand pend _ L =>
    have hall : ∀ x ∈ del, x.answer = .verdict2 1 11 := fun x hx =>
      answersOf_example _ _ _ (by rw [L.tells.answers]; exact List.mem_map_of_mem hx)
    obtain ⟨acc, cur, d1, d2, d3, d4, d5⟩ := example_dealt (q := 10 + j) (range := 65531) hall hsent L.done.1
    have hallc := L.came
    have hleft := L.left
    rw [htr, hq] at hallc hleft
    have hr : clip (exampleArgs (10 + j) (if j < 2 then 1 else 2)).size.toNat = 65531 := rfl
    rw [hr, d3] at hleft
    have hsub : first ++ new <+: first ++ all := by
      obtain ⟨evs2, e1, g⟩ := psched_genuine hidle is2 h2
      obtain ⟨l, hl⟩ := more_came (Run.more (Run.of_genuine hK g)) (10 + j)
      rw [← e1, hcame, hallc, List.append_assoc ((st _).cameTo _)] at hl
      have hl := List.append_cancel_left hl
      rw [hl, ← List.append_assoc]
      exact ⟨l, rfl⟩
    refine ⟨fd, before, after, evs, missed, first, new, acc.map Dealt.pkt, hst, hcut, hb0, hb1, ⟨k, k1, k3, k2⟩, hbeg.few, hbeg.acks, hcame, by rw [hleft, List.map_map]; rfl, ?_, fun hn => ?_⟩
    · refine List.prefix_or_prefix_of_prefix (l₃ := first ++ all) ?_ hsub
      rw [L.order, d1]
      simp
    · rcases hprog with h | h
      · omega
      · have h3 := congrArg List.length d1
        rw [List.length_append] at h3
        rw [List.length_map]
        omega


/-- The first start of the example. -/
theorem example_started : ∃ w k fd, createAndStart someEnv lateKernel 10 2000 0xffff (some 1) (some 3) 0 (newProcess.view 0) = .ok (none, w) ∧
    (stateAfter .little someQueues lateScript w.trace).queues 10 = some k ∧ k.owner = .sock fd ∧ k.waiting = threePackets ∧
    (stateAfter .little someQueues lateScript w.trace).leftFrom 10 = [] ∧
    ((stateAfter .little someQueues lateScript w.trace).inbox fd).filter (fun n => !n.isPacket) = [] := by
  have h : (match createAndStart someEnv lateKernel 10 2000 0xffff (some 1) (some 3) 0 (newProcess.view 0) with
    | .ok (none, w) => (match (stateAfter .little someQueues lateScript w.trace).queues 10 with
      | some k => (match k.owner with
        | .sock fd => decide (k.waiting = threePackets ∧ (stateAfter .little someQueues lateScript w.trace).leftFrom 10 = [] ∧
          ((stateAfter .little someQueues lateScript w.trace).inbox fd).filter (fun n => !n.isPacket) = [])
        | _ => false)
      | _ => false)
    | _ => false) = true := by decide +kernel
  split at h
  · rename_i w hw
    split at h
    · rename_i k h2
      split at h
      · rename_i fd h1
        obtain ⟨h3, h4, h5⟩ := of_decide_eq_true h
        exact ⟨w, k, fd, hw, h2, h1, h3, h4, h5⟩
      · cases h
    · cases h
  · cases h

theorem someQueues_free (w0 : MW) (h : w0.trace = []) : ∀ q, 10 ≤ q → q ≤ 13 →
    ¬ (fun _ : Nat => False) q ∧ (stateAfter .little someQueues lateScript w0.trace).queues q = none := by
  intro q h1 h2
  refine ⟨fun h => h, ?_⟩
  rw [h]
  have : q = 10 ∨ q = 11 ∨ q = 12 ∨ q = 13 := by omega
  rcases this with rfl | rfl | rfl | rfl <;> rfl

/-- C159, a concrete case: queue 5 belongs to another program, the queues of the example are free; three packets wait in queue 10 when it has been started; once its goroutine has made 53
steps, however they are mixed with the starts of the other queues and their goroutines, the first two (the second has 60 bytes) have left with mark 11. -/
theorem C159_example (is : List (Option Nat)) (h53 : 53 ≤ is.count (some 0)) :
    ∃ s log w rest, exampleProcess someEnv lateKernel (none :: is) newProcess = .ok ((s, log), w) ∧
      (stateAfter .little someQueues lateScript w.trace).leftFrom 10 = [⟨10, ⟨1, 11, [1, 2, 3]⟩, 1⟩, ⟨10, ⟨2, 11, List.replicate 60 1⟩, 1⟩] ++ rest := by
  have hK : Keeps .little (fun _ => False) lateKernel _ := queueKernel_keeps .little someQueues_untouched lateScript (fun _ => False)
  have hH := queueKernel_healthy .little someQueues lateScript
  obtain ⟨s1, log1, w1, s2, log2, w2, h1, h2, ht1, ht2, starts, n1, m1, hj⟩ := C159_progress someEnv rfl (fun _ => rfl) lateKernel _ _ hK hH newProcess
    (someQueues_free _ rfl) [none] is
  obtain ⟨v, k, fd, hv, q1, q2, q3, q4, q5⟩ := example_started
  have hv' := h1
  have e10 : exampleStarts = (exampleArgs 10 1) :: [exampleArgs 11 1, exampleArgs 12 2, exampleArgs 13 2] := rfl
  have a10 : createAndStart someEnv lateKernel (exampleArgs 10 1).queueID (exampleArgs 10 1).maxLen (exampleArgs 10 1).size (some (exampleArgs 10 1).cb)
    (some (exampleArgs 10 1).ecb) (exampleArgs 10 1).priv (newProcess.view 0) = .ok (none, v) := hv
  simp only [exampleProcess, psched, GoM.bind_apply, pstep, e10, a10, Res.ok_bind, GoM.pure_apply, Res.ok.injEq, Prod.mk.injEq, List.append_nil] at hv'
  obtain ⟨⟨_, hlog1⟩, hw1⟩ := hv'
  have htr : w1.trace = v.trace := by rw [← hw1]
  have n1 : starts.length = 1 := n1
  obtain ⟨fd', before, after, evs, missed, first, came, accepted, c1, c2, c3, c4, ⟨k', k1, k2, k3⟩, c5, c6, c7, c8, c9, c10⟩ := hj 0 (by omega)
  have hall : ∀ x ∈ log1, x.1 = none := by
    intro x hx
    rw [← hlog1] at hx
    obtain ⟨y, _, rfl⟩ := List.mem_map.mp hx
    rfl
  have hb0 : before = [] := by
    rw [byGo_all (fun x hx => hall x (by rw [c2]; simp [hx])), List.take_zero] at c4
    simpa using c4
  subst hb0
  have hs : starts = [(none, evs)] := by
    match starts, n1, c1 with
    | [x], _, h => cases h; rfl
  have hevs : evs = w1.trace := by
    rw [hs, byGo_all hall] at m1
    rw [ht1]
    simpa [newProcess] using m1.symm
  have htr1 : newProcess.trace ++ List.map (·.2) ([] : List (Option Nat × Ev QEv)) ++ evs = v.trace := by rw [hevs, ← htr]; rfl
  rw [htr1] at k1 c6 c7 c8
  have hkk : k' = k := Option.some.inj (k1.symm.trans q1)
  subst hkk
  have hfd : fd' = fd := by rw [k2] at q2; cases q2; rfl
  subst hfd
  have hm : missed = [] := by
    rw [q5] at c6
    cases missed with
    | nil => rfl
    | cons => simp [List.replicate_succ] at c6
  subst hm
  rw [List.nil_append, q3] at k3
  subst k3
  have hcame : came = [] := by
    rw [htr] at c7
    have := congrArg List.length c7
    rw [List.length_append] at this
    exact List.length_eq_zero_iff.mp (by omega)
  subst hcame
  have h3 : (threePackets ++ []).length = 3 := rfl
  rw [h3] at c10
  have hlen := c10 (by
    have : ([] : List Pkt).length = 0 := rfl
    omega)
  have hpre : ∃ r, accepted = [⟨1, 5, [1, 2, 3]⟩, ⟨2, 0, List.replicate 60 1⟩] ++ r := by
    rw [List.append_nil] at c9
    rcases c9 with ⟨t, ht⟩ | ⟨t, ht⟩
    · match accepted, hlen, ht with
      | x :: y :: l, _, ht =>
        simp only [threePackets, List.cons_append, List.cons.injEq] at ht
        obtain ⟨rfl, rfl, _⟩ := ht
        exact ⟨l, rfl⟩
    · exact ⟨⟨3, 0, [9, 9]⟩ :: t, by rw [← ht]; rfl⟩
  obtain ⟨r, hr⟩ := hpre
  have hleft : (stateAfter .little someQueues lateScript w2.trace).leftFrom 10 = _ := c8
  have q4' : (stateAfter .little someQueues lateScript v.trace).leftFrom (10 + 0) = [] := q4
  rw [q4', List.nil_append, hr, List.map_append] at hleft
  have t1 : ([1, 2, 3] : List Byte).take 65531 = [1, 2, 3] := List.take_of_length_le (by simp)
  have t2 : (List.replicate 60 1 : List Byte).take 65531 = List.replicate 60 1 := List.take_of_length_le (by simp)
  rw [List.map_cons, List.map_cons, List.map_nil] at hleft
  dsimp only at hleft
  rw [t1, t2] at hleft
  exact ⟨s2, log1 ++ log2, w2, _, h2, hleft⟩

end Verif.Props
