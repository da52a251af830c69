import Verif.Sys.Prog
/-!
The same programs as in Sys/Prog.lean, with the moment of each system call: the history of the whole machine before it.  Nothing in
this file models a particular function of /repo.
-/
namespace Verif.Sys.Prog
variable {α R S : Type}

/-- The system calls of goroutine `i`, each with the history before it. -/
def placed (i : Nat) : List (Ev α) → List (Nat × Ev α) → List (List (Ev α) × Ev α)
  | _, [] => []
  | tr, (j, ev) :: l => if j = i then (tr, ev) :: placed i (tr ++ [ev]) l else placed i (tr ++ [ev]) l

theorem placed_append (i : Nat) (tr : List (Ev α)) (a b : List (Nat × Ev α)) :
    placed i tr (a ++ b) = placed i tr a ++ placed i (tr ++ a.map (·.2)) b := by
  induction a generalizing tr with
  | nil => simp [placed]
  | cons x a ih =>
    obtain ⟨j, ev⟩ := x
    simp only [List.cons_append, placed, ih, List.map_cons, List.append_assoc]
    split <;> simp

/-- What is at a place is in the log there. -/
theorem placed_split (i : Nat) {h : List (Ev α)} {ev : Ev α} : ∀ {tr : List (Ev α)} {log : List (Nat × Ev α)}
    {a b : List (List (Ev α) × Ev α)}, placed i tr log = a ++ (h, ev) :: b →
      ∃ pre post, log = pre ++ (i, ev) :: post ∧ h = tr ++ pre.map (·.2) ∧ placed i tr pre = a ∧
        placed i (h ++ [ev]) post = b := by
  intro tr log
  induction log generalizing tr with
  | nil => intro a b he; simp [placed] at he
  | cons x l ih =>
    intro a b he
    obtain ⟨j, e'⟩ := x
    simp only [placed] at he
    by_cases hj : j = i
    · subst hj
      rw [if_pos rfl] at he
      cases a with
      | nil =>
        simp only [List.nil_append, List.cons.injEq, Prod.mk.injEq] at he
        obtain ⟨⟨rfl, rfl⟩, he⟩ := he
        exact ⟨[], l, rfl, by simp, rfl, he⟩
      | cons y a =>
        simp only [List.cons_append, List.cons.injEq] at he
        obtain ⟨rfl, he⟩ := he
        obtain ⟨pre, post, rfl, rfl, h3, h4⟩ := ih he
        exact ⟨(j, e') :: pre, post, rfl, by simp, by simp [placed, h3], h4⟩
    · rw [if_neg hj] at he
      obtain ⟨pre, post, rfl, rfl, h3, h4⟩ := ih he
      exact ⟨(j, e') :: pre, post, rfl, by simp, by simp [placed, hj, h3], h4⟩

/-- A program made these system calls at these moments, and this is left of it. -/
inductive RunsAt (K : Kernel α) : Prog α R → List (List (Ev α) × Ev α) → Prog α R → Prop
  | refl (p) : RunsAt K p [] p
  | step {h p q ev l r} : Prog.step K h p = some (q, ev) → RunsAt K q l r → RunsAt K p ((h, ev) :: l) r

theorem RunsAt.trans {K : Kernel α} {p q r : Prog α R} {a b : List (List (Ev α) × Ev α)} (h : RunsAt K p a q) (h' : RunsAt K q b r) :
    RunsAt K p (a ++ b) r := by
  induction h with
  | refl => exact h'
  | step hs _ ih => exact .step hs (ih h')

theorem sched_placed {K : Kernel α} (is : List Nat) : ∀ {s s' : Nat → Prog α R} {l : List (Nat × Ev α)}
    {tr tr' : List (Ev α)}, sched K is s tr = .ok ((s', l), tr') → ∀ i, RunsAt K (s i) (placed i tr l) (s' i) := by
  induction is with
  | nil =>
    intro s s' l tr tr' h i
    simp only [sched, Res.ok.injEq, Prod.mk.injEq] at h
    obtain ⟨⟨rfl, rfl⟩, rfl⟩ := h
    exact .refl _
  | cons j is ih =>
    intro s s' l tr tr' h i
    simp only [sched] at h
    obtain ⟨⟨⟨s1, l1⟩, tr1⟩, h1, h⟩ := Res.bind_eq_ok.mp h
    obtain ⟨⟨⟨s2, l2⟩, tr2⟩, h2, h⟩ := Res.bind_eq_ok.mp h
    simp only [Res.ok.injEq, Prod.mk.injEq] at h
    obtain ⟨⟨rfl, rfl⟩, rfl⟩ := h
    have hi := ih h2 i
    dsimp only at hi
    rcases pick_spec h1 with ⟨rfl, rfl, rfl, _, _⟩ | ⟨q, ev, hs, rfl, rfl, rfl⟩
    · exact hi
    · simp only [List.singleton_append, placed]
      dsimp only at hi
      by_cases hj : j = i
      · subst hj
        rw [if_pos rfl] at hi ⊢
        exact .step hs hi
      · rw [if_neg (Ne.symm hj)] at hi
        rw [if_neg hj]
        exact hi

/-- A program that has stopped makes no more calls. -/
theorem RunsAt.of_ret {K : Kernel α} {r : R} {l : List (List (Ev α) × Ev α)} {q : Prog α R} (h : RunsAt K (.ret r) l q) :
    l = [] ∧ q = .ret r := by
  cases h with
  | refl => exact ⟨rfl, rfl⟩
  | step hs => cases hs

/-- Sequencing: the first part came to its end, then the second. -/
theorem RunsAt.of_andThen {K : Kernel α} {p : Prog α R} {f : R → Prog α S} {l : List (List (Ev α) × Ev α)} {r : S}
    (h : RunsAt K (p.andThen f) l (.ret r)) :
    ∃ l1 l2 x, l = l1 ++ l2 ∧ RunsAt K p l1 (.ret x) ∧ RunsAt K (f x) l2 (.ret r) := by
  induction p generalizing l with
  | ret x => exact ⟨[], l, x, rfl, .refl _, h⟩
  | crash => cases h with | step hs => cases hs
  | hang => cases h with | step hs => cases hs
  | socket d t p k ih | bind fd k ih | close fd k ih | sendto fd b fl k ih | recvfrom fd s fl k ih =>
    cases h with
    | step hs h =>
      simp only [Prog.andThen, Prog.step, Option.some.injEq, Prod.mk.injEq] at hs
      obtain ⟨rfl, rfl⟩ := hs
      obtain ⟨l1, l2, x, rfl, h1, h2⟩ := ih _ h
      exact ⟨_, l2, x, (List.cons_append ..).symm, .step rfl h1, h2⟩

/-- A program all of whose messages satisfy `Q`. -/
def Sends (Q : List Byte → Prop) : Prog α R → Prop
  | ret _ => True
  | crash => True
  | hang => True
  | socket _ _ _ k => ∀ x, Sends Q (k x)
  | bind _ k => ∀ x, Sends Q (k x)
  | close _ k => ∀ x, Sends Q (k x)
  | sendto _ b _ k => Q b ∧ ∀ x, Sends Q (k x)
  | recvfrom _ _ _ k => ∀ x, Sends Q (k x)

theorem Sends.andThen {Q : List Byte → Prop} {p : Prog α R} {f : R → Prog α S} (h : Sends Q p) (hf : ∀ r, Sends Q (f r)) :
    Sends Q (p.andThen f) := by
  induction p with
  | ret r => exact hf r
  | crash => trivial
  | hang => trivial
  | socket d t p k ih | bind fd k ih | close fd k ih | recvfrom fd s fl k ih => exact fun x => ih x (h x)
  | sendto fd b fl k ih => exact ⟨h.1, fun x => ih x (h.2 x)⟩

theorem Sends.runsAt {Q : List Byte → Prop} {K : Kernel α} {p q : Prog α R} {l : List (List (Ev α) × Ev α)} (h : RunsAt K p l q)
    (hp : Sends Q p) : ∀ x ∈ l, ∀ fd b fl r, x.2 = .sendto fd b fl r → Q b := by
  induction h with
  | refl => intro x hx; cases hx
  | @step h p q ev l r hs _ ih =>
    have key : Sends Q q ∧ ∀ fd b fl r, ev = .sendto fd b fl r → Q b := by
      cases p <;> simp only [Prog.step, reduceCtorEq, Option.some.injEq, Prod.mk.injEq] at hs
      all_goals obtain ⟨rfl, rfl⟩ := hs
      · exact ⟨hp _, fun _ _ _ _ h => by cases h⟩
      · exact ⟨hp _, fun _ _ _ _ h => by cases h⟩
      · exact ⟨hp _, fun _ _ _ _ h => by cases h⟩
      · exact ⟨hp.2 _, fun _ _ _ _ h => by cases h; exact hp.1⟩
      · exact ⟨hp _, fun _ _ _ _ h => by cases h⟩
    intro x hx
    rcases List.mem_cons.mp hx with rfl | hx
    · exact key.2
    · exact ih key.1 x hx

/-! ### Between two calls of one goroutine on its descriptor -/

/-- The system call concerns descriptor `fd`: it is made on it, or hands it out. -/
def touches (fd : Nat) : Ev α → Bool
  | .socket _ _ _ (.ok f) => f == fd
  | ev => onFd ev == some fd

theorem holder_opened (fd : Nat) (tr : List (Ev α)) : ∀ (log : List (Nat × Ev α)) (i : Nat), holder fd log = some i →
    opened fd (tr ++ log.map (·.2)) = true := by
  suffices ∀ (l : List (Nat × Ev α)) (i : Nat), holder fd l.reverse = some i → opened fd (tr ++ l.reverse.map (·.2)) = true by
    intro log i h
    have := this log.reverse i
    rw [List.reverse_reverse] at this
    exact this h
  intro l
  induction l with
  | nil => intro i h; cases h
  | cons x l ih =>
    intro i h
    obtain ⟨j, ev⟩ := x
    rw [List.reverse_cons, holder_snoc] at h
    rw [List.reverse_cons, List.map_append, ← List.append_assoc, List.map_cons, List.map_nil, opened_snoc]
    cases ev with
    | socket d t p r =>
      cases r with
      | error n => exact ih i h
      | ok f =>
        dsimp only at h ⊢
        by_cases hf : f = fd
        · rw [if_pos hf]
        · rw [if_neg hf] at h ⊢; exact ih i h
    | close f r =>
      cases r with
      | some n => exact ih i h
      | none =>
        dsimp only at h ⊢
        by_cases hf : f = fd
        · rw [if_pos hf] at h; cases h
        · rw [if_neg hf] at h ⊢; exact ih i h
    | _ => exact ih i h

/-- While a goroutine holds a descriptor, the others do not touch it. -/
theorem untouched {fd i : Nat} (tr : List (Ev α)) (log : List (Nat × Ev α))
    (hcalls : ∀ pre j ev post f, log = pre ++ (j, ev) :: post → onFd ev = some f → holder f pre = some j)
    (hfresh : ∀ pre j d t p f post, log = pre ++ (j, .socket d t p (.ok f)) :: post → opened f (tr ++ pre.map (·.2)) = false)
    (pre post : List (Nat × Ev α)) : ∀ mid : List (Nat × Ev α), (∀ x ∈ mid, x.1 ≠ i) → holder fd pre = some i →
      log = pre ++ mid ++ post → (∀ x ∈ mid, touches fd x.2 = false) ∧ holder fd (pre ++ mid) = some i := by
  suffices ∀ mid : List (Nat × Ev α), ∀ post, (∀ x ∈ mid.reverse, x.1 ≠ i) → holder fd pre = some i →
      log = pre ++ mid.reverse ++ post → (∀ x ∈ mid.reverse, touches fd x.2 = false) ∧ holder fd (pre ++ mid.reverse) = some i by
    intro mid
    have := this mid.reverse post
    rwa [List.reverse_reverse] at this
  intro mid
  induction mid with
  | nil => intro post _ h _; exact ⟨by simp, by simpa using h⟩
  | cons x mid ih =>
    intro post hne hh hlog
    obtain ⟨j, ev⟩ := x
    rw [List.reverse_cons] at hne hlog ⊢
    have hj : j ≠ i := hne (j, ev) (by simp)
    have hlog' : log = pre ++ mid.reverse ++ (j, ev) :: post := by rw [hlog]; simp
    obtain ⟨h1, h2⟩ := ih ((j, ev) :: post) (fun x hx => hne x (by simp at hx ⊢; exact .inl hx)) hh hlog'
    have hon : onFd ev ≠ some fd := by
      intro h
      have := hcalls _ _ _ _ fd hlog' h
      rw [h2] at this
      exact hj (Option.some.inj this).symm
    have hsock : ∀ d t p, ev ≠ .socket d t p (.ok fd) := by
      rintro d t p rfl
      have h3 := hfresh _ _ _ _ _ _ _ hlog'
      rw [holder_opened fd tr _ i h2] at h3
      cases h3
    have ht : touches fd ev = false := by
      cases ev with
      | socket d t p r =>
        cases r with
        | error n => rfl
        | ok f =>
          simp only [touches, beq_eq_false_iff_ne]
          rintro rfl
          exact hsock _ _ _ rfl
      | _ => simpa [touches, onFd] using hon
    refine ⟨?_, ?_⟩
    · intro x hx
      rcases List.mem_append.mp hx with hx | hx
      · exact h1 x hx
      · simp at hx; subst hx; exact ht
    · rw [← List.append_assoc, holder_snoc]
      cases ev with
      | socket d t p r =>
        cases r with
        | error n => exact h2
        | ok f =>
          dsimp only
          rw [if_neg (by rintro rfl; exact hsock _ _ _ rfl)]
          exact h2
      | close f r =>
        cases r with
        | some n => exact h2
        | none =>
          dsimp only
          rw [if_neg (by rintro rfl; exact hon rfl)]
          exact h2
      | _ => exact h2

theorem placed_none {i : Nat} : ∀ {tr : List (Ev α)} {l : List (Nat × Ev α)}, placed i tr l = [] → ∀ x ∈ l, x.1 ≠ i := by
  intro tr l
  induction l generalizing tr with
  | nil => intro _ x hx; cases hx
  | cons y l ih =>
    obtain ⟨j, ev⟩ := y
    intro h x hx
    simp only [placed] at h
    by_cases hj : j = i
    · rw [if_pos hj] at h; cases h
    · rw [if_neg hj] at h
      rcases List.mem_cons.mp hx with rfl | hx
      · exact hj
      · exact ih h x hx

/-- Two calls of a goroutine one after the other: it made none in between, and nobody touched the descriptor of the first. -/
theorem placed_next {i fd : Nat} {tr : List (Ev α)} {log : List (Nat × Ev α)}
    (hcalls : ∀ pre j ev post f, log = pre ++ (j, ev) :: post → onFd ev = some f → holder f pre = some j)
    (hfresh : ∀ pre j d t p f post, log = pre ++ (j, .socket d t p (.ok f)) :: post → opened f (tr ++ pre.map (·.2)) = false)
    {a b : List (List (Ev α) × Ev α)} {h h' : List (Ev α)} {ev ev' : Ev α} (he : placed i tr log = a ++ (h, ev) :: (h', ev') :: b)
    (hfd : onFd ev = some fd) (hcl : ∀ f, ev ≠ .close f none) :
    ∃ mid, h' = h ++ [ev] ++ mid ∧ ∀ x ∈ mid, touches fd x = false := by
  obtain ⟨pre, post, rfl, rfl, _, hb⟩ := placed_split i he
  obtain ⟨mid, post', rfl, rfl, hm, _⟩ := placed_split i (a := []) hb
  have hh : holder fd (pre ++ [(i, ev)]) = some i := by
    rw [holder_snoc]
    have := hcalls _ _ _ _ fd rfl hfd
    cases ev with
    | socket d t p r => cases hfd
    | close f r =>
      cases r with
      | none => exact absurd rfl (hcl f)
      | some n => exact this
    | _ => exact this
  obtain ⟨h1, _⟩ := untouched tr _ hcalls hfresh (pre ++ [(i, ev)]) ((i, ev') :: post') mid (placed_none hm) hh (by simp)
  refine ⟨mid.map (·.2), rfl, ?_⟩
  intro x hx
  obtain ⟨y, hy, rfl⟩ := List.mem_map.mp hx
  exact h1 y hy

/-- Descriptors handed out during a schedule are fresh. -/
theorem sched_fresh {K : Kernel α} (hK : Orderly K) {is : List Nat} {s s' : Nat → Prog α R} {log : List (Nat × Ev α)}
    {tr tr' : List (Ev α)} (h : sched K is s tr = .ok ((s', log), tr')) :
    ∀ pre j d t p f post, log = pre ++ (j, .socket d t p (.ok f)) :: post → opened f (tr ++ pre.map (·.2)) = false := by
  intro pre j d t p f post hlog
  have hr := sched_placed is h j
  rw [hlog, placed_append] at hr
  simp only [placed, if_true] at hr
  obtain ⟨p1, q1, hst⟩ : ∃ p1 q1, Prog.step (R := R) K (tr ++ pre.map (·.2)) p1 = some (q1, .socket d t p (.ok f)) := by
    generalize placed j tr pre = a at hr
    generalize s j = u at hr
    generalize s' j = v at hr
    clear hlog h
    induction a generalizing u with
    | nil => cases hr with | step hs _ => exact ⟨_, _, hs⟩
    | cons y a ih => cases hr with | step _ hr => exact ih _ hr
  cases p1 <;> simp only [Prog.step, reduceCtorEq, Option.some.injEq, Prod.mk.injEq, Ev.socket.injEq, and_false] at hst
  exact hK.fresh _ _ hst.2.2.2.2

end Verif.Sys.Prog
