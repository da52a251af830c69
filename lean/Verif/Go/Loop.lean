import Verif.Go.Base
/-!
Go loops.  One iteration of a loop is a function `body : σ → Res (Step σ α)`; the loop's meaning
is the result of iterating it, or `diverge` if no number of iterations ends it.
-/
namespace Verif

/-- What one iteration of a loop does: go round again with a new state, or leave the loop. -/
inductive Step (σ α : Type) where
  | next (s : σ)
  | done (a : α)
deriving DecidableEq, Repr

/-- Run at most `n` iterations; `diverge` stands for "not finished yet". -/
def loopN {σ α : Type} (body : σ → Res (Step σ α)) : Nat → σ → Res α
  | 0, _ => .diverge
  | n + 1, s =>
    match body s with
    | .ok (.next s') => loopN body n s'
    | .ok (.done a) => .ok a
    | .panic => .panic
    | .diverge => .diverge

theorem loopN_mono {σ α : Type} (body : σ → Res (Step σ α)) (n k : Nat) (s : σ)
    (h : loopN body n s ≠ .diverge) : loopN body (n + k) s = loopN body n s := by
  induction n generalizing s with
  | zero => exact absurd rfl h
  | succ n ih =>
    have e : n + 1 + k = (n + k) + 1 := by omega
    rw [e]
    unfold loopN
    unfold loopN at h
    split <;> simp_all

open Classical in
/-- The meaning of a loop: its result after however many iterations it takes, or `diverge` when
no number of iterations finishes it. -/
noncomputable def loop {σ α : Type} (body : σ → Res (Step σ α)) (s : σ) : Res α :=
  if h : ∃ n, loopN body n s ≠ .diverge then loopN body h.choose s else .diverge

theorem loop_eq_of_loopN {σ α : Type} {body : σ → Res (Step σ α)} {s : σ} {r : Res α} (n : Nat)
    (h : loopN body n s = r) (hr : r ≠ .diverge) : loop body s = r := by
  have hex : ∃ n, loopN body n s ≠ .diverge := ⟨n, by rw [h]; exact hr⟩
  unfold loop
  rw [dif_pos hex]
  have h1 := hex.choose_spec
  rw [← loopN_mono body hex.choose n s h1, Nat.add_comm, loopN_mono body n _ s (by rw [h]; exact hr), h]

theorem loop_diverge_iff {σ α : Type} {body : σ → Res (Step σ α)} {s : σ} :
    loop body s = .diverge ↔ ∀ n, loopN body n s = .diverge := by
  constructor
  · intro h n
    apply Classical.byContradiction
    intro hn
    have := loop_eq_of_loopN n rfl hn
    exact hn (this ▸ h)
  · intro h
    unfold loop
    rw [dif_neg]
    rintro ⟨n, hn⟩
    exact hn (h n)

theorem loopN_of_loop {σ α : Type} {body : σ → Res (Step σ α)} {s : σ} {r : Res α}
    (h : loop body s = r) (hr : r ≠ .diverge) : ∃ n, loopN body n s = r := by
  apply Classical.byContradiction
  intro hn
  apply hr
  rw [← h, loop_diverge_iff]
  intro n
  apply Classical.byContradiction
  intro h2
  exact hn ⟨n, (loop_eq_of_loopN n rfl h2).symm.trans h⟩

/-- A loop is one iteration followed by the rest of the loop. -/
theorem loop_unfold {σ α : Type} (body : σ → Res (Step σ α)) (s : σ) :
    loop body s =
      match body s with
      | .ok (.next s') => loop body s'
      | .ok (.done a) => .ok a
      | .panic => .panic
      | .diverge => .diverge := by
  rcases hb : body s with (s' | a) | _ | _
  · simp only
    by_cases hd : loop body s' = .diverge
    · rw [hd, loop_diverge_iff]
      rw [loop_diverge_iff] at hd
      intro n
      cases n with
      | zero => rfl
      | succ n => unfold loopN; rw [hb]; exact hd n
    · obtain ⟨n, hn⟩ := loopN_of_loop rfl hd
      exact loop_eq_of_loopN (n + 1) (by unfold loopN; rw [hb]; exact hn) hd
  · exact loop_eq_of_loopN 1 (by unfold loopN; rw [hb]) (by simp)
  · exact loop_eq_of_loopN 1 (by unfold loopN; rw [hb]) (by simp)
  · rw [loop_diverge_iff]
    intro n
    cases n with
    | zero => rfl
    | succ n => unfold loopN; rw [hb]

/-- A loop that always goes round again while an invariant holds never ends. -/
theorem loop_diverge_of_inv {σ α : Type} {body : σ → Res (Step σ α)} (P : σ → Prop)
    (hstep : ∀ s, P s → ∃ s', body s = .ok (.next s') ∧ P s') {s : σ} (hs : P s) :
    loop body s = .diverge := by
  rw [loop_diverge_iff]
  intro n
  induction n generalizing s with
  | zero => rfl
  | succ n ih =>
    obtain ⟨s', h1, h2⟩ := hstep s hs
    unfold loopN; rw [h1]; exact ih h2

/-- A loop whose iterations decrease a measure, and do not themselves diverge, ends. -/
theorem loop_terminates_of_measure {σ α : Type} {body : σ → Res (Step σ α)} (P : σ → Prop)
    (m : σ → Nat)
    (hstep : ∀ s, P s → body s ≠ .diverge)
    (hnext : ∀ s s', P s → body s = .ok (.next s') → P s' ∧ m s' < m s) {s : σ} (hs : P s) :
    loop body s ≠ .diverge := by
  induction hk : m s using Nat.strongRecOn generalizing s with
  | _ k ih =>
    rw [loop_unfold]
    rcases hb : body s with (s' | a) | _ | _
    · obtain ⟨h1, h2⟩ := hnext s s' hs hb
      exact ih (m s') (by omega) h1 rfl
    · simp
    · simp
    · exact absurd hb (hstep s hs)

end Verif
