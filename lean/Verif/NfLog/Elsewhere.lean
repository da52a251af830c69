import Verif.NfLog.Shown
/-! What is done on one socket leaves the log groups of another alone. -/
namespace Verif.NfLog
open Sys Spec
variable {e : Endian} {F : Nat → Prop} {P : Nat → Prop} {fd fd' : Nat}

/-- An event that means nothing to log groups, or that is about descriptor `fd`. -/
def EvOn (fd : Nat) : Ev LEv → Prop
  | .socket _ _ _ (.ok f) => f = fd
  | .recvfrom f _ _ (.ok _) => f = fd
  | .close f _ => f = fd
  | ev => ∀ f b, handedOver ev = some (f, b) → f = fd

theorem EvOn.of_silent {ev : Ev LEv} (h : Silent ev) : EvOn fd ev := by
  cases ev with
  | socket d t p r =>
    cases r with
    | ok _ => exact h.elim
    | error _ => intro f b hb; cases hb
  | recvfrom f s g r =>
    cases r with
    | ok _ => exact h.elim
    | error _ => intro f b hb; cases hb
  | close f r => exact h.elim
  | sendto f b g r =>
    intro f' b' hb
    rw [show handedOver (.sendto f b g r) = none from h] at hb; cases hb
  | sendmsg f b r =>
    intro f' b' hb
    rw [show handedOver (.sendmsg f b r) = none from h] at hb; cases hb
  | _ => intro f b hb; cases hb

theorem EvOn.close {f : Nat} {r : Option Nat} (h : EvOn fd (.close f r)) : f = fd := h

/-- The groups of socket `fd`, what lies in it, and what was logged, are the same. -/
structure SameFor (fd : Nat) (s s' : KState) : Prop where
  groups : ∀ g, s.Owns fd g ∨ s'.Owns fd g → s'.groups g = s.groups g
  inbox : s'.inbox fd = s.inbox fd
  logged : s'.logged = s.logged

theorem SameFor.refl (s : KState) : SameFor fd s s := ⟨fun _ _ => rfl, rfl, rfl⟩

theorem SameFor.trans {a b c : KState} (h : SameFor fd a b) (h' : SameFor fd b c) : SameFor fd a c where
  groups g hg := by
    rcases hg with hg | hg
    · have h1 := h.groups g (.inl hg)
      rw [h'.groups g (.inl ((Owns.of_eq h1).mpr hg)), h1]
    · have h1 := h'.groups g (.inr hg)
      rw [h1, h.groups g (.inr ((Owns.of_eq h1).mp hg))]
  inbox := by rw [h'.inbox, h.inbox]
  logged := by rw [h'.logged, h.logged]

theorem SameFor.owns {s s' : KState} (h : SameFor fd s s') (g : Nat) : s'.Owns fd g ↔ s.Owns fd g :=
  ⟨fun ho => (Owns.of_eq (h.groups g (.inr ho))).mp ho, fun ho => (Owns.of_eq (h.groups g (.inl ho))).mpr ho⟩

theorem SameFor.setInbox (hne : fd' ≠ fd) (s : KState) (l : List Note) : SameFor fd s (s.setInbox fd' l) where
  groups _ _ := rfl
  inbox := setInbox_other _ _ (Ne.symm hne)
  logged := rfl

/-- A group that is not the socket's is replaced by one that is not the socket's. -/
theorem SameFor.setGroup {s : KState} {g0 : Nat} {v : Option KGroup} (h : ¬ s.Owns fd g0) (hv : ∀ k, v = some k → k.owner ≠ .sock fd) :
    SameFor fd s (s.setGroup g0 v) where
  groups g hg := by
    by_cases h0 : g = g0
    · subst h0
      rcases hg with hg | ⟨k, hk, ho⟩
      · exact absurd hg h
      · rw [setGroup_same] at hk
        exact absurd ho (hv k hk)
    · exact setGroup_other _ _ h0
  inbox := rfl
  logged := rfl

theorem tune_owner (k : KGroup) (as : List Attr) : (k.tune as).owner = k.owner := by
  unfold KGroup.tune
  split
  · unfold KGroup.setMode
    repeat' split
    all_goals rfl
  · rfl

theorem sock_ne (hne : fd' ≠ fd) : Owner.sock fd' ≠ .sock fd := by intro h; cases h; exact hne rfl

theorem SameFor.config (hne : fd' ≠ fd) (s : KState) (m : NfMsg) : SameFor fd s (s.config fd' m).2 := by
  unfold KState.config
  simp only
  split
  · exact .refl s
  · cases hg : s.groups m.resId with
    | some k =>
      simp only
      split
      · exact .refl s
      · rename_i _ ho
        have ho : k.owner = .sock fd' := by
          rcases Decidable.em (k.owner = .sock fd') with h | h
          · exact h
          · exact absurd h ho
        have hno : ¬ s.Owns fd m.resId := by
          rintro ⟨k', hk', ho'⟩
          rw [hg] at hk'; cases hk'
          rw [ho] at ho'
          exact sock_ne hne ho'
        split
        · refine .setGroup hno fun k' hk' => ?_
          cases hk'
          rw [tune_owner, ho]
          exact sock_ne hne
        · split
          · exact .refl s
          · split
            · exact (SameFor.setGroup hno (by intro k hk; cases hk)).trans (.setInbox hne _ _)
            · exact .refl s
    | none =>
      simp only
      have hno : ¬ s.Owns fd m.resId := by
        rintro ⟨k', hk', _⟩
        rw [hg] at hk'; cases hk'
      split
      · exact .refl s
      · split
        · refine .setGroup hno fun k' hk' => ?_
          cases hk'
          rw [tune_owner]
          exact sock_ne hne
        · split
          · exact .refl s
          · exact .refl s

theorem SameFor.serve (hne : fd' ≠ fd) (s : KState) (b : List Byte) : SameFor fd s (s.serve e fd' b).2 := by
  unfold KState.serve
  split
  · split
    · exact .config hne s _
    · exact .refl s
  · exact .refl s

theorem SameFor.answer (hne : fd' ≠ fd) (s : KState) (b : List Byte) (c : Int) : SameFor fd s (s.answer e fd' b c) := by
  unfold KState.answer
  split
  · exact .setInbox hne _ _
  · exact .refl s

theorem SameFor.release (hne : fd' ≠ fd) (s : KState) : SameFor fd s (s.release fd') where
  groups g hg := by
    rcases hg with ⟨k, hk, ho⟩ | ⟨k, hk, ho⟩
    · show (s.groups g).filter _ = _
      rw [hk]
      simp [Option.filter, ho, Ne.symm hne]
    · have hk' : (s.groups g).filter (fun k => decide (k.owner ≠ .sock fd')) = some k := hk
      rw [Option.filter_eq_some_iff] at hk'
      rw [hk, hk'.1]
  inbox := by
    show (if fd = fd' then [] else s.inbox fd) = _
    rw [if_neg (Ne.symm hne)]
  logged := rfl

/-- What is kept while nothing is done on the socket is kept by what is done on another one. -/
theorem KStep.elsewhere {Q : KState → Prop} (hm : ∀ {s s'}, Q s → Meanwhile F s s' → Q s') (hs : ∀ {s s'}, Q s → SameFor fd s s' → Q s')
    (hne : fd' ≠ fd) {s s' : KState} {ev : Ev LEv} (h : KStep e F s ev s') (hev : EvOn fd' ev) (hQ : Q s) : Q s' := by
  cases h with
  | @handed s1 _ f b hb hmw =>
    have hf : f = fd' := by
      cases ev with
      | sendto f1 b1 g r =>
        cases r with
        | none => exact hev _ _ hb
        | some _ => cases hb
      | sendmsg f1 b1 r =>
        cases r with
        | none => exact hev _ _ hb
        | some _ => cases hb
      | socket d t p r => cases hb
      | recvfrom _ _ _ r => cases hb
      | close _ _ => cases hb
      | _ => cases hb
    subst hf
    exact hs (hm (hs hQ (.serve hne s b)) hmw) (.answer hne _ _ _)
  | received hin hn =>
    have : _ = fd' := hev
    subst this
    exact hs hQ (.setInbox hne _ _)
  | opened _ _ => exact hQ
  | closed =>
    have : _ = fd' := hev
    subst this
    exact hs hQ (.release hne _)
  | silent _ => exact hQ

theorem Run.elsewhere {Q : KState → Prop} (hm : ∀ {s s'}, Q s → Meanwhile F s s' → Q s') (hs : ∀ {s s'}, Q s → SameFor fd s s' → Q s')
    (hne : fd' ≠ fd) : ∀ {evs : List (Ev LEv)} {s s' : KState}, Run e F s evs s' → (∀ ev ∈ evs, EvOn fd' ev) → Q s → Q s' := by
  intro evs
  induction evs with
  | nil => intro s s' h _ hQ; exact hm hQ h.meanwhile
  | cons ev evs ih =>
    intro s s' h hev hQ
    cases h with
    | cons h1 h2 h3 => exact ih h3 (fun x hx => hev x (List.mem_cons_of_mem _ hx)) (h2.elsewhere hm hs hne (hev ev List.mem_cons_self) (hm hQ h1))

/-- What was logged stays logged. -/
theorem Meanwhile.logged_more {s s' : KState} (h : Meanwhile F s s') : ∃ l, s'.logged = s.logged ++ l := by
  induction h with
  | refl => exact ⟨[], by simp⟩
  | tail _ h ih =>
    obtain ⟨a, ha⟩ := ih
    cases h with
    | log => exact ⟨a ++ [_], by rw [log_logged, ha, List.append_assoc]⟩
    | flush => exact ⟨a, by rw [flush_logged, ha]⟩
    | others _ h _ => exact ⟨a, by rw [h, ha]⟩

theorem config_logged (s : KState) (fd : Nat) (m : NfMsg) : (s.config fd m).2.logged = s.logged := by
  unfold KState.config
  simp only
  repeat' split
  all_goals rfl

theorem KStep.logged_more {s s' : KState} {ev : Ev LEv} (h : KStep e F s ev s') : ∃ l, s'.logged = s.logged ++ l := by
  cases h with
  | @handed s1 _ f b hb hmw =>
    obtain ⟨l, hl⟩ := hmw.logged_more
    refine ⟨l, ?_⟩
    have h1 : (s1.answer e f b (s.serve e f b).1).logged = s1.logged := by
      unfold KState.answer
      split <;> rfl
    have h2 : (s.serve e f b).2.logged = s.logged := by
      unfold KState.serve
      repeat' split
      all_goals first | rfl | exact config_logged _ _ _
    rw [h1, hl, h2]
  | received => exact ⟨[], by simp⟩
  | opened => exact ⟨[], by simp⟩
  | closed => exact ⟨[], by simp [KState.release]⟩
  | silent => exact ⟨[], by simp⟩

theorem Run.logged_more : ∀ {evs : List (Ev LEv)} {s s' : KState}, Run e F s evs s' → ∃ l, s'.logged = s.logged ++ l := by
  intro evs
  induction evs with
  | nil => intro s s' h; exact h.meanwhile.logged_more
  | cons ev evs ih =>
    intro s s' h
    cases h with
    | cons h1 h2 h3 =>
      obtain ⟨a, ha⟩ := h1.logged_more
      obtain ⟨b, hb⟩ := h2.logged_more
      obtain ⟨c, hc⟩ := ih h3
      exact ⟨a ++ (b ++ c), by rw [hc, hb, ha]; simp⟩

/-! ### What is kept -/

theorem SameFor.batchOf {s s' : KState} (h : SameFor fd s s') (g : Nat) : s'.batchOf fd g = s.batchOf fd g := by
  by_cases ho : s.Owns fd g
  · unfold KState.batchOf; rw [h.groups g (.inl ho)]
  · have ho' : ¬ s'.Owns fd g := fun x => ho ((h.owns g).mp x)
    have none : ∀ t : KState, ¬ t.Owns fd g → t.batchOf fd g = [] := by
      intro t ht
      unfold KState.batchOf
      cases hk : t.groups g with
      | none => rfl
      | some k =>
        simp only
        rw [if_neg fun hc => ht ⟨k, hk, hc⟩]
    rw [none s ho, none s' ho']

theorem SameFor.pending {s s' : KState} (h : SameFor fd s s') (g : Nat) : s'.pending fd g = s.pending fd g := by
  unfold KState.pending
  rw [h.inbox, h.batchOf]

theorem SameFor.tidy {s s' : KState} (h : SameFor fd s s') (ht : Tidy fd s) : Tidy fd s' := by
  intro g k hk ho
  rw [h.groups g (.inr ⟨k, hk, ho⟩)] at hk
  exact ht g k hk ho

theorem SameFor.sorted {s s' : KState} (h : SameFor fd s s') (ht : Sorted fd s) : Sorted fd s' := by
  intro x hx
  rw [h.inbox] at hx
  exact (h.owns _).mpr (ht x hx)

theorem SameFor.shown {s s' : KState} (h : SameFor fd s s') (ht : Shown P fd s) : Shown P fd s' where
  groups g k hk ho := by
    rw [h.groups g (.inr ⟨k, hk, ho⟩)] at hk
    rw [h.logged]
    exact ht.groups g k hk ho
  inbox x hx := by
    rw [h.inbox] at hx
    rw [h.logged]
    exact ht.inbox x hx

end Verif.NfLog
