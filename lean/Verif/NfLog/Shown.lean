import Verif.NfLog.Boot
/-! What is collected and what lies in a socket was logged, under a copy range that was asked for. -/
namespace Verif.NfLog
open Sys Spec
variable {e : Endian} {F : Nat → Prop} {P : Nat → Prop} {fd : Nat}

/-- The groups of socket `fd` have a range in `P`; what they have collected, and what lies in the socket, was logged, under such a range. -/
structure Shown (P : Nat → Prop) (fd : Nat) (s : KState) : Prop where
  groups : ∀ g k, s.groups g = some k → k.owner = .sock fd → P k.range ∧ ∀ x ∈ k.batch, x ∈ s.logged ∧ P x.range
  inbox : ∀ x ∈ entriesOf (s.inbox fd), x ∈ s.logged ∧ P x.range

theorem Shown.start {s : KState} (h1 : ∀ g, ¬ s.Owns fd g) (h2 : s.inbox fd = []) : Shown P fd s where
  groups g k hk ho := absurd ⟨k, hk, ho⟩ (h1 g)
  inbox x hx := by rw [h2] at hx; cases hx

theorem Env1.shown {s s' : KState} (h : Env1 F s s') (hs : Shown P fd s) : Shown P fd s' := by
  cases h with
  | @log g0 k0 pfx p hk0 =>
    refine ⟨fun g k hk ho => ?_, fun x hx => ?_⟩
    · rw [log_groups] at hk
      by_cases hg : g = g0
      · subst hg
        simp only [setGroup_same, Option.some.injEq] at hk
        subst hk
        obtain ⟨a, b⟩ := hs.groups g k0 hk0 ho
        refine ⟨a, fun x hx => ?_⟩
        rcases List.mem_append.mp hx with hx | hx
        · exact ⟨by rw [log_logged]; exact List.mem_append_left _ (b x hx).1, (b x hx).2⟩
        · simp only [List.mem_cons, List.not_mem_nil, or_false] at hx
          subst hx
          exact ⟨by rw [log_logged]; simp, a⟩
      · rw [setGroup_other _ _ hg] at hk
        obtain ⟨a, b⟩ := hs.groups g k hk ho
        exact ⟨a, fun x hx => ⟨by rw [log_logged]; exact List.mem_append_left _ (b x hx).1, (b x hx).2⟩⟩
    · obtain ⟨a, b⟩ := hs.inbox x hx
      exact ⟨by rw [log_logged]; exact List.mem_append_left _ a, b⟩
  | @flush g0 k0 hk0 _ =>
    refine ⟨fun g k hk ho => ?_, fun x hx => ?_⟩
    · rw [flush_groups] at hk
      rw [flush_logged]
      by_cases hg : g = g0
      · subst hg
        simp only [setGroup_same, Option.some.injEq] at hk
        subst hk
        exact ⟨(hs.groups g k0 hk0 ho).1, fun x hx => by cases hx⟩
      · rw [setGroup_other _ _ hg] at hk
        exact hs.groups g k hk ho
    · rw [flush_logged]
      by_cases ho : k0.owner = .sock fd
      · rw [flush_inbox_of ho] at hx
        simp only [entriesOf_append, entriesOf_logs, entriesOf_nil, List.append_nil, List.mem_append] at hx
        rcases hx with hx | hx
        · exact hs.inbox x hx
        · exact (hs.groups g0 k0 hk0 ho).2 x hx
      · rw [flush_inbox_other ho] at hx
        exact hs.inbox x hx
  | others h1 h2 hq =>
    refine ⟨fun g k hk ho => ?_, fun x hx => ?_⟩
    · rw [h2]
      rcases hq g with h | ⟨_, _, h⟩
      · rw [h] at hk; exact hs.groups g k hk ho
      · rw [hk] at h
        obtain ⟨n, hn⟩ := h
        rw [ho] at hn; cases hn
    · rw [h2]; rw [h1] at hx; exact hs.inbox x hx

theorem Meanwhile.shown {s s' : KState} (h : Meanwhile F s s') (hs : Shown P fd s) : Shown P fd s' := by
  induction h with
  | refl => exact hs
  | tail _ h ih => exact h.shown ih

theorem Shown.setInbox {s : KState} (h : Shown P fd s) {l : List Note} (hl : ∀ x ∈ entriesOf l, x ∈ entriesOf (s.inbox fd)) :
    Shown P fd (s.setInbox fd l) where
  groups := h.groups
  inbox x hx := by rw [setInbox_same] at hx; exact h.inbox x (hl x hx)

/-- The requests made in a start whose copy range is fine. -/
def RangeIn (P : Nat → Prop) : LReq → Prop
  | .bindGroup _ => True
  | .copyPacket _ r => P (clip r)
  | _ => False

theorem Shown.serve {s : KState} (h : Shown P fd s) (h0 : P 65531) {b : List Byte} {req : LReq} (hb : Encodes e b req) (hr : RangeIn P req) :
    Shown P fd (s.serve e fd b).2 := by
  have set : ∀ {g : Nat} {k' : KGroup}, (P k'.range ∧ ∀ x ∈ k'.batch, x ∈ s.logged ∧ P x.range) → Shown P fd (s.setGroup g (some k')) := by
    intro g k' hk'
    refine ⟨fun g1 k1 hk1 ho1 => ?_, h.inbox⟩
    by_cases hg : g1 = g
    · subst hg
      simp only [setGroup_same, Option.some.injEq] at hk1
      subst hk1
      exact hk'
    · rw [setGroup_other _ _ hg] at hk1
      exact h.groups g1 k1 hk1 ho1
  cases req with
  | pfUnbind => exact hr.elim
  | pfBind => exact hr.elim
  | bindGroup g =>
    rw [serve_bind hb]
    cases hg : s.groups g with
    | some k => exact h
    | none => exact set ⟨h0, fun x hx => by cases hx⟩
  | copyPacket g range =>
    rw [serve_mode hb]
    cases hg : s.groups g with
    | some k =>
      by_cases ho : k.owner = .sock fd
      · simp only [ho, ne_eq, not_true_eq_false, if_false]
        have := set (g := g) (k' := { k with mode := 2, range := clip range }) ⟨hr, (h.groups g k hg ho).2⟩
        rw [ho] at this
        exact this
      · simp only [ne_eq, ho, not_false_eq_true, if_true]; exact h
    | none => exact h

theorem Shown.traded {s s' : KState} {req : LReq} {r : Option Err} {n : Nat} (h : Shown P fd s) (h0 : P 65531) (ha : RangeIn P req)
    (ht : Traded e F fd req r n s s') : Shown P fd s' := by
  have acked : ∀ {t : KState} (c : Int), Shown P fd t → Shown P fd (t.setInbox fd (t.inbox fd ++ [.ack c])) := by
    intro t c ht
    exact ht.setInbox fun x hx => by simpa using hx
  cases ht with
  | unsent _ m => exact m.shown h
  | served hb m1 m2 m3 _ he =>
    subst he
    exact m3.shown (acked _ (m2.shown ((m1.shown h).serve h0 hb ha)))
  | got hb m1 m2 m3 hin m4 _ _ =>
    refine m4.shown ((m3.shown (acked _ (m2.shown ((m1.shown h).serve h0 hb ha)))).setInbox fun x hx => ?_)
    rw [hin]
    rename_i n rest _ _
    cases n with
    | ack => simpa using hx
    | logs l => simp [hx]

theorem Shown.groupsOut {req : Nat → LReq} (h0 : P 65531) {gs : List U16} {r : Option Err} {evs : List (Ev LEv)}
    (h : GroupsOut e fd req gs r evs) (hG : ∀ g ∈ gs, RangeIn P (req g.toNat)) : ∀ {s s' : KState}, Shown P fd s → Run e F s evs s' →
    Shown P fd s' := by
  induction h with
  | nil => intro s s' ha hr; exact hr.meanwhile.shown ha
  | cons hx _ ih =>
    intro s s' ha hr
    obtain ⟨t, r1, r2⟩ := hr.split
    exact ih (fun g hg => hG g (List.mem_cons_of_mem _ hg)) (ha.traded h0 (hG _ List.mem_cons_self) (r1.traded hx)) r2
  | stop hx =>
    intro s s' ha hr
    exact ha.traded h0 (hG _ List.mem_cons_self) (hr.traded hx)

end Verif.NfLog
