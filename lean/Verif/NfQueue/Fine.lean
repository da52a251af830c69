import Verif.NfQueue.QueuesLemmas
/-! No errors lie in a socket whose requests were all granted. -/
namespace Verif.NfQueue
open Verif.Common Verif.Sys Verif.Spec

theorem serve_inbox (s : KState) (e : Endian) (fd : Nat) (b : List Byte) : (s.serve e fd b).2.inbox = s.inbox := by
  have hc : ∀ m, (s.config fd m).2.inbox = s.inbox := by
    intro m
    unfold KState.config
    simp only
    split
    · rfl
    · split
      · split
        · rfl
        · split
          · rfl
          · split
            · rfl
            · split <;> rfl
      · split
        · rfl
        · split
          · rfl
          · split <;> rfl
  have hv : ∀ m, (s.verdict fd m).2.inbox = s.inbox := by
    intro m
    unfold KState.verdict
    split
    · rfl
    · split
      · rfl
      · split
        · split
          · rfl
          · split <;> rfl
        · rfl
  unfold KState.serve
  split
  · split
    · exact hc _
    · split
      · exact hv _
      · rfl
  · rfl

/-- No errors lie in the socket. -/
def Fine (fd : Nat) (s : KState) : Prop := ∀ c, .ack c ∈ s.inbox fd → c = 0

theorem Fine.env1 {F : Nat → Prop} {fd : Nat} {s s' : KState} (h : Fine fd s) (hm : Env1 F s s') : Fine fd s' := by
  cases hm with
  | @arrive q k p hk _ _ _ _ _ _ =>
    intro c hc
    by_cases ho : k.owner = .sock fd
    · rw [arrive_inbox_of ho] at hc
      rcases List.mem_append.mp hc with hc | hc
      · exact h c hc
      · simp at hc
    · rw [arrive_inbox_other ho] at hc
      exact h c hc
  | others h1 _ _ _ _ => intro c hc; rw [h1] at hc; exact h c hc

theorem Fine.meanwhile {F : Nat → Prop} {fd : Nat} {s s' : KState} (h : Fine fd s) (hm : Meanwhile F s s') : Fine fd s' := by
  induction hm with
  | refl => exact h
  | tail _ hm ih => exact ih.env1 hm

theorem Env1.inbox_ne {F : Nat → Prop} {fd : Nat} {s s' : KState} (hm : Env1 F s s') (h : s.inbox fd ≠ []) : s'.inbox fd ≠ [] := by
  cases hm with
  | @arrive q k p hk _ _ _ _ _ _ =>
    by_cases ho : k.owner = .sock fd
    · rw [arrive_inbox_of ho]; simp
    · rw [arrive_inbox_other ho]; exact h
  | others h1 _ _ _ _ => rw [h1]; exact h

theorem Meanwhile.inbox_ne {F : Nat → Prop} {fd : Nat} {s s' : KState} (hm : Meanwhile F s s') (h : s.inbox fd ≠ []) : s'.inbox fd ≠ [] := by
  induction hm with
  | refl => exact h
  | tail _ hm ih => exact Env1.inbox_ne hm ih

theorem Fine.answer {e : Endian} {fd : Nat} {b : List Byte} {s : KState} (h : Fine fd s) : Fine fd (s.answer e fd b 0) := by
  unfold KState.answer
  split
  · intro c hc
    rw [setInbox_same] at hc
    rcases List.mem_append.mp hc with hc | hc
    · exact h c hc
    · simpa using hc
  · exact h

/-- What lies in the socket after a request that is served. -/
theorem sent_fine {e : Endian} {F : Nat → Prop} {fd : Nat} {b : List Byte} {req : QReq} {evs : List (Ev QEv)} {s s' : KState}
    (hb : Encodes e b req) (hs : NfQueue.SendEvs fd b none evs) (hr : Run e F s evs s') (hf : Fine fd s)
    (hcode : ∀ s1, Meanwhile F s s1 → (s1.serve e fd b).1 = 0) : Fine fd s' ∧ s'.inbox fd ≠ [] := by
  obtain ⟨s1, s2, m1, m2, m3⟩ := hr.sent hs
  rw [hcode s1 m1] at m3
  have f1 := hf.meanwhile m1
  have f2 : Fine fd (s1.serve e fd b).2 := by unfold Fine; rw [serve_inbox]; exact f1
  obtain ⟨_, _, _, hw, _⟩ := hb.decoded
  refine ⟨((f2.meanwhile m2).answer).meanwhile m3, Meanwhile.inbox_ne m3 ?_⟩
  unfold KState.answer
  rw [if_pos (.inr hw)]
  simp

theorem acked_fine {e : Endian} {F : Nat → Prop} {fd : Nat} {req : QReq} {evs : List (Ev QEv)} {s s' : KState}
    (ha : Acked e fd req evs) (hr : Run e F s evs s') (hf : Fine fd s)
    (hcode : ∀ b, Encodes e b req → ∀ s1, Meanwhile F s s1 → (s1.serve e fd b).1 = 0) : Fine fd s' := by
  obtain ⟨b, d, size, evs1, hb, hs, rfl, _, _⟩ := ha
  obtain ⟨t, r1, r2⟩ := hr.split
  obtain ⟨f1, _⟩ := sent_fine hb hs r1 hf (hcode b hb)
  obtain ⟨s3, n, rest, d', m4, hin, _, _, m5⟩ := r2.got
  have f3 := f1.meanwhile m4
  refine Fine.meanwhile ?_ m5
  intro c hc
  rw [setInbox_same] at hc
  exact f3 c (by rw [hin]; exact List.mem_cons_of_mem _ hc)

end Verif.NfQueue
