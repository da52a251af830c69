import Verif.NfQueue.Native
/-! C134: the byte order of the package nfqueue. -/
namespace Verif.Props
open Verif.Common Verif.Sys Verif.NfQueue

/-- C134. Whatever goroutines create queues at the same time, in whatever order their steps happen: the byte order is never anything but the
host's, and once any NewNFQueue has returned it is the host's and stays so. -/
theorem C134_native (host : Endian) (sched : List Nat) (s : Option Endian × (Nat → InitAt))
    (h : sched.foldl (initStep host) (nativeAtStart, fun _ => .before) = s) :
    (s.1 = none ∨ s.1 = some host) ∧ ((∃ i, s.2 i = .done) → s.1 = some host) ∧
    (s.1 = some host → ∀ more : List Nat, (more.foldl (initStep host) s).1 = some host) := by
  have key : ∀ (l : List Nat) (t : Option Endian × (Nat → InitAt)), (t.1 = none ∧ (∀ i, t.2 i ≠ .done) ∨ t.1 = some host) →
      ((l.foldl (initStep host) t).1 = none ∧ (∀ i, (l.foldl (initStep host) t).2 i ≠ .done) ∨ (l.foldl (initStep host) t).1 = some host) ∧
      (t.1 = some host → (l.foldl (initStep host) t).1 = some host) := by
    intro l
    induction l with
    | nil => intro t ht; exact ⟨ht, id⟩
    | cons i l ih =>
      intro t ht
      have h1 : ((initStep host t i).1 = none ∧ (∀ j, (initStep host t i).2 j ≠ .done) ∨ (initStep host t i).1 = some host) ∧
          (t.1 = some host → (initStep host t i).1 = some host) := by
        unfold initStep
        split
        · refine ⟨?_, id⟩
          rcases ht with ⟨ht, hd⟩ | ht
          · left
            refine ⟨ht, fun j => ?_⟩
            show (if j = i then (if t.1.isSome then InitAt.done else .sawNil) else t.2 j) ≠ _
            rw [ht]
            split
            · simp
            · exact hd j
          · exact .inr ht
        · exact ⟨.inr rfl, fun _ => rfl⟩
        · exact ⟨ht, id⟩
      obtain ⟨a, b⟩ := ih _ h1.1
      exact ⟨a, fun ht => b (h1.2 ht)⟩
  obtain ⟨a, _⟩ := key sched (nativeAtStart, fun _ => .before) (.inl ⟨rfl, fun _ => by simp⟩)
  rw [h] at a
  refine ⟨a.imp And.left id, fun ⟨i, hi⟩ => ?_, fun hs more => (key more s (.inr hs)).2 hs⟩
  rcases a with ⟨_, hd⟩ | a
  · exact absurd hi (hd i)
  · exact a

/-- C134. A goroutine that makes two steps has returned, whatever else happens. -/
theorem C134_returns (host : Endian) (i : Nat) : ∀ (sched : List Nat) (s : Option Endian × (Nat → InitAt)),
    (s.2 i = .before → 2 ≤ sched.count i) → (s.2 i = .sawNil → 1 ≤ sched.count i) → (sched.foldl (initStep host) s).2 i = .done := by
  intro sched
  induction sched with
  | nil =>
    intro s h1 h2
    show s.2 i = .done
    cases h : s.2 i with
    | before => simp at h1; exact absurd h h1
    | sawNil => simp at h2; exact absurd h h2
    | done => rfl
  | cons j l ih =>
    intro s h1 h2
    rw [List.foldl_cons]
    by_cases hj : j = i
    · subst hj
      simp only [List.count_cons_self] at h1 h2
      refine ih _ ?_ ?_
      · intro hb
        unfold initStep at hb
        split at hb
        · simp only [if_true] at hb
          split at hb <;> cases hb
        · simp at hb
        · rename_i hd; rw [hd] at hb; cases hb
      · intro hb
        unfold initStep at hb
        split at hb
        · rename_i hbef
          have := h1 hbef
          omega
        · simp at hb
        · rename_i hd; rw [hd] at hb; cases hb
    · have hne : ∀ t : Option Endian × (Nat → InitAt), (initStep host t j).2 i = t.2 i := by
        intro t
        unfold initStep
        split
        · simp [Ne.symm hj]
        · simp [Ne.symm hj]
        · rfl
      rw [List.count_cons_of_ne hj] at h1 h2
      exact ih _ (by rw [hne]; exact h1) (by rw [hne]; exact h2)

/-- C134. Once set, GetPacketInfo and the verdict header are as in the rest of the model. -/
theorem C134_set (host : Endian) (h : Heap) (attr : Option AttrMap) (verdict id : U32) :
    getPacketInfoOf (some host) h attr = getPacketInfo host h attr ∧ verdictHdrWireOf (some host) verdict id = verdictHdrWire host verdict id := by
  refine ⟨?_, rfl⟩
  unfold getPacketInfoOf getPacketInfo
  cases attr with
  | none => rfl
  | some m => cases hm : m 1 <;> cases h3 : m 3 <;> simp [hm, h3]

/-- C134 is violated before any queue has been created: GetPacketInfo crashes on every message about a packet, and so does encoding a
verdict header. -/
theorem C134_unset_violated (h : Heap) (m : AttrMap) (s : Slice) (hm : m 1 = some s) (verdict id : U32) :
    getPacketInfoOf nativeAtStart h (some m) = .panic ∧ verdictHdrWireOf nativeAtStart verdict id = .panic := by
  refine ⟨?_, rfl⟩
  unfold getPacketInfoOf
  simp only [hm]
  rfl

/-- C134, a concrete case: two goroutines at once on a little-endian host. -/
example : ([0, 1, 1, 0].foldl (initStep .little) (nativeAtStart, fun _ => .before)).1 = some .little := by decide

/-- C134, a concrete case of the crash: a packet with id 1. -/
example : getPacketInfoOf nativeAtStart ⟨[[1, 0, 0, 0]]⟩ (some fun k => if k = 1 then some ⟨0, 0, 4, 4⟩ else none) = .panic :=
  (C134_unset_violated _ _ ⟨0, 0, 4, 4⟩ rfl 0 0).1

end Verif.Props
