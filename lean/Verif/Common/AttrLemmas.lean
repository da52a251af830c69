import Verif.Common.Lemmas
/-! The attribute parser's loop, from any position: lemmas for C05–C07. -/
namespace Verif.Common
open Spec

/-- Parser against encoder, starting at any 4-aligned position. -/
theorem attr_roundtrip_aux (e : Endian) (h : Heap) (buf : Slice) (hv : buf.Valid h)
    (hlen : buf.len + 3 < 2 ^ 32) :
    ∀ (attrs : List (Nat × List Byte)) (pre : List Byte) (m : AttrMap),
      (∀ a ∈ attrs, a.1 < 65536 ∧ a.2.length ≤ 65531) →
      pre.length % 4 = 0 →
      h.bytes buf = pre ++ encodeAttrs e attrs →
      ∃ m', loop (attrBody e h buf) (pre.length, m) = .ok (m', none, none) ∧
        ∀ k, (m' k).isSome = (m k).isSome ∧
          (∀ old, m k = some old →
            match lastOf k attrs with
            | some p => k < 11 → ∃ s, m' k = some s ∧ h.bytes s = p ∧ s.arr = buf.arr ∧
                buf.off ≤ s.off ∧ s.off + s.len ≤ buf.off + buf.len
            | none => m' k = some old) ∧ (11 ≤ k → m' k = m k) := by
  intro attrs
  induction attrs with
  | nil =>
    intro pre m _ _ hb
    have hl := congrArg List.length hb
    rw [Heap.bytes_length hv] at hl
    refine ⟨m, ?_, ?_⟩
    · rw [loop_unfold, attrBody_end (by simp [encodeAttrs] at hl; omega)]
    · intro k; refine ⟨rfl, ?_, fun _ => rfl⟩
      intro old ho; simpa [lastOf] using ho
  | cons a as ih =>
    obtain ⟨t, p⟩ := a
    intro pre m hall hpre hb
    obtain ⟨ht, hp⟩ := hall (t, p) (by simp)
    have hall' : ∀ a ∈ as, a.1 < 65536 ∧ a.2.length ≤ 65531 :=
      fun a ha => hall a (by simp [ha])
    have henc : encodeAttrs e ((t, p) :: as) = encodeAttr e t p ++ encodeAttrs e as := rfl
    rw [henc] at hb
    have hl := congrArg List.length hb
    rw [Heap.bytes_length hv] at hl
    simp only [List.length_append, encodeAttr_length] at hl
    have hru := roundUp4_ge p.length
    simp only at ht hp
    have hh : HeaderAt e (h.bytes buf) pre.length (p.length + 4) t := by
      rw [hb, ← List.append_assoc]; exact headerAt_encodeAttr e t p ht hp pre _
    have hnext : roundUp4 (pre.length + (p.length + 4)) = (pre ++ encodeAttr e t p).length := by
      simp only [List.length_append, encodeAttr_length, roundUp4]; omega
    have hb' : h.bytes buf = (pre ++ encodeAttr e t p) ++ encodeAttrs e as := by
      rw [hb, List.append_assoc]
    have hpre' : (pre ++ encodeAttr e t p).length % 4 = 0 := by
      rw [← hnext]; unfold roundUp4; omega
    rw [loop_unfold, attrBody_at hv hlen hh, if_pos (by omega)]
    by_cases hreg : t < 11 ∧ (m t).isSome
    · rw [if_pos hreg, if_neg (by omega)]
      simp only [hnext]
      obtain ⟨m', hm1, hm2⟩ := ih (pre ++ encodeAttr e t p)
        (m.setData t ⟨buf.arr, buf.off + (pre.length + 4), p.length + 4 - 4, buf.cap - (pre.length + 4)⟩)
        hall' hpre' hb'
      refine ⟨m', hm1, ?_⟩
      have hdata : h.bytes ⟨buf.arr, buf.off + (pre.length + 4), p.length + 4 - 4,
          buf.cap - (pre.length + 4)⟩ = p := by
        have hs : buf.sub (pre.length + 4) (pre.length + 4 + p.length)
            = .ok ⟨buf.arr, buf.off + (pre.length + 4), p.length + 4 - 4, buf.cap - (pre.length + 4)⟩ := by
          rw [Slice.sub_eq_ok]
          have := hv.1
          refine ⟨by omega, by omega, ?_⟩
          congr 1; omega
        rw [Heap.bytes_sub hs (by omega), hb]
        have : (pre ++ (encodeAttr e t p ++ encodeAttrs e as))
            = (pre ++ bytes16 e (p.length + 4) ++ bytes16 e t) ++
              (p ++ (List.replicate (roundUp4 p.length - p.length) 0 ++ encodeAttrs e as)) := by
          simp [encodeAttr, List.append_assoc]
        rw [this, List.drop_left' (by simp)]
        rw [show pre.length + 4 + p.length - (pre.length + 4) = p.length by omega, List.take_left]
      intro k
      obtain ⟨i1, i2, i3⟩ := hm2 k
      by_cases hk : k = t
      · subst hk
        refine ⟨?_, ?_, by omega⟩
        · rw [i1]; simp [AttrMap.setData, hreg.2]
        · intro old ho
          have i2' := i2 _ (by simp [AttrMap.setData]; rfl)
          have hlast : lastOf k ((k, p) :: as) = some ((lastOf k as).getD p) := by
            simp only [lastOf, List.filter_cons, decide_true, ↓reduceIte]
            cases hf : as.filter (fun a => decide (a.1 = k)) with
            | nil => simp
            | cons x xs => rw [List.getLast?_cons_cons, List.getLast?_eq_some_getLast (by simp)]; simp
          rw [hlast]
          rcases hlo : lastOf k as with _ | q
          · rw [hlo] at i2'
            simp only [Option.getD_none]
            intro _
            exact ⟨_, i2', hdata, rfl, by simp only; omega, by simp only; omega⟩
          · rw [hlo] at i2'
            simpa using i2'
      · have hs : (m.setData t ⟨buf.arr, buf.off + (pre.length + 4), p.length + 4 - 4, buf.cap - (pre.length + 4)⟩) k = m k := by
          simp [AttrMap.setData, hk]
        rw [hs] at i1 i2 i3
        have hlast : lastOf k ((t, p) :: as) = lastOf k as := by
          simp [lastOf, show ¬ t = k from fun h => hk h.symm]
        rw [hlast]
        exact ⟨i1, i2, i3⟩
    · rw [if_neg hreg]
      simp only [hnext]
      obtain ⟨m', hm1, hm2⟩ := ih (pre ++ encodeAttr e t p) m hall' hpre' hb'
      refine ⟨m', hm1, ?_⟩
      intro k
      obtain ⟨i1, i2, i3⟩ := hm2 k
      refine ⟨i1, ?_, i3⟩
      by_cases hk : k = t
      · subst hk
        intro old ho
        have h11 : 11 ≤ k := by
          apply Classical.byContradiction
          intro hc; exact hreg ⟨by omega, by simp [ho]⟩
        have hlast : ∃ q, lastOf k ((k, p) :: as) = some q := by
          simp only [lastOf, List.filter_cons, decide_true, ↓reduceIte]
          rw [List.getLast?_eq_some_getLast (by simp)]; simp
        obtain ⟨q, hq⟩ := hlast
        rw [hq]; intro hlt; omega
      · have hlast : lastOf k ((t, p) :: as) = lastOf k as := by
          simp [lastOf, show ¬ t = k from fun h => hk h.symm]
        rw [hlast]
        exact i2

/-- A header the parser cannot handle: stated length 0, or below 4 for a registered type. -/
def Fatal (m : AttrMap) (l t : Nat) : Prop := l = 0 ∨ (l < 4 ∧ t < 11 ∧ (m t).isSome)

/-- The walk from 4-aligned position `i` in any buffer: the parser returns exactly when it meets no
fatal header, and then what it returns is described by the walk. -/
theorem attr_walk_aux (e : Endian) (h : Heap) (buf : Slice) (hv : buf.Valid h)
    (hlen : buf.len + 3 < 2 ^ 32) :
    ∀ (d i : Nat) (m : AttrMap), i % 4 = 0 → buf.len ≤ i + d →
      -- returns iff no fatal header is visited
      ((∃ r, loop (attrBody e h buf) (i, m) = .ok r) ↔
        ∀ j l t, Visits e (h.bytes buf) i j → HeaderAt e (h.bytes buf) j l t →
          j + l ≤ buf.len → ¬ Fatal m l t) ∧
      -- and then:
      (∀ m' rest err, loop (attrBody e h buf) (i, m) = .ok (m', rest, err) →
        rest = none ∧
        (err = some (.msg "Bad Attr") ∧
            (∃ j l t, Visits e (h.bytes buf) i j ∧ HeaderAt e (h.bytes buf) j l t ∧ buf.len < j + l)
          ∨ err = none ∧
            (∀ j l t, Visits e (h.bytes buf) i j → HeaderAt e (h.bytes buf) j l t → j + l ≤ buf.len)) ∧
        ∀ k, (m' k).isSome = (m k).isSome ∧ (m' k = m k ∨
          ∃ j l, Visits e (h.bytes buf) i j ∧ HeaderAt e (h.bytes buf) j l k ∧ k < 11 ∧ 4 ≤ l ∧
            j + l ≤ buf.len ∧
            m' k = some ⟨buf.arr, buf.off + (j + 4), l - 4, buf.cap - (j + 4)⟩)) := by
  have hbl : (h.bytes buf).length = buf.len := Heap.bytes_length hv
  intro d
  induction d using Nat.strongRecOn with
  | _ d ih =>
  intro i m hi hd
  by_cases hend : buf.len < i + 4
  · -- no room for a header: the loop ends
    have hloop : loop (attrBody e h buf) (i, m) = .ok (m, none, none) := by
      rw [loop_unfold, attrBody_end hend]
    have hvis : ∀ j, Visits e (h.bytes buf) i j → j = i := by
      intro j hj
      cases hj with
      | here => rfl
      | step h1 _ _ _ => omega
    have hnoh : ∀ j l t, Visits e (h.bytes buf) i j → HeaderAt e (h.bytes buf) j l t → False := by
      intro j l t hj hh
      rw [hvis j hj] at hh
      have := hh.1; omega
    refine ⟨⟨fun _ j l t hj hh => (hnoh j l t hj hh).elim, fun _ => ⟨_, hloop⟩⟩, ?_⟩
    intro m' rest err hr
    rw [hloop] at hr
    simp only [Res.ok.injEq, Prod.mk.injEq] at hr
    obtain ⟨rfl, rfl, rfl⟩ := hr
    exact ⟨rfl, Or.inr ⟨rfl, fun j l t hj hh => (hnoh j l t hj hh).elim⟩, fun k => ⟨rfl, Or.inl rfl⟩⟩
  · obtain ⟨l, t, hh⟩ := headerAt_exists (e := e) (b := h.bytes buf) (i := i) (by omega)
    have hbody := attrBody_at (m := m) hv hlen hh
    by_cases hfit : i + l ≤ buf.len
    · rw [if_pos hfit] at hbody
      have hvis : ∀ j, Visits e (h.bytes buf) i j ↔
          j = i ∨ Visits e (h.bytes buf) (roundUp4 (i + l)) j := by
        intro j
        constructor
        · intro hj
          cases hj with
          | here => exact Or.inl rfl
          | step h1 h2 h3 h4 =>
            rw [hh.2.1] at h2
            simp only [Option.some.injEq] at h2
            subst h2
            exact Or.inr h4
        · rintro (rfl | hj)
          · exact .here _
          · exact .step hh.1 hh.2.1 (by omega) hj
      by_cases hreg : t < 11 ∧ (m t).isSome
      · rw [if_pos hreg] at hbody
        by_cases hl4 : l < 4
        · rw [if_pos hl4] at hbody
          have hloop : loop (attrBody e h buf) (i, m) = .panic := by
            rw [loop_unfold, hbody]
          refine ⟨⟨?_, ?_⟩, ?_⟩
          · rintro ⟨r, hr⟩; rw [hloop] at hr; cases hr
          · intro hno
            exact (hno i l t (.here _) hh hfit (Or.inr ⟨hl4, hreg.1, hreg.2⟩)).elim
          · intro m' rest err hr; rw [hloop] at hr; cases hr
        · rw [if_neg hl4] at hbody
          have hnext : i + 4 ≤ roundUp4 (i + l) := by unfold roundUp4; omega
          obtain ⟨I1, I2⟩ := ih (d - 4) (by omega) (roundUp4 (i + l))
            (m.setData t ⟨buf.arr, buf.off + (i + 4), l - 4, buf.cap - (i + 4)⟩)
            (by unfold roundUp4; omega) (by omega)
          have hloop : loop (attrBody e h buf) (i, m)
              = loop (attrBody e h buf) (roundUp4 (i + l),
                m.setData t ⟨buf.arr, buf.off + (i + 4), l - 4, buf.cap - (i + 4)⟩) := by
            rw [loop_unfold, hbody]
          have hsome : ∀ k, ((m.setData t ⟨buf.arr, buf.off + (i + 4), l - 4, buf.cap - (i + 4)⟩) k).isSome
              = (m k).isSome := by
            intro k
            simp only [AttrMap.setData]
            split
            · rename_i hk; rw [hk, hreg.2]; rfl
            · rfl
          have hfat : ∀ l t', Fatal (m.setData t ⟨buf.arr, buf.off + (i + 4), l - 4, buf.cap - (i + 4)⟩) l t'
              ↔ Fatal m l t' := by
            intro l t'
            unfold Fatal
            simp only [AttrMap.setData]
            split
            · rename_i hk; rw [hk, hreg.2]; simp
            · rfl
          have hfat2 : ∀ l' t', Fatal (m.setData t ⟨buf.arr, buf.off + (i + 4), l - 4, buf.cap - (i + 4)⟩) l' t'
              ↔ Fatal m l' t' := by
            intro l' t'
            unfold Fatal
            rw [hsome]
          rw [hloop]
          refine ⟨?_, ?_⟩
          · rw [I1]
            constructor
            · intro hno j l' t' hj hh' hf
              rcases (hvis j).mp hj with rfl | hj'
              · obtain ⟨rfl, rfl⟩ := headerAt_unique hh hh'
                rintro (h0 | ⟨h0, _⟩) <;> omega
              · rw [← hfat2]; exact hno j l' t' hj' hh' hf
            · intro hno j l' t' hj hh' hf
              rw [hfat2]; exact hno j l' t' ((hvis j).mpr (Or.inr hj)) hh' hf
          · intro m' rest err hr
            obtain ⟨r1, r2, r3⟩ := I2 m' rest err hr
            refine ⟨r1, ?_, ?_⟩
            · rcases r2 with ⟨rfl, j, l', t', a, b, c⟩ | ⟨rfl, hall⟩
              · exact Or.inl ⟨rfl, j, l', t', (hvis j).mpr (Or.inr a), b, c⟩
              · refine Or.inr ⟨rfl, ?_⟩
                intro j l' t' hj hh'
                rcases (hvis j).mp hj with rfl | hj'
                · obtain ⟨rfl, rfl⟩ := headerAt_unique hh hh'; exact hfit
                · exact hall j l' t' hj' hh'
            · intro k
              obtain ⟨q1, q2⟩ := r3 k
              rw [hsome] at q1
              refine ⟨q1, ?_⟩
              rcases q2 with q2 | ⟨j, l', a, b, c⟩
              · by_cases hk : k = t
                · right
                  refine ⟨i, l, .here _, hk ▸ hh, hk ▸ hreg.1, by omega, hfit, ?_⟩
                  rw [q2]; simp [AttrMap.setData, hk]
                · left; rw [q2]; simp [AttrMap.setData, hk]
              · exact Or.inr ⟨j, l', (hvis j).mpr (Or.inr a), b, c⟩
      · rw [if_neg hreg] at hbody
        have hloop : loop (attrBody e h buf) (i, m) = loop (attrBody e h buf) (roundUp4 (i + l), m) := by
          rw [loop_unfold, hbody]
        by_cases hl0 : l = 0
        · -- stuck forever
          have hru : roundUp4 (i + l) = i := by unfold roundUp4; omega
          have hdiv : loop (attrBody e h buf) (i, m) = .diverge := by
            apply loop_diverge_of_inv (fun s => s = (i, m)) _ rfl
            rintro s rfl
            exact ⟨(i, m), by rw [hbody, hru], rfl⟩
          refine ⟨⟨?_, ?_⟩, ?_⟩
          · rintro ⟨r, hr⟩; rw [hdiv] at hr; cases hr
          · intro hno
            exact (hno i l t (.here _) hh hfit (Or.inl hl0)).elim
          · intro m' rest err hr; rw [hdiv] at hr; cases hr
        · have hnext : i + 4 ≤ roundUp4 (i + l) := by unfold roundUp4; omega
          obtain ⟨I1, I2⟩ := ih (d - 4) (by omega) (roundUp4 (i + l)) m
            (by unfold roundUp4; omega) (by omega)
          rw [hloop]
          refine ⟨?_, ?_⟩
          · rw [I1]
            constructor
            · intro hno j l' t' hj hh' hf
              rcases (hvis j).mp hj with rfl | hj'
              · obtain ⟨rfl, rfl⟩ := headerAt_unique hh hh'
                rintro (h0 | ⟨h0, h1, h2⟩)
                · omega
                · exact hreg ⟨h1, h2⟩
              · exact hno j l' t' hj' hh' hf
            · intro hno j l' t' hj hh' hf
              exact hno j l' t' ((hvis j).mpr (Or.inr hj)) hh' hf
          · intro m' rest err hr
            obtain ⟨r1, r2, r3⟩ := I2 m' rest err hr
            refine ⟨r1, ?_, ?_⟩
            · rcases r2 with ⟨rfl, j, l', t', a, b, c⟩ | ⟨rfl, hall⟩
              · exact Or.inl ⟨rfl, j, l', t', (hvis j).mpr (Or.inr a), b, c⟩
              · refine Or.inr ⟨rfl, ?_⟩
                intro j l' t' hj hh'
                rcases (hvis j).mp hj with rfl | hj'
                · obtain ⟨rfl, rfl⟩ := headerAt_unique hh hh'; exact hfit
                · exact hall j l' t' hj' hh'
            · intro k
              obtain ⟨q1, q2⟩ := r3 k
              refine ⟨q1, ?_⟩
              rcases q2 with q2 | ⟨j, l', a, b, c⟩
              · exact Or.inl q2
              · exact Or.inr ⟨j, l', (hvis j).mpr (Or.inr a), b, c⟩
    · rw [if_neg hfit] at hbody
      have hloop : loop (attrBody e h buf) (i, m) = .ok (m, none, some (.msg "Bad Attr")) := by
        rw [loop_unfold, hbody]
      have hvis : ∀ j, Visits e (h.bytes buf) i j → j = i := by
        intro j hj
        cases hj with
        | here => rfl
        | step h1 h2 h3 _ =>
          rw [hh.2.1] at h2
          simp only [Option.some.injEq] at h2
          omega
      refine ⟨⟨?_, fun _ => ⟨_, hloop⟩⟩, ?_⟩
      · intro _ j l' t' hj hh' hf
        rw [hvis j hj] at hh' hf
        obtain ⟨rfl, rfl⟩ := headerAt_unique hh hh'
        omega
      · intro m' rest err hr
        rw [hloop] at hr
        simp only [Res.ok.injEq, Prod.mk.injEq] at hr
        obtain ⟨rfl, rfl, rfl⟩ := hr
        exact ⟨rfl, Or.inl ⟨rfl, i, l, t, .here _, hh, by omega⟩, fun k => ⟨rfl, Or.inl rfl⟩⟩

end Verif.Common
