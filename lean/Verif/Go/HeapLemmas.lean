import Verif.Go.Heap
/-! More lemmas about slices and memory. -/
namespace Verif

/-- Allocation does not change what a valid slice shows. -/
theorem Heap.bytes_alloc_valid {h : Heap} {bs : List Byte} {s : Slice} (hv : s.Valid h) :
    (Heap.mk (h.arrays ++ [bs])).bytes s = h.bytes s := by
  by_cases hlt : s.arr < h.arrays.length
  · exact Heap.bytes_alloc_old hlt
  · have h0 : h.arrayOf s.arr = [] := by
      unfold Heap.arrayOf
      rw [List.getElem?_eq_none (by omega)]; rfl
    have : s.len = 0 := by
      obtain ⟨h1, h2⟩ := hv
      rw [h0] at h2; simp at h2; omega
    unfold Heap.bytes; rw [this]; simp

theorem Slice.Valid.alloc {h : Heap} {bs : List Byte} {s : Slice} (hv : s.Valid h) :
    s.Valid (Heap.mk (h.arrays ++ [bs])) := by
  by_cases hlt : s.arr < h.arrays.length
  · unfold Slice.Valid; rw [Heap.arrayOf_alloc_old hlt]; exact hv
  · have h0 : h.arrayOf s.arr = [] := by
      unfold Heap.arrayOf
      rw [List.getElem?_eq_none (by omega)]; rfl
    obtain ⟨h1, h2⟩ := hv
    rw [h0] at h2; simp at h2
    exact ⟨h1, by omega⟩

/-- A fresh slice shows its contents. -/
theorem Heap.bytes_mk' (h : Heap) (bs : List Byte) : (h.mk' bs).2.bytes (h.mk' bs).1 = bs := by
  simp only [Heap.mk', Heap.bytes, Heap.arrayOf_alloc_new]; simp

theorem Heap.valid_mk' (h : Heap) (bs : List Byte) : (h.mk' bs).1.Valid (h.mk' bs).2 := by
  simp only [Heap.mk', Slice.Valid, Heap.arrayOf_alloc_new]; simp

/-- What `append` does: the result shows the old bytes followed by the new ones; every slice of
the old memory that does not reach into the `bs.length` bytes after `s` (inside its capacity) is
unchanged. -/
theorem Heap.append_spec (grow : Nat → Nat) {h : Heap} {s : Slice} (hv : s.Valid h) (bs : List Byte) :
    let r := h.append grow s bs
    r.2.bytes r.1 = h.bytes s ++ bs ∧ r.1.Valid r.2 ∧ r.1.len = s.len + bs.length ∧
      (∀ t : Slice, t.Valid h → t.Valid r.2 ∧
        ((t.arr ≠ s.arr ∨ t.off + t.len ≤ s.off + s.len ∨ s.off + s.len + bs.length ≤ t.off ∨
            s.cap < s.len + bs.length) → r.2.bytes t = h.bytes t)) ∧
      (∀ a i, (a ≠ s.arr ∨ i < s.off + s.len ∨ s.off + s.len + bs.length ≤ i ∨ s.cap < s.len + bs.length) →
        i < (h.arrayOf a).length → (r.2.arrayOf a)[i]? = (h.arrayOf a)[i]?) := by
  intro r
  obtain ⟨hv1, hv2⟩ := hv
  by_cases hc : s.len + bs.length ≤ s.cap
  · have hr : r = ({ s with len := s.len + bs.length }, h.write s.arr (s.off + s.len) bs) := by
      simp only [r, Heap.append, if_pos hc]
    have hw : s.off + s.len + bs.length ≤ (h.arrayOf s.arr).length := by omega
    have hv' : Slice.Valid { s with len := s.len + bs.length } h := ⟨hc, hv2⟩
    rw [hr]
    refine ⟨?_, hv'.write hw, rfl, ?_, ?_⟩
    · have := Heap.bytes_write_inside (h := h) (s := { s with len := s.len + bs.length }) (i := s.len)
        (bs := bs) hv' (Nat.le_refl _)
      simp only at this ⊢
      rw [this]
      have hb : h.bytes s = (h.bytes { s with len := s.len + bs.length }).take s.len := by
        simp only [Heap.bytes, List.take_take]; congr 1; omega
      unfold splice
      rw [hb, List.drop_eq_nil_of_le]
      · simp
      · rw [Heap.bytes_length hv']; exact Nat.le_refl _
    · intro t ht
      refine ⟨ht.write hw, fun hd => Heap.bytes_write_disjoint hw ?_⟩
      rcases hd with hd | hd | hd | hd
      · left; exact fun h => hd h.symm
      · right; right; exact hd
      · right; left; exact hd
      · omega
    · intro a i hd hi
      by_cases ha : a = s.arr
      · subst ha
        rw [Heap.arrayOf_write_same (Heap.lt_of_arrayOf_pos (by omega)), splice_getElem? _ _ _ hw]
        rw [if_neg]
        rcases hd with hd | hd | hd | hd
        · exact absurd rfl hd
        all_goals omega
      · show ((h.write s.arr (s.off + s.len) bs).arrayOf a)[i]? = _
        rw [Heap.arrayOf_write_ne (fun h => ha h.symm)]
  · have hr : r = (⟨h.arrays.length, 0, s.len + bs.length, s.len + bs.length + grow (s.len + bs.length)⟩,
        ⟨h.arrays ++ [h.bytes s ++ bs ++ zeros (grow (s.len + bs.length))]⟩) := by
      simp only [r, Heap.append, if_neg hc]
    have hl : (h.bytes s).length = s.len := Heap.bytes_length ⟨hv1, hv2⟩
    rw [hr]
    refine ⟨?_, ?_, rfl, ?_, ?_⟩
    · simp only [Heap.bytes, Heap.arrayOf_alloc_new]
      simp only [List.drop_zero]
      rw [List.take_left']
      · show (h.bytes s ++ bs).length = _
        simp [hl]
    · unfold Slice.Valid
      simp only [Heap.arrayOf_alloc_new]
      simp [hl, zeros]; omega
    · intro t ht
      exact ⟨ht.alloc, fun _ => Heap.bytes_alloc_valid ht⟩
    · intro a i _ hi
      show ((Heap.mk (h.arrays ++ _)).arrayOf a)[i]? = _
      rw [Heap.arrayOf_alloc_old (Heap.lt_of_arrayOf_pos (by omega))]

end Verif
