import Verif.Go.Lemmas
/-!
Go slices over shared memory: a heap of byte arrays; a slice is a window (array, offset, length,
capacity).  `append` writes in place when the capacity suffices, otherwise it copies to a new
array whose spare capacity is an arbitrary function `grow` (Go leaves the growth unspecified).
-/
namespace Verif

/-- A Go slice value. -/
structure Slice where
  arr : Nat
  off : Nat
  len : Nat
  cap : Nat
deriving DecidableEq, Repr

/-- The byte arrays allocated so far. -/
structure Heap where
  arrays : List (List Byte)
deriving DecidableEq, Repr

namespace Heap

/-- Contents of array `a`. -/
def arrayOf (h : Heap) (a : Nat) : List Byte := (h.arrays[a]?).getD []

/-- The bytes a slice shows. -/
def bytes (h : Heap) (s : Slice) : List Byte := ((h.arrayOf s.arr).drop s.off).take s.len

/-- Overwrite bytes of array `a` from position `i` on (the caller checks bounds). -/
def write (h : Heap) (a i : Nat) (bs : List Byte) : Heap :=
  ⟨h.arrays.set a (splice (h.arrayOf a) i bs)⟩

/-- Allocate a new array. -/
def alloc (h : Heap) (bs : List Byte) : Nat × Heap := (h.arrays.length, ⟨h.arrays ++ [bs]⟩)

/-- `make([]byte, n)` or a composite literal: a fresh array, capacity = length. -/
def mk' (h : Heap) (bs : List Byte) : Slice × Heap :=
  (⟨h.arrays.length, 0, bs.length, bs.length⟩, ⟨h.arrays ++ [bs]⟩)

end Heap

namespace Slice

/-- The nil slice (or an empty literal). -/
def nil : Slice := ⟨0, 0, 0, 0⟩

/-- A slice Go could really hold: inside its array. -/
def Valid (s : Slice) (h : Heap) : Prop :=
  s.len ≤ s.cap ∧ s.off + s.cap ≤ (h.arrayOf s.arr).length

/-- `s[lo:hi]`: allowed up to the capacity, not just the length. -/
def sub (s : Slice) (lo hi : Nat) : Res Slice :=
  if lo ≤ hi ∧ hi ≤ s.cap then .ok ⟨s.arr, s.off + lo, hi - lo, s.cap - lo⟩ else .panic

/-- `s[lo:]` -/
def from' (s : Slice) (lo : Nat) : Res Slice := s.sub lo s.len

/-- `s[:hi]` -/
def to (s : Slice) (hi : Nat) : Res Slice := s.sub 0 hi

end Slice

namespace Heap

/-- `s[i] = …` for consecutive bytes, e.g. `PutUint16(s[i:], v)`: bounds-checked by the length. -/
def store (h : Heap) (s : Slice) (i : Nat) (bs : List Byte) : Res Heap :=
  if i + bs.length ≤ s.len then .ok (h.write s.arr (s.off + i) bs) else .panic

/-- `copy(s[i:], bs)`: copies as many bytes as fit, never panics when `i ≤ len`. -/
def copyTo (h : Heap) (s : Slice) (i : Nat) (bs : List Byte) : Res Heap :=
  if i ≤ s.len then .ok (h.write s.arr (s.off + i) (bs.take (s.len - i))) else .panic

/-- `append(s, bs...)` -/
def append (grow : Nat → Nat) (h : Heap) (s : Slice) (bs : List Byte) : Slice × Heap :=
  if s.len + bs.length ≤ s.cap then
    ({ s with len := s.len + bs.length }, h.write s.arr (s.off + s.len) bs)
  else
    let n := s.len + bs.length
    (⟨h.arrays.length, 0, n, n + grow n⟩, ⟨h.arrays ++ [h.bytes s ++ bs ++ zeros (grow n)]⟩)

end Heap

/-! ### Lemmas -/

theorem Slice.sub_eq_ok {s t : Slice} {lo hi : Nat} :
    s.sub lo hi = .ok t ↔ lo ≤ hi ∧ hi ≤ s.cap ∧ t = ⟨s.arr, s.off + lo, hi - lo, s.cap - lo⟩ := by
  unfold Slice.sub
  split
  · rename_i h; simp [h, eq_comm]
  · rename_i h
    simp only [reduceCtorEq, false_iff]
    rintro ⟨h1, h2, _⟩; exact h ⟨h1, h2⟩

theorem Slice.sub_valid {s t : Slice} {h : Heap} {lo hi : Nat} (hv : s.Valid h)
    (e : s.sub lo hi = .ok t) : t.Valid h := by
  rw [Slice.sub_eq_ok] at e
  obtain ⟨h1, h2, rfl⟩ := e
  unfold Slice.Valid at *
  simp; omega

@[simp] theorem Heap.bytes_length {h : Heap} {s : Slice} (hv : s.Valid h) :
    (h.bytes s).length = s.len := by
  unfold Heap.bytes Slice.Valid at *
  simp; omega

theorem Heap.bytes_sub {h : Heap} {s t : Slice} {lo hi : Nat}
    (e : s.sub lo hi = .ok t) (hh : hi ≤ s.len) :
    h.bytes t = ((h.bytes s).drop lo).take (hi - lo) := by
  rw [Slice.sub_eq_ok] at e
  obtain ⟨h1, h2, rfl⟩ := e
  simp only [Heap.bytes, List.drop_take, List.take_take, List.drop_drop]
  congr 1; omega

theorem Heap.bytes_from {h : Heap} {s t : Slice} {lo : Nat}
    (e : s.from' lo = .ok t) : h.bytes t = (h.bytes s).drop lo := by
  rw [Heap.bytes_sub e (Nat.le_refl _)]
  apply List.take_of_length_le
  simp [Heap.bytes]; omega

@[simp] theorem Heap.arrays_length_write (h : Heap) (a i : Nat) (bs : List Byte) :
    (h.write a i bs).arrays.length = h.arrays.length := by simp [Heap.write]

theorem Heap.arrayOf_write_ne {h : Heap} {a b i : Nat} {bs : List Byte} (hne : a ≠ b) :
    (h.write a i bs).arrayOf b = h.arrayOf b := by
  simp [Heap.write, Heap.arrayOf, List.getElem?_set_ne hne]

theorem Heap.arrayOf_write_same {h : Heap} {a i : Nat} {bs : List Byte} (hlt : a < h.arrays.length) :
    (h.write a i bs).arrayOf a = splice (h.arrayOf a) i bs := by
  simp [Heap.write, Heap.arrayOf, hlt]

theorem Heap.lt_of_arrayOf_pos {h : Heap} {a : Nat} (hp : 0 < (h.arrayOf a).length) :
    a < h.arrays.length := by
  apply Classical.byContradiction
  intro hn
  have : h.arrays[a]? = none := by simp; omega
  simp [Heap.arrayOf, this] at hp

theorem Heap.arrayOf_length_write {h : Heap} {a b i : Nat} {bs : List Byte}
    (hb : i + bs.length ≤ (h.arrayOf a).length) :
    ((h.write a i bs).arrayOf b).length = (h.arrayOf b).length := by
  by_cases hab : a = b
  · subst hab
    by_cases hlt : a < h.arrays.length
    · rw [Heap.arrayOf_write_same hlt, splice_length _ _ _ hb]
    · have : h.arrays.set a (splice (h.arrayOf a) i bs) = h.arrays :=
        List.set_eq_of_length_le (by omega)
      simp [Heap.write, this]
  · rw [Heap.arrayOf_write_ne hab]

theorem Slice.Valid.write {s : Slice} {h : Heap} (hv : s.Valid h) {a i : Nat} {bs : List Byte}
    (hb : i + bs.length ≤ (h.arrayOf a).length) : s.Valid (h.write a i bs) := by
  unfold Slice.Valid at *
  rw [Heap.arrayOf_length_write hb]; exact hv

/-- Writing to another array, or outside the window, does not change what a slice shows. -/
theorem Heap.bytes_write_disjoint {h : Heap} {s : Slice} {a i : Nat} {bs : List Byte}
    (hb : i + bs.length ≤ (h.arrayOf a).length)
    (hd : a ≠ s.arr ∨ i + bs.length ≤ s.off ∨ s.off + s.len ≤ i) :
    (h.write a i bs).bytes s = h.bytes s := by
  by_cases ha : a = s.arr
  · subst ha
    by_cases hlt : s.arr < h.arrays.length
    · unfold Heap.bytes
      rw [Heap.arrayOf_write_same hlt]
      apply List.ext_getElem?
      intro j
      simp only [List.getElem?_take, List.getElem?_drop]
      split
      · rw [splice_getElem? _ _ _ hb]
        rw [if_neg]; omega
      · rfl
    · have : h.arrays.set s.arr (splice (h.arrayOf s.arr) i bs) = h.arrays :=
        List.set_eq_of_length_le (by omega)
      simp [Heap.write, this]
  · unfold Heap.bytes
    rw [Heap.arrayOf_write_ne ha]

/-- Writing inside the window splices the bytes. -/
theorem Heap.bytes_write_inside {h : Heap} {s : Slice} {i : Nat} {bs : List Byte}
    (hv : s.Valid h) (hi : i + bs.length ≤ s.len) :
    (h.write s.arr (s.off + i) bs).bytes s = splice (h.bytes s) i bs := by
  obtain ⟨h1, h2⟩ := hv
  by_cases hz : (h.arrayOf s.arr).length = 0
  · have : h.arrayOf s.arr = [] := List.length_eq_zero_iff.mp hz
    have hbl : bs = [] := by
      apply List.length_eq_zero_iff.mp; omega
    subst hbl
    rw [Heap.bytes_write_disjoint (by simp; omega)]
    · simp [splice]
    · right; right; simp at hi; omega
  · have hlt : s.arr < h.arrays.length := Heap.lt_of_arrayOf_pos (by omega)
    have hlen : (h.bytes s).length = s.len := Heap.bytes_length ⟨h1, h2⟩
    apply List.ext_getElem?
    intro j
    rw [splice_getElem? _ _ _ (by omega)]
    unfold Heap.bytes
    rw [Heap.arrayOf_write_same hlt]
    simp only [List.getElem?_take, List.getElem?_drop]
    rw [splice_getElem? _ _ _ (by omega)]
    by_cases hj : j < s.len
    · simp only [hj, ↓reduceIte]
      by_cases hk : i ≤ j ∧ j < i + bs.length
      · rw [if_pos (by omega), if_pos hk]
        congr 1; omega
      · rw [if_neg (by omega), if_neg hk]
    · simp only [hj, ↓reduceIte]
      rw [if_neg (by omega)]

theorem Heap.arrayOf_alloc_old {h : Heap} {bs : List Byte} {a : Nat} (hlt : a < h.arrays.length) :
    (Heap.mk (h.arrays ++ [bs])).arrayOf a = h.arrayOf a := by
  simp [Heap.arrayOf, List.getElem?_append_left hlt]

theorem Heap.arrayOf_alloc_new {h : Heap} {bs : List Byte} :
    (Heap.mk (h.arrays ++ [bs])).arrayOf h.arrays.length = bs := by
  simp [Heap.arrayOf]

theorem Heap.bytes_alloc_old {h : Heap} {bs : List Byte} {s : Slice} (hlt : s.arr < h.arrays.length) :
    (Heap.mk (h.arrays ++ [bs])).bytes s = h.bytes s := by
  unfold Heap.bytes; rw [Heap.arrayOf_alloc_old hlt]

end Verif
