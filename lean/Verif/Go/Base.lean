/-
The fragment of Go used by the code base: machine words, byte orders, outcomes of a call,
bounds-checked access to byte strings.

Nothing in this file models a particular function of /repo; it encodes Go language semantics
(and `encoding/binary`), which are part of the trusted base described in DESIGN.md.
-/

namespace Verif

/-- Go `byte`/`uint8`. -/
abbrev Byte := BitVec 8
/-- Go `uint16` (wrap-around arithmetic). -/
abbrev U16 := BitVec 16
/-- Go `uint32`. -/
abbrev U32 := BitVec 32
/-- Go `uint64`. -/
abbrev U64 := BitVec 64

/-- Outcome of running a piece of Go code: it returns, it panics (index or slice bounds out of
range, nil dereference), or it never returns. -/
inductive Res (α : Type) where
  | ok (a : α)
  | panic
  | diverge
deriving DecidableEq, Repr

/-- A Go `error` value that is not nil: a message made by `fmt.Errorf`/`errors.New` (its text), an errno from a system call,
an error that reports the code of a netlink error message, or `fmt.Errorf(text, inner)`: a format and the error printed
in it.  The rendering of the format is not modelled. -/
inductive Err where
  | msg (tag : String)
  | errno (n : Nat)
  | netlink (code : Int)
  | wrap (text : String) (inner : Err)
deriving DecidableEq, Repr

namespace Res

/-- Sequencing: a panic or divergence ends the computation. -/
def bind {α β : Type} (m : Res α) (f : α → Res β) : Res β :=
  match m with
  | .ok a => f a
  | .panic => .panic
  | .diverge => .diverge

instance : Monad Res where
  pure := .ok
  bind := Res.bind

@[simp] theorem pure_eq {α : Type} (a : α) : (pure a : Res α) = .ok a := rfl
@[simp] theorem ok_bind {α β : Type} (a : α) (f : α → Res β) : (Res.ok a >>= f) = f a := rfl
@[simp] theorem panic_bind {α β : Type} (f : α → Res β) : ((Res.panic : Res α) >>= f) = .panic := rfl
@[simp] theorem diverge_bind {α β : Type} (f : α → Res β) :
    ((Res.diverge : Res α) >>= f) = .diverge := rfl
@[simp] theorem map_eq {α β : Type} (f : α → β) (m : Res α) :
    (f <$> m) = m >>= fun a => Res.ok (f a) := rfl

theorem bind_assoc' {α β γ : Type} (m : Res α) (f : α → Res β) (g : β → Res γ) :
    ((m >>= f) >>= g) = m >>= fun a => f a >>= g := by
  cases m <;> rfl

theorem bind_eq_ok {α β : Type} {m : Res α} {f : α → Res β} {b : β} :
    (m >>= f) = .ok b ↔ ∃ a, m = .ok a ∧ f a = .ok b := by
  cases m <;> simp

/-- The call returned normally. -/
def isOk {α : Type} : Res α → Bool
  | .ok _ => true
  | _ => false

end Res

/-- Computation with a state that is kept across calls. -/
def GoM (σ α : Type) := σ → Res (α × σ)

namespace GoM

instance {σ : Type} : Monad (GoM σ) where
  pure a := fun s => .ok (a, s)
  bind m f := fun s => (m s) >>= fun (a, s') => f a s'

/-- Read the state. -/
def get {σ : Type} : GoM σ σ := fun s => .ok (s, s)
/-- Replace the state. -/
def set {σ : Type} (s : σ) : GoM σ Unit := fun _ => .ok ((), s)
/-- Change the state. -/
def modify {σ : Type} (f : σ → σ) : GoM σ Unit := fun s => .ok ((), f s)
/-- Run state-free code. -/
def lift {σ α : Type} (r : Res α) : GoM σ α := fun s => r >>= fun a => .ok (a, s)
/-- Crash. -/
def panic {σ α : Type} : GoM σ α := fun _ => .panic

@[simp] theorem pure_apply {σ α : Type} (a : α) (s : σ) : (pure a : GoM σ α) s = .ok (a, s) := rfl
@[simp] theorem bind_apply {σ α β : Type} (m : GoM σ α) (f : α → GoM σ β) (s : σ) :
    (m >>= f) s = (m s) >>= fun p => f p.1 p.2 := rfl
@[simp] theorem get_apply {σ : Type} (s : σ) : (get : GoM σ σ) s = .ok (s, s) := rfl
@[simp] theorem set_apply {σ : Type} (s s' : σ) : (set s' : GoM σ Unit) s = .ok ((), s') := rfl
@[simp] theorem modify_apply {σ : Type} (f : σ → σ) (s : σ) :
    (modify f : GoM σ Unit) s = .ok ((), f s) := rfl
@[simp] theorem lift_apply {σ α : Type} (r : Res α) (s : σ) :
    (lift r : GoM σ α) s = r >>= fun a => .ok (a, s) := rfl
@[simp] theorem panic_apply {σ α : Type} (s : σ) : (panic : GoM σ α) s = .panic := rfl
@[simp] theorem map_apply {σ α β : Type} (f : α → β) (m : GoM σ α) (s : σ) :
    (f <$> m) s = (m s) >>= fun p => .ok (f p.1, p.2) := rfl

end GoM

/-! ### Words and bytes -/

/-- Host byte order. -/
inductive Endian where
  | little
  | big
deriving DecidableEq, Repr

/-- `byte(v >> 8)` -/
def hi8 (v : U16) : Byte := v.extractLsb' 8 8
/-- `byte(v)` -/
def lo8 (v : U16) : Byte := v.extractLsb' 0 8
/-- `uint16(h)<<8 | uint16(l)` -/
def join16 (h l : Byte) : U16 := h ++ l

/-- byte number `k` (0 = least significant) of a 32-bit word: `byte(v >> (8*k))` -/
def byteOf32 (k : Nat) (v : U32) : Byte := v.extractLsb' (8 * k) 8
/-- `uint32(b3)<<24 | uint32(b2)<<16 | uint32(b1)<<8 | uint32(b0)` -/
def join32 (b3 b2 b1 b0 : Byte) : U32 := (b3 ++ b2 ++ b1 ++ b0 : BitVec (8 + 8 + 8 + 8))

/-- `order.PutUint16`: the two bytes written. -/
def enc16 : Endian → U16 → List Byte
  | .big, v => [hi8 v, lo8 v]
  | .little, v => [lo8 v, hi8 v]

/-- `order.PutUint32`: the four bytes written. -/
def enc32 : Endian → U32 → List Byte
  | .big, v => [byteOf32 3 v, byteOf32 2 v, byteOf32 1 v, byteOf32 0 v]
  | .little, v => [byteOf32 0 v, byteOf32 1 v, byteOf32 2 v, byteOf32 3 v]

/-- `order.Uint16(b)`: reads the first two bytes, panics when there are fewer. -/
def dec16 (e : Endian) : List Byte → Res U16
  | a :: b :: _ => .ok (match e with | .big => join16 a b | .little => join16 b a)
  | _ => .panic

/-- `order.Uint32(b)`: reads the first four bytes, panics when there are fewer. -/
def dec32 (e : Endian) : List Byte → Res U32
  | a :: b :: c :: d :: _ =>
      .ok (match e with | .big => join32 a b c d | .little => join32 d c b a)
  | _ => .panic

/-! ### Bounds-checked access to byte strings whose capacity equals their length -/

/-- `b[i]` -/
def idx (b : List Byte) (i : Nat) : Res Byte :=
  match b[i]? with
  | some x => .ok x
  | none => .panic

/-- `b[i:]` -/
def sliceFrom (b : List Byte) (i : Nat) : Res (List Byte) :=
  if i ≤ b.length then .ok (b.drop i) else .panic

/-- `b[i:j]` -/
def slice (b : List Byte) (i j : Nat) : Res (List Byte) :=
  if i ≤ j ∧ j ≤ b.length then .ok ((b.drop i).take (j - i)) else .panic

/-- Replace the bytes of `b` starting at `i` by `bs` (no bounds check). -/
def splice (b : List Byte) (i : Nat) (bs : List Byte) : List Byte :=
  b.take i ++ bs ++ b.drop (i + bs.length)

/-- Store `bs` at `b[i:]`; panics if it does not fit. -/
def writeAt (b : List Byte) (i : Nat) (bs : List Byte) : Res (List Byte) :=
  if i + bs.length ≤ b.length then .ok (splice b i bs) else .panic

/-- `make([]byte, n)` -/
def zeros (n : Nat) : List Byte := List.replicate n 0

end Verif
