import Verif.Base.Bytes
/-!
# Go slices with aliasing

A heap maps array identifiers to their contents; a slice is a window `(arr, off, len, cap)` on one
array. Used wherever a property depends on aliasing (in-place operation, `append` into spare
capacity).
-/
namespace Verif

/-- The heap: contents of each backing array, and the next unused identifier. -/
structure Heap where
  mem : Nat → Bytes
  next : Nat

/-- A Go `[]byte` value: a window on a backing array. -/
structure Slice where
  arr : Nat
  off : Nat
  len : Nat
  cap : Nat
  deriving DecidableEq, Repr

/-- The slice lies within its (allocated) backing array. -/
def Slice.Valid (h : Heap) (s : Slice) : Prop :=
  s.arr < h.next ∧ s.len ≤ s.cap ∧ s.off + s.cap ≤ (h.mem s.arr).length

/-- The bytes `s[0:len(s)]`. -/
def Slice.read (h : Heap) (s : Slice) : Bytes := ((h.mem s.arr).drop s.off).take s.len

/-- Replace the array contents at `[off, off + b.length)`. -/
def splice (a : Bytes) (off : Nat) (b : Bytes) : Bytes :=
  a.take off ++ b ++ a.drop (off + b.length)

/-- Store `b` into array `arr` at `off`. -/
def Heap.store (h : Heap) (arr off : Nat) (b : Bytes) : Heap :=
  { h with mem := fun i => if i = arr then splice (h.mem i) off b else h.mem i }

/-- `make([]byte, n)` followed by filling with `b`: a fresh array. -/
def Heap.alloc (h : Heap) (b : Bytes) : Heap × Slice :=
  ({ mem := fun i => if i = h.next then b else h.mem i, next := h.next + 1 },
   { arr := h.next, off := 0, len := b.length, cap := b.length })

/-- Go's `append(s, b...)`: writes in place when the capacity suffices, otherwise copies to a fresh
array. (The capacity of a fresh array may be larger in Go; nothing here depends on it.) -/
def Heap.append (h : Heap) (s : Slice) (b : Bytes) : Heap × Slice :=
  if s.len + b.length ≤ s.cap then
    (h.store s.arr (s.off + s.len) b, { s with len := s.len + b.length })
  else
    h.alloc (s.read h ++ b)

/-- Go's `s[i:j]` for `i ≤ j ≤ cap(s)`. -/
def Slice.sub (s : Slice) (i j : Nat) : Slice :=
  { arr := s.arr, off := s.off + i, len := j - i, cap := s.cap - i }

end Verif
