import Verif.Model.SM3
import Verif.Base.Slice
/-!
# Package sm3 on memory

The arguments of `Write` and `Sum` as slices of the caller's memory. The state of the hasher is separate: its
buffer is an array inside the `digest` struct.
-/
namespace Verif.SM3

/-- sm3/sm3.go:82-103 `Write`, given a slice: what is in it at the time of the call is copied or hashed
(lines 86, 89, 96, 100); no reference to it is kept and nothing is written to it. -/
def writeAt (h : Heap) (d : Digest) (p : Slice) : Digest × Nat := write d (p.read h)

/-- sm3/sm3.go:105-110 method `Sum`, given a slice: `append(in, hash[:]...)` uses the spare capacity of `in` if
there is enough. The result is the memory afterwards and the slice. -/
def sumAt (h : Heap) (d : Digest) (inp : Slice) : Res (Heap × Slice) :=
  match checkSum d with
  | .ok hash => .ok (h.append inp hash)
  | .err m => .err m
  | .panic m => .panic m

end Verif.SM3
