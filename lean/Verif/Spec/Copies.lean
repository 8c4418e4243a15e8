import Verif.Model.SerialHeap
/-!
# Results in memory of their own

What it means that a function returns its result in new memory and leaves all memory that was there alone.
-/
namespace Verif.Spec

/-- From `h` to `h'` nothing that was there has changed; there may be new arrays. -/
def KeptHeap (h h' : Heap) : Prop := h.next ≤ h'.next ∧ ∀ a, a < h.next → h'.mem a = h.mem a

/-- The slice `s` holds `b` in an array that was not there in `h`. -/
def FreshCopy (h h' : Heap) (s : Slice) (b : Bytes) : Prop := s.Valid h' ∧ h.next ≤ s.arr ∧ s.read h' = b

/-- The outcome `r` of a function on the heap `h` against the outcome `v` that is expected of it: the same error or the
same panic, or a heap that keeps what was there with a result as `Q` says. -/
def Outcome {α β : Type} (h : Heap) (Q : Heap → α → β → Prop) (r : Res (Heap × α)) (v : Res β) : Prop :=
  match r, v with
  | .ok (h', a), .ok b => KeptHeap h h' ∧ Q h' a b
  | .err m, .err m' => m = m'
  | .panic m, .panic m' => m = m'
  | _, _ => False

/-- A key on the heap holds the value, and what it has on the heap was not there in `h0`. -/
def PrivAt (h0 h : Heap) (k : Keypair.PrivRef) (v : Keypair.PrivateKey) : Prop :=
  k.read h = some v ∧ ∀ s, k = .ed s → FreshCopy h0 h s (s.read h)

/-- A protected key on the heap holds the value, in two arrays that were not there in `h0`. -/
def ProtAt (h0 h : Heap) (p : Keypair.ProtRef) (v : Keypair.ProtectedKey) : Prop :=
  p.read h = v ∧ FreshCopy h0 h p.key v.key ∧ FreshCopy h0 h p.salt v.salt ∧ p.key.arr ≠ p.salt.arr

end Verif.Spec
