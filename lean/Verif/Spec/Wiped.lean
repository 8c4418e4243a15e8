import Verif.Spec.Copies
/-!
# Cleared memory
-/
namespace Verif.Spec

/-- Every byte of every array that was not there in `h` is zero. -/
def Wiped (h h' : Heap) : Prop := ∀ a, h.next ≤ a → a < h'.next → ∀ b ∈ h'.mem a, b = 0

/-- An array that was not there in `h` holds the bytes `b`. -/
def LeftBehind (h h' : Heap) (b : Bytes) : Prop := ∃ a, h.next ≤ a ∧ a < h'.next ∧ h'.mem a = b

end Verif.Spec
