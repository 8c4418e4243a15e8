import Verif.Base.Bytes
/-! # How far two byte strings agree -/
namespace Verif.Spec

/-- The number of positions, from the start, at which `a` and `b` have the same byte. -/
def agree : Bytes → Bytes → Nat
  | a :: as, b :: bs => if a = b then agree as bs + 1 else 0
  | _, _ => 0

/-- `agree a b` is the length of the longest common prefix. -/
theorem agree_spec (a b : Bytes) (n : Nat) :
    n ≤ agree a b ↔ n ≤ a.length ∧ n ≤ b.length ∧ a.take n = b.take n := by
  induction a generalizing b n with
  | nil => cases n <;> simp [agree]
  | cons x a ih =>
    cases b with
    | nil => cases n <;> simp [agree]
    | cons y b =>
      cases n with
      | zero => simp
      | succ n =>
        by_cases h : x = y
        · subst h; simp [agree, ih]
        · simp [agree, h]

end Verif.Spec
