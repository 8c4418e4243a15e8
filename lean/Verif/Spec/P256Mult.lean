/-
When the arithmetic of the amd64 point routines is exact.

Three of the routines for field elements return a number of the wrong residue class for some operands
(C56): subtraction when the subtrahend exceeds the minuend by more than p, addition when the sum is
p + 2^256 or more, negation of a number above p.  They are only met with operands of p or more, which
subtraction itself produces.  A run is exact if its result does not depend on such an operation.
-/
import Verif.Model.P256Mult

namespace Verif.Spec.P256

open Verif.X64.P256

/-- Apply an operation to two known numbers. -/
def both (f : Nat → Nat → Option Nat) : Option Nat → Option Nat → Option Nat
  | some a, some b => f a b
  | _, _ => none

/-- Apply an operation to a known number. -/
def one' (f : Nat → Option Nat) : Option Nat → Option Nat
  | some a => f a
  | none => none

/-- The numbers of the program, and `none` for what depends on an operation that returned a number of
the wrong residue class. -/
instance : Ops (Option Nat) where
  mul := both fun a b => some (mulP a b)
  add := both fun a b => if a + b < P + 2 ^ 256 then some (addP a b) else none
  sub := both fun a b => if b ≤ a + P then some (subP a b) else none
  half := one' fun a => some (halfP a)
  neg := one' fun a => if a ≤ P then some (negP a true) else none
  negA := one' fun a => some (subP P a)
  zero := some 0
  one := some oneM

/-- The three coordinates as known numbers. -/
def known (j : Jac Nat) : Jac (Option Nat) := ⟨some j.x, some j.y, some j.z⟩

/-- All three coordinates are known. -/
def Known (j : Jac (Option Nat)) : Prop := j.x.isSome ∧ j.y.isSome ∧ j.z.isSome

instance (j : Jac (Option Nat)) : Decidable (Known j) := by unfold Known; infer_instance

/-- ScalarMult(x, y, scalar) does not depend on an inexact operation. -/
def ExactMult (x y : Nat) (scalar : Bytes) : Prop :=
  Known (pointMult (known (fromXY x y)) (getScalar scalar))

instance (x y : Nat) (scalar : Bytes) : Decidable (ExactMult x y scalar) := by
  unfold ExactMult; infer_instance

/-- The same for ScalarBaseMult(scalar), including the preparation of the table. -/
def ExactBase (scalar : Bytes) : Prop :=
  Known (baseMult (baseTable (known basePoint)) (getScalar scalar))

instance (scalar : Bytes) : Decidable (ExactBase scalar) := by
  unfold ExactBase; infer_instance

/-- The same for CombinedMult(x, y, baseScalar, scalar). -/
def ExactCombined (x y : Nat) (baseScalar scalar : Bytes) : Prop :=
  Known (pointAdd (baseMult (baseTable (known basePoint)) (getScalar baseScalar))
    (pointMult (known (fromXY x y)) (getScalar scalar)))

instance (x y : Nat) (s t : Bytes) : Decidable (ExactCombined x y s t) := by
  unfold ExactCombined; infer_instance

end Verif.Spec.P256
