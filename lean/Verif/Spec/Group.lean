import Verif.Spec.Curve
import Mathlib.AlgebraicGeometry.EllipticCurve.Affine.Point
import Mathlib.Algebra.Field.ZMod
/-!
# Specification: the group of an elliptic curve over a prime field

The group is Mathlib's group of points of a Weierstrass curve. A point is represented by its pair of
coordinates, with `(0, 0)` for the point at infinity (the convention of crypto/elliptic).
-/
namespace Verif.Spec
open WeierstrassCurve

variable (c : Curve) (a : Int)

/-- `y² = x³ + a x + B` over `Z/P`. -/
def W : Affine (ZMod c.P) := { a₁ := 0, a₂ := 0, a₃ := 0, a₄ := (a : ZMod c.P), a₆ := (c.B : ZMod c.P) }

/-- Points of the curve. With `P` prime this is a commutative group. -/
abbrev Pt := (W c a).Point

instance [h : Fact c.P.Prime] : AddCommGroup (Pt c a) := inferInstance

/-- Coordinates of a point; `(0, 0)` for infinity. -/
def xy {c : Curve} {a : Int} : Pt c a → Nat × Nat
  | .zero => (0, 0)
  | .some x y _ => (x.val, y.val)

end Verif.Spec
