import Verif.Base.Curve
/-!
# Specification: affine points of a short Weierstrass curve modulo P
-/
namespace Verif.Spec

/-- `(x, y)` satisfies `y² = x³ + a x + b (mod P)`. -/
def OnCurve (c : Curve) (a : Int) (x y : Nat) : Prop :=
  ((y : Int) ^ 2 - ((x : Int) ^ 3 + a * x + c.B)) % (c.P : Int) = 0

instance (c : Curve) (a : Int) (x y : Nat) : Decidable (OnCurve c a x y) := by
  unfold OnCurve; infer_instance

/-- SEC 1 (section 2.3.3) compressed encoding of a point: 02/03 by parity of `y`, then `x` big-endian in
`len` bytes. -/
def sec1Compressed (len x y : Nat) : Bytes := (if y % 2 = 1 then 3 else 2) :: beFix len x

/-- SEC 1 uncompressed encoding of a point. -/
def sec1Uncompressed (len x y : Nat) : Bytes := 4 :: (beFix len x ++ beFix len y)

end Verif.Spec
