import Verif.Spec.Group
/-!
# The external elliptic.Curve interface

`elliptic.Curve` implementations (crypto/elliptic, btcec, and the SM2 curve on platforms without assembly)
are external. They are a parameter `CurveOps` whose contract `Lawful` says that they compute in the group
of points of the curve, with `(0, 0)` standing for the point at infinity.
-/
namespace Verif.Spec

/-- The arithmetic methods of `elliptic.Curve`; scalars are the integers denoted by the byte arguments. -/
structure CurveOps where
  /-- `ScalarBaseMult(k)` -/
  baseMult : Nat → Nat × Nat
  /-- `ScalarMult(x, y, k)` -/
  mult : Nat × Nat → Nat → Nat × Nat
  /-- `Add(x1, y1, x2, y2)` -/
  add : Nat × Nat → Nat × Nat → Nat × Nat

/-- `base` is `ScalarBaseMult` of the curve: multiples of the base point. -/
def LawfulBase (c : Curve) (a : Int) (base : Nat → Nat × Nat) : Prop :=
  ∀ [Fact c.P.Prime] (G : Pt c a), xy G = (c.Gx, c.Gy) → ∀ k : Nat, base k = xy (k • G)

/-- The contract of `elliptic.Curve` for points of the curve. Nothing is promised for pairs that are not
points. -/
structure CurveOps.Lawful (ops : CurveOps) (c : Curve) (a : Int) : Prop where
  base : LawfulBase c a ops.baseMult
  mult : ∀ [Fact c.P.Prime] (P : Pt c a) (k : Nat), ops.mult (xy P) k = xy (k • P)
  add : ∀ [Fact c.P.Prime] (P Q : Pt c a), ops.add (xy P) (xy Q) = xy (P + Q)

end Verif.Spec
