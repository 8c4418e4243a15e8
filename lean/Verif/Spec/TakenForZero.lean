import Verif.Model.SM2
import Verif.Model.VRF
/-!
# Curve methods that take one scalar for another

The only mistake of `ScalarMult` on amd64 in an exact run (C57): a scalar congruent to `n - 6` is taken for 0.
-/
namespace Verif.Spec

/-- The scalar `ScalarMult` of amd64 multiplies by. -/
def amd64Scalar (k : Nat) : Nat := if k % Curves.sm2.N = Curves.sm2.N - 6 then 0 else k

/-- The same methods, but `ScalarMult` takes the scalars congruent to `n - 6` for 0. -/
def n6Zero (ops : CurveOps) : CurveOps := { ops with mult := fun P k => ops.mult P (amd64Scalar k) }

/-- Package sm2 with these curve methods. -/
def sm2N6Zero (E : SM2.Ext) : SM2.Ext := { E with ops := n6Zero E.ops }

/-- Package vrf with these curve methods for SM2 keys. -/
def vrfN6Zero (E : VRF.Ext) : VRF.Ext :=
  { E with ops := fun c => if c = Curves.sm2 then n6Zero (E.ops c) else E.ops c }

end Verif.Spec
