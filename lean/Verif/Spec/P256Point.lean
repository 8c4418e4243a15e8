/-
Vocabulary for the properties of the amd64 point routines: points of the curve in memory.
-/
import Verif.Spec.P256
import Verif.Spec.P256Mult
import Verif.Spec.SM2

namespace Verif.Spec.P256

open Verif.X64 Verif.X64.P256

/-- The twelve words at address `a`: three numbers. -/
def jacAt (m : X64.W → X64.W) (a : X64.W) : Jac Nat := ⟨num m a, num m (a + 32), num m (a + 64)⟩

/-- The twelve words at address `a` are Jacobian coordinates of the point in the Montgomery domain:
`X = x z²`, `Y = y z³`, `Z = z`, each times 2^256 modulo p.  Infinity has `Z = 0`. -/
def Stands (m : X64.W → X64.W) (a : X64.W) : SM2.Point → Prop
  | .zero => (num m (a + 64) : ZMod SM2.crv.P) = 0
  | .some x y _ => ∃ z : ZMod SM2.crv.P, z ≠ 0 ∧ (num m a : ZMod SM2.crv.P) = x * z ^ 2 * 2 ^ 256 ∧
      (num m (a + 32) : ZMod SM2.crv.P) = y * z ^ 3 * 2 ^ 256 ∧
      (num m (a + 64) : ZMod SM2.crv.P) = z * 2 ^ 256

/-- The eight words at address `a` are affine coordinates of the point in the Montgomery domain. -/
def StandsXY (m : X64.W → X64.W) (a : X64.W) : SM2.Point → Prop
  | .zero => False
  | .some x y _ => (num m a : ZMod SM2.crv.P) = x * 2 ^ 256 ∧
      (num m (a + 32) : ZMod SM2.crv.P) = y * 2 ^ 256

/-- `m'` differs from `m` in the twelve words at address `a` at most. -/
def OnlyAt12 (a : X64.W) (m m' : X64.W → X64.W) : Prop :=
  ∀ b, (∀ i < 12, b ≠ a + BitVec.ofNat 64 (8 * i)) → m' b = m b

/-- `m'` differs from `m` in the eight words at address `a` at most. -/
def OnlyAt8 (a : X64.W) (m m' : X64.W → X64.W) : Prop :=
  ∀ b, (∀ i < 8, b ≠ a + BitVec.ofNat 64 (8 * i)) → m' b = m b

/-- No operation that the result of adding the points at `a` and `b` depends on is inexact. -/
def ExactAdd (m : X64.W → X64.W) (a b : X64.W) : Prop :=
  Known (pointAdd (known (jacAt m a)) (known (jacAt m b)))

instance (m : X64.W → X64.W) (a b : X64.W) : Decidable (ExactAdd m a b) := by
  unfold ExactAdd; infer_instance

/-- The same for doubling the point at `a`. -/
def ExactDouble (m : X64.W → X64.W) (a : X64.W) : Prop := Known (pointDouble (known (jacAt m a)))

instance (m : X64.W → X64.W) (a : X64.W) : Decidable (ExactDouble m a) := by
  unfold ExactDouble; infer_instance

/-- The same for adding the point with the affine coordinates at `b`, negated if `sign`. -/
def ExactAddAffine (m : X64.W → X64.W) (a b : X64.W) (sign : Bool) : Prop :=
  Known (addAffine (known (jacAt m a)) (some (num m b))
    (if sign then negA (some (num m (b + 32))) else some (num m (b + 32))))

instance (m : X64.W → X64.W) (a b : X64.W) (sign : Bool) :
    Decidable (ExactAddAffine m a b sign) := by
  unfold ExactAddAffine; infer_instance

end Verif.Spec.P256
