import Verif.Lemmas.Affine
import Verif.Lemmas.CurveFacts
/-!
# The groups of the supported curves (generated)

For each curve: the discriminant, the base point, `N·G = O` (checked by the kernel with the affine
arithmetic) and hence the exact number of points.
-/
namespace Verif.Curves
open Verif.Spec Verif.Affine

set_option maxRecDepth 100000

instance p224_fact : Fact p224.P.Prime := ⟨p224_prime⟩

theorem p224_ok : Affine.Ok p224 (-3) := ⟨by decide +kernel, by decide +kernel, by decide +kernel⟩

theorem p224_G_on : OnCurve p224 (-3) p224.Gx p224.Gy := by decide +kernel

/-- The base point. -/
def p224G : Pt p224 (-3) := ofXY p224_ok p224_G_on

theorem p224G_xy : xy p224G = (p224.Gx, p224.Gy) :=
  xy_ofXY p224_ok p224_G_on (by decide +kernel) (by decide +kernel)

theorem p224_aN : ((((p224.P - 3)) : ℕ) : ZMod p224.P) = ((-3 : ℤ) : ZMod p224.P) := by
  rw [Nat.cast_sub (by decide +kernel)]; simp

theorem p224_NG_computed : Affine.smul p224.P (p224.P - 3) p224.N (p224.Gx, p224.Gy) = (0, 0) := by decide +kernel

theorem p224_NG : p224.N • p224G = 0 := by
  rw [← xy_eq_zero_iff p224_ok, ← Affine.smul_eq p224_ok (p224.P - 3) p224_aN, p224G_xy]
  exact p224_NG_computed

/-- The number of points of the curve is the order of the base point. -/
theorem p224_card : Nat.card (Pt p224 (-3)) = p224.N := by
  refine card_eq p224_ok ?_ p224_order_prime (by decide +kernel) (by decide +kernel) p224G
    (ofXY_ne_zero _ _) p224_NG
  intro x hx
  apply p224_no_root x
  have := p224_aN
  rw [← hx]
  congr 3

instance p256_fact : Fact p256.P.Prime := ⟨p256_prime⟩

theorem p256_ok : Affine.Ok p256 (-3) := ⟨by decide +kernel, by decide +kernel, by decide +kernel⟩

theorem p256_G_on : OnCurve p256 (-3) p256.Gx p256.Gy := by decide +kernel

/-- The base point. -/
def p256G : Pt p256 (-3) := ofXY p256_ok p256_G_on

theorem p256G_xy : xy p256G = (p256.Gx, p256.Gy) :=
  xy_ofXY p256_ok p256_G_on (by decide +kernel) (by decide +kernel)

theorem p256_aN : ((((p256.P - 3)) : ℕ) : ZMod p256.P) = ((-3 : ℤ) : ZMod p256.P) := by
  rw [Nat.cast_sub (by decide +kernel)]; simp

theorem p256_NG_computed : Affine.smul p256.P (p256.P - 3) p256.N (p256.Gx, p256.Gy) = (0, 0) := by decide +kernel

theorem p256_NG : p256.N • p256G = 0 := by
  rw [← xy_eq_zero_iff p256_ok, ← Affine.smul_eq p256_ok (p256.P - 3) p256_aN, p256G_xy]
  exact p256_NG_computed

/-- The number of points of the curve is the order of the base point. -/
theorem p256_card : Nat.card (Pt p256 (-3)) = p256.N := by
  refine card_eq p256_ok ?_ p256_order_prime (by decide +kernel) (by decide +kernel) p256G
    (ofXY_ne_zero _ _) p256_NG
  intro x hx
  apply p256_no_root x
  have := p256_aN
  rw [← hx]
  congr 3

instance p384_fact : Fact p384.P.Prime := ⟨p384_prime⟩

theorem p384_ok : Affine.Ok p384 (-3) := ⟨by decide +kernel, by decide +kernel, by decide +kernel⟩

theorem p384_G_on : OnCurve p384 (-3) p384.Gx p384.Gy := by decide +kernel

/-- The base point. -/
def p384G : Pt p384 (-3) := ofXY p384_ok p384_G_on

theorem p384G_xy : xy p384G = (p384.Gx, p384.Gy) :=
  xy_ofXY p384_ok p384_G_on (by decide +kernel) (by decide +kernel)

theorem p384_aN : ((((p384.P - 3)) : ℕ) : ZMod p384.P) = ((-3 : ℤ) : ZMod p384.P) := by
  rw [Nat.cast_sub (by decide +kernel)]; simp

theorem p384_NG_computed : Affine.smul p384.P (p384.P - 3) p384.N (p384.Gx, p384.Gy) = (0, 0) := by decide +kernel

theorem p384_NG : p384.N • p384G = 0 := by
  rw [← xy_eq_zero_iff p384_ok, ← Affine.smul_eq p384_ok (p384.P - 3) p384_aN, p384G_xy]
  exact p384_NG_computed

/-- The number of points of the curve is the order of the base point. -/
theorem p384_card : Nat.card (Pt p384 (-3)) = p384.N := by
  refine card_eq p384_ok ?_ p384_order_prime (by decide +kernel) (by decide +kernel) p384G
    (ofXY_ne_zero _ _) p384_NG
  intro x hx
  apply p384_no_root x
  have := p384_aN
  rw [← hx]
  congr 3

instance p521_fact : Fact p521.P.Prime := ⟨p521_prime⟩

theorem p521_ok : Affine.Ok p521 (-3) := ⟨by decide +kernel, by decide +kernel, by decide +kernel⟩

theorem p521_G_on : OnCurve p521 (-3) p521.Gx p521.Gy := by decide +kernel

/-- The base point. -/
def p521G : Pt p521 (-3) := ofXY p521_ok p521_G_on

theorem p521G_xy : xy p521G = (p521.Gx, p521.Gy) :=
  xy_ofXY p521_ok p521_G_on (by decide +kernel) (by decide +kernel)

theorem p521_aN : ((((p521.P - 3)) : ℕ) : ZMod p521.P) = ((-3 : ℤ) : ZMod p521.P) := by
  rw [Nat.cast_sub (by decide +kernel)]; simp

theorem p521_NG_computed : Affine.smul p521.P (p521.P - 3) p521.N (p521.Gx, p521.Gy) = (0, 0) := by decide +kernel

theorem p521_NG : p521.N • p521G = 0 := by
  rw [← xy_eq_zero_iff p521_ok, ← Affine.smul_eq p521_ok (p521.P - 3) p521_aN, p521G_xy]
  exact p521_NG_computed

/-- The number of points of the curve is the order of the base point. -/
theorem p521_card : Nat.card (Pt p521 (-3)) = p521.N := by
  refine card_eq p521_ok ?_ p521_order_prime (by decide +kernel) (by decide +kernel) p521G
    (ofXY_ne_zero _ _) p521_NG
  intro x hx
  apply p521_no_root x
  have := p521_aN
  rw [← hx]
  congr 3

instance secp256k1_fact : Fact (secp256k1 "").P.Prime := ⟨secp256k1_prime⟩

theorem secp256k1_ok : Affine.Ok (secp256k1 "") (0) := ⟨by decide +kernel, by decide +kernel, by decide +kernel⟩

theorem secp256k1_G_on : OnCurve (secp256k1 "") (0) (secp256k1 "").Gx (secp256k1 "").Gy := by decide +kernel

/-- The base point. -/
def secp256k1G : Pt (secp256k1 "") (0) := ofXY secp256k1_ok secp256k1_G_on

theorem secp256k1G_xy : xy secp256k1G = ((secp256k1 "").Gx, (secp256k1 "").Gy) :=
  xy_ofXY secp256k1_ok secp256k1_G_on (by decide +kernel) (by decide +kernel)

theorem secp256k1_aN : (((0) : ℕ) : ZMod (secp256k1 "").P) = ((0 : ℤ) : ZMod (secp256k1 "").P) := by
  simp

theorem secp256k1_NG_computed : Affine.smul (secp256k1 "").P 0 (secp256k1 "").N ((secp256k1 "").Gx, (secp256k1 "").Gy) = (0, 0) := by decide +kernel

theorem secp256k1_NG : (secp256k1 "").N • secp256k1G = 0 := by
  rw [← xy_eq_zero_iff secp256k1_ok, ← Affine.smul_eq secp256k1_ok 0 secp256k1_aN, secp256k1G_xy]
  exact secp256k1_NG_computed

/-- The number of points of the curve is the order of the base point. -/
theorem secp256k1_card : Nat.card (Pt (secp256k1 "") (0)) = (secp256k1 "").N := by
  refine card_eq secp256k1_ok ?_ secp256k1_order_prime (by decide +kernel) (by decide +kernel) secp256k1G
    (ofXY_ne_zero _ _) secp256k1_NG
  intro x hx
  apply secp256k1_no_root x
  rw [← hx]
  simp

instance sm2_fact : Fact sm2.P.Prime := ⟨sm2_prime⟩

theorem sm2_ok : Affine.Ok sm2 (-3) := ⟨by decide +kernel, by decide +kernel, by decide +kernel⟩

theorem sm2_G_on : OnCurve sm2 (-3) sm2.Gx sm2.Gy := by decide +kernel

/-- The base point. -/
def sm2G : Pt sm2 (-3) := ofXY sm2_ok sm2_G_on

theorem sm2G_xy : xy sm2G = (sm2.Gx, sm2.Gy) :=
  xy_ofXY sm2_ok sm2_G_on (by decide +kernel) (by decide +kernel)

theorem sm2_aN : ((((sm2.P - 3)) : ℕ) : ZMod sm2.P) = ((-3 : ℤ) : ZMod sm2.P) := by
  rw [Nat.cast_sub (by decide +kernel)]; simp

theorem sm2_NG_computed : Affine.smul sm2.P (sm2.P - 3) sm2.N (sm2.Gx, sm2.Gy) = (0, 0) := by decide +kernel

theorem sm2_NG : sm2.N • sm2G = 0 := by
  rw [← xy_eq_zero_iff sm2_ok, ← Affine.smul_eq sm2_ok (sm2.P - 3) sm2_aN, sm2G_xy]
  exact sm2_NG_computed

/-- The number of points of the curve is the order of the base point. -/
theorem sm2_card : Nat.card (Pt sm2 (-3)) = sm2.N := by
  refine card_eq sm2_ok ?_ sm2_order_prime (by decide +kernel) (by decide +kernel) sm2G
    (ofXY_ne_zero _ _) sm2_NG
  intro x hx
  apply sm2_no_root x
  have := sm2_aN
  rw [← hx]
  congr 3

end Verif.Curves
