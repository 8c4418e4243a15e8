/-
The point formulas of the assembly compute in the group of the curve: Jacobian coordinates over the
field, for any curve y² = x³ - 3x + B.
-/
import Verif.Model.P256Mult
import Verif.Lemmas.Affine
import Mathlib.Tactic.LinearCombination
import Mathlib.Tactic.FieldSimp

namespace Verif.X64.P256

open Verif.Spec WeierstrassCurve

variable {c : Curve}

/-- The field operations of the point formulas. -/
instance fieldOps [Fact c.P.Prime] : Ops (ZMod c.P) where
  mul := (· * ·)
  sub := (· - ·)
  add := (· + ·)
  half := (· / 2)
  neg := (- ·)
  negA := (- ·)
  zero := 0
  one := 1

variable [Fact c.P.Prime]

theorem f_mul (x y : ZMod c.P) : mul x y = x * y := rfl
theorem f_sub (x y : ZMod c.P) : sub x y = x - y := rfl
theorem f_add (x y : ZMod c.P) : add x y = x + y := rfl
theorem f_half (x : ZMod c.P) : half x = x / 2 := rfl
theorem f_neg (x : ZMod c.P) : neg x = -x := rfl
theorem f_negA (x : ZMod c.P) : negA x = -x := rfl
theorem f_zero : (Ops.zero : ZMod c.P) = 0 := rfl
theorem f_one : (Ops.one : ZMod c.P) = 1 := rfl
theorem f_sq (x : ZMod c.P) : sq x = x * x := rfl
theorem f_dbl (x : ZMod c.P) : dbl x = x + x := rfl

/-- `j` are Jacobian coordinates of the point. -/
def Reps (j : Jac (ZMod c.P)) : Pt c (-3) → Prop
  | .zero => j.z = 0
  | .some x y _ => j.z ≠ 0 ∧ j.x = x * j.z ^ 2 ∧ j.y = y * j.z ^ 3

theorem reps_zero {j : Jac (ZMod c.P)} : Reps j (0 : Pt c (-3)) ↔ j.z = 0 := Iff.rfl

theorem reps_neg {j : Jac (ZMod c.P)} {Q : Pt c (-3)} (h : Reps j Q) :
    Reps ⟨j.x, -j.y, j.z⟩ (-Q) := by
  cases Q with
  | zero => exact h
  | some x y hn =>
    obtain ⟨h1, h2, h3⟩ := h
    rw [Affine.Point.neg_some]
    refine ⟨h1, h2, ?_⟩
    change -j.y = (Spec.W c (-3)).negY x y * j.z ^ 3
    rw [h3]
    simp only [Affine.negY, Spec.W]
    ring

theorem reps_ne {j : Jac (ZMod c.P)} {Q : Pt c (-3)} (h : Reps j Q) : j.z ≠ 0 ↔ Q ≠ 0 := by
  cases Q with
  | zero =>
    constructor
    · intro h'; exact absurd h h'
    · intro h'; exact absurd rfl h'
  | some x y hn =>
    constructor
    · intro _ h'; cases h'
    · intro _; exact h.1

/-- The sum of two points with different x, by the slope. -/
theorem add_chord {x₁ y₁ x₂ y₂ : ZMod c.P} (h₁ : (Spec.W c (-3)).Nonsingular x₁ y₁)
    (h₂ : (Spec.W c (-3)).Nonsingular x₂ y₂) (hx : x₁ ≠ x₂) {j : Jac (ZMod c.P)}
    (H : ∀ L : ZMod c.P, y₂ = y₁ + L * (x₂ - x₁) → j.z ≠ 0 ∧ j.x = (L ^ 2 - x₁ - x₂) * j.z ^ 2 ∧
      j.y = (L * (x₁ - (L ^ 2 - x₁ - x₂)) - y₁) * j.z ^ 3) :
    Reps j (Affine.Point.some x₁ y₁ h₁ + .some x₂ y₂ h₂) := by
  rw [Affine.Point.add_of_X_ne hx]
  have hs : x₁ - x₂ ≠ 0 := sub_ne_zero.2 hx
  obtain ⟨z, hX, hY⟩ := H ((Spec.W c (-3)).slope x₁ x₂ y₁ y₂) (by
    rw [Affine.slope_of_X_ne hx]
    field_simp
    ring)
  refine ⟨z, ?_, ?_⟩
  · rw [hX]; simp [Affine.addX, Spec.W]
  · rw [hY]; simp [Affine.addY, Affine.negAddY, Affine.negY, Affine.addX, Spec.W]; left; ring

theorem add_tangent (hok : Verif.Affine.Ok c (-3))
    (hroot : ∀ x : ZMod c.P, x ^ 3 + ((-3 : ℤ) : ZMod c.P) * x + c.B ≠ 0) {x y : ZMod c.P}
    (h : (Spec.W c (-3)).Nonsingular x y) {j : Jac (ZMod c.P)}
    (H : ∀ L : ZMod c.P, 3 * x ^ 2 - 3 = 2 * y * L → y ≠ 0 → j.z ≠ 0 ∧
      j.x = (L ^ 2 - x - x) * j.z ^ 2 ∧ j.y = (L * (x - (L ^ 2 - x - x)) - y) * j.z ^ 3) :
    Reps j (Affine.Point.some x y h + .some x y h) := by
  have e := (Verif.Affine.equation_iff x y).1 h.1
  have hy : y ≠ 0 := by
    rintro rfl
    exact hroot x (by linear_combination -e)
  have h2 := Verif.Affine.two_ne_zero' hok
  have hn : y ≠ (Spec.W c (-3)).negY x y := by
    simp only [Affine.negY, Spec.W, zero_mul, sub_zero]
    intro h'
    have : 2 * y = 0 := by linear_combination h'
    exact hy ((mul_eq_zero.1 this).resolve_left h2)
  rw [Affine.Point.add_self_of_Y_ne hn]
  have hne : y - (Spec.W c (-3)).negY x y ≠ 0 := sub_ne_zero.2 hn
  obtain ⟨z, hX, hY⟩ := H ((Spec.W c (-3)).slope x x y y) (by
    rw [Affine.slope_of_Y_ne rfl hn]
    rw [mul_div_assoc', eq_div_iff hne]
    simp only [Affine.negY, Spec.W]
    push_cast
    ring) hy
  refine ⟨z, ?_, ?_⟩
  · rw [hX]; simp [Affine.addX, Spec.W]
  · rw [hY]; simp [Affine.addY, Affine.negAddY, Affine.negY, Affine.addX, Spec.W]; left; ring

/-- Points of the curve with the same x are equal or opposite. -/
theorem same_x {x y₁ y₂ : ZMod c.P} (h₁ : (Spec.W c (-3)).Nonsingular x y₁)
    (h₂ : (Spec.W c (-3)).Nonsingular x y₂)
    (hne : (Affine.Point.some x y₁ h₁ : Pt c (-3)) ≠ .some x y₂ h₂) :
    (Affine.Point.some x y₁ h₁ : Pt c (-3)) + .some x y₂ h₂ = 0 := by
  have e₁ := (Verif.Affine.equation_iff x y₁).1 h₁.1
  have e₂ := (Verif.Affine.equation_iff x y₂).1 h₂.1
  have : (y₁ - y₂) * (y₁ + y₂) = 0 := by linear_combination e₁ - e₂
  rcases mul_eq_zero.1 this with h' | h'
  · have : y₁ = y₂ := by linear_combination h'
    subst this
    exact absurd rfl hne
  · have : y₁ = -y₂ := by linear_combination h'
    exact Affine.Point.add_of_Y_eq rfl (by simp [Affine.negY, Spec.W, this])

/-- p256_sm2PointAddAsm for two different points other than infinity. -/
theorem reps_add {a b : Jac (ZMod c.P)} {P Q : Pt c (-3)} (ha : Reps a P) (hb : Reps b Q)
    (hP : P ≠ 0) (hQ : Q ≠ 0) (hPQ : P ≠ Q) : Reps (pointAdd a b) (P + Q) := by
  cases P with
  | zero => exact absurd rfl hP
  | some x₁ y₁ h₁ =>
    cases Q with
    | zero => exact absurd rfl hQ
    | some x₂ y₂ h₂ =>
      obtain ⟨z1, xa, ya⟩ := ha
      obtain ⟨z2, xb, yb⟩ := hb
      by_cases hx : x₁ = x₂
      · subst hx
        rw [same_x h₁ h₂ hPQ, reps_zero]
        simp only [pointAdd, f_mul, f_sub, f_sq, f_dbl]
        rw [xa, xb]
        ring
      · refine add_chord h₁ h₂ hx fun L hL => ?_
        have hd : x₂ - x₁ ≠ 0 := sub_ne_zero.2 (Ne.symm hx)
        simp only [pointAdd, f_mul, f_sub, f_sq, f_dbl]
        refine ⟨?_, ?_, ?_⟩
        · rw [xa, xb]
          have : a.z * b.z * (a.z * a.z * (x₂ * b.z ^ 2) - b.z * b.z * (x₁ * a.z ^ 2)) =
              (a.z * b.z) ^ 3 * (x₂ - x₁) := by ring
          rw [this]
          exact mul_ne_zero (pow_ne_zero _ (mul_ne_zero z1 z2)) hd
        · rw [xa, xb, ya, yb, hL]; ring
        · rw [xa, xb, ya, yb, hL]; ring

/-- p256_sm2PointAddAsm in the other cases: the result stands for infinity. -/
theorem reps_add_exc {a b : Jac (ZMod c.P)} {P Q : Pt c (-3)} (ha : Reps a P) (hb : Reps b Q)
    (h : P = 0 ∨ Q = 0 ∨ P = Q) : Reps (pointAdd a b) (0 : Pt c (-3)) := by
  rw [reps_zero]
  simp only [pointAdd, f_mul, f_sub, f_sq, f_dbl]
  rcases h with rfl | rfl | rfl
  · rw [reps_zero] at ha
    rw [ha]; ring
  · rw [reps_zero] at hb
    rw [hb]; ring
  · cases P with
    | zero =>
      rw [show a.z = 0 from ha]; ring
    | some x y hn =>
      rw [ha.2.1, hb.2.1]; ring

/-- p256_sm2PointAddAffineAsm, the addition. -/
theorem reps_addAffine {a : Jac (ZMod c.P)} {P Q : Pt c (-3)} {x y : ZMod c.P} (ha : Reps a P)
    (hb : Reps ⟨x, y, 1⟩ Q) (hP : P ≠ 0) (hPQ : P ≠ Q) : Reps (addAffine a x y) (P + Q) := by
  cases P with
  | zero => exact absurd rfl hP
  | some x₁ y₁ h₁ =>
    cases Q with
    | zero => exact absurd hb one_ne_zero
    | some x₂ y₂ h₂ =>
      obtain ⟨z1, xa, ya⟩ := ha
      obtain ⟨_, xb, yb⟩ := hb
      dsimp only at xb yb
      rw [one_pow, mul_one] at xb yb
      subst xb yb
      by_cases hx : x₁ = x
      · subst hx
        rw [same_x h₁ h₂ hPQ, reps_zero]
        simp only [addAffine, f_mul, f_sub, f_sq, f_dbl]
        rw [xa]
        ring
      · refine add_chord h₁ h₂ hx fun L hL => ?_
        have hd : x - x₁ ≠ 0 := sub_ne_zero.2 (Ne.symm hx)
        simp only [addAffine, f_mul, f_sub, f_sq, f_dbl]
        refine ⟨?_, ?_, ?_⟩
        · rw [xa]
          have : (a.z * a.z * x - x₁ * a.z ^ 2) * a.z = a.z ^ 3 * (x - x₁) := by ring
          rw [this]
          exact mul_ne_zero (pow_ne_zero _ z1) hd
        · rw [xa, ya, hL]; ring
        · rw [xa, ya, hL]; ring

/-- p256_sm2PointAddAffineAsm in the other cases: the result stands for infinity. -/
theorem reps_addAffine_exc {a : Jac (ZMod c.P)} {P Q : Pt c (-3)} {x y : ZMod c.P} (ha : Reps a P)
    (hb : Reps ⟨x, y, 1⟩ Q) (h : P = 0 ∨ P = Q) : Reps (addAffine a x y) (0 : Pt c (-3)) := by
  rw [reps_zero]
  simp only [addAffine, f_mul, f_sub, f_sq, f_dbl]
  rcases h with rfl | rfl
  · rw [reps_zero] at ha
    rw [ha]; ring
  · cases P with
    | zero =>
      rw [show a.z = 0 from ha]; ring
    | some x₁ y₁ hn =>
      have hx := hb.2.1
      dsimp only at hx
      rw [one_pow, mul_one] at hx
      rw [ha.2.1, hx]; ring

/-- p256_sm2PointDoubleAsm, for all points. -/
theorem reps_double (hok : Verif.Affine.Ok c (-3))
    (hroot : ∀ x : ZMod c.P, x ^ 3 + ((-3 : ℤ) : ZMod c.P) * x + c.B ≠ 0)
    {a : Jac (ZMod c.P)} {P : Pt c (-3)} (ha : Reps a P) : Reps (pointDouble a) (P + P) := by
  cases P with
  | zero =>
    change Reps (pointDouble a) ((0 : Pt c (-3)) + 0)
    rw [add_zero, reps_zero]
    simp only [pointDouble, f_mul, f_sub, f_sq, f_dbl, f_add, f_half]
    rw [show a.z = 0 from ha]; ring
  | some x y h =>
    obtain ⟨z1, xa, ya⟩ := ha
    have h2 := Verif.Affine.two_ne_zero' hok
    refine add_tangent hok hroot h fun L hL hy => ?_
    simp only [pointDouble, f_mul, f_sub, f_sq, f_dbl, f_add, f_half]
    have hm : (a.x - a.z * a.z) * (a.z * a.z + a.x) +
        ((a.x - a.z * a.z) * (a.z * a.z + a.x) + (a.x - a.z * a.z) * (a.z * a.z + a.x)) =
        2 * y * L * a.z ^ 4 := by
      rw [← hL, xa]; ring
    rw [hm, xa, ya]
    refine ⟨?_, ?_, ?_⟩
    · have : a.z * (y * a.z ^ 3) + a.z * (y * a.z ^ 3) = 2 * y * a.z ^ 4 := by ring
      rw [this]
      exact mul_ne_zero (mul_ne_zero h2 hy) (pow_ne_zero _ z1)
    · ring
    · field_simp
      ring

end Verif.X64.P256
