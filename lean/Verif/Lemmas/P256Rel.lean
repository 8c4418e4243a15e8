/-
The generic point formulas at three types at once: the numbers of the program, the numbers of exact
runs, and the field.  A number `v` stands for the field element `x` with `v = x * 2^256`.
-/
import Verif.Spec.P256Mult
import Verif.Lemmas.P256Param
import Verif.Lemmas.P256Jac
import Verif.Lemmas.P256Sim
import Verif.Lemmas.P256Refine
import Verif.Lemmas.CurveFacts
import Verif.Base.Curves
import Mathlib.Algebra.Field.ZMod
import Mathlib.Tactic.LinearCombination
import Mathlib.Tactic.FieldSimp

namespace Verif.X64.P256

open Verif.Spec.P256 Verif.Curves

theorem nat_neg (a : ℕ) : Ops.neg a = negP a true := (rfl)

instance factP : Fact (sm2.P).Prime := ⟨sm2_prime⟩

/-- The field. -/
abbrev K := ZMod sm2.P

theorem P_zero : ((P : ℕ) : K) = 0 := ZMod.natCast_self sm2.P

theorem R_ne : ((2 : K) ^ 256) ≠ 0 := by
  intro h
  have h2 : (2 : K) = 0 := by simpa using h
  have : ((2 : ℕ) : K) = 0 := by exact_mod_cast h2
  rw [ZMod.natCast_eq_zero_iff] at this
  exact absurd this (by decide +kernel)

theorem two_ne : (2 : K) ≠ 0 := by
  intro h
  exact R_ne (by rw [h]; simp)

/-- `v` is the number of the program, `o` the same if it is exact, `x` the field element. -/
structure Rel (o : Option ℕ) (v : ℕ) (x : K) : Prop where
  lt : v < 2 ^ 256
  ok : ∀ w, o = some w → w = v ∧ ((v : ℕ) : K) = x * 2 ^ 256

theorem Rel.of {v : ℕ} {x : K} (h : v < 2 ^ 256) (e : ((v : ℕ) : K) = x * 2 ^ 256) :
    Rel (some v) v x := ⟨h, fun w hw => ⟨by cases hw; rfl, e⟩⟩

theorem mulP_cast (a b : ℕ) : ((mulP a b : ℕ) : K) * 2 ^ 256 = a * b := by
  have h : mulP a b * 2 ^ 256 ≡ a * b [MOD sm2.P] := redc_modEq Pk_spec
  have := (ZMod.natCast_eq_natCast_iff _ _ _).2 h
  exact_mod_cast this

theorem mulP_lt {a b : ℕ} (ha : a < 2 ^ 256) (hb : b < 2 ^ 256) : mulP a b < 2 ^ 256 :=
  redc_lt_two_pow (by decide +kernel) (Nat.mul_lt_mul'' ha hb)

/-- Both operands of a known result are known. -/
theorem both_some {f : ℕ → ℕ → Option ℕ} {a b : Option ℕ} {w : ℕ} (h : both f a b = some w) :
    ∃ a' b', a = some a' ∧ b = some b' ∧ f a' b' = some w := by
  unfold both at h
  split at h
  · exact ⟨_, _, rfl, rfl, h⟩
  · cases h

theorem one_some {f : ℕ → Option ℕ} {a : Option ℕ} {w : ℕ} (h : one' f a = some w) :
    ∃ a', a = some a' ∧ f a' = some w := by
  unfold one' at h
  split at h
  · exact ⟨_, rfl, h⟩
  · cases h

variable {o1 o2 : Option ℕ} {v1 v2 : ℕ} {x1 x2 : K}

theorem Rel.mul (h1 : Rel o1 v1 x1) (h2 : Rel o2 v2 x2) :
    Rel (mul o1 o2) (mul v1 v2) (mul x1 x2) := by
  rw [nat_mul]
  refine ⟨mulP_lt h1.lt h2.lt, fun w hw => ?_⟩
  obtain ⟨a, b, ha, hb, hf⟩ := both_some hw
  obtain ⟨rfl, e1⟩ := h1.ok a ha
  obtain ⟨rfl, e2⟩ := h2.ok b hb
  refine ⟨(Option.some.inj hf).symm, mul_right_cancel₀ R_ne ?_⟩
  change ((mulP a b : ℕ) : K) * 2 ^ 256 = x1 * x2 * 2 ^ 256 * 2 ^ 256
  rw [mulP_cast, e1, e2]
  ring

theorem Rel.add (h1 : Rel o1 v1 x1) (h2 : Rel o2 v2 x2) :
    Rel (add o1 o2) (add v1 v2) (add x1 x2) := by
  have hP : P < 2 ^ 256 := by decide +kernel
  rw [nat_add]
  refine ⟨?_, fun w hw => ?_⟩
  · unfold addP
    split
    · omega
    · exact Nat.mod_lt _ (by decide)
  · obtain ⟨a, b, ha, hb, hf⟩ := both_some hw
    obtain ⟨rfl, e1⟩ := h1.ok a ha
    obtain ⟨rfl, e2⟩ := h2.ok b hb
    split at hf
    · refine ⟨(Option.some.inj hf).symm, ?_⟩
      change ((addP a b : ℕ) : K) = (x1 + x2) * 2 ^ 256
      unfold addP
      split
      · push_cast; rw [e1, e2]; ring
      · rw [Nat.mod_eq_of_lt (by omega), Nat.cast_sub (by omega), P_zero]
        push_cast; rw [e1, e2]; ring
    · cases hf

theorem subP_lt {a b : ℕ} (ha : a < 2 ^ 256) (hb : b < 2 ^ 256) : subP a b < 2 ^ 256 := by
  have hP : P < 2 ^ 256 := by decide +kernel
  unfold subP
  split
  · split <;> omega
  · split <;> omega

theorem subP_cast {a b : ℕ} (h : b ≤ a + P) : ((subP a b : ℕ) : K) = a - b := by
  unfold subP
  split
  · split
    · rw [Nat.cast_add, P_zero, Nat.cast_sub (by omega)]; ring
    · rw [Nat.cast_sub (by omega)]
  · rw [Nat.cast_sub (by omega), Nat.cast_add, P_zero]; ring

theorem Rel.sub (h1 : Rel o1 v1 x1) (h2 : Rel o2 v2 x2) :
    Rel (sub o1 o2) (sub v1 v2) (sub x1 x2) := by
  rw [nat_sub]
  refine ⟨subP_lt h1.lt h2.lt, fun w hw => ?_⟩
  obtain ⟨a, b, ha, hb, hf⟩ := both_some hw
  obtain ⟨rfl, e1⟩ := h1.ok a ha
  obtain ⟨rfl, e2⟩ := h2.ok b hb
  split at hf
  · refine ⟨(Option.some.inj hf).symm, ?_⟩
    change ((subP a b : ℕ) : K) = (x1 - x2) * 2 ^ 256
    rw [subP_cast (by assumption), e1, e2]
    ring
  · cases hf

theorem Rel.half (h1 : Rel o1 v1 x1) : Rel (half o1) (half v1) (half x1) := by
  have hP : P < 2 ^ 256 := by decide +kernel
  have hodd : P % 2 = 1 := by decide +kernel
  have hlt := h1.lt
  rw [nat_half]
  refine ⟨?_, fun w hw => ?_⟩
  · unfold halfP
    split <;> omega
  · obtain ⟨a, ha, hf⟩ := one_some hw
    obtain ⟨rfl, e1⟩ := h1.ok a ha
    refine ⟨(Option.some.inj hf).symm, ?_⟩
    change ((halfP a : ℕ) : K) = x1 / 2 * 2 ^ 256
    have h2 : ((halfP a : ℕ) : K) * 2 = a := by
      have : halfP a * 2 = a ∨ halfP a * 2 = a + P := by
        unfold halfP
        split <;> omega
      rcases this with h | h
      · exact_mod_cast congrArg (Nat.cast : ℕ → K) h
      · have := congrArg (Nat.cast : ℕ → K) h
        push_cast at this
        rw [this, P_zero, add_zero]
    rw [e1] at h2
    have h3 := two_ne
    rw [eq_comm, div_mul_eq_mul_div, div_eq_iff h3, h2]

theorem Rel.neg (h1 : Rel o1 v1 x1) : Rel (neg o1) (neg v1) (neg x1) := by
  have hP : P < 2 ^ 256 := by decide +kernel
  rw [nat_neg]
  refine ⟨Nat.mod_lt _ (by decide), fun w hw => ?_⟩
  obtain ⟨a, ha, hf⟩ := one_some hw
  obtain ⟨rfl, e1⟩ := h1.ok a ha
  split at hf
  · refine ⟨(Option.some.inj hf).symm, ?_⟩
    change (((P + 2 ^ 256 - a) % 2 ^ 256 : ℕ) : K) = -x1 * 2 ^ 256
    rw [show P + 2 ^ 256 - a = P - a + 2 ^ 256 by omega, Nat.add_mod_right,
      Nat.mod_eq_of_lt (by omega), Nat.cast_sub (by assumption), P_zero, e1]
    ring
  · cases hf

theorem Rel.negA (h1 : Rel o1 v1 x1) : Rel (negA o1) (negA v1) (negA x1) := by
  have hP : P < 2 ^ 256 := by decide +kernel
  have hP2 : 2 ^ 256 ≤ P + P := by decide +kernel
  have hlt := h1.lt
  rw [nat_negA]
  refine ⟨subP_lt hP h1.lt, fun w hw => ?_⟩
  obtain ⟨a, ha, hf⟩ := one_some hw
  obtain ⟨rfl, e1⟩ := h1.ok a ha
  refine ⟨(Option.some.inj hf).symm, ?_⟩
  change ((subP P a : ℕ) : K) = -x1 * 2 ^ 256
  rw [subP_cast (by omega), P_zero, e1]
  ring

theorem Rel.zero : Rel (Ops.zero : Option ℕ) (Ops.zero : ℕ) (Ops.zero : K) :=
  Rel.of (by decide) (by change ((0 : ℕ) : K) = 0 * 2 ^ 256; push_cast; ring)

theorem oneM_cast : ((oneM : ℕ) : K) = 2 ^ 256 := by
  have h : oneM ≡ 2 ^ 256 [MOD sm2.P] := by decide +kernel
  have := (ZMod.natCast_eq_natCast_iff _ _ _).2 h
  exact_mod_cast this

theorem Rel.one : Rel (Ops.one : Option ℕ) (Ops.one : ℕ) (Ops.one : K) :=
  Rel.of (by decide +kernel) (by
    change ((oneM : ℕ) : K) = 1 * 2 ^ 256
    rw [oneM_cast, one_mul])

theorem rel_ops : OpsRel Rel where
  mul := Rel.mul
  sub := Rel.sub
  add := Rel.add
  half := Rel.half
  neg := Rel.neg
  negA := Rel.negA
  zero := Rel.zero
  one := Rel.one

/-! ### Inversion -/

/-- Exponents: the chain of p256Inverse with addition for multiplication. -/
structure Exp where
  e : ℕ

instance : Ops Exp where
  mul a b := ⟨a.e + b.e⟩
  sub a _ := a
  add a _ := a
  half a := a
  neg a := a
  negA a := a
  zero := ⟨0⟩
  one := ⟨0⟩

/-- `y` is the power of `x` with exponent `e`. -/
def IsPow (x : K) (e : Exp) (y : K) : Prop := y = x ^ e.e

theorem isPow_mul (x : K) : MulRel (fun (e : Exp) (_ : Exp) y => IsPow x e y) where
  mul := by
    intro e _ y f _ z h h'
    unfold IsPow at *
    rw [h, h']
    exact (pow_add x e.e f.e).symm

theorem invP_exp : (invP (⟨1⟩ : Exp)).e = sm2.P - 2 := by decide +kernel

theorem mul_eq (x y : K) : X64.P256.mul x y = x * y := rfl
theorem sq_pow (x : K) : X64.P256.sq x = x ^ 2 := (pow_two x).symm

theorem invP_pow (x : K) : invP x = x ^ (sm2.P - 2) := by
  have h : IsPow x ⟨1⟩ x := (pow_one x).symm
  have := (isPow_mul x).invP (b := ⟨1⟩) h
  unfold IsPow at this
  rw [this, invP_exp]

theorem invP_inv (x : K) : invP x = x⁻¹ := by
  rw [invP_pow]
  by_cases h : x = 0
  · subst h
    rw [inv_zero, zero_pow (by decide +kernel)]
  · refine eq_inv_of_mul_eq_one_left ?_
    rw [← pow_succ, show sm2.P - 2 + 1 = sm2.P - 1 by decide +kernel]
    exact ZMod.pow_card_sub_one_eq_one h

theorem toAffine_eq (j : Jac K) : toAffine j = (j.x * (j.z⁻¹) ^ 2, j.y * (j.z⁻¹) ^ 3) := by
  unfold toAffine
  simp only [invP_inv, mul_eq, sq_pow]
  rw [show j.z⁻¹ * j.z⁻¹ ^ 2 = j.z⁻¹ ^ 3 by ring]

end Verif.X64.P256
