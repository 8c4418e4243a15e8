import Mathlib.RingTheory.AdjoinRoot
import Mathlib.FieldTheory.Finite.Basic
import Mathlib.NumberTheory.LegendreSymbol.Basic
import Mathlib.Algebra.CharP.Frobenius
import Mathlib.Tactic.Ring
import Mathlib.Tactic.LinearCombination

/-! # Lucas sequences over a commutative ring, and square roots modulo a prime -/

namespace Verif.Lucas

variable {R : Type*} [CommRing R]

/-- `V_n(P, Q)`. -/
def V (P Q : R) : ℕ → R
  | 0 => 2
  | 1 => P
  | n + 2 => P * V P Q (n + 1) - Q * V P Q n

/-- `U_n(P, Q)`. -/
def U (P Q : R) : ℕ → R
  | 0 => 0
  | 1 => 1
  | n + 2 => P * U P Q (n + 1) - Q * U P Q n

theorem V_add (P Q : R) (n : ℕ) : (∀ m, V P Q (m + 2 * n) = V P Q (m + n) * V P Q n - Q ^ n * V P Q m)
    ∧ (∀ m, V P Q (m + 2 * (n + 1)) =
        V P Q (m + (n + 1)) * V P Q (n + 1) - Q ^ (n + 1) * V P Q m) := by
  induction n with
  | zero =>
    constructor
    · intro m; simp [V]; ring
    · intro m; show V P Q (m + 2) = V P Q (m + 1) * P - Q ^ 1 * V P Q m
      simp only [V]; ring
  | succ n ih =>
    refine ⟨ih.2, ?_⟩
    intro m
    have h1 := ih.2 (m + 1)
    have h2 := ih.1 (m + 2)
    have e1 : m + 1 + 2 * (n + 1) = m + 2 * n + 3 := by ring
    have e2 : m + 1 + (n + 1) = m + n + 2 := by ring
    have e3 : m + 2 + 2 * n = m + 2 * n + 2 := by ring
    have e4 : m + 2 + n = m + n + 2 := by ring
    have e5 : m + 2 * (n + 1 + 1) = m + 2 * n + 2 + 2 := by ring
    have e6 : m + (n + 1 + 1) = m + n + 2 := by ring
    rw [e1, e2] at h1
    rw [e3, e4] at h2
    rw [e5, e6]
    have hd : V P Q (m + 2 * n + 2 + 2) = P * V P Q (m + 2 * n + 3) - Q * V P Q (m + 2 * n + 2) := rfl
    have hm : V P Q (m + 2) = P * V P Q (m + 1) - Q * V P Q m := rfl
    have hn : V P Q (n + 1 + 1) = P * V P Q (n + 1) - Q * V P Q n := rfl
    rw [hd, h1, h2, hm, hn]
    ring

theorem U_add (P Q : R) (n : ℕ) : (∀ m, U P Q (m + 2 * n) = U P Q (m + n) * V P Q n - Q ^ n * U P Q m)
    ∧ (∀ m, U P Q (m + 2 * (n + 1)) =
        U P Q (m + (n + 1)) * V P Q (n + 1) - Q ^ (n + 1) * U P Q m) := by
  induction n with
  | zero =>
    constructor
    · intro m; simp [V]; ring
    · intro m; show U P Q (m + 2) = U P Q (m + 1) * P - Q ^ 1 * U P Q m
      simp only [U]; ring
  | succ n ih =>
    refine ⟨ih.2, ?_⟩
    intro m
    have h1 := ih.2 (m + 1)
    have h2 := ih.1 (m + 2)
    have e1 : m + 1 + 2 * (n + 1) = m + 2 * n + 3 := by ring
    have e2 : m + 1 + (n + 1) = m + n + 2 := by ring
    have e3 : m + 2 + 2 * n = m + 2 * n + 2 := by ring
    have e4 : m + 2 + n = m + n + 2 := by ring
    have e5 : m + 2 * (n + 1 + 1) = m + 2 * n + 2 + 2 := by ring
    have e6 : m + (n + 1 + 1) = m + n + 2 := by ring
    rw [e1, e2] at h1
    rw [e3, e4] at h2
    rw [e5, e6]
    have hd : U P Q (m + 2 * n + 2 + 2) = P * U P Q (m + 2 * n + 3) - Q * U P Q (m + 2 * n + 2) := rfl
    have hm : U P Q (m + 2) = P * U P Q (m + 1) - Q * U P Q m := rfl
    have hn : V P Q (n + 1 + 1) = P * V P Q (n + 1) - Q * V P Q n := rfl
    rw [hd, h1, h2, hm, hn]
    ring

theorem V_two_mul (P Q : R) (n : ℕ) : V P Q (2 * n) = V P Q n * V P Q n - 2 * Q ^ n := by
  have := (V_add P Q n).1 0
  rw [zero_add, zero_add] at this
  rw [this]; simp only [V]; ring

theorem V_two_mul_add_one (P Q : R) (n : ℕ) :
    V P Q (2 * n + 1) = V P Q (n + 1) * V P Q n - P * Q ^ n := by
  have := (V_add P Q n).1 1
  rw [add_comm 1 (2*n), add_comm 1 n] at this
  rw [this]; simp only [V]; ring

theorem U_two_mul (P Q : R) (n : ℕ) : U P Q (2 * n) = U P Q n * V P Q n := by
  have := (U_add P Q n).1 0
  rw [zero_add, zero_add] at this
  rw [this]; simp only [U]; ring

theorem U_two_mul_add_one (P Q : R) (n : ℕ) :
    U P Q (2 * n + 1) = U P Q (n + 1) * V P Q n - Q ^ n := by
  have := (U_add P Q n).1 1
  rw [add_comm 1 (2*n), add_comm 1 n] at this
  rw [this]; simp only [U]; ring

theorem V_map {S : Type*} [CommRing S] (f : R →+* S) (P Q : R) (n : ℕ) :
    f (V P Q n) = V (f P) (f Q) n := by
  have : f (V P Q n) = V (f P) (f Q) n ∧ f (V P Q (n+1)) = V (f P) (f Q) (n+1) := by
    induction n with
    | zero => exact ⟨map_ofNat f 2, rfl⟩
    | succ n ih =>
      refine ⟨ih.2, ?_⟩
      show f (P * V P Q (n + 1) - Q * V P Q n) = f P * V (f P) (f Q) (n+1) - f Q * V (f P) (f Q) n
      rw [map_sub, map_mul, map_mul, ih.1, ih.2]
  exact this.1

theorem V_eq_pow (α β : R) (n : ℕ) : V (α + β) (α * β) n = α ^ n + β ^ n := by
  have : V (α + β) (α * β) n = α ^ n + β ^ n ∧
      V (α + β) (α * β) (n+1) = α ^ (n+1) + β ^ (n+1) := by
    induction n with
    | zero => exact ⟨by simp [V]; norm_num, by simp [V]⟩
    | succ n ih =>
      refine ⟨ih.2, ?_⟩
      show (α + β) * V (α + β) (α * β) (n + 1) - (α * β) * V (α + β) (α * β) n = _
      rw [ih.1, ih.2]; ring
  exact this.1

open Polynomial in
/-- If the discriminant is a non-residue, `V_{p+1} = 2 Q` modulo `p`. -/
theorem V_succ_prime (p : ℕ) [hp : Fact p.Prime] (hodd : p % 2 = 1) (P Q : ZMod p)
    (hD : (P ^ 2 - 4 * Q) ^ ((p - 1) / 2) = -1) : V P Q (p + 1) = 2 * Q := by
  let f : (ZMod p)[X] := X ^ 2 - C (P ^ 2 - 4 * Q)
  have hfdeg : f.degree = 2 := degree_X_pow_sub_C (by norm_num) _
  have hfne : f.degree ≠ 0 := by rw [hfdeg]; norm_num
  have : Nontrivial (AdjoinRoot f) := AdjoinRoot.nontrivial f hfne
  let ι := algebraMap (ZMod p) (AdjoinRoot f)
  have hinj : Function.Injective ι := (algebraMap (ZMod p) (AdjoinRoot f)).injective
  have : CharP (AdjoinRoot f) p := charP_of_injective_algebraMap hinj p
  let δ : AdjoinRoot f := AdjoinRoot.root f
  have hδ : δ ^ 2 = ι (P ^ 2 - 4 * Q) := by
    have := AdjoinRoot.eval₂_root f
    simp only [f, eval₂_sub, eval₂_X_pow, eval₂_C] at this
    exact sub_eq_zero.1 this
  have hδp : δ ^ p = -δ := by
    have hpe : p = 2 * ((p - 1) / 2) + 1 := by omega
    have e : δ ^ p = δ ^ (2 * ((p - 1) / 2) + 1) := congrArg (δ ^ ·) hpe
    rw [e, pow_succ, pow_mul, hδ, ← map_pow, hD, map_neg, map_one]; ring
  have h2 : (2 : ZMod p) ≠ 0 := by
    intro h
    have h' : ((2 : ℕ) : ZMod p) = 0 := by exact_mod_cast h
    rw [ZMod.natCast_eq_zero_iff] at h'
    have := Nat.le_of_dvd (by norm_num) h'
    have := hp.out.two_le
    have : p = 2 := by omega
    omega
  let i2 : ZMod p := 2⁻¹
  have hi2 : i2 * 2 = 1 := inv_mul_cancel₀ h2
  let α : AdjoinRoot f := ι i2 * (ι P + δ)
  let β : AdjoinRoot f := ι i2 * (ι P - δ)
  have hi2' : ι i2 * 2 = 1 := by
    have : ι (i2 * 2) = ι 1 := by rw [hi2]
    rw [map_mul, map_one, map_ofNat] at this; exact this
  have hsum : α + β = ι P := by
    simp only [α, β]; linear_combination (ι P) * hi2'
  have hprod : α * β = ι Q := by
    have e : α * β = (ι i2 * ι i2) * (ι P ^ 2 - δ ^ 2) := by simp only [α, β]; ring
    rw [e, hδ, map_sub, map_mul, map_pow, map_ofNat]
    linear_combination (ι Q * (ι i2 * 2 + 1)) * hi2'
  have hι : ∀ a : ZMod p, ι a ^ p = ι a := by
    intro a; rw [← map_pow, ZMod.pow_card]
  have hαp : α ^ p = β := by
    simp only [α, β]
    rw [mul_pow, add_pow_char, hι, hι, hδp]; ring
  have hβp : β ^ p = α := by
    simp only [α, β]
    rw [mul_pow, sub_pow_char, hι, hι, hδp]; ring
  apply hinj
  rw [V_map, map_mul, map_ofNat]
  have hV := V_eq_pow α β (p + 1)
  rw [hsum, hprod] at hV
  show V (ι P) (ι Q) (p + 1) = 2 * ι Q
  rw [hV, pow_succ, pow_succ, hαp, hβp, mul_comm β α, hprod]; ring

/-- The square-root step for `p ≡ 1 (mod 4)`. -/
theorem V_half_sq (p : ℕ) [hp : Fact p.Prime] (hodd : p % 2 = 1) (P Q : ZMod p)
    (hD : (P ^ 2 - 4 * Q) ^ ((p - 1) / 2) = -1) (hQ : Q ^ ((p - 1) / 2) = 1) (k : ℕ)
    (hk : 2 * k = p + 1) : V P Q k * V P Q k = 4 * Q := by
  have h1 := V_two_mul P Q k
  rw [hk, V_succ_prime p hodd P Q hD] at h1
  have h2 : Q ^ k = Q := by
    have : k = (p - 1) / 2 + 1 := by omega
    rw [this, pow_succ, hQ, one_mul]
  rw [h2] at h1
  linear_combination -h1

end Verif.Lucas
