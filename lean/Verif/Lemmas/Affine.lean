import Verif.Base.Affine
import Verif.Spec.Group
import Verif.Lemmas.EC
import Mathlib.GroupTheory.Perm.Cycle.Type
import Mathlib.SetTheory.Cardinal.Finite
/-!
# The affine arithmetic computes in the curve group
-/
namespace Verif.Affine
open Verif.Spec WeierstrassCurve

variable {c : Curve} {a : Int} [hp : Fact c.P.Prime]

/-- Conditions on the curve: odd characteristic, non-zero discriminant, `(0, 0)` not a point. -/
structure Ok (c : Curve) (a : Int) : Prop where
  odd : c.P % 2 = 1
  disc : ((4 * a ^ 3 + 27 * (c.B : Int) ^ 2) % c.P) ≠ 0
  b_ne : c.B % c.P ≠ 0

theorem two_ne_zero' (h : Ok c a) : (2 : ZMod c.P) ≠ 0 := by
  intro h2
  have : ((2 : ℕ) : ZMod c.P) = 0 := by exact_mod_cast h2
  rw [ZMod.natCast_eq_zero_iff] at this
  have h3 := Nat.le_of_dvd (by omega) this
  have h4 := hp.out.two_le
  have := h.odd
  omega

theorem equation_iff (x y : ZMod c.P) :
    (W c a).Equation x y ↔ y ^ 2 = x ^ 3 + a * x + c.B := by
  rw [WeierstrassCurve.Affine.equation_iff]
  simp [W]

theorem nonsingular_of (h : Ok c a) {x y : ZMod c.P} (he : y ^ 2 = x ^ 3 + a * x + c.B) :
    (W c a).Nonsingular x y := by
  rw [Affine.nonsingular_iff]
  refine ⟨(equation_iff x y).2 he, ?_⟩
  by_contra hc
  push Not at hc
  obtain ⟨h1, h2⟩ := hc
  simp only [W, zero_mul, mul_zero, add_zero, sub_zero] at h1 h2
  have h2' := two_ne_zero' h
  have hy : y = 0 := by
    have : 2 * y = 0 := by linear_combination h2
    exact (mul_eq_zero.1 this).resolve_left h2'
  apply h.disc
  have hd : (((4 * a ^ 3 + 27 * (c.B : Int) ^ 2) : Int) : ZMod c.P) = 0 := by
    push_cast
    subst hy
    have e1 : (a : ZMod c.P) = -(3 * x ^ 2) := by linear_combination -h1
    have e2 : (c.B : ZMod c.P) = 2 * x ^ 3 := by
      have : x ^ 3 + a * x + c.B = 0 := by rw [← he]; ring
      rw [e1] at this
      linear_combination this
    rw [e1, e2]; ring
  rwa [ZMod.intCast_zmod_eq_zero_iff_dvd, Int.dvd_iff_emod_eq_zero] at hd

theorem xy_some {x y : ZMod c.P} (hn : (W c a).Nonsingular x y) :
    xy (a := a) (.some x y hn) = (x.val, y.val) := rfl

theorem val_lt (x : ZMod c.P) : x.val < c.P := ZMod.val_lt x

/-- Affine points are not represented by `(0, 0)`. -/
theorem xy_some_ne (h : Ok c a) {x y : ZMod c.P} (hn : (W c a).Nonsingular x y) :
    xy (a := a) (.some x y hn) ≠ (0, 0) := by
  intro he
  simp only [xy, Prod.mk.injEq, ZMod.val_eq_zero] at he
  have := (equation_iff x y).1 hn.1
  rw [he.1, he.2] at this
  apply h.b_ne
  have hb : ((c.B : ℕ) : ZMod c.P) = 0 := by
    linear_combination -this
  rwa [ZMod.natCast_eq_zero_iff, Nat.dvd_iff_mod_eq_zero] at hb

theorem xy_inj (h : Ok c a) : Function.Injective (xy : Pt c a → Nat × Nat) := by
  intro P Q hPQ
  cases P with
  | zero =>
    cases Q with
    | zero => rfl
    | some x y hn => exact absurd hPQ.symm (xy_some_ne h hn)
  | some x y hn =>
    cases Q with
    | zero => exact absurd hPQ (xy_some_ne h hn)
    | some x' y' hn' =>
      simp only [xy, Prod.mk.injEq] at hPQ
      have e1 := ZMod.val_injective _ hPQ.1
      have e2 := ZMod.val_injective _ hPQ.2
      subst e1 e2
      rfl

theorem inv_cast (x : ℕ) (hx : ((x : ℕ) : ZMod c.P) ≠ 0) : ((inv c.P x : ℕ) : ZMod c.P) = (x : ZMod c.P)⁻¹ := by
  unfold inv
  rw [Primality.powMod_eq, ZMod.natCast_mod, Nat.cast_pow]
  have h2 := hp.out.two_le
  have := ZMod.pow_card_sub_one_eq_one hx
  rw [show c.P - 1 = (c.P - 2) + 1 by omega, pow_succ] at this
  exact eq_inv_of_mul_eq_one_left this

theorem sub_cast (x : ZMod c.P) : ((c.P - x.val : ℕ) : ZMod c.P) = -x := by
  rw [Nat.cast_sub (ZMod.val_lt x).le]
  simp

theorem addWith_eq (l : ℕ) (x₁ y₁ x₂ : ZMod c.P) (L : ZMod c.P) (hl : (l : ZMod c.P) = L) :
    addWith c.P l x₁.val y₁.val x₂.val =
      ((L ^ 2 - x₁ - x₂).val, (L * (x₁ - (L ^ 2 - x₁ - x₂)) - y₁).val) := by
  have hx : (l * l + (c.P - x₁.val) + (c.P - x₂.val)) % c.P = (L ^ 2 - x₁ - x₂).val := by
    rw [← ZMod.val_natCast]
    congr 1
    rw [Nat.cast_add, Nat.cast_add, sub_cast, sub_cast, Nat.cast_mul, hl]
    ring
  unfold addWith
  simp only [hx]
  congr 1
  rw [← ZMod.val_natCast]
  congr 1
  rw [Nat.cast_add, Nat.cast_mul, Nat.cast_add, sub_cast, sub_cast, hl, ZMod.natCast_val, ZMod.cast_id]
  ring

/-- The affine sum is the sum in the group. -/
theorem add_eq (h : Ok c a) (aN : ℕ) (ha : ((aN : ℕ) : ZMod c.P) = a) (P Q : Pt c a) :
    add c.P aN (xy P) (xy Q) = xy (P + Q) := by
  cases P with
  | zero =>
    rw [show (Affine.Point.zero : Pt c a) = 0 from rfl, zero_add]
    rfl
  | some x₁ y₁ h₁ =>
    unfold add
    rw [if_neg (xy_some_ne h h₁)]
    cases Q with
    | zero =>
      rw [show (Affine.Point.zero : Pt c a) = 0 from rfl, add_zero]
      rfl
    | some x₂ y₂ h₂ =>
      rw [if_neg (xy_some_ne h h₂)]
      have e₁ := (equation_iff x₁ y₁).1 h₁.1
      have e₂ := (equation_iff x₂ y₂).1 h₂.1
      rw [xy_some, xy_some]
      by_cases hx : x₁ = x₂
      · subst hx
        rw [if_pos rfl]
        by_cases hy : y₁ = -y₂
        · rw [if_pos]
          · rw [Affine.Point.add_of_Y_eq rfl (by simp [Affine.negY, W, hy])]
            rfl
          · rw [← Nat.dvd_iff_mod_eq_zero, ← ZMod.natCast_eq_zero_iff]
            simp [hy]
        · rw [if_neg]
          · have hyy : y₁ = y₂ := by
              have : (y₁ - y₂) * (y₁ + y₂) = 0 := by linear_combination e₁ - e₂
              rcases mul_eq_zero.1 this with h' | h'
              · linear_combination h'
              · exact absurd (by linear_combination h') hy
            subst hyy
            have h2 := two_ne_zero' h
            have hy0 : y₁ ≠ 0 := by
              rintro rfl; exact hy (by simp)
            have hn : y₁ ≠ (W c a).negY x₁ y₁ := by
              simpa [Affine.negY, W] using hy
            rw [Affine.Point.add_self_of_Y_ne hn]
            rw [xy_some]
            rw [addWith_eq _ x₁ y₁ x₁ ((W c a).slope x₁ x₁ y₁ y₁)]
            · congr 1
              · congr 1; simp [Affine.addX, W]
              · congr 1; simp [Affine.addY, Affine.negAddY, Affine.negY, Affine.addX, W]; ring
            · rw [ZMod.natCast_mod, Nat.cast_mul, inv_cast, Affine.slope_of_Y_ne rfl hn]
              · have hne : y₁ - (W c a).negY x₁ y₁ ≠ 0 := sub_ne_zero.2 hn
                rw [eq_div_iff hne]
                simp only [Affine.negY, W, Nat.cast_add, Nat.cast_mul, ZMod.natCast_val, ZMod.cast_id', id_eq,
                  ha, Nat.cast_ofNat]
                field_simp
                ring
              · simp [h2, hy0]
          · rw [← Nat.dvd_iff_mod_eq_zero, ← ZMod.natCast_eq_zero_iff]
            simp only [Nat.cast_add, ZMod.natCast_val, ZMod.cast_id', id_eq]
            intro h'
            exact hy (by linear_combination h')
      · rw [if_neg (fun h' => hx (ZMod.val_injective _ h'))]
        rw [Affine.Point.add_of_X_ne hx]
        rw [xy_some]
        have hs : x₁ - x₂ ≠ 0 := sub_ne_zero.2 hx
        rw [addWith_eq _ x₁ y₁ x₂ ((W c a).slope x₁ x₂ y₁ y₂)]
        · congr 1
          · congr 1; simp [Affine.addX, W]
          · congr 1; simp [Affine.addY, Affine.negAddY, Affine.negY, Affine.addX, W]; ring
        · have hcast : ((x₁.val + (c.P - x₂.val) : ℕ) : ZMod c.P) = x₁ - x₂ := by
            rw [Nat.cast_add, sub_cast, ZMod.natCast_val, ZMod.cast_id]; ring
          rw [ZMod.natCast_mod, Nat.cast_mul, inv_cast _ (by rw [hcast]; exact hs), hcast,
            Affine.slope_of_X_ne hx, Nat.cast_add, sub_cast, ZMod.natCast_val, ZMod.cast_id, div_eq_mul_inv]
          ring

theorem smulAux_eq (h : Ok c a) (aN : ℕ) (ha : ((aN : ℕ) : ZMod c.P) = a) (fuel : ℕ) :
    ∀ (k : ℕ) (P A : Pt c a), k < 2 ^ fuel →
      smulAux c.P aN fuel k (xy P) (xy A) = xy (A + k • P) := by
  induction fuel with
  | zero =>
    intro k P A hk
    have : k = 0 := by simpa using hk
    subst this; simp [smulAux]
  | succ fuel ih =>
    intro k P A hk
    rw [smulAux]
    split
    · rename_i h0; subst h0; simp
    · rw [add_eq h aN ha]
      have e : (if k % 2 = 1 then add c.P aN (xy A) (xy P) else xy A)
          = xy (if k % 2 = 1 then A + P else A) := by
        split
        · rw [add_eq h aN ha]
        · rfl
      rw [e, ih _ _ _ (by rw [pow_succ] at hk; omega)]
      congr 1
      have hk2 : k = 2 * (k / 2) + k % 2 := by omega
      conv_rhs => rw [hk2, add_smul, mul_smul]
      rcases Nat.mod_two_eq_zero_or_one k with hm | hm
      · rw [hm]; simp [two_nsmul, smul_add]
      · rw [hm]; simp [two_nsmul, smul_add]; abel

/-- Affine scalar multiplication is scalar multiplication in the group. -/
theorem smul_eq (h : Ok c a) (aN : ℕ) (ha : ((aN : ℕ) : ZMod c.P) = a) (k : ℕ) (P : Pt c a) :
    smul c.P aN k (xy P) = xy (k • P) := by
  unfold smul
  have := smulAux_eq h aN ha (bitLen k) k P 0 (EC.lt_two_pow_bitLen k)
  rw [zero_add] at this
  exact this

/-! ## The number of points -/

/-- A point is determined by its abscissa and one bit. -/
def code : Pt c a → Option (ZMod c.P × Bool)
  | .zero => none
  | .some x y _ => some (x, decide (2 * y.val < c.P))

theorem code_inj (h : Ok c a) : Function.Injective (code : Pt c a → _) := by
  intro P Q hPQ
  cases P with
  | zero => cases Q with
    | zero => rfl
    | some x y hn => simp [code] at hPQ
  | some x y hn => cases Q with
    | zero => simp [code] at hPQ
    | some x' y' hn' =>
      simp only [code, Option.some.injEq, Prod.mk.injEq, decide_eq_decide] at hPQ
      obtain ⟨rfl, hb⟩ := hPQ
      have e₁ := (equation_iff x y).1 hn.1
      have e₂ := (equation_iff x y').1 hn'.1
      have : (y - y') * (y + y') = 0 := by linear_combination e₁ - e₂
      have hy : y = y' := by
        rcases mul_eq_zero.1 this with h' | h'
        · linear_combination h'
        · have hneg : y = -y' := by linear_combination h'
          by_cases h0 : y' = 0
          · rw [hneg, h0]; simp
          · exfalso
            have hv : y.val = c.P - y'.val := by
              rw [hneg, ZMod.neg_val, if_neg h0]
            have h1 := ZMod.val_lt y'
            have h3 := h.odd
            omega
      subst hy
      rfl

theorem finite_pt (h : Ok c a) : Finite (Pt c a) := Finite.of_injective _ (code_inj h)

theorem card_le (h : Ok c a) : Nat.card (Pt c a) ≤ 2 * c.P + 1 := by
  have := Nat.card_le_card_of_injective _ (code_inj h)
  refine this.trans ?_
  rw [Nat.card_eq_fintype_card, Fintype.card_option, Fintype.card_prod, ZMod.card, Fintype.card_bool]
  omega

/-- A point of order two has `y = 0`. -/
theorem no_two_torsion (h : Ok c a) (hroot : ∀ x : ZMod c.P, x ^ 3 + a * x + c.B ≠ 0) (P : Pt c a)
    (h2 : P + P = 0) : P = 0 := by
  cases P with
  | zero => rfl
  | some x y hn =>
    exfalso
    have hneg := eq_neg_of_add_eq_zero_left h2
    rw [Affine.Point.neg_some] at hneg
    simp only [Affine.Point.some.injEq, true_and] at hneg
    have hy : y = 0 := by
      have : 2 * y = 0 := by
        simp only [Affine.negY, W, zero_mul, sub_zero] at hneg
        linear_combination hneg
      exact (mul_eq_zero.1 this).resolve_left (two_ne_zero' h)
    have e := (equation_iff x y).1 hn.1
    rw [hy] at e
    exact hroot x (by linear_combination -e)

/-- If `N` is a prime with `2P + 1 < 3N`, some point is killed by `N`, and there is no point of order two,
the group has exactly `N` elements and is generated by that point. -/
theorem card_eq (h : Ok c a) (hroot : ∀ x : ZMod c.P, x ^ 3 + a * x + c.B ≠ 0) {N : ℕ} (hN : N.Prime)
    (hN2 : N ≠ 2) (hbound : 2 * c.P + 1 < 3 * N) (G : Pt c a) (hG : G ≠ 0) (hNG : N • G = 0) :
    Nat.card (Pt c a) = N := by
  haveI := finite_pt h
  have hord : addOrderOf G = N := by
    haveI : Fact N.Prime := ⟨hN⟩
    exact addOrderOf_eq_prime hNG hG
  have hdvd : N ∣ Nat.card (Pt c a) := hord ▸ addOrderOf_dvd_natCard G
  obtain ⟨q, hq⟩ := hdvd
  have hle := card_le h
  have hpos : 0 < Nat.card (Pt c a) := Nat.card_pos
  have hq3 : q < 3 := by
    by_contra hcon
    have : N * 3 ≤ N * q := Nat.mul_le_mul_left _ (by omega)
    omega
  interval_cases q
  · omega
  · omega
  · exfalso
    haveI : Fact (Nat.Prime 2) := ⟨Nat.prime_two⟩
    obtain ⟨P, hP⟩ := exists_prime_addOrderOf_dvd_card' (G := Pt c a) 2 (by rw [hq]; exact ⟨N, by ring⟩)
    have h2 : P + P = 0 := by
      rw [← two_nsmul, ← hP]; exact addOrderOf_nsmul_eq_zero P
    have := no_two_torsion h hroot P h2
    rw [this, addOrderOf_zero] at hP
    omega

/-! ## Points from coordinates -/

theorem onCurve_cast (x y : ℕ) :
    OnCurve c a x y ↔ ((y : ℕ) : ZMod c.P) ^ 2 = (x : ZMod c.P) ^ 3 + a * (x : ZMod c.P) + c.B := by
  unfold OnCurve
  rw [← Int.dvd_iff_emod_eq_zero, ← ZMod.intCast_zmod_eq_zero_iff_dvd]
  push_cast
  exact sub_eq_zero

/-- The point with given coordinates. -/
def ofXY (h : Ok c a) {x y : ℕ} (hon : OnCurve c a x y) : Pt c a :=
  .some (x : ZMod c.P) (y : ZMod c.P) (nonsingular_of h ((onCurve_cast x y).1 hon))

theorem xy_ofXY (h : Ok c a) {x y : ℕ} (hon : OnCurve c a x y) (hx : x < c.P) (hy : y < c.P) :
    xy (ofXY h hon) = (x, y) := by
  unfold ofXY
  rw [xy_some, ZMod.val_natCast_of_lt hx, ZMod.val_natCast_of_lt hy]

theorem ofXY_ne_zero (h : Ok c a) {x y : ℕ} (hon : OnCurve c a x y) : ofXY h hon ≠ 0 :=
  Affine.Point.some_ne_zero _

/-- Coordinates of a non-zero point are reduced and satisfy the curve equation. -/
theorem xy_onCurve (P : Pt c a) (hP : P ≠ 0) :
    OnCurve c a (xy P).1 (xy P).2 ∧ (xy P).1 < c.P ∧ (xy P).2 < c.P := by
  cases P with
  | zero => exact absurd rfl hP
  | some x y hn =>
    rw [xy_some]
    refine ⟨?_, ZMod.val_lt x, ZMod.val_lt y⟩
    rw [onCurve_cast]
    simp only [ZMod.natCast_val, ZMod.cast_id', id_eq]
    exact (equation_iff x y).1 hn.1

theorem xy_zero : xy (0 : Pt c a) = (0, 0) := rfl

theorem xy_eq_zero_iff (h : Ok c a) (P : Pt c a) : xy P = (0, 0) ↔ P = 0 :=
  ⟨fun e => xy_inj h (e.trans xy_zero.symm), fun e => by rw [e]; rfl⟩

/-- In a group of `N` elements `N` kills every point. -/
theorem order_kills {N : ℕ} (hc : Nat.card (Pt c a) = N) (P : Pt c a) : N • P = 0 := by
  rw [← hc]; exact card_nsmul_eq_zero'

theorem mod_smul {N : ℕ} (hc : Nat.card (Pt c a) = N) (P : Pt c a) (k : ℕ) : (k % N) • P = k • P := by
  conv_rhs => rw [← Nat.mod_add_div k N, add_smul, mul_comm, mul_smul, order_kills hc, smul_zero, add_zero]

/-- Two multiples of a non-zero point agree exactly when the scalars agree modulo the prime order. -/
theorem smul_eq_iff {N : ℕ} (hN : N.Prime) (hc : Nat.card (Pt c a) = N) (P : Pt c a) (hP : P ≠ 0) (k l : ℕ) :
    k • P = l • P ↔ k % N = l % N := by
  haveI : Fact N.Prime := ⟨hN⟩
  have hord : addOrderOf P = N := addOrderOf_eq_prime (order_kills hc P) hP
  constructor
  · intro h
    have := (nsmul_eq_nsmul_iff_modEq).1 h
    rw [hord] at this
    exact this
  · intro h
    rw [← mod_smul hc P k, h, mod_smul hc]

end Verif.Affine
