/-
From the equation a Montgomery routine establishes to the function `redc` of Model/P256Field.
-/
import Verif.Lemmas.Limbs
import Verif.Model.P256Field
import Mathlib.Tactic.Ring
import Mathlib.Tactic.NormNum

namespace Verif.X64.P256

/-- The number in the four words at address `a`, as an integer. -/
def rdZ (m : W → W) (a : W) : ℤ :=
  z (m (a + 0#64)) + B₁ * z (m (a + 8#64)) + B₂ * z (m (a + 16#64)) + B₃ * z (m (a + 24#64))

theorem rdZ_eq (m : W → W) (a : W) : rdZ m a = (rd4 m a : ℤ) := by
  unfold rdZ rd4 z
  push_cast
  rw [show a + 0#64 = a from by simp]

theorem four_lt (w0 w1 w2 w3 : W) :
    0 ≤ z w0 + B₁ * z w1 + B₂ * z w2 + B₃ * z w3 ∧
      z w0 + B₁ * z w1 + B₂ * z w2 + B₃ * z w3 < B₄ := by
  constructor
  · linarith [z_nonneg w0, z_nonneg w1, z_nonneg w2, z_nonneg w3]
  · linarith [z_lt w0, z_lt w1, z_lt w2, z_lt w3,
      show z w0 ≤ 18446744073709551615 from by have := z_lt w0; omega,
      show z w1 ≤ 18446744073709551615 from by have := z_lt w1; omega,
      show z w2 ≤ 18446744073709551615 from by have := z_lt w2; omega,
      show z w3 ≤ 18446744073709551615 from by have := z_lt w3; omega]

theorem rd4_lt (m : W → W) (a : W) : rd4 m a < 2 ^ 256 := by
  have h := (four_lt (m (a + 0#64)) (m (a + 8#64)) (m (a + 16#64)) (m (a + 24#64))).2
  have h2 := rdZ_eq m a
  unfold rdZ at h2
  rw [h2] at h
  have : (rd4 m a : ℤ) < ((2 ^ 256 : ℕ) : ℤ) := by
    refine h.trans_eq ?_
    norm_num
  exact_mod_cast this

/-- The number in four registers. -/
def val4 (w0 w1 w2 w3 : W) : ℕ :=
  w0.toNat + 2 ^ 64 * w1.toNat + 2 ^ 128 * w2.toNat + 2 ^ 192 * w3.toNat

theorem val4_cast (w0 w1 w2 w3 : W) :
    ((val4 w0 w1 w2 w3 : ℕ) : ℤ) = z w0 + B₁ * z w1 + B₂ * z w2 + B₃ * z w3 := by
  unfold val4 z
  push_cast
  norm_num

theorem val4_lt (w0 w1 w2 w3 : W) : val4 w0 w1 w2 w3 < 2 ^ 256 := by
  have h := (four_lt w0 w1 w2 w3).2
  rw [← val4_cast] at h
  have : (val4 w0 w1 w2 w3 : ℤ) < ((2 ^ 256 : ℕ) : ℤ) := by
    refine h.trans_eq ?_
    norm_num
  exact_mod_cast this

theorem val4_mul_lt (w0 w1 w2 w3 v0 v1 v2 v3 : W) :
    ((val4 w0 w1 w2 w3 * val4 v0 v1 v2 v3 : ℕ) : ℤ) < B₄ * B₄ := by
  have h : val4 w0 w1 w2 w3 * val4 v0 v1 v2 v3 < 2 ^ 256 * 2 ^ 256 :=
    Nat.mul_lt_mul'' (val4_lt _ _ _ _) (val4_lt _ _ _ _)
  have h2 : ((val4 w0 w1 w2 w3 * val4 v0 v1 v2 v3 : ℕ) : ℤ) < ((2 ^ 256 * 2 ^ 256 : ℕ) : ℤ) := by
    exact_mod_cast h
  refine h2.trans_eq ?_
  norm_num

/-- `redc` from the equation `2^256 T = t + M q`. -/
theorem redc_eq {q k c : ℕ} (hk : q * k + 1 = 2 ^ 256 * c) {t : ℕ} {T M : ℤ}
    (hT : B₄ * T = (t : ℤ) + M * (q : ℤ)) (h0 : 0 ≤ M) (h1 : M < B₄) :
    ((redc q k t : ℕ) : ℤ) = if T < (q : ℤ) then T else T - (q : ℤ) := by
  have hB : ((2 ^ 256 : ℕ) : ℤ) = B₄ := by norm_num
  have hkZ : (q : ℤ) * (k : ℤ) + 1 = B₄ * (c : ℤ) := by
    rw [← hB]; exact_mod_cast hk
  have hM : (((t * k % 2 ^ 256 : ℕ)) : ℤ) = M := by
    rw [Int.natCast_mod, hB]
    have : ((t * k : ℕ) : ℤ) = M + B₄ * (T * (k : ℤ) - M * (c : ℤ)) := by
      push_cast
      linear_combination (-(k : ℤ)) * hT - M * hkZ
    rw [this, Int.add_mul_emod_self_left]
    exact Int.emod_eq_of_lt h0 h1
  have hu : (((t + t * k % 2 ^ 256 * q) / 2 ^ 256 : ℕ) : ℤ) = T := by
    rw [Int.natCast_div, hB]
    push_cast at hM ⊢
    rw [hM, ← hT]
    exact Int.mul_ediv_cancel_left _ (by norm_num)
  unfold redc
  by_cases hlt : (t + t * k % 2 ^ 256 * q) / 2 ^ 256 < q
  · rw [if_pos hlt, if_pos (by rw [← hu]; exact_mod_cast hlt)]
    exact hu
  · rw [if_neg hlt, if_neg (by rw [← hu]; exact_mod_cast hlt), Int.natCast_sub (by omega), hu]

theorem Pk_spec : P * Pk + 1 = 2 ^ 256 * 115792089102516462125480396441826910452883803264411231995480180208556130172932 := by decide +kernel

theorem Nk_spec : N * Nk + 1 = 2 ^ 256 * 50307568877804588386309533398012773108667376576406692192023074665752686048746 := by decide +kernel

theorem bound_T {T t M q : ℤ} (hT : B₄ * T = t + M * q) (ht : t < B₄ * B₄) (h1 : M < B₄)
    (hq : 0 < q) : T < q + B₄ := by
  have : M * q ≤ B₄ * q := mul_le_mul_of_nonneg_right h1.le hq.le
  linarith

theorem mul_lt_sq (m : W → W) (a b : W) : ((rd4 m a * rd4 m b : ℕ) : ℤ) < B₄ * B₄ := by
  have h : rd4 m a * rd4 m b < 2 ^ 256 * 2 ^ 256 :=
    Nat.mul_lt_mul'' (rd4_lt m a) (rd4_lt m b)
  have h2 : ((rd4 m a * rd4 m b : ℕ) : ℤ) < ((2 ^ 256 * 2 ^ 256 : ℕ) : ℤ) := by exact_mod_cast h
  refine h2.trans_eq ?_
  norm_num

theorem cast_P : (P : ℤ) = pZ := rfl

theorem cast_N : (N : ℤ) = nZ := rfl

theorem montFinishP {t : ℕ} (ht : (t : ℤ) < B₄ * B₄) {m0 m1 m2 m3 u0 u1 u2 u3 top v0 v1 v2 v3 v4 : W}
    {b0 b1 b2 b3 b4 : Bool}
    (hT : B₄ * (z u0 + B₁ * z u1 + B₂ * z u2 + B₃ * z u3 + B₄ * z top) =
      (t : ℤ) + (z m0 + B₁ * z m1 + B₂ * z m2 + B₃ * z m3) * pZ)
    (f0 : z v0 - B₁ * bz b0 = z u0 - z 0xFFFFFFFFFFFFFFFF#64)
    (f1 : z v1 - B₁ * bz b1 = z u1 - z 0xFFFFFFFF00000000#64 - bz b0)
    (f2 : z v2 - B₁ * bz b2 = z u2 - z 0xFFFFFFFFFFFFFFFF#64 - bz b1)
    (f3 : z v3 - B₁ * bz b3 = z u3 - z 0xFFFFFFFEFFFFFFFF#64 - bz b2)
    (f4 : z v4 - B₁ * bz b4 = z top - 0 - bz b3) :
    z (if b4 = true then u0 else v0) + B₁ * z (if b4 = true then u1 else v1) +
      B₂ * z (if b4 = true then u2 else v2) + B₃ * z (if b4 = true then u3 else v3) =
      ((redc P Pk t : ℕ) : ℤ) := by
  have hm := four_lt m0 m1 m2 m3
  rw [redc_eq Pk_spec (by rw [cast_P]; exact hT) hm.1 hm.2, cast_P]
  refine condSub f0 f1 f2 f3 f4 rfl ?_ (by norm_num) (bound_T hT ht hm.2 (by norm_num))
  rw [z_max, z_const0, z_const1]
  norm_num

theorem montFinishN {t : ℕ} (ht : (t : ℤ) < B₄ * B₄) {m0 m1 m2 m3 u0 u1 u2 u3 top v0 v1 v2 v3 v4 : W}
    {b0 b1 b2 b3 b4 : Bool}
    (hT : B₄ * (z u0 + B₁ * z u1 + B₂ * z u2 + B₃ * z u3 + B₄ * z top) =
      (t : ℤ) + (z m0 + B₁ * z m1 + B₂ * z m2 + B₃ * z m3) * nZ)
    (f0 : z v0 - B₁ * bz b0 = z u0 - z 0x53BBF40939D54123#64)
    (f1 : z v1 - B₁ * bz b1 = z u1 - z 0x7203DF6B21C6052B#64 - bz b0)
    (f2 : z v2 - B₁ * bz b2 = z u2 - z 0xFFFFFFFFFFFFFFFF#64 - bz b1)
    (f3 : z v3 - B₁ * bz b3 = z u3 - z 0xFFFFFFFEFFFFFFFF#64 - bz b2)
    (f4 : z v4 - B₁ * bz b4 = z top - 0 - bz b3) :
    z (if b4 = true then u0 else v0) + B₁ * z (if b4 = true then u1 else v1) +
      B₂ * z (if b4 = true then u2 else v2) + B₃ * z (if b4 = true then u3 else v3) =
      ((redc N Nk t : ℕ) : ℤ) := by
  have hm := four_lt m0 m1 m2 m3
  rw [redc_eq Nk_spec (by rw [cast_N]; exact hT) hm.1 hm.2, cast_N]
  refine condSub f0 f1 f2 f3 f4 rfl ?_ (by norm_num) (bound_T hT ht hm.2 (by norm_num))
  rw [z_max, z_ord0, z_ord1, z_const1]
  norm_num

/-- The final subtraction of p256_sm2FromMont, which looks at four words only. -/
theorem montFinish4 {t : ℕ} (ht : (t : ℤ) < B₄) {m0 m1 m2 m3 u0 u1 u2 u3 v0 v1 v2 v3 : W}
    {b0 b1 b2 b3 : Bool}
    (hT : B₄ * (z u0 + B₁ * z u1 + B₂ * z u2 + B₃ * z u3) =
      (t : ℤ) + (z m0 + B₁ * z m1 + B₂ * z m2 + B₃ * z m3) * pZ)
    (f0 : z v0 - B₁ * bz b0 = z u0 - z 0xFFFFFFFFFFFFFFFF#64)
    (f1 : z v1 - B₁ * bz b1 = z u1 - z 0xFFFFFFFF00000000#64 - bz b0)
    (f2 : z v2 - B₁ * bz b2 = z u2 - z 0xFFFFFFFFFFFFFFFF#64 - bz b1)
    (f3 : z v3 - B₁ * bz b3 = z u3 - z 0xFFFFFFFEFFFFFFFF#64 - bz b2) :
    z (if b3 = true then u0 else v0) + B₁ * z (if b3 = true then u1 else v1) +
      B₂ * z (if b3 = true then u2 else v2) + B₃ * z (if b3 = true then u3 else v3) =
      ((redc P Pk t : ℕ) : ℤ) := by
  have hm := four_lt m0 m1 m2 m3
  rw [redc_eq Pk_spec (by rw [cast_P]; exact hT) hm.1 hm.2, cast_P]
  rw [z_max] at f0 f2
  rw [z_const0] at f1
  rw [z_const1] at f3
  have key : z v0 + B₁ * z v1 + B₂ * z v2 + B₃ * z v3 - B₄ * bz b3 =
      z u0 + B₁ * z u1 + B₂ * z u2 + B₃ * z u3 - pZ := by
    linear_combination f0 + B₁ * f1 + B₂ * f2 + B₃ * f3
  have hv := four_lt v0 v1 v2 v3
  cases b3 with
  | false =>
    simp only [bz_false, mul_zero, sub_zero, Bool.false_eq_true, if_false] at key ⊢
    rw [if_neg (by linarith only [key, hv.1])]
    exact key
  | true =>
    simp only [bz_true, if_true] at key ⊢
    rw [if_pos (by linarith only [key, hv.2])]

/-- `P` added back after a subtraction, as p256_sm2SubInternal and the negation in
p256_sm2PointAddAffineAsm choose it. -/
theorem condAdd {x y : ℕ} (hx : x < 2 ^ 256) (hy : y < 2 ^ 256)
    {u0 u1 u2 u3 v0 v1 v2 v3 a1 a2 : W} {b3 b4 c0 c1 c2 c3 c4 : Bool}
    (hu : z u0 + B₁ * z u1 + B₂ * z u2 + B₃ * z u3 - B₄ * bz b3 = (x : ℤ) - (y : ℤ))
    (f4 : z a1 - B₁ * bz b4 = 0 - 0 - bz b3)
    (e0 : z v0 + B₁ * bz c0 = z u0 + z 0xFFFFFFFFFFFFFFFF#64)
    (e1 : z v1 + B₁ * bz c1 = z u1 + z 0xFFFFFFFF00000000#64 + bz c0)
    (e2 : z v2 + B₁ * bz c2 = z u2 + z 0xFFFFFFFFFFFFFFFF#64 + bz c1)
    (e3 : z v3 + B₁ * bz c3 = z u3 + z 0xFFFFFFFEFFFFFFFF#64 + bz c2)
    (e4 : z a2 + B₁ * bz c4 = z a1 + 0 + bz c3) :
    z (if decide (a2 = 0) = true then v0 else u0) +
      B₁ * z (if decide (a2 = 0) = true then v1 else u1) +
      B₂ * z (if decide (a2 = 0) = true then v2 else u2) +
      B₃ * z (if decide (a2 = 0) = true then v3 else u3) = ((subP x y : ℕ) : ℤ) := by
  rw [z_max] at e0 e2
  rw [z_const0] at e1
  rw [z_const1] at e3
  have key : z v0 + B₁ * z v1 + B₂ * z v2 + B₃ * z v3 + B₄ * bz c3 =
      z u0 + B₁ * z u1 + B₂ * z u2 + B₃ * z u3 + pZ := by
    linear_combination e0 + B₁ * e1 + B₂ * e2 + B₃ * e3
  have hv := four_lt v0 v1 v2 v3
  have hu2 := four_lt u0 u1 u2 u3
  have ha2 : a2 = 0 ↔ bz b3 = bz c3 := by
    have h1 := z_lt a1; have h1' := z_nonneg a1
    have h2 := z_lt a2; have h2' := z_nonneg a2
    have g3 := bz_cases b3; have g4 := bz_cases b4; have g5 := bz_cases c3; have g6 := bz_cases c4
    have hz : a2 = 0 ↔ z a2 = 0 := by
      constructor
      · intro h; rw [h]; rfl
      · intro h; exact z_inj h
    rw [hz]
    clear hu e0 e1 e2 e3 key hv hu2
    omega
  have hB : ((2 ^ 256 : ℕ) : ℤ) = B₄ := by norm_num
  clear e0 e1 e2 e3 e4 f4
  by_cases h : a2 = 0
  · have hbc := ha2.mp h
    simp only [h, decide_true, if_true]
    generalize z v0 + B₁ * z v1 + B₂ * z v2 + B₃ * z v3 = V at *
    generalize z u0 + B₁ * z u1 + B₂ * z u2 + B₃ * z u3 = U at *
    have hV : V = (x : ℤ) - (y : ℤ) + pZ := by rw [← hbc] at key; linarith only [key, hu]
    unfold subP
    rcases bz_cases b3 with hb | hb <;> rw [hb] at hu hbc <;> rw [← hbc] at key
    · have h1 : y ≤ x := by omega
      have h2 : x - y + P < 2 ^ 256 := by unfold P; omega
      rw [if_pos h1, if_pos h2, hV]
      unfold P
      omega
    · have h1 : ¬ y ≤ x := by omega
      have h2 : y ≤ x + P := by unfold P; omega
      rw [if_neg h1, if_pos h2, hV]
      unfold P
      omega
  · have hbc : bz b3 ≠ bz c3 := fun hh => h (ha2.mpr hh)
    simp only [h, decide_false, Bool.false_eq_true, if_false]
    generalize z v0 + B₁ * z v1 + B₂ * z v2 + B₃ * z v3 = V at *
    generalize z u0 + B₁ * z u1 + B₂ * z u2 + B₃ * z u3 = U at *
    unfold subP
    have hc := bz_cases c3
    rcases bz_cases b3 with hb | hb <;> rw [hb] at hu hbc
    · have hc1 : bz c3 = 1 := by omega
      rw [hc1] at key
      have h1 : y ≤ x := by omega
      have h2 : ¬ x - y + P < 2 ^ 256 := by unfold P; omega
      rw [if_pos h1, if_neg h2]
      omega
    · have hc1 : bz c3 = 0 := by omega
      rw [hc1] at key
      have h1 : ¬ y ≤ x := by omega
      have h2 : ¬ y ≤ x + P := by unfold P; omega
      rw [if_neg h1, if_neg h2]
      omega

end Verif.X64.P256
