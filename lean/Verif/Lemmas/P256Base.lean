/-
The table of multiples of the base point and p256BaseMult over the field.
-/
import Verif.Lemmas.P256Group

namespace Verif.X64.P256

open Verif.Spec WeierstrassCurve

variable {c : Curve} [Fact c.P.Prime]

theorem toAffine_of_inv (hi : ∀ z : ZMod c.P, invP z = z⁻¹) (j : Jac (ZMod c.P)) :
    toAffine j = (j.x * (j.z⁻¹) ^ 2, j.y * (j.z⁻¹) ^ 3) := by
  unfold toAffine
  simp only [hi, f_mul, f_sq]
  rw [Prod.mk.injEq]
  constructor <;> ring

theorem norm_reps (hi : ∀ z : ZMod c.P, invP z = z⁻¹) {j : Jac (ZMod c.P)} {Q : Pt c (-3)}
    (h : Reps j Q) (hQ : Q ≠ 0) : Reps (norm j) Q := by
  cases Q with
  | zero => exact absurd rfl hQ
  | some x y hn =>
    obtain ⟨hz, hx, hy⟩ := h
    unfold norm
    rw [toAffine_of_inv hi]
    refine ⟨one_ne_zero, ?_, ?_⟩
    · change j.x * (j.z⁻¹) ^ 2 = x * (1 : ZMod c.P) ^ 2
      rw [hx]; field_simp
    · change j.y * (j.z⁻¹) ^ 3 = y * (1 : ZMod c.P) ^ 3
      rw [hy]; field_simp

omit [Fact c.P.Prime] in
theorem not_dvd_pow (hc : Amd64Curve c) {s : ℤ} (h0 : s ≠ 0) (h1 : -100 < s) (h2 : s < 100)
    (n : ℕ) : ¬ (c.N : ℤ) ∣ s * 2 ^ n := by
  have hp : Prime (c.N : ℤ) := Nat.prime_iff_prime_int.1 hc.order_prime
  intro h
  rcases hp.dvd_or_dvd h with h | h
  · exact not_dvd_small hc h0 (small_abs h1 h2) h
  · exact not_dvd_small hc (by decide) (small_abs (by decide) (by decide)) (hp.dvd_of_dvd_pow h)

theorem repeat_reps (hc : Amd64Curve c) {P : Pt c (-3)} {a : Jac (ZMod c.P)} {s : ℤ}
    (h : Reps a (s • P)) (n : ℕ) : Reps (Nat.repeat pointDouble n a) ((s * 2 ^ n) • P) := by
  induction n with
  | zero => rwa [pow_zero, mul_one]
  | succ n ih =>
    have := reps_dbl hc ih
    rwa [show 2 * (s * 2 ^ n) = s * 2 ^ (n + 1) by ring] at this

theorem tableCol_reps (hc : Amd64Curve c) (hi : ∀ z : ZMod c.P, invP z = z⁻¹) {P : Pt c (-3)}
    (hP : P ≠ 0) {a : Jac (ZMod c.P)} {s : ℤ} (h : Reps a (s • P)) (h0 : s ≠ 0) (h1 : -100 < s)
    (h2 : s < 100) (i : ℕ) : Reps (tableCol a i) ((s * 2 ^ (7 * i)) • P) := by
  have hne : ∀ n : ℕ, (s * 2 ^ n) • P ≠ 0 := fun n => by
    rw [Ne, zsmul_eq_zero hc hP]
    exact not_dvd_pow hc h0 h1 h2 n
  induction i with
  | zero =>
    have := norm_reps hi h (by have := hne 0; rwa [pow_zero, mul_one] at this)
    rwa [Nat.mul_zero, pow_zero, mul_one]
  | succ i ih =>
    have := repeat_reps hc ih 7
    rw [mul_assoc, ← pow_add, show 7 * i + 7 = 7 * (i + 1) by ring] at this
    exact norm_reps hi this (hne _)

theorem tableRow_reps (hc : Amd64Curve c) {P : Pt c (-3)} (hP : P ≠ 0) {a : Jac (ZMod c.P)}
    (h : Reps a P) : ∀ j < 64, Reps (tableRow a j) (((j : ℤ) + 1) • P)
  | 0, _ => by
    rw [Nat.cast_zero, zero_add, one_zsmul]
    exact h
  | 1, _ => by
    have h1 : Reps a ((1 : ℤ) • P) := by rwa [one_zsmul]
    exact reps_dbl hc h1
  | j + 2, hj => by
    have ih := tableRow_reps hc hP h (j + 1) (by omega)
    have h1 : Reps a ((1 : ℤ) • P) := by rwa [one_zsmul]
    refine reps_sum hc hP ih h1 ?_ ?_ ?_ <;>
      exact not_dvd_small hc (by omega) (small_abs (by omega) (by omega))

theorem tableCol_z (a : Jac (ZMod c.P)) (i : ℕ) : (tableCol a i).z = 1 := by
  cases i <;> rfl

/-- A table of the multiples p256BaseMult needs. -/
def BaseMultiples (G : Pt c (-3)) (t : ℕ → ℕ → ZMod c.P × ZMod c.P) : Prop :=
  ∀ i j, j < 64 → Reps ⟨(t i j).1, (t i j).2, 1⟩ ((((j : ℤ) + 1) * 2 ^ (7 * i)) • G)

theorem baseTable_reps (hc : Amd64Curve c) (hi : ∀ z : ZMod c.P, invP z = z⁻¹) {G : Pt c (-3)}
    (hG : G ≠ 0) {a : Jac (ZMod c.P)} (h : Reps a G) : BaseMultiples G (baseTable a) := by
  intro i j hj
  have := tableCol_reps hc hi hG (tableRow_reps hc hG h j hj) (by omega) (by omega) (by omega) i
  have hz := tableCol_z (tableRow a j) i
  unfold baseTable
  dsimp only
  rw [← hz]
  exact this

variable {G : Pt c (-3)} {t : ℕ → ℕ → ZMod c.P × ZMod c.P}

theorem selectBase_reps (ht : BaseMultiples G t) (i : ℕ) {d : W} (hd : d.toNat ≤ 64) (h0 : d ≠ 0) :
    Reps ⟨(selectBaseVal (t i) d).1, (selectBaseVal (t i) d).2, 1⟩
      (((d.toNat : ℤ) * 2 ^ (7 * i)) • G) := by
  have hm : d.toNat % 2 ^ 32 = d.toNat := Nat.mod_eq_of_lt (by omega)
  have h1 : d.toNat ≠ 0 := fun e => h0 (BitVec.eq_of_toNat_eq (by rw [e]; rfl))
  unfold selectBaseVal
  rw [hm, if_pos (by omega)]
  have := ht i (d.toNat - 1) (by omega)
  rwa [show (((d.toNat - 1 : ℕ) : ℤ) + 1) = d.toNat by omega] at this

theorem selectBase_zero (i : ℕ) : selectBaseVal (t i) 0 = (0, 0) := rfl

/-- A digit of p256BaseMult, with its sign. -/
theorem baseDigit_reps (ht : BaseMultiples G t) (i : ℕ) {d : W × W} (hd : d.1.toNat ≤ 64)
    (h0 : d.1 ≠ 0) :
    Reps ⟨(selectBaseVal (t i) d.1).1, if d.2 = 0 then (selectBaseVal (t i) d.1).2 else
      -(selectBaseVal (t i) d.1).2, 1⟩ ((digit d * 2 ^ (7 * i)) • G) := by
  have h := selectBase_reps ht i hd h0
  unfold digit
  split
  · exact h
  · rw [neg_mul, neg_zsmul]
    exact reps_neg h

/-- The state of p256BaseMult stands for the multiple `s`. -/
structure BaseInvariant (G : Pt c (-3)) (s : ℤ) (st : Jac (ZMod c.P) × W) : Prop where
  reps : st.2 ≠ 0 → Reps st.1 (s • G)
  zero : st.2 = 0 → st.1 = ⟨0, 0, 1⟩
  small : st.2.toNat < 2 ^ 7
  flag : st.2 = 0 ↔ s = 0

theorem low_abs (k n : ℕ) : |low k n| ≤ 2 ^ (7 * n + 6) := by
  unfold low
  have h1 : k % 2 ^ (7 * n + 6) < 2 ^ (7 * n + 6) := Nat.mod_lt _ (Nat.pow_pos (by decide))
  have h2 : k / 2 ^ (7 * n + 6) % 2 < 2 := Nat.mod_lt _ (by decide)
  have h3 : ((2 ^ (7 * n + 6) : ℕ) : ℤ) = 2 ^ (7 * n + 6) := by push_cast; rfl
  rw [← h3]
  generalize k / 2 ^ (7 * n + 6) % 2 = b at *
  generalize 2 ^ (7 * n + 6) = m at *
  generalize k % m = r at *
  have : b = 0 ∨ b = 1 := by omega
  rw [abs_le]
  rcases this with rfl | rfl
  · constructor <;> simp <;> omega
  · constructor <;> simp <;> omega

theorem big_of_ne {d m : ℤ} (hm : 0 < m) (hd : d ≠ 0) : m ≤ |d * m| := by
  rw [abs_mul, abs_of_pos hm]
  have : 1 ≤ |d| := Int.one_le_abs hd
  nlinarith

theorem neg_ite {F : Type} [Ops F] (b : Bool) (y : F) :
    (if b = true then negA y else y) = if b = false then y else negA y := by
  cases b <;> rfl

theorem baseStep_inv (hc : Amd64Curve c) (hG : G ≠ 0) (ht : BaseMultiples G t) {k n : ℕ}
    (hk : k < c.N) (hn : n < 36) {st : Jac (ZMod c.P) × W} (h : BaseInvariant G (low k n) st) :
    BaseInvariant G (low k (n + 1)) (baseStep t k st (n + 1)) := by
  have hk' : k < 2 ^ 256 := hk.trans hc.n_lt
  have hw := window7 hk' (i := 7 * (n + 1) - 1) (by omega)
  have hw' : (window k (7 * (n + 1) - 1) 0xff).toNat < 256 := by omega
  have hd := (booth7 hw').2
  have hl := low_step hk' hn
  have hs := low_abs k n
  have hs1 := low_abs k (n + 1)
  unfold baseStep
  dsimp only
  generalize hD : boothW7 (window k (7 * (n + 1) - 1) 0xff) = d at *
  have hz := digit_zero (d := d)
  have hab : -64 ≤ digit d ∧ digit d ≤ 64 := abs_le.1 (digit_abs hd)
  have hM : (2 : ℤ) ^ (7 * (n + 1)) = 2 * 2 ^ (7 * n + 6) := by ring
  have hMpos : (0 : ℤ) < 2 ^ (7 * n + 6) := by positivity
  have hbig : digit d ≠ 0 → 2 * 2 ^ (7 * n + 6) ≤ |digit d * 2 ^ (7 * (n + 1))| := fun h0 => by
    have := big_of_ne (m := 2 ^ (7 * (n + 1))) (by positivity) h0
    rwa [hM] at this ⊢
  have hflag : low k (n + 1) = 0 ↔ low k n = 0 ∧ digit d = 0 := by
    constructor
    · intro e
      rw [hl] at e
      by_cases h0 : digit d = 0
      · rw [h0, zero_mul, add_zero] at e
        exact ⟨e, h0⟩
      · have h1 := hbig h0
        rw [show digit d * 2 ^ (7 * (n + 1)) = -low k n by linarith, abs_neg] at h1
        linarith
    · rintro ⟨h1, h2⟩
      rw [hl, h1, h2, zero_mul, zero_add]
  have hm1 : st.2.toNat % 2 ^ 32 = 0 ↔ st.2 = 0 := mod32_zero (by have := h.small; omega)
  have hm2 : d.1.toNat % 2 ^ 32 = 0 ↔ d.1 = 0 := mod32_zero (by omega)
  have hneg : ∀ y : ZMod c.P, (if decide (d.2 ≠ 0) = true then negA y else y) =
      if d.2 = 0 then y else -y := fun y => by
    by_cases h0 : d.2 = 0
    · rw [if_neg (by simpa using h0), if_pos h0]
    · rw [if_pos (by simpa using h0), if_neg h0]; rfl
  refine ⟨?_, ?_, or_small h.small (by change d.1.toNat < _; omega), ?_⟩
  · intro hne
    dsimp only at hne ⊢
    unfold pointAddAffine
    dsimp only
    rw [hneg, if_congr hm1 rfl rfl, if_congr hm2 rfl rfl]
    split
    · rename_i h0
      have hd0 : d.1 ≠ 0 := fun e => hne (or_zero.2 ⟨h0, e⟩)
      rw [hl, h.flag.1 h0, zero_add]
      exact baseDigit_reps ht (n + 1) hd hd0
    · rename_i h0
      have hs0 : low k n ≠ 0 := fun e => h0 (h.flag.2 e)
      split
      · rename_i h1
        rw [hl, hz.2 h1, zero_mul, add_zero]
        exact h.reps h0
      · rename_i h1
        have hd0 : digit d ≠ 0 := fun e => h1 (hz.1 e)
        have hb := hbig hd0
        rw [hl, add_zsmul]
        refine reps_addAffine (h.reps h0) (baseDigit_reps ht (n + 1) hd h1) ?_ ?_
        · rw [Ne, zsmul_eq_zero hc hG]
          refine not_dvd_small hc hs0 (hs.trans_lt ?_)
          exact pow_lt_pow_right₀ (by norm_num) (by omega)
        · rw [Ne, zsmul_eq hc hG]
          have hne0 : low k n - digit d * 2 ^ (7 * (n + 1)) ≠ 0 := by
            intro e
            rw [show digit d * 2 ^ (7 * (n + 1)) = low k n by linarith] at hb
            linarith
          by_cases hn35 : n < 35
          · refine not_dvd_small hc hne0 ?_
            have h1 : |digit d * 2 ^ (7 * (n + 1))| ≤ 64 * 2 ^ (7 * (n + 1)) := by
              rw [abs_mul, abs_of_pos (show (0 : ℤ) < 2 ^ (7 * (n + 1)) by positivity)]
              exact mul_le_mul_of_nonneg_right (abs_le.2 hab) (by positivity)
            have h2 : (2 : ℤ) ^ (7 * n + 6) ≤ 2 ^ 244 := pow_le_pow_right₀ (by norm_num) (by omega)
            rw [hM] at h1
            have h3 := abs_sub (low k n) (digit d * 2 ^ (7 * (n + 1)))
            rw [hM] at h3 ⊢
            have h4 : (2 : ℤ) ^ 255 = 2 ^ 244 * 2048 := by norm_num
            rw [h4]
            linarith
          · have hn' : n = 35 := by omega
            subst hn'
            have hk36 := low_last hk'
            rw [hk36] at hl
            rintro ⟨q, hq⟩
            have hN1 : ((2 ^ 256 - 2 ^ 225 : ℕ) : ℤ) < c.N := by exact_mod_cast hc.n_gt'
            have hN2 : (c.N : ℤ) < ((2 ^ 256 : ℕ) : ℤ) := by exact_mod_cast hc.n_lt
            have hkN : (k : ℤ) < c.N := by exact_mod_cast hk
            have hk0 : (0 : ℤ) ≤ k := Int.natCast_nonneg _
            rw [abs_le] at hs
            norm_num at hN1 hN2 hs hl hq hne0
            generalize low k 35 = s at *
            generalize digit d = e at *
            have hq0 : q < 0 := by
              by_contra hq0
              rcases eq_or_lt_of_le (not_lt.1 hq0) with h | h
              · rw [← h, mul_zero] at hq
                exact hne0 hq
              · have : (c.N : ℤ) * 1 ≤ c.N * q := mul_le_mul_of_nonneg_left (by omega) (by omega)
                omega
            have hq1 : -2 < q := by
              by_contra hq1
              have : (c.N : ℤ) * q ≤ c.N * (-2) := mul_le_mul_of_nonneg_left (by omega) (by omega)
              omega
            have : q = -1 := by omega
            subst this
            omega
  · intro he
    dsimp only at he ⊢
    obtain ⟨h0, h1⟩ := or_zero.1 he
    unfold pointAddAffine
    dsimp only
    rw [hneg, if_congr hm1 rfl rfl, if_pos h0, h1, selectBase_zero]
    simp only [neg_zero, ite_self]
    rfl
  · change st.2 ||| d.1 = 0 ↔ _
    rw [or_zero, h.flag, hflag, hz]

/-- p256BaseMult: `k` times the base point, for all scalars below the order.  For 0 the result is
(0, 0, 1). -/
theorem baseMult_reps (hc : Amd64Curve c) (hG : G ≠ 0) (ht : BaseMultiples G t) {k : ℕ}
    (hk : k < c.N) : (k ≠ 0 → Reps (baseMult t k) (k • G)) ∧
      (k = 0 → baseMult t k = ⟨0, 0, 1⟩) := by
  have hk' : k < 2 ^ 256 := hk.trans hc.n_lt
  have main : ∀ n ≤ 36, BaseInvariant G (low k n)
      ((List.range n).foldl (fun st i => baseStep t k st (i + 1))
        (⟨(selectBaseVal (t 0) (boothW7 ((word k 0 <<< 1) &&& 0xff)).1).1,
          negVal (selectBaseVal (t 0) (boothW7 ((word k 0 <<< 1) &&& 0xff)).1).2
            (boothW7 ((word k 0 <<< 1) &&& 0xff)).2, Ops.one⟩,
          (boothW7 ((word k 0 <<< 1) &&& 0xff)).1)) := by
    intro n hn
    induction n with
    | zero =>
      rw [List.range_zero, List.foldl_nil, ← low_first]
      have hw := first7 k
      have hd := (booth7 (w := (word k 0 <<< 1) &&& 0xff) (by omega)).2
      generalize boothW7 ((word k 0 <<< 1) &&& 0xff) = d at *
      refine ⟨fun h0 => ?_, fun h0 => ?_, by change d.1.toNat < _; omega, digit_zero.symm⟩
      · have := baseDigit_reps ht 0 hd h0
        rwa [Nat.mul_zero, pow_zero, mul_one] at this
      · dsimp only at h0 ⊢
        rw [h0, selectBase_zero]
        unfold negVal
        dsimp only
        rw [f_neg, neg_zero, ite_self]
        rfl
    | succ n ih =>
      rw [List.range_succ, List.foldl_append, List.foldl_cons, List.foldl_nil]
      exact baseStep_inv hc hG ht hk (by omega) (ih (by omega))
  have h := main 36 le_rfl
  rw [low_last hk'] at h
  constructor
  · intro h0
    have := h.reps (fun e => h0 (by exact_mod_cast h.flag.1 e))
    rw [natCast_zsmul] at this
    exact this
  · intro h0
    exact h.zero (h.flag.2 (by exact_mod_cast h0))

end Verif.X64.P256
