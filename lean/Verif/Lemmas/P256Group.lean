/-
The scalar multiplications over the field compute multiples in the group of the curve, for scalars
below the group order; the one scalar for which p256ScalarMult does not.
-/
import Verif.Lemmas.P256Jac
import Verif.Lemmas.P256Booth
import Verif.Lemmas.GoodCurve
import Mathlib.GroupTheory.OrderOfElement

namespace Verif.X64.P256

open Verif.Spec WeierstrassCurve

/-- What the proofs use about the curve. -/
structure Amd64Curve (c : Curve) : Prop extends GoodCurve c (-3) where
  root : ∀ x : ZMod c.P, x ^ 3 + ((-3 : ℤ) : ZMod c.P) * x + c.B ≠ 0
  n_gt : 2 ^ 255 < c.N
  n_gt' : 2 ^ 256 - 2 ^ 225 < c.N
  n_lt : c.N < 2 ^ 256
  n_mod : c.N % 32 = 3

variable {c : Curve} [Fact c.P.Prime]

theorem zsmul_eq_zero (hc : Amd64Curve c) {P : Pt c (-3)} (hP : P ≠ 0) (s : ℤ) :
    s • P = 0 ↔ (c.N : ℤ) ∣ s := by
  have : Fact c.N.Prime := ⟨hc.order_prime⟩
  have ho : addOrderOf P = c.N := addOrderOf_eq_prime (Verif.Affine.order_kills hc.card P) hP
  rw [← ho, addOrderOf_dvd_iff_zsmul_eq_zero]

theorem zsmul_eq (hc : Amd64Curve c) {P : Pt c (-3)} (hP : P ≠ 0) (s t : ℤ) :
    s • P = t • P ↔ (c.N : ℤ) ∣ s - t := by
  rw [← zsmul_eq_zero hc hP, sub_zsmul, ← sub_eq_add_neg, sub_eq_zero]

theorem reps_dbl (hc : Amd64Curve c) {P : Pt c (-3)} {a : Jac (ZMod c.P)} {s : ℤ}
    (h : Reps a (s • P)) : Reps (pointDouble a) ((2 * s) • P) := by
  rw [two_mul, add_zsmul]
  exact reps_double hc.ok hc.root h

theorem reps_sum (hc : Amd64Curve c) {P : Pt c (-3)} (hP : P ≠ 0) {a b : Jac (ZMod c.P)} {s t : ℤ}
    (ha : Reps a (s • P)) (hb : Reps b (t • P)) (h1 : ¬ (c.N : ℤ) ∣ s) (h2 : ¬ (c.N : ℤ) ∣ t)
    (h3 : ¬ (c.N : ℤ) ∣ s - t) : Reps (pointAdd a b) ((s + t) • P) := by
  rw [add_zsmul]
  refine reps_add ha hb ?_ ?_ ?_
  · rwa [Ne, zsmul_eq_zero hc hP]
  · rwa [Ne, zsmul_eq_zero hc hP]
  · rwa [Ne, zsmul_eq hc hP]

omit [Fact c.P.Prime] in
theorem not_dvd_small (hc : Amd64Curve c) {s : ℤ} (h0 : s ≠ 0) (h1 : |s| < 2 ^ 255) :
    ¬ (c.N : ℤ) ∣ s := by
  intro h
  have h2 := Int.le_of_dvd (abs_pos.2 h0) ((dvd_abs _ _).2 h)
  have h3 := hc.n_gt
  have : ((2 ^ 255 : ℕ) : ℤ) < c.N := by exact_mod_cast h3
  push_cast at this
  omega

theorem small_abs {s : ℤ} (h1 : -100 < s) (h2 : s < 100) : |s| < 2 ^ 255 := by
  rw [abs_lt]; constructor <;> omega

/-! ### The multiplication of a point -/

theorem precomp_reps (hc : Amd64Curve c) {P : Pt c (-3)} (hP : P ≠ 0) {a : Jac (ZMod c.P)}
    (ha : Reps a P) (i : ℕ) (hi : i < 16) :
    Reps ((precomp a).getD i ⟨Ops.zero, Ops.zero, Ops.zero⟩) (((i : ℤ) + 1) • P) := by
  have sum : ∀ {x : Jac (ZMod c.P)} {s : ℤ}, Reps x (s • P) → 1 < s → s < 50 →
      Reps (pointAdd x a) ((s + 1) • P) := fun {x s} hx h1 h2 => by
    refine reps_sum hc hP hx (by rwa [one_zsmul]) ?_ ?_ ?_ <;>
      exact not_dvd_small hc (by omega) (small_abs (by omega) (by omega))
  have e1 : Reps a ((1 : ℤ) • P) := by rwa [one_zsmul]
  have e2 := reps_dbl hc e1
  have e4 := reps_dbl hc e2
  have e8 := reps_dbl hc e4
  have e16 := reps_dbl hc e8
  have e3 := sum e2 (by decide) (by decide)
  have e5 := sum e4 (by decide) (by decide)
  have e9 := sum e8 (by decide) (by decide)
  have e6 := reps_dbl hc e3
  have e10 := reps_dbl hc e5
  have e7 := sum e6 (by decide) (by decide)
  have e11 := sum e10 (by decide) (by decide)
  have e12 := reps_dbl hc e6
  have e14 := reps_dbl hc e7
  have e13 := sum e12 (by decide) (by decide)
  have e15 := sum e14 (by decide) (by decide)
  match i, hi with
  | 0, _ => exact e1
  | 1, _ => exact e2
  | 2, _ => exact e3
  | 3, _ => exact e4
  | 4, _ => exact e5
  | 5, _ => exact e6
  | 6, _ => exact e7
  | 7, _ => exact e8
  | 8, _ => exact e9
  | 9, _ => exact e10
  | 10, _ => exact e11
  | 11, _ => exact e12
  | 12, _ => exact e13
  | 13, _ => exact e14
  | 14, _ => exact e15
  | 15, _ => exact e16
  | n + 16, h => omega

/-- A table of the multiples 1 to 16 of `P`. -/
def Multiples (P : Pt c (-3)) (T : List (Jac (ZMod c.P))) : Prop :=
  ∀ i < 16, Reps (T.getD i ⟨Ops.zero, Ops.zero, Ops.zero⟩) (((i : ℤ) + 1) • P)

theorem select_reps {P : Pt c (-3)} {T : List (Jac (ZMod c.P))} (hT : Multiples P T) {d : W}
    (hd : d.toNat ≤ 16) : Reps (selectVal T d) ((d.toNat : ℤ) • P) := by
  have hm : d.toNat % 2 ^ 32 = d.toNat := Nat.mod_eq_of_lt (by omega)
  unfold selectVal
  rw [hm]
  split
  · rename_i h
    have := hT (d.toNat - 1) (by omega)
    rw [show (((d.toNat - 1 : ℕ) : ℤ) + 1) = d.toNat by omega] at this
    exact this
  · have h0 : d.toNat = 0 := by omega
    rw [h0, Nat.cast_zero, zero_zsmul, reps_zero]
    rfl

/-- The digit taken from the table, with its sign. -/
theorem digit_reps {P : Pt c (-3)} {T : List (Jac (ZMod c.P))} (hT : Multiples P T) {d : W × W}
    (hd : d.1.toNat ≤ 16) : Reps (⟨(selectVal T d.1).x, negVal (selectVal T d.1).y d.2,
      (selectVal T d.1).z⟩ : Jac (ZMod c.P)) (digit d • P) := by
  have h := select_reps hT hd
  unfold digit negVal
  split
  · exact h
  · rw [neg_zsmul]
    exact reps_neg h

theorem digit_zero {d : W × W} : digit d = 0 ↔ d.1 = 0 := by
  have : d.1 = 0 ↔ d.1.toNat = 0 := by rw [← BitVec.toNat_inj]; rfl
  unfold digit
  rw [this]
  split <;> omega

theorem digit_abs {d : W × W} {m : ℕ} (hd : d.1.toNat ≤ m) : |digit d| ≤ m := by
  unfold digit
  rw [abs_le]
  split <;> omega

theorem digit16 {w : W} (hw : w.toNat < 64) : -16 ≤ digit (boothW5 w) ∧ digit (boothW5 w) ≤ 16 :=
  abs_le.1 (digit_abs (booth5 hw).2.1)

theorem mod32_zero {z : W} (h : z.toNat < 2 ^ 32) : z.toNat % 2 ^ 32 = 0 ↔ z = 0 := by
  rw [Nat.mod_eq_of_lt h, ← BitVec.toNat_inj]
  rfl

theorem or_small {a b : W} {m : ℕ} (ha : a.toNat < 2 ^ m) (hb : b.toNat < 2 ^ m) :
    (a ||| b).toNat < 2 ^ m := by
  rw [BitVec.toNat_or]
  exact Nat.or_lt_two_pow ha hb

theorem or_zero {a b : W} : a ||| b = 0 ↔ a = 0 ∧ b = 0 := by
  constructor
  · intro h
    have h' : (a ||| b).toNat = 0 := by rw [h]; rfl
    rw [BitVec.toNat_or] at h'
    have h1 : a.toNat ≤ a.toNat ||| b.toNat := Nat.left_le_or
    have h2 : b.toNat ≤ a.toNat ||| b.toNat := Nat.right_le_or
    exact ⟨BitVec.eq_of_toNat_eq (by simp; omega), BitVec.eq_of_toNat_eq (by simp; omega)⟩
  · rintro ⟨rfl, rfl⟩
    decide

/-- The state of p256ScalarMult stands for the multiple `s`. -/
structure MultInv (P : Pt c (-3)) (s : ℤ) (st : Jac (ZMod c.P) × W) : Prop where
  reps : Reps st.1 (s • P)
  small : st.2.toNat < 2 ^ 5
  flag : st.2 = 0 ↔ s = 0

/-- Five doublings. -/
theorem reps_dbl5 (hc : Amd64Curve c) {P : Pt c (-3)} {a : Jac (ZMod c.P)} {s : ℤ}
    (h : Reps a (s • P)) :
    Reps (pointDouble (pointDouble (pointDouble (pointDouble (pointDouble a))))) ((32 * s) • P) := by
  have := reps_dbl hc (reps_dbl hc (reps_dbl hc (reps_dbl hc (reps_dbl hc h))))
  rwa [show 2 * (2 * (2 * (2 * (2 * s)))) = 32 * s by ring] at this

theorem multStep_flag {T : List (Jac (ZMod c.P))} {P : Pt c (-3)} {st : Jac (ZMod c.P) × W} {w : W}
    {s : ℤ} (hw : w.toNat < 64) (h : MultInv P s st) :
    (multStep T st w).2.toNat < 2 ^ 5 ∧
      ((multStep T st w).2 = 0 ↔ 32 * s + digit (boothW5 w) = 0) := by
  have hd := (booth5 hw).2.1
  have ha := digit16 hw
  have hz := digit_zero (d := boothW5 w)
  change (st.2 ||| (boothW5 w).1).toNat < 2 ^ 5 ∧ (st.2 ||| (boothW5 w).1 = 0 ↔ _)
  refine ⟨or_small h.small (by omega), ?_⟩
  rw [or_zero, h.flag, ← hz]
  constructor
  · rintro ⟨h1, h2⟩
    omega
  · intro h'
    constructor <;> omega

/-- One digit, when the addition is not exceptional. -/
theorem multStep_reps (hc : Amd64Curve c) {P : Pt c (-3)} (hP : P ≠ 0) {T : List (Jac (ZMod c.P))}
    (hT : Multiples P T) {st : Jac (ZMod c.P) × W} {w : W} (hw : w.toNat < 64) {s : ℤ}
    (h : MultInv P s st)
    (hne : s ≠ 0 → digit (boothW5 w) ≠ 0 → ¬ (c.N : ℤ) ∣ 32 * s ∧
      ¬ (c.N : ℤ) ∣ 32 * s - digit (boothW5 w)) :
    MultInv P (32 * s + digit (boothW5 w)) (multStep T st w) := by
  have hf := multStep_flag (T := T) hw h
  refine ⟨?_, hf.1, hf.2⟩
  have hd := (booth5 hw).2.1
  have hz := digit_zero (d := boothW5 w)
  have ha := digit16 hw
  have h5 := reps_dbl5 hc h.reps
  have ht := digit_reps hT hd
  unfold multStep
  dsimp only
  unfold movVal
  rw [if_congr (mod32_zero (by have := h.small; omega)) rfl rfl,
    if_congr (mod32_zero (z := (boothW5 w).1) (by omega)) rfl rfl]
  split
  · rename_i h0
    rw [h.flag.1 h0, mul_zero, zero_add]
    exact ht
  · rename_i h0
    have hs0 : s ≠ 0 := fun e => h0 (h.flag.2 e)
    split
    · rename_i h1
      rw [hz.2 h1, add_zero]
      exact h5
    · rename_i h1
      have hd0 : digit (boothW5 w) ≠ 0 := fun e => h1 (hz.1 e)
      obtain ⟨n1, n2⟩ := hne hs0 hd0
      exact reps_sum hc hP h5 ht n1
        (not_dvd_small hc hd0 (small_abs (by omega) (by omega))) n2

/-- One digit, when the addition is exceptional. -/
theorem multStep_exc (hc : Amd64Curve c) {P : Pt c (-3)} (hP : P ≠ 0) {T : List (Jac (ZMod c.P))}
    (hT : Multiples P T) {st : Jac (ZMod c.P) × W} {w : W} (hw : w.toNat < 64) {s : ℤ}
    (h : MultInv P s st) (hs : s ≠ 0) (hd : digit (boothW5 w) ≠ 0)
    (he : (c.N : ℤ) ∣ 32 * s - digit (boothW5 w)) :
    Reps (multStep T st w).1 (0 : Pt c (-3)) := by
  have hd' := (booth5 hw).2.1
  have hz := digit_zero (d := boothW5 w)
  have h5 := reps_dbl5 hc h.reps
  have ht := digit_reps hT hd'
  unfold multStep
  dsimp only
  unfold movVal
  rw [if_congr (mod32_zero (by have := h.small; omega)) rfl rfl,
    if_congr (mod32_zero (z := (boothW5 w).1) (by omega)) rfl rfl,
    if_neg (fun e => hs (h.flag.1 e)), if_neg (fun e => hd (hz.2 e))]
  exact reps_add_exc h5 ht (Or.inr (Or.inr ((zsmul_eq hc hP _ _).2 he)))

theorem top_nonneg (k i : ℕ) : 0 ≤ top k i := by
  unfold top
  exact Int.natCast_nonneg _

theorem top_bound {k i : ℕ} (hk : k < 2 ^ 256) (hi : 9 ≤ i) : top k i ≤ 2 ^ 246 + 1 := by
  unfold top
  have h1 : k / 2 ^ i ≤ 2 ^ 247 := by
    have : k / 2 ^ i ≤ k / 2 ^ 9 := Nat.div_le_div_left (Nat.pow_le_pow_right (by decide) hi)
      (Nat.pow_pos (by decide))
    omega
  omega

theorem scan_reps (hc : Amd64Curve c) {P : Pt c (-3)} (hP : P ≠ 0) {T : List (Jac (ZMod c.P))}
    (hT : Multiples P T) {k : ℕ} (hk : k < c.N) : MultInv P (top k 4) (multScan T k) := by
  have hk' : k < 2 ^ 256 := hk.trans hc.n_lt
  have main : ∀ n ≤ 50, MultInv P (top k (254 - 5 * n))
      ((List.range n).foldl (fun st i => multStep T st (window k (249 - 5 * i) 0x3f))
        (selectVal T (boothW5 ((word k 3 >>> 62) &&& 0x3f)).1,
          (boothW5 ((word k 3 >>> 62) &&& 0x3f)).1)) := by
    intro n hn
    induction n with
    | zero =>
      have hw := first5 k hk'
      have h4 : k / 2 ^ 254 < 4 := by omega
      obtain ⟨h1, h2⟩ := top_first hk'
      have hd := (booth5 (w := (word k 3 >>> 62) &&& 0x3f) (by omega)).2.1
      rw [List.range_zero, List.foldl_nil, Nat.mul_zero, Nat.sub_zero, ← h1]
      refine ⟨?_, by change (boothW5 _).1.toNat < _; omega, digit_zero.symm⟩
      have := select_reps hT hd
      unfold digit
      rw [if_pos h2]
      exact this
    | succ n ih =>
      rw [List.range_succ, List.foldl_append, List.foldl_cons, List.foldl_nil]
      have ih := ih (by omega)
      have hst := top_step hk' (i := 249 - 5 * n) (by omega)
      rw [show 249 - 5 * n + 5 = 254 - 5 * n by omega] at hst
      rw [show 254 - 5 * (n + 1) = 249 - 5 * n by omega, hst]
      have hw := window5 hk' (i := 249 - 5 * n) (by omega)
      have hb := top_bound hk' (i := 254 - 5 * n) (by omega)
      have h0 := top_nonneg k (254 - 5 * n)
      have hw' : (window k (249 - 5 * n) 0x3f).toNat < 64 := by omega
      have ha := digit16 hw'
      refine multStep_reps hc hP hT hw' ih fun hs hd => ⟨?_, ?_⟩
      · refine not_dvd_small hc (by omega) ?_
        rw [abs_lt]; constructor <;> omega
      · refine not_dvd_small hc (by omega) ?_
        rw [abs_lt]; constructor <;> omega
  exact main 50 le_rfl

/-- p256ScalarMult: `k` times the point, for all scalars below the order but one. -/
theorem pointMult_reps (hc : Amd64Curve c) {P : Pt c (-3)} (hP : P ≠ 0) {a : Jac (ZMod c.P)}
    (ha : Reps a P) {k : ℕ} (hk : k < c.N) (hk6 : k ≠ c.N - 6) :
    Reps (pointMult a k) (k • P) := by
  have hT : Multiples P (precomp a) := precomp_reps hc hP ha
  have hs := scan_reps hc hP hT hk
  have hl := top_last k
  have hw := last5 k
  have hw' : ((word k 0 <<< 1) &&& 0x3f).toNat < 64 := by omega
  have hab := digit16 hw'
  have h0 := top_nonneg k 4
  have hN1 : ((2 ^ 255 : ℕ) : ℤ) < c.N := by exact_mod_cast hc.n_gt
  push_cast at hN1
  have hN3 : (c.N : ℤ) % 32 = 3 := by exact_mod_cast hc.n_mod
  have hkN : (k : ℤ) < c.N := by exact_mod_cast hk
  have hk6' : (k : ℤ) ≠ c.N - 6 := by
    intro e
    apply hk6
    omega
  have := (multStep_reps hc hP hT hw' hs fun hs0 hd0 => ?_).reps
  · rw [hl, natCast_zsmul] at this
    exact this
  · generalize digit (boothW5 ((word k 0 <<< 1) &&& 0x3f)) = d at *
    generalize top k 4 = t at *
    constructor
    · rintro ⟨q, hq⟩
      have hq0 : 0 < q := by
        by_contra hq0
        have : (c.N : ℤ) * q ≤ 0 := mul_nonpos_of_nonneg_of_nonpos (by omega) (by omega)
        omega
      have hq1 : q < 2 := by
        by_contra hq1
        have : (c.N : ℤ) * 2 ≤ c.N * q := mul_le_mul_of_nonneg_left (by omega) (by omega)
        omega
      have : q = 1 := by omega
      subst this
      omega
    · rintro ⟨q, hq⟩
      have hq0 : 0 < q := by
        by_contra hq0
        have : (c.N : ℤ) * q ≤ 0 := mul_nonpos_of_nonneg_of_nonpos (by omega) (by omega)
        omega
      have hq1 : q < 2 := by
        by_contra hq1
        have : (c.N : ℤ) * 2 ≤ c.N * q := mul_le_mul_of_nonneg_left (by omega) (by omega)
        omega
      have : q = 1 := by omega
      subst this
      omega

/-- p256ScalarMult with the scalar N - 6: infinity. -/
theorem pointMult_exc (hc : Amd64Curve c) {P : Pt c (-3)} (hP : P ≠ 0) {a : Jac (ZMod c.P)}
    (ha : Reps a P) : Reps (pointMult a (c.N - 6)) (0 : Pt c (-3)) := by
  have hT : Multiples P (precomp a) := precomp_reps hc hP ha
  have hN1 := hc.n_gt
  have hN3 := hc.n_mod
  have hs := scan_reps hc hP hT (k := c.N - 6) (by omega)
  have hl := top_last (c.N - 6)
  have hw := last5 (c.N - 6)
  have hw' : ((word (c.N - 6) 0 <<< 1) &&& 0x3f).toNat < 64 := by omega
  have hb := (booth5 hw').1
  have hd : digit (boothW5 ((word (c.N - 6) 0 <<< 1) &&& 0x3f)) = -3 := by
    rw [hb, hw]
    split <;> omega
  rw [hd] at hl
  refine multStep_exc hc hP hT hw' hs (by omega) (by rw [hd]; decide) ?_
  rw [hd]
  exact ⟨1, by omega⟩

end Verif.X64.P256
