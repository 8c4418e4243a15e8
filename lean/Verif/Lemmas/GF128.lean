import Verif.Model.GoGCM
import Mathlib.FieldTheory.Finite.Extension
import Mathlib.RingTheory.AdjoinRoot
import Mathlib.Algebra.CharP.Two
/-!
# The blocks of GCM form a field

`mul` is the multiplication of F2[x] modulo x^128 + x^7 + x^2 + x + 1. That this polynomial is irreducible is shown by
Rabin's test: x^(2^128) = x modulo it, and x^(2^64) - x has an inverse modulo it.
-/
namespace Verif.GCM
open Polynomial

noncomputable def fp (n : ℕ) : (ZMod 2)[X] := X ^ n + (X ^ 7 + X ^ 2 + X + 1)

theorem low_deg {n : ℕ} (h : 7 < n) : (X ^ 7 + X ^ 2 + X + 1 : (ZMod 2)[X]).degree < (n : WithBot ℕ) := by
  have : (X ^ 7 + X ^ 2 + X + 1 : (ZMod 2)[X]).natDegree ≤ 7 := by compute_degree
  exact lt_of_le_of_lt (degree_le_of_natDegree_le this) (by exact_mod_cast h)

theorem fp_monic {n : ℕ} (h : 7 < n) : (fp n).Monic := monic_X_pow_add (low_deg h)

theorem fp_degree {n : ℕ} (h : 7 < n) : (fp n).degree = (n : WithBot ℕ) := by
  rw [fp, degree_add_eq_left_of_degree_lt, degree_X_pow]
  rw [degree_X_pow]; exact low_deg h

theorem fp_root {g : (ZMod 2)[X]} (n : ℕ) (hg : g = fp n) : AdjoinRoot.root g ^ n +
    (AdjoinRoot.root g ^ 7 + AdjoinRoot.root g ^ 2 + AdjoinRoot.root g + 1) = 0 := by
  have h : AdjoinRoot.mk g g = 0 := AdjoinRoot.mk_self
  have h2 : AdjoinRoot.mk g g = AdjoinRoot.mk g (fp n) := by rw [← hg]
  rw [h2, fp] at h
  simpa only [map_add, map_pow, AdjoinRoot.mk_X, map_one] using h

theorem dvd_of_root {g : (ZMod 2)[X]} (n : ℕ) (h : AdjoinRoot.root g ^ n = AdjoinRoot.root g) : g ∣ X ^ n - X := by
  rw [← AdjoinRoot.mk_eq_zero, map_sub, map_pow, AdjoinRoot.mk_X, sub_eq_zero]
  exact h

theorem dvd_of_inv {g W : (ZMod 2)[X]} (n : ℕ)
    (h : AdjoinRoot.mk g W * (AdjoinRoot.root g ^ n - AdjoinRoot.root g) = 1) : g ∣ W * (X ^ n - X) - 1 := by
  rw [← AdjoinRoot.mk_eq_zero, map_sub, map_mul, map_sub, map_pow, AdjoinRoot.mk_X, map_one, sub_eq_zero]
  exact h

theorem no_factor {f g W : (ZMod 2)[X]} (k : ℕ) (hg : Irreducible g) (hgf : g ∣ f) (hd : g.natDegree ∣ k)
    (h : AdjoinRoot.mk f W * (AdjoinRoot.root f ^ 2 ^ k - AdjoinRoot.root f) = 1) : False := by
  have h4 : g ∣ X ^ 2 ^ k - X := by
    have := hg.natDegree_dvd_iff_dvd_X_pow_card_pow_sub_X.1 hd
    rwa [show Nat.card (ZMod 2) = 2 by simp] at this
  have h6 : g ∣ 1 := by
    have := dvd_sub (h4.mul_left W) (hgf.trans (dvd_of_inv _ h))
    rwa [sub_sub_cancel] at this
  exact hg.not_isUnit (isUnit_of_dvd_one h6)

noncomputable def f : (ZMod 2)[X] := fp 128

theorem f_monic : f.Monic := fp_monic (by norm_num)

theorem f_degree : f.degree = ((128 : ℕ) : WithBot ℕ) := fp_degree (by norm_num)

theorem f_natDegree : f.natDegree = 128 := natDegree_eq_of_degree_eq_some f_degree

abbrev R := AdjoinRoot f

noncomputable def α : R := AdjoinRoot.root f

instance : CharP R 2 := by
  have : Nontrivial R := by
    apply AdjoinRoot.nontrivial
    rw [f_degree]; simp
  exact charP_of_injective_algebraMap (algebraMap (ZMod 2) R).injective 2

theorem α_pow : (α : R) ^ 128 = α ^ 7 + α ^ 2 + α + 1 := CharTwo.add_eq_zero.1 (fp_root 128 rfl)

attribute [irreducible] f

def one : BitVec 128 := 0x80000000000000000000000000000000#128
def xx : BitVec 128 := 0x40000000000000000000000000000000#128

/-- A block as an element of the ring. -/
noncomputable def el (v : BitVec 128) : R := ∑ i ∈ Finset.range 128, if v.getMsbD i then α ^ i else 0

theorem el_zero : el 0#128 = 0 := by simp [el]

theorem el_xor (v w : BitVec 128) : el (v ^^^ w) = el v + el w := by
  unfold el
  rw [← Finset.sum_add_distrib]
  apply Finset.sum_congr rfl
  intro i _
  rw [BitVec.getMsbD_xor]
  cases v.getMsbD i <;> cases w.getMsbD i <;> simp [CharTwo.add_self_eq_zero]

theorem el_const : el 0xe1000000000000000000000000000000#128 = α ^ 7 + α ^ 2 + α + 1 := by
  have h : ∀ i ∈ Finset.range 128, (if (0xe1000000000000000000000000000000#128).getMsbD i then (α : R) ^ i else 0) =
      (if i = 7 then α ^ 7 else 0) + (if i = 2 then α ^ 2 else 0) + (if i = 1 then α else 0) + (if i = 0 then 1 else 0) := by
    intro i hi
    have hb : ∀ i < 128, (0xe1000000000000000000000000000000#128).getMsbD i = (i == 7 || i == 2 || i == 1 || i == 0) := by
      decide +kernel
    rw [hb i (Finset.mem_range.1 hi)]
    by_cases h7 : i = 7
    · subst h7; simp
    by_cases h2 : i = 2
    · subst h2; simp
    by_cases h1 : i = 1
    · subst h1; simp
    by_cases h0 : i = 0
    · subst h0; simp
    simp [h7, h2, h1, h0]
  unfold el
  rw [Finset.sum_congr rfl h]
  simp only [Finset.sum_add_distrib, Finset.sum_ite_eq', Finset.mem_range]
  norm_num

theorem el_shift (v : BitVec 128) : el (v >>> 1) = α * (el v - if v.getLsbD 0 then α ^ 127 else 0) := by
  unfold el
  rw [Finset.sum_range_succ', Finset.sum_range_succ _ 127]
  have h0 : (v >>> 1).getMsbD 0 = false := by simp [BitVec.getMsbD_ushiftRight]
  have h1 : v.getMsbD 127 = v.getLsbD 0 := by simp [BitVec.getMsbD]
  rw [h0, h1, add_sub_cancel_right, Finset.mul_sum]
  simp only [Bool.false_eq_true, if_false, add_zero]
  apply Finset.sum_congr rfl
  intro i hi
  rw [Finset.mem_range] at hi
  have : (v >>> 1).getMsbD (i + 1) = v.getMsbD i := by
    rw [BitVec.getMsbD_ushiftRight]
    simp [show i + 1 < 128 by omega]
  rw [this]
  split <;> simp [pow_succ']

theorem el_mulX (v : BitVec 128) : el (mulX v) = α * el v := by
  unfold mulX
  split
  · rename_i h
    rw [el_xor, el_shift, h, el_const, ← α_pow, if_pos rfl]
    ring
  · rename_i h
    rw [el_shift, if_neg h, sub_zero]

theorem el_mulLoop (k : Nat) : ∀ x v : BitVec 128, el (mulLoop k x v) =
    (∑ i ∈ Finset.range k, if x.getMsbD i then α ^ i else 0) * el v := by
  induction k with
  | zero => intro x v; simp [mulLoop, el_zero]
  | succ k ih =>
    intro x v
    rw [mulLoop, el_xor, ih, el_mulX, Finset.sum_range_succ', add_mul, add_comm, ← mul_assoc, Finset.sum_mul]
    congr 1
    · congr 1
      apply Finset.sum_congr rfl
      intro i _
      have : (x <<< 1).getMsbD i = x.getMsbD (i + 1) := by
        rw [BitVec.getMsbD_shiftLeft, add_comm]
      rw [this]
      split <;> simp [pow_succ]
    · split <;> simp [el_zero]

theorem el_mul (x y : BitVec 128) : el (mul x y) = el x * el y := el_mulLoop 128 x y

/-- `k` squarings. -/
def sqs : Nat → BitVec 128 → BitVec 128
  | 0, v => v
  | k + 1, v => sqs k (mul v v)

theorem el_sqs (k : Nat) : ∀ v, el (sqs k v) = el v ^ 2 ^ k := by
  induction k with
  | zero => intro v; simp [sqs]
  | succ k ih => intro v; rw [sqs, ih, el_mul, ← sq, ← pow_mul, pow_succ']

theorem el_one : el (one) = 1 := by
  have h : ∀ i ∈ Finset.range 128, (if one.getMsbD i then (α : R) ^ i else 0) = if i = 0 then 1 else 0 := by
    intro i hi
    have hb : ∀ i < 128, one.getMsbD i = (i == 0) := by decide +kernel
    rw [hb i (Finset.mem_range.1 hi)]
    by_cases h0 : i = 0
    · subst h0; simp
    simp [h0]
  unfold el
  rw [Finset.sum_congr rfl h]
  simp

theorem el_x : el (xx) = α := by
  have h : mulX (one) = xx := by decide +kernel
  rw [← h, el_mulX, el_one, mul_one]

theorem frob : (α : R) ^ 2 ^ 128 = α := by
  have h : sqs 128 (xx) = xx := by decide +kernel
  rw [← el_x, ← el_sqs, h]

theorem inv64 : ∃ w : R, w * (α ^ 2 ^ 64 - α) = 1 := by
  have h : mul 0x180da934bf53158251c13dbb149f5279 (sqs 64 (xx) ^^^ xx) = one := by decide +kernel
  refine ⟨el 0x180da934bf53158251c13dbb149f5279, ?_⟩
  rw [CharTwo.sub_eq_add, ← el_x, ← el_sqs, ← el_xor, ← el_mul, h, el_one]

theorem f_irreducible : Irreducible f := by
  have hf1 : f ≠ 1 := by
    intro h
    have := f_natDegree
    rw [h, natDegree_one] at this
    omega
  rw [f_monic.irreducible_iff_lt_natDegree_lt hf1]
  intro q hq hd hqf
  rw [f_natDegree, Finset.mem_Ioc] at hd
  obtain ⟨g, hg, hgq⟩ := exists_irreducible_of_natDegree_pos hd.1
  have hgf : g ∣ f := hgq.trans hqf
  have hgd : g.natDegree ≤ 64 := (natDegree_le_of_dvd hgq hq.ne_zero).trans hd.2
  have hc : Nat.card (ZMod 2) = 2 := by simp
  have h1 : f ∣ X ^ 2 ^ 128 - X := dvd_of_root _ frob
  have h2 : g.natDegree ∣ 128 := hg.natDegree_dvd_of_dvd_X_pow_card_pow_sub_X (by rw [hc]; exact hgf.trans h1)
  have h3 : g.natDegree ∣ 64 := by
    obtain ⟨i, hi, e⟩ := (Nat.dvd_prime_pow Nat.prime_two (m := 7)).1 h2
    rw [e] at hgd ⊢
    have h6 : i ≤ 6 := by
      by_contra hh
      have h7 : i = 7 := by omega
      rw [h7] at hgd
      norm_num at hgd
    exact pow_dvd_pow 2 h6
  obtain ⟨w, hw⟩ := inv64
  obtain ⟨W, rfl⟩ := AdjoinRoot.mk_surjective w
  exact no_factor 64 hg hgf h3 hw

instance : Fact (Irreducible f) := ⟨f_irreducible⟩

theorem el_inj {v w : BitVec 128} (h : el v = el w) : v = w := by
  have key : ∀ u : BitVec 128, el u = 0 → u = 0 := by
    intro u hu
    let p : (ZMod 2)[X] := ∑ i ∈ Finset.range 128, if u.getMsbD i then X ^ i else 0
    have hp : AdjoinRoot.mk f p = el u := by
      simp only [p, el, map_sum]
      apply Finset.sum_congr rfl
      intro i _
      split <;> simp [α]
    have hd : p.degree < ((128 : ℕ) : WithBot ℕ) := by
      apply lt_of_le_of_lt (degree_sum_le _ _)
      rw [Finset.sup_lt_iff (WithBot.bot_lt_coe _)]
      intro i hi
      rw [Finset.mem_range] at hi
      split
      · rw [degree_X_pow]; exact WithBot.coe_lt_coe.2 hi
      · rw [degree_zero]; exact WithBot.bot_lt_coe _
    have hz : p = 0 := by
      apply eq_zero_of_dvd_of_degree_lt (AdjoinRoot.mk_eq_zero.1 (hp.trans hu))
      rw [f_degree]
      exact hd
    apply BitVec.eq_of_getMsbD_eq
    intro i hi
    have hc : p.coeff i = if u.getMsbD i then 1 else 0 := by
      simp only [p, finsetSum_coeff]
      rw [Finset.sum_eq_single i]
      · split <;> simp
      · intro j _ hj
        split
        · rw [coeff_X_pow, if_neg (fun e => hj e.symm)]
        · simp
      · intro hn
        exact absurd (Finset.mem_range.2 hi) hn
    rw [hz, coeff_zero] at hc
    cases hb : u.getMsbD i with
    | false => simp
    | true => rw [hb] at hc; simp at hc
  have := key (v ^^^ w) (by rw [el_xor, h, CharTwo.add_self_eq_zero])
  exact BitVec.xor_eq_zero_iff.1 this

end Verif.GCM
