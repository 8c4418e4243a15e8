import Verif.Lemmas.EC
import Mathlib.NumberTheory.LegendreSymbol.QuadraticChar.Basic
import Verif.Lemmas.CountLists
/-!
# Counting the draws that end the root search
-/
namespace Verif.EC

section count
variable (p : Nat) [hp : Fact p.Prime]

open Finset

/-- `v² - w² = c²` has `p - 1` solutions. -/
theorem card_hyperbola (h2 : p ≠ 2) (c : ZMod p) (hc : c ≠ 0) :
    #{q : ZMod p × ZMod p | q.2 ^ 2 = q.1 ^ 2 - c ^ 2} = p - 1 := by
  have h20 : (2 : ZMod p) ≠ 0 := by
    intro h
    have : ((2 : Nat) : ZMod p) = 0 := by exact_mod_cast h
    rw [ZMod.natCast_eq_zero_iff] at this
    exact h2 ((Nat.prime_dvd_prime_iff_eq hp.out Nat.prime_two).1 this)
  have : #{q : ZMod p × ZMod p | q.2 ^ 2 = q.1 ^ 2 - c ^ 2} = #{a : ZMod p | a ≠ 0} := by
    refine card_bij' (fun q _ => q.1 + q.2) (fun a _ => ((a + c ^ 2 / a) / 2, (a - c ^ 2 / a) / 2)) ?_ ?_ ?_ ?_
    · intro q hq
      simp only [mem_filter, mem_univ, true_and] at hq ⊢
      intro h
      have : q.2 = -q.1 := by linear_combination h
      rw [this] at hq
      have : c ^ 2 = 0 := by linear_combination hq
      exact hc (pow_eq_zero_iff (by norm_num) |>.1 this)
    · intro a ha
      simp only [mem_filter, mem_univ, true_and] at ha ⊢
      field_simp
      ring
    · intro q hq
      simp only [mem_filter, mem_univ, true_and] at hq ⊢
      have hne : q.1 + q.2 ≠ 0 := by
        intro h
        have : q.2 = -q.1 := by linear_combination h
        rw [this] at hq
        have : c ^ 2 = 0 := by linear_combination hq
        exact hc (pow_eq_zero_iff (by norm_num) |>.1 this)
      have e : c ^ 2 / (q.1 + q.2) = q.1 - q.2 := by
        rw [div_eq_iff hne]; linear_combination hq
      ext
      · simp only [e]; field_simp; ring
      · simp only [e]; field_simp; ring
    · intro a ha
      simp only [mem_filter, mem_univ, true_and] at ha ⊢
      field_simp
      ring
  rw [this, filter_ne', card_erase_of_mem (mem_univ _), card_univ, ZMod.card]

/-- For a square `c²` that is not 0, `v² - c²` is not a square for exactly half of the numbers but one. -/
theorem card_nonsquare (h2 : p ≠ 2) (c : ZMod p) (hc : c ≠ 0) :
    #{v : ZMod p | ¬ IsSquare (v ^ 2 - c ^ 2)} = (p - 1) / 2 := by
  have hodd : p % 2 = 1 := hp.out.eq_two_or_odd.resolve_left h2
  have hchar : ringChar (ZMod p) ≠ 2 := by rwa [ZMod.ringChar_zmod_n]
  have h20 : (2 : ZMod p) ≠ 0 := by
    intro h
    have : ((2 : Nat) : ZMod p) = 0 := by exact_mod_cast h
    rw [ZMod.natCast_eq_zero_iff] at this
    exact h2 ((Nat.prime_dvd_prime_iff_eq hp.out Nat.prime_two).1 this)
  -- the sum of the characters
  have hsum : ∑ v : ZMod p, (quadraticChar (ZMod p) (v ^ 2 - c ^ 2) + 1) = (p : Int) - 1 := by
    have h := card_hyperbola p h2 c hc
    have e : #{q : ZMod p × ZMod p | q.2 ^ 2 = q.1 ^ 2 - c ^ 2} =
        ∑ v : ZMod p, #{w : ZMod p | w ^ 2 = v ^ 2 - c ^ 2} := by
      rw [card_filter, Fintype.sum_prod_type]
      exact sum_congr rfl fun v _ => (card_filter _ _).symm
    have e' : ∀ v : ZMod p, ((#{w : ZMod p | w ^ 2 = v ^ 2 - c ^ 2} : Nat) : Int) =
        quadraticChar (ZMod p) (v ^ 2 - c ^ 2) + 1 := by
      intro v
      rw [← quadraticChar_card_sqrts hchar]
      congr 2
      ext w
      simp
    rw [← sum_congr rfl fun v _ => e' v, ← Nat.cast_sum, ← e, h, Nat.cast_sub hp.out.one_le, Nat.cast_one]
  rw [sum_add_distrib, sum_const, card_univ, ZMod.card, nsmul_eq_mul, mul_one] at hsum
  -- each character is 1, 0 or -1
  have hval : ∀ v : ZMod p, quadraticChar (ZMod p) (v ^ 2 - c ^ 2) =
      1 - (if v ^ 2 - c ^ 2 = 0 then 1 else 0) - 2 * (if ¬ IsSquare (v ^ 2 - c ^ 2) then 1 else 0) := by
    intro v
    by_cases h0 : v ^ 2 - c ^ 2 = 0
    · rw [h0]; simp
    · rw [if_neg h0]
      by_cases hs : IsSquare (v ^ 2 - c ^ 2)
      · rw [if_neg (not_not.2 hs), (quadraticChar_one_iff_isSquare h0).2 hs]; norm_num
      · rw [if_pos hs, quadraticChar_neg_one_iff_not_isSquare.2 hs]; norm_num
  rw [sum_congr rfl fun v _ => hval v, sum_sub_distrib, sum_sub_distrib, ← mul_sum, sum_boole, sum_boole, sum_const,
    card_univ, ZMod.card, nsmul_eq_mul, mul_one] at hsum
  have hz : #{v : ZMod p | v ^ 2 - c ^ 2 = 0} = 2 := by
    have : ({v : ZMod p | v ^ 2 - c ^ 2 = 0} : Finset (ZMod p)) = {c, -c} := by
      ext v
      simp only [mem_filter, mem_univ, true_and, mem_insert, mem_singleton, sub_eq_zero]
      exact sq_eq_sq_iff_eq_or_eq_neg
    rw [this, card_pair]
    intro h
    have : 2 * c = 0 := by linear_combination h
    rcases mul_eq_zero.1 this with h | h
    · exact h20 h
    · exact hc h
  rw [hz] at hsum
  push_cast at hsum
  omega

/-- The numbers below `p` that do not end the search for the root of a square that is not 0: one more than half. -/
theorem card_bad (h2 : p ≠ 2) (y : ZMod p) (hy : y ≠ 0) (hs : IsSquare y) :
    #{d ∈ (range p : Finset Nat) | IsSquare (((d : Nat) : ZMod p) ^ 2 - 4 * y)} = (p + 1) / 2 := by
  have hodd : p % 2 = 1 := hp.out.eq_two_or_odd.resolve_left h2
  have h20 : (2 : ZMod p) ≠ 0 := by
    intro h
    have : ((2 : Nat) : ZMod p) = 0 := by exact_mod_cast h
    rw [ZMod.natCast_eq_zero_iff] at this
    exact h2 ((Nat.prime_dvd_prime_iff_eq hp.out Nat.prime_two).1 this)
  obtain ⟨s, rfl⟩ := hs
  have hs0 : s ≠ 0 := by rintro rfl; simp at hy
  have h := card_nonsquare p h2 (2 * s) (mul_ne_zero h20 hs0)
  have e : #{d ∈ (range p : Finset Nat) | IsSquare (((d : Nat) : ZMod p) ^ 2 - 4 * (s * s))} =
      #{v : ZMod p | IsSquare (v ^ 2 - (2 * s) ^ 2)} := by
    refine card_bij (fun (d : Nat) _ => ((d : Nat) : ZMod p)) ?_ ?_ ?_
    · intro d hd
      simp only [mem_filter, mem_univ, true_and, mem_range] at hd ⊢
      rw [show (2 * s) ^ 2 = 4 * (s * s) by ring]
      exact hd.2
    · intro a ha b hb hab
      simp only [mem_filter, mem_range] at ha hb
      rw [ZMod.natCast_eq_natCast_iff'] at hab
      rwa [Nat.mod_eq_of_lt ha.1, Nat.mod_eq_of_lt hb.1] at hab
    · intro v hv
      simp only [mem_filter, mem_univ, true_and] at hv
      refine ⟨v.val, ?_, ZMod.natCast_zmod_val v⟩
      simp only [mem_filter, mem_range]
      refine ⟨ZMod.val_lt v, ?_⟩
      rw [ZMod.natCast_zmod_val, show 4 * (s * s) = (2 * s) ^ 2 by ring]
      exact hv
  have htot := card_filter_add_card_filter_not (s := (univ : Finset (ZMod p))) fun v => IsSquare (v ^ 2 - (2 * s) ^ 2)
  rw [card_univ, ZMod.card] at htot
  have := hp.out.pos
  omega

/-- The search goes on as long as no draw is accepted. -/
theorem lucasSearch_none (P : Nat) (Q f : Int) (k : Nat) (draws : List Nat) (h : ∀ d ∈ draws, drawOk P f d = false) :
    lucasSearch P Q f k draws = none := by
  induction draws with
  | nil => rfl
  | cons d rest ih =>
    rw [lucasSearch, if_neg (by rw [h d (by simp)]; simp)]
    exact ih fun d hd => h d (by simp [hd])

/-- The root search needs no draws, or it returns a root of a square that is not 0 as soon as a draw below `p` has a
discriminant that is not a square. -/
theorem curveSqrt_draws (hodd : p % 2 = 1) (y : Int) (hy0 : 0 ≤ y) (hyp : y < p) :
    (∃ r, ∀ draws, curveSqrt y p draws = some r) ∨
    ((y : ZMod p) ≠ 0 ∧ IsSquare (y : ZMod p) ∧ ∀ draws, (∃ r, curveSqrt y p draws = some (some r)) ∨
        curveSqrt y p draws = none) ∧
      ∀ draws, curveSqrt y p draws = none ↔ ∀ d ∈ draws, d < p → IsSquare ((d : ZMod p) ^ 2 - 4 * (y : ZMod p)) := by
  by_cases hb : p.testBit 1 = true
  · left
    refine ⟨sqrt3mod4 y p, fun draws => ?_⟩
    unfold curveSqrt
    rw [if_pos hb]
  by_cases he : expMod y ((p - 1) / 2) p ≠ 1
  · left
    refine ⟨none, fun draws => ?_⟩
    unfold curveSqrt
    rw [if_neg hb, if_pos he]
  right
  have h1 : p % 4 = 1 := by rw [testBit_one] at hb; omega
  have e : ∀ draws, curveSqrt y p draws = lucasSearch p y ((y * 4) % p) ((p - 1) / 4 * 2 + 1) draws := by
    intro draws
    unfold curveSqrt
    rw [if_neg hb, if_neg he]
  have hQ : (y : ZMod p) ^ ((p - 1) / 2) = 1 := by
    rw [← cast_expMod, not_not.1 he]; simp
  have hp3 : 2 < p := by have := hp.out.two_le; omega
  have hy : (y : ZMod p) ≠ 0 := by
    intro h0
    rw [h0, zero_pow (by omega)] at hQ
    exact zero_ne_one hQ
  have hsq := (isSquare_iff_euler p (by omega) _ hy).2 hQ
  refine ⟨⟨hy, hsq, fun draws => ?_⟩, fun draws => ?_⟩
  · rw [e]
    rcases lucasSearch_spec p h1 y hy0 hyp hQ draws with ⟨hn, _⟩ | ⟨r, hr, _⟩
    · exact .inr hn
    · exact .inl ⟨r, hr⟩
  · have hok : ∀ d, drawOk p ((y * 4) % p) d = false ↔ (d < p → IsSquare ((d : ZMod p) ^ 2 - 4 * (y : ZMod p))) := by
      intro d
      rw [← Bool.not_eq_true, drawOk_iff p hodd, not_and]
      refine imp_congr_right fun hd => ?_
      by_cases h0 : (d : ZMod p) ^ 2 - 4 * (y : ZMod p) = 0
      · rw [h0, zero_pow (by omega)]
        simp
      · rw [isSquare_iff_euler p (by omega) _ h0]
        have hpm := ZMod.pow_div_two_eq_neg_one_or_one p h0
        rw [show p / 2 = (p - 1) / 2 by omega] at hpm
        have hne : (1 : ZMod p) ≠ -1 := by
          have : Fact (2 < p) := ⟨hp3⟩
          exact (ZMod.neg_one_ne_one).symm
        rcases hpm with h | h
        · rw [h]; simp [hne]
        · rw [h]; simp [hne.symm]
    rw [e]
    constructor
    · intro hn d hd
      rcases lucasSearch_spec p h1 y hy0 hyp hQ draws with ⟨_, h⟩ | ⟨r, hr, _⟩
      · exact (hok d).1 (h d hd)
      · rw [hr] at hn; cases hn
    · intro h
      exact lucasSearch_none _ _ _ _ _ fun d hd => (hok d).2 (h d hd)

end count
end Verif.EC
