/-
Recoding of scalars: the windows the code extracts and their signed digits.
-/
import Verif.Model.P256Mult
import Mathlib.Algebra.BigOperators.Group.Finset.Basic
import Mathlib.Algebra.BigOperators.Fin
import Mathlib.Data.Nat.ModEq
import Mathlib.Tactic.Ring
import Mathlib.Tactic.LinearCombination
import Mathlib.Data.Int.ModEq
import Mathlib.Data.ZMod.Defs
import Mathlib.Tactic.Linarith

namespace Verif.X64.P256

/-- The value of a digit and its sign. -/
def digit (d : W × W) : ℤ := if d.2 = 0 then (d.1.toNat : ℤ) else -(d.1.toNat : ℤ)

theorem booth5_all : ∀ w : Fin 64, digit (boothW5 (BitVec.ofNat 64 w)) =
      ((w.val : ℤ) + 1) / 2 - (if 32 ≤ w.val then 32 else 0) ∧
    (boothW5 (BitVec.ofNat 64 w)).1.toNat ≤ 16 ∧
    (w.val < 32 → (boothW5 (BitVec.ofNat 64 w)).2 = 0) := by decide +kernel

theorem booth7_all : ∀ w : Fin 256, digit (boothW7 (BitVec.ofNat 64 w)) =
      ((w.val : ℤ) + 1) / 2 - (if 128 ≤ w.val then 128 else 0) ∧
    (boothW7 (BitVec.ofNat 64 w)).1.toNat ≤ 64 := by decide +kernel

theorem booth5 {w : W} (h : w.toNat < 64) : digit (boothW5 w) =
      ((w.toNat : ℤ) + 1) / 2 - (if 32 ≤ w.toNat then 32 else 0) ∧
    (boothW5 w).1.toNat ≤ 16 ∧ (w.toNat < 32 → (boothW5 w).2 = 0) := by
  have := booth5_all ⟨w.toNat, h⟩
  simpa using this

theorem booth7 {w : W} (h : w.toNat < 256) : digit (boothW7 w) =
      ((w.toNat : ℤ) + 1) / 2 - (if 128 ≤ w.toNat then 128 else 0) ∧
    (boothW7 w).1.toNat ≤ 64 := by
  have := booth7_all ⟨w.toNat, h⟩
  simpa using this

/-! ### Windows -/

theorem mask_toNat (x : W) {m : ℕ} (hm : m ≤ 64) :
    (x &&& BitVec.ofNat 64 (2 ^ m - 1)).toNat = x.toNat % 2 ^ m := by
  have h1 : 2 ^ m ≤ 2 ^ 64 := Nat.pow_le_pow_right (by decide) hm
  have h2 : 0 < 2 ^ m := Nat.pow_pos (by decide)
  rw [BitVec.toNat_and, BitVec.toNat_ofNat, Nat.mod_eq_of_lt (by omega),
    Nat.and_two_pow_sub_one_eq_mod]

theorem window_toNat {k i m : ℕ} (hk : k < 2 ^ 256) (hi : i < 256) (hm : m ≤ 64) :
    (window k i (BitVec.ofNat 64 (2 ^ m - 1))).toNat = k / 2 ^ i % 2 ^ m := by
  have hi2 : i = 64 * (i / 64) + i % 64 := (Nat.div_add_mod i 64).symm
  have hr : i % 64 < 64 := Nat.mod_lt _ (by decide)
  have hq : i / 64 < 4 := by omega
  unfold window
  split
  · rw [mask_toNat _ hm]
    rename_i h192
    generalize hA : k / 2 ^ (64 * (i / 64)) = A
    have hA1 : k / 2 ^ (64 * (i / 64 + 1)) = A / 2 ^ 64 := by
      rw [← hA, Nat.div_div_eq_div_mul, ← pow_add, Nat.mul_add, Nat.mul_one]
    have hki : k / 2 ^ i = A / 2 ^ (i % 64) := by
      conv_lhs => rw [hi2, pow_add, ← Nat.div_div_eq_div_mul, hA]
    unfold word
    rw [hA, hA1, hki]
    generalize i % 64 = r at *
    have hd : 2 ^ m ∣ 2 ^ 64 := pow_dvd_pow 2 hm
    rw [BitVec.toNat_add, BitVec.toNat_ushiftRight, BitVec.toNat_shiftLeft, BitVec.toNat_ofNat,
      BitVec.toNat_ofNat, Nat.shiftRight_eq_div_pow, Nat.shiftLeft_eq, Nat.mod_mod_of_dvd _ hd]
    have key : A / 2 ^ r = A % 2 ^ 64 / 2 ^ r + A / 2 ^ 64 * 2 ^ (64 - r) := by
      have h64 : 2 ^ 64 = 2 ^ (64 - r) * 2 ^ r := by rw [← pow_add]; congr 1; omega
      have e : A = A % 2 ^ 64 + A / 2 ^ 64 * 2 ^ (64 - r) * 2 ^ r := by
        rw [Nat.mul_assoc, ← h64]; omega
      conv_lhs => rw [e]
      rw [Nat.add_mul_div_right _ _ (Nat.pow_pos (by decide))]
    change _ ≡ _ [MOD 2 ^ m]
    rw [key]
    refine Nat.ModEq.add_left _ ?_
    refine ((Nat.mod_modEq _ _).of_dvd hd).trans ?_
    refine Nat.ModEq.mul_right _ ?_
    exact (Nat.mod_modEq _ _).of_dvd hd
  · rw [mask_toNat _ hm]
    have h3 : i / 64 = 3 := by omega
    unfold word
    have hlt : k / 2 ^ (64 * (i / 64)) < 2 ^ 64 := by
      rw [h3, Nat.div_lt_iff_lt_mul (Nat.pow_pos (by decide)), ← pow_add]
      exact hk
    rw [BitVec.toNat_ushiftRight, BitVec.toNat_ofNat, Nat.mod_eq_of_lt hlt,
      Nat.shiftRight_eq_div_pow, Nat.div_div_eq_div_mul, ← pow_add, ← hi2]

theorem window5 {k i : ℕ} (hk : k < 2 ^ 256) (hi : i < 256) :
    (window k i 0x3f).toNat = k / 2 ^ i % 64 := window_toNat (m := 6) hk hi (by decide)

theorem window7 {k i : ℕ} (hk : k < 2 ^ 256) (hi : i < 256) :
    (window k i 0xff).toNat = k / 2 ^ i % 256 := window_toNat (m := 8) hk hi (by decide)

theorem first5 (k : ℕ) (hk : k < 2 ^ 256) :
    ((word k 3 >>> 62) &&& 0x3f).toNat = k / 2 ^ 254 := by
  have h := window5 hk (i := 254) (by decide)
  have : window k 254 0x3f = (word k 3 >>> 62) &&& 0x3f := rfl
  rw [this] at h
  rw [h]
  omega

theorem low_toNat (k : ℕ) {m : ℕ} (hm : m ≤ 64) :
    ((word k 0 <<< 1) &&& BitVec.ofNat 64 (2 ^ m - 1)).toNat = 2 * k % 2 ^ m := by
  have hd : 2 ^ m ∣ 2 ^ 64 := pow_dvd_pow 2 hm
  rw [mask_toNat _ hm, BitVec.toNat_shiftLeft, Nat.shiftLeft_eq, Nat.mod_mod_of_dvd _ hd]
  unfold word
  rw [BitVec.toNat_ofNat, Nat.mul_zero, pow_zero, Nat.div_one, pow_one, Nat.mul_comm]
  change _ ≡ _ [MOD 2 ^ m]
  exact Nat.ModEq.mul_left _ ((Nat.mod_modEq _ _).of_dvd hd)

theorem last5 (k : ℕ) : ((word k 0 <<< 1) &&& 0x3f).toNat = 2 * k % 64 :=
  low_toNat k (m := 6) (by decide)

theorem first7 (k : ℕ) : ((word k 0 <<< 1) &&& 0xff).toNat = 2 * k % 256 :=
  low_toNat k (m := 8) (by decide)

/-! ### Windows of five bits, from the top -/

/-- The scalar down to bit `i`, rounded. -/
def top (k i : ℕ) : ℤ := ((k / 2 ^ i + 1) / 2 : ℕ)

theorem top_first {k : ℕ} (hk : k < 2 ^ 256) :
    digit (boothW5 ((word k 3 >>> 62) &&& 0x3f)) = top k 254 ∧
      (boothW5 ((word k 3 >>> 62) &&& 0x3f)).2 = 0 := by
  have h := first5 k hk
  have h4 : k / 2 ^ 254 < 4 := by omega
  have hb := booth5 (w := (word k 3 >>> 62) &&& 0x3f) (by omega)
  refine ⟨?_, hb.2.2 (by omega)⟩
  rw [hb.1, h, if_neg (by omega)]
  unfold top
  push_cast
  ring

theorem top_step {k i : ℕ} (hk : k < 2 ^ 256) (hi : i < 250) :
    top k i = 32 * top k (i + 5) + digit (boothW5 (window k i 0x3f)) := by
  have h := window5 hk (i := i) (by omega)
  have hb := booth5 (w := window k i 0x3f) (by omega)
  rw [hb.1, h]
  unfold top
  rw [pow_add, ← Nat.div_div_eq_div_mul]
  generalize k / 2 ^ i = a
  split <;> omega

theorem top_last (k : ℕ) :
    (32 : ℤ) * top k 4 + digit (boothW5 ((word k 0 <<< 1) &&& 0x3f)) = k := by
  have h := last5 k
  have hb := booth5 (w := (word k 0 <<< 1) &&& 0x3f) (by omega)
  rw [hb.1, h]
  unfold top
  split <;> omega

theorem top_sum {k : ℕ} (hk : k < 2 ^ 256) (n : ℕ) (hn : n ≤ 50) :
    digit (boothW5 ((word k 3 >>> 62) &&& 0x3f)) * 2 ^ 255 +
      ∑ i ∈ Finset.range n, digit (boothW5 (window k (249 - 5 * i) 0x3f)) * 2 ^ (250 - 5 * i) =
    top k (254 - 5 * n) * 2 ^ (255 - 5 * n) := by
  induction n with
  | zero =>
    rw [Finset.range_zero, Finset.sum_empty, add_zero, (top_first hk).1]
  | succ n ih =>
    rw [Finset.sum_range_succ, ← add_assoc, ih (by omega),
      show 254 - 5 * (n + 1) = 249 - 5 * n by omega, top_step hk (i := 249 - 5 * n) (by omega),
      show 249 - 5 * n + 5 = 254 - 5 * n by omega,
      show 255 - 5 * n = 5 + (250 - 5 * n) by omega, show 255 - 5 * (n + 1) = 250 - 5 * n by omega,
      pow_add]
    ring

/-! ### Windows of seven bits, from the bottom -/

/-- The value of the first `n + 1` digits. -/
def low (k n : ℕ) : ℤ :=
  (k % 2 ^ (7 * n + 6) : ℕ) - (2 ^ (7 * n + 6) : ℕ) * (k / 2 ^ (7 * n + 6) % 2 : ℕ)

theorem low_first (k : ℕ) : digit (boothW7 ((word k 0 <<< 1) &&& 0xff)) = low k 0 := by
  have h := first7 k
  have hb := booth7 (w := (word k 0 <<< 1) &&& 0xff) (by omega)
  rw [hb.1, h]
  unfold low
  norm_num
  split <;> omega

theorem low_step {k n : ℕ} (hk : k < 2 ^ 256) (hn : n < 36) :
    low k (n + 1) = low k n + digit (boothW7 (window k (7 * (n + 1) - 1) 0xff)) * 2 ^ (7 * (n + 1)) := by
  have h := window7 hk (i := 7 * (n + 1) - 1) (by omega)
  have hb := booth7 (w := window k (7 * (n + 1) - 1) 0xff) (by omega)
  rw [hb.1, h]
  unfold low
  rw [show 7 * (n + 1) - 1 = 7 * n + 6 by omega, show 7 * (n + 1) + 6 = 7 * n + 6 + 7 by omega,
    show (2 : ℤ) ^ (7 * (n + 1)) = ((2 ^ (7 * n + 6) : ℕ) : ℤ) * 2 by push_cast; ring,
    pow_add (2 : ℕ) (7 * n + 6) 7]
  generalize 2 ^ (7 * n + 6) = m
  rw [← Nat.div_div_eq_div_mul, Nat.mod_mul]
  generalize k / m = a
  generalize k % m = r
  have key : ((a % 2 ^ 7 : ℕ) : ℤ) - 128 * ((a / 2 ^ 7 % 2 : ℕ) : ℤ) = -((a % 2 : ℕ) : ℤ) +
      2 * ((((a % 256 : ℕ) : ℤ) + 1) / 2 - if 128 ≤ a % 256 then 128 else 0) := by
    split <;> omega
  push_cast at key ⊢
  linear_combination (m : ℤ) * key

theorem low_sum {k : ℕ} (hk : k < 2 ^ 256) (n : ℕ) (hn : n ≤ 36) :
    digit (boothW7 ((word k 0 <<< 1) &&& 0xff)) +
      ∑ i ∈ Finset.range n, digit (boothW7 (window k (7 * (i + 1) - 1) 0xff)) * 2 ^ (7 * (i + 1)) =
    low k n := by
  induction n with
  | zero => rw [Finset.range_zero, Finset.sum_empty, add_zero, low_first]
  | succ n ih => rw [Finset.sum_range_succ, ← add_assoc, ih (by omega), low_step hk (by omega)]

theorem low_last {k : ℕ} (hk : k < 2 ^ 256) : low k 36 = k := by
  unfold low
  have h1 : k < 2 ^ 258 := hk.trans (Nat.pow_lt_pow_right (by decide) (by decide))
  rw [show 7 * 36 + 6 = 258 by rfl, Nat.mod_eq_of_lt h1, Nat.div_eq_of_lt h1]
  simp

end Verif.X64.P256
