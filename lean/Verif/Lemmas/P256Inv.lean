/-
Inversion modulo the group order on amd64.
-/
import Verif.Lemmas.P256Refine
import Verif.Lemmas.CurveFacts
import Verif.Base.Curves
import Verif.Model.P256Mult
import Mathlib.Algebra.Field.ZMod
import Mathlib.FieldTheory.Finite.Basic

namespace Verif.X64.P256

open Verif.Curves

/-! ### The chain commutes with homomorphisms -/

section
variable {F G : Type} {m : F → F → F} {m' : G → G → G} {d : F} {d' : G} {f : F → G}

theorem map_ordSqN (hm : ∀ a b, f (m a b) = m' (f a) (f b)) (n : ℕ) (a : F) :
    f (ordSqN m n a) = ordSqN m' n (f a) := by
  induction n with
  | zero => rfl
  | succ n ih =>
    change f (m (ordSqN m n a) (ordSqN m n a)) = m' (ordSqN m' n (f a)) (ordSqN m' n (f a))
    rw [hm, ih]

theorem map_getD (hd : f d = d') (l : List F) (i : ℕ) : f (l.getD i d) = (l.map f).getD i d' := by
  rw [← hd, List.getD_eq_getElem?_getD, List.getD_eq_getElem?_getD, List.getElem?_map]
  cases l[i]? <;> rfl

theorem map_ordTableStep (hm : ∀ a b, f (m a b) = m' (f a) (f b)) (hd : f d = d') (l : List F)
    (i : ℕ) : (ordTableStep m d l i).map f = ordTableStep m' d' (l.map f) i := by
  unfold ordTableStep copyTail
  simp only [List.map_set, hm, map_getD hd, List.map_append, List.map_take, List.map_drop,
    List.length_map]

theorem map_ordTable (hm : ∀ a b, f (m a b) = m' (f a) (f b)) (hd : f d = d') (L : List ℕ)
    (l : List F) : (L.foldl (ordTableStep m d) l).map f = L.foldl (ordTableStep m' d') (l.map f) := by
  induction L generalizing l with
  | nil => rfl
  | cons i L ih => rw [List.foldl_cons, List.foldl_cons, ih, map_ordTableStep hm hd]

/-- The chain after the preparation of the table. -/
def ordRest (m : F → F → F) (d : F) (table : List F) : F :=
  let x := table.getD 14 d
  let x := ordSqN m 4 x
  let s := m x (table.getD 13 d)
  let x := m x (table.getD 14 d)
  let t := x
  let x := ordSqN m 8 x
  let s := m x s
  let x := m x t
  let t := x
  let x := ordSqN m 16 x
  let s := m x s
  let t := m x t
  let x := ordSqN m 32 s
  let x := m x t
  let x := ordSqN m 32 x
  let x := m x t
  let x := ordSqN m 32 x
  m x t

theorem map_ordRest (hm : ∀ a b, f (m a b) = m' (f a) (f b)) (hd : f d = d') (l : List F) :
    f (ordRest m d l) = ordRest m' d' (l.map f) := by
  unfold ordRest
  simp only [hm, map_ordSqN hm, map_getD hd]

/-- The table. -/
def ordTable (m : F → F → F) (d x : F) : List F :=
  [2, 4, 6, 8, 10, 12, 14].foldl (ordTableStep m d) (x :: List.replicate 14 d)

theorem ordChain_eq (m : F → F → F) (d x : F) :
    ordChain m d x = (ordTable m d x, ordRest m d (ordTable m d x)) := by
  simp only [ordChain, ordRest, ordTable]

theorem map_ordChain (hm : ∀ a b, f (m a b) = m' (f a) (f b)) (hd : f d = d') (x : F) :
    (ordChain m d x).1.map f = (ordChain m' d' (f x)).1 ∧
      f (ordChain m d x).2 = (ordChain m' d' (f x)).2 := by
  have hT : (ordTable m d x).map f = ordTable m' d' (f x) := by
    unfold ordTable
    rw [map_ordTable hm hd, List.map_cons, List.map_replicate, hd]
  have hR := map_ordRest (d' := d') (m' := m') hm hd (ordTable m d x)
  rw [hT] at hR
  simp only [ordChain_eq, hT, hR, and_self]

theorem map_ordWindows (hm : ∀ a b, f (m a b) = m' (f a) (f b)) (hd : f d = d') (t : List F)
    (x : F) : f (ordWindows m d t x) = ordWindows m' d' (t.map f) (f x) := by
  unfold ordWindows
  generalize expLo = L
  induction L generalizing x with
  | nil => rfl
  | cons e L ih =>
    rw [List.foldl_cons, List.foldl_cons, ih]
    congr 1
    dsimp only
    split
    · exact map_ordSqN hm 4 x
    · rw [hm, map_ordSqN hm, map_getD hd]

/-- The whole power. -/
def ordPow (m : F → F → F) (d x : F) : F :=
  ordWindows m d (ordChain m d x).1 (ordChain m d x).2

theorem map_ordPow (hm : ∀ a b, f (m a b) = m' (f a) (f b)) (hd : f d = d') (x : F) :
    f (ordPow m d x) = ordPow m' d' (f x) := by
  unfold ordPow
  rw [map_ordWindows hm hd, (map_ordChain hm hd x).1, (map_ordChain hm hd x).2]

end

/-! ### Exponents -/

/-- Addition of known exponents. -/
def addExp : Option ℕ → Option ℕ → Option ℕ
  | some a, some b => some (a + b)
  | _, _ => none

instance factN : Fact (sm2.N).Prime := ⟨sm2_order_prime⟩

/-- The scalars. -/
abbrev L := ZMod sm2.N

/-- The power with a given exponent. -/
def powOf (x : L) : Option ℕ → L
  | some e => x ^ e
  | none => 0

theorem powOf_add (x : L) (a b : Option ℕ) : powOf x (addExp a b) = powOf x a * powOf x b := by
  cases a <;> cases b <;> simp [powOf, addExp, pow_add]

theorem ordPow_exp : ordPow addExp none (some 1) = some (sm2.N - 2) := by decide +kernel

theorem ordPow_pow (x : L) : ordPow (· * ·) 0 x = x ^ (sm2.N - 2) := by
  have h := map_ordPow (f := powOf x) (m := addExp) (m' := (· * ·)) (d := none) (d' := 0)
    (powOf_add x) rfl (some 1)
  rw [ordPow_exp] at h
  simp only [powOf, pow_one] at h
  exact h.symm

theorem ordPow_inv (x : L) : ordPow (· * ·) 0 x = x⁻¹ := by
  rw [ordPow_pow]
  by_cases h : x = 0
  · subst h
    rw [inv_zero, zero_pow (by decide +kernel)]
  · refine eq_inv_of_mul_eq_one_left ?_
    rw [← pow_succ, show sm2.N - 2 + 1 = sm2.N - 1 by decide +kernel]
    exact ZMod.pow_card_sub_one_eq_one h

/-! ### The numbers of the program -/

theorem RN_ne : ((2 : L) ^ 256) ≠ 0 := by
  intro h
  have h2 : (2 : L) = 0 := by simpa using h
  have : ((2 : ℕ) : L) = 0 := by exact_mod_cast h2
  rw [ZMod.natCast_eq_zero_iff] at this
  exact absurd this (by decide +kernel)

theorem mulN_cast (a b : ℕ) : ((mulN a b : ℕ) : L) * 2 ^ 256 = a * b := by
  have h : mulN a b * 2 ^ 256 ≡ a * b [MOD sm2.N] := redc_modEq Nk_spec
  have := (ZMod.natCast_eq_natCast_iff _ _ _).2 h
  exact_mod_cast this

theorem mulN_lt {a b : ℕ} (ha : a < 2 ^ 256) (hb : b < 2 ^ 256) : mulN a b < 2 ^ 256 :=
  redc_lt_two_pow (by decide +kernel) (Nat.mul_lt_mul'' ha hb)

/-- The scalar a number in the Montgomery domain stands for. -/
noncomputable def scalarOf (v : ℕ) : L := v * ((2 : L) ^ 256)⁻¹

theorem scalarOf_mul (a b : ℕ) : scalarOf (mulN a b) = scalarOf a * scalarOf b := by
  unfold scalarOf
  have h := mulN_cast a b
  have hR := RN_ne
  generalize (2 : L) ^ 256 = R at *
  have h' : ((mulN a b : ℕ) : L) = a * b * R⁻¹ := by
    rw [← h, mul_assoc, mul_inv_cancel₀ hR, mul_one]
  rw [h']
  ring

theorem scalarOf_ordPow (v : ℕ) : scalarOf (ordPow mulN 0 v) = (scalarOf v)⁻¹ := by
  rw [map_ordPow (f := scalarOf) (m' := (· * ·)) (d' := 0) scalarOf_mul (by simp [scalarOf]),
    ordPow_inv]

/-- Numbers of four words. -/
structure Word4 where
  val : ℕ
  lt : val < 2 ^ 256

theorem ordPow_lt {v : ℕ} (hv : v < 2 ^ 256) : ordPow mulN 0 v < 2 ^ 256 := by
  have h := map_ordPow (F := Word4) (f := Word4.val) (m' := mulN) (d' := 0)
    (m := fun a b => ⟨mulN a.1 b.1, mulN_lt a.2 b.2⟩) (d := ⟨0, by decide⟩) (fun _ _ => rfl) rfl
    ⟨v, hv⟩
  rw [← h]
  exact Word4.lt _

theorem ordRR_cast : ((ordRR : ℕ) : L) = 2 ^ 256 * 2 ^ 256 := by
  have h : ordRR ≡ 2 ^ 256 * 2 ^ 256 [MOD sm2.N] := by decide +kernel
  have := (ZMod.natCast_eq_natCast_iff _ _ _).2 h
  exact_mod_cast this

/-- The scalar Inverse works on. -/
def invArg (k : ℤ) : ℕ := (|k| % sm2.N).toNat

theorem invArg_lt (k : ℤ) : invArg k < sm2.N := by
  have h0 : (0 : ℤ) < sm2.N := by decide +kernel
  have h1 := Int.emod_lt_of_pos |k| h0
  have h2 := Int.emod_nonneg |k| h0.ne'
  unfold invArg
  omega

theorem inverse_eq (k : ℤ) : inverse k = mulN (ordPow mulN 0 (mulN (invArg k) ordRR)) 1 := by
  have hk : (if (N : ℤ) ≤ (if k < 0 then -k else k) then (if k < 0 then -k else k) % N
      else (if k < 0 then -k else k)) = |k| % sm2.N := by
    have ha : (if k < 0 then -k else k) = |k| := by
      split
      · rw [abs_of_neg (by assumption)]
      · rw [abs_of_nonneg (by omega)]
    rw [ha]
    split
    · rfl
    · rename_i h
      exact (Int.emod_eq_of_lt (abs_nonneg k) (not_le.1 h)).symm
  unfold inverse
  simp only [hk]
  rfl

theorem inverse_val (k : ℤ) : inverse k = ((|k| : ℤ) : L)⁻¹.val := by
  have hlt : mulN (invArg k) ordRR < 2 ^ 256 :=
    mulN_lt ((invArg_lt k).trans (by decide +kernel)) (by decide +kernel)
  rw [inverse_eq]
  have hp := ordPow_lt hlt
  have h1 : mulN (ordPow mulN 0 (mulN (invArg k) ordRR)) 1 < sm2.N := by
    refine redc_lt ?_
    rw [Nat.mul_one]
    exact hp.trans_le (Nat.le_mul_of_pos_left _ (by decide +kernel))
  have hs : scalarOf (mulN (invArg k) ordRR) = ((|k| : ℤ) : L) := by
    have hR := RN_ne
    rw [scalarOf_mul]
    unfold scalarOf
    rw [ordRR_cast]
    have e : ((invArg k : ℕ) : L) = ((|k| : ℤ) : L) := by
      have h0 : (0 : ℤ) < sm2.N := by decide +kernel
      have h2 := Int.emod_nonneg |k| h0.ne'
      have : ((invArg k : ℕ) : ℤ) = |k| % sm2.N := Int.toNat_of_nonneg h2
      have h3 : (((invArg k : ℕ) : ℤ) : L) = ((|k| % sm2.N : ℤ) : L) := by rw [this]
      rw [Int.cast_natCast] at h3
      rw [h3]
      exact ZMod.intCast_mod _ _
    rw [e]
    generalize (2 : L) ^ 256 = R at *
    rw [mul_assoc, mul_assoc, mul_inv_cancel₀ hR, mul_one, inv_mul_cancel₀ hR, mul_one]
  have h2 := mulN_cast (ordPow mulN 0 (mulN (invArg k) ordRR)) 1
  have h3 := scalarOf_ordPow (mulN (invArg k) ordRR)
  rw [hs] at h3
  unfold scalarOf at h3
  rw [← h3]
  have h4 : ((ordPow mulN 0 (mulN (invArg k) ordRR) : ℕ) : L) * (2 ^ 256)⁻¹ =
      ((mulN (ordPow mulN 0 (mulN (invArg k) ordRR)) 1 : ℕ) : L) := by
    rw [Nat.cast_one, mul_one] at h2
    rw [← h2, mul_assoc, mul_inv_cancel₀ RN_ne, mul_one]
  rw [h4, ZMod.val_natCast_of_lt h1]

end Verif.X64.P256
