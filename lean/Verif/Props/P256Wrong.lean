/-
C79, C80, C81 are false as stated: what the amd64 point routines get wrong.
-/
import Verif.Props.P256Curve

namespace Verif.Props

open Verif.X64 Verif.X64.P256 Verif.Spec Verif.Spec.P256

/-- The SM2 field prime. -/
local notation "p" => Curves.sm2.P
/-- The order of the SM2 group. -/
local notation "n" => Curves.sm2.N

/-- Words stand for one point only. -/
theorem stands_unique {m : X64.W → X64.W} {a : X64.W} {P Q : SM2.Point} (h1 : Stands m a P)
    (h2 : Stands m a Q) : P = Q := by
  rw [stands_iff] at h1 h2
  exact Verif.Affine.xy_inj good_sm2.ok
    ((toAffine_reps invP_inv h1).symm.trans (toAffine_reps invP_inv h2))

theorem add_self_ne {P : SM2.Point} (hP : P ≠ 0) : P + P ≠ 0 := by
  rw [← two_zsmul, Ne, zsmul_eq_zero amd64_sm2 hP]
  decide +kernel

/-- C79 is false: whenever one of the points is infinity and the other is not, or both are the same point
other than infinity, the result of an exact addition does not stand for the sum. -/
theorem C79_wrong (s : St) (P Q : SM2.Point) (hP : Stands s.mem (s.arg 24) P)
    (hQ : Stands s.mem (s.arg 48) Q) (he : ExactAdd s.mem (s.arg 24) (s.arg 48))
    (h : (P = 0 ∧ Q ≠ 0) ∨ (P ≠ 0 ∧ Q = 0) ∨ (P = Q ∧ P ≠ 0)) :
    ¬ Stands (exec pointAddAsm s).mem (s.arg 0) (P + Q) := by
  intro hs
  have h0 := (C79_pointAdd_partial s P Q hP hQ he).2.1 (by tauto)
  have := stands_unique hs h0
  rcases h with ⟨rfl, h⟩ | ⟨h, rfl⟩ | ⟨rfl, h⟩
  · exact h (by rwa [zero_add] at this)
  · exact h (by rwa [add_zero] at this)
  · exact add_self_ne h this

/-- The state of `exState`, with both points at address 0. -/
def sameState : St := { exState with arg := fun i => if i = 0 then 4096 else 0 }

/-- A case that meets the hypotheses: `G + G`. -/
example : ∃ P : SM2.Point, P ≠ 0 ∧ Stands sameState.mem (sameState.arg 24) P ∧
    Stands sameState.mem (sameState.arg 48) P ∧
    ExactAdd sameState.mem (sameState.arg 24) (sameState.arg 48) := by
  have h1 : OnCurve Curves.sm2 (-3) Curves.sm2.Gx Curves.sm2.Gy := by decide +kernel
  refine ⟨Verif.Affine.ofXY good_sm2.ok h1, nofun, stands_ofXY h1 ?_ ?_ ?_, stands_ofXY h1 ?_ ?_ ?_, ?_⟩
  all_goals decide +kernel

/-- C81 is false: with both selectors set, when the first point is infinity or equal to the second with
its sign, the result of an exact addition stands for infinity, which is not the sum. -/
theorem C81_wrong (s : St) (P Q : SM2.Point) (hP : Stands s.mem (s.arg 24) P)
    (hQ : StandsXY s.mem (s.arg 48) Q) (h1 : (s.arg 88).toNat % 2 ^ 32 ≠ 0)
    (h2 : (s.arg 80).toNat % 2 ^ 32 ≠ 0)
    (he : ExactAddAffine s.mem (s.arg 24) (s.arg 48) (decide (s.arg 72 ≠ 0)))
    (h : P = 0 ∨ P = if s.arg 72 = 0 then Q else -Q) :
    Stands (exec pointAddAffineAsm s).mem (s.arg 0) 0 ∧
    ¬ Stands (exec pointAddAffineAsm s).mem (s.arg 0) (P + if s.arg 72 = 0 then Q else -Q) := by
  have h0 := (C81_pointAddAffine_partial s P Q hP hQ).2.2.2 h1 h2 he |>.2 h
  have hQ0 : Q ≠ 0 := by
    rintro rfl
    exact hQ
  have hQ' : (if s.arg 72 = 0 then Q else -Q) ≠ 0 := by
    split
    · exact hQ0
    · exact neg_ne_zero.2 hQ0
  refine ⟨h0, fun hs => ?_⟩
  have := stands_unique hs h0
  rcases h with rfl | h
  · exact hQ' (by rwa [zero_add] at this)
  · rw [← h] at this hQ'
    exact add_self_ne hQ' this

/-- A case that meets the hypotheses: `G + G`. -/
example : ∃ P : SM2.Point,
    let s : St := { exState with arg := fun i => if i = 0 then 4096 else if i < 73 then 0 else 1 }
    Stands s.mem (s.arg 24) P ∧ StandsXY s.mem (s.arg 48) P ∧ (s.arg 88).toNat % 2 ^ 32 ≠ 0 ∧
    (s.arg 80).toNat % 2 ^ 32 ≠ 0 ∧
    ExactAddAffine s.mem (s.arg 24) (s.arg 48) (decide (s.arg 72 ≠ 0)) ∧ s.arg 72 = 0 := by
  have h1 : OnCurve Curves.sm2 (-3) Curves.sm2.Gx Curves.sm2.Gy := by decide +kernel
  refine ⟨Verif.Affine.ofXY good_sm2.ok h1, stands_ofXY h1 ?_ ?_ ?_, standsXY_ofXY h1 ?_ ?_, ?_⟩
  all_goals decide +kernel

/-- The words of a point other than infinity and its first coordinate. -/
theorem stands_cross {m : X64.W → X64.W} {a : X64.W} {Q : SM2.Point} {v : ℕ × ℕ} (h : Stands m a Q)
    (hv : xy Q = v) (h0 : v ≠ (0, 0)) :
    num m a * 2 ^ 256 ≡ v.1 * num m (a + 64) ^ 2 [MOD p] := by
  subst hv
  cases Q with
  | zero => exact absurd rfl h0
  | some x y hn =>
    obtain ⟨z, _, h1, _, h3⟩ := h
    rw [← ZMod.natCast_eq_natCast_iff, Nat.cast_mul, Nat.cast_mul, Nat.cast_pow, Nat.cast_pow]
    have h1' : (num m a : K) = x * z ^ 2 * 2 ^ 256 := h1
    have h3' : (num m (a + 64) : K) = z * 2 ^ 256 := h3
    rw [h1', h3', Verif.Affine.xy_some, ZMod.natCast_zmod_val, Nat.cast_ofNat]
    ring

/-! Doubling twice. -/

/-- The point of `C57_wrong_point` with `z = 1`, as the routines hold it. -/
def badJac : Jac ℕ := fromXY badX badY

/-- A memory with that point at address 0. -/
def badMem (a : X64.W) : X64.W :=
  word ([badJac.x, badJac.y, badJac.z].getD (a.toNat / 32) 0) (a.toNat % 32 / 8)

/-- The state that doubles it in place. -/
def badState : St := { exState with mem := badMem, arg := fun _ => 0 }

/-- Any state with other arguments is a state. -/
theorem exists_args (t : St) (a : X64.W) : ∃ u : St, u.mem = t.mem ∧ u.arg 0 = a ∧ u.arg 24 = a :=
  ⟨{ t with arg := fun _ => a }, rfl, rfl, rfl⟩

/-- Doubling twice in place: if the first doubling is exact, and the result of the second is not a
multiple of the right one, the second is wrong. -/
theorem double_twice (s : St) (P : SM2.Point) (hP : Stands s.mem (s.arg 24) P)
    (he : ExactDouble s.mem (s.arg 24)) (v : ℕ × ℕ) (hv : xy (P + P + (P + P)) = v) (h0 : v ≠ (0, 0))
    (hb : ¬ (pointDouble (pointDouble (rdJac s.mem (s.arg 24)))).x * 2 ^ 256 ≡
      v.1 * (pointDouble (pointDouble (rdJac s.mem (s.arg 24)))).z ^ 2 [MOD p]) :
    ∃ (s : St) (P : SM2.Point), Stands s.mem (s.arg 24) P ∧
      ¬ Stands (exec pointDoubleAsm s).mem (s.arg 0) (P + P) := by
  have h2 := (C80_pointDouble_partial s P hP he).1
  have hd := (exec_pointDouble s).1
  obtain ⟨u, hm, h0u, h24⟩ := exists_args (exec pointDoubleAsm s) (s.arg 0)
  have hd2 := (exec_pointDouble u).1
  rw [h24, hm, hd, h0u, ← jacAt_eq] at hd2
  refine ⟨u, P + P, by rw [hm, h24]; exact h2, fun h => hb ?_⟩
  have hc := stands_cross h hv h0
  rw [h0u] at hc
  rw [← hd2]
  exact hc

/-- C80 is false: a point of the curve whose Jacobian coordinates, computed by the doubling routine
itself, are not doubled rightly. -/
theorem C80_wrong : ∃ (s : St) (P : SM2.Point), Stands s.mem (s.arg 24) P ∧
    ¬ Stands (exec pointDoubleAsm s).mem (s.arg 0) (P + P) := by
  have hB := Verif.Affine.xy_ofXY good_sm2.ok bad_on (by decide +kernel) (by decide +kernel)
  have hS : Stands badState.mem (badState.arg 24) (Verif.Affine.ofXY good_sm2.ok bad_on) :=
    stands_ofXY bad_on (by decide +kernel) (by decide +kernel) (by decide +kernel)
  generalize Verif.Affine.ofXY good_sm2.ok bad_on = P at hB hS
  refine double_twice badState P hS (by decide +kernel)
    (Verif.Affine.smul p (p - 3) 4 (badX, badY)) ?_ (by decide +kernel) (by decide +kernel)
  rw [← hB, Verif.Affine.smul_eq good_sm2.ok _ Curves.sm2_aN]
  congr 1

end Verif.Props
