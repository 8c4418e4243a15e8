/-
The field and scalar arithmetic of sm2/p256_asm_amd64.s (C52, C53, C56): statements about the
execution of the instructions of the routines from an arbitrary machine state.
-/
import Verif.Lemmas.P256Refine
import Verif.Spec.P256
import Verif.Base.Curves

namespace Verif.Props

open Verif.X64 Verif.X64.P256 Verif.Spec.P256

/-- The SM2 field prime. -/
local notation "p" => Curves.sm2.P
/-- The order of the SM2 group. -/
local notation "n" => Curves.sm2.N

theorem num_eq (m : W → W) (a : W) : num m a = rd4 m a := by
  unfold num rd4; ring

theorem regs_eq (w0 w1 w2 w3 : W) : regs w0 w1 w2 w3 = val4 w0 w1 w2 w3 := by
  unfold regs val4; ring

theorem onlyAt_wr4 (m : W → W) (a : W) (v : ℕ) : OnlyAt a m (wr4 m a v) :=
  fun _ h0 h1 h2 h3 => wr4_other h0 h1 h2 h3

theorem mul_bound {a b q R : ℕ} (ha : a < R) (hb : b < R) (h : a < q ∨ b < q) (hq : 0 < q) :
    a * b < q * R := by
  rcases h with h | h
  · calc a * b ≤ a * R := Nat.mul_le_mul_left a hb.le
      _ < q * R := Nat.mul_lt_mul_of_pos_right h (by omega)
  · calc a * b ≤ R * b := Nat.mul_le_mul_right b ha.le
      _ < R * q := Nat.mul_lt_mul_of_pos_left h (by omega)
      _ = q * R := Nat.mul_comm _ _

/-- C52: p256_sm2Mul(res, in1, in2), from any machine state (any operands, any overlap of the
three arguments): the four words at `res` become `a * b * 2^-256` modulo `p`, fully reduced if
one of the operands is, and no other memory changes. -/
theorem C52_mul (s : St) :
    let a := num s.mem (s.arg 24)
    let b := num s.mem (s.arg 48)
    let s' := exec mul s
    let r := num s'.mem (s.arg 0)
    r * 2 ^ 256 ≡ a * b [MOD p] ∧ (a < p ∨ b < p → r < p) ∧ OnlyAt (s.arg 0) s.mem s'.mem := by
  dsimp only
  simp only [num_eq]
  rw [exec_mul]
  have ha := rd4_lt s.mem (s.arg 24)
  have hb := rd4_lt s.mem (s.arg 48)
  have hr : mulP (rd4 s.mem (s.arg 24)) (rd4 s.mem (s.arg 48)) < 2 ^ 256 :=
    redc_lt_two_pow (by decide +kernel) (Nat.mul_lt_mul'' ha hb)
  rw [rd4_wr4 _ _ hr]
  refine ⟨redc_modEq Pk_spec, fun h => redc_lt ?_, onlyAt_wr4 _ _ _⟩
  exact mul_bound ha hb h (by decide +kernel)

/-- C52: p256_sm2Sqr(res, in): the same with both operands `in`. -/
theorem C52_sqr (s : St) :
    let a := num s.mem (s.arg 24)
    let s' := exec sqr s
    let r := num s'.mem (s.arg 0)
    r * 2 ^ 256 ≡ a * a [MOD p] ∧ (a < p → r < p) ∧ OnlyAt (s.arg 0) s.mem s'.mem := by
  dsimp only
  simp only [num_eq]
  rw [exec_sqr]
  have ha := rd4_lt s.mem (s.arg 24)
  have hr : sqrP (rd4 s.mem (s.arg 24)) < 2 ^ 256 :=
    redc_lt_two_pow (by decide +kernel) (Nat.mul_lt_mul'' ha ha)
  rw [rd4_wr4 _ _ hr]
  refine ⟨redc_modEq Pk_spec, fun h => redc_lt ?_, onlyAt_wr4 _ _ _⟩
  exact mul_bound ha ha (Or.inl h) (by decide +kernel)

/-- C52: p256_sm2FromMont(res, in): `a * 2^-256` modulo `p`, fully reduced for every operand. -/
theorem C52_fromMont (s : St) :
    let a := num s.mem (s.arg 24)
    let s' := exec fromMont s
    let r := num s'.mem (s.arg 0)
    r * 2 ^ 256 ≡ a [MOD p] ∧ r < p ∧ OnlyAt (s.arg 0) s.mem s'.mem := by
  dsimp only
  simp only [num_eq]
  rw [exec_fromMont]
  have ha := rd4_lt s.mem (s.arg 24)
  have hr : fromMontP (rd4 s.mem (s.arg 24)) < P :=
    redc_lt (ha.trans_le (Nat.le_mul_of_pos_left _ (by decide +kernel)))
  rw [rd4_wr4 _ _ (hr.trans (by decide +kernel))]
  exact ⟨redc_modEq Pk_spec, hr, onlyAt_wr4 _ _ _⟩

/-- C53: p256_sm2OrdMul(res, in1, in2): `a * b * 2^-256` modulo the group order. -/
theorem C53_ordMul (s : St) :
    let a := num s.mem (s.arg 24)
    let b := num s.mem (s.arg 48)
    let s' := exec ordMul s
    let r := num s'.mem (s.arg 0)
    r * 2 ^ 256 ≡ a * b [MOD n] ∧ (a < n ∨ b < n → r < n) ∧ OnlyAt (s.arg 0) s.mem s'.mem := by
  dsimp only
  simp only [num_eq]
  rw [exec_ordMul]
  have ha := rd4_lt s.mem (s.arg 24)
  have hb := rd4_lt s.mem (s.arg 48)
  have hr : mulN (rd4 s.mem (s.arg 24)) (rd4 s.mem (s.arg 48)) < 2 ^ 256 :=
    redc_lt_two_pow (by decide +kernel) (Nat.mul_lt_mul'' ha hb)
  rw [rd4_wr4 _ _ hr]
  refine ⟨redc_modEq Nk_spec, fun h => redc_lt ?_, onlyAt_wr4 _ _ _⟩
  exact mul_bound ha hb h (by decide +kernel)

/-! ### The internal routines, which take operands in registers -/

/-- C52: p256_sm2MulInternal: the operands in acc (R10-R13) and t (R14, R15, DI, SI), the product
in acc; t, the stack frame and memory are kept. -/
theorem C52_mulInternal (s : St) :
    let a := regs s.r10 s.r11 s.r12 s.r13
    let b := regs s.r14 s.r15 s.di s.si
    let s' := exec mulInternal s
    let r := regs s'.r10 s'.r11 s'.r12 s'.r13
    r * 2 ^ 256 ≡ a * b [MOD p] ∧ (a < p ∨ b < p → r < p) ∧
      (s'.r14, s'.r15, s'.di, s'.si) = (s.r14, s.r15, s.di, s.si) ∧
      s'.mem = s.mem ∧ s'.stk = s.stk := by
  dsimp only
  have := @mulInternal_wp (fun s' => val4 s'.r10 s'.r11 s'.r12 s'.r13 =
      mulP (val4 s.r10 s.r11 s.r12 s.r13) (val4 s.r14 s.r15 s.di s.si) ∧
      (s'.r14, s'.r15, s'.di, s'.si) = (s.r14, s.r15, s.di, s.si) ∧
      s'.mem = s.mem ∧ s'.stk = s.stk) s []
    (fun _ _ _ _ _ _ _ _ _ _ _ _ _ h => ⟨words_val4 h, rfl, rfl, rfl⟩)
  rw [List.append_nil] at this
  obtain ⟨h1, h2⟩ := this
  simp only [regs_eq]
  rw [h1]
  refine ⟨redc_modEq Pk_spec, fun h => redc_lt ?_, h2⟩
  exact mul_bound (val4_lt _ _ _ _) (val4_lt _ _ _ _) h (by decide +kernel)

/-- C52: p256_sm2SqrInternal. -/
theorem C52_sqrInternal (s : St) :
    let a := regs s.r10 s.r11 s.r12 s.r13
    let s' := exec sqrInternal s
    let r := regs s'.r10 s'.r11 s'.r12 s'.r13
    r * 2 ^ 256 ≡ a * a [MOD p] ∧ (a < p → r < p) ∧ s'.mem = s.mem ∧ s'.stk = s.stk := by
  dsimp only
  have := @sqrInternal_wp (fun s' => val4 s'.r10 s'.r11 s'.r12 s'.r13 =
      sqrP (val4 s.r10 s.r11 s.r12 s.r13) ∧ s'.mem = s.mem ∧ s'.stk = s.stk) s []
    (fun _ _ _ _ _ _ _ _ _ _ _ _ _ _ _ _ _ h => ⟨words_val4 h, rfl, rfl⟩)
  rw [List.append_nil] at this
  obtain ⟨h1, h2⟩ := this
  simp only [regs_eq]
  rw [h1]
  refine ⟨redc_modEq Pk_spec, fun h => redc_lt ?_, h2⟩
  exact mul_bound (val4_lt _ _ _ _) (val4_lt _ _ _ _) (Or.inl h) (by decide +kernel)

theorem exec_subInternal (s : St) :
    val4 (exec subInternal s).r10 (exec subInternal s).r11 (exec subInternal s).r12
      (exec subInternal s).r13 = subP (val4 s.r10 s.r11 s.r12 s.r13)
        (val4 s.r14 s.r15 s.di s.si) := by
  have := @subInternal_wp (fun s' => val4 s'.r10 s'.r11 s'.r12 s'.r13 =
      subP (val4 s.r10 s.r11 s.r12 s.r13) (val4 s.r14 s.r15 s.di s.si)) s []
    (fun _ _ _ _ _ _ _ _ _ _ _ h => words_val4 h)
  rwa [List.append_nil] at this

/-- C56, the part that holds: p256_sm2SubInternal returns the right residue whenever the
subtrahend is at most `a + p`, in particular for all reduced operands.  The result is fully
reduced exactly when it is not the case that `a - b` is between 0 and `2^256 - p`.  What is
missing: full reduction, and the right residue when `b > a + p`; both fail
(`C56_unreduced`, `C56_wrong`). -/
theorem C56_sub_partial (s : St) :
    let a := regs s.r10 s.r11 s.r12 s.r13
    let b := regs s.r14 s.r15 s.di s.si
    let s' := exec subInternal s
    let r := regs s'.r10 s'.r11 s'.r12 s'.r13
    (b ≤ a + p → r + b ≡ a [MOD p]) ∧
    (a < p → b < p → (r < p ↔ ¬ (b ≤ a ∧ a - b + p < 2 ^ 256))) := by
  dsimp only
  simp only [regs_eq]
  rw [exec_subInternal]
  have ha := val4_lt s.r10 s.r11 s.r12 s.r13
  have hb := val4_lt s.r14 s.r15 s.di s.si
  generalize val4 s.r10 s.r11 s.r12 s.r13 = a at *
  generalize val4 s.r14 s.r15 s.di s.si = b at *
  have hP : p = P := rfl
  have key : ∀ k, (a + k * P : ℕ) ≡ a [MOD P] := fun k => by
    simp [Nat.ModEq]
  rw [hP]
  constructor
  · intro h
    unfold subP
    split
    · split
      · rw [show a - b + P + b = a + 1 * P by omega]; exact key 1
      · rw [show a - b + b = a by omega]
    · rw [show a + P - b + b = a + 1 * P by omega]; exact key 1
  · intro h1 h2
    unfold subP
    split
    · split
      · omega
      · constructor
        · intro _; omega
        · intro _; omega
    · rw [if_pos (by omega)]
      constructor
      · intro _; omega
      · intro _; omega

/-- A machine state with the given numbers in acc and t. -/
def regState (a0 a1 a2 a3 t0 t1 t2 t3 : W) : St :=
  { ax := 0, bx := 0, cx := 0, dx := 0, bp := 0, r8 := 0, r9 := 0, r10 := a0, r11 := a1,
    r12 := a2, r13 := a3, r14 := t0, r15 := t1, di := t2, si := t3, cf := false, zf := false,
    x := fun _ => ⟨0, 0, 0, 0⟩, mem := fun _ => 0, stk := fun _ => 0, arg := fun _ => 0 }

/-- C56 is false as stated: for the reduced operands `a = b = 0` the subtraction returns `p`. -/
theorem C56_unreduced :
    ∃ s : St, regs s.r10 s.r11 s.r12 s.r13 < p ∧ regs s.r14 s.r15 s.di s.si < p ∧
      let s' := exec subInternal s
      ¬ regs s'.r10 s'.r11 s'.r12 s'.r13 < p := by
  refine ⟨regState 0 0 0 0 0 0 0 0, by decide +kernel, by decide +kernel, ?_⟩
  dsimp only
  rw [regs_eq, exec_subInternal]
  decide +kernel

/-- Unreduced operands, which the routine itself produces, can give a wrong residue: with `a = 0`
and `b = p + 1` the result is not congruent to `a - b`. -/
theorem C56_wrong :
    ∃ s : St, regs s.r10 s.r11 s.r12 s.r13 = 0 ∧ regs s.r14 s.r15 s.di s.si = p + 1 ∧
      let s' := exec subInternal s
      ¬ regs s'.r10 s'.r11 s'.r12 s'.r13 + (p + 1) ≡ 0 [MOD p] := by
  refine ⟨regState 0 0 0 0 0 0xFFFFFFFF00000001 0xFFFFFFFFFFFFFFFF 0xFFFFFFFEFFFFFFFF,
    by decide +kernel, by decide +kernel, ?_⟩
  dsimp only
  rw [regs_eq, exec_subInternal]
  unfold Nat.ModEq
  decide +kernel

/-! ### Concrete, non-trivial cases -/

/-- A machine state with the addresses of res, in1 and in2 and the same four words everywhere. -/
def memState (res in1 in2 : W) (m : W → W) : St :=
  { regState 0 0 0 0 0 0 0 0 with
    mem := m, arg := fun i => if i = 0 then res else if i = 24 then in1 else in2 }

/-- `in1` and `in2` the same memory as `res`, an operand that is not reduced. -/
example : num (memState 64 64 64 (fun _ => BitVec.allOnes 64)).mem
    ((memState 64 64 64 (fun _ => BitVec.allOnes 64)).arg 24) = 2 ^ 256 - 1 := by decide +kernel

/-- Executing the instructions on operands `2^256 - 1` gives the claimed product. -/
example : num (exec mul (memState 64 64 64 (fun _ => BitVec.allOnes 64))).mem 64 * 2 ^ 256 % p =
    (2 ^ 256 - 1) * (2 ^ 256 - 1) % p := by decide +kernel

/-- The hypotheses of `C56_sub_partial` with a borrow. -/
example : regs (regState 1 2 3 4 5 6 7 8).r10 (regState 1 2 3 4 5 6 7 8).r11
      (regState 1 2 3 4 5 6 7 8).r12 (regState 1 2 3 4 5 6 7 8).r13 <
    regs (regState 1 2 3 4 5 6 7 8).r14 (regState 1 2 3 4 5 6 7 8).r15
      (regState 1 2 3 4 5 6 7 8).di (regState 1 2 3 4 5 6 7 8).si ∧
    regs (regState 1 2 3 4 5 6 7 8).r14 (regState 1 2 3 4 5 6 7 8).r15
      (regState 1 2 3 4 5 6 7 8).di (regState 1 2 3 4 5 6 7 8).si < p := by decide +kernel

end Verif.Props
