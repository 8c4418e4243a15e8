/-
The assembly routine p256_sm2OrdSqr, declared in sm2/p256_amd64.go:110 and called nowhere.  `Inverse` calls the Go
function p256_sm2OrdSqr2 in its place (C54).
-/
import Verif.Model.P256OrdSqr
import Verif.Lemmas.P256Run

namespace Verif.Props

open Verif.X64 Verif.X64.P256

/-- A machine at the start of `p256_sm2OrdSqr(res, in, n)` with the number `v` at `in`. -/
def ordSqrCall (v n : Nat) : St :=
  { ax := 0, bx := 0, cx := 0, dx := 0, si := 0, di := 0, bp := 0, r8 := 0, r9 := 0, r10 := 0, r11 := 0, r12 := 0,
    r13 := 0, r14 := 0, r15 := 0, cf := false, zf := false, x := fun _ => ⟨0, 0, 0, 0⟩, mem := wr4 (fun _ => 0) 64 v,
    stk := fun _ => 0, arg := fun k => if k = 0 then 128 else if k = 24 then 64 else BitVec.ofNat 64 n }

/-- The number that `p256_sm2OrdSqr(res, in, n)` leaves at `res`. -/
def ordSqrResult (v n : Nat) : Option Nat := (ordSqr (n + 1) (ordSqrCall v n)).map fun s => rd4 s.mem 128

/-- **C54** (why `Inverse` cannot use the routine) `p256_sm2OrdSqr` is wrong: already the square of the number 1,
as a Montgomery product modulo the group order, is not what it returns, nor anything congruent to it. The
multiplications by the top word of the order are missing in its reduction steps. -/
theorem C54_ordSqr_wrong : ∃ v < N, ∃ w, ordSqrResult v 1 = some w ∧ w % N ≠ mulN v v % N := by
  refine ⟨1, by decide, ?_⟩
  have h : (ordSqrResult 1 1).isSome = true := by decide +kernel
  obtain ⟨w, hw⟩ := Option.isSome_iff_exists.1 h
  refine ⟨w, hw, ?_⟩
  have h2 : (ordSqrResult 1 1).all (fun w => decide (w % N ≠ mulN 1 1 % N)) = true := by decide +kernel
  rw [hw] at h2
  simpa using h2

theorem ordSqr_wp {Q : St → Prop} {s : St}
    (h : ∀ s' : St, z s'.r8 + B₁ * z s'.r9 + B₂ * z s'.r10 + B₃ * z s'.r11 + B₄ * z s'.r12 + B₅ * z s'.r13
      + B₆ * z s'.cx + B₇ * z s'.si = rdZ s.mem (s.arg 24) * rdZ s.mem (s.arg 24) → s'.mem = s.mem → Q s') :
    Q (exec (ordSqr_1 ++ (ordSqr_2 ++ (ordSqr_3 ++ (ordSqr_4 ++ (ordSqr_5 ++ ordSqr_6))))) s) := by
  simp only [ordSqr_1, List.cons_append, List.nil_append]
  xmov
  xmov
  xmov
  simp only [ordSqr_2, List.cons_append, List.nil_append]
  xmov
  xmov
  xmul l1 h1 e1
  xmov
  xmov
  xmov
  xmul l2 h2 e2
  xadd r3 c3 e3
  xadc r4 c4 e4
  xmov
  xmov
  xmul l5 h5 e5
  xadd r6 c6 e6
  xadc r7 c7 e7
  xmov
  simp only [ordSqr_3, List.cons_append, List.nil_append]
  xmov
  xmov
  xmul l8 h8 e8
  xadd r9 c9 e9
  xadc r10 c10 e10
  xmov
  xmov
  xmul l11 h11 e11
  xadd r12 c12 e12
  xadc r13 c13 e13
  xadd r14 c14 e14
  xadc r15 c15 e15
  xmov
  simp only [ordSqr_4, List.cons_append, List.nil_append]
  xmov
  xmov
  xmul l16 h16 e16
  xadd r17 c17 e17
  xadc r18 c18 e18
  xmov
  xxor
  have q1 := mac1 e2 e3 e4
  have q2 := mac1 e5 e6 e7
  have q3 := mac1 e8 e9 e10
  have q4 := mac2 e11 e12 e13 e14 e15
  have q5 := mac1 e16 e17 e18
  have T : z l1 + B₁ * z r3 + B₂ * z r9 + B₃ * z r14 + B₄ * z r17 + B₅ * z r18 =
      (z (s.mem (s.arg 24 + 8#64)) * z (s.mem (s.arg 24 + 0#64))) + B₁ * (z (s.mem (s.arg 24 + 16#64)) * z (s.mem (s.arg 24 + 0#64))) + B₂ * (z (s.mem (s.arg 24 + 24#64)) * z (s.mem (s.arg 24 + 0#64))) + B₂ * (z (s.mem (s.arg 24 + 16#64)) * z (s.mem (s.arg 24 + 8#64))) + B₃ * (z (s.mem (s.arg 24 + 24#64)) * z (s.mem (s.arg 24 + 8#64))) + B₄ * (z (s.mem (s.arg 24 + 24#64)) * z (s.mem (s.arg 24 + 16#64))) := by
    linear_combination e1 + B₁ * q1 + B₂ * q2 + B₂ * q3 + B₃ * q4 + B₄ * q5
  clear q1 q2 q3 q4 q5
  clear e1 e2 e3 e4 e5 e6 e7 e8 e9 e10 e11 e12 e13 e14 e15 e16 e17 e18
  simp only [ordSqr_5, List.cons_append, List.nil_append]
  xadd r19 c19 e19
  xadc r20 c20 e20
  xadc r21 c21 e21
  xadc r22 c22 e22
  xadc r23 c23 e23
  xadc r24 c24 e24
  xadc r25 c25 e25
  have hk := carry_zero e25 (by linarith only [bz_le c24])
  rw [hk] at e25
  replace T : z r19 + B₁ * z r20 + B₂ * z r21 + B₃ * z r22 + B₄ * z r23 + B₅ * z r24 + B₆ * z r25 =
      2 * ((z (s.mem (s.arg 24 + 8#64)) * z (s.mem (s.arg 24 + 0#64))) + B₁ * (z (s.mem (s.arg 24 + 16#64)) * z (s.mem (s.arg 24 + 0#64))) + B₂ * (z (s.mem (s.arg 24 + 24#64)) * z (s.mem (s.arg 24 + 0#64))) + B₂ * (z (s.mem (s.arg 24 + 16#64)) * z (s.mem (s.arg 24 + 8#64))) + B₃ * (z (s.mem (s.arg 24 + 24#64)) * z (s.mem (s.arg 24 + 8#64))) + B₄ * (z (s.mem (s.arg 24 + 24#64)) * z (s.mem (s.arg 24 + 16#64)))) := by
    linear_combination 2 * T + e19 + B₁ * e20 + B₂ * e21 + B₃ * e22 + B₄ * e23 + B₅ * e24 + B₆ * e25
  have ht : z r25 ≤ 1 := by linarith only [e25, bz_le c24]
  clear hk
  clear e19 e20 e21 e22 e23 e24 e25
  simp only [ordSqr_6]
  xmov
  xmul l26 h26 e26
  xmov
  xmov
  xmov
  xmul l27 h27 e27
  xadd r28 c28 e28
  xadc r29 c29 e29
  xadc r30 c30 e30
  xmov
  xmov
  xmul l31 h31 e31
  xadd r32 c32 e32
  xadc r33 c33 e33
  xadc r34 c34 e34
  xmov
  xmov
  xmul l35 h35 e35
  xadd r36 c36 e36
  xadc r37 c37 e37
  xadc r38 c38 e38
  xmov
  have k0 := carry_zero e30 (by linarith only [hi_le e27, bz_le c29])
  rw [k0] at e30
  have k1 := carry_zero e34 (by linarith only [hi_le e31, bz_le c33])
  rw [k1] at e34
  have U : z l26 + B₁ * z r28 + B₂ * z r29 + B₃ * z r32 + B₄ * z r33 + B₅ * z r36 + B₆ * z r37 + B₇ * z r38 + B₈ * bz c38 =
      (z (s.mem (s.arg 24 + 0#64)) + B₁ * z (s.mem (s.arg 24 + 8#64)) + B₂ * z (s.mem (s.arg 24 + 16#64)) + B₃ * z (s.mem (s.arg 24 + 24#64))) * (z (s.mem (s.arg 24 + 0#64)) + B₁ * z (s.mem (s.arg 24 + 8#64)) + B₂ * z (s.mem (s.arg 24 + 16#64)) + B₃ * z (s.mem (s.arg 24 + 24#64))) := by
    linear_combination e26 + B₁ * T + B₁ * e28 + B₂ * (e27 + e29) + B₃ * e30 + B₃ * e32 + B₄ * (e31 + e33) + B₅ * e34 + B₅ * e36 + B₆ * (e35 + e37) + B₇ * e38
  have hc : bz c38 = 0 := no_carry_sq  U
  rw [hc, mul_zero, add_zero] at U
  exact wp_nil (h _ U rfl)

set_option exponentiation.threshold 512 in
/-- **C54** The first half of the routine is right: its first 67 instructions leave in `r8`, …, `r13`, `cx`, `si` the
exact square of the number at `in`, for every number and every state, and change no memory. -/
theorem C54_ordSqr_product (s : St) :
    let s' := exec ((ordSqr_1 ++ ordSqrBody).take 67) s
    s'.r8.toNat + 2 ^ 64 * s'.r9.toNat + 2 ^ 128 * s'.r10.toNat + 2 ^ 192 * s'.r11.toNat + 2 ^ 256 * s'.r12.toNat
      + 2 ^ 320 * s'.r13.toNat + 2 ^ 384 * s'.cx.toNat + 2 ^ 448 * s'.si.toNat = rd4 s.mem (s.arg 24) ^ 2 ∧
    s'.mem = s.mem := by
  rw [show (ordSqr_1 ++ ordSqrBody).take 67 = ordSqr_1 ++ (ordSqr_2 ++ (ordSqr_3 ++ (ordSqr_4 ++ (ordSqr_5 ++ ordSqr_6))))
    from rfl]
  refine ordSqr_wp (s := s) (Q := fun s' => s'.r8.toNat + 2 ^ 64 * s'.r9.toNat + 2 ^ 128 * s'.r10.toNat
    + 2 ^ 192 * s'.r11.toNat + 2 ^ 256 * s'.r12.toNat + 2 ^ 320 * s'.r13.toNat + 2 ^ 384 * s'.cx.toNat
    + 2 ^ 448 * s'.si.toNat = rd4 s.mem (s.arg 24) ^ 2 ∧ s'.mem = s.mem) fun s' h hm => ⟨?_, hm⟩
  rw [rdZ_eq] at h
  unfold z at h
  zify
  rw [sq, ← h]
  norm_num


/-- A state with a number that needs all of its 256 bits. -/
example : rd4 (ordSqrCall (2 ^ 256 - 1) 1).mem ((ordSqrCall (2 ^ 256 - 1) 1).arg 24) = 2 ^ 256 - 1 := by decide +kernel

end Verif.Props
