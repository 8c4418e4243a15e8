/-
Generated by tools/genasm.py.  Symbolic execution of the arithmetic routines of
sm2/p256_asm_amd64.s: one tactic per instruction, then the lemmas of Lemmas/Limbs.
-/
import Verif.Lemmas.MontZ

namespace Verif.X64.P256

set_option linter.unusedSimpArgs false

seal exec step

theorem mul_wp {Q : St → Prop} {s : St}
    (h : ∀ (w0 w1 w2 w3 : W) (s' : St),
      s'.mem = upd (upd (upd (upd s.mem (s.arg 0 + 0#64) w0) (s.arg 0 + 8#64) w1)
        (s.arg 0 + 16#64) w2) (s.arg 0 + 24#64) w3 →
      z w0 + B₁ * z w1 + B₂ * z w2 + B₃ * z w3 =
        ((mulP (rd4 s.mem (s.arg 24)) (rd4 s.mem (s.arg 48)) : ℕ) : ℤ) → Q s') :
    Q (exec mul s) := by
  unfold mul
  simp only [List.append_assoc]
  simp only [mul_1, List.cons_append, List.nil_append]
  xmov
  xmov
  xmov
  simp only [mul_2, List.cons_append, List.nil_append]
  xmov
  xmov
  xmul l1 h1 e1
  xmov
  xmov
  xmov
  xmul l2 h2 e2
  xadd r3 c3 e3
  xadc r4 c4 e4
  xmov
  xmov
  xmul l5 h5 e5
  xadd r6 c6 e6
  xadc r7 c7 e7
  xmov
  xmov
  xmul l8 h8 e8
  xadd r9 c9 e9
  xadc r10 c10 e10
  xmov
  xxor
  have q1 := mac1 e2 e3 e4
  have q2 := mac1 e5 e6 e7
  have q3 := mac1 e8 e9 e10
  have T0 : z l1 + B₁ * z r3 + B₂ * z r6 + B₃ * z r9 + B₄ * z r10 =
      (z (s.mem (s.arg 24 + 0#64)) * z (s.mem (s.arg 48 + 0#64))) + B₁ * (z (s.mem (s.arg 24 + 8#64)) * z (s.mem (s.arg 48 + 0#64))) + B₂ * (z (s.mem (s.arg 24 + 16#64)) * z (s.mem (s.arg 48 + 0#64))) + B₃ * (z (s.mem (s.arg 24 + 24#64)) * z (s.mem (s.arg 48 + 0#64))) := by
    linear_combination e1 + B₁ * q1 + B₂ * q2 + B₃ * q3
  clear q1 q2 q3
  clear e1 e2 e3 e4 e5 e6 e7 e8 e9 e10
  simp only [mul_3, List.cons_append, List.nil_append]
  xmov
  xmov
  xmul l11 h11 e11
  xadd r12 c12 e12
  xadc r13 c13 e13
  xadc r14 c14 e14
  xadc r15 c15 e15
  xadd r16 c16 e16
  xadc r17 c17 e17
  xmov
  xadc r18 c18 e18
  xadc r19 c19 e19
  xshl r20 e20
  xshr r21 e21
  xsub r22 c22 e22
  xsbb r23 c23 e23
  xsbb r24 c24 e24
  xsbb r25 c25 e25
  xsbb r26 c26 e26
  xxor
  have S0 := redMul (a5 := 0#64) e11 e12 e13 e14 e15 e16 e17 e18 e19 e20 e21 e22 e23 e24 e25 e26 (by rw [z_zero]; norm_num)
  clear e11 e12 e13 e14 e15 e16 e17 e18 e19 e20 e21 e22 e23 e24 e25 e26
  rw [z_zero] at S0
  have w0 : z r26 ≤ 5 := by
    linarith only [S0, z_nonneg r22, z_nonneg r23, z_nonneg r24, z_nonneg r25, z_lt l1, z_lt r3, z_lt r6, z_lt r9, z_lt r10, z_lt l1, z_nonneg l1]
  simp only [mul_4, List.cons_append, List.nil_append]
  xmov
  xmov
  xmul l27 h27 e27
  xadd r28 c28 e28
  xadc r29 c29 e29
  xmov
  xmov
  xmul l30 h30 e30
  xadd r31 c31 e31
  xadc r32 c32 e32
  xadd r33 c33 e33
  xadc r34 c34 e34
  xmov
  xmov
  xmul l35 h35 e35
  xadd r36 c36 e36
  xadc r37 c37 e37
  xadd r38 c38 e38
  xadc r39 c39 e39
  xmov
  xmov
  xmul l40 h40 e40
  xadd r41 c41 e41
  xadc r42 c42 e42
  xadd r43 c43 e43
  xadc r44 c44 e44
  xadc r45 c45 e45
  have q1 := mac1 e27 e28 e29
  have q2 := mac2 e30 e31 e32 e33 e34
  have q3 := mac2 e35 e36 e37 e38 e39
  have q4 := mac3 e40 e41 e42 e43 e44 e45 (by rw [z_zero]; norm_num)
  have T1 : z r28 + B₁ * z r33 + B₂ * z r38 + B₃ * z r43 + B₄ * z r44 + B₅ * z r45 =
      z r22 + B₁ * z r23 + B₂ * z r24 + B₃ * z r25 + B₄ * z r26 +
      ((z (s.mem (s.arg 24 + 0#64)) * z (s.mem (s.arg 48 + 8#64))) + B₁ * (z (s.mem (s.arg 24 + 8#64)) * z (s.mem (s.arg 48 + 8#64))) + B₂ * (z (s.mem (s.arg 24 + 16#64)) * z (s.mem (s.arg 48 + 8#64))) + B₃ * (z (s.mem (s.arg 24 + 24#64)) * z (s.mem (s.arg 48 + 8#64)))) := by
    rw [z_zero] at q4
    linear_combination q1 + B₁ * q2 + B₂ * q3 + B₃ * q4
  clear q1 q2 q3 q4
  clear e27 e28 e29 e30 e31 e32 e33 e34 e35 e36 e37 e38 e39 e40 e41 e42 e43 e44 e45
  have b1 : z r45 ≤ 2 := by
    linarith only [T1, z_nonneg r28, z_nonneg r33, z_nonneg r38, z_nonneg r43, z_nonneg r44, mulz_le (s.mem (s.arg 24 + 0#64)) (s.mem (s.arg 48 + 8#64)), mulz_le (s.mem (s.arg 24 + 8#64)) (s.mem (s.arg 48 + 8#64)), mulz_le (s.mem (s.arg 24 + 16#64)) (s.mem (s.arg 48 + 8#64)), mulz_le (s.mem (s.arg 24 + 24#64)) (s.mem (s.arg 48 + 8#64)), z_lt r22, z_lt r23, z_lt r24, z_lt r25, w0]
  simp only [mul_5, List.cons_append, List.nil_append]
  xmov
  xmov
  xmul l46 h46 e46
  xadd r47 c47 e47
  xadc r48 c48 e48
  xadc r49 c49 e49
  xadc r50 c50 e50
  xadd r51 c51 e51
  xadc r52 c52 e52
  xmov
  xadc r53 c53 e53
  xadc r54 c54 e54
  xshl r55 e55
  xshr r56 e56
  xsub r57 c57 e57
  xsbb r58 c58 e58
  xsbb r59 c59 e59
  xsbb r60 c60 e60
  xsbb r61 c61 e61
  xxor
  have S1 := redMul (a5 := r45) e46 e47 e48 e49 e50 e51 e52 e53 e54 e55 e56 e57 e58 e59 e60 e61 (b1.trans (by norm_num))
  clear e46 e47 e48 e49 e50 e51 e52 e53 e54 e55 e56 e57 e58 e59 e60 e61
  have w1 : z r61 ≤ 5 := by
    linarith only [S1, z_nonneg r57, z_nonneg r58, z_nonneg r59, z_nonneg r60, z_lt r28, z_lt r33, z_lt r38, z_lt r43, z_lt r44, z_lt r45, z_lt r28, z_nonneg r28, b1]
  simp only [mul_6, List.cons_append, List.nil_append]
  xmov
  xmov
  xmul l62 h62 e62
  xadd r63 c63 e63
  xadc r64 c64 e64
  xmov
  xmov
  xmul l65 h65 e65
  xadd r66 c66 e66
  xadc r67 c67 e67
  xadd r68 c68 e68
  xadc r69 c69 e69
  xmov
  xmov
  xmul l70 h70 e70
  xadd r71 c71 e71
  xadc r72 c72 e72
  xadd r73 c73 e73
  xadc r74 c74 e74
  xmov
  xmov
  xmul l75 h75 e75
  xadd r76 c76 e76
  xadc r77 c77 e77
  xadd r78 c78 e78
  xadc r79 c79 e79
  xadc r80 c80 e80
  have q1 := mac1 e62 e63 e64
  have q2 := mac2 e65 e66 e67 e68 e69
  have q3 := mac2 e70 e71 e72 e73 e74
  have q4 := mac3 e75 e76 e77 e78 e79 e80 (by rw [z_zero]; norm_num)
  have T2 : z r63 + B₁ * z r68 + B₂ * z r73 + B₃ * z r78 + B₄ * z r79 + B₅ * z r80 =
      z r57 + B₁ * z r58 + B₂ * z r59 + B₃ * z r60 + B₄ * z r61 +
      ((z (s.mem (s.arg 24 + 0#64)) * z (s.mem (s.arg 48 + 16#64))) + B₁ * (z (s.mem (s.arg 24 + 8#64)) * z (s.mem (s.arg 48 + 16#64))) + B₂ * (z (s.mem (s.arg 24 + 16#64)) * z (s.mem (s.arg 48 + 16#64))) + B₃ * (z (s.mem (s.arg 24 + 24#64)) * z (s.mem (s.arg 48 + 16#64)))) := by
    rw [z_zero] at q4
    linear_combination q1 + B₁ * q2 + B₂ * q3 + B₃ * q4
  clear q1 q2 q3 q4
  clear e62 e63 e64 e65 e66 e67 e68 e69 e70 e71 e72 e73 e74 e75 e76 e77 e78 e79 e80
  have b2 : z r80 ≤ 2 := by
    linarith only [T2, z_nonneg r63, z_nonneg r68, z_nonneg r73, z_nonneg r78, z_nonneg r79, mulz_le (s.mem (s.arg 24 + 0#64)) (s.mem (s.arg 48 + 16#64)), mulz_le (s.mem (s.arg 24 + 8#64)) (s.mem (s.arg 48 + 16#64)), mulz_le (s.mem (s.arg 24 + 16#64)) (s.mem (s.arg 48 + 16#64)), mulz_le (s.mem (s.arg 24 + 24#64)) (s.mem (s.arg 48 + 16#64)), z_lt r57, z_lt r58, z_lt r59, z_lt r60, w1]
  simp only [mul_7, List.cons_append, List.nil_append]
  xmov
  xmov
  xmul l81 h81 e81
  xadd r82 c82 e82
  xadc r83 c83 e83
  xadc r84 c84 e84
  xadc r85 c85 e85
  xadd r86 c86 e86
  xadc r87 c87 e87
  xmov
  xadc r88 c88 e88
  xadc r89 c89 e89
  xshl r90 e90
  xshr r91 e91
  xsub r92 c92 e92
  xsbb r93 c93 e93
  xsbb r94 c94 e94
  xsbb r95 c95 e95
  xsbb r96 c96 e96
  xxor
  have S2 := redMul (a5 := r80) e81 e82 e83 e84 e85 e86 e87 e88 e89 e90 e91 e92 e93 e94 e95 e96 (b2.trans (by norm_num))
  clear e81 e82 e83 e84 e85 e86 e87 e88 e89 e90 e91 e92 e93 e94 e95 e96
  have w2 : z r96 ≤ 5 := by
    linarith only [S2, z_nonneg r92, z_nonneg r93, z_nonneg r94, z_nonneg r95, z_lt r63, z_lt r68, z_lt r73, z_lt r78, z_lt r79, z_lt r80, z_lt r63, z_nonneg r63, b2]
  simp only [mul_8, List.cons_append, List.nil_append]
  xmov
  xmov
  xmul l97 h97 e97
  xadd r98 c98 e98
  xadc r99 c99 e99
  xmov
  xmov
  xmul l100 h100 e100
  xadd r101 c101 e101
  xadc r102 c102 e102
  xadd r103 c103 e103
  xadc r104 c104 e104
  xmov
  xmov
  xmul l105 h105 e105
  xadd r106 c106 e106
  xadc r107 c107 e107
  xadd r108 c108 e108
  xadc r109 c109 e109
  xmov
  xmov
  xmul l110 h110 e110
  xadd r111 c111 e111
  xadc r112 c112 e112
  xadd r113 c113 e113
  xadc r114 c114 e114
  xadc r115 c115 e115
  have q1 := mac1 e97 e98 e99
  have q2 := mac2 e100 e101 e102 e103 e104
  have q3 := mac2 e105 e106 e107 e108 e109
  have q4 := mac3 e110 e111 e112 e113 e114 e115 (by rw [z_zero]; norm_num)
  have T3 : z r98 + B₁ * z r103 + B₂ * z r108 + B₃ * z r113 + B₄ * z r114 + B₅ * z r115 =
      z r92 + B₁ * z r93 + B₂ * z r94 + B₃ * z r95 + B₄ * z r96 +
      ((z (s.mem (s.arg 24 + 0#64)) * z (s.mem (s.arg 48 + 24#64))) + B₁ * (z (s.mem (s.arg 24 + 8#64)) * z (s.mem (s.arg 48 + 24#64))) + B₂ * (z (s.mem (s.arg 24 + 16#64)) * z (s.mem (s.arg 48 + 24#64))) + B₃ * (z (s.mem (s.arg 24 + 24#64)) * z (s.mem (s.arg 48 + 24#64)))) := by
    rw [z_zero] at q4
    linear_combination q1 + B₁ * q2 + B₂ * q3 + B₃ * q4
  clear q1 q2 q3 q4
  clear e97 e98 e99 e100 e101 e102 e103 e104 e105 e106 e107 e108 e109 e110 e111 e112 e113 e114 e115
  have b3 : z r115 ≤ 2 := by
    linarith only [T3, z_nonneg r98, z_nonneg r103, z_nonneg r108, z_nonneg r113, z_nonneg r114, mulz_le (s.mem (s.arg 24 + 0#64)) (s.mem (s.arg 48 + 24#64)), mulz_le (s.mem (s.arg 24 + 8#64)) (s.mem (s.arg 48 + 24#64)), mulz_le (s.mem (s.arg 24 + 16#64)) (s.mem (s.arg 48 + 24#64)), mulz_le (s.mem (s.arg 24 + 24#64)) (s.mem (s.arg 48 + 24#64)), z_lt r92, z_lt r93, z_lt r94, z_lt r95, w2]
  simp only [mul_9, List.cons_append, List.nil_append]
  xxor
  xmov
  xmov
  xmul l116 h116 e116
  xadd r117 c117 e117
  xadc r118 c118 e118
  xadc r119 c119 e119
  xadc r120 c120 e120
  xadd r121 c121 e121
  xadc r122 c122 e122
  xmov
  xadc r123 c123 e123
  xadc r124 c124 e124
  xshl r125 e125
  xshr r126 e126
  xsub r127 c127 e127
  xsbb r128 c128 e128
  xsbb r129 c129 e129
  xsbb r130 c130 e130
  xsbb r131 c131 e131
  have S3 := redMul (a5 := r115) e116 e117 e118 e119 e120 e121 e122 e123 e124 e125 e126 e127 e128 e129 e130 e131 (b3.trans (by norm_num))
  clear e116 e117 e118 e119 e120 e121 e122 e123 e124 e125 e126 e127 e128 e129 e130 e131
  have w3 : z r131 ≤ 5 := by
    linarith only [S3, z_nonneg r127, z_nonneg r128, z_nonneg r129, z_nonneg r130, z_lt r98, z_lt r103, z_lt r108, z_lt r113, z_lt r114, z_lt r115, z_lt r98, z_nonneg r98, b3]
  simp only [mul_10, List.cons_append, List.nil_append]
  xmov
  xmov
  xmov
  xmov
  simp only [mul_11, List.cons_append, List.nil_append]
  xsub r132 c132 e132
  xsbb r133 c133 e133
  xsbb r134 c134 e134
  xsbb r135 c135 e135
  xsbb r136 c136 e136
  xcs
  xcs
  xcs
  xcs
  xmov
  xmov
  xmov
  xmov
  refine wp_nil ?_
  refine h _ _ _ _ _ rfl (montFinishP (m0 := l1) (m1 := r28) (m2 := r63)
    (m3 := r98) (mul_lt_sq _ _ _) ?_ e132 e133 e134 e135 e136)
  push_cast
  rw [← rdZ_eq, ← rdZ_eq]
  unfold rdZ
  linear_combination (T0 + B₁ * T1 + B₂ * T2 + B₃ * T3 + S0 + B₁ * S1 + B₂ * S2 + B₃ * S3)

theorem ordMul_wp {Q : St → Prop} {s : St}
    (h : ∀ (w0 w1 w2 w3 : W) (s' : St),
      s'.mem = upd (upd (upd (upd s.mem (s.arg 0 + 0#64) w0) (s.arg 0 + 8#64) w1)
        (s.arg 0 + 16#64) w2) (s.arg 0 + 24#64) w3 →
      z w0 + B₁ * z w1 + B₂ * z w2 + B₃ * z w3 =
        ((mulN (rd4 s.mem (s.arg 24)) (rd4 s.mem (s.arg 48)) : ℕ) : ℤ) → Q s') :
    Q (exec ordMul s) := by
  unfold ordMul
  simp only [List.append_assoc]
  simp only [ordMul_1, List.cons_append, List.nil_append]
  xmov
  xmov
  xmov
  simp only [ordMul_2, List.cons_append, List.nil_append]
  xmov
  xmov
  xmul l1 h1 e1
  xmov
  xmov
  xmov
  xmul l2 h2 e2
  xadd r3 c3 e3
  xadc r4 c4 e4
  xmov
  xmov
  xmul l5 h5 e5
  xadd r6 c6 e6
  xadc r7 c7 e7
  xmov
  xmov
  xmul l8 h8 e8
  xadd r9 c9 e9
  xadc r10 c10 e10
  xmov
  xxor
  have q1 := mac1 e2 e3 e4
  have q2 := mac1 e5 e6 e7
  have q3 := mac1 e8 e9 e10
  have T0 : z l1 + B₁ * z r3 + B₂ * z r6 + B₃ * z r9 + B₄ * z r10 =
      (z (s.mem (s.arg 24 + 0#64)) * z (s.mem (s.arg 48 + 0#64))) + B₁ * (z (s.mem (s.arg 24 + 8#64)) * z (s.mem (s.arg 48 + 0#64))) + B₂ * (z (s.mem (s.arg 24 + 16#64)) * z (s.mem (s.arg 48 + 0#64))) + B₃ * (z (s.mem (s.arg 24 + 24#64)) * z (s.mem (s.arg 48 + 0#64))) := by
    linear_combination e1 + B₁ * q1 + B₂ * q2 + B₃ * q3
  clear q1 q2 q3
  clear e1 e2 e3 e4 e5 e6 e7 e8 e9 e10
  simp only [ordMul_3, List.cons_append, List.nil_append]
  xmov
  xmul l11 h11 e11
  xmov
  xmov
  xmul l12 h12 e12
  xadd r13 c13 e13
  xadc r14 c14 e14
  xmov
  xmov
  xmul l15 h15 e15
  xadd r16 c16 e16
  xadc r17 c17 e17
  xadd r18 c18 e18
  xadc r19 c19 e19
  xmov
  xmov
  xmul l20 h20 e20
  xadd r21 c21 e21
  xadc r22 c22 e22
  xadd r23 c23 e23
  xadc r24 c24 e24
  xmov
  xmov
  xmul l25 h25 e25
  xadd r26 c26 e26
  xadc r27 c27 e27
  xadd r28 c28 e28
  xadc r29 c29 e29
  xadc r30 c30 e30
  obtain ⟨y0, S0⟩ := redOrd (a5 := 0#64) e11 e12 e13 e14 e15 e16 e17 e18 e19 e20 e21 e22 e23 e24 e25 e26 e27 e28 e29 e30 (by rw [z_zero]; norm_num)
  clear e11 e12 e13 e14 e15 e16 e17 e18 e19 e20 e21 e22 e23 e24 e25 e26 e27 e28 e29 e30
  rw [z_zero] at S0
  have w0 : z r30 ≤ 5 := by
    linarith only [S0, z_nonneg r18, z_nonneg r23, z_nonneg r28, z_nonneg r29, z_lt l1, z_lt r3, z_lt r6, z_lt r9, z_lt r10, z_lt l11, z_nonneg l11]
  simp only [ordMul_4, List.cons_append, List.nil_append]
  xmov
  xmov
  xmul l31 h31 e31
  xadd r32 c32 e32
  xadc r33 c33 e33
  xmov
  xmov
  xmul l34 h34 e34
  xadd r35 c35 e35
  xadc r36 c36 e36
  xadd r37 c37 e37
  xadc r38 c38 e38
  xmov
  xmov
  xmul l39 h39 e39
  xadd r40 c40 e40
  xadc r41 c41 e41
  xadd r42 c42 e42
  xadc r43 c43 e43
  xmov
  xmov
  xmul l44 h44 e44
  xadd r45 c45 e45
  xadc r46 c46 e46
  xadd r47 c47 e47
  xadc r48 c48 e48
  xadc r49 c49 e49
  have q1 := mac1 e31 e32 e33
  have q2 := mac2 e34 e35 e36 e37 e38
  have q3 := mac2 e39 e40 e41 e42 e43
  have q4 := mac3 e44 e45 e46 e47 e48 e49 (by rw [y0]; norm_num)
  have T1 : z r32 + B₁ * z r37 + B₂ * z r42 + B₃ * z r47 + B₄ * z r48 + B₅ * z r49 =
      z r18 + B₁ * z r23 + B₂ * z r28 + B₃ * z r29 + B₄ * z r30 +
      ((z (s.mem (s.arg 24 + 0#64)) * z (s.mem (s.arg 48 + 8#64))) + B₁ * (z (s.mem (s.arg 24 + 8#64)) * z (s.mem (s.arg 48 + 8#64))) + B₂ * (z (s.mem (s.arg 24 + 16#64)) * z (s.mem (s.arg 48 + 8#64))) + B₃ * (z (s.mem (s.arg 24 + 24#64)) * z (s.mem (s.arg 48 + 8#64)))) := by
    rw [y0] at q4
    linear_combination q1 + B₁ * q2 + B₂ * q3 + B₃ * q4
  clear q1 q2 q3 q4
  clear e31 e32 e33 e34 e35 e36 e37 e38 e39 e40 e41 e42 e43 e44 e45 e46 e47 e48 e49
  have b1 : z r49 ≤ 2 := by
    linarith only [T1, z_nonneg r32, z_nonneg r37, z_nonneg r42, z_nonneg r47, z_nonneg r48, mulz_le (s.mem (s.arg 24 + 0#64)) (s.mem (s.arg 48 + 8#64)), mulz_le (s.mem (s.arg 24 + 8#64)) (s.mem (s.arg 48 + 8#64)), mulz_le (s.mem (s.arg 24 + 16#64)) (s.mem (s.arg 48 + 8#64)), mulz_le (s.mem (s.arg 24 + 24#64)) (s.mem (s.arg 48 + 8#64)), z_lt r18, z_lt r23, z_lt r28, z_lt r29, w0]
  simp only [ordMul_5, List.cons_append, List.nil_append]
  xmov
  xmul l50 h50 e50
  xmov
  xmov
  xmul l51 h51 e51
  xadd r52 c52 e52
  xadc r53 c53 e53
  xmov
  xmov
  xmul l54 h54 e54
  xadd r55 c55 e55
  xadc r56 c56 e56
  xadd r57 c57 e57
  xadc r58 c58 e58
  xmov
  xmov
  xmul l59 h59 e59
  xadd r60 c60 e60
  xadc r61 c61 e61
  xadd r62 c62 e62
  xadc r63 c63 e63
  xmov
  xmov
  xmul l64 h64 e64
  xadd r65 c65 e65
  xadc r66 c66 e66
  xadd r67 c67 e67
  xadc r68 c68 e68
  xadc r69 c69 e69
  obtain ⟨y1, S1⟩ := redOrd (a5 := r49) e50 e51 e52 e53 e54 e55 e56 e57 e58 e59 e60 e61 e62 e63 e64 e65 e66 e67 e68 e69 (b1.trans (by norm_num))
  clear e50 e51 e52 e53 e54 e55 e56 e57 e58 e59 e60 e61 e62 e63 e64 e65 e66 e67 e68 e69
  have w1 : z r69 ≤ 5 := by
    linarith only [S1, z_nonneg r57, z_nonneg r62, z_nonneg r67, z_nonneg r68, z_lt r32, z_lt r37, z_lt r42, z_lt r47, z_lt r48, z_lt r49, z_lt l50, z_nonneg l50, b1]
  simp only [ordMul_6, List.cons_append, List.nil_append]
  xmov
  xmov
  xmul l70 h70 e70
  xadd r71 c71 e71
  xadc r72 c72 e72
  xmov
  xmov
  xmul l73 h73 e73
  xadd r74 c74 e74
  xadc r75 c75 e75
  xadd r76 c76 e76
  xadc r77 c77 e77
  xmov
  xmov
  xmul l78 h78 e78
  xadd r79 c79 e79
  xadc r80 c80 e80
  xadd r81 c81 e81
  xadc r82 c82 e82
  xmov
  xmov
  xmul l83 h83 e83
  xadd r84 c84 e84
  xadc r85 c85 e85
  xadd r86 c86 e86
  xadc r87 c87 e87
  xadc r88 c88 e88
  have q1 := mac1 e70 e71 e72
  have q2 := mac2 e73 e74 e75 e76 e77
  have q3 := mac2 e78 e79 e80 e81 e82
  have q4 := mac3 e83 e84 e85 e86 e87 e88 (by rw [y1]; norm_num)
  have T2 : z r71 + B₁ * z r76 + B₂ * z r81 + B₃ * z r86 + B₄ * z r87 + B₅ * z r88 =
      z r57 + B₁ * z r62 + B₂ * z r67 + B₃ * z r68 + B₄ * z r69 +
      ((z (s.mem (s.arg 24 + 0#64)) * z (s.mem (s.arg 48 + 16#64))) + B₁ * (z (s.mem (s.arg 24 + 8#64)) * z (s.mem (s.arg 48 + 16#64))) + B₂ * (z (s.mem (s.arg 24 + 16#64)) * z (s.mem (s.arg 48 + 16#64))) + B₃ * (z (s.mem (s.arg 24 + 24#64)) * z (s.mem (s.arg 48 + 16#64)))) := by
    rw [y1] at q4
    linear_combination q1 + B₁ * q2 + B₂ * q3 + B₃ * q4
  clear q1 q2 q3 q4
  clear e70 e71 e72 e73 e74 e75 e76 e77 e78 e79 e80 e81 e82 e83 e84 e85 e86 e87 e88
  have b2 : z r88 ≤ 2 := by
    linarith only [T2, z_nonneg r71, z_nonneg r76, z_nonneg r81, z_nonneg r86, z_nonneg r87, mulz_le (s.mem (s.arg 24 + 0#64)) (s.mem (s.arg 48 + 16#64)), mulz_le (s.mem (s.arg 24 + 8#64)) (s.mem (s.arg 48 + 16#64)), mulz_le (s.mem (s.arg 24 + 16#64)) (s.mem (s.arg 48 + 16#64)), mulz_le (s.mem (s.arg 24 + 24#64)) (s.mem (s.arg 48 + 16#64)), z_lt r57, z_lt r62, z_lt r67, z_lt r68, w1]
  simp only [ordMul_7, List.cons_append, List.nil_append]
  xmov
  xmul l89 h89 e89
  xmov
  xmov
  xmul l90 h90 e90
  xadd r91 c91 e91
  xadc r92 c92 e92
  xmov
  xmov
  xmul l93 h93 e93
  xadd r94 c94 e94
  xadc r95 c95 e95
  xadd r96 c96 e96
  xadc r97 c97 e97
  xmov
  xmov
  xmul l98 h98 e98
  xadd r99 c99 e99
  xadc r100 c100 e100
  xadd r101 c101 e101
  xadc r102 c102 e102
  xmov
  xmov
  xmul l103 h103 e103
  xadd r104 c104 e104
  xadc r105 c105 e105
  xadd r106 c106 e106
  xadc r107 c107 e107
  xadc r108 c108 e108
  obtain ⟨y2, S2⟩ := redOrd (a5 := r88) e89 e90 e91 e92 e93 e94 e95 e96 e97 e98 e99 e100 e101 e102 e103 e104 e105 e106 e107 e108 (b2.trans (by norm_num))
  clear e89 e90 e91 e92 e93 e94 e95 e96 e97 e98 e99 e100 e101 e102 e103 e104 e105 e106 e107 e108
  have w2 : z r108 ≤ 5 := by
    linarith only [S2, z_nonneg r96, z_nonneg r101, z_nonneg r106, z_nonneg r107, z_lt r71, z_lt r76, z_lt r81, z_lt r86, z_lt r87, z_lt r88, z_lt l89, z_nonneg l89, b2]
  simp only [ordMul_8, List.cons_append, List.nil_append]
  xmov
  xmov
  xmul l109 h109 e109
  xadd r110 c110 e110
  xadc r111 c111 e111
  xmov
  xmov
  xmul l112 h112 e112
  xadd r113 c113 e113
  xadc r114 c114 e114
  xadd r115 c115 e115
  xadc r116 c116 e116
  xmov
  xmov
  xmul l117 h117 e117
  xadd r118 c118 e118
  xadc r119 c119 e119
  xadd r120 c120 e120
  xadc r121 c121 e121
  xmov
  xmov
  xmul l122 h122 e122
  xadd r123 c123 e123
  xadc r124 c124 e124
  xadd r125 c125 e125
  xadc r126 c126 e126
  xadc r127 c127 e127
  have q1 := mac1 e109 e110 e111
  have q2 := mac2 e112 e113 e114 e115 e116
  have q3 := mac2 e117 e118 e119 e120 e121
  have q4 := mac3 e122 e123 e124 e125 e126 e127 (by rw [y2]; norm_num)
  have T3 : z r110 + B₁ * z r115 + B₂ * z r120 + B₃ * z r125 + B₄ * z r126 + B₅ * z r127 =
      z r96 + B₁ * z r101 + B₂ * z r106 + B₃ * z r107 + B₄ * z r108 +
      ((z (s.mem (s.arg 24 + 0#64)) * z (s.mem (s.arg 48 + 24#64))) + B₁ * (z (s.mem (s.arg 24 + 8#64)) * z (s.mem (s.arg 48 + 24#64))) + B₂ * (z (s.mem (s.arg 24 + 16#64)) * z (s.mem (s.arg 48 + 24#64))) + B₃ * (z (s.mem (s.arg 24 + 24#64)) * z (s.mem (s.arg 48 + 24#64)))) := by
    rw [y2] at q4
    linear_combination q1 + B₁ * q2 + B₂ * q3 + B₃ * q4
  clear q1 q2 q3 q4
  clear e109 e110 e111 e112 e113 e114 e115 e116 e117 e118 e119 e120 e121 e122 e123 e124 e125 e126 e127
  have b3 : z r127 ≤ 2 := by
    linarith only [T3, z_nonneg r110, z_nonneg r115, z_nonneg r120, z_nonneg r125, z_nonneg r126, mulz_le (s.mem (s.arg 24 + 0#64)) (s.mem (s.arg 48 + 24#64)), mulz_le (s.mem (s.arg 24 + 8#64)) (s.mem (s.arg 48 + 24#64)), mulz_le (s.mem (s.arg 24 + 16#64)) (s.mem (s.arg 48 + 24#64)), mulz_le (s.mem (s.arg 24 + 24#64)) (s.mem (s.arg 48 + 24#64)), z_lt r96, z_lt r101, z_lt r106, z_lt r107, w2]
  simp only [ordMul_9, List.cons_append, List.nil_append]
  xmov
  xmul l128 h128 e128
  xmov
  xmov
  xmul l129 h129 e129
  xadd r130 c130 e130
  xadc r131 c131 e131
  xmov
  xmov
  xmul l132 h132 e132
  xadd r133 c133 e133
  xadc r134 c134 e134
  xadd r135 c135 e135
  xadc r136 c136 e136
  xmov
  xmov
  xmul l137 h137 e137
  xadd r138 c138 e138
  xadc r139 c139 e139
  xadd r140 c140 e140
  xadc r141 c141 e141
  xmov
  xmov
  xmul l142 h142 e142
  xadd r143 c143 e143
  xadc r144 c144 e144
  xadd r145 c145 e145
  xadc r146 c146 e146
  xadc r147 c147 e147
  obtain ⟨y3, S3⟩ := redOrd (a5 := r127) e128 e129 e130 e131 e132 e133 e134 e135 e136 e137 e138 e139 e140 e141 e142 e143 e144 e145 e146 e147 (b3.trans (by norm_num))
  clear e128 e129 e130 e131 e132 e133 e134 e135 e136 e137 e138 e139 e140 e141 e142 e143 e144 e145 e146 e147
  have w3 : z r147 ≤ 5 := by
    linarith only [S3, z_nonneg r135, z_nonneg r140, z_nonneg r145, z_nonneg r146, z_lt r110, z_lt r115, z_lt r120, z_lt r125, z_lt r126, z_lt r127, z_lt l128, z_nonneg l128, b3]
  simp only [ordMul_10, List.cons_append, List.nil_append]
  xmov
  xmov
  xmov
  xmov
  simp only [ordMul_11, List.cons_append, List.nil_append]
  xsub r148 c148 e148
  xsbb r149 c149 e149
  xsbb r150 c150 e150
  xsbb r151 c151 e151
  xsbb r152 c152 e152
  xcs
  xcs
  xcs
  xcs
  xmov
  xmov
  xmov
  xmov
  refine wp_nil ?_
  refine h _ _ _ _ _ rfl (montFinishN (m0 := l11) (m1 := l50) (m2 := l89)
    (m3 := l128) (mul_lt_sq _ _ _) ?_ e148 e149 e150 e151 e152)
  push_cast
  rw [← rdZ_eq, ← rdZ_eq]
  unfold rdZ
  linear_combination (T0 + B₁ * T1 + B₂ * T2 + B₃ * T3 + S0 + B₁ * S1 + B₂ * S2 + B₃ * S3)

theorem sqr_wp {Q : St → Prop} {s : St}
    (h : ∀ (w0 w1 w2 w3 : W) (s' : St),
      s'.mem = upd (upd (upd (upd s.mem (s.arg 0 + 0#64) w0) (s.arg 0 + 8#64) w1)
        (s.arg 0 + 16#64) w2) (s.arg 0 + 24#64) w3 →
      z w0 + B₁ * z w1 + B₂ * z w2 + B₃ * z w3 =
        ((sqrP (rd4 s.mem (s.arg 24)) : ℕ) : ℤ) → Q s') :
    Q (exec sqr s) := by
  unfold sqr
  simp only [List.append_assoc]
  simp only [sqr_1, List.cons_append, List.nil_append]
  xmov
  xmov
  simp only [sqr_2, List.cons_append, List.nil_append]
  xmov
  xmov
  xmul l1 h1 e1
  xmov
  xmov
  xmov
  xmul l2 h2 e2
  xadd r3 c3 e3
  xadc r4 c4 e4
  xmov
  xmov
  xmul l5 h5 e5
  xadd r6 c6 e6
  xadc r7 c7 e7
  xmov
  simp only [sqr_3, List.cons_append, List.nil_append]
  xmov
  xmov
  xmul l8 h8 e8
  xadd r9 c9 e9
  xadc r10 c10 e10
  xmov
  xmov
  xmul l11 h11 e11
  xadd r12 c12 e12
  xadc r13 c13 e13
  xadd r14 c14 e14
  xadc r15 c15 e15
  xmov
  simp only [sqr_4, List.cons_append, List.nil_append]
  xmov
  xmov
  xmul l16 h16 e16
  xadd r17 c17 e17
  xadc r18 c18 e18
  xmov
  xxor
  have q1 := mac1 e2 e3 e4
  have q2 := mac1 e5 e6 e7
  have q3 := mac1 e8 e9 e10
  have q4 := mac2 e11 e12 e13 e14 e15
  have q5 := mac1 e16 e17 e18
  have T : z l1 + B₁ * z r3 + B₂ * z r9 + B₃ * z r14 + B₄ * z r17 + B₅ * z r18 =
      (z (s.mem (s.arg 24 + 8#64)) * z (s.mem (s.arg 24 + 0#64))) + B₁ * (z (s.mem (s.arg 24 + 16#64)) * z (s.mem (s.arg 24 + 0#64))) + B₂ * (z (s.mem (s.arg 24 + 24#64)) * z (s.mem (s.arg 24 + 0#64))) + B₂ * (z (s.mem (s.arg 24 + 16#64)) * z (s.mem (s.arg 24 + 8#64))) + B₃ * (z (s.mem (s.arg 24 + 24#64)) * z (s.mem (s.arg 24 + 8#64))) + B₄ * (z (s.mem (s.arg 24 + 24#64)) * z (s.mem (s.arg 24 + 16#64))) := by
    linear_combination e1 + B₁ * q1 + B₂ * q2 + B₂ * q3 + B₃ * q4 + B₄ * q5
  clear q1 q2 q3 q4 q5
  clear e1 e2 e3 e4 e5 e6 e7 e8 e9 e10 e11 e12 e13 e14 e15 e16 e17 e18
  simp only [sqr_5, List.cons_append, List.nil_append]
  xadd r19 c19 e19
  xadc r20 c20 e20
  xadc r21 c21 e21
  xadc r22 c22 e22
  xadc r23 c23 e23
  xadc r24 c24 e24
  xadc r25 c25 e25
  have hk := carry_zero e25 (by linarith only [bz_le c24])
  rw [hk] at e25
  replace T : z r19 + B₁ * z r20 + B₂ * z r21 + B₃ * z r22 + B₄ * z r23 + B₅ * z r24 + B₆ * z r25 =
      2 * ((z (s.mem (s.arg 24 + 8#64)) * z (s.mem (s.arg 24 + 0#64))) + B₁ * (z (s.mem (s.arg 24 + 16#64)) * z (s.mem (s.arg 24 + 0#64))) + B₂ * (z (s.mem (s.arg 24 + 24#64)) * z (s.mem (s.arg 24 + 0#64))) + B₂ * (z (s.mem (s.arg 24 + 16#64)) * z (s.mem (s.arg 24 + 8#64))) + B₃ * (z (s.mem (s.arg 24 + 24#64)) * z (s.mem (s.arg 24 + 8#64))) + B₄ * (z (s.mem (s.arg 24 + 24#64)) * z (s.mem (s.arg 24 + 16#64)))) := by
    linear_combination 2 * T + e19 + B₁ * e20 + B₂ * e21 + B₃ * e22 + B₄ * e23 + B₅ * e24 + B₆ * e25
  have ht : z r25 ≤ 1 := by linarith only [e25, bz_le c24]
  clear hk
  clear e19 e20 e21 e22 e23 e24 e25
  simp only [sqr_6, List.cons_append, List.nil_append]
  xmov
  xmul l26 h26 e26
  xmov
  xmov
  xmov
  xmul l27 h27 e27
  xadd r28 c28 e28
  xadc r29 c29 e29
  xadc r30 c30 e30
  xmov
  xmov
  xmul l31 h31 e31
  xadd r32 c32 e32
  xadc r33 c33 e33
  xadc r34 c34 e34
  xmov
  xmov
  xmul l35 h35 e35
  xadd r36 c36 e36
  xadc r37 c37 e37
  xadc r38 c38 e38
  xmov
  have k0 := carry_zero e30 (by linarith only [hi_le e27, bz_le c29])
  rw [k0] at e30
  have k1 := carry_zero e34 (by linarith only [hi_le e31, bz_le c33])
  rw [k1] at e34
  have U : z l26 + B₁ * z r28 + B₂ * z r29 + B₃ * z r32 + B₄ * z r33 + B₅ * z r36 + B₆ * z r37 + B₇ * z r38 + B₈ * bz c38 =
      (z (s.mem (s.arg 24 + 0#64)) + B₁ * z (s.mem (s.arg 24 + 8#64)) + B₂ * z (s.mem (s.arg 24 + 16#64)) + B₃ * z (s.mem (s.arg 24 + 24#64))) * (z (s.mem (s.arg 24 + 0#64)) + B₁ * z (s.mem (s.arg 24 + 8#64)) + B₂ * z (s.mem (s.arg 24 + 16#64)) + B₃ * z (s.mem (s.arg 24 + 24#64))) := by
    linear_combination e26 + B₁ * T + B₁ * e28 + B₂ * (e27 + e29) + B₃ * e30 + B₃ * e32 + B₄ * (e31 + e33) + B₅ * e34 + B₅ * e36 + B₆ * (e35 + e37) + B₇ * e38
  have hc : bz c38 = 0 := no_carry_sq  U
  rw [hc, mul_zero, add_zero] at U
  clear T ht k0 k1 hc
  clear e26 e27 e28 e29 e30 e31 e32 e33 e34 e35 e36 e37 e38
  have T := U
  clear U
  simp only [sqr_7, List.cons_append, List.nil_append]
  xmov
  xmov
  xmul l39 h39 e39
  xadd r40 c40 e40
  xadc r41 c41 e41
  xadc r42 c42 e42
  xadc r43 c43 e43
  xadd r44 c44 e44
  xadc r45 c45 e45
  xmov
  xmov
  xshl r46 e46
  xshr r47 e47
  xsub r48 c48 e48
  xsbb r49 c49 e49
  xsbb r50 c50 e50
  xsbb r51 c51 e51
  have S0 := (redInt e39 e40 e41 e42 e43 e44 e45 e46 e47 e48 e49 e50 e51).1
  clear e39 e40 e41 e42 e43 e44 e45 e46 e47 e48 e49 e50 e51
  simp only [sqr_8, List.cons_append, List.nil_append]
  xmov
  xmov
  xmul l52 h52 e52
  xadd r53 c53 e53
  xadc r54 c54 e54
  xadc r55 c55 e55
  xadc r56 c56 e56
  xadd r57 c57 e57
  xadc r58 c58 e58
  xmov
  xmov
  xshl r59 e59
  xshr r60 e60
  xsub r61 c61 e61
  xsbb r62 c62 e62
  xsbb r63 c63 e63
  xsbb r64 c64 e64
  have S1 := (redInt e52 e53 e54 e55 e56 e57 e58 e59 e60 e61 e62 e63 e64).1
  clear e52 e53 e54 e55 e56 e57 e58 e59 e60 e61 e62 e63 e64
  simp only [sqr_9, List.cons_append, List.nil_append]
  xmov
  xmov
  xmul l65 h65 e65
  xadd r66 c66 e66
  xadc r67 c67 e67
  xadc r68 c68 e68
  xadc r69 c69 e69
  xadd r70 c70 e70
  xadc r71 c71 e71
  xmov
  xmov
  xshl r72 e72
  xshr r73 e73
  xsub r74 c74 e74
  xsbb r75 c75 e75
  xsbb r76 c76 e76
  xsbb r77 c77 e77
  have S2 := (redInt e65 e66 e67 e68 e69 e70 e71 e72 e73 e74 e75 e76 e77).1
  clear e65 e66 e67 e68 e69 e70 e71 e72 e73 e74 e75 e76 e77
  simp only [sqr_10, List.cons_append, List.nil_append]
  xxor
  xmov
  xmov
  xmul l78 h78 e78
  xadd r79 c79 e79
  xadc r80 c80 e80
  xadc r81 c81 e81
  xadc r82 c82 e82
  xadd r83 c83 e83
  xadc r84 c84 e84
  xmov
  xmov
  xshl r85 e85
  xshr r86 e86
  xsub r87 c87 e87
  xsbb r88 c88 e88
  xsbb r89 c89 e89
  xsbb r90 c90 e90
  obtain ⟨S3, hb⟩ := redInt e78 e79 e80 e81 e82 e83 e84 e85 e86 e87 e88 e89 e90
  clear e78 e79 e80 e81 e82 e83 e84 e85 e86 e87 e88 e89 e90
  simp only [sqr_11, List.cons_append, List.nil_append]
  xadc r91 c91 e91
  xadc r92 c92 e92
  xadc r93 c93 e93
  xadc r94 c94 e94
  xadc r95 c95 e95
  xmov
  xmov
  xmov
  xmov
  rw [hb, add_zero] at e91
  have k5 := carry_zero e95 (by linarith only [bz_le c94])
  rw [k5] at e95
  have V : B₄ * (z r91 + B₁ * z r92 + B₂ * z r93 + B₃ * z r94 + B₄ * z r95) =
      (z (s.mem (s.arg 24 + 0#64)) + B₁ * z (s.mem (s.arg 24 + 8#64)) + B₂ * z (s.mem (s.arg 24 + 16#64)) + B₃ * z (s.mem (s.arg 24 + 24#64))) * (z (s.mem (s.arg 24 + 0#64)) + B₁ * z (s.mem (s.arg 24 + 8#64)) + B₂ * z (s.mem (s.arg 24 + 16#64)) + B₃ * z (s.mem (s.arg 24 + 24#64))) + (z l26 + B₁ * z r48 + B₂ * z r61 + B₃ * z r74) * pZ := by
    linear_combination T + S0 + B₁ * S1 + B₂ * S2 + B₃ * S3 + B₄ * e91 + B₅ * e92 + B₆ * e93 + B₇ * e94 + B₈ * e95
  clear T S0 S1 S2 S3 k5 hb
  clear e91 e92 e93 e94 e95
  simp only [sqr_12, List.cons_append, List.nil_append]
  xsub r96 c96 e96
  xsbb r97 c97 e97
  xsbb r98 c98 e98
  xsbb r99 c99 e99
  xsbb r100 c100 e100
  xcs
  xcs
  xcs
  xcs
  xmov
  xmov
  xmov
  xmov
  refine wp_nil ?_
  refine h _ _ _ _ _ rfl (montFinishP (m0 := l26) (m1 := r48) (m2 := r61)
    (m3 := r74) (mul_lt_sq _ _ _) ?_ e96 e97 e98 e99 e100)
  push_cast
  rw [← rdZ_eq]
  unfold rdZ
  exact V

theorem fromMont_wp {Q : St → Prop} {s : St}
    (h : ∀ (w0 w1 w2 w3 : W) (s' : St),
      s'.mem = upd (upd (upd (upd s.mem (s.arg 0 + 0#64) w0) (s.arg 0 + 8#64) w1)
        (s.arg 0 + 16#64) w2) (s.arg 0 + 24#64) w3 →
      z w0 + B₁ * z w1 + B₂ * z w2 + B₃ * z w3 =
        ((fromMontP (rd4 s.mem (s.arg 24)) : ℕ) : ℤ) → Q s') :
    Q (exec fromMont s) := by
  unfold fromMont
  simp only [List.append_assoc]
  simp only [fromMont_1, List.cons_append, List.nil_append]
  xmov
  xmov
  xmov
  xmov
  xmov
  xmov
  xxor
  simp only [fromMont_2, List.cons_append, List.nil_append]
  xmov
  xmov
  xmul l1 h1 e1
  xadd r2 c2 e2
  xadc r3 c3 e3
  xadc r4 c4 e4
  xadc r5 c5 e5
  xadc r6 c6 e6
  xadc r7 c7 e7
  xshl r8 e8
  xshr r9 e9
  xsub r10 c10 e10
  xsbb r11 c11 e11
  xsbb r12 c12 e12
  xsbb r13 c13 e13
  xmov
  xxor
  have S0 := redFrom e1 e2 e3 e4 e5 e6 e7 e8 e9 e10 e11 e12 e13
  clear e1 e2 e3 e4 e5 e6 e7 e8 e9 e10 e11 e12 e13
  simp only [fromMont_3, List.cons_append, List.nil_append]
  xmov
  xmov
  xmul l14 h14 e14
  xadd r15 c15 e15
  xadc r16 c16 e16
  xadc r17 c17 e17
  xadc r18 c18 e18
  xadc r19 c19 e19
  xadc r20 c20 e20
  xshl r21 e21
  xshr r22 e22
  xsub r23 c23 e23
  xsbb r24 c24 e24
  xsbb r25 c25 e25
  xsbb r26 c26 e26
  xmov
  xxor
  have S1 := redFrom e14 e15 e16 e17 e18 e19 e20 e21 e22 e23 e24 e25 e26
  clear e14 e15 e16 e17 e18 e19 e20 e21 e22 e23 e24 e25 e26
  simp only [fromMont_4, List.cons_append, List.nil_append]
  xmov
  xmov
  xmul l27 h27 e27
  xadd r28 c28 e28
  xadc r29 c29 e29
  xadc r30 c30 e30
  xadc r31 c31 e31
  xadc r32 c32 e32
  xadc r33 c33 e33
  xshl r34 e34
  xshr r35 e35
  xsub r36 c36 e36
  xsbb r37 c37 e37
  xsbb r38 c38 e38
  xsbb r39 c39 e39
  xmov
  xxor
  have S2 := redFrom e27 e28 e29 e30 e31 e32 e33 e34 e35 e36 e37 e38 e39
  clear e27 e28 e29 e30 e31 e32 e33 e34 e35 e36 e37 e38 e39
  simp only [fromMont_5, List.cons_append, List.nil_append]
  xxor
  xmov
  xmov
  xmul l40 h40 e40
  xadd r41 c41 e41
  xadc r42 c42 e42
  xadc r43 c43 e43
  xadc r44 c44 e44
  xadc r45 c45 e45
  xadc r46 c46 e46
  xshl r47 e47
  xshr r48 e48
  xsub r49 c49 e49
  xsbb r50 c50 e50
  xsbb r51 c51 e51
  xsbb r52 c52 e52
  xmov
  xmov
  xmov
  xmov
  xmov
  xsub r53 c53 e53
  xsbb r54 c54 e54
  xsbb r55 c55 e55
  xsbb r56 c56 e56
  xcs
  xcs
  xcs
  xcs
  xmov
  xmov
  xmov
  xmov
  have S3 := redFrom e40 e41 e42 e43 e44 e45 e46 e47 e48 e49 e50 e51 e52
  clear e40 e41 e42 e43 e44 e45 e46 e47 e48 e49 e50 e51 e52
  have V : B₄ * (z r49 + B₁ * z r50 + B₂ * z r51 + B₃ * z r52) =
      (z (s.mem (s.arg 24 + 0#64)) + B₁ * z (s.mem (s.arg 24 + 8#64)) + B₂ * z (s.mem (s.arg 24 + 16#64)) + B₃ * z (s.mem (s.arg 24 + 24#64))) + (z (s.mem (s.arg 24 + 0#64)) + B₁ * z r10 + B₂ * z r23 + B₃ * z r36) * pZ := by
    linear_combination S0 + B₁ * S1 + B₂ * S2 + B₃ * S3
  refine wp_nil ?_
  refine h _ _ _ _ _ rfl (montFinish4 (m0 := (s.mem (s.arg 24 + 0#64))) (m1 := r10) (m2 := r23)
    (m3 := r36) ?_ ?_ e53 e54 e55 e56)
  · have := rd4_lt s.mem (s.arg 24)
    refine lt_of_lt_of_eq (Int.ofNat_lt.mpr this) ?_
    norm_num
  · rw [← rdZ_eq]
    unfold rdZ
    exact V

theorem mulInternal_wp {Q : St → Prop} {s : St} {rest : List Instr}
    (h : ∀ (w0 w1 w2 w3 ax bx cx dx bp r8 r9 : W) (cf zf : Bool),
      z w0 + B₁ * z w1 + B₂ * z w2 + B₃ * z w3 =
        ((mulP (val4 s.r10 s.r11 s.r12 s.r13) (val4 s.r14 s.r15 s.di s.si) : ℕ) : ℤ) →
      Q (exec rest { s with ax := ax, bx := bx, cx := cx, dx := dx, bp := bp, r8 := r8, r9 := r9,
                            r10 := w0, r11 := w1, r12 := w2, r13 := w3, cf := cf, zf := zf })) :
    Q (exec (mulInternal ++ rest) s) := by
  unfold mulInternal
  simp only [List.append_assoc]
  simp only [mulInternal_1, List.cons_append, List.nil_append]
  xmov
  xmul l1 h1 e1
  xmov
  xmov
  xmov
  xmul l2 h2 e2
  xadd r3 c3 e3
  xadc r4 c4 e4
  xmov
  xmov
  xmul l5 h5 e5
  xadd r6 c6 e6
  xadc r7 c7 e7
  xmov
  xmov
  xmul l8 h8 e8
  xadd r9 c9 e9
  xadc r10 c10 e10
  xmov
  have q1 := mac1 e2 e3 e4
  have q2 := mac1 e5 e6 e7
  have q3 := mac1 e8 e9 e10
  have T : z l1 + B₁ * z r3 + B₂ * z r6 + B₃ * z r9 + B₄ * z r10 =
      (z s.r10 * z s.r14) + B₁ * (z s.r10 * z s.r15) + B₂ * (z s.r10 * z s.di) + B₃ * (z s.r10 * z s.si) := by
    linear_combination e1 + B₁ * q1 + B₂ * q2 + B₃ * q3
  clear q1 q2 q3
  clear e1 e2 e3 e4 e5 e6 e7 e8 e9 e10
  simp only [mulInternal_2, List.cons_append, List.nil_append]
  xmov
  xmul l11 h11 e11
  xadd r12 c12 e12
  xadc r13 c13 e13
  xmov
  xmov
  xmul l14 h14 e14
  xadd r15 c15 e15
  xadc r16 c16 e16
  xadd r17 c17 e17
  xadc r18 c18 e18
  xmov
  xmov
  xmul l19 h19 e19
  xadd r20 c20 e20
  xadc r21 c21 e21
  xadd r22 c22 e22
  xadc r23 c23 e23
  xmov
  xmov
  xmul l24 h24 e24
  xadd r25 c25 e25
  xadc r26 c26 e26
  xadd r27 c27 e27
  xadc r28 c28 e28
  xmov
  have q1 := mac1 e11 e12 e13
  have q2 := mac2 e14 e15 e16 e17 e18
  have q3 := mac2 e19 e20 e21 e22 e23
  have q4 := mac2 e24 e25 e26 e27 e28
  replace T : z l1 + B₁ * z r12 + B₂ * z r17 + B₃ * z r22 + B₄ * z r27 + B₅ * z r28 =
      (z s.r10 * z s.r14) + B₁ * (z s.r10 * z s.r15) + B₂ * (z s.r10 * z s.di) + B₃ * (z s.r10 * z s.si) + B₁ * (z s.r11 * z s.r14) + B₂ * (z s.r11 * z s.r15) + B₃ * (z s.r11 * z s.di) + B₄ * (z s.r11 * z s.si) := by
    linear_combination T + B₁ * q1 + B₂ * q2 + B₃ * q3 + B₄ * q4
  clear q1 q2 q3 q4
  clear e11 e12 e13 e14 e15 e16 e17 e18 e19 e20 e21 e22 e23 e24 e25 e26 e27 e28
  simp only [mulInternal_3, List.cons_append, List.nil_append]
  xmov
  xmul l29 h29 e29
  xadd r30 c30 e30
  xadc r31 c31 e31
  xmov
  xmov
  xmul l32 h32 e32
  xadd r33 c33 e33
  xadc r34 c34 e34
  xadd r35 c35 e35
  xadc r36 c36 e36
  xmov
  xmov
  xmul l37 h37 e37
  xadd r38 c38 e38
  xadc r39 c39 e39
  xadd r40 c40 e40
  xadc r41 c41 e41
  xmov
  xmov
  xmul l42 h42 e42
  xadd r43 c43 e43
  xadc r44 c44 e44
  xadd r45 c45 e45
  xadc r46 c46 e46
  xmov
  have q1 := mac1 e29 e30 e31
  have q2 := mac2 e32 e33 e34 e35 e36
  have q3 := mac2 e37 e38 e39 e40 e41
  have q4 := mac2 e42 e43 e44 e45 e46
  replace T : z l1 + B₁ * z r12 + B₂ * z r30 + B₃ * z r35 + B₄ * z r40 + B₅ * z r45 + B₆ * z r46 =
      (z s.r10 * z s.r14) + B₁ * (z s.r10 * z s.r15) + B₂ * (z s.r10 * z s.di) + B₃ * (z s.r10 * z s.si) + B₁ * (z s.r11 * z s.r14) + B₂ * (z s.r11 * z s.r15) + B₃ * (z s.r11 * z s.di) + B₄ * (z s.r11 * z s.si) + B₂ * (z s.r12 * z s.r14) + B₃ * (z s.r12 * z s.r15) + B₄ * (z s.r12 * z s.di) + B₅ * (z s.r12 * z s.si) := by
    linear_combination T + B₂ * q1 + B₃ * q2 + B₄ * q3 + B₅ * q4
  clear q1 q2 q3 q4
  clear e29 e30 e31 e32 e33 e34 e35 e36 e37 e38 e39 e40 e41 e42 e43 e44 e45 e46
  simp only [mulInternal_4, List.cons_append, List.nil_append]
  xmov
  xmul l47 h47 e47
  xadd r48 c48 e48
  xadc r49 c49 e49
  xmov
  xmov
  xmul l50 h50 e50
  xadd r51 c51 e51
  xadc r52 c52 e52
  xadd r53 c53 e53
  xadc r54 c54 e54
  xmov
  xmov
  xmul l55 h55 e55
  xadd r56 c56 e56
  xadc r57 c57 e57
  xadd r58 c58 e58
  xadc r59 c59 e59
  xmov
  xmov
  xmul l60 h60 e60
  xadd r61 c61 e61
  xadc r62 c62 e62
  xadd r63 c63 e63
  xadc r64 c64 e64
  xmov
  have q1 := mac1 e47 e48 e49
  have q2 := mac2 e50 e51 e52 e53 e54
  have q3 := mac2 e55 e56 e57 e58 e59
  have q4 := mac2 e60 e61 e62 e63 e64
  replace T : z l1 + B₁ * z r12 + B₂ * z r30 + B₃ * z r48 + B₄ * z r53 + B₅ * z r58 + B₆ * z r63 + B₇ * z r64 =
      (z s.r10 * z s.r14) + B₁ * (z s.r10 * z s.r15) + B₂ * (z s.r10 * z s.di) + B₃ * (z s.r10 * z s.si) + B₁ * (z s.r11 * z s.r14) + B₂ * (z s.r11 * z s.r15) + B₃ * (z s.r11 * z s.di) + B₄ * (z s.r11 * z s.si) + B₂ * (z s.r12 * z s.r14) + B₃ * (z s.r12 * z s.r15) + B₄ * (z s.r12 * z s.di) + B₅ * (z s.r12 * z s.si) + B₃ * (z s.r13 * z s.r14) + B₄ * (z s.r13 * z s.r15) + B₅ * (z s.r13 * z s.di) + B₆ * (z s.r13 * z s.si) := by
    linear_combination T + B₃ * q1 + B₄ * q2 + B₅ * q3 + B₆ * q4
  clear q1 q2 q3 q4
  clear e47 e48 e49 e50 e51 e52 e53 e54 e55 e56 e57 e58 e59 e60 e61 e62 e63 e64
  replace T : z l1 + B₁ * z r12 + B₂ * z r30 + B₃ * z r48 + B₄ * z r53 + B₅ * z r58 + B₆ * z r63 + B₇ * z r64 =
      (z s.r10 + B₁ * z s.r11 + B₂ * z s.r12 + B₃ * z s.r13) * (z s.r14 + B₁ * z s.r15 + B₂ * z s.di + B₃ * z s.si) := by
    linear_combination T
  simp only [mulInternal_5, List.cons_append, List.nil_append]
  xmov
  xmov
  xmul l65 h65 e65
  xadd r66 c66 e66
  xadc r67 c67 e67
  xadc r68 c68 e68
  xadc r69 c69 e69
  xadd r70 c70 e70
  xadc r71 c71 e71
  xmov
  xmov
  xshl r72 e72
  xshr r73 e73
  xsub r74 c74 e74
  xsbb r75 c75 e75
  xsbb r76 c76 e76
  xsbb r77 c77 e77
  have S0 := (redInt e65 e66 e67 e68 e69 e70 e71 e72 e73 e74 e75 e76 e77).1
  clear e65 e66 e67 e68 e69 e70 e71 e72 e73 e74 e75 e76 e77
  simp only [mulInternal_6, List.cons_append, List.nil_append]
  xmov
  xmov
  xmul l78 h78 e78
  xadd r79 c79 e79
  xadc r80 c80 e80
  xadc r81 c81 e81
  xadc r82 c82 e82
  xadd r83 c83 e83
  xadc r84 c84 e84
  xmov
  xmov
  xshl r85 e85
  xshr r86 e86
  xsub r87 c87 e87
  xsbb r88 c88 e88
  xsbb r89 c89 e89
  xsbb r90 c90 e90
  have S1 := (redInt e78 e79 e80 e81 e82 e83 e84 e85 e86 e87 e88 e89 e90).1
  clear e78 e79 e80 e81 e82 e83 e84 e85 e86 e87 e88 e89 e90
  simp only [mulInternal_7, List.cons_append, List.nil_append]
  xmov
  xmov
  xmul l91 h91 e91
  xadd r92 c92 e92
  xadc r93 c93 e93
  xadc r94 c94 e94
  xadc r95 c95 e95
  xadd r96 c96 e96
  xadc r97 c97 e97
  xmov
  xmov
  xshl r98 e98
  xshr r99 e99
  xsub r100 c100 e100
  xsbb r101 c101 e101
  xsbb r102 c102 e102
  xsbb r103 c103 e103
  have S2 := (redInt e91 e92 e93 e94 e95 e96 e97 e98 e99 e100 e101 e102 e103).1
  clear e91 e92 e93 e94 e95 e96 e97 e98 e99 e100 e101 e102 e103
  simp only [mulInternal_8, List.cons_append, List.nil_append]
  xmov
  xmov
  xmul l104 h104 e104
  xadd r105 c105 e105
  xadc r106 c106 e106
  xadc r107 c107 e107
  xadc r108 c108 e108
  xadd r109 c109 e109
  xadc r110 c110 e110
  xmov
  xmov
  xshl r111 e111
  xshr r112 e112
  xsub r113 c113 e113
  xsbb r114 c114 e114
  xsbb r115 c115 e115
  xsbb r116 c116 e116
  xmov
  obtain ⟨S3, hb⟩ := redInt e104 e105 e106 e107 e108 e109 e110 e111 e112 e113 e114 e115 e116
  clear e104 e105 e106 e107 e108 e109 e110 e111 e112 e113 e114 e115 e116
  simp only [mulInternal_9, List.cons_append, List.nil_append]
  xadc r117 c117 e117
  xadc r118 c118 e118
  xadc r119 c119 e119
  xadc r120 c120 e120
  xadc r121 c121 e121
  rw [hb, add_zero] at e117
  have k5 := carry_zero e121 (by linarith only [bz_le c120])
  rw [k5] at e121
  have V : B₄ * (z r117 + B₁ * z r118 + B₂ * z r119 + B₃ * z r120 + B₄ * z r121) =
      (z s.r10 + B₁ * z s.r11 + B₂ * z s.r12 + B₃ * z s.r13) * (z s.r14 + B₁ * z s.r15 + B₂ * z s.di + B₃ * z s.si) + (z l1 + B₁ * z r74 + B₂ * z r87 + B₃ * z r100) * pZ := by
    linear_combination T + S0 + B₁ * S1 + B₂ * S2 + B₃ * S3 + B₄ * e117 + B₅ * e118 + B₆ * e119 + B₇ * e120 + B₈ * e121
  clear T S0 S1 S2 S3 k5 hb
  clear e117 e118 e119 e120 e121
  simp only [mulInternal_10, List.cons_append, List.nil_append]
  xmov
  xmov
  xmov
  xmov
  simp only [mulInternal_11, List.cons_append, List.nil_append]
  xsub r122 c122 e122
  xsbb r123 c123 e123
  xsbb r124 c124 e124
  xsbb r125 c125 e125
  xsbb r126 c126 e126
  simp only [mulInternal_12, List.cons_append, List.nil_append]
  xcs
  xcs
  xcs
  xcs
  refine h _ _ _ _ _ _ _ _ _ _ _ _ _ (montFinishP (t := val4 s.r10 s.r11 s.r12 s.r13 * val4 s.r14 s.r15 s.di s.si)
    (m0 := l1) (m1 := r74) (m2 := r87) (m3 := r100) (val4_mul_lt _ _ _ _ _ _ _ _) ?_ e122 e123 e124 e125 e126)
  rw [Int.natCast_mul, val4_cast, val4_cast]
  exact V

theorem sqrInternal_wp {Q : St → Prop} {s : St} {rest : List Instr}
    (h : ∀ (w0 w1 w2 w3 ax bx cx dx bp r8 r9 r14 r15 di si : W) (cf zf : Bool),
      z w0 + B₁ * z w1 + B₂ * z w2 + B₃ * z w3 =
        ((sqrP (val4 s.r10 s.r11 s.r12 s.r13) : ℕ) : ℤ) →
      Q (exec rest { s with ax := ax, bx := bx, cx := cx, dx := dx, bp := bp, r8 := r8, r9 := r9, r14 := r14, r15 := r15, di := di, si := si,
                            r10 := w0, r11 := w1, r12 := w2, r13 := w3, cf := cf, zf := zf })) :
    Q (exec (sqrInternal ++ rest) s) := by
  unfold sqrInternal
  simp only [List.append_assoc]
  simp only [sqrInternal_1, List.cons_append, List.nil_append]
  xmov
  xmul l1 h1 e1
  xmov
  xmov
  xmov
  xmul l2 h2 e2
  xadd r3 c3 e3
  xadc r4 c4 e4
  xmov
  xmov
  xmul l5 h5 e5
  xadd r6 c6 e6
  xadc r7 c7 e7
  xmov
  xmov
  xmul l8 h8 e8
  xadd r9 c9 e9
  xadc r10 c10 e10
  xmov
  xmov
  xmul l11 h11 e11
  xadd r12 c12 e12
  xadc r13 c13 e13
  xadd r14 c14 e14
  xadc r15 c15 e15
  xmov
  xmov
  xmul l16 h16 e16
  xadd r17 c17 e17
  xadc r18 c18 e18
  xmov
  xxor
  have q1 := mac1 e2 e3 e4
  have q2 := mac1 e5 e6 e7
  have q3 := mac1 e8 e9 e10
  have q4 := mac2 e11 e12 e13 e14 e15
  have q5 := mac1 e16 e17 e18
  have T : z l1 + B₁ * z r3 + B₂ * z r9 + B₃ * z r14 + B₄ * z r17 + B₅ * z r18 =
      (z s.r10 * z s.r11) + B₁ * (z s.r10 * z s.r12) + B₂ * (z s.r10 * z s.r13) + B₂ * (z s.r11 * z s.r12) + B₃ * (z s.r11 * z s.r13) + B₄ * (z s.r12 * z s.r13) := by
    linear_combination e1 + B₁ * q1 + B₂ * q2 + B₂ * q3 + B₃ * q4 + B₄ * q5
  clear q1 q2 q3 q4 q5
  clear e1 e2 e3 e4 e5 e6 e7 e8 e9 e10 e11 e12 e13 e14 e15 e16 e17 e18
  simp only [sqrInternal_2, List.cons_append, List.nil_append]
  xadd r19 c19 e19
  xadc r20 c20 e20
  xadc r21 c21 e21
  xadc r22 c22 e22
  xadc r23 c23 e23
  xadc r24 c24 e24
  xadc r25 c25 e25
  have hk := carry_zero e25 (by linarith only [bz_le c24])
  rw [hk] at e25
  replace T : z r19 + B₁ * z r20 + B₂ * z r21 + B₃ * z r22 + B₄ * z r23 + B₅ * z r24 + B₆ * z r25 =
      2 * ((z s.r10 * z s.r11) + B₁ * (z s.r10 * z s.r12) + B₂ * (z s.r10 * z s.r13) + B₂ * (z s.r11 * z s.r12) + B₃ * (z s.r11 * z s.r13) + B₄ * (z s.r12 * z s.r13)) := by
    linear_combination 2 * T + e19 + B₁ * e20 + B₂ * e21 + B₃ * e22 + B₄ * e23 + B₅ * e24 + B₆ * e25
  have ht : z r25 ≤ 1 := by linarith only [e25, bz_le c24]
  clear hk
  clear e19 e20 e21 e22 e23 e24 e25
  simp only [sqrInternal_3, List.cons_append, List.nil_append]
  xmov
  xmul l26 h26 e26
  xmov
  xmov
  xmov
  xmul l27 h27 e27
  xadd r28 c28 e28
  xadc r29 c29 e29
  xadc r30 c30 e30
  xmov
  xmov
  xmul l31 h31 e31
  xadd r32 c32 e32
  xadc r33 c33 e33
  xadc r34 c34 e34
  xmov
  xmov
  xmul l35 h35 e35
  xadd r36 c36 e36
  xadc r37 c37 e37
  xadc r38 c38 e38
  have k0 := carry_zero e30 (by linarith only [hi_le e27, bz_le c29])
  rw [k0] at e30
  have k1 := carry_zero e34 (by linarith only [hi_le e31, bz_le c33])
  rw [k1] at e34
  have U : z l26 + B₁ * z r28 + B₂ * z r29 + B₃ * z r32 + B₄ * z r33 + B₅ * z r36 + B₆ * z r37 + B₇ * z r38 + B₈ * bz c38 =
      (z s.r10 + B₁ * z s.r11 + B₂ * z s.r12 + B₃ * z s.r13) * (z s.r10 + B₁ * z s.r11 + B₂ * z s.r12 + B₃ * z s.r13) := by
    linear_combination e26 + B₁ * T + B₁ * e28 + B₂ * (e27 + e29) + B₃ * e30 + B₃ * e32 + B₄ * (e31 + e33) + B₅ * e34 + B₅ * e36 + B₆ * (e35 + e37) + B₇ * e38
  have hc : bz c38 = 0 := no_carry_sq  U
  rw [hc, mul_zero, add_zero] at U
  clear T ht k0 k1 hc
  clear e26 e27 e28 e29 e30 e31 e32 e33 e34 e35 e36 e37 e38
  have T := U
  clear U
  simp only [sqrInternal_4, List.cons_append, List.nil_append]
  xmov
  xmov
  xmul l39 h39 e39
  xadd r40 c40 e40
  xadc r41 c41 e41
  xadc r42 c42 e42
  xadc r43 c43 e43
  xadd r44 c44 e44
  xadc r45 c45 e45
  xmov
  xmov
  xshl r46 e46
  xshr r47 e47
  xsub r48 c48 e48
  xsbb r49 c49 e49
  xsbb r50 c50 e50
  xsbb r51 c51 e51
  have S0 := (redInt e39 e40 e41 e42 e43 e44 e45 e46 e47 e48 e49 e50 e51).1
  clear e39 e40 e41 e42 e43 e44 e45 e46 e47 e48 e49 e50 e51
  simp only [sqrInternal_5, List.cons_append, List.nil_append]
  xmov
  xmov
  xmul l52 h52 e52
  xadd r53 c53 e53
  xadc r54 c54 e54
  xadc r55 c55 e55
  xadc r56 c56 e56
  xadd r57 c57 e57
  xadc r58 c58 e58
  xmov
  xmov
  xshl r59 e59
  xshr r60 e60
  xsub r61 c61 e61
  xsbb r62 c62 e62
  xsbb r63 c63 e63
  xsbb r64 c64 e64
  have S1 := (redInt e52 e53 e54 e55 e56 e57 e58 e59 e60 e61 e62 e63 e64).1
  clear e52 e53 e54 e55 e56 e57 e58 e59 e60 e61 e62 e63 e64
  simp only [sqrInternal_6, List.cons_append, List.nil_append]
  xmov
  xmov
  xmul l65 h65 e65
  xadd r66 c66 e66
  xadc r67 c67 e67
  xadc r68 c68 e68
  xadc r69 c69 e69
  xadd r70 c70 e70
  xadc r71 c71 e71
  xmov
  xmov
  xshl r72 e72
  xshr r73 e73
  xsub r74 c74 e74
  xsbb r75 c75 e75
  xsbb r76 c76 e76
  xsbb r77 c77 e77
  have S2 := (redInt e65 e66 e67 e68 e69 e70 e71 e72 e73 e74 e75 e76 e77).1
  clear e65 e66 e67 e68 e69 e70 e71 e72 e73 e74 e75 e76 e77
  simp only [sqrInternal_7, List.cons_append, List.nil_append]
  xmov
  xmov
  xmul l78 h78 e78
  xadd r79 c79 e79
  xadc r80 c80 e80
  xadc r81 c81 e81
  xadc r82 c82 e82
  xadd r83 c83 e83
  xadc r84 c84 e84
  xmov
  xmov
  xshl r85 e85
  xshr r86 e86
  xsub r87 c87 e87
  xsbb r88 c88 e88
  xsbb r89 c89 e89
  xsbb r90 c90 e90
  xmov
  obtain ⟨S3, hb⟩ := redInt e78 e79 e80 e81 e82 e83 e84 e85 e86 e87 e88 e89 e90
  clear e78 e79 e80 e81 e82 e83 e84 e85 e86 e87 e88 e89 e90
  simp only [sqrInternal_8, List.cons_append, List.nil_append]
  xadc r91 c91 e91
  xadc r92 c92 e92
  xadc r93 c93 e93
  xadc r94 c94 e94
  xadc r95 c95 e95
  rw [hb, add_zero] at e91
  have k5 := carry_zero e95 (by linarith only [bz_le c94])
  rw [k5] at e95
  have V : B₄ * (z r91 + B₁ * z r92 + B₂ * z r93 + B₃ * z r94 + B₄ * z r95) =
      (z s.r10 + B₁ * z s.r11 + B₂ * z s.r12 + B₃ * z s.r13) * (z s.r10 + B₁ * z s.r11 + B₂ * z s.r12 + B₃ * z s.r13) + (z l26 + B₁ * z r48 + B₂ * z r61 + B₃ * z r74) * pZ := by
    linear_combination T + S0 + B₁ * S1 + B₂ * S2 + B₃ * S3 + B₄ * e91 + B₅ * e92 + B₆ * e93 + B₇ * e94 + B₈ * e95
  clear T S0 S1 S2 S3 k5 hb
  clear e91 e92 e93 e94 e95
  simp only [sqrInternal_9, List.cons_append, List.nil_append]
  xmov
  xmov
  xmov
  xmov
  simp only [sqrInternal_10, List.cons_append, List.nil_append]
  xsub r96 c96 e96
  xsbb r97 c97 e97
  xsbb r98 c98 e98
  xsbb r99 c99 e99
  xsbb r100 c100 e100
  simp only [sqrInternal_11, List.cons_append, List.nil_append]
  xcs
  xcs
  xcs
  xcs
  refine h _ _ _ _ _ _ _ _ _ _ _ _ _ _ _ _ _ (montFinishP (t := val4 s.r10 s.r11 s.r12 s.r13 * val4 s.r10 s.r11 s.r12 s.r13)
    (m0 := l26) (m1 := r48) (m2 := r61) (m3 := r74) (val4_mul_lt _ _ _ _ _ _ _ _) ?_ e96 e97 e98 e99 e100)
  rw [Int.natCast_mul, val4_cast]
  exact V

end Verif.X64.P256
