/-
The short arithmetic pieces of sm2/p256_asm_amd64.s: subtraction, addition, doubling, halving and
negation.
-/
import Verif.Lemmas.MontZ

namespace Verif.X64.P256

seal exec step

/-- p256_sm2SubInternal. -/
theorem subInternal_wp {Q : St → Prop} {s : St} {rest : List Instr}
    (h : ∀ (w0 w1 w2 w3 ax bx cx r8 r9 : W) (cf zf : Bool),
      z w0 + B₁ * z w1 + B₂ * z w2 + B₃ * z w3 =
        ((subP (val4 s.r10 s.r11 s.r12 s.r13) (val4 s.r14 s.r15 s.di s.si) : ℕ) : ℤ) →
      Q (exec rest { s with ax := ax, bx := bx, cx := cx, r8 := r8, r9 := r9,
                            r10 := w0, r11 := w1, r12 := w2, r13 := w3, cf := cf, zf := zf })) :
    Q (exec (subInternal ++ rest) s) := by
  simp only [subInternal, subInternal_1, List.cons_append, List.nil_append]
  xxor
  xsub r1 c1 e1
  xsbb r2 c2 e2
  xsbb r3 c3 e3
  xsbb r4 c4 e4
  xsbb r5 c5 e5
  xmov
  xmov
  xmov
  xmov
  xadd r6 c6 e6
  xadc r7 c7 e7
  xadc r8 c8 e8
  xadc r9 c9 e9
  xadc r10 c10 e10
  xne
  xne
  xne
  xne
  refine h _ _ _ _ _ _ _ _ _ _ _ (condAdd (val4_lt _ _ _ _) (val4_lt _ _ _ _) ?_ e5 e6 e7 e8 e9 e10)
  rw [val4_cast, val4_cast]
  linear_combination e1 + B₁ * e2 + B₂ * e3 + B₃ * e4

/-- The end of p256_sm2AddInline and p256_sm2MulBy2Inline. -/
theorem addFinish {x y : ℕ} (hx : x < 2 ^ 256) (hy : y < 2 ^ 256)
    {u0 u1 u2 u3 top v0 v1 v2 v3 v4 : W} {c3 c4 b0 b1 b2 b3 b4 : Bool}
    (hu : z u0 + B₁ * z u1 + B₂ * z u2 + B₃ * z u3 + B₄ * bz c3 = (x : ℤ) + (y : ℤ))
    (et : z top + B₁ * bz c4 = 0 + 0 + bz c3)
    (f0 : z v0 - B₁ * bz b0 = z u0 - z 0xFFFFFFFFFFFFFFFF#64)
    (f1 : z v1 - B₁ * bz b1 = z u1 - z 0xFFFFFFFF00000000#64 - bz b0)
    (f2 : z v2 - B₁ * bz b2 = z u2 - z 0xFFFFFFFFFFFFFFFF#64 - bz b1)
    (f3 : z v3 - B₁ * bz b3 = z u3 - z 0xFFFFFFFEFFFFFFFF#64 - bz b2)
    (f4 : z v4 - B₁ * bz b4 = z top - 0 - bz b3) :
    z (if b4 = true then u0 else v0) + B₁ * z (if b4 = true then u1 else v1) +
      B₂ * z (if b4 = true then u2 else v2) + B₃ * z (if b4 = true then u3 else v3) =
      ((addP x y : ℕ) : ℤ) ∧
    z u0 + B₁ * z u1 + B₂ * z u2 + B₃ * z u3 = (((x + y) % 2 ^ 256 : ℕ) : ℤ) := by
  rw [z_max] at f0 f2
  rw [z_const0] at f1
  rw [z_const1] at f3
  have key : z v0 + B₁ * z v1 + B₂ * z v2 + B₃ * z v3 - B₄ * bz b3 =
      z u0 + B₁ * z u1 + B₂ * z u2 + B₃ * z u3 - pZ := by
    linear_combination f0 + B₁ * f1 + B₂ * f2 + B₃ * f3
  have hv := four_lt v0 v1 v2 v3
  have hu2 := four_lt u0 u1 u2 u3
  have htop : z top = bz c3 := by
    have := carry_zero et (by have := bz_le c3; omega)
    rw [this] at et; linarith only [et]
  have hb4 : b4 = true ↔ (bz c3 = 0 ∧ bz b3 = 1) := by
    rw [htop] at f4
    have g := z_lt v4; have g' := z_nonneg v4
    have h3 := bz_cases b3; have h4 := bz_cases c3
    clear hu et f0 f1 f2 f3 key hv hu2 htop
    cases b4
    · simp only [bz_false] at f4
      constructor
      · intro h; cases h
      · intro h; omega
    · simp only [bz_true] at f4
      constructor
      · intro _; omega
      · intro _; rfl
  clear f0 f1 f2 f3 f4 et htop
  constructor
  · by_cases h : b4 = true
    · obtain ⟨h1, h2⟩ := hb4.mp h
      simp only [h, if_true]
      rw [h1] at hu
      rw [h2] at key
      generalize z v0 + B₁ * z v1 + B₂ * z v2 + B₃ * z v3 = V at *
      generalize z u0 + B₁ * z u1 + B₂ * z u2 + B₃ * z u3 = U at *
      unfold addP P
      rw [if_pos (by omega)]
      omega
    · have hn : ¬ (bz c3 = 0 ∧ bz b3 = 1) := fun hh => h (hb4.mpr hh)
      obtain rfl : b4 = false := by cases b4 <;> simp_all
      simp only [Bool.false_eq_true, if_false]
      generalize z v0 + B₁ * z v1 + B₂ * z v2 + B₃ * z v3 = V at *
      generalize z u0 + B₁ * z u1 + B₂ * z u2 + B₃ * z u3 = U at *
      unfold addP P
      have h3 := bz_cases b3; have h4 := bz_cases c3
      rw [if_neg (by omega)]
      omega
  · generalize z u0 + B₁ * z u1 + B₂ * z u2 + B₃ * z u3 = U at *
    have h4 := bz_cases c3
    clear key hb4 hv
    omega

/-- p256_sm2AddInline: the sum in the `t` registers. -/
theorem addInline_wp {Q : St → Prop} {s : St} {rest : List Instr}
    (h : ∀ (w0 w1 w2 w3 v0 v1 v2 v3 ax : W) (cf zf : Bool),
      z w0 + B₁ * z w1 + B₂ * z w2 + B₃ * z w3 =
        ((addP (val4 s.r10 s.r11 s.r12 s.r13) (val4 s.r14 s.r15 s.di s.si) : ℕ) : ℤ) →
      z v0 + B₁ * z v1 + B₂ * z v2 + B₃ * z v3 =
        (((val4 s.r10 s.r11 s.r12 s.r13 + val4 s.r14 s.r15 s.di s.si) % 2 ^ 256 : ℕ) : ℤ) →
      Q (exec rest { s with ax := ax, r10 := v0, r11 := v1, r12 := v2, r13 := v3,
                            r14 := w0, r15 := w1, di := w2, si := w3, cf := cf, zf := zf })) :
    Q (exec (addInline ++ rest) s) := by
  simp only [addInline, List.cons_append, List.nil_append]
  xxor
  xadd r1 c1 e1
  xadc r2 c2 e2
  xadc r3 c3 e3
  xadc r4 c4 e4
  xadc r5 c5 e5
  xmov
  xmov
  xmov
  xmov
  xsub r6 c6 e6
  xsbb r7 c7 e7
  xsbb r8 c8 e8
  xsbb r9 c9 e9
  xsbb r10 c10 e10
  xcs
  xcs
  xcs
  xcs
  have := addFinish (val4_lt s.r10 s.r11 s.r12 s.r13) (val4_lt s.r14 s.r15 s.di s.si) ?_ e5 e6 e7
    e8 e9 e10
  · exact h _ _ _ _ _ _ _ _ _ _ _ this.1 this.2
  · rw [val4_cast, val4_cast]
    linear_combination e1 + B₁ * e2 + B₂ * e3 + B₃ * e4

/-- p256_sm2MulBy2Inline: the double in the `t` registers. -/
theorem mulBy2Inline_wp {Q : St → Prop} {s : St} {rest : List Instr}
    (h : ∀ (w0 w1 w2 w3 v0 v1 v2 v3 ax : W) (cf zf : Bool),
      z w0 + B₁ * z w1 + B₂ * z w2 + B₃ * z w3 =
        ((dblP (val4 s.r10 s.r11 s.r12 s.r13) : ℕ) : ℤ) →
      z v0 + B₁ * z v1 + B₂ * z v2 + B₃ * z v3 =
        (((val4 s.r10 s.r11 s.r12 s.r13 + val4 s.r10 s.r11 s.r12 s.r13) % 2 ^ 256 : ℕ) : ℤ) →
      Q (exec rest { s with ax := ax, r10 := v0, r11 := v1, r12 := v2, r13 := v3,
                            r14 := w0, r15 := w1, di := w2, si := w3, cf := cf, zf := zf })) :
    Q (exec (mulBy2Inline ++ rest) s) := by
  simp only [mulBy2Inline, List.cons_append, List.nil_append]
  xxor
  xadd r1 c1 e1
  xadc r2 c2 e2
  xadc r3 c3 e3
  xadc r4 c4 e4
  xadc r5 c5 e5
  xmov
  xmov
  xmov
  xmov
  xsub r6 c6 e6
  xsbb r7 c7 e7
  xsbb r8 c8 e8
  xsbb r9 c9 e9
  xsbb r10 c10 e10
  xcs
  xcs
  xcs
  xcs
  have := addFinish (val4_lt s.r10 s.r11 s.r12 s.r13) (val4_lt s.r10 s.r11 s.r12 s.r13) ?_ e5 e6 e7
    e8 e9 e10
  · exact h _ _ _ _ _ _ _ _ _ _ _ this.1 this.2
  · rw [val4_cast]
    linear_combination e1 + B₁ * e2 + B₂ * e3 + B₃ * e4

/-- p256_sm2NegCond. -/
theorem negCond_wp {Q : St → Prop} {s : St}
    (h : ∀ (w0 w1 w2 w3 : W) (s' : St),
      s'.mem = upd (upd (upd (upd s.mem (s.arg 0 + 0#64) w0) (s.arg 0 + 8#64) w1)
        (s.arg 0 + 16#64) w2) (s.arg 0 + 24#64) w3 →
      z w0 + B₁ * z w1 + B₂ * z w2 + B₃ * z w3 =
        ((negP (rd4 s.mem (s.arg 0)) (decide (s.arg 24 ≠ 0)) : ℕ) : ℤ) → Q s') :
    Q (exec negCond s) := by
  unfold negCond
  simp only [List.append_assoc]
  simp only [negCond_1, negCond_2, negCond_3, negCond_4, negCond_5, negCond_6, List.cons_append,
    List.nil_append]
  xmov
  xmov
  xmov
  xmov
  xmov
  xmov
  xmov
  xmov
  xmov
  xmov
  xsub r1 c1 e1
  xsbb r2 c2 e2
  xsbb r3 c3 e3
  xsbb r4 c4 e4
  xtest
  xeq
  xeq
  xeq
  xeq
  xmov
  xmov
  xmov
  xmov
  refine wp_nil ?_
  refine h _ _ _ _ _ rfl ?_
  have hr := rdZ_eq s.mem (s.arg 0)
  unfold rdZ at hr
  have hlt := rd4_lt s.mem (s.arg 0)
  have hv := four_lt r1 r2 r3 r4
  rw [z_max] at e1 e3
  replace e2 : z r2 - B₁ * bz c2 = 18446744069414584320 - z (s.mem (s.arg 0 + 8#64)) - bz c1 := e2
  replace e4 : z r4 - B₁ * bz c4 = 18446744069414584319 - z (s.mem (s.arg 0 + 24#64)) - bz c3 := e4
  have key : z r1 + B₁ * z r2 + B₂ * z r3 + B₃ * z r4 - B₄ * bz c4 =
      pZ - (rd4 s.mem (s.arg 0) : ℤ) := by
    rw [← hr]
    linear_combination e1 + B₁ * e2 + B₂ * e3 + B₃ * e4
  by_cases hc : s.arg 24 = 0
  · simp only [hc, decide_true, if_true, ne_eq, not_true_eq_false, decide_false, negP,
      Bool.false_eq_true, if_false]
    exact hr
  · simp only [hc, decide_false, ne_eq, not_false_eq_true, decide_true, negP,
      Bool.false_eq_true, if_false, if_true]
    generalize rd4 s.mem (s.arg 0) = x at *
    generalize z r1 + B₁ * z r2 + B₂ * z r3 + B₃ * z r4 = V at *
    have g := bz_cases c4
    clear hr e1 e2 e3 e4
    unfold P
    omega

/-- The "Divide by 2" part of p256_sm2PointDoubleAsm. -/
theorem half_wp {Q : St → Prop} {s : St} {rest : List Instr}
    (h : ∀ (w0 w1 w2 w3 ax : W) (cf zf : Bool),
      z w0 + B₁ * z w1 + B₂ * z w2 + B₃ * z w3 =
        ((halfP (val4 s.r10 s.r11 s.r12 s.r13) : ℕ) : ℤ) →
      Q (exec rest { s with ax := ax, r10 := w0, r11 := w1, r12 := w2, r13 := w3,
                            r14 := s.r10, r15 := s.r11, di := s.r12, si := s.r13,
                            cf := cf, zf := zf })) :
    Q (exec (pointDoubleAsm_7 ++ (pointDoubleAsm_8.flatMap V.code ++ (pointDoubleAsm_9 ++ rest)))
      s) := by
  simp only [pointDoubleAsm_7, pointDoubleAsm_8, pointDoubleAsm_9, List.flatMap_cons,
    List.flatMap_nil, V.code, acc2t, List.cons_append, List.nil_append]
  xxor
  xmov
  xmov
  xmov
  xmov
  xadd r1 c1 e1
  xadc r2 c2 e2
  xadc r3 c3 e3
  xadc r4 c4 e4
  xadc r5 c5 e5
  xtest1
  xeq
  xeq
  xeq
  xeq
  xand r6 e6
  xshrd r7 e7
  xshrd r8 e8
  xshrd r9 e9
  xshrd r10 e10
  refine h _ _ _ _ _ _ _ ?_
  rw [z_max] at e1 e3
  replace e2 : z r2 + B₁ * bz c2 = z s.r11 + 18446744069414584320 + bz c1 := e2
  replace e4 : z r4 + B₁ * bz c4 = z s.r13 + 18446744069414584319 + bz c3 := e4
  have hl := val4_lt s.r10 s.r11 s.r12 s.r13
  have key : z r1 + B₁ * z r2 + B₂ * z r3 + B₃ * z r4 + B₄ * bz c4 =
      (val4 s.r10 s.r11 s.r12 s.r13 : ℤ) + pZ := by
    rw [val4_cast]
    linear_combination e1 + B₁ * e2 + B₂ * e3 + B₃ * e4
  have hpar : val4 s.r10 s.r11 s.r12 s.r13 % 2 = s.r10.toNat % 2 := by
    unfold val4; omega
  have htop : z r5 = bz c4 := by
    have := carry_zero e5 (by have := bz_le c4; omega)
    rw [this] at e5; linarith only [e5]
  have hcast := val4_cast s.r10 s.r11 s.r12 s.r13
  clear e1 e2 e3 e4 e5
  by_cases ho : s.r10.toNat % 2 = 0
  · simp only [ho, decide_true, if_true] at e7 e8 e9 e10
    have h6 : z r6 % 2 = 0 := by
      rw [e6]
      unfold z
      rw [BitVec.toNat_and]
      have : (r5.toNat &&& s.r10.toNat) % 2 = 0 := by
        rw [Nat.mod_two_eq_zero_iff_testBit_zero] at ho ⊢
        rw [Nat.testBit_and, ho, Bool.and_false]
      omega
    rw [h6] at e10
    unfold halfP
    rw [if_pos (by omega)]
    have h0 : z s.r10 % 2 = 0 := by unfold z; omega
    push_cast
    rw [hcast]
    clear key hcast hl htop e6 hpar h h6 ho
    generalize z s.r10 = x0 at *
    generalize z s.r11 = x1 at *
    generalize z s.r12 = x2 at *
    generalize z s.r13 = x3 at *
    omega
  · simp only [ho, decide_false, Bool.false_eq_true, if_false] at e7 e8 e9 e10
    have h6 : z r6 = bz c4 := by
      rw [← htop, e6]
      unfold z
      congr 1
      rw [BitVec.toNat_and]
      have h5 : r5.toNat ≤ 1 := by
        have := bz_le c4
        unfold z at htop; omega
      have h51 : r5.toNat = 0 ∨ r5.toNat = 1 := by omega
      rcases h51 with h51 | h51 <;> rw [h51]
      · rw [Nat.zero_and]
      · rw [Nat.one_and_eq_mod_two]; omega
    have g := bz_cases c4
    rw [h6] at e10
    unfold halfP
    rw [if_neg (by omega)]
    have hk : (((val4 s.r10 s.r11 s.r12 s.r13 + P) / 2 : ℕ) : ℤ) =
        (z r1 + B₁ * z r2 + B₂ * z r3 + B₃ * z r4 + B₄ * bz c4) / 2 := by
      rw [key]
      push_cast
      rw [cast_P]
    rw [hk]
    have hodd : (z r1 + B₁ * z r2 + B₂ * z r3 + B₃ * z r4 + B₄ * bz c4) % 2 = 0 := by
      rw [key]; omega
    clear key hcast hl htop e6 hpar h h6 ho hk
    omega

end Verif.X64.P256
