/-
Facts about the carry chains of sm2/p256_asm_amd64.s as statements about integers: each lemma
takes the equations that the instructions of one piece of a routine establish, and gives the
multi-word equation they amount to.
-/
import Verif.Lemmas.X64

namespace Verif.X64

/-- 2^64 -/
scoped notation "B₁" => (18446744073709551616 : ℤ)
/-- 2^128 -/
scoped notation "B₂" => (340282366920938463463374607431768211456 : ℤ)
/-- 2^192 -/
scoped notation "B₃" => (6277101735386680763835789423207666416102355444464034512896 : ℤ)
/-- 2^256 -/
scoped notation "B₄" =>
  (115792089237316195423570985008687907853269984665640564039457584007913129639936 : ℤ)
/-- 2^320 -/
scoped notation "B₅" => (2135987035920910082395021706169552114602704522356652769947041607822219725780640550022962086936576 : ℤ)
/-- 2^384 -/
scoped notation "B₆" => (39402006196394479212279040100143613805079739270465446667948293404245721771497210611414266254884915640806627990306816 : ℤ)
/-- 2^448 -/
scoped notation "B₇" => (726838724295606890549323807888004534353641360687318060281490199180639288113397923326191050713763565560762521606266177933534601628614656 : ℤ)
/-- 2^512 -/
scoped notation "B₈" => (13407807929942597099574024998205846127479365820592393377723561443721764030073546976801874298166903427690031858186486050853753882811946569946433649006084096 : ℤ)
/-- The SM2 field prime. -/
scoped notation "pZ" => (0xFFFFFFFEFFFFFFFFFFFFFFFFFFFFFFFFFFFFFFFF00000000FFFFFFFFFFFFFFFF : ℤ)
/-- The SM2 group order. -/
scoped notation "nZ" => (0xFFFFFFFEFFFFFFFFFFFFFFFFFFFFFFFF7203DF6B21C6052B53BBF40939D54123 : ℤ)

theorem carry_zero {r : W} {k : Bool} {v : ℤ} (e : z r + B₁ * bz k = v) (h : v < B₁) :
    bz k = 0 := by
  have h0 := z_nonneg r
  rcases bz_cases k with hk | hk
  · exact hk
  · rw [hk] at e; linarith

theorem mulz_le (a b : W) : z a * z b ≤ 18446744073709551615 * 18446744073709551615 :=
  mul_le_mul (by linarith [z_lt a]) (by linarith [z_lt b]) (z_nonneg b) (by norm_num)

theorem hi_le {x y lo hi : W} (m : z lo + B₁ * z hi = z x * z y) :
    z hi ≤ 18446744073709551614 := by
  have h1 := mulz_le x y
  have h2 := z_nonneg lo
  omega

/-- `MULQ; ADDQ AX, acc; ADCQ $0, DX` -/
theorem mac1 {x y lo hi a r d : W} {c k : Bool} (m : z lo + B₁ * z hi = z x * z y)
    (e1 : z r + B₁ * bz c = z a + z lo) (e2 : z d + B₁ * bz k = z hi + 0 + bz c) :
    z r + B₁ * z d = z x * z y + z a := by
  have hk : bz k = 0 := carry_zero e2 (by linarith [hi_le m, bz_le c])
  rw [hk] at e2
  linear_combination m + e1 + B₁ * e2

/-- `MULQ; ADDQ t, acc; ADCQ $0, DX; ADDQ AX, acc; ADCQ $0, DX` -/
theorem mac2 {x y lo hi t a r d r2 d2 : W} {c k c2 k2 : Bool}
    (m : z lo + B₁ * z hi = z x * z y)
    (e1 : z r + B₁ * bz c = z a + z t) (e2 : z d + B₁ * bz k = z hi + 0 + bz c)
    (e3 : z r2 + B₁ * bz c2 = z r + z lo) (e4 : z d2 + B₁ * bz k2 = z d + 0 + bz c2) :
    z r2 + B₁ * z d2 = z x * z y + z a + z t := by
  have hk : bz k = 0 := carry_zero e2 (by linarith [hi_le m, bz_le c])
  rw [hk] at e2
  have hk2 : bz k2 = 0 := by
    rcases bz_cases k2 with h | h
    · exact h
    · rw [h] at e4
      linarith [mulz_le x y, z_nonneg d2, z_nonneg r2, z_lt a, z_lt t]
  rw [hk2] at e4
  linear_combination m + e1 + e3 + B₁ * (e2 + e4)

/-- `MULQ; ADDQ t, acc; ADCQ $0, DX; ADDQ AX, acc; ADCQ DX, acc'; ADCQ $0, top` -/
theorem mac3 {x y lo hi t a r d r2 a5 r5 a0 r0 : W} {c k c2 c3 c4 : Bool}
    (m : z lo + B₁ * z hi = z x * z y)
    (e1 : z r + B₁ * bz c = z a + z t) (e2 : z d + B₁ * bz k = z hi + 0 + bz c)
    (e3 : z r2 + B₁ * bz c2 = z r + z lo) (e4 : z r5 + B₁ * bz c3 = z a5 + z d + bz c2)
    (e5 : z r0 + B₁ * bz c4 = z a0 + 0 + bz c3) (h0 : z a0 ≤ 1000) :
    z r2 + B₁ * z r5 + B₂ * z r0 = z x * z y + z a + z t + B₁ * z a5 + B₂ * z a0 := by
  have hk : bz k = 0 := carry_zero e2 (by linarith [hi_le m, bz_le c])
  rw [hk] at e2
  have hc : bz c4 = 0 := carry_zero e5 (by linarith [bz_le c3])
  rw [hc] at e5
  linear_combination m + e1 + e3 + B₁ * (e2 + e4) + B₂ * e5

/-- The square of a four-word number has eight words. -/
theorem no_carry_sq {x0 x1 x2 x3 u0 u1 u2 u3 u4 u5 u6 u7 : W} {c : Bool}
    (U : z u0 + B₁ * z u1 + B₂ * z u2 + B₃ * z u3 + B₄ * z u4 + B₅ * z u5 + B₆ * z u6 +
        B₇ * z u7 + B₈ * bz c =
      (z x0 + B₁ * z x1 + B₂ * z x2 + B₃ * z x3) * (z x0 + B₁ * z x1 + B₂ * z x2 + B₃ * z x3)) :
    bz c = 0 := by
  have hx : z x0 + B₁ * z x1 + B₂ * z x2 + B₃ * z x3 < B₄ := by
    have h0 := z_lt x0; have h1 := z_lt x1; have h2 := z_lt x2; have h3 := z_lt x3
    omega
  have hx0 : 0 ≤ z x0 + B₁ * z x1 + B₂ * z x2 + B₃ * z x3 := by
    linarith only [z_nonneg x0, z_nonneg x1, z_nonneg x2, z_nonneg x3]
  have hm := mul_lt_mul'' hx hx hx0 hx0
  rcases bz_cases c with h | h
  · exact h
  · exfalso
    rw [h] at U
    linarith only [U, hm, z_nonneg u0, z_nonneg u1, z_nonneg u2, z_nonneg u3, z_nonneg u4,
      z_nonneg u5, z_nonneg u6, z_nonneg u7]

theorem shift_parts {a sl sr : W} (e9 : z sl = 4294967296 * (z a % 4294967296))
    (e10 : z sr = z a / 4294967296) : z sl + B₁ * z sr = 4294967296 * z a := by
  rw [e9, e10]
  clear * -
  omega

theorem hi_const1 {a lo hi : W} (m : z lo + B₁ * z hi = z a * z 0xFFFFFFFEFFFFFFFF#64) :
    z hi ≤ 18446744069414584318 := by
  have ha := z_lt a
  have hl := z_nonneg lo
  rw [z_const1] at m
  omega

/-- The reduction step of p256_sm2Mul. -/
theorem redMul {a0 a1 a2 a3 a4 a5 lo hi r1 r2 r3 d1 r3' d2 r4 r5 sl sr s1 s2 s3 s4 s5 : W}
    {c1 c2 c3 k1 c3' k2 c4 c5 b1 b2 b3 b4 b5 : Bool}
    (m : z lo + B₁ * z hi = z a0 * z 0xFFFFFFFEFFFFFFFF#64)
    (e1 : z r1 + B₁ * bz c1 = z a1 + z a0)
    (e2 : z r2 + B₁ * bz c2 = z a2 + 0 + bz c1)
    (e3 : z r3 + B₁ * bz c3 = z a3 + z a0 + bz c2)
    (e4 : z d1 + B₁ * bz k1 = z hi + 0 + bz c3)
    (e5 : z r3' + B₁ * bz c3' = z r3 + z lo)
    (e6 : z d2 + B₁ * bz k2 = z d1 + 0 + bz c3')
    (e7 : z r4 + B₁ * bz c4 = z a4 + z d2 + bz k2)
    (e8 : z r5 + B₁ * bz c5 = z a5 + 0 + bz c4)
    (e9 : z sl = 4294967296 * (z a0 % 4294967296))
    (e10 : z sr = z a0 / 4294967296)
    (f1 : z s1 - B₁ * bz b1 = z r1 - z sl)
    (f2 : z s2 - B₁ * bz b2 = z r2 - z sr - bz b1)
    (f3 : z s3 - B₁ * bz b3 = z r3' - 0 - bz b2)
    (f4 : z s4 - B₁ * bz b4 = z r4 - 0 - bz b3)
    (f5 : z s5 - B₁ * bz b5 = z r5 - 0 - bz b4)
    (hb : z a5 ≤ 1000) :
    B₁ * (z s1 + B₁ * z s2 + B₂ * z s3 + B₃ * z s4 + B₄ * z s5) =
      z a0 + B₁ * z a1 + B₂ * z a2 + B₃ * z a3 + B₄ * z a4 + B₅ * z a5 + z a0 * pZ := by
  have hh := hi_const1 m
  rw [z_const1] at m
  have hk1 : bz k1 = 0 := carry_zero e4 (by linarith [bz_le c3])
  rw [hk1] at e4
  have hk2 : bz k2 = 0 := carry_zero e6 (by linarith [bz_le c3, bz_le c3'])
  rw [hk2] at e6 e7
  have hc5 : bz c5 = 0 := carry_zero e8 (by linarith [bz_le c4])
  rw [hc5] at e8
  have hs := shift_parts e9 e10
  have key : B₁ * (z s1 + B₁ * z s2 + B₂ * z s3 + B₃ * z s4 + B₄ * z s5) =
      z a0 + B₁ * z a1 + B₂ * z a2 + B₃ * z a3 + B₄ * z a4 + B₅ * z a5 + z a0 * pZ +
        B₆ * bz b5 := by
    linear_combination B₁ * (e1 + f1) + B₂ * (e2 + f2) + B₃ * (e3 + e5 + f3 + m) +
      B₄ * (e4 + e6 + e7 + f4) + B₅ * (e8 + f5) - B₁ * hs
  have hb5 : bz b5 = 0 := by
    rcases bz_cases b5 with h | h
    · exact h
    · exfalso
      rw [h] at key
      linarith [z_lt s1, z_lt s2, z_lt s3, z_lt s4, z_lt s5, z_nonneg a0, z_nonneg a1,
        z_nonneg a2, z_nonneg a3, z_nonneg a4, z_nonneg a5]
  rw [hb5] at key
  linarith

/-- The reduction step of p256_sm2Sqr, p256_sm2MulInternal and p256_sm2SqrInternal. -/
theorem redInt {a0 a1 a2 a3 lo hi r1 r2 r3 d1 r3' d2 sl sr s1 s2 s3 s4 : W}
    {c1 c2 c3 k1 c3' k2 b1 b2 b3 b4 : Bool}
    (m : z lo + B₁ * z hi = z a0 * z 0xFFFFFFFEFFFFFFFF#64)
    (e1 : z r1 + B₁ * bz c1 = z a1 + z a0)
    (e2 : z r2 + B₁ * bz c2 = z a2 + 0 + bz c1)
    (e3 : z r3 + B₁ * bz c3 = z a3 + z a0 + bz c2)
    (e4 : z d1 + B₁ * bz k1 = z hi + 0 + bz c3)
    (e5 : z r3' + B₁ * bz c3' = z r3 + z lo)
    (e6 : z d2 + B₁ * bz k2 = z d1 + 0 + bz c3')
    (e9 : z sl = 4294967296 * (z a0 % 4294967296))
    (e10 : z sr = z a0 / 4294967296)
    (f1 : z s1 - B₁ * bz b1 = z r1 - z sl)
    (f2 : z s2 - B₁ * bz b2 = z r2 - z sr - bz b1)
    (f3 : z s3 - B₁ * bz b3 = z r3' - 0 - bz b2)
    (f4 : z s4 - B₁ * bz b4 = z d2 - 0 - bz b3) :
    B₁ * (z s1 + B₁ * z s2 + B₂ * z s3 + B₃ * z s4) =
      z a0 + B₁ * z a1 + B₂ * z a2 + B₃ * z a3 + z a0 * pZ ∧ bz b4 = 0 := by
  have hh := hi_const1 m
  rw [z_const1] at m
  have hk1 : bz k1 = 0 := carry_zero e4 (by linarith [bz_le c3])
  rw [hk1] at e4
  have hk2 : bz k2 = 0 := carry_zero e6 (by linarith [bz_le c3, bz_le c3'])
  rw [hk2] at e6
  have hs := shift_parts e9 e10
  have key : B₁ * (z s1 + B₁ * z s2 + B₂ * z s3 + B₃ * z s4) =
      z a0 + B₁ * z a1 + B₂ * z a2 + B₃ * z a3 + z a0 * pZ + B₅ * bz b4 := by
    linear_combination B₁ * (e1 + f1) + B₂ * (e2 + f2) + B₃ * (e3 + e5 + f3 + m) +
      B₄ * (e4 + e6 + f4) - B₁ * hs
  have hb : bz b4 = 0 := by
    rcases bz_cases b4 with h | h
    · exact h
    · exfalso
      rw [h] at key
      linarith [z_lt s1, z_lt s2, z_lt s3, z_lt s4, z_nonneg a0, z_nonneg a1, z_nonneg a2,
        z_nonneg a3]
  rw [hb] at key
  exact ⟨by linarith, hb⟩

/-- The reduction step of p256_sm2FromMont. -/
theorem redFrom {a0 a1 a2 a3 lo hi r1 r2 r3 d1 r3' d2 sl sr s1 s2 s3 s4 : W}
    {c1 c2 c3 k1 c3' k2 b1 b2 b3 b4 : Bool}
    (m : z lo + B₁ * z hi = z a0 * z 0xFFFFFFFEFFFFFFFF#64)
    (e1 : z r1 + B₁ * bz c1 = z a1 + z a0)
    (e2 : z r2 + B₁ * bz c2 = z a2 + 0 + bz c1)
    (e3 : z r3 + B₁ * bz c3 = z a3 + z a0 + bz c2)
    (e4 : z d1 + B₁ * bz k1 = z hi + 0 + bz c3)
    (e5 : z r3' + B₁ * bz c3' = z r3 + z lo + bz k1)
    (e6 : z d2 + B₁ * bz k2 = z d1 + 0 + bz c3')
    (e9 : z sl = 4294967296 * (z a0 % 4294967296))
    (e10 : z sr = z a0 / 4294967296)
    (f1 : z s1 - B₁ * bz b1 = z r1 - z sl)
    (f2 : z s2 - B₁ * bz b2 = z r2 - z sr - bz b1)
    (f3 : z s3 - B₁ * bz b3 = z r3' - 0 - bz b2)
    (f4 : z s4 - B₁ * bz b4 = z d2 - 0 - bz b3) :
    B₁ * (z s1 + B₁ * z s2 + B₂ * z s3 + B₃ * z s4) =
      z a0 + B₁ * z a1 + B₂ * z a2 + B₃ * z a3 + z a0 * pZ := by
  have hh := hi_const1 m
  have hk1 : bz k1 = 0 := carry_zero e4 (by linarith [bz_le c3])
  rw [hk1, add_zero] at e5
  exact (redInt m e1 e2 e3 e4 e5 e6 e9 e10 f1 f2 f3 f4).1

/-- The reduction step of p256_sm2OrdMul. -/
theorem redOrd {a0 a1 a2 a3 a4 a5 t u l0 h0 r0 d0 l1 h1 r1 d1 r1' d1' l2 h2 r2 d2 r2' d2' l3 h3
      r3 d3 r3' r4 r5 : W}
    {c0 k0 c1 k1 c1' k1' c2 k2 c2' k2' c3 k3 c3' c4 c5 : Bool}
    (mk : z t + B₁ * z u = z a0 * z 0x327F9E8872350975#64)
    (m0 : z l0 + B₁ * z h0 = z 0x53BBF40939D54123#64 * z t)
    (e0 : z r0 + B₁ * bz c0 = z a0 + z l0)
    (g0 : z d0 + B₁ * bz k0 = z h0 + 0 + bz c0)
    (m1 : z l1 + B₁ * z h1 = z 0x7203DF6B21C6052B#64 * z t)
    (e1 : z r1 + B₁ * bz c1 = z a1 + z d0)
    (g1 : z d1 + B₁ * bz k1 = z h1 + 0 + bz c1)
    (e1' : z r1' + B₁ * bz c1' = z r1 + z l1)
    (g1' : z d1' + B₁ * bz k1' = z d1 + 0 + bz c1')
    (m2 : z l2 + B₁ * z h2 = z 0xFFFFFFFFFFFFFFFF#64 * z t)
    (e2 : z r2 + B₁ * bz c2 = z a2 + z d1')
    (g2 : z d2 + B₁ * bz k2 = z h2 + 0 + bz c2)
    (e2' : z r2' + B₁ * bz c2' = z r2 + z l2)
    (g2' : z d2' + B₁ * bz k2' = z d2 + 0 + bz c2')
    (m3 : z l3 + B₁ * z h3 = z 0xFFFFFFFEFFFFFFFF#64 * z t)
    (e3 : z r3 + B₁ * bz c3 = z a3 + z d2')
    (g3 : z d3 + B₁ * bz k3 = z h3 + 0 + bz c3)
    (e3' : z r3' + B₁ * bz c3' = z r3 + z l3)
    (e4 : z r4 + B₁ * bz c4 = z a4 + z d3 + bz c3')
    (e5 : z r5 + B₁ * bz c5 = z a5 + 0 + bz c4)
    (hb : z a5 ≤ 1000) :
    z r0 = 0 ∧ B₁ * (z r1' + B₁ * z r2' + B₂ * z r3' + B₃ * z r4 + B₄ * z r5) =
      z a0 + B₁ * z a1 + B₂ * z a2 + B₃ * z a3 + B₄ * z a4 + B₅ * z a5 + z t * nZ := by
  have q0 := mac1 m0 e0 g0
  have q1 := mac2 m1 e1 g1 e1' g1'
  have q2 := mac2 m2 e2 g2 e2' g2'
  have q3 := mac3 m3 e3 g3 e3' e4 e5 hb
  have hr : z r0 = 0 := by
    have hlt := z_lt r0
    have hge := z_nonneg r0
    rw [z_ord0] at q0
    rw [z_ordK0] at mk
    omega
  refine ⟨hr, ?_⟩
  rw [hr] at q0
  rw [z_ord0] at q0
  rw [z_ord1] at q1
  rw [z_max] at q2
  rw [z_const1] at q3
  linear_combination q0 + B₁ * q1 + B₂ * q2 + B₃ * q3

/-- The final conditional subtraction of a four-word modulus. -/
theorem condSub {u0 u1 u2 u3 top v0 v1 v2 v3 v4 : W} {b0 b1 b2 b3 b4 : Bool}
    {q0 q1 q2 q3 T q : ℤ}
    (f0 : z v0 - B₁ * bz b0 = z u0 - q0)
    (f1 : z v1 - B₁ * bz b1 = z u1 - q1 - bz b0)
    (f2 : z v2 - B₁ * bz b2 = z u2 - q2 - bz b1)
    (f3 : z v3 - B₁ * bz b3 = z u3 - q3 - bz b2)
    (f4 : z v4 - B₁ * bz b4 = z top - 0 - bz b3)
    (hT : T = z u0 + B₁ * z u1 + B₂ * z u2 + B₃ * z u3 + B₄ * z top)
    (hq : q = q0 + B₁ * q1 + B₂ * q2 + B₃ * q3) (hq4 : q ≤ B₄) (hlt : T < q + B₄) :
    z (if b4 = true then u0 else v0) + B₁ * z (if b4 = true then u1 else v1) +
      B₂ * z (if b4 = true then u2 else v2) + B₃ * z (if b4 = true then u3 else v3) =
      if T < q then T else T - q := by
  have key : z v0 + B₁ * z v1 + B₂ * z v2 + B₃ * z v3 + B₄ * z v4 - B₅ * bz b4 = T - q := by
    rw [hT, hq]
    linear_combination f0 + B₁ * f1 + B₂ * f2 + B₃ * f3 + B₄ * f4
  have h0 := z_lt v0; have h1 := z_lt v1; have h2 := z_lt v2; have h3 := z_lt v3
  have g0 := z_nonneg v0; have g1 := z_nonneg v1; have g2 := z_nonneg v2
  have g3 := z_nonneg v3
  cases b4 with
  | false =>
    simp only [bz_false, mul_zero, sub_zero, Bool.false_eq_true, if_false] at key ⊢
    have g4 := z_nonneg v4
    rw [if_neg (by linarith)]
    have : z v4 < 1 := by linarith
    have : z v4 = 0 := by omega
    rw [this] at key
    linarith
  | true =>
    simp only [bz_true, if_true] at key ⊢
    have h4 := z_lt v4
    have hl : T < q := by linarith
    rw [if_pos hl]
    have k0 := z_nonneg u0; have k1 := z_nonneg u1; have k2 := z_nonneg u2
    have k3 := z_nonneg u3; have k4 := z_nonneg top
    have : z top < 1 := by linarith
    have : z top = 0 := by omega
    rw [this] at hT
    linarith

end Verif.X64
