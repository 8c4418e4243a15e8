import Verif.Spec.CurveOps
import Verif.Lemmas.CurveGroup
/-!
# Curves of prime order, and the reference implementation of the curve operations
-/
namespace Verif.Spec
open Verif.Affine

/-- A nonsingular curve over a prime field with a prime number `N` of points and a base point on it. -/
structure GoodCurve (c : Curve) (a : Int) : Prop where
  prime : c.P.Prime
  order_prime : c.N.Prime
  ok : Affine.Ok c a
  gx_lt : c.Gx < c.P
  gy_lt : c.Gy < c.P
  g_on : OnCurve c a c.Gx c.Gy
  card : Nat.card (Pt c a) = c.N

theorem good_p224 : GoodCurve Curves.p224 (-3) :=
  ⟨Curves.p224_prime, Curves.p224_order_prime, Curves.p224_ok, by decide +kernel, by decide +kernel,
    Curves.p224_G_on, Curves.p224_card⟩
theorem good_p256 : GoodCurve Curves.p256 (-3) :=
  ⟨Curves.p256_prime, Curves.p256_order_prime, Curves.p256_ok, by decide +kernel, by decide +kernel,
    Curves.p256_G_on, Curves.p256_card⟩
theorem good_p384 : GoodCurve Curves.p384 (-3) :=
  ⟨Curves.p384_prime, Curves.p384_order_prime, Curves.p384_ok, by decide +kernel, by decide +kernel,
    Curves.p384_G_on, Curves.p384_card⟩
theorem good_p521 : GoodCurve Curves.p521 (-3) :=
  ⟨Curves.p521_prime, Curves.p521_order_prime, Curves.p521_ok, by decide +kernel, by decide +kernel,
    Curves.p521_G_on, Curves.p521_card⟩
theorem good_sm2 : GoodCurve Curves.sm2 (-3) :=
  ⟨Curves.sm2_prime, Curves.sm2_order_prime, Curves.sm2_ok, by decide +kernel, by decide +kernel,
    Curves.sm2_G_on, Curves.sm2_card⟩
theorem good_k1 (s : String) : GoodCurve (Curves.secp256k1 s) 0 :=
  ⟨Curves.secp256k1_prime, Curves.secp256k1_order_prime,
    ⟨Curves.secp256k1_ok.odd, Curves.secp256k1_ok.disc, Curves.secp256k1_ok.b_ne⟩,
    (show (Curves.secp256k1 "").Gx < (Curves.secp256k1 "").P by decide +kernel),
    (show (Curves.secp256k1 "").Gy < (Curves.secp256k1 "").P by decide +kernel),
    Curves.secp256k1_G_on, Curves.secp256k1_card⟩

namespace GoodCurve
variable {c : Curve} {a : Int} (h : GoodCurve c a)
include h

theorem fact : Fact c.P.Prime := ⟨h.prime⟩

/-- There is exactly one group element with the coordinates of the base point. -/
theorem exists_G : ∃ G : Pt c a, xy G = (c.Gx, c.Gy) := by
  haveI := h.fact
  exact ⟨ofXY h.ok h.g_on, xy_ofXY h.ok h.g_on h.gx_lt h.gy_lt⟩

theorem xy_ne_zero [Fact c.P.Prime] {P : Pt c a} (hP : P ≠ 0) : xy P ≠ (0, 0) :=
  fun e => hP ((xy_eq_zero_iff h.ok P).1 e)

theorem G_ne_zero [Fact c.P.Prime] {G : Pt c a} (hG : xy G = (c.Gx, c.Gy)) : G ≠ 0 := by
  intro e
  have h0 : ofXY h.ok h.g_on = 0 := by
    rw [← e]
    exact xy_inj h.ok ((xy_ofXY h.ok h.g_on h.gx_lt h.gy_lt).trans hG.symm)
  exact ofXY_ne_zero h.ok h.g_on h0

/-- The multiples of a nonzero point depend on the scalar modulo `N` only, and faithfully so. -/
theorem smul_eq_iff [Fact c.P.Prime] {P : Pt c a} (hP : P ≠ 0) (k l : Nat) :
    k • P = l • P ↔ k % c.N = l % c.N :=
  Affine.smul_eq_iff h.order_prime h.card P hP k l

theorem smul_eq_zero_iff [Fact c.P.Prime] {P : Pt c a} (hP : P ≠ 0) (k : Nat) :
    k • P = 0 ↔ k % c.N = 0 := by
  have := h.smul_eq_iff hP k 0
  rwa [zero_smul, Nat.zero_mod] at this

theorem smul_ne_zero [Fact c.P.Prime] {P : Pt c a} (hP : P ≠ 0) {k : Nat} (h0 : 0 < k) (hk : k < c.N) :
    k • P ≠ 0 := by
  rw [Ne, h.smul_eq_zero_iff hP, Nat.mod_eq_of_lt hk]
  omega

/-- Every point is a multiple of the base point. -/
theorem exists_smul [Fact c.P.Prime] {G : Pt c a} (hG : G ≠ 0) (P : Pt c a) : ∃ k < c.N, k • G = P := by
  have : Finite (Pt c a) := Affine.finite_pt h.ok
  have hord : addOrderOf G = c.N := by
    haveI : Fact c.N.Prime := ⟨h.order_prime⟩
    exact addOrderOf_eq_prime (order_kills h.card G) hG
  have htop : AddSubgroup.zmultiples G = ⊤ := by
    apply AddSubgroup.eq_top_of_card_eq
    rw [Nat.card_zmultiples, hord, h.card]
  have hQ : P ∈ AddSubgroup.zmultiples G := by rw [htop]; trivial
  rw [← mem_multiples_iff_mem_zmultiples] at hQ
  obtain ⟨k, hk⟩ := hQ
  refine ⟨k % c.N, Nat.mod_lt _ h.order_prime.pos, ?_⟩
  rw [Affine.mod_smul h.card]
  exact hk

end GoodCurve

/-- The computable reference implementation of the curve operations. -/
def affineOps (c : Curve) (aN : Nat) : CurveOps where
  baseMult k := Affine.smul c.P aN k (c.Gx, c.Gy)
  mult P k := Affine.smul c.P aN k P
  add P Q := Affine.add c.P aN P Q

/-- It meets the contract of `elliptic.Curve`. -/
theorem affineOps_lawful {c : Curve} {a : Int} (h : GoodCurve c a) (aN : Nat)
    (ha : ((aN : ℕ) : ZMod c.P) = a) : (affineOps c aN).Lawful c a := by
  refine ⟨?_, ?_, ?_⟩
  · intro _ G hG k
    show Affine.smul c.P aN k (c.Gx, c.Gy) = _
    rw [← hG]
    exact Affine.smul_eq h.ok aN ha k G
  · intro _ P k; exact Affine.smul_eq h.ok aN ha k P
  · intro _ P Q; exact Affine.add_eq h.ok aN ha P Q

end Verif.Spec
