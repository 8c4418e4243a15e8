import Verif.Spec.ECDSA
import Verif.Spec.Signature
import Verif.Lemmas.SM2
/-!
# ECDSA: signatures are accepted; a reference implementation
-/
namespace Verif.Spec.ECDSA
open Verif.Spec Verif.SM2

variable {c : Curve} {a : Int}

theorem exists_inv {N : ℕ} (hN : N.Prime) {s : ℕ} (h0 : s % N ≠ 0) : ∃ w, s * w % N = 1 := by
  by_cases h2 : 2 < N
  · exact ⟨_, (fermatInverse_spec hN h2 s).1 h0⟩
  · have : N = 2 := by have := hN.two_le; omega
    subst this
    exact ⟨1, by omega⟩

/-- The scalar of `(e w) G + (r w) (d G)`. -/
theorem combine_smul [Fact c.P.Prime] (G : Pt c a) (e r w d : ℕ) :
    (e * w) • G + (r * w) • (d • G) = (w * (e + r * d)) • G := by
  rw [smul_smul, ← add_smul]; congr 1; ring

/-- A signature is accepted under the public key of the signer. -/
theorem Signed.accepts (h : GoodCurve c a) [Fact c.P.Prime] {G : Pt c a} (hG : xy G = (c.Gx, c.Gy))
    {d e r s : ℕ} (hs : Signed G d e r s) : Accepts G (d • G) e r s := by
  obtain ⟨k, hk0, hk, hr, hr0, hs0, hsN, heq⟩ := hs
  have hrN : r < c.N := hr ▸ Nat.mod_lt _ h.order_prime.pos
  obtain ⟨w, hw⟩ := exists_inv h.order_prime (s := s) (by rw [Nat.mod_eq_of_lt hsN]; omega)
  have hkw : (w * (e + r * d)) % c.N = k % c.N := by
    rw [Nat.mul_mod, ← heq, ← Nat.mul_mod, show w * (k * s) = k * (s * w) by ring, Nat.mul_mod, hw,
      mul_one, Nat.mod_mod]
  have hpt : (e * w) • G + (r * w) • (d • G) = k • G := by
    rw [combine_smul]; exact (h.smul_eq_iff (h.G_ne_zero hG) _ _).2 hkw
  refine ⟨by exact_mod_cast hr0, by exact_mod_cast hrN, by exact_mod_cast hs0, by exact_mod_cast hsN, w, ?_⟩
  simp only [Int.toNat_natCast]
  rw [hpt]
  exact ⟨hw, h.smul_ne_zero (h.G_ne_zero hG) hk0 hk, by rw [← hr]⟩

/-- The accepted pairs do not depend on the inverse chosen. -/
theorem accepts_iff (h : GoodCurve c a) [Fact c.P.Prime] {G Q : Pt c a} {e : ℕ} {r s : ℤ} {w : ℕ}
    (hw : s.toNat * w % c.N = 1) :
    Accepts G Q e r s ↔ 1 ≤ r ∧ r < c.N ∧ 1 ≤ s ∧ s < c.N ∧
      (e * w) • G + (r.toNat * w) • Q ≠ 0 ∧
      (((xy ((e * w) • G + (r.toNat * w) • Q)).1 % c.N : ℕ) : ℤ) = r := by
  constructor
  · rintro ⟨h1, h2, h3, h4, v, hv, h5⟩
    have hvw : v % c.N = w % c.N := by
      have e1 : v * (s.toNat * w) % c.N = v % c.N := by rw [Nat.mul_mod, hw, mul_one, Nat.mod_mod]
      have e2 : w * (s.toNat * v) % c.N = w % c.N := by rw [Nat.mul_mod, hv, mul_one, Nat.mod_mod]
      rw [← e1, ← e2]; congr 1; ring
    have hsm : ∀ (n : ℕ) (X : Pt c a), (n * v) • X = (n * w) • X := by
      intro n X
      rw [← Affine.mod_smul h.card X (n * v), ← Affine.mod_smul h.card X (n * w), Nat.mul_mod, hvw,
        ← Nat.mul_mod]
    rw [hsm, hsm] at h5
    exact ⟨h1, h2, h3, h4, h5⟩
  · rintro ⟨h1, h2, h3, h4, h5⟩
    exact ⟨h1, h2, h3, h4, w, hw, h5⟩

/-! ## Reference implementation -/

/-- Sign the integer `e` with the nonce `k`. -/
def refSign (c : Curve) (aN d e k : ℕ) : Option (ℕ × ℕ) :=
  let r := (Affine.smul c.P aN k (c.Gx, c.Gy)).1 % c.N
  let s := fermatInverse k c.N * (e + r * d) % c.N
  if r = 0 ∨ s = 0 then none else some (r, s)

/-- Verify. -/
def refVerify (c : Curve) (aN : ℕ) (q : ℕ × ℕ) (e : ℕ) (r s : ℤ) : Bool :=
  if 1 ≤ r ∧ r < c.N ∧ 1 ≤ s ∧ s < c.N then
    let w := fermatInverse s.toNat c.N
    let R := Affine.add c.P aN (Affine.smul c.P aN (e * w % c.N) (c.Gx, c.Gy))
      (Affine.smul c.P aN (r.toNat * w % c.N) q)
    R ≠ (0, 0) ∧ (((R.1 % c.N : ℕ) : ℤ) = r)
  else false

theorem refSign_signed (h : GoodCurve c a) (h2 : 2 < c.N) (aN : ℕ) (ha : ((aN : ℕ) : ZMod c.P) = a)
    [Fact c.P.Prime] {G : Pt c a} (hG : xy G = (c.Gx, c.Gy)) {d e k r s : ℕ} (hk0 : 0 < k) (hk : k < c.N)
    (hs : refSign c aN d e k = some (r, s)) : Signed G d e r s := by
  unfold refSign at hs
  have hx : Affine.smul c.P aN k (c.Gx, c.Gy) = xy (k • G) := by
    rw [← hG]; exact Affine.smul_eq h.ok aN ha k G
  rw [hx] at hs
  simp only at hs
  split_ifs at hs with h0
  simp only [Option.some.injEq, Prod.mk.injEq] at hs
  obtain ⟨hr, hs⟩ := hs
  rw [hr] at hs h0
  rw [hs] at h0
  have hi := (fermatInverse_spec h.order_prime h2 k).1 (by rw [Nat.mod_eq_of_lt hk]; omega)
  refine ⟨k, hk0, hk, hr.symm, by omega, by omega, ?_, ?_⟩
  · rw [← hs]; exact Nat.mod_lt _ h.order_prime.pos
  · rw [← hs, Nat.mul_mod, Nat.mod_mod, ← Nat.mul_mod, ← mul_assoc, Nat.mul_mod, hi, one_mul, Nat.mod_mod]

theorem refVerify_iff (h : GoodCurve c a) (h2 : 2 < c.N) (aN : ℕ) (ha : ((aN : ℕ) : ZMod c.P) = a)
    [Fact c.P.Prime] {G Q : Pt c a} (hG : xy G = (c.Gx, c.Gy)) (e : ℕ) (r s : ℤ) :
    refVerify c aN (xy Q) e r s = true ↔ Accepts G Q e r s := by
  unfold refVerify
  by_cases hr : 1 ≤ r ∧ r < c.N ∧ 1 ≤ s ∧ s < c.N
  · rw [if_pos hr]
    have hi := (fermatInverse_spec h.order_prime h2 s.toNat).1 (by
      rw [Nat.mod_eq_of_lt (by omega)]; omega)
    rw [accepts_iff h hi]
    simp only [← hG, Affine.smul_eq h.ok aN ha, Affine.mod_smul h.card, Affine.add_eq h.ok aN ha,
      decide_eq_true_eq, Ne, Affine.xy_eq_zero_iff h.ok, Bool.and_eq_true, Bool.decide_and,
      decide_not, Bool.not_eq_true', decide_eq_false_iff_not]
    tauto
  · rw [if_neg hr]
    simp only [Bool.false_eq_true, false_iff]
    rintro ⟨h1, h2, h3, h4, -⟩
    exact hr ⟨h1, h2, h3, h4⟩

end Verif.Spec.ECDSA
