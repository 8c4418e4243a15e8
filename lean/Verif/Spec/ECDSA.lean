import Verif.Spec.Group
import Verif.Base.Bytes
/-!
# Specification: ECDSA (SEC 1 version 2, section 4.1)
-/
namespace Verif.Spec.ECDSA
open Verif.Spec

/-- Section 4.1.3 step 5: the leftmost bits of the hash value, as many as the order has. -/
def bits2int (N : Nat) (hash : Bytes) : Nat := natOfBytes hash >>> (8 * hash.length - Nat.log2 N - 1)

variable {c : Curve} {a : Int} [Fact c.P.Prime]

/-- Section 4.1.3: `(r, s)` is a signature of the integer `e` by the private key `d`, for some nonce `k`:
`r = x(k G) mod N`, `s = k⁻¹ (e + r d) mod N`, both nonzero. -/
def Signed (G : Pt c a) (d e r s : Nat) : Prop :=
  ∃ k, 0 < k ∧ k < c.N ∧ r = (xy (k • G)).1 % c.N ∧ 0 < r ∧ 0 < s ∧ s < c.N ∧
    k * s % c.N = (e + r * d) % c.N

/-- Section 4.1.4: `(r, s)` is accepted for the integer `e` under the public key `Q`: both in `[1, N-1]`
and `R = (e s⁻¹) G + (r s⁻¹) Q` is not infinity and has `x(R) mod N = r`. -/
def Accepts (G Q : Pt c a) (e : Nat) (r s : Int) : Prop :=
  1 ≤ r ∧ r < c.N ∧ 1 ≤ s ∧ s < c.N ∧ ∃ w : Nat, s.toNat * w % c.N = 1 ∧
    (e * w) • G + (r.toNat * w) • Q ≠ 0 ∧
    (((xy ((e * w) • G + (r.toNat * w) • Q)).1 % c.N : Nat) : Int) = r

end Verif.Spec.ECDSA
