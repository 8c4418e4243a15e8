import Verif.Spec.Group
import Verif.Spec.SM3
import Verif.Base.Curves
/-!
# Specification: SM2 signatures and public-key encryption (GM/T 0003.2-2012, GM/T 0003.4-2012)

Written from the standard. The curve is the recommended curve (GM/T 0003.5), the hash function is SM3 and
points live in Mathlib's group of points.
-/
namespace Verif.Spec.SM2
open Verif.Spec

/-- The recommended curve. -/
abbrev crv : Curve := Curves.sm2

/-- Its group of points (`a = -3`). -/
abbrev Point := Pt crv (-3)

/-- Order of the group. -/
abbrev n : Nat := crv.N

/-- The coefficient `a` as a field element: `p - 3`. -/
def a : Nat := crv.P - 3

/-- `Z_A` (GM/T 0003.2 section 5.5): hash of the identity, the curve and the public key, every field
element in 32 bytes. `id` has `entl` bits, `entl` in two bytes. -/
def za (id : Bytes) (x y : Nat) : Bytes :=
  Spec.SM3.hash (beFix 2 (8 * id.length) ++ id ++ beFix 32 a ++ beFix 32 crv.B
    ++ beFix 32 crv.Gx ++ beFix 32 crv.Gy ++ beFix 32 x ++ beFix 32 y)

/-- `e = H(Z_A ‖ M)` as an integer (sections 6.1 A1-A2, 7.1 B3-B4). -/
def digest (id : Bytes) (x y : Nat) (m : Bytes) : Nat := natOfBytes (Spec.SM3.hash (za id x y ++ m))

/-- The signature check (section 7.1 B1-B7) for a digest `e`: ranges, `t = r + s ≠ 0 (mod n)`, and
`r = e + x₁ (mod n)` where `(x₁, y₁) = s G + t P`. A sum at infinity has no `x₁` and is not accepted. -/
def Accepts [Fact crv.P.Prime] (G P : Point) (e : Nat) (r s : Int) : Prop :=
  1 ≤ r ∧ r < n ∧ 1 ≤ s ∧ s < n ∧ (r + s) % n ≠ 0 ∧
  s.toNat • G + ((r + s) % n).toNat • P ≠ 0 ∧
  ((e : Int) + (xy (s.toNat • G + ((r + s) % n).toNat • P)).1) % n = r

/-- `(r, s)` is the signature that the standard's signing makes for the digest `e` with the private key `d` and
the random number `k` (section 6.1 A3-A6): `r = e + x₁ (mod n)` where `(x₁, y₁) = k G`, not 0 and not `n - k`;
`s = (1 + d)⁻¹ (k - r d) (mod n)`, not 0. -/
def Signs [Fact crv.P.Prime] (G : Point) (d e k : Nat) (r s : Int) : Prop :=
  1 ≤ k ∧ k < n ∧
  r = ((e : Int) + (xy (k • G)).1) % n ∧ r ≠ 0 ∧ r + k ≠ n ∧
  0 ≤ s ∧ s < n ∧ s ≠ 0 ∧ (s * (1 + d)) % n = (k - r * d) % n

/-- Key derivation (GM/T 0003.4 section 5.4.3): the first `klen` bytes of
`H(Z ‖ 1) ‖ H(Z ‖ 2) ‖ ...`, counters in four bytes. -/
def kdf (z : Bytes) (klen : Nat) : Bytes :=
  ((List.range ((klen + 31) / 32)).flatMap fun i => Spec.SM3.hash (z ++ beFix 4 (i + 1))).take klen

/-- Bytewise exclusive or. -/
def xor (a b : Bytes) : Bytes := List.zipWith (· ^^^ ·) a b

/-- Encryption of `m` for the public key `P` with the nonce `k` (section 6.1), in the order
`C1 ‖ C3 ‖ C2`, with `C1` as bare coordinates. -/
def cipher [Fact crv.P.Prime] (G P : Point) (k : Nat) (m : Bytes) : Bytes :=
  let (x₁, y₁) := xy (k • G)
  let (x₂, y₂) := xy (k • P)
  beFix 32 x₁ ++ beFix 32 y₁ ++ Spec.SM3.hash (beFix 32 x₂ ++ m ++ beFix 32 y₂)
    ++ xor m (kdf (beFix 32 x₂ ++ beFix 32 y₂) m.length)

end Verif.Spec.SM2
