import Verif.Base.Curve
import Verif.Lemmas.Primality
/-!
# Affine curve arithmetic on naturals

A computable implementation of the curve group, used as the reference implementation of the external
`elliptic.Curve` methods (`Add`, `ScalarMult`, `ScalarBaseMult`). `Verif.Lemmas.Affine` proves that it
computes in Mathlib's group of points.
-/
namespace Verif.Affine
open Verif.Primality (powMod)

/-- Inverse modulo the prime `p`. -/
def inv (p x : Nat) : Nat := powMod x (p - 2) p

/-- Chord (or tangent) construction with a given slope. -/
def addWith (p : Nat) (l x₁ y₁ x₂ : Nat) : Nat × Nat :=
  let x₃ := (l * l + (p - x₁) + (p - x₂)) % p
  (x₃, (l * (x₁ + (p - x₃)) + (p - y₁)) % p)

/-- Addition on `y² = x³ + a x + b`, where `a` is given as a natural below `p`. -/
def add (p a : Nat) (P Q : Nat × Nat) : Nat × Nat :=
  if P = (0, 0) then Q
  else if Q = (0, 0) then P
  else if P.1 = Q.1 then
    if (P.2 + Q.2) % p = 0 then (0, 0)
    else addWith p ((3 * P.1 * P.1 + a) * inv p (2 * P.2) % p) P.1 P.2 Q.1
  else addWith p ((P.2 + (p - Q.2)) * inv p (P.1 + (p - Q.1)) % p) P.1 P.2 Q.1

/-- Double and add, least significant bit first. -/
def smulAux (p a : Nat) : Nat → Nat → Nat × Nat → Nat × Nat → Nat × Nat
  | 0, _, _, acc => acc
  | fuel + 1, k, P, acc =>
    if k = 0 then acc
    else smulAux p a fuel (k / 2) (add p a P P) (if k % 2 = 1 then add p a acc P else acc)

def smul (p a k : Nat) (P : Nat × Nat) : Nat × Nat := smulAux p a (bitLen k) k P (0, 0)

end Verif.Affine
