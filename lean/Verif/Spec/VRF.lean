import Verif.Model.VRF
import Verif.Spec.Keys
import Verif.Spec.Group
/-!
# Specification of the elliptic curve VRF (Papadopoulos et al., with the encodings of this library)

`Hs` is the hash function that goes with the curve.
-/
namespace Verif.VRF
open Verif.Keypair Verif.Spec
open Verif.Signature (HashAlg)

/-- The curves that the VRF supports, each with its hash function. -/
inductive VrfHash (k1name : String) : Curve → HashAlg → Prop where
  | p224 : VrfHash k1name Curves.p224 .sha224
  | p256 : VrfHash k1name Curves.p256 .sha256
  | p384 : VrfHash k1name Curves.p384 .sha384
  | k1 : VrfHash k1name (Curves.secp256k1 k1name) .sha256
  | sm2 : VrfHash k1name Curves.sm2 .sm3

/-- The number in the leading bytes of the hash of counter and message. -/
def cand (Hs : Bytes → Bytes) (c : Curve) (m : Bytes) (i : Nat) : Nat :=
  natOfBytes ((Hs (beFix 4 i ++ m)).take c.byteSize)

/-- `(x, y)` is the point that message `m` hashes to: the first of 100 candidates that is the x-coordinate
of a point, with the even y-coordinate. (`x` is not reduced modulo `P`.) -/
def IsHashPoint (Hs : Bytes → Bytes) (c : Curve) (a : Int) (m : Bytes) (x y : Nat) : Prop :=
  ∃ i < 100, x = cand Hs c m i ∧ y % 2 = 0 ∧ y < c.P ∧ OnCurve c a x y ∧
    ∀ j < i, ∀ y', ¬ OnCurve c a (cand Hs c m j) y'

/-- `s` is the challenge for `b`: one more than the first candidate below `N - 1`. -/
def IsChallenge (Hs : Bytes → Bytes) (c : Curve) (b : Bytes) (s : Nat) : Prop :=
  ∃ i, s = cand Hs c b i + 1 ∧ s < c.N ∧ ∀ j < i, c.N ≤ cand Hs c b j + 1

/-- Uncompressed encoding of a pair of coordinates. -/
def enc (c : Curve) (p : Nat × Nat) : Bytes := sec1Uncompressed c.byteSize p.1 p.2

/-- What is hashed to the challenge: base point, hash point, public key, VRF value, two commitments. -/
def transcript (c : Curve) (H Q V A B : Nat × Nat) : Bytes :=
  enc c (c.Gx, c.Gy) ++ enc c H ++ enc c Q ++ enc c V ++ enc c A ++ enc c B

/-- The verification equation for public key `Q`: `vrf` encodes a point `V`, and the number `s` in the
first half of `nizk` is the challenge for the commitments `t G + s Q` and `t H + s V`. -/
def Accepts {c : Curve} {a : Int} [Fact c.P.Prime] (Hs : Bytes → Bytes) (G Q : Pt c a)
    (m vrf nizk : Bytes) : Prop :=
  nizk.length = 2 * c.byteSize ∧
  ∃ V Hp : Pt c a, ∃ hx hy : Nat, V ≠ 0 ∧ vrf = enc c (xy V) ∧
    IsHashPoint Hs c a (enc c (xy Q) ++ m) hx hy ∧ xy Hp = (hx % c.P, hy) ∧
    IsChallenge Hs c
      (transcript c (hx, hy) (xy Q) (xy V)
        (xy (natOfBytes (nizk.drop c.byteSize) • G + natOfBytes (nizk.take c.byteSize) • Q))
        (xy (natOfBytes (nizk.drop c.byteSize) • Hp + natOfBytes (nizk.take c.byteSize) • V)))
      (natOfBytes (nizk.take c.byteSize))

/-- What is assumed of the external parts: digest sizes, and curve methods that compute in the group of
points (`ScalarMult` also for coordinates that are not reduced). -/
structure Ext.Lawful (E : Ext) : Prop where
  k1name : E.k1name = "" ∨ E.k1name = "secp256k1"
  size : ∀ a m, (E.extHash a m).length = size a
  base : ∀ c ∈ Curves.all E.k1name, LawfulBase c (curveA E.k1name c) (E.ops c).baseMult
  mult : ∀ c ∈ Curves.all E.k1name, ∀ [Fact c.P.Prime] (P : Pt c (curveA E.k1name c)) (x y k : Nat), P ≠ 0 →
    (x % c.P, y % c.P) = xy P → (E.ops c).mult (x, y) k = xy (k • P)
  add : ∀ c ∈ Curves.all E.k1name, ∀ [Fact c.P.Prime] (P Q : Pt c (curveA E.k1name c)),
    (E.ops c).add (xy P) (xy Q) = xy (P + Q)
  onCurve : ∀ c ∈ Curves.all E.k1name, ∀ x y, x < c.P → y < c.P →
    (E.isOnCurve c x y = true ↔ OnCurve c (curveA E.k1name c) x y)

end Verif.VRF
