import Verif.Model.Keypair
import Verif.Spec.Curve
/-!
# Specification: documented key formats and key order

From the comments in keypair/key.go and keypair/publist.go and the README, independent of the code of the
functions.
-/
namespace Verif.Spec
open Verif.Keypair

/-- The coefficient `a` of a supported curve: 0 for secp256k1, -3 for the NIST and SM2 curves. -/
def curveA (k1name : String) (c : Curve) : Int := if c.name = k1name then 0 else -3

/-- The documented curve label of each supported curve. -/
inductive CurveLabel (k1name : String) : Curve → Byte → Prop where
  | p224 : CurveLabel k1name Curves.p224 1
  | p256 : CurveLabel k1name Curves.p256 2
  | p384 : CurveLabel k1name Curves.p384 3
  | p521 : CurveLabel k1name Curves.p521 4
  | k1 : CurveLabel k1name (Curves.secp256k1 k1name) 5
  | sm2 : CurveLabel k1name Curves.sm2 20

/-- The documented serialization of a public key. -/
inductive PublicFormat (k1name : String) : PublicKey → Bytes → Prop where
  | p256 (x y : Nat) :
      PublicFormat k1name (.ec .ecdsa ⟨Curves.p256, x, y⟩) (sec1Compressed 32 x y)
  | ecdsa (c : Curve) (l : Byte) (x y : Nat) (hl : CurveLabel k1name c l) (hc : c ≠ Curves.p256) :
      PublicFormat k1name (.ec .ecdsa ⟨c, x, y⟩) (0x12 :: l :: sec1Compressed c.byteSize x y)
  | sm2 (c : Curve) (l : Byte) (x y : Nat) (hl : CurveLabel k1name c l) :
      PublicFormat k1name (.ec .sm2 ⟨c, x, y⟩) (0x13 :: l :: sec1Compressed c.byteSize x y)
  | ed (b : Bytes) : PublicFormat k1name (.ed b) (0x14 :: 25 :: b)
  | eth (pub : ECPub) : PublicFormat k1name (.eth pub) (0x15 :: sec1Uncompressed 32 pub.x pub.y)

/-- The documented serialization of a private key. -/
inductive PrivateFormat (k1name : String) : PrivateKey → Bytes → Prop where
  | ecdsa (c : Curve) (l : Byte) (D x y : Nat) (hl : CurveLabel k1name c l) :
      PrivateFormat k1name (.ec .ecdsa ⟨D, ⟨c, x, y⟩⟩)
        (0x12 :: l :: (beFix c.byteSize D ++ sec1Compressed c.byteSize x y))
  | sm2 (c : Curve) (l : Byte) (D x y : Nat) (hl : CurveLabel k1name c l) :
      PrivateFormat k1name (.ec .sm2 ⟨D, ⟨c, x, y⟩⟩)
        (0x13 :: l :: (beFix c.byteSize D ++ sec1Compressed c.byteSize x y))
  | ed (b : Bytes) : PrivateFormat k1name (.ed b) (0x14 :: 25 :: b)
  | eth (priv : ECPriv) : PrivateFormat k1name (.eth priv) (0x15 :: beFix 32 priv.D)

/-- The documented sorting rules: by key type; then by curve label, x, y for ECDSA and SM2 keys; by the
bytes for EdDSA keys; by x, y for Ethereum keys. `SortRank k r`: keys are compared by the lexicographic
order of their `r`. -/
inductive SortRank (k1name : String) : PublicKey → List Nat → Prop where
  | ecdsa (c : Curve) (l : Byte) (x y : Nat) (hl : CurveLabel k1name c l) :
      SortRank k1name (.ec .ecdsa ⟨c, x, y⟩) [0x12, l.toNat, x, y]
  | sm2 (c : Curve) (l : Byte) (x y : Nat) (hl : CurveLabel k1name c l) :
      SortRank k1name (.ec .sm2 ⟨c, x, y⟩) [0x13, l.toNat, x, y]
  | ed (b : Bytes) : SortRank k1name (.ed b) (0x14 :: b.map BitVec.toNat)
  | eth (pub : ECPub) : SortRank k1name (.eth pub) [0x15, pub.x, pub.y]

end Verif.Spec

/-- The public key that belongs to a private key: its public half, with the same algorithm. (Not what the method
`Public` returns: see C115.) -/
def Verif.Keypair.PrivateKey.matching : Verif.Keypair.PrivateKey → Verif.Keypair.PublicKey
  | .ec alg priv => .ec alg priv.pub
  | .ed b => .ed (b.drop 32)
  | .eth priv => .eth priv.pub
  | .unknown => .unknown
