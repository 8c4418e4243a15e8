import Verif.Base.Bytes
/-!
# Curves (crypto/elliptic.CurveParams)
-/
namespace Verif

/-- crypto/elliptic `CurveParams` (plus the identity of the curve, which is its parameters). -/
structure Curve where
  name : String
  P : Nat
  N : Nat
  B : Nat
  Gx : Nat
  Gy : Nat
  bitSize : Nat
  deriving DecidableEq, Repr

/-- crypto/ecdsa `PublicKey` with non-negative coordinates. -/
structure ECPub where
  curve : Curve
  x : Nat
  y : Nat
  deriving DecidableEq, Repr

/-- crypto/ecdsa `PrivateKey` with a non-negative scalar. -/
structure ECPriv where
  D : Nat
  pub : ECPub
  deriving DecidableEq, Repr

/-- `(c.Params().BitSize + 7) >> 3`: the byte length used throughout. -/
def Curve.byteSize (c : Curve) : Nat := (c.bitSize + 7) / 8

end Verif
