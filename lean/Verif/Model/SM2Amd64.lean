/-
The SM2 curve object on amd64.
-/
import Verif.Model.SM2
import Verif.Model.P256Mult

namespace Verif.SM2

/-- sm2/curves.go:38-41, 78-81 and sm2/p256_amd64.go:132-322: the methods of `p256Curve` on amd64.  `Add`, `IsOnCurve` and the
packages outside are those of `E`; `Add` and `IsOnCurve` are inherited from `CurveParams`
(crypto/elliptic).  `Inverse` is called with positive numbers only (sm2/signature.go:189-192). -/
def amd64 (E : Ext) : Ext where
  ops :=
    { baseMult := fun k => X64.P256.scalarBaseMult (bytesOfNat k)
      mult := fun P k => X64.P256.scalarMult P.1 P.2 (bytesOfNat k)
      add := E.ops.add }
  isOnCurve := E.isOnCurve
  inverse := some fun k => X64.P256.inverse k
  combinedMult := some fun P s t =>
    X64.P256.combinedMult P.1 P.2 (bytesOfNat s) (bytesOfNat t)
  sha512 := E.sha512
  ctr := E.ctr

end Verif.SM2
