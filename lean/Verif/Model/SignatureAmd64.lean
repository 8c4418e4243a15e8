import Verif.Model.Signature
import Verif.Model.SM2Amd64
/-!
# `signature.Sign` and `signature.Verify` on amd64
-/
namespace Verif.Signature

/-- signature/signature.go:77, 196-199: the calls of `sm2.Sign` and `sm2.Verify` use the curve of
sm2/p256_amd64.go. Everything else is that of `E`: the curves of the other schemes are in other packages, and ECDSA with a
key on the SM2 curve is crypto/ecdsa, which is external (on amd64 it would call the same curve, so its laws are claimed for
the other curves only). -/
def amd64 (E : Ext) : Ext := { E with sm2 := SM2.amd64 E.sm2 }

end Verif.Signature
