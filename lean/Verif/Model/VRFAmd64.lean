import Verif.Model.VRF
import Verif.Model.P256Mult
/-!
# Package vrf with the SM2 curve object of amd64
-/
namespace Verif.VRF

/-- vrf/vrf_ec.go:121-127, 176-193: the calls of `ScalarMult` and `ScalarBaseMult` on an SM2 key are those of
sm2/p256_amd64.go:292-322; `Add` and `IsOnCurve` are inherited from `CurveParams`, and the other curves are
those of `E`. -/
def amd64 (E : Ext) : Ext :=
  { E with
    ops := fun c =>
      if c = Curves.sm2 then
        { baseMult := fun k => X64.P256.scalarBaseMult (bytesOfNat k)
          mult := fun P k => X64.P256.scalarMult P.1 P.2 (bytesOfNat k)
          add := (E.ops c).add }
      else E.ops c }

end Verif.VRF
