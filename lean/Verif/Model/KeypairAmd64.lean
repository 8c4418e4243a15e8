import Verif.Model.Keypair
import Verif.Model.P256Mult
/-!
# Package keypair with the SM2 curve object of amd64
-/
namespace Verif.Keypair

/-- ec/key.go:66, 148: `ScalarBaseMult` of the SM2 curve is that of sm2/p256_amd64.go:292-299, applied to the bytes of the
number without leading zeros (leading zeros make no difference: `scalarBaseMult_bytes` in Lemmas/Amd64Keys). The other
curves are those of `E`. -/
def amd64 (E : Ext) : Ext :=
  { E with
    baseMult := fun c k => if c = Curves.sm2 then X64.P256.scalarBaseMult (bytesOfNat k) else E.baseMult c k }

end Verif.Keypair
