import Verif.Model.GoECDSA
import Verif.Model.EC
/-!
# Key recovery of btcec

`signature.Secp256k1Verify` calls `btcec.RecoverCompact` (signature/secp256k1.go:15). It is not in /repo; it is written out
here, with `decompressPoint` and `recoverKeyFromSignature`, as it stands in v0.22.0-beta of btcd, the version that go.mod
names. That version does not compare `r` and `s` with the order.
-/
namespace Verif.GoCompact
open Verif.Spec

/-- signature/secp256k1.go:11, 15 (calls btcec): `S256()`; the name of the curve object plays no part. -/
abbrev k1 : Curve := Curves.secp256k1 ""

/-- signature/secp256k1.go:15 (calls btcec): `decompressPoint`: the `y` that goes with `x` and the wanted parity. Numbers
for the field elements. -/
def decompress (x : Nat) (odd : Bool) : Option Nat :=
  let t := (x ^ 3 + k1.B) % k1.P
  let y0 := (EC.expMod t (k1.P / 4 + 1) k1.P).toNat
  let y := if decide (y0 % 2 = 1) = odd then y0 else (k1.P - y0) % k1.P
  if y * y % k1.P ≠ t then none
  else if decide (y % 2 = 1) ≠ odd then none
  else some y

/-- signature/secp256k1.go:15 (calls btcec): the number of the candidate in the header byte: `(signature[0] - 27) & ^4`. -/
def iteration (header : Byte) : Nat := ((header - 27) &&& ~~~(4 : Byte)).toNat

/-- signature/secp256k1.go:15 (calls btcec): `recoverKeyFromSignature` without the checks that are switched off. `ModInverse`
gives nil for a multiple of the order, and the next line then dereferences nil. -/
def recoverKey (ops : CurveOps) (r s : Nat) (msg : Bytes) (iter : Nat) : Res (Nat × Nat) :=
  let rx := k1.N * (iter / 2) + r
  if rx ≥ k1.P then .err "calculated Rx is larger than curve P"
  else
    match decompress rx (iter % 2 = 1) with
    | none => .err "invalid square root"
    | some ry =>
      let e := GoECDSA.hashToInt msg k1
      if r % k1.N = 0 then .panic "invalid memory address or nil pointer dereference"
      else
        let invr := GoECDSA.modInverse r k1.N
        let invrS := invr * s % k1.N
        let sR := ops.mult (rx, ry) invrS
        let minusE := (-(e : Int) % (k1.N : Int)).toNat * invr % k1.N
        .ok (ops.add sR (ops.baseMult minusE))

/-- signature/secp256k1.go:15 (calls btcec): `RecoverCompact`; the result without the flag for compressed keys, which is
not used. -/
def recoverCompact (ops : CurveOps) (sig msg : Bytes) : Res (Nat × Nat) :=
  if sig.length ≠ 65 then .err "invalid compact signature size"
  else recoverKey ops (natOfBytes ((sig.drop 1).take 32)) (natOfBytes ((sig.drop 33).take 32)) msg
    (iteration (sig.getD 0 0))

end Verif.GoCompact
