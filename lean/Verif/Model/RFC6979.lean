import Verif.Model.GoCompactSign
import Verif.Model.GoScrypt
/-!
# The nonces of btcec

`nonceRFC6979` of btcec v0.22.0-beta, which `SignCompact` (signature/secp256k1.go:11) uses, over the HMAC and SHA-256 that are
written out in Model/GoScrypt.
-/
namespace Verif.GoCompact
open Verif.Spec

/-- signature/secp256k1.go:11 (calls btcec): `mac(sha256.New, k, m)`. -/
def mac (k m : Bytes) : Bytes := Scrypt.hmac k m

/-- signature/secp256k1.go:11 (calls btcec): `bits2octets`. -/
def bits2octets (hash : Bytes) : Bytes :=
  let z1 := GoECDSA.hashToInt hash k1
  if z1 < k1.N then beFix 32 z1 else beFix 32 (z1 - k1.N)

/-- signature/secp256k1.go:11 (calls btcec): steps B to G of `nonceRFC6979`: the first `k` and `v`. -/
def nonceInit (d : Nat) (hash : Bytes) : Bytes × Bytes :=
  let bx := beFix 32 d ++ bits2octets hash
  let v := List.replicate 32 1
  let k := zeros 32
  let k := mac k (v ++ 0x00 :: bx)
  let v := mac k v
  let k := mac k (v ++ 0x01 :: bx)
  let v := mac k v
  (k, v)

/-- signature/secp256k1.go:11 (calls btcec): step H of `nonceRFC6979`. One block has as many bits as the order, so that the
inner loop runs once. The outer loop takes at most the given number of rounds; `none`: still running. -/
def nonceLoop : Nat → Bytes × Bytes → Option Nat
  | 0, _ => none
  | n + 1, (k, v) =>
    let v := mac k v
    let secret := GoECDSA.hashToInt v k1
    if secret ≥ 1 ∧ secret < k1.N then some secret
    else
      let k := mac k (v ++ [0x00])
      nonceLoop n (k, mac k v)

/-- signature/secp256k1.go:11 (calls btcec): `nonceRFC6979(d, hash)`. -/
def nonceRFC6979 (rounds d : Nat) (hash : Bytes) : Option Nat := nonceLoop rounds (nonceInit d hash)

end Verif.GoCompact
