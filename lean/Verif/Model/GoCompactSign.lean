import Verif.Model.GoCompact
/-!
# Compact signatures of btcec

`signature.Secp256k1Sign` calls `btcec.SignCompact` (signature/secp256k1.go:11). It is not in /repo; it is written out here,
with `signRFC6979`, as it stands in v0.22.0-beta of btcd. The nonce of RFC 6979 is a parameter.
-/
namespace Verif.GoCompact
open Verif.Spec

/-- signature/secp256k1.go:11 (calls btcec): `signRFC6979` with the nonce `k`; `s` is made low. -/
def signNonce (ops : CurveOps) (k d : Nat) (hash : Bytes) : Res (Nat × Nat) :=
  let inv := GoECDSA.modInverse k k1.N
  let r := (ops.baseMult k).1 % k1.N
  if r = 0 then .err "calculated R is zero"
  else
    let e := GoECDSA.hashToInt hash k1
    let s := (d * r + e) * inv % k1.N
    let s := if s > k1.N / 2 then k1.N - s else s
    if s = 0 then .err "calculated S is zero" else .ok (r, s)

/-- signature/secp256k1.go:11 (calls btcec): `recoverKeyFromSignature` with the check that `N R` is the point at infinity. The
candidate point is computed once in the code, and here a second time in `recoverKey`. -/
def recoverChecked (ops : CurveOps) (r s : Nat) (msg : Bytes) (iter : Nat) : Res (Nat × Nat) :=
  let rx := k1.N * (iter / 2) + r
  if rx ≥ k1.P then .err "calculated Rx is larger than curve P"
  else
    match decompress rx (iter % 2 = 1) with
    | none => .err "invalid square root"
    | some ry =>
      if ops.mult (rx, ry) k1.N ≠ (0, 0) then .err "n*R does not equal the point at infinity"
      else recoverKey ops r s msg iter

/-- signature/secp256k1.go:11 (calls btcec): the loop of `SignCompact`, which looks for the candidate that gives the key back. -/
def search (ops : CurveOps) (pub : ECPub) (r s : Nat) (hash : Bytes) : Nat → Nat → Res Bytes
  | 0, _ => .err "no valid solution for pubkey found"
  | n + 1, i =>
    match recoverChecked ops r s hash i with
    | .panic m => .panic m
    | .err _ => search ops pub r s hash n (i + 1)
    | .ok p =>
      if p.1 = pub.x ∧ p.2 = pub.y then .ok (BitVec.ofNat 8 (27 + i) :: (beFix 32 r ++ beFix 32 s))
      else search ops pub r s hash n (i + 1)

/-- signature/secp256k1.go:11 (calls btcec): `SignCompact` for keys that are not compressed; there are `(H + 1) * 2` candidates
with cofactor `H = 1`. -/
def signCompact (ops : CurveOps) (nonce : Nat → Bytes → Nat) (priv : ECPriv) (hash : Bytes) : Res Bytes :=
  match signNonce ops (nonce priv.D hash) priv.D hash with
  | .panic m => .panic m
  | .err m => .err m
  | .ok (r, s) => search ops priv.pub r s hash 4 0

end Verif.GoCompact
