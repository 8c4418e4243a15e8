import Verif.Model.SM2
import Verif.Spec.CurveOps
import Mathlib.Data.Int.GCD
/-!
# crypto/ecdsa

`signature.Sign` and `signature.Verify` call `ecdsa.Sign` and `ecdsa.Verify` of the Go standard library
(signature/signature.go:103 and 196). They are not in /repo; they are written out here as they stand in the releases of Go
that the repository was made for (sm2/signature.go:21-204 is derived from the same file).
-/
namespace Verif.GoECDSA
open Verif.Spec

/-- signature/signature.go:103, 196 (calls crypto/ecdsa): what the package gets from others: the methods of the curves,
`Inverse` and `CombinedMult` where a curve has them, crypto/sha512 and the keystream of AES-256-CTR. -/
structure Ext where
  ops : Curve → CurveOps
  inverse : Curve → Option (Nat → Nat)
  combinedMult : Curve → Option (Nat × Nat → Nat → Nat → Nat × Nat)
  sha512 : Bytes → Bytes
  ctr : Bytes → Nat → Nat → Bytes

/-- signature/signature.go:103, 196 (calls crypto/ecdsa): `hashToInt`: at most `orderBytes` bytes, without the excess
bits. -/
def hashToInt (hash : Bytes) (c : Curve) : Nat :=
  let orderBits := Nat.log2 c.N + 1
  let orderBytes := (orderBits + 7) / 8
  let hash := if hash.length > orderBytes then hash.take orderBytes else hash
  let ret := natOfBytes hash
  if hash.length * 8 > orderBits then ret >>> (hash.length * 8 - orderBits) else ret

/-- signature/signature.go:196 (calls crypto/ecdsa): `big.Int.ModInverse`, by the extended Euclidean algorithm. -/
def modInverse (s N : Nat) : Nat := (Nat.gcdA s N % N).toNat

/-- signature/signature.go:196 (calls crypto/ecdsa): the inverse of `s`, by the curve's method if it has one. -/
def verifyInverse (L : Ext) (c : Curve) (s : Nat) : Nat :=
  match L.inverse c with
  | some f => f s
  | none => modInverse s c.N

/-- signature/signature.go:196 (calls crypto/ecdsa): `u1 G + u2 Q`, by the curve's method if it has one. -/
def combine (L : Ext) (pub : ECPub) (u1 u2 : Nat) : Nat × Nat :=
  match L.combinedMult pub.curve with
  | some f => f (pub.x, pub.y) u1 u2
  | none => (L.ops pub.curve).add ((L.ops pub.curve).baseMult u1) ((L.ops pub.curve).mult (pub.x, pub.y) u2)

/-- signature/signature.go:196 (calls crypto/ecdsa): `ecdsa.Verify`. -/
def verify (L : Ext) (pub : ECPub) (hash : Bytes) (r s : Int) : Bool :=
  let c := pub.curve
  let N := c.N
  if r ≤ 0 ∨ s ≤ 0 then false
  else if r ≥ N ∨ s ≥ N then false
  else
    let e := hashToInt hash c
    let w := verifyInverse L c s.toNat
    let u1 := e * w % N
    let u2 := r.toNat * w % N
    let q := combine L pub u1 u2
    if q.1 = 0 ∧ q.2 = 0 then false
    else ((q.1 % N : Nat) : Int) == r

/-- signature/signature.go:103 (calls crypto/ecdsa): `randFieldElement` applied to the `BitSize/8 + 8` bytes it read. (That of
package sm2 subtracts 1 once more, sm2/signature.go:64-80.) -/
def randFieldElement (c : Curve) (b : Bytes) : Nat := natOfBytes b % (c.N - 1) + 1

/-- signature/signature.go:103 (calls crypto/ecdsa): the inverse of the nonce, by the curve's method if it has one. -/
def nonceInverse (L : Ext) (c : Curve) (k : Nat) : Nat :=
  match L.inverse c with
  | some f => f k
  | none => SM2.fermatInverse k c.N

/-- signature/signature.go:103 (calls crypto/ecdsa): one pass through the loops of `ecdsa.Sign` with the nonce `k`; `none`
means that a new nonce is drawn. -/
def signTry (L : Ext) (c : Curve) (D e k : Nat) : Option (Nat × Nat) :=
  let kInv := nonceInverse L c k
  let r := ((L.ops c).baseMult k).1 % c.N
  if r ≠ 0 then
    let s := (D * r + e) * kInv % c.N
    if s ≠ 0 then some (r, s) else none
  else none

/-- signature/signature.go:103 (calls crypto/ecdsa): the loops over successive reads of the nonce stream. -/
def signLoop (L : Ext) (c : Curve) (D e : Nat) : List Bytes → Option (Nat × Nat)
  | [] => none
  | b :: bs =>
    match signTry L c D e (randFieldElement c b) with
    | some rs => some rs
    | none => signLoop L c D e bs

/-- signature/signature.go:103 (calls crypto/ecdsa): `ecdsa.Sign`. `rand` is what the random source yields after the byte that
`randutil.MaybeReadByte` reads or does not read. `fuel` bounds the number of nonces; a loop that is still running then is
an error here. -/
def sign (L : Ext) (fuel : Nat) (priv : ECPriv) (hash rand : Bytes) : Res (Nat × Nat) :=
  let c := priv.pub.curve
  let n := SM2.entropyLen c
  if rand.length < n then .err "read error"
  else
    let key := (L.sha512 (bytesOfNat priv.D ++ rand.take n ++ hash)).take 32
    let reads := (List.range fuel).map fun i => L.ctr key (SM2.readLen c * i) (SM2.readLen c)
    if c.N = 0 then .err "zero parameter"
    else
      match signLoop L c priv.D (hashToInt hash c) reads with
      | some rs => .ok rs
      | none => .err "still running"

end Verif.GoECDSA
