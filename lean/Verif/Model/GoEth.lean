import Verif.Model.GoCompactSign
/-!
# Sign and VerifySignature of go-ethereum

Package signature calls `crypto.Sign` and `crypto.VerifySignature` of go-ethereum for Ethereum keys (signature/signature.go:139-147
and 208-226). They are not in /repo; they are written out here as in the version of go-ethereum without cgo, which is built on
btcec. With cgo the C library libsecp256k1 is called instead; that is not modelled.
-/
namespace Verif.GoCompact
open Verif.Spec

/-- signature/signature.go:133-147 (calls go-ethereum): `crypto.Sign`: a compact signature with the header, less 27, moved to the
end. The comparison of the key's curve object with `S256()` is left out. -/
def ethSign (ops : CurveOps) (nonce : Nat → Bytes → Nat) (hash : Bytes) (priv : ECPriv) : Res Bytes :=
  if hash.length ≠ 32 then .err "hash is required to be exactly 32 bytes"
  else (signCompact ops nonce priv hash).map fun sig => sig.drop 1 ++ [sig.getD 0 0 - 27]

/-- signature/signature.go:208-226 (calls go-ethereum): `crypto.VerifySignature` for public keys of 65 bytes, the form in which
package signature passes them: parse the key, refuse a high `s`, then `ecdsa.Verify`. -/
def ethVerify (L : GoECDSA.Ext) (pub hash sig : Bytes) : Bool :=
  if sig.length ≠ 64 then false
  else
    let r := natOfBytes (sig.take 32)
    let s := natOfBytes (sig.drop 32)
    if pub.length ≠ 65 ∨ pub.getD 0 0 ≠ 4 then false
    else
      let x := natOfBytes ((pub.drop 1).take 32)
      let y := natOfBytes (pub.drop 33)
      if x ≥ k1.P ∨ y ≥ k1.P ∨ y * y % k1.P ≠ (x ^ 3 + k1.B) % k1.P then false
      else if s > k1.N / 2 then false
      else GoECDSA.verify L ⟨k1, x, y⟩ hash r s

end Verif.GoCompact
