import Verif.Model.Keypair
import Verif.Base.Slice
/-!
# Parsing keys on the heap

`DeserializePublicKey` and `DeserializePrivateKey` of Model/Keypair.lean once more, with slices in place of
byte strings, to tell which results share memory with the argument. Everything but an Ed25519 key is made of
big integers, whose `SetBytes` copies.
-/
namespace Verif.Keypair
open Verif.EC

/-- keypair/key.go:212-295: a parsed public key: an Ed25519 key is a slice (`ed25519.PublicKey` is a
`[]byte`). -/
inductive PubRef where
  | num (k : PublicKey)
  | ed (s : Slice)

/-- keypair/key.go:334-393: a parsed private key; `none` is nil. -/
inductive PrivRef where
  | num (k : Option PrivateKey)
  | ed (s : Slice)

/-- keypair/key.go:212-295: the key that a reader of the heap sees. -/
def PubRef.read (h : Heap) : PubRef → PublicKey
  | .num k => k
  | .ed s => .ed (s.read h)

/-- keypair/key.go:334-393: the key that a reader of the heap sees. -/
def PrivRef.read (h : Heap) : PrivRef → Option PrivateKey
  | .num k => k
  | .ed s => some (.ed (s.read h))

/-- keypair/key.go:212-273 `DeserializePublicKey`. -/
def deserializePublicKeyRef (E : Ext) (h : Heap) (data : Slice) (draws : List Nat) :
    Option (Res (Heap × PubRef)) :=
  let b := data.read h
  if data.len ≤ 3 then some (.err "too short pubkey")
  else
    let t := b.getD 0 0
    if t = PK_ECDSA ∨ t = PK_SM2 then
      match getCurve E (b.getD 1 0) with
      | .ok c => (decodePublicKey E.k1name ((data.sub 2 data.len).read h) (some c) draws).map fun r =>
          r.map fun pub => (h, .num (.ec (if t = PK_ECDSA then .ecdsa else .sm2) pub))
      | .err m => some (.err m)
      | .panic m => some (.panic m)
    else if t = PK_EDDSA then
      if b.getD 1 0 = ED25519 then
        if (data.sub 2 data.len).len ≠ 32 then
          some (.err "deserializing public key failed: invalid length for Ed25519 public key")
        else
          let pk := h.alloc ((data.sub 2 data.len).read h)
          some (.ok (pk.1, .ed pk.2))
      else some (.err "deserializing public key failed: unsupported EdDSA scheme")
    else if t = PK_P256_E ∨ t = PK_P256_O ∨ t = PK_P256_NC then
      (decodePublicKey E.k1name b (some Curves.p256) draws).map fun
        | .ok pub => .ok (h, .num (.ec .ecdsa pub))
        | .err _ => .err "deserializing public key failed: decode P-256 public key error"
        | .panic m => .panic m
    else if t = PK_ETHECDSA then
      some ((unmarshalPubkey E ((data.sub 1 data.len).read h)).map fun p => (h, .num (.eth p)))
    else some (.err "deserializing public key failed: unrecognized algorithm label")

/-- keypair/key.go:334-393 `DeserializePrivateKey`. -/
def deserializePrivateKeyRef (E : Ext) (h : Heap) (data : Slice) (draws : List Nat) :
    Option (Res (Heap × PrivRef)) :=
  let b := data.read h
  if data.len = 0 then some (.panic "index out of range")
  else
    let t := b.getD 0 0
    if t = PK_ECDSA ∨ t = PK_SM2 then
      if data.len ≤ 1 then some (.panic "index out of range")
      else
        match getCurve E (b.getD 1 0) with
        | .err m => some (.err m)
        | .panic m => some (.panic m)
        | .ok c =>
          let size := c.byteSize
          if data.len < size * 2 + 3 then
            some (.err "deserializing private key failed: not enough length")
          else
            let key := constructPrivateKey E ((data.sub 2 (2 + size)).read h) c
            (decodePublicKey E.k1name ((data.sub (2 + size) data.len).read h) (some c) draws).map fun
              | .err m => .err ("deserializing private key failed: " ++ m)
              | .panic m => .panic m
              | .ok p =>
                if key.pub.x ≠ p.x ∨ key.pub.y ≠ p.y then
                  .err "deserializing private key failed: unmatched private and public key"
                else .ok (h, .num (some (.ec (if t = PK_ECDSA then .ecdsa else .sm2) key)))
    else if t = PK_EDDSA then
      if data.len ≤ 1 then some (.panic "index out of range")
      else if b.getD 1 0 = ED25519 then
        if data.len < 2 + 64 then
          some (.err "deserializing private key failed: not enough length for Ed25519 key")
        else some (.ok (h, .ed (data.sub 2 data.len)))
      else some (.err "deserializing private key failed: unknown EdDSA curve type")
    else if t = PK_ETHECDSA then
      some ((toECDSA E ((data.sub 1 data.len).read h)).map fun p => (h, .num (some (.eth p))))
    else some (.ok (h, .num none))

end Verif.Keypair
