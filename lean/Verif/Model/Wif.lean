import Verif.Model.Keypair
import Mathlib.Data.Nat.Digits.Defs
/-!
# Model of keypair/wif.go and `GetP256KeyPairFromWIF`

SHA-256 and base58 are external (`WifExt`). The base58 package used (github.com/itchyny/base58-go v0.1.0)
converts between *decimal text* and base58 text; it is written out as `base58Encode`/`base58Decode` and
shown to meet the law that the properties use.
-/
namespace Verif.Keypair
open Verif.EC

/-- math/big `x.Text(10)` for a non-negative `x`. -/
def decText (n : Nat) : Bytes :=
  if n = 0 then [0x30] else (Nat.digits 10 n).reverse.map fun d => BitVec.ofNat 8 (0x30 + d)

/-- keypair/wif.go:58, keypair/key.go:428 (`SetString`): the value of an ASCII decimal digit. -/
def decDigit (b : Byte) : Option Nat :=
  if 0x30 ≤ b.toNat ∧ b.toNat ≤ 0x39 then some (b.toNat - 0x30) else none

/-- keypair/wif.go:58, keypair/key.go:428 (`SetString`): one or more ASCII digits, as a number. -/
def decNat (s : Bytes) : Option Nat :=
  if s = [] then none
  else (s.mapM decDigit).map fun ds => Nat.ofDigits 10 ds.reverse

/-- math/big `new(big.Int).SetString(s, 10)`: an optional sign and one or more digits. -/
def setString (s : Bytes) : Option Int :=
  match s with
  | 0x2b :: rest => (decNat rest).map fun n => (n : Int)
  | 0x2d :: rest => (decNat rest).map fun n => -(n : Int)
  | s => (decNat s).map fun n => (n : Int)

/-- External code used for WIF: `sha256.Sum256`, `base58.BitcoinEncoding.Encode` and `Decode`. -/
structure WifExt where
  sha256 : Bytes → Bytes
  b58enc : Bytes → Res Bytes
  b58dec : Bytes → Res Bytes

/-- keypair/wif.go:36-76: laws of the external code: digests have 32 bytes; the decimal text of a positive
number survives encoding and decoding. -/
structure WifExt.Lawful (W : WifExt) : Prop where
  sha_length : ∀ b, (W.sha256 b).length = 32
  b58 : ∀ n, 0 < n → ∃ w, W.b58enc (decText n) = .ok w ∧ W.b58dec w = .ok (decText n)

/-- `sum := sha256.Sum256(buf); sum = sha256.Sum256(sum[:])`, then `sum[:4]`. -/
def WifExt.checksum (W : WifExt) (buf : Bytes) : Bytes := (W.sha256 (W.sha256 buf)).take 4

/-- keypair/wif.go:36-51 `Key2WIF`. `buf` shares memory with `data`, which is not used afterwards except to
be cleared; both are local. -/
def key2WIF (E : Ext) (W : WifExt) (key : PrivateKey) : Res Bytes :=
  match serializePrivateKey E key with
  | .err m => .err m
  | .panic m => .panic m
  | .ok data =>
    if data.length < 34 ∨ data.getD 0 0 ≠ PK_ECDSA ∨ data.getD 1 0 ≠ P256 then
      .err "only ECDSA P-256 keys support WIF"
    else
      let buf := 0x80 :: (data.drop 2).take 32
      let buf := buf ++ [0x01]
      let buf := buf ++ W.checksum buf
      W.b58enc (decText (natOfBytes buf))

/-- keypair/wif.go:53-76 `WIF2Key`. -/
def wif2Key (E : Ext) (W : WifExt) (wif : Bytes) : Res PrivateKey :=
  match W.b58dec wif with
  | .err m => .err m
  | .panic m => .panic m
  | .ok text =>
    match setString text with
    | none => .err "parse WIF error, invalid base58 data"
    | some bi =>
      let buf := bytesOfNat bi.natAbs
      let pos : Int := buf.length - 4
      if pos ≠ 34 then .err ("invalid length: " ++ toString pos)
      else if W.checksum (buf.take 34) ≠ buf.drop 34 then .err "invalid WIF data, checksum failed"
      else .ok (.ec .ecdsa (constructPrivateKey E ((buf.take 33).drop 1) Curves.p256))

/-- keypair/key.go:423-443 `GetP256KeyPairFromWIF`: no length check, so the slice expressions `buf[:pos]`
and `buf[1:pos-1]` may be out of range. -/
def getP256KeyPairFromWIF (E : Ext) (W : WifExt) (wif : Bytes) : Res PrivateKey :=
  match W.b58dec wif with
  | .err m => .err m
  | .panic m => .panic m
  | .ok text =>
    match setString text with
    | none => .err "parse WIF error, invalid base58 data"
    | some bi =>
      let buf := bytesOfNat bi.natAbs
      if buf.length < 4 then .panic "slice bounds out of range"
      else
        let pos := buf.length - 4
        if W.checksum (buf.take pos) ≠ buf.drop pos then .err "invalid WIF data, checksum failed"
        else if pos < 2 then .panic "slice bounds out of range"
        else .ok (.ec .ecdsa (constructPrivateKey E ((buf.take (pos - 1)).drop 1) Curves.p256))

/-! ## github.com/itchyny/base58-go v0.1.0 (external, written out) -/

/-- keypair/wif.go:50, 54 (`base58.BitcoinEncoding`): `BitcoinEncoding`. -/
def base58Alphabet : Bytes :=
  "123456789ABCDEFGHJKLMNPQRSTUVWXYZabcdefghijkmnopqrstuvwxyz".toList.map fun c => BitVec.ofNat 8 c.toNat

/-- keypair/wif.go:50, 54 (`base58.BitcoinEncoding`): `Encode`. -/
def base58Encode (src : Bytes) : Res Bytes :=
  if src = [] then .ok []
  else
    match setString src with
    | none => .err "expecting a number"
    | some n =>
      if n < 0 then .err "expecting a positive number in base58 encoding"
      else
        let z := (src.takeWhile (· = 0x30)).length
        .ok (List.replicate z (base58Alphabet.getD 0 0) ++
          (Nat.digits 58 n.natAbs).reverse.map fun d => base58Alphabet.getD d 0)

/-- keypair/wif.go:50, 54 (`base58.BitcoinEncoding`): `decodeMap`. -/
def base58Index (c : Byte) : Option Nat := base58Alphabet.findIdx? (· == c)

/-- keypair/wif.go:50, 54 (`base58.BitcoinEncoding`): `Decode`. -/
def base58Decode (src : Bytes) : Res Bytes :=
  if src = [] then .ok []
  else
    let z := (src.dropLast.takeWhile (· = base58Alphabet.getD 0 0)).length
    match src.mapM base58Index with
    | none => .err "invalid character"
    | some ds => .ok (List.replicate z 0x30 ++ decText (Nat.ofDigits 58 ds.reverse))

end Verif.Keypair
