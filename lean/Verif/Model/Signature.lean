import Verif.Model.Keypair
import Verif.Model.SM2
import Verif.Base.Slice
/-!
# Model of package signature

(signature/scheme.go, signature/signature.go, signature/secp256k1.go)

External code is a parameter (`Ext`): the hash functions other than SM3, crypto/ecdsa, the compact
signatures of btcec, Ed25519 and the go-ethereum signature functions.

`Signature.Value` has static type `interface{}`; `Value` lists the dynamic types the package
distinguishes. Typed nil pointers and nil `R` or `S` fields inside a value, which no function of the package
creates, are in Model/SigNil. Byte slices inside a value are of an arbitrary type `β`: contents with spare
capacity (`Buf`) where only reading matters, heap slices (`Slice`) where aliasing matters.
-/
namespace Verif.Signature
open Verif.Keypair

/-- signature/scheme.go:91-119: the external hash functions. -/
inductive HashAlg where
  | sha224 | sha256 | sha384 | sha512 | sha3_224 | sha3_256 | sha3_384 | sha3_512 | ripemd160 | sm3 | keccak256
  deriving DecidableEq, Repr

/-- signature/signature.go:21-35 (imports): the external parts. -/
structure Ext where
  /-- `btcec.S256().Name` -/
  k1name : String
  /-- The hash functions; the value at `sm3` is not used. -/
  extHash : HashAlg → Bytes → Bytes
  /-- package sm2 -/
  sm2 : SM2.Ext
  /-- `ecdsa.Sign(rand.Reader, key, digest)`; the last argument is what the random source yields. -/
  ecdsaSign : ECPriv → Bytes → Bytes → Res (Nat × Nat)
  /-- `ecdsa.Verify(key, digest, r, s)` -/
  ecdsaVerify : ECPub → Bytes → Int → Int → Bool
  /-- `btcec.SignCompact(S256(), key, digest, false)` -/
  signCompact : ECPriv → Bytes → Res Bytes
  /-- `btcec.RecoverCompact(S256(), sig, digest)`: coordinates of the recovered key. -/
  recoverCompact : Bytes → Bytes → Res (Nat × Nat)
  /-- Ed25519 public key of a seed. -/
  edPublic : Bytes → Bytes
  /-- Ed25519 signature by a 64-byte key. -/
  edSig : Bytes → Bytes → Bytes
  /-- Ed25519 verification with a 32-byte key. -/
  edCheck : Bytes → Bytes → Bytes → Bool
  /-- go-ethereum `crypto.Sign(digest, key)` -/
  ethSign : Bytes → ECPriv → Res Bytes
  /-- go-ethereum `crypto.VerifySignature(pubkey, digest, sig)` -/
  ethVerify : Bytes → Bytes → Bytes → Bool

/-- `SignatureScheme` (signature/scheme.go:38) is a byte. -/
abbrev Scheme := Byte

/-! ## signature/scheme.go:41-57 -/
/-- signature/scheme.go:41-57 -/
abbrev SHA224withECDSA : Scheme := 0
/-- signature/scheme.go:41-57 -/
abbrev SHA256withECDSA : Scheme := 1
/-- signature/scheme.go:41-57 -/
abbrev SHA384withECDSA : Scheme := 2
/-- signature/scheme.go:41-57 -/
abbrev SHA512withECDSA : Scheme := 3
/-- signature/scheme.go:41-57 -/
abbrev SHA3_224withECDSA : Scheme := 4
/-- signature/scheme.go:41-57 -/
abbrev SHA3_256withECDSA : Scheme := 5
/-- signature/scheme.go:41-57 -/
abbrev SHA3_384withECDSA : Scheme := 6
/-- signature/scheme.go:41-57 -/
abbrev SHA3_512withECDSA : Scheme := 7
/-- signature/scheme.go:41-57 -/
abbrev RIPEMD160withECDSA : Scheme := 8
/-- signature/scheme.go:41-57 -/
abbrev SM3withSM2 : Scheme := 9
/-- signature/scheme.go:41-57 -/
abbrev SHA512withEDDSA : Scheme := 10
/-- signature/scheme.go:41-57 -/
abbrev KECCAK256WithECDSA : Scheme := 11

/-- signature/scheme.go:59-72 `names`. -/
def names : List String :=
  ["SHA224withECDSA", "SHA256withECDSA", "SHA384withECDSA", "SHA512withECDSA", "SHA3-224withECDSA",
   "SHA3-256withECDSA", "SHA3-384withECDSA", "SHA3-512withECDSA", "RIPEMD160withECDSA", "SM3withSM2",
   "SHA512withEdDSA", "KECCAK256WithECDSA"]

/-- signature/scheme.go:74-79 `Name`. -/
def name (s : Scheme) : Res String :=
  if s.toNat ≥ names.length then .panic "unknown scheme value"
  else .ok (names.getD s.toNat "")

/-- signature/scheme.go:83: a representative of the simple case folding class of a character, as far as ASCII
characters are concerned: ASCII letters, U+017F (long s) and U+212A (Kelvin sign). The classes of other
characters contain no ASCII character, so comparison with an ASCII string is not affected by leaving them
alone. -/
def foldChar (c : Char) : Char :=
  if 'A' ≤ c ∧ c ≤ 'Z' then Char.ofNat (c.toNat + 32)
  else if c = 'ſ' then 's'
  else if c.toNat = 0x212A then 'k'
  else c

/-- signature/scheme.go:83: `strings.EqualFold(a, b)` for an ASCII string `a`. -/
def equalFold (a b : String) : Bool := a.toList.map foldChar == b.toList.map foldChar

/-- signature/scheme.go:82-86: the loop of `GetScheme`. -/
def getSchemeFrom (nm : String) : Nat → List String → Option Scheme
  | _, [] => none
  | i, v :: rest => if equalFold v nm then some (BitVec.ofNat 8 i) else getSchemeFrom nm (i + 1) rest

/-- signature/scheme.go:81-89 `GetScheme`. -/
def getScheme (nm : String) : Res Scheme :=
  match getSchemeFrom nm 0 names with
  | some s => .ok s
  | none => .err "unknown signature scheme"

/-- signature/scheme.go:91-119 `GetHash`: which hash function; `none` is nil. -/
def hashOf (s : Scheme) : Option HashAlg :=
  if s = SHA224withECDSA then some .sha224
  else if s = SHA256withECDSA then some .sha256
  else if s = SHA384withECDSA then some .sha384
  else if s = SHA512withECDSA then some .sha512
  else if s = SHA3_224withECDSA then some .sha3_224
  else if s = SHA3_256withECDSA then some .sha3_256
  else if s = SHA3_384withECDSA then some .sha3_384
  else if s = SHA3_512withECDSA then some .sha3_512
  else if s = RIPEMD160withECDSA then some .ripemd160
  else if s = SM3withSM2 then some .sm3
  else if s = SHA512withEDDSA then some .sha512
  else if s = KECCAK256WithECDSA then some .keccak256
  else none

/-- signature/signature.go:96-97: the digest `h.Write(msg); h.Sum(nil)` of a fresh hash object (for SM3:
property C02). -/
def Ext.hash (E : Ext) : HashAlg → Bytes → Bytes
  | .sm3 => SM2.sm3Sum
  | a => E.extHash a

/-- The `case` list / chain of `==` of signature/signature.go:86-94, 187, 254-262, 310-312: the ECDSA
schemes. -/
def isECDSA (s : Scheme) : Bool :=
  s = SHA224withECDSA || s = SHA256withECDSA || s = SHA384withECDSA || s = SHA512withECDSA ||
  s = SHA3_224withECDSA || s = SHA3_256withECDSA || s = SHA3_384withECDSA || s = SHA3_512withECDSA ||
  s = RIPEMD160withECDSA

/-- signature/signature.go:292-347: a byte slice as far as reading is concerned: its contents, and the bytes
between its length and its capacity. -/
structure Buf where
  data : Bytes
  spare : Bytes
  deriving DecidableEq, Repr

/-- The dynamic type of `Signature.Value` (signature/signature.go:42-50): `*DSASignature`, `*SM2Signature`,
`[]byte`, anything else. `curve = none` is a nil `Curve`. -/
inductive Value (β : Type) where
  | dsa (r s : Int) (curve : Option Curve)
  | sm2 (r s : Int) (curve : Option Curve) (id : Bytes)
  | bytes (b : β)
  | other
  deriving DecidableEq, Repr

/-- signature/signature.go:37-40 `Signature`. -/
structure Sig (β : Type) where
  scheme : Scheme
  value : Value β
  deriving DecidableEq, Repr

/-- signature/signature.go:37-50: replace the byte slice of a value. -/
def Value.map {β γ : Type} (f : β → γ) : Value β → Value γ
  | .dsa r s c => .dsa r s c
  | .sm2 r s c id => .sm2 r s c id
  | .bytes b => .bytes (f b)
  | .other => .other

/-- signature/signature.go:37-50 -/
def Sig.map {β γ : Type} (f : β → γ) (s : Sig β) : Sig γ := ⟨s.scheme, s.value.map f⟩

/-- signature/signature.go:292-347: what a slice shows a reader. -/
def bufOf (h : Heap) (s : Slice) : Buf :=
  ⟨s.read h, ((h.mem s.arr).drop (s.off + s.len)).take (s.cap - s.len)⟩

/-- signature/signature.go:61, 74, 133: the dynamic type of the argument `opt` of `Sign`; `other` includes
nil. -/
inductive Opt where
  | str (s : Bytes)
  | bool (b : Bool)
  | other
  deriving DecidableEq, Repr

/-- signature/signature.go:73-76: the user id in the option. -/
def optID : Opt → Bytes
  | .str s => s
  | _ => []

/-- signature/signature.go:133-137: `applyHash`. -/
def optApplyHash : Opt → Bool
  | .bool b => b
  | _ => false

/-! ## signature/secp256k1.go -/

/-- signature/secp256k1.go:10-12 `Secp256k1Sign`. -/
def secp256k1Sign (E : Ext) (priv : ECPriv) (hash : Bytes) : Res Bytes := E.signCompact priv hash

/-- signature/secp256k1.go:14-20 `Secp256k1Verify`; `IsEqual` of btcec compares both coordinates. -/
def secp256k1Verify (E : Ext) (pub : ECPub) (hash sig : Bytes) : Res Bool :=
  match E.recoverCompact sig hash with
  | .err _ => .ok false
  | .panic m => .panic m
  | .ok (x, y) => .ok (decide (x = pub.x ∧ y = pub.y))

/-! ## signature/signature.go -/

/-- signature/signature.go:96-112: the ECDSA branch of `Sign`. -/
def signECDSA (E : Ext) (scheme : Scheme) (priv : ECPriv) (digest rand : Bytes) : Res (Sig Buf) :=
  if priv.pub.curve.name = E.k1name then
    (secp256k1Sign E priv digest).map fun s => ⟨scheme, .bytes ⟨s, []⟩⟩
  else
    (E.ecdsaSign priv digest rand).map fun rs => ⟨scheme, .dsa rs.1 rs.2 (some priv.pub.curve)⟩

/-- signature/signature.go:123: ed25519.Sign: panics unless the key has 64 bytes. -/
def edSign (E : Ext) (key msg : Bytes) : Res Bytes :=
  if key.length ≠ 64 then .panic "ed25519: bad private key length" else .ok (E.edSig key msg)

/-- signature/signature.go:61-168 `Sign`. `rand` is what the random source yields, `fuel` bounds the
number of nonces the SM2 loop may use (`none`: still running). The slice in a value returned by an external
function is taken to have no spare capacity. -/
def sign (E : Ext) (fuel : Nat) (rand : Bytes) (scheme : Scheme) (pri : PrivateKey) (msg : Bytes)
    (opt : Opt) : Option (Res (Sig Buf)) :=
  match pri with
  | .ec _ priv =>
    match hashOf scheme with
    | none => some (.err "signing failed: unknown scheme")
    | some h =>
      if scheme = SM3withSM2 then
        (SM2.sign E.sm2 (E.hash h) fuel rand priv (optID opt) msg).map fun r =>
          r.map fun rs => ⟨scheme, .sm2 rs.1 rs.2 (some priv.pub.curve) (optID opt)⟩
      else if isECDSA scheme then
        some (signECDSA E scheme priv (E.hash h msg) rand)
      else some (.err "signing failed: unmatched signature scheme and private key")
  | .ed key =>
    if scheme ≠ SHA512withEDDSA then
      some (.err "signing failed: unmatched signature scheme and private key")
    else some ((edSign E key msg).map fun s => ⟨scheme, .bytes ⟨s, []⟩⟩)
  | .eth priv =>
    if scheme ≠ KECCAK256WithECDSA then
      some (.err "signing failed: unmatched signature scheme and private key")
    else
      if optApplyHash opt then
        match hashOf scheme with
        | none => some (.err "signing failed: unknown scheme")
        | some h =>
          some ((E.ethSign (E.hash h msg) priv).map fun s => ⟨KECCAK256WithECDSA, .bytes ⟨s, []⟩⟩)
      else some ((E.ethSign msg priv).map fun s => ⟨KECCAK256WithECDSA, .bytes ⟨s, []⟩⟩)
  | .unknown => some (.err "signing failed: unknown type of private key")

/-- signature/signature.go:172-243: ed25519.Verify: panics unless the key has 32 bytes. -/
def edVerify (E : Ext) (key msg sig : Bytes) : Res Bool :=
  if key.length ≠ 32 then .panic "ed25519: bad public key length" else .ok (E.edCheck key msg sig)

/-- signature/signature.go:208-226: the Ethereum branch of `Verify` after the scheme check. The slice
expression `sig[:64]` may extend into the spare capacity and panics beyond it. -/
def verifyEth (E : Ext) (pub : ECPub) (msg : Bytes) (v : Value Buf) : Res Bool :=
  let kb := fromECDSAPub pub
  match v with
  | .bytes b =>
    if (b.data ++ b.spare).length < 64 then .panic "slice bounds out of range"
    else
      let sig := (b.data ++ b.spare).take 64
      if msg.length ≠ 32 then
        match hashOf KECCAK256WithECDSA with
        | none => .ok false
        | some h => .ok (E.ethVerify kb (E.hash h msg) sig)
      else .ok (E.ethVerify kb msg sig)
  | _ => .panic "interface conversion"

/-- signature/signature.go:172-230 `Verify`; `none` is a nil signature. -/
def verify (E : Ext) (pub : PublicKey) (msg : Bytes) (sig : Option (Sig Buf)) : Res Bool :=
  match sig with
  | none => .ok false
  | some sig =>
    if msg.length = 0 then .ok false
    else
      match hashOf sig.scheme with
      | none => .ok false
      | some h =>
        match pub with
        | .ec _ key =>
          if isECDSA sig.scheme then
            match sig.value with
            | .dsa r s _ => .ok (E.ecdsaVerify key (E.hash h msg) r s)
            | .bytes b => secp256k1Verify E key (E.hash h msg) b.data
            | _ => .ok false
          else if sig.scheme = SM3withSM2 then
            match sig.value with
            | .sm2 r s _ id => .ok (SM2.verify E.sm2 (E.hash h) key id msg r s)
            | _ => .ok false
          else .ok false
        | .ed key =>
          if sig.scheme = SHA512withEDDSA then
            match sig.value with
            | .bytes b => edVerify E key msg b.data
            | _ => .panic "interface conversion"
          else .ok false
        | .eth key =>
          if sig.scheme ≠ KECCAK256WithECDSA then .ok false
          else verifyEth E key msg sig.value
        | .unknown => .ok false

/-- signature/signature.go:350-363 `serializeDSA` (`R` and `S` are not nil). `big.Int.Bytes` is the
absolute value; a negative start index panics, and so does a method call on a nil curve. -/
def serializeDSA (r s : Int) (curve : Option Curve) : Res Bytes :=
  match curve with
  | none => .panic "nil pointer dereference"
  | some c =>
    let size := (c.bitSize + 7) / 8
    let res := zeros (size * 2)
    let rb := bytesOfNat r.natAbs
    let sb := bytesOfNat s.natAbs
    if rb.length > size then .panic "slice bounds out of range"
    else
      let res := splice res (size - rb.length) rb
      if sb.length > size * 2 then .panic "slice bounds out of range"
      else .ok (splice res (size * 2 - sb.length) sb)

/-- signature/signature.go:252-278: the switch of `Serialize`, which fills the buffer. -/
def serializeValue (sig : Sig Buf) : Res Bytes :=
  match sig.value with
  | .dsa r s c =>
    if !isECDSA sig.scheme then .err "failed serializing signature: unmatched signature scheme and value"
    else (serializeDSA r s c).map fun b => sig.scheme :: b
  | .sm2 r s c id =>
    if sig.scheme ≠ SM3withSM2 then
      .err "failed serializing signature: unmatched signature scheme and value"
    else (serializeDSA r s c).map fun b => sig.scheme :: (id ++ 0 :: b)
  | .bytes b => .ok (sig.scheme :: b.data)
  | .other => .err "failed serializing signature: unrecognized signature type"

/-- signature/signature.go:245-289 `Serialize`; `none` is nil. -/
def serialize (sig : Option (Sig Buf)) : Res Bytes :=
  match sig with
  | none => .err "failed serializing signature: input is nil"
  | some sig =>
    (serializeValue sig).map fun res =>
      if sig.scheme = SHA256withECDSA ∧ res.length = 65 then res.drop 1 else res

/-- signature/signature.go:365-379 `deserializeDSA` on a slice that is not nil; the error has the text that both callers
put in front of it. -/
def deserializeDSA (buf : Bytes) : Res (Nat × Nat) :=
  let length := buf.length
  if length % 2 ≠ 0 then .err "failed deserializing signature: invalid length"
  else .ok (natOfBytes (buf.take (length / 2)), natOfBytes (buf.drop (length / 2)))

/-- signature/signature.go:323-326: the index of the first zero byte, or the length. -/
def zeroIndex : Bytes → Nat
  | [] => 0
  | b :: rest => if b = 0 then 0 else zeroIndex rest + 1

/-- signature/signature.go:292-348 `Deserialize`, on the heap. (A nil slice has length 0.) -/
def deserialize (h : Heap) (buf : Slice) : Res (Heap × Sig Slice) :=
  if buf.len < 2 then .err "failed deserializing signature: invalid argument"
  else
    let data : Slice := if buf.len = 64 then buf else buf.sub 1 buf.len
    let scheme : Scheme := if buf.len = 64 then SHA256withECDSA else (buf.read h).getD 0 0
    if isECDSA scheme then
      if data.len = 65 then .ok (h, ⟨scheme, .bytes data⟩)
      else (deserializeDSA (data.read h)).map fun rs => (h, ⟨scheme, .dsa rs.1 rs.2 none⟩)
    else if scheme = SM3withSM2 then
      let i := zeroIndex (data.read h)
      if i ≥ data.len then .err "failed deserializing signature: invalid format"
      else
        (deserializeDSA ((data.read h).drop (i + 1))).map fun rs =>
          (h, ⟨scheme, .sm2 rs.1 rs.2 none ((data.read h).take i)⟩)
    else if scheme = SHA512withEDDSA ∨ scheme = KECCAK256WithECDSA then
      let hv := h.alloc (data.read h)
      .ok (hv.1, ⟨scheme, .bytes hv.2⟩)
    else .err "failed deserializing signature: unknown signature scheme"

/-- signature/secp256k1.go:22-41 `ConvertToEthCompatible`, on the heap: returns the heap afterwards and
the returned slice. -/
def convertToEthCompatible (h : Heap) (sig : Slice) : Res (Heap × Slice) :=
  match deserialize h sig with
  | .err m => .err m
  | .panic m => .panic m
  | .ok (h, s) =>
    match s.value with
    | .bytes t =>
      if t.len ≠ 65 then .err "invalid signature length"
      else
        let v := (t.read h).getD 0 0 - 27
        let h := h.store t.arr t.off ((t.read h).drop 1)
        let h := h.store t.arr (t.off + 64) [v]
        .ok (h, t)
    | _ => .err "invalid signature type"

end Verif.Signature
