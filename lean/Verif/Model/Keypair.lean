import Verif.Model.EC
import Verif.Base.Curves
/-!
# Model of package keypair: key types, codecs, comparison and sorting

(keypair/key.go, keypair/ecurves.go, keypair/publist.go)

External code is a parameter (`Ext`): the scalar base multiplication of the curves, the names that the
btcec and go-ethereum curve objects carry. The go-ethereum key codecs (crypto/crypto.go of
go-ethereum v1.9.25) are small and written out here.
-/
namespace Verif.Keypair
open Verif.EC

/-- keypair/key.go:28-46 (imports): external behaviour the package depends on. -/
structure Ext where
  /-- `btcec.S256().Name` -/
  k1name : String
  /-- `ethcrypto.S256().Params().Name` -/
  ethname : String
  /-- `curve.ScalarBaseMult(k)` as a function of the integer denoted by the bytes of `k` -/
  baseMult : Curve → Nat → Nat × Nat
  /-- crypto/ed25519: public key of a 32-byte seed -/
  edPublic : Bytes → Bytes

/-- ec/key.go:36-41 `ECAlgorithm`; `other` is any byte except 0 and 1. -/
inductive Alg where
  | ecdsa
  | sm2
  | other (b : Byte)
  deriving DecidableEq, Repr

/-- keypair/key.go:41-47 and ec/key.go:43-59: the dynamic types a `PublicKey` may have. `unknown` is any
other type. -/
inductive PublicKey where
  | ec (alg : Alg) (pub : ECPub)
  | ed (b : Bytes)
  | eth (pub : ECPub)
  | unknown
  deriving DecidableEq, Repr

/-- keypair/key.go:49-52, ec/key.go:43-59: the dynamic types a `PrivateKey` may have. -/
inductive PrivateKey where
  | ec (alg : Alg) (priv : ECPriv)
  | ed (b : Bytes)
  | eth (priv : ECPriv)
  | unknown
  deriving DecidableEq, Repr

/-! ## keypair/key.go:54-66 key type bytes, keypair/ecurves.go:30-44 labels -/

/-- keypair/key.go:57-66 -/
abbrev PK_ECDSA : Byte := 0x12
/-- keypair/key.go:57-66 -/
abbrev PK_SM2 : Byte := 0x13
/-- keypair/key.go:57-66 -/
abbrev PK_EDDSA : Byte := 0x14
/-- keypair/key.go:57-66 -/
abbrev PK_ETHECDSA : Byte := 0x15
/-- keypair/key.go:57-66 -/
abbrev PK_P256_E : Byte := 0x02
/-- keypair/key.go:57-66 -/
abbrev PK_P256_O : Byte := 0x03
/-- keypair/key.go:57-66 -/
abbrev PK_P256_NC : Byte := 0x04
/-- keypair/ecurves.go:30-44 -/
abbrev P224 : Byte := 1
/-- keypair/ecurves.go:30-44 -/
abbrev P256 : Byte := 2
/-- keypair/ecurves.go:30-44 -/
abbrev P384 : Byte := 3
/-- keypair/ecurves.go:30-44 -/
abbrev P521 : Byte := 4
/-- keypair/ecurves.go:30-44 -/
abbrev SECP256K1 : Byte := 5
/-- keypair/ecurves.go:30-44 -/
abbrev SM2P256V1 : Byte := 20
/-- keypair/ecurves.go:30-44 -/
abbrev ED25519 : Byte := 25

/-- keypair/ecurves.go:79-93: `unicode.ToUpper` as far as it can produce an ASCII character: ASCII letters,
U+017F (long s) and U+0131 (dotless i). Every other character is left alone here; in Go it maps to a non-ASCII
character, so equality with an ASCII name is not affected. -/
def upperChar (c : Char) : Char :=
  if 'a' ≤ c ∧ c ≤ 'z' then Char.ofNat (c.toNat - 32)
  else if c = 'ſ' then 'S'
  else if c = 'ı' then 'I'
  else c

/-- keypair/ecurves.go:79-93: `strings.ToUpper`, see `upperChar`. -/
def toUpper (s : String) : List Char := s.toList.map upperChar

/-- keypair/ecurves.go:50-68 `GetCurve`. -/
def getCurve (E : Ext) (label : Byte) : Res Curve :=
  if label = P224 then .ok Curves.p224
  else if label = P256 then .ok Curves.p256
  else if label = P384 then .ok Curves.p384
  else if label = P521 then .ok Curves.p521
  else if label = SM2P256V1 then .ok Curves.sm2
  else if label = SECP256K1 then .ok (Curves.secp256k1 E.k1name)
  else .err "unknown elliptic curve"

/-- keypair/ecurves.go:78-98 `GetNamedCurveLabel`. -/
def getNamedCurveLabel (E : Ext) (name : String) : Res Byte :=
  let n := toUpper name
  if n = toUpper Curves.p224.name then .ok P224
  else if n = toUpper Curves.p256.name then .ok P256
  else if n = toUpper Curves.p384.name then .ok P384
  else if n = toUpper Curves.p521.name then .ok P521
  else if n = toUpper Curves.sm2.name then .ok SM2P256V1
  else if n = toUpper E.k1name then .ok SECP256K1
  else if n = [] then .ok SECP256K1
  else .err "unsupported elliptic curve"

/-- keypair/ecurves.go:46-48 `GetCurveLabel`. -/
def getCurveLabel (E : Ext) (c : Curve) : Res Byte := getNamedCurveLabel E c.name

/-- keypair/ecurves.go:70-76 `GetNamedCurve`. -/
def getNamedCurve (E : Ext) (name : String) : Res Curve :=
  (getNamedCurveLabel E name).bind (getCurve E)

/-- keypair/key.go:123-141 `GetKeyType`. -/
def getKeyType : PublicKey → Res Byte
  | .ec .ecdsa _ => .ok PK_ECDSA
  | .ec .sm2 _ => .ok PK_SM2
  | .ec (.other _) _ => .panic "unknown public key type"
  | .ed _ => .ok PK_EDDSA
  | .eth _ => .ok PK_ETHECDSA
  | .unknown => .panic "unknown public key type"

/-! ## go-ethereum v1.9.25 crypto/crypto.go -/

/-- keypair/key.go:262, 385: the curve object of go-ethereum. -/
def ethCurve (E : Ext) : Curve := Curves.secp256k1 E.ethname

/-- `FromECDSAPub`: `elliptic.Marshal(S256(), X, Y)`. Coordinates are written in 32 bytes (coordinates
that do not fit are not modelled; Go panics or overflows there). -/
def fromECDSAPub (pub : ECPub) : Bytes := 4 :: (beFix 32 pub.x ++ beFix 32 pub.y)

/-- keypair/key.go:262: `IsOnCurve` of secp256k1: `y² = x³ + 7 (mod P)`. -/
def isOnK1 (c : Curve) (x y : Nat) : Bool := decide (y ^ 2 % c.P = (x ^ 3 + c.B) % c.P)

/-- `UnmarshalPubkey`: `elliptic.Unmarshal` on S256: exactly 65 bytes, tag 4, reduced coordinates, on the
curve. -/
def unmarshalPubkey (E : Ext) (data : Bytes) : Res ECPub :=
  let c := ethCurve E
  if data.length ≠ 65 then .err "invalid secp256k1 public key"
  else if data.getD 0 0 ≠ 4 then .err "invalid secp256k1 public key"
  else
    let x := natOfBytes ((data.drop 1).take 32)
    let y := natOfBytes ((data.drop 33).take 32)
    if x ≥ c.P ∨ y ≥ c.P then .err "invalid secp256k1 public key"
    else if isOnK1 c x y then .ok { curve := c, x := x, y := y }
    else .err "invalid secp256k1 public key"

/-- keypair/key.go:297-331: `FromECDSA`: `math.PaddedBigBytes(D, 32)`. -/
def fromECDSA (priv : ECPriv) : Bytes :=
  zeros (32 - byteLen priv.D) ++ bytesOfNat priv.D

/-- keypair/key.go:334-393: `ToECDSA` (`toECDSA` with `strict = true`). -/
def toECDSA (E : Ext) (d : Bytes) : Res ECPriv :=
  let c := ethCurve E
  if 8 * d.length ≠ c.bitSize then .err "invalid length, need 256 bits"
  else
    let D := natOfBytes d
    if D ≥ c.N then .err "invalid private key, >=N"
    else if D = 0 then .err "invalid private key, zero or negative"
    else
      let q := E.baseMult c D
      .ok { D := D, pub := { curve := c, x := q.1, y := q.2 } }

/-! ## Codecs -/

/-- ec/key.go:146-158 `ConstructPrivateKey`. -/
def constructPrivateKey (E : Ext) (data : Bytes) (c : Curve) : ECPriv :=
  let D := natOfBytes data
  let q := E.baseMult c D
  { D := D, pub := { curve := c, x := q.1, y := q.2 } }

/-- keypair/key.go:177-209 `SerializePublicKey`. -/
def serializePublicKey (E : Ext) : PublicKey → Res Bytes
  | .ec alg pub =>
    if alg = .ecdsa ∧ pub.curve.name = Curves.p256.name then encodePublicKey (some pub) true
    else
      let pre : Bytes := match alg with
        | .ecdsa => [PK_ECDSA]
        | .sm2 => [PK_SM2]
        | .other _ => []
      match getCurveLabel E pub.curve with
      | .ok label => (encodePublicKey (some pub) true).map fun e => pre ++ [label] ++ e
      | .err m => .panic m
      | .panic m => .panic m
  | .ed b => .ok ([PK_EDDSA, ED25519] ++ b)
  | .eth pub => .ok (PK_ETHECDSA :: fromECDSAPub pub)
  | .unknown => .panic "unknown public key type"

/-- keypair/key.go:212-273 `DeserializePublicKey`. `none`: the random draws for the square root ran out. -/
def deserializePublicKey (E : Ext) (data : Bytes) (draws : List Nat) : Option (Res PublicKey) :=
  if data.length ≤ 3 then some (.err "too short pubkey")
  else
    let t := data.getD 0 0
    if t = PK_ECDSA ∨ t = PK_SM2 then
      match getCurve E (data.getD 1 0) with
      | .ok c => (decodePublicKey E.k1name (data.drop 2) (some c) draws).map fun r =>
          r.map fun pub => .ec (if t = PK_ECDSA then .ecdsa else .sm2) pub
      | .err m => some (.err m)
      | .panic m => some (.panic m)
    else if t = PK_EDDSA then
      if data.getD 1 0 = ED25519 then
        if (data.drop 2).length ≠ 32 then
          some (.err "deserializing public key failed: invalid length for Ed25519 public key")
        else some (.ok (.ed (data.drop 2)))
      else some (.err "deserializing public key failed: unsupported EdDSA scheme")
    else if t = PK_P256_E ∨ t = PK_P256_O ∨ t = PK_P256_NC then
      (decodePublicKey E.k1name data (some Curves.p256) draws).map fun
        | .ok pub => .ok (.ec .ecdsa pub)
        | .err _ => .err "deserializing public key failed: decode P-256 public key error"
        | .panic m => .panic m
    else if t = PK_ETHECDSA then
      some ((unmarshalPubkey E (data.drop 1)).map .eth)
    else some (.err "deserializing public key failed: unrecognized algorithm label")

/-- keypair/key.go:297-331 `SerializePrivateKey`. -/
def serializePrivateKey (E : Ext) : PrivateKey → Res Bytes
  | .ec alg priv =>
    let pre : Bytes := match alg with
      | .ecdsa => [PK_ECDSA]
      | .sm2 => [PK_SM2]
      | .other _ => []
    match getCurveLabel E priv.pub.curve with
    | .ok label =>
      let size := priv.pub.curve.byteSize
      let dBytes := bytesOfNat priv.D
      (encodePublicKey (some priv.pub) true).map fun e =>
        pre ++ [label] ++ zeros (size - dBytes.length) ++ dBytes ++ e
    | .err m => .panic m
    | .panic m => .panic m
  | .ed b => .ok ([PK_EDDSA, ED25519] ++ b)
  | .eth priv => .ok (PK_ETHECDSA :: fromECDSA priv)
  | .unknown => .panic "unkown private key type"

/-- keypair/key.go:334-393 `DeserializePrivateKey`. `.ok none` is the return value `(nil, nil)`. The bytes
of an Ed25519 key are those of the input (Go shares the memory; see Model/KeyHeap.lean). -/
def deserializePrivateKey (E : Ext) (data : Bytes) (draws : List Nat) : Option (Res (Option PrivateKey)) :=
  match data with
  | [] => some (.panic "index out of range")
  | t :: rest =>
    if t = PK_ECDSA ∨ t = PK_SM2 then
      match rest with
      | [] => some (.panic "index out of range")
      | label :: body =>
        match getCurve E label with
        | .err m => some (.err m)
        | .panic m => some (.panic m)
        | .ok c =>
          let size := c.byteSize
          if data.length < size * 2 + 3 then
            some (.err "deserializing private key failed: not enough length")
          else
            let key := constructPrivateKey E (body.take size) c
            (decodePublicKey E.k1name (body.drop size) (some c) draws).map fun
              | .err m => .err ("deserializing private key failed: " ++ m)
              | .panic m => .panic m
              | .ok p =>
                if key.pub.x ≠ p.x ∨ key.pub.y ≠ p.y then
                  .err "deserializing private key failed: unmatched private and public key"
                else .ok (some (.ec (if t = PK_ECDSA then .ecdsa else .sm2) key))
    else if t = PK_EDDSA then
      match rest with
      | [] => some (.panic "index out of range")
      | label :: body =>
        if label = ED25519 then
          if data.length < 2 + 64 then
            some (.err "deserializing private key failed: not enough length for Ed25519 key")
          else some (.ok (some (.ed body)))
        else some (.err "deserializing private key failed: unknown EdDSA curve type")
    else if t = PK_ETHECDSA then
      some ((toECDSA E rest).map fun p => some (.eth p))
    else some (.ok none)

/-! ## Comparison, search, order -/

/-- keypair/key.go:396-420 `ComparePublicKey`. (`PublicKey.Equal` compares coordinates and curve object.) -/
def comparePublicKey : PublicKey → PublicKey → Bool
  | .ec a0 k0, .ec a1 k1 =>
    decide (a0 = a1) && decide (k0.curve.name = k1.curve.name) && decide (k0.x = k1.x)
  | .ed b0, .ed b1 => decide (b0 = b1)
  | .eth k0, .eth k1 =>
    decide (k0.x = k1.x) && decide (k0.y = k1.y) && decide (k0.curve = k1.curve)
  | _, _ => false

/-- keypair/publist.go:110-117 `FindKey`, `i` counting from the index of the head of the list. -/
def findKeyFrom (i : Nat) : List PublicKey → PublicKey → Int
  | [], _ => -1
  | v :: rest, key => if comparePublicKey v key then i else findKeyFrom (i + 1) rest key

/-- keypair/publist.go:110-117 -/
def findKey (list : List PublicKey) (key : PublicKey) : Int := findKeyFrom 0 list key

/-- keypair/publist.go:84: `bytes.Compare(a, b) < 0`: lexicographic order. -/
def bytesLt : Bytes → Bytes → Bool
  | [], [] => false
  | [], _ :: _ => true
  | _ :: _, [] => false
  | a :: as, b :: bs => if a = b then bytesLt as bs else decide (a.toNat < b.toNat)

/-- keypair/publist.go:52-102 `Less` on two keys. -/
def less (E : Ext) (a b : PublicKey) : Res Bool :=
  match getKeyType a with
  | .err m => .err m
  | .panic m => .panic m
  | .ok ta =>
    match getKeyType b with
    | .err m => .err m
    | .panic m => .panic m
    | .ok tb =>
      if ta ≠ tb then .ok (decide (ta.toNat < tb.toNat))
      else
        match a, b with
        | .ec _ va, .ec _ vb =>
          match getCurveLabel E va.curve with
          | .err m => .panic m
          | .panic m => .panic m
          | .ok ca =>
            match getCurveLabel E vb.curve with
            | .err m => .panic m
            | .panic m => .panic m
            | .ok cb =>
              if ca ≠ cb then .ok (decide (ca.toNat < cb.toNat))
              else if va.x ≠ vb.x then .ok (decide (va.x < vb.x))
              else .ok (decide (va.y < vb.y))
        | .ed va, .ed vb => .ok (bytesLt va vb)
        | .eth va, .eth vb =>
          if va.x ≠ vb.x then .ok (decide (va.x < vb.x)) else .ok (decide (va.y < vb.y))
        | _, _ => .panic "error key type"

/-- keypair/publist.go:42: `sort.Sort` (package sort): external. Its contract is that for a strict weak order
it rearranges the elements so that no element is less than one before it. Nothing is promised about the order
of equal elements. -/
structure Sorter (α : Type) where
  run : (α → α → Bool) → List α → List α

/-- keypair/publist.go:42: the contract of `sort.Sort`. -/
def Sorter.Lawful {α : Type} (S : Sorter α) : Prop :=
  ∀ (lt : α → α → Bool) (l : List α),
    (∀ a ∈ l, lt a a = false) →
    (∀ a ∈ l, ∀ b ∈ l, ∀ c ∈ l, lt a b = true → lt b c = true → lt a c = true) →
    (∀ a ∈ l, ∀ b ∈ l, ∀ c ∈ l, lt a b = false → lt b c = false → lt a c = false) →
    (S.run lt l).Perm l ∧ (S.run lt l).Pairwise (fun a b => lt b a = false)

/-- keypair/publist.go:40-44 `SortPublicKeys` for lists on which `Less` does not panic (the caller's
slice is sorted in place and returned; here the resulting contents). -/
def sortPublicKeys (E : Ext) (S : Sorter PublicKey) (list : List PublicKey) : List PublicKey :=
  S.run (fun a b => match less E a b with | .ok r => r | _ => false) list

/-! ## Key generation -/

/-- crypto/elliptic `GenerateKey`: every read of `byteLen` bytes is masked to the bit length of `N`, its
second byte is changed, and it is retried while not below `N`. The reads are given as a list; `none`:
all used up. -/
def genScalar (c : Curve) : List Bytes → Option Nat
  | [] => none
  | b :: rest =>
    let bits := bitLen c.N
    let b := match b with
      | b0 :: b1 :: tl =>
        (if bits % 8 = 0 then b0 else b0 &&& BitVec.ofNat 8 (2 ^ (bits % 8) - 1)) :: (b1 ^^^ 0x42) :: tl
      | b => b
    let D := natOfBytes b
    if D ≥ c.N then genScalar c rest else some D

/-- ec/key.go:65-86 `GenerateECKeyPair` (a failing reader: Model/RandFail.lean). -/
def generateECKeyPair (E : Ext) (c : Curve) (alg : Alg) (reads : List Bytes) :
    Option (PrivateKey × PublicKey) :=
  (genScalar c reads).map fun D =>
    let q := E.baseMult c D
    let pub : ECPub := { curve := c, x := q.1, y := q.2 }
    (.ec alg { D := D, pub := pub }, .ec alg pub)

/-- ec/key.go:61-63 `Public` of an EC key. An Ethereum key (ec/key.go:53-55) has no such method of its own: the call
goes to the embedded `*ecdsa.PrivateKey` and returns an `*ecdsa.PublicKey`, which is none of the types of this library.
`Public` of golang.org/x/crypto/ed25519 copies what follows the first 32 bytes into a new slice of 32 bytes. -/
def publicMethod : PrivateKey → Res PublicKey
  | .ec alg priv => .ok (.ec alg priv.pub)
  | .ed b =>
    if b.length < 32 then .panic "slice bounds out of range"
    else .ok (.ed ((b.drop 32).take 32 ++ zeros (32 - (b.drop 32).length)))
  | .eth _ => .ok .unknown
  | .unknown => .ok .unknown

/-- keypair/key.go:144-151 `GetEthereumPubKey`. -/
def getEthereumPubKey : PublicKey → Res ECPub
  | .eth pub => .ok pub
  | _ => .err "pubkey is not ethereum publickey"

/-- keypair/key.go:446-451 `FromEthereumPrivateKey` (the key is not nil). -/
def fromEthereumPrivateKey (key : ECPriv) : PrivateKey × PublicKey := (.eth key, .eth key.pub)

/-- keypair/key.go:79: the dynamic type of the `opts` argument of `GenerateKeyPair`. -/
inductive Opts where
  | byte (b : Byte)
  | other
  deriving DecidableEq, Repr

/-- crypto/ecdsa `GenerateKey` (used for Ethereum keys): reads `bitLen N / 8 + 8` bytes and maps them to
`[1, N-1]` by `mod (N-1) + 1`. -/
def ethScalar (c : Curve) (read : Bytes) : Nat := natOfBytes read % (c.N - 1) + 1

/-- keypair/key.go:79-121 `GenerateKeyPair`; `reads` are the successive reads from the random source. -/
def generateKeyPair (E : Ext) (t : Byte) (opts : Opts) (reads : List Bytes) :
    Option (Res (PrivateKey × PublicKey)) :=
  if t = PK_ECDSA ∨ t = PK_SM2 then
    match opts with
    | .other => some (.err "key pair generation failed, invalid EC options, 1 byte curve label excepted")
    | .byte param =>
      match getCurve E param with
      | .err m => some (.err ("key pair generation failed, " ++ m))
      | .panic m => some (.panic m)
      | .ok c => (generateECKeyPair E c (if t = PK_ECDSA then .ecdsa else .sm2) reads).map .ok
  else if t = PK_EDDSA then
    match opts with
    | .other => some (.err "key pair generation failed, invalid EdDSA option")
    | .byte param =>
      if param = ED25519 then
        match reads with
        | [] => none
        | seed :: _ => some (.ok (.ed (seed ++ E.edPublic seed), .ed (E.edPublic seed)))
      else some (.err "key pair generation failed, unsupported EdDSA scheme")
  else if t = PK_ETHECDSA then
    match reads with
    | [] => none
    | b :: _ =>
      let c := ethCurve E
      let D := ethScalar c b
      let q := E.baseMult c D
      let pub : ECPub := { curve := c, x := q.1, y := q.2 }
      some (.ok (.eth { D := D, pub := pub }, .eth pub))
  else some (.err "key pair generation failed, unknown algorithm")

end Verif.Keypair
