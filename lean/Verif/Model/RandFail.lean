import Verif.Model.VRF
import Verif.Model.Protect
/-!
# Calls whose random source fails

The functions that read `crypto/rand` once more, now with a source on which any read may fail. A history of
the source is the list of the outcomes of the successive reads: `some` of what was read, or `none` for an
error (of `io.ReadFull`, or of `rand.Prime`, which returns a nil number with it). A source may fail and
work again later. A computation that wants another read when the list has ended has the outcome `none`.
`sm2.Sign` and `sm2.Encrypt` read once; in Model/SM2.lean their source fails when its bytes run out.
-/
namespace Verif.RandFail
open Verif.Keypair

/-- keypair/key.go:47-52: a Go interface value: the nil interface; an interface that holds a nil pointer or a
nil slice of one of the key types (it compares unequal to nil); a key. -/
inductive Iface (α : Type) where
  | nil
  | typedNil
  | val (a : α)
  deriving DecidableEq, Repr

/-- keypair/key.go:79: the three results of `GenerateKeyPair`. -/
structure GenOut where
  pri : Iface PrivateKey
  pub : Iface PublicKey
  err : Option String
  deriving DecidableEq, Repr

/-- keypair/key.go:79-121: `return nil, nil, err` in `GenerateKeyPair` itself. -/
def GenOut.fail (m : String) : GenOut := ⟨.nil, .nil, some m⟩

/-- keypair/key.go:79-121: a key pair and a nil error. -/
def GenOut.keys (p : PrivateKey × PublicKey) : GenOut := ⟨.val p.1, .val p.2, none⟩

/-- `pri.Public()` (ec/key.go:61-63 reads `this.Algorithm`; ed25519 slices `priv[32:]`): a run-time panic
on the nil interface, on a nil pointer and on a nil slice. -/
def publicOf : Iface PrivateKey → Res PublicKey
  | .nil => .panic "nil pointer dereference"
  | .typedNil => .panic "nil pointer dereference"
  | .val k => Keypair.publicMethod k

/-- crypto/elliptic `GenerateKey`, as `genScalar`; it returns at the first failing read. -/
def genScalar (c : Curve) : List (Option Bytes) → Option (Res Nat)
  | [] => none
  | none :: _ => some (.err "read error")
  | some b :: rest =>
    match Keypair.genScalar c [b] with
    | some D => some (.ok D)
    | none => genScalar c rest

/-- ec/key.go:65-86 `GenerateECKeyPair` and its call at keypair/key.go:91-95. On a failing read it returns
`nil, nil, err`, with nil pointers; `GenerateKeyPair` turns these into interface values. -/
def generateECKeyPair (E : Ext) (c : Curve) (alg : Alg) (reads : List (Option Bytes)) : Option GenOut :=
  (genScalar c reads).map fun
    | .err m => ⟨.typedNil, .typedNil, some ("Generate ec key pair failed, " ++ m)⟩
    | .panic m => .fail m
    | .ok D =>
      let q := E.baseMult c D
      let pub : ECPub := { curve := c, x := q.1, y := q.2 }
      .keys (.ec alg { D := D, pub := pub }, .ec alg pub)

/-- keypair/key.go:79-121 `GenerateKeyPair`. `ed25519.GenerateKey` (line 104) returns nil slices with its
error. -/
def generateKeyPair (E : Ext) (t : Byte) (opts : Opts) (reads : List (Option Bytes)) : Option GenOut :=
  if t = PK_ECDSA ∨ t = PK_SM2 then
    match opts with
    | .other => some (.fail "key pair generation failed, invalid EC options, 1 byte curve label excepted")
    | .byte param =>
      match getCurve E param with
      | .err m => some (.fail ("key pair generation failed, " ++ m))
      | .panic m => some (.fail m)
      | .ok c => generateECKeyPair E c (if t = PK_ECDSA then .ecdsa else .sm2) reads
  else if t = PK_EDDSA then
    match opts with
    | .other => some (.fail "key pair generation failed, invalid EdDSA option")
    | .byte param =>
      if param = ED25519 then
        match reads with
        | [] => none
        | none :: _ => some ⟨.typedNil, .typedNil, some "read error"⟩
        | some seed :: _ => some (.keys (.ed (seed ++ E.edPublic seed), .ed (E.edPublic seed)))
      else some (.fail "key pair generation failed, unsupported EdDSA scheme")
  else if t = PK_ETHECDSA then
    match reads with
    | [] => none
    | none :: _ => some (.fail "read error")
    | some b :: _ =>
      let c := ethCurve E
      let D := ethScalar c b
      let q := E.baseMult c D
      let pub : ECPub := { curve := c, x := q.1, y := q.2 }
      some (.keys (.eth { D := D, pub := pub }, .eth pub))
  else some (.fail "key pair generation failed, unknown algorithm")

/-! ## Parsing: the square root on P-224 draws random primes -/

/-- ec/decompress.go:176-208 with draws that may fail: line 180 drops the error of `rand.Prime` and line 182
calls a method on the nil number. -/
def lucasSearch (P : Nat) (Q fourQ : Int) (k : Nat) : List (Option Nat) → Option (Res (Option Int))
  | [] => none
  | none :: _ => some (.panic "nil pointer dereference")
  | some lp :: rest =>
    if EC.drawOk P fourQ lp then
      let (seqU, seqV) := EC.fastLucasSequence P lp Q k
      if (seqV * seqV) % P = fourQ then
        let seqV := if seqV % 2 = 1 then seqV + P else seqV
        some (.ok (some (seqV / 2)))
      else if seqU = 1 ∨ seqU = (P : Int) - 1 then some (.ok none)
      else lucasSearch P Q fourQ k rest
    else lucasSearch P Q fourQ k rest

/-- ec/decompress.go:132-210 `curveSqrt`; inner `none` is nil. -/
def curveSqrt (ySquare : Int) (P : Nat) (draws : List (Option Nat)) : Option (Res (Option Int)) :=
  if P.testBit 1 then some (.ok (EC.sqrt3mod4 ySquare P))
  else if EC.expMod ySquare ((P - 1) / 2) P ≠ 1 then some (.ok none)
  else lucasSearch P ySquare ((ySquare * 4) % P) ((P - 1) / 4 * 2 + 1) draws

/-- ec/decompress.go:213-250 `deCompress`. -/
def deCompress (k1name : String) (yTilde : Nat) (xValue : Bytes) (c : Curve) (draws : List (Option Nat)) :
    Option (Res ECPub) :=
  let xCoord := natOfBytes xValue
  (curveSqrt (EC.ySquareOf k1name c xCoord) c.P draws).map fun r => r.bind fun
    | none => .err "Invalid point compression"
    | some yValue =>
      let yValue := yValue.toNat
      let flip := (EC.isEven yValue && yTilde ≠ 0) || (!EC.isEven yValue && yTilde ≠ 1)
      .ok { curve := c, x := xCoord, y := if flip then c.P - yValue else yValue }

/-- ec/key.go:112-144 `DecodePublicKey`. -/
def decodePublicKey (k1name : String) (data : Bytes) (curve : Option Curve) (draws : List (Option Nat)) :
    Option (Res ECPub) :=
  match curve with
  | none => some (.err "unknown curve")
  | some curve =>
    let length := curve.byteSize
    if data.length < length + 1 then some (.err "invalid data length")
    else
      let x := natOfBytes ((data.drop 1).take length)
      let tag := data.getD 0 0
      if tag = 4 then
        if data.length < length * 2 + 1 then some (.err "invalid data length")
        else
          let y := natOfBytes ((data.drop (length + 1)).take length)
          some (.ok { curve := curve, x := x, y := y })
      else if tag = 2 ∨ tag = 3 then
        deCompress k1name (tag &&& 1).toNat ((data.drop 1).take length) curve draws
      else some (.err "unknown encoding mode")

/-- keypair/key.go:212-273 `DeserializePublicKey`. -/
def deserializePublicKey (E : Ext) (data : Bytes) (draws : List (Option Nat)) : Option (Res PublicKey) :=
  if data.length ≤ 3 then some (.err "too short pubkey")
  else
    let t := data.getD 0 0
    if t = PK_ECDSA ∨ t = PK_SM2 then
      match getCurve E (data.getD 1 0) with
      | .ok c => (decodePublicKey E.k1name (data.drop 2) (some c) draws).map fun r =>
          r.map fun pub => .ec (if t = PK_ECDSA then .ecdsa else .sm2) pub
      | .err m => some (.err m)
      | .panic m => some (.panic m)
    else if t = PK_EDDSA then
      if data.getD 1 0 = ED25519 then
        if (data.drop 2).length ≠ 32 then
          some (.err "deserializing public key failed: invalid length for Ed25519 public key")
        else some (.ok (.ed (data.drop 2)))
      else some (.err "deserializing public key failed: unsupported EdDSA scheme")
    else if t = PK_P256_E ∨ t = PK_P256_O ∨ t = PK_P256_NC then
      (decodePublicKey E.k1name data (some Curves.p256) draws).map fun
        | .ok pub => .ok (.ec .ecdsa pub)
        | .err _ => .err "deserializing public key failed: decode P-256 public key error"
        | .panic m => .panic m
    else if t = PK_ETHECDSA then
      some ((unmarshalPubkey E (data.drop 1)).map .eth)
    else some (.err "deserializing public key failed: unrecognized algorithm label")

/-! ## vrf -/

/-- vrf/vrf_ec.go:108-112: the nonce; `elliptic.GenerateKey` returns it as bytes, and only the number they
denote is used. -/
def nonceOf (c : Curve) : Res Nat → Res Bytes
  | .ok D => .ok (beFix c.byteSize D)
  | .err m => .err m
  | .panic m => .panic m

/-- vrf/vrf.go:40-57 `Vrf`: the source is read for the nonce only after the key and the hash have been
checked, and first of all the reads. (A failing draw of the square root, on P-224 only, is as in
`decodePublicKey` above; here the draws work.) -/
def vrf (E : VRF.Ext) (h : Heap) (pri : PrivateKey) (msg : Bytes) (reads : List (Option Bytes))
    (draws : Nat → List Nat) (fuel : Nat) (spare : Bytes) : Option (Res (Heap × Slice × Slice)) :=
  match pri with
  | .ec _ sk =>
    match VRF.getHash E sk.pub.curve with
    | none => some (.err "only support ECC key")
    | some _ =>
      match genScalar sk.pub.curve reads with
      | none => none
      | some nonce => VRF.vrf E h pri msg (nonceOf sk.pub.curve nonce) draws fuel spare
  | _ => some (.err "only support ECC key")

end Verif.RandFail
