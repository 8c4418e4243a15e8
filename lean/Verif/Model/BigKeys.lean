import Verif.Model.BigProg
import Verif.Model.Keypair
import Verif.Model.Signature
/-!
# Making, encoding and comparing keys as programs on number objects
-/
namespace Verif.Big

open Verif.Keypair (getCurveLabel PK_ECDSA PK_SM2)

/-- ec/key.go:88-110 `EncodePublicKey` for a key that is not nil. -/
def encodePublicKey (key : PubObj) (compressed : Bool) : Prog (Res Bytes) := do
  let length := key.curve.c.byteSize
  let buf := zeros (length * 2 + 1)
  let xv ← read key.X
  let x := bytesOfNat xv.natAbs
  if x.length > length + 1 then return .panic "slice bounds out of range"
  else do
    let buf := splice buf (length + 1 - x.length) x
    let yv ← read key.Y
    if compressed then
      return .ok ((splice buf 0 [if yv.toNat.testBit 0 then 3 else 2]).take (length + 1))
    else do
      let buf := splice buf 0 [4]
      let y := bytesOfNat yv.natAbs
      if y.length > length * 2 + 1 then return .panic "slice bounds out of range"
      else return .ok (splice buf (length * 2 + 1 - y.length) y)

/-- keypair/key.go:182-189, 301-306: the first byte. -/
def algByte : Keypair.Alg → Bytes
  | .ecdsa => [PK_ECDSA]
  | .sm2 => [PK_SM2]
  | .other _ => []

/-- keypair/key.go:177-209 `SerializePublicKey` for an `*ec.PublicKey`. -/
def serializePublicKey (E : Keypair.Ext) (alg : Keypair.Alg) (pub : PubObj) : Prog (Res Bytes) :=
  if alg = .ecdsa ∧ pub.curve.c.name = Curves.p256.name then encodePublicKey pub true
  else
    match getCurveLabel E pub.curve.c with
    | .ok label => do
      let e ← encodePublicKey pub true
      return e.map fun e => algByte alg ++ [label] ++ e
    | .err m => return .panic m
    | .panic m => return .panic m

/-- keypair/key.go:297-331 `SerializePrivateKey` for an `*ec.PrivateKey`. -/
def serializePrivateKey (E : Keypair.Ext) (alg : Keypair.Alg) (priv : PrivObj) : Prog (Res Bytes) :=
  match getCurveLabel E priv.pub.curve.c with
  | .ok label => do
    let size := priv.pub.curve.c.byteSize
    let d ← read priv.D
    let dBytes := bytesOfNat d.natAbs
    let e ← encodePublicKey priv.pub true
    return e.map fun e => algByte alg ++ [label] ++ zeros (size - dBytes.length) ++ dBytes ++ e
  | .err m => return .panic m
  | .panic m => return .panic m

/-- keypair/key.go:396-420 `ComparePublicKey` for two `*ec.PublicKey`: the numbers are compared if the rest is the same. -/
def comparePublicKey (a0 a1 : Keypair.Alg) (k0 k1 : PubObj) : Prog Bool :=
  if a0 = a1 ∧ k0.curve.c.name = k1.curve.c.name then do
    let x0 ← read k0.X
    let x1 ← read k1.X
    return decide (x0 = x1)
  else return false

/-- ec/key.go:146-158 `ConstructPrivateKey`. -/
def constructPrivateKey (E : Keypair.Ext) (data : Bytes) (o : CurveObj) : Prog PrivObj := do
  let d ← newInt (natOfBytes data)
  let q ← newPair (E.baseMult o.c (natOfBytes data))
  return ⟨d, o, q.1, q.2⟩

/-- ec/key.go:65-86 `GenerateECKeyPair`: both results point to the same `ecdsa.PublicKey` (lines 73, 83). The numbers
that `elliptic.GenerateKey` computes with are its own, except that it reads `N`. `none`: the random bytes are used up. -/
def generateECKeyPair (E : Keypair.Ext) (o : CurveObj) (reads : List Bytes) : Prog (Option (PrivObj × PubObj)) := do
  let n ← read o.N
  match Keypair.genScalar { o.c with N := n.toNat } reads with
  | none => return none
  | some D => do
    let q ← newPair (E.baseMult o.c D)
    let d ← newInt D
    let pub : PubObj := ⟨o, q.1, q.2⟩
    return some (⟨d, pub⟩, pub)

/-- ec/key.go:61-63 `Public`: the public key in the private key itself. -/
def publicMethod (priv : PrivObj) : Prog PubObj := return priv.pub

/-- signature/signature.go:42-45 `*DSASignature`. -/
structure DsaObj where
  (R S : Ref)
  curve : Option Curve

/-- signature/signature.go:350-363 `serializeDSA`; the curve's size is a constant. -/
def serializeDSA (v : DsaObj) : Prog (Res Bytes) := do
  let r ← read v.R
  let s ← read v.S
  return Signature.serializeDSA r s v.curve

/-- signature/signature.go:245-289 `Serialize` for a `*DSASignature` (`id = none`) or `*SM2Signature`. -/
def serializeSig (scheme : Signature.Scheme) (id : Option Bytes) (v : DsaObj) : Prog (Res Bytes) :=
  let finish (r : Res Bytes) : Res Bytes :=
    r.map fun res => if scheme = Signature.SHA256withECDSA ∧ res.length = 65 then res.drop 1 else res
  match id with
  | none =>
    if !Signature.isECDSA scheme then return .err "failed serializing signature: unmatched signature scheme and value"
    else do
      let b ← serializeDSA v
      return finish (b.map fun b => scheme :: b)
  | some id =>
    if scheme ≠ Signature.SM3withSM2 then
      return .err "failed serializing signature: unmatched signature scheme and value"
    else do
      let b ← serializeDSA v
      return finish (b.map fun b => scheme :: (id ++ 0 :: b))

end Verif.Big
