import Verif.Model.KeyHeap
import Verif.Model.Protect
import Verif.Model.Signature
/-!
# Serializing and encrypting keys on the heap

The functions of Model/Keypair.lean, Model/Signature.lean and Model/Protect.lean that turn keys and signatures into byte
slices and back, once more with slices in place of byte strings, to tell which results share memory with the arguments.
An Ed25519 key is a slice; all other keys are made of big integers, whose `Bytes` and `SetBytes` copy.
-/
namespace Verif

/-- Go: a computation that uses the heap and may fail. -/
def HeapM (α : Type) := Heap → Res (Heap × α)

namespace HeapM

/-- Go: returning a value. -/
def pure {α : Type} (a : α) : HeapM α := fun h => .ok (h, a)

/-- Go: one computation after the other. -/
def bind {α β : Type} (p : HeapM α) (f : α → HeapM β) : HeapM β := fun h =>
  match p h with
  | .ok (h', a) => f a h'
  | .err m => .err m
  | .panic m => .panic m

/-- Go: sequencing. -/
instance : Monad HeapM where
  pure := HeapM.pure
  bind := HeapM.bind

/-- Go: the results of code without slices. -/
def lift {α : Type} (r : Res α) : HeapM α := fun h => r.map fun a => (h, a)

/-- Go: `make([]byte, n)` filled with `b`. -/
def new (b : Bytes) : HeapM Slice := fun h => .ok (h.alloc b)

/-- Go: the bytes of a slice. -/
def read (s : Slice) : HeapM Bytes := fun h => .ok (h, s.read h)

/-- Go: `copy(s[i:], b)` for `b` that fits. -/
def copy (s : Slice) (i : Nat) (b : Bytes) : HeapM Unit := fun h => .ok (h.store s.arr (s.off + i) b, ())

end HeapM

/-- bytes.Buffer: the zero value, a nil slice. -/
def Buffer.empty : Slice := ⟨0, 0, 0, 0⟩

/-- bytes.Buffer `Write` and `WriteByte`: into the spare capacity if the bytes fit, otherwise into a new array that is
`grow` bytes larger than needed. Go's rule for `grow` is left open. -/
def Buffer.write (grow : Nat → Nat) (b : Slice) (p : Bytes) : HeapM Slice := fun h =>
  if b.len + p.length ≤ b.cap then
    .ok (h.store b.arr (b.off + b.len) p, { b with len := b.len + p.length })
  else
    let r := h.alloc (b.read h ++ p ++ zeros (grow (b.len + p.length)))
    .ok (r.1, { r.2 with len := b.len + p.length })

namespace Keypair
open Verif.EC

/-- ec/key.go:88-110 `EncodePublicKey` for a key that is not nil. -/
def encodePublicKeyRef (key : ECPub) (compressed : Bool) : HeapM Slice := do
  let length := key.curve.byteSize
  let buf ← HeapM.new (zeros (length * 2 + 1))
  let x := bytesOfNat key.x
  if x.length > length + 1 then HeapM.lift (.panic "slice bounds out of range")
  else
    HeapM.copy buf (length + 1 - x.length) x
    if compressed then
      HeapM.copy buf 0 [if key.y.testBit 0 then 3 else 2]
      return buf.sub 0 (length + 1)
    else
      HeapM.copy buf 0 [4]
      let y := bytesOfNat key.y
      if y.length > length * 2 + 1 then HeapM.lift (.panic "slice bounds out of range")
      else
        HeapM.copy buf (length * 2 + 1 - y.length) y
        return buf

/-- keypair/key.go:181-190, 301-306: the type byte written for an algorithm; no byte for an unknown one. -/
def writeAlg (grow : Nat → Nat) (alg : Alg) (buf : Slice) : HeapM Slice :=
  match alg with
  | .ecdsa => Buffer.write grow buf [PK_ECDSA]
  | .sm2 => Buffer.write grow buf [PK_SM2]
  | .other _ => pure buf

/-- keypair/key.go:191-195, 307-311: the label of the curve, or a panic. -/
def writeLabel (E : Ext) (grow : Nat → Nat) (c : Curve) (buf : Slice) : HeapM Slice :=
  match getCurveLabel E c with
  | .ok label => Buffer.write grow buf [label]
  | .err m => HeapM.lift (.panic m)
  | .panic m => HeapM.lift (.panic m)

/-- keypair/key.go:177-209 `SerializePublicKey`. -/
def serializePublicKeyRef (E : Ext) (grow : Nat → Nat) : PubRef → HeapM Slice
  | .num (.ec alg pub) =>
    if alg = .ecdsa ∧ pub.curve.name = Curves.p256.name then encodePublicKeyRef pub true
    else do
      let buf ← writeAlg grow alg Buffer.empty
      let buf ← writeLabel E grow pub.curve buf
      let e ← encodePublicKeyRef pub true
      let b ← HeapM.read e
      Buffer.write grow buf b
  | .num (.ed b) => do
    let buf ← Buffer.write grow Buffer.empty [PK_EDDSA]
    let buf ← Buffer.write grow buf [ED25519]
    Buffer.write grow buf b
  | .ed s => do
    let buf ← Buffer.write grow Buffer.empty [PK_EDDSA]
    let buf ← Buffer.write grow buf [ED25519]
    let b ← HeapM.read s
    Buffer.write grow buf b
  | .num (.eth pub) => do
    let buf ← Buffer.write grow Buffer.empty [PK_ETHECDSA]
    Buffer.write grow buf (fromECDSAPub pub)
  | .num .unknown => HeapM.lift (.panic "unknown public key type")

/-- keypair/key.go:314-316: the loop that writes the leading zeros. -/
def writeZeros (grow : Nat → Nat) : Nat → Slice → HeapM Slice
  | 0, buf => pure buf
  | n + 1, buf => do
    let buf ← Buffer.write grow buf [0]
    writeZeros grow n buf

/-- keypair/key.go:297-331 `SerializePrivateKey`. The key is not nil. -/
def serializePrivateKeyRef (E : Ext) (grow : Nat → Nat) : PrivRef → HeapM Slice
  | .num (some (.ec alg priv)) => do
    let buf ← writeAlg grow alg Buffer.empty
    let buf ← writeLabel E grow priv.pub.curve buf
    let size := priv.pub.curve.byteSize
    let dBytes ← HeapM.new (bytesOfNat priv.D)
    let buf ← writeZeros grow (size - dBytes.len) buf
    let d ← HeapM.read dBytes
    let buf ← Buffer.write grow buf d
    let e ← encodePublicKeyRef priv.pub true
    let b ← HeapM.read e
    Buffer.write grow buf b
  | .num (some (.ed b)) => do
    let buf ← Buffer.write grow Buffer.empty [PK_EDDSA]
    let buf ← Buffer.write grow buf [ED25519]
    Buffer.write grow buf b
  | .ed s => do
    let buf ← Buffer.write grow Buffer.empty [PK_EDDSA]
    let buf ← Buffer.write grow buf [ED25519]
    let b ← HeapM.read s
    Buffer.write grow buf b
  | .num (some (.eth priv)) => do
    let buf ← Buffer.write grow Buffer.empty [PK_ETHECDSA]
    Buffer.write grow buf (fromECDSA priv)
  | .num (some .unknown) => HeapM.lift (.panic "unkown private key type")
  | .num none => HeapM.lift (.panic "unkown private key type")

/-- keypair/encrypt.go:35-43 `ProtectedKey` with its slices. -/
structure ProtRef where
  address : Bytes
  encAlg : String
  key : Slice
  alg : String
  salt : Slice
  curve : String

/-- keypair/encrypt.go:35-43: what a reader of the heap sees. -/
def ProtRef.read (h : Heap) (p : ProtRef) : ProtectedKey :=
  ⟨p.address, p.encAlg, p.key.read h, p.alg, p.salt.read h, p.curve⟩

/-- keypair/encrypt.go:92-113: the bytes to be encrypted. An Ed25519 key is not copied; the bytes of a number are
new. -/
def plaintextRef : PrivRef → HeapM (Slice × String × String)
  | .num (some (.ec .ecdsa t)) => do return (← HeapM.new (bytesOfNat t.D), "ECDSA", t.pub.curve.name)
  | .num (some (.ec .sm2 t)) => do return (← HeapM.new (bytesOfNat t.D), "SM2", t.pub.curve.name)
  | .num (some (.ec (.other _) _)) => HeapM.lift (.panic "unsupported ec algorithm")
  | .num (some (.ed b)) => do return (← HeapM.new b, "Ed25519", "")
  | .ed s => pure (s, "Ed25519", "")
  | .num (some (.eth _)) => HeapM.lift (.panic "unsupported key type")
  | .num (some .unknown) => HeapM.lift (.panic "unsupported key type")
  | .num none => HeapM.lift (.panic "unsupported key type")

/-- keypair/encrypt.go:221-230 `kdf`: `scrypt.Key` returns a new slice. -/
def kdfRef (X : ProtExt) (pwd : Bytes) (salt : Slice) (param : ScryptParam) : HeapM Slice := do
  let dkey ← HeapM.lift (kdf X pwd (← HeapM.read salt) param)
  HeapM.new dkey

/-- keypair/encrypt.go:73-122 `EncryptWithCustomScrypt`; `salt` is what the random source returned. `nonce` and `ekey`
are parts of the derived key, and `Seal` with a nil first argument returns a new slice. -/
def encryptRef (X : ProtExt) (pri : PrivRef) (addr pwd : Bytes) (param : ScryptParam) (salt : Res Bytes) :
    HeapM ProtRef := do
  let salt ← HeapM.new (← HeapM.lift salt)
  let dkey ← kdfRef X pwd salt param
  if dkey.len < 32 then HeapM.lift (.panic "slice bounds out of range")
  else
    let nonce := dkey.sub 0 12
    let ekey := dkey.sub (dkey.len - 32) dkey.len
    let p ← plaintextRef pri
    let ekey ← HeapM.read ekey
    if aesKeyOk ekey then
      let key ← HeapM.new (X.gcmSeal ekey (← HeapM.read nonce) (← HeapM.read p.1) addr)
      return { address := addr, encAlg := "aes-256-gcm", key := key, alg := p.2.1, salt := salt, curve := p.2.2 }
    else HeapM.lift (.err "invalid key size")

/-- keypair/encrypt.go:124-162: the plaintext, in a new slice (`Open` with a nil first argument; `ctrCipher` makes
one). -/
def decryptBodyRef (X : ProtExt) (prot : ProtRef) (pwd : Bytes) (param : ScryptParam) : HeapM Slice :=
  if prot.encAlg = "aes-256-gcm" then do
    let dkey ← kdfRef X pwd prot.salt param
    if dkey.len < 32 then HeapM.lift (.panic "slice bounds out of range")
    else
      let ekey ← HeapM.read (dkey.sub (dkey.len - 32) dkey.len)
      let nonce ← HeapM.read (dkey.sub 0 12)
      if aesKeyOk ekey then
        match X.gcmOpen ekey nonce (← HeapM.read prot.key) prot.address with
        | none => HeapM.lift (.err "cipher: message authentication failed")
        | some p => HeapM.new p
      else HeapM.lift (.panic "nil pointer dereference")
  else if prot.encAlg = "aes-256-ctr" then do
    let salt ← HeapM.new (saltFromAddress X prot.address)
    let dkey ← kdfRef X pwd salt param
    if dkey.len < 32 then HeapM.lift (.panic "slice bounds out of range")
    else
      let iv ← HeapM.read (dkey.sub 0 16)
      let ekey ← HeapM.read (dkey.sub (dkey.len - 32) dkey.len)
      if aesKeyOk ekey then
        let data ← HeapM.read prot.key
        let ciphertext ← HeapM.new (zeros data.length)
        HeapM.copy ciphertext 0 (xorBytes data (X.ctrStream ekey iv data.length))
        return ciphertext
      else HeapM.lift (.err "invalid key size")
  else HeapM.lift (.err "unsupported encryption algorithm")

/-- keypair/encrypt.go:124-191 `DecryptWithCustomScrypt`. An Ed25519 key is the slice with the plaintext. -/
def decryptRef (E : Ext) (X : ProtExt) (prot : Option ProtRef) (pwd : Bytes) (param : ScryptParam) : HeapM PrivRef :=
  match prot with
  | none => HeapM.lift (.err "invalid argument")
  | some prot =>
    if pwd.length = 0 then HeapM.lift (.err "invalid argument")
    else do
      let plaintext ← decryptBodyRef X prot pwd param
      if prot.alg = "ECDSA" ∨ prot.alg = "SM2" then
        let curve ← HeapM.lift (getNamedCurve E prot.curve)
        return .num (some (.ec (if prot.alg = "ECDSA" then .ecdsa else .sm2)
          (constructPrivateKey E (← HeapM.read plaintext) curve)))
      else if prot.alg = "Ed25519" then
        if plaintext.len ≠ 64 then HeapM.lift (.err "invalid Ed25519 private key length")
        else return .ed plaintext
      else HeapM.lift (.err "unknown key type")

/-- keypair/encrypt.go:196-203 `ReencryptPrivateKey`. -/
def reencryptRef (E : Ext) (X : ProtExt) (prot : Option ProtRef) (oldPwd newPwd : Bytes)
    (oldParam newParam : ScryptParam) (salt : Res Bytes) : HeapM ProtRef := do
  let pri ← decryptRef E X prot oldPwd oldParam
  match prot with
  | none => HeapM.lift (.panic "nil pointer dereference")
  | some p => encryptRef X pri p.address newPwd newParam salt

end Keypair

namespace Signature

/-- signature/signature.go:350-363 `serializeDSA`. -/
def serializeDSARef (r s : Int) (curve : Option Curve) : HeapM Slice :=
  match curve with
  | none => HeapM.lift (.panic "nil pointer dereference")
  | some c => do
    let size := (c.bitSize + 7) / 8
    let res ← HeapM.new (zeros (size * 2))
    let rb := bytesOfNat r.natAbs
    let sb := bytesOfNat s.natAbs
    if rb.length > size then HeapM.lift (.panic "slice bounds out of range")
    else
      HeapM.copy res (size - rb.length) rb
      if sb.length > size * 2 then HeapM.lift (.panic "slice bounds out of range")
      else
        HeapM.copy res (size * 2 - sb.length) sb
        return res

/-- signature/signature.go:252-278: the switch of `Serialize`. -/
def serializeValueRef (grow : Nat → Nat) (scheme : Scheme) (buf : Slice) : Value Slice → HeapM Slice
  | .dsa r s c =>
    if !isECDSA scheme then HeapM.lift (.err "failed serializing signature: unmatched signature scheme and value")
    else do
      let b ← serializeDSARef r s c
      let p ← HeapM.read b
      Buffer.write grow buf p
  | .sm2 r s c id =>
    if scheme ≠ SM3withSM2 then
      HeapM.lift (.err "failed serializing signature: unmatched signature scheme and value")
    else do
      let buf ← Buffer.write grow buf id
      let buf ← Buffer.write grow buf [0]
      let b ← serializeDSARef r s c
      let p ← HeapM.read b
      Buffer.write grow buf p
  | .bytes b => do
    let p ← HeapM.read b
    Buffer.write grow buf p
  | .other => HeapM.lift (.err "failed serializing signature: unrecognized signature type")

/-- signature/signature.go:245-289 `Serialize`. -/
def serializeRef (grow : Nat → Nat) (sig : Option (Sig Slice)) : HeapM Slice :=
  match sig with
  | none => HeapM.lift (.err "failed serializing signature: input is nil")
  | some sig => do
    let buf ← Buffer.write grow Buffer.empty [sig.scheme]
    let res ← serializeValueRef grow sig.scheme buf sig.value
    if sig.scheme = SHA256withECDSA ∧ res.len = 65 then return res.sub 1 res.len else return res

end Signature
end Verif
