import Verif.Model.Keypair
import Verif.Base.BlockCipher
/-!
# Model of keypair/encrypt.go: password-protected private keys

scrypt, AES-GCM, the AES-CTR keystream and SHA-256 are external (`ProtExt`). Go strings that are only
copied or hashed (the address) are byte strings; those that are compared with constants are `String`.
-/
namespace Verif.Keypair
open Verif.EC

/-- keypair/encrypt.go:46-51 `ScryptParam` -/
structure ScryptParam where
  P : Int
  N : Int
  R : Int
  DKLen : Int
  deriving DecidableEq, Repr

/-- keypair/encrypt.go:53-58 and 257-264 `GetScryptParameters` -/
def getScryptParameters : ScryptParam := { N := 16384, R := 8, P := 8, DKLen := 64 }

/-- keypair/encrypt.go:35-43 `ProtectedKey`; `curve` is `Param["curve"]` (the empty string if absent, as a
map lookup yields). `Hash` is never used. -/
structure ProtectedKey where
  address : Bytes
  encAlg : String
  key : Bytes
  alg : String
  salt : Bytes
  curve : String
  deriving DecidableEq, Repr

/-- External code: `scrypt.Key`, AES-GCM `Seal`/`Open` (key, nonce, text, additional data), the AES-CTR
keystream (key, iv, length), `sha256.Sum256`. -/
structure ProtExt where
  scrypt : Bytes → Bytes → Int → Int → Int → Int → Res Bytes
  gcmSeal : Bytes → Bytes → Bytes → Bytes → Bytes
  gcmOpen : Bytes → Bytes → Bytes → Bytes → Option Bytes
  ctrStream : Bytes → Bytes → Nat → Bytes
  sha256 : Bytes → Bytes

/-- keypair/encrypt.go:82-121, 140-160, 214-255 (external calls): laws of the external code. GCM is
deterministic and `Open` recomputes the tag, so it accepts exactly what `Seal` produces. -/
structure ProtExt.Lawful (X : ProtExt) : Prop where
  scrypt_length : ∀ pwd salt N R P L d, X.scrypt pwd salt N R P L = .ok d → (d.length : Int) = L
  gcm_open_iff : ∀ k n c a p, X.gcmOpen k n c a = some p ↔ c = X.gcmSeal k n p a
  ctr_length : ∀ k iv n, (X.ctrStream k iv n).length = n

/-- keypair/encrypt.go:221-230 `kdf` -/
def kdf (X : ProtExt) (pwd salt : Bytes) (param : ScryptParam) : Res Bytes :=
  if param.DKLen < 32 then .err "derived key length too short"
  else X.scrypt pwd salt param.N param.R param.P param.DKLen

/-- crypto/aes key sizes. -/
def aesKeyOk (k : Bytes) : Bool := k.length = 16 || k.length = 24 || k.length = 32

/-- keypair/encrypt.go:90, 140, 158: `dkey[len(dkey)-32:]` -/
def ekeyOf (dkey : Bytes) : Bytes := dkey.drop (dkey.length - 32)

/-- keypair/encrypt.go:73-122 `EncryptWithCustomScrypt`; `salt` is what `randomBytes(16)` returned.
A nil `param` (nil dereference) is not modelled. -/
def encryptWithCustomScrypt (X : ProtExt) (pri : PrivateKey) (addr pwd : Bytes) (param : ScryptParam)
    (salt : Res Bytes) : Res ProtectedKey :=
  match salt with
  | .err m => .err m
  | .panic m => .panic m
  | .ok salt =>
    match kdf X pwd salt param with
    | .err m => .err m
    | .panic m => .panic m
    | .ok dkey =>
      if dkey.length < 32 then .panic "slice bounds out of range"
      else
        let nonce := dkey.take 12
        let ekey := ekeyOf dkey
        let body : Res (Bytes × String × String) :=
          match pri with
          | .ec .ecdsa t => .ok (bytesOfNat t.D, "ECDSA", t.pub.curve.name)
          | .ec .sm2 t => .ok (bytesOfNat t.D, "SM2", t.pub.curve.name)
          | .ec (.other _) _ => .panic "unsupported ec algorithm"
          | .ed b => .ok (b, "Ed25519", "")
          | .eth _ => .panic "unsupported key type"
          | .unknown => .panic "unsupported key type"
        match body with
        | .err m => .err m
        | .panic m => .panic m
        | .ok (plaintext, alg, curve) =>
          if aesKeyOk ekey then
            .ok { address := addr, encAlg := "aes-256-gcm", key := X.gcmSeal ekey nonce plaintext addr,
                  alg := alg, salt := salt, curve := curve }
          else .err "invalid key size"

/-- keypair/encrypt.go:64-66 `EncryptPrivateKey` -/
def encryptPrivateKey (X : ProtExt) (pri : PrivateKey) (addr pwd : Bytes) (salt : Res Bytes) : Res ProtectedKey :=
  encryptWithCustomScrypt X pri addr pwd getScryptParameters salt

/-- keypair/encrypt.go:214-219 `saltFromAddress` -/
def saltFromAddress (X : ProtExt) (addr : Bytes) : Bytes := (X.sha256 (X.sha256 addr)).take 4

/-- keypair/encrypt.go:124-162: the first switch of `DecryptWithCustomScrypt`, recovering the plaintext.
In the GCM case the error of `gcmCipher` is overwritten, so a bad key size would be a nil dereference. -/
def decryptBody (X : ProtExt) (prot : ProtectedKey) (pwd : Bytes) (param : ScryptParam) : Res Bytes :=
  if prot.encAlg = "aes-256-gcm" then
    match kdf X pwd prot.salt param with
    | .err m => .err m
    | .panic m => .panic m
    | .ok dkey =>
      if dkey.length < 32 then .panic "slice bounds out of range"
      else
        let ekey := ekeyOf dkey
        let nonce := dkey.take 12
        if aesKeyOk ekey then
          match X.gcmOpen ekey nonce prot.key prot.address with
          | none => .err "cipher: message authentication failed"
          | some p => .ok p
        else .panic "nil pointer dereference"
  else if prot.encAlg = "aes-256-ctr" then
    match kdf X pwd (saltFromAddress X prot.address) param with
    | .err m => .err m
    | .panic m => .panic m
    | .ok dkey =>
      if dkey.length < 32 then .panic "slice bounds out of range"
      else
        let iv := dkey.take 16
        let ekey := ekeyOf dkey
        if aesKeyOk ekey then
          .ok (xorBytes prot.key (X.ctrStream ekey iv prot.key.length))
        else .err "invalid key size"
  else .err "unsupported encryption algorithm"

/-- keypair/encrypt.go:164-190: the second switch of `DecryptWithCustomScrypt`, building the key. -/
def decodeBody (E : Ext) (prot : ProtectedKey) (plaintext : Bytes) : Res PrivateKey :=
  if prot.alg = "ECDSA" ∨ prot.alg = "SM2" then
    match getNamedCurve E prot.curve with
    | .err m => .err m
    | .panic m => .panic m
    | .ok curve =>
      .ok (.ec (if prot.alg = "ECDSA" then .ecdsa else .sm2) (constructPrivateKey E plaintext curve))
  else if prot.alg = "Ed25519" then
    if plaintext.length ≠ 64 then .err "invalid Ed25519 private key length" else .ok (.ed plaintext)
  else .err "unknown key type"

/-- keypair/encrypt.go:124-191 `DecryptWithCustomScrypt`; `none` is a nil `prot`. -/
def decryptWithCustomScrypt (E : Ext) (X : ProtExt) (prot : Option ProtectedKey) (pwd : Bytes)
    (param : ScryptParam) : Res PrivateKey :=
  match prot with
  | none => .err "invalid argument"
  | some prot =>
    if pwd.length = 0 then .err "invalid argument"
    else (decryptBody X prot pwd param).bind (decodeBody E prot)

/-- keypair/encrypt.go:69-71 `DecryptPrivateKey` -/
def decryptPrivateKey (E : Ext) (X : ProtExt) (prot : Option ProtectedKey) (pwd : Bytes) : Res PrivateKey :=
  decryptWithCustomScrypt E X prot pwd getScryptParameters

/-- keypair/encrypt.go:196-203 `ReencryptPrivateKey` -/
def reencryptPrivateKey (E : Ext) (X : ProtExt) (prot : Option ProtectedKey) (oldPwd newPwd : Bytes)
    (oldParam newParam : ScryptParam) (salt : Res Bytes) : Res ProtectedKey :=
  match decryptWithCustomScrypt E X prot oldPwd oldParam with
  | .err m => .err m
  | .panic m => .panic m
  | .ok pri =>
    match prot with
    | none => .panic "nil pointer dereference"
    | some p => encryptWithCustomScrypt X pri p.address newPwd newParam salt

end Verif.Keypair
