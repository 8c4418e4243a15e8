import Verif.Model.Signature
/-!
# Signature values with missing parts

The fields of `Signature`, `DSASignature` and `SM2Signature` are exported pointers, so a caller can build values
in which they are nil. Model/Signature has no such values; here `Verify` and `Serialize` are written out once
more with them.
-/
namespace Verif.Signature
open Verif.Keypair

/-- signature/signature.go:42-45 `DSASignature`; `none` is nil. -/
structure DSAObj where
  R : Option Int
  S : Option Int
  curve : Option Curve
  deriving DecidableEq, Repr

/-- The dynamic type of `Signature.Value` (signature/signature.go:37-50), with pointers that may be nil. -/
inductive ValueP where
  | dsa (p : Option DSAObj)
  | sm2 (p : Option (DSAObj × Bytes))
  | bytes (b : Buf)
  | other
  deriving DecidableEq, Repr

/-- signature/signature.go:37-40 `Signature`. -/
structure SigP where
  scheme : Scheme
  value : ValueP
  deriving DecidableEq, Repr

/-- signature/signature.go:191: `ecdsa.Verify(key, digest, v.R, v.S)`, which starts with
`r.Sign() <= 0 || s.Sign() <= 0`; `Sign` on a nil number is a nil dereference. -/
def ecdsaVerifyP (E : Ext) (key : ECPub) (digest : Bytes) (R S : Option Int) : Res Bool :=
  match R, S with
  | none, _ => .panic "nil pointer dereference"
  | some r, none => if r ≤ 0 then .ok false else .panic "nil pointer dereference"
  | some r, some s => .ok (E.ecdsaVerify key digest r s)

/-- signature/signature.go:198 and sm2/signature.go:207-214: `sm2.Verify` with `r` and `s` that may be nil. -/
def sm2VerifyP (E : Ext) (hash : Bytes → Bytes) (key : ECPub) (id msg : Bytes) (R S : Option Int) : Res Bool :=
  match R, S with
  | none, _ => if key.curve.N = 0 then .ok false else .panic "nil pointer dereference"
  | some r, none =>
    if key.curve.N = 0 then .ok false
    else if r ≤ 0 ∨ r ≥ key.curve.N then .ok false
    else .panic "nil pointer dereference"
  | some r, some s => .ok (SM2.verify E.sm2 hash key id msg r s)

/-- signature/signature.go:172-230 `Verify`. The conversion `sig.Value.(*DSASignature)` succeeds for a nil
pointer; then `v.R` (line 191) or `v.ID` (line 198) is a nil dereference. -/
def verifyP (E : Ext) (pub : PublicKey) (msg : Bytes) (sig : SigP) : Res Bool :=
  if msg.length = 0 then .ok false
  else
    match hashOf sig.scheme with
    | none => .ok false
    | some h =>
      match pub with
      | .ec _ key =>
        if isECDSA sig.scheme then
          match sig.value with
          | .dsa none => .panic "nil pointer dereference"
          | .dsa (some o) => ecdsaVerifyP E key (E.hash h msg) o.R o.S
          | .bytes b => secp256k1Verify E key (E.hash h msg) b.data
          | _ => .ok false
        else if sig.scheme = SM3withSM2 then
          match sig.value with
          | .sm2 none => .panic "nil pointer dereference"
          | .sm2 (some (o, id)) => sm2VerifyP E (E.hash h) key id msg o.R o.S
          | _ => .ok false
        else .ok false
      | .ed key =>
        if sig.scheme = SHA512withEDDSA then
          match sig.value with
          | .bytes b => edVerify E key msg b.data
          | _ => .panic "interface conversion"
        else .ok false
      | .eth key =>
        if sig.scheme ≠ KECCAK256WithECDSA then .ok false
        else
          match sig.value with
          | .bytes b => verifyEth E key msg (.bytes b)
          | _ => .panic "interface conversion"
      | .unknown => .ok false

/-- signature/signature.go:350-363 `serializeDSA` on a struct with fields that may be nil. -/
def serializeDSAP (o : DSAObj) : Res Bytes :=
  match o.R, o.S with
  | some r, some s => serializeDSA r s o.curve
  | _, _ => .panic "serializeDSA: invalid argument"

/-- signature/signature.go:252-278: the switch of `Serialize`. A nil `*DSASignature` is passed to
`serializeDSA` (line 265), which panics; of a nil `*SM2Signature` the field `ID` is read (line 271). -/
def serializeValueP (sig : SigP) : Res Bytes :=
  match sig.value with
  | .dsa p =>
    if !isECDSA sig.scheme then .err "failed serializing signature: unmatched signature scheme and value"
    else
      match p with
      | none => .panic "serializeDSA: invalid argument"
      | some o => (serializeDSAP o).map fun b => sig.scheme :: b
  | .sm2 p =>
    if sig.scheme ≠ SM3withSM2 then
      .err "failed serializing signature: unmatched signature scheme and value"
    else
      match p with
      | none => .panic "nil pointer dereference"
      | some (o, id) => (serializeDSAP o).map fun b => sig.scheme :: (id ++ 0 :: b)
  | .bytes b => .ok (sig.scheme :: b.data)
  | .other => .err "failed serializing signature: unrecognized signature type"

/-- signature/signature.go:245-289 `Serialize` of a signature that is not nil. -/
def serializeP (sig : SigP) : Res Bytes :=
  (serializeValueP sig).map fun res =>
    if sig.scheme = SHA256withECDSA ∧ res.length = 65 then res.drop 1 else res

end Verif.Signature
