import Verif.Model.Signature
import Verif.Spec.ECDSA
import Verif.Spec.Curve
import Verif.Spec.Keys
/-!
# Specification: what the signature package assumes of external code, and its notions

The laws of the external parts are those of the published algorithms: ECDSA (SEC 1), key recovery for
compact signatures, low-S signatures of go-ethereum, Ed25519 correctness.
-/
namespace Verif.Signature
open Verif.Keypair Verif.Spec Verif.Spec.ECDSA

/-- The public part of the key is the multiple of the base point by the private scalar, which is not zero
modulo the order. -/
def PairOn (c : Curve) (a : Int) (priv : ECPriv) : Prop :=
  priv.pub.curve = c ∧ priv.D % c.N ≠ 0 ∧
  ∀ [Fact c.P.Prime] (G : Pt c a), xy G = (c.Gx, c.Gy) → (priv.pub.x, priv.pub.y) = xy (priv.D • G)

/-- A key pair on one of the supported curves. -/
def ECPair (k1name : String) (priv : ECPriv) : Prop :=
  priv.pub.curve ∈ Curves.all k1name ∧ PairOn priv.pub.curve (curveA k1name priv.pub.curve) priv

/-- A key pair on secp256k1 (whose curve object may carry any name). -/
def EthPair (priv : ECPriv) : Prop := ∃ nm, PairOn (Curves.secp256k1 nm) 0 priv

/-- The two numbers in 64 bytes. -/
def rOf (b : Bytes) : Nat := natOfBytes (b.take 32)
def sOf (b : Bytes) : Nat := natOfBytes ((b.drop 32).take 32)

/-- What is assumed of the external parts. -/
structure Ext.Lawful (E : Ext) : Prop where
  k1name : E.k1name = "" ∨ E.k1name = "secp256k1"
  sm2 : E.sm2.Lawful
  /-- `ecdsa.Sign` returns an ECDSA signature. -/
  ecdsa_sign : ∀ priv digest rand r s, ECPair E.k1name priv →
    E.ecdsaSign priv digest rand = .ok (r, s) →
    ∀ [Fact priv.pub.curve.P.Prime] (G : Pt priv.pub.curve (curveA E.k1name priv.pub.curve)),
    xy G = (priv.pub.curve.Gx, priv.pub.curve.Gy) →
    Signed G priv.D (bits2int priv.pub.curve.N digest) r s
  /-- `ecdsa.Verify` is ECDSA verification. -/
  ecdsa_verify : ∀ pub digest r s, pub.curve ∈ Curves.all E.k1name →
    ∀ [Fact pub.curve.P.Prime] (G Q : Pt pub.curve (curveA E.k1name pub.curve)),
    xy G = (pub.curve.Gx, pub.curve.Gy) → Q ≠ 0 → xy Q = (pub.x, pub.y) →
    (E.ecdsaVerify pub digest r s = true ↔ Accepts G Q (bits2int pub.curve.N digest) r s)
  /-- A compact signature has 65 bytes and the signer's key is recovered from it. -/
  compact : ∀ priv digest sig, EthPair priv → E.signCompact priv digest = .ok sig →
    sig.length = 65 ∧ E.recoverCompact sig digest = .ok (priv.pub.x, priv.pub.y)
  /-- A recovered key satisfies the ECDSA equation `r Q + e G = s R` with `x(R) = r`, all modulo `N`. -/
  compact_sound : ∀ sig digest x y, E.recoverCompact sig digest = .ok (x, y) →
    sig.length = 65 ∧
    ∀ [Fact (Curves.secp256k1 E.k1name).P.Prime] (G : Pt (Curves.secp256k1 E.k1name) 0),
    xy G = ((Curves.secp256k1 E.k1name).Gx, (Curves.secp256k1 E.k1name).Gy) →
    ∃ Q R : Pt (Curves.secp256k1 E.k1name) 0, xy Q = (x, y) ∧
      (xy R).1 % (Curves.secp256k1 E.k1name).N = rOf (sig.drop 1) % (Curves.secp256k1 E.k1name).N ∧
      rOf (sig.drop 1) • Q + bits2int (Curves.secp256k1 E.k1name).N digest • G = sOf (sig.drop 1) • R
  ed_public : ∀ seed, (E.edPublic seed).length = 32
  ed_sig : ∀ key msg, (E.edSig key msg).length = 64
  /-- Ed25519 correctness. -/
  ed : ∀ seed msg, seed.length = 32 →
    E.edCheck (E.edPublic seed) msg (E.edSig (seed ++ E.edPublic seed) msg) = true
  /-- go-ethereum signs 32-byte digests only; the result is `r ‖ s ‖ v` with low `s`. -/
  eth_sign : ∀ priv digest sig, EthPair priv → E.ethSign digest priv = .ok sig →
    digest.length = 32 ∧ sig.length = 65 ∧
    ∀ [Fact (Curves.secp256k1 "").P.Prime] (G : Pt (Curves.secp256k1 "") 0),
    xy G = ((Curves.secp256k1 "").Gx, (Curves.secp256k1 "").Gy) →
    Signed G priv.D (bits2int (Curves.secp256k1 "").N digest) (rOf sig) (sOf sig) ∧
      2 * sOf sig ≤ (Curves.secp256k1 "").N
  /-- go-ethereum verification of 64 bytes `r ‖ s` for a 32-byte digest is ECDSA verification with low
  `s`. -/
  eth_verify : ∀ (pub : ECPub) (digest sig : Bytes), digest.length = 32 → sig.length = 64 →
    ∀ [Fact (Curves.secp256k1 "").P.Prime] (G Q : Pt (Curves.secp256k1 "") 0),
    xy G = ((Curves.secp256k1 "").Gx, (Curves.secp256k1 "").Gy) → Q ≠ 0 → xy Q = (pub.x, pub.y) →
    (E.ethVerify (fromECDSAPub pub) digest sig = true ↔
      Accepts G Q (bits2int (Curves.secp256k1 "").N digest) (rOf sig) (sOf sig) ∧
        2 * sOf sig ≤ (Curves.secp256k1 "").N)

/-- A private key of one of the supported kinds that has a proper public key. -/
def ValidKey (E : Ext) : PrivateKey → Prop
  | .ec _ priv => ECPair E.k1name priv
  | .ed b => ∃ seed, seed.length = 32 ∧ b = seed ++ E.edPublic seed
  | .eth priv => EthPair priv
  | .unknown => False

/-- Which schemes go with which keys. -/
def Compatible : PublicKey → Scheme → Prop
  | .ec _ pub, s => s.toNat ≤ 8 ∨ (s = 9 ∧ pub.curve = Curves.sm2)
  | .ed _, s => s = 10
  | .eth _, s => s = 11
  | .unknown, _ => False

/-- The information in a signature that matters to a verifier: scheme, numbers, bytes, user id; not the
curve object and not the spare capacity. -/
def Sig.essence (s : Sig Buf) : Sig Bytes :=
  ⟨s.scheme, match s.value with
    | .dsa r t _ => .dsa r t none
    | .sm2 r t _ id => .sm2 r t none id
    | .bytes b => .bytes b.data
    | .other => .other⟩

/-- The published names of the hash functions. -/
def HashAlg.published : HashAlg → String
  | .sha224 => "SHA224"
  | .sha256 => "SHA256"
  | .sha384 => "SHA384"
  | .sha512 => "SHA512"
  | .sha3_224 => "SHA3-224"
  | .sha3_256 => "SHA3-256"
  | .sha3_384 => "SHA3-384"
  | .sha3_512 => "SHA3-512"
  | .ripemd160 => "RIPEMD160"
  | .sm3 => "SM3"
  | .keccak256 => "KECCAK256"

/-- The serialized form of a signature (comment at signature/signature.go:232-244, with the two special
cases: 64 bytes are a bare SHA256withECDSA signature, and 65 bytes of data under an ECDSA scheme are a
compact secp256k1 signature). -/
inductive Format : Sig Bytes → Bytes → Prop where
  | bare (rb sb : Bytes) (hr : rb.length = 32) (hs : sb.length = 32) :
      Format ⟨1, .dsa (natOfBytes rb) (natOfBytes sb) none⟩ (rb ++ sb)
  | dsa (sch : Scheme) (hsch : sch.toNat ≤ 8) (rb sb : Bytes) (h : rb.length = sb.length)
      (h0 : rb.length ≠ 0) :
      Format ⟨sch, .dsa (natOfBytes rb) (natOfBytes sb) none⟩ (sch :: (rb ++ sb))
  | compact (sch : Scheme) (hsch : sch.toNat ≤ 8) (b : Bytes) (h : b.length = 65) :
      Format ⟨sch, .bytes b⟩ (sch :: b)
  | sm2 (id rb sb : Bytes) (hid : (0 : Byte) ∉ id) (h : rb.length = sb.length)
      (hl : id.length + 2 * rb.length ≠ 62) :
      Format ⟨9, .sm2 (natOfBytes rb) (natOfBytes sb) none id⟩ (9 :: (id ++ 0 :: (rb ++ sb)))
  | raw (sch : Scheme) (hsch : sch = 10 ∨ sch = 11) (b : Bytes) (h0 : b.length ≠ 0) (hl : b.length ≠ 63) :
      Format ⟨sch, .bytes b⟩ (sch :: b)

end Verif.Signature
