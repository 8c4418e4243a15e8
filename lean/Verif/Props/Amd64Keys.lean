import Verif.Lemmas.Amd64Keys
import Verif.Props.KeyGen
/-!
# C121: SM2 keys on amd64

Specification: the same functions with a base point multiplication that computes in the group of points
(`LawfulBase`). `ExactBase` is as for C83.
-/
namespace Verif.Props
open Verif Verif.Spec Verif.Spec.P256 Verif.Keypair

theorem eth_ne_sm2 (E : Ext) : ethCurve E ≠ Curves.sm2 := by
  intro h
  have h := congrArg Curve.P h
  revert h
  show (Curves.secp256k1 E.ethname).P ≠ Curves.sm2.P
  have : (Curves.secp256k1 E.ethname).P = (Curves.secp256k1 "").P := rfl
  rw [this]
  decide +kernel

theorem amd64_base_other (E : Ext) {c : Curve} (hc : c ≠ Curves.sm2) (D : Nat) :
    (Keypair.amd64 E).baseMult c D = E.baseMult c D := by
  rw [amd64_baseMult, if_neg hc]

theorem amd64_base_eq (E : Ext) (hE : LawfulBase Curves.sm2 (-3) (E.baseMult Curves.sm2)) (c : Curve) (D : Nat)
    (he : c = Curves.sm2 → ExactBase (bytesOfNat D)) : (Keypair.amd64 E).baseMult c D = E.baseMult c D := by
  by_cases hc : c = Curves.sm2
  · subst hc
    obtain ⟨G, hG⟩ := good_sm2.exists_G
    rw [amd64_baseMult, if_pos rfl, hE G hG D]
    have := C83_scalarBaseMult_partial G hG _ (he rfl)
    rwa [natOfBytes_bytesOfNat] at this
  · exact amd64_base_other E hc D

/-- **C121** `GenerateKeyPair` on amd64 returns the key pair that it returns with a correct curve implementation and
the same random bytes, for every key type, curve and option. So all that holds of generated keys (C50, C76, C103) holds
on amd64. Missing: SM2 scalars whose multiplication depends on an inexact operation. -/
theorem C121_generate_partial (E : Ext) (hE : LawfulBase Curves.sm2 (-3) (E.baseMult Curves.sm2)) (t : Byte) (opts : Opts)
    (reads : List Bytes)
    (he : ∀ alg priv pub, generateKeyPair (Keypair.amd64 E) t opts reads = some (.ok (.ec alg priv, pub)) →
      priv.pub.curve = Curves.sm2 → ExactBase (bytesOfNat priv.D)) :
    generateKeyPair (Keypair.amd64 E) t opts reads = generateKeyPair E t opts reads := by
  refine generate_congr (amd64_sameBut E) t opts reads (fun c l D ht ho hc hD => ?_)
    fun D => amd64_base_other E (eth_ne_sm2 E) D
  refine amd64_base_eq E hE c D fun hs => ?_
  refine he (if t = PK_ECDSA then .ecdsa else .sm2)
    ⟨D, ⟨c, ((Keypair.amd64 E).baseMult c D).1, ((Keypair.amd64 E).baseMult c D).2⟩⟩
    (.ec (if t = PK_ECDSA then .ecdsa else .sm2)
      ⟨c, ((Keypair.amd64 E).baseMult c D).1, ((Keypair.amd64 E).baseMult c D).2⟩) ?_ hs
  unfold generateKeyPair
  rw [if_pos ht, ho]
  dsimp only
  rw [(amd64_sameBut E).getCurve, hc]
  dsimp only
  unfold generateECKeyPair
  rw [hD]
  rfl

/-- **C121** `ConstructPrivateKey` on amd64: the scalar is the number that the bytes denote, whatever their length, and
the public half is that multiple of the base point. Missing: scalars whose multiplication depends on an inexact
operation. -/
theorem C121_construct_partial (E : Ext) (G : SM2.Point) (hG : xy G = (Curves.sm2.Gx, Curves.sm2.Gy)) (data : Bytes)
    (he : ExactBase data) :
    ∃ x y, constructPrivateKey (Keypair.amd64 E) data Curves.sm2 = ⟨natOfBytes data, ⟨Curves.sm2, x, y⟩⟩ ∧
      (x, y) = xy (natOfBytes data • G) := by
  have h := C83_scalarBaseMult_partial G hG _ he
  rw [← scalarBaseMult_bytes] at h
  refine ⟨((Keypair.amd64 E).baseMult Curves.sm2 (natOfBytes data)).1,
    ((Keypair.amd64 E).baseMult Curves.sm2 (natOfBytes data)).2, rfl, ?_⟩
  rw [Prod.mk.eta, amd64_baseMult, if_pos rfl, h]

/-- **C121** `DeserializePrivateKey` on amd64 gives the result of a correct curve implementation, for every byte string.
So all that holds of parsed private keys (C17, C18, C19, C63, C112) holds on amd64. Missing: strings with the label of
the SM2 curve and a scalar whose multiplication depends on an inexact operation. -/
theorem C121_parse_partial (E : Ext) (hE : LawfulBase Curves.sm2 (-3) (E.baseMult Curves.sm2)) (data : Bytes)
    (draws : List Nat)
    (he : data.getD 1 0 = 20 → ExactBase (bytesOfNat (natOfBytes ((data.drop 2).take 32)))) :
    deserializePrivateKey (Keypair.amd64 E) data draws = deserializePrivateKey E data draws := by
  refine deserializePrivate_congr (amd64_sameBut E) data draws (fun c l D hl hc hD => ?_)
    fun D => amd64_base_other E (eth_ne_sm2 E) D
  refine amd64_base_eq E hE c D fun hs => ?_
  have hl20 : l = 20 := by
    unfold getCurve at hc
    split_ifs at hc with h1 h2 h3 h4 h5 h6
    · cases hc; exact absurd hs (by decide +kernel)
    · cases hc; exact absurd hs (by decide +kernel)
    · cases hc; exact absurd hs (by decide +kernel)
    · cases hc; exact absurd hs (by decide +kernel)
    · exact h5
    · cases hc
      have h := congrArg Curve.P hs
      exact absurd h (by
        have : (Curves.secp256k1 E.k1name).P = (Curves.secp256k1 "").P := rfl
        rw [this]
        decide +kernel)
  rw [hD, hs]
  exact he (hl.trans hl20)

/-- **C121** `DecryptWithCustomScrypt` on amd64 gives the result of a correct curve implementation, for every protected
key, password and parameters; so all that holds of it (C26 to C29) holds on amd64. Missing: SM2 scalars whose
multiplication depends on an inexact operation. -/
theorem C121_decrypt_partial (E : Ext) (hE : LawfulBase Curves.sm2 (-3) (E.baseMult Curves.sm2)) (X : ProtExt)
    (prot : Option ProtectedKey) (pwd : Bytes) (param : ScryptParam)
    (he : ∀ alg priv, decryptWithCustomScrypt E X prot pwd param = .ok (.ec alg priv) →
      priv.pub.curve = Curves.sm2 → ExactBase (bytesOfNat priv.D)) :
    decryptWithCustomScrypt (Keypair.amd64 E) X prot pwd param = decryptWithCustomScrypt E X prot pwd param :=
  Keypair.decrypt_congr (amd64_sameBut E) X prot pwd param fun alg priv h =>
    amd64_base_eq E hE _ _ fun hc => he alg priv h hc

/-! ## Non-vacuity -/

theorem amd64Keys_scalar : genScalar Curves.sm2 [0 :: 0x42 :: (zeros 27 ++ [0x12, 0x34, 0x56])] = some 0x123456 := by
  decide +kernel

theorem amd64Keys_gen (E : Ext) (D : Nat) (reads : List Bytes) (h : genScalar Curves.sm2 reads = some D) :
    ∃ x y, generateKeyPair (Keypair.amd64 E) 0x13 (.byte 20) reads =
      some (.ok (.ec .sm2 ⟨D, ⟨Curves.sm2, x, y⟩⟩, .ec .sm2 ⟨Curves.sm2, x, y⟩)) := by
  refine ⟨((Keypair.amd64 E).baseMult Curves.sm2 D).1, ((Keypair.amd64 E).baseMult Curves.sm2 D).2, ?_⟩
  unfold generateKeyPair generateECKeyPair
  rw [if_pos (Or.inr rfl)]
  dsimp only
  rw [(amd64_sameBut E).getCurve]
  have : getCurve E 20 = .ok Curves.sm2 := by unfold getCurve; rfl
  rw [this]
  dsimp only
  rw [h, if_neg (by decide)]
  rfl

/-- Random bytes for which the generated SM2 key has the scalar 0x123456, which is exact; the same scalar in a serialized
private key. -/
example : ∃ x y, generateKeyPair (Keypair.amd64 refExt) 0x13 (.byte 20) [0 :: 0x42 :: (zeros 27 ++ [0x12, 0x34, 0x56])] =
      some (.ok (.ec .sm2 ⟨0x123456, ⟨Curves.sm2, x, y⟩⟩, .ec .sm2 ⟨Curves.sm2, x, y⟩)) ∧
    natOfBytes ((([0x13, 20] ++ zeros 29 ++ [0x12, 0x34, 0x56] ++ zeros 33 : Bytes).drop 2).take 32) = 0x123456 ∧
    ExactBase (bytesOfNat 0x123456) := by
  obtain ⟨x, y, h⟩ := amd64Keys_gen refExt _ _ amd64Keys_scalar
  exact ⟨x, y, h, by decide +kernel, by decide +kernel⟩

end Verif.Props
