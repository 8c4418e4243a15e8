import Verif.Lemmas.Amd64Use
/-!
# C120: SM2 encryption on amd64

Specification: the same functions with curve methods that compute in the group of points (`Lawful`; the portable
methods are such by C114). `ExactMult` and `ExactBase` are as for C57 and C83.
-/
namespace Verif.Props
open Verif Verif.Spec Verif.Spec.P256

/-- The order of the SM2 group. -/
local notation "n" => Curves.sm2.N

/-- **C120** What `sm2.Decrypt` returns on amd64, for every key and every input, ciphertext or not: what it returns
with a correct curve implementation, except that the private key `n - 6` is taken for 0. So all that is known of
decryption (C42, C43) holds on amd64 for the other keys, and with the private key `n - 6` everyone can decrypt what
`Decrypt` accepts. Missing: runs that depend on an inexact operation. -/
theorem C120_decrypt_partial (E : SM2.Ext) (hE : E.Lawful) (priv : ECPriv) (data spare : Bytes)
    (he : ExactMult (natOfBytes ((data ++ spare).take 32)) (natOfBytes (((data ++ spare).drop 32).take 32))
      (bytesOfNat priv.D)) :
    SM2.decrypt (SM2.amd64 E) priv data spare =
      SM2.decrypt E { priv with D := if priv.D % n = n - 6 then 0 else priv.D } data spare := by
  have hd : amd64Scalar priv.D = if priv.D % n = n - 6 then 0 else priv.D := by unfold amd64Scalar; rfl
  rw [← hd]
  refine decrypt_congr (amd64_isOnCurve E) priv (amd64Scalar priv.D) data spare fun hon => ?_
  rw [amd64_mult_def]
  exact amd64_mult_eq (hE.onCurve _ _ hon) he fun P j hP hxy => hE.mult P _ _ j hP hon hxy

/-- **C120** `sm2.Encrypt` on amd64 returns what it returns with the same random bytes and correct curve methods but
for one mistake: the nonce `n - 6` is taken for 0 where the public key is multiplied. So if no nonce is `n - 6`, it
returns what it returns with a correct curve implementation. For every public key on the curve and every message.
Missing: runs that depend on an inexact operation. -/
theorem C120_encrypt_partial (E : SM2.Ext) (hE : E.Lawful) (pub : ECPub)
    (hon : E.isOnCurve pub.x pub.y = true) (fuel : Nat) (rand m : Bytes) (hm : m.length < 2 ^ 61)
    (he : ∀ i < fuel, ExactBase (bytesOfNat (sm2EncNonce E pub rand m i)) ∧
      ExactMult pub.x pub.y (bytesOfNat (sm2EncNonce E pub rand m i))) :
    SM2.encrypt (SM2.amd64 E) fuel rand pub m = SM2.encrypt (sm2N6Zero E) fuel rand pub m ∧
    ((∀ i < fuel, sm2EncNonce E pub rand m i ≠ n - 6) →
      SM2.encrypt (SM2.amd64 E) fuel rand pub m = SM2.encrypt E fuel rand pub m) := by
  obtain ⟨G, hG⟩ := good_sm2.exists_G
  have key : ∀ k, ExactBase (bytesOfNat k) → ExactMult pub.x pub.y (bytesOfNat k) →
      (SM2.amd64 E).ops.baseMult k = E.ops.baseMult k ∧
      (SM2.amd64 E).ops.mult (pub.x, pub.y) k = E.ops.mult (pub.x, pub.y) (amd64Scalar k) := by
    intro k h2 h3
    constructor
    · rw [amd64_base_def, hE.base G hG _, C83_scalarBaseMult_partial G hG _ h2, natOfBytes_bytesOfNat]
    · rw [amd64_mult_def]
      exact amd64_mult_eq (mult := E.ops.mult) (hE.onCurve _ _ hon) h3
        fun P j hP hxy => hE.mult P _ _ j hP hon hxy
  constructor
  · refine encrypt_congr ((amd64_sha512 E).trans (n6_sha512 E).symm) ((amd64_ctr E).trans (n6_ctr E).symm)
      pub fuel rand m hm fun i hi => ?_
    obtain ⟨h2, h3⟩ := he i hi
    rw [n6_encNonce, n6_base, n6_mult]
    exact key _ h2 h3
  · intro h6
    refine encrypt_congr (amd64_sha512 E) (amd64_ctr E) pub fuel rand m hm fun i hi => ?_
    obtain ⟨h2, h3⟩ := he i hi
    obtain ⟨e1, e2⟩ := key _ h2 h3
    rw [amd64Scalar_of_ne (encNonce_lt E pub rand m i) (h6 i hi)] at e2
    exact ⟨e1, e2⟩

/-- The ciphertext was made and passes a check. -/
def passes (enc : Option (Res Bytes)) (f : Bytes → Bool) : Bool :=
  match enc with
  | some (.ok ct) => f ct
  | _ => false

/-- The message was found. -/
def accepted (m : Bytes) : Res SM2.DecOut → Bool
  | .ok (some t, none) => t == m
  | _ => false

/-- Another message was found, and refused. -/
def refused (m : Bytes) : Res SM2.DecOut → Bool
  | .ok (some u, some e) => u != m && e == "Hash not match!"
  | _ => false

theorem of_refused {enc : Option (Res Bytes)} {dec dec' : Bytes → Res SM2.DecOut} {m : Bytes}
    (h : passes enc (fun ct => accepted m (dec ct)) = true) (h' : passes enc (fun ct => refused m (dec' ct)) = true) :
    ∃ ct t, enc = some (.ok ct) ∧ dec ct = .ok (some m, none) ∧
      dec' ct = .ok (some t, some "Hash not match!") ∧ t ≠ m := by
  unfold passes at h h'
  split at h
  · rename_i ct
    refine ⟨ct, ?_⟩
    dsimp only at h h'
    unfold accepted at h
    unfold refused at h'
    split at h
    · rename_i t h1
      simp only [beq_iff_eq] at h
      subst h
      split at h'
      · rename_i u e h2
        simp only [Bool.and_eq_true, beq_iff_eq, bne_iff_ne] at h'
        obtain ⟨hu, rfl⟩ := h'
        exact ⟨u, rfl, h1, h2, hu⟩
      · cases h'
    · cases h
  · cases h

/-- Curve methods that compute in the group of points, and a source that gives the nonce 3. -/
def refSM2Three : SM2.Ext := { refSM2 with ctr := fun _ _ len => beFix len 2 }

set_option maxHeartbeats 4000000 in
theorem three_accepted : passes (SM2.encrypt refSM2Three 1 (zeros 16) keyN6.pub abc)
    (fun ct => accepted abc (SM2.decrypt refSM2Three keyN6 ct [])) = true := by decide +kernel

set_option maxHeartbeats 4000000 in
theorem three_refused : passes (SM2.encrypt refSM2Three 1 (zeros 16) keyN6.pub abc)
    (fun ct => refused abc (SM2.decrypt (SM2.amd64 refSM2Three) keyN6 ct [])) = true := by decide +kernel

/-- **C120** (negation) There are a key pair, a message and random bytes such that the ciphertext of the message is
decrypted with a correct curve implementation but refused on amd64. The private key is `n - 6`. -/
theorem C120_roundtrip_fails (G : SM2.Point) (hG : xy G = (Curves.sm2.Gx, Curves.sm2.Gy)) :
    SM2Pair G keyN6 ∧ ∃ ct t, SM2.encrypt refSM2Three 1 (zeros 16) keyN6.pub abc = some (.ok ct) ∧
      SM2.decrypt refSM2Three keyN6 ct [] = .ok (some abc, none) ∧
      SM2.decrypt (SM2.amd64 refSM2Three) keyN6 ct [] = .ok (some t, some "Hash not match!") ∧ t ≠ abc :=
  ⟨keyN6_pair G hG, of_refused three_accepted three_refused⟩

/-- A case that meets the hypotheses of the theorems on encryption: the key pair with the private key 2 and the
nonce 103. -/
example : sm2EncNonce { refSM2 with ctr := fun _ _ len => beFix len 102 } ⟨Curves.sm2, twoX, twoY⟩ (zeros 16) [0x61] 0 = 103 ∧
    refSM2.isOnCurve twoX twoY = true ∧ 103 ≠ n - 6 ∧ ExactBase (bytesOfNat 103) ∧ ExactMult twoX twoY (bytesOfNat 103) := by
  refine ⟨?_, by decide +kernel⟩
  have : ∀ key, sm2Nonce { refSM2 with ctr := fun _ _ len => beFix len 102 } key 0 = 103 := by
    intro key
    show natOfBytes (beFix 40 102) % (SM2.n - 2) + 1 = 103
    decide +kernel
  exact this _

end Verif.Props
