import Verif.Props.ECDSANonce
import Verif.Props.P256Curve
/-!
# C143: ECDSA with keys on the SM2 curve, on amd64

A key with the tag of ECDSA may be on the SM2 curve. crypto/ecdsa then finds `Inverse` and `CombinedMult` among the methods of
the curve and uses them (sm2/p256_amd64.go:132-228, 265-290).
-/
namespace Verif.Props
open Verif.X64 Verif.X64.P256 Verif.Spec Verif.Spec.P256 Verif.Spec.ECDSA Verif.Keypair Verif.Signature

/-- The order of the SM2 group. -/
local notation "n" => Curves.sm2.N

/-- crypto/ecdsa gets the methods of the SM2 curve on amd64. -/
structure UsesAmd64 (L : GoECDSA.Ext) : Prop where
  base : ∀ k, (L.ops Curves.sm2).baseMult k = scalarBaseMult (bytesOfNat k)
  inverse : L.inverse Curves.sm2 = some fun k : Nat => inverse k
  combined : L.combinedMult Curves.sm2 = some fun P s t => combinedMult P.1 P.2 (bytesOfNat s) (bytesOfNat t)

theorem inverse_mul (k : Nat) (hk : k % n ≠ 0) : k * inverse k % n = 1 :=
  (invOf_amd64 ⟨⟨fun _ => (0, 0), fun _ _ => (0, 0), fun _ _ => (0, 0)⟩, fun _ _ => false, none, none, id,
    fun _ _ _ => []⟩ k).1 hk

/-- **C143** (partial) On amd64 `Verify` accepts an ECDSA signature under a key on the SM2 curve exactly if the standard
accepts it, except when `r / s` is -6 modulo the order or `(e / s) G = (r / s) P`: then it rejects. In particular it
accepts no others. Missing: the signatures it rejects wrongly (`C143_rejects_valid`), digests that are 0 modulo the
order, and runs that depend on an inexact operation. -/
theorem C143_verify_partial (L : GoECDSA.Ext) (hL : UsesAmd64 L) (G P : SM2.Point)
    (hG : xy G = (Curves.sm2.Gx, Curves.sm2.Gy)) (hP : P ≠ 0) (pub : ECPub) (hc : pub.curve = Curves.sm2)
    (hpub : (pub.x, pub.y) = xy P) (digest : Bytes) (r s : Int) (h0 : bits2int n digest % n ≠ 0)
    (he : ExactCombined pub.x pub.y (bytesOfNat (bits2int n digest * inverse s.toNat % n))
      (bytesOfNat (r.toNat * inverse s.toNat % n))) :
    GoECDSA.verify L pub digest r s = true ↔
      Accepts G P (bits2int n digest) r s ∧
      ¬ (r.toNat * inverse s.toNat % n = n - 6 ∨
        (bits2int n digest * inverse s.toNat) • G = (r.toNat * inverse s.toNat) • P) := by
  have := good_sm2.fact
  obtain ⟨cv, x, y⟩ := pub
  simp only at hc hpub he
  subst hc
  unfold GoECDSA.verify
  simp only [C141_hash]
  by_cases h1 : r ≤ 0 ∨ s ≤ 0
  · rw [if_pos h1]
    simp only [Bool.false_eq_true, false_iff]
    rintro ⟨⟨e1, e2, e3, e4, -⟩, -⟩
    have e2 : r < n := e2
    have e4 : s < n := e4
    omega
  rw [if_neg h1]
  by_cases h2 : r ≥ n ∨ s ≥ n
  · rw [if_pos h2]
    simp only [Bool.false_eq_true, false_iff]
    rintro ⟨⟨e1, e2, e3, e4, -⟩, -⟩
    have e2 : r < n := e2
    have e4 : s < n := e4
    omega
  rw [if_neg h2]
  have hs0 : s.toNat % n ≠ 0 := by rw [Nat.mod_eq_of_lt (by omega)]; omega
  have hr0 : r.toNat % n ≠ 0 := by rw [Nat.mod_eq_of_lt (by omega)]; omega
  have hw := inverse_mul s.toNat hs0
  have hv : GoECDSA.verifyInverse L Curves.sm2 s.toNat = inverse s.toNat := by
    unfold GoECDSA.verifyInverse; rw [hL.inverse]
  rw [hv, accepts_iff good_sm2 hw]
  generalize bits2int n digest = e at *
  generalize inverse s.toNat = w at *
  have hpr : Nat.Prime n := good_sm2.order_prime
  have hw0 : w % n ≠ 0 := by
    intro h
    rw [Nat.mul_mod, h, mul_zero, Nat.zero_mod] at hw
    cases hw
  have hmul : ∀ a : Nat, a % n ≠ 0 → a * w % n ≠ 0 := by
    intro a ha h
    rcases (Nat.Prime.dvd_mul hpr).1 (Nat.dvd_of_mod_eq_zero h) with h | h
    · exact ha (Nat.mod_eq_zero_of_dvd h)
    · exact hw0 (Nat.mod_eq_zero_of_dvd h)
  have hP' : xy P = (x % Curves.sm2.P, y % Curves.sm2.P) := by
    obtain ⟨-, hx, hy⟩ := Verif.Affine.xy_onCurve P hP
    rw [← hpub] at hx hy ⊢
    rw [Nat.mod_eq_of_lt hx, Nat.mod_eq_of_lt hy]
  have hq := C84_combinedMult_partial G P hG hP x y hP' (bytesOfNat (e * w % n)) (bytesOfNat (r.toNat * w % n))
    (by rw [Verif.SM2.natOfBytes_bytesOfNat, Nat.mod_mod]; exact hmul e h0) he
  rw [Verif.SM2.natOfBytes_bytesOfNat, Verif.SM2.natOfBytes_bytesOfNat, Nat.mod_mod,
    Affine.mod_smul good_sm2.card, Affine.mod_smul good_sm2.card] at hq
  have hcomb : GoECDSA.combine L ⟨Curves.sm2, x, y⟩ (e * w % n) (r.toNat * w % n) =
      combinedMult x y (bytesOfNat (e * w % n)) (bytesOfNat (r.toNat * w % n)) := by
    unfold GoECDSA.combine
    simp only [hL.combined]
  rw [hcomb]
  by_cases hx : r.toNat * w % n = n - 6 ∨ (e * w) • G = (r.toNat * w) • P
  · rw [if_pos (.inr hx)] at hq
    rw [hq, if_pos ⟨rfl, rfl⟩]
    simp only [Bool.false_eq_true, false_iff]
    rintro ⟨-, h⟩
    exact h hx
  · rw [if_neg (by
      rintro (h | h)
      · exact hmul _ hr0 h
      · exact hx h)] at hq
    rw [hq]
    have hz := Affine.xy_eq_zero_iff good_sm2.ok ((e * w) • G + (r.toNat * w) • P)
    rw [Prod.ext_iff] at hz
    by_cases h3 : (e * w) • G + (r.toNat * w) • P = 0
    · rw [if_pos (hz.2 h3)]
      simp [h3]
    · rw [if_neg (fun e => h3 (hz.1 e)), beq_iff_eq]
      constructor
      · intro e; exact ⟨⟨by omega, show r < n by omega, by omega, show s < n by omega, h3, e⟩, hx⟩
      · rintro ⟨⟨-, -, -, -, -, e⟩, -⟩; exact e

/-- **C143** (partial) What `Sign` returns on amd64 for an ECDSA scheme and a key on the SM2 curve was made with a nonce `k`,
which digest, key and signature determine, and is a signature of the standard if the multiplication of the base point by
`k` is exact. Missing: nonces whose multiplication depends on an inexact operation. -/
theorem C143_sign_partial (L : GoECDSA.Ext) (hL : UsesAmd64 L) (G : SM2.Point)
    (hG : xy G = (Curves.sm2.Gx, Curves.sm2.Gy)) (fuel : Nat) (priv : ECPriv) (hc : priv.pub.curve = Curves.sm2)
    (digest rand : Bytes) (r s : Nat) (h : GoECDSA.sign L fuel priv digest rand = .ok (r, s)) :
    let k := (bits2int n digest + r * priv.D) * inverse s % n
    1 ≤ k ∧ k < n ∧ 1 ≤ r ∧ r < n ∧ 1 ≤ s ∧ s < n ∧
      (ExactBase (bytesOfNat k) → Signed G priv.D (bits2int n digest) r s) := by
  have := good_sm2.fact
  have hN : Nat.Prime n := good_sm2.order_prime
  have h2 : 2 < n := by decide +kernel
  obtain ⟨-, i, -, ht⟩ := goSign_read L fuel priv digest rand _ h
  rw [hc] at ht
  generalize L.ctr _ _ _ = b at ht
  obtain ⟨k0, k1⟩ := goNonce_range Curves.sm2 h2 b
  generalize GoECDSA.randFieldElement Curves.sm2 b = k at *
  have hi : k * GoECDSA.nonceInverse L Curves.sm2 k % n = 1 := by
    unfold GoECDSA.nonceInverse
    rw [hL.inverse]
    exact inverse_mul k (by rw [Nat.mod_eq_of_lt k1]; omega)
  unfold GoECDSA.signTry at ht
  simp only [hL.base] at ht
  generalize GoECDSA.nonceInverse L Curves.sm2 k = w at hi ht
  generalize bits2int n digest = e at *
  generalize priv.D = D at *
  split_ifs at ht with h3 h4
  have e1 := congrArg Prod.fst (Option.some.inj ht)
  have e2 := congrArg Prod.snd (Option.some.inj ht)
  simp only at e1 e2
  rw [e1] at e2 h3 h4
  rw [e2] at h4
  have hrn : r < n := by rw [← e1]; exact Nat.mod_lt _ hN.pos
  have hsn : s < n := by rw [← e2]; exact Nat.mod_lt _ hN.pos
  have heq : k * s % n = (e + r * D) % n := by
    rw [← e2, Nat.mul_mod, Nat.mod_mod, ← Nat.mul_mod, show k * ((D * r + e) * w) = k * w * (e + r * D) by ring,
      Nat.mul_mod, hi, one_mul, Nat.mod_mod]
  have hk : (e + r * D) * inverse s % n = k := by
    have hs1 := inverse_mul s (by rw [Nat.mod_eq_of_lt hsn]; exact h4)
    rw [Nat.mul_mod, ← heq, ← Nat.mul_mod, mul_assoc, Nat.mul_mod, hs1, mul_one, Nat.mod_mod, Nat.mod_eq_of_lt k1]
  intro k'
  have hk' : k' = k := hk
  rw [hk']
  refine ⟨k0, k1, Nat.pos_of_ne_zero h3, hrn, Nat.pos_of_ne_zero h4, hsn, fun hx => ?_⟩
  rw [C83_scalarBaseMult_partial G hG _ hx, Verif.SM2.natOfBytes_bytesOfNat] at e1
  exact ⟨k, k0, k1, e1.symm, Nat.pos_of_ne_zero h3, Nat.pos_of_ne_zero h4, hsn, heq⟩

/-- A digest and a signature that is valid for it under the public key `G`. -/
def exR : Nat := 0xc749061668652e26040e008fdd5eb77a344a417b7fce19dba575da57cc372a9e
def exS : Nat := 0x8973d450ee99cda454a8553d5b1ae16b434b8a082be1a9cd9c3efe4cd9da4efd

/-- **C143** with the full equivalence is false: a signature that the standard accepts and `Verify` rejects on amd64. -/
theorem C143_rejects_valid : ∃ (G P : SM2.Point) (pub : ECPub) (digest : Bytes) (r s : Int),
    xy G = (Curves.sm2.Gx, Curves.sm2.Gy) ∧ P ≠ 0 ∧ pub.curve = Curves.sm2 ∧ (pub.x, pub.y) = xy P ∧ digest.length = 32 ∧
    Accepts G P (bits2int n digest) r s ∧ ∀ L, UsesAmd64 L → GoECDSA.verify L pub digest r s = false := by
  have := good_sm2.fact
  obtain ⟨G, hG⟩ := good_sm2.exists_G
  have hG0 := good_sm2.G_ne_zero hG
  have hd : bits2int n (beFix 32 exS) = exS := by decide +kernel
  refine ⟨G, G, ⟨Curves.sm2, Curves.sm2.Gx, Curves.sm2.Gy⟩, beFix 32 exS, exR, exS, hG, hG0, rfl, hG.symm, beFix_length _ _, ?_,
    fun L hL => ?_⟩
  · have hw : ((exS : Nat) : Int).toNat * inverse exS % n = 1 := by
      rw [Int.toNat_natCast]; exact inverse_mul exS (by decide +kernel)
    rw [hd, accepts_iff good_sm2 hw, ← add_smul]
    have hk : (exS * inverse exS + ((exR : Nat) : Int).toNat * inverse exS) • G = (n - 5) • G := by
      rw [good_sm2.smul_eq_iff hG0]
      decide +kernel
    rw [hk]
    refine ⟨by decide +kernel, by decide +kernel, by decide +kernel, by decide +kernel, ?_, ?_⟩
    · exact good_sm2.smul_ne_zero hG0 (by decide +kernel) (by decide +kernel)
    · rw [← Verif.Affine.smul_eq good_sm2.ok _ Curves.sm2_aN, hG]
      decide +kernel
  · unfold GoECDSA.verify
    simp only [C141_hash, hd]
    rw [if_neg (by decide +kernel), if_neg (by decide +kernel)]
    have hv : GoECDSA.verifyInverse L Curves.sm2 ((exS : Nat) : Int).toNat = inverse exS := by
      unfold GoECDSA.verifyInverse; rw [hL.inverse, Int.toNat_natCast]
    rw [hv]
    have hcomb : GoECDSA.combine L ⟨Curves.sm2, Curves.sm2.Gx, Curves.sm2.Gy⟩ (exS * inverse exS % n)
        (((exR : Nat) : Int).toNat * inverse exS % n) = (0, 0) := by
      unfold GoECDSA.combine
      simp only [hL.combined]
      have e1 : exS * inverse exS % n = 1 := inverse_mul exS (by decide +kernel)
      have e2 : ((exR : Nat) : Int).toNat * inverse exS % n = n - 6 := by decide +kernel
      rw [e1, e2]
      decide +kernel
    rw [hcomb, if_pos ⟨rfl, rfl⟩]

/-- The methods of the SM2 curve on amd64, and a keystream that gives the nonce `1 + 0x123456`. -/
def amd64Go : GoECDSA.Ext where
  ops _ := ⟨fun k => scalarBaseMult (bytesOfNat k), fun P k => scalarMult P.1 P.2 (bytesOfNat k), fun _ _ => (0, 0)⟩
  inverse _ := some fun k : Nat => inverse k
  combinedMult _ := some fun P s t => combinedMult P.1 P.2 (bytesOfNat s) (bytesOfNat t)
  sha512 m := m
  ctr _ _ len := beFix len 0x123456

theorem amd64Go_uses : UsesAmd64 amd64Go := ⟨fun _ => rfl, rfl, rfl⟩

/-- A case that meets the hypotheses of `C143_verify_partial`: a valid signature under the key `2 G`. -/
example : UsesAmd64 amd64Go ∧
    bits2int n (beFix 32 0xbac14d0bf41f96486dcf7173ec3fc4ede3779a4ed5446a8fdc3c306df5e83f7a) % n ≠ 0 ∧
    ExactCombined twoX twoY
      (bytesOfNat (bits2int n (beFix 32 0xbac14d0bf41f96486dcf7173ec3fc4ede3779a4ed5446a8fdc3c306df5e83f7a) *
        inverse (0x3a99f8996dc24256ec776b6c69b12049fa36794b48d0bf10184f986969bd3186 : Nat) % n))
      (bytesOfNat (0x31b02695b5584c2ef610c6530be007b5e3a1084ac7a0a723c95ba8536f61fb0f *
        inverse (0x3a99f8996dc24256ec776b6c69b12049fa36794b48d0bf10184f986969bd3186 : Nat) % n)) ∧
    GoECDSA.verify amd64Go ⟨Curves.sm2, twoX, twoY⟩
      (beFix 32 0xbac14d0bf41f96486dcf7173ec3fc4ede3779a4ed5446a8fdc3c306df5e83f7a)
      0x31b02695b5584c2ef610c6530be007b5e3a1084ac7a0a723c95ba8536f61fb0f
      0x3a99f8996dc24256ec776b6c69b12049fa36794b48d0bf10184f986969bd3186 = true :=
  ⟨amd64Go_uses, by decide +kernel, by decide +kernel, by decide +kernel⟩

/-- A case that meets the hypotheses of `C143_sign_partial`, with an exact multiplication. -/
example : (match GoECDSA.sign amd64Go 1 ⟨2, ⟨Curves.sm2, twoX, twoY⟩⟩ [1, 2, 3] (zeros 16) with
    | .ok rs => decide ((bits2int n [1, 2, 3] + rs.1 * 2) * inverse (rs.2 : Nat) % n = 0x123457)
    | _ => false) = true ∧ ExactBase (bytesOfNat 0x123457) := ⟨by decide +kernel, by decide +kernel⟩

end Verif.Props
