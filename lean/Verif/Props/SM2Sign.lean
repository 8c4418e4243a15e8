import Verif.Lemmas.SM2
/-!
# C38-C41: SM2 signatures

Specification: `Verif.Spec.SM2` (Spec/SM2.lean): the check of GM/T 0003.2 over Mathlib's group of points.
Model: `Verif.SM2` (Model/SM2.lean). `G` is the base point.
-/
namespace Verif.Props
open Verif Verif.Spec

/-- The key pair belongs together and its point is not infinity. -/
def SM2Pair (G : SM2.Point) (priv : ECPriv) : Prop :=
  priv.pub.curve = Curves.sm2 ∧ priv.D % SM2.n ≠ 0 ∧ (priv.pub.x, priv.pub.y) = xy (priv.D • G)

/-- The user id that is hashed: the empty id stands for the default. -/
def sm2ID (id : Bytes) : Bytes :=
  if id = [] then [0x31, 0x32, 0x33, 0x34, 0x35, 0x36, 0x37, 0x38,
    0x31, 0x32, 0x33, 0x34, 0x35, 0x36, 0x37, 0x38] else id

/-! ## C38 -/

/-- **C38** Whatever `sm2.Sign` returns, `sm2.Verify` accepts under the matching public key: for every
private key that is not zero modulo the order, every hash function, id, message and random input. -/
theorem C38_sign_verify (E : SM2.Ext) (hE : E.Lawful) (H : Bytes → Bytes) (G : SM2.Point)
    (hG : xy G = (Curves.sm2.Gx, Curves.sm2.Gy)) (priv : ECPriv) (hp : SM2Pair G priv)
    (fuel : Nat) (rand id msg : Bytes) (r s : Nat)
    (hs : SM2.sign E H fuel rand priv id msg = some (.ok (r, s))) :
    SM2.verify E H priv.pub id msg r s = true := by
  obtain ⟨hcrv, hD, hpub⟩ := hp
  obtain ⟨mz, hz, hc, reads, hl⟩ := SM2.sign_ok hs
  obtain ⟨b, -, ht⟩ := SM2.signLoop_spec hl
  rw [hc] at ht
  have hk := SM2.randFieldElement_range b
  obtain ⟨hr, h1, h2, h3, h4, h5, h6⟩ := SM2.signTry_spec hE hk.1 (by omega) ht
  have hG0 : G ≠ 0 := good_sm2.G_ne_zero hG
  have hP : priv.D • G ≠ 0 := by
    rw [Ne, good_sm2.smul_eq_zero_iff hG0]; exact hD
  rw [SM2.verify_iff hE H hG hP hc hpub id msg mz hz]
  have hQ : ((s : ℤ).toNat) • G + (((r : ℤ) + s) % (SM2.n : ℕ)).toNat • priv.D • G
      = SM2.randFieldElement Curves.sm2 b • G := by
    rw [smul_smul, ← add_smul, good_sm2.smul_eq_iff hG0]
    simpa using h6
  refine ⟨by omega, by exact_mod_cast h2, by omega, by exact_mod_cast h4, h5.ne', ?_, ?_⟩
  · rw [hQ]; exact good_sm2.smul_ne_zero hG0 hk.1 (by omega)
  · rw [hQ, ← hE.base G hG]
    rw [hr]; push_cast; rw [add_comm]

/-! ## C39 -/

/-- **C39** (any hash) `sm2.Verify` returns true exactly when the standard's check accepts `(r, s)` for the
digest of the signed bytes, for every public key on the curve. -/
theorem C39_verify_iff (E : SM2.Ext) (hE : E.Lawful) (H : Bytes → Bytes) (G : SM2.Point)
    (hG : xy G = (Curves.sm2.Gx, Curves.sm2.Gy)) (P : SM2.Point) (hP : P ≠ 0) (pub : ECPub)
    (hc : pub.curve = Curves.sm2) (hpub : (pub.x, pub.y) = xy P) (id msg : Bytes) (r s : Int) :
    SM2.verify E H pub id msg r s = true ↔
      ∃ mz, SM2.getZ H msg pub id = .ok mz ∧ SM2.Accepts G P (natOfBytes (H mz)) r s := by
  obtain ⟨mz, hz⟩ : ∃ mz, SM2.getZ H msg pub id = .ok mz := by
    unfold SM2.getZ; rw [if_neg (by simp [hc])]; exact ⟨_, rfl⟩
  rw [SM2.verify_iff hE H hG hP hc hpub id msg mz hz, hz]
  simp

/-- **C39** On every other curve `Verify` returns false and `Sign` returns an error. -/
theorem C39_other_curve (E : SM2.Ext) (H : Bytes → Bytes) (priv : ECPriv)
    (hc : priv.pub.curve ≠ Curves.sm2) (fuel : Nat) (rand id msg : Bytes) (r s : Int) :
    SM2.verify E H priv.pub id msg r s = false ∧
      ∃ m, SM2.sign E H fuel rand priv id msg = some (.err m) := by
  have hz : SM2.getZ H msg priv.pub id = .err "the curve type is not SM2Curve" := by
    unfold SM2.getZ; rw [if_pos hc]
  constructor
  · unfold SM2.verify; simp only [hz]; split_ifs <;> rfl
  · exact ⟨_, by unfold SM2.sign; rw [hz]⟩

/-! ## C41: the digest -/

theorem sm3Sum_eq (m : Bytes) (h : m.length < 2 ^ 61) : SM2.sm3Sum m = Spec.SM3.hash m := by
  unfold SM2.sm3Sum SM3.sumBytes
  rw [SM3.checkSum_eq (SM3.write_rep SM3.rep_new m) (show m.length < 2 ^ 64 by omega)]
  rfl

/-- **C41** (partial) With SM3, the bytes that are hashed and signed are `Z_A ‖ M` of the standard, and the
empty id stands for the default id; for public keys whose coordinates have no leading zero byte. Missing:
keys with a leading zero byte in a coordinate, for which it is false (`C41_short_coordinate`). -/
theorem C41_digest_partial (pub : ECPub) (hc : pub.curve = Curves.sm2) (hx : 2 ^ 248 ≤ pub.x)
    (hx' : pub.x < 2 ^ 256) (hy : 2 ^ 248 ≤ pub.y) (hy' : pub.y < 2 ^ 256) (id msg : Bytes)
    (hid : id.length < 8192) :
    SM2.getZ SM2.sm3Sum msg pub id = .ok (SM2.za (sm2ID id) pub.x pub.y ++ msg) := by
  have hlen : ∀ v, 2 ^ 248 ≤ v → v < 2 ^ 256 → bytesOfNat v = beFix 32 v := by
    intro v h1 h2
    have : byteLen v = 32 := by
      have a := (byteLen_le_iff (n := v) (w := 32)).2 (by omega)
      have b : ¬ byteLen v ≤ 31 := by rw [byteLen_le_iff]; omega
      omega
    rw [bytesOfNat, this]
  have hid' : (if id.length = 0 then SM2.defaultID else id) = sm2ID id := by
    unfold sm2ID SM2.defaultID; simp [List.length_eq_zero_iff]
  have hidl : (sm2ID id).length < 8192 := by
    unfold sm2ID; split_ifs
    · decide
    · exact hid
  have hbl : ([BitVec.ofNat 8 (((sm2ID id).length * 8) >>> 8), BitVec.ofNat 8 ((sm2ID id).length * 8)] : Bytes)
      = beFix 2 (8 * (sm2ID id).length) := by
    simp only [beFix, List.nil_append, List.cons_append, Nat.shiftRight_eq_div_pow]
    rw [mul_comm 8]
  have hconst : SM2Curve.aBytes = beFix 32 SM2.a ∧ bytesOfNat Curves.sm2.B = beFix 32 Curves.sm2.B ∧
      bytesOfNat Curves.sm2.Gx = beFix 32 Curves.sm2.Gx ∧
      bytesOfNat Curves.sm2.Gy = beFix 32 Curves.sm2.Gy := by decide +kernel
  unfold SM2.getZ
  rw [if_neg (by simp [hc])]
  simp only [hid', hbl, hc, hconst, hlen _ hx hx', hlen _ hy hy']
  rw [sm3Sum_eq]
  · rfl
  · simp; omega

/-- Reference implementation of the external parts, without the optional methods. SHA-512 and AES-CTR are
replaced by stand-ins of the right shape; the theorems hold for every choice of them. -/
def refSM2 : SM2.Ext where
  ops := affineOps Curves.sm2 (Curves.sm2.P - 3)
  isOnCurve x y := decide (x < Curves.sm2.P ∧ y < Curves.sm2.P ∧ OnCurve Curves.sm2 (-3) x y)
  inverse := none
  combinedMult := none
  sha512 b := beFix 64 (natOfBytes b)
  ctr key off len := beFix len (natOfBytes key + off)

/-- The same with `Inverse` and `CombinedMult`. -/
def refSM2opt : SM2.Ext :=
  { refSM2 with
    inverse := some fun k => SM2.fermatInverse k Curves.sm2.N
    combinedMult := some fun P s t =>
      let o := affineOps Curves.sm2 (Curves.sm2.P - 3)
      o.add (o.baseMult s) (o.mult P t) }

theorem beFix_length' (w n : Nat) : (beFix w n).length = w := by
  induction w generalizing n with
  | zero => rfl
  | succ w ih => simp [beFix, ih]

theorem refSM2_lawful : refSM2.Lawful := by
  have hl := affineOps_lawful good_sm2 (Curves.sm2.P - 3) Curves.sm2_aN
  refine ⟨hl.base, ?_, hl.add, ?_, ?_, ?_, ?_, ?_, ?_⟩
  · intro _ P x y k _ hon he
    have hon := of_decide_eq_true hon
    rw [Nat.mod_eq_of_lt hon.1, Nat.mod_eq_of_lt hon.2.1] at he
    rw [he]; exact hl.mult P k
  · intro x y h; exact (of_decide_eq_true h).2.2
  · intro x y hx hy h; exact decide_eq_true ⟨hx, hy, h⟩
  · intro f h; cases h
  · intro f h; cases h
  · intro _ _ _ _ _ f h; cases h
  · intros; exact beFix_length' _ _

theorem refSM2opt_lawful : refSM2opt.Lawful := by
  have hl := affineOps_lawful good_sm2 (Curves.sm2.P - 3) Curves.sm2_aN
  refine ⟨refSM2_lawful.base, refSM2_lawful.mult, refSM2_lawful.add, refSM2_lawful.onCurve,
    refSM2_lawful.onCurve', ?_, ?_, ?_, refSM2_lawful.ctr_length⟩
  · intro f h k
    rw [← Option.some.inj h]
    have := SM2.fermatInverse_spec SM2.N_prime SM2.two_lt_N k
    split_ifs with h0
    · show k * SM2.fermatInverse k _ % _ = 0
      rw [Nat.mul_mod, h0, Nat.zero_mul, Nat.zero_mod]
    · exact this.1 h0
  · intro f h k hk
    rw [← Option.some.inj h]
    exact (SM2.fermatInverse_spec SM2.N_prime SM2.two_lt_N k).2 hk
  · intro _ G P hG _ f h s t
    rw [← Option.some.inj h]
    show (affineOps _ _).add ((affineOps _ _).baseMult s) ((affineOps _ _).mult (xy P) t) = _
    rw [hl.base G hG s, hl.mult P t]
    exact hl.add _ _

/-- Computable form of `Z_A`. -/
def zaC (id : Bytes) (x y : Nat) : Bytes :=
  SM2.sm3Sum (beFix 2 (8 * id.length) ++ id ++ beFix 32 SM2.a ++ beFix 32 Curves.sm2.B
    ++ beFix 32 Curves.sm2.Gx ++ beFix 32 Curves.sm2.Gy ++ beFix 32 x ++ beFix 32 y)

theorem za_eq (id : Bytes) (hid : id.length < 8192) (x y : Nat) : SM2.za id x y = zaC id x y := by
  unfold zaC SM2.za
  rw [sm3Sum_eq]
  simp only [List.length_append, beFix_length']; omega

/-- The key `327 G`: its `x` coordinate has a leading zero byte. -/
def key327 : Nat × Nat := Affine.smul Curves.sm2.P (Curves.sm2.P - 3) 327 (Curves.sm2.Gx, Curves.sm2.Gy)

/-- "abc". -/
def abc : Bytes := [0x61, 0x62, 0x63]

/-- **C41** For a public key with a leading zero byte in its `x` coordinate the digest is not the
standard's: the key `327 G`, the default id and the message "abc". -/
theorem C41_short_coordinate :
    SM2.getZ SM2.sm3Sum abc ⟨Curves.sm2, key327.1, key327.2⟩ []
      ≠ .ok (SM2.za (sm2ID []) key327.1 key327.2 ++ abc) := by
  rw [za_eq _ (by decide)]
  decide +kernel

/-- **C39** (partial) With SM3, `sm2.Verify` is exactly the standard's verification, digest included, for
public keys whose coordinates have no leading zero byte and ids the two-byte length field can hold.
Missing: the other keys, for which it is false (`C39_standard_signature_rejected`). -/
theorem C39_verify_standard_partial (E : SM2.Ext) (hE : E.Lawful) (G : SM2.Point)
    (hG : xy G = (Curves.sm2.Gx, Curves.sm2.Gy)) (P : SM2.Point) (hP : P ≠ 0) (pub : ECPub)
    (hc : pub.curve = Curves.sm2) (hpub : (pub.x, pub.y) = xy P)
    (hx : 2 ^ 248 ≤ pub.x) (hy : 2 ^ 248 ≤ pub.y) (id msg : Bytes) (hid : id.length < 8192)
    (hmsg : msg.length < 2 ^ 60) (r s : Int) :
    SM2.verify E SM2.sm3Sum pub id msg r s = true ↔
      SM2.Accepts G P (SM2.digest (sm2ID id) pub.x pub.y msg) r s := by
  obtain ⟨-, hx', hy'⟩ := Affine.xy_onCurve P hP
  rw [← hpub] at hx' hy'
  have hlt : Curves.sm2.P < 2 ^ 256 := by decide +kernel
  rw [SM2.verify_iff hE _ hG hP hc hpub id msg _
    (C41_digest_partial pub hc hx (hx'.trans hlt) hy (hy'.trans hlt) id msg hid)]
  rw [sm3Sum_eq]
  · rfl
  · have : (SM2.za (sm2ID id) pub.x pub.y).length = 32 := SM3.spec_hash_length _
    rw [List.length_append, this]; omega

/-- A signature by `327 G` on "abc" under the default id, made as the standard says with nonce 7. -/
def sig327 : Int × Int :=
  (0x3818ce31821c0b8d253612c7d6e86f501a6276cee890d367c412aa56f344845,
   0x7c812fa3578d2dea1557055dcac16b678f8f05482f9102ae2c6e2df0da8a043a)

/-- The check of `sig327` for a digest of given bytes, by the reference implementation. -/
def check327 : Res Bytes → Bool
  | .ok mz => SM2.verify refSM2 (fun _ => bytesOfNat (natOfBytes (SM2.sm3Sum mz)))
      ⟨Curves.sm2, key327.1, key327.2⟩ [] [] sig327.1 sig327.2
  | _ => true

theorem check327_false :
    check327 (SM2.getZ SM2.sm3Sum abc ⟨Curves.sm2, key327.1, key327.2⟩ []) = false := by
  decide +kernel

/-- **C39** A signature that the standard's verification accepts and `sm2.Verify` rejects, whatever the
curve implementation: the public key `327 G` has a leading zero byte in `x`. -/
theorem C39_standard_signature_rejected (E : SM2.Ext) (hE : E.Lawful) (G : SM2.Point)
    (hG : xy G = (Curves.sm2.Gx, Curves.sm2.Gy)) :
    SM2.Accepts G (327 • G) (SM2.digest (sm2ID []) (xy (327 • G)).1 (xy (327 • G)).2 abc)
        sig327.1 sig327.2 ∧
      SM2.verify E SM2.sm3Sum ⟨Curves.sm2, (xy (327 • G)).1, (xy (327 • G)).2⟩ [] abc
        sig327.1 sig327.2 = false := by
  have hG0 : G ≠ 0 := good_sm2.G_ne_zero hG
  have hP : (327 : ℕ) • G ≠ 0 := by
    rw [Ne, good_sm2.smul_eq_zero_iff hG0]; decide +kernel
  have hk : xy (327 • G) = key327 := by
    rw [key327, ← hG]; exact (Affine.smul_eq good_sm2.ok _ Curves.sm2_aN 327 G).symm
  have hval : ∀ e : ℕ, SM2.Accepts G (327 • G) e sig327.1 sig327.2 ↔
      SM2.verify refSM2 (fun _ => bytesOfNat e) ⟨Curves.sm2, key327.1, key327.2⟩ [] [] sig327.1 sig327.2
        = true := by
    intro e
    rw [C39_verify_iff refSM2 refSM2_lawful (fun _ => bytesOfNat e) G hG _ hP
      ⟨Curves.sm2, key327.1, key327.2⟩ rfl (by rw [hk]) [] []]
    simp only [SM2.natOfBytes_bytesOfNat]
    constructor
    · intro h; exact ⟨_, if_neg (by simp), h⟩
    · rintro ⟨_, _, h⟩; exact h
  constructor
  · rw [hval, hk, SM2.digest, ← sm3Sum_eq, za_eq _ (by decide)]
    · decide +kernel
    · rw [za_eq _ (by decide)]; decide +kernel
  · rw [Bool.eq_false_iff, Ne, hk]
    rw [C39_verify_iff E hE SM2.sm3Sum G hG _ hP ⟨Curves.sm2, key327.1, key327.2⟩ rfl (by rw [hk]) [] abc]
    rintro ⟨mz, hz, ha⟩
    rw [hval] at ha
    exact Bool.false_ne_true (check327_false.symm.trans (by rw [hz]; exact ha))

/-! ## C40 -/

/-- **C40** `sm2.Sign` returns the standard's numbers for some nonce `k` in `[1, n-2]`, where `e` is the
digest of the signed bytes: `r = e + x(kG)`, `s (1 + d) = k - r d (mod n)`, both in `[1, n-1]`. -/
theorem C40_sign_values (E : SM2.Ext) (hE : E.Lawful) (H : Bytes → Bytes) (G : SM2.Point)
    (hG : xy G = (Curves.sm2.Gx, Curves.sm2.Gy)) (priv : ECPriv)
    (fuel : Nat) (rand id msg : Bytes) (r s : Nat)
    (hs : SM2.sign E H fuel rand priv id msg = some (.ok (r, s))) :
    1 ≤ r ∧ r < SM2.n ∧ 1 ≤ s ∧ s < SM2.n ∧
    ∃ mz k, SM2.getZ H msg priv.pub id = .ok mz ∧ 1 ≤ k ∧ k ≤ SM2.n - 2 ∧
      r = (natOfBytes (H mz) + (xy (k • G)).1) % SM2.n ∧
      (s * (1 + priv.D)) % (SM2.n : ℤ) = ((k : ℤ) - r * priv.D) % (SM2.n : ℤ) := by
  obtain ⟨mz, hz, hc, reads, hl⟩ := SM2.sign_ok hs
  obtain ⟨b, -, ht⟩ := SM2.signLoop_spec hl
  rw [hc] at ht
  have hk := SM2.randFieldElement_range b
  obtain ⟨hr, h1, h2, h3, h4, h5, h6⟩ := SM2.signTry_spec hE hk.1 (by omega) ht
  refine ⟨h1, h2, h3, h4, mz, _, hz, hk.1, by show _ ≤ Curves.sm2.N - 2; omega, ?_, ?_⟩
  · rw [hr, hE.base G hG, add_comm]
  · have h6' := congrArg (Nat.cast : ℕ → ℤ) h6
    have hNpos : (Curves.sm2.N : ℤ) ≠ 0 := by have := SM2.two_lt_N; omega
    have hnn := Int.emod_nonneg ((r : ℤ) + s) hNpos
    push_cast at h6'
    rw [Int.toNat_of_nonneg hnn] at h6'
    have e1 : ((s : ℤ) + ((r : ℤ) + s) % Curves.sm2.N * priv.D) ≡ s + (r + s) * priv.D [ZMOD Curves.sm2.N] :=
      Int.ModEq.add_left _ (Int.ModEq.mul_right _ (Int.mod_modEq _ _))
    have e2 : (s : ℤ) + (r + s) * priv.D ≡ SM2.randFieldElement Curves.sm2 b [ZMOD Curves.sm2.N] :=
      e1.symm.trans h6'
    have e3 := e2.sub_right ((r : ℤ) * priv.D)
    have e4 : (s : ℤ) + (r + s) * priv.D - r * priv.D = s * (1 + priv.D) := by ring
    rw [e4] at e3
    exact e3

/-- A nonce is usable: the standard does not ask for another one (`r = 0`, `r + k = n`, `s = 0`). -/
def SM2Usable (G : SM2.Point) (d e k : Nat) : Prop :=
  let r := (e + (xy (k • G)).1) % SM2.n
  r ≠ 0 ∧ r + k ≠ SM2.n ∧ ((k : ℤ) - r * d) % (SM2.n : ℤ) ≠ 0

/-- The nonce drawn from read number `i` of the nonce stream. -/
def sm2Nonce (E : SM2.Ext) (key : Bytes) (i : Nat) : Nat :=
  natOfBytes (E.ctr key (40 * i) 40) % (SM2.n - 2) + 1

/-- The key of the nonce stream: derived from the private key, the entropy and the digest. -/
def sm2StreamKey (E : SM2.Ext) (d : Nat) (rand digest : Bytes) : Bytes :=
  (E.sha512 (bytesOfNat d ++ rand.take 16 ++ digest)).take 32

theorem signTry_none_iff {E : SM2.Ext} (hE : E.Lawful) {G : SM2.Point}
    (hG : xy G = (Curves.sm2.Gx, Curves.sm2.Gy)) (d e k : Nat) :
    SM2.signTry E Curves.sm2.N d e k = none ↔ ¬ (SM2Usable G d e k ∧ (d + 1) % SM2.n ≠ 0) := by
  have hi := SM2.invOf_spec hE (d + 1)
  have hNp := SM2.N_prime
  unfold SM2.signTry SM2Usable
  rw [hE.base G hG, add_comm (xy (k • G)).1 e]
  show _ ↔ ¬ (((_ : Prop) ∧ _ ∧ _) ∧ (d + 1) % Curves.sm2.N ≠ 0)
  simp only [SM2.n, SM2.crv]
  generalize Curves.sm2.N = N at *
  generalize (e + (xy (k • G)).1) % N = r
  haveI : Fact N.Prime := ⟨hNp⟩
  have key : ((k : ℤ) - (d * r : ℕ)) * (SM2.invOf E N (d + 1) : ℤ) % (N : ℤ) ≠ 0 ↔
      (d + 1) % N ≠ 0 ∧ ((k : ℤ) - r * d) % (N : ℤ) ≠ 0 := by
    have cz : ∀ z : ℤ, z % (N : ℤ) = 0 ↔ (z : ZMod N) = 0 := fun z => by
      rw [ZMod.intCast_zmod_eq_zero_iff_dvd, Int.dvd_iff_emod_eq_zero]
    simp only [ne_eq, cz]
    push_cast
    by_cases h0 : (d + 1) % N = 0
    · have : ((SM2.invOf E N (d + 1) : ℕ) : ZMod N) = 0 := by
        rw [ZMod.natCast_eq_zero_iff]; exact Nat.dvd_of_mod_eq_zero (hi.2 h0)
      simp [h0, this]
    · have : ((d : ZMod N) + 1) * ((SM2.invOf E N (d + 1) : ℕ) : ZMod N) = 1 := by
        have h1 : (((d + 1) * SM2.invOf E N (d + 1) : ℕ) : ZMod N) = ((1 : ℕ) : ZMod N) := by
          rw [ZMod.natCast_eq_natCast_iff', hi.1 h0, Nat.mod_eq_of_lt hNp.one_lt]
        push_cast at h1; exact h1
      have hne : ((SM2.invOf E N (d + 1) : ℕ) : ZMod N) ≠ 0 := right_ne_zero_of_mul (this ▸ one_ne_zero)
      simp only [h0, not_false_eq_true, true_and, ne_eq, mul_eq_zero, hne, or_false]
      rw [mul_comm]
  by_cases hc : r ≠ 0 ∧ r + k ≠ N
  · rw [if_pos hc]
    by_cases hs : ((k : ℤ) - (d * r : ℕ)) * (SM2.invOf E N (d + 1) : ℤ) % (N : ℤ) ≠ 0
    · rw [if_pos hs]
      have := key.1 hs
      simp [hc, this]
    · rw [if_neg hs]
      have h' := fun h => hs (key.2 h)
      simp only [true_iff]
      rintro ⟨⟨-, -, h3⟩, h4⟩
      exact h' ⟨h4, h3⟩
  · rw [if_neg hc]
    simp only [true_iff]
    rintro ⟨⟨h1, h2, -⟩, -⟩
    exact hc ⟨h1, h2⟩

/-- **C40** With 16 bytes of entropy, signing on the SM2 curve returns within `fuel` nonces exactly when one
of the first `fuel` nonces of the stream is usable and the private key is not `-1` modulo the order. It
then returns a signature, never an error. Missing: the private key `n - 1`, for which the claim is false
(`C40_minus_one_diverges`). -/
theorem C40_terminates_iff_partial (E : SM2.Ext) (hE : E.Lawful) (H : Bytes → Bytes) (G : SM2.Point)
    (hG : xy G = (Curves.sm2.Gx, Curves.sm2.Gy)) (priv : ECPriv) (hc : priv.pub.curve = Curves.sm2)
    (fuel : Nat) (rand id msg mz : Bytes) (hr : 16 ≤ rand.length)
    (hz : SM2.getZ H msg priv.pub id = .ok mz) :
    (∃ r s, SM2.sign E H fuel rand priv id msg = some (.ok (r, s))) ↔
      (priv.D + 1) % SM2.n ≠ 0 ∧ ∃ i < fuel, SM2Usable G priv.D (natOfBytes (H mz))
        (sm2Nonce E (sm2StreamKey E priv.D rand (H mz)) i) := by
  have he : SM2.entropyLen Curves.sm2 = 16 := by decide
  have hrl : SM2.readLen Curves.sm2 = 40 := by decide
  have hform : SM2.sign E H fuel rand priv id msg = (SM2.signLoop E Curves.sm2 priv.D (natOfBytes (H mz))
      (SM2.nonceReads E Curves.sm2 (sm2StreamKey E priv.D rand (H mz)) fuel)).map Res.ok := by
    unfold SM2.sign sm2StreamKey
    simp only [hz, hc, he, SM2.natOfBytes_bytesOfNat]
    rw [if_neg (by omega)]
  rw [hform]
  have hne : (∃ r s, (SM2.signLoop E Curves.sm2 priv.D (natOfBytes (H mz))
      (SM2.nonceReads E Curves.sm2 (sm2StreamKey E priv.D rand (H mz)) fuel)).map Res.ok = some (.ok (r, s)))
      ↔ SM2.signLoop E Curves.sm2 priv.D (natOfBytes (H mz))
      (SM2.nonceReads E Curves.sm2 (sm2StreamKey E priv.D rand (H mz)) fuel) ≠ none := by
    cases SM2.signLoop E Curves.sm2 priv.D (natOfBytes (H mz))
      (SM2.nonceReads E Curves.sm2 (sm2StreamKey E priv.D rand (H mz)) fuel) with
    | none => simp
    | some rs => exact ⟨fun _ => by simp, fun _ => ⟨rs.1, rs.2, rfl⟩⟩
  rw [hne, Ne, SM2.signLoop_none]
  simp only [SM2.nonceReads, List.mem_map, List.mem_range, hrl, forall_exists_index, and_imp,
    forall_apply_eq_imp_iff₂, signTry_none_iff hE hG, not_forall, not_not]
  constructor
  · rintro ⟨i, hi, h1, h2⟩
    exact ⟨h2, i, hi, h1⟩
  · rintro ⟨h2, i, hi, h1⟩
    exact ⟨i, hi, h1, h2⟩

/-- **C40** The valid-looking private key `n - 1`: signing never returns, whatever the random input. -/
theorem C40_minus_one_diverges (E : SM2.Ext) (hE : E.Lawful) (H : Bytes → Bytes) (pub : ECPub)
    (hc : pub.curve = Curves.sm2) (fuel : Nat) (rand id msg : Bytes) (hr : 16 ≤ rand.length) :
    SM2.sign E H fuel rand ⟨SM2.n - 1, pub⟩ id msg = none := by
  obtain ⟨G, hG⟩ := good_sm2.exists_G
  obtain ⟨mz, hz⟩ : ∃ mz, SM2.getZ H msg pub id = .ok mz := by
    unfold SM2.getZ; rw [if_neg (by simp [hc])]; exact ⟨_, rfl⟩
  have h := C40_terminates_iff_partial E hE H G hG ⟨SM2.n - 1, pub⟩ hc fuel rand id msg mz hr hz
  have hno : ¬ ∃ r s, SM2.sign E H fuel rand ⟨SM2.n - 1, pub⟩ id msg = some (.ok (r, s)) := by
    rw [h]; rintro ⟨h0, -⟩; exact h0 (show (SM2.n - 1 + 1) % SM2.n = 0 by decide +kernel)
  have he : SM2.entropyLen Curves.sm2 = 16 := by decide
  revert hno
  unfold SM2.sign
  simp only [hz, hc, he]
  rw [if_neg (by omega)]
  cases SM2.signLoop E Curves.sm2 _ _ _ with
  | none => intro _; rfl
  | some rs => intro hno; exact absurd ⟨rs.1, rs.2, rfl⟩ hno

/-! ## Non-vacuity -/

/-- A key pair: `d = 2`. -/
def priv2 : ECPriv :=
  ⟨2, Curves.sm2, (Affine.smul Curves.sm2.P (Curves.sm2.P - 3) 2 (Curves.sm2.Gx, Curves.sm2.Gy)).1,
    (Affine.smul Curves.sm2.P (Curves.sm2.P - 3) 2 (Curves.sm2.Gx, Curves.sm2.Gy)).2⟩

theorem priv2_pair (G : SM2.Point) (hG : xy G = (Curves.sm2.Gx, Curves.sm2.Gy)) : SM2Pair G priv2 := by
  refine ⟨rfl, by decide +kernel, ?_⟩
  simp only [priv2]
  rw [← hG, Affine.smul_eq good_sm2.ok _ Curves.sm2_aN 2 G]

/-- Signing with the reference implementation returns. -/
example : ∃ r s, SM2.sign refSM2 SM2.sm3Sum 1 (zeros 16) priv2 [] abc = some (.ok (r, s)) := by
  have h : (match SM2.sign refSM2 SM2.sm3Sum 1 (zeros 16) priv2 [] abc with
    | some (.ok _) => true | _ => false) = true := by decide +kernel
  split at h
  next rs hrs => exact ⟨rs.1, rs.2, hrs⟩
  next => cases h

example : ∃ r s, SM2.sign refSM2opt SM2.sm3Sum 1 (zeros 16) priv2 [] abc = some (.ok (r, s)) := by
  have h : (match SM2.sign refSM2opt SM2.sm3Sum 1 (zeros 16) priv2 [] abc with
    | some (.ok _) => true | _ => false) = true := by decide +kernel
  split at h
  next rs hrs => exact ⟨rs.1, rs.2, hrs⟩
  next => cases h

/-- Keys with full-length coordinates exist. -/
example : 2 ^ 248 ≤ priv2.pub.x ∧ 2 ^ 248 ≤ priv2.pub.y ∧ priv2.pub.x < 2 ^ 256 ∧ priv2.pub.y < 2 ^ 256 := by
  decide +kernel

end Verif.Props
