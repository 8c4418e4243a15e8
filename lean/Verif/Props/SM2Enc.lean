import Verif.Lemmas.SM2Enc
import Verif.Props.SM2Sign
/-!
# C42-C44, C69, C70: SM2 public-key encryption

Specification: `Verif.Spec.SM2` (Spec/SM2.lean). Model: `Verif.SM2` (Model/SM2.lean).
-/
namespace Verif.Props
open Verif Verif.Spec

/-! ## C44: key derivation -/

/-- **C44** The mask that `Encrypt` and `Decrypt` use for the shared bytes `z` is the standard's key
derivation, for every length. No mask is returned exactly when all of its first `len(z)` bytes are zero. -/
theorem C44_kdf (z : Bytes) (hz : z.length < 2 ^ 60) (n : Nat) :
    SM2.sm3kdf z n = if ∀ b ∈ (SM2.kdf z n).take z.length, b = 0 then none else some (SM2.kdf z n) :=
  SM2.sm3kdf_eq z hz n

/-- The mask has the requested length. -/
theorem C44_kdf_length (z : Bytes) (n : Nat) : (SM2.kdf z n).length = n := SM2.kdf_length z n

/-- Non-vacuity: a mask of 70 bytes is returned for 64 zero bytes. -/
example : ∃ t, SM2.sm3kdf (zeros 64) 70 = some t ∧ t.length = 70 := by
  have h : ((SM2.sm3kdf (zeros 64) 70).map List.length) = some 70 := by decide +kernel
  cases h' : SM2.sm3kdf (zeros 64) 70 with
  | none => rw [h'] at h; cases h
  | some t => rw [h'] at h; exact ⟨t, rfl, Option.some.inj h⟩

/-! ## The format -/

/-- `x ‖ y` of a point. -/
def pointBytes (P : SM2.Point) : Bytes := beFix 32 (xy P).1 ++ beFix 32 (xy P).2

/-- The nonce `k` gives a mask that the library uses: one of its first 64 bytes is not zero. -/
def sm2MaskOk (P : SM2.Point) (k : Nat) (m : Bytes) : Prop :=
  ∃ b ∈ (SM2.kdf (pointBytes (k • P)) m.length).take 64, b ≠ 0

/-- The library's ciphertext for the nonce `k`: as in the standard, but `y₂` is hashed without its leading
zero bytes, which are appended instead. -/
def sm2Cipher (G P : SM2.Point) (k : Nat) (m : Bytes) : Bytes :=
  pointBytes (k • G)
    ++ Spec.SM3.hash (beFix 32 (xy (k • P)).1 ++ m
        ++ (bytesOfNat (xy (k • P)).2 ++ zeros (32 - byteLen (xy (k • P)).2)))
    ++ SM2.xor m (SM2.kdf (pointBytes (k • P)) m.length)

/-- The nonce drawn from read `i` by `Encrypt`. -/
def sm2EncNonce (E : SM2.Ext) (pub : ECPub) (rand m : Bytes) (i : Nat) : Nat :=
  sm2Nonce E ((E.sha512 (bytesOfNat pub.x ++ rand.take 16 ++ Spec.SM3.hash m)).take 32) i

theorem maskOk_iff (P : SM2.Point) (k : Nat) (m : Bytes) :
    sm2MaskOk P k m ↔ ¬ SM2.ZeroMask (k • P) m.length := by
  unfold sm2MaskOk SM2.ZeroMask SM2.shared pointBytes
  push Not
  rfl

theorem mac_eq (P : SM2.Point) (m : Bytes) (h : m.length < 2 ^ 60) :
    SM2.mac P m = Spec.SM3.hash (beFix 32 (xy P).1 ++ m
      ++ (bytesOfNat (xy P).2 ++ zeros (32 - byteLen (xy P).2))) := by
  have := SM2.xy_byteLen P
  unfold SM2.mac
  rw [SM2.sm3Sum_spec]
  simp only [List.length_append, SM2.beFix_len, SM2.bytesOfNat_len, SM2.zeros_length]
  omega

/-- `Encrypt` in terms of its loop. -/
theorem encrypt_eq_loop (E : SM2.Ext) (fuel : Nat) (rand : Bytes) (pub : ECPub) (m : Bytes)
    (hc : pub.curve = Curves.sm2) (hr : 16 ≤ rand.length) (hm : m.length < 2 ^ 60) :
    SM2.encrypt E fuel rand pub m = SM2.encryptLoop E pub m
      ((List.range fuel).map fun i =>
        E.ctr ((E.sha512 (bytesOfNat pub.x ++ rand.take 16 ++ Spec.SM3.hash m)).take 32) (40 * i) 40)
      (zeros 32 ++ zeros 32 ++ (zeros 32 ++ zeros m.length)) := by
  have he : SM2.entropyLen Curves.sm2 = 16 := by decide
  have hrl : SM2.readLen Curves.sm2 = 40 := by decide
  have hz : zeros (96 + m.length) = zeros 32 ++ zeros 32 ++ (zeros 32 ++ zeros m.length) := by
    unfold zeros
    simp only [List.replicate_append_replicate]
    congr 1; omega
  unfold SM2.encrypt
  rw [if_neg (by simp [hc])]
  simp only [hc, he, SM2.nonceReads, hrl]
  rw [if_neg (by omega), SM2.sm3Sum_spec m (by omega), hz]

theorem randField_eq (b : Bytes) : SM2.randFieldElement Curves.sm2 b = natOfBytes b % (SM2.n - 2) + 1 := rfl

/-- The ciphertext that `Encrypt` returns: `j` is the first nonce whose mask is used. -/
theorem encrypt_run (E : SM2.Ext) (hE : E.Lawful) (G : SM2.Point)
    (hG : xy G = (Curves.sm2.Gx, Curves.sm2.Gy)) (P : SM2.Point) (hP : P ≠ 0) (pub : ECPub)
    (hc : pub.curve = Curves.sm2) (hpub : (pub.x, pub.y) = xy P) (fuel : Nat) (rand m : Bytes)
    (hr : 16 ≤ rand.length) (hm : m.length < 2 ^ 60) (j : Nat) (hj : j < fuel)
    (hbefore : ∀ i < j, ¬ sm2MaskOk P (sm2EncNonce E pub rand m i) m)
    (hgood : sm2MaskOk P (sm2EncNonce E pub rand m j) m) :
    SM2.encrypt E fuel rand pub m = some (.ok (
      SM2.overlay ((List.range j).foldl (fun a i => SM2.overlay a (xy (sm2EncNonce E pub rand m i • G)).1)
          (zeros 32)) (xy (sm2EncNonce E pub rand m j • G)).1
      ++ SM2.overlay ((List.range j).foldl (fun a i => SM2.overlay a (xy (sm2EncNonce E pub rand m i • G)).2)
          (zeros 32)) (xy (sm2EncNonce E pub rand m j • G)).2
      ++ (SM2.mac (sm2EncNonce E pub rand m j • P) m
        ++ SM2.xor m (SM2.kdf (pointBytes (sm2EncNonce E pub rand m j • P)) m.length)))) := by
  rw [encrypt_eq_loop E fuel rand pub m hc hr hm]
  have hsplit : List.range fuel = List.range j ++ j :: (List.range (fuel - j - 1)).map (· + (j + 1)) := by
    have h1 : fuel = (j + 1) + (fuel - j - 1) := by omega
    conv_lhs => rw [h1, List.range_add, List.range_succ]
    simp [Nat.add_comm]
  rw [hsplit, List.map_append, List.map_cons]
  rw [SM2.encryptLoop_run hE hG hP hc hpub m hm _ _ _ ?_ ?_ (zeros 32) (zeros 32) (zeros 32) (zeros m.length)
    rfl rfl rfl (SM2.zeros_length _)]
  · simp only [List.foldl_map]
    rfl
  · intro b hb
    simp only [List.mem_map, List.mem_range] at hb
    obtain ⟨i, hi, rfl⟩ := hb
    have := hbefore i hi
    rw [maskOk_iff, not_not] at this
    exact this
  · exact (maskOk_iff _ _ _).1 hgood

/-- The ciphertext is the format's one when no discarded nonce left a longer coordinate behind. -/
theorem encrypt_ok (E : SM2.Ext) (hE : E.Lawful) (G : SM2.Point)
    (hG : xy G = (Curves.sm2.Gx, Curves.sm2.Gy)) (P : SM2.Point) (hP : P ≠ 0) (pub : ECPub)
    (hc : pub.curve = Curves.sm2) (hpub : (pub.x, pub.y) = xy P) (fuel : Nat) (rand m : Bytes)
    (hr : 16 ≤ rand.length) (hm : m.length < 2 ^ 60) (j : Nat) (hj : j < fuel)
    (hbefore : ∀ i < j, ¬ sm2MaskOk P (sm2EncNonce E pub rand m i) m)
    (hgood : sm2MaskOk P (sm2EncNonce E pub rand m j) m)
    (hlen : ∀ i < j, byteLen (xy (sm2EncNonce E pub rand m i • G)).1
        ≤ byteLen (xy (sm2EncNonce E pub rand m j • G)).1 ∧
      byteLen (xy (sm2EncNonce E pub rand m i • G)).2 ≤ byteLen (xy (sm2EncNonce E pub rand m j • G)).2) :
    SM2.encrypt E fuel rand pub m = some (.ok (sm2Cipher G P (sm2EncNonce E pub rand m j) m)) := by
  rw [encrypt_run E hE G hG P hP pub hc hpub fuel rand m hr hm j hj hbefore hgood]
  have hb := SM2.xy_byteLen (sm2EncNonce E pub rand m j • G)
  rw [SM2.foldl_overlay _ _ _ hb.1 (fun i hi => (hlen i (List.mem_range.1 hi)).1),
    SM2.foldl_overlay _ _ _ hb.2 (fun i hi => (hlen i (List.mem_range.1 hi)).2), mac_eq _ _ hm]
  unfold sm2Cipher
  simp only [pointBytes, List.append_assoc]

theorem sm2EncNonce_range (E : SM2.Ext) (pub : ECPub) (rand m : Bytes) (i : Nat) :
    1 ≤ sm2EncNonce E pub rand m i ∧ sm2EncNonce E pub rand m i < SM2.n - 1 :=
  SM2.randFieldElement_range _

theorem hash_length (m : Bytes) : (Spec.SM3.hash m).length = 32 := SM3.spec_hash_length m

/-- Parts of a ciphertext. -/
theorem cipher_parts {C1 c3 c2 spare : Bytes} (h1 : C1.length = 64) (h3 : c3.length = 32) :
    64 ≤ (C1 ++ c3 ++ c2 ++ spare).length ∧
    (C1 ++ c3 ++ c2 ++ spare).take 32 = C1.take 32 ∧
    ((C1 ++ c3 ++ c2 ++ spare).drop 32).take 32 = C1.drop 32 ∧
    ((C1 ++ c3 ++ c2).drop 64).take 32 = c3 ∧ (C1 ++ c3 ++ c2).drop 96 = c2 ∧
    (C1 ++ c3 ++ c2).length - 96 = c2.length := by
  refine ⟨by simp; omega, ?_, ?_, ?_, ?_, ?_⟩
  · rw [List.append_assoc, List.append_assoc, List.take_append_of_le_length (by omega)]
  · rw [List.append_assoc, List.append_assoc, List.drop_append_of_le_length (by omega),
      List.take_append_of_le_length (by simp; omega), List.take_of_length_le (by simp; omega)]
  · rw [List.append_assoc, List.drop_append, List.drop_of_length_le (by omega), h1]
    simp [← h3]
  · rw [List.drop_append, List.drop_of_length_le (by simp; omega)]
    simp [h1, h3]
  · simp; omega

/-- Decryption of a string with `C1 = k G` in reduced form. -/
theorem decrypt_of_C1 (E : SM2.Ext) (hE : E.Lawful) (G : SM2.Point)
    (hG : xy G = (Curves.sm2.Gx, Curves.sm2.Gy)) (priv : ECPriv) (hc : priv.pub.curve = Curves.sm2)
    (k : Nat) (hk1 : 1 ≤ k) (hk : k < SM2.n) (m c3 c2 spare : Bytes) (hc3 : c3.length = 32)
    (hm : m.length < 2 ^ 60)
    (hc2 : c2 = SM2.xor m (SM2.kdf (pointBytes (k • priv.D • G)) m.length))
    (hok : sm2MaskOk (priv.D • G) k m) :
    SM2.decrypt E priv (pointBytes (k • G) ++ c3 ++ c2) spare = .ok (some m,
      if c3 = Spec.SM3.hash (beFix 32 (xy (k • priv.D • G)).1 ++ m ++ (bytesOfNat (xy (k • priv.D • G)).2
        ++ zeros (32 - byteLen (xy (k • priv.D • G)).2))) then none else some "Hash not match!") := by
  classical
  have hG0 : G ≠ 0 := good_sm2.G_ne_zero hG
  have hC : k • G ≠ 0 := good_sm2.smul_ne_zero hG0 hk1 hk
  obtain ⟨hon, hx, hy⟩ := Affine.xy_onCurve (k • G) hC
  have hlen : (pointBytes (k • G)).length = 64 := by simp [pointBytes, SM2.beFix_len]
  obtain ⟨p1, p2, p3, p4, p5, p6⟩ := cipher_parts (c2 := c2) (spare := spare) hlen hc3
  have hb := SM2.xy_byteLen (k • G)
  have hx1 : natOfBytes ((pointBytes (k • G)).take 32) = (xy (k • G)).1 := by
    rw [pointBytes, List.take_append_of_le_length (by rw [SM2.beFix_len]),
      List.take_of_length_le (by rw [SM2.beFix_len]), natOfBytes_beFix_of_lt (byteLen_le_iff.1 hb.1)]
  have hy1 : natOfBytes ((pointBytes (k • G)).drop 32) = (xy (k • G)).2 := by
    rw [pointBytes, List.drop_append, List.drop_of_length_le (by rw [SM2.beFix_len]), SM2.beFix_len]
    simp only [Nat.sub_self, List.drop_zero, List.nil_append]
    exact natOfBytes_beFix_of_lt (byteLen_le_iff.1 hb.2)
  have hcomm : priv.D • k • G = k • priv.D • G := by rw [smul_smul, smul_smul, mul_comm]
  have hc2l : c2.length = m.length := by
    rw [hc2, SM2.xor, List.length_zipWith, SM2.kdf_length]; omega
  have hmsg : SM2.xor c2 (SM2.kdf (SM2.shared (k • priv.D • G)) c2.length) = m := by
    rw [hc2l, hc2]
    exact SM2.xor_xor m _ (SM2.kdf_length _ _).symm
  rw [SM2.decrypt_eq hE hc p1 hC (by rw [p2, p3, hx1, hy1]; exact hE.onCurve' _ _ hx hy hon)
    (by rw [p2, p3, hx1, hy1, Nat.mod_eq_of_lt hx, Nat.mod_eq_of_lt hy])]
  rw [p4, p5, p6, hcomm, hmsg, hc2l]
  rw [if_neg ((maskOk_iff _ _ _).1 hok), mac_eq _ _ hm]
  by_cases he : c3 = Spec.SM3.hash (beFix 32 (xy (k • priv.D • G)).1 ++ m ++ (bytesOfNat (xy (k • priv.D • G)).2
        ++ zeros (32 - byteLen (xy (k • priv.D • G)).2)))
  · rw [if_pos he, if_neg (by simpa using he.symm)]
  · rw [if_neg he, if_pos (fun h => he h.symm)]

/-! ## C42 -/

/-- **C42** (partial) Encryption for a key pair returns, and decryption gives the message back, whenever
some nonce of the stream has a usable mask (`j` is the first), and no discarded nonce's point has a
longer coordinate than the point that is used. In particular always when the first nonce is used (`j = 0`).
Missing: discarded nonces with a longer coordinate; for those it is false (`C42_stale_bytes`). -/
theorem C42_roundtrip_partial (E : SM2.Ext) (hE : E.Lawful) (G : SM2.Point)
    (hG : xy G = (Curves.sm2.Gx, Curves.sm2.Gy)) (priv : ECPriv) (hp : SM2Pair G priv)
    (fuel : Nat) (rand m : Bytes) (hr : 16 ≤ rand.length) (hm : m.length < 2 ^ 60) (j : Nat) (hj : j < fuel)
    (hbefore : ∀ i < j, ¬ sm2MaskOk (priv.D • G) (sm2EncNonce E priv.pub rand m i) m)
    (hgood : sm2MaskOk (priv.D • G) (sm2EncNonce E priv.pub rand m j) m)
    (hlen : ∀ i < j, byteLen (xy (sm2EncNonce E priv.pub rand m i • G)).1
        ≤ byteLen (xy (sm2EncNonce E priv.pub rand m j • G)).1 ∧
      byteLen (xy (sm2EncNonce E priv.pub rand m i • G)).2
        ≤ byteLen (xy (sm2EncNonce E priv.pub rand m j • G)).2) :
    ∃ ct, SM2.encrypt E fuel rand priv.pub m = some (.ok ct) ∧
      ∀ spare, SM2.decrypt E priv ct spare = .ok (some m, none) := by
  obtain ⟨hc, hD, hpub⟩ := hp
  have hG0 : G ≠ 0 := good_sm2.G_ne_zero hG
  have hP : priv.D • G ≠ 0 := by rw [Ne, good_sm2.smul_eq_zero_iff hG0]; exact hD
  refine ⟨_, encrypt_ok E hE G hG _ hP priv.pub hc hpub fuel rand m hr hm j hj hbefore hgood hlen, ?_⟩
  intro spare
  have hk := sm2EncNonce_range E priv.pub rand m j
  unfold sm2Cipher
  rw [decrypt_of_C1 E hE G hG priv hc _ hk.1 (by omega) m _ _ spare (hash_length _) hm rfl hgood, if_pos rfl]

/-- **C70** (partial) `Encrypt` returns within `fuel` nonces exactly when one of them has a usable mask. Missing:
an empty message has none (`C70_empty_message_diverges`). -/
theorem C70_encrypt_returns_iff_partial (E : SM2.Ext) (hE : E.Lawful) (G : SM2.Point)
    (hG : xy G = (Curves.sm2.Gx, Curves.sm2.Gy)) (P : SM2.Point) (hP : P ≠ 0) (pub : ECPub)
    (hc : pub.curve = Curves.sm2) (hpub : (pub.x, pub.y) = xy P) (fuel : Nat) (rand m : Bytes)
    (hr : 16 ≤ rand.length) (hm : m.length < 2 ^ 60) :
    (∃ ct, SM2.encrypt E fuel rand pub m = some (.ok ct)) ↔
      ∃ i < fuel, sm2MaskOk P (sm2EncNonce E pub rand m i) m := by
  classical
  constructor
  · rintro ⟨ct, h⟩
    by_contra hno
    push Not at hno
    rw [encrypt_eq_loop E fuel rand pub m hc hr hm,
      SM2.encryptLoop_none hE hG hP hc hpub m hm _ ?_ (zeros 32) (zeros 32) (zeros 32) (zeros m.length)
        rfl rfl rfl (SM2.zeros_length _)] at h
    · cases h
    · intro b hb
      simp only [List.mem_map, List.mem_range] at hb
      obtain ⟨i, hi, rfl⟩ := hb
      have := hno i hi
      rw [maskOk_iff, not_not] at this
      exact this
  · intro hex
    have hj := Nat.find_spec hex
    have hmin := fun i => Nat.find_min hex (m := i)
    exact ⟨_, encrypt_run E hE G hG P hP pub hc hpub fuel rand m hr hm (Nat.find hex) hj.1
      (fun i hi hok => hmin i hi ⟨by omega, hok⟩) hj.2⟩

/-- **C70** `Encrypt` of the empty message never returns, for any valid public key and random input. -/
theorem C70_empty_message_diverges (E : SM2.Ext) (hE : E.Lawful) (P : SM2.Point) (hP : P ≠ 0) (pub : ECPub)
    (hc : pub.curve = Curves.sm2) (hpub : (pub.x, pub.y) = xy P) (fuel : Nat) (rand : Bytes)
    (hr : 16 ≤ rand.length) : SM2.encrypt E fuel rand pub [] = none := by
  obtain ⟨G, hG⟩ := good_sm2.exists_G
  rw [encrypt_eq_loop E fuel rand pub [] hc hr (by simp)]
  refine SM2.encryptLoop_none hE hG hP hc hpub [] (by simp) _ ?_ (zeros 32) (zeros 32) (zeros 32) _
    rfl rfl rfl rfl
  intro b _ x hx
  have : SM2.kdf (SM2.shared (SM2.randFieldElement Curves.sm2 b • P)) ([] : Bytes).length = [] :=
    List.eq_nil_of_length_eq_zero (SM2.kdf_length _ _)
  rw [this] at hx
  simp at hx

/-! ## C43 -/

/-- **C43** `Decrypt` panics exactly on slices with a capacity below 64 bytes. -/
theorem C43_panics_iff (E : SM2.Ext) (hE : E.Lawful) (priv : ECPriv) (hc : priv.pub.curve = Curves.sm2)
    (data spare : Bytes) :
    (SM2.decrypt E priv data spare).isPanic = true ↔ data.length + spare.length < 64 := by
  classical
  by_cases hl : data.length + spare.length < 64
  · have : SM2.decrypt E priv data spare = .panic "slice bounds out of range" := by
      unfold SM2.decrypt
      rw [if_neg (by simp [hc])]
      simp only
      rw [if_pos (by simpa using hl)]
    rw [this]; simp [hl]
  · have hl' : 64 ≤ (data ++ spare).length := by simp; omega
    simp only [hl, iff_false, Bool.not_eq_true]
    by_cases h0 : natOfBytes ((data ++ spare).take 32) = 0 ∧ natOfBytes (((data ++ spare).drop 32).take 32) = 0
    · unfold SM2.decrypt
      rw [if_neg (by simp [hc])]
      simp only
      rw [if_neg (by omega), if_pos h0]; rfl
    · cases hon : E.isOnCurve (natOfBytes ((data ++ spare).take 32))
          (natOfBytes (((data ++ spare).drop 32).take 32)) with
      | false =>
        unfold SM2.decrypt
        rw [if_neg (by simp [hc])]
        simp only
        rw [if_neg (by omega), if_neg h0, if_pos hon]; rfl
      | true =>
        have hcur := hE.onCurve _ _ hon
        rw [SM2.decrypt_eq hE hc hl' (C := Affine.ofXY good_sm2.ok hcur) (Affine.ofXY_ne_zero _ _) hon ?_]
        · rfl
        · show _ = ((_ : ZMod _).val, (_ : ZMod _).val)
          rw [ZMod.val_natCast, ZMod.val_natCast]

/-- **C43** The accepted set, for every input: a nil error comes exactly with the messages `m` such that the input
is the encryption of `m` under some nonce `k`, where the coordinates of `C1` count modulo the field prime as far
as `IsOnCurve` accepts them. -/
theorem C43_accepts_iff (E : SM2.Ext) (hE : E.Lawful) (G : SM2.Point)
    (hG : xy G = (Curves.sm2.Gx, Curves.sm2.Gy)) (priv : ECPriv) (hc : priv.pub.curve = Curves.sm2)
    (data spare m : Bytes) (hd : data.length < 2 ^ 60) :
    SM2.decrypt E priv data spare = .ok (some m, none) ↔
      64 ≤ data.length ∧
      E.isOnCurve (natOfBytes (data.take 32)) (natOfBytes ((data.drop 32).take 32)) = true ∧
      ∃ k, 1 ≤ k ∧ k < SM2.n ∧ sm2MaskOk (priv.D • G) k m ∧
        (natOfBytes (data.take 32) % Curves.sm2.P, natOfBytes ((data.drop 32).take 32) % Curves.sm2.P) = xy (k • G) ∧
        data.drop 64 = (sm2Cipher G (priv.D • G) k m).drop 64 := by
  classical
  have hG0 : G ≠ 0 := good_sm2.G_ne_zero hG
  have hdrop : ∀ k, (sm2Cipher G (priv.D • G) k m).drop 64 =
      Spec.SM3.hash (beFix 32 (xy (k • priv.D • G)).1 ++ m
        ++ (bytesOfNat (xy (k • priv.D • G)).2 ++ zeros (32 - byteLen (xy (k • priv.D • G)).2)))
      ++ SM2.xor m (SM2.kdf (pointBytes (k • priv.D • G)) m.length) := by
    intro k
    unfold sm2Cipher
    rw [List.append_assoc, List.drop_left' (by simp [pointBytes, SM2.beFix_len])]
  by_cases hl : 64 ≤ data.length
  case neg =>
    simp only [hl, false_and, iff_false]
    intro h
    by_cases hl' : 64 ≤ (data ++ spare).length
    · cases hon : E.isOnCurve (natOfBytes ((data ++ spare).take 32))
          (natOfBytes (((data ++ spare).drop 32).take 32)) with
      | false =>
        unfold SM2.decrypt at h
        rw [if_neg (by simp [hc])] at h
        simp only at h
        rw [if_neg (by omega), if_pos hon] at h
        split_ifs at h <;> cases h
      | true =>
        have hcur := hE.onCurve _ _ hon
        rw [SM2.decrypt_eq hE hc hl' (C := Affine.ofXY good_sm2.ok hcur) (Affine.ofXY_ne_zero _ _) hon (by
          show _ = ((_ : ZMod _).val, (_ : ZMod _).val)
          rw [ZMod.val_natCast, ZMod.val_natCast]), if_pos] at h
        · cases h
        · rw [show data.length - 96 = 0 by omega]
          intro b hb
          rw [List.eq_nil_of_length_eq_zero (SM2.kdf_length _ 0)] at hb
          simp at hb
    · unfold SM2.decrypt at h
      rw [if_neg (by simp [hc])] at h
      simp only at h
      rw [if_pos (by omega)] at h
      cases h
  case pos =>
  have ht : (data ++ spare).take 32 = data.take 32 := List.take_append_of_le_length (by omega)
  have ht2 : ((data ++ spare).drop 32).take 32 = (data.drop 32).take 32 := by
    rw [List.drop_append_of_le_length (by omega), List.take_append_of_le_length (by simp; omega)]
  have hl' : 64 ≤ (data ++ spare).length := by simp; omega
  simp only [hl, true_and]
  cases hon : E.isOnCurve (natOfBytes (data.take 32)) (natOfBytes ((data.drop 32).take 32)) with
  | false =>
    simp only [Bool.false_eq_true, false_and, iff_false]
    intro h
    unfold SM2.decrypt at h
    rw [if_neg (by simp [hc])] at h
    simp only at h
    rw [ht, ht2, if_neg (by omega), if_pos hon] at h
    split_ifs at h <;> cases h
  | true =>
    simp only [true_and]
    have hcur := hE.onCurve _ _ hon
    have hCxy : (natOfBytes (data.take 32) % Curves.sm2.P, natOfBytes ((data.drop 32).take 32) % Curves.sm2.P) =
        xy (Affine.ofXY good_sm2.ok hcur) := by
      unfold Affine.ofXY
      rw [Affine.xy_some, ZMod.val_natCast, ZMod.val_natCast]
    have hCne := Affine.ofXY_ne_zero good_sm2.ok hcur
    generalize Affine.ofXY good_sm2.ok hcur = C at hCxy hCne
    obtain ⟨k, hk, rfl⟩ := good_sm2.exists_smul hG0 C
    have hk0 : 1 ≤ k := by
      rcases Nat.eq_zero_or_pos k with rfl | h'
      · exact absurd (zero_smul ℕ G) hCne
      · exact h'
    have hcomm : priv.D • k • G = k • priv.D • G := by rw [smul_smul, smul_smul, mul_comm]
    rw [SM2.decrypt_eq hE hc hl' hCne (by rw [ht, ht2]; exact hon) (by rw [ht, ht2]; exact hCxy), hcomm]
    constructor
    · intro h
      have hz : ¬ SM2.ZeroMask (k • priv.D • G) (data.length - 96) := by
        intro hz; rw [if_pos hz] at h; cases h
      rw [if_neg hz] at h
      have hmac : ¬ SM2.mac (k • priv.D • G) (SM2.xor (data.drop 96)
          (SM2.kdf (SM2.shared (k • priv.D • G)) (data.length - 96))) ≠ (data.drop 64).take 32 := by
        intro hm; rw [if_pos hm] at h; cases h
      rw [if_neg hmac] at h
      have hmsg : SM2.xor (data.drop 96) (SM2.kdf (SM2.shared (k • priv.D • G)) (data.length - 96)) = m := by
        injection h with h; injection h with h _; injection h
      have hmac := not_not.1 hmac
      rw [hmsg] at hmac
      have hml : m.length = data.length - 96 := by
        rw [← hmsg, SM2.xor, List.length_zipWith, SM2.kdf_length, List.length_drop]; omega
      refine ⟨k, hk0, hk, (maskOk_iff _ _ _).2 (by rw [hml]; exact hz), hCxy, ?_⟩
      rw [hdrop, ← mac_eq _ _ (by omega), hmac]
      have hx2 : SM2.xor m (SM2.kdf (pointBytes (k • priv.D • G)) m.length) = data.drop 96 := by
        rw [← hmsg, hmsg, hml]
        conv_lhs => rw [← hmsg]
        exact SM2.xor_xor _ _ (by rw [SM2.kdf_length, List.length_drop])
      rw [hx2, show data.drop 96 = (data.drop 64).drop 32 by rw [List.drop_drop], List.take_append_drop]
    · rintro ⟨k', hk1', hk', hok, hxy', hdata⟩
      have hkk : k' • G = k • G := Affine.xy_inj good_sm2.ok (hxy'.symm.trans hCxy)
      have hkk2 : k' • priv.D • G = k • priv.D • G := by
        rw [← hcomm, ← hkk, smul_smul, smul_smul, mul_comm]
      rw [hdrop, hkk2] at hdata
      have hlen : data.length - 64 = 32 + m.length := by
        rw [← List.length_drop, hdata, List.length_append, hash_length, SM2.xor, List.length_zipWith, SM2.kdf_length]
        omega
      have hml : data.length - 96 = m.length := by omega
      have hd96 : data.drop 96 = SM2.xor m (SM2.kdf (pointBytes (k • priv.D • G)) m.length) := by
        rw [show data.drop 96 = (data.drop 64).drop 32 by rw [List.drop_drop], hdata, List.drop_left' (hash_length _)]
      have hd64 : (data.drop 64).take 32 = SM2.mac (k • priv.D • G) m := by
        rw [hdata, List.take_left' (hash_length _), mac_eq _ _ (by omega)]
      have hmsg : SM2.xor (data.drop 96) (SM2.kdf (SM2.shared (k • priv.D • G)) (data.length - 96)) = m := by
        rw [hd96, hml]
        exact SM2.xor_xor _ _ (by rw [SM2.kdf_length])
      have hz : ¬ SM2.ZeroMask (k • priv.D • G) (data.length - 96) := by
        rw [hml, ← hkk2]
        exact (maskOk_iff _ _ _).1 hok
      rw [if_neg hz, hmsg, hd64, if_neg (by simp)]

/-- **C43** Nothing that `Decrypt` accepts is anything but a ciphertext of the library's format: for `C1`
coordinates below the field prime, a nil error comes exactly with the messages `m` such that the input is the
encryption of `m` under some nonce `k`. Missing: inputs with coordinates not below the prime, whose
treatment depends on `IsOnCurve` (`C43_accepts_iff`; some are accepted, `C43_unreduced_accepted`); and that no
plaintext is returned with an error, which is false (`C43_plaintext_with_error`). -/
theorem C43_accepts_iff_partial (E : SM2.Ext) (hE : E.Lawful) (G : SM2.Point)
    (hG : xy G = (Curves.sm2.Gx, Curves.sm2.Gy)) (priv : ECPriv) (hc : priv.pub.curve = Curves.sm2)
    (data spare m : Bytes) (hd : data.length < 2 ^ 60) (hl : 64 ≤ data.length)
    (hx : natOfBytes (data.take 32) < Curves.sm2.P) (hy : natOfBytes ((data.drop 32).take 32) < Curves.sm2.P) :
    SM2.decrypt E priv data spare = .ok (some m, none) ↔
      ∃ k, 1 ≤ k ∧ k < SM2.n ∧ sm2MaskOk (priv.D • G) k m ∧ data = sm2Cipher G (priv.D • G) k m := by
  classical
  have hG0 : G ≠ 0 := good_sm2.G_ne_zero hG
  constructor
  · intro h
    have ht : (data ++ spare).take 32 = data.take 32 := List.take_append_of_le_length (by omega)
    have ht2 : ((data ++ spare).drop 32).take 32 = (data.drop 32).take 32 := by
      rw [List.drop_append_of_le_length (by omega), List.take_append_of_le_length (by simp; omega)]
    have hl' : 64 ≤ (data ++ spare).length := by simp; omega
    by_cases h0 : natOfBytes ((data ++ spare).take 32) = 0 ∧ natOfBytes (((data ++ spare).drop 32).take 32) = 0
    · unfold SM2.decrypt at h
      rw [if_neg (by simp [hc])] at h
      simp only at h
      rw [if_neg (by omega), if_pos h0] at h; cases h
    · cases hon : E.isOnCurve (natOfBytes ((data ++ spare).take 32))
          (natOfBytes (((data ++ spare).drop 32).take 32)) with
      | false =>
        unfold SM2.decrypt at h
        rw [if_neg (by simp [hc])] at h
        simp only at h
        rw [if_neg (by omega), if_neg h0, if_pos hon] at h; cases h
      | true =>
        have hcur := hE.onCurve _ _ hon
        have hCxy : xy (Affine.ofXY good_sm2.ok hcur) = (natOfBytes ((data ++ spare).take 32),
            natOfBytes (((data ++ spare).drop 32).take 32)) :=
          Affine.xy_ofXY good_sm2.ok hcur (by rw [ht]; exact hx) (by rw [ht2]; exact hy)
        have hCne := Affine.ofXY_ne_zero good_sm2.ok hcur
        generalize Affine.ofXY good_sm2.ok hcur = C at hCxy hCne
        obtain ⟨k, hk, rfl⟩ := good_sm2.exists_smul hG0 C
        have hk0 : 1 ≤ k := by
          rcases Nat.eq_zero_or_pos k with rfl | h'
          · exact absurd (zero_smul ℕ G) hCne
          · exact h'
        rw [SM2.decrypt_eq hE hc hl' hCne hon (by
          rw [hCxy, Nat.mod_eq_of_lt (by rw [ht]; exact hx), Nat.mod_eq_of_lt (by rw [ht2]; exact hy)])] at h
        have hcomm : priv.D • k • G = k • priv.D • G := by rw [smul_smul, smul_smul, mul_comm]
        rw [hcomm] at h
        have hz : ¬ SM2.ZeroMask (k • priv.D • G) (data.length - 96) := by
          intro hz; rw [if_pos hz] at h; cases h
        rw [if_neg hz] at h
        have hmac : ¬ SM2.mac (k • priv.D • G) (SM2.xor (data.drop 96)
            (SM2.kdf (SM2.shared (k • priv.D • G)) (data.length - 96))) ≠ (data.drop 64).take 32 := by
          intro hm; rw [if_pos hm] at h; cases h
        rw [if_neg hmac] at h
        have hmsg : SM2.xor (data.drop 96) (SM2.kdf (SM2.shared (k • priv.D • G)) (data.length - 96)) = m := by
          injection h with h; injection h with h _; injection h
        have hmac := not_not.1 hmac
        rw [hmsg] at hmac
        have hml : m.length = data.length - 96 := by
          rw [← hmsg, SM2.xor, List.length_zipWith, SM2.kdf_length, List.length_drop]; omega
        have hne : m.length ≠ 0 := by
          intro h'
          apply hz
          intro b hb
          have : SM2.kdf (SM2.shared (k • priv.D • G)) (data.length - 96) = [] :=
            List.eq_nil_of_length_eq_zero (by rw [SM2.kdf_length]; omega)
          rw [this] at hb; simp at hb
        refine ⟨k, hk0, hk, (maskOk_iff _ _ _).2 (by rw [hml]; exact hz), ?_⟩
        have hC1 : pointBytes (k • G) = data.take 64 := by
          rw [pointBytes, hCxy, ht, ht2]
          have l1 : (data.take 32).length = 32 := by simp; omega
          have l2 : ((data.drop 32).take 32).length = 32 := by simp; omega
          have b1 := beFix_natOfBytes (data.take 32)
          have b2 := beFix_natOfBytes ((data.drop 32).take 32)
          rw [l1] at b1; rw [l2] at b2
          simp only [b1, b2]
          rw [show (64 : ℕ) = 32 + 32 from rfl, List.take_add]
        unfold sm2Cipher
        rw [← mac_eq _ _ (by omega), hmac, hC1]
        have hx2 : SM2.xor m (SM2.kdf (pointBytes (k • priv.D • G)) m.length) = data.drop 96 := by
          rw [← hmsg, hmsg, hml]
          conv_lhs => rw [← hmsg]
          exact SM2.xor_xor _ _ (by rw [SM2.kdf_length, List.length_drop])
        rw [hx2, ← List.take_add, List.take_append_drop]
  · rintro ⟨k, hk1, hk, hok, hdata⟩
    have hm : m.length < 2 ^ 60 := by
      have : (sm2Cipher G (priv.D • G) k m).length = 96 + m.length := by
        simp only [sm2Cipher, pointBytes, List.length_append, SM2.beFix_len, hash_length, SM2.xor,
          List.length_zipWith, SM2.kdf_length]
        omega
      rw [hdata, this] at hd
      omega
    rw [hdata]
    unfold sm2Cipher
    rw [decrypt_of_C1 E hE G hG priv hc k hk1 hk m _ _ spare (hash_length _) hm rfl hok, if_pos rfl]

/-- **C43** The plaintext is returned together with the error: replacing `C3` of any ciphertext by any other
32 bytes makes `Decrypt` report "Hash not match!" and still hand out the message. -/
theorem C43_plaintext_with_error (E : SM2.Ext) (hE : E.Lawful) (G : SM2.Point)
    (hG : xy G = (Curves.sm2.Gx, Curves.sm2.Gy)) (priv : ECPriv) (hc : priv.pub.curve = Curves.sm2)
    (k : Nat) (hk1 : 1 ≤ k) (hk : k < SM2.n) (m c3 spare : Bytes) (hm : m.length < 2 ^ 60)
    (hok : sm2MaskOk (priv.D • G) k m) (h3 : c3.length = 32)
    (hne : c3 ≠ ((sm2Cipher G (priv.D • G) k m).drop 64).take 32) :
    SM2.decrypt E priv ((sm2Cipher G (priv.D • G) k m).take 64 ++ c3
      ++ (sm2Cipher G (priv.D • G) k m).drop 96) spare = .ok (some m, some "Hash not match!") := by
  have hlen : (pointBytes (k • G)).length = 64 := by simp [pointBytes, SM2.beFix_len]
  unfold sm2Cipher at hne ⊢
  obtain ⟨-, -, -, p4, p5, -⟩ := cipher_parts (spare := [])
    (c2 := SM2.xor m (SM2.kdf (pointBytes (k • priv.D • G)) m.length)) hlen
    (hash_length (beFix 32 (xy (k • priv.D • G)).1 ++ m
        ++ (bytesOfNat (xy (k • priv.D • G)).2 ++ zeros (32 - byteLen (xy (k • priv.D • G)).2))))
  rw [p4] at hne
  rw [p5, List.append_assoc (pointBytes (k • G)), List.take_append_of_le_length (by omega),
    List.take_of_length_le (by omega),
    decrypt_of_C1 E hE G hG priv hc k hk1 hk m c3 _ spare h3 hm rfl hok, if_neg hne]

/-! ## C69: conformance of ciphertexts -/

/-- **C69** (partial) The library's ciphertext is the standard's `C1 ‖ C3 ‖ C2` whenever `y₂` has no
leading zero byte. Missing: the other nonces (`C69_nonstandard`). -/
theorem C69_cipher_standard_partial (G P : SM2.Point) (k : Nat) (m : Bytes)
    (hy : 2 ^ 248 ≤ (xy (k • P)).2) : sm2Cipher G P k m = SM2.cipher G P k m := by
  have hb := SM2.xy_byteLen (k • P)
  have : byteLen (xy (k • P)).2 = 32 := by
    have b : ¬ byteLen (xy (k • P)).2 ≤ 31 := by rw [byteLen_le_iff]; omega
    omega
  unfold sm2Cipher SM2.cipher pointBytes
  rw [bytesOfNat, this]
  simp [zeros]

/-- **C69** (partial) `Encrypt` returns the standard's ciphertext for the nonce it uses, when the first nonce
has a usable mask and `y₂` has no leading zero byte. -/
theorem C69_encrypt_standard_partial (E : SM2.Ext) (hE : E.Lawful) (G : SM2.Point)
    (hG : xy G = (Curves.sm2.Gx, Curves.sm2.Gy)) (P : SM2.Point) (hP : P ≠ 0) (pub : ECPub)
    (hc : pub.curve = Curves.sm2) (hpub : (pub.x, pub.y) = xy P) (fuel : Nat) (rand m : Bytes)
    (hr : 16 ≤ rand.length) (hm : m.length < 2 ^ 60) (hf : 0 < fuel)
    (hgood : sm2MaskOk P (sm2EncNonce E pub rand m 0) m)
    (hy : 2 ^ 248 ≤ (xy (sm2EncNonce E pub rand m 0 • P)).2) :
    SM2.encrypt E fuel rand pub m = some (.ok (SM2.cipher G P (sm2EncNonce E pub rand m 0) m)) := by
  rw [← C69_cipher_standard_partial G P _ m hy]
  exact encrypt_ok E hE G hG P hP pub hc hpub fuel rand m hr hm 0 hf (by simp) hgood (by simp)

/-! ## Witnesses

The key pair is `d = 2`. The nonce 103 gives a shared point with a leading zero byte in `y`; the nonce 1121
gives the one-byte mask zero; the nonce 327 gives a `C1` with a leading zero byte in `x`. -/

/-- Multiples of the base point, computed. -/
def kG (k : Nat) : Nat × Nat := Affine.smul Curves.sm2.P (Curves.sm2.P - 3) k (Curves.sm2.Gx, Curves.sm2.Gy)

theorem kG_eq (G : SM2.Point) (hG : xy G = (Curves.sm2.Gx, Curves.sm2.Gy)) (k : Nat) : xy (k • G) = kG k := by
  rw [kG, ← hG]; exact (Affine.smul_eq good_sm2.ok _ Curves.sm2_aN k G).symm

/-- `kdf` of one byte, computed. -/
theorem kdf_one (z : Bytes) (hz : z.length < 2 ^ 60) : SM2.kdf z 1 = (SM2.sm3Sum (z ++ beFix 4 1)).take 1 := by
  rw [SM2.sm3Sum_spec _ (by rw [List.length_append, SM2.beFix_len]; omega)]
  unfold SM2.kdf
  simp only [show (1 + 31) / 32 = 1 from rfl, List.range_one, List.flatMap_cons, List.flatMap_nil,
    List.append_nil, Nat.zero_add]

/-- The one-byte mask for a shared point, computed. -/
def mask1 (q : Nat × Nat) : Bytes := (SM2.sm3Sum (beFix 32 q.1 ++ beFix 32 q.2 ++ beFix 4 1)).take 1

theorem kdf_point (Q : SM2.Point) : SM2.kdf (pointBytes Q) 1 = mask1 (xy Q) := by
  rw [kdf_one _ (by simp [pointBytes, SM2.beFix_len])]; rfl

theorem mask1_103 : mask1 (kG 206) ≠ [0] ∧ (mask1 (kG 206)).length = 1 := by decide +kernel

theorem maskOk_103 (G : SM2.Point) (hG : xy G = (Curves.sm2.Gx, Curves.sm2.Gy)) :
    sm2MaskOk (2 • G) 103 [0x61] := by
  unfold sm2MaskOk
  have h : xy (103 • 2 • G) = kG 206 := by rw [smul_smul]; exact kG_eq G hG 206
  rw [show ([0x61] : Bytes).length = 1 from rfl, kdf_point, h]
  have := mask1_103
  revert this
  generalize mask1 (kG 206) = w
  rintro ⟨h1, h2⟩
  match w, h2 with
  | [b], _ => exact ⟨b, by simp, fun hb => h1 (by rw [hb])⟩

/-- **C69** A ciphertext made exactly as the standard says (key `2 G`, nonce 103, one-byte message) is
rejected by `Decrypt`, whatever the curve implementation. -/
theorem C69_standard_ciphertext_rejected (E : SM2.Ext) (hE : E.Lawful) (G : SM2.Point)
    (hG : xy G = (Curves.sm2.Gx, Curves.sm2.Gy)) :
    SM2.decrypt E priv2 (SM2.cipher G (2 • G) 103 [0x61]) [] = .ok (some [0x61], some "Hash not match!") := by
  have h : xy (103 • 2 • G) = kG 206 := by rw [smul_smul]; exact kG_eq G hG 206
  have hd := decrypt_of_C1 E hE G hG priv2 rfl 103 (by norm_num) (by decide +kernel) [0x61]
    (Spec.SM3.hash (beFix 32 (xy (103 • 2 • G)).1 ++ [0x61] ++ beFix 32 (xy (103 • 2 • G)).2)) _ []
    (hash_length _) (by simp) rfl (maskOk_103 G hG)
  have hD : priv2.D = 2 := rfl
  rw [hD, if_neg] at hd
  · exact hd
  · rw [h, ← SM2.sm3Sum_spec, ← SM2.sm3Sum_spec]
    · decide +kernel
    · decide +kernel
    · decide +kernel

/-- An implementation whose nonce stream starts with 1121, 327. -/
def refStale : SM2.Ext := { refSM2 with ctr := fun _ off len => beFix len (if off = 0 then 1120 else 326) }

theorem refStale_lawful : refStale.Lawful :=
  ⟨refSM2_lawful.base, refSM2_lawful.mult, refSM2_lawful.add, refSM2_lawful.onCurve, refSM2_lawful.onCurve',
    refSM2_lawful.inverse, refSM2_lawful.inverse', refSM2_lawful.combined, fun _ _ _ => SM2.beFix_len _ _⟩

/-- **C42** When a mask is rejected and the next point is shorter, a byte of the rejected point stays in the
ciphertext: `Encrypt` returns a ciphertext that `Decrypt` refuses. -/
theorem C42_stale_bytes : ∃ ct, SM2.encrypt refStale 2 (zeros 16) priv2.pub [0x61] = some (.ok ct) ∧
    SM2.decrypt refStale priv2 ct [] = .ok (none, some "C1 is not on curve") := by
  have h : ((SM2.encrypt refStale 2 (zeros 16) priv2.pub [0x61]).map fun r =>
      r.bind fun ct => SM2.decrypt refStale priv2 ct [])
      = some (.ok (none, some "C1 is not on curve")) := by decide +kernel
  cases h' : SM2.encrypt refStale 2 (zeros 16) priv2.pub [0x61] with
  | none => rw [h'] at h; cases h
  | some r =>
    rw [h'] at h
    cases r with
    | ok ct => exact ⟨ct, rfl, Option.some.inj h⟩
    | err m => cases h
    | panic m => cases h

/-- A curve object as in the Go versions before 1.16.14 and 1.17.7: `IsOnCurve` tests the equation of the curve
only, so coordinates that are not below the field prime can pass. -/
def refLax : SM2.Ext :=
  { refSM2 with
    ops := { affineOps Curves.sm2 (Curves.sm2.P - 3) with
      mult := fun Q k => Affine.smul Curves.sm2.P (Curves.sm2.P - 3) k (Q.1 % Curves.sm2.P, Q.2 % Curves.sm2.P) }
    isOnCurve := fun x y => decide (OnCurve Curves.sm2 (-3) x y) }

theorem refLax_lawful : refLax.Lawful := by
  have hl := affineOps_lawful good_sm2 (Curves.sm2.P - 3) Curves.sm2_aN
  refine ⟨hl.base, ?_, hl.add, ?_, ?_, refSM2_lawful.inverse, refSM2_lawful.inverse', refSM2_lawful.combined,
    refSM2_lawful.ctr_length⟩
  · intro _ P x y k _ _ he
    show Affine.smul Curves.sm2.P (Curves.sm2.P - 3) k (x % Curves.sm2.P, y % Curves.sm2.P) = _
    rw [he]; exact hl.mult P k
  · intro x y h; exact of_decide_eq_true h
  · intro x y _ _ h; exact decide_eq_true h

/-- A ciphertext with the x-coordinate `1 + p` in `C1`. -/
def laxCipher : Bytes :=
  beFix 32 (1 + Curves.sm2.P) ++
  beFix 32 0x9f7a091433a81e3f218f405f792355bf2aa98b5ffa95982f03870800065279a3 ++
  beFix 32 0xfdc902077ce1639ddfb1e33e8ea4640e4cb4a86398e9353beed7ebdbc4c2a6c2 ++ [255]

/-- **C43** With such a curve object `Decrypt` also accepts inputs that are nobody's encryption: the coordinates of
`C1` are not reduced. So a ciphertext can be altered without being rejected. -/
theorem C43_unreduced_accepted (G : SM2.Point) :
    refLax.Lawful ∧ SM2.decrypt refLax priv2 laxCipher [] = .ok (some [0x61], none) ∧
    ∀ k m, laxCipher ≠ sm2Cipher G (priv2.D • G) k m := by
  refine ⟨refLax_lawful, by decide +kernel, fun k m h => ?_⟩
  have h1 : natOfBytes (laxCipher.take 32) = 1 + Curves.sm2.P := by decide +kernel
  have h2 : (xy (k • G)).1 < Curves.sm2.P := by
    rcases eq_or_ne (k • G) 0 with h0 | h0
    · rw [h0]; exact good_sm2.prime.pos
    · exact (Affine.xy_onCurve _ h0).2.1
  have h3 : Curves.sm2.P < 256 ^ 32 := by decide +kernel
  rw [h] at h1
  unfold sm2Cipher pointBytes at h1
  rw [List.append_assoc, List.append_assoc, List.append_assoc, List.take_left' (SM2.beFix_len _ _),
    natOfBytes_beFix_of_lt (by omega)] at h1
  omega

/-! ## Non-vacuity -/

/-- The hypotheses of the round trip are met by a key, a message and a random input, with `j = 0`. -/
example (G : SM2.Point) (hG : xy G = (Curves.sm2.Gx, Curves.sm2.Gy)) :
    sm2MaskOk (priv2.D • G) (sm2EncNonce { refSM2 with ctr := fun _ _ len => beFix len 102 }
      priv2.pub (zeros 16) [0x61] 0) [0x61] := by
  have : sm2EncNonce { refSM2 with ctr := fun _ _ len => beFix len 102 } priv2.pub (zeros 16) [0x61] 0 = 103 := by
    have : ∀ key, sm2Nonce { refSM2 with ctr := fun _ _ len => beFix len 102 } key 0 = 103 := by
      intro key
      show natOfBytes (beFix 40 102) % (SM2.n - 2) + 1 = 103
      decide +kernel
    exact this _
  rw [this]
  exact maskOk_103 G hG

/-- Test (not a proof): a round trip evaluated by the kernel. -/
example : ((SM2.encrypt refSM2 1 (zeros 16) priv2.pub abc).map fun r =>
    r.bind fun ct => SM2.decrypt refSM2 priv2 ct []) = some (.ok (some abc, none)) := by decide +kernel

end Verif.Props
