import Verif.Props.SM2Nonce
import Verif.Props.SM2Enc
import Verif.Props.KeyShape
import Mathlib.Logic.Equiv.Basic
/-!
# C101, C102: where encryption nonces and private keys come from

C101 says of `sm2.Encrypt` what C93 says of `sm2.Sign`. C102 counts, for every private scalar, the random
inputs that make `GenerateKeyPair` return it; the probability of a key is this number divided by that of all
inputs of the same length.
-/
namespace Verif.Props
open Verif Verif.Spec Verif.Keypair

/-! ## C101 -/

/-- **C101** The last part of every ciphertext `Encrypt` returns is the message under the mask for a nonce made
from the AES-CTR stream under a key that is the truncated SHA-512 of a string that determines the x coordinate
of the public key, the 16 bytes read from the random source and the SM3 digest of the message. So when one
nonce stream is used for two messages, or for two keys that are not negatives of each other, or with different
random bytes, there is a collision of SM3 or of truncated SHA-512. -/
theorem C101_nonce : ∃ seed : ℕ → Bytes → Bytes → Bytes,
    (∀ x x' e e' d d', e.length = e'.length → d.length = d'.length → seed x e d = seed x' e' d' →
      x = x' ∧ e = e' ∧ d = d') ∧
    ∀ (E : SM2.Ext), E.Lawful → ∀ (P : SM2.Point), P ≠ 0 → ∀ (pub : ECPub), pub.curve = Curves.sm2 →
      (pub.x, pub.y) = xy P → ∀ (fuel : ℕ) (rand m ct : Bytes), m.length < 2 ^ 60 →
      SM2.encrypt E fuel rand pub m = some (.ok ct) →
      16 ≤ rand.length ∧ ∃ i < fuel,
        let k := natOfBytes (E.ctr ((E.sha512 (seed pub.x (rand.take 16) (Spec.SM3.hash m))).take 32) (40 * i) 40)
          % (SM2.n - 2) + 1
        ct.drop 96 = SM2.xor m (SM2.kdf (beFix 32 (xy (k • P)).1 ++ beFix 32 (xy (k • P)).2) m.length) := by
  classical
  refine ⟨fun x e d => bytesOfNat x ++ e ++ d, ?_, ?_⟩
  · intro D D' e e' d d' he hd h
    obtain ⟨h1, h2⟩ := List.append_inj' h hd
    obtain ⟨h3, h4⟩ := List.append_inj' h1 he
    exact ⟨bytesOfNat_inj h3, h4, h2⟩
  · intro E hE P hP pub hc hpub fuel rand m ct hm h
    have hr : 16 ≤ rand.length := by
      by_contra hr
      have he : SM2.entropyLen Curves.sm2 = 16 := by decide
      unfold SM2.encrypt at h
      rw [if_neg (by simp [hc])] at h
      simp only [hc, he] at h
      rw [if_pos (by omega)] at h
      simp at h
    obtain ⟨G, hG⟩ := good_sm2.exists_G
    refine ⟨hr, ?_⟩
    have hex := (C70_encrypt_returns_iff_partial E hE G hG P hP pub hc hpub fuel rand m hr hm).1 ⟨ct, h⟩
    have hj := Nat.find_spec hex
    have hmin := fun i => Nat.find_min hex (m := i)
    generalize Nat.find hex = j at hj hmin
    rw [encrypt_run E hE G hG P hP pub hc hpub fuel rand m hr hm j hj.1
      (fun i hi hok => hmin i hi ⟨by omega, hok⟩) hj.2] at h
    refine ⟨j, hj.1, ?_⟩
    obtain rfl := Res.ok.inj (Option.some.inj h)
    have hov : ∀ (f : ℕ → ℕ), (∀ i, byteLen (f i) ≤ 32) → ∀ l : List ℕ,
        (l.foldl (fun a i => SM2.overlay a (f i)) (zeros 32)).length = 32 := by
      intro f hf l
      suffices h : ∀ a : Bytes, a.length = 32 → (l.foldl (fun a i => SM2.overlay a (f i)) a).length = 32 from h _ rfl
      induction l with
      | nil => exact fun a ha => ha
      | cons b l ih => exact fun a ha => ih _ (SM2.overlay_length ha (hf b))
    have l1 := SM2.overlay_length (hov _ (fun i => (SM2.xy_byteLen (sm2EncNonce E pub rand m i • G)).1) (List.range j))
      (SM2.xy_byteLen (sm2EncNonce E pub rand m j • G)).1
    have l2 := SM2.overlay_length (hov _ (fun i => (SM2.xy_byteLen (sm2EncNonce E pub rand m i • G)).2) (List.range j))
      (SM2.xy_byteLen (sm2EncNonce E pub rand m j • G)).2
    have l3 : (SM2.mac (sm2EncNonce E pub rand m j • P) m).length = 32 := by
      rw [mac_eq _ _ hm, hash_length]
    rw [← List.append_assoc, List.drop_left' (by rw [List.length_append, List.length_append, l1, l2, l3])]
    rfl

/-- An encryption to which C101 applies. -/
example : (match SM2.encrypt refSM2 1 (zeros 16) priv2.pub abc with
    | some (.ok _) => true | _ => false) = true := by decide +kernel

/-! ## C102 -/

/-- The private scalar of an elliptic-curve or Ethereum key. -/
def scalarOf : PrivateKey → Option ℕ
  | .ec _ k => some k.D
  | .eth k => some k.D
  | _ => none

/-- The random inputs of `k` reads of `w` bytes for which `GenerateKeyPair` returns a key with the scalar `D`
and uses no more reads. -/
def inputsFor (E : Ext) (t : Byte) (opts : Opts) (k w D : ℕ) : Set (List Bytes) :=
  {reads | reads.length = k ∧ (∀ b ∈ reads, b.length = w) ∧
    ∃ priv pub, generateKeyPair E t opts reads = some (.ok (priv, pub)) ∧ scalarOf priv = some D}

/-- The number a read stands for before it is cut to the bit length of the order. -/
def rawScalar : Bytes → ℕ
  | b0 :: b1 :: tl => natOfBytes (b0 :: (b1 ^^^ 0x42) :: tl)
  | b => natOfBytes b

theorem natOfBytes_mask (b0 : Byte) (t : Bytes) (r : ℕ) (hr : r < 8) :
    natOfBytes ((b0 &&& BitVec.ofNat 8 (2 ^ r - 1)) :: t) = natOfBytes (b0 :: t) % 2 ^ (8 * t.length + r) := by
  have hlt := natOfBytes_lt t
  rw [natOfBytes_cons, natOfBytes_cons]
  have e : (b0 &&& BitVec.ofNat 8 (2 ^ r - 1)).toNat = b0.toNat % 2 ^ r := by
    rw [BitVec.toNat_and, BitVec.toNat_ofNat, Nat.mod_eq_of_lt, Nat.and_two_pow_sub_one_eq_mod]
    have : 2 ^ r ≤ 2 ^ 7 := Nat.pow_le_pow_right (by omega) (by omega)
    omega
  have e2 : (256 : ℕ) ^ t.length = 2 ^ (8 * t.length) := by rw [pow_mul]; rfl
  rw [e2] at hlt ⊢
  rw [e, pow_add, Nat.mod_mul, mul_comm b0.toNat, Nat.mul_add_mod, Nat.mod_eq_of_lt hlt,
    Nat.mul_add_div (by positivity), Nat.div_eq_of_lt hlt, add_zero]
  ring

/-- One step of the generation of a scalar. -/
theorem genScalar_cons (c : Curve) (b : Bytes) (rest : List Bytes) (hb : b.length = (bitLen c.N + 7) / 8)
    (h16 : 16 ≤ bitLen c.N) :
    genScalar c (b :: rest) = if rawScalar b % 2 ^ bitLen c.N ≥ c.N then genScalar c rest
      else some (rawScalar b % 2 ^ bitLen c.N) := by
  match b, hb with
  | [], hb => simp at hb; omega
  | [_], hb => simp at hb; omega
  | b0 :: b1 :: tl, hb =>
    simp only [List.length_cons] at hb
    rw [genScalar]
    have key : natOfBytes ((if bitLen c.N % 8 = 0 then b0 else b0 &&& BitVec.ofNat 8 (2 ^ (bitLen c.N % 8) - 1)) ::
        (b1 ^^^ 0x42) :: tl) = rawScalar (b0 :: b1 :: tl) % 2 ^ bitLen c.N := by
      split_ifs with h
      · rw [Nat.mod_eq_of_lt]
        · rfl
        · refine (natOfBytes_lt _).trans_le ?_
          rw [show (256 : ℕ) = 2 ^ 8 by rfl, ← pow_mul]
          apply Nat.pow_le_pow_right (by omega)
          simp only [List.length_cons]
          omega
      · rw [natOfBytes_mask _ _ _ (by omega)]
        congr 2
        simp only [List.length_cons]
        omega
    simp only [key]

/-- Exchanging two scalars among the reads. -/
theorem exists_swap (c : Curve) (hN : c.N ≤ 2 ^ bitLen c.N) (D D' : ℕ) (hD : D < c.N)
    (hD' : D' < c.N) : ∃ f : Bytes → Bytes, ∀ b, b.length = (bitLen c.N + 7) / 8 →
      (f b).length = (bitLen c.N + 7) / 8 ∧ f (f b) = b ∧
      rawScalar (f b) % 2 ^ bitLen c.N = Equiv.swap D D' (rawScalar b % 2 ^ bitLen c.N) := by
  let flip : Bytes → Bytes := fun b => match b with
    | b0 :: b1 :: tl => b0 :: (b1 ^^^ 0x42) :: tl
    | b => b
  have flip_len : ∀ b, (flip b).length = b.length := by
    intro b
    match b with
    | [] => rfl
    | [_] => rfl
    | b0 :: b1 :: tl => rfl
  have flip_flip : ∀ b, flip (flip b) = b := by
    intro b
    match b with
    | [] => rfl
    | [_] => rfl
    | b0 :: b1 :: tl =>
      change b0 :: (b1 ^^^ 0x42 ^^^ 0x42) :: tl = _
      rw [BitVec.xor_assoc, BitVec.xor_self, BitVec.xor_zero]
  have raw : ∀ b, rawScalar b = natOfBytes (flip b) := by
    intro b
    match b with
    | [] => rfl
    | [_] => rfl
    | b0 :: b1 :: tl => rfl
  generalize hM : 2 ^ bitLen c.N = M at *
  generalize hw : (bitLen c.N + 7) / 8 = w at *
  have hMw : 256 ^ w = M * 2 ^ (8 * w - bitLen c.N) := by
    rw [← hM, ← pow_add, show (256 : ℕ) = 2 ^ 8 by rfl, ← pow_mul]
    congr 1; omega
  have hM0 : 0 < M := by rw [← hM]; positivity
  let g : ℕ → ℕ := fun v => M * (v / M) + Equiv.swap D D' (v % M)
  have hsw : ∀ v, v < M → Equiv.swap D D' v < M := by
    intro v hv
    rcases Equiv.swap_apply_def D D' v ▸ (rfl : Equiv.swap D D' v = _) with h
    rw [Equiv.swap_apply_def]
    split_ifs <;> omega
  have g_lt : ∀ v, v < 256 ^ w → g v < 256 ^ w := by
    intro v hv
    rw [hMw] at hv ⊢
    have h1 : v / M < 2 ^ (8 * w - bitLen c.N) := Nat.div_lt_of_lt_mul hv
    have h2 := hsw (v % M) (Nat.mod_lt _ hM0)
    have h3 : M * (v / M + 1) ≤ M * 2 ^ (8 * w - bitLen c.N) := Nat.mul_le_mul_left _ h1
    change M * (v / M) + _ < _
    rw [mul_add] at h3
    omega
  have g_mod : ∀ v, g v % M = Equiv.swap D D' (v % M) := by
    intro v
    change (M * (v / M) + _) % M = _
    rw [Nat.mul_add_mod, Nat.mod_eq_of_lt (hsw _ (Nat.mod_lt _ hM0))]
  have g_div : ∀ v, g v / M = v / M := by
    intro v
    change (M * (v / M) + _) / M = _
    rw [Nat.mul_add_div hM0, Nat.div_eq_of_lt (hsw _ (Nat.mod_lt _ hM0)), add_zero]
  have g_g : ∀ v, g (g v) = v := by
    intro v
    change M * (g v / M) + Equiv.swap D D' (g v % M) = v
    rw [g_div, g_mod, Equiv.swap_apply_self]
    exact Nat.div_add_mod v M
  refine ⟨fun b => flip (beFix w (g (rawScalar b))), fun b hb => ?_⟩
  have hlt : rawScalar b < 256 ^ w := by
    rw [raw, ← hb, ← flip_len]
    exact natOfBytes_lt _
  have hraw : rawScalar (flip (beFix w (g (rawScalar b)))) = g (rawScalar b) := by
    rw [raw, flip_flip, natOfBytes_beFix_of_lt (g_lt _ hlt)]
  refine ⟨by rw [flip_len, beFix_length], ?_, ?_⟩
  · simp only [hraw, g_g]
    have : w = (flip b).length := by rw [flip_len, hb]
    rw [raw, this, beFix_natOfBytes, flip_flip]
  · simp only [hraw, g_mod]

theorem genScalar_swap (c : Curve) (h16 : 16 ≤ bitLen c.N) (D D' : ℕ) (hD : D < c.N) (hD' : D' < c.N)
    (f : Bytes → Bytes) (hf : ∀ b, b.length = (bitLen c.N + 7) / 8 →
      (f b).length = (bitLen c.N + 7) / 8 ∧ f (f b) = b ∧
      rawScalar (f b) % 2 ^ bitLen c.N = Equiv.swap D D' (rawScalar b % 2 ^ bitLen c.N))
    (reads : List Bytes) (hr : ∀ b ∈ reads, b.length = (bitLen c.N + 7) / 8) :
    genScalar c (reads.map f) = (genScalar c reads).map (Equiv.swap D D') := by
  induction reads with
  | nil => rfl
  | cons b l ih =>
    have hb := hr b (List.mem_cons_self ..)
    have ih := ih (fun b hb => hr b (List.mem_cons_of_mem _ hb))
    obtain ⟨h1, -, h2⟩ := hf b hb
    rw [List.map_cons, genScalar_cons c _ _ h1 h16, genScalar_cons c b l hb h16, h2, ih]
    generalize rawScalar b % 2 ^ bitLen c.N = v
    have : Equiv.swap D D' v ≥ c.N ↔ v ≥ c.N := by
      rw [Equiv.swap_apply_def]
      split_ifs <;> omega
    by_cases hv : v ≥ c.N
    · rw [if_pos (this.2 hv), if_pos hv]
    · rw [if_neg (fun h => hv (this.1 h)), if_neg hv]; rfl

theorem exists_read (c : Curve) (hN : c.N ≤ 2 ^ bitLen c.N) (h16 : 16 ≤ bitLen c.N) (D : ℕ) (hD : D < c.N) :
    ∃ b : Bytes, b.length = (bitLen c.N + 7) / 8 ∧ rawScalar b % 2 ^ bitLen c.N = D := by
  have hw : 2 ^ bitLen c.N ≤ 256 ^ ((bitLen c.N + 7) / 8) := by
    rw [show (256 : ℕ) = 2 ^ 8 by rfl, ← pow_mul]
    exact Nat.pow_le_pow_right (by omega) (by omega)
  have hl := beFix_length ((bitLen c.N + 7) / 8) D
  have hv : natOfBytes (beFix ((bitLen c.N + 7) / 8) D) = D := natOfBytes_beFix_of_lt (by omega)
  match hb : beFix ((bitLen c.N + 7) / 8) D with
  | [] => rw [hb] at hl; simp at hl; omega
  | [_] => rw [hb] at hl; simp at hl; omega
  | b0 :: b1 :: tl =>
    rw [hb] at hl hv
    refine ⟨b0 :: (b1 ^^^ 0x42) :: tl, hl, ?_⟩
    change natOfBytes (b0 :: (b1 ^^^ 0x42 ^^^ 0x42) :: tl) % _ = D
    rw [BitVec.xor_assoc, BitVec.xor_self, BitVec.xor_zero, hv, Nat.mod_eq_of_lt (by omega)]

theorem order_bits (k1name : String) (c : Curve) (hc : c ∈ Curves.all k1name) :
    c.N ≤ 2 ^ bitLen c.N ∧ 16 ≤ bitLen c.N := by
  simp only [Curves.all, List.mem_cons, List.not_mem_nil, or_false] at hc
  have h : ∀ c ∈ Curves.all "", c.N ≤ 2 ^ bitLen c.N ∧ 16 ≤ bitLen c.N := by decide +kernel
  rcases hc with rfl | rfl | rfl | rfl | rfl | rfl
  · exact h _ (by simp [Curves.all])
  · exact h _ (by simp [Curves.all])
  · exact h _ (by simp [Curves.all])
  · exact h _ (by simp [Curves.all])
  · exact h (Curves.secp256k1 "") (by simp [Curves.all])
  · exact h _ (by simp [Curves.all])

theorem getCurve_mem {E : Ext} {label : Byte} {c : Curve} (h : getCurve E label = .ok c) :
    c ∈ Curves.all E.k1name := by
  unfold getCurve at h
  split_ifs at h <;> (cases h; simp [Curves.all])

theorem inputsFor_ec {E : Ext} {t label : Byte} (ht : t = PK_ECDSA ∨ t = PK_SM2) {c : Curve}
    (hc : getCurve E label = .ok c) (k w D : ℕ) :
    inputsFor E t (.byte label) k w D =
      {reads | reads.length = k ∧ (∀ b ∈ reads, b.length = w) ∧ genScalar c reads = some D} := by
  ext reads
  simp only [inputsFor, Set.mem_ofPred_eq, and_congr_right_iff]
  intro _ _
  unfold generateKeyPair
  rw [if_pos ht]
  simp only [hc, generateECKeyPair]
  generalize (if t = PK_ECDSA then Alg.ecdsa else Alg.sm2) = a
  cases genScalar c reads with
  | none => simp
  | some v =>
    simp only [Option.map_some, Option.some.injEq, Res.ok.injEq, Prod.mk.injEq]
    constructor
    · rintro ⟨priv, pub, ⟨rfl, rfl⟩, h⟩
      exact Option.some.inj h
    · rintro rfl
      exact ⟨_, _, ⟨rfl, rfl⟩, rfl⟩

/-- **C102** For ECDSA and SM2 keys on every supported curve the random inputs of `k` reads give every scalar
below the order equally often: keys are exactly uniform. Some input gives the scalar, and no input
gives a scalar that is not below the order. -/
theorem C102_ec_uniform (E : Ext) (t label : Byte) (ht : t = PK_ECDSA ∨ t = PK_SM2) (c : Curve)
    (hc : getCurve E label = .ok c) (k : ℕ) (D D' : ℕ) (hD : D < c.N) (hD' : D' < c.N) :
    let w := (bitLen c.N + 7) / 8
    (inputsFor E t (.byte label) k w D).ncard = (inputsFor E t (.byte label) k w D').ncard ∧
      (1 ≤ k → (inputsFor E t (.byte label) k w D).Nonempty) ∧
      ∀ v, ¬ v < c.N → inputsFor E t (.byte label) k w v = ∅ := by
  obtain ⟨hN, h16⟩ := order_bits _ c (getCurve_mem hc)
  simp only [inputsFor_ec ht hc]
  obtain ⟨f, hf⟩ := exists_swap c hN D D' hD hD'
  refine ⟨Set.ncard_congr (fun reads _ => reads.map f) ?_ ?_ ?_, ?_, ?_⟩
  · rintro reads ⟨h1, h2, h3⟩
    refine ⟨by simp [h1], ?_, ?_⟩
    · intro b hb
      obtain ⟨b', hb', rfl⟩ := List.mem_map.1 hb
      exact (hf b' (h2 b' hb')).1
    · rw [genScalar_swap c h16 D D' hD hD' f hf reads h2, h3, Option.map_some, Equiv.swap_apply_left]
  · rintro a b ⟨-, ha, -⟩ ⟨-, hb, -⟩ h
    have inv : ∀ l : List Bytes, (∀ b ∈ l, b.length = (bitLen c.N + 7) / 8) → (l.map f).map f = l := by
      intro l hl
      rw [List.map_map]
      conv_rhs => rw [← List.map_id l]
      exact List.map_congr_left (fun b hb => (hf b (hl b hb)).2.1)
    rw [← inv a ha, ← inv b hb]
    exact congrArg (List.map f) h
  · rintro reads ⟨h1, h2, h3⟩
    have h2' : ∀ b ∈ reads.map f, b.length = (bitLen c.N + 7) / 8 := by
      intro b hb
      obtain ⟨b', hb', rfl⟩ := List.mem_map.1 hb
      exact (hf b' (h2 b' hb')).1
    refine ⟨reads.map f, ⟨by simp [h1], h2', ?_⟩, ?_⟩
    · rw [genScalar_swap c h16 D D' hD hD' f hf reads h2, h3, Option.map_some, Equiv.swap_apply_right]
    · rw [List.map_map]
      conv_rhs => rw [← List.map_id reads]
      exact List.map_congr_left (fun b hb => (hf b (h2 b hb)).2.1)
  · intro hk
    obtain ⟨b, hb, hv⟩ := exists_read c hN h16 D hD
    refine ⟨List.replicate k b, by simp, fun b' hb' => ?_, ?_⟩
    · rw [List.eq_of_mem_replicate hb', hb]
    · obtain ⟨k, rfl⟩ : ∃ k', k = k' + 1 := ⟨k - 1, by omega⟩
      rw [List.replicate_succ, genScalar_cons c b _ hb h16, hv, if_neg (by omega)]
  · intro v hv
    ext reads
    simp only [Set.mem_ofPred_eq, Set.mem_empty_iff_false, iff_false, not_and]
    intro _ _ h
    exact hv (genScalar_lt c reads v h)

/-- **C102** For Ethereum keys one read of 40 bytes gives each scalar from 1 to the order less 1 from `q` or
`q + 1` inputs, and no other scalar; `q` is at least `2^64`. So the probabilities of two keys differ by a factor
of at most `1 + 2^-64`. -/
theorem C102_ethereum_count (E : Ext) (opts : Opts) : ∃ q, 2 ^ 64 ≤ q ∧ ∀ D,
    let c := (inputsFor E PK_ETHECDSA opts 1 40 D).ncard
    (1 ≤ D ∧ D < (ethCurve E).N → c = q ∨ c = q + 1) ∧
      (¬ (1 ≤ D ∧ D < (ethCurve E).N) → c = 0) := by
  have key : ∀ n D : ℕ, 1 < n → (let c := {b : Bytes | b.length = 40 ∧ natOfBytes b % (n - 1) + 1 = D}.ncard
      (1 ≤ D ∧ D < n → c = 256 ^ 40 / (n - 1) ∨ c = 256 ^ 40 / (n - 1) + 1) ∧ (¬ (1 ≤ D ∧ D < n) → c = 0)) := by
    intro n D hn
    refine ⟨fun hD => ?_, fun hD => ?_⟩
    · have : {b : Bytes | b.length = 40 ∧ natOfBytes b % (n - 1) + 1 = D} =
          {b : Bytes | b.length = 40 ∧ natOfBytes b ≡ D - 1 [MOD n - 1]} := by
        ext b
        simp only [Set.mem_ofPred_eq, and_congr_right_iff, Nat.ModEq]
        intro _
        rw [Nat.mod_eq_of_lt (a := D - 1) (by omega)]
        omega
      rw [this, ncard_bytes 40 (· ≡ D - 1 [MOD n - 1]), Nat.count_modEq_card _ (by omega)]
      split_ifs
      · exact Or.inr rfl
      · exact Or.inl rfl
    · have : {b : Bytes | b.length = 40 ∧ natOfBytes b % (n - 1) + 1 = D} = ∅ := by
        ext b
        simp only [Set.mem_ofPred_eq, Set.mem_empty_iff_false, iff_false, not_and]
        rintro - rfl
        have := Nat.mod_lt (natOfBytes b) (show n - 1 > 0 by omega)
        omega
      rw [this, Set.ncard_empty]
  have hn : 1 < (ethCurve E).N ∧ 2 ^ 64 ≤ 256 ^ 40 / ((ethCurve E).N - 1) :=
    (by decide +kernel : 1 < (Curves.secp256k1 "").N ∧ 2 ^ 64 ≤ 256 ^ 40 / ((Curves.secp256k1 "").N - 1))
  refine ⟨256 ^ 40 / ((ethCurve E).N - 1), hn.2, fun D => ?_⟩
  have hcard : (inputsFor E PK_ETHECDSA opts 1 40 D).ncard =
      {b : Bytes | b.length = 40 ∧ natOfBytes b % ((ethCurve E).N - 1) + 1 = D}.ncard := by
    symm
    have gen : ∀ b, generateKeyPair E PK_ETHECDSA opts [b] = some (.ok (.eth ⟨ethScalar (ethCurve E) b,
        ⟨ethCurve E, (E.baseMult (ethCurve E) (ethScalar (ethCurve E) b)).1,
          (E.baseMult (ethCurve E) (ethScalar (ethCurve E) b)).2⟩⟩, .eth ⟨ethCurve E,
        (E.baseMult (ethCurve E) (ethScalar (ethCurve E) b)).1,
        (E.baseMult (ethCurve E) (ethScalar (ethCurve E) b)).2⟩)) := fun b => rfl
    refine Set.ncard_congr (fun b _ => [b]) ?_ ?_ ?_
    · rintro b ⟨h1, h2⟩
      exact ⟨rfl, by simpa using h1, _, _, gen b, congrArg some h2⟩
    · rintro a b - - h
      exact List.head_eq_of_cons_eq h
    · rintro reads ⟨h1, h2, priv, pub, h3, h4⟩
      obtain ⟨b, rfl⟩ := List.length_eq_one_iff.1 h1
      rw [gen] at h3
      generalize hs : ethScalar (ethCurve E) b = v at h3
      simp only [Option.some.injEq, Res.ok.injEq, Prod.mk.injEq] at h3
      obtain ⟨rfl, -⟩ := h3
      exact ⟨b, ⟨h2 b (by simp), hs.trans (Option.some.inj h4)⟩, rfl⟩
  rw [hcard]
  exact key _ D hn.1

/-- **C102** An Ed25519 private key is the 32 bytes read followed by the public key: each input has its own key. -/
theorem C102_ed25519 (E : Ext) (seed : Bytes) (rest : List Bytes) (priv : PrivateKey) (pub : PublicKey)
    (h : generateKeyPair E PK_EDDSA (.byte ED25519) (seed :: rest) = some (.ok (priv, pub))) :
    priv = .ed (seed ++ E.edPublic seed) ∧ pub = .ed (E.edPublic seed) := by
  have h : some (Res.ok (PrivateKey.ed (seed ++ E.edPublic seed), PublicKey.ed (E.edPublic seed))) =
    some (.ok (priv, pub)) := h
  simp only [Option.some.injEq, Res.ok.injEq, Prod.mk.injEq] at h
  exact ⟨h.1.symm, h.2.symm⟩

/-- C102 applies to curves whose order fills whole bytes and to P-521, of whose first byte one bit is used. -/
example (E : Ext) : getCurve E P256 = .ok Curves.p256 ∧ getCurve E P521 = .ok Curves.p521 ∧
    (bitLen Curves.p521.N + 7) / 8 = 66 ∧ bitLen Curves.p521.N % 8 = 1 ∧
    genScalar Curves.p521 [255 :: 0xbd :: List.replicate 64 255, 0xfe :: 0x42 :: beFix 64 7] = some 7 := by
  refine ⟨rfl, rfl, ?_⟩
  decide +kernel

end Verif.Props
