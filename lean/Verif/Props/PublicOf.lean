import Verif.Props.Workflow
import Verif.Props.KeyShape
import Verif.Props.VRF
/-!
# The public key of a private key (C115), keys made from Ethereum keys (C116), the key type (C117)
-/
namespace Verif.Props
open Verif Verif.EC Verif.Spec Verif.Keypair

theorem publicMethod_ed {b : Bytes} (h : 64 ≤ b.length) :
    publicMethod (.ed b) = .ok (.ed ((b.drop 32).take 32)) := by
  show (if b.length < 32 then _ else _) = _
  rw [if_neg (by omega), List.length_drop, show 32 - (b.length - 32) = 0 by omega]
  simp [zeros]

theorem publicMethod_ed64 {b : Bytes} (h : b.length = 64) : publicMethod (.ed b) = .ok (.ed (b.drop 32)) := by
  rw [publicMethod_ed (by omega), List.take_of_length_le (by rw [List.length_drop]; omega)]

/-! ## C115: the method Public -/

/-- **C115 (partial)**: the method Public of a generated private key returns the public key that was generated with it.
Missing: Ethereum keys, see `C115_ethereum_public`. (An Ed25519 seed is a read of 32 bytes, a public key has 32.) -/
theorem C115_generated_partial (E : Ext) (t : Byte) (opts : Opts) (reads : List Bytes) (priv : PrivateKey)
    (pub : PublicKey) (hseed : t = 0x14 → ∀ b ∈ reads, b.length = 32)
    (hed : ∀ seed : Bytes, seed.length = 32 → (E.edPublic seed).length = 32)
    (h : generateKeyPair E t opts reads = some (.ok (priv, pub))) (ht : t ≠ 0x15) :
    publicMethod priv = .ok pub := by
  by_cases h14 : t = 0x14
  · subst h14
    have hs := hseed rfl
    unfold generateKeyPair at h
    rw [if_neg (by decide), if_pos rfl] at h
    cases opts with
    | other => cases h
    | byte l =>
      dsimp only at h
      split at h
      · cases reads with
        | nil => cases h
        | cons b rest =>
          have hb := hs b List.mem_cons_self
          cases h
          rw [publicMethod_ed64 (by rw [List.length_append, hb, hed b hb]), List.drop_left' hb]
      · cases h
  · obtain ⟨hp, hk⟩ := C76_generated_kind E t opts reads priv pub hseed h
    subst hp
    rcases hk with ⟨l, c, D, -, -, ⟨-, rfl⟩ | ⟨-, rfl⟩⟩ | ⟨rfl, -⟩ | ⟨rfl, -⟩
    · rfl
    · rfl
    · exact absurd rfl h14
    · exact absurd rfl ht

/-- **C115** does not hold for Ethereum keys: GenerateKeyPair, DeserializePrivateKey and FromEthereumPrivateKey give
private keys whose method Public returns, whatever the key, a value of a type that this library does not know. Its
serialization and its key type cannot be asked for, it equals no key, is found in no list, is no Ethereum key to
GetEthereumPubKey, and no signature verifies under it. -/
theorem C115_ethereum_public (k : ECPriv) :
    ∃ p, publicMethod (.eth k) = .ok p ∧ p ≠ .eth k.pub ∧
      (∀ E, ∃ m, serializePublicKey E p = .panic m) ∧ (∃ m, getKeyType p = .panic m) ∧
      (∀ q, comparePublicKey p q = false ∧ comparePublicKey q p = false) ∧
      (∀ list, findKey list p = -1) ∧ (∃ m, getEthereumPubKey p = .err m) ∧
      (∀ (S : Signature.Ext) msg sig, Signature.verify S p msg sig = .ok false) := by
  refine ⟨.unknown, rfl, by simp, fun E => ⟨_, rfl⟩, ⟨_, rfl⟩, fun q => ⟨by cases q <;> rfl, by cases q <;> rfl⟩, ?_,
    ⟨_, rfl⟩, ?_⟩
  · intro list
    have : ∀ (l : List PublicKey) i, findKeyFrom i l .unknown = -1 := by
      intro l
      induction l with
      | nil => intro i; rfl
      | cons v rest ih =>
        intro i
        rw [findKeyFrom, if_neg (by cases v <;> simp [comparePublicKey])]
        exact ih _
    exact this list 0
  · intro S msg sig
    cases sig with
    | none => rfl
    | some s =>
      unfold Signature.verify
      dsimp only
      split_ifs with h0
      · rfl
      · cases Signature.hashOf s.scheme <;> rfl

/-- **C115** for parsed private keys: Public never panics. It returns the public half, which is on the curve and of the
algorithm of the private key, for ECDSA and SM2 keys, the bytes 32 to 63 for Ed25519 keys, and a key of unknown type
exactly for Ethereum keys. -/
theorem C115_parsed_partial (E : Ext) (data : Bytes) (draws : List Nat) (k : PrivateKey)
    (h : deserializePrivateKey E data draws = some (.ok (some k))) :
    ∃ p, publicMethod k = .ok p ∧
      (p = .unknown ↔ ∃ e, k = .eth e) ∧
      (∀ alg priv, k = .ec alg priv → p = .ec alg priv.pub) ∧
      (∀ b, k = .ed b → p = .ed ((b.drop 32).take 32)) ∧
      (p = k.matching ↔ (∀ e, k ≠ .eth e) ∧ ∀ b, k = .ed b → b.length = 64) := by
  rcases C62_parsed_consistent E data draws k h with
    ⟨t, l, body, c, alg, x, y, -, -, -, rfl, -⟩ | ⟨b, -, rfl, hb⟩ | ⟨b, D, x, y, -, rfl, -⟩
  · exact ⟨_, rfl, by simp, by simp +contextual, by simp, by simp [PrivateKey.matching]⟩
  · refine ⟨_, publicMethod_ed hb, by simp, by simp, by simp +contextual, ?_⟩
    simp only [PrivateKey.matching, PublicKey.ed.injEq, ne_eq, reduceCtorEq, not_false_eq_true, implies_true,
      PrivateKey.ed.injEq, forall_eq', true_and, List.take_eq_self_iff, List.length_drop]
    omega
  · exact ⟨_, rfl, by simp, by simp, by simp, by simp [PrivateKey.matching]⟩

/-! ## C116: keys of other Ethereum software -/

/-- **C116**: GetEthereumPubKey succeeds exactly for the keys of type 0x15, and gives the key inside; every other key
is refused with an error. -/
theorem C116_get_iff (p : PublicKey) :
    (∀ k, getEthereumPubKey p = .ok k ↔ p = .eth k) ∧
    ((∃ k, getEthereumPubKey p = .ok k) ↔ getKeyType p = .ok 0x15) ∧
    (∀ m, getEthereumPubKey p ≠ .panic m) := by
  cases p with
  | ec alg pub => cases alg <;> simp [getEthereumPubKey, getKeyType]
  | ed b => simp [getEthereumPubKey, getKeyType]
  | eth pub => simp [getEthereumPubKey, getKeyType]
  | unknown => simp [getEthereumPubKey, getKeyType]

/-- **C116** (partial): a key pair of other Ethereum software, `1 ≤ D < n` on secp256k1 with `D·G` as public half,
becomes a pair whose two halves survive serialization, whose public half gives the original key back, and whose
signatures verify. Missing: other keys are not refused, see `C116_kept_iff`. (Signing: for non-empty messages, and
not 32 bytes with the hash option, see C60.) -/
theorem C116_from_partial (K : Keypair.Ext) (S : Signature.Ext) (hS : S.Lawful) (hKS : SameExt K S) (D x y : Nat)
    (h1 : 1 ≤ D) (hN : D < (ethCurve K).N)
    (hq : ∀ [Fact (ethCurve K).P.Prime] (G : Pt (ethCurve K) 0), xy G = ((ethCurve K).Gx, (ethCurve K).Gy) →
      (x, y) = xy (D • G)) :
    let key : ECPriv := ⟨D, ⟨ethCurve K, x, y⟩⟩
    let pair := fromEthereumPrivateKey key
    getKeyType pair.2 = .ok 0x15 ∧ getEthereumPubKey pair.2 = .ok key.pub ∧
    (∀ draws, deserializePrivateKey K (0x15 :: beFix 32 D) draws = some (.ok (some pair.1))) ∧
    serializePrivateKey K pair.1 = .ok (0x15 :: beFix 32 D) ∧
    (∀ draws, deserializePublicKey K (0x15 :: sec1Uncompressed 32 x y) draws = some (.ok pair.2)) ∧
    serializePublicKey K pair.2 = .ok (0x15 :: sec1Uncompressed 32 x y) ∧
    ∀ fuel rand scheme msg opt sig, Signature.sign S fuel rand scheme pair.1 msg opt = some (.ok sig) → msg ≠ [] →
      (opt = .bool true → msg.length ≠ 32) → Signature.verify S pair.2 msg (some sig) = .ok true := by
  intro key pair
  have hE : GoodName K.k1name := hKS.k1name ▸ hS.k1name
  have hg : GoodCurve (ethCurve K) 0 := good_k1 K.ethname
  have := hg.fact
  obtain ⟨G, hG⟩ := hg.exists_G
  have hxy := hq G hG
  have hne : D • G ≠ 0 := hg.smul_ne_zero (hg.G_ne_zero hG) (by omega) hN
  have hbase := hKS.eth G hG D
  obtain ⟨hon, hx, hy⟩ := Affine.xy_onCurve _ hne
  rw [← hxy] at hon hx hy
  have hvp : ValidPrivate K pair.1 := ⟨rfl, h1, hN, by rw [hbase]; exact hxy⟩
  have hvq : ValidPublic K pair.2 := ⟨rfl, hx, hy, hon⟩
  obtain ⟨d1, s1, f1, r1⟩ := C17_private_roundtrip K hE _ hvp
  obtain ⟨d2, s2, f2, r2⟩ := C15_public_roundtrip K hE _ hvq
  have e1 : d1 = 0x15 :: beFix 32 D := by
    have f1 : PrivateFormat K.k1name (.eth key) d1 := f1
    cases f1; rfl
  have e2 : d2 = 0x15 :: sec1Uncompressed 32 x y := by
    have f2 : PublicFormat K.k1name (.eth key.pub) d2 := f2
    cases f2; rfl
  subst e1
  subst e2
  refine ⟨rfl, rfl, fun draws => (r1 draws).2 trivial, s1, fun draws => (r2 draws).2 trivial, s2, ?_⟩
  intro fuel rand scheme msg opt sig hs hm h32
  have hv : Signature.EthPair key := by
    refine ⟨K.ethname, rfl, ?_, fun {_} G' hG' => hq G' hG'⟩
    show D % (ethCurve K).N ≠ 0
    rw [Nat.mod_eq_of_lt hN]; omega
  exact C33_sign_verify_partial S hS fuel rand scheme (.eth key) hv msg opt sig hs hm
    (fun ⟨_, ho, hl⟩ => h32 ho hl)

/-- **C116**: FromEthereumPrivateKey checks nothing. For every key whatever it succeeds, and both halves serialize, but
the private half is parsed back if and only if it is a proper key on secp256k1, and so is the public half; for any
other key parsing fails or gives a different key. -/
theorem C116_kept_iff (E : Ext) (hE : GoodName E.k1name) (key : ECPriv) :
    ∃ d p, serializePrivateKey E (fromEthereumPrivateKey key).1 = .ok d ∧
      serializePublicKey E (fromEthereumPrivateKey key).2 = .ok p ∧
      (∀ draws, deserializePrivateKey E d draws = some (.ok (some (fromEthereumPrivateKey key).1)) ↔
        key.pub.curve = ethCurve E ∧ 0 < key.D ∧ key.D < (ethCurve E).N ∧
          (key.pub.x, key.pub.y) = E.baseMult (ethCurve E) key.D) ∧
      (∀ draws, deserializePublicKey E p draws = some (.ok (fromEthereumPrivateKey key).2) ↔
        key.pub.curve = ethCurve E ∧ key.pub.x < (ethCurve E).P ∧ key.pub.y < (ethCurve E).P ∧
          OnCurve (ethCurve E) 0 key.pub.x key.pub.y) := by
  refine ⟨_, _, rfl, rfl, fun draws => ⟨fun h => ?_, fun h => ?_⟩, fun draws => ⟨fun h => ?_, fun h => ?_⟩⟩
  · rcases C62_parsed_consistent E _ draws _ h with
      ⟨_, _, _, _, _, _, _, _, _, _, h, _⟩ | ⟨_, _, h, _⟩ | ⟨b, D, x, y, -, h, -, -, h1, h2, h3⟩
    · cases h
    · cases h
    · have h : PrivateKey.eth key = .eth ⟨D, ⟨ethCurve E, x, y⟩⟩ := h
      cases h
      exact ⟨rfl, h1, h2, h3⟩
  · have hv : ValidPrivate E (.eth key) := h
    obtain ⟨d, hd, -, hr⟩ := C17_private_roundtrip E hE _ hv
    have hd' : Res.ok (PK_ETHECDSA :: fromECDSA key) = .ok d := hd
    cases hd'
    exact (hr draws).2 trivial
  · rcases C75_parsed_public E _ draws _ h with
      ⟨_, _, _, _, _, _, _, _, _, _, h, _⟩ | ⟨_, _, h, _⟩ | ⟨_, _, _, _, _, _, h, _⟩ | ⟨xb, yb, -, -, -, h, h1, h2, h3⟩
    · cases h
    · cases h
    · cases h
    · have h : PublicKey.eth key.pub = .eth ⟨ethCurve E, natOfBytes xb, natOfBytes yb⟩ := h
      simp only [PublicKey.eth.injEq] at h
      rw [h]
      exact ⟨rfl, h1, h2, h3⟩
  · obtain ⟨hc, hx, hy, ho⟩ := h
    have hv : ValidPublic E (.eth key.pub) := ⟨hc, by rw [hc]; exact hx, by rw [hc]; exact hy, by rw [hc]; exact ho⟩
    obtain ⟨d, hd, -, hr⟩ := C15_public_roundtrip E hE _ hv
    have hd' : Res.ok (PK_ETHECDSA :: fromECDSAPub key.pub) = .ok d := hd
    cases hd'
    exact (hr draws).2 trivial

/-- **C116**: a P-256 key is accepted by FromEthereumPrivateKey, and its serialization is parsed without error, as
another key: the same scalar, another curve and another public key. -/
theorem C116_other_curve (E : Ext) (x y : Nat) :
    ∃ d k', serializePrivateKey E (fromEthereumPrivateKey ⟨2, ⟨Curves.p256, x, y⟩⟩).1 = .ok d ∧
      (∀ draws, deserializePrivateKey E d draws = some (.ok (some (.eth k')))) ∧
      k'.D = 2 ∧ k'.pub.curve ≠ Curves.p256 := by
  refine ⟨_, ⟨2, ⟨ethCurve E, (E.baseMult (ethCurve E) 2).1, (E.baseMult (ethCurve E) 2).2⟩⟩, rfl, ?_, rfl, ?_⟩
  · intro draws
    have hf : fromECDSA ⟨2, ⟨Curves.p256, x, y⟩⟩ = beFix 32 2 :=
      zeros_append_bytesOfNat (byteLen_le_iff.2 (show 2 < 256 ^ 32 by decide))
    show some ((toECDSA E (fromECDSA _)).map _) = _
    rw [hf]
    have hN : 2 < (ethCurve E).N := show 2 < (Curves.secp256k1 "").N by decide +kernel
    have hb : natOfBytes (beFix 32 2) = 2 := natOfBytes_beFix_of_lt (by decide)
    unfold toECDSA
    simp only [hb, beFix_length]
    rw [if_neg (by simp [ethCurve, Curves.secp256k1]), if_neg (by omega), if_neg (by omega)]
    rfl
  · show ethCurve E ≠ Curves.p256
    intro h
    have hB := congrArg Curve.B h
    revert hB
    show (Curves.secp256k1 "").B = Curves.p256.B → False
    decide +kernel

/-! ## C117: the key type -/

/-- **C117**: for every valid public key GetKeyType gives the type of the key, one of the four documented values; it is
the first byte of the serialization, except for ECDSA keys on P-256, whose serialization starts with 2 or 3; and a
parsed key has the type that the first byte of the input says (2, 3 and 4 stand for ECDSA). -/
theorem C117_key_type (E : Ext) (hE : GoodName E.k1name) :
    (∀ k, ValidPublic E k → ∃ t data, getKeyType k = .ok t ∧ serializePublicKey E k = .ok data ∧
      ((t = 0x12 ∧ ∃ p, k = .ec .ecdsa p) ∨ (t = 0x13 ∧ ∃ p, k = .ec .sm2 p) ∨ (t = 0x14 ∧ ∃ b, k = .ed b) ∨
        (t = 0x15 ∧ ∃ p, k = .eth p)) ∧
      ((∃ p, k = .ec .ecdsa p ∧ p.curve = Curves.p256) → data.head? = some 2 ∨ data.head? = some 3) ∧
      ((¬ ∃ p, k = .ec .ecdsa p ∧ p.curve = Curves.p256) → data.head? = some t)) ∧
    (∀ data draws k, deserializePublicKey E data draws = some (.ok k) → ∃ t rest, data = t :: rest ∧
      getKeyType k = .ok (if t = 2 ∨ t = 3 ∨ t = 4 then 0x12 else t)) := by
  refine ⟨fun k hv => ?_, fun data draws k h => ?_⟩
  · obtain ⟨data, hs, hf, -⟩ := C15_public_roundtrip E hE k hv
    cases hf with
    | p256 x y =>
      refine ⟨_, _, rfl, hs, Or.inl ⟨rfl, _, rfl⟩, fun _ => ?_, fun h => absurd ⟨_, rfl, rfl⟩ h⟩
      simp only [sec1Compressed, List.head?_cons, Option.some.injEq]
      split_ifs <;> simp
    | ecdsa c l x y hl hc =>
      refine ⟨_, _, rfl, hs, Or.inl ⟨rfl, _, rfl⟩, ?_, fun _ => rfl⟩
      rintro ⟨p, hp, hpc⟩
      cases hp
      exact absurd hpc hc
    | sm2 c l x y hl =>
      exact ⟨_, _, rfl, hs, Or.inr (Or.inl ⟨rfl, _, rfl⟩), (by rintro ⟨p, hp, -⟩; cases hp), fun _ => rfl⟩
    | ed b => exact ⟨_, _, rfl, hs, Or.inr (Or.inr (Or.inl ⟨rfl, _, rfl⟩)), (by rintro ⟨p, hp, -⟩; cases hp), fun _ => rfl⟩
    | eth pub =>
      exact ⟨_, _, rfl, hs, Or.inr (Or.inr (Or.inr ⟨rfl, _, rfl⟩)), (by rintro ⟨p, hp, -⟩; cases hp), fun _ => rfl⟩
  · rcases C75_parsed_public E data draws k h with
      ⟨t, l, body, c, alg, x, y, rfl, -, ⟨rfl, rfl⟩ | ⟨rfl, rfl⟩, rfl, -⟩ | ⟨b, rfl, rfl, -⟩ |
      ⟨t, body, x, y, rfl, ht, rfl, -⟩ | ⟨xb, yb, rfl, -, -, rfl, -⟩
    · exact ⟨_, _, rfl, rfl⟩
    · exact ⟨_, _, rfl, rfl⟩
    · exact ⟨_, _, rfl, rfl⟩
    · exact ⟨_, _, rfl, by rw [if_pos ht]; rfl⟩
    · exact ⟨_, _, rfl, rfl⟩

/-! ## Non-vacuity -/

/-- Generated SM2 and Ed25519 keys with their public keys (C115). -/
example : (∃ priv pub, generateKeyPair refKey 0x13 (.byte 20) [List.replicate 32 1] = some (.ok (priv, pub))) ∧
    ∃ priv pub, generateKeyPair refKey 0x14 (.byte 25) [List.replicate 32 1] = some (.ok (priv, pub)) := by
  refine ⟨?_, _, _, rfl⟩
  have hg : ∃ D, genScalar Curves.sm2 [List.replicate 32 1] = some D := by
    rw [← Option.isSome_iff_exists]; decide +kernel
  obtain ⟨D, hD⟩ := hg
  have gen : generateKeyPair refKey 0x13 (.byte 20) [List.replicate 32 1] =
      ((genScalar Curves.sm2 [List.replicate 32 1]).map fun D =>
        let q := refKey.baseMult Curves.sm2 D
        (PrivateKey.ec .sm2 ⟨D, ⟨Curves.sm2, q.1, q.2⟩⟩, PublicKey.ec .sm2 ⟨Curves.sm2, q.1, q.2⟩)).map .ok := rfl
  rw [gen, hD]
  exact ⟨_, _, rfl⟩

/-- A parsed Ed25519 private key that is longer than 64 bytes: Public returns only the first 32 bytes of the public
half (C115). -/
example : ∃ k, deserializePrivateKey refKey (0x14 :: 25 :: List.replicate 70 3) [] = some (.ok (some k)) ∧
    publicMethod k = .ok (.ed (List.replicate 32 3)) ∧ k.matching = .ed (List.replicate 38 3) :=
  ⟨_, rfl, by decide, by decide⟩

/-- The scalar 2 with its public key is a key to which C116 applies, and it signs. -/
example : ∃ x y, (∀ [Fact (ethCurve refKey).P.Prime] (G : Pt (ethCurve refKey) 0),
      xy G = ((ethCurve refKey).Gx, (ethCurve refKey).Gy) → (x, y) = xy (2 • G)) ∧
    ∃ sig, Signature.sign Signature.refSig 0 [] 11 (fromEthereumPrivateKey ⟨2, ⟨ethCurve refKey, x, y⟩⟩).1
      (List.replicate 32 3) (.bool false) = some (.ok sig) := by
  have hq : ∀ d, ∃ x y, Signature.keyOn (Curves.secp256k1 "") d = ⟨d, ⟨ethCurve refKey, x, y⟩⟩ ∧
      ∀ [Fact (ethCurve refKey).P.Prime] (G : Pt (ethCurve refKey) 0),
        xy G = ((ethCurve refKey).Gx, (ethCurve refKey).Gy) → (x, y) = xy (d • G) :=
    fun d => ⟨_, _, rfl, fun {_} G hG => refKey_same.eth G hG d⟩
  obtain ⟨x, y, hk, h⟩ := hq 2
  have hs : ∃ sig, Signature.sign Signature.refSig 0 [] 11 (.eth (Signature.keyOn (Curves.secp256k1 "") 2))
    (List.replicate 32 3) (.bool false) = some (.ok sig) := signed_iff (by decide +kernel)
  rw [hk] at hs
  exact ⟨x, y, h, hs⟩

end Verif.Props
