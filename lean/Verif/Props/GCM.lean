import Verif.Props.Protect
import Verif.Lemmas.GHash
/-!
# C144, C145: what AES-GCM does for protected keys

The properties of `Props/Protect` take `Seal` and `Open` of AES-GCM as given. Here they are those of `Model/GoGCM`.
-/
namespace Verif.Props
open Verif.Keypair Verif.GCM

/-- crypto/aes: every encrypted block has 16 bytes. -/
def Blocks16 (aes : Bytes → Bytes → Bytes) : Prop := ∀ k b, (aes k b).length = 16

/-- The external code with the GCM mode written out, over the block cipher `aes`. -/
def withGCM (X : ProtExt) (aes : Bytes → Bytes → Bytes) : ProtExt :=
  { X with gcmSeal := fun k => sealText (aes k), gcmOpen := fun k => openText (aes k) }

theorem keystream_length {aes : Bytes → Bytes} (h : ∀ b, (aes b).length = 16) (nonce : Bytes) (len : Nat) :
    (keystream aes nonce len).length = len := by
  unfold keystream
  rw [List.length_take, List.length_flatMap]
  have : ((List.range ((len + 15) / 16)).map fun i => (aes (counter nonce (i + 2))).length).sum = (len + 15) / 16 * 16 := by
    rw [List.map_congr_left (g := fun _ => 16) (fun i _ => h _)]
    simp
  rw [this]
  omega

theorem tag_length {aes : Bytes → Bytes} (h : ∀ b, (aes b).length = 16) (nonce a c : Bytes) :
    (tag aes nonce a c).length = 16 := by
  unfold tag
  rw [xorBytes_length, beFix_length, h]; rfl

theorem seal_parts {aes : Bytes → Bytes} (h : ∀ b, (aes b).length = 16) (nonce p a : Bytes) :
    (sealText aes nonce p a).length = p.length + 16 ∧
    (sealText aes nonce p a).take ((sealText aes nonce p a).length - 16) = xorBytes p (keystream aes nonce p.length) ∧
    (sealText aes nonce p a).drop ((sealText aes nonce p a).length - 16) =
      tag aes nonce a (xorBytes p (keystream aes nonce p.length)) := by
  have hc : (xorBytes p (keystream aes nonce p.length)).length = p.length := by
    rw [xorBytes_length, keystream_length h]; omega
  have hl : (sealText aes nonce p a).length = p.length + 16 := by
    unfold sealText
    simp only [List.length_append, hc, tag_length h]
  refine ⟨hl, ?_, ?_⟩
  · rw [hl, Nat.add_sub_cancel]; exact List.take_left' hc
  · rw [hl, Nat.add_sub_cancel]; exact List.drop_left' hc

/-- **C144** What is assumed of `Seal` and `Open` in the properties of protected keys holds for AES-GCM as it is written out
in `Model/GoGCM`. -/
theorem C144_lawful (X : ProtExt) (hX : X.Lawful) (aes : Bytes → Bytes → Bytes) (ha : Blocks16 aes) :
    (withGCM X aes).Lawful where
  scrypt_length := hX.scrypt_length
  ctr_length := hX.ctr_length
  gcm_open_iff := by
    intro k n t a p
    have h := ha k
    show openText (aes k) n t a = some p ↔ t = sealText (aes k) n p a
    constructor
    · intro ho
      unfold openText at ho
      by_cases h1 : t.length < 16
      · rw [if_pos h1] at ho; cases ho
      rw [if_neg h1] at ho
      generalize hg : tag (aes k) n a (t.take (t.length - 16)) = g at ho
      by_cases h2 : g = t.drop (t.length - 16)
      swap
      · simp only [hg, if_neg h2] at ho; cases ho
      simp only [hg, if_pos h2] at ho
      have ho := Option.some.inj ho
      rw [h2] at hg
      have hp : p.length = (t.take (t.length - 16)).length := by
        rw [← ho, xorBytes_length, keystream_length h]; omega
      have hc : xorBytes p (keystream (aes k) n p.length) = t.take (t.length - 16) := by
        rw [hp, ← ho]
        exact xorBytes_cancel _ _ (by rw [keystream_length h])
      unfold sealText
      simp only [hc, hg, List.take_append_drop]
    · rintro rfl
      obtain ⟨h1, h2, h3⟩ := seal_parts h n p a
      unfold openText
      rw [if_neg (by omega)]
      simp only [h2, h3]
      have hl : (xorBytes p (keystream (aes k) n p.length)).length = p.length := by
        rw [xorBytes_length, keystream_length h]; omega
      rw [if_pos trivial, hl, xorBytes_cancel _ _ (by rw [keystream_length h])]

/-- **C144** A protected key that differs from a genuine one in the address or in the encrypted key is accepted only if the
hash key of AES-GCM is in a set that the two records determine, whatever the password; the set has at most as many of the
2^128 elements as there are blocks of 16 bytes in the longer of the records, plus one for the lengths. -/
theorem C144_forgery (prot prot' : ProtectedKey) (hsalt : prot'.salt = prot.salt)
    (halg : prot.encAlg = "aes-256-gcm") (halg' : prot'.encAlg = "aes-256-gcm")
    (hne : (prot'.address, prot'.key) ≠ (prot.address, prot.key))
    (h1 : prot.address.length < 2 ^ 61) (h2 : prot.key.length < 2 ^ 61)
    (h3 : prot'.address.length < 2 ^ 61) (h4 : prot'.key.length < 2 ^ 61) :
    ∃ S : Set (BitVec 128),
      S.ncard ≤ max ((prot.address.length + 15) / 16 + (prot.key.length - 1) / 16 + 1)
        ((prot'.address.length + 15) / 16 + (prot'.key.length - 1) / 16 + 1) ∧
      ∀ (E : Ext) (X : ProtExt) (_ : X.Lawful) (aes : Bytes → Bytes → Bytes) (_ : Blocks16 aes) (pwd : Bytes)
        (param : ScryptParam) (k k' : PrivateKey),
        decryptWithCustomScrypt E (withGCM X aes) (some prot) pwd param = .ok k →
        decryptWithCustomScrypt E (withGCM X aes) (some prot') pwd param = .ok k' →
        ∃ d, X.scrypt pwd prot.salt param.N param.R param.P param.DKLen = .ok d ∧
          BitVec.ofNat 128 (natOfBytes (aes (d.drop (d.length - 32)) (zeros 16))) ∈ S := by
  set c := prot.key.take (prot.key.length - 16) with hc
  set c' := prot'.key.take (prot'.key.length - 16) with hc'
  set t := xorBytes (prot.key.drop (prot.key.length - 16)) (prot'.key.drop (prot'.key.length - 16)) with ht
  have hcl : c.length = prot.key.length - 16 := by rw [hc, List.length_take]; omega
  have hcl' : c'.length = prot'.key.length - 16 := by rw [hc', List.length_take]; omega
  -- what acceptance of both says
  have key : ∀ (E : Ext) (X : ProtExt) (_ : X.Lawful) (aes : Bytes → Bytes → Bytes) (_ : Blocks16 aes) (pwd : Bytes)
      (param : ScryptParam) (k k' : PrivateKey),
      decryptWithCustomScrypt E (withGCM X aes) (some prot) pwd param = .ok k →
      decryptWithCustomScrypt E (withGCM X aes) (some prot') pwd param = .ok k' →
      16 ≤ prot.key.length ∧ 16 ≤ prot'.key.length ∧
      ∃ d m, X.scrypt pwd prot.salt param.N param.R param.P param.DKLen = .ok d ∧ m.length = 16 ∧
        prot.key.drop (prot.key.length - 16) = xorBytes (beFix 16 (ghash (hashKey (aes (ekeyOf d))) (hashed prot.address c)).toNat) m ∧
        prot'.key.drop (prot'.key.length - 16) =
          xorBytes (beFix 16 (ghash (hashKey (aes (ekeyOf d))) (hashed prot'.address c')).toNat) m := by
    intro E X hX aes ha pwd param k k' hk hk'
    have hL := C144_lawful X hX aes ha
    obtain ⟨-, d, p, hd, e, -⟩ := (decrypt_gcm_iff E hL _ _ _ halg k).1 hk
    obtain ⟨-, d', p', hd', e', -⟩ := (decrypt_gcm_iff E hL _ _ _ halg' k').1 hk'
    rw [hsalt, hd] at hd'
    cases hd'
    have hs : X.scrypt pwd prot.salt param.N param.R param.P param.DKLen = .ok d := by
      unfold kdf at hd
      split at hd
      · simp at hd
      · exact hd
    obtain ⟨a1, a2, a3⟩ := seal_parts (ha (ekeyOf d)) (d.take 12) p prot.address
    obtain ⟨b1, b2, b3⟩ := seal_parts (ha (ekeyOf d)) (d.take 12) p' prot'.address
    rw [show sealText (aes (ekeyOf d)) (d.take 12) p prot.address = prot.key from e.symm] at a1 a2 a3
    rw [show sealText (aes (ekeyOf d)) (d.take 12) p' prot'.address = prot'.key from e'.symm] at b1 b2 b3
    rw [← a2] at a3
    rw [← b2] at b3
    exact ⟨by omega, by omega, d, _, hs, ha _ _, a3, b3⟩
  by_cases hsame : prot.address = prot'.address ∧ c = c'
  · refine ⟨∅, by rw [Set.ncard_empty]; omega, ?_⟩
    intro E X hX aes ha pwd param k k' hk hk'
    obtain ⟨l, l', d, m, -, -, e, e'⟩ := key E X hX aes ha pwd param k k' hk hk'
    rw [hsame.1, hsame.2] at e
    exact absurd (Prod.ext hsame.1.symm (by
      rw [← List.take_append_drop (prot'.key.length - 16) prot'.key, ← List.take_append_drop (prot.key.length - 16) prot.key,
        e, e', ← hc, ← hc', hsame.2])) hne
  by_cases hlen : 16 ≤ prot.key.length ∧ 16 ≤ prot'.key.length
  · refine ⟨{h | ghash h (hashed prot.address c) ^^^ ghash h (hashed prot'.address c') = BitVec.ofNat 128 (natOfBytes t)}, ?_, ?_⟩
    · refine (ghash_bound h1 (by omega) h3 (by omega) hsame _).trans ?_
      rw [hashed_length, hashed_length, hcl, hcl']
      omega
    · intro E X hX aes ha pwd param k k' hk hk'
      obtain ⟨l, l', d, m, hs, hm, e, e'⟩ := key E X hX aes ha pwd param k k' hk hk'
      refine ⟨d, hs, ?_⟩
      show ghash (hashKey (aes (ekeyOf d))) _ ^^^ ghash (hashKey (aes (ekeyOf d))) _ = _
      rw [ht, e, e', xorBytes_mid _ _ _ (by rw [beFix_length, hm]) (by rw [beFix_length, hm]), xorBytes_beFix,
        ← BitVec.toNat_xor, natOfBytes_beFix_of_lt (by
          have := (ghash (hashKey (aes (ekeyOf d))) (hashed prot.address c) ^^^
            ghash (hashKey (aes (ekeyOf d))) (hashed prot'.address c')).isLt
          exact lt_of_lt_of_eq this (by norm_num)), BitVec.ofNat_toNat, BitVec.setWidth_eq]
  · refine ⟨∅, by rw [Set.ncard_empty]; omega, ?_⟩
    intro E X hX aes ha pwd param k k' hk hk'
    obtain ⟨l, l', -⟩ := key E X hX aes ha pwd param k k' hk hk'
    exact absurd ⟨l, l'⟩ hlen

/-- The secret bytes of a private key: the scalar without leading zeros, or the 64 bytes of an Ed25519 key. -/
def Secret (k : PrivateKey) (p : Bytes) : Prop := (∃ a t, k = .ec a t ∧ p = bytesOfNat t.D) ∨ k = .ed p

theorem secret_unique {k : PrivateKey} {p q : Bytes} (hp : Secret k p) (hq : Secret k q) : p = q := by
  rcases hp with ⟨a, t, rfl, rfl⟩ | rfl
  · rcases hq with ⟨a', t', e, rfl⟩ | e
    · cases e; rfl
    · cases e
  · rcases hq with ⟨a', t', e, rfl⟩ | e
    · cases e
    · cases e; rfl

/-- **C145** (partial) The encrypted key in a protected key is the secret, covered by a keystream that depends on password,
salt, parameters and length only, and a tag of 16 bytes. Missing: the length, and equal salts. -/
theorem C145_body_partial (X : ProtExt) (hX : X.Lawful) (aes : Bytes → Bytes → Bytes) (ha : Blocks16 aes) (pwd salt : Bytes)
    (param : ScryptParam) (len : Nat) : ∃ stream : Bytes, stream.length = len ∧
    ∀ (k : PrivateKey) (p : Bytes), Secret k p → p.length = len → ∀ (addr : Bytes) (prot : ProtectedKey),
      encryptWithCustomScrypt (withGCM X aes) k addr pwd param (.ok salt) = .ok prot →
      prot.key.length = len + 16 ∧ prot.key.take len = xorBytes p stream := by
  have hL := C144_lawful X hX aes ha
  by_cases hd : ∃ d, X.scrypt pwd salt param.N param.R param.P param.DKLen = .ok d
  · obtain ⟨d, hd⟩ := hd
    refine ⟨keystream (aes (d.drop (d.length - 32))) (d.take 12) len, keystream_length (ha _) _ _, ?_⟩
    intro k p hk hl addr prot h
    obtain ⟨d', p', h1, -, h3, h4⟩ := C67_encrypt _ hL k addr pwd salt param prot h
    have h1 : X.scrypt pwd salt param.N param.R param.P param.DKLen = .ok d' := h1
    rw [hd] at h1
    cases h1
    cases secret_unique hk h4
    obtain ⟨a1, a2, -⟩ := seal_parts (ha (d.drop (d.length - 32))) (d.take 12) p addr
    have h3 : prot.key = sealText (aes (d.drop (d.length - 32))) (d.take 12) p addr := h3
    rw [← h3] at a1 a2
    rw [a1, hl, Nat.add_sub_cancel] at a2
    exact ⟨by rw [a1, hl], a2⟩
  · refine ⟨zeros len, by simp [zeros], ?_⟩
    intro k p _ _ addr prot h
    obtain ⟨d', -, h1, -⟩ := C67_encrypt _ hL k addr pwd salt param prot h
    exact absurd ⟨d', h1⟩ hd

/-- **C145** is false: the length of the encrypted key tells how many leading zero bytes the private key has. -/
theorem C145_length_fails (X : ProtExt) (hX : X.Lawful) (aes : Bytes → Bytes → Bytes) (ha : Blocks16 aes)
    (a : Alg) (t : ECPriv) (addr pwd salt : Bytes) (param : ScryptParam) (prot : ProtectedKey)
    (h : encryptWithCustomScrypt (withGCM X aes) (.ec a t) addr pwd param (.ok salt) = .ok prot) (i : Nat) :
    prot.key.length ≤ 16 + i ↔ t.D < 256 ^ i := by
  obtain ⟨s, -, hs⟩ := C145_body_partial X hX aes ha pwd salt param (bytesOfNat t.D).length
  obtain ⟨e, -⟩ := hs (.ec a t) _ (.inl ⟨a, t, rfl, rfl⟩) rfl addr prot h
  rw [e, bytesOfNat_length, ← byteLen_le_iff]
  omega

/-- **C145** is false: of two keys protected with the same password and salt, who knows one learns the other. -/
theorem C145_same_salt_fails (X : ProtExt) (hX : X.Lawful) (aes : Bytes → Bytes → Bytes) (ha : Blocks16 aes)
    (k k' : PrivateKey) (p p' : Bytes) (hk : Secret k p) (hk' : Secret k' p') (hl : p'.length = p.length)
    (addr addr' pwd salt : Bytes) (param : ScryptParam) (prot prot' : ProtectedKey)
    (h : encryptWithCustomScrypt (withGCM X aes) k addr pwd param (.ok salt) = .ok prot)
    (h' : encryptWithCustomScrypt (withGCM X aes) k' addr' pwd param (.ok salt) = .ok prot') :
    p' = xorBytes p (xorBytes (prot.key.take p.length) (prot'.key.take p.length)) := by
  obtain ⟨s, hs, hb⟩ := C145_body_partial X hX aes ha pwd salt param p.length
  rw [(hb k p hk rfl addr prot h).2, (hb k' p' hk' hl addr' prot' h').2, xorBytes_mid _ _ _ hs.symm (by rw [hs, hl])]
  have : ∀ a b : Bytes, b.length = a.length → b = xorBytes a (xorBytes a b) := by
    intro a
    induction a with
    | nil => intro b hb; rw [List.length_eq_zero_iff.1 hb]; rfl
    | cons x a ih =>
      intro b hb
      cases b with
      | nil => simp at hb
      | cons y b =>
        have e := ih b (by simpa using hb)
        unfold xorBytes at e ⊢
        rw [List.zipWith_cons_cons, List.zipWith_cons_cons, ← e, ← BitVec.xor_assoc]
        simp
  exact this p p' hl

/-! ## Concrete cases -/

/-- Test case 2 of the GCM specification: hash key, ciphertext and GHASH. -/
example : ghash 0x66e94bd4ef8a2c3b884cfa59ca342b2e#128 (hashed [] (beFix 16 0x0388dace60b6a392f328c2b971b2fe78)) =
    0xf38cbb1ad69223dcc3457ae5b6b0f885#128 := by decide +kernel

/-- A block function for examples. -/
def toyAes (k b : Bytes) : Bytes := beFix 16 (natOfBytes k * 3 + natOfBytes b * 5 + 7)

theorem toyAes_blocks : Blocks16 toyAes := fun _ _ => beFix_length _ _

/-- Protecting and recovering a key with all parts in place. -/
example : ∃ prot, encryptWithCustomScrypt (withGCM refProt' toyAes) (.ed (beFix 64 77)) [1] [2] getScryptParameters
      (.ok (zeros 16)) = .ok prot ∧ prot.key.length = 80 ∧
    decryptWithCustomScrypt refExt (withGCM refProt' toyAes) (some prot) [2] getScryptParameters = .ok (.ed (beFix 64 77)) := by
  have hL := C144_lawful refProt' refProt_lawful toyAes toyAes_blocks
  refine ⟨_, rfl, (seal_parts (toyAes_blocks _) _ _ _).1, ?_⟩
  rw [decrypt_gcm_iff refExt hL _ _ _ rfl]
  exact ⟨by decide, _, _, rfl, rfl, rfl⟩

/-- Two records to which `C144_forgery` applies and which are both accepted: under the block function that is always 0, the
hash key is 0, which is in the set. -/
example : ∃ prot prot' : ProtectedKey, prot'.salt = prot.salt ∧ (prot'.address, prot'.key) ≠ (prot.address, prot.key) ∧
    (∃ k, decryptWithCustomScrypt refExt (withGCM refProt' fun _ _ => zeros 16) (some prot) [2] getScryptParameters = .ok k) ∧
    (∃ k, decryptWithCustomScrypt refExt (withGCM refProt' fun _ _ => zeros 16) (some prot') [2] getScryptParameters = .ok k) := by
  have ha : Blocks16 fun _ _ => zeros 16 := fun _ _ => zeros_length 16
  have hL := C144_lawful refProt' refProt_lawful _ ha
  have h0 : ∀ bs, ghash 0 bs = 0 := by
    intro bs
    induction bs using List.reverseRecOn with
    | nil => rfl
    | append_singleton bs b ih =>
      rw [ghash_snoc]
      apply el_inj
      rw [el_mul]
      have : el 0 = 0 := el_zero
      rw [this, mul_zero]
  have hs : ∀ n p a, sealText (fun _ => zeros 16) n p a = xorBytes p (keystream (fun _ => zeros 16) [] p.length) ++ zeros 16 := by
    intro n p a
    have hn : keystream (fun _ => zeros 16) n p.length = keystream (fun _ => zeros 16) [] p.length := rfl
    unfold sealText tag
    have hk : hashKey (fun _ => zeros 16) = 0 := by decide +kernel
    simp only [hk, h0, hn]
    rfl
  have key : ∀ p, p.length = 64 → ∃ k, decryptWithCustomScrypt refExt (withGCM refProt' fun _ _ => zeros 16)
      (some ⟨[1], "aes-256-gcm", sealText (fun _ => zeros 16) [] p [], "Ed25519", zeros 16, ""⟩) [2] getScryptParameters = .ok k := by
    intro p hp
    refine ⟨.ed p, ?_⟩
    rw [decrypt_gcm_iff refExt hL _ _ _ rfl]
    obtain ⟨d, hd⟩ : ∃ d, kdf (withGCM refProt' fun _ _ => zeros 16) [2] (zeros 16) getScryptParameters = .ok d := ⟨_, rfl⟩
    refine ⟨by decide, d, p, hd, ?_, ?_⟩
    · exact (hs _ _ _).trans (hs _ _ _).symm
    · unfold decodeBody
      simp only
      rw [if_neg (by decide), if_pos trivial, if_neg (by simp [hp])]
  have k0 := key (zeros 64) (zeros_length 64)
  have k1 := key (beFix 64 1) (beFix_length 64 1)
  refine ⟨_, _, ?_, ?_, k0, k1⟩
  · rfl
  intro h
  have h2 := congrArg Prod.snd h
  simp only [hs] at h2
  have h3 := List.append_cancel_right h2
  exact absurd h3 (by decide +kernel)

/-- Two keys of the same length protected with one password and salt. -/
example : Secret (.ed (beFix 64 77)) (beFix 64 77) ∧
    (∃ prot, encryptWithCustomScrypt (withGCM refProt' toyAes) (.ed (beFix 64 77)) [1] [2] getScryptParameters (.ok (zeros 16)) =
      .ok prot) ∧
    (∃ prot, encryptWithCustomScrypt (withGCM refProt' toyAes) (.ed (beFix 64 99)) [1] [2] getScryptParameters (.ok (zeros 16)) =
      .ok prot) := ⟨.inr rfl, ⟨_, rfl⟩, ⟨_, rfl⟩⟩

/-- Keys on P-256 whose records have different lengths. -/
example : ∃ prot prot' : ProtectedKey,
    encryptWithCustomScrypt (withGCM refProt' toyAes) (.ec .ecdsa ⟨255, Curves.p256, 0, 0⟩) [1] [2] getScryptParameters
      (.ok (zeros 16)) = .ok prot ∧
    encryptWithCustomScrypt (withGCM refProt' toyAes) (.ec .ecdsa ⟨256, Curves.p256, 0, 0⟩) [1] [2] getScryptParameters
      (.ok (zeros 16)) = .ok prot' ∧ prot.key.length = 17 ∧ prot'.key.length = 18 :=
  ⟨_, _, rfl, rfl, (seal_parts (toyAes_blocks _) _ _ _).1, (seal_parts (toyAes_blocks _) _ _ _).1⟩

end Verif.Props
