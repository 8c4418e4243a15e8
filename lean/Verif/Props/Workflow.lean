import Verif.Props.Random
import Verif.Props.Wif
import Verif.Props.Protect
import Verif.Props.Signature
import Mathlib.Logic.Relation
/-!
# C103: a key through its whole life

A key is generated, exported, stored, imported, encrypted, re-encrypted and decrypted any number of times in
any order, and used at the end. `StoreStep` is one such call that succeeds.
-/
namespace Verif.Props
open Verif Verif.Spec Verif.Keypair

/-- What a program holds: a private key, its serialization, a protected key with the password and the scrypt
parameters it was made with, or a WIF string. -/
inductive Stored where
  | key (k : PrivateKey)
  | bytes (b : Bytes)
  | prot (p : ProtectedKey) (pwd : Bytes) (param : ScryptParam)
  | wif (w : Bytes)

/-- One successful call. -/
inductive StoreStep (K : Keypair.Ext) (X : ProtExt) (W : WifExt) : Stored → Stored → Prop where
  | serialize {k b} : serializePrivateKey K k = .ok b → StoreStep K X W (.key k) (.bytes b)
  | deserialize {k b draws} : deserializePrivateKey K b draws = some (.ok (some k)) →
      StoreStep K X W (.bytes b) (.key k)
  | encrypt {k addr pwd param salt p} : encryptWithCustomScrypt X k addr pwd param (.ok salt) = .ok p →
      StoreStep K X W (.key k) (.prot p pwd param)
  | reencrypt {p pwd param pwd' param' salt p'} :
      reencryptPrivateKey K X (some p) pwd pwd' param param' (.ok salt) = .ok p' →
      StoreStep K X W (.prot p pwd param) (.prot p' pwd' param')
  | decrypt {p pwd param k} : decryptWithCustomScrypt K X (some p) pwd param = .ok k →
      StoreStep K X W (.prot p pwd param) (.key k)
  | toWIF {k w} : key2WIF K W k = .ok w → StoreStep K X W (.key k) (.wif w)
  | fromWIF {w k} : wif2Key K W w = .ok k → StoreStep K X W (.wif w) (.key k)
  | fromWIF' {w k} : getP256KeyPairFromWIF K W w = .ok k → StoreStep K X W (.wif w) (.key k)

/-- Both packages use the same external code. -/
structure SameExt (K : Keypair.Ext) (S : Signature.Ext) : Prop where
  k1name : K.k1name = S.k1name
  edPublic : K.edPublic = S.edPublic
  base : ∀ c ∈ Curves.all K.k1name, LawfulBase c (curveA K.k1name c) (K.baseMult c)
  eth : LawfulBase (ethCurve K) 0 (K.baseMult (ethCurve K))

/-- A generated key with a scalar that is not zero is valid in the sense of every package. -/
theorem generated_valid {K : Keypair.Ext} {S : Signature.Ext} (hS : S.Lawful) (hKS : SameExt K S) {t : Byte}
    {opts : Opts} {reads : List Bytes} {priv : PrivateKey} {pub : PublicKey}
    (hseed : t = 0x14 → ∀ b ∈ reads, b.length = 32)
    (h : generateKeyPair K t opts reads = some (.ok (priv, pub))) (h0 : scalarOf priv ≠ some 0) :
    pub = priv.matching ∧ ValidPrivate K priv ∧ ValidPublic K pub ∧ Signature.ValidKey S priv := by
  have hE : GoodName K.k1name := hKS.k1name ▸ hS.k1name
  unfold generateKeyPair at h
  split at h
  · rename_i ht
    cases opts with
    | other => cases h
    | byte l =>
      cases hg : getCurve K l with
      | err m => simp [hg] at h
      | panic m => simp [hg] at h
      | ok c =>
        simp only [hg] at h
        have ha : (if t = PK_ECDSA then Alg.ecdsa else Alg.sm2) = .ecdsa ∨
            (if t = PK_ECDSA then Alg.ecdsa else Alg.sm2) = .sm2 := by
          split_ifs
          · exact Or.inl rfl
          · exact Or.inr rfl
        generalize (if t = PK_ECDSA then Alg.ecdsa else Alg.sm2) = a at h ha
        rw [Option.map_eq_some_iff] at h
        obtain ⟨⟨priv', pub'⟩, h, e⟩ := h
        cases e
        have hc := getCurve_mem hg
        obtain ⟨D, x, y, rfl, rfl, hp, hlt, hxy, -, hv⟩ := C50_generated_partial K hE c hc (hKS.base c hc) a ha _ _ _ h
        have hD : D ≠ 0 := fun e => h0 (by rw [e]; rfl)
        obtain ⟨v1, v2⟩ := hv hD
        refine ⟨hp, v1, v2, ?_, rfl, ?_, ?_⟩
        · rw [← hKS.k1name]; exact hc
        · rw [Nat.mod_eq_of_lt hlt]; exact hD
        · rw [← hKS.k1name]; exact hxy
  split at h
  · rename_i ht
    cases opts with
    | other => cases h
    | byte l =>
      dsimp only at h
      split_ifs at h
      · cases reads with
        | nil => cases h
        | cons seed rest =>
          cases h
          have hl := hseed ht seed (List.mem_cons_self ..)
          have hp : (K.edPublic seed).length = 32 := by rw [hKS.edPublic]; exact hS.ed_public seed
          refine ⟨?_, ?_, hp, seed, hl, ?_⟩
          · change PublicKey.ed _ = .ed ((seed ++ K.edPublic seed).drop 32)
            rw [List.drop_left' hl]
          · change (seed ++ K.edPublic seed).length = 64
            rw [List.length_append, hl, hp]
          · rw [hKS.edPublic]
      · cases h
  split at h
  · rename_i ht
    obtain ⟨D, x, y, rfl, rfl, h1, h2, v1, v2⟩ := C50_ethereum K hKS.eth opts reads priv pub (by
      rw [← h]
      subst ht
      rfl)
    refine ⟨rfl, v1, v2, K.ethname, rfl, ?_, ?_⟩
    · change D % (ethCurve K).N ≠ 0
      rw [Nat.mod_eq_of_lt h2]; omega
    · intro inst G hG
      have : Fact (ethCurve K).P.Prime := inst
      rw [v1.2.2.2]
      exact hKS.eth G hG D
  · cases h

/-- `s` holds the key `priv`. -/
def Holds (K : Keypair.Ext) (X : ProtExt) (W : WifExt) (priv : PrivateKey) : Stored → Prop
  | .key k => k = priv
  | .bytes b => serializePrivateKey K priv = .ok b
  | .prot p pwd param => pwd ≠ [] → decryptWithCustomScrypt K X (some p) pwd param = .ok priv
  | .wif w => key2WIF K W priv = .ok w

theorem decrypt_pwd {K : Keypair.Ext} {X : ProtExt} {p : Option ProtectedKey} {pwd : Bytes} {param : ScryptParam}
    {k : PrivateKey} (h : decryptWithCustomScrypt K X p pwd param = .ok k) : pwd ≠ [] := by
  rintro rfl
  cases p <;> simp [decryptWithCustomScrypt] at h

theorem wif_back {K : Keypair.Ext} (hE : GoodName K.k1name) {W : WifExt} (hW : W.Lawful) {priv : PrivateKey}
    (hv : ValidPrivate K priv) {w : Bytes} (h : key2WIF K W priv = .ok w) :
    wif2Key K W w = .ok priv ∧ getP256KeyPairFromWIF K W w = .ok priv := by
  obtain ⟨h1, h2⟩ := C24_wif_roundtrip K hE W hW
  by_cases hp : ∃ p, priv = .ec .ecdsa p ∧ p.pub.curve = Curves.p256
  · obtain ⟨⟨D, ⟨c, x, y⟩⟩, rfl, hc⟩ := hp
    change c = Curves.p256 at hc
    subst hc
    have hD : D < 2 ^ 256 := lt_of_lt_of_le hv.2.2.1 (show 256 ^ Curves.p256.byteSize ≤ 2 ^ 256 by decide +kernel)
    obtain ⟨w', e1, -, e2, e3⟩ := h1 D x y hD hv.2.2.2.1 hv
    rw [h] at e1
    cases e1
    exact ⟨e2, e3⟩
  · obtain ⟨m, hm⟩ := h2 priv hv (fun p e hc => hp ⟨p, e, hc⟩)
    rw [h] at hm
    cases hm

theorem step_holds {K : Keypair.Ext} (hE : GoodName K.k1name) {X : ProtExt} (hX : X.Lawful) {W : WifExt}
    (hW : W.Lawful) {priv : PrivateKey} (hv : ValidPrivate K priv) {s s' : Stored}
    (h : StoreStep K X W s s') (hs : Holds K X W priv s) : Holds K X W priv s' := by
  cases h with
  | serialize h => cases hs; exact h
  | @deserialize k b draws h =>
    obtain ⟨data, h1, -, h2⟩ := C17_private_roundtrip K hE priv hv
    cases h1.symm.trans hs
    rcases (h2 draws).1 with h3 | h3
    · rw [h] at h3; cases h3; rfl
    · rw [h] at h3; cases h3
  | @encrypt k addr pwd param salt p h =>
    cases hs
    intro hp
    have hx : Exportable K priv := by
      cases priv with
      | ec a t => exact ⟨hv.1, hv.2.1, hv.2.2.2.1⟩
      | ed b => exact hv
      | eth t =>
        cases hd : kdf X pwd salt param with
        | err m => rw [encryptWithCustomScrypt] at h; simp [hd] at h
        | panic m => rw [encryptWithCustomScrypt] at h; simp [hd] at h
        | ok d =>
          obtain ⟨m, hm⟩ := (C68_encrypt_panics_iff_partial X hX (.eth t) addr pwd salt param).2
            (.inr ⟨⟨d, hd⟩, Or.inl ⟨t, rfl⟩⟩)
          rw [hm] at h; cases h
      | unknown => exact hv
    obtain ⟨h1, h2⟩ := C26_protect_roundtrip K hE X hX priv hx addr pwd salt param hp
    cases hd : kdf X pwd salt param with
    | err m => rw [h2 m hd] at h; cases h
    | panic m => unfold encryptWithCustomScrypt at h; simp [hd] at h
    | ok d =>
      obtain ⟨p', e1, -, e2⟩ := h1 d hd
      rw [h] at e1
      cases e1
      exact e2
  | @reencrypt p pwd param pwd' param' salt p' h =>
    intro hp
    obtain ⟨h1, h2⟩ := C29_reencrypt K hE X hX (some p) pwd pwd' salt param param'
    obtain ⟨⟨k, hk⟩, -⟩ := h1.1 ⟨p', h⟩
    have := hs (decrypt_pwd hk)
    rw [hk] at this
    cases this
    exact (h2 _ p' hk h).2 hp
  | decrypt h =>
    have := hs (decrypt_pwd h)
    rw [h] at this
    cases this
    rfl
  | toWIF h => cases hs; exact h
  | @fromWIF w k h =>
    have := (wif_back hE hW hv hs).1
    rw [h] at this
    cases this
    rfl
  | @fromWIF' w k h =>
    have := (wif_back hE hW hv hs).2
    rw [h] at this
    cases this
    rfl

/-- **C103** A generated key whose scalar is not zero comes back unchanged from any sequence of successful calls
of the export, import, encryption, re-encryption and decryption functions. -/
theorem C103_storage (K : Keypair.Ext) (S : Signature.Ext) (hS : S.Lawful) (hKS : SameExt K S) (X : ProtExt)
    (hX : X.Lawful) (W : WifExt) (hW : W.Lawful) (t : Byte) (opts : Opts) (reads : List Bytes) (priv : PrivateKey)
    (pub : PublicKey) (hseed : t = 0x14 → ∀ b ∈ reads, b.length = 32)
    (h : generateKeyPair K t opts reads = some (.ok (priv, pub))) (h0 : scalarOf priv ≠ some 0)
    (priv' : PrivateKey) (hs : Relation.ReflTransGen (StoreStep K X W) (.key priv) (.key priv')) : priv' = priv := by
  have hE : GoodName K.k1name := hKS.k1name ▸ hS.k1name
  obtain ⟨-, hv, -, -⟩ := generated_valid hS hKS hseed h h0
  suffices ∀ s, Relation.ReflTransGen (StoreStep K X W) (.key priv) s → Holds K X W priv s from this _ hs
  intro s hs
  induction hs with
  | refl => rfl
  | tail _ hst ih => exact step_holds hE hX hW hv hst ih

/-- **C103** (partial) A message signed with a key so stored, and whose signature was serialized and parsed in
another place, is accepted under the public key that was serialized and parsed in another place.
Missing: the empty message, Ethereum keys with 32-byte prehashed messages and SM2 user ids with zero bytes, for which
C59, C60 and C30 show that it is false; scalar zero (C50). -/
theorem C103_sign_verify_partial (K : Keypair.Ext) (S : Signature.Ext) (hS : S.Lawful) (hKS : SameExt K S) (X : ProtExt)
    (hX : X.Lawful) (W : WifExt) (hW : W.Lawful) (t : Byte) (opts : Opts) (reads : List Bytes) (priv : PrivateKey)
    (pub : PublicKey) (hseed : t = 0x14 → ∀ b ∈ reads, b.length = 32)
    (h : generateKeyPair K t opts reads = some (.ok (priv, pub))) (h0 : scalarOf priv ≠ some 0)
    (priv' : PrivateKey) (hs : Relation.ReflTransGen (StoreStep K X W) (.key priv) (.key priv')) :
    ∃ pkb, serializePublicKey K pub = .ok pkb ∧ ∀ draws r, deserializePublicKey K pkb draws = some r →
      ∃ pub', r = .ok pub' ∧
      ∀ fuel rand scheme msg opt sig, Signature.sign S fuel rand scheme priv' msg opt = some (.ok sig) → msg ≠ [] →
        ¬ ((∃ p, priv' = .eth p) ∧ opt = .bool true ∧ msg.length = 32) →
        (∀ id, opt = .str id → scheme = 9 → (0 : Byte) ∉ id) →
        ∃ b, Signature.serialize (some sig) = .ok b ∧ ∀ h buf, buf.Valid h → buf.read h = b →
          ∃ h' s', Signature.deserialize h buf = .ok (h', s') ∧
            Signature.verify S pub' msg (some (s'.map (Signature.bufOf h'))) = .ok true := by
  have hE : GoodName K.k1name := hKS.k1name ▸ hS.k1name
  obtain ⟨rfl, hv, hpv, hk⟩ := generated_valid hS hKS hseed h h0
  obtain rfl := C103_storage K S hS hKS X hX W hW t opts reads priv _ hseed h h0 priv' hs
  obtain ⟨pkb, h1, -, h2⟩ := C15_public_roundtrip K hE _ hpv
  refine ⟨pkb, h1, fun draws r hr => ?_⟩
  rcases (h2 draws).1 with e | e
  · rw [hr] at e
    cases e
    refine ⟨_, rfl, fun fuel rand scheme msg opt sig hsg hm h32 hid => ?_⟩
    exact C71_transported_partial S hS fuel rand scheme priv' hk msg opt sig hsg hm h32 hid
  · rw [hr] at e; cases e

/-! ## Non-vacuity -/

/-- External code of the key package to go with `refSig`. -/
def refKey : Keypair.Ext where
  k1name := ""
  ethname := ""
  baseMult c k := Affine.smul c.P (Signature.refA c) k (c.Gx, c.Gy)
  edPublic := Signature.refSig.edPublic

theorem refKey_same : SameExt refKey Signature.refSig where
  k1name := rfl
  edPublic := rfl
  base c hc := (affineOps_lawful (good_of_mem "" (Or.inl rfl) c hc) _ (Signature.refA_cast c hc)).base
  eth := (affineOps_lawful (good_k1 "") _ Curves.secp256k1_aN).base

/-- A generated P-256 key that goes through a serialization, a protected key under two passwords and a WIF
string. -/
example : ∃ priv pub b p p' w, generateKeyPair refKey 0x12 (.byte 2) [List.replicate 32 1] = some (.ok (priv, pub)) ∧
    scalarOf priv ≠ some 0 ∧
    StoreStep refKey refProt' refWif (.key priv) (.bytes b) ∧ StoreStep refKey refProt' refWif (.bytes b) (.key priv) ∧
    StoreStep refKey refProt' refWif (.key priv) (.prot p [1] getScryptParameters) ∧
    StoreStep refKey refProt' refWif (.prot p [1] getScryptParameters) (.prot p' [2, 3] getScryptParameters) ∧
    StoreStep refKey refProt' refWif (.prot p' [2, 3] getScryptParameters) (.key priv) ∧
    StoreStep refKey refProt' refWif (.key priv) (.wif w) ∧ StoreStep refKey refProt' refWif (.wif w) (.key priv) := by
  have hg : genScalar Curves.p256 [List.replicate 32 1] = some (natOfBytes (1 :: 0x43 :: List.replicate 30 1)) := by
    decide +kernel
  have hN : natOfBytes (1 :: 0x43 :: List.replicate 30 1) ≠ 0 := by decide +kernel
  generalize natOfBytes (1 :: 0x43 :: List.replicate 30 1) = D at hg hN
  have gen : generateKeyPair refKey 0x12 (.byte 2) [List.replicate 32 1] =
      ((genScalar Curves.p256 [List.replicate 32 1]).map fun D =>
        let q := refKey.baseMult Curves.p256 D
        (PrivateKey.ec .ecdsa ⟨D, ⟨Curves.p256, q.1, q.2⟩⟩, PublicKey.ec .ecdsa ⟨Curves.p256, q.1, q.2⟩)).map .ok := rfl
  rw [hg] at gen
  generalize hq : refKey.baseMult Curves.p256 D = q at gen
  simp only [Option.map_some, hq] at gen
  have h0 : scalarOf (.ec .ecdsa ⟨D, ⟨Curves.p256, q.1, q.2⟩⟩) ≠ some 0 := fun h => hN (Option.some.inj h)
  obtain ⟨-, hv, -, -⟩ := generated_valid Signature.refSig_lawful refKey_same (by decide) gen h0
  have hE : GoodName refKey.k1name := Or.inl rfl
  obtain ⟨b, b1, -, b2⟩ := C17_private_roundtrip refKey hE _ hv
  have hx : Exportable refKey (.ec .ecdsa ⟨D, ⟨Curves.p256, q.1, q.2⟩⟩) := ⟨hv.1, hv.2.1, hv.2.2.2.1⟩
  obtain ⟨p, p1, -, p2⟩ := (C26_protect_roundtrip refKey hE refProt' refProt_lawful _ hx [] [1] (zeros 16)
    getScryptParameters (by simp)).1 _ rfl
  obtain ⟨r1, r2⟩ := C29_reencrypt refKey hE refProt' refProt_lawful (some p) [1] [2, 3] (zeros 16) getScryptParameters
    getScryptParameters
  obtain ⟨p', hp'⟩ := r1.2 ⟨⟨_, p2⟩, _, rfl⟩
  obtain ⟨w, w1, -, w2, -⟩ := (C24_wif_roundtrip refKey hE refWif refWif_lawful).1 D q.1 q.2
    (lt_of_lt_of_le hv.2.2.1 (show 256 ^ Curves.p256.byteSize ≤ 2 ^ 256 by decide +kernel)) hv.2.2.2.1 hv
  exact ⟨_, _, b, p, p', w, gen, h0, .serialize b1, .deserialize ((b2 []).2 (Or.inl (show Curves.p256 ≠ Curves.p224 by decide))), .encrypt p1,
    .reencrypt hp', .decrypt ((r2 _ p' p2 hp').2 (by simp)), .toWIF w1, .fromWIF w2⟩

end Verif.Props
