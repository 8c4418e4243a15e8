import Verif.Props.KeyGen
import Verif.Model.Protect
import Verif.Lemmas.AES
/-!
# Password-protected private keys (C26-C29, C66-C68)
-/
namespace Verif.Props
open Verif Verif.EC Verif.Keypair Verif.Spec

/-- The keys that can be protected: EC keys on a supported curve whose public half is `D·G`, and Ed25519
keys of 64 bytes. -/
def Exportable (E : Ext) : PrivateKey → Prop
  | .ec alg t => (alg = .ecdsa ∨ alg = .sm2) ∧ t.pub.curve ∈ Curves.all E.k1name ∧
      (t.pub.x, t.pub.y) = E.baseMult t.pub.curve t.D
  | .ed b => b.length = 64
  | _ => False

theorem getNamedCurve_name (E : Ext) (hE : GoodName E.k1name) {c : Curve} (hc : c ∈ Curves.all E.k1name) :
    getNamedCurve E c.name = .ok c := by
  obtain ⟨l, hl⟩ := mem_all_iff.1 hc
  have h := getCurveLabel_label E hE hl
  unfold getCurveLabel at h
  unfold getNamedCurve
  rw [h]
  exact getCurve_label E hl

theorem getNamedCurve_ok (E : Ext) {s : String} {c : Curve} (h : getNamedCurve E s = .ok c) :
    c ∈ Curves.all E.k1name := by
  unfold getNamedCurve at h
  cases hl : getNamedCurveLabel E s with
  | ok l => rw [hl] at h; exact mem_all_iff.2 ⟨l, label_of_getCurve E h⟩
  | err m => rw [hl] at h; simp at h
  | panic m => rw [hl] at h; simp at h

theorem kdf_ok_length {X : ProtExt} (hX : X.Lawful) {pwd salt : Bytes} {param : ScryptParam} {d : Bytes}
    (h : kdf X pwd salt param = .ok d) : 32 ≤ d.length ∧ (d.length : Int) = param.DKLen := by
  unfold kdf at h
  split at h
  · simp at h
  · rename_i hp
    have := hX.scrypt_length _ _ _ _ _ _ _ h
    omega

theorem ekey_ok {d : Bytes} (h : 32 ≤ d.length) : aesKeyOk (ekeyOf d) = true := by
  unfold aesKeyOk ekeyOf
  rw [List.length_drop, show d.length - (d.length - 32) = 32 by omega]
  rfl

/-- What is encrypted for a key: plaintext, algorithm name, curve name. -/
def bodyOf : PrivateKey → Option (Bytes × String × String)
  | .ec .ecdsa t => some (bytesOfNat t.D, "ECDSA", t.pub.curve.name)
  | .ec .sm2 t => some (bytesOfNat t.D, "SM2", t.pub.curve.name)
  | .ed b => some (b, "Ed25519", "")
  | _ => none

theorem encrypt_eq {X : ProtExt} (hX : X.Lawful) (k : PrivateKey) (addr pwd salt : Bytes) (param : ScryptParam)
    {d : Bytes} (hd : kdf X pwd salt param = .ok d) :
    encryptWithCustomScrypt X k addr pwd param (.ok salt) =
      match bodyOf k with
      | some (p, alg, curve) =>
        .ok ⟨addr, "aes-256-gcm", X.gcmSeal (ekeyOf d) (d.take 12) p addr, alg, salt, curve⟩
      | none => encryptWithCustomScrypt X k addr pwd param (.ok salt) := by
  obtain ⟨hl, _⟩ := kdf_ok_length hX hd
  cases hb : bodyOf k with
  | none => rfl
  | some b =>
    obtain ⟨p, alg, curve⟩ := b
    simp only
    unfold encryptWithCustomScrypt
    simp only [hd]
    rw [if_neg (by omega)]
    have hk := ekey_ok hl
    cases k with
    | ec a t =>
      cases a with
      | ecdsa => simp only [bodyOf, Option.some.injEq, Prod.mk.injEq] at hb; obtain ⟨rfl, rfl, rfl⟩ := hb; simp [hk]
      | sm2 => simp only [bodyOf, Option.some.injEq, Prod.mk.injEq] at hb; obtain ⟨rfl, rfl, rfl⟩ := hb; simp [hk]
      | other b => simp [bodyOf] at hb
    | ed b => simp only [bodyOf, Option.some.injEq, Prod.mk.injEq] at hb; obtain ⟨rfl, rfl, rfl⟩ := hb; simp [hk]
    | eth t => simp [bodyOf] at hb
    | unknown => simp [bodyOf] at hb

theorem exportable_body (E : Ext) (hE : GoodName E.k1name) {k : PrivateKey} (hk : Exportable E k) :
    ∃ p alg curve, bodyOf k = some (p, alg, curve) ∧
      ∀ prot : ProtectedKey, prot.alg = alg → prot.curve = curve → decodeBody E prot p = .ok k := by
  cases k with
  | ec a t =>
    obtain ⟨ha, hc, hb⟩ := hk
    obtain ⟨D, ⟨c, x, y⟩⟩ := t
    simp only at hc hb
    have hkey : constructPrivateKey E (bytesOfNat D) c = ⟨D, ⟨c, x, y⟩⟩ := by
      simp only [constructPrivateKey, natOfBytes_bytesOfNat, ← hb]
    rcases ha with rfl | rfl
    · refine ⟨_, _, _, rfl, ?_⟩
      intro prot h1 h2
      unfold decodeBody
      rw [if_pos (Or.inl h1), h2, getNamedCurve_name E hE hc]
      simp only
      rw [if_pos h1, hkey]
    · refine ⟨_, _, _, rfl, ?_⟩
      intro prot h1 h2
      unfold decodeBody
      rw [if_pos (Or.inr h1), h2, getNamedCurve_name E hE hc]
      simp only
      rw [if_neg (by rw [h1]; decide), hkey]
  | ed b =>
    refine ⟨_, _, _, rfl, ?_⟩
    intro prot h1 h2
    unfold decodeBody
    rw [if_neg (by rw [h1]; decide), if_pos h1, if_neg (not_not.2 (show b.length = 64 from hk))]
  | eth t => exact hk.elim
  | unknown => exact hk.elim

/-- Decryption of GCM-protected keys succeeds exactly when the ciphertext is the GCM sealing, under the key
and nonce derived from this password and salt and with this address as additional data, of a plaintext that
encodes the returned key. -/
theorem decrypt_gcm_iff (E : Ext) {X : ProtExt} (hX : X.Lawful) (prot : ProtectedKey) (pwd : Bytes)
    (param : ScryptParam) (halg : prot.encAlg = "aes-256-gcm") (k : PrivateKey) :
    decryptWithCustomScrypt E X (some prot) pwd param = .ok k ↔
      pwd ≠ [] ∧ ∃ d p, kdf X pwd prot.salt param = .ok d ∧
        prot.key = X.gcmSeal (ekeyOf d) (d.take 12) p prot.address ∧ decodeBody E prot p = .ok k := by
  unfold decryptWithCustomScrypt
  simp only
  by_cases hp : pwd = []
  · subst hp; simp
  · rw [if_neg (by simpa using hp)]
    unfold decryptBody
    rw [if_pos halg]
    cases hd : kdf X pwd prot.salt param with
    | err m => simp
    | panic m => simp
    | ok d =>
      obtain ⟨hl, _⟩ := kdf_ok_length hX hd
      simp only
      rw [if_neg (by omega), if_pos (ekey_ok hl)]
      cases ho : X.gcmOpen (ekeyOf d) (d.take 12) prot.key prot.address with
      | none =>
        simp only [Res.bind_err, reduceCtorEq, false_iff, not_and, not_exists, Res.ok.injEq]
        rintro _ d' p rfl hkey
        rw [(hX.gcm_open_iff _ _ _ _ _).2 hkey] at ho
        simp at ho
      | some p =>
        simp only [Res.bind_ok, Res.ok.injEq]
        constructor
        · intro h
          exact ⟨hp, d, p, rfl, (hX.gcm_open_iff _ _ _ _ _).1 ho, h⟩
        · rintro ⟨_, d', p', rfl, hkey, h⟩
          rw [(hX.gcm_open_iff _ _ _ _ _).2 hkey] at ho
          cases ho
          exact h

/-- **C26**: for every exportable key, address, parameters, salt and non-empty password for which key
derivation succeeds, encryption succeeds and decryption with the same password and parameters returns
exactly the key. (Key derivation fails for invalid scrypt parameters; then encryption returns an error.) -/
theorem C26_protect_roundtrip (E : Ext) (hE : GoodName E.k1name) (X : ProtExt) (hX : X.Lawful)
    (k : PrivateKey) (hk : Exportable E k) (addr pwd salt : Bytes) (param : ScryptParam) (hpwd : pwd ≠ []) :
    (∀ d, kdf X pwd salt param = .ok d →
      ∃ prot, encryptWithCustomScrypt X k addr pwd param (.ok salt) = .ok prot ∧ prot.address = addr ∧
        decryptWithCustomScrypt E X (some prot) pwd param = .ok k) ∧
    (∀ m, kdf X pwd salt param = .err m →
      encryptWithCustomScrypt X k addr pwd param (.ok salt) = .err m) := by
  constructor
  · intro d hd
    obtain ⟨p, alg, curve, hb, hdec⟩ := exportable_body E hE hk
    refine ⟨_, by rw [encrypt_eq hX k addr pwd salt param hd, hb], rfl, ?_⟩
    rw [decrypt_gcm_iff E hX _ _ _ rfl]
    exact ⟨hpwd, d, p, hd, rfl, hdec _ rfl rfl⟩
  · intro m hm
    unfold encryptWithCustomScrypt
    simp only [hm]

/-- **C27 (partial)**: a GCM-protected key is accepted exactly when its ciphertext is the GCM sealing under
the key and nonce derived from the given password and stored salt, with the stored address as additional
data. So a changed ciphertext, password, salt, parameter or address is accepted only if it is again such a
sealing, i.e. a GCM forgery or a scrypt collision.
Missing: that forgeries do not exist (computational), and the legacy CTR mode, which does not authenticate
(`C27_ctr_unauthenticated`). -/
theorem C27_gcm_accepts_iff_partial (E : Ext) (X : ProtExt) (hX : X.Lawful) (prot : ProtectedKey) (pwd : Bytes)
    (param : ScryptParam) (halg : prot.encAlg = "aes-256-gcm") :
    (∃ k, decryptWithCustomScrypt E X (some prot) pwd param = .ok k) ↔
      pwd ≠ [] ∧ ∃ d p k, kdf X pwd prot.salt param = .ok d ∧
        prot.key = X.gcmSeal (d.drop (d.length - 32)) (d.take 12) p prot.address ∧
        decodeBody E prot p = .ok k := by
  constructor
  · rintro ⟨k, h⟩
    obtain ⟨h1, d, p, h2, h3, h4⟩ := (decrypt_gcm_iff E hX _ _ _ halg k).1 h
    exact ⟨h1, d, p, k, h2, h3, h4⟩
  · rintro ⟨h1, d, p, k, h2, h3, h4⟩
    exact ⟨k, (decrypt_gcm_iff E hX _ _ _ halg k).2 ⟨h1, d, p, h2, h3, h4⟩⟩

theorem xorBytes_inj_left {a b s : Bytes} (ha : a.length = s.length) (hb : b.length = s.length)
    (h : xorBytes a s = xorBytes b s) : a = b := by
  induction s generalizing a b with
  | nil => simp at ha hb; rw [ha, hb]
  | cons x xs ih =>
    cases a with
    | nil => simp at ha
    | cons a0 as =>
      cases b with
      | nil => simp at hb
      | cons b0 bs =>
        simp only [xorBytes, List.zipWith_cons_cons, List.cons.injEq] at h
        rw [ih (by simpa using ha) (by simpa using hb) h.2]
        have : a0 = b0 := by
          have := congrArg (· ^^^ x) h.1
          simpa [BitVec.xor_assoc] using this
        rw [this]

/-- The legacy mode authenticates nothing: every ciphertext is accepted, and two different ciphertexts of
the same length give private keys with different scalars. -/
theorem C27_ctr_unauthenticated (E : Ext) (X : ProtExt) (hX : X.Lawful) (prot : ProtectedKey)
    (halg : prot.encAlg = "aes-256-ctr") (hkey : prot.alg = "ECDSA") (c : Curve)
    (hc : getNamedCurve E prot.curve = .ok c) (pwd : Bytes) (hpwd : pwd ≠ []) (param : ScryptParam) (d : Bytes)
    (hd : kdf X pwd (saltFromAddress X prot.address) param = .ok d) (ct ct' : Bytes) (hl : ct.length = ct'.length)
    (hne : ct ≠ ct') :
    ∃ k k' : ECPriv, k.D ≠ k'.D ∧
      decryptWithCustomScrypt E X (some { prot with key := ct }) pwd param = .ok (.ec .ecdsa k) ∧
      decryptWithCustomScrypt E X (some { prot with key := ct' }) pwd param = .ok (.ec .ecdsa k') := by
  obtain ⟨hlen, _⟩ := kdf_ok_length hX hd
  have key : ∀ t : Bytes, decryptWithCustomScrypt E X (some { prot with key := t }) pwd param =
      .ok (.ec .ecdsa (constructPrivateKey E (xorBytes t (X.ctrStream (ekeyOf d) (d.take 16) t.length)) c)) := by
    intro t
    unfold decryptWithCustomScrypt
    simp only
    rw [if_neg (by simpa using hpwd)]
    unfold decryptBody
    simp only [halg]
    rw [if_neg (by decide), if_pos trivial, hd]
    simp only
    rw [if_neg (by omega), if_pos (ekey_ok hlen), Res.bind_ok]
    unfold decodeBody
    simp only [hkey]
    rw [if_pos (Or.inl trivial), hc]
    rfl
  refine ⟨_, _, ?_, key ct, key ct'⟩
  simp only [constructPrivateKey]
  intro e
  rw [hl] at e
  have hs := hX.ctr_length (ekeyOf d) (d.take 16) ct'.length
  have := natOfBytes_inj (by simp [xorBytes, hl]) e
  exact hne (xorBytes_inj_left (by rw [hs, hl]) (by rw [hs]) this)

/-- **C28 (partial)**: what `EncryptWithCustomScrypt` produced under a password is decrypted under it to the
same key exactly when the password is not empty. -/
theorem C28_password_iff_partial (E : Ext) (hE : GoodName E.k1name) (X : ProtExt) (hX : X.Lawful)
    (k : PrivateKey) (hk : Exportable E k) (addr pwd salt : Bytes) (param : ScryptParam) (prot : ProtectedKey)
    (h : encryptWithCustomScrypt X k addr pwd param (.ok salt) = .ok prot) :
    (decryptWithCustomScrypt E X (some prot) pwd param = .ok k ↔ pwd ≠ []) ∧
    (pwd = [] → decryptWithCustomScrypt E X (some prot) pwd param = .err "invalid argument") := by
  constructor
  · constructor
    · rintro h' rfl
      simp [decryptWithCustomScrypt] at h'
    · intro hpwd
      cases hd : kdf X pwd salt param with
      | err m => rw [(C26_protect_roundtrip E hE X hX k hk addr pwd salt param hpwd).2 m hd] at h; simp at h
      | panic m => unfold encryptWithCustomScrypt at h; simp only [hd, reduceCtorEq] at h
      | ok d =>
        obtain ⟨prot', h1, _, h2⟩ := (C26_protect_roundtrip E hE X hX k hk addr pwd salt param hpwd).1 d hd
        rw [h] at h1
        cases h1
        exact h2
  · rintro rfl
    rfl

/-- C28 does not hold: with the empty password encryption succeeds, and the result cannot be decrypted. -/
theorem C28_empty_password (E : Ext) (X : ProtExt) (hX : X.Lawful) (k : PrivateKey) (hE : GoodName E.k1name)
    (hk : Exportable E k) (addr salt : Bytes) (param : ScryptParam) (d : Bytes) (hd : kdf X [] salt param = .ok d) :
    ∃ prot, encryptWithCustomScrypt X k addr [] param (.ok salt) = .ok prot ∧
      decryptWithCustomScrypt E X (some prot) [] param = .err "invalid argument" := by
  obtain ⟨p, alg, curve, hb, _⟩ := exportable_body E hE hk
  exact ⟨_, by rw [encrypt_eq hX k addr [] salt param hd, hb], rfl⟩

/-- A successfully decrypted key is exportable. -/
theorem decrypt_exportable (E : Ext) (X : ProtExt) (prot : Option ProtectedKey) (pwd : Bytes)
    (param : ScryptParam) (k : PrivateKey) (h : decryptWithCustomScrypt E X prot pwd param = .ok k) :
    ∃ p, prot = some p ∧ Exportable E k := by
  cases prot with
  | none => simp [decryptWithCustomScrypt] at h
  | some p =>
    refine ⟨p, rfl, ?_⟩
    unfold decryptWithCustomScrypt at h
    simp only at h
    split at h
    · simp at h
    · cases hb : decryptBody X p pwd param with
      | err m => rw [hb] at h; simp at h
      | panic m => rw [hb] at h; simp at h
      | ok b =>
        rw [hb, Res.bind_ok] at h
        unfold decodeBody at h
        split at h
        · split at h
          · simp at h
          · simp at h
          · rename_i c hc
            simp only [Res.ok.injEq] at h
            subst h
            refine ⟨?_, getNamedCurve_ok E hc, rfl⟩
            split
            · exact Or.inl rfl
            · exact Or.inr rfl
        · split at h
          · split at h
            · simp at h
            · rename_i hl
              simp only [Res.ok.injEq] at h
              subst h
              simpa [Exportable] using hl
          · simp at h

/-- **C29**: re-encryption succeeds exactly when the old protected key decrypts under the old password and
the new key derivation succeeds; the result has the same address and, for a non-empty new password,
decrypts under it to the same key. -/
theorem C29_reencrypt (E : Ext) (hE : GoodName E.k1name) (X : ProtExt) (hX : X.Lawful)
    (prot : Option ProtectedKey) (oldPwd newPwd salt : Bytes) (oldParam newParam : ScryptParam) :
    ((∃ prot', reencryptPrivateKey E X prot oldPwd newPwd oldParam newParam (.ok salt) = .ok prot') ↔
      (∃ k, decryptWithCustomScrypt E X prot oldPwd oldParam = .ok k) ∧ ∃ d, kdf X newPwd salt newParam = .ok d) ∧
    (∀ k prot', decryptWithCustomScrypt E X prot oldPwd oldParam = .ok k →
      reencryptPrivateKey E X prot oldPwd newPwd oldParam newParam (.ok salt) = .ok prot' →
      some prot'.address = prot.map (·.address) ∧
      (newPwd ≠ [] → decryptWithCustomScrypt E X (some prot') newPwd newParam = .ok k)) := by
  have enc : ∀ k p, Exportable E k → ∀ d, kdf X newPwd salt newParam = .ok d →
      ∃ prot', encryptWithCustomScrypt X k p newPwd newParam (.ok salt) = .ok prot' ∧ prot'.address = p := by
    intro k p hk d hd
    obtain ⟨_, _, _, hb, _⟩ := exportable_body E hE hk
    exact ⟨_, by rw [encrypt_eq hX k p newPwd salt newParam hd, hb], rfl⟩
  have encFail : ∀ k p m, kdf X newPwd salt newParam = .err m →
      encryptWithCustomScrypt X k p newPwd newParam (.ok salt) = .err m := by
    intro k p m hm
    unfold encryptWithCustomScrypt
    simp only [hm]
  constructor
  · constructor
    · rintro ⟨prot', h⟩
      unfold reencryptPrivateKey at h
      cases hd : decryptWithCustomScrypt E X prot oldPwd oldParam with
      | err m => rw [hd] at h; simp at h
      | panic m => rw [hd] at h; simp at h
      | ok k =>
        obtain ⟨p, rfl, hk⟩ := decrypt_exportable E X _ _ _ _ hd
        rw [hd] at h
        simp only at h
        refine ⟨⟨k, rfl⟩, ?_⟩
        cases hn : kdf X newPwd salt newParam with
        | ok d => exact ⟨d, rfl⟩
        | err m => rw [encFail _ _ _ hn] at h; simp at h
        | panic m => unfold encryptWithCustomScrypt at h; simp [hn] at h
    · rintro ⟨⟨k, hk⟩, d, hd⟩
      obtain ⟨p, rfl, hex⟩ := decrypt_exportable E X _ _ _ _ hk
      obtain ⟨prot', h, _⟩ := enc k p.address hex d hd
      refine ⟨prot', ?_⟩
      unfold reencryptPrivateKey
      rw [hk]
      exact h
  · intro k prot' hk h
    obtain ⟨p, rfl, hex⟩ := decrypt_exportable E X _ _ _ _ hk
    unfold reencryptPrivateKey at h
    rw [hk] at h
    simp only at h
    cases hn : kdf X newPwd salt newParam with
    | err m => rw [encFail _ _ _ hn] at h; simp at h
    | panic m => unfold encryptWithCustomScrypt at h; simp [hn] at h
    | ok d =>
      obtain ⟨prot'', h', ha⟩ := enc k p.address hex d hn
      rw [h] at h'
      cases h'
      exact ⟨by rw [ha]; rfl, fun hp => ((C28_password_iff_partial E hE X hX k hex _ _ _ _ _ h).1).2 hp⟩

/-- C66 does not hold: the algorithm and curve recorded beside the ciphertext are not authenticated. Every
protected SM2 key decrypts, with the algorithm changed to ECDSA and the curve to P-256, without an error to
a different kind of key. -/
theorem C66_metadata_unauthenticated (E : Ext) (X : ProtExt) (hX : X.Lawful)
    (t : ECPriv) (addr pwd salt : Bytes) (param : ScryptParam) (hpwd : pwd ≠ [])
    (d : Bytes) (hd : kdf X pwd salt param = .ok d) :
    ∃ prot, encryptWithCustomScrypt X (.ec .sm2 t) addr pwd param (.ok salt) = .ok prot ∧
      decryptWithCustomScrypt E X (some { prot with alg := "ECDSA", curve := "P-256" }) pwd param =
        .ok (.ec .ecdsa (constructPrivateKey E (bytesOfNat t.D) Curves.p256)) := by
  refine ⟨_, by rw [encrypt_eq hX _ addr pwd salt param hd]; rfl, ?_⟩
  rw [decrypt_gcm_iff E hX _ _ _ rfl]
  refine ⟨hpwd, d, _, hd, rfl, ?_⟩
  unfold decodeBody
  simp only
  rw [if_pos (Or.inl trivial)]
  have : getNamedCurve E "P-256" = .ok Curves.p256 := by
    unfold getNamedCurve
    rw [show getNamedCurveLabel E "P-256" = .ok P256 from rfl]
    rfl
  rw [this]
  rfl

/-- **C66 (partial)**: the address and the salt stored with the key are what encryption was given and used,
and the stored algorithm and curve names are those of the key. -/
theorem C66_metadata_recorded_partial (E : Ext) (hE : GoodName E.k1name) (X : ProtExt) (hX : X.Lawful)
    (alg : Alg) (t : ECPriv) (hk : Exportable E (.ec alg t)) (addr pwd salt : Bytes) (param : ScryptParam)
    (prot : ProtectedKey) (h : encryptWithCustomScrypt X (.ec alg t) addr pwd param (.ok salt) = .ok prot) :
    prot.address = addr ∧ prot.salt = salt ∧ prot.encAlg = "aes-256-gcm" ∧
      prot.alg = (if alg = .ecdsa then "ECDSA" else "SM2") ∧ getNamedCurve E prot.curve = .ok t.pub.curve := by
  cases hd : kdf X pwd salt param with
  | err m => unfold encryptWithCustomScrypt at h; simp [hd] at h
  | panic m => unfold encryptWithCustomScrypt at h; simp [hd] at h
  | ok d =>
    rw [encrypt_eq hX _ addr pwd salt param hd] at h
    obtain ⟨ha, hc, _⟩ := hk
    have := getNamedCurve_name E hE hc
    rcases ha with rfl | rfl <;> simp only [bodyOf, Res.ok.injEq] at h <;> subst h <;>
      exact ⟨rfl, rfl, rfl, rfl, this⟩

/-- **C67**: with the default parameters, and whenever the derived key has at least 44 bytes, the nonce and the
encryption key are taken from disjoint parts of the derived key; for 32 to 43 bytes they overlap: the last
bytes of the nonce are the first bytes of the key. -/
theorem C67_nonce_key_parts (X : ProtExt) (hX : X.Lawful) (pwd salt : Bytes) (param : ScryptParam) (d : Bytes)
    (hd : kdf X pwd salt param = .ok d) :
    (44 ≤ param.DKLen → ∃ mid, d = d.take 12 ++ mid ++ ekeyOf d) ∧
    (param.DKLen < 44 → (d.take 12).drop (d.length - 32) = (ekeyOf d).take (44 - d.length) ∧ 0 < 44 - d.length) := by
  obtain ⟨hl, hL⟩ := kdf_ok_length hX hd
  constructor
  · intro h
    refine ⟨(d.drop 12).take (d.length - 44), ?_⟩
    unfold ekeyOf
    have e : d.drop (d.length - 32) = (d.drop 12).drop (d.length - 44) := by
      rw [List.drop_drop]; congr 1; omega
    rw [e, List.append_assoc, List.take_append_drop, List.take_append_drop]
  · intro h
    refine ⟨?_, by omega⟩
    unfold ekeyOf
    rw [List.drop_take]
    congr 1
    omega

/-- **C67**: how nonce and key are used: `EncryptWithCustomScrypt` seals the secret bytes under the last 32 and the
first 12 bytes of what scrypt derives with the given parameters. -/
theorem C67_encrypt (X : ProtExt) (hX : X.Lawful) (k : PrivateKey) (addr pwd salt : Bytes) (param : ScryptParam)
    (prot : ProtectedKey) (h : encryptWithCustomScrypt X k addr pwd param (.ok salt) = .ok prot) :
    ∃ d p, X.scrypt pwd salt param.N param.R param.P param.DKLen = .ok d ∧ 32 ≤ d.length ∧
      prot.key = X.gcmSeal (d.drop (d.length - 32)) (d.take 12) p addr ∧
      ((∃ a t, k = .ec a t ∧ p = bytesOfNat t.D) ∨ k = .ed p) := by
  cases hd : kdf X pwd salt param with
  | err m => unfold encryptWithCustomScrypt at h; simp only [hd, reduceCtorEq] at h
  | panic m => unfold encryptWithCustomScrypt at h; simp only [hd, reduceCtorEq] at h
  | ok d =>
    have hs : X.scrypt pwd salt param.N param.R param.P param.DKLen = .ok d := by
      unfold kdf at hd
      split at hd
      · simp at hd
      · exact hd
    obtain ⟨hl, _⟩ := kdf_ok_length hX hd
    have he := encrypt_eq hX k addr pwd salt param hd
    refine ⟨d, ?_⟩
    cases k with
    | ec a t =>
      cases a with
      | ecdsa =>
        simp only [bodyOf, h, Res.ok.injEq] at he
        subst he
        exact ⟨_, hs, hl, rfl, .inl ⟨_, _, rfl, rfl⟩⟩
      | sm2 =>
        simp only [bodyOf, h, Res.ok.injEq] at he
        subst he
        exact ⟨_, hs, hl, rfl, .inl ⟨_, _, rfl, rfl⟩⟩
      | other b => unfold encryptWithCustomScrypt at h; simp only [hd] at h; split at h <;> cases h
    | ed b =>
      simp only [bodyOf, h, Res.ok.injEq] at he
      subst he
      exact ⟨_, hs, hl, rfl, .inr rfl⟩
    | eth t => unfold encryptWithCustomScrypt at h; simp only [hd] at h; split at h <;> cases h
    | unknown => unfold encryptWithCustomScrypt at h; simp only [hd] at h; split at h <;> cases h

/-- **C67**: the default parameters are N = 16384, r = 8, p = 8 and 64 bytes, for encryption and decryption: 12 bytes
of nonce, 20 unused bytes and 32 bytes of key. -/
theorem C67_default (X : ProtExt) (hX : X.Lawful) :
    (∀ k addr pwd salt prot, encryptPrivateKey X k addr pwd (.ok salt) = .ok prot →
      ∃ nonce mid key p, X.scrypt pwd salt 16384 8 8 64 = .ok (nonce ++ mid ++ key) ∧
        nonce.length = 12 ∧ mid.length = 20 ∧ key.length = 32 ∧ prot.key = X.gcmSeal key nonce p addr ∧
        ((∃ a t, k = .ec a t ∧ p = bytesOfNat t.D) ∨ k = .ed p)) ∧
    (∀ E prot pwd k, decryptPrivateKey E X (some prot) pwd = .ok k → prot.encAlg = "aes-256-gcm" →
      ∃ nonce mid key p, X.scrypt pwd prot.salt 16384 8 8 64 = .ok (nonce ++ mid ++ key) ∧
        nonce.length = 12 ∧ mid.length = 20 ∧ key.length = 32 ∧ prot.key = X.gcmSeal key nonce p prot.address) := by
  have split : ∀ d : Bytes, d.length = 64 → ∃ nonce mid key, d = nonce ++ mid ++ key ∧ nonce.length = 12 ∧
      mid.length = 20 ∧ key.length = 32 ∧ d.drop (d.length - 32) = key ∧ d.take 12 = nonce := by
    intro d hd
    refine ⟨d.take 12, (d.drop 12).take 20, d.drop 32, ?_, ?_, ?_, ?_, ?_, rfl⟩
    · rw [show d.drop 32 = (d.drop 12).drop 20 by rw [List.drop_drop], List.append_assoc, List.take_append_drop,
        List.take_append_drop]
    · rw [List.length_take]; omega
    · rw [List.length_take, List.length_drop]; omega
    · rw [List.length_drop]; omega
    · rw [hd]
  constructor
  · intro k addr pwd salt prot h
    obtain ⟨d, p, h1, -, h3, h4⟩ := C67_encrypt X hX k addr pwd salt getScryptParameters prot h
    have hl : d.length = 64 := by
      have := hX.scrypt_length _ _ _ _ _ _ _ h1
      exact_mod_cast (show (d.length : Int) = 64 from this)
    obtain ⟨nonce, mid, key, e, l1, l2, l3, e1, e2⟩ := split d hl
    rw [e1, e2] at h3
    exact ⟨nonce, mid, key, p, e ▸ h1, l1, l2, l3, h3, h4⟩
  · intro E prot pwd k h halg
    obtain ⟨-, d, p, _, h1, h2, -⟩ := (C27_gcm_accepts_iff_partial E X hX prot pwd getScryptParameters halg).1 ⟨k, h⟩
    have hs : X.scrypt pwd prot.salt 16384 8 8 64 = .ok d := h1
    have hl : d.length = 64 := by
      have := hX.scrypt_length _ _ _ _ _ _ _ hs
      exact_mod_cast (show (d.length : Int) = 64 from this)
    obtain ⟨nonce, mid, key, e, l1, l2, l3, e1, e2⟩ := split d hl
    rw [e1, e2] at h2
    exact ⟨nonce, mid, key, p, e ▸ hs, l1, l2, l3, h2⟩

/-- **C68 (partial)**: `EncryptPrivateKey` panics exactly if scrypt does (C149), or if it succeeds on keys that are neither
EC keys (ECDSA or SM2) nor Ed25519 keys — in particular on Ethereum keys. -/
theorem C68_encrypt_panics_iff_partial (X : ProtExt) (hX : X.Lawful) (k : PrivateKey)
    (addr pwd salt : Bytes) (param : ScryptParam) :
    (∃ m, encryptWithCustomScrypt X k addr pwd param (.ok salt) = .panic m) ↔
      (∃ m, kdf X pwd salt param = .panic m) ∨ (∃ d, kdf X pwd salt param = .ok d) ∧
      ((∃ t, k = .eth t) ∨ k = .unknown ∨ ∃ b t, k = .ec (.other b) t) := by
  cases hd : kdf X pwd salt param with
  | err m => unfold encryptWithCustomScrypt; simp [hd]
  | panic m => unfold encryptWithCustomScrypt; simp [hd]
  | ok d =>
    obtain ⟨hl, _⟩ := kdf_ok_length hX hd
    have hlt : ¬ d.length < 32 := by omega
    cases k with
    | ec a t =>
      cases a with
      | ecdsa => rw [encrypt_eq hX _ addr pwd salt param hd]; simp [bodyOf]
      | sm2 => rw [encrypt_eq hX _ addr pwd salt param hd]; simp [bodyOf]
      | other b => unfold encryptWithCustomScrypt; simp [hd, hlt]
    | ed b => rw [encrypt_eq hX _ addr pwd salt param hd]; simp [bodyOf]
    | eth t => unfold encryptWithCustomScrypt; simp [hd, hlt]
    | unknown => unfold encryptWithCustomScrypt; simp [hd, hlt]

/-! ## Non-vacuity: a (cryptographically useless) instance of the external code that meets the laws -/

def refProt : ProtExt where
  scrypt pwd salt _ _ _ L := .ok (beFix L.toNat (natOfBytes (pwd ++ salt)))
  gcmSeal k n p a := beFix 16 (natOfBytes (k ++ n ++ a)) ++ p
  gcmOpen k n c a := if c.take 16 = beFix 16 (natOfBytes (k ++ n ++ a)) then some (c.drop 16) else none
  ctrStream k iv n := beFix n (natOfBytes (k ++ iv))
  sha256 b := beFix 32 (natOfBytes b)

/-- The laws hold for derived-key lengths that are not negative (`kdf` asks for at least 32). -/
def refProt' : ProtExt :=
  { refProt with scrypt := fun pwd salt _ _ _ L =>
      if 0 ≤ L then .ok (beFix L.toNat (natOfBytes (pwd ++ salt))) else .err "invalid length" }

theorem refProt_lawful : refProt'.Lawful where
  scrypt_length := by
    intro pwd salt N R P L d h
    simp only [refProt'] at h
    split at h
    · simp only [Res.ok.injEq] at h
      rw [← h, beFix_length]; omega
    · simp at h
  gcm_open_iff := by
    intro k n c a p
    simp only [refProt', refProt]
    constructor
    · intro h
      split at h
      · rename_i hc
        simp only [Option.some.injEq] at h
        rw [← hc, ← h, List.take_append_drop]
      · simp at h
    · rintro rfl
      rw [List.take_left' (beFix_length 16 _), if_pos rfl, List.drop_left' (beFix_length 16 _)]
  ctr_length := fun _ _ _ => beFix_length _ _

example : ∃ d, kdf refProt' [1, 2, 3] (zeros 16) getScryptParameters = .ok d := ⟨_, rfl⟩

theorem constructed_exportable (E : Ext) (data : Bytes) (c : Curve) (hc : c ∈ Curves.all E.k1name) :
    Exportable E (.ec .ecdsa (constructPrivateKey E data c)) := ⟨Or.inl rfl, hc, rfl⟩

example : Exportable refExt (.ec .ecdsa (constructPrivateKey refExt [9] Curves.p384)) :=
  constructed_exportable refExt _ _ (by decide +kernel)

example : Exportable refExt (.ed (zeros 64)) := zeros_length 64

/-- A legacy (CTR) protected key to which `C27_ctr_unauthenticated` applies. -/
example : ∃ prot : ProtectedKey, ∃ d, prot.encAlg = "aes-256-ctr" ∧ prot.alg = "ECDSA" ∧
    getNamedCurve refExt prot.curve = .ok Curves.p256 ∧
    kdf refProt' [1] (saltFromAddress refProt' prot.address) getScryptParameters = .ok d :=
  ⟨⟨[], "aes-256-ctr", zeros 32, "ECDSA", [], "P-256"⟩, _, rfl, rfl, by decide +kernel, rfl⟩

/-- `C67_default` speaks of calls that succeed. -/
example : ∃ prot, encryptPrivateKey refProt' (.ed (zeros 64)) [1] [2] (.ok (zeros 16)) = .ok prot := ⟨_, rfl⟩

end Verif.Props
