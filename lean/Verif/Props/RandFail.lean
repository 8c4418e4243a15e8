import Verif.Model.RandFail
import Verif.Props.EC
import Verif.Props.Keypair
import Verif.Props.SM2Sign
/-!
# C106: random sources that fail

A history of the random source is a list of outcomes of reads, `none` being a failure. The plain models
(`Keypair.generateKeyPair`, …) take lists of successful reads.
-/
namespace Verif.Props
open Verif Verif.Spec Verif.Keypair

/-- What a source delivered before it failed first (everything if it did not fail). -/
def delivered {α : Type} : List (Option α) → List α
  | some a :: l => a :: delivered l
  | _ => []

theorem delivered_map {α : Type} (l : List α) : delivered (l.map some) = l := by
  induction l with
  | nil => rfl
  | cons a l ih => simp [delivered, ih]

theorem delivered_fail {α : Type} (l : List α) (post : List (Option α)) :
    delivered (l.map some ++ none :: post) = l := by
  induction l with
  | nil => rfl
  | cons a l ih => simp [delivered, ih]

/-! ## Key generation -/

theorem genScalar_cons_faulty (c : Curve) (b : Bytes) (rest : List Bytes) :
    Keypair.genScalar c (b :: rest) =
      match Keypair.genScalar c [b] with
      | some D => some D
      | none => Keypair.genScalar c rest := by
  simp only [Keypair.genScalar]
  split_ifs <;> rfl

theorem genScalar_faulty (c : Curve) (reads : List (Option Bytes)) :
    RandFail.genScalar c reads =
      match Keypair.genScalar c (delivered reads) with
      | some D => some (.ok D)
      | none => if none ∈ reads then some (.err "read error") else none := by
  induction reads with
  | nil => simp [RandFail.genScalar, delivered, Keypair.genScalar]
  | cons r rest ih =>
    cases r with
    | none => simp [RandFail.genScalar, delivered, Keypair.genScalar]
    | some b =>
      rw [RandFail.genScalar, delivered, genScalar_cons_faulty c b (delivered rest), ih]
      simp only [List.mem_cons, reduceCtorEq, false_or]
      generalize Keypair.genScalar c [b] = r
      cases r <;> rfl

/-- The outcome of `GenerateKeyPair` without failures, as the three results in Go. -/
def plainOut : Res (PrivateKey × PublicKey) → RandFail.GenOut
  | .ok p => ⟨.val p.1, .val p.2, none⟩
  | .err m => ⟨.nil, .nil, some m⟩
  | .panic m => ⟨.nil, .nil, some m⟩

/-- What all outcomes of `GenerateKeyPair` on a failing source have in common. -/
def NoKeys (out : RandFail.GenOut) : Prop :=
  out.err ≠ none ∧ (∀ k, out.pri ≠ .val k) ∧ ∀ k, out.pub ≠ .val k

/-- **C106 (partial)**, key generation: for every history of the random source, `GenerateKeyPair` behaves
as with the bytes delivered before the first failure, if they are enough for it; otherwise, if there is a
failure, it returns an error and no key. Missing: the key results are not always nil interface values
(`C106_generate_typed_nil`). -/
theorem C106_generate_partial (E : Keypair.Ext) (t : Byte) (opts : Opts) (reads : List (Option Bytes)) :
    (∀ r, Keypair.generateKeyPair E t opts (delivered reads) = some r →
      RandFail.generateKeyPair E t opts reads = some (plainOut r)) ∧
    (Keypair.generateKeyPair E t opts (delivered reads) = none →
      (none ∈ reads → ∃ out, RandFail.generateKeyPair E t opts reads = some out ∧ NoKeys out) ∧
      (none ∉ reads → RandFail.generateKeyPair E t opts reads = none)) := by
  unfold Keypair.generateKeyPair RandFail.generateKeyPair
  by_cases h1 : t = PK_ECDSA ∨ t = PK_SM2
  · rw [if_pos h1, if_pos h1]
    cases opts with
    | other => simp [plainOut, RandFail.GenOut.fail]
    | byte param =>
      dsimp only
      cases hc : getCurve E param with
      | err m => simp [plainOut, RandFail.GenOut.fail]
      | panic m => simp [plainOut, RandFail.GenOut.fail]
      | ok c =>
        simp only [Keypair.generateECKeyPair, RandFail.generateECKeyPair, genScalar_faulty]
        cases Keypair.genScalar c (delivered reads) with
        | some D => simp [plainOut, RandFail.GenOut.keys]
        | none => by_cases hn : none ∈ reads <;> simp [hn, NoKeys]
  · rw [if_neg h1, if_neg h1]
    by_cases h2 : t = PK_EDDSA
    · rw [if_pos h2, if_pos h2]
      cases opts with
      | other => simp [plainOut, RandFail.GenOut.fail]
      | byte param =>
        dsimp only
        by_cases h3 : param = ED25519
        · rw [if_pos h3, if_pos h3]
          rcases reads with _ | ⟨_ | b, rest⟩ <;> simp [delivered, plainOut, RandFail.GenOut.keys, NoKeys]
        · rw [if_neg h3, if_neg h3]; simp [plainOut, RandFail.GenOut.fail]
    · rw [if_neg h2, if_neg h2]
      by_cases h3 : t = PK_ETHECDSA
      · rw [if_pos h3, if_pos h3]
        rcases reads with _ | ⟨_ | b, rest⟩ <;>
          simp [delivered, plainOut, RandFail.GenOut.keys, RandFail.GenOut.fail, NoKeys]
      · rw [if_neg h3, if_neg h3]; simp [plainOut, RandFail.GenOut.fail]

/-- The plain model never reports a panic, so `plainOut` loses nothing. -/
theorem generateKeyPair_ne_panic (E : Keypair.Ext) (t : Byte) (opts : Opts) (reads : List Bytes) (m : String) :
    Keypair.generateKeyPair E t opts reads ≠ some (.panic m) := by
  unfold Keypair.generateKeyPair
  have hg : ∀ p m, getCurve E p ≠ .panic m := by intro p m; unfold getCurve; split_ifs <;> simp
  intro h
  by_cases h1 : t = PK_ECDSA ∨ t = PK_SM2
  · rw [if_pos h1] at h
    cases opts with
    | other => simp at h
    | byte param =>
      dsimp only at h
      cases hc : getCurve E param with
      | err m => simp [hc] at h
      | panic m => exact hg _ _ hc
      | ok c => simp [hc] at h
  · rw [if_neg h1] at h
    by_cases h2 : t = PK_EDDSA
    · rw [if_pos h2] at h
      cases opts with
      | other => simp at h
      | byte param =>
        dsimp only at h
        by_cases h3 : param = ED25519
        · rw [if_pos h3] at h; cases reads <;> simp at h
        · rw [if_neg h3] at h; simp at h
    · rw [if_neg h2] at h
      by_cases h3 : t = PK_ETHECDSA
      · rw [if_pos h3] at h; cases reads <;> simp at h
      · rw [if_neg h3] at h; simp at h

/-- A key pair comes out only if every read that was needed for it succeeded, and then it is the pair made
from these reads; a failure that comes before that gives an error. -/
theorem C106_generate_ok_iff (E : Keypair.Ext) (t : Byte) (opts : Opts) (reads : List (Option Bytes))
    (pri : PrivateKey) (pub : PublicKey) :
    RandFail.generateKeyPair E t opts reads = some ⟨.val pri, .val pub, none⟩ ↔
      Keypair.generateKeyPair E t opts (delivered reads) = some (.ok (pri, pub)) := by
  obtain ⟨h1, h2⟩ := C106_generate_partial E t opts reads
  constructor
  · intro h
    cases hp : Keypair.generateKeyPair E t opts (delivered reads) with
    | none =>
      by_cases hn : none ∈ reads
      · obtain ⟨out, ho, h3, _⟩ := (h2 hp).1 hn
        rw [ho] at h; cases h; exact absurd rfl h3
      · rw [(h2 hp).2 hn] at h; simp at h
    | some r =>
      rw [h1 r hp] at h
      cases r with
      | ok p =>
        simp only [plainOut, Option.some.injEq, RandFail.GenOut.mk.injEq, RandFail.Iface.val.injEq, and_true] at h
        obtain ⟨rfl, rfl⟩ := h; rfl
      | err m => simp [plainOut] at h
      | panic m => simp [plainOut] at h
  · intro h
    exact h1 _ h

/-- For every curve the first read may fail: an error, but the private key that is returned with it is not
the nil interface, and its method `Public` panics. The same holds for Ed25519. A caller that compares the
key with nil instead of looking at the error is misled. -/
theorem C106_generate_typed_nil (E : Keypair.Ext) (t label : Byte)
    (h : ((t = PK_ECDSA ∨ t = PK_SM2) ∧ ∃ c, getCurve E label = .ok c) ∨ (t = PK_EDDSA ∧ label = ED25519)) :
    ∃ out m, RandFail.generateKeyPair E t (.byte label) [none] = some out ∧ out.err ≠ none ∧
      out.pri ≠ .nil ∧ out.pub ≠ .nil ∧ RandFail.publicOf out.pri = .panic m := by
  unfold RandFail.generateKeyPair
  rcases h with ⟨ht, c, hc⟩ | ⟨ht, hl⟩
  · rw [if_pos ht]
    dsimp only
    rw [hc]
    simp [RandFail.generateECKeyPair, RandFail.genScalar, RandFail.publicOf]
  · subst ht hl
    rw [if_neg (by decide), if_pos rfl]
    simp [RandFail.publicOf]

/-- Whatever the reason for an error of `GenerateKeyPair`, calling `Public` on the private key that comes with it
panics; a caller who drops the error does not go on with a wrong key. -/
theorem C106_generate_unusable (E : Keypair.Ext) (t : Byte) (opts : Opts) (reads : List (Option Bytes))
    (out : RandFail.GenOut) (h : RandFail.generateKeyPair E t opts reads = some out) (he : out.err ≠ none) :
    RandFail.publicOf out.pri = .panic "nil pointer dereference" := by
  obtain ⟨h1, h2⟩ := C106_generate_partial E t opts reads
  have hno : ∀ i : RandFail.Iface PrivateKey, (∀ k, i ≠ .val k) →
      RandFail.publicOf i = .panic "nil pointer dereference" := by
    intro i hi
    cases i with
    | nil => rfl
    | typedNil => rfl
    | val k => exact absurd rfl (hi k)
  cases hp : Keypair.generateKeyPair E t opts (delivered reads) with
  | none =>
    by_cases hn : none ∈ reads
    · obtain ⟨o, ho, h3, h4⟩ := (h2 hp).1 hn
      rw [ho] at h; cases h
      exact hno _ h4.1
    · rw [(h2 hp).2 hn] at h; simp at h
  | some r =>
    rw [h1 r hp] at h
    cases r with
    | ok p => simp only [plainOut, Option.some.injEq] at h; subst h; exact absurd rfl he
    | err m => simp only [plainOut, Option.some.injEq] at h; subst h; rfl
    | panic m => exact absurd hp (generateKeyPair_ne_panic E t opts _ m)

/-- A case: an unknown algorithm. -/
example (E : Keypair.Ext) : ∃ out, RandFail.generateKeyPair E 0xFF .other [] = some out ∧ out.err ≠ none :=
  ⟨_, rfl, by simp [RandFail.GenOut.fail]⟩

/-! ## Parsing public keys -/

theorem lucasSearch_faulty (P : ℕ) (Q fourQ : ℤ) (k : ℕ) (draws : List (Option ℕ)) :
    RandFail.lucasSearch P Q fourQ k draws =
      match EC.lucasSearch P Q fourQ k (delivered draws) with
      | some r => some (.ok r)
      | none => if none ∈ draws then some (.panic "nil pointer dereference") else none := by
  induction draws with
  | nil => simp [RandFail.lucasSearch, delivered, EC.lucasSearch]
  | cons d rest ih =>
    cases d with
    | none => simp [RandFail.lucasSearch, delivered, EC.lucasSearch]
    | some lp =>
      rw [RandFail.lucasSearch, delivered, EC.lucasSearch, ih]
      simp only [List.mem_cons, reduceCtorEq, false_or]
      generalize EC.fastLucasSequence P lp Q k = uv
      obtain ⟨u, v⟩ := uv
      dsimp only
      by_cases h1 : EC.drawOk P fourQ lp = true
      · simp only [h1, if_true]
        by_cases h2 : v * v % P = fourQ
        · simp only [h2, if_true]
        · by_cases h3 : u = 1 ∨ u = (P : ℤ) - 1
          · simp only [h2, if_false, h3, if_true]
          · simp only [h2, if_false, h3]
      · simp only [h1, if_false, Bool.false_eq_true]

/-- The outcome of a parse with the draws that were delivered, unless more are needed: then a failing draw
is a panic. -/
def withFaults {α : Type} (r : Option (Res α)) (draws : List (Option ℕ)) : Option (Res α) :=
  match r with
  | some r => some r
  | none => if none ∈ draws then some (.panic "nil pointer dereference") else none

theorem decode_faulty (k1name : String) (data : Bytes) (curve : Option Curve) (draws : List (Option ℕ)) :
    RandFail.decodePublicKey k1name data curve draws =
      withFaults (EC.decodePublicKey k1name data curve (delivered draws)) draws := by
  unfold RandFail.decodePublicKey EC.decodePublicKey
  cases curve with
  | none => rfl
  | some c =>
    dsimp only
    split_ifs
    · rfl
    · rfl
    · rfl
    · simp only [RandFail.deCompress, EC.deCompress, RandFail.curveSqrt, EC.curveSqrt]
      split_ifs
      · simp only [Option.map_some, withFaults]
        cases EC.sqrt3mod4 _ _ <;> rfl
      · rfl
      · rw [lucasSearch_faulty]
        cases EC.lucasSearch _ _ _ _ (delivered draws) with
        | none =>
          by_cases hn : none ∈ draws <;> simp [hn, withFaults, Res.bind]
        | some r => cases r <;> rfl
    · rfl

/-- **C106 (partial)**, parsing: for every history of the random source, `DeserializePublicKey` and
`ec.DecodePublicKey` give what they give with the draws delivered before the first failure, if those are
enough, and on curves other than P-224 they do not depend on the source at all. Missing: on P-224 a failure
that comes earlier is a panic, not an error (`C106_p224_panics`). -/
theorem C106_parse_partial (E : Keypair.Ext) (data : Bytes) (draws : List (Option ℕ)) :
    (∀ r, Keypair.deserializePublicKey E data (delivered draws) = some r →
      RandFail.deserializePublicKey E data draws = some r) ∧
    (Keypair.deserializePublicKey E data (delivered draws) = none →
      data.getD 1 0 = P224 ∧
      (none ∈ draws → ∃ m, RandFail.deserializePublicKey E data draws = some (.panic m)) ∧
      (none ∉ draws → RandFail.deserializePublicKey E data draws = none)) := by
  unfold Keypair.deserializePublicKey RandFail.deserializePublicKey
  have hdec : ∀ (d : Bytes) (c : Curve), c.P.testBit 1 = true → EC.decodePublicKey E.k1name d (some c) (delivered draws) ≠ none := by
    intro d c hc
    unfold EC.decodePublicKey
    dsimp only
    split_ifs <;> simp [EC.deCompress, EC.curveSqrt, hc]
  by_cases h0 : data.length ≤ 3
  · rw [if_pos h0, if_pos h0]; simp
  rw [if_neg h0, if_neg h0]
  dsimp only
  generalize data.getD 0 0 = t
  by_cases h1 : t = PK_ECDSA ∨ t = PK_SM2
  · rw [if_pos h1, if_pos h1]
    cases hc : getCurve E (data.getD 1 0) with
    | err m => simp
    | panic m => simp
    | ok c =>
      simp only [decode_faulty]
      cases hd : EC.decodePublicKey E.k1name (data.drop 2) (some c) (delivered draws) with
      | some r => simp [withFaults]
      | none =>
        have hP : data.getD 1 0 = P224 := by
          unfold getCurve at hc
          split_ifs at hc with g
          · exact g
          all_goals
            simp only [Res.ok.injEq, reduceCtorEq] at hc
            first
              | (exfalso; exact hdec _ _ (by subst hc; decide +kernel) hd)
              | (exfalso; exact hdec _ _ (by subst hc; exact (by decide +kernel : (Curves.secp256k1 "").P.testBit 1 = true)) hd)
        refine ⟨by simp, fun _ => ⟨hP, ?_, ?_⟩⟩
        · intro hn; simp [withFaults, hn, Res.map]
        · intro hn; simp [withFaults, hn]
  rw [if_neg h1, if_neg h1]
  by_cases h2 : t = PK_EDDSA
  · rw [if_pos h2, if_pos h2]
    split_ifs <;> simp
  rw [if_neg h2, if_neg h2]
  by_cases h3 : t = PK_P256_E ∨ t = PK_P256_O ∨ t = PK_P256_NC
  · rw [if_pos h3, if_pos h3]
    have := hdec data Curves.p256 (by decide +kernel)
    simp only [decode_faulty]
    cases hd : EC.decodePublicKey E.k1name data (some Curves.p256) (delivered draws) with
    | none => exact absurd hd this
    | some r => cases r <;> simp [withFaults]
  rw [if_neg h3, if_neg h3]
  split_ifs <;> simp

/-- The serialized P-224 base point: `DeserializePublicKey` panics on it if the first draw fails, although
it is a valid key. -/
theorem C106_p224_panics (E : Keypair.Ext) (hE : E.k1name = "" ∨ E.k1name = "secp256k1") (post : List (Option ℕ)) :
    ∃ m, RandFail.deserializePublicKey E ([PK_ECDSA, P224] ++ Spec.sec1Compressed 28 Curves.p224.Gx Curves.p224.Gy)
      (none :: post) = some (.panic m) := by
  have hnone : Keypair.deserializePublicKey E
      ([PK_ECDSA, P224] ++ Spec.sec1Compressed 28 Curves.p224.Gx Curves.p224.Gy) (delivered (none :: post)) = none := by
    have hp : ∀ E' : Keypair.Ext, E'.k1name = E.k1name → Keypair.deserializePublicKey E'
        ([PK_ECDSA, P224] ++ Spec.sec1Compressed 28 Curves.p224.Gx Curves.p224.Gy) [] =
        (EC.decodePublicKey E.k1name (Spec.sec1Compressed 28 Curves.p224.Gx Curves.p224.Gy) (some Curves.p224) []).map
          fun r => r.map fun pub => .ec .ecdsa pub := by
      intro E' h
      rw [← h]; rfl
    have h' := hp E rfl
    have : EC.decodePublicKey E.k1name (Spec.sec1Compressed 28 Curves.p224.Gx Curves.p224.Gy) (some Curves.p224) []
        = none := by
      rcases hE with h | h <;> rw [h] <;> decide +kernel
    rw [this] at h'
    exact h'
  exact ((C106_parse_partial E _ (none :: post)).2 hnone).2.1 (by simp)

/-! ## Signing, encryption, stored keys, VRF -/

/-- SM2 signing with a source that fails before 16 bytes: an error, whatever the key, message and user id.
What is returned otherwise depends on the first 16 bytes of the source only. -/
theorem C106_sm2_sign (E : SM2.Ext) (H : Bytes → Bytes) (fuel : ℕ) (rand : Bytes) (priv : ECPriv) (id msg : Bytes)
    (hc : priv.pub.curve = Curves.sm2) :
    (rand.length < 16 → ∃ m, SM2.sign E H fuel rand priv id msg = some (.err m)) ∧
    (16 ≤ rand.length → ∀ more, SM2.sign E H fuel (rand ++ more) priv id msg = SM2.sign E H fuel rand priv id msg) := by
  have he : SM2.entropyLen Curves.sm2 = 16 := by decide
  constructor
  · intro h
    unfold SM2.sign
    cases hz : SM2.getZ H msg priv.pub id with
    | err m => exact ⟨_, rfl⟩
    | panic m => simp [SM2.getZ, hc] at hz
    | ok mz => simp only [hc, he, if_pos h]; exact ⟨_, rfl⟩
  · intro h more
    unfold SM2.sign
    cases hz : SM2.getZ H msg priv.pub id with
    | err m => rfl
    | panic m => rfl
    | ok mz =>
      simp only [hc, he]
      rw [if_neg (by simp; omega), if_neg (by omega), List.take_append_of_le_length h]

/-- The same for `signature.Sign`: no signature comes out of a source that fails before 16 bytes. -/
theorem C106_sign (E : Signature.Ext) (fuel : ℕ) (rand : Bytes) (alg : Alg) (priv : ECPriv) (msg : Bytes)
    (opt : Signature.Opt) (hc : priv.pub.curve = Curves.sm2) (hr : rand.length < 16) :
    ∃ m, Signature.sign E fuel rand Signature.SM3withSM2 (.ec alg priv) msg opt = some (.err m) := by
  obtain ⟨m, hm⟩ := (C106_sm2_sign E.sm2 (E.hash .sm3) fuel rand priv (Signature.optID opt) msg hc).1 hr
  refine ⟨m, ?_⟩
  have hh : Signature.hashOf Signature.SM3withSM2 = some .sm3 := by decide
  simp only [Signature.sign, hh, if_true, hm]
  rfl

/-- SM2 encryption, for every public key and message. -/
theorem C106_sm2_encrypt (E : SM2.Ext) (fuel : ℕ) (rand : Bytes) (pub : ECPub) (data : Bytes)
    (hc : pub.curve = Curves.sm2) :
    (rand.length < 16 → ∃ m, SM2.encrypt E fuel rand pub data = some (.err m)) ∧
    (16 ≤ rand.length → ∀ more, SM2.encrypt E fuel (rand ++ more) pub data = SM2.encrypt E fuel rand pub data) := by
  have he : SM2.entropyLen Curves.sm2 = 16 := by decide
  constructor
  · intro h
    unfold SM2.encrypt
    rw [if_neg (by simp [hc])]
    simp only [hc, he, if_pos h]; exact ⟨_, rfl⟩
  · intro h more
    unfold SM2.encrypt
    have h1 : ¬ pub.curve ≠ Curves.sm2 := by simp [hc]
    rw [if_neg h1, if_neg h1]
    simp only [hc, he]
    rw [if_neg (by simp; omega), if_neg (by omega), List.take_append_of_le_length h]

/-- Encryption and re-encryption of private keys: no stored key without salt. -/
theorem C106_protect (E : Keypair.Ext) (X : ProtExt) (pri : PrivateKey) (addr pwd newPwd : Bytes)
    (param newParam : ScryptParam) (prot : Option ProtectedKey) (m : String) :
    encryptWithCustomScrypt X pri addr pwd param (.err m) = .err m ∧
    ∀ q, reencryptPrivateKey E X prot pwd newPwd param newParam (.err m) ≠ .ok q := by
  refine ⟨rfl, ?_⟩
  intro q h
  unfold reencryptPrivateKey at h
  cases hd : decryptWithCustomScrypt E X prot pwd param with
  | err m => simp [hd] at h
  | panic m => simp [hd] at h
  | ok k =>
    cases prot with
    | none => simp [hd] at h
    | some p => simp [hd, encryptWithCustomScrypt] at h

/-- `Vrf`, for every history of the source: what is returned is made from the nonce that the delivered reads
give; if they give none and the source fails, there is an error and the caller's memory is unchanged (no heap
is returned with an error). -/
theorem C106_vrf (E : VRF.Ext) (h : Heap) (pri : PrivateKey) (msg : Bytes) (reads : List (Option Bytes))
    (draws : ℕ → List ℕ) (fuel : ℕ) (spare : Bytes) (alg : Alg) (sk : ECPriv) (hp : pri = .ec alg sk)
    (a : Signature.HashAlg) (ha : VRF.getHash E sk.pub.curve = some a) :
    (∀ D, Keypair.genScalar sk.pub.curve (delivered reads) = some D →
      RandFail.vrf E h pri msg reads draws fuel spare =
        VRF.vrf E h pri msg (.ok (beFix sk.pub.curve.byteSize D)) draws fuel spare) ∧
    (Keypair.genScalar sk.pub.curve (delivered reads) = none → none ∈ reads →
      ∃ m, RandFail.vrf E h pri msg reads draws fuel spare = some (.err m)) := by
  subst hp
  simp only [RandFail.vrf, ha, genScalar_faulty]
  constructor
  · intro D hD; simp [hD, RandFail.nonceOf]
  · intro hn hm
    simp only [hn, hm, if_true, RandFail.nonceOf, VRF.vrf, ha, VRF.evaluate]
    split_ifs <;> exact ⟨_, rfl⟩

/-! ## Cases that meet the hypotheses -/

/-- A history with a rejected read, then a failure: an error although a good read follows; without the
failure, a key. -/
example : ∃ out, RandFail.generateKeyPair ⟨"", "", fun _ k => (k, k), id⟩ PK_ECDSA (.byte P256)
      [some (0xff :: 0xbd :: List.replicate 30 0xff), none, some (List.replicate 32 1)] = some out ∧ NoKeys out := by
  refine ((C106_generate_partial _ PK_ECDSA (.byte P256) _).2 ?_).1 (by simp)
  decide +kernel

example : RandFail.generateKeyPair ⟨"", "", fun _ k => (k, k), id⟩ PK_EDDSA (.byte ED25519)
    [some [1, 2], none] = some ⟨.val (.ed [1, 2, 1, 2]), .val (.ed [1, 2]), none⟩ := by decide +kernel

example : ∃ E : Keypair.Ext, E.k1name = "" ∨ E.k1name = "secp256k1" := ⟨⟨"", "", fun _ k => (k, k), id⟩, .inl rfl⟩

/-- A P-224 key parses once a suitable prime has been drawn, whatever fails later. -/
example : ∃ d, ∀ post, RandFail.decodePublicKey "" (Spec.sec1Compressed 28 Curves.p224.Gx Curves.p224.Gy)
    (some Curves.p224) (some d :: none :: post) = some (.ok ⟨Curves.p224, Curves.p224.Gx, Curves.p224.Gy⟩) := by
  have hex : ∃ d, EC.decodePublicKey "" (Spec.sec1Compressed 28 Curves.p224.Gx Curves.p224.Gy) (some Curves.p224) [d]
      = some (.ok ⟨Curves.p224, Curves.p224.Gx, Curves.p224.Gy⟩) := ⟨5, by decide +kernel⟩
  obtain ⟨d, hd⟩ := hex
  refine ⟨d, fun post => ?_⟩
  rw [decode_faulty]
  simp only [delivered, hd, withFaults]

example : ∃ (E : SM2.Ext) (priv : ECPriv) (m : String), priv.pub.curve = Curves.sm2 ∧
    SM2.sign E id 1 (List.replicate 15 7) priv [] [1, 2, 3] = some (.err m) :=
  let E : SM2.Ext := ⟨⟨fun k => (k, k), fun p _ => p, fun p _ => p⟩, fun _ _ => true, none, none, id, fun _ _ n => zeros n⟩
  ⟨E, ⟨1, ⟨Curves.sm2, 1, 1⟩⟩, _, rfl,
    ((C106_sm2_sign E id 1 _ ⟨1, ⟨Curves.sm2, 1, 1⟩⟩ [] [1, 2, 3] rfl).1 (by simp)).choose_spec⟩

example : VRF.getHash ⟨"", fun _ => id, fun _ => ⟨fun k => (k, k), fun p _ => p, fun p _ => p⟩, fun _ _ _ => true⟩ Curves.p256
      = some .sha256 ∧
    Keypair.genScalar Curves.p256 (delivered [some (0xff :: 0xbd :: List.replicate 30 0xff), none]) = none := by
  decide +kernel

end Verif.Props
