import Verif.Model.SignatureAmd64
import Verif.Props.Workflow
import Verif.Props.Amd64Keys
import Verif.Props.P256Curve
/-!
# C137: a key through its whole life on amd64

As C103, with the SM2 curve of sm2/p256_amd64.go in the key package and in the signature package. The conditions under
which that curve computes in the group of points are those of C83 and C86.
-/
namespace Verif.Props
open Verif Verif.Spec Verif.Spec.P256 Verif.Keypair

/-- The nonce of an SM2 signature, as the private key and the signature determine it. -/
def nonceOf (D r s : Nat) : Nat := (s + (r + s) * D) % Curves.sm2.N

/-- The multiplications with which the signature `(r, s)` was made and is checked are exact, and the addition of the two
products in the check meets neither of its two special cases. -/
def ExactSignature (priv : ECPriv) (r s : Nat) : Prop :=
  ExactBase (bytesOfNat (nonceOf priv.D r s)) ∧
  ExactCombined priv.pub.x priv.pub.y (bytesOfNat s) (bytesOfNat ((r + s) % Curves.sm2.N)) ∧
  (r + s) % Curves.sm2.N ≠ Curves.sm2.N - 6 ∧ 2 * s % Curves.sm2.N ≠ nonceOf priv.D r s

/-- The private key is on the SM2 curve. -/
def OnSM2 : PrivateKey → Prop
  | .ec _ p => p.pub.curve = Curves.sm2
  | _ => False

theorem valid_amd64 {K : Keypair.Ext} (hb : LawfulBase Curves.sm2 (-3) (K.baseMult Curves.sm2)) {priv : PrivateKey}
    (hv : ValidPrivate K priv) (he : ∀ alg p, priv = .ec alg p → p.pub.curve = Curves.sm2 → ExactBase (bytesOfNat p.D)) :
    ValidPrivate (Keypair.amd64 K) priv := by
  cases priv with
  | ec alg p =>
    obtain ⟨h1, h2, h3, h4, h5⟩ := hv
    exact ⟨h1, h2, h3, by rw [amd64_base_eq K hb _ _ (he alg p rfl)]; exact h4, h5⟩
  | ed b => exact hv
  | eth p =>
    obtain ⟨h1, h2, h3, h4⟩ := hv
    exact ⟨h1, h2, h3, h4.trans (amd64_base_other K (eth_ne_sm2 K) p.D).symm⟩
  | unknown => exact hv

theorem sm2_mem (k1 : String) : Curves.sm2 ∈ Curves.all k1 := by
  simp [Curves.all]

theorem sm2_curveA {k1 : String} (h : GoodName k1) : curveA k1 Curves.sm2 = -3 := by
  unfold curveA; rw [if_neg]; rcases h with rfl | rfl <;> decide

theorem SameExt.sm2 {K : Keypair.Ext} {S : Signature.Ext} (h : SameExt K S) (hS : S.Lawful) :
    LawfulBase Curves.sm2 (-3) (K.baseMult Curves.sm2) := by
  have hE : GoodName K.k1name := h.k1name ▸ hS.k1name
  rw [← sm2_curveA hE]
  intro _
  exact h.base Curves.sm2 (sm2_mem _)

/-- **C137** (partial) A key generated on amd64 whose scalar is not zero comes back unchanged from any sequence of
successful calls of the export, import, encryption, re-encryption and decryption functions on amd64.
Missing: SM2 keys whose multiplication of the base point is not exact. -/
theorem C137_storage_partial (K : Keypair.Ext) (S : Signature.Ext) (hS : S.Lawful) (hKS : SameExt K S) (X : ProtExt)
    (hX : X.Lawful) (W : WifExt) (hW : W.Lawful) (t : Byte) (opts : Opts) (reads : List Bytes) (priv : PrivateKey)
    (pub : PublicKey) (hseed : t = 0x14 → ∀ b ∈ reads, b.length = 32)
    (h : generateKeyPair (Keypair.amd64 K) t opts reads = some (.ok (priv, pub))) (h0 : scalarOf priv ≠ some 0)
    (he : ∀ alg p, priv = .ec alg p → p.pub.curve = Curves.sm2 → ExactBase (bytesOfNat p.D))
    (priv' : PrivateKey) (hs : Relation.ReflTransGen (StoreStep (Keypair.amd64 K) X W) (.key priv) (.key priv')) :
    priv' = priv := by
  have hE : GoodName K.k1name := hKS.k1name ▸ hS.k1name
  have hb := hKS.sm2 hS
  have hg := h
  rw [C121_generate_partial K hb t opts reads (fun alg p q e hc => by
    rw [h] at e; cases e; exact he _ _ rfl hc)] at hg
  have hv := valid_amd64 hb (generated_valid hS hKS hseed hg h0).2.1 he
  suffices ∀ s, Relation.ReflTransGen (StoreStep (Keypair.amd64 K) X W) (.key priv) s →
    Holds (Keypair.amd64 K) X W priv s from this _ hs
  intro s hs
  induction hs with
  | refl => rfl
  | tail _ hst ih => exact step_holds (K := Keypair.amd64 K) hE hX hW hv hst ih

theorem sign_other {S : Signature.Ext} (X : SM2.Ext) {fuel : Nat} {rand : Bytes} {scheme : Signature.Scheme}
    {pri : PrivateKey} {msg : Bytes} {opt : Signature.Opt} (h : scheme ≠ 9) :
    Signature.sign { S with sm2 := X } fuel rand scheme pri msg opt = Signature.sign S fuel rand scheme pri msg opt := by
  unfold Signature.sign
  cases pri with
  | ec alg p =>
    simp only [if_neg (show ¬ scheme = Signature.SM3withSM2 from h)]
    rfl
  | _ => rfl

theorem verify_other {S : Signature.Ext} (X : SM2.Ext) {pub : PublicKey} {msg : Bytes}
    {sig : Signature.Sig Signature.Buf} (h : sig.scheme ≠ 9) :
    Signature.verify { S with sm2 := X } pub msg (some sig) = Signature.verify S pub msg (some sig) := by
  unfold Signature.verify
  cases pub with
  | ec alg p =>
    simp only [if_neg (show ¬ sig.scheme = Signature.SM3withSM2 from h)]
    rfl
  | _ => rfl

/-- The branch of `Verify` for SM2. -/
theorem verify_sm2 (E : Signature.Ext) (alg : Alg) (pub : ECPub) {msg : Bytes} (hm : msg ≠ []) (r s : Int)
    (c : Option Curve) (id : Bytes) :
    Signature.verify E (.ec alg pub) msg (some ⟨9, .sm2 r s c id⟩) =
      .ok (SM2.verify E.sm2 SM2.sm3Sum pub id msg r s) := by
  unfold Signature.verify
  simp only
  rw [if_neg (fun e => hm (List.eq_nil_of_length_eq_zero e))]
  have h9 : Signature.hashOf 9 = some .sm3 := rfl
  have i9 : ¬ Signature.isECDSA 9 = true := by decide
  simp only [h9, if_neg i9, Signature.hash_sm3]
  rw [if_pos True.intro]

theorem amd64_sm2 (S : Signature.Ext) : (Signature.amd64 S).sm2 = SM2.amd64 S.sm2 := rfl

/-- **C137** (partial) A message signed on amd64 with a key so stored, and whose signature was serialized and parsed in
another place, is accepted on amd64 under the public key that was serialized and parsed in another place.
Missing: as in C103 the empty message, Ethereum keys with 32-byte prehashed messages, SM2 user ids with zero bytes and scalar
zero, for which it is false; keys on the SM2 curve with another scheme than SM2; and SM2 signatures that are not
`ExactSignature` (C85 and C86 show that the last two of its conditions are needed). -/
theorem C137_sign_verify_partial (K : Keypair.Ext) (S : Signature.Ext) (hS : S.Lawful) (hKS : SameExt K S) (X : ProtExt)
    (hX : X.Lawful) (W : WifExt) (hW : W.Lawful) (t : Byte) (opts : Opts) (reads : List Bytes) (priv : PrivateKey)
    (pub : PublicKey) (hseed : t = 0x14 → ∀ b ∈ reads, b.length = 32)
    (h : generateKeyPair (Keypair.amd64 K) t opts reads = some (.ok (priv, pub))) (h0 : scalarOf priv ≠ some 0)
    (he : ∀ alg p, priv = .ec alg p → p.pub.curve = Curves.sm2 → ExactBase (bytesOfNat p.D))
    (priv' : PrivateKey) (hs : Relation.ReflTransGen (StoreStep (Keypair.amd64 K) X W) (.key priv) (.key priv')) :
    ∃ pkb, serializePublicKey (Keypair.amd64 K) pub = .ok pkb ∧
      ∀ draws r, deserializePublicKey (Keypair.amd64 K) pkb draws = some r → ∃ pub', r = .ok pub' ∧
      ∀ fuel rand scheme msg opt sig,
        Signature.sign (Signature.amd64 S) fuel rand scheme priv' msg opt = some (.ok sig) → msg ≠ [] →
        ¬ ((∃ p, priv' = .eth p) ∧ opt = .bool true ∧ msg.length = 32) →
        (∀ id, opt = .str id → scheme = 9 → (0 : Byte) ∉ id) →
        (OnSM2 priv' → scheme = 9) →
        (∀ alg p r s c id, priv' = .ec alg p → sig.value = .sm2 (r : Nat) (s : Nat) c id → ExactSignature p r s) →
        ∃ b, Signature.serialize (some sig) = .ok b ∧ ∀ h buf, buf.Valid h → buf.read h = b →
          ∃ h' s', Signature.deserialize h buf = .ok (h', s') ∧
            Signature.verify (Signature.amd64 S) pub' msg (some (s'.map (Signature.bufOf h'))) = .ok true := by
  have hE : GoodName K.k1name := hKS.k1name ▸ hS.k1name
  have hb := hKS.sm2 hS
  have hg := h
  rw [C121_generate_partial K hb t opts reads (fun alg p q e hc => by
    rw [h] at e; cases e; exact he _ _ rfl hc)] at hg
  obtain ⟨rfl, -, hpv, hk⟩ := generated_valid hS hKS hseed hg h0
  obtain rfl := C137_storage_partial K S hS hKS X hX W hW t opts reads priv _ hseed h h0 he priv' hs
  obtain ⟨pkb, h1, -, h2⟩ := C15_public_roundtrip (Keypair.amd64 K) hE priv'.matching hpv
  refine ⟨pkb, h1, fun draws r hr => ?_⟩
  rcases (h2 draws).1 with e | e
  swap
  · rw [hr] at e; cases e
  rw [hr] at e
  cases e
  refine ⟨_, rfl, fun fuel rand scheme msg opt sig hsg hm h32 hid _ hex => ?_⟩
  by_cases hsch : scheme = 9
  · subst hsch
    rcases Signature.sign_ok_cases hsg with ⟨alg, p, r, s, rfl, -, hsm, rfl⟩ |
      ⟨alg, p, a, b, rfl, hle, -⟩ | ⟨alg, p, a, r, s, rfl, hle, -⟩ |
      ⟨key, rfl, hc, -⟩ | ⟨p, b, rfl, hc, -⟩
    · have hk : Signature.ECPair S.k1name p := hk
      rw [amd64_sm2] at hsm
      obtain ⟨mz, hz, hcrv, -⟩ := SM2.sign_ok hsm
      have := good_sm2.fact
      obtain ⟨G, hG⟩ := good_sm2.exists_G
      obtain ⟨e1, e2, e3, e4⟩ := hex alg p r s _ _ rfl rfl
      have hp := sm2Pair_of_ec hS.k1name hk hcrv G hG
      obtain ⟨-, -, -, r2, -, s2, -⟩ :=
        C86_sign_amd64_partial S.sm2 SM2.sm3Sum G hG p hp fuel rand (Signature.optID opt) msg r s hsm
      have hver := C86_sign_verify_amd64_partial S.sm2 S.sm2 SM2.sm3Sum G hG p hp fuel rand (Signature.optID opt) msg r s
        hsm e2 e1 e3 e4
      have hbs := Signature.byteSize_bound hk.1
      have hN : p.pub.curve.N = Curves.sm2.N := by rw [hcrv]
      have hid' : (0 : Byte) ∉ Signature.optID opt := by
        cases opt with
        | str id => exact hid id rfl rfl
        | _ => exact List.not_mem_nil
      have h62 : p.pub.curve.byteSize = 32 := by rw [hcrv]; rfl
      obtain ⟨b, hb1, hf⟩ := Signature.serialize_sm2_format p.pub.curve r s (Signature.optID opt) hid' (by omega)
        (lt_of_lt_of_le (by rw [hN]; exact r2) hbs.1) (lt_of_lt_of_le (by rw [hN]; exact s2) hbs.1)
      refine ⟨b, hb1, fun h buf hvd hrd => ?_⟩
      obtain ⟨h', s', hd, hes⟩ := ((C32_deserialize_format h buf hvd).1 _).1 (hrd ▸ hf)
      refine ⟨h', s', hd, ?_⟩
      have hess : (s'.map (Signature.bufOf h')).essence =
          Signature.Sig.essence (⟨9, .sm2 r s (some p.pub.curve) (Signature.optID opt)⟩ : Signature.Sig Signature.Buf) := hes
      have hv9 : Signature.verify (Signature.amd64 S) (PublicKey.ec alg p.pub) msg
          (some ⟨9, .sm2 r s (some p.pub.curve) (Signature.optID opt)⟩) = .ok true := by
        rw [verify_sm2 _ _ _ hm, amd64_sm2, hver]
      change Signature.verify (Signature.amd64 S) (PublicKey.ec alg p.pub) msg _ = _
      rw [← hv9]
      refine (Signature.verify_essence _ _ msg hess.symm ?_).symm
      intro bb hsch hval
      cases hval
    · exact absurd hle (by decide)
    · exact absurd hle (by decide)
    · exact absurd hc (by decide)
    · exact absurd hc (by decide)
  · rw [Signature.amd64, sign_other _ hsch] at hsg
    obtain ⟨b, hb1, hb2⟩ := C71_transported_partial S hS fuel rand scheme priv' hk msg opt sig hsg hm h32 hid
    refine ⟨b, hb1, fun h buf hvd hrd => ?_⟩
    obtain ⟨h', s', hd, hvf⟩ := hb2 h buf hvd hrd
    refine ⟨h', s', hd, ?_⟩
    rw [Signature.amd64, verify_other]
    · exact hvf
    · intro hs9
      obtain ⟨b', hb1', hrt⟩ := C30_roundtrip_partial S hS fuel rand scheme priv' hk msg opt sig hsg hid
      cases hb1.symm.trans hb1'
      obtain ⟨h'', s'', hd', hes⟩ := hrt h buf hvd hrd
      cases Res.ok.inj (hd.symm.trans hd')
      have hsc := congrArg Signature.Sig.scheme hes
      have : sig.scheme = 9 := hsc.symm.trans hs9
      rcases Signature.sign_ok_cases hsg with ⟨alg, p, r, s, rfl, hc, hsm, rfl⟩ |
        ⟨alg, p, a, b, rfl, hle, -, -, -, rfl⟩ | ⟨alg, p, a, r, s, rfl, hle, -, -, -, rfl⟩ |
        ⟨key, rfl, hc, -, rfl⟩ | ⟨p, b, rfl, hc, -, rfl⟩
      · exact hsch hc
      · exact hsch this
      · exact hsch this
      · exact hsch (hc.trans this)
      · exact hsch (hc.trans this)

/-! ## Non-vacuity -/

theorem life_scalar : genScalar Curves.sm2 [0 :: 0x42 :: (zeros 29 ++ [2])] = some 2 ∧
    genScalar Curves.p256 [0 :: 0x42 :: (zeros 29 ++ [2])] = some 2 := by
  decide +kernel

/-- An SM2 key generated on amd64, for which the multiplication is exact, and a serialization of it that is parsed. -/
example : ∃ priv pub b, generateKeyPair (Keypair.amd64 refKey) 0x13 (.byte 20) [0 :: 0x42 :: (zeros 29 ++ [2])] =
      some (.ok (.ec .sm2 priv, pub)) ∧ scalarOf (.ec .sm2 priv) ≠ some 0 ∧ priv.pub.curve = Curves.sm2 ∧
    ExactBase (bytesOfNat priv.D) ∧
    StoreStep (Keypair.amd64 refKey) refProt' refWif (.key (.ec .sm2 priv)) (.bytes b) ∧
    StoreStep (Keypair.amd64 refKey) refProt' refWif (.bytes b) (.key (.ec .sm2 priv)) := by
  obtain ⟨x, y, h⟩ := amd64Keys_gen refKey _ _ life_scalar.1
  have he : ExactBase (bytesOfNat 2) := by decide +kernel
  have hb := refKey_same.sm2 Signature.refSig_lawful
  have hg := h
  rw [C121_generate_partial refKey hb _ _ _ (fun alg p q e hc => by rw [h] at e; cases e; exact he)] at hg
  have h0 : scalarOf (.ec .sm2 ⟨2, ⟨Curves.sm2, x, y⟩⟩) ≠ some 0 := fun e => absurd (Option.some.inj e) (show ¬ 2 = 0 by decide)
  have hv := valid_amd64 hb (generated_valid Signature.refSig_lawful refKey_same (by decide) hg h0).2.1
    (fun alg p e _ => by cases e; exact he)
  obtain ⟨b, b1, -, b2⟩ := C17_private_roundtrip (Keypair.amd64 refKey) (Or.inl rfl) _ hv
  exact ⟨_, _, b, h, h0, rfl, he, .serialize b1,
    .deserialize ((b2 []).2 (Or.inl (show Curves.sm2 ≠ Curves.p224 by decide)))⟩

/-- A P-256 key generated on amd64 and a signature made with it. -/
example : generateKeyPair (Keypair.amd64 refKey) 0x12 (.byte 2) [0 :: 0x42 :: (zeros 29 ++ [2])] =
      some (.ok (.ec .ecdsa (Signature.keyOn Curves.p256 2), .ec .ecdsa (Signature.keyOn Curves.p256 2).pub)) ∧
    ¬ OnSM2 (.ec .ecdsa (Signature.keyOn Curves.p256 2)) ∧
    ∃ sig, Signature.sign (Signature.amd64 Signature.refSig) 0 (zeros 80) 1
      (.ec .ecdsa (Signature.keyOn Curves.p256 2)) abc .other = some (.ok sig) := by
  refine ⟨?_, fun h => absurd h (show ¬ Curves.p256 = Curves.sm2 by decide), ?_⟩
  · rw [generate_congr (amd64_sameBut refKey) _ _ _ (fun c l D _ hl hc _ => by
      cases hl
      have : getCurve refKey 2 = .ok Curves.p256 := rfl
      cases this.symm.trans hc
      exact amd64_base_other refKey (by decide) D) fun D => amd64_base_other refKey (eth_ne_sm2 refKey) D]
    · have gen : ∀ reads D, genScalar Curves.p256 reads = some D →
          generateKeyPair refKey 0x12 (.byte 2) reads = some (.ok (.ec .ecdsa ⟨D, ⟨Curves.p256,
            (refKey.baseMult Curves.p256 D).1, (refKey.baseMult Curves.p256 D).2⟩⟩, .ec .ecdsa ⟨Curves.p256,
            (refKey.baseMult Curves.p256 D).1, (refKey.baseMult Curves.p256 D).2⟩)) := by
        intro reads D h
        have : generateKeyPair refKey 0x12 (.byte 2) reads =
          ((genScalar Curves.p256 reads).map fun D =>
            let q := refKey.baseMult Curves.p256 D
            (PrivateKey.ec .ecdsa ⟨D, ⟨Curves.p256, q.1, q.2⟩⟩, PublicKey.ec .ecdsa ⟨Curves.p256, q.1, q.2⟩)).map .ok := rfl
        rw [this, h]; rfl
      rw [gen _ 2 life_scalar.2]; rfl
  · rw [Signature.amd64, sign_other _ (by decide)]
    exact signed_iff (by decide +kernel)

end Verif.Props
