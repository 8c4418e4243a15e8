import Verif.Lemmas.Keypair
import Verif.Props.EC
/-!
# Properties of package keypair: codecs, comparison, order, labels (C15 - C23, C50, C62 - C64)

`E` is the external behaviour (curve arithmetic, names of the secp256k1 objects). `GoodName E.k1name`: the
btcec object is named "" or "secp256k1".
-/
namespace Verif.Props
open Verif Verif.EC Verif.Keypair Verif.Spec

/-- A public key as a caller can hold it: on a supported curve, coordinates reduced and on the curve. -/
def ValidPublic (E : Ext) : PublicKey → Prop
  | .ec alg pub => (alg = .ecdsa ∨ alg = .sm2) ∧ pub.curve ∈ Curves.all E.k1name ∧ ValidPoint E.k1name pub
  | .ed b => b.length = 32
  | .eth pub => pub.curve = ethCurve E ∧ pub.x < pub.curve.P ∧ pub.y < pub.curve.P ∧
      OnCurve pub.curve 0 pub.x pub.y
  | .unknown => False

/-- The key is not an EC key on P-224 (whose decompression needs random draws), or the draws contain a
suitable one. -/
def DrawsSuffice (draws : List Nat) : PublicKey → Prop
  | .ec _ pub => pub.curve ≠ Curves.p224 ∨ ∃ d ∈ draws, GoodDraw pub.curve.P pub.y d
  | _ => True

theorem validPoint_fits (k1name : String) (pub : ECPub) (hc : pub.curve ∈ Curves.all k1name)
    (hv : ValidPoint k1name pub) : pub.x < 256 ^ pub.curve.byteSize :=
  lt_of_lt_of_le hv.x_lt (supported_goodField k1name _ hc).fits

/-- **C15**: every valid public key serializes to its documented format, and parsing that gives the same
key back. Parsing can only fail to finish (never fail or give another key) while drawing random numbers
for the square root, which happens only on P-224. -/
theorem C15_public_roundtrip (E : Ext) (hE : GoodName E.k1name) (k : PublicKey) (hv : ValidPublic E k) :
    ∃ data, serializePublicKey E k = .ok data ∧ PublicFormat E.k1name k data ∧
      ∀ draws,
        (deserializePublicKey E data draws = some (.ok k) ∨ deserializePublicKey E data draws = none) ∧
        (DrawsSuffice draws k → deserializePublicKey E data draws = some (.ok k)) := by
  cases k with
  | unknown => exact hv.elim
  | ed b =>
    refine ⟨_, rfl, .ed b, fun draws => ?_⟩
    have : deserializePublicKey E ([PK_EDDSA, ED25519] ++ b) draws = some (.ok (.ed b)) := by
      have hb : b.length = 32 := hv
      unfold deserializePublicKey
      rw [if_neg (by simp [hb])]
      simp [hb]
    exact ⟨Or.inl this, fun _ => this⟩
  | eth pub =>
    obtain ⟨hc, hx, hy, hon⟩ := hv
    refine ⟨_, rfl, .eth pub, fun draws => ?_⟩
    have : deserializePublicKey E (PK_ETHECDSA :: fromECDSAPub pub) draws = some (.ok (.eth pub)) := by
      rw [deser_eth E _ draws (by simp [fromECDSAPub, beFix_length])]
      have := unmarshal_marshal E pub hc hx hy hon
      unfold sec1Uncompressed at this
      unfold fromECDSAPub
      rw [this]; rfl
    exact ⟨Or.inl this, fun _ => this⟩
  | ec alg pub =>
    obtain ⟨halg, hc, hv⟩ := hv
    obtain ⟨data, henc, hdata, hdec⟩ := C10_supported_curves E.k1name hE pub hc hv
    obtain ⟨l, hl⟩ := mem_all_iff.1 hc
    have hlabel := getCurveLabel_label E hE hl
    have hget := getCurve_label E hl
    obtain ⟨c, x, y⟩ := pub
    simp only at *
    have hlen : data.length = c.byteSize + 1 := by
      rw [hdata]; simp [sec1Compressed, beFix_length]
    have hbs : 28 ≤ c.byteSize := byteSize_ge hl
    -- tagged formats
    have tagged : ∀ t, (t = PK_ECDSA ∧ alg = .ecdsa) ∨ (t = PK_SM2 ∧ alg = .sm2) → ∀ draws,
        deserializePublicKey E (t :: l :: data) draws =
          (decodePublicKey E.k1name data (some c) draws).map fun r => r.map fun pub => .ec alg pub := by
      intro t ht draws
      unfold deserializePublicKey
      rw [if_neg (by simp [hlen]; omega)]
      rcases ht with ⟨rfl, rfl⟩ | ⟨rfl, rfl⟩ <;> simp [hget]
    have fin : ∀ t, (t = PK_ECDSA ∧ alg = .ecdsa) ∨ (t = PK_SM2 ∧ alg = .sm2) → ∀ draws,
        (deserializePublicKey E (t :: l :: data) draws = some (.ok (.ec alg ⟨c, x, y⟩)) ∨
          deserializePublicKey E (t :: l :: data) draws = none) ∧
        (DrawsSuffice draws (.ec alg ⟨c, x, y⟩) →
          deserializePublicKey E (t :: l :: data) draws = some (.ok (.ec alg ⟨c, x, y⟩))) := by
      intro t ht draws
      rw [tagged t ht]
      obtain ⟨h1, h2⟩ := hdec draws
      refine ⟨?_, fun hd => by rw [h2 hd]; rfl⟩
      rcases h1 with h | h
      · left; rw [h]; rfl
      · right; rw [h]; rfl
    by_cases hp : alg = .ecdsa ∧ c = Curves.p256
    · obtain ⟨rfl, rfl⟩ := hp
      refine ⟨data, ?_, ?_, fun draws => ?_⟩
      · rw [ser_p256 E _ rfl, henc]
      · rw [hdata, p256_byteSize]; exact .p256 x y
      · have : deserializePublicKey E data draws = some (.ok (.ec .ecdsa ⟨Curves.p256, x, y⟩)) := by
          have hd := (hdec draws).2 (Or.inl (by decide +kernel))
          unfold deserializePublicKey
          rw [if_neg (by omega)]
          have ht : data.getD 0 0 = 2 ∨ data.getD 0 0 = 3 := by
            rw [hdata]; simp only [sec1Compressed, List.getD_cons_zero]
            split <;> simp
          simp only [hd]
          rcases ht with ht | ht <;> rw [ht] <;> rfl
        exact ⟨Or.inl this, fun _ => this⟩
    · have hns : ¬ (alg = .ecdsa ∧ c.name = Curves.p256.name) := by
        rw [name_eq_p256 hE hl]; exact hp
      rcases halg with rfl | rfl
      · refine ⟨PK_ECDSA :: l :: data, ?_, ?_, fin _ (Or.inl ⟨rfl, rfl⟩)⟩
        · rw [ser_ec E _ _ hns hlabel, henc]; rfl
        · rw [hdata]; exact .ecdsa c l x y hl (fun e => hp ⟨rfl, e⟩)
      · refine ⟨PK_SM2 :: l :: data, ?_, ?_, fin _ (Or.inr ⟨rfl, rfl⟩)⟩
        · rw [ser_ec E _ _ hns hlabel, henc]; rfl
        · rw [hdata]; exact .sm2 c l x y hl

/-- Two valid points of one curve with the same compressed encoding are equal. -/
theorem sec1Compressed_inj (k1name : String) (c : Curve) (hF : GoodField c) (x y x' y' : Nat)
    (hv : ValidPoint k1name ⟨c, x, y⟩) (hv' : ValidPoint k1name ⟨c, x', y'⟩)
    (h : sec1Compressed c.byteSize x y = sec1Compressed c.byteSize x' y') : x = x' ∧ y = y' := by
  have : Fact c.P.Prime := ⟨hF.prime⟩
  unfold sec1Compressed at h
  rw [List.cons.injEq] at h
  have hx : x = x' := beFix_inj (lt_of_lt_of_le hv.x_lt hF.fits) (lt_of_lt_of_le hv'.x_lt hF.fits) h.2
  subst hx
  have hpar : y % 2 = y' % 2 := by
    have h1 := h.1
    rcases Nat.mod_two_eq_zero_or_one y with e | e <;> rcases Nat.mod_two_eq_zero_or_one y' with e' | e' <;>
      simp [e, e'] at h1 ⊢
  have hon := hv.on_curve
  have hon' := hv'.on_curve
  simp only [curveA_eq] at hon hon'
  rw [onCurve_iff] at hon hon'
  refine ⟨rfl, ?_⟩
  have hodd := hF.odd
  rcases root_unique c.P hv.y_lt hv'.y_lt (hon.trans hon'.symm) with h | h | ⟨h, h'⟩
  · exact h
  · simp only at h; omega
  · exact h.trans h'.symm

/-- **C16**: two valid public keys (of any types) with the same serialization are equal. -/
theorem C16_public_injective (E : Ext) (hE : GoodName E.k1name) (k k' : PublicKey)
    (hv : ValidPublic E k) (hv' : ValidPublic E k') (h : serializePublicKey E k = serializePublicKey E k') :
    k = k' := by
  obtain ⟨d, h1, hf, _⟩ := C15_public_roundtrip E hE k hv
  obtain ⟨d', h1', hf', _⟩ := C15_public_roundtrip E hE k' hv'
  rw [h1, h1'] at h
  simp only [Res.ok.injEq] at h
  have tag : ∀ y : Nat, (if y % 2 = 1 then (3 : Byte) else 2) = 3 ∨ (if y % 2 = 1 then (3 : Byte) else 2) = 2 := by
    intro y; split <;> simp
  have ecCase : ∀ (alg : Alg) (c c' : Curve) (l : Byte) (x y x' y' : Nat),
      ValidPublic E (.ec alg ⟨c, x, y⟩) → ValidPublic E (.ec alg ⟨c', x', y'⟩) →
      CurveLabel E.k1name c l → CurveLabel E.k1name c' l →
      sec1Compressed c.byteSize x y = sec1Compressed c'.byteSize x' y' →
      (PublicKey.ec alg ⟨c, x, y⟩) = .ec alg ⟨c', x', y'⟩ := by
    intro alg c c' l x y x' y' hv hv' hl hl' hs
    obtain rfl := CurveLabel.curve_unique hl hl'
    obtain ⟨rfl, rfl⟩ := sec1Compressed_inj E.k1name c (supported_goodField _ _ hv.2.1) x y x' y' hv.2.2 hv'.2.2 hs
    rfl
  cases hf with
  | p256 x y =>
    cases hf' with
    | p256 x' y' => exact ecCase .ecdsa _ _ 2 _ _ _ _ hv hv' .p256 .p256 h
    | _ =>
      exfalso
      simp only [sec1Compressed, List.cons.injEq] at h
      rcases tag y with e | e <;> rw [e] at h <;> exact absurd h.1 (by decide)
  | ecdsa c l x y hl hc =>
    cases hf' with
    | p256 x' y' =>
      exfalso
      simp only [sec1Compressed, List.cons.injEq] at h
      rcases tag y' with e | e <;> rw [e] at h <;> exact absurd h.1 (by decide)
    | ecdsa c' l' x' y' hl' hc' =>
      simp only [List.cons.injEq, true_and] at h
      obtain ⟨rfl, h⟩ := h
      exact ecCase .ecdsa _ _ l _ _ _ _ hv hv' hl hl' h
    | _ => simp at h
  | sm2 c l x y hl =>
    cases hf' with
    | p256 x' y' =>
      exfalso
      simp only [sec1Compressed, List.cons.injEq] at h
      rcases tag y' with e | e <;> rw [e] at h <;> exact absurd h.1 (by decide)
    | sm2 c' l' x' y' hl' =>
      simp only [List.cons.injEq, true_and] at h
      obtain ⟨rfl, h⟩ := h
      exact ecCase .sm2 _ _ l _ _ _ _ hv hv' hl hl' h
    | _ => simp at h
  | ed b =>
    cases hf' with
    | p256 x' y' =>
      exfalso
      simp only [sec1Compressed, List.cons.injEq] at h
      rcases tag y' with e | e <;> rw [e] at h <;> exact absurd h.1 (by decide)
    | ed b' => simp only [List.cons.injEq, true_and] at h; rw [h]
    | _ => simp at h
  | eth pub =>
    cases hf' with
    | p256 x' y' =>
      exfalso
      simp only [sec1Compressed, List.cons.injEq] at h
      rcases tag y' with e | e <;> rw [e] at h <;> exact absurd h.1 (by decide)
    | eth pub' =>
      simp only [sec1Uncompressed, List.cons.injEq, true_and] at h
      obtain ⟨hc, hx, hy, _⟩ := hv
      obtain ⟨hc', hx', hy', _⟩ := hv'
      have hP : (ethCurve E).P ≤ 256 ^ 32 := k1P_fits E.ethname
      have := List.append_inj h (by simp [beFix_length])
      rw [hc] at hx hy
      rw [hc'] at hx' hy'
      have e1 := beFix_inj (lt_of_lt_of_le hx hP) (lt_of_lt_of_le hx' hP) this.1
      have e2 := beFix_inj (lt_of_lt_of_le hy hP) (lt_of_lt_of_le hy' hP) this.2
      obtain ⟨c, x, y⟩ := pub
      obtain ⟨c', x', y'⟩ := pub'
      simp only at hc hc' e1 e2
      rw [hc, hc', e1, e2]
    | _ => simp at h

/-! ## Private keys -/

/-- A private key as key generation makes it: the scalar fits, the public half is `D·G` and is a proper
point; an Ed25519 key has 64 bytes. -/
def ValidPrivate (E : Ext) : PrivateKey → Prop
  | .ec alg priv => (alg = .ecdsa ∨ alg = .sm2) ∧ priv.pub.curve ∈ Curves.all E.k1name ∧
      priv.D < 256 ^ priv.pub.curve.byteSize ∧
      (priv.pub.x, priv.pub.y) = E.baseMult priv.pub.curve priv.D ∧ ValidPoint E.k1name priv.pub
  | .ed b => b.length = 64
  | .eth priv => priv.pub.curve = ethCurve E ∧ 0 < priv.D ∧ priv.D < (ethCurve E).N ∧
      (priv.pub.x, priv.pub.y) = E.baseMult (ethCurve E) priv.D
  | .unknown => False

/-- **C17**: every valid private key serializes to its documented format, and parsing that gives the same
key back (on P-224 once a suitable random draw has occurred). -/
theorem C17_private_roundtrip (E : Ext) (hE : GoodName E.k1name) (k : PrivateKey) (hv : ValidPrivate E k) :
    ∃ data, serializePrivateKey E k = .ok data ∧ PrivateFormat E.k1name k data ∧
      ∀ draws,
        (deserializePrivateKey E data draws = some (.ok (some k)) ∨
          deserializePrivateKey E data draws = none) ∧
        (DrawsSuffice draws k.matching → deserializePrivateKey E data draws = some (.ok (some k))) := by
  cases k with
  | unknown => exact hv.elim
  | ed b =>
    have hb : b.length = 64 := hv
    have : ∀ draws, deserializePrivateKey E ([PK_EDDSA, ED25519] ++ b) draws = some (.ok (some (.ed b))) := by
      intro draws
      simp [deserializePrivateKey, hb]
    exact ⟨_, rfl, .ed b, fun draws => ⟨Or.inl (this draws), fun _ => this draws⟩⟩
  | eth priv =>
    obtain ⟨hc, h0, hN, hq⟩ := hv
    have hN' : (ethCurve E).N ≤ 256 ^ 32 := show (Curves.secp256k1 "").N ≤ 256 ^ 32 by decide +kernel
    have hD := lt_of_lt_of_le hN hN'
    have hfmt : fromECDSA priv = beFix 32 priv.D := zeros_append_bytesOfNat (byteLen_le_iff.2 hD)
    have : ∀ draws, deserializePrivateKey E (PK_ETHECDSA :: beFix 32 priv.D) draws =
        some (.ok (some (.eth priv))) := by
      intro draws
      have ht : toECDSA E (beFix 32 priv.D) = .ok priv := by
        unfold toECDSA
        simp only [natOfBytes_beFix_of_lt hD, beFix_length]
        rw [if_neg (by simp [ethCurve, Curves.secp256k1]), if_neg (by omega), if_neg (by omega), ← hq, ← hc]
      show some ((toECDSA E (beFix 32 priv.D)).map _) = _
      rw [ht]; rfl
    refine ⟨_, rfl, ?_, fun draws => ?_⟩
    · show PrivateFormat _ _ (PK_ETHECDSA :: fromECDSA priv)
      rw [hfmt]; exact .eth priv
    · rw [hfmt]; exact ⟨Or.inl (this draws), fun _ => this draws⟩
  | ec alg priv =>
    obtain ⟨halg, hc, hD, hq, hv⟩ := hv
    obtain ⟨data, henc, hdata, hdec⟩ := C10_supported_curves E.k1name hE priv.pub hc hv
    obtain ⟨l, hl⟩ := mem_all_iff.1 hc
    have hlabel := getCurveLabel_label E hE hl
    have hget := getCurve_label E hl
    have hser := serPriv_ec E alg priv hlabel
    rw [henc] at hser
    obtain ⟨D, c, x, y⟩ := priv
    simp only at *
    have hpad : zeros (c.byteSize - (bytesOfNat D).length) ++ bytesOfNat D = beFix c.byteSize D := by
      rw [bytesOfNat_length]; exact zeros_append_bytesOfNat (byteLen_le_iff.2 hD)
    have hlen : data.length = c.byteSize + 1 := by
      rw [hdata]; simp [sec1Compressed, beFix_length]
    have hser' : serializePrivateKey E (.ec alg ⟨D, ⟨c, x, y⟩⟩) =
        .ok (algPrefix alg ++ (l :: (beFix c.byteSize D ++ data))) := by
      rw [hser]
      show Res.ok _ = _
      rw [List.append_assoc _ (zeros _), hpad]
      simp
    have hkey : constructPrivateKey E (beFix c.byteSize D) c = ⟨D, ⟨c, x, y⟩⟩ := by
      simp only [constructPrivateKey, natOfBytes_beFix_of_lt hD, ← hq]
    have fin : ∀ t, (t = PK_ECDSA ∧ alg = .ecdsa) ∨ (t = PK_SM2 ∧ alg = .sm2) → ∀ draws,
        (deserializePrivateKey E (t :: l :: (beFix c.byteSize D ++ data)) draws =
            some (.ok (some (.ec alg ⟨D, ⟨c, x, y⟩⟩))) ∨
          deserializePrivateKey E (t :: l :: (beFix c.byteSize D ++ data)) draws = none) ∧
        (DrawsSuffice draws (.ec alg ⟨c, x, y⟩) →
          deserializePrivateKey E (t :: l :: (beFix c.byteSize D ++ data)) draws =
            some (.ok (some (.ec alg ⟨D, ⟨c, x, y⟩⟩)))) := by
      intro t ht draws
      have ht' : t = PK_ECDSA ∨ t = PK_SM2 := by rcases ht with h | h; exacts [Or.inl h.1, Or.inr h.1]
      have halg' : (if t = PK_ECDSA then Alg.ecdsa else Alg.sm2) = alg := by
        rcases ht with ⟨rfl, rfl⟩ | ⟨rfl, rfl⟩ <;> rfl
      rw [deserPriv_ec E t l _ draws ht' hget (by simp [beFix_length, hlen]; omega)]
      have e1 : (beFix c.byteSize D ++ data).take c.byteSize = beFix c.byteSize D := by
        rw [List.take_append_of_le_length (by simp [beFix_length]), List.take_of_length_le (by simp [beFix_length])]
      have e2 : (beFix c.byteSize D ++ data).drop c.byteSize = data := by
        rw [List.drop_append_of_le_length (by simp [beFix_length]),
          List.drop_eq_nil_of_le (by simp [beFix_length]), List.nil_append]
      rw [e1, e2, hkey, halg']
      obtain ⟨h1, h2⟩ := hdec draws
      refine ⟨?_, fun hd => by rw [h2 hd]; simp⟩
      rcases h1 with h | h
      · left; rw [h]; simp
      · right; rw [h]; rfl
    rcases halg with rfl | rfl
    · refine ⟨_, hser', ?_, fin _ (Or.inl ⟨rfl, rfl⟩)⟩
      rw [hdata]; exact .ecdsa c l D x y hl
    · refine ⟨_, hser', ?_, fin _ (Or.inr ⟨rfl, rfl⟩)⟩
      rw [hdata]; exact .sm2 c l D x y hl

/-! ## Robustness of parsing -/

/-- **C18** for public keys: no input makes `DeserializePublicKey` panic. -/
theorem C18_public_no_panic (E : Ext) (data : Bytes) (draws : List Nat) (m : String) :
    deserializePublicKey E data draws ≠ some (.panic m) := by
  unfold deserializePublicKey
  split
  · simp
  · simp only
    split
    · split
      · intro h
        rw [Option.map_eq_some_iff] at h
        obtain ⟨r, hr, hm⟩ := h
        cases r with
        | panic m' => exact decode_not_panic _ _ _ _ m' hr
        | _ => simp [Res.map] at hm
      · simp
      · rename_i h; exact absurd h (getCurve_not_panic E _ _)
    · split
      · split
        · split <;> simp
        · simp
      · split
        · intro h
          rw [Option.map_eq_some_iff] at h
          obtain ⟨r, hr, hm⟩ := h
          cases r with
          | panic m' => exact decode_not_panic _ _ _ _ m' hr
          | _ => simp at hm
        · split
          · unfold unmarshalPubkey
            simp only
            repeat' split
            all_goals simp [Res.map]
          · simp

/-- **C18 (partial)** for private keys: `DeserializePrivateKey` panics exactly on the empty string and on
the one-byte strings 12, 13 and 14 (hex). Missing: the property asks for no panic at all. -/
theorem C18_private_panics_iff_partial (E : Ext) (data : Bytes) (draws : List Nat) :
    (∃ m, deserializePrivateKey E data draws = some (.panic m)) ↔
      data = [] ∨ data = [0x12] ∨ data = [0x13] ∨ data = [0x14] := by
  constructor
  · rintro ⟨m, h⟩
    cases data with
    | nil => exact Or.inl rfl
    | cons t rest =>
      unfold deserializePrivateKey at h
      simp only at h
      split at h
      · rename_i ht
        cases rest with
        | nil => rcases ht with rfl | rfl <;> simp
        | cons l body =>
          exfalso
          simp only at h
          split at h
          · simp at h
          · rename_i hg; exact getCurve_not_panic E _ _ hg
          · split at h
            · simp at h
            · rw [Option.map_eq_some_iff] at h
              obtain ⟨r, hr, hm⟩ := h
              cases r with
              | panic m' => exact decode_not_panic _ _ _ _ m' hr
              | err m' => simp at hm
              | ok p => simp only at hm; split at hm <;> simp at hm
      · split at h
        · rename_i ht
          cases rest with
          | nil => rw [ht]; simp
          | cons l body => exfalso; simp only at h; split at h <;> (try split at h) <;> simp at h
        · split at h
          · exfalso
            unfold toECDSA at h
            simp only at h
            repeat' split at h
            all_goals simp [Res.map] at h
          · simp at h
  · rintro (rfl | rfl | rfl | rfl) <;> exact ⟨_, rfl⟩

/-- **C19 (partial)**: a nil key with a nil error is returned exactly for nonempty strings whose type byte
is not one of the four key types. Missing: the property asks that this never happens; e.g. the
serialization of an ECDSA P-256 public key (type byte 2 or 3) is "parsed" without an error. -/
theorem C19_nil_key_iff_partial (E : Ext) (data : Bytes) (draws : List Nat) :
    deserializePrivateKey E data draws = some (.ok none) ↔
      ∃ t rest, data = t :: rest ∧ t ≠ 0x12 ∧ t ≠ 0x13 ∧ t ≠ 0x14 ∧ t ≠ 0x15 := by
  constructor
  · intro h
    cases data with
    | nil => simp [deserializePrivateKey] at h
    | cons t rest =>
      unfold deserializePrivateKey at h
      simp only at h
      split at h
      · exfalso
        cases rest with
        | nil => simp at h
        | cons l body =>
          simp only at h
          split at h
          · simp at h
          · simp at h
          · split at h
            · simp at h
            · rw [Option.map_eq_some_iff] at h
              obtain ⟨r, hr, hm⟩ := h
              cases r with
              | panic m' => simp at hm
              | err m' => simp at hm
              | ok p => simp only at hm; split at hm <;> simp at hm
      · rename_i h1
        split at h
        · exfalso
          cases rest with
          | nil => simp at h
          | cons l body => simp only at h; split at h <;> (try split at h) <;> simp at h
        · rename_i h2
          split at h
          · exfalso
            unfold toECDSA at h
            simp only at h
            repeat' split at h
            all_goals simp [Res.map] at h
          · rename_i h3
            exact ⟨t, rest, rfl, fun e => h1 (Or.inl e), fun e => h1 (Or.inr e), h2, h3⟩
  · rintro ⟨t, rest, rfl, h1, h2, h3, h4⟩
    unfold deserializePrivateKey
    simp only
    rw [if_neg (by rintro (e | e); exacts [h1 e, h2 e]), if_neg h3, if_neg h4]

/-! ## Comparison and search -/

/-- **C20 (partial)**: for valid keys, `ComparePublicKey` is true exactly if the keys are equal or are
two EC keys of the same algorithm on the same curve that are negatives of each other. Missing: it should
be false for negatives, see `C20_opposite_keys_compare_equal`. -/
theorem C20_compare_partial (E : Ext) (hE : GoodName E.k1name) (a b : PublicKey)
    (ha : ValidPublic E a) (hb : ValidPublic E b) :
    comparePublicKey a b = true ↔
      a = b ∨ ∃ alg c x y, a = .ec alg ⟨c, x, y⟩ ∧ b = .ec alg ⟨c, x, c.P - y⟩ := by
  cases a with
  | unknown => exact ha.elim
  | ed v => cases b <;> simp [comparePublicKey]
  | eth v =>
    cases b with
    | eth w =>
      obtain ⟨c, x, y⟩ := v
      obtain ⟨c', x', y'⟩ := w
      simp [comparePublicKey]
      tauto
    | _ => simp [comparePublicKey]
  | ec alg v =>
    cases b with
    | ec alg' w =>
      obtain ⟨c, x, y⟩ := v
      obtain ⟨c', x', y'⟩ := w
      obtain ⟨_, hc, hv⟩ := ha
      obtain ⟨_, hc', hv'⟩ := hb
      simp only at hc hc'
      simp only [comparePublicKey, Bool.and_eq_true, decide_eq_true_eq, PublicKey.ec.injEq, ECPub.mk.injEq]
      constructor
      · rintro ⟨⟨rfl, hn⟩, rfl⟩
        obtain ⟨l, hl⟩ := mem_all_iff.1 hc
        obtain ⟨l', hl'⟩ := mem_all_iff.1 hc'
        obtain rfl := name_unique hE hl hl' hn
        have hF := supported_goodField E.k1name c hc
        have : Fact c.P.Prime := ⟨hF.prime⟩
        have hon := hv.on_curve
        have hon' := hv'.on_curve
        simp only [curveA_eq] at hon hon'
        rw [onCurve_iff] at hon hon'
        rcases root_unique c.P hv.y_lt hv'.y_lt (hon.trans hon'.symm) with h | h | ⟨h, h'⟩
        · left; exact ⟨rfl, rfl, rfl, h⟩
        · right
          simp only at h
          exact ⟨alg, c, x, y, ⟨rfl, rfl, rfl, rfl⟩, rfl, rfl, rfl, by omega⟩
        · left; exact ⟨rfl, rfl, rfl, h.trans h'.symm⟩
      · rintro (⟨rfl, rfl, rfl, rfl⟩ | ⟨_, _, _, _, ⟨rfl, rfl, rfl, rfl⟩, rfl, rfl, rfl, rfl⟩) <;>
          exact ⟨⟨rfl, rfl⟩, rfl⟩
    | _ => simp [comparePublicKey]

/-- C20 does not hold: every valid EC key with `y ≠ 0` compares equal to its negative, which is a
different valid key. -/
theorem C20_opposite_keys_compare_equal (E : Ext) (alg : Alg) (c : Curve) (x y : Nat)
    (ha : ValidPublic E (.ec alg ⟨c, x, y⟩)) (hy : y ≠ 0) :
    ValidPublic E (.ec alg ⟨c, x, c.P - y⟩) ∧ (PublicKey.ec alg ⟨c, x, y⟩) ≠ .ec alg ⟨c, x, c.P - y⟩ ∧
      comparePublicKey (.ec alg ⟨c, x, y⟩) (.ec alg ⟨c, x, c.P - y⟩) = true := by
  obtain ⟨halg, hc, hv⟩ := ha
  have hF := supported_goodField E.k1name c hc
  have hodd := hF.odd
  have hyl : y < c.P := hv.y_lt
  refine ⟨⟨halg, hc, hv.x_lt, ?_, ?_⟩, ?_, by simp [comparePublicKey]⟩
  · show c.P - y < c.P
    omega
  · have hon := hv.on_curve
    simp only [OnCurve] at hon ⊢
    rw [Nat.cast_sub hyl.le]
    rw [← Int.emod_eq_emod_iff_emod_sub_eq_zero] at hon ⊢
    rw [← hon]
    apply Int.emod_eq_emod_iff_emod_sub_eq_zero.2
    apply Int.emod_eq_zero_of_dvd
    exact ⟨(c.P : Int) - 2 * y, by ring⟩
  · simp only [ne_eq, PublicKey.ec.injEq, ECPub.mk.injEq, true_and]
    omega

/-- **C21**: `FindKey` returns the least index whose key compares equal to the wanted one, and -1 exactly
if there is none. -/
theorem C21_findKey (list : List PublicKey) (key : PublicKey) :
    (findKey list key = -1 ↔ ∀ v ∈ list, comparePublicKey v key = false) ∧
    (∀ i : Nat, findKey list key = i ↔
      ∃ h : i < list.length, comparePublicKey list[i] key = true ∧
        ∀ j (hj : j < i), comparePublicKey (list[j]'(by omega)) key = false) := by
  have key' : ∀ (l : List PublicKey) (n : Nat),
      (findKeyFrom n l key = -1 ↔ ∀ v ∈ l, comparePublicKey v key = false) ∧
      (∀ i : Nat, findKeyFrom n l key = ((n + i : Nat) : Int) ↔
        ∃ h : i < l.length, comparePublicKey l[i] key = true ∧
          ∀ j (hj : j < i), comparePublicKey (l[j]'(by omega)) key = false) ∧
      (findKeyFrom n l key = -1 ∨ (n : Int) ≤ findKeyFrom n l key) := by
    intro l
    induction l with
    | nil =>
      intro n
      refine ⟨by simp [findKeyFrom], fun i => ?_, Or.inl rfl⟩
      simp only [findKeyFrom, List.length_nil, Nat.not_lt_zero, IsEmpty.exists_iff, iff_false]
      omega
    | cons v rest ih =>
      intro n
      by_cases hv : comparePublicKey v key = true
      · simp only [findKeyFrom, hv, if_true]
        refine ⟨⟨fun h => by omega, fun h => ?_⟩, fun i => ?_, Or.inr le_rfl⟩
        · have := h v (by simp); rw [hv] at this; cases this
        · constructor
          · intro h
            have : i = 0 := by omega
            subst this
            exact ⟨by simp, by simpa using hv, fun j hj => by omega⟩
          · rintro ⟨h, _, h2⟩
            cases i with
            | zero => simp
            | succ i => have := h2 0 (by omega); simp [hv] at this
      · have hv' : comparePublicKey v key = false := by simpa using hv
        obtain ⟨h1, h2, h3⟩ := ih (n + 1)
        have e : findKeyFrom n (v :: rest) key = findKeyFrom (n + 1) rest key := by
          simp [findKeyFrom, hv']
        rw [e]
        refine ⟨by rw [h1]; simp [hv'], fun i => ?_, ?_⟩
        · cases i with
          | zero =>
            constructor
            · intro h; exfalso; rcases h3 with h3 | h3 <;> rw [h] at h3 <;> omega
            · rintro ⟨_, h, _⟩; simp [hv'] at h
          | succ i =>
            have := h2 i
            rw [show n + 1 + i = n + (i + 1) by omega] at this
            rw [this]
            constructor
            · rintro ⟨h, h4, h5⟩
              refine ⟨by simpa using h, by simpa using h4, fun j hj => ?_⟩
              cases j with
              | zero => simpa using hv'
              | succ j => simpa using h5 j (by omega)
            · rintro ⟨h, h4, h5⟩
              refine ⟨by simpa using h, by simpa using h4, fun j hj => ?_⟩
              simpa using h5 (j + 1) (by omega)
        · rcases h3 with h3 | h3
          · exact Or.inl h3
          · right; omega
  obtain ⟨h1, h2, _⟩ := key' list 0
  refine ⟨h1, fun i => ?_⟩
  have := h2 i
  rw [Nat.zero_add] at this
  exact this

/-! ## Sorting -/

/-- Keys that can be sorted: those whose rank is defined (algorithm and curve known). -/
def Sortable (E : Ext) (k : PublicKey) : Prop := ∃ r, SortRank E.k1name k r

theorem rank_unique {k1name : String} {k : PublicKey} {r s : List Nat} (h : SortRank k1name k r)
    (h' : SortRank k1name k s) : r = s := by
  cases h <;> cases h' <;> first
    | rfl
    | (rename_i h1 _ h2; rw [CurveLabel.unique h1 h2])

theorem rank_inj {E : Ext} {k k' : PublicKey} {r : List Nat} (h : SortRank E.k1name k r)
    (h' : SortRank E.k1name k' r)
    (he : ∀ p, k = .eth p → p.curve = ethCurve E) (he' : ∀ p, k' = .eth p → p.curve = ethCurve E) :
    k = k' := by
  generalize hr : r = r' at h'
  cases h with
  | ecdsa c l x y hl =>
    cases h' with
    | ecdsa c' l' x' y' hl' =>
      simp only [List.cons.injEq, true_and, and_true] at hr
      obtain ⟨h1, rfl, rfl⟩ := hr
      obtain rfl := BitVec.eq_of_toNat_eq h1
      rw [CurveLabel.curve_unique hl hl']
    | _ => simp at hr
  | sm2 c l x y hl =>
    cases h' with
    | sm2 c' l' x' y' hl' =>
      simp only [List.cons.injEq, true_and, and_true] at hr
      obtain ⟨h1, rfl, rfl⟩ := hr
      obtain rfl := BitVec.eq_of_toNat_eq h1
      rw [CurveLabel.curve_unique hl hl']
    | _ => simp at hr
  | ed b =>
    cases h' with
    | ed b' =>
      simp only [List.cons.injEq, true_and] at hr
      rw [List.map_injective_iff.2 (fun a b h => BitVec.eq_of_toNat_eq h) hr]
    | _ => simp at hr
  | eth p =>
    cases h' with
    | eth p' =>
      simp only [List.cons.injEq, true_and, and_true] at hr
      have e1 := he p rfl
      have e2 := he' p' rfl
      obtain ⟨c, x, y⟩ := p
      obtain ⟨c', x', y'⟩ := p'
      simp only at e1 e2 hr
      rw [e1, e2, hr.1, hr.2]
    | _ => simp at hr

/-- **C22**: for every list of keys with known algorithm and curve, whatever (correct) sorting routine
`sort.Sort` is: `SortPublicKeys` returns a permutation of the list, ordered by the documented rank. -/
theorem C22_sorted (E : Ext) (hE : GoodName E.k1name) (S : Sorter PublicKey) (hS : S.Lawful)
    (l : List PublicKey) (hl : ∀ k ∈ l, Sortable E k) :
    (sortPublicKeys E S l).Perm l ∧
      (sortPublicKeys E S l).Pairwise fun a b =>
        ∀ r s, SortRank E.k1name a r → SortRank E.k1name b s → r ≤ s := by
  have hlt : ∀ a ∈ l, ∀ b ∈ l, ∀ r s, SortRank E.k1name a r → SortRank E.k1name b s →
      (match less E a b with | .ok r => r | _ => false) = decide (r < s) := by
    intro a _ b _ r s hr hs
    rw [less_eq E hE hr hs]
  obtain ⟨hp, hs⟩ := hS (fun a b => match less E a b with | .ok r => r | _ => false) l
    (by
      intro a ha
      obtain ⟨r, hr⟩ := hl a ha
      rw [hlt a ha a ha r r hr hr]; simp)
    (by
      intro a ha b hb c hc
      obtain ⟨r, hr⟩ := hl a ha
      obtain ⟨s, hs⟩ := hl b hb
      obtain ⟨t, ht⟩ := hl c hc
      rw [hlt a ha b hb r s hr hs, hlt b hb c hc s t hs ht, hlt a ha c hc r t hr ht]
      simp only [decide_eq_true_eq]
      exact fun h1 h2 => lt_trans h1 h2)
    (by
      intro a ha b hb c hc
      obtain ⟨r, hr⟩ := hl a ha
      obtain ⟨s, hs⟩ := hl b hb
      obtain ⟨t, ht⟩ := hl c hc
      rw [hlt a ha b hb r s hr hs, hlt b hb c hc s t hs ht, hlt a ha c hc r t hr ht]
      simp only [decide_eq_false_iff_not, not_lt]
      exact fun h1 h2 => le_trans h2 h1)
  refine ⟨hp, ?_⟩
  refine hs.imp_of_mem ?_
  intro a b ha hb h r s hr hs'
  rw [hlt b (hp.mem_iff.1 hb) a (hp.mem_iff.1 ha) s r hs' hr] at h
  simpa using h

/-- **C22**: the result does not depend on the order of the input, nor on the sorting routine. -/
theorem C22_canonical (E : Ext) (hE : GoodName E.k1name) (S S' : Sorter PublicKey) (hS : S.Lawful)
    (hS' : S'.Lawful) (l l' : List PublicKey) (hperm : l.Perm l') (hl : ∀ k ∈ l, Sortable E k)
    (heth : ∀ p, PublicKey.eth p ∈ l → p.curve = ethCurve E) :
    sortPublicKeys E S l = sortPublicKeys E S' l' := by
  obtain ⟨hp, hs⟩ := C22_sorted E hE S hS l hl
  obtain ⟨hp', hs'⟩ := C22_sorted E hE S' hS' l' (fun k hk => hl k (hperm.mem_iff.2 hk))
  refine List.Perm.eq_of_pairwise ?_ hs hs' (hp.trans (hperm.trans hp'.symm))
  intro a b ha hb h1 h2
  have ha' := hp.mem_iff.1 ha
  have hb' := hperm.mem_iff.2 (hp'.mem_iff.1 hb)
  obtain ⟨r, hr⟩ := hl a ha'
  obtain ⟨s, hs⟩ := hl b hb'
  have e := le_antisymm (h1 r s hr hs) (h2 s r hs hr)
  subst e
  exact rank_inj hr hs (fun p hp => heth p (hp ▸ ha')) (fun p hp => heth p (hp ▸ hb'))

/-! ## Labels and names -/

/-- **C23** (labels): every supported curve has the documented label and `GetCurve` maps the label back to
the curve; exactly the labels 1-5 and 20 are known, every other byte is an error. -/
theorem C23_labels (E : Ext) (hE : GoodName E.k1name) :
    (∀ c l, CurveLabel E.k1name c l → getCurveLabel E c = .ok l ∧ getCurve E l = .ok c) ∧
    (∀ l : Byte, (∃ c, getCurve E l = .ok c ∧ getCurveLabel E c = .ok l) ↔
      l ∈ ([1, 2, 3, 4, 5, 20] : List Byte)) ∧
    (∀ l : Byte, l ∉ ([1, 2, 3, 4, 5, 20] : List Byte) → ∃ m, getCurve E l = .err m) := by
  refine ⟨fun c l h => ⟨getCurveLabel_label E hE h, getCurve_label E h⟩, fun l => ⟨?_, ?_⟩, fun l h => ?_⟩
  · rintro ⟨c, h, _⟩
    cases label_of_getCurve E h <;> decide
  · intro h
    simp only [List.mem_cons, List.not_mem_nil, or_false] at h
    rcases h with rfl | rfl | rfl | rfl | rfl | rfl
    exacts [⟨_, rfl, getCurveLabel_label E hE .p224⟩, ⟨_, rfl, getCurveLabel_label E hE .p256⟩,
      ⟨_, rfl, getCurveLabel_label E hE .p384⟩, ⟨_, rfl, getCurveLabel_label E hE .p521⟩,
      ⟨_, rfl, getCurveLabel_label E hE .k1⟩, ⟨_, rfl, getCurveLabel_label E hE .sm2⟩]
  · cases hg : getCurve E l with
    | ok c =>
      exfalso
      apply h
      cases label_of_getCurve E hg <;> decide
    | err m => exact ⟨m, rfl⟩
    | panic m => exact absurd hg (getCurve_not_panic E l m)

/-- The two letters outside ASCII whose upper case is an ASCII letter count as that letter: U+017F (long s)
and U+0131 (dotless i). -/
def plainLetter (ch : Char) : Char := if ch = 'ſ' then 's' else if ch = 'ı' then 'i' else ch

/-- Equality of a string with a name up to case (`Char.toUpper` changes the letters a to z only). -/
def sameName (s t : String) : Prop :=
  s.toList.map (fun ch => (plainLetter ch).toUpper) = t.toList.map Char.toUpper

theorem upperChar_plain (ch : Char) : upperChar ch = (plainLetter ch).toUpper := by
  unfold plainLetter
  split
  · rename_i h; subst h; decide +kernel
  · split
    · rename_i h; subst h; decide +kernel
    · rename_i h1 h2
      by_cases ha : ch.toNat < 128
      · exact upperChar_ascii ch ha
      · have hz : ¬ ch ≤ 'z' := fun h => ha (lt_of_le_of_lt (show ch.toNat ≤ 122 from h) (by omega))
        have hz' : ¬ ch.toNat ≤ 122 := fun h => hz h
        unfold upperChar
        rw [if_neg (fun h => hz h.2), if_neg h1, if_neg h2]
        unfold Char.toUpper
        rw [dif_neg]
        rintro ⟨_, h⟩
        exact hz h

/-- **C23** (names): for every string, `GetNamedCurveLabel` returns the label of the curve with that
name, ignoring case; the empty name stands for secp256k1; every other name is an error. -/
theorem C23_names (E : Ext) (hE : GoodName E.k1name) (name : String) :
    (∀ l, getNamedCurveLabel E name = .ok l ↔
      (∃ c, CurveLabel E.k1name c l ∧ sameName name c.name) ∨ (name = "" ∧ l = 5)) ∧
    (∀ c, getNamedCurve E name = .ok c ↔
      ∃ l, getNamedCurveLabel E name = .ok l ∧ CurveLabel E.k1name c l) ∧
    (∀ m, getNamedCurveLabel E name ≠ .panic m ∧ getNamedCurve E name ≠ .panic m) := by
  have hup : toUpper name = name.toList.map fun ch => (plainLetter ch).toUpper :=
    List.map_congr_left fun c _ => upperChar_plain c
  have hcmp : ∀ t : String, (∀ ch ∈ t.toList, ch.toNat < 128) →
      (toUpper name = toUpper t ↔ sameName name t) := by
    intro t ht
    rw [hup, toUpper_ascii t ht]; rfl
  have hnil : toUpper name = [] ↔ name = "" := by
    unfold toUpper
    rw [List.map_eq_nil_iff, String.toList_eq_nil_iff]
  have k1ascii : ∀ ch ∈ E.k1name.toList, ch.toNat < 128 := by
    rcases hE with h | h <;> rw [h] <;> decide +kernel
  have e1 := hcmp Curves.p224.name (by decide +kernel)
  have e2 := hcmp Curves.p256.name (by decide +kernel)
  have e3 := hcmp Curves.p384.name (by decide +kernel)
  have e4 := hcmp Curves.p521.name (by decide +kernel)
  have e5 := hcmp Curves.sm2.name (by decide +kernel)
  have e6 := hcmp E.k1name k1ascii
  have hlab : ∀ l, getNamedCurveLabel E name = .ok l ↔
      (∃ c, CurveLabel E.k1name c l ∧ sameName name c.name) ∨ (name = "" ∧ l = 5) := by
    intro l
    -- two names that match the same string belong to the same curve
    have huniq : ∀ c c' l l', CurveLabel E.k1name c l → CurveLabel E.k1name c' l' →
        sameName name c.name → sameName name c'.name → l = l' := by
      intro c c' l l' h h' hn hn'
      have hc : getCurveLabel E c = getCurveLabel E c' := by
        unfold getCurveLabel
        have ha : ∀ c l, CurveLabel E.k1name c l → ∀ ch ∈ c.name.toList, ch.toNat < 128 := by
          intro c l h
          cases h with
          | k1 => exact k1ascii
          | _ => decide +kernel
        apply getNamedCurveLabel_congr
        rw [toUpper_ascii _ (ha c l h), toUpper_ascii _ (ha c' l' h')]
        exact hn.symm.trans hn'
      rw [getCurveLabel_label E hE h, getCurveLabel_label E hE h'] at hc
      simpa using hc
    constructor
    · intro h
      unfold getNamedCurveLabel at h
      simp only at h
      split at h
      · rename_i h'; simp only [Res.ok.injEq] at h; subst h; exact Or.inl ⟨_, .p224, e1.1 h'⟩
      · split at h
        · rename_i h'; simp only [Res.ok.injEq] at h; subst h; exact Or.inl ⟨_, .p256, e2.1 h'⟩
        · split at h
          · rename_i h'; simp only [Res.ok.injEq] at h; subst h; exact Or.inl ⟨_, .p384, e3.1 h'⟩
          · split at h
            · rename_i h'; simp only [Res.ok.injEq] at h; subst h; exact Or.inl ⟨_, .p521, e4.1 h'⟩
            · split at h
              · rename_i h'; simp only [Res.ok.injEq] at h; subst h; exact Or.inl ⟨_, .sm2, e5.1 h'⟩
              · split at h
                · rename_i h'; simp only [Res.ok.injEq] at h; subst h; exact Or.inl ⟨_, .k1, e6.1 h'⟩
                · split at h
                  · rename_i h'; simp only [Res.ok.injEq] at h; subst h; exact Or.inr ⟨hnil.1 h', rfl⟩
                  · simp at h
    · rintro (⟨c, hc, hn⟩ | ⟨rfl, rfl⟩)
      · have : toUpper name = toUpper c.name := by
          cases hc
          exacts [e1.2 hn, e2.2 hn, e3.2 hn, e4.2 hn, e6.2 hn, e5.2 hn]
        rw [getNamedCurveLabel_congr E this]
        exact getCurveLabel_label E hE hc
      · rw [getNamedCurveLabel_eq]
        rcases hE with h | h <;> rw [h] <;> decide +kernel
  have hnp : ∀ m, getNamedCurveLabel E name ≠ .panic m := by
    intro m
    unfold getNamedCurveLabel
    simp only
    repeat' split
    all_goals simp
  refine ⟨hlab, fun c => ⟨?_, ?_⟩, fun m => ⟨hnp m, ?_⟩⟩
  · intro h
    unfold getNamedCurve at h
    cases hl : getNamedCurveLabel E name with
    | ok l => rw [hl] at h; exact ⟨l, rfl, label_of_getCurve E h⟩
    | err m => rw [hl] at h; simp at h
    | panic m => rw [hl] at h; simp at h
  · rintro ⟨l, h1, h2⟩
    unfold getNamedCurve
    rw [h1]
    exact getCurve_label E h2
  · unfold getNamedCurve
    cases hl : getNamedCurveLabel E name with
    | ok l => exact getCurve_not_panic E l m
    | err m => simp
    | panic m => exact absurd hl (hnp m)

/-- For example, a name with the letter U+017F (long s) is taken for the SM2 curve. -/
theorem C23_long_s_accepted (E : Ext) : getNamedCurveLabel E "ſm2p256v1" = .ok 20 := by
  have h : ∀ k, labelOf k "ſm2p256v1" = .ok 20 := by
    intro k
    unfold labelOf getNamedCurveLabel
    simp only
    rw [if_neg (by decide +kernel), if_neg (by decide +kernel), if_neg (by decide +kernel),
      if_neg (by decide +kernel), if_pos (by decide +kernel)]
  exact h E.k1name

end Verif.Props
