import Verif.Props.KeyShape

/-!
# All encodings of a key (C14, C64, C112), all accepted scalars (C63), all refused options (C76)
-/
namespace Verif.Props
open Verif Verif.EC Verif.Keypair Verif.Spec

/-- The two SEC 1 forms of a point, followed by any bytes. -/
def PointForm (pub : ECPub) (data : Bytes) : Prop :=
  ∃ extra, data = sec1Compressed pub.curve.byteSize pub.x pub.y ++ extra ∨
    data = sec1Uncompressed pub.curve.byteSize pub.x pub.y ++ extra

theorem decode_form {k1name : String} {c : Curve} (hF : GoodField c) {data : Bytes} {draws : List Nat}
    {pub : ECPub} (h : decodePublicKey k1name data (some c) draws = some (.ok pub)) : PointForm pub data := by
  rcases decode_ok_cases k1name c data draws pub h with ⟨xb, yb, rest, rfl, hx, hy, rfl⟩ | ⟨tag, xb, rest, rfl, ht, hx, hd⟩
  · refine ⟨rest, Or.inr ?_⟩
    unfold sec1Uncompressed
    rw [← hx, beFix_natOfBytes, hx, ← hy, beFix_natOfBytes, List.cons_append]
  · have htag : (tag &&& 1).toNat < 2 := by rcases ht with rfl | rfl <;> decide
    obtain ⟨h1, h2, _, h4, _⟩ := deCompress_ok k1name _ htag xb c hF.prime hF.odd _ pub hd
    refine ⟨rest, Or.inl ?_⟩
    unfold sec1Compressed
    rw [h1, h2, ← hx, beFix_natOfBytes, List.cons_append, h4]
    rcases ht with rfl | rfl <;> rfl

theorem decode_of_form {k1name : String} (hk : k1name = "" ∨ k1name = "secp256k1") {pub : ECPub}
    (hc : pub.curve ∈ Curves.all k1name) (hv : ValidPoint k1name pub) {data : Bytes} (hd : PointForm pub data)
    {draws : List Nat} (hg : pub.curve ≠ Curves.p224 ∨ ∃ d ∈ draws, GoodDraw pub.curve.P pub.y d) :
    decodePublicKey k1name data (some pub.curve) draws = some (.ok pub) := by
  have hF := supported_goodField k1name _ hc
  obtain ⟨extra, rfl | rfl⟩ := hd
  · obtain ⟨d, _, rfl, hd⟩ := C10_supported_curves k1name hk pub hc hv
    exact C14_trailing_bytes_accepted _ _ _ _ _ _ ((hd draws).2 hg)
  · obtain ⟨d, _, rfl, hd⟩ := C11_uncompressed_roundtrip k1name pub draws (hv.x_lt.trans_le hF.fits)
      (hv.y_lt.trans_le hF.fits)
    exact C14_trailing_bytes_accepted _ _ _ _ _ _ hd

/-- **C14** The exact set of strings that decode to a given point of a supported curve: its compressed and its
uncompressed SEC 1 form, each followed by any bytes. (On P-224 a compressed form decodes once a suitable random
draw has occurred.) -/
theorem C14_encodings (k1name : String) (hk : k1name = "" ∨ k1name = "secp256k1") (pub : ECPub)
    (hc : pub.curve ∈ Curves.all k1name) (hv : ValidPoint k1name pub) (data : Bytes) (draws : List Nat) :
    (decodePublicKey k1name data (some pub.curve) draws = some (.ok pub) →
      ∃ extra, data = sec1Compressed pub.curve.byteSize pub.x pub.y ++ extra ∨
        data = sec1Uncompressed pub.curve.byteSize pub.x pub.y ++ extra) ∧
    ((∃ extra, data = sec1Compressed pub.curve.byteSize pub.x pub.y ++ extra ∨
        data = sec1Uncompressed pub.curve.byteSize pub.x pub.y ++ extra) →
      (pub.curve ≠ Curves.p224 ∨ ∃ d ∈ draws, GoodDraw pub.curve.P pub.y d) →
      decodePublicKey k1name data (some pub.curve) draws = some (.ok pub)) :=
  ⟨decode_form (supported_goodField k1name _ hc), fun hd hg => decode_of_form hk hc hv hd hg⟩

/-- The strings that are taken for an EC public key: type byte, curve label and one of the two SEC 1 forms; for
an ECDSA key on P-256 also the form alone; each followed by any bytes. -/
def PublicForm (k1name : String) (alg : Alg) (pub : ECPub) (data : Bytes) : Prop :=
  (∃ t l body, data = t :: l :: body ∧ ((t = 0x12 ∧ alg = .ecdsa) ∨ (t = 0x13 ∧ alg = .sm2)) ∧
    CurveLabel k1name pub.curve l ∧ PointForm pub body) ∨
  (alg = .ecdsa ∧ pub.curve = Curves.p256 ∧ PointForm pub data)

/-- **C64** The exact set of strings that parse to a given valid EC public key. -/
theorem C64_encodings (E : Ext) (hE : GoodName E.k1name) (alg : Alg) (pub : ECPub)
    (hv : ValidPublic E (.ec alg pub)) (data : Bytes) (draws : List Nat) :
    (deserializePublicKey E data draws = some (.ok (.ec alg pub)) → PublicForm E.k1name alg pub data) ∧
    (PublicForm E.k1name alg pub data → DrawsSuffice draws (.ec alg pub) →
      deserializePublicKey E data draws = some (.ok (.ec alg pub))) := by
  obtain ⟨halg, hc, hp⟩ := hv
  have hF := supported_goodField E.k1name _ hc
  constructor
  · intro h
    rcases C75_parsed_public E data draws _ h with ⟨t, l, body, c, alg', x, y, rfl, hl, ht, hk, hd⟩ |
      ⟨_, _, h, _⟩ | ⟨t, body, x, y, hdata, _, hk, hd⟩ | ⟨_, _, _, _, _, h, _⟩
    · cases hk
      exact Or.inl ⟨t, l, body, rfl, ht, hl, decode_form hF hd⟩
    · cases h
    · cases hk
      exact Or.inr ⟨rfl, rfl, decode_form hF hd⟩
    · cases h
  · rintro (⟨t, l, body, rfl, ht, hl, hb⟩ | ⟨rfl, hcv, hb⟩) hg
    · have hd := decode_of_form hE hc hp hb hg
      have hlen : 2 ≤ body.length := by
        obtain ⟨extra, rfl | rfl⟩ := hb
        all_goals
          simp only [sec1Compressed, sec1Uncompressed, List.length_append, List.length_cons, beFix_length]
          have := hF.fits
          have h2 := hF.prime.two_le
          have : pub.curve.byteSize ≠ 0 := by intro h; rw [h] at this; omega
          omega
      unfold deserializePublicKey
      rw [if_neg (by simp only [List.length_cons]; omega)]
      simp only [List.getD_cons_zero, List.getD_cons_succ, List.drop_succ_cons, List.drop_zero]
      rcases ht with ⟨rfl, rfl⟩ | ⟨rfl, rfl⟩
      · rw [if_pos (Or.inl rfl), getCurve_label E hl]
        simp only
        rw [hd]; rfl
      · rw [if_pos (Or.inr rfl), getCurve_label E hl]
        simp only
        rw [hd]; rfl
    · have hd := decode_of_form hE hc hp hb hg
      rw [hcv] at hd
      have htag : (data.getD 0 0 = 2 ∨ data.getD 0 0 = 3 ∨ data.getD 0 0 = 4) ∧ 3 < data.length := by
        obtain ⟨extra, rfl | rfl⟩ := hb
        · rw [hcv]
          simp only [sec1Compressed, List.cons_append, List.getD_cons_zero, List.length_cons, List.length_append,
            beFix_length, p256_byteSize]
          refine ⟨?_, by omega⟩
          split
          · exact Or.inr (Or.inl rfl)
          · exact Or.inl rfl
        · rw [hcv]
          simp only [sec1Uncompressed, List.cons_append, List.getD_cons_zero, List.length_cons, List.length_append,
            beFix_length, p256_byteSize]
          exact ⟨Or.inr (Or.inr trivial), by omega⟩
      unfold deserializePublicKey
      rw [if_neg (by omega)]
      simp only
      have h0 : ¬ (data.getD 0 0 = PK_ECDSA ∨ data.getD 0 0 = PK_SM2) := by
        rcases htag.1 with e | e | e <;> rw [e] <;> decide
      have h1 : ¬ data.getD 0 0 = PK_EDDSA := by rcases htag.1 with e | e | e <;> rw [e] <;> decide
      rw [if_neg h0, if_neg h1, if_pos htag.1, hd]
      rfl

/-- **C112** The exact set of strings that parse to a given valid EC private key: type byte, curve label, the
scalar in the length of the field, one of the two SEC 1 forms of the public half, and any bytes (but a total of
at least three bytes more than twice the length of the field, which every form of a public half has). -/
theorem C112_private_encodings (E : Ext) (hE : GoodName E.k1name) (alg : Alg) (priv : ECPriv)
    (hv : ValidPrivate E (.ec alg priv)) (data : Bytes) (draws : List Nat) :
    (deserializePrivateKey E data draws = some (.ok (some (.ec alg priv))) →
      ∃ t l body, data = t :: l :: (beFix priv.pub.curve.byteSize priv.D ++ body) ∧
        ((t = 0x12 ∧ alg = .ecdsa) ∨ (t = 0x13 ∧ alg = .sm2)) ∧ CurveLabel E.k1name priv.pub.curve l ∧
        PointForm priv.pub body) ∧
    ((∃ t l body, data = t :: l :: (beFix priv.pub.curve.byteSize priv.D ++ body) ∧
        ((t = 0x12 ∧ alg = .ecdsa) ∨ (t = 0x13 ∧ alg = .sm2)) ∧ CurveLabel E.k1name priv.pub.curve l ∧
        PointForm priv.pub body) → DrawsSuffice draws (.ec alg priv.pub) →
      deserializePrivateKey E data draws = some (.ok (some (.ec alg priv)))) := by
  obtain ⟨halg, hc, hD, hxy, hp⟩ := hv
  have hF := supported_goodField E.k1name _ hc
  constructor
  · intro h
    have hlen := h
    rcases C62_parsed_consistent E data draws _ h with ⟨t, l, body, c, alg', x, y, rfl, hl, ht, hk, _, hd⟩ |
      ⟨_, _, h, _⟩ | ⟨_, _, _, _, _, h, _⟩
    · cases hk
      refine ⟨t, l, body.drop c.byteSize, ?_, ht, hl, decode_form hF hd⟩
      have hb : (body.take c.byteSize).length = c.byteSize := by
        unfold deserializePrivateKey at hlen
        have ht' : t = PK_ECDSA ∨ t = PK_SM2 := by
          rcases ht with ⟨h, _⟩ | ⟨h, _⟩
          · exact Or.inl h
          · exact Or.inr h
        simp only [if_pos ht', getCurve_label E hl] at hlen
        split at hlen
        · cases hlen
        · rename_i hlt
          simp only [List.length_cons] at hlt
          rw [List.length_take]
          omega
      simp only
      conv_lhs => rw [← List.take_append_drop c.byteSize body]
      congr 3
      have := beFix_natOfBytes (body.take c.byteSize)
      rw [hb] at this
      exact this.symm
    · cases h
    · cases h
  · rintro ⟨t, l, body, rfl, ht, hl, hb⟩ hg
    have hd := decode_of_form hE hc hp hb hg
    have hlen : priv.pub.curve.byteSize + 1 ≤ body.length := by
      obtain ⟨extra, rfl | rfl⟩ := hb
      all_goals
        simp only [sec1Compressed, sec1Uncompressed, List.length_append, List.length_cons, beFix_length]
        omega
    have ht' : t = PK_ECDSA ∨ t = PK_SM2 := by
      rcases ht with ⟨h, _⟩ | ⟨h, _⟩
      · exact Or.inl h
      · exact Or.inr h
    have halg' : (if t = PK_ECDSA then Alg.ecdsa else .sm2) = alg := by
      rcases ht with ⟨rfl, rfl⟩ | ⟨rfl, rfl⟩ <;> rfl
    have hkey : constructPrivateKey E (beFix priv.pub.curve.byteSize priv.D) priv.pub.curve = priv := by
      unfold constructPrivateKey
      simp only [natOfBytes_beFix_of_lt hD]
      rw [← hxy]
    unfold deserializePrivateKey
    simp only [if_pos ht', getCurve_label E hl]
    rw [if_neg (by simp only [List.length_cons, List.length_append, beFix_length]; omega),
      List.take_left' (beFix_length _ _), List.drop_left' (beFix_length _ _), hd, hkey, halg']
    simp

/-- **C112** does not hold for EC keys: bytes after the serialization of a valid key are ignored, so it has other
encodings. -/
theorem C112_second_encoding (E : Ext) (hE : GoodName E.k1name) (alg : Alg) (priv : ECPriv)
    (hv : ValidPrivate E (.ec alg priv)) (hc : priv.pub.curve ≠ Curves.p224) (draws : List Nat) :
    ∃ d₁ d₂, d₁ ≠ d₂ ∧ serializePrivateKey E (.ec alg priv) = .ok d₁ ∧
      deserializePrivateKey E d₁ draws = some (.ok (some (.ec alg priv))) ∧
      deserializePrivateKey E d₂ draws = some (.ok (some (.ec alg priv))) := by
  obtain ⟨d, hs, hf, hd⟩ := C17_private_roundtrip E hE _ hv
  have hg : DrawsSuffice draws (.ec alg priv.pub) := Or.inl hc
  have hd := (hd draws).2 hg
  refine ⟨d, d ++ [0], by simp, hs, hd, ?_⟩
  obtain ⟨t, l, body, rfl, ht, hl, e, hb⟩ := (C112_private_encodings E hE alg priv hv d draws).1 hd
  refine (C112_private_encodings E hE alg priv hv _ draws).2 ⟨t, l, body ++ [0], by simp, ht, hl, e ++ [0], ?_⟩ hg
  rcases hb with rfl | rfl
  · exact Or.inl (by rw [List.append_assoc])
  · exact Or.inr (by rw [List.append_assoc])

/-- **C112 (partial)**: Ed25519 and Ethereum private keys have exactly one accepted encoding. Missing: EC keys, for
which it is false (`C112_second_encoding`); all their encodings are given by `C112_private_encodings`. -/
theorem C112_canonical_partial (E : Ext) (d₁ d₂ : Bytes) (draws₁ draws₂ : List Nat) (k : PrivateKey)
    (hk : (∃ b, k = .ed b) ∨ ∃ p, k = .eth p)
    (h₁ : deserializePrivateKey E d₁ draws₁ = some (.ok (some k)))
    (h₂ : deserializePrivateKey E d₂ draws₂ = some (.ok (some k))) : d₁ = d₂ := by
  rcases C62_parsed_consistent E d₁ draws₁ k h₁ with ⟨_, _, _, _, _, _, _, _, _, _, rfl, _⟩ | ⟨b, rfl, rfl, _⟩ |
    ⟨b, D, x, y, rfl, rfl, hl, hD, _⟩
  · rcases hk with ⟨_, h⟩ | ⟨_, h⟩ <;> cases h
  · rcases C62_parsed_consistent E d₂ draws₂ _ h₂ with ⟨_, _, _, _, _, _, _, _, _, _, h, _⟩ | ⟨b', rfl, h, _⟩ |
      ⟨_, _, _, _, _, h, _⟩
    · cases h
    · cases h; rfl
    · cases h
  · rcases C62_parsed_consistent E d₂ draws₂ _ h₂ with ⟨_, _, _, _, _, _, _, _, _, _, h, _⟩ | ⟨b', _, h, _⟩ |
      ⟨b', D', x', y', rfl, h, hl', hD', _⟩
    · cases h
    · cases h
    · cases h
      rw [natOfBytes_inj (by rw [hl, hl']) (hD.trans hD'.symm)]

/-- **C63** The scalars that are accepted for EC keys, on every supported curve: all numbers of the length of the
field, zero and the multiples of the order included. -/
theorem C63_scalars_iff (E : Ext) (hE : GoodName E.k1name) (c : Curve) (l : Byte) (hl : CurveLabel E.k1name c l)
    (hbase : LawfulBase c (curveA E.k1name c) (E.baseMult c)) (alg : Alg) (halg : alg = .ecdsa ∨ alg = .sm2)
    (D : Nat) (draws : List Nat) :
    (∃ data pub, deserializePrivateKey E data draws = some (.ok (some (.ec alg ⟨D, pub⟩))) ∧ pub.curve = c) ↔
      D < 256 ^ c.byteSize := by
  constructor
  · rintro ⟨data, pub, h, hc⟩
    rcases C62_parsed_consistent E data draws _ h with ⟨t, l, body, c', alg', x, y, _, _, _, hk, _⟩ |
      ⟨_, _, h, _⟩ | ⟨_, _, _, _, _, h, _⟩
    · cases hk
      subst hc
      refine (natOfBytes_lt _).trans_le (Nat.pow_le_pow_right (by omega) ?_)
      rw [List.length_take]
      exact min_le_left _ _
    · cases h
    · cases h
  · intro hD
    have hmem : c ∈ Curves.all E.k1name := by cases hl <;> simp [Curves.all]
    have hF := supported_goodField E.k1name c hmem
    have hg := good_of_mem E.k1name hE c hmem
    have := hg.fact
    obtain ⟨G, hG⟩ := hg.exists_G
    have hb := hbase G hG D
    obtain ⟨hx, hy⟩ : (E.baseMult c D).1 < c.P ∧ (E.baseMult c D).2 < c.P := by
      rw [hb]
      by_cases h0 : D • G = 0
      · rw [h0]; exact ⟨hF.prime.pos, hF.prime.pos⟩
      · exact (Affine.xy_onCurve _ h0).2
    obtain ⟨d, _, rfl, hd⟩ := C11_uncompressed_roundtrip E.k1name ⟨c, (E.baseMult c D).1, (E.baseMult c D).2⟩ draws
      (hx.trans_le hF.fits) (hy.trans_le hF.fits)
    have hkey : constructPrivateKey E (beFix c.byteSize D) c = ⟨D, ⟨c, (E.baseMult c D).1, (E.baseMult c D).2⟩⟩ := by
      unfold constructPrivateKey
      simp only [natOfBytes_beFix_of_lt hD]
    refine ⟨(if alg = .ecdsa then 0x12 else 0x13) :: l :: (beFix c.byteSize D ++
      sec1Uncompressed c.byteSize (E.baseMult c D).1 (E.baseMult c D).2), ⟨c, (E.baseMult c D).1, (E.baseMult c D).2⟩,
      ?_, rfl⟩
    generalize ht : (if alg = .ecdsa then (0x12 : Byte) else 0x13) = t
    have ht' : t = PK_ECDSA ∨ t = PK_SM2 := by
      rcases halg with rfl | rfl
      · exact Or.inl ht.symm
      · exact Or.inr ht.symm
    have halg' : (if t = PK_ECDSA then Alg.ecdsa else .sm2) = alg := by
      rcases halg with rfl | rfl <;> subst ht <;> rfl
    unfold deserializePrivateKey
    simp only [if_pos ht', getCurve_label E hl]
    rw [if_neg (by simp only [List.length_cons, List.length_append, beFix_length, sec1Uncompressed]; omega),
      List.take_left' (beFix_length _ _), List.drop_left' (beFix_length _ _), hd, hkey, halg']
    simp

/-- **C76** Every other combination of algorithm and option is refused with an error: generation succeeds only for
ECDSA and SM2 with a known curve label, Ed25519 with its label, and Ethereum with any option. It never panics. -/
theorem C76_refused (E : Ext) (t : Byte) (opts : Opts) (reads : List Bytes) :
    (¬ (((t = 0x12 ∨ t = 0x13) ∧ ∃ l c, opts = .byte l ∧ CurveLabel E.k1name c l) ∨
        (t = 0x14 ∧ opts = .byte 25) ∨ t = 0x15) →
      ∃ m, generateKeyPair E t opts reads = some (.err m)) ∧
    ∀ m, generateKeyPair E t opts reads ≠ some (.panic m) := by
  have hcurve : ∀ l, (∃ c, getCurve E l = .ok c ∧ CurveLabel E.k1name c l) ∨ ∃ m, getCurve E l = .err m := by
    intro l
    cases hg : getCurve E l with
    | ok c => exact Or.inl ⟨c, rfl, label_of_getCurve E hg⟩
    | err m => exact Or.inr ⟨m, rfl⟩
    | panic m => exact absurd hg (getCurve_not_panic E l m)
  unfold generateKeyPair
  split
  · rename_i ht
    cases opts with
    | other => exact ⟨fun _ => ⟨_, rfl⟩, fun m h => by cases h⟩
    | byte l =>
      rcases hcurve l with ⟨c, hc, hl⟩ | ⟨m, hm⟩
      · refine ⟨fun h => absurd (Or.inl ⟨ht, l, c, rfl, hl⟩) h, fun m h => ?_⟩
        simp only [hc, Option.map_eq_some_iff] at h
        obtain ⟨_, _, h⟩ := h
        cases h
      · simp only [hm]
        exact ⟨fun _ => ⟨_, rfl⟩, fun m h => by cases h⟩
  · rename_i h1
    split
    · rename_i ht
      cases opts with
      | other => exact ⟨fun _ => ⟨_, rfl⟩, fun m h => by cases h⟩
      | byte l =>
        simp only
        split
        · rename_i hl
          refine ⟨fun h => absurd (Or.inr (Or.inl ⟨ht, by rw [hl]⟩)) h, fun m h => ?_⟩
          cases reads <;> cases h
        · exact ⟨fun _ => ⟨_, rfl⟩, fun m h => by cases h⟩
    · split
      · rename_i ht
        refine ⟨fun h => absurd (Or.inr (Or.inr ht)) h, fun m h => ?_⟩
        cases reads <;> cases h
      · exact ⟨fun _ => ⟨_, rfl⟩, fun m h => by cases h⟩

/-! ## Non-vacuity -/

/-- Three encodings of the SM2 base point as a public key, and a string that is none. -/
example :
    deserializePublicKey refExt (0x13 :: 20 :: sec1Compressed 32 Curves.sm2.Gx Curves.sm2.Gy) [] =
      some (.ok (.ec .sm2 ⟨Curves.sm2, Curves.sm2.Gx, Curves.sm2.Gy⟩)) ∧
    deserializePublicKey refExt (0x13 :: 20 :: sec1Compressed 32 Curves.sm2.Gx Curves.sm2.Gy ++ [7]) [] =
      some (.ok (.ec .sm2 ⟨Curves.sm2, Curves.sm2.Gx, Curves.sm2.Gy⟩)) ∧
    deserializePublicKey refExt (0x13 :: 20 :: sec1Uncompressed 32 Curves.sm2.Gx Curves.sm2.Gy) [] =
      some (.ok (.ec .sm2 ⟨Curves.sm2, Curves.sm2.Gx, Curves.sm2.Gy⟩)) ∧
    deserializePublicKey refExt (sec1Compressed 32 Curves.sm2.Gx Curves.sm2.Gy) [] ≠
      some (.ok (.ec .sm2 ⟨Curves.sm2, Curves.sm2.Gx, Curves.sm2.Gy⟩)) := by
  refine ⟨by decide +kernel, by decide +kernel, by decide +kernel, by decide +kernel⟩

/-- The hypotheses of C112 are met by a key with `D = 2`, and C63 by the SM2 curve: zero is accepted. -/
example : (∃ priv, priv.pub.curve ≠ Curves.p224 ∧ ValidPrivate refExt (.ec .sm2 priv)) ∧
    CurveLabel "" Curves.sm2 20 ∧
    deserializePrivateKey refExt (0x13 :: 20 :: (zeros 32 ++ 4 :: zeros 64)) [] =
      some (.ok (some (.ec .sm2 ⟨0, ⟨Curves.sm2, 0, 0⟩⟩))) := by
  refine ⟨?_, .sm2, by decide +kernel⟩
  have h : ValidPoint "" ⟨Curves.sm2, (refExt.baseMult Curves.sm2 2).1, (refExt.baseMult Curves.sm2 2).2⟩ :=
    ⟨by decide +kernel, by decide +kernel, by decide +kernel⟩
  generalize hq : refExt.baseMult Curves.sm2 2 = q at h
  exact ⟨⟨2, ⟨Curves.sm2, q.1, q.2⟩⟩, (by decide +kernel : Curves.sm2 ≠ Curves.p224), Or.inr rfl,
    (by decide +kernel : Curves.sm2 ∈ Curves.all ""), (by decide +kernel : 2 < 256 ^ Curves.sm2.byteSize), hq.symm, h⟩

/-- Refused options, and an accepted one. -/
example : generateKeyPair refExt 0x12 (.byte 9) [] = some (.err "key pair generation failed, unknown elliptic curve") ∧
    generateKeyPair refExt 0x11 (.byte 2) [] = some (.err "key pair generation failed, unknown algorithm") ∧
    ∃ k, generateKeyPair refExt 0x14 (.byte 25) [zeros 32] = some (.ok k) :=
  ⟨by decide +kernel, by decide +kernel, _, rfl⟩

end Verif.Props
