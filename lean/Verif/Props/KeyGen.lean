import Verif.Props.Keypair
import Verif.Lemmas.GoodCurve
/-!
# Key generation (C50), parsed private keys (C62, C63), canonical public keys (C64)
-/
namespace Verif.Props
open Verif Verif.EC Verif.Keypair Verif.Spec

/-- All supported curves have prime order. -/
theorem good_of_mem (k1name : String) (hk : GoodName k1name) (c : Curve) (hc : c ∈ Curves.all k1name) :
    GoodCurve c (curveA k1name c) := by
  simp only [Curves.all, List.mem_cons, List.not_mem_nil, or_false] at hc
  have key : ∀ c' : Curve, c'.name ≠ "" → c'.name ≠ "secp256k1" → curveA k1name c' = -3 := by
    intro c' h1 h2
    unfold curveA
    rw [if_neg]
    rcases hk with rfl | rfl <;> assumption
  rcases hc with rfl | rfl | rfl | rfl | rfl | rfl
  · rw [key _ (by decide) (by decide)]; exact good_p224
  · rw [key _ (by decide) (by decide)]; exact good_p256
  · rw [key _ (by decide) (by decide)]; exact good_p384
  · rw [key _ (by decide) (by decide)]; exact good_p521
  · rw [show curveA k1name (Curves.secp256k1 k1name) = 0 from if_pos rfl]; exact good_k1 k1name
  · rw [key _ (by decide) (by decide)]; exact good_sm2

theorem genScalar_lt (c : Curve) (reads : List Bytes) (D : Nat) (h : genScalar c reads = some D) : D < c.N := by
  induction reads with
  | nil => simp [genScalar] at h
  | cons b rest ih =>
    have key : ∀ v : Nat, (if v ≥ c.N then genScalar c rest else some v) = some D → D < c.N := by
      intro v hv
      split at hv
      · exact ih hv
      · simp only [Option.some.injEq] at hv
        omega
    exact key _ h

/-- **C50 (partial)**: whatever is read from the random source, a generated EC key pair has `D < n`, its
public half is `D·G`, and `ConstructPrivateKey` gives the same pair from any encoding of `D`. If `D ≠ 0`
the pair is valid: `D·G` is a proper point, so that C10, C15 and C17 apply to it.
Missing: `D = 0` is possible (`C50_zero_key_possible`). -/
theorem C50_generated_partial (E : Ext) (hE : GoodName E.k1name) (c : Curve) (hc : c ∈ Curves.all E.k1name)
    (hbase : LawfulBase c (curveA E.k1name c) (E.baseMult c)) (alg : Alg) (halg : alg = .ecdsa ∨ alg = .sm2)
    (reads : List Bytes) (priv : PrivateKey) (pub : PublicKey)
    (h : generateECKeyPair E c alg reads = some (priv, pub)) :
    ∃ D x y, priv = .ec alg ⟨D, ⟨c, x, y⟩⟩ ∧ pub = .ec alg ⟨c, x, y⟩ ∧ pub = priv.matching ∧ D < c.N ∧
      (∀ [Fact c.P.Prime] (G : Pt c (curveA E.k1name c)), xy G = (c.Gx, c.Gy) → (x, y) = xy (D • G)) ∧
      (∀ bytes, natOfBytes bytes = D → constructPrivateKey E bytes c = ⟨D, ⟨c, x, y⟩⟩) ∧
      (D ≠ 0 → ValidPrivate E priv ∧ ValidPublic E pub) := by
  unfold generateECKeyPair at h
  rw [Option.map_eq_some_iff] at h
  obtain ⟨D, hD, h⟩ := h
  simp only [Prod.mk.injEq] at h
  obtain ⟨rfl, rfl⟩ := h
  have hlt := genScalar_lt c reads D hD
  have hg := good_of_mem E.k1name hE c hc
  refine ⟨D, _, _, rfl, rfl, rfl, hlt, ?_, ?_, ?_⟩
  · intro _ G hG
    rw [← hbase G hG D]
  · intro bytes hb
    simp only [constructPrivateKey, hb]
  · intro h0
    haveI := hg.fact
    obtain ⟨G, hG⟩ := hg.exists_G
    have hne : D • G ≠ 0 := hg.smul_ne_zero (hg.G_ne_zero hG) (by omega) hlt
    have hb := hbase G hG D
    obtain ⟨hon, hx, hy⟩ := Affine.xy_onCurve _ hne
    have hv : ValidPoint E.k1name ⟨c, (E.baseMult c D).1, (E.baseMult c D).2⟩ := by
      rw [hb]; exact ⟨hx, hy, hon⟩
    have hN : c.N ≤ 256 ^ c.byteSize := by
      obtain ⟨l, hl⟩ := mem_all_iff.1 hc
      cases hl with
      | k1 => exact (show (Curves.secp256k1 "").N ≤ 256 ^ (Curves.secp256k1 "").byteSize by decide +kernel)
      | _ => decide +kernel
    exact ⟨⟨halg, hc, lt_of_lt_of_le hlt hN, rfl, hv⟩, halg, hc, hv⟩

/-- The scalar 0 is not excluded: there is a read for which the generated P-256 key has `D = 0` and the
point at infinity as public key. -/
theorem C50_zero_key_possible (E : Ext) (hbase : LawfulBase Curves.p256 (-3) (E.baseMult Curves.p256)) :
    ∃ reads, generateECKeyPair E Curves.p256 .ecdsa reads =
      some (.ec .ecdsa ⟨0, ⟨Curves.p256, 0, 0⟩⟩, .ec .ecdsa ⟨Curves.p256, 0, 0⟩) := by
  refine ⟨[0 :: 0x42 :: zeros 30], ?_⟩
  have h0 : genScalar Curves.p256 [0 :: 0x42 :: zeros 30] = some 0 := by decide +kernel
  haveI := good_p256.fact
  obtain ⟨G, hG⟩ := good_p256.exists_G
  have hb := hbase G hG 0
  rw [zero_smul, Affine.xy_zero] at hb
  unfold generateECKeyPair
  rw [h0]
  simp only [Option.map_some, hb]

/-- **C50** for Ethereum keys: `1 ≤ D < n` and the public half is `D·G`, for every read. -/
theorem C50_ethereum (E : Ext) (hbase : LawfulBase (ethCurve E) 0 (E.baseMult (ethCurve E))) (opts : Opts)
    (reads : List Bytes) (priv : PrivateKey) (pub : PublicKey)
    (h : generateKeyPair E 0x15 opts reads = some (.ok (priv, pub))) :
    ∃ D x y, priv = .eth ⟨D, ⟨ethCurve E, x, y⟩⟩ ∧ pub = .eth ⟨ethCurve E, x, y⟩ ∧
      1 ≤ D ∧ D < (ethCurve E).N ∧ ValidPrivate E priv ∧ ValidPublic E pub := by
  have hg : GoodCurve (ethCurve E) 0 := good_k1 E.ethname
  cases reads with
  | nil => cases h
  | cons b rest =>
    have h : some (Res.ok (PrivateKey.eth { D := ethScalar (ethCurve E) b, pub := ⟨ethCurve E,
        (E.baseMult (ethCurve E) (ethScalar (ethCurve E) b)).1,
        (E.baseMult (ethCurve E) (ethScalar (ethCurve E) b)).2⟩ }, PublicKey.eth ⟨ethCurve E,
        (E.baseMult (ethCurve E) (ethScalar (ethCurve E) b)).1,
        (E.baseMult (ethCurve E) (ethScalar (ethCurve E) b)).2⟩)) = some (.ok (priv, pub)) := h
    simp only [Option.some.injEq, Res.ok.injEq, Prod.mk.injEq] at h
    obtain ⟨rfl, rfl⟩ := h
    have hN : 2 ≤ (ethCurve E).N := show 2 ≤ (Curves.secp256k1 "").N by decide +kernel
    have h1 : 1 ≤ ethScalar (ethCurve E) b := Nat.le_add_left 1 _
    have h2 : ethScalar (ethCurve E) b < (ethCurve E).N := by
      have : natOfBytes b % ((ethCurve E).N - 1) < (ethCurve E).N - 1 := Nat.mod_lt _ (by omega)
      show natOfBytes b % ((ethCurve E).N - 1) + 1 < _
      omega
    generalize ethScalar (ethCurve E) b = D at h1 h2
    haveI := hg.fact
    obtain ⟨G, hG⟩ := hg.exists_G
    have hne : D • G ≠ 0 := hg.smul_ne_zero (hg.G_ne_zero hG) (by omega) h2
    obtain ⟨hon, hx, hy⟩ := Affine.xy_onCurve _ hne
    rw [← hbase G hG D] at hon hx hy
    exact ⟨D, _, _, rfl, rfl, h1, h2, ⟨rfl, h1, h2, rfl⟩, rfl, hx, hy, hon⟩

/-- **C62**: a successfully parsed private key is consistent: an EC key has the scalar and curve of the
input and its public half is `D·G`, an Ethereum key is in range with public half `D·G`, an Ed25519 key
consists of the input bytes and has at least 64 of them. -/
theorem C62_parsed_consistent (E : Ext) (data : Bytes) (draws : List Nat) (k : PrivateKey)
    (h : deserializePrivateKey E data draws = some (.ok (some k))) :
    (∃ t l body c alg x y, data = t :: l :: body ∧ CurveLabel E.k1name c l ∧
      ((t = 0x12 ∧ alg = .ecdsa) ∨ (t = 0x13 ∧ alg = .sm2)) ∧
      k = .ec alg ⟨natOfBytes (body.take c.byteSize), ⟨c, x, y⟩⟩ ∧
      (x, y) = E.baseMult c (natOfBytes (body.take c.byteSize)) ∧
      decodePublicKey E.k1name (body.drop c.byteSize) (some c) draws = some (.ok ⟨c, x, y⟩)) ∨
    (∃ b, data = 0x14 :: 25 :: b ∧ k = .ed b ∧ 64 ≤ b.length) ∨
    (∃ b D x y, data = 0x15 :: b ∧ k = .eth ⟨D, ⟨ethCurve E, x, y⟩⟩ ∧ b.length = 32 ∧ natOfBytes b = D ∧
      1 ≤ D ∧ D < (ethCurve E).N ∧ (x, y) = E.baseMult (ethCurve E) D) := by
  cases data with
  | nil => simp [deserializePrivateKey] at h
  | cons t rest =>
    by_cases ht : t = PK_ECDSA ∨ t = PK_SM2
    · left
      cases rest with
      | nil => unfold deserializePrivateKey at h; simp only [if_pos ht] at h; cases h
      | cons l body =>
        cases hg : getCurve E l with
        | err m => unfold deserializePrivateKey at h; simp only [if_pos ht, hg] at h; simp at h
        | panic m => exact absurd hg (getCurve_not_panic E l m)
        | ok c =>
          by_cases hlen : c.byteSize * 2 + 3 ≤ body.length + 2
          · rw [deserPriv_ec E t l body draws ht hg hlen, Option.map_eq_some_iff] at h
            obtain ⟨r, hr, hm⟩ := h
            cases r with
            | err m => simp at hm
            | panic m => simp at hm
            | ok p =>
              simp only at hm
              split at hm
              · simp at hm
              · rename_i hxy
                simp only [Res.ok.injEq, Option.some.injEq] at hm
                simp only [not_or, not_not] at hxy
                have hc : p.curve = c := by
                  rcases decode_ok_cases _ _ _ _ _ hr with ⟨_, _, _, _, _, _, rfl⟩ | ⟨tag, xb, _, _, _, _, hd⟩
                  · rfl
                  · exact deCompress_curve _ _ _ _ _ _ hd
                obtain ⟨pc, px, py⟩ := p
                simp only at hxy hc
                subst hc
                refine ⟨t, l, body, pc, if t = PK_ECDSA then .ecdsa else .sm2, px, py, rfl,
                  label_of_getCurve E hg, ?_, ?_, ?_, hr⟩
                · rcases ht with rfl | rfl
                  · exact Or.inl ⟨rfl, rfl⟩
                  · exact Or.inr ⟨rfl, rfl⟩
                · rw [← hm]
                  rw [← hxy.1, ← hxy.2]; rfl
                · rw [← hxy.1, ← hxy.2]; rfl
          · exfalso
            unfold deserializePrivateKey at h
            simp only [if_pos ht, hg] at h
            rw [if_pos (by simp only [List.length_cons]; omega)] at h
            simp at h
    · right
      unfold deserializePrivateKey at h
      simp only [if_neg ht] at h
      split at h
      · rename_i ht2
        left
        cases rest with
        | nil => simp at h
        | cons l body =>
          simp only at h
          split at h
          · rename_i hl
            split at h
            · simp at h
            · rename_i hlen
              simp only [Option.some.injEq, Res.ok.injEq] at h
              refine ⟨body, by rw [ht2, hl], h.symm, ?_⟩
              simp only [List.length_cons] at hlen
              omega
          · simp at h
      · split at h
        · rename_i ht3
          right
          cases hp : toECDSA E rest with
          | err m => rw [hp] at h; simp [Res.map] at h
          | panic m => rw [hp] at h; simp [Res.map] at h
          | ok p =>
            rw [hp] at h
            simp only [Res.map, Option.some.injEq, Res.ok.injEq] at h
            unfold toECDSA at hp
            simp only at hp
            split at hp
            · simp at hp
            · rename_i hlen
              split at hp
              · simp at hp
              · rename_i hN
                split at hp
                · simp at hp
                · rename_i h0
                  simp only [Res.ok.injEq] at hp
                  refine ⟨rest, natOfBytes rest, _, _, by rw [ht3], ?_, ?_, rfl, by omega, by omega, rfl⟩
                  · rw [← h, ← hp]
                  · simp only [not_not] at hlen
                    have : (ethCurve E).bitSize = 256 := rfl
                    omega
        · simp at h

/-- **C63** does not hold: on P-256 a scalar above the group order is accepted (`n + 1` with the base point
as public key), so one key pair has several accepted private keys. -/
theorem C63_out_of_range_accepted (E : Ext) (hE : GoodName E.k1name)
    (hbase : LawfulBase Curves.p256 (-3) (E.baseMult Curves.p256)) (draws : List Nat) :
    ∃ data D pub, deserializePrivateKey E data draws = some (.ok (some (.ec .ecdsa ⟨D, pub⟩))) ∧
      Curves.p256.N ≤ D := by
  haveI := good_p256.fact
  obtain ⟨G, hG⟩ := good_p256.exists_G
  have hb := hbase G hG (Curves.p256.N + 1)
  have hNG : (Curves.p256.N + 1) • G = 1 • G :=
    (good_p256.smul_eq_iff (good_p256.G_ne_zero hG) _ _).2 (by decide +kernel)
  rw [hNG, one_smul, hG] at hb
  have hval : ValidPrivate E (.ec .ecdsa ⟨Curves.p256.N + 1, ⟨Curves.p256, Curves.p256.Gx, Curves.p256.Gy⟩⟩) := by
    refine ⟨Or.inl rfl, by simp [Curves.all], (by decide +kernel : _ < _), hb.symm, ?_⟩
    refine ⟨(by decide +kernel : _ < _), (by decide +kernel : _ < _), ?_⟩
    have : curveA E.k1name Curves.p256 = -3 := by
      unfold curveA; rw [if_neg]; rcases hE with e | e <;> rw [e] <;> decide
    simp only [this]
    exact good_p256.g_on
  obtain ⟨data, _, _, h⟩ := C17_private_roundtrip E hE _ hval
  exact ⟨data, _, _, (h draws).2 (Or.inl (show Curves.p256 ≠ Curves.p224 by decide +kernel)), Nat.le_succ _⟩

/-- **C63 (partial)**: a parsed Ethereum private key is in `[1, n-1]`. Missing: EC keys, see
`C63_out_of_range_accepted`. -/
theorem C63_ethereum_in_range_partial (E : Ext) (data : Bytes) (draws : List Nat) (D : Nat) (pub : ECPub)
    (h : deserializePrivateKey E data draws = some (.ok (some (.eth ⟨D, pub⟩)))) :
    1 ≤ D ∧ D < pub.curve.N := by
  rcases C62_parsed_consistent E data draws _ h with ⟨_, _, _, _, _, _, _, _, _, _, h, _⟩ | ⟨_, _, h, _⟩ | ⟨b, D', x, y, _, h, _, _, h1, h2, _⟩
  · cases h
  · cases h
  · cases h; exact ⟨h1, h2⟩

/-- C64 does not hold: the documented serialization of an ECDSA P-256 key and the form with explicit type
and curve bytes both parse to the same key. -/
theorem C64_two_encodings (E : Ext) (hE : GoodName E.k1name) (x y : Nat)
    (hv : ValidPublic E (.ec .ecdsa ⟨Curves.p256, x, y⟩)) (draws : List Nat) :
    ∃ d₁ d₂, d₁ ≠ d₂ ∧ deserializePublicKey E d₁ draws = some (.ok (.ec .ecdsa ⟨Curves.p256, x, y⟩)) ∧
      deserializePublicKey E d₂ draws = some (.ok (.ec .ecdsa ⟨Curves.p256, x, y⟩)) := by
  obtain ⟨data, _, hf, hd⟩ := C15_public_roundtrip E hE _ hv
  obtain ⟨data', _, hdata', hd'⟩ := C10_supported_curves E.k1name hE ⟨Curves.p256, x, y⟩ hv.2.1 hv.2.2
  have hne : Curves.p256 ≠ Curves.p224 := by decide +kernel
  have hl : data'.length = 33 := by rw [hdata']; simp [sec1Compressed, beFix_length, p256_byteSize]
  refine ⟨data, 0x12 :: 2 :: data', ?_, (hd draws).2 (Or.inl hne), ?_⟩
  · intro e
    rw [e] at hf
    generalize hdd : (0x12 :: 2 :: data' : Bytes) = d at hf
    cases hf with
    | p256 =>
      simp only [sec1Compressed, List.cons.injEq] at hdd
      have := hdd.1
      split at this <;> exact absurd this (by decide)
    | ecdsa _ _ _ _ _ hc => exact hc rfl
  · have := (hd' draws).2 (Or.inl hne)
    unfold deserializePublicKey
    rw [if_neg (by simp [hl])]
    simp only [List.getD_cons_zero, List.getD_cons_succ, List.drop_succ_cons, List.drop_zero]
    rw [if_pos (Or.inl trivial), getCurve_label E (CurveLabel.p256)]
    simp only
    rw [this]
    rfl

/-- **C64 (partial)**: Ed25519 and Ethereum public keys have exactly one accepted encoding.
Missing: EC keys, see `C64_two_encodings` and `C14_trailing_bytes_accepted`. -/
theorem C64_canonical_partial (E : Ext) (d₁ d₂ : Bytes) (draws₁ draws₂ : List Nat) (k : PublicKey)
    (hk : (∃ b, k = .ed b) ∨ ∃ p, k = .eth p)
    (h₁ : deserializePublicKey E d₁ draws₁ = some (.ok k))
    (h₂ : deserializePublicKey E d₂ draws₂ = some (.ok k)) : d₁ = d₂ := by
  have key : ∀ d draws, deserializePublicKey E d draws = some (.ok k) →
      (∃ b, k = .ed b ∧ d = 0x14 :: 25 :: b) ∨
      (∃ p, k = .eth p ∧ d = 0x15 :: sec1Uncompressed 32 p.x p.y) := by
    intro d draws h
    cases d with
    | nil => simp [deserializePublicKey] at h
    | cons t rest =>
      unfold deserializePublicKey at h
      split at h
      · simp at h
      · simp only [List.getD_cons_zero, List.getD_cons_succ, List.drop_succ_cons, List.drop_zero] at h
        split at h
        · exfalso
          have : ∃ alg p, k = .ec alg p := by
            split at h
            · rw [Option.map_eq_some_iff] at h
              obtain ⟨r, _, hm⟩ := h
              cases r with
              | ok p => simp only [Res.map, Res.ok.injEq] at hm; exact ⟨_, _, hm.symm⟩
              | err m => simp [Res.map] at hm
              | panic m => simp [Res.map] at hm
            · simp at h
            · simp at h
          obtain ⟨_, _, rfl⟩ := this
          rcases hk with ⟨_, h⟩ | ⟨_, h⟩ <;> cases h
        · split at h
          · rename_i ht
            cases rest with
            | nil => simp at h
            | cons l body =>
              simp only [List.getD_cons_zero, List.drop_succ_cons, List.drop_zero] at h
              split at h
              · rename_i hl
                split at h
                · simp at h
                · simp only [Option.some.injEq, Res.ok.injEq] at h
                  left; exact ⟨body, h.symm, by rw [ht, hl]⟩
              · simp at h
          · split at h
            · exfalso
              rw [Option.map_eq_some_iff] at h
              obtain ⟨r, _, hm⟩ := h
              cases r with
              | ok p =>
                simp only [Res.ok.injEq] at hm
                subst hm
                rcases hk with ⟨_, h⟩ | ⟨_, h⟩ <;> cases h
              | err m => simp at hm
              | panic m => simp at hm
            · split at h
              · rename_i ht
                right
                cases hu : unmarshalPubkey E rest with
                | err m => rw [hu] at h; simp [Res.map] at h
                | panic m => rw [hu] at h; simp [Res.map] at h
                | ok p =>
                  rw [hu] at h
                  simp only [Res.map, Option.some.injEq, Res.ok.injEq] at h
                  refine ⟨p, h.symm, ?_⟩
                  rw [ht, unmarshal_ok E rest p hu]
              · simp at h
  rcases key d₁ draws₁ h₁ with ⟨b, hb, e₁⟩ | ⟨p, hp, e₁⟩
  · rcases key d₂ draws₂ h₂ with ⟨b', hb', e₂⟩ | ⟨p', hp', e₂⟩
    · rw [hb] at hb'; cases hb'; rw [e₁, e₂]
    · rw [hb] at hp'; cases hp'
  · rcases key d₂ draws₂ h₂ with ⟨b', hb', e₂⟩ | ⟨p', hp', e₂⟩
    · rw [hp] at hb'; cases hb'
    · rw [hp] at hp'; cases hp'; rw [e₁, e₂]

/-! ## Non-vacuity -/

/-- An external behaviour that meets all the contracts: the affine reference arithmetic. -/
def refExt : Ext where
  k1name := ""
  ethname := ""
  baseMult c k := Affine.smul c.P (if c.B = 7 then 0 else c.P - 3) k (c.Gx, c.Gy)
  edPublic b := b

theorem refExt_lawful : LawfulBase Curves.p256 (-3) (refExt.baseMult Curves.p256) ∧
    LawfulBase Curves.sm2 (-3) (refExt.baseMult Curves.sm2) ∧
    LawfulBase Curves.p224 (-3) (refExt.baseMult Curves.p224) ∧
    LawfulBase Curves.p384 (-3) (refExt.baseMult Curves.p384) ∧
    LawfulBase Curves.p521 (-3) (refExt.baseMult Curves.p521) ∧
    LawfulBase (ethCurve refExt) 0 (refExt.baseMult (ethCurve refExt)) :=
  ⟨(affineOps_lawful good_p256 _ Curves.p256_aN).base, (affineOps_lawful good_sm2 _ Curves.sm2_aN).base,
   (affineOps_lawful good_p224 _ Curves.p224_aN).base, (affineOps_lawful good_p384 _ Curves.p384_aN).base,
   (affineOps_lawful good_p521 _ Curves.p521_aN).base,
   (affineOps_lawful (good_k1 "") _ Curves.secp256k1_aN).base⟩

/-- Valid keys of every type exist. -/
example : ValidPublic refExt (.ec .ecdsa ⟨Curves.p256, Curves.p256.Gx, Curves.p256.Gy⟩) ∧
    ValidPublic refExt (.ec .sm2 ⟨Curves.sm2, Curves.sm2.Gx, Curves.sm2.Gy⟩) ∧
    ValidPublic refExt (.ed (zeros 32)) ∧
    ValidPublic refExt (.eth ⟨Curves.secp256k1 "", (Curves.secp256k1 "").Gx, (Curves.secp256k1 "").Gy⟩) := by
  refine ⟨⟨Or.inl rfl, by decide +kernel, ?_⟩, ⟨Or.inr rfl, by decide +kernel, ?_⟩, ?_, ?_⟩
  · exact ⟨by decide +kernel, by decide +kernel, by decide +kernel⟩
  · exact ⟨by decide +kernel, by decide +kernel, by decide +kernel⟩
  · simp [ValidPublic, zeros]
  · exact ⟨rfl, by decide +kernel, by decide +kernel, by decide +kernel⟩

/-- A private key that meets the hypothesis of C17: `D = 2` on the SM2 curve. -/
example : ∃ x y, ValidPrivate refExt (.ec .sm2 ⟨2, ⟨Curves.sm2, x, y⟩⟩) := by
  have h : ValidPoint "" ⟨Curves.sm2, (refExt.baseMult Curves.sm2 2).1, (refExt.baseMult Curves.sm2 2).2⟩ :=
    ⟨by decide +kernel, by decide +kernel, by decide +kernel⟩
  generalize hq : refExt.baseMult Curves.sm2 2 = q at h
  exact ⟨q.1, q.2, Or.inr rfl, (by decide +kernel : Curves.sm2 ∈ Curves.all ""), (by decide +kernel : 2 < 256 ^ Curves.sm2.byteSize), hq.symm, h⟩

/-- Parsing recognises a concrete key: serialization and parsing of an SM2 key. -/
example : ∃ data, serializePublicKey refExt (.ec .sm2 ⟨Curves.sm2, Curves.sm2.Gx, Curves.sm2.Gy⟩) = .ok data ∧
    data.length = 35 ∧ deserializePublicKey refExt data [] =
      some (.ok (.ec .sm2 ⟨Curves.sm2, Curves.sm2.Gx, Curves.sm2.Gy⟩)) :=
  ⟨0x13 :: 20 :: sec1Compressed 32 Curves.sm2.Gx Curves.sm2.Gy, by decide +kernel, by decide +kernel,
    by decide +kernel⟩

/-- Key generation succeeds on an ordinary read. -/
example : genScalar Curves.sm2 [List.replicate 32 1] ≠ none ∧ genScalar Curves.sm2 [List.replicate 32 1] ≠ some 0 := by
  decide +kernel

/-- `sort.Sort` has an implementation: insertion sort meets the contract. -/
def insertSorter : Sorter PublicKey where
  run lt l := l.foldr (fun a acc => ins lt a acc) []
where
  ins (lt : PublicKey → PublicKey → Bool) (a : PublicKey) : List PublicKey → List PublicKey
    | [] => [a]
    | b :: rest => if lt b a then b :: ins lt a rest else a :: b :: rest

theorem insertSorter_lawful : insertSorter.Lawful := by
  intro lt l h1 h2 h3
  have hins : ∀ (s : List PublicKey) (a : PublicKey), (insertSorter.ins lt a s).Perm (a :: s) := by
    intro s a
    induction s with
    | nil => exact List.Perm.refl _
    | cons b rest ih =>
      unfold insertSorter.ins
      split
      · exact (List.Perm.cons b ih).trans (List.Perm.swap a b rest)
      · exact List.Perm.refl _
  induction l with
  | nil => exact ⟨List.Perm.refl _, List.Pairwise.nil⟩
  | cons a rest ih =>
    obtain ⟨hp, hs⟩ := ih (fun x hx => h1 x (by simp [hx]))
      (fun x hx y hy z hz => h2 x (by simp [hx]) y (by simp [hy]) z (by simp [hz]))
      (fun x hx y hy z hz => h3 x (by simp [hx]) y (by simp [hy]) z (by simp [hz]))
    refine ⟨(hins _ a).trans (List.Perm.cons a hp), ?_⟩
    show (insertSorter.ins lt a (insertSorter.run lt rest)).Pairwise _
    have hmem : ∀ x ∈ insertSorter.run lt rest, x ∈ rest := fun x hx => hp.mem_iff.1 hx
    generalize insertSorter.run lt rest = s at hs hmem
    induction s with
    | nil => simp [insertSorter.ins]
    | cons b s' ih' =>
      rw [List.pairwise_cons] at hs
      unfold insertSorter.ins
      split
      · rename_i hba
        rw [List.pairwise_cons]
        refine ⟨?_, ih' hs.2 (fun x hx => hmem x (by simp [hx]))⟩
        intro x hx
        rcases List.mem_cons.1 ((hins s' a).mem_iff.1 hx) with rfl | hx'
        · cases hab : lt x b with
          | false => rfl
          | true =>
            have hb : b ∈ rest := hmem b (by simp)
            have := h2 b (by simp [hb]) x (by simp) b (by simp [hb]) hba hab
            rw [h1 b (by simp [hb])] at this
            cases this
        · exact hs.1 x hx'
      · rename_i hba
        rw [List.pairwise_cons]
        refine ⟨?_, List.pairwise_cons.2 hs⟩
        intro x hx
        have hba' : lt b a = false := by simpa using hba
        rcases List.mem_cons.1 hx with rfl | hx'
        · exact hba'
        · exact h3 x (by simp [hmem x (by simp [hx'])]) b (by simp [hmem b (by simp)]) a (by simp)
            (hs.1 x hx') hba'

/-- Keys to sort: four keys of different kinds are sortable. -/
example : ∀ k ∈ [PublicKey.ed (zeros 32), .ec .sm2 ⟨Curves.sm2, 3, 4⟩, .ec .ecdsa ⟨Curves.p256, 5, 6⟩,
    .eth ⟨Curves.secp256k1 "", 1, 2⟩], Sortable refExt k := by
  intro k hk
  simp only [List.mem_cons, List.not_mem_nil, or_false] at hk
  rcases hk with rfl | rfl | rfl | rfl
  exacts [⟨_, .ed _⟩, ⟨_, .sm2 _ _ _ _ .sm2⟩, ⟨_, .ecdsa _ _ _ _ .p256⟩, ⟨_, .eth _⟩]

end Verif.Props
