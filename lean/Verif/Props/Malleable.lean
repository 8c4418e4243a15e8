import Verif.Props.Signature
/-!
# C95-C97: can a signature be altered?

C95: is there one byte string per signature? C96: can an accepted signature be changed into another one for
the same message and key? C97: is a signature accepted for one message only?

Specification: `Format` (Spec/Signature.lean), `Accepts` of Spec/ECDSA.lean and Spec/SM2.lean.
-/
namespace Verif.Props
open Verif.Keypair Verif.Signature Verif.Spec

/-! ## C95: encodings -/

/-- **C95** (partial) A signature has at most one encoding of each length, and at most one if its value is
a byte string. Missing: encodings of different lengths, for which it is false (`C95_padded`). -/
theorem C95_canonical_partial (s : Sig Bytes) (b b' : Bytes) (h : Format s b) (h' : Format s b')
    (hl : b.length = b'.length ∨ ∃ v, s.value = .bytes v) : b = b' := by
  cases h with
  | bare rb sb hr hs =>
    obtain hl | ⟨v, hv⟩ := hl
    · generalize hx : (⟨1, .dsa (natOfBytes rb) (natOfBytes sb) none⟩ : Sig Bytes) = x at h'
      cases h' with
      | bare rb' sb' hr' hs' =>
        simp only [Sig.mk.injEq, Value.dsa.injEq, Int.natCast_inj, true_and, and_true] at hx
        rw [natOfBytes_inj (hr.trans hr'.symm) hx.1, natOfBytes_inj (hs.trans hs'.symm) hx.2]
      | dsa sch hsch rb' sb' hh h0 =>
        simp only [List.length_append, List.length_cons] at hl
        omega
      | _ => simp at hx
    · simp at hv
  | dsa sch hsch rb sb hh h0 =>
    obtain hl | ⟨v, hv⟩ := hl
    · generalize hx : (⟨sch, .dsa (natOfBytes rb) (natOfBytes sb) none⟩ : Sig Bytes) = x at h'
      cases h' with
      | bare rb' sb' hr' hs' =>
        simp only [List.length_append, List.length_cons] at hl
        omega
      | dsa sch' hsch' rb' sb' hh' h0' =>
        simp only [Sig.mk.injEq, Value.dsa.injEq, Int.natCast_inj, and_true] at hx
        simp only [List.length_append, List.length_cons] at hl
        rw [hx.1, natOfBytes_inj (by omega) hx.2.1, natOfBytes_inj (by omega) hx.2.2]
      | _ => simp at hx
    · simp at hv
  | compact sch hsch d hd =>
    generalize hx : (⟨sch, .bytes d⟩ : Sig Bytes) = x at h'
    cases h' <;> simp_all
  | sm2 id rb sb hid hh hll =>
    obtain hl | ⟨v, hv⟩ := hl
    · generalize hx : (⟨9, .sm2 (natOfBytes rb) (natOfBytes sb) none id⟩ : Sig Bytes) = x at h'
      cases h' with
      | sm2 id' rb' sb' hid' hh' hll' =>
        simp only [Sig.mk.injEq, Value.sm2.injEq, Int.natCast_inj, true_and] at hx
        simp only [List.length_append, List.length_cons] at hl
        obtain ⟨e1, e2, rfl⟩ := hx
        rw [natOfBytes_inj (by omega) e1, natOfBytes_inj (by omega) e2]
      | _ => simp at hx
    · simp at hv
  | raw sch hsch d h0 hd =>
    generalize hx : (⟨sch, .bytes d⟩ : Sig Bytes) = x at h'
    cases h' <;> simp_all

/-- **C95** is false for pairs of numbers: every encoded signature of such a scheme has a second, longer
encoding, which deserializes to the same signature and which `Verify` answers alike under every key and
for every message. -/
theorem C95_padded (h : Heap) (buf : Slice) (hv : buf.Valid h) (h1 : Heap) (s1 : Sig Slice)
    (hd : deserialize h buf = .ok (h1, s1)) (hb : ∀ v, s1.value ≠ .bytes v) :
    ∃ b', b'.length ≠ (buf.read h).length ∧ ∀ h' buf', buf'.Valid h' → buf'.read h' = b' →
      ∃ h2 s2, deserialize h' buf' = .ok (h2, s2) ∧
        (s2.map (bufOf h2)).essence = (s1.map (bufOf h1)).essence ∧
        ∀ E pub msg, verify E pub msg (some (s2.map (bufOf h2))) = verify E pub msg (some (s1.map (bufOf h1))) := by
  suffices hf : ∃ b', b'.length ≠ (buf.read h).length ∧ Format (s1.map (bufOf h1)).essence b' by
    obtain ⟨b', hl, hf⟩ := hf
    refine ⟨b', hl, fun h' buf' hv' hr => ?_⟩
    obtain ⟨h2, s2, e1, e2⟩ := ((C32_deserialize_format h' buf' hv').1 _).1 (hr ▸ hf)
    refine ⟨h2, s2, e1, e2, fun E pub msg => ?_⟩
    refine (verify_essence E pub msg e2.symm ?_).symm
    intro b _ e
    obtain ⟨sch, v⟩ := s1
    cases v with
    | bytes t => exact absurd rfl (hb t)
    | dsa r s c => simp [Sig.map, Value.map] at e
    | sm2 r s c id => simp [Sig.map, Value.map] at e
    | other => simp [Sig.map, Value.map] at e
  have hf := ((C32_deserialize_format h buf hv).1 _).2 ⟨h1, s1, hd, rfl⟩
  have hb' : ∀ v, (s1.map (bufOf h1)).essence.value ≠ .bytes v := by
    obtain ⟨sch, v⟩ := s1
    cases v with
    | bytes t => exact absurd rfl (hb t)
    | dsa r s c => simp [Sig.map, Value.map, Sig.essence]
    | sm2 r s c id => simp [Sig.map, Value.map, Sig.essence]
    | other => simp [Sig.map, Value.map, Sig.essence]
  generalize (s1.map (bufOf h1)).essence = x at hf hb'
  generalize buf.read h = b at hf
  have pad : ∀ u : Bytes, natOfBytes (0 :: u) = natOfBytes u := fun u => by
    rw [natOfBytes_cons]; simp
  cases hf with
  | bare rb sb hr hs =>
    refine ⟨1 :: (0 :: rb ++ 0 :: sb), by simp; omega, ?_⟩
    have := Format.dsa 1 (by decide) (0 :: rb) (0 :: sb) (by simp; omega) (by simp)
    rwa [pad, pad] at this
  | dsa sch hsch rb sb hh h0 =>
    refine ⟨sch :: (0 :: rb ++ 0 :: sb), by simp; omega, ?_⟩
    have := Format.dsa sch hsch (0 :: rb) (0 :: sb) (by simp; omega) (by simp)
    rwa [pad, pad] at this
  | compact sch hsch d hd => exact absurd rfl (hb' d)
  | sm2 id rb sb hid hh hll =>
    by_cases h62 : id.length + 2 * (rb.length + 1) = 62
    · refine ⟨9 :: (id ++ 0 :: (0 :: 0 :: rb ++ 0 :: 0 :: sb)), by simp; omega, ?_⟩
      have := Format.sm2 id (0 :: 0 :: rb) (0 :: 0 :: sb) hid (by simp; omega) (by simp; omega)
      rwa [pad, pad, pad, pad] at this
    · refine ⟨9 :: (id ++ 0 :: (0 :: rb ++ 0 :: sb)), by simp; omega, ?_⟩
      have := Format.sm2 id (0 :: rb) (0 :: sb) hid (by simp; omega) (by simpa using h62)
      rwa [pad, pad] at this
  | raw sch hsch d h0 hd => exact absurd rfl (hb' d)

/-! ## C96: other signatures for the same message -/

theorem xy_neg_fst {c : Curve} {a : Int} [Fact c.P.Prime] (P : Pt c a) : (xy (-P)).1 = (xy P).1 := by
  cases P <;> rfl

/-- Points with the same x-coordinate are equal or opposite. -/
theorem eq_or_neg {c : Curve} {a : Int} [Fact c.P.Prime] {P Q : Pt c a} (hP : P ≠ 0) (hQ : Q ≠ 0)
    (h : (xy P).1 = (xy Q).1) : P = Q ∨ P = -Q := by
  cases P with
  | zero => exact absurd rfl hP
  | some x y hn =>
    cases Q with
    | zero => exact absurd rfl hQ
    | some x' y' hn' =>
      have hx : x = x' := ZMod.val_injective _ h
      subst hx
      rcases WeierstrassCurve.Affine.Y_eq_of_X_eq hn.1 hn'.1 rfl with h | h
      · left; subst h; rfl
      · right
        rw [WeierstrassCurve.Affine.Point.neg_some]
        subst h
        rfl

/-- **C96** is false of standard ECDSA: with `(r, s)` also `(r, n - s)` is accepted. -/
theorem accepts_neg {c : Curve} {a : Int} (h : GoodCurve c a) [Fact c.P.Prime] {G Q : Pt c a} {e : ℕ} {r s : ℤ}
    (ha : ECDSA.Accepts G Q e r s) : ECDSA.Accepts G Q e r (c.N - s) := by
  obtain ⟨h1, h2, h3, h4, w, hw, h5, h6⟩ := ha
  have hN : 1 < c.N := h.order_prime.one_lt
  have hk : ∀ P : Pt c a, (c.N - 1) • P = -P := fun P => by
    have := Verif.Affine.order_kills h.card P
    rw [eq_neg_iff_add_eq_zero, ← succ_nsmul, show c.N - 1 + 1 = c.N by omega]
    exact this
  have hR : (e * (w * (c.N - 1))) • G + (r.toNat * (w * (c.N - 1))) • Q =
      -((e * w) • G + (r.toNat * w) • Q) := by
    rw [← hk, smul_add, smul_smul, smul_smul]
    congr 2 <;> ring
  refine ⟨h1, h2, by omega, by omega, w * (c.N - 1), ?_, ?_, ?_⟩
  · obtain ⟨s', rfl⟩ := Int.eq_ofNat_of_zero_le (show 0 ≤ s by omega)
    have hs' : s' < c.N := by omega
    have e1 : ((c.N : ℤ) - (s' : ℕ)).toNat = c.N - s' := by omega
    rw [e1]
    rw [Int.toNat_natCast] at hw
    have : (c.N - s') * (w * (c.N - 1)) + 0 ≡ 1 [MOD c.N] := by
      have hz : ((((c.N - s') * (w * (c.N - 1)) : ℕ) : ℤ)) ≡ 1 [ZMOD c.N] := by
        push_cast [hs'.le, hN.le]
        have hwz : ((s' : ℤ) * w) ≡ 1 [ZMOD c.N] := by
          have : (s' * w : ℕ) ≡ 1 [MOD c.N] := by
            unfold Nat.ModEq; rw [hw, Nat.mod_eq_of_lt hN]
          exact_mod_cast (Int.natCast_modEq_iff.2 this)
        have : ((c.N : ℤ) - s') * (w * (c.N - 1)) = s' * w + c.N * (w * (c.N - 1) - s' * w) := by ring
        rw [this]
        calc (s' : ℤ) * w + c.N * (w * (c.N - 1) - s' * w) ≡ s' * w + 0 [ZMOD c.N] :=
              Int.ModEq.add_left _ (Int.modEq_zero_iff_dvd.2 (dvd_mul_right _ _))
          _ ≡ 1 [ZMOD c.N] := by rw [add_zero]; exact hwz
      exact_mod_cast hz
    unfold Nat.ModEq at this
    rwa [Nat.add_zero, Nat.mod_eq_of_lt hN] at this
  · rw [hR]; exact neg_ne_zero.2 h5
  · rw [hR, xy_neg_fst]; exact h6

/-- **C96** is false for the schemes named XwithECDSA: from an accepted `(r, s)` anyone can make another
accepted signature `(r, n - s)` for the same message and key. -/
theorem C96_ecdsa_negated (E : Signature.Ext) (hE : E.Lawful) (scheme : Scheme) (a : HashAlg)
    (hname : name scheme = .ok (a.published ++ "withECDSA")) (alg : Alg) (pub : ECPub)
    (hc : pub.curve ∈ Curves.all E.k1name) [Fact pub.curve.P.Prime]
    (Q : Pt pub.curve (curveA E.k1name pub.curve)) (hQ : Q ≠ 0) (hp : xy Q = (pub.x, pub.y)) (msg : Bytes)
    (r s : Int) (c : Option Curve) (h : verify E (.ec alg pub) msg (some ⟨scheme, .dsa r s c⟩) = .ok true) :
    pub.curve.N - s ≠ s ∧
      verify E (.ec alg pub) msg (some ⟨scheme, .dsa r (pub.curve.N - s) c⟩) = .ok true := by
  have hg := good_of_mem E.k1name hE.k1name _ hc
  obtain ⟨G, hG⟩ := hg.exists_G
  have hm : msg ≠ [] := by
    rintro rfl
    unfold verify at h
    simp at h
  obtain ⟨b, e1, e2⟩ := C72_ecdsa_standard E hE scheme a hname alg pub hc G Q hG hQ hp msg hm r s c
  rw [h] at e1
  cases e1
  have hacc := e2.1 rfl
  obtain ⟨b', e3, e4⟩ := C72_ecdsa_standard E hE scheme a hname alg pub hc G Q hG hQ hp msg hm r
    (pub.curve.N - s) c
  refine ⟨?_, by rw [e3, e4.2 (accepts_neg hg hacc)]⟩
  have hodd : pub.curve.N % 2 = 1 := by
    have key : ∀ nm, nm = "" ∨ nm = "secp256k1" → ∀ c ∈ Curves.all nm, c.N % 2 = 1 := by
      rintro nm (rfl | rfl) <;> decide +kernel
    exact key _ hE.k1name _ hc
  omega

/-- **C96** is false for Ethereum keys: what follows the first 64 bytes of a signature is not looked at. -/
theorem C96_eth_tail (E : Signature.Ext) (pub : ECPub) (msg : Bytes) (rs t t' : Bytes) (sp sp' : Bytes)
    (h : rs.length = 64) :
    verify E (.eth pub) msg (some ⟨11, .bytes ⟨rs ++ t, sp⟩⟩) =
      verify E (.eth pub) msg (some ⟨11, .bytes ⟨rs ++ t', sp'⟩⟩) := by
  have e : ∀ u v : Bytes, (rs ++ u ++ v).take 64 = rs := fun u v => by
    rw [List.append_assoc, List.take_append_of_le_length (by omega), List.take_of_length_le (by omega)]
  have l : ∀ u v : Bytes, ¬ (rs ++ u ++ v).length < 64 := fun u v => by simp; omega
  unfold verify verifyEth
  simp only [e, if_neg (l _ _)]

theorem diff_eq {n x x' : ℕ} (h : x % n = x' % n) (hlt : x < x') (h2 : x' < 2 * n) : x' = x + n := by
  obtain ⟨q, hq⟩ := (Nat.modEq_iff_dvd' hlt.le).1 h
  have hq0 : q ≠ 0 := by rintro rfl; omega
  have hq2 : q < 2 := by by_contra hc; have : n * 2 ≤ n * q := Nat.mul_le_mul_left _ (by omega); omega
  have : q = 1 := by omega
  subst this
  omega

/-- **C96** (partial) for SM2: from two accepted signatures `(r, s)` and `(r, s')` for the same digest, one
gets an equation that determines the private key `d`; or the public key is `-G`; or the x-coordinates of the
points computed in the two checks differ by exactly the order. Missing: signatures with another `r`; for ECDSA and
Ethereum keys the property is false. -/
theorem C96_sm2_partial (G : SM2.Point) (hG : xy G = (Curves.sm2.Gx, Curves.sm2.Gy))
    (d e : ℕ) (r s s' : ℤ) (h : SM2.Accepts G (d • G) e r s) (h' : SM2.Accepts G (d • G) e r s') (hne : s ≠ s') :
    ((d : ℤ) * (s + s' + 2 * r) ≡ -(s + s') [ZMOD SM2.n] ∧ ¬ s + s' + 2 * r ≡ 0 [ZMOD SM2.n]) ∨
      d • G = -G ∨
      let R := s.toNat • G + ((r + s) % SM2.n).toNat • d • G
      let R' := s'.toNat • G + ((r + s') % SM2.n).toNat • d • G
      (xy R).1 = (xy R').1 + SM2.n ∨ (xy R').1 = (xy R).1 + SM2.n := by
  obtain ⟨a1, a2, a3, a4, a5, a6, a7⟩ := h
  obtain ⟨b1, b2, b3, b4, b5, b6, b7⟩ := h'
  have hG0 : G ≠ 0 := good_sm2.G_ne_zero hG
  have hn : SM2.n % 2 = 1 := by decide
  have hpn : Curves.sm2.P < 2 * SM2.n := by decide
  generalize hR : s.toNat • G + ((r + s) % SM2.n).toNat • d • G = R at *
  generalize hR' : s'.toNat • G + ((r + s') % SM2.n).toNat • d • G = R' at *
  have hx := (Verif.Affine.xy_onCurve R a6).2.1
  have hx' := (Verif.Affine.xy_onCurve R' b6).2.1
  have hxx : (xy R).1 % SM2.n = (xy R').1 % SM2.n := by
    refine Nat.ModEq.add_left_cancel' e ?_
    have := a7.trans b7.symm
    unfold Nat.ModEq
    exact_mod_cast this
  have hNp : Fact SM2.n.Prime := ⟨good_sm2.order_prime⟩
  have hcast : ∀ k l : ℕ, k • G = l • G ↔ (k : ZMod SM2.n) = l := fun k l => by
    rw [good_sm2.smul_eq_iff hG0]
    exact (ZMod.natCast_eq_natCast_iff _ _ _).symm
  have hto : ∀ x : ℤ, 0 ≤ x → ((x.toNat : ℕ) : ZMod SM2.n) = (x : ZMod SM2.n) := fun x hx => by
    conv_rhs => rw [← Int.toNat_of_nonneg hx]
    rw [Int.cast_natCast]
  have hK : ∀ s : ℤ, 1 ≤ s → ((s.toNat + ((r + s) % SM2.n).toNat * d : ℕ) : ZMod SM2.n) = s + (r + s) * d := by
    intro s hs
    rw [Nat.cast_add, Nat.cast_mul, hto s (by omega), hto _ (Int.emod_nonneg _ (by decide)), ZMod.intCast_mod]
    push_cast
    ring
  rw [smul_smul, ← add_smul] at hR hR'
  have k1 := hK s a3
  have k2 := hK s' b3
  by_cases hxe : (xy R).1 = (xy R').1
  · rcases eq_or_neg a6 b6 hxe with he | he
    · right; left
      rw [← hR, ← hR', hcast, k1, k2] at he
      have h0 : ((s : ZMod SM2.n) - s') * (1 + d) = 0 := by linear_combination he
      rcases mul_eq_zero.1 h0 with h0 | h0
      · exfalso
        rw [sub_eq_zero, ZMod.intCast_eq_intCast_iff, Int.ModEq, Int.emod_eq_of_lt (by omega) a4,
          Int.emod_eq_of_lt (by omega) b4] at h0
        exact hne h0
      · rw [eq_neg_iff_add_eq_zero, ← succ_nsmul, ← zero_smul ℕ G, hcast]
        push_cast
        linear_combination h0
    · left
      rw [eq_neg_iff_add_eq_zero, ← hR, ← hR', ← add_smul, ← zero_smul ℕ G, hcast, Nat.cast_add, k1, k2] at he
      have h1 : (d : ZMod SM2.n) * (s + s' + 2 * r) = -(s + s') := by
        push_cast at he
        linear_combination he
      refine ⟨by rw [← ZMod.intCast_eq_intCast_iff]; push_cast; exact h1, fun h2 => ?_⟩
      rw [← ZMod.intCast_eq_intCast_iff] at h2
      push_cast at h2
      rw [h2, mul_zero] at h1
      have h3 : (2 : ZMod SM2.n) * r = 0 := by linear_combination h2 - h1
      have h4 : ((2 * r : ℤ) : ZMod SM2.n) = 0 := by push_cast; exact h3
      rw [ZMod.intCast_zmod_eq_zero_iff_dvd] at h4
      obtain ⟨q, hq⟩ := h4
      have : q = 1 := by nlinarith
      subst this
      omega
  · right; right
    rcases Nat.lt_or_gt_of_ne hxe with hlt | hlt
    · exact .inr (diff_eq hxx hlt (hx'.trans hpn))
    · exact .inl (diff_eq hxx.symm hlt (hx.trans hpn))

/-- For the public key `-G` the point of the check does not depend on `s`. -/
theorem check_minus (G : SM2.Point) (hG : xy G = (Curves.sm2.Gx, Curves.sm2.Gy)) (r s : ℤ) (hr : 1 ≤ r) (hs : 1 ≤ s) :
    s.toNat • G + ((r + s) % SM2.n).toNat • -G = -(r.toNat • G) := by
  have hG0 : G ≠ 0 := good_sm2.G_ne_zero hG
  have h : (s.toNat + r.toNat) • G = ((r + s) % SM2.n).toNat • G := by
    rw [good_sm2.smul_eq_iff hG0]
    have e1 : (((r + s) % SM2.n).toNat : ℤ) = (r + s) % SM2.n := Int.toNat_of_nonneg (Int.emod_nonneg _ (by decide))
    have e2 : ((s.toNat + r.toNat : ℕ) : ℤ) = r + s := by push_cast; omega
    have : ((s.toNat + r.toNat : ℕ) : ℤ) % SM2.n = (((r + s) % SM2.n).toNat : ℤ) % SM2.n := by
      rw [e1, e2, Int.emod_emod_of_dvd _ (dvd_refl _)]
    exact_mod_cast this
  rw [smul_neg, ← h, add_smul]
  abel

/-- **C96** The exception is real: for the private key `n - 1`, whose public key is `-G`, a signature `(r, s)` stays
valid with any other `s` in the range, except `n - r`. -/
theorem C96_sm2_minus (E : SM2.Ext) (hE : E.Lawful) (H : Bytes → Bytes) (G : SM2.Point)
    (hG : xy G = (Curves.sm2.Gx, Curves.sm2.Gy)) (pub : ECPub) (hc : pub.curve = Curves.sm2)
    (hpub : (pub.x, pub.y) = xy ((SM2.n - 1) • G)) (id msg : Bytes) (r s s' : ℤ)
    (h : SM2.verify E H pub id msg r s = true) (h1 : 1 ≤ s') (h2 : s' < SM2.n) (h3 : r + s' ≠ SM2.n) :
    SM2.verify E H pub id msg r s' = true := by
  have hG0 : G ≠ 0 := good_sm2.G_ne_zero hG
  have hm : (SM2.n - 1) • G = -G := by
    rw [eq_neg_iff_add_eq_zero, ← succ_nsmul, ← zero_smul ℕ G, good_sm2.smul_eq_iff hG0]
    decide
  rw [hm] at hpub
  have hP : -G ≠ 0 := neg_ne_zero.2 hG0
  rw [C39_verify_iff E hE H G hG (-G) hP pub hc hpub] at h ⊢
  obtain ⟨mz, hz, a1, a2, a3, a4, a5, a6, a7⟩ := h
  rw [check_minus G hG r s a1 a3] at a6 a7
  refine ⟨mz, hz, a1, a2, h1, h2, ?_, ?_, ?_⟩
  · intro h0
    obtain ⟨q, hq⟩ := Int.dvd_of_emod_eq_zero h0
    generalize (SM2.n : ℤ) = N at *
    have hq1 : q = 1 := by
      have q1 : 0 < q := by
        by_contra hn
        have : N * q ≤ 0 := mul_nonpos_of_nonneg_of_nonpos (by omega) (by omega)
        omega
      have q2 : q < 2 := by
        by_contra hn
        have : N * 2 ≤ N * q := mul_le_mul_of_nonneg_left (by omega) (by omega)
        omega
      omega
    rw [hq1] at hq
    omega
  · rw [check_minus G hG r s' a1 h1]; exact a6
  · rw [check_minus G hG r s' a1 h1]; exact a7

/-- Such signatures exist: `(1, 1)` is valid for a suitable digest. -/
example (G : SM2.Point) (hG : xy G = (Curves.sm2.Gx, Curves.sm2.Gy)) : ∃ e, SM2.Accepts G (-G) e 1 1 := by
  have hG0 : G ≠ 0 := good_sm2.G_ne_zero hG
  have e := check_minus G hG 1 1 le_rfl le_rfl
  have h1 : (1 : ℤ).toNat • G = G := one_smul ℕ G
  rw [h1] at e
  have hlt := (Verif.Affine.xy_onCurve (-G) (neg_ne_zero.2 hG0)).2.1
  refine ⟨2 * SM2.n + 1 - (xy (-G)).1, le_rfl, by decide, le_rfl, by decide, by decide, ?_, ?_⟩
  · rw [h1, e]; exact neg_ne_zero.2 hG0
  · rw [h1, e]
    have hpn : SM2.crv.P < 2 * SM2.n := by decide
    have : ((2 * SM2.n + 1 - (xy (-G)).1 : ℕ) : ℤ) + ((xy (-G)).1 : ℤ) = 2 * SM2.n + 1 := by omega
    rw [this]
    decide

/-! ## C97: other messages -/

/-- **C97** for SM2: a signature that is accepted for two messages (or user ids) under one key shows two
strings with the same hash value modulo the order. What is hashed determines message and user id (C92). -/
theorem C97_sm2 (E : SM2.Ext) (hE : E.Lawful) (H : Bytes → Bytes) (P : SM2.Point) (hP : P ≠ 0) (pub : ECPub)
    (hc : pub.curve = Curves.sm2) (hpub : (pub.x, pub.y) = xy P) (id id' msg msg' : Bytes) (r s : Int)
    (h : SM2.verify E H pub id msg r s = true) (h' : SM2.verify E H pub id' msg' r s = true) :
    ∃ mz mz', SM2.getZ H msg pub id = .ok mz ∧ SM2.getZ H msg' pub id' = .ok mz' ∧
      natOfBytes (H mz) % SM2.n = natOfBytes (H mz') % SM2.n := by
  obtain ⟨G, hG⟩ := good_sm2.exists_G
  obtain ⟨mz, e1, -, -, -, -, -, -, a⟩ := (C39_verify_iff E hE H G hG P hP pub hc hpub id msg r s).1 h
  obtain ⟨mz', e2, -, -, -, -, -, -, b⟩ := (C39_verify_iff E hE H G hG P hP pub hc hpub id' msg' r s).1 h'
  refine ⟨mz, mz', e1, e2, Nat.ModEq.add_right_cancel' (xy (s.toNat • G + ((r + s) % SM2.n).toNat • P)).1 ?_⟩
  have := a.trans b.symm
  unfold Nat.ModEq
  exact_mod_cast this

theorem accepts_two {c : Curve} {a : Int} (h : GoodCurve c a) [Fact c.P.Prime] {G : Pt c a} (hG : G ≠ 0)
    (hodd : c.N % 2 = 1) {d e e' : ℕ} {r s : ℤ} (ha : ECDSA.Accepts G (d • G) e r s)
    (hb : ECDSA.Accepts G (d • G) e' r s) :
    e ≡ e' [MOD c.N] ∨ ((e + e' + 2 * r.toNat * d ≡ 0 [MOD c.N]) ∧ ¬ 2 * r.toNat ≡ 0 [MOD c.N]) ∨
      ∃ w w' : ℕ, s.toNat * w % c.N = 1 ∧ s.toNat * w' % c.N = 1 ∧
        let R := (e * w) • G + (r.toNat * w) • d • G
        let R' := (e' * w') • G + (r.toNat * w') • d • G
        (xy R).1 ≠ (xy R').1 ∧ (xy R).1 ≡ (xy R').1 [MOD c.N] := by
  obtain ⟨h1, h2, -, -, w, a5, a6, a7⟩ := ha
  obtain ⟨-, -, -, -, w', b5, b6, b7⟩ := hb
  obtain ⟨ρ, rfl⟩ := Int.eq_ofNat_of_zero_le (show 0 ≤ r by omega)
  simp only [Int.toNat_natCast] at *
  have hN : 1 < c.N := h.order_prime.one_lt
  have hw : s.toNat * w ≡ 1 [MOD c.N] := by unfold Nat.ModEq; rw [a5, Nat.mod_eq_of_lt hN]
  have hw' : s.toNat * w' ≡ 1 [MOD c.N] := by unfold Nat.ModEq; rw [b5, Nat.mod_eq_of_lt hN]
  have k1 : s.toNat * (e * w + ρ * w * d) ≡ e + ρ * d [MOD c.N] := by
    have := hw.mul_right (e + ρ * d)
    rw [one_mul] at this
    convert this using 1
    ring
  have k2 : s.toNat * (e' * w' + ρ * w' * d) ≡ e' + ρ * d [MOD c.N] := by
    have := hw'.mul_right (e' + ρ * d)
    rw [one_mul] at this
    convert this using 1
    ring
  have r1 : (e * w) • G + (ρ * w) • d • G = (e * w + ρ * w * d) • G := by rw [smul_smul, ← add_smul]
  have r2 : (e' * w') • G + (ρ * w') • d • G = (e' * w' + ρ * w' * d) • G := by rw [smul_smul, ← add_smul]
  rw [r1] at a6 a7
  rw [r2] at b6 b7
  by_cases hx : (xy ((e * w + ρ * w * d) • G)).1 = (xy ((e' * w' + ρ * w' * d) • G)).1
  · rcases eq_or_neg a6 b6 hx with he | he
    · left
      have := (Verif.Affine.smul_eq_iff h.order_prime h.card G hG _ _).1 he
      have t := (k1.symm.trans (Nat.ModEq.mul_left s.toNat this)).trans k2
      exact Nat.ModEq.add_right_cancel' _ t
    · right; left
      constructor
      · rw [eq_neg_iff_add_eq_zero, ← add_smul, ← zero_smul ℕ G] at he
        have := (Verif.Affine.smul_eq_iff h.order_prime h.card G hG _ _).1 he
        have t := Nat.ModEq.mul_left s.toNat this
        rw [mul_add, mul_zero] at t
        have t' := (k1.add k2).symm.trans t
        convert t' using 1
        ring
      · intro h0
        have hd := (Nat.modEq_zero_iff_dvd).1 h0
        rcases (h.order_prime.dvd_mul).1 hd with h3 | h3
        · have := Nat.le_of_dvd (by omega) h3
          have : c.N = 2 := by omega
          omega
        · have := Nat.le_of_dvd (by omega) h3
          omega
  · right; right
    refine ⟨w, w', a5, b5, ?_⟩
    rw [r1, r2]
    exact ⟨hx, by unfold Nat.ModEq; omega⟩

/-- **C97** (partial) for ECDSA: when `(r, s)` is accepted for two messages under the public key `d G`, then
their digests are equal modulo the order; or there is an equation that determines the private key `d`; or the
points computed in the two checks have different x-coordinates that are equal modulo the order. -/
theorem C97_ecdsa_partial (E : Signature.Ext) (hE : E.Lawful) (scheme : Scheme) (a : HashAlg)
    (hname : name scheme = .ok (a.published ++ "withECDSA")) (alg : Alg) (pub : ECPub)
    (hc : pub.curve ∈ Curves.all E.k1name) [Fact pub.curve.P.Prime]
    (G : Pt pub.curve (curveA E.k1name pub.curve)) (hG : xy G = (pub.curve.Gx, pub.curve.Gy)) (d : ℕ)
    (hd : d • G ≠ 0) (hp : xy (d • G) = (pub.x, pub.y)) (msg msg' : Bytes) (r s : Int) (c c' : Option Curve)
    (h : verify E (.ec alg pub) msg (some ⟨scheme, .dsa r s c⟩) = .ok true)
    (h' : verify E (.ec alg pub) msg' (some ⟨scheme, .dsa r s c'⟩) = .ok true) :
    let e := ECDSA.bits2int pub.curve.N (E.hash a msg)
    let e' := ECDSA.bits2int pub.curve.N (E.hash a msg')
    e ≡ e' [MOD pub.curve.N] ∨
      (((e + e' + 2 * r.toNat * d : ℕ) ≡ 0 [MOD pub.curve.N]) ∧ ¬ 2 * r.toNat ≡ 0 [MOD pub.curve.N]) ∨
      ∃ w w' : ℕ, s.toNat * w % pub.curve.N = 1 ∧ s.toNat * w' % pub.curve.N = 1 ∧
        let R := (e * w) • G + (r.toNat * w) • d • G
        let R' := (e' * w') • G + (r.toNat * w') • d • G
        (xy R).1 ≠ (xy R').1 ∧ (xy R).1 ≡ (xy R').1 [MOD pub.curve.N] := by
  intro e e'
  have hg := good_of_mem E.k1name hE.k1name _ hc
  have hG0 : G ≠ 0 := hg.G_ne_zero hG
  have ne : ∀ {m : Bytes} {c : Option Curve},
      verify E (.ec alg pub) m (some ⟨scheme, .dsa r s c⟩) = .ok true → m ≠ [] := by
    rintro m c h rfl
    unfold verify at h
    simp at h
  obtain ⟨b, e1, e2⟩ := C72_ecdsa_standard E hE scheme a hname alg pub hc G _ hG hd hp msg (ne h) r s c
  obtain ⟨b', e1', e2'⟩ := C72_ecdsa_standard E hE scheme a hname alg pub hc G _ hG hd hp msg' (ne h') r s c'
  rw [h] at e1
  rw [h'] at e1'
  cases e1
  cases e1'
  have hodd : pub.curve.N % 2 = 1 := by
    have key : ∀ nm, nm = "" ∨ nm = "secp256k1" → ∀ c ∈ Curves.all nm, c.N % 2 = 1 := by
      rintro nm (rfl | rfl) <;> decide +kernel
    exact key _ hE.k1name _ hc
  exact accepts_two hg hG0 hodd (e2.1 rfl) (e2'.1 rfl)

/-- For any two digests that are different, and not opposite, modulo the order there is a key pair and a
signature that is accepted for both. -/
theorem accepts_both {c : Curve} {a : Int} (h : GoodCurve c a) [Fact c.P.Prime] {G : Pt c a}
    (hG : xy G = (c.Gx, c.Gy)) (hodd : c.N % 2 = 1) (hgx : c.Gx % c.N ≠ 0) (e e' : ℕ)
    (h1 : ¬ e ≡ e' [MOD c.N]) (h2 : ¬ e + e' ≡ 0 [MOD c.N]) :
    ∃ d r s : ℕ, 0 < d ∧ d < c.N ∧ ECDSA.Accepts G (d • G) e r s ∧ ECDSA.Accepts G (d • G) e' r s := by
  have : Fact c.N.Prime := ⟨h.order_prime⟩
  have hG0 := h.G_ne_zero hG
  have hN : 1 < c.N := h.order_prime.one_lt
  have two : (2 : ZMod c.N) ≠ 0 := by
    intro h0
    have : ((2 : ℕ) : ZMod c.N) = 0 := by exact_mod_cast h0
    rw [ZMod.natCast_eq_zero_iff] at this
    have := Nat.le_of_dvd (by norm_num) this
    have : c.N = 2 := by omega
    omega
  have hr : (c.Gx : ZMod c.N) ≠ 0 := by
    rw [Ne, ZMod.natCast_eq_zero_iff]
    exact fun hd => hgx (Nat.mod_eq_zero_of_dvd hd)
  have he : (e : ZMod c.N) ≠ e' := fun x => h1 ((ZMod.natCast_eq_natCast_iff _ _ _).1 x)
  have he' : (e : ZMod c.N) + e' ≠ 0 := fun x => h2 ((ZMod.natCast_eq_natCast_iff _ _ _).1 (by push_cast; exact x))
  set D : ZMod c.N := -(e + e') / (2 * c.Gx) with hD
  set S : ZMod c.N := (e - e') / 2 with hS
  have hD0 : D ≠ 0 := div_ne_zero (neg_ne_zero.2 he') (mul_ne_zero two hr)
  have hS0 : S ≠ 0 := div_ne_zero (sub_ne_zero.2 he) two
  have pos : ∀ z : ZMod c.N, z ≠ 0 → 0 < z.val := fun z hz =>
    Nat.pos_of_ne_zero fun h0 => hz ((ZMod.val_eq_zero z).1 h0)
  have hmod : ∀ k l : ℕ, (k : ZMod c.N) = l → k • G = l • G := fun k l hkl =>
    (h.smul_eq_iff hG0 k l).2 ((ZMod.natCast_eq_natCast_iff' _ _ _).1 hkl)
  have cw : ∀ z : ZMod c.N, ((z.val : ℕ) : ZMod c.N) = z := fun z => ZMod.natCast_zmod_val z
  have hrv : ((c.Gx % c.N : ℕ) : ZMod c.N) = c.Gx := by rw [ZMod.natCast_mod]
  refine ⟨D.val, c.Gx % c.N, S.val, pos D hD0, ZMod.val_lt D, ?_, ?_⟩
  · have hR : (e * (S⁻¹).val) • G + (c.Gx % c.N * (S⁻¹).val) • D.val • G = G := by
      rw [smul_smul, ← add_smul]
      conv_rhs => rw [← one_smul ℕ G]
      apply hmod
      push_cast
      rw [cw, cw, hrv]
      have : (e : ZMod c.N) + c.Gx * D = S := by
        rw [hD, hS]; field_simp; ring
      calc (e : ZMod c.N) * S⁻¹ + c.Gx * S⁻¹ * D = (e + c.Gx * D) * S⁻¹ := by ring
        _ = 1 := by rw [this, mul_inv_cancel₀ hS0]
    refine ⟨by omega, ?_, by have := pos S hS0; omega, ?_, (S⁻¹).val, ?_, ?_, ?_⟩
    · exact_mod_cast Nat.mod_lt _ (by omega)
    · exact_mod_cast ZMod.val_lt S
    · rw [Int.toNat_natCast]
      have : ((S.val * (S⁻¹).val : ℕ) : ZMod c.N) = (1 : ℕ) := by
        push_cast; rw [cw, cw, mul_inv_cancel₀ hS0]
      have := (ZMod.natCast_eq_natCast_iff' _ _ _).1 this
      rwa [Nat.mod_eq_of_lt hN] at this
    · rw [Int.toNat_natCast, hR]; exact hG0
    · rw [Int.toNat_natCast, hR, hG]
  · have hR : (e' * (S⁻¹).val) • G + (c.Gx % c.N * (S⁻¹).val) • D.val • G = -G := by
      rw [smul_smul, ← add_smul, eq_neg_iff_add_eq_zero, ← succ_nsmul]
      conv_rhs => rw [← zero_smul ℕ G]
      apply hmod
      push_cast
      rw [cw, cw, hrv]
      have : (e' : ZMod c.N) + c.Gx * D = -S := by
        rw [hD, hS]; field_simp; ring
      calc (e' : ZMod c.N) * S⁻¹ + c.Gx * S⁻¹ * D + 1 = (e' + c.Gx * D) * S⁻¹ + 1 := by ring
        _ = 0 := by rw [this, neg_mul, mul_inv_cancel₀ hS0]; ring
    refine ⟨by omega, ?_, by have := pos S hS0; omega, ?_, (S⁻¹).val, ?_, ?_, ?_⟩
    · exact_mod_cast Nat.mod_lt _ (by omega)
    · exact_mod_cast ZMod.val_lt S
    · rw [Int.toNat_natCast]
      have : ((S.val * (S⁻¹).val : ℕ) : ZMod c.N) = (1 : ℕ) := by
        push_cast; rw [cw, cw, mul_inv_cancel₀ hS0]
      have := (ZMod.natCast_eq_natCast_iff' _ _ _).1 this
      rwa [Nat.mod_eq_of_lt hN] at this
    · rw [Int.toNat_natCast, hR]; exact neg_ne_zero.2 hG0
    · rw [Int.toNat_natCast, hR, xy_neg_fst, hG]

/-- **C97** is false for the schemes named XwithECDSA: for any two messages whose digests are different, and
not opposite, modulo the order, someone who chooses the key pair can make a signature that is accepted for
both. -/
theorem C97_ecdsa_two_messages (E : Signature.Ext) (hE : E.Lawful) (scheme : Scheme) (a : HashAlg)
    (hname : name scheme = .ok (a.published ++ "withECDSA")) (alg : Alg) (cv : Curve) (hc : cv ∈ Curves.all E.k1name)
    [Fact cv.P.Prime] (G : Pt cv (curveA E.k1name cv)) (hG : xy G = (cv.Gx, cv.Gy)) (msg msg' : Bytes)
    (hm : msg ≠ []) (hm' : msg' ≠ [])
    (h1 : ¬ ECDSA.bits2int cv.N (E.hash a msg) ≡ ECDSA.bits2int cv.N (E.hash a msg') [MOD cv.N])
    (h2 : ¬ ECDSA.bits2int cv.N (E.hash a msg) + ECDSA.bits2int cv.N (E.hash a msg') ≡ 0 [MOD cv.N]) :
    ∃ d : ℕ, 0 < d ∧ d < cv.N ∧ ∃ pub : ECPub, pub.curve = cv ∧ xy (d • G) = (pub.x, pub.y) ∧
      ∃ r s : ℕ, ∀ c, verify E (.ec alg pub) msg (some ⟨scheme, .dsa r s c⟩) = .ok true ∧
        verify E (.ec alg pub) msg' (some ⟨scheme, .dsa r s c⟩) = .ok true := by
  have hg := good_of_mem E.k1name hE.k1name _ hc
  have hG0 : G ≠ 0 := hg.G_ne_zero hG
  have key : ∀ nm, nm = "" ∨ nm = "secp256k1" → ∀ c ∈ Curves.all nm, c.N % 2 = 1 ∧ c.Gx % c.N ≠ 0 := by
    rintro nm (rfl | rfl) <;> decide +kernel
  obtain ⟨k1, k2⟩ := key _ hE.k1name _ hc
  obtain ⟨d, r, s, d0, d1, a1, a2⟩ := accepts_both hg hG k1 k2 _ _ h1 h2
  have hd : d • G ≠ 0 := by
    rw [← zero_smul ℕ G, Ne, hg.smul_eq_iff hG0, Nat.mod_eq_of_lt d1, Nat.zero_mod]
    omega
  refine ⟨d, d0, d1, ⟨cv, (xy (d • G)).1, (xy (d • G)).2⟩, rfl, rfl, r, s, fun c => ?_⟩
  obtain ⟨b, e1, e2⟩ := C72_ecdsa_standard E hE scheme a hname alg ⟨cv, (xy (d • G)).1, (xy (d • G)).2⟩ hc G _
    hG hd rfl msg hm r s c
  obtain ⟨b', e1', e2'⟩ := C72_ecdsa_standard E hE scheme a hname alg ⟨cv, (xy (d • G)).1, (xy (d • G)).2⟩ hc G _
    hG hd rfl msg' hm' r s c
  exact ⟨by rw [e1, e2.2 a1], by rw [e1', e2'.2 a2]⟩

/-- **C97** is false for Ethereum keys: a signature that is accepted for a message is also accepted for
another message, the 32-byte digest of the first. -/
theorem C97_eth_two_messages (E : Signature.Ext) (pub : ECPub) (msg : Bytes) (v : Value Buf) (h0 : msg ≠ [])
    (h32 : msg.length ≠ 32) (hl : (E.hash .keccak256 msg).length = 32) :
    msg ≠ E.hash .keccak256 msg ∧
      verify E (.eth pub) msg (some ⟨11, v⟩) = verify E (.eth pub) (E.hash .keccak256 msg) (some ⟨11, v⟩) := by
  refine ⟨fun h => h32 (by rw [h]; exact hl), ?_⟩
  have k1 : ¬ msg.length = 0 := fun e => h0 (List.eq_nil_of_length_eq_zero e)
  have k3 : hashOf KECCAK256WithECDSA = some .keccak256 := rfl
  unfold verify verifyEth
  simp only [if_neg k1, k3, hl, if_pos h32]
  rfl

/-! ## Non-vacuity -/

/-- Two encodings of one signature (C95). -/
example : ∃ s, Format s (zeros 64) ∧ Format s (1 :: zeros 66) :=
  ⟨_, Format.bare (zeros 32) (zeros 32) (by decide) (by decide),
    Format.dsa 1 (by decide) (zeros 33) (zeros 33) (by decide) (by decide)⟩

/-- An accepted ECDSA signature, with a valid key (hypotheses of C96, C97). -/
example : ECPair "" (keyOn Curves.p256 2) ∧ ∃ sig,
    verify refSig (.ec .ecdsa (keyOn Curves.p256 2).pub) abc (some sig) = .ok true ∧ ∃ r s c, sig = ⟨1, .dsa r s c⟩ := by
  refine ⟨keyOn_pair _ (by decide) 2 (by decide +kernel), ?_⟩
  have h : (match sign refSig 0 (zeros 80) 1 (.ec .ecdsa (keyOn Curves.p256 2)) abc .other with
    | some (.ok sig) => (match sig with | ⟨1, .dsa _ _ _⟩ => true | _ => false) &&
      verify refSig (.ec .ecdsa (keyOn Curves.p256 2).pub) abc (some sig) == .ok true
    | _ => false) = true := by decide +kernel
  split at h
  next sig hs =>
    rw [Bool.and_eq_true] at h
    refine ⟨sig, by simpa using h.2, ?_⟩
    have h1 := h.1
    split at h1
    next r s c => exact ⟨r, s, c, rfl⟩
    next => cases h1
  next => cases h

/-- Two messages for which there is a common signature (C97). -/
example : ¬ ECDSA.bits2int Curves.p256.N (refSig.hash .sha256 abc) ≡
      ECDSA.bits2int Curves.p256.N (refSig.hash .sha256 [1]) [MOD Curves.p256.N] ∧
    ¬ ECDSA.bits2int Curves.p256.N (refSig.hash .sha256 abc) +
      ECDSA.bits2int Curves.p256.N (refSig.hash .sha256 [1]) ≡ 0 [MOD Curves.p256.N] := by
  decide +kernel

/-- An accepted Ethereum signature for a message that is not 32 bytes long (C96, C97). -/
example : (match sign refSig 0 [] 11 (.eth (keyOn (Curves.secp256k1 "") 2)) abc (.bool true) with
    | some (.ok sig) => verify refSig (.eth (keyOn (Curves.secp256k1 "") 2).pub) abc (some sig) == .ok true &&
        verify refSig (.eth (keyOn (Curves.secp256k1 "") 2).pub) (refSig.hash .keccak256 abc) (some sig) == .ok true
    | _ => false) = true := by decide +kernel

end Verif.Props
