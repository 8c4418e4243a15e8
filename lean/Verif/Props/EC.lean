import Verif.Spec.Keys
import Verif.Lemmas.EC
import Verif.Lemmas.CurveFacts
/-!
# Properties of package ec: point encoding and decoding (C10 - C14)

`k1name` is the value of `btcec.S256().Name`; the decompression code uses the coefficient 0 for the curve
with that name and -3 for all others (`coefA`).
-/
namespace Verif.Props
open Verif Verif.EC
open Verif.Spec (curveA)

theorem curveA_eq (k1name : String) (c : Curve) : curveA k1name c = coefA k1name c := by
  unfold curveA coefA; split <;> simp_all

/-- The key `pub` lies on its curve with both coordinates reduced. -/
structure ValidPoint (k1name : String) (pub : ECPub) : Prop where
  x_lt : pub.x < pub.curve.P
  y_lt : pub.y < pub.curve.P
  on_curve : Spec.OnCurve pub.curve (curveA k1name pub.curve) pub.x pub.y

/-- The curve has an odd prime modulus that fits in the byte size of the curve. -/
structure GoodField (c : Curve) : Prop where
  prime : c.P.Prime
  odd : c.P % 2 = 1
  fits : c.P ≤ 256 ^ c.byteSize

/-- A random draw ends the root search for the square `y²`: it is below `P` and `d² - 4y²` is not a
square modulo `P`. -/
def GoodDraw (P : Nat) (y d : Nat) : Prop :=
  d < P ∧ ¬ IsSquare ((d : ZMod P) ^ 2 - 4 * (y : ZMod P) ^ 2)

/-- **C10**: for every point on a curve over a prime field, the compressed encoding is the SEC 1 one,
it is accepted again, and any finished decoding gives the same key, whatever the random draws. Decoding
finishes at once when `P ≡ 3 (mod 4)` and otherwise as soon as a suitable draw occurs.
(`y = 0` is excluded when `P ≡ 1 (mod 4)`; see `C10_two_torsion_fails`.) -/
theorem C10_compressed_roundtrip (k1name : String) (pub : ECPub) (hF : GoodField pub.curve)
    (hv : ValidPoint k1name pub) (hy : pub.y ≠ 0 ∨ pub.curve.P % 4 = 3) :
    ∃ data, encodePublicKey (some pub) true = .ok data ∧
      data = Spec.sec1Compressed pub.curve.byteSize pub.x pub.y ∧
      ∀ draws,
        (decodePublicKey k1name data (some pub.curve) draws = some (.ok pub) ∨
          decodePublicKey k1name data (some pub.curve) draws = none) ∧
        ((pub.curve.P % 4 = 3 ∨ ∃ d ∈ draws, GoodDraw pub.curve.P pub.y d) →
          decodePublicKey k1name data (some pub.curve) draws = some (.ok pub)) := by
  obtain ⟨hx, hyl, hon⟩ := hv
  obtain ⟨hp, hodd, hfit⟩ := hF
  rw [curveA_eq, onCurve_iff] at hon
  obtain ⟨c, x, y⟩ := pub
  simp only at *
  have : Fact c.P.Prime := ⟨hp⟩
  refine ⟨_, encode_compressed_eq ⟨c, x, y⟩ (lt_of_lt_of_le hx hfit), rfl, ?_⟩
  intro draws
  have hr := ySquareOf_range k1name c hp.pos x
  have hxb : natOfBytes (beFix c.byteSize x) = x := natOfBytes_beFix_of_lt (lt_of_lt_of_le hx hfit)
  have hdec : decodePublicKey k1name (Spec.sec1Compressed c.byteSize x y) (some c) draws =
      deCompress k1name (y % 2) (beFix c.byteSize x) c draws := by
    have h := decode_compressed k1name c (if y % 2 = 1 then 3 else 2) (by split <;> simp)
      (beFix c.byteSize x) [] (beFix_length _ _) draws
    rw [List.append_nil] at h
    unfold Spec.sec1Compressed
    rw [h]
    congr 1
    rcases Nat.mod_two_eq_zero_or_one y with h | h <;> rw [h] <;> rfl
  have hsq : IsSquare ((ySquareOf k1name c x : Int) : ZMod c.P) := by
    rw [← hon, ZMod.intCast_mod]
    exact ⟨(y : ZMod c.P), by push_cast; ring⟩
  have hspec := curveSqrt_spec c.P hodd _ hr.1 hr.2 draws
  have hcases : decodePublicKey k1name (Spec.sec1Compressed c.byteSize x y) (some c) draws
        = some (.ok ⟨c, x, y⟩) ∨
      (decodePublicKey k1name (Spec.sec1Compressed c.byteSize x y) (some c) draws = none ∧
        curveSqrt (ySquareOf k1name c x) c.P draws = none) := by
    rw [hdec]
    cases hs : curveSqrt (ySquareOf k1name c x) c.P draws with
    | none => right; exact ⟨deCompress_run _ _ _ _ _ (by rw [hxb]; exact hs), rfl⟩
    | some o =>
      cases o with
      | none =>
        exfalso
        rcases hspec.2.1 hs with h | ⟨h0, h1⟩
        · exact h hsq
        · rcases hy with hy | hy
          · rw [h0] at hon
            have hz : ((y : Int) : ZMod c.P) * ((y : Int) : ZMod c.P) = 0 := by
              have : (((y : Int) * y % c.P : Int) : ZMod c.P) = ((0 : Int) : ZMod c.P) := by rw [hon]
              rw [ZMod.intCast_mod] at this
              exact_mod_cast this
            have := cast_ne_zero_of_pos c.P (y := (y : Int)) (by omega) (by omega)
            exact this (mul_self_eq_zero.1 hz)
          · omega
      | some r =>
        left
        have hsome := deCompress_some k1name (y % 2) (beFix c.byteSize x) c draws r (by rw [hxb]; exact hs)
        obtain ⟨h1, h2, h3, h4, h5⟩ := deCompress_ok k1name (y % 2) (Nat.mod_lt _ (by omega)) _ c hp hodd
          draws _ hsome
        rw [hsome]
        congr 2
        generalize hpub : (ECPub.mk c (natOfBytes (beFix c.byteSize x)) _) = pub' at *
        obtain ⟨c', x', y'⟩ := pub'
        simp only at h1 h2 h3 h4 h5
        subst h1
        rw [hxb] at h2
        subst h2
        congr 1
        rw [← hon] at h5
        have hy' : y' < c'.P ∨ y' = c'.P := by omega
        rcases hy' with hy' | hy'
        · rcases root_unique c'.P hy' hyl h5 with h | h | ⟨h, h'⟩ <;> omega
        · -- y' = P has the parity of an odd number, y = 0 has not
          subst hy'
          exfalso
          have hz : ((y : Int) * y) % c'.P = 0 := by rw [← h5]; simp
          have hz' : (y : ZMod c'.P) * y = 0 := by
            have : (((y : Int) * y % c'.P : Int) : ZMod c'.P) = ((0 : Int) : ZMod c'.P) := by rw [hz]
            rw [ZMod.intCast_mod] at this
            exact_mod_cast this
          have h0 := mul_self_eq_zero.1 hz'
          rw [ZMod.natCast_eq_zero_iff] at h0
          have : y = 0 := Nat.eq_zero_of_dvd_of_lt h0 hyl
          subst this
          omega
  refine ⟨?_, ?_⟩
  · rcases hcases with h | h
    · exact Or.inl h
    · exact Or.inr h.1
  · intro hg
    rcases hcases with h | ⟨_, h⟩
    · exact h
    · exfalso
      obtain ⟨h1, h2⟩ := hspec.2.2 h
      rcases hg with hg | ⟨d, hd, hlt, hns⟩
      · omega
      · have hD := h2 d hd
        have : drawOk c.P ((ySquareOf k1name c x * 4) % c.P) d = true := by
          rw [drawOk_iff c.P hodd]
          refine ⟨hlt, ?_⟩
          have e : ((ySquareOf k1name c x : Int) : ZMod c.P) = (y : ZMod c.P) ^ 2 := by
            rw [← hon, ZMod.intCast_mod]; push_cast; ring
          rw [e]
          have hne : (d : ZMod c.P) ^ 2 - 4 * (y : ZMod c.P) ^ 2 ≠ 0 := by
            intro h0; rw [h0] at hns; exact hns ⟨0, by simp⟩
          have h3 := ZMod.pow_div_two_eq_neg_one_or_one c.P hne
          have e2 : c.P / 2 = (c.P - 1) / 2 := by omega
          rw [e2] at h3
          rcases h3 with h3 | h3
          · exact absurd ((isSquare_iff_euler c.P (by omega) _ hne).2 h3) hns
          · exact h3
        rw [hD] at this
        cases this

/-- **C11**: the uncompressed encoding is the SEC 1 one and decodes to the same key, for every pair of
coordinates that fit in the byte size of the curve. -/
theorem C11_uncompressed_roundtrip (k1name : String) (pub : ECPub) (draws : List Nat)
    (hx : pub.x < 256 ^ pub.curve.byteSize) (hy : pub.y < 256 ^ pub.curve.byteSize) :
    ∃ data, encodePublicKey (some pub) false = .ok data ∧
      data = Spec.sec1Uncompressed pub.curve.byteSize pub.x pub.y ∧
      decodePublicKey k1name data (some pub.curve) draws = some (.ok pub) := by
  refine ⟨_, encode_uncompressed_eq pub hx hy, rfl, ?_⟩
  unfold Spec.sec1Uncompressed
  have h := decode_uncompressed k1name pub.curve (beFix pub.curve.byteSize pub.x)
    (beFix pub.curve.byteSize pub.y) [] (beFix_length _ _) (beFix_length _ _) draws
  rw [List.append_nil] at h
  rw [h, natOfBytes_beFix_of_lt hx, natOfBytes_beFix_of_lt hy]

/-- **C12 (partial)**: a key decoded from a compressed encoding satisfies the curve equation.
Missing: uncompressed encodings are not checked, see `C12_off_curve_accepted`. -/
theorem C12_decoded_on_curve_partial (k1name : String) (c : Curve) (hF : GoodField c) (data : Bytes)
    (draws : List Nat) (pub : ECPub) (hc : data.head? ≠ some 4)
    (h : decodePublicKey k1name data (some c) draws = some (.ok pub)) :
    pub.curve = c ∧ Spec.OnCurve c (curveA k1name c) pub.x pub.y ∧ pub.y ≤ c.P := by
  rcases decode_ok_cases k1name c data draws pub h with ⟨xb, yb, rest, rfl, _⟩ | ⟨tag, xb, rest, rfl, ht, _, hd⟩
  · exact absurd rfl hc
  · have htag : (tag &&& 1).toNat < 2 := by rcases ht with rfl | rfl <;> decide
    obtain ⟨h1, h2, h3, h4, h5⟩ := deCompress_ok k1name _ htag xb c hF.prime hF.odd draws pub hd
    exact ⟨h1, by rw [curveA_eq, onCurve_iff]; exact h5, h3⟩

/-- C12 does not hold for uncompressed encodings: on every curve with a byte size of at least one and a
`B` other than `3` modulo `P`, the string for `(1, 1)` is accepted although `1 ≠ 1 - 3 + B`. -/
theorem C12_off_curve_accepted (k1name : String) (hk : k1name ≠ "sm2p256v1") :
    ∃ data pub, (∀ draws, decodePublicKey k1name data (some Curves.sm2) draws = some (.ok pub)) ∧
      ¬ Spec.OnCurve Curves.sm2 (curveA k1name Curves.sm2) pub.x pub.y := by
  refine ⟨Spec.sec1Uncompressed 32 1 1, ⟨Curves.sm2, 1, 1⟩, ?_, ?_⟩
  · intro draws
    obtain ⟨data, _, h2, h3⟩ := C11_uncompressed_roundtrip k1name ⟨Curves.sm2, 1, 1⟩ draws
      (by decide +kernel) (by decide +kernel)
    rw [h2] at h3
    exact h3
  · have : curveA k1name Curves.sm2 = -3 := by
      unfold curveA; rw [if_neg]; exact fun h => hk h.symm
    rw [this]
    decide +kernel

/-- **C13**: the modular square root. For every odd prime `P` (both residues modulo 4), every `y` in
`[0, P)` and all random draws: a returned value is a reduced root of `y`; "no root" is reported only when
`y` has none (or `y = 0` and `P ≡ 1 (mod 4)`, see `C13_zero_fails`); and the search finishes at once if
`P ≡ 3 (mod 4)` or `y` is not a nonzero square, and otherwise on the first draw `d < P` such that
`d² - 4y` is not a square. -/
theorem C13_curveSqrt (P : Nat) (hp : P.Prime) (hodd : P % 2 = 1) (y : Int) (h0 : 0 ≤ y) (hlt : y < P)
    (draws : List Nat) :
    (∀ r, curveSqrt y P draws = some (some r) → 0 ≤ r ∧ r < P ∧ r * r % P = y) ∧
    (curveSqrt y P draws = some none → ¬ IsSquare (y : ZMod P) ∨ (y = 0 ∧ P % 4 = 1)) ∧
    (¬ IsSquare (y : ZMod P) → curveSqrt y P draws = some none) ∧
    ((P % 4 = 3 ∨ ∃ d ∈ draws, d < P ∧ ¬ IsSquare ((d : ZMod P) ^ 2 - 4 * (y : ZMod P))) →
      curveSqrt y P draws ≠ none) := by
  have : Fact P.Prime := ⟨hp⟩
  obtain ⟨h1, h2, h3⟩ := curveSqrt_spec P hodd y h0 hlt draws
  refine ⟨fun r h => h1 r h, h2, ?_, ?_⟩
  · intro hns
    cases hs : curveSqrt y P draws with
    | none =>
      exfalso
      have h4 := (h3 hs).1
      unfold curveSqrt at hs
      have hb : ¬ P.testBit 1 = true := by rw [testBit_one]; omega
      rw [if_neg hb] at hs
      by_cases he : expMod y ((P - 1) / 2) P ≠ 1
      · rw [if_pos he] at hs; cases hs
      · have he' : expMod y ((P - 1) / 2) P = 1 := by simpa using he
        have hQ : (y : ZMod P) ^ ((P - 1) / 2) = 1 := by rw [← cast_expMod, he']; simp
        by_cases hz : (y : ZMod P) = 0
        · apply hns; rw [hz]; exact ⟨0, by simp⟩
        · exact hns ((isSquare_iff_euler P (by omega) _ hz).2 hQ)
    | some o =>
      cases o with
      | none => rfl
      | some r =>
        exfalso
        obtain ⟨_, _, hr⟩ := h1 r hs
        apply hns
        refine ⟨(r : ZMod P), ?_⟩
        rw [← hr, ZMod.intCast_mod]; push_cast; ring
  · intro hg hs
    obtain ⟨h4, h5⟩ := h3 hs
    rcases hg with hg | ⟨d, hd, hdl, hns⟩
    · omega
    · have hD := h5 d hd
      have hne : (d : ZMod P) ^ 2 - 4 * (y : ZMod P) ≠ 0 := by
        intro h0; rw [h0] at hns; exact hns ⟨0, by simp⟩
      have : drawOk P ((y * 4) % P) d = true := by
        rw [drawOk_iff P hodd]
        refine ⟨hdl, ?_⟩
        have h6 := ZMod.pow_div_two_eq_neg_one_or_one P hne
        have e2 : P / 2 = (P - 1) / 2 := by omega
        rw [e2] at h6
        rcases h6 with h6 | h6
        · exact absurd ((isSquare_iff_euler P (by omega) _ hne).2 h6) hns
        · exact h6
      rw [hD] at this; cases this

/-- For `P ≡ 1 (mod 4)` the square `0` is reported as having no root. -/
theorem C13_zero_fails (P : Nat) (hp : P.Prime) (h4 : P % 4 = 1) (draws : List Nat) :
    curveSqrt 0 P draws = some none := by
  have : Fact P.Prime := ⟨hp⟩
  have h5 : P ≠ 1 := hp.one_lt.ne'
  unfold curveSqrt
  rw [if_neg (by rw [testBit_one]; omega), if_pos]
  rw [expMod_eq, zero_pow (by omega)]
  simp

/-- Consequently a point with `y = 0` on such a curve does not survive compression. -/
theorem C10_two_torsion_fails (k1name : String) (pub : ECPub) (hF : GoodField pub.curve)
    (hv : ValidPoint k1name pub) (h4 : pub.curve.P % 4 = 1) (hy : pub.y = 0) (draws : List Nat) :
    ∃ data, encodePublicKey (some pub) true = .ok data ∧
      decodePublicKey k1name data (some pub.curve) draws = some (.err "Invalid point compression") := by
  obtain ⟨hx, hyl, hon⟩ := hv
  obtain ⟨hp, hodd, hfit⟩ := hF
  rw [curveA_eq, onCurve_iff] at hon
  obtain ⟨c, x, y⟩ := pub
  simp only at *
  subst hy
  refine ⟨_, encode_compressed_eq ⟨c, x, 0⟩ (lt_of_lt_of_le hx hfit), ?_⟩
  have hxb : natOfBytes (beFix c.byteSize x) = x := natOfBytes_beFix_of_lt (lt_of_lt_of_le hx hfit)
  have h := decode_compressed k1name c 2 (Or.inl rfl)
      (beFix c.byteSize x) [] (beFix_length _ _) draws
  rw [List.append_nil] at h
  have e : Spec.sec1Compressed (ECPub.mk c x 0).curve.byteSize (ECPub.mk c x 0).x (ECPub.mk c x 0).y
    = 2 :: beFix c.byteSize x := rfl
  rw [e, h]
  apply deCompress_none
  rw [hxb, ← hon]
  simpa using C13_zero_fails c.P hp h4 draws

/-- **C14 (partial)**: among strings of the exact length, decoding is injective in each of the two
modes. Missing: trailing bytes are ignored (`C14_trailing_bytes_accepted`), and the compressed and
uncompressed form of the same point decode to the same key. -/
theorem C14_decode_injective_partial (k1name : String) (c : Curve) (hF : GoodField c) (d₁ d₂ : Bytes)
    (draws₁ draws₂ : List Nat) (pub : ECPub)
    (hl : d₁.length = d₂.length)
    (hlen : (d₁.head? = some 4 ∧ d₁.length = 2 * c.byteSize + 1) ∨
      (d₁.head? ≠ some 4 ∧ d₁.length = c.byteSize + 1))
    (hmode : d₁.head? = some 4 ↔ d₂.head? = some 4)
    (h₁ : decodePublicKey k1name d₁ (some c) draws₁ = some (.ok pub))
    (h₂ : decodePublicKey k1name d₂ (some c) draws₂ = some (.ok pub)) : d₁ = d₂ := by
  rcases decode_ok_cases k1name c d₁ draws₁ pub h₁ with ⟨xb, yb, rest, rfl, hx, hy, rfl⟩ | ⟨tag, xb, rest, rfl, ht, hx, hd⟩
  · rcases decode_ok_cases k1name c d₂ draws₂ _ h₂ with ⟨xb', yb', rest', rfl, hx', hy', hp⟩ | ⟨tag', xb', rest', rfl, ht', _⟩
    · simp only [ECPub.mk.injEq, true_and] at hp
      have ex := natOfBytes_inj (by rw [hx, hx']) hp.1
      have ey := natOfBytes_inj (by rw [hy, hy']) hp.2
      subst ex ey
      simp only [List.length_cons, List.length_append, hx, hy, List.head?_cons] at hlen hl
      have hr : rest.length = 0 := by
        rcases hlen with h | h
        · omega
        · exact absurd rfl h.1
      have hr' : rest'.length = 0 := by omega
      rw [List.eq_nil_of_length_eq_zero hr, List.eq_nil_of_length_eq_zero hr']
    · exfalso
      have := hmode.1 rfl
      simp only [List.head?_cons, Option.some.injEq] at this
      subst this
      rcases ht' with h | h <;> exact absurd h (by decide)
  · rcases decode_ok_cases k1name c d₂ draws₂ _ h₂ with ⟨xb', yb', rest', rfl, hx', hy', hp⟩ | ⟨tag', xb', rest', rfl, ht', hx', hd'⟩
    · exfalso
      have := hmode.2 rfl
      simp only [List.head?_cons, Option.some.injEq] at this
      subst this
      rcases ht with h | h <;> exact absurd h (by decide)
    · have htag : (tag &&& 1).toNat < 2 := by rcases ht with rfl | rfl <;> decide
      have htag' : (tag' &&& 1).toNat < 2 := by rcases ht' with rfl | rfl <;> decide
      obtain ⟨_, h2, _, h4, _⟩ := deCompress_ok k1name _ htag xb c hF.prime hF.odd _ pub hd
      obtain ⟨_, h2', _, h4', _⟩ := deCompress_ok k1name _ htag' xb' c hF.prime hF.odd _ pub hd'
      have ex := natOfBytes_inj (by rw [hx, hx']) (h2.symm.trans h2')
      subst ex
      have et : tag = tag' := by
        rw [h4] at h4'
        rcases ht with rfl | rfl <;> rcases ht' with rfl | rfl <;> first | rfl | (exact absurd h4' (by decide))
      subst et
      simp only [List.length_cons, List.length_append, hx, List.head?_cons] at hlen hl
      have hr : rest.length = 0 := by
        rcases hlen with h | h
        · exfalso
          have := h.1
          simp only [Option.some.injEq] at this
          subst this
          rcases ht with h | h <;> exact absurd h (by decide)
        · omega
      have hr' : rest'.length = 0 := by omega
      rw [List.eq_nil_of_length_eq_zero hr, List.eq_nil_of_length_eq_zero hr']

/-- C14 does not hold: any bytes after a decodable string are ignored. -/
theorem C14_trailing_bytes_accepted (k1name : String) (c : Curve) (data extra : Bytes) (draws : List Nat)
    (pub : ECPub) (h : decodePublicKey k1name data (some c) draws = some (.ok pub)) :
    decodePublicKey k1name (data ++ extra) (some c) draws = some (.ok pub) := by
  rcases decode_ok_cases k1name c data draws pub h with ⟨xb, yb, rest, rfl, hx, hy, rfl⟩ | ⟨tag, xb, rest, rfl, ht, hx, hd⟩
  · have := decode_uncompressed k1name c xb yb (rest ++ extra) hx hy draws
    rw [← this]; simp
  · have := decode_compressed k1name c tag ht xb (rest ++ extra) hx draws
    rw [← hd, ← this]; simp

/-- An x-coordinate that is not below `P` is kept unreduced: on the SM2 curve the compressed strings
for `x` and `x + P` both decode, to different keys for the same point of the curve. -/
theorem C14_unreduced_x_accepted (k1name : String) (hk : k1name ≠ "sm2p256v1") :
    ∃ d pub, (∀ draws, decodePublicKey k1name d (some Curves.sm2) draws = some (.ok pub)) ∧
      Curves.sm2.P ≤ pub.x := by
  have hy : ∀ x, ySquareOf k1name Curves.sm2 x = ySquareOf "" Curves.sm2 x := by
    intro x
    rw [ySquareOf_eq, ySquareOf_eq]
    unfold coefA
    rw [if_pos (show Curves.sm2.name ≠ k1name from fun h => hk h.symm),
      if_pos (show Curves.sm2.name ≠ "" by decide)]
  have hs : ∀ draws, curveSqrt (ySquareOf k1name Curves.sm2 (Curves.sm2.P + 7)) Curves.sm2.P draws =
      some (some 107455396689129937776843329661412821735368095154051518288908570439785480490562) := by
    intro draws
    rw [hy]
    unfold curveSqrt
    rw [if_pos (by decide +kernel)]
    have : sqrt3mod4 (ySquareOf "" Curves.sm2 (Curves.sm2.P + 7)) Curves.sm2.P = some 107455396689129937776843329661412821735368095154051518288908570439785480490562 := by
      decide +kernel
    rw [this]
  have hb : natOfBytes (beFix 32 (Curves.sm2.P + 7)) = Curves.sm2.P + 7 :=
    natOfBytes_beFix_of_lt (by decide +kernel)
  refine ⟨2 :: beFix 32 (Curves.sm2.P + 7), 
    ECPub.mk Curves.sm2 (Curves.sm2.P + 7) 107455396689129937776843329661412821735368095154051518288908570439785480490562, fun draws => ?_, ?_⟩
  · have h := decode_compressed k1name Curves.sm2 2 (Or.inl rfl) (beFix 32 (Curves.sm2.P + 7)) []
      (by decide +kernel) draws
    rw [List.append_nil] at h
    rw [h, deCompress_some _ _ _ _ _ 107455396689129937776843329661412821735368095154051518288908570439785480490562 (by rw [hb]; exact hs draws), hb,
      if_neg (by decide +kernel)]
    rfl
  · exact Nat.le_add_right _ _

/-! ## Lucas sequences (C61) -/

/-- **C61 (partial)**: for every `k > 0` the second result of `fastLucasSequence` is `V_k (P, Q)` modulo
`p`, and for odd `k` the first is `U_k (P, Q)`. (`Lucas.V`, `Lucas.U` are the textbook recurrences.)
Missing: `U_k` for even `k`, see `C61_even_U_wrong`; the library only uses odd `k`. -/
theorem C61_lucas_partial (p : Nat) (hp : 0 < p) (P Q : Int) (k : Nat) (hk : 0 < k) :
    (((fastLucasSequence p P Q k).2 : Int) : ZMod p) = Lucas.V (P : ZMod p) (Q : ZMod p) k ∧
    0 ≤ (fastLucasSequence p P Q k).2 ∧ (fastLucasSequence p P Q k).2 < p ∧
    (k % 2 = 1 → (((fastLucasSequence p P Q k).1 : Int) : ZMod p) = Lucas.U (P : ZMod p) (Q : ZMod p) k ∧
      0 ≤ (fastLucasSequence p P Q k).1 ∧ (fastLucasSequence p P Q k).1 < p) := by
  obtain ⟨h1, h2, h3⟩ := fastLucas_V p hp P Q k (by omega)
  exact ⟨h1, h2, h3, fun ho => fastLucas_U_odd p hp P Q k ho⟩

/-- For even `k` the first result is not `U_k`: `U_2 (1, -1) = 1`, but the routine returns a multiple of
the modulus (it multiplies by the prime where it should reduce). -/
theorem C61_even_U_wrong :
    (((fastLucasSequence 13 1 (-1) 2).1 : Int) : ZMod 13) ≠ Lucas.U (1 : ZMod 13) (-1 : ZMod 13) 2 := by
  decide +kernel

/-! ## The supported curves -/

/-- Every supported curve has an odd prime modulus of the right size. -/
theorem supported_goodField (k1name : String) (c : Curve) (hc : c ∈ Curves.all k1name) : GoodField c := by
  simp only [Curves.all, List.mem_cons, List.not_mem_nil, or_false] at hc
  rcases hc with rfl | rfl | rfl | rfl | rfl | rfl
  · exact ⟨Curves.p224_prime, by decide +kernel, by decide +kernel⟩
  · exact ⟨Curves.p256_prime, by decide +kernel, by decide +kernel⟩
  · exact ⟨Curves.p384_prime, by decide +kernel, by decide +kernel⟩
  · exact ⟨Curves.p521_prime, by decide +kernel, by decide +kernel⟩
  · exact ⟨Curves.secp256k1_prime,
      show (Curves.secp256k1 "").P % 2 = 1 by decide +kernel,
      show (Curves.secp256k1 "").P ≤ 256 ^ (Curves.secp256k1 "").byteSize by decide +kernel⟩
  · exact ⟨Curves.sm2_prime, by decide +kernel, by decide +kernel⟩

/-- P-224 has no point with `y = 0`. -/
theorem p224_y_ne_zero (k1name : String) (hk : k1name ≠ "P-224") (x y : Nat)
    (h : Spec.OnCurve Curves.p224 (curveA k1name Curves.p224) x y) : y ≠ 0 := by
  rintro rfl
  have hA : curveA k1name Curves.p224 = -3 := by
    unfold curveA; rw [if_neg]; exact fun h => hk h.symm
  rw [hA] at h
  unfold Spec.OnCurve at h
  have hd := Int.dvd_of_emod_eq_zero h
  rw [← ZMod.intCast_zmod_eq_zero_iff_dvd] at hd
  apply Curves.p224_no_root (x : ZMod Curves.p224.P)
  have e3 : ((26959946667150639794667015087019630673557916260026308143510066298878 : ℕ) : ZMod Curves.p224.P)
      = -3 := by
    have : ((26959946667150639794667015087019630673557916260026308143510066298878 + 3 : ℕ) : ZMod Curves.p224.P)
        = ((Curves.p224.P : ℕ) : ZMod Curves.p224.P) := by
      rw [show 26959946667150639794667015087019630673557916260026308143510066298878 + 3 = Curves.p224.P by
        decide +kernel]
    rw [Nat.cast_add, ZMod.natCast_self] at this
    push_cast at this ⊢
    linear_combination this
  rw [e3]
  push_cast at hd
  linear_combination -hd

/-- **C10** for the six supported curves: every point of the curve survives compression, whatever the
random draws (only P-224 uses draws). -/
theorem C10_supported_curves (k1name : String) (hk : k1name = "" ∨ k1name = "secp256k1") (pub : ECPub)
    (hc : pub.curve ∈ Curves.all k1name) (hv : ValidPoint k1name pub) :
    ∃ data, encodePublicKey (some pub) true = .ok data ∧
      data = Spec.sec1Compressed pub.curve.byteSize pub.x pub.y ∧
      ∀ draws,
        (decodePublicKey k1name data (some pub.curve) draws = some (.ok pub) ∨
          decodePublicKey k1name data (some pub.curve) draws = none) ∧
        ((pub.curve ≠ Curves.p224 ∨ ∃ d ∈ draws, GoodDraw pub.curve.P pub.y d) →
          decodePublicKey k1name data (some pub.curve) draws = some (.ok pub)) := by
  have hmod : pub.curve = Curves.p224 ∨ pub.curve.P % 4 = 3 := by
    simp only [Curves.all, List.mem_cons, List.not_mem_nil, or_false] at hc
    rcases hc with h | h | h | h | h | h
    · exact Or.inl h
    · right; rw [h]; decide +kernel
    · right; rw [h]; decide +kernel
    · right; rw [h]; decide +kernel
    · right; rw [h]; exact (show (Curves.secp256k1 "").P % 4 = 3 by decide +kernel)
    · right; rw [h]; decide +kernel
  have hy : pub.y ≠ 0 ∨ pub.curve.P % 4 = 3 := by
    rcases hmod with h | h
    · left
      have := hv.on_curve
      rw [h] at this
      exact p224_y_ne_zero k1name (by rcases hk with rfl | rfl <;> decide) _ _ this
    · exact Or.inr h
  obtain ⟨data, h1, h2, h3⟩ := C10_compressed_roundtrip k1name pub (supported_goodField k1name _ hc) hv hy
  refine ⟨data, h1, h2, fun draws => ⟨(h3 draws).1, fun hg => (h3 draws).2 ?_⟩⟩
  rcases hg with hg | hg
  · exact Or.inl (hmod.resolve_left hg)
  · exact Or.inr hg

/-! ## Non-vacuity -/

/-- The base points are valid, so C10 applies to them. -/
example : ValidPoint "" ⟨Curves.sm2, Curves.sm2.Gx, Curves.sm2.Gy⟩ ∧
    ValidPoint "" ⟨Curves.p224, Curves.p224.Gx, Curves.p224.Gy⟩ ∧
    ValidPoint "" ⟨Curves.secp256k1 "", (Curves.secp256k1 "").Gx, (Curves.secp256k1 "").Gy⟩ :=
  ⟨⟨by decide +kernel, by decide +kernel, by decide +kernel⟩,
   ⟨by decide +kernel, by decide +kernel, by decide +kernel⟩,
   ⟨by decide +kernel, by decide +kernel, by decide +kernel⟩⟩

/-- Decompression of the P-224 base point really needs a draw: without one it does not finish, and
an admissible draw ends the search with the right point. -/
example : decodePublicKey "" (Spec.sec1Compressed 28 Curves.p224.Gx Curves.p224.Gy) (some Curves.p224) [] = none ∧
    ∃ d, decodePublicKey "" (Spec.sec1Compressed 28 Curves.p224.Gx Curves.p224.Gy) (some Curves.p224) [d]
      = some (.ok ⟨Curves.p224, Curves.p224.Gx, Curves.p224.Gy⟩) := by
  refine ⟨by decide +kernel, 5, by decide +kernel⟩

/-- A toy curve with `P = 13 ≡ 1 (mod 4)`: y² = x³ - 3x + 2 has the point (1, 0) of order two. -/
def toy13 : Curve := { name := "toy", P := 13, N := 1, B := 2, Gx := 2, Gy := 2, bitSize := 8 }

example : GoodField toy13 ∧ ValidPoint "" ⟨toy13, 2, 2⟩ ∧ ValidPoint "" ⟨toy13, 1, 0⟩ ∧ GoodDraw 13 2 1 :=
  ⟨⟨by decide, by decide, by decide⟩, ⟨by decide, by decide, by decide⟩,
   ⟨by decide, by decide, by decide⟩, by decide, by decide⟩

example : curveSqrt 4 13 [1] = some (some 2) ∨ curveSqrt 4 13 [1] = some (some 11) := by decide +kernel
example : curveSqrt 2 13 [] = some none := by decide +kernel
example : curveSqrt 2 7 [] = some (some 4) := by decide +kernel
example : curveSqrt 3 7 [] = some none := by decide +kernel

end Verif.Props
