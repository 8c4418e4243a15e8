import Verif.Lemmas.Draws
import Verif.Props.EC
/-!
# C125: how many random numbers decompression needs
-/
namespace Verif.Props
open Verif Verif.EC

/-- Two decompressed keys with the same x and parity are the same. -/
theorem same_key {k1name : String} {t : Nat} (ht : t < 2) {xb : Bytes} {c : Curve} (hp : c.P.Prime) (hodd : c.P % 2 = 1)
    (hne : ((ySquareOf k1name c (natOfBytes xb) : Int) : ZMod c.P) ≠ 0) {d d' : List Nat} {q q' : ECPub}
    (h : deCompress k1name t xb c d = some (.ok q)) (h' : deCompress k1name t xb c d' = some (.ok q')) : q = q' := by
  have : Fact c.P.Prime := ⟨hp⟩
  obtain ⟨a1, a2, a3, a4, a5⟩ := deCompress_ok k1name t ht xb c hp hodd d q h
  obtain ⟨b1, b2, b3, b4, b5⟩ := deCompress_ok k1name t ht xb c hp hodd d' q' h'
  obtain ⟨c1, x1, y1⟩ := q
  obtain ⟨c2, x2, y2⟩ := q'
  simp only at a1 a2 a3 a4 a5 b1 b2 b3 b4 b5
  subst a1 a2 b1 b2
  have lt : ∀ y : Nat, y ≤ c2.P → ((y : Int) * y) % c2.P = ySquareOf k1name c2 (natOfBytes xb) → y < c2.P := by
    intro y hy e
    rcases Nat.lt_or_eq_of_le hy with hlt | rfl
    · exact hlt
    · exfalso
      apply hne
      rw [← e]
      simp
  congr 1
  rcases root_unique c2.P (lt _ a3 a5) (lt _ b3 b5) (a5.trans b5.symm) with h | h | ⟨h, h'⟩
  · exact h
  · omega
  · omega

/-- The draws that are not enough, for a root of a square that is not 0. -/
theorem unfinished_count (p : Nat) [hp : Fact p.Prime] (hodd : p % 2 = 1) (y : ZMod p) (hy : y ≠ 0) (hs : IsSquare y)
    (n : Nat) : {draws : List Nat | draws.length = n ∧ (∀ d ∈ draws, d < p) ∧
      ∀ d ∈ draws, d < p → IsSquare ((d : ZMod p) ^ 2 - 4 * y)}.ncard = ((p + 1) / 2) ^ n := by
  rw [← card_bad p (by omega) y hy hs, ← ncard_lists]
  congr 1
  ext l
  simp only [Set.mem_ofPred_eq, Finset.mem_filter, Finset.mem_range]
  exact ⟨fun h => ⟨h.1, fun d hd => ⟨h.2.1 d hd, h.2.2 d hd (h.2.1 d hd)⟩⟩,
    fun h => ⟨h.1, fun d hd => (h.2 d hd).1, fun d hd _ => (h.2 d hd).2⟩⟩

/-- **C125** Decoding any bytes as a public key on a curve over a prime field needs no random numbers, or it returns one
fixed key as soon as the numbers drawn are good enough. Of the `P ^ n` sequences of `n` numbers below `P` exactly
`((P + 1) / 2) ^ n` are not good enough: for uniform draws each one ends the search with the probability
`(P - 1) / (2 P)`, whatever is decoded. -/
theorem C125_draws (k1name : String) (c : Curve) (hF : GoodField c) (data : Bytes) :
    (∃ r, ∀ draws, decodePublicKey k1name data (some c) draws = some r) ∨
    ∃ key, (∀ draws, decodePublicKey k1name data (some c) draws = some (.ok key) ∨
        decodePublicKey k1name data (some c) draws = none) ∧
      ∀ n, {draws : List Nat | draws.length = n ∧ (∀ d ∈ draws, d < c.P) ∧
        decodePublicKey k1name data (some c) draws = none}.ncard = ((c.P + 1) / 2) ^ n := by
  obtain ⟨hp, hodd, hfit⟩ := hF
  have : Fact c.P.Prime := ⟨hp⟩
  by_cases hl : data.length < c.byteSize + 1
  · left; unfold decodePublicKey; simp only [if_pos hl]; exact ⟨_, fun _ => rfl⟩
  by_cases h4 : data.getD 0 0 = 4
  · left; unfold decodePublicKey; simp only [if_neg hl, if_pos h4]
    by_cases h5 : data.length < c.byteSize * 2 + 1
    · simp only [if_pos h5]; exact ⟨_, fun _ => rfl⟩
    · simp only [if_neg h5]; exact ⟨_, fun _ => rfl⟩
  by_cases h23 : data.getD 0 0 = 2 ∨ data.getD 0 0 = 3
  · have e : ∀ draws, decodePublicKey k1name data (some c) draws =
        deCompress k1name (data.getD 0 0 &&& 1).toNat ((data.drop 1).take c.byteSize) c draws := by
      intro draws
      unfold decodePublicKey
      simp only [if_neg hl, if_neg h4, if_pos h23]
    have ht : (data.getD 0 0 &&& 1).toNat < 2 := by rcases h23 with h | h <;> rw [h] <;> decide
    simp only [e]
    generalize (data.getD 0 0 &&& 1).toNat = t at ht
    generalize (data.drop 1).take c.byteSize = xb
    have hr := ySquareOf_range k1name c hp.pos (natOfBytes xb)
    rcases curveSqrt_draws c.P hodd _ hr.1 hr.2 with ⟨r, h⟩ | ⟨⟨hne, hs, hcase⟩, hnone⟩
    · left
      cases r with
      | none => exact ⟨_, fun draws => deCompress_none _ _ _ _ _ (h draws)⟩
      | some r => exact ⟨_, fun draws => deCompress_some _ _ _ _ _ _ (h draws)⟩
    · right
      have hfin : ∀ draws, deCompress k1name t xb c draws = none ↔
          curveSqrt (ySquareOf k1name c (natOfBytes xb)) c.P draws = none := by
        intro draws
        refine ⟨fun h => ?_, deCompress_run _ _ _ _ _⟩
        rcases hcase draws with ⟨r, hr⟩ | hn
        · rw [deCompress_some _ _ _ _ _ _ hr] at h; cases h
        · exact hn
      have hok : ∀ draws, (∃ q, deCompress k1name t xb c draws = some (.ok q)) ∨ deCompress k1name t xb c draws = none := by
        intro draws
        rcases hcase draws with ⟨r, hr⟩ | hn
        · exact .inl ⟨_, deCompress_some _ _ _ _ _ _ hr⟩
        · exact .inr ((hfin draws).2 hn)
      have hcount : ∀ n, {draws : List Nat | draws.length = n ∧ (∀ d ∈ draws, d < c.P) ∧
          deCompress k1name t xb c draws = none}.ncard = ((c.P + 1) / 2) ^ n := by
        intro n
        rw [← unfinished_count c.P hodd _ hne hs n]
        congr 1
        ext l
        simp only [Set.mem_ofPred_eq, hfin, hnone]
      by_cases hex : ∃ draws q, deCompress k1name t xb c draws = some (.ok q)
      · obtain ⟨d, q, hq⟩ := hex
        refine ⟨q, fun draws => ?_, hcount⟩
        rcases hok draws with ⟨q', h⟩ | h
        · left; rw [h, same_key ht hp hodd hne h hq]
        · exact .inr h
      · refine ⟨⟨c, 0, 0⟩, fun draws => .inr ?_, hcount⟩
        rcases hok draws with ⟨q', h⟩ | h
        · exact absurd ⟨draws, q', h⟩ hex
        · exact h
  · left; unfold decodePublicKey; simp only [if_neg hl, if_neg h4, if_neg h23]; exact ⟨_, fun _ => rfl⟩

/-- Without random numbers the root of a square that is not 0 is not found when `p ≡ 1 (mod 4)`. -/
theorem curveSqrt_nil (p : Nat) [hp : Fact p.Prime] (h4 : p % 4 = 1) (y : Int) (hy : (y : ZMod p) ≠ 0)
    (hs : IsSquare (y : ZMod p)) : curveSqrt y p [] = none := by
  have h2 := hp.out.two_le
  have hr := expMod_range p y ((p - 1) / 2)
  have he : expMod y ((p - 1) / 2) p = 1 := by
    apply int_eq_of_cast p _ hr.1 hr.2 (by omega) (by omega)
    rw [cast_expMod, (isSquare_iff_euler p (by omega) _ hy).1 hs]; simp
  unfold curveSqrt
  rw [if_neg (by rw [testBit_one]; omega), if_neg (not_not.2 he)]
  rfl

theorem decode_nil (k1name : String) (pub : ECPub) (hF : GoodField pub.curve) (hv : ValidPoint k1name pub)
    (hy : pub.y ≠ 0) (h4 : pub.curve.P % 4 = 1) :
    decodePublicKey k1name (Spec.sec1Compressed pub.curve.byteSize pub.x pub.y) (some pub.curve) [] = none := by
  obtain ⟨hx, hyl, hon⟩ := hv
  obtain ⟨hp, hodd, hfit⟩ := hF
  rw [curveA_eq, onCurve_iff] at hon
  obtain ⟨c, x, y⟩ := pub
  simp only at *
  have : Fact c.P.Prime := ⟨hp⟩
  have hxb : natOfBytes (beFix c.byteSize x) = x := natOfBytes_beFix_of_lt (lt_of_lt_of_le hx hfit)
  have h := decode_compressed k1name c (if y % 2 = 1 then 3 else 2) (by split <;> simp)
    (beFix c.byteSize x) [] (beFix_length _ _) []
  rw [List.append_nil] at h
  unfold Spec.sec1Compressed
  rw [h]
  apply deCompress_run
  rw [hxb]
  have e : ((ySquareOf k1name c x : Int) : ZMod c.P) = (y : ZMod c.P) * y := by
    rw [← hon, ZMod.intCast_mod]; push_cast; rfl
  apply curveSqrt_nil _ h4
  · rw [e]
    intro h0
    have := mul_self_eq_zero.1 h0
    rw [ZMod.natCast_eq_zero_iff] at this
    exact hy (Nat.eq_zero_of_dvd_of_lt this hyl)
  · rw [e]; exact ⟨_, rfl⟩

/-- **C125** for the compressed encoding of a point with `P ≡ 1 (mod 4)`: exactly `((P + 1) / 2) ^ n` of the sequences of
`n` numbers below `P` are not enough to get the point back. -/
theorem C125_point (k1name : String) (pub : ECPub) (hF : GoodField pub.curve) (hv : ValidPoint k1name pub)
    (hy : pub.y ≠ 0) (h4 : pub.curve.P % 4 = 1) :
    ∃ data, encodePublicKey (some pub) true = .ok data ∧ ∀ n,
      {draws : List Nat | draws.length = n ∧ (∀ d ∈ draws, d < pub.curve.P) ∧
        decodePublicKey k1name data (some pub.curve) draws ≠ some (.ok pub)}.ncard = ((pub.curve.P + 1) / 2) ^ n := by
  obtain ⟨data, h1, h2, h3⟩ := C10_compressed_roundtrip k1name pub hF hv (.inl hy)
  refine ⟨data, h1, fun n => ?_⟩
  have hnil := decode_nil k1name pub hF hv hy h4
  rw [← h2] at hnil
  rcases C125_draws k1name pub.curve hF data with ⟨r, h⟩ | ⟨key, -, h⟩
  · rw [h []] at hnil; cases hnil
  · rw [← h n]
    congr 1
    ext l
    simp only [Set.mem_ofPred_eq]
    refine and_congr_right fun _ => and_congr_right fun _ => ?_
    rcases (h3 l).1 with h | h <;> rw [h] <;> simp

/-- **C125** for the supported curves: only P-224 needs random numbers. -/
theorem C125_supported (k1name : String) (hk : k1name = "" ∨ k1name = "secp256k1") (pub : ECPub)
    (hc : pub.curve ∈ Curves.all k1name) (hv : ValidPoint k1name pub) :
    ∃ data, encodePublicKey (some pub) true = .ok data ∧
      (pub.curve ≠ Curves.p224 → ∀ draws, decodePublicKey k1name data (some pub.curve) draws = some (.ok pub)) ∧
      (pub.curve = Curves.p224 → ∀ n, {draws : List Nat | draws.length = n ∧ (∀ d ∈ draws, d < pub.curve.P) ∧
        decodePublicKey k1name data (some pub.curve) draws ≠ some (.ok pub)}.ncard = ((pub.curve.P + 1) / 2) ^ n) := by
  obtain ⟨data, h1, -, h3⟩ := C10_supported_curves k1name hk pub hc hv
  refine ⟨data, h1, fun h draws => (h3 draws).2 (.inl h), fun h => ?_⟩
  have hy : pub.y ≠ 0 := by
    have := hv.on_curve
    rw [h] at this
    exact p224_y_ne_zero k1name (by rcases hk with rfl | rfl <;> decide) _ _ this
  obtain ⟨data', h1', h2'⟩ := C125_point k1name pub (supported_goodField k1name _ hc) hv hy
    (by rw [h]; decide +kernel)
  rw [h1] at h1'
  cases h1'
  exact h2'

/-! Both cases occur. -/

/-- The base point of P-224 meets the hypotheses; the draw 5 is enough, so the key in `C125_draws` is that point. -/
example : ValidPoint "" ⟨Curves.p224, Curves.p224.Gx, Curves.p224.Gy⟩ ∧ Curves.p224 ∈ Curves.all "" ∧
    decodePublicKey "" (Spec.sec1Compressed 28 Curves.p224.Gx Curves.p224.Gy) (some Curves.p224) [5]
      = some (.ok ⟨Curves.p224, Curves.p224.Gx, Curves.p224.Gy⟩) :=
  ⟨⟨by decide +kernel, by decide +kernel, by decide +kernel⟩, by simp [Curves.all], by decide +kernel⟩

/-- With the modulus 13, seven of the thirteen numbers are not enough for the point (2, 2). -/
example : ((List.range 13).filter fun d =>
    decodePublicKey "" (Spec.sec1Compressed 1 2 2) (some toy13) [d] ≠ some (.ok ⟨toy13, 2, 2⟩)).length = 7 := by
  decide +kernel

end Verif.Props
