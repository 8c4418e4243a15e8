import Verif.Props.Draws
import Verif.Lemmas.VRF
/-! # C125 for DeserializePublicKey and DeserializePrivateKey -/
namespace Verif.Props
open Verif Verif.EC Verif.Keypair

theorem getCurve_all {E : Ext} {label : Byte} {c : Curve} (h : getCurve E label = .ok c) :
    c ∈ Curves.all E.k1name := by
  unfold getCurve at h
  split_ifs at h <;> (cases h; simp [Curves.all])

theorem decode_none_p224 {k1name : String} {c : Curve} (hc : c ∈ Curves.all k1name) {data : Bytes} {draws : List Nat}
    (h : decodePublicKey k1name data (some c) draws = none) : c = Curves.p224 := by
  rcases VRF.p224_or c hc with hc | h4
  · exact hc
  · exfalso
    have hb : c.P.testBit 1 = true := (testBit_one _).2 (.inr h4)
    revert h
    unfold decodePublicKey deCompress curveSqrt
    simp only [hb, if_true]
    split_ifs <;> simp

/-- Decoding: two runs that end give the same. -/
theorem decode_runs {k1name : String} {c : Curve} (hc : c ∈ Curves.all k1name) (data : Bytes) (d₁ d₂ : List Nat)
    {r₁ r₂ : Res ECPub} (h₁ : decodePublicKey k1name data (some c) d₁ = some r₁)
    (h₂ : decodePublicKey k1name data (some c) d₂ = some r₂) : r₁ = r₂ := by
  rcases C125_draws k1name c (supported_goodField k1name c hc) data with ⟨r, h⟩ | ⟨key, h, -⟩
  · rw [h] at h₁ h₂
    exact (Option.some.inj h₁).symm.trans (Option.some.inj h₂)
  · rcases h d₁ with e | e <;> rw [e] at h₁ <;> cases h₁
    rcases h d₂ with e | e <;> rw [e] at h₂ <;> cases h₂
    rfl

/-- **C125** for `DeserializePublicKey`: whatever random numbers it draws, it returns the same; only for a key on P-224
can it need any. -/
theorem C125_public (E : Ext) (data : Bytes) :
    (∀ d₁ d₂ r₁ r₂, deserializePublicKey E data d₁ = some r₁ → deserializePublicKey E data d₂ = some r₂ → r₁ = r₂) ∧
    (∀ draws, deserializePublicKey E data draws = none →
      (data.getD 0 0 = PK_ECDSA ∨ data.getD 0 0 = PK_SM2) ∧ data.getD 1 0 = P224) := by
  have hp256 : Curves.p256 ∈ Curves.all E.k1name := by simp [Curves.all]
  unfold deserializePublicKey
  by_cases h1 : data.length ≤ 3
  · simp only [if_pos h1]
    exact ⟨fun _ _ _ _ a b => Option.some.inj (a.symm.trans b), fun _ h => nomatch h⟩
  simp only [if_neg h1]
  by_cases h2 : data.getD 0 0 = PK_ECDSA ∨ data.getD 0 0 = PK_SM2
  · simp only [if_pos h2]
    cases hc : getCurve E (data.getD 1 0) with
    | err m => exact ⟨fun _ _ _ _ a b => Option.some.inj (a.symm.trans b), fun _ h => nomatch h⟩
    | panic m => exact ⟨fun _ _ _ _ a b => Option.some.inj (a.symm.trans b), fun _ h => nomatch h⟩
    | ok c =>
      simp only [Option.map_eq_some_iff, Option.map_eq_none_iff]
      constructor
      · rintro d₁ d₂ _ _ ⟨a, ha, rfl⟩ ⟨b, hb, rfl⟩
        rw [decode_runs (getCurve_all hc) _ _ _ ha hb]
      · intro draws h
        refine ⟨h2, ?_⟩
        have := decode_none_p224 (getCurve_all hc) h
        subst this
        by_contra hl
        unfold getCurve at hc
        rw [if_neg hl] at hc
        split_ifs at hc <;> exact absurd (congrArg Curve.bitSize (Res.ok.inj hc)) (by simp [Curves.p224, Curves.p256,
          Curves.p384, Curves.p521, Curves.sm2, Curves.secp256k1])
  simp only [if_neg h2]
  by_cases h3 : data.getD 0 0 = PK_EDDSA
  · simp only [if_pos h3]
    split_ifs <;> exact ⟨fun _ _ _ _ a b => Option.some.inj (a.symm.trans b), fun _ h => nomatch h⟩
  simp only [if_neg h3]
  by_cases h4 : data.getD 0 0 = PK_P256_E ∨ data.getD 0 0 = PK_P256_O ∨ data.getD 0 0 = PK_P256_NC
  · simp only [if_pos h4, Option.map_eq_some_iff, Option.map_eq_none_iff]
    constructor
    · rintro d₁ d₂ _ _ ⟨a, ha, rfl⟩ ⟨b, hb, rfl⟩
      rw [decode_runs hp256 _ _ _ ha hb]
    · intro draws h
      exact absurd (congrArg Curve.bitSize (decode_none_p224 hp256 h)) (by decide)
  simp only [if_neg h4]
  split_ifs <;> exact ⟨fun _ _ _ _ a b => Option.some.inj (a.symm.trans b), fun _ h => nomatch h⟩

/-- **C125** for `DeserializePrivateKey`. -/
theorem C125_private (E : Ext) (data : Bytes) :
    (∀ d₁ d₂ r₁ r₂, deserializePrivateKey E data d₁ = some r₁ → deserializePrivateKey E data d₂ = some r₂ → r₁ = r₂) ∧
    (∀ draws, deserializePrivateKey E data draws = none →
      ∃ t body, data = t :: P224 :: body ∧ (t = PK_ECDSA ∨ t = PK_SM2)) := by
  unfold deserializePrivateKey
  cases data with
  | nil => exact ⟨fun _ _ _ _ a b => Option.some.inj (a.symm.trans b), fun _ h => nomatch h⟩
  | cons t rest =>
    simp only
    by_cases h2 : t = PK_ECDSA ∨ t = PK_SM2
    · simp only [if_pos h2]
      cases rest with
      | nil => exact ⟨fun _ _ _ _ a b => Option.some.inj (a.symm.trans b), fun _ h => nomatch h⟩
      | cons label body =>
        simp only
        cases hc : getCurve E label with
        | err m => exact ⟨fun _ _ _ _ a b => Option.some.inj (a.symm.trans b), fun _ h => nomatch h⟩
        | panic m => exact ⟨fun _ _ _ _ a b => Option.some.inj (a.symm.trans b), fun _ h => nomatch h⟩
        | ok c =>
          simp only
          by_cases hl : (t :: label :: body).length < c.byteSize * 2 + 3
          · simp only [if_pos hl]
            exact ⟨fun _ _ _ _ a b => Option.some.inj (a.symm.trans b), fun _ h => nomatch h⟩
          · simp only [if_neg hl]
            simp only [Option.map_eq_some_iff, Option.map_eq_none_iff]
            constructor
            · rintro d₁ d₂ _ _ ⟨a, ha, rfl⟩ ⟨b, hb, rfl⟩
              rw [decode_runs (getCurve_all hc) _ _ _ ha hb]
            · intro draws h
              refine ⟨t, body, ?_, h2⟩
              have := decode_none_p224 (getCurve_all hc) h
              subst this
              by_contra hl
              unfold getCurve at hc
              rw [if_neg (fun h => hl (by rw [h]))] at hc
              split_ifs at hc <;> exact absurd (congrArg Curve.bitSize (Res.ok.inj hc)) (by simp [Curves.p224, Curves.p256,
          Curves.p384, Curves.p521, Curves.sm2, Curves.secp256k1])
    · simp only [if_neg h2]
      repeat' split
      all_goals exact ⟨fun _ _ _ _ a b => Option.some.inj (a.symm.trans b), fun _ h => nomatch h⟩

/-- The case occurs: a compressed P-224 key with no numbers to draw, and with a good one. -/
example (E : Ext) (hE : E.k1name = "") :
    deserializePublicKey E (PK_ECDSA :: P224 :: Spec.sec1Compressed 28 Curves.p224.Gx Curves.p224.Gy) [] = none ∧
    deserializePublicKey E (PK_ECDSA :: P224 :: Spec.sec1Compressed 28 Curves.p224.Gx Curves.p224.Gy) [5]
      = some (.ok (.ec .ecdsa ⟨Curves.p224, Curves.p224.Gx, Curves.p224.Gy⟩)) := by
  have h : ∀ draws, deserializePublicKey E (PK_ECDSA :: P224 :: Spec.sec1Compressed 28 Curves.p224.Gx Curves.p224.Gy) draws
      = (decodePublicKey "" (Spec.sec1Compressed 28 Curves.p224.Gx Curves.p224.Gy) (some Curves.p224) draws).map
        fun r => r.map fun pub => .ec .ecdsa pub := by
    intro draws
    rw [← hE]; rfl
  rw [h, h]
  constructor
  · rw [Option.map_eq_none_iff]; decide +kernel
  · rw [show decodePublicKey "" (Spec.sec1Compressed 28 Curves.p224.Gx Curves.p224.Gy) (some Curves.p224) [5]
      = some (.ok ⟨Curves.p224, Curves.p224.Gx, Curves.p224.Gy⟩) from by decide +kernel]
    rfl

end Verif.Props
