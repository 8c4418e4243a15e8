import Verif.Lemmas.Big
import Verif.Model.BigAmd64
/-!
# The curve methods of amd64 on number objects
-/
set_option linter.unusedSimpArgs false

namespace Verif.Big

open Verif.X64

theorem sm2_P : Curves.sm2.P = P256.P := rfl
theorem sm2_N : Curves.sm2.N = P256.N := rfl

theorem p256GetScalar_wp {t c : Nat} {o : CurveObj} {m : Mem} (h : o.At t c m) (hc : o.c = Curves.sm2) (s : Bytes) :
    wp t (p256GetScalar o s) (fun r m' c' => c' = c + 1 ∧ r = P256.getScalar s ∧ Same t c m m') m c := by
  have oN := old_put h.oN
  have hN : o.c.N = P256.N := by rw [hc, sm2_N]
  unfold p256GetScalar P256.getScalar
  dsimp only
  generalize natOfBytes s = k
  generalize P256.N = N at *
  run
  simp (disch := omega) only [put_same, put_ne, oN, h.N, hN]
  by_cases hk : N ≤ k
  · have e : (k : Int) ≥ N := by omega
    simp only [e, hk, if_true]
    run
    simp (disch := omega) only [put_same, put_ne, oN, h.N, hN]
    exact ⟨trivial, by rw [← Int.natCast_mod, Int.natAbs_natCast], fun r hr => by simp [old_put hr]⟩
  · have e : ¬ (k : Int) ≥ N := by omega
    simp only [e, hk, if_false]
    run
    simp (disch := omega) only [put_same, put_ne, oN, h.N, hN]
    exact ⟨trivial, by rw [Int.natAbs_natCast], fun r hr => by simp [old_put hr]⟩

theorem maybeReduceModP_wp {t c : Nat} {o : CurveObj} {m : Mem} (h : o.At t c m) (hc : o.c = Curves.sm2) {a : Ref}
    (ha : Old t c a) (v : Nat) (hv : m a = v) : wp t (maybeReduceModP o a) (fun r m' c' => c ≤ c' ∧ Old t c' r ∧
      m' r = (P256.reduceModP v : Nat) ∧ Same t c m m') m c := by
  have oP := old_put h.oP
  have oa := old_put ha
  have hP : o.c.P = P256.P := by rw [hc, sm2_P]
  unfold maybeReduceModP P256.reduceModP
  generalize P256.P = P at *
  run
  rw [hv, h.P, hP]
  by_cases hk : v < P
  · have e : (v : Int) < P := by omega
    simp only [e, hk, if_true]
    exact ⟨le_rfl, ha, hv, Same.refl t c m⟩
  · have e : ¬ (v : Int) < P := by omega
    simp only [e, hk, if_false]
    run
    simp (disch := omega) only [put_same, put_ne, oP, oa, h.P, hP, hv]
    exact ⟨by ar, old_new (by ar), by push_cast; rfl, fun r hr => by simp [old_put hr]⟩

theorem fromXY_wp {t c : Nat} {o : CurveObj} {m : Mem} (h : o.At t c m) (hc : o.c = Curves.sm2) {x y : Ref} {v : Nat × Nat}
    (hxy : PairAt t c m (x, y) v) : wp t (fromXY o x y) (fun r m' c' => c ≤ c' ∧ r = P256.fromXY v.1 v.2 ∧ Same t c m m')
      m c := by
  unfold fromXY P256.fromXY
  run
  refine wp_mono (maybeReduceModP_wp h hc hxy.1 v.1 hxy.2.2.1) fun r m1 c1 g1 => ?_
  obtain ⟨l1, -, v1, s1⟩ := g1
  have hy := hxy.mono l1 s1
  refine wp_mono (maybeReduceModP_wp (h.mono l1 s1) hc hy.2.1 v.2 hy.2.2.2) fun r2 m2 c2 g2 => ?_
  obtain ⟨l2, -, v2, s2⟩ := g2
  rw [v1, v2]
  exact ⟨l1.trans l2, by simp only [Int.natAbs_natCast], s1.trans s2 l1⟩

/-- Two new numbers. -/
theorem newPair_fresh (t c : Nat) (m : Mem) (v : Nat × Nat) : wp t (newPair v) (fun r m' c' =>
    PGives t c m' c' (some r) (some v) ∧ Same t c m m') m c := by
  simp only [wp_newPair]
  exact ⟨⟨⟨rfl, by ar, by ar⟩, ⟨rfl, by ar, by ar⟩, by simp, by simp [put_ne], by simp⟩, fun r hr => by simp [old_put hr]⟩

section
variable {t c : Nat} {o : CurveObj} {m : Mem} (h : o.At t c m) (hc : o.c = Curves.sm2)
include h hc

theorem scalarMult_wp {x y : Ref} {v : Nat × Nat} (hxy : PairAt t c m (x, y) v) (s : Bytes) :
    wp t (scalarMult o x y s) (fun r m' c' => PGives t c m' c' (some r) (some (P256.scalarMult v.1 v.2 s)) ∧
      Same t c m m') m c := by
  unfold scalarMult P256.scalarMult
  run
  refine wp_mono (p256GetScalar_wp h hc s) fun r m1 c1 g1 => ?_
  obtain ⟨rfl, rfl, s1⟩ := g1
  refine wp_mono (fromXY_wp (h.mono (c' := c + 1) (by ar) s1) hc (hxy.mono (by ar) s1)) fun r2 m2 c2 g2 => ?_
  obtain ⟨l2, rfl, s2⟩ := g2
  refine wp_mono (newPair_fresh t c2 m2 _) fun r3 m3 c3 g3 => ?_
  exact ⟨g3.1.mono (by omega), (s1.trans s2 (by ar)).trans g3.2 (by omega)⟩

theorem scalarBaseMult_wp (s : Bytes) : wp t (scalarBaseMult o s) (fun r m' c' =>
    PGives t c m' c' (some r) (some (P256.scalarBaseMult s)) ∧ Same t c m m') m c := by
  unfold scalarBaseMult P256.scalarBaseMult
  run
  refine wp_mono (p256GetScalar_wp h hc s) fun r m1 c1 g1 => ?_
  obtain ⟨rfl, rfl, s1⟩ := g1
  refine wp_mono (newPair_fresh t (c + 1) m1 _) fun r3 m3 c3 g3 => ?_
  exact ⟨g3.1.mono (by omega), s1.trans g3.2 (by omega)⟩

theorem combinedMult_wp {x y : Ref} {v : Nat × Nat} (hxy : PairAt t c m (x, y) v) (b s : Bytes) :
    wp t (combinedMult o x y b s) (fun r m' c' => PGives t c m' c' (some r) (some (P256.combinedMult v.1 v.2 b s)) ∧
      Same t c m m') m c := by
  unfold combinedMult P256.combinedMult
  run
  refine wp_mono (p256GetScalar_wp h hc b) fun r m1 c1 g1 => ?_
  obtain ⟨rfl, rfl, s1⟩ := g1
  have h1 := h.mono (c' := c + 1) (by ar) s1
  refine wp_mono (p256GetScalar_wp h1 hc s) fun r m2 c2 g2 => ?_
  obtain ⟨rfl, rfl, s2⟩ := g2
  have s02 := s1.trans s2 (by ar)
  refine wp_mono (fromXY_wp (h1.mono (c' := c + 1 + 1) (by ar) s2) hc (hxy.mono (by ar) s02)) fun r2 m2 c2 g2 => ?_
  obtain ⟨l2, rfl, s3⟩ := g2
  refine wp_mono (newPair_fresh t c2 m2 _) fun r3 m3 c3 g3 => ?_
  exact ⟨g3.1.mono (by omega), (s02.trans s3 (by ar)).trans g3.2 (by omega)⟩

theorem inverse_wp {k : Ref} (hk : Old t c k) : wp t (inverse o k) (fun r m' c' => Fresh t c r c' ∧
    m' r = (P256.inverse (m k) : Nat) ∧ Same t c m m') m c := by
  have hN : o.c.N = P256.N := by rw [hc, sm2_N]
  unfold inverse P256.inverse
  dsimp only
  generalize P256.N = N at *
  have h1 : wp t (inverseAbs k) (fun r m' c' => c ≤ c' ∧ Old t c' r ∧ m' r = (if m k < 0 then -m k else m k) ∧
      Same t c m m') m c := by
    unfold inverseAbs
    run
    split
    · run
      exact ⟨by ar, old_new (by ar), by simp, fun r hr => by simp [old_put hr]⟩
    · exact ⟨le_rfl, hk, rfl, Same.refl t c m⟩
  run
  refine wp_mono h1 fun r1 m1 c1 g1 => ?_
  obtain ⟨l1, o1, v1, s1⟩ := g1
  have H1 := h.mono l1 s1
  have e0 : 0 ≤ (if m k < 0 then -m k else m k) := by split <;> omega
  generalize (if m k < 0 then -m k else m k) = kv at *
  have h2 : wp t (inverseReduce o r1) (fun r m' c' => c1 ≤ c' ∧ m' r = (if (N : Int) ≤ kv then kv % N else kv) ∧
      Same t c1 m1 m') m1 c1 := by
    have oN := old_put H1.oN
    have or := old_put o1
    unfold inverseReduce
    run
    rw [v1, H1.N, hN]
    by_cases hk : (N : Int) ≤ kv
    · have e : kv ≥ (N : Int) := hk
      simp only [e, if_true]
      run
      simp (disch := omega) only [put_same, put_ne, oN, or, H1.N, hN, v1]
      exact ⟨by ar, trivial, fun r hr => by simp [old_put hr]⟩
    · have e : ¬ kv ≥ (N : Int) := hk
      simp only [e, hk, if_false]
      exact ⟨le_rfl, v1, Same.refl t c1 m1⟩
  refine wp_mono h2 fun r2 m2 c2 g2 => ?_
  obtain ⟨l2, v2, s2⟩ := g2
  rw [v2]
  have e : (if (N : Int) ≤ kv then kv % N else kv).natAbs = (if (N : Int) ≤ kv then kv % N else kv).toNat := by
    have : 0 ≤ (if (N : Int) ≤ kv then kv % (N : Int) else kv) := by
      split
      · by_cases h0 : N = 0
        · subst h0
          simpa using e0
        · exact Int.emod_nonneg _ (by omega)
      · exact e0
    omega
  rw [e]
  exact ⟨⟨rfl, by ar, by ar⟩, by simp, fun r hr => by
    simp [old_put (hr.mono (l1.trans l2)), (s1.trans s2 l1) r hr]⟩

end
end Verif.Big
