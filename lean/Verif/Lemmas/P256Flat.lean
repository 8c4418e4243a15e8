/-
The amd64 curve methods on points `(x, 0)`. They compute as if the point had order 2, whatever its x-coordinate is. No
assumption on the exactness of the arithmetic (Spec/P256Mult) is needed here, because products with 0 are 0.
-/
import Verif.Lemmas.P256Curve

namespace Verif.X64.P256
open Verif.Spec Verif.Spec.P256

theorem mulP_zero_left (a : Nat) : mulP 0 a = 0 := by
  unfold mulP redc
  rw [Nat.zero_mul, Nat.zero_mul]
  rfl

theorem mulP_zero_right (a : Nat) : mulP a 0 = 0 := by
  unfold mulP redc
  rw [Nat.mul_zero, Nat.zero_mul]
  rfl

theorem mulP_P {a : Nat} (ha : a < 2 ^ 256) : mulP a P = 0 := by
  have h1 : mulP a P < P := redc_lt (by
    rw [Nat.mul_comm]
    exact (Nat.mul_lt_mul_left (by decide +kernel)).2 ha)
  have h2 := mulP_cast a P
  rw [P_zero, mul_zero] at h2
  have h3 : ((mulP a P : Nat) : K) = 0 := by
    rcases mul_eq_zero.1 h2 with h | h
    · exact h
    · exact absurd h R_ne
  exact Nat.eq_zero_of_dvd_of_lt ((ZMod.natCast_eq_zero_iff _ _).1 h3) h1

/-- What the routines make of a point `(x, 0)`: a point with `z = 0`, or the point itself; the routine that negates makes
`p` of 0. -/
def Flat (x : Nat) (j : Jac Nat) : Prop := j.z = 0 ∨ (j.x = x ∧ (j.y = 0 ∨ j.y = P) ∧ j.z = oneM)

variable {x : Nat} {a b : Jac Nat}

theorem flat_double (h : Flat x a) : (pointDouble a).z = 0 := by
  have hm : mulP a.z a.y = 0 := by
    rcases h with h | ⟨-, h | h, h1⟩
    · rw [h]; exact mulP_zero_left _
    · rw [h]; exact mulP_zero_right _
    · rw [h, h1]; exact mulP_P (by decide +kernel)
  have e : (pointDouble a).z = dbl (mul a.z a.y) := by unfold pointDouble; rfl
  rw [e, nat_mul, hm, dbl, nat_add]
  decide +kernel

theorem flat_add (h : a.z = 0) : (pointAdd a b).z = 0 := by
  have e : (pointAdd a b).z = mul (mul a.z b.z) (sub (mul (sq a.z) b.x) (mul (sq b.z) a.x)) := by unfold pointAdd; rfl
  rw [e, h, nat_mul, nat_mul, mulP_zero_left, mulP_zero_left]

/-- All entries of the table but the first have `z = 0`. -/
theorem flat_tail (h : Flat x a) : ∀ b ∈ (precomp a).drop 1, b.z = 0 := by
  have e2 := flat_double h
  have e4 := flat_double (x := x) (Or.inl e2)
  have e8 := flat_double (x := x) (Or.inl e4)
  have e16 := flat_double (x := x) (Or.inl e8)
  have e3 := flat_add (b := a) e2
  have e5 := flat_add (b := a) e4
  have e9 := flat_add (b := a) e8
  have e6 := flat_double (x := x) (Or.inl e3)
  have e10 := flat_double (x := x) (Or.inl e5)
  have e7 := flat_add (b := a) e6
  have e11 := flat_add (b := a) e10
  have e12 := flat_double (x := x) (Or.inl e6)
  have e14 := flat_double (x := x) (Or.inl e7)
  have e13 := flat_add (b := a) e12
  have e15 := flat_add (b := a) e14
  unfold precomp
  simp only [List.drop_succ_cons, List.drop_zero, List.forall_mem_cons, List.not_mem_nil, false_imp_iff, implies_true,
    and_true]
  exact ⟨e2, e3, e4, e5, e6, e7, e8, e9, e10, e11, e12, e13, e14, e15, e16⟩

theorem flat_precomp (h : Flat x a) : ∀ b ∈ precomp a, Flat x b := by
  have ht := flat_tail h
  have e : precomp a = a :: (precomp a).drop 1 := rfl
  intro b hb
  rw [e] at hb
  rcases List.mem_cons.1 hb with rfl | hb
  · exact h
  · exact .inl (ht b hb)

theorem flat_select {l : List (Jac Nat)} (h : ∀ a ∈ l, Flat x a) (idx : W) : Flat x (selectVal l idx) := by
  have hz : Flat x (⟨Ops.zero, Ops.zero, Ops.zero⟩ : Jac Nat) := Or.inl rfl
  unfold selectVal
  split
  · rw [List.getD_eq_getElem?_getD]
    rcases hg : l[idx.toNat % 2 ^ 32 - 1]? with _ | a
    · exact hz
    · exact h a (List.mem_of_getElem? hg)
  · exact hz

theorem flat_neg (h : Flat x a) (w : W) : Flat x ⟨a.x, negVal a.y w, a.z⟩ := by
  rcases h with h | ⟨h1, h2, h3⟩
  · exact .inl h
  · refine .inr ⟨h1, ?_, h3⟩
    show negVal a.y w = 0 ∨ negVal a.y w = P
    unfold negVal
    split
    · exact h2
    · show negP a.y true = 0 ∨ negP a.y true = P
      rcases h2 with h | h <;> rw [h]
      · right; decide +kernel
      · left; decide +kernel

theorem flat_mov (ha : Flat x a) (hb : Flat x b) (w : W) : Flat x (movVal a b w) := by
  unfold movVal
  split
  · exact hb
  · exact ha

theorem flat_step {l : List (Jac Nat)} (h : ∀ a ∈ l, Flat x a) {st : Jac Nat × W} (hs : Flat x st.1) (w : W) :
    Flat x (multStep l st w).1 := by
  have p1 := flat_double hs
  have p2 := flat_double (x := x) (Or.inl p1)
  have p3 := flat_double (x := x) (Or.inl p2)
  have p4 := flat_double (x := x) (Or.inl p3)
  have p5 := flat_double (x := x) (Or.inl p4)
  have ht := flat_neg (flat_select h (boothW5 w).1) (boothW5 w).2
  exact flat_mov (flat_mov (.inl (flat_add p5)) (.inl p5) _) ht _

theorem flat_scan (h : Flat x a) (k : Nat) : Flat x (multScan (precomp a) k).1 := by
  have hl := flat_precomp h
  unfold multScan
  dsimp only
  generalize List.range 50 = L
  have : ∀ (L : List Nat) (st : Jac Nat × W), Flat x st.1 →
      Flat x (L.foldl (fun st i => multStep (precomp a) st (window k (249 - 5 * i) 0x3f)) st).1 := by
    intro L
    induction L with
    | nil => exact fun st h => h
    | cons i L ih => exact fun st h => ih _ (flat_step hl h _)
  exact this L _ (flat_select hl _)

theorem flat_pointMult (h : Flat x a) (k : Nat) : Flat x (pointMult a k) :=
  flat_step (flat_precomp h) (flat_scan h k) _

theorem invP_zero : invP (0 : Nat) = 0 := by decide +kernel

theorem affine_of_z (h : a.z = 0) : pointToAffine a = (0, 0) := by
  unfold pointToAffine toAffine
  dsimp only
  rw [h, invP_zero]
  show (fromMontP (mulP a.x (mulP 0 0)), fromMontP (mulP a.y (mulP 0 (mulP 0 0)))) = _
  rw [mulP_zero_left, mulP_zero_left, mulP_zero_right, mulP_zero_right]
  rfl

theorem flat_affine (x0 : Nat) (h : Flat (mulP (reduceModP x0) rr) a) :
    pointToAffine a = (0, 0) ∨ pointToAffine a = (x0 % Curves.sm2.P, 0) := by
  rcases h with h | ⟨h1, h2, h3⟩
  · exact .inl (affine_of_z h)
  · right
    have hr : JRel Rel (known a) a (⟨(x0 : K), 0, 1⟩ : Jac K) := by
      refine ⟨?_, ?_, ?_⟩
      · show Rel (some a.x) a.x (x0 : K)
        rw [h1]; exact rel_toMont x0
      · show Rel (some a.y) a.y (0 : K)
        rcases h2 with h | h <;> rw [h]
        · exact Rel.of (by decide) (by simp)
        · exact Rel.of (by decide +kernel) (by rw [P_zero, zero_mul])
      · show Rel (some a.z) a.z (1 : K)
        rw [h3]; exact Rel.one
    rw [pointToAffine_rel hr ⟨rfl, rfl, rfl⟩, toAffine_of_inv invP_inv]
    simp [ZMod.val_natCast]

/-- `ScalarMult` of a point `(x, 0)` returns `(0, 0)` or the point. -/
theorem scalarMult_flat (x : Nat) (scalar : Bytes) :
    scalarMult x 0 scalar = (0, 0) ∨ scalarMult x 0 scalar = (x % Curves.sm2.P, 0) := by
  refine flat_affine x (flat_pointMult (.inr ⟨rfl, .inl ?_, rfl⟩) _)
  show mulP (reduceModP 0) rr = 0
  decide +kernel

/-- The flag of the scan tells whether all digits so far were 0. -/
theorem scan_flag (l : List (Jac Nat)) {k : Nat} (hk : k < 2 ^ 256) :
    (multScan l k).2.toNat < 32 ∧ ((multScan l k).2 = 0 → top k 4 = 0) := by
  have main : ∀ n ≤ 50, ∀ st, st = ((List.range n).foldl (fun st i => multStep l st (window k (249 - 5 * i) 0x3f))
        (selectVal l (boothW5 ((word k 3 >>> 62) &&& 0x3f)).1, (boothW5 ((word k 3 >>> 62) &&& 0x3f)).1)) →
      st.2.toNat < 32 ∧ (st.2 = 0 → top k (254 - 5 * n) = 0) := by
    intro n hn
    induction n with
    | zero =>
      rintro st rfl
      have hw := first5 k hk
      have h4 : k / 2 ^ 254 < 4 := by omega
      obtain ⟨h1, -⟩ := top_first hk
      have hd := (booth5 (w := (word k 3 >>> 62) &&& 0x3f) (by omega)).2.1
      refine ⟨by change (boothW5 _).1.toNat < _; omega, fun h => ?_⟩
      rw [Nat.mul_zero, Nat.sub_zero, ← h1]
      exact digit_zero.2 h
    | succ n ih =>
      rintro st rfl
      rw [List.range_succ, List.foldl_append, List.foldl_cons, List.foldl_nil]
      obtain ⟨i1, i2⟩ := ih (by omega) _ rfl
      have hst := top_step hk (i := 249 - 5 * n) (by omega)
      rw [show 249 - 5 * n + 5 = 254 - 5 * n by omega] at hst
      rw [show 254 - 5 * (n + 1) = 249 - 5 * n by omega, hst]
      have hw := window5 hk (i := 249 - 5 * n) (by omega)
      have hd := (booth5 (w := window k (249 - 5 * n) 0x3f) (by omega)).2.1
      generalize (List.range n).foldl (fun st i => multStep l st (window k (249 - 5 * i) 0x3f)) _ = st at i1 i2 ⊢
      have e : (multStep l st (window k (249 - 5 * n) 0x3f)).2 = st.2 ||| (boothW5 (window k (249 - 5 * n) 0x3f)).1 := rfl
      rw [e]
      refine ⟨?_, fun h => ?_⟩
      · rw [BitVec.toNat_or]
        exact Nat.or_lt_two_pow (n := 5) i1 (by omega)
      · obtain ⟨h1, h2⟩ := BitVec.or_eq_zero_iff.1 h
        rw [i2 h1, digit_zero.2 h2]
        rfl
  exact main 50 le_rfl _ rfl

/-- The point itself is the result for the scalar 1 only. -/
theorem pointMult_flat_one (h : Flat x a) {k : Nat} (hk : k < 2 ^ 256) (hz : (pointMult a k).z ≠ 0) : k = 1 := by
  obtain ⟨f1, f2⟩ := scan_flag (precomp a) hk
  have hs := flat_scan h k
  have hw := last5 k
  have hb := (booth5 (w := (word k 0 <<< 1) &&& 0x3f) (by omega)).2.1
  have ht := top_last k
  have tail := flat_tail h
  unfold pointMult at hz
  dsimp only at hz
  generalize (multScan (precomp a) k) = st at f1 f2 hs hz
  generalize (word k 0 <<< 1) &&& 0x3f = w at hb ht hz
  have p1 := flat_double hs
  have p2 := flat_double (x := x) (Or.inl p1)
  have p3 := flat_double (x := x) (Or.inl p2)
  have p4 := flat_double (x := x) (Or.inl p3)
  have p5 := flat_double (x := x) (Or.inl p4)
  unfold multStep at hz
  dsimp only at hz
  unfold movVal at hz
  by_cases h0 : st.2.toNat % 2 ^ 32 = 0
  · rw [if_pos h0] at hz
    have hst : st.2 = 0 := by
      apply BitVec.eq_of_toNat_eq
      rw [Nat.mod_eq_of_lt (by omega)] at h0
      exact h0
    rw [f2 hst] at ht
    change (selectVal (precomp a) (boothW5 w).1).z ≠ 0 at hz
    have h1 : (boothW5 w).1.toNat = 1 := by
      by_contra hne
      apply hz
      unfold selectVal
      split
      · rename_i hr
        rw [Nat.mod_eq_of_lt (by omega)] at hr
        rw [Nat.mod_eq_of_lt (by omega), List.getD_eq_getElem?_getD]
        obtain ⟨m, hm⟩ : ∃ m, (boothW5 w).1.toNat = m + 2 := ⟨(boothW5 w).1.toNat - 2, by omega⟩
        rw [hm, show m + 2 - 1 = 1 + m by omega, ← List.getElem?_drop]
        rcases hg : ((precomp a).drop 1)[m]? with _ | b
        · rfl
        · exact tail b (List.mem_of_getElem? hg)
      · rfl
    unfold digit at ht
    split at ht <;> omega
  · rw [if_neg h0] at hz
    exfalso
    split at hz
    · exact hz p5
    · exact hz (flat_add p5)

theorem flat_add_right (h : b.z = 0) : (pointAdd a b).z = 0 := by
  have e : (pointAdd a b).z = mul (mul a.z b.z) (sub (mul (sq a.z) b.x) (mul (sq b.z) a.x)) := by unfold pointAdd; rfl
  rw [e, h, nat_mul, nat_mul, mulP_zero_right, mulP_zero_left]

/-- `CombinedMult` with a point `(x, 0)` returns `(0, 0)` unless its scalar is 1. -/
theorem combinedMult_flat (x : Nat) (s t : Bytes) (ht : getScalar t ≠ 1) : combinedMult x 0 s t = (0, 0) := by
  have hf : Flat (mulP (reduceModP x) rr) (fromXY x 0) := by
    refine .inr ⟨rfl, .inl ?_, rfl⟩
    show mulP (reduceModP 0) rr = 0
    decide +kernel
  have hz : (pointMult (fromXY x 0) (getScalar t)).z = 0 := by
    by_contra hz
    exact ht (pointMult_flat_one hf ((getScalar_lt t).trans (by decide +kernel)) hz)
  unfold combinedMult
  exact affine_of_z (flat_add_right hz)

end Verif.X64.P256
