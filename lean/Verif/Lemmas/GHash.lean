import Verif.Lemmas.GF128
import Verif.Lemmas.Bytes
import Verif.Lemmas.AES
import Mathlib.Data.Set.Card
/-!
# GHASH is a polynomial in the hash key

Different inputs give different polynomials, so that few hash keys make two inputs collide.
-/
namespace Verif.GCM
open Polynomial

/-- The polynomial of a list of blocks. -/
noncomputable def poly (bs : List (BitVec 128)) : R[X] := bs.foldl (fun p b => (p + C (el b)) * X) 0

theorem poly_snoc (bs : List (BitVec 128)) (b : BitVec 128) : poly (bs ++ [b]) = (poly bs + C (el b)) * X := by
  simp [poly]

theorem ghash_snoc (h : BitVec 128) (bs : List (BitVec 128)) (b : BitVec 128) :
    ghash h (bs ++ [b]) = mul (ghash h bs ^^^ b) h := by
  simp [ghash]

theorem el_ghash (h : BitVec 128) (bs : List (BitVec 128)) : el (ghash h bs) = (poly bs).eval (el h) := by
  induction bs using List.reverseRecOn with
  | nil => simp [ghash, poly, el_zero]
  | append_singleton bs b ih => rw [ghash_snoc, poly_snoc, el_mul, el_xor, ih]; simp

theorem poly_natDegree (bs : List (BitVec 128)) : (poly bs).natDegree ≤ bs.length := by
  induction bs using List.reverseRecOn with
  | nil => simp [poly]
  | append_singleton bs b ih =>
    rw [poly_snoc, List.length_append, List.length_singleton]
    refine (natDegree_mul_le).trans ?_
    rw [natDegree_X]
    refine Nat.add_le_add_right ((natDegree_add_le _ _).trans ?_) 1
    rw [natDegree_C]
    omega

theorem poly_coeff_zero (bs : List (BitVec 128)) : (poly bs).coeff 0 = 0 := by
  rcases List.eq_nil_or_concat bs with rfl | ⟨l, b, rfl⟩
  · simp [poly]
  · rw [List.concat_eq_append, poly_snoc]; simp

theorem poly_snoc_inj {bs bs' : List (BitVec 128)} {b b' : BitVec 128} (h : poly (bs ++ [b]) = poly (bs' ++ [b'])) :
    b = b' ∧ poly bs = poly bs' := by
  rw [poly_snoc, poly_snoc] at h
  have h := mul_right_cancel₀ X_ne_zero h
  have h0 := congrArg (coeff · 0) h
  simp only [coeff_add, poly_coeff_zero, coeff_C_zero, zero_add] at h0
  refine ⟨el_inj h0, ?_⟩
  rw [h0] at h
  exact add_right_cancel h

theorem poly_inj : ∀ (bs bs' : List (BitVec 128)), bs.length = bs'.length → poly bs = poly bs' → bs = bs' := by
  intro bs
  induction bs using List.reverseRecOn with
  | nil => intro bs' hl _; exact (List.length_eq_zero_iff.1 hl.symm).symm
  | append_singleton bs b ih =>
    intro bs' hl h
    rcases List.eq_nil_or_concat bs' with rfl | ⟨l, b', rfl⟩
    · simp at hl
    · rw [List.concat_eq_append] at *
      obtain ⟨rfl, h2⟩ := poly_snoc_inj h
      rw [ih l (by simpa using hl) h2]

theorem takeBlocks_length (n : Nat) : ∀ b, (takeBlocks n b).length = n := by
  induction n with
  | zero => intro b; rfl
  | succ n ih => intro b; simp [takeBlocks, ih]

theorem takeBlocks_inj (n : Nat) : ∀ a b : Bytes, a.length = b.length → a.length ≤ 16 * n →
    takeBlocks n a = takeBlocks n b → a = b := by
  induction n with
  | zero =>
    intro a b hl hn _
    rw [List.length_eq_zero_iff.1 (show a.length = 0 by omega), List.length_eq_zero_iff.1 (show b.length = 0 by omega)]
  | succ n ih =>
    intro a b hl hn h
    simp only [takeBlocks, List.cons.injEq] at h
    obtain ⟨h1, h2⟩ := h
    have hlen : ∀ x : Bytes, (x.take 16 ++ zeros (16 - x.length)).length = 16 := by
      intro x; rw [List.length_append, List.length_take, zeros, List.length_replicate]; omega
    have hlt : ∀ x : Bytes, natOfBytes (x.take 16 ++ zeros (16 - x.length)) < 2 ^ 128 := by
      intro x
      have := natOfBytes_lt (x.take 16 ++ zeros (16 - x.length))
      rw [hlen] at this
      exact lt_of_lt_of_eq this (by norm_num)
    have h3 := congrArg BitVec.toNat h1
    rw [BitVec.toNat_ofNat, BitVec.toNat_ofNat, Nat.mod_eq_of_lt (hlt a), Nat.mod_eq_of_lt (hlt b)] at h3
    have h4 := natOfBytes_inj (by rw [hlen, hlen]) h3
    have h5 := List.append_inj_left h4 (by rw [List.length_take, List.length_take, hl])
    have h6 := ih (a.drop 16) (b.drop 16) (by rw [List.length_drop, List.length_drop, hl])
      (by rw [List.length_drop]; omega) h2
    rw [← List.take_append_drop 16 a, h5, h6, List.take_append_drop]

theorem hashed_length (a c : Bytes) : (hashed a c).length = (a.length + 15) / 16 + (c.length + 15) / 16 + 1 := by
  simp [hashed, blocks, takeBlocks_length, Nat.add_assoc]

theorem hashed_inj {a c a' c' : Bytes} (ha : a.length < 2 ^ 61) (hc : c.length < 2 ^ 61) (ha' : a'.length < 2 ^ 61)
    (hc' : c'.length < 2 ^ 61) (h : poly (hashed a c) = poly (hashed a' c')) : a = a' ∧ c = c' := by
  obtain ⟨h1, h2⟩ := poly_snoc_inj h
  have h3 := congrArg BitVec.toNat h1
  rw [BitVec.toNat_ofNat, BitVec.toNat_ofNat, Nat.mod_eq_of_lt (by omega), Nat.mod_eq_of_lt (by omega)] at h3
  have hla : a.length = a'.length := by omega
  have hlc : c.length = c'.length := by omega
  have h4 := poly_inj _ _ (by simp [blocks, takeBlocks_length, hla, hlc]) h2
  unfold blocks at h4
  rw [← hla, ← hlc] at h4
  obtain ⟨h5, h6⟩ := List.append_inj h4 (by rw [takeBlocks_length, takeBlocks_length])
  exact ⟨takeBlocks_inj _ _ _ hla (by omega) h5, takeBlocks_inj _ _ _ hlc (by omega) h6⟩

/-- Few hash keys give two different inputs hashes with a given difference. -/
theorem ghash_bound {a c a' c' : Bytes} (ha : a.length < 2 ^ 61) (hc : c.length < 2 ^ 61) (ha' : a'.length < 2 ^ 61)
    (hc' : c'.length < 2 ^ 61) (hne : ¬ (a = a' ∧ c = c')) (t : BitVec 128) :
    {h | ghash h (hashed a c) ^^^ ghash h (hashed a' c') = t}.ncard ≤ max (hashed a c).length (hashed a' c').length := by
  set p := poly (hashed a c) + poly (hashed a' c') + C (el t) with hp
  have hp0 : p ≠ 0 := by
    intro h0
    have hz := congrArg (coeff · 0) h0
    simp only [hp, coeff_add, poly_coeff_zero, coeff_C_zero, zero_add, coeff_zero] at hz
    rw [hp, hz, map_zero, add_zero] at h0
    have : CharP R[X] 2 := inferInstance
    exact hne (hashed_inj ha hc ha' hc' (CharTwo.add_eq_zero.1 h0))
  have hd : p.natDegree ≤ max (hashed a c).length (hashed a' c').length := by
    refine (natDegree_add_le _ _).trans ?_
    rw [natDegree_C, Nat.max_zero]
    exact (natDegree_add_le _ _).trans (max_le_max (poly_natDegree _) (poly_natDegree _))
  classical
  have hsub : el '' {h | ghash h (hashed a c) ^^^ ghash h (hashed a' c') = t} ⊆ (p.roots.toFinset : Set R) := by
    rintro _ ⟨h, hh, rfl⟩
    rw [Finset.mem_coe, Multiset.mem_toFinset, mem_roots hp0, IsRoot, hp]
    simp only [eval_add, eval_C]
    rw [← el_ghash, ← el_ghash, ← el_xor, show ghash h (hashed a c) ^^^ ghash h (hashed a' c') = t from hh, CharTwo.add_self_eq_zero]
  rw [← Set.ncard_image_of_injective _ (fun _ _ => el_inj)]
  refine (Set.ncard_le_ncard hsub (Finset.finite_toSet _)).trans ?_
  rw [Set.ncard_coe_finset]
  exact (Multiset.toFinset_card_le _).trans ((card_roots' p).trans hd)

theorem xorBytes_beFix (w : Nat) : ∀ a b, xorBytes (beFix w a) (beFix w b) = beFix w (a ^^^ b) := by
  induction w with
  | zero => intro a b; rfl
  | succ w ih =>
    intro a b
    have hih := ih (a / 256) (b / 256)
    unfold xorBytes at hih ⊢
    rw [beFix, beFix, beFix, List.zipWith_append (by simp), hih]
    congr 2
    · have := Nat.shiftRight_xor_distrib (a := a) (b := b) (i := 8)
      rw [Nat.shiftRight_eq_div_pow, Nat.shiftRight_eq_div_pow, Nat.shiftRight_eq_div_pow] at this
      exact this.symm
    · simp only [List.zipWith_cons_cons, List.zipWith_nil_left, List.cons.injEq, and_true]
      exact (BitVec.ofNat_xor ..).symm

theorem xorBytes_mid : ∀ a b m : Bytes, a.length = m.length → b.length = m.length →
    xorBytes (xorBytes a m) (xorBytes b m) = xorBytes a b := by
  intro a
  induction a with
  | nil => intro b m _ _; rfl
  | cons x a ih =>
    intro b m ha hb
    cases m with
    | nil => simp at ha
    | cons z m =>
      cases b with
      | nil => simp at hb
      | cons y b =>
        have := ih b m (by simpa using ha) (by simpa using hb)
        unfold xorBytes at this ⊢
        simp only [List.zipWith_cons_cons, this, List.cons.injEq, and_true]
        rw [BitVec.xor_comm y z, ← BitVec.xor_assoc, BitVec.xor_assoc x z z]; simp

end Verif.GCM
