/-
The methods of sm2/p256_amd64.go on memory, for any arrays that do not overlap.
-/
import Verif.Lemmas.P256Mem

namespace Verif.X64.P256

open Verif.Spec.P256

/-! ### Arrays -/

theorem wordsOf_sublist {A B : List (W × ℕ)} (h : A.Sublist B) : (wordsOf A).Sublist (wordsOf B) := by
  unfold wordsOf
  exact h.flatMap _

theorem _root_.Verif.Spec.P256.Apart.sub {A B : List (W × ℕ)} (hB : Apart B) (h : A.Sublist B) : Apart A :=
  List.Sublist.nodup (wordsOf_sublist h) hB

theorem _root_.Verif.Spec.P256.Elsewhere.mono {A B : List (W × ℕ)} {m m' : W → W} (h : Elsewhere A m m') (hs : A.Sublist B) :
    Elsewhere B m m' := fun b hb => h b fun hm => hb ((wordsOf_sublist hs).subset hm)

theorem _root_.Verif.Spec.P256.Elsewhere.trans {A : List (W × ℕ)} {m m' m'' : W → W} (h : Elsewhere A m m') (h' : Elsewhere A m' m'') :
    Elsewhere A m m'' := fun b hb => (h' b hb).trans (h b hb)

/-- Arrays that are not written. -/
theorem _root_.Verif.Spec.P256.Elsewhere.keep {A B : List (W × ℕ)} {m m' : W → W} (h : Elsewhere A m m') (hA : Apart (A ++ B))
    {b : W} (hb : b ∈ wordsOf B) : m' b = m b := by
  refine h b fun hm => ?_
  unfold Apart at hA
  rw [wordsOf_append, List.nodup_append'] at hA
  exact hA.2.2 hm hb

theorem rd4_congr {m m' : W → W} {a : W} (h : ∀ b ∈ wordsOf [(a, 1)], m' b = m b) : rd4 m' a = rd4 m a := by
  have e : ∀ w < 4, m' (a + BitVec.ofNat 64 (8 * w)) = m (a + BitVec.ofNat 64 (8 * w)) := fun w hw =>
    h _ (mem_words_one.2 ⟨w, hw, rfl⟩)
  have e0 := e 0 (by omega)
  rw [show a + BitVec.ofNat 64 (8 * 0) = a from BitVec.add_zero _] at e0
  unfold rd4
  rw [e0, show m' (a + 8) = m (a + 8) from e 1 (by omega), show m' (a + 16) = m (a + 16) from e 2 (by omega),
    show m' (a + 24) = m (a + 24) from e 3 (by omega)]

theorem words_off {a : W} {n i : ℕ} (hi : i < n) {b : W} (hb : b ∈ wordsOf [(off a i, 1)]) :
    b ∈ wordsOf [(a, n)] := by
  obtain ⟨w, hw, rfl⟩ := mem_words_one.1 hb
  refine mem_words_one.2 ⟨4 * i + w, by omega, ?_⟩
  rw [off_W, addr_assoc]
  congr 2
  omega

theorem rdJac_congr {m m' : W → W} {a : W} (h : ∀ b ∈ wordsOf [(a, 3)], m' b = m b) :
    rdJac m' a = rdJac m a := by
  have e : ∀ i < 3, rd4 m' (off a i) = rd4 m (off a i) := fun i hi =>
    rd4_congr fun b hb => h b (words_off hi hb)
  have e0 := e 0 (by omega)
  rw [off_zero] at e0
  unfold rdJac
  rw [e0, show rd4 m' (a + 32) = rd4 m (a + 32) from e 1 (by omega),
    show rd4 m' (a + 64) = rd4 m (a + 64) from e 2 (by omega)]

theorem MemTable.congr {m m' : W → W} {table : W} {T : ℕ → ℕ → ℕ × ℕ} (hT : MemTable m table T)
    (h : ∀ b ∈ wordsOf [(table, 4736)], m' b = m b) : MemTable m' table T := by
  intro i hi j hj
  rw [rd4_congr fun b hb => h b (words_off (by omega) hb), rd4_congr fun b hb => h b (words_off (by omega) hb)]
  exact hT i hi j hj

theorem runs_append_some {junk : ℕ → St} {a b : List (Call W)} {m m1 m2 : W → W}
    (h1 : runs junk a m = some m1) (h2 : runs (fun i => junk (i + a.length)) b m1 = some m2) :
    runs junk (a ++ b) m = some m2 := by
  rw [runs_append, h1]
  exact h2

/-! ### Methods -/

theorem mem_multCalls {f : MultArrays W} {rrv : W} (hA : Apart (f.list ++ [(rrv, 1)])) (junk : ℕ → St)
    {m : W → W} (hrr : rd4 m rrv = rr) (x y : ℕ) (scalar : Bytes) :
    ∃ m', runs junk (multCalls f rrv x y scalar) m = some m' ∧
      rdJac m' f.r = pointMult (fromXY x y) (getScalar scalar) ∧ Elsewhere f.list m m' := by
  have s1 : [(f.r, 3), (rrv, 1)].Sublist (f.list ++ [(rrv, 1)]) := by
    unfold MultArrays.list
    exact .cons_cons _ (.cons _ (.cons _ (.cons _ (.cons _ (.cons _ (.refl _))))))
  obtain ⟨m1, e1, r1, f1⟩ := mem_point (r := f.r) (rrv := rrv) (hA.sub s1) junk m hrr x y
  obtain ⟨m2, e2, r2, f2⟩ := mem_mult (p := f.r) (precomp := f.precomp) (t0 := f.t0) (t1 := f.t1) (t2 := f.t2)
    (t3 := f.t3) (hA.sub (List.Sublist.append (.refl _) (List.nil_sublist _)))
    (fun i => junk (i + (pointProg f.r rrv x y).length)) m1 (getScalar scalar)
  refine ⟨m2, runs_append_some e1 e2, by rw [r2, r1], ?_⟩
  exact (f1.mono (by unfold MultArrays.list; exact .cons_cons _ (List.nil_sublist _))).trans f2

theorem mem_affineCalls {r : W} {f : AffineArrays W} (hA : Apart ((r, 3) :: f.list)) (junk : ℕ → St)
    (m : W → W) : ∃ m', runs junk (affineCalls r f) m = some m' ∧
      (natOfBytes (bytes32 m' f.xOut), natOfBytes (bytes32 m' f.yOut)) = pointToAffine (rdJac m r) ∧
      Elsewhere ((r, 3) :: f.list) m m' := by
  obtain ⟨m1, e1, r1, f1⟩ := mem_toAffine (p := r) (zInv := f.zInv) (zInvSq := f.zInvSq) (stack := f.stack)
    (xOut := f.xOut) (yOut := f.yOut) (by exact hA) junk m
  exact ⟨m1, e1, by rw [r1.1, r1.2], f1⟩

theorem mem_initCalls {f : InitArrays W} {table : W} (hA : Apart (f.list ++ [(table, 4736)])) (junk : ℕ → St)
    (m : W → W) : ∃ m', runs junk (initCalls f table) m = some m' ∧
      MemTable m' table (baseTable basePoint) ∧ Elsewhere (f.list ++ [(table, 4736)]) m m' := by
  obtain ⟨m1, e1, r1, f1⟩ := mem_init (base := f.base) (t1 := f.t1) (t2 := f.t2) (zInv := f.zInv)
    (zInvSq := f.zInvSq) (stack := f.stack) (table := table) (by exact hA) junk m
  exact ⟨m1, e1, r1, f1⟩

theorem mem_baseCalls {f : BaseArrays W} {table : W} (hA : Apart (f.list ++ [(table, 4736)])) (junk : ℕ → St)
    {m : W → W} (hT : MemTable m table (baseTable basePoint)) (scalar : Bytes) :
    ∃ m', runs junk (baseCalls f table scalar) m = some m' ∧
      rdJac m' f.r = baseMult (baseTable basePoint) (getScalar scalar) ∧ Elsewhere f.list m m' :=
  mem_base (p := f.r) (t0 := f.t0) (table := table) hA junk m hT (getScalar scalar)

/-- ScalarMult. -/
theorem mem_scalarMult {f : MultArrays W} {g : AffineArrays W} {rrv : W}
    (hA : Apart (f.list ++ g.list ++ [(rrv, 1)])) (junk : ℕ → St) {m : W → W} (hrr : rd4 m rrv = rr) (x y : ℕ)
    (scalar : Bytes) : ∃ m', runs junk (scalarMultCalls f g rrv x y scalar) m = some m' ∧
      (natOfBytes (bytes32 m' g.xOut), natOfBytes (bytes32 m' g.yOut)) = scalarMult x y scalar ∧
      Elsewhere (f.list ++ g.list) m m' := by
  have s1 : (f.list ++ [(rrv, 1)]).Sublist (f.list ++ g.list ++ [(rrv, 1)]) :=
    (List.sublist_append_left _ _).append (.refl _)
  have s2 : ((f.r, 3) :: g.list).Sublist (f.list ++ g.list) := by
    unfold MultArrays.list
    exact .cons_cons _ (.cons _ (.cons _ (.cons _ (.cons _ (.cons _ (.refl _))))))
  obtain ⟨m1, e1, r1, f1⟩ := mem_multCalls (hA.sub s1) junk hrr x y scalar
  obtain ⟨m2, e2, r2, f2⟩ := mem_affineCalls (hA.sub (s2.trans (List.sublist_append_left _ _)))
    (fun i => junk (i + (multCalls f rrv x y scalar).length)) m1
  refine ⟨m2, runs_append_some e1 e2, by rw [r2, r1]; rfl, ?_⟩
  exact (f1.mono (List.sublist_append_left _ _)).trans (f2.mono s2)

/-- ScalarBaseMult after the initialization of the table. -/
theorem mem_scalarBaseMult {f : BaseArrays W} {g : AffineArrays W} {table : W}
    (hA : Apart (f.list ++ g.list ++ [(table, 4736)])) (junk : ℕ → St) {m : W → W}
    (hT : MemTable m table (baseTable basePoint)) (scalar : Bytes) :
    ∃ m', runs junk (scalarBaseMultCalls f g table scalar) m = some m' ∧
      (natOfBytes (bytes32 m' g.xOut), natOfBytes (bytes32 m' g.yOut)) = scalarBaseMult scalar ∧
      Elsewhere (f.list ++ g.list) m m' := by
  have s1 : (f.list ++ [(table, 4736)]).Sublist (f.list ++ g.list ++ [(table, 4736)]) :=
    (List.sublist_append_left _ _).append (.refl _)
  have s2 : ((f.r, 3) :: g.list).Sublist (f.list ++ g.list) := by
    unfold BaseArrays.list
    exact .cons_cons _ (.cons _ (.refl _))
  obtain ⟨m1, e1, r1, f1⟩ := mem_baseCalls (hA.sub s1) junk hT scalar
  obtain ⟨m2, e2, r2, f2⟩ := mem_affineCalls (hA.sub (s2.trans (List.sublist_append_left _ _)))
    (fun i => junk (i + (baseCalls f table scalar).length)) m1
  refine ⟨m2, runs_append_some e1 e2, by rw [r2, r1]; rfl, ?_⟩
  exact (f1.mono (List.sublist_append_left _ _)).trans (f2.mono s2)

/-- CombinedMult after the initialization of the table. -/
theorem mem_combinedMult {f : BaseArrays W} {h : MultArrays W} {g : AffineArrays W} {table rrv : W}
    (hA : Apart (f.list ++ h.list ++ g.list ++ [(table, 4736), (rrv, 1)])) (junk : ℕ → St) {m : W → W}
    (hT : MemTable m table (baseTable basePoint)) (hrr : rd4 m rrv = rr) (x y : ℕ)
    (baseScalar scalar : Bytes) :
    ∃ m', runs junk (combinedMultCalls f h g table rrv x y baseScalar scalar) m = some m' ∧
      (natOfBytes (bytes32 m' g.xOut), natOfBytes (bytes32 m' g.yOut)) = combinedMult x y baseScalar scalar ∧
      Elsewhere (f.list ++ h.list ++ g.list) m m' := by
  have l1 : f.list.Sublist (f.list ++ h.list ++ g.list) := by
    rw [List.append_assoc]; exact List.sublist_append_left _ _
  have l2 : h.list.Sublist (f.list ++ h.list ++ g.list) :=
    (List.sublist_append_right _ _).trans (List.sublist_append_left _ _)
  have s1 : (f.list ++ [(table, 4736)]).Sublist (f.list ++ h.list ++ g.list ++ [(table, 4736), (rrv, 1)]) :=
    l1.append (.cons_cons _ (List.nil_sublist _))
  have s2 : (h.list ++ [(rrv, 1)]).Sublist (f.list ++ h.list ++ g.list ++ [(table, 4736), (rrv, 1)]) :=
    l2.append (.cons _ (.refl _))
  have s3 : ((f.r, 3) :: g.list).Sublist (f.list ++ h.list ++ g.list) := by
    unfold BaseArrays.list MultArrays.list
    exact .cons_cons _ (.cons _ (.cons _ (.cons _ (.cons _ (.cons _ (.cons _ (.cons _ (.refl _))))))))
  have s4 : (f.list ++ [(rrv, 1)]).Sublist (f.list ++ h.list ++ g.list ++ [(table, 4736), (rrv, 1)]) :=
    l1.append (.cons _ (.refl _))
  obtain ⟨m1, e1, r1, f1⟩ := mem_baseCalls (hA.sub s1) junk hT baseScalar
  have hrr1 : rd4 m1 rrv = rr := by
    rw [← hrr]
    exact rd4_congr fun b hb => f1.keep (hA.sub s4) hb
  obtain ⟨m2, e2, r2, f2⟩ := mem_multCalls (hA.sub s2)
    (fun i => junk (i + (baseCalls f table baseScalar).length)) hrr1 x y scalar
  have hr2 : rdJac m2 f.r = rdJac m1 f.r := by
    refine rdJac_congr fun b hb => f2 b fun hb' => ?_
    have h1 := hA.sub ((List.Sublist.append (.cons_cons (f.r, 3) (List.nil_sublist _)) (.refl h.list)).trans
      ((List.sublist_append_left _ _).trans (List.sublist_append_left _ _)) :
        ([(f.r, 3)] ++ h.list).Sublist (f.list ++ h.list ++ g.list ++ [(table, 4736), (rrv, 1)]))
    unfold Apart at h1
    rw [wordsOf_append, List.nodup_append'] at h1
    exact h1.2.2 hb hb'
  obtain ⟨m3, e3, r3⟩ := run_add
    (junk (0 + (baseCalls f table baseScalar ++ multCalls h rrv x y scalar).length)) m2 f.r f.r h.r
  have f3 : Elsewhere f.list m2 m3 := (else_words (n := 3) r3.2).mono (.cons_cons _ (List.nil_sublist _))
  obtain ⟨m4, e4, r4, f4⟩ := mem_affineCalls (hA.sub (s3.trans (List.sublist_append_left _ _)))
    (fun i => junk (i + (baseCalls f table baseScalar ++ multCalls h rrv x y scalar ++
      [Call.add f.r f.r h.r]).length)) m3
  refine ⟨m4, ?_, ?_, ?_⟩
  · refine runs_append_some (runs_append_some (runs_append_some e1 e2) ?_) e4
    rw [runs, e3]
    rfl
  · rw [r4, r3.1, hr2, r1, r2]
    rfl
  · exact (((f1.mono l1).trans (f2.mono l2)).trans (f3.mono l1)).trans (f4.mono s3)

/-- Inverse. -/
theorem mem_inverse {f : InverseArrays W} (hA : Apart f.list) (junk : ℕ → St) (m : W → W) (k : ℤ) :
    ∃ m', runs junk (inverseCalls f k) m = some m' ∧ natOfBytes (bytes32 m' f.xOut) = inverse k ∧
      Elsewhere f.list m m' := by
  unfold inverseCalls
  obtain ⟨k', hk'⟩ : ∃ k', k' = if k.natAbs ≥ N then k.natAbs % N else k.natAbs := ⟨_, rfl⟩
  have hN : 0 < N := by decide
  have hlt : k' < N := by
    rw [hk']
    split
    · exact Nat.mod_lt _ hN
    · omega
  have hmod : k' = k.natAbs % N := by
    rw [hk']
    split
    · rfl
    · rw [Nat.mod_eq_of_lt (by omega)]
  rw [← hk']
  obtain ⟨m1, e1, r1, f1⟩ := mem_ordInv (table := f.table) (x := f.x) (s := f.s) (t := f.t) (rrv := f.rr)
    (one := f.one) (xOut := f.xOut) (by exact hA) junk m k' hlt
  refine ⟨m1, e1, ?_, f1⟩
  rw [r1, inverse_val, inverse_val]
  have : ((|((k' : ℕ) : ℤ)| : ℤ) : L) = ((|k| : ℤ) : L) := by
    rw [ZMod.intCast_eq_intCast_iff, Nat.abs_cast, hmod, ← Int.natCast_natAbs k, Int.natCast_mod]
    exact Int.mod_modEq _ _
  rw [this]

end Verif.X64.P256
