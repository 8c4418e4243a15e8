/-
The functions of sm2/p256_amd64.go on memory.
-/
import Verif.Lemmas.P256Steps
import Verif.Lemmas.P256Param
import Verif.Lemmas.P256Rel

namespace Verif.X64.P256

open Verif.Spec.P256

/-! ### Programs on other pointers -/

section
variable {β : Type} {f : ℕ → β}

theorem map_sqrs (n out : ℕ) : (sqrs n out).map (Call.map f) = sqrs n (f out) := by
  simp only [sqrs, List.map_replicate, Call.map]

variable [Ptr β]

theorem map_inv {out inp s : ℕ} (h : ∀ i < 5, f (s + i) = off (f s) i) :
    (invProg out inp s).map (Call.map f) = invProg (f out) (f inp) (f s) := by
  unfold invProg
  simp only [List.map_append, map_sqrs, List.map_cons, List.map_nil, Call.map, off_nat, h 0 (by omega),
    h 1 (by omega), h 2 (by omega), h 3 (by omega), h 4 (by omega)]

theorem map_toAffine {p zInv zInvSq s xOut yOut : ℕ} (h : ∀ i < 5, f (s + i) = off (f s) i)
    (h1 : f (p + 1) = off (f p) 1) (h2 : f (p + 2) = off (f p) 2) :
    (toAffineProg p zInv zInvSq s xOut yOut).map (Call.map f) =
      toAffineProg (f p) (f zInv) (f zInvSq) (f s) (f xOut) (f yOut) := by
  unfold toAffineProg
  simp only [List.map_append, map_inv h, List.map_cons, List.map_nil, Call.map, off_nat, h1, h2]

theorem map_precomp {p precomp t0 t1 t2 t3 : ℕ}
    (h : ∀ i < 16, f (precomp + 3 * i) = off (f precomp) (3 * i)) :
    (precompProg p precomp t0 t1 t2 t3).map (Call.map f) =
      precompProg (f p) (f precomp) (f t0) (f t1) (f t2) (f t3) := by
  unfold precompProg storePoint
  simp only [List.map_cons, List.map_nil, Call.map, off_nat, h 0 (by omega), h 1 (by omega), h 2 (by omega),
    h 3 (by omega), h 4 (by omega), h 5 (by omega), h 6 (by omega), h 7 (by omega), h 8 (by omega),
    h 9 (by omega), h 10 (by omega), h 11 (by omega), h 12 (by omega), h 13 (by omega), h 14 (by omega),
    h 15 (by omega)]

theorem map_digits {p precomp t0 t1 : ℕ} (h : f (t0 + 1) = off (f t0) 1) (k n : ℕ) (zero : W) :
    (digitsProg p precomp t0 t1 k n zero).map (Call.map f) =
      digitsProg (f p) (f precomp) (f t0) (f t1) k n zero := by
  have key : ∀ d zero, (digitProg p precomp t0 t1 d zero).map (Call.map f) =
      digitProg (f p) (f precomp) (f t0) (f t1) d zero := fun d zero => by
    unfold digitProg
    simp only [List.map_cons, List.map_nil, Call.map, off_nat, h]
  induction n generalizing zero with
  | zero => exact key _ _
  | succ n ih =>
    unfold digitsProg
    dsimp only
    rw [List.map_append, key, ih]

theorem map_mult {p precomp t0 t1 t2 t3 : ℕ} (h : ∀ i < 16, f (precomp + 3 * i) = off (f precomp) (3 * i))
    (h1 : f (t0 + 1) = off (f t0) 1) (k : ℕ) : (multProg p precomp t0 t1 t2 t3 k).map (Call.map f) =
      multProg (f p) (f precomp) (f t0) (f t1) (f t2) (f t3) k := by
  unfold multProg
  dsimp only
  rw [List.map_append, List.map_append, map_precomp h, map_digits h1]
  rfl

theorem map_initStep {base t1 zInv zInvSq s table j i : ℕ} (h : ∀ i < 5, f (s + i) = off (f s) i)
    (h1 : f (t1 + 1) = off (f t1) 1) (h2 : f (t1 + 2) = off (f t1) 2) (h3 : f (base + 2) = off (f base) 2)
    (h4 : f (table + (128 * i + 2 * j)) = off (f table) (128 * i + 2 * j)) :
    (initStep base t1 zInv zInvSq s table j i).map (Call.map f) =
      initStep (f base) (f t1) (f zInv) (f zInvSq) (f s) (f table) j i := by
  have e : (if i = 0 then [] else List.replicate 7 (Call.double t1 t1)).map (Call.map f) =
      if i = 0 then [] else List.replicate 7 (Call.double (f t1) (f t1)) := by
    split
    · rfl
    · rw [List.map_replicate, Call.map]
  unfold initStep
  rw [List.map_append, List.map_append, e, map_inv h]
  simp only [List.map_cons, List.map_nil, Call.map, off_nat, h1, h2, h3, h4]

theorem map_init {base t1 t2 zInv zInvSq s table : ℕ} (h : ∀ i < 5, f (s + i) = off (f s) i)
    (h1 : f (t1 + 1) = off (f t1) 1) (h2 : f (t1 + 2) = off (f t1) 2) (h3 : f (base + 2) = off (f base) 2)
    (h5 : f (base + 1) = off (f base) 1)
    (h4 : ∀ i < 37, ∀ j < 64, f (table + (128 * i + 2 * j)) = off (f table) (128 * i + 2 * j)) :
    (initProg base t1 t2 zInv zInvSq s table).map (Call.map f) =
      initProg (f base) (f t1) (f t2) (f zInv) (f zInvSq) (f s) (f table) := by
  have e : ∀ j < 64, (initRow base t1 t2 zInv zInvSq s table j).map (Call.map f) =
      initRow (f base) (f t1) (f t2) (f zInv) (f zInvSq) (f s) (f table) j := fun j hj => by
    have e1 : ((List.range 37).flatMap (initStep base t1 zInv zInvSq s table j)).map (Call.map f) =
        (List.range 37).flatMap (initStep (f base) (f t1) (f zInv) (f zInvSq) (f s) (f table) j) := by
      rw [List.map_flatMap]
      refine List.flatMap_congr fun i hi => ?_
      rw [List.mem_range] at hi
      exact map_initStep h h1 h2 h3 (h4 i hi j hj)
    have e2 : (if j = 0 then Call.double t2 base else Call.add t2 t2 base).map f =
        if j = 0 then Call.double (f t2) (f base) else .add (f t2) (f t2) (f base) := by
      split <;> rw [Call.map]
    unfold initRow
    rw [List.map_cons, List.map_append, e1, List.map_cons, List.map_nil, e2, Call.map]
  have e3 : ((List.range 64).flatMap (initRow base t1 t2 zInv zInvSq s table)).map (Call.map f) =
      (List.range 64).flatMap (initRow (f base) (f t1) (f t2) (f zInv) (f zInvSq) (f s) (f table)) := by
    rw [List.map_flatMap]
    exact List.flatMap_congr fun j hj => e j (List.mem_range.1 hj)
  unfold initProg
  rw [List.map_append, e3]
  simp only [List.map_cons, List.map_nil, Call.map, off_nat, h3, h5]

theorem map_baseRounds {p t0 table : ℕ} (h : ∀ i < 37, f (table + 128 * i) = off (f table) (128 * i))
    (k n : ℕ) (zero : W) : (baseRounds p t0 table k n zero).map (Call.map f) =
      baseRounds (f p) (f t0) (f table) k n zero := by
  induction n generalizing zero with
  | zero => rfl
  | succ n ih =>
    unfold baseRounds
    dsimp only
    rw [List.map_append, ih]
    simp only [List.map_cons, List.map_nil, Call.map, off_nat, h (36 - n) (by omega)]

theorem map_base {p t0 table : ℕ} (h : ∀ i < 37, f (table + 128 * i) = off (f table) (128 * i))
    (h1 : f (p + 1) = off (f p) 1) (h2 : f (p + 2) = off (f p) 2) (h3 : f (t0 + 2) = off (f t0) 2) (k : ℕ) :
    (baseProg p t0 table k).map (Call.map f) = baseProg (f p) (f t0) (f table) k := by
  unfold baseProg
  dsimp only
  rw [List.map_append, map_baseRounds h]
  simp only [List.map_cons, List.map_nil, Call.map, off_nat, h1, h2, h3]

omit [Ptr β] in
theorem map_ordSqr (r a len n : ℕ) :
    (ordSqrProg r a len n).map (Call.map f) = ordSqrProg (f r) (f a) len n := by
  unfold ordSqrProg
  rw [List.map_cons, List.map_replicate]
  rfl

theorem map_ordInv {table x s t rr one xOut : ℕ} (k : ℕ) (h : ∀ i < 15, f (table + i) = off (f table) i) :
    (ordInvProg k table x s t rr one xOut).map (Call.map f) =
      ordInvProg k (f table) (f x) (f s) (f t) (f rr) (f one) (f xOut) := by
  have h1 : ((List.range 15).map fun i => Call.store (off table i) 0).map (Call.map f) =
      (List.range 15).map fun i => Call.store (off (f table) i) 0 := by
    rw [List.map_map]
    refine List.map_congr_left fun i hi => ?_
    rw [List.mem_range] at hi
    change Call.store (f (table + i)) 0 = _
    rw [h i hi]
  have h2 : ([2, 4, 6, 8, 10, 12, 14].flatMap (fun i =>
      ordSqrProg (off table (i - 1)) (off table (i / 2 - 1)) (15 - (i - 1)) 1 ++
      [.ordMul (off table i) (off table (i - 1)) table])).map (Call.map f) =
      [2, 4, 6, 8, 10, 12, 14].flatMap (fun i =>
      ordSqrProg (off (f table) (i - 1)) (off (f table) (i / 2 - 1)) (15 - (i - 1)) 1 ++
      [.ordMul (off (f table) i) (off (f table) (i - 1)) (f table)]) := by
    rw [List.map_flatMap]
    refine List.flatMap_congr fun i hi => ?_
    have hi' : i ≤ 14 := (show ∀ i ∈ [2, 4, 6, 8, 10, 12, 14], i ≤ 14 by decide) i hi
    rw [List.map_append, map_ordSqr, List.map_cons, List.map_nil, Call.map, off_nat, off_nat, off_nat,
      h _ (by omega), h _ (by omega), h _ (by omega)]
  have h3 : (expLo.flatMap (fun e =>
      ordSqrProg x x 1 4 ++ if e = 0 then [] else [.ordMul x x (off table (e - 1))])).map (Call.map f) =
      expLo.flatMap (fun e => ordSqrProg (f x) (f x) 1 4 ++
        if e = 0 then [] else [.ordMul (f x) (f x) (off (f table) (e - 1))]) := by
    rw [List.map_flatMap]
    refine List.flatMap_congr fun e he => ?_
    have he' : e ≤ 15 := (show ∀ e ∈ expLo, e ≤ 15 by decide) e he
    rw [List.map_append, map_ordSqr]
    congr 1
    split
    · rfl
    · rw [List.map_cons, List.map_nil, Call.map, off_nat, h _ (by omega)]
  unfold ordInvProg
  simp only [List.map_append, h1, h2, h3, map_ordSqr, List.map_cons, List.map_nil, Call.map]
  simp only [off_nat, h 13 (by omega), h 14 (by omega)]

theorem map_point {r rrv : ℕ} (x y : ℕ) (h1 : f (r + 1) = off (f r) 1) (h2 : f (r + 2) = off (f r) 2) :
    (pointProg r rrv x y).map (Call.map f) = pointProg (f r) (f rrv) x y := by
  unfold pointProg
  simp only [List.map_cons, List.map_nil, Call.map, off_nat, h1, h2]

end

/-! ### Programs stay within their arrays -/

/-- All calls stay within the arrays. -/
def AllFit (S : List ℕ) (cs : List (Call ℕ)) : Prop := ∀ c ∈ cs, c.fits S = true

theorem AllFit.nil {S : List ℕ} : AllFit S [] := fun _ h => absurd h List.not_mem_nil

theorem AllFit.cons {S : List ℕ} {c : Call ℕ} {cs : List (Call ℕ)} (h1 : c.fits S = true) (h2 : AllFit S cs) :
    AllFit S (c :: cs) := fun d hd => by
  rcases List.mem_cons.1 hd with h | h
  · exact h ▸ h1
  · exact h2 d h

theorem AllFit.append {S : List ℕ} {a b : List (Call ℕ)} (h1 : AllFit S a) (h2 : AllFit S b) :
    AllFit S (a ++ b) := fun d hd => by
  rcases List.mem_append.1 hd with h | h
  · exact h1 d h
  · exact h2 d h

theorem AllFit.replicate {S : List ℕ} {c : Call ℕ} (n : ℕ) (h : c.fits S = true) :
    AllFit S (List.replicate n c) := fun d hd => by
  rw [List.eq_of_mem_replicate hd]
  exact h

theorem AllFit.flatMap {S : List ℕ} {l : List ℕ} {f : ℕ → List (Call ℕ)} (h : ∀ i ∈ l, AllFit S (f i)) :
    AllFit S (l.flatMap f) := fun d hd => by
  obtain ⟨i, hi, hd⟩ := List.mem_flatMap.1 hd
  exact h i hi d hd

theorem allFit_append {S : List ℕ} {a b : List (Call ℕ)} : AllFit S (a ++ b) ↔ AllFit S a ∧ AllFit S b :=
  ⟨fun h => ⟨fun c hc => h c (by simp [hc]), fun c hc => h c (by simp [hc])⟩, fun h => h.1.append h.2⟩

theorem allFit_cons {S : List ℕ} {c : Call ℕ} {b : List (Call ℕ)} :
    AllFit S (c :: b) ↔ c.fits S = true ∧ AllFit S b :=
  ⟨fun h => ⟨h c (by simp), fun d hd => h d (by simp [hd])⟩, fun h => .cons h.1 h.2⟩

theorem allFit_nil {S : List ℕ} : AllFit S [] ↔ True := ⟨fun _ => trivial, fun _ => .nil⟩

/-- A list of calls is checked call by call. -/
theorem AllFit.of_all {S : List ℕ} {cs : List (Call ℕ)} (h : (cs.all fun c => c.fits S) = true) : AllFit S cs :=
  List.all_eq_true.1 h

section
attribute [local irreducible] sqrs Call.fits

theorem fit_inv' {S : List ℕ} {out inp s : ℕ} (w : ∀ n, AllFit S (sqrs n out))
    (q1 : (Call.sqr out out).fits S = true) (q2 : (Call.sqr out inp).fits S = true)
    (q3 : ∀ i < 5, (Call.sqr out (s + i)).fits S = true)
    (u1 : (Call.mul out out inp).fits S = true) (u2 : ∀ i < 5, (Call.mul out out (s + i)).fits S = true)
    (u3 : ∀ i < 5, (Call.mul (s + i) out inp).fits S = true)
    (u4 : ∀ i < 5, ∀ j < 5, (Call.mul (s + i) out (s + j)).fits S = true) : AllFit S (invProg out inp s) := by
  unfold invProg
  simp only [off_nat]
  have a0 : (0 : ℕ) < 5 := by omega
  have a1 : (1 : ℕ) < 5 := by omega
  have a2 : (2 : ℕ) < 5 := by omega
  have a3 : (3 : ℕ) < 5 := by omega
  have a4 : (4 : ℕ) < 5 := by omega
  simp only [allFit_append, allFit_cons, allFit_nil, w, q1, q2, u1, q3 _ a0, q3 _ a1, q3 _ a2, q3 _ a3,
    u2 _ a0, u2 _ a1, u2 _ a2, u2 _ a3, u2 _ a4, u3 _ a0, u4 _ a1 _ a0, u4 _ a2 _ a1, u4 _ a3 _ a2,
    u4 _ a4 _ a3, and_self]

end

theorem fit_inv {S : List ℕ} {out inp s : ℕ} (h1 : inside S out 1 = true) (h2 : inside S inp 1 = true)
    (h3 : inside S s 5 = true) : AllFit S (invProg out inp s) := by
  have e : ∀ i, i < 5 → inside S (s + i) 1 = true := fun i hi => inside_mono h3 (by omega)
  have q : ∀ a, inside S a 1 = true → (Call.sqr out a).fits S = true := fun a ha => by
    simp [Call.fits, Call.uses, h1, ha]
  have u : ∀ a b, inside S a 1 = true → inside S b 1 = true → (Call.mul a out b).fits S = true :=
    fun a b ha hb => by simp [Call.fits, Call.uses, h1, ha, hb]
  exact fit_inv' (fun n => AllFit.replicate n (q out h1)) (q _ h1) (q _ h2) (fun i hi => q _ (e i hi))
    (u _ _ h1 h2) (fun i hi => u _ _ h1 (e i hi)) (fun i hi => u _ _ (e i hi) h2)
    fun i hi j hj => u _ _ (e i hi) (e j hj)

theorem fit_mult (k : ℕ) : AllFit [3, 48, 3, 3, 3, 3] (multProg 0 3 51 54 57 60 k) := by
  have h1 : ∀ d zero, AllFit [3, 48, 3, 3, 3, 3] (digitProg 0 3 51 54 d zero) := fun d zero =>
    AllFit.of_all rfl
  have h2 : ∀ n zero, AllFit [3, 48, 3, 3, 3, 3] (digitsProg 0 3 51 54 k n zero) := fun n => by
    induction n with
    | zero => exact fun zero => h1 _ _
    | succ n ih => exact fun zero => (h1 _ _).append (ih _)
  exact ((AllFit.of_all (by decide)).append (AllFit.cons rfl AllFit.nil)).append (h2 _ _)

theorem fit_toAffine : AllFit [3, 1, 1, 6, 1, 1] (toAffineProg 0 3 4 5 11 12) :=
  (fit_inv (by decide) (by decide) (by decide)).append (AllFit.of_all (by decide))

theorem fit_init : AllFit [3, 3, 3, 1, 1, 6, 4736] (initProg 0 3 6 9 10 11 17) := by
  refine (AllFit.of_all (by decide)).append (AllFit.flatMap fun j hj => ?_)
  rw [List.mem_range] at hj
  refine AllFit.cons (by decide) ((AllFit.flatMap fun i hi => ?_).append ?_)
  · rw [List.mem_range] at hi
    refine AllFit.append (AllFit.append ?_ (fit_inv (by decide) (by decide) (by decide))) ?_
    · split
      · exact AllFit.nil
      · exact AllFit.replicate _ (by decide)
    · refine .cons (by decide) (.cons (by decide) (.cons (by decide) (.cons (by decide) (.cons (by decide)
        (.cons ?_ .nil)))))
      have : inside [3, 3, 3, 1, 1, 6, 4736] (17 + (128 * i + 2 * j)) 2 = true := by
        simp only [inside, Bool.or_eq_true, Bool.and_eq_true, decide_eq_true_eq]
        omega
      simp only [Call.fits, Call.uses, List.all_cons, List.all_nil, off_nat, this]
      decide
  · refine .cons ?_ .nil
    split <;> decide

theorem fit_base (k : ℕ) : AllFit [3, 3, 4736] (baseProg 0 3 6 k) := by
  have h : ∀ n, n ≤ 36 → ∀ zero, AllFit [3, 3, 4736] (baseRounds 0 3 6 k n zero) := fun n => by
    induction n with
    | zero => exact fun _ _ => AllFit.nil
    | succ n ih =>
      intro hn zero
      refine AllFit.append (.cons ?_ (.cons ?_ .nil)) (ih (by omega) _)
      · have : inside [3, 3, 4736] (6 + 128 * (36 - n)) 128 = true := by
          simp only [inside, Bool.or_eq_true, Bool.and_eq_true, decide_eq_true_eq]
          omega
        simp only [Call.fits, Call.uses, List.all_cons, List.all_nil, off_nat, this]
        decide
      · rfl
  refine AllFit.append (.cons rfl (.cons rfl (.cons ?_ (.cons ?_ .nil)))) (h 36 le_rfl _)
  · decide
  · decide

theorem fit_ordInv {k : ℕ} (hk : k < 2 ^ 256) :
    AllFit [15, 1, 1, 1, 1, 1, 1] (ordInvProg k 0 15 16 17 18 19 20) := by
  rw [ordInvProg_eq]
  refine AllFit.append (.append (.append (.append (.append ?_ ?_) ?_) ?_) ?_) ?_
  · exact .of_all (by decide)
  · refine .cons ?_ (.cons ?_ (.cons ?_ .nil))
    · simp only [Call.fits, Call.uses, hk, decide_true, Bool.and_true]
      decide
    · decide
    · decide
  · exact .of_all (by decide)
  · exact .of_all (by decide)
  · exact .of_all (by decide)
  · exact .of_all (by decide)

theorem fit_point (x y : ℕ) : AllFit [3, 1] (pointProg 0 3 x y) := by
  have h : ∀ a, reduceModP a < 2 ^ 256 := fun a => by
    unfold reduceModP
    split
    · have : P < 2 ^ 256 := by decide
      omega
    · exact lt_trans (Nat.mod_lt _ (by decide)) (by decide)
  refine .cons ?_ (.cons ?_ (.cons ?_ (.cons ?_ (.cons ?_ .nil))))
  · simp only [Call.fits, Call.uses, h, decide_true, Bool.and_true]
    decide
  · simp only [Call.fits, Call.uses, h, decide_true, Bool.and_true]
    decide
  · decide
  · decide
  · decide

/-! ### The functions on memory -/

/-- The call is one on the cells of `A ++ B`, and writes to those of `A`. -/
def Tame (A B : List (W × ℕ)) (c : Call W) : Prop :=
  ∃ c' : Call ℕ, c = c'.map (addr (A ++ B)) ∧ c'.fits ((A ++ B).map Prod.snd) = true ∧
    c'.dest.1 + c'.dest.2 ≤ size A

/-- All calls are. -/
def AllTame (A B : List (W × ℕ)) (cs : List (Call W)) : Prop := ∀ c ∈ cs, Tame A B c

/-- All calls write to the first `n` cells. -/
def AllBelow (n : ℕ) (cs : List (Call ℕ)) : Prop := ∀ c ∈ cs, c.dest.1 + c.dest.2 ≤ n

theorem AllBelow.of_fit {S : List ℕ} {cs : List (Call ℕ)} (h : AllFit S cs) : AllBelow S.sum cs :=
  fun c hc => inside_lt (Call.dest_uses (h c hc))

theorem AllBelow.append {n : ℕ} {a b : List (Call ℕ)} (h1 : AllBelow n a) (h2 : AllBelow n b) :
    AllBelow n (a ++ b) := fun c hc => by
  rcases List.mem_append.1 hc with h | h
  · exact h1 c h
  · exact h2 c h

theorem AllBelow.of_all {n : ℕ} {cs : List (Call ℕ)}
    (h : (cs.all fun c => decide (c.dest.1 + c.dest.2 ≤ n)) = true) : AllBelow n cs := fun c hc =>
  of_decide_eq_true (List.all_eq_true.1 h c hc)

theorem AllTame.of {A B : List (W × ℕ)} {cs : List (Call ℕ)} {cs' : List (Call W)}
    (hc : cs' = cs.map (Call.map (addr (A ++ B)))) (hf : AllFit ((A ++ B).map Prod.snd) cs)
    (hb : AllBelow (size A) cs) : AllTame A B cs' := by
  intro c h
  rw [hc] at h
  obtain ⟨c', h', rfl⟩ := List.mem_map.1 h
  exact ⟨c', rfl, hf c' h', hb c' h'⟩

theorem AllTame.else {A B : List (W × ℕ)} {cs : List (Call W)} (h : AllTame A B cs) {junk : ℕ → St}
    {m m' : W → W} (hr : runs junk cs m = some m') : Elsewhere A m m' := by
  induction cs generalizing junk m with
  | nil => cases hr; exact fun _ _ => rfl
  | cons c cs ih =>
    obtain ⟨m1, e1, h1⟩ := c.run_dest (junk 0) m
    rw [runs, e1] at hr
    have h2 := ih (fun c hc => h c (List.mem_cons_of_mem _ hc)) hr
    obtain ⟨c', rfl, hf, hb⟩ := h c (by simp)
    exact fun b hb' => (h2 b hb').trans (h1 b fun hm => hb' (Call.dest_words hf hb hm))

theorem lift {A B : List (W × ℕ)} (hA : Apart (A ++ B)) {cs : List (Call ℕ)} {cs' : List (Call W)}
    (hc : cs' = cs.map (Call.map (addr (A ++ B)))) (hf : AllFit ((A ++ B).map Prod.snd) cs)
    (hb : AllBelow (size A) cs) (junk : ℕ → St) (m : W → W) : ∃ m', runs junk cs' m = some m' ∧
      Holds (A ++ B) m' (sems cs fun i => rd4 m (addr (A ++ B) i)) ∧ Elsewhere A m m' := by
  obtain ⟨m', h1, h2, -⟩ := runs_sems hA cs hf (σ := fun i => rd4 m (addr (A ++ B) i)) (fun _ _ => rfl) junk
  rw [← hc] at h1
  exact ⟨m', h1, h2, (AllTame.of hc hf hb).else h1⟩

theorem addr_zero (b : W) {n : ℕ} (hn : 0 < n) (R : List (W × ℕ)) : addr ((b, n) :: R) 0 = b := by
  unfold addr waddr
  rw [if_pos (by omega)]
  exact BitVec.add_zero b

theorem addr_skip (b : W) (n : ℕ) (R : List (W × ℕ)) (i : ℕ) : addr ((b, n) :: R) (n + i) = addr R i := by
  unfold addr
  rw [waddr, if_neg (by omega)]
  congr 1
  omega

theorem below_point (x y : ℕ) : AllBelow 3 (pointProg 0 3 x y) := AllBelow.of_all rfl

theorem below_base (k : ℕ) : AllBelow 6 (baseProg 0 3 6 k) := by
  have h : ∀ n zero, AllBelow 6 (baseRounds 0 3 6 k n zero) := fun n => by
    induction n with
    | zero => exact fun _ => AllBelow.of_all rfl
    | succ n ih => exact fun zero => AllBelow.append (AllBelow.of_all rfl) (ih _)
  exact AllBelow.append (AllBelow.of_all rfl) (h 36 _)

theorem invP_lt {a : ℕ} (ha : a < 2 ^ 256) : invP a < 2 ^ 256 :=
  MulRel.invP (R := fun (a _ _ : ℕ) => a < 2 ^ 256) ⟨fun h1 h2 => mulP_lt h1 h2⟩ (b := 0) (c := 0) ha

theorem fromMontP_lt {a : ℕ} (ha : a < 2 ^ 256) : fromMontP a < 2 ^ 256 :=
  redc_lt_two_pow (by decide) (lt_of_lt_of_le ha (by norm_num))

theorem pointToAffine_lt (m : W → W) (a : W) :
    (pointToAffine (rdJac m a)).1 < 2 ^ 256 ∧ (pointToAffine (rdJac m a)).2 < 2 ^ 256 := by
  have hi : invP (rd4 m (a + 64)) < 2 ^ 256 := invP_lt (rd4_lt _ _)
  have hs : sq (invP (rd4 m (a + 64))) < 2 ^ 256 := by
    rw [nsq_eq]
    exact mulP_lt hi hi
  exact ⟨fromMontP_lt (mulP_lt (rd4_lt _ _) hs), fromMontP_lt (mulP_lt (rd4_lt _ _) (mulP_lt hi hs))⟩

/-! p256ScalarMult -/

theorem cells_mult (p precomp t0 t1 t2 t3 : W) (k : ℕ) : multProg p precomp t0 t1 t2 t3 k =
    (multProg 0 3 51 54 57 60 k).map (Call.map (addr ([(p, 3), (precomp, 48), (t0, 3), (t1, 3), (t2, 3), (t3, 3)] ++ []))) := by
  obtain ⟨R, hR⟩ : ∃ R, R = [(p, 3), (precomp, 48), (t0, 3), (t1, 3), (t2, 3), (t3, 3)] := ⟨_, rfl⟩
  have a0 : addr R 0 = p := by rw [hR]; exact addr_zero _ (by omega) _
  have a1 : addr R 3 = precomp := by
    rw [hR]
    exact (addr_skip _ 3 _ 0).trans (addr_zero _ (by omega) _)
  have a2 : addr R 51 = t0 := by
    rw [hR]
    exact (addr_skip _ 3 _ 48).trans ((addr_skip _ 48 _ 0).trans (addr_zero _ (by omega) _))
  have a3 : addr R 54 = t1 := by
    rw [hR]
    exact (addr_skip _ 3 _ 51).trans ((addr_skip _ 48 _ 3).trans ((addr_skip _ 3 _ 0).trans (addr_zero _ (by omega) _)))
  have a4 : addr R 57 = t2 := by
    rw [hR]
    exact (addr_skip _ 3 _ 54).trans ((addr_skip _ 48 _ 6).trans ((addr_skip _ 3 _ 3).trans ((addr_skip _ 3 _ 0).trans (addr_zero _ (by omega) _))))
  have a5 : addr R 60 = t3 := by
    rw [hR]
    exact (addr_skip _ 3 _ 57).trans ((addr_skip _ 48 _ 9).trans ((addr_skip _ 3 _ 6).trans ((addr_skip _ 3 _ 3).trans ((addr_skip _ 3 _ 0).trans (addr_zero _ (by omega) _)))))
  have hS : R.map Prod.snd = [3, 48, 3, 3, 3, 3] := by rw [hR]; rfl
  have i0 : inside (R.map Prod.snd) 0 3 = true := by rw [hS]; rfl
  have i1 : inside (R.map Prod.snd) 3 48 = true := by rw [hS]; rfl
  have i2 : inside (R.map Prod.snd) 51 3 = true := by rw [hS]; rfl
  change _ = (multProg 0 3 51 54 57 60 k).map (Call.map (addr [(p, 3), (precomp, 48), (t0, 3), (t1, 3), (t2, 3), (t3, 3)]))
  rw [← hR, map_mult (fun i hi => addr_off i1 (by omega)) (addr_off i2 (by omega)) k, a0, a1, a2, a3, a4, a5]

theorem tame_mult (p precomp t0 t1 t2 t3 : W) (k : ℕ) : AllTame [(p, 3), (precomp, 48), (t0, 3), (t1, 3), (t2, 3), (t3, 3)] [] (multProg p precomp t0 t1 t2 t3 k) :=
  AllTame.of (cells_mult p precomp t0 t1 t2 t3 k) (fit_mult k) (AllBelow.of_fit (fit_mult k))

theorem mem_mult {p precomp t0 t1 t2 t3 : W}
    (hA : Apart ([(p, 3), (precomp, 48), (t0, 3), (t1, 3), (t2, 3), (t3, 3)] ++ []))
    (junk : ℕ → St) (m : W → W) (k : ℕ) :
    ∃ m', runs junk (multProg p precomp t0 t1 t2 t3 k) m = some m' ∧
      rdJac m' p = pointMult (rdJac m p) k ∧
      Elsewhere [(p, 3), (precomp, 48), (t0, 3), (t1, 3), (t2, 3), (t3, 3)] m m' := by
  obtain ⟨m', h1, h2, h3⟩ := lift hA (cells_mult p precomp t0 t1 t2 t3 k) (fit_mult k) (AllBelow.of_fit (fit_mult k)) junk m
  obtain ⟨R, hR⟩ : ∃ R, R = [(p, 3), (precomp, 48), (t0, 3), (t1, 3), (t2, 3), (t3, 3)] := ⟨_, rfl⟩
  have a0 : addr R 0 = p := by rw [hR]; exact addr_zero _ (by omega) _
  have a1 : addr R 3 = precomp := by
    rw [hR]
    exact (addr_skip _ 3 _ 0).trans (addr_zero _ (by omega) _)
  have a2 : addr R 51 = t0 := by
    rw [hR]
    exact (addr_skip _ 3 _ 48).trans ((addr_skip _ 48 _ 0).trans (addr_zero _ (by omega) _))
  have a3 : addr R 54 = t1 := by
    rw [hR]
    exact (addr_skip _ 3 _ 51).trans ((addr_skip _ 48 _ 3).trans ((addr_skip _ 3 _ 0).trans (addr_zero _ (by omega) _)))
  have a4 : addr R 57 = t2 := by
    rw [hR]
    exact (addr_skip _ 3 _ 54).trans ((addr_skip _ 48 _ 6).trans ((addr_skip _ 3 _ 3).trans ((addr_skip _ 3 _ 0).trans (addr_zero _ (by omega) _))))
  have a5 : addr R 60 = t3 := by
    rw [hR]
    exact (addr_skip _ 3 _ 57).trans ((addr_skip _ 48 _ 9).trans ((addr_skip _ 3 _ 6).trans ((addr_skip _ 3 _ 3).trans ((addr_skip _ 3 _ 0).trans (addr_zero _ (by omega) _)))))
  have hS : R.map Prod.snd = [3, 48, 3, 3, 3, 3] := by rw [hR]; rfl
  have i0 : inside (R.map Prod.snd) 0 3 = true := by rw [hS]; rfl
  have i1 : inside (R.map Prod.snd) 3 48 = true := by rw [hS]; rfl
  have i2 : inside (R.map Prod.snd) 51 3 = true := by rw [hS]; rfl
  change Holds [(p, 3), (precomp, 48), (t0, 3), (t1, 3), (t2, 3), (t3, 3)] m' (sems (multProg 0 3 51 54 57 60 k) fun i => rd4 m (addr [(p, 3), (precomp, 48), (t0, 3), (t1, 3), (t2, 3), (t3, 3)] i)) at h2
  rw [← hR] at h2
  have hsz : size R = 63 := by unfold size; rw [hS]; rfl
  refine ⟨m', h1, ?_, h3⟩
  rw [← a0, rdJac_addr h2 i0, sems_mult, rdJac_addr (fun _ _ => rfl) i0]

/-! p256PointToAffine -/

theorem cells_toAffine (p zInv zInvSq stack xOut yOut : W) : toAffineProg p zInv zInvSq stack xOut yOut =
    (toAffineProg 0 3 4 5 11 12).map (Call.map (addr ([(p, 3), (zInv, 1), (zInvSq, 1), (stack, 6), (xOut, 1), (yOut, 1)] ++ []))) := by
  obtain ⟨R, hR⟩ : ∃ R, R = [(p, 3), (zInv, 1), (zInvSq, 1), (stack, 6), (xOut, 1), (yOut, 1)] := ⟨_, rfl⟩
  have a0 : addr R 0 = p := by rw [hR]; exact addr_zero _ (by omega) _
  have a1 : addr R 3 = zInv := by
    rw [hR]
    exact (addr_skip _ 3 _ 0).trans (addr_zero _ (by omega) _)
  have a2 : addr R 4 = zInvSq := by
    rw [hR]
    exact (addr_skip _ 3 _ 1).trans ((addr_skip _ 1 _ 0).trans (addr_zero _ (by omega) _))
  have a3 : addr R 5 = stack := by
    rw [hR]
    exact (addr_skip _ 3 _ 2).trans ((addr_skip _ 1 _ 1).trans ((addr_skip _ 1 _ 0).trans (addr_zero _ (by omega) _)))
  have a4 : addr R 11 = xOut := by
    rw [hR]
    exact (addr_skip _ 3 _ 8).trans ((addr_skip _ 1 _ 7).trans ((addr_skip _ 1 _ 6).trans ((addr_skip _ 6 _ 0).trans (addr_zero _ (by omega) _))))
  have a5 : addr R 12 = yOut := by
    rw [hR]
    exact (addr_skip _ 3 _ 9).trans ((addr_skip _ 1 _ 8).trans ((addr_skip _ 1 _ 7).trans ((addr_skip _ 6 _ 1).trans ((addr_skip _ 1 _ 0).trans (addr_zero _ (by omega) _)))))
  have hS : R.map Prod.snd = [3, 1, 1, 6, 1, 1] := by rw [hR]; rfl
  have i0 : inside (R.map Prod.snd) 0 3 = true := by rw [hS]; rfl
  have i3 : inside (R.map Prod.snd) 5 6 = true := by rw [hS]; rfl
  change _ = (toAffineProg 0 3 4 5 11 12).map (Call.map (addr [(p, 3), (zInv, 1), (zInvSq, 1), (stack, 6), (xOut, 1), (yOut, 1)]))
  rw [← hR, map_toAffine (fun i hi => addr_off i3 (by omega)) (addr_off i0 (by omega)) (addr_off i0 (by omega)), a0, a1, a2, a3, a4, a5]

theorem tame_toAffine (p zInv zInvSq stack xOut yOut : W) : AllTame [(p, 3), (zInv, 1), (zInvSq, 1), (stack, 6), (xOut, 1), (yOut, 1)] [] (toAffineProg p zInv zInvSq stack xOut yOut) :=
  AllTame.of (cells_toAffine p zInv zInvSq stack xOut yOut ) (fit_toAffine) (AllBelow.of_fit fit_toAffine)

theorem mem_toAffine {p zInv zInvSq stack xOut yOut : W}
    (hA : Apart ([(p, 3), (zInv, 1), (zInvSq, 1), (stack, 6), (xOut, 1), (yOut, 1)] ++ []))
    (junk : ℕ → St) (m : W → W) :
    ∃ m', runs junk (toAffineProg p zInv zInvSq stack xOut yOut) m = some m' ∧
      (natOfBytes (bytes32 m' xOut) = (pointToAffine (rdJac m p)).1 ∧
      natOfBytes (bytes32 m' yOut) = (pointToAffine (rdJac m p)).2) ∧
      Elsewhere [(p, 3), (zInv, 1), (zInvSq, 1), (stack, 6), (xOut, 1), (yOut, 1)] m m' := by
  obtain ⟨m', h1, h2, h3⟩ := lift hA (cells_toAffine p zInv zInvSq stack xOut yOut ) (fit_toAffine) (AllBelow.of_fit fit_toAffine) junk m
  obtain ⟨R, hR⟩ : ∃ R, R = [(p, 3), (zInv, 1), (zInvSq, 1), (stack, 6), (xOut, 1), (yOut, 1)] := ⟨_, rfl⟩
  have a0 : addr R 0 = p := by rw [hR]; exact addr_zero _ (by omega) _
  have a1 : addr R 3 = zInv := by
    rw [hR]
    exact (addr_skip _ 3 _ 0).trans (addr_zero _ (by omega) _)
  have a2 : addr R 4 = zInvSq := by
    rw [hR]
    exact (addr_skip _ 3 _ 1).trans ((addr_skip _ 1 _ 0).trans (addr_zero _ (by omega) _))
  have a3 : addr R 5 = stack := by
    rw [hR]
    exact (addr_skip _ 3 _ 2).trans ((addr_skip _ 1 _ 1).trans ((addr_skip _ 1 _ 0).trans (addr_zero _ (by omega) _)))
  have a4 : addr R 11 = xOut := by
    rw [hR]
    exact (addr_skip _ 3 _ 8).trans ((addr_skip _ 1 _ 7).trans ((addr_skip _ 1 _ 6).trans ((addr_skip _ 6 _ 0).trans (addr_zero _ (by omega) _))))
  have a5 : addr R 12 = yOut := by
    rw [hR]
    exact (addr_skip _ 3 _ 9).trans ((addr_skip _ 1 _ 8).trans ((addr_skip _ 1 _ 7).trans ((addr_skip _ 6 _ 1).trans ((addr_skip _ 1 _ 0).trans (addr_zero _ (by omega) _)))))
  have hS : R.map Prod.snd = [3, 1, 1, 6, 1, 1] := by rw [hR]; rfl
  have i0 : inside (R.map Prod.snd) 0 3 = true := by rw [hS]; rfl
  have i3 : inside (R.map Prod.snd) 5 6 = true := by rw [hS]; rfl
  change Holds [(p, 3), (zInv, 1), (zInvSq, 1), (stack, 6), (xOut, 1), (yOut, 1)] m' (sems (toAffineProg 0 3 4 5 11 12) fun i => rd4 m (addr [(p, 3), (zInv, 1), (zInvSq, 1), (stack, 6), (xOut, 1), (yOut, 1)] i)) at h2
  rw [← hR] at h2
  have hsz : size R = 13 := by unfold size; rw [hS]; rfl
  have hx := h2 11 (by omega)
  have hy := h2 12 (by omega)
  rw [(sems_toAffine _).1, a4, ← rdJac_addr (m := m) (fun _ _ => rfl) i0, a0] at hx
  rw [(sems_toAffine _).2, a5, ← rdJac_addr (m := m) (fun _ _ => rfl) i0, a0] at hy
  refine ⟨m', h1, ⟨?_, ?_⟩, h3⟩
  · rw [natOfBytes_bytes32, hx, revBytes_revBytes (pointToAffine_lt m p).1]
  · rw [natOfBytes_bytes32, hy, revBytes_revBytes (pointToAffine_lt m p).2]

/-- The table of multiples of the base point in memory. -/
def MemTable (m : W → W) (table : W) (T : ℕ → ℕ → ℕ × ℕ) : Prop :=
  ∀ i < 37, ∀ j < 64, rd4 m (off table (128 * i + 2 * j)) = (T i j).1 ∧
    rd4 m (off table (128 * i + 2 * j + 1)) = (T i j).2

/-! initTable -/

theorem cells_init (base t1 t2 zInv zInvSq stack table : W) : initProg base t1 t2 zInv zInvSq stack table =
    (initProg 0 3 6 9 10 11 17).map (Call.map (addr ([(base, 3), (t1, 3), (t2, 3), (zInv, 1), (zInvSq, 1), (stack, 6), (table, 4736)] ++ []))) := by
  obtain ⟨R, hR⟩ : ∃ R, R = [(base, 3), (t1, 3), (t2, 3), (zInv, 1), (zInvSq, 1), (stack, 6), (table, 4736)] := ⟨_, rfl⟩
  have a0 : addr R 0 = base := by rw [hR]; exact addr_zero _ (by omega) _
  have a1 : addr R 3 = t1 := by
    rw [hR]
    exact (addr_skip _ 3 _ 0).trans (addr_zero _ (by omega) _)
  have a2 : addr R 6 = t2 := by
    rw [hR]
    exact (addr_skip _ 3 _ 3).trans ((addr_skip _ 3 _ 0).trans (addr_zero _ (by omega) _))
  have a3 : addr R 9 = zInv := by
    rw [hR]
    exact (addr_skip _ 3 _ 6).trans ((addr_skip _ 3 _ 3).trans ((addr_skip _ 3 _ 0).trans (addr_zero _ (by omega) _)))
  have a4 : addr R 10 = zInvSq := by
    rw [hR]
    exact (addr_skip _ 3 _ 7).trans ((addr_skip _ 3 _ 4).trans ((addr_skip _ 3 _ 1).trans ((addr_skip _ 1 _ 0).trans (addr_zero _ (by omega) _))))
  have a5 : addr R 11 = stack := by
    rw [hR]
    exact (addr_skip _ 3 _ 8).trans ((addr_skip _ 3 _ 5).trans ((addr_skip _ 3 _ 2).trans ((addr_skip _ 1 _ 1).trans ((addr_skip _ 1 _ 0).trans (addr_zero _ (by omega) _)))))
  have a6 : addr R 17 = table := by
    rw [hR]
    exact (addr_skip _ 3 _ 14).trans ((addr_skip _ 3 _ 11).trans ((addr_skip _ 3 _ 8).trans ((addr_skip _ 1 _ 7).trans ((addr_skip _ 1 _ 6).trans ((addr_skip _ 6 _ 0).trans (addr_zero _ (by omega) _))))))
  have hS : R.map Prod.snd = [3, 3, 3, 1, 1, 6, 4736] := by rw [hR]; rfl
  have i0 : inside (R.map Prod.snd) 0 3 = true := by rw [hS]; rfl
  have i1 : inside (R.map Prod.snd) 3 3 = true := by rw [hS]; rfl
  have i5 : inside (R.map Prod.snd) 11 6 = true := by rw [hS]; rfl
  have i6 : inside (R.map Prod.snd) 17 4736 = true := by rw [hS]; rfl
  change _ = (initProg 0 3 6 9 10 11 17).map (Call.map (addr [(base, 3), (t1, 3), (t2, 3), (zInv, 1), (zInvSq, 1), (stack, 6), (table, 4736)]))
  rw [← hR, map_init (fun i hi => addr_off i5 (by omega)) (addr_off i1 (by omega)) (addr_off i1 (by omega))
    (addr_off i0 (by omega)) (addr_off i0 (by omega)) (fun i hi j hj => addr_off i6 (by omega)), a0, a1, a2, a3, a4, a5, a6]

theorem tame_init (base t1 t2 zInv zInvSq stack table : W) : AllTame [(base, 3), (t1, 3), (t2, 3), (zInv, 1), (zInvSq, 1), (stack, 6), (table, 4736)] [] (initProg base t1 t2 zInv zInvSq stack table) :=
  AllTame.of (cells_init base t1 t2 zInv zInvSq stack table ) (fit_init) (AllBelow.of_fit fit_init)

theorem mem_init {base t1 t2 zInv zInvSq stack table : W}
    (hA : Apart ([(base, 3), (t1, 3), (t2, 3), (zInv, 1), (zInvSq, 1), (stack, 6), (table, 4736)] ++ []))
    (junk : ℕ → St) (m : W → W) :
    ∃ m', runs junk (initProg base t1 t2 zInv zInvSq stack table) m = some m' ∧
      MemTable m' table (baseTable basePoint) ∧
      Elsewhere [(base, 3), (t1, 3), (t2, 3), (zInv, 1), (zInvSq, 1), (stack, 6), (table, 4736)] m m' := by
  obtain ⟨m', h1, h2, h3⟩ := lift hA (cells_init base t1 t2 zInv zInvSq stack table ) (fit_init) (AllBelow.of_fit fit_init) junk m
  obtain ⟨R, hR⟩ : ∃ R, R = [(base, 3), (t1, 3), (t2, 3), (zInv, 1), (zInvSq, 1), (stack, 6), (table, 4736)] := ⟨_, rfl⟩
  have a0 : addr R 0 = base := by rw [hR]; exact addr_zero _ (by omega) _
  have a1 : addr R 3 = t1 := by
    rw [hR]
    exact (addr_skip _ 3 _ 0).trans (addr_zero _ (by omega) _)
  have a2 : addr R 6 = t2 := by
    rw [hR]
    exact (addr_skip _ 3 _ 3).trans ((addr_skip _ 3 _ 0).trans (addr_zero _ (by omega) _))
  have a3 : addr R 9 = zInv := by
    rw [hR]
    exact (addr_skip _ 3 _ 6).trans ((addr_skip _ 3 _ 3).trans ((addr_skip _ 3 _ 0).trans (addr_zero _ (by omega) _)))
  have a4 : addr R 10 = zInvSq := by
    rw [hR]
    exact (addr_skip _ 3 _ 7).trans ((addr_skip _ 3 _ 4).trans ((addr_skip _ 3 _ 1).trans ((addr_skip _ 1 _ 0).trans (addr_zero _ (by omega) _))))
  have a5 : addr R 11 = stack := by
    rw [hR]
    exact (addr_skip _ 3 _ 8).trans ((addr_skip _ 3 _ 5).trans ((addr_skip _ 3 _ 2).trans ((addr_skip _ 1 _ 1).trans ((addr_skip _ 1 _ 0).trans (addr_zero _ (by omega) _)))))
  have a6 : addr R 17 = table := by
    rw [hR]
    exact (addr_skip _ 3 _ 14).trans ((addr_skip _ 3 _ 11).trans ((addr_skip _ 3 _ 8).trans ((addr_skip _ 1 _ 7).trans ((addr_skip _ 1 _ 6).trans ((addr_skip _ 6 _ 0).trans (addr_zero _ (by omega) _))))))
  have hS : R.map Prod.snd = [3, 3, 3, 1, 1, 6, 4736] := by rw [hR]; rfl
  have i0 : inside (R.map Prod.snd) 0 3 = true := by rw [hS]; rfl
  have i1 : inside (R.map Prod.snd) 3 3 = true := by rw [hS]; rfl
  have i5 : inside (R.map Prod.snd) 11 6 = true := by rw [hS]; rfl
  have i6 : inside (R.map Prod.snd) 17 4736 = true := by rw [hS]; rfl
  change Holds [(base, 3), (t1, 3), (t2, 3), (zInv, 1), (zInvSq, 1), (stack, 6), (table, 4736)] m' (sems (initProg 0 3 6 9 10 11 17) fun i => rd4 m (addr [(base, 3), (t1, 3), (t2, 3), (zInv, 1), (zInvSq, 1), (stack, 6), (table, 4736)] i)) at h2
  rw [← hR] at h2
  have hsz : size R = 4753 := by unfold size; rw [hS]; rfl
  refine ⟨m', h1, fun i hi j hj => ?_, h3⟩
  rw [← a6, ← addr_off i6 (by omega), ← addr_off i6 (by omega), h2 _ (by omega), h2 _ (by omega)]
  exact sems_init _ i hi j hj

/-! p256BaseMult -/

theorem cells_base (p t0 table : W) (k : ℕ) : baseProg p t0 table k =
    (baseProg 0 3 6 k).map (Call.map (addr ([(p, 3), (t0, 3)] ++ [(table, 4736)]))) := by
  obtain ⟨R, hR⟩ : ∃ R, R = [(p, 3), (t0, 3), (table, 4736)] := ⟨_, rfl⟩
  have a0 : addr R 0 = p := by rw [hR]; exact addr_zero _ (by omega) _
  have a1 : addr R 3 = t0 := by
    rw [hR]
    exact (addr_skip _ 3 _ 0).trans (addr_zero _ (by omega) _)
  have a2 : addr R 6 = table := by
    rw [hR]
    exact (addr_skip _ 3 _ 3).trans ((addr_skip _ 3 _ 0).trans (addr_zero _ (by omega) _))
  have hS : R.map Prod.snd = [3, 3, 4736] := by rw [hR]; rfl
  have i0 : inside (R.map Prod.snd) 0 3 = true := by rw [hS]; rfl
  have i1 : inside (R.map Prod.snd) 3 3 = true := by rw [hS]; rfl
  have i2 : inside (R.map Prod.snd) 6 4736 = true := by rw [hS]; rfl
  change _ = (baseProg 0 3 6 k).map (Call.map (addr [(p, 3), (t0, 3), (table, 4736)]))
  rw [← hR, map_base (fun i hi => addr_off i2 (by omega)) (addr_off i0 (by omega)) (addr_off i0 (by omega))
    (addr_off i1 (by omega)) k, a0, a1, a2]

theorem tame_base (p t0 table : W) (k : ℕ) : AllTame [(p, 3), (t0, 3)] [(table, 4736)] (baseProg p t0 table k) :=
  AllTame.of (cells_base p t0 table k) (fit_base k) (below_base k)

theorem mem_base {p t0 table : W}
    (hA : Apart ([(p, 3), (t0, 3)] ++ [(table, 4736)]))
    (junk : ℕ → St) (m : W → W) {T : ℕ → ℕ → ℕ × ℕ} (hT : MemTable m table T) (k : ℕ) :
    ∃ m', runs junk (baseProg p t0 table k) m = some m' ∧
      rdJac m' p = baseMult T k ∧
      Elsewhere [(p, 3), (t0, 3)] m m' := by
  obtain ⟨m', h1, h2, h3⟩ := lift hA (cells_base p t0 table k) (fit_base k) (below_base k) junk m
  obtain ⟨R, hR⟩ : ∃ R, R = [(p, 3), (t0, 3), (table, 4736)] := ⟨_, rfl⟩
  have a0 : addr R 0 = p := by rw [hR]; exact addr_zero _ (by omega) _
  have a1 : addr R 3 = t0 := by
    rw [hR]
    exact (addr_skip _ 3 _ 0).trans (addr_zero _ (by omega) _)
  have a2 : addr R 6 = table := by
    rw [hR]
    exact (addr_skip _ 3 _ 3).trans ((addr_skip _ 3 _ 0).trans (addr_zero _ (by omega) _))
  have hS : R.map Prod.snd = [3, 3, 4736] := by rw [hR]; rfl
  have i0 : inside (R.map Prod.snd) 0 3 = true := by rw [hS]; rfl
  have i1 : inside (R.map Prod.snd) 3 3 = true := by rw [hS]; rfl
  have i2 : inside (R.map Prod.snd) 6 4736 = true := by rw [hS]; rfl
  change Holds [(p, 3), (t0, 3), (table, 4736)] m' (sems (baseProg 0 3 6 k) fun i => rd4 m (addr [(p, 3), (t0, 3), (table, 4736)] i)) at h2
  rw [← hR] at h2
  have hsz : size R = 4742 := by unfold size; rw [hS]; rfl
  refine ⟨m', h1, ?_, h3⟩
  rw [← a0, rdJac_addr h2 i0]
  refine sems_base (fun i hi j hj => ?_) k
  rw [Nat.add_assoc 6, addr_off i2 (by omega), addr_off i2 (by omega), a2]
  exact hT i hi j hj

/-! Inverse -/

theorem cells_ordInv (table x s t rrv one xOut : W) (k : ℕ) : ordInvProg k table x s t rrv one xOut =
    (ordInvProg k 0 15 16 17 18 19 20).map (Call.map (addr ([(table, 15), (x, 1), (s, 1), (t, 1), (rrv, 1), (one, 1), (xOut, 1)] ++ []))) := by
  obtain ⟨R, hR⟩ : ∃ R, R = [(table, 15), (x, 1), (s, 1), (t, 1), (rrv, 1), (one, 1), (xOut, 1)] := ⟨_, rfl⟩
  have a0 : addr R 0 = table := by rw [hR]; exact addr_zero _ (by omega) _
  have a1 : addr R 15 = x := by
    rw [hR]
    exact (addr_skip _ 15 _ 0).trans (addr_zero _ (by omega) _)
  have a2 : addr R 16 = s := by
    rw [hR]
    exact (addr_skip _ 15 _ 1).trans ((addr_skip _ 1 _ 0).trans (addr_zero _ (by omega) _))
  have a3 : addr R 17 = t := by
    rw [hR]
    exact (addr_skip _ 15 _ 2).trans ((addr_skip _ 1 _ 1).trans ((addr_skip _ 1 _ 0).trans (addr_zero _ (by omega) _)))
  have a4 : addr R 18 = rrv := by
    rw [hR]
    exact (addr_skip _ 15 _ 3).trans ((addr_skip _ 1 _ 2).trans ((addr_skip _ 1 _ 1).trans ((addr_skip _ 1 _ 0).trans (addr_zero _ (by omega) _))))
  have a5 : addr R 19 = one := by
    rw [hR]
    exact (addr_skip _ 15 _ 4).trans ((addr_skip _ 1 _ 3).trans ((addr_skip _ 1 _ 2).trans ((addr_skip _ 1 _ 1).trans ((addr_skip _ 1 _ 0).trans (addr_zero _ (by omega) _)))))
  have a6 : addr R 20 = xOut := by
    rw [hR]
    exact (addr_skip _ 15 _ 5).trans ((addr_skip _ 1 _ 4).trans ((addr_skip _ 1 _ 3).trans ((addr_skip _ 1 _ 2).trans ((addr_skip _ 1 _ 1).trans ((addr_skip _ 1 _ 0).trans (addr_zero _ (by omega) _))))))
  have hS : R.map Prod.snd = [15, 1, 1, 1, 1, 1, 1] := by rw [hR]; rfl
  have i0 : inside (R.map Prod.snd) 0 15 = true := by rw [hS]; rfl
  change _ = (ordInvProg k 0 15 16 17 18 19 20).map (Call.map (addr [(table, 15), (x, 1), (s, 1), (t, 1), (rrv, 1), (one, 1), (xOut, 1)]))
  rw [← hR, map_ordInv k (fun i hi => addr_off i0 (by omega)), a0, a1, a2, a3, a4, a5, a6]

theorem tame_ordInv (table x s t rrv one xOut : W) (k : ℕ) (hk : k < N) : AllTame [(table, 15), (x, 1), (s, 1), (t, 1), (rrv, 1), (one, 1), (xOut, 1)] [] (ordInvProg k table x s t rrv one xOut) :=
  AllTame.of (cells_ordInv table x s t rrv one xOut k) (fit_ordInv (hk.trans (by decide))) (AllBelow.of_fit (fit_ordInv (hk.trans (by decide))))

theorem mem_ordInv {table x s t rrv one xOut : W}
    (hA : Apart ([(table, 15), (x, 1), (s, 1), (t, 1), (rrv, 1), (one, 1), (xOut, 1)] ++ []))
    (junk : ℕ → St) (m : W → W) (k : ℕ) (hk : k < N) :
    ∃ m', runs junk (ordInvProg k table x s t rrv one xOut) m = some m' ∧
      natOfBytes (bytes32 m' xOut) = inverse k ∧
      Elsewhere [(table, 15), (x, 1), (s, 1), (t, 1), (rrv, 1), (one, 1), (xOut, 1)] m m' := by
  obtain ⟨m', h1, h2, h3⟩ := lift hA (cells_ordInv table x s t rrv one xOut k) (fit_ordInv (hk.trans (by decide))) (AllBelow.of_fit (fit_ordInv (hk.trans (by decide)))) junk m
  obtain ⟨R, hR⟩ : ∃ R, R = [(table, 15), (x, 1), (s, 1), (t, 1), (rrv, 1), (one, 1), (xOut, 1)] := ⟨_, rfl⟩
  have a0 : addr R 0 = table := by rw [hR]; exact addr_zero _ (by omega) _
  have a1 : addr R 15 = x := by
    rw [hR]
    exact (addr_skip _ 15 _ 0).trans (addr_zero _ (by omega) _)
  have a2 : addr R 16 = s := by
    rw [hR]
    exact (addr_skip _ 15 _ 1).trans ((addr_skip _ 1 _ 0).trans (addr_zero _ (by omega) _))
  have a3 : addr R 17 = t := by
    rw [hR]
    exact (addr_skip _ 15 _ 2).trans ((addr_skip _ 1 _ 1).trans ((addr_skip _ 1 _ 0).trans (addr_zero _ (by omega) _)))
  have a4 : addr R 18 = rrv := by
    rw [hR]
    exact (addr_skip _ 15 _ 3).trans ((addr_skip _ 1 _ 2).trans ((addr_skip _ 1 _ 1).trans ((addr_skip _ 1 _ 0).trans (addr_zero _ (by omega) _))))
  have a5 : addr R 19 = one := by
    rw [hR]
    exact (addr_skip _ 15 _ 4).trans ((addr_skip _ 1 _ 3).trans ((addr_skip _ 1 _ 2).trans ((addr_skip _ 1 _ 1).trans ((addr_skip _ 1 _ 0).trans (addr_zero _ (by omega) _)))))
  have a6 : addr R 20 = xOut := by
    rw [hR]
    exact (addr_skip _ 15 _ 5).trans ((addr_skip _ 1 _ 4).trans ((addr_skip _ 1 _ 3).trans ((addr_skip _ 1 _ 2).trans ((addr_skip _ 1 _ 1).trans ((addr_skip _ 1 _ 0).trans (addr_zero _ (by omega) _))))))
  have hS : R.map Prod.snd = [15, 1, 1, 1, 1, 1, 1] := by rw [hR]; rfl
  have i0 : inside (R.map Prod.snd) 0 15 = true := by rw [hS]; rfl
  change Holds [(table, 15), (x, 1), (s, 1), (t, 1), (rrv, 1), (one, 1), (xOut, 1)] m' (sems (ordInvProg k 0 15 16 17 18 19 20) fun i => rd4 m (addr [(table, 15), (x, 1), (s, 1), (t, 1), (rrv, 1), (one, 1), (xOut, 1)] i)) at h2
  rw [← hR] at h2
  have hsz : size R = 21 := by unfold size; rw [hS]; rfl
  have hx := h2 20 (by omega)
  rw [sems_ordInv k hk, a6] at hx
  refine ⟨m', h1, ?_, h3⟩
  rw [natOfBytes_bytes32, hx, revBytes_revBytes (inverse_lt k)]

/-! A point with given coordinates -/

theorem cells_point (r rrv : W) (x y : ℕ) : pointProg r rrv x y =
    (pointProg 0 3 x y).map (Call.map (addr ([(r, 3)] ++ [(rrv, 1)]))) := by
  obtain ⟨R, hR⟩ : ∃ R, R = [(r, 3), (rrv, 1)] := ⟨_, rfl⟩
  have a0 : addr R 0 = r := by rw [hR]; exact addr_zero _ (by omega) _
  have a1 : addr R 3 = rrv := by
    rw [hR]
    exact (addr_skip _ 3 _ 0).trans (addr_zero _ (by omega) _)
  have hS : R.map Prod.snd = [3, 1] := by rw [hR]; rfl
  have i0 : inside (R.map Prod.snd) 0 3 = true := by rw [hS]; rfl
  change _ = (pointProg 0 3 x y).map (Call.map (addr [(r, 3), (rrv, 1)]))
  rw [← hR, map_point x y (addr_off i0 (by omega)) (addr_off i0 (by omega)), a0, a1]

theorem tame_point (r rrv : W) (x y : ℕ) : AllTame [(r, 3)] [(rrv, 1)] (pointProg r rrv x y) :=
  AllTame.of (cells_point r rrv x y) (fit_point x y) (below_point x y)

theorem mem_point {r rrv : W}
    (hA : Apart ([(r, 3)] ++ [(rrv, 1)]))
    (junk : ℕ → St) (m : W → W) (hrr : rd4 m rrv = rr) (x y : ℕ) :
    ∃ m', runs junk (pointProg r rrv x y) m = some m' ∧
      rdJac m' r = fromXY x y ∧
      Elsewhere [(r, 3)] m m' := by
  obtain ⟨m', h1, h2, h3⟩ := lift hA (cells_point r rrv x y) (fit_point x y) (below_point x y) junk m
  obtain ⟨R, hR⟩ : ∃ R, R = [(r, 3), (rrv, 1)] := ⟨_, rfl⟩
  have a0 : addr R 0 = r := by rw [hR]; exact addr_zero _ (by omega) _
  have a1 : addr R 3 = rrv := by
    rw [hR]
    exact (addr_skip _ 3 _ 0).trans (addr_zero _ (by omega) _)
  have hS : R.map Prod.snd = [3, 1] := by rw [hR]; rfl
  have i0 : inside (R.map Prod.snd) 0 3 = true := by rw [hS]; rfl
  change Holds [(r, 3), (rrv, 1)] m' (sems (pointProg 0 3 x y) fun i => rd4 m (addr [(r, 3), (rrv, 1)] i)) at h2
  rw [← hR] at h2
  have hsz : size R = 4 := by unfold size; rw [hS]; rfl
  refine ⟨m', h1, ?_, h3⟩
  rw [← a0, rdJac_addr h2 i0, sems_point x y (by rw [a1, hrr])]

end Verif.X64.P256
