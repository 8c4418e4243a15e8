/-
The functions of sm2/p256_amd64.go on cells: each computes the value the model of Model/P256Mult gives.
-/
import Verif.Lemmas.P256Cells
import Verif.Lemmas.P256Inv

namespace Verif.X64.P256

/-! ### Reading after writing -/

theorem put_self (σ : ℕ → ℕ) (r v : ℕ) : put σ r [v] r = v := by simp [put]

theorem put_ne (σ : ℕ → ℕ) {r c : ℕ} (l : List ℕ) (h : c < r ∨ r + l.length ≤ c) : put σ r l c = σ c := by
  unfold put
  rw [if_neg (by omega)]

theorem put_in (σ : ℕ → ℕ) {r c : ℕ} (l : List ℕ) (h : r ≤ c ∧ c < r + l.length) :
    put σ r l c = l.getD (c - r) 0 := by
  unfold put
  rw [if_pos h]

theorem put_one_ne (σ : ℕ → ℕ) {r c : ℕ} (v : ℕ) (h : c ≠ r) : put σ r [v] c = σ c :=
  put_ne σ [v] (by simp; omega)

theorem jac_put (σ : ℕ → ℕ) (r : ℕ) (j : Jac ℕ) : jac (put σ r j.list) r = j := by
  unfold jac
  rw [put_in _ _ (by simp [Jac.list]), put_in _ _ (by simp [Jac.list]), put_in _ _ (by simp [Jac.list]),
    Nat.sub_self, Nat.add_sub_cancel_left, Nat.add_sub_cancel_left]
  rfl

theorem jac_put_ne (σ : ℕ → ℕ) {r a : ℕ} (l : List ℕ) (h : a + 3 ≤ r ∨ r + l.length ≤ a) :
    jac (put σ r l) a = jac σ a := by
  unfold jac
  rw [put_ne _ _ (by omega), put_ne _ _ (by omega), put_ne _ _ (by omega)]

theorem jac_put3_ne (σ : ℕ → ℕ) {r a : ℕ} (j : Jac ℕ) (h : a + 3 ≤ r ∨ r + 3 ≤ a) :
    jac (put σ r j.list) a = jac σ a := jac_put_ne σ _ h

theorem jac_put_y (σ : ℕ → ℕ) (a v : ℕ) : jac (put σ (a + 1) [v]) a = ⟨(jac σ a).x, v, (jac σ a).z⟩ := by
  unfold jac
  rw [put_self, put_one_ne _ _ (by omega), put_one_ne _ _ (by omega)]

theorem put_x (σ : ℕ → ℕ) (r : ℕ) (j : Jac ℕ) : put σ r j.list r = j.x := by
  rw [put_in _ _ (by simp [Jac.list]), Nat.sub_self]
  rfl

theorem put_y (σ : ℕ → ℕ) (r : ℕ) (j : Jac ℕ) : put σ r j.list (r + 1) = j.y := by
  rw [put_in _ _ (by simp [Jac.list]), Nat.add_sub_cancel_left]
  rfl

theorem put_z (σ : ℕ → ℕ) (r : ℕ) (j : Jac ℕ) : put σ r j.list (r + 2) = j.z := by
  rw [put_in _ _ (by simp [Jac.list]), Nat.add_sub_cancel_left]
  rfl

/-! ### Calls -/

theorem sq_def {F : Type} [Ops F] (a : F) : sq a = Ops.mul a a := rfl

theorem nmul_eq (a b : ℕ) : Ops.mul a b = mulP a b := rfl

theorem nsq_eq (a : ℕ) : sq a = mulP a a := (sq_def a).trans (nmul_eq a a)

theorem sem_sqr (σ : ℕ → ℕ) (r a : ℕ) : (Call.sqr r a).sem σ = put σ r [sq (σ a)] := by
  rw [nsq_eq]
  rfl

theorem sem_mul (σ : ℕ → ℕ) (r a b : ℕ) : (Call.mul r a b).sem σ = put σ r [Ops.mul (σ a) (σ b)] := by
  unfold Call.sem
  rfl

theorem sem_fromMont (σ : ℕ → ℕ) (r a : ℕ) : (Call.fromMont r a).sem σ = put σ r [fromMontP (σ a)] := by
  unfold Call.sem
  rfl

theorem sem_toBig (σ : ℕ → ℕ) (r a : ℕ) : (Call.toBig r a).sem σ = put σ r [revBytes (σ a)] := by
  unfold Call.sem
  rfl

theorem sem_negCond (σ : ℕ → ℕ) (v : ℕ) (c : W) : (Call.negCond v c).sem σ = put σ v [negVal (σ v) c] := by
  unfold Call.sem
  rfl

theorem sem_store (σ : ℕ → ℕ) (r v : ℕ) : (Call.store r v).sem σ = put σ r [v] := by
  unfold Call.sem
  rfl

theorem sem_double (σ : ℕ → ℕ) (r a : ℕ) :
    (Call.double r a).sem σ = put σ r (pointDouble (jac σ a)).list := by
  unfold Call.sem
  rfl

theorem sem_add (σ : ℕ → ℕ) (r a b : ℕ) :
    (Call.add r a b).sem σ = put σ r (pointAdd (jac σ a) (jac σ b)).list := by
  unfold Call.sem
  rfl

theorem sem_movCond (σ : ℕ → ℕ) (r a b : ℕ) (c : W) :
    (Call.movCond r a b c).sem σ = put σ r (movVal (jac σ a) (jac σ b) c).list := by
  unfold Call.sem
  rfl

theorem sem_copy3 (σ : ℕ → ℕ) (r a : ℕ) : (Call.copy r a 3).sem σ = put σ r (jac σ a).list := by
  unfold Call.sem
  rfl

theorem sem_copy1 (σ : ℕ → ℕ) (r a : ℕ) : (Call.copy r a 1).sem σ = put σ r [σ a] := by
  unfold Call.sem
  rfl

theorem sem_copy2 (σ : ℕ → ℕ) (r a : ℕ) : (Call.copy r a 2).sem σ = put σ r [σ a, σ (a + 1)] := by
  unfold Call.sem
  rfl

/-! ### Inversion -/

theorem sems_sqrs (n out : ℕ) (σ : ℕ → ℕ) : sems (sqrs n out) σ out = sqN n (σ out) ∧
    ∀ c, c ≠ out → sems (sqrs n out) σ c = σ c := by
  induction n with
  | zero => exact ⟨rfl, fun _ _ => rfl⟩
  | succ n ih =>
    have e : sems (sqrs (n + 1) out) σ = (Call.sqr out out).sem (sems (sqrs n out) σ) := by
      unfold sqrs
      rw [List.replicate_succ', sems_append]
      rfl
    rw [e, sem_sqr]
    refine ⟨?_, fun c hc => ?_⟩
    · rw [put_self, ih.1]
      rfl
    · rw [put_one_ne _ _ hc, ih.2 c hc]

theorem sems_sqrs' (n out : ℕ) (σ : ℕ → ℕ) : sems (sqrs n out) σ = put σ out [sqN n (σ out)] := by
  funext c
  by_cases h : c = out
  · rw [h, put_self, (sems_sqrs n out σ).1]
  · rw [put_one_ne _ _ h, (sems_sqrs n out σ).2 c h]

/-- The state of p256Inverse: the contents of out and of the array. -/
structure InvSt (out inp s : ℕ) (σ₀ σ : ℕ → ℕ) (v p2 p4 p8 p16 p32 : ℕ) : Prop where
  hout : σ out = v
  h2 : σ (s + 0) = p2
  h4 : σ (s + 1) = p4
  h8 : σ (s + 2) = p8
  h16 : σ (s + 3) = p16
  h32 : σ (s + 4) = p32
  hinp : σ inp = σ₀ inp
  other : ∀ c, c ≠ out → (∀ i < 5, c ≠ s + i) → σ c = σ₀ c

/-- The arguments of p256Inverse do not overlap. -/
structure InvArgs (out inp s : ℕ) : Prop where
  ne : inp ≠ out
  hout : ∀ i < 5, s + i ≠ out
  hinp : ∀ i < 5, inp ≠ s + i

section
variable {out inp s : ℕ} {σ₀ σ : ℕ → ℕ} {v p2 p4 p8 p16 p32 : ℕ}

/-- A write to out. -/
theorem InvSt.toOut (ha : InvArgs out inp s) (h : InvSt out inp s σ₀ σ v p2 p4 p8 p16 p32) (w : ℕ) :
    InvSt out inp s σ₀ (put σ out [w]) w p2 p4 p8 p16 p32 where
  hout := put_self _ _ _
  h2 := (put_one_ne _ _ (ha.hout 0 (by omega))).trans h.h2
  h4 := (put_one_ne _ _ (ha.hout 1 (by omega))).trans h.h4
  h8 := (put_one_ne _ _ (ha.hout 2 (by omega))).trans h.h8
  h16 := (put_one_ne _ _ (ha.hout 3 (by omega))).trans h.h16
  h32 := (put_one_ne _ _ (ha.hout 4 (by omega))).trans h.h32
  hinp := (put_one_ne _ _ ha.ne).trans h.hinp
  other c h1 h2 := (put_one_ne _ _ h1).trans (h.other c h1 h2)

theorem InvSt.load (ha : InvArgs out inp s) (h : InvSt out inp s σ₀ σ v p2 p4 p8 p16 p32) {x y : ℕ}
    (hx : σ x = y) : InvSt out inp s σ₀ ((Call.sqr out x).sem σ) (sq y) p2 p4 p8 p16 p32 := by
  rw [sem_sqr, hx]
  exact h.toOut ha _

theorem InvSt.rep (ha : InvArgs out inp s) (h : InvSt out inp s σ₀ σ v p2 p4 p8 p16 p32) (n : ℕ) :
    InvSt out inp s σ₀ (sems (sqrs n out) σ) (sqN n v) p2 p4 p8 p16 p32 := by
  rw [sems_sqrs', h.hout]
  exact h.toOut ha _

theorem InvSt.mulOut (ha : InvArgs out inp s) (h : InvSt out inp s σ₀ σ v p2 p4 p8 p16 p32) {x y : ℕ}
    (hx : σ x = y) : InvSt out inp s σ₀ ((Call.mul out out x).sem σ) (Ops.mul v y) p2 p4 p8 p16 p32 := by
  rw [sem_mul, hx, h.hout]
  exact h.toOut ha _

theorem InvSt.top2 (ha : InvArgs out inp s) (h : InvSt out inp s σ₀ σ v p2 p4 p8 p16 p32) {x y : ℕ}
    (hx : σ x = y) : InvSt out inp s σ₀ ((Call.mul (s + 0) out x).sem σ) v (Ops.mul v y) p4 p8 p16 p32 := by
  rw [sem_mul, hx, h.hout]
  exact {
    hout := (put_one_ne _ _ (ha.hout 0 (by omega)).symm).trans h.hout
    h2 := put_self _ _ _
    h4 := (put_one_ne _ _ (by omega)).trans h.h4
    h8 := (put_one_ne _ _ (by omega)).trans h.h8
    h16 := (put_one_ne _ _ (by omega)).trans h.h16
    h32 := (put_one_ne _ _ (by omega)).trans h.h32
    hinp := (put_one_ne _ _ (ha.hinp 0 (by omega))).trans h.hinp
    other := fun c h1 h2 => (put_one_ne _ _ (h2 0 (by omega))).trans (h.other c h1 h2) }

theorem InvSt.top4 (ha : InvArgs out inp s) (h : InvSt out inp s σ₀ σ v p2 p4 p8 p16 p32) {x y : ℕ}
    (hx : σ x = y) : InvSt out inp s σ₀ ((Call.mul (s + 1) out x).sem σ) v p2 (Ops.mul v y) p8 p16 p32 := by
  rw [sem_mul, hx, h.hout]
  exact {
    hout := (put_one_ne _ _ (ha.hout 1 (by omega)).symm).trans h.hout
    h2 := (put_one_ne _ _ (by omega)).trans h.h2
    h4 := put_self _ _ _
    h8 := (put_one_ne _ _ (by omega)).trans h.h8
    h16 := (put_one_ne _ _ (by omega)).trans h.h16
    h32 := (put_one_ne _ _ (by omega)).trans h.h32
    hinp := (put_one_ne _ _ (ha.hinp 1 (by omega))).trans h.hinp
    other := fun c h1 h2 => (put_one_ne _ _ (h2 1 (by omega))).trans (h.other c h1 h2) }

theorem InvSt.top8 (ha : InvArgs out inp s) (h : InvSt out inp s σ₀ σ v p2 p4 p8 p16 p32) {x y : ℕ}
    (hx : σ x = y) : InvSt out inp s σ₀ ((Call.mul (s + 2) out x).sem σ) v p2 p4 (Ops.mul v y) p16 p32 := by
  rw [sem_mul, hx, h.hout]
  exact {
    hout := (put_one_ne _ _ (ha.hout 2 (by omega)).symm).trans h.hout
    h2 := (put_one_ne _ _ (by omega)).trans h.h2
    h4 := (put_one_ne _ _ (by omega)).trans h.h4
    h8 := put_self _ _ _
    h16 := (put_one_ne _ _ (by omega)).trans h.h16
    h32 := (put_one_ne _ _ (by omega)).trans h.h32
    hinp := (put_one_ne _ _ (ha.hinp 2 (by omega))).trans h.hinp
    other := fun c h1 h2 => (put_one_ne _ _ (h2 2 (by omega))).trans (h.other c h1 h2) }

theorem InvSt.top16 (ha : InvArgs out inp s) (h : InvSt out inp s σ₀ σ v p2 p4 p8 p16 p32) {x y : ℕ}
    (hx : σ x = y) : InvSt out inp s σ₀ ((Call.mul (s + 3) out x).sem σ) v p2 p4 p8 (Ops.mul v y) p32 := by
  rw [sem_mul, hx, h.hout]
  exact {
    hout := (put_one_ne _ _ (ha.hout 3 (by omega)).symm).trans h.hout
    h2 := (put_one_ne _ _ (by omega)).trans h.h2
    h4 := (put_one_ne _ _ (by omega)).trans h.h4
    h8 := (put_one_ne _ _ (by omega)).trans h.h8
    h16 := put_self _ _ _
    h32 := (put_one_ne _ _ (by omega)).trans h.h32
    hinp := (put_one_ne _ _ (ha.hinp 3 (by omega))).trans h.hinp
    other := fun c h1 h2 => (put_one_ne _ _ (h2 3 (by omega))).trans (h.other c h1 h2) }

theorem InvSt.top32 (ha : InvArgs out inp s) (h : InvSt out inp s σ₀ σ v p2 p4 p8 p16 p32) {x y : ℕ}
    (hx : σ x = y) : InvSt out inp s σ₀ ((Call.mul (s + 4) out x).sem σ) v p2 p4 p8 p16 (Ops.mul v y) := by
  rw [sem_mul, hx, h.hout]
  exact {
    hout := (put_one_ne _ _ (ha.hout 4 (by omega)).symm).trans h.hout
    h2 := (put_one_ne _ _ (by omega)).trans h.h2
    h4 := (put_one_ne _ _ (by omega)).trans h.h4
    h8 := (put_one_ne _ _ (by omega)).trans h.h8
    h16 := (put_one_ne _ _ (by omega)).trans h.h16
    h32 := put_self _ _ _
    hinp := (put_one_ne _ _ (ha.hinp 4 (by omega))).trans h.hinp
    other := fun c h1 h2 => (put_one_ne _ _ (h2 4 (by omega))).trans (h.other c h1 h2) }

end

theorem sems_nil (σ : ℕ → ℕ) : sems [] σ = σ := by
  unfold sems
  rw [List.foldl_nil]

theorem sq_sqN {F : Type} [Ops F] (n : ℕ) (a : F) : sq (sqN n a) = sqN (n + 1) a := rfl

theorem sqN_zero {F : Type} [Ops F] (a : F) : sqN 0 a = a := rfl

/-- p256Inverse on cells. -/
theorem sems_inv {out inp s : ℕ} (ha : InvArgs out inp s) (σ : ℕ → ℕ) :
    sems (invProg out inp s) σ out = invP (σ inp) ∧
      ∀ c, c ≠ out → (∀ i < 5, c ≠ s + i) → sems (invProg out inp s) σ c = σ c := by
  have h : InvSt out inp s σ σ _ _ _ _ _ _ := ⟨rfl, rfl, rfl, rfl, rfl, rfl, rfl, fun _ _ _ => rfl⟩
  have h := h.load ha h.hinp
  have h := h.top2 ha h.hinp
  have h := h.load ha h.h2
  have h := h.load ha h.hout
  have h := h.top4 ha h.h2
  have h := h.load ha h.h4
  have h := h.load ha h.hout
  have h := h.load ha h.hout
  have h := h.load ha h.hout
  have h := h.top8 ha h.h4
  have h := (h.load ha h.h8).rep ha 7
  have h := h.top16 ha h.h8
  have h := (h.load ha h.h16).rep ha 15
  have h := h.top32 ha h.h16
  have h := (h.load ha h.h16).rep ha 7
  have h := h.mulOut ha h.h8
  have h := h.rep ha 4
  have h := h.mulOut ha h.h4
  have h := h.load ha h.hout
  have h := h.load ha h.hout
  have h := h.mulOut ha h.h2
  have h := h.load ha h.hout
  have h := h.mulOut ha h.hinp
  have h := h.load ha h.hout
  have h := h.rep ha 32
  have h := h.mulOut ha h.h32
  have h := h.rep ha 32
  have h := h.mulOut ha h.h32
  have h := h.rep ha 32
  have h := h.mulOut ha h.h32
  have h := h.rep ha 32
  have h := h.mulOut ha h.h32
  have h := h.rep ha 64
  have h := h.mulOut ha h.h32
  have h := h.rep ha 16
  have h := h.mulOut ha h.h16
  have h := h.rep ha 8
  have h := h.mulOut ha h.h8
  have h := h.rep ha 4
  have h := h.mulOut ha h.h4
  have h := h.load ha h.hout
  have h := h.load ha h.hout
  have h := h.mulOut ha h.h2
  have h := h.load ha h.hout
  have h := h.load ha h.hout
  have h := h.mulOut ha h.hinp
  unfold invProg
  dsimp only [off_nat]
  simp only [sems_append]
  simp only [sems_cons, sems_nil]
  refine ⟨h.hout.trans ?_, h.other⟩
  clear h
  generalize σ inp = a
  have e2 : ∀ b : ℕ, sqN 2 b = sq (sq b) := fun b => by rw [← sq_sqN, ← sq_sqN, sqN_zero]
  have e3 : ∀ b : ℕ, sqN 3 b = sq (sq (sq b)) := fun b => by rw [← sq_sqN, e2]
  simp only [invP, e2, e3]

/-! ### Affine coordinates -/

/-- p256PointToAffine on cells: the point at 0, zInv at 3, zInvSq at 4, the stack at 5, xOut at 11, yOut
at 12. -/
theorem sems_toAffine (σ : ℕ → ℕ) :
    sems (toAffineProg 0 3 4 5 11 12) σ 11 = revBytes (pointToAffine (jac σ 0)).1 ∧
    sems (toAffineProg 0 3 4 5 11 12) σ 12 = revBytes (pointToAffine (jac σ 0)).2 := by
  obtain ⟨h1, h2⟩ := sems_inv (out := 3) (inp := 0 + 2) (s := 5) ⟨by omega, by omega, by omega⟩ σ
  have hx := h2 0 (by omega) (by omega)
  have hy := h2 1 (by omega) (by omega)
  unfold toAffineProg
  dsimp only [off_nat]
  rw [sems_append]
  generalize sems (invProg 3 (0 + 2) 5) σ = τ at *
  simp only [sems_cons, sems_nil]
  simp only [sem_sqr, sem_mul, sem_fromMont, sem_toBig, put_self]
  simp only [put_one_ne, put_self, ne_eq, Nat.reduceEqDiff, not_false_eq_true, Nat.reduceAdd, h1, hx, hy]
  refine ⟨?_, ?_⟩
  · unfold pointToAffine toAffine jac
    dsimp only
  · unfold pointToAffine toAffine jac
    dsimp only

/-! ### Multiplication of a point -/

/-- The table of p256ScalarMult. -/
def tableAt (σ : ℕ → ℕ) (a : ℕ) : List (Jac ℕ) := (List.range 16).map fun j => jac σ (a + 3 * j)

theorem sem_select (σ : ℕ → ℕ) (r a : ℕ) (i : W) :
    (Call.select r a i).sem σ = put σ r (selectVal (tableAt σ a) i).list := by
  unfold Call.sem
  rfl

theorem tableAt_put (σ : ℕ → ℕ) {r a : ℕ} (l : List ℕ) (h : a + 48 ≤ r ∨ r + l.length ≤ a) :
    tableAt (put σ r l) a = tableAt σ a := by
  unfold tableAt
  refine List.map_congr_left fun j hj => ?_
  rw [List.mem_range] at hj
  exact jac_put_ne _ _ (by omega)

theorem tableAt_put3 (σ : ℕ → ℕ) {r a : ℕ} (j : Jac ℕ) (h : a + 48 ≤ r ∨ r + 3 ≤ a) :
    tableAt (put σ r j.list) a = tableAt σ a := tableAt_put σ _ h

theorem tableAt_eq (σ : ℕ → ℕ) : tableAt σ 3 = [jac σ 3, jac σ 6, jac σ 9, jac σ 12, jac σ 15, jac σ 18,
    jac σ 21, jac σ 24, jac σ 27, jac σ 30, jac σ 33, jac σ 36, jac σ 39, jac σ 42, jac σ 45, jac σ 48] := by
  unfold tableAt
  rfl

/-- The preparation of the table on cells: the point at 0, the table at 3, t0 to t3 at 51, 54, 57, 60. -/
theorem sems_precomp (σ : ℕ → ℕ) :
    tableAt (sems (precompProg 0 3 51 54 57 60) σ) 3 = precomp (jac σ 0) := by
  unfold precompProg storePoint
  dsimp only [off_nat]
  simp only [sems_cons, sems_nil]
  simp only [sem_copy3, sem_double, sem_add, Nat.reduceMul, Nat.reduceAdd, tableAt_eq]
  simp only [jac_put, jac_put3_ne, Nat.reduceAdd, Nat.reduceLeDiff, or_true, or_false]
  unfold precomp
  dsimp only

theorem sems_digit (σ : ℕ → ℕ) (w zero : W) :
    jac (sems (digitProg 0 3 51 54 (boothW5 w) zero) σ) 0 =
      (multStep (tableAt σ 3) (jac σ 0, zero) w).1 ∧
    tableAt (sems (digitProg 0 3 51 54 (boothW5 w) zero) σ) 3 = tableAt σ 3 := by
  unfold digitProg
  dsimp only [off_nat]
  simp only [sems_cons, sems_nil]
  simp only [sem_double, sem_add, sem_select, sem_negCond, sem_movCond]
  simp only [jac_put, jac_put3_ne, tableAt_put3, tableAt_put, jac_put_ne, jac_put_y, put_y, List.length_cons,
    List.length_nil, Nat.reduceAdd, Nat.reduceLeDiff, or_true, or_false, and_true]
  unfold multStep
  dsimp only

/-- The rounds of p256ScalarMult from the `n`-th last on, and the last digit. -/
def multFrom (table : List (Jac ℕ)) (k : ℕ) : ℕ → Jac ℕ × W → Jac ℕ
  | 0, st => (multStep table st ((word k 0 <<< 1) &&& 0x3f)).1
  | n + 1, st => multFrom table k n (multStep table st (window k (5 * n + 4) 0x3f))

theorem multStep_snd (table : List (Jac ℕ)) (st : Jac ℕ × W) (w : W) :
    (multStep table st w).2 = st.2 ||| (boothW5 w).1 := rfl

theorem sems_digits (k n : ℕ) (σ : ℕ → ℕ) (zero : W) :
    jac (sems (digitsProg 0 3 51 54 k n zero) σ) 0 = multFrom (tableAt σ 3) k n (jac σ 0, zero) := by
  induction n generalizing σ zero with
  | zero =>
    unfold digitsProg multFrom
    exact (sems_digit σ _ zero).1
  | succ n ih =>
    unfold digitsProg multFrom
    dsimp only
    rw [sems_append, ih, (sems_digit σ _ zero).1, (sems_digit σ _ zero).2]
    congr 1

theorem multFrom_eq (table : List (Jac ℕ)) (k n : ℕ) (hn : n ≤ 50) (st : Jac ℕ × W) :
    multFrom table k n st = (multStep table ((List.range' (50 - n) n).foldl
      (fun st i => multStep table st (window k (249 - 5 * i) 0x3f)) st) ((word k 0 <<< 1) &&& 0x3f)).1 := by
  induction n generalizing st with
  | zero => rfl
  | succ n ih =>
    rw [multFrom, ih (by omega), show 50 - n = 50 - (n + 1) + 1 by omega, List.range'_succ, List.foldl_cons,
      show 249 - 5 * (50 - (n + 1)) = 5 * n + 4 by omega]

/-- p256ScalarMult on cells. -/
theorem sems_mult (σ : ℕ → ℕ) (k : ℕ) :
    jac (sems (multProg 0 3 51 54 57 60 k) σ) 0 = pointMult (jac σ 0) k := by
  have h := sems_precomp σ
  unfold multProg
  dsimp only
  rw [sems_append, sems_append, sems_cons, sems_nil]
  generalize sems (precompProg 0 3 51 54 57 60) σ = τ at *
  rw [sems_digits, sem_select, jac_put, tableAt_put3 _ _ (by omega), h, multFrom_eq _ _ _ le_rfl]
  unfold pointMult multScan
  dsimp only
  rw [List.range_eq_range']

/-! ### Multiplication of the base point -/

/-- The table of multiples of the base point at `a`. -/
def TableIs (σ : ℕ → ℕ) (a : ℕ) (T : ℕ → ℕ → ℕ × ℕ) : Prop :=
  ∀ i < 37, ∀ j < 64, σ (a + (128 * i + 2 * j)) = (T i j).1 ∧ σ (a + (128 * i + 2 * j) + 1) = (T i j).2

theorem TableIs.put {σ : ℕ → ℕ} {a : ℕ} {T : ℕ → ℕ → ℕ × ℕ} (h : TableIs σ a T) {r : ℕ} (l : List ℕ)
    (hr : r + l.length ≤ a) : TableIs (put σ r l) a T := fun i hi j hj => by
  rw [put_ne _ _ (by omega), put_ne _ _ (by omega)]
  exact h i hi j hj

theorem selectBaseVal_congr {f g : ℕ → ℕ × ℕ} (h : ∀ j < 64, f j = g j) (i : W) :
    selectBaseVal f i = selectBaseVal g i := by
  unfold selectBaseVal
  split
  · exact h _ (by omega)
  · rfl

theorem sem_selectBase {σ : ℕ → ℕ} {a : ℕ} {T : ℕ → ℕ → ℕ × ℕ} (h : TableIs σ a T) (r : ℕ) {i : ℕ}
    (hi : i < 37) (d : W) : (Call.selectBase r (a + 128 * i) d).sem σ =
      put σ r [(selectBaseVal (T i) d).1, (selectBaseVal (T i) d).2] := by
  have e : selectBaseVal (fun j => (σ (a + 128 * i + 2 * j), σ (a + 128 * i + 2 * j + 1))) d =
      selectBaseVal (T i) d := selectBaseVal_congr (fun j hj => by
    rw [Nat.add_assoc a]
    exact Prod.ext (h i hi j hj).1 (h i hi j hj).2) d
  rw [← e]
  unfold Call.sem
  rfl

theorem sem_addAffine (σ : ℕ → ℕ) (r a b : ℕ) (sign sel zero : W) :
    (Call.addAffine r a b sign sel zero).sem σ = put σ r (pointAddAffine Ops.one (jac σ a) (σ b) (σ (b + 1))
      (decide (sign ≠ 0)) (sel.toNat % 2 ^ 32) (zero.toNat % 2 ^ 32)).list := by
  unfold Call.sem
  rfl

theorem sems_baseRounds (T : ℕ → ℕ → ℕ × ℕ) (k n : ℕ) (hn : n ≤ 36) (σ : ℕ → ℕ) (zero : W)
    (h : TableIs σ 6 T) : jac (sems (baseRounds 0 3 6 k n zero) σ) 0 =
      ((List.range' (36 - n) n).foldl (fun st i => baseStep T k st (i + 1)) (jac σ 0, zero)).1 := by
  induction n generalizing σ zero with
  | zero => rfl
  | succ n ih =>
    unfold baseRounds
    dsimp only [off_nat]
    rw [sems_append, sems_cons, sems_cons, sems_nil, sem_selectBase h _ (by omega), sem_addAffine,
      ih (by omega) _ _ ((h.put _ (by simp)).put _ (by simp [Jac.list])), jac_put,
      jac_put_ne _ _ (by omega), put_in _ _ (by simp), put_in _ _ (by simp),
      show 36 - n = 36 - (n + 1) + 1 by omega, List.range'_succ, List.foldl_cons]
    rfl

/-- p256BaseMult on cells: the point at 0, t0 at 3, the table at 6. -/
theorem sems_base {T : ℕ → ℕ → ℕ × ℕ} {σ : ℕ → ℕ} (h : TableIs σ 6 T) (k : ℕ) :
    jac (sems (baseProg 0 3 6 k) σ) 0 = baseMult T k := by
  unfold baseProg
  dsimp only [off_nat]
  rw [sems_append, sems_cons, sems_cons, sems_cons, sems_cons, sems_nil]
  have e := sem_selectBase h 0 (i := 0) (by omega) (boothW7 ((word k 0 <<< 1) &&& 0xff)).1
  rw [Nat.mul_zero, Nat.add_zero] at e
  rw [e, sem_negCond, sem_store, sem_store, sems_baseRounds T k 36 le_rfl _ _
    ((((h.put _ (by simp)).put _ (by simp)).put _ (by simp)).put _ (by simp))]
  unfold baseMult
  dsimp only
  rw [List.range_eq_range', Nat.sub_self]
  congr 3

/-! ### The table of multiples of the base point -/

theorem sems_double7 (σ : ℕ → ℕ) (n a : ℕ) :
    jac (sems (List.replicate n (.double a a)) σ) a = n.repeat pointDouble (jac σ a) ∧
    ∀ c, (c < a ∨ a + 3 ≤ c) → sems (List.replicate n (.double a a)) σ c = σ c := by
  induction n with
  | zero => exact ⟨rfl, fun _ _ => rfl⟩
  | succ n ih =>
    rw [List.replicate_succ', sems_append, sems_cons, sems_nil, sem_double]
    refine ⟨?_, fun c hc => ?_⟩
    · rw [jac_put, ih.1]
      rfl
    · rw [put_ne _ _ hc, ih.2 c hc]

/-- What a round of the inner loop starts from. -/
def colArg (i : ℕ) (t : Jac ℕ) : Jac ℕ := if i = 0 then t else Nat.repeat pointDouble 7 t

/-- A round of the inner loop of initTable on cells: basePoint at 0, t1 at 3, t2 at 6, zInv at 9, zInvSq
at 10, the stack at 11, the table at 17. -/
theorem sems_initStep (σ : ℕ → ℕ) (j i : ℕ) (hz : σ 2 = oneM) :
    let σ' := sems (initStep 0 3 9 10 11 17 j i) σ
    let t := norm (colArg i (jac σ 3))
    jac σ' 3 = t ∧ σ' (17 + (128 * i + 2 * j)) = t.x ∧ σ' (17 + (128 * i + 2 * j) + 1) = t.y ∧
      ∀ c, c < 3 ∨ (6 ≤ c ∧ c < 9) ∨ (17 ≤ c ∧ c ≠ 17 + (128 * i + 2 * j) ∧ c ≠ 17 + (128 * i + 2 * j) + 1) →
        σ' c = σ c := by
  dsimp only
  obtain ⟨τ, hτ, h1, h2⟩ : ∃ τ, τ = sems (if i = 0 then [] else List.replicate 7 (.double 3 3)) σ ∧
      jac τ 3 = colArg i (jac σ 3) ∧ ∀ c, (c < 3 ∨ 3 + 3 ≤ c) → τ c = σ c := by
    refine ⟨_, rfl, ?_⟩
    unfold colArg
    by_cases hi : i = 0
    · rw [if_pos hi, if_pos hi]
      exact ⟨rfl, fun _ _ => rfl⟩
    · rw [if_neg hi, if_neg hi]
      exact sems_double7 σ 7 3
  obtain ⟨ρ, hρ, h3, h4⟩ : ∃ ρ, ρ = sems (invProg 9 (3 + 2) 11) τ ∧ ρ 9 = invP (τ (3 + 2)) ∧
      ∀ c, c ≠ 9 → (∀ i < 5, c ≠ 11 + i) → ρ c = τ c :=
    ⟨_, rfl, sems_inv ⟨by omega, by omega, by omega⟩ τ⟩
  have g2 : ρ 2 = oneM := by rw [h4 2 (by omega) (by omega), h2 2 (by omega), hz]
  have g3 : ρ 3 = τ 3 := h4 3 (by omega) (by omega)
  have g4 : ρ 4 = τ 4 := h4 4 (by omega) (by omega)
  unfold initStep
  dsimp only [off_nat]
  rw [sems_append, sems_append, ← hτ, ← hρ, ← h1]
  generalize 128 * i + 2 * j = e
  simp only [sems_cons, sems_nil]
  rw [sem_copy2]
  obtain ⟨υ, hυ, h5, h6⟩ : ∃ υ, υ = (Call.copy (3 + 2) (0 + 2) 1).sem ((Call.mul (3 + 1) (3 + 1) 9).sem
      ((Call.mul 3 3 10).sem ((Call.mul 9 9 10).sem ((Call.sqr 10 9).sem ρ)))) ∧
      jac υ 3 = norm (jac τ 3) ∧ ∀ c, c < 3 ∨ (6 ≤ c ∧ c < 9) ∨ 11 ≤ c → υ c = ρ c := by
    refine ⟨_, rfl, ?_, fun c hc => ?_⟩
    · simp only [sem_sqr, sem_mul, sem_copy1, put_self]
      unfold jac norm toAffine
      simp only [put_one_ne, put_self, ne_eq, Nat.reduceEqDiff, not_false_eq_true, Nat.reduceAdd, h3, g2, g3,
        g4]
      rfl
    · simp only [sem_sqr, sem_mul, sem_copy1]
      rw [put_one_ne _ _ (by omega), put_one_ne _ _ (by omega), put_one_ne _ _ (by omega),
        put_one_ne _ _ (by omega), put_one_ne _ _ (by omega)]
  rw [← hυ, ← h5]
  refine ⟨jac_put_ne _ _ (by omega), ?_, ?_, fun c hc => ?_⟩
  · rw [put_in _ _ (by simp), Nat.sub_self]
    rfl
  · rw [put_in _ _ (by simp), Nat.add_sub_cancel_left]
    rfl
  · have hc' : c < 17 + e ∨ 17 + e + [υ 3, υ (3 + 1)].length ≤ c := by
      simp only [List.length_cons, List.length_nil]
      omega
    rw [put_ne _ _ hc', h6 c (by omega), h4 c (by omega) (by omega), h2 c (by omega)]

theorem tableCol_succ (t : Jac ℕ) (i : ℕ) : tableCol t (i + 1) = norm (colArg (i + 1) (tableCol t i)) := rfl

/-- The inner loop of initTable on cells. -/
theorem sems_initCols (σ : ℕ → ℕ) (j : ℕ) (hj : j < 64) (hz : σ 2 = oneM) (n : ℕ) :
    let σ' := sems ((List.range n).flatMap (initStep 0 3 9 10 11 17 j)) σ
    (jac σ' 3 = if n = 0 then jac σ 3 else tableCol (jac σ 3) (n - 1)) ∧
    (∀ i < n, σ' (17 + (128 * i + 2 * j)) = (tableCol (jac σ 3) i).x ∧
      σ' (17 + (128 * i + 2 * j) + 1) = (tableCol (jac σ 3) i).y) ∧
    ∀ c, c < 3 ∨ (6 ≤ c ∧ c < 9) ∨
      (17 ≤ c ∧ ∀ i < n, c ≠ 17 + (128 * i + 2 * j) ∧ c ≠ 17 + (128 * i + 2 * j) + 1) → σ' c = σ c := by
  dsimp only
  induction n with
  | zero => exact ⟨rfl, fun _ h => absurd h (by omega), fun _ _ => rfl⟩
  | succ n ih =>
    obtain ⟨i1, i2, i3⟩ := ih
    rw [List.range_succ, List.flatMap_append, List.flatMap_singleton, sems_append]
    generalize sems ((List.range n).flatMap (initStep 0 3 9 10 11 17 j)) σ = τ at *
    obtain ⟨s1, s2, s3, s4⟩ := sems_initStep τ j n ((i3 2 (by omega)).trans hz)
    have hcol : norm (colArg n (jac τ 3)) = tableCol (jac σ 3) n := by
      rw [i1]
      cases n with
      | zero => rfl
      | succ n => rw [if_neg (by omega)]; rfl
    rw [hcol] at s1 s2 s3
    rw [if_neg (by omega)]
    refine ⟨s1, fun i hi => ?_, fun c hc => ?_⟩
    · by_cases h : i = n
      · rw [h]
        exact ⟨s2, s3⟩
      · rw [s4 _ (by omega), s4 _ (by omega)]
        exact i2 i (by omega)
    · rw [s4 c ?_, i3 c ?_]
      · rcases hc with hc | hc | ⟨hc, hc'⟩
        · exact .inl hc
        · exact .inr (.inl hc)
        · exact .inr (.inr ⟨hc, fun i hi => hc' i (by omega)⟩)
      · rcases hc with hc | hc | ⟨hc, hc'⟩
        · exact .inl hc
        · exact .inr (.inl hc)
        · exact .inr (.inr ⟨hc, hc' n (by omega)⟩)

/-- A round of the outer loop of initTable on cells. -/
theorem sems_initRow (σ : ℕ → ℕ) (j : ℕ) (hj : j < 64) (hz : σ 2 = oneM) (ht : jac σ 6 = tableRow (jac σ 0) j) :
    let σ' := sems (initRow 0 3 6 9 10 11 17 j) σ
    jac σ' 0 = jac σ 0 ∧ jac σ' 6 = tableRow (jac σ 0) (j + 1) ∧
    (∀ i < 37, σ' (17 + (128 * i + 2 * j)) = (baseTable (jac σ 0) i j).1 ∧
      σ' (17 + (128 * i + 2 * j) + 1) = (baseTable (jac σ 0) i j).2) ∧
    ∀ c, 17 ≤ c → (∀ i < 37, c ≠ 17 + (128 * i + 2 * j) ∧ c ≠ 17 + (128 * i + 2 * j) + 1) → σ' c = σ c := by
  dsimp only
  unfold initRow
  rw [sems_cons, sems_append, sem_copy3]
  obtain ⟨h1, h2, h3⟩ := sems_initCols (put σ 3 (jac σ 6).list) j hj
    (by rw [put_ne _ _ (by omega)]; exact hz) 37
  rw [jac_put] at h1 h2
  generalize sems ((List.range 37).flatMap (initStep 0 3 9 10 11 17 j)) (put σ 3 (jac σ 6).list) = τ at *
  have h4 : ∀ c, c < 3 ∨ (6 ≤ c ∧ c < 9) ∨
      (17 ≤ c ∧ ∀ i < 37, c ≠ 17 + (128 * i + 2 * j) ∧ c ≠ 17 + (128 * i + 2 * j) + 1) → τ c = σ c :=
    fun c hc => by
      rw [h3 c hc, put_ne _ _]
      have : (jac σ 6).list.length = 3 := rfl
      omega
  have j0 : jac τ 0 = jac σ 0 := by
    unfold jac
    rw [h4 0 (by omega), h4 1 (by omega), h4 2 (by omega)]
  have j6 : jac τ 6 = jac σ 6 := by
    unfold jac
    rw [h4 6 (by omega), h4 7 (by omega), h4 8 (by omega)]
  obtain ⟨v, hv, hv'⟩ : ∃ v : Jac ℕ, sems [if j = 0 then Call.double 6 0 else .add 6 6 0] τ = put τ 6 v.list ∧
      v = tableRow (jac σ 0) (j + 1) := by
    by_cases hj0 : j = 0
    · refine ⟨_, by rw [if_pos hj0, sems_cons, sems_nil, sem_double], ?_⟩
      rw [j0, hj0]
      rfl
    · refine ⟨_, by rw [if_neg hj0, sems_cons, sems_nil, sem_add], ?_⟩
      rw [j0, j6, ht]
      obtain ⟨j', rfl⟩ : ∃ j', j = j' + 1 := ⟨j - 1, by omega⟩
      rfl
  have hl : v.list.length = 3 := rfl
  rw [hv]
  refine ⟨?_, ?_, fun i hi => ?_, fun c hc hc' => ?_⟩
  · rw [jac_put_ne _ _ (by omega), j0]
  · rw [jac_put, hv']
  · rw [put_ne _ _ (by omega), put_ne _ _ (by omega), ht] at *
    exact h2 i hi
  · rw [put_ne _ _ (by omega), h4 c (.inr (.inr ⟨hc, hc'⟩))]

/-- The outer loop of initTable on cells. -/
theorem sems_initRows (σ : ℕ → ℕ) (hz : σ 2 = oneM) (ht : jac σ 6 = jac σ 0) (n : ℕ) (hn : n ≤ 64) :
    let σ' := sems ((List.range n).flatMap (initRow 0 3 6 9 10 11 17)) σ
    jac σ' 0 = jac σ 0 ∧ jac σ' 6 = tableRow (jac σ 0) n ∧
    ∀ i < 37, ∀ j < n, σ' (17 + (128 * i + 2 * j)) = (baseTable (jac σ 0) i j).1 ∧
      σ' (17 + (128 * i + 2 * j) + 1) = (baseTable (jac σ 0) i j).2 := by
  dsimp only
  induction n with
  | zero => exact ⟨rfl, ht, fun _ _ _ h => absurd h (by omega)⟩
  | succ n ih =>
    obtain ⟨i1, i2, i3⟩ := ih (by omega)
    rw [List.range_succ, List.flatMap_append, List.flatMap_singleton, sems_append]
    generalize sems ((List.range n).flatMap (initRow 0 3 6 9 10 11 17)) σ = τ at *
    have hz' : τ 2 = oneM := by
      have h : (jac τ 0).z = (jac σ 0).z := by rw [i1]
      exact h.trans hz
    obtain ⟨s1, s2, s3, s4⟩ := sems_initRow τ n (by omega) hz' (by rw [i1, i2])
    rw [i1] at s1 s2 s3
    refine ⟨s1, s2, fun i hi j hj => ?_⟩
    by_cases h : j = n
    · rw [h]
      exact s3 i hi
    · rw [s4 _ (by omega) (by omega), s4 _ (by omega) (by omega)]
      exact i3 i hi j (by omega)

/-- initTable on cells. -/
theorem sems_init (σ : ℕ → ℕ) : TableIs (sems (initProg 0 3 6 9 10 11 17) σ) 17 (baseTable basePoint) := by
  unfold initProg
  dsimp only [off_nat]
  rw [sems_append, sems_cons, sems_cons, sems_cons, sems_cons, sems_nil, sem_store, sem_store, sem_store,
    sem_copy3]
  obtain ⟨τ, hτ, h0, h6⟩ : ∃ τ, τ = put (put (put (put σ 0 [basePoint.x]) (0 + 1) [basePoint.y]) (0 + 2)
      [basePoint.z]) 6 (jac (put (put (put σ 0 [basePoint.x]) (0 + 1) [basePoint.y]) (0 + 2)
      [basePoint.z]) 0).list ∧ jac τ 0 = basePoint ∧ jac τ 6 = jac τ 0 := by
    have e : jac (put (put (put σ 0 [basePoint.x]) (0 + 1) [basePoint.y]) (0 + 2) [basePoint.z]) 0 =
        basePoint := by
      unfold jac
      rw [put_one_ne _ _ (by omega), put_one_ne _ _ (by omega), put_self, put_one_ne _ _ (by omega), put_self,
        put_self]
    refine ⟨_, rfl, ?_, ?_⟩
    · rw [jac_put_ne _ _ (by omega), e]
    · rw [e, jac_put, jac_put_ne _ _ (by omega), e]
  rw [← hτ]
  have hz : τ 2 = oneM := by
    have h : (jac τ 0).z = basePoint.z := by rw [h0]
    exact h
  have h := (sems_initRows τ hz h6 64 le_rfl).2.2
  rw [h0] at h
  exact h

/-! ### A point with given coordinates -/

/-- The point at 0, rr at 3. -/
theorem sems_point {σ : ℕ → ℕ} (x y : ℕ) (h : σ 3 = rr) :
    jac (sems (pointProg 0 3 x y) σ) 0 = fromXY x y := by
  unfold pointProg
  dsimp only [off_nat]
  simp only [sems_cons, sems_nil]
  simp only [sem_store, sem_mul]
  unfold jac fromXY
  simp only [put_one_ne, put_self, ne_eq, Nat.reduceEqDiff, not_false_eq_true, Nat.reduceAdd, h, nmul_eq]

/-! ### Inversion modulo the group order -/

theorem sem_ordMul (σ : ℕ → ℕ) (r a b : ℕ) : (Call.ordMul r a b).sem σ = put σ r [mulN (σ a) (σ b)] := by
  unfold Call.sem
  rfl

theorem sem_copy (σ : ℕ → ℕ) (r a n : ℕ) :
    (Call.copy r a n).sem σ = put σ r ((List.range n).map fun i => σ (a + i)) := by
  unfold Call.sem
  rfl

/-- The table of Inverse. -/
def tab (σ : ℕ → ℕ) : List ℕ := (List.range 15).map σ

theorem tab_length (σ : ℕ → ℕ) : (tab σ).length = 15 := by simp [tab]

theorem tab_get (σ : ℕ → ℕ) {i : ℕ} (hi : i < 15) : (tab σ).getD i 0 = σ i := by
  unfold tab
  rw [List.getD_eq_getElem?_getD, List.getElem?_map, List.getElem?_range hi]
  rfl

theorem tab_get? (σ : ℕ → ℕ) (i : ℕ) : (tab σ)[i]? = if i < 15 then some (σ i) else none := by
  unfold tab
  rw [List.getElem?_map]
  split
  · rename_i h
    rw [List.getElem?_range h]
    rfl
  · rename_i h
    rw [List.getElem?_eq_none (by simpa using h)]
    rfl

theorem tab_set (σ : ℕ → ℕ) {r : ℕ} (hr : r < 15) (v : ℕ) : tab (put σ r [v]) = (tab σ).set r v := by
  apply List.ext_getElem?
  intro i
  rw [tab_get?, List.getElem?_set, tab_length, tab_get?]
  by_cases h : r = i
  · subst h
    rw [if_pos hr, put_self, if_pos rfl, if_pos hr]
  · rw [if_neg h, put_one_ne _ _ (Ne.symm h)]

theorem tab_congr {σ τ : ℕ → ℕ} (h : ∀ i < 15, τ i = σ i) : tab τ = tab σ :=
  List.map_congr_left fun i hi => h i (List.mem_range.1 hi)

theorem tab_copy (σ : ℕ → ℕ) {d a : ℕ} (hd : d < 15) (ha : a ≤ d) :
    tab (put σ d ((List.range (15 - d)).map fun i => σ (a + i))) = copyTail (tab σ) d a := by
  apply List.ext_getElem?
  intro i
  unfold copyTail
  rw [tab_get?, tab_length, List.getElem?_append, List.length_take, tab_length, Nat.min_eq_left (by omega)]
  by_cases h15 : i < 15
  · rw [if_pos h15]
    by_cases h : i < d
    · rw [if_pos h, List.getElem?_take, if_pos h, tab_get?, if_pos h15, put_ne _ _ (by omega)]
    · rw [if_neg h, List.getElem?_take, if_pos (by omega), List.getElem?_drop, tab_get?, if_pos (by omega),
        put_in _ _ (by simp; omega), List.getD_eq_getElem?_getD, List.getElem?_map,
        List.getElem?_range (by omega)]
      rfl
  · rw [if_neg h15, if_neg (by omega), List.getElem?_take, if_neg (by omega)]

theorem ordSqN_zero {F : Type} (m : F → F → F) (a : F) : ordSqN m 0 a = a := rfl

theorem ordSqN_succ {F : Type} (m : F → F → F) (n : ℕ) (a : F) :
    ordSqN m (n + 1) a = m (ordSqN m n a) (ordSqN m n a) := rfl

/-- p256_sm2OrdSqr2 of four words on cells. -/
theorem sems_ordSqr (σ : ℕ → ℕ) (r a n : ℕ) :
    sems (ordSqrProg r a 1 n) σ = put σ r [ordSqN mulN n (σ a)] := by
  unfold ordSqrProg
  rw [sems_cons, sem_copy1]
  have key : ∀ n τ, sems (List.replicate n (.ordMul r r r)) τ = put τ r [ordSqN mulN n (τ r)] := by
    intro n τ
    induction n with
    | zero =>
      funext c
      rw [List.replicate_zero, sems_nil, ordSqN_zero]
      by_cases h : c = r
      · rw [h, put_self]
      · rw [put_one_ne _ _ h]
    | succ n ih =>
      rw [List.replicate_succ', sems_append, ih, sems_cons, sems_nil, sem_ordMul, put_self]
      funext c
      by_cases h : c = r
      · rw [h, put_self, put_self, ordSqN_succ]
      · rw [put_one_ne _ _ h, put_one_ne _ _ h, put_one_ne _ _ h]
  rw [key, put_self]
  funext c
  by_cases h : c = r
  · rw [h, put_self, put_self]
  · rw [put_one_ne _ _ h, put_one_ne _ _ h, put_one_ne _ _ h]

/-- A round of the preparation of the table on cells. -/
theorem sems_ordTable (σ : ℕ → ℕ) {i : ℕ} (h2 : 2 ≤ i) (h14 : i ≤ 14) :
    let σ' := sems (ordSqrProg (0 + (i - 1)) (0 + (i / 2 - 1)) (15 - (i - 1)) 1 ++
      [.ordMul (0 + i) (0 + (i - 1)) 0]) σ
    tab σ' = ordTableStep mulN 0 (tab σ) i ∧ ∀ c, 15 ≤ c → σ' c = σ c := by
  dsimp only
  rw [Nat.zero_add, Nat.zero_add, Nat.zero_add, sems_append]
  unfold ordSqrProg
  rw [sems_cons, List.replicate_one, sems_cons, sems_nil, sems_cons, sems_nil, sem_copy, sem_ordMul,
    sem_ordMul]
  constructor
  · unfold ordTableStep
    dsimp only
    rw [tab_set _ (by omega), tab_set _ (by omega), ← tab_copy _ (by omega) (by omega)]
    generalize put σ (i - 1) ((List.range (15 - (i - 1))).map fun q => σ (i / 2 - 1 + q)) = τ
    rw [tab_get τ (by omega), ← tab_set _ (by omega)]
    generalize put τ (i - 1) [mulN (τ (i - 1)) (τ (i - 1))] = υ
    rw [tab_get υ (by omega), tab_get υ (by omega)]
  · intro c hc
    rw [put_one_ne _ _ (by omega), put_one_ne _ _ (by omega), put_ne _ _ (by simp; omega)]

theorem sems_ordTables (l : List ℕ) (hl : ∀ i ∈ l, 2 ≤ i ∧ i ≤ 14) (σ : ℕ → ℕ) :
    let σ' := sems (l.flatMap fun i => ordSqrProg (0 + (i - 1)) (0 + (i / 2 - 1)) (15 - (i - 1)) 1 ++
      [.ordMul (0 + i) (0 + (i - 1)) 0]) σ
    tab σ' = l.foldl (ordTableStep mulN 0) (tab σ) ∧ ∀ c, 15 ≤ c → σ' c = σ c := by
  dsimp only
  induction l generalizing σ with
  | nil => exact ⟨rfl, fun _ _ => rfl⟩
  | cons i l ih =>
    obtain ⟨h1, h2⟩ := sems_ordTable σ (hl i (by simp)).1 (hl i (by simp)).2
    rw [List.flatMap_cons, sems_append, List.foldl_cons, ← h1]
    have := ih (fun i hi => hl i (by simp [hi])) (sems (ordSqrProg (0 + (i - 1)) (0 + (i / 2 - 1))
      (15 - (i - 1)) 1 ++ [.ordMul (0 + i) (0 + (i - 1)) 0]) σ)
    exact ⟨this.1, fun c hc => (this.2 c hc).trans (h2 c hc)⟩

/-- The windows of Inverse on cells. -/
theorem sems_ordWindows (l : List ℕ) (hl : ∀ e ∈ l, e ≤ 15) (σ : ℕ → ℕ) :
    let σ' := sems (l.flatMap fun e => ordSqrProg 15 15 1 4 ++ if e = 0 then [] else [.ordMul 15 15 (0 + (e - 1))]) σ
    σ' 15 = l.foldl (fun x e =>
      let x := ordSqN mulN 4 x
      if e = 0 then x else mulN x ((tab σ).getD (e - 1) 0)) (σ 15) ∧ tab σ' = tab σ := by
  dsimp only
  induction l generalizing σ with
  | nil => exact ⟨rfl, rfl⟩
  | cons e l ih =>
    rw [List.flatMap_cons, sems_append, sems_append, List.foldl_cons, sems_ordSqr]
    have he := hl e (by simp)
    obtain ⟨τ, hτ, h1, h2⟩ : ∃ τ, τ = sems (if e = 0 then [] else [.ordMul 15 15 (0 + (e - 1))])
        (put σ 15 [ordSqN mulN 4 (σ 15)]) ∧ τ 15 = (if e = 0 then ordSqN mulN 4 (σ 15) else
          mulN (ordSqN mulN 4 (σ 15)) ((tab σ).getD (e - 1) 0)) ∧ tab τ = tab σ := by
      refine ⟨_, rfl, ?_⟩
      by_cases h : e = 0
      · rw [if_pos h, if_pos h, sems_nil, put_self]
        exact ⟨rfl, tab_congr fun i hi => put_one_ne _ _ (by omega)⟩
      · rw [if_neg h, if_neg h, sems_cons, sems_nil, sem_ordMul, put_self, put_self, put_one_ne _ _ (by omega),
          tab_get _ (by omega), Nat.zero_add]
        exact ⟨rfl, tab_congr fun i hi => by rw [put_one_ne _ _ (by omega), put_one_ne _ _ (by omega)]⟩
    rw [← hτ, ← h1, ← h2]
    exact ih (fun e he => hl e (by simp [he])) τ

theorem sems_zero (n : ℕ) (σ : ℕ → ℕ) (c : ℕ) :
    sems ((List.range n).map fun i => .store (0 + i) 0) σ c = if c < n then 0 else σ c := by
  induction n with
  | zero => rfl
  | succ n ih =>
    rw [List.range_succ, List.map_append, sems_append, List.map_cons, List.map_nil, sems_cons, sems_nil,
      sem_store]
    by_cases h : c = 0 + n
    · rw [h, put_self, if_pos (by omega)]
    · rw [put_one_ne _ _ h, ih]
      by_cases h' : c < n
      · rw [if_pos h', if_pos (by omega)]
      · rw [if_neg h', if_neg (by omega)]

/-- The calls between the table and the windows. -/
def restCells : List (Call ℕ) :=
  [.copy 15 14 1] ++
    ordSqrProg 15 15 1 4 ++ [.ordMul 16 15 13, .ordMul 15 15 14, .copy 17 15 1] ++
    ordSqrProg 15 15 1 8 ++ [.ordMul 16 15 16, .ordMul 15 15 17, .copy 17 15 1] ++
    ordSqrProg 15 15 1 16 ++ [.ordMul 16 15 16, .ordMul 17 15 17] ++
    ordSqrProg 15 16 1 32 ++ [.ordMul 15 15 17] ++
    ordSqrProg 15 15 1 32 ++ [.ordMul 15 15 17] ++
    ordSqrProg 15 15 1 32 ++ [.ordMul 15 15 17]

/-- The powers before the windows on cells. -/
theorem sems_ordRest (σ : ℕ → ℕ) :
    let σ' := sems restCells σ
    σ' 15 = ordRest mulN 0 (tab σ) ∧ tab σ' = tab σ := by
  dsimp only
  unfold restCells
  simp only [sems_append]
  simp only [sems_cons, sems_nil]
  simp only [sems_ordSqr, sem_copy1, sem_ordMul]
  constructor
  · simp only [put_one_ne, put_self, ne_eq, Nat.reduceEqDiff, not_false_eq_true]
    unfold ordRest
    rw [tab_get _ (by omega), tab_get _ (by omega)]
  · refine tab_congr fun i hi => ?_
    have h1 : i ≠ 15 := by omega
    have h2 : i ≠ 16 := by omega
    have h3 : i ≠ 17 := by omega
    simp only [put_one_ne _ _ h1, put_one_ne _ _ h2, put_one_ne _ _ h3]

theorem inverse_nat {k : ℕ} (hk : k < N) :
    inverse k = mulN (ordWindows mulN 0 (ordTable mulN 0 (mulN k ordRR))
      (ordRest mulN 0 (ordTable mulN 0 (mulN k ordRR)))) 1 := by
  unfold inverse
  dsimp only
  rw [if_neg (by omega), if_neg (by omega), Int.toNat_natCast, ordChain_eq]

theorem inverse_lt (k : ℕ) : inverse k < 2 ^ 256 := by
  rw [inverse_val]
  exact (ZMod.val_lt _).trans (by decide +kernel)

theorem ordInvProg_eq (k : ℕ) : ordInvProg k 0 15 16 17 18 19 20 =
    ((List.range 15).map fun i => .store (0 + i) 0) ++
    [.store 15 k, .store 18 ordRR, .ordMul 0 15 18] ++
    ([2, 4, 6, 8, 10, 12, 14].flatMap fun i =>
      ordSqrProg (0 + (i - 1)) (0 + (i / 2 - 1)) (15 - (i - 1)) 1 ++ [.ordMul (0 + i) (0 + (i - 1)) 0]) ++
    restCells ++
    (expLo.flatMap fun e => ordSqrProg 15 15 1 4 ++ if e = 0 then [] else [.ordMul 15 15 (0 + (e - 1))]) ++
    [.store 19 1, .ordMul 15 15 19, .toBig 20 15] := by
  unfold ordInvProg restCells
  simp only [List.append_assoc, off_nat, Nat.reduceAdd]

/-- Inverse on cells: the table at 0, x at 15, s at 16, t at 17, RR at 18, one at 19, xOut at 20. -/
theorem sems_ordInv (k : ℕ) (hk : k < N) (σ : ℕ → ℕ) :
    sems (ordInvProg k 0 15 16 17 18 19 20) σ 20 = revBytes (inverse k) := by
  rw [ordInvProg_eq, inverse_nat hk, sems_append, sems_append, sems_append, sems_append, sems_append]
  have h0 : tab (sems [.store 15 k, .store 18 ordRR, .ordMul 0 15 18]
      (sems ((List.range 15).map fun i => .store (0 + i) 0) σ)) = mulN k ordRR :: List.replicate 14 0 := by
    have hz := sems_zero 15 σ
    generalize sems ((List.range 15).map fun i => .store (0 + i) 0) σ = τ at *
    rw [sems_cons, sems_cons, sems_cons, sems_nil, sem_store, sem_store, sem_ordMul, tab_set _ (by omega),
      put_self, put_one_ne _ _ (by omega), put_self]
    have e : tab (put (put τ 15 [k]) 18 [ordRR]) = List.replicate 15 0 := by
      rw [List.eq_replicate_iff]
      refine ⟨tab_length _, fun b hb => ?_⟩
      obtain ⟨i, hi, rfl⟩ := List.mem_map.1 hb
      rw [List.mem_range] at hi
      rw [put_one_ne _ _ (by omega), put_one_ne _ _ (by omega), hz i, if_pos hi]
    rw [e]
    rfl
  generalize sems [.store 15 k, .store 18 ordRR, .ordMul 0 15 18]
      (sems ((List.range 15).map fun i => .store (0 + i) 0) σ) = τ0 at *
  obtain ⟨h1, -⟩ := sems_ordTables [2, 4, 6, 8, 10, 12, 14] (by decide) τ0
  rw [h0] at h1
  change tab _ = ordTable mulN 0 (mulN k ordRR) at h1
  generalize sems ([2, 4, 6, 8, 10, 12, 14].flatMap fun i =>
      ordSqrProg (0 + (i - 1)) (0 + (i / 2 - 1)) (15 - (i - 1)) 1 ++ [.ordMul (0 + i) (0 + (i - 1)) 0])
      τ0 = τ1 at *
  obtain ⟨h2, h3⟩ := sems_ordRest τ1
  generalize sems _ τ1 = τ2 at *
  obtain ⟨h4, -⟩ := sems_ordWindows expLo (by decide) τ2
  generalize sems _ τ2 = τ3 at *
  rw [h2, h3, h1] at h4
  rw [sems_cons, sems_cons, sems_cons, sems_nil, sem_store, sem_ordMul, sem_toBig, put_self, put_self,
    put_self, put_one_ne _ _ (by omega), h4]
  rfl

end Verif.X64.P256
