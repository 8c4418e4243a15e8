/-
The methods of the amd64 curve on memory: alone (C88), and in concurrent goroutines (C89, C90).

Specification: Spec/P256Prog.lean (arrays), Spec/P256Sched.lean (histories).  The values the methods
return when they run alone are characterized in Props/P256Curve.lean (C54, C57, C83, C84).
-/
import Verif.Lemmas.P256Fair
import Verif.Props.P256Curve

namespace Verif.Props

open Verif.X64 Verif.X64.P256 Verif.Spec Verif.Spec.P256

/-- The SM2 field prime. -/
local notation "p" => Curves.sm2.P
/-- The order of the SM2 group. -/
local notation "n" => Curves.sm2.N

/-! ### C88: one method on memory -/

/-- C88: ScalarMult, for any arrays that do not overlap, any registers at each call and any contents of
memory but for rr: all calls return, the results are those of the method, and nothing else is written. -/
theorem C88_scalarMult {f : MultArrays X64.W} {g : AffineArrays X64.W} {rrv : X64.W}
    (hA : Apart (f.list ++ g.list ++ [(rrv, 1)])) (junk : ℕ → St) {m : X64.W → X64.W} (hrr : rd4 m rrv = rr)
    (x y : ℕ) (scalar : Bytes) :
    ∃ m', runs junk (scalarMultCalls f g rrv x y scalar) m = some m' ∧
      (natOfBytes (bytes32 m' g.xOut), natOfBytes (bytes32 m' g.yOut)) = scalarMult x y scalar ∧
      Elsewhere (f.list ++ g.list) m m' := mem_scalarMult hA junk hrr x y scalar

/-- C88: initTable, and ScalarBaseMult at any later time when the table has not been written. -/
theorem C88_scalarBaseMult {i : InitArrays X64.W} {f : BaseArrays X64.W} {g : AffineArrays X64.W}
    {table : X64.W} (hI : Apart (i.list ++ [(table, 4736)])) (hA : Apart (f.list ++ g.list ++ [(table, 4736)]))
    (junk : ℕ → St) (m : X64.W → X64.W) :
    ∃ m1, runs junk (initCalls i table) m = some m1 ∧ Elsewhere (i.list ++ [(table, 4736)]) m m1 ∧
      ∀ m2, (∀ b ∈ wordsOf [(table, 4736)], m2 b = m1 b) → ∀ (junk : ℕ → St) (scalar : Bytes),
        ∃ m3, runs junk (scalarBaseMultCalls f g table scalar) m2 = some m3 ∧
          (natOfBytes (bytes32 m3 g.xOut), natOfBytes (bytes32 m3 g.yOut)) = scalarBaseMult scalar ∧
          Elsewhere (f.list ++ g.list) m2 m3 := by
  obtain ⟨m1, e1, r1, f1⟩ := mem_initCalls hI junk m
  exact ⟨m1, e1, f1, fun m2 h2 junk scalar => mem_scalarBaseMult hA junk (r1.congr h2) scalar⟩

/-- C88: initTable, and CombinedMult at any later time when the table has not been written. -/
theorem C88_combinedMult {i : InitArrays X64.W} {f : BaseArrays X64.W} {h : MultArrays X64.W}
    {g : AffineArrays X64.W} {table rrv : X64.W} (hI : Apart (i.list ++ [(table, 4736)]))
    (hA : Apart (f.list ++ h.list ++ g.list ++ [(table, 4736), (rrv, 1)])) (junk : ℕ → St)
    (m : X64.W → X64.W) :
    ∃ m1, runs junk (initCalls i table) m = some m1 ∧ Elsewhere (i.list ++ [(table, 4736)]) m m1 ∧
      ∀ m2, (∀ b ∈ wordsOf [(table, 4736)], m2 b = m1 b) → rd4 m2 rrv = rr →
        ∀ (junk : ℕ → St) (x y : ℕ) (baseScalar scalar : Bytes),
          ∃ m3, runs junk (combinedMultCalls f h g table rrv x y baseScalar scalar) m2 = some m3 ∧
            (natOfBytes (bytes32 m3 g.xOut), natOfBytes (bytes32 m3 g.yOut)) =
              combinedMult x y baseScalar scalar ∧
            Elsewhere (f.list ++ h.list ++ g.list) m2 m3 := by
  obtain ⟨m1, e1, r1, f1⟩ := mem_initCalls hI junk m
  exact ⟨m1, e1, f1, fun m2 h2 hrr junk x y b s => mem_combinedMult hA junk (r1.congr h2) hrr x y b s⟩

/-- C88: Inverse. -/
theorem C88_inverse {f : InverseArrays X64.W} (hA : Apart f.list) (junk : ℕ → St) (m : X64.W → X64.W) (k : ℤ) :
    ∃ m', runs junk (inverseCalls f k) m = some m' ∧ natOfBytes (bytes32 m' f.xOut) = inverse k ∧
      Elsewhere f.list m m' := mem_inverse hA junk m k

/-! ### Arrays that do not overlap -/

/-- Arrays of the given sizes one after the other, from an address on. -/
def layout (a : ℕ) : List ℕ → List (X64.W × ℕ)
  | [] => []
  | k :: ks => (BitVec.ofNat 64 a, k) :: layout (a + 32 * k) ks

theorem words_layout (a : ℕ) (ks : List ℕ) : wordsOf (layout a ks) =
    (List.range (4 * ks.sum)).map fun i => BitVec.ofNat 64 (a + 8 * i) := by
  induction ks generalizing a with
  | nil => rfl
  | cons k ks ih =>
    unfold layout
    rw [show ∀ (u : X64.W × ℕ) l, wordsOf (u :: l) = wordsOf [u] ++ wordsOf l from
      fun u l => wordsOf_append [u] l, ih, List.sum_cons, Nat.mul_add, List.range_add, List.map_append,
      List.map_map]
    congr 1
    · simp [wordsOf, BitVec.ofNat_add]
    · refine List.map_congr_left fun i _ => ?_
      simp only [Function.comp]
      congr 1
      omega

theorem apart_layout {a : ℕ} {ks : List ℕ} (h : a + 32 * ks.sum ≤ 2 ^ 64) : Apart (layout a ks) := by
  unfold Apart
  rw [words_layout]
  refine (List.nodup_range).map_on fun i hi j hj hij => ?_
  rw [List.mem_range] at hi hj
  have := congrArg BitVec.toNat hij
  rw [BitVec.toNat_ofNat, BitVec.toNat_ofNat, Nat.mod_eq_of_lt (by omega), Nat.mod_eq_of_lt (by omega)] at this
  omega

/-- Arrays that meet the hypotheses of C88. -/
example : Apart ((⟨0x1000, 0x1060, 0x1660, 0x16c0, 0x1720, 0x1780⟩ : MultArrays X64.W).list ++
      (⟨0x17e0, 0x1800, 0x1820, 0x18e0, 0x1900⟩ : AffineArrays X64.W).list ++ [(0x1920, 1)]) ∧
    rd4 (wr4 (fun a => a) 0x1920 rr) 0x1920 = rr :=
  ⟨apart_layout (a := 0x1000) (ks := [3, 48, 3, 3, 3, 3, 1, 1, 6, 1, 1, 1]) (by decide), by decide +kernel⟩

/-! ### C89: goroutines -/

variable {ι : Type} [DecidableEq ι] {G : Globals}

/-- C89: in every history, each call that has returned has returned what it returns alone. -/
theorem C89_concurrent {y : Sys ι} (h : Reachable G y) {j : Job} {res : List ℕ} (hj : (j, res) ∈ y.log) :
    res = answer j := (Inv.of_reachable h).log _ hj

/-- C89 for ScalarMult, in terms of the group.  Missing: runs that depend on an inexact operation, and the
scalars for which C57 is false. -/
theorem C89_scalarMult_partial {y : Sys ι} (h : Reachable G y) {f : MultArrays X64.W} {g : AffineArrays X64.W}
    {x y' : ℕ} {scalar : Bytes} {res : List ℕ} (hj : (.scalarMult f g x y' scalar, res) ∈ y.log)
    (P : SM2.Point) (hP : xy P = (x % p, y' % p)) (he : ExactMult x y' scalar)
    (hk : natOfBytes scalar % n ≠ n - 6) :
    res = [(xy (natOfBytes scalar • P)).1, (xy (natOfBytes scalar • P)).2] := by
  rw [C89_concurrent h hj]
  change [(scalarMult x y' scalar).1, (scalarMult x y' scalar).2] = _
  rw [C57_scalarMult_partial P x y' hP scalar he, if_neg hk]

/-- C89 for ScalarBaseMult, in terms of the group: also for the goroutines that wait for the initialization
of the table by another one.  Missing: runs that depend on an inexact operation. -/
theorem C89_scalarBaseMult_partial {y : Sys ι} (h : Reachable G y) {f : BaseArrays X64.W}
    {g : AffineArrays X64.W} {i : InitArrays X64.W} {scalar : Bytes} {res : List ℕ}
    (hj : (.scalarBaseMult f g i scalar, res) ∈ y.log) (B : SM2.Point)
    (hB : xy B = (Curves.sm2.Gx, Curves.sm2.Gy)) (he : ExactBase scalar) :
    res = [(xy (natOfBytes scalar • B)).1, (xy (natOfBytes scalar • B)).2] := by
  rw [C89_concurrent h hj]
  change [(scalarBaseMult scalar).1, (scalarBaseMult scalar).2] = _
  rw [C83_scalarBaseMult_partial B hB scalar he]

/-- C89 for Inverse, in terms of numbers. -/
theorem C89_inverse {y : Sys ι} (h : Reachable G y) {f : InverseArrays X64.W} {k : ℤ} {res : List ℕ}
    (hj : (.inverse f k, res) ∈ y.log) (hk : ¬ (n : ℤ) ∣ k) :
    ∃ v < n, res = [v] ∧ (v : ℤ) * |k| ≡ 1 [ZMOD n] := by
  obtain ⟨h1, h2⟩ := C54_inverse k hk
  exact ⟨_, h1, C89_concurrent h hj, h2⟩

/-! ### C90: every call returns -/

/-- C90: in every fair history, each call that is made returns, and returns what it returns alone. -/
theorem C90_returns {y : ℕ → Sys ι} {e : ℕ → Event ι} (H : History G y e) (F : Fair y e) {k : ℕ} {i : ι}
    {j : Job} (hc : e k = .call i j) :
    ∃ k' > k, (∃ s, e k' = .step i s) ∧ (y (k' + 1)).log = (j, answer j) :: (y k').log ∧
      (y (k' + 1)).running i = none := by
  have hi : (y (k + 1)).running i = some (j, ⟨.idle, j.acts G⟩) := by
    rw [H.next k, hc]
    exact upd_self _ _ _
  obtain ⟨r, hr⟩ := ((H.inv (k + 1)).phase hi).rank
  obtain ⟨k', hk', h⟩ := H.returns F ⟨hi, hr⟩
  exact ⟨k', hk', h⟩

/-! ### A history of two goroutines -/

/-- A state of the registers. -/
def someRegs : St := ⟨1, 2, 3, 4, 5, 6, 7, 8, 9, 10, 11, 12, 13, 14, 15, true, false, fun _ => ⟨1, 2, 3, 4⟩, fun _ => 7,
  fun _ => 8, fun _ => 9⟩

/-- The addresses of the global variables. -/
def exGlobals : Globals := ⟨0x100000, 0x125000⟩

/-- 5 times the base point. -/
def exBase : Job := .scalarBaseMult ⟨0x1000, 0x1060⟩ ⟨0x10c0, 0x10e0, 0x1100, 0x11c0, 0x11e0⟩
  ⟨0x1200, 0x1260, 0x12c0, 0x1320, 0x1340, 0x1360⟩ [5]

/-- 2 times the base point and 3 times it. -/
def exCombined : Job := .combinedMult ⟨0x2000, 0x2060⟩ ⟨0x20c0, 0x2120, 0x2720, 0x2780, 0x27e0, 0x2840⟩
  ⟨0x28a0, 0x28c0, 0x28e0, 0x29a0, 0x29c0⟩ ⟨0x29e0, 0x2a40, 0x2aa0, 0x2b00, 0x2b20, 0x2b40⟩
  Curves.sm2.Gx Curves.sm2.Gy [2] [3]

/-- Both goroutines make their call, then they take turns. -/
def exEvents : ℕ → Event Bool
  | 0 => .call true exBase
  | 1 => .call false exCombined
  | k + 2 => .step (k % 2 == 0) someRegs

/-- The states. -/
def exStates : ℕ → Sys Bool
  | 0 => ⟨wr4 (fun a => a) 0x125000 rr, .fresh, fun _ => none, []⟩
  | k + 1 => (exStates k).next exGlobals (exEvents k)

theorem apart_pair {L L' : List (X64.W × ℕ)} (h : Apart (L ++ L')) : ∀ b ∈ wordsOf L, b ∉ wordsOf L' := by
  unfold Apart at h
  rw [wordsOf_append, List.nodup_append'] at h
  exact fun b hb hb' => h.2.2 hb hb'

/-- The hypotheses of C90 are met by this history, and those of C89 by a state of it. -/
theorem ex_history : History exGlobals exStates exEvents ∧ Fair exStates exEvents := by
  have hall : Apart (layout 0x1000 [3, 3, 1, 1, 6, 1, 1, 3, 3, 3, 1, 1, 6, 95, 3, 3, 3, 48, 3, 3, 3, 3, 1, 1, 6, 1,
      1, 3, 3, 3, 1, 1, 6, 32416, 4736, 1]) := apart_layout (by decide)
  have h1 : Apart (arrays exBase ++ globals exGlobals) := hall.sub (by decide +kernel)
  have h2 : Apart (arrays exCombined ++ globals exGlobals) := hall.sub (by decide +kernel)
  have h3 : Apart (arrays exBase ++ arrays exCombined) := hall.sub (by decide +kernel)
  refine ⟨⟨⟨by decide +kernel, rfl, fun _ => rfl, rfl⟩, fun k => ?_, fun _ => rfl⟩, fun i k _ => ?_⟩
  · match k with
    | 0 => exact ⟨rfl, h1, fun k j t hk => by cases hk⟩
    | 1 =>
      refine ⟨rfl, h2, fun k j t hk => ?_⟩
      cases k with
      | false => cases hk
      | true =>
        cases hk
        exact fun b hb hb' => apart_pair h3 b hb' hb
    | k + 2 => trivial
  · refine ⟨2 * k + 2 + (if i then 0 else 1), by omega, someRegs, ?_⟩
    cases i <;> simp [exEvents]

theorem reachable_of_history {y : ℕ → Sys ι} {e : ℕ → Event ι} (H : History G y e) (k : ℕ) :
    Reachable G (y k) := by
  induction k with
  | zero => exact .initial H.initial
  | succ k ih =>
    rw [H.next k]
    exact ih.next _ (H.allowed k)

/-- A state in which the first goroutine has returned; its scalar meets the hypothesis of the theorem about
the group. -/
example : ∃ y : Sys Bool, Reachable exGlobals y ∧ (exBase, answer exBase) ∈ y.log ∧ ExactBase [5] := by
  obtain ⟨k, -, -, h, -⟩ := C90_returns ex_history.1 ex_history.2 (k := 0) rfl
  exact ⟨_, reachable_of_history ex_history.1 (k + 1), by rw [h]; simp, by decide +kernel⟩

end Verif.Props
