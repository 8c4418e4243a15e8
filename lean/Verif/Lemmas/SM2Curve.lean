import Verif.Model.SM2Curve
import Verif.Lemmas.CurveGroup
/-!
# Invariant of the concurrent initialisation of the SM2 curve
-/
namespace Verif.SM2Curve
open Verif Verif.Spec

/-- The fully initialised curve: the constants of `Curves.sm2` and the coefficient bytes. -/
def fullCurve : Global :=
  { params := some { name := some Curves.sm2.name, P := some Curves.sm2.P, N := some Curves.sm2.N,
                     B := some Curves.sm2.B, Gx := some Curves.sm2.Gx, Gy := some Curves.sm2.Gy,
                     bitSize := some Curves.sm2.bitSize }
    a := some aBytes }

/-- What `initP256` writes is the curve `Curves.sm2` used in all other models. -/
theorem initWrites_eq : initWrites.foldl (fun g f => f g) {} = fullCurve := by decide +kernel

/-- Memory after the first `k` assignments of `initP256`. -/
def partialInit (k : Nat) : Global := (initWrites.take k).foldl (fun g f => f g) {}

/-- What holds of one goroutine in a reachable state. -/
def Inv (s : State) : Prop :=
  (∀ i pc, s.pcs i = some pc →
    match pc with
    | .load => True
    | .lock => True
    | .recheck => s.owner = some i
    | .init k => s.owner = some i ∧ s.done = false ∧ s.mem = partialInit k ∧ s.starts = 1 ∧
        k ≤ initWrites.length
    | .store => s.owner = some i ∧ s.done = false ∧ s.mem = fullCurve ∧ s.starts = 1
    | .unlock => s.owner = some i ∧ s.done = true
    | .ret => s.done = true
    | .done g => g = fullCurve ∧ s.done = true) ∧
  (s.done = true → s.mem = fullCurve ∧ s.starts = 1) ∧
  (s.done = false → s.starts = 0 ∧ s.mem = {} ∨
    ∃ i, s.owner = some i ∧ (s.pcs i = some .store ∨ ∃ k, s.pcs i = some (.init k))) ∧
  s.starts ≤ 1

theorem partialInit_succ {k : Nat} {f : Global → Global} (h : initWrites[k]? = some f) :
    partialInit (k + 1) = f (partialInit k) := by
  obtain ⟨hk, rfl⟩ := List.getElem?_eq_some_iff.1 h
  unfold partialInit
  rw [List.take_succ_eq_append_getElem hk, List.foldl_append]
  rfl

theorem partialInit_full {k : Nat} (h : initWrites.length ≤ k) : partialInit k = fullCurve := by
  unfold partialInit
  rw [List.take_of_length_le h]
  exact initWrites_eq

theorem Inv.step {s t : State} (hi : Inv s) (h : Step s t) : Inv t := by
  obtain ⟨h1, h2, h3, h4⟩ := hi
  cases h with
  | spawn i h =>
    refine ⟨fun j pc hj => ?_, h2, ?_, h4⟩
    · by_cases e : j = i
      · subst e; simp [State.goto] at hj; subst hj; trivial
      · simp only [State.goto, if_neg e] at hj; exact h1 j pc hj
    · intro hd
      rcases h3 hd with h' | ⟨k, hk, hp⟩
      · exact Or.inl h'
      · refine Or.inr ⟨k, hk, ?_⟩
        have : k ≠ i := by rintro rfl; simp [h] at hp
        simpa [State.goto, this] using hp
  | loadDone i h hd =>
    refine ⟨fun j pc hj => ?_, h2, fun h' => by simp_all [State.goto], h4⟩
    by_cases e : j = i
    · subst e; simp [State.goto] at hj; subst hj; exact hd
    · simp only [State.goto, if_neg e] at hj; exact h1 j pc hj
  | loadNot i h hd =>
    refine ⟨fun j pc hj => ?_, h2, ?_, h4⟩
    · by_cases e : j = i
      · subst e; simp [State.goto] at hj; subst hj; trivial
      · simp only [State.goto, if_neg e] at hj; exact h1 j pc hj
    · intro hd
      rcases h3 hd with h' | ⟨k, hk, hp⟩
      · exact Or.inl h'
      · refine Or.inr ⟨k, hk, ?_⟩
        have : k ≠ i := by rintro rfl; simp [h] at hp
        simpa [State.goto, this] using hp
  | lock i h hl =>
    refine ⟨fun j pc hj => ?_, h2, ?_, h4⟩
    · by_cases e : j = i
      · subst e; simp [State.goto] at hj; subst hj; rfl
      · simp only [State.goto, if_neg e] at hj
        have := h1 j pc hj
        cases pc <;> simp_all [State.goto]
    · intro hd
      rcases h3 hd with h' | ⟨k, hk, hp⟩
      · exact Or.inl h'
      · rw [hl] at hk; cases hk
  | recheckDone i h hd =>
    have ho : s.owner = some i := h1 i _ h
    refine ⟨fun j pc hj => ?_, h2, fun h' => by simp_all [State.goto], h4⟩
    by_cases e : j = i
    · subst e; simp [State.goto] at hj; subst hj; exact ⟨ho, hd⟩
    · simp only [State.goto, if_neg e] at hj; exact h1 j pc hj
  | recheckNot i h hd =>
    have ho : s.owner = some i := h1 i _ h
    have hz : s.starts = 0 ∧ s.mem = {} := by
      rcases h3 hd with h' | ⟨k, hk, hp⟩
      · exact h'
      · rw [ho] at hk
        simp only [Option.some.injEq] at hk
        subst hk
        simp [h] at hp
    refine ⟨fun j pc hj => ?_, fun h' => by simp_all [State.goto], ?_, by simp [State.goto, hz.1]⟩
    · by_cases e : j = i
      · subst e; simp [State.goto] at hj; subst hj
        exact ⟨ho, hd, hz.2, by simp [State.goto, hz.1], Nat.zero_le _⟩
      · simp only [State.goto, if_neg e] at hj
        have := h1 j pc hj
        cases pc <;> simp_all [State.goto]
    · intro _
      exact Or.inr ⟨i, ho, Or.inr ⟨0, by simp [State.goto]⟩⟩
  | write i k f h hk =>
    obtain ⟨ho, hd, hm, hs, hkl⟩ := h1 i _ h
    refine ⟨fun j pc hj => ?_, fun h' => by simp_all [State.goto], ?_, h4⟩
    · by_cases e : j = i
      · subst e; simp [State.goto] at hj; subst hj
        refine ⟨ho, hd, ?_, hs, ?_⟩
        · show f s.mem = _
          rw [partialInit_succ hk, hm]
        · obtain ⟨hk', _⟩ := List.getElem?_eq_some_iff.1 hk
          exact hk'
      · simp only [State.goto, if_neg e] at hj
        have := h1 j pc hj
        cases pc <;> simp_all [State.goto]
    · intro _
      exact Or.inr ⟨i, ho, Or.inr ⟨k + 1, by simp [State.goto]⟩⟩
  | initEnd i k h hk =>
    obtain ⟨ho, hd, hm, hs, hkl⟩ := h1 i _ h
    refine ⟨fun j pc hj => ?_, fun h' => by simp_all [State.goto], ?_, h4⟩
    · by_cases e : j = i
      · subst e; simp [State.goto] at hj; subst hj
        exact ⟨ho, hd, by rw [← partialInit_full hk]; exact hm, hs⟩
      · simp only [State.goto, if_neg e] at hj
        exact h1 j pc hj
    · intro _
      exact Or.inr ⟨i, ho, Or.inl (by simp [State.goto])⟩
  | store i h =>
    obtain ⟨ho, hd, hm, hs⟩ := h1 i _ h
    refine ⟨fun j pc hj => ?_, fun _ => ⟨hm, hs⟩, fun h' => (by cases h'), h4⟩
    by_cases e : j = i
    · subst e; simp [State.goto] at hj; subst hj; exact ⟨ho, rfl⟩
    · simp only [State.goto, if_neg e] at hj
      have := h1 j pc hj
      cases pc <;> simp_all [State.goto]
  | unlock i h =>
    obtain ⟨ho, hd⟩ := h1 i _ h
    refine ⟨fun j pc hj => ?_, h2, fun h' => by simp_all [State.goto], h4⟩
    by_cases e : j = i
    · subst e; simp [State.goto] at hj; subst hj; exact hd
    · simp only [State.goto, if_neg e] at hj
      have := h1 j pc hj
      cases pc <;> simp_all [State.goto]
  | ret i h =>
    have hd : s.done = true := h1 i _ h
    refine ⟨fun j pc hj => ?_, h2, fun h' => by simp_all [State.goto], h4⟩
    by_cases e : j = i
    · subst e; simp [State.goto] at hj; subst hj; exact ⟨(h2 hd).1, hd⟩
    · simp only [State.goto, if_neg e] at hj; exact h1 j pc hj

theorem inv_reachable {s : State} (h : Reachable s) : Inv s := by
  induction h with
  | start => exact ⟨by simp, by simp, fun _ => Or.inl ⟨rfl, rfl⟩, by simp⟩
  | step _ h ih => exact ih.step h

/-- The holder of the mutex is inside the critical section. -/
theorem owner_runs {s : State} (h : Reachable s) {j : Nat} (ho : s.owner = some j) :
    ∃ pc, s.pcs j = some pc ∧ (pc = .recheck ∨ (∃ k, pc = .init k) ∨ pc = .store ∨ pc = .unlock) := by
  induction h generalizing j with
  | start => cases ho
  | @step s t hr h ih =>
    have hinv := inv_reachable hr
    cases h with
    | lock i h hl =>
      simp only [State.goto, Option.some.injEq] at ho
      subst ho
      exact ⟨.recheck, by simp [State.goto], Or.inl rfl⟩
    | unlock i h => simp [State.goto] at ho
    | _ i =>
      obtain ⟨pc, hj, hcs⟩ := ih ho
      by_cases e : j = i
      · subst e
        rcases hcs with rfl | ⟨k, rfl⟩ | rfl | rfl <;> simp_all [State.goto]
      · exact ⟨pc, by simp [State.goto, e, hj], hcs⟩

end Verif.SM2Curve
