/-
C87: the amd64 routines reveal nothing but the addresses of their arguments through memory accesses and
branches.

Specification: `Verif.Spec.Leak.trace` (Spec/Leak.lean), the list of all addresses accessed.  The theorems
compare two runs from arbitrary machine states that have the pointer arguments in common, and nothing
else: contents of memory, registers, flags and the other arguments (condition, index, sign, selectors) are
free.
-/
import Verif.Lemmas.Leak
import Verif.Props.P256Field

namespace Verif.Props

open Verif.X64 Verif.X64.P256 Verif.Spec.Leak

/-- The two states have the pointers at these argument offsets in common. -/
def SamePointers (offs : List ℕ) (s t : St) : Prop := ∀ i ∈ offs, s.arg i = t.arg i

/-- C87: byte order conversion. -/
theorem C87_bytes (s t : St) (h : SamePointers [0, 24] s t) : trace bigToLittle s = trace bigToLittle t := by
  obtain ⟨B, hB⟩ := Option.isSome_iff_exists.1
    (show (Leak.check [0, 24] bigToLittle []).isSome = true by decide +kernel)
  exact (Leak.check_sound ⟨by simp, h⟩ hB).1

/-- C87: conditional move; the condition (offset 72) is secret. -/
theorem C87_movCond (s t : St) (h : SamePointers [0, 24, 48] s t) : trace movCond s = trace movCond t := by
  obtain ⟨B, hB⟩ := Option.isSome_iff_exists.1
    (show (Leak.check [0, 24, 48] movCond []).isSome = true by decide +kernel)
  exact (Leak.check_sound ⟨by simp, h⟩ hB).1

/-- C87: conditional negation; the condition (offset 24) is secret. -/
theorem C87_negCond (s t : St) (h : SamePointers [0] s t) : trace negCond s = trace negCond t := by
  obtain ⟨B, hB⟩ := Option.isSome_iff_exists.1
    (show (Leak.check [0] negCond []).isSome = true by decide +kernel)
  exact (Leak.check_sound ⟨by simp, h⟩ hB).1

/-- C87: field squaring. -/
theorem C87_sqr (s t : St) (h : SamePointers [0, 24] s t) : trace sqr s = trace sqr t := by
  obtain ⟨B, hB⟩ := Option.isSome_iff_exists.1
    (show (Leak.check [0, 24] sqr []).isSome = true by decide +kernel)
  exact (Leak.check_sound ⟨by simp, h⟩ hB).1

/-- C87: field multiplication. -/
theorem C87_mul (s t : St) (h : SamePointers [0, 24, 48] s t) : trace mul s = trace mul t := by
  obtain ⟨B, hB⟩ := Option.isSome_iff_exists.1
    (show (Leak.check [0, 24, 48] mul []).isSome = true by decide +kernel)
  exact (Leak.check_sound ⟨by simp, h⟩ hB).1

/-- C87: conversion from the Montgomery domain. -/
theorem C87_fromMont (s t : St) (h : SamePointers [0, 24] s t) : trace fromMont s = trace fromMont t := by
  obtain ⟨B, hB⟩ := Option.isSome_iff_exists.1
    (show (Leak.check [0, 24] fromMont []).isSome = true by decide +kernel)
  exact (Leak.check_sound ⟨by simp, h⟩ hB).1

/-- C87: multiplication modulo the order. -/
theorem C87_ordMul (s t : St) (h : SamePointers [0, 24, 48] s t) : trace ordMul s = trace ordMul t := by
  obtain ⟨B, hB⟩ := Option.isSome_iff_exists.1
    (show (Leak.check [0, 24, 48] ordMul []).isSome = true by decide +kernel)
  exact (Leak.check_sound ⟨by simp, h⟩ hB).1

/-- C87: mixed addition; sign and selectors (offsets 72, 80, 88) are secret. -/
theorem C87_pointAddAffine (s t : St) (h : SamePointers [0, 24, 48] s t) :
    trace pointAddAffineAsm s = trace pointAddAffineAsm t := by
  have h1 : Leak.Ok [0, 24, 48] [] (pointAddAffineAsm_1 ++ pointAddAffineAsm_2 ++ pointAddAffineAsm_3 ++
      pointAddAffineAsm_4 ++ pointAddAffineAsm_5 ++ pointAddAffineAsm_6 ++ pointAddAffineAsm_7) [496] :=
    Leak.Ok.of_check (by decide +kernel)
  have h2 : Leak.Ok [0, 24, 48] [496] (pointAddAffineAsm_8.flatMap V.code) [496] :=
    Leak.Ok.flatMap_check _ (by decide +kernel)
  have h3 : Leak.Ok [0, 24, 48] [496] (pointAddAffineAsm_9 ++ pointAddAffineAsm_10 ++
      pointAddAffineAsm_11 ++ pointAddAffineAsm_12) [] := Leak.Ok.of_check (by decide +kernel)
  have := ((h1.append h2).append h3 s t ⟨by simp, h⟩).1
  simp only [← List.append_assoc] at this
  exact this

/-- C87: point addition. -/
theorem C87_pointAdd (s t : St) (h : SamePointers [0, 24, 48] s t) :
    trace pointAddAsm s = trace pointAddAsm t := by
  have h1 : Leak.Ok [0, 24, 48] [] (pointAddAsm_1 ++ pointAddAsm_2) [656] :=
    Leak.Ok.of_check (by decide +kernel)
  have h2 : Leak.Ok [0, 24, 48] [656] (pointAddAsm_3.flatMap V.code) [656] :=
    Leak.Ok.flatMap_check _ (by decide +kernel)
  have h3 : Leak.Ok [0, 24, 48] [656] (pointAddAsm_4 ++ pointAddAsm_5) [] :=
    Leak.Ok.of_check (by decide +kernel)
  have := ((h1.append h2).append h3 s t ⟨by simp, h⟩).1
  simp only [← List.append_assoc] at this
  exact this

/-- C87: point doubling. -/
theorem C87_pointDouble (s t : St) (h : SamePointers [0, 24] s t) : trace pointDoubleAsm s = trace pointDoubleAsm t := by
  obtain ⟨B, hB⟩ := Option.isSome_iff_exists.1
    (show (Leak.check [0, 24] pointDoubleAsm []).isSome = true by decide +kernel)
  exact (Leak.check_sound ⟨by simp, h⟩ hB).1

/-- C87: table lookup; the index (offset 48) and the table contents are secret.  The loop has 16 rounds. -/
theorem C87_select (s t : St) (fuel : ℕ) (h : SamePointers [0, 24] s t) :
    routineTrace select_1 select_2 select_3 fuel s = routineTrace select_1 select_2 select_3 fuel t := by
  obtain ⟨B, hB⟩ := Option.isSome_iff_exists.1
    (show (Leak.check [0, 24] select_1 []).isSome = true by decide +kernel)
  obtain ⟨C, hC⟩ := Option.isSome_iff_exists.1
    (show (Leak.check [0, 24] select_2 [0, 3, 5]).isSome = true by decide +kernel)
  have h1 : ((Leak.check [0, 24] select_1 []).elim false fun B => [0, 3, 5].all B.contains) = true := by
    decide +kernel
  have h2 : ((Leak.check [0, 24] select_2 [0, 3, 5]).elim false fun C =>
      [0, 3, 5, 15].all C.contains && (Leak.check [0, 24] select_3 C).isSome) = true := by decide +kernel
  rw [hB] at h1
  rw [hC] at h2
  simp only [Option.elim, List.all_eq_true, List.contains_iff_mem, Bool.and_eq_true] at h1 h2
  exact Leak.routine_sound hB h1 hC (fun n hn => h2.1 n (by simp at hn ⊢; tauto)) (h2.1 15 (by simp)) h2.2
    fuel h

/-- C87: table lookup; the index (offset 48) and the table contents are secret.  The loop has 32 rounds. -/
theorem C87_selectBase (s t : St) (fuel : ℕ) (h : SamePointers [0, 24] s t) :
    routineTrace selectBase_1 selectBase_2 selectBase_3 fuel s = routineTrace selectBase_1 selectBase_2 selectBase_3 fuel t := by
  obtain ⟨B, hB⟩ := Option.isSome_iff_exists.1
    (show (Leak.check [0, 24] selectBase_1 []).isSome = true by decide +kernel)
  obtain ⟨C, hC⟩ := Option.isSome_iff_exists.1
    (show (Leak.check [0, 24] selectBase_2 [0, 3, 5]).isSome = true by decide +kernel)
  have h1 : ((Leak.check [0, 24] selectBase_1 []).elim false fun B => [0, 3, 5].all B.contains) = true := by
    decide +kernel
  have h2 : ((Leak.check [0, 24] selectBase_2 [0, 3, 5]).elim false fun C =>
      [0, 3, 5, 15].all C.contains && (Leak.check [0, 24] selectBase_3 C).isSome) = true := by decide +kernel
  rw [hB] at h1
  rw [hC] at h2
  simp only [Option.elim, List.all_eq_true, List.contains_iff_mem, Bool.and_eq_true] at h1 h2
  exact Leak.routine_sound hB h1 hC (fun n hn => h2.1 n (by simp at hn ⊢; tauto)) (h2.1 15 (by simp)) h2.2
    fuel h

/-- States with different memory and different registers have the pointers in common; the trace of a
multiplication is not empty. -/
example : SamePointers [0, 24, 48] (memState 64 128 192 (fun _ => 1)) (memState 64 128 192 (fun a => a)) ∧
    (trace mul (memState 64 128 192 (fun _ => 1))).length = 24 ∧
    (routineTrace select_1 select_2 select_3 16 (memState 64 128 5 fun _ => 1)).isSome := by
  refine ⟨fun i _ => rfl, ?_⟩
  decide +kernel

/-- The observation does see an access whose address depends on memory. -/
example : ∃ s t : St, SamePointers [0, 24, 48] s t ∧
    trace [.mov (.a 0) (.r .di), .mov (.m .di 0) (.r .ax), .mov (.m .ax 0) (.r .bx)] s ≠
    trace [.mov (.a 0) (.r .di), .mov (.m .di 0) (.r .ax), .mov (.m .ax 0) (.r .bx)] t :=
  ⟨memState 64 128 192 (fun _ => 1), memState 64 128 192 (fun _ => 2), fun _ _ => rfl, by decide +kernel⟩

end Verif.Props
