/-
C91: the methods of the amd64 curve reveal nothing but the addresses of their arrays through memory
accesses and the branches of the assembly.

Specification: `Verif.Spec.Leak.callsTrace` (Spec/P256Leak.lean).  The theorems compare two runs of a method
on the same arrays, with different scalars, points, contents of memory and registers.  Not modelled: the
time taken by math/big (reduction of the scalar, conversion of the coordinates), and memory in which Go
itself keeps the scalar.
-/
import Verif.Lemmas.P256LeakProg

namespace Verif.Props

open Verif.X64 Verif.X64.P256 Verif.Spec.Leak

variable (j k : ℕ → St) (m m' : X64.W → X64.W)

/-- C91: ScalarMult; scalar and point are secret. -/
theorem C91_scalarMult (f : MultArrays X64.W) (g : AffineArrays X64.W) (rrv : X64.W) (x y x' y' : ℕ)
    (s s' : Bytes) :
    callsTrace j (scalarMultCalls f g rrv x y s) m = callsTrace k (scalarMultCalls f g rrv x' y' s') m' := by
  refine callsTrace_skel ?_ j k m m'
  unfold scalarMultCalls multCalls
  simp only [List.map_append]
  rw [skel_mult _ _ _ _ _ _ (getScalar s) (getScalar s'), skel_point _ _ x y x' y']

/-- C91: ScalarBaseMult; the scalar and the contents of the table are secret. -/
theorem C91_scalarBaseMult (f : BaseArrays X64.W) (g : AffineArrays X64.W) (table : X64.W) (s s' : Bytes) :
    callsTrace j (scalarBaseMultCalls f g table s) m = callsTrace k (scalarBaseMultCalls f g table s') m' := by
  refine callsTrace_skel ?_ j k m m'
  unfold scalarBaseMultCalls baseCalls
  simp only [List.map_append]
  rw [skel_base _ _ _ (getScalar s) (getScalar s')]

/-- C91: CombinedMult; both scalars and the point are secret. -/
theorem C91_combinedMult (f : BaseArrays X64.W) (h : MultArrays X64.W) (g : AffineArrays X64.W)
    (table rrv : X64.W) (x y x' y' : ℕ) (b s b' s' : Bytes) :
    callsTrace j (combinedMultCalls f h g table rrv x y b s) m =
      callsTrace k (combinedMultCalls f h g table rrv x' y' b' s') m' := by
  refine callsTrace_skel ?_ j k m m'
  unfold combinedMultCalls baseCalls multCalls
  simp only [List.map_append]
  rw [skel_base _ _ _ (getScalar b) (getScalar b'), skel_mult _ _ _ _ _ _ (getScalar s) (getScalar s'),
    skel_point _ _ x y x' y']

/-- C91: Inverse; the number, for example a private key, is secret. -/
theorem C91_inverse (f : InverseArrays X64.W) (a b : ℤ) :
    callsTrace j (inverseCalls f a) m = callsTrace k (inverseCalls f b) m' :=
  callsTrace_skel (skel_ordInv _ _ _ _ _ _ _ _ _) j k m m'

/-- C91: what is seen of a sequence of calls exists, so the theorems above do not compare failures. -/
theorem C91_exists (cs : List (Call X64.W)) : ∃ t, callsTrace j cs m = some t := by
  induction cs generalizing j m with
  | nil => exact ⟨_, rfl⟩
  | cons c cs ih =>
    obtain ⟨m', e, -⟩ := c.run_dest (j 0) m
    obtain ⟨r, hr⟩ := ih (fun i => j (i + 1)) m'
    obtain ⟨t, ht⟩ := callTrace_exists c (j 0) m e
    exact ⟨t ++ r, by unfold callsTrace; rw [e, ht]; simp only [Option.bind_some]; rw [hr]; rfl⟩

/-- The observation tells a table that is read at the index (entry 1 or entry 2 of 96 bytes at 0x1000) ... -/
example : callsTrace j [.copy 0x2000 0x1000 3] m ≠ callsTrace j [.copy 0x2000 0x1060 3] m := by
  intro h
  have h := congrArg (fun o => o.bind fun t => t.head?.bind List.head?) h
  revert h
  simp [callsTrace, callTrace, Call.run, wordsFrom, List.range_succ]

/-- ... and a sequence of doublings from the same with an addition left out. -/
example (r a b : X64.W) : callsTrace j [.double r a, .add r r b] m ≠ callsTrace j [.double r a] m := by
  intro h
  obtain ⟨m1, e1, -⟩ := Call.run_dest (.double r a) (j 0) m
  obtain ⟨m2, e2, -⟩ := Call.run_dest (.add r r b) (j 1) m1
  obtain ⟨t1, f1⟩ : ∃ t, callTrace (.double r a) (j 0) m = some [t] := ⟨_, rfl⟩
  obtain ⟨t2, f2⟩ : ∃ t, callTrace (.add r r b) (j 1) m1 = some [t] := ⟨_, rfl⟩
  generalize Call.double r a = c at *
  generalize Call.add r r b = d at *
  simp [callsTrace, e1, e2, f1, f2] at h

/-- A concrete case: two keys, and memory filled with two different numbers. -/
example (f : InverseArrays X64.W) (s : St) : ∃ t, callsTrace (fun _ => s) (inverseCalls f 5) (fun _ => 1) = some t ∧
    callsTrace (fun i => { s with dx := i }) (inverseCalls f (-7)) (fun _ => 2) = some t := by
  obtain ⟨t, h⟩ := C91_exists (fun _ => s) (fun _ => 1) (inverseCalls f 5)
  exact ⟨t, h, (C91_inverse _ (fun _ => s) _ (fun _ => 1) f (-7) 5).trans h⟩

end Verif.Props
