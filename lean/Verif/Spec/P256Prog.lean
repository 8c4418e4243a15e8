/-
Vocabulary for the properties of the amd64 Go code: arrays in memory.
-/
import Verif.Model.X64

namespace Verif.Spec.P256

open Verif.X64

/-- The addresses of all words of some arrays, each given by its address and a number of groups of four
words. -/
def wordsOf (arrays : List (X64.W × Nat)) : List X64.W :=
  arrays.flatMap fun a => (List.range (4 * a.2)).map fun i => a.1 + BitVec.ofNat 64 (8 * i)

/-- The arrays do not overlap. -/
def Apart (arrays : List (X64.W × Nat)) : Prop := (wordsOf arrays).Nodup

/-- `m'` differs from `m` in words of the arrays at most. -/
def Elsewhere (arrays : List (X64.W × Nat)) (m m' : X64.W → X64.W) : Prop :=
  ∀ b, b ∉ wordsOf arrays → m' b = m b

end Verif.Spec.P256
