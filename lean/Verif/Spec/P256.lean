/-
Vocabulary for the properties of the amd64 assembly: numbers held in four 64-bit words.
-/
import Verif.Model.X64
import Verif.Base.Bytes

namespace Verif.Spec.P256

open Verif.X64

/-- The number whose four 64-bit words, least significant first, are at address `a` of `m`. -/
def num (m : W → W) (a : W) : Nat :=
  (m a).toNat + (m (a + 8)).toNat * 2 ^ 64 + (m (a + 16)).toNat * 2 ^ 128 +
    (m (a + 24)).toNat * 2 ^ 192

/-- `m'` differs from `m` in the four words at address `a` at most. -/
def OnlyAt (a : W) (m m' : W → W) : Prop :=
  ∀ b, b ≠ a → b ≠ a + 8 → b ≠ a + 16 → b ≠ a + 24 → m' b = m b

/-- The number in four registers, least significant first. -/
def regs (w0 w1 w2 w3 : W) : Nat :=
  w0.toNat + w1.toNat * 2 ^ 64 + w2.toNat * 2 ^ 128 + w3.toNat * 2 ^ 192

/-- The eight bytes of a word in memory, lowest address first. -/
def wordBytes (w : W) : List Byte := (List.range 8).map fun i => w.extractLsb' (8 * i) 8

/-- The 32 bytes at address `a` of `m`. -/
def bytes32 (m : W → W) (a : W) : Bytes :=
  wordBytes (m a) ++ wordBytes (m (a + 8)) ++ wordBytes (m (a + 16)) ++ wordBytes (m (a + 24))

end Verif.Spec.P256
