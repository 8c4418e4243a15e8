/-
What an observer of the memory bus and of the branches sees of a sequence of calls of the amd64 routines
(see Spec/Leak.lean): for each call, the addresses of the accesses up to each jump.
-/
import Verif.Model.P256Prog
import Verif.Spec.Leak

namespace Verif.Spec.Leak

open Verif.X64 Verif.X64.P256

/-- The addresses of `n` words. -/
def wordsFrom (a : X64.W) (n : Nat) : List X64.W := (List.range n).map fun i => a + BitVec.ofNat 64 (8 * i)

/-- What is seen of a call, from a state with registers, flags and frame `s` and memory `m`. -/
def callTrace (c : Call X64.W) (s : St) (m : X64.W → X64.W) : Option (List (List X64.W)) :=
  let s := { s with mem := m, arg := c.arg }
  let loop := fun (o : Option (List X64.W × List (List X64.W) × List X64.W)) =>
    o.map fun t => t.1 :: (t.2.1 ++ [t.2.2])
  match c with
  | .sqr _ _ => some [trace P256.sqr s]
  | .mul _ _ _ => some [trace P256.mul s]
  | .ordMul _ _ _ => some [trace P256.ordMul s]
  | .fromMont _ _ => some [trace P256.fromMont s]
  | .negCond _ _ => some [trace P256.negCond s]
  | .movCond _ _ _ _ => some [trace P256.movCond s]
  | .select _ _ _ => loop (routineTrace select_1 select_2 select_3 16 s)
  | .selectBase _ _ _ => loop (routineTrace selectBase_1 selectBase_2 selectBase_3 32 s)
  | .add _ _ _ => some [trace pointAddAsm s]
  | .double _ _ => some [trace pointDoubleAsm s]
  | .addAffine _ _ _ _ _ _ => some [trace pointAddAffineAsm s]
  | .toBig _ _ => some [trace bigToLittle s]
  | .copy d a k => some [wordsFrom a (4 * k), wordsFrom d (4 * k)]
  | .store d _ => some [wordsFrom d 4]

/-- What is seen of a sequence of calls (see `runs`); `none` if a call does not return. -/
def callsTrace (junk : Nat → St) : List (Call X64.W) → (X64.W → X64.W) → Option (List (List X64.W))
  | [], _ => some []
  | c :: cs, m =>
    (callTrace c (junk 0) m).bind fun t =>
      (c.run (junk 0) m).bind fun m' =>
        (callsTrace (fun i => junk (i + 1)) cs m').map (t ++ ·)

end Verif.Spec.Leak
