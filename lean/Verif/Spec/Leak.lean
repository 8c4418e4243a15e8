/-
What an observer of the memory bus and of the branches sees of a run of the amd64 routines: the
addresses of all memory accesses in order, and the number of rounds of the loops.  The contents of
registers and memory are not seen.

The frame, the arguments and the read-only data are at addresses that do not depend on anything, so
operands of these kinds are left out.  A conditional move from memory reads memory whatever the
condition (Intel SDM, CMOVcc).
-/
import Verif.Model.P256Select

namespace Verif.Spec.Leak

open Verif.X64

/-- The address of an operand in memory. -/
def address (s : St) : Opd → List X64.W
  | .m a off => [s.reg a + BitVec.ofNat 64 off]
  | _ => []

/-- The operands of an instruction that can be in memory. -/
def operands : Instr → List Opd
  | .mov a d | .movl a d | .add a d | .adc a d | .sub a d | .sbb a d | .xor a d | .and a d
  | .test a d | .shrd _ a d | .cmov _ a d => [a, d]
  | .mul a | .movqx a _ | .movlx a _ | .ldx a _ | .pandnm a _ => [a]
  | .shl _ d | .shr _ d | .dec d | .bswap d | .stx _ d => [d]
  | .movxx _ _ | .pxor _ _ | .pand _ _ | .pandn _ _ | .pcmpeql _ _ | .paddl _ _ | .psubl _ _
  | .pshufd0 _ _ => []

/-- The addresses an instruction accesses. -/
def accesses (s : St) (i : Instr) : List X64.W := (operands i).flatMap (address s)

/-- The addresses a piece of code accesses, in order. -/
def trace : List Instr → St → List X64.W
  | [], _ => []
  | i :: rest, s => accesses s i ++ trace rest (step s i)

/-- The addresses `label: body; JNE label` accesses in each round; `none` when `fuel` rounds were not
enough. -/
def loopTrace (body : List Instr) : Nat → St → Option (List (List X64.W))
  | 0, _ => none
  | fuel + 1, s =>
    if (exec body s).zf then some [trace body s]
    else (loopTrace body fuel (exec body s)).map (trace body s :: ·)

/-- What is seen of a routine that consists of a piece of code, a loop and another piece of code (like
`P256.select`). -/
def routineTrace (before body after : List Instr) (fuel : Nat) (s : St) :
    Option (List X64.W × List (List X64.W) × List X64.W) :=
  (loopNZ body fuel (exec before s)).bind fun s' =>
    (loopTrace body fuel (exec before s)).map fun l => (trace before s, l, trace after s')

end Verif.Spec.Leak
