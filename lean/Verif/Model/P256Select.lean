/-
The table lookups of sm2/p256_asm_amd64.s: routines with a loop.
-/
import Verif.Model.P256Code

namespace Verif.X64.P256

/-- sm2/p256_asm_amd64.s:1040-1100 (p256_sm2Select).  `none` when `fuel` rounds of the loop were not
enough. -/
def select (fuel : Nat) (s : St) : Option St :=
  (loopNZ select_2 fuel (exec select_1 s)).map (exec select_3)

/-- sm2/p256_asm_amd64.s:1103-1173 (p256_sm2SelectBase).  `none` when `fuel` rounds of the loop were
not enough. -/
def selectBase (fuel : Nat) (s : St) : Option St :=
  (loopNZ selectBase_2 fuel (exec selectBase_1 s)).map (exec selectBase_3)

end Verif.X64.P256
