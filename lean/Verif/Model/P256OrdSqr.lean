/-
Generated by tools/asm2lean.py from sm2/p256_asm_amd64.s: the routine p256_sm2OrdSqr, declared in
sm2/p256_amd64.go and called nowhere, cut at the comments of the file.  Do not edit.
-/
import Verif.Model.P256Field

namespace Verif.X64.P256

/-- sm2/p256_asm_amd64.s:1464-1466, p256_sm2OrdSqr. -/
def ordSqr_1 : List Instr :=
  [.mov (.a 0) (.r .di), .mov (.a 24) (.r .si), .mov (.a 48) (.r .bx)]

/-- sm2/p256_asm_amd64.s:1471-1488, p256_sm2OrdSqr, "y[1:] * y[0]". -/
def ordSqr_2 : List Instr :=
  [.mov (.m .si 0) (.r .r14), .mov (.m .si 8) (.r .ax), .mul (.r .r14), .mov (.r .ax) (.r .r9),
   .mov (.r .dx) (.r .r10), .mov (.m .si 16) (.r .ax), .mul (.r .r14), .add (.r .ax) (.r .r10),
   .adc (.i 0) (.r .dx), .mov (.r .dx) (.r .r11), .mov (.m .si 24) (.r .ax), .mul (.r .r14),
   .add (.r .ax) (.r .r11), .adc (.i 0) (.r .dx), .mov (.r .dx) (.r .r12)]

/-- sm2/p256_asm_amd64.s:1490-1504, p256_sm2OrdSqr, "y[2:] * y[1]". -/
def ordSqr_3 : List Instr :=
  [.mov (.m .si 8) (.r .r14), .mov (.m .si 16) (.r .ax), .mul (.r .r14), .add (.r .ax) (.r .r11),
   .adc (.i 0) (.r .dx), .mov (.r .dx) (.r .r15), .mov (.m .si 24) (.r .ax), .mul (.r .r14),
   .add (.r .r15) (.r .r12), .adc (.i 0) (.r .dx), .add (.r .ax) (.r .r12), .adc (.i 0) (.r .dx),
   .mov (.r .dx) (.r .r13)]

/-- sm2/p256_asm_amd64.s:1506-1513, p256_sm2OrdSqr, "y[3] * y[2]". -/
def ordSqr_4 : List Instr :=
  [.mov (.m .si 16) (.r .r14), .mov (.m .si 24) (.r .ax), .mul (.r .r14),
   .add (.r .ax) (.r .r13), .adc (.i 0) (.r .dx), .mov (.r .dx) (.r .cx), .xor (.r .r15) (.r .r15)]

/-- sm2/p256_asm_amd64.s:1515-1521, p256_sm2OrdSqr, "*2". -/
def ordSqr_5 : List Instr :=
  [.add (.r .r9) (.r .r9), .adc (.r .r10) (.r .r10), .adc (.r .r11) (.r .r11),
   .adc (.r .r12) (.r .r12), .adc (.r .r13) (.r .r13), .adc (.r .cx) (.r .cx),
   .adc (.i 0) (.r .r15)]

/-- sm2/p256_asm_amd64.s:1523-1547, p256_sm2OrdSqr, "Missing products". -/
def ordSqr_6 : List Instr :=
  [.mov (.m .si 0) (.r .ax), .mul (.r .ax), .mov (.r .ax) (.r .r8), .mov (.r .dx) (.r .r14),
   .mov (.m .si 8) (.r .ax), .mul (.r .ax), .add (.r .r14) (.r .r9), .adc (.r .ax) (.r .r10),
   .adc (.i 0) (.r .dx), .mov (.r .dx) (.r .r14), .mov (.m .si 16) (.r .ax), .mul (.r .ax),
   .add (.r .r14) (.r .r11), .adc (.r .ax) (.r .r12), .adc (.i 0) (.r .dx),
   .mov (.r .dx) (.r .r14), .mov (.m .si 24) (.r .ax), .mul (.r .ax), .add (.r .r14) (.r .r13),
   .adc (.r .ax) (.r .cx), .adc (.r .dx) (.r .r15), .mov (.r .r15) (.r .si)]

/-- sm2/p256_asm_amd64.s:1549-1576, p256_sm2OrdSqr, "First reduction step". -/
def ordSqr_7 : List Instr :=
  [.mov (.r .r8) (.r .ax), .mul (.g (.ordK0) 0), .mov (.r .ax) (.r .r14),
   .mov (.g (.ord) 0) (.r .ax), .mul (.r .r14), .add (.r .ax) (.r .r8), .adc (.i 0) (.r .dx),
   .mov (.r .dx) (.r .r15), .mov (.g (.ord) 8) (.r .ax), .mul (.r .r14), .add (.r .r15) (.r .r9),
   .adc (.i 0) (.r .dx), .add (.r .ax) (.r .r9), .mov (.r .r14) (.r .r15),
   .adc (.r .dx) (.r .r10), .adc (.i 0) (.r .r15), .sub (.r .r14) (.r .r10),
   .sbb (.i 0) (.r .r15), .mov (.g (.ord) 24) (.r .ax), .add (.r .r15) (.r .r11),
   .adc (.i 0) (.r .dx), .add (.r .ax) (.r .r11), .adc (.i 0) (.r .dx), .mov (.r .dx) (.r .r8)]

/-- sm2/p256_asm_amd64.s:1578-1605, p256_sm2OrdSqr, "Second reduction step". -/
def ordSqr_8 : List Instr :=
  [.mov (.r .r9) (.r .ax), .mul (.g (.ordK0) 0), .mov (.r .ax) (.r .r14),
   .mov (.g (.ord) 0) (.r .ax), .mul (.r .r14), .add (.r .ax) (.r .r9), .adc (.i 0) (.r .dx),
   .mov (.r .dx) (.r .r15), .mov (.g (.ord) 8) (.r .ax), .mul (.r .r14),
   .add (.r .r15) (.r .r10), .adc (.i 0) (.r .dx), .add (.r .ax) (.r .r10),
   .mov (.r .r14) (.r .r15), .adc (.r .dx) (.r .r11), .adc (.i 0) (.r .r15),
   .sub (.r .r14) (.r .r11), .sbb (.i 0) (.r .r15), .mov (.g (.ord) 24) (.r .ax),
   .add (.r .r15) (.r .r8), .adc (.i 0) (.r .dx), .add (.r .ax) (.r .r8), .adc (.i 0) (.r .dx),
   .mov (.r .dx) (.r .r9)]

/-- sm2/p256_asm_amd64.s:1607-1634, p256_sm2OrdSqr, "Third reduction step". -/
def ordSqr_9 : List Instr :=
  [.mov (.r .r10) (.r .ax), .mul (.g (.ordK0) 0), .mov (.r .ax) (.r .r14),
   .mov (.g (.ord) 0) (.r .ax), .mul (.r .r14), .add (.r .ax) (.r .r10), .adc (.i 0) (.r .dx),
   .mov (.r .dx) (.r .r15), .mov (.g (.ord) 8) (.r .ax), .mul (.r .r14),
   .add (.r .r15) (.r .r11), .adc (.i 0) (.r .dx), .add (.r .ax) (.r .r11),
   .mov (.r .r14) (.r .r15), .adc (.r .dx) (.r .r8), .adc (.i 0) (.r .r15),
   .sub (.r .r14) (.r .r8), .sbb (.i 0) (.r .r15), .mov (.g (.ord) 24) (.r .ax),
   .add (.r .r15) (.r .r9), .adc (.i 0) (.r .dx), .add (.r .ax) (.r .r9), .adc (.i 0) (.r .dx),
   .mov (.r .dx) (.r .r10)]

/-- sm2/p256_asm_amd64.s:1636-1666, p256_sm2OrdSqr, "Last reduction step". -/
def ordSqr_10 : List Instr :=
  [.mov (.r .r11) (.r .ax), .mul (.g (.ordK0) 0), .mov (.r .ax) (.r .r14),
   .mov (.g (.ord) 0) (.r .ax), .mul (.r .r14), .add (.r .ax) (.r .r11), .adc (.i 0) (.r .dx),
   .mov (.r .dx) (.r .r15), .mov (.g (.ord) 8) (.r .ax), .mul (.r .r14), .add (.r .r15) (.r .r8),
   .adc (.i 0) (.r .dx), .add (.r .ax) (.r .r8), .adc (.i 0) (.r .dx), .mov (.r .dx) (.r .r15),
   .mov (.r .r14) (.r .r15), .adc (.r .dx) (.r .r9), .adc (.i 0) (.r .r15),
   .sub (.r .r14) (.r .r9), .sbb (.i 0) (.r .r15), .mov (.g (.ord) 24) (.r .ax),
   .add (.r .r15) (.r .r10), .adc (.i 0) (.r .dx), .add (.r .ax) (.r .r10), .adc (.i 0) (.r .dx),
   .mov (.r .dx) (.r .r11), .xor (.r .r14) (.r .r14)]

/-- sm2/p256_asm_amd64.s:1668-1677, p256_sm2OrdSqr, "Add bits [511:256] of the sqr result". -/
def ordSqr_11 : List Instr :=
  [.adc (.r .r12) (.r .r8), .adc (.r .r13) (.r .r9), .adc (.r .cx) (.r .r10),
   .adc (.r .si) (.r .r11), .adc (.i 0) (.r .r14), .mov (.r .r8) (.r .r12),
   .mov (.r .r9) (.r .r13), .mov (.r .r10) (.r .cx), .mov (.r .r11) (.r .r15)]

/-- sm2/p256_asm_amd64.s:1679-1695, p256_sm2OrdSqr, "Subtract p256_sm2". -/
def ordSqr_12 : List Instr :=
  [.sub (.g (.ord) 0) (.r .r8), .sbb (.g (.ord) 8) (.r .r9), .sbb (.g (.ord) 16) (.r .r10),
   .sbb (.g (.ord) 24) (.r .r11), .sbb (.i 0) (.r .r14), .cmov .cs (.r .r12) (.r .r8),
   .cmov .cs (.r .r13) (.r .r9), .cmov .cs (.r .cx) (.r .r10), .cmov .cs (.r .r15) (.r .r11),
   .mov (.r .r8) (.m .di 0), .mov (.r .r9) (.m .di 8), .mov (.r .r10) (.m .di 16),
   .mov (.r .r11) (.m .di 24), .mov (.r .di) (.r .si), .dec (.r .bx)]

/-- sm2/p256_asm_amd64.s:1468-1695, the body of ordSqrLoop. -/
def ordSqrBody : List Instr :=
  ordSqr_2 ++ ordSqr_3 ++ ordSqr_4 ++ ordSqr_5 ++ ordSqr_6 ++ ordSqr_7 ++ ordSqr_8 ++ ordSqr_9 ++ ordSqr_10 ++ ordSqr_11 ++ ordSqr_12

/-- sm2/p256_asm_amd64.s:1463-1698, p256_sm2OrdSqr. -/
def ordSqr (fuel : Nat) (s : St) : Option St := loopNZ ordSqrBody fuel (exec ordSqr_1 s)

end Verif.X64.P256
