/-
Generated by tools/asm2lean.py from sm2/p256_asm_amd64.s: the instructions of its routines, cut
at the comments of the file.  CALL and RET are inlined.  Do not edit.
-/
import Verif.Model.X64

namespace Verif.X64.P256

/-- sm2/p256_asm_amd64.s:98-114, p256_sm2BigToLittle. -/
def bigToLittle_1 : List Instr :=
  [.mov (.a 0) (.r .di), .mov (.a 24) (.r .si), .mov (.m .si 0) (.r .r8),
   .mov (.m .si 8) (.r .r9), .mov (.m .si 16) (.r .r10), .mov (.m .si 24) (.r .r11),
   .bswap (.r .r8), .bswap (.r .r9), .bswap (.r .r10), .bswap (.r .r11),
   .mov (.r .r11) (.m .di 0), .mov (.r .r10) (.m .di 8), .mov (.r .r9) (.m .di 16),
   .mov (.r .r8) (.m .di 24)]

/-- sm2/p256_asm_amd64.s:97-119, p256_sm2BigToLittle. -/
def bigToLittle : List Instr :=
  bigToLittle_1

/-- sm2/p256_asm_amd64.s:121-169, p256_sm2MovCond. -/
def movCond_1 : List Instr :=
  [.mov (.a 0) (.r .di), .mov (.a 24) (.r .si), .mov (.a 48) (.r .cx), .movqx (.a 72) 12,
   .pxor 13 13, .pshufd0 12 12, .pcmpeql 13 12, .movxx 12 0, .pandnm (.m .si 0) 0, .movxx 12 1,
   .pandnm (.m .si 16) 1, .movxx 12 2, .pandnm (.m .si 32) 2, .movxx 12 3, .pandnm (.m .si 48) 3,
   .movxx 12 4, .pandnm (.m .si 64) 4, .movxx 12 5, .pandnm (.m .si 80) 5, .ldx (.m .cx 0) 6,
   .ldx (.m .cx 16) 7, .ldx (.m .cx 32) 8, .ldx (.m .cx 48) 9, .ldx (.m .cx 64) 10,
   .ldx (.m .cx 80) 11, .pand 12 6, .pand 12 7, .pand 12 8, .pand 12 9, .pand 12 10, .pand 12 11,
   .pxor 6 0, .pxor 7 1, .pxor 8 2, .pxor 9 3, .pxor 10 4, .pxor 11 5, .stx 0 (.m .di 0),
   .stx 1 (.m .di 16), .stx 2 (.m .di 32), .stx 3 (.m .di 48), .stx 4 (.m .di 64),
   .stx 5 (.m .di 80)]

/-- sm2/p256_asm_amd64.s:120-171, p256_sm2MovCond. -/
def movCond : List Instr :=
  movCond_1

/-- sm2/p256_asm_amd64.s:175-176, p256_sm2NegCond. -/
def negCond_1 : List Instr :=
  [.mov (.a 0) (.r .di), .mov (.a 24) (.r .r14)]

/-- sm2/p256_asm_amd64.s:178-182, p256_sm2NegCond, "acc = poly". -/
def negCond_2 : List Instr :=
  [.mov (.i 0xffffffffffffffff) (.r .r8), .mov (.g (.const0) 0) (.r .r9),
   .mov (.i 0xffffffffffffffff) (.r .r10), .mov (.g (.const1) 0) (.r .r11)]

/-- sm2/p256_asm_amd64.s:184-187, p256_sm2NegCond, "Load the original value". -/
def negCond_3 : List Instr :=
  [.mov (.m .di 0) (.r .r13), .mov (.m .di 8) (.r .si), .mov (.m .di 16) (.r .cx),
   .mov (.m .di 24) (.r .r15)]

/-- sm2/p256_asm_amd64.s:189-192, p256_sm2NegCond, "Speculatively subtract". -/
def negCond_4 : List Instr :=
  [.sub (.r .r13) (.r .r8), .sbb (.r .si) (.r .r9), .sbb (.r .cx) (.r .r10),
   .sbb (.r .r15) (.r .r11)]

/-- sm2/p256_asm_amd64.s:194-198, p256_sm2NegCond, "If condition is 0, keep original value". -/
def negCond_5 : List Instr :=
  [.test (.r .r14) (.r .r14), .cmov .eq (.r .r13) (.r .r8), .cmov .eq (.r .si) (.r .r9),
   .cmov .eq (.r .cx) (.r .r10), .cmov .eq (.r .r15) (.r .r11)]

/-- sm2/p256_asm_amd64.s:200-203, p256_sm2NegCond, "Store result". -/
def negCond_6 : List Instr :=
  [.mov (.r .r8) (.m .di 0), .mov (.r .r9) (.m .di 8), .mov (.r .r10) (.m .di 16),
   .mov (.r .r11) (.m .di 24)]

/-- sm2/p256_asm_amd64.s:174-205, p256_sm2NegCond. -/
def negCond : List Instr :=
  negCond_1 ++ negCond_2 ++ negCond_3 ++ negCond_4 ++ negCond_5 ++ negCond_6

/-- sm2/p256_asm_amd64.s:209-210, p256_sm2Sqr. -/
def sqr_1 : List Instr :=
  [.mov (.a 0) (.r .di), .mov (.a 24) (.r .si)]

/-- sm2/p256_asm_amd64.s:212-229, p256_sm2Sqr, "y[1:] * y[0]". -/
def sqr_2 : List Instr :=
  [.mov (.m .si 0) (.r .r14), .mov (.m .si 8) (.r .ax), .mul (.r .r14), .mov (.r .ax) (.r .r9),
   .mov (.r .dx) (.r .r10), .mov (.m .si 16) (.r .ax), .mul (.r .r14), .add (.r .ax) (.r .r10),
   .adc (.i 0) (.r .dx), .mov (.r .dx) (.r .r11), .mov (.m .si 24) (.r .ax), .mul (.r .r14),
   .add (.r .ax) (.r .r11), .adc (.i 0) (.r .dx), .mov (.r .dx) (.r .r12)]

/-- sm2/p256_asm_amd64.s:231-245, p256_sm2Sqr, "y[2:] * y[1]". -/
def sqr_3 : List Instr :=
  [.mov (.m .si 8) (.r .r14), .mov (.m .si 16) (.r .ax), .mul (.r .r14), .add (.r .ax) (.r .r11),
   .adc (.i 0) (.r .dx), .mov (.r .dx) (.r .r15), .mov (.m .si 24) (.r .ax), .mul (.r .r14),
   .add (.r .r15) (.r .r12), .adc (.i 0) (.r .dx), .add (.r .ax) (.r .r12), .adc (.i 0) (.r .dx),
   .mov (.r .dx) (.r .r13)]

/-- sm2/p256_asm_amd64.s:247-254, p256_sm2Sqr, "y[3] * y[2]". -/
def sqr_4 : List Instr :=
  [.mov (.m .si 16) (.r .r14), .mov (.m .si 24) (.r .ax), .mul (.r .r14),
   .add (.r .ax) (.r .r13), .adc (.i 0) (.r .dx), .mov (.r .dx) (.r .cx), .xor (.r .r15) (.r .r15)]

/-- sm2/p256_asm_amd64.s:256-262, p256_sm2Sqr, "*2". -/
def sqr_5 : List Instr :=
  [.add (.r .r9) (.r .r9), .adc (.r .r10) (.r .r10), .adc (.r .r11) (.r .r11),
   .adc (.r .r12) (.r .r12), .adc (.r .r13) (.r .r13), .adc (.r .cx) (.r .cx),
   .adc (.i 0) (.r .r15)]

/-- sm2/p256_asm_amd64.s:264-288, p256_sm2Sqr, "Missing products". -/
def sqr_6 : List Instr :=
  [.mov (.m .si 0) (.r .ax), .mul (.r .ax), .mov (.r .ax) (.r .r8), .mov (.r .dx) (.r .r14),
   .mov (.m .si 8) (.r .ax), .mul (.r .ax), .add (.r .r14) (.r .r9), .adc (.r .ax) (.r .r10),
   .adc (.i 0) (.r .dx), .mov (.r .dx) (.r .r14), .mov (.m .si 16) (.r .ax), .mul (.r .ax),
   .add (.r .r14) (.r .r11), .adc (.r .ax) (.r .r12), .adc (.i 0) (.r .dx),
   .mov (.r .dx) (.r .r14), .mov (.m .si 24) (.r .ax), .mul (.r .ax), .add (.r .r14) (.r .r13),
   .adc (.r .ax) (.r .cx), .adc (.r .dx) (.r .r15), .mov (.r .r15) (.r .si)]

/-- sm2/p256_asm_amd64.s:290-307, p256_sm2Sqr, "First reduction step". -/
def sqr_7 : List Instr :=
  [.mov (.r .r8) (.r .ax), .mov (.r .r8) (.r .r15), .mul (.g (.const1) 0),
   .add (.r .r8) (.r .r9), .adc (.i 0) (.r .r10), .adc (.r .r8) (.r .r11), .adc (.i 0) (.r .dx),
   .add (.r .ax) (.r .r11), .adc (.i 0) (.r .dx), .mov (.r .r8) (.r .ax), .mov (.r .dx) (.r .r8),
   .shl 32 (.r .ax), .shr 32 (.r .r15), .sub (.r .ax) (.r .r9), .sbb (.r .r15) (.r .r10),
   .sbb (.i 0) (.r .r11), .sbb (.i 0) (.r .r8)]

/-- sm2/p256_asm_amd64.s:309-326, p256_sm2Sqr, "Second reduction step". -/
def sqr_8 : List Instr :=
  [.mov (.r .r9) (.r .ax), .mov (.r .r9) (.r .r15), .mul (.g (.const1) 0),
   .add (.r .r9) (.r .r10), .adc (.i 0) (.r .r11), .adc (.r .r9) (.r .r8), .adc (.i 0) (.r .dx),
   .add (.r .ax) (.r .r8), .adc (.i 0) (.r .dx), .mov (.r .r9) (.r .ax), .mov (.r .dx) (.r .r9),
   .shl 32 (.r .ax), .shr 32 (.r .r15), .sub (.r .ax) (.r .r10), .sbb (.r .r15) (.r .r11),
   .sbb (.i 0) (.r .r8), .sbb (.i 0) (.r .r9)]

/-- sm2/p256_asm_amd64.s:328-345, p256_sm2Sqr, "Third reduction step". -/
def sqr_9 : List Instr :=
  [.mov (.r .r10) (.r .ax), .mov (.r .r10) (.r .r15), .mul (.g (.const1) 0),
   .add (.r .r10) (.r .r11), .adc (.i 0) (.r .r8), .adc (.r .r10) (.r .r9), .adc (.i 0) (.r .dx),
   .add (.r .ax) (.r .r9), .adc (.i 0) (.r .dx), .mov (.r .r10) (.r .ax),
   .mov (.r .dx) (.r .r10), .shl 32 (.r .ax), .shr 32 (.r .r15), .sub (.r .ax) (.r .r11),
   .sbb (.r .r15) (.r .r8), .sbb (.i 0) (.r .r9), .sbb (.i 0) (.r .r10)]

/-- sm2/p256_asm_amd64.s:347-365, p256_sm2Sqr, "Last reduction step". -/
def sqr_10 : List Instr :=
  [.xor (.r .r14) (.r .r14), .mov (.r .r11) (.r .ax), .mov (.r .r11) (.r .r15),
   .mul (.g (.const1) 0), .add (.r .r11) (.r .r8), .adc (.i 0) (.r .r9),
   .adc (.r .r11) (.r .r10), .adc (.i 0) (.r .dx), .add (.r .ax) (.r .r10), .adc (.i 0) (.r .dx),
   .mov (.r .r11) (.r .ax), .mov (.r .dx) (.r .r11), .shl 32 (.r .ax), .shr 32 (.r .r15),
   .sub (.r .ax) (.r .r8), .sbb (.r .r15) (.r .r9), .sbb (.i 0) (.r .r10), .sbb (.i 0) (.r .r11)]

/-- sm2/p256_asm_amd64.s:367-376, p256_sm2Sqr, "Add bits [511:256] of the sqr result". -/
def sqr_11 : List Instr :=
  [.adc (.r .r12) (.r .r8), .adc (.r .r13) (.r .r9), .adc (.r .cx) (.r .r10),
   .adc (.r .si) (.r .r11), .adc (.i 0) (.r .r14), .mov (.r .r8) (.r .r12),
   .mov (.r .r9) (.r .r13), .mov (.r .r10) (.r .cx), .mov (.r .r11) (.r .r15)]

/-- sm2/p256_asm_amd64.s:378-393, p256_sm2Sqr, "Subtract p256_sm2". -/
def sqr_12 : List Instr :=
  [.sub (.i 0xffffffffffffffff) (.r .r8), .sbb (.g (.const0) 0) (.r .r9),
   .sbb (.i 0xffffffffffffffff) (.r .r10), .sbb (.g (.const1) 0) (.r .r11),
   .sbb (.i 0) (.r .r14), .cmov .cs (.r .r12) (.r .r8), .cmov .cs (.r .r13) (.r .r9),
   .cmov .cs (.r .cx) (.r .r10), .cmov .cs (.r .r15) (.r .r11), .mov (.r .r8) (.m .di 0),
   .mov (.r .r9) (.m .di 8), .mov (.r .r10) (.m .di 16), .mov (.r .r11) (.m .di 24)]

/-- sm2/p256_asm_amd64.s:208-395, p256_sm2Sqr. -/
def sqr : List Instr :=
  sqr_1 ++ sqr_2 ++ sqr_3 ++ sqr_4 ++ sqr_5 ++ sqr_6 ++ sqr_7 ++ sqr_8 ++ sqr_9 ++ sqr_10 ++ sqr_11 ++ sqr_12

/-- sm2/p256_asm_amd64.s:399-401, p256_sm2Mul. -/
def mul_1 : List Instr :=
  [.mov (.a 0) (.r .di), .mov (.a 24) (.r .si), .mov (.a 48) (.r .cx)]

/-- sm2/p256_asm_amd64.s:403-427, p256_sm2Mul, "x * y[0]". -/
def mul_2 : List Instr :=
  [.mov (.m .cx 0) (.r .r14), .mov (.m .si 0) (.r .ax), .mul (.r .r14), .mov (.r .ax) (.r .r8),
   .mov (.r .dx) (.r .r9), .mov (.m .si 8) (.r .ax), .mul (.r .r14), .add (.r .ax) (.r .r9),
   .adc (.i 0) (.r .dx), .mov (.r .dx) (.r .r10), .mov (.m .si 16) (.r .ax), .mul (.r .r14),
   .add (.r .ax) (.r .r10), .adc (.i 0) (.r .dx), .mov (.r .dx) (.r .r11),
   .mov (.m .si 24) (.r .ax), .mul (.r .r14), .add (.r .ax) (.r .r11), .adc (.i 0) (.r .dx),
   .mov (.r .dx) (.r .r12), .xor (.r .r13) (.r .r13)]

/-- sm2/p256_asm_amd64.s:429-449, p256_sm2Mul, "First reduction step". -/
def mul_3 : List Instr :=
  [.mov (.r .r8) (.r .ax), .mov (.r .r8) (.r .r15), .mul (.g (.const1) 0),
   .add (.r .r8) (.r .r9), .adc (.i 0) (.r .r10), .adc (.r .r8) (.r .r11), .adc (.i 0) (.r .dx),
   .add (.r .ax) (.r .r11), .adc (.i 0) (.r .dx), .mov (.r .r8) (.r .ax),
   .adc (.r .dx) (.r .r12), .adc (.i 0) (.r .r13), .shl 32 (.r .ax), .shr 32 (.r .r15),
   .sub (.r .ax) (.r .r9), .sbb (.r .r15) (.r .r10), .sbb (.i 0) (.r .r11),
   .sbb (.i 0) (.r .r12), .sbb (.i 0) (.r .r13), .xor (.r .r8) (.r .r8)]

/-- sm2/p256_asm_amd64.s:451-481, p256_sm2Mul, "x * y[1]". -/
def mul_4 : List Instr :=
  [.mov (.m .cx 8) (.r .r14), .mov (.m .si 0) (.r .ax), .mul (.r .r14), .add (.r .ax) (.r .r9),
   .adc (.i 0) (.r .dx), .mov (.r .dx) (.r .r15), .mov (.m .si 8) (.r .ax), .mul (.r .r14),
   .add (.r .r15) (.r .r10), .adc (.i 0) (.r .dx), .add (.r .ax) (.r .r10), .adc (.i 0) (.r .dx),
   .mov (.r .dx) (.r .r15), .mov (.m .si 16) (.r .ax), .mul (.r .r14), .add (.r .r15) (.r .r11),
   .adc (.i 0) (.r .dx), .add (.r .ax) (.r .r11), .adc (.i 0) (.r .dx), .mov (.r .dx) (.r .r15),
   .mov (.m .si 24) (.r .ax), .mul (.r .r14), .add (.r .r15) (.r .r12), .adc (.i 0) (.r .dx),
   .add (.r .ax) (.r .r12), .adc (.r .dx) (.r .r13), .adc (.i 0) (.r .r8)]

/-- sm2/p256_asm_amd64.s:483-503, p256_sm2Mul, "Second reduction step". -/
def mul_5 : List Instr :=
  [.mov (.r .r9) (.r .ax), .mov (.r .r9) (.r .r15), .mul (.g (.const1) 0),
   .add (.r .r9) (.r .r10), .adc (.i 0) (.r .r11), .adc (.r .r9) (.r .r12), .adc (.i 0) (.r .dx),
   .add (.r .ax) (.r .r12), .adc (.i 0) (.r .dx), .mov (.r .r9) (.r .ax),
   .adc (.r .dx) (.r .r13), .adc (.i 0) (.r .r8), .shl 32 (.r .ax), .shr 32 (.r .r15),
   .sub (.r .ax) (.r .r10), .sbb (.r .r15) (.r .r11), .sbb (.i 0) (.r .r12),
   .sbb (.i 0) (.r .r13), .sbb (.i 0) (.r .r8), .xor (.r .r9) (.r .r9)]

/-- sm2/p256_asm_amd64.s:505-535, p256_sm2Mul, "x * y[2]". -/
def mul_6 : List Instr :=
  [.mov (.m .cx 16) (.r .r14), .mov (.m .si 0) (.r .ax), .mul (.r .r14), .add (.r .ax) (.r .r10),
   .adc (.i 0) (.r .dx), .mov (.r .dx) (.r .r15), .mov (.m .si 8) (.r .ax), .mul (.r .r14),
   .add (.r .r15) (.r .r11), .adc (.i 0) (.r .dx), .add (.r .ax) (.r .r11), .adc (.i 0) (.r .dx),
   .mov (.r .dx) (.r .r15), .mov (.m .si 16) (.r .ax), .mul (.r .r14), .add (.r .r15) (.r .r12),
   .adc (.i 0) (.r .dx), .add (.r .ax) (.r .r12), .adc (.i 0) (.r .dx), .mov (.r .dx) (.r .r15),
   .mov (.m .si 24) (.r .ax), .mul (.r .r14), .add (.r .r15) (.r .r13), .adc (.i 0) (.r .dx),
   .add (.r .ax) (.r .r13), .adc (.r .dx) (.r .r8), .adc (.i 0) (.r .r9)]

/-- sm2/p256_asm_amd64.s:537-557, p256_sm2Mul, "Third reduction step". -/
def mul_7 : List Instr :=
  [.mov (.r .r10) (.r .ax), .mov (.r .r10) (.r .r15), .mul (.g (.const1) 0),
   .add (.r .r10) (.r .r11), .adc (.i 0) (.r .r12), .adc (.r .r10) (.r .r13),
   .adc (.i 0) (.r .dx), .add (.r .ax) (.r .r13), .adc (.i 0) (.r .dx), .mov (.r .r10) (.r .ax),
   .adc (.r .dx) (.r .r8), .adc (.i 0) (.r .r9), .shl 32 (.r .ax), .shr 32 (.r .r15),
   .sub (.r .ax) (.r .r11), .sbb (.r .r15) (.r .r12), .sbb (.i 0) (.r .r13),
   .sbb (.i 0) (.r .r8), .sbb (.i 0) (.r .r9), .xor (.r .r10) (.r .r10)]

/-- sm2/p256_asm_amd64.s:559-589, p256_sm2Mul, "x * y[3]". -/
def mul_8 : List Instr :=
  [.mov (.m .cx 24) (.r .r14), .mov (.m .si 0) (.r .ax), .mul (.r .r14), .add (.r .ax) (.r .r11),
   .adc (.i 0) (.r .dx), .mov (.r .dx) (.r .r15), .mov (.m .si 8) (.r .ax), .mul (.r .r14),
   .add (.r .r15) (.r .r12), .adc (.i 0) (.r .dx), .add (.r .ax) (.r .r12), .adc (.i 0) (.r .dx),
   .mov (.r .dx) (.r .r15), .mov (.m .si 16) (.r .ax), .mul (.r .r14), .add (.r .r15) (.r .r13),
   .adc (.i 0) (.r .dx), .add (.r .ax) (.r .r13), .adc (.i 0) (.r .dx), .mov (.r .dx) (.r .r15),
   .mov (.m .si 24) (.r .ax), .mul (.r .r14), .add (.r .r15) (.r .r8), .adc (.i 0) (.r .dx),
   .add (.r .ax) (.r .r8), .adc (.r .dx) (.r .r9), .adc (.i 0) (.r .r10)]

/-- sm2/p256_asm_amd64.s:591-611, p256_sm2Mul, "Last reduction step". -/
def mul_9 : List Instr :=
  [.xor (.r .r14) (.r .r14), .mov (.r .r11) (.r .ax), .mov (.r .r11) (.r .r15),
   .mul (.g (.const1) 0), .add (.r .r11) (.r .r12), .adc (.i 0) (.r .r13),
   .adc (.r .r11) (.r .r8), .adc (.i 0) (.r .dx), .add (.r .ax) (.r .r8), .adc (.i 0) (.r .dx),
   .mov (.r .r11) (.r .ax), .adc (.r .dx) (.r .r9), .adc (.i 0) (.r .r10), .shl 32 (.r .ax),
   .shr 32 (.r .r15), .sub (.r .ax) (.r .r12), .sbb (.r .r15) (.r .r13), .sbb (.i 0) (.r .r8),
   .sbb (.i 0) (.r .r9), .sbb (.i 0) (.r .r10)]

/-- sm2/p256_asm_amd64.s:613-616, p256_sm2Mul, "Copy result [255:0]". -/
def mul_10 : List Instr :=
  [.mov (.r .r12) (.r .si), .mov (.r .r13) (.r .r11), .mov (.r .r8) (.r .r14),
   .mov (.r .r9) (.r .r15)]

/-- sm2/p256_asm_amd64.s:618-633, p256_sm2Mul, "Subtract p256_sm2". -/
def mul_11 : List Instr :=
  [.sub (.i 0xffffffffffffffff) (.r .r12), .sbb (.g (.const0) 0) (.r .r13),
   .sbb (.i 0xffffffffffffffff) (.r .r8), .sbb (.g (.const1) 0) (.r .r9), .sbb (.i 0) (.r .r10),
   .cmov .cs (.r .si) (.r .r12), .cmov .cs (.r .r11) (.r .r13), .cmov .cs (.r .r14) (.r .r8),
   .cmov .cs (.r .r15) (.r .r9), .mov (.r .r12) (.m .di 0), .mov (.r .r13) (.m .di 8),
   .mov (.r .r8) (.m .di 16), .mov (.r .r9) (.m .di 24)]

/-- sm2/p256_asm_amd64.s:398-635, p256_sm2Mul. -/
def mul : List Instr :=
  mul_1 ++ mul_2 ++ mul_3 ++ mul_4 ++ mul_5 ++ mul_6 ++ mul_7 ++ mul_8 ++ mul_9 ++ mul_10 ++ mul_11

/-- sm2/p256_asm_amd64.s:930-937, p256_sm2FromMont. -/
def fromMont_1 : List Instr :=
  [.mov (.a 0) (.r .di), .mov (.a 24) (.r .si), .mov (.m .si 0) (.r .r8),
   .mov (.m .si 8) (.r .r9), .mov (.m .si 16) (.r .r10), .mov (.m .si 24) (.r .r11),
   .xor (.r .r12) (.r .r12)]

/-- sm2/p256_asm_amd64.s:941-957, p256_sm2FromMont, "First stage". -/
def fromMont_2 : List Instr :=
  [.mov (.r .r8) (.r .ax), .mov (.r .r8) (.r .r15), .mul (.g (.const1) 0),
   .add (.r .r8) (.r .r9), .adc (.i 0) (.r .r10), .adc (.r .r8) (.r .r11), .adc (.i 0) (.r .dx),
   .adc (.r .ax) (.r .r11), .adc (.i 0) (.r .dx), .shl 32 (.r .r8), .shr 32 (.r .r15),
   .sub (.r .r8) (.r .r9), .sbb (.r .r15) (.r .r10), .sbb (.i 0) (.r .r11), .sbb (.i 0) (.r .dx),
   .mov (.r .dx) (.r .r12), .xor (.r .r13) (.r .r13)]

/-- sm2/p256_asm_amd64.s:959-975, p256_sm2FromMont, "Second stage". -/
def fromMont_3 : List Instr :=
  [.mov (.r .r9) (.r .ax), .mov (.r .r9) (.r .r15), .mul (.g (.const1) 0),
   .add (.r .r9) (.r .r10), .adc (.i 0) (.r .r11), .adc (.r .r9) (.r .r12), .adc (.i 0) (.r .dx),
   .adc (.r .ax) (.r .r12), .adc (.i 0) (.r .dx), .shl 32 (.r .r9), .shr 32 (.r .r15),
   .sub (.r .r9) (.r .r10), .sbb (.r .r15) (.r .r11), .sbb (.i 0) (.r .r12),
   .sbb (.i 0) (.r .dx), .mov (.r .dx) (.r .r13), .xor (.r .r8) (.r .r8)]

/-- sm2/p256_asm_amd64.s:977-993, p256_sm2FromMont, "Third stage". -/
def fromMont_4 : List Instr :=
  [.mov (.r .r10) (.r .ax), .mov (.r .r10) (.r .r15), .mul (.g (.const1) 0),
   .add (.r .r10) (.r .r11), .adc (.i 0) (.r .r12), .adc (.r .r10) (.r .r13),
   .adc (.i 0) (.r .dx), .adc (.r .ax) (.r .r13), .adc (.i 0) (.r .dx), .shl 32 (.r .r10),
   .shr 32 (.r .r15), .sub (.r .r10) (.r .r11), .sbb (.r .r15) (.r .r12), .sbb (.i 0) (.r .r13),
   .sbb (.i 0) (.r .dx), .mov (.r .dx) (.r .r8), .xor (.r .r9) (.r .r9)]

/-- sm2/p256_asm_amd64.s:995-1032, p256_sm2FromMont, "Last stage". -/
def fromMont_5 : List Instr :=
  [.xor (.r .r14) (.r .r14), .mov (.r .r11) (.r .ax), .mov (.r .r11) (.r .r15),
   .mul (.g (.const1) 0), .add (.r .r11) (.r .r12), .adc (.i 0) (.r .r13),
   .adc (.r .r11) (.r .r8), .adc (.i 0) (.r .dx), .adc (.r .ax) (.r .r8), .adc (.i 0) (.r .dx),
   .shl 32 (.r .r11), .shr 32 (.r .r15), .sub (.r .r11) (.r .r12), .sbb (.r .r15) (.r .r13),
   .sbb (.i 0) (.r .r8), .sbb (.i 0) (.r .dx), .mov (.r .dx) (.r .r9), .mov (.r .r12) (.r .si),
   .mov (.r .r13) (.r .r11), .mov (.r .r8) (.r .r14), .mov (.r .r9) (.r .r15),
   .sub (.i 0xffffffffffffffff) (.r .r12), .sbb (.g (.const0) 0) (.r .r13),
   .sbb (.i 0xffffffffffffffff) (.r .r8), .sbb (.g (.const1) 0) (.r .r9),
   .cmov .cs (.r .si) (.r .r12), .cmov .cs (.r .r11) (.r .r13), .cmov .cs (.r .r14) (.r .r8),
   .cmov .cs (.r .r15) (.r .r9), .mov (.r .r12) (.m .di 0), .mov (.r .r13) (.m .di 8),
   .mov (.r .r8) (.m .di 16), .mov (.r .r9) (.m .di 24)]

/-- sm2/p256_asm_amd64.s:929-1039, p256_sm2FromMont. -/
def fromMont : List Instr :=
  fromMont_1 ++ fromMont_2 ++ fromMont_3 ++ fromMont_4 ++ fromMont_5

/-- sm2/p256_asm_amd64.s:1042-1060, p256_sm2Select. -/
def select_1 : List Instr :=
  [.mov (.a 48) (.r .ax), .mov (.a 24) (.r .di), .mov (.a 0) (.r .dx), .pxor 15 15,
   .pcmpeql 14 14, .psubl 14 15, .movlx (.r .ax) 14, .pshufd0 14 14, .pxor 0 0, .pxor 1 1,
   .pxor 2 2, .pxor 3 3, .pxor 4 4, .pxor 5 5, .mov (.i 0x10) (.r .ax), .movxx 15 13]

/-- sm2/p256_asm_amd64.s:1064-1090, p256_sm2Select, "label loop_select". -/
def select_2 : List Instr :=
  [.movxx 13 12, .paddl 15 13, .pcmpeql 14 12, .ldx (.m .di 0) 6, .ldx (.m .di 16) 7,
   .ldx (.m .di 32) 8, .ldx (.m .di 48) 9, .ldx (.m .di 64) 10, .ldx (.m .di 80) 11,
   .add (.i 0x60) (.r .di), .pand 12 6, .pand 12 7, .pand 12 8, .pand 12 9, .pand 12 10,
   .pand 12 11, .pxor 6 0, .pxor 7 1, .pxor 8 2, .pxor 9 3, .pxor 10 4, .pxor 11 5, .dec (.r .ax)]

/-- sm2/p256_asm_amd64.s:1093-1098, p256_sm2Select, "after loop". -/
def select_3 : List Instr :=
  [.stx 0 (.m .dx 0), .stx 1 (.m .dx 16), .stx 2 (.m .dx 32), .stx 3 (.m .dx 48),
   .stx 4 (.m .dx 64), .stx 5 (.m .dx 80)]

/-- sm2/p256_asm_amd64.s:1105-1121, p256_sm2SelectBase. -/
def selectBase_1 : List Instr :=
  [.mov (.a 48) (.r .ax), .mov (.a 24) (.r .di), .mov (.a 0) (.r .dx), .pxor 15 15,
   .pcmpeql 14 14, .psubl 14 15, .movlx (.r .ax) 14, .pshufd0 14 14, .pxor 0 0, .pxor 1 1,
   .pxor 2 2, .pxor 3 3, .mov (.i 0x20) (.r .ax), .movxx 15 13]

/-- sm2/p256_asm_amd64.s:1125-1165, p256_sm2SelectBase, "label loop_select_base". -/
def selectBase_2 : List Instr :=
  [.movxx 13 12, .paddl 15 13, .pcmpeql 14 12, .ldx (.m .di 0) 4, .ldx (.m .di 16) 5,
   .ldx (.m .di 32) 6, .ldx (.m .di 48) 7, .ldx (.m .di 64) 8, .ldx (.m .di 80) 9,
   .ldx (.m .di 96) 10, .ldx (.m .di 112) 11, .add (.i 0x80) (.r .di), .pand 12 4, .pand 12 5,
   .pand 12 6, .pand 12 7, .movxx 13 12, .paddl 15 13, .pcmpeql 14 12, .pand 12 8, .pand 12 9,
   .pand 12 10, .pand 12 11, .pxor 4 0, .pxor 5 1, .pxor 6 2, .pxor 7 3, .pxor 8 0, .pxor 9 1,
   .pxor 10 2, .pxor 11 3, .dec (.r .ax)]

/-- sm2/p256_asm_amd64.s:1168-1171, p256_sm2SelectBase, "after loop". -/
def selectBase_3 : List Instr :=
  [.stx 0 (.m .dx 0), .stx 1 (.m .dx 16), .stx 2 (.m .dx 32), .stx 3 (.m .dx 48)]

/-- sm2/p256_asm_amd64.s:1177-1179, p256_sm2OrdMul. -/
def ordMul_1 : List Instr :=
  [.mov (.a 0) (.r .di), .mov (.a 24) (.r .si), .mov (.a 48) (.r .cx)]

/-- sm2/p256_asm_amd64.s:1181-1205, p256_sm2OrdMul, "x * y[0]". -/
def ordMul_2 : List Instr :=
  [.mov (.m .cx 0) (.r .r14), .mov (.m .si 0) (.r .ax), .mul (.r .r14), .mov (.r .ax) (.r .r8),
   .mov (.r .dx) (.r .r9), .mov (.m .si 8) (.r .ax), .mul (.r .r14), .add (.r .ax) (.r .r9),
   .adc (.i 0) (.r .dx), .mov (.r .dx) (.r .r10), .mov (.m .si 16) (.r .ax), .mul (.r .r14),
   .add (.r .ax) (.r .r10), .adc (.i 0) (.r .dx), .mov (.r .dx) (.r .r11),
   .mov (.m .si 24) (.r .ax), .mul (.r .r14), .add (.r .ax) (.r .r11), .adc (.i 0) (.r .dx),
   .mov (.r .dx) (.r .r12), .xor (.r .r13) (.r .r13)]

/-- sm2/p256_asm_amd64.s:1207-1239, p256_sm2OrdMul, "First reduction step". -/
def ordMul_3 : List Instr :=
  [.mov (.r .r8) (.r .ax), .mul (.g (.ordK0) 0), .mov (.r .ax) (.r .r14),
   .mov (.g (.ord) 0) (.r .ax), .mul (.r .r14), .add (.r .ax) (.r .r8), .adc (.i 0) (.r .dx),
   .mov (.r .dx) (.r .r15), .mov (.g (.ord) 8) (.r .ax), .mul (.r .r14), .add (.r .r15) (.r .r9),
   .adc (.i 0) (.r .dx), .add (.r .ax) (.r .r9), .adc (.i 0) (.r .dx), .mov (.r .dx) (.r .r15),
   .mov (.g (.ord) 16) (.r .ax), .mul (.r .r14), .add (.r .r15) (.r .r10), .adc (.i 0) (.r .dx),
   .add (.r .ax) (.r .r10), .adc (.i 0) (.r .dx), .mov (.r .dx) (.r .r15),
   .mov (.g (.ord) 24) (.r .ax), .mul (.r .r14), .add (.r .r15) (.r .r11), .adc (.i 0) (.r .dx),
   .add (.r .ax) (.r .r11), .adc (.r .dx) (.r .r12), .adc (.i 0) (.r .r13)]

/-- sm2/p256_asm_amd64.s:1241-1271, p256_sm2OrdMul, "x * y[1]". -/
def ordMul_4 : List Instr :=
  [.mov (.m .cx 8) (.r .r14), .mov (.m .si 0) (.r .ax), .mul (.r .r14), .add (.r .ax) (.r .r9),
   .adc (.i 0) (.r .dx), .mov (.r .dx) (.r .r15), .mov (.m .si 8) (.r .ax), .mul (.r .r14),
   .add (.r .r15) (.r .r10), .adc (.i 0) (.r .dx), .add (.r .ax) (.r .r10), .adc (.i 0) (.r .dx),
   .mov (.r .dx) (.r .r15), .mov (.m .si 16) (.r .ax), .mul (.r .r14), .add (.r .r15) (.r .r11),
   .adc (.i 0) (.r .dx), .add (.r .ax) (.r .r11), .adc (.i 0) (.r .dx), .mov (.r .dx) (.r .r15),
   .mov (.m .si 24) (.r .ax), .mul (.r .r14), .add (.r .r15) (.r .r12), .adc (.i 0) (.r .dx),
   .add (.r .ax) (.r .r12), .adc (.r .dx) (.r .r13), .adc (.i 0) (.r .r8)]

/-- sm2/p256_asm_amd64.s:1273-1305, p256_sm2OrdMul, "Second reduction step". -/
def ordMul_5 : List Instr :=
  [.mov (.r .r9) (.r .ax), .mul (.g (.ordK0) 0), .mov (.r .ax) (.r .r14),
   .mov (.g (.ord) 0) (.r .ax), .mul (.r .r14), .add (.r .ax) (.r .r9), .adc (.i 0) (.r .dx),
   .mov (.r .dx) (.r .r15), .mov (.g (.ord) 8) (.r .ax), .mul (.r .r14),
   .add (.r .r15) (.r .r10), .adc (.i 0) (.r .dx), .add (.r .ax) (.r .r10), .adc (.i 0) (.r .dx),
   .mov (.r .dx) (.r .r15), .mov (.g (.ord) 16) (.r .ax), .mul (.r .r14),
   .add (.r .r15) (.r .r11), .adc (.i 0) (.r .dx), .add (.r .ax) (.r .r11), .adc (.i 0) (.r .dx),
   .mov (.r .dx) (.r .r15), .mov (.g (.ord) 24) (.r .ax), .mul (.r .r14),
   .add (.r .r15) (.r .r12), .adc (.i 0) (.r .dx), .add (.r .ax) (.r .r12),
   .adc (.r .dx) (.r .r13), .adc (.i 0) (.r .r8)]

/-- sm2/p256_asm_amd64.s:1307-1337, p256_sm2OrdMul, "x * y[2]". -/
def ordMul_6 : List Instr :=
  [.mov (.m .cx 16) (.r .r14), .mov (.m .si 0) (.r .ax), .mul (.r .r14), .add (.r .ax) (.r .r10),
   .adc (.i 0) (.r .dx), .mov (.r .dx) (.r .r15), .mov (.m .si 8) (.r .ax), .mul (.r .r14),
   .add (.r .r15) (.r .r11), .adc (.i 0) (.r .dx), .add (.r .ax) (.r .r11), .adc (.i 0) (.r .dx),
   .mov (.r .dx) (.r .r15), .mov (.m .si 16) (.r .ax), .mul (.r .r14), .add (.r .r15) (.r .r12),
   .adc (.i 0) (.r .dx), .add (.r .ax) (.r .r12), .adc (.i 0) (.r .dx), .mov (.r .dx) (.r .r15),
   .mov (.m .si 24) (.r .ax), .mul (.r .r14), .add (.r .r15) (.r .r13), .adc (.i 0) (.r .dx),
   .add (.r .ax) (.r .r13), .adc (.r .dx) (.r .r8), .adc (.i 0) (.r .r9)]

/-- sm2/p256_asm_amd64.s:1339-1371, p256_sm2OrdMul, "Third reduction step". -/
def ordMul_7 : List Instr :=
  [.mov (.r .r10) (.r .ax), .mul (.g (.ordK0) 0), .mov (.r .ax) (.r .r14),
   .mov (.g (.ord) 0) (.r .ax), .mul (.r .r14), .add (.r .ax) (.r .r10), .adc (.i 0) (.r .dx),
   .mov (.r .dx) (.r .r15), .mov (.g (.ord) 8) (.r .ax), .mul (.r .r14),
   .add (.r .r15) (.r .r11), .adc (.i 0) (.r .dx), .add (.r .ax) (.r .r11), .adc (.i 0) (.r .dx),
   .mov (.r .dx) (.r .r15), .mov (.g (.ord) 16) (.r .ax), .mul (.r .r14),
   .add (.r .r15) (.r .r12), .adc (.i 0) (.r .dx), .add (.r .ax) (.r .r12), .adc (.i 0) (.r .dx),
   .mov (.r .dx) (.r .r15), .mov (.g (.ord) 24) (.r .ax), .mul (.r .r14),
   .add (.r .r15) (.r .r13), .adc (.i 0) (.r .dx), .add (.r .ax) (.r .r13),
   .adc (.r .dx) (.r .r8), .adc (.i 0) (.r .r9)]

/-- sm2/p256_asm_amd64.s:1373-1403, p256_sm2OrdMul, "x * y[3]". -/
def ordMul_8 : List Instr :=
  [.mov (.m .cx 24) (.r .r14), .mov (.m .si 0) (.r .ax), .mul (.r .r14), .add (.r .ax) (.r .r11),
   .adc (.i 0) (.r .dx), .mov (.r .dx) (.r .r15), .mov (.m .si 8) (.r .ax), .mul (.r .r14),
   .add (.r .r15) (.r .r12), .adc (.i 0) (.r .dx), .add (.r .ax) (.r .r12), .adc (.i 0) (.r .dx),
   .mov (.r .dx) (.r .r15), .mov (.m .si 16) (.r .ax), .mul (.r .r14), .add (.r .r15) (.r .r13),
   .adc (.i 0) (.r .dx), .add (.r .ax) (.r .r13), .adc (.i 0) (.r .dx), .mov (.r .dx) (.r .r15),
   .mov (.m .si 24) (.r .ax), .mul (.r .r14), .add (.r .r15) (.r .r8), .adc (.i 0) (.r .dx),
   .add (.r .ax) (.r .r8), .adc (.r .dx) (.r .r9), .adc (.i 0) (.r .r10)]

/-- sm2/p256_asm_amd64.s:1405-1437, p256_sm2OrdMul, "Last reduction step". -/
def ordMul_9 : List Instr :=
  [.mov (.r .r11) (.r .ax), .mul (.g (.ordK0) 0), .mov (.r .ax) (.r .r14),
   .mov (.g (.ord) 0) (.r .ax), .mul (.r .r14), .add (.r .ax) (.r .r11), .adc (.i 0) (.r .dx),
   .mov (.r .dx) (.r .r15), .mov (.g (.ord) 8) (.r .ax), .mul (.r .r14),
   .add (.r .r15) (.r .r12), .adc (.i 0) (.r .dx), .add (.r .ax) (.r .r12), .adc (.i 0) (.r .dx),
   .mov (.r .dx) (.r .r15), .mov (.g (.ord) 16) (.r .ax), .mul (.r .r14),
   .add (.r .r15) (.r .r13), .adc (.i 0) (.r .dx), .add (.r .ax) (.r .r13), .adc (.i 0) (.r .dx),
   .mov (.r .dx) (.r .r15), .mov (.g (.ord) 24) (.r .ax), .mul (.r .r14),
   .add (.r .r15) (.r .r8), .adc (.i 0) (.r .dx), .add (.r .ax) (.r .r8), .adc (.r .dx) (.r .r9),
   .adc (.i 0) (.r .r10)]

/-- sm2/p256_asm_amd64.s:1439-1442, p256_sm2OrdMul, "Copy result [255:0]". -/
def ordMul_10 : List Instr :=
  [.mov (.r .r12) (.r .si), .mov (.r .r13) (.r .r11), .mov (.r .r8) (.r .r14),
   .mov (.r .r9) (.r .r15)]

/-- sm2/p256_asm_amd64.s:1444-1458, p256_sm2OrdMul, "Subtract p256_sm2". -/
def ordMul_11 : List Instr :=
  [.sub (.g (.ord) 0) (.r .r12), .sbb (.g (.ord) 8) (.r .r13), .sbb (.g (.ord) 16) (.r .r8),
   .sbb (.g (.ord) 24) (.r .r9), .sbb (.i 0) (.r .r10), .cmov .cs (.r .si) (.r .r12),
   .cmov .cs (.r .r11) (.r .r13), .cmov .cs (.r .r14) (.r .r8), .cmov .cs (.r .r15) (.r .r9),
   .mov (.r .r12) (.m .di 0), .mov (.r .r13) (.m .di 8), .mov (.r .r8) (.m .di 16),
   .mov (.r .r9) (.m .di 24)]

/-- sm2/p256_asm_amd64.s:1176-1460, p256_sm2OrdMul. -/
def ordMul : List Instr :=
  ordMul_1 ++ ordMul_2 ++ ordMul_3 ++ ordMul_4 ++ ordMul_5 ++ ordMul_6 ++ ordMul_7 ++ ordMul_8 ++ ordMul_9 ++ ordMul_10 ++ ordMul_11

/-- sm2/p256_asm_amd64.s:1730-1751, p256_sm2SubInternal. -/
def subInternal_1 : List Instr :=
  [.xor (.r .ax) (.r .ax), .sub (.r .r14) (.r .r10), .sbb (.r .r15) (.r .r11),
   .sbb (.r .di) (.r .r12), .sbb (.r .si) (.r .r13), .sbb (.i 0) (.r .ax),
   .mov (.r .r10) (.r .bx), .mov (.r .r11) (.r .cx), .mov (.r .r12) (.r .r8),
   .mov (.r .r13) (.r .r9), .add (.i 0xffffffffffffffff) (.r .r10),
   .adc (.g (.const0) 0) (.r .r11), .adc (.i 0xffffffffffffffff) (.r .r12),
   .adc (.g (.const1) 0) (.r .r13), .adc (.i 0) (.r .ax), .cmov .ne (.r .bx) (.r .r10),
   .cmov .ne (.r .cx) (.r .r11), .cmov .ne (.r .r8) (.r .r12), .cmov .ne (.r .r9) (.r .r13)]

/-- sm2/p256_asm_amd64.s:1729-1753, p256_sm2SubInternal. -/
def subInternal : List Instr :=
  subInternal_1

/-- sm2/p256_asm_amd64.s:1756-1777, p256_sm2MulInternal. -/
def mulInternal_1 : List Instr :=
  [.mov (.r .r10) (.r .ax), .mul (.r .r14), .mov (.r .ax) (.r .bx), .mov (.r .dx) (.r .cx),
   .mov (.r .r10) (.r .ax), .mul (.r .r15), .add (.r .ax) (.r .cx), .adc (.i 0) (.r .dx),
   .mov (.r .dx) (.r .r8), .mov (.r .r10) (.r .ax), .mul (.r .di), .add (.r .ax) (.r .r8),
   .adc (.i 0) (.r .dx), .mov (.r .dx) (.r .r9), .mov (.r .r10) (.r .ax), .mul (.r .si),
   .add (.r .ax) (.r .r9), .adc (.i 0) (.r .dx), .mov (.r .dx) (.r .r10)]

/-- sm2/p256_asm_amd64.s:1779-1807, p256_sm2MulInternal. -/
def mulInternal_2 : List Instr :=
  [.mov (.r .r11) (.r .ax), .mul (.r .r14), .add (.r .ax) (.r .cx), .adc (.i 0) (.r .dx),
   .mov (.r .dx) (.r .bp), .mov (.r .r11) (.r .ax), .mul (.r .r15), .add (.r .bp) (.r .r8),
   .adc (.i 0) (.r .dx), .add (.r .ax) (.r .r8), .adc (.i 0) (.r .dx), .mov (.r .dx) (.r .bp),
   .mov (.r .r11) (.r .ax), .mul (.r .di), .add (.r .bp) (.r .r9), .adc (.i 0) (.r .dx),
   .add (.r .ax) (.r .r9), .adc (.i 0) (.r .dx), .mov (.r .dx) (.r .bp), .mov (.r .r11) (.r .ax),
   .mul (.r .si), .add (.r .bp) (.r .r10), .adc (.i 0) (.r .dx), .add (.r .ax) (.r .r10),
   .adc (.i 0) (.r .dx), .mov (.r .dx) (.r .r11)]

/-- sm2/p256_asm_amd64.s:1809-1837, p256_sm2MulInternal. -/
def mulInternal_3 : List Instr :=
  [.mov (.r .r12) (.r .ax), .mul (.r .r14), .add (.r .ax) (.r .r8), .adc (.i 0) (.r .dx),
   .mov (.r .dx) (.r .bp), .mov (.r .r12) (.r .ax), .mul (.r .r15), .add (.r .bp) (.r .r9),
   .adc (.i 0) (.r .dx), .add (.r .ax) (.r .r9), .adc (.i 0) (.r .dx), .mov (.r .dx) (.r .bp),
   .mov (.r .r12) (.r .ax), .mul (.r .di), .add (.r .bp) (.r .r10), .adc (.i 0) (.r .dx),
   .add (.r .ax) (.r .r10), .adc (.i 0) (.r .dx), .mov (.r .dx) (.r .bp),
   .mov (.r .r12) (.r .ax), .mul (.r .si), .add (.r .bp) (.r .r11), .adc (.i 0) (.r .dx),
   .add (.r .ax) (.r .r11), .adc (.i 0) (.r .dx), .mov (.r .dx) (.r .r12)]

/-- sm2/p256_asm_amd64.s:1839-1867, p256_sm2MulInternal. -/
def mulInternal_4 : List Instr :=
  [.mov (.r .r13) (.r .ax), .mul (.r .r14), .add (.r .ax) (.r .r9), .adc (.i 0) (.r .dx),
   .mov (.r .dx) (.r .bp), .mov (.r .r13) (.r .ax), .mul (.r .r15), .add (.r .bp) (.r .r10),
   .adc (.i 0) (.r .dx), .add (.r .ax) (.r .r10), .adc (.i 0) (.r .dx), .mov (.r .dx) (.r .bp),
   .mov (.r .r13) (.r .ax), .mul (.r .di), .add (.r .bp) (.r .r11), .adc (.i 0) (.r .dx),
   .add (.r .ax) (.r .r11), .adc (.i 0) (.r .dx), .mov (.r .dx) (.r .bp),
   .mov (.r .r13) (.r .ax), .mul (.r .si), .add (.r .bp) (.r .r12), .adc (.i 0) (.r .dx),
   .add (.r .ax) (.r .r12), .adc (.i 0) (.r .dx), .mov (.r .dx) (.r .r13)]

/-- sm2/p256_asm_amd64.s:1869-1886, p256_sm2MulInternal, "First reduction step". -/
def mulInternal_5 : List Instr :=
  [.mov (.r .bx) (.r .ax), .mov (.r .bx) (.r .bp), .mul (.g (.const1) 0), .add (.r .bx) (.r .cx),
   .adc (.i 0) (.r .r8), .adc (.r .bx) (.r .r9), .adc (.i 0) (.r .dx), .add (.r .ax) (.r .r9),
   .adc (.i 0) (.r .dx), .mov (.r .bx) (.r .ax), .mov (.r .dx) (.r .bx), .shl 32 (.r .ax),
   .shr 32 (.r .bp), .sub (.r .ax) (.r .cx), .sbb (.r .bp) (.r .r8), .sbb (.i 0) (.r .r9),
   .sbb (.i 0) (.r .bx)]

/-- sm2/p256_asm_amd64.s:1888-1905, p256_sm2MulInternal, "Second reduction step". -/
def mulInternal_6 : List Instr :=
  [.mov (.r .cx) (.r .ax), .mov (.r .cx) (.r .bp), .mul (.g (.const1) 0), .add (.r .cx) (.r .r8),
   .adc (.i 0) (.r .r9), .adc (.r .cx) (.r .bx), .adc (.i 0) (.r .dx), .add (.r .ax) (.r .bx),
   .adc (.i 0) (.r .dx), .mov (.r .cx) (.r .ax), .mov (.r .dx) (.r .cx), .shl 32 (.r .ax),
   .shr 32 (.r .bp), .sub (.r .ax) (.r .r8), .sbb (.r .bp) (.r .r9), .sbb (.i 0) (.r .bx),
   .sbb (.i 0) (.r .cx)]

/-- sm2/p256_asm_amd64.s:1907-1924, p256_sm2MulInternal, "Third reduction step". -/
def mulInternal_7 : List Instr :=
  [.mov (.r .r8) (.r .ax), .mov (.r .r8) (.r .bp), .mul (.g (.const1) 0), .add (.r .r8) (.r .r9),
   .adc (.i 0) (.r .bx), .adc (.r .r8) (.r .cx), .adc (.i 0) (.r .dx), .add (.r .ax) (.r .cx),
   .adc (.i 0) (.r .dx), .mov (.r .r8) (.r .ax), .mov (.r .dx) (.r .r8), .shl 32 (.r .ax),
   .shr 32 (.r .bp), .sub (.r .ax) (.r .r9), .sbb (.r .bp) (.r .bx), .sbb (.i 0) (.r .cx),
   .sbb (.i 0) (.r .r8)]

/-- sm2/p256_asm_amd64.s:1926-1944, p256_sm2MulInternal, "Last reduction step". -/
def mulInternal_8 : List Instr :=
  [.mov (.r .r9) (.r .ax), .mov (.r .r9) (.r .bp), .mul (.g (.const1) 0), .add (.r .r9) (.r .bx),
   .adc (.i 0) (.r .cx), .adc (.r .r9) (.r .r8), .adc (.i 0) (.r .dx), .add (.r .ax) (.r .r8),
   .adc (.i 0) (.r .dx), .mov (.r .r9) (.r .ax), .mov (.r .dx) (.r .r9), .shl 32 (.r .ax),
   .shr 32 (.r .bp), .sub (.r .ax) (.r .bx), .sbb (.r .bp) (.r .cx), .sbb (.i 0) (.r .r8),
   .sbb (.i 0) (.r .r9), .mov (.i 0) (.r .bp)]

/-- sm2/p256_asm_amd64.s:1946-1950, p256_sm2MulInternal, "Add bits [511:256] of the result". -/
def mulInternal_9 : List Instr :=
  [.adc (.r .bx) (.r .r10), .adc (.r .cx) (.r .r11), .adc (.r .r8) (.r .r12),
   .adc (.r .r9) (.r .r13), .adc (.i 0) (.r .bp)]

/-- sm2/p256_asm_amd64.s:1952-1955, p256_sm2MulInternal, "Copy result". -/
def mulInternal_10 : List Instr :=
  [.mov (.r .r10) (.r .bx), .mov (.r .r11) (.r .cx), .mov (.r .r12) (.r .r8),
   .mov (.r .r13) (.r .r9)]

/-- sm2/p256_asm_amd64.s:1957-1962, p256_sm2MulInternal, "Subtract p256_sm2". -/
def mulInternal_11 : List Instr :=
  [.sub (.i 0xffffffffffffffff) (.r .r10), .sbb (.g (.const0) 0) (.r .r11),
   .sbb (.i 0xffffffffffffffff) (.r .r12), .sbb (.g (.const1) 0) (.r .r13), .sbb (.i 0) (.r .bp)]

/-- sm2/p256_asm_amd64.s:1964-1967, p256_sm2MulInternal, "If the result of the subtraction is negative, restore the previous result". -/
def mulInternal_12 : List Instr :=
  [.cmov .cs (.r .bx) (.r .r10), .cmov .cs (.r .cx) (.r .r11), .cmov .cs (.r .r8) (.r .r12),
   .cmov .cs (.r .r9) (.r .r13)]

/-- sm2/p256_asm_amd64.s:1755-1969, p256_sm2MulInternal. -/
def mulInternal : List Instr :=
  mulInternal_1 ++ mulInternal_2 ++ mulInternal_3 ++ mulInternal_4 ++ mulInternal_5 ++ mulInternal_6 ++ mulInternal_7 ++ mulInternal_8 ++ mulInternal_9 ++ mulInternal_10 ++ mulInternal_11 ++ mulInternal_12

/-- sm2/p256_asm_amd64.s:1974-2010, p256_sm2SqrInternal. -/
def sqrInternal_1 : List Instr :=
  [.mov (.r .r10) (.r .ax), .mul (.r .r11), .mov (.r .ax) (.r .cx), .mov (.r .dx) (.r .r8),
   .mov (.r .r10) (.r .ax), .mul (.r .r12), .add (.r .ax) (.r .r8), .adc (.i 0) (.r .dx),
   .mov (.r .dx) (.r .r9), .mov (.r .r10) (.r .ax), .mul (.r .r13), .add (.r .ax) (.r .r9),
   .adc (.i 0) (.r .dx), .mov (.r .dx) (.r .r14), .mov (.r .r11) (.r .ax), .mul (.r .r12),
   .add (.r .ax) (.r .r9), .adc (.i 0) (.r .dx), .mov (.r .dx) (.r .bp), .mov (.r .r11) (.r .ax),
   .mul (.r .r13), .add (.r .bp) (.r .r14), .adc (.i 0) (.r .dx), .add (.r .ax) (.r .r14),
   .adc (.i 0) (.r .dx), .mov (.r .dx) (.r .r15), .mov (.r .r12) (.r .ax), .mul (.r .r13),
   .add (.r .ax) (.r .r15), .adc (.i 0) (.r .dx), .mov (.r .dx) (.r .di), .xor (.r .si) (.r .si)]

/-- sm2/p256_asm_amd64.s:2012-2018, p256_sm2SqrInternal, "*2". -/
def sqrInternal_2 : List Instr :=
  [.add (.r .cx) (.r .cx), .adc (.r .r8) (.r .r8), .adc (.r .r9) (.r .r9),
   .adc (.r .r14) (.r .r14), .adc (.r .r15) (.r .r15), .adc (.r .di) (.r .di),
   .adc (.i 0) (.r .si)]

/-- sm2/p256_asm_amd64.s:2020-2043, p256_sm2SqrInternal, "Missing products". -/
def sqrInternal_3 : List Instr :=
  [.mov (.r .r10) (.r .ax), .mul (.r .ax), .mov (.r .ax) (.r .bx), .mov (.r .dx) (.r .r10),
   .mov (.r .r11) (.r .ax), .mul (.r .ax), .add (.r .r10) (.r .cx), .adc (.r .ax) (.r .r8),
   .adc (.i 0) (.r .dx), .mov (.r .dx) (.r .r10), .mov (.r .r12) (.r .ax), .mul (.r .ax),
   .add (.r .r10) (.r .r9), .adc (.r .ax) (.r .r14), .adc (.i 0) (.r .dx),
   .mov (.r .dx) (.r .r10), .mov (.r .r13) (.r .ax), .mul (.r .ax), .add (.r .r10) (.r .r15),
   .adc (.r .ax) (.r .di), .adc (.r .dx) (.r .si)]

/-- sm2/p256_asm_amd64.s:2045-2062, p256_sm2SqrInternal, "First reduction step". -/
def sqrInternal_4 : List Instr :=
  [.mov (.r .bx) (.r .ax), .mov (.r .bx) (.r .bp), .mul (.g (.const1) 0), .add (.r .bx) (.r .cx),
   .adc (.i 0) (.r .r8), .adc (.r .bx) (.r .r9), .adc (.i 0) (.r .dx), .add (.r .ax) (.r .r9),
   .adc (.i 0) (.r .dx), .mov (.r .bx) (.r .ax), .mov (.r .dx) (.r .bx), .shl 32 (.r .ax),
   .shr 32 (.r .bp), .sub (.r .ax) (.r .cx), .sbb (.r .bp) (.r .r8), .sbb (.i 0) (.r .r9),
   .sbb (.i 0) (.r .bx)]

/-- sm2/p256_asm_amd64.s:2064-2081, p256_sm2SqrInternal, "Second reduction step". -/
def sqrInternal_5 : List Instr :=
  [.mov (.r .cx) (.r .ax), .mov (.r .cx) (.r .bp), .mul (.g (.const1) 0), .add (.r .cx) (.r .r8),
   .adc (.i 0) (.r .r9), .adc (.r .cx) (.r .bx), .adc (.i 0) (.r .dx), .add (.r .ax) (.r .bx),
   .adc (.i 0) (.r .dx), .mov (.r .cx) (.r .ax), .mov (.r .dx) (.r .cx), .shl 32 (.r .ax),
   .shr 32 (.r .bp), .sub (.r .ax) (.r .r8), .sbb (.r .bp) (.r .r9), .sbb (.i 0) (.r .bx),
   .sbb (.i 0) (.r .cx)]

/-- sm2/p256_asm_amd64.s:2083-2100, p256_sm2SqrInternal, "Third reduction step". -/
def sqrInternal_6 : List Instr :=
  [.mov (.r .r8) (.r .ax), .mov (.r .r8) (.r .bp), .mul (.g (.const1) 0), .add (.r .r8) (.r .r9),
   .adc (.i 0) (.r .bx), .adc (.r .r8) (.r .cx), .adc (.i 0) (.r .dx), .add (.r .ax) (.r .cx),
   .adc (.i 0) (.r .dx), .mov (.r .r8) (.r .ax), .mov (.r .dx) (.r .r8), .shl 32 (.r .ax),
   .shr 32 (.r .bp), .sub (.r .ax) (.r .r9), .sbb (.r .bp) (.r .bx), .sbb (.i 0) (.r .cx),
   .sbb (.i 0) (.r .r8)]

/-- sm2/p256_asm_amd64.s:2102-2120, p256_sm2SqrInternal, "Last reduction step". -/
def sqrInternal_7 : List Instr :=
  [.mov (.r .r9) (.r .ax), .mov (.r .r9) (.r .bp), .mul (.g (.const1) 0), .add (.r .r9) (.r .bx),
   .adc (.i 0) (.r .cx), .adc (.r .r9) (.r .r8), .adc (.i 0) (.r .dx), .add (.r .ax) (.r .r8),
   .adc (.i 0) (.r .dx), .mov (.r .r9) (.r .ax), .mov (.r .dx) (.r .r9), .shl 32 (.r .ax),
   .shr 32 (.r .bp), .sub (.r .ax) (.r .bx), .sbb (.r .bp) (.r .cx), .sbb (.i 0) (.r .r8),
   .sbb (.i 0) (.r .r9), .mov (.i 0) (.r .bp)]

/-- sm2/p256_asm_amd64.s:2122-2126, p256_sm2SqrInternal, "Add bits [511:256] of the result". -/
def sqrInternal_8 : List Instr :=
  [.adc (.r .bx) (.r .r14), .adc (.r .cx) (.r .r15), .adc (.r .r8) (.r .di),
   .adc (.r .r9) (.r .si), .adc (.i 0) (.r .bp)]

/-- sm2/p256_asm_amd64.s:2128-2131, p256_sm2SqrInternal, "Copy result". -/
def sqrInternal_9 : List Instr :=
  [.mov (.r .r14) (.r .r10), .mov (.r .r15) (.r .r11), .mov (.r .di) (.r .r12),
   .mov (.r .si) (.r .r13)]

/-- sm2/p256_asm_amd64.s:2133-2138, p256_sm2SqrInternal, "Subtract p256_sm2". -/
def sqrInternal_10 : List Instr :=
  [.sub (.i 0xffffffffffffffff) (.r .r10), .sbb (.g (.const0) 0) (.r .r11),
   .sbb (.i 0xffffffffffffffff) (.r .r12), .sbb (.g (.const1) 0) (.r .r13), .sbb (.i 0) (.r .bp)]

/-- sm2/p256_asm_amd64.s:2140-2143, p256_sm2SqrInternal, "If the result of the subtraction is negative, restore the previous result". -/
def sqrInternal_11 : List Instr :=
  [.cmov .cs (.r .r14) (.r .r10), .cmov .cs (.r .r15) (.r .r11), .cmov .cs (.r .di) (.r .r12),
   .cmov .cs (.r .si) (.r .r13)]

/-- sm2/p256_asm_amd64.s:1972-2145, p256_sm2SqrInternal. -/
def sqrInternal : List Instr :=
  sqrInternal_1 ++ sqrInternal_2 ++ sqrInternal_3 ++ sqrInternal_4 ++ sqrInternal_5 ++ sqrInternal_6 ++ sqrInternal_7 ++ sqrInternal_8 ++ sqrInternal_9 ++ sqrInternal_10 ++ sqrInternal_11

/-- sm2/p256_asm_amd64.s:2147, macro p256_sm2MulBy2Inline. -/
def mulBy2Inline : List Instr :=
  [.xor (.r .ax) (.r .ax), .add (.r .r10) (.r .r10), .adc (.r .r11) (.r .r11),
   .adc (.r .r12) (.r .r12), .adc (.r .r13) (.r .r13), .adc (.i 0) (.r .ax),
   .mov (.r .r10) (.r .r14), .mov (.r .r11) (.r .r15), .mov (.r .r12) (.r .di),
   .mov (.r .r13) (.r .si), .sub (.i 0xffffffffffffffff) (.r .r14),
   .sbb (.g (.const0) 0) (.r .r15), .sbb (.i 0xffffffffffffffff) (.r .di),
   .sbb (.g (.const1) 0) (.r .si), .sbb (.i 0) (.r .ax), .cmov .cs (.r .r10) (.r .r14),
   .cmov .cs (.r .r11) (.r .r15), .cmov .cs (.r .r12) (.r .di), .cmov .cs (.r .r13) (.r .si)]

/-- sm2/p256_asm_amd64.s:2168, macro p256_sm2AddInline. -/
def addInline : List Instr :=
  [.xor (.r .ax) (.r .ax), .add (.r .r14) (.r .r10), .adc (.r .r15) (.r .r11),
   .adc (.r .di) (.r .r12), .adc (.r .si) (.r .r13), .adc (.i 0) (.r .ax),
   .mov (.r .r10) (.r .r14), .mov (.r .r11) (.r .r15), .mov (.r .r12) (.r .di),
   .mov (.r .r13) (.r .si), .sub (.i 0xffffffffffffffff) (.r .r14),
   .sbb (.g (.const0) 0) (.r .r15), .sbb (.i 0xffffffffffffffff) (.r .di),
   .sbb (.g (.const1) 0) (.r .si), .sbb (.i 0) (.r .ax), .cmov .cs (.r .r10) (.r .r14),
   .cmov .cs (.r .r11) (.r .r15), .cmov .cs (.r .r12) (.r .di), .cmov .cs (.r .r13) (.r .si)]

/-- sm2/p256_asm_amd64.s:2193, macro acc2t. -/
def acc2t : List Instr :=
  [.mov (.r .r10) (.r .r14), .mov (.r .r11) (.r .r15), .mov (.r .r12) (.r .di),
   .mov (.r .r13) (.r .si)]

/-- sm2/p256_asm_amd64.s:2194, macro t2acc. -/
def t2acc : List Instr :=
  [.mov (.r .r14) (.r .r10), .mov (.r .r15) (.r .r11), .mov (.r .di) (.r .r12),
   .mov (.r .si) (.r .r13)]

/-- sm2/p256_asm_amd64.s:2189, macro LDacc, for the frame cells at 32*k. -/
def ldacc (k : Nat) : List Instr :=
  [.mov (.s (32 * k + 0)) (.r .r10), .mov (.s (32 * k + 8)) (.r .r11),
   .mov (.s (32 * k + 16)) (.r .r12), .mov (.s (32 * k + 24)) (.r .r13)]

/-- sm2/p256_asm_amd64.s:2190, macro LDt, for the frame cells at 32*k. -/
def ldt (k : Nat) : List Instr :=
  [.mov (.s (32 * k + 0)) (.r .r14), .mov (.s (32 * k + 8)) (.r .r15),
   .mov (.s (32 * k + 16)) (.r .di), .mov (.s (32 * k + 24)) (.r .si)]

/-- sm2/p256_asm_amd64.s:2191, macro ST, for the frame cells at 32*k. -/
def st (k : Nat) : List Instr :=
  [.mov (.r .r10) (.s (32 * k + 0)), .mov (.r .r11) (.s (32 * k + 8)),
   .mov (.r .r12) (.s (32 * k + 16)), .mov (.r .r13) (.s (32 * k + 24))]

/-- sm2/p256_asm_amd64.s:2192, macro STt, for the frame cells at 32*k. -/
def stt (k : Nat) : List Instr :=
  [.mov (.r .r14) (.s (32 * k + 0)), .mov (.r .r15) (.s (32 * k + 8)),
   .mov (.r .di) (.s (32 * k + 16)), .mov (.r .si) (.s (32 * k + 24))]

/-- sm2/p256_asm_amd64.s:1729-2194: the pieces of the point routines that work on whole 256-bit numbers: the
macros of the file and the calls of its internal routines. `k` is the frame cell at 32*k(SP). -/
inductive V where
  | ldacc (k : Nat) | ldt (k : Nat) | st (k : Nat) | stt (k : Nat)
  | acc2t | t2acc | mul2 | add | mul | sqr | sub
  deriving DecidableEq, Repr

/-- sm2/p256_asm_amd64.s:1729-2194: their instructions. -/
def V.code : V → List Instr
  | .ldacc k => P256.ldacc k | .ldt k => P256.ldt k | .st k => P256.st k | .stt k => P256.stt k
  | .acc2t => P256.acc2t | .t2acc => P256.t2acc | .mul2 => mulBy2Inline | .add => addInline
  | .mul => mulInternal | .sqr => sqrInternal | .sub => subInternal

/-- sm2/p256_asm_amd64.s:2218-2243, p256_sm2PointAddAffineAsm, "Move input to stack in order to free registers". -/
def pointAddAffineAsm_1 : List Instr :=
  [.mov (.a 0) (.r .ax), .mov (.a 24) (.r .bx), .mov (.a 48) (.r .cx), .mov (.a 72) (.r .dx),
   .mov (.a 80) (.r .r15), .mov (.a 88) (.r .di), .ldx (.m .bx 0) 0, .ldx (.m .bx 16) 1,
   .ldx (.m .bx 32) 2, .ldx (.m .bx 48) 3, .ldx (.m .bx 64) 4, .ldx (.m .bx 80) 5, .stx 0 (.s 0),
   .stx 1 (.s 16), .stx 2 (.s 32), .stx 3 (.s 48), .stx 4 (.s 64), .stx 5 (.s 80),
   .ldx (.m .cx 0) 0, .ldx (.m .cx 16) 1, .stx 0 (.s 96), .stx 1 (.s 112)]

/-- sm2/p256_asm_amd64.s:2245-2247, p256_sm2PointAddAffineAsm, "Store pointer to result". -/
def pointAddAffineAsm_2 : List Instr :=
  [.mov (.r .ax) (.s 480), .movl (.r .r15) (.s 488), .movl (.r .di) (.s 492)]

/-- sm2/p256_asm_amd64.s:2249-2258, p256_sm2PointAddAffineAsm, "Negate y2in based on sign". -/
def pointAddAffineAsm_3 : List Instr :=
  [.mov (.m .cx 32) (.r .r10), .mov (.m .cx 40) (.r .r11), .mov (.m .cx 48) (.r .r12),
   .mov (.m .cx 56) (.r .r13), .mov (.i 0xffffffffffffffff) (.r .bx),
   .mov (.g (.const0) 0) (.r .cx), .mov (.i 0xffffffffffffffff) (.r .r8),
   .mov (.g (.const1) 0) (.r .r9), .xor (.r .ax) (.r .ax)]

/-- sm2/p256_asm_amd64.s:2260-2268, p256_sm2PointAddAffineAsm, "Speculatively subtract". -/
def pointAddAffineAsm_4 : List Instr :=
  [.sub (.r .r10) (.r .bx), .sbb (.r .r11) (.r .cx), .sbb (.r .r12) (.r .r8),
   .sbb (.r .r13) (.r .r9), .sbb (.i 0) (.r .ax), .mov (.r .bx) (.r .r14),
   .mov (.r .cx) (.r .r15), .mov (.r .r8) (.r .di), .mov (.r .r9) (.r .si)]

/-- sm2/p256_asm_amd64.s:2270-2279, p256_sm2PointAddAffineAsm, "Add in case the operand was > p256_sm2". -/
def pointAddAffineAsm_5 : List Instr :=
  [.add (.i 0xffffffffffffffff) (.r .bx), .adc (.g (.const0) 0) (.r .cx),
   .adc (.i 0xffffffffffffffff) (.r .r8), .adc (.g (.const1) 0) (.r .r9), .adc (.i 0) (.r .ax),
   .cmov .ne (.r .r14) (.r .bx), .cmov .ne (.r .r15) (.r .cx), .cmov .ne (.r .di) (.r .r8),
   .cmov .ne (.r .si) (.r .r9)]

/-- sm2/p256_asm_amd64.s:2281-2285, p256_sm2PointAddAffineAsm, "If condition is 0, keep original value". -/
def pointAddAffineAsm_6 : List Instr :=
  [.test (.r .dx) (.r .dx), .cmov .eq (.r .r10) (.r .bx), .cmov .eq (.r .r11) (.r .cx),
   .cmov .eq (.r .r12) (.r .r8), .cmov .eq (.r .r13) (.r .r9)]

/-- sm2/p256_asm_amd64.s:2287-2290, p256_sm2PointAddAffineAsm, "Store result". -/
def pointAddAffineAsm_7 : List Instr :=
  [.mov (.r .bx) (.s 128), .mov (.r .cx) (.s 136), .mov (.r .r8) (.s 144), .mov (.r .r9) (.s 152)]

/-- sm2/p256_asm_amd64.s:2292-2358, p256_sm2PointAddAffineAsm, "Begin point add". -/
def pointAddAffineAsm_8 : List V :=
  [.ldacc 2, .sqr, .st 9, .ldt 3, .mul, .ldt 0, .sub, .st 10, .ldt 2, .mul, .st 7, .ldacc 9,
   .mul, .ldt 4, .mul, .st 8, .ldt 1, .sub, .st 11, .sqr, .st 13, .ldacc 10, .sqr, .st 12,
   .ldt 10, .mul, .st 14, .ldt 1, .mul, .st 8, .ldacc 0, .ldt 12, .mul, .st 10, .mul2, .ldacc 13,
   .sub, .ldt 14, .sub, .st 5, .acc2t, .ldacc 10, .sub, .ldt 11, .mul, .ldt 8, .sub, .st 6]

/-- sm2/p256_asm_amd64.s:2360-2362, p256_sm2PointAddAffineAsm, "Load stored values from stack". -/
def pointAddAffineAsm_9 : List Instr :=
  [.mov (.s 480) (.r .ax), .movl (.s 488) (.r .bx), .movl (.s 492) (.r .cx)]

/-- sm2/p256_asm_amd64.s:2364-2412, p256_sm2PointAddAffineAsm, "The result is not valid if (sel == 0), conditional choose". -/
def pointAddAffineAsm_10 : List Instr :=
  [.ldx (.s 160) 0, .ldx (.s 176) 1, .ldx (.s 192) 2, .ldx (.s 208) 3, .ldx (.s 224) 4,
   .ldx (.s 240) 5, .movlx (.r .bx) 6, .movlx (.r .cx) 7, .pxor 8 8, .pcmpeql 9 9, .pshufd0 6 6,
   .pshufd0 7 7, .pcmpeql 8 6, .pcmpeql 8 7, .movxx 6 15, .pandn 9 15, .ldx (.s 0) 9,
   .ldx (.s 16) 10, .ldx (.s 32) 11, .ldx (.s 48) 12, .ldx (.s 64) 13, .ldx (.s 80) 14,
   .pand 15 0, .pand 15 1, .pand 15 2, .pand 15 3, .pand 15 4, .pand 15 5, .pand 6 9, .pand 6 10,
   .pand 6 11, .pand 6 12, .pand 6 13, .pand 6 14, .pxor 9 0, .pxor 10 1, .pxor 11 2, .pxor 12 3,
   .pxor 13 4, .pxor 14 5]

/-- sm2/p256_asm_amd64.s:2414-2444, p256_sm2PointAddAffineAsm, "Similarly if zero == 0". -/
def pointAddAffineAsm_11 : List Instr :=
  [.pcmpeql 9 9, .movxx 7 15, .pandn 9 15, .ldx (.s 96) 9, .ldx (.s 112) 10, .ldx (.s 128) 11,
   .ldx (.s 144) 12, .ldx (.g (.one) 0) 13, .ldx (.g (.one) 16) 14, .pand 15 0, .pand 15 1,
   .pand 15 2, .pand 15 3, .pand 15 4, .pand 15 5, .pand 7 9, .pand 7 10, .pand 7 11, .pand 7 12,
   .pand 7 13, .pand 7 14, .pxor 9 0, .pxor 10 1, .pxor 11 2, .pxor 12 3, .pxor 13 4, .pxor 14 5]

/-- sm2/p256_asm_amd64.s:2446-2452, p256_sm2PointAddAffineAsm, "Finally output the result". -/
def pointAddAffineAsm_12 : List Instr :=
  [.stx 0 (.m .ax 0), .stx 1 (.m .ax 16), .stx 2 (.m .ax 32), .stx 3 (.m .ax 48),
   .stx 4 (.m .ax 64), .stx 5 (.m .ax 80), .mov (.i 0) (.s 480)]

/-- sm2/p256_asm_amd64.s:2216-2454, p256_sm2PointAddAffineAsm. -/
def pointAddAffineAsm : List Instr :=
  pointAddAffineAsm_1 ++
  pointAddAffineAsm_2 ++
  pointAddAffineAsm_3 ++
  pointAddAffineAsm_4 ++
  pointAddAffineAsm_5 ++
  pointAddAffineAsm_6 ++
  pointAddAffineAsm_7 ++
  pointAddAffineAsm_8.flatMap V.code ++
  pointAddAffineAsm_9 ++
  pointAddAffineAsm_10 ++
  pointAddAffineAsm_11 ++
  pointAddAffineAsm_12

/-- sm2/p256_asm_amd64.s:2501-2531, p256_sm2PointAddAsm, "Move input to stack in order to free registers". -/
def pointAddAsm_1 : List Instr :=
  [.mov (.a 0) (.r .ax), .mov (.a 24) (.r .bx), .mov (.a 48) (.r .cx), .ldx (.m .bx 0) 0,
   .ldx (.m .bx 16) 1, .ldx (.m .bx 32) 2, .ldx (.m .bx 48) 3, .ldx (.m .bx 64) 4,
   .ldx (.m .bx 80) 5, .stx 0 (.s 0), .stx 1 (.s 16), .stx 2 (.s 32), .stx 3 (.s 48),
   .stx 4 (.s 64), .stx 5 (.s 80), .ldx (.m .cx 0) 0, .ldx (.m .cx 16) 1, .ldx (.m .cx 32) 2,
   .ldx (.m .cx 48) 3, .ldx (.m .cx 64) 4, .ldx (.m .cx 80) 5, .stx 0 (.s 96), .stx 1 (.s 112),
   .stx 2 (.s 128), .stx 3 (.s 144), .stx 4 (.s 160), .stx 5 (.s 176)]

/-- sm2/p256_asm_amd64.s:2533-2533, p256_sm2PointAddAsm, "Store pointer to result". -/
def pointAddAsm_2 : List Instr :=
  [.mov (.r .ax) (.s 640)]

/-- sm2/p256_asm_amd64.s:2535-2618, p256_sm2PointAddAsm, "Begin point add". -/
def pointAddAsm_3 : List V :=
  [.ldacc 5, .sqr, .st 14, .ldt 5, .mul, .ldt 1, .mul, .st 11, .ldacc 2, .sqr, .st 13, .ldt 2,
   .mul, .ldt 4, .mul, .st 12, .ldt 11, .sub, .st 16, .ldacc 14, .ldt 0, .mul, .st 9, .ldacc 13,
   .ldt 3, .mul, .st 10, .ldt 9, .sub, .st 15, .ldacc 16, .sqr, .st 18, .ldacc 15, .sqr, .st 17,
   .ldt 15, .mul, .st 19, .ldt 11, .mul, .st 12, .ldacc 2, .ldt 5, .mul, .ldt 15, .mul, .st 8,
   .ldacc 17, .ldt 9, .mul, .st 10, .mul2, .ldacc 18, .sub, .ldt 19, .sub, .st 6, .acc2t,
   .ldacc 10, .sub, .ldt 16, .mul, .ldt 12, .sub, .st 7]

/-- sm2/p256_asm_amd64.s:2620-2625, p256_sm2PointAddAsm. -/
def pointAddAsm_4 : List Instr :=
  [.ldx (.s 192) 0, .ldx (.s 208) 1, .ldx (.s 224) 2, .ldx (.s 240) 3, .ldx (.s 256) 4,
   .ldx (.s 272) 5]

/-- sm2/p256_asm_amd64.s:2627-2634, p256_sm2PointAddAsm, "Finally output the result". -/
def pointAddAsm_5 : List Instr :=
  [.mov (.s 640) (.r .ax), .mov (.i 0) (.s 640), .stx 0 (.m .ax 0), .stx 1 (.m .ax 16),
   .stx 2 (.m .ax 32), .stx 3 (.m .ax 48), .stx 4 (.m .ax 64), .stx 5 (.m .ax 80)]

/-- sm2/p256_asm_amd64.s:2499-2636, p256_sm2PointAddAsm. -/
def pointAddAsm : List Instr :=
  pointAddAsm_1 ++
  pointAddAsm_2 ++
  pointAddAsm_3.flatMap V.code ++
  pointAddAsm_4 ++
  pointAddAsm_5

/-- sm2/p256_asm_amd64.s:2672-2687, p256_sm2PointDoubleAsm, "Move input to stack in order to free registers". -/
def pointDoubleAsm_1 : List Instr :=
  [.mov (.a 0) (.r .ax), .mov (.a 24) (.r .bx), .ldx (.m .bx 0) 0, .ldx (.m .bx 16) 1,
   .ldx (.m .bx 32) 2, .ldx (.m .bx 48) 3, .ldx (.m .bx 64) 4, .ldx (.m .bx 80) 5, .stx 0 (.s 0),
   .stx 1 (.s 16), .stx 2 (.s 32), .stx 3 (.s 48), .stx 4 (.s 64), .stx 5 (.s 80)]

/-- sm2/p256_asm_amd64.s:2689-2689, p256_sm2PointDoubleAsm, "Store pointer to result". -/
def pointDoubleAsm_2 : List Instr :=
  [.mov (.r .ax) (.s 224)]

/-- sm2/p256_asm_amd64.s:2691-2702, p256_sm2PointDoubleAsm, "Begin point double". -/
def pointDoubleAsm_3 : List V :=
  [.ldacc 2, .sqr, .st 5, .ldt 0, .add, .stt 4, .ldacc 2, .ldt 1, .mul, .mul2]

/-- sm2/p256_asm_amd64.s:2703-2703, p256_sm2PointDoubleAsm. -/
def pointDoubleAsm_4 : List Instr :=
  [.mov (.s 224) (.r .ax)]

/-- sm2/p256_asm_amd64.s:2705-2708, p256_sm2PointDoubleAsm, "Store z". -/
def pointDoubleAsm_5 : List Instr :=
  [.mov (.r .r14) (.m .ax 64), .mov (.r .r15) (.m .ax 72), .mov (.r .di) (.m .ax 80),
   .mov (.r .si) (.m .ax 88)]

/-- sm2/p256_asm_amd64.s:2710-2727, p256_sm2PointDoubleAsm. -/
def pointDoubleAsm_6 : List V :=
  [.ldacc 0, .ldt 5, .sub, .ldt 4, .mul, .st 4, .mul2, .ldacc 4, .add, .stt 4, .ldacc 1, .mul2,
   .t2acc, .sqr, .st 3, .sqr]

/-- sm2/p256_asm_amd64.s:2729-2729, p256_sm2PointDoubleAsm, "Divide by 2". -/
def pointDoubleAsm_7 : List Instr :=
  [.xor (.r .ax) (.r .ax)]

/-- sm2/p256_asm_amd64.s:2730-2733, p256_sm2PointDoubleAsm. -/
def pointDoubleAsm_8 : List V :=
  [.acc2t]

/-- sm2/p256_asm_amd64.s:2735-2752, p256_sm2PointDoubleAsm. -/
def pointDoubleAsm_9 : List Instr :=
  [.add (.i 0xffffffffffffffff) (.r .r10), .adc (.g (.const0) 0) (.r .r11),
   .adc (.i 0xffffffffffffffff) (.r .r12), .adc (.g (.const1) 0) (.r .r13), .adc (.i 0) (.r .ax),
   .test (.i 1) (.r .r14), .cmov .eq (.r .r14) (.r .r10), .cmov .eq (.r .r15) (.r .r11),
   .cmov .eq (.r .di) (.r .r12), .cmov .eq (.r .si) (.r .r13), .and (.r .r14) (.r .ax),
   .shrd 1 (.r .r11) (.r .r10), .shrd 1 (.r .r12) (.r .r11), .shrd 1 (.r .r13) (.r .r12),
   .shrd 1 (.r .ax) (.r .r13)]

/-- sm2/p256_asm_amd64.s:2753-2765, p256_sm2PointDoubleAsm. -/
def pointDoubleAsm_10 : List V :=
  [.st 1, .ldacc 0, .ldt 3, .mul, .st 3, .mul2, .stt 6, .ldacc 4, .sqr, .ldt 6, .sub]

/-- sm2/p256_asm_amd64.s:2767-2767, p256_sm2PointDoubleAsm. -/
def pointDoubleAsm_11 : List Instr :=
  [.mov (.s 224) (.r .ax)]

/-- sm2/p256_asm_amd64.s:2769-2772, p256_sm2PointDoubleAsm, "Store x". -/
def pointDoubleAsm_12 : List Instr :=
  [.mov (.r .r10) (.m .ax 0), .mov (.r .r11) (.m .ax 8), .mov (.r .r12) (.m .ax 16),
   .mov (.r .r13) (.m .ax 24)]

/-- sm2/p256_asm_amd64.s:2774-2782, p256_sm2PointDoubleAsm. -/
def pointDoubleAsm_13 : List V :=
  [.acc2t, .ldacc 3, .sub, .ldt 4, .mul, .ldt 1, .sub]

/-- sm2/p256_asm_amd64.s:2783-2783, p256_sm2PointDoubleAsm. -/
def pointDoubleAsm_14 : List Instr :=
  [.mov (.s 224) (.r .ax)]

/-- sm2/p256_asm_amd64.s:2785-2790, p256_sm2PointDoubleAsm, "Store y". -/
def pointDoubleAsm_15 : List Instr :=
  [.mov (.r .r10) (.m .ax 32), .mov (.r .r11) (.m .ax 40), .mov (.r .r12) (.m .ax 48),
   .mov (.r .r13) (.m .ax 56), .mov (.i 0) (.s 224)]

/-- sm2/p256_asm_amd64.s:2670-2792, p256_sm2PointDoubleAsm. -/
def pointDoubleAsm : List Instr :=
  pointDoubleAsm_1 ++
  pointDoubleAsm_2 ++
  pointDoubleAsm_3.flatMap V.code ++
  pointDoubleAsm_4 ++
  pointDoubleAsm_5 ++
  pointDoubleAsm_6.flatMap V.code ++
  pointDoubleAsm_7 ++
  pointDoubleAsm_8.flatMap V.code ++
  pointDoubleAsm_9 ++
  pointDoubleAsm_10.flatMap V.code ++
  pointDoubleAsm_11 ++
  pointDoubleAsm_12 ++
  pointDoubleAsm_13.flatMap V.code ++
  pointDoubleAsm_14 ++
  pointDoubleAsm_15

end Verif.X64.P256
