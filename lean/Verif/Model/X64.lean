/-
The amd64 instructions used by sm2/p256_asm_amd64.s.

Registers are 64-bit words.  The flags are the carry flag and the zero flag, the only two the
routines read.  Memory is a map from addresses to 64-bit words.

Simplifications, for every definition of this file:
* memory is read and written at 8-byte aligned addresses only, so two accesses touch the same
  word or disjoint words (the routines are given []uint64 slices);
* the stack frame of a routine (operands off(SP)) and its arguments (operands name+off(FP)) are
  separate from that memory, one cell per offset: the frame cells at 32*15+8 and 32*15+12 are the
  only ones accessed as 32-bit values, all others are accessed as 64-bit values;
* the overflow, sign, parity and auxiliary flags are not modelled;
* where the processor leaves the zero flag undefined (MUL) it is kept; no routine reads it there;
* a shift is by a constant between 1 and 63;
* CALL of a routine of the file and RET are inlining of that routine's instructions.
-/
import Verif.Base.Bytes

namespace Verif.X64

/-- sm2/p256_asm_amd64.s:93-2794 (the language of this file): a 64-bit register or memory word. -/
abbrev W := BitVec 64

/-- The general purpose registers used by p256_asm_amd64.s. -/
inductive Reg where
  | ax | bx | cx | dx | si | di | bp | r8 | r9 | r10 | r11 | r12 | r13 | r14 | r15
  deriving DecidableEq, Repr

/-- sm2/p256_asm_amd64.s:49-89: the read-only data symbols of the file. -/
inductive Glob where
  | const0 | const1 | ordK0 | ord | one
  deriving DecidableEq, Repr

/-- sm2/p256_asm_amd64.s:49-82 (DATA and GLOBL lines): the words of the read-only data.  The
symbols p256_sm2prmK0 and p256_sm2prime are defined in the file but no instruction uses them. -/
def Glob.word : Glob → Nat → W
  | .const0, 0 => 0xFFFFFFFF00000000
  | .const1, 0 => 0xFFFFFFFEFFFFFFFF
  | .ordK0, 0 => 0x327F9E8872350975
  | .ord, 0 => 0x53BBF40939D54123
  | .ord, 8 => 0x7203DF6B21C6052B
  | .ord, 16 => 0xFFFFFFFFFFFFFFFF
  | .ord, 24 => 0xFFFFFFFEFFFFFFFF
  | .one, 0 => 0x0000000000000001
  | .one, 8 => 0x00000000FFFFFFFF
  | .one, 16 => 0x0000000000000000
  | .one, 24 => 0x0000000100000000
  | _, _ => 0

/-- sm2/p256_asm_amd64.s:93-2794 (the language of this file): Operands: register, immediate, memory at
register plus offset, stack frame cell, argument, read-only data. -/
inductive Opd where
  | r (a : Reg)
  | i (n : Nat)
  | m (a : Reg) (off : Nat)
  | s (off : Nat)
  | a (off : Nat)
  | g (a : Glob) (off : Nat)
  deriving DecidableEq, Repr

/-- sm2/p256_asm_amd64.s:93-2794 (the language of this file): a 128-bit vector register as four 32-bit lanes,
lane 0 the least significant. -/
structure Xmm where
  l0 : BitVec 32
  l1 : BitVec 32
  l2 : BitVec 32
  l3 : BitVec 32
  deriving DecidableEq, Repr

/-- sm2/p256_asm_amd64.s:93-2794 (the language of this file): the condition of a conditional move: carry set,
equal (zero flag set), not equal. -/
inductive Cond where
  | cs | eq | ne
  deriving DecidableEq, Repr

/-- sm2/p256_asm_amd64.s:93-2794 (the language of this file): Instructions, in the operand order of the Go
assembler: the destination comes last. -/
inductive Instr where
  | mov (s d : Opd)
  | movl (s d : Opd)
  | add (s d : Opd)
  | adc (s d : Opd)
  | sub (s d : Opd)
  | sbb (s d : Opd)
  | xor (s d : Opd)
  | and (s d : Opd)
  | test (s d : Opd)
  | mul (s : Opd)
  | shl (n : Nat) (d : Opd)
  | shr (n : Nat) (d : Opd)
  | shrd (n : Nat) (s d : Opd)
  | dec (d : Opd)
  | bswap (d : Opd)
  | cmov (c : Cond) (s d : Opd)
  | movqx (s : Opd) (x : Nat)
  | movlx (s : Opd) (x : Nat)
  | ldx (s : Opd) (x : Nat)
  | stx (x : Nat) (d : Opd)
  | movxx (s d : Nat)
  | pxor (s d : Nat)
  | pand (s d : Nat)
  | pandn (s d : Nat)
  | pandnm (s : Opd) (d : Nat)
  | pcmpeql (s d : Nat)
  | paddl (s d : Nat)
  | psubl (s d : Nat)
  | pshufd0 (s d : Nat)
  deriving DecidableEq, Repr

/-- sm2/p256_asm_amd64.s:93-2794 (the language of this file): the machine state. -/
structure St where
  ax : W
  bx : W
  cx : W
  dx : W
  si : W
  di : W
  bp : W
  r8 : W
  r9 : W
  r10 : W
  r11 : W
  r12 : W
  r13 : W
  r14 : W
  r15 : W
  cf : Bool
  zf : Bool
  x : Nat → Xmm
  mem : W → W
  stk : Nat → W
  arg : Nat → W

/-- sm2/p256_asm_amd64.s:93-2794 (the language of this file): read a register. -/
def St.reg (s : St) : Reg → W
  | .ax => s.ax | .bx => s.bx | .cx => s.cx | .dx => s.dx | .si => s.si | .di => s.di
  | .bp => s.bp | .r8 => s.r8 | .r9 => s.r9 | .r10 => s.r10 | .r11 => s.r11 | .r12 => s.r12
  | .r13 => s.r13 | .r14 => s.r14 | .r15 => s.r15

/-- sm2/p256_asm_amd64.s:93-2794 (the language of this file): write a register. -/
def St.setReg (s : St) (a : Reg) (v : W) : St :=
  match a with
  | .ax => { s with ax := v } | .bx => { s with bx := v } | .cx => { s with cx := v }
  | .dx => { s with dx := v } | .si => { s with si := v } | .di => { s with di := v }
  | .bp => { s with bp := v } | .r8 => { s with r8 := v } | .r9 => { s with r9 := v }
  | .r10 => { s with r10 := v } | .r11 => { s with r11 := v } | .r12 => { s with r12 := v }
  | .r13 => { s with r13 := v } | .r14 => { s with r14 := v } | .r15 => { s with r15 := v }

/-- sm2/p256_asm_amd64.s:93-2794 (the language of this file): replace one cell of a map. -/
def upd {α β : Type} [DecidableEq α] (f : α → β) (a : α) (v : β) : α → β :=
  fun b => if b = a then v else f b

/-- sm2/p256_asm_amd64.s:93-2794 (the language of this file): read an operand. -/
def St.get (s : St) : Opd → W
  | .r a => s.reg a
  | .i n => BitVec.ofNat 64 n
  | .m a off => s.mem (s.reg a + BitVec.ofNat 64 off)
  | .s off => s.stk off
  | .a off => s.arg off
  | .g a off => a.word off

/-- sm2/p256_asm_amd64.s:93-2794 (the language of this file): write an operand. Immediates, arguments and
read-only data are never destinations. -/
def St.put (s : St) (o : Opd) (v : W) : St :=
  match o with
  | .r a => s.setReg a v
  | .m a off => { s with mem := upd s.mem (s.reg a + BitVec.ofNat 64 off) v }
  | .s off => { s with stk := upd s.stk off v }
  | .i _ => s
  | .a _ => s
  | .g _ _ => s

/-- sm2/p256_asm_amd64.s:93-2794 (the language of this file): set both flags. -/
def St.flags (s : St) (c z : Bool) : St := { s with cf := c, zf := z }

/-- sm2/p256_asm_amd64.s:93-2794 (the language of this file): ADD and ADC: the low 64 bits of `d + a + cin`,
carry out, zero. -/
def addc (s : St) (a d : Opd) (cin : Nat) : St :=
  let t := (s.get d).toNat + (s.get a).toNat + cin
  let r : W := BitVec.ofNat 64 t
  (s.flags (decide (2 ^ 64 ≤ t)) (decide (r = 0))).put d r

/-- sm2/p256_asm_amd64.s:93-2794 (the language of this file): SUB and SBB: the low 64 bits of `d - a - bin`,
borrow out, zero. -/
def subb (s : St) (a d : Opd) (bin : Nat) : St :=
  let x := (s.get d).toNat
  let y := (s.get a).toNat + bin
  let r : W := BitVec.ofNat 64 (x + 2 ^ 65 - y)
  (s.flags (decide (x < y)) (decide (r = 0))).put d r

/-- sm2/p256_asm_amd64.s:93-2794 (the language of this file): lanewise operation on vector registers. -/
def Xmm.map2 (f : BitVec 32 → BitVec 32 → BitVec 32) (a b : Xmm) : Xmm :=
  ⟨f a.l0 b.l0, f a.l1 b.l1, f a.l2 b.l2, f a.l3 b.l3⟩

/-- sm2/p256_asm_amd64.s:93-2794 (the language of this file): the vector made of two 64-bit words. -/
def Xmm.ofWords (lo hi : W) : Xmm :=
  ⟨lo.extractLsb' 0 32, lo.extractLsb' 32 32, hi.extractLsb' 0 32, hi.extractLsb' 32 32⟩

/-- sm2/p256_asm_amd64.s:93-2794 (the language of this file): the low 64-bit word of a vector. -/
def Xmm.lo (a : Xmm) : W := a.l1 ++ a.l0

/-- sm2/p256_asm_amd64.s:93-2794 (the language of this file): the high 64-bit word of a vector. -/
def Xmm.hi (a : Xmm) : W := a.l3 ++ a.l2

/-- sm2/p256_asm_amd64.s:93-2794 (the language of this file): the operand 8 bytes further on. -/
def Opd.next : Opd → Opd
  | .m b off => .m b (off + 8)
  | .s off => .s (off + 8)
  | .a off => .a (off + 8)
  | .g b off => .g b (off + 8)
  | .r b => .r b
  | .i n => .i n

/-- sm2/p256_asm_amd64.s:93-2794 (the language of this file): read a 128-bit operand. -/
def St.getx (s : St) (o : Opd) : Xmm := Xmm.ofWords (s.get o) (s.get o.next)

/-- sm2/p256_asm_amd64.s:93-2794 (the language of this file): write a vector register. -/
def St.setx (s : St) (i : Nat) (v : Xmm) : St := { s with x := upd s.x i v }

/-- sm2/p256_asm_amd64.s:93-2794 (the language of this file): reverse the eight bytes of a word. -/
def bswap (w : W) : W :=
  w.extractLsb' 0 8 ++ w.extractLsb' 8 8 ++ w.extractLsb' 16 8 ++ w.extractLsb' 24 8 ++
  w.extractLsb' 32 8 ++ w.extractLsb' 40 8 ++ w.extractLsb' 48 8 ++ w.extractLsb' 56 8

/-- sm2/p256_asm_amd64.s:93-2794 (the language of this file): one instruction. -/
def step (s : St) : Instr → St
  | .mov a d => s.put d (s.get a)
  | .movl a d => s.put d (((s.get a).setWidth 32).setWidth 64)
  | .add a d => addc s a d 0
  | .adc a d => addc s a d s.cf.toNat
  | .sub a d => subb s a d 0
  | .sbb a d => subb s a d s.cf.toNat
  | .xor a d =>
    let r := s.get d ^^^ s.get a
    (s.flags false (decide (r = 0))).put d r
  | .and a d =>
    let r := s.get d &&& s.get a
    (s.flags false (decide (r = 0))).put d r
  | .test a d => s.flags false (decide (s.get d &&& s.get a = 0))
  | .mul a =>
    let t := s.ax.toNat * (s.get a).toNat
    { s with ax := BitVec.ofNat 64 t, dx := BitVec.ofNat 64 (t / 2 ^ 64),
             cf := decide (2 ^ 64 ≤ t) }
  | .shl n d =>
    let x := (s.get d).toNat
    let r : W := BitVec.ofNat 64 (x * 2 ^ n)
    (s.flags ((s.get d).getLsbD (64 - n)) (decide (r = 0))).put d r
  | .shr n d =>
    let x := (s.get d).toNat
    let r : W := BitVec.ofNat 64 (x / 2 ^ n)
    (s.flags ((s.get d).getLsbD (n - 1)) (decide (r = 0))).put d r
  | .shrd n a d =>
    let x := (s.get d).toNat
    let r : W := BitVec.ofNat 64 (x / 2 ^ n + (s.get a).toNat * 2 ^ (64 - n))
    (s.flags ((s.get d).getLsbD (n - 1)) (decide (r = 0))).put d r
  | .dec d =>
    let r : W := s.get d - 1
    (s.flags s.cf (decide (r = 0))).put d r
  | .bswap d => s.put d (bswap (s.get d))
  | .cmov .cs a d => if s.cf then s.put d (s.get a) else s
  | .cmov .eq a d => if s.zf then s.put d (s.get a) else s
  | .cmov .ne a d => if s.zf then s else s.put d (s.get a)
  | .movqx a i => s.setx i (Xmm.ofWords (s.get a) 0)
  | .movlx a i => s.setx i ⟨(s.get a).extractLsb' 0 32, 0, 0, 0⟩
  | .ldx a i => s.setx i (s.getx a)
  | .stx i d => (s.put d (s.x i).lo).put d.next (s.x i).hi
  | .movxx i j => s.setx j (s.x i)
  | .pxor i j => s.setx j (Xmm.map2 (· ^^^ ·) (s.x j) (s.x i))
  | .pand i j => s.setx j (Xmm.map2 (· &&& ·) (s.x j) (s.x i))
  | .pandn i j => s.setx j (Xmm.map2 (fun d a => ~~~d &&& a) (s.x j) (s.x i))
  | .pandnm a j => s.setx j (Xmm.map2 (fun d a => ~~~d &&& a) (s.x j) (s.getx a))
  | .pcmpeql i j =>
    s.setx j (Xmm.map2 (fun d a => if d = a then BitVec.allOnes 32 else 0) (s.x j) (s.x i))
  | .paddl i j => s.setx j (Xmm.map2 (· + ·) (s.x j) (s.x i))
  | .psubl i j => s.setx j (Xmm.map2 (· - ·) (s.x j) (s.x i))
  | .pshufd0 i j => s.setx j ⟨(s.x i).l0, (s.x i).l0, (s.x i).l0, (s.x i).l0⟩

/-- sm2/p256_asm_amd64.s:93-2794 (the language of this file): a straight-line piece of code. -/
def exec : List Instr → St → St
  | [], s => s
  | i :: rest, s => exec rest (step s i)

/-- sm2/p256_asm_amd64.s:1041-1173, 1463-1711 (the loops): `label: body; JNE label`: run the body, again as
long as the zero flag is clear. `none` when `fuel` rounds were not enough. -/
def loopNZ (body : List Instr) : Nat → St → Option St
  | 0, _ => none
  | fuel + 1, s =>
    let s' := exec body s
    if s'.zf then some s' else loopNZ body fuel s'

end Verif.X64
