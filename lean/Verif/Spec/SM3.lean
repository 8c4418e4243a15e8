import Verif.Base.Bytes
/-!
# Specification of SM3 (GM/T 0004-2012), for byte-oriented messages

Written from the standard, independently of the Go code.
-/
namespace Verif.Spec.SM3

abbrev Word := BitVec 32

/-- Initial value (section 4.1). -/
def IV : List Word :=
  [0x7380166f, 0x4914b2b9, 0x172442d7, 0xda8a0600, 0xa96f30bc, 0x163138aa, 0xe38dee4d, 0xb0fb0e4e]

/-- Constants `T_j` (section 4.2). -/
def T (j : Nat) : Word := if j ≤ 15 then 0x79cc4519 else 0x7a879d8a

/-- Boolean functions (section 4.3). -/
def FF (j : Nat) (x y z : Word) : Word :=
  if j ≤ 15 then x ^^^ y ^^^ z else (x &&& y) ||| (x &&& z) ||| (y &&& z)
def GG (j : Nat) (x y z : Word) : Word :=
  if j ≤ 15 then x ^^^ y ^^^ z else (x &&& y) ||| (~~~x &&& z)

/-- Permutations (section 4.4). -/
def P0 (x : Word) : Word := x ^^^ x.rotateLeft 9 ^^^ x.rotateLeft 17
def P1 (x : Word) : Word := x ^^^ x.rotateLeft 15 ^^^ x.rotateLeft 23

/-- Padding (section 5.2) of a message of `l` bytes: a one bit, the least number of zero bits that
leaves room for a 64-bit length in the last 512-bit block, the length in bits. -/
def pad (m : Bytes) : Bytes :=
  m ++ [0x80] ++ zeros ((119 - m.length % 64) % 64) ++ beFix 8 (8 * m.length)

/-- The `i`-th big-endian word of a block. -/
def wordAt (b : Bytes) (i : Nat) : Word := BitVec.ofNat 32 (natOfBytes ((b.drop (4 * i)).take 4))

/-- Message expansion (section 5.3.2): `W_j`. -/
def W (b : Bytes) (j : Nat) : Word :=
  if j < 16 then wordAt b j
  else P1 (W b (j - 16) ^^^ W b (j - 9) ^^^ (W b (j - 3)).rotateLeft 15)
        ^^^ (W b (j - 13)).rotateLeft 7 ^^^ W b (j - 6)
  termination_by j

/-- Message expansion: `W'_j`. -/
def W' (b : Bytes) (j : Nat) : Word := W b j ^^^ W b (j + 4)

/-- The eight registers A..H. -/
structure Reg where
  (A B C D E F G H : Word)
  deriving DecidableEq

/-- One step of the compression function (section 5.3.3). -/
def round (b : Bytes) (j : Nat) (r : Reg) : Reg :=
  let SS1 := (r.A.rotateLeft 12 + r.E + (T j).rotateLeft (j % 32)).rotateLeft 7
  let SS2 := SS1 ^^^ r.A.rotateLeft 12
  let TT1 := FF j r.A r.B r.C + r.D + SS2 + W' b j
  let TT2 := GG j r.E r.F r.G + r.H + SS1 + W b j
  { A := TT1, B := r.A, C := r.B.rotateLeft 9, D := r.C
    E := P0 TT2, F := r.E, G := r.F.rotateLeft 19, H := r.G }

/-- `n` steps of the compression function. -/
def rounds (b : Bytes) : Nat → Reg → Reg
  | 0, r => r
  | n + 1, r => round b n (rounds b n r)

def Reg.ofWords (v : List Word) : Reg :=
  ⟨v.getD 0 0, v.getD 1 0, v.getD 2 0, v.getD 3 0, v.getD 4 0, v.getD 5 0, v.getD 6 0, v.getD 7 0⟩
def Reg.toWords (r : Reg) : List Word := [r.A, r.B, r.C, r.D, r.E, r.F, r.G, r.H]

/-- `CF(V, B)`. -/
def CF (v : List Word) (b : Bytes) : List Word :=
  List.zipWith (· ^^^ ·) (rounds b 64 (Reg.ofWords v)).toWords v

/-- The 64-byte blocks of a padded message. -/
def blocks (m : Bytes) : List Bytes :=
  (List.range (m.length / 64)).map fun i => (m.drop (64 * i)).take 64

/-- The SM3 digest. -/
def hash (m : Bytes) : Bytes :=
  ((blocks (pad m)).foldl CF IV).flatMap fun w => beFix 4 w.toNat

end Verif.Spec.SM3
