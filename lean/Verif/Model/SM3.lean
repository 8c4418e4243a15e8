import Verif.Base.Bytes
/-!
# Model of package sm3 (sm3/sm3.go, sm3/sm3block.go)
-/
namespace Verif.SM3

/-- sm3/sm3.go:51-56 -/
abbrev Word := BitVec 32

/-- The eight words `d.h[0..7]` (sm3.go:52, sm3block.go:37). -/
structure H where
  (h0 h1 h2 h3 h4 h5 h6 h7 : Word)
  deriving DecidableEq, Repr

/-- sm3block.go:108-110 `sm3_rotl`. Shifts by 32 give 0 in Go and in `BitVec`. -/
def rotl (x : Word) (n : Nat) : Word := (x <<< (n % 32)) ||| (x >>> (32 - n % 32))

/-- sm3block.go:83-89 `sm3_t`. -/
def t (j : Nat) : Word := if j ≥ 16 then 0x7A879D8A else 0x79CC4519

/-- sm3block.go:91-98 `sm3_ff`. -/
def ff (x y z : Word) (j : Nat) : Word :=
  if j ≥ 16 then (x ||| y) &&& (x ||| z) &&& (y ||| z) else x ^^^ y ^^^ z

/-- sm3block.go:100-106 `sm3_gg`. -/
def gg (x y z : Word) (j : Nat) : Word :=
  if j ≥ 16 then (x &&& y) ||| (~~~x &&& z) else x ^^^ y ^^^ z

/-- sm3block.go:112-114 `sm3_p0`. -/
def p0 (x : Word) : Word := x ^^^ rotl x 9 ^^^ rotl x 17

/-- sm3block.go:116-118 `sm3_p1`. -/
def p1 (x : Word) : Word := x ^^^ rotl x 15 ^^^ rotl x 23

/-- sm3/sm3block.go:41: `uint32(b)` conversion of a byte. -/
def u32 (b : Byte) : Word := b.setWidth 32

/-- sm3block.go:41: big-endian word from 4 bytes at offset `j` (callers guarantee the indices are
in range, so the default byte is never used). -/
def loadWord (p : Bytes) (j : Nat) : Word :=
  u32 (p.getD j 0) <<< 24 ||| u32 (p.getD (j+1) 0) <<< 16 ||| u32 (p.getD (j+2) 0) <<< 8
    ||| u32 (p.getD (j+3) 0)

/-- sm3block.go:39-42: `w[0..15]`. -/
def initW (p : Bytes) : List Word := (List.range 16).map fun i => loadWord p (i * 4)

/-- sm3block.go:43-45: `n` iterations of the expansion loop. The array prefix `w[0..i)` is a list;
iteration `i` appends `w[i]`. -/
def expandW (w : List Word) : Nat → List Word
  | 0 => w
  | n + 1 =>
    let w := expandW w n
    let i := 16 + n
    w ++ [p1 (w.getD (i-16) 0 ^^^ w.getD (i-9) 0 ^^^ rotl (w.getD (i-3) 0) 15)
      ^^^ rotl (w.getD (i-13) 0) 7 ^^^ w.getD (i-6) 0]

/-- sm3block.go:47-49: `w1[i] = w[i] ^ w[i+4]`. -/
def makeW1 (w : List Word) : List Word :=
  (List.range 64).map fun i => w.getD i 0 ^^^ w.getD (i+4) 0

/-- sm3block.go:54-65: body of the round loop. -/
def roundStep (w w1 : List Word) (j : Nat) (s : H) : H :=
  let ss1 := rotl (rotl s.h0 12 + s.h4 + rotl (t j) j) 7
  let ss2 := ss1 ^^^ rotl s.h0 12
  let tt1 := ff s.h0 s.h1 s.h2 j + s.h3 + ss2 + w1.getD j 0
  let tt2 := gg s.h4 s.h5 s.h6 j + s.h7 + ss1 + w.getD j 0
  { h3 := s.h2, h2 := rotl s.h1 9, h1 := s.h0, h0 := tt1
    h7 := s.h6, h6 := rotl s.h5 19, h5 := s.h4, h4 := p0 tt2 }

/-- sm3block.go:53: the first `n` iterations of the round loop. -/
def roundLoop (w w1 : List Word) : Nat → H → H
  | 0, s => s
  | n + 1, s => roundStep w w1 n (roundLoop w w1 n s)

/-- sm3block.go:39-75: one iteration of the `for len(p) >= chunk` loop. -/
def oneBlock (s : H) (p : Bytes) : H :=
  let w := expandW (initW p) 52
  let w1 := makeW1 w
  let r := roundLoop w w1 64 s
  { h0 := s.h0 ^^^ r.h0, h1 := s.h1 ^^^ r.h1, h2 := s.h2 ^^^ r.h2, h3 := s.h3 ^^^ r.h3
    h4 := s.h4 ^^^ r.h4, h5 := s.h5 ^^^ r.h5, h6 := s.h6 ^^^ r.h6, h7 := s.h7 ^^^ r.h7 }

/-- sm3block.go:38-78: the block loop; `fuel` is at least the number of iterations
(each iteration drops 64 bytes, line 77). -/
def blockLoop : Nat → H → Bytes → H
  | 0, s, _ => s
  | fuel + 1, s, p => if p.length ≥ 64 then blockLoop fuel (oneBlock s p) (p.drop 64) else s

/-- sm3block.go:28-30, 32-81 `block`, `blockGeneric`. -/
def block (s : H) (p : Bytes) : H := blockLoop (p.length / 64) s p

/-- sm3.go:51-56 `digest`: `x` is the 64-byte array, `len` is a uint64. -/
structure Digest where
  h : H
  x : Bytes
  nx : Nat
  len : BitVec 64
  deriving DecidableEq, Repr

/-- sm3.go:40-47. -/
def initH : H :=
  ⟨0x7380166F, 0x4914B2B9, 0x172442D7, 0xDA8A0600, 0xA96F30BC, 0x163138AA, 0xE38DEE4D, 0xB0FB0E4E⟩

/-- sm3.go:58-69 `Reset`. The buffer `x` keeps its bytes. -/
def reset (d : Digest) : Digest := { d with h := initH, nx := 0, len := 0 }

/-- sm3.go:72-76 `New` (a zero digest, then Reset). -/
def new : Digest := reset { h := ⟨0,0,0,0,0,0,0,0⟩, x := zeros 64, nx := 0, len := 0 }

/-- sm3/sm3.go:86, 100: Go's `copy(dst[off:], src)`: new contents of `dst` and the number of bytes copied. -/
def goCopyAt (dst : Bytes) (off : Nat) (src : Bytes) : Bytes × Nat :=
  let n := min (dst.length - off) src.length
  (dst.take off ++ src.take n ++ dst.drop (off + n), n)

/-- sm3.go:85-93: fill a partial block. -/
def writeFill (d : Digest) (p : Bytes) : Digest × Bytes :=
  if d.nx > 0 then
    let (x, n) := goCopyAt d.x d.nx p
    let d := { d with x := x, nx := d.nx + n }
    let d := if d.nx = 64 then { d with h := block d.h d.x, nx := 0 } else d
    (d, p.drop n)
  else (d, p)

/-- sm3.go:94-98: whole blocks straight from the input. `len(p) &^ 63` is `len(p)/64*64`. -/
def writeBlocks (d : Digest) (p : Bytes) : Digest × Bytes :=
  if p.length ≥ 64 then
    let n := p.length / 64 * 64
    ({ d with h := block d.h (p.take n) }, p.drop n)
  else (d, p)

/-- sm3.go:99-101: keep the rest. -/
def writeRest (d : Digest) (p : Bytes) : Digest :=
  if p.length > 0 then
    let (x, n) := goCopyAt d.x 0 p
    { d with x := x, nx := n }
  else d

/-- sm3.go:82-103 `Write`; returns the new state and `nn` (the error is always nil). -/
def write (d : Digest) (p : Bytes) : Digest × Nat :=
  let nn := p.length
  let d := { d with len := d.len + BitVec.ofNat 64 nn }
  let (d, p) := writeFill d p
  let (d, p) := writeBlocks d p
  (writeRest d p, nn)

/-- sm3.go:137-142: the four bytes of a word. -/
def wordBytes (s : Word) : Bytes :=
  [(s >>> 24).setWidth 8, (s >>> 16).setWidth 8, (s >>> 8).setWidth 8, s.setWidth 8]

/-- sm3.go:136-142. -/
def hBytes (h : H) : Bytes :=
  wordBytes h.h0 ++ wordBytes h.h1 ++ wordBytes h.h2 ++ wordBytes h.h3 ++
  wordBytes h.h4 ++ wordBytes h.h5 ++ wordBytes h.h6 ++ wordBytes h.h7

/-- sm3.go:112-145 `checkSum`. `tmp` is the 64-byte array with `tmp[0] = 0x80`. The explicit panic
(line 130-132) is a `Res.panic`. -/
def checkSum (d : Digest) : Res Bytes :=
  let len := d.len
  let tmp : Bytes := 0x80 :: zeros 63
  let l64 := (len % 64).toNat
  let d := if l64 < 56 then (write d (tmp.take (56 - l64))).1
           else (write d (tmp.take (64 + 56 - l64))).1
  let len := len <<< 3
  let tmp8 : Bytes := (List.range 8).map fun i => (len >>> (56 - 8 * i)).setWidth 8
  let d := (write d tmp8).1
  if d.nx ≠ 0 then .panic "d.nx != 0" else .ok (hBytes d.h)

/-- sm3.go:105-110 method `Sum`: works on a copy, so the state is unchanged. -/
def sum (d : Digest) (inp : Bytes) : Res Bytes :=
  match checkSum d with
  | .ok h => .ok (inp ++ h)
  | .err m => .err m
  | .panic m => .panic m

/-- sm3.go:148-153 package-level `Sum`: a zero digest, `Reset`, `Write`, `checkSum`. -/
def sumBytes (data : Bytes) : Res Bytes := checkSum (write new data).1

end Verif.SM3
