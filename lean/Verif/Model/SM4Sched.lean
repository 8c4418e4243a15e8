import Mathlib.Logic.Function.Basic
import Verif.Model.SM4
/-!
# One SM4 cipher in several goroutines

`Encrypt` and `Decrypt` step by step: a step reads one byte of `src`, or does one round with a round key of the
cipher, or writes one byte of `dst`. Steps of goroutines interleave in any order, and other parts of the program
write to memory in between. (Go does not promise sequential consistency to programs with data races; the
discipline that the theorems ask for, `Allowed` in Props/SM4Sched, excludes races.)
-/
namespace Verif.SM4

/-- sm4/cipher.go:60-62, sm4/block.go:58-92: a byte of memory: array and index. -/
abbrev Addr := Nat × Nat

/-- sm4/cipher.go:60-62, sm4/block.go:58-92: a call `c.Encrypt(dst, src)` or `c.Decrypt(dst, src)`. -/
structure Call where
  dst : Slice
  src : Slice
  decrypt : Bool
  deriving DecidableEq

/-- sm4/cipher.go:60-62, sm4/block.go:58-92: the address of `s[i]`. -/
def at' (s : Slice) (i : Nat) : Addr := (s.arr, s.off + i)

/-- sm4/cipher.go:60-62, sm4/block.go:58-92: where a goroutine is in `cryptBlock`: reading byte `i` of `src`,
in round `j`, writing byte `i` of `dst`, after the return, or in a panic. -/
inductive Ctl where
  | load (i : Nat) (got : Bytes)
  | round (j : Nat) (m : Quad)
  | store (i : Nat) (out : Bytes)
  | done
  | panicked
  deriving DecidableEq

/-- sm4/block.go:68 and 76: the round key of iteration `j`, counted from 0. -/
def keyIndex (decrypt : Bool) (j : Nat) : Nat := if decrypt then 31 - j else j

/-- sm4/block.go:58-92 `cryptBlock`: one step. The local arrays `m` and `o` belong to the goroutine. -/
def micro (subkeys : List Word) (c : Call) : Ctl → (Addr → Byte) → Ctl × (Addr → Byte)
  | .load i got, mem =>
    if i < c.src.len then
      let got := got ++ [mem (at' c.src i)]
      (if i + 1 = 16 then .round 0 (loadQuad got) else .load (i + 1) got, mem)
    else (.panicked, mem)
  | .round j m, mem =>
    let m := roundStep m (subkeys.getD (keyIndex c.decrypt j) 0)
    (if j + 1 = 32 then .store 0 (storeQuad (r m)) else .round (j + 1) m, mem)
  | .store i out, mem =>
    if i < c.dst.len then
      (if i + 1 = 16 then .done else .store (i + 1) out, Function.update mem (at' c.dst i) (out.getD i 0))
    else (.panicked, mem)
  | .done, mem => (.done, mem)
  | .panicked, mem => (.panicked, mem)

/-- sm4/cipher.go:60-62, sm4/block.go:58-92: the program: memory, the round keys in the cipher, and the
goroutines that are in a call. -/
structure Sys (ι : Type) where
  mem : Addr → Byte
  subkeys : List Word
  calls : ι → Option (Call × Ctl)

/-- sm4/cipher.go:60-62, sm4/block.go:58-92: what happens next: a goroutine calls a method, does a step, or
leaves a call that has ended; or some other part of the program writes a byte. -/
inductive Event (ι : Type) where
  | call (t : ι) (c : Call)
  | step (t : ι)
  | leave (t : ι)
  | poke (a : Addr) (b : Byte)

variable {ι : Type} [DecidableEq ι]

/-- The effect of an event. (sm4/cipher.go:60-62: the methods only read `c.subkeys`.) -/
def Sys.next (y : Sys ι) : Event ι → Sys ι
  | .call t c => { y with calls := Function.update y.calls t (some (c, .load 0 [])) }
  | .step t =>
    match y.calls t with
    | none => y
    | some (c, k) =>
      let r := micro y.subkeys c k y.mem
      { y with mem := r.2, calls := Function.update y.calls t (some (c, r.1)) }
  | .leave t => { y with calls := Function.update y.calls t none }
  | .poke a b => { y with mem := Function.update y.mem a b }

/-- sm4/cipher.go:60-62, sm4/block.go:58-92: a sequence of events. -/
def Sys.run (y : Sys ι) (es : List (Event ι)) : Sys ι := es.foldl Sys.next y

end Verif.SM4
