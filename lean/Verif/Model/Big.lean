import Verif.Base.Bytes
import Mathlib.Logic.Function.Basic
/-!
# Numbers as objects

In the rest of the model a `big.Int` is a number. In the code it is an object: methods such as `x.Mul(y, z)`
overwrite `x`, and keys, signatures and curve parameters hold pointers to such objects, which several goroutines may
use at the same time. Here programs read, overwrite and allocate objects.
-/
namespace Verif.Big

/-- A pointer to a `big.Int` (ec/decompress.go:26, sm2/signature.go:31, vrf/vrf_ec.go:43 import math/big). Objects that
exist before the calls have owner 0; the goroutine `t` allocates the objects `⟨t, 0⟩`, `⟨t, 1⟩`, ... -/
structure Ref where
  owner : Nat
  idx : Nat
  deriving DecidableEq, Repr

/-- The values of all objects. -/
abbrev Mem := Ref → Int

/-- Overwriting an object. -/
def Mem.put (m : Mem) (r : Ref) (v : Int) : Mem := fun a => if a = r then v else m a

/-- A program: a sequence of allocations, reads and writes of objects. What is done between them is invisible to other
goroutines. -/
inductive Prog (α : Type) where
  | ret (a : α)
  | new (v : Int) (k : Ref → Prog α)
  | get (r : Ref) (k : Int → Prog α)
  | put (r : Ref) (v : Int) (k : Prog α)

/-- Sequencing. -/
def Prog.bind {α β : Type} : Prog α → (α → Prog β) → Prog β
  | .ret a, f => f a
  | .new v k, f => .new v fun r => (k r).bind f
  | .get r k, f => .get r fun v => (k v).bind f
  | .put r v k, f => .put r v (k.bind f)

instance : Monad Prog where
  pure := .ret
  bind := .bind

/-- Running a program alone as goroutine `t`, which has allocated `c` objects: the result, the memory and the number of
objects allocated. -/
def exec {α : Type} (t : Nat) : Prog α → Mem → Nat → α × Mem × Nat
  | .ret a, m, c => (a, m, c)
  | .new v k, m, c => exec t (k ⟨t, c⟩) (m.put ⟨t, c⟩ v) (c + 1)
  | .get r k, m, c => exec t (k (m r)) m c
  | .put r v k, m, c => exec t k (m.put r v) c

/-! ## The methods of `big.Int` that the code calls -/

/-- `big.NewInt(v)`, `new(big.Int).SetBytes(..)`, or the result of a function that allocates it (ec/decompress.go:51). -/
def newInt (v : Int) : Prog Ref := .new v .ret

/-- Reading a number: `Bit`, `BitLen`, `Sign`, `Cmp`, `Bytes` (ec/decompress.go:33). -/
def read (r : Ref) : Prog Int := .get r .ret

/-- Overwriting a number (ec/decompress.go:55). -/
def write (d : Ref) (v : Int) : Prog Unit := .put d v (.ret ())

/-- `d.Set(a)` (ec/decompress.go:76) -/
def set (d a : Ref) : Prog Unit := do write d (← read a)

/-- `d.Add(a, b)` (ec/decompress.go:136) -/
def add (d a b : Ref) : Prog Unit := do write d ((← read a) + (← read b))

/-- `d.Sub(a, b)` (ec/decompress.go:69) -/
def sub (d a b : Ref) : Prog Unit := do write d ((← read a) - (← read b))

/-- `d.Mul(a, b)` (ec/decompress.go:59) -/
def mul (d a b : Ref) : Prog Unit := do write d ((← read a) * (← read b))

/-- `d.Mod(a, b)`, the Euclidean remainder (ec/decompress.go:60) -/
def mod (d a b : Ref) : Prog Unit := do write d ((← read a) % (← read b))

/-- `d.Lsh(a, n)` (ec/decompress.go:73) -/
def lsh (d a : Ref) (n : Nat) : Prog Unit := do write d ((← read a) * 2 ^ n)

/-- `d.Rsh(a, n)`, rounding down (ec/decompress.go:135) -/
def rsh (d a : Ref) (n : Nat) : Prog Unit := do write d ((← read a) / 2 ^ n)

/-! ## Several goroutines -/

/-- The goroutines `i + 1` with what is left of their programs and the numbers of objects they have allocated, and the
memory they share. -/
structure Conf {n : Nat} (α : Fin n → Type) where
  prog : (i : Fin n) → Prog (α i)
  count : Fin n → Nat
  mem : Mem

/-- One step of the goroutine `t`. -/
def step {α : Type} (t : Nat) : Prog α → Mem → Nat → Prog α × Mem × Nat
  | .ret a, m, c => (.ret a, m, c)
  | .new v k, m, c => (k ⟨t, c⟩, m.put ⟨t, c⟩ v, c + 1)
  | .get r k, m, c => (k (m r), m, c)
  | .put r v k, m, c => (k, m.put r v, c)

/-- One step of some goroutine. -/
def Conf.Step {n : Nat} {α : Fin n → Type} (s s' : Conf α) : Prop :=
  ∃ i : Fin n, s' =
    { prog := Function.update s.prog i (step (i + 1) (s.prog i) s.mem (s.count i)).1
      count := Function.update s.count i (step (i + 1) (s.prog i) s.mem (s.count i)).2.2
      mem := (step (i + 1) (s.prog i) s.mem (s.count i)).2.1 }

end Verif.Big
