/-!
# Bytes, big-endian integers, Go results

The part of the Go runtime used by every model file.

* `Byte`/`Bytes` model `byte`/`[]byte` contents.
* `natOfBytes` models `big.Int.SetBytes` (math/big: big-endian unsigned).
* `bytesOfNat` models `big.Int.Bytes` (math/big: minimal big-endian, empty for 0).
* `Res` models a Go function that returns `(value, error)` or panics.
-/

namespace Verif

abbrev Byte := BitVec 8
abbrev Bytes := List Byte

/-- Outcome of a Go call returning `(T, error)`: a value, an error, or a run-time panic. -/
inductive Res (α : Type u) where
  | ok (a : α)
  | err (msg : String)
  | panic (msg : String)
  deriving Repr, DecidableEq

namespace Res

/-- Sequencing: errors and panics propagate (`if err != nil { return nil, err }`). -/
def bind {α : Type u} {β : Type v} (x : Res α) (f : α → Res β) : Res β :=
  match x with
  | ok a => f a
  | err m => err m
  | panic m => panic m

def map {α : Type u} {β : Type v} (f : α → β) (x : Res α) : Res β :=
  match x with
  | ok a => ok (f a)
  | err m => err m
  | panic m => panic m

instance : Monad Res where
  pure := ok
  bind := bind

/-- The call returned normally with a nil error. -/
def isOk {α : Type u} : Res α → Bool
  | ok _ => true
  | _ => false

/-- The call returned a non-nil error. -/
def isErr {α : Type u} : Res α → Bool
  | err _ => true
  | _ => false

/-- The call panicked. -/
def isPanic {α : Type u} : Res α → Bool
  | panic _ => true
  | _ => false

@[simp] theorem isOk_ok {α : Type u} (a : α) : (Res.ok a).isOk = true := rfl
@[simp] theorem isOk_err {α : Type u} (m) : (Res.err m : Res α).isOk = false := rfl
@[simp] theorem isOk_panic {α : Type u} (m) : (Res.panic m : Res α).isOk = false := rfl
@[simp] theorem isErr_ok {α : Type u} (a : α) : (Res.ok a).isErr = false := rfl
@[simp] theorem isErr_err {α : Type u} (m) : (Res.err m : Res α).isErr = true := rfl
@[simp] theorem isErr_panic {α : Type u} (m) : (Res.panic m : Res α).isErr = false := rfl
@[simp] theorem isPanic_ok {α : Type u} (a : α) : (Res.ok a).isPanic = false := rfl
@[simp] theorem isPanic_err {α : Type u} (m) : (Res.err m : Res α).isPanic = false := rfl
@[simp] theorem isPanic_panic {α : Type u} (m) : (Res.panic m : Res α).isPanic = true := rfl
@[simp] theorem bind_ok {α : Type u} {β : Type v} (a : α) (f : α → Res β) :
    Res.bind (ok a) f = f a := rfl
@[simp] theorem bind_err {α : Type u} {β : Type v} (m) (f : α → Res β) :
    Res.bind (err m) f = err m := rfl
@[simp] theorem bind_panic {α : Type u} {β : Type v} (m) (f : α → Res β) :
    Res.bind (panic m) f = panic m := rfl
@[simp] theorem bind_eq {α β : Type u} (x : Res α) (f : α → Res β) :
    (x >>= f) = Res.bind x f := rfl
@[simp] theorem pure_eq {α : Type u} (x : α) : (pure x : Res α) = ok x := rfl

end Res

/-- `new(big.Int).SetBytes(b)` (math/big): big-endian unsigned value. -/
def natOfBytes (b : Bytes) : Nat := b.foldl (fun acc x => acc * 256 + x.toNat) 0

/-- The `w`-byte big-endian encoding of `n` (low `8 w` bits). -/
def beFix : Nat → Nat → Bytes
  | 0, _ => []
  | w + 1, n => beFix w (n / 256) ++ [BitVec.ofNat 8 n]

/-- Number of bytes of the minimal encoding: `(x.BitLen()+7)/8` (math/big). -/
def byteLen (n : Nat) : Nat := if n = 0 then 0 else n.log2 / 8 + 1

/-- `x.BitLen()` (math/big). -/
def bitLen (n : Nat) : Nat := if n = 0 then 0 else n.log2 + 1

/-- `x.Bytes()` (math/big): minimal big-endian bytes, empty for zero. -/
def bytesOfNat (n : Nat) : Bytes := beFix (byteLen n) n

/-- The left-padding idiom used across the code base: `n` zero bytes. -/
def zeros (n : Nat) : Bytes := List.replicate n 0

end Verif
