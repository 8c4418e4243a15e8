import Verif.Base.Bytes
/-!
# Specification of UTF-8 (RFC 3629)
-/
namespace Verif.Spec.UTF8

/-- Unicode scalar values: code points that are not surrogates. -/
def Scalar (n : Nat) : Prop := n < 0xD800 ∨ (0xE000 ≤ n ∧ n < 0x110000)

/-- RFC 3629 §3, the table. -/
def encode (n : Nat) : List Nat :=
  if n < 0x80 then [n]
  else if n < 0x800 then [0xC0 + n / 64, 0x80 + n % 64]
  else if n < 0x10000 then [0xE0 + n / 4096, 0x80 + n / 64 % 64, 0x80 + n % 64]
  else [0xF0 + n / 262144, 0x80 + n / 4096 % 64, 0x80 + n / 64 % 64, 0x80 + n % 64]

/-- The byte string is the UTF-8 encoding of a text. -/
def Valid (s : Bytes) : Prop :=
  ∃ text : List Nat, (∀ n ∈ text, Scalar n) ∧ s.map BitVec.toNat = text.flatMap encode

end Verif.Spec.UTF8
