import Verif.Base.Bytes
import Verif.Spec.ECDSA
/-!
# RFC 6979, section 3.2

For a group order `q` of as many bits as the hash function has, given HMAC as a function.
-/
namespace Verif.Spec.RFC6979
open Verif.Spec.ECDSA

/-- Steps b to g. `x` is the private key, `h` the digest. -/
def start (hmac : Bytes → Bytes → Bytes) (q x : Nat) (h : Bytes) : Bytes × Bytes :=
  let seed := beFix 32 x ++ beFix 32 (bits2int q h % q)
  let V0 : Bytes := List.replicate 32 1
  let K1 := hmac (zeros 32) (V0 ++ [0] ++ seed)
  let V1 := hmac K1 V0
  let K2 := hmac K1 (V1 ++ [1] ++ seed)
  (K2, hmac K2 V1)

/-- The pair `(K, V)` before the candidate with the number `i` is made. -/
def state (hmac : Bytes → Bytes → Bytes) (q x : Nat) (h : Bytes) : Nat → Bytes × Bytes
  | 0 => start hmac q x h
  | i + 1 =>
    let (K, V) := state hmac q x h i
    let V' := hmac K V
    let K' := hmac K (V' ++ [0])
    (K', hmac K' V')

/-- Step h.2 and h.3: the candidate with the number `i`. -/
def candidate (hmac : Bytes → Bytes → Bytes) (q x : Nat) (h : Bytes) (i : Nat) : Nat :=
  bits2int q (hmac (state hmac q x h i).1 (state hmac q x h i).2)

/-- `k` is the nonce: the first candidate from 1 to `q - 1`. -/
def IsNonce (hmac : Bytes → Bytes → Bytes) (q x : Nat) (h : Bytes) (i k : Nat) : Prop :=
  k = candidate hmac q x h i ∧ 1 ≤ k ∧ k < q ∧
    ∀ j < i, candidate hmac q x h j = 0 ∨ q ≤ candidate hmac q x h j

end Verif.Spec.RFC6979
