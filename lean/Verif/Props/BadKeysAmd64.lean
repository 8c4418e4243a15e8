import Verif.Props.BadKeys
import Verif.Model.SM2Amd64
import Verif.Lemmas.P256Flat
/-!
# C140 on amd64
-/
namespace Verif.Props
open Verif.Keypair Verif.Spec

/-- **C140** is false for SM2 encryption on amd64, too: everyone can read what is encrypted for a key `(x, 0)`, without a
private key and whatever random numbers were used. -/
theorem C140_encrypt_amd64_fails (K : Keypair.Ext) (E : SM2.Ext) (x : Nat) (hx : x < Curves.sm2.P) (fuel : Nat)
    (rand data ct : Bytes) (h : SM2.encrypt (SM2.amd64 E) fuel rand ⟨Curves.sm2, x, 0⟩ data = some (.ok ct)) :
    (∀ draws, deserializePublicKey K (0x13 :: 20 :: 4 :: (beFix 32 x ++ zeros 32)) draws =
      some (.ok (.ec .sm2 ⟨Curves.sm2, x, 0⟩))) ∧
    (data = SM2.xor (ct.drop 96) (SM2.kdf (zeros 64) data.length) ∨
      data = SM2.xor (ct.drop 96) (SM2.kdf (beFix 32 x ++ zeros 32) data.length)) := by
  refine ⟨parse_flat K x hx, encrypt_masks _ x hx (fun k => ?_) fuel rand data ct h⟩
  have hm := X64.P256.scalarMult_flat x (bytesOfNat k)
  rwa [Nat.mod_eq_of_lt hx] at hm

/-- **C140 (partial)** The signatures of `C140_verify_fails` are refused on amd64: under a key `(x, 0)`, in particular
`(0, 0)`, `Verify` accepts nothing with `r + s` other than 1 modulo the order. Missing: signatures with `r + s = 1`. -/
theorem C140_verify_amd64_partial (E : SM2.Ext) (H : Bytes → Bytes) (x : Nat) (id msg : Bytes) (r s : Int)
    (hne : (r + s) % Curves.sm2.N ≠ 1) : SM2.verify (SM2.amd64 E) H ⟨Curves.sm2, x, 0⟩ id msg r s = false := by
  rw [← Bool.not_eq_true]
  intro h
  unfold SM2.verify at h
  dsimp only at h
  split_ifs at h with h1 h2 h3 h4
  have hn : (0 : Int) < Curves.sm2.N := by decide +kernel
  have hlt := Int.emod_lt_of_pos (r + s) hn
  have hc : SM2.combine (SM2.amd64 E) ⟨Curves.sm2, x, 0⟩ s.toNat ((r + s) % Curves.sm2.N).toNat = (0, 0) := by
    refine X64.P256.combinedMult_flat x _ _ ?_
    rw [X64.P256.getScalar_eq, natOfBytes_bytesOfNat]
    show ((r + s) % Curves.sm2.N).toNat % Curves.sm2.N ≠ 1
    rw [Nat.mod_eq_of_lt (by omega)]
    omega
  rw [hc] at h4
  exact h4 ⟨rfl, rfl⟩

/-- Ciphertexts for `(3, 0)` exist. -/
example : ∃ ct, SM2.encrypt (SM2.amd64 (portableSM2 false id (fun _ _ len => zeros len))) 1 (zeros 64)
    ⟨Curves.sm2, 3, 0⟩ [1, 2, 3] = some (.ok ct) := by
  have h : ((SM2.encrypt (SM2.amd64 (portableSM2 false id (fun _ _ len => zeros len))) 1 (zeros 64) ⟨Curves.sm2, 3, 0⟩
      [1, 2, 3]).any fun r => match r with | .ok _ => true | _ => false) = true := by decide +kernel
  generalize SM2.encrypt _ _ _ _ _ = o at h ⊢
  match o, h with
  | some (.ok ct), _ => exact ⟨ct, rfl⟩

end Verif.Props
