import Verif.Lemmas.RefSig
import Verif.Spec.VRF
/-!
# A reference instance of the external parts of package vrf

Real curve arithmetic; a stand-in for the hash functions that makes concrete cases easy to evaluate.
-/
namespace Verif.VRF
open Verif.Keypair Verif.Spec Verif.Props
open Verif.Signature (HashAlg refA refA_cast)

/-- The start of the message, filled up with zeros. -/
def refHash (a : HashAlg) (m : Bytes) : Bytes := m.take (size a) ++ zeros (size a - m.length)

/-- The reference instance. -/
def refVrf : Ext where
  k1name := ""
  extHash := refHash
  ops c :=
    { baseMult := fun k => Affine.smul c.P (refA c) k (c.Gx, c.Gy)
      mult := fun p k => Affine.smul c.P (refA c) k (p.1 % c.P, p.2 % c.P)
      add := Affine.add c.P (refA c) }
  isOnCurve c x y := decide (((y : Int) ^ 2 - ((x : Int) ^ 3 + curveA "" c * x + c.B)) % c.P = 0)

theorem refVrf_lawful : refVrf.Lawful where
  k1name := Or.inl rfl
  size := by
    intro a m
    show (refHash a m).length = _
    simp [refHash, zeros]; omega
  base := by
    intro c hc _ G hG k
    have hg := good_of_mem "" (Or.inl rfl) c hc
    have := Affine.smul_eq (c := c) (a := curveA "" c) hg.ok (refA c) (refA_cast c hc) k G
    exact (congrArg (Affine.smul c.P (refA c) k) hG.symm).trans this
  mult := by
    intro c hc _ P x y k _ h
    have hg := good_of_mem "" (Or.inl rfl) c hc
    have := Affine.smul_eq (c := c) (a := curveA "" c) hg.ok (refA c) (refA_cast c hc) k P
    exact (congrArg (Affine.smul c.P (refA c) k) h).trans this
  add := by
    intro c hc _ P Q
    have hg := good_of_mem "" (Or.inl rfl) c hc
    exact Affine.add_eq hg.ok (refA c) (refA_cast c hc) P Q
  onCurve := by
    intro c hc x y _ _
    exact decide_eq_true_iff

end Verif.VRF
