import Verif.Lemmas.SM3
/-!
# C01, C02: SM3

Specification: `Verif.Spec.SM3.hash` (Spec/SM3.lean). Model: `Verif.SM3` (Model/SM3.lean).
-/
namespace Verif.Props
open Verif

/-- **C01** `sm3.Sum(data)` is the GM/T 0004-2012 digest, and never panics, for every byte string
whose bit length fits the standard's 64-bit length field (`2^61` bytes). -/
theorem C01_sm3_sum_conforms (data : Bytes) (h : data.length < 2^61) :
    SM3.sumBytes data = .ok (Spec.SM3.hash data) :=
  SM3.checkSum_eq (SM3.write_rep SM3.rep_new data) (by omega)

example : ([0x61, 0x62, 0x63] : Bytes).length < 2^61 := by decide
/-- Test (not a proof): the standard's first example, evaluated by the kernel on the model. -/
example : SM3.sumBytes [0x61, 0x62, 0x63] =
    .ok (beFix 32 0x66c7f0f462eeedd9d1f2d46bdc10e4e24167c4875cf2f7a2297da02b8f4ba8e0) := by
  decide +kernel

/-- The digest has 32 bytes. -/
theorem C01_sm3_sum_length (data : Bytes) (h : data.length < 2^61) :
    ∃ d, SM3.sumBytes data = .ok d ∧ d.length = 32 :=
  ⟨_, C01_sm3_sum_conforms data h, SM3.spec_hash_length data⟩

/-! ## C02: histories -/

/-- A call on a `hash.Hash` made by `sm3.New`. -/
inductive SM3Op where
  | write (p : Bytes)
  | sum (inp : Bytes)
  | reset

/-- What a call returns. -/
inductive SM3Out where
  | wrote (n : Nat)
  | summed (r : Res Bytes)
  | unit
  deriving DecidableEq

/-- Running a call on the model of the Go code. -/
def SM3Op.run (d : SM3.Digest) : SM3Op → SM3.Digest × SM3Out
  | .write p => ((SM3.write d p).1, .wrote (SM3.write d p).2)
  | .sum inp => (d, .summed (SM3.sum d inp))
  | .reset => (SM3.reset d, .unit)

/-- The abstract hasher: its state is the bytes written since the last reset. -/
def SM3Op.spec (m : Bytes) : SM3Op → Bytes × SM3Out
  | .write p => (m ++ p, .wrote p.length)
  | .sum inp => (m, .summed (.ok (inp ++ Spec.SM3.hash m)))
  | .reset => ([], .unit)

/-- Outputs of a sequence of calls. -/
def outputs {S O X : Type} (f : S → O → S × X) : S → List O → List X
  | _, [] => []
  | s, o :: os => (f s o).2 :: outputs f (f s o).1 os

/-- Total number of bytes written by a history. -/
def SM3Op.written : List SM3Op → Nat
  | [] => 0
  | .write p :: os => p.length + written os
  | _ :: os => written os

theorem C02_from {d : SM3.Digest} {m : Bytes} (hr : SM3.Rep d m) (ops : List SM3Op)
    (hl : m.length + SM3Op.written ops < 2^61) : outputs SM3Op.run d ops = outputs SM3Op.spec m ops := by
  induction ops generalizing d m with
  | nil => rfl
  | cons o os ih =>
    cases o with
    | write p =>
      simp only [outputs, SM3Op.run, SM3Op.spec, SM3Op.written] at hl ⊢
      rw [ih (SM3.write_rep hr p) (by simp; omega)]
      rfl
    | sum inp =>
      simp only [outputs, SM3Op.run, SM3Op.spec, SM3Op.written] at hl ⊢
      rw [ih hr hl, SM3.sum, SM3.checkSum_eq hr (by omega)]
    | reset =>
      simp only [outputs, SM3Op.run, SM3Op.spec, SM3Op.written] at hl ⊢
      rw [ih (SM3.rep_reset hr) (by simp; omega)]

/-- **C02** Any history of `Write`, `Sum` and `Reset` on a new hasher is indistinguishable from the
abstract hasher that remembers the bytes written since the last reset. -/
theorem C02_sm3_history_refines (ops : List SM3Op) (h : SM3Op.written ops < 2^61) :
    outputs SM3Op.run SM3.new ops = outputs SM3Op.spec [] ops :=
  C02_from SM3.rep_new ops (by simpa using h)

/-- Non-vacuity: a history with split writes, an intermediate `Sum` and a `Reset`. -/
example : SM3Op.written [.write [1,2,3], .sum [], .write (zeros 100), .reset, .write [7], .sum [9]]
    < 2^61 := by simp [SM3Op.written]

/-- **C02** (consequence) The result does not depend on how the data is split into writes. -/
theorem C02_sm3_chunking (chunks : List Bytes) (inp : Bytes) (h : chunks.flatten.length < 2^61) :
    SM3.sum (chunks.foldl (fun d p => (SM3.write d p).1) SM3.new) inp
      = .ok (inp ++ Spec.SM3.hash chunks.flatten) := by
  have H : ∀ (cs : List Bytes) (d : SM3.Digest) (m : Bytes), SM3.Rep d m →
      SM3.Rep (cs.foldl (fun d p => (SM3.write d p).1) d) (m ++ cs.flatten) := by
    intro cs
    induction cs with
    | nil => intro d m hr; simpa using hr
    | cons c cs ih =>
      intro d m hr
      have := ih _ _ (SM3.write_rep hr c)
      simpa using this
  have hr := H chunks _ _ SM3.rep_new
  rw [List.nil_append] at hr
  rw [SM3.sum, SM3.checkSum_eq hr (by omega)]

example : ([[1], [], zeros 63, zeros 129] : List Bytes).flatten.length < 2^61 := by
  simp

end Verif.Props
