import Verif.Model.SigNil
import Verif.Props.SigOutcome
/-!
# C119: Verify and Serialize on signature values with missing parts

`Value.toP` puts a value in which nothing is missing in the form of Model/SigNil.
-/
namespace Verif.Props
open Verif Verif.Spec Verif.Keypair Verif.Signature

/-- A value of Model/Signature: no pointer and no number is nil. -/
def Value.toP : Value Buf → ValueP
  | .dsa r s c => .dsa (some ⟨some r, some s, c⟩)
  | .sm2 r s c id => .sm2 (some (⟨some r, some s, c⟩, id))
  | .bytes b => .bytes b
  | .other => .other

/-- A pointer or one of the two numbers is nil. -/
def Incomplete : ValueP → Prop
  | .dsa none => True
  | .dsa (some o) => o.R = none ∨ o.S = none
  | .sm2 none => True
  | .sm2 (some (o, _)) => o.R = none ∨ o.S = none
  | .bytes _ => False
  | .other => False

/-- **C119** Every value in which nothing is missing is one of Model/Signature, and there the two models agree. -/
theorem C119_complete (E : Signature.Ext) (pub : PublicKey) (msg : Bytes) (sch : Scheme) (v : ValueP) :
    Incomplete v ∨ ∃ w, v = Value.toP w ∧
      verifyP E pub msg ⟨sch, v⟩ = verify E pub msg (some ⟨sch, w⟩) ∧
      serializeP ⟨sch, v⟩ = serialize (some ⟨sch, w⟩) := by
  have key : ∀ w, verifyP E pub msg ⟨sch, Value.toP w⟩ = verify E pub msg (some ⟨sch, w⟩) ∧
      serializeP ⟨sch, Value.toP w⟩ = serialize (some ⟨sch, w⟩) := by
    intro w
    cases w <;> cases pub <;> exact ⟨rfl, rfl⟩
  cases v with
  | other => exact Or.inr ⟨.other, rfl, key .other⟩
  | bytes b => exact Or.inr ⟨.bytes b, rfl, key (.bytes b)⟩
  | dsa p =>
    cases p with
    | none => exact Or.inl trivial
    | some o =>
      obtain ⟨R, S, c⟩ := o
      cases R with
      | none => exact Or.inl (Or.inl rfl)
      | some r =>
        cases S with
        | none => exact Or.inl (Or.inr rfl)
        | some s => exact Or.inr ⟨.dsa r s c, rfl, key (.dsa r s c)⟩
  | sm2 p =>
    cases p with
    | none => exact Or.inl trivial
    | some q =>
      obtain ⟨⟨R, S, c⟩, id⟩ := q
      cases R with
      | none => exact Or.inl (Or.inl rfl)
      | some r =>
        cases S with
        | none => exact Or.inl (Or.inr rfl)
        | some s => exact Or.inr ⟨.sm2 r s c id, rfl, key (.sm2 r s c id)⟩

/-- The value has the type that the scheme asks for of an EC key. -/
def Matches (sch : Scheme) : ValueP → Prop
  | .dsa _ => sch.toNat ≤ 8
  | .sm2 _ => sch = 9
  | _ => False

/-- The first number of the value is there and is not in the range from which `Verify` goes on to the second:
from 1, for SM2 up to the order `N` of the curve. -/
def FirstOutOfRange (N : Nat) : ValueP → Prop
  | .dsa (some o) => ∃ r, o.R = some r ∧ r ≤ 0
  | .sm2 (some (o, _)) => ∃ r, o.R = some r ∧ (r ≤ 0 ∨ (N : Int) ≤ r)
  | _ => False

theorem hashOf_ecdsa {sch : Scheme} (h : sch.toNat ≤ 8) : ∃ a, hashOf sch = some a := by
  have : ∀ b : Byte, b.toNat ≤ 8 → (hashOf b).isSome = true := by decide +kernel
  exact Option.isSome_iff_exists.1 (this sch h)

/-- **C119** `Verify` on a value with something missing. It never accepts one. It panics exactly when the message is
not empty and
* the key is an EC key, the type of the value matches the scheme, and the first number is missing or in the range
  (a value out of the range is refused before the second number is looked at),
* or the key is an Ed25519 or Ethereum key and the scheme is its scheme (the value is not a byte slice). -/
theorem C119_verify (E : Signature.Ext) (pub : PublicKey) (msg : Bytes) (sch : Scheme) (v : ValueP)
    (hi : Incomplete v) (hN : ∀ alg k, pub = .ec alg k → k.curve.N ≠ 0) :
    verifyP E pub msg ⟨sch, v⟩ ≠ .ok true ∧
    ((∃ m, verifyP E pub msg ⟨sch, v⟩ = .panic m) ↔
      msg ≠ [] ∧
      ((∃ alg k, pub = .ec alg k ∧ Matches sch v ∧ ¬ FirstOutOfRange k.curve.N v) ∨
       (∃ k, pub = .ed k ∧ sch = 10) ∨ (∃ k, pub = .eth k ∧ sch = 11))) := by
  unfold verifyP
  by_cases hm : msg.length = 0
  · rw [if_pos hm, List.length_eq_zero_iff.1 hm]
    simp
  have hm' : msg ≠ [] := fun e => hm (by rw [e]; rfl)
  rw [if_neg hm]
  simp only [ne_eq, hm', not_false_eq_true, true_and]
  cases pub with
  | unknown => cases hashOf sch <;> simp
  | ed k =>
    by_cases hs : sch = 10
    · subst hs
      cases v with
      | bytes b => exact hi.elim
      | other => exact hi.elim
      | dsa p => simp [hashOf, SHA512withEDDSA]
      | sm2 p => simp [hashOf, SHA512withEDDSA]
    · cases hashOf sch <;> simp [SHA512withEDDSA, show ¬ sch = 10#8 from hs]
  | eth k =>
    by_cases hs : sch = 11
    · subst hs
      cases v with
      | bytes b => exact hi.elim
      | other => exact hi.elim
      | dsa p => simp [hashOf, KECCAK256WithECDSA]
      | sm2 p => simp [hashOf, KECCAK256WithECDSA]
    · cases hashOf sch <;> simp [KECCAK256WithECDSA, show ¬ sch = 11#8 from hs]
  | ec alg k =>
    have hN' := hN alg k rfl
    have red : ((∃ alg' k', PublicKey.ec alg k = .ec alg' k' ∧ Matches sch v ∧ ¬ FirstOutOfRange k'.curve.N v) ∨
        (∃ k', PublicKey.ec alg k = .ed k' ∧ sch = 10) ∨ (∃ k', PublicKey.ec alg k = .eth k' ∧ sch = 11)) ↔
        (Matches sch v ∧ ¬ FirstOutOfRange k.curve.N v) := by
      constructor
      · rintro (⟨_, _, h, h2⟩ | ⟨_, h, -⟩ | ⟨_, h, -⟩)
        · cases h; exact h2
        · cases h
        · cases h
      · exact fun h => Or.inl ⟨alg, k, rfl, h⟩
    rw [red]
    cases v with
    | bytes b => exact hi.elim
    | other => exact hi.elim
    | dsa p =>
      by_cases hs : sch.toNat ≤ 8
      · have hE := (isECDSA_iff sch).2 hs
        obtain ⟨a, ha⟩ := hashOf_ecdsa hs
        simp only [ha, hE, if_true, Matches, hs, true_and]
        cases p with
        | none => simp [FirstOutOfRange]
        | some o =>
          obtain ⟨R, S, c⟩ := o
          cases R with
          | none => simp [ecdsaVerifyP, FirstOutOfRange]
          | some r =>
            cases S with
            | some s => simp [Incomplete] at hi
            | none =>
              simp only [ecdsaVerifyP, FirstOutOfRange, Option.some.injEq, exists_eq_left']
              by_cases hr : r ≤ 0 <;> simp [hr]
      · have hE : isECDSA sch = false := by
          rw [← Bool.not_eq_true, isECDSA_iff]; exact hs
        cases hashOf sch with
        | none => simp [Matches, hs]
        | some a =>
          simp only [hE, Matches, hs]
          by_cases h9 : sch = SM3withSM2 <;> simp [h9]
    | sm2 p =>
      by_cases hs : sch = 9
      · subst hs
        have h1 : hashOf 9 = some .sm3 := rfl
        have h2 : isECDSA 9 = false := rfl
        have h3 : (9 : Scheme) = SM3withSM2 := rfl
        simp only [h1, h2, Matches, true_and]
        rw [if_neg (by decide), if_pos trivial]
        cases p with
        | none => simp [FirstOutOfRange]
        | some q =>
          obtain ⟨⟨R, S, c⟩, id⟩ := q
          cases R with
          | none => simp [sm2VerifyP, FirstOutOfRange, hN']
          | some r =>
            cases S with
            | some s => simp [Incomplete] at hi
            | none =>
              simp only [sm2VerifyP, FirstOutOfRange, Option.some.injEq, exists_eq_left', if_neg hN', ge_iff_le]
              by_cases hr : r ≤ 0 ∨ (k.curve.N : Int) ≤ r <;> simp [hr]
      · have hs' : ¬ sch = SM3withSM2 := hs
        cases hashOf sch with
        | none => simp [Matches, show ¬ sch = 9#8 from hs]
        | some a =>
          simp only [Matches, if_neg hs', hs]
          cases isECDSA sch <;> simp

/-- **C119** `Serialize` on a value with something missing: it panics if the type of the value matches the scheme,
and returns an error otherwise. -/
theorem C119_serialize (sch : Scheme) (v : ValueP) (hi : Incomplete v) :
    (Matches sch v → ∃ m, serializeP ⟨sch, v⟩ = .panic m) ∧
    (¬ Matches sch v → ∃ m, serializeP ⟨sch, v⟩ = .err m) := by
  cases v with
  | bytes b => exact hi.elim
  | other => exact hi.elim
  | dsa p =>
    constructor
    · intro hs
      have hE := (isECDSA_iff sch).2 hs
      cases p with
      | none => exact ⟨_, by simp [serializeP, serializeValueP, hE, Res.map]; rfl⟩
      | some o =>
        have ho : serializeDSAP o = .panic "serializeDSA: invalid argument" := by
          obtain ⟨R, S, c⟩ := o
          cases R <;> cases S <;> simp [Incomplete] at hi <;> rfl
        exact ⟨_, by simp [serializeP, serializeValueP, hE, ho, Res.map]; rfl⟩
    · intro hs
      have hE : isECDSA sch = false := by
        rw [← Bool.not_eq_true, isECDSA_iff]; exact hs
      exact ⟨_, by simp [serializeP, serializeValueP, hE, Res.map]; rfl⟩
  | sm2 p =>
    constructor
    · intro hs
      have hs' : sch = SM3withSM2 := hs
      cases p with
      | none => exact ⟨_, by simp [serializeP, serializeValueP, hs', Res.map]; rfl⟩
      | some q =>
        obtain ⟨o, id⟩ := q
        have ho : serializeDSAP o = .panic "serializeDSA: invalid argument" := by
          obtain ⟨R, S, c⟩ := o
          cases R <;> cases S <;> simp [Incomplete] at hi <;> rfl
        exact ⟨_, by simp [serializeP, serializeValueP, hs', ho, Res.map]; rfl⟩
    · intro hs
      have hs' : ¬ sch = SM3withSM2 := hs
      exact ⟨_, by
        unfold serializeP serializeValueP
        dsimp only
        rw [if_pos hs']
        rfl⟩

/-- Values that meet the hypotheses: one that panics, and one that is refused because its first number is 0. -/
example : Incomplete (.dsa (some ⟨some 5, none, some Curves.p256⟩)) ∧
    Matches 1 (.dsa (some ⟨some 5, none, some Curves.p256⟩)) ∧
    ¬ FirstOutOfRange Curves.p256.N (.dsa (some ⟨some 5, none, some Curves.p256⟩)) ∧
    Incomplete (.sm2 (some (⟨some 0, none, none⟩, []))) ∧ Matches 9 (.sm2 (some (⟨some 0, none, none⟩, []))) ∧
    FirstOutOfRange Curves.sm2.N (.sm2 (some (⟨some 0, none, none⟩, []))) ∧ Curves.p256.N ≠ 0 := by
  refine ⟨Or.inr rfl, (by decide : (1 : Scheme).toNat ≤ 8), ?_, Or.inr rfl, rfl, ⟨0, rfl, Or.inl le_rfl⟩, by decide⟩
  rintro ⟨r, h, h2⟩
  cases h
  omega

end Verif.Props
