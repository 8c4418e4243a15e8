import Verif.Lemmas.BigConc
/-!
# C122: calls leave the numbers they are given alone and can run at the same time
-/
namespace Verif.Props

open Verif.Big

/-- C122: any number of goroutines make calls on keys, signatures and curves that they may share. However their
steps are interleaved, a call that has returned has returned what it returns for the values its arguments had
before; and this stays so, whatever the other goroutines do later. -/
theorem C122_right {n : Nat} (calls : Fin n → Call) (m₀ : Mem) (h : ∀ i, (calls i).Given (i + 1) 0 m₀)
    (s : Conf fun i => (calls i).Ret) (hs : Relation.ReflTransGen Conf.Step (start calls m₀) s)
    (i : Fin n) (a : (calls i).Ret) (ha : s.prog i = .ret a) :
    (calls i).Right (i + 1) 0 (s.count i) m₀ s.mem a := by
  have inv := inv_reach (s₀ := start calls m₀) (fun i => (call_own (calls i) (h i)).at _ _) hs
  have hr := inv.ret i
  have hm := inv.mem i
  have hn := inv.cnt i
  rw [ha] at hr hm hn
  have hc := (call_right (t := i + 1) (by omega) (calls i) (h i)).2.1
  have e : a = (exec (i + 1) (calls i).prog m₀ 0).1 := hr
  have en : s.count i = (exec (i + 1) (calls i).prog m₀ 0).2.2 := hn
  rw [e, en]
  exact right_agree hm (calls i) _ hc

/-- C122: at every moment all objects that were there before the calls (the numbers in keys, signatures, curve
parameters and package variables) have the values they had. -/
theorem C122_unchanged {n : Nat} (calls : Fin n → Call) (m₀ : Mem) (h : ∀ i, (calls i).Given (i + 1) 0 m₀)
    (s : Conf fun i => (calls i).Ret) (hs : Relation.ReflTransGen Conf.Step (start calls m₀) s)
    (r : Ref) (hr : r.owner = 0) : s.mem r = m₀ r :=
  (inv_reach (s₀ := start calls m₀) (fun i => (call_own (calls i) (h i)).at _ _) hs).shared r hr

/-- C122: there are no data races: when one goroutine is about to write a number, no other is about to read or write
it. -/
theorem C122_no_race {n : Nat} (calls : Fin n → Call) (m₀ : Mem) (h : ∀ i, (calls i).Given (i + 1) 0 m₀)
    (s : Conf fun i => (calls i).Ret) (hs : Relation.ReflTransGen Conf.Step (start calls m₀) s)
    (i j : Fin n) (hij : i ≠ j) (r : Ref) (hw : (s.prog i).Writes (i + 1) (s.count i) r) :
    ¬ (s.prog j).Reads r ∧ ¬ (s.prog j).Writes (j + 1) (s.count j) r := by
  have inv := inv_reach (s₀ := start calls m₀) (fun i => (call_own (calls i) (h i)).at _ _) hs
  exact inv.no_race i j hij r hw

/-- C122: no call waits for another: from every moment on, any call can be brought to its end. -/
theorem C122_finishes {n : Nat} (calls : Fin n → Call) (s : Conf fun i => (calls i).Ret) (i : Fin n) :
    ∃ s' a, Relation.ReflTransGen Conf.Step s s' ∧ s'.prog i = .ret a := finish i _ s rfl

/-! A case: one private key for the SM2 curve with `D = 1`, which two goroutines use to sign while a third verifies with
its public key and a fourth decodes a key for the same curve object. -/

/-- The numbers of the curve, the key, the variable `one` and a signature. -/
def sharedMem : Mem := fun r =>
  if r.owner = 0 then
    ([(Curves.sm2.P : Int), Curves.sm2.N, Curves.sm2.B, Curves.sm2.Gx, Curves.sm2.Gy, Curves.sm2.Gx, Curves.sm2.Gy, 1, 1,
      5, 7].getD r.idx 0)
  else 0

/-- The curve object. -/
def sharedCurve : CurveObj := ⟨Curves.sm2, ⟨0, 0⟩, ⟨0, 1⟩, ⟨0, 2⟩, ⟨0, 3⟩, ⟨0, 4⟩⟩

/-- The private key. -/
def sharedPriv : PrivObj := ⟨⟨0, 7⟩, ⟨sharedCurve, ⟨0, 5⟩, ⟨0, 6⟩⟩⟩

/-- The calls. -/
def sharedCalls (E : SM2.Ext) (H : Bytes → Bytes) : Fin 4 → Call
  | 0 => .sign E H ⟨0, 8⟩ 10 (zeros 32) sharedPriv [] [1, 2, 3]
  | 1 => .sign E H ⟨0, 8⟩ 10 (zeros 32) sharedPriv [] [4, 5]
  | 2 => .verify E H sharedPriv.pub [] [1, 2, 3] ⟨0, 9⟩ ⟨0, 10⟩
  | 3 => .decode "secp256k1" (4 :: zeros 64) sharedCurve []

theorem sharedPriv_given (t n : Nat) : sharedPriv.Given t n sharedMem := by
  refine ⟨⟨⟨⟨.inl rfl, .inl rfl, .inl rfl, .inl rfl, .inl rfl⟩, ⟨rfl, rfl, rfl, rfl, rfl⟩, ?_, ?_⟩, ⟨.inl rfl, ?_⟩,
    ⟨.inl rfl, ?_⟩⟩, ⟨.inl rfl, ?_⟩⟩ <;> decide

theorem sharedCalls_given (E : SM2.Ext) (H : Bytes → Bytes) : ∀ i : Fin 4, (sharedCalls E H i).Given (i + 1) 0 sharedMem
  | 0 => ⟨sharedPriv_given _ _, rfl, rfl⟩
  | 1 => ⟨sharedPriv_given _ _, rfl, rfl⟩
  | 2 => ⟨(sharedPriv_given _ _).1, .inl rfl, .inl rfl⟩
  | 3 => (sharedPriv_given _ _).1.1

example (E : SM2.Ext) (H : Bytes → Bytes) (s) (hs : Relation.ReflTransGen Conf.Step (start (sharedCalls E H) sharedMem) s)
    (r : Ref × Ref) (ha : s.prog 1 = .ret (some (.ok r))) :
    some (.ok ((s.mem r.1).toNat, (s.mem r.2).toNat)) =
      SM2.sign E H 10 (zeros 32) ⟨1, ⟨Curves.sm2, Curves.sm2.Gx, Curves.sm2.Gy⟩⟩ [] [4, 5] :=
  (C122_right (sharedCalls E H) sharedMem (sharedCalls_given E H) s hs 1 _ ha).1

/-- The key that the fourth goroutine decodes has other objects than the key that is used for signing. -/
example (E : SM2.Ext) (H : Bytes → Bytes) (s) (hs : Relation.ReflTransGen Conf.Step (start (sharedCalls E H) sharedMem) s)
    (q : PubObj) (ha : s.prog 3 = .ret (some (.ok q))) : q.X ≠ sharedPriv.pub.X := by
  have h := ((C122_right (sharedCalls E H) sharedMem (sharedCalls_given E H) s hs 3 _ ha).2 q rfl).2.1.1.1
  intro e
  rw [e] at h
  exact absurd h (by decide)

/-- At the start the fourth goroutine is about to write. -/
example (E : SM2.Ext) (H : Bytes → Bytes) : ((start (sharedCalls E H) sharedMem).prog 3).Writes 4 0 ⟨4, 0⟩ := rfl

/-- A curve method on the coordinates of the same key. -/
example : (Call.combined sharedCurve sharedPriv.pub.X sharedPriv.pub.Y [7] [9]).Given 1 0 sharedMem :=
  ⟨⟨(sharedPriv_given 1 0).1.1, rfl⟩, (sharedPriv_given 1 0).1.2⟩

/-- Encoding the public key, serializing the signature and making a key on the same curve object. -/
example (E : Keypair.Ext) : (Call.encode sharedPriv.pub true).Given 1 0 sharedMem ∧
    (Call.serializePriv E .sm2 sharedPriv).Given 1 0 sharedMem ∧ (Call.compare .sm2 .sm2 sharedPriv.pub sharedPriv.pub).Given 1 0 sharedMem ∧
    (Call.generate E sharedCurve .sm2 []).Given 1 0 sharedMem ∧
    (Call.serializeSig Signature.SM3withSM2 (some []) ⟨⟨0, 9⟩, ⟨0, 10⟩, some Curves.sm2⟩).Given 1 0 sharedMem :=
  ⟨(sharedPriv_given 1 0).1, (sharedPriv_given 1 0), ⟨(sharedPriv_given 1 0).1, (sharedPriv_given 1 0).1⟩, (sharedPriv_given 1 0).1.1, .inl rfl, .inl rfl⟩

end Verif.Props
