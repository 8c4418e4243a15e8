import Verif.Model.SM4
import Verif.Spec.SM4
import Verif.Lemmas.SM3
import Verif.Lemmas.Slice

namespace Verif.SM4
open Verif

/-! ## Bytes and words -/

theorem loadWord_eq (p : Bytes) (i : Nat) (h : 4 * i + 4 ≤ p.length) :
    loadWord p (4 * i) = Spec.SM4.wordAt p i := by
  have := SM3.loadWord_eq p i h
  rw [Nat.mul_comm] at this
  exact this

theorem wordBytes_eq (s : Word) : wordBytes s = beFix 4 s.toNat := SM3.wordBytes_eq s

theorem loadWord_wordBytes (s : Word) (a c : Bytes) (j : Nat) (hj : a.length = j) :
    loadWord (a ++ wordBytes s ++ c) j = s := by
  subst hj
  have hl : (wordBytes s).length = 4 := rfl
  have e : ∀ k, k < 4 → (a ++ wordBytes s ++ c).getD (a.length + k) 0 = (wordBytes s).getD k 0 := by
    intro k hk
    simp only [List.getD_eq_getElem?_getD]
    rw [List.append_assoc, List.getElem?_append_right (by omega), Nat.add_sub_cancel_left,
      List.getElem?_append_left (by omega)]
  unfold loadWord
  have e0 := e 0 (by omega)
  rw [Nat.add_zero] at e0
  rw [e0, e 1 (by omega), e 2 (by omega), e 3 (by omega)]
  have hc := SM3.combine_eq ((wordBytes s).getD 0 0) ((wordBytes s).getD 1 0)
    ((wordBytes s).getD 2 0) ((wordBytes s).getD 3 0)
  refine Eq.trans hc ?_
  have : [(wordBytes s).getD 0 0, (wordBytes s).getD 1 0, (wordBytes s).getD 2 0,
      (wordBytes s).getD 3 0] = wordBytes s := rfl
  rw [this, wordBytes_eq, natOfBytes_beFix_of_lt s.isLt]
  simp

theorem loadQuad_storeQuad (q : Quad) : loadQuad (storeQuad q) = q := by
  obtain ⟨a, b, c, d⟩ := q
  unfold loadQuad storeQuad
  simp only [Quad.mk.injEq]
  refine ⟨?_, ?_, ?_, ?_⟩
  · have := loadWord_wordBytes a [] (wordBytes b ++ wordBytes c ++ wordBytes d) 0 rfl
    simpa using this
  · have := loadWord_wordBytes b (wordBytes a) (wordBytes c ++ wordBytes d) 4 rfl
    simpa using this
  · have := loadWord_wordBytes c (wordBytes a ++ wordBytes b) (wordBytes d) 8 rfl
    simpa using this
  · have := loadWord_wordBytes d (wordBytes a ++ wordBytes b ++ wordBytes c) [] 12 rfl
    simpa using this

theorem wordBytes_loadWord (p : Bytes) (j : Nat) (h : j + 4 ≤ p.length) :
    wordBytes (loadWord p j) = (p.drop j).take 4 := by
  have hl : ((p.drop j).take 4).length = 4 := by simp; omega
  rw [wordBytes_eq]
  have := SM3.combine_eq (p.getD j 0) (p.getD (j+1) 0) (p.getD (j+2) 0) (p.getD (j+3) 0)
  rw [← SM3.drop_take_four p j h] at this
  have hv : loadWord p j = BitVec.ofNat 32 (natOfBytes ((p.drop j).take 4)) := this
  have hlt := natOfBytes_lt ((p.drop j).take 4)
  rw [hl] at hlt
  rw [hv, BitVec.toNat_ofNat, Nat.mod_eq_of_lt hlt]
  have := beFix_natOfBytes ((p.drop j).take 4)
  rwa [hl] at this

theorem take_add_drop (p : Bytes) (i j : Nat) : p.take i ++ (p.drop i).take j = p.take (i + j) :=
  (List.take_add).symm

theorem storeQuad_loadQuad (p : Bytes) (h : 16 ≤ p.length) : storeQuad (loadQuad p) = p.take 16 := by
  unfold storeQuad loadQuad
  simp only
  rw [wordBytes_loadWord p 0 (by omega), wordBytes_loadWord p 4 (by omega),
    wordBytes_loadWord p 8 (by omega), wordBytes_loadWord p 12 (by omega)]
  rw [List.drop_zero, take_add_drop, take_add_drop, take_add_drop]

theorem storeQuad_length (q : Quad) : (storeQuad q).length = 16 := rfl

theorem cryptBytes_length (ks : List Word) (src : Bytes) (d : Bool) :
    (cryptBytes ks src d).length = 16 := rfl

theorem loadQuad_take (p : Bytes) : loadQuad (p.take 16) = loadQuad p := by
  unfold loadQuad loadWord
  simp

theorem cryptBytes_take (ks : List Word) (p : Bytes) (d : Bool) :
    cryptBytes ks (p.take 16) d = cryptBytes ks p d := by
  unfold cryptBytes; rw [loadQuad_take]

/-! ## Feistel structure -/

theorem roundStep_undo (m : Quad) (k : Word) : roundStep (r (roundStep m k)) k = r m := by
  obtain ⟨a, b, c, d⟩ := m
  simp only [roundStep, r, f, Quad.mk.injEq, true_and]
  have : d ^^^ c ^^^ b ^^^ k = b ^^^ c ^^^ d ^^^ k := by
    rw [BitVec.xor_comm d c, BitVec.xor_comm (c ^^^ d) b, ← BitVec.xor_assoc]
  rw [this, BitVec.xor_assoc, BitVec.xor_self, BitVec.xor_zero]

theorem rounds_undo (ks : List Word) (m : Quad) :
    ks.reverse.foldl roundStep (r (ks.foldl roundStep m)) = r m := by
  induction ks generalizing m with
  | nil => rfl
  | cons k ks ih =>
    rw [List.reverse_cons, List.foldl_append, List.foldl_cons (b := m), ih]
    exact roundStep_undo m k

theorem r_r (m : Quad) : r (r m) = m := rfl

theorem crypt_undo (ks : List Word) (p : Bytes) (h : 16 ≤ p.length) (d : Bool) :
    cryptBytes ks (cryptBytes ks p d) (!d) = p.take 16 := by
  unfold cryptBytes
  rw [loadQuad_storeQuad, ← storeQuad_loadQuad p h]
  congr 1
  unfold rounds
  cases d
  · simp only [Bool.false_eq_true, if_false, Bool.not_false, if_true, rounds_undo, r_r]
  · have := rounds_undo ks.reverse (loadQuad p)
    rw [List.reverse_reverse] at this
    simp only [Bool.not_true, Bool.false_eq_true, if_false, if_true, this, r_r]

/-! ## Conformance -/

theorem sboxAt_eq : ∀ b : Byte, sboxAt b = (Spec.SM4.S b).setWidth 32 := by
  set_option maxRecDepth 100000 in
  decide +kernel

theorem ck_length : ck.length = 32 := rfl
theorem ck_getD : ∀ i : Fin 32, ck.getD i 0 = Spec.SM4.CK i := by decide +kernel

theorem append_eq_or (a b c d : Byte) :
    (a ++ b ++ c ++ d : BitVec 32) =
      d.setWidth 32 ||| c.setWidth 32 <<< 8 ||| b.setWidth 32 <<< 16 ||| a.setWidth 32 <<< 24 := by
  apply BitVec.eq_of_getLsbD_eq
  intro i hi
  simp only [BitVec.getLsbD_append, BitVec.getLsbD_or, BitVec.getLsbD_shiftLeft,
    BitVec.getLsbD_setWidth]
  by_cases h8 : i < 8
  · have : i < 16 := by omega
    have : i < 24 := by omega
    simp [*]
  · have hd : d.getLsbD i = false := BitVec.getLsbD_of_ge _ _ (by omega)
    by_cases h16 : i < 16
    · have h1 : i - 8 < 8 := by omega
      have : i < 24 := by omega
      have h2 : i - 8 < 32 := by omega
      simp [*]
    · have hc : c.getLsbD (i - 8) = false := BitVec.getLsbD_of_ge _ _ (by omega)
      by_cases h24 : i < 24
      · have h1 : ¬ (i - 8 < 8) := by omega
        have h2 : i - 8 - 8 = i - 16 := by omega
        have h3 : i - 16 < 8 := by omega
        have h4 : i - 16 < 32 := by omega
        simp [*]
      · have hb : b.getLsbD (i - 16) = false := BitVec.getLsbD_of_ge _ _ (by omega)
        have h1 : ¬ (i - 8 < 8) := by omega
        have h2 : i - 8 - 8 = i - 16 := by omega
        have h3 : ¬ (i - 16 < 8) := by omega
        have h4 : i - 16 - 8 = i - 24 := by omega
        have h5 : i - 24 < 32 := by omega
        simp [*]

theorem byteOf_eq (w : Word) : Spec.SM4.byteOf w 0 = (w >>> 24).setWidth 8 ∧
    Spec.SM4.byteOf w 1 = (w >>> 16).setWidth 8 ∧ Spec.SM4.byteOf w 2 = (w >>> 8).setWidth 8 ∧
    Spec.SM4.byteOf w 3 = w.setWidth 8 := by
  refine ⟨?_, ?_, ?_, ?_⟩ <;>
  · apply BitVec.eq_of_getLsbD_eq
    intro i hi
    simp [Spec.SM4.byteOf, hi]

theorem tao_eq (w : Word) : tao w = Spec.SM4.tau w := by
  obtain ⟨h0, h1, h2, h3⟩ := byteOf_eq w
  unfold tao Spec.SM4.tau
  rw [h0, h1, h2, h3, append_eq_or]
  simp only [sboxAt_eq]

theorem t_eq (w : Word) : t w = Spec.SM4.L (Spec.SM4.tau w) := by
  unfold t; rw [tao_eq]; rfl

theorem kt_eq (w : Word) : kt w = Spec.SM4.L' (Spec.SM4.tau w) := by
  unfold kt; rw [tao_eq]; rfl

/-- Four consecutive terms of the recurrence. -/
def quadAt (g : Word → Word) (c init : Nat → Word) (i : Nat) : Quad :=
  ⟨Spec.SM4.recur g c init i, Spec.SM4.recur g c init (i+1), Spec.SM4.recur g c init (i+2),
    Spec.SM4.recur g c init (i+3)⟩

theorem keyLoop_eq (c init : Nat → Word) (cs : List Word) : ∀ (i : Nat),
    (∀ j, j < cs.length → cs.getD j 0 = c (i + j)) →
    keyLoop (quadAt kt c init i) cs
      = (List.range cs.length).map fun j => Spec.SM4.recur kt c init (i + j + 4) := by
  induction cs with
  | nil => intros; rfl
  | cons x cs ih =>
    intro i hc
    have hx : x = c i := by simpa using hc 0 (by simp)
    have hstep : (keyStep (quadAt kt c init i) x).1 = quadAt kt c init (i+1) := by
      rw [hx]; rfl
    have hout : (keyStep (quadAt kt c init i) x).2 = Spec.SM4.recur kt c init (i+4) := by
      rw [hx]; rfl
    rw [keyLoop, hstep, hout, ih (i+1)]
    · rw [List.length_cons, List.range_succ_eq_map, List.map_cons, List.map_map]
      congr 1
      apply List.map_congr_left
      intro j _
      simp only [Function.comp]
      congr 1; omega
    · intro j hj
      have := hc (j+1) (by simp; omega)
      rw [← Nat.add_assoc, Nat.add_right_comm] at this
      simpa using this

theorem recur_congr {g : Word → Word} {c c' init init' : Nat → Word} (n : Nat)
    (hi : ∀ j, j < 4 → init j = init' j) (hc : ∀ j, j + 4 ≤ n → c j = c' j) :
    Spec.SM4.recur g c init n = Spec.SM4.recur g c' init' n := by
  induction n using Nat.strongRecOn with
  | _ n ih =>
    match n, ih, hc with
    | 0, _, _ => exact hi 0 (by omega)
    | 1, _, _ => exact hi 1 (by omega)
    | 2, _, _ => exact hi 2 (by omega)
    | 3, _, _ => exact hi 3 (by omega)
    | n + 4, ih, hc =>
      simp only [Spec.SM4.recur]
      rw [ih n (by omega) (fun j hj => hc j (by omega)),
        ih (n+1) (by omega) (fun j hj => hc j (by omega)),
        ih (n+2) (by omega) (fun j hj => hc j (by omega)),
        ih (n+3) (by omega) (fun j hj => hc j (by omega)), hc n (by omega)]

theorem kt_fun : kt = fun x => Spec.SM4.L' (Spec.SM4.tau x) := funext kt_eq
theorem t_fun : t = fun x => Spec.SM4.L (Spec.SM4.tau x) := funext t_eq

theorem generateSubkeys_eq (key : Bytes) (h : key.length = 16) :
    generateSubkeys key = (List.range 32).map (Spec.SM4.rk key) := by
  unfold generateSubkeys
  have hq : (⟨(loadQuad key).a ^^^ fk.getD 0 0, (loadQuad key).b ^^^ fk.getD 1 0,
      (loadQuad key).c ^^^ fk.getD 2 0, (loadQuad key).d ^^^ fk.getD 3 0⟩ : Quad)
      = quadAt kt Spec.SM4.CK (fun j => Spec.SM4.wordAt key j ^^^ Spec.SM4.FK j) 0 := by
    unfold quadAt loadQuad
    simp only [Spec.SM4.recur]
    rw [← loadWord_eq key 0 (by omega), ← loadWord_eq key 1 (by omega),
      ← loadWord_eq key 2 (by omega), ← loadWord_eq key 3 (by omega)]
    rfl
  simp only [hq]
  rw [keyLoop_eq _ _ ck 0]
  · rw [ck_length]
    apply List.map_congr_left
    intro i _
    rw [Nat.zero_add, Spec.SM4.rk, kt_fun]
  · intro j hj
    rw [Nat.zero_add]
    exact ck_getD ⟨j, hj⟩

theorem rounds_eq (c init : Nat → Word) (ks : List Word) : ∀ (i : Nat),
    (∀ j, j < ks.length → ks.getD j 0 = c (i + j)) →
    ks.foldl roundStep (quadAt t c init i) = quadAt t c init (i + ks.length) := by
  induction ks with
  | nil => intros; rfl
  | cons x ks ih =>
    intro i hc
    have hx : x = c i := by simpa using hc 0 (by simp)
    have hstep : roundStep (quadAt t c init i) x = quadAt t c init (i+1) := by rw [hx]; rfl
    rw [List.foldl_cons, hstep, ih (i+1)]
    · rw [List.length_cons]; congr 1; omega
    · intro j hj
      have := hc (j+1) (by simp; omega)
      rw [← Nat.add_assoc, Nat.add_right_comm] at this
      simpa using this

theorem foldRounds_out (ks : List Word) (hk : ks.length = 32) (c : Nat → Word)
    (hc : ∀ j, j < 32 → ks.getD j 0 = c j) (p : Bytes) (hp : 16 ≤ p.length) :
    storeQuad (r (ks.foldl roundStep (loadQuad p))) = Spec.SM4.out c p := by
  have hq : loadQuad p = quadAt t c (Spec.SM4.wordAt p) 0 := by
    unfold quadAt loadQuad
    simp only [Spec.SM4.recur]
    rw [← loadWord_eq p 0 (by omega), ← loadWord_eq p 1 (by omega),
      ← loadWord_eq p 2 (by omega), ← loadWord_eq p 3 (by omega)]
  rw [hq, rounds_eq c _ ks 0 (by rw [hk]; simpa using hc), hk]
  unfold Spec.SM4.out Spec.SM4.X storeQuad r quadAt
  simp only [wordBytes_eq, Nat.zero_add, t_fun]

theorem crypt_encrypt_eq (key p : Bytes) (hk : key.length = 16) (hp : 16 ≤ p.length) :
    cryptBytes (generateSubkeys key) p false = Spec.SM4.encrypt key p := by
  unfold cryptBytes rounds
  rw [generateSubkeys_eq key hk]
  simp only [Bool.false_eq_true, if_false]
  exact foldRounds_out _ (by simp) _ (by intro j hj; simp [hj]) p hp

theorem crypt_decrypt_eq (key p : Bytes) (hk : key.length = 16) (hp : 16 ≤ p.length) :
    cryptBytes (generateSubkeys key) p true = Spec.SM4.decrypt key p := by
  unfold cryptBytes rounds
  rw [generateSubkeys_eq key hk]
  simp only [if_true]
  refine foldRounds_out _ (by simp) _ ?_ p hp
  intro j hj
  rw [List.getD_eq_getElem?_getD, List.getElem?_reverse (by simpa using hj)]
  simp
  rw [List.getElem?_range (by omega)]
  simp

end Verif.SM4
