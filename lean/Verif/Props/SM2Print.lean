import Verif.Lemmas.SM2Print
import Verif.Props.SM2Enc
/-!
# C130: what SM2 encryption and decryption print

Specification: `Verif.Spec.agree` (Spec/Agree.lean), the length of the longest common prefix. Model:
`Verif.SM2.encryptOut` and `Verif.SM2.decryptOut` (Model/SM2Print.lean).
-/
namespace Verif.Props
open Verif Verif.Spec

/-- `k` lines for a message of `len` bytes; they count from 0. -/
def printed (len k : Nat) : List SM2.Line := (List.range k).map fun i => ⟨len, 64, i⟩

/-- **C130** for `Decrypt`, any input and any curve implementation. It returns what `decrypt` returns. When a message
is returned, with or without an error, it prints one line for each byte, from the start, in which the message is equal
to the ciphertext, and one more line. When the mask is rejected it prints `min 64 len` lines. Otherwise it prints
nothing. -/
theorem C130_decrypt_partial (E : SM2.Ext) (priv : ECPriv) (data spare : Bytes) :
    (SM2.decryptOut E priv data spare).2 = SM2.decrypt E priv data spare ∧
    (∀ m e, SM2.decrypt E priv data spare = .ok (some m, e) →
      (SM2.decryptOut E priv data spare).1 = printed m.length (agree m (data.drop 96) + 1)) ∧
    (SM2.decrypt E priv data spare = .ok (none, some "KDF calc error") →
      (SM2.decryptOut E priv data spare).1 = printed (data.length - 96) (min 64 (data.length - 96))) ∧
    ((∀ r, SM2.decrypt E priv data spare = .ok r → r.1 = none ∧ r.2 ≠ some "KDF calc error") →
      (SM2.decryptOut E priv data spare).1 = []) := by
  unfold SM2.decryptOut SM2.decrypt
  by_cases h1 : priv.pub.curve ≠ Curves.sm2
  · simp only [if_pos h1]
    refine ⟨trivial, ?_, ?_, fun _ => trivial⟩
    · intro m e h; cases h
    · intro h; exact absurd (Prod.ext_iff.1 (Res.ok.inj h)).2 (by decide)
  simp only [if_neg h1]
  by_cases h2 : (data ++ spare).length < 64
  · simp only [if_pos h2]
    refine ⟨trivial, ?_, ?_, fun _ => trivial⟩
    · intro m e h; cases h
    · intro h; cases h
  simp only [if_neg h2]
  generalize natOfBytes ((data ++ spare).take 32) = x1
  generalize natOfBytes (((data ++ spare).drop 32).take 32) = y1
  by_cases h3 : x1 = 0 ∧ y1 = 0
  · simp only [if_pos h3]
    refine ⟨trivial, ?_, ?_, fun _ => trivial⟩
    · intro m e h; cases h
    · intro h; exact absurd (Prod.ext_iff.1 (Res.ok.inj h)).2 (by decide)
  simp only [if_neg h3]
  by_cases h4 : E.isOnCurve x1 y1 = false
  · simp only [if_pos h4]
    refine ⟨trivial, ?_, ?_, fun _ => trivial⟩
    · intro m e h; cases h
    · intro h; exact absurd (Prod.ext_iff.1 (Res.ok.inj h)).2 (by decide)
  simp only [if_neg h4]
  obtain ⟨⟨bm, mu, ad⟩, e2, e3, e4, e5, e6⟩ := E
  dsimp only
  generalize mu (x1, y1) priv.D = q
  cases hp : SM2.pointBuf q.1 q.2 with
  | err m =>
    refine ⟨rfl, ?_, ?_, fun _ => rfl⟩
    · intro m e h; cases h
    · intro h; cases h
  | panic m =>
    refine ⟨rfl, ?_, ?_, fun _ => rfl⟩
    · intro m e h; cases h
    · intro h; cases h
  | ok c2 =>
    dsimp only
    rw [Res.bind_ok]
    have hl := SM2.pointBuf_length hp
    have h5 := SM2.sm3kdfOut_snd c2 (data.length - 96)
    have h6 := SM2.sm3kdfOut_some c2 (by omega) (data.length - 96)
    have h7 := SM2.sm3kdfOut_none c2 (by omega) (data.length - 96)
    rw [hl] at h6 h7
    generalize SM2.sm3kdfOut c2 (data.length - 96) = o at *
    obtain ⟨ls, t⟩ := o
    dsimp only at h5 h6 h7
    rw [← h5]
    cases t with
    | none =>
      dsimp only
      refine ⟨rfl, ?_, fun _ => h7 h5.symm, fun h => absurd rfl (h _ rfl).2⟩
      intro m e h; cases h
    | some t =>
      dsimp only
      obtain ⟨ht, h6⟩ := h6 t h5.symm
      have hdl : (data.drop 96).length = t.length := by rw [List.length_drop, ht]
      have ha := (SM2.agree_xor (data.drop 96) t hdl).1
      have hml : (List.zipWith (· ^^^ ·) (data.drop 96) t).length = data.length - 96 := by
        rw [List.length_zipWith, hdl, ht]; exact min_self _
      generalize List.zipWith (· ^^^ ·) (data.drop 96) t = msg at *
      obtain ⟨c3, hm⟩ := SM2.macOf_of_pointBuf hp msg
      rw [hm, Res.bind_ok]
      refine ⟨rfl, ?_, ?_, ?_⟩
      · intro m e h
        have : m = msg := by
          split_ifs at h
          · exact (Option.some.inj (Prod.ext_iff.1 (Res.ok.inj h)).1).symm
          · exact (Option.some.inj (Prod.ext_iff.1 (Res.ok.inj h)).1).symm
        subst this
        rw [ha, hml]
        exact h6
      · intro h
        split_ifs at h
        · cases (Prod.ext_iff.1 (Res.ok.inj h)).1
        · cases (Prod.ext_iff.1 (Res.ok.inj h)).1
      · intro h
        split_ifs at h with hc
        · cases (h _ rfl).1
        · cases (h _ rfl).1

/-- The rejected nonces: one block of lines each. -/
theorem encryptLoopOut_spec (E : SM2.Ext) (pub : ECPub) (data : Bytes) (reads : List Bytes) :
    ∀ (out : List SM2.Line) (buf : Bytes), buf.length = 96 + data.length →
    (SM2.encryptLoopOut E pub data out reads buf).2 = SM2.encryptLoop E pub data reads buf ∧
    (∀ ct, SM2.encryptLoop E pub data reads buf = some (.ok ct) → ∃ j < reads.length,
      (SM2.encryptLoopOut E pub data out reads buf).1 = out
        ++ (List.replicate j (printed data.length (min 64 data.length))).flatten
        ++ printed data.length (agree data (ct.drop 96) + 1)) ∧
    (SM2.encryptLoop E pub data reads buf = none → (SM2.encryptLoopOut E pub data out reads buf).1 = out
        ++ (List.replicate reads.length (printed data.length (min 64 data.length))).flatten) ∧
    (∀ m, SM2.encryptLoop E pub data reads buf = some (.err m) →
      (pub.x = 0 ∧ pub.y = 0) ∧ (SM2.encryptLoopOut E pub data out reads buf).1 = out) := by
  induction reads with
  | nil =>
    intro out buf _
    refine ⟨rfl, ?_, fun _ => by simp [SM2.encryptLoopOut], ?_⟩
    · intro ct h; cases h
    · intro m h; cases h
  | cons b bs ih =>
    intro out buf hb
    rw [SM2.encryptLoop, SM2.encryptLoopOut]
    generalize SM2.randFieldElement pub.curve b = k
    generalize E.ops.baseMult k = q1
    dsimp only
    have hput := @SM2.putTwo_ok buf
    have hne := @SM2.putTwo_not_err buf q1.1 q1.2
    generalize hr : ((SM2.putRight buf 32 q1.1).bind fun buf => SM2.putRight buf 64 q1.2) = r at *
    cases r with
    | err m => exact absurd rfl hne
    | panic m =>
      refine ⟨rfl, ?_, ?_, ?_⟩ <;> intros <;> rename_i h <;> cases h
    | ok buf' =>
      have hb' := hput (by omega) hr
      dsimp only
      by_cases h0 : pub.x = 0 ∧ pub.y = 0
      · simp only [if_pos h0]
        refine ⟨trivial, ?_, ?_, fun _ _ => ⟨h0, trivial⟩⟩ <;> intros <;> rename_i h <;> cases h
      simp only [if_neg h0]
      obtain ⟨q2, hq⟩ : ∃ q, E.ops.mult (pub.x, pub.y) k = q := ⟨_, rfl⟩
      simp only [hq]
      cases hp : SM2.pointBuf q2.1 q2.2 with
      | err m => exact absurd hp SM2.putTwo_not_err
      | panic m =>
        refine ⟨rfl, ?_, ?_, ?_⟩ <;> intros <;> rename_i h <;> cases h
      | ok c2 =>
        dsimp only
        have hl := SM2.pointBuf_length hp
        have h5 := SM2.sm3kdfOut_snd c2 data.length
        have h6 := SM2.sm3kdfOut_some c2 (by omega) data.length
        have h7 := SM2.sm3kdfOut_none c2 (by omega) data.length
        rw [hl] at h6 h7
        generalize SM2.sm3kdfOut c2 data.length = o at *
        obtain ⟨ls, t⟩ := o
        dsimp only at h5 h6 h7
        rw [← h5]
        cases t with
        | none =>
          dsimp only
          have h7 : ls = printed data.length (min 64 data.length) := h7 h5.symm
          obtain ⟨i1, i2, i3, i4⟩ := ih (out ++ ls) buf' (by omega)
          refine ⟨i1, ?_, ?_, ?_⟩
          · intro ct h
            obtain ⟨j, hj, e⟩ := i2 ct h
            refine ⟨j + 1, by simpa using hj, ?_⟩
            rw [e, ← h7, List.replicate_succ, List.flatten_cons]
            simp only [List.append_assoc]
          · intro h
            rw [i3 h, ← h7, List.length_cons, List.replicate_succ, List.flatten_cons]
            simp only [List.append_assoc]
          · intro m h
            exact absurd (i4 m h).1 h0
        | some t =>
          dsimp only
          obtain ⟨ht, h6⟩ := h6 t h5.symm
          have ha := (SM2.agree_xor data t ht.symm).2
          obtain ⟨c3, hm⟩ := SM2.macOf_of_pointBuf hp data
          rw [hm, Res.bind_ok]
          refine ⟨rfl, ?_, ?_, ?_⟩
          · intro ct h
            refine ⟨0, by simp, ?_⟩
            have hct : ct.drop 96 = List.zipWith (· ^^^ ·) data t := by
              rw [← Res.ok.inj (Option.some.inj h)]
              apply SM2.goCopyAt_drop
              rw [SM3.goCopyAt_length _ _ _ (by omega), List.length_zipWith, ht, min_self, hb', hb]
            rw [hct, ha, h6]
            simp [printed, SM2.linesOf]
          · intro h; cases h
          · intro m h; cases h

/-- **C130** for `Encrypt`, any input and any curve implementation; `fuel` bounds the nonces tried. It returns what
`encrypt` returns. When a ciphertext is returned it has printed `min 64 len` lines for each nonce that was rejected,
then one line for each byte, from the start, in which the message is equal to the ciphertext, and one more line. When
an error is returned it has printed nothing. -/
theorem C130_encrypt_partial (E : SM2.Ext) (fuel : Nat) (rand : Bytes) (pub : ECPub) (m : Bytes) :
    (SM2.encryptOut E fuel rand pub m).2 = SM2.encrypt E fuel rand pub m ∧
    (∀ ct, SM2.encrypt E fuel rand pub m = some (.ok ct) → ∃ j < fuel, (SM2.encryptOut E fuel rand pub m).1 =
      (List.replicate j (printed m.length (min 64 m.length))).flatten
        ++ printed m.length (agree m (ct.drop 96) + 1)) ∧
    (SM2.encrypt E fuel rand pub m = none → (SM2.encryptOut E fuel rand pub m).1 =
      (List.replicate fuel (printed m.length (min 64 m.length))).flatten) ∧
    (∀ e, SM2.encrypt E fuel rand pub m = some (.err e) → (SM2.encryptOut E fuel rand pub m).1 = []) := by
  unfold SM2.encryptOut SM2.encrypt
  by_cases h1 : pub.curve ≠ Curves.sm2
  · simp only [if_pos h1]
    refine ⟨trivial, ?_, ?_, fun _ _ => trivial⟩ <;> intros <;> rename_i h <;> cases h
  simp only [if_neg h1]
  by_cases h2 : rand.length < SM2.entropyLen pub.curve
  · simp only [if_pos h2]
    refine ⟨trivial, ?_, ?_, fun _ _ => trivial⟩ <;> intros <;> rename_i h <;> cases h
  simp only [if_neg h2]
  generalize List.take 32 (E.sha512 _) = key
  have hn : (SM2.nonceReads E pub.curve key fuel).length = fuel := by simp [SM2.nonceReads]
  obtain ⟨i1, i2, i3, i4⟩ := encryptLoopOut_spec E pub m (SM2.nonceReads E pub.curve key fuel) []
    (zeros (96 + m.length)) (by simp [zeros])
  rw [hn] at i2 i3
  simp only [List.nil_append] at i2 i3 i4
  exact ⟨i1, i2, i3, fun e h => (i4 e h).2⟩

/-- **C130** What a reader of the output learns: if more than `n` lines are printed when a message is decrypted, the
first `n` bytes of the message are those that stand in the ciphertext. -/
theorem C130_disclosed (E : SM2.Ext) (priv : ECPriv) (data spare m : Bytes) (e : Option String)
    (h : SM2.decrypt E priv data spare = .ok (some m, e)) (n : Nat) :
    n < (SM2.decryptOut E priv data spare).1.length ↔
      n ≤ m.length ∧ n ≤ (data.drop 96).length ∧ m.take n = (data.drop 96).take n := by
  rw [(C130_decrypt_partial E priv data spare).2.1 m e h, ← agree_spec, printed, List.length_map, List.length_range]
  omega

/-! ## Cases that occur

The key is `d = 2`. With the nonce 1121 the mask starts with a zero byte. -/

instance : DecidableEq (List SM2.Line × Res SM2.DecOut) := inferInstance

/-- Two lines tell that the first byte of the message "ab" stands in the ciphertext. -/
theorem C130_first_byte : ∃ ct, SM2.encryptOut refStale 1 (zeros 16) priv2.pub [0x61, 0x62]
      = ([⟨2, 64, 0⟩, ⟨2, 64, 1⟩], some (.ok ct)) ∧ ct[96]? = some 0x61 ∧
    SM2.decryptOut refStale priv2 ct [] = ([⟨2, 64, 0⟩, ⟨2, 64, 1⟩], .ok (some [0x61, 0x62], none)) := by
  have h : (match SM2.encryptOut refStale 1 (zeros 16) priv2.pub [0x61, 0x62] with
    | (ls, some (.ok ct)) => some (ls, ct[96]?, SM2.decryptOut refStale priv2 ct [])
    | _ => none) = some ([⟨2, 64, 0⟩, ⟨2, 64, 1⟩], some 0x61,
      ([⟨2, 64, 0⟩, ⟨2, 64, 1⟩], .ok (some [0x61, 0x62], none))) := by decide +kernel
  revert h
  generalize SM2.encryptOut refStale 1 (zeros 16) priv2.pub [0x61, 0x62] = o
  generalize refStale = E
  intro h
  obtain ⟨ls, r⟩ := o
  cases r with
  | none => cases h
  | some r =>
    cases r with
    | err e => cases h
    | panic e => cases h
    | ok ct =>
      have h := Option.some.inj h
      have h1 := (Prod.ext_iff.1 h).1
      have h2 := (Prod.ext_iff.1 (Prod.ext_iff.1 h).2)
      dsimp only at h1 h2
      exact ⟨ct, by rw [h1], h2.1, h2.2⟩

/-- A rejected nonce is visible too: the one-byte mask of the nonce 1121 is zero. -/
example : (SM2.encryptOut refStale 2 (zeros 16) priv2.pub [0x61]).1 = [⟨1, 64, 0⟩, ⟨1, 64, 0⟩] := by decide +kernel

/-- A ciphertext of 96 bytes has an empty mask: nothing is printed. A short one is refused before. -/
example : (SM2.decryptOut refStale priv2 (beFix 32 Curves.sm2.Gx ++ beFix 32 Curves.sm2.Gy ++ zeros 32) []) =
    ([], .ok (none, some "KDF calc error")) := by decide +kernel

end Verif.Props
