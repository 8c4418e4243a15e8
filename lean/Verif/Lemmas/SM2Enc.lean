import Verif.Lemmas.SM2
/-!
# Lemmas about the SM2 encryption model
-/
namespace Verif.SM2
open Verif.Spec

theorem beFix_len (w n : ℕ) : (beFix w n).length = w := by
  induction w generalizing n with
  | zero => rfl
  | succ w ih => simp [beFix, ih]

theorem bytesOfNat_len (n : ℕ) : (bytesOfNat n).length = byteLen n := beFix_len _ _

theorem sm3Sum_spec (m : Bytes) (h : m.length < 2 ^ 61) : sm3Sum m = Spec.SM3.hash m := by
  unfold sm3Sum SM3.sumBytes
  rw [SM3.checkSum_eq (SM3.write_rep SM3.rep_new m) (show m.length < 2 ^ 64 by omega)]
  rfl

/-! ## Key derivation -/

theorem counter_bytes (i : ℕ) :
    ([BitVec.ofNat 8 (i >>> 24), BitVec.ofNat 8 (i >>> 16), BitVec.ofNat 8 (i >>> 8), BitVec.ofNat 8 i] : Bytes)
      = beFix 4 i := by
  simp only [beFix, List.nil_append, List.cons_append, Nat.shiftRight_eq_div_pow, Nat.div_div_eq_div_mul]

theorem kdfLoop_eq (z : Bytes) (hz : z.length < 2 ^ 60) (fuel : ℕ) : ∀ (i rLen : ℕ) (pp : Bytes), rLen ≤ fuel →
    kdfLoop z fuel i rLen pp = pp ++ ((List.range ((rLen + 31) / 32)).flatMap
      fun j => Spec.SM3.hash (z ++ beFix 4 (i + j))).take rLen := by
  have hs' : ∀ i, sm3Sum (z ++ beFix 4 i) = Spec.SM3.hash (z ++ beFix 4 i) := fun i =>
    sm3Sum_spec _ (by rw [List.length_append, beFix_len]; omega)
  have hl' : ∀ m, (Spec.SM3.hash m).length = 32 := SM3.spec_hash_length
  generalize Spec.SM3.hash = Hs at hs' hl' ⊢
  induction fuel with
  | zero =>
    intro i rLen pp h
    have : rLen = 0 := by omega
    subst this; simp [kdfLoop]
  | succ fuel ih =>
    intro i rLen pp h
    unfold kdfLoop
    split_ifs with h0 h1
    · simp only [counter_bytes]
      rw [ih _ _ _ (by omega)]
      have hq : (rLen + 31) / 32 = (rLen - 32 + 31) / 32 + 1 := by omega
      have hs := hs' i
      have hl := hl' (z ++ beFix 4 i)
      rw [hq, List.range_succ_eq_map, List.flatMap_cons, List.flatMap_map, hs,
        List.take_append]
      rw [show i + 0 = i from rfl, hl, List.append_assoc]
      rw [List.take_of_length_le (show (Hs (z ++ beFix 4 i)).length ≤ 32 by omega),
        List.take_of_length_le (show (Hs (z ++ beFix 4 i)).length ≤ rLen by omega)]
      simp only [Nat.succ_eq_add_one, Nat.add_assoc, Nat.add_comm 1]
    · simp only [counter_bytes]
      rw [ih _ _ _ (by omega)]
      have hq : (rLen + 31) / 32 = 1 := by omega
      have hq0 : (rLen - 32 + 31) / 32 = 0 := by omega
      have hs := hs' i
      rw [hq, hq0, hs]
      simp only [List.range_zero, List.flatMap_nil, List.take_nil, List.append_nil, List.range_one,
        List.flatMap_cons, Nat.add_zero]
    · have : rLen = 0 := by omega
      subst this; simp

theorem kdf_length (z : Bytes) (n : ℕ) : (SM2.kdf z n).length = n := by
  unfold SM2.kdf
  rw [List.length_take]
  have : ∀ q : ℕ, ((List.range q).flatMap fun i => Spec.SM3.hash (z ++ beFix 4 (i + 1))).length = q * 32 := by
    intro q
    induction q with
    | zero => rfl
    | succ q ih =>
      rw [List.range_succ, List.flatMap_append, List.length_append, ih]
      simp only [List.flatMap_cons, List.flatMap_nil, List.append_nil, SM3.spec_hash_length]
      omega
  rw [this]; omega

/-- `sm3kdf` returns the standard's bytes unless the first `len(z)` of them are all zero. -/
theorem sm3kdf_eq (z : Bytes) (hz : z.length < 2 ^ 60) (n : ℕ) :
    sm3kdf z n = if ∀ b ∈ (SM2.kdf z n).take z.length, b = 0 then none else some (SM2.kdf z n) := by
  unfold sm3kdf
  have hpp : kdfLoop z n 1 n [] = SM2.kdf z n := by
    rw [kdfLoop_eq z hz n 1 n [] le_rfl]
    unfold SM2.kdf
    simp only [List.nil_append, Nat.add_comm 1]
  rw [hpp]
  have hk : kdfCheck z.length (SM2.kdf z n) = true ↔ ¬ ∀ b ∈ (SM2.kdf z n).take z.length, b = 0 := by
    unfold kdfCheck
    simp only [List.any_eq_true, decide_eq_true_eq]
    push Not
    rfl
  by_cases h : ∀ b ∈ (SM2.kdf z n).take z.length, b = 0
  · rw [if_pos h, if_neg (by rw [hk]; exact fun hn => hn h)]
  · rw [if_neg h, if_pos (hk.2 h)]

/-! ## Buffers -/

/-- `a` with the number `n` written over its right end. -/
def overlay (a : Bytes) (n : ℕ) : Bytes := a.take (32 - byteLen n) ++ bytesOfNat n

theorem overlay_length {a : Bytes} {n : ℕ} (ha : a.length = 32) (hn : byteLen n ≤ 32) :
    (overlay a n).length = 32 := by
  unfold overlay
  rw [List.length_append, List.length_take, bytesOfNat_len]; omega

theorem overlay_of_zeros {a : Bytes} {n : ℕ} (hn : byteLen n ≤ 32)
    (hz : a.take (32 - byteLen n) = zeros (32 - byteLen n)) : overlay a n = beFix 32 n := by
  unfold overlay
  rw [hz]; exact zeros_append_bytesOfNat hn

theorem overlay_zeros {n : ℕ} (hn : byteLen n ≤ 32) : overlay (zeros 32) n = beFix 32 n := by
  apply overlay_of_zeros hn
  unfold zeros
  rw [List.take_replicate]; congr 1; omega

/-- Overlaying a number that is not longer keeps leading zeros. -/
theorem overlay_take {a : Bytes} {n m : ℕ} (hz : a.take (32 - m) = zeros (32 - m)) (ha : a.length = 32)
    (hnm : byteLen n ≤ m) : (overlay a n).take (32 - m) = zeros (32 - m) := by
  unfold overlay
  rw [List.take_append_of_le_length (by rw [List.length_take]; omega), List.take_take,
    Nat.min_eq_left (by omega)]
  exact hz

theorem putRight_32 {a rest : Bytes} {n : ℕ} (ha : a.length = 32) (hn : byteLen n ≤ 32) :
    putRight (a ++ rest) 32 n = .ok (overlay a n ++ rest) := by
  unfold putRight
  rw [if_neg (by omega)]
  simp only [SM3.goCopyAt, List.length_append, ha, bytesOfNat_len]
  have hmin : min (32 + rest.length - (32 - byteLen n)) (byteLen n) = byteLen n := by omega
  rw [hmin, List.take_append_of_le_length (by omega), List.take_of_length_le (l := bytesOfNat n) (by rw [bytesOfNat_len])]
  have hd : 32 - byteLen n + byteLen n = 32 := by omega
  rw [hd, List.drop_append, List.drop_of_length_le (by omega), ha, Nat.sub_self]
  rfl

theorem putRight_64 {a b rest : Bytes} {n : ℕ} (ha : a.length = 32) (hb : b.length = 32)
    (hn : byteLen n ≤ 32) : putRight (a ++ b ++ rest) 64 n = .ok (a ++ overlay b n ++ rest) := by
  unfold putRight
  rw [if_neg (by omega)]
  simp only [SM3.goCopyAt, List.length_append, ha, hb, bytesOfNat_len]
  have hmin : min (32 + 32 + rest.length - (64 - byteLen n)) (byteLen n) = byteLen n := by omega
  rw [hmin, List.take_append_of_le_length (by simp; omega), List.take_append, ha,
    List.take_of_length_le (l := a) (by omega), List.take_of_length_le (l := bytesOfNat n) (by rw [bytesOfNat_len])]
  have hd : 64 - byteLen n + byteLen n = 64 := by omega
  rw [hd, List.drop_append, List.drop_of_length_le (by simp; omega)]
  have h2 : 64 - byteLen n - 32 = 32 - byteLen n := by omega
  simp [overlay, ha, hb, h2]

theorem pointBuf_eq {x y : ℕ} (hx : byteLen x ≤ 32) (hy : byteLen y ≤ 32) :
    pointBuf x y = .ok (beFix 32 x ++ beFix 32 y) := by
  have hz : zeros 64 = zeros 32 ++ zeros 32 := rfl
  unfold pointBuf
  rw [hz, putRight_32 (by rfl) hx]
  show putRight (overlay (zeros 32) x ++ zeros 32) 64 y = _
  have := putRight_64 (a := overlay (zeros 32) x) (b := zeros 32) (rest := [])
    (overlay_length rfl hx) rfl hy
  rw [List.append_nil, List.append_nil] at this
  rw [this, overlay_zeros hx, overlay_zeros hy]

theorem zeros_length (n : ℕ) : (zeros n).length = n := List.length_replicate

theorem zeros_drop (n k : ℕ) : (zeros n).drop k = zeros (n - k) := List.drop_replicate

/-- The bytes hashed into `C3`: `x2` in 32 bytes, the message, and `y2` followed by zeros. -/
theorem macOf_eq {x y : ℕ} (hx : byteLen x ≤ 32) (hy : byteLen y ≤ 32) (m : Bytes) :
    macOf x y m = .ok (sm3Sum (beFix 32 x ++ m ++ (bytesOfNat y ++ zeros (32 - byteLen y)))) := by
  unfold macOf
  have hz : zeros (32 + m.length + 32) = zeros 32 ++ (zeros m.length ++ zeros 32) := by
    unfold zeros
    rw [List.replicate_append_replicate, List.replicate_append_replicate]; congr 1
  simp only [hz, putRight_32 (show (zeros 32).length = 32 from rfl) hx, overlay_zeros hx, Res.bind_eq, Res.bind_ok]
  refine congrArg (fun t => Res.ok (sm3Sum t)) ?_
  have h1 : (SM3.goCopyAt (beFix 32 x ++ (zeros m.length ++ zeros 32)) 32 m).1
      = beFix 32 x ++ m ++ zeros 32 := by
    simp only [SM3.goCopyAt, List.length_append, beFix_len, zeros_length]
    have : min (32 + (m.length + 32) - 32) m.length = m.length := by omega
    rw [this, List.take_append_of_le_length (by rw [beFix_len]), List.take_of_length_le (by rw [beFix_len]),
      List.take_length, ← List.append_assoc, List.drop_append, List.drop_of_length_le (by simp [beFix_len, zeros_length])]
    simp [beFix_len, zeros_length]
  rw [h1]
  simp only [SM3.goCopyAt, List.length_append, beFix_len, zeros_length, bytesOfNat_len]
  have h2 : 32 + m.length + 32 - 32 = 32 + m.length := by omega
  have h3 : min (32 + m.length + 32 - (32 + m.length)) (byteLen y) = byteLen y := by omega
  rw [h2, h3, List.take_append_of_le_length (by simp [beFix_len]),
    List.take_of_length_le (by simp [beFix_len]), List.take_of_length_le (l := bytesOfNat y) (by rw [bytesOfNat_len]),
    List.drop_append, List.drop_of_length_le (by simp [beFix_len])]
  simp only [List.length_append, beFix_len, List.nil_append, List.append_assoc]
  have h4 : 32 + m.length + byteLen y - (32 + m.length) = byteLen y := by omega
  rw [h4, zeros_drop]

theorem xor_xor (a b : Bytes) (h : a.length = b.length) :
    List.zipWith (· ^^^ ·) (List.zipWith (· ^^^ ·) a b) b = a := by
  induction a generalizing b with
  | nil => simp
  | cons x xs ih =>
    cases b with
    | nil => simp at h
    | cons y ys =>
      simp only [List.zipWith_cons_cons, List.cons.injEq]
      exact ⟨by rw [BitVec.xor_assoc, BitVec.xor_self, BitVec.xor_zero], ih ys (by simpa using h)⟩

theorem P_lt : Curves.sm2.P < 2 ^ 256 := by decide +kernel

theorem xy_byteLen (P : Pt Curves.sm2 (-3)) : byteLen (xy P).1 ≤ 32 ∧ byteLen (xy P).2 ≤ 32 := by
  have hlt := P_lt
  by_cases hP : P = 0
  · subst hP; exact ⟨by decide, by decide⟩
  · obtain ⟨-, hx, hy⟩ := Affine.xy_onCurve P hP
    constructor
    · rw [byteLen_le_iff]; calc _ < _ := hx
        _ < _ := hlt
    · rw [byteLen_le_iff]; calc _ < _ := hy
        _ < _ := hlt

/-! ## The loop of Encrypt -/

/-- The shared bytes `x2 ‖ y2`. -/
def shared (P : Pt Curves.sm2 (-3)) : Bytes := beFix 32 (xy P).1 ++ beFix 32 (xy P).2

theorem shared_length (P : Pt Curves.sm2 (-3)) : (shared P).length = 64 := by
  simp [shared, beFix_len]

/-- The mask is rejected: its first 64 bytes are all zero. -/
def ZeroMask (P : Pt Curves.sm2 (-3)) (n : ℕ) : Prop := ∀ b ∈ (SM2.kdf (shared P) n).take 64, b = 0

theorem kdf_shared (P : Pt Curves.sm2 (-3)) (n : ℕ) [Decidable (ZeroMask P n)] :
    sm3kdf (shared P) n = if ZeroMask P n then none else some (SM2.kdf (shared P) n) := by
  rw [sm3kdf_eq _ (by rw [shared_length]; norm_num), shared_length]
  exact if_congr Iff.rfl rfl rfl

/-- The bytes of `C3` for the shared point `P`. -/
def mac (P : Pt Curves.sm2 (-3)) (m : Bytes) : Bytes :=
  sm3Sum (beFix 32 (xy P).1 ++ m ++ (bytesOfNat (xy P).2 ++ zeros (32 - byteLen (xy P).2)))

theorem goCopy_exact (a b c d : Bytes) (h : b.length = d.length) (off : ℕ) (ho : off = a.length) :
    (SM3.goCopyAt (a ++ b ++ c) off d).1 = a ++ d ++ c := by
  subst ho
  simp only [SM3.goCopyAt, List.length_append]
  have : min (a.length + b.length + c.length - a.length) d.length = d.length := by omega
  rw [this, List.take_length, ← h]
  simp

theorem sm3Sum_length (m : Bytes) (h : m.length < 2 ^ 61) : (sm3Sum m).length = 32 := by
  rw [sm3Sum_spec m h, SM3.spec_hash_length]

theorem mac_length (P : Pt Curves.sm2 (-3)) (m : Bytes) (h : m.length < 2 ^ 60) : (mac P m).length = 32 := by
  have := xy_byteLen P
  apply sm3Sum_length
  simp only [List.length_append, beFix_len, bytesOfNat_len, zeros_length]
  omega

section
variable {E : Ext} (hE : E.Lawful) {G P : Pt Curves.sm2 (-3)}
  (hG : xy G = (Curves.sm2.Gx, Curves.sm2.Gy)) (hP : P ≠ 0) {pub : ECPub}
  (hc : pub.curve = Curves.sm2) (hpub : (pub.x, pub.y) = xy P)
include hE hG hP hc hpub

omit hE hG hc in
theorem pub_ne : ¬ (pub.x = 0 ∧ pub.y = 0) := by
  intro h
  apply hP
  rw [← Affine.xy_eq_zero_iff good_sm2.ok, ← hpub, h.1, h.2]

/-- One round of the loop. -/
theorem encryptLoop_cons (data : Bytes) (hd : data.length < 2 ^ 60) (b : Bytes) (bs : List Bytes)
    (A B R1 R2 : Bytes) (hA : A.length = 32) (hB : B.length = 32) (hR1 : R1.length = 32)
    (hR2 : R2.length = data.length) [Decidable (ZeroMask (randFieldElement Curves.sm2 b • P) data.length)] :
    encryptLoop E pub data (b :: bs) (A ++ B ++ (R1 ++ R2)) =
      if ZeroMask (randFieldElement Curves.sm2 b • P) data.length then
        encryptLoop E pub data bs (overlay A (xy (randFieldElement Curves.sm2 b • G)).1
          ++ overlay B (xy (randFieldElement Curves.sm2 b • G)).2 ++ (R1 ++ R2))
      else some (.ok (overlay A (xy (randFieldElement Curves.sm2 b • G)).1
          ++ overlay B (xy (randFieldElement Curves.sm2 b • G)).2
          ++ (mac (randFieldElement Curves.sm2 b • P) data
          ++ SM2.xor data (SM2.kdf (shared (randFieldElement Curves.sm2 b • P)) data.length)))) := by
  have hbase := hE.base G hG (randFieldElement Curves.sm2 b)
  have hmult : E.ops.mult (pub.x, pub.y) (randFieldElement Curves.sm2 b)
      = xy (randFieldElement Curves.sm2 b • P) := by
    rw [hpub]; exact mult_xy hE hP _
  have hl1 := xy_byteLen (randFieldElement Curves.sm2 b • G)
  have hl2 := xy_byteLen (randFieldElement Curves.sm2 b • P)
  have hput : ((putRight (A ++ B ++ (R1 ++ R2)) 32 (xy (randFieldElement Curves.sm2 b • G)).1).bind
      fun buf => putRight buf 64 (xy (randFieldElement Curves.sm2 b • G)).2) =
      .ok (overlay A (xy (randFieldElement Curves.sm2 b • G)).1
          ++ overlay B (xy (randFieldElement Curves.sm2 b • G)).2 ++ (R1 ++ R2)) := by
    rw [List.append_assoc, putRight_32 hA hl1.1, Res.bind_ok, ← List.append_assoc]
    exact putRight_64 (overlay_length hA hl1.1) hB hl1.2
  have hpb : pointBuf (xy (randFieldElement Curves.sm2 b • P)).1 (xy (randFieldElement Curves.sm2 b • P)).2
      = .ok (shared (randFieldElement Curves.sm2 b • P)) := pointBuf_eq hl2.1 hl2.2
  have hk := kdf_shared (randFieldElement Curves.sm2 b • P) data.length
  have hmac : macOf (xy (randFieldElement Curves.sm2 b • P)).1 (xy (randFieldElement Curves.sm2 b • P)).2 data
      = .ok (mac (randFieldElement Curves.sm2 b • P) data) := macOf_eq hl2.1 hl2.2 data
  have hml := mac_length (randFieldElement Curves.sm2 b • P) data hd
  rw [encryptLoop]
  simp only [hc, hbase, hmult, hput, if_neg (pub_ne hP hpub), hpb, hk]
  have hoA := overlay_length hA hl1.1
  have hoB := overlay_length hB hl1.2
  generalize overlay A (xy (randFieldElement Curves.sm2 b • G)).1 = A' at *
  generalize overlay B (xy (randFieldElement Curves.sm2 b • G)).2 = B' at *
  split_ifs with hz
  · rfl
  · simp only [hmac, Res.bind_ok]
    have e1 := goCopy_exact (A' ++ B') R1 R2 (mac (randFieldElement Curves.sm2 b • P) data)
      (by omega) 64 (by rw [List.length_append]; omega)
    rw [List.append_assoc (A' ++ B')] at e1
    rw [e1]
    have e2 := goCopy_exact (A' ++ B' ++ mac (randFieldElement Curves.sm2 b • P) data) R2 []
      (SM2.xor data (SM2.kdf (shared (randFieldElement Curves.sm2 b • P)) data.length))
      (by rw [SM2.xor, List.length_zipWith, kdf_length]; omega) 96
      (by simp only [List.length_append]; omega)
    rw [List.append_nil, List.append_nil] at e2
    rw [← List.append_assoc (A' ++ B')]
    exact congrArg (fun t => some (Res.ok t)) e2

/-- The loop up to and including the first accepted mask. -/
theorem encryptLoop_run (data : Bytes) (hd : data.length < 2 ^ 60) (pre : List Bytes) (b : Bytes)
    (post : List Bytes) (hpre : ∀ b' ∈ pre, ZeroMask (randFieldElement Curves.sm2 b' • P) data.length)
    (hb : ¬ ZeroMask (randFieldElement Curves.sm2 b • P) data.length) :
    ∀ (A B R1 R2 : Bytes), A.length = 32 → B.length = 32 → R1.length = 32 → R2.length = data.length →
    encryptLoop E pub data (pre ++ b :: post) (A ++ B ++ (R1 ++ R2)) =
      some (.ok (overlay (pre.foldl (fun a b => overlay a (xy (randFieldElement Curves.sm2 b • G)).1) A)
            (xy (randFieldElement Curves.sm2 b • G)).1
          ++ overlay (pre.foldl (fun a b => overlay a (xy (randFieldElement Curves.sm2 b • G)).2) B)
            (xy (randFieldElement Curves.sm2 b • G)).2
          ++ (mac (randFieldElement Curves.sm2 b • P) data
          ++ SM2.xor data (SM2.kdf (shared (randFieldElement Curves.sm2 b • P)) data.length)))) := by
  classical
  induction pre with
  | nil =>
    intro A B R1 R2 hA hB hR1 hR2
    rw [List.nil_append, encryptLoop_cons hE hG hP hc hpub data hd b post A B R1 R2 hA hB hR1 hR2, if_neg hb]
    rfl
  | cons b' pre ih =>
    intro A B R1 R2 hA hB hR1 hR2
    have hl := xy_byteLen (randFieldElement Curves.sm2 b' • G)
    rw [List.cons_append, encryptLoop_cons hE hG hP hc hpub data hd b' _ A B R1 R2 hA hB hR1 hR2,
      if_pos (hpre b' (by simp)), ih (fun x hx => hpre x (by simp [hx])) _ _ R1 R2
        (overlay_length hA hl.1) (overlay_length hB hl.2) hR1 hR2]
    rfl

/-- The loop keeps going while masks are rejected. -/
theorem encryptLoop_none (data : Bytes) (hd : data.length < 2 ^ 60) (reads : List Bytes)
    (hr : ∀ b' ∈ reads, ZeroMask (randFieldElement Curves.sm2 b' • P) data.length) :
    ∀ (A B R1 R2 : Bytes), A.length = 32 → B.length = 32 → R1.length = 32 → R2.length = data.length →
    encryptLoop E pub data reads (A ++ B ++ (R1 ++ R2)) = none := by
  classical
  induction reads with
  | nil => intros; rfl
  | cons b' pre ih =>
    intro A B R1 R2 hA hB hR1 hR2
    have hl := xy_byteLen (randFieldElement Curves.sm2 b' • G)
    rw [encryptLoop_cons hE hG hP hc hpub data hd b' _ A B R1 R2 hA hB hR1 hR2,
      if_pos (hr b' (by simp)), ih (fun x hx => hr x (by simp [hx])) _ _ R1 R2
        (overlay_length hA hl.1) (overlay_length hB hl.2) hR1 hR2]

end

theorem foldl_overlay_length {α : Type} (f : α → ℕ) (l : List α) (hf : ∀ b ∈ l, byteLen (f b) ≤ 32) :
    ∀ a : Bytes, a.length = 32 → (l.foldl (fun a b => overlay a (f b)) a).length = 32 := by
  induction l with
  | nil => intro a ha; exact ha
  | cons b l ih =>
    intro a ha
    exact ih (fun x hx => hf x (by simp [hx])) _ (overlay_length ha (hf b (by simp)))

/-- If no earlier number is longer than the last one, the buffer ends up with the last one alone. -/
theorem foldl_overlay {α : Type} (f : α → ℕ) (l : List α) (n : ℕ) (hn : byteLen n ≤ 32)
    (hf : ∀ b ∈ l, byteLen (f b) ≤ byteLen n) :
    overlay (l.foldl (fun a b => overlay a (f b)) (zeros 32)) n = beFix 32 n := by
  apply overlay_of_zeros hn
  have : ∀ (l : List α), (∀ b ∈ l, byteLen (f b) ≤ byteLen n) → ∀ a : Bytes, a.length = 32 →
      a.take (32 - byteLen n) = zeros (32 - byteLen n) →
      (l.foldl (fun a b => overlay a (f b)) a).take (32 - byteLen n) = zeros (32 - byteLen n) := by
    intro l
    induction l with
    | nil => intro _ a _ h; exact h
    | cons b l ih =>
      intro hf a ha h
      have hb := hf b (by simp)
      exact ih (fun x hx => hf x (by simp [hx])) _ (overlay_length ha (by omega)) (overlay_take h ha hb)
  apply this l hf _ rfl
  unfold zeros
  rw [List.take_replicate]; congr 1; omega

/-! ## Decrypt -/

/-- What `Decrypt` returns for a first point `C`. -/
theorem decrypt_eq {E : Ext} (hE : E.Lawful) {priv : ECPriv} (hc : priv.pub.curve = Curves.sm2)
    {data spare : Bytes} (hl : 64 ≤ (data ++ spare).length) {C : Pt Curves.sm2 (-3)} (hC : C ≠ 0)
    (hon : E.isOnCurve (natOfBytes ((data ++ spare).take 32)) (natOfBytes (((data ++ spare).drop 32).take 32))
      = true)
    (hxy : (natOfBytes ((data ++ spare).take 32) % Curves.sm2.P,
      natOfBytes (((data ++ spare).drop 32).take 32) % Curves.sm2.P) = xy C)
    [Decidable (ZeroMask (priv.D • C) (data.length - 96))] :
    decrypt E priv data spare = .ok (
      if ZeroMask (priv.D • C) (data.length - 96) then (none, some "KDF calc error")
      else
        if mac (priv.D • C) (SM2.xor (data.drop 96) (SM2.kdf (shared (priv.D • C)) (data.length - 96)))
          ≠ (data.drop 64).take 32 then
          (some (SM2.xor (data.drop 96) (SM2.kdf (shared (priv.D • C)) (data.length - 96))),
            some "Hash not match!")
        else (some (SM2.xor (data.drop 96) (SM2.kdf (shared (priv.D • C)) (data.length - 96))), none)) := by
  unfold decrypt
  rw [if_neg (by simp [hc])]
  simp only
  rw [if_neg (by omega)]
  have hmult := hE.mult C _ _ priv.D hC hon hxy
  generalize natOfBytes ((data ++ spare).take 32) = x1 at *
  generalize natOfBytes (((data ++ spare).drop 32).take 32) = y1 at *
  have h0 : ¬ (x1 = 0 ∧ y1 = 0) := by
    rintro ⟨rfl, rfl⟩
    apply hC
    rw [← Affine.xy_eq_zero_iff good_sm2.ok, ← hxy, Nat.zero_mod]
  rw [if_neg h0, if_neg (by rw [hon]; simp)]
  have hb := xy_byteLen (priv.D • C)
  have hpb : pointBuf (xy (priv.D • C)).1 (xy (priv.D • C)).2 = .ok (shared (priv.D • C)) :=
    pointBuf_eq hb.1 hb.2
  have hmac : ∀ m, macOf (xy (priv.D • C)).1 (xy (priv.D • C)).2 m = .ok (mac (priv.D • C) m) :=
    fun m => macOf_eq hb.1 hb.2 m
  have hxor : ∀ a b : Bytes, List.zipWith (fun x1 x2 => x1 ^^^ x2) a b = SM2.xor a b := fun _ _ => rfl
  simp only [hmult, hpb, Res.bind_ok, kdf_shared, hmac, hxor]
  generalize mac (priv.D • C) = M
  generalize SM2.kdf (shared (priv.D • C)) (data.length - 96) = K
  by_cases hz : ZeroMask (priv.D • C) (data.length - 96)
  · rw [if_pos hz, if_pos hz]
  · rw [if_neg hz, if_neg hz]
    by_cases hm : M (SM2.xor (List.drop 96 data) K) ≠ List.take 32 (List.drop 64 data)
    · simp only [Res.bind_ok]; rw [if_pos hm, if_pos hm]
    · simp only [Res.bind_ok]; rw [if_neg hm, if_neg hm]

end Verif.SM2
